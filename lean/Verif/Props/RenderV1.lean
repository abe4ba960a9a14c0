import Verif.Lib.HazardV1
import Verif.Lib.HazardArgs
import Verif.Lib.V1Review
import Verif.Props.Render
import Verif.Props.Calls
/-
C40: memory safety of showing a version 1 transaction.
-/
namespace Casper
open M

/-! ### Specification -/

/-- What the bytes of a version 1 transaction contain if showing it leaves the bounds of memory: a bad value; a chain name of
100 bytes (modulo 256) without terminator; named arguments whose claimed length is zero or exceeds the data, or that start where their
position modulo 256 is below four; or a number above 2³² − 65536, taken for a length. -/
inductive OutOfBoundsV1 (xs : Bytes) : Prop
  | value (h : BadValue xs)
  | chain (v post : Bytes) (h : Holds xs v post) (hl : v.length % 256 = 100) (h0 : 0 ∉ v.take 100)
  | args (pre post : Bytes) (n : Nat) (h : xs = pre ++ (le 4 n ++ 0 :: post)) (hlt : n < 2 ^ 32)
      (hb : n = 0 ∨ post.length + 1 < n ∨ (pre.length + 9) % 256 < 4)
  | huge (pre post : Bytes) (n : Nat) (h : xs = pre ++ (le 4 n ++ post)) (hn : 2 ^ 32 - 65536 ≤ n) (hlt : n < 2 ^ 32)

/-- The parts of a transaction that are shown fit the arrays they are shown from, and the arguments start among the first 256 bytes. -/
structure TxFits (p : TxPayload) : Prop where
  chain : p.chain.length ≤ 99
  args : ∀ as, p.args = .named as → ∀ a ∈ as, a.name.takeWhile (· != 0) ∈ [b!"source", b!"target", b!"id", b!"delegator", b!"validator",
    b!"new_validator", b!"public_key", b!"delegation_rate", b!"minimum_delegation_amount", b!"maximum_delegation_amount", b!"reserved_slots",
    b!"validator_public_key", b!"new_public_key"] → a.Shows
  place : p.argsPos < 256

/-! ### Proof -/

theorem At.huge {buf : Bytes} {o n : Nat} (h : At buf o (Casper.le 4 n)) (hlt : n < 4294967296) (hh : 4294967296 - 65536 ≤ n) : OutOfBoundsV1 buf := by
  obtain ⟨pre, post, h, -⟩ := h
  exact .huge pre post n (by rw [h]; simp) (by omega) (by omega)

/-- **C40, any bytes.** If showing a line of a version 1 transaction that was parsed leaves the bounds of memory, then the data
contain one of the things listed in `OutOfBoundsV1`. -/
theorem C40_v1_partial (e : Env) (hs : Small e) (s : VS) (hr : readV1 e ⟨0, {}⟩ = .ok () s) (i c : Nat) (f : Fault)
    (hfault : getItemV1 e s.v i c = .fault f) : OutOfBoundsV1 e.buf := by
  cases (readV1_post hs _ _ hr).item_fault hs f hfault with
  | value name n len t x hm hop hn hg hl hb => exact .value (hb.bounds hl)
  | chain len ha hlt hm hc hin xs hx hl h0 =>
    have h4 : 4 ≤ chainPos s.v := by unfold chainPos; omega
    obtain ⟨v, hv, hvl⟩ : ∃ v, At e.buf (chainPos s.v) v ∧ v.length = len :=
      ⟨(e.buf.drop (chainPos s.v)).take len, at_iff.2 ⟨by simp; omega, by simp⟩, by simp; omega⟩
    have hp : At e.buf (chainPos s.v - 4) (Casper.pfx v) := by
      rw [Casper.pfx, At.append, le_length, hvl]
      exact ⟨ha, hv.cast (by omega)⟩
    obtain ⟨post, h⟩ := hp.holds
    refine .chain v post h (by omega) ?_
    have hv' := hv
    rw [← List.take_append_drop 100 v, At.append] at hv'
    rw [hv'.1.unique hx (by rw [List.length_take]; omega)]
    exact h0
  | chainHuge len ha hlt hh => exact ha.huge hlt hh
  | name hp ht ha hlt hh => exact ha.huge hlt hh
  | entry hep hp ha hlt hh => exact ha.huge hlt hh
  | args off z hep ht ha hb =>
    obtain ⟨h1, h2⟩ := ha
    rcases h2 with ⟨-, h2, h3, -, h4, -⟩ | ⟨h', -⟩
    · obtain ⟨pre, post, h5, h6⟩ : At e.buf off (le 4 s.v.argsLen ++ [0]) := by
        rw [At.append, le_length]; exact ⟨h2, h3⟩
      refine .args pre post s.v.argsLen (by rw [h5]; simp) (by omega) ?_
      have hlen : e.buf.length = off + 5 + post.length := by
        have := congrArg List.length h5
        simp at this
        omega
      rw [h1] at hb
      unfold u8 at hb
      omega
    · omega
  | bytes off z hep ht ha hh =>
    obtain ⟨h1, h2⟩ := ha
    rcases h2 with ⟨h', -⟩ | ⟨-, -, -, h2, h4, -⟩
    · omega
    · exact h2.huge h4 hh

theorem getData_more {e : Env} {name : Bytes} {r : Nat × Nat} {o : Nat} : ∀ {k n off : Nat}, k ≤ n → getData e name k off = .ok r o → getData e name n off = .ok r o := by
  intro k
  induction k with
  | zero => intro n off _ h; cases h
  | succ k ih =>
    intro n off hn h
    obtain ⟨n, rfl⟩ : ∃ m, n = m + 1 := ⟨n - 1, by omega⟩
    rw [getData, bind_eq_ok] at h
    obtain ⟨key, t, h1, h2⟩ := h
    rw [getData, bind_eq_ok]
    refine ⟨key, t, h1, ?_⟩
    split at h2
    · rename_i hk
      rw [if_pos hk]
      exact h2
    · rename_i hk
      rw [if_neg hk]
      rw [bind_eq_ok] at h2 ⊢
      obtain ⟨a, t1, h3, h2⟩ := h2
      refine ⟨a, t1, h3, ?_⟩
      rw [bind_eq_ok] at h2 ⊢
      obtain ⟨a, t1, h3, h2⟩ := h2
      exact ⟨a, t1, h3, ih (by omega) h2⟩

section
variable {p : TxPayload} {H : Bytes → Bytes} {ap : List Bytes} {e : Env}
theorem result_args {as : List Arg} (ha : p.args = .named as) :
    (p.result H ap e).argsType = 0 ∧ (p.result H ap e).argsLen = p.args.encode.length := by
  cases p with | mk i t l c pr a tg en =>
  subst ha
  cases en <;> exact ⟨rfl, rfl⟩
theorem result_bytes {xs : Bytes} (ha : p.args = .bytes xs) :
    (p.result H ap e).argsType = 1 ∧ (p.result H ap e).argsLen = xs.length ∧ (p.result H ap e).numArgs = 0 := by
  cases p with | mk i t l c pr a tg en =>
  subst ha
  cases en <;> exact ⟨rfl, rfl, rfl⟩
theorem result_custom {n : Bytes} (ha : p.entry = .custom n) : (p.result H ap e).cepLen = n.length := by
  cases p with | mk i t l c pr a tg en =>
  subst ha
  cases a <;> rfl
end

/-- The parts of the body lie in the data. -/
theorem TxLayout.small {p : TxPayload} {H : Bytes → Bytes} {ap : List Bytes} {buf : Bytes} (h : TxLayout p H ap buf) :
    p.argsPos - 5 + p.args.encode.length ≤ buf.length ∧ p.target.encode.length ≤ buf.length ∧ p.entry.encode.length ≤ buf.length := by
  have hb := h.body.le
  unfold TxPayload.body at hb
  simp only [List.length_append, le_length, pfx_length] at hb
  have : 15 ≤ p.argsPos := by unfold TxPayload.argsPos; omega
  omega

theorem target_name {t : V1Target} {off : Nat} (h : (t.view off).typ = 2 ∨ (t.view off).typ = 4) : (t.view off).nameLen ≤ t.encode.length := by
  cases t <;> simp [V1Target.view] at h
  · simp [V1Target.view, V1Target.encode, callTable_length]; omega
  · simp [V1Target.view, V1Target.encode, callTable_length]; omega

/-- **C40, serialized transactions.** The bytes are a serialized transaction whose shown parts fit (`TxFits`).  Then, once parsed, showing any line
reads and writes only where it may. -/
theorem C40_v1_serialized_partial (e : Env) (hs : Small e) (p : TxPayload) (hp : p.Ok) (ap : List Bytes) (hap : ∀ x ∈ ap, ApprovalOk x)
    (hbuf : e.buf = p.tx e.blake ap) (hfit : TxFits p) (s : VS) (hr : readV1 e ⟨0, {}⟩ = .ok () s) (i c : Nat) (f : Fault) :
    getItemV1 e s.v i c ≠ .fault f := by
  have hf := hs.to_fits
  have hs' : e.buf.length ≤ 16384 := hs
  have hH : (e.blake p.encode).length = 32 := e.blake.len _
  have hfacts := readV1_post hs _ _ hr
  obtain ⟨hv, o, o', hsan⟩ := readV1_tx hr hs hp hap hbuf
  have hlay : TxLayout p e.blake ap e.buf := tx_layout hH ⟨[], [], by rw [hbuf]; simp, rfl⟩
  have hview : TxView p (p.result e.blake ap e) := result_view hH
  have hoff : (p.result e.blake ap e).argsOff = p.argsPos := by rw [result_argsOff hH]; exact u8_id hfit.place
  obtain ⟨b1, b2, b3⟩ := hlay.small
  have hpos : 15 ≤ p.argsPos := by unfold TxPayload.argsPos; omega
  intro hfault
  have hz := hfacts.item_fault hs f hfault
  rw [hv] at hz
  have hcp : chainPos (p.result e.blake ap e) - 4 = 123 + p.initiator.addr.length + 8 + 8 := by
    unfold chainPos
    rw [hview.size, hview.psize, hview.header]
    show _ + p.initiator.addr.length + 20 - 4 = _
    omega
  have hcl := hlay.chain.le
  cases hz with
  | value name n len t x hm hop hn hg hl hb =>
    rw [hoff] at hg
    cases ha : p.args with
    | bytes xs =>
      have h0 : (p.result e.blake ap e).numArgs = 0 := (result_bytes ha).2.2
      rcases hn with ⟨h11, -⟩ | ⟨-, hn⟩
      · unfold checkSanity at hsan
        split at hsan
        · cases hsan
        · rw [h11, h0] at hsan
          cases hsan
      · rw [hn, h0] at hg
        cases hg
    | named as =>
      have hat := hlay.args ha
      have hok : ∀ a ∈ as, a.Ok := by have := hp.args; rw [ha] at this; exact this
      have hna : (p.result e.blake ap e).numArgs = as.length := result_numArgs ha
      have : ∃ k, k ≤ as.length ∧ getData e name k p.argsPos = .ok (len, t) x := by
        rcases hn with ⟨h11, hn, hname⟩ | ⟨-, hn⟩
        · by_cases h3 : 3 ≤ as.length
          · exact ⟨3, h3, by rw [← hn]; exact hg⟩
          · refine ⟨as.length, Nat.le_refl _, ?_⟩
            unfold checkSanity at hsan
            split at hsan
            · cases hsan
            · rw [h11, hna, hoff] at hsan
              have hreq : requiredArgs 11 = [(b!"validator", false), (b!"delegators", false)] := rfl
              rw [hreq, checkRequired, bind_run, set_run, Res.bind_ok, bind_eq_ok] at hsan
              obtain ⟨r, t', hg', -⟩ := hsan
              have := getData_more (n := 3) (by omega) hg'
              rw [← hname, ← hn, hg] at this
              cases this
              rw [hname]
              exact hg'
        · exact ⟨as.length, Nat.le_refl _, by rw [← hna, ← hn]; exact hg⟩
      obtain ⟨k, hk, hg'⟩ := this
      obtain ⟨a, ham, han, rfl, rfl, hx⟩ := getData_arg hf hok hat hk hg'
      refine hb.not_shows hx (hfit.args as ha a ham ?_)
      show cstr a.name ∈ shownNamesV1
      rw [han]
      exact hm
  | chain len ha hlt hm hc hin xs hx hl h0 =>
    rw [hview.header] at hc
    have : u8 p.chain.length = 100 := hc
    have := hfit.chain
    rw [u8_id (by omega)] at *
    omega
  | chainHuge len ha hlt hh =>
    rw [hcp] at ha
    have := At.le_inj (n := 4) ha hlay.chainLen hlt (by omega)
    omega
  | name hp' ht ha hlt hh =>
    rw [result_target hH] at ht hh
    have := target_name ht
    omega
  | entry hep hp' ha hlt hh =>
    rw [hview.ep] at hep
    cases hen : p.entry with
    | custom n =>
      rw [result_custom hen] at hh
      rw [hen] at b3
      simp [V1Entry.encode, callTable_length] at b3
      omega
    | op t =>
      have := hp.entry
      rw [hen] at this hep
      exact absurd hep this.2
  | args off z hep ht ha hb =>
    cases hargs : p.args with
    | bytes xs => rw [(result_bytes hargs).1] at ht; omega
    | named as =>
      rw [(result_args hargs).2, hoff] at hb
      have : 0 < p.args.encode.length := by rw [hargs]; simp [V1Args.encode]
      omega
  | bytes off z hep ht ha hh =>
    cases hargs : p.args with
    | named as => rw [(result_args hargs).1] at ht; omega
    | bytes xs =>
      rw [(result_bytes hargs).2.1] at hh
      rw [hargs] at b1
      simp [V1Args.encode] at b1
      omega

/-- The sample transfer is such a transaction. -/
example : TxFits sampleTransfer := by
  refine ⟨by decide, ?_, by decide⟩
  intro as has a ha _
  cases has
  simp only [List.mem_cons, List.not_mem_nil, or_false] at ha
  rcases ha with rfl | rfl | rfl
  · trivial
  · exact (by decide : (List.replicate 32 (0x11 : UInt8)).length ≤ 49)
  · trivial

/-! ### Transactions that make the device leave the bounds of memory -/

/-- The replies to the upload of a transaction (in `k` pieces and the rest). -/
def repliesToV1 (xs : Bytes) (k : Nat) : List Out :=
  (run samplePl (Dev.init samplePl) (sampleUpload (1 :: xs) k)).2

/-- **C40 fails**: a transfer to a byte array of 128 bytes, or of 50 bytes; a chain name of 100 bytes. -/
theorem C40_v1_target_false :
    repliesToV1 (({ sampleTransfer with args := .named [⟨b!"amount", bigNum 4 2500000000, .u512⟩, ⟨b!"target", List.replicate 128 0x11, .byteArray 128⟩,
      ⟨b!"id", 1 :: le 8 7, .option .u64⟩] } : TxPayload).tx Blake.H []) 1 = crashAfter 1 .oobWrite ∧
    repliesToV1 (({ sampleTransfer with args := .named [⟨b!"amount", bigNum 4 2500000000, .u512⟩, ⟨b!"target", List.replicate 50 0x11, .byteArray 50⟩,
      ⟨b!"id", 1 :: le 8 7, .option .u64⟩] } : TxPayload).tx Blake.H []) 1 = crashAfter 1 .unterminated := by
  decide +kernel

/-- A transaction whose fields of the payload are given. -/
def txOf (fs : List Bytes) : Bytes := callTable [Blake.H (callTable fs), callTable fs, le 4 0]

/-- The body of the sample call, with the given number as length of the arguments. -/
def bodyClaiming (n : Nat) : Bytes :=
  let p := sampleCall (.byHash (List.replicate 32 0x22) .v1)
  le 4 4 ++ (le 2 0 ++ (le 4 n ++ p.args.encode)) ++ (le 2 1 ++ pfx p.target.encode) ++ (le 2 2 ++ pfx p.entry.encode) ++ (le 2 3 ++ pfx (callTable [[0]]))

/-- The sample call with that body. -/
def callClaiming (n : Nat) : Bytes :=
  let p := sampleCall (.byHash (List.replicate 32 0x22) .v1)
  txOf [p.initiator.encode, le 8 p.timestamp, le 8 p.ttl, pfx p.chain, p.pricing.encode, bodyClaiming n]

/-- With the true length it is the serialized call, which is shown. -/
example : callClaiming (sampleCall .native).args.encode.length = (sampleCall (.byHash (List.replicate 32 0x22) .v1)).tx Blake.H [] ∧
    repliesToV1 (callClaiming (sampleCall .native).args.encode.length) 1 = [.reply [] 0x9000, .reply [] 0x9000, .pending] := by decide +kernel

/-- **C40 fails**: the length claimed for the arguments of a call is not checked; the hash of the arguments is computed over that many
bytes.  Zero bytes become 2³² − 1. -/
theorem C40_v1_args_false : repliesToV1 (callClaiming 0) 1 = crashAfter 1 .oobRead ∧ repliesToV1 (callClaiming 1000) 1 = crashAfter 1 .oobRead := by
  decide +kernel

end Casper
