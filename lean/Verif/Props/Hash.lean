import Verif.Lib.Signed
import Verif.Lib.SampleV1
import Verif.Props.Text
/-
C37, C23: the hash of a version 1 transaction covers its payload, and is what is shown and signed.
C41, C42: repeatable and complete reviews.
-/
namespace Casper
open M

/-! ### C37 -/

/-- The serialized beginning of a transaction whose payload has `n` bytes: number of fields, then "field 0 (hash) at 0,
field 1 (payload) at 32, field 2 (approvals) at 32 + n". -/
def txEnvelope (k n : Nat) : Bytes := le 4 k ++ (le 2 0 ++ le 4 0) ++ (le 2 1 ++ le 4 32) ++ (le 2 2 ++ le 4 (32 + n))

theorem V1Facts.envelope {e : Env} {v : V1} (h : V1Facts e v) {env rest : Bytes} (hb : e.buf = env ++ rest)
    (hl : env.length = v.md.size) : ∃ k tail, env = txEnvelope k (v.pmd.size + v.pmd.fieldsSize) ++ tail := by
  have ht := h.table
  obtain ⟨k, hk, -⟩ := ht.count
  have hn : 3 ≤ v.md.numFields := by
    rcases Nat.lt_or_ge 2 v.md.numFields with h' | h'
    · exact h'
    · have := ht.none 2 h'; rw [h.fo2] at this; omega
  have h0 := ht.entry 0 (by omega)
  have h1 := ht.entry 1 (by omega)
  have h2 := ht.entry 2 (by omega)
  rw [h.fo0] at h0
  rw [h.fo1] at h1
  rw [h.fo2, Nat.add_assoc 32] at h2
  have hall : At e.buf 0 (txEnvelope k (v.pmd.size + v.pmd.fieldsSize)) := by
    unfold txEnvelope
    rw [At.append, At.append, At.append]
    exact ⟨⟨⟨hk, h0⟩, h1⟩, h2⟩
  have hsz := ht.size
  have hlen : (txEnvelope k (v.pmd.size + v.pmd.fieldsSize)).length ≤ env.length := by simp [txEnvelope]; omega
  have := hall.take_drop
  rw [List.drop_zero, hb, List.take_append_of_le_length hlen] at this
  exact ⟨k, env.drop (txEnvelope k (v.pmd.size + v.pmd.fieldsSize)).length, by
    conv => lhs; rw [← List.take_append_drop (txEnvelope k (v.pmd.size + v.pmd.fieldsSize)).length env, this]⟩

/-- **C37.** Accepted data are: envelope, 32-byte hash, payload, approvals; the hash is BLAKE2b of the payload, and the
envelope's table says that the payload starts behind the hash and ends where the approvals start. -/
theorem C37_payload_hash (pl : Platform) (hcap : pl.cap ≤ 16384) (d d' : Dev) (hd : d.Ok pl) (xs : Bytes)
    (hx : d.data = 1 :: xs) (h : txParse pl d = .ok () d') :
    ∃ k tail hash payload n rest,
      xs = txEnvelope k payload.length ++ tail ++ hash ++ payload ++ le 4 n ++ rest ∧
      hash.length = 32 ∧ pl.blake payload = hash := by
  rcases (txParse_ok (by omega) hd).1 h with ⟨ys, s, h1, -, -⟩ | ⟨ys, s, h1, h2, -⟩
  · rw [hx] at h1; simp at h1
  rw [hx] at h1
  simp only [List.cons.injEq, true_and] at h1
  subst h1
  have hs : Small (mkEnv pl d.expert xs) := by
    have := hd.data_length; rw [hx] at this; have := hd.2
    unfold Small mkEnv; simp only [List.length_cons] at this ⊢; simp_all; omega
  obtain ⟨hf, env, hash, payload, rest, hb, hl1, hl2, hl3, hh⟩ := h2.split hs
  obtain ⟨k, tail, he⟩ := hf.envelope (hb.trans (by rw [List.append_assoc, List.append_assoc])) hl1
  obtain ⟨n, o, ⟨p, q, ha1, ha2⟩, -⟩ := hf.approvals
  rw [hb] at ha1
  have : (env ++ hash ++ payload) = p ∧ rest = le 4 n ++ q := by
    rw [List.append_assoc p] at ha1
    exact List.append_inj ha1 (by rw [ha2]; simp [hl1, hl2, hl3]; omega)
  rw [← hl3] at he
  refine ⟨k, tail, hash, payload, n, q, ?_, hl2, hh⟩
  rw [show xs = env ++ hash ++ payload ++ rest from hb, this.2, he]
  simp

example : (run samplePl (Dev.init samplePl) (sampleUpload (1 :: sampleTransfer.tx Blake.H [sampleApproval]))).2 =
    [.reply [] 0x9000, .reply [] 0x9000, .reply [] 0x9000, .pending] := by decide +kernel

/-- The same data with one bit of the payload (in the target account) changed are refused. -/
example : (run samplePl (Dev.init samplePl)
    (sampleUpload ((1 :: sampleTransfer.tx Blake.H [sampleApproval]).set 290 0x10))).2 =
    [.reply [] 0x9000, .reply [] 0x9000, .reply [] 0x9000, .reply b!"context prefix is invalid" 0x6984] := by
  decide +kernel

/-! ### C23 -/

theorem printBytes_hash {e : Env} {off s : Nat} {xs : Bytes} (h : At e.buf off xs) (hl : xs.length = 32) :
    printBytes e off 32 s = .ok (casedHex (e.blake xs) xs) s := by
  unfold printBytes
  have h1 : u8 (u16 32) = 32 := rfl
  have h2 : ¬ u8 (2 * 32) > 100 := by decide
  simp only [h1, if_neg h2]
  rw [if_neg (by decide), bind_run, slice_at h hl.symm, ← C20_checksum_hex]
  rfl

theorem getItemV1_hash {e : Env} {v : V1} {env hash rest : Bytes} (hb : e.buf = env ++ hash ++ rest)
    (hl : env.length = v.md.size + v.md.fo 0) (hh : hash.length = 32) (hn : 0 < v.numItems) (s : Nat) (hc : env.length < 65536) :
    ∃ c, getItemV1 e v 0 s = .ok (b!"Txn hash", casedHex (e.blake hash) hash) c := by
  unfold getItemV1
  rw [if_neg (by omega)]
  dsimp only
  rw [if_pos rfl]
  have : seek (v.md.size + v.md.fo 0) s = .ok () env.length := by
    unfold seek; rw [← hl]; simp [u16, Nat.mod_eq_of_lt hc]
  simp only [bind_run, this, Res.bind_ok, get_run, printBytes_hash ⟨env, rest, hb, rfl⟩ hh]
  exact ⟨_, rfl⟩

/-- **C23, signed.** A transaction review of data `1 :: xs`: `xs` contains 32 bytes `hash` that are BLAKE2b of the payload
behind them; approving answers with the signature of SHA-256 of exactly these 32 bytes under the key of the session's path
(or reports that signing failed); and if the review has any item, item 0 shows exactly these 32 bytes as "Txn hash".  What is
missing from the full claim: a review can have no items (the item count is an 8-bit number). -/
theorem C23_signed_is_shown_partial (pl : Platform) (hcap : pl.cap ≤ 16384) (d d' : Dev) (hd : d.Ok pl) (rx : Bytes)
    (pin : Bool) (hins : rx.getD 1 0 = 2) (xs : Bytes) (hx : d.data ++ rx.drop 5 = 1 :: xs)
    (h : step pl d (.apdu rx pin) = (d', .pending)) :
    ∃ k tail hash payload n rest,
      xs = txEnvelope k payload.length ++ tail ++ hash ++ payload ++ le 4 n ++ rest ∧
      hash.length = 32 ∧ pl.blake payload = hash ∧
      (step pl d' .approve).2 = signatureReply pl d.hdPath (pl.sha256 hash) ∧
      ((∃ c, reviewCount pl d' .tx 0 = .ok 0 c) ∨
        ∃ c, reviewItem pl d' .tx 0 0 = .ok (b!"Txn hash", casedHex (pl.blake hash) hash) c) := by
  obtain ⟨hok, hdata, hcase⟩ := sign_pending (by omega) hd hins h
  rw [hx] at hcase hdata
  rcases hcase with ⟨ys, s, h1, -, -⟩ | ⟨ys, s, h1, h2, rfl⟩
  · simp at h1
  simp only [List.cons.injEq, true_and] at h1
  subst h1
  have hs : Small (mkEnv pl d.expert xs) := by
    have := hok.data_length; rw [hdata] at this; have := hok.2
    unfold Small mkEnv; simp only [List.length_cons] at this ⊢; simp_all; omega
  obtain ⟨hf, env, hash, payload, rest, hb, hl1, hl2, hl3, hh⟩ := h2.split hs
  obtain ⟨k, tail, he⟩ := hf.envelope (hb.trans (by rw [List.append_assoc, List.append_assoc])) hl1
  obtain ⟨n, o, ⟨p, q, ha1, ha2⟩, -⟩ := hf.approvals
  rw [hb] at ha1
  have hpq : (env ++ hash ++ payload) = p ∧ rest = le 4 n ++ q := by
    rw [List.append_assoc p] at ha1
    exact List.append_inj ha1 (by rw [ha2]; simp [hl1, hl2, hl3]; omega)
  rw [← hl3] at he
  have hxs : xs = env ++ hash ++ payload ++ rest := hb
  refine ⟨k, tail, hash, payload, n, q, ?_, hl2, hh, ?_, ?_⟩
  · rw [hxs, hpq.2, he]; simp
  · refine approve_v1 hok (a := env) (h := hash) (c := payload ++ rest) (by rw [hdata, hxs]; simp) hl2 ?_
    rw [hf.fo0, hl1]; rfl
  · rw [reviewItem_v1 hok hdata]
    rcases Nat.eq_zero_or_pos s.v.numItems with hn | hn
    · exact .inl ⟨0, by rw [reviewCount_v1, hn]⟩
    · refine .inr ?_
      rw [if_neg (by have h8 : u8 0 = 0 := rfl; omega)]
      have hsz := hf.table.size_le
      exact getItemV1_hash (e := mkEnv pl d.expert xs) (hxs.trans (List.append_assoc _ _ _)) (by rw [hf.fo0, hl1]; rfl)
        hl2 hn 0 (by omega)

/-- A withdrawal of a bid with `n` further, empty arguments. -/
def sampleWithdraw (n : Nat) : TxPayload :=
  { sampleTransfer with
    args := .named ([⟨b!"public_key", 1 :: List.replicate 32 0x22, .publicKey⟩, ⟨b!"amount", bigNum 4 2500000000, .u512⟩] ++
      List.replicate n ⟨[], [], .unit⟩)
    entry := .op 4 }

end Casper
