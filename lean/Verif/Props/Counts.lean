import Verif.Lib.V1Review
import Verif.Lib.NF
import Verif.Props.Operations
/-
C38: reading a version 1 transaction never leaves the received data.
C48: counts shown are the real counts.
C55: well-formed reservations are accepted, shown faithfully and signed.
-/
namespace Casper
open M

/-! ### Memory -/

/-- **C38.** Parsing any data as a version 1 transaction, and checking its hash, stays inside the received data. -/
theorem C38_memory (e : Env) (hs : e.buf.length ≤ 16384) :
    (∀ s f, readV1 e s ≠ .fault f) ∧
    (∀ t, readV1 e ⟨0, {}⟩ = .ok () t → ∀ o f, validateV1 e t.v o ≠ .fault f) := by
  refine ⟨NF_readV1 e, fun t h o f hf => ?_⟩
  have hfacts : V1Facts e t.v := readV1_post (e := e) hs () t h
  have h1 := hfacts.pinside
  unfold validateV1 at hf
  rw [hfacts.fo0, hfacts.fo1, bind_run, slice, if_pos (by omega)] at hf
  simp only [Res.bind_ok] at hf
  rw [bind_run, slice, if_pos (by omega)] at hf
  simp only [Res.bind_ok] at hf
  exact NF.require _ _ _ _ hf

/-- The second half is not empty. -/
example : ∃ t, readV1 (sampleEnv (sampleTransfer.tx Blake.H [sampleApproval])) ⟨0, {}⟩ = .ok () t :=
  Res.of_succeeded (by decide +kernel)

/-! ### Approvals -/

/-- Every approval takes at least 66 bytes, all but the last 64 of them inside the data. -/
theorem readApprovalList_bound {e : Env} (hs : e.buf.length ≤ 16384) (n o c : Nat) (ho : o ≤ e.buf.length + 64)
    (h : readApprovalList e n o = .ok () c) : n = 0 ∨ o + 66 * n ≤ e.buf.length + 64 := by
  induction n generalizing o with
  | zero => exact .inl rfl
  | succ n ih =>
    right
    unfold readApprovalList at h
    rw [bind_eq_ok] at h
    obtain ⟨_, o1, h1, h⟩ := h
    rw [bind_eq_ok] at h
    obtain ⟨_, o2, h2, h⟩ := h
    unfold readPublicKey at h1
    rw [bind_eq_ok] at h1
    obtain ⟨tag, o3, h3, h1⟩ := h1
    have h3' := (safe_iff.1 (safe_readU8 e o)).1 _ _ h3
    rw [bind_eq_ok] at h1
    obtain ⟨_, o4, h4, h1⟩ := h1
    rw [require_eq_ok] at h4
    obtain ⟨-, rfl⟩ := h4
    have hk : o + 1 ≤ o1 := by
      have : o1 = o3 ∨ o1 = u16 (o3 + 32) ∨ o1 = u16 (o3 + 33) := by
        split at h1
        · simp only [skip, modify_run, Res.ok.injEq, true_and] at h1; exact .inr (.inl h1.symm)
        split at h1
        · simp only [skip, modify_run, Res.ok.injEq, true_and] at h1; exact .inr (.inr h1.symm)
        · simp only [pure_run, Res.ok.injEq, true_and] at h1; exact .inl h1.symm
      unfold u16 at this
      omega
    unfold readSignature at h2
    rw [bind_eq_ok] at h2
    obtain ⟨tag2, o5, h5, h2⟩ := h2
    have h5' := (safe_iff.1 (safe_readU8 e o1)).1 _ _ h5
    rw [bind_eq_ok] at h2
    obtain ⟨_, o6, h6, h2⟩ := h2
    rw [require_eq_ok] at h6
    obtain ⟨-, rfl⟩ := h6
    have h7 : o2 = o5 + 64 := by
      simp only [skip, modify_run, Res.ok.injEq, true_and] at h2
      unfold u16 at h2
      omega
    rcases ih o2 (by omega) h with rfl | h8 <;> omega

/-- **C48, approvals.** The number of approvals kept from any accepted version 1 data is the number serialized behind the
payload: the 8-bit counter does not overflow, as 256 approvals do not fit. -/
theorem C48_approvals_read (e : Env) (hs : e.buf.length ≤ 16384) (s : VS) (h : readV1 e ⟨0, {}⟩ = .ok () s) :
    At e.buf (s.v.md.size + 32 + s.v.pmd.size + s.v.pmd.fieldsSize) (le 4 s.v.numApprovals) := by
  have hfacts : V1Facts e s.v := readV1_post (e := e) hs () s h
  obtain ⟨n, o, h1, -, h2, h3⟩ := hfacts.approvals
  have hle := h1.le
  rw [le_length] at hle
  have := readApprovalList_bound hs n _ o (by omega) h3
  rw [h2, u8_id (by omega)]
  exact h1

/-- **C48, approvals.** In expert mode, the last line of every review of a well-formed transaction shows the number of its
approvals (if the review has all of its header lines; otherwise see C43). -/
theorem C48_approvals (pl : Platform) (hcap : pl.cap ≤ 16384) (d d' : Dev) (hd : d.Ok pl) (rx : Bytes) (pin : Bool)
    (hins : rx.getD 1 0 = 2) (p : TxPayload) (hp : p.Ok) (ap : List Bytes) (hap : ∀ x ∈ ap, ApprovalOk x)
    (hx : d.data ++ rx.drop 5 = 1 :: p.tx pl.blake ap) (h : step pl d (.apdu rx pin) = (d', .pending))
    (hexp : d.expert = true) (n o : Nat) (hn : reviewCount pl d' .tx o = .ok n o) (h9 : 9 ≤ n) (h128 : n ≤ 128) :
    reviewItem pl d' .tx (n - 1) o = .ok (b!"Approvals #", decText ap.length) o := by
  obtain ⟨s, h2, hs, hok, hdata, rfl, hsv, -⟩ := pending_tx hcap hd hins hp hap hx h
  rw [reviewCount_v1] at hn
  simp only [Res.ok.injEq, and_true] at hn
  subst hn
  have hH : (pl.blake p.encode).length = 32 := pl.blake.len _
  have hv := result_view (p := p) (ap := ap) (e := mkEnv pl d.expert (p.tx pl.blake ap)) hH
  have hu : u8 (s.v.numItems - 1) = s.v.numItems - 1 := u8_id (by omega)
  rw [reviewItem_v1 hok hdata, hu, if_neg (by omega)]
  have hx2 : (d.loaded rx).expert = d.expert := rfl
  rw [hx2]
  have hfew := approvals_few hs hap rfl
  rw [hsv] at h9 h128 ⊢
  have := item_approvals hv (e := mkEnv pl d.expert (p.tx pl.blake ap)) hexp
    (k := (p.result pl.blake ap (mkEnv pl d.expert (p.tx pl.blake ap))).numItems - 9) (by omega) (by omega) o
  rw [result_approvals, u8_id hfew] at this
  rw [← this]
  congr 1
  omega

/-! ### Reservations -/

theorem getData_take {e : Env} {name : Bytes} {off k : Nat} {as : List Arg} {a : Arg} (hf : Fits e)
    (hok : ∀ x ∈ as, x.Ok) (hn : noNul as) (ha : argNamed (as.take k) name = some a)
    (h : At e.buf off (encodeArgs as)) :
    ∃ o, getData e name k off = .ok (a.value.length, a.ty.tag) o ∧ At e.buf o (a.value ++ a.ty.encode) := by
  obtain ⟨pre, post, h0, h1, h2⟩ := find_split ha
  have hlen : pre.length < k := by
    have := congrArg List.length h0
    rw [List.length_take, List.length_append, List.length_cons] at this
    omega
  obtain ⟨post', rfl⟩ : ∃ post', as = pre ++ a :: post' :=
    ⟨post ++ as.drop k, by rw [← List.cons_append, ← List.append_assoc, ← h0, List.take_append_drop]⟩
  have hc : ∀ x ∈ pre ++ a :: post', cstr x.name = x.name := fun x hx => cstr_eq (hn x hx)
  have hg := getData_at (k := k) hf (fun x hx => hok x (by simp [hx])) (hok a (by simp))
    (fun x hx => by rw [hc x (by simp [hx])]; exact h2 x hx) (by rw [hc a (by simp)]; exact h1) hlen h
  refine ⟨_, hg.1, ?_⟩
  rw [At.append]
  refine ⟨hg.2, ?_⟩
  have h3 : At e.buf (off + (encodeArgs pre).length) a.encode := by
    have he : encodeArgs (pre ++ a :: post') = encodeArgs pre ++ (a.encode ++ encodeArgs post') := by
      clear hg h hc h2 h1 ha hn hok h0 hlen
      induction pre with
      | nil => rfl
      | cons b pre ih => simp [encodeArgs, ih]
    rw [he, At.append, At.append] at h
    exact h.2.1
  exact (arg_at h3).2.2.2

/-- What is shown of a list in a reservation: its length modulo 256, and the hash of its serialization. -/
def listLines (H : Bytes → Bytes) (len hash : Bytes) (n : Nat) (v : Bytes) : List (Bytes × Bytes) :=
  [(len, decText (n % 256)), (hash, checksumHex H (H v))]

/-- The argument named `name` (among the first `k`) is a list of `n` elements. -/
def ListArg (as : List Arg) (k : Nat) (name : Bytes) (n : Nat) (a : Arg) : Prop :=
  argNamed (as.take k) name = some a ∧ ∃ rest, a.value = le 4 n ++ rest

/-- The lines of a reservation (operation 10) or of its cancellation (operation 11). -/
inductive RsvLines (H : Bytes → Bytes) (as : List Arg) : Nat → List (Bytes × Bytes) → Prop
  | add {n a} : ListArg as 2 b!"reservations" n a → RsvLines H as 10 (listLines H b!"Rsrv len" b!"Rsrv hash" n a.value)
  | cancel {v text n a} : argNamed (as.take 3) b!"validator" = some v → Shown H v.ty v.value text →
      ListArg as 3 b!"delegators" n a →
      RsvLines H as 11 ((b!"Validator", text) :: listLines H b!"Dlgtrs len" b!"Dlgtrs hash" n a.value)

/-- A well-formed reservation: like `NativeOp`. -/
structure TxPayload.Reserves (p : TxPayload) (t : Nat) (as : List Arg) : Prop where
  ok : p.Ok
  entry : p.entry = .op t
  target : p.target = .native
  args : p.args = .named as
  names : noNul as
  pos : p.argsPos < 256
  chain : p.chain.length ≤ 99
  chain0 : 0 ∉ p.chain

theorem argNamed_take {as : List Arg} {k : Nat} {name : Bytes} {a : Arg} (h : argNamed (as.take k) name = some a) :
    argNamed as name = some a := by
  unfold argNamed at h ⊢
  rw [← List.take_append_drop k as, List.find?_append, h]
  rfl

theorem listByte (n : Nat) (rest : Bytes) : ∃ b xs, le 4 n ++ rest = b :: xs ∧ b.toNat = n % 256 := by
  refine ⟨UInt8.ofNat (n % 256), le 3 (n / 256) ++ rest, by simp [le], ?_⟩
  simp

/-- A list's length and hash, as read by the two programs. -/
theorem listLine_at {e : Env} {name len hash : Bytes} {off k n : Nat} {as : List Arg} {a : Arg} (hf : Fits e)
    (hok : ∀ x ∈ as, x.Ok) (hn : noNul as) (ha : ListArg as k name n a) (h : At e.buf off (encodeArgs as)) :
    ∃ o l t, getData e name k off = .ok (l, t) o ∧ byteAt e o o = .ok (n % 256) o ∧ slice e o l o = .ok a.value o := by
  obtain ⟨h1, rest, h2⟩ := ha
  obtain ⟨o, h3, h4⟩ := getData_take hf hok hn h1 h
  have h5 := (At.append.1 h4).1
  refine ⟨o, _, _, h3, ?_, slice_at h5 rfl⟩
  obtain ⟨b, xs, h6, h7⟩ := listByte n rest
  rw [h2, h6] at h5
  rw [byteAt_at h5, h7]

theorem itemRsv {e : Env} {v : V1} {as : List Arg} {off t : Nat} (hf : Fits e) (hok : ∀ a ∈ as, a.Ok) (hn : noNul as)
    (h : At e.buf off (encodeArgs as)) (hep : v.epType = t) (hoff : v.argsOff = off) (h16 : off < 65536)
    {lines : List (Bytes × Bytes)} (hl : RsvLines e.blake as t lines) {i : Nat} {kv : Bytes × Bytes}
    (hi : lines[i]? = some kv) (o : Nat) : ∃ c, itemEntry e v i o = .ok kv c := by
  have hseek : seek v.argsOff o = .ok () off := by
    rw [hoff]; show Res.ok () (u16 off) = _; unfold u16; rw [Nat.mod_eq_of_lt h16]
  unfold itemEntry
  refine exThen hseek ?_
  cases hl with
  | @add n a ha =>
    rw [if_neg (by omega), if_neg (by omega), if_neg (by omega), if_pos hep]
    obtain ⟨q, l, ty, h1, h2, h3⟩ := listLine_at (len := []) (hash := []) hf hok hn ha h
    unfold itemAddRsv
    match i, hi with
    | 0, hi =>
      simp only [listLines, List.getElem?_cons_zero, Option.some.injEq] at hi
      subst hi
      rw [if_neg (by omega)]
      refine exThen h1 (exThen (get_run q) ?_)
      rw [if_pos rfl]
      exact exThen h2 ⟨q, by rw [decimal_eq]; rfl⟩
    | 1, hi =>
      simp only [listLines, List.getElem?_cons_zero, List.getElem?_cons_succ, Option.some.injEq] at hi
      subst hi
      rw [if_neg (by omega)]
      refine exThen h1 (exThen (get_run q) ?_)
      rw [if_neg (by omega)]
      exact exThen h3 ⟨q, by rw [C20_checksum_hex]; rfl⟩
    | i + 2, hi => simp [listLines] at hi
  | @cancel w text n a hw hs ha =>
    rw [if_neg (by omega), if_neg (by omega), if_neg (by omega), if_neg (by omega), if_pos hep]
    obtain ⟨q, l, ty, h1, h2, h3⟩ := listLine_at (len := []) (hash := []) hf hok hn ha h
    unfold itemCancelRsv
    match i, hi with
    | 0, hi =>
      simp only [listLines, List.getElem?_cons_zero, Option.some.injEq] at hi
      subst hi
      rw [if_neg (by omega), if_pos rfl]
      obtain ⟨q', k1, k2⟩ := getData_take hf hok hn hw h
      obtain ⟨c, k3⟩ := displayArg_at hf hs k2
      exact ⟨c, by unfold showArg; rw [bind_run, k1, Res.bind_ok]; dsimp only; rw [bind_run, k3]; rfl⟩
    | 1, hi =>
      simp only [listLines, List.getElem?_cons_zero, List.getElem?_cons_succ, Option.some.injEq] at hi
      subst hi
      rw [if_neg (by omega), if_neg (by omega)]
      refine exThen h1 (exThen (get_run q) ?_)
      rw [if_pos rfl]
      exact exThen h2 ⟨q, by rw [decimal_eq]; rfl⟩
    | 2, hi =>
      simp only [listLines, List.getElem?_cons_zero, List.getElem?_cons_succ, Option.some.injEq] at hi
      subst hi
      rw [if_neg (by omega), if_neg (by omega)]
      refine exThen h1 (exThen (get_run q) ?_)
      rw [if_neg (by omega)]
      exact exThen h3 ⟨q, by rw [C20_checksum_hex]; rfl⟩
    | i + 3, hi => simp [listLines] at hi

/-- **C55.** Any chunking of a well-formed reservation, or cancellation of reservations, is acknowledged and opens a review
showing exactly the header lines, the validator (for a cancellation), the length of the list modulo 256, and the hash of the whole
list; approving signs the payload's hash. -/
theorem C55_reservations (pl : Platform) (hcap : pl.cap ≤ 16384) (d : Dev) (hd : d.Ok pl) (path : Bytes)
    (hlen : path.length = 20) (hpath : casperPath path) (p : TxPayload) (t : Nat) (as : List Arg) (ap : List Bytes)
    (hp : p.Reserves t as) (hap : ∀ x ∈ ap, ApprovalOk x) (cs : List Bytes) (last : Bytes)
    (hcs : cs.flatten ++ last = 1 :: p.tx pl.blake ap) (hfit : (cs.flatten ++ last).length ≤ pl.cap)
    (lines : List (Bytes × Bytes)) (hl : RsvLines pl.blake as t lines)
    (time : Bytes) (hx : d.expert = true → p.ExpertOk pl.fmtTime time) :
    ∃ d' ttl, (d.expert = true → duration ttl = p.ttl / 1000) ∧
      run pl d (upload 2 path cs last) = (d', List.replicate (cs.length + 1) (.reply [] 0x9000) ++ [.pending]) ∧
      Displays pl d' (p.screens pl.blake d.expert ap.length time ttl lines) ∧
      (step pl d' .approve).2 = signatureReply pl path (pl.sha256 (pl.blake p.encode)) := by
  have hs : Small (mkEnv pl d.expert (p.tx pl.blake ap)) := by
    rw [hcs] at hfit
    unfold Small mkEnv; simp only [List.length_cons] at hfit ⊢; omega
  have hH : (pl.blake p.encode).length = 32 := pl.blake.len _
  have hat : At (p.tx pl.blake ap) 0 (p.tx pl.blake ap) := ⟨[], [], by simp, rfl⟩
  have hargs := (tx_layout hH hat).args hp.args
  have hok : ∀ a ∈ as, a.Ok := by have := hp.ok.args; rw [hp.args] at this; exact this
  have ht : t = 10 ∨ t = 11 := by cases hl <;> simp
  have hfew : lines.length = (if t = 10 then 2 else 3) := by cases hl <;> rfl
  have hreq : ∀ r ∈ opRequired t, ∃ a, argNamed as r.1 = some a ∧ (r.2 = true → a.ty = .u512) := by
    cases hl with
    | add ha =>
      intro r hr
      simp only [opRequired, List.mem_cons, List.not_mem_nil, or_false] at hr
      subst hr
      exact ⟨_, argNamed_take ha.1, by simp⟩
    | cancel hw _ ha =>
      intro r hr
      simp only [opRequired, List.mem_cons, List.not_mem_nil, or_false] at hr
      rcases hr with rfl | rfl
      · exact ⟨_, argNamed_take hw, by simp⟩
      · exact ⟨_, argNamed_take ha.1, by simp⟩
  obtain ⟨s, ttl, hacc, hsv, hdur, hnum, hitems⟩ :=
    accepted_screens (e := mkEnv pl d.expert (p.tx pl.blake ap)) (p := p) (ap := ap) (lines := lines) (time := time)
      hs hp.ok hap rfl hp.chain hp.chain0
      (native_sane hs hp.ok rfl hp.entry (by omega) hp.target hp.args hp.names hp.pos hreq)
      (by rw [opCount_native (by omega) hp.entry hp.target hp.args, hfew]; unfold opLineCount
          rcases ht with rfl | rfl <;> simp) (by rw [hfew]; split <;> omega)
      (fun _ _ => by rw [hp.entry]; show t ≠ 0; omega)
      (fun {i kv} hi o => itemRsv hs.fits hok hp.names hargs (by rw [result_ep, hp.entry]; rfl)
        ((result_argsOff hH).trans (u8_id hp.pos)) (by have := hp.pos; omega) hl hi o) hx
  have hn : (p.screens pl.blake d.expert ap.length time ttl lines).length ≤ 128 := by
    have : (p.pricing.lines pl.blake).length = 2 := by cases p.pricing <;> rfl
    have : lines.length ≤ 3 := by rw [hfew]; split <;> omega
    unfold TxPayload.screens
    cases hxx : d.expert <;> simp [*] <;> omega
  obtain ⟨d', h1, h2, h3⟩ := upload_screens pl hcap d hd path hlen hpath p ap cs last hcs hfit hacc hsv hnum hn hitems
  exact ⟨d', ttl, hdur, h1, h2, h3⟩

/-- A reservation, as serialized: delegator (a public key or a purse with its tag), validator's key, rate; 67 bytes or more. -/
structure Reservation where
  delegator : Bytes
  validator : Bytes
  rate : UInt8

def Reservation.Ok (r : Reservation) : Prop := 33 ≤ r.delegator.length ∧ 33 ≤ r.validator.length

def Reservation.encode (r : Reservation) : Bytes := r.delegator ++ r.validator ++ [r.rate]

/-- A serialized list. -/
def encodeList (xs : List Bytes) : Bytes := le 4 xs.length ++ xs.flatten

theorem flatten_bound {xs : List Bytes} {k : Nat} (h : ∀ x ∈ xs, k ≤ x.length) : k * xs.length ≤ xs.flatten.length := by
  induction xs with
  | nil => simp
  | cons x xs ih =>
    have h1 := ih fun y hy => h y (by simp [hy])
    have h2 := h x (by simp)
    rw [List.flatten_cons, List.length_append, List.length_cons, Nat.mul_add]
    omega

/-- **C48, reservations.** The review of a well-formed reservation shows the number of reservations (256 of them do not fit),
and the hash of the list of all of them. -/
theorem C48_reservations (pl : Platform) (hcap : pl.cap ≤ 16384) (d : Dev) (hd : d.Ok pl) (path : Bytes)
    (hlen : path.length = 20) (hpath : casperPath path) (p : TxPayload) (as : List Arg) (ap : List Bytes)
    (hp : p.Reserves 10 as) (hap : ∀ x ∈ ap, ApprovalOk x) (cs : List Bytes) (last : Bytes)
    (hcs : cs.flatten ++ last = 1 :: p.tx pl.blake ap) (hfit : (cs.flatten ++ last).length ≤ pl.cap)
    (a : Arg) (ha : argNamed (as.take 2) b!"reservations" = some a)
    (rs : List Reservation) (hrs : ∀ r ∈ rs, r.Ok) (hv : a.value = encodeList (rs.map Reservation.encode))
    (time : Bytes) (hx : d.expert = true → p.ExpertOk pl.fmtTime time) :
    ∃ d' ttl, run pl d (upload 2 path cs last) = (d', List.replicate (cs.length + 1) (.reply [] 0x9000) ++ [.pending]) ∧
      Displays pl d' (p.screens pl.blake d.expert ap.length time ttl
        [(b!"Rsrv len", decText rs.length), (b!"Rsrv hash", checksumHex pl.blake (pl.blake a.value))]) := by
  have hs : (p.tx pl.blake ap).length ≤ 16383 := by
    rw [hcs] at hfit
    simp only [List.length_cons] at hfit; omega
  have hfew : rs.length < 256 := by
    have hH : (pl.blake p.encode).length = 32 := pl.blake.len _
    have hat : At (p.tx pl.blake ap) 0 (p.tx pl.blake ap) := ⟨[], [], by simp, rfl⟩
    have hargs := (tx_layout hH hat).args hp.args
    have hok : ∀ a ∈ as, a.Ok := by have := hp.ok.args; rw [hp.args] at this; exact this
    obtain ⟨o, -, h1⟩ := getData_take (e := mkEnv pl d.expert (p.tx pl.blake ap)) (by unfold Fits mkEnv; dsimp only; omega)
      hok hp.names ha hargs
    have h2 : (a.value ++ a.ty.encode).length ≤ (p.tx pl.blake ap).length := by
      have : o + (a.value ++ a.ty.encode).length ≤ (p.tx pl.blake ap).length := h1.le
      omega
    have h3 := flatten_bound (xs := rs.map Reservation.encode) (k := 67) (by
      intro x hx
      rw [List.mem_map] at hx
      obtain ⟨r, h4, rfl⟩ := hx
      have := hrs r h4
      unfold Reservation.Ok at this
      simp only [Reservation.encode, List.length_append, List.length_cons, List.length_nil]
      omega)
    rw [hv, encodeList, List.length_append, List.length_append, List.length_map] at h2
    rw [List.length_map] at h3
    omega
  obtain ⟨d', ttl, -, h1, h2, -⟩ := C55_reservations pl hcap d hd path hlen hpath p 10 as ap hp hap cs last hcs hfit _
    (.add (n := rs.length) (a := a) ⟨ha, (rs.map Reservation.encode).flatten, by rw [hv, encodeList, List.length_map]⟩) time hx
  refine ⟨d', ttl, h1, ?_⟩
  rw [listLines, Nat.mod_eq_of_lt hfew] at h2
  exact h2

/-- **C48, cancelled reservations (partial).** The review of a well-formed cancellation shows the number of delegators.  Missing:
256 delegators or more, of which only the number modulo 256 is shown (`C48_delegators_false`). -/
theorem C48_delegators_partial (pl : Platform) (hcap : pl.cap ≤ 16384) (d : Dev) (hd : d.Ok pl) (path : Bytes)
    (hlen : path.length = 20) (hpath : casperPath path) (p : TxPayload) (as : List Arg) (ap : List Bytes)
    (hp : p.Reserves 11 as) (hap : ∀ x ∈ ap, ApprovalOk x) (cs : List Bytes) (last : Bytes)
    (hcs : cs.flatten ++ last = 1 :: p.tx pl.blake ap) (hfit : (cs.flatten ++ last).length ≤ pl.cap)
    (v a : Arg) (text : Bytes) (hw : argNamed (as.take 3) b!"validator" = some v) (hs : Shown pl.blake v.ty v.value text)
    (ha : argNamed (as.take 3) b!"delegators" = some a) (ds : List Bytes) (hv : a.value = encodeList ds) (hfew : ds.length < 256)
    (time : Bytes) (hx : d.expert = true → p.ExpertOk pl.fmtTime time) :
    ∃ d' ttl, run pl d (upload 2 path cs last) = (d', List.replicate (cs.length + 1) (.reply [] 0x9000) ++ [.pending]) ∧
      Displays pl d' (p.screens pl.blake d.expert ap.length time ttl
        [(b!"Validator", text), (b!"Dlgtrs len", decText ds.length), (b!"Dlgtrs hash", checksumHex pl.blake (pl.blake a.value))]) := by
  obtain ⟨d', ttl, -, h1, h2, -⟩ := C55_reservations pl hcap d hd path hlen hpath p 11 as ap hp hap cs last hcs hfit _
    (.cancel (n := ds.length) (a := a) hw hs ⟨ha, ds.flatten, hv⟩) time hx
  refine ⟨d', ttl, h1, ?_⟩
  rw [listLines, Nat.mod_eq_of_lt hfew] at h2
  exact h2

/-! Concrete reservations. -/

/-- A purse as delegator. -/
def samplePurse : Bytes := 1 :: List.replicate 32 7

def cancelArgs (n : Nat) : List Arg :=
  [⟨b!"validator", 1 :: List.replicate 32 0x22, .publicKey⟩, ⟨b!"delegators", encodeList (List.replicate n samplePurse), .list .any⟩]

def cancelTx (n : Nat) : TxPayload := { sampleTransfer with args := .named (cancelArgs n), entry := .op 11 }

theorem cancelTx_reserves (n : Nat) : (cancelTx n).Reserves 11 (cancelArgs n) where
  ok := { sampleTransfer_ok with
    args := by
      show ∀ a ∈ cancelArgs n, a.Ok
      intro a ha
      simp only [cancelArgs, List.mem_cons, List.not_mem_nil, or_false] at ha
      rcases ha with rfl | rfl
      · exact ⟨by decide, by decide, by decide⟩
      · refine ⟨show (b!"delegators").length ≤ 300 by decide, show (CLType.list .any).aligned = true by decide,
          show (CLType.list .any).supported = true by decide⟩
    entry := ⟨by decide, by decide⟩ }
  entry := rfl
  target := rfl
  args := rfl
  names := by
    intro a ha
    simp only [cancelArgs, List.mem_cons, List.not_mem_nil, or_false] at ha
    rcases ha with rfl | rfl
    · decide
    · show (0 : UInt8) ∉ b!"delegators"; decide
  pos := show sampleTransfer.argsPos < 256 by decide
  chain := show sampleTransfer.chain.length ≤ 99 by decide
  chain0 := show 0 ∉ sampleTransfer.chain by decide

/-- A device with the largest buffer. -/
def largePl : Platform := { samplePl with cap := 16384 }

theorem cancelTx_length : (1 :: (cancelTx 257).tx Blake.H []).length ≤ 16384 := by
  rw [List.length_cons, tx_length _ _ (Blake.H.len _)]
  decide +kernel

/-- **C48, cancelled reservations: false.** The review of a cancellation for 257 delegators shows the number 1. -/
theorem C48_delegators_false : ∃ (p : TxPayload) (as : List Arg) (a : Arg) (ds : List Bytes) (d' : Dev),
    p.Reserves 11 as ∧ argNamed as b!"delegators" = some a ∧ a.value = encodeList ds ∧ ds.length = 257 ∧
    run largePl (Dev.init largePl) (upload 2 (samplePath 0) [] (1 :: p.tx Blake.H [])) = (d', [.reply [] 0x9000, .pending]) ∧
    ∀ o, ∃ c, reviewItem largePl d' .tx 5 o = .ok (b!"Dlgtrs len", b!"1") c := by
  have hw : argNamed ((cancelArgs 257).take 3) b!"validator" = some ⟨b!"validator", 1 :: List.replicate 32 0x22, .publicKey⟩ := rfl
  have ha : argNamed ((cancelArgs 257).take 3) b!"delegators" =
      some ⟨b!"delegators", encodeList (List.replicate 257 samplePurse), .list .any⟩ := rfl
  have hp := cancelTx_reserves 257
  have hfit := cancelTx_length
  have hrl : (List.replicate 257 samplePurse).length = 257 := List.length_replicate
  have hla : ListArg (cancelArgs 257) 3 b!"delegators" 257
      ⟨b!"delegators", encodeList (List.replicate 257 samplePurse), .list .any⟩ :=
    ⟨ha, (List.replicate 257 samplePurse).flatten, by unfold encodeList; rw [hrl]⟩
  generalize hq : cancelTx 257 = p at *
  generalize hds : List.replicate 257 samplePurse = ds at *
  generalize hr : cancelArgs 257 = as at *
  obtain ⟨d', ttl, -, h1, h2, -⟩ := C55_reservations largePl (Nat.le_refl _) (Dev.init largePl) (.init _) (samplePath 0) rfl (by decide)
    p 11 as [] hp (by simp) [] (1 :: p.tx Blake.H []) rfl hfit _
    (.cancel hw (.ed25519 (List.replicate 32 0x22) rfl) hla) [] (by intro h; cases h)
  refine ⟨p, as, _, ds, d', hp, argNamed_take ha, rfl, hrl, h1, fun o => ?_⟩
  exact (h2 o).2 5 _ rfl

/-- The hypotheses of `C48_delegators_partial` can be met: two delegators. -/
example : ∃ d', run samplePl (Dev.init samplePl) (upload 2 (samplePath 0) [] (1 :: (cancelTx 2).tx Blake.H [])) =
      (d', [.reply [] 0x9000, .pending]) ∧ ∀ o, ∃ c, reviewItem samplePl d' .tx 5 o = .ok (b!"Dlgtrs len", b!"2") c := by
  obtain ⟨d', ttl, h1, h2⟩ := C48_delegators_partial samplePl (by decide) (Dev.init samplePl) (.init _) (samplePath 0) rfl (by decide)
    (cancelTx 2) (cancelArgs 2) [] (cancelTx_reserves 2) (by simp) [] (1 :: (cancelTx 2).tx Blake.H []) rfl
    (by decide +kernel) _ _ _ rfl (.ed25519 (List.replicate 32 0x22) rfl) rfl (List.replicate 2 samplePurse) rfl (by decide) []
    (by intro h; cases h)
  exact ⟨d', h1, fun o => (h2 o).2 5 _ rfl⟩

def sampleReservation : Reservation := ⟨samplePurse, 1 :: List.replicate 32 0x22, 5⟩

def reserveTx : TxPayload := { sampleTransfer with
  args := .named [⟨b!"reservations", encodeList (List.replicate 3 sampleReservation.encode), .list .any⟩], entry := .op 10 }

/-- The hypotheses of `C48_reservations` can be met: three reservations. -/
example : ∃ d', run samplePl (Dev.init samplePl) (upload 2 (samplePath 0) [] (1 :: reserveTx.tx Blake.H [])) =
      (d', [.reply [] 0x9000, .pending]) ∧ ∀ o, ∃ c, reviewItem samplePl d' .tx 4 o = .ok (b!"Rsrv len", b!"3") c := by
  obtain ⟨d', ttl, h1, h2⟩ := C48_reservations samplePl (by decide) (Dev.init samplePl) (.init _) (samplePath 0) rfl (by decide)
    reserveTx [⟨b!"reservations", encodeList (List.replicate 3 sampleReservation.encode), .list .any⟩] [] ⟨{ sampleTransfer_ok with
      args := by
        show ∀ a ∈ [(⟨b!"reservations", encodeList (List.replicate 3 sampleReservation.encode), .list .any⟩ : Arg)], a.Ok
        intro a ha
        simp only [List.mem_cons, List.not_mem_nil, or_false] at ha
        subst ha
        exact ⟨by decide, by decide +kernel, by decide⟩
      entry := ⟨by decide, by decide⟩ }, rfl, rfl, rfl, by
        intro a ha
        simp only [List.mem_cons, List.not_mem_nil, or_false] at ha
        subst ha
        decide, by decide, by decide, by decide⟩ (by simp) [] (1 :: reserveTx.tx Blake.H []) rfl
    (by decide +kernel) _ rfl (List.replicate 3 sampleReservation) (by
      intro r hr; rw [List.eq_of_mem_replicate hr]; exact ⟨by decide, by decide⟩) rfl [] (by intro h; cases h)
  exact ⟨d', h1, fun o => (h2 o).2 4 _ rfl⟩

/-- The hypotheses of `C48_approvals` can be met: the sample transfer with one approval, in expert mode. -/
example : (run samplePl { Dev.init samplePl with expert := true }
      (sampleUpload (1 :: sampleTransfer.tx Blake.H [sampleApproval]) 1)).2 = [.reply [] 0x9000, .reply [] 0x9000, .pending] ∧
    reviewCount samplePl (run samplePl { Dev.init samplePl with expert := true }
      (sampleUpload (1 :: sampleTransfer.tx Blake.H [sampleApproval]) 1)).1 .tx 0 = .ok 12 0 := by decide +kernel

end Casper
