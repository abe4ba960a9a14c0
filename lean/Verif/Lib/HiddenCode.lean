import Verif.Lib.CodeSession
import Verif.Lib.FaultIff
/-
Sessions that run code and whose operands have unexpected types; and those that are refused.
-/
namespace Casper
open M

section
variable {e : Env} {n : Nat} {tail : Bytes} {as : List Arg} (hf : Fits e) (hok : ∀ a ∈ as, a.Ok) (hn : noNul as)
  (hau : argNamed as b!"auction" = none)

include hn hau in
theorem noAuction : ∀ a ∈ as.take as.length, cstr a.name ≠ b!"auction" := by
  intro a hm
  rw [List.take_length] at hm
  rw [cstr_eq (hn a hm)]
  unfold argNamed at hau
  rw [List.find?_eq_none] at hau
  simpa using hau a hm

include hf hok hn in
theorem searchNew_at {o ep : Nat} {it : Item} (h1 : At e.buf o (encodeArgs as)) :
    ∃ r, attempt (lp (searchArgs e b!"new_validator" as.length)) ⟨o, ep, it⟩ = .ok r ⟨o, ep, it⟩ ∧
      (match r with | .ok _ => true | .error _ => false) = (argNamed as b!"new_validator").isSome := by
  rw [attempt_run]
  cases hnv : argNamed as b!"new_validator" with
  | none => rw [lp_err (s := ⟨_, _, _⟩) (search_absent hf hok hn h1 hnv)]; exact ⟨_, rfl, rfl⟩
  | some a => rw [lp_run (s := ⟨_, _, _⟩) (search_found hf hok hn h1 hnv)]; exact ⟨_, rfl, rfl⟩

include hf hok hn hau in
/-- Without an argument "auction", what follows the arguments is taken for the name of the operation. -/
theorem quietAuction_at (hw : e.wasm = false) (hb : NoText n tail) {o ep : Nat} {it : Item} (h : At e.buf o (encodeArgs as ++ (le 4 n ++ tail))) (ho : 4 ≤ o) :
    parseAuction e as.length ⟨o, ep, it⟩ =
      .ok ((argNamed as b!"new_validator").isSome, false) ⟨o, ep, { it with itemOffset := o - 4, special := 0, generic := 1 }⟩ := by
  have hf' := hf
  unfold Fits at hf'
  have hle := h.le
  simp only [List.length_append, le_length] at hle
  rw [At.append, At.append] at h
  obtain ⟨h1, h2, h3⟩ := h
  rw [le_length] at h3
  obtain ⟨r, hr, hr2⟩ := searchNew_at (ep := ep) (it := { it with itemOffset := o }) hf hok hn h1
  have hg := getData_none (name := b!"auction") (k := as.length) hf hok (noAuction hn hau) (Nat.le_refl _) h1
  rw [List.take_length] at hg
  have hkind : auctionKind e (o + (encodeArgs as).length) = .ok 0 (o + (encodeArgs as).length + 4) := by
    have hfew := hb.few
    unfold auctionKind
    refine seqThen (readLE_at h2 (by omega)) (getThen ?_)
    rw [if_neg (by omega)]
    have h4 : At e.buf (o + (encodeArgs as).length + 4) (tail.take n) := by
      rw [← List.take_append_drop n tail, At.append] at h3
      exact h3.1
    refine seqThen (slice_at h4 (by rw [List.length_take, Nat.min_eq_left hb.long])) ?_
    have hno : ∀ t : Bytes, (∃ x y, t = x :: y ∧ 97 ≤ x.toNat) → tail.take n ≠ t := by
      rintro t ⟨x, y, rfl, hx⟩ heq
      cases tail with
      | nil => simp at heq
      | cons z zs =>
        have hz := hb.other z rfl
        cases n with
        | zero => simp at heq
        | succ n =>
          rw [List.take_succ_cons] at heq
          injection heq with h5 h6
          subst h5
          omega
    rw [if_neg (fun h => hno _ ⟨_, _, rfl, by decide⟩ h.2), if_neg (fun h => hno _ ⟨_, _, rfl, by decide⟩ h.2), if_neg (fun h => hno _ ⟨_, _, rfl, by decide⟩ h.2)]
    rfl
  unfold parseAuction
  refine getThen (modThen ?_)
  dsimp only
  refine seqThen hr ?_
  refine seqThen (a := false) (t := ⟨o + (encodeArgs as).length, ep, { it with itemOffset := o - 4, generic := 1 }⟩) ?_ ?_
  · refine seqThen (a := .error 1) (t := ⟨o + (encodeArgs as).length, ep, { it with itemOffset := o }⟩) (by rw [attempt_run, lp_err (s := ⟨_, _, _⟩) hg]) ?_
    dsimp only
    rw [if_neg (by decide), if_neg (by rw [hw]; decide)]
    refine modThen ?_
    dsimp only
    rw [show u32 (o + 4294967292) = o - 4 by unfold u32; omega]
    rfl
  refine lpThen hkind (modThen ?_)
  dsimp only
  refine lpThen (a := ()) (o := o) rfl ?_
  rw [← hr2]
  rfl

include hf hok hn hau in
/-- If less than four bytes follow, the parser refuses. -/
theorem shortAuction_at (hw : e.wasm = false) {o ep : Nat} {it : Item} (h : At e.buf o (encodeArgs as)) (hs : e.buf.length < o + (encodeArgs as).length + 4) :
    ∃ c t, parseAuction e as.length ⟨o, ep, it⟩ = .err c t := by
  have hle := h.le
  obtain ⟨r, hr, hr2⟩ := searchNew_at (ep := ep) (it := { it with itemOffset := o }) hf hok hn h
  have hg := getData_none (name := b!"auction") (k := as.length) hf hok (noAuction hn hau) (Nat.le_refl _) h
  rw [List.take_length] at hg
  have hkind : auctionKind e (o + (encodeArgs as).length) = .err eBufferEnd e.buf.length := by
    unfold auctionKind
    rw [bind_run]
    unfold readU32
    rw [readLE_end 4 hle hs]
    rfl
  refine ⟨eBufferEnd, ⟨e.buf.length, ep, { it with itemOffset := u32 (o + 4294967292), generic := 1 }⟩, ?_⟩
  · unfold parseAuction
    refine getThen (modThen ?_)
    dsimp only
    refine seqThen hr ?_
    refine seqThen (a := false) (t := ⟨o + (encodeArgs as).length, ep, { it with itemOffset := u32 (o + 4294967292), generic := 1 }⟩) ?_ ?_
    · refine seqThen (a := .error 1) (t := ⟨o + (encodeArgs as).length, ep, { it with itemOffset := o }⟩) (by rw [attempt_run, lp_err (s := ⟨_, _, _⟩) hg]) ?_
      dsimp only
      rw [if_neg (by decide), if_neg (by rw [hw]; decide)]
      refine modThen ?_
      rfl
    rw [bind_run, lp_err (s := ⟨_, _, _⟩) hkind]
    rfl

include hf hok hn hau in
/-- An operand of an unexpected type: nothing is counted for the review. -/
theorem moduleHidden_at (hw : e.wasm = false) (hb : NoText n tail) (hwa : WrongArgs as)
    (hnew : ∀ a, argNamed as b!"new_validator" = some a → a.ty = .publicKey) {o ep : Nat} {it : Item}
    (h : At e.buf o (encodeArgs as ++ (le 4 n ++ tail))) (ho : 4 ≤ o) (ht : it.typ = 0) (hha : it.hasAmount = false) :
    parseDelegation e as.length false ⟨o, ep, it⟩ = .ok () ⟨o, ep,
      { it with itemOffset := o - 4, special := 0, hasAmount := hasMotes as, generic := 1 }⟩ := by
  have h1 := (At.append.1 h).1
  unfold parseDelegation
  refine getThen ?_
  rw [if_pos (by simp [ht])]
  refine seqThen (quietAuction_at hf hok hn hau hw hb h ho) ?_
  dsimp only
  refine seqThen (a := ()) (t := ⟨o, ep, { it with itemOffset := o - 4, special := 0, generic := 1 }⟩) ?_ ?_
  · unfold checkNewValidator
    cases hnv : argNamed as b!"new_validator" with
    | none => rfl
    | some a => exact lp_run (checkArg_found hf hok hn h1 hnv (publicKey_ok (hnew a hnv)))
  refine seqThen (a := ()) (t := ⟨o, ep, { it with itemOffset := o - 4, special := 0, hasAmount := hasMotes as, generic := 1 }⟩) ?_ ?_
  · unfold delegationLines
    refine seqThen (a := .ok ()) (t := ⟨o, ep, { it with itemOffset := o - 4, special := 0, hasAmount := hasMotes as, generic := 1 }⟩) ?_ rfl
    rw [attempt_run, wrongItems_at (it := { it with itemOffset := o - 4, special := 0, generic := 1 }) hf hok hn h1 _ hwa hha]
  · unfold finishDelegation
    refine modThen ?_
    dsimp only
    simp only [Bool.and_false, if_true]
    rfl

include hf hok hn hau in
/-- A "new_validator" that is no key is refused. -/
theorem moduleNew_at (hw : e.wasm = false) (hb : NoText n tail) {a : Arg} (ha : argNamed as b!"new_validator" = some a) (hty : a.ty ≠ .publicKey)
    {o ep : Nat} {it : Item} (h : At e.buf o (encodeArgs as ++ (le 4 n ++ tail))) (ho : 4 ≤ o) (ht : it.typ = 0) :
    ∃ c t, parseDelegation e as.length false ⟨o, ep, it⟩ = .err c t := by
  have h1 := (At.append.1 h).1
  have h3 : ¬ isPublicKey a.ty.tag (a.ty.inner 255) = true := by
    rw [isPublicKey_iff]; exact hty
  have h4 : ∃ c t, checkArg e as.length b!"new_validator" isPublicKey o = .err c t := by
    unfold checkArg
    exact ⟨_, _, seqThen (search_found hf hok hn h1 ha) (by dsimp only; rw [require_run, if_neg h3])⟩
  obtain ⟨c, t, h4⟩ := h4
  refine ⟨c, ⟨t, ep, { it with itemOffset := o - 4, special := 0, generic := 1 }⟩, ?_⟩
  unfold parseDelegation
  refine getThen ?_
  rw [if_pos (by simp [ht])]
  refine seqThen (quietAuction_at hf hok hn hau hw hb h ho) ?_
  dsimp only
  unfold checkNewValidator
  rw [ha, if_pos (by rfl), bind_run, lp_err (s := ⟨_, _, _⟩) h4]
  rfl

/-- The state in which the arguments of such a session are looked at. -/
def codeStart : Item := { typ := 0, special := 255 }

include hf in
/-- Parsing such a session up to its arguments. -/
theorem module_front {code : Bytes} {off ep : Nat} (h : At e.buf off (ExecItem.moduleBytes code as).encode) :
    parseDeployItem e false ⟨off + 1, ep, { typ := 0 }⟩ =
      (do parseDelegation e as.length false; finishItem e as.length (off + 1) : M IS Unit) ⟨off + 1 + 4 + code.length + 4, ep, codeStart⟩ := by
  have h1 : At e.buf (off + 1) (pfx code ++ (le 4 as.length ++ encodeArgs as)) := (At.cons.1 h).2
  have h3 := h1.pfx.2
  rw [At.append, le_length] at h3
  have hl3 := h3.2.le
  have hcnt := encodeArgs_count as
  have hf' := hf
  unfold Fits at hf'
  unfold parseDeployItem
  refine modThen (getThen ?_)
  dsimp only
  rw [if_pos (by rfl)]
  unfold parseModuleBytes
  refine getThen (lpThen (parseItem_at hf h1) (lpThen (readLE_at h3.1 (show as.length < 256 ^ 4 by omega)) ?_))
  dsimp only
  rw [if_neg (by decide)]
  rfl

/-- What the parser remembers of such a session. -/
def hiddenCode (code : Bytes) (as : List Arg) (off : Nat) : Item :=
  { typ := 0, special := 0, hasAmount := hasMotes as, runtime := 0, fixed := 0, generic := 1,
    itemOffset := off + 1 + 4 + code.length, total := (ExecItem.moduleBytes code as).encode.length }

include hf hok hn hau in
/-- It is read, and has no lines. -/
theorem hiddenCode_session (hw : e.wasm = false) (hb : NoText n tail) (hwa : WrongArgs as)
    (hnew : ∀ a, argNamed as b!"new_validator" = some a → a.ty = .publicKey) {code : Bytes} {off : Nat}
    (h : At e.buf off ((ExecItem.moduleBytes code as).encode ++ (le 4 n ++ tail))) :
    SessionAt e off (.moduleBytes code as) 0 (hiddenCode code as off) [] := by
  refine ⟨?_, rfl, rfl, Nat.zero_le _, fun i kv hi => by simp at hi⟩
  have hx := (At.append.1 h).1
  have h1 : At e.buf (off + 1) (pfx code ++ (le 4 as.length ++ (encodeArgs as ++ (le 4 n ++ tail)))) := by
    have : (ExecItem.moduleBytes code as).encode ++ (le 4 n ++ tail) = 0 :: (pfx code ++ (le 4 as.length ++ (encodeArgs as ++ (le 4 n ++ tail)))) := by
      simp [ExecItem.encode, encodeRuntimeArgs]
    rw [this] at h
    exact (At.cons.1 h).2
  have h3 := h1.pfx.2
  rw [At.append, le_length] at h3
  have hl3 := h3.2.le
  rw [List.length_append] at hl3
  have hf' := hf
  unfold Fits at hf'
  have hlen : (ExecItem.moduleBytes code as).encode.length = 1 + (4 + code.length) + (4 + (encodeArgs as).length) := by
    simp [ExecItem.encode, pfx, encodeRuntimeArgs]; omega
  show parseDeployItem e false ⟨off + 1, 0, { typ := 0 }⟩ = _
  rw [module_front hf hx]
  refine seqThen (moduleHidden_at hf hok hn hau hw hb hwa hnew h3.2 (by omega) rfl rfl) ?_
  unfold finishItem
  refine lpThen (parseArgs_at hf hok (At.append.1 h3.2).1) ?_
  refine lpThen (a := (ExecItem.moduleBytes code as).encode.length) (o := off + (ExecItem.moduleBytes code as).encode.length) ?_ ?_
  · dsimp only
    unfold totalLength
    refine getThen ?_
    rw [if_pos (by omega), hlen]
    show Res.ok _ _ = _
    congr 1 <;> omega
  · show Res.ok _ _ = _
    unfold hiddenCode codeStart
    rw [Nat.add_sub_cancel]

include hf hok hn hau in
/-- If such a session is read, four bytes follow that are a number of at most 100 and of the bytes behind. -/
theorem module_follows (hw : e.wasm = false) {code rest front : Bytes} {ep off : Nat}
    (hb : e.buf = front ++ ((ExecItem.moduleBytes code as).encode ++ rest)) (ho : front.length = off) {q : IS}
    (h : parseDeployItem e false ⟨off + 1, ep, { typ := 0 }⟩ = .ok () q) :
    4 ≤ rest.length ∧ leVal (rest.take 4) ≤ 100 ∧ 4 + leVal (rest.take 4) ≤ rest.length := by
  have hx : At e.buf off (ExecItem.moduleBytes code as).encode := ⟨front, rest, by rw [hb, List.append_assoc], ho⟩
  have h1 := (At.cons.1 hx).2
  have h3 := h1.pfx.2
  unfold encodeRuntimeArgs at h3
  rw [At.append, le_length] at h3
  have hm : markAt as rest = some rest := by
    rcases markAt_found as rest with ⟨pre, a, post, h1, -, h2, -⟩ | ⟨-, h2⟩
    · exact absurd h2 (noAuction hn hau a (by rw [List.take_length, h1]; simp))
    · exact h2
  have hcr : ¬ Overruns rest := by
    intro hov
    obtain ⟨f, hf'⟩ := (module_crash (ep := ep) hf hok hw hb ho).2 ⟨rest, hm, hov⟩
    rw [h] at hf'
    cases hf'
  have h4 : 4 ≤ rest.length := by
    by_contra hlt
    have hlen : e.buf.length = off + (ExecItem.moduleBytes code as).encode.length + rest.length := by
      rw [hb]; simp only [List.length_append]; omega
    have hel : (ExecItem.moduleBytes code as).encode.length = 1 + (4 + code.length) + (4 + (encodeArgs as).length) := by
      simp [ExecItem.encode, pfx, encodeRuntimeArgs]; omega
    obtain ⟨c, t, hc⟩ := shortAuction_at (ep := ep) (it := codeStart) hf hok hn hau hw h3.2 (by omega)
    rw [module_front hf hx, bind_run] at h
    unfold parseDelegation at h
    have : (do
      let isModule : Bool := (← M.get).item.typ == tyModuleBytes
      let (redel, hasAuction) ← (if isModule then parseAuction e as.length else pure (false, true))
      checkNewValidator e as.length redel
      delegationLines e as.length redel
      finishDelegation e hasAuction : M IS Unit) ⟨off + 1 + 4 + code.length + 4, ep, codeStart⟩ = .err c t := by
      refine getThen ?_
      rw [if_pos (by rfl), bind_run, hc]
      rfl
    rw [this] at h
    cases h
  unfold Overruns at hcr
  omega

end
end Casper
