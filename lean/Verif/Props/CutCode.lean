import Verif.Props.CutAcceptCalls
import Verif.Props.HiddenCode

/-!
# Code in Deploys whose argument names contain zero bytes

Which Deploys that run code are accepted, whatever their arguments are called: names count up to their first zero byte.
-/

namespace Casper

open M

section
variable {e : Env} {o ep : Nat} {as : List Arg} {it : Item} (hf : Fits e) (hok : ∀ a ∈ as, a.Ok) (h : At e.buf o (encodeArgs as))

include hf hok h in
theorem search_found_raw {name : Bytes} {a : Arg} (ha : argNamed (cut as) name = some a) :
    searchArgs e name as.length o = .ok (a.ty.tag, a.ty.inner 255) o := by
  rw [← cut_length as]; exact search_found_cut hf hok rfl h ha

include hf hok h in
theorem search_absent_raw {name : Bytes} (ha : argNamed (cut as) name = none) : searchArgs e name as.length o = .err 27 o := by
  rw [← cut_length as]; exact search_absent_cut hf hok rfl h ha

include hf hok h in
theorem checkArg_found_raw {name : Bytes} {cond : Nat → Nat → Bool} {a : Arg} (ha : argNamed (cut as) name = some a)
    (hc : cond a.ty.tag (a.ty.inner 255) = true) : checkArg e as.length name cond o = .ok () o := by
  rw [← cut_length as]; exact checkArg_found_cut hf hok rfl h ha hc

include hf hok h in
theorem wrongItems_at_raw (redel : Bool) (hw : WrongArgs (cut as)) (hha : it.hasAmount = false) :
    checkDelegationItems e as.length redel ⟨o, ep, it⟩ = .ok () ⟨o, ep, { it with hasAmount := hasMotes (cut as) }⟩ := by
  rw [← cut_length as]; exact wrongItems_at_cut hf hok rfl h redel hw hha

include hf hok h in
theorem otherLines_at_raw (redel : Bool) (h1 : ∀ a, argNamed (cut as) b!"amount" = some a → a.ty.isMotes)
    (h2 : ∀ a, argNamed (cut as) b!"delegator" = some a → a.ty = .publicKey) (h3 : ∀ a, argNamed (cut as) b!"validator" = some a → a.ty = .publicKey)
    (hkind : it.special = 0 ∨ (argNamed (cut as) b!"amount" = none ∨ argNamed (cut as) b!"delegator" = none ∨ argNamed (cut as) b!"validator" = none)) :
    delegationLines e as.length redel ⟨o, ep, it⟩ = .ok () ⟨o, ep,
      { it with hasAmount := (argNamed (cut as) b!"amount").isSome, runtime := it.runtime + (1 + if (argNamed (cut as) b!"amount").isSome then 1 else 0), generic := 1, fixed := 2 }⟩ := by
  rw [← cut_length as]; exact otherLines_at_cut hf hok rfl h redel h1 h2 h3 hkind

end

/-- What the parser remembers of code without an argument "auction". -/
def moduleView_cut (code : Bytes) (as : List Arg) (off : Nat) : Item :=
  { typ := 0, special := 0, hasAmount := (argNamed (cut as) b!"amount").isSome, runtime := 1 + (if (argNamed (cut as) b!"amount").isSome then 1 else 0), fixed := 2, generic := 1,
    itemOffset := off + 1 + 4 + code.length, total := (ExecItem.moduleBytes code as).encode.length }

/-- Arguments of code that is not presented as a delegation: those with the names of the arguments of delegations have their types. -/
structure CodeArgs_cut (as : List Arg) : Prop where
  ok : ∀ a ∈ as, a.Ok
  auction : argNamed (cut as) b!"auction" = none
  amount : ∀ a, argNamed (cut as) b!"amount" = some a → a.ty.isMotes
  keys : ∀ name, name = b!"delegator" ∨ name = b!"validator" ∨ name = b!"new_validator" → ∀ a, argNamed (cut as) name = some a → a.ty = .publicKey

section
variable {e : Env} {off n : Nat} {code tail : Bytes} {as : List Arg} (hf : Fits e) (hw : e.wasm = false) (ha : CodeArgs_cut as) (hb : NoText n tail)

include hf hw ha hb in
theorem moduleDelegation_at_cut {o ep : Nat} {it : Item} (h : At e.buf o (encodeArgs as ++ (le 4 n ++ tail))) (ho : 4 ≤ o) (ht : it.typ = 0) (hr : it.runtime = 0) :
    parseDelegation e as.length false ⟨o, ep, it⟩ = .ok () ⟨o, ep,
      { it with itemOffset := o - 4, special := 0, hasAmount := (argNamed (cut as) b!"amount").isSome, runtime := 1 + (if (argNamed (cut as) b!"amount").isSome then 1 else 0), fixed := 2, generic := 1 }⟩ := by
  obtain ⟨ty, sp, tot, fx, rt, gn, io, ham⟩ := it
  dsimp only at ht hr
  subst ht hr
  have hf' := hf
  unfold Fits at hf'
  have hle := h.le
  simp only [List.length_append, le_length] at hle
  rw [At.append, At.append] at h
  obtain ⟨h1, h2, h3⟩ := h
  rw [le_length] at h3
  obtain ⟨redel, hredel, hnew⟩ : ∃ redel, attempt (lp (searchArgs e b!"new_validator" as.length)) ⟨o, ep, ⟨0, sp, tot, fx, 0, gn, o, ham⟩⟩ =
      .ok redel ⟨o, ep, ⟨0, sp, tot, fx, 0, gn, o, ham⟩⟩ ∧
      ((∃ v a, redel = .ok v ∧ argNamed (cut as) b!"new_validator" = some a) ∨ ∃ x, redel = .error x) := by
    rw [attempt_run]
    cases hnv : argNamed (cut as) b!"new_validator" with
    | none => rw [lp_err (s := ⟨_, _, _⟩) (search_absent_raw hf ha.ok h1 hnv)]; exact ⟨_, rfl, .inr ⟨_, rfl⟩⟩
    | some a => rw [lp_run (s := ⟨_, _, _⟩) (search_found_raw hf ha.ok h1 hnv)]; exact ⟨_, rfl, .inl ⟨_, a, rfl, rfl⟩⟩
  unfold parseDelegation
  refine getThen ?_
  rw [if_pos (by rfl)]
  have hau : ∀ a ∈ as.take as.length, cstr a.name ≠ b!"auction" := by
    intro a hm
    rw [List.take_length] at hm
    have := ha.auction
    rw [argNamed_cut, Option.map_eq_none_iff, List.find?_eq_none] at this
    simpa using this a hm
  have hg := getData_none (name := b!"auction") (k := as.length) hf ha.ok hau (Nat.le_refl _) h1
  rw [List.take_length] at hg
  have hkind : auctionKind e (o + (encodeArgs as).length) = .ok 0 (o + (encodeArgs as).length + 4) := by
    have hfew := hb.few
    unfold auctionKind
    refine seqThen (readLE_at h2 (by omega)) (getThen ?_)
    rw [if_neg (by omega)]
    have h4 : At e.buf (o + (encodeArgs as).length + 4) (tail.take n) := by
      rw [← List.take_append_drop n tail, At.append] at h3
      exact h3.1
    refine seqThen (slice_at h4 (by rw [List.length_take, Nat.min_eq_left hb.long])) ?_
    have hno : ∀ t : Bytes, (∃ x y, t = x :: y ∧ 97 ≤ x.toNat) → tail.take n ≠ t := by
      rintro t ⟨x, y, rfl, hx⟩ heq
      cases tail with
      | nil => simp at heq
      | cons z zs =>
        have hz := hb.other z rfl
        cases n with
        | zero => simp at heq
        | succ n =>
          rw [List.take_succ_cons] at heq
          injection heq with h5 h6
          subst h5
          omega
    rw [if_neg (fun h => hno _ ⟨_, _, rfl, by decide⟩ h.2), if_neg (fun h => hno _ ⟨_, _, rfl, by decide⟩ h.2), if_neg (fun h => hno _ ⟨_, _, rfl, by decide⟩ h.2)]
    rfl
  refine seqThen (a := (match redel with | .ok _ => true | .error _ => false, false)) (t := ⟨o, ep, ⟨0, 0, tot, fx, 0, 1, o - 4, ham⟩⟩) ?_ ?_
  · unfold parseAuction
    refine getThen (modThen ?_)
    dsimp only
    refine seqThen hredel ?_
    refine seqThen (a := false) (t := ⟨o + (encodeArgs as).length, ep, ⟨0, sp, tot, fx, 0, 1, o - 4, ham⟩⟩) ?_ ?_
    · refine seqThen (a := .error 1) (t := ⟨o + (encodeArgs as).length, ep, ⟨0, sp, tot, fx, 0, gn, o, ham⟩⟩) (by rw [attempt_run, lp_err (s := ⟨_, _, _⟩) hg]) ?_
      dsimp only
      rw [if_neg (by decide), if_neg (by rw [hw]; decide)]
      refine modThen ?_
      dsimp only
      rw [show u32 (o + 4294967292) = o - 4 by unfold u32; omega]
      rfl
    refine lpThen hkind (modThen ?_)
    dsimp only
    exact lpThen (a := ()) (o := o) rfl (by cases redel <;> rfl)
  dsimp only
  refine seqThen (a := ()) (t := ⟨o, ep, ⟨0, 0, tot, fx, 0, 1, o - 4, ham⟩⟩) ?_ ?_
  · unfold checkNewValidator
    rcases hnew with ⟨v, a, rfl, ha1⟩ | ⟨x, rfl⟩
    · exact lp_run (checkArg_found_raw hf ha.ok h1 ha1 (publicKey_ok (ha.keys _ (.inr (.inr rfl)) a ha1)))
    · rfl
  refine seqThen (otherLines_at_raw hf ha.ok h1 _ ha.amount (ha.keys _ (.inl rfl)) (ha.keys _ (.inr (.inl rfl))) (.inl rfl)) ?_
  unfold finishDelegation
  refine modThen ?_
  dsimp only
  rw [if_neg (by simp)]
  simp only [Nat.zero_add]
  rfl

include hf hw ha hb in
/-- Such a session is read. -/
theorem module_parse_cut (h : At e.buf off ((ExecItem.moduleBytes code as).encode ++ (le 4 n ++ tail))) :
    parseDeployItem e false ⟨off + 1, 0, { typ := 0 }⟩ = .ok () ⟨off + (ExecItem.moduleBytes code as).encode.length, 0, moduleView_cut code as off⟩ := by
  have h1 : At e.buf (off + 1) (pfx code ++ (le 4 as.length ++ (encodeArgs as ++ (le 4 n ++ tail)))) := by
    have : (ExecItem.moduleBytes code as).encode ++ (le 4 n ++ tail) = 0 :: (pfx code ++ (le 4 as.length ++ (encodeArgs as ++ (le 4 n ++ tail)))) := by
      simp [ExecItem.encode, encodeRuntimeArgs]
    rw [this] at h
    exact (At.cons.1 h).2
  have h3 := h1.pfx.2
  rw [At.append, le_length] at h3
  have hl3 := h3.2.le
  rw [List.length_append] at hl3
  have hcnt := encodeArgs_count as
  have hf' := hf
  unfold Fits at hf'
  have hlen : (ExecItem.moduleBytes code as).encode.length = 1 + (4 + code.length) + (4 + (encodeArgs as).length) := by
    simp [ExecItem.encode, pfx, encodeRuntimeArgs]; omega
  unfold parseDeployItem
  refine modThen (getThen ?_)
  dsimp only
  rw [if_pos (by rfl)]
  unfold parseModuleBytes
  refine getThen (lpThen (parseItem_at hf h1) (lpThen (readLE_at h3.1 (show as.length < 256 ^ 4 by omega)) ?_))
  dsimp only
  rw [if_neg (by decide)]
  refine seqThen (moduleDelegation_at_cut hf hw ha hb h3.2 (by omega) rfl rfl) ?_
  unfold finishItem
  refine lpThen (parseArgs_at hf ha.ok (At.append.1 h3.2).1) ?_
  refine lpThen (a := (ExecItem.moduleBytes code as).encode.length) (o := off + (ExecItem.moduleBytes code as).encode.length) ?_ ?_
  · dsimp only
    unfold totalLength
    refine getThen ?_
    rw [if_pos (by omega), hlen]
    show Res.ok _ _ = _
    congr 1 <;> omega
  · show Res.ok _ _ = _
    unfold moduleView_cut
    rw [Nat.add_sub_cancel]

include hf hw ha hb in
/-- It is shown with the hash of the code, its amount and the hash of its arguments. -/
theorem module_session_cut (hc : code.length ≤ 32) (h : At e.buf off ((ExecItem.moduleBytes code as).encode ++ (le 4 n ++ tail)))
    {amount : List (Bytes × Bytes)}
    (ham : List.Forall₂ (ArgLine.Renders e.blake (cut as)) (if (argNamed (cut as) b!"amount").isSome then [⟨b!"Amount", b!"amount", true⟩] else []) amount) :
    SessionAt e off (.moduleBytes code as) 0 (moduleView_cut code as off) (codeLines e.blake true code ++ otherLines e.blake as amount) := by
  have hpar := module_parse_cut hf hw ha hb h
  have hx := (At.append.1 h).1
  have h1 := (At.cons.1 hx).2
  have h3 := h1.pfx.2
  have hrta := h3
  unfold encodeRuntimeArgs at h3
  rw [At.append, le_length] at h3
  have hl3 := h3.2.le
  have hcnt := encodeArgs_count as
  have hf' := hf
  unfold Fits at hf'
  have hal := ham.length_eq
  have hrl : (otherLines e.blake as amount).length = (moduleView_cut code as off).runtime := by
    unfold otherLines
    rw [List.length_append, ← hal]
    show _ = 1 + (if (argNamed (cut as) b!"amount").isSome then 1 else 0)
    split <;> rfl
  have hfew2 : (otherLines e.blake as amount).length ≤ 2 := by
    rw [hrl]; show 1 + (if (argNamed (cut as) b!"amount").isSome then 1 else 0) ≤ 2
    split <;> omega
  have hcl : (codeLines e.blake true code).length = 2 := rfl
  refine ⟨hpar, rfl, by rw [List.length_append, hrl]; rfl, by rw [List.length_append, hcl]; omega, fun i kv hi => ?_⟩
  unfold sessionLine
  rw [if_neg (by show ¬ (0 : Nat) = 2; decide), if_pos (by show (0 : Nat) = 3 ∨ (0 : Nat) = 4 ∨ (0 : Nat) = 5 ∨ (0 : Nat) = 0; decide)]
  unfold itemDelegation
  refine exThen (skip_run (by omega)) ?_
  by_cases hlt : i < (moduleView_cut code as off).fixed
  · rw [if_pos hlt]
    have hlt2 : i < 2 := hlt
    rw [List.getElem?_append_left (by omega)] at hi
    unfold fixedDelegation
    rw [if_pos (by rfl), if_pos (Or.inl (by rfl))]
    match i, hlt2 with
    | 0, _ => rw [if_pos rfl]; cases hi; exact ⟨_, rfl⟩
    | 1, _ =>
      rw [if_neg (by decide), if_pos rfl]
      cases hi
      unfold contractHash
      refine exThen (readU32_at (v := code.length) (xs := code ++ encodeRuntimeArgs as) (by rw [← List.append_assoc]; exact h1) (by omega)) ?_
      refine exThen (get_run _) ?_
      rw [if_neg (by omega)]
      refine exThen (slice_at h1.pfx.1 rfl) ⟨off + 1 + 4, ?_⟩
      rw [C20_checksum_hex]; rfl
  · rw [if_neg hlt]
    have hge : ¬ i < 2 := hlt
    rw [List.getElem?_append_right (by omega), hcl] at hi
    have hilt := (List.getElem?_eq_some_iff.1 hi).1
    rw [hrl] at hilt
    have hio : (moduleView_cut code as off).itemOffset = off + 1 + 4 + code.length := rfl
    refine exThen (a := ()) (t := off + 1 + 4 + code.length) (by
      show Res.ok () (u16 _) = _
      rw [hio, u16_id (by omega)]) ?_
    rw [if_neg (by show ¬ i - 2 > _; omega), if_pos (by show (1 : Nat) ≠ 0; decide)]
    refine exThen (readLE_at h3.1 (by omega)) ?_
    have hhash : ∃ c, (do
        parseArgs e as.length
        let stop ← M.get
        let xs ← slice e (u16 (moduleView_cut code as off).itemOffset)
          (u32 (stop + 4294967296 - (moduleView_cut code as off).itemOffset))
        pure (b!"Args hash", b!"execution" ++ b!"-" ++ encodeHex (e.blake xs)) : P (Bytes × Bytes)) (off + 1 + 4 + code.length + 4) =
        .ok (b!"Args hash", argsHashText e.blake as) c := by
      refine exThen (parseArgs_at hf ha.ok h3.2) (exThen (get_run _) ?_)
      rw [hio, u16_id (by omega)]
      refine exThen (slice_at (xs := encodeRuntimeArgs as) hrta ?_) ?_
      · unfold encodeRuntimeArgs u32
        rw [List.length_append, le_length]; omega
      · rw [(C20_hash_hex _ []).1]; exact ⟨_, rfl⟩
    rw [show (moduleView_cut code as off).fixed = 2 from rfl]
    generalize hj : i - 2 = j at hi hilt ⊢
    have hrt : (moduleView_cut code as off).runtime = 1 + (if (argNamed (cut as) b!"amount").isSome then 1 else 0) := rfl
    unfold otherLines at hi
    rw [hrt] at hilt ⊢
    split at ham
    · rename_i hsome
      simp only [hsome, if_true] at hilt ⊢
      cases ham with
      | cons a1 a2 =>
        cases a2
        match j, hilt with
        | 0, _ =>
          cases hi
          rw [if_pos (by simp)]
          exact renderLine_at_cut hf ha.ok a1 h3.2
        | 1, _ =>
          cases hi
          rw [if_neg (by decide), if_pos (by simp)]
          exact hhash
    · rename_i hsome
      simp only [hsome, Bool.false_eq_true, if_false] at hilt ⊢
      cases ham
      have : j = 0 := by omega
      subst this
      cases hi
      rw [if_neg (by decide), if_pos (.inl rfl)]
      exact hhash

include hf in
/-- Code of more than 32 bytes overflows the array meant for its hash. -/
theorem module_line_cut (hc : 32 < code.length) (h : At e.buf off (ExecItem.moduleBytes code as).encode) :
    sessionLine e 0 (moduleView_cut code as off) 1 off = .fault .oobWrite := by
  have h1 := (At.cons.1 h).2
  have hl := h1.le
  have hf' := hf
  unfold Fits at hf'
  have hpl : (pfx code).length = 4 + code.length := by simp [pfx]
  rw [List.length_append, hpl] at hl
  unfold sessionLine
  rw [if_neg (by show ¬ (0 : Nat) = 2; decide), if_pos (by show (0 : Nat) = 3 ∨ (0 : Nat) = 4 ∨ (0 : Nat) = 5 ∨ (0 : Nat) = 0; decide)]
  unfold itemDelegation
  refine seqThen (skip_run (by omega)) ?_
  rw [if_pos (by show 1 < 2; decide)]
  unfold fixedDelegation
  rw [if_pos (by rfl), if_pos (Or.inl (by rfl)), if_neg (by decide), if_pos rfl]
  unfold contractHash
  refine seqThen (readU32_at (v := code.length) (xs := code ++ encodeRuntimeArgs as) (by rw [← List.append_assoc]; exact h1) (by omega)) ?_
  refine getThen ?_
  rw [if_pos hc]
  rfl

end

section
variable {e : Env} {n : Nat} {tail : Bytes} {as : List Arg} (hf : Fits e) (hok : ∀ a ∈ as, a.Ok)
  (hau : argNamed (cut as) b!"auction" = none)

include hau in
theorem noAuction_cut : ∀ a ∈ as.take as.length, cstr a.name ≠ b!"auction" := by
  intro a hm
  rw [List.take_length] at hm
  rw [argNamed_cut, Option.map_eq_none_iff, List.find?_eq_none] at hau
  simpa using hau a hm

include hf hok in
theorem searchNew_at_cut {o ep : Nat} {it : Item} (h1 : At e.buf o (encodeArgs as)) :
    ∃ r, attempt (lp (searchArgs e b!"new_validator" as.length)) ⟨o, ep, it⟩ = .ok r ⟨o, ep, it⟩ ∧
      (match r with | .ok _ => true | .error _ => false) = (argNamed (cut as) b!"new_validator").isSome := by
  rw [attempt_run]
  cases hnv : argNamed (cut as) b!"new_validator" with
  | none => rw [lp_err (s := ⟨_, _, _⟩) (search_absent_raw hf hok h1 hnv)]; exact ⟨_, rfl, rfl⟩
  | some a => rw [lp_run (s := ⟨_, _, _⟩) (search_found_raw hf hok h1 hnv)]; exact ⟨_, rfl, rfl⟩

include hf hok hau in
/-- Without an argument "auction", what follows the arguments is taken for the name of the operation. -/
theorem quietAuction_at_cut (hw : e.wasm = false) (hb : NoText n tail) {o ep : Nat} {it : Item} (h : At e.buf o (encodeArgs as ++ (le 4 n ++ tail))) (ho : 4 ≤ o) :
    parseAuction e as.length ⟨o, ep, it⟩ =
      .ok ((argNamed (cut as) b!"new_validator").isSome, false) ⟨o, ep, { it with itemOffset := o - 4, special := 0, generic := 1 }⟩ := by
  have hf' := hf
  unfold Fits at hf'
  have hle := h.le
  simp only [List.length_append, le_length] at hle
  rw [At.append, At.append] at h
  obtain ⟨h1, h2, h3⟩ := h
  rw [le_length] at h3
  obtain ⟨r, hr, hr2⟩ := searchNew_at_cut (ep := ep) (it := { it with itemOffset := o }) hf hok h1
  have hg := getData_none (name := b!"auction") (k := as.length) hf hok (noAuction_cut hau) (Nat.le_refl _) h1
  rw [List.take_length] at hg
  have hkind : auctionKind e (o + (encodeArgs as).length) = .ok 0 (o + (encodeArgs as).length + 4) := by
    have hfew := hb.few
    unfold auctionKind
    refine seqThen (readLE_at h2 (by omega)) (getThen ?_)
    rw [if_neg (by omega)]
    have h4 : At e.buf (o + (encodeArgs as).length + 4) (tail.take n) := by
      rw [← List.take_append_drop n tail, At.append] at h3
      exact h3.1
    refine seqThen (slice_at h4 (by rw [List.length_take, Nat.min_eq_left hb.long])) ?_
    have hno : ∀ t : Bytes, (∃ x y, t = x :: y ∧ 97 ≤ x.toNat) → tail.take n ≠ t := by
      rintro t ⟨x, y, rfl, hx⟩ heq
      cases tail with
      | nil => simp at heq
      | cons z zs =>
        have hz := hb.other z rfl
        cases n with
        | zero => simp at heq
        | succ n =>
          rw [List.take_succ_cons] at heq
          injection heq with h5 h6
          subst h5
          omega
    rw [if_neg (fun h => hno _ ⟨_, _, rfl, by decide⟩ h.2), if_neg (fun h => hno _ ⟨_, _, rfl, by decide⟩ h.2), if_neg (fun h => hno _ ⟨_, _, rfl, by decide⟩ h.2)]
    rfl
  unfold parseAuction
  refine getThen (modThen ?_)
  dsimp only
  refine seqThen hr ?_
  refine seqThen (a := false) (t := ⟨o + (encodeArgs as).length, ep, { it with itemOffset := o - 4, generic := 1 }⟩) ?_ ?_
  · refine seqThen (a := .error 1) (t := ⟨o + (encodeArgs as).length, ep, { it with itemOffset := o }⟩) (by rw [attempt_run, lp_err (s := ⟨_, _, _⟩) hg]) ?_
    dsimp only
    rw [if_neg (by decide), if_neg (by rw [hw]; decide)]
    refine modThen ?_
    dsimp only
    rw [show u32 (o + 4294967292) = o - 4 by unfold u32; omega]
    rfl
  refine lpThen hkind (modThen ?_)
  dsimp only
  refine lpThen (a := ()) (o := o) rfl ?_
  rw [← hr2]
  rfl

include hf hok hau in
/-- If less than four bytes follow, the parser refuses. -/
theorem shortAuction_at_cut (hw : e.wasm = false) {o ep : Nat} {it : Item} (h : At e.buf o (encodeArgs as)) (hs : e.buf.length < o + (encodeArgs as).length + 4) :
    ∃ c t, parseAuction e as.length ⟨o, ep, it⟩ = .err c t := by
  have hle := h.le
  obtain ⟨r, hr, hr2⟩ := searchNew_at_cut (ep := ep) (it := { it with itemOffset := o }) hf hok h
  have hg := getData_none (name := b!"auction") (k := as.length) hf hok (noAuction_cut hau) (Nat.le_refl _) h
  rw [List.take_length] at hg
  have hkind : auctionKind e (o + (encodeArgs as).length) = .err eBufferEnd e.buf.length := by
    unfold auctionKind
    rw [bind_run]
    unfold readU32
    rw [readLE_end 4 hle hs]
    rfl
  refine ⟨eBufferEnd, ⟨e.buf.length, ep, { it with itemOffset := u32 (o + 4294967292), generic := 1 }⟩, ?_⟩
  · unfold parseAuction
    refine getThen (modThen ?_)
    dsimp only
    refine seqThen hr ?_
    refine seqThen (a := false) (t := ⟨o + (encodeArgs as).length, ep, { it with itemOffset := u32 (o + 4294967292), generic := 1 }⟩) ?_ ?_
    · refine seqThen (a := .error 1) (t := ⟨o + (encodeArgs as).length, ep, { it with itemOffset := o }⟩) (by rw [attempt_run, lp_err (s := ⟨_, _, _⟩) hg]) ?_
      dsimp only
      rw [if_neg (by decide), if_neg (by rw [hw]; decide)]
      refine modThen ?_
      rfl
    rw [bind_run, lp_err (s := ⟨_, _, _⟩) hkind]
    rfl

include hf hok hau in
/-- An operand of an unexpected type: nothing is counted for the review. -/
theorem moduleHidden_at_cut (hw : e.wasm = false) (hb : NoText n tail) (hwa : WrongArgs (cut as))
    (hnew : ∀ a, argNamed (cut as) b!"new_validator" = some a → a.ty = .publicKey) {o ep : Nat} {it : Item}
    (h : At e.buf o (encodeArgs as ++ (le 4 n ++ tail))) (ho : 4 ≤ o) (ht : it.typ = 0) (hha : it.hasAmount = false) :
    parseDelegation e as.length false ⟨o, ep, it⟩ = .ok () ⟨o, ep,
      { it with itemOffset := o - 4, special := 0, hasAmount := hasMotes (cut as), generic := 1 }⟩ := by
  have h1 := (At.append.1 h).1
  unfold parseDelegation
  refine getThen ?_
  rw [if_pos (by simp [ht])]
  refine seqThen (quietAuction_at_cut hf hok hau hw hb h ho) ?_
  dsimp only
  refine seqThen (a := ()) (t := ⟨o, ep, { it with itemOffset := o - 4, special := 0, generic := 1 }⟩) ?_ ?_
  · unfold checkNewValidator
    cases hnv : argNamed (cut as) b!"new_validator" with
    | none => rfl
    | some a => exact lp_run (checkArg_found_raw hf hok h1 hnv (publicKey_ok (hnew a hnv)))
  refine seqThen (a := ()) (t := ⟨o, ep, { it with itemOffset := o - 4, special := 0, hasAmount := hasMotes (cut as), generic := 1 }⟩) ?_ ?_
  · unfold delegationLines
    refine seqThen (a := .ok ()) (t := ⟨o, ep, { it with itemOffset := o - 4, special := 0, hasAmount := hasMotes (cut as), generic := 1 }⟩) ?_ rfl
    rw [attempt_run, wrongItems_at_raw (it := { it with itemOffset := o - 4, special := 0, generic := 1 }) hf hok h1 _ hwa hha]
  · unfold finishDelegation
    refine modThen ?_
    dsimp only
    simp only [Bool.and_false, if_true]
    rfl

include hf hok hau in
/-- A "new_validator" that is no key is refused. -/
theorem moduleNew_at_cut (hw : e.wasm = false) (hb : NoText n tail) {a : Arg} (ha : argNamed (cut as) b!"new_validator" = some a) (hty : a.ty ≠ .publicKey)
    {o ep : Nat} {it : Item} (h : At e.buf o (encodeArgs as ++ (le 4 n ++ tail))) (ho : 4 ≤ o) (ht : it.typ = 0) :
    ∃ c t, parseDelegation e as.length false ⟨o, ep, it⟩ = .err c t := by
  have h1 := (At.append.1 h).1
  have h3 : ¬ isPublicKey a.ty.tag (a.ty.inner 255) = true := by
    rw [isPublicKey_iff]; exact hty
  have h4 : ∃ c t, checkArg e as.length b!"new_validator" isPublicKey o = .err c t := by
    unfold checkArg
    exact ⟨_, _, seqThen (search_found_raw hf hok h1 ha) (by dsimp only; rw [require_run, if_neg h3])⟩
  obtain ⟨c, t, h4⟩ := h4
  refine ⟨c, ⟨t, ep, { it with itemOffset := o - 4, special := 0, generic := 1 }⟩, ?_⟩
  unfold parseDelegation
  refine getThen ?_
  rw [if_pos (by simp [ht])]
  refine seqThen (quietAuction_at_cut hf hok hau hw hb h ho) ?_
  dsimp only
  unfold checkNewValidator
  rw [ha, if_pos (by rfl), bind_run, lp_err (s := ⟨_, _, _⟩) h4]
  rfl

/-- What the parser remembers of such a session. -/
def hiddenCode_cut (code : Bytes) (as : List Arg) (off : Nat) : Item :=
  { typ := 0, special := 0, hasAmount := hasMotes (cut as), runtime := 0, fixed := 0, generic := 1,
    itemOffset := off + 1 + 4 + code.length, total := (ExecItem.moduleBytes code as).encode.length }

include hf hok hau in
/-- It is read, and has no lines. -/
theorem hiddenCode_session_cut (hw : e.wasm = false) (hb : NoText n tail) (hwa : WrongArgs (cut as))
    (hnew : ∀ a, argNamed (cut as) b!"new_validator" = some a → a.ty = .publicKey) {code : Bytes} {off : Nat}
    (h : At e.buf off ((ExecItem.moduleBytes code as).encode ++ (le 4 n ++ tail))) :
    SessionAt e off (.moduleBytes code as) 0 (hiddenCode_cut code as off) [] := by
  refine ⟨?_, rfl, rfl, Nat.zero_le _, fun i kv hi => by simp at hi⟩
  have hx := (At.append.1 h).1
  have h1 : At e.buf (off + 1) (pfx code ++ (le 4 as.length ++ (encodeArgs as ++ (le 4 n ++ tail)))) := by
    have : (ExecItem.moduleBytes code as).encode ++ (le 4 n ++ tail) = 0 :: (pfx code ++ (le 4 as.length ++ (encodeArgs as ++ (le 4 n ++ tail)))) := by
      simp [ExecItem.encode, encodeRuntimeArgs]
    rw [this] at h
    exact (At.cons.1 h).2
  have h3 := h1.pfx.2
  rw [At.append, le_length] at h3
  have hl3 := h3.2.le
  rw [List.length_append] at hl3
  have hf' := hf
  unfold Fits at hf'
  have hlen : (ExecItem.moduleBytes code as).encode.length = 1 + (4 + code.length) + (4 + (encodeArgs as).length) := by
    simp [ExecItem.encode, pfx, encodeRuntimeArgs]; omega
  show parseDeployItem e false ⟨off + 1, 0, { typ := 0 }⟩ = _
  rw [module_front hf hx]
  refine seqThen (moduleHidden_at_cut hf hok hau hw hb hwa hnew h3.2 (by omega) rfl rfl) ?_
  unfold finishItem
  refine lpThen (parseArgs_at hf hok (At.append.1 h3.2).1) ?_
  refine lpThen (a := (ExecItem.moduleBytes code as).encode.length) (o := off + (ExecItem.moduleBytes code as).encode.length) ?_ ?_
  · dsimp only
    unfold totalLength
    refine getThen ?_
    rw [if_pos (by omega), hlen]
    show Res.ok _ _ = _
    congr 1 <;> omega
  · show Res.ok _ _ = _
    unfold hiddenCode_cut codeStart
    rw [Nat.add_sub_cancel]

include hf hok hau in
/-- If such a session is read, four bytes follow that are a number of at most 100 and of the bytes behind. -/
theorem module_follows_cut (hw : e.wasm = false) {code rest front : Bytes} {ep off : Nat}
    (hb : e.buf = front ++ ((ExecItem.moduleBytes code as).encode ++ rest)) (ho : front.length = off) {q : IS}
    (h : parseDeployItem e false ⟨off + 1, ep, { typ := 0 }⟩ = .ok () q) :
    4 ≤ rest.length ∧ leVal (rest.take 4) ≤ 100 ∧ 4 + leVal (rest.take 4) ≤ rest.length := by
  have hx : At e.buf off (ExecItem.moduleBytes code as).encode := ⟨front, rest, by rw [hb, List.append_assoc], ho⟩
  have h1 := (At.cons.1 hx).2
  have h3 := h1.pfx.2
  unfold encodeRuntimeArgs at h3
  rw [At.append, le_length] at h3
  have hm : markAt as rest = some rest := by
    rcases markAt_found as rest with ⟨pre, a, post, h1, -, h2, -⟩ | ⟨-, h2⟩
    · exact absurd h2 (noAuction_cut hau a (by rw [List.take_length, h1]; simp))
    · exact h2
  have hcr : ¬ Overruns rest := by
    intro hov
    obtain ⟨f, hf'⟩ := (module_crash (ep := ep) hf hok hw hb ho).2 ⟨rest, hm, hov⟩
    rw [h] at hf'
    cases hf'
  have h4 : 4 ≤ rest.length := by
    by_contra hlt
    have hlen : e.buf.length = off + (ExecItem.moduleBytes code as).encode.length + rest.length := by
      rw [hb]; simp only [List.length_append]; omega
    have hel : (ExecItem.moduleBytes code as).encode.length = 1 + (4 + code.length) + (4 + (encodeArgs as).length) := by
      simp [ExecItem.encode, pfx, encodeRuntimeArgs]; omega
    obtain ⟨c, t, hc⟩ := shortAuction_at_cut (ep := ep) (it := codeStart) hf hok hau hw h3.2 (by omega)
    rw [module_front hf hx, bind_run] at h
    unfold parseDelegation at h
    have : (do
      let isModule : Bool := (← M.get).item.typ == tyModuleBytes
      let (redel, hasAuction) ← (if isModule then parseAuction e as.length else pure (false, true))
      checkNewValidator e as.length redel
      delegationLines e as.length redel
      finishDelegation e hasAuction : M IS Unit) ⟨off + 1 + 4 + code.length + 4, ep, codeStart⟩ = .err c t := by
      refine getThen ?_
      rw [if_pos (by rfl), bind_run, hc]
      rfl
    rw [this] at h
    cases h
  unfold Overruns at hcr
  omega

end

/-- **C85, code, all names of arguments.** Which Deploys that run code without an argument "auction" are accepted, whatever the code and the arguments are, if what follows does not have a
letter in fifth place: those that can be presented, are followed by a number of at most 100 and of the bytes behind, have no "new_validator" other than
a key, and run code of at most 32 bytes unless an operand has an unexpected type (in which case nothing is shown of the code).
Arguments are found by their names up to a zero byte.  (Missing: amounts that are no numbers.) -/
theorem C85_code_cut_partial (pl : Platform) (hcap : pl.cap ≤ 16384) (d : Dev) (hd : d.Ok pl) (path : Bytes)
    (hlen : path.length = 20) (hpath : casperPath path) (x : DeploySpec) (hx : x.Ok) (h0 : 0 ∉ x.chain) (hpay : x.payment.PaysPlainly)
    (code : Bytes) (as : List Arg) (hses : x.session = .moduleBytes code as) (hok : ∀ a ∈ as, a.Ok)
    (hau : ∀ a ∈ cut as, a.name ≠ b!"auction")
    (hval : ∀ a ∈ cut as, a.name = b!"amount" → a.ty = .u512 ∨ a.ty = .u32 → ∃ text, ShownMotes a.ty a.value text) (rest : Bytes)
    (hlet : ∀ x, rest[4]? = some x → x.toNat < 97)
    (cs : List Bytes) (last : Bytes) (hcs : cs.flatten ++ last = 0 :: (x.signedPart pl.blake ++ rest)) (hfit : (cs.flatten ++ last).length ≤ pl.cap) :
    (run pl d (upload 2 path cs last)).2 = List.replicate (cs.length + 1) (.reply [] 0x9000) ++ [.pending] ↔
      (∃ fee, x.Presentable pl.fmtTime d.expert rest fee) ∧ Counted rest ∧ (∀ a, argNamed (cut as) b!"new_validator" = some a → a.ty = .publicKey) ∧
      (Mistyped (cut as) ∨ code.length ≤ 32) := by
  have hsm : Small (signedEnv pl d.expert x rest) := by
    rw [hcs] at hfit
    unfold Small; simp only [List.length_cons] at hfit; show (x.signedPart pl.blake ++ rest).length ≤ 16384; omega
  have hsok : x.session.Ok := by rw [hses]; exact module_ok hok
  obtain ⟨hb, hpos⟩ := session_rest (H := pl.blake) (x := x) (rest := rest)
  have hat : At (x.signedPart pl.blake ++ rest) (x.sessionPos pl.blake) (x.session.encode ++ rest) := ⟨_, [], by rw [List.append_nil]; exact hb, hpos⟩
  rw [hses] at hb hat
  have hcode : ¬ Mistyped (cut as) → (∀ a, argNamed (cut as) b!"new_validator" = some a → a.ty = .publicKey) → CodeArgs_cut as := by
    intro hm hnew
    refine ⟨hok, argNamed_none hau, fun a ha => ?_, ?_⟩
    · by_contra hc
      exact hm (.inl ⟨a, ha, fun h => hc (.inl h), fun h => hc (.inr h)⟩)
    · rintro name (rfl | rfl | rfl) a ha
      · by_contra hc
        exact hm (.inr (.inl ⟨a, ha, hc⟩))
      · by_contra hc
        exact hm (.inr (.inr ⟨a, ha, hc⟩))
      · exact hnew a ha
  constructor
  · intro h
    obtain ⟨s, hs⟩ := (upload_deploy_iff pl (by omega) d hd path hlen hpath cs last _ hcs hfit).1 h
    obtain ⟨fee, hp⟩ := hs.presentable (x := x) (rest := rest) hsm hx h0 hpay hsok rfl
    obtain ⟨epo, q, hq⟩ := hs.session_read hsm hx hp hsok rfl
    rw [hses] at hq
    have hcnt : Counted rest := module_follows_cut (e := signedEnv pl d.expert x rest) hsm.to_fits hok (argNamed_none hau) rfl hb hpos hq
    obtain ⟨hr, hno⟩ := hcnt.noText hlet
    rw [hr] at hat
    have hnew : ∀ a, argNamed (cut as) b!"new_validator" = some a → a.ty = .publicKey := by
      intro a ha
      by_contra hc
      have h1 : At (signedEnv pl d.expert x rest).buf (x.sessionPos pl.blake + 1) (pfx code ++ (le 4 as.length ++ (encodeArgs as ++ (le 4 (leVal (rest.take 4)) ++ rest.drop 4)))) := by
        have : (ExecItem.moduleBytes code as).encode ++ (le 4 (leVal (rest.take 4)) ++ rest.drop 4) =
            0 :: (pfx code ++ (le 4 as.length ++ (encodeArgs as ++ (le 4 (leVal (rest.take 4)) ++ rest.drop 4)))) := by
          simp [ExecItem.encode, encodeRuntimeArgs]
        rw [this] at hat
        have := (At.cons.1 hat).2
        rw [← hr] at this
        rw [← hr]
        exact this
      have h3 := h1.pfx.2
      rw [At.append, le_length] at h3
      obtain ⟨c, t, hc⟩ := moduleNew_at_cut (e := signedEnv pl d.expert x rest) (ep := epo) (it := codeStart) hsm.to_fits hok (argNamed_none hau) rfl hno ha hc h3.2 (by omega) rfl
      have hq : parseDeployItem (signedEnv pl d.expert x rest) false ⟨x.sessionPos pl.blake + 1, epo, { typ := 0 }⟩ = .ok () q := hq
      have hx' : At (signedEnv pl d.expert x rest).buf (x.sessionPos pl.blake) (ExecItem.moduleBytes code as).encode := ⟨_, rest, by rw [List.append_assoc]; exact hb, hpos⟩
      rw [module_front (e := signedEnv pl d.expert x rest) hsm.to_fits hx', bind_run, hc] at hq
      cases hq
    refine ⟨⟨fee, hp⟩, hcnt, hnew, ?_⟩
    by_contra hc
    rw [not_or] at hc
    obtain ⟨hm, hlong⟩ := hc
    obtain ⟨pc, pk, p1, p2, p3⟩ := hp.payment
    have hat' : At (signedEnv pl d.expert x rest).buf (x.sessionPos pl.blake) ((ExecItem.moduleBytes code as).encode ++ (le 4 (leVal (rest.take 4)) ++ rest.drop 4)) := by
      rw [← hr]; rw [← hr] at hat; exact hat
    have hpar := module_parse_cut (e := signedEnv pl d.expert x rest) (off := x.sessionPos pl.blake) hsm.fits rfl (hcode hm hnew) hno hat'
    have hline := module_line_cut (e := signedEnv pl d.expert x rest) (off := x.sessionPos pl.blake) hsm.fits (by omega : 32 < code.length) (At.append.1 hat').1
    have hrd := readDeploy_of (e := signedEnv pl d.expert x rest) (it := moduleView_cut code as (x.sessionPos pl.blake)) (epo := 0) hsm hx rfl p3
      (by rw [hses]; exact hpar)
    have := hs.parse
    rw [show readDeploy (mkEnv pl d.expert (x.signedPart pl.blake ++ rest)) ⟨0, 0, {}⟩ = _ from hrd] at this
    injection this with _ hs'
    subst hs'
    have hrt : (moduleView_cut code as (x.sessionPos pl.blake)).runtime ≤ 2 := by
      show 1 + (if (argNamed (cut as) b!"amount").isSome then 1 else 0) ≤ 2
      split <;> omega
    have hfx : (moduleView_cut code as (x.sessionPos pl.blake)).fixed = 2 := rfl
    obtain ⟨hlt, hsl⟩ := second_line (e := signedEnv pl d.expert x rest) (it := moduleView_cut code as (x.sessionPos pl.blake)) (epo := 0) (rest := rest) hsm hx rfl p3
      (by omega) (by omega)
    obtain ⟨kv, t, hi⟩ := hs.items _ hlt
    exact absurd (hi.symm.trans ((hsl _).trans hline)) (by intro h; cases h)
  · rintro ⟨⟨fee, p1, ⟨pc, pk, p2, p3, p4⟩, p5, p6, p7⟩, hcnt, hnew, hor⟩
    obtain ⟨hr, hno⟩ := hcnt.noText hlet
    have hat' : At (signedEnv pl d.expert x rest).buf (x.sessionPos pl.blake) ((ExecItem.moduleBytes code as).encode ++ (le 4 (leVal (rest.take 4)) ++ rest.drop 4)) := by
      rw [← hr]; exact hat
    obtain ⟨it, lines, hse⟩ : ∃ it lines, SessionAt (signedEnv pl d.expert x rest) (x.sessionPos pl.blake) x.session 0 it lines := by
      rw [hses]
      by_cases hm : Mistyped (cut as)
      · exact ⟨_, _, hiddenCode_session_cut (e := signedEnv pl d.expert x rest) hsm.to_fits hok (argNamed_none hau) rfl hno hm.wrong hnew hat'⟩
      · have hca := hcode hm hnew
        cases ha : argNamed (cut as) b!"amount" with
        | none =>
          exact ⟨_, _, module_session_cut (e := signedEnv pl d.expert x rest) hsm.to_fits rfl hca hno (hor.resolve_left hm) hat' (amount := []) (by rw [ha]; exact .nil)⟩
        | some a =>
          obtain ⟨a1, a2⟩ := argNamed_name ha
          obtain ⟨text, ht⟩ := hval a a1 a2 (hca.amount a ha)
          exact ⟨_, _, module_session_cut (e := signedEnv pl d.expert x rest) hsm.to_fits rfl hca hno (hor.resolve_left hm) hat' (amount := [(b!"Amount", text)])
            (by rw [ha]; exact .cons (.motes rfl ha ht) .nil)⟩
    have htime : ∃ time, d.expert = true → x.ExpertOk pl.fmtTime time := by
      cases he : d.expert with
      | false => exact ⟨[], fun h => by cases h⟩
      | true => obtain ⟨t, ht⟩ := p5 he; exact ⟨t, fun _ => ⟨ht, p6 he⟩⟩
    obtain ⟨time, htime⟩ := htime
    obtain ⟨d', ttl, -, r2, -⟩ := signed_upload pl hcap d hd path hlen hpath x pc pk fee ⟨hx, p1, h0, p4, p2, p3⟩ rest (leVal (rest.take 4))
      (fun _ => ⟨by have := hcnt.2.1; omega, rest.drop 4, hr⟩) cs last hcs hfit hse rfl time htime
    rw [r2]

/-- Code of 32 bytes whose amount is called "amount" up to a zero byte. -/
def sampleMarkedCode : DeploySpec := { sampleDeploy with
  session := .moduleBytes (List.replicate 32 7) [Arg.marked ⟨b!"amount", UInt8.ofNat 2 :: le 2 1000, .u512⟩] }

/-- All hypotheses together: it is accepted, though Casper finds no amount in it. -/
example : (run samplePl (Dev.init samplePl) (upload 2 (samplePath 0) [] (0 :: (sampleMarkedCode.signedPart Blake.H ++ (le 4 1 ++ sampleApproval))))).2 =
      [.reply [] 0x9000, .pending] ∧ argNamed sampleMarkedCode.session.args b!"amount" = none := by
  have hcut : cut sampleMarkedCode.session.args = [⟨b!"amount", UInt8.ofNat 2 :: le 2 1000, .u512⟩] := by decide +kernel
  refine ⟨(C85_code_cut_partial samplePl (by decide) (Dev.init samplePl) (.init _) (samplePath 0) rfl (by decide) sampleMarkedCode
      ⟨rfl, by decide, by decide, by decide, sampleDeploy_ok.deps⟩ (by decide) samplePay_plain (List.replicate 32 7) sampleMarkedCode.session.args rfl
      (by
        intro a ha
        simp only [sampleMarkedCode, ExecItem.args, List.mem_cons, List.not_mem_nil, or_false] at ha
        subst ha
        exact ⟨by decide, by decide, by decide⟩)
      (by rw [hcut]; intro a ha; simp only [List.mem_cons, List.not_mem_nil, or_false] at ha; subst ha; decide)
      (by
        rw [hcut]; intro a ha _ _; simp only [List.mem_cons, List.not_mem_nil, or_false] at ha; subst ha
        exact ⟨_, .u512 2 1000 (by decide) (by decide)⟩)
      (le 4 1 ++ sampleApproval) (by decide +kernel) [] _ rfl (by decide +kernel)).2
      ⟨⟨100000000, by decide, ⟨[], 4, by decide, by decide, rfl⟩, by simp [Dev.init], by simp [Dev.init], by simp [Dev.init]⟩,
        ⟨by decide +kernel, by decide +kernel, by decide +kernel⟩, ?_, .inr (by decide)⟩, by decide +kernel⟩
  rw [hcut]
  intro a ha
  cases ha

end Casper
