import Verif.Props.CutTransfers
import Verif.Props.AcceptCalls

/-!
# Calls in Deploys whose argument names contain zero bytes

Which calls of stored contracts are accepted, whatever their arguments are called: names count up to their first zero byte.
-/

namespace Casper

open M

section
variable {e : Env} {o ep : Nat} {as rs : List Arg} {it : Item} (hf : Fits e) (hok : ∀ a ∈ rs, a.Ok) (hn : as = cut rs) (h : At e.buf o (encodeArgs rs))
  (hty : it.typ ≠ 0)

include hf hok hn h hty in
theorem delegation_at_cut {redel : Bool} (hd : DelegateNames redel as) (hsp : it.special ≠ 0) (hg : it.generic = 0) :
    parseDelegation e as.length redel ⟨o, ep, it⟩ = .ok () ⟨o, ep,
      { it with hasAmount := true, runtime := it.runtime + (if redel then 4 else 3), fixed := if e.expert then 2 + it.ver else it.fixed }⟩ := by
  obtain ⟨am, am1, am2⟩ := hd.amount
  obtain ⟨dl, dl1, dl2⟩ := hd.delegator
  obtain ⟨vl, vl1, vl2⟩ := hd.validator
  unfold parseDelegation
  refine getThen ?_
  simp only [show (it.typ == tyModuleBytes) = false by simpa using hty, Bool.false_eq_true, if_false]
  refine seqThen (a := (redel, true)) (t := ⟨o, ep, it⟩) rfl ?_
  dsimp only
  refine seqThen (a := ()) (t := ⟨o, ep, it⟩) ?_ ?_
  · unfold checkNewValidator
    cases redel with
    | false => rfl
    | true =>
      obtain ⟨nv, nv1, nv2⟩ := hd.new rfl
      rw [if_pos rfl]
      exact lp_run (checkArg_found_cut hf hok hn h nv1 (publicKey_ok nv2))
  refine seqThen (a := ()) (t := ⟨o, ep, { it with hasAmount := true, runtime := it.runtime + (if redel then 4 else 3) }⟩) ?_ ?_
  · unfold delegationLines
    refine seqThen (a := .ok ()) (t := ⟨o, ep, { it with hasAmount := true, runtime := it.runtime + (if redel then 4 else 3) }⟩) ?_ rfl
    have : checkDelegationItems e as.length redel ⟨o, ep, it⟩ = .ok () ⟨o, ep, { it with hasAmount := true, runtime := it.runtime + (if redel then 4 else 3) }⟩ := by
      unfold checkDelegationItems
      refine lpThen (countArg_found_cut hf hok hn h am1 (motes_ok am2)) (modThen (lpThen (countArg_found_cut hf hok hn h dl1 (publicKey_ok dl2)) ?_))
      refine lpThen (countArg_found_cut hf hok hn h vl1 (publicKey_ok vl2)) ?_
      refine lpThen (checkArg_found_cut hf hok hn h dl1 (publicKey_ok dl2)) (lpThen (checkArg_found_cut hf hok hn h vl1 (publicKey_ok vl2)) ?_)
      refine lpThen (checkArg_found_cut hf hok hn h am1 (motes_ok am2)) (getThen ?_)
      dsimp only
      rw [if_neg hsp]
      cases redel with
      | false => rw [if_neg (by decide)]; rfl
      | true =>
        obtain ⟨nv, nv1, nv2⟩ := hd.new rfl
        rw [if_pos rfl]
        exact lpThen (checkArg_found_cut hf hok hn h nv1 (publicKey_ok nv2)) rfl
    rw [attempt_run, this]
  · unfold finishDelegation
    refine modThen ?_
    dsimp only
    rw [if_neg hsp]
    cases e.expert with
    | false => rfl
    | true =>
      simp only [Bool.and_true, if_true]
      show Res.ok _ _ = _
      simp [hg, Item.ver]

include hf hok hn h in
/-- An argument of an unexpected type ends the search for arguments (`COUNT_RUNTIME_ARGTYPE` returns `parser_ok`). -/
theorem wrongItems_at_cut (redel : Bool) (hw : WrongArgs as) (hha : it.hasAmount = false) :
    checkDelegationItems e as.length redel ⟨o, ep, it⟩ = .ok () ⟨o, ep, { it with hasAmount := hasMotes as }⟩ := by
  have hcount : ∀ name (cond : Nat → Nat → Bool), countArg e as.length name cond o =
      .ok (match argNamed as name with
        | none => .skip
        | some a => if cond a.ty.tag (a.ty.inner 255) then .found else .returnOk) o := by
    intro name cond
    cases ha : argNamed as name with
    | none => exact countArg_absent_cut hf hok hn h ha
    | some a =>
      cases hc : cond a.ty.tag (a.ty.inner 255) with
      | true => rw [countArg_found_cut hf hok hn h ha hc]; simp [hc]
      | false => rw [countArg_other_cut hf hok hn h ha hc]; simp [hc]
  unfold checkDelegationItems
  refine lpThen (hcount b!"amount" isAmount) ?_
  by_cases h1 : ∃ a, argNamed as b!"amount" = some a ∧ ¬ a.ty.isMotes
  · obtain ⟨a, h1, h2⟩ := h1
    have h3 : isAmount a.ty.tag (a.ty.inner 255) = false := by rw [← isAmount_iff] at h2; simpa using h2
    unfold hasMotes
    simp only [h1, h3, Bool.false_eq_true, if_false, countStep]
    rw [← hha]; rfl
  obtain ⟨k, h2, h3⟩ : ∃ k, countStep 0 (match argNamed as b!"amount" with
        | none => Count.skip
        | some a => if isAmount a.ty.tag (a.ty.inner 255) then .found else .returnOk) = some k ∧ (k == 1) = hasMotes as := by
    unfold hasMotes
    cases ha : argNamed as b!"amount" with
    | none => exact ⟨0, rfl, rfl⟩
    | some a =>
      have h3 : isAmount a.ty.tag (a.ty.inner 255) = true := by
        rw [isAmount_iff]; by_contra hc; exact h1 ⟨a, ha, hc⟩
      exact ⟨1, by simp only [h3, if_true]; rfl, by simp only [h3]; rfl⟩
  simp only [h2]
  refine modThen ?_
  dsimp only
  rw [h3]
  refine lpThen (hcount b!"delegator" isPublicKey) ?_
  by_cases h4 : ∃ a, argNamed as b!"delegator" = some a ∧ a.ty ≠ .publicKey
  · obtain ⟨a, h5, h6⟩ := h4
    have h7 : isPublicKey a.ty.tag (a.ty.inner 255) = false := by rw [ne_eq, ← isPublicKey_iff] at h6; simpa using h6
    simp only [h5, h7, Bool.false_eq_true, if_false, countStep]; rfl
  obtain ⟨k2, h5⟩ : ∃ k2, countStep k (match argNamed as b!"delegator" with
        | none => Count.skip
        | some a => if isPublicKey a.ty.tag (a.ty.inner 255) then .found else .returnOk) = some k2 := by
    cases ha : argNamed as b!"delegator" with
    | none => exact ⟨k, rfl⟩
    | some a =>
      have h3 : isPublicKey a.ty.tag (a.ty.inner 255) = true := by
        rw [isPublicKey_iff]; by_contra hc; exact h4 ⟨a, ha, hc⟩
      exact ⟨k + 1, by simp only [h3, if_true]; rfl⟩
  simp only [h5]
  refine lpThen (hcount b!"validator" isPublicKey) ?_
  obtain ⟨a, h8, h9⟩ : ∃ a, argNamed as b!"validator" = some a ∧ a.ty ≠ .publicKey := by
    rcases hw with hw | hw | hw
    · exact absurd hw h1
    · exact absurd hw h4
    · exact hw
  have h7 : isPublicKey a.ty.tag (a.ty.inner 255) = false := by rw [ne_eq, ← isPublicKey_iff] at h9; simpa using h9
  simp only [h8, h7, Bool.false_eq_true, if_false, countStep]; rfl

include hf hok hn h hty in
theorem hidden_at_cut {entry : Bytes} (hw : WrongArgs as) (hha : it.hasAmount = false)
    (hd : entry = b!"redelegate" → ∃ a, argNamed as b!"new_validator" = some a ∧ a.ty = .publicKey) :
    parseDelegation e as.length (decide (entry = b!"redelegate")) ⟨o, ep, it⟩ = .ok () ⟨o, ep,
      { it with hasAmount := hasMotes as, generic := if it.special = 0 then 1 else it.generic,
                fixed := if e.expert then 2 + it.ver + (if it.special = 0 ∨ it.generic ≠ 0 then 1 else 0) else it.fixed }⟩ := by
  unfold parseDelegation
  refine getThen ?_
  simp only [show (it.typ == tyModuleBytes) = false by simpa using hty, Bool.false_eq_true, if_false]
  refine seqThen (a := (decide (entry = b!"redelegate"), true)) (t := ⟨o, ep, it⟩) rfl ?_
  dsimp only
  refine seqThen (a := ()) (t := ⟨o, ep, it⟩) ?_ ?_
  · unfold checkNewValidator
    by_cases hr : entry = b!"redelegate"
    · obtain ⟨nv, nv1, nv2⟩ := hd hr
      rw [if_pos (by simpa using hr)]
      exact lp_run (checkArg_found_cut hf hok hn h nv1 (publicKey_ok nv2))
    · rw [if_neg (by simpa using hr)]; rfl
  refine seqThen (a := ()) (t := ⟨o, ep, { it with hasAmount := hasMotes as }⟩) ?_ ?_
  · unfold delegationLines
    refine seqThen (a := .ok ()) (t := ⟨o, ep, { it with hasAmount := hasMotes as }⟩) ?_ rfl
    rw [attempt_run, wrongItems_at_cut hf hok hn h _ hw hha]
  · unfold finishDelegation
    refine modThen ?_
    dsimp only
    cases e.expert with
    | false =>
      by_cases hs : it.special = 0
      · simp only [hs, if_true]; rfl
      · simp only [hs, if_false]; rfl
    | true =>
      simp only [Bool.and_true, if_true]
      show Res.ok _ _ = _
      by_cases hs : it.special = 0
      · simp [hs, Item.ver]
      · simp [hs, Item.ver]

include hf hok hn h hty in
/-- Redelegations without a key under the name "new_validator" are refused. -/
theorem noNew_at_cut (hd : ¬ ∃ a, argNamed as b!"new_validator" = some a ∧ a.ty = .publicKey) :
    ∃ c t, parseDelegation e as.length true ⟨o, ep, it⟩ = .err c t := by
  have h1 : ∃ c t, checkArg e as.length b!"new_validator" isPublicKey o = .err c t := by
    cases ha : argNamed as b!"new_validator" with
    | none => exact ⟨_, _, checkArg_absent_cut hf hok hn h ha⟩
    | some a =>
      have h3 : ¬ isPublicKey a.ty.tag (a.ty.inner 255) = true := by
        rw [isPublicKey_iff]; exact fun hc => hd ⟨a, ha, hc⟩
      unfold checkArg
      exact ⟨_, _, seqThen (search_found_cut hf hok hn h ha) (by dsimp only; rw [require_run, if_neg h3])⟩
  obtain ⟨c, t, h1⟩ := h1
  refine ⟨c, ⟨t, ep, it⟩, ?_⟩
  unfold parseDelegation
  refine getThen ?_
  simp only [show (it.typ == tyModuleBytes) = false by simpa using hty, Bool.false_eq_true, if_false]
  refine seqThen (a := (true, true)) (t := ⟨o, ep, it⟩) rfl ?_
  dsimp only
  unfold checkNewValidator
  rw [if_pos rfl, bind_run, lp_err (s := ⟨_, _, _⟩) h1]; rfl

include hf hok hn h in
/-- The lines of a call that is not a delegation: its amount, if it has one, and the hash of its arguments. -/
theorem otherLines_at_cut (redel : Bool) (h1 : ∀ a, argNamed as b!"amount" = some a → a.ty.isMotes)
    (h2 : ∀ a, argNamed as b!"delegator" = some a → a.ty = .publicKey) (h3 : ∀ a, argNamed as b!"validator" = some a → a.ty = .publicKey)
    (hkind : it.special = 0 ∨ (argNamed as b!"amount" = none ∨ argNamed as b!"delegator" = none ∨ argNamed as b!"validator" = none)) :
    delegationLines e as.length redel ⟨o, ep, it⟩ = .ok () ⟨o, ep,
      { it with hasAmount := (argNamed as b!"amount").isSome, runtime := it.runtime + (1 + if (argNamed as b!"amount").isSome then 1 else 0), generic := 1, fixed := 2 }⟩ := by
  have hcount : ∀ name cond, (∀ a, argNamed as name = some a → cond a.ty.tag (a.ty.inner 255) = true) →
      countArg e as.length name cond o = .ok (if (argNamed as name).isSome then .found else .skip) o := by
    intro name cond hc
    cases ha : argNamed as name with
    | none => exact countArg_absent_cut hf hok hn h ha
    | some a => exact countArg_found_cut hf hok hn h ha (hc a ha)
  have c1 := hcount b!"amount" isAmount fun a ha => motes_ok (h1 a ha)
  have c2 := hcount b!"delegator" isPublicKey fun a ha => publicKey_ok (h2 a ha)
  have c3 := hcount b!"validator" isPublicKey fun a ha => publicKey_ok (h3 a ha)
  have hcheck : ∀ name cond, (∀ a, argNamed as name = some a → cond a.ty.tag (a.ty.inner 255) = true) →
      checkArg e as.length name cond o = if (argNamed as name).isSome then .ok () o else .err 27 o := by
    intro name cond hc
    cases ha : argNamed as name with
    | none => exact checkArg_absent_cut hf hok hn h ha
    | some a => exact checkArg_found_cut hf hok hn h ha (hc a ha)
  have d1 := hcheck b!"amount" isAmount fun a ha => motes_ok (h1 a ha)
  have d2 := hcheck b!"delegator" isPublicKey fun a ha => publicKey_ok (h2 a ha)
  have d3 := hcheck b!"validator" isPublicKey fun a ha => publicKey_ok (h3 a ha)
  have hstep : ∀ (k : Nat) (b : Bool), countStep k (if b then .found else .skip) = some (k + if b then 1 else 0) := by
    intro k b; cases b <;> rfl
  by_cases hall : (argNamed as b!"amount").isSome ∧ (argNamed as b!"delegator").isSome ∧ (argNamed as b!"validator").isSome
  · obtain ⟨a1, a2, a3⟩ := hall
    have h0' : it.special = 0 := by
      rcases hkind with h | h | h | h
      · exact h
      · rw [h] at a1; simp at a1
      · rw [h] at a2; simp at a2
      · rw [h] at a3; simp at a3
    rw [a1] at c1 d1 ⊢
    rw [a2] at c2 d2
    rw [a3] at c3 d3
    unfold delegationLines
    refine seqThen (a := .ok ()) (t := ⟨o, ep, { it with hasAmount := true, runtime := it.runtime + 2, generic := 1, fixed := 2 }⟩) ?_ rfl
    have : checkDelegationItems e as.length redel ⟨o, ep, it⟩ =
        .ok () ⟨o, ep, { it with hasAmount := true, runtime := it.runtime + 2, generic := 1, fixed := 2 }⟩ := by
      unfold checkDelegationItems
      refine lpThen c1 (modThen (lpThen c2 (lpThen c3 ?_)))
      refine lpThen d2 (lpThen d3 (lpThen d1 (getThen ?_)))
      dsimp only
      rw [if_pos h0']; rfl
    rw [attempt_run, this]
  · have herr : checkDelegationItems e as.length redel ⟨o, ep, it⟩ =
        .err 27 ⟨o, ep, { it with hasAmount := (argNamed as b!"amount").isSome }⟩ := by
      unfold checkDelegationItems
      refine lpThen c1 ?_
      rw [hstep]
      dsimp only
      refine modThen (lpThen c2 ?_)
      rw [hstep]
      dsimp only
      refine lpThen c3 ?_
      rw [hstep]
      have hb : (0 + (if (argNamed as b!"amount").isSome = true then 1 else 0) == 1) = (argNamed as b!"amount").isSome := by
        cases (argNamed as b!"amount").isSome <;> rfl
      dsimp only
      rw [hb]
      by_cases a2 : (argNamed as b!"delegator").isSome
      · rw [if_pos a2] at d2
        refine lpThen d2 ?_
        by_cases a3 : (argNamed as b!"validator").isSome
        · rw [if_pos a3] at d3
          have a1 : ¬ (argNamed as b!"amount").isSome := fun a1 => hall ⟨a1, a2, a3⟩
          rw [if_neg a1] at d1
          refine lpThen d3 ?_
          rw [bind_run, lp_err d1]; rfl
        · rw [if_neg a3] at d3
          rw [bind_run, lp_err d3]; rfl
      · rw [if_neg a2] at d2
        rw [bind_run, lp_err d2]; rfl
    unfold delegationLines
    refine seqThen (a := .error 27) (t := ⟨o, ep, { it with hasAmount := (argNamed as b!"amount").isSome }⟩) (by rw [attempt_run, herr]) ?_
    dsimp only
    rw [if_pos (.inl rfl)]
    cases ha : argNamed as b!"amount" with
    | none =>
      refine seqThen (a := .error 27) (t := ⟨o, ep, { it with hasAmount := false }⟩) ?_ rfl
      rw [attempt_run, lp_err (search_absent_cut hf hok hn h ha)]; rfl
    | some a =>
      refine seqThen (a := .ok (a.ty.tag, a.ty.inner 255)) (t := ⟨o, ep, { it with hasAmount := true }⟩) ?_ rfl
      rw [attempt_run, lp_run (search_found_cut hf hok hn h ha)]; rfl

include hf hok hn h hty in
theorem other_at_cut {entry : Bytes} (hd : OtherArgs entry as) (hsp : it.special = entryKind entry 255) (h0 : (0 : UInt8) ∉ entry) :
    parseDelegation e as.length (decide (entry = b!"redelegate")) ⟨o, ep, it⟩ = .ok () ⟨o, ep,
      { it with hasAmount := (argNamed as b!"amount").isSome, runtime := it.runtime + (1 + if (argNamed as b!"amount").isSome then 1 else 0), generic := 1, fixed := if e.expert then 3 + it.ver else 2 }⟩ := by
  have hkind : it.special = 0 ∨ (argNamed as b!"amount" = none ∨ argNamed as b!"delegator" = none ∨ argNamed as b!"validator" = none) := by
    unfold entryKind at hsp
    rw [cstr_eq h0] at hsp
    by_cases h1 : entry = b!"delegate"
    · exact .inr (hd.missing (.inl h1))
    by_cases h2 : entry = b!"undelegate"
    · exact .inr (hd.missing (.inr (.inl h2)))
    by_cases h3 : entry = b!"redelegate"
    · exact .inr (hd.missing (.inr (.inr h3)))
    rw [if_neg h1, if_neg h2, if_neg h3, if_pos rfl] at hsp
    exact .inl hsp
  unfold parseDelegation
  refine getThen ?_
  simp only [show (it.typ == tyModuleBytes) = false by simpa using hty, Bool.false_eq_true, if_false]
  refine seqThen (a := (decide (entry = b!"redelegate"), true)) (t := ⟨o, ep, it⟩) rfl ?_
  dsimp only
  refine seqThen (a := ()) (t := ⟨o, ep, it⟩) ?_ ?_
  · unfold checkNewValidator
    by_cases hr : entry = b!"redelegate"
    · obtain ⟨nv, nv1, nv2⟩ := hd.new hr
      rw [if_pos (by simpa using hr)]
      exact lp_run (checkArg_found_cut hf hok hn h nv1 (publicKey_ok nv2))
    · rw [if_neg (by simpa using hr)]; rfl
  refine seqThen (a := ()) (t := ⟨o, ep, { it with hasAmount := (argNamed as b!"amount").isSome, runtime := it.runtime + (1 + if (argNamed as b!"amount").isSome then 1 else 0), generic := 1, fixed := 2 }⟩) ?_ ?_
  · exact otherLines_at_cut hf hok hn h _ hd.amount hd.delegator hd.validator hkind
  · unfold finishDelegation
    refine modThen ?_
    dsimp only
    rw [ite_self]
    cases e.expert with
    | false => rfl
    | true =>
      simp only [Bool.and_true, if_true]
      show Res.ok _ _ = _
      simp [Item.ver]; omega

end

/-- Like `StoredOk`, with any names of arguments. -/
structure StoredFine (byHash : Bool) (x : Bytes) (version : Option (Option Nat)) (entry : Bytes) (as : List Arg) : Prop where
  hash : byHash = true → x.length = 32
  ver : ∀ n, version = some (some n) → n < 2 ^ 32
  short : entry.length ≤ 100
  entry0 : (0 : UInt8) ∉ entry
  ok : ∀ a ∈ as, a.Ok

/-- The same views, with arguments found by their names up to a zero byte. -/
def otherView_cut (ex b : Bool) (x : Bytes) (v : Option (Option Nat)) (entry : Bytes) (as : List Arg) (off : Nat) : Item :=
  { otherView ex b x v entry (cut as) off with total := (storedCall b x v entry as).encode.length }

/-- The same. -/
def hiddenView_cut (ex b : Bool) (x : Bytes) (v : Option (Option Nat)) (entry : Bytes) (as : List Arg) (off : Nat) : Item :=
  { hiddenView ex b x v entry (cut as) off with total := (storedCall b x v entry as).encode.length }

theorem renderLine_at_cut {e : Env} {off : Nat} {as : List Arg} {l : ArgLine} {kv : Bytes × Bytes} (hf : Fits e) (hok : ∀ a ∈ as, a.Ok)
    (hl : l.Renders e.blake (cut as) kv) (h : At e.buf off (encodeArgs as)) :
    ∃ c, (if l.motes then showMotes e l.label l.name as.length else showArg e l.label l.name as.length) off = .ok kv c := by
  cases hl with
  | value h1 h2 h3 =>
    rw [h1]
    obtain ⟨o, h4, h5⟩ := getData_find_cut hf hok h2 h
    obtain ⟨c, h6⟩ := displayArg_at hf h3 h5
    exact ⟨c, by unfold showArg; rw [if_neg (by decide), bind_run, h4, Res.bind_ok]; dsimp only; rw [bind_run, h6]; rfl⟩
  | motes h1 h2 h3 =>
    rw [h1]
    obtain ⟨o, h4, h5⟩ := getData_find_cut hf hok h2 h
    obtain ⟨c, h6⟩ := displayMotes_at hf h3 h5
    exact ⟨c, by unfold showMotes; rw [if_pos rfl, bind_run, h4, Res.bind_ok]; dsimp only; rw [bind_run, h6]; rfl⟩

section
variable {e : Env} {off : Nat} {b : Bool} {x : Bytes} {v : Option (Option Nat)} {entry : Bytes} {as : List Arg}
  (hf : Fits e) (hk : StoredFine b x v entry as) (h : At e.buf off (storedCall b x v entry as).encode)

include hf hk h in
theorem stored_parse_bind_cut (ep : Nat) :
    parseDeployItem e false ⟨off + 1, ep, { typ := (storedCall b x v entry as).tag }⟩ =
      Res.bind (parseDelegation e as.length (decide (entry = b!"redelegate"))
        ⟨off + headLen b x v + 4 + entry.length + 4, off + headLen b x v, storedStart e.expert b x v entry off⟩)
        fun _ s => finishItem e as.length (off + 1) s := by
  have ly := stored_layout h
  have hle := ly.le
  have hlen : 0 < headLen b x v := by unfold headLen; omega
  have hf' := hf
  unfold Fits at hf'
  have htag : (storedCall b x v entry as).tag = (storedCall b x v entry []).tag := by cases b <;> cases v <;> rfl
  have hc : cstr entry = entry := cstr_eq hk.entry0
  have tail : ∀ it : Item, { it with itemOffset := off + headLen b x v + 4 + entry.length, special := entryKind entry it.special } =
        storedStart e.expert b x v entry off →
      (checkEntrypoint e >>= fun n => finishItem e n (off + 1)) ⟨off + headLen b x v, ep, it⟩ =
      Res.bind (parseDelegation e as.length (decide (entry = b!"redelegate"))
        ⟨off + headLen b x v + 4 + entry.length + 4, off + headLen b x v, storedStart e.expert b x v entry off⟩)
        fun _ s => finishItem e as.length (off + 1) s := by
    intro it hit
    have hcount := encodeArgs_count as
    have hce : checkEntrypoint e ⟨off + headLen b x v, ep, it⟩ = Res.bind (parseDelegation e as.length (decide (entry = b!"redelegate"))
        ⟨off + headLen b x v + 4 + entry.length + 4, off + headLen b x v, storedStart e.expert b x v entry off⟩) fun _ s => .ok as.length s := by
      unfold checkEntrypoint
      refine modThen (lpThen (by dsimp only; exact copyItem_at hf ly.start hk.short) (modThen (lpThen (by dsimp only; exact readLE_at ly.count (by omega)) (modThen ?_))))
      dsimp only
      rw [hc, bind_run, hit]; rfl
    rw [bind_run, hce]
    cases parseDelegation e as.length (decide (entry = b!"redelegate"))
        ⟨off + headLen b x v + 4 + entry.length + 4, off + headLen b x v, storedStart e.expert b x v entry off⟩ <;> rfl
  unfold parseDeployItem
  refine modThen (getThen ?_)
  dsimp only
  have hhead := ly.head
  have hver := ly.version
  cases b with
  | true =>
    have h32 := hk.hash rfl
    cases v with
    | none =>
      rw [show (storedCall true x none entry as).tag = 1 from rfl, if_neg (by decide), if_pos (by decide)]
      unfold parseByHash
      refine getThen (lpThen (skip_run (by dsimp only; simp [headLen, h32] at hle; omega)) (getThen (seqThen (a := ()) (t := ⟨off + 1 + 32, ep, { typ := 1, special := 255 }⟩) rfl ?_)))
      have hh : off + 1 + 32 = off + headLen true x none := by simp [headLen, h32]
      rw [hh]
      exact tail _ rfl
    | some w =>
      rw [show (storedCall true x (some w) entry as).tag = 3 from rfl, if_neg (by decide), if_pos (by decide)]
      unfold parseByHash
      simp only [if_true, h32] at hver
      refine getThen (lpThen (skip_run (by dsimp only; simp [headLen, h32] at hle; omega)) (getThen (seqThen (a := ())
        (t := ⟨off + 1 + 32 + (optional (le 4) w).length, ep, { typ := 3, special := 255, fixed := if e.expert then 1 else 0 }⟩) ?_ ?_)))
      · show versionStep e true _ = _
        unfold versionStep
        rw [if_pos rfl]
        refine lpThen (parseVersion_at (fun n hn => hk.ver n (by rw [hn])) hver) ?_
        cases e.expert <;> rfl
      · have hh : off + 1 + 32 + (optional (le 4) w).length = off + headLen true x (some w) := by simp [headLen, h32]; omega
        rw [hh]
        exact tail _ (by unfold storedStart; cases e.expert <;> rfl)
  | false =>
    simp only [Bool.false_eq_true, if_false] at hhead hver
    cases v with
    | none =>
      rw [show (storedCall false x none entry as).tag = 2 from rfl, if_neg (by decide), if_neg (by decide), if_pos (by decide)]
      unfold parseByName
      refine getThen (lpThen (parseItem_at hf hhead) (getThen (seqThen (a := ()) (t := ⟨off + 1 + 4 + x.length, ep, { typ := 2, special := 255 }⟩) rfl ?_)))
      have hh : off + 1 + 4 + x.length = off + headLen false x none := by simp [headLen]; omega
      rw [hh]
      exact tail _ rfl
    | some w =>
      rw [show (storedCall false x (some w) entry as).tag = 4 from rfl, if_neg (by decide), if_neg (by decide), if_pos (by decide)]
      unfold parseByName
      rw [pfx_length] at hver
      refine getThen (lpThen (parseItem_at hf hhead) (getThen (seqThen (a := ())
        (t := ⟨off + 1 + 4 + x.length + (optional (le 4) w).length, ep, { typ := 4, special := 255, fixed := if e.expert then 1 else 0 }⟩) ?_ ?_)))
      · show versionStep e true _ = _
        unfold versionStep
        rw [if_pos rfl]
        refine lpThen (parseVersion_at (fun n hn => hk.ver n (by rw [hn])) (hver.cast (by dsimp only; omega))) ?_
        cases e.expert <;> rfl
      · have hh : off + 1 + 4 + x.length + (optional (le 4) w).length = off + headLen false x (some w) := by simp [headLen]; omega
        rw [hh]
        exact tail _ (by unfold storedStart; cases e.expert <;> rfl)

include hf hk h in
theorem stored_parse_cut {r : Item} (hd : parseDelegation e as.length (decide (entry = b!"redelegate"))
      ⟨off + headLen b x v + 4 + entry.length + 4, off + headLen b x v, storedStart e.expert b x v entry off⟩ =
      .ok () ⟨off + headLen b x v + 4 + entry.length + 4, off + headLen b x v, r⟩) (ep : Nat) :
    parseDeployItem e false ⟨off + 1, ep, { typ := (storedCall b x v entry as).tag }⟩ =
      .ok () ⟨off + (storedCall b x v entry as).encode.length, off + headLen b x v, { r with total := (storedCall b x v entry as).encode.length }⟩ := by
  have ly := stored_layout h
  have hle := ly.le
  have hf' := hf
  unfold Fits at hf'
  rw [stored_parse_bind_cut hf hk h, hd]
  show finishItem e as.length (off + 1) _ = _
  unfold finishItem
  refine lpThen (by dsimp only; exact parseArgs_at hf hk.ok ly.args)
    (lpThen (a := (storedCall b x v entry as).encode.length) (o := off + (storedCall b x v entry as).encode.length) ?_ ?_)
  · dsimp only
    unfold totalLength
    refine getThen ?_
    rw [if_pos (by omega), ly.total]
    show Res.ok _ _ = _
    congr 1 <;> omega
  · rfl

include hf hk h in
theorem entryPoint_at_cut (hs : entry.length ≤ 99) (t : Nat) : ∃ c, renderEntryPoint e (off + headLen b x v) t = .ok (b!"Entry-point", entry) c := by
  have ly := stored_layout h
  unfold renderEntryPoint
  refine exThen (get_run _) (exThen (a := ()) (t := off + headLen b x v) rfl (exThen (copyItem_at hf ly.start hk.short) (exThen (a := ()) (t := t) rfl ?_)))
  refine exThen (a := entry) (t := t) ?_ ⟨_, rfl⟩
  unfold showArray
  rw [if_pos (.inl (by omega)), cstr_eq hk.entry0]; rfl

include hf hk h in
theorem stored_fixed_cut {it : Item} (htyp : it.typ = (storedCall b x v entry []).tag) (hshow : (e.expert || it.fixed != 3) = true)
    (hnm : b = false → x.length ≤ 299 ∧ (0 : UInt8) ∉ x) (hs : e.expert = true → entry.length ≤ 99) {i : Nat} {kv : Bytes × Bytes}
    (hi : (callHead e.blake e.expert b x v entry)[i]? = some kv) :
    ∃ c, fixedDelegation e (off + headLen b x v) it i (off + 1) = .ok kv c := by
  have ly := stored_layout h
  have hle := ly.le
  have hhead := ly.head
  have hver := ly.version
  have hstart := ly.start
  have hf' := hf
  unfold Fits at hf'
  have hent := entryPoint_at_cut hf hk h
  unfold fixedDelegation
  rw [htyp, hshow]
  unfold callHead storedLines at hi
  cases b with
  | true =>
    have h32 := hk.hash rfl
    simp only [if_true, List.append_nil] at hhead
    cases v with
    | none =>
      rw [show (storedCall true x none entry []).tag = 1 from rfl, if_neg (by decide), if_pos rfl]
      have hl : headLen true x none = 33 := by simp [headLen, h32]
      rw [hl] at hent hstart hle ⊢
      unfold fixedByHash
      match i, hi with
      | 0, hi => cases hi; exact ⟨_, rfl⟩
      | 1, hi =>
        cases hi
        rw [if_neg (by decide), if_pos (by decide)]
        have := printBytes_at (s := off + 1) hhead (by omega)
        rw [h32] at this
        exact exThen (get_run _) (exThen this ⟨_, rfl⟩)
      | i + 2, hi =>
        cases hx : e.expert with
        | false => rw [hx] at hi; simp at hi
        | true =>
          rw [hx] at hi
          cases i with
          | succ i => simp at hi
          | zero =>
            cases hi
            rw [if_neg (by simp), if_neg (by simp)]
            refine exThen (skip_run (by omega)) ?_
            rw [if_neg (by decide)]
            refine exThen (parseItem_at hf hstart) ?_
            rw [if_pos (by simp)]
            exact hent (hs hx) _
    | some w =>
      rw [show (storedCall true x (some w) entry []).tag = 3 from rfl, if_neg (by decide), if_neg (by decide), if_pos rfl]
      have hl : headLen true x (some w) = 33 + (optional (le 4) w).length := by simp [headLen, h32]
      rw [hl] at hent hstart hle ⊢
      simp only [if_true, h32] at hver
      have hpv := parseVersion_at (fun n hn => hk.ver n (by rw [hn])) hver
      unfold fixedByHash
      match i, hi with
      | 0, hi => cases hi; exact ⟨_, rfl⟩
      | 1, hi =>
        cases hi
        rw [if_neg (by decide), if_pos (by decide)]
        have := printBytes_at (s := off + 1) hhead (by omega)
        rw [h32] at this
        exact exThen (get_run _) (exThen this ⟨_, rfl⟩)
      | i + 2, hi =>
        cases hx : e.expert with
        | false => rw [hx] at hi; simp at hi
        | true =>
          rw [hx] at hi
          rw [if_neg (by simp), if_neg (by simp)]
          refine exThen (skip_run (by omega)) ?_
          rw [if_pos rfl]
          refine exThen hpv ?_
          match i, hi with
          | 0, hi => cases hi; rw [if_pos (by simp), decimal_eq]; exact ⟨_, rfl⟩
          | 1, hi =>
            cases hi
            rw [if_neg (by simp)]
            refine exThen (parseItem_at hf (hstart.cast (by omega))) ?_
            rw [if_pos (by simp)]
            exact hent (hs hx) _
          | i + 2, hi => simp at hi
  | false =>
    obtain ⟨hx1, hx2⟩ := hnm rfl
    simp only [Bool.false_eq_true, if_false] at hhead hver
    cases v with
    | none =>
      rw [show (storedCall false x none entry []).tag = 2 from rfl, if_neg (by decide), if_neg (by decide), if_neg (by decide), if_pos rfl]
      have hl : headLen false x none = 1 + 4 + x.length := by simp [headLen]; omega
      rw [hl] at hent hstart hle ⊢
      unfold fixedByName
      match i, hi with
      | 0, hi => cases hi; exact ⟨_, rfl⟩
      | 1, hi =>
        cases hi
        rw [if_neg (by decide), if_pos (by decide)]
        refine exThen (copyItem_at hf hhead (by omega)) (exThen (a := x) (t := off + 1 + 4 + x.length) ?_ ⟨_, rfl⟩)
        unfold showArray
        rw [if_pos (.inl (by omega)), cstr_eq hx2]; rfl
      | i + 2, hi =>
        cases hx : e.expert with
        | false => rw [hx] at hi; simp at hi
        | true =>
          rw [hx] at hi
          cases i with
          | succ i => simp at hi
          | zero =>
            cases hi
            rw [if_neg (by simp), if_neg (by simp)]
            refine exThen (parseItem_at hf hhead) ?_
            rw [if_neg (by decide)]
            refine exThen (parseItem_at hf (hstart.cast (by omega))) ?_
            rw [if_pos (by simp)]
            exact hent (hs hx) _
    | some w =>
      rw [show (storedCall false x (some w) entry []).tag = 4 from rfl, if_neg (by decide), if_neg (by decide), if_neg (by decide), if_neg (by decide), if_pos rfl]
      have hl : headLen false x (some w) = 1 + 4 + x.length + (optional (le 4) w).length := by simp [headLen]; omega
      rw [hl] at hent hstart hle ⊢
      rw [pfx_length] at hver
      have hpv := parseVersion_at (fun n hn => hk.ver n (by rw [hn])) (hver.cast (show off + 1 + 4 + x.length = off + 1 + (4 + x.length) by omega))
      unfold fixedByName
      match i, hi with
      | 0, hi => cases hi; exact ⟨_, rfl⟩
      | 1, hi =>
        cases hi
        rw [if_neg (by decide), if_pos (by decide)]
        refine exThen (copyItem_at hf hhead (by omega)) (exThen (a := x) (t := off + 1 + 4 + x.length) ?_ ⟨_, rfl⟩)
        unfold showArray
        rw [if_pos (.inl (by omega)), cstr_eq hx2]; rfl
      | i + 2, hi =>
        cases hx : e.expert with
        | false => rw [hx] at hi; simp at hi
        | true =>
          rw [hx] at hi
          rw [if_neg (by simp), if_neg (by simp)]
          refine exThen (parseItem_at hf hhead) ?_
          rw [if_pos rfl]
          refine exThen hpv ?_
          match i, hi with
          | 0, hi => cases hi; rw [if_pos (by simp), decimal_eq]; exact ⟨_, rfl⟩
          | 1, hi =>
            cases hi
            rw [if_neg (by simp)]
            refine exThen (parseItem_at hf (hstart.cast (by omega))) ?_
            rw [if_pos (by simp)]
            exact hent (hs hx) _
          | i + 2, hi => simp at hi

include hf hk h in
theorem other_session_cut (ha : OtherArgs entry (cut as)) (hnm : b = false → x.length ≤ 299 ∧ (0 : UInt8) ∉ x) (hs : e.expert = true → entry.length ≤ 99)
    {amount : List (Bytes × Bytes)}
    (ham : List.Forall₂ (ArgLine.Renders e.blake (cut as)) (if (argNamed (cut as) b!"amount").isSome then [⟨b!"Amount", b!"amount", true⟩] else []) amount) :
    SessionAt e off (storedCall b x v entry as) (off + headLen b x v) (otherView_cut e.expert b x v entry as off)
      (callHead e.blake e.expert b x v entry ++ otherLines e.blake as amount) := by
  have ly := stored_layout h
  have hle := ly.le
  have hf' := hf
  unfold Fits at hf'
  have hal := ham.length_eq
  have hcl : (callHead e.blake e.expert b x v entry).length = (otherView_cut e.expert b x v entry as off).fixed := by
    unfold callHead
    rw [List.length_append, storedLines_length]
    show _ = if e.expert then 3 + (if v.isSome then 1 else 0) else 2
    cases e.expert <;> cases v <;> rfl
  have hrl : (otherLines e.blake as amount).length = (otherView_cut e.expert b x v entry as off).runtime := by
    unfold otherLines
    rw [List.length_append, ← hal]
    show _ = 1 + (if (argNamed (cut as) b!"amount").isSome then 1 else 0)
    split <;> rfl
  have hst : storedStart e.expert b x v entry off = storedStart e.expert b x v entry off := rfl
  have hty : (storedStart e.expert b x v entry off).typ ≠ 0 := by
    show (storedCall b x v entry []).tag ≠ 0
    rw [storedTag]; cases b <;> cases v <;> simp
  have hpd := other_at_cut (ep := off + headLen b x v) hf hk.ok rfl ly.args hty ha rfl hk.entry0
  rw [storedStart_ver, cut_length] at hpd
  have hfew1 : (callHead e.blake e.expert b x v entry).length ≤ 4 := by
    rw [hcl]; show (if e.expert then 3 + (if v.isSome then 1 else 0) else 2) ≤ 4
    split <;> try split
    all_goals omega
  have hfew2 : (otherLines e.blake as amount).length ≤ 2 := by
    rw [hrl]; show 1 + (if (argNamed (cut as) b!"amount").isSome then 1 else 0) ≤ 2
    split <;> omega
  refine ⟨?_, rfl, by rw [List.length_append, hcl, hrl], by rw [List.length_append]; omega, fun i kv hi => ?_⟩
  · have := stored_parse_cut hf hk h hpd
    rw [this 0]
    simp only [otherView_cut, otherView]
    rw [show (storedStart e.expert b x v entry off).runtime = 0 from rfl, Nat.zero_add]
  · unfold sessionLine
    have hsp : ∀ n, entryKind n 255 = 3 ∨ entryKind n 255 = 4 ∨ entryKind n 255 = 5 ∨ entryKind n 255 = 0 := by
      intro n
      unfold entryKind
      by_cases h1 : cstr n = b!"delegate"
      · rw [if_pos h1]; exact .inl rfl
      by_cases h2 : cstr n = b!"undelegate"
      · rw [if_neg h1, if_pos h2]; exact .inr (.inl rfl)
      by_cases h3 : cstr n = b!"redelegate"
      · rw [if_neg h1, if_neg h2, if_pos h3]; exact .inr (.inr (.inl rfl))
      rw [if_neg h1, if_neg h2, if_neg h3, if_pos rfl]; exact .inr (.inr (.inr rfl))
    have hsp' : (otherView_cut e.expert b x v entry as off).special = entryKind entry 255 := rfl
    rw [hsp', if_neg (by show ¬ entryKind entry 255 = 2; rcases hsp entry with h | h | h | h <;> rw [h] <;> decide), if_pos (hsp entry)]
    unfold itemDelegation
    refine exThen (skip_run (by omega)) ?_
    by_cases hlt : i < (otherView_cut e.expert b x v entry as off).fixed
    · rw [if_pos hlt]
      rw [List.getElem?_append_left (by omega)] at hi
      refine stored_fixed_cut hf hk h rfl ?_ hnm hs hi
      show (e.expert || (if e.expert then 3 + (if v.isSome then 1 else 0) else 2) != 3) = true
      cases e.expert <;> simp
    · rw [if_neg hlt]
      rw [List.getElem?_append_right (by omega), hcl] at hi
      have hilt := (List.getElem?_eq_some_iff.1 hi).1
      rw [hrl] at hilt
      have hio : (otherView_cut e.expert b x v entry as off).itemOffset = off + headLen b x v + 4 + entry.length := rfl
      have hcount := encodeArgs_count as
      refine exThen (a := ()) (t := off + headLen b x v + 4 + entry.length) (by
        show Res.ok () (u16 _) = _
        rw [hio, u16_id (by omega)]) ?_
      rw [if_neg (by omega), if_pos (by show (1 : Nat) ≠ 0; decide)]
      refine exThen (readLE_at ly.count (by omega)) ?_
      have hhash : ∃ c, (do
          parseArgs e as.length
          let stop ← M.get
          let xs ← slice e (u16 (otherView_cut e.expert b x v entry as off).itemOffset)
            (u32 (stop + 4294967296 - (otherView_cut e.expert b x v entry as off).itemOffset))
          pure (b!"Args hash", b!"execution" ++ b!"-" ++ encodeHex (e.blake xs)) : P (Bytes × Bytes)) (off + headLen b x v + 4 + entry.length + 4) =
          .ok (b!"Args hash", argsHashText e.blake as) c := by
        refine exThen (parseArgs_at hf hk.ok ly.args) (exThen (get_run _) ?_)
        rw [hio, u16_id (by omega)]
        refine exThen (slice_at (xs := encodeRuntimeArgs as) ly.start.pfx.2 ?_) ?_
        · unfold encodeRuntimeArgs u32
          rw [List.length_append, le_length]; omega
        · rw [(C20_hash_hex _ []).1]; exact ⟨_, rfl⟩
      generalize hj : i - (otherView_cut e.expert b x v entry as off).fixed = j at hi hilt ⊢
      have hrt : (otherView_cut e.expert b x v entry as off).runtime = 1 + (if (argNamed (cut as) b!"amount").isSome then 1 else 0) := rfl
      unfold otherLines at hi
      rw [hrt] at hilt ⊢
      split at ham
      · rename_i hsome
        simp only [hsome, if_true] at hilt ⊢
        cases ham with
        | cons a1 a2 =>
          cases a2
          match j, hilt with
          | 0, _ =>
            cases hi
            rw [if_pos (by simp)]
            exact renderLine_at_cut hf hk.ok a1 ly.args
          | 1, _ =>
            cases hi
            rw [if_neg (by decide), if_pos (by simp)]
            exact hhash
      · rename_i hsome
        simp only [hsome, Bool.false_eq_true, if_false] at hilt ⊢
        cases ham
        have : j = 0 := by omega
        subst this
        cases hi
        rw [if_neg (by decide), if_pos (.inl rfl)]
        exact hhash

include hf hk h in
theorem delegation_parse_cut (hop : entry = b!"delegate" ∨ entry = b!"undelegate" ∨ entry = b!"redelegate")
    (hd : DelegateNames (decide (entry = b!"redelegate")) (cut as)) (ep : Nat) :
    parseDeployItem e false ⟨off + 1, ep, { typ := (storedCall b x v entry as).tag }⟩ =
      .ok () ⟨off + (storedCall b x v entry as).encode.length, off + headLen b x v, delegationView e.expert b x v entry as off⟩ := by
  have ly := stored_layout h
  have hty : (storedStart e.expert b x v entry off).typ ≠ 0 := by
    show (storedCall b x v entry []).tag ≠ 0
    rw [storedTag]; cases b <;> cases v <;> simp
  have hpd := delegation_at_cut (it := storedStart e.expert b x v entry off) (ep := off + headLen b x v) hf hk.ok rfl ly.args hty hd
    (by show entryKind entry 255 ≠ 0; rcases hop with rfl | rfl | rfl <;> decide) rfl
  rw [storedStart_ver, cut_length] at hpd
  rw [stored_parse_cut hf hk h hpd]
  simp only [delegationView, decide_eq_true_eq]
  rw [show (storedStart e.expert b x v entry off).runtime = 0 from rfl, Nat.zero_add]
  cases e.expert with
  | true => rfl
  | false => simp [storedStart]

include hf hk h in
theorem redelegate_refused_cut (hr : entry = b!"redelegate") (hd : ¬ ∃ a, argNamed (cut as) b!"new_validator" = some a ∧ a.ty = .publicKey) (ep : Nat) (q : IS) :
    parseDeployItem e false ⟨off + 1, ep, { typ := (storedCall b x v entry as).tag }⟩ ≠ .ok () q := by
  have ly := stored_layout h
  have hty : (storedStart e.expert b x v entry off).typ ≠ 0 := by
    show (storedCall b x v entry []).tag ≠ 0
    rw [storedTag]; cases b <;> cases v <;> simp
  obtain ⟨c, t, hq⟩ := noNew_at_cut (it := storedStart e.expert b x v entry off) (ep := off + headLen b x v) hf hk.ok rfl ly.args hty hd
  rw [cut_length] at hq
  rw [stored_parse_bind_cut hf hk h, show decide (entry = b!"redelegate") = true by simpa using hr, hq]
  intro hc
  cases hc

include hf hk h in
theorem delegation_line_absent_cut {op : Nat} (hop : op = 5 ∧ entry = b!"delegate" ∨ op = 6 ∧ entry = b!"undelegate" ∨ op = 7 ∧ entry = b!"redelegate")
    {j : Nat} {l : ArgLine} (hl : (opLines e.expert (cut as) op)[j]? = some l) (hcount : (if op = 7 then 4 else 3) ≤ as.length)
    (habs : ∀ a ∈ as.take (if op = 7 then 4 else 3), cstr a.name ≠ l.name) (kv : Bytes × Bytes) (c : Nat) :
    sessionLine e (off + headLen b x v) (delegationView e.expert b x v entry as off) ((delegationView e.expert b x v entry as off).fixed + j) off ≠ .ok kv c := by
  have ly := stored_layout h
  have hle := ly.le
  have hf' := hf
  unfold Fits at hf'
  have hkind : entryKind entry 255 = op - 2 := by rcases hop with ⟨rfl, rfl⟩ | ⟨rfl, rfl⟩ | ⟨rfl, rfl⟩ <;> decide
  have hop3 : op = 5 ∨ op = 6 ∨ op = 7 := by omega
  have hrt : (delegationView e.expert b x v entry as off).runtime = if op = 7 then 4 else 3 := by
    show (if entry = b!"redelegate" then 4 else 3) = _
    rcases hop with ⟨rfl, rfl⟩ | ⟨rfl, rfl⟩ | ⟨rfl, rfl⟩ <;> rfl
  have hjl : j < (if op = 7 then 4 else 3) := by
    have := (List.getElem?_eq_some_iff.1 hl).1
    have hol : (opLines e.expert (cut as) op).length = if op = 7 then 4 else 3 := by rcases hop3 with rfl | rfl | rfl <;> rfl
    omega
  have hty : (storedStart e.expert b x v entry off).typ ≠ 0 := by
    show (storedCall b x v entry []).tag ≠ 0
    rw [storedTag]; cases b <;> cases v <;> simp
  have hnone := getData_none (name := l.name) (k := if op = 7 then 4 else 3) hf hk.ok
    habs hcount ly.args
  obtain ⟨t, hshow⟩ : ∃ t, (if l.motes then showMotes e l.label l.name (if op = 7 then 4 else 3) else showArg e l.label l.name (if op = 7 then 4 else 3))
      (off + headLen b x v + 4 + entry.length + 4) = .err 1 t := by
    split
    · exact ⟨_, by unfold showMotes; rw [bind_run, hnone]; rfl⟩
    · exact ⟨_, by unfold showArg; rw [bind_run, hnone]; rfl⟩
  suffices hs : sessionLine e (off + headLen b x v) (delegationView e.expert b x v entry as off) ((delegationView e.expert b x v entry as off).fixed + j) off = .err 1 t by
    rw [hs]; intro hc; cases hc
  unfold sessionLine
  have hsp' : (delegationView e.expert b x v entry as off).special = op - 2 := hkind
  rw [hsp', if_neg (by show ¬ op - 2 = 2; omega), if_pos (by show op - 2 = 3 ∨ op - 2 = 4 ∨ op - 2 = 5 ∨ op - 2 = 0; omega)]
  unfold itemDelegation
  refine seqThen (skip_run (by omega)) ?_
  rw [if_neg (by omega)]
  have hio : (delegationView e.expert b x v entry as off).itemOffset = off + headLen b x v + 4 + entry.length := rfl
  have hcnt := encodeArgs_count as
  refine seqThen (a := ()) (t := off + headLen b x v + 4 + entry.length) (by
    show Res.ok () (u16 _) = _
    rw [hio, u16_id (by omega)]) ?_
  rw [Nat.add_sub_cancel_left, hrt, if_neg (by omega), if_neg (by show ¬ (0 : Nat) ≠ 0; decide)]
  refine seqThen (a := ()) (t := off + headLen b x v + 4 + entry.length + 4) ?_ ?_
  · rw [if_pos (by exact hty)]
    exact seqThen (readLE_at ly.count (by omega)) rfl
  rcases hop3 with rfl | rfl | rfl
  · simp only [hsp', show ¬ (5 : Nat) - 2 = spReDelegate by decide, if_false]
    match j, hjl with
    | 0, _ => cases hl; exact hshow
    | 1, _ => cases hl; exact hshow
    | 2, _ => cases hl; exact hshow
  · simp only [hsp', show ¬ (6 : Nat) - 2 = spReDelegate by decide, if_false]
    match j, hjl with
    | 0, _ => cases hl; exact hshow
    | 1, _ => cases hl; exact hshow
    | 2, _ => cases hl; exact hshow
  · simp only [hsp', show (7 : Nat) - 2 = spReDelegate by decide, if_true]
    match j, hjl with
    | 0, _ => cases hl; exact hshow
    | 1, _ => cases hl; exact hshow
    | 2, _ => cases hl; exact hshow
    | 3, _ => cases hl; exact hshow

include hf hk h in
theorem delegation_session_cut {op : Nat} (hop : op = 5 ∧ entry = b!"delegate" ∨ op = 6 ∧ entry = b!"undelegate" ∨ op = 7 ∧ entry = b!"redelegate")
    (hd : DelegateNames (decide (entry = b!"redelegate")) (cut as)) (hnm : e.expert = true → b = false → x.length ≤ 299 ∧ (0 : UInt8) ∉ x)
    {front more : List Arg} (has : as = front ++ more) (hfl : front.length = if entry = b!"redelegate" then 4 else 3)
    {lines : List (Bytes × Bytes)} (hl : List.Forall₂ (ArgLine.Renders e.blake (cut front)) (opLines e.expert (cut front) op) lines) :
    SessionAt e off (storedCall b x v entry as) (off + headLen b x v) (delegationView e.expert b x v entry as off)
      ((if e.expert then storedLines e.blake true b x v else []) ++ lines) := by
  have ly := stored_layout h
  have hle := ly.le
  have hf' := hf
  unfold Fits at hf'
  have hal := hl.length_eq
  have hs : entry.length ≤ 99 := by rcases hop with ⟨-, rfl⟩ | ⟨-, rfl⟩ | ⟨-, rfl⟩ <;> decide
  have hkind : entryKind entry 255 = op - 2 := by rcases hop with ⟨rfl, rfl⟩ | ⟨rfl, rfl⟩ | ⟨rfl, rfl⟩ <;> decide
  have hop3 : op = 5 ∨ op = 6 ∨ op = 7 := by omega
  have hred : decide (entry = b!"redelegate") = decide (op = 7) := by rcases hop with ⟨rfl, rfl⟩ | ⟨rfl, rfl⟩ | ⟨rfl, rfl⟩ <;> decide
  have hcl : (if e.expert then storedLines e.blake true b x v else []).length = (delegationView e.expert b x v entry as off).fixed := by
    show _ = if e.expert then 2 + (if v.isSome then 1 else 0) else 0
    cases e.expert
    · rfl
    · rw [if_pos rfl, if_pos rfl, storedLines_length]; simp
  have hrt : (delegationView e.expert b x v entry as off).runtime = if op = 7 then 4 else 3 := by
    show (if entry = b!"redelegate" then 4 else 3) = _
    rcases hop with ⟨rfl, rfl⟩ | ⟨rfl, rfl⟩ | ⟨rfl, rfl⟩ <;> rfl
  have hrl : lines.length = (delegationView e.expert b x v entry as off).runtime := by
    rw [← hal, hrt]
    rcases hop3 with rfl | rfl | rfl <;> rfl
  have hty : (storedStart e.expert b x v entry off).typ ≠ 0 := by
    show (storedCall b x v entry []).tag ≠ 0
    rw [storedTag]; cases b <;> cases v <;> simp
  have hfew1 : (if e.expert then storedLines e.blake true b x v else []).length ≤ 3 := by
    rw [hcl]; show (if e.expert then 2 + (if v.isSome then 1 else 0) else 0) ≤ 3
    split <;> try split
    all_goals omega
  refine ⟨?_, rfl, by rw [List.length_append, hcl, hrl], by
    have : (if op = 7 then 4 else 3) ≤ 4 := by split <;> omega
    rw [List.length_append, hrl, hrt]; omega, fun i kv hi => ?_⟩
  · exact delegation_parse_cut hf hk h (by rcases hop with ⟨-, h⟩ | ⟨-, h⟩ | ⟨-, h⟩ <;> simp [h]) hd 0
  · unfold sessionLine
    have hsp' : (delegationView e.expert b x v entry as off).special = op - 2 := hkind
    rw [hsp', if_neg (by show ¬ op - 2 = 2; omega), if_pos (by show op - 2 = 3 ∨ op - 2 = 4 ∨ op - 2 = 5 ∨ op - 2 = 0; omega)]
    unfold itemDelegation
    refine exThen (skip_run (by omega)) ?_
    by_cases hlt : i < (delegationView e.expert b x v entry as off).fixed
    · rw [if_pos hlt]
      rw [List.getElem?_append_left (by omega)] at hi
      cases hx : e.expert with
      | false => rw [hx] at hi; simp at hi
      | true =>
        rw [hx, if_pos rfl] at hi
        refine stored_fixed_cut hf hk h rfl (by rw [hx]; rfl) (hnm hx) (fun _ => hs) ?_
        unfold callHead
        rw [hx, List.getElem?_append_left (List.getElem?_eq_some_iff.1 hi).1]
        exact hi
    · rw [if_neg hlt]
      rw [List.getElem?_append_right (by omega), hcl] at hi
      have hilt := (List.getElem?_eq_some_iff.1 hi).1
      rw [hrl] at hilt
      have hio : (delegationView e.expert b x v entry as off).itemOffset = off + headLen b x v + 4 + entry.length := rfl
      have hcount := encodeArgs_count as
      refine exThen (a := ()) (t := off + headLen b x v + 4 + entry.length) (by
        show Res.ok () (u16 _) = _
        rw [hio, u16_id (by omega)]) ?_
      rw [if_neg (by omega), if_neg (by show ¬ (0 : Nat) ≠ 0; decide)]
      refine exThen (a := ()) (t := off + headLen b x v + 4 + entry.length + 4) ?_ ?_
      · rw [if_pos (by exact hty)]
        exact seqThen (readLE_at ly.count (by omega)) rfl
      generalize hj : i - (delegationView e.expert b x v entry as off).fixed = j at hi hilt ⊢
      obtain ⟨l, hx, hsh⟩ := forall₂_get hl hi
      have hfr := ly.args
      rw [has, encodeArgs_append, At.append] at hfr
      have key := renderLine_at_cut hf (fun a ha => hk.ok a (by simp [has, ha])) hsh hfr.1
      rw [show front.length = (delegationView e.expert b x v entry as off).runtime from hfl] at key
      rw [hrt] at hilt
      rcases hop3 with rfl | rfl | rfl
      · simp only [hsp', show ¬ (5 : Nat) - 2 = spReDelegate by decide, if_false]
        match j, hilt with
        | 0, _ => cases hx; exact key
        | 1, _ => cases hx; exact key
        | 2, _ => cases hx; exact key
      · simp only [hsp', show ¬ (6 : Nat) - 2 = spReDelegate by decide, if_false]
        match j, hilt with
        | 0, _ => cases hx; exact key
        | 1, _ => cases hx; exact key
        | 2, _ => cases hx; exact key
      · simp only [hsp', show (7 : Nat) - 2 = spReDelegate by decide, if_true]
        match j, hilt with
        | 0, _ => cases hx; exact key
        | 1, _ => cases hx; exact key
        | 2, _ => cases hx; exact key
        | 3, _ => cases hx; exact key

include hf hk h in
theorem hidden_session_cut (hw : WrongArgs (cut as))
    (hd : entry = b!"redelegate" → ∃ a, argNamed (cut as) b!"new_validator" = some a ∧ a.ty = .publicKey)
    (hnm : e.expert = true → b = false → x.length ≤ 299 ∧ (0 : UInt8) ∉ x) (hs : e.expert = true → entry.length ≤ 99) :
    SessionAt e off (storedCall b x v entry as) (off + headLen b x v) (hiddenView_cut e.expert b x v entry as off)
      (if e.expert then storedLines e.blake true b x v ++ (if namedOp entry then [] else [(b!"Entry-point", entry)]) else []) := by
  have ly := stored_layout h
  have hle := ly.le
  have hf' := hf
  unfold Fits at hf'
  have hkind : entryKind entry 255 = 0 ↔ namedOp entry = false := by
    unfold entryKind namedOp
    rw [cstr_eq hk.entry0]
    by_cases h1 : entry = b!"delegate"
    · simp [h1]
    by_cases h2 : entry = b!"undelegate"
    · simp [h2]
    by_cases h3 : entry = b!"redelegate"
    · simp [h3]
    rw [if_neg h1, if_neg h2, if_neg h3, if_pos rfl]
    simp [h1, h2, h3]
  have hcl : (if e.expert then storedLines e.blake true b x v ++ (if namedOp entry then [] else [(b!"Entry-point", entry)]) else []).length =
      (hiddenView_cut e.expert b x v entry as off).fixed := by
    show _ = if e.expert then 2 + (if v.isSome then 1 else 0) + (if namedOp entry then 0 else 1) else 0
    cases e.expert
    · rfl
    · rw [if_pos rfl, if_pos rfl, List.length_append, storedLines_length]
      cases namedOp entry <;> simp
  have hty : (storedStart e.expert b x v entry off).typ ≠ 0 := by
    show (storedCall b x v entry []).tag ≠ 0
    rw [storedTag]; cases b <;> cases v <;> simp
  have hpd := hidden_at_cut (it := storedStart e.expert b x v entry off) (ep := off + headLen b x v) hf hk.ok rfl ly.args hty hw rfl hd
  rw [storedStart_ver, cut_length] at hpd
  have hg : (storedStart e.expert b x v entry off).generic = 0 := rfl
  have hsp : (storedStart e.expert b x v entry off).special = entryKind entry 255 := rfl
  rw [hg, hsp] at hpd
  refine ⟨?_, rfl, by rw [hcl]; rfl, ?_, fun i kv hi => ?_⟩
  · rw [stored_parse_cut hf hk h hpd]
    unfold hiddenView_cut hiddenView
    have hfx : e.expert = false → (storedStart e.expert b x v entry off).fixed = 0 := by
      intro hx; show (if v.isSome ∧ e.expert then 1 else 0) = 0; rw [hx]; simp
    cases hno : namedOp entry with
    | true =>
      have : ¬ entryKind entry 255 = 0 := by rw [hkind, hno]; decide
      cases hx : e.expert with
      | true => simp [this, storedStart]
      | false => simp [this, storedStart]
    | false =>
      have : entryKind entry 255 = 0 := hkind.2 hno
      cases hx : e.expert with
      | true => simp [this, storedStart]
      | false => simp [this, storedStart]
  · rw [hcl]
    show (if e.expert then 2 + (if v.isSome then 1 else 0) + (if namedOp entry then 0 else 1) else 0) ≤ 100
    split <;> try split
    all_goals try split
    all_goals omega
  · have hilt := (List.getElem?_eq_some_iff.1 hi).1
    rw [hcl] at hilt
    cases hx : e.expert with
    | false => rw [hx] at hi; simp at hi
    | true =>
      unfold sessionLine
      have hk4 : entryKind entry 255 = 3 ∨ entryKind entry 255 = 4 ∨ entryKind entry 255 = 5 ∨ entryKind entry 255 = 0 := by
        unfold entryKind
        by_cases h1 : cstr entry = b!"delegate"
        · rw [if_pos h1]; exact .inl rfl
        by_cases h2 : cstr entry = b!"undelegate"
        · rw [if_neg h1, if_pos h2]; exact .inr (.inl rfl)
        by_cases h3 : cstr entry = b!"redelegate"
        · rw [if_neg h1, if_neg h2, if_pos h3]; exact .inr (.inr (.inl rfl))
        rw [if_neg h1, if_neg h2, if_neg h3, if_pos rfl]; exact .inr (.inr (.inr rfl))
      have hsp' : (hiddenView_cut true b x v entry as off).special = entryKind entry 255 := rfl
      rw [hsp', if_neg (by show ¬ entryKind entry 255 = 2; omega), if_pos hk4]
      unfold itemDelegation
      refine exThen (skip_run (by omega)) ?_
      rw [hx] at hilt
      rw [if_pos hilt]
      rw [hx, if_pos rfl] at hi
      refine stored_fixed_cut hf hk h rfl (by rw [hx]; rfl) (hnm hx) hs ?_
      unfold callHead
      rw [hx, if_pos rfl]
      cases hno : namedOp entry with
      | false => rw [hno] at hi; exact hi
      | true =>
        rw [hno, if_pos rfl, List.append_nil] at hi
        rw [List.getElem?_append_left (List.getElem?_eq_some_iff.1 hi).1]
        exact hi

end

/-- Calls that are fine are read and shown in one of the ways. -/
theorem call_session_cut {e : Env} (hfits : Fits e) {off : Nat} {b : Bool} {x : Bytes} {v : Option (Option Nat)} {entry : Bytes} {as : List Arg}
    (haddr : if b then x.length = 32 else x.length ≤ 299 ∧ 0 ∉ x) (hso : StoredFine b x v entry as)
    (hentry : entry.length ≤ 99) (hval : ValuesFine (cut as)) (hf : CallFine entry (cut as)) (hat : At e.buf off (storedCall b x v entry as).encode) :
    ∃ lines epo it, SessionAt e off (storedCall b x v entry as) epo it lines := by
  by_cases hw : WrongArgs (cut as)
  · exact ⟨_, _, _, hidden_session_cut hfits hso hat hw hf.new (fun _ hb => by rw [hb] at haddr; exact haddr) (fun _ => hentry)⟩
  have h1 : ∀ a, argNamed (cut as) b!"amount" = some a → a.ty.isMotes := by
    intro a ha
    by_contra hc
    exact hw (.inl ⟨a, ha, hc⟩)
  have h2 : ∀ a, argNamed (cut as) b!"delegator" = some a → a.ty = .publicKey := by
    intro a ha
    by_contra hc
    exact hw (.inr (.inl ⟨a, ha, hc⟩))
  have h3 : ∀ a, argNamed (cut as) b!"validator" = some a → a.ty = .publicKey := by
    intro a ha
    by_contra hc
    exact hw (.inr (.inr ⟨a, ha, hc⟩))
  have hrender : ∀ {bs : List Arg} {l : ArgLine} {a : Arg}, argNamed bs l.name = some a → (∀ c ∈ bs, c ∈ cut as) →
      (if l.motes then a.ty.isMotes else a.ty = .publicKey) → ∃ kv, ArgLine.Renders e.blake bs l kv := by
    intro bs l a ha hsub ht
    obtain ⟨k1, k2⟩ := argNamed_name ha
    cases hm : l.motes with
    | true =>
      rw [hm, if_pos rfl] at ht
      obtain ⟨-, text, htext⟩ := hval.motes (hsub a k1) ht
      exact ⟨_, .motes hm ha htext⟩
    | false =>
      rw [hm, if_neg (by decide)] at ht
      obtain ⟨k, hk, ek⟩ := hval.key (hsub a k1) k2 ht
      exact ⟨_, .value hm ha (text := k.address e.blake) (by rw [ek]; exact PubKey.shown _ hk)⟩
  by_cases hop : (entry = b!"delegate" ∨ entry = b!"undelegate" ∨ entry = b!"redelegate") ∧
      ¬ (argNamed (cut as) b!"amount" = none ∨ argNamed (cut as) b!"delegator" = none ∨ argNamed (cut as) b!"validator" = none)
  · obtain ⟨hop, hsome⟩ := hop
    simp only [not_or] at hsome
    obtain ⟨s1, s2, s3⟩ := hsome
    obtain ⟨am, am1⟩ := Option.ne_none_iff_exists'.1 s1
    obtain ⟨dl, dl1⟩ := Option.ne_none_iff_exists'.1 s2
    obtain ⟨vl, vl1⟩ := Option.ne_none_iff_exists'.1 s3
    have hfirst := hf.first hop ⟨am, am1, h1 am am1⟩ ⟨dl, dl1, h2 dl dl1⟩ ⟨vl, vl1, h3 vl vl1⟩
    have hct : (cut as).take (operands entry).length = cut (as.take (operands entry).length) := by simp [cut]
    have hsub : ∀ c ∈ cut (as.take (operands entry).length), c ∈ cut as := fun c hc => by
      rw [← hct] at hc; exact List.mem_of_mem_take hc
    have fam := argNamed_taken am1 (hfirst b!"amount" (by simp [operands]))
    have fdl := argNamed_taken dl1 (hfirst b!"delegator" (by simp [operands]))
    have fvl := argNamed_taken vl1 (hfirst b!"validator" (by simp [operands]))
    have m1 := (argNamed_name fam)
    have d1 := (argNamed_name fdl)
    have v1 := (argNamed_name fvl)
    have hsplit : as = as.take (operands entry).length ++ as.drop (operands entry).length := (List.take_append_drop _ _).symm
    have hoplen : (operands entry).length = if entry = b!"redelegate" then 4 else 3 := by
      unfold operands
      split <;> rfl
    have hnd : (operands entry).Nodup := by
      unfold operands
      split <;> decide
    have hlen : (as.take (operands entry).length).length = if entry = b!"redelegate" then 4 else 3 := by
      have := (List.subperm_of_subset hnd (l₂ := ((cut as).take (operands entry).length).map Arg.name) (fun n hn => by
        obtain ⟨a, ha, hn⟩ := hfirst n hn
        exact List.mem_map.2 ⟨a, ha, hn⟩)).length_le
      rw [List.length_map, hct, cut_length] at this
      rw [← hoplen]
      rw [List.length_take] at this ⊢
      omega
    rw [hct] at fam fdl fvl
    have hda : DelegateNames (decide (entry = b!"redelegate")) (cut as) :=
      ⟨⟨am, am1, h1 am am1⟩, ⟨dl, dl1, h2 dl dl1⟩, ⟨vl, vl1, h3 vl vl1⟩, fun h => hf.new (by simpa using h)⟩
    have hnm : e.expert = true → b = false → x.length ≤ 299 ∧ (0 : UInt8) ∉ x := fun _ hb => by rw [hb] at haddr; exact haddr
    obtain ⟨k1, r1⟩ := hrender (l := ⟨b!"Delegator", b!"delegator", false⟩) fdl hsub (h2 dl dl1)
    obtain ⟨k2, r2⟩ := hrender (l := ⟨b!"Validator", b!"validator", false⟩) fvl hsub (h3 vl vl1)
    obtain ⟨k3, r3⟩ := hrender (l := ⟨b!"Amount", b!"amount", true⟩) fam hsub (h1 am am1)
    rcases hop with hop | hop | hop
    · exact ⟨_, _, _, delegation_session_cut (op := 5) hfits hso hat (.inl ⟨rfl, hop⟩) hda hnm hsplit hlen (.cons r1 (.cons r2 (.cons r3 .nil)))⟩
    · exact ⟨_, _, _, delegation_session_cut (op := 6) hfits hso hat (.inr (.inl ⟨rfl, hop⟩)) hda hnm hsplit hlen (.cons r1 (.cons r2 (.cons r3 .nil)))⟩
    · obtain ⟨nv, nv1, nv2⟩ := hf.new hop
      have fnv := argNamed_taken nv1 (hfirst b!"new_validator" (by simp [operands, hop]))
      rw [hct] at fnv
      obtain ⟨k4, r4⟩ := hrender (l := ⟨b!"Old", b!"validator", false⟩) fvl hsub (h3 vl vl1)
      obtain ⟨k5, r5⟩ := hrender (l := ⟨b!"New", b!"new_validator", false⟩) fnv hsub nv2
      exact ⟨_, _, _, delegation_session_cut (op := 7) hfits hso hat (.inr (.inr ⟨rfl, hop⟩)) hda hnm hsplit hlen
        (.cons r1 (.cons r4 (.cons r5 (.cons r3 .nil))))⟩
  · have hother : entry = b!"delegate" ∨ entry = b!"undelegate" ∨ entry = b!"redelegate" →
        argNamed (cut as) b!"amount" = none ∨ argNamed (cut as) b!"delegator" = none ∨ argNamed (cut as) b!"validator" = none := fun h => by
      by_contra hc
      exact hop ⟨h, hc⟩
    have hnm : b = false → x.length ≤ 299 ∧ (0 : UInt8) ∉ x := fun hb => by rw [hb] at haddr; exact haddr
    cases ha : argNamed (cut as) b!"amount" with
    | none => exact ⟨_, _, _, other_session_cut hfits hso hat ⟨h1, h2, h3, hf.new, hother⟩ hnm (fun _ => hentry) (amount := []) (by rw [ha]; exact .nil)⟩
    | some a =>
      obtain ⟨kv, hr⟩ := hrender (l := ⟨b!"Amount", b!"amount", true⟩) ha (fun _ h => h) (h1 a ha)
      exact ⟨_, _, _, other_session_cut hfits hso hat ⟨h1, h2, h3, hf.new, hother⟩ hnm (fun _ => hentry) (amount := [kv])
        (by rw [ha]; exact .cons hr .nil)⟩

/-- **C85, all calls of stored contracts, all names of arguments.** As in `C85_call_partial`, arguments being found by their names up to a zero byte.  (Missing: contract
names of more than 299 bytes, entry points of more than 99, either with zero bytes, and keys and amounts that are not written as their types demand.) -/
theorem C85_call_cut_partial (pl : Platform) (hcap : pl.cap ≤ 16384) (d : Dev) (hd : d.Ok pl) (path : Bytes)
    (hlen : path.length = 20) (hpath : casperPath path) (x : DeploySpec) (hx : x.Ok) (h0 : 0 ∉ x.chain) (hpay : x.payment.PaysPlainly)
    (byHash : Bool) (addr : Bytes) (version : Option (Option Nat)) (entry : Bytes) (as : List Arg)
    (hses : x.session = storedCall byHash addr version entry as)
    (haddr : if byHash then addr.length = 32 else addr.length ≤ 299 ∧ 0 ∉ addr) (hver : ∀ n, version = some (some n) → n < 2 ^ 32)
    (hentry : entry.length ≤ 99) (hentry0 : 0 ∉ entry) (hok : ∀ a ∈ as, a.Ok) (hval : ValuesFine (cut as)) (rest : Bytes)
    (cs : List Bytes) (last : Bytes) (hcs : cs.flatten ++ last = 0 :: (x.signedPart pl.blake ++ rest)) (hfit : (cs.flatten ++ last).length ≤ pl.cap) :
    (run pl d (upload 2 path cs last)).2 = List.replicate (cs.length + 1) (.reply [] 0x9000) ++ [.pending] ↔
      (∃ fee, x.Presentable pl.fmtTime d.expert rest fee) ∧ CallFine entry (cut as) := by
  have hsm : Small (signedEnv pl d.expert x rest) := by
    rw [hcs] at hfit
    unfold Small; simp only [List.length_cons] at hfit; show (x.signedPart pl.blake ++ rest).length ≤ 16384; omega
  have hso : StoredFine byHash addr version entry as :=
    ⟨fun hb => by rw [hb] at haddr; exact haddr, hver, by omega, hentry0, hok⟩
  have hsok : x.session.Ok := by
    rw [hses]
    exact storedCall_ok (fun hb => by rw [hb] at haddr; exact haddr) hver hok
  constructor
  · intro h
    obtain ⟨s, hs⟩ := (upload_deploy_iff pl (by omega) d hd path hlen hpath cs last _ hcs hfit).1 h
    obtain ⟨fee, hp⟩ := hs.presentable (x := x) (rest := rest) hsm hx h0 hpay hsok rfl
    refine ⟨⟨fee, hp⟩, ?_⟩
    obtain ⟨ep, q, hq, hlines⟩ := hs.session_lines hsm hx hp hsok rfl
    have hl := (signed_layout (H := pl.blake) (d := x) (rest := rest) rfl).session
    rw [hses] at hl hq
    have hnew : entry = b!"redelegate" → ∃ a, argNamed (cut as) b!"new_validator" = some a ∧ a.ty = .publicKey := by
      intro hr
      by_contra hc
      exact redelegate_refused_cut (e := signedEnv pl d.expert x rest) hsm.to_fits hso hl hr hc ep q hq
    refine ⟨hnew, fun hop ham hdl hvl name hname => ?_⟩
    have hparse := delegation_parse_cut (e := signedEnv pl d.expert x rest) hsm.to_fits hso hl hop ⟨ham, hdl, hvl, fun h => hnew (by simpa using h)⟩ ep
    have hqe := hparse.symm.trans hq
    cases hqe
    dsimp only at hlines
    have hoplen : (operands entry).length = if entry = b!"redelegate" then 4 else 3 := by
      unfold operands
      split <;> rfl
    -- there are at least as many arguments
    have hcount : (operands entry).length ≤ as.length := by
      have hsub : ∀ m ∈ operands entry, m ∈ (cut as).map Arg.name := by
        intro m hm
        unfold operands at hm
        have hone : ∀ {n : Bytes} {P : Arg → Prop}, (∃ a, argNamed (cut as) n = some a ∧ P a) → n ∈ (cut as).map Arg.name := by
          rintro n P ⟨a, ha, -⟩
          obtain ⟨h1, h2⟩ := argNamed_name ha
          exact List.mem_map.2 ⟨a, h1, h2⟩
        simp only [List.cons_append, List.nil_append, List.mem_cons] at hm
        rcases hm with rfl | rfl | rfl | hm
        · exact hone hdl
        · exact hone hvl
        · exact hone ham
        · split at hm
          · rename_i hr
            simp only [List.mem_singleton] at hm
            subst hm
            exact hone (hnew hr)
          · cases hm
      have hnd : (operands entry).Nodup := by
        unfold operands
        split <;> decide
      have := (List.subperm_of_subset hnd hsub).length_le
      simpa [cut] using this
    by_contra hc
    have habs : ∀ a ∈ as.take (operands entry).length, cstr a.name ≠ name := fun a ha hn => hc ⟨{ a with name := cstr a.name }, by
      unfold cut
      rw [← List.map_take]
      exact List.mem_map_of_mem ha, hn⟩
    have fin : ∀ op, (op = 5 ∧ entry = b!"delegate" ∨ op = 6 ∧ entry = b!"undelegate" ∨ op = 7 ∧ entry = b!"redelegate") →
        (if op = 7 then 4 else 3) = (operands entry).length →
        (∃ (j : Nat) (l : ArgLine), (opLines d.expert (cut as) op)[j]? = some l ∧ l.name = name) → False := by
      rintro op h1 h2 ⟨j, l, h3, rfl⟩
      have hjl := (List.getElem?_eq_some_iff.1 h3).1
      have hol : (opLines d.expert (cut as) op).length = (operands entry).length := by
        rw [← h2]; rcases h1 with ⟨rfl, -⟩ | ⟨rfl, -⟩ | ⟨rfl, -⟩ <;> rfl
      obtain ⟨kv, c, h4⟩ := hlines ((delegationView d.expert byHash addr version entry as (x.sessionPos pl.blake)).fixed + j) (by
        show _ < u16 ((if d.expert then 2 + (if version.isSome then 1 else 0) else 0) + (if entry = b!"redelegate" then 4 else 3))
        have hfx : (delegationView d.expert byHash addr version entry as (x.sessionPos pl.blake)).fixed =
          if d.expert then 2 + (if version.isSome then 1 else 0) else 0 := rfl
        have hsm3 : (if d.expert then 2 + (if version.isSome then 1 else 0) else 0) ≤ 3 := by
          split <;> try split
          all_goals omega
        have hsm4 : (if entry = b!"redelegate" then 4 else 3) ≤ 4 := by split <;> omega
        rw [u16_id (by omega), hfx]
        omega)
      exact delegation_line_absent_cut (e := signedEnv pl d.expert x rest) (off := x.sessionPos pl.blake) hsm.to_fits hso hl h1 h3 (by rw [h2]; exact hcount)
        (by rw [h2]; exact habs) kv c h4
    rcases hop with rfl | rfl | rfl
    · refine fin 5 (.inl ⟨rfl, rfl⟩) rfl ?_
      simp only [operands, List.cons_append, List.nil_append, List.mem_cons] at hname
      rcases hname with rfl | rfl | rfl | hname
      · exact ⟨0, _, rfl, rfl⟩
      · exact ⟨1, _, rfl, rfl⟩
      · exact ⟨2, _, rfl, rfl⟩
      · simp at hname
    · refine fin 6 (.inr (.inl ⟨rfl, rfl⟩)) rfl ?_
      simp only [operands, List.cons_append, List.nil_append, List.mem_cons] at hname
      rcases hname with rfl | rfl | rfl | hname
      · exact ⟨0, _, rfl, rfl⟩
      · exact ⟨1, _, rfl, rfl⟩
      · exact ⟨2, _, rfl, rfl⟩
      · simp at hname
    · refine fin 7 (.inr (.inr ⟨rfl, rfl⟩)) rfl ?_
      simp only [operands, List.cons_append, List.nil_append, List.mem_cons] at hname
      rcases hname with rfl | rfl | rfl | hname
      · exact ⟨0, _, rfl, rfl⟩
      · exact ⟨1, _, rfl, rfl⟩
      · exact ⟨3, _, rfl, rfl⟩
      · simp only [if_true, List.mem_singleton] at hname
        subst hname
        exact ⟨2, _, rfl, rfl⟩
  · rintro ⟨hp, hc⟩
    have hl := (signed_layout (H := pl.blake) (d := x) (rest := rest) rfl).session
    rw [hses] at hl
    obtain ⟨lines, epo, it, hit⟩ := call_session_cut (e := signedEnv pl d.expert x rest) hsm.to_fits haddr hso hentry hval hc hl
    exact (deploy_shown_iff pl hcap d hd path hlen hpath x hx h0 hpay (typeLabel (x.parsed pl.blake [] 0 0 it)) lines rest hsok
      (fun _ => ⟨epo, it, by rw [hses]; exact hit, fun _ _ _ _ => rfl⟩) cs last hcs hfit).1.2 hp

/-- A delegation whose names all end in zero bytes. -/
def sampleMarked : DeploySpec := { sampleDelegate with
  session := .byHash (List.replicate 32 0x93) b!"delegate" (sampleDelegate.session.args.map Arg.marked) }

theorem cut_sampleMarked : cut (sampleDelegate.session.args.map Arg.marked) = sampleDelegate.session.args := by decide +kernel

/-- All hypotheses together: it is accepted, though Casper finds none of its operands. -/
example : (run samplePl (Dev.init samplePl) (upload 2 (samplePath 0) [(0 :: sampleMarked.signedPart Blake.H).take 200]
      ((0 :: sampleMarked.signedPart Blake.H).drop 200))).2 = [.reply [] 0x9000, .reply [] 0x9000, .pending] ∧
    argNamed sampleMarked.session.args b!"amount" = none := by
  refine ⟨(C85_call_cut_partial samplePl (by decide) (Dev.init samplePl) (.init _) (samplePath 0) rfl (by decide) sampleMarked
      ⟨rfl, by decide, by decide, by decide, sampleDeploy_ok.deps⟩ (by decide) samplePay_plain true (List.replicate 32 0x93) none b!"delegate"
      (sampleDelegate.session.args.map Arg.marked) rfl rfl (by simp) (by decide) (by decide) (by
        intro a ha
        simp only [sampleDelegate, ExecItem.args, List.map_cons, List.map_nil, List.mem_cons, List.not_mem_nil, or_false] at ha
        rcases ha with rfl | rfl | rfl <;> exact ⟨by decide, by decide, by decide⟩) (by
        rw [cut_sampleMarked]
        intro a ha
        simp only [sampleDelegate, ExecItem.args, List.mem_cons, List.not_mem_nil, or_false] at ha
        rcases ha with rfl | rfl | rfl
        · exact ⟨fun _ => ⟨sampleAccount, rfl, rfl⟩, by simp, by simp⟩
        · exact ⟨fun _ => ⟨.ed25519 (List.replicate 32 0x44), rfl, rfl⟩, by simp, by simp⟩
        · exact ⟨by simp, fun _ => ⟨5, 500000000000, by decide, by decide, rfl⟩, by simp⟩)
      [] [(0 :: sampleMarked.signedPart Blake.H).take 200] ((0 :: sampleMarked.signedPart Blake.H).drop 200)
      (by rw [List.flatten_cons, List.flatten_nil, List.append_nil, List.take_append_drop, List.append_nil]; rfl) (by decide +kernel)).2
      ⟨⟨100000000, by decide, ⟨[], 4, by decide, by decide, rfl⟩, by simp [Dev.init], by simp [Dev.init], by simp [Dev.init]⟩, ?_⟩, rfl⟩
  rw [cut_sampleMarked]
  refine ⟨by decide, fun _ _ _ _ name hn => ?_⟩
  simp only [show operands b!"delegate" = [b!"delegator", b!"validator", b!"amount"] from rfl, List.mem_cons, List.not_mem_nil, or_false] at hn
  rcases hn with rfl | rfl | rfl
  · exact ⟨_, .head _, rfl⟩
  · exact ⟨_, .tail _ (.head _), rfl⟩
  · exact ⟨_, .tail _ (.tail _ (.head _)), rfl⟩

end Casper
