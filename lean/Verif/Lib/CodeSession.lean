import Verif.Lib.DeployReview
/-
Sessions that run code with an argument "auction": how the parser reads them and what it shows.
-/
namespace Casper
open M

/-- What the parser remembers of such a session. -/
def codeView (ex : Bool) (op : Nat) (code : Bytes) (front rest : List Arg) (off : Nat) : Item :=
  { typ := 0, special := op - 2, hasAmount := true, runtime := front.length, fixed := if ex then 2 else 0, generic := 0,
    itemOffset := off + 1 + 4 + code.length + 4, total := (ExecItem.moduleBytes code (front ++ rest)).encode.length }

/-- The lines about the code itself, in expert mode. -/
def codeLines (H : Bytes → Bytes) (ex : Bool) (code : Bytes) : List (Bytes × Bytes) :=
  if ex then [(b!"Execution", b!"contract"), (b!"Cntrct hash", checksumHex H (H code))] else []

theorem argNamed_front {as bs : List Arg} {name : Bytes} {a : Arg} (h : argNamed as name = some a) : argNamed (as ++ bs) name = some a := by
  unfold argNamed at h ⊢
  rw [List.find?_append, h]; rfl

section
variable {e : Env} {off op : Nat} {code entry : Bytes} {front rest : List Arg} (hf : Fits e)
  (hok : ∀ a ∈ front ++ rest, a.Ok) (hn : noNul (front ++ rest))
  (hau : argNamed (front ++ rest) b!"auction" = some ⟨b!"auction", pfx entry, .string⟩)
  (hop : op = 5 ∧ entry = b!"delegate" ∨ op = 6 ∧ entry = b!"undelegate" ∨ op = 7 ∧ entry = b!"redelegate")
  (hd : DelegateArgs (decide (op = 7)) front) (hnv : op ≠ 7 → argNamed (front ++ rest) b!"new_validator" = none)

include hf hok hn hau hop hd hnv in
/-- The search for the argument "auction". -/
theorem parseAuction_at {o ep : Nat} {it : Item} (h : At e.buf o (encodeArgs (front ++ rest))) :
    parseAuction e (front ++ rest).length ⟨o, ep, it⟩ = .ok (decide (op = 7), true) ⟨o, ep, { it with itemOffset := o, special := op - 2 }⟩ := by
  have hf' := hf
  unfold Fits at hf'
  unfold parseAuction
  refine getThen (modThen ?_)
  dsimp only
  refine seqThen (a := if op = 7 then .ok (22, 255) else .error 27) (t := ⟨o, ep, { it with itemOffset := o }⟩) ?_ ?_
  · rw [attempt_run]
    by_cases h7 : op = 7
    · obtain ⟨nv, nv1, nv2⟩ := hd.new (by simpa using h7)
      rw [lp_run (s := ⟨_, _, _⟩) (search_found hf hok hn h (argNamed_front nv1)), if_pos h7, nv2]
      rfl
    · rw [lp_err (s := ⟨_, _, _⟩) (search_absent hf hok hn h (hnv h7)), if_neg h7]
  obtain ⟨p, hp1, hp2⟩ := getData_find hf hok hn hau h
  have hel : (pfx entry).length = 4 + entry.length := by simp [pfx]
  have hs : entry.length ≤ 10 := by rcases hop with ⟨-, rfl⟩ | ⟨-, rfl⟩ | ⟨-, rfl⟩ <;> decide
  rw [At.append] at hp2
  have hle := hp2.1.le
  refine seqThen (a := true) (t := ⟨p, ep, { it with itemOffset := o }⟩) ?_ ?_
  · refine seqThen (a := .ok ((pfx entry).length, 10)) (t := ⟨p, ep, { it with itemOffset := o }⟩) (by rw [attempt_run, lp_run (s := ⟨_, _, _⟩) hp1]; rfl) ?_
    dsimp only
    refine reqThen rfl (getThen (reqThen ⟨by omega, ?_⟩ rfl))
    dsimp only
    rw [u32_id (by omega)]
    exact hle
  refine lpThen (a := op - 2) (o := p + 4 + entry.length - entry.length) ?_ ?_
  · have h1 : At e.buf p (pfx entry ++ []) := by rw [List.append_nil]; exact hp2.1
    have h2 := h1.pfx.1
    unfold auctionKind
    refine seqThen (readU32_at (v := entry.length) (xs := entry) hp2.1 (by omega)) (getThen ?_)
    rw [if_neg (by omega)]
    refine seqThen (slice_at h2 rfl) ?_
    rw [Nat.add_sub_cancel]
    rcases hop with ⟨rfl, rfl⟩ | ⟨rfl, rfl⟩ | ⟨rfl, rfl⟩ <;> rfl
  refine modThen ?_
  dsimp only
  refine lpThen (a := ()) (o := o) rfl ?_
  by_cases h7 : op = 7
  · rw [if_pos h7]; simp only [h7, decide_true]; rfl
  · rw [if_neg h7]; simp only [h7, decide_false]; rfl

include hf hok hn hau hop hd hnv in
theorem codeDelegation_at {o ep : Nat} {it : Item} (h : At e.buf o (encodeArgs (front ++ rest))) (ht : it.typ = 0) (hr : it.runtime = 0)
    (hfx : it.fixed = 0) (hg : it.generic = 0) :
    parseDelegation e (front ++ rest).length false ⟨o, ep, it⟩ = .ok () ⟨o, ep,
      { it with itemOffset := o, special := op - 2, hasAmount := true, runtime := front.length, fixed := if e.expert then 2 else 0 }⟩ := by
  obtain ⟨ty, sp, tot, fx, rt, gn, io, ha⟩ := it
  dsimp only at ht hr hfx hg
  subst ht hr hfx hg
  obtain ⟨am, am1, am2⟩ := hd.amount
  obtain ⟨dl, dl1, dl2⟩ := hd.delegator
  obtain ⟨vl, vl1, vl2⟩ := hd.validator
  replace am1 := argNamed_front (bs := rest) am1
  replace dl1 := argNamed_front (bs := rest) dl1
  replace vl1 := argNamed_front (bs := rest) vl1
  have hsp : op - 2 ≠ 0 := by omega
  unfold parseDelegation
  refine getThen ?_
  rw [if_pos (by rfl)]
  refine seqThen (parseAuction_at hf hok hn hau hop hd hnv h) ?_
  dsimp only
  refine seqThen (a := ()) (t := ⟨o, ep, { typ := 0, special := op - 2, total := tot, itemOffset := o, hasAmount := ha }⟩) ?_ ?_
  · unfold checkNewValidator
    by_cases h7 : op = 7
    · obtain ⟨nv, nv1, nv2⟩ := hd.new (by simpa using h7)
      rw [if_pos (by simpa using h7)]
      exact lp_run (checkArg_found hf hok hn h (argNamed_front nv1) (publicKey_ok nv2))
    · rw [if_neg (by simpa using h7)]; rfl
  refine seqThen (a := ()) (t := ⟨o, ep, { typ := 0, special := op - 2, total := tot, itemOffset := o, hasAmount := true, runtime := front.length }⟩) ?_ ?_
  · unfold delegationLines
    refine seqThen (a := .ok ()) (t := ⟨o, ep, { typ := 0, special := op - 2, total := tot, itemOffset := o, hasAmount := true, runtime := front.length }⟩) ?_ rfl
    have : checkDelegationItems e (front ++ rest).length (decide (op = 7)) ⟨o, ep, { typ := 0, special := op - 2, total := tot, itemOffset := o, hasAmount := ha }⟩ =
        .ok () ⟨o, ep, { typ := 0, special := op - 2, total := tot, itemOffset := o, hasAmount := true, runtime := front.length }⟩ := by
      unfold checkDelegationItems
      refine lpThen (countArg_found hf hok hn h am1 (u512_ok am2)) (modThen (lpThen (countArg_found hf hok hn h dl1 (publicKey_ok dl2)) ?_))
      refine lpThen (countArg_found hf hok hn h vl1 (publicKey_ok vl2)) ?_
      refine lpThen (checkArg_found hf hok hn h dl1 (publicKey_ok dl2)) (lpThen (checkArg_found hf hok hn h vl1 (publicKey_ok vl2)) ?_)
      refine lpThen (checkArg_found hf hok hn h am1 (u512_ok am2)) (getThen ?_)
      dsimp only
      rw [if_neg (by exact hsp)]
      have hc := hd.count
      by_cases h7 : op = 7
      · obtain ⟨nv, nv1, nv2⟩ := hd.new (by simpa using h7)
        rw [if_pos (by simpa using h7)]
        refine lpThen (checkArg_found hf hok hn h (argNamed_front nv1) (publicKey_ok nv2)) ?_
        rw [hc, if_pos (by simpa using h7)]; rfl
      · rw [if_neg (by simpa using h7), hc, if_neg (by simpa using h7)]; rfl
    rw [attempt_run, this]
  · unfold finishDelegation
    refine modThen ?_
    dsimp only
    cases e.expert with
    | false =>
      rw [if_neg (by decide)]
      show Res.ok _ _ = _
      rw [if_neg (by exact hsp)]; rfl
    | true =>
      rw [if_pos (by decide)]
      show Res.ok _ _ = _
      dsimp only
      rw [if_neg (by exact hsp)]; rfl

include hf hok hn hau hop hd hnv in
/-- Such a session is read, and shown as a delegation. -/
theorem code_session (h : At e.buf off (ExecItem.moduleBytes code (front ++ rest)).encode) (hcode : e.expert = true → code.length ≤ 32)
    {lines : List (Bytes × Bytes)} (hl : List.Forall₂ (ArgLine.Shows e.blake front) (opLines e.expert front op) lines) :
    SessionAt e off (.moduleBytes code (front ++ rest)) 0 (codeView e.expert op code front rest off) (codeLines e.blake e.expert code ++ lines) := by
  have h1 := (At.cons.1 h).2
  have h3 := h1.pfx.2
  unfold encodeRuntimeArgs at h3
  rw [At.append] at h3
  have hl3 := h3.2.le
  have hcnt := encodeArgs_count (front ++ rest)
  have hf' := hf
  unfold Fits at hf'
  rw [le_length] at h3 hl3
  have hop3 : op = 5 ∨ op = 6 ∨ op = 7 := by omega
  have hal := hl.length_eq
  have hac : front.length = if op = 7 then 4 else 3 := by
    have := hd.count
    simpa using this
  have hrl : lines.length = front.length := by
    rw [← hal, hac]
    rcases hop3 with rfl | rfl | rfl <;> rfl
  have hcl : (codeLines e.blake e.expert code).length = (codeView e.expert op code front rest off).fixed := by
    show _ = if e.expert then 2 else 0
    cases e.expert <;> rfl
  have h4 : front.length ≤ 4 := by rw [hac]; split <;> omega
  have hcl2 : (codeLines e.blake e.expert code).length ≤ 2 := by rw [hcl]; show (if e.expert then 2 else 0) ≤ 2; split <;> omega
  have hlen : (ExecItem.moduleBytes code (front ++ rest)).encode.length = 1 + (4 + code.length) + (4 + (encodeArgs (front ++ rest)).length) := by
    simp [ExecItem.encode, pfx, encodeRuntimeArgs]; omega
  refine ⟨?_, rfl, by rw [List.length_append, hcl, hrl]; rfl, by rw [List.length_append, hrl]; omega, fun i kv hi => ?_⟩
  · unfold parseDeployItem
    refine modThen (getThen ?_)
    dsimp only
    rw [if_pos (by rfl)]
    unfold parseModuleBytes
    refine getThen (lpThen (parseItem_at hf h1) (lpThen (readLE_at h3.1 (show (front ++ rest).length < 256 ^ 4 by omega)) ?_))
    dsimp only
    rw [if_neg (by decide)]
    refine seqThen (codeDelegation_at hf hok hn hau hop hd hnv h3.2 rfl rfl rfl rfl) ?_
    unfold finishItem
    refine lpThen (parseArgs_at hf hok h3.2) ?_
    refine lpThen (a := (ExecItem.moduleBytes code (front ++ rest)).encode.length) (o := off + (ExecItem.moduleBytes code (front ++ rest)).encode.length) ?_ ?_
    · dsimp only
      unfold totalLength
      refine getThen ?_
      rw [if_pos (by omega), hlen]
      show Res.ok _ _ = _
      congr 1 <;> omega
    · rfl
  · unfold sessionLine
    have hsp' : (codeView e.expert op code front rest off).special = op - 2 := rfl
    rw [hsp', if_neg (by show ¬ op - 2 = 2; omega), if_pos (by show op - 2 = 3 ∨ op - 2 = 4 ∨ op - 2 = 5 ∨ op - 2 = 0; omega)]
    unfold itemDelegation
    refine exThen (skip_run (by omega)) ?_
    by_cases hlt : i < (codeView e.expert op code front rest off).fixed
    · rw [if_pos hlt]
      rw [List.getElem?_append_left (by omega)] at hi
      cases hx : e.expert with
      | false => rw [hx] at hi; simp [codeLines] at hi
      | true =>
        have hc32 := hcode hx
        unfold fixedDelegation
        rw [if_pos (by rfl), if_pos (Or.inr hx)]
        rw [hx] at hi hlt
        match i, hlt with
        | 0, _ => rw [if_pos rfl]; cases hi; exact ⟨_, rfl⟩
        | 1, _ =>
          rw [if_neg (by decide), if_pos rfl]
          cases hi
          unfold contractHash
          refine exThen (readU32_at (v := code.length) (xs := code ++ encodeRuntimeArgs (front ++ rest)) (by rw [← List.append_assoc]; exact h1) (by omega)) ?_
          refine exThen (get_run _) ?_
          rw [if_neg (by omega)]
          refine exThen (slice_at h1.pfx.1 rfl) ⟨off + 1 + 4, ?_⟩
          rw [C20_checksum_hex]; rfl
    · rw [if_neg hlt]
      rw [List.getElem?_append_right (by omega), hcl] at hi
      have hilt := (List.getElem?_eq_some_iff.1 hi).1
      rw [hrl] at hilt
      have hio : (codeView e.expert op code front rest off).itemOffset = off + 1 + 4 + code.length + 4 := rfl
      have hrt : (codeView e.expert op code front rest off).runtime = front.length := rfl
      refine exThen (a := ()) (t := off + 1 + 4 + code.length + 4) (by
        show Res.ok () (u16 _) = _
        rw [hio, u16_id (by omega)]) ?_
      rw [hrt, if_neg (by omega), if_neg (by show ¬ (0 : Nat) ≠ 0; decide)]
      refine exThen (a := ()) (t := off + 1 + 4 + code.length + 4) (by rw [if_neg (by intro h; exact h rfl)]; rfl) ?_
      generalize hj : i - (codeView e.expert op code front rest off).fixed = j at hi hilt ⊢
      obtain ⟨l, hx, hsh⟩ := forall₂_get hl hi
      have hfr := h3.2
      rw [encodeArgs_append, At.append] at hfr
      have key := showLine_at hf (fun a ha => hok a (by simp [ha])) (fun a ha => hn a (by simp [ha])) hsh hfr.1
      rw [hac] at hilt
      rcases hop3 with rfl | rfl | rfl
      · simp only [hsp', show ¬ (5 : Nat) - 2 = spReDelegate by decide, if_false]
        match j, hilt with
        | 0, _ => cases hx; exact key
        | 1, _ => cases hx; exact key
        | 2, _ => cases hx; exact key
      · simp only [hsp', show ¬ (6 : Nat) - 2 = spReDelegate by decide, if_false]
        match j, hilt with
        | 0, _ => cases hx; exact key
        | 1, _ => cases hx; exact key
        | 2, _ => cases hx; exact key
      · simp only [hsp', show (7 : Nat) - 2 = spReDelegate by decide, if_true]
        match j, hilt with
        | 0, _ => cases hx; exact key
        | 1, _ => cases hx; exact key
        | 2, _ => cases hx; exact key
        | 3, _ => cases hx; exact key

end

/-! ### Code without such an argument -/

/-- What the parser remembers of code without an argument "auction". -/
def moduleView (code : Bytes) (as : List Arg) (off : Nat) : Item :=
  { typ := 0, special := 0, hasAmount := (argNamed as b!"amount").isSome, runtime := 1 + (if (argNamed as b!"amount").isSome then 1 else 0), fixed := 2, generic := 1,
    itemOffset := off + 1 + 4 + code.length, total := (ExecItem.moduleBytes code as).encode.length }

/-- Arguments of code that is not presented as a delegation: those with the names of the arguments of delegations have their types. -/
structure CodeArgs (as : List Arg) : Prop where
  ok : ∀ a ∈ as, a.Ok
  names : noNul as
  auction : argNamed as b!"auction" = none
  amount : ∀ a, argNamed as b!"amount" = some a → a.ty.isMotes
  keys : ∀ name, name = b!"delegator" ∨ name = b!"validator" ∨ name = b!"new_validator" → ∀ a, argNamed as name = some a → a.ty = .publicKey

/-- What stands behind the session: a number of at most 100 and at least as many bytes, which do not start with a letter. -/
structure NoText (n : Nat) (tail : Bytes) : Prop where
  few : n ≤ 100
  long : n ≤ tail.length
  other : ∀ x, tail.head? = some x → x.toNat < 97

section
variable {e : Env} {off n : Nat} {code tail : Bytes} {as : List Arg} (hf : Fits e) (hw : e.wasm = false) (ha : CodeArgs as) (hb : NoText n tail)

include hf hw ha hb in
theorem moduleDelegation_at {o ep : Nat} {it : Item} (h : At e.buf o (encodeArgs as ++ (le 4 n ++ tail))) (ho : 4 ≤ o) (ht : it.typ = 0) (hr : it.runtime = 0) :
    parseDelegation e as.length false ⟨o, ep, it⟩ = .ok () ⟨o, ep,
      { it with itemOffset := o - 4, special := 0, hasAmount := (argNamed as b!"amount").isSome, runtime := 1 + (if (argNamed as b!"amount").isSome then 1 else 0), fixed := 2, generic := 1 }⟩ := by
  obtain ⟨ty, sp, tot, fx, rt, gn, io, ham⟩ := it
  dsimp only at ht hr
  subst ht hr
  have hf' := hf
  unfold Fits at hf'
  have hle := h.le
  simp only [List.length_append, le_length] at hle
  rw [At.append, At.append] at h
  obtain ⟨h1, h2, h3⟩ := h
  rw [le_length] at h3
  obtain ⟨redel, hredel, hnew⟩ : ∃ redel, attempt (lp (searchArgs e b!"new_validator" as.length)) ⟨o, ep, ⟨0, sp, tot, fx, 0, gn, o, ham⟩⟩ =
      .ok redel ⟨o, ep, ⟨0, sp, tot, fx, 0, gn, o, ham⟩⟩ ∧
      ((∃ v a, redel = .ok v ∧ argNamed as b!"new_validator" = some a) ∨ ∃ x, redel = .error x) := by
    rw [attempt_run]
    cases hnv : argNamed as b!"new_validator" with
    | none => rw [lp_err (s := ⟨_, _, _⟩) (search_absent hf ha.ok ha.names h1 hnv)]; exact ⟨_, rfl, .inr ⟨_, rfl⟩⟩
    | some a => rw [lp_run (s := ⟨_, _, _⟩) (search_found hf ha.ok ha.names h1 hnv)]; exact ⟨_, rfl, .inl ⟨_, a, rfl, rfl⟩⟩
  unfold parseDelegation
  refine getThen ?_
  rw [if_pos (by rfl)]
  have hau : ∀ a ∈ as.take as.length, cstr a.name ≠ b!"auction" := by
    intro a hm
    rw [List.take_length] at hm
    rw [cstr_eq (ha.names a hm)]
    have := ha.auction
    unfold argNamed at this
    rw [List.find?_eq_none] at this
    simpa using this a hm
  have hg := getData_none (name := b!"auction") (k := as.length) hf ha.ok hau (Nat.le_refl _) h1
  rw [List.take_length] at hg
  have hkind : auctionKind e (o + (encodeArgs as).length) = .ok 0 (o + (encodeArgs as).length + 4) := by
    have hfew := hb.few
    unfold auctionKind
    refine seqThen (readLE_at h2 (by omega)) (getThen ?_)
    rw [if_neg (by omega)]
    have h4 : At e.buf (o + (encodeArgs as).length + 4) (tail.take n) := by
      rw [← List.take_append_drop n tail, At.append] at h3
      exact h3.1
    refine seqThen (slice_at h4 (by rw [List.length_take, Nat.min_eq_left hb.long])) ?_
    have hno : ∀ t : Bytes, (∃ x y, t = x :: y ∧ 97 ≤ x.toNat) → tail.take n ≠ t := by
      rintro t ⟨x, y, rfl, hx⟩ heq
      cases tail with
      | nil => simp at heq
      | cons z zs =>
        have hz := hb.other z rfl
        cases n with
        | zero => simp at heq
        | succ n =>
          rw [List.take_succ_cons] at heq
          injection heq with h5 h6
          subst h5
          omega
    rw [if_neg (fun h => hno _ ⟨_, _, rfl, by decide⟩ h.2), if_neg (fun h => hno _ ⟨_, _, rfl, by decide⟩ h.2), if_neg (fun h => hno _ ⟨_, _, rfl, by decide⟩ h.2)]
    rfl
  refine seqThen (a := (match redel with | .ok _ => true | .error _ => false, false)) (t := ⟨o, ep, ⟨0, 0, tot, fx, 0, 1, o - 4, ham⟩⟩) ?_ ?_
  · unfold parseAuction
    refine getThen (modThen ?_)
    dsimp only
    refine seqThen hredel ?_
    refine seqThen (a := false) (t := ⟨o + (encodeArgs as).length, ep, ⟨0, sp, tot, fx, 0, 1, o - 4, ham⟩⟩) ?_ ?_
    · refine seqThen (a := .error 1) (t := ⟨o + (encodeArgs as).length, ep, ⟨0, sp, tot, fx, 0, gn, o, ham⟩⟩) (by rw [attempt_run, lp_err (s := ⟨_, _, _⟩) hg]) ?_
      dsimp only
      rw [if_neg (by decide), if_neg (by rw [hw]; decide)]
      refine modThen ?_
      dsimp only
      rw [show u32 (o + 4294967292) = o - 4 by unfold u32; omega]
      rfl
    refine lpThen hkind (modThen ?_)
    dsimp only
    exact lpThen (a := ()) (o := o) rfl (by cases redel <;> rfl)
  dsimp only
  refine seqThen (a := ()) (t := ⟨o, ep, ⟨0, 0, tot, fx, 0, 1, o - 4, ham⟩⟩) ?_ ?_
  · unfold checkNewValidator
    rcases hnew with ⟨v, a, rfl, ha1⟩ | ⟨x, rfl⟩
    · exact lp_run (checkArg_found hf ha.ok ha.names h1 ha1 (publicKey_ok (ha.keys _ (.inr (.inr rfl)) a ha1)))
    · rfl
  refine seqThen (otherLines_at hf ha.ok ha.names h1 _ ha.amount (ha.keys _ (.inl rfl)) (ha.keys _ (.inr (.inl rfl))) (.inl rfl)) ?_
  unfold finishDelegation
  refine modThen ?_
  dsimp only
  rw [if_neg (by simp)]
  simp only [Nat.zero_add]
  rfl

include hf hw ha hb in
/-- Such a session is read. -/
theorem module_parse (h : At e.buf off ((ExecItem.moduleBytes code as).encode ++ (le 4 n ++ tail))) :
    parseDeployItem e false ⟨off + 1, 0, { typ := 0 }⟩ = .ok () ⟨off + (ExecItem.moduleBytes code as).encode.length, 0, moduleView code as off⟩ := by
  have h1 : At e.buf (off + 1) (pfx code ++ (le 4 as.length ++ (encodeArgs as ++ (le 4 n ++ tail)))) := by
    have : (ExecItem.moduleBytes code as).encode ++ (le 4 n ++ tail) = 0 :: (pfx code ++ (le 4 as.length ++ (encodeArgs as ++ (le 4 n ++ tail)))) := by
      simp [ExecItem.encode, encodeRuntimeArgs]
    rw [this] at h
    exact (At.cons.1 h).2
  have h3 := h1.pfx.2
  rw [At.append, le_length] at h3
  have hl3 := h3.2.le
  rw [List.length_append] at hl3
  have hcnt := encodeArgs_count as
  have hf' := hf
  unfold Fits at hf'
  have hlen : (ExecItem.moduleBytes code as).encode.length = 1 + (4 + code.length) + (4 + (encodeArgs as).length) := by
    simp [ExecItem.encode, pfx, encodeRuntimeArgs]; omega
  unfold parseDeployItem
  refine modThen (getThen ?_)
  dsimp only
  rw [if_pos (by rfl)]
  unfold parseModuleBytes
  refine getThen (lpThen (parseItem_at hf h1) (lpThen (readLE_at h3.1 (show as.length < 256 ^ 4 by omega)) ?_))
  dsimp only
  rw [if_neg (by decide)]
  refine seqThen (moduleDelegation_at hf hw ha hb h3.2 (by omega) rfl rfl) ?_
  unfold finishItem
  refine lpThen (parseArgs_at hf ha.ok (At.append.1 h3.2).1) ?_
  refine lpThen (a := (ExecItem.moduleBytes code as).encode.length) (o := off + (ExecItem.moduleBytes code as).encode.length) ?_ ?_
  · dsimp only
    unfold totalLength
    refine getThen ?_
    rw [if_pos (by omega), hlen]
    show Res.ok _ _ = _
    congr 1 <;> omega
  · show Res.ok _ _ = _
    unfold moduleView
    rw [Nat.add_sub_cancel]

include hf hw ha hb in
/-- It is shown with the hash of the code, its amount and the hash of its arguments. -/
theorem module_session (hc : code.length ≤ 32) (h : At e.buf off ((ExecItem.moduleBytes code as).encode ++ (le 4 n ++ tail)))
    {amount : List (Bytes × Bytes)}
    (ham : List.Forall₂ (ArgLine.Renders e.blake as) (if (argNamed as b!"amount").isSome then [⟨b!"Amount", b!"amount", true⟩] else []) amount) :
    SessionAt e off (.moduleBytes code as) 0 (moduleView code as off) (codeLines e.blake true code ++ otherLines e.blake as amount) := by
  have hpar := module_parse hf hw ha hb h
  have hx := (At.append.1 h).1
  have h1 := (At.cons.1 hx).2
  have h3 := h1.pfx.2
  have hrta := h3
  unfold encodeRuntimeArgs at h3
  rw [At.append, le_length] at h3
  have hl3 := h3.2.le
  have hcnt := encodeArgs_count as
  have hf' := hf
  unfold Fits at hf'
  have hal := ham.length_eq
  have hrl : (otherLines e.blake as amount).length = (moduleView code as off).runtime := by
    unfold otherLines
    rw [List.length_append, ← hal]
    show _ = 1 + (if (argNamed as b!"amount").isSome then 1 else 0)
    split <;> rfl
  have hfew2 : (otherLines e.blake as amount).length ≤ 2 := by
    rw [hrl]; show 1 + (if (argNamed as b!"amount").isSome then 1 else 0) ≤ 2
    split <;> omega
  have hcl : (codeLines e.blake true code).length = 2 := rfl
  refine ⟨hpar, rfl, by rw [List.length_append, hrl]; rfl, by rw [List.length_append, hcl]; omega, fun i kv hi => ?_⟩
  unfold sessionLine
  rw [if_neg (by show ¬ (0 : Nat) = 2; decide), if_pos (by show (0 : Nat) = 3 ∨ (0 : Nat) = 4 ∨ (0 : Nat) = 5 ∨ (0 : Nat) = 0; decide)]
  unfold itemDelegation
  refine exThen (skip_run (by omega)) ?_
  by_cases hlt : i < (moduleView code as off).fixed
  · rw [if_pos hlt]
    have hlt2 : i < 2 := hlt
    rw [List.getElem?_append_left (by omega)] at hi
    unfold fixedDelegation
    rw [if_pos (by rfl), if_pos (Or.inl (by rfl))]
    match i, hlt2 with
    | 0, _ => rw [if_pos rfl]; cases hi; exact ⟨_, rfl⟩
    | 1, _ =>
      rw [if_neg (by decide), if_pos rfl]
      cases hi
      unfold contractHash
      refine exThen (readU32_at (v := code.length) (xs := code ++ encodeRuntimeArgs as) (by rw [← List.append_assoc]; exact h1) (by omega)) ?_
      refine exThen (get_run _) ?_
      rw [if_neg (by omega)]
      refine exThen (slice_at h1.pfx.1 rfl) ⟨off + 1 + 4, ?_⟩
      rw [C20_checksum_hex]; rfl
  · rw [if_neg hlt]
    have hge : ¬ i < 2 := hlt
    rw [List.getElem?_append_right (by omega), hcl] at hi
    have hilt := (List.getElem?_eq_some_iff.1 hi).1
    rw [hrl] at hilt
    have hio : (moduleView code as off).itemOffset = off + 1 + 4 + code.length := rfl
    refine exThen (a := ()) (t := off + 1 + 4 + code.length) (by
      show Res.ok () (u16 _) = _
      rw [hio, u16_id (by omega)]) ?_
    rw [if_neg (by show ¬ i - 2 > _; omega), if_pos (by show (1 : Nat) ≠ 0; decide)]
    refine exThen (readLE_at h3.1 (by omega)) ?_
    have hhash : ∃ c, (do
        parseArgs e as.length
        let stop ← M.get
        let xs ← slice e (u16 (moduleView code as off).itemOffset)
          (u32 (stop + 4294967296 - (moduleView code as off).itemOffset))
        pure (b!"Args hash", b!"execution" ++ b!"-" ++ encodeHex (e.blake xs)) : P (Bytes × Bytes)) (off + 1 + 4 + code.length + 4) =
        .ok (b!"Args hash", argsHashText e.blake as) c := by
      refine exThen (parseArgs_at hf ha.ok h3.2) (exThen (get_run _) ?_)
      rw [hio, u16_id (by omega)]
      refine exThen (slice_at (xs := encodeRuntimeArgs as) hrta ?_) ?_
      · unfold encodeRuntimeArgs u32
        rw [List.length_append, le_length]; omega
      · rw [(C20_hash_hex _ []).1]; exact ⟨_, rfl⟩
    rw [show (moduleView code as off).fixed = 2 from rfl]
    generalize hj : i - 2 = j at hi hilt ⊢
    have hrt : (moduleView code as off).runtime = 1 + (if (argNamed as b!"amount").isSome then 1 else 0) := rfl
    unfold otherLines at hi
    rw [hrt] at hilt ⊢
    split at ham
    · rename_i hsome
      simp only [hsome, if_true] at hilt ⊢
      cases ham with
      | cons a1 a2 =>
        cases a2
        match j, hilt with
        | 0, _ =>
          cases hi
          rw [if_pos (by simp)]
          exact renderLine_at hf ha.ok ha.names a1 h3.2
        | 1, _ =>
          cases hi
          rw [if_neg (by decide), if_pos (by simp)]
          exact hhash
    · rename_i hsome
      simp only [hsome, Bool.false_eq_true, if_false] at hilt ⊢
      cases ham
      have : j = 0 := by omega
      subst this
      cases hi
      rw [if_neg (by decide), if_pos (.inl rfl)]
      exact hhash

include hf in
/-- Code of more than 32 bytes overflows the array meant for its hash. -/
theorem module_line (hc : 32 < code.length) (h : At e.buf off (ExecItem.moduleBytes code as).encode) :
    sessionLine e 0 (moduleView code as off) 1 off = .fault .oobWrite := by
  have h1 := (At.cons.1 h).2
  have hl := h1.le
  have hf' := hf
  unfold Fits at hf'
  have hpl : (pfx code).length = 4 + code.length := by simp [pfx]
  rw [List.length_append, hpl] at hl
  unfold sessionLine
  rw [if_neg (by show ¬ (0 : Nat) = 2; decide), if_pos (by show (0 : Nat) = 3 ∨ (0 : Nat) = 4 ∨ (0 : Nat) = 5 ∨ (0 : Nat) = 0; decide)]
  unfold itemDelegation
  refine seqThen (skip_run (by omega)) ?_
  rw [if_pos (by show 1 < 2; decide)]
  unfold fixedDelegation
  rw [if_pos (by rfl), if_pos (Or.inl (by rfl)), if_neg (by decide), if_pos rfl]
  unfold contractHash
  refine seqThen (readU32_at (v := code.length) (xs := code ++ encodeRuntimeArgs as) (by rw [← List.append_assoc]; exact h1) (by omega)) ?_
  refine getThen ?_
  rw [if_pos hc]
  rfl

end
end Casper
