import Verif.Props.CutAuctionAccept

/-!
# Which delegations presented by code are accepted

Code with "delegate", "undelegate" or "redelegate" in an argument "auction" and with amount, delegator and validator of the expected types is accepted exactly if
there is a new validator for a redelegation and none otherwise, the operands are its first arguments, in any order, and, in expert mode, the code is not longer than a hash.
-/

namespace Casper

open M

/-- What the parser remembers of such a session. -/
def auctionView (ex : Bool) (entry code : Bytes) (as : List Arg) (off : Nat) : Item :=
  { typ := 0, special := auctionNumber entry, hasAmount := true, runtime := if entry = b!"redelegate" then 4 else 3, fixed := if ex then 2 else 0, generic := 0,
    itemOffset := off + 1 + 4 + code.length + 4, total := (ExecItem.moduleBytes code as).encode.length }

/-- The same if the number of lines is not that of the operation. -/
def auctionRead (ex redel : Bool) (entry code : Bytes) (as : List Arg) (off : Nat) : Item :=
  { auctionView ex entry code as off with runtime := if redel then 4 else 3 }

section
variable {e : Env} {off op : Nat} {code entry : Bytes} {as : List Arg} (hf : Fits e) (hok : ∀ a ∈ as, a.Ok)
  (hau : argNamed (cut as) b!"auction" = some ⟨b!"auction", pfx entry, .string⟩)
  (hop : op = 5 ∧ entry = b!"delegate" ∨ op = 6 ∧ entry = b!"undelegate" ∨ op = 7 ∧ entry = b!"redelegate")
  (hd : DelegateNames (decide (entry = b!"redelegate")) (cut as)) (hnv : entry ≠ b!"redelegate" → argNamed (cut as) b!"new_validator" = none)

include hf hok hau hop in
/-- The number of lines depends on whether there is a new validator. -/
theorem auction_read_cut {redel : Bool} (hd : DelegateNames redel (cut as)) (hredel : (argNamed (cut as) b!"new_validator").isSome = redel) (ep : Nat) (h : At e.buf off (ExecItem.moduleBytes code as).encode) :
    parseDeployItem e false ⟨off + 1, ep, { typ := 0 }⟩ =
      .ok () ⟨off + (ExecItem.moduleBytes code as).encode.length, ep, auctionRead e.expert redel entry code as off⟩ := by
  have h1 : At e.buf (off + 1) (pfx code ++ (le 4 as.length ++ encodeArgs as)) := (At.cons.1 h).2
  have h3 := h1.pfx.2
  rw [At.append, le_length] at h3
  have hl3 := h3.2.le
  have hf' := hf
  unfold Fits at hf'
  have hlen : (ExecItem.moduleBytes code as).encode.length = 1 + (4 + code.length) + (4 + (encodeArgs as).length) := by
    simp [ExecItem.encode, pfx, encodeRuntimeArgs]; omega
  have hl : entry.length ≤ 96 := by rcases hop with ⟨-, rfl⟩ | ⟨-, rfl⟩ | ⟨-, rfl⟩ <;> decide
  have hsp : auctionNumber entry ≠ 0 := by rcases hop with ⟨-, rfl⟩ | ⟨-, rfl⟩ | ⟨-, rfl⟩ <;> decide
  obtain ⟨am, am1, am2⟩ := hd.amount
  obtain ⟨dl, dl1, dl2⟩ := hd.delegator
  obtain ⟨vl, vl1, vl2⟩ := hd.validator
  rw [module_front hf h]
  refine seqThen (a := ()) (t := ⟨off + 1 + 4 + code.length + 4, ep, { auctionRead e.expert redel entry code as off with total := 0 }⟩) ?_ ?_
  · unfold parseDelegation
    refine getThen ?_
    rw [if_pos (by rfl)]
    refine seqThen (namedAuction_at_cut hf hok hl hau h3.2) ?_
    dsimp only
    rw [hredel]
    refine seqThen (a := ()) (t := ⟨off + 1 + 4 + code.length + 4, ep,
      { codeStart with itemOffset := off + 1 + 4 + code.length + 4, special := auctionNumber entry }⟩) ?_ ?_
    · unfold checkNewValidator
      by_cases h7 : redel = true
      · obtain ⟨nv, nv1, nv2⟩ := hd.new h7
        rw [if_pos h7]
        exact lp_run (checkArg_found_raw hf hok h3.2 nv1 (publicKey_ok nv2))
      · rw [if_neg h7]; rfl
    refine seqThen (a := ()) (t := ⟨off + 1 + 4 + code.length + 4, ep,
      { codeStart with itemOffset := off + 1 + 4 + code.length + 4, special := auctionNumber entry, hasAmount := true, runtime := if redel then 4 else 3 }⟩) ?_ ?_
    · unfold delegationLines
      refine seqThen (a := .ok ()) (t := ⟨off + 1 + 4 + code.length + 4, ep,
        { codeStart with itemOffset := off + 1 + 4 + code.length + 4, special := auctionNumber entry, hasAmount := true, runtime := if redel then 4 else 3 }⟩) ?_ rfl
      have : checkDelegationItems e as.length redel ⟨off + 1 + 4 + code.length + 4, ep,
          { codeStart with itemOffset := off + 1 + 4 + code.length + 4, special := auctionNumber entry }⟩ =
          .ok () ⟨off + 1 + 4 + code.length + 4, ep, { codeStart with itemOffset := off + 1 + 4 + code.length + 4, special := auctionNumber entry, hasAmount := true, runtime := if redel then 4 else 3 }⟩ := by
        unfold checkDelegationItems
        refine lpThen (countArg_found_raw hf hok h3.2 am1 (motes_ok am2)) (modThen (lpThen (countArg_found_raw hf hok h3.2 dl1 (publicKey_ok dl2)) ?_))
        refine lpThen (countArg_found_raw hf hok h3.2 vl1 (publicKey_ok vl2)) ?_
        refine lpThen (checkArg_found_raw hf hok h3.2 dl1 (publicKey_ok dl2)) (lpThen (checkArg_found_raw hf hok h3.2 vl1 (publicKey_ok vl2)) ?_)
        refine lpThen (checkArg_found_raw hf hok h3.2 am1 (motes_ok am2)) (getThen ?_)
        dsimp only
        rw [if_neg (by exact hsp)]
        by_cases h7 : redel = true
        · obtain ⟨nv, nv1, nv2⟩ := hd.new h7
          rw [if_pos h7, if_pos h7]
          exact lpThen (checkArg_found_raw hf hok h3.2 nv1 (publicKey_ok nv2)) rfl
        · rw [if_neg h7, if_neg h7]; rfl
      rw [attempt_run, this]
    · unfold finishDelegation
      refine modThen ?_
      dsimp only
      rw [if_neg (c := auctionNumber entry = spGeneric) (by exact hsp)]
      unfold auctionRead auctionView
      cases e.expert with
      | false => rfl
      | true => rfl
  unfold finishItem
  refine lpThen (parseArgs_at hf hok h3.2) ?_
  refine lpThen (a := (ExecItem.moduleBytes code as).encode.length) (o := off + (ExecItem.moduleBytes code as).encode.length) ?_ ?_
  · dsimp only
    unfold totalLength
    refine getThen ?_
    rw [if_pos (by omega), hlen]
    show Res.ok _ _ = _
    congr 1 <;> omega
  · rfl

include hf hok hau hop hd hnv in
theorem auction_parse_cut (ep : Nat) (h : At e.buf off (ExecItem.moduleBytes code as).encode) :
    parseDeployItem e false ⟨off + 1, ep, { typ := 0 }⟩ =
      .ok () ⟨off + (ExecItem.moduleBytes code as).encode.length, ep, auctionView e.expert entry code as off⟩ := by
  have hredel : (argNamed (cut as) b!"new_validator").isSome = decide (entry = b!"redelegate") := by
    by_cases h7 : entry = b!"redelegate"
    · obtain ⟨nv, nv1, -⟩ := hd.new (by simpa using h7)
      rw [nv1]; simp [h7]
    · rw [hnv h7]; simp [h7]
  rw [auction_read_cut hf hok hau hop hd hredel ep h]
  simp only [auctionRead, auctionView, decide_eq_true_eq]

include hf hok hop in
/-- A new validator of another operation, or none of a redelegation: one of the lines cannot be shown. -/
theorem auction_mismatch_cut {redel : Bool} (hredel : (argNamed (cut as) b!"new_validator").isSome = redel) (hne : redel ≠ decide (entry = b!"redelegate")) (h3 : 3 ≤ as.length)
    (h : At e.buf off (ExecItem.moduleBytes code as).encode) (ep : Nat) :
    ∃ j < if redel then 4 else 3, ∃ c t, sessionLine e ep (auctionRead e.expert redel entry code as off) ((auctionRead e.expert redel entry code as off).fixed + j) off = .err c t := by
  have h1 : At e.buf (off + 1) (pfx code ++ (le 4 as.length ++ encodeArgs as)) := (At.cons.1 h).2
  have h4 := h1.pfx.2
  rw [At.append, le_length] at h4
  have hl4 := h4.2.le
  have hf' := hf
  unfold Fits at hf'
  have hk := auctionNumber_kinds entry
  have hsp' : (auctionRead e.expert redel entry code as off).special = auctionNumber entry := rfl
  have hio : (auctionRead e.expert redel entry code as off).itemOffset = off + 1 + 4 + code.length + 4 := rfl
  have hrt : (auctionRead e.expert redel entry code as off).runtime = if redel then 4 else 3 := rfl
  have front : ∀ j, j < (if redel then 4 else 3) → ∀ r : Res Nat (Bytes × Bytes),
      (if j = 0 then showArg e b!"Delegator" b!"delegator" (if redel then 4 else 3)
        else if auctionNumber entry = spReDelegate then
          if j = 1 then showArg e b!"Old" b!"validator" (if redel then 4 else 3)
          else if j = 2 then showArg e b!"New" b!"new_validator" (if redel then 4 else 3)
          else if j = 3 then showMotes e b!"Amount" b!"amount" (if redel then 4 else 3)
          else fail eNoData
        else if j = 1 then showArg e b!"Validator" b!"validator" (if redel then 4 else 3)
        else if j = 2 then showMotes e b!"Amount" b!"amount" (if redel then 4 else 3)
        else fail eNoData) (off + 1 + 4 + code.length + 4) = r →
      sessionLine e ep (auctionRead e.expert redel entry code as off) ((auctionRead e.expert redel entry code as off).fixed + j) off = r := by
    intro j hj r hr
    unfold sessionLine
    rw [hsp', if_neg (by show ¬ auctionNumber entry = 2; omega), if_pos (by exact hk)]
    unfold itemDelegation
    refine seqThen (skip_run (by omega)) ?_
    rw [if_neg (by omega)]
    refine seqThen (a := ()) (t := off + 1 + 4 + code.length + 4) (by
      show Res.ok () (u16 _) = _
      rw [hio, u16_id (by omega)]) ?_
    rw [Nat.add_sub_cancel_left, hrt, if_neg (by omega), if_neg (by show ¬ (0 : Nat) ≠ 0; decide)]
    refine seqThen (a := ()) (t := off + 1 + 4 + code.length + 4) (by rw [if_neg (by intro h; exact h rfl)]; rfl) ?_
    exact hr
  cases redel with
  | true =>
    have hsp : ¬ auctionNumber entry = spReDelegate := by
      rcases hop with ⟨-, rfl⟩ | ⟨-, rfl⟩ | ⟨-, rfl⟩
      · decide
      · decide
      · exact absurd rfl hne
    refine ⟨3, by decide, eNoData, off + 1 + 4 + code.length + 4, front 3 (by decide) _ ?_⟩
    rw [if_neg (by decide), if_neg hsp, if_neg (by decide), if_neg (by decide)]
    rfl
  | false =>
    have hsp : auctionNumber entry = spReDelegate := by
      rcases hop with ⟨-, rfl⟩ | ⟨-, rfl⟩ | ⟨-, rfl⟩
      · exact absurd rfl hne
      · exact absurd rfl hne
      · decide
    have hnone := getData_none (e := e) (name := b!"new_validator") (k := 3) hf hok (fun a ha hn => by
      have : argNamed (cut as) b!"new_validator" = none := by simpa using hredel
      have hm : ({ a with name := cstr a.name } : Arg) ∈ cut as := List.mem_map_of_mem (List.mem_of_mem_take ha)
      unfold argNamed at this
      rw [List.find?_eq_none] at this
      exact this _ hm (by simpa using hn)) h3 h4.2
    obtain ⟨t, ht⟩ : ∃ t, showArg e b!"New" b!"new_validator" 3 (off + 1 + 4 + code.length + 4) = .err 1 t :=
      ⟨_, by unfold showArg; rw [bind_run, hnone]; rfl⟩
    refine ⟨2, by decide, 1, t, front 2 (by decide) _ ?_⟩
    rw [if_neg (by decide), if_pos hsp, if_neg (by decide), if_pos rfl]
    exact ht

include hf hop in
/-- What the lines of the operands are. -/
theorem auction_line_cut (h : At e.buf off (ExecItem.moduleBytes code as).encode) {j : Nat} {l : ArgLine} (hl : (opLines e.expert (cut as) op)[j]? = some l) (ep : Nat)
    {r : Res Nat (Bytes × Bytes)}
    (hr : (if l.motes then showMotes e l.label l.name (if op = 7 then 4 else 3) else showArg e l.label l.name (if op = 7 then 4 else 3)) (off + 1 + 4 + code.length + 4) = r) :
    sessionLine e ep (auctionView e.expert entry code as off) ((auctionView e.expert entry code as off).fixed + j) off = r := by
  have h1 : At e.buf (off + 1) (pfx code ++ (le 4 as.length ++ encodeArgs as)) := (At.cons.1 h).2
  have h3 := h1.pfx.2
  rw [At.append, le_length] at h3
  have hl3 := h3.2.le
  have hf' := hf
  unfold Fits at hf'
  have hop3 : op = 5 ∨ op = 6 ∨ op = 7 := by omega
  have hrt : (auctionView e.expert entry code as off).runtime = if op = 7 then 4 else 3 := by
    show (if entry = b!"redelegate" then 4 else 3) = _
    rcases hop with ⟨rfl, rfl⟩ | ⟨rfl, rfl⟩ | ⟨rfl, rfl⟩ <;> rfl
  have hjl : j < (if op = 7 then 4 else 3) := by
    have := (List.getElem?_eq_some_iff.1 hl).1
    have hol : (opLines e.expert (cut as) op).length = if op = 7 then 4 else 3 := by rcases hop3 with rfl | rfl | rfl <;> rfl
    omega
  unfold sessionLine
  have hsp' : (auctionView e.expert entry code as off).special = op - 2 := by
    show auctionNumber entry = op - 2
    rcases hop with ⟨rfl, rfl⟩ | ⟨rfl, rfl⟩ | ⟨rfl, rfl⟩ <;> decide
  rw [hsp', if_neg (by show ¬ op - 2 = 2; omega), if_pos (by show op - 2 = 3 ∨ op - 2 = 4 ∨ op - 2 = 5 ∨ op - 2 = 0; omega)]
  unfold itemDelegation
  refine seqThen (skip_run (by omega)) ?_
  rw [if_neg (by omega)]
  have hio : (auctionView e.expert entry code as off).itemOffset = off + 1 + 4 + code.length + 4 := rfl
  refine seqThen (a := ()) (t := off + 1 + 4 + code.length + 4) (by
    show Res.ok () (u16 _) = _
    rw [hio, u16_id (by omega)]) ?_
  rw [Nat.add_sub_cancel_left, hrt, if_neg (by omega), if_neg (by show ¬ (0 : Nat) ≠ 0; decide)]
  refine seqThen (a := ()) (t := off + 1 + 4 + code.length + 4) (by rw [if_neg (by intro h; exact h rfl)]; rfl) ?_
  rcases hop3 with rfl | rfl | rfl
  · simp only [hsp', show ¬ (5 : Nat) - 2 = spReDelegate by decide, if_false]
    match j, hjl with
    | 0, _ => cases hl; exact hr
    | 1, _ => cases hl; exact hr
    | 2, _ => cases hl; exact hr
  · simp only [hsp', show ¬ (6 : Nat) - 2 = spReDelegate by decide, if_false]
    match j, hjl with
    | 0, _ => cases hl; exact hr
    | 1, _ => cases hl; exact hr
    | 2, _ => cases hl; exact hr
  · simp only [hsp', show (7 : Nat) - 2 = spReDelegate by decide, if_true]
    match j, hjl with
    | 0, _ => cases hl; exact hr
    | 1, _ => cases hl; exact hr
    | 2, _ => cases hl; exact hr
    | 3, _ => cases hl; exact hr

include hf in
/-- The lines about the code, in expert mode. -/
theorem auction_code_cut (h : At e.buf off (ExecItem.moduleBytes code as).encode) (hop3 : auctionNumber entry = 3 ∨ auctionNumber entry = 4 ∨ auctionNumber entry = 5 ∨ auctionNumber entry = 0)
    (hx : e.expert = true) (ep : Nat) :
    (∃ c, sessionLine e ep (auctionView e.expert entry code as off) 0 off = .ok (b!"Execution", b!"contract") c) ∧
    (code.length ≤ 32 → ∃ c, sessionLine e ep (auctionView e.expert entry code as off) 1 off = .ok (b!"Cntrct hash", checksumHex e.blake (e.blake code)) c) ∧
    (32 < code.length → sessionLine e ep (auctionView e.expert entry code as off) 1 off = .fault .oobWrite) := by
  have h1 := (At.cons.1 h).2
  have hl := h1.le
  have hf' := hf
  unfold Fits at hf'
  have hpl : (pfx code).length = 4 + code.length := by simp [pfx]
  rw [List.length_append, hpl] at hl
  have hfx : (auctionView e.expert entry code as off).fixed = 2 := by show (if e.expert then 2 else 0) = 2; rw [hx]; rfl
  have hsp : (auctionView e.expert entry code as off).special = auctionNumber entry := rfl
  have hru := readU32_at (v := code.length) (xs := code ++ encodeRuntimeArgs as) (by rw [← List.append_assoc]; exact h1) (by omega)
  refine ⟨?_, fun hc => ?_, fun hc => ?_⟩ <;> unfold sessionLine <;> rw [hsp, if_neg (by show ¬ auctionNumber entry = 2; omega), if_pos (by exact hop3)] <;> unfold itemDelegation
  · refine exThen (skip_run (by omega)) ?_
    rw [if_pos (by omega)]
    unfold fixedDelegation
    rw [if_pos (by rfl), if_pos (Or.inr hx), if_pos rfl]
    exact ⟨_, rfl⟩
  · refine exThen (skip_run (by omega)) ?_
    rw [if_pos (by omega)]
    unfold fixedDelegation
    rw [if_pos (by rfl), if_pos (Or.inr hx), if_neg (by decide), if_pos rfl]
    unfold contractHash
    refine exThen hru (exThen (get_run _) ?_)
    rw [if_neg (by omega)]
    refine exThen (slice_at h1.pfx.1 rfl) ⟨off + 1 + 4, ?_⟩
    rw [C20_checksum_hex]; rfl
  · refine seqThen (skip_run (by omega)) ?_
    rw [if_pos (by omega)]
    unfold fixedDelegation
    rw [if_pos (by rfl), if_pos (Or.inr hx), if_neg (by decide), if_pos rfl]
    unfold contractHash
    refine seqThen hru (getThen ?_)
    rw [if_pos hc]
    rfl

end

/-- Operands that come first are shown. -/
theorem auction_session_cut {e : Env} (hf : Fits e) {off : Nat} {code entry : Bytes} {as : List Arg} (hok : ∀ a ∈ as, a.Ok)
    (hau : argNamed (cut as) b!"auction" = some ⟨b!"auction", pfx entry, .string⟩)
    (hop : entry = b!"delegate" ∨ entry = b!"undelegate" ∨ entry = b!"redelegate")
    (hd : DelegateNames (decide (entry = b!"redelegate")) (cut as)) (hnv : entry ≠ b!"redelegate" → argNamed (cut as) b!"new_validator" = none)
    (hval : ValuesFine (cut as)) (hfirst : ∀ name ∈ operands entry, ∃ a ∈ (cut as).take (operands entry).length, a.name = name)
    (hcode : e.expert = true → code.length ≤ 32) (h : At e.buf off (ExecItem.moduleBytes code as).encode) :
    ∃ lines, SessionAt e off (.moduleBytes code as) 0 (auctionView e.expert entry code as off) lines := by
  obtain ⟨am, am1, am2⟩ := hd.amount
  obtain ⟨dl, dl1, dl2⟩ := hd.delegator
  obtain ⟨vl, vl1, vl2⟩ := hd.validator
  have hct : (cut as).take (operands entry).length = cut (as.take (operands entry).length) := by simp [cut]
  have hsub : ∀ c ∈ cut (as.take (operands entry).length), c ∈ cut as := fun c hc => by
    rw [← hct] at hc; exact List.mem_of_mem_take hc
  have hrender : ∀ {l : ArgLine} {a : Arg}, argNamed (cut as) l.name = some a → l.name ∈ operands entry →
      (if l.motes then a.ty.isMotes else a.ty = .publicKey) → ∃ kv, ArgLine.Renders e.blake (cut (as.take (operands entry).length)) l kv := by
    intro l a ha hn ht
    have ha := argNamed_taken ha (hfirst _ hn)
    rw [hct] at ha
    obtain ⟨k1, k2⟩ := argNamed_name ha
    cases hm : l.motes with
    | true =>
      rw [hm, if_pos rfl] at ht
      obtain ⟨-, text, htext⟩ := hval.motes (hsub a k1) ht
      exact ⟨_, .motes hm ha htext⟩
    | false =>
      rw [hm, if_neg (by decide)] at ht
      obtain ⟨k, hk, ek⟩ := hval.key (hsub a k1) k2 ht
      exact ⟨_, .value hm ha (text := k.address e.blake) (by rw [ek]; exact PubKey.shown _ hk)⟩
  have hoplen : (operands entry).length = if entry = b!"redelegate" then 4 else 3 := by
    unfold operands
    split <;> rfl
  have hnd : (operands entry).Nodup := by
    unfold operands
    split <;> decide
  have hlen : (as.take (operands entry).length).length = (operands entry).length := by
    have := (List.subperm_of_subset hnd (l₂ := ((cut as).take (operands entry).length).map Arg.name) (fun n hn => by
      obtain ⟨a, ha, hn⟩ := hfirst n hn
      exact List.mem_map.2 ⟨a, ha, hn⟩)).length_le
    rw [List.length_map, hct, cut_length] at this
    rw [List.length_take] at this ⊢
    omega
  have h1 : At e.buf (off + 1) (pfx code ++ (le 4 as.length ++ encodeArgs as)) := (At.cons.1 h).2
  have h3 := h1.pfx.2
  rw [At.append, le_length] at h3
  have hfr := h3.2
  rw [← List.take_append_drop (operands entry).length as, encodeArgs_append, At.append] at hfr
  have hfix : (codeLines e.blake e.expert code).length = (auctionView e.expert entry code as off).fixed := by
    show _ = if e.expert then 2 else 0
    cases e.expert <;> rfl
  have hfix2 : (auctionView e.expert entry code as off).fixed ≤ 2 := by
    show (if e.expert then 2 else 0) ≤ 2
    split <;> omega
  have hrt4 : (auctionView e.expert entry code as off).runtime ≤ 4 := by
    show (if entry = b!"redelegate" then 4 else 3) ≤ 4
    split <;> omega
  have fin : ∀ op lines, (op = 5 ∧ entry = b!"delegate" ∨ op = 6 ∧ entry = b!"undelegate" ∨ op = 7 ∧ entry = b!"redelegate") →
      List.Forall₂ (ArgLine.Renders e.blake (cut (as.take (operands entry).length))) (opLines e.expert (cut as) op) lines →
      ∃ lines, SessionAt e off (.moduleBytes code as) 0 (auctionView e.expert entry code as off) lines := by
    intro op lines h5 hall
    have h7 : (if op = 7 then 4 else 3) = (operands entry).length := by
      rcases h5 with ⟨rfl, rfl⟩ | ⟨rfl, rfl⟩ | ⟨rfl, rfl⟩ <;> rfl
    have hal := hall.length_eq
    have hol : (opLines e.expert (cut as) op).length = (auctionView e.expert entry code as off).runtime := by
      rcases h5 with ⟨rfl, rfl⟩ | ⟨rfl, rfl⟩ | ⟨rfl, rfl⟩ <;> rfl
    refine ⟨codeLines e.blake e.expert code ++ lines, auction_parse_cut hf hok hau h5 hd hnv 0 h, rfl, by rw [List.length_append, hfix, ← hal, hol],
      by rw [List.length_append, hfix, ← hal, hol]; omega, fun i kv hi => ?_⟩
    by_cases hlt : i < (auctionView e.expert entry code as off).fixed
    · rw [List.getElem?_append_left (by omega)] at hi
      cases hx : e.expert with
      | false => rw [hx] at hi; simp [codeLines] at hi
      | true =>
        obtain ⟨c1, c2, -⟩ := auction_code_cut (entry := entry) hf h (auctionNumber_kinds entry) hx 0
        rw [hx] at hi c1 c2
        match i, (show i < 2 by omega) with
        | 0, _ => cases hi; exact c1
        | 1, _ => cases hi; exact c2 (hcode hx)
    · rw [List.getElem?_append_right (by omega), hfix] at hi
      obtain ⟨j, rfl⟩ := Nat.exists_eq_add_of_le (Nat.le_of_not_lt hlt)
      rw [Nat.add_sub_cancel_left] at hi
      obtain ⟨l, hl, hsh⟩ := forall₂_get hall hi
      obtain ⟨c, hc⟩ := renderLine_at_cut hf (fun a ha => hok a (List.mem_of_mem_take ha)) hsh hfr.1
      exact ⟨c, auction_line_cut hf h5 h hl 0 (by rw [h7, ← hlen]; exact hc)⟩
  obtain ⟨k1, r1⟩ := hrender (l := ⟨b!"Delegator", b!"delegator", false⟩) dl1 (by simp [operands]) dl2
  obtain ⟨k2, r2⟩ := hrender (l := ⟨b!"Validator", b!"validator", false⟩) vl1 (by simp [operands]) vl2
  obtain ⟨k3, r3⟩ := hrender (l := ⟨b!"Amount", b!"amount", true⟩) am1 (by simp [operands]) am2
  rcases hop with hop | hop | hop
  · exact fin 5 _ (.inl ⟨rfl, hop⟩) (.cons r1 (.cons r2 (.cons r3 .nil)))
  · exact fin 6 _ (.inr (.inl ⟨rfl, hop⟩)) (.cons r1 (.cons r2 (.cons r3 .nil)))
  · obtain ⟨nv, nv1, nv2⟩ := hd.new (by simpa using hop)
    obtain ⟨k4, r4⟩ := hrender (l := ⟨b!"Old", b!"validator", false⟩) vl1 (by simp [operands]) vl2
    obtain ⟨k5, r5⟩ := hrender (l := ⟨b!"New", b!"new_validator", false⟩) nv1 (by simp [operands, hop]) nv2
    exact fin 7 _ (.inr (.inr ⟨rfl, hop⟩)) (.cons r1 (.cons r4 (.cons r5 (.cons r3 .nil))))

/-- **C85, delegations presented by code.** Take any well-formed Deploy that runs code with the text "delegate", "undelegate" or "redelegate" in an argument
"auction" and with an amount, a delegator and a validator of the expected types, arguments being found by their names up to a zero byte, followed by
anything.  It is acknowledged exactly if everything outside the session can be shown, there is a new validator for "redelegate" (a key) and none otherwise,
the operands are the first three (or four) arguments, in any order, and, in expert mode, the code has at most 32 bytes; in every chunking and after whatever
was done before.  (Missing: other texts, keys and amounts that are not written as their types demand.) -/
theorem C85_operands_cut_partial (pl : Platform) (hcap : pl.cap ≤ 16384) (d : Dev) (hd : d.Ok pl) (path : Bytes)
    (hlen : path.length = 20) (hpath : casperPath path) (x : DeploySpec) (hx : x.Ok) (h0 : 0 ∉ x.chain) (hpay : x.payment.PaysPlainly)
    (code : Bytes) (as : List Arg) (hses : x.session = .moduleBytes code as) (hok : ∀ a ∈ as, a.Ok) (entry : Bytes)
    (hop : entry = b!"delegate" ∨ entry = b!"undelegate" ∨ entry = b!"redelegate")
    (hau : argNamed (cut as) b!"auction" = some ⟨b!"auction", pfx entry, .string⟩)
    (ham : ∃ a, argNamed (cut as) b!"amount" = some a ∧ (a.ty = .u512 ∨ a.ty = .u32))
    (hdl : ∃ a, argNamed (cut as) b!"delegator" = some a ∧ a.ty = .publicKey)
    (hvl : ∃ a, argNamed (cut as) b!"validator" = some a ∧ a.ty = .publicKey)
    (hval : ValuesFine (cut as)) (rest : Bytes)
    (cs : List Bytes) (last : Bytes) (hcs : cs.flatten ++ last = 0 :: (x.signedPart pl.blake ++ rest)) (hfit : (cs.flatten ++ last).length ≤ pl.cap) :
    (run pl d (upload 2 path cs last)).2 = List.replicate (cs.length + 1) (.reply [] 0x9000) ++ [.pending] ↔
      (∃ fee, x.Presentable pl.fmtTime d.expert rest fee) ∧
      (if entry = b!"redelegate" then ∃ a, argNamed (cut as) b!"new_validator" = some a ∧ a.ty = .publicKey else argNamed (cut as) b!"new_validator" = none) ∧
      (∀ name ∈ operands entry, ∃ a ∈ (cut as).take (operands entry).length, a.name = name) ∧
      (d.expert = true → code.length ≤ 32) := by
  have hsm : Small (signedEnv pl d.expert x rest) := by
    rw [hcs] at hfit
    unfold Small; simp only [List.length_cons] at hfit; show (x.signedPart pl.blake ++ rest).length ≤ 16384; omega
  have hsok : x.session.Ok := by rw [hses]; exact module_ok hok
  have hat : At (signedEnv pl d.expert x rest).buf (x.sessionPos pl.blake) x.session.encode := (signed_layout (H := pl.blake) (d := x) (rest := rest) rfl).session
  rw [hses] at hat
  have hda : (if entry = b!"redelegate" then ∃ a, argNamed (cut as) b!"new_validator" = some a ∧ a.ty = .publicKey else argNamed (cut as) b!"new_validator" = none) →
      DelegateNames (decide (entry = b!"redelegate")) (cut as) := fun hnv =>
    ⟨ham, hdl, hvl, fun h => by rw [if_pos (by simpa using h)] at hnv; exact hnv⟩
  have hno : (if entry = b!"redelegate" then ∃ a, argNamed (cut as) b!"new_validator" = some a ∧ a.ty = .publicKey else argNamed (cut as) b!"new_validator" = none) →
      entry ≠ b!"redelegate" → argNamed (cut as) b!"new_validator" = none := fun hnv h => by rw [if_neg h] at hnv; exact hnv
  have hone : ∀ {n : Bytes} {P : Arg → Prop}, (∃ a, argNamed (cut as) n = some a ∧ P a) → n ∈ (cut as).map Arg.name := by
    rintro n P ⟨a, ha, -⟩
    obtain ⟨h1, h2⟩ := argNamed_name ha
    exact List.mem_map.2 ⟨a, h1, h2⟩
  constructor
  · intro h
    obtain ⟨s, hs⟩ := (upload_deploy_iff pl (by omega) d hd path hlen hpath cs last _ hcs hfit).1 h
    obtain ⟨fee, hp⟩ := hs.presentable (x := x) (rest := rest) hsm hx h0 hpay hsok rfl
    obtain ⟨ep, q, hq, hlines⟩ := hs.session_lines hsm hx hp hsok rfl
    rw [hses] at hq
    obtain ⟨op, h5⟩ : ∃ op, op = 5 ∧ entry = b!"delegate" ∨ op = 6 ∧ entry = b!"undelegate" ∨ op = 7 ∧ entry = b!"redelegate" := by
      rcases hop with hop | hop | hop
      · exact ⟨5, .inl ⟨rfl, hop⟩⟩
      · exact ⟨6, .inr (.inl ⟨rfl, hop⟩)⟩
      · exact ⟨7, .inr (.inr ⟨rfl, hop⟩)⟩
    have hkey : ∀ a, argNamed (cut as) b!"new_validator" = some a → a.ty = .publicKey := by
      intro a ha
      by_contra hc
      have h1 : At (signedEnv pl d.expert x rest).buf (x.sessionPos pl.blake + 1) (pfx code ++ (le 4 as.length ++ encodeArgs as)) := (At.cons.1 hat).2
      have h3 := h1.pfx.2
      rw [At.append, le_length] at h3
      obtain ⟨c, t, hc⟩ := auctionNew_at_cut (e := signedEnv pl d.expert x rest) (ep := ep) (it := codeStart) hsm.to_fits hok
        (by rcases hop with rfl | rfl | rfl <;> decide) hau ha hc h3.2 rfl
      have hq : parseDeployItem (signedEnv pl d.expert x rest) false ⟨x.sessionPos pl.blake + 1, ep, { typ := 0 }⟩ = .ok () q := hq
      rw [module_front (e := signedEnv pl d.expert x rest) hsm.to_fits hat, bind_run, hc] at hq
      cases hq
    have hdn : DelegateNames (argNamed (cut as) b!"new_validator").isSome (cut as) :=
      ⟨ham, hdl, hvl, fun h => by
        obtain ⟨a, ha⟩ := Option.isSome_iff_exists.1 h
        exact ⟨a, ha, hkey a ha⟩⟩
    have hmatch : (argNamed (cut as) b!"new_validator").isSome = decide (entry = b!"redelegate") := by
      by_contra hne
      have hread := auction_read_cut (e := signedEnv pl d.expert x rest) hsm.to_fits hok hau h5 hdn rfl ep hat
      have hqe := hread.symm.trans hq
      cases hqe
      have h3 : 3 ≤ as.length := by
        have := (List.subperm_of_subset (l₁ := [b!"delegator", b!"validator", b!"amount"]) (l₂ := (cut as).map Arg.name) (by decide) (by
          intro m hm
          simp only [List.mem_cons, List.not_mem_nil, or_false] at hm
          rcases hm with rfl | rfl | rfl
          · exact hone hdl
          · exact hone hvl
          · exact hone ham)).length_le
        simpa [cut] using this
      obtain ⟨j, hj, c, t, hbad⟩ := auction_mismatch_cut (e := signedEnv pl d.expert x rest) hsm.to_fits hok h5 rfl hne h3 hat ep
      dsimp only at hlines
      obtain ⟨kv, c', h4⟩ := hlines ((auctionRead d.expert (argNamed (cut as) b!"new_validator").isSome entry code as (x.sessionPos pl.blake)).fixed + j) (by
        show _ < u16 ((if d.expert then 2 else 0) + (if (argNamed (cut as) b!"new_validator").isSome then 4 else 3))
        have hfx : (auctionRead d.expert (argNamed (cut as) b!"new_validator").isSome entry code as (x.sessionPos pl.blake)).fixed = if d.expert then 2 else 0 := rfl
        have hsm2 : (if d.expert then 2 else 0) ≤ 2 := by split <;> omega
        have hsm4 : (if (argNamed (cut as) b!"new_validator").isSome then 4 else 3) ≤ 4 := by split <;> omega
        rw [u16_id (by omega), hfx]
        omega)
      exact absurd (h4.symm.trans hbad) (by intro h; cases h)
    have hnv : if entry = b!"redelegate" then ∃ a, argNamed (cut as) b!"new_validator" = some a ∧ a.ty = .publicKey else argNamed (cut as) b!"new_validator" = none := by
      split
      · rename_i hr
        obtain ⟨a, ha⟩ := Option.isSome_iff_exists.1 (hmatch.trans (by simpa using hr))
        exact ⟨a, ha, hkey a ha⟩
      · rename_i hr
        simpa [hr] using hmatch
    have hparse := auction_parse_cut (e := signedEnv pl d.expert x rest) hsm.to_fits hok hau h5 (hda hnv) (hno hnv) ep hat
    have hqe := hparse.symm.trans hq
    cases hqe
    dsimp only at hlines
    have hoplen : (operands entry).length = if op = 7 then 4 else 3 := by
      rcases h5 with ⟨rfl, rfl⟩ | ⟨rfl, rfl⟩ | ⟨rfl, rfl⟩ <;> rfl
    have hrt : (auctionView d.expert entry code as (x.sessionPos pl.blake)).runtime = (operands entry).length := by
      show (if entry = b!"redelegate" then 4 else 3) = _
      rcases h5 with ⟨-, rfl⟩ | ⟨-, rfl⟩ | ⟨-, rfl⟩ <;> rfl
    have hfx2 : (auctionView d.expert entry code as (x.sessionPos pl.blake)).fixed = if d.expert then 2 else 0 := rfl
    have hop4 : (operands entry).length ≤ 4 ∧ 3 ≤ (operands entry).length := by rw [hoplen]; split <;> omega
    have hfx : (auctionView d.expert entry code as (x.sessionPos pl.blake)).fixed ≤ 2 := by rw [hfx2]; split <;> omega
    refine ⟨⟨fee, hp⟩, hnv, fun name hname => ?_, fun he => ?_⟩
    · -- there are at least as many arguments
      have hcount : (operands entry).length ≤ as.length := by
        have hsub : ∀ m ∈ operands entry, m ∈ (cut as).map Arg.name := by
          intro m hm
          unfold operands at hm
          simp only [List.cons_append, List.nil_append, List.mem_cons] at hm
          rcases hm with rfl | rfl | rfl | hm
          · exact hone hdl
          · exact hone hvl
          · exact hone ham
          · split at hm
            · rename_i hr
              simp only [List.mem_singleton] at hm
              subst hm
              rw [if_pos hr] at hnv
              exact hone hnv
            · cases hm
        have hnd : (operands entry).Nodup := by
          unfold operands
          split <;> decide
        have := (List.subperm_of_subset hnd hsub).length_le
        simpa [cut] using this
      by_contra hc
      have habs : ∀ a ∈ as.take (operands entry).length, cstr a.name ≠ name := fun a ha hn => hc ⟨{ a with name := cstr a.name }, by
        unfold cut
        rw [← List.map_take]
        exact List.mem_map_of_mem ha, hn⟩
      obtain ⟨j, l, hl, rfl⟩ : ∃ (j : Nat) (l : ArgLine), (opLines d.expert (cut as) op)[j]? = some l ∧ l.name = name := by
        rcases h5 with ⟨rfl, rfl⟩ | ⟨rfl, rfl⟩ | ⟨rfl, rfl⟩
        · simp only [operands, List.cons_append, List.nil_append, List.mem_cons] at hname
          rcases hname with rfl | rfl | rfl | hname
          · exact ⟨0, _, rfl, rfl⟩
          · exact ⟨1, _, rfl, rfl⟩
          · exact ⟨2, _, rfl, rfl⟩
          · simp at hname
        · simp only [operands, List.cons_append, List.nil_append, List.mem_cons] at hname
          rcases hname with rfl | rfl | rfl | hname
          · exact ⟨0, _, rfl, rfl⟩
          · exact ⟨1, _, rfl, rfl⟩
          · exact ⟨2, _, rfl, rfl⟩
          · simp at hname
        · simp only [operands, List.cons_append, List.nil_append, List.mem_cons] at hname
          rcases hname with rfl | rfl | rfl | hname
          · exact ⟨0, _, rfl, rfl⟩
          · exact ⟨1, _, rfl, rfl⟩
          · exact ⟨3, _, rfl, rfl⟩
          · simp only [if_true, List.mem_singleton] at hname
            subst hname
            exact ⟨2, _, rfl, rfl⟩
      have hjl := (List.getElem?_eq_some_iff.1 hl).1
      have hol : (opLines d.expert (cut as) op).length = (operands entry).length := by
        rcases h5 with ⟨rfl, rfl⟩ | ⟨rfl, rfl⟩ | ⟨rfl, rfl⟩ <;> rfl
      obtain ⟨kv, c, h4⟩ := hlines ((auctionView d.expert entry code as (x.sessionPos pl.blake)).fixed + j) (by
        show _ < u16 ((auctionView d.expert entry code as (x.sessionPos pl.blake)).fixed + (auctionView d.expert entry code as (x.sessionPos pl.blake)).runtime)
        rw [u16_id (by omega)]
        omega)
      have h1 : At (signedEnv pl d.expert x rest).buf (x.sessionPos pl.blake + 1) (pfx code ++ (le 4 as.length ++ encodeArgs as)) := (At.cons.1 hat).2
      have h3 := h1.pfx.2
      rw [At.append, le_length] at h3
      have hnone := getData_none (e := signedEnv pl d.expert x rest) (name := l.name) (k := if op = 7 then 4 else 3) hsm.to_fits hok
        (by rw [← hoplen]; exact habs) (by rw [← hoplen]; exact hcount) h3.2
      obtain ⟨t, hshow⟩ : ∃ t, (if l.motes then showMotes (signedEnv pl d.expert x rest) l.label l.name (if op = 7 then 4 else 3)
          else showArg (signedEnv pl d.expert x rest) l.label l.name (if op = 7 then 4 else 3)) (x.sessionPos pl.blake + 1 + 4 + code.length + 4) = .err 1 t := by
        split
        · exact ⟨_, by unfold showMotes; rw [bind_run, hnone]; rfl⟩
        · exact ⟨_, by unfold showArg; rw [bind_run, hnone]; rfl⟩
      have := auction_line_cut (e := signedEnv pl d.expert x rest) hsm.to_fits h5 hat hl ep hshow
      exact absurd (h4.symm.trans this) (by intro h; cases h)
    · by_contra hc
      obtain ⟨kv, c, h4⟩ := hlines 1 (by
        show _ < u16 ((auctionView d.expert entry code as (x.sessionPos pl.blake)).fixed + (auctionView d.expert entry code as (x.sessionPos pl.blake)).runtime)
        rw [u16_id (by omega)]
        omega)
      have := (auction_code_cut (e := signedEnv pl d.expert x rest) (entry := entry) hsm.to_fits hat (auctionNumber_kinds entry) he ep).2.2 (by omega)
      exact absurd (h4.symm.trans this) (by intro h; cases h)
  · rintro ⟨hp, hnv, hfirst, hc⟩
    obtain ⟨lines, key⟩ := auction_session_cut (e := signedEnv pl d.expert x rest) hsm.to_fits hok hau hop (hda hnv) (hno hnv) hval hfirst hc hat
    exact (deploy_shown_iff pl hcap d hd path hlen hpath x hx h0 hpay (typeLabel (x.parsed pl.blake [] 0 0 (auctionView d.expert entry code as (x.sessionPos pl.blake)))) lines
      rest hsok (fun _ => ⟨0, _, by rw [hses]; exact key, fun _ _ _ _ => rfl⟩) cs last hcs hfit).1.2 hp

/-- The same arguments, with the name of the operation before or behind the operands. -/
def sampleOrdered (first : Bool) (code : Bytes) : DeploySpec := { sampleDeploy with
  session := .moduleBytes code (if first then Arg.marked ⟨b!"auction", pfx b!"delegate", .string⟩ :: markedOperands
    else markedOperands ++ [Arg.marked ⟨b!"auction", pfx b!"delegate", .string⟩]) }

/-- The hypotheses of `C85_operands_cut_partial` can be met: any code is accepted in normal mode if the operands come first, and refused if they do not. -/
example (first : Bool) (code rest : Bytes) (cs : List Bytes) (last : Bytes) (hcs : cs.flatten ++ last = 0 :: ((sampleOrdered first code).signedPart Blake.H ++ rest))
    (hfit : (cs.flatten ++ last).length ≤ samplePl.cap) : (run samplePl (Dev.init samplePl) (upload 2 (samplePath 0) cs last)).2 =
      List.replicate (cs.length + 1) (.reply [] 0x9000) ++ [.pending] ↔ first = false := by
  have hcut : ∀ first, cut (sampleOrdered first []).session.args = if first then
      [⟨b!"auction", pfx b!"delegate", .string⟩, ⟨b!"delegator", sampleAccount.encode, .publicKey⟩,
        ⟨b!"validator", (PubKey.ed25519 (List.replicate 32 0x44)).encode, .publicKey⟩, ⟨b!"amount", UInt8.ofNat 5 :: le 5 500000000000, .u512⟩]
      else [⟨b!"delegator", sampleAccount.encode, .publicKey⟩, ⟨b!"validator", (PubKey.ed25519 (List.replicate 32 0x44)).encode, .publicKey⟩,
        ⟨b!"amount", UInt8.ofNat 5 :: le 5 500000000000, .u512⟩, ⟨b!"auction", pfx b!"delegate", .string⟩] := by decide +kernel
  rw [C85_operands_cut_partial samplePl (by decide) (Dev.init samplePl) (.init _) (samplePath 0) rfl (by decide) (sampleOrdered first code)
    ⟨rfl, sampleDeploy_usual.ok.timestamp, sampleDeploy_usual.ok.ttl, sampleDeploy_usual.ok.gasPrice, sampleDeploy_ok.deps⟩ sampleDeploy_usual.chain0 samplePay_plain
    code (sampleOrdered first []).session.args rfl
    (by
      intro a ha
      cases first <;>
      · simp only [sampleOrdered, ExecItem.args, markedOperands, if_true, Bool.false_eq_true, if_false, List.map_cons, List.map_nil, List.cons_append, List.nil_append,
          List.mem_cons, List.not_mem_nil, or_false] at ha
        rcases ha with rfl | rfl | rfl | rfl <;> exact ⟨by decide, by decide, by decide⟩)
    b!"delegate" (.inl rfl) (by rw [hcut]; cases first <;> rfl) (by rw [hcut]; cases first <;> exact ⟨_, rfl, .inl rfl⟩) (by rw [hcut]; cases first <;> exact ⟨_, rfl, rfl⟩)
    (by rw [hcut]; cases first <;> exact ⟨_, rfl, rfl⟩)
    (by
      rw [hcut]
      intro a ha
      cases first <;>
      · simp only [if_true, Bool.false_eq_true, if_false, List.mem_cons, List.not_mem_nil, or_false] at ha
        rcases ha with rfl | rfl | rfl | rfl
        all_goals first
          | exact ⟨fun _ => ⟨sampleAccount, rfl, rfl⟩, by simp, by simp⟩
          | exact ⟨fun _ => ⟨.ed25519 (List.replicate 32 0x44), rfl, rfl⟩, by simp, by simp⟩
          | exact ⟨by simp, fun _ => ⟨5, 500000000000, by decide, by decide, rfl⟩, by simp⟩
          | exact ⟨by simp, by simp, by simp⟩)
    rest cs last hcs hfit, hcut]
  constructor
  · rintro ⟨-, -, h, -⟩
    cases first with
    | false => rfl
    | true =>
      obtain ⟨a, ha, hn⟩ := h b!"amount" (by simp [operands])
      simp only [show (operands b!"delegate").length = 3 from rfl, if_true, List.take_succ_cons, List.take_zero, List.mem_cons, List.not_mem_nil, or_false] at ha
      rcases ha with rfl | rfl | rfl <;> exact absurd hn (by decide)
  · rintro rfl
    refine ⟨⟨100000000, sampleDeploy_usual.chain, ⟨[], 4, by decide, by decide, rfl⟩, by simp [Dev.init], by simp [Dev.init], by simp [Dev.init]⟩, by rw [if_neg (by decide)]; rfl, fun name hn => ?_, by simp [Dev.init]⟩
    simp only [show operands b!"delegate" = [b!"delegator", b!"validator", b!"amount"] from rfl, List.mem_cons, List.not_mem_nil, or_false] at hn
    rcases hn with rfl | rfl | rfl
    · exact ⟨_, .head _, rfl⟩
    · exact ⟨_, .tail _ (.head _), rfl⟩
    · exact ⟨_, .tail _ (.tail _ (.head _)), rfl⟩

end Casper
