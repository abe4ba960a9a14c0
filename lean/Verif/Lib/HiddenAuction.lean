import Verif.Lib.HiddenCode
/-
Sessions that run code, name an operation and have operands of unexpected types.
-/
namespace Casper
open M

/-- The number the parser has for an operation named in an argument "auction". -/
def auctionNumber (entry : Bytes) : Nat :=
  if entry = b!"delegate" then 3 else if entry = b!"undelegate" then 4 else if entry = b!"redelegate" then 5 else 0

section
variable {e : Env} {as : List Arg} {entry : Bytes} (hf : Fits e) (hok : ∀ a ∈ as, a.Ok) (hn : noNul as) (hl : entry.length ≤ 96)
  (hau : argNamed as b!"auction" = some ⟨b!"auction", pfx entry, .string⟩)

include hf hok hn hl hau in
theorem namedAuction_at {o ep : Nat} {it : Item} (h : At e.buf o (encodeArgs as)) :
    parseAuction e as.length ⟨o, ep, it⟩ =
      .ok ((argNamed as b!"new_validator").isSome, true) ⟨o, ep, { it with itemOffset := o, special := auctionNumber entry }⟩ := by
  have hf' := hf
  unfold Fits at hf'
  obtain ⟨r, hr, hr2⟩ := searchNew_at (ep := ep) (it := { it with itemOffset := o }) hf hok hn h
  unfold parseAuction
  refine getThen (modThen ?_)
  dsimp only
  refine seqThen hr ?_
  obtain ⟨p, hp1, hp2⟩ := getData_find hf hok hn hau h
  have hel : (pfx entry).length = 4 + entry.length := by simp [pfx]
  rw [At.append] at hp2
  have hle := hp2.1.le
  refine seqThen (a := true) (t := ⟨p, ep, { it with itemOffset := o }⟩) ?_ ?_
  · refine seqThen (a := .ok ((pfx entry).length, 10)) (t := ⟨p, ep, { it with itemOffset := o }⟩) (by rw [attempt_run, lp_run (s := ⟨_, _, _⟩) hp1]; rfl) ?_
    dsimp only
    refine reqThen rfl (getThen (reqThen ⟨by omega, ?_⟩ rfl))
    dsimp only
    rw [u32_id (by omega)]
    exact hle
  refine lpThen (a := auctionNumber entry) (o := p + 4 + entry.length - entry.length) ?_ ?_
  · have h1 : At e.buf p (pfx entry ++ []) := by rw [List.append_nil]; exact hp2.1
    have h2 := h1.pfx.1
    unfold auctionKind
    refine seqThen (readU32_at (v := entry.length) (xs := entry) hp2.1 (by omega)) (getThen ?_)
    rw [if_neg (by omega)]
    refine seqThen (slice_at h2 rfl) ?_
    rw [Nat.add_sub_cancel]
    unfold auctionNumber
    by_cases h3 : entry = b!"delegate"
    · subst h3; rfl
    by_cases h4 : entry = b!"undelegate"
    · subst h4; rfl
    by_cases h5 : entry = b!"redelegate"
    · subst h5; rfl
    simp only [h3, h4, h5, and_false, if_false]
    rfl
  refine modThen ?_
  dsimp only
  refine lpThen (a := ()) (o := o) rfl ?_
  rw [← hr2]
  rfl

/-- What the parser remembers of such a session in normal mode. -/
def hiddenAuction (entry code : Bytes) (as : List Arg) (off : Nat) : Item :=
  { typ := 0, special := auctionNumber entry, hasAmount := hasMotes as, runtime := 0, fixed := 0, generic := if auctionNumber entry = 0 then 1 else 0,
    itemOffset := off + 1 + 4 + code.length + 4, total := (ExecItem.moduleBytes code as).encode.length }

include hf hok hn hl hau in
/-- In normal mode it is read, and has no lines. -/
theorem hiddenAuction_session (hx : e.expert = false) (hwa : WrongArgs as)
    (hnew : ∀ a, argNamed as b!"new_validator" = some a → a.ty = .publicKey) {code : Bytes} {off : Nat}
    (h : At e.buf off (ExecItem.moduleBytes code as).encode) :
    SessionAt e off (.moduleBytes code as) 0 (hiddenAuction entry code as off) [] := by
  refine ⟨?_, rfl, rfl, Nat.zero_le _, fun i kv hi => by simp at hi⟩
  have h1 : At e.buf (off + 1) (pfx code ++ (le 4 as.length ++ encodeArgs as)) := (At.cons.1 h).2
  have h3 := h1.pfx.2
  rw [At.append, le_length] at h3
  have hl3 := h3.2.le
  have hf' := hf
  unfold Fits at hf'
  have hlen : (ExecItem.moduleBytes code as).encode.length = 1 + (4 + code.length) + (4 + (encodeArgs as).length) := by
    simp [ExecItem.encode, pfx, encodeRuntimeArgs]; omega
  show parseDeployItem e false ⟨off + 1, 0, { typ := 0 }⟩ = _
  rw [module_front hf h]
  refine seqThen (a := ()) (t := ⟨off + 1 + 4 + code.length + 4, 0, { hiddenAuction entry code as off with total := 0 }⟩) ?_ ?_
  · unfold parseDelegation
    refine getThen ?_
    rw [if_pos (by rfl)]
    refine seqThen (namedAuction_at hf hok hn hl hau h3.2) ?_
    dsimp only
    refine seqThen (a := ()) (t := ⟨off + 1 + 4 + code.length + 4, 0,
      { codeStart with itemOffset := off + 1 + 4 + code.length + 4, special := auctionNumber entry }⟩) ?_ ?_
    · unfold checkNewValidator
      cases hnv : argNamed as b!"new_validator" with
      | none => rfl
      | some a => exact lp_run (checkArg_found hf hok hn h3.2 hnv (publicKey_ok (hnew a hnv)))
    refine seqThen (a := ()) (t := ⟨off + 1 + 4 + code.length + 4, 0,
      { codeStart with itemOffset := off + 1 + 4 + code.length + 4, special := auctionNumber entry, hasAmount := hasMotes as }⟩) ?_ ?_
    · unfold delegationLines
      refine seqThen (a := .ok ()) (t := ⟨off + 1 + 4 + code.length + 4, 0,
        { codeStart with itemOffset := off + 1 + 4 + code.length + 4, special := auctionNumber entry, hasAmount := hasMotes as }⟩) ?_ rfl
      rw [attempt_run, wrongItems_at (it := { codeStart with itemOffset := off + 1 + 4 + code.length + 4, special := auctionNumber entry }) hf hok hn h3.2 _ hwa rfl]
    · unfold finishDelegation
      refine modThen ?_
      dsimp only
      rw [hx]
      by_cases h0 : auctionNumber entry = 0
      · simp only [h0]; unfold hiddenAuction; rw [h0]; rfl
      · simp only [h0, if_false]; unfold hiddenAuction; rw [if_neg h0]; rfl
  unfold finishItem
  refine lpThen (parseArgs_at hf hok h3.2) ?_
  refine lpThen (a := (ExecItem.moduleBytes code as).encode.length) (o := off + (ExecItem.moduleBytes code as).encode.length) ?_ ?_
  · dsimp only
    unfold totalLength
    refine getThen ?_
    rw [if_pos (by omega), hlen]
    show Res.ok _ _ = _
    congr 1 <;> omega
  · rfl

end
end Casper
