import Verif.Props.CutCode
import Verif.Props.HiddenAuction

/-!
# Code presented as a delegation, for all argument names

As in `C74_delegation_partial`, `C74_redelegation_partial` and `C74_hidden_false`, arguments being found by their names up to a zero byte.
-/

namespace Casper

open M

section
variable {e : Env} {o : Nat} {as : List Arg} (hf : Fits e) (hok : ∀ a ∈ as, a.Ok)

include hf hok in
theorem countArg_found_raw (h : At e.buf o (encodeArgs as)) {name : Bytes} {cond : Nat → Nat → Bool} {a : Arg} (ha : argNamed (cut as) name = some a)
    (hc : cond a.ty.tag (a.ty.inner 255) = true) : countArg e as.length name cond o = .ok .found o := by
  rw [← cut_length as]; exact countArg_found_cut hf hok rfl h ha hc

include hf hok in
theorem showLine_at_raw {l : ArgLine} {kv : Bytes × Bytes} (hl : l.Shows e.blake (cut as) kv) (h : At e.buf o (encodeArgs as)) :
    ∃ c, (if l.motes then showMotes e l.label l.name as.length else showArg e l.label l.name as.length) o = .ok kv c := by
  rw [← cut_length as]; exact showLine_at_cut hf hok rfl hl h

end

theorem cut_append (as bs : List Arg) : cut (as ++ bs) = cut as ++ cut bs := by simp [cut]

theorem argNamed_front_cut {as bs : List Arg} {name : Bytes} {a : Arg} (h : argNamed (cut as) name = some a) : argNamed (cut (as ++ bs)) name = some a := by
  rw [cut_append]; exact argNamed_front h

section
variable {e : Env} {as : List Arg} {entry : Bytes} (hf : Fits e) (hok : ∀ a ∈ as, a.Ok) (hl : entry.length ≤ 96)
  (hau : argNamed (cut as) b!"auction" = some ⟨b!"auction", pfx entry, .string⟩)

include hf hok hl hau in
theorem namedAuction_at_cut {o ep : Nat} {it : Item} (h : At e.buf o (encodeArgs as)) :
    parseAuction e as.length ⟨o, ep, it⟩ =
      .ok ((argNamed (cut as) b!"new_validator").isSome, true) ⟨o, ep, { it with itemOffset := o, special := auctionNumber entry }⟩ := by
  have hf' := hf
  unfold Fits at hf'
  obtain ⟨r, hr, hr2⟩ := searchNew_at_cut (ep := ep) (it := { it with itemOffset := o }) hf hok h
  unfold parseAuction
  refine getThen (modThen ?_)
  dsimp only
  refine seqThen hr ?_
  obtain ⟨p, hp1, hp2⟩ := getData_find_cut hf hok hau h
  have hel : (pfx entry).length = 4 + entry.length := by simp [pfx]
  rw [At.append] at hp2
  have hle := hp2.1.le
  refine seqThen (a := true) (t := ⟨p, ep, { it with itemOffset := o }⟩) ?_ ?_
  · refine seqThen (a := .ok ((pfx entry).length, 10)) (t := ⟨p, ep, { it with itemOffset := o }⟩) (by rw [attempt_run, lp_run (s := ⟨_, _, _⟩) hp1]; rfl) ?_
    dsimp only
    refine reqThen rfl (getThen (reqThen ⟨by omega, ?_⟩ rfl))
    dsimp only
    rw [u32_id (by omega)]
    exact hle
  refine lpThen (a := auctionNumber entry) (o := p + 4 + entry.length - entry.length) ?_ ?_
  · have h1 : At e.buf p (pfx entry ++ []) := by rw [List.append_nil]; exact hp2.1
    have h2 := h1.pfx.1
    unfold auctionKind
    refine seqThen (readU32_at (v := entry.length) (xs := entry) hp2.1 (by omega)) (getThen ?_)
    rw [if_neg (by omega)]
    refine seqThen (slice_at h2 rfl) ?_
    rw [Nat.add_sub_cancel]
    unfold auctionNumber
    by_cases h3 : entry = b!"delegate"
    · subst h3; rfl
    by_cases h4 : entry = b!"undelegate"
    · subst h4; rfl
    by_cases h5 : entry = b!"redelegate"
    · subst h5; rfl
    simp only [h3, h4, h5, and_false, if_false]
    rfl
  refine modThen ?_
  dsimp only
  refine lpThen (a := ()) (o := o) rfl ?_
  rw [← hr2]
  rfl

/-- What the parser remembers of such a session in normal mode. -/
def hiddenAuction_cut (entry code : Bytes) (as : List Arg) (off : Nat) : Item :=
  { typ := 0, special := auctionNumber entry, hasAmount := hasMotes (cut as), runtime := 0, fixed := 0, generic := if auctionNumber entry = 0 then 1 else 0,
    itemOffset := off + 1 + 4 + code.length + 4, total := (ExecItem.moduleBytes code as).encode.length }

include hf hok hl hau in
/-- In normal mode it is read, and has no lines. -/
theorem hiddenAuction_session_cut (hx : e.expert = false) (hwa : WrongArgs (cut as))
    (hnew : ∀ a, argNamed (cut as) b!"new_validator" = some a → a.ty = .publicKey) {code : Bytes} {off : Nat}
    (h : At e.buf off (ExecItem.moduleBytes code as).encode) :
    SessionAt e off (.moduleBytes code as) 0 (hiddenAuction_cut entry code as off) [] := by
  refine ⟨?_, rfl, rfl, Nat.zero_le _, fun i kv hi => by simp at hi⟩
  have h1 : At e.buf (off + 1) (pfx code ++ (le 4 as.length ++ encodeArgs as)) := (At.cons.1 h).2
  have h3 := h1.pfx.2
  rw [At.append, le_length] at h3
  have hl3 := h3.2.le
  have hf' := hf
  unfold Fits at hf'
  have hlen : (ExecItem.moduleBytes code as).encode.length = 1 + (4 + code.length) + (4 + (encodeArgs as).length) := by
    simp [ExecItem.encode, pfx, encodeRuntimeArgs]; omega
  show parseDeployItem e false ⟨off + 1, 0, { typ := 0 }⟩ = _
  rw [module_front hf h]
  refine seqThen (a := ()) (t := ⟨off + 1 + 4 + code.length + 4, 0, { hiddenAuction_cut entry code as off with total := 0 }⟩) ?_ ?_
  · unfold parseDelegation
    refine getThen ?_
    rw [if_pos (by rfl)]
    refine seqThen (namedAuction_at_cut hf hok hl hau h3.2) ?_
    dsimp only
    refine seqThen (a := ()) (t := ⟨off + 1 + 4 + code.length + 4, 0,
      { codeStart with itemOffset := off + 1 + 4 + code.length + 4, special := auctionNumber entry }⟩) ?_ ?_
    · unfold checkNewValidator
      cases hnv : argNamed (cut as) b!"new_validator" with
      | none => rfl
      | some a => exact lp_run (checkArg_found_raw hf hok h3.2 hnv (publicKey_ok (hnew a hnv)))
    refine seqThen (a := ()) (t := ⟨off + 1 + 4 + code.length + 4, 0,
      { codeStart with itemOffset := off + 1 + 4 + code.length + 4, special := auctionNumber entry, hasAmount := hasMotes (cut as) }⟩) ?_ ?_
    · unfold delegationLines
      refine seqThen (a := .ok ()) (t := ⟨off + 1 + 4 + code.length + 4, 0,
        { codeStart with itemOffset := off + 1 + 4 + code.length + 4, special := auctionNumber entry, hasAmount := hasMotes (cut as) }⟩) ?_ rfl
      rw [attempt_run, wrongItems_at_raw (it := { codeStart with itemOffset := off + 1 + 4 + code.length + 4, special := auctionNumber entry }) hf hok h3.2 _ hwa rfl]
    · unfold finishDelegation
      refine modThen ?_
      dsimp only
      rw [hx]
      by_cases h0 : auctionNumber entry = 0
      · simp only [h0]; unfold hiddenAuction_cut; rw [h0]; rfl
      · simp only [h0, if_false]; unfold hiddenAuction_cut; rw [if_neg h0]; rfl
  unfold finishItem
  refine lpThen (parseArgs_at hf hok h3.2) ?_
  refine lpThen (a := (ExecItem.moduleBytes code as).encode.length) (o := off + (ExecItem.moduleBytes code as).encode.length) ?_ ?_
  · dsimp only
    unfold totalLength
    refine getThen ?_
    rw [if_pos (by omega), hlen]
    show Res.ok _ _ = _
    congr 1 <;> omega
  · rfl

end

/-- **C74 fails: operations announced without their operands, all names of arguments** (found up to a zero byte). Take any well-formed Deploy that runs code, of whatever length, with a text of at most 96 bytes in an
argument "auction", and in which one of the arguments named "amount", "delegator" or "validator" has an unexpected type (a "new_validator", if there is one,
being a key), followed by anything.  In normal mode it is acknowledged, in every chunking and after whatever was done before; the review says "Delegate"
(or whatever the text names) and nothing more: neither who delegates, nor to whom, nor how much, nor which code runs; and approving signs the Deploy's hash. -/
theorem C74_hidden_cut_false (pl : Platform) (hcap : pl.cap ≤ 16384) (d : Dev) (hd : d.Ok pl) (hnormal : d.expert = false) (path : Bytes)
    (hlen : path.length = 20) (hpath : casperPath path) (x : DeploySpec) (pcode : Bytes) (fk fee : Nat) (hx : x.Usual pcode fk fee)
    (code : Bytes) (as : List Arg) (hses : x.session = .moduleBytes code as)
    (hok : ∀ a ∈ as, a.Ok) (entry : Bytes) (hentry : entry.length ≤ 96)
    (hau : argNamed (cut as) b!"auction" = some ⟨b!"auction", pfx entry, .string⟩) (hm : Mistyped (cut as))
    (hnew : ∀ a, argNamed (cut as) b!"new_validator" = some a → a.ty = .publicKey) (rest : Bytes) (cs : List Bytes) (last : Bytes)
    (hcs : cs.flatten ++ last = 0 :: (x.signedPart pl.blake ++ rest)) (hfit : (cs.flatten ++ last).length ≤ pl.cap) :
    ∃ d', run pl d (upload 2 path cs last) = (d', List.replicate (cs.length + 1) (.reply [] 0x9000) ++ [.pending]) ∧
      Displays pl d' [(b!"Txn hash", checksumHex pl.blake (pl.blake (x.header pl.blake).encode)), (b!"Type", announced entry), (b!"Chain ID", x.chain),
        (b!"Account", x.account.address pl.blake), (b!"Fee", motesOf fee)] ∧
      (step pl d' .approve).2 = signatureReply pl path (pl.sha256 (pl.blake (x.header pl.blake).encode)) := by
  have hsm : Small (signedEnv pl d.expert x rest) := by
    rw [hcs] at hfit
    unfold Small; simp only [List.length_cons] at hfit; show (x.signedPart pl.blake ++ rest).length ≤ 16384; omega
  have hat := (signed_layout (H := pl.blake) (d := x) (rest := rest) rfl).session
  rw [hses] at hat
  have key := hiddenAuction_session_cut (e := signedEnv pl d.expert x rest) (off := x.sessionPos pl.blake) hsm.to_fits hok hentry hau hnormal hm.wrong hnew hat
  rw [← hses] at key
  have hty : typeLabel (x.parsed pl.blake pcode fk fee (hiddenAuction_cut entry code as (x.sessionPos pl.blake))) = announced entry := by
    unfold typeLabel DeploySpec.parsed hiddenAuction_cut auctionNumber announced
    dsimp only
    by_cases h3 : entry = b!"delegate"
    · subst h3; rfl
    by_cases h4 : entry = b!"undelegate"
    · subst h4; rfl
    by_cases h5 : entry = b!"redelegate"
    · subst h5; rfl
    simp only [h3, h4, h5, if_false]
    rfl
  obtain ⟨d', ttl, -, r2, r3, r4⟩ := signed_upload pl hcap d hd path hlen hpath x pcode fk fee hx rest 0 (fun h => by rw [hnormal] at h; cases h) cs last hcs hfit key hty []
    (fun h => by rw [hnormal] at h; cases h)
  rw [hnormal] at r3
  exact ⟨d', r2, r3, r4⟩

section
variable {e : Env} {off op : Nat} {code entry : Bytes} {front rest : List Arg} (hf : Fits e)
  (hok : ∀ a ∈ front ++ rest, a.Ok)
  (hau : argNamed (cut (front ++ rest)) b!"auction" = some ⟨b!"auction", pfx entry, .string⟩)
  (hop : op = 5 ∧ entry = b!"delegate" ∨ op = 6 ∧ entry = b!"undelegate" ∨ op = 7 ∧ entry = b!"redelegate")
  (hd : DelegateArgs (decide (op = 7)) (cut front)) (hnv : op ≠ 7 → argNamed (cut (front ++ rest)) b!"new_validator" = none)

include hf hok hau hop hd hnv in
/-- The search for the argument "auction". -/
theorem parseAuction_at_cut {o ep : Nat} {it : Item} (h : At e.buf o (encodeArgs (front ++ rest))) :
    parseAuction e (front ++ rest).length ⟨o, ep, it⟩ = .ok (decide (op = 7), true) ⟨o, ep, { it with itemOffset := o, special := op - 2 }⟩ := by
  have hf' := hf
  unfold Fits at hf'
  unfold parseAuction
  refine getThen (modThen ?_)
  dsimp only
  refine seqThen (a := if op = 7 then .ok (22, 255) else .error 27) (t := ⟨o, ep, { it with itemOffset := o }⟩) ?_ ?_
  · rw [attempt_run]
    by_cases h7 : op = 7
    · obtain ⟨nv, nv1, nv2⟩ := hd.new (by simpa using h7)
      rw [lp_run (s := ⟨_, _, _⟩) (search_found_raw hf hok h (argNamed_front_cut nv1)), if_pos h7, nv2]
      rfl
    · rw [lp_err (s := ⟨_, _, _⟩) (search_absent_raw hf hok h (hnv h7)), if_neg h7]
  obtain ⟨p, hp1, hp2⟩ := getData_find_cut hf hok hau h
  have hel : (pfx entry).length = 4 + entry.length := by simp [pfx]
  have hs : entry.length ≤ 10 := by rcases hop with ⟨-, rfl⟩ | ⟨-, rfl⟩ | ⟨-, rfl⟩ <;> decide
  rw [At.append] at hp2
  have hle := hp2.1.le
  refine seqThen (a := true) (t := ⟨p, ep, { it with itemOffset := o }⟩) ?_ ?_
  · refine seqThen (a := .ok ((pfx entry).length, 10)) (t := ⟨p, ep, { it with itemOffset := o }⟩) (by rw [attempt_run, lp_run (s := ⟨_, _, _⟩) hp1]; rfl) ?_
    dsimp only
    refine reqThen rfl (getThen (reqThen ⟨by omega, ?_⟩ rfl))
    dsimp only
    rw [u32_id (by omega)]
    exact hle
  refine lpThen (a := op - 2) (o := p + 4 + entry.length - entry.length) ?_ ?_
  · have h1 : At e.buf p (pfx entry ++ []) := by rw [List.append_nil]; exact hp2.1
    have h2 := h1.pfx.1
    unfold auctionKind
    refine seqThen (readU32_at (v := entry.length) (xs := entry) hp2.1 (by omega)) (getThen ?_)
    rw [if_neg (by omega)]
    refine seqThen (slice_at h2 rfl) ?_
    rw [Nat.add_sub_cancel]
    rcases hop with ⟨rfl, rfl⟩ | ⟨rfl, rfl⟩ | ⟨rfl, rfl⟩ <;> rfl
  refine modThen ?_
  dsimp only
  refine lpThen (a := ()) (o := o) rfl ?_
  by_cases h7 : op = 7
  · rw [if_pos h7]; simp only [h7, decide_true]; rfl
  · rw [if_neg h7]; simp only [h7, decide_false]; rfl

include hf hok hau hop hd hnv in
theorem codeDelegation_at_cut {o ep : Nat} {it : Item} (h : At e.buf o (encodeArgs (front ++ rest))) (ht : it.typ = 0) (hr : it.runtime = 0)
    (hfx : it.fixed = 0) (hg : it.generic = 0) :
    parseDelegation e (front ++ rest).length false ⟨o, ep, it⟩ = .ok () ⟨o, ep,
      { it with itemOffset := o, special := op - 2, hasAmount := true, runtime := front.length, fixed := if e.expert then 2 else 0 }⟩ := by
  obtain ⟨ty, sp, tot, fx, rt, gn, io, ha⟩ := it
  dsimp only at ht hr hfx hg
  subst ht hr hfx hg
  obtain ⟨am, am1, am2⟩ := hd.amount
  obtain ⟨dl, dl1, dl2⟩ := hd.delegator
  obtain ⟨vl, vl1, vl2⟩ := hd.validator
  replace am1 := argNamed_front_cut (bs := rest) am1
  replace dl1 := argNamed_front_cut (bs := rest) dl1
  replace vl1 := argNamed_front_cut (bs := rest) vl1
  have hsp : op - 2 ≠ 0 := by omega
  unfold parseDelegation
  refine getThen ?_
  rw [if_pos (by rfl)]
  refine seqThen (parseAuction_at_cut hf hok hau hop hd hnv h) ?_
  dsimp only
  refine seqThen (a := ()) (t := ⟨o, ep, { typ := 0, special := op - 2, total := tot, itemOffset := o, hasAmount := ha }⟩) ?_ ?_
  · unfold checkNewValidator
    by_cases h7 : op = 7
    · obtain ⟨nv, nv1, nv2⟩ := hd.new (by simpa using h7)
      rw [if_pos (by simpa using h7)]
      exact lp_run (checkArg_found_raw hf hok h (argNamed_front_cut nv1) (publicKey_ok nv2))
    · rw [if_neg (by simpa using h7)]; rfl
  refine seqThen (a := ()) (t := ⟨o, ep, { typ := 0, special := op - 2, total := tot, itemOffset := o, hasAmount := true, runtime := front.length }⟩) ?_ ?_
  · unfold delegationLines
    refine seqThen (a := .ok ()) (t := ⟨o, ep, { typ := 0, special := op - 2, total := tot, itemOffset := o, hasAmount := true, runtime := front.length }⟩) ?_ rfl
    have : checkDelegationItems e (front ++ rest).length (decide (op = 7)) ⟨o, ep, { typ := 0, special := op - 2, total := tot, itemOffset := o, hasAmount := ha }⟩ =
        .ok () ⟨o, ep, { typ := 0, special := op - 2, total := tot, itemOffset := o, hasAmount := true, runtime := front.length }⟩ := by
      unfold checkDelegationItems
      refine lpThen (countArg_found_raw hf hok h am1 (u512_ok am2)) (modThen (lpThen (countArg_found_raw hf hok h dl1 (publicKey_ok dl2)) ?_))
      refine lpThen (countArg_found_raw hf hok h vl1 (publicKey_ok vl2)) ?_
      refine lpThen (checkArg_found_raw hf hok h dl1 (publicKey_ok dl2)) (lpThen (checkArg_found_raw hf hok h vl1 (publicKey_ok vl2)) ?_)
      refine lpThen (checkArg_found_raw hf hok h am1 (u512_ok am2)) (getThen ?_)
      dsimp only
      rw [if_neg (by exact hsp)]
      have hc := hd.count
      rw [cut_length] at hc
      by_cases h7 : op = 7
      · obtain ⟨nv, nv1, nv2⟩ := hd.new (by simpa using h7)
        rw [if_pos (by simpa using h7)]
        refine lpThen (checkArg_found_raw hf hok h (argNamed_front_cut nv1) (publicKey_ok nv2)) ?_
        rw [hc, if_pos (by simpa using h7)]; rfl
      · rw [if_neg (by simpa using h7), hc, if_neg (by simpa using h7)]; rfl
    rw [attempt_run, this]
  · unfold finishDelegation
    refine modThen ?_
    dsimp only
    cases e.expert with
    | false =>
      rw [if_neg (by decide)]
      show Res.ok _ _ = _
      rw [if_neg (by exact hsp)]; rfl
    | true =>
      rw [if_pos (by decide)]
      show Res.ok _ _ = _
      dsimp only
      rw [if_neg (by exact hsp)]; rfl

include hf hok hau hop hd hnv in
/-- Such a session is read, and shown as a delegation. -/
theorem code_session_cut (h : At e.buf off (ExecItem.moduleBytes code (front ++ rest)).encode) (hcode : e.expert = true → code.length ≤ 32)
    {lines : List (Bytes × Bytes)} (hl : List.Forall₂ (ArgLine.Shows e.blake (cut front)) (opLines e.expert (cut front) op) lines) :
    SessionAt e off (.moduleBytes code (front ++ rest)) 0 (codeView e.expert op code front rest off) (codeLines e.blake e.expert code ++ lines) := by
  have h1 := (At.cons.1 h).2
  have h3 := h1.pfx.2
  unfold encodeRuntimeArgs at h3
  rw [At.append] at h3
  have hl3 := h3.2.le
  have hcnt := encodeArgs_count (front ++ rest)
  have hf' := hf
  unfold Fits at hf'
  rw [le_length] at h3 hl3
  have hop3 : op = 5 ∨ op = 6 ∨ op = 7 := by omega
  have hal := hl.length_eq
  have hac : front.length = if op = 7 then 4 else 3 := by
    have := hd.count
    rw [cut_length] at this
    simpa using this
  have hrl : lines.length = front.length := by
    rw [← hal, hac]
    rcases hop3 with rfl | rfl | rfl <;> rfl
  have hcl : (codeLines e.blake e.expert code).length = (codeView e.expert op code front rest off).fixed := by
    show _ = if e.expert then 2 else 0
    cases e.expert <;> rfl
  have h4 : front.length ≤ 4 := by rw [hac]; split <;> omega
  have hcl2 : (codeLines e.blake e.expert code).length ≤ 2 := by rw [hcl]; show (if e.expert then 2 else 0) ≤ 2; split <;> omega
  have hlen : (ExecItem.moduleBytes code (front ++ rest)).encode.length = 1 + (4 + code.length) + (4 + (encodeArgs (front ++ rest)).length) := by
    simp [ExecItem.encode, pfx, encodeRuntimeArgs]; omega
  refine ⟨?_, rfl, by rw [List.length_append, hcl, hrl]; rfl, by rw [List.length_append, hrl]; omega, fun i kv hi => ?_⟩
  · unfold parseDeployItem
    refine modThen (getThen ?_)
    dsimp only
    rw [if_pos (by rfl)]
    unfold parseModuleBytes
    refine getThen (lpThen (parseItem_at hf h1) (lpThen (readLE_at h3.1 (show (front ++ rest).length < 256 ^ 4 by omega)) ?_))
    dsimp only
    rw [if_neg (by decide)]
    refine seqThen (codeDelegation_at_cut hf hok hau hop hd hnv h3.2 rfl rfl rfl rfl) ?_
    unfold finishItem
    refine lpThen (parseArgs_at hf hok h3.2) ?_
    refine lpThen (a := (ExecItem.moduleBytes code (front ++ rest)).encode.length) (o := off + (ExecItem.moduleBytes code (front ++ rest)).encode.length) ?_ ?_
    · dsimp only
      unfold totalLength
      refine getThen ?_
      rw [if_pos (by omega), hlen]
      show Res.ok _ _ = _
      congr 1 <;> omega
    · rfl
  · unfold sessionLine
    have hsp' : (codeView e.expert op code front rest off).special = op - 2 := rfl
    rw [hsp', if_neg (by show ¬ op - 2 = 2; omega), if_pos (by show op - 2 = 3 ∨ op - 2 = 4 ∨ op - 2 = 5 ∨ op - 2 = 0; omega)]
    unfold itemDelegation
    refine exThen (skip_run (by omega)) ?_
    by_cases hlt : i < (codeView e.expert op code front rest off).fixed
    · rw [if_pos hlt]
      rw [List.getElem?_append_left (by omega)] at hi
      cases hx : e.expert with
      | false => rw [hx] at hi; simp [codeLines] at hi
      | true =>
        have hc32 := hcode hx
        unfold fixedDelegation
        rw [if_pos (by rfl), if_pos (Or.inr hx)]
        rw [hx] at hi hlt
        match i, hlt with
        | 0, _ => rw [if_pos rfl]; cases hi; exact ⟨_, rfl⟩
        | 1, _ =>
          rw [if_neg (by decide), if_pos rfl]
          cases hi
          unfold contractHash
          refine exThen (readU32_at (v := code.length) (xs := code ++ encodeRuntimeArgs (front ++ rest)) (by rw [← List.append_assoc]; exact h1) (by omega)) ?_
          refine exThen (get_run _) ?_
          rw [if_neg (by omega)]
          refine exThen (slice_at h1.pfx.1 rfl) ⟨off + 1 + 4, ?_⟩
          rw [C20_checksum_hex]; rfl
    · rw [if_neg hlt]
      rw [List.getElem?_append_right (by omega), hcl] at hi
      have hilt := (List.getElem?_eq_some_iff.1 hi).1
      rw [hrl] at hilt
      have hio : (codeView e.expert op code front rest off).itemOffset = off + 1 + 4 + code.length + 4 := rfl
      have hrt : (codeView e.expert op code front rest off).runtime = front.length := rfl
      refine exThen (a := ()) (t := off + 1 + 4 + code.length + 4) (by
        show Res.ok () (u16 _) = _
        rw [hio, u16_id (by omega)]) ?_
      rw [hrt, if_neg (by omega), if_neg (by show ¬ (0 : Nat) ≠ 0; decide)]
      refine exThen (a := ()) (t := off + 1 + 4 + code.length + 4) (by rw [if_neg (by intro h; exact h rfl)]; rfl) ?_
      generalize hj : i - (codeView e.expert op code front rest off).fixed = j at hi hilt ⊢
      obtain ⟨l, hx, hsh⟩ := forall₂_get hl hi
      have hfr := h3.2
      rw [encodeArgs_append, At.append] at hfr
      have key := showLine_at_raw hf (fun a ha => hok a (by simp [ha])) hsh hfr.1
      rw [hac] at hilt
      rcases hop3 with rfl | rfl | rfl
      · simp only [hsp', show ¬ (5 : Nat) - 2 = spReDelegate by decide, if_false]
        match j, hilt with
        | 0, _ => cases hx; exact key
        | 1, _ => cases hx; exact key
        | 2, _ => cases hx; exact key
      · simp only [hsp', show ¬ (6 : Nat) - 2 = spReDelegate by decide, if_false]
        match j, hilt with
        | 0, _ => cases hx; exact key
        | 1, _ => cases hx; exact key
        | 2, _ => cases hx; exact key
      · simp only [hsp', show (7 : Nat) - 2 = spReDelegate by decide, if_true]
        match j, hilt with
        | 0, _ => cases hx; exact key
        | 1, _ => cases hx; exact key
        | 2, _ => cases hx; exact key
        | 3, _ => cases hx; exact key

end

/-- **C74, delegations and their revocation, all names of arguments** (as in `C74_delegation_partial`; arguments are found by their names up to a zero byte). Any chunking of a well-formed Deploy that runs code with a delegator, a validator and an amount, in any
order, followed by other arguments among which "auction" is the text "delegate" or "undelegate", is acknowledged and opens a review; the review consists
of exactly the specified lines: the name of the operation, the delegator, the validator and the amount (in expert mode also the hash of the code); and
approving signs the Deploy's hash.  Missing: the arguments of the operation need not come first (see `C74_order_false`); code of more than 32 bytes in expert
mode (see `C40_code_false`). -/
theorem C74_delegation_cut_partial (pl : Platform) (hcap : pl.cap ≤ 16384) (d : Dev) (hd : d.Ok pl) (path : Bytes)
    (hlen : path.length = 20) (hpath : casperPath path) (x : DeploySpec) (pcode : Bytes) (fk fee : Nat) (hx : x.Usual pcode fk fee)
    (code : Bytes) (un : Bool) (front rest : List Arg) (hses : x.session = .moduleBytes code (front ++ rest))
    (hcode : d.expert = true → code.length ≤ 32) (hok : ∀ a ∈ front ++ rest, a.Ok)
    (hau : argNamed (cut rest) b!"auction" = some ⟨b!"auction", pfx (if un then b!"undelegate" else b!"delegate"), .string⟩)
    (hnv : ∀ a ∈ cut rest, a.name ≠ b!"new_validator")
    (delegator validator : PubKey) (hdk : delegator.Ok) (hvk : validator.Ok) (k n : Nat) (hk : k ≤ 64) (hkn : n < 256 ^ k)
    (hperm : (cut front).Perm [⟨b!"delegator", delegator.encode, .publicKey⟩, ⟨b!"validator", validator.encode, .publicKey⟩,
      ⟨b!"amount", UInt8.ofNat k :: le k n, .u512⟩])
    (ap : List Bytes) (hap : ap.length < 2 ^ 32) (cs : List Bytes) (last : Bytes)
    (hcs : cs.flatten ++ last = 0 :: x.tx pl.blake ap) (hfit : (cs.flatten ++ last).length ≤ pl.cap)
    (time : Bytes) (hxo : d.expert = true → x.ExpertOk pl.fmtTime time) :
    ∃ d' ttl, (d.expert = true → duration ttl = x.ttl / 1000) ∧
      run pl d (upload 2 path cs last) = (d', List.replicate (cs.length + 1) (.reply [] 0x9000) ++ [.pending]) ∧
      Displays pl d' (x.screens pl.blake d.expert ap.length (if un then b!"Undelegate" else b!"Delegate") time ttl (motesOf fee)
        ((if d.expert then [(b!"Execution", b!"contract"), (b!"Cntrct hash", checksumHex pl.blake (pl.blake code))] else []) ++
          [(b!"Delegator", delegator.address pl.blake), (b!"Validator", validator.address pl.blake), (b!"Amount", motesOf n)])) ∧
      (step pl d' .approve).2 = signatureReply pl path (pl.sha256 (pl.blake (x.header pl.blake).encode)) := by
  have hnd : ((cut front).map Arg.name).Nodup := (hperm.map _).nodup_iff.2 (by show [b!"delegator", b!"validator", b!"amount"].Nodup; decide)
  have hmem : ∀ a, a ∈ cut front ↔ _ := fun a => hperm.mem_iff
  have f1 := argNamed_mem hnd ((hmem ⟨b!"delegator", delegator.encode, .publicKey⟩).2 (by simp))
  have f2 := argNamed_mem hnd ((hmem ⟨b!"validator", validator.encode, .publicKey⟩).2 (by simp))
  have f3 := argNamed_mem hnd ((hmem ⟨b!"amount", UInt8.ofNat k :: le k n, .u512⟩).2 (by simp))
  have hl := deploy_layout (H := pl.blake) (d := x) (ap := ap) (rest := []) (List.append_nil _).symm
  have hfits : Fits (deployEnv pl d.expert x ap) := by
    rw [hcs] at hfit
    unfold Fits; simp only [List.length_cons] at hfit; show (x.tx pl.blake ap).length ≤ 65535; omega
  have hat := hl.session
  rw [hses] at hat
  have hfr : ∀ a ∈ cut front, a.Ok ∧ (0 : UInt8) ∉ a.name ∧ a.name ≠ b!"auction" ∧ a.name ≠ b!"new_validator" := by
    intro a ha
    rw [hmem] at ha
    simp only [List.mem_cons, List.not_mem_nil, or_false] at ha
    rcases ha with rfl | rfl | rfl
    · exact ⟨⟨show 9 ≤ 300 by decide, rfl, rfl⟩, show (0 : UInt8) ∉ b!"delegator" by decide, show b!"delegator" ≠ _ by decide, show b!"delegator" ≠ _ by decide⟩
    · exact ⟨⟨show 9 ≤ 300 by decide, rfl, rfl⟩, show (0 : UInt8) ∉ b!"validator" by decide, show b!"validator" ≠ _ by decide, show b!"validator" ≠ _ by decide⟩
    · exact ⟨⟨show 6 ≤ 300 by decide, rfl, rfl⟩, show (0 : UInt8) ∉ b!"amount" by decide, show b!"amount" ≠ _ by decide, show b!"amount" ≠ _ by decide⟩
  have hda : DelegateArgs (decide ((if un then 6 else 5) = 7)) (cut front) := by
    rw [show decide ((if un then 6 else 5) = 7) = false by cases un <;> rfl]
    exact ⟨⟨_, f3, rfl⟩, ⟨_, f1, rfl⟩, ⟨_, f2, rfl⟩, by simp, by rw [hperm.length_eq]; rfl⟩
  have s1 : ArgLine.Shows pl.blake (cut front) ⟨b!"Delegator", b!"delegator", false⟩ (b!"Delegator", delegator.address pl.blake) := .value rfl f1 (PubKey.shown _ hdk)
  have s2 : ArgLine.Shows pl.blake (cut front) ⟨b!"Validator", b!"validator", false⟩ (b!"Validator", validator.address pl.blake) := .value rfl f2 (PubKey.shown _ hvk)
  have s3 : ArgLine.Shows pl.blake (cut front) ⟨b!"Amount", b!"amount", true⟩ (b!"Amount", motesOf n) := .motes rfl f3 rfl (.u512 k n hk hkn)
  have key := code_session_cut (e := deployEnv pl d.expert x ap) (off := x.sessionPos pl.blake) (op := if un then 6 else 5) hfits
    hok
    (by rw [cut_append, argNamed_rest fun a ha => (hfr a ha).2.2.1]; exact hau)
    (by cases un <;> simp) hda
    (fun _ => by rw [cut_append]; exact argNamed_none fun a ha => (List.mem_append.1 ha).elim (fun h => (hfr a h).2.2.2) (hnv a)) hat hcode
    (lines := [(b!"Delegator", delegator.address pl.blake), (b!"Validator", validator.address pl.blake), (b!"Amount", motesOf n)])
    (by cases un <;> exact .cons s1 (.cons s2 (.cons s3 .nil)))
  rw [← hses] at key
  refine deploy_upload pl hcap d hd path hlen hpath x pcode fk fee hx ap hap cs last hcs hfit key ?_ time hxo
  cases un <;> rfl

/-- **C74, redelegations, all names of arguments.** The same where "auction" is the text "redelegate" and there is a new validator besides. -/
theorem C74_redelegation_cut_partial (pl : Platform) (hcap : pl.cap ≤ 16384) (d : Dev) (hd : d.Ok pl) (path : Bytes)
    (hlen : path.length = 20) (hpath : casperPath path) (x : DeploySpec) (pcode : Bytes) (fk fee : Nat) (hx : x.Usual pcode fk fee)
    (code : Bytes) (front rest : List Arg) (hses : x.session = .moduleBytes code (front ++ rest))
    (hcode : d.expert = true → code.length ≤ 32) (hok : ∀ a ∈ front ++ rest, a.Ok)
    (hau : argNamed (cut rest) b!"auction" = some ⟨b!"auction", pfx b!"redelegate", .string⟩)
    (delegator validator new : PubKey) (hdk : delegator.Ok) (hvk : validator.Ok) (hnk : new.Ok) (k n : Nat) (hk : k ≤ 64) (hkn : n < 256 ^ k)
    (hperm : (cut front).Perm [⟨b!"delegator", delegator.encode, .publicKey⟩, ⟨b!"validator", validator.encode, .publicKey⟩,
      ⟨b!"new_validator", new.encode, .publicKey⟩, ⟨b!"amount", UInt8.ofNat k :: le k n, .u512⟩])
    (ap : List Bytes) (hap : ap.length < 2 ^ 32) (cs : List Bytes) (last : Bytes)
    (hcs : cs.flatten ++ last = 0 :: x.tx pl.blake ap) (hfit : (cs.flatten ++ last).length ≤ pl.cap)
    (time : Bytes) (hxo : d.expert = true → x.ExpertOk pl.fmtTime time) :
    ∃ d' ttl, (d.expert = true → duration ttl = x.ttl / 1000) ∧
      run pl d (upload 2 path cs last) = (d', List.replicate (cs.length + 1) (.reply [] 0x9000) ++ [.pending]) ∧
      Displays pl d' (x.screens pl.blake d.expert ap.length b!"Redelegate" time ttl (motesOf fee)
        ((if d.expert then [(b!"Execution", b!"contract"), (b!"Cntrct hash", checksumHex pl.blake (pl.blake code))] else []) ++
          [(b!"Delegator", delegator.address pl.blake), (b!"Old", validator.address pl.blake), (b!"New", new.address pl.blake),
            (b!"Amount", motesOf n)])) ∧
      (step pl d' .approve).2 = signatureReply pl path (pl.sha256 (pl.blake (x.header pl.blake).encode)) := by
  have hnd : ((cut front).map Arg.name).Nodup := (hperm.map _).nodup_iff.2 (by show [b!"delegator", b!"validator", b!"new_validator", b!"amount"].Nodup; decide)
  have hmem : ∀ a, a ∈ cut front ↔ _ := fun a => hperm.mem_iff
  have f1 := argNamed_mem hnd ((hmem ⟨b!"delegator", delegator.encode, .publicKey⟩).2 (by simp))
  have f2 := argNamed_mem hnd ((hmem ⟨b!"validator", validator.encode, .publicKey⟩).2 (by simp))
  have f3 := argNamed_mem hnd ((hmem ⟨b!"amount", UInt8.ofNat k :: le k n, .u512⟩).2 (by simp))
  have f4 := argNamed_mem hnd ((hmem ⟨b!"new_validator", new.encode, .publicKey⟩).2 (by simp))
  have hl := deploy_layout (H := pl.blake) (d := x) (ap := ap) (rest := []) (List.append_nil _).symm
  have hfits : Fits (deployEnv pl d.expert x ap) := by
    rw [hcs] at hfit
    unfold Fits; simp only [List.length_cons] at hfit; show (x.tx pl.blake ap).length ≤ 65535; omega
  have hat := hl.session
  rw [hses] at hat
  have hfr : ∀ a ∈ cut front, a.Ok ∧ (0 : UInt8) ∉ a.name ∧ a.name ≠ b!"auction" := by
    intro a ha
    rw [hmem] at ha
    simp only [List.mem_cons, List.not_mem_nil, or_false] at ha
    rcases ha with rfl | rfl | rfl | rfl
    · exact ⟨⟨show 9 ≤ 300 by decide, rfl, rfl⟩, show (0 : UInt8) ∉ b!"delegator" by decide, show b!"delegator" ≠ _ by decide⟩
    · exact ⟨⟨show 9 ≤ 300 by decide, rfl, rfl⟩, show (0 : UInt8) ∉ b!"validator" by decide, show b!"validator" ≠ _ by decide⟩
    · exact ⟨⟨show 13 ≤ 300 by decide, rfl, rfl⟩, show (0 : UInt8) ∉ b!"new_validator" by decide, show b!"new_validator" ≠ _ by decide⟩
    · exact ⟨⟨show 6 ≤ 300 by decide, rfl, rfl⟩, show (0 : UInt8) ∉ b!"amount" by decide, show b!"amount" ≠ _ by decide⟩
  have hda : DelegateArgs (decide (7 = 7)) (cut front) :=
    ⟨⟨_, f3, rfl⟩, ⟨_, f1, rfl⟩, ⟨_, f2, rfl⟩, fun _ => ⟨_, f4, rfl⟩, by rw [hperm.length_eq]; rfl⟩
  have s1 : ArgLine.Shows pl.blake (cut front) ⟨b!"Delegator", b!"delegator", false⟩ (b!"Delegator", delegator.address pl.blake) := .value rfl f1 (PubKey.shown _ hdk)
  have s2 : ArgLine.Shows pl.blake (cut front) ⟨b!"Old", b!"validator", false⟩ (b!"Old", validator.address pl.blake) := .value rfl f2 (PubKey.shown _ hvk)
  have s4 : ArgLine.Shows pl.blake (cut front) ⟨b!"New", b!"new_validator", false⟩ (b!"New", new.address pl.blake) := .value rfl f4 (PubKey.shown _ hnk)
  have s3 : ArgLine.Shows pl.blake (cut front) ⟨b!"Amount", b!"amount", true⟩ (b!"Amount", motesOf n) := .motes rfl f3 rfl (.u512 k n hk hkn)
  have key := code_session_cut (e := deployEnv pl d.expert x ap) (off := x.sessionPos pl.blake) (op := 7) hfits
    hok
    (by rw [cut_append, argNamed_rest fun a ha => (hfr a ha).2.2]; exact hau)
    (by simp) hda (fun h => absurd rfl h) hat hcode
    (lines := [(b!"Delegator", delegator.address pl.blake), (b!"Old", validator.address pl.blake), (b!"New", new.address pl.blake), (b!"Amount", motesOf n)])
    (.cons s1 (.cons s2 (.cons s4 (.cons s3 .nil))))
  rw [← hses] at key
  exact deploy_upload pl hcap d hd path hlen hpath x pcode fk fee hx ap hap cs last hcs hfit key rfl time hxo

/-- The operands of a delegation, under names that end in a zero byte. -/
def markedOperands : List Arg := [⟨b!"delegator", sampleAccount.encode, .publicKey⟩, ⟨b!"validator", (PubKey.ed25519 (List.replicate 32 0x44)).encode, .publicKey⟩,
  ⟨b!"amount", UInt8.ofNat 5 :: le 5 500000000000, .u512⟩].map Arg.marked

/-- Any code, with arguments none of which Casper finds under the names of a delegation. -/
def sampleMarkedDisguise (code : Bytes) : DeploySpec := { sampleDeploy with
  session := .moduleBytes code (markedOperands ++ [Arg.marked ⟨b!"auction", pfx b!"delegate", .string⟩]) }

theorem sampleMarkedDisguise_usual (code : Bytes) : (sampleMarkedDisguise code).Usual [] 4 100000000 :=
  ⟨⟨rfl, sampleDeploy_usual.ok.timestamp, sampleDeploy_usual.ok.ttl, sampleDeploy_usual.ok.gasPrice, sampleDeploy_ok.deps⟩, sampleDeploy_usual.chain, sampleDeploy_usual.chain0, rfl, by decide, by decide⟩

/-- The hypotheses of `C74_delegation_cut_partial` can be met: any code is presented as a delegation, by arguments that Casper does not find. -/
example (code : Bytes) (cs : List Bytes) (last : Bytes) (hcs : cs.flatten ++ last = 0 :: (sampleMarkedDisguise code).tx Blake.H [])
    (hfit : (cs.flatten ++ last).length ≤ samplePl.cap) : ∃ d', run samplePl (Dev.init samplePl) (upload 2 (samplePath 0) cs last) =
      (d', List.replicate (cs.length + 1) (.reply [] 0x9000) ++ [.pending]) ∧
    Displays samplePl d' [(b!"Txn hash", checksumHex Blake.H (Blake.H ((sampleMarkedDisguise code).header Blake.H).encode)), (b!"Type", b!"Delegate"),
      (b!"Chain ID", b!"casper-test"), (b!"Account", b!"02" ++ checksumHex Blake.H (List.replicate 33 0xab)), (b!"Fee", motesOf 100000000),
      (b!"Delegator", b!"02" ++ checksumHex Blake.H (List.replicate 33 0xab)), (b!"Validator", b!"01" ++ checksumHex Blake.H (List.replicate 32 0x44)),
      (b!"Amount", motesOf 500000000000)] ∧
    ∀ name, name = b!"auction" ∨ name = b!"delegator" ∨ name = b!"validator" ∨ name = b!"amount" → argNamed (sampleMarkedDisguise code).session.args name = none := by
  have hrest : cut [Arg.marked ⟨b!"auction", pfx b!"delegate", .string⟩] = [⟨b!"auction", pfx b!"delegate", .string⟩] := by decide +kernel
  obtain ⟨d', ttl, -, h1, h2, -⟩ := C74_delegation_cut_partial samplePl (by decide) (Dev.init samplePl) (.init _) (samplePath 0) rfl (by decide)
    (sampleMarkedDisguise code) [] 4 100000000 (sampleMarkedDisguise_usual code) code false markedOperands [Arg.marked ⟨b!"auction", pfx b!"delegate", .string⟩] rfl
    (by intro h; cases h)
    (by
      intro a ha
      simp only [markedOperands, List.map_cons, List.map_nil, List.cons_append, List.nil_append, List.mem_cons, List.not_mem_nil, or_false] at ha
      rcases ha with rfl | rfl | rfl | rfl <;> exact ⟨by decide, by decide, by decide⟩)
    (by rw [hrest]; rfl)
    (by rw [hrest]; intro a ha; rw [List.mem_singleton] at ha; subst ha; show b!"auction" ≠ _; decide)
    sampleAccount (.ed25519 (List.replicate 32 0x44)) rfl rfl 5 500000000000 (by decide) (by decide)
    (by rw [show cut markedOperands = [⟨b!"delegator", sampleAccount.encode, .publicKey⟩, ⟨b!"validator", (PubKey.ed25519 (List.replicate 32 0x44)).encode, .publicKey⟩,
        ⟨b!"amount", UInt8.ofNat 5 :: le 5 500000000000, .u512⟩] by decide +kernel])
    [] (by decide) cs last hcs hfit [] (by intro h; cases h)
  refine ⟨d', h1, h2, ?_⟩
  show ∀ name, _ → argNamed (markedOperands ++ [Arg.marked ⟨b!"auction", pfx b!"delegate", .string⟩]) name = none
  rintro _ (rfl | rfl | rfl | rfl) <;> decide +kernel

/-- Any code, an operation and an amount of type U256 under names that end in a zero byte. -/
def sampleMarkedAnnounced (code : Bytes) : DeploySpec := { sampleDeploy with
  session := .moduleBytes code ([⟨b!"auction", pfx b!"delegate", .string⟩, ⟨b!"amount", UInt8.ofNat 2 :: le 2 1000, .u256⟩].map Arg.marked) }

/-- The hypotheses of `C74_hidden_cut_false` can be met. -/
example (code rest : Bytes) (cs : List Bytes) (last : Bytes) (hcs : cs.flatten ++ last = 0 :: ((sampleMarkedAnnounced code).signedPart Blake.H ++ rest))
    (hfit : (cs.flatten ++ last).length ≤ samplePl.cap) : ∃ d', run samplePl (Dev.init samplePl) (upload 2 (samplePath 0) cs last) =
      (d', List.replicate (cs.length + 1) (.reply [] 0x9000) ++ [.pending]) ∧
    Displays samplePl d' [(b!"Txn hash", checksumHex Blake.H (Blake.H ((sampleMarkedAnnounced code).header Blake.H).encode)), (b!"Type", b!"Delegate"),
      (b!"Chain ID", b!"casper-test"), (b!"Account", b!"02" ++ checksumHex Blake.H (List.replicate 33 0xab)), (b!"Fee", motesOf 100000000)] := by
  have hcut : cut (sampleMarkedAnnounced []).session.args = [⟨b!"auction", pfx b!"delegate", .string⟩, ⟨b!"amount", UInt8.ofNat 2 :: le 2 1000, .u256⟩] := by decide +kernel
  obtain ⟨d', h1, h2, -⟩ := C74_hidden_cut_false samplePl (by decide) (Dev.init samplePl) (.init _) rfl (samplePath 0) rfl (by decide)
    (sampleMarkedAnnounced code) [] 4 100000000
    ⟨⟨rfl, sampleDeploy_usual.ok.timestamp, sampleDeploy_usual.ok.ttl, sampleDeploy_usual.ok.gasPrice, sampleDeploy_ok.deps⟩, sampleDeploy_usual.chain, sampleDeploy_usual.chain0, rfl, by decide, by decide⟩
    code (sampleMarkedAnnounced []).session.args rfl
    (by
      intro a ha
      simp only [sampleMarkedAnnounced, ExecItem.args, List.map_cons, List.map_nil, List.mem_cons, List.not_mem_nil, or_false] at ha
      rcases ha with rfl | rfl <;> exact ⟨by decide, by decide, by decide⟩)
    b!"delegate" (by decide) (by rw [hcut]; rfl) (by rw [hcut]; exact .inl ⟨_, rfl, by decide, by decide⟩) (by rw [hcut]; intro a ha; cases ha) rest cs last hcs hfit
  exact ⟨d', h1, h2⟩

/-- The operands of a redelegation, in another order, under names that end in a zero byte. -/
def markedRedelegation : List Arg := [⟨b!"amount", UInt8.ofNat 5 :: le 5 500000000000, .u512⟩, ⟨b!"delegator", sampleAccount.encode, .publicKey⟩,
  ⟨b!"validator", (PubKey.ed25519 (List.replicate 32 0x44)).encode, .publicKey⟩, ⟨b!"new_validator", (PubKey.ed25519 (List.replicate 32 0x55)).encode, .publicKey⟩].map Arg.marked

def sampleMarkedRedelegation (code : Bytes) : DeploySpec := { sampleDeploy with
  session := .moduleBytes code (markedRedelegation ++ [Arg.marked ⟨b!"auction", pfx b!"redelegate", .string⟩]) }

/-- The hypotheses of `C74_redelegation_cut_partial` can be met. -/
example (code : Bytes) (cs : List Bytes) (last : Bytes) (hcs : cs.flatten ++ last = 0 :: (sampleMarkedRedelegation code).tx Blake.H [])
    (hfit : (cs.flatten ++ last).length ≤ samplePl.cap) : ∃ d', run samplePl (Dev.init samplePl) (upload 2 (samplePath 0) cs last) =
      (d', List.replicate (cs.length + 1) (.reply [] 0x9000) ++ [.pending]) ∧
    Displays samplePl d' [(b!"Txn hash", checksumHex Blake.H (Blake.H ((sampleMarkedRedelegation code).header Blake.H).encode)), (b!"Type", b!"Redelegate"),
      (b!"Chain ID", b!"casper-test"), (b!"Account", b!"02" ++ checksumHex Blake.H (List.replicate 33 0xab)), (b!"Fee", motesOf 100000000),
      (b!"Delegator", b!"02" ++ checksumHex Blake.H (List.replicate 33 0xab)), (b!"Old", b!"01" ++ checksumHex Blake.H (List.replicate 32 0x44)),
      (b!"New", b!"01" ++ checksumHex Blake.H (List.replicate 32 0x55)), (b!"Amount", motesOf 500000000000)] := by
  have hrest : cut [Arg.marked ⟨b!"auction", pfx b!"redelegate", .string⟩] = [⟨b!"auction", pfx b!"redelegate", .string⟩] := by decide +kernel
  obtain ⟨d', ttl, -, h1, h2, -⟩ := C74_redelegation_cut_partial samplePl (by decide) (Dev.init samplePl) (.init _) (samplePath 0) rfl (by decide)
    (sampleMarkedRedelegation code) [] 4 100000000
    ⟨⟨rfl, sampleDeploy_usual.ok.timestamp, sampleDeploy_usual.ok.ttl, sampleDeploy_usual.ok.gasPrice, sampleDeploy_ok.deps⟩, sampleDeploy_usual.chain, sampleDeploy_usual.chain0, rfl, by decide, by decide⟩
    code markedRedelegation [Arg.marked ⟨b!"auction", pfx b!"redelegate", .string⟩] rfl
    (by intro h; cases h)
    (by
      intro a ha
      simp only [markedRedelegation, List.map_cons, List.map_nil, List.cons_append, List.nil_append, List.mem_cons, List.not_mem_nil, or_false] at ha
      rcases ha with rfl | rfl | rfl | rfl | rfl <;> exact ⟨by decide, by decide, by decide⟩)
    (by rw [hrest]; rfl)
    sampleAccount (.ed25519 (List.replicate 32 0x44)) (.ed25519 (List.replicate 32 0x55)) rfl rfl rfl 5 500000000000 (by decide) (by decide)
    (by
      rw [show cut markedRedelegation = [⟨b!"amount", UInt8.ofNat 5 :: le 5 500000000000, .u512⟩, ⟨b!"delegator", sampleAccount.encode, .publicKey⟩,
        ⟨b!"validator", (PubKey.ed25519 (List.replicate 32 0x44)).encode, .publicKey⟩,
        ⟨b!"new_validator", (PubKey.ed25519 (List.replicate 32 0x55)).encode, .publicKey⟩] by decide +kernel]
      exact (List.perm_append_comm (l₁ := [_]) (l₂ := [_, _, _])))
    [] (by decide) cs last hcs hfit [] (by intro h; cases h)
  exact ⟨d', h1, h2⟩

end Casper
