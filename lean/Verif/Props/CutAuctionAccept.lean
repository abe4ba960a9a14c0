import Verif.Props.CutAuction

/-!
# Which operations announced without their operands are accepted

`C74_hidden_cut_false` says that code with a text in an argument "auction" is shown without any line if an operand has an unexpected type.  Here: such
Deploys are accepted exactly if everything outside the session can be shown, a "new_validator", if there is one, is a key, and, in expert mode, the code is
not longer than a hash.  In expert mode the review shows the code and nothing more.
-/

namespace Casper

open M

section
variable {e : Env} {as : List Arg} {entry : Bytes} (hf : Fits e) (hok : ∀ a ∈ as, a.Ok) (hl : entry.length ≤ 96)
  (hau : argNamed (cut as) b!"auction" = some ⟨b!"auction", pfx entry, .string⟩)

include hf hok hl hau in
/-- A "new_validator" that is not a key is refused. -/
theorem auctionNew_at_cut {a : Arg} (ha : argNamed (cut as) b!"new_validator" = some a) (hty : a.ty ≠ .publicKey)
    {o ep : Nat} {it : Item} (h : At e.buf o (encodeArgs as)) (ht : it.typ = 0) :
    ∃ c t, parseDelegation e as.length false ⟨o, ep, it⟩ = .err c t := by
  have h3 : ¬ isPublicKey a.ty.tag (a.ty.inner 255) = true := by
    rw [isPublicKey_iff]; exact hty
  have h4 : ∃ c t, checkArg e as.length b!"new_validator" isPublicKey o = .err c t := by
    unfold checkArg
    exact ⟨_, _, seqThen (search_found_raw hf hok h ha) (by dsimp only; rw [require_run, if_neg h3])⟩
  obtain ⟨c, t, h4⟩ := h4
  refine ⟨c, ⟨t, ep, { it with itemOffset := o, special := auctionNumber entry }⟩, ?_⟩
  unfold parseDelegation
  refine getThen ?_
  rw [if_pos (by simp [ht])]
  refine seqThen (namedAuction_at_cut hf hok hl hau h) ?_
  dsimp only
  unfold checkNewValidator
  rw [ha, if_pos (by rfl), bind_run, lp_err (s := ⟨_, _, _⟩) h4]
  rfl

end

section
variable {e : Env} {as : List Arg} {entry : Bytes} (hf : Fits e) (hok : ∀ a ∈ as, a.Ok) (hl : entry.length ≤ 96)
  (hau : argNamed (cut as) b!"auction" = some ⟨b!"auction", pfx entry, .string⟩)

/-- What the parser remembers of such a session in expert mode. -/
def expertAuction_cut (entry code : Bytes) (as : List Arg) (off : Nat) : Item :=
  { hiddenAuction_cut entry code as off with fixed := if auctionNumber entry = 0 then 3 else 2 }

/-- The lines of such a session in expert mode: a text that names no operation leaves one line of question marks. -/
def expertAuctionLines (H : Bytes → Bytes) (entry code : Bytes) : List (Bytes × Bytes) :=
  codeLines H true code ++ if auctionNumber entry = 0 then [(b!"?", b!"?")] else []

include hf hok hl hau in
theorem expertAuction_parse_cut (hx : e.expert = true) (hwa : WrongArgs (cut as))
    (hnew : ∀ a, argNamed (cut as) b!"new_validator" = some a → a.ty = .publicKey) {code : Bytes} {off : Nat}
    (h : At e.buf off (ExecItem.moduleBytes code as).encode) :
    parseDeployItem e false ⟨off + 1, 0, { typ := 0 }⟩ =
      .ok () ⟨off + (ExecItem.moduleBytes code as).encode.length, 0, expertAuction_cut entry code as off⟩ := by
  have h1 : At e.buf (off + 1) (pfx code ++ (le 4 as.length ++ encodeArgs as)) := (At.cons.1 h).2
  have h3 := h1.pfx.2
  rw [At.append, le_length] at h3
  have hl3 := h3.2.le
  have hf' := hf
  unfold Fits at hf'
  have hlen : (ExecItem.moduleBytes code as).encode.length = 1 + (4 + code.length) + (4 + (encodeArgs as).length) := by
    simp [ExecItem.encode, pfx, encodeRuntimeArgs]; omega
  rw [module_front hf h]
  refine seqThen (a := ()) (t := ⟨off + 1 + 4 + code.length + 4, 0, { expertAuction_cut entry code as off with total := 0 }⟩) ?_ ?_
  · unfold parseDelegation
    refine getThen ?_
    rw [if_pos (by rfl)]
    refine seqThen (namedAuction_at_cut hf hok hl hau h3.2) ?_
    dsimp only
    refine seqThen (a := ()) (t := ⟨off + 1 + 4 + code.length + 4, 0,
      { codeStart with itemOffset := off + 1 + 4 + code.length + 4, special := auctionNumber entry }⟩) ?_ ?_
    · unfold checkNewValidator
      cases hnv : argNamed (cut as) b!"new_validator" with
      | none => rfl
      | some a => exact lp_run (checkArg_found_raw hf hok h3.2 hnv (publicKey_ok (hnew a hnv)))
    refine seqThen (a := ()) (t := ⟨off + 1 + 4 + code.length + 4, 0,
      { codeStart with itemOffset := off + 1 + 4 + code.length + 4, special := auctionNumber entry, hasAmount := hasMotes (cut as) }⟩) ?_ ?_
    · unfold delegationLines
      refine seqThen (a := .ok ()) (t := ⟨off + 1 + 4 + code.length + 4, 0,
        { codeStart with itemOffset := off + 1 + 4 + code.length + 4, special := auctionNumber entry, hasAmount := hasMotes (cut as) }⟩) ?_ rfl
      rw [attempt_run, wrongItems_at_raw (it := { codeStart with itemOffset := off + 1 + 4 + code.length + 4, special := auctionNumber entry }) hf hok h3.2 _ hwa rfl]
    · unfold finishDelegation
      refine modThen ?_
      dsimp only
      rw [hx]
      by_cases h0 : auctionNumber entry = 0
      · simp only [h0]; unfold expertAuction_cut hiddenAuction_cut; rw [h0]; rfl
      · simp only [h0, if_false]; unfold expertAuction_cut hiddenAuction_cut; rw [if_neg h0, if_neg h0]; rfl
  unfold finishItem
  refine lpThen (parseArgs_at hf hok h3.2) ?_
  refine lpThen (a := (ExecItem.moduleBytes code as).encode.length) (o := off + (ExecItem.moduleBytes code as).encode.length) ?_ ?_
  · dsimp only
    unfold totalLength
    refine getThen ?_
    rw [if_pos (by omega), hlen]
    show Res.ok _ _ = _
    congr 1 <;> omega
  · rfl

theorem auctionNumber_kinds (entry : Bytes) : auctionNumber entry = 3 ∨ auctionNumber entry = 4 ∨ auctionNumber entry = 5 ∨ auctionNumber entry = 0 := by
  unfold auctionNumber
  split <;> [skip; split <;> [skip; split]] <;> simp

include hf hok hl hau in
/-- In expert mode it is read and shown by the code. -/
theorem expertAuction_session_cut (hx : e.expert = true) (hwa : WrongArgs (cut as))
    (hnew : ∀ a, argNamed (cut as) b!"new_validator" = some a → a.ty = .publicKey) {code : Bytes} {off : Nat} (hc : code.length ≤ 32)
    (h : At e.buf off (ExecItem.moduleBytes code as).encode) :
    SessionAt e off (.moduleBytes code as) 0 (expertAuction_cut entry code as off) (expertAuctionLines e.blake entry code) := by
  have h1 := (At.cons.1 h).2
  have hl1 := h1.le
  have hpl : (pfx code).length = 4 + code.length := by simp [pfx]
  rw [List.length_append, hpl] at hl1
  have hf' := hf
  unfold Fits at hf'
  have hcnt : (expertAuctionLines e.blake entry code).length = (expertAuction_cut entry code as off).fixed := by
    unfold expertAuctionLines expertAuction_cut
    by_cases h0 : auctionNumber entry = 0
    · rw [if_pos h0, if_pos h0]; rfl
    · rw [if_neg h0, if_neg h0]; rfl
  have h3 : (expertAuction_cut entry code as off).fixed ≤ 3 := by
    show (if auctionNumber entry = 0 then 3 else 2) ≤ 3
    split <;> omega
  refine ⟨expertAuction_parse_cut hf hok hl hau hx hwa hnew h, rfl, by rw [hcnt]; rfl, by rw [hcnt]; omega, fun i kv hi => ?_⟩
  have hlt : i < (expertAuction_cut entry code as off).fixed := by
    rw [← hcnt]; exact (List.getElem?_eq_some_iff.1 hi).1
  have hk := auctionNumber_kinds entry
  unfold sessionLine
  rw [if_neg (by show ¬ auctionNumber entry = 2; omega), if_pos (by exact hk)]
  unfold itemDelegation
  refine exThen (skip_run (by omega)) ?_
  rw [if_pos hlt]
  unfold fixedDelegation
  rw [if_pos (by rfl), if_pos (Or.inr hx)]
  match i, hlt with
  | 0, _ => rw [if_pos rfl]; cases hi; exact ⟨_, rfl⟩
  | 1, _ =>
    rw [if_neg (by decide), if_pos rfl]
    cases hi
    unfold contractHash
    refine exThen (readU32_at (v := code.length) (xs := code ++ encodeRuntimeArgs as) (by rw [← List.append_assoc]; exact h1) (by omega)) ?_
    refine exThen (get_run _) ?_
    rw [if_neg (by omega)]
    refine exThen (slice_at h1.pfx.1 rfl) ⟨off + 1 + 4, ?_⟩
    rw [C20_checksum_hex]; rfl
  | 2, hlt =>
    have h0 : auctionNumber entry = 0 := by
      by_contra h0
      have : 2 < (if auctionNumber entry = 0 then 3 else 2) := hlt
      rw [if_neg h0] at this
      omega
    rw [if_neg (by decide), if_neg (by decide)]
    unfold expertAuctionLines at hi
    rw [if_pos h0] at hi
    cases hi
    exact exThen (parseItem_at hf h1) ⟨_, rfl⟩
  | i + 3, hlt => omega

include hf in
/-- Longer code overruns the buffer of the second line. -/
theorem expertAuction_line_cut (hx : e.expert = true) {code : Bytes} {off : Nat} (hc : 32 < code.length) (h : At e.buf off (ExecItem.moduleBytes code as).encode) :
    sessionLine e 0 (expertAuction_cut entry code as off) 1 off = .fault .oobWrite := by
  have h1 := (At.cons.1 h).2
  have hl := h1.le
  have hf' := hf
  unfold Fits at hf'
  have hpl : (pfx code).length = 4 + code.length := by simp [pfx]
  rw [List.length_append, hpl] at hl
  have hk := auctionNumber_kinds entry
  unfold sessionLine
  rw [if_neg (by show ¬ auctionNumber entry = 2; omega), if_pos (by exact hk)]
  unfold itemDelegation
  refine seqThen (skip_run (by omega)) ?_
  rw [if_pos (by show 1 < (if auctionNumber entry = 0 then 3 else 2); split <;> omega)]
  unfold fixedDelegation
  rw [if_pos (by rfl), if_pos (Or.inr hx), if_neg (by decide), if_pos rfl]
  unfold contractHash
  refine seqThen (readU32_at (v := code.length) (xs := code ++ encodeRuntimeArgs as) (by rw [← List.append_assoc]; exact h1) (by omega)) ?_
  refine getThen ?_
  rw [if_pos hc]
  rfl

end

/-- **C85, operations announced by code.** Take any well-formed Deploy that runs code, of whatever length, with a text of at most 96 bytes in an argument
"auction", and in which one of the arguments named "amount", "delegator" or "validator" has an unexpected type, followed by anything.  It is acknowledged
exactly if everything outside the session can be shown, a "new_validator", if there is one, is a key, and, in expert mode, the code has at most 32 bytes;
in every chunking and after whatever was done before.  So neither the text nor the values of the arguments matter, nor the code in normal mode. -/
theorem C85_announced_cut_partial (pl : Platform) (hcap : pl.cap ≤ 16384) (d : Dev) (hd : d.Ok pl) (path : Bytes)
    (hlen : path.length = 20) (hpath : casperPath path) (x : DeploySpec) (hx : x.Ok) (h0 : 0 ∉ x.chain) (hpay : x.payment.PaysPlainly)
    (code : Bytes) (as : List Arg) (hses : x.session = .moduleBytes code as) (hok : ∀ a ∈ as, a.Ok) (entry : Bytes) (hentry : entry.length ≤ 96)
    (hau : argNamed (cut as) b!"auction" = some ⟨b!"auction", pfx entry, .string⟩) (hm : Mistyped (cut as)) (rest : Bytes)
    (cs : List Bytes) (last : Bytes) (hcs : cs.flatten ++ last = 0 :: (x.signedPart pl.blake ++ rest)) (hfit : (cs.flatten ++ last).length ≤ pl.cap) :
    (run pl d (upload 2 path cs last)).2 = List.replicate (cs.length + 1) (.reply [] 0x9000) ++ [.pending] ↔
      (∃ fee, x.Presentable pl.fmtTime d.expert rest fee) ∧ (∀ a, argNamed (cut as) b!"new_validator" = some a → a.ty = .publicKey) ∧
      (d.expert = true → code.length ≤ 32) := by
  have hsm : Small (signedEnv pl d.expert x rest) := by
    rw [hcs] at hfit
    unfold Small; simp only [List.length_cons] at hfit; show (x.signedPart pl.blake ++ rest).length ≤ 16384; omega
  have hsok : x.session.Ok := by rw [hses]; exact module_ok hok
  have hat : At (signedEnv pl d.expert x rest).buf (x.sessionPos pl.blake) x.session.encode := (signed_layout (H := pl.blake) (d := x) (rest := rest) rfl).session
  rw [hses] at hat
  constructor
  · intro h
    obtain ⟨s, hs⟩ := (upload_deploy_iff pl (by omega) d hd path hlen hpath cs last _ hcs hfit).1 h
    obtain ⟨fee, hp⟩ := hs.presentable (x := x) (rest := rest) hsm hx h0 hpay hsok rfl
    obtain ⟨epo, q, hq⟩ := hs.session_read hsm hx hp hsok rfl
    rw [hses] at hq
    have hnew : ∀ a, argNamed (cut as) b!"new_validator" = some a → a.ty = .publicKey := by
      intro a ha
      by_contra hc
      have h1 : At (signedEnv pl d.expert x rest).buf (x.sessionPos pl.blake + 1) (pfx code ++ (le 4 as.length ++ encodeArgs as)) := (At.cons.1 hat).2
      have h3 := h1.pfx.2
      rw [At.append, le_length] at h3
      obtain ⟨c, t, hc⟩ := auctionNew_at_cut (e := signedEnv pl d.expert x rest) (ep := epo) (it := codeStart) hsm.to_fits hok hentry hau ha hc h3.2 rfl
      have hq : parseDeployItem (signedEnv pl d.expert x rest) false ⟨x.sessionPos pl.blake + 1, epo, { typ := 0 }⟩ = .ok () q := hq
      rw [module_front (e := signedEnv pl d.expert x rest) hsm.to_fits hat, bind_run, hc] at hq
      cases hq
    refine ⟨⟨fee, hp⟩, hnew, fun he => ?_⟩
    by_contra hc
    obtain ⟨pc, pk, p1, p2, p3⟩ := hp.payment
    have hpar := expertAuction_parse_cut (e := signedEnv pl d.expert x rest) (off := x.sessionPos pl.blake) hsm.to_fits hok hentry hau he hm.wrong hnew hat
    have hline := expertAuction_line_cut (e := signedEnv pl d.expert x rest) (entry := entry) (off := x.sessionPos pl.blake) hsm.to_fits he (by omega : 32 < code.length) hat
    have hrd := readDeploy_of (e := signedEnv pl d.expert x rest) (it := expertAuction_cut entry code as (x.sessionPos pl.blake)) (epo := 0) hsm hx rfl p3
      (by rw [hses]; exact hpar)
    have := hs.parse
    rw [show readDeploy (mkEnv pl d.expert (x.signedPart pl.blake ++ rest)) ⟨0, 0, {}⟩ = _ from hrd] at this
    injection this with _ hs'
    subst hs'
    have hfx : 2 ≤ (expertAuction_cut entry code as (x.sessionPos pl.blake)).fixed ∧ (expertAuction_cut entry code as (x.sessionPos pl.blake)).fixed ≤ 3 := by
      show 2 ≤ (if auctionNumber entry = 0 then 3 else 2) ∧ (if auctionNumber entry = 0 then 3 else 2) ≤ 3
      split <;> omega
    have hrt : (expertAuction_cut entry code as (x.sessionPos pl.blake)).runtime = 0 := rfl
    obtain ⟨hlt, hsl⟩ := second_line (e := signedEnv pl d.expert x rest) (it := expertAuction_cut entry code as (x.sessionPos pl.blake)) (epo := 0) (rest := rest) hsm hx rfl p3
      (by omega) (by omega)
    obtain ⟨kv, t, hi⟩ := hs.items _ hlt
    exact absurd (hi.symm.trans ((hsl _).trans hline)) (by intro h; cases h)
  · rintro ⟨hp, hnew, hc⟩
    obtain ⟨it, lines, key⟩ : ∃ it lines, SessionAt (signedEnv pl d.expert x rest) (x.sessionPos pl.blake) x.session 0 it lines := by
      rw [hses]
      cases he : d.expert with
      | false =>
        rw [he] at hat hsm
        exact ⟨_, _, hiddenAuction_session_cut (e := signedEnv pl false x rest) hsm.to_fits hok hentry hau rfl hm.wrong hnew hat⟩
      | true =>
        rw [he] at hat hsm
        exact ⟨_, _, expertAuction_session_cut (e := signedEnv pl true x rest) hsm.to_fits hok hentry hau rfl hm.wrong hnew (hc he) hat⟩
    exact (deploy_shown_iff pl hcap d hd path hlen hpath x hx h0 hpay (typeLabel (x.parsed pl.blake [] 0 0 it)) lines rest hsok
      (fun _ => ⟨0, it, key, fun _ _ _ _ => rfl⟩) cs last hcs hfit).1.2 hp

/-- **C74 fails in expert mode as well.** The Deploys of `C74_hidden_cut_false`, with code of at most 32 bytes, on a device in expert mode: the review says
"Delegate" (or whatever the text names), and neither who delegates, nor to whom, nor how much; a text that names no operation leaves a line of question marks; and
approving signs the Deploy's hash. -/
theorem C74_expert_cut_false (pl : Platform) (hcap : pl.cap ≤ 16384) (d : Dev) (hd : d.Ok pl) (hexpert : d.expert = true) (path : Bytes)
    (hlen : path.length = 20) (hpath : casperPath path) (x : DeploySpec) (pcode : Bytes) (fk fee : Nat) (hx : x.Usual pcode fk fee)
    (code : Bytes) (hc : code.length ≤ 32) (as : List Arg) (hses : x.session = .moduleBytes code as)
    (hok : ∀ a ∈ as, a.Ok) (entry : Bytes) (hentry : entry.length ≤ 96)
    (hau : argNamed (cut as) b!"auction" = some ⟨b!"auction", pfx entry, .string⟩) (hm : Mistyped (cut as))
    (hnew : ∀ a, argNamed (cut as) b!"new_validator" = some a → a.ty = .publicKey) (time : Bytes) (htime : x.ExpertOk pl.fmtTime time)
    (approvals : Nat) (hap : approvals < 2 ^ 32) (rest : Bytes) (cs : List Bytes) (last : Bytes)
    (hcs : cs.flatten ++ last = 0 :: (x.signedPart pl.blake ++ (le 4 approvals ++ rest))) (hfit : (cs.flatten ++ last).length ≤ pl.cap) :
    ∃ d' ttl, duration ttl = x.ttl / 1000 ∧
      run pl d (upload 2 path cs last) = (d', List.replicate (cs.length + 1) (.reply [] 0x9000) ++ [.pending]) ∧
      Displays pl d' (x.screens pl.blake true approvals (announced entry) time ttl (motesOf fee) (expertAuctionLines pl.blake entry code)) ∧
      (step pl d' .approve).2 = signatureReply pl path (pl.sha256 (pl.blake (x.header pl.blake).encode)) := by
  have hsm : Small (signedEnv pl d.expert x (le 4 approvals ++ rest)) := by
    rw [hcs] at hfit
    unfold Small; simp only [List.length_cons] at hfit; show (x.signedPart pl.blake ++ (le 4 approvals ++ rest)).length ≤ 16384; omega
  have hat : At (signedEnv pl d.expert x (le 4 approvals ++ rest)).buf (x.sessionPos pl.blake) x.session.encode :=
    (signed_layout (H := pl.blake) (d := x) (rest := le 4 approvals ++ rest) rfl).session
  rw [hses] at hat
  have key := expertAuction_session_cut (e := signedEnv pl d.expert x (le 4 approvals ++ rest)) (off := x.sessionPos pl.blake) hsm.to_fits hok hentry hau hexpert hm.wrong
    hnew hc hat
  rw [← hses] at key
  have hty : typeLabel (x.parsed pl.blake pcode fk fee (expertAuction_cut entry code as (x.sessionPos pl.blake))) = announced entry := by
    unfold typeLabel DeploySpec.parsed expertAuction_cut hiddenAuction_cut auctionNumber announced
    dsimp only
    by_cases h3 : entry = b!"delegate"
    · subst h3; rfl
    by_cases h4 : entry = b!"undelegate"
    · subst h4; rfl
    by_cases h5 : entry = b!"redelegate"
    · subst h5; rfl
    simp only [h3, h4, h5, if_false]
    rfl
  obtain ⟨d', ttl, r1, r2, r3, r4⟩ := signed_upload pl hcap d hd path hlen hpath x pcode fk fee hx (le 4 approvals ++ rest) approvals
    (fun _ => ⟨hap, rest, rfl⟩) cs last hcs hfit key hty time (fun _ => htime)
  rw [hexpert] at r3
  exact ⟨d', ttl, r1 hexpert, r2, r3, r4⟩

/-- The hypotheses of `C85_announced_cut_partial` can be met: any code is accepted. -/
example (code rest : Bytes) (cs : List Bytes) (last : Bytes) (hcs : cs.flatten ++ last = 0 :: ((sampleMarkedAnnounced code).signedPart Blake.H ++ rest))
    (hfit : (cs.flatten ++ last).length ≤ samplePl.cap) : (run samplePl (Dev.init samplePl) (upload 2 (samplePath 0) cs last)).2 =
      List.replicate (cs.length + 1) (.reply [] 0x9000) ++ [.pending] := by
  have hcut : cut (sampleMarkedAnnounced []).session.args = [⟨b!"auction", pfx b!"delegate", .string⟩, ⟨b!"amount", UInt8.ofNat 2 :: le 2 1000, .u256⟩] := by decide +kernel
  refine (C85_announced_cut_partial samplePl (by decide) (Dev.init samplePl) (.init _) (samplePath 0) rfl (by decide) (sampleMarkedAnnounced code)
    ⟨rfl, sampleDeploy_usual.ok.timestamp, sampleDeploy_usual.ok.ttl, sampleDeploy_usual.ok.gasPrice, sampleDeploy_ok.deps⟩ sampleDeploy_usual.chain0 samplePay_plain
    code (sampleMarkedAnnounced []).session.args rfl
    (by
      intro a ha
      simp only [sampleMarkedAnnounced, ExecItem.args, List.map_cons, List.map_nil, List.mem_cons, List.not_mem_nil, or_false] at ha
      rcases ha with rfl | rfl <;> exact ⟨by decide, by decide, by decide⟩)
    b!"delegate" (by decide) (by rw [hcut]; rfl) (by rw [hcut]; exact .inl ⟨_, rfl, by decide, by decide⟩) rest cs last hcs hfit).2
    ⟨⟨100000000, sampleDeploy_usual.chain, ⟨[], 4, by decide, by decide, rfl⟩, by simp [Dev.init], by simp [Dev.init], by simp [Dev.init]⟩, ?_, by simp [Dev.init]⟩
  rw [hcut]
  intro a ha
  cases ha

/-- The hypotheses of `C74_expert_cut_false` can be met: the operands are not shown. -/
example (cs : List Bytes) (last : Bytes) (hcs : cs.flatten ++ last = 0 :: ((sampleMarkedAnnounced (List.replicate 32 7)).signedPart Blake.H ++ (le 4 0 ++ [])))
    (hfit : (cs.flatten ++ last).length ≤ samplePl.cap) : ∃ d' ttl, run samplePl { Dev.init samplePl with expert := true } (upload 2 (samplePath 0) cs last) =
      (d', List.replicate (cs.length + 1) (.reply [] 0x9000) ++ [.pending]) ∧
    Displays samplePl d' ((sampleMarkedAnnounced (List.replicate 32 7)).screens Blake.H true 0 b!"Delegate" b!"2021-05-04 14:20:35 UTC" ttl (motesOf 100000000)
      (codeLines Blake.H true (List.replicate 32 7))) := by
  have hcut : cut (sampleMarkedAnnounced []).session.args = [⟨b!"auction", pfx b!"delegate", .string⟩, ⟨b!"amount", UInt8.ofNat 2 :: le 2 1000, .u256⟩] := by decide +kernel
  obtain ⟨d', ttl, -, h1, h2, -⟩ := C74_expert_cut_false samplePl (by decide) { Dev.init samplePl with expert := true } (Dev.Ok.init samplePl) rfl (samplePath 0) rfl (by decide)
    (sampleMarkedAnnounced (List.replicate 32 7)) [] 4 100000000
    ⟨⟨rfl, sampleDeploy_usual.ok.timestamp, sampleDeploy_usual.ok.ttl, sampleDeploy_usual.ok.gasPrice, sampleDeploy_ok.deps⟩, sampleDeploy_usual.chain, sampleDeploy_usual.chain0, rfl, by decide, by decide⟩
    (List.replicate 32 7) (by decide) (sampleMarkedAnnounced []).session.args rfl
    (by
      intro a ha
      simp only [sampleMarkedAnnounced, ExecItem.args, List.map_cons, List.map_nil, List.mem_cons, List.not_mem_nil, or_false] at ha
      rcases ha with rfl | rfl <;> exact ⟨by decide, by decide, by decide⟩)
    b!"delegate" (by decide) (by rw [hcut]; rfl) (by rw [hcut]; exact .inl ⟨_, rfl, by decide, by decide⟩) (by rw [hcut]; intro a ha; cases ha)
    b!"2021-05-04 14:20:35 UTC" ⟨rfl, by decide⟩ 0 (by decide) [] cs last hcs hfit
  exact ⟨d', ttl, h1, h2⟩

end Casper
