import Verif.Props.CutCode

/-!
# What reviews of Deploys running code show, for all argument names

Arguments are found by their names up to a zero byte; the hash is that of the arguments with their full names.
-/

namespace Casper

open M

/-- **C75, small programs, all names of arguments** (as in `C75_small_partial`; arguments are found by their names up to a zero byte). Any chunking of a well-formed Deploy that runs code of at most 32 bytes, without an argument "auction" and with at most 100 approvals,
is acknowledged and opens a review; in both modes the review shows the hash of the code, the amount if there is one, and a hash of the complete list of
arguments; and approving signs the Deploy's hash.  Missing: longer code, which is never shown (see `C75_long_false`); more than 100 approvals (see `C39_approvals_false`);
arguments with the names of those of delegations and other types (see `C75_hidden_false`). -/
theorem C75_small_cut_partial (pl : Platform) (hcap : pl.cap ≤ 16384) (d : Dev) (hd : d.Ok pl) (path : Bytes)
    (hlen : path.length = 20) (hpath : casperPath path) (x : DeploySpec) (pcode : Bytes) (fk fee : Nat) (hx : x.Usual pcode fk fee)
    (code : Bytes) (as : List Arg) (hses : x.session = .moduleBytes code as) (hcode : code.length ≤ 32)
    (hok : ∀ a ∈ as, a.Ok) (hau : ∀ a ∈ cut as, a.name ≠ b!"auction")
    (hkey : ∀ name, name = b!"delegator" ∨ name = b!"validator" ∨ name = b!"new_validator" → ∀ a, argNamed (cut as) name = some a → a.ty = .publicKey)
    (amount : List (Bytes × Bytes)) (hamount : argNamed (cut as) b!"amount" = none ∧ amount = [] ∨
      ∃ a text, argNamed (cut as) b!"amount" = some a ∧ a.ty ≠ .u64 ∧ ShownMotes a.ty a.value text ∧ amount = [(b!"Amount", text)])
    (ap : List Bytes) (hap : ∀ a ∈ ap, ApprovalOk a) (hfew : ap.length ≤ 100) (cs : List Bytes) (last : Bytes)
    (hcs : cs.flatten ++ last = 0 :: x.tx pl.blake ap) (hfit : (cs.flatten ++ last).length ≤ pl.cap)
    (time : Bytes) (hxo : d.expert = true → x.ExpertOk pl.fmtTime time) :
    ∃ d' ttl, (d.expert = true → duration ttl = x.ttl / 1000) ∧
      run pl d (upload 2 path cs last) = (d', List.replicate (cs.length + 1) (.reply [] 0x9000) ++ [.pending]) ∧
      Displays pl d' (x.screens pl.blake d.expert ap.length b!"Contract execution" time ttl (motesOf fee)
        ([(b!"Execution", b!"contract"), (b!"Cntrct hash", checksumHex pl.blake (pl.blake code))] ++ (amount ++
          [(b!"Args hash", argsHashText pl.blake as)]))) ∧
      (step pl d' .approve).2 = signatureReply pl path (pl.sha256 (pl.blake (x.header pl.blake).encode)) := by
  have hfits : Fits (deployEnv pl d.expert x ap) := by
    rw [hcs] at hfit
    unfold Fits; simp only [List.length_cons] at hfit; show (x.tx pl.blake ap).length ≤ 65535; omega
  have hat := session_behind (H := pl.blake) (x := x) (ap := ap)
  rw [hses] at hat
  have hca : CodeArgs_cut as := by
    refine ⟨hok, argNamed_none hau, fun a ha => ?_, hkey⟩
    rcases hamount with ⟨h, -⟩ | ⟨b, text, h, h2, h3, -⟩
    · rw [h] at ha; cases ha
    · rw [h] at ha; cases ha
      revert h2
      generalize a.ty = t at h3
      generalize a.value = v at h3
      cases h3 with
      | u32 => exact fun _ => .inr rfl
      | u64 => exact fun h => absurd rfl h
      | u512 => exact fun _ => .inl rfl
  have key := module_session_cut (e := deployEnv pl d.expert x ap) (off := x.sessionPos pl.blake) hfits rfl hca (approvals_behind hap hfew) hcode hat (amount := amount) (by
      rcases hamount with ⟨h, rfl⟩ | ⟨b, text, h, h2, h3, rfl⟩
      · rw [h]; exact .nil
      · rw [h]; exact .cons (.motes rfl h h3) .nil)
  rw [← hses] at key
  exact deploy_upload pl hcap d hd path hlen hpath x pcode fk fee hx ap (by omega) cs last hcs hfit key rfl time hxo

/-- **C75 fails: code can be signed unseen, all names of arguments** (as in `C75_hidden_false`; arguments are found by their names up to a zero byte, so that one
Casper would not find can hide the code). Take any well-formed Deploy that runs code, of whatever length, without an argument "auction", and in which one of the
arguments named "amount", "delegator" or "validator" has an unexpected type (a "new_validator", if there is one, being a key).  With at most 100 approvals it is
acknowledged, in every chunking and after whatever was done before; the review, in both modes, consists of the lines of the header and the fee: nothing at all is
shown of the code or its arguments, not even a hash; and approving signs the Deploy's hash. -/
theorem C75_hidden_cut_false (pl : Platform) (hcap : pl.cap ≤ 16384) (d : Dev) (hd : d.Ok pl) (path : Bytes)
    (hlen : path.length = 20) (hpath : casperPath path) (x : DeploySpec) (pcode : Bytes) (fk fee : Nat) (hx : x.Usual pcode fk fee)
    (code : Bytes) (as : List Arg) (hses : x.session = .moduleBytes code as)
    (hok : ∀ a ∈ as, a.Ok) (hau : ∀ a ∈ cut as, a.name ≠ b!"auction") (hm : Mistyped (cut as))
    (hnew : ∀ a, argNamed (cut as) b!"new_validator" = some a → a.ty = .publicKey)
    (ap : List Bytes) (hap : ∀ a ∈ ap, ApprovalOk a) (hfew : ap.length ≤ 100) (cs : List Bytes) (last : Bytes)
    (hcs : cs.flatten ++ last = 0 :: x.tx pl.blake ap) (hfit : (cs.flatten ++ last).length ≤ pl.cap)
    (time : Bytes) (hxo : d.expert = true → x.ExpertOk pl.fmtTime time) :
    ∃ d' ttl, (d.expert = true → duration ttl = x.ttl / 1000) ∧
      run pl d (upload 2 path cs last) = (d', List.replicate (cs.length + 1) (.reply [] 0x9000) ++ [.pending]) ∧
      Displays pl d' (x.screens pl.blake d.expert ap.length b!"Contract execution" time ttl (motesOf fee) []) ∧
      (step pl d' .approve).2 = signatureReply pl path (pl.sha256 (pl.blake (x.header pl.blake).encode)) := by
  have hfits : Fits (deployEnv pl d.expert x ap) := by
    rw [hcs] at hfit
    unfold Fits; simp only [List.length_cons] at hfit; show (x.tx pl.blake ap).length ≤ 65535; omega
  have hat := session_behind (H := pl.blake) (x := x) (ap := ap)
  rw [hses] at hat
  have key := hiddenCode_session_cut (e := deployEnv pl d.expert x ap) (off := x.sessionPos pl.blake) hfits hok (argNamed_none hau) rfl (approvals_behind hap hfew)
    hm.wrong hnew hat
  rw [← hses] at key
  exact deploy_upload pl hcap d hd path hlen hpath x pcode fk fee hx ap (by omega) cs last hcs hfit key rfl time hxo

/-- **C75 fails for longer programs, all names of arguments**: a well-formed Deploy that runs code of more than 32 bytes in this way never leads to a review with defined behaviour, whatever the
state of the device and however the data arrived: for the line "Cntrct hash" the whole code is copied into a buffer of 32 bytes (`parser_special.c:333-335`). -/
theorem C75_long_cut_false (pl : Platform) (hcap : pl.cap ≤ 16384) (d : Dev) (hd : d.Ok pl) (x : DeploySpec) (pcode : Bytes) (fk fee : Nat) (hx : x.Usual pcode fk fee)
    (code : Bytes) (as : List Arg) (hses : x.session = .moduleBytes code as) (hcode : 32 < code.length)
    (hok : ∀ a ∈ as, a.Ok) (hau : ∀ a ∈ cut as, a.name ≠ b!"auction")
    (hkey : ∀ name, name = b!"delegator" ∨ name = b!"validator" ∨ name = b!"new_validator" → ∀ a, argNamed (cut as) name = some a → a.ty = .publicKey)
    (hamount : ∀ a, argNamed (cut as) b!"amount" = some a → a.ty = .u512 ∨ a.ty = .u32)
    (ap : List Bytes) (hap : ∀ a ∈ ap, ApprovalOk a) (hfew : ap.length ≤ 100) (rx : Bytes) (pin : Bool) (hins : rx.getD 1 0 = 2)
    (hdata : d.data ++ rx.drop 5 = 0 :: x.tx pl.blake ap) (d' : Dev) : step pl d (.apdu rx pin) ≠ (d', .pending) := by
  intro h
  obtain ⟨hok', hdat, hcase⟩ := sign_pending (by omega) hd hins h
  rw [hdata] at hcase hdat
  rcases hcase with ⟨ys, s, h1, h2, rfl⟩ | ⟨ys, s, h1, -, -⟩
  swap
  · simp at h1
  simp only [List.cons.injEq, true_and] at h1
  subst h1
  have hsm : Small (deployEnv pl d.expert x ap) := small_data hcap hok' hdat d.expert
  have hat := session_behind (H := pl.blake) (x := x) (ap := ap)
  rw [hses] at hat
  have hca : CodeArgs_cut as := ⟨hok, argNamed_none hau, hamount, hkey⟩
  have hpar := module_parse_cut (e := deployEnv pl d.expert x ap) (off := x.sessionPos pl.blake) hsm.fits rfl hca (approvals_behind hap hfew) hat
  have hline := module_line_cut (e := deployEnv pl d.expert x ap) (off := x.sessionPos pl.blake) hsm.fits hcode (At.append.1 hat).1
  have hr := readDeploy_of (e := deployEnv pl d.expert x ap) (it := moduleView_cut code as (x.sessionPos pl.blake)) (epo := 0) hsm hx.ok rfl hx.pays
    (by rw [hses]; exact hpar)
  have := h2.parse
  rw [hr] at this
  injection this with _ hs
  subst hs
  have hrt : (moduleView_cut code as (x.sessionPos pl.blake)).runtime ≤ 2 := by
    show 1 + (if (argNamed (cut as) b!"amount").isSome then 1 else 0) ≤ 2
    split <;> omega
  have hfx : (moduleView_cut code as (x.sessionPos pl.blake)).fixed = 2 := rfl
  obtain ⟨hlt, hsl⟩ := second_line (e := deployEnv pl d.expert x ap) (it := moduleView_cut code as (x.sessionPos pl.blake)) (epo := 0) (rest := le 4 ap.length ++ ap.flatten) hsm hx.ok rfl hx.pays
    (by omega) (by omega)
  obtain ⟨kv, t, hi⟩ := h2.items _ hlt
  rw [hsl] at hi
  exact absurd (hi.symm.trans hline) (by intro h; cases h)

theorem sampleMarkedCode_usual : sampleMarkedCode.Usual [] 4 100000000 :=
  ⟨⟨rfl, sampleDeploy_usual.ok.timestamp, sampleDeploy_usual.ok.ttl, sampleDeploy_usual.ok.gasPrice, sampleDeploy_ok.deps⟩, sampleDeploy_usual.chain, sampleDeploy_usual.chain0, rfl, by decide, by decide⟩

/-- The hypotheses of `C75_small_cut_partial` can be met: an amount is shown that Casper does not find. -/
example : ∃ d', run samplePl (Dev.init samplePl) (upload 2 (samplePath 0) [] (0 :: sampleMarkedCode.tx Blake.H [sampleApproval])) = (d', [.reply [] 0x9000, .pending]) ∧
    Displays samplePl d' [(b!"Txn hash", checksumHex Blake.H (Blake.H (sampleMarkedCode.header Blake.H).encode)), (b!"Type", b!"Contract execution"),
      (b!"Chain ID", b!"casper-test"), (b!"Account", b!"02" ++ checksumHex Blake.H (List.replicate 33 0xab)), (b!"Fee", motesOf 100000000),
      (b!"Execution", b!"contract"), (b!"Cntrct hash", checksumHex Blake.H (Blake.H (List.replicate 32 7))), (b!"Amount", motesOf 1000),
      (b!"Args hash", argsHashText Blake.H sampleMarkedCode.session.args)] ∧
    argNamed sampleMarkedCode.session.args b!"amount" = none := by
  have hcut : cut sampleMarkedCode.session.args = [⟨b!"amount", UInt8.ofNat 2 :: le 2 1000, .u512⟩] := by decide +kernel
  obtain ⟨d', ttl, -, h1, h2, -⟩ := C75_small_cut_partial samplePl (by decide) (Dev.init samplePl) (.init _) (samplePath 0) rfl (by decide)
    sampleMarkedCode [] 4 100000000 sampleMarkedCode_usual (List.replicate 32 7) sampleMarkedCode.session.args rfl (by decide)
    (by
      intro a ha
      simp only [sampleMarkedCode, ExecItem.args, List.mem_cons, List.not_mem_nil, or_false] at ha
      subst ha
      exact ⟨by decide, by decide, by decide⟩)
    (by rw [hcut]; intro a ha; simp only [List.mem_cons, List.not_mem_nil, or_false] at ha; subst ha; decide)
    (by rw [hcut]; rintro _ (rfl | rfl | rfl) a ha <;> cases ha) [(b!"Amount", motesOf 1000)]
    (.inr ⟨_, _, by rw [hcut]; rfl, by decide, .u512 2 1000 (by decide) (by decide), rfl⟩)
    [sampleApproval] sampleApproval_ok (by decide) [] _ rfl (by decide +kernel) [] (by intro h; cases h)
  exact ⟨d', h1, h2, by decide +kernel⟩

/-- Any code, with an amount of type U256 called "amount" up to a zero byte. -/
def sampleMarkedUnseen (code : Bytes) : DeploySpec := { sampleDeploy with
  session := .moduleBytes code [Arg.marked ⟨b!"amount", UInt8.ofNat 2 :: le 2 1000, .u256⟩] }

theorem sampleMarkedUnseen_usual (code : Bytes) : (sampleMarkedUnseen code).Usual [] 4 100000000 :=
  ⟨⟨rfl, sampleDeploy_usual.ok.timestamp, sampleDeploy_usual.ok.ttl, sampleDeploy_usual.ok.gasPrice, sampleDeploy_ok.deps⟩, sampleDeploy_usual.chain, sampleDeploy_usual.chain0, rfl, by decide, by decide⟩

/-- The hypotheses of `C75_hidden_cut_false` can be met, for any code whatever: Casper finds no amount here. -/
example (code : Bytes) (cs : List Bytes) (last : Bytes) (hcs : cs.flatten ++ last = 0 :: (sampleMarkedUnseen code).tx Blake.H [sampleApproval])
    (hfit : (cs.flatten ++ last).length ≤ samplePl.cap) : ∃ d', run samplePl (Dev.init samplePl) (upload 2 (samplePath 0) cs last) =
      (d', List.replicate (cs.length + 1) (.reply [] 0x9000) ++ [.pending]) ∧
    Displays samplePl d' [(b!"Txn hash", checksumHex Blake.H (Blake.H ((sampleMarkedUnseen code).header Blake.H).encode)), (b!"Type", b!"Contract execution"),
      (b!"Chain ID", b!"casper-test"), (b!"Account", b!"02" ++ checksumHex Blake.H (List.replicate 33 0xab)), (b!"Fee", motesOf 100000000)] := by
  have hcut : cut (sampleMarkedUnseen []).session.args = [⟨b!"amount", UInt8.ofNat 2 :: le 2 1000, .u256⟩] := by decide +kernel
  obtain ⟨d', ttl, -, h1, h2, -⟩ := C75_hidden_cut_false samplePl (by decide) (Dev.init samplePl) (.init _) (samplePath 0) rfl (by decide)
    (sampleMarkedUnseen code) [] 4 100000000 (sampleMarkedUnseen_usual code) code (sampleMarkedUnseen []).session.args rfl
    (by
      intro a ha
      simp only [sampleMarkedUnseen, ExecItem.args, List.mem_cons, List.not_mem_nil, or_false] at ha
      subst ha
      exact ⟨by decide, by decide, by decide⟩)
    (by rw [hcut]; intro a ha; simp only [List.mem_cons, List.not_mem_nil, or_false] at ha; subst ha; decide)
    (by rw [hcut]; exact .inl ⟨_, rfl, by decide, by decide⟩) (by rw [hcut]; intro a ha; cases ha)
    [sampleApproval] sampleApproval_ok (by decide) cs last hcs hfit [] (by intro h; cases h)
  exact ⟨d', h1, h2⟩

/-- One byte more of code. -/
def sampleMarkedLong : DeploySpec := { sampleDeploy with session := .moduleBytes (List.replicate 33 7) sampleMarkedCode.session.args }

theorem sampleMarkedLong_usual : sampleMarkedLong.Usual [] 4 100000000 :=
  ⟨⟨rfl, sampleDeploy_usual.ok.timestamp, sampleDeploy_usual.ok.ttl, sampleDeploy_usual.ok.gasPrice, sampleDeploy_ok.deps⟩, sampleDeploy_usual.chain, sampleDeploy_usual.chain0, rfl, by decide, by decide⟩

/-- Those of `C75_long_cut_false` can be met. -/
example (rx : Bytes) (pin : Bool) (d' : Dev) (h1 : rx.getD 1 0 = 2)
    (h2 : rx.drop 5 = 0 :: sampleMarkedLong.tx Blake.H []) :
    step samplePl (Dev.init samplePl) (.apdu rx pin) ≠ (d', .pending) := by
  have hcut : cut sampleMarkedCode.session.args = [⟨b!"amount", UInt8.ofNat 2 :: le 2 1000, .u512⟩] := by decide +kernel
  exact C75_long_cut_false samplePl (by decide) (Dev.init samplePl) (.init _) sampleMarkedLong [] 4 100000000
    sampleMarkedLong_usual (List.replicate 33 7) sampleMarkedCode.session.args rfl (by decide)
    (by
      intro a ha
      simp only [sampleMarkedCode, ExecItem.args, List.mem_cons, List.not_mem_nil, or_false] at ha
      subst ha
      exact ⟨by decide, by decide, by decide⟩)
    (by rw [hcut]; intro a ha; simp only [List.mem_cons, List.not_mem_nil, or_false] at ha; subst ha; decide)
    (by rw [hcut]; rintro _ (rfl | rfl | rfl) a ha <;> cases ha) (by rw [hcut]; intro a ha; cases ha; exact .inl rfl) [] (by simp) (by decide) rx pin h1 h2 d'

end Casper
