import Verif.Lib.HiddenCode
import Verif.Props.CodeDelegation
import Verif.Props.AcceptDeploy
/-
Deploys that run code without naming an operation: code that is signed unseen (C75), and exactly which of them are accepted (C85).
-/
namespace Casper
open M

/-- One of the arguments with the names of those of delegations has an unexpected type. -/
def Mistyped (as : List Arg) : Prop :=
  (∃ a, argNamed as b!"amount" = some a ∧ a.ty ≠ .u512 ∧ a.ty ≠ .u32) ∨ (∃ a, argNamed as b!"delegator" = some a ∧ a.ty ≠ .publicKey) ∨
    ∃ a, argNamed as b!"validator" = some a ∧ a.ty ≠ .publicKey

/-- What follows is a number of at most 100 and of the bytes behind, which do not start with a letter: for instance, up to 100 approvals. -/
def Counted (rest : Bytes) : Prop := 4 ≤ rest.length ∧ leVal (rest.take 4) ≤ 100 ∧ 4 + leVal (rest.take 4) ≤ rest.length

theorem Mistyped.wrong {as : List Arg} (h : Mistyped as) : WrongArgs as := by
  rcases h with ⟨a, ha, ht1, ht2⟩ | hw
  · exact .inl ⟨a, ha, by rintro (h | h); exacts [ht1 h, ht2 h]⟩
  · exact .inr hw

theorem Counted.noText {rest : Bytes} (h : Counted rest) (hlet : ∀ x, rest[4]? = some x → x.toNat < 97) :
    rest = le 4 (leVal (rest.take 4)) ++ rest.drop 4 ∧ NoText (leVal (rest.take 4)) (rest.drop 4) := by
  obtain ⟨h1, h2, h3⟩ := h
  refine ⟨?_, h2, by rw [List.length_drop]; omega, fun x hx => hlet x ?_⟩
  · have := le_leVal (rest.take 4)
    rw [List.length_take, Nat.min_eq_left h1] at this
    rw [this, List.take_append_drop]
  · rw [List.head?_drop] at hx; exact hx

theorem module_ok {code : Bytes} {as : List Arg} (hok : ∀ a ∈ as, a.Ok) : (ExecItem.moduleBytes code as).Ok :=
  ⟨hok, (by rintro h (⟨n, as, hc⟩ | ⟨v, n, as, hc⟩) <;> cases hc), (by rintro v (⟨h, n, as, hc⟩ | ⟨h, n, as, hc⟩) <;> cases hc)⟩

/-- The session and what follows it. -/
theorem session_rest {H : Hash} {x : DeploySpec} {rest : Bytes} :
    x.signedPart H ++ rest = ((x.header H).encode ++ H (x.header H).encode ++ x.payment.encode) ++ (x.session.encode ++ rest) ∧
      ((x.header H).encode ++ H (x.header H).encode ++ x.payment.encode).length = x.sessionPos H := by
  constructor
  · simp [DeploySpec.signedPart, DeploySpec.body]
  · simp only [DeploySpec.sessionPos, H.len, List.length_append]

/-- **C75 fails: code can be signed unseen.** Take any well-formed Deploy that runs code, of whatever length, without an argument "auction", and in which one of the
arguments named "amount", "delegator" or "validator" has an unexpected type (a "new_validator", if there is one, being a key).  With at most 100 approvals it is
acknowledged, in every chunking and after whatever was done before; the review, in both modes, consists of the lines of the header and the fee: nothing at all is
shown of the code or its arguments, not even a hash; and approving signs the Deploy's hash. -/
theorem C75_hidden_false (pl : Platform) (hcap : pl.cap ≤ 16384) (d : Dev) (hd : d.Ok pl) (path : Bytes)
    (hlen : path.length = 20) (hpath : casperPath path) (x : DeploySpec) (pcode : Bytes) (fk fee : Nat) (hx : x.Usual pcode fk fee)
    (code : Bytes) (as : List Arg) (hses : x.session = .moduleBytes code as)
    (hok : ∀ a ∈ as, a.Ok) (hn : noNul as) (hau : ∀ a ∈ as, a.name ≠ b!"auction") (hm : Mistyped as)
    (hnew : ∀ a, argNamed as b!"new_validator" = some a → a.ty = .publicKey)
    (ap : List Bytes) (hap : ∀ a ∈ ap, ApprovalOk a) (hfew : ap.length ≤ 100) (cs : List Bytes) (last : Bytes)
    (hcs : cs.flatten ++ last = 0 :: x.tx pl.blake ap) (hfit : (cs.flatten ++ last).length ≤ pl.cap)
    (time : Bytes) (hxo : d.expert = true → x.ExpertOk pl.fmtTime time) :
    ∃ d' ttl, (d.expert = true → duration ttl = x.ttl / 1000) ∧
      run pl d (upload 2 path cs last) = (d', List.replicate (cs.length + 1) (.reply [] 0x9000) ++ [.pending]) ∧
      Displays pl d' (x.screens pl.blake d.expert ap.length b!"Contract execution" time ttl (motesOf fee) []) ∧
      (step pl d' .approve).2 = signatureReply pl path (pl.sha256 (pl.blake (x.header pl.blake).encode)) := by
  have hfits : Fits (deployEnv pl d.expert x ap) := by
    rw [hcs] at hfit
    unfold Fits; simp only [List.length_cons] at hfit; show (x.tx pl.blake ap).length ≤ 65535; omega
  have hat := session_behind (H := pl.blake) (x := x) (ap := ap)
  rw [hses] at hat
  have key := hiddenCode_session (e := deployEnv pl d.expert x ap) (off := x.sessionPos pl.blake) hfits hok hn (argNamed_none hau) rfl (approvals_behind hap hfew)
    hm.wrong hnew hat
  rw [← hses] at key
  exact deploy_upload pl hcap d hd path hlen hpath x pcode fk fee hx ap (by omega) cs last hcs hfit key rfl time hxo

/-- A Deploy that runs some code, with an amount of type U256. -/
def sampleUnseen (code : Bytes) : DeploySpec := { sampleDeploy with
  session := .moduleBytes code [⟨b!"amount", UInt8.ofNat 2 :: le 2 1000, .u256⟩] }

theorem sampleUnseen_usual (code : Bytes) : (sampleUnseen code).Usual [] 4 100000000 :=
  ⟨⟨rfl, sampleDeploy_usual.ok.timestamp, sampleDeploy_usual.ok.ttl, sampleDeploy_usual.ok.gasPrice, sampleDeploy_ok.deps⟩, sampleDeploy_usual.chain, sampleDeploy_usual.chain0, rfl, by decide, by decide⟩

theorem sampleUnseen_args (code : Bytes) : ∀ a ∈ (sampleUnseen code).session.args, a.Ok ∧ (0 : UInt8) ∉ a.name ∧ a.name ≠ b!"auction" := by
  intro a ha
  simp only [sampleUnseen, ExecItem.args, List.mem_cons, List.not_mem_nil, or_false] at ha
  subst ha
  exact ⟨⟨show 6 ≤ 300 by decide, rfl, rfl⟩, show (0 : UInt8) ∉ b!"amount" by decide, show b!"amount" ≠ _ by decide⟩

/-- The hypotheses can be met: an amount of type U256, and any code whatever. -/
example (code : Bytes) (cs : List Bytes) (last : Bytes) (hcs : cs.flatten ++ last = 0 :: (sampleUnseen code).tx Blake.H [sampleApproval])
    (hfit : (cs.flatten ++ last).length ≤ samplePl.cap) : ∃ d', run samplePl (Dev.init samplePl) (upload 2 (samplePath 0) cs last) =
      (d', List.replicate (cs.length + 1) (.reply [] 0x9000) ++ [.pending]) ∧
    Displays samplePl d' [(b!"Txn hash", checksumHex Blake.H (Blake.H ((sampleUnseen code).header Blake.H).encode)), (b!"Type", b!"Contract execution"),
      (b!"Chain ID", b!"casper-test"), (b!"Account", b!"02" ++ checksumHex Blake.H (List.replicate 33 0xab)), (b!"Fee", motesOf 100000000)] := by
  obtain ⟨d', ttl, -, h1, h2, -⟩ := C75_hidden_false samplePl (by decide) (Dev.init samplePl) (.init _) (samplePath 0) rfl (by decide)
    (sampleUnseen code) [] 4 100000000 (sampleUnseen_usual code) code (sampleUnseen []).session.args rfl
    (fun a ha => (sampleUnseen_args [] a ha).1) (fun a ha => (sampleUnseen_args [] a ha).2.1) (fun a ha => (sampleUnseen_args [] a ha).2.2)
    (.inl ⟨_, rfl, by decide, by decide⟩) (by intro a ha; cases ha) [sampleApproval] sampleApproval_ok (by decide) cs last hcs hfit [] (by intro h; cases h)
  exact ⟨d', h1, h2⟩

/-- **C85, code.** Which Deploys that run code without an argument "auction" are accepted, whatever the code and the arguments are, if what follows does not have a
letter in fifth place: those that can be presented, are followed by a number of at most 100 and of the bytes behind, have no "new_validator" other than
a key, and run code of at most 32 bytes unless an operand has an unexpected type (in which case nothing is shown of the code).
(Missing: names with zero bytes; amounts that are no numbers.) -/
theorem C85_code_partial (pl : Platform) (hcap : pl.cap ≤ 16384) (d : Dev) (hd : d.Ok pl) (path : Bytes)
    (hlen : path.length = 20) (hpath : casperPath path) (x : DeploySpec) (hx : x.Ok) (h0 : 0 ∉ x.chain) (hpay : x.payment.PaysPlainly)
    (code : Bytes) (as : List Arg) (hses : x.session = .moduleBytes code as) (hok : ∀ a ∈ as, a.Ok) (hnul : ∀ a ∈ as, (0 : UInt8) ∉ a.name)
    (hau : ∀ a ∈ as, a.name ≠ b!"auction")
    (hval : ∀ a ∈ as, a.name = b!"amount" → a.ty = .u512 ∨ a.ty = .u32 → ∃ text, ShownMotes a.ty a.value text) (rest : Bytes)
    (hlet : ∀ x, rest[4]? = some x → x.toNat < 97)
    (cs : List Bytes) (last : Bytes) (hcs : cs.flatten ++ last = 0 :: (x.signedPart pl.blake ++ rest)) (hfit : (cs.flatten ++ last).length ≤ pl.cap) :
    (run pl d (upload 2 path cs last)).2 = List.replicate (cs.length + 1) (.reply [] 0x9000) ++ [.pending] ↔
      (∃ fee, x.Presentable pl.fmtTime d.expert rest fee) ∧ Counted rest ∧ (∀ a, argNamed as b!"new_validator" = some a → a.ty = .publicKey) ∧
      (Mistyped as ∨ code.length ≤ 32) := by
  have hsm : Small (signedEnv pl d.expert x rest) := by
    rw [hcs] at hfit
    unfold Small; simp only [List.length_cons] at hfit; show (x.signedPart pl.blake ++ rest).length ≤ 16384; omega
  have hsok : x.session.Ok := by rw [hses]; exact module_ok hok
  obtain ⟨hb, hpos⟩ := session_rest (H := pl.blake) (x := x) (rest := rest)
  have hat : At (x.signedPart pl.blake ++ rest) (x.sessionPos pl.blake) (x.session.encode ++ rest) := ⟨_, [], by rw [List.append_nil]; exact hb, hpos⟩
  rw [hses] at hb hat
  have hcode : ¬ Mistyped as → (∀ a, argNamed as b!"new_validator" = some a → a.ty = .publicKey) → CodeArgs as := by
    intro hm hnew
    refine ⟨hok, hnul, argNamed_none hau, fun a ha => ?_, ?_⟩
    · by_contra hc
      exact hm (.inl ⟨a, ha, fun h => hc (.inl h), fun h => hc (.inr h)⟩)
    · rintro name (rfl | rfl | rfl) a ha
      · by_contra hc
        exact hm (.inr (.inl ⟨a, ha, hc⟩))
      · by_contra hc
        exact hm (.inr (.inr ⟨a, ha, hc⟩))
      · exact hnew a ha
  constructor
  · intro h
    obtain ⟨s, hs⟩ := (upload_deploy_iff pl (by omega) d hd path hlen hpath cs last _ hcs hfit).1 h
    obtain ⟨fee, hp⟩ := hs.presentable (x := x) (rest := rest) hsm hx h0 hpay hsok rfl
    obtain ⟨epo, q, hq⟩ := hs.session_read hsm hx hp hsok rfl
    rw [hses] at hq
    have hcnt : Counted rest := module_follows (e := signedEnv pl d.expert x rest) hsm.to_fits hok hnul (argNamed_none hau) rfl hb hpos hq
    obtain ⟨hr, hno⟩ := hcnt.noText hlet
    rw [hr] at hat
    have hnew : ∀ a, argNamed as b!"new_validator" = some a → a.ty = .publicKey := by
      intro a ha
      by_contra hc
      have h1 : At (signedEnv pl d.expert x rest).buf (x.sessionPos pl.blake + 1) (pfx code ++ (le 4 as.length ++ (encodeArgs as ++ (le 4 (leVal (rest.take 4)) ++ rest.drop 4)))) := by
        have : (ExecItem.moduleBytes code as).encode ++ (le 4 (leVal (rest.take 4)) ++ rest.drop 4) =
            0 :: (pfx code ++ (le 4 as.length ++ (encodeArgs as ++ (le 4 (leVal (rest.take 4)) ++ rest.drop 4)))) := by
          simp [ExecItem.encode, encodeRuntimeArgs]
        rw [this] at hat
        have := (At.cons.1 hat).2
        rw [← hr] at this
        rw [← hr]
        exact this
      have h3 := h1.pfx.2
      rw [At.append, le_length] at h3
      obtain ⟨c, t, hc⟩ := moduleNew_at (e := signedEnv pl d.expert x rest) (ep := epo) (it := codeStart) hsm.to_fits hok hnul (argNamed_none hau) rfl hno ha hc h3.2 (by omega) rfl
      have hq : parseDeployItem (signedEnv pl d.expert x rest) false ⟨x.sessionPos pl.blake + 1, epo, { typ := 0 }⟩ = .ok () q := hq
      have hx' : At (signedEnv pl d.expert x rest).buf (x.sessionPos pl.blake) (ExecItem.moduleBytes code as).encode := ⟨_, rest, by rw [List.append_assoc]; exact hb, hpos⟩
      rw [module_front (e := signedEnv pl d.expert x rest) hsm.to_fits hx', bind_run, hc] at hq
      cases hq
    refine ⟨⟨fee, hp⟩, hcnt, hnew, ?_⟩
    by_contra hc
    rw [not_or] at hc
    obtain ⟨hm, hlong⟩ := hc
    obtain ⟨pc, pk, p1, p2, p3⟩ := hp.payment
    have hat' : At (signedEnv pl d.expert x rest).buf (x.sessionPos pl.blake) ((ExecItem.moduleBytes code as).encode ++ (le 4 (leVal (rest.take 4)) ++ rest.drop 4)) := by
      rw [← hr]; rw [← hr] at hat; exact hat
    have hpar := module_parse (e := signedEnv pl d.expert x rest) (off := x.sessionPos pl.blake) hsm.fits rfl (hcode hm hnew) hno hat'
    have hline := module_line (e := signedEnv pl d.expert x rest) (off := x.sessionPos pl.blake) hsm.fits (by omega : 32 < code.length) (At.append.1 hat').1
    have hrd := readDeploy_of (e := signedEnv pl d.expert x rest) (it := moduleView code as (x.sessionPos pl.blake)) (epo := 0) hsm hx rfl p3
      (by rw [hses]; exact hpar)
    have := hs.parse
    rw [show readDeploy (mkEnv pl d.expert (x.signedPart pl.blake ++ rest)) ⟨0, 0, {}⟩ = _ from hrd] at this
    injection this with _ hs'
    subst hs'
    have hrt : (moduleView code as (x.sessionPos pl.blake)).runtime ≤ 2 := by
      show 1 + (if (argNamed as b!"amount").isSome then 1 else 0) ≤ 2
      split <;> omega
    have hfx : (moduleView code as (x.sessionPos pl.blake)).fixed = 2 := rfl
    obtain ⟨hlt, hsl⟩ := second_line (e := signedEnv pl d.expert x rest) (it := moduleView code as (x.sessionPos pl.blake)) (epo := 0) (rest := rest) hsm hx rfl p3
      (by omega) (by omega)
    obtain ⟨kv, t, hi⟩ := hs.items _ hlt
    exact absurd (hi.symm.trans ((hsl _).trans hline)) (by intro h; cases h)
  · rintro ⟨⟨fee, p1, ⟨pc, pk, p2, p3, p4⟩, p5, p6, p7⟩, hcnt, hnew, hor⟩
    obtain ⟨hr, hno⟩ := hcnt.noText hlet
    have hat' : At (signedEnv pl d.expert x rest).buf (x.sessionPos pl.blake) ((ExecItem.moduleBytes code as).encode ++ (le 4 (leVal (rest.take 4)) ++ rest.drop 4)) := by
      rw [← hr]; exact hat
    obtain ⟨it, lines, hse⟩ : ∃ it lines, SessionAt (signedEnv pl d.expert x rest) (x.sessionPos pl.blake) x.session 0 it lines := by
      rw [hses]
      by_cases hm : Mistyped as
      · exact ⟨_, _, hiddenCode_session (e := signedEnv pl d.expert x rest) hsm.to_fits hok hnul (argNamed_none hau) rfl hno hm.wrong hnew hat'⟩
      · have hca := hcode hm hnew
        cases ha : argNamed as b!"amount" with
        | none =>
          exact ⟨_, _, module_session (e := signedEnv pl d.expert x rest) hsm.to_fits rfl hca hno (hor.resolve_left hm) hat' (amount := []) (by rw [ha]; exact .nil)⟩
        | some a =>
          obtain ⟨a1, a2⟩ := argNamed_name ha
          obtain ⟨text, ht⟩ := hval a a1 a2 (hca.amount a ha)
          exact ⟨_, _, module_session (e := signedEnv pl d.expert x rest) hsm.to_fits rfl hca hno (hor.resolve_left hm) hat' (amount := [(b!"Amount", text)])
            (by rw [ha]; exact .cons (.motes rfl ha ht) .nil)⟩
    have htime : ∃ time, d.expert = true → x.ExpertOk pl.fmtTime time := by
      cases he : d.expert with
      | false => exact ⟨[], fun h => by cases h⟩
      | true => obtain ⟨t, ht⟩ := p5 he; exact ⟨t, fun _ => ⟨ht, p6 he⟩⟩
    obtain ⟨time, htime⟩ := htime
    obtain ⟨d', ttl, -, r2, -⟩ := signed_upload pl hcap d hd path hlen hpath x pc pk fee ⟨hx, p1, h0, p4, p2, p3⟩ rest (leVal (rest.take 4))
      (fun _ => ⟨by have := hcnt.2.1; omega, rest.drop 4, hr⟩) cs last hcs hfit hse rfl time htime
    rw [r2]

/-- Samples: 33 bytes of code are refused with an amount of type U512 and accepted with one of type U256. -/
example : Mistyped (sampleUnseen []).session.args ∧ ¬ Mistyped (sampleRun 0).session.args ∧ Counted (le 4 1 ++ sampleApproval) ∧ ¬ Counted [] := by
  refine ⟨.inl ⟨_, rfl, by decide, by decide⟩, ?_, ⟨by decide +kernel, by decide +kernel, by decide +kernel⟩, fun h => absurd h.1 (by decide)⟩
  rintro (⟨a, ha, h, -⟩ | ⟨a, ha, -⟩ | ⟨a, ha, -⟩)
  · cases ha; exact h rfl
  · cases ha
  · cases ha

end Casper
