import Verif.Lib.CodeSession
import Verif.Props.Transfers
import Verif.Props.Kinds
/-
C74, C75: code that is run, presented as a delegation and otherwise.
-/
namespace Casper
open M

theorem argNamed_rest {as bs : List Arg} {name : Bytes} (h : ∀ a ∈ as, a.name ≠ name) : argNamed (as ++ bs) name = argNamed bs name := by
  unfold argNamed
  rw [List.find?_append, List.find?_eq_none.2 (by simpa using h)]; rfl

/-- **C74, delegations and their revocation.** Any chunking of a well-formed Deploy that runs code with a delegator, a validator and an amount, in any
order, followed by other arguments among which "auction" is the text "delegate" or "undelegate", is acknowledged and opens a review; the review consists
of exactly the specified lines: the name of the operation, the delegator, the validator and the amount (in expert mode also the hash of the code); and
approving signs the Deploy's hash.  Missing: the arguments of the operation need not come first (see `C74_order_false`); code of more than 32 bytes in expert
mode (see `C40_code_false`). -/
theorem C74_delegation_partial (pl : Platform) (hcap : pl.cap ≤ 16384) (d : Dev) (hd : d.Ok pl) (path : Bytes)
    (hlen : path.length = 20) (hpath : casperPath path) (x : DeploySpec) (pcode : Bytes) (fk fee : Nat) (hx : x.Usual pcode fk fee)
    (code : Bytes) (un : Bool) (front rest : List Arg) (hses : x.session = .moduleBytes code (front ++ rest))
    (hcode : d.expert = true → code.length ≤ 32) (hok : ∀ a ∈ rest, a.Ok) (hn : noNul rest)
    (hau : argNamed rest b!"auction" = some ⟨b!"auction", pfx (if un then b!"undelegate" else b!"delegate"), .string⟩)
    (hnv : ∀ a ∈ rest, a.name ≠ b!"new_validator")
    (delegator validator : PubKey) (hdk : delegator.Ok) (hvk : validator.Ok) (k n : Nat) (hk : k ≤ 64) (hkn : n < 256 ^ k)
    (hperm : front.Perm [⟨b!"delegator", delegator.encode, .publicKey⟩, ⟨b!"validator", validator.encode, .publicKey⟩,
      ⟨b!"amount", UInt8.ofNat k :: le k n, .u512⟩])
    (ap : List Bytes) (hap : ap.length < 2 ^ 32) (cs : List Bytes) (last : Bytes)
    (hcs : cs.flatten ++ last = 0 :: x.tx pl.blake ap) (hfit : (cs.flatten ++ last).length ≤ pl.cap)
    (time : Bytes) (hxo : d.expert = true → x.ExpertOk pl.fmtTime time) :
    ∃ d' ttl, (d.expert = true → duration ttl = x.ttl / 1000) ∧
      run pl d (upload 2 path cs last) = (d', List.replicate (cs.length + 1) (.reply [] 0x9000) ++ [.pending]) ∧
      Displays pl d' (x.screens pl.blake d.expert ap.length (if un then b!"Undelegate" else b!"Delegate") time ttl (motesOf fee)
        ((if d.expert then [(b!"Execution", b!"contract"), (b!"Cntrct hash", checksumHex pl.blake (pl.blake code))] else []) ++
          [(b!"Delegator", delegator.address pl.blake), (b!"Validator", validator.address pl.blake), (b!"Amount", motesOf n)])) ∧
      (step pl d' .approve).2 = signatureReply pl path (pl.sha256 (pl.blake (x.header pl.blake).encode)) := by
  have hnd : (front.map Arg.name).Nodup := (hperm.map _).nodup_iff.2 (by show [b!"delegator", b!"validator", b!"amount"].Nodup; decide)
  have hmem : ∀ a, a ∈ front ↔ _ := fun a => hperm.mem_iff
  have f1 := argNamed_mem hnd ((hmem ⟨b!"delegator", delegator.encode, .publicKey⟩).2 (by simp))
  have f2 := argNamed_mem hnd ((hmem ⟨b!"validator", validator.encode, .publicKey⟩).2 (by simp))
  have f3 := argNamed_mem hnd ((hmem ⟨b!"amount", UInt8.ofNat k :: le k n, .u512⟩).2 (by simp))
  have hl := deploy_layout (H := pl.blake) (d := x) (ap := ap) (rest := []) (List.append_nil _).symm
  have hfits : Fits (deployEnv pl d.expert x ap) := by
    rw [hcs] at hfit
    unfold Fits; simp only [List.length_cons] at hfit; show (x.tx pl.blake ap).length ≤ 65535; omega
  have hat := hl.session
  rw [hses] at hat
  have hfr : ∀ a ∈ front, a.Ok ∧ (0 : UInt8) ∉ a.name ∧ a.name ≠ b!"auction" ∧ a.name ≠ b!"new_validator" := by
    intro a ha
    rw [hmem] at ha
    simp only [List.mem_cons, List.not_mem_nil, or_false] at ha
    rcases ha with rfl | rfl | rfl
    · exact ⟨⟨show 9 ≤ 300 by decide, rfl, rfl⟩, show (0 : UInt8) ∉ b!"delegator" by decide, show b!"delegator" ≠ _ by decide, show b!"delegator" ≠ _ by decide⟩
    · exact ⟨⟨show 9 ≤ 300 by decide, rfl, rfl⟩, show (0 : UInt8) ∉ b!"validator" by decide, show b!"validator" ≠ _ by decide, show b!"validator" ≠ _ by decide⟩
    · exact ⟨⟨show 6 ≤ 300 by decide, rfl, rfl⟩, show (0 : UInt8) ∉ b!"amount" by decide, show b!"amount" ≠ _ by decide, show b!"amount" ≠ _ by decide⟩
  have hda : DelegateArgs (decide ((if un then 6 else 5) = 7)) front := by
    rw [show decide ((if un then 6 else 5) = 7) = false by cases un <;> rfl]
    exact ⟨⟨_, f3, rfl⟩, ⟨_, f1, rfl⟩, ⟨_, f2, rfl⟩, by simp, by rw [hperm.length_eq]; rfl⟩
  have s1 : ArgLine.Shows pl.blake front ⟨b!"Delegator", b!"delegator", false⟩ (b!"Delegator", delegator.address pl.blake) := .value rfl f1 (PubKey.shown _ hdk)
  have s2 : ArgLine.Shows pl.blake front ⟨b!"Validator", b!"validator", false⟩ (b!"Validator", validator.address pl.blake) := .value rfl f2 (PubKey.shown _ hvk)
  have s3 : ArgLine.Shows pl.blake front ⟨b!"Amount", b!"amount", true⟩ (b!"Amount", motesOf n) := .motes rfl f3 rfl (.u512 k n hk hkn)
  have key := code_session (e := deployEnv pl d.expert x ap) (off := x.sessionPos pl.blake) (op := if un then 6 else 5) hfits
    (fun a ha => (List.mem_append.1 ha).elim (fun h => (hfr a h).1) (hok a))
    (fun a ha => (List.mem_append.1 ha).elim (fun h => (hfr a h).2.1) (hn a))
    (by rw [argNamed_rest fun a ha => (hfr a ha).2.2.1]; exact hau)
    (by cases un <;> simp) hda
    (fun _ => argNamed_none fun a ha => (List.mem_append.1 ha).elim (fun h => (hfr a h).2.2.2) (hnv a)) hat hcode
    (lines := [(b!"Delegator", delegator.address pl.blake), (b!"Validator", validator.address pl.blake), (b!"Amount", motesOf n)])
    (by cases un <;> exact .cons s1 (.cons s2 (.cons s3 .nil)))
  rw [← hses] at key
  refine deploy_upload pl hcap d hd path hlen hpath x pcode fk fee hx ap hap cs last hcs hfit key ?_ time hxo
  cases un <;> rfl

/-- **C74, redelegations.** The same where "auction" is the text "redelegate" and there is a new validator besides. -/
theorem C74_redelegation_partial (pl : Platform) (hcap : pl.cap ≤ 16384) (d : Dev) (hd : d.Ok pl) (path : Bytes)
    (hlen : path.length = 20) (hpath : casperPath path) (x : DeploySpec) (pcode : Bytes) (fk fee : Nat) (hx : x.Usual pcode fk fee)
    (code : Bytes) (front rest : List Arg) (hses : x.session = .moduleBytes code (front ++ rest))
    (hcode : d.expert = true → code.length ≤ 32) (hok : ∀ a ∈ rest, a.Ok) (hn : noNul rest)
    (hau : argNamed rest b!"auction" = some ⟨b!"auction", pfx b!"redelegate", .string⟩)
    (delegator validator new : PubKey) (hdk : delegator.Ok) (hvk : validator.Ok) (hnk : new.Ok) (k n : Nat) (hk : k ≤ 64) (hkn : n < 256 ^ k)
    (hperm : front.Perm [⟨b!"delegator", delegator.encode, .publicKey⟩, ⟨b!"validator", validator.encode, .publicKey⟩,
      ⟨b!"new_validator", new.encode, .publicKey⟩, ⟨b!"amount", UInt8.ofNat k :: le k n, .u512⟩])
    (ap : List Bytes) (hap : ap.length < 2 ^ 32) (cs : List Bytes) (last : Bytes)
    (hcs : cs.flatten ++ last = 0 :: x.tx pl.blake ap) (hfit : (cs.flatten ++ last).length ≤ pl.cap)
    (time : Bytes) (hxo : d.expert = true → x.ExpertOk pl.fmtTime time) :
    ∃ d' ttl, (d.expert = true → duration ttl = x.ttl / 1000) ∧
      run pl d (upload 2 path cs last) = (d', List.replicate (cs.length + 1) (.reply [] 0x9000) ++ [.pending]) ∧
      Displays pl d' (x.screens pl.blake d.expert ap.length b!"Redelegate" time ttl (motesOf fee)
        ((if d.expert then [(b!"Execution", b!"contract"), (b!"Cntrct hash", checksumHex pl.blake (pl.blake code))] else []) ++
          [(b!"Delegator", delegator.address pl.blake), (b!"Old", validator.address pl.blake), (b!"New", new.address pl.blake),
            (b!"Amount", motesOf n)])) ∧
      (step pl d' .approve).2 = signatureReply pl path (pl.sha256 (pl.blake (x.header pl.blake).encode)) := by
  have hnd : (front.map Arg.name).Nodup := (hperm.map _).nodup_iff.2 (by show [b!"delegator", b!"validator", b!"new_validator", b!"amount"].Nodup; decide)
  have hmem : ∀ a, a ∈ front ↔ _ := fun a => hperm.mem_iff
  have f1 := argNamed_mem hnd ((hmem ⟨b!"delegator", delegator.encode, .publicKey⟩).2 (by simp))
  have f2 := argNamed_mem hnd ((hmem ⟨b!"validator", validator.encode, .publicKey⟩).2 (by simp))
  have f3 := argNamed_mem hnd ((hmem ⟨b!"amount", UInt8.ofNat k :: le k n, .u512⟩).2 (by simp))
  have f4 := argNamed_mem hnd ((hmem ⟨b!"new_validator", new.encode, .publicKey⟩).2 (by simp))
  have hl := deploy_layout (H := pl.blake) (d := x) (ap := ap) (rest := []) (List.append_nil _).symm
  have hfits : Fits (deployEnv pl d.expert x ap) := by
    rw [hcs] at hfit
    unfold Fits; simp only [List.length_cons] at hfit; show (x.tx pl.blake ap).length ≤ 65535; omega
  have hat := hl.session
  rw [hses] at hat
  have hfr : ∀ a ∈ front, a.Ok ∧ (0 : UInt8) ∉ a.name ∧ a.name ≠ b!"auction" := by
    intro a ha
    rw [hmem] at ha
    simp only [List.mem_cons, List.not_mem_nil, or_false] at ha
    rcases ha with rfl | rfl | rfl | rfl
    · exact ⟨⟨show 9 ≤ 300 by decide, rfl, rfl⟩, show (0 : UInt8) ∉ b!"delegator" by decide, show b!"delegator" ≠ _ by decide⟩
    · exact ⟨⟨show 9 ≤ 300 by decide, rfl, rfl⟩, show (0 : UInt8) ∉ b!"validator" by decide, show b!"validator" ≠ _ by decide⟩
    · exact ⟨⟨show 13 ≤ 300 by decide, rfl, rfl⟩, show (0 : UInt8) ∉ b!"new_validator" by decide, show b!"new_validator" ≠ _ by decide⟩
    · exact ⟨⟨show 6 ≤ 300 by decide, rfl, rfl⟩, show (0 : UInt8) ∉ b!"amount" by decide, show b!"amount" ≠ _ by decide⟩
  have hda : DelegateArgs (decide (7 = 7)) front :=
    ⟨⟨_, f3, rfl⟩, ⟨_, f1, rfl⟩, ⟨_, f2, rfl⟩, fun _ => ⟨_, f4, rfl⟩, by rw [hperm.length_eq]; rfl⟩
  have s1 : ArgLine.Shows pl.blake front ⟨b!"Delegator", b!"delegator", false⟩ (b!"Delegator", delegator.address pl.blake) := .value rfl f1 (PubKey.shown _ hdk)
  have s2 : ArgLine.Shows pl.blake front ⟨b!"Old", b!"validator", false⟩ (b!"Old", validator.address pl.blake) := .value rfl f2 (PubKey.shown _ hvk)
  have s4 : ArgLine.Shows pl.blake front ⟨b!"New", b!"new_validator", false⟩ (b!"New", new.address pl.blake) := .value rfl f4 (PubKey.shown _ hnk)
  have s3 : ArgLine.Shows pl.blake front ⟨b!"Amount", b!"amount", true⟩ (b!"Amount", motesOf n) := .motes rfl f3 rfl (.u512 k n hk hkn)
  have key := code_session (e := deployEnv pl d.expert x ap) (off := x.sessionPos pl.blake) (op := 7) hfits
    (fun a ha => (List.mem_append.1 ha).elim (fun h => (hfr a h).1) (hok a))
    (fun a ha => (List.mem_append.1 ha).elim (fun h => (hfr a h).2.1) (hn a))
    (by rw [argNamed_rest fun a ha => (hfr a ha).2.2]; exact hau)
    (by simp) hda (fun h => absurd rfl h) hat hcode
    (lines := [(b!"Delegator", delegator.address pl.blake), (b!"Old", validator.address pl.blake), (b!"New", new.address pl.blake), (b!"Amount", motesOf n)])
    (.cons s1 (.cons s2 (.cons s4 (.cons s3 .nil))))
  rw [← hses] at key
  exact deploy_upload pl hcap d hd path hlen hpath x pcode fk fee hx ap hap cs last hcs hfit key rfl time hxo

/-- The hypotheses can be met: code with the arguments of a delegation, which may do anything (`C68_code_false`). -/
example : ∃ d', run samplePl (Dev.init samplePl) (upload 2 (samplePath 0)
      [(0 :: sampleDisguise.tx Blake.H []).take 200] ((0 :: sampleDisguise.tx Blake.H []).drop 200)) =
      (d', [.reply [] 0x9000, .reply [] 0x9000, .pending]) ∧
    Displays samplePl d' [(b!"Txn hash", checksumHex Blake.H (Blake.H (sampleDisguise.header Blake.H).encode)), (b!"Type", b!"Delegate"),
      (b!"Chain ID", b!"casper-test"), (b!"Account", b!"02" ++ checksumHex Blake.H (List.replicate 33 0xab)), (b!"Fee", motesOf 100000000),
      (b!"Delegator", b!"02" ++ checksumHex Blake.H (List.replicate 33 0xab)), (b!"Validator", b!"01" ++ checksumHex Blake.H (List.replicate 32 0x44)),
      (b!"Amount", motesOf 500000000000)] := by
  obtain ⟨d', ttl, -, h1, h2, -⟩ := C74_delegation_partial samplePl (by decide) (Dev.init samplePl) (.init _) (samplePath 0) rfl (by decide)
    sampleDisguise [] 4 100000000 ⟨⟨rfl, by decide, by decide, by decide, sampleDeploy_ok.deps⟩, by decide, by decide, rfl, by decide, by decide⟩
    b!"any code" false _ [⟨b!"auction", pfx b!"delegate", .string⟩] rfl (by decide) (by
      intro a ha; rw [List.mem_singleton] at ha; subst ha; exact ⟨show 7 ≤ 300 by decide, rfl, rfl⟩) (by
      intro a ha; rw [List.mem_singleton] at ha; subst ha; show (0 : UInt8) ∉ b!"auction"; decide) rfl (by
      intro a ha; rw [List.mem_singleton] at ha; subst ha; show b!"auction" ≠ _; decide)
    sampleAccount (.ed25519 (List.replicate 32 0x44)) rfl rfl 5 500000000000 (by decide) (by decide)
    (List.Perm.refl _) [] (by decide) [(0 :: sampleDisguise.tx Blake.H []).take 200] ((0 :: sampleDisguise.tx Blake.H []).drop 200)
    (by rw [List.flatten_cons, List.flatten_nil, List.append_nil, List.take_append_drop]; rfl) (by decide +kernel) [] (by intro h; cases h)
  exact ⟨d', h1, h2⟩

/-- The same with the argument "auction" in front of the others. -/
def sampleAuctionFirst : DeploySpec := { sampleDeploy with
  session := .moduleBytes b!"any code" (⟨b!"auction", pfx b!"delegate", .string⟩ :: sampleDelegate.session.args) }

/-- **C74 fails** in other orders: with "auction" first, the Deploy is refused. -/
theorem C74_order_false :
    (run samplePl (Dev.init samplePl) (sampleUpload (0 :: sampleAuctionFirst.tx Blake.H []))).2.getLast? = some (.reply b!"No more data" 0x6984) := by
  decide +kernel

/-! ### Other code -/

/-- The number of approvals and the approvals are no text. -/
theorem approvals_behind {ap : List Bytes} (hap : ∀ x ∈ ap, ApprovalOk x) (h : ap.length ≤ 100) : NoText ap.length ap.flatten := by
  refine ⟨h, ?_, fun x hx => ?_⟩
  · have := approvals_length hap; omega
  · cases ap with
    | nil => simp at hx
    | cons a ap =>
      obtain ⟨k, s, t, h1 | h1, -⟩ := hap a (by simp)
      · rw [h1.1] at hx
        simp only [List.flatten_cons, List.cons_append, List.head?_cons, Option.some.injEq] at hx
        subst hx; decide
      · rw [h1.1] at hx
        simp only [List.flatten_cons, List.cons_append, List.head?_cons, Option.some.injEq] at hx
        subst hx; decide

/-- The session and what follows it. -/
theorem session_behind {H : Hash} {x : DeploySpec} {ap : List Bytes} :
    At (x.tx H ap) (x.sessionPos H) (x.session.encode ++ (le 4 ap.length ++ ap.flatten)) := by
  unfold DeploySpec.tx DeploySpec.body DeploySpec.sessionPos
  exact ⟨(x.header H).encode ++ H (x.header H).encode ++ x.payment.encode, [], by simp only [List.append_assoc, List.append_nil], by
    simp only [List.length_append, H.len]⟩

/-- **C75, small programs.** Any chunking of a well-formed Deploy that runs code of at most 32 bytes, without an argument "auction" and with at most 100 approvals,
is acknowledged and opens a review; in both modes the review shows the hash of the code, the amount if there is one, and a hash of the complete list of
arguments; and approving signs the Deploy's hash.  Missing: longer code, which is never shown (see `C75_long_false`); more than 100 approvals (see `C39_approvals_false`);
arguments with the names of those of delegations and other types (see `C75_hidden_false`). -/
theorem C75_small_partial (pl : Platform) (hcap : pl.cap ≤ 16384) (d : Dev) (hd : d.Ok pl) (path : Bytes)
    (hlen : path.length = 20) (hpath : casperPath path) (x : DeploySpec) (pcode : Bytes) (fk fee : Nat) (hx : x.Usual pcode fk fee)
    (code : Bytes) (as : List Arg) (hses : x.session = .moduleBytes code as) (hcode : code.length ≤ 32)
    (hok : ∀ a ∈ as, a.Ok) (hn : noNul as) (hau : ∀ a ∈ as, a.name ≠ b!"auction")
    (hkey : ∀ name, name = b!"delegator" ∨ name = b!"validator" ∨ name = b!"new_validator" → ∀ a, argNamed as name = some a → a.ty = .publicKey)
    (amount : List (Bytes × Bytes)) (hamount : argNamed as b!"amount" = none ∧ amount = [] ∨
      ∃ a text, argNamed as b!"amount" = some a ∧ a.ty ≠ .u64 ∧ ShownMotes a.ty a.value text ∧ amount = [(b!"Amount", text)])
    (ap : List Bytes) (hap : ∀ a ∈ ap, ApprovalOk a) (hfew : ap.length ≤ 100) (cs : List Bytes) (last : Bytes)
    (hcs : cs.flatten ++ last = 0 :: x.tx pl.blake ap) (hfit : (cs.flatten ++ last).length ≤ pl.cap)
    (time : Bytes) (hxo : d.expert = true → x.ExpertOk pl.fmtTime time) :
    ∃ d' ttl, (d.expert = true → duration ttl = x.ttl / 1000) ∧
      run pl d (upload 2 path cs last) = (d', List.replicate (cs.length + 1) (.reply [] 0x9000) ++ [.pending]) ∧
      Displays pl d' (x.screens pl.blake d.expert ap.length b!"Contract execution" time ttl (motesOf fee)
        ([(b!"Execution", b!"contract"), (b!"Cntrct hash", checksumHex pl.blake (pl.blake code))] ++ (amount ++
          [(b!"Args hash", argsHashText pl.blake as)]))) ∧
      (step pl d' .approve).2 = signatureReply pl path (pl.sha256 (pl.blake (x.header pl.blake).encode)) := by
  have hfits : Fits (deployEnv pl d.expert x ap) := by
    rw [hcs] at hfit
    unfold Fits; simp only [List.length_cons] at hfit; show (x.tx pl.blake ap).length ≤ 65535; omega
  have hat := session_behind (H := pl.blake) (x := x) (ap := ap)
  rw [hses] at hat
  have hca : CodeArgs as := by
    refine ⟨hok, hn, argNamed_none hau, fun a ha => ?_, hkey⟩
    rcases hamount with ⟨h, -⟩ | ⟨b, text, h, h2, h3, -⟩
    · rw [h] at ha; cases ha
    · rw [h] at ha; cases ha
      revert h2
      generalize a.ty = t at h3
      generalize a.value = v at h3
      cases h3 with
      | u32 => exact fun _ => .inr rfl
      | u64 => exact fun h => absurd rfl h
      | u512 => exact fun _ => .inl rfl
  have key := module_session (e := deployEnv pl d.expert x ap) (off := x.sessionPos pl.blake) hfits rfl hca (approvals_behind hap hfew) hcode hat (amount := amount) (by
      rcases hamount with ⟨h, rfl⟩ | ⟨b, text, h, h2, h3, rfl⟩
      · rw [h]; exact .nil
      · rw [h]; exact .cons (.motes rfl h h3) .nil)
  rw [← hses] at key
  exact deploy_upload pl hcap d hd path hlen hpath x pcode fk fee hx ap (by omega) cs last hcs hfit key rfl time hxo

/-- A Deploy that runs code of `n` bytes with an amount and another argument. -/
def sampleRun (n : Nat) : DeploySpec := { sampleDeploy with
  session := .moduleBytes (List.replicate n 0x61) [⟨b!"memo", pfx b!"hi", .string⟩, ⟨b!"amount", UInt8.ofNat 2 :: le 2 1000, .u512⟩] }

theorem sampleRun_usual (n : Nat) : (sampleRun n).Usual [] 4 100000000 :=
  ⟨⟨rfl, sampleDeploy_usual.ok.timestamp, sampleDeploy_usual.ok.ttl, sampleDeploy_usual.ok.gasPrice, sampleDeploy_ok.deps⟩, sampleDeploy_usual.chain, sampleDeploy_usual.chain0, rfl, by decide, by decide⟩

theorem sampleRun_args : ∀ a ∈ (sampleRun 0).session.args, a.Ok ∧ (0 : UInt8) ∉ a.name ∧ a.name ≠ b!"auction" := by
  intro a ha
  simp only [sampleRun, ExecItem.args, List.mem_cons, List.not_mem_nil, or_false] at ha
  rcases ha with rfl | rfl
  · exact ⟨⟨show 4 ≤ 300 by decide, rfl, rfl⟩, show (0 : UInt8) ∉ b!"memo" by decide, show b!"memo" ≠ _ by decide⟩
  · exact ⟨⟨show 6 ≤ 300 by decide, rfl, rfl⟩, show (0 : UInt8) ∉ b!"amount" by decide, show b!"amount" ≠ _ by decide⟩

/-- The hypotheses of `C75_small_partial` can be met. -/
example : ∃ d', run samplePl (Dev.init samplePl) (upload 2 (samplePath 0)
      [(0 :: (sampleRun 32).tx Blake.H [sampleApproval]).take 200] ((0 :: (sampleRun 32).tx Blake.H [sampleApproval]).drop 200)) =
      (d', [.reply [] 0x9000, .reply [] 0x9000, .pending]) ∧
    Displays samplePl d' [(b!"Txn hash", checksumHex Blake.H (Blake.H ((sampleRun 32).header Blake.H).encode)), (b!"Type", b!"Contract execution"),
      (b!"Chain ID", b!"casper-test"), (b!"Account", b!"02" ++ checksumHex Blake.H (List.replicate 33 0xab)), (b!"Fee", motesOf 100000000),
      (b!"Execution", b!"contract"), (b!"Cntrct hash", checksumHex Blake.H (Blake.H (List.replicate 32 0x61))), (b!"Amount", motesOf 1000),
      (b!"Args hash", argsHashText Blake.H (sampleRun 0).session.args)] := by
  obtain ⟨d', ttl, -, h1, h2, -⟩ := C75_small_partial samplePl (by decide) (Dev.init samplePl) (.init _) (samplePath 0) rfl (by decide)
    (sampleRun 32) [] 4 100000000 (sampleRun_usual 32) (List.replicate 32 0x61) (sampleRun 0).session.args rfl (by decide)
    (fun a ha => (sampleRun_args a ha).1) (fun a ha => (sampleRun_args a ha).2.1) (fun a ha => (sampleRun_args a ha).2.2)
    (by rintro _ (rfl | rfl | rfl) a ha <;> cases ha)
    [(b!"Amount", motesOf 1000)] (.inr ⟨_, _, rfl, by decide, .u512 2 1000 (by decide) (by decide), rfl⟩) [sampleApproval] sampleApproval_ok (by decide)
    [(0 :: (sampleRun 32).tx Blake.H [sampleApproval]).take 200] ((0 :: (sampleRun 32).tx Blake.H [sampleApproval]).drop 200)
    (by rw [List.flatten_cons, List.flatten_nil, List.append_nil, List.take_append_drop]; rfl) (by decide +kernel) [] (by intro h; cases h)
  exact ⟨d', h1, h2⟩

/-- The second line of a session in the review of a Deploy. -/
theorem second_line {e : Env} {d : DeploySpec} {rest code : Bytes} {k fee epo : Nat} {it : Item} (hs : Small e) (hd : d.Ok)
    (hb : e.buf = d.signedPart e.blake ++ rest) (hp : d.payment = payItem code k fee) (h2 : 2 ≤ it.fixed + it.runtime) (h3 : it.fixed + it.runtime ≤ 100) :
    (if e.expert then 8 else 4) + 2 < numItemsDeploy e (d.parsed e.blake code k fee it) ∧ ∀ t,
      getItemDeploy e epo (d.parsed e.blake code k fee it) ((if e.expert then 8 else 4) + 2) t =
        sessionLine e epo it 1 ((d.header e.blake).encode.length + 32 + d.payment.encode.length) := by
  have hl := signed_layout hb
  obtain ⟨-, -, w3⟩ := header_small (hd.header e.blake) hs.fits hl.header
  have l1 := hl.session.le
  unfold Small at hs
  have hn : numItemsDeploy e (d.parsed e.blake code k fee it) = (if e.expert then 9 else 4) + 1 + (it.fixed + it.runtime) := by
    show u8 ((if e.expert then 9 else 4) + 0 + 1 + it.fixed + it.runtime) = _
    unfold u8
    split <;> omega
  have hlt : (if e.expert then 8 else 4) + 2 < numItemsDeploy e (d.parsed e.blake code k fee it) := by rw [hn]; split <;> omega
  refine ⟨hlt, fun t => ?_⟩
  have hpt : (d.parsed e.blake code k fee it).payment.total = d.payment.encode.length := by rw [hp]; rfl
  generalize hbase : (if e.expert then 8 else 4) = base at hlt
  have hb4 : 4 ≤ base := by rw [← hbase]; split <;> omega
  unfold getItemDeploy
  rw [if_neg (by omega), if_neg (by omega), if_neg (by omega), if_neg (by omega), if_neg (by omega), if_neg (by
    rintro ⟨hx, h8⟩; rw [if_pos hx] at hbase; omega)]
  unfold bodyLine
  refine seqThen (a := ()) (t := (d.header e.blake).encode.length + 32) ?_ ?_
  · show Res.ok () (u16 (headerLength (d.header e.blake).view + 32)) = _
    rw [w3, u16_id (by omega)]
  dsimp only
  rw [hbase, show u16 ((d.parsed e.blake code k fee it).payment.fixed + (d.parsed e.blake code k fee it).payment.runtime) = 1 from rfl, if_neg (by omega), hpt]
  refine seqThen (skip_run (by omega)) ?_
  rw [show u8 (base + 2 - base + 65536 - 1) = 1 by unfold u8; omega, show u16 ((d.parsed e.blake code k fee it).session.fixed +
    (d.parsed e.blake code k fee it).session.runtime) = it.fixed + it.runtime from u16_id (show it.fixed + it.runtime < 65536 by omega), if_pos (by omega)]
  rfl

/-- **C75 fails for longer programs**: a well-formed Deploy that runs code of more than 32 bytes in this way never leads to a review with defined behaviour, whatever the
state of the device and however the data arrived: for the line "Cntrct hash" the whole code is copied into a buffer of 32 bytes (`parser_special.c:333-335`). -/
theorem C75_long_false (pl : Platform) (hcap : pl.cap ≤ 16384) (d : Dev) (hd : d.Ok pl) (x : DeploySpec) (pcode : Bytes) (fk fee : Nat) (hx : x.Usual pcode fk fee)
    (code : Bytes) (as : List Arg) (hses : x.session = .moduleBytes code as) (hcode : 32 < code.length)
    (hok : ∀ a ∈ as, a.Ok) (hn : noNul as) (hau : ∀ a ∈ as, a.name ≠ b!"auction")
    (hkey : ∀ name, name = b!"delegator" ∨ name = b!"validator" ∨ name = b!"new_validator" → ∀ a, argNamed as name = some a → a.ty = .publicKey)
    (hamount : ∀ a, argNamed as b!"amount" = some a → a.ty = .u512 ∨ a.ty = .u32)
    (ap : List Bytes) (hap : ∀ a ∈ ap, ApprovalOk a) (hfew : ap.length ≤ 100) (rx : Bytes) (pin : Bool) (hins : rx.getD 1 0 = 2)
    (hdata : d.data ++ rx.drop 5 = 0 :: x.tx pl.blake ap) (d' : Dev) : step pl d (.apdu rx pin) ≠ (d', .pending) := by
  intro h
  obtain ⟨hok', hdat, hcase⟩ := sign_pending (by omega) hd hins h
  rw [hdata] at hcase hdat
  rcases hcase with ⟨ys, s, h1, h2, rfl⟩ | ⟨ys, s, h1, -, -⟩
  swap
  · simp at h1
  simp only [List.cons.injEq, true_and] at h1
  subst h1
  have hsm : Small (deployEnv pl d.expert x ap) := small_data hcap hok' hdat d.expert
  have hat := session_behind (H := pl.blake) (x := x) (ap := ap)
  rw [hses] at hat
  have hca : CodeArgs as := ⟨hok, hn, argNamed_none hau, hamount, hkey⟩
  have hpar := module_parse (e := deployEnv pl d.expert x ap) (off := x.sessionPos pl.blake) hsm.fits rfl hca (approvals_behind hap hfew) hat
  have hline := module_line (e := deployEnv pl d.expert x ap) (off := x.sessionPos pl.blake) hsm.fits hcode (At.append.1 hat).1
  have hr := readDeploy_of (e := deployEnv pl d.expert x ap) (it := moduleView code as (x.sessionPos pl.blake)) (epo := 0) hsm hx.ok rfl hx.pays
    (by rw [hses]; exact hpar)
  have := h2.parse
  rw [hr] at this
  injection this with _ hs
  subst hs
  have hrt : (moduleView code as (x.sessionPos pl.blake)).runtime ≤ 2 := by
    show 1 + (if (argNamed as b!"amount").isSome then 1 else 0) ≤ 2
    split <;> omega
  have hfx : (moduleView code as (x.sessionPos pl.blake)).fixed = 2 := rfl
  obtain ⟨hlt, hsl⟩ := second_line (e := deployEnv pl d.expert x ap) (it := moduleView code as (x.sessionPos pl.blake)) (epo := 0) (rest := le 4 ap.length ++ ap.flatten) hsm hx.ok rfl hx.pays
    (by omega) (by omega)
  obtain ⟨kv, t, hi⟩ := h2.items _ hlt
  rw [hsl] at hi
  exact absurd (hi.symm.trans hline) (by intro h; cases h)

/-- The hypotheses of `C75_long_false` can be met: one more byte of code. -/
example (rx : Bytes) (pin : Bool) (d' : Dev) (h1 : rx.getD 1 0 = 2) (h2 : rx.drop 5 = 0 :: (sampleRun 33).tx Blake.H []) :
    step samplePl (Dev.init samplePl) (.apdu rx pin) ≠ (d', .pending) :=
  C75_long_false samplePl (by decide) (Dev.init samplePl) (.init _) (sampleRun 33) [] 4 100000000 (sampleRun_usual 33) (List.replicate 33 0x61)
    (sampleRun 0).session.args rfl (by decide) (fun a ha => (sampleRun_args a ha).1) (fun a ha => (sampleRun_args a ha).2.1)
    (fun a ha => (sampleRun_args a ha).2.2) (by rintro _ (rfl | rfl | rfl) a ha <;> cases ha) (by intro a ha; cases ha; exact .inl rfl) [] (by simp) (by decide)
    rx pin h1 h2 d'

/-- What happens instead: the 33rd byte is written behind the end of a buffer. -/
theorem C75_crash_false :
    (run samplePl (Dev.init samplePl) (sampleUpload (0 :: (sampleRun 33).tx Blake.H []))).2.getLast? = some (.crash .oobWrite) := by
  decide +kernel

end Casper
