import Verif.Lib.TransferCount
import Verif.Lib.SampleDeploy
/-
Native transfers, delegations and contract calls in Deploys: accepted, shown line by line, signed (C12 to C15).
-/
namespace Casper
open M

/-- **C12.** Any chunking of a well-formed Deploy whose session is a native transfer of an amount, with a target, an id and perhaps a source,
in any order, is acknowledged and opens a review; the review consists of exactly the specified lines (whenever and however often they are
asked for); and approving it answers with the signature of SHA-256 of the Deploy's hash under the key of the path sent first. -/
theorem C12_transfer (pl : Platform) (hcap : pl.cap ≤ 16384) (d : Dev) (hd : d.Ok pl) (path : Bytes)
    (hlen : path.length = 20) (hpath : casperPath path) (x : DeploySpec) (code : Bytes) (fk fee : Nat) (hx : x.Usual code fk fee)
    (as : List Arg) (hses : x.session = .transfer as) (hok : ∀ a ∈ as, a.Ok)
    (amount target id : Arg) (source : List Arg) (hperm : as.Perm ([amount, target, id] ++ source))
    (hn : amount.name = b!"amount" ∧ target.name = b!"target" ∧ id.name = b!"id" ∧
      (source = [] ∨ ∃ a, source = [a] ∧ a.name = b!"source" ∧ a.ty.isPlace))
    (k n : Nat) (hk : k ≤ 64) (hkn : n < 256 ^ k) (hamount : amount.ty = .u512 ∧ amount.value = UInt8.ofNat k :: le k n)
    (ttext itext : Bytes) (htt : target.ty.isPlace ∧ Shown pl.blake target.ty target.value ttext)
    (hit : (id.ty = .u64 ∨ id.ty = .option .u64) ∧ Shown pl.blake id.ty id.value itext)
    (stext : Bytes) (hst : ∀ a ∈ source, Shown pl.blake a.ty a.value stext)
    (ap : List Bytes) (hap : ap.length < 2 ^ 32) (cs : List Bytes) (last : Bytes)
    (hcs : cs.flatten ++ last = 0 :: x.tx pl.blake ap) (hfit : (cs.flatten ++ last).length ≤ pl.cap)
    (time : Bytes) (hxo : d.expert = true → x.ExpertOk pl.fmtTime time) :
    ∃ d' ttl, (d.expert = true → duration ttl = x.ttl / 1000) ∧
      run pl d (upload 2 path cs last) = (d', List.replicate (cs.length + 1) (.reply [] 0x9000) ++ [.pending]) ∧
      Displays pl d' (x.screens pl.blake d.expert ap.length b!"Token transfer" time ttl (motesOf fee)
        (if d.expert then source.map (fun _ => (b!"From", stext)) ++
            [(b!"Target", ttext), (b!"Amount", motesOf n), (b!"ID", itext)]
          else [(b!"Target", ttext), (b!"Amount", motesOf n)])) ∧
      (step pl d' .approve).2 = signatureReply pl path (pl.sha256 (pl.blake (x.header pl.blake).encode)) := by
  obtain ⟨n1, n2, n3, n4⟩ := hn
  have hnd : (([amount, target, id] ++ source).map Arg.name).Nodup := by
    rcases n4 with rfl | ⟨a, rfl, n4, -⟩ <;> simp [n1, n2, n3, *]
  have hnd' : (as.map Arg.name).Nodup := (hperm.map _).nodup_iff.2 hnd
  have hmem : ∀ a, a ∈ as ↔ a ∈ [amount, target, id] ++ source := fun a => hperm.mem_iff
  have f1 := argNamed_mem hnd' ((hmem amount).2 (by simp))
  have f2 := argNamed_mem hnd' ((hmem target).2 (by simp))
  have f3 := argNamed_mem hnd' ((hmem id).2 (by simp))
  rw [n1] at f1
  rw [n2] at f2
  rw [n3] at f3
  have hcount : as.length = 3 + source.length := by rw [hperm.length_eq]; simp; omega
  have hnul : noNul as := by
    intro a ha
    rw [hmem] at ha
    rcases n4 with rfl | ⟨b, rfl, n4, -⟩ <;> simp at ha
    · rcases ha with rfl | rfl | rfl <;> simp [*]
    · rcases ha with rfl | rfl | rfl | rfl <;> simp [*]
  have ht : TransferArgs as := by
    refine ⟨hok, hnul, ⟨_, f1, hamount.1⟩, ⟨_, f3, hit.1⟩, ⟨_, f2, htt.1⟩, ?_⟩
    rcases n4 with rfl | ⟨a, rfl, n4, n5⟩
    · refine .inl ⟨by simpa using hcount, argNamed_none fun a ha => ?_⟩
      rw [hmem] at ha
      simp at ha
      rcases ha with rfl | rfl | rfl <;> simp [*]
    · have f4 := argNamed_mem hnd' ((hmem a).2 (by simp))
      rw [n4] at f4
      exact .inr ⟨by simpa using hcount, a, f4, n5⟩
  have hl := deploy_layout (H := pl.blake) (d := x) (ap := ap) (rest := []) (List.append_nil _).symm
  have hfits : Fits (deployEnv pl d.expert x ap) := by
    rw [hcs] at hfit
    unfold Fits; simp only [List.length_cons] at hfit; show (x.tx pl.blake ap).length ≤ 65535; omega
  have hat : At (deployEnv pl d.expert x ap).buf (x.sessionPos pl.blake) (ExecItem.transfer as).encode := by rw [← hses]; exact hl.session
  have key := transfer_session (e := deployEnv pl d.expert x ap)
    (lines := if d.expert then source.map (fun _ => (b!"From", stext)) ++
            [(b!"Target", ttext), (b!"Amount", motesOf n), (b!"ID", itext)]
          else [(b!"Target", ttext), (b!"Amount", motesOf n)]) hfits ht ?_ hat
  · rw [← hses] at key
    exact deploy_upload pl hcap d hd path hlen hpath x code fk fee hx ap hap cs last hcs hfit key rfl time hxo
  · have s1 : ArgLine.Shows pl.blake as ⟨b!"Target", b!"target", false⟩ (b!"Target", ttext) := .value rfl f2 htt.2
    have s2 : ArgLine.Shows pl.blake as ⟨b!"Amount", b!"amount", true⟩ (b!"Amount", motesOf n) :=
      .motes rfl f1 hamount.1 (by rw [hamount.1, hamount.2]; exact .u512 k n hk hkn)
    have s3 : ArgLine.Shows pl.blake as ⟨b!"ID", b!"id", false⟩ (b!"ID", itext) := .value rfl f3 hit.2
    show List.Forall₂ (ArgLine.Shows pl.blake as) (opLines d.expert as 2) _
    unfold opLines
    cases d.expert with
    | false => simp only [Bool.false_eq_true, false_and, if_false, List.nil_append, List.append_nil]; exact .cons s1 (.cons s2 .nil)
    | true =>
      rcases ht.source with ⟨h3, h4⟩ | ⟨h3, a, h4, -⟩
      · have : source = [] := by rw [hcount] at h3; exact List.length_eq_zero_iff.1 (by omega)
        subst this
        rw [if_neg (by simp [h4])]
        exact .cons s1 (.cons s2 (.cons s3 .nil))
      · rcases n4 with rfl | ⟨b, rfl, n4, -⟩
        · simp at hcount; omega
        · have f4 := argNamed_mem hnd' ((hmem b).2 (by simp))
          rw [n4] at f4
          rw [if_pos (by simp [f4])]
          exact .cons (.value rfl f4 (hst b (by simp))) (.cons s1 (.cons s2 (.cons s3 .nil)))

/-! A concrete transfer meeting the hypotheses, and what is shown for it. -/

theorem sampleDeploy_ok : sampleDeploy.Ok := ⟨rfl, by decide, by decide, by decide, by
  intro x hx; simp only [sampleDeploy, List.mem_singleton] at hx; subst hx; rfl⟩

theorem sampleDeploy_usual : sampleDeploy.Usual [] 4 100000000 :=
  ⟨sampleDeploy_ok, by decide, by decide, rfl, by decide, by decide⟩

/-- All hypotheses together can be met: uploaded in two chunks, in normal mode. -/
example : ∃ d', run samplePl (Dev.init samplePl) (upload 2 (samplePath 0)
      [(0 :: sampleDeploy.tx Blake.H [sampleApproval]).take 200] ((0 :: sampleDeploy.tx Blake.H [sampleApproval]).drop 200)) =
      (d', [.reply [] 0x9000, .reply [] 0x9000, .pending]) ∧
    Displays samplePl d' [(b!"Txn hash", checksumHex Blake.H (Blake.H (sampleDeploy.header Blake.H).encode)), (b!"Type", b!"Token transfer"),
      (b!"Chain ID", b!"casper-test"), (b!"Account", b!"02" ++ checksumHex Blake.H (List.replicate 33 0xab)), (b!"Fee", motesOf 100000000),
      (b!"Target", checksumHex Blake.H (List.replicate 32 0x11)), (b!"Amount", motesOf 24500000000)] := by
  obtain ⟨d', ttl, -, h1, h2, -⟩ := C12_transfer samplePl (by decide) (Dev.init samplePl) (.init _) (samplePath 0) rfl (by decide)
    sampleDeploy [] 4 100000000 sampleDeploy_usual sampleTransferArgs rfl (by
      intro a ha
      simp only [sampleTransferArgs, List.mem_cons, List.not_mem_nil, or_false] at ha
      rcases ha with rfl | rfl | rfl <;> exact ⟨by decide, by decide, by decide⟩)
    ⟨b!"amount", bigNum 5 24500000000, .u512⟩ ⟨b!"target", List.replicate 32 0x11, .byteArray 32⟩
    ⟨b!"id", 1 :: le 8 7, .option .u64⟩ [] (List.Perm.refl _) ⟨rfl, rfl, rfl, .inl rfl⟩ 5 24500000000 (by decide) (by decide)
    ⟨rfl, rfl⟩ _ _ ⟨.inr (.inr (.inl ⟨_, rfl⟩)), .byteArray (List.replicate 32 0x11) (by decide) (by decide)⟩ ⟨.inr rfl, .someU64 7 (by decide)⟩ [] (by simp)
    [sampleApproval] (by decide) [(0 :: sampleDeploy.tx Blake.H [sampleApproval]).take 200]
    ((0 :: sampleDeploy.tx Blake.H [sampleApproval]).drop 200)
    (by rw [List.flatten_cons, List.flatten_nil, List.append_nil, List.take_append_drop]; rfl) (by decide +kernel) [] (by intro h; cases h)
  exact ⟨d', h1, h2⟩

/-! ### Delegations -/

theorem PubKey.shown (H : Bytes → Bytes) {k : PubKey} (h : k.Ok) : Shown H .publicKey k.encode (k.address H) := by
  cases k with
  | ed25519 k => exact .ed25519 k h
  | secp256k1 k => exact .secp256k1 k h

/-- **C15, delegations and their revocation.** Any chunking of a well-formed Deploy that calls a stored contract's entry point "delegate" or
"undelegate" with a delegator, a validator and an amount, in any order, is acknowledged and opens a review; the review consists of exactly
the specified lines: the name of the operation, the delegator, the validator and the amount (in expert mode also which contract is called);
and approving signs the Deploy's hash. -/
theorem C15_delegation (pl : Platform) (hcap : pl.cap ≤ 16384) (d : Dev) (hd : d.Ok pl) (path : Bytes)
    (hlen : path.length = 20) (hpath : casperPath path) (x : DeploySpec) (code : Bytes) (fk fee : Nat) (hx : x.Usual code fk fee)
    (byHash : Bool) (addr : Bytes) (version : Option (Option Nat)) (un : Bool) (as : List Arg)
    (hses : x.session = storedCall byHash addr version (if un then b!"undelegate" else b!"delegate") as)
    (haddr : if byHash then addr.length = 32 else addr.length ≤ 299 ∧ 0 ∉ addr) (hver : ∀ n, version = some (some n) → n < 2 ^ 32)
    (delegator validator : PubKey) (hdk : delegator.Ok) (hvk : validator.Ok) (k n : Nat) (hk : k ≤ 64) (hkn : n < 256 ^ k)
    (hperm : as.Perm [⟨b!"delegator", delegator.encode, .publicKey⟩, ⟨b!"validator", validator.encode, .publicKey⟩,
      ⟨b!"amount", UInt8.ofNat k :: le k n, .u512⟩])
    (ap : List Bytes) (hap : ap.length < 2 ^ 32) (cs : List Bytes) (last : Bytes)
    (hcs : cs.flatten ++ last = 0 :: x.tx pl.blake ap) (hfit : (cs.flatten ++ last).length ≤ pl.cap)
    (time : Bytes) (hxo : d.expert = true → x.ExpertOk pl.fmtTime time) :
    ∃ d' ttl, (d.expert = true → duration ttl = x.ttl / 1000) ∧
      run pl d (upload 2 path cs last) = (d', List.replicate (cs.length + 1) (.reply [] 0x9000) ++ [.pending]) ∧
      Displays pl d' (x.screens pl.blake d.expert ap.length (if un then b!"Undelegate" else b!"Delegate") time ttl (motesOf fee)
        ((if d.expert then storedLines pl.blake true byHash addr version else []) ++
          [(b!"Delegator", delegator.address pl.blake), (b!"Validator", validator.address pl.blake), (b!"Amount", motesOf n)])) ∧
      (step pl d' .approve).2 = signatureReply pl path (pl.sha256 (pl.blake (x.header pl.blake).encode)) := by
  have hnd : (as.map Arg.name).Nodup := (hperm.map _).nodup_iff.2 (by show [b!"delegator", b!"validator", b!"amount"].Nodup; decide)
  have hmem : ∀ a, a ∈ as ↔ _ := fun a => hperm.mem_iff
  have f1 := argNamed_mem hnd ((hmem ⟨b!"delegator", delegator.encode, .publicKey⟩).2 (by simp))
  have f2 := argNamed_mem hnd ((hmem ⟨b!"validator", validator.encode, .publicKey⟩).2 (by simp))
  have f3 := argNamed_mem hnd ((hmem ⟨b!"amount", UInt8.ofNat k :: le k n, .u512⟩).2 (by simp))
  have hl := deploy_layout (H := pl.blake) (d := x) (ap := ap) (rest := []) (List.append_nil _).symm
  have hfits : Fits (deployEnv pl d.expert x ap) := by
    rw [hcs] at hfit
    unfold Fits; simp only [List.length_cons] at hfit; show (x.tx pl.blake ap).length ≤ 65535; omega
  have hat := hl.session
  rw [hses] at hat
  have hso : StoredOk byHash addr version (if un then b!"undelegate" else b!"delegate") as := by
    refine ⟨fun hb => by rw [hb] at haddr; exact haddr, hver, by cases un <;> decide, by cases un <;> decide, fun a ha => ?_, fun a ha => ?_⟩ <;> rw [hmem] at ha <;>
      simp only [List.mem_cons, List.not_mem_nil, or_false] at ha <;> rcases ha with rfl | rfl | rfl
    · exact ⟨show 9 ≤ 300 by decide, rfl, rfl⟩
    · exact ⟨show 9 ≤ 300 by decide, rfl, rfl⟩
    · exact ⟨show 6 ≤ 300 by decide, rfl, rfl⟩
    · show (0 : UInt8) ∉ b!"delegator"; decide
    · show (0 : UInt8) ∉ b!"validator"; decide
    · show (0 : UInt8) ∉ b!"amount"; decide
  have hnr : decide ((if un then b!"undelegate" else b!"delegate") = b!"redelegate") = false := by cases un <;> decide
  have hda : DelegateArgs (decide ((if un then b!"undelegate" else b!"delegate") = b!"redelegate")) as := by
    rw [hnr]
    exact ⟨⟨_, f3, rfl⟩, ⟨_, f1, rfl⟩, ⟨_, f2, rfl⟩, by simp, by rw [hperm.length_eq]; rfl⟩
  have s1 : ArgLine.Shows pl.blake as ⟨b!"Delegator", b!"delegator", false⟩ (b!"Delegator", delegator.address pl.blake) := .value rfl f1 (PubKey.shown _ hdk)
  have s2 : ArgLine.Shows pl.blake as ⟨b!"Validator", b!"validator", false⟩ (b!"Validator", validator.address pl.blake) := .value rfl f2 (PubKey.shown _ hvk)
  have s3 : ArgLine.Shows pl.blake as ⟨b!"Amount", b!"amount", true⟩ (b!"Amount", motesOf n) := .motes rfl f3 rfl (.u512 k n hk hkn)
  have key := delegation_session (e := deployEnv pl d.expert x ap) (off := x.sessionPos pl.blake) (op := if un then 6 else 5) hfits hso hat
    (by cases un <;> simp) hda.present (fun _ hb => by rw [hb] at haddr; exact haddr) (List.append_nil as).symm (by have := hda.count; simpa using this) (lines := [(b!"Delegator", delegator.address pl.blake),
      (b!"Validator", validator.address pl.blake), (b!"Amount", motesOf n)]) (renders_of (by cases un <;> exact .cons s1 (.cons s2 (.cons s3 .nil))))
  rw [← hses] at key
  refine deploy_upload pl hcap d hd path hlen hpath x code fk fee hx ap hap cs last hcs hfit key ?_ time hxo
  cases un <;> cases byHash <;> cases version <;> rfl

/-- **C15, redelegations.** The same for the entry point "redelegate", which has a new validator besides. -/
theorem C15_redelegation (pl : Platform) (hcap : pl.cap ≤ 16384) (d : Dev) (hd : d.Ok pl) (path : Bytes)
    (hlen : path.length = 20) (hpath : casperPath path) (x : DeploySpec) (code : Bytes) (fk fee : Nat) (hx : x.Usual code fk fee)
    (byHash : Bool) (addr : Bytes) (version : Option (Option Nat)) (as : List Arg)
    (hses : x.session = storedCall byHash addr version b!"redelegate" as)
    (haddr : if byHash then addr.length = 32 else addr.length ≤ 299 ∧ 0 ∉ addr) (hver : ∀ n, version = some (some n) → n < 2 ^ 32)
    (delegator validator new : PubKey) (hdk : delegator.Ok) (hvk : validator.Ok) (hnk : new.Ok) (k n : Nat) (hk : k ≤ 64) (hkn : n < 256 ^ k)
    (hperm : as.Perm [⟨b!"delegator", delegator.encode, .publicKey⟩, ⟨b!"validator", validator.encode, .publicKey⟩,
      ⟨b!"new_validator", new.encode, .publicKey⟩, ⟨b!"amount", UInt8.ofNat k :: le k n, .u512⟩])
    (ap : List Bytes) (hap : ap.length < 2 ^ 32) (cs : List Bytes) (last : Bytes)
    (hcs : cs.flatten ++ last = 0 :: x.tx pl.blake ap) (hfit : (cs.flatten ++ last).length ≤ pl.cap)
    (time : Bytes) (hxo : d.expert = true → x.ExpertOk pl.fmtTime time) :
    ∃ d' ttl, (d.expert = true → duration ttl = x.ttl / 1000) ∧
      run pl d (upload 2 path cs last) = (d', List.replicate (cs.length + 1) (.reply [] 0x9000) ++ [.pending]) ∧
      Displays pl d' (x.screens pl.blake d.expert ap.length b!"Redelegate" time ttl (motesOf fee)
        ((if d.expert then storedLines pl.blake true byHash addr version else []) ++
          [(b!"Delegator", delegator.address pl.blake), (b!"Old", validator.address pl.blake), (b!"New", new.address pl.blake),
            (b!"Amount", motesOf n)])) ∧
      (step pl d' .approve).2 = signatureReply pl path (pl.sha256 (pl.blake (x.header pl.blake).encode)) := by
  have hnd : (as.map Arg.name).Nodup := (hperm.map _).nodup_iff.2 (by show [b!"delegator", b!"validator", b!"new_validator", b!"amount"].Nodup; decide)
  have hmem : ∀ a, a ∈ as ↔ _ := fun a => hperm.mem_iff
  have f1 := argNamed_mem hnd ((hmem ⟨b!"delegator", delegator.encode, .publicKey⟩).2 (by simp))
  have f2 := argNamed_mem hnd ((hmem ⟨b!"validator", validator.encode, .publicKey⟩).2 (by simp))
  have f3 := argNamed_mem hnd ((hmem ⟨b!"amount", UInt8.ofNat k :: le k n, .u512⟩).2 (by simp))
  have f4 := argNamed_mem hnd ((hmem ⟨b!"new_validator", new.encode, .publicKey⟩).2 (by simp))
  have hl := deploy_layout (H := pl.blake) (d := x) (ap := ap) (rest := []) (List.append_nil _).symm
  have hfits : Fits (deployEnv pl d.expert x ap) := by
    rw [hcs] at hfit
    unfold Fits; simp only [List.length_cons] at hfit; show (x.tx pl.blake ap).length ≤ 65535; omega
  have hat := hl.session
  rw [hses] at hat
  have hso : StoredOk byHash addr version b!"redelegate" as := by
    refine ⟨fun hb => by rw [hb] at haddr; exact haddr, hver, by decide, by decide, fun a ha => ?_, fun a ha => ?_⟩ <;> rw [hmem] at ha <;>
      simp only [List.mem_cons, List.not_mem_nil, or_false] at ha <;> rcases ha with rfl | rfl | rfl | rfl
    · exact ⟨show 9 ≤ 300 by decide, rfl, rfl⟩
    · exact ⟨show 9 ≤ 300 by decide, rfl, rfl⟩
    · exact ⟨show 13 ≤ 300 by decide, rfl, rfl⟩
    · exact ⟨show 6 ≤ 300 by decide, rfl, rfl⟩
    · show (0 : UInt8) ∉ b!"delegator"; decide
    · show (0 : UInt8) ∉ b!"validator"; decide
    · show (0 : UInt8) ∉ b!"new_validator"; decide
    · show (0 : UInt8) ∉ b!"amount"; decide
  have hda : DelegateArgs (decide (b!"redelegate" = b!"redelegate")) as :=
    ⟨⟨_, f3, rfl⟩, ⟨_, f1, rfl⟩, ⟨_, f2, rfl⟩, fun _ => ⟨_, f4, rfl⟩, by rw [hperm.length_eq]; rfl⟩
  have s1 : ArgLine.Shows pl.blake as ⟨b!"Delegator", b!"delegator", false⟩ (b!"Delegator", delegator.address pl.blake) := .value rfl f1 (PubKey.shown _ hdk)
  have s2 : ArgLine.Shows pl.blake as ⟨b!"Old", b!"validator", false⟩ (b!"Old", validator.address pl.blake) := .value rfl f2 (PubKey.shown _ hvk)
  have s4 : ArgLine.Shows pl.blake as ⟨b!"New", b!"new_validator", false⟩ (b!"New", new.address pl.blake) := .value rfl f4 (PubKey.shown _ hnk)
  have s3 : ArgLine.Shows pl.blake as ⟨b!"Amount", b!"amount", true⟩ (b!"Amount", motesOf n) := .motes rfl f3 rfl (.u512 k n hk hkn)
  have key := delegation_session (e := deployEnv pl d.expert x ap) (off := x.sessionPos pl.blake) (op := 7) hfits hso hat
    (by simp) hda.present (fun _ hb => by rw [hb] at haddr; exact haddr) (List.append_nil as).symm (by have := hda.count; simpa using this) (lines := [(b!"Delegator", delegator.address pl.blake),
      (b!"Old", validator.address pl.blake), (b!"New", new.address pl.blake), (b!"Amount", motesOf n)]) (renders_of (.cons s1 (.cons s2 (.cons s4 (.cons s3 .nil)))))
  rw [← hses] at key
  refine deploy_upload pl hcap d hd path hlen hpath x code fk fee hx ap hap cs last hcs hfit key ?_ time hxo
  cases byHash <;> cases version <;> rfl

/-- A Deploy delegating 500 CSPR, calling the auction contract by its hash. -/
def sampleDelegate : DeploySpec := { sampleDeploy with
  session := .byHash (List.replicate 32 0x93) b!"delegate" [⟨b!"delegator", sampleAccount.encode, .publicKey⟩,
    ⟨b!"validator", 1 :: List.replicate 32 0x44, .publicKey⟩, ⟨b!"amount", bigNum 5 500000000000, .u512⟩] }

/-- The hypotheses can be met. -/
example : ∃ d', run samplePl (Dev.init samplePl) (upload 2 (samplePath 0)
      [(0 :: sampleDelegate.tx Blake.H []).take 200] ((0 :: sampleDelegate.tx Blake.H []).drop 200)) =
      (d', [.reply [] 0x9000, .reply [] 0x9000, .pending]) ∧
    Displays samplePl d' [(b!"Txn hash", checksumHex Blake.H (Blake.H (sampleDelegate.header Blake.H).encode)), (b!"Type", b!"Delegate"),
      (b!"Chain ID", b!"casper-test"), (b!"Account", b!"02" ++ checksumHex Blake.H (List.replicate 33 0xab)), (b!"Fee", motesOf 100000000),
      (b!"Delegator", b!"02" ++ checksumHex Blake.H (List.replicate 33 0xab)), (b!"Validator", b!"01" ++ checksumHex Blake.H (List.replicate 32 0x44)),
      (b!"Amount", motesOf 500000000000)] := by
  obtain ⟨d', ttl, -, h1, h2, -⟩ := C15_delegation samplePl (by decide) (Dev.init samplePl) (.init _) (samplePath 0) rfl (by decide)
    sampleDelegate [] 4 100000000 ⟨⟨rfl, by decide, by decide, by decide, sampleDeploy_ok.deps⟩, by decide, by decide, rfl, by decide, by decide⟩
    true (List.replicate 32 0x93) none false _ rfl rfl (by simp) sampleAccount (.ed25519 (List.replicate 32 0x44)) rfl rfl 5 500000000000 (by decide) (by decide)
    (List.Perm.refl _) [] (by decide) [(0 :: sampleDelegate.tx Blake.H []).take 200] ((0 :: sampleDelegate.tx Blake.H []).drop 200)
    (by rw [List.flatten_cons, List.flatten_nil, List.append_nil, List.take_append_drop]; rfl) (by decide +kernel) [] (by intro h; cases h)
  exact ⟨d', h1, h2⟩

/-! ### Other contract calls -/

/-- **C14, partly.** Any chunking of a well-formed Deploy that calls a stored contract in any other way is acknowledged and opens a review;
the review shows which contract is called, in expert mode the entry point, the amount if there is one, and a hash of the complete list of
arguments.  Missing: calls in which an argument named "amount", "delegator" or "validator" is not of its usual type (see
`C14_hidden_false`), calls of delegations with more arguments than they need (see C72 and C85), and module bytes (see C75). -/
theorem C14_call_partial (pl : Platform) (hcap : pl.cap ≤ 16384) (d : Dev) (hd : d.Ok pl) (path : Bytes)
    (hlen : path.length = 20) (hpath : casperPath path) (x : DeploySpec) (code : Bytes) (fk fee : Nat) (hx : x.Usual code fk fee)
    (byHash : Bool) (addr : Bytes) (version : Option (Option Nat)) (entry : Bytes) (as : List Arg)
    (hses : x.session = storedCall byHash addr version entry as)
    (haddr : if byHash then addr.length = 32 else addr.length ≤ 299 ∧ 0 ∉ addr) (hver : ∀ n, version = some (some n) → n < 2 ^ 32)
    (hentry : entry.length ≤ 99) (hentry0 : 0 ∉ entry) (hok : ∀ a ∈ as, a.Ok) (hnul : noNul as)
    (hkey : ∀ name, name = b!"delegator" ∨ name = b!"validator" → ∀ a, argNamed as name = some a → a.ty = .publicKey)
    (hnew : entry = b!"redelegate" → ∃ a, argNamed as b!"new_validator" = some a ∧ a.ty = .publicKey)
    (hother : entry = b!"delegate" ∨ entry = b!"undelegate" ∨ entry = b!"redelegate" →
      argNamed as b!"amount" = none ∨ argNamed as b!"delegator" = none ∨ argNamed as b!"validator" = none)
    (amount : List (Bytes × Bytes)) (hamount : argNamed as b!"amount" = none ∧ amount = [] ∨
      ∃ a k n, argNamed as b!"amount" = some a ∧ a.ty = .u512 ∧ a.value = UInt8.ofNat k :: le k n ∧ k ≤ 64 ∧ n < 256 ^ k ∧
        amount = [(b!"Amount", motesOf n)])
    (ap : List Bytes) (hap : ap.length < 2 ^ 32) (cs : List Bytes) (last : Bytes)
    (hcs : cs.flatten ++ last = 0 :: x.tx pl.blake ap) (hfit : (cs.flatten ++ last).length ≤ pl.cap)
    (time : Bytes) (hxo : d.expert = true → x.ExpertOk pl.fmtTime time) :
    ∃ d' ttl, (d.expert = true → duration ttl = x.ttl / 1000) ∧
      run pl d (upload 2 path cs last) = (d', List.replicate (cs.length + 1) (.reply [] 0x9000) ++ [.pending]) ∧
      Displays pl d' (x.screens pl.blake d.expert ap.length b!"Contract execution" time ttl (motesOf fee)
        (storedLines pl.blake d.expert byHash addr version ++ (if d.expert then [(b!"Entry-point", entry)] else []) ++ (amount ++
          [(b!"Args hash", argsHashText pl.blake as)]))) ∧
      (step pl d' .approve).2 = signatureReply pl path (pl.sha256 (pl.blake (x.header pl.blake).encode)) := by
  have hl := deploy_layout (H := pl.blake) (d := x) (ap := ap) (rest := []) (List.append_nil _).symm
  have hfits : Fits (deployEnv pl d.expert x ap) := by
    rw [hcs] at hfit
    unfold Fits; simp only [List.length_cons] at hfit; show (x.tx pl.blake ap).length ≤ 65535; omega
  have hat := hl.session
  rw [hses] at hat
  have hso : StoredOk byHash addr version entry as :=
    ⟨fun hb => by rw [hb] at haddr; exact haddr, hver, by omega, hentry0, hok, hnul⟩
  have hoa : OtherArgs entry as := by
    refine ⟨fun a ha => ?_, hkey _ (.inl rfl), hkey _ (.inr rfl), hnew, hother⟩
    rcases hamount with ⟨h, -⟩ | ⟨b, k, n, h, h2, -⟩
    · rw [h] at ha; cases ha
    · rw [h] at ha; cases ha; exact .inl h2
  have key := other_session (e := deployEnv pl d.expert x ap) (off := x.sessionPos pl.blake) hfits hso hat hoa
    (fun hb => by rw [hb] at haddr; exact haddr) (fun _ => hentry) (amount := amount) (by
      rcases hamount with ⟨h, rfl⟩ | ⟨b, k, n, h, h2, h3, h4, h5, rfl⟩
      · rw [h]; exact .nil
      · rw [h]; exact .cons (.motes rfl h (by rw [h2, h3]; exact .u512 k n h4 h5)) .nil)
  rw [← hses] at key
  refine deploy_upload pl hcap d hd path hlen hpath x code fk fee hx ap hap cs last hcs hfit key ?_ time hxo
  unfold typeLabel DeploySpec.parsed otherView storedStart
  have : (storedCall byHash addr version entry []).tag ≠ 5 := by rw [storedTag]; cases byHash <;> cases version <;> simp
  simp [this]

/-- A Deploy calling some entry point with some arguments. -/
def sampleMint : DeploySpec := { sampleDeploy with
  session := .versionedByHash (List.replicate 32 0x93) (some 2) b!"mint" [⟨b!"owner", sampleAccount.encode, .publicKey⟩,
    ⟨b!"count", le 4 3, .u32⟩, ⟨b!"amount", bigNum 5 500000000000, .u512⟩] }

/-- The hypotheses can be met. -/
example : ∃ d', run samplePl (Dev.init samplePl) (upload 2 (samplePath 0)
      [(0 :: sampleMint.tx Blake.H []).take 200] ((0 :: sampleMint.tx Blake.H []).drop 200)) =
      (d', [.reply [] 0x9000, .reply [] 0x9000, .pending]) ∧
    Displays samplePl d' [(b!"Txn hash", checksumHex Blake.H (Blake.H (sampleMint.header Blake.H).encode)), (b!"Type", b!"Contract execution"),
      (b!"Chain ID", b!"casper-test"), (b!"Account", b!"02" ++ checksumHex Blake.H (List.replicate 33 0xab)), (b!"Fee", motesOf 100000000),
      (b!"Execution", b!"by-hash-versioned"), (b!"Address", checksumHex Blake.H (List.replicate 32 0x93)), (b!"Amount", motesOf 500000000000),
      (b!"Args hash", argsHashText Blake.H sampleMint.session.args)] := by
  obtain ⟨d', ttl, -, h1, h2, -⟩ := C14_call_partial samplePl (by decide) (Dev.init samplePl) (.init _) (samplePath 0) rfl (by decide)
    sampleMint [] 4 100000000 ⟨⟨rfl, by decide, by decide, by decide, sampleDeploy_ok.deps⟩, by decide, by decide, rfl, by decide, by decide⟩
    true (List.replicate 32 0x93) (some (some 2)) b!"mint" sampleMint.session.args rfl rfl (by simp +contextual) (by decide) (by decide) (by
      intro a ha
      simp only [sampleMint, ExecItem.args, List.mem_cons, List.not_mem_nil, or_false] at ha
      rcases ha with rfl | rfl | rfl <;> exact ⟨by decide, by decide, by decide⟩) (by
      intro a ha
      simp only [sampleMint, ExecItem.args, List.mem_cons, List.not_mem_nil, or_false] at ha
      rcases ha with rfl | rfl | rfl <;> decide)
    (by rintro _ (rfl | rfl) a ha <;> cases ha) (by decide) (by decide) _
    (.inr ⟨_, 5, 500000000000, rfl, rfl, rfl, by decide, by decide, rfl⟩)
    [] (by decide) [(0 :: sampleMint.tx Blake.H []).take 200] ((0 :: sampleMint.tx Blake.H []).drop 200)
    (by rw [List.flatten_cons, List.flatten_nil, List.append_nil, List.take_append_drop]; rfl) (by decide +kernel) [] (by intro h; cases h)
  exact ⟨d', h1, h2⟩

/-- **C14 fails.** Whenever a call of a stored contract has an argument named "amount" whose type is neither U512 nor U32, or an argument named "delegator" or "validator"
that is not a PublicKey, the Deploy is accepted and its review shows neither arguments nor a hash of them; in normal mode it does not even show which contract is called.  Calls of
"delegate", "undelegate" and "redelegate" are still presented under those names. -/
theorem C14_hidden_false (pl : Platform) (hcap : pl.cap ≤ 16384) (d : Dev) (hd : d.Ok pl) (path : Bytes)
    (hlen : path.length = 20) (hpath : casperPath path) (x : DeploySpec) (code : Bytes) (fk fee : Nat) (hx : x.Usual code fk fee)
    (byHash : Bool) (addr : Bytes) (version : Option (Option Nat)) (entry : Bytes) (as : List Arg)
    (hses : x.session = storedCall byHash addr version entry as)
    (haddr : if byHash then addr.length = 32 else addr.length ≤ 299 ∧ 0 ∉ addr) (hver : ∀ n, version = some (some n) → n < 2 ^ 32)
    (hentry : entry.length ≤ 99) (hentry0 : 0 ∉ entry) (hok : ∀ a ∈ as, a.Ok) (hnul : noNul as)
    (hnew : entry = b!"redelegate" → ∃ a, argNamed as b!"new_validator" = some a ∧ a.ty = .publicKey)
    (hwrong : (∃ a, argNamed as b!"amount" = some a ∧ a.ty ≠ .u512 ∧ a.ty ≠ .u32) ∨ (∃ a, argNamed as b!"delegator" = some a ∧ a.ty ≠ .publicKey) ∨
      ∃ a, argNamed as b!"validator" = some a ∧ a.ty ≠ .publicKey)
    (ap : List Bytes) (hap : ap.length < 2 ^ 32) (cs : List Bytes) (last : Bytes)
    (hcs : cs.flatten ++ last = 0 :: x.tx pl.blake ap) (hfit : (cs.flatten ++ last).length ≤ pl.cap)
    (time : Bytes) (hxo : d.expert = true → x.ExpertOk pl.fmtTime time) :
    ∃ d' ttl type, (d.expert = true → duration ttl = x.ttl / 1000) ∧
      (type = if entry = b!"delegate" then b!"Delegate" else if entry = b!"undelegate" then b!"Undelegate"
        else if entry = b!"redelegate" then b!"Redelegate" else b!"Contract execution") ∧
      run pl d (upload 2 path cs last) = (d', List.replicate (cs.length + 1) (.reply [] 0x9000) ++ [.pending]) ∧
      Displays pl d' (x.screens pl.blake d.expert ap.length type time ttl (motesOf fee)
        (if d.expert then storedLines pl.blake true byHash addr version ++
          (if type = b!"Contract execution" then [(b!"Entry-point", entry)] else []) else [])) ∧
      (step pl d' .approve).2 = signatureReply pl path (pl.sha256 (pl.blake (x.header pl.blake).encode)) := by
  have hl := deploy_layout (H := pl.blake) (d := x) (ap := ap) (rest := []) (List.append_nil _).symm
  have hfits : Fits (deployEnv pl d.expert x ap) := by
    rw [hcs] at hfit
    unfold Fits; simp only [List.length_cons] at hfit; show (x.tx pl.blake ap).length ≤ 65535; omega
  have hat := hl.session
  rw [hses] at hat
  have hso : StoredOk byHash addr version entry as :=
    ⟨fun hb => by rw [hb] at haddr; exact haddr, hver, by omega, hentry0, hok, hnul⟩
  have hw : WrongArgs as := by
    rcases hwrong with ⟨a, ha, ht1, ht2⟩ | hw
    · exact .inl ⟨a, ha, by rintro (h | h); exacts [ht1 h, ht2 h]⟩
    · exact .inr hw
  have key := hidden_session (e := deployEnv pl d.expert x ap) (off := x.sessionPos pl.blake) hfits hso hat hw hnew
    (fun _ hb => by rw [hb] at haddr; exact haddr) (fun _ => hentry)
  rw [← hses] at key
  obtain ⟨d', ttl, k1, k2, k3, k4⟩ := deploy_upload pl hcap d hd path hlen hpath x code fk fee hx ap hap cs last hcs hfit key rfl time hxo
  have htag : (storedCall byHash addr version entry []).tag ≠ 5 := by rw [storedTag]; cases byHash <;> cases version <;> simp
  have hty : typeLabel (x.parsed pl.blake code fk fee (hiddenView d.expert byHash addr version entry as (x.sessionPos pl.blake))) =
      if entry = b!"delegate" then b!"Delegate" else if entry = b!"undelegate" then b!"Undelegate"
        else if entry = b!"redelegate" then b!"Redelegate" else b!"Contract execution" := by
    unfold typeLabel DeploySpec.parsed hiddenView storedStart entryKind
    dsimp only
    rw [cstr_eq hentry0, if_neg (by simp [htag])]
    by_cases h1 : entry = b!"delegate"
    · simp [h1, namedOp]
    by_cases h2 : entry = b!"undelegate"
    · simp [h2, namedOp]
    by_cases h3 : entry = b!"redelegate"
    · simp [h3, namedOp]
    simp [h1, h2, h3]
  refine ⟨d', ttl, _, k1, rfl, k2, ?_, k4⟩
  rw [← hty]
  have : (typeLabel (x.parsed pl.blake code fk fee (hiddenView d.expert byHash addr version entry as (x.sessionPos pl.blake))) = b!"Contract execution") ↔
      namedOp entry = false := by
    rw [hty]
    unfold namedOp
    by_cases h1 : entry = b!"delegate"
    · simp [h1]
    by_cases h2 : entry = b!"undelegate"
    · simp [h2]
    by_cases h3 : entry = b!"redelegate"
    · simp [h3]
    simp [h1, h2, h3]
  have hline : (if typeLabel (x.parsed pl.blake code fk fee (hiddenView d.expert byHash addr version entry as (x.sessionPos pl.blake))) =
      b!"Contract execution" then [(b!"Entry-point", entry)] else []) = if namedOp entry = true then [] else [(b!"Entry-point", entry)] := by
    cases hno : namedOp entry with
    | false => rw [if_pos (this.2 hno), if_neg (by decide)]
    | true => rw [if_neg (fun h => by rw [this.1 h] at hno; cases hno), if_pos rfl]
  rw [hline]
  exact k3

/-- A Deploy calling "delegate" with an amount of type U64. -/
def sampleHidden : DeploySpec := { sampleDeploy with
  session := .byHash (List.replicate 32 0x93) b!"delegate" [⟨b!"delegator", sampleAccount.encode, .publicKey⟩,
    ⟨b!"validator", 1 :: List.replicate 32 0x44, .publicKey⟩, ⟨b!"amount", le 8 500000000000, .u64⟩] }

/-- It is shown as a delegation of nothing by no one to no one. -/
example : ∃ d', run samplePl (Dev.init samplePl) (upload 2 (samplePath 0)
      [(0 :: sampleHidden.tx Blake.H []).take 200] ((0 :: sampleHidden.tx Blake.H []).drop 200)) =
      (d', [.reply [] 0x9000, .reply [] 0x9000, .pending]) ∧
    Displays samplePl d' [(b!"Txn hash", checksumHex Blake.H (Blake.H (sampleHidden.header Blake.H).encode)), (b!"Type", b!"Delegate"),
      (b!"Chain ID", b!"casper-test"), (b!"Account", b!"02" ++ checksumHex Blake.H (List.replicate 33 0xab)), (b!"Fee", motesOf 100000000)] := by
  obtain ⟨d', ttl, type, -, rfl, h1, h2, -⟩ := C14_hidden_false samplePl (by decide) (Dev.init samplePl) (.init _) (samplePath 0) rfl (by decide)
    sampleHidden [] 4 100000000 ⟨⟨rfl, by decide, by decide, by decide, sampleDeploy_ok.deps⟩, by decide, by decide, rfl, by decide, by decide⟩
    true (List.replicate 32 0x93) none b!"delegate" sampleHidden.session.args rfl rfl (by simp) (by decide) (by decide) (by
      intro a ha
      simp only [sampleHidden, ExecItem.args, List.mem_cons, List.not_mem_nil, or_false] at ha
      rcases ha with rfl | rfl | rfl <;> exact ⟨by decide, by decide, by decide⟩) (by
      intro a ha
      simp only [sampleHidden, ExecItem.args, List.mem_cons, List.not_mem_nil, or_false] at ha
      rcases ha with rfl | rfl | rfl <;> decide)
    (by decide) (.inl ⟨_, rfl, by decide, by decide⟩)
    [] (by decide) [(0 :: sampleHidden.tx Blake.H []).take 200] ((0 :: sampleHidden.tx Blake.H []).drop 200)
    (by rw [List.flatten_cons, List.flatten_nil, List.append_nil, List.take_append_drop]; rfl) (by decide +kernel) [] (by intro h; cases h)
  exact ⟨d', h1, h2⟩

/-! ### Native transfers with other arguments -/

/-- **C13, what is true of it.** A native transfer with a U512 amount that has not just the usual arguments (`OnlyTransferArgs`, see C12) or too few
(`SparseTransfer`, refused, see C85) is accepted, and its review shows a hash; but that is a hash of the number of arguments and the first argument only.  The full statement has the complete list
in place of `a`; see `C13_same_hash_false`. -/
theorem C13_first_partial (pl : Platform) (hcap : pl.cap ≤ 16384) (d : Dev) (hd : d.Ok pl) (path : Bytes)
    (hlen : path.length = 20) (hpath : casperPath path) (x : DeploySpec) (code : Bytes) (fk fee : Nat) (hx : x.Usual code fk fee)
    (a : Arg) (as : List Arg) (hses : x.session = .transfer (a :: as)) (hok : ∀ b ∈ a :: as, b.Ok) (hnul : noNul (a :: as))
    (hamount : ∃ b, argNamed (a :: as) b!"amount" = some b ∧ b.ty = .u512)
    (hother : ¬ OnlyTransferArgs (a :: as)) (hsparse : ¬ SparseTransfer (a :: as))
    (ap : List Bytes) (hap : ap.length < 2 ^ 32) (cs : List Bytes) (last : Bytes)
    (hcs : cs.flatten ++ last = 0 :: x.tx pl.blake ap) (hfit : (cs.flatten ++ last).length ≤ pl.cap)
    (time : Bytes) (hxo : d.expert = true → x.ExpertOk pl.fmtTime time) :
    ∃ d' ttl, (d.expert = true → duration ttl = x.ttl / 1000) ∧
      run pl d (upload 2 path cs last) = (d', List.replicate (cs.length + 1) (.reply [] 0x9000) ++ [.pending]) ∧
      Displays pl d' (x.screens pl.blake d.expert ap.length b!"Token transfer" time ttl (motesOf fee)
        [(b!"Args hash", b!"native-transfer-" ++ casedHex (pl.blake (le 4 (a :: as).length ++ a.encode)) (pl.blake (le 4 (a :: as).length ++ a.encode)))]) ∧
      (step pl d' .approve).2 = signatureReply pl path (pl.sha256 (pl.blake (x.header pl.blake).encode)) := by
  have hl := deploy_layout (H := pl.blake) (d := x) (ap := ap) (rest := []) (List.append_nil _).symm
  have hfits : Fits (deployEnv pl d.expert x ap) := by
    rw [hcs] at hfit
    unfold Fits; simp only [List.length_cons] at hfit; show (x.tx pl.blake ap).length ≤ 65535; omega
  have hat := hl.session
  rw [hses] at hat
  have key := genericTransfer_session (e := deployEnv pl d.expert x ap) (off := x.sessionPos pl.blake) hfits hok hnul hamount hother hsparse hat
  rw [← hses] at key
  exact deploy_upload pl hcap d hd path hlen hpath x code fk fee hx ap hap cs last hcs hfit key rfl time hxo

/-- A transfer with a remark; `t` is the byte repeated in the target. -/
def sampleRemark (t : UInt8) : DeploySpec := { sampleDeploy with
  session := .transfer [⟨b!"amount", bigNum 5 24500000000, .u512⟩, ⟨b!"target", List.replicate 32 t, .byteArray 32⟩,
    ⟨b!"id", 1 :: le 8 7, .option .u64⟩, ⟨b!"remark", pfx b!"hi", .string⟩] }

theorem sampleRemark_shown (t : UInt8) (ht : t = 0x11 ∨ t = 0x22) : ∃ d', run samplePl (Dev.init samplePl) (upload 2 (samplePath 0)
      [(0 :: (sampleRemark t).tx Blake.H []).take 200] ((0 :: (sampleRemark t).tx Blake.H []).drop 200)) =
      (d', [.reply [] 0x9000, .reply [] 0x9000, .pending]) ∧
    Displays samplePl d' [(b!"Txn hash", checksumHex Blake.H (Blake.H ((sampleRemark t).header Blake.H).encode)), (b!"Type", b!"Token transfer"),
      (b!"Chain ID", b!"casper-test"), (b!"Account", b!"02" ++ checksumHex Blake.H (List.replicate 33 0xab)), (b!"Fee", motesOf 100000000),
      (b!"Args hash", b!"native-transfer-" ++ casedHex (Blake.H (le 4 4 ++ (Arg.mk b!"amount" (bigNum 5 24500000000) .u512).encode))
        (Blake.H (le 4 4 ++ (Arg.mk b!"amount" (bigNum 5 24500000000) .u512).encode)))] := by
  have hlen : (0 :: (sampleRemark t).tx Blake.H []).length ≤ samplePl.cap := by
    rcases ht with rfl | rfl <;> decide +kernel
  obtain ⟨d', ttl, -, h1, h2, -⟩ := C13_first_partial samplePl (by decide) (Dev.init samplePl) (.init _) (samplePath 0) rfl (by decide)
    (sampleRemark t) [] 4 100000000 ⟨⟨rfl, sampleDeploy_ok.timestamp, sampleDeploy_ok.ttl, sampleDeploy_ok.gasPrice, sampleDeploy_ok.deps⟩,
      sampleDeploy_usual.chain, sampleDeploy_usual.chain0, rfl, by decide, by decide⟩
    ⟨b!"amount", bigNum 5 24500000000, .u512⟩ _ rfl (by
      intro a ha
      simp only [List.mem_cons, List.not_mem_nil, or_false] at ha
      rcases ht with rfl | rfl <;> rcases ha with rfl | rfl | rfl | rfl <;> exact ⟨by decide, by decide, by decide⟩) (by
      intro a ha
      simp only [List.mem_cons, List.not_mem_nil, or_false] at ha
      rcases ht with rfl | rfl <;> rcases ha with rfl | rfl | rfl | rfl <;> decide)
    ⟨_, rfl, rfl⟩ (fun h => by
      rcases h.facts.2.2.2 with ⟨hl, -⟩ | ⟨-, a, ha, -⟩
      · cases hl
      · cases ha) (fun h => by rcases h.facts.2 with ⟨hl, -⟩ | ⟨hl, -⟩ <;> cases hl)
    [] (by decide) [(0 :: (sampleRemark t).tx Blake.H []).take 200] ((0 :: (sampleRemark t).tx Blake.H []).drop 200)
    (by rw [List.flatten_cons, List.flatten_nil, List.append_nil, List.take_append_drop]; rfl)
    (by rw [List.flatten_cons, List.flatten_nil, List.append_nil, List.take_append_drop]; exact hlen) [] (by intro h; cases h)
  exact ⟨d', h1, h2⟩

/-- **C13 fails**: two transfers to different accounts are accepted and their reviews show the same arguments hash (and the same in all other
lines, except for the hash of the transaction). -/
theorem C13_same_hash_false : ∃ x y : DeploySpec, x.session.args ≠ y.session.args ∧ ∃ dx dy : Dev,
    run samplePl (Dev.init samplePl) (upload 2 (samplePath 0) [(0 :: x.tx Blake.H []).take 200] ((0 :: x.tx Blake.H []).drop 200)) =
      (dx, [.reply [] 0x9000, .reply [] 0x9000, .pending]) ∧
    run samplePl (Dev.init samplePl) (upload 2 (samplePath 0) [(0 :: y.tx Blake.H []).take 200] ((0 :: y.tx Blake.H []).drop 200)) =
      (dy, [.reply [] 0x9000, .reply [] 0x9000, .pending]) ∧
    ∃ lines : List (Bytes × Bytes), (∃ t, (b!"Args hash", t) ∈ lines) ∧
      Displays samplePl dx ((b!"Txn hash", checksumHex Blake.H (Blake.H (x.header Blake.H).encode)) :: lines) ∧
      Displays samplePl dy ((b!"Txn hash", checksumHex Blake.H (Blake.H (y.header Blake.H).encode)) :: lines) := by
  obtain ⟨dx, h1, h2⟩ := sampleRemark_shown 0x11 (.inl rfl)
  obtain ⟨dy, h3, h4⟩ := sampleRemark_shown 0x22 (.inr rfl)
  exact ⟨sampleRemark 0x11, sampleRemark 0x22, by decide, dx, dy, h1, h3, _,
    ⟨_, .tail _ (.tail _ (.tail _ (.tail _ (.head _))))⟩, h2, h4⟩

end Casper
