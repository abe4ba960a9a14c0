import Verif.Props.Transfers

/-!
C15 and C72: delegations with more arguments than they need.  Nothing of the further ones is shown.
-/
namespace Casper
open M

/-- What can be done with a stake. -/
inductive Stake
  | delegate
  | undelegate
  | redelegate (new : PubKey)

/-- The entry point. -/
def Stake.entry : Stake → Bytes
  | .delegate => b!"delegate"
  | .undelegate => b!"undelegate"
  | .redelegate _ => b!"redelegate"

/-- What it is called on the device. -/
def Stake.title : Stake → Bytes
  | .delegate => b!"Delegate"
  | .undelegate => b!"Undelegate"
  | .redelegate _ => b!"Redelegate"

/-- The arguments it needs; the amount `n` is written with `k` bytes. -/
def Stake.args (delegator validator : PubKey) (k n : Nat) : Stake → List Arg
  | .redelegate new => [⟨b!"delegator", delegator.encode, .publicKey⟩, ⟨b!"validator", validator.encode, .publicKey⟩,
      ⟨b!"new_validator", new.encode, .publicKey⟩, ⟨b!"amount", UInt8.ofNat k :: le k n, .u512⟩]
  | _ => [⟨b!"delegator", delegator.encode, .publicKey⟩, ⟨b!"validator", validator.encode, .publicKey⟩, ⟨b!"amount", UInt8.ofNat k :: le k n, .u512⟩]

/-- The lines about them. -/
def Stake.lines (H : Bytes → Bytes) (delegator validator : PubKey) (n : Nat) : Stake → List (Bytes × Bytes)
  | .redelegate new => [(b!"Delegator", delegator.address H), (b!"Old", validator.address H), (b!"New", new.address H), (b!"Amount", motesOf n)]
  | _ => [(b!"Delegator", delegator.address H), (b!"Validator", validator.address H), (b!"Amount", motesOf n)]

/-- All keys have their lengths. -/
def Stake.Ok (delegator validator : PubKey) : Stake → Prop
  | .redelegate new => delegator.Ok ∧ validator.Ok ∧ new.Ok
  | _ => delegator.Ok ∧ validator.Ok

theorem argNamed_append {as bs : List Arg} {name : Bytes} {a : Arg} (h : argNamed as name = some a) : argNamed (as ++ bs) name = some a := by
  unfold argNamed at h ⊢
  rw [List.find?_append, h]
  rfl

/-- **C15, with further arguments.** Any chunking of a well-formed Deploy that calls a stored contract's entry point "delegate", "undelegate" or "redelegate" with
the arguments needed, in any order, and then any others, even ones named like those, is acknowledged and opens a review; the review consists of exactly the lines
it has without the others, but for the hash in the first one; and approving signs the Deploy's hash. -/
theorem C15_surplus (pl : Platform) (hcap : pl.cap ≤ 16384) (d : Dev) (hd : d.Ok pl) (path : Bytes)
    (hlen : path.length = 20) (hpath : casperPath path) (x : DeploySpec) (code : Bytes) (fk fee : Nat) (hx : x.Usual code fk fee)
    (byHash : Bool) (addr : Bytes) (version : Option (Option Nat)) (op : Stake) (front more : List Arg)
    (hses : x.session = storedCall byHash addr version op.entry (front ++ more))
    (haddr : if byHash then addr.length = 32 else addr.length ≤ 299 ∧ 0 ∉ addr) (hver : ∀ n, version = some (some n) → n < 2 ^ 32)
    (delegator validator : PubKey) (hop : op.Ok delegator validator) (k n : Nat) (hk : k ≤ 64) (hkn : n < 256 ^ k)
    (hperm : front.Perm (op.args delegator validator k n)) (hmore : ∀ a ∈ more, a.Ok) (hnul : noNul more)
    (ap : List Bytes) (hap : ap.length < 2 ^ 32) (cs : List Bytes) (last : Bytes)
    (hcs : cs.flatten ++ last = 0 :: x.tx pl.blake ap) (hfit : (cs.flatten ++ last).length ≤ pl.cap)
    (time : Bytes) (hxo : d.expert = true → x.ExpertOk pl.fmtTime time) :
    ∃ d' ttl, (d.expert = true → duration ttl = x.ttl / 1000) ∧
      run pl d (upload 2 path cs last) = (d', List.replicate (cs.length + 1) (.reply [] 0x9000) ++ [.pending]) ∧
      Displays pl d' (x.screens pl.blake d.expert ap.length op.title time ttl (motesOf fee)
        ((if d.expert then storedLines pl.blake true byHash addr version else []) ++ op.lines pl.blake delegator validator n)) ∧
      (step pl d' .approve).2 = signatureReply pl path (pl.sha256 (pl.blake (x.header pl.blake).encode)) := by
  have hnd : (front.map Arg.name).Nodup := (hperm.map _).nodup_iff.2 (by
    cases op with
    | redelegate _ => show [b!"delegator", b!"validator", b!"new_validator", b!"amount"].Nodup; decide
    | _ => show [b!"delegator", b!"validator", b!"amount"].Nodup; decide)
  have hmem : ∀ a, a ∈ front ↔ _ := fun a => hperm.mem_iff
  have f1 := argNamed_mem hnd ((hmem ⟨b!"delegator", delegator.encode, .publicKey⟩).2 (by cases op <;> simp [Stake.args]))
  have f2 := argNamed_mem hnd ((hmem ⟨b!"validator", validator.encode, .publicKey⟩).2 (by cases op <;> simp [Stake.args]))
  have f3 := argNamed_mem hnd ((hmem ⟨b!"amount", UInt8.ofNat k :: le k n, .u512⟩).2 (by cases op <;> simp [Stake.args]))
  have hl := deploy_layout (H := pl.blake) (d := x) (ap := ap) (rest := []) (List.append_nil _).symm
  have hfits : Fits (deployEnv pl d.expert x ap) := by
    rw [hcs] at hfit
    unfold Fits; simp only [List.length_cons] at hfit; show (x.tx pl.blake ap).length ≤ 65535; omega
  have hat := hl.session
  rw [hses] at hat
  have hfo : ∀ a ∈ front, a.Ok ∧ (0 : UInt8) ∉ a.name := by
    intro a ha
    rw [hmem] at ha
    cases op <;> simp only [Stake.args, List.mem_cons, List.not_mem_nil, or_false] at ha
    · rcases ha with rfl | rfl | rfl <;> exact ⟨⟨of_decide_eq_true rfl, rfl, rfl⟩, of_decide_eq_true rfl⟩
    · rcases ha with rfl | rfl | rfl <;> exact ⟨⟨of_decide_eq_true rfl, rfl, rfl⟩, of_decide_eq_true rfl⟩
    · rcases ha with rfl | rfl | rfl | rfl <;> exact ⟨⟨of_decide_eq_true rfl, rfl, rfl⟩, of_decide_eq_true rfl⟩
  have hso : StoredOk byHash addr version op.entry (front ++ more) :=
    ⟨fun hb => by rw [hb] at haddr; exact haddr, hver, by cases op <;> exact of_decide_eq_true rfl, by cases op <;> exact of_decide_eq_true rfl,
      fun a ha => (List.mem_append.1 ha).elim (fun h => (hfo a h).1) (hmore a), fun a ha => (List.mem_append.1 ha).elim (fun h => (hfo a h).2) (hnul a)⟩
  have hda : DelegateNames (decide (op.entry = b!"redelegate")) (front ++ more) := by
    refine ⟨⟨_, argNamed_append f3, .inl rfl⟩, ⟨_, argNamed_append f1, rfl⟩, ⟨_, argNamed_append f2, rfl⟩, fun hr => ?_⟩
    cases op with
    | delegate => exact absurd hr (by decide)
    | undelegate => exact absurd hr (by decide)
    | redelegate new => exact ⟨_, argNamed_append (argNamed_mem hnd ((hmem ⟨b!"new_validator", new.encode, .publicKey⟩).2 (by simp [Stake.args]))), rfl⟩
  have s3 : ArgLine.Shows pl.blake front ⟨b!"Amount", b!"amount", true⟩ (b!"Amount", motesOf n) := .motes rfl f3 rfl (.u512 k n hk hkn)
  have key := delegation_session (e := deployEnv pl d.expert x ap) (off := x.sessionPos pl.blake)
    (op := match op with | .delegate => 5 | .undelegate => 6 | .redelegate _ => 7) hfits hso hat
    (by cases op <;> simp [Stake.entry]) hda (fun _ hb => by rw [hb] at haddr; exact haddr) rfl (by rw [hperm.length_eq]; cases op <;> rfl)
    (lines := op.lines pl.blake delegator validator n) (renders_of (by
      cases op with
      | delegate => exact .cons (.value rfl f1 (PubKey.shown _ hop.1)) (.cons (.value rfl f2 (PubKey.shown _ hop.2)) (.cons s3 .nil))
      | undelegate => exact .cons (.value rfl f1 (PubKey.shown _ hop.1)) (.cons (.value rfl f2 (PubKey.shown _ hop.2)) (.cons s3 .nil))
      | redelegate new =>
        have f4 := argNamed_mem hnd ((hmem ⟨b!"new_validator", new.encode, .publicKey⟩).2 (by simp [Stake.args]))
        exact .cons (.value rfl f1 (PubKey.shown _ hop.1)) (.cons (.value rfl f2 (PubKey.shown _ hop.2.1)) (.cons (.value rfl f4 (PubKey.shown _ hop.2.2)) (.cons s3 .nil)))))
  rw [← hses] at key
  refine deploy_upload pl hcap d hd path hlen hpath x code fk fee hx ap hap cs last hcs hfit key ?_ time hxo
  cases op <;> cases byHash <;> cases version <;> rfl

/-- **C72 fails** for every delegation, revocation and redelegation: any arguments can be added behind those needed, and replaced by any others, and all lines stay
what they are but for the hash (said for normal mode; for the lines of expert mode see `C15_surplus`). -/
theorem C72_surplus_false (pl : Platform) (hcap : pl.cap ≤ 16384) (d : Dev) (hd : d.Ok pl) (hex : d.expert = false) (path : Bytes)
    (hlen : path.length = 20) (hpath : casperPath path) (x : DeploySpec) (code : Bytes) (fk fee : Nat) (hx : x.Usual code fk fee)
    (byHash : Bool) (addr : Bytes) (version : Option (Option Nat)) (op : Stake) (front more more' : List Arg)
    (haddr : if byHash then addr.length = 32 else addr.length ≤ 299 ∧ 0 ∉ addr) (hver : ∀ n, version = some (some n) → n < 2 ^ 32)
    (delegator validator : PubKey) (hop : op.Ok delegator validator) (k n : Nat) (hk : k ≤ 64) (hkn : n < 256 ^ k)
    (hperm : front.Perm (op.args delegator validator k n)) (hmore : ∀ a ∈ more ++ more', a.Ok) (hnul : noNul (more ++ more'))
    (ap : List Bytes) (hap : ap.length < 2 ^ 32) (cs cs' : List Bytes) (last last' : Bytes)
    (hcs : cs.flatten ++ last = 0 :: { x with session := storedCall byHash addr version op.entry (front ++ more) }.tx pl.blake ap)
    (hcs' : cs'.flatten ++ last' = 0 :: { x with session := storedCall byHash addr version op.entry (front ++ more') }.tx pl.blake ap)
    (hfit : (cs.flatten ++ last).length ≤ pl.cap) (hfit' : (cs'.flatten ++ last').length ≤ pl.cap) :
    ∃ d1 d2 hash hash' lines,
      run pl d (upload 2 path cs last) = (d1, List.replicate (cs.length + 1) (.reply [] 0x9000) ++ [.pending]) ∧
      run pl d (upload 2 path cs' last') = (d2, List.replicate (cs'.length + 1) (.reply [] 0x9000) ++ [.pending]) ∧
      Displays pl d1 ((b!"Txn hash", hash) :: lines) ∧ Displays pl d2 ((b!"Txn hash", hash') :: lines) := by
  obtain ⟨d1, t1, -, a1, a2, -⟩ := C15_surplus pl hcap d hd path hlen hpath { x with session := storedCall byHash addr version op.entry (front ++ more) } code fk fee
    ⟨⟨hx.1.1, hx.1.2, hx.1.3, hx.1.4, hx.1.5⟩, hx.2, hx.3, hx.4, hx.5, hx.6⟩ byHash addr version op front more rfl haddr hver delegator validator hop k n hk hkn hperm
    (fun a ha => hmore a (List.mem_append_left _ ha)) (fun a ha => hnul a (List.mem_append_left _ ha)) ap hap cs last hcs hfit [] (by simp [hex])
  obtain ⟨d2, t2, -, b1, b2, -⟩ := C15_surplus pl hcap d hd path hlen hpath { x with session := storedCall byHash addr version op.entry (front ++ more') } code fk fee
    ⟨⟨hx.1.1, hx.1.2, hx.1.3, hx.1.4, hx.1.5⟩, hx.2, hx.3, hx.4, hx.5, hx.6⟩ byHash addr version op front more' rfl haddr hver delegator validator hop k n hk hkn hperm
    (fun a ha => hmore a (List.mem_append_right _ ha)) (fun a ha => hnul a (List.mem_append_right _ ha)) ap hap cs' last' hcs' hfit' [] (by simp [hex])
  rw [hex] at a2 b2
  exact ⟨d1, d2, _, _, _, a1, b1, a2, b2⟩

/-- The sample delegation, and the same with another amount behind it. -/
def sampleTwice : List Arg := [⟨b!"amount", bigNum 5 900000000000, .u512⟩]

/-- The hypotheses can be met, with an argument named like one of those shown. -/
example : ∃ d1 d2 hash hash' lines,
    run samplePl (Dev.init samplePl) (upload 2 (samplePath 0) [] (0 :: { sampleDelegate with
      session := storedCall true (List.replicate 32 0x93) none b!"delegate" (sampleDelegate.session.args ++ []) }.tx Blake.H [])) = (d1, [.reply [] 0x9000, .pending]) ∧
    run samplePl (Dev.init samplePl) (upload 2 (samplePath 0) [] (0 :: { sampleDelegate with
      session := storedCall true (List.replicate 32 0x93) none b!"delegate" (sampleDelegate.session.args ++ sampleTwice) }.tx Blake.H [])) = (d2, [.reply [] 0x9000, .pending]) ∧
    Displays samplePl d1 ((b!"Txn hash", hash) :: lines) ∧ Displays samplePl d2 ((b!"Txn hash", hash') :: lines) :=
  C72_surplus_false samplePl (by decide) (Dev.init samplePl) (.init _) rfl (samplePath 0) rfl (by decide)
    sampleDelegate [] 4 100000000 ⟨⟨rfl, by decide, by decide, by decide, sampleDeploy_ok.deps⟩, by decide, by decide, rfl, by decide, by decide⟩
    true (List.replicate 32 0x93) none .delegate sampleDelegate.session.args [] sampleTwice List.length_replicate (by simp)
    sampleAccount (.ed25519 (List.replicate 32 0x44)) ⟨rfl, rfl⟩ 5 500000000000 (by decide) (by decide) (List.Perm.refl _)
    (by intro a ha; simp only [sampleTwice, List.nil_append, List.mem_singleton] at ha; subst ha; exact ⟨by decide, by decide, by decide⟩)
    (by unfold noNul; decide) [] (by decide) [] [] _ _ rfl rfl (by decide +kernel) (by decide +kernel)

/-- A redelegation with a remark behind its arguments. -/
def sampleMove : DeploySpec := { sampleDeploy with
  session := .versionedByName b!"auction" (some 1) b!"redelegate" (Stake.args sampleAccount (.ed25519 (List.replicate 32 0x44)) 5 500000000000
    (.redelegate (.ed25519 (List.replicate 32 0x55))) ++ [⟨b!"remark", pfx b!"hi", .string⟩]) }

/-- The hypotheses of `C15_surplus` can be met in expert mode. -/
example : ∃ d' ttl, duration ttl = 3600 ∧
    run samplePl { Dev.init samplePl with expert := true } (upload 2 (samplePath 0) [] (0 :: sampleMove.tx Blake.H [])) = (d', [.reply [] 0x9000, .pending]) ∧
    Displays samplePl d' (sampleMove.screens Blake.H true 0 b!"Redelegate" b!"2021-05-04 14:20:35 UTC" ttl (motesOf 100000000)
      [(b!"Execution", b!"by-name-versioned"), (b!"Name", b!"auction"), (b!"Version", b!"1"), (b!"Delegator", sampleAccount.address Blake.H),
        (b!"Old", (PubKey.ed25519 (List.replicate 32 0x44)).address Blake.H), (b!"New", (PubKey.ed25519 (List.replicate 32 0x55)).address Blake.H),
        (b!"Amount", motesOf 500000000000)]) := by
  obtain ⟨d', ttl, h0, h1, h2, -⟩ := C15_surplus samplePl (by decide) { Dev.init samplePl with expert := true } (Dev.Ok.init samplePl) (samplePath 0) rfl (by decide)
    sampleMove [] 4 100000000 ⟨⟨rfl, by decide, by decide, by decide, sampleDeploy_ok.deps⟩, by decide, by decide, rfl, by decide, by decide⟩
    false b!"auction" (some (some 1)) (.redelegate (.ed25519 (List.replicate 32 0x55))) _ [⟨b!"remark", pfx b!"hi", .string⟩] rfl (by decide) (by simp)
    sampleAccount (.ed25519 (List.replicate 32 0x44)) ⟨rfl, rfl, rfl⟩ 5 500000000000 (by decide) (by decide) (List.Perm.refl _)
    (by intro a ha; simp only [List.mem_singleton] at ha; subst ha; exact ⟨by decide, by decide, by decide⟩)
    (by unfold noNul; decide) [] (by decide) [] _ rfl (by decide +kernel) b!"2021-05-04 14:20:35 UTC" (fun _ => ⟨rfl, by decide⟩)
  exact ⟨d', ttl, h0 rfl, h1, h2⟩

end Casper
