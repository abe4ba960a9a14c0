import Verif.Props.Seen
import Verif.Props.Surplus

/-!
C70 for delegations, revocations and redelegations, whatever arguments follow those needed.
-/
namespace Casper
open M

/-- A well-formed Deploy that calls "delegate", "undelegate" or "redelegate" of a stored contract, with the arguments needed in front. -/
structure DeploySpec.Stakes (x : DeploySpec) (fee : Nat) (op : Stake) (byHash : Bool) (addr : Bytes) (version : Option (Option Nat)) (delegator validator : PubKey)
    (amount : Nat) : Prop where
  usual : ∃ code k, x.Usual code k fee
  session : ∃ front more k, x.session = storedCall byHash addr version op.entry (front ++ more) ∧ k ≤ 64 ∧ amount < 256 ^ k ∧
    front.Perm (op.args delegator validator k amount) ∧ (∀ a ∈ more, a.Ok) ∧ noNul more
  addr : if byHash then addr.length = 32 else addr.length ≤ 299 ∧ 0 ∉ addr
  version : ∀ n, version = some (some n) → n < 2 ^ 32
  keys : op.Ok delegator validator

/-- Such a Deploy is shown (C15). -/
theorem DeploySpec.Stakes.shown {pl : Platform} (hcap : pl.cap ≤ 16384) {d d' : Dev} (hd : d.Ok pl) {x : DeploySpec} {fee n : Nat} {op : Stake} {byHash : Bool} {addr : Bytes}
    {version : Option (Option Nat)} {delegator validator : PubKey} (hx : x.Stakes fee op byHash addr version delegator validator n) {ap : List Bytes}
    (hap : ap.length < 2 ^ 32) (hu : Uploaded pl d (0 :: x.tx pl.blake ap) d') {time : Bytes} (hxo : d.expert = true → x.ExpertOk pl.fmtTime time) :
    ∃ ttl, (d.expert = true → duration ttl = x.ttl / 1000) ∧
      Displays pl d' (x.screens pl.blake d.expert ap.length op.title time ttl (motesOf fee)
        ((if d.expert then storedLines pl.blake true byHash addr version else []) ++ op.lines pl.blake delegator validator n)) := by
  obtain ⟨⟨code, fk, u1⟩, ⟨front, more, k, u2, u3, u4, u5, u6, u7⟩, u8, u9, u10⟩ := hx
  obtain ⟨path, cs, last, p1, p2, p3, p4, rfl⟩ := hu
  obtain ⟨d', ttl, h1, h2, h3, -⟩ := C15_surplus pl hcap d hd path p1 p2 x code fk fee u1 byHash addr version op front more u2 u8 u9 delegator validator u10 k n u3 u4 u5
    u6 u7 ap hap cs last p3 (by rw [p3]; exact p4) time hxo
  rw [h2]
  exact ⟨ttl, h1, h3⟩

/-- The lines about the arguments determine the operation and its operands. -/
theorem Stake.lines_inj {H : Hash} {op op' : Stake} {delegator delegator' validator validator' : PubKey} {n n' : Nat} {l l' : List (Bytes × Bytes)}
    (ht : op.title = op'.title) (h : op.lines H delegator validator n ++ l = op'.lines H delegator' validator' n' ++ l') :
    op = op' ∧ delegator = delegator' ∧ validator = validator' ∧ n = n' ∧ l = l' := by
  cases op <;> cases op' <;> first | exact absurd ht (by simp only [Stake.title]; decide) | skip
  · simp only [Stake.lines, List.cons_append, List.nil_append, List.cons.injEq, Prod.mk.injEq, true_and] at h
    exact ⟨rfl, PubKey.address_inj h.1, PubKey.address_inj h.2.1, C17_amount_injective _ _ h.2.2.1, h.2.2.2⟩
  · simp only [Stake.lines, List.cons_append, List.nil_append, List.cons.injEq, Prod.mk.injEq, true_and] at h
    exact ⟨rfl, PubKey.address_inj h.1, PubKey.address_inj h.2.1, C17_amount_injective _ _ h.2.2.1, h.2.2.2⟩
  · simp only [Stake.lines, List.cons_append, List.nil_append, List.cons.injEq, Prod.mk.injEq, true_and] at h
    exact ⟨by rw [PubKey.address_inj h.2.2.1], PubKey.address_inj h.1, PubKey.address_inj h.2.1, C17_amount_injective _ _ h.2.2.2.1, h.2.2.2.2⟩

/-- **C70, delegations, revocations and redelegations in Deploys.** Two reviews, in the same mode, of well-formed Deploys that call "delegate", "undelegate" or
"redelegate" with the arguments needed and perhaps others behind them: if they show the same lines, apart from the hash, then the operation, the account, the chain,
the fee, the delegator, the validators and the amount are the same; in expert mode also the contract that is called (a version that is not given is shown as 0). -/
theorem C70_stake (pl : Platform) (hcap : pl.cap ≤ 16384) (d1 d2 d1' d2' : Dev) (hd1 : d1.Ok pl) (hd2 : d2.Ok pl) (hm : d1.expert = d2.expert) (x y : DeploySpec)
    (fee fee' n n' : Nat) (op op' : Stake) (byHash byHash' : Bool) (addr addr' : Bytes) (version version' : Option (Option Nat))
    (delegator delegator' validator validator' : PubKey)
    (hx : x.Stakes fee op byHash addr version delegator validator n) (hy : y.Stakes fee' op' byHash' addr' version' delegator' validator' n')
    (ap ap' : List Bytes) (hap : ap.length < 2 ^ 32) (hap' : ap'.length < 2 ^ 32)
    (hu1 : Uploaded pl d1 (0 :: x.tx pl.blake ap) d1') (hu2 : Uploaded pl d2 (0 :: y.tx pl.blake ap') d2') (time time' : Bytes)
    (ho1 : d1.expert = true → x.ExpertOk pl.fmtTime time) (ho2 : d2.expert = true → y.ExpertOk pl.fmtTime time') (hs : SameButHash pl d1' d2') :
    x.HeadAlike pl.fmtTime d1.expert y ∧ fee = fee' ∧ op = op' ∧ delegator = delegator' ∧ validator = validator' ∧ n = n' ∧
      (d1.expert = true → byHash = byHash' ∧ addr = addr' ∧ version.map (·.getD 0) = version'.map (·.getD 0) ∧ ap.length = ap'.length) := by
  obtain ⟨ttl, a1, a5⟩ := hx.shown hcap hd1 hap hu1 ho1
  obtain ⟨ttl', b1, b5⟩ := hy.shown hcap hd2 hap' hu2 ho2
  have ht := Displays.tail_eq a5 b5 hs
  rw [← hm] at ht b1 ho2
  obtain ⟨h1, h2, h0, h3⟩ := DeploySpec.screens_tail ht (fun h => (ho1 h).time) (fun h => (ho2 h).time) a1 b1
  refine ⟨h1, h2, ?_⟩
  cases hexp : d1.expert with
  | false =>
    simp only [hexp, Bool.false_eq_true, if_false, List.nil_append] at h3
    obtain ⟨e1, e2, e3, e4, -⟩ := Stake.lines_inj h0 h3
    exact ⟨e1, e2, e3, e4, by intro h; cases h⟩
  | true =>
    simp only [hexp, if_true] at h3
    rw [List.append_assoc, List.append_assoc] at h3
    have hd : ∀ (o : Stake) (a b : PubKey) (m : Nat) (l : List (Bytes × Bytes)), ∃ r, o.lines pl.blake a b m ++ l = (b!"Delegator", a.address pl.blake) :: r :=
      fun o a b m l => by cases o <;> exact ⟨_, rfl⟩
    have key : byHash = byHash' ∧ (if byHash then checksumHex pl.blake addr = checksumHex pl.blake addr' else addr = addr') ∧
        (version.map fun v => decText (v.getD 0)) = (version'.map fun v => decText (v.getD 0)) ∧
        op.lines pl.blake delegator validator n ++ [(b!"Approvals #", decText ap.length)] =
          op'.lines pl.blake delegator' validator' n' ++ [(b!"Approvals #", decText ap'.length)] := by
      obtain ⟨r, hr⟩ := hd op delegator validator n [(b!"Approvals #", decText ap.length)]
      obtain ⟨r', hr'⟩ := hd op' delegator' validator' n' [(b!"Approvals #", decText ap'.length)]
      rw [hr, hr'] at h3 ⊢
      cases byHash <;> cases byHash' <;> cases version <;> cases version' <;> simp [storedLines] at h3 ⊢ <;> simp [h3]
    obtain ⟨rfl, k2, k3, k4⟩ := key
    obtain ⟨e1, e2, e3, e4, e5⟩ := Stake.lines_inj h0 k4
    refine ⟨e1, e2, e3, e4, fun _ => ⟨rfl, ?_, ?_, decText_inj (by simpa using e5)⟩⟩
    · cases byHash with
      | true => exact checksumHex_inj k2
      | false => exact k2
    · cases version <;> cases version' <;> simp at k3 ⊢
      exact decText_inj k3

/-- The same redelegation with another remark. -/
def sampleMoved : DeploySpec := { sampleDeploy with
  session := .versionedByName b!"auction" (some 1) b!"redelegate" (Stake.args sampleAccount (.ed25519 (List.replicate 32 0x44)) 5 500000000000
    (.redelegate (.ed25519 (List.replicate 32 0x55))) ++ [⟨b!"remark", pfx b!"yo", .string⟩, ⟨b!"amount", le 4 1, .u32⟩]) }

theorem sampleStakes {x : DeploySpec} {more : List Arg} (hx : x.Usual [] 4 100000000) (hs : x.session = .versionedByName b!"auction" (some 1) b!"redelegate"
      (Stake.args sampleAccount (.ed25519 (List.replicate 32 0x44)) 5 500000000000 (.redelegate (.ed25519 (List.replicate 32 0x55))) ++ more))
    (hm : ∀ a ∈ more, a.Ok) (hn : noNul more) :
    x.Stakes 100000000 (.redelegate (.ed25519 (List.replicate 32 0x55))) false b!"auction" (some (some 1)) sampleAccount (.ed25519 (List.replicate 32 0x44)) 500000000000 :=
  ⟨⟨_, _, hx⟩, ⟨_, more, 5, hs, by decide, by decide, List.Perm.refl _, hm, hn⟩, by decide, by simp, ⟨rfl, rfl, rfl⟩⟩

/-- The hypotheses of `C70_stake` can be met by different Deploys: redelegations with different arguments behind those needed. -/
example : SameButHash samplePl (afterUpload false (0 :: sampleMove.tx Blake.H [])) (afterUpload false (0 :: sampleMoved.tx Blake.H [])) ∧
    sampleMove.session.args ≠ sampleMoved.session.args ∧
    sampleMove.Stakes 100000000 (.redelegate (.ed25519 (List.replicate 32 0x55))) false b!"auction" (some (some 1)) sampleAccount (.ed25519 (List.replicate 32 0x44))
      500000000000 ∧
    sampleMoved.Stakes 100000000 (.redelegate (.ed25519 (List.replicate 32 0x55))) false b!"auction" (some (some 1)) sampleAccount (.ed25519 (List.replicate 32 0x44))
      500000000000 := by
  have hx := sampleStakes (x := sampleMove) (more := [⟨b!"remark", pfx b!"hi", .string⟩])
    ⟨⟨rfl, by decide, by decide, by decide, sampleDeploy_ok.deps⟩, by decide, by decide, rfl, by decide, by decide⟩ rfl
    (by intro a ha; simp only [List.mem_singleton] at ha; subst ha; exact ⟨by decide, by decide, by decide⟩) (by unfold noNul; decide)
  have hy := sampleStakes (x := sampleMoved) (more := [⟨b!"remark", pfx b!"yo", .string⟩, ⟨b!"amount", le 4 1, .u32⟩])
    ⟨⟨rfl, by decide, by decide, by decide, sampleDeploy_ok.deps⟩, by decide, by decide, rfl, by decide, by decide⟩ rfl
    (by
      intro a ha
      simp only [List.mem_cons, List.not_mem_nil, or_false] at ha
      rcases ha with rfl | rfl <;> exact ⟨by decide, by decide, by decide⟩) (by unfold noNul; decide)
  refine ⟨?_, fun h => absurd (congrArg List.length h) (by decide), hx, hy⟩
  obtain ⟨_, -, h1⟩ := hx.shown (pl := samplePl) (by decide) (.init _) (ap := []) (by decide) (uploaded_sample (ex := false) (by decide +kernel)) (time := []) (by intro h; cases h)
  obtain ⟨_, -, h2⟩ := hy.shown (pl := samplePl) (by decide) (.init _) (ap := []) (by decide) (uploaded_sample (ex := false) (by decide +kernel)) (time := []) (by intro h; cases h)
  have he : (Dev.init samplePl).expert = false := rfl
  exact h1.same h2 (by simp [DeploySpec.screens, he]) (by simp [DeploySpec.screens, he, sampleMove, sampleMoved])

end Casper
