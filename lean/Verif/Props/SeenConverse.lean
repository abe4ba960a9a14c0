import Verif.Props.SeenStake

/-! # C70: what the lines of normal mode leave open, for all contract calls and delegations

`C70_entry_false` and `C70_contract_false` (Seen.lean) show two pairs of Deploys.  Here the same is proved of all Deploys of these kinds: nothing but what
`C70_call_partial` and `C70_stake` say is determined by the lines of normal mode. -/

namespace Casper

open M

/-- **C70 fails for every contract call in normal mode.** Two Deploys that call the same contract with the same arguments, for the same account, chain and fee, look the same
apart from the hash, whatever their entry points, versions, timestamps, lifetimes, gas prices, dependencies, payment codes and approvals are. -/
theorem C70_entries_false (pl : Platform) (hcap : pl.cap ≤ 16384) (d1 d2 d1' d2' : Dev) (hd1 : d1.Ok pl) (hd2 : d2.Ok pl) (hn1 : d1.expert = false)
    (hn2 : d2.expert = false) (x y : DeploySpec) (fee : Nat) (byHash : Bool) (addr : Bytes) (version version' : Option (Option Nat)) (entry entry' : Bytes)
    (as : List Arg) (amount : Option Nat) (hx : x.Calls fee byHash addr version entry as amount) (hy : y.Calls fee byHash addr version' entry' as amount)
    (hv : version.isSome = version'.isSome) (hc : x.chain = y.chain) (ha : x.account = y.account)
    (ap ap' : List Bytes) (hap : ap.length < 2 ^ 32) (hap' : ap'.length < 2 ^ 32)
    (hu1 : Uploaded pl d1 (0 :: x.tx pl.blake ap) d1') (hu2 : Uploaded pl d2 (0 :: y.tx pl.blake ap') d2') : SameButHash pl d1' d2' := by
  obtain ⟨ttl, -, a5⟩ := hx.shown (time := []) hcap hd1 hap hu1 (by rw [hn1]; intro h; cases h)
  obtain ⟨ttl', -, b5⟩ := hy.shown (time := []) hcap hd2 hap' hu2 (by rw [hn2]; intro h; cases h)
  rw [hn1] at a5
  rw [hn2] at b5
  refine a5.same b5 ?_ ?_ <;> cases version <;> cases version' <;> simp [DeploySpec.screens, storedLines, hc, ha] at hv ⊢

/-- **C70 fails for every delegation, revocation and redelegation in normal mode.** Two Deploys with the same operation, operands, account, chain and fee look the same
apart from the hash, whatever contracts they call, and whatever arguments follow the operands. -/
theorem C70_contracts_false (pl : Platform) (hcap : pl.cap ≤ 16384) (d1 d2 d1' d2' : Dev) (hd1 : d1.Ok pl) (hd2 : d2.Ok pl) (hn1 : d1.expert = false)
    (hn2 : d2.expert = false) (x y : DeploySpec) (fee n : Nat) (op : Stake) (byHash byHash' : Bool) (addr addr' : Bytes) (version version' : Option (Option Nat))
    (delegator validator : PubKey) (hx : x.Stakes fee op byHash addr version delegator validator n)
    (hy : y.Stakes fee op byHash' addr' version' delegator validator n) (hc : x.chain = y.chain) (ha : x.account = y.account)
    (ap ap' : List Bytes) (hap : ap.length < 2 ^ 32) (hap' : ap'.length < 2 ^ 32)
    (hu1 : Uploaded pl d1 (0 :: x.tx pl.blake ap) d1') (hu2 : Uploaded pl d2 (0 :: y.tx pl.blake ap') d2') : SameButHash pl d1' d2' := by
  obtain ⟨ttl, -, a5⟩ := hx.shown (time := []) hcap hd1 hap hu1 (by rw [hn1]; intro h; cases h)
  obtain ⟨ttl', -, b5⟩ := hy.shown (time := []) hcap hd2 hap' hu2 (by rw [hn2]; intro h; cases h)
  rw [hn1] at a5
  rw [hn2] at b5
  refine a5.same b5 ?_ ?_ <;> simp [DeploySpec.screens, hc, ha]

/-! ### Cases -/

/-- The two calls of `C70_entry_false` are such calls. -/
theorem sampleMints {x : DeploySpec} {entry : Bytes} (hx : x.Usual [] 4 100000000)
    (hs : x.session = .versionedByHash (List.replicate 32 0x93) (some 2) entry sampleMint.session.args) (he : entry.length ≤ 99 ∧ 0 ∉ entry)
    (hr : entry ≠ b!"redelegate") :
    x.Calls 100000000 true (List.replicate 32 0x93) (some (some 2)) entry sampleMint.session.args (some 500000000000) where
  usual := ⟨_, _, hx⟩
  sessionIs := hs
  addrIs := by decide
  versionIs := by simp
  entryIs := he
  argsIs := ⟨by
    intro a ha
    simp only [sampleMint, ExecItem.args, List.mem_cons, List.not_mem_nil, or_false] at ha
    rcases ha with rfl | rfl | rfl <;> exact ⟨by decide, by decide, by decide⟩, by unfold noNul; decide⟩
  keys := by rintro _ (rfl | rfl) a h <;> cases h
  redelegate := fun h => absurd h hr
  other := fun _ => .inr (.inl (by decide))
  amountIs := .inr ⟨⟨b!"amount", bigNum 5 500000000000, .u512⟩, 5, 500000000000, by decide, rfl, by decide, by decide, by decide, rfl⟩

/-- `C70_entries_false`: "mint" and "give_away" look the same. -/
example : SameButHash samplePl (afterUpload false (0 :: sampleMint.tx Blake.H [])) (afterUpload false (0 :: sampleOther.tx Blake.H [])) :=
  C70_entries_false samplePl (by decide) _ _ _ _ (.init _) (.init _) rfl rfl sampleMint sampleOther 100000000 true (List.replicate 32 0x93) (some (some 2)) (some (some 2))
    b!"mint" b!"give_away" _ _
    (sampleMints ⟨⟨rfl, by decide, by decide, by decide, sampleDeploy_ok.deps⟩, by decide, by decide, rfl, by decide, by decide⟩ rfl (by decide) (by decide))
    (sampleMints ⟨⟨rfl, by decide, by decide, by decide, sampleDeploy_ok.deps⟩, by decide, by decide, rfl, by decide, by decide⟩ rfl (by decide) (by decide))
    rfl rfl rfl [] [] (by decide) (by decide) (uploaded_sample (ex := false) (by decide +kernel)) (uploaded_sample (ex := false) (by decide +kernel))

/-- The redelegation of C15, asked of a contract called "thief". -/
def sampleThief : DeploySpec := { sampleDeploy with
  session := .byName b!"thief" b!"redelegate" (Stake.args sampleAccount (.ed25519 (List.replicate 32 0x44)) 5 500000000000
    (.redelegate (.ed25519 (List.replicate 32 0x55))) ++ []) }

/-- `C70_contracts_false`: the contracts "auction" and "thief" look the same. -/
example : SameButHash samplePl (afterUpload false (0 :: sampleMove.tx Blake.H [])) (afterUpload false (0 :: sampleThief.tx Blake.H [])) :=
  C70_contracts_false samplePl (by decide) _ _ _ _ (.init _) (.init _) rfl rfl sampleMove sampleThief 100000000 500000000000
    (.redelegate (.ed25519 (List.replicate 32 0x55))) false false b!"auction" b!"thief" (some (some 1)) none sampleAccount (.ed25519 (List.replicate 32 0x44))
    (sampleStakes (more := [⟨b!"remark", pfx b!"hi", .string⟩])
      ⟨⟨rfl, by decide, by decide, by decide, sampleDeploy_ok.deps⟩, by decide, by decide, rfl, by decide, by decide⟩ rfl
      (by intro a ha; simp only [List.mem_singleton] at ha; subst ha; exact ⟨by decide, by decide, by decide⟩) (by unfold noNul; decide))
    ⟨⟨[], 4, ⟨⟨rfl, by decide, by decide, by decide, sampleDeploy_ok.deps⟩, by decide, by decide, rfl, by decide, by decide⟩⟩,
      ⟨_, [], 5, rfl, by decide, by decide, List.Perm.refl _, by simp, by unfold noNul; decide⟩, by decide, by simp, ⟨rfl, rfl, rfl⟩⟩
    rfl rfl [] [] (by decide) (by decide) (uploaded_sample (ex := false) (by decide +kernel)) (uploaded_sample (ex := false) (by decide +kernel))

end Casper
