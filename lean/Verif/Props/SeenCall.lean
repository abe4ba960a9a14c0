import Verif.Props.Seen
import Verif.Props.Calls

/-!
C70 for contract calls in version 1 transactions.
-/
namespace Casper
open M

/-- What the lines about two targets, being the same, say about the targets.  Addresses are shown in decimal without separators (C50), the version of a
package only in expert mode; nothing is said about the virtual machine, and nothing about the code of a session. -/
def V1Target.Alike (expert : Bool) : V1Target → V1Target → Prop
  | .byHash h _, .byHash h' _ => (∀ b ∈ h ++ h', 100 ≤ b.toNat) → h = h'
  | .byName n _, .byName n' _ => n = n'
  | .byPackageHash h v _, .byPackageHash h' v' _ => ((∀ b ∈ h ++ h', 100 ≤ b.toNat) → h = h') ∧ (expert = true → v = v')
  | .byPackageName n v _, .byPackageName n' v' _ => n = n' ∧ (expert = true → v = v')
  | .native, .native | .native, .session .. | .session .., .native | .session .., .session .. => True
  | _, _ => False

theorem addr_alike {h h' : Bytes} (he : decimalAddress h = decimalAddress h') (hb : ∀ b ∈ h ++ h', 100 ≤ b.toNat) : h = h' :=
  C50_address_partial h h' (fun b m => hb b (List.mem_append_left _ m)) (fun b m => hb b (List.mem_append_right _ m)) he

/-- A stored contract is called. -/
def V1Target.Stored : V1Target → Prop
  | .native | .session .. => False
  | _ => True

/-- The lines about a call determine target, entry point and hash of the arguments. -/
theorem callLines_inj {H : Hash} {p q : TxPayload} {ex : Bool} {name name' : Bytes} (hst : p.target.Stored) (hp : p.target.Showable ex) (hq : q.target.Showable ex)
    {l l' : List (Bytes × Bytes)} (hll : l.length = l'.length) (h : p.callLines H ex name ++ l = q.callLines H ex name' ++ l') :
    p.target.Alike ex q.target ∧ name = name' ∧ H p.args.blob = H q.args.blob ∧ l = l' := by
  have hlen := congrArg List.length h
  rw [List.length_append, List.length_append] at hlen
  obtain ⟨h, hl⟩ := List.append_inj h (by omega)
  clear hlen
  refine (fun (h1 : p.target.Alike ex q.target ∧ name = name' ∧ checksumHex H (H p.args.blob) = checksumHex H (H q.args.blob)) =>
    ⟨h1.1, h1.2.1, checksumHex_inj h1.2.2, hl⟩) ?_
  unfold TxPayload.callLines versionLine at h
  cases hpt : p.target <;> rw [hpt] at h hp hst <;> first | exact hst.elim | skip
  all_goals cases hqt : q.target <;> rw [hqt] at h hq
  all_goals cases ex
  all_goals simp only [V1Target.Alike, V1Target.Showable, forall_const, Bool.false_eq_true, false_implies, and_true] at h hp hq ⊢
  all_goals first
    | (obtain ⟨x, rfl, -⟩ := hp; obtain ⟨y, rfl, -⟩ := hq)
    | (obtain ⟨-, x, rfl, -⟩ := hp; obtain ⟨-, y, rfl, -⟩ := hq)
    | (obtain ⟨x, rfl, -⟩ := hp; obtain ⟨-, y, rfl, -⟩ := hq)
    | (obtain ⟨-, x, rfl, -⟩ := hp; obtain ⟨y, rfl, -⟩ := hq)
    | (obtain ⟨x, rfl, -⟩ := hp)
    | (obtain ⟨-, x, rfl, -⟩ := hp)
    | (obtain ⟨y, rfl, -⟩ := hq)
    | (obtain ⟨-, y, rfl, -⟩ := hq)
    | skip
  all_goals simp at h ⊢
  all_goals first
    | exact h
    | exact ⟨fun hb => addr_alike h.1 (by simpa using hb), h.2⟩
    | exact ⟨⟨fun hb => addr_alike h.1 (by simpa using hb), decText_inj h.2.1⟩, h.2.2⟩
    | exact ⟨⟨h.1, decText_inj h.2.1⟩, h.2.2⟩

/-- **C70, contract calls in version 1.** Two reviews, in the same mode, of well-formed transactions with an entry point given by name, the first one calling a stored
contract: if they show the same lines, apart from the hash, then the second one calls a stored contract too, found in the same way; account, chain and entry point are
the same, the contracts are the same as far as their line shows it (`V1Target.Alike`), and so are the arguments, unless they have the same BLAKE2b hash; in expert mode
also version, prices and times (in seconds) are the same.  (Missing: what `V1Target.Alike` leaves open, see `C50_address_false` and `C70_version_false`.) -/
theorem C70_v1_call_partial (pl : Platform) (hcap : pl.cap ≤ 16384) (d1 d2 d1' d2' : Dev) (hd1 : d1.Ok pl) (hd2 : d2.Ok pl) (hm : d1.expert = d2.expert) (p q : TxPayload)
    (name name' : Bytes) (hp : p.Call name) (hq : q.Call name') (hst : p.target.Stored) (hps : p.target.Showable d1.expert) (hqs : q.target.Showable d2.expert)
    (ap ap' : List Bytes) (hap : ∀ x ∈ ap, ApprovalOk x) (hap' : ∀ x ∈ ap', ApprovalOk x)
    (hu1 : Uploaded pl d1 (1 :: p.tx pl.blake ap) d1') (hu2 : Uploaded pl d2 (1 :: q.tx pl.blake ap') d2') (time time' : Bytes)
    (ho1 : d1.expert = true → p.ExpertOk pl.fmtTime time) (ho2 : d2.expert = true → q.ExpertOk pl.fmtTime time') (hs : SameButHash pl d1' d2') :
    p.HeadAlike pl.fmtTime d1.expert q ∧ p.target.Alike d1.expert q.target ∧
      (p.args.blob = q.args.blob ∨ p.args.blob ≠ q.args.blob ∧ pl.blake p.args.blob = pl.blake q.args.blob) ∧ (d1.expert = true → ap.length = ap'.length) := by
  obtain ⟨path, cs, last, p1, p2, p3, p4, rfl⟩ := hu1
  obtain ⟨path', cs', last', q1, q2, q3, q4, rfl⟩ := hu2
  obtain ⟨d', ttl, a1, a2, a5, -⟩ := C53_call_partial pl hcap d1 hd1 path p1 p2 p name ap hp hps hap cs last p3 (by rw [p3]; exact p4) time ho1
  obtain ⟨d'', ttl', b1, b2, b5, -⟩ := C53_call_partial pl hcap d2 hd2 path' q1 q2 q name' ap' hq hqs hap' cs' last' q3 (by rw [q3]; exact q4) time' ho2
  rw [a2, b2] at hs
  have ht := Displays.tail_eq a5 b5 hs
  rw [← hm] at ht b1 ho2 hqs
  obtain ⟨h1, h2, h3, h4, h5⟩ := TxPayload.screens_tail hp.ok.initiator hq.ok.initiator ht (fun h => (ho1 h).time) (fun h => (ho2 h).time) a1 b1
  obtain ⟨k1, k2, k3, k4⟩ := callLines_inj hst hps hqs (by cases d1.expert <;> rfl) h5
  refine ⟨⟨h1, h2, by rw [hp.entry, hq.entry, k2], fun h => (h4 h).1, fun h => (h4 h).2.1, fun h => (h4 h).2.2⟩, k1, ?_, fun h => ?_⟩
  · by_cases hab : p.args.blob = q.args.blob
    · exact .inl hab
    · exact .inr ⟨hab, k3⟩
  · rw [h] at k4
    exact decText_inj (by simpa using k4)

/-- **C70 fails** for calls of packages in normal mode: whatever versions are asked for, or none, the lines are the same but for the hash; and likewise for the virtual
machine that is to run the contract. -/
theorem C70_version_false (pl : Platform) (hcap : pl.cap ≤ 16384) (d : Dev) (hd : d.Ok pl) (hex : d.expert = false) (path : Bytes)
    (hlen : path.length = 20) (hpath : casperPath path) (p : TxPayload) (name h : Bytes) (v v' : Option Nat) (rt rt' : VmRuntime)
    (hp : { p with target := .byPackageHash h v rt }.Call name) (hq : { p with target := .byPackageHash h v' rt' }.Call name)
    (ap : List Bytes) (hap : ∀ x ∈ ap, ApprovalOk x) (cs cs' : List Bytes) (last last' : Bytes)
    (hcs : cs.flatten ++ last = 1 :: { p with target := .byPackageHash h v rt }.tx pl.blake ap)
    (hcs' : cs'.flatten ++ last' = 1 :: { p with target := .byPackageHash h v' rt' }.tx pl.blake ap)
    (hfit : (cs.flatten ++ last).length ≤ pl.cap) (hfit' : (cs'.flatten ++ last').length ≤ pl.cap) :
    ∃ d1 d2 hash hash' lines,
      run pl d (upload 2 path cs last) = (d1, List.replicate (cs.length + 1) (.reply [] 0x9000) ++ [.pending]) ∧
      run pl d (upload 2 path cs' last') = (d2, List.replicate (cs'.length + 1) (.reply [] 0x9000) ++ [.pending]) ∧
      Displays pl d1 ((b!"Txn hash", hash) :: lines) ∧ Displays pl d2 ((b!"Txn hash", hash') :: lines) := by
  obtain ⟨d1, t1, -, a1, a2, -⟩ := C53_call_partial pl hcap d hd path hlen hpath _ name ap hp (by intro h; rw [hex] at h; cases h) hap cs last hcs hfit [] (by simp [hex])
  obtain ⟨d2, t2, -, b1, b2, -⟩ := C53_call_partial pl hcap d hd path hlen hpath _ name ap hq (by intro h; rw [hex] at h; cases h) hap cs' last' hcs' hfit' [] (by simp [hex])
  rw [hex] at a2 b2
  have hv : ∀ v, versionLine false v = [] := by intro v; cases v <;> rfl
  simp only [TxPayload.screens, TxPayload.callLines, hv] at a2 b2
  exact ⟨d1, d2, _, _, _, a1, b1, a2, b2⟩

/-- The hypotheses can be met: version 3 of a package, or the latest one in another virtual machine. -/
theorem sampleVersions : ∃ d1 d2 hash hash' lines,
    run samplePl (Dev.init samplePl) (upload 2 (samplePath 0) [] (1 :: (sampleCall (.byPackageHash (List.replicate 32 7) (some 3) .v1)).tx Blake.H [])) =
      (d1, [.reply [] 0x9000, .pending]) ∧
    run samplePl (Dev.init samplePl) (upload 2 (samplePath 0) [] (1 :: (sampleCall (.byPackageHash (List.replicate 32 7) none (.v2 5 none))).tx Blake.H [])) =
      (d2, [.reply [] 0x9000, .pending]) ∧
    Displays samplePl d1 ((b!"Txn hash", hash) :: lines) ∧ Displays samplePl d2 ((b!"Txn hash", hash') :: lines) :=
  C70_version_false samplePl (by decide) (Dev.init samplePl) (.init _) rfl (samplePath 0) rfl (by decide) (sampleCall .native) b!"deposit" (List.replicate 32 7) (some 3) none
    .v1 (.v2 5 none) (sampleCall_call ⟨rfl, by simp, trivial⟩) (sampleCall_call ⟨rfl, by simp, ⟨by decide, by simp⟩⟩) [] (by simp) [] [] _ _ rfl rfl (by decide +kernel)
    (by decide +kernel)

/-- The hypotheses of `C70_v1_call_partial` can be met by different transactions: the same two calls. -/
example : SameButHash samplePl (afterUpload false (1 :: (sampleCall (.byPackageHash (List.replicate 32 7) (some 3) .v1)).tx Blake.H []))
      (afterUpload false (1 :: (sampleCall (.byPackageHash (List.replicate 32 7) none (.v2 5 none))).tx Blake.H [])) ∧
    (sampleCall (.byPackageHash (List.replicate 32 7) (some 3) .v1)).Call b!"deposit" ∧
    (sampleCall (.byPackageHash (List.replicate 32 7) none (.v2 5 none))).Call b!"deposit" ∧
    (V1Target.byPackageHash (List.replicate 32 7) (some 3) .v1).Stored ∧ (V1Target.byPackageHash (List.replicate 32 7) (some 3) .v1).Showable false ∧
    (V1Target.byPackageHash (List.replicate 32 7) none (.v2 5 none)).Showable false := by
  refine ⟨?_, sampleCall_call ⟨rfl, by simp, trivial⟩, sampleCall_call ⟨rfl, by simp, ⟨by decide, by simp⟩⟩, trivial, ⟨(by intro h; cases h), (by intro h; cases h)⟩⟩
  obtain ⟨d1, d2, _, _, _, a1, b1, a2, b2⟩ := sampleVersions
  have h1 : afterUpload false (1 :: (sampleCall (.byPackageHash (List.replicate 32 7) (some 3) .v1)).tx Blake.H []) = d1 := congrArg Prod.fst a1
  have h2 : afterUpload false (1 :: (sampleCall (.byPackageHash (List.replicate 32 7) none (.v2 5 none))).tx Blake.H []) = d2 := congrArg Prod.fst b1
  rw [h1, h2]
  exact a2.same b2 rfl rfl

end Casper
