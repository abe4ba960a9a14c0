import Verif.Lib.ModeDeploy
import Verif.Lib.ModeV1
import Verif.Props.Messages
import Verif.Props.Calls
import Verif.Props.Transfers
/-
C67: expert mode only adds lines to a review.
-/
namespace Casper
open M

/-! ### Lists of lines -/

/-- The lines at increasing places form a sublist. -/
theorem sublist_of_places {α : Type} (l2 l1 : List α) (f : Nat → Nat) (hf : ∀ i j, i < j → j < l2.length → f i < f j) (p : α → Bool)
    (h : ∀ i x, l2[i]? = some x → p x = true → l1[f i]? = some x) : (l2.filter p).Sublist l1 := by
  induction l2 generalizing l1 f with
  | nil => simp
  | cons a l2 ih =>
    -- the lines behind the first are behind its place
    have hstep : ∀ k, (∀ i, i < l2.length → k ≤ f (i + 1)) → (l2.filter p).Sublist (l1.drop k) := by
      intro k hk
      refine ih (l1.drop k) (fun i => f (i + 1) - k) (fun i j hij hj => ?_) fun i x hx hp => ?_
      · have h1 := hf (i + 1) (j + 1) (by omega) (by simpa using hj)
        have h2 := hk i (by omega)
        omega
      · have hi := (List.getElem?_eq_some_iff.1 hx).1
        rw [List.getElem?_drop, show k + (f (i + 1) - k) = f (i + 1) by have := hk i hi; omega]
        exact h (i + 1) x (by simpa using hx) hp
    rw [List.filter_cons]
    split
    · rename_i hp
      have h0 := h 0 a rfl hp
      obtain ⟨hlt, h1⟩ := List.getElem?_eq_some_iff.1 h0
      have h2 := hstep (f 0 + 1) fun i hi => hf 0 (i + 1) (by omega) (by simpa using hi)
      have h3 : (l1.drop (f 0)) = a :: l1.drop (f 0 + 1) := by rw [← h1]; exact List.drop_eq_getElem_cons hlt
      exact (h3 ▸ h2.cons_cons a).trans (List.drop_sublist _ _)
    · exact (List.drop_zero (l := l1)) ▸ hstep 0 fun _ _ => Nat.zero_le _

/-- A list of the lines there are. -/
theorem lines_exist {α : Type} {n : Nat} {P : Nat → α → Prop} (h : ∀ i, i < n → ∃ x, P i x) :
    ∃ l : List α, l.length = n ∧ ∀ i x, l[i]? = some x → P i x := by
  induction n with
  | zero => exact ⟨[], rfl, fun i x h => by simp at h⟩
  | succ n ih =>
    obtain ⟨l, h1, h2⟩ := ih fun i hi => h i (by omega)
    obtain ⟨x, hx⟩ := h n (by omega)
    refine ⟨l ++ [x], by simp [h1], fun i y hy => ?_⟩
    by_cases hi : i < l.length
    · rw [List.getElem?_append_left hi] at hy
      exact h2 i y hy
    · have h3 := (List.getElem?_eq_some_iff.1 hy).1
      simp only [List.length_append, List.length_singleton] at h3
      have : i = n := by omega
      subst this
      rw [List.getElem?_append_right (by omega), h1] at hy
      simp only [Nat.sub_self, List.getElem?_cons_zero, Option.some.injEq] at hy
      exact hy ▸ hx

/-- The review of accepted Deploy data displays its lines. -/
theorem displays_deploy {pl : Platform} {d : Dev} (hd : d.Ok pl) {xs : Bytes} (hx : d.data = 0 :: xs) {s : DS}
    (ha : DeployAccepted (mkEnv pl d.expert xs) s) (hfew : numItemsDeploy (mkEnv pl d.expert xs) s.dep ≤ 128)
    {l : List (Bytes × Bytes)} (hl : l.length = numItemsDeploy (mkEnv pl d.expert xs) s.dep)
    (h : ∀ i kv, l[i]? = some kv → ∃ c, getItemDeploy (mkEnv pl d.expert xs) s.epo s.dep i 0 = .ok kv c) :
    Displays pl { d.tookDeploy s with review := some .tx } l := by
  have hk := readDeploy_kind ha.parse
  intro t
  refine ⟨by rw [reviewCount_deploy hd hx s hk, hl], fun i kv hi => ?_⟩
  have hlt := (List.getElem?_eq_some_iff.1 hi).1
  obtain ⟨c, hc⟩ := h i kv hi
  rw [reviewItem_deploy hd hx s hk, u8_id (show i < 256 by omega), if_neg (by omega)]
  have hv := getItemDeploy_anywhere (mkEnv pl d.expert xs) s.epo s.dep i t 0
  rw [hc] at hv
  exact Res.val_ok.1 hv

/-! ### Deploys -/

/-- A line without content. -/
def blankLine : Bytes × Bytes := (b!"?", b!"?")

/-- **C67, Deploys.** Whatever Deploy is reviewed in expert mode is also reviewed by a device in normal mode, each line that
one shows — but for lines without content — is shown in expert mode, in the same order, and approving signs the same
digest in both. -/
theorem C67_deploy (pl : Platform) (hcap : pl.cap ≤ 16384) (d1 d1' d2 : Dev) (hd1 : d1.Ok pl) (hd2 : d2.Ok pl)
    (hx1 : d1.expert = true) (hx2 : d2.expert = false) (rx : Bytes) (pin : Bool) (hins : rx.getD 1 0 = 2) (xs : Bytes)
    (hx : d1.data ++ rx.drop 5 = 0 :: xs) (h : step pl d1 (.apdu rx pin) = (d1', .pending)) (path : Bytes) (hlen : path.length = 20)
    (hpath : casperPath path) (cs : List Bytes) (last : Bytes) (hcs : cs.flatten ++ last = 0 :: xs)
    (hfit : (cs.flatten ++ last).length ≤ pl.cap) :
    ∃ (d2' : Dev) (expert normal : List (Bytes × Bytes)) (digest : Bytes),
      run pl d2 (upload 2 path cs last) = (d2', List.replicate (cs.length + 1) (.reply [] 0x9000) ++ [.pending]) ∧
      Displays pl d1' expert ∧ Displays pl d2' normal ∧ (normal.filter (· ≠ blankLine)).Sublist expert ∧
      (step pl d1' .approve).2 = signatureReply pl d1.hdPath digest ∧ (step pl d2' .approve).2 = signatureReply pl path digest := by
  obtain ⟨hok, hdata, hcase⟩ := sign_pending (by omega) hd1 hins h
  rw [hx] at hdata hcase
  rcases hcase with ⟨ys, s', h1, h2, h3⟩ | ⟨ys, s', h1, -⟩
  swap
  · cases h1
  cases h1
  rw [hx1] at h2
  have hsm : Small (mkEnv pl true xs) := small_data hcap hok hdata true
  obtain ⟨s, f, ha, hh, hf, hlines⟩ := DeployAccepted.normal (e := mkEnv pl true xs) hsm h2
  have ha' : DeployAccepted (mkEnv pl d2.expert xs) s := by rw [hx2]; exact ha
  obtain ⟨d0, k1, k2, k3, k4, k5⟩ := upload_deploy pl (by omega) d2 hd2 path hlen hpath cs last xs hcs hfit ha'
  obtain ⟨p, q, k, hp⟩ := readDeploy_post _ _ ha.parse
  obtain ⟨p', q', k', hp'⟩ := readDeploy_post _ _ h2.parse
  have hc := (hp.count (show Fits ((mkEnv pl true xs).mode false) from hsm.to_fits)).2
  have hc' := (hp'.count (show Fits ((mkEnv pl true xs).mode true) from hsm.to_fits)).2
  obtain ⟨l1, a1, a2⟩ := lines_exist (P := fun i kv => ∃ c, getItemDeploy (mkEnv pl true xs) s'.epo s'.dep i 0 = .ok kv c) h2.items
  obtain ⟨l2, b1, b2⟩ := lines_exist (P := fun i kv => ∃ c, getItemDeploy (mkEnv pl false xs) s.epo s.dep i 0 = .ok kv c) ha.items
  have hhl : headerLength s.dep.header + 32 ≤ xs.length := by
    obtain ⟨_, _, _, _, h4, -⟩ := ha.small (show Fits ((mkEnv pl true xs).mode false) from hsm.to_fits)
    exact h4
  have hsplit : xs = xs.take (headerLength s.dep.header) ++ (xs.drop (headerLength s.dep.header)).take 32 ++ xs.drop (headerLength s.dep.header + 32) := by
    rw [List.append_assoc, ← List.drop_drop, List.take_append_drop, List.take_append_drop]
  have ht : (xs.take (headerLength s.dep.header)).length = headerLength s.dep.header := by rw [List.length_take]; omega
  refine ⟨_, l1, l2, pl.sha256 ((xs.drop (headerLength s.dep.header)).take 32), k5, ?_, ?_, ?_, ?_, ?_⟩
  · rw [h3]
    have hex : (d1.loaded rx).expert = true := hx1
    refine displays_deploy hok hdata ?_ ?_ ?_ ?_ <;> rw [hex]
    · exact h2
    · exact hc'.trans (by decide)
    · exact a1
    · exact a2
  · have hex : d0.expert = false := k3.trans hx2
    refine displays_deploy k1 k2 ?_ ?_ ?_ ?_ <;> rw [hex]
    · exact ha
    · exact hc.trans (by decide)
    · exact b1
    · exact b2
  · refine sublist_of_places l2 l1 f (fun i j hij hj => hf i j hij (b1 ▸ hj)) _ fun i kv hi hne => ?_
    have hlt := (List.getElem?_eq_some_iff.1 hi).1
    obtain ⟨c, h4⟩ := b2 i kv hi
    rcases hlines i (b1 ▸ hlt) with ⟨c', h5⟩ | ⟨h5, kv', c', h6, h7⟩
    · have := h4.symm.trans h5
      cases this
      exact absurd rfl (of_decide_eq_true hne)
    · have := h4.symm.trans h6
      cases this
      have h8 : f i < l1.length := by rw [a1]; exact h5
      obtain ⟨c2, h9⟩ := a2 (f i) _ (List.getElem?_eq_getElem h8)
      rw [List.getElem?_eq_getElem h8]
      have := h9.symm.trans h7
      cases this
      rfl
  · rw [h3]
    exact approve_deploy hok (by rw [hdata, ← hsplit]) (by rw [List.length_take, List.length_drop]; omega) (readDeploy_kind h2.parse)
      (by rw [ht, hh])
  · rw [← k4]
    exact approve_deploy k1 (by rw [k2, ← hsplit]) (by rw [List.length_take, List.length_drop]; omega) (readDeploy_kind ha.parse) ht.symm

/-! ### Version 1 transactions -/

/-- The review of accepted version 1 data displays its lines. -/
theorem displays_v1 {pl : Platform} {d : Dev} (hd : d.Ok pl) {xs : Bytes} (hx : d.data = 1 :: xs) {s : VS} (hfew : s.v.numItems ≤ 128)
    {l : List (Bytes × Bytes)} (hl : l.length = s.v.numItems)
    (h : ∀ i kv, l[i]? = some kv → ∃ c, getItemV1 (mkEnv pl d.expert xs) s.v i 0 = .ok kv c) :
    Displays pl { d.tookV1 s with review := some .tx } l := by
  intro t
  refine ⟨by rw [reviewCount_v1, hl], fun i kv hi => ?_⟩
  have hlt := (List.getElem?_eq_some_iff.1 hi).1
  obtain ⟨c, hc⟩ := h i kv hi
  rw [reviewItem_v1 hd hx, u8_id (show i < 256 by omega), if_neg (by omega)]
  have hv := getItemV1_anywhere (mkEnv pl d.expert xs) s.v i t 0
  rw [hc] at hv
  exact Res.val_ok.1 hv

/-- The lines a review of version 1 data displays. -/
theorem displayed_v1 {pl : Platform} {d : Dev} (hd : d.Ok pl) {xs : Bytes} (hx : d.data = 1 :: xs) {s : VS} {l : List (Bytes × Bytes)}
    (h : Displays pl { d.tookV1 s with review := some .tx } l) (hfew : l.length ≤ 128) :
    l.length = s.v.numItems ∧ ∀ i kv, l[i]? = some kv → ∃ c, getItemV1 (mkEnv pl d.expert xs) s.v i 0 = .ok kv c := by
  obtain ⟨h1, h2⟩ := h 0
  rw [reviewCount_v1] at h1
  injection h1 with h1 _
  refine ⟨h1.symm, fun i kv hi => ?_⟩
  have hlt := (List.getElem?_eq_some_iff.1 hi).1
  obtain ⟨c, hc⟩ := h2 i kv hi
  rw [reviewItem_v1 hd hx, u8_id (show i < 256 by omega)] at hc
  split at hc
  · cases hc
  · exact ⟨c, hc⟩

/-- **C67, version 1 transactions.** Let a device in expert mode review version 1 data — well-formed or not — and let its
review have from 9 to 128 lines, at least 12 if it announces a transfer, and no line without content if it announces a
contract call.  Then a device in normal mode reviews the same data, each line it shows is shown in expert mode, in the same
order, and approving signs the same digest in both.  Missing: reviews with other numbers of lines (the number is computed
modulo 256), and calls of a package without version, for which the statement is false (`C67_call_false`). -/
theorem C67_version1_partial (pl : Platform) (hcap : pl.cap ≤ 16384) (d1 d1' d2 : Dev) (hd1 : d1.Ok pl) (hd2 : d2.Ok pl)
    (hx1 : d1.expert = true) (hx2 : d2.expert = false) (rx : Bytes) (pin : Bool) (hins : rx.getD 1 0 = 2) (xs : Bytes)
    (hx : d1.data ++ rx.drop 5 = 1 :: xs) (h : step pl d1 (.apdu rx pin) = (d1', .pending)) (expert : List (Bytes × Bytes))
    (hshow : Displays pl d1' expert) (h9 : 9 ≤ expert.length) (h128 : expert.length ≤ 128)
    (h12 : (b!"Type", b!"Transfer") ∈ expert → 12 ≤ expert.length)
    (hcall : (b!"Type", b!"Contract Execution") ∈ expert → blankLine ∉ expert) (path : Bytes) (hlen : path.length = 20)
    (hpath : casperPath path) (cs : List Bytes) (last : Bytes) (hcs : cs.flatten ++ last = 1 :: xs)
    (hfit : (cs.flatten ++ last).length ≤ pl.cap) :
    ∃ (d2' : Dev) (normal : List (Bytes × Bytes)) (digest : Bytes),
      run pl d2 (upload 2 path cs last) = (d2', List.replicate (cs.length + 1) (.reply [] 0x9000) ++ [.pending]) ∧
      Displays pl d2' normal ∧ normal.Sublist expert ∧
      (step pl d1' .approve).2 = signatureReply pl d1.hdPath digest ∧ (step pl d2' .approve).2 = signatureReply pl path digest := by
  obtain ⟨hok, hdata, hcase⟩ := sign_pending (by omega) hd1 hins h
  rw [hx] at hdata hcase
  rcases hcase with ⟨ys, s', h1, -⟩ | ⟨ys, s', h1, h2, h3⟩
  · cases h1
  cases h1
  rw [hx1] at h2
  have hex : (d1.loaded rx).expert = true := hx1
  rw [h3] at hshow
  obtain ⟨a1, a2⟩ := displayed_v1 hok hdata hshow h128
  rw [hex] at a2
  have hline : ∀ i c kv, i < s'.v.numItems → getItemV1 (mkEnv pl true xs) s'.v i 0 = .ok kv c → expert[i]? = some kv := by
    intro i c kv hi hc
    have hi' : i < expert.length := by omega
    obtain ⟨c2, h9⟩ := a2 i _ (List.getElem?_eq_getElem hi')
    have := h9.symm.trans hc
    cases this
    exact List.getElem?_eq_getElem hi'
  have htype : (b!"Type", entryName s'.v.epType) ∈ expert := by
    refine List.mem_of_getElem? (hline 1 0 _ (by omega) ?_)
    unfold getItemV1
    rw [if_neg (by omega)]
    rfl
  have hsm : Small (mkEnv pl true xs) := small_data hcap hok hdata true
  obtain ⟨s, f, ha, hv, hn, hf, hlines⟩ := V1Accepted.normal (e := mkEnv pl true xs) hsm h2 (by omega) (by omega)
    (fun h4 => by rw [h4] at htype; have := h12 htype; omega)
    (fun h4 i c hc => by
      rw [h4] at htype
      by_cases hi : i < s'.v.numItems
      · exact hcall htype (List.mem_of_getElem? (hline i c _ hi hc))
      · unfold getItemV1 at hc
        rw [if_pos (by omega)] at hc
        cases hc)
  have ha' : V1Accepted (mkEnv pl d2.expert xs) s := by rw [hx2]; exact ha
  obtain ⟨d0, k1, k2, k3, k4, k5⟩ := upload_v1 pl (by omega) d2 hd2 path hlen hpath cs last xs hcs hfit ha'
  obtain ⟨l2, b1, b2⟩ := lines_exist (P := fun i kv => ∃ c, getItemV1 (mkEnv pl false xs) s.v i 0 = .ok kv c) ha.items
  obtain ⟨hF, env, hash, payload, rest, hbuf, he, hh, -⟩ := h2.split hsm
  have hmd : s.v.md = s'.v.md := by rw [hv]
  have hbuf' : xs = env ++ hash ++ (payload ++ rest) := by rw [← List.append_assoc]; exact hbuf
  refine ⟨_, l2, pl.sha256 hash, k5, ?_, ?_, ?_, ?_⟩
  · have hex : d0.expert = false := k3.trans hx2
    exact displays_v1 k1 k2 hn b1 (by rw [hex]; exact b2)
  · have := sublist_of_places l2 expert f (fun i j hij hj => hf i j hij (b1 ▸ hj)) (fun _ => true) fun i kv hi _ => by
      have hlt := (List.getElem?_eq_some_iff.1 hi).1
      obtain ⟨c, h4⟩ := b2 i kv hi
      obtain ⟨h5, kv', c', h6, h7⟩ := hlines i (b1 ▸ hlt)
      have := h4.symm.trans h6
      cases this
      exact hline _ _ _ h5 h7
    simpa using this
  · rw [h3]
    exact approve_v1 hok (by rw [hdata, hbuf']) hh (by rw [hF.fo0, he, Nat.add_zero])
  · rw [← k4]
    exact approve_v1 k1 (by rw [k2, hbuf']) hh (by rw [hmd, hF.fo0, he, Nat.add_zero])

/-- **C67 is false of calls of a package without version.** Normal mode shows the hash of the arguments, expert mode does
not; approving signs the same digest in both. -/
theorem C67_call_false (pl : Platform) (hcap : pl.cap ≤ 16384) (d1 d2 : Dev) (hd1 : d1.Ok pl) (hd2 : d2.Ok pl)
    (hx1 : d1.expert = true) (hx2 : d2.expert = false) (path : Bytes)
    (hlen : path.length = 20) (hpath : casperPath path) (p : TxPayload) (name : Bytes) (ap : List Bytes)
    (hp : p.Call name) (h : Bytes) (rt : VmRuntime) (ht : p.target = .byPackageHash h none rt) (hap : ∀ x ∈ ap, ApprovalOk x)
    (cs : List Bytes) (last : Bytes)
    (hcs : cs.flatten ++ last = 1 :: p.tx pl.blake ap) (hfit : (cs.flatten ++ last).length ≤ pl.cap)
    (time : Bytes) (hx : p.ExpertOk pl.fmtTime time) :
    ∃ d1' d2' expert normal digest,
      run pl d1 (upload 2 path cs last) = (d1', List.replicate (cs.length + 1) (.reply [] 0x9000) ++ [.pending]) ∧
      run pl d2 (upload 2 path cs last) = (d2', List.replicate (cs.length + 1) (.reply [] 0x9000) ++ [.pending]) ∧
      Displays pl d1' expert ∧ Displays pl d2' normal ∧
      (b!"Args hash", checksumHex pl.blake (pl.blake p.args.blob)) ∈ normal ∧ (∀ t, (b!"Args hash", t) ∉ expert) ∧
      (step pl d1' .approve).2 = signatureReply pl path digest ∧ (step pl d2' .approve).2 = signatureReply pl path digest := by
  obtain ⟨d1', ttl, -, h1, h2, h3⟩ := C54_args_hash_false pl hcap d1 hd1 path hlen hpath p name ap hp h rt ht hap cs last hcs hfit time hx1 hx
  obtain ⟨d2', ttl', -, k1, k2, k3⟩ := C53_call_partial pl hcap d2 hd2 path hlen hpath p name ap hp
    (by rw [ht, hx2]; intro h; cases h) hap cs last hcs hfit time (by rw [hx2]; intro h; cases h)
  refine ⟨d1', d2', _, _, _, h1, k1, h2, k2, ?_, fun t => ?_, h3, k3⟩
  · unfold TxPayload.screens TxPayload.callLines
    simp
  · unfold TxPayload.screens
    cases p.pricing <;> simp [Pricing.lines]

/-! ### Concrete cases -/

/-- The hypotheses of `C67_deploy` are met by a transfer uploaded in expert mode. -/
example : (run samplePl { Dev.init samplePl with expert := true } (sampleUpload (0 :: sampleDeploy.tx Blake.H []))).2.getLast? =
    some .pending := by decide +kernel

/-- The hypotheses of `C67_version1_partial` are met by a transfer and by a call of a package with a version: their reviews
in expert mode have 12 and 14 lines, none of them without content. -/
example :
    (let r := run samplePl { Dev.init samplePl with expert := true } (sampleUpload (1 :: sampleTransfer.tx Blake.H []) 2)
     r.2.getLast? = some .pending ∧ (reviewCount samplePl r.1 .tx 0).val = .ok 12 ()) ∧
    (let r := run samplePl { Dev.init samplePl with expert := true } (sampleUpload
       (1 :: (sampleCall (.byPackageHash (List.replicate 32 7) (some 3) .v1)).tx Blake.H []) 2)
     r.2.getLast? = some .pending ∧ (reviewCount samplePl r.1 .tx 0).val = .ok 14 () ∧
     ∀ i < 14, (reviewItem samplePl r.1 .tx i 0).val ≠ .ok blankLine ()) := by decide +kernel

/-- The hypotheses of `C67_call_false` can be met. -/
example : ∃ d1' d2' expert normal digest,
    run samplePl { Dev.init samplePl with expert := true } (upload 2 (samplePath 0) []
      (1 :: (sampleCall (.byPackageHash (List.replicate 32 7) none .v1)).tx Blake.H [])) = (d1', [.reply [] 0x9000, .pending]) ∧
    run samplePl (Dev.init samplePl) (upload 2 (samplePath 0) []
      (1 :: (sampleCall (.byPackageHash (List.replicate 32 7) none .v1)).tx Blake.H [])) = (d2', [.reply [] 0x9000, .pending]) ∧
    Displays samplePl d1' expert ∧ Displays samplePl d2' normal ∧ (∃ t, (b!"Args hash", t) ∈ normal) ∧
    (∀ t, (b!"Args hash", t) ∉ expert) ∧
    (step samplePl d1' .approve).2 = signatureReply samplePl (samplePath 0) digest ∧
    (step samplePl d2' .approve).2 = signatureReply samplePl (samplePath 0) digest := by
  obtain ⟨d1', d2', x, n, g, h1, h2, h3, h4, h5, h6, h7, h8⟩ := C67_call_false samplePl (by decide)
    { Dev.init samplePl with expert := true } (Dev.init samplePl) (Dev.Ok.init samplePl) (Dev.Ok.init samplePl) rfl rfl
    (samplePath 0) rfl (by decide) (sampleCall (.byPackageHash (List.replicate 32 7) none .v1)) b!"deposit" []
    (sampleCall_call ⟨rfl, by simp, trivial⟩) _ _ rfl (by simp) [] _ rfl (by decide +kernel) b!"2021-05-04 14:20:35 UTC"
    ⟨rfl, by decide, show 2500000000 < 10 ^ 19 by decide⟩
  exact ⟨d1', d2', x, n, g, h1, h2, h3, h4, ⟨_, h5⟩, h6, h7, h8⟩

end Casper
