import Mathlib.Data.List.Perm.Subperm
import Verif.Lib.HazardItem
/-
The arguments looked up while a serialized session is shown are arguments of the session.
-/
namespace Casper
open M

/-- Arguments with distinct names are as many as the names. -/
theorem distinct_names {as : List Arg} {l : List Bytes} (hn : l.Nodup) (h : ∀ n ∈ l, ∃ a ∈ as, cstr a.name = n) : l.length ≤ as.length := by
  have : l ⊆ as.map fun a => cstr a.name := fun n hl => by
    obtain ⟨a, ha, rfl⟩ := h n hl
    exact List.mem_map.2 ⟨a, ha, rfl⟩
  have := (List.subperm_of_subset hn this).length_le
  simpa using this

section
variable {e : Env} {as : List Arg} (hf : Fits e) (hok : ∀ a ∈ as, a.Ok)
include hf hok

/-- What a lookup among the first `k` arguments finds is one of them. -/
theorem getData_arg {name : Bytes} {k off len t x : Nat} (ha : At e.buf off (encodeArgs as)) (hk : k ≤ as.length)
    (hg : getData e name k off = .ok (len, t) x) :
    ∃ a ∈ as, cstr a.name = name ∧ len = a.value.length ∧ t = a.ty.tag ∧ At e.buf x (a.value ++ a.ty.encode) := by
  cases hfi : (as.take k).find? (fun a => cstr a.name == name) with
  | none =>
    rw [List.find?_eq_none] at hfi
    rw [getData_none hf hok (fun y hy hn => hfi y hy (by simpa using hn)) hk ha] at hg
    cases hg
  | some a =>
    obtain ⟨h1, pre, post, h2, h3⟩ := List.find?_eq_some_iff_append.1 hfi
    have h1 : cstr a.name = name := by simpa using h1
    have hlen : pre.length < k := by
      have := congrArg List.length h2
      rw [List.length_take, List.length_append, List.length_cons] at this
      omega
    obtain ⟨post', rfl⟩ : ∃ post', as = pre ++ a :: post' :=
      ⟨post ++ as.drop k, by rw [← List.cons_append, ← List.append_assoc, ← h2, List.take_append_drop]⟩
    have hg' := getData_at (k := k) hf (fun y hy => hok y (by simp [hy])) (hok a (by simp))
      (fun y hy hn => by have := h3 y hy; simp [hn] at this) h1 hlen ha
    rw [hg'.1] at hg
    obtain ⟨h4, h5⟩ := Res.ok.inj hg
    rw [Prod.mk.injEq] at h4
    refine ⟨a, by simp, h1, h4.1.symm, h4.2.symm, ?_⟩
    rw [← h5, At.append]
    refine ⟨hg'.2, ?_⟩
    rw [encodeArgs_append, encodeArgs, At.append, At.append] at ha
    exact (arg_at ha.2.1).2.2.2

theorem checkArg_arg {name : Bytes} {c : Nat → Nat → Bool} {s : IS} (ha : At e.buf s.off (encodeArgs as)) :
    Post (lp (checkArg e as.length name c)) s (fun _ t => t = s ∧ ∃ a ∈ as, cstr a.name = name) := by
  intro v t h
  have hb := (BackI_lp (Back_checkArg hf hok name c) s ha).1 v t h
  have hfr := lp_frame v t h
  refine ⟨?_, ?_⟩
  · obtain ⟨a1, a2, a3⟩ := s
    obtain ⟨b1, b2, b3⟩ := t
    dsimp only at hb hfr
    obtain ⟨h1, h2⟩ := hfr
    subst hb h1 h2
    rfl
  · have hs := searchArgs_at (name := name) hf hok ha
    cases hfi : as.find? (fun a => cstr a.name == name) with
    | some a =>
      exact ⟨a, List.mem_of_find?_eq_some hfi, by have := List.find?_some hfi; simpa using this⟩
    | none =>
      rw [hfi] at hs
      unfold lp checkArg at h
      rw [bind_run, hs] at h
      cases h

theorem countArg_same {name : Bytes} {c : Nat → Nat → Bool} {s : IS} (ha : At e.buf s.off (encodeArgs as)) :
    Post (lp (countArg e as.length name c)) s (fun _ t => t = s) := by
  intro v t h
  have hb := (BackI_lp (Back_countArg hf hok name c) s ha).1 v t h
  have hfr := lp_frame v t h
  obtain ⟨a1, a2, a3⟩ := s
  obtain ⟨b1, b2, b3⟩ := t
  dsimp only at hb hfr
  obtain ⟨h1, h2⟩ := hfr
  subst hb h1 h2
  rfl

theorem checkDelegationItems_runtime {b : Bool} {s : IS} (ha : At e.buf s.off (encodeArgs as)) (h0 : s.item.runtime = 0) :
    Post (checkDelegationItems e as.length b) s (fun _ t => t.item.generic = 0 → t.item.runtime ≤ as.length) := by
  have hc : ∀ {name : Bytes} {c : Nat → Nat → Bool} {s : IS}, At e.buf s.off (encodeArgs as) →
    Post (lp (countArg e as.length name c)) s (fun _ t => t = s) := countArg_same hf hok
  have hk : ∀ {name : Bytes} {c : Nat → Nat → Bool} {s : IS}, At e.buf s.off (encodeArgs as) →
    Post (lp (checkArg e as.length name c)) s (fun _ t => t = s ∧ ∃ a ∈ as, cstr a.name = name) := checkArg_arg hf hok
  unfold checkDelegationItems
  refine (hc ha).seq fun r t ht => ?_
  subst ht
  have hz : t.item.runtime ≤ as.length := by omega
  split
  · exact Post.pure fun _ => hz
  refine Post.modifyThen ((hc (by exact ha)).seq fun r u hu => ?_)
  have hu0 : u.item.runtime = 0 := by rw [hu]; exact h0
  have hua : At e.buf u.off (encodeArgs as) := by rw [hu]; exact ha
  clear hu hz h0 ha
  split
  · exact Post.pure fun _ => by omega
  refine (hc hua).seq fun r t ht => ?_
  subst ht
  split
  · exact Post.pure fun _ => by omega
  refine (hk hua).seq fun r u ⟨hu, n1⟩ => ?_
  subst hu
  refine (hk hua).seq fun r v ⟨hv, n2⟩ => ?_
  subst hv
  refine (hk hua).seq fun r w ⟨hw, n3⟩ => ?_
  subst hw
  refine Post.getThen (Post.ite (fun _ => Post.modify fun h => by cases h) fun _ => Post.ite (fun _ => ?_) fun _ => Post.modify fun _ => ?_)
  · refine (hk hua).seq fun r v ⟨hv, n4⟩ => Post.modify fun _ => ?_
    subst hv
    have := distinct_names (as := as) (l := [b!"delegator", b!"validator", b!"amount", b!"new_validator"]) (by decide) (by
      intro n hn
      simp only [List.mem_cons, List.not_mem_nil, or_false] at hn
      rcases hn with rfl | rfl | rfl | rfl <;> assumption)
    show v.item.runtime + 4 ≤ _
    simp only [List.length_cons, List.length_nil] at this
    omega
  · have := distinct_names (as := as) (l := [b!"delegator", b!"validator", b!"amount"]) (by decide) (by
      intro n hn
      simp only [List.mem_cons, List.not_mem_nil, or_false] at hn
      rcases hn with rfl | rfl | rfl <;> assumption)
    show w.item.runtime + 3 ≤ _
    simp only [List.length_cons, List.length_nil] at this
    omega

theorem delegationLines_runtime {b : Bool} {s : IS} (ha : At e.buf s.off (encodeArgs as)) (h0 : s.item.runtime = 0) :
    Post (delegationLines e as.length b) s (fun _ t => t.item.generic = 0 → t.item.runtime ≤ as.length) := by
  unfold delegationLines
  refine Post.seq (P := fun r t => ∀ a, r = .ok a → t.item.generic = 0 → t.item.runtime ≤ as.length)
    (Post.attempt ((checkDelegationItems_runtime hf hok ha h0).mono fun _ _ h _ _ => h) fun _ _ _ _ h => by cases h) fun r t ht => ?_
  split
  · exact Post.pure (ht _ rfl)
  · refine Post.ite (fun _ => ?_) fun _ => .fail
    exact Post.seq (P := fun _ _ => True) (fun _ _ _ => trivial) fun _ u _ => Post.modify fun h => by cases h

theorem finishDelegation_runtime {b : Bool} {s : IS} {n : Nat} (h : s.item.generic = 0 → s.item.runtime ≤ n) :
    Post (finishDelegation e b) s (fun _ t => t.item.generic = 0 → t.item.runtime ≤ n) := by
  unfold finishDelegation
  refine Post.modifyThen (Post.ite (fun _ => Post.modify ?_) fun _ => Post.pure ?_)
  all_goals
    dsimp only
    split
    · intro h; cases h
    · exact h

theorem checkNewValidator_same {b : Bool} {s : IS} (ha : At e.buf s.off (encodeArgs as)) :
    Post (checkNewValidator e as.length b) s (fun _ t => t = s) := by
  unfold checkNewValidator
  exact Post.ite (fun _ => (checkArg_arg hf hok ha).mono fun _ _ h => h.1) fun _ => Post.pure rfl

/-- The part after the kind of call is known. -/
theorem delegationRest_runtime {b ha' : Bool} {s : IS} (ha : At e.buf s.off (encodeArgs as)) (h0 : s.item.runtime = 0) :
    Post (do checkNewValidator e as.length b; delegationLines e as.length b; finishDelegation e ha') s (fun _ t => t.item.generic = 0 → t.item.runtime ≤ as.length) := by
  refine (checkNewValidator_same hf hok ha).seq fun _ t ht => ?_
  subst ht
  exact (delegationLines_runtime hf hok ha h0).seq fun _ u hu => finishDelegation_runtime hf hok hu

end

/-! ### A generic session stays generic -/

def KG {α : Type} (m : M IS α) : Prop := Keeps (fun s t => s.item.generic = 1 → t.item.generic = 1) m

section
variable {α β : Type}
theorem KG.bind {m : M IS α} {f : α → M IS β} (hm : KG m) (hf : ∀ a, KG (f a)) : KG (m >>= f) := Keeps.bind (fun _ _ _ h h' x => h' (h x)) hm hf
theorem KG.pure (a : α) : KG (Pure.pure a : M IS α) := Keeps.pure (fun _ h => h) a
theorem KG.fail (x : Nat) : KG (M.fail x : M IS α) := Keeps.fail (fun _ h => h) x
theorem KG.get : KG (M.get : M IS IS) := Keeps.get (fun _ h => h)
theorem KG.attempt {m : M IS α} (hm : KG m) : KG (M.attempt m) := Keeps.attempt hm
theorem KG.ite {c : Prop} [Decidable c] {m n : M IS α} (hm : c → KG m) (hn : ¬ c → KG n) : KG (if c then m else n) := by
  split
  · exact hm ‹_›
  · exact hn ‹_›
theorem KG_lp (m : P α) : KG (lp m) := by
  intro s
  unfold lp
  constructor <;> intro a t ht <;> cases hr : m s.off <;> rw [hr] at ht <;> cases ht <;> exact fun h => h
theorem KG_upd {f : Item → Item} (h : ∀ i, i.generic = 1 → (f i).generic = 1) : KG (upd f) := Keeps.modify fun s => h s.item
end

theorem KG_checkNewValidator (e : Env) (n : Nat) (b : Bool) : KG (checkNewValidator e n b) := by
  unfold checkNewValidator; exact .ite (fun _ => KG_lp _) fun _ => .pure _
theorem KG_checkDelegationItems (e : Env) (n : Nat) (b : Bool) : KG (checkDelegationItems e n b) := by
  unfold checkDelegationItems
  walk KG
  all_goals intro i h; first | exact h | rfl
theorem KG_delegationLines (e : Env) (n : Nat) (b : Bool) : KG (delegationLines e n b) := by
  unfold delegationLines
  walk KG
  all_goals intro i h; first | exact h | rfl
theorem KG_finishDelegation (e : Env) (b : Bool) : KG (finishDelegation e b) := by
  unfold finishDelegation
  refine .bind (KG_upd fun i h => ?_) fun _ => .ite (fun _ => KG_upd fun i h => h) fun _ => .pure _
  split
  · rfl
  · exact h

section
variable {e : Env} {as : List Arg} (hf : Fits e) (hok : ∀ a ∈ as, a.Ok)
include hf hok

theorem parseDelegation_args {b : Bool} {s : IS} (ha : At e.buf s.off (encodeArgs as)) (h0 : s.item.runtime = 0) :
    Post (parseDelegation e as.length b) s (fun _ t => t.item.generic = 0 → t.item.runtime ≤ as.length ∧ (s.item.typ = 0 → t.item.itemOffset = s.off)) := by
  by_cases hm : s.item.typ = 0
  · unfold parseDelegation
    refine Post.getThen ?_
    have hm' : (s.item.typ == tyModuleBytes) = true := by rw [hm]; rfl
    dsimp only
    rw [if_pos hm']
    refine Post.seq (P := fun _ t => t.off = s.off ∧ t.item.runtime = 0 ∧ (t.item.generic = 1 ∨ t.item.itemOffset = s.off)) ?_ ?_
    · unfold parseAuction
      refine Post.getThen (Post.modifyThen ?_)
      refine Post.seq (P := fun _ t => t.item.runtime = 0 ∧ t.item.itemOffset = s.off) (Post.attempt (lp_frame.mono fun _ t h => by rw [h.2]; exact ⟨h0, rfl⟩)
        fun x t h => ?_) fun r t ht => ?_
      · unfold lp at h
        split at h <;> cases h
        exact ⟨h0, rfl⟩
      dsimp only
      refine Post.seq (P := fun _ t => t.item.runtime = 0 ∧ (t.item.generic = 1 ∨ t.item.itemOffset = s.off)) ?_ fun ha u hu => ?_
      · refine Post.seq (P := fun _ u => u.item = t.item) (Post.attempt (lp_frame.mono fun _ t h => h.2) fun x u h => ?_) fun r u hu => ?_
        · unfold lp at h
          split at h <;> cases h
          rfl
        split
        · refine Post.requireThen fun _ => Post.getThen (Post.requireThen fun _ => Post.pure ?_)
          rw [hu]; exact ⟨ht.1, .inr ht.2⟩
        · refine Post.ite (fun _ => .fail) fun _ => Post.ite (fun _ => .fail) fun _ => Post.modifyThen (Post.pure ⟨?_, .inl rfl⟩)
          show u.item.runtime = 0
          rw [hu]; exact ht.1
      · refine lp_frame.seq fun k v hv => Post.modifyThen ?_
        refine Post.seq (P := fun _ w => w.off = s.off ∧ w.item = { v.item with special := k }) (fun a w hw => by cases hw; exact ⟨rfl, rfl⟩) fun _ w hw => Post.pure ?_
        rw [hw.1, hw.2, hv.2]
        exact ⟨rfl, hu⟩
    · intro r t ⟨h1, h2, h3⟩
      obtain ⟨redel, hauc⟩ := r
      dsimp only
      have hko : KO (do checkNewValidator e as.length redel; delegationLines e as.length redel; finishDelegation e hauc) :=
        .bind (KO_checkNewValidator e _ redel) fun _ => .bind (KO_delegationLines e _ redel) fun _ => KO_finishDelegation e hauc
      have hkg : KG (do checkNewValidator e as.length redel; delegationLines e as.length redel; finishDelegation e hauc) :=
        .bind (KG_checkNewValidator e _ redel) fun _ => .bind (KG_delegationLines e _ redel) fun _ => KG_finishDelegation e hauc
      refine ((delegationRest_runtime hf hok (by rw [h1]; exact ha) h2).and (hko.post.and fun a u hu => (hkg t).1 a u hu)).mono fun _ u ⟨g1, g2, g3⟩ hg => ⟨g1 hg, fun _ => ?_⟩
      rcases h3 with h3 | h3
      · have := g3 h3; omega
      · rw [g2.1]; exact h3
  · unfold parseDelegation
    refine Post.getThen ?_
    have hm' : ¬ (s.item.typ == tyModuleBytes) = true := by simpa using hm
    dsimp only
    rw [if_neg hm']
    refine Post.seq (P := fun _ t => t = s) (Post.pure rfl) fun r t ht => ?_
    obtain ⟨redel, hauc⟩ := r
    subst ht
    dsimp only
    exact (delegationRest_runtime hf hok ha h0).mono fun _ u hu hg => ⟨hu hg, fun h => absurd h hm⟩


theorem checkEntrypoint_args {n : Bytes} {s : IS} (ht : s.item.typ ≠ 0) (h0 : s.item.runtime = 0)
    (ha : At e.buf s.off (pfx n ++ encodeRuntimeArgs as)) :
    Post (checkEntrypoint e) s (fun k t => k = as.length ∧ t.epo = s.off ∧ t.item.itemOffset = s.off + (pfx n).length ∧ (t.item.generic = 0 → t.item.runtime ≤ as.length)) := by
  rw [encodeRuntimeArgs, At.append, At.append, pfx_length, le_length] at ha
  obtain ⟨h1, h2, h3⟩ := ha
  have hle := h3.le
  unfold checkEntrypoint
  refine Post.modifyThen ((lp_post (Post.self.and (copyItem_post hf))).seq fun nm t ⟨⟨h4, h5⟩, h6⟩ => ?_)
  dsimp only at h5
  have hn : t.off = s.off + (4 + n.length) := by
    rw [← h5.1.pfx_inj hf h1]
    omega
  have hlen : as.length < 4294967296 := by
    have := encodeArgs_count as
    unfold Fits at hf; omega
  have hr : t.item.runtime = 0 := by rw [h6]; exact h0
  have hty : t.item.typ ≠ 0 := by rw [h6]; exact ht
  have hep : t.epo = s.off := by rw [h6]
  refine Post.modifyThen (Post.runThen (a := as.length) (lp_run (readLE_at (by rw [hn]; exact h2) (by omega))) (Post.modifyThen ?_))
  refine ((parseDelegation_args hf hok (by dsimp only; rw [hn]; exact h3) (by exact hr)).and (parseDelegation_other (by exact hty))).seq fun _ u ⟨hu, hv⟩ => Post.pure ⟨rfl, ?_, ?_, fun hg => (hu hg).1⟩
  · rw [hv.2.2.2]; exact hep
  · rw [hv.1]; show t.off = _; rw [hn, pfx_length]

end

theorem finishItem_frame {e : Env} {n start : Nat} {s : IS} : Post (finishItem e n start) s (fun _ t => t.epo = s.epo ∧ ∃ x, t.item = { s.item with total := x }) := by
  unfold finishItem
  exact lp_frame.seq fun _ t ht => lp_frame.seq fun x u hu => Post.modify ⟨hu.1.trans ht.1, x, by show { u.item with total := x } = _; rw [hu.2, ht.2]⟩

/-- What is known of a serialized session after it was parsed. -/
structure SesArgs (e : Env) (i : ExecItem) (t : IS) : Prop where
  few : i.tag ≠ 5 → t.item.generic = 0 → t.item.runtime ≤ i.args.length
  call : i.tag ≠ 5 → i.tag ≠ 0 → At e.buf t.item.itemOffset (encodeRuntimeArgs i.args)
  module : i.tag = 0 → t.item.generic = 0 → At e.buf t.item.itemOffset (encodeArgs i.args)
  entry : ∀ n, (∃ h as, i = .byHash h n as) ∨ (∃ h v as, i = .versionedByHash h v n as) ∨ (∃ x as, i = .byName x n as) ∨ (∃ x v as, i = .versionedByName x v n as) →
    At e.buf t.epo (pfx n)

/-- The rest of a call of a stored contract, from its entry point on. -/
theorem callRest_args {e : Env} (hf : Fits e) {as : List Arg} (hok : ∀ a ∈ as, a.Ok) {n : Bytes} {i : ExecItem} (hi : i.args = as) (ht0 : i.tag ≠ 0)
    (hen : ∀ n', (∃ h as, i = .byHash h n' as) ∨ (∃ h v as, i = .versionedByHash h v n' as) ∨ (∃ x as, i = .byName x n' as) ∨ (∃ x v as, i = .versionedByName x v n' as) → n' = n)
    {s : IS} {start : Nat} (ht : s.item.typ ≠ 0) (h0 : s.item.runtime = 0) (ha : At e.buf s.off (pfx n ++ encodeRuntimeArgs as)) :
    Post (do let k ← checkEntrypoint e; finishItem e k start) s (fun _ t => SesArgs e i t) := by
  refine (checkEntrypoint_args hf hok ht h0 ha).seq fun k t ⟨_, h2, h3, h4⟩ => finishItem_frame.mono fun _ u ⟨h5, x, h6⟩ => ?_
  rw [At.append] at ha
  refine ⟨fun _ => ?_, fun _ _ => ?_, fun h => absurd h ht0, fun n' hn => ?_⟩
  · rw [h6, hi]; exact h4
  · rw [h6, hi]; show At e.buf t.item.itemOffset _; rw [h3]; exact ha.2
  · rw [hen n' hn, h5, h2]; exact ha.1

theorem versionStep_runtime {e : Env} {b : Bool} {s : IS} : Post (versionStep e b) s (fun _ t => t.item.runtime = s.item.runtime ∧ t.item.typ = s.item.typ) := by
  unfold versionStep
  refine Post.ite (fun _ => lp_frame.seq fun _ t ht => Post.ite (fun _ => Post.modify ?_) fun _ => Post.pure ?_) fun _ => Post.pure ⟨rfl, rfl⟩
  · exact ⟨by show t.item.runtime = _; rw [ht.2], by show t.item.typ = _; rw [ht.2]⟩
  · rw [ht.2]; exact ⟨rfl, rfl⟩

theorem parseSession_args {e : Env} (hf : Fits e) {i : ExecItem} (hi : i.Ok) {off epo : Nat} (ha : At e.buf off i.encode) :
    Post (parseDeployItem e false) ⟨off + 1, epo, { typ := i.tag }⟩ (fun _ t => SesArgs e i t) := by
  have hle := ha.le
  have hf' := hf
  unfold Fits at hf'
  have hargs := hi.args
  have hcount := encodeArgs_count i.args
  unfold parseDeployItem
  refine Post.modifyThen (Post.getThen ?_)
  cases i with
  | moduleBytes code as =>
    rw [ExecItem.encode, At.cons, encodeRuntimeArgs, At.append, At.append, pfx_length, le_length] at ha
    simp only [ExecItem.encode, encodeRuntimeArgs, List.length_cons, List.length_append, pfx_length, le_length, ExecItem.args] at hle hcount hargs
    obtain ⟨h0, h1, h2, h3⟩ := ha
    refine Post.ite (fun _ => ?_) fun h => absurd rfl h
    unfold parseModuleBytes
    refine Post.getThen (Post.runThen (lp_run (parseItem_at (ys := []) (xs := code) hf (by simpa using h1))) ?_)
    refine Post.runThen (a := as.length) (lp_run (readLE_at (h2.cast (by dsimp only; omega)) (by omega))) ?_
    have hpos : At e.buf (off + 1 + 4 + code.length + 4) (encodeArgs as) := h3.cast (by omega)
    refine Post.ite (fun h => absurd h (by decide)) fun _ => ?_
    refine (parseDelegation_args hf hargs (by exact hpos) (by rfl)).seq fun _ t ht => finishItem_frame.mono fun _ u ⟨h5, x, h6⟩ => ?_
    refine ⟨fun _ => ?_, fun _ h => absurd rfl h, fun _ hg => ?_, fun n' hn => ?_⟩
    · rw [h6]; exact fun hg => (ht hg).1
    · rw [h6] at hg ⊢
      show At e.buf t.item.itemOffset _
      rw [(ht hg).2 rfl]
      exact hpos
    · rcases hn with ⟨_, _, hn⟩ | ⟨_, _, _, hn⟩ | ⟨_, _, hn⟩ | ⟨_, _, _, hn⟩ <;> cases hn
  | byHash hash n as =>
    have hl := hi.hash hash (.inl ⟨n, as, rfl⟩)
    rw [ExecItem.encode, At.cons, At.append, hl] at ha
    simp only [ExecItem.encode, encodeRuntimeArgs, List.length_cons, List.length_append, pfx_length, le_length, ExecItem.args] at hle hcount hargs
    obtain ⟨h0, h1, h2⟩ := ha
    refine Post.ite (fun h => absurd h (by simp [ExecItem.tag])) fun _ => Post.ite (fun _ => ?_) fun h => absurd (by simp [ExecItem.tag]) h
    unfold parseByHash
    refine Post.getThen (Post.runThen (lp_run (skip_run (by dsimp only; omega))) (Post.getThen (Post.runThen (t := ⟨off + 33, epo, { typ := 1, special := 255 }⟩) (a := ()) ?_ ?_)))
    · rfl
    · refine callRest_args hf hargs rfl (by simp [ExecItem.tag]) (fun n' hn => ?_) (by simp) rfl h2
      rcases hn with ⟨_, _, hn⟩ | ⟨_, _, _, hn⟩ | ⟨_, _, hn⟩ | ⟨_, _, _, hn⟩ <;> cases hn
      rfl
  | versionedByHash hash v n as =>
    have hl := hi.hash hash (.inr ⟨v, n, as, rfl⟩)
    rw [ExecItem.encode, At.cons, At.append, hl, At.append] at ha
    simp only [ExecItem.encode, encodeRuntimeArgs, List.length_cons, List.length_append, pfx_length, le_length, ExecItem.args] at hle hcount hargs
    obtain ⟨h0, h1, h2, h3⟩ := ha
    refine Post.ite (fun h => absurd h (by simp [ExecItem.tag])) fun _ => Post.ite (fun _ => ?_) fun h => absurd (by simp [ExecItem.tag]) h
    unfold parseByHash
    refine Post.getThen (Post.runThen (lp_run (skip_run (by dsimp only; omega))) (Post.getThen ?_))
    refine ((versionStep_end (v := v) (fun k hk => hi.version k (.inl ⟨hash, n, as, by rw [hk]⟩)) (by exact h2)).and versionStep_runtime).seq fun _ t ⟨ht, hr, hty⟩ => ?_
    dsimp only at ht hr hty
    refine callRest_args hf hargs rfl (by simp [ExecItem.tag]) (fun n' hn => ?_) (by rw [hty]; simp [ExecItem.tag]) hr (h3.cast (by omega))
    rcases hn with ⟨_, _, hn⟩ | ⟨_, _, _, hn⟩ | ⟨_, _, hn⟩ | ⟨_, _, _, hn⟩ <;> cases hn
    rfl
  | byName name n as =>
    rw [ExecItem.encode, At.cons, At.append, pfx_length] at ha
    simp only [ExecItem.encode, encodeRuntimeArgs, List.length_cons, List.length_append, pfx_length, le_length, ExecItem.args] at hle hcount hargs
    obtain ⟨h0, h1, h2⟩ := ha
    refine Post.ite (fun h => absurd h (by simp [ExecItem.tag])) fun _ => Post.ite (fun h => absurd h (by simp [ExecItem.tag])) fun _ => Post.ite (fun _ => ?_) fun h => absurd (by simp [ExecItem.tag]) h
    unfold parseByName
    refine Post.getThen (Post.runThen (lp_run (parseItem_at (ys := []) (xs := name) hf (by simpa using h1))) (Post.getThen (Post.runThen (t := ⟨off + 1 + 4 + name.length, epo, { typ := 2, special := 255 }⟩) (a := ()) ?_ ?_)))
    · rfl
    · refine callRest_args hf hargs rfl (by simp [ExecItem.tag]) (fun n' hn => ?_) (by simp) rfl (h2.cast (by dsimp only; omega))
      rcases hn with ⟨_, _, hn⟩ | ⟨_, _, _, hn⟩ | ⟨_, _, hn⟩ | ⟨_, _, _, hn⟩ <;> cases hn
      rfl
  | versionedByName name v n as =>
    rw [ExecItem.encode, At.cons, At.append, At.append, pfx_length] at ha
    simp only [ExecItem.encode, encodeRuntimeArgs, List.length_cons, List.length_append, pfx_length, le_length, ExecItem.args] at hle hcount hargs
    obtain ⟨h0, h1, h2, h3⟩ := ha
    refine Post.ite (fun h => absurd h (by simp [ExecItem.tag])) fun _ => Post.ite (fun h => absurd h (by simp [ExecItem.tag])) fun _ => Post.ite (fun _ => ?_) fun h => absurd (by simp [ExecItem.tag]) h
    unfold parseByName
    refine Post.getThen (Post.runThen (lp_run (parseItem_at (ys := []) (xs := name) hf (by simpa using h1))) (Post.getThen ?_))
    dsimp only
    refine ((versionStep_end (v := v) (fun k hk => hi.version k (.inr ⟨name, n, as, by rw [hk]⟩)) (h2.cast (by dsimp only; omega))).and versionStep_runtime).seq fun _ t ⟨ht, hr, hty⟩ => ?_
    dsimp only at ht hr hty
    refine callRest_args hf hargs rfl (by simp [ExecItem.tag]) (fun n' hn => ?_) (by rw [hty]; simp [ExecItem.tag]) hr (h3.cast (by omega))
    rcases hn with ⟨_, _, hn⟩ | ⟨_, _, _, hn⟩ | ⟨_, _, hn⟩ | ⟨_, _, _, hn⟩ <;> cases hn
    rfl
  | transfer as =>
    refine Post.mono (P := fun _ _ => True) (fun _ _ _ => trivial) fun _ _ _ => ⟨fun h => absurd rfl h, fun h => absurd rfl h, fun h => absurd h (by simp [ExecItem.tag]), fun n' hn => ?_⟩
    rcases hn with ⟨_, _, hn⟩ | ⟨_, _, _, hn⟩ | ⟨_, _, hn⟩ | ⟨_, _, _, hn⟩ <;> cases hn

end Casper
