import Verif.Props.Review
/-
Acceptance of transactions: what `tx_parse` succeeding means, in terms of reading, hash validation and rendering.
-/
namespace Casper
open M

/-! ### Outcomes without the cursor -/

/-- The outcome of a call, forgetting the state it leaves. -/
def Res.val {σ α : Type} : Res σ α → Res Unit α
  | .ok a _ => .ok a ()
  | .err x _ => .err x ()
  | .fault f => .fault f

/-- The outcome does not depend on the state before the call. -/
def Anywhere {σ α : Type} (m : M σ α) : Prop := ∀ s t, (m s).val = (m t).val

theorem Res.val_ok {σ α : Type} {r : Res σ α} {a : α} : r.val = .ok a () ↔ ∃ t, r = .ok a t := by
  cases r <;> simp [Res.val]

theorem Anywhere.of_eq {σ α : Type} {m : M σ α} (h : ∀ s t, m s = m t) : Anywhere m := fun s t => by rw [h s t]
theorem Anywhere.pure {σ α : Type} (a : α) : Anywhere (Pure.pure a : M σ α) := fun _ _ => rfl
theorem Anywhere.fail {σ α : Type} (x : Nat) : Anywhere (M.fail x : M σ α) := fun _ _ => rfl
theorem Anywhere.abort {σ α : Type} (f : Fault) : Anywhere (M.abort f : M σ α) := fun _ _ => rfl
theorem Anywhere.ite {σ α : Type} {c : Prop} [Decidable c] {m n : M σ α} (hm : c → Anywhere m) (hn : ¬ c → Anywhere n) :
    Anywhere (if c then m else n) := by
  split
  · exact hm ‹_›
  · exact hn ‹_›
/-- A first step that forgets the cursor. -/
theorem Anywhere.first {σ α β : Type} {m : M σ α} {f : α → M σ β} (h : ∀ s t, m s = m t) : Anywhere (m >>= f) :=
  .of_eq fun s t => by rw [bind_run, bind_run, h s t]

theorem seek_const (n s t : Nat) : seek n s = seek n t := rfl
theorem indexPart_const (e : Env) (h : Header) (p : HPart) (s t : Nat) : indexPart e h p s = indexPart e h p t := by
  unfold indexPart; rfl
theorem indexV_const (e : Env) (v : V1) (p : VPart) (s t : Nat) : indexV e v p s = indexV e v p t := by
  unfold indexV; rfl

theorem headerLine_anywhere (e : Env) (d : Deploy) (idx : Nat) : Anywhere (headerLine e d idx) := by
  unfold headerLine
  refine .ite (fun _ => .first (indexPart_const _ _ _)) fun _ => .ite (fun _ => .first (indexPart_const _ _ _)) fun _ =>
    .ite (fun _ => .first (indexPart_const _ _ _)) fun _ => .first (indexPart_const _ _ _)

/-- The text of a Deploy item does not depend on the cursor. -/
theorem getItemDeploy_anywhere (e : Env) (epo : Nat) (d : Deploy) (idx : Nat) : Anywhere (getItemDeploy e epo d idx) := by
  unfold getItemDeploy
  refine .ite (fun _ => .fail _) fun _ => .ite (fun _ => .first (seek_const _)) fun _ => .ite (fun _ => .pure _) fun _ =>
    .ite (fun _ => .first (indexPart_const _ _ _)) fun _ => .ite (fun _ => .first (indexPart_const _ _ _)) fun _ =>
    .ite (fun _ => headerLine_anywhere _ _ _) fun _ => ?_
  unfold bodyLine
  exact .first (seek_const _)

theorem itemPricing_anywhere (e : Env) (v : V1) (i : Nat) : Anywhere (itemPricing e v i) := by
  have h : Anywhere (pricingValue e v i) := by
    unfold pricingValue
    exact .ite (fun _ => .ite (fun _ => .first (indexV_const _ _ _)) fun _ => .ite (fun _ => .pure _) fun _ =>
      .ite (fun _ => .pure _) fun _ => .fail _) fun _ => .ite (fun _ => .first (indexV_const _ _ _)) fun _ =>
      .first (indexV_const _ _ _)
  intro s t
  have := h s t
  unfold itemPricing
  rw [bind_run, bind_run, attempt_run, attempt_run]
  cases h1 : pricingValue e v i s <;> cases h2 : pricingValue e v i t <;> rw [h1, h2] at this <;>
    simp [Res.val] at this ⊢ <;> subst this <;> rfl

/-- The text of a version 1 item does not depend on the cursor. -/
theorem getItemV1_anywhere (e : Env) (v : V1) (idx : Nat) : Anywhere (getItemV1 e v idx) := by
  unfold getItemV1 itemEntry
  refine .ite (fun _ => .fail _) fun _ => .ite (fun _ => .first (seek_const _)) fun _ => .ite (fun _ => .pure _) fun _ =>
    .ite (fun _ => .first (indexV_const _ _ _)) fun _ => .ite (fun _ => .first (indexV_const _ _ _)) fun _ => 
    .ite (fun _ => ?_) fun _ => .ite (fun _ => .first (seek_const _)) fun _ => .pure _
  exact .ite (fun _ => .first (indexV_const _ _ _)) fun _ => .ite (fun _ => .first (indexV_const _ _ _)) fun _ =>
    .ite (fun _ => itemPricing_anywhere _ _ _) fun _ => .ite (fun _ => .first (seek_const _)) fun _ =>
    .ite (fun _ => .pure _) fun _ => .pure _

theorem checkItems_ok {f : Nat → P (Bytes × Bytes)} (hf : ∀ i, Anywhere (f i)) (k i s : Nat) :
    (∃ t, checkItems f k i s = .ok () t) ↔ ∀ j, i ≤ j → j < i + k → ∃ kv t, f j 0 = .ok kv t := by
  induction k generalizing i s with
  | zero =>
    refine ⟨fun _ j h1 h2 => absurd h2 (by omega), fun _ => ⟨s, rfl⟩⟩
  | succ k ih =>
    rw [show checkItems f (k + 1) i = f i >>= fun _ => checkItems f k (i + 1) from rfl]
    constructor
    · rintro ⟨t, h⟩ j h1 h2
      rw [bind_eq_ok] at h
      obtain ⟨kv, s', h3, h4⟩ := h
      rcases Nat.lt_or_ge i j with h | h
      · exact (ih (i + 1) s').1 ⟨t, h4⟩ j (by omega) (by omega)
      · have : j = i := by omega
        subst this
        have := hf j s 0
        rw [h3] at this
        exact ⟨kv, Res.val_ok.1 this.symm⟩
    · intro h
      obtain ⟨kv, t, h0⟩ := h i (Nat.le_refl _) (by omega)
      have h1 := hf i s 0
      rw [h0] at h1
      obtain ⟨s', h1⟩ := Res.val_ok.1 h1
      obtain ⟨t', h2⟩ := (ih (i + 1) s').2 fun j h1 h2 => h j (by omega) (by omega)
      exact ⟨t', by rw [bind_run, h1]; exact h2⟩

/-! ### Acceptance -/

/-- The bytes `e.buf` (after the first byte 0) are accepted as a Deploy, read as `s`. -/
structure DeployAccepted (e : Env) (s : DS) : Prop where
  parse : readDeploy e ⟨0, 0, {}⟩ = .ok () s
  valid : ∃ t, validateDeploy e s.dep 0 = .ok () t
  items : ∀ i, i < numItemsDeploy e s.dep → ∃ kv t, getItemDeploy e s.epo s.dep i 0 = .ok kv t

/-- The bytes `e.buf` (after the first byte 1) are accepted as a version 1 transaction, read as `s`. -/
structure V1Accepted (e : Env) (s : VS) : Prop where
  parse : readV1 e ⟨0, {}⟩ = .ok () s
  valid : ∃ t, validateV1 e s.v 0 = .ok () t
  items : ∀ i, i < s.v.numItems → ∃ kv t, getItemV1 e s.v i 0 = .ok kv t

theorem readDeploy_kind {e : Env} {s t : DS} (h : readDeploy e s = .ok () t) : t.dep.kind = 0 := by
  unfold readDeploy at h
  simp only [bind_eq_ok, modify_run, Res.ok.injEq, true_and] at h
  obtain ⟨_, _, _, _, _, _, _, _, _, _, _, _, _, _, _, _, _, _, _, _, _, _, _, _, _, _, _, _, _, _, _, _, _, _, _, _, rfl⟩ := h
  rfl

/-- The state after an accepted Deploy upload. -/
def Dev.tookDeploy (d : Dev) (s : DS) : Dev := { d.forDeploy with epo := s.epo, dep := s.dep }
/-- The state after an accepted version 1 upload. -/
def Dev.tookV1 (d : Dev) (s : VS) : Dev := { d.forV1 with v1 := s.v }

theorem env_tookDeploy {pl : Platform} {d : Dev} (h : d.Ok pl) {x : UInt8} {xs : Bytes} (hx : d.data = x :: xs)
    {s : DS} (hk : s.dep.kind = 0) : (d.tookDeploy s).env pl = mkEnv pl d.expert xs := by
  unfold Dev.env Dev.tookDeploy Dev.forDeploy mkEnv
  dsimp only
  rw [mem_tail h hx, hk]; rfl

theorem env_tookV1 {pl : Platform} {d : Dev} (h : d.Ok pl) {x : UInt8} {xs : Bytes} (hx : d.data = x :: xs)
    {s : VS} : (d.tookV1 s).env pl = mkEnv pl d.expert xs := by
  unfold Dev.env Dev.tookV1 Dev.forV1 mkEnv
  dsimp only
  rw [mem_tail h hx]; rfl

theorem parserValidate_deploy {pl : Platform} {d : Dev} (hc : d.ctx.content = 0) (ho : d.ctx.obj = .deploy)
    {e : Env} (he : d.env pl = e) {d' : Dev} : parserValidate pl d = .ok () d' ↔
    d' = d ∧ (∃ t, validateDeploy e d.dep 0 = .ok () t) ∧
      ∀ i, i < numItemsDeploy e d.dep → ∃ kv t, getItemDeploy e d.epo d.dep i 0 = .ok kv t := by
  have hf : parserItem d e = getItemDeploy e d.epo d.dep := by
    funext i; unfold parserItem; rw [if_pos hc, if_pos ho]
  have hn : parserNumItems e d = pure (numItemsDeploy e d.dep) := by
    unfold parserNumItems; rw [if_pos hc, if_pos ho]
  have hci := checkItems_ok (f := getItemDeploy e d.epo d.dep) (getItemDeploy_anywhere _ _ _) (numItemsDeploy e d.dep) 0
  unfold parserValidate
  simp only [bind_run, get_run, Res.bind_ok, runP, he, hc, ho, if_true, hf, hn]
  cases hv : validateDeploy e d.dep 0 with
  | err x t => simp
  | fault f => simp
  | ok a t =>
    have hci := hci t
    simp only [Res.bind_ok, pure_run]
    simp only [Nat.zero_le, Nat.zero_add, true_imp_iff] at hci
    rw [← hci]
    cases hc : checkItems (getItemDeploy e d.epo d.dep) (numItemsDeploy e d.dep) 0 t <;> simp [eq_comm]

theorem parserValidate_v1 {pl : Platform} {d : Dev} (hc : d.ctx.content = 1) (ho : d.ctx.obj = .v1)
    {e : Env} (he : d.env pl = e) {d' : Dev} : parserValidate pl d = .ok () d' ↔
    d' = d ∧ (∃ t, validateV1 e d.v1 0 = .ok () t) ∧
      ∀ i, i < d.v1.numItems → ∃ kv t, getItemV1 e d.v1 i 0 = .ok kv t := by
  have h10 : ¬ (1 : Nat) = 0 := by decide
  have hf : parserItem d e = getItemV1 e d.v1 := by
    funext i; unfold parserItem; rw [hc, if_neg h10, if_pos rfl, if_pos ho]
  have hn : parserNumItems e d = pure d.v1.numItems := by
    unfold parserNumItems; rw [hc, if_neg h10, if_pos rfl, if_pos ho]
  have hci := checkItems_ok (f := getItemV1 e d.v1) (getItemV1_anywhere _ _) d.v1.numItems 0
  unfold parserValidate
  simp only [bind_run, get_run, Res.bind_ok, runP, he, hc, ho, if_true, hf, hn, h10, if_false]
  cases hv : validateV1 e d.v1 0 with
  | err x t => simp
  | fault f => simp
  | ok a t =>
    have hci := hci t
    simp only [Res.bind_ok, pure_run]
    simp only [Nat.zero_le, Nat.zero_add, true_imp_iff] at hci
    rw [← hci]
    cases hc : checkItems (getItemV1 e d.v1) d.v1.numItems 0 t <;> simp [eq_comm]

/-- `tx_parse` succeeds exactly on accepted data. -/
theorem txParse_ok {pl : Platform} (hcap : pl.cap < 65536) {d d' : Dev} (hd : d.Ok pl) :
    txParse pl d = .ok () d' ↔
    (∃ xs s, d.data = 0 :: xs ∧ DeployAccepted (mkEnv pl d.expert xs) s ∧ d' = d.tookDeploy s) ∨
    (∃ xs s, d.data = 1 :: xs ∧ V1Accepted (mkEnv pl d.expert xs) s ∧ d' = d.tookV1 s) := by
  unfold txParse
  rw [bind_eq_ok]
  constructor
  · rintro ⟨_, d1, h1, h2⟩
    cases hx : d.data with
    | nil => obtain ⟨t', h⟩ := parserParse_nil hd hx; rw [h] at h1; simp at h1
    | cons x xs =>
      rw [parserParse_cons hcap hd hx] at h1
      split at h1
      · simp at h1
      split at h1
      · rename_i h0
        subst h0
        unfold runDeploy at h1
        rw [env_forDeploy hd hx] at h1
        cases hr : readDeploy (mkEnv pl d.expert xs) ⟨0, 0, {}⟩ with
        | err y t => rw [show (readDeploy (mkEnv pl d.expert xs) ⟨0, d.forDeploy.epo, d.forDeploy.dep⟩) = _ from hr] at h1; simp at h1
        | fault f => rw [show (readDeploy (mkEnv pl d.expert xs) ⟨0, d.forDeploy.epo, d.forDeploy.dep⟩) = _ from hr] at h1; simp at h1
        | ok a s =>
          rw [show (readDeploy (mkEnv pl d.expert xs) ⟨0, d.forDeploy.epo, d.forDeploy.dep⟩) = _ from hr] at h1
          simp only [Res.ok.injEq] at h1
          obtain ⟨-, rfl⟩ := h1
          have := (parserValidate_deploy (d := d.tookDeploy s) rfl rfl (env_tookDeploy hd hx (readDeploy_kind hr))).1 h2
          exact .inl ⟨xs, s, rfl, ⟨hr, this.2.1, this.2.2⟩, this.1⟩
      split at h1
      · rename_i h0
        subst h0
        unfold runV1 at h1
        rw [env_forV1 hd hx] at h1
        cases hr : readV1 (mkEnv pl d.expert xs) ⟨0, {}⟩ with
        | err y t => rw [show (readV1 (mkEnv pl d.expert xs) ⟨0, d.forV1.v1⟩) = _ from hr] at h1; simp at h1
        | fault f => rw [show (readV1 (mkEnv pl d.expert xs) ⟨0, d.forV1.v1⟩) = _ from hr] at h1; simp at h1
        | ok a s =>
          rw [show (readV1 (mkEnv pl d.expert xs) ⟨0, d.forV1.v1⟩) = _ from hr] at h1
          simp only [Res.ok.injEq] at h1
          obtain ⟨-, rfl⟩ := h1
          have := (parserValidate_v1 (d := d.tookV1 s) rfl rfl (env_tookV1 hd hx)).1 h2
          exact .inr ⟨xs, s, rfl, ⟨hr, this.2.1, this.2.2⟩, this.1⟩
      · simp at h1
  · rintro (⟨xs, s, hx, ha, rfl⟩ | ⟨xs, s, hx, ha, rfl⟩)
    · refine ⟨(), d.tookDeploy s, ?_, (parserValidate_deploy rfl rfl
        (env_tookDeploy hd hx (readDeploy_kind ha.parse))).2 ⟨rfl, ha.valid, ha.items⟩⟩
      have hne : xs ≠ [] := by
        rintro rfl
        have := ha.parse
        unfold readDeploy readDeployHeader at this
        simp only [bind_run, require_run] at this
        exact absurd this (by simp [mkEnv])
      rw [parserParse_cons hcap hd hx, if_neg hne, if_pos rfl]
      unfold runDeploy
      rw [env_forDeploy hd hx, show (readDeploy (mkEnv pl d.expert xs) ⟨0, d.forDeploy.epo, d.forDeploy.dep⟩) = _ from ha.parse]
      rfl
    · refine ⟨(), d.tookV1 s, ?_, (parserValidate_v1 rfl rfl
        (env_tookV1 hd hx)).2 ⟨rfl, ha.valid, ha.items⟩⟩
      have hne : xs ≠ [] := by
        rintro rfl
        have := ha.parse
        unfold readV1 at this
        simp only [bind_run, require_run] at this
        exact absurd this (by simp [mkEnv])
      rw [parserParse_cons hcap hd hx, if_neg hne, if_neg (by decide), if_pos rfl]
      unfold runV1
      rw [env_forV1 hd hx, show (readV1 (mkEnv pl d.expert xs) ⟨0, d.forV1.v1⟩) = _ from ha.parse]
      rfl

end Casper
