import Verif.Lib.Modes
import Verif.Props.Contracts
/-
A Deploy in the two modes.
-/
namespace Casper
open M

theorem Close.ok_inv {g : Bool} {α : Type} {r r' : Res IS α} (h : Close g r r') {a : α} {t : IS} (hr : r = .ok a t) :
    ∃ t', r' = .ok a t' ∧ Near g t t' := by
  subst hr
  cases h with
  | ok _ hn => exact ⟨_, rfl, hn⟩

theorem onPayment_eq {α : Type} {m : M IS α} {s t : DS} {a : α} (h : onPayment m s = .ok a t) :
    ∃ u, m ⟨s.off, s.epo, s.dep.payment⟩ = .ok a u ∧ t = ⟨u.off, u.epo, { s.dep with payment := u.item }⟩ := by
  unfold onPayment at h
  split at h <;> cases h
  exact ⟨_, by assumption, rfl⟩

theorem onSession_eq {α : Type} {m : M IS α} {s t : DS} {a : α} (h : onSession m s = .ok a t) :
    ∃ u, m ⟨s.off, s.epo, s.dep.session⟩ = .ok a u ∧ t = ⟨u.off, u.epo, { s.dep with session := u.item }⟩ := by
  unfold onSession at h
  split at h <;> cases h
  exact ⟨_, by assumption, rfl⟩

theorem onPayment_ok {α : Type} {m : M IS α} {s : DS} {a : α} {u : IS} (h : m ⟨s.off, s.epo, s.dep.payment⟩ = .ok a u) :
    onPayment m s = .ok a ⟨u.off, u.epo, { s.dep with payment := u.item }⟩ := by
  unfold onPayment; rw [h]

theorem onSession_ok {α : Type} {m : M IS α} {s : DS} {a : α} {u : IS} (h : m ⟨s.off, s.epo, s.dep.session⟩ = .ok a u) :
    onSession m s = .ok a ⟨u.off, u.epo, { s.dep with session := u.item }⟩ := by
  unfold onSession; rw [h]

/-- What is read in one mode is read in the other. -/
theorem readDeploy_modes {e : Env} (a b : Bool) {s : DS} (h : readDeploy (e.mode b) ⟨0, 0, {}⟩ = .ok () s) :
    ∃ s' : DS, readDeploy (e.mode a) ⟨0, 0, {}⟩ = .ok () s' ∧ s'.dep.header = s.dep.header := by
  unfold readDeploy at h ⊢
  simp only [bind_eq_ok] at h
  obtain ⟨_, t1, h1, ty, t2, h2, _, t3, h3, _, t4, h4, _, t5, h5, _, t6, h6, _, t7, h7, _, t8, h8, ty2, t9, h9, _, t10, h10, _, t11, h11, _, t12, h12, h13⟩ := h
  rw [get_eq_ok] at h7
  rw [require_eq_ok] at h3 h5 h8 h10
  obtain ⟨h3, rfl⟩ := h3
  obtain ⟨h5, rfl⟩ := h5
  obtain ⟨h10, rfl⟩ := h10
  obtain ⟨rfl, rfl⟩ := h7
  obtain ⟨h8, rfl⟩ := h8
  simp only [modes] at h1 h2 h9 ⊢
  obtain ⟨p, hp, rfl⟩ := onPayment_eq h6
  obtain ⟨p', hp', np⟩ := (Modal_parseDeployItem e a b true _).ok_inv hp
  rw [bind_run, h1, Res.bind_ok, bind_run, h2, Res.bind_ok, bind_run, require_run, if_pos h3, Res.bind_ok, bind_run, h4, Res.bind_ok, bind_run, require_run,
    if_pos h5, Res.bind_ok, bind_run, onPayment_ok hp', Res.bind_ok, bind_run, get_run, Res.bind_ok, bind_run, require_run, if_pos (by
      dsimp only at h8 ⊢; rw [np.special, np.hasAmount]; exact h8), Res.bind_ok]
  unfold ld at h9
  dsimp only at h9
  split at h9 <;> cases h9
  rename_i o9 h9
  have k9 : ld (readU8 e) ⟨p'.off, p'.epo, { t4.dep with payment := p'.item }⟩ = .ok ty2 ⟨o9, p'.epo, { t4.dep with payment := p'.item }⟩ := by
    unfold ld; dsimp only; rw [np.off, h9]
  rw [bind_run, k9, Res.bind_ok, bind_run, require_run, if_pos h10, Res.bind_ok, bind_run]
  obtain ⟨u, hu, rfl⟩ := onSession_eq h11
  cases hu
  obtain ⟨q, hq, rfl⟩ := onSession_eq h12
  dsimp only at hq
  obtain ⟨q', hq', nq⟩ := (Modal_parseDeployItem e a b false _).ok_inv hq
  rw [onSession_ok (u := ⟨o9, p'.epo, { t4.dep.session with typ := ty2 }⟩) rfl, Res.bind_ok, bind_run]
  rw [onSession_ok (u := q') (by dsimp only; rw [np.epo]; exact hq'), Res.bind_ok]
  cases h13
  exact ⟨_, rfl, rfl⟩

/-! ### How many lines -/

/-- A call read in expert mode has two to four fixed lines. -/
theorem call_fixed {e : Env} (hx : e.expert = true) {s : IS} (h0 : s.item.typ ≠ 0) (h5 : s.item.typ ≠ 5) :
    Post (parseDeployItem e false) s (fun _ t => 2 ≤ t.item.fixed ∧ t.item.fixed ≤ 4) := by
  have tail : ∀ (u : IS) start, u.item.typ = s.item.typ → Post (do let n ← checkEntrypoint e; finishItem e n start) u
      (fun _ t => 2 ≤ t.item.fixed ∧ t.item.fixed ≤ 4) := by
    intro u start hu
    refine Post.seq (P := fun _ t => 2 ≤ t.item.fixed ∧ t.item.fixed ≤ 4) ?_ fun n t ht => finishItem_item.mono fun _ v ⟨x, hv⟩ => by rw [hv]; exact ht
    unfold checkEntrypoint
    refine Post.modifyThen (lp_frame.seq fun nm t h => Post.modifyThen (lp_frame.seq fun n v h' => Post.modifyThen ?_))
    refine Post.seq (P := fun _ t => 2 ≤ t.item.fixed ∧ t.item.fixed ≤ 4) ((parseDelegation_fixed ?_).mono fun _ t ht => ht hx) fun _ u hu => Post.pure hu
    dsimp only at h h' ⊢
    rw [h'.2, h.2, hu]; exact h0
  have ver : ∀ (u : IS) b, u.item.typ = s.item.typ → Post (versionStep e b) u (fun _ t => t.item.typ = s.item.typ) := by
    intro u b hu
    unfold versionStep
    refine Post.ite (fun _ => lp_frame.seq fun _ t ⟨_, h⟩ => Post.ite (fun _ => Post.modify ?_) fun _ => Post.pure ?_) fun _ => Post.pure hu
    · dsimp only; rw [h]; exact hu
    · rw [h]; exact hu
  unfold parseDeployItem
  refine Post.modifyThen (Post.getThen ?_)
  dsimp only
  rw [if_neg h0]
  refine Post.ite (fun _ => ?_) fun _ => Post.ite (fun _ => ?_) fun _ => Post.ite (fun h => absurd h h5) fun _ => .fail
  · unfold parseByHash
    refine Post.getThen (lp_frame.seq fun _ t ⟨_, h⟩ => Post.getThen ((ver t _ (by rw [h])).seq fun _ u hu => tail u _ hu))
  · unfold parseByName
    refine Post.getThen (lp_frame.seq fun _ t ⟨_, h⟩ => Post.getThen ((ver t _ (by rw [h])).seq fun _ u hu => tail u _ hu))

/-- The program does not touch the numbers of lines. -/
def Still {α : Type} (m : M IS α) : Prop := ∀ s, (∀ a t, m s = .ok a t → t.item.fixed = s.item.fixed ∧ t.item.runtime = s.item.runtime) ∧
  (∀ x t, m s = .err x t → t.item.fixed = s.item.fixed ∧ t.item.runtime = s.item.runtime)

/-- No fixed and no argument lines yet. -/
def Item.Nil (i : Item) : Prop := i.fixed = 0 ∧ i.runtime = 0

/-- As many fixed lines as a session has in normal mode. -/
def Item.Plain (i : Item) : Prop := i.fixed ≤ 2 ∨ (i.fixed = 4294967295 ∧ i.runtime = 2)

/-- From no lines to those of normal mode; a failure leaves none. -/
def LinesOf {α : Type} (m : M IS α) : Prop := ∀ s : IS, s.item.Nil → (∀ a t, m s = .ok a t → t.item.Plain) ∧ (∀ x t, m s = .err x t → t.item.Nil)

theorem Still.lp {α : Type} (m : P α) : Still (lp m) := by
  intro s
  unfold Casper.lp
  cases m s.off with
  | ok a o => exact ⟨fun a t h => by cases h; exact ⟨rfl, rfl⟩, fun a t h => by cases h⟩
  | err a o => exact ⟨fun a t h => (by cases h), fun a t h => by cases h; exact ⟨rfl, rfl⟩⟩
  | fault f => exact ⟨fun a t h => (by cases h), fun a t h => by cases h⟩

theorem LinesOf.bind {α β : Type} {m : M IS α} {f : α → M IS β} (hm : Still m) (hf : ∀ a, LinesOf (f a)) : LinesOf (m >>= f) := by
  intro s hs
  have h := hm s
  rw [bind_run]
  cases hr : m s with
  | ok a t =>
    have := h.1 a t hr
    exact hf a t ⟨this.1.trans hs.1, this.2.trans hs.2⟩
  | err x t =>
    have := h.2 x t hr
    exact ⟨fun a t h => (by cases h), fun a u h => by cases h; exact ⟨this.1.trans hs.1, this.2.trans hs.2⟩⟩
  | fault f => exact ⟨fun a t h => (by cases h), fun a t h => by cases h⟩

theorem LinesOf.pure {α : Type} (a : α) : LinesOf (Pure.pure a : M IS α) := fun s hs =>
  ⟨fun a t h => by cases h; exact .inl (by rw [hs.1]; omega), fun a t h => by cases h⟩

theorem LinesOf.upd {f : Item → Item} (h : ∀ i : Item, i.Nil → (f i).Plain) : LinesOf (upd f) := fun s hs =>
  ⟨fun a t ht => by cases ht; exact h _ hs, fun a t h => by cases h⟩

theorem LinesOf_checkDelegationItems (e : Env) (n : Nat) (r : Bool) : LinesOf (checkDelegationItems e n r) := by
  unfold checkDelegationItems
  refine .bind (.lp _) fun c => ?_
  cases h1 : countStep 0 c with
  | none => exact .pure _
  | some a =>
    refine .bind (fun s => ⟨fun _ _ h => by cases h; exact ⟨rfl, rfl⟩, fun _ _ h => by cases h⟩) fun _ => .bind (.lp _) fun c => ?_
    cases h2 : countStep a c with
    | none => exact .pure _
    | some b =>
      refine .bind (.lp _) fun c => ?_
      cases h3 : countStep b c with
      | none => exact .pure _
      | some found =>
        have hle : found ≤ 3 := by have := countStep_le h1; have := countStep_le h2; have := countStep_le h3; omega
        refine .bind (.lp _) fun _ => .bind (.lp _) fun _ => .bind (.lp _) fun _ => .bind (fun s => ⟨fun _ _ h => by cases h; exact ⟨rfl, rfl⟩, fun _ _ h => by cases h⟩) fun s => ?_
        have key : ∀ fx, (fx ≤ 2 ∨ fx = 4294967295) → LinesOf (upd fun i => { i with runtime := i.runtime + 2, fixed := fx, generic := 1 }) := fun fx hx =>
          .upd fun i hi => hx.elim .inl fun h => .inr ⟨h, by dsimp only; rw [hi.2]⟩
        split
        · refine key _ ?_
          unfold u32
          omega
        · split
          · exact .bind (.lp _) fun _ => .upd fun i hi => .inl (by dsimp only; rw [hi.1]; omega)
          · exact .upd fun i hi => .inl (by dsimp only; rw [hi.1]; omega)

theorem delegationLines_normal {e : Env} {n : Nat} {r : Bool} {s : IS} (hs : s.item.Nil) : Post (delegationLines e n r) s (fun _ t => t.item.Plain) := by
  unfold delegationLines
  refine Post.seq (P := fun x t => match x with | .ok _ => t.item.Plain | .error _ => t.item.Nil)
    (Post.attempt (fun a t ht => (LinesOf_checkDelegationItems e n r s hs).1 a t ht) fun x t ht => (LinesOf_checkDelegationItems e n r s hs).2 x t ht) fun x t hx => ?_
  cases x with
  | ok a => exact Post.pure hx
  | error x =>
    dsimp only
    refine Post.ite (fun _ => ?_) fun _ => .fail
    exact Post.seq (P := fun _ _ => True) (fun _ _ _ => trivial) fun am u hu => Post.modify (.inl (Nat.le_refl 2))

theorem parseDelegation_normal {e : Env} (hx : e.expert = false) {n : Nat} {r : Bool} {s : IS} (hs : s.item.Nil) :
    Post (parseDelegation e n r) s (fun _ t => t.item.Plain) := by
  unfold parseDelegation
  refine Post.getThen ?_
  dsimp only
  refine Post.seq (P := fun _ t => t.item.Nil) (Post.ite (fun _ => ?_) fun _ => Post.pure hs) fun x t ht => ?_
  · unfold parseAuction
    refine Post.getThen (Post.modifyThen ?_)
    refine Post.seq (P := fun _ t => t.item.Nil) (Post.attempt (fun a t h => ?_) fun x t h => ?_) fun _ t ht => ?_
    · exact ⟨((Still.lp _ _).1 a t h).1.trans hs.1, ((Still.lp _ _).1 a t h).2.trans hs.2⟩
    · exact ⟨((Still.lp _ _).2 x t h).1.trans hs.1, ((Still.lp _ _).2 x t h).2.trans hs.2⟩
    refine Post.seq (P := fun _ t => t.item.Nil) ?_ fun b u hu => ?_
    · refine Post.seq (P := fun _ t => t.item.Nil) (Post.attempt (fun a u h => ?_) fun x u h => ?_) fun x u hu => ?_
      · exact ⟨((Still.lp _ _).1 a u h).1.trans ht.1, ((Still.lp _ _).1 a u h).2.trans ht.2⟩
      · exact ⟨((Still.lp _ _).2 x u h).1.trans ht.1, ((Still.lp _ _).2 x u h).2.trans ht.2⟩
      · cases x with
        | ok x => exact Post.requireThen fun _ => Post.getThen (Post.requireThen fun _ => Post.pure hu)
        | error x => exact Post.ite (fun _ => .fail) fun _ => Post.ite (fun _ => .fail) fun _ => Post.modifyThen (Post.pure hu)
    · exact lp_frame.seq fun k v ⟨_, hv⟩ => Post.modifyThen (lp_frame.seq fun _ w ⟨_, hw⟩ => Post.pure (by rw [hw]; dsimp only; rw [hv]; exact hu))
  · obtain ⟨redel, ha⟩ := x
    dsimp only
    refine Post.seq (P := fun _ t => t.item.Nil) ?_ fun _ u hu => (delegationLines_normal hu).seq fun _ v hv => ?_
    · unfold checkNewValidator
      exact Post.ite (fun _ => lp_frame.mono fun _ u ⟨_, h⟩ => by rw [h]; exact ht) fun _ => Post.pure ht
    · unfold finishDelegation
      rw [hx]
      refine Post.modifyThen (Post.pure ?_)
      dsimp only
      split <;> exact hv

/-- What a session has in normal mode. -/
theorem session_normal {e : Env} (hx : e.expert = false) {s : IS} : Post (parseDeployItem e false) s (fun _ t => t.item.Plain) := by
  have tail : ∀ (u : IS) start, u.item.Nil → Post (do let n ← checkEntrypoint e; finishItem e n start) u
      (fun _ t => t.item.Plain) := by
    intro u start hu
    refine Post.seq (P := fun _ t => t.item.Plain) ?_ fun n t ht => finishItem_item.mono fun _ v ⟨x, hv⟩ => by rw [hv]; exact ht
    unfold checkEntrypoint
    refine Post.modifyThen (lp_frame.seq fun nm t h => Post.modifyThen (lp_frame.seq fun n v h' => Post.modifyThen ?_))
    refine Post.seq (P := fun _ t => t.item.Plain) (parseDelegation_normal hx ?_) fun _ u hu => Post.pure hu
    dsimp only at h h' ⊢
    rw [h'.2, h.2]; exact hu
  unfold parseDeployItem
  refine Post.modifyThen (Post.getThen ?_)
  dsimp only
  refine Post.ite (fun _ => ?_) fun _ => Post.ite (fun _ => ?_) fun _ => Post.ite (fun _ => ?_) fun _ => Post.ite (fun _ => ?_) fun _ => .fail
  · unfold parseModuleBytes
    refine Post.getThen (lp_frame.seq fun _ t ⟨_, h⟩ => lp_frame.seq fun n u ⟨_, h'⟩ => ?_)
    refine Post.seq (P := fun _ t => t.item.Plain) (parseDelegation_normal hx ?_) fun _ t ht => finishItem_item.mono fun _ v ⟨x, hv⟩ => by rw [hv]; exact ht
    rw [h', h]; exact ⟨rfl, rfl⟩
  · unfold parseByHash
    refine Post.getThen (lp_frame.seq fun _ t ⟨_, h⟩ => Post.getThen ((versionStep_normal hx).seq fun _ u hu => tail u _ ?_))
    rw [hu, h]; exact ⟨rfl, rfl⟩
  · unfold parseByName
    refine Post.getThen (lp_frame.seq fun _ t ⟨_, h⟩ => Post.getThen ((versionStep_normal hx).seq fun _ u hu => tail u _ ?_))
    rw [hu, h]; exact ⟨rfl, rfl⟩
  · unfold parseTransfer
    refine Post.getThen (lp_frame.seq fun n t ⟨_, h⟩ => ?_)
    refine Post.seq (P := fun _ t => t.item.fixed = 0) ?_ fun _ u hu => Post.modifyThen (finishItem_item.mono fun _ v ⟨x, hv⟩ => .inl (by rw [hv]; dsimp only; rw [hu]; omega))
    unfold parseNativeTransfer
    have h0 : t.item.fixed = 0 := by rw [h]
    refine lp_frame.seq fun f u ⟨_, hu⟩ => ?_
    rw [← hu] at h0
    exact Post.ite (fun _ => Post.ite (fun _ => Post.modify h0) fun _ => Post.modifyThen .fail) fun _ => Post.modify h0

/-- The module bytes of a session are read. -/
theorem module_item {e : Env} {s : IS} (h0 : s.item.typ = 0) :
    Post (parseDeployItem e false) s (fun _ _ => ∃ c, parseItem e s.off = .ok () c) := by
  unfold parseDeployItem
  refine Post.modifyThen (Post.getThen ?_)
  dsimp only
  rw [h0, if_pos rfl]
  unfold parseModuleBytes
  refine Post.getThen ?_
  refine Post.seq (lp_post (Q := fun _ o => parseItem e s.off = .ok () o) fun _ _ h => h) fun _ t h _ _ _ => ⟨_, h.1⟩

/-- The lines of a transfer. -/
theorem transfer_count {e : Env} {s : IS} (h5 : s.item.typ = 5) : Post (parseDeployItem e false) s (fun _ t =>
    t.item.fixed = 0 ∧ t.item.special = spNativeTransfer ∧ (t.item.generic = 0 ∧ (t.item.runtime = if e.expert then t.item.runtime else 2) ∧
      (e.expert = true → t.item.runtime = 3 ∨ t.item.runtime = 4) ∨ t.item.generic = 1 ∧ t.item.runtime = 1)) := by
  unfold parseDeployItem
  refine Post.modifyThen (Post.getThen ?_)
  dsimp only
  rw [h5, if_neg (by decide), if_neg (by decide), if_neg (by decide), if_pos rfl]
  unfold parseTransfer
  refine Post.getThen ((lp_post readU32_post).seq fun n t ⟨⟨_, hn, _⟩, h⟩ => ?_)
  refine Post.seq (P := fun _ t => t.item.fixed = 0 ∧ (t.item.generic = 0 ∧ (t.item.runtime = if e.expert then t.item.runtime else 2) ∧
      (e.expert = true → t.item.runtime = 3 ∨ t.item.runtime = 4) ∨ t.item.generic = 1 ∧ t.item.runtime = 1)) ?_ fun _ u hu =>
    Post.modifyThen (finishItem_item.mono fun _ v ⟨x, hv⟩ => by rw [hv]; exact ⟨hu.1, rfl, hu.2⟩)
  unfold parseNativeTransfer
  have h0 : t.item.fixed = 0 ∧ t.item.runtime = 0 := by rw [h]; exact ⟨rfl, rfl⟩
  refine lp_frame.seq fun f u ⟨_, hu⟩ => ?_
  rw [← hu] at h0
  refine Post.ite (fun h6 => Post.ite (fun h7 => Post.modify ⟨h0.1, .inl ⟨rfl, ?_, fun hx => ?_⟩⟩) fun _ => Post.modifyThen .fail) fun _ => Post.modify ⟨h0.1, .inr ⟨rfl, by
    dsimp only; rw [h0.2]⟩⟩
  · dsimp only
    rw [h0.2]
    cases e.expert <;> simp
  · dsimp only
    rw [h0.2, hx]
    simp only [if_true]
    unfold u32 at h6
    omega

/-- The fixed lines of module bytes: as in normal mode, or those that expert mode adds. -/
theorem module_fixed {e : Env} {s q q' : IS} (h0 : s.item.typ = 0) (hq : parseDeployItem (e.mode false) false s = .ok () q)
    (hq' : parseDeployItem (e.mode true) false s = .ok () q') : q'.item.fixed = q.item.fixed ∨ 2 ≤ q'.item.fixed ∧ q'.item.fixed ≤ 4 := by
  unfold parseDeployItem at hq hq'
  rw [bind_run] at hq hq'
  simp only [upd, modify_run, Res.bind_ok] at hq hq'
  rw [bind_run] at hq hq'
  simp only [get_run, Res.bind_ok, h0, if_true] at hq hq'
  unfold parseModuleBytes parseDelegation at hq hq'
  simp only [modes, bind_eq_ok, get_eq_ok, Bool.false_eq_true, if_false] at hq hq'
  obtain ⟨_, _, ⟨rfl, rfl⟩, _, t1, h1, n, t2, h2, _, t3, ⟨_, t4, ⟨rfl, rfl⟩, x, t5, h5, _, t6, h6, _, t7, h7, h8⟩, h9⟩ := hq
  obtain ⟨_, _, ⟨rfl, rfl⟩, _, t1', h1', n', t2', h2', _, t3', ⟨_, t4', ⟨rfl, rfl⟩, x', t5', h5', _, t6', h6', _, t7', h7', h8'⟩, h9'⟩ := hq'
  rw [h1] at h1'; cases h1'
  rw [h2] at h2'; cases h2'
  rw [h5] at h5'; cases h5'
  rw [h6] at h6'; cases h6'
  rw [h7] at h7'; cases h7'
  obtain ⟨_, k9⟩ := finishItem_item _ _ h9
  obtain ⟨_, k9'⟩ := finishItem_item _ _ h9'
  rw [k9, k9']
  dsimp only
  unfold finishDelegation at h8 h8'
  rw [bind_run] at h8 h8'
  simp only [upd, modify_run, Res.bind_ok, mode_expert] at h8 h8'
  cases h8
  cases hx : x.2 with
  | false =>
    rw [hx] at h8'
    cases h8'
    exact .inl rfl
  | true =>
    rw [hx] at h8'
    cases h8'
    right
    dsimp only
    constructor <;> (repeat' split) <;> omega

/-! ### The lines of the session -/

/-- A line behind the fee is one of the session. -/
theorem getItem_session {e : Env} (hs : Small e) {s : DS} {p q : IS} {k : Nat} (h : DeployParse e s p q k) {j c : Nat}
    (hj : j < u16 (q.item.fixed + q.item.runtime)) (hj' : j < 200) (hn : (if e.expert then 9 else 5) + j < numItemsDeploy e s.dep) :
    getItemDeploy e s.epo s.dep ((if e.expert then 9 else 5) + j) c = sessionLine e q.epo q.item j p.off := by
  have hf := hs.to_fits
  have hs' : e.buf.length ≤ 16384 := hs
  obtain ⟨-, hpay, hlt, -⟩ := h.payment hf
  have hext := h.extent hf
  have h5 : 5 ≤ (if e.expert then 9 else 5) + j := by split <;> omega
  have hd : s.dep.payment = p.item := by rw [h.result]
  have hses : s.dep.session = q.item := by rw [h.result]
  have hepo : s.epo = q.epo := by rw [h.result]
  unfold getItemDeploy
  rw [if_neg (by omega), if_neg (by omega), if_neg (by omega), if_neg (by omega), if_neg (by omega)]
  rw [if_neg (by rintro ⟨h8, h9⟩; rw [h8, if_pos rfl] at h9; omega)]
  unfold bodyLine
  dsimp only
  have hnew : (if e.expert then 9 else 5) + j - (if e.expert then 8 else 4) = 1 + j := by split <;> omega
  rw [bind_run, show seek (headerLength s.dep.header + 32) c = .ok () s.dep.header.bodyStart from rfl, Res.bind_ok, hnew, hd, hses, hepo]
  have htp : u16 (p.item.fixed + p.item.runtime) = 1 := by rw [hpay]; rfl
  rw [htp, if_neg (by omega), bind_run, skip_run (by omega), Res.bind_ok]
  have hn : u8 (1 + j + 65536 - 1) = j := by unfold u8; omega
  rw [hn, if_pos hj, show s.dep.header.bodyStart + p.item.total = p.off by omega]
  rfl

section
variable {e : Env} {epo : Nat} {q q' : Item} (htyp : q'.typ = q.typ) (hspecial : q'.special = q.special) (hgeneric : q'.generic = q.generic)
  (hoffset : q'.itemOffset = q.itemOffset)
include htyp hspecial hgeneric hoffset

/-- The lines of the arguments are the same. -/
theorem sessionLine_args (hrt : q'.runtime = q.runtime) (hnat : q.special = spNativeTransfer → q.generic ≠ 0) {j : Nat} (hj : q.fixed ≤ j) :
    sessionLine (e.mode true) epo q' (q'.fixed + (j - q.fixed)) = sessionLine (e.mode false) epo q j := by
  have e1 : q'.fixed + (j - q.fixed) - q'.fixed = j - q.fixed := by omega
  unfold sessionLine
  rw [hspecial]
  split
  · rename_i hn
    have hg : q.generic > 0 := Nat.pos_of_ne_zero (hnat hn)
    unfold itemNativeTransfer
    have e2 : (q'.fixed + (j - q.fixed) < q'.fixed) = (j < q.fixed) := by simp; omega
    simp only [hrt, hgeneric, e1, e2, if_pos hg, modes]
  · split
    · unfold itemDelegation
      have n1 : ¬ (q'.fixed + (j - q.fixed) < q'.fixed) := by omega
      have n2 : ¬ (j < q.fixed) := by omega
      rw [if_neg n1, if_neg n2]
      simp only [hrt, hgeneric, hoffset, htyp, hspecial, e1, modes]
    · rfl

omit hgeneric hoffset in
/-- A fixed line of normal mode says nothing or is one of expert mode. -/
theorem sessionLine_fixed (hk : CallKind q.special) {j : Nat} (hj : j < q.fixed) (hj2 : j < 2) (h3 : q.fixed ≠ 3) (hj' : j < q'.fixed) :
    sessionLine (e.mode false) epo q j = sessionLine (e.mode true) epo q' j ∨
    q.typ = 0 ∧ sessionLine (e.mode false) epo q j = (do skip 1; parseItem e; pure (b!"?", b!"?")) := by
  have hnn : q.special ≠ spNativeTransfer := by rcases hk with h | h | h | h <;> rw [h] <;> decide
  unfold sessionLine
  have hk' : q.special = spDelegate ∨ q.special = spUnDelegate ∨ q.special = spReDelegate ∨ q.special = spGeneric := hk
  rw [hspecial, if_neg hnn, if_neg hnn, if_pos hk', if_pos hk']
  unfold itemDelegation
  rw [if_pos hj, if_pos hj']
  unfold fixedDelegation
  have s0 : ((e.mode false).expert || q.fixed != 3) = true := by simpa [mode_expert] using h3
  have s1 : ((e.mode true).expert || q'.fixed != 3) = true := rfl
  simp only [s0, s1, htyp, hspecial]
  have by1 : ∀ v l, fixedByHash (e.mode false) epo true v l j = fixedByHash (e.mode true) epo true v l j := by
    intro v l
    unfold fixedByHash
    by_cases h : j = 0
    · simp only [h, and_self, if_true]
    · have : j = 1 := by omega
      subst this
      simp [modes]
  have by2 : ∀ v l, fixedByName (e.mode false) epo true v l j = fixedByName (e.mode true) epo true v l j := by
    intro v l
    unfold fixedByName
    by_cases h : j = 0
    · simp only [h, and_self, if_true]
    · have : j = 1 := by omega
      subst this
      simp [modes]
  by_cases h0 : q.typ = tyModuleBytes
  · rw [if_pos h0, if_pos h0]
    by_cases hg : q.special = spGeneric
    · left
      simp only [hg, true_or, if_true, modes]
    · right
      refine ⟨h0, ?_⟩
      rw [if_neg (by rw [mode_expert]; simpa using hg)]
      simp only [modes]
  · left
    simp only [if_neg h0, by1, by2]

omit htyp hoffset in
/-- The lines of a transfer that normal mode shows. -/
theorem sessionLine_transfer (hnat : q.special = spNativeTransfer) (hg : q.generic = 0) (hf : q.fixed = 0) (hf' : q'.fixed = 0) (hr : q.runtime = 2)
    (hr' : q'.runtime = 3 ∨ q'.runtime = 4) {j o c : Nat} {kv : Bytes × Bytes} (hj : j < 2)
    (h : sessionLine (e.mode true) epo q' (j + (q'.runtime - 3)) o = .ok kv c) : sessionLine (e.mode false) epo q j o = .ok kv c := by
  unfold sessionLine at h ⊢
  rw [hspecial, if_pos hnat] at h
  rw [if_pos hnat]
  unfold itemNativeTransfer at h ⊢
  simp only [modes, hgeneric, hg, hf, hf', hr, Nat.sub_zero] at h ⊢
  rw [bind_eq_ok] at h ⊢
  obtain ⟨a, t, h1, h⟩ := h
  refine ⟨a, t, h1, ?_⟩
  rw [bind_eq_ok] at h ⊢
  obtain ⟨a, t, h1, h⟩ := h
  refine ⟨a, t, h1, ?_⟩
  rw [bind_eq_ok] at h ⊢
  obtain ⟨n, t, h1, h⟩ := h
  refine ⟨n, t, h1, ?_⟩
  have hn : ¬ q'.runtime > n := by
    intro hn
    rw [if_pos hn] at h
    cases h
  rw [if_neg hn, if_neg (by omega), if_neg (by omega)] at h
  rw [if_neg (by omega), if_neg (by omega), if_neg (by omega)]
  split at h
  · cases h
  · rename_i h3
    rw [if_neg h3]
    simp only [Bool.false_eq_true, not_false_eq_true, if_true, not_true_eq_false, if_false] at h ⊢
    rcases hr' with hr' | hr' <;> rw [hr'] at h <;> simp only [Nat.reduceEqDiff, and_false, if_false, and_true, if_true, Nat.reduceSub, Nat.add_zero, Nat.add_sub_cancel] at h
    · by_cases h0 : j = 0
      · rw [if_pos h0] at h ⊢; exact h
      · rw [if_neg h0, if_pos (by omega)] at h ⊢; exact h
    · by_cases h0 : j = 0
      · rw [if_pos h0] at h ⊢; exact h
      · rw [if_neg h0, if_pos (by omega)] at h ⊢; exact h
end

/-! ### The whole review -/

/-- Where a line of normal mode is in expert mode. -/
def expertIndex (q q' : Item) (i : Nat) : Nat :=
  if i < 4 then i else if i = 4 then 8
  else if q.special = spNativeTransfer ∧ q.generic = 0 then 9 + (i - 5) + (q'.runtime - 3)
  else if i - 5 < q.fixed then 9 + (i - 5)
  else 9 + q'.fixed + (i - 5 - q.fixed)

/-- A Deploy accepted in expert mode is accepted in normal mode; each line says nothing or is shown in expert mode, in the same order. -/
theorem DeployAccepted.normal {e : Env} (hs : Small e) {s' : DS} (h : DeployAccepted (e.mode true) s') :
    ∃ (s : DS) (f : Nat → Nat), DeployAccepted (e.mode false) s ∧ s.dep.header = s'.dep.header ∧
      (∀ i j, i < j → j < numItemsDeploy (e.mode false) s.dep → f i < f j) ∧
      ∀ i, i < numItemsDeploy (e.mode false) s.dep → (∃ c, getItemDeploy (e.mode false) s.epo s.dep i 0 = .ok (b!"?", b!"?") c) ∨
        f i < numItemsDeploy (e.mode true) s'.dep ∧ ∃ kv c, getItemDeploy (e.mode false) s.epo s.dep i 0 = .ok kv c ∧
          getItemDeploy (e.mode true) s'.epo s'.dep (f i) 0 = .ok kv c := by
  have hs0 : Small (e.mode false) := hs
  have hs1 : Small (e.mode true) := hs
  obtain ⟨s, hr, hh⟩ := readDeploy_modes false true h.parse
  obtain ⟨p, q, k, hp⟩ := readDeploy_post _ _ hr
  obtain ⟨p', q', k', hp'⟩ := readDeploy_post _ _ h.parse
  -- the payments
  obtain ⟨p2, hpp', np⟩ := (Modal_parseDeployItem e true false true _).ok_inv hp.pay
  have hpay' := hp'.pay
  rw [← hh, hpp'] at hpay'
  cases hpay'
  have hpi := (hp.payment hs0.to_fits).2.1
  have hpi' := (hp'.payment hs1.to_fits).2.1
  rw [← hh, np.off, ← hpi] at hpi'
  -- the sessions
  obtain rfl : k' = k := by
    have h1 := hp'.sesType
    rw [np.off] at h1
    have := At.unique h1 hp.sesType rfl
    simp only [List.cons.injEq, and_true] at this
    have h2 := congrArg UInt8.toNat this
    have := hp.small
    have := hp'.small
    simp only [UInt8.toNat_ofNat'] at h2
    omega
  obtain ⟨q2, hqq', nq⟩ := (Modal_parseDeployItem e true false false _).ok_inv hp.ses
  have hses' := hp'.ses
  rw [np.off, np.epo, hqq'] at hses'
  cases hses'
  dsimp only at nq
  have hd : s.dep.payment = p.item := by rw [hp.result]
  have hd' : s'.dep.payment = p.item := by rw [hp'.result]; exact hpi'
  have hq : s.dep.session = q.item := by rw [hp.result]
  have hq' : s'.dep.session = q'.item := by rw [hp'.result]
  have hep : s.epo = q.epo := by rw [hp.result]
  have hep' : s'.epo = q'.epo := by rw [hp'.result]
  have hfac := hp.facts hs0
  have hplain := session_normal rfl _ _ hp.ses
  have hfew := (parseDeployItem_few _ _ hp.ses).1
  have hfew' := (parseDeployItem_few _ _ hp'.ses).1
  have hF : q'.item.fixed = q.item.fixed ∨ 2 ≤ q'.item.fixed ∧ q'.item.fixed ≤ 4 := by
    by_cases h0 : k' = 0
    · exact module_fixed h0 hp.ses hqq'
    · by_cases h5 : k' = 5
      · exact .inl ((transfer_count (s := ⟨p.off + 1, p.epo, { typ := k' }⟩) h5 _ _ hqq').1.trans (transfer_count h5 _ _ hp.ses).1.symm)
      · exact .inr (call_fixed (s := ⟨p.off + 1, p.epo, { typ := k' }⟩) rfl h0 h5 _ _ hqq')
  have htr : q.item.special = spNativeTransfer ∧ q.item.generic = 0 → q.item.fixed = 0 ∧ q'.item.fixed = 0 ∧ q.item.runtime = 2 ∧
      (q'.item.runtime = 3 ∨ q'.item.runtime = 4) := by
    rintro ⟨h1, h2⟩
    have h5 : k' = 5 := by
      by_cases h5 : k' = 5
      · exact h5
      · have := (hfac.call h5).1
        rw [h1] at this
        rcases this with h | h | h | h <;> cases h
    obtain ⟨a1, -, a2⟩ := transfer_count (s := ⟨p.off + 1, p.epo, { typ := k' }⟩) h5 _ _ hqq'
    obtain ⟨b1, -, b2⟩ := transfer_count h5 _ _ hp.ses
    refine ⟨b1, a1, ?_, ?_⟩
    · rcases b2 with ⟨-, b2, -⟩ | ⟨b2, -⟩
      · exact b2
      · omega
    · rcases a2 with ⟨-, -, a2⟩ | ⟨a2, -⟩
      · exact a2 rfl
      · rw [nq.generic] at a2; omega
  have hrt : ¬ (q.item.special = spNativeTransfer ∧ q.item.generic = 0) → q'.item.runtime = q.item.runtime := by
    intro hn
    by_cases h5 : k' = 5
    · obtain ⟨a1, a0, a2⟩ := transfer_count (s := ⟨p.off + 1, p.epo, { typ := k' }⟩) h5 _ _ hqq'
      obtain ⟨b1, b0, b2⟩ := transfer_count h5 _ _ hp.ses
      have h6 : q.item.generic ≠ 0 := fun h => hn ⟨b0, h⟩
      have h7 := nq.generic
      rcases b2 with ⟨b2, -⟩ | ⟨-, b2⟩
      · omega
      · rcases a2 with ⟨a2, -⟩ | ⟨-, a2⟩ <;> omega
    · exact nq.runtime (by simpa using h5)
  -- the numbers of lines
  have hN : numItemsDeploy (e.mode false) s.dep = 5 + u16 (q.item.fixed + q.item.runtime) ∧ u16 (q.item.fixed + q.item.runtime) ≤ 6 := by
    unfold numItemsDeploy u8 u16
    rw [hd, hq, hpi]
    dsimp only
    rw [mode_expert, if_neg (by decide)]
    rcases hplain with h | h <;> omega
  have hN' : numItemsDeploy (e.mode true) s'.dep = 10 + u16 (q'.item.fixed + q'.item.runtime) ∧ u16 (q'.item.fixed + q'.item.runtime) ≤ 8 := by
    unfold numItemsDeploy u8 u16
    rw [hd', hq', hpi]
    dsimp only
    rw [mode_expert, if_pos rfl]
    by_cases hn : q.item.special = spNativeTransfer ∧ q.item.generic = 0
    · have := htr hn
      omega
    · have := hrt hn
      rcases hplain with h | h <;> omega
  have hsmallF : q.item.fixed ≤ 2 ∨ q.item.fixed = 4294967295 ∧ u16 (q.item.fixed + q.item.runtime) = 1 := by
    unfold u16
    rcases hplain with h | h <;> omega
  have hts : q.item.fixed ≤ 2 → u16 (q.item.fixed + q.item.runtime) = q.item.fixed + q.item.runtime := fun h => u16_id (by omega)
  have hts' : q'.item.fixed ≤ 4 → u16 (q'.item.fixed + q'.item.runtime) = q'.item.fixed + q'.item.runtime := fun h => u16_id (by omega)
  have hline : ∀ i, i < numItemsDeploy (e.mode false) s.dep → (∃ c, getItemDeploy (e.mode false) s.epo s.dep i 0 = .ok (b!"?", b!"?") c) ∨
        expertIndex q.item q'.item i < numItemsDeploy (e.mode true) s'.dep ∧ ∃ kv c, getItemDeploy (e.mode false) s.epo s.dep i 0 = .ok kv c ∧
          getItemDeploy (e.mode true) s'.epo s'.dep (expertIndex q.item q'.item i) 0 = .ok kv c := by
    intro i hi
    by_cases h4 : i < 4
    · right
      have hx : expertIndex q.item q'.item i = i := by unfold expertIndex; rw [if_pos h4]
      rw [hx]
      have hi' : i < numItemsDeploy (e.mode true) s'.dep := by omega
      obtain ⟨kv, c, h1⟩ := h.items i hi'
      refine ⟨hi', kv, c, ?_, h1⟩
      rw [← h1]
      have hty : typeLabel s.dep = typeLabel s'.dep := by
        unfold typeLabel
        rw [hd, hd', hq, hq', nq.typ, nq.special, nq.generic]
      unfold getItemDeploy
      rw [if_neg (show ¬ i ≥ numItemsDeploy (e.mode false) s.dep by omega), if_neg (show ¬ i ≥ numItemsDeploy (e.mode true) s'.dep by omega), hh, hty]
      have : i = 0 ∨ i = 1 ∨ i = 2 ∨ i = 3 := by omega
      rcases this with rfl | rfl | rfl | rfl <;> simp [modes]
    by_cases h5 : i = 4
    · right
      subst h5
      have hx : expertIndex q.item q'.item 4 = 8 := rfl
      rw [hx]
      have hi' : 8 < numItemsDeploy (e.mode true) s'.dep := by omega
      obtain ⟨kv, c, h1⟩ := h.items 8 hi'
      refine ⟨hi', kv, c, ?_, h1⟩
      rw [← h1]
      unfold getItemDeploy
      rw [if_neg (show ¬ 4 ≥ numItemsDeploy (e.mode false) s.dep by omega), if_neg (show ¬ 8 ≥ numItemsDeploy (e.mode true) s'.dep by omega)]
      simp only [Nat.reduceEqDiff, if_false, mode_expert, Bool.false_eq_true, false_and, true_and, Nat.lt_irrefl]
      unfold bodyLine
      rw [hd, hd', hh, hpi]
      simp [modes, u16]
    -- a line of the session
    obtain ⟨j, rfl⟩ : ∃ j, i = 5 + j := ⟨i - 5, by omega⟩
    have hj : j < u16 (q.item.fixed + q.item.runtime) := by omega
    have hg := getItem_session hs0 hp (j := j) (c := 0) hj (by omega) (by rw [mode_expert]; exact hi)
    rw [mode_expert, if_neg (by decide)] at hg
    rw [hg]
    have hg' : ∀ j', j' < u16 (q'.item.fixed + q'.item.runtime) → getItemDeploy (e.mode true) s'.epo s'.dep (9 + j') 0 = sessionLine (e.mode true) q.epo q'.item j' p.off := by
      intro j' hj'
      have := getItem_session hs1 hp' (j := j') (c := 0) hj' (by omega) (by rw [mode_expert, if_pos rfl]; omega)
      rw [mode_expert, if_pos rfl] at this
      rw [this, nq.epo, np.off]
    have hok : ∀ j', j' < u16 (q'.item.fixed + q'.item.runtime) → ∃ kv c, sessionLine (e.mode true) q.epo q'.item j' p.off = .ok kv c := by
      intro j' hj'
      obtain ⟨kv, c, h1⟩ := h.items (9 + j') (by omega)
      exact ⟨kv, c, by rw [← hg' j' hj', h1]⟩
    by_cases hn : q.item.special = spNativeTransfer ∧ q.item.generic = 0
    · right
      obtain ⟨t1, t2, t3, t4⟩ := htr hn
      rw [t1, t3] at hj
      have hj2 : j < 2 := hj
      have hu := hts' (by omega)
      have hx : expertIndex q.item q'.item (5 + j) = 9 + (j + (q'.item.runtime - 3)) := by
        unfold expertIndex
        rw [if_neg (by omega), if_neg (by omega), if_pos hn]
        omega
      obtain ⟨kv, c, h1⟩ := hok (j + (q'.item.runtime - 3)) (by omega)
      rw [hx, hg' _ (by omega)]
      exact ⟨by omega, kv, c, sessionLine_transfer nq.special nq.generic hn.1 hn.2 t1 t2 t3 t4 hj2 h1, h1⟩
    · have hr1 := hrt hn
      by_cases hjf : j < q.item.fixed
      · have hj2 : j < 2 := by rcases hsmallF with h | ⟨_, h⟩ <;> omega
        have hx : expertIndex q.item q'.item (5 + j) = 9 + j := by
          unfold expertIndex
          rw [if_neg (by omega), if_neg (by omega), if_neg hn, if_pos (by omega)]
          omega
        have hjF : j < q'.item.fixed := by omega
        have hju : j < u16 (q'.item.fixed + q'.item.runtime) := by
          rcases hF with hF | hF
          · rw [hF, hr1]; exact hj
          · rw [hts' hF.2]; omega
        have h50 : k' ≠ 5 := by
          intro h5
          have := (transfer_count h5 _ _ hp.ses).1
          omega
        rcases sessionLine_fixed (e := e) (epo := q.epo) nq.typ nq.special (hfac.call h50).1 hjf hj2 (by rcases hsmallF with h | ⟨h, _⟩ <;> omega) hjF with h1 | ⟨h0, h1⟩
        · right
          obtain ⟨kv, c, h2⟩ := hok j hju
          rw [hx, h1, hg' _ hju]
          exact ⟨by omega, kv, c, h2, h2⟩
        · left
          obtain ⟨c, h2⟩ := module_item (s := ⟨p.off + 1, p.epo, { typ := k' }⟩) (hfac.typ.symm.trans h0) _ _ hp.ses
          rw [mode_parseItem] at h2
          have hlt := hp.sesType.le
          have : (e.mode false).buf.length ≤ 16384 := hs0
          have h3 : skip 1 p.off = .ok () (p.off + 1) := skip_run (by omega)
          refine ⟨c, ?_⟩
          rw [h1, bind_run, h3]
          dsimp only [Res.bind]
          rw [bind_run, h2]
          rfl
      · right
        have hu := hts (by rcases hsmallF with h | ⟨h, h'⟩ <;> omega)
        have hF4 : q'.item.fixed ≤ 4 := by rcases hsmallF with h | ⟨h, h'⟩ <;> omega
        have hu' := hts' hF4
        have hx : expertIndex q.item q'.item (5 + j) = 9 + (q'.item.fixed + (j - q.item.fixed)) := by
          unfold expertIndex
          rw [if_neg (by omega), if_neg (by omega), if_neg hn, if_neg (by omega)]
          omega
        obtain ⟨kv, c, h1⟩ := hok (q'.item.fixed + (j - q.item.fixed)) (by omega)
        rw [hx, hg' _ (by omega)]
        rw [sessionLine_args nq.typ nq.special nq.generic nq.itemOffset hr1 (fun h1 h2 => hn ⟨h1, h2⟩) (by omega)] at h1 ⊢
        exact ⟨by omega, kv, c, h1, h1⟩
  refine ⟨s, expertIndex q.item q'.item, ⟨hr, ?_, fun i hi => ?_⟩, hh.symm ▸ rfl, fun i j hij hj => ?_, hline⟩
  · obtain ⟨t, hv⟩ := h.valid
    refine ⟨t, ?_⟩
    rw [← hv]
    unfold validateDeploy
    rw [hd, hd', hq, hq', hh, nq.total]
    simp only [modes]
    rfl
  · rcases hline i hi with ⟨c, h1⟩ | ⟨-, kv, c, h1, -⟩
    · exact ⟨_, c, h1⟩
    · exact ⟨kv, c, h1⟩
  · unfold expertIndex
    by_cases hn : q.item.special = spNativeTransfer ∧ q.item.generic = 0
    · simp only [if_pos hn]
      (repeat' split) <;> omega
    · simp only [if_neg hn]
      rw [hN.1] at hj
      rcases hsmallF with h | ⟨h, h'⟩ <;> (repeat' split) <;> omega

end Casper
