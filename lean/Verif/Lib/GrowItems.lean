import Verif.Lib.Grow
import Verif.Lib.V1
/-
Lookups whose errors are looked at, when more data follow; lines of version 1 transactions.
-/
namespace Casper
open M

/-- The error codes of `m` are at least 8. -/
def Hi {σ α : Type} (m : M σ α) : Prop := ∀ s x t, m s = .err x t → 8 ≤ x

section
variable {σ α β : Type}
theorem Hi.bind {m : M σ α} {f : α → M σ β} (hm : Hi m) (hf : ∀ a, Hi (f a)) : Hi (m >>= f) := by
  intro s x t h
  rw [bind_run] at h
  cases h1 : m s with
  | ok a s' => rw [h1] at h; exact hf a s' x t h
  | err y s' => rw [h1] at h; cases h; exact hm _ _ _ h1
  | fault f => rw [h1] at h; cases h
theorem Hi.pure (a : α) : Hi (Pure.pure a : M σ α) := by intro s x t h; cases h
theorem Hi.get : Hi (M.get : M σ σ) := by intro s x t h; cases h
theorem Hi.set (a : σ) : Hi (M.set a : M σ Unit) := by intro s x t h; cases h
theorem Hi.abort (f : Fault) : Hi (M.abort f : M σ α) := by intro s x t h; cases h
theorem Hi.fail {y : Nat} (hy : 8 ≤ y) : Hi (M.fail y : M σ α) := by intro s x t h; cases h; exact hy
theorem Hi.require (c : Prop) [Decidable c] {y : Nat} (hy : 8 ≤ y) : Hi (M.require c y : M σ Unit) := by
  intro s x t h; rw [require_run] at h; split at h <;> cases h; exact hy
theorem Hi.ite {c : Prop} [Decidable c] {m n : M σ α} (hm : c → Hi m) (hn : ¬ c → Hi n) : Hi (if c then m else n) := by
  split
  · exact hm ‹_›
  · exact hn ‹_›
end

theorem Hi_skip (n : Nat) : Hi (skip n) := by intro s x t h; cases h
theorem Hi_slice (e : Env) (i n : Nat) : Hi (slice e i n) := by intro s x t h; unfold slice at h; split at h <;> cases h
theorem Hi_readU8 (e : Env) : Hi (readU8 e) := by
  intro s x t h; unfold readU8 at h; split at h <;> cases h; decide
theorem Hi_readLE (e : Env) (n : Nat) : Hi (readLE e n) := by
  induction n with
  | zero => unfold readLE; walk Hi
  | succ n ih => unfold readLE; walk Hi
theorem Hi_parseItem (e : Env) : Hi (parseItem e) := by unfold parseItem; walk Hi
theorem Hi_copyItem (e : Env) (n : Nat) : Hi (copyItem e n) := by unfold copyItem; walk Hi
theorem Hi_readTags (e : Env) (n : Nat) : Hi (readTags e n) := by
  induction n with
  | zero => unfold readTags; walk Hi
  | succ n ih => unfold readTags; walk Hi
theorem Hi_orElse2 {a b : Nat → P Nat} (ha : ∀ n, Hi (a n)) (hb : ∀ n, Hi (b n)) (o : Nat) : Hi (orElse2 a b o) := by
  intro s x t h
  unfold orElse2 at h
  cases h1 : a o s with
  | fault f => rw [h1] at h; cases h
  | ok n u => rw [h1] at h; exact hb _ _ _ _ h
  | err y u =>
    rw [h1] at h
    dsimp only at h
    have := ha _ _ _ _ h1
    cases h2 : b o u <;> rw [h2] at h <;> cases h
    · exact this
    · exact Nat.le_trans this Nat.left_le_or
theorem Hi_orAll {f : Nat → Nat → P Nat} (h : ∀ t o, Hi (f t o)) (ts : List Nat) (o : Nat) : Hi (orAll f ts o) := by
  induction ts generalizing o with
  | nil => unfold orAll; walk Hi
  | cons t ts ih => unfold orAll; exact Hi_orElse2 (h t) (fun n => ih n) o
theorem Hi_addlType (e : Env) (k t o : Nat) : Hi (addlType e k t o) := by
  induction k generalizing t o with
  | zero => unfold addlType; walk Hi
  | succ k ih =>
    have h4 := fun a b o => Hi_orElse2 (ih a) (ih b) o
    have h5 := fun ts o => Hi_orAll ih ts o
    unfold addlType; walk Hi
theorem Hi_getType (e : Env) (o : Nat) : Hi (getType e o) := by unfold getType; walk Hi

section
variable {e : Env} {ys : Bytes}

/-- A name that is absent (all arguments were walked over) stays so. -/
theorem getData_absent_ext {name : Bytes} {n s t : Nat} (h : getData e name n s = .err 1 t) : getData (e.ext ys) name n s = .err 1 t := by
  induction n generalizing s with
  | zero => exact h
  | succ n ih =>
    unfold getData at h ⊢
    rw [bind_run] at h ⊢
    cases h1 : copyItem e 300 s with
    | fault f => rw [h1] at h; cases h
    | err x u => rw [h1] at h; cases h; exact absurd (Hi_copyItem e 300 _ _ _ h1) (by decide)
    | ok key u =>
      rw [h1] at h
      rw [Grows_copyItem _ _ _ _ h1]
      rw [Res.bind_ok] at h ⊢
      by_cases hk : cstr key = name
      · rw [if_pos hk] at h
        have hi : Hi (do
            let len ← readU32 e
            let start ← M.get
            if len > e.buf.length - start then M.fail eBufferEnd
            else
              skip len
              let (t, _) ← getType e 0
              M.set start
              pure (len, t)) := by
          have := Hi_getType e 0
          walk Hi
        exact absurd (hi _ _ _ h) (by decide)
      · rw [if_neg hk] at h ⊢
        rw [bind_run] at h ⊢
        cases h2 : parseItem e u with
        | fault f => rw [h2] at h; cases h
        | err x v => rw [h2] at h; cases h; exact absurd (Hi_parseItem e _ _ _ h2) (by decide)
        | ok _ v =>
          rw [h2] at h
          rw [Grows_parseItem _ _ _ h2]
          rw [Res.bind_ok, bind_run] at h ⊢
          cases h3 : getType e 0 v with
          | fault f => rw [h3] at h; cases h
          | err x w => rw [h3] at h; cases h; exact absurd (Hi_getType e 0 _ _ _ h3) (by decide)
          | ok r w =>
            rw [h3] at h
            rw [Grows_getType _ _ _ _ h3]
            exact ih h

/-- A lookup all of whose errors but "no data" are passed on. -/
theorem Grows_lookup {β : Type} {name : Bytes} {n : Nat} {f f' : Except Nat (Nat × Nat) → P β} (h1 : ∀ a, Grows (f' (.ok a)) (f (.ok a)))
    (h2 : Grows (f' (.error 1)) (f (.error 1))) (h3 : ∀ x, x ≠ 1 → ∀ s b t, f (.error x) s ≠ .ok b t) :
    Grows (attempt (getData (e.ext ys) name n) >>= f') (attempt (getData e name n) >>= f) := by
  intro s b t h
  rw [bind_run, attempt_run] at h ⊢
  cases hg : getData e name n s with
  | fault x => rw [hg] at h; cases h
  | ok a u => rw [hg] at h; rw [Grows_getData _ _ _ _ _ hg]; exact h1 a _ _ _ h
  | err x u =>
    rw [hg] at h
    by_cases hx : x = 1
    · subst hx; rw [getData_absent_ext hg]; exact h2 _ _ _ h
    · exact absurd h (h3 x hx _ _ _)

theorem Grows_itemTransfer (v : V1) (i : Nat) : Grows (itemTransfer (e.ext ys) v i) (itemTransfer e v i) := by
  unfold itemTransfer
  refine .bind .get fun st => ?_
  dsimp only
  refine .ite (fun _ => .refl _) fun _ => .ite (fun _ => ?_) fun _ => ?_
  · refine Grows_lookup (fun a => ?_) ?_ fun x hx s b t h => ?_
    · obtain ⟨len, ty⟩ := a
      dsimp only
      walk Grows
    · dsimp only
      walk Grows
    · dsimp only at h; rw [bind_run, set_run, Res.bind_ok, if_pos hx] at h; cases h
  · walk Grows

theorem Grows_itemRedelegate (v : V1) (i : Nat) : Grows (itemRedelegate (e.ext ys) v i) (itemRedelegate e v i) := by
  unfold itemRedelegate
  refine .bind .get fun st => ?_
  dsimp only
  refine .ite (fun _ => .refl _) fun _ => ?_
  have key : ∀ name : Bytes, Grows
      (do match ← attempt (getData (e.ext ys) name v.numArgs) with
          | .ok _ => do
            M.set st
            pure true
          | .error x =>
            if x ≠ 1 then M.fail x
            else do
              M.set st
              pure false)
      (do match ← attempt (getData e name v.numArgs) with
          | .ok _ => do
            M.set st
            pure true
          | .error x =>
            if x ≠ 1 then M.fail x
            else do
              M.set st
              pure false) := by
    intro name
    refine Grows_lookup (fun a => .refl _) (.refl _) fun x hx s b t h => ?_
    dsimp only at h
    rw [if_pos hx] at h
    cases h
  refine .bind (key _) fun d => .bind (key _) fun o => .bind (key _) fun a => ?_
  walk Grows

/-- The line of a burn, when the source is found. -/
theorem itemBurn_ext {v : V1} {i s : Nat} (hg : ∃ a t, getData e b!"source" v.numArgs s = .ok a t) {kv : Bytes × Bytes} {t : Nat}
    (h : itemBurn e v i s = .ok kv t) : itemBurn (e.ext ys) v i s = .ok kv t := by
  obtain ⟨a, u, hg⟩ := hg
  unfold itemBurn at h ⊢
  rw [bind_run, get_run, Res.bind_ok] at h ⊢
  by_cases hi : i ≥ v.numArgs
  · rw [if_pos hi] at h; cases h
  · rw [if_neg hi] at h ⊢
    rw [bind_run, attempt_run] at h ⊢
    rw [hg] at h
    rw [Grows_getData _ _ _ _ _ hg]
    obtain ⟨len, ty⟩ := a
    rw [Res.bind_ok] at h ⊢
    dsimp only at h ⊢
    revert h
    refine (?_ : Grows _ _) _ _ _
    walk Grows

theorem pricingKey_ne (v : V1) (i : Nat) : pricingKey v i ≠ b!"?" := by
  unfold pricingKey
  split
  · decide
  · split <;> decide

/-- A pricing line whose text is not "?". -/
theorem itemPricing_ext {v : V1} {i s : Nat} {kv : Bytes × Bytes} {t : Nat} (h : itemPricing e v i s = .ok kv t) (hq : kv.2 = b!"?" → kv.1 = b!"?") :
    itemPricing (e.ext ys) v i s = .ok kv t := by
  unfold itemPricing at h ⊢
  rw [bind_run, attempt_run] at h ⊢
  cases hg : pricingValue e v i s with
  | fault x => rw [hg] at h; cases h
  | ok a u => rw [hg] at h; rw [Grows_pricingValue _ _ _ _ _ hg]; exact h
  | err x u => rw [hg] at h; cases h; exact absurd (hq rfl) (pricingKey_ne v i)

/-- A line of a version 1 transaction shown, other than a labelled "?", stays the same when more data follow. -/
theorem getItemV1_ext {v : V1} {i s : Nat} (hb : v.epType = 12 → ∃ a t, getData e b!"source" v.numArgs (u16 v.argsOff) = .ok a t) {kv : Bytes × Bytes}
    {t : Nat} (h : getItemV1 e v i s = .ok kv t) (hq : i < 6 + v.header.pmItems → kv.2 = b!"?" → kv.1 = b!"?") : getItemV1 (e.ext ys) v i s = .ok kv t := by
  have entry : ∀ {j s : Nat} {kv : Bytes × Bytes} {t : Nat}, itemEntry e v j s = .ok kv t → itemEntry (e.ext ys) v j s = .ok kv t := by
    intro j s kv t h
    unfold itemEntry at h ⊢
    rw [bind_run, seek, Res.bind_ok] at h ⊢
    by_cases h12 : v.epType = 12
    · have hb := hb h12
      rw [if_neg (by omega), if_neg (by omega), if_neg (by omega), if_neg (by omega), if_neg (by omega), if_pos h12] at h ⊢
      exact itemBurn_ext (e := e) (ys := ys) (v := v) (i := j) (s := u16 v.argsOff) hb h
    · revert h
      refine (?_ : Grows _ _) _ _ _
      refine .ite (fun _ => ?_) fun _ => .ite (fun _ => ?_) fun _ => .ite (fun _ => ?_) fun _ => .ite (fun _ => ?_) fun _ =>
        .ite (fun _ => ?_) fun _ => .ite (fun h => absurd h h12) fun _ => .ite (fun _ => ?_) fun _ => ?_
      · exact Grows_itemCustom _ _
      · exact Grows_itemTransfer _ _
      · exact Grows_itemRedelegate _ _
      · exact Grows_itemAddRsv _
      · exact Grows_itemCancelRsv _
      · exact .refl _
      · exact Grows_itemTable _ _
  have entry' : ∀ j, Grows (itemEntry (e.ext ys) v j) (itemEntry e v j) := fun j s kv t h => entry h
  by_cases hp : e.expert = true ∧ 6 ≤ i ∧ i < 6 + v.header.pmItems
  · unfold getItemV1 at h ⊢
    obtain ⟨p1, p2, p3⟩ := hp
    dsimp only at h ⊢
    by_cases hi : i ≥ v.numItems
    · rw [if_pos hi] at h; cases h
    · rw [if_neg hi, if_neg (by omega), if_neg (by omega), if_neg (by omega), if_neg (by omega), if_pos p1, if_neg (by omega), if_neg (by omega),
        if_pos p3] at h ⊢
      exact itemPricing_ext h (hq p3)
  · revert h
    refine (?_ : Grows _ _) _ _ _
    unfold getItemV1
    dsimp only
    refine .ite (fun _ => .refl _) fun _ => .ite (fun _ => ?_) fun _ => .ite (fun _ => .refl _) fun _ => .ite (fun _ => ?_) fun _ => .ite (fun _ => ?_) fun _ => ?_
    · walk Grows
    · walk Grows
    · walk Grows
    refine .ite (fun hx => .ite (fun _ => ?_) fun _ => .ite (fun _ => ?_) fun h5 => .ite (fun h6 => ?_) fun _ => ?_) fun hx => ?_
    · walk Grows
    · walk Grows
    · exact absurd ⟨hx, by omega, h6⟩ hp
    · refine .ite (fun _ => entry' _) fun _ => ?_
      exact .refl _
    · exact .ite (fun _ => entry' _) fun _ => .refl _
end

end Casper
