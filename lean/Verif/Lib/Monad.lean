import Verif.Model.Basic
/-
Reasoning about the state/error monad: inversion of successful runs, and a predicate `Safe` ("no undefined
behaviour, `Q` on success, `E` on error").
-/
namespace Casper
open M

section
variable {σ α β : Type}

theorem Res.bind_eq_ok {r : Res σ α} {f : α → σ → Res σ β} {b : β} {t : σ} :
    r.bind f = .ok b t ↔ ∃ a s, r = .ok a s ∧ f a s = .ok b t := by
  cases r with
  | ok a s =>
    simp only [Res.bind_ok, Res.ok.injEq]
    exact ⟨fun h => ⟨a, s, ⟨rfl, rfl⟩, h⟩, by rintro ⟨_, _, ⟨rfl, rfl⟩, h⟩; exact h⟩
  | err x s => simp
  | fault f => simp

theorem M.bind_eq_ok {m : M σ α} {f : α → M σ β} {s : σ} {b : β} {t : σ} :
    (m >>= f) s = .ok b t ↔ ∃ a s', m s = .ok a s' ∧ f a s' = .ok b t := by
  rw [bind_run]; exact Res.bind_eq_ok

theorem M.pure_eq_ok {a b : α} {s t : σ} : (pure a : M σ α) s = .ok b t ↔ a = b ∧ s = t := by
  simp

theorem M.fail_eq_ok {e : Nat} {b : α} {s t : σ} : (fail e : M σ α) s = .ok b t ↔ False := by
  simp

theorem M.require_eq_ok {c : Prop} [Decidable c] {e : Nat} {b : Unit} {s t : σ} :
    (require c e : M σ Unit) s = .ok b t ↔ c ∧ s = t := by
  rw [require_run]; split <;> simp_all

theorem M.require_eq_err {c : Prop} [Decidable c] {e x : Nat} {s t : σ} :
    (require c e : M σ Unit) s = .err x t ↔ ¬ c ∧ e = x ∧ s = t := by
  rw [require_run]; split <;> simp_all

theorem M.attempt_eq_ok {m : M σ α} {s t : σ} {r : Except Nat α} :
    attempt m s = .ok r t ↔ (∃ a, r = .ok a ∧ m s = .ok a t) ∨ (∃ x, r = .error x ∧ m s = .err x t) := by
  rw [attempt_run]; cases h : m s <;> simp <;> grind

/-- No undefined behaviour from `s`; `Q` holds on success, `E` on error. -/
def Safe (m : M σ α) (s : σ) (Q : α → σ → Prop) (E : Nat → σ → Prop) : Prop :=
  match m s with
  | .ok a t => Q a t
  | .err x t => E x t
  | .fault _ => False

theorem safe_iff {m : M σ α} {s : σ} {Q : α → σ → Prop} {E : Nat → σ → Prop} :
    Safe m s Q E ↔ (∀ a t, m s = .ok a t → Q a t) ∧ (∀ x t, m s = .err x t → E x t) ∧ (∀ f, m s ≠ .fault f) := by
  unfold Safe; cases h : m s <;> simp

theorem Safe.bind {m : M σ α} {f : α → M σ β} {s : σ} {Q : β → σ → Prop} {E : Nat → σ → Prop}
    (h : Safe m s (fun a t => Safe (f a) t Q E) E) : Safe (m >>= f) s Q E := by
  unfold Safe at *; rw [bind_run]; cases hm : m s <;> rw [hm] at h <;> first | exact h | (simp [Res.bind]; exact h)

theorem Safe.mono {m : M σ α} {s : σ} {Q Q' : α → σ → Prop} {E E' : Nat → σ → Prop}
    (h : Safe m s Q E) (hq : ∀ a t, Q a t → Q' a t) (he : ∀ x t, E x t → E' x t) : Safe m s Q' E' := by
  unfold Safe at *; cases hm : m s <;> rw [hm] at h <;> first | exact hq _ _ h | exact he _ _ h | exact h

theorem Safe.pure {a : α} {s : σ} {Q : α → σ → Prop} {E : Nat → σ → Prop} (h : Q a s) :
    Safe (Pure.pure a : M σ α) s Q E := h
theorem Safe.fail {e : Nat} {s : σ} {Q : α → σ → Prop} {E : Nat → σ → Prop} (h : E e s) :
    Safe (M.fail e : M σ α) s Q E := h
theorem Safe.get {s : σ} {Q : σ → σ → Prop} {E : Nat → σ → Prop} (h : Q s s) : Safe (M.get : M σ σ) s Q E := h
theorem Safe.set {s t : σ} {Q : Unit → σ → Prop} {E : Nat → σ → Prop} (h : Q () t) :
    Safe (M.set t : M σ Unit) s Q E := h
theorem Safe.modify {s : σ} {g : σ → σ} {Q : Unit → σ → Prop} {E : Nat → σ → Prop} (h : Q () (g s)) :
    Safe (M.modify g : M σ Unit) s Q E := h
theorem Safe.require {c : Prop} [Decidable c] {e : Nat} {s : σ} {Q : Unit → σ → Prop} {E : Nat → σ → Prop}
    (h : c → Q () s) (h' : ¬ c → E e s) : Safe (M.require c e : M σ Unit) s Q E := by
  unfold Safe; rw [require_run]; by_cases hc : c
  · rw [if_pos hc]; exact h hc
  · rw [if_neg hc]; exact h' hc
theorem Safe.attempt {m : M σ α} {s : σ} {Q : Except Nat α → σ → Prop} {E : Nat → σ → Prop}
    (h : Safe m s (fun a t => Q (.ok a) t) (fun x t => Q (.error x) t)) : Safe (M.attempt m) s Q E := by
  unfold Safe at *; rw [attempt_run]; cases hm : m s <;> rw [hm] at h <;> exact h
theorem Safe.ite {c : Prop} [Decidable c] {m n : M σ α} {s : σ} {Q : α → σ → Prop} {E : Nat → σ → Prop}
    (h : c → Safe m s Q E) (h' : ¬ c → Safe n s Q E) : Safe (if c then m else n) s Q E := by
  by_cases hc : c
  · rw [if_pos hc]; exact h hc
  · rw [if_neg hc]; exact h' hc

end

end Casper
