import Verif.Lib.Types
/-
Safety of the readers: no undefined behaviour, nonzero error codes, and where the cursor can go.
-/
namespace Casper
open M

/-- The cursor moved from `a` to `b` forward and not beyond the data (or not at all). -/
def Fwd (e : Env) (a b : Nat) : Prop := a ≤ b ∧ (b = a ∨ b ≤ e.buf.length)

theorem Fwd.refl (e : Env) (a : Nat) : Fwd e a a := ⟨Nat.le_refl _, .inl rfl⟩
theorem Fwd.trans {e : Env} {a b c : Nat} (h : Fwd e a b) (h' : Fwd e b c) : Fwd e a c := by
  unfold Fwd at *; omega

theorem safe_readU8 (e : Env) (off : Nat) :
    Safe (readU8 e) off (fun v t => v < 256 ∧ t = off + 1 ∧ t ≤ e.buf.length) (fun x t => x = 12 ∧ t = off) := by
  unfold Safe readU8
  cases h : e.buf[off]? with
  | none => simp
  | some b =>
    have := (List.getElem?_eq_some_iff.1 h).1
    exact ⟨b.toNat_lt, rfl, this⟩

theorem safe_readLE (e : Env) (n off : Nat) :
    Safe (readLE e n) off (fun v t => v < 256 ^ n ∧ t = off + n ∧ (n = 0 ∨ t ≤ e.buf.length))
      (fun x t => x = 12 ∧ Fwd e off t) := by
  induction n generalizing off with
  | zero => exact ⟨by simp, rfl, .inl rfl⟩
  | succ n ih =>
    rw [readLE]
    apply Safe.bind
    refine (safe_readU8 e off).mono ?_ ?_
    · rintro v t ⟨hv, rfl, ht⟩
      apply Safe.bind
      refine (ih (off + 1)).mono ?_ ?_
      · rintro r t ⟨hr, rfl, ht2⟩
        refine Safe.pure ⟨?_, by omega, .inr (by omega)⟩
        rw [Nat.pow_succ]; omega
      · rintro x t ⟨rfl, h⟩
        unfold Fwd at *
        exact ⟨rfl, by omega⟩
    · rintro x t ⟨rfl, rfl⟩
      exact ⟨rfl, Fwd.refl _ _⟩

theorem safe_readU32 (e : Env) (off : Nat) :
    Safe (readU32 e) off (fun v t => v < 4294967296 ∧ t = off + 4 ∧ t ≤ e.buf.length)
      (fun x t => x = 12 ∧ Fwd e off t) :=
  (safe_readLE e 4 off).mono (fun v t h => by omega) (fun _ _ h => h)

theorem safe_readU64 (e : Env) (off : Nat) :
    Safe (readU64 e) off (fun v t => v < 2 ^ 64 ∧ t = off + 8 ∧ t ≤ e.buf.length)
      (fun x t => x = 12 ∧ Fwd e off t) :=
  (safe_readLE e 8 off).mono (fun v t h => by omega) (fun _ _ h => h)

theorem safe_readU16 (e : Env) (off : Nat) :
    Safe (readU16 e) off (fun v t => v < 65536 ∧ t = off + 2 ∧ t ≤ e.buf.length)
      (fun x t => x = 12 ∧ Fwd e off t) :=
  (safe_readLE e 2 off).mono (fun v t h => by omega) (fun _ _ h => h)

/-- Outcome of reading type bytes. -/
abbrev TypeSafe (e : Env) {α : Type} (m : P α) (off : Nat) : Prop :=
  Safe m off (fun _ t => Fwd e off t) (fun x t => x ≠ 0 ∧ Fwd e off t)

theorem TypeSafe.orElse2 {e : Env} {a b : Nat → P Nat} {opt off : Nat}
    (ha : ∀ o s, TypeSafe e (a o) s) (hb : ∀ o s, TypeSafe e (b o) s) : TypeSafe e (orElse2 a b opt) off := by
  have h1 := ha opt off
  unfold TypeSafe Safe at h1 ⊢
  unfold Casper.orElse2
  cases h : a opt off with
  | fault f => rw [h] at h1; exact h1
  | ok o s =>
    rw [h] at h1
    have h2 := hb o s
    unfold TypeSafe Safe at h2
    simp only
    cases h' : b o s with
    | fault f => rw [h'] at h2; exact h2
    | ok o' t => rw [h'] at h2; exact h1.trans h2
    | err x t => rw [h'] at h2; exact ⟨h2.1, h1.trans h2.2⟩
  | err x s =>
    rw [h] at h1
    have h2 := hb opt s
    unfold TypeSafe Safe at h2
    simp only
    cases h' : b opt s with
    | fault f => rw [h'] at h2; exact h2
    | ok o' t => rw [h'] at h2; exact ⟨h1.1, h1.2.trans h2⟩
    | err y t =>
      rw [h'] at h2
      refine ⟨?_, h1.2.trans h2.2⟩
      intro h0
      exact h1.1 (Nat.or_eq_zero_iff.1 h0).1

theorem TypeSafe.bind {e : Env} {α β : Type} {m : P α} {f : α → P β} {off : Nat}
    (hm : TypeSafe e m off) (hf : ∀ a s, TypeSafe e (f a) s) : TypeSafe e (m >>= f) off := by
  apply Safe.bind
  refine Safe.mono hm ?_ (fun _ _ h => h)
  intro a t h
  exact (hf a t).mono (fun _ _ h' => h.trans h') (fun _ _ h' => ⟨h'.1, h.trans h'.2⟩)

theorem TypeSafe.pure {e : Env} {α : Type} (a : α) (off : Nat) : TypeSafe e (Pure.pure a : P α) off := Fwd.refl _ _
theorem TypeSafe.fail {e : Env} {α : Type} (x : Nat) (off : Nat) (h : x ≠ 0) :
    TypeSafe e (M.fail x : P α) off := ⟨h, Fwd.refl _ _⟩
theorem TypeSafe.readU8 (e : Env) (off : Nat) : TypeSafe e (Casper.readU8 e) off :=
  (safe_readU8 e off).mono (fun _ _ h => ⟨by omega, .inr (by omega)⟩)
    (fun _ _ h => ⟨by omega, by rw [h.2]; exact Fwd.refl _ _⟩)
theorem TypeSafe.readLE (e : Env) (n off : Nat) : TypeSafe e (Casper.readLE e n) off :=
  (safe_readLE e n off).mono (fun _ _ h => ⟨by omega, by omega⟩) (fun _ _ h => ⟨by omega, h.2⟩)

theorem addl_safe1 {e : Env} {f t opt : Nat} (ht : isContainer t = false) (off : Nat) :
    TypeSafe e (addlType e (f + 1) t opt) off := by
  have h13 : t ≠ 13 := by rintro rfl; exact absurd ht (by decide)
  have h14 : t ≠ 14 := by rintro rfl; exact absurd ht (by decide)
  have h16 : t ≠ 16 := by rintro rfl; exact absurd ht (by decide)
  have h17 : t ≠ 17 := by rintro rfl; exact absurd ht (by decide)
  have h18 : ¬ (t = 18 ∨ t = 19 ∨ t = 20) := by rintro (rfl | rfl | rfl) <;> exact absurd ht (by decide)
  rw [addlType]
  split
  · exact .pure _ _
  split
  · exact .bind (.readLE _ _ _) fun _ _ => .pure _ _
  exact .fail _ _ (by decide)

theorem readTags_safe (e : Env) (n off : Nat) : TypeSafe e (readTags e n) off := by
  induction n generalizing off with
  | zero => exact .pure _ _
  | succ n ih =>
    rw [readTags]
    refine .bind (.readU8 _ _) fun t s => ?_
    split
    · exact .fail _ _ (by decide)
    · exact .bind (ih s) fun _ _ => .pure _ _

theorem readTags_flat {e : Env} {n off t : Nat} {ts : List Nat} (h : readTags e n off = .ok ts t) :
    ∀ x ∈ ts, isContainer x = false := by
  induction n generalizing off t ts with
  | zero => rw [readTags, pure_eq_ok] at h; simp [← h.1]
  | succ n ih =>
    rw [readTags, bind_eq_ok] at h
    obtain ⟨b, s, -, h⟩ := h
    split at h
    · simp at h
    · rename_i hb
      rw [bind_eq_ok] at h
      obtain ⟨us, s', hus, h⟩ := h
      simp at h
      obtain ⟨rfl, rfl⟩ := h
      intro x hx
      rcases List.mem_cons.1 hx with rfl | hx
      · simpa using hb
      · exact ih hus x hx

theorem orAll_safe {e : Env} {f : Nat → Nat → P Nat} {ts : List Nat}
    (h : ∀ t ∈ ts, ∀ o s, TypeSafe e (f t o) s) (opt off : Nat) : TypeSafe e (orAll f ts opt) off := by
  induction ts generalizing opt off with
  | nil => exact .pure _ _
  | cons t ts ih =>
    exact .orElse2 (fun o s => h t (by simp) o s) (fun o s => ih (fun x hx => h x (by simp [hx])) o s)

theorem tuple_safe {e : Env} {f n opt : Nat} (off : Nat) : TypeSafe e (do
      let ts ← readTags e n
      let _ ← orAll (addlType e (f + 1)) ts 0
      Pure.pure opt) off := by
  have h := readTags_safe e n off
  apply Safe.bind
  unfold TypeSafe at h
  rw [safe_iff] at h ⊢
  refine ⟨fun ts s hts => ?_, h.2⟩
  have hfl := readTags_flat hts
  have hfw := h.1 _ _ hts
  have h2 : TypeSafe e (do
      let _ ← orAll (addlType e (f + 1)) ts 0
      Pure.pure opt) s :=
    .bind (orAll_safe (fun t ht o s => addl_safe1 (hfl t ht) s) _ _) fun _ _ => .pure _ _
  exact Safe.mono h2 (fun _ _ h' => hfw.trans h') (fun _ _ h' => ⟨h'.1, hfw.trans h'.2⟩)

theorem addl_safe2 {e : Env} {f t opt : Nat} (ht : t ≠ 17) (off : Nat) :
    TypeSafe e (addlType e (f + 2) t opt) off := by
  rw [addlType]
  split
  · exact .pure _ _
  split
  · refine .bind (.readU8 _ _) fun i s => ?_
    split
    · exact .fail _ _ (by decide)
    · rename_i hi
      exact .bind (addl_safe1 (by simpa using hi) _) fun _ _ => .pure _ _
  split
  · refine .bind (.readU8 _ _) fun i s => ?_
    split
    · exact .pure _ _
    split
    · exact .fail _ _ (by decide)
    · rename_i hi
      exact .bind (addl_safe1 (by simpa using hi) _) fun _ _ => .pure _ _
  split
  · exact .bind (.readLE _ _ _) fun _ _ => .pure _ _
  split
  · refine .bind (.readU8 _ _) fun i s => .bind (.readU8 _ _) fun j s => ?_
    split
    · exact .fail _ _ (by decide)
    · rename_i hi
      simp at hi
      exact .orElse2 (fun o s => addl_safe1 hi.1 s) (fun o s => addl_safe1 hi.2 s)
  split
  · exact tuple_safe _
  · exact .fail _ _ (by decide)

theorem addl_safe3 {e : Env} {f t opt : Nat} (off : Nat) : TypeSafe e (addlType e (f + 3) t opt) off := by
  by_cases ht : t = 17
  · subst ht
    rw [addl_17]
    refine .bind (.readU8 _ _) fun i s => .bind (.readU8 _ _) fun j s => ?_
    split
    · exact .fail _ _ (by decide)
    · rename_i hi
      simp at hi
      exact .orElse2 (fun o s => addl_safe2 hi.1 s) (fun o s => addl_safe2 hi.2 s)
  · exact addl_safe2 (f := f + 1) ht off

theorem TypeSafe.require {e : Env} {c : Prop} [Decidable c] {x : Nat} (off : Nat) (h : x ≠ 0) :
    TypeSafe e (M.require c x : P Unit) off :=
  Safe.require (fun _ => Fwd.refl _ _) (fun _ => ⟨h, Fwd.refl _ _⟩)

theorem getType_safe (e : Env) (opt off : Nat) : TypeSafe e (getType e opt) off :=
  .bind (.readU8 _ _) fun _ s => .bind (.require s (by decide)) fun _ _ => .bind (addl_safe3 _) fun _ _ => .pure _ _

end Casper
