import Verif.Model.RuntimeArgs
import Verif.Lib.Monad
import Verif.Spec.Bytesrepr
/-
`At buf off xs`: the bytes `xs` stand at offset `off`.  Equations for the readers under `At`.
-/
namespace Casper
open M

/-- The bytes `xs` are found in `buf` from `off` on. -/
def At (buf : Bytes) (off : Nat) (xs : Bytes) : Prop := ∃ pre post, buf = pre ++ xs ++ post ∧ pre.length = off

theorem At.le {buf : Bytes} {off : Nat} {xs : Bytes} (h : At buf off xs) : off + xs.length ≤ buf.length := by
  obtain ⟨pre, post, rfl, rfl⟩ := h; simp

theorem At.take_drop {buf : Bytes} {off : Nat} {xs : Bytes} (h : At buf off xs) :
    (buf.drop off).take xs.length = xs := by
  obtain ⟨pre, post, rfl, rfl⟩ := h; simp

theorem at_iff {buf : Bytes} {off : Nat} {xs : Bytes} :
    At buf off xs ↔ off + xs.length ≤ buf.length ∧ (buf.drop off).take xs.length = xs := by
  constructor
  · intro h; exact ⟨h.le, h.take_drop⟩
  · rintro ⟨h1, h2⟩
    refine ⟨buf.take off, buf.drop (off + xs.length), ?_, by simp; omega⟩
    have := List.take_append_drop xs.length (buf.drop off)
    rw [h2, List.drop_drop] at this
    rw [List.append_assoc, this, List.take_append_drop]

theorem At.append {buf : Bytes} {off : Nat} {xs ys : Bytes} :
    At buf off (xs ++ ys) ↔ At buf off xs ∧ At buf (off + xs.length) ys := by
  constructor
  · rintro ⟨pre, post, rfl, rfl⟩
    exact ⟨⟨pre, ys ++ post, by simp, rfl⟩, ⟨pre ++ xs, post, by simp, by simp⟩⟩
  · rintro ⟨⟨pre, post, h1, rfl⟩, h⟩
    rw [at_iff] at h
    obtain ⟨ha, hb⟩ := h
    subst h1
    refine ⟨pre, post.drop ys.length, ?_, rfl⟩
    have : post.take ys.length = ys := by
      rw [← List.length_append] at hb; simpa using hb
    have h2 := List.take_append_drop ys.length post
    rw [this] at h2
    rw [List.append_assoc, List.append_assoc, List.append_assoc, h2]

theorem At.nil {buf : Bytes} {off : Nat} (h : off ≤ buf.length) : At buf off [] :=
  ⟨buf.take off, buf.drop off, by simp, by simp; omega⟩

theorem At.cons {buf : Bytes} {off : Nat} {x : UInt8} {xs : Bytes} :
    At buf off (x :: xs) ↔ At buf off [x] ∧ At buf (off + 1) xs := by
  rw [show x :: xs = [x] ++ xs from rfl, At.append]; simp

theorem At.self (buf : Bytes) : At buf 0 buf := ⟨[], [], by simp, rfl⟩

theorem At.get {buf : Bytes} {off : Nat} {x : UInt8} {xs : Bytes} (h : At buf off (x :: xs)) :
    buf[off]? = some x := by
  obtain ⟨pre, post, rfl, rfl⟩ := h; simp

theorem slice_at {e : Env} {off n : Nat} {xs : Bytes} {s : Nat} (h : At e.buf off xs) (hn : n = xs.length) :
    slice e off n s = .ok xs s := by
  subst hn
  unfold slice; rw [if_pos h.le, h.take_drop]

theorem slice_eq_ok {e : Env} {off n s t : Nat} {xs : Bytes} :
    slice e off n s = .ok xs t ↔ At e.buf off xs ∧ xs.length = n ∧ s = t := by
  unfold slice
  constructor
  · intro h
    split at h
    · rename_i hle
      simp only [Res.ok.injEq] at h
      obtain ⟨rfl, rfl⟩ := h
      have : ((e.buf.drop off).take n).length = n := by simp; omega
      refine ⟨?_, this, rfl⟩
      rw [at_iff]; rw [this]; exact ⟨hle, rfl⟩
    · simp at h
  · rintro ⟨h, rfl, rfl⟩
    rw [if_pos h.le, h.take_drop]

theorem readU8_at {e : Env} {off : Nat} {x : UInt8} {xs : Bytes} (h : At e.buf off (x :: xs)) :
    readU8 e off = .ok x.toNat (off + 1) := by
  unfold readU8; rw [h.get]

theorem readU8_eq_ok {e : Env} {off v t : Nat} :
    readU8 e off = .ok v t ↔ ∃ x : UInt8, At e.buf off [x] ∧ v = x.toNat ∧ t = off + 1 := by
  unfold readU8
  cases h : e.buf[off]? with
  | none =>
    simp only [reduceCtorEq, false_iff]
    rintro ⟨x, hx, -⟩
    have := hx.le
    simp at h this; omega
  | some b =>
    simp only [Res.ok.injEq]
    constructor
    · rintro ⟨rfl, rfl⟩
      refine ⟨b, ?_, rfl, rfl⟩
      rw [List.getElem?_eq_some_iff] at h
      obtain ⟨hlt, hb⟩ := h
      rw [at_iff]; simp
      exact ⟨hlt, by rw [List.take_one, List.head?_drop]; simp [hlt, hb]⟩
    · rintro ⟨x, hx, rfl, rfl⟩
      rw [hx.get] at h; simp at h; simp [h]

theorem readLE_at {e : Env} {n off v : Nat} (h : At e.buf off (le n v)) (hv : v < 256 ^ n) :
    readLE e n off = .ok v (off + n) := by
  induction n generalizing off v with
  | zero => simp at hv; subst hv; rfl
  | succ n ih =>
    rw [le] at h
    have h2 := (At.cons.1 h).2
    have hlt : v / 256 < 256 ^ n := by
      rw [Nat.div_lt_iff_lt_mul (by decide)]; rw [Nat.pow_succ] at hv; exact hv
    simp only [readLE, bind_run, readU8_at h, Res.bind_ok, ih h2 hlt, pure_run, Res.ok.injEq]
    constructor
    · simp [UInt8.toNat_ofNat']; omega
    · omega

theorem readLE_eq_ok {e : Env} {n off v t : Nat} :
    readLE e n off = .ok v t → ∃ xs : Bytes, xs.length = n ∧ (n = 0 ∨ At e.buf off xs) ∧ v = leVal xs ∧ t = off + n := by
  induction n generalizing off v t with
  | zero => intro h; simp [readLE] at h; exact ⟨[], rfl, .inl rfl, by simp [leVal, h.1], by omega⟩
  | succ n ih =>
    intro h
    rw [readLE, bind_eq_ok] at h
    obtain ⟨b, s, h1, h⟩ := h
    rw [bind_eq_ok] at h
    obtain ⟨r, s', h2, h⟩ := h
    rw [pure_eq_ok] at h
    obtain ⟨rfl, rfl⟩ := h
    rw [readU8_eq_ok] at h1
    obtain ⟨x, hx, rfl, rfl⟩ := h1
    obtain ⟨xs, hl, hat, rfl, rfl⟩ := ih h2
    refine ⟨x :: xs, by simp [hl], .inr ?_, by simp [leVal], by omega⟩
    rw [At.cons]
    refine ⟨hx, ?_⟩
    rcases hat with rfl | hat
    · have : xs = [] := by simpa using hl
      subst this
      exact At.nil hx.le
    · exact hat

theorem readU32_eq_ok {e : Env} {off v t : Nat} (h : readU32 e off = .ok v t) :
    ∃ xs : Bytes, xs.length = 4 ∧ At e.buf off xs ∧ v = leVal xs ∧ t = off + 4 := by
  obtain ⟨xs, h1, h2, h3⟩ := readLE_eq_ok h
  exact ⟨xs, h1, by simpa using h2, h3⟩

theorem leVal_lt (xs : Bytes) : leVal xs < 256 ^ xs.length := by
  induction xs with
  | nil => simp [leVal]
  | cons x xs ih =>
    have := x.toNat_lt
    simp only [leVal, List.length_cons, Nat.pow_succ]; omega

theorem leVal_le (n v : Nat) (h : v < 256 ^ n) : leVal (le n v) = v := by
  induction n generalizing v with
  | zero => simp at h; simp [le, leVal, h]
  | succ n ih =>
    rw [Nat.pow_succ] at h
    simp only [le, leVal]
    rw [ih _ (by rw [Nat.div_lt_iff_lt_mul (by decide)]; exact h)]
    simp [UInt8.toNat_ofNat']; omega

theorem le_leVal (xs : Bytes) : le xs.length (leVal xs) = xs := by
  induction xs with
  | nil => rfl
  | cons x xs ih =>
    have hx := x.toNat_lt
    have h1 : (x.toNat + 256 * leVal xs) / 256 = leVal xs := by omega
    have h2 : (x.toNat + 256 * leVal xs) % 256 = x.toNat := by omega
    simp only [List.length_cons, le, leVal, h1, h2, ih]
    simp

end Casper
