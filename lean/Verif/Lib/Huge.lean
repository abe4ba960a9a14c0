import Verif.Lib.V1
/-
32-bit numbers so large that, taken as a length, they move the cursor back.
-/
namespace Casper
open M

/-- Somewhere from `off` on stands a 32-bit number within 65536 of 2^32: as a length it makes the cursor move backwards. -/
def HugeFrom (e : Env) (off : Nat) : Prop := ∃ i m, off ≤ i ∧ At e.buf i (le 4 m) ∧ 4294967296 - 65536 ≤ m ∧ m < 4294967296

theorem HugeFrom.mono {e : Env} {a b : Nat} (h : HugeFrom e b) (hab : a ≤ b) : HugeFrom e a := by
  obtain ⟨i, m, h1, h2⟩ := h; exact ⟨i, m, by omega, h2⟩

/-- A claimed length that is not huge is inside the data. -/
theorem item_forward {e : Env} (hf : Fits e) {off n t : Nat} (h1 : At e.buf off (le 4 n)) (h2 : n < 4294967296) (h3 : off + 4 ≤ e.buf.length)
    (h4 : u32 (off + 4 + n) ≤ e.buf.length) (h5 : t = u16 (off + 4 + n)) : (off + 4 ≤ t ∧ t ≤ e.buf.length) ∨ HugeFrom e off := by
  by_cases hn : n < 4294967296 - 65536
  · left
    unfold Fits at hf
    rw [u32_id (by omega)] at h4
    rw [u16_id (by omega)] at h5
    omega
  · exact .inr ⟨off, n, Nat.le_refl _, h1, by omega, h2⟩

/-- Walking over `n` arguments of a Deploy takes at least `9 * n` bytes. -/
theorem parseArgs_long {e : Env} (hf : Fits e) (n : Nat) : ∀ {off t : Nat}, off ≤ e.buf.length → parseArgs e n off = .ok () t →
    (off + 9 * n ≤ t ∧ t ≤ e.buf.length) ∨ HugeFrom e off := by
  induction n with
  | zero => intro off t ho h; cases h; exact .inl ⟨by omega, ho⟩
  | succ n ih =>
    intro off t ho h
    unfold parseArgs at h
    simp only [bind_eq_ok] at h
    obtain ⟨_, a, h1, _, b, h2, r, c, h3, h4⟩ := h
    obtain ⟨x, p1, p2, p3, p4, p5⟩ := parseItem_post _ _ h1
    obtain ⟨y, q1, q2, q3, q4, q5⟩ := parseItem_post _ _ h2
    obtain ⟨g1, g2, -⟩ := getType_post _ _ h3
    rcases item_forward hf p1 p2 p3 p4 p5 with ⟨k1, k2⟩ | k
    · rcases item_forward hf q1 q2 q3 q4 q5 with ⟨k3, k4⟩ | k
      · rcases ih g2 h4 with k | k
        · left; omega
        · exact .inr (k.mono (by omega))
      · exact .inr (k.mono (by omega))
    · exact .inr k

/-- The same for version 1 transactions. -/
theorem readNamedArgs_long {e : Env} (hf : Fits e) (n : Nat) : ∀ {off t : Nat}, off ≤ e.buf.length → readNamedArgs e n off = .ok () t →
    (off + 9 * n ≤ t ∧ t ≤ e.buf.length) ∨ HugeFrom e off := by
  induction n with
  | zero => intro off t ho h; cases h; exact .inl ⟨by omega, ho⟩
  | succ n ih =>
    intro off t ho h
    unfold readNamedArgs at h
    simp only [bind_eq_ok] at h
    obtain ⟨_, a, h1, _, c, h2, h4⟩ := h
    unfold readClvalue at h2
    simp only [bind_eq_ok, pure_eq_ok] at h2
    obtain ⟨_, b, h2, r, _, h3, -, rfl⟩ := h2
    obtain ⟨p1, p2, p3, p4, p5⟩ := readBytes_post _ _ h1
    obtain ⟨q1, q2, q3, q4, q5⟩ := readBytes_post _ _ h2
    obtain ⟨g1, g2, -⟩ := getType_post _ _ h3
    rcases item_forward hf p1 p2 p3 p4 p5 with ⟨k1, k2⟩ | k
    · rcases item_forward hf q1 q2 q3 q4 q5 with ⟨k3, k4⟩ | k
      · rcases ih g2 h4 with k | k
        · left; omega
        · exact .inr (k.mono (by omega))
      · exact .inr (k.mono (by omega))
    · exact .inr k

/-- Without huge numbers, an item moves the cursor forward. -/
theorem parseItem_forward {e : Env} (hf : Fits e) {off : Nat} (hh : ¬ HugeFrom e off) :
    Post (parseItem e) off (fun _ t => off + 4 ≤ t ∧ t ≤ e.buf.length) :=
  parseItem_post.mono fun _ _ ⟨_, h1, h2, h3, h4, h5⟩ => (item_forward hf h1 h2 h3 h4 h5).resolve_right hh
theorem readBytes_forward {e : Env} (hf : Fits e) {off : Nat} (hh : ¬ HugeFrom e off) :
    Post (readBytes e) off (fun _ t => off + 4 ≤ t ∧ t ≤ e.buf.length) :=
  readBytes_post.mono fun _ _ ⟨h1, h2, h3, h4, h5⟩ => (item_forward hf h1 h2 h3 h4 h5).resolve_right hh

end Casper
