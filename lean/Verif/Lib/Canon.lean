import Verif.Spec.BadType
import Verif.Lib.Types
import Verif.Lib.Post
import Mathlib.Tactic.IntervalCases
/-
What the app makes of arbitrary bytes where a type descriptor is expected: a supported type serialized as Casper does, or the beginning of a
type as in `BadType`, or the end of the data, or an unknown tag.
-/
namespace Casper
open M CLType

theorem readU8_cases (e : Env) (off : Nat) :
    (∃ x : UInt8, At e.buf off [x] ∧ readU8 e off = .ok x.toNat (off + 1)) ∨ readU8 e off = .err eBufferEnd off := by
  unfold readU8
  cases h : e.buf[off]? with
  | none => exact .inr rfl
  | some b =>
    refine .inl ⟨b, ?_, rfl⟩
    obtain ⟨h1, h2⟩ := List.getElem?_eq_some_iff.1 h
    rw [at_iff]
    refine ⟨by simp; omega, ?_⟩
    rw [List.drop_eq_getElem_cons h1, h2]; rfl

theorem readLE_cases (e : Env) (n off : Nat) (ho : off ≤ e.buf.length) :
    (∃ v, v < 256 ^ n ∧ At e.buf off (le n v) ∧ readLE e n off = .ok v (off + n)) ∨ ∃ s, readLE e n off = .err eBufferEnd s := by
  induction n generalizing off with
  | zero => exact .inl ⟨0, by decide, At.nil ho, rfl⟩
  | succ n ih =>
    unfold readLE
    rcases readU8_cases e off with ⟨x, h1, h2⟩ | h
    · have hl := h1.le
      rcases ih (off + 1) (by simpa using hl) with ⟨v, k1, k2, k3⟩ | ⟨s, k⟩
      · have hx := x.toNat_lt
        refine .inl ⟨x.toNat + 256 * v, ?_, ?_, ?_⟩
        · rw [Nat.pow_succ]; omega
        · unfold le
          rw [At.cons, show (x.toNat + 256 * v) % 256 = x.toNat by omega, show (x.toNat + 256 * v) / 256 = v by omega]
          exact ⟨by simpa using h1, k2⟩
        · simp [h2, k3]; omega
      · exact .inr ⟨s, by simp [h2, k]⟩
    · exact .inr ⟨off, by simp [h]⟩

/-- A type whose tag is its whole serialization. -/
theorem plain_tag {k : Nat} (h : k ≤ 12 ∨ k = 21 ∨ k = 22) :
    ∃ t : CLType, t.tag = k ∧ t.tail = [] ∧ t.aligned ∧ t.supported ∧ (t.flat ∨ k = 21) := by
  rcases h with h | rfl | rfl
  · interval_cases k
    · exact ⟨.bool, rfl, rfl, rfl, rfl, .inl rfl⟩
    · exact ⟨.i32, rfl, rfl, rfl, rfl, .inl rfl⟩
    · exact ⟨.i64, rfl, rfl, rfl, rfl, .inl rfl⟩
    · exact ⟨.u8, rfl, rfl, rfl, rfl, .inl rfl⟩
    · exact ⟨.u32, rfl, rfl, rfl, rfl, .inl rfl⟩
    · exact ⟨.u64, rfl, rfl, rfl, rfl, .inl rfl⟩
    · exact ⟨.u128, rfl, rfl, rfl, rfl, .inl rfl⟩
    · exact ⟨.u256, rfl, rfl, rfl, rfl, .inl rfl⟩
    · exact ⟨.u512, rfl, rfl, rfl, rfl, .inl rfl⟩
    · exact ⟨.unit, rfl, rfl, rfl, rfl, .inl rfl⟩
    · exact ⟨.string, rfl, rfl, rfl, rfl, .inl rfl⟩
    · exact ⟨.key, rfl, rfl, rfl, rfl, .inl rfl⟩
    · exact ⟨.uref, rfl, rfl, rfl, rfl, .inl rfl⟩
  · exact ⟨.any, rfl, rfl, rfl, rfl, .inr rfl⟩
  · exact ⟨.publicKey, rfl, rfl, rfl, rfl, .inl rfl⟩

/-- What the data hold behind the tag `c`: the rest of a supported type, the rest of a bad one, or too little. -/
inductive Behind (e : Env) (c : Nat) (m : P Nat) (off : Nat) : Prop
  | good (t : CLType) (ht : t.tag = c) (ha : t.aligned) (hs : t.supported) (h : At e.buf off t.tail)
  | bad (bs : Bytes) (hb : BadType (UInt8.ofNat c :: bs)) (h : At e.buf off bs)
  | short (s : Nat) (h : m off = .err eBufferEnd s)

/-- What the data hold behind the tag of a component that is not composite. -/
theorem flat_cases (e : Env) {k : Nat} (f opt off : Nat) (ho : off ≤ e.buf.length) (hk : k ≤ 22) (hc : isContainer k = false) :
    (∃ t : CLType, t.tag = k ∧ t.flat ∧ t.aligned ∧ At e.buf off t.tail) ∨ ∃ s, addlType e (f + 1) k opt off = .err eBufferEnd s := by
  have h : (k ≤ 12 ∨ k = 21 ∨ k = 22) ∨ k = 15 := by
    unfold isContainer at hc
    simp at hc; omega
  rcases h with h | rfl
  · obtain ⟨t, h1, h2, h3, -, h4⟩ := plain_tag h
    refine .inl ⟨t, h1, h4.resolve_right ?_, h3, by rw [h2]; exact At.nil ho⟩
    rintro rfl; simp [isContainer] at hc
  · rw [addl_15]
    rcases readLE_cases e 4 off ho with ⟨v, -, h2, -⟩ | ⟨s, h⟩
    · exact .inl ⟨.byteArray v, rfl, rfl, rfl, h2⟩
    · exact .inr ⟨s, by simp [h]⟩

theorem u8_lit {x : UInt8} {n : Nat} (h : x.toNat = n) : x = UInt8.ofNat n := by rw [← h]; simp

theorem comp_last (c : UInt8) (hc : c ∈ [13, 16, 18, 19, (20 : UInt8)]) {x : UInt8} (h : ¬ badComponent c true x = true) :
    x.toNat ≤ 22 ∧ isContainer x.toNat = false := by
  have key : ∀ n, n < 256 → ∀ c ∈ [13, 16, 18, 19, (20 : UInt8)], ¬ badComponent c true (UInt8.ofNat n) = true →
      n ≤ 22 ∧ isContainer n = false := by decide +kernel
  exact key x.toNat x.toNat_lt c hc (by simpa using h)

theorem comp_list {x : UInt8} (h : ¬ badComponent 14 true x = true) : x.toNat ≤ 22 ∧ (isContainer x.toNat = false ∨ x.toNat = 21) := by
  have key : ∀ n, n < 256 → ¬ badComponent 14 true (UInt8.ofNat n) = true → n ≤ 22 ∧ (isContainer n = false ∨ n = 21) := by decide +kernel
  exact key x.toNat x.toNat_lt (by simpa using h)

theorem comp_mapValue {x : UInt8} (h : ¬ badComponent 17 true x = true) : x.toNat ≤ 22 ∧ x.toNat ≠ 17 := by
  have key : ∀ n, n < 256 → ¬ badComponent 17 true (UInt8.ofNat n) = true → n ≤ 22 ∧ n ≠ 17 := by decide +kernel
  exact key x.toNat x.toNat_lt (by simpa using h)

theorem comp_first (c : UInt8) (hc : c ∈ [16, 17, 19, (20 : UInt8)]) {x : UInt8} (h : ¬ badComponent c false x = true) :
    (x.toNat ≤ 12 ∨ x.toNat = 21 ∨ x.toNat = 22) ∧ (c ≠ 17 → x.toNat ≠ 21) := by
  have key : ∀ n, n < 256 → ∀ c ∈ [16, 17, 19, (20 : UInt8)], ¬ badComponent c false (UInt8.ofNat n) = true →
      (n ≤ 12 ∨ n = 21 ∨ n = 22) ∧ (c ≠ 17 → n ≠ 21) := by decide +kernel
  exact key x.toNat x.toNat_lt c hc (by simpa using h)

theorem tag_cons {t : CLType} {x : UInt8} (h : t.tag = x.toNat) : UInt8.ofNat t.tag :: t.tail = x :: t.tail := by rw [h]; simp

/-- An option. -/
theorem option_cases {e : Env} {f opt off : Nat} : Behind e 13 (addlType e (f + 2) 13 opt) off := by
  rcases readU8_cases e off with ⟨x, h1, h2⟩ | h
  swap
  · exact .short off (by rw [addl_13]; simp [h])
  by_cases hb : badComponent 13 true x = true
  · exact .bad [x] (.component 13 [] x (by decide) hb) h1
  obtain ⟨k1, k2⟩ := comp_last 13 (by decide) hb
  have hl := h1.le
  rcases flat_cases e f 255 (off + 1) (by simpa using hl) k1 k2 with ⟨t, g1, g2, g3, g4⟩ | ⟨s, g⟩
  · exact .good (.option t) rfl g3 g2 (by rw [tail_option, tag_cons g1]; exact At.cons.2 ⟨h1, g4⟩)
  · exact .short s (by rw [addl_13]; simp [h2, k2, g])

/-- A list. -/
theorem list_cases {e : Env} {f opt off : Nat} : Behind e 14 (addlType e (f + 2) 14 opt) off := by
  rcases readU8_cases e off with ⟨x, h1, h2⟩ | h
  swap
  · exact .short off (by rw [addl_14]; simp [h])
  by_cases hb : badComponent 14 true x = true
  · exact .bad [x] (.component 14 [] x (by decide) hb) h1
  obtain ⟨k1, k2⟩ := comp_list hb
  have hl := h1.le
  by_cases h21 : x.toNat = 21
  · exact .good (.list .any) rfl rfl rfl (by rw [tail_list, tag_cons (t := .any) (x := x) h21.symm]; exact At.cons.2 ⟨h1, At.nil (by simpa using hl)⟩)
  have k2 := k2.resolve_right h21
  rcases flat_cases e f x.toNat (off + 1) (by simpa using hl) k1 k2 with ⟨t, g1, g2, g3, g4⟩ | ⟨s, g⟩
  · refine .good (.list t) rfl g3 ?_ (by rw [tail_list, tag_cons g1]; exact At.cons.2 ⟨h1, g4⟩)
    cases t <;> first | rfl | (simp [flat] at g2)
  · exact .short s (by rw [addl_14]; simp [h2, h21, k2, g])

/-- A tuple of one. -/
theorem tuple1_cases {e : Env} {f opt off : Nat} : Behind e 18 (addlType e (f + 2) 18 opt) off := by
  rcases readU8_cases e off with ⟨x, h1, h2⟩ | h
  swap
  · exact .short off (by rw [addl_18]; simp [readTags, h])
  by_cases hb : badComponent 18 true x = true
  · exact .bad [x] (.component 18 [] x (by decide) hb) h1
  obtain ⟨k1, k2⟩ := comp_last 18 (by decide) hb
  have hl := h1.le
  rcases flat_cases e f 0 (off + 1) (by simpa using hl) k1 k2 with ⟨t, g1, g2, g3, g4⟩ | ⟨s, g⟩
  · exact .good (.tuple1 t) rfl g3 g2 (by rw [tail_tuple1, tag_cons g1]; exact At.cons.2 ⟨h1, g4⟩)
  · exact .short s (by rw [addl_18]; simp [readTags, h2, k2, orAll, orElse2, g])

theorem plain_first (c : UInt8) (hc : c ∈ [16, 17, 19, (20 : UInt8)]) (hc' : c ≠ 17) {x : UInt8} (h : ¬ badComponent c false x = true) :
    ∃ t : CLType, t.tag = x.toNat ∧ t.tail = [] ∧ t.flat ∧ isContainer x.toNat = false := by
  obtain ⟨h1, h2⟩ := comp_first c hc h
  have h2 := h2 hc'
  obtain ⟨t, g1, g2, -, -, g5⟩ := plain_tag h1
  have g5 := g5.resolve_right h2
  refine ⟨t, g1, g2, g5, ?_⟩
  rw [flat_iff, g1] at g5
  simpa using g5

/-- A result. -/
theorem result_cases {e : Env} {f opt off : Nat} : Behind e 16 (addlType e (f + 2) 16 opt) off := by
  rcases readU8_cases e off with ⟨x, h1, h2⟩ | h
  swap
  · exact .short off (by rw [addl_16]; simp [h])
  rcases readU8_cases e (off + 1) with ⟨y, h3, h4⟩ | h
  swap
  · exact .short (off + 1) (by rw [addl_16]; simp [h2, h])
  by_cases hb : badComponent 16 false x = true
  · exact .bad [x] (.component 16 [] x (by decide) hb) h1
  by_cases hb' : badComponent 16 true y = true
  · exact .bad [x, y] (.component 16 [x] y (by simp [components]) hb') (At.cons.2 ⟨h1, h3⟩)
  obtain ⟨a, a1, a2, a3, a4⟩ := plain_first 16 (by decide) (by decide) hb
  obtain ⟨k1, k2⟩ := comp_last 16 (by decide) hb'
  have hl := h3.le
  rcases flat_cases e f opt (off + 1 + 1) (by simpa using hl) k1 k2 with ⟨t, g1, g2, g3, g4⟩ | ⟨s, g⟩
  · refine .good (.result a t) rfl (by simp [aligned, a2, g3]) (by simp [supported, a3, g2]) ?_
    rw [tail_result a2, a1, g1]
    simp only [UInt8.ofNat_toNat]
    exact At.cons.2 ⟨h1, At.cons.2 ⟨h3, g4⟩⟩
  · have := addl_flat (f := f) (opt := opt) (off := off + 1 + 1) a3 (by rw [a2]; exact At.nil (by simpa using hl))
    rw [a1, a2] at this
    exact .short s (by rw [addl_16]; simp [h2, h4, a4, k2, orElse2, this, g])

/-- A tuple of two. -/
theorem tuple2_cases {e : Env} {f opt off : Nat} : Behind e 19 (addlType e (f + 2) 19 opt) off := by
  rcases readU8_cases e off with ⟨x, h1, h2⟩ | h
  swap
  · exact .short off (by rw [addl_19]; simp [readTags, h])
  by_cases hb : badComponent 19 false x = true
  · exact .bad [x] (.component 19 [] x (by decide) hb) h1
  obtain ⟨a, a1, a2, a3, a4⟩ := plain_first 19 (by decide) (by decide) hb
  rcases readU8_cases e (off + 1) with ⟨y, h3, h4⟩ | h
  swap
  · exact .short (off + 1) (by rw [addl_19]; simp [readTags, h2, a4, h])
  by_cases hb' : badComponent 19 true y = true
  · exact .bad [x, y] (.component 19 [x] y (by simp [components]) hb') (At.cons.2 ⟨h1, h3⟩)
  obtain ⟨k1, k2⟩ := comp_last 19 (by decide) hb'
  have hl := h3.le
  rcases flat_cases e f 0 (off + 1 + 1) (by simpa using hl) k1 k2 with ⟨t, g1, g2, g3, g4⟩ | ⟨s, g⟩
  · refine .good (.tuple2 a t) rfl (by simp [aligned, a2, g3]) (by simp [supported, a3, g2]) ?_
    rw [tail_tuple2 a2, a1, g1]
    simp only [UInt8.ofNat_toNat]
    exact At.cons.2 ⟨h1, At.cons.2 ⟨h3, g4⟩⟩
  · have := addl_flat (f := f) (opt := 0) (off := off + 1 + 1) a3 (by rw [a2]; exact At.nil (by simpa using hl))
    rw [a1, a2] at this
    exact .short s (by rw [addl_19]; simp [readTags, h2, h4, a4, k2, orAll, orElse2, this, g])

/-- A tuple of three. -/
theorem tuple3_cases {e : Env} {f opt off : Nat} : Behind e 20 (addlType e (f + 2) 20 opt) off := by
  rcases readU8_cases e off with ⟨x, h1, h2⟩ | h
  swap
  · exact .short off (by rw [addl_20]; simp [readTags, h])
  by_cases hb : badComponent 20 false x = true
  · exact .bad [x] (.component 20 [] x (by decide) hb) h1
  obtain ⟨a, a1, a2, a3, a4⟩ := plain_first 20 (by decide) (by decide) hb
  rcases readU8_cases e (off + 1) with ⟨y, h3, h4⟩ | h
  swap
  · exact .short (off + 1) (by rw [addl_20]; simp [readTags, h2, a4, h])
  by_cases hb' : badComponent 20 false y = true
  · exact .bad [x, y] (.component 20 [x] y (by simp [components]) hb') (At.cons.2 ⟨h1, h3⟩)
  obtain ⟨b, b1, b2, b3, b4⟩ := plain_first 20 (by decide) (by decide) hb'
  rcases readU8_cases e (off + 1 + 1) with ⟨z, h5, h6⟩ | h
  swap
  · exact .short (off + 1 + 1) (by rw [addl_20]; simp [readTags, h2, a4, h4, b4, h])
  by_cases hb'' : badComponent 20 true z = true
  · exact .bad [x, y, z] (.component 20 [x, y] z (by simp [components]) hb'') (At.cons.2 ⟨h1, At.cons.2 ⟨h3, h5⟩⟩)
  obtain ⟨k1, k2⟩ := comp_last 20 (by decide) hb''
  have hl := h5.le
  rcases flat_cases e f 0 (off + 1 + 1 + 1) (by simpa using hl) k1 k2 with ⟨t, g1, g2, g3, g4⟩ | ⟨s, g⟩
  · refine .good (.tuple3 a b t) rfl (by simp [aligned, a2, b2, g3]) (by simp [supported, a3, b3, g2]) ?_
    rw [tail_tuple3 a2 b2, a1, b1, g1]
    simp only [UInt8.ofNat_toNat]
    exact At.cons.2 ⟨h1, At.cons.2 ⟨h3, At.cons.2 ⟨h5, g4⟩⟩⟩
  · have r1 := addl_flat (f := f) (opt := 0) (off := off + 1 + 1 + 1) a3 (by rw [a2]; exact At.nil (by simpa using hl))
    rw [a1, a2] at r1
    have r2 := addl_flat (f := f) (opt := 0) (off := off + 1 + 1 + 1) b3 (by rw [b2]; exact At.nil (by simpa using hl))
    rw [b1, b2] at r2
    exact .short s (by rw [addl_20]; simp [readTags, h2, h4, h6, a4, b4, k2, orAll, orElse2, r1, r2, g])

theorem nonmap_cases {e : Env} {f opt off c : Nat} (hc : c ≤ 22) (hm : c ≠ 17) (ho : off ≤ e.buf.length) : Behind e c (addlType e (f + 2) c opt) off := by
  by_cases h13 : c = 13
  · subst h13; exact option_cases
  by_cases h14 : c = 14
  · subst h14; exact list_cases
  by_cases h16 : c = 16
  · subst h16; exact result_cases
  by_cases h18 : c = 18
  · subst h18; exact tuple1_cases
  by_cases h19 : c = 19
  · subst h19; exact tuple2_cases
  by_cases h20 : c = 20
  · subst h20; exact tuple3_cases
  by_cases h21 : c = 21
  · subst h21; exact .good .any rfl rfl rfl (At.nil ho)
  rcases flat_cases e (f + 1) opt off ho hc (by unfold isContainer; simp; omega) with ⟨t, g1, g2, g3, g4⟩ | ⟨s, g⟩
  · refine .good t g1 g3 ?_ g4
    cases t <;> first | rfl | (simp [flat] at g2)
  · exact .short s g

theorem addl_cases {e : Env} {f opt off c : Nat} (hc : c ≤ 22) (ho : off ≤ e.buf.length) : Behind e c (addlType e (f + 3) c opt) off := by
  by_cases hm : c = 17
  swap
  · exact nonmap_cases (f := f + 1) hc hm ho
  subst hm
  rcases readU8_cases e off with ⟨x, h1, h2⟩ | h
  swap
  · exact .short off (by rw [addl_17]; simp [h])
  rcases readU8_cases e (off + 1) with ⟨y, h3, h4⟩ | h
  swap
  · exact .short (off + 1) (by rw [addl_17]; simp [h2, h])
  by_cases hb : badComponent 17 false x = true
  · exact .bad [x] (.component 17 [] x (by decide) hb) h1
  by_cases hb' : badComponent 17 true y = true
  · exact .bad [x, y] (.component 17 [x] y (by simp [components]) hb') (At.cons.2 ⟨h1, h3⟩)
  obtain ⟨k1, -⟩ := comp_first 17 (by decide) hb
  obtain ⟨a, a1, a2, -, a4, -⟩ := plain_tag k1
  obtain ⟨l1, l2⟩ := comp_mapValue hb'
  have hl := h3.le
  rcases nonmap_cases (e := e) (f := f) (opt := opt) (off := off + 1 + 1) l1 l2 (by simpa using hl) with ⟨t, g1, g2, g3, g4⟩ | ⟨bs, g1, g2⟩ | ⟨s, g⟩
  · refine .good (.map a t) rfl (by simp [aligned, a2, g2]) ?_ ?_
    · simp [supported, a4, g3, a1, g1, l2]; omega
    · rw [tail_map a2, a1, g1]
      simp only [UInt8.ofNat_toNat]
      exact At.cons.2 ⟨h1, At.cons.2 ⟨h3, g4⟩⟩
  · rw [UInt8.ofNat_toNat] at g1
    exact .bad (x :: y :: bs) (.mapValue x _ g1) (At.cons.2 ⟨h1, At.cons.2 ⟨h3, g2⟩⟩)
  · have := addl_plain (e := e) (f := f + 1) (opt := opt) (off := off + 1 + 1) k1
    have k17 : x.toNat ≠ 17 := by omega
    exact .short s (by rw [addl_17]; simp [h2, h4, l2, k17, orElse2, this, g])

/-- What the data hold where a type is expected. -/
theorem getType_cases (e : Env) (opt off : Nat) :
    (∃ t : CLType, t.aligned ∧ t.supported ∧ At e.buf off t.encode) ∨ (∃ bs, BadType bs ∧ At e.buf off bs) ∨
    ∃ x s, getType e opt off = .err x s ∧ (x = eBufferEnd ∨ x = eUnknownPrefix) := by
  rcases readU8_cases e off with ⟨x, h1, h2⟩ | h
  swap
  · exact .inr (.inr ⟨_, off, by unfold getType; simp [h], .inl rfl⟩)
  by_cases hx : x.toNat ≤ 22
  swap
  · exact .inr (.inr ⟨_, off + 1, by unfold getType; simp [h2, M.require, hx], .inr rfl⟩)
  have hl := h1.le
  rcases addl_cases (e := e) (f := 0) (opt := opt) (off := off + 1) hx (by simpa using hl) with ⟨t, g1, g2, g3, g4⟩ | ⟨bs, g1, g2⟩ | ⟨s, g⟩
  · exact .inl ⟨t, g2, g3, by rw [encode_eq, tag_cons g1]; exact At.cons.2 ⟨h1, g4⟩⟩
  · rw [UInt8.ofNat_toNat] at g1
    exact .inr (.inl ⟨_, g1, At.cons.2 ⟨h1, g2⟩⟩)
  · exact .inr (.inr ⟨_, s, by unfold getType; simp [h2, M.require, hx, g], .inl rfl⟩)

end Casper
