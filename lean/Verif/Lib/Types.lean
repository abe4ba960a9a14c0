import Verif.Lib.At
/-
How the app reads serialized types and named arguments (lemmas for C03..C06).
-/
namespace Casper
open M

namespace CLType
/-- Types that are not containers: scalars, strings, keys, byte arrays. -/
def flat : CLType → Bool
  | option _ | list _ | result _ _ | map _ _ | tuple1 _ | tuple2 _ _ | tuple3 _ _ _ | any => false
  | _ => true

/-- Types the app supports: at most one level of container, except that a map may hold any supported type but
another map. -/
def supported : CLType → Bool
  | option t => t.flat
  | list any => true
  | list t => t.flat
  | result a b => a.flat && b.flat
  | map k v => !(k.tag == 17) && !(v.tag == 17) && k.supported && v.supported
  | tuple1 a => a.flat
  | tuple2 a b => a.flat && b.flat
  | tuple3 a b c => a.flat && b.flat && c.flat
  | _ => true

/-- All components but the last carry no bytes beyond their tag.  For such types reading all component tags first
(as the app does) is the same as reading component by component (as Casper does). -/
def aligned : CLType → Bool
  | option t => t.aligned
  | list t => t.aligned
  | result a b => a.tail.isEmpty && b.aligned
  | map k v => k.tail.isEmpty && v.aligned
  | tuple1 a => a.aligned
  | tuple2 a b => a.tail.isEmpty && b.aligned
  | tuple3 a b c => a.tail.isEmpty && b.tail.isEmpty && c.aligned
  | _ => true

/-- The inner type remembered by the app: that of an option or list, possibly inside a map; otherwise the previous
value. -/
def inner : CLType → Nat → Nat
  | option t, _ => t.tag
  | list any, o => o
  | list t, _ => t.tag
  | map _ v, o => v.inner o
  | _, o => o

theorem tag_option (t : CLType) : (option t).tag = 13 := rfl
theorem tag_list (t : CLType) : (list t).tag = 14 := rfl
theorem tag_byteArray (n : Nat) : (byteArray n).tag = 15 := rfl
theorem tag_result (a b : CLType) : (result a b).tag = 16 := rfl
theorem tag_map (a b : CLType) : (map a b).tag = 17 := rfl
theorem tag_tuple1 (a : CLType) : (tuple1 a).tag = 18 := rfl
theorem tag_tuple2 (a b : CLType) : (tuple2 a b).tag = 19 := rfl
theorem tag_tuple3 (a b c : CLType) : (tuple3 a b c).tag = 20 := rfl

theorem tail_option (t : CLType) : (option t).tail = UInt8.ofNat t.tag :: t.tail := t.encode_eq
theorem tail_list (t : CLType) : (list t).tail = UInt8.ofNat t.tag :: t.tail := t.encode_eq
theorem tail_tuple1 (t : CLType) : (tuple1 t).tail = UInt8.ofNat t.tag :: t.tail := t.encode_eq
theorem tail_pair {a b : CLType} (h : a.tail = []) :
    a.encode ++ b.encode = UInt8.ofNat a.tag :: UInt8.ofNat b.tag :: b.tail := by
  rw [a.encode_eq, b.encode_eq, h]; rfl
theorem tail_result {a b : CLType} (h : a.tail = []) :
    (result a b).tail = UInt8.ofNat a.tag :: UInt8.ofNat b.tag :: b.tail := tail_pair h
theorem tail_map {a b : CLType} (h : a.tail = []) :
    (map a b).tail = UInt8.ofNat a.tag :: UInt8.ofNat b.tag :: b.tail := tail_pair h
theorem tail_tuple2 {a b : CLType} (h : a.tail = []) :
    (tuple2 a b).tail = UInt8.ofNat a.tag :: UInt8.ofNat b.tag :: b.tail := tail_pair h
theorem tail_tuple3 {a b c : CLType} (h : a.tail = []) (h' : b.tail = []) :
    (tuple3 a b c).tail = UInt8.ofNat a.tag :: UInt8.ofNat b.tag :: UInt8.ofNat c.tag :: c.tail := by
  show a.encode ++ (b.encode ++ c.encode) = _
  rw [a.encode_eq, b.encode_eq, c.encode_eq, h, h']; rfl

theorem flat_iff (t : CLType) : t.flat = !isContainer t.tag := by cases t <;> rfl

theorem tail_isEmpty (t : CLType) (h : t.tail.isEmpty) : t.tag ≤ 12 ∨ t.tag = 21 ∨ t.tag = 22 := by
  have ne : ∀ t : CLType, t.encode ≠ [] := fun t => by rw [encode_eq]; simp
  cases t <;> simp_all [tail, tag, encode, le]

theorem tail_flat (t : CLType) (h : t.flat) : (t.tag ≤ 12 ∨ t.tag = 22) ∧ t.tail = [] ∨ ∃ n, t = byteArray n := by
  cases t <;> simp_all [tail, tag, encode, flat]

end CLType
open CLType

theorem tag_toNat (t : CLType) : (UInt8.ofNat t.tag).toNat = t.tag := by
  have := t.tag_le
  simp [UInt8.toNat_ofNat']; omega

theorem readTag_at {e : Env} {off : Nat} {t : CLType} {xs : Bytes} (h : At e.buf off (UInt8.ofNat t.tag :: xs)) :
    readU8 e off = .ok t.tag (off + 1) := by
  rw [readU8_at h, tag_toNat]

theorem readLE_any {e : Env} {n off : Nat} {xs : Bytes} (h : At e.buf off xs) (hl : xs.length = n) :
    readLE e n off = .ok (leVal xs) (off + n) := by
  have := leVal_lt xs
  rw [← le_leVal xs, hl] at h
  rw [hl] at this
  exact readLE_at h this

theorem addl_plain {e : Env} {f t opt off : Nat} (h : t ≤ 12 ∨ t = 21 ∨ t = 22) :
    addlType e (f + 1) t opt off = .ok opt off := by
  rw [addlType, if_pos h]; rfl

theorem addl_13 (e : Env) (f opt : Nat) : addlType e (f + 1) 13 opt = (do
      let inner ← readU8 e
      if isContainer inner then fail eUnexpectedType
      else
        let _ ← addlType e f inner 255
        pure inner) := rfl
theorem addl_14 (e : Env) (f opt : Nat) : addlType e (f + 1) 14 opt = (do
      let inner ← readU8 e
      if inner = 21 then pure opt
      else if isContainer inner then fail eUnexpectedType
      else
        let _ ← addlType e f inner inner
        pure inner) := rfl
theorem addl_15 (e : Env) (f opt : Nat) : addlType e (f + 1) 15 opt = (do
      let _ ← readU32 e
      pure opt) := rfl
theorem addl_16 (e : Env) (f opt : Nat) : addlType e (f + 1) 16 opt = (do
      let okT ← readU8 e
      let errT ← readU8 e
      if isContainer okT ∨ isContainer errT then fail eUnexpectedType
      else orElse2 (addlType e f okT) (addlType e f errT) opt) := rfl
theorem addl_17 (e : Env) (f opt : Nat) : addlType e (f + 1) 17 opt = (do
      let kT ← readU8 e
      let vT ← readU8 e
      if kT = 17 ∨ vT = 17 then fail eUnexpectedType
      else orElse2 (addlType e f kT) (addlType e f vT) opt) := rfl
theorem addl_18 (e : Env) (f opt : Nat) : addlType e (f + 1) 18 opt = (do
      let ts ← readTags e 1
      let _ ← orAll (addlType e f) ts 0
      pure opt) := rfl
theorem addl_19 (e : Env) (f opt : Nat) : addlType e (f + 1) 19 opt = (do
      let ts ← readTags e 2
      let _ ← orAll (addlType e f) ts 0
      pure opt) := rfl
theorem addl_20 (e : Env) (f opt : Nat) : addlType e (f + 1) 20 opt = (do
      let ts ← readTags e 3
      let _ ← orAll (addlType e f) ts 0
      pure opt) := rfl

theorem addl_flat {e : Env} {f opt off : Nat} {t : CLType} (h : t.flat) (ha : At e.buf off t.tail) :
    addlType e (f + 1) t.tag opt off = .ok opt (off + t.tail.length) := by
  rcases tail_flat t h with ⟨h1, h2⟩ | ⟨n, rfl⟩
  · rw [addl_plain (by omega), h2]; rfl
  · have : (byteArray n).tail = le 4 n := rfl
    rw [this] at ha ⊢
    simp [addl_15, tag_byteArray, readLE_any ha]

/-- What the app makes of an aligned type at `off`: it accepts exactly the supported ones, and then consumes exactly
the type. -/
def Reads (m : P Nat) (off : Nat) (ok : Bool) (v fin : Nat) : Prop :=
  if ok then m off = .ok v fin else ∃ x s, x ≠ 0 ∧ m off = .err x s

theorem addl_nonmap {e : Env} {f opt off : Nat} {t : CLType} (hm : t.tag ≠ 17) (hal : t.aligned)
    (ha : At e.buf off t.tail) :
    Reads (addlType e (f + 2) t.tag opt) off t.supported (t.inner opt) (off + t.tail.length) := by
  have plain : ∀ t : CLType, t.tag ≤ 12 ∨ t.tag = 21 ∨ t.tag = 22 → t.tail = [] → t.supported = true →
      t.inner opt = opt →
      Reads (addlType e (f + 2) t.tag opt) off t.supported (t.inner opt) (off + t.tail.length) := by
    intro t h1 h2 h3 h4
    rw [h2, h3, h4]; exact addl_plain h1
  cases t
  case option t =>
    have h0 : (option t).tail = UInt8.ofNat t.tag :: t.tail := tail_option _
    rw [h0] at ha ⊢
    simp only [Reads, supported, inner, addl_13, tag_option, flat_iff]
    simp only [bind_run, readTag_at ha]
    by_cases hc : isContainer t.tag
    · simp [hc]
    · have hf : t.flat := by simp [flat_iff, hc]
      simp [hc, addl_flat hf (At.cons.1 ha).2]; omega
  case list t =>
    have h0 : (list t).tail = UInt8.ofNat t.tag :: t.tail := tail_list _
    rw [h0] at ha ⊢
    by_cases h21 : t = any
    · subst h21
      simp [Reads, supported, inner, addl_14, tag_list, readTag_at ha]; rfl
    · have h1 : (list t).supported = t.flat := by cases t <;> simp_all [supported]
      have h2 : (list t).inner opt = t.tag := by cases t <;> simp_all [inner]
      have h3 : t.tag ≠ 21 := by cases t <;> simp_all [tag]
      simp only [Reads, h1, h2, addl_14, tag_list, flat_iff]
      simp only [bind_run, readTag_at ha]
      by_cases hc : isContainer t.tag
      · simp [hc, h3]
      · have hf : t.flat := by simp [flat_iff, hc]
        simp [hc, h3, addl_flat hf (At.cons.1 ha).2]; omega
  case byteArray n =>
    exact addl_flat (t := byteArray n) rfl ha
  case result a b =>
    simp only [aligned, Bool.and_eq_true] at hal
    have hta : a.tail = [] := by simpa using hal.1
    have h0 : (result a b).tail = UInt8.ofNat a.tag :: UInt8.ofNat b.tag :: b.tail := tail_result hta
    rw [h0] at ha ⊢
    have ha2 := (At.cons.1 ha).2
    have ha3 := (At.cons.1 ha2).2
    simp only [Reads, supported, inner, addl_16, tag_result, flat_iff]
    simp only [bind_run, readTag_at ha, readTag_at ha2, Res.bind_ok]
    by_cases hc : isContainer a.tag
    · simp [hc]
    · by_cases hd : isContainer b.tag
      · simp [hc, hd]
      · have hf : b.flat := by simp [flat_iff, hd]
        have hpa := tail_isEmpty a hal.1
        simp [hc, hd, orElse2, addl_plain hpa, addl_flat hf ha3]; omega
  case map k v => simp [tag] at hm
  case tuple1 a =>
    have h0 : (tuple1 a).tail = UInt8.ofNat a.tag :: a.tail := tail_tuple1 _
    rw [h0] at ha ⊢
    simp only [Reads, supported, inner, addl_18, tag_tuple1, flat_iff, readTags]
    simp only [bind_run, readTag_at ha]
    by_cases hc : isContainer a.tag
    · simp [hc]
    · have hf : a.flat := by simp [flat_iff, hc]
      simp [hc, readTags, orAll, orElse2, addl_flat hf (At.cons.1 ha).2]; omega
  case tuple2 a b =>
    simp only [aligned, Bool.and_eq_true] at hal
    have hta : a.tail = [] := by simpa using hal.1
    have h0 : (tuple2 a b).tail = UInt8.ofNat a.tag :: UInt8.ofNat b.tag :: b.tail := tail_tuple2 hta
    rw [h0] at ha ⊢
    have ha2 := (At.cons.1 ha).2
    have ha3 := (At.cons.1 ha2).2
    simp only [Reads, supported, inner, addl_19, tag_tuple2, flat_iff, readTags]
    simp only [bind_run, readTag_at ha, readTag_at ha2, Res.bind_ok]
    by_cases hc : isContainer a.tag
    · simp [hc]
    · by_cases hd : isContainer b.tag
      · simp [hc, hd, readTag_at ha2]
      · have hf : b.flat := by simp [flat_iff, hd]
        have hpa := tail_isEmpty a hal.1
        simp [hc, hd, readTag_at ha2, readTags, orAll, orElse2, addl_plain hpa, addl_flat hf ha3]; omega
  case tuple3 a b c =>
    simp only [aligned, Bool.and_eq_true] at hal
    have hta : a.tail = [] := by simpa using hal.1.1
    have htb : b.tail = [] := by simpa using hal.1.2
    have h0 : (tuple3 a b c).tail = UInt8.ofNat a.tag :: UInt8.ofNat b.tag :: UInt8.ofNat c.tag :: c.tail := tail_tuple3 hta htb
    rw [h0] at ha ⊢
    have ha2 := (At.cons.1 ha).2
    have ha3 := (At.cons.1 ha2).2
    have ha4 := (At.cons.1 ha3).2
    simp only [Reads, supported, inner, addl_20, tag_tuple3, flat_iff, readTags]
    simp only [bind_run, readTag_at ha, readTag_at ha2, Res.bind_ok]
    by_cases hc : isContainer a.tag
    · simp [hc]
    · by_cases hd : isContainer b.tag
      · simp [hc, hd, readTag_at ha2]
      · by_cases hg : isContainer c.tag
        · simp [hc, hd, hg, readTag_at ha2, readTag_at ha3]
        · have hf : c.flat := by simp [flat_iff, hg]
          have hpa := tail_isEmpty a hal.1.1
          have hpb := tail_isEmpty b hal.1.2
          simp [hc, hd, hg, readTag_at ha2, readTag_at ha3, readTags, orAll, orElse2, addl_plain hpa,
            addl_plain hpb, addl_flat hf ha4]; omega
  all_goals exact plain _ (by simp [tag]) rfl rfl rfl

theorem addl_aligned {e : Env} {f opt off : Nat} {t : CLType} (hal : t.aligned) (ha : At e.buf off t.tail) :
    Reads (addlType e (f + 3) t.tag opt) off t.supported (t.inner opt) (off + t.tail.length) := by
  by_cases hm : t.tag = 17
  · cases t <;> simp [tag] at hm
    rename_i k v
    simp only [aligned, Bool.and_eq_true] at hal
    have hta : k.tail = [] := by simpa using hal.1
    have h0 : (map k v).tail = UInt8.ofNat k.tag :: UInt8.ofNat v.tag :: v.tail := tail_map hta
    rw [h0] at ha ⊢
    have ha2 := (At.cons.1 ha).2
    have ha3 := (At.cons.1 ha2).2
    have hpa := tail_isEmpty k hal.1
    have hk : k.tag ≠ 17 := by omega
    have hks : k.supported = true := by cases k <;> simp_all [supported, tag]
    by_cases hv : v.tag = 17
    · simp [Reads, supported, hv, addl_17, tag_map, readTag_at ha, readTag_at ha2]
    · have key := addl_nonmap (f := f) (opt := opt) hv hal.2 ha3
      simp only [Reads] at key
      simp only [Reads, supported, inner, addl_17, tag_map]
      simp only [bind_run, readTag_at ha, readTag_at ha2, Res.bind_ok]
      by_cases hs : v.supported
      · rw [if_pos hs] at key
        simp [hk, hv, hks, hs, orElse2, addl_plain hpa, key]; omega
      · rw [if_neg hs] at key
        obtain ⟨x, s, h0, key⟩ := key
        have h1 : orElse2 (addlType e (f + 2) k.tag) (addlType e (f + 2) v.tag) opt (off + 1 + 1) = .err x s := by
          simp [orElse2, addl_plain hpa, key]
        simp [hk, hv, hs, h1, h0]
  · exact addl_nonmap (f := f + 1) hm hal ha

/-- Reading the type of an argument: accepted exactly when supported, consuming exactly its serialization. -/
theorem getType_aligned {e : Env} {opt off : Nat} {t : CLType} (hal : t.aligned) (ha : At e.buf off t.encode) :
    if t.supported then getType e opt off = .ok (t.tag, t.inner opt) (off + t.encode.length)
    else ∃ x s, x ≠ 0 ∧ getType e opt off = .err x s := by
  rw [encode_eq] at ha ⊢
  have ha2 := (At.cons.1 ha).2
  have key := addl_aligned (f := 0) (opt := opt) hal ha2
  unfold Reads at key
  have ht := t.tag_le
  unfold getType
  simp only [bind_run, readTag_at ha, Res.bind_ok, require_true ht]
  by_cases hs : t.supported
  · rw [if_pos hs] at key ⊢
    simp [key]; omega
  · rw [if_neg hs] at key ⊢
    obtain ⟨x, s, h0, key⟩ := key
    exact ⟨x, s, h0, by simp [key]⟩

theorem getType_ok {e : Env} {opt off : Nat} {t : CLType} (hal : t.aligned) (hs : t.supported)
    (ha : At e.buf off t.encode) : getType e opt off = .ok (t.tag, t.inner opt) (off + t.encode.length) := by
  have := getType_aligned (opt := opt) hal ha
  rwa [if_pos hs] at this

end Casper
