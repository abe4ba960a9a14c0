import Verif.Lib.Args
import Verif.Lib.Sample
import Mathlib.Data.Nat.Digits.Defs
/-
C01..C06: the binary format.
-/
namespace Casper
open M

theorem leVal_eq_ofDigits (xs : Bytes) : leVal xs = Nat.ofDigits 256 (xs.map UInt8.toNat) := by
  induction xs with
  | nil => rfl
  | cons x xs ih => simp [leVal, ih, Nat.ofDigits_cons]

theorem readLE_eq (e : Env) (n off : Nat) (hn : 0 < n) :
    readLE e n off =
      if off + n ≤ e.buf.length then .ok (leVal ((e.buf.drop off).take n)) (off + n)
      else .err 12 (max off e.buf.length) := by
  induction n generalizing off with
  | zero => omega
  | succ n ih =>
    rw [readLE]
    by_cases h : off < e.buf.length
    · have hb : readU8 e off = .ok (e.buf[off]).toNat (off + 1) := by simp [readU8, h]
      have hd : e.buf.drop off = e.buf[off] :: e.buf.drop (off + 1) := by simp
      simp only [bind_run, hb, Res.bind_ok]
      by_cases h0 : n = 0
      · subst h0
        rw [if_pos (by omega), hd]
        simp only [readLE, pure_run, Res.bind_ok, List.take_succ_cons, List.take_zero, leVal]
      · rw [ih (off + 1) (by omega)]
        by_cases hl : off + (n + 1) ≤ e.buf.length
        · rw [if_pos (by omega), if_pos hl, hd]
          simp only [Res.bind_ok, pure_run, List.take_succ_cons, leVal]; congr 1; omega
        · rw [if_neg (by omega), if_neg hl]
          simp; omega
    · have hb : readU8 e off = .err 12 off := by simp [readU8, h]
      rw [if_neg (by omega)]
      simp only [bind_run, hb, Res.bind_err]
      congr 1; omega

/-- **C01.** Reading an `n`-byte integer (`n ≥ 1`, in the app 1, 2, 4, 8) at any position of any data: the
little-endian value of exactly the `n` bytes at the cursor and the cursor `n` further, when they are all inside the
data; otherwise the error "unexpected buffer end" (12), the cursor not beyond the data.  No other outcome, in
particular no access outside the data. -/
theorem C01_read_little_endian (e : Env) (n off : Nat) (hn : 0 < n) :
    readLE e n off =
      if off + n ≤ e.buf.length then
        .ok (Nat.ofDigits 256 (((e.buf.drop off).take n).map UInt8.toNat)) (off + n)
      else .err 12 (max off e.buf.length) := by
  rw [readLE_eq e n off hn, leVal_eq_ofDigits]

/-- C01 is about reading: a concrete read in the middle of a buffer, and one cut short. -/
example : readLE (sampleEnv [9, 0x34, 0x12, 7]) 2 1 = .ok 0x1234 3 ∧
    readLE (sampleEnv [9, 0x34, 0x12, 7]) 4 1 = .err 12 4 := by decide

/-- **C02 is false**: a length field of `0xFFFFFFFC` makes `parse_item` succeed with the cursor back where it was
before the item. -/
theorem C02_length_prefix_false :
    ¬ ∀ (e : Env) (off off' : Nat), Fits e → parseItem e off = .ok () off' →
      ∃ len, readU32 e off = .ok len (off + 4) ∧ off' = off + 4 + len ∧ off' ≤ e.buf.length := by
  intro h
  have := h (sampleEnv [0xfc, 0xff, 0xff, 0xff]) 0 0 (by decide) (by decide)
  obtain ⟨len, h1, h2, h3⟩ := this
  omega

/-- **C02 (partial).**  With the 32-bit length field `len` at the cursor: provided `len < 2^32 - 65535`, skipping the
item succeeds exactly when the payload is inside the data, and then the cursor is exactly `4 + len` further; `read_bytes`
and `read_string` do the same and return `len`.  Missing for the full claim: larger length fields, where the C
addition wraps (`C02_length_prefix_false`). -/
theorem C02_length_prefix_partial (e : Env) (hf : Fits e) (off len : Nat) (hl : len < 2 ^ 32 - 65535)
    (h : At e.buf off (le 4 len)) :
    (parseItem e off = if off + 4 + len ≤ e.buf.length then .ok () (off + 4 + len) else .err 12 (off + 4)) ∧
    (readBytes e off = if off + 4 + len ≤ e.buf.length then .ok len (off + 4 + len) else .err 13 (off + 4)) := by
  have hr : readU32 e off = .ok len (off + 4) := readLE_at h (by omega)
  have := h.le
  unfold Fits at hf
  simp at this
  unfold parseItem readBytes
  simp only [bind_run, hr, Res.bind_ok, get_run]
  have hu : u32 (off + 4 + len) = off + 4 + len := by simp only [u32]; omega
  rw [hu]
  by_cases hb : off + 4 + len ≤ e.buf.length
  · rw [if_neg (by omega), if_pos hb, if_neg (by omega), if_pos hb]
    have hu : u16 (off + 4 + len) = off + 4 + len := by simp only [u16]; omega
    simp [hu]
  · rw [if_pos (by omega), if_neg hb, if_pos (by omega), if_neg hb]
    simp

/-- Whatever the length field, skipping an item that is accepted leaves the cursor inside the data. -/
theorem C02_stays_inside_partial (e : Env) (hf : Fits e) (off off' : Nat) :
    (parseItem e off = .ok () off' → off' ≤ e.buf.length) ∧
    (∀ n, readBytes e off = .ok n off' → off' ≤ e.buf.length) := by
  unfold Fits at hf
  constructor
  · intro h
    unfold parseItem at h
    rw [bind_eq_ok] at h
    obtain ⟨part, s, h1, h⟩ := h
    obtain ⟨xs, -, hat, -, rfl⟩ := readU32_eq_ok h1
    have := hat.le
    simp only [bind_run, get_run, Res.bind_ok] at h
    split at h
    · simp at h
    · simp at h; simp only [u16, u32] at *; omega
  · intro n h
    unfold readBytes at h
    rw [bind_eq_ok] at h
    obtain ⟨part, s, h1, h⟩ := h
    simp only [bind_run, get_run, Res.bind_ok] at h
    split at h
    · simp at h
    · simp at h; simp only [u16, u32] at *; omega

example : parseItem (sampleEnv [7, 2, 0, 0, 0, 8, 9]) 1 = .ok () 7 ∧
    parseItem (sampleEnv [7, 3, 0, 0, 0, 8, 9]) 1 = .err 12 5 := by decide

/-- **C03 is false**: in `Map<ByteArray(13), U8>` followed by the byte 0, the app reads the tags of both components
before the size of the byte array, takes the first size byte (13) for the value type "option", and accepts the
descriptor one byte too long. -/
theorem C03_type_extent_false :
    ¬ ∀ (e : Env) (t : CLType) (off : Nat) (v : Nat × Nat) (off' : Nat), Fits e → At e.buf off t.encode →
      getType e 0 off = .ok v off' → off' = off + t.encode.length := by
  intro h
  have := h (sampleEnv ((CLType.map (.byteArray 13) .u8).encode ++ [0])) (.map (.byteArray 13) .u8) 0 (17, 0) 8
    (by decide) (by rw [at_iff]; decide) (by decide)
  exact absurd this (by decide)

/-- **C03 (partial).**  For every type all of whose components except the last are single-tag types (`aligned`), with
its Casper serialization at the cursor: the app accepts it exactly when it is supported, and then consumes exactly its
serialization and reports its tag; otherwise it returns a (nonzero) error.  Missing for the full claim: types with a
byte array or container as a non-last component (`C03_type_extent_false`). -/
theorem C03_type_extent_partial (e : Env) (t : CLType) (opt off : Nat) (hal : t.aligned) (h : At e.buf off t.encode) :
    if t.supported then getType e opt off = .ok (t.tag, t.inner opt) (off + t.encode.length)
    else ∃ x s, x ≠ 0 ∧ getType e opt off = .err x s := getType_aligned hal h

/-- A nested type inside the scope of C03. -/
example : (CLType.map .string (.option (.byteArray 32))).aligned ∧ (CLType.map .string (.option (.byteArray 32))).supported ∧
    getType (sampleEnv ([1] ++ (CLType.map .string (.option (.byteArray 32))).encode)) 255 1 = .ok (17, 15) 9 := by
  decide

/-- **C04.** Reading a type descriptor always ends within three levels of recursion (the model's recursion budget of
3 is never exhausted, nor is there any other undefined behaviour); every refusal carries a nonzero error code (an
accumulated code is never 0, which is `parser_ok`); and the cursor only moves forward, inside the data. -/
theorem C04_type_parsing_total (e : Env) (opt off : Nat) :
    (∃ v off', getType e opt off = .ok v off' ∧ off < off' ∧ off' ≤ e.buf.length) ∨
    (∃ x off', getType e opt off = .err x off' ∧ x ≠ 0 ∧ off ≤ off') := by
  have h := getType_safe e opt off
  unfold TypeSafe Safe at h
  cases hg : getType e opt off with
  | ok v t =>
    rw [hg] at h
    refine .inl ⟨v, t, rfl, ?_⟩
    unfold getType at hg
    rw [bind_eq_ok] at hg
    obtain ⟨a, s, h1, h2⟩ := hg
    rw [bind_eq_ok] at h2
    obtain ⟨_, s', h2, h3⟩ := h2
    rw [require_eq_ok] at h2
    obtain ⟨-, rfl⟩ := h2
    rw [bind_eq_ok] at h3
    obtain ⟨o, s', h3, h4⟩ := h3
    obtain ⟨-, rfl⟩ := pure_eq_ok.1 h4
    have ha := addl_safe3 (e := e) (f := 0) (t := a) (opt := opt) s
    unfold TypeSafe Safe at ha
    rw [h3] at ha
    obtain ⟨x, hx, -, rfl⟩ := readU8_eq_ok.1 h1
    have := hx.le
    simp at this
    unfold Fwd at ha
    omega
  | err x t => rw [hg] at h; exact .inr ⟨x, t, rfl, h.1, h.2.1⟩
  | fault f => rw [hg] at h; exact h.elim

/-- **C04, components.** Combining error codes with `|`: the combination is accepted exactly when both component
readers are. -/
theorem C04_combined_ok_iff (a b : Nat → P Nat) (opt off : Nat) :
    (∃ v s, orElse2 a b opt off = .ok v s) ↔ ∃ o s1, a opt off = .ok o s1 ∧ ∃ v s, b o s1 = .ok v s := by
  unfold orElse2
  constructor
  · rintro ⟨v, s, h⟩
    split at h
    · simp at h
    · rename_i o s1 ho; exact ⟨o, s1, ho, v, s, h⟩
    · split at h <;> simp at h
  · rintro ⟨o, s1, h1, v, s, h⟩
    exact ⟨v, s, by rw [h1]; exact h⟩

/-- The recursion does reach its third level, and combined codes do occur: 10 | 12 = 14. -/
example : getType (sampleEnv [17, 10, 13, 15, 32, 0, 0, 0]) 0 0 = .ok (17, 15) 8 ∧
    getType (sampleEnv [16, 30, 15]) 0 0 = .err 14 3 := by decide

/-- **C05 is false**: names are compared as C strings, so `amount\0x` is taken for `amount`. -/
theorem C05_lookup_false :
    ¬ ∀ (e : Env) (as : List Arg) (off : Nat) (name : Bytes), Fits e → (∀ a ∈ as, a.Ok) → 0 ∉ name →
      At e.buf off (encodeArgs as) → (∀ a ∈ as, a.name ≠ name) → searchArgs e name as.length off = .err 27 off := by
  intro h
  let a : Arg := { name := b!"amount" ++ [0] ++ b!"x", value := [1, 5], ty := .u512 }
  have := h (sampleEnv (encodeArgs [a])) [a] 0 b!"amount" (by decide)
    (by intro x hx; rw [List.mem_singleton] at hx; subst hx; exact ⟨by decide, by decide, by decide⟩) (by decide)
    (At.self _) (by decide)
  exact absurd this (by decide)

/-- **C05 (partial).** Looking up `name` in a serialized argument list whose names contain no NUL byte: the lookup
finds the first argument with exactly that name and returns its type, leaving the cursor unmoved, and reports "not
found" (27) exactly when there is none; fetching its value yields its length, its type, and the position of its value
bytes.  Missing for the full claim: names with NUL bytes (`C05_lookup_false`), names longer than the 300-byte buffer
(refused), and the types outside C03. -/
theorem C05_lookup_partial (e : Env) (as : List Arg) (off : Nat) (name : Bytes) (hf : Fits e)
    (hok : ∀ a ∈ as, a.Ok) (hnul : ∀ a ∈ as, 0 ∉ a.name) (h : At e.buf off (encodeArgs as)) :
    (searchArgs e name as.length off =
      match as.find? (fun a => a.name == name) with
      | some a => .ok (a.ty.tag, a.ty.inner 255) off
      | none => .err 27 off) ∧
    (∀ pre a post, as = pre ++ a :: post → a.name = name → (∀ b ∈ pre, b.name ≠ name) →
      ∃ pos, getData e name as.length off = .ok (a.value.length, a.ty.tag) pos ∧ At e.buf pos a.value ∧
        pos = off + (encodeArgs pre).length + 8 + a.name.length) ∧
    ((∀ a ∈ as, a.name ≠ name) → ∃ s, getData e name as.length off = .err 1 s) := by
  refine ⟨?_, ?_, ?_⟩
  · rw [searchArgs_at hf hok h]
    have : as.find? (fun a => cstr a.name == name) = as.find? (fun a => a.name == name) := by
      clear h hok
      induction as with
      | nil => rfl
      | cons a as ih =>
        rw [List.find?_cons, List.find?_cons, cstr_eq (hnul a (by simp)), ih (fun b hb => hnul b (by simp [hb]))]
    rw [this]; cases as.find? (fun a => a.name == name) <;> rfl
  · rintro pre a post rfl hn hpre
    have hc : ∀ x ∈ pre ++ a :: post, cstr x.name = x.name := fun x hx => cstr_eq (hnul x hx)
    have := getData_at (name := name) (k := (pre ++ a :: post).length) hf (fun x hx => hok x (by simp [hx]))
      (hok a (by simp)) (fun x hx => by rw [hc x (by simp [hx])]; exact hpre x hx)
      (by rw [hc a (by simp)]; exact hn) (by simp) h
    exact ⟨_, this.1, this.2, by omega⟩
  · intro hn
    have := getData_none (name := name) (k := as.length) hf hok
      (fun x hx => by
        have hx : x ∈ as := by simpa using hx
        rw [cstr_eq (hnul x hx)]; exact hn x hx) (Nat.le_refl _) h
    exact ⟨_, this⟩

/-- Two arguments with the same name: the first one counts. -/
def sampleArgs : List Arg := [⟨b!"id", [0], .option .u64⟩, ⟨b!"amount", [1, 5], .u512⟩, ⟨b!"amount", [1, 6], .u512⟩]

example : (∀ a ∈ sampleArgs, a.name.length ≤ 300 ∧ a.ty.aligned ∧ a.ty.supported ∧ 0 ∉ a.name) ∧
    searchArgs (sampleEnv (encodeArgs sampleArgs)) b!"amount" 3 0 = .ok (8, 255) 0 ∧
    searchArgs (sampleEnv (encodeArgs sampleArgs)) b!"id" 3 0 = .ok (13, 5) 0 ∧
    getData (sampleEnv (encodeArgs sampleArgs)) b!"amount" 3 0 = .ok (2, 8) 27 := by decide

/-- **C06.** Skipping `n` serialized named arguments (types supported and aligned) advances the cursor by exactly
their serialized length, whatever follows. -/
theorem C06_walk_args (e : Env) (as : List Arg) (off : Nat) (hf : Fits e)
    (hty : ∀ a ∈ as, a.ty.aligned ∧ a.ty.supported) (h : At e.buf off (encodeArgs as)) :
    parseArgs e as.length off = .ok () (off + (encodeArgs as).length) := by
  induction as generalizing off with
  | nil => rfl
  | cons a as ih =>
    rw [encodeArgs, At.append] at h
    obtain ⟨h1, h2, h3, h4⟩ := arg_at h.1
    have ha := hty a (by simp)
    have := ih _ (fun b hb => hty b (by simp [hb])) h.2
    rw [List.length_cons, parseArgs]
    simp only [bind_run, parseItem_at hf h1, parseItem_at hf h2, getType_ok ha.1 ha.2 h4, Res.bind_ok]
    have hl := a.encode_length
    rw [show off + 4 + a.name.length + 4 + a.value.length + a.ty.encode.length = off + a.encode.length by omega,
      this, encodeArgs, List.length_append, Nat.add_assoc]

example : (∀ a ∈ sampleArgs, a.ty.aligned ∧ a.ty.supported) ∧
    parseArgs (sampleEnv (encodeArgs sampleArgs ++ [1, 2])) 3 0 = .ok () (encodeArgs sampleArgs).length := by decide

end Casper
