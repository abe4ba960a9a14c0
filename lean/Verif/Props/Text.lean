import Verif.Lib.Text
import Verif.Lib.Args
import Verif.Lib.Sample
/-
C17..C20: texts shown for amounts, durations and byte strings.
-/
namespace Casper
open M

theorem pow_bound : (256 : Nat) ^ 64 < 10 ^ 256 := by decide +kernel

theorem amountBignum_at {e : Env} {off k n : Nat} {b : UInt8} (hk : k ≤ 64) (hn : n < 256 ^ k)
    (h : At e.buf off (b :: le k n)) :
    amountBignum e (k + 1) off = .ok (group3 (decText n) ++ b!" motes") off := by
  have h2 := (At.cons.1 h).2
  have hlt : n < 10 ^ 256 := by
    have : (256 : Nat) ^ k ≤ 256 ^ 64 := Nat.pow_le_pow_right (by decide) hk
    have := pow_bound
    omega
  unfold amountBignum
  simp only [bind_run, get_run, Res.bind_ok, Nat.add_sub_cancel]
  rw [slice_at h2 (by simp)]
  simp only [Res.bind_ok, leVal_le k n hn, Nat.mod_eq_of_lt hlt]
  exact motesText_decimal n hlt off

/-- **C17.** A U512 amount `n` (serialized as a length byte `b` and `k ≤ 64` little-endian bytes), standing at the
cursor and followed by at least one more byte (its type), is shown as exactly the decimal digits of `n`, in groups of
three from the right, followed by " motes"; by both display functions. -/
theorem C17_amount_u512 (e : Env) (hf : Fits e) (off k n : Nat) (b : UInt8) (hk : k ≤ 64) (hn : n < 256 ^ k)
    (h : At e.buf off (b :: le k n)) (hnext : off + (k + 1) < e.buf.length) :
    displayArg e 8 (k + 1) off = .ok (group3 (decText n) ++ b!" motes") off ∧
    displayMotes e 8 (k + 1) off = .ok (group3 (decText n) ++ b!" motes") off := by
  unfold Fits at hf
  have hu : ¬ u32 (off + (k + 1)) ≥ e.buf.length := by simp only [u32]; omega
  constructor
  · unfold displayArg
    simp only [bind_run, get_run, Res.bind_ok, if_neg hu]
    simp [amountBignum_at hk hn h]
  · unfold displayMotes
    simp only [bind_run, get_run, Res.bind_ok, if_neg hu]
    simp [amountBignum_at hk hn h]

/-- **C17, 32 and 64 bits.** The same for amounts of type U32 and U64 shown in motes. -/
theorem C17_amount_int (e : Env) (hf : Fits e) (off n : Nat) :
    (n < 2 ^ 32 → At e.buf off (le 4 n) → off + 4 < e.buf.length →
      displayMotes e 4 4 off = .ok (group3 (decText n) ++ b!" motes") (off + 4)) ∧
    (n < 2 ^ 64 → At e.buf off (le 8 n) → off + 8 < e.buf.length →
      displayMotes e 5 8 off = .ok (group3 (decText n) ++ b!" motes") (off + 8)) := by
  unfold Fits at hf
  have p := pow_bound
  constructor
  · intro hn h hnext
    have hu : ¬ u32 (off + 4) ≥ e.buf.length := by simp only [u32]; omega
    unfold displayMotes
    simp only [bind_run, get_run, Res.bind_ok, if_neg hu]
    have : readLE e 4 off = .ok n (off + 4) := readLE_at h (by omega)
    simp [this, motesText_decimal n (by have : (2 : Nat) ^ 32 < 10 ^ 256 := by decide +kernel
                                        omega)]
  · intro hn h hnext
    have hu : ¬ u32 (off + 8) ≥ e.buf.length := by simp only [u32]; omega
    unfold displayMotes
    simp only [bind_run, get_run, Res.bind_ok, if_neg hu]
    have : readLE e 8 off = .ok n (off + 8) := readLE_at h (by omega)
    simp [this, motesText_decimal n (by have : (2 : Nat) ^ 64 < 10 ^ 256 := by decide +kernel
                                        omega)]

/-- The grouped text determines the amount. -/
theorem C17_amount_injective (m n : Nat) (h : group3 (decText m) ++ b!" motes" = group3 (decText n) ++ b!" motes") :
    m = n := by
  have h := List.append_cancel_right h
  have strip : ∀ ds : Bytes, (∀ c ∈ ds, 0x30 ≤ c ∧ c ≤ 0x39) → (group3 ds).filter (· != 0x20) = ds := by
    intro ds
    induction ds using group3.induct with
    | case1 ds hs =>
      intro hd
      rw [group3_short hs, List.filter_eq_self]
      intro c hc
      have := (hd c hc).1
      simp only [bne_iff_ne, ne_eq]
      rintro rfl; exact absurd this (by decide)
    | case2 ds hs ih =>
      intro hd
      rw [group3, if_neg hs, List.filter_append, ih (fun c hc => hd c (List.mem_of_mem_take hc))]
      have : (ds.drop (ds.length - 3)).filter (· != 0x20) = ds.drop (ds.length - 3) := by
        rw [List.filter_eq_self]
        intro c hc
        have := (hd c (List.mem_of_mem_drop hc)).1
        simp only [bne_iff_ne, ne_eq]
        rintro rfl; exact absurd this (by decide)
      rw [List.filter_cons_of_neg (by simp), this, List.take_append_drop]
  apply decText_inj
  rw [← strip _ (decText_digit m), ← strip _ (decText_digit n), h]

example : displayArg (sampleEnv ([3] ++ le 3 2500000 ++ [8])) 8 4 0 = .ok b!"2 500 000 motes" 0 := by
  decide +kernel

/-- **C18 is false** for very small output arrays: a number of at most three digits that fills the array is copied
without terminator. -/
theorem C18_thousand_separators_false :
    ¬ ∀ (outLen : Nat) (ds : Bytes), (∀ c ∈ ds, 0x30 ≤ c ∧ c ≤ 0x39) → ds ≠ [] →
      addThousand outLen ds = .ok (group3 ds) ∨ ∃ x, addThousand outLen ds = .err x := by
  intro h
  have := h 3 b!"123" (by decide) (by decide)
  rcases this with h | ⟨x, h⟩
  · exact absurd h (by decide)
  · have h0 : addThousand 3 b!"123" = .fault .unterminated := by decide
    rw [h0] at h; cases h

/-- **C18 (partial).** A number with integer part `int` and optional fraction `frac` (empty or starting with a point):
the formatted text is the integer part grouped by three from the right, then the fraction unchanged, when that fits the
output array with its terminator; otherwise an error.  Missing for the full claim: numbers of at most three integer
digits in an array too small for them (`C18_thousand_separators_false`). -/
theorem C18_thousand_separators_partial (outLen : Nat) (int frac : Bytes) (hi : 0x2e ∉ int)
    (hf : frac = [] ∨ ∃ r, frac = 0x2e :: r) (hne : int ++ frac ≠ [])
    (hs : 3 < int.length ∨ (int ++ frac).length < outLen) :
    addThousand outLen (int ++ frac) =
      if (group3 int ++ frac).length < outLen then .ok (group3 int ++ frac) else .err 12 :=
  addThousand_eq outLen int frac hi hf hne hs

/-- Removing the spaces from the grouped text gives back the input. -/
theorem C18_digits_kept (ds : Bytes) (h : 0x20 ∉ ds) : (group3 ds).filter (· != 0x20) = ds := by
  induction ds using group3.induct with
  | case1 ds hs =>
    rw [group3_short hs, List.filter_eq_self]
    intro c hc
    simp only [bne_iff_ne, ne_eq]
    rintro rfl; exact h hc
  | case2 ds hs ih =>
    rw [group3, if_neg hs, List.filter_append, ih (fun hc => h (List.mem_of_mem_take hc))]
    have : (ds.drop (ds.length - 3)).filter (· != 0x20) = ds.drop (ds.length - 3) := by
      rw [List.filter_eq_self]
      intro c hc
      simp only [bne_iff_ne, ne_eq]
      rintro rfl; exact h (List.mem_of_mem_drop hc)
    rw [List.filter_cons_of_neg (by simp), this, List.take_append_drop]

example : addThousand 20 b!"1234567.89" = .ok b!"1 234 567.89" ∧ addThousand 12 b!"1234567.89" = .err 12 := by decide

/-- **C19.** Every time to live below 29 days is shown, in an array of at least 23 bytes, as a text that denotes
exactly that many seconds and fits the array; from 29 days on it is refused. -/
theorem C19_ttl (v size : Nat) (hs : 23 ≤ size) (s : Nat) :
    (v < 29 * 86400 → ∃ text, ttlText v size s = .ok text s ∧ duration text = v ∧ text.length < 23) ∧
    (29 * 86400 ≤ v → ttlText v size s = .err 13 s) := by
  constructor
  · intro hv
    unfold ttlText
    rw [if_neg (by omega)]
    simp only
    rw [if_neg (by omega)]
    have hu1 : ∀ a k : Nat, durStep (a, k) 0x68 = (a + k * 3600, 0) := fun a k => by simp [durStep]
    have hu2 : ∀ a k : Nat, durStep (a, k) 0x6d = (a + k * 60, 0) := fun a k => by simp [durStep]
    have hu3 : ∀ a k : Nat, durStep (a, k) 0x73 = (a + k * 1, 0) := fun a k => by simp [durStep]
    have h0 : (if v / 86400 = 1 then b!"1day" else if v / 86400 > 1 then decimal (v / 86400) ++ b!"days"
        else []).foldl durStep (0, 0) = (v / 86400 * 86400, 0) := by
      split
      · rename_i h; rw [h]; decide
      · split
        · rw [decimal_eq, List.foldl_append, foldl_decText]
          simp [durStep]
        · rename_i h1 h2
          have : v / 86400 = 0 := by omega
          rw [this]; rfl
    have h1 := fold_part _ (v % 86400 / 3600) 3600 _ 0x68 hu1 h0
    have h2 := fold_part _ (v % 86400 % 3600 / 60) 60 _ 0x6d hu2 h1
    have h3 := fold_part _ (v % 86400 % 3600 % 60) 1 _ 0x73 hu3 h2
    have hl0 : (if v / 86400 = 1 then b!"1day" else if v / 86400 > 1 then decimal (v / 86400) ++ b!"days"
        else []).length ≤ 6 := by
      split
      · simp
      · split
        · have := decText_length (v / 86400) 2 (by decide) (by omega)
          rw [decimal_eq]; simp; omega
        · simp
    have hl1 := ttlPart_length (if v / 86400 = 1 then b!"1day" else if v / 86400 > 1 then decimal (v / 86400) ++ b!"days"
        else []) (v % 86400 / 3600) b!"h" rfl (by omega)
    have hl2 := ttlPart_length _ (v % 86400 % 3600 / 60) b!"m" rfl (by omega) |>.trans (Nat.add_le_add_right hl1 4)
    have hl3 := ttlPart_length _ (v % 86400 % 3600 % 60) b!"s" rfl (by omega) |>.trans (Nat.add_le_add_right hl2 4)
    refine ⟨_, rfl, ?_, by omega⟩
    unfold duration
    rw [h3]; simp only; omega
  · intro hv
    unfold ttlText
    rw [if_neg (by omega)]
    simp only
    rw [if_pos (by omega)]
    rfl

/-- **C19, no ambiguity.** Two accepted durations with the same text are equal. -/
theorem C19_ttl_injective (v w size : Nat) (s : Nat) (text : Bytes) (hv : ttlText v size s = .ok text s)
    (hw : ttlText w size s = .ok text s) : v = w := by
  have hs : 23 ≤ size := by
    by_contra h
    unfold ttlText at hv
    rw [if_pos (by omega)] at hv
    simp at hv
  have key : ∀ x, ttlText x size s = .ok text s → duration text = x := by
    intro x hx
    by_cases hlt : x < 29 * 86400
    · obtain ⟨t, h1, h2, -⟩ := (C19_ttl x size hs s).1 hlt
      rw [h1] at hx
      simp at hx
      rw [← hx]; exact h2
    · rw [(C19_ttl x size hs s).2 (by omega)] at hx
      simp at hx
  rw [← key v hv, ← key w hw]

example : ttlText (2 * 86400 + 3 * 3600 + 59) 23 0 = .ok b!"2days 3h 59s" 0 ∧
    ttlText (28 * 86400 + 86399) 23 0 = .ok b!"28days 23h 59m 59s" 0 := by decide +kernel

/-- **C20.** The checksummed text of a byte string is its hexadecimal text in which the `k`-th letter is uppercase
exactly when bit `k` of the BLAKE2b hash of the byte string is set. -/
theorem C20_checksum_hex (H : Hash) (xs : Bytes) : encodeChecksum H xs = casedHex (H xs) xs := encLoop_eq _ _

/-- **C20, same bytes.** Read case-insensitively it is the plain hexadecimal text; different byte strings have
different texts. -/
theorem C20_checksum_faithful (H : Hash) (xs ys : Bytes) :
    (encodeChecksum H xs).map lowerCase = hexText xs ∧ (encodeChecksum H xs = encodeChecksum H ys → xs = ys) := by
  rw [C20_checksum_hex, C20_checksum_hex]
  refine ⟨casedHex_lower _ _, fun h => ?_⟩
  apply hexText_inj
  rw [← casedHex_lower (H xs) xs, ← casedHex_lower (H ys) ys, h]

/-- **C20, bits in range.** For at most 50 bytes every case bit used is one of the 256 bits of the hash. -/
theorem C20_bits_inside (H : Hash) (xs : Bytes) (h : xs.length ≤ 50) (i : Nat) :
    ((halves xs).take i).countP (10 ≤ ·) / 8 < (H xs).length := by
  have h1 : ((halves xs).take i).countP (10 ≤ ·) ≤ ((halves xs).take i).length := List.countP_le_length
  have h2 := halves_length xs
  simp only [List.length_take] at h1
  rw [H.len]
  omega

/-- The same for the case rule of the arguments hash and contract hashes (`encode_hex`), whose bits are those of the
hash shown itself. -/
theorem C20_hash_hex (xs ys : Bytes) :
    encodeHex xs = casedHex xs xs ∧ (encodeHex xs).map lowerCase = hexText xs ∧ (encodeHex xs = encodeHex ys → xs = ys) := by
  have h := encLoop_eq xs xs
  have h' := encLoop_eq ys ys
  unfold encodeHex
  rw [h, h']
  refine ⟨rfl, casedHex_lower _ _, fun hh => ?_⟩
  apply hexText_inj
  rw [← casedHex_lower xs xs, ← casedHex_lower ys ys, hh]

example : encodeChecksum Blake.H [0x17, 0x2a, 0xbc, 0xde, 0xf0] = b!"172aBcDeF0" := by decide +kernel

end Casper
