import Verif.Model.Format
import Verif.Spec.Text
import Mathlib.Data.Nat.Digits.Lemmas
/-
Lemmas on the text formats (for C17..C20, C52).
-/
namespace Casper
open M

theorem group3_short {ds : Bytes} (h : ds.length ≤ 3) : group3 ds = ds := by rw [group3, if_pos h]

theorem group3_append {a b : Bytes} (ha : a ≠ []) (hb : b.length = 3) : group3 (a ++ b) = group3 a ++ 0x20 :: b := by
  have : a.length ≠ 0 := by simpa using ha
  rw [group3, if_neg (by simp; omega)]
  rw [show (a ++ b).length - 3 = a.length by simp [hb]]
  simp

theorem group3_length (ds : Bytes) : (group3 ds).length = ds.length + (ds.length - 1) / 3 := by
  induction ds using group3.induct with
  | case1 ds h => rw [group3_short h]; omega
  | case2 ds h ih =>
    rw [group3, if_neg h]
    simp [ih]; omega

theorem sepLoop_eq (max : Nat) (A B T : Bytes) (hB : 1 ≤ B.length) (hB' : B.length ≤ 3)
    (hm : (group3 (A ++ B) ++ T).length < max) :
    sepLoop max A.length B.length (A ++ (B ++ T)) = .ok (group3 (A ++ B) ++ T) := by
  induction h : A.length generalizing A B T with
  | zero =>
    have : A = [] := by simpa using h
    subst this
    simp [sepLoop, group3_short hB']
  | succ k ih =>
    rw [sepLoop]
    have hne : A ≠ [] := by intro h0; simp [h0] at h
    obtain ⟨A', c, rfl⟩ : ∃ A' c, A = A' ++ [c] := ⟨A.dropLast, A.getLast hne, (List.dropLast_append_getLast hne).symm⟩
    have hk : A'.length = k := by simpa using h
    by_cases h3 : B.length = 3
    · rw [if_pos (by simp [h3])]
      have hlen : ((A' ++ [c]) ++ (B ++ T)).length + 1 ≤ (group3 (A' ++ [c] ++ B) ++ T).length := by
        simp [group3_length]; omega
      have hins : insertChar ((A' ++ [c]) ++ (B ++ T)) max (k + 1) 0x20 = .ok ((A' ++ [c]) ++ (0x20 :: (B ++ T))) := by
        rw [insertChar, if_neg (by omega), if_neg (by simp; omega), if_neg (by omega)]
        rw [← h, List.take_left, List.drop_left]
      simp only [hins]
      have := ih A' [c] (0x20 :: (B ++ T)) (by simp) (by simp)
        (by rw [group3_append hne h3] at hm; simpa using hm) hk
      simp only [List.length_singleton, List.singleton_append] at this
      rw [show (A' ++ [c]) ++ (0x20 :: (B ++ T)) = A' ++ c :: (0x20 :: (B ++ T)) by simp, this,
        group3_append hne h3]
      simp
    · rw [if_neg (by omega)]
      have := ih A' (c :: B) T (by simp) (by simp; omega) (by simpa using hm) hk
      simp at this
      simpa using this

theorem addThousands_eq (s : Bytes) (max : Nat) (hs : s ≠ []) (hm : (group3 s).length < max) :
    addThousands s max = .ok (group3 s) := by
  have hl := group3_length s
  rw [addThousands, if_neg (by omega)]
  obtain ⟨A, c, rfl⟩ : ∃ A c, s = A ++ [c] := ⟨s.dropLast, s.getLast hs, (List.dropLast_append_getLast hs).symm⟩
  have := sepLoop_eq max A [c] [] (by simp) (by simp) (by simpa using hm)
  simpa using this

theorem findEndFrom_eq (buffer : Bytes) (size k index n : Nat) (hn : n < size) (h0 : n ≠ 0)
    (hz : buffer.getD n 0 = 0) (hnz : ∀ i, i < n → buffer.getD i 0 ≠ 0) (hi : index ≤ n) (hk : n < index + k) :
    findEndFrom buffer size k index = some n := by
  induction k generalizing index with
  | zero => omega
  | succ k ih =>
    rw [findEndFrom, if_pos (by omega)]
    by_cases h : index = n
    · subst h; rw [if_pos ⟨hz, h0⟩]
    · rw [if_neg (by rintro ⟨h1, -⟩; exact hnz index (by omega) h1)]
      exact ih (index + 1) (by omega) (by omega)

theorem findEnd_eq (ds : Bytes) (h0 : ds ≠ []) (hl : ds.length < 400) (hnz : 0 ∉ ds) :
    findEndOfNumber (ds ++ List.replicate (400 - ds.length) 0) 400 = some ds.length := by
  have hne : ds.length ≠ 0 := by simpa using h0
  apply findEndFrom_eq _ _ _ _ _ hl hne
  · rw [List.getD_eq_getElem?_getD, List.getElem?_append_right (by omega)]
    simp [List.getElem?_replicate, hl]
  · intro i hi
    rw [List.getD_eq_getElem?_getD, List.getElem?_append_left hi]
    simp [hi]
    intro h
    exact hnz (h ▸ List.getElem_mem hi)
  · omega
  · omega

theorem motesText_eq (ds : Bytes) (h0 : ds ≠ []) (hl : (group3 ds).length < 394) (hnz : 0 ∉ ds) (s : Nat) :
    motesText ds s = .ok (group3 ds ++ b!" motes") s := by
  have hg := group3_length ds
  unfold motesText
  rw [findEnd_eq ds h0 (by omega) hnz]
  simp only [List.take_left]
  rw [addThousands_eq ds 400 h0 (by omega)]
  simp only
  rw [if_neg (by omega)]
  rfl

theorem toDigits_eq (n : Nat) : Nat.toDigits 10 n = if n = 0 then ['0'] else (Nat.digits 10 n).reverse.map Nat.digitChar := by
  induction n using Nat.strongRecOn with
  | _ n ih =>
    by_cases h : n < 10
    · rw [Nat.toDigits_of_lt_base h]
      by_cases h0 : n = 0
      · simp [h0]
      · rw [if_neg h0, Nat.digits_of_lt _ _ h0 h]; rfl
    · have h2 : n / 10 ≠ 0 := by omega
      have := ih (n / 10) (by omega)
      rw [if_neg h2] at this
      rw [if_neg (by omega), Nat.digits_def' (by decide) (by omega)]
      rw [Nat.toDigits_of_base_le (by decide) (by omega)]
      rw [this]
      simp

theorem decimal_eq (n : Nat) : decimal n = decText n := by
  unfold decimal decText
  rw [toDigits_eq]
  split
  · rfl
  · rw [List.map_map]
    apply List.map_congr_left
    intro d hd
    have : d < 10 := by
      have := List.mem_reverse.1 hd
      exact Nat.digits_lt_base (by decide) this
    simp only [Function.comp]
    interval_cases d <;> rfl

theorem decText_ne_nil (n : Nat) : decText n ≠ [] := by
  unfold decText
  split
  · simp
  · rename_i h; simp [Nat.digits_eq_nil_iff_eq_zero, h]

theorem decText_digit (n : Nat) : ∀ c ∈ decText n, 0x30 ≤ c ∧ c ≤ 0x39 := by
  unfold decText
  split
  · decide
  · intro c hc
    simp only [List.mem_map, List.mem_reverse] at hc
    obtain ⟨d, hd, rfl⟩ := hc
    have : d < 10 := Nat.digits_lt_base (by decide) hd
    interval_cases d <;> decide

theorem decText_length (n k : Nat) (hk : 0 < k) (h : n < 10 ^ k) : (decText n).length ≤ k := by
  unfold decText
  split
  · exact hk
  · simp only [List.length_map, List.length_reverse]
    exact (Nat.digits_length_le_iff (by decide) _).2 h

theorem motesText_decimal (n : Nat) (h : n < 10 ^ 256) (s : Nat) :
    motesText (decimal n) s = .ok (group3 (decText n) ++ b!" motes") s := by
  rw [decimal_eq]
  apply motesText_eq _ (decText_ne_nil n)
  · have := decText_length n 256 (by decide) h
    rw [group3_length]; omega
  · intro h0
    have := decText_digit n 0 h0
    exact absurd this.1 (by decide)

/-! ### `add_thousand_separators` -/

theorem groupRest_append (xs ys : Bytes) (k : Nat) :
    groupRest (xs ++ ys) k = groupRest xs k ++ groupRest ys (k + xs.length) := by
  induction xs generalizing k with
  | nil => rfl
  | cons x xs ih =>
    simp only [List.cons_append, groupRest, ih]
    rw [show k + 1 + xs.length = k + (x :: xs).length by simp; omega]
    split <;> rfl

theorem groupRest_eq (first cs : Bytes) (h1 : 1 ≤ first.length) (h2 : first.length ≤ 3) (h3 : cs.length % 3 = 0) :
    first ++ groupRest cs 0 = group3 (first ++ cs) := by
  induction h : cs.length using Nat.strongRecOn generalizing cs with
  | _ n ih =>
    by_cases h0 : cs.length = 0
    · have : cs = [] := by simpa using h0
      subst this
      simp [groupRest, group3_short h2]
    · have hd : (cs.drop (cs.length - 3)).length = 3 := by simp; omega
      have ht : (cs.take (cs.length - 3)).length = cs.length - 3 := by simp
      have := ih (cs.length - 3) (by omega) (cs.take (cs.length - 3)) (by rw [ht]; omega) ht
      have hne : first ++ cs.take (cs.length - 3) ≠ [] := by
        intro hc; have := congrArg List.length hc; simp at this; simp [this.1] at h1
      conv_rhs => rw [← List.take_append_drop (cs.length - 3) cs, ← List.append_assoc, group3_append hne hd, ← this]
      conv_lhs => rw [← List.take_append_drop (cs.length - 3) cs, groupRest_append]
      rw [ht, List.append_assoc]
      congr 2
      obtain ⟨a, b, c, habc⟩ : ∃ a b c, cs.drop (cs.length - 3) = [a, b, c] := by
        match hm : cs.drop (cs.length - 3), hd with
        | [a, b, c], _ => exact ⟨a, b, c, rfl⟩
      rw [habc]
      simp only [groupRest]
      rw [if_pos (by omega), if_neg (by omega), if_neg (by omega)]

theorem takeWhile_dot {int frac : Bytes} (hi : 0x2e ∉ int) (hf : frac = [] ∨ ∃ r, frac = 0x2e :: r) :
    (int ++ frac).takeWhile (· != 0x2e) = int := by
  induction int with
  | nil => rcases hf with rfl | ⟨r, rfl⟩ <;> simp
  | cons x xs ih =>
    simp only [List.mem_cons, not_or] at hi
    rw [List.cons_append, List.takeWhile_cons_of_pos (by simpa using Ne.symm hi.1), ih hi.2]

theorem addThousand_eq (outLen : Nat) (int frac : Bytes) (hi : 0x2e ∉ int)
    (hf : frac = [] ∨ ∃ r, frac = 0x2e :: r) (hne : int ++ frac ≠ [])
    (hs : 3 < int.length ∨ (int ++ frac).length < outLen) :
    addThousand outLen (int ++ frac) =
      if (group3 int ++ frac).length < outLen then .ok (group3 int ++ frac) else .err 12 := by
  unfold addThousand
  rw [if_neg hne]
  simp only [takeWhile_dot hi hf]
  by_cases h3 : int.length ≤ 3
  · rw [if_pos h3, group3_short h3]
    have : (int ++ frac).length < outLen := by omega
    rw [if_pos this, if_pos this]
  · rw [if_neg h3]
    have hfr : (if (int ++ frac).contains 0x2e = true then (int ++ frac).length - int.length else 0) = frac.length := by
      rcases hf with rfl | ⟨r, rfl⟩
      · simp [hi]
      · simp
    have hdr : (if (int ++ frac).contains 0x2e = true then (int ++ frac).drop int.length else []) = frac := by
      rcases hf with rfl | ⟨r, rfl⟩
      · simp [hi]
      · simp
    rw [hfr, hdr]
    have hg := group3_length int
    by_cases hl : (group3 int ++ frac).length < outLen
    · have hl' := hl
      rw [List.length_append] at hl'
      rw [if_pos hl, if_neg (by omega)]
      congr 2
      have hn : (if int.length % 3 = 0 then 3 else int.length % 3) ≤ int.length := by split <;> omega
      rw [List.take_append_of_le_length hn, List.take_left]
      have := groupRest_eq (int.take (if int.length % 3 = 0 then 3 else int.length % 3))
        (int.drop (if int.length % 3 = 0 then 3 else int.length % 3))
        (by simp; split <;> omega) (by simp; split <;> omega) (by simp; split <;> omega)
      rw [this, List.take_append_drop]
    · have hl' := hl
      rw [List.length_append] at hl'
      rw [if_neg hl, if_pos (by omega)]

/-! ### Durations -/

theorem foldl_digits (ds : Bytes) (hd : ∀ c ∈ ds, 0x30 ≤ c ∧ c ≤ 0x39) (t k : Nat) :
    ds.foldl durStep (t, k) = (t, ds.foldl (fun a c => a * 10 + (c.toNat - 48)) k) := by
  induction ds generalizing k with
  | nil => rfl
  | cons c cs ih =>
    simp only [List.foldl_cons]
    rw [durStep, if_pos (hd c (by simp))]
    exact ih (fun x hx => hd x (by simp [hx])) _

theorem foldl_value (ds : List Nat) (hd : ∀ d ∈ ds, d < 10) :
    (ds.reverse.map (fun d => UInt8.ofNat (48 + d))).foldl (fun a c => a * 10 + (c.toNat - 48)) 0 = Nat.ofDigits 10 ds := by
  induction ds with
  | nil => rfl
  | cons d ds ih =>
    have h10 := hd d (by simp)
    have : (UInt8.ofNat (48 + d)).toNat - 48 = d := by simp [UInt8.toNat_ofNat']; omega
    rw [List.reverse_cons, List.map_append, List.foldl_append, ih (fun x hx => hd x (by simp [hx]))]
    simp only [List.map_cons, List.map_nil, List.foldl_cons, List.foldl_nil, this, Nat.ofDigits_cons]
    omega

theorem foldl_decText (n t : Nat) : (decText n).foldl durStep (t, 0) = (t, n) := by
  rw [foldl_digits _ (decText_digit n)]
  congr 1
  unfold decText
  split
  · rename_i h; subst h; rfl
  · rw [foldl_value _ (fun d hd => Nat.digits_lt_base (by decide) hd), Nat.ofDigits_digits]

theorem decText_inj {m n : Nat} (h : decText m = decText n) : m = n := by
  have := foldl_decText m 0
  rw [h, foldl_decText] at this
  simpa using this.symm

theorem fold_part (out : Bytes) (n m t : Nat) (unit : UInt8) (hu : ∀ a k : Nat, durStep (a, k) unit = (a + k * m, 0))
    (h : out.foldl durStep (0, 0) = (t, 0)) :
    (ttlPart out n [unit]).foldl durStep (0, 0) = (t + n * m, 0) := by
  unfold ttlPart
  split
  · have hs : durStep (t, 0) 0x20 = (t, 0) := by simp [durStep]
    rw [List.foldl_append, List.foldl_append, List.foldl_append, h, decimal_eq]
    have : (if out.length > 0 then b!" " else []).foldl durStep (t, 0) = (t, 0) := by
      split
      · simp [hs]
      · rfl
    rw [this, foldl_decText]
    simp [hu]
  · rename_i h0
    have : n = 0 := by omega
    simp [h, this]

theorem ttlPart_length (out : Bytes) (n : Nat) (unit : Bytes) (hu : unit.length = 1) (hn : n < 100) :
    (ttlPart out n unit).length ≤ out.length + 4 := by
  unfold ttlPart
  split
  · have := decText_length n 2 (by decide) (by omega)
    rw [decimal_eq]
    simp only [List.length_append, hu]
    split <;> simp <;> omega
  · omega

/-! ### Hexadecimal -/

theorem nibbles_eq (xs : Bytes) : nibbles xs = halves xs := by
  induction xs with
  | nil => rfl
  | cons x xs ih => simp [nibbles, halves, ih]

theorem halves_lt (xs : Bytes) : ∀ n ∈ halves xs, n < 16 := by
  intro n hn
  simp only [halves, List.mem_flatMap] at hn
  obtain ⟨b, -, hb⟩ := hn
  have := b.toNat_lt
  simp at hb
  omega

theorem halves_length (xs : Bytes) : (halves xs).length = 2 * xs.length := by
  rw [← nibbles_eq]
  induction xs with
  | nil => rfl
  | cons x xs ih => simp [nibbles, ih]; omega

theorem halves_inj {xs ys : Bytes} (h : halves xs = halves ys) : xs = ys := by
  rw [← nibbles_eq, ← nibbles_eq] at h
  induction xs generalizing ys with
  | nil => cases ys <;> simp_all [nibbles]
  | cons x xs ih =>
    cases ys with
    | nil => simp [nibbles] at h
    | cons y ys =>
      simp only [nibbles, List.cons.injEq] at h
      rw [ih h.2.2]
      have : x.toNat = y.toNat := by omega
      rw [UInt8.toNat_inj.1 this]

/-- One character of the cased text. -/
def casedDigit (bit : Bool) (n : Nat) : UInt8 := if bit then hexDigitUpper n else hexDigit n

theorem hashBit_eq (h : Bytes) (k : Nat) : hashBit h (k / 8) (k % 8) = bitOf h k := by
  unfold hashBit bitOf
  rw [Nat.testBit_eq_decide_div_mod_eq]

theorem encLoop_spec (h : Bytes) (ns : List Nat) (hn : ∀ n ∈ ns, n < 16) (k : Nat) :
    encLoop h ns (k / 8) (k % 8) =
      ns.zipIdx.map (fun p => casedDigit (bitOf h (k + (ns.take p.2).countP (10 ≤ ·))) p.1) := by
  induction ns generalizing k with
  | nil => rfl
  | cons n ns ih =>
    have h16 := hn n (by simp)
    have hrest : ∀ j, encLoop h ns (j / 8) (j % 8) = _ := fun j => ih (fun x hx => hn x (by simp [hx])) j
    rw [List.zipIdx_cons', List.map_cons, List.map_map]
    rw [encLoop]
    by_cases ha : 10 ≤ n
    · have halpha : isAlpha (hexChar n) = true := by interval_cases n <;> decide
      have hchar : (if hashBit h (k / 8) (k % 8) then toUpper (hexChar n) else hexChar n) = casedDigit (bitOf h k) n := by
        rw [hashBit_eq]
        unfold casedDigit
        split <;> (interval_cases n <;> decide)
      simp only [halpha, if_true, hchar]
      have hnext : (if k % 8 + 1 ≥ 8 then casedDigit (bitOf h k) n :: encLoop h ns (k / 8 + 1) 0
          else casedDigit (bitOf h k) n :: encLoop h ns (k / 8) (k % 8 + 1)) =
          casedDigit (bitOf h k) n :: encLoop h ns ((k + 1) / 8) ((k + 1) % 8) := by
        split
        · rw [show (k + 1) / 8 = k / 8 + 1 by omega, show (k + 1) % 8 = 0 by omega]
        · rw [show (k + 1) / 8 = k / 8 by omega, show (k + 1) % 8 = k % 8 + 1 by omega]
      rw [hnext, hrest]
      simp only [List.take_zero, List.countP_nil, Nat.add_zero]
      congr 1
      apply List.map_congr_left
      rintro ⟨m, i⟩ -
      simp [List.countP_cons, ha]
      congr 2; omega
    · have halpha : isAlpha (hexChar n) = false := by interval_cases n <;> first | decide | omega
      have hchar : hexChar n = casedDigit (bitOf h k) n := by
        unfold casedDigit
        split <;> (interval_cases n <;> first | decide | omega)
      simp only [halpha]
      rw [if_neg (by simp), hrest, hchar]
      simp only [List.take_zero, List.countP_nil, Nat.add_zero]
      congr 1
      apply List.map_congr_left
      rintro ⟨m, i⟩ -
      simp [List.countP_cons, ha]

theorem encLoop_eq (h xs : Bytes) : encLoop h (nibbles xs) 0 0 = casedHex h xs := by
  have := encLoop_spec h (halves xs) (halves_lt xs) 0
  rw [nibbles_eq]
  simpa [casedHex, casedDigit] using this

theorem lowerHex_eq (xs : Bytes) : lowerHex xs = hexText xs := by
  unfold lowerHex hexText
  rw [nibbles_eq]
  apply List.map_congr_left
  intro n hn
  have := halves_lt xs n hn
  interval_cases n <;> decide

theorem casedHex_lower (h xs : Bytes) : (casedHex h xs).map lowerCase = hexText xs := by
  unfold casedHex hexText
  rw [List.map_map]
  have h1 : (halves xs).map hexDigit = (halves xs).zipIdx.map (fun p => hexDigit p.1) := by
    conv_lhs => rw [← List.zipIdx_map_fst 0 (halves xs), List.map_map]
    rfl
  rw [h1]
  apply List.map_congr_left
  rintro ⟨n, i⟩ hp
  have hn : n < 16 := halves_lt xs n (by have := List.fst_mem_of_mem_zipIdx hp; exact this)
  simp only [Function.comp]
  split <;> (interval_cases n <;> decide)

theorem hexText_inj {xs ys : Bytes} (h : hexText xs = hexText ys) : xs = ys := by
  apply halves_inj
  unfold hexText at h
  have key : ∀ a b : List Nat, (∀ n ∈ a, n < 16) → (∀ n ∈ b, n < 16) → a.map hexDigit = b.map hexDigit → a = b := by
    intro a
    induction a with
    | nil => intro b _ _ h; cases b <;> simp_all
    | cons x a ih =>
      intro b ha hb h
      cases b with
      | nil => simp at h
      | cons y b =>
        simp only [List.map_cons, List.cons.injEq] at h
        rw [ih b (fun n hn => ha n (by simp [hn])) (fun n hn => hb n (by simp [hn])) h.2]
        have hx := ha x (by simp)
        have hy := hb y (by simp)
        have : ∀ x, x < 16 → ∀ y, y < 16 → hexDigit x = hexDigit y → x = y := by decide
        rw [this x hx y hy h.1]
  exact key _ _ (halves_lt xs) (halves_lt ys) h

theorem casedHex_length (h xs : Bytes) : (casedHex h xs).length = 2 * xs.length := by
  simp [casedHex, halves_length]

end Casper
