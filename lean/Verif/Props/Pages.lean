import Verif.Spec.Pages
import Verif.Props.Shown
import Verif.Lib.Walk
/-
C80: every line has a text, and turning the pages shows all of it.
-/
namespace Casper
open M

/-! ### Pages -/

theorem pages_take (w : Nat) (text : Bytes) : ∀ n, (List.range n).flatMap (page w text) = text.take (n * w) := by
  intro n
  induction n with
  | zero => simp
  | succ n ih =>
    rw [List.range_succ, List.flatMap_append, ih]
    simp only [List.flatMap_cons, List.flatMap_nil, List.append_nil, page]
    rw [Nat.succ_mul, List.take_add]

/-- Below 256 pages, turning them shows the whole text. -/
theorem allPages_eq {w : Nat} {text : Bytes} (hw : 0 < w) (h : text.length ≤ 255 * w) : allPages w text = text := by
  have h1 : (text.length + (w - 1)) / w ≤ 255 := by
    rw [Nat.div_le_iff_le_mul_add_pred hw]
    have : w * 255 = 255 * w := Nat.mul_comm _ _
    omega
  unfold allPages pageCount
  rw [Nat.mod_eq_of_lt (by omega), pages_take, List.take_of_length_le]
  have h2 := Nat.div_add_mod (text.length + (w - 1)) w
  have h3 := Nat.mod_lt (text.length + (w - 1)) hw
  rw [Nat.mul_comm w] at h2
  omega

theorem pageCount_pos {w : Nat} {text : Bytes} (hw : 0 < w) (h : text.length ≤ 255 * w) (hn : text ≠ []) : 0 < pageCount w text := by
  have h0 : 0 < text.length := List.length_pos_iff.2 hn
  have h1 : (text.length + (w - 1)) / w ≤ 255 := by
    rw [Nat.div_le_iff_le_mul_add_pred hw]
    have : w * 255 = 255 * w := Nat.mul_comm _ _
    omega
  unfold pageCount
  rw [Nat.mod_eq_of_lt (by omega)]
  exact Nat.div_pos (by omega) hw

/-! ### Lengths of formatted texts -/

/-- A text that is there and not too long. -/
def Solid (v : Bytes) : Prop := v ≠ [] ∧ v.length ≤ 399
/-- A text that is not too long. -/
def Brief (v : Bytes) : Prop := v.length ≤ 399

instance (v : Bytes) : Decidable (Solid v) := inferInstanceAs (Decidable (_ ∧ _))
instance (v : Bytes) : Decidable (Brief v) := inferInstanceAs (Decidable (_ ≤ _))

theorem nibbles_length (xs : Bytes) : (nibbles xs).length = 2 * xs.length := by
  induction xs with
  | nil => rfl
  | cons b bs ih => simp only [nibbles, List.length_cons, ih]; omega
theorem encLoop_length (h : Bytes) : ∀ (ns : List Nat) (i o : Nat), (encLoop h ns i o).length = ns.length := by
  intro ns
  induction ns with
  | nil => intro i o; rfl
  | cons n ns ih =>
    intro i o
    unfold encLoop
    dsimp only
    split
    · split <;> simp [ih]
    · simp [ih]
theorem encodeChecksum_length (H : Hash) (xs : Bytes) : (encodeChecksum H xs).length = 2 * xs.length := by
  unfold encodeChecksum; rw [encLoop_length, nibbles_length]
theorem encodeHex_length (xs : Bytes) : (encodeHex xs).length = 2 * xs.length := by
  unfold encodeHex; rw [encLoop_length, nibbles_length]
theorem lowerHex_length (xs : Bytes) : (lowerHex xs).length = 2 * xs.length := by
  unfold lowerHex; rw [List.length_map, nibbles_length]
theorem encodeAddr_length (H : Hash) (xs : Bytes) : (encodeAddr H xs).length = 2 * xs.length := by
  cases xs with
  | nil => rfl
  | cons p xs => unfold encodeAddr; simp only [List.length_cons, encodeChecksum_length]; omega

theorem Solid.of_length {v : Bytes} {n : Nat} (h : v.length = n) (h1 : 0 < n) (h2 : n ≤ 399) : Solid v :=
  ⟨fun hv => by rw [hv] at h; simp at h; omega, by omega⟩
theorem Solid.brief {v : Bytes} (h : Solid v) : Brief v := h.2

theorem Solid.decimal {n : Nat} (h : n < 2 ^ 64) : Solid (decimal n) := by
  refine ⟨decimal_ne n, ?_⟩
  have := decText_length n 20 (by decide) (by omega)
  rw [decimal_eq]; omega

theorem motesText_solid (ds : Bytes) : Yields Solid (motesText ds) := by
  intro s a t h
  unfold motesText at h
  cases hn : findEndOfNumber (ds ++ List.replicate (400 - ds.length) 0) 400 with
  | none => rw [hn] at h; cases h
  | some n =>
  rw [hn] at h
  dsimp only at h
  cases hr : addThousands ((ds ++ List.replicate (400 - ds.length) 0).take n) 400 with
  | err x => rw [hr] at h; cases h
  | fault x => rw [hr] at h; cases h
  | ok r =>
  rw [hr] at h
  dsimp only at h
  by_cases hl : r.length + 6 ≥ 400
  · rw [if_pos hl] at h; cases h
  rw [if_neg hl] at h
  cases h
  refine ⟨by simp, ?_⟩
  rw [List.length_append, show (b!" motes").length = 6 from rfl]
  omega

theorem groupRest_length (xs : Bytes) : ∀ k, (groupRest xs k).length ≤ 2 * xs.length := by
  induction xs with
  | nil => intro k; exact Nat.le_refl _
  | cons c cs ih =>
    intro k
    have := ih (k + 1)
    unfold groupRest
    split <;> simp only [List.length_cons] <;> omega

theorem addThousand_brief {k : Nat} {xs t : Bytes} (h : xs.length ≤ 19) (ht : addThousand k xs = .ok t) : Brief t := by
  unfold Brief
  unfold addThousand at ht
  split at ht
  · cases ht
    rw [List.length_take, show (b!"0").length = 1 from rfl]
    omega
  dsimp only at ht
  split at ht
  · split at ht
    · cases ht; omega
    · cases ht
  generalize (xs.takeWhile (· != 0x2e)).length + ((xs.takeWhile (· != 0x2e)).length - 1) / 3 + _ = needed at ht
  by_cases hl : k ≤ needed
  · rw [if_pos hl] at ht; cases ht
  rw [if_neg hl] at ht
  injection ht with ht
  rw [← ht]
  simp only [List.length_append]
  have h1 := groupRest_length (List.drop (if (xs.takeWhile (· != 0x2e)).length % 3 = 0 then 3 else (xs.takeWhile (· != 0x2e)).length % 3)
    (List.take (xs.takeWhile (· != 0x2e)).length xs)) 0
  simp only [List.length_drop, List.length_take] at h1
  have h2 : ∀ (b : Bool) (n : Nat), (if b = true then List.drop n xs else ([] : Bytes)).length ≤ 19 := by
    intro b n
    cases b
    · simp
    · simp; omega
  have h3 := h2 (xs.contains 0x2e) (xs.takeWhile (· != 0x2e)).length
  have h4 := List.length_take_le (if (xs.takeWhile (· != 0x2e)).length % 3 = 0 then 3 else (xs.takeWhile (· != 0x2e)).length % 3) xs
  have h5 : (List.take (if (xs.takeWhile (· != 0x2e)).length % 3 = 0 then 3 else (xs.takeWhile (· != 0x2e)).length % 3) xs).length ≤ xs.length := by
    rw [List.length_take]; omega
  omega

theorem ttlPart_brief {out unit : Bytes} {n : Nat} (hn : n < 100) : (ttlPart out n unit).length ≤ out.length + 3 + unit.length := by
  unfold ttlPart
  split
  · have := decText_length n 2 (by decide) (by omega)
    rw [decimal_eq]
    simp only [List.length_append]
    have h2 : (if out.length > 0 then b!" " else ([] : Bytes)).length ≤ 1 := by split <;> simp
    omega
  · omega

theorem ttlText_brief (v k : Nat) : Yields Brief (ttlText v k) := by
  unfold ttlText
  refine .ite .fail ?_
  dsimp only
  by_cases h : v / 86400 > 28
  · rw [if_pos h]; exact .fail
  rw [if_neg h]
  refine .pure ?_
  unfold Brief
  have h0 : (if v / 86400 = 1 then b!"1day" else if v / 86400 > 1 then decimal (v / 86400) ++ b!"days" else ([] : Bytes)).length ≤ 6 := by
    split
    · decide
    split
    · have := decText_length (v / 86400) 2 (by decide) (by omega)
      rw [decimal_eq, List.length_append, show (b!"days").length = 4 from rfl]
      omega
    · simp
  generalize (if v / 86400 = 1 then b!"1day" else if v / 86400 > 1 then decimal (v / 86400) ++ b!"days" else ([] : Bytes)) = out at *
  have h1 := ttlPart_brief (out := out) (unit := b!"h") (n := v % 86400 / 3600) (by omega)
  have h2 := ttlPart_brief (out := ttlPart out (v % 86400 / 3600) b!"h") (unit := b!"m") (n := v % 86400 % 3600 / 60) (by omega)
  have h3 := ttlPart_brief (out := ttlPart (ttlPart out (v % 86400 / 3600) b!"h") (v % 86400 % 3600 / 60) b!"m") (unit := b!"s")
    (n := v % 86400 % 3600 % 60) (by omega)
  rw [show (b!"h").length = 1 from rfl] at h1
  rw [show (b!"m").length = 1 from rfl] at h2
  rw [show (b!"s").length = 1 from rfl] at h3
  omega

theorem byHashLoop_solid (xs : Bytes) : ∀ acc, acc.length ≤ 99 → (byHashLoop xs acc).length ≤ 99 ∧ (acc ≠ [] → byHashLoop xs acc ≠ []) := by
  induction xs with
  | nil => intro acc h; exact ⟨h, fun h => h⟩
  | cons b bs ih =>
    intro acc h
    have := ih (acc ++ (decimal b.toNat).take (99 - acc.length)) (by rw [List.length_append, List.length_take]; omega)
    exact ⟨this.1, fun hn => this.2 (by simp [hn])⟩
theorem byHash_solid {xs : Bytes} (h : xs ≠ []) : Solid (byHashLoop xs []) := by
  cases xs with
  | nil => exact absurd rfl h
  | cons b bs =>
    have := byHashLoop_solid bs ([] ++ (decimal b.toNat).take (99 - 0)) (by rw [List.nil_append, List.length_take]; omega)
    refine ⟨this.2 ?_, ?_⟩
    · have hd := decimal_ne b.toNat
      cases h2 : decimal b.toNat with
      | nil => exact absurd h2 hd
      | cons c cs => simp
    · have h2 := this.1
      show (byHashLoop bs ([] ++ (decimal b.toNat).take (99 - 0))).length ≤ 399
      omega

/-! ### Reading -/

variable {e : Env}

theorem readU8_lt : Yields (· < 256) (readU8 e) := fun _ _ _ h => (readU8_post _ _ h).2.1
theorem readU32_lt : Yields (· < 2 ^ 32) (readU32 e) := fun _ _ _ h => (readU32_post _ _ h).2.1
theorem readU64_lt : Yields (· < 2 ^ 64) (readU64 e) := fun _ _ _ h => (readU64_post _ _ h).2.1
theorem byteAt_lt (i : Nat) : Yields (· < 256) (byteAt e i) := by
  intro s a t h
  unfold byteAt at h
  cases hb : e.buf[i]? with
  | none => rw [hb] at h; cases h
  | some b => rw [hb] at h; cases h; exact b.toNat_lt
theorem parseVersion_lt : Yields (· < 2 ^ 32) (parseVersion e) := by
  unfold parseVersion
  exact .any fun _ => .ite (.pure (by decide)) (.ite readU32_lt .fail)
theorem slice_len (off n : Nat) : Yields (fun xs => xs.length = n) (slice e off n) := by
  intro s xs t h
  unfold slice at h
  split at h
  · cases h; rw [List.length_take, List.length_drop]; omega
  · cases h

/-! ### Arguments -/

theorem printBytes_brief (off len : Nat) : Yields Brief (printBytes e off len) := by
  unfold printBytes
  refine .ite (.pure (by decide)) ?_
  by_cases h : u8 (u16 len) > 50
  · rw [if_pos h]; exact .abort
  rw [if_neg h]
  refine (slice_len _ _).then fun xs hx => .ite .abort (.pure ?_)
  unfold Brief
  rw [encodeChecksum_length]
  omega
theorem printBytes_solid (off : Nat) {len : Nat} (h1 : 1 ≤ len) (h2 : len ≤ 50) : Yields Solid (printBytes e off len) := by
  unfold printBytes
  have h3 : u8 (u16 len) = len := by unfold u8 u16; omega
  have h4 : u8 (2 * len) = 2 * len := by unfold u8; omega
  dsimp only
  rw [h3, h4, if_neg (by omega), if_neg (by omega)]
  refine (slice_len _ _).then fun xs hx => .ite .abort (.pure ?_)
  exact .of_length (n := 2 * len) (by rw [encodeChecksum_length, hx]) (by omega) (by omega)
theorem printAddress_solid (off : Nat) {len : Nat} (h1 : 1 ≤ len) (h2 : len ≤ 34) : Yields Solid (printAddress e off len) := by
  unfold printAddress
  exact (slice_len _ _).then fun xs hx => .pure (.of_length (n := 2 * len) (by rw [encodeAddr_length, hx]) (by omega) (by omega))
theorem amountBignum_solid (len : Nat) : Yields Solid (amountBignum e len) := by
  unfold amountBignum
  exact .any fun _ => .any fun _ => motesText_solid _
theorem displayMotes_solid (t len : Nat) : Yields Solid (displayMotes e t len) := by
  unfold displayMotes
  exact .any fun _ => .ite .fail (.ite .fail (.ite (.any fun _ => motesText_solid _) (.ite (.any fun _ => motesText_solid _) (.ite (amountBignum_solid _) .fail))))
theorem displayArg_brief (t len : Nat) : Yields Brief (displayArg e t len) := by
  unfold displayArg
  have h8 : ∀ n, n < 256 → Brief (decimal n) := fun n hn => (Solid.decimal (by omega)).brief
  have h32 : ∀ n, n < 2 ^ 32 → Brief (decimal n) := fun n hn => (Solid.decimal (by omega)).brief
  have h64 : ∀ n, n < 2 ^ 64 → Brief (decimal n) := fun n hn => (Solid.decimal hn).brief
  refine .any fun _ => .ite .fail (.ite .fail (.ite ?_ (.ite ?_ (.ite ?_ (.ite ?_ (.ite ?_ (.ite ?_ (.ite ?_ (.ite ?_ (.ite ?_ .fail))))))))))
  · exact readU8_lt.then fun _ h => .pure (h8 _ h)
  · exact readU32_lt.then fun _ h => .pure (h32 _ h)
  · exact readU64_lt.then fun _ h => .pure (h64 _ h)
  · exact fun s a t h => (amountBignum_solid _ s a t h).brief
  · exact .any fun _ => .any fun _ => printBytes_brief _ _
  · exact printBytes_brief _ _
  · refine .any fun _ => .ite (.pure (by decide)) (.any fun _ => .any fun _ => ?_)
    exact .ite (readU64_lt.then fun _ h => .pure (h64 _ h)) (.ite (readU32_lt.then fun _ h => .pure (h32 _ h)) (.ite (.ite .fail (printBytes_brief _ _)) .fail))
  · exact printBytes_brief _ _
  · refine .any fun k => ?_
    intro s a t h
    refine (printAddress_solid _ ?_ ?_ s a t h).brief <;> split <;> omega

/-- Arguments whose values have a length the app can show have a text: keys and URefs 2 to 51 bytes (Casper's have 33), optional values up to
52 but not 2 bytes (Casper's have 1, 5, 9 or 34), byte arrays up to 50 (Casper's hashes have 32). -/
theorem displayArg_solid {t len : Nat} (h11 : t = 11 ∨ t = 12 → 2 ≤ len ∧ len ≤ 51) (h13 : t = 13 → len ≤ 52 ∧ len ≠ 2)
    (h15 : t = 15 → len ≤ 50) : Yields Solid (displayArg e t len) := by
  unfold displayArg
  refine .any fun off => .ite .fail ?_
  by_cases c0 : len = 0
  · rw [if_pos c0]; exact .fail
  rw [if_neg c0]
  by_cases c : t = 3
  · rw [if_pos c]; exact readU8_lt.then fun _ h => .pure (Solid.decimal (by omega))
  rw [if_neg c]
  by_cases c : t = 4
  · rw [if_pos c]; exact readU32_lt.then fun _ h => .pure (Solid.decimal (by omega))
  rw [if_neg c]
  by_cases c : t = 5
  · rw [if_pos c]; exact readU64_lt.then fun _ h => .pure (Solid.decimal h)
  rw [if_neg c]
  by_cases c : t = 8
  · rw [if_pos c]; exact amountBignum_solid _
  rw [if_neg c]
  by_cases c : t = 11
  · have := h11 (.inl c)
    rw [if_pos c]; exact .any fun _ => .any fun _ => printBytes_solid _ (by omega) (by omega)
  rw [if_neg c]
  by_cases c : t = 12
  · have := h11 (.inr c)
    rw [if_pos c]; exact printBytes_solid _ (by omega) (by omega)
  rw [if_neg c]
  by_cases c : t = 13
  · have := h13 c
    rw [if_pos c]
    refine .any fun _ => .ite (.pure (by decide)) (.any fun _ => .any fun _ => ?_)
    refine .ite (readU64_lt.then fun _ h => .pure (Solid.decimal h)) (.ite (readU32_lt.then fun _ h => .pure (Solid.decimal (by omega))) (.ite ?_ .fail))
    by_cases c' : len < 2
    · rw [if_pos c']; exact .fail
    · rw [if_neg c']; exact printBytes_solid _ (by omega) (by omega)
  rw [if_neg c]
  by_cases c : t = 15
  · have := h15 c
    rw [if_pos c]; exact printBytes_solid _ (by omega) (by omega)
  rw [if_neg c]
  refine .ite (.any fun k => printAddress_solid _ ?_ ?_) .fail <;> split <;> omega

/-! ### Lines -/

/-- The platform's functions produce texts that are there and not too long. -/
structure Env.Regular (e : Env) : Prop where
  time : ∀ n t, e.fmtTime n = some t → Solid t

/-- The text is not too long, missing only where it may, and short where it is not divided into pages. -/
def LineFit (kv : Bytes × Bytes) : Prop :=
  Brief kv.2 ∧ (kv.2 = [] → kv.1 ∈ lackingLabels) ∧ (kv.1 ∈ singleLabels → kv.2.length ≤ 19)

theorem LineFit.solid {k v : Bytes} (h : Solid v) (hk : k ∉ singleLabels) : LineFit (k, v) := ⟨h.2, fun hv => absurd hv h.1, fun h' => absurd h' hk⟩
theorem LineFit.brief {k v : Bytes} (h : Brief v) (hl : k ∈ lackingLabels) (hk : k ∉ singleLabels) : LineFit (k, v) :=
  ⟨h, fun _ => hl, fun h' => absurd h' hk⟩
theorem LineFit.word {k v : Bytes} (h : v ≠ []) (hl : v.length ≤ 19) : LineFit (k, v) :=
  ⟨Nat.le_trans hl (by decide), fun hv => absurd hv h, fun _ => hl⟩

theorem Solid.checksum {H : Hash} {xs : Bytes} {n : Nat} (h : xs.length = n) (h1 : 0 < n) (h2 : n ≤ 199) : Solid (encodeChecksum H xs) :=
  .of_length (n := 2 * n) (by rw [encodeChecksum_length, h]) (by omega) (by omega)
theorem Solid.lower {xs : Bytes} {n : Nat} (h : xs.length = n) (h1 : 0 < n) (h2 : n ≤ 199) : Solid (lowerHex xs) :=
  .of_length (n := 2 * n) (by rw [lowerHex_length, h]) (by omega) (by omega)

theorem cstr_brief {xs : Bytes} {n : Nat} (h : xs.length ≤ n) (hn : n ≤ 399) : Brief (cstr xs) := by
  have := (List.takeWhile_prefix (p := (· != (0 : UInt8))) (l := xs)).length_le
  unfold Brief cstr
  omega
theorem showArray_brief (k : Nat) {xs : Bytes} {n : Nat} (h : xs.length ≤ n) (hn : n ≤ 399) : Yields Brief (showArray k xs) := by
  unfold showArray
  exact .ite (.pure (cstr_brief h hn)) .abort
theorem displayString_brief (off len : Nat) : Yields Brief (displayString e off len) := by
  unfold displayString
  by_cases h : len > 100
  · rw [if_pos h]; exact .fail
  rw [if_neg h]
  exact (slice_len _ _).then fun xs hx => showArray_brief _ (n := 100) (by omega) (by decide)
theorem copyItem_len (k : Nat) : Yields (fun xs => xs.length ≤ k) (copyItem e k) := by
  unfold copyItem
  refine .any fun part => .any fun off => ?_
  by_cases h : part > k ∨ part > e.buf.length - off
  · rw [if_pos h]; exact .fail
  rw [if_neg h]
  exact (slice_len _ _).then fun xs hx => .any fun _ => .pure (by omega)
theorem printfStr_brief (p n : Nat) : Yields Brief (printfStr e p n) := by
  unfold printfStr
  exact (slice_len _ _).then fun xs h => .pure (cstr_brief (n := 99) (by omega) (by decide))

theorem showArg_fit {k : Bytes} (hk : k ∈ lackingLabels) (hs : k ∉ singleLabels) (name : Bytes) (n : Nat) : Yields LineFit (showArg e k name n) := by
  unfold showArg
  exact .any fun _ => (displayArg_brief _ _).then fun v hv => .pure (.brief hv hk hs)
theorem showMotes_fit {k : Bytes} (hs : k ∉ singleLabels) (name : Bytes) (n : Nat) : Yields LineFit (showMotes e k name n) := by
  unfold showMotes
  exact .any fun _ => (displayMotes_solid _ _).then fun v hv => .pure (.solid hv hs)
theorem showArgsHash_fit (a b : Nat) {name : Bytes} (hn : name.length ≤ 100) : Yields LineFit (showArgsHash e a b name) := by
  unfold showArgsHash
  refine .any fun _ => .any fun xs => .pure (.solid ⟨by simp, ?_⟩ (by decide))
  simp only [List.length_append, encodeHex_length, Hash.len]
  rw [show (b!"-").length = 1 from rfl]
  omega

/-! ### Deploys -/

macro "fits" : tactic => `(tactic| repeat' first
  | with_reducible assumption
  | with_reducible exact Yields.fail
  | with_reducible exact Yields.abort
  | with_reducible refine Yields.ite ?_ ?_
  | with_reducible refine (printBytes_solid _ (by decide) (by decide)).then fun _ _ => ?_
  | with_reducible refine (ttlText_brief _ _).then fun _ _ => ?_
  | with_reducible refine (displayArg_brief _ _).then fun _ _ => ?_
  | with_reducible refine (displayString_brief _ _).then fun _ _ => ?_
  | with_reducible refine (printfStr_brief _ _).then fun _ _ => ?_
  | with_reducible refine readU8_lt.then fun _ _ => ?_
  | with_reducible refine readU32_lt.then fun _ _ => ?_
  | with_reducible refine readU64_lt.then fun _ _ => ?_
  | with_reducible refine parseVersion_lt.then fun _ _ => ?_
  | with_reducible refine (byteAt_lt _).then fun _ _ => ?_
  | with_reducible refine Yields.any fun _ => ?_
  | with_reducible refine showArg_fit ?_ ?_ _ _
  | with_reducible refine showMotes_fit ?_ _ _
  | with_reducible refine Yields.pure ?_
  | with_reducible exact LineFit.solid (Solid.decimal (by omega)) (by decide)
  | with_reducible exact LineFit.solid (Solid.checksum (Hash.len _ _) (by decide) (by decide)) (by decide)
  | with_reducible exact LineFit.solid (by assumption) (by decide)
  | with_reducible exact LineFit.brief (by assumption) (by decide) (by decide)
  | with_reducible exact LineFit.word (by decide) (by decide)
  | with_reducible exact LineFit.word (by assumption) (by assumption)
  | decide)

theorem itemSystemPayment_fit (it : Item) (i : Nat) : Yields LineFit (itemSystemPayment e it i) := by
  unfold itemSystemPayment
  refine .any fun _ => .any fun _ => .any fun _ => .ite .fail (.any fun _ => .any fun _ => .any fun _ => .ite .fail (.ite (.ite ?_ ?_) .fail))
  · fits
  · refine .any fun _ => .any fun _ => ?_
    exact (showArgsHash_fit _ _ (by decide)).then fun r h => .any fun _ => .pure h
theorem itemNativeTransfer_fit (it : Item) (i : Nat) : Yields LineFit (itemNativeTransfer e it i) := by
  unfold itemNativeTransfer
  refine .any fun _ => .any fun _ => .any fun _ => .ite .fail (.ite .fail (.ite (.ite ?_ .fail) ?_))
  · refine .any fun _ => .any fun _ => ?_
    exact (showArgsHash_fit _ _ (by decide)).then fun r h => .any fun _ => .pure h
  · fits
theorem renderEntryPoint_fit (epo : Nat) : Yields LineFit (renderEntryPoint e epo) := by
  unfold renderEntryPoint
  refine .any fun _ => .any fun _ => (copyItem_len _).then fun xs h => .any fun _ => ?_
  exact (showArray_brief _ h (by decide)).then fun v hv => .pure (.brief hv (by decide) (by decide))
theorem contractHash_fit : Yields LineFit (contractHash e) := by
  unfold contractHash; fits
theorem fixedByHash_fit (epo : Nat) (a b : Bool) {l : Bytes} (hl : l ≠ []) (hl' : l.length ≤ 19) (i : Nat) :
    Yields LineFit (fixedByHash e epo a b l i) := by
  have := renderEntryPoint_fit (e := e) epo
  unfold fixedByHash; fits
theorem fixedByName_fit (epo : Nat) (a b : Bool) {l : Bytes} (hl : l ≠ []) (hl' : l.length ≤ 19) (i : Nat) :
    Yields LineFit (fixedByName e epo a b l i) := by
  have := renderEntryPoint_fit (e := e) epo
  unfold fixedByName
  refine .ite ?_ (.ite ?_ ?_)
  · fits
  · refine (copyItem_len _).then fun xs h => ?_
    exact (showArray_brief _ h (by decide)).then fun v hv => .pure (.brief hv (by decide) (by decide))
  · fits
theorem fixedDelegation_fit (epo : Nat) (it : Item) (i : Nat) : Yields LineFit (fixedDelegation e epo it i) := by
  unfold fixedDelegation
  dsimp only
  refine .ite (.ite (.ite ?_ (.ite contractHash_fit ?_)) ?_) (.ite (fixedByHash_fit _ _ _ (by decide) (by decide) _)
    (.ite (fixedByHash_fit _ _ _ (by decide) (by decide) _) (.ite (fixedByName_fit _ _ _ (by decide) (by decide) _)
      (.ite (fixedByName_fit _ _ _ (by decide) (by decide) _) .fail))))
  all_goals fits
theorem itemDelegation_fit (epo : Nat) (it : Item) (i : Nat) : Yields LineFit (itemDelegation e epo it i) := by
  unfold itemDelegation
  refine .any fun _ => .ite (fixedDelegation_fit _ _ _) (.any fun _ => .ite .fail (.ite ?_ ?_))
  · refine .any fun _ => .ite (showMotes_fit (by decide) _ _) (.ite ?_ .fail)
    refine .any fun _ => .any fun _ => .any fun _ => .pure (.solid ⟨by simp, ?_⟩ (by decide))
    simp only [List.length_append, encodeHex_length, Hash.len]
    decide
  · fits

theorem pkLen_bound (h : Header) : 1 ≤ pkLen h ∧ pkLen h ≤ 34 := by
  unfold pkLen; split <;> omega

theorem getItemDeploy_fit (he : e.Regular) (epo : Nat) (d : Deploy) (i : Nat) : Yields LineFit (getItemDeploy e epo d i) := by
  unfold getItemDeploy
  refine .ite .fail (.ite ?_ (.ite ?_ (.ite ?_ (.ite ?_ (.ite ?_ ?_)))))
  · fits
  · refine .pure ?_
    have : typeLabel d ≠ [] ∧ (typeLabel d).length ≤ 19 := by
      unfold typeLabel
      repeat' split
      all_goals decide
    exact .word this.1 this.2
  · fits
  · exact .any fun _ => (printAddress_solid _ (pkLen_bound _).1 (pkLen_bound _).2).then fun v hv => .pure (.solid hv (by decide))
  · unfold headerLine
    refine .ite (.any fun _ => .any fun v => ?_) ?_
    · cases h : e.fmtTime (v / 1000) with
      | none => exact .fail
      | some t => exact .pure (.solid (he.time _ _ h) (by decide))
    · fits
  · unfold bodyLine
    refine .any fun _ => .ite (.ite (itemSystemPayment_fit _ _) .fail) (.any fun _ => .ite (.ite (itemNativeTransfer_fit _ _)
      (.ite (itemDelegation_fit _ _ _) .fail)) ?_)
    fits

/-! ### Version 1 -/

/-- Fields within the range of their C types, and an account of one of the lengths there are. -/
structure V1.Tidy (v : V1) : Prop where
  approvals : v.numApprovals < 256
  version : v.target.version < 2 ^ 32
  init : 1 ≤ v.header.initLen ∧ v.header.initLen ≤ 34

theorem paymentText_brief (n : Nat) : Yields Brief (paymentText e n) := by
  unfold paymentText
  cases h : addThousand 30 (numStr e 20 n) with
  | ok t => exact .pure (addThousand_brief (Nat.le_of_lt_succ (numStr_length _ 20 _ (by decide))) h)
  | err x => exact .pure (by decide)
  | fault x => exact .abort
theorem numStr_solid {n : Nat} (h : n < 256) : Solid (numStr e 8 n) := by
  have := decText_length n 3 (by decide) (by omega)
  unfold numStr
  rw [if_pos (by rw [decimal_eq]; omega)]
  exact .decimal (by omega)
theorem itemPricing_fit (v : V1) (i : Nat) : Yields LineFit (itemPricing e v i) := by
  have h1 : Yields (fun t => LineFit (pricingKey v i, t)) (pricingValue e v i) := by
    unfold pricingValue pricingKey
    by_cases hi : i = 0
    · rw [if_pos hi, if_pos hi]
      refine .ite (.any fun _ => .any fun _ => ?_) (.ite (.pure (.word (by decide) (by decide))) (.ite (.pure (.word (by decide) (by decide))) .fail))
      exact fun s a t h => .brief (paymentText_brief _ s a t h) (by decide) (by decide)
    rw [if_neg hi, if_neg hi]
    by_cases hp : v.header.pmode = 0 ∨ v.header.pmode = 1
    · rw [if_pos hp, if_pos hp]
      exact .any fun _ => readU8_lt.then fun x hx => .pure (.solid (numStr_solid hx) (by decide))
    · rw [if_neg hp, if_neg hp]
      exact .any fun _ => .any fun _ => fun s a t h => .solid (printBytes_solid _ (by decide) (by decide) s a t h) (by decide)
  intro s kv t h
  unfold itemPricing at h
  rw [bind_run, attempt_run] at h
  cases hr : pricingValue e v i s with
  | fault x => rw [hr] at h; cases h
  | err x u => rw [hr] at h; cases h; exact .word (by simp) (by simp)
  | ok a u => rw [hr] at h; cases h; exact h1 _ _ _ hr
theorem customHash_fit (v : V1) : Yields LineFit (customHash e v) := by unfold customHash; fits
theorem customEntry_fit (v : V1) : Yields LineFit (customEntry e v) := by unfold customEntry; fits
theorem printByHash_solid (a : Nat) : Yields Solid (printByHash e a 32) := by
  unfold printByHash
  exact (slice_len _ _).then fun xs h => .pure (byHash_solid (by rintro rfl; simp at h))
theorem itemCustom_fit (v : V1) (hv : v.Tidy) (i : Nat) : Yields LineFit (itemCustom e v i) := by
  have h0 := hv.version
  have h1 := customHash_fit (e := e) v
  have h2 := customEntry_fit (e := e) v
  have h3 : Yields LineFit (do let t ← printByHash e v.target.ptr 32; pure (b!"Address", t)) :=
    (printByHash_solid _).then fun _ h => .pure (.solid h (by decide))
  have h4 : ∀ (c : Prop) [Decidable c] {k l l' : Bytes}, LineFit (k, l) → LineFit (k, l') → LineFit (k, if c then l else l') := by
    intro c _ k l l' h h'
    split <;> assumption
  unfold itemCustom
  refine .ite .fail (.ite (.ite (.pure (h4 _ (.word (by decide) (by decide)) (.word (by decide) (by decide)))) ?_)
    (.ite (.ite (.pure (h4 _ (.word (by decide) (by decide)) (.word (by decide) (by decide)))) ?_) ?_))
  all_goals fits
theorem itemTransfer_fit (v : V1) (i : Nat) : Yields LineFit (itemTransfer e v i) := by
  unfold itemTransfer
  refine .any fun _ => .ite .fail (.ite (.any fun r => ?_) ?_)
  · rcases r with x | ⟨len, t⟩ <;> dsimp only <;> fits
  · fits
theorem itemRedelegate_fit (v : V1) (i : Nat) : Yields LineFit (itemRedelegate e v i) := by
  unfold itemRedelegate
  refine .any fun _ => .ite .fail ?_
  dsimp only
  refine .any fun _ => .any fun _ => .any fun _ => ?_
  fits
theorem itemTable_fit (v : V1) (i : Nat) : Yields LineFit (itemTable e v i) := by
  unfold itemTable
  refine .ite .fail ?_
  cases h : (argTable v.epType)[i]? with
  | none => exact .pure (.word (by decide) (by decide))
  | some r =>
    obtain ⟨k, name, m⟩ := r
    have hk : k ∈ lackingLabels ∧ k ∉ singleLabels := by
      have hm := List.mem_of_getElem? h
      have : ∀ ep, ∀ r ∈ argTable ep, r.1 ∈ lackingLabels ∧ r.1 ∉ singleLabels := by
        intro ep
        unfold argTable
        repeat' split
        all_goals decide
      exact this _ _ hm
    exact .ite (showMotes_fit hk.2 _ _) (showArg_fit hk.1 hk.2 _ _)
theorem itemAddRsv_fit (i : Nat) : Yields LineFit (itemAddRsv e i) := by
  unfold itemAddRsv
  refine .ite .fail (.any fun r => ?_)
  obtain ⟨len, t⟩ := r
  dsimp only
  fits
theorem itemCancelRsv_fit (i : Nat) : Yields LineFit (itemCancelRsv e i) := by
  unfold itemCancelRsv
  refine .ite .fail (.ite ?_ (.any fun r => ?_))
  · fits
  obtain ⟨len, t⟩ := r
  dsimp only
  fits
theorem itemBurn_fit (v : V1) (i : Nat) : Yields LineFit (itemBurn e v i) := by
  unfold itemBurn
  refine .any fun _ => .ite .fail (.any fun r => ?_)
  rcases r with x | ⟨len, t⟩ <;> dsimp only <;> fits
theorem itemEntry_fit (v : V1) (hv : v.Tidy) (i : Nat) : Yields LineFit (itemEntry e v i) := by
  unfold itemEntry
  exact .any fun _ => .ite (itemCustom_fit _ hv _) (.ite (itemTransfer_fit _ _) (.ite (itemRedelegate_fit _ _) (.ite (itemAddRsv_fit _)
    (.ite (itemCancelRsv_fit _) (.ite (itemBurn_fit _ _) (.ite (.pure (.word (by decide) (by decide))) (itemTable_fit _ _)))))))
theorem getItemV1_fit (he : e.Regular) (v : V1) (hv : v.Tidy) (i : Nat) : Yields LineFit (getItemV1 e v i) := by
  have h0 := hv.approvals
  unfold getItemV1
  refine .ite .fail ?_
  dsimp only
  refine .ite ?_ (.ite ?_ (.ite ?_ (.ite ?_ (.ite (.ite ?_ (.ite ?_ (.ite (itemPricing_fit _ _) (.ite (itemEntry_fit _ hv _) ?_)))) (.ite (itemEntry_fit _ hv _) ?_)))))
  · fits
  · refine .pure ?_
    have hi : ∀ (c : Prop) [Decidable c] (l l' : Bytes), (l ≠ [] ∧ l.length ≤ 19) → (l' ≠ [] ∧ l'.length ≤ 19) →
        (if c then l else l') ≠ [] ∧ (if c then l else l').length ≤ 19 := by
      intro c _ l l' h h'
      split <;> assumption
    have : entryName v.epType ≠ [] ∧ (entryName v.epType).length ≤ 19 := by
      unfold entryName
      repeat' first
        | exact ⟨List.cons_ne_nil _ _, by simp⟩
        | refine hi _ _ _ ?_ ?_
    exact .word this.1 this.2
  · fits
  · exact .any fun _ => .any fun _ => (printBytes_solid _ hv.init.1 (Nat.le_trans hv.init.2 (by decide))).then fun _ h => .pure (.solid h (by decide))
  · refine .any fun _ => .any fun v => ?_
    cases h : e.fmtTime (v / 1000) with
    | none => exact .fail
    | some t => exact .pure (.solid (he.time _ _ h) (by decide))
  all_goals fits

/-! ### The version of a target is a number of 32 bits -/

/-- The version stays in its range. -/
def KV {α : Type} (m : M VS α) : Prop := Keeps (fun s t => s.v.target.version < 2 ^ 32 → t.v.target.version < 2 ^ 32) m

section
variable {α β : Type}
theorem KV.bind {m : M VS α} {f : α → M VS β} (hm : KV m) (hf : ∀ a, KV (f a)) : KV (m >>= f) := Keeps.bind (fun _ _ _ h h' x => h' (h x)) hm hf
theorem KV.pure (a : α) : KV (Pure.pure a : M VS α) := Keeps.pure (fun _ h => h) a
theorem KV.fail (x : Nat) : KV (M.fail x : M VS α) := Keeps.fail (fun _ h => h) x
theorem KV.get : KV (M.get : M VS VS) := Keeps.get (fun _ h => h)
theorem KV.require (c : Prop) [Decidable c] (x : Nat) : KV (M.require c x : M VS Unit) := Keeps.require (fun _ h => h) c x
theorem KV.ite {c : Prop} [Decidable c] {m m' : M VS α} (h : c → KV m) (h' : ¬ c → KV m') : KV (if c then m else m') := by
  split
  · exact h ‹_›
  · exact h' ‹_›
theorem KV.modify {f : VS → VS} (h : ∀ s, (f s).v.target.version = s.v.target.version) : KV (M.modify f) := Keeps.modify fun s hs => by rw [h]; exact hs
theorem KV.updV {f : V1 → V1} (h : ∀ v, (f v).target.version = v.target.version) : KV (Casper.updV f) := KV.modify fun s => h s.v
theorem KV.lv (m : P α) : KV (Casper.lv m) := by
  intro s
  unfold Casper.lv
  constructor
  · intro a t h
    cases hm : m s.off with
    | ok b o => rw [hm] at h; cases h; exact fun h => h
    | err x o => rw [hm] at h; cases h
    | fault x => rw [hm] at h; cases h
  · intro a t h
    cases hm : m s.off with
    | ok b o => rw [hm] at h; cases h
    | err x o => rw [hm] at h; cases h; exact fun h => h
    | fault x => rw [hm] at h; cases h
theorem KV.onCopy (m : P α) : KV (Casper.onCopy m) := by
  intro s
  unfold Casper.onCopy
  constructor
  · intro a t h
    cases hm : m s.off with
    | ok b o => rw [hm] at h; cases h; exact fun h => h
    | err x o => rw [hm] at h; cases h
    | fault x => rw [hm] at h; cases h
  · intro a t h
    cases hm : m s.off with
    | ok b o => rw [hm] at h; cases h
    | err x o => rw [hm] at h; cases h; exact fun h => h
    | fault x => rw [hm] at h; cases h
theorem KV.atOff (x : Nat) : KV (Casper.atOff x) := by
  intro s
  unfold Casper.atOff
  constructor
  · intro a t h
    split at h
    · cases h; exact fun h => h
    · cases h
  · intro a t h
    split at h
    · cases h
    · cases h; exact fun h => h
theorem KV.incr (k : Nat) : KV (Casper.incr k) := KV.updV fun _ => rfl
theorem KV.incrExpert (k : Nat) : KV (Casper.incrExpert e k) := KV.ite (fun _ => KV.incr k) fun _ => KV.pure _

/-- A version was read and recorded. -/
theorem KV.entity {f : Nat → M VS α} (h : ∀ ver, KV (f ver)) :
    KV (Casper.lv (readEntityVersion e) >>= fun ver => Casper.updV (fun v => { v with target := { v.target with version := ver } }) >>= fun _ => f ver) := by
  have key : Yields (· < 2 ^ 32) (readEntityVersion e) := by
    unfold readEntityVersion
    exact .any fun _ => .ite readU32_lt (.pure (by decide))
  intro s
  cases hm : readEntityVersion e s.off with
  | ok b o =>
    have hb := key _ _ _ hm
    have h2 := h b ⟨o, { s.v with target := { s.v.target with version := b } }⟩
    refine ⟨fun a t h3 => ?_, fun a t h3 => ?_⟩
    · refine fun _ => h2.1 a t ?_ hb
      rw [bind_run, Casper.lv, hm] at h3
      exact h3
    · refine fun _ => h2.2 a t ?_ hb
      rw [bind_run, Casper.lv, hm] at h3
      exact h3
  | err x o =>
    refine ⟨fun a t h3 => ?_, fun a t h3 => ?_⟩
    · rw [bind_run, Casper.lv, hm] at h3; cases h3
    · rw [bind_run, Casper.lv, hm] at h3; cases h3; exact fun h => h
  | fault x =>
    refine ⟨fun a t h3 => ?_, fun a t h3 => ?_⟩
    · rw [bind_run, Casper.lv, hm] at h3; cases h3
    · rw [bind_run, Casper.lv, hm] at h3; cases h3
end

macro "keepv" : tactic => `(tactic| repeat' first
  | with_reducible assumption
  | with_reducible exact KV.fail _
  | with_reducible exact KV.pure _
  | with_reducible exact KV.get
  | with_reducible exact KV.lv _
  | with_reducible exact KV.onCopy _
  | with_reducible exact KV.atOff _
  | with_reducible exact KV.incr _
  | with_reducible exact KV.incrExpert _
  | with_reducible exact KV.require _ _
  | with_reducible refine KV.entity fun _ => ?_
  | with_reducible refine KV.bind ?_ fun _ => ?_
  | with_reducible refine KV.ite (fun _ => ?_) fun _ => ?_
  | exact KV.updV fun _ => rfl
  | exact KV.modify fun _ => rfl)

theorem KV_initiator : KV (readInitiator e) := by unfold readInitiator; keepv
theorem KV_chain : KV (readChainName e) := by unfold readChainName; keepv
theorem KV_pricing : KV (readPricing e) := by
  have : ∀ b m t, KV (pricingFields e b m t) := by intro b m t; unfold pricingFields; keepv
  unfold readPricing
  refine KV.bind (KV.lv _) fun _ => KV.bind KV.get fun _ => ?_
  dsimp only
  repeat' first
    | exact this _ _ _
    | keepv
theorem KV_header : KV (readV1Header e) := by
  have h1 := KV_initiator (e := e)
  have h2 := KV_chain (e := e)
  have h3 := KV_pricing (e := e)
  unfold readV1Header; keepv
theorem KV_stored : KV (readStored e) := by
  have : ∀ t, KV (storedTarget e t) := by intro t; unfold storedTarget; keepv
  unfold readStored
  repeat' first
    | exact this _
    | keepv
theorem KV_body : KV (readBody e) := by
  have h1 : ∀ k, KV (readKey e k) := by intro k; unfold readKey; keepv
  have h2 : KV (readArgs e) := by unfold readArgs; keepv
  have h3 : KV (readTarget e) := by
    have := KV_stored (e := e)
    unfold readTarget; keepv
  have h4 : KV (readEntryPoint e) := by
    have : ∀ x t, KV (customName e x t) := by intro x t; unfold customName; keepv
    unfold readEntryPoint
    repeat' first
      | exact this _ _
      | keepv
  have h5 : KV (readScheduling e) := by unfold readScheduling; keepv
  unfold readBody
  repeat' first
    | exact h1 _
    | keepv
theorem KV_readV1 : KV (readV1 e) := by
  have h1 : KV (readPayload e) := by
    have h1 := KV_header (e := e)
    have h2 := KV_body (e := e)
    unfold readPayload; keepv
  have h2 : KV (readApprovals e) := by unfold readApprovals; keepv
  unfold readV1; keepv

/-! ### Reviews -/

/-- The platform's functions produce texts that are there and not too long. -/
structure Platform.Regular (pl : Platform) : Prop where
  time : ∀ n t, pl.fmtTime n = some t → Solid t
  path : ∀ xs, Solid (pl.pathText xs)

/-- A line as it should be: a label of at most 11 characters; a text that on a screen of any width from 2 on is shown completely by turning the
pages, of which there are some unless the text is missing, which is possible for the listed labels only; texts not divided into pages have at
most 19 characters. -/
structure Presentable (k v : Bytes) : Prop where
  label : k ≠ [] ∧ k.length ≤ 11
  pages : ∀ w, 2 ≤ w → allPages w v = v
  there : k ∉ lackingLabels → ∀ w, 2 ≤ w → 0 < pageCount w v
  single : k ∈ singleLabels → v.length ≤ 19

theorem LineFit.presentable {k v : Bytes} (h : LineFit (k, v)) (hk : k ∈ appLabels) : Presentable k v where
  label := by
    have : ∀ k ∈ appLabels, k ≠ [] ∧ k.length ≤ 11 := by decide
    exact this k hk
  pages := fun w hw => allPages_eq (by omega) (by have h1 : v.length ≤ 399 := h.1; omega)
  there := fun hl w hw => pageCount_pos (by omega) (by have h1 : v.length ≤ 399 := h.1; omega) fun hv => hl (h.2.1 hv)
  single := h.2.2

theorem reviewItem_fit {pl : Platform} (hp : pl.Regular) {d : Dev} {r : Review} (hv : r = .tx → d.ctx.obj = .v1 → d.v1.Tidy) {i c c' : Nat} {k v : Bytes}
    (h : reviewItem pl d r i c = .ok (k, v) c') : LineFit (k, v) := by
  have he : (d.env pl).Regular := ⟨hp.time⟩
  refine (?_ : Yields LineFit (reviewItem pl d r i)) _ _ _ h
  cases r with
  | tx =>
    unfold reviewItem
    refine .any fun n => .ite .fail ?_
    unfold parserItem
    refine .ite (.ite (getItemDeploy_fit he _ _ _) .abort) (.ite ?_ .fail)
    by_cases ho : d.ctx.obj = .v1
    · rw [if_pos ho]; exact getItemV1_fit he _ (hv rfl ho) _
    · rw [if_neg ho]; exact .abort
  | message =>
    unfold reviewItem messageItem
    exact .ite .fail (.pure (.solid (.lower (Hash.len _ _) (by decide) (by decide)) (by decide)))
  | wasm =>
    unfold reviewItem wasmItem
    refine .ite (.ite ?_ (.ite ?_ .fail)) .abort
    · exact (slice_len _ _).then fun xs hx => .pure (.solid (.lower hx (by decide) (by decide)) (by decide))
    · exact .any fun _ => .any fun _ => (slice_len _ _).then fun xs hx => .pure (.solid (.lower hx (by decide) (by decide)) (by decide))
  | address =>
    unfold reviewItem addrItem
    refine .ite (.pure ?_) (.ite (.pure (.solid (hp.path _) (by decide))) .fail)
    refine LineFit.solid (k := b!"Address") (v := encodeAddr pl.blake (2 :: d.io.take 33)) ⟨?_, ?_⟩ (by decide)
    · simp [encodeAddr]
    · rw [encodeAddr_length]
      simp only [List.length_cons, List.length_take]
      omega

/-- **C80, transactions.** Let the platform's functions produce texts.  In the review of any transaction just uploaded,
accepted in whatever way, every line is presentable: on a screen of any width turning the pages shows the whole text of each line, and each line
has a page (an empty text has none) unless it is one of the lines whose text may be missing.
(Missing: texts can be missing, see `C80_chain_false`, `C80_target_false`.) -/
theorem C80_transaction_partial (pl : Platform) (hcap : pl.cap ≤ 16384) (hp : pl.Regular) (d d' : Dev) (hd : d.Ok pl) (rx : Bytes) (pin : Bool)
    (hins : rx.getD 1 0 = 2) (h : step pl d (.apdu rx pin) = (d', .pending)) (i c c' : Nat) (k v : Bytes)
    (hi : reviewItem pl d' .tx i c = .ok (k, v) c') : Presentable k v := by
  refine (reviewItem_fit hp (fun _ ho => ?_) hi).presentable (C79_labels _ _ _ _ _ _ _ _ hi)
  obtain ⟨hok, hdata, hcase⟩ := sign_pending (by omega) hd hins h
  rcases hcase with ⟨xs, s, h5, h6, rfl⟩ | ⟨xs, s, h5, h6, rfl⟩
  · cases ho
  · rw [h5] at hdata
    have hsm : Small (mkEnv pl d.expert xs) := small_data hcap hok hdata d.expert
    have hf := readV1_post hsm _ _ h6.parse
    obtain ⟨fin, n, ⟨-, h7, -⟩, -⟩ := hf.body
    obtain ⟨m, o, -, -, h8, -⟩ := hf.approvals
    have h9 := (KV_readV1 ⟨0, {}⟩).1 _ _ h6.parse (by decide)
    exact ⟨by show s.v.numApprovals < 256; rw [h8]; exact Nat.mod_lt _ (by decide), h9, h7.len_le⟩

/-- **C80, other reviews.** Every line of the review of a message, of a header to be signed without its body, and of an address has a text, and
turning the pages shows all of it. -/
theorem C80_other (pl : Platform) (hp : pl.Regular) (d : Dev) (r : Review) (hr : r ≠ .tx) (i c c' : Nat) (k v : Bytes)
    (h : reviewItem pl d r i c = .ok (k, v) c') : Presentable k v :=
  (reviewItem_fit hp (fun ht => absurd ht hr) h).presentable (C79_labels _ _ _ _ _ _ _ _ h)

/-- **C80, arguments.** Whatever the data, an argument whose value has a length the app can show has a text: keys and URefs of 2 to 51 bytes
(Casper's have 33), optional values of up to 52 but not 2 bytes (Casper's have 1, 5, 9 or 34), byte arrays of up to 50 bytes (Casper's hashes
have 32), all other arguments in any case. -/
theorem C80_argument_partial (e : Env) (t len s s' : Nat) (text : Bytes) (h11 : t = 11 ∨ t = 12 → 2 ≤ len ∧ len ≤ 51)
    (h13 : t = 13 → len ≤ 52 ∧ len ≠ 2) (h15 : t = 15 → len ≤ 50) (h : displayArg e t len s = .ok text s') (w : Nat) (hw : 2 ≤ w) :
    0 < pageCount w text ∧ allPages w text = text := by
  have h1 := displayArg_solid h11 h13 h15 _ _ _ h
  exact ⟨pageCount_pos (by omega) (by have := h1.2; omega) h1.1, allPages_eq (by omega) (by have := h1.2; omega)⟩

/-- A transfer on a chain without name. -/
def sampleNameless : DeploySpec := { sampleDeploy with chain := [] }

/-- **C80 fails.** A transfer for a chain without name is accepted; its line "Chain ID" has no text, hence no page. -/
theorem C80_chain_false : sampleNameless.Ok ∧
    outcome (0 :: sampleNameless.tx Blake.H []) 2 6 =
      ⟨some .pending, signatureReply samplePl (samplePath 0) (samplePl.sha256 (Blake.H (sampleNameless.header Blake.H).encode)),
        some (b!"Chain ID", []), some (b!"Amount", motesOf 24500000000)⟩ ∧ ∀ w, 2 ≤ w → pageCount w [] = 0 := by
  refine ⟨⟨rfl, by decide, by decide, by decide, sampleDeploy_ok.deps⟩, by decide +kernel, fun w hw => ?_⟩
  unfold pageCount
  rw [List.length_nil, Nat.zero_add, Nat.div_eq_of_lt (by omega)]

/-- **C80 fails.** A transfer to a target of 64 bytes is accepted; its line "Target" has no text, hence no page: nothing says where the tokens go. -/
theorem C80_target_false : (run samplePl (Dev.init samplePl) (sampleUpload (0 :: (sampleTo (List.replicate 64 0x11) (.byteArray 64)).tx Blake.H []))).2.getLast? =
      some .pending ∧
    targetShown (List.replicate 64 0x11) (.byteArray 64) = .ok (b!"Target", []) () := by decide +kernel

/-- The sample platform is regular; the lines of the sample transfer; 64 digits on a screen of 17 characters. -/
example : samplePl.Regular ∧ (outcome (0 :: sampleDeploy.tx Blake.H []) 2 6).line' = some (b!"Amount", b!"24 500 000 000 motes") ∧
    pageCount 17 (List.replicate 64 0x31) = 4 ∧ page 17 (List.replicate 64 0x31) 3 = List.replicate 13 0x31 := by
  refine ⟨⟨fun n t h => ?_, fun _ => ?_⟩, by decide +kernel, by decide, by decide⟩
  · cases h; decide
  · show Solid b!"m/44'/506'/0'/0/0"; decide

end Casper
