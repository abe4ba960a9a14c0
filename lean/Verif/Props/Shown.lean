import Verif.Spec.Shown
import Verif.Lib.Text
import Verif.Props.Trailing
import Verif.Props.RenderV1
/-
C79: labels and texts of a review.
-/
namespace Casper
open M

/-- Whatever `m` succeeds with has the property. -/
def Yields {σ α : Type} (Q : α → Prop) (m : M σ α) : Prop := ∀ s a t, m s = .ok a t → Q a

section
variable {σ α β : Type} {Q : α → Prop}
theorem Yields.pure {a : α} (h : Q a) : Yields Q (Pure.pure a : M σ α) := by
  intro s b t hb; cases hb; exact h
theorem Yields.fail {x : Nat} : Yields Q (M.fail x : M σ α) := by intro s b t hb; cases hb
theorem Yields.abort {x : Fault} : Yields Q (M.abort x : M σ α) := by intro s b t hb; cases hb
theorem Yields.then {R : β → Prop} {m : M σ β} {f : β → M σ α} (hm : Yields R m) (hf : ∀ b, R b → Yields Q (f b)) : Yields Q (m >>= f) := by
  intro s a t h
  obtain ⟨b, u, h1, h2⟩ := bind_eq_ok.1 h
  exact hf b (hm _ _ _ h1) _ _ _ h2
theorem Yields.any {m : M σ β} {f : β → M σ α} (hf : ∀ b, Yields Q (f b)) : Yields Q (m >>= f) :=
  Yields.then (R := fun _ => True) (fun _ _ _ _ => trivial) fun b _ => hf b
theorem Yields.ite {c : Prop} [Decidable c] {m m' : M σ α} (h : Yields Q m) (h' : Yields Q m') : Yields Q (if c then m else m') := by
  split <;> assumption
end

/-! ### Formatting yields visible characters -/

theorem Visible.append {xs ys : Bytes} (h : Visible xs) (h' : Visible ys) : Visible (xs ++ ys) := fun c hc => (List.mem_append.1 hc).elim (h c) (h' c)
theorem Visible.take {xs : Bytes} (h : Visible xs) (n : Nat) : Visible (xs.take n) := fun c hc => h c (List.mem_of_mem_take hc)
theorem Visible.drop {xs : Bytes} (h : Visible xs) (n : Nat) : Visible (xs.drop n) := fun c hc => h c (List.mem_of_mem_drop hc)
theorem Visible.cons {x : UInt8} {xs : Bytes} (hx : 32 ≤ x.toNat ∧ x.toNat ≤ 126) (h : Visible xs) : Visible (x :: xs) := by
  intro c hc
  rcases List.mem_cons.1 hc with rfl | hc
  · exact hx
  · exact h c hc
theorem Visible.ite {c : Prop} [Decidable c] {xs ys : Bytes} (h : Visible xs) (h' : Visible ys) : Visible (if c then xs else ys) := by
  split <;> assumption
theorem Visible.nil : Visible [] := by intro c hc; cases hc

theorem Visible.decimal (n : Nat) : Visible (decimal n) := by
  rw [decimal_eq]
  intro c hc
  have := decText_digit n c hc
  have h1 := UInt8.le_iff_toNat_le.1 this.1
  have h2 := UInt8.le_iff_toNat_le.1 this.2
  simp at h1 h2
  omega

theorem hexChar_visible : ∀ n, n < 16 → 32 ≤ (hexChar n).toNat ∧ (hexChar n).toNat ≤ 126 ∧ 32 ≤ (toUpper (hexChar n)).toNat ∧ (toUpper (hexChar n)).toNat ≤ 126 := by
  decide

theorem nibbles_lt (xs : Bytes) : ∀ n ∈ nibbles xs, n < 16 := by
  induction xs with
  | nil => intro n hn; cases hn
  | cons b bs ih =>
    intro n hn
    have := b.toNat_lt
    rcases List.mem_cons.1 hn with rfl | hn
    · omega
    rcases List.mem_cons.1 hn with rfl | hn
    · omega
    · exact ih n hn

theorem encLoop_visible (h : Bytes) : ∀ (ns : List Nat) (i o : Nat), (∀ n ∈ ns, n < 16) → Visible (encLoop h ns i o) := by
  intro ns
  induction ns with
  | nil => intro i o _; exact .nil
  | cons n ns ih =>
    intro i o hn
    have h1 := hexChar_visible n (hn n (by simp))
    have h2 : ∀ i o, Visible (encLoop h ns i o) := fun i o => ih i o fun m hm => hn m (by simp [hm])
    unfold encLoop
    dsimp only
    split
    · have h3 : 32 ≤ (if hashBit h i o then toUpper (hexChar n) else hexChar n).toNat ∧
          (if hashBit h i o then toUpper (hexChar n) else hexChar n).toNat ≤ 126 := by split <;> omega
      split
      · exact .cons h3 (h2 _ _)
      · exact .cons h3 (h2 _ _)
    · exact .cons ⟨h1.1, h1.2.1⟩ (h2 _ _)

theorem Visible.checksum (H : Hash) (xs : Bytes) : Visible (encodeChecksum H xs) := encLoop_visible _ _ _ _ (nibbles_lt xs)
theorem Visible.encodeHex (xs : Bytes) : Visible (encodeHex xs) := encLoop_visible _ _ _ _ (nibbles_lt xs)
theorem Visible.lowerHex (xs : Bytes) : Visible (lowerHex xs) := by
  intro c hc
  obtain ⟨n, hn, rfl⟩ := List.mem_map.1 hc
  have := hexChar_visible n (nibbles_lt xs n hn)
  omega
theorem Visible.addr (H : Hash) (xs : Bytes) : Visible (encodeAddr H xs) := by
  cases xs with
  | nil => exact .nil
  | cons p xs =>
    have := p.toNat_lt
    refine .cons ?_ (.cons ?_ (.checksum H xs))
    · rw [UInt8.toNat_ofNat', Nat.mod_eq_of_lt (by omega)]; omega
    · rw [UInt8.toNat_ofNat', Nat.mod_eq_of_lt (by omega)]; omega

theorem sepLoop_visible (max : Nat) : ∀ (k step : Nat) (s t : Bytes), Visible s → sepLoop max k step s = .ok t → Visible t := by
  intro k
  induction k with
  | zero => intro step s t hs h; cases h; exact hs
  | succ k ih =>
    intro step s t hs h
    unfold sepLoop at h
    split at h
    · cases hc : insertChar s max (k + 1) 0x20 with
      | err x => rw [hc] at h; cases h
      | fault x => rw [hc] at h; cases h
      | ok s' =>
        rw [hc] at h
        refine ih _ _ _ ?_ h
        unfold insertChar at hc
        split at hc
        · cases hc
        split at hc
        · cases hc
        split at hc
        · cases hc
        injection hc with hc
        rw [← hc]
        exact (hs.take _).append (.cons (by decide) (hs.drop _))
    · exact ih _ _ _ hs h

/-- What `find_end_of_number` finds is the end of the digits. -/
theorem findEnd_le (ds : Bytes) (size : Nat) : ∀ (k i n : Nat), findEndFrom (ds ++ List.replicate (size - ds.length) 0) size k i = some n →
    ds ≠ [] → i ≤ ds.length → n ≤ ds.length := by
  intro k
  induction k with
  | zero => intro i n h; cases h
  | succ k ih =>
    intro i n h hd hi
    unfold findEndFrom at h
    split at h
    · rename_i hs
      split at h
      · injection h with h; omega
      · rename_i hc
        by_cases hl : i = ds.length
        · exfalso
          apply hc
          refine ⟨?_, ?_⟩
          · rw [List.getD_eq_getElem?_getD, List.getElem?_append_right (by omega), List.getElem?_replicate, if_pos (by omega)]
            rfl
          · rintro rfl; exact hd (List.eq_nil_of_length_eq_zero hl.symm)
        · exact ih _ _ h hd (by omega)
    · cases h

theorem motesText_yields {ds : Bytes} (hd : Visible ds) (hne : ds ≠ []) : Yields Visible (motesText ds) := by
  intro s a t h
  unfold motesText at h
  cases hn : findEndOfNumber (ds ++ List.replicate (400 - ds.length) 0) 400 with
  | none => rw [hn] at h; cases h
  | some n =>
  rw [hn] at h
  dsimp only at h
  have hle : n ≤ ds.length := findEnd_le _ _ _ _ _ hn hne (by omega)
  cases hr : addThousands ((ds ++ List.replicate (400 - ds.length) 0).take n) 400 with
  | err x => rw [hr] at h; cases h
  | fault x => rw [hr] at h; cases h
  | ok r =>
  rw [hr] at h
  dsimp only at h
  by_cases hl : r.length + 6 ≥ 400
  · rw [if_pos hl] at h; cases h
  rw [if_neg hl] at h
  cases h
  refine .append ?_ (by decide)
  unfold addThousands at hr
  split at hr
  · cases hr
  refine sepLoop_visible _ _ _ _ _ ?_ hr
  rw [List.take_append_of_le_length hle]
  exact hd.take _

theorem decimal_ne (n : Nat) : decimal n ≠ [] := by
  rw [decimal_eq]; exact decText_ne_nil n

theorem groupRest_visible (xs : Bytes) : ∀ k, Visible xs → Visible (groupRest xs k) := by
  induction xs with
  | nil => intro k _; exact .nil
  | cons c cs ih =>
    intro k h
    have h1 := h c (by simp)
    have h2 : Visible cs := fun x hx => h x (by simp [hx])
    unfold groupRest
    split
    · exact .cons (by decide) (.cons h1 (ih _ h2))
    · exact .cons h1 (ih _ h2)

theorem addThousand_visible {k : Nat} {xs t : Bytes} (h : Visible xs) (ht : addThousand k xs = .ok t) : Visible t := by
  unfold addThousand at ht
  split at ht
  · cases ht; exact Visible.take (by decide) _
  dsimp only at ht
  split at ht
  · split at ht
    · cases ht; exact h
    · cases ht
  generalize (xs.takeWhile (· != 0x2e)).length + ((xs.takeWhile (· != 0x2e)).length - 1) / 3 + _ = needed at ht
  by_cases hl : k ≤ needed
  · rw [if_pos hl] at ht; cases ht
  rw [if_neg hl] at ht
  injection ht with ht
  rw [← ht]
  refine .append (.append (h.take _) (groupRest_visible _ _ ((h.take _).drop _))) ?_
  split
  · exact h.drop _
  · exact .nil

theorem ttlPart_visible {out unit : Bytes} (h : Visible out) (hu : Visible unit) (n : Nat) : Visible (ttlPart out n unit) := by
  unfold ttlPart
  split
  · refine .append (.append (.append h ?_) (.decimal n)) hu
    split
    · decide
    · exact .nil
  · exact h

theorem ttlText_yields (v k : Nat) : Yields Visible (ttlText v k) := by
  unfold ttlText
  refine .ite .fail ?_
  dsimp only
  refine .ite .fail (.pure ?_)
  refine ttlPart_visible (ttlPart_visible (ttlPart_visible ?_ (by decide) _) (by decide) _) (by decide) _
  split
  · decide
  split
  · exact (Visible.decimal _).append (by decide)
  · exact .nil

theorem byHashLoop_visible (xs : Bytes) : ∀ acc, Visible acc → Visible (byHashLoop xs acc) := by
  induction xs with
  | nil => intro acc h; exact h
  | cons b bs ih => intro acc h; exact ih _ (h.append ((Visible.decimal _).take _))

/-! ### Showing arguments -/

variable {e : Env}

theorem printBytes_yields (off len : Nat) : Yields Visible (printBytes e off len) := by
  unfold printBytes
  exact .ite (.pure .nil) (.ite .abort (.any fun _ => .ite .abort (.pure (.checksum _ _))))
theorem printAddress_yields (off len : Nat) : Yields Visible (printAddress e off len) := by
  unfold printAddress
  exact .any fun _ => .pure (.addr _ _)
theorem amountBignum_yields (len : Nat) : Yields Visible (amountBignum e len) := by
  unfold amountBignum
  exact .any fun _ => .any fun _ => motesText_yields (.decimal _) (decimal_ne _)
theorem displayMotes_yields (t len : Nat) : Yields Visible (displayMotes e t len) := by
  unfold displayMotes
  exact .any fun _ => .ite .fail (.ite .fail (.ite (.any fun _ => motesText_yields (.decimal _) (decimal_ne _))
    (.ite (.any fun _ => motesText_yields (.decimal _) (decimal_ne _)) (.ite (amountBignum_yields _) .fail))))
theorem displayArg_yields (t len : Nat) : Yields Visible (displayArg e t len) := by
  unfold displayArg
  refine .any fun _ => .ite .fail (.ite .fail (.ite ?_ (.ite ?_ (.ite ?_ (.ite ?_ (.ite ?_ (.ite ?_ (.ite ?_ (.ite ?_ (.ite ?_ .fail))))))))))
  · exact .any fun _ => .pure (.decimal _)
  · exact .any fun _ => .pure (.decimal _)
  · exact .any fun _ => .pure (.decimal _)
  · exact amountBignum_yields _
  · exact .any fun _ => .any fun _ => printBytes_yields _ _
  · exact printBytes_yields _ _
  · refine .any fun _ => .ite (.pure (by decide)) (.any fun _ => .any fun _ => ?_)
    exact .ite (.any fun _ => .pure (.decimal _)) (.ite (.any fun _ => .pure (.decimal _)) (.ite (.ite .fail (printBytes_yields _ _)) .fail))
  · exact printBytes_yields _ _
  · exact .any fun _ => printAddress_yields _ _

/-- The formatting functions of the platform produce visible characters. -/
structure Env.Formats (e : Env) : Prop where
  time : ∀ n t, e.fmtTime n = some t → Visible t
  overlong : ∀ k n, Visible (e.overlong k n)

/-- The label is one of the app's, the text consists of visible characters or is a part of the data, up to a zero byte. -/
def LineOk (e : Env) (kv : Bytes × Bytes) : Prop :=
  kv.1 ∈ appLabels ∧ (e.Formats → Visible kv.2 ∨ (kv.1 ∈ quotingLabels ∧ kv.2 <:+: e.buf ∧ 0 ∉ kv.2))

theorem LineOk.own {k v : Bytes} (hk : k ∈ appLabels) (hv : Visible v) : LineOk e (k, v) := ⟨hk, fun _ => .inl hv⟩
theorem LineOk.quoted {k v : Bytes} (hk : k ∈ appLabels) (hq : k ∈ quotingLabels) (hv : v <:+: e.buf ∧ 0 ∉ v) : LineOk e (k, v) := ⟨hk, fun _ => .inr ⟨hq, hv⟩⟩

/-- Same for a text alone. -/
abbrev Quoted (e : Env) (v : Bytes) : Prop := v <:+: e.buf ∧ 0 ∉ v

theorem slice_yields (off n : Nat) : Yields (fun xs => xs <:+: e.buf) (slice e off n) := by
  intro s xs t h
  obtain ⟨a, b, h1, h2⟩ := (slice_eq_ok.1 h).1
  exact ⟨a, b, h1.symm⟩

theorem cstr_quoted {xs : Bytes} (h : xs <:+: e.buf) : Quoted e (cstr xs) := by
  refine ⟨(List.takeWhile_prefix _).isInfix.trans h, fun hc => ?_⟩
  have := List.all_eq_true.1 (List.all_takeWhile (p := (· != 0)) (l := xs)) 0 hc
  simp at this

theorem Visible.cstr {xs : Bytes} (h : Visible xs) : Visible (cstr xs) := fun c hc => h c ((List.takeWhile_prefix _).subset hc)

theorem showArray_yields (k : Nat) {xs : Bytes} (h : xs <:+: e.buf) : Yields (Quoted e) (showArray k xs) := by
  unfold showArray
  exact .ite (.pure (cstr_quoted h)) .abort

theorem displayString_yields (off len : Nat) : Yields (Quoted e) (displayString e off len) := by
  unfold displayString
  exact .ite .fail ((slice_yields _ _).then fun xs h => showArray_yields _ h)

theorem copyItem_yields (k : Nat) : Yields (fun xs => xs <:+: e.buf) (copyItem e k) := by
  unfold copyItem
  exact .any fun _ => .any fun _ => .ite .fail ((slice_yields _ _).then fun xs h => .any fun _ => .pure h)

theorem printfStr_yields (p n : Nat) : Yields (Quoted e) (printfStr e p n) := by
  unfold printfStr
  exact (slice_yields _ _).then fun xs h => .pure (cstr_quoted h)

theorem showArg_yields {k : Bytes} (hk : k ∈ appLabels) (name : Bytes) (n : Nat) : Yields (LineOk e) (showArg e k name n) := by
  unfold showArg
  exact .any fun _ => (displayArg_yields _ _).then fun v hv => .pure (.own hk hv)
theorem showMotes_yields {k : Bytes} (hk : k ∈ appLabels) (name : Bytes) (n : Nat) : Yields (LineOk e) (showMotes e k name n) := by
  unfold showMotes
  exact .any fun _ => (displayMotes_yields _ _).then fun v hv => .pure (.own hk hv)
theorem showArgsHash_yields (a b : Nat) {name : Bytes} (hn : Visible name) : Yields (LineOk e) (showArgsHash e a b name) := by
  unfold showArgsHash
  exact .any fun _ => .any fun _ => .pure (.own (by decide) ((hn.append (by decide)).append (.encodeHex _)))

/-! ### Deploys -/

macro "lines" : tactic => `(tactic| repeat' first
  | with_reducible assumption
  | with_reducible exact Yields.fail
  | with_reducible exact Yields.abort
  | with_reducible refine Yields.ite ?_ ?_
  | with_reducible refine (printBytes_yields _ _).then fun _ _ => ?_
  | with_reducible refine (printAddress_yields _ _).then fun _ _ => ?_
  | with_reducible refine (ttlText_yields _ _).then fun _ _ => ?_
  | with_reducible refine (displayArg_yields _ _).then fun _ _ => ?_
  | with_reducible refine (displayString_yields _ _).then fun _ _ => ?_
  | with_reducible refine (printfStr_yields _ _).then fun _ _ => ?_
  | with_reducible refine Yields.any fun _ => ?_
  | with_reducible refine showArg_yields ?_ _ _
  | with_reducible refine showMotes_yields ?_ _ _
  | with_reducible refine showArgsHash_yields _ _ ?_
  | with_reducible refine Yields.pure ?_
  | with_reducible exact LineOk.own (by decide) (Visible.decimal _)
  | with_reducible exact LineOk.own (by decide) (Visible.checksum _ _)
  | with_reducible exact LineOk.own (by decide) (Visible.lowerHex _)
  | with_reducible exact LineOk.own (by decide) (by assumption)
  | with_reducible exact LineOk.quoted (by decide) (by decide) (by assumption)
  | with_reducible exact LineOk.own (by decide) (by decide)
  | decide)

theorem itemSystemPayment_yields (it : Item) (i : Nat) : Yields (LineOk e) (itemSystemPayment e it i) := by
  unfold itemSystemPayment
  refine .any fun _ => .any fun _ => .any fun _ => .ite .fail (.any fun _ => .any fun _ => .any fun _ => .ite .fail (.ite (.ite ?_ ?_) .fail))
  · lines
  · refine .any fun _ => .any fun _ => ?_
    exact (showArgsHash_yields _ _ (by decide)).then fun r h => .any fun _ => .pure h
theorem itemNativeTransfer_yields (it : Item) (i : Nat) : Yields (LineOk e) (itemNativeTransfer e it i) := by
  unfold itemNativeTransfer
  refine .any fun _ => .any fun _ => .any fun _ => .ite .fail (.ite .fail (.ite (.ite ?_ .fail) ?_))
  · refine .any fun _ => .any fun _ => ?_
    exact (showArgsHash_yields _ _ (by decide)).then fun r h => .any fun _ => .pure h
  · lines
theorem renderEntryPoint_yields (epo : Nat) : Yields (LineOk e) (renderEntryPoint e epo) := by
  unfold renderEntryPoint
  refine .any fun _ => .any fun _ => (copyItem_yields _).then fun xs h => .any fun _ => ?_
  exact (showArray_yields _ h).then fun v hv => .pure (.quoted (by decide) (by decide) hv)
theorem contractHash_yields : Yields (LineOk e) (contractHash e) := by
  unfold contractHash; lines
theorem fixedByHash_yields (epo : Nat) (a b : Bool) {l : Bytes} (hl : Visible l) (i : Nat) : Yields (LineOk e) (fixedByHash e epo a b l i) := by
  have := renderEntryPoint_yields (e := e) epo
  unfold fixedByHash; lines
theorem fixedByName_yields (epo : Nat) (a b : Bool) {l : Bytes} (hl : Visible l) (i : Nat) : Yields (LineOk e) (fixedByName e epo a b l i) := by
  have := renderEntryPoint_yields (e := e) epo
  unfold fixedByName
  refine .ite ?_ (.ite ?_ ?_)
  · lines
  · refine (copyItem_yields _).then fun xs h => ?_
    exact (showArray_yields _ h).then fun v hv => .pure (.quoted (by decide) (by decide) hv)
  · lines
theorem fixedDelegation_yields (epo : Nat) (it : Item) (i : Nat) : Yields (LineOk e) (fixedDelegation e epo it i) := by
  unfold fixedDelegation
  dsimp only
  refine .ite (.ite (.ite ?_ (.ite contractHash_yields ?_)) ?_) (.ite (fixedByHash_yields _ _ _ (by decide) _)
    (.ite (fixedByHash_yields _ _ _ (by decide) _) (.ite (fixedByName_yields _ _ _ (by decide) _) (.ite (fixedByName_yields _ _ _ (by decide) _) .fail))))
  all_goals lines
theorem itemDelegation_yields (epo : Nat) (it : Item) (i : Nat) : Yields (LineOk e) (itemDelegation e epo it i) := by
  unfold itemDelegation
  refine .any fun _ => .ite (fixedDelegation_yields _ _ _) (.any fun _ => .ite .fail (.ite ?_ ?_))
  · refine .any fun _ => .ite (showMotes_yields (by decide) _ _) (.ite ?_ .fail)
    exact .any fun _ => .any fun _ => .any fun _ => .pure (.own (by decide) (.append (by decide) (.encodeHex _)))
  · lines

theorem getItemDeploy_yields (epo : Nat) (d : Deploy) (i : Nat) : Yields (LineOk e) (getItemDeploy e epo d i) := by
  unfold getItemDeploy
  refine .ite .fail (.ite ?_ (.ite ?_ (.ite ?_ (.ite ?_ (.ite ?_ ?_)))))
  · lines
  · refine .pure (.own (by decide) ?_)
    unfold typeLabel
    exact .ite (by decide) (.ite (by decide) (.ite (by decide) (.ite (by decide) (by decide))))
  · lines
  · lines
  · unfold headerLine
    refine .ite (.any fun _ => .any fun v => ?_) ?_
    · cases h : e.fmtTime (v / 1000) with
      | none => exact .fail
      | some t => exact .pure ⟨show b!"Timestamp" ∈ appLabels by decide, fun he => .inl (he.time _ _ h)⟩
    · lines
  · unfold bodyLine
    refine .any fun _ => .ite (.ite (itemSystemPayment_yields _ _) .fail) (.any fun _ => .ite (.ite (itemNativeTransfer_yields _ _)
      (.ite (itemDelegation_yields _ _ _) .fail)) ?_)
    lines

/-! ### Version 1 -/

theorem numStr_visible (he : e.Formats) (k n : Nat) : Visible (numStr e k n) := by
  unfold numStr
  split
  · exact .decimal n
  · exact (he.overlong _ _).cstr.take _
theorem paymentText_yields (he : e.Formats) (n : Nat) : Yields Visible (paymentText e n) := by
  unfold paymentText
  cases h : addThousand 30 (numStr e 20 n) with
  | ok t => exact .pure (addThousand_visible (numStr_visible he _ _) h)
  | err x => exact .pure .nil
  | fault x => exact .abort
theorem pricingValue_yields (he : e.Formats) (v : V1) (i : Nat) : Yields Visible (pricingValue e v i) := by
  unfold pricingValue
  exact .ite (.ite (.any fun _ => .any fun _ => paymentText_yields he _) (.ite (.pure (by decide)) (.ite (.pure (by decide)) .fail)))
    (.ite (.any fun _ => .any fun _ => .pure (numStr_visible he _ _)) (.any fun _ => .any fun _ => printBytes_yields _ _))
theorem itemPricing_yields (v : V1) (i : Nat) : Yields (LineOk e) (itemPricing e v i) := by
  have hk : pricingKey v i ∈ appLabels := by
    have : ∀ (c c' : Prop) [Decidable c] [Decidable c'], (if c then b!"Payment" else if c' then b!"Max gs prce" else b!"Receipt") ∈ appLabels := by
      intro c c' _ _
      by_cases h : c
      · rw [if_pos h]; decide
      rw [if_neg h]
      by_cases h : c'
      · rw [if_pos h]; decide
      · rw [if_neg h]; decide
    exact this _ _
  intro s kv t h
  unfold itemPricing at h
  rw [bind_run, attempt_run] at h
  cases hr : pricingValue e v i s with
  | fault x => rw [hr] at h; cases h
  | err x u => rw [hr] at h; cases h; exact .own hk (by decide)
  | ok a u => rw [hr] at h; cases h; exact ⟨hk, fun he => .inl (pricingValue_yields he v i _ _ _ hr)⟩
theorem customHash_yields (v : V1) : Yields (LineOk e) (customHash e v) := by unfold customHash; lines
theorem customEntry_yields (v : V1) : Yields (LineOk e) (customEntry e v) := by unfold customEntry; lines
theorem printByHash_yields (a b : Nat) : Yields Visible (printByHash e a b) := by
  unfold printByHash; exact .any fun _ => .pure (byHashLoop_visible _ _ .nil)
theorem itemCustom_yields (v : V1) (i : Nat) : Yields (LineOk e) (itemCustom e v i) := by
  have h1 := customHash_yields (e := e) v
  have h2 := customEntry_yields (e := e) v
  have h3 : Yields (LineOk e) (do let t ← printByHash e v.target.ptr 32; pure (b!"Address", t)) :=
    (printByHash_yields _ _).then fun _ h => .pure (.own (by decide) h)
  unfold itemCustom
  refine .ite .fail (.ite (.ite (.pure (.own (by decide) (.ite (by decide) (by decide)))) ?_)
    (.ite (.ite (.pure (.own (by decide) (.ite (by decide) (by decide)))) ?_) ?_))
  all_goals lines
theorem itemTransfer_yields (v : V1) (i : Nat) : Yields (LineOk e) (itemTransfer e v i) := by
  unfold itemTransfer
  refine .any fun _ => .ite .fail (.ite (.any fun r => ?_) ?_)
  · rcases r with x | ⟨len, t⟩ <;> dsimp only <;> lines
  · lines
theorem itemRedelegate_yields (v : V1) (i : Nat) : Yields (LineOk e) (itemRedelegate e v i) := by
  unfold itemRedelegate
  refine .any fun _ => .ite .fail ?_
  dsimp only
  refine .any fun _ => .any fun _ => .any fun _ => ?_
  lines
theorem itemTable_yields (v : V1) (i : Nat) : Yields (LineOk e) (itemTable e v i) := by
  unfold itemTable
  refine .ite .fail ?_
  cases h : (argTable v.epType)[i]? with
  | none => exact .pure (.own (by decide) (by decide))
  | some r =>
    obtain ⟨k, name, m⟩ := r
    have hk : k ∈ appLabels := by
      have hm := List.mem_of_getElem? h
      have : ∀ ep, ∀ r ∈ argTable ep, r.1 ∈ appLabels := by
        intro ep
        unfold argTable
        repeat' split
        all_goals decide
      exact this _ _ hm
    exact .ite (showMotes_yields hk _ _) (showArg_yields hk _ _)
theorem itemAddRsv_yields (i : Nat) : Yields (LineOk e) (itemAddRsv e i) := by
  unfold itemAddRsv
  refine .ite .fail (.any fun r => ?_)
  obtain ⟨len, t⟩ := r
  dsimp only
  lines
theorem itemCancelRsv_yields (i : Nat) : Yields (LineOk e) (itemCancelRsv e i) := by
  unfold itemCancelRsv
  refine .ite .fail (.ite ?_ (.any fun r => ?_))
  · lines
  obtain ⟨len, t⟩ := r
  dsimp only
  lines
theorem itemBurn_yields (v : V1) (i : Nat) : Yields (LineOk e) (itemBurn e v i) := by
  unfold itemBurn
  refine .any fun _ => .ite .fail (.any fun r => ?_)
  rcases r with x | ⟨len, t⟩ <;> dsimp only <;> lines
theorem itemEntry_yields (v : V1) (i : Nat) : Yields (LineOk e) (itemEntry e v i) := by
  unfold itemEntry
  exact .any fun _ => .ite (itemCustom_yields _ _) (.ite (itemTransfer_yields _ _) (.ite (itemRedelegate_yields _ _) (.ite (itemAddRsv_yields _)
    (.ite (itemCancelRsv_yields _) (.ite (itemBurn_yields _ _) (.ite (.pure (.own (by decide) (by decide))) (itemTable_yields _ _)))))))
theorem getItemV1_yields (v : V1) (i : Nat) : Yields (LineOk e) (getItemV1 e v i) := by
  unfold getItemV1
  refine .ite .fail ?_
  dsimp only
  refine .ite ?_ (.ite ?_ (.ite ?_ (.ite ?_ (.ite (.ite ?_ (.ite ?_ (.ite (itemPricing_yields _ _) (.ite (itemEntry_yields _ _) ?_)))) (.ite (itemEntry_yields _ _) ?_)))))
  · lines
  · refine .pure (.own (by decide) ?_)
    unfold entryName
    repeat' first
      | refine Visible.ite ?_ ?_
      | decide
  · lines
  · lines
  · refine .any fun _ => .any fun v => ?_
    cases h : e.fmtTime (v / 1000) with
    | none => exact .fail
    | some t => exact .pure ⟨show b!"Timestamp" ∈ appLabels by decide, fun he => .inl (he.time _ _ h)⟩
  all_goals lines

/-! ### Reviews -/

/-- The formatting functions of the platform produce visible characters: times, numbers too long for their array, key paths. -/
structure Platform.Formats (pl : Platform) : Prop where
  time : ∀ n t, pl.fmtTime n = some t → Visible t
  overlong : ∀ k n, Visible (pl.overlong k n)
  path : ∀ xs, Visible (pl.pathText xs)

theorem reviewItem_line {pl : Platform} {d : Dev} {r : Review} {i c c' : Nat} {k v : Bytes} (h : reviewItem pl d r i c = .ok (k, v) c') :
    k ∈ appLabels ∧ (pl.Formats → Visible v ∨ (r = .tx ∧ k ∈ quotingLabels ∧ v <:+: (d.env pl).buf ∧ 0 ∉ v)) := by
  have key : ∀ {m : P (Bytes × Bytes)}, Yields (LineOk (d.env pl)) m → m c = .ok (k, v) c' → r = .tx →
      k ∈ appLabels ∧ (pl.Formats → Visible v ∨ (r = .tx ∧ k ∈ quotingLabels ∧ v <:+: (d.env pl).buf ∧ 0 ∉ v)) := by
    intro m hm h1 hr
    obtain ⟨h2, h3⟩ := hm _ _ _ h1
    exact ⟨h2, fun hp => (h3 ⟨hp.time, hp.overlong⟩).imp_right fun h4 => ⟨hr, h4⟩⟩
  cases r with
  | tx =>
    refine key (m := reviewItem pl d .tx i) ?_ h rfl
    unfold reviewItem
    refine .any fun n => .ite .fail ?_
    unfold parserItem
    exact .ite (.ite (getItemDeploy_yields _ _ _) .abort) (.ite (.ite (getItemV1_yields _ _) .abort) .fail)
  | message =>
    have hm : Yields (fun kv : Bytes × Bytes => kv.1 ∈ appLabels ∧ Visible kv.2) (reviewItem pl d .message i) := by
      unfold reviewItem messageItem
      exact .ite .fail (.pure ⟨show b!"Msg hash" ∈ appLabels by decide, .lowerHex _⟩)
    obtain ⟨h1, h2⟩ := hm _ _ _ h
    exact ⟨h1, fun _ => .inl h2⟩
  | wasm =>
    have hm : Yields (fun kv : Bytes × Bytes => kv.1 ∈ appLabels ∧ Visible kv.2) (reviewItem pl d .wasm i) := by
      unfold reviewItem wasmItem
      exact .ite (.ite (.any fun _ => .pure ⟨show b!"DeployHash" ∈ appLabels by decide, .lowerHex _⟩) (.ite (.any fun _ => .any fun _ => .any fun _ =>
        .pure ⟨show b!"BodyHash" ∈ appLabels by decide, .lowerHex _⟩) .fail)) .abort
    obtain ⟨h1, h2⟩ := hm _ _ _ h
    exact ⟨h1, fun _ => .inl h2⟩
  | address =>
    have hm : Yields (fun kv : Bytes × Bytes => kv.1 ∈ appLabels ∧ (pl.Formats → Visible kv.2)) (reviewItem pl d .address i) := by
      unfold reviewItem addrItem
      exact .ite (.pure ⟨show b!"Address" ∈ appLabels by decide, fun _ => Visible.addr pl.blake (2 :: d.io.take 33)⟩)
        (.ite (.pure ⟨show b!"Path" ∈ appLabels by decide, fun hp => hp.path _⟩) .fail)
    obtain ⟨h1, h2⟩ := hm _ _ _ h
    exact ⟨h1, fun hp => .inl (h2 hp)⟩

/-- **C79, labels.** Whatever has been sent to the device, every label of every line of every review is one of the labels the app has: no
byte of a label is taken from the data. -/
theorem C79_labels (pl : Platform) (d : Dev) (r : Review) (i c c' : Nat) (k v : Bytes) (h : reviewItem pl d r i c = .ok (k, v) c') : k ∈ appLabels :=
  (reviewItem_line h).1

/-- **C79, texts.** Let the functions of the platform that format times, numbers and key paths produce visible characters.  Then the text of
every line consists of visible characters, in every review and every state, or it repeats bytes of the upload buffer that contain no zero byte,
and then the line is "Chain ID", "Name" or "Entry-point" of a transaction.
(Missing: the repeated texts need not consist of visible characters, see `C79_chain_false`.) -/
theorem C79_text_partial (pl : Platform) (hp : pl.Formats) (d : Dev) (r : Review) (i c c' : Nat) (k v : Bytes)
    (h : reviewItem pl d r i c = .ok (k, v) c') : Visible v ∨ (r = .tx ∧ k ∈ quotingLabels ∧ v <:+: d.mem ∧ 0 ∉ v) :=
  ((reviewItem_line h).2 hp).imp_right fun ⟨h1, h2, h3, h4⟩ => ⟨h1, h2, h3.trans ((List.take_prefix _ _).isInfix.trans (List.drop_suffix _ _).isInfix), h4⟩

/-- **C79, quotations.** In the review of a transaction just uploaded, what is repeated is a part of the data uploaded, not of what the buffer
held before. -/
theorem C79_quotations_partial (pl : Platform) (hcap : pl.cap ≤ 16384) (hp : pl.Formats) (d d' : Dev) (hd : d.Ok pl) (rx : Bytes) (pin : Bool)
    (hins : rx.getD 1 0 = 2) (h : step pl d (.apdu rx pin) = (d', .pending)) (i c c' : Nat) (k v : Bytes)
    (hi : reviewItem pl d' .tx i c = .ok (k, v) c') : Visible v ∨ (k ∈ quotingLabels ∧ v <:+: d.data ++ rx.drop 5 ∧ 0 ∉ v) := by
  refine ((reviewItem_line hi).2 hp).imp_right fun ⟨_, h2, h3, h4⟩ => ⟨h2, ?_, h4⟩
  obtain ⟨hok, hdata, hcase⟩ := sign_pending (by omega) hd hins h
  rcases hcase with ⟨xs, s, h5, h6, rfl⟩ | ⟨xs, s, h5, h6, rfl⟩
  · rw [h5] at hdata ⊢
    rw [show Dev.env pl { (d.loaded rx).tookDeploy s with review := some .tx } = mkEnv pl (d.loaded rx).expert xs from
      env_tookDeploy (s := s) hok hdata (readDeploy_kind h6.parse)] at h3
    exact h3.trans (List.suffix_cons _ _).isInfix
  · rw [h5] at hdata ⊢
    rw [show Dev.env pl { (d.loaded rx).tookV1 s with review := some .tx } = mkEnv pl (d.loaded rx).expert xs from
      env_tookV1 (s := s) hok hdata] at h3
    exact h3.trans (List.suffix_cons _ _).isInfix

/-- A transfer whose chain name contains line feeds. -/
def sampleBreak : DeploySpec := { sampleDeploy with chain := b!"casper\nAmount\n1 motes" }

/-- **C79 fails.** A chain name with line feeds is accepted and handed to the screen as it is. -/
theorem C79_chain_false : sampleBreak.Ok ∧ ¬ Visible sampleBreak.chain ∧
    outcome (0 :: sampleBreak.tx Blake.H []) 2 6 =
      ⟨some .pending, signatureReply samplePl (samplePath 0) (samplePl.sha256 (Blake.H (sampleBreak.header Blake.H).encode)),
        some (b!"Chain ID", b!"casper\nAmount\n1 motes"), some (b!"Amount", motesOf 24500000000)⟩ :=
  ⟨⟨rfl, by decide, by decide, by decide, sampleDeploy_ok.deps⟩, by decide, by decide +kernel⟩

/-- The sample platform formats with visible characters, and the lines of the sample transfer are such lines. -/
example : samplePl.Formats ∧ (outcome (0 :: sampleDeploy.tx Blake.H []) 2 5).line = some (b!"Chain ID", sampleDeploy.chain) ∧
    sampleDeploy.chain <:+: 0 :: sampleDeploy.tx Blake.H [] := by
  refine ⟨⟨fun n t h => ?_, fun _ _ => .nil, fun _ => by show Visible b!"m/44'/506'/0'/0/0"; decide⟩, by decide +kernel, by decide +kernel⟩
  cases h
  decide

end Casper
