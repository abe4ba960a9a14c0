import Verif.Lib.NF
import Verif.Model.Deploy
import Verif.Model.TxV1
/-
Programs that go on doing the same when more data follow.
-/
namespace Casper
open M

/-- The same environment with `ys` behind the received data. -/
abbrev Env.ext (e : Env) (ys : Bytes) : Env := { e with buf := e.buf ++ ys }

/-- What `m` succeeds in, `m'` does as well. -/
def Grows {σ α : Type} (m' m : M σ α) : Prop := ∀ s a t, m s = .ok a t → m' s = .ok a t

section
variable {σ α β : Type}

theorem Grows.refl (m : M σ α) : Grows m m := fun _ _ _ h => h
theorem Grows.bind {m m' : M σ α} {f f' : α → M σ β} (hm : Grows m' m) (hf : ∀ a, Grows (f' a) (f a)) : Grows (m' >>= f') (m >>= f) := by
  intro s b u h
  obtain ⟨a, t, h1, h2⟩ := bind_eq_ok.1 h
  exact bind_eq_ok.2 ⟨a, t, hm _ _ _ h1, hf a _ _ _ h2⟩
theorem Grows.pure (a : α) : Grows (Pure.pure a : M σ α) (Pure.pure a) := .refl _
theorem Grows.get : Grows (M.get : M σ σ) M.get := .refl _
theorem Grows.set (a : σ) : Grows (M.set a : M σ Unit) (M.set a) := .refl _
theorem Grows.modify (f : σ → σ) : Grows (M.modify f : M σ Unit) (M.modify f) := .refl _
theorem Grows.fail (y : Nat) {m : M σ α} : Grows m (M.fail y : M σ α) := by intro s a t h; cases h
theorem Grows.abort (y : Fault) {m : M σ α} : Grows m (M.abort y : M σ α) := by intro s a t h; cases h
theorem Grows.require (c : Prop) [Decidable c] (y : Nat) : Grows (M.require c y : M σ Unit) (M.require c y) := .refl _
theorem Grows.ite {c : Prop} [Decidable c] {m n m' n' : M σ α} (hm : c → Grows m' m) (hn : ¬ c → Grows n' n) :
    Grows (if c then m' else n') (if c then m else n) := by
  split
  · exact hm ‹_›
  · exact hn ‹_›
end

section
variable {e : Env} {ys : Bytes}

theorem Grows_skip (n : Nat) : Grows (skip n) (skip n) := .refl _
theorem Grows_seek (n : Nat) : Grows (seek n) (seek n) := .refl _
theorem Grows_readHash : Grows readHash readHash := .refl _
theorem Grows_totalLength (n : Nat) : Grows (totalLength n) (totalLength n) := .refl _
theorem Grows_ttlText (n k : Nat) : Grows (ttlText n k) (ttlText n k) := .refl _
theorem Grows_motesText (n : Bytes) : Grows (motesText n) (motesText n) := .refl _
theorem Grows_showArray (n : Nat) (xs : Bytes) : Grows (showArray n xs) (showArray n xs) := .refl _
theorem Grows_slice (i n : Nat) : Grows (slice (e.ext ys) i n) (slice e i n) := by
  intro s a t h
  unfold slice at h ⊢
  split at h
  · rename_i hl
    rw [if_pos (by simp only [List.length_append]; omega)]
    rw [← h]
    congr 1
    rw [List.drop_append_of_le_length (by omega), List.take_append_of_le_length (by simp; omega)]
  · cases h
theorem Grows_byteAt (i : Nat) : Grows (byteAt (e.ext ys) i) (byteAt e i) := by
  intro s a t h
  unfold byteAt at h ⊢
  split at h
  · cases h
  · rename_i b hb
    rw [List.getElem?_append_left (List.getElem?_eq_some_iff.1 hb).1, hb]; exact h
theorem Grows_readU8 : Grows (readU8 (e.ext ys)) (readU8 e) := by
  intro s a t h
  unfold readU8 at h ⊢
  split at h
  · cases h
  · rename_i b hb
    rw [List.getElem?_append_left (List.getElem?_eq_some_iff.1 hb).1, hb]; exact h
theorem Grows_readLE (n : Nat) : Grows (readLE (e.ext ys) n) (readLE e n) := by
  induction n with
  | zero => exact .refl _
  | succ n ih => unfold readLE; walk Grows
/-- A check against the end of the data that refuses less when more follow. -/
theorem Grows.refuse {σ α : Type} {c c' : Prop} [Decidable c] [Decidable c'] {y y' : Nat} {m m' : M σ α} (hc : c' → c) (hm : ¬ c → Grows m' m) :
    Grows (if c' then M.fail y' else m') (if c then M.fail y else m) := by
  by_cases h : c
  · rw [if_pos h]; exact .fail _
  · rw [if_neg h, if_neg fun h' => h (hc h')]; exact hm h
theorem Grows_parseItem : Grows (parseItem (e.ext ys)) (parseItem e) := by
  unfold parseItem
  refine .bind (Grows_readLE 4) fun n => .bind .get fun off => .refuse ?_ fun _ => .refl _
  simp only [List.length_append]; omega
theorem Grows_readBytes : Grows (readBytes (e.ext ys)) (readBytes e) := by
  unfold readBytes
  refine .bind (Grows_readLE 4) fun n => .bind .get fun off => .refuse ?_ fun _ => .refl _
  simp only [List.length_append]; omega
theorem Grows_copyItem (cap : Nat) : Grows (copyItem (e.ext ys) cap) (copyItem e cap) := by
  unfold copyItem
  refine .bind (Grows_readLE 4) fun n => .bind .get fun off => .refuse ?_ fun _ => .bind (Grows_slice _ _) fun _ => .refl _
  simp only [List.length_append]; omega
theorem Grows_readTags (n : Nat) : Grows (readTags (e.ext ys) n) (readTags e n) := by
  induction n with
  | zero => exact .refl _
  | succ n ih =>
    have := Grows_readU8 (e := e) (ys := ys)
    unfold readTags; walk Grows
theorem Grows_orElse2 {a a' b b' : Nat → P Nat} (ha : ∀ n, Grows (a' n) (a n)) (hb : ∀ n, Grows (b' n) (b n)) (o : Nat) :
    Grows (orElse2 a' b' o) (orElse2 a b o) := by
  intro s r t h
  unfold orElse2 at h ⊢
  cases h1 : a o s with
  | fault f => rw [h1] at h; cases h
  | err x u =>
    rw [h1] at h
    dsimp only at h
    cases h2 : b o u <;> rw [h2] at h <;> cases h
  | ok n u =>
    rw [h1] at h
    rw [ha _ _ _ _ h1]
    exact hb _ _ _ _ h
theorem Grows_orAll {f f' : Nat → Nat → P Nat} (h : ∀ t o, Grows (f' t o) (f t o)) (ts : List Nat) (o : Nat) : Grows (orAll f' ts o) (orAll f ts o) := by
  induction ts generalizing o with
  | nil => exact .refl _
  | cons t ts ih => unfold orAll; exact Grows_orElse2 (h t) (fun n => ih n) o
theorem Grows_addlType (k t o : Nat) : Grows (addlType (e.ext ys) k t o) (addlType e k t o) := by
  induction k generalizing t o with
  | zero => exact .refl _
  | succ k ih =>
    have h1 := Grows_readU8 (e := e) (ys := ys)
    have h2 := fun n => Grows_readLE (e := e) (ys := ys) n
    have h3 := fun n => Grows_readTags (e := e) (ys := ys) n
    have h4 := fun a b o => Grows_orElse2 (ih a) (ih b) o
    have h5 := fun ts o => Grows_orAll ih ts o
    unfold addlType; walk Grows
theorem Grows_getType (o : Nat) : Grows (getType (e.ext ys) o) (getType e o) := by unfold getType; walk Grows
theorem Grows_readBool : Grows (readBool (e.ext ys)) (readBool e) := by unfold readBool; walk Grows
theorem Grows_readEntityVersion : Grows (readEntityVersion (e.ext ys)) (readEntityVersion e) := by unfold readEntityVersion; walk Grows
theorem Grows_readPublicKey : Grows (readPublicKey (e.ext ys)) (readPublicKey e) := by unfold readPublicKey; walk Grows
theorem Grows_readSignature : Grows (readSignature (e.ext ys)) (readSignature e) := by unfold readSignature; walk Grows
theorem Grows_readClvalue : Grows (readClvalue (e.ext ys)) (readClvalue e) := by unfold readClvalue; walk Grows
theorem Grows_readOffsets (n i : Nat) (os : List Nat) : Grows (readOffsets (e.ext ys) n i os) (readOffsets e n i os) := by
  induction n generalizing i os with
  | zero => exact .refl _
  | succ n ih => unfold readOffsets; walk Grows
theorem Grows_readMetadata : Grows (readMetadata (e.ext ys)) (readMetadata e) := by unfold readMetadata; walk Grows
theorem Grows_readRuntime : Grows (readRuntime (e.ext ys)) (readRuntime e) := by unfold readRuntime; walk Grows

theorem Grows_parseArgs (n : Nat) : Grows (parseArgs (e.ext ys) n) (parseArgs e n) := by
  induction n with
  | zero => exact .refl _
  | succ n ih => unfold parseArgs; walk Grows
theorem Grows_getData (name : Bytes) (n : Nat) : Grows (getData (e.ext ys) name n) (getData e name n) := by
  induction n with
  | zero => exact .refl _
  | succ n ih =>
    unfold getData
    refine .bind (Grows_copyItem _) fun key => .ite (fun _ => .bind (Grows_readLE 4) fun len => .bind .get fun st => .refuse ?_ fun _ => ?_) fun _ => ?_
    · simp only [List.length_append]; omega
    · walk Grows
    · walk Grows
theorem Grows_amountBignum (n : Nat) : Grows (amountBignum (e.ext ys) n) (amountBignum e n) := by unfold amountBignum; walk Grows
theorem Grows_printBytes (o n : Nat) : Grows (printBytes (e.ext ys) o n) (printBytes e o n) := by unfold printBytes; dsimp only; walk Grows
theorem Grows_printAddress (o n : Nat) : Grows (printAddress (e.ext ys) o n) (printAddress e o n) := by unfold printAddress; walk Grows
theorem Grows_printByHash (o n : Nat) : Grows (printByHash (e.ext ys) o n) (printByHash e o n) := by unfold printByHash; walk Grows
theorem Grows_displayString (o n : Nat) : Grows (displayString (e.ext ys) o n) (displayString e o n) := by unfold displayString; walk Grows
theorem Grows_displayMotes (t n : Nat) : Grows (displayMotes (e.ext ys) t n) (displayMotes e t n) := by
  unfold displayMotes
  refine .bind .get fun off => .refuse ?_ fun _ => ?_
  · simp only [List.length_append]; omega
  · walk Grows
theorem Grows_displayArg (t n : Nat) : Grows (displayArg (e.ext ys) t n) (displayArg e t n) := by
  unfold displayArg
  refine .bind .get fun off => .refuse ?_ fun _ => ?_
  · simp only [List.length_append]; omega
  · walk Grows
theorem Grows_showArgsHash (a b : Nat) (n : Bytes) : Grows (showArgsHash (e.ext ys) a b n) (showArgsHash e a b n) := by unfold showArgsHash; walk Grows
theorem Grows_showArg (k n : Bytes) (j : Nat) : Grows (showArg (e.ext ys) k n j) (showArg e k n j) := by unfold showArg; walk Grows
theorem Grows_showMotes (k n : Bytes) (j : Nat) : Grows (showMotes (e.ext ys) k n j) (showMotes e k n j) := by unfold showMotes; walk Grows

/-! ### Rendering Deploys -/

theorem Grows_indexPart (h : Header) (p : HPart) : Grows (indexPart (e.ext ys) h p) (indexPart e h p) := by
  unfold indexPart
  refine .bind (.refl _) fun _ => .refuse ?_ fun _ => .refl _
  simp only [List.length_append]; omega
theorem Grows_parseVersion : Grows (parseVersion (e.ext ys)) (parseVersion e) := by unfold parseVersion; walk Grows
theorem Grows_itemSystemPayment (it : Item) (i : Nat) : Grows (itemSystemPayment (e.ext ys) it i) (itemSystemPayment e it i) := by
  unfold itemSystemPayment
  refine .bind (.refl _) fun _ => .bind (Grows_readLE 4) fun len => .bind .get fun off => .refuse ?_ fun _ => ?_
  · simp only [List.length_append]; omega
  · walk Grows
theorem Grows_itemNativeTransfer (it : Item) (i : Nat) : Grows (itemNativeTransfer (e.ext ys) it i) (itemNativeTransfer e it i) := by
  unfold itemNativeTransfer; walk Grows
theorem Grows_renderEntryPoint (o : Nat) : Grows (renderEntryPoint (e.ext ys) o) (renderEntryPoint e o) := by unfold renderEntryPoint; walk Grows
theorem Grows_contractHash : Grows (contractHash (e.ext ys)) (contractHash e) := by unfold contractHash; walk Grows
theorem Grows_fixedByHash (o : Nat) (a b : Bool) (l : Bytes) (i : Nat) : Grows (fixedByHash (e.ext ys) o a b l i) (fixedByHash e o a b l i) := by
  unfold fixedByHash; walk Grows
theorem Grows_fixedByName (o : Nat) (a b : Bool) (l : Bytes) (i : Nat) : Grows (fixedByName (e.ext ys) o a b l i) (fixedByName e o a b l i) := by
  unfold fixedByName; walk Grows
theorem Grows_fixedDelegation (o : Nat) (it : Item) (i : Nat) : Grows (fixedDelegation (e.ext ys) o it i) (fixedDelegation e o it i) := by
  unfold fixedDelegation; dsimp only; walk Grows
theorem Grows_itemDelegation (o : Nat) (it : Item) (i : Nat) : Grows (itemDelegation (e.ext ys) o it i) (itemDelegation e o it i) := by
  unfold itemDelegation; dsimp only; walk Grows
theorem Grows_headerLine (d : Deploy) (i : Nat) : Grows (headerLine (e.ext ys) d i) (headerLine e d i) := by
  unfold headerLine; walk Grows
theorem numItemsDeploy_ext (d : Deploy) : numItemsDeploy (e.ext ys) d = numItemsDeploy e d := rfl
theorem Grows_bodyLine (o : Nat) (d : Deploy) (i : Nat) : Grows (bodyLine (e.ext ys) o d i) (bodyLine e o d i) := by
  unfold bodyLine; rw [numItemsDeploy_ext]; dsimp only; walk Grows
/-- A line of a Deploy shown stays the same when more data follow. -/
theorem Grows_getItemDeploy (o : Nat) (d : Deploy) (i : Nat) : Grows (getItemDeploy (e.ext ys) o d i) (getItemDeploy e o d i) := by
  unfold getItemDeploy; rw [numItemsDeploy_ext]; walk Grows
theorem Grows_validateDeploy (d : Deploy) : Grows (validateDeploy (e.ext ys) d) (validateDeploy e d) := by
  unfold validateDeploy; dsimp only; walk Grows

/-! ### Reading version 1 transactions -/

theorem Grows_lv {α : Type} {m m' : P α} (h : Grows m' m) : Grows (lv m') (lv m) := by
  intro s a t h1
  unfold lv at h1 ⊢
  cases h2 : m s.off with
  | ok b o => rw [h2] at h1; rw [h _ _ _ h2]; exact h1
  | err b o => rw [h2] at h1; cases h1
  | fault b => rw [h2] at h1; cases h1
theorem Grows_onCopy {α : Type} {m m' : P α} (h : Grows m' m) : Grows (onCopy m') (onCopy m) := by
  intro s a t h1
  unfold onCopy at h1 ⊢
  cases h2 : m s.off with
  | ok b o => rw [h2] at h1; rw [h _ _ _ h2]; exact h1
  | err b o => rw [h2] at h1; cases h1
  | fault b => rw [h2] at h1; cases h1
theorem Grows_updV (f : V1 → V1) : Grows (updV f) (updV f) := .refl _
theorem Grows_incr (k : Nat) : Grows (incr k) (incr k) := .refl _
theorem Grows_incrExpert (k : Nat) : Grows (incrExpert (e.ext ys) k) (incrExpert e k) := .refl _
theorem Grows_atOff (k : Nat) : Grows (atOff k) (atOff k) := .refl _
theorem Grows_readInitiator : Grows (readInitiator (e.ext ys)) (readInitiator e) := by unfold readInitiator initiatorKey; walk Grows
theorem Grows_readChainName : Grows (readChainName (e.ext ys)) (readChainName e) := by unfold readChainName; walk Grows
theorem Grows_readPricing : Grows (readPricing (e.ext ys)) (readPricing e) := by unfold readPricing pricingFields; walk Grows
theorem Grows_readV1Header : Grows (readV1Header (e.ext ys)) (readV1Header e) := by unfold readV1Header; walk Grows
theorem Grows_readNamedArgs (n : Nat) : Grows (readNamedArgs (e.ext ys) n) (readNamedArgs e n) := by
  induction n with
  | zero => exact .refl _
  | succ n ih => unfold readNamedArgs; walk Grows
theorem Grows_readArgs : Grows (readArgs (e.ext ys)) (readArgs e) := by unfold readArgs; walk Grows
theorem Grows_readKey (k : Nat) : Grows (readKey (e.ext ys) k) (readKey e k) := by unfold readKey; walk Grows
theorem Grows_storedTarget (k : Nat) : Grows (storedTarget (e.ext ys) k) (storedTarget e k) := by unfold storedTarget; walk Grows
theorem Grows_readTarget : Grows (readTarget (e.ext ys)) (readTarget e) := by unfold readTarget readStored; walk Grows
theorem Grows_checkRequired (s n : Nat) (l : List (Bytes × Bool)) : Grows (checkRequired (e.ext ys) s n l) (checkRequired e s n l) := by
  induction l with
  | nil => exact .refl _
  | cons a l ih => unfold checkRequired; walk Grows
theorem Grows_customName (x k : Nat) : Grows (customName (e.ext ys) x k) (customName e x k) := by unfold customName; walk Grows
theorem entryItems_ext (a b : Nat) : entryItems (e.ext ys) a b = entryItems e a b := rfl
theorem Grows_readEntryPoint : Grows (readEntryPoint (e.ext ys)) (readEntryPoint e) := by
  unfold readEntryPoint checkSanity; simp only [entryItems_ext]; walk Grows
theorem Grows_readScheduling : Grows (readScheduling (e.ext ys)) (readScheduling e) := by unfold readScheduling; walk Grows
theorem Grows_readBody : Grows (readBody (e.ext ys)) (readBody e) := by unfold readBody; walk Grows
theorem Grows_readPayload : Grows (readPayload (e.ext ys)) (readPayload e) := by unfold readPayload; walk Grows
theorem Grows_readApprovalList (n : Nat) : Grows (readApprovalList (e.ext ys) n) (readApprovalList e n) := by
  induction n with
  | zero => exact .refl _
  | succ n ih => unfold readApprovalList; walk Grows
theorem Grows_readApprovals : Grows (readApprovals (e.ext ys)) (readApprovals e) := by unfold readApprovals; walk Grows
/-- Data read as a version 1 transaction are read the same when more data follow. -/
theorem Grows_readV1 : Grows (readV1 (e.ext ys)) (readV1 e) := by
  unfold readV1
  refine .bind ?_ fun _ => ?_
  · intro s a t h
    rw [require_run] at h ⊢
    split at h
    · rename_i hl
      rw [if_pos (by simp only [List.length_append]; omega)]; exact h
    · cases h
  · walk Grows
theorem Grows_validateV1 (v : V1) : Grows (validateV1 (e.ext ys) v) (validateV1 e v) := by
  unfold validateV1; walk Grows

/-! ### Rendering version 1 transactions -/

theorem Grows_indexV (v : V1) (p : VPart) : Grows (indexV (e.ext ys) v p) (indexV e v p) := by
  unfold indexV
  refine .bind (.refl _) fun _ => .refuse ?_ fun _ => .refl _
  simp only [List.length_append]; omega
theorem Grows_paymentText (n : Nat) : Grows (paymentText (e.ext ys) n) (paymentText e n) := .refl _
theorem Grows_pricingValue (v : V1) (i : Nat) : Grows (pricingValue (e.ext ys) v i) (pricingValue e v i) := by
  unfold pricingValue; walk Grows
  exact .refl _
theorem Grows_printfStr (o n : Nat) : Grows (printfStr (e.ext ys) o n) (printfStr e o n) := by unfold printfStr; walk Grows
theorem Grows_customHash (v : V1) : Grows (customHash (e.ext ys) v) (customHash e v) := by unfold customHash; walk Grows
theorem Grows_itemCustom (v : V1) (i : Nat) : Grows (itemCustom (e.ext ys) v i) (itemCustom e v i) := by unfold itemCustom customEntry; walk Grows
theorem Grows_itemTable (v : V1) (i : Nat) : Grows (itemTable (e.ext ys) v i) (itemTable e v i) := by
  unfold itemTable
  refine .ite (fun _ => .fail _) fun _ => ?_
  split
  · exact .refl _
  · walk Grows
theorem Grows_itemAddRsv (i : Nat) : Grows (itemAddRsv (e.ext ys) i) (itemAddRsv e i) := by unfold itemAddRsv; walk Grows
theorem Grows_itemCancelRsv (i : Nat) : Grows (itemCancelRsv (e.ext ys) i) (itemCancelRsv e i) := by unfold itemCancelRsv; walk Grows
end

end Casper
