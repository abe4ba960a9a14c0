import Verif.Lib.Modes
import Verif.Lib.V1Show
import Verif.Lib.Accept
/-
What expert mode has an influence on in version 1 transactions: nothing but the count of lines, in parsing.
-/
namespace Casper
open M

section
variable (e : Env) (b : Bool)

@[modes] theorem mode_readOffsets (n i : Nat) (os : List Nat) : readOffsets (e.mode b) n i os = readOffsets e n i os := by
  induction n generalizing i os with
  | zero => rfl
  | succ n ih => unfold readOffsets; simp only [ih, modes]
@[modes] theorem mode_readMetadata : readMetadata (e.mode b) = readMetadata e := by unfold readMetadata; rw [mode_readU32]; simp only [mode_readOffsets]
@[modes] theorem mode_readPublicKey : readPublicKey (e.mode b) = readPublicKey e := by unfold readPublicKey; simp only [modes]
@[modes] theorem mode_initiatorKey (t : Nat) : initiatorKey (e.mode b) t = initiatorKey e t := by unfold initiatorKey; simp only [modes]
@[modes] theorem mode_readBool : readBool (e.mode b) = readBool e := by unfold readBool; simp only [modes]
@[modes] theorem mode_readEntityVersion : readEntityVersion (e.mode b) = readEntityVersion e := by unfold readEntityVersion; simp only [modes]
@[modes] theorem mode_readRuntime : readRuntime (e.mode b) = readRuntime e := by unfold readRuntime; simp only [modes]
@[modes] theorem mode_readClvalue : readClvalue (e.mode b) = readClvalue e := by unfold readClvalue; simp only [modes]
@[modes] theorem mode_readSignature : readSignature (e.mode b) = readSignature e := by unfold readSignature; simp only [modes]
@[modes] theorem mode_readNamedArgs (n : Nat) : readNamedArgs (e.mode b) n = readNamedArgs e n := by
  induction n with
  | zero => rfl
  | succ n ih => unfold readNamedArgs; simp only [ih, modes]
@[modes] theorem mode_readApprovalList (n : Nat) : readApprovalList (e.mode b) n = readApprovalList e n := by
  induction n with
  | zero => rfl
  | succ n ih => unfold readApprovalList; simp only [ih, modes]
@[modes] theorem mode_checkRequired (a n : Nat) (l : List (Bytes × Bool)) : checkRequired (e.mode b) a n l = checkRequired e a n l := by
  induction l with
  | nil => rfl
  | cons x l ih => unfold checkRequired; simp only [ih, modes]
@[modes] theorem mode_checkSanity (v : V1) : checkSanity (e.mode b) v = checkSanity e v := by unfold checkSanity; simp only [modes]
@[modes] theorem mode_validateV1 (v : V1) : validateV1 (e.mode b) v = validateV1 e v := by unfold validateV1; simp only [modes]; rfl
@[modes] theorem mode_indexV (v : V1) (p : VPart) : indexV (e.mode b) v p = indexV e v p := by unfold indexV; simp only [modes]; rfl
@[modes] theorem mode_numStr (c n : Nat) : numStr (e.mode b) c n = numStr e c n := rfl
@[modes] theorem mode_printfStr (c n : Nat) : printfStr (e.mode b) c n = printfStr e c n := by unfold printfStr; simp only [modes]
@[modes] theorem mode_customHash (v : V1) : customHash (e.mode b) v = customHash e v := by unfold customHash; simp only [modes]
@[modes] theorem mode_customEntry (v : V1) : customEntry (e.mode b) v = customEntry e v := by unfold customEntry; simp only [modes]
@[modes] theorem mode_itemRedelegate (v : V1) (i : Nat) : itemRedelegate (e.mode b) v i = itemRedelegate e v i := by unfold itemRedelegate; simp only [modes]
@[modes] theorem mode_itemTable (v : V1) (i : Nat) : itemTable (e.mode b) v i = itemTable e v i := by unfold itemTable; simp only [modes]
@[modes] theorem mode_itemAddRsv (i : Nat) : itemAddRsv (e.mode b) i = itemAddRsv e i := by unfold itemAddRsv; simp only [modes]
@[modes] theorem mode_itemCancelRsv (i : Nat) : itemCancelRsv (e.mode b) i = itemCancelRsv e i := by unfold itemCancelRsv; simp only [modes]
@[modes] theorem mode_itemBurn (v : V1) (i : Nat) : itemBurn (e.mode b) v i = itemBurn e v i := by unfold itemBurn; simp only [modes]

end

/-! ### Two runs that differ in the number of lines -/

/-- States that differ at most in the number of lines. -/
def Same1 (s t : VS) : Prop := ∃ n, t = ⟨s.off, { s.v with numItems := n }⟩

/-- Outcomes that differ no more than the states do. -/
inductive Close1 {α : Type} : Res VS α → Res VS α → Prop
  | ok (a : α) {s t : VS} : Same1 s t → Close1 (.ok a s) (.ok a t)
  | err (x : Nat) {s t : VS} : Same1 s t → Close1 (.err x s) (.err x t)
  | fault (f : Fault) : Close1 (.fault f) (.fault f)

/-- Two programs with close outcomes. -/
def Modal1 {α : Type} (m' m : M VS α) : Prop := ∀ s t, Same1 s t → Close1 (m s) (m' t)

section
variable {α β : Type}

theorem Modal1.bind {m m' : M VS α} {f f' : α → M VS β} (hm : Modal1 m' m) (hf : ∀ a, Modal1 (f' a) (f a)) :
    Modal1 (m' >>= f') (m >>= f) := by
  intro s t h
  have := hm s t h
  rw [bind_run, bind_run]
  generalize m s = r at this ⊢
  generalize m' t = r' at this ⊢
  cases this with
  | ok a h' => exact hf a _ _ h'
  | err x h' => exact .err x h'
  | fault f => exact .fault f
theorem Modal1.pure (a : α) : Modal1 (Pure.pure a : M VS α) (Pure.pure a) := fun _ _ h => .ok a h
theorem Modal1.fail (x : Nat) : Modal1 (M.fail x : M VS α) (M.fail x) := fun _ _ h => .err x h
theorem Modal1.ite {c : Prop} [Decidable c] {m n m' n' : M VS α} (hm : c → Modal1 m' m) (hn : ¬ c → Modal1 n' n) :
    Modal1 (if c then m' else n') (if c then m else n) := by
  by_cases h : c
  · rw [if_pos h, if_pos h]; exact hm h
  · rw [if_neg h, if_neg h]; exact hn h
theorem Modal1.require (c : Prop) [Decidable c] (x : Nat) : Modal1 (M.require c x : M VS Unit) (M.require c x) := by
  intro s t h
  rw [require_run, require_run]
  split
  · exact .ok _ h
  · exact .err _ h
theorem Modal1.lv (m : P α) : Modal1 (lv m) (lv m) := by
  rintro s _ ⟨n, rfl⟩
  unfold Casper.lv
  dsimp only
  cases m s.off with
  | ok a o => exact .ok a ⟨n, rfl⟩
  | err x o => exact .err x ⟨n, rfl⟩
  | fault f => exact .fault f
theorem Modal1.onCopy (m : P α) : Modal1 (onCopy m) (onCopy m) := by
  rintro s _ ⟨n, rfl⟩
  unfold Casper.onCopy
  dsimp only
  cases m s.off with
  | ok a o => exact .ok a ⟨n, rfl⟩
  | err x o => exact .err x ⟨n, rfl⟩
  | fault f => exact .fault f
theorem Modal1.atOff (x : Nat) : Modal1 (atOff x) (atOff x) := by
  rintro s _ ⟨n, rfl⟩
  unfold Casper.atOff
  dsimp only
  split
  · exact .ok _ ⟨n, rfl⟩
  · exact .err _ ⟨n, rfl⟩
theorem Modal1.modify {f : VS → VS} (h : ∀ s n, ∃ m, f ⟨s.off, { s.v with numItems := n }⟩ = ⟨(f s).off, { (f s).v with numItems := m }⟩) :
    Modal1 (M.modify f) (M.modify f) := by
  rintro s _ ⟨n, rfl⟩
  obtain ⟨m, hm⟩ := h s n
  exact .ok () ⟨m, hm⟩
theorem Modal1.incr (a b : Nat) : Modal1 (incr a) (incr b) := by
  rintro s _ ⟨n, rfl⟩
  exact .ok () ⟨_, rfl⟩
theorem Modal1.incrExpert (e : Env) (a b : Bool) (k : Nat) : Modal1 (incrExpert (e.mode a) k) (incrExpert (e.mode b) k) := by
  rintro s _ ⟨n, rfl⟩
  cases a <;> cases b <;> exact .ok () ⟨_, rfl⟩
/-- Reading the state. -/
theorem Modal1.getBind {f f' : VS → M VS β} (h : ∀ s n, Modal1 (f' ⟨s.off, { s.v with numItems := n }⟩) (f s)) : Modal1 (M.get >>= f') (M.get >>= f) := by
  rintro s _ ⟨n, rfl⟩
  exact h s n s _ ⟨n, rfl⟩
end

variable (e : Env) (a b : Bool)

theorem Modal1_readInitiator : Modal1 (readInitiator (e.mode a)) (readInitiator (e.mode b)) := by
  unfold readInitiator
  simp only [modes]
  refine .bind (.lv _) fun m => .getBind fun s n => .bind (.require _ _) fun _ => .bind (.atOff _) fun _ => .bind (.modify fun s n => ⟨n, rfl⟩) fun _ =>
    .bind (.lv _) fun tag => .bind (.require _ _) fun _ => .bind (.atOff _) fun _ => .getBind fun s n => .bind (.lv _) fun _ => .bind (.atOff _) fun _ =>
    .getBind fun s n => .modify fun s n => ⟨n, rfl⟩

theorem Modal1_readChainName : Modal1 (readChainName (e.mode a)) (readChainName (e.mode b)) := by
  unfold readChainName
  simp only [modes]
  exact .bind (.lv _) fun m => .modify fun s n => ⟨n, rfl⟩

theorem Modal1_pricingFields (x : Nat) (m : Meta) (t : Nat) : Modal1 (pricingFields (e.mode a) x m t) (pricingFields (e.mode b) x m t) := by
  unfold pricingFields
  simp only [modes]
  exact .ite (fun _ => .bind (.lv _) fun _ => .bind (.atOff _) fun _ => .bind (.lv _) fun _ => .bind (.atOff _) fun _ => .bind (.lv _) fun _ => .pure _)
    fun _ => .ite (fun _ => .bind (.lv _) fun _ => .bind (.atOff _) fun _ => .bind (.lv _) fun _ => .pure _) fun _ => .ite (fun _ => .lv _) fun _ => .fail _

theorem Modal1_readPricing : Modal1 (readPricing (e.mode a)) (readPricing (e.mode b)) := by
  unfold readPricing
  simp only [modes]
  refine .bind (.lv _) fun m => .getBind fun s n => .bind (.atOff _) fun _ => .bind (.modify fun s n => ⟨n, rfl⟩) fun _ =>
    .bind (.lv _) fun tag => .bind (.atOff _) fun _ => .bind (Modal1_pricingFields e a b _ _ _) fun _ => .bind (.atOff _) fun _ => .modify fun s n => ⟨n, rfl⟩

theorem Modal1_readV1Header : Modal1 (readV1Header (e.mode a)) (readV1Header (e.mode b)) := by
  unfold readV1Header
  simp only [modes]
  refine .getBind fun s n => .bind (.atOff _) fun _ => .bind (Modal1_readInitiator e a b) fun _ => .bind (.incr _ _) fun _ => .bind (.atOff _) fun _ =>
    .bind (.lv _) fun _ => .bind (.incrExpert e a b _) fun _ => .bind (.atOff _) fun _ => .bind (.lv _) fun _ => .bind (.incrExpert e a b _) fun _ =>
    .bind (.atOff _) fun _ => .bind (Modal1_readChainName e a b) fun _ => .bind (.incr _ _) fun _ => .bind (.atOff _) fun _ =>
    .bind (Modal1_readPricing e a b) fun _ => .bind (.atOff _) fun _ => .bind (.incrExpert e a b _) fun _ => .incrExpert e a b _

theorem Modal1_readArgs : Modal1 (readArgs (e.mode a)) (readArgs (e.mode b)) := by
  unfold readArgs
  simp only [modes]
  refine .bind (.lv _) fun len => .bind (.modify fun s n => ⟨n, rfl⟩) fun _ => .bind (.lv _) fun tag => .ite (fun _ => .bind (.modify fun s n => ⟨n, rfl⟩) fun _ =>
    .bind (.lv _) fun n => .bind (.modify fun s n => ⟨n, rfl⟩) fun _ => .lv _) fun _ => .ite (fun _ => .bind (.modify fun s n => ⟨n, rfl⟩) fun _ =>
    .bind (.lv _) fun n => .modify fun s n => ⟨n, rfl⟩) fun _ => .fail _

theorem Modal1_readKey (k : Nat) : Modal1 (readKey (e.mode a) k) (readKey (e.mode b) k) := by
  unfold readKey
  simp only [modes]
  exact .bind (.lv _) fun x => .require _ _

theorem Modal1_storedTarget (k : Nat) : Modal1 (storedTarget (e.mode a) k) (storedTarget (e.mode b) k) := by
  unfold storedTarget
  simp only [modes]
  refine .ite (fun _ => .bind (.modify fun s n => ⟨n, rfl⟩) fun _ => .bind (.lv _) fun _ => .incr _ _) fun _ => .ite (fun _ => .bind (.modify fun s n => ⟨n, rfl⟩) fun _ =>
    .bind (.lv _) fun _ => .bind (.modify fun s n => ⟨n, rfl⟩) fun _ => .incr _ _) fun _ => .ite (fun _ => .bind (.modify fun s n => ⟨n, rfl⟩) fun _ =>
    .bind (.lv _) fun _ => .bind (.lv _) fun ver => .bind (.modify fun s n => ⟨n, rfl⟩) fun _ => .bind (.incr _ _) fun _ => .ite (fun _ => .incrExpert e a b _) fun _ => .pure _)
    fun _ => .ite (fun _ => .bind (.modify fun s n => ⟨n, rfl⟩) fun _ => .bind (.lv _) fun _ => .bind (.modify fun s n => ⟨n, rfl⟩) fun _ =>
    .bind (.lv _) fun ver => .bind (.modify fun s n => ⟨n, rfl⟩) fun _ => .bind (.incr _ _) fun _ => .ite (fun _ => .incrExpert e a b _) fun _ => .pure _) fun _ => .fail _

theorem Modal1_readTarget : Modal1 (readTarget (e.mode a)) (readTarget (e.mode b)) := by
  unfold readTarget
  have hs : Modal1 (readStored (e.mode a)) (readStored (e.mode b)) := by
    unfold readStored
    simp only [modes]
    exact .bind (.lv _) fun _ => .bind (.lv _) fun tag => .bind (.incr _ _) fun _ => .bind (.incr _ _) fun _ => .bind (Modal1_storedTarget e a b _) fun _ => .lv _
  simp only [modes]
  refine .bind (.lv _) fun _ => .bind (.lv _) fun m => .getBind fun s n => .bind (.atOff _) fun _ => .bind (.lv _) fun tag =>
    .ite (fun _ => .bind (.atOff _) fun _ => .modify fun s n => ⟨n, rfl⟩) fun _ => .ite (fun _ => .bind (.atOff _) fun _ => hs) fun _ =>
    .ite (fun _ => .bind (.atOff _) fun _ => .bind (.modify fun s n => ⟨n, rfl⟩) fun _ => .bind (.lv _) fun _ => .bind (.lv _) fun _ => .bind (.lv _) fun _ => .pure _) fun _ => .fail _

theorem Modal1_customName (x t : Nat) : Modal1 (customName (e.mode a) x t) (customName (e.mode b) x t) := by
  unfold customName
  simp only [modes]
  exact .ite (fun _ => .bind (.atOff _) fun _ => .bind (.modify fun s n => ⟨n, rfl⟩) fun _ => .bind (.lv _) fun _ => .modify fun s n => ⟨n, rfl⟩) fun _ => .pure _

theorem Modal1_readEntryPoint : Modal1 (readEntryPoint (e.mode a)) (readEntryPoint (e.mode b)) := by
  unfold readEntryPoint
  simp only [modes]
  refine .bind (.lv _) fun _ => .bind (.lv _) fun m => .getBind fun s n => .bind (.atOff _) fun _ => .bind (.lv _) fun tag => .bind (.require _ _) fun _ =>
    .bind (Modal1_customName e a b _ _) fun _ => .bind (.atOff _) fun _ => .bind (.modify fun s n => ⟨n, rfl⟩) fun _ => .bind (.incr _ _) fun _ =>
    .getBind fun s n => .bind (.incr _ _) fun _ => .getBind fun s n => .onCopy _

theorem Modal1_readScheduling : Modal1 (readScheduling (e.mode a)) (readScheduling (e.mode b)) := by
  unfold readScheduling
  simp only [modes]
  exact .bind (.lv _) fun _ => .bind (.lv _) fun m => .getBind fun s n => .bind (.atOff _) fun _ => .bind (.lv _) fun tag => .bind (.require _ _) fun _ => .atOff _

theorem Modal1_readBody : Modal1 (readBody (e.mode a)) (readBody (e.mode b)) := by
  unfold readBody
  rw [mode_readU32, mode_readU32]
  exact .bind (.lv _) fun _ => .bind (.require _ _) fun _ => .bind (Modal1_readKey e a b _) fun _ => .bind (Modal1_readArgs e a b) fun _ =>
    .bind (Modal1_readKey e a b _) fun _ => .bind (Modal1_readTarget e a b) fun _ => .bind (Modal1_readKey e a b _) fun _ =>
    .bind (Modal1_readEntryPoint e a b) fun _ => .bind (Modal1_readKey e a b _) fun _ => Modal1_readScheduling e a b

theorem Modal1_readPayload : Modal1 (readPayload (e.mode a)) (readPayload (e.mode b)) := by
  unfold readPayload
  rw [mode_readMetadata, mode_readMetadata]
  exact .bind (.lv _) fun m => .bind (.modify fun s n => ⟨n, rfl⟩) fun _ => .getBind fun s n => .bind (.atOff _) fun _ => .bind (Modal1_readV1Header e a b) fun _ =>
    .bind (.atOff _) fun _ => .bind (Modal1_readBody e a b) fun _ => .atOff _

theorem Modal1_readV1 : Modal1 (readV1 (e.mode a)) (readV1 (e.mode b)) := by
  have ha : Modal1 (readApprovals (e.mode a)) (readApprovals (e.mode b)) := by
    unfold readApprovals
    simp only [modes]
    exact .bind (.lv _) fun n => .bind (.modify fun s n => ⟨n, rfl⟩) fun _ => .bind (.lv _) fun _ => .incrExpert e a b _
  unfold readV1
  rw [mode_readMetadata, mode_readMetadata]
  exact .bind (.require _ _) fun _ => .bind (.lv _) fun m => .bind (.modify fun s n => ⟨n, rfl⟩) fun _ => .bind (.atOff _) fun _ => .bind (.lv _) fun _ =>
    .bind (.incr _ _) fun _ => .bind (.atOff _) fun _ => .bind (Modal1_readPayload e a b) fun _ => .bind (.atOff _) fun _ => .bind ha fun _ => .atOff _

/-- In another mode, the same is parsed. -/
theorem readV1_modes {e : Env} (a b : Bool) {s : VS} (h : readV1 (e.mode b) ⟨0, {}⟩ = .ok () s) :
    ∃ n, readV1 (e.mode a) ⟨0, {}⟩ = .ok () ⟨s.off, { s.v with numItems := n }⟩ := by
  have := Modal1_readV1 e a b ⟨0, {}⟩ ⟨0, {}⟩ ⟨0, rfl⟩
  rw [h] at this
  generalize readV1 (e.mode a) ⟨0, {}⟩ = r at this
  cases this with
  | ok _ h =>
    obtain ⟨n, rfl⟩ := h
    exact ⟨n, rfl⟩

/-! ### Arguments of different names are different arguments -/

theorem getData_step {e : Env} {x : Bytes} {n o : Nat} {r : Nat × Nat} {c : Nat} (h : getData e x (n + 1) o = .ok r c) :
    ∃ key o1, copyItem e 300 o = .ok key o1 ∧ (cstr key = x ∨ cstr key ≠ x ∧ ∃ o2 r', ((do parseItem e; getType e 0 : P _) o1 = .ok r' o2) ∧
      getData e x n o2 = .ok r c) := by
  unfold getData at h
  rw [bind_eq_ok] at h
  obtain ⟨key, o1, h1, h⟩ := h
  refine ⟨key, o1, h1, ?_⟩
  split at h
  · rename_i hk
    exact .inl hk
  · rename_i hk
    rw [bind_eq_ok] at h
    obtain ⟨_, o2, h2, h⟩ := h
    rw [bind_eq_ok] at h
    obtain ⟨r', o3, h3, h⟩ := h
    exact .inr ⟨hk, o3, r', by rw [bind_run, h2]; exact h3, h⟩

theorem getData_pos {e : Env} {x : Bytes} {n o : Nat} {r : Nat × Nat} {c : Nat} (h : getData e x n o = .ok r c) : 1 ≤ n := by
  cases n with
  | zero => cases h
  | succ n => omega

theorem getData_two {e : Env} {x y : Bytes} (hxy : x ≠ y) {n o : Nat} {r r' : Nat × Nat} {c c' : Nat} (h : getData e x n o = .ok r c)
    (h' : getData e y n o = .ok r' c') : 2 ≤ n := by
  cases n with
  | zero => cases h
  | succ n =>
    obtain ⟨k, o1, a1, a2⟩ := getData_step h
    obtain ⟨k', o1', b1, b2⟩ := getData_step h'
    rw [a1] at b1
    cases b1
    rcases a2 with a2 | ⟨-, o2, _, -, a2⟩
    · rcases b2 with b2 | ⟨-, o2, _, -, b2⟩
      · exact absurd (a2.symm.trans b2) hxy
      · have := getData_pos b2; omega
    · have := getData_pos a2; omega

theorem getData_three {e : Env} {x y z : Bytes} (hxy : x ≠ y) (hxz : x ≠ z) (hyz : y ≠ z) {n o : Nat} {r r' r'' : Nat × Nat} {c c' c'' : Nat}
    (h : getData e x n o = .ok r c) (h' : getData e y n o = .ok r' c') (h'' : getData e z n o = .ok r'' c'') : 3 ≤ n := by
  cases n with
  | zero => cases h
  | succ n =>
    obtain ⟨k, o1, a1, a2⟩ := getData_step h
    obtain ⟨k', o1', b1, b2⟩ := getData_step h'
    obtain ⟨k'', o1'', d1, d2⟩ := getData_step h''
    rw [a1] at b1 d1
    cases b1
    cases d1
    rcases a2 with a2 | ⟨-, o2, _, a3, a2⟩
    · rcases b2 with b2 | ⟨-, o2, _, b3, b2⟩
      · exact absurd (a2.symm.trans b2) hxy
      · rcases d2 with d2 | ⟨-, o3, _, d3, d2⟩
        · exact absurd (a2.symm.trans d2) hxz
        · have := b3.symm.trans d3
          cases this
          have := getData_two hyz b2 d2; omega
    · rcases b2 with b2 | ⟨-, o2', _, b3, b2⟩
      · rcases d2 with d2 | ⟨-, o3, _, d3, d2⟩
        · exact absurd (b2.symm.trans d2) hyz
        · have := a3.symm.trans d3
          cases this
          have := getData_two hxz a2 d2; omega
      · have := a3.symm.trans b3
        cases this
        have := getData_two hxy a2 b2; omega

theorem checkRequired_mem {e : Env} {a n o : Nat} {l : List (Bytes × Bool)} {c : Nat} (h : checkRequired e a n l o = .ok () c) {x : Bytes × Bool}
    (hx : x ∈ l) : ∃ r c, getData e x.1 n a = .ok r c := by
  induction l generalizing o with
  | nil => cases hx
  | cons y l ih =>
    obtain ⟨name, big⟩ := y
    unfold checkRequired at h
    rw [bind_run, set_run, Res.bind_ok, bind_eq_ok] at h
    obtain ⟨⟨len, t⟩, o1, h1, h⟩ := h
    dsimp only at h
    rw [bind_eq_ok] at h
    obtain ⟨_, o2, -, h⟩ := h
    rcases List.mem_cons.1 hx with rfl | hx
    · exact ⟨_, _, h1⟩
    · exact ih h hx

/-! ### The lines of the two modes -/

/-- Where a line of the entry point is in expert mode. -/
def entryPlace (v : V1) (source : Bool) (j : Nat) : Nat :=
  if v.epType = 1 ∧ (v.target.typ = 3 ∨ v.target.typ = 4) ∧ 2 ≤ j then j + 1
  else if v.epType = 2 ∧ source then j + 1 else j

theorem itemCustom_modes {e : Env} {v : V1} {n n' : Nat} (hn : 4 ≤ n) (hn1 : n < 256) (hn' : 9 ≤ n') (hn1' : n' < 256) {i : Nat} (hi : i < n - 4)
    (htyp : ¬ (v.target.typ = 3 ∨ v.target.typ = 4)) (hi' : i < n' - 9) :
    itemCustom (e.mode false) { v with numItems := n } i = itemCustom (e.mode true) { v with numItems := n' } i := by
  unfold itemCustom
  have h1 : u32 (n + 4294967296 - 4) = n - 4 := by unfold u32; omega
  have h2 : u32 (n' + 4294967296 - 9) = n' - 9 := by unfold u32; omega
  simp only [mode_expert, if_true, Bool.false_eq_true, if_false, h1, h2]
  rw [if_neg (show ¬ i ≥ n - 4 by omega), if_neg (show ¬ i ≥ n' - 9 by omega)]
  simp only [if_neg htyp, modes]
  rfl

theorem itemCustom_package {e : Env} {v : V1} {n n' : Nat} (hn : 4 ≤ n) (hn1 : n < 256) (hn' : 9 ≤ n') (hn1' : n' < 256) {i : Nat} (hi : i < n - 4)
    (htyp : v.target.typ = 3 ∨ v.target.typ = 4) (hi' : (if 2 ≤ i then i + 1 else i) < n' - 9) :
    itemCustom (e.mode false) { v with numItems := n } i = itemCustom (e.mode true) { v with numItems := n' } (if 2 ≤ i then i + 1 else i) := by
  unfold itemCustom
  have h1 : u32 (n + 4294967296 - 4) = n - 4 := by unfold u32; omega
  have h2 : u32 (n' + 4294967296 - 9) = n' - 9 := by unfold u32; omega
  have hno : ¬ (v.target.typ = 1 ∨ v.target.typ = 2) := by omega
  simp only [mode_expert, if_true, Bool.false_eq_true, if_false, h1, h2]
  rw [if_neg (show ¬ i ≥ n - 4 by omega), if_neg (show ¬ (if 2 ≤ i then i + 1 else i) ≥ n' - 9 by omega)]
  simp only [if_neg hno, if_pos htyp, false_and, if_false, true_and]
  by_cases h : 2 ≤ i
  · simp only [if_pos h]
    rw [if_neg (show ¬ i = 0 by omega), if_neg (show ¬ i = 1 by omega), if_neg (show ¬ i + 1 = 0 by omega), if_neg (show ¬ i + 1 = 1 by omega),
      if_neg (show ¬ i + 1 = 2 by omega)]
    simp only [modes]
    rfl
  · simp only [if_neg h]
    have : i = 0 ∨ i = 1 := by omega
    rcases this with rfl | rfl
    · rfl
    · simp only [modes]; rfl

theorem itemCustom_blank {e : Env} {v : V1} {n' : Nat} (hn' : 9 ≤ n') (hn1' : n' < 256) (hi' : 2 < n' - 9) (htyp : v.target.typ = 3 ∨ v.target.typ = 4)
    (hver : v.target.version = noVersion) : itemCustom (e.mode true) { v with numItems := n' } 2 = pure (b!"?", b!"?") := by
  unfold itemCustom
  have h2 : u32 (n' + 4294967296 - 9) = n' - 9 := by unfold u32; omega
  have hno : ¬ (v.target.typ = 1 ∨ v.target.typ = 2) := by omega
  simp only [mode_expert, if_true, h2]
  rw [if_neg (by omega)]
  simp only [if_neg hno, if_pos htyp, hver]
  rfl

/-- The lines of a transfer. -/
theorem itemTransfer_modes {e : Env} {v : V1} {o : Nat} (h3 : 2 ≤ v.numArgs) (hs : ∀ r c, getData e b!"source" v.numArgs o = .ok r c → 3 ≤ v.numArgs)
    {j : Nat} (hj : j < 2) {source : Bool} (hsource : source = true ↔ ∃ r c, getData e b!"source" v.numArgs o = .ok r c)
    {kv : Bytes × Bytes} {c : Nat} (h : itemTransfer (e.mode true) v (if source then j + 1 else j) o = .ok kv c) :
    itemTransfer (e.mode false) v j o = .ok kv c := by
  unfold itemTransfer at h ⊢
  simp only [bind_run, get_run, Res.bind_ok, mode_expert, if_true, Bool.false_eq_true, if_false, modes] at h ⊢
  rw [if_neg (show ¬ j ≥ v.numArgs by omega)]
  cases hg : getData e b!"source" v.numArgs o with
  | fault f => 
    have hf : source ≠ true := fun ht => by obtain ⟨r, c, hr⟩ := hsource.1 ht; rw [hg] at hr; cases hr
    rw [if_neg hf, if_neg (show ¬ j ≥ v.numArgs by omega)] at h
    simp only [bind_run, attempt_run, hg] at h
    cases h
  | err x t => 
    have hf : source ≠ true := fun ht => by obtain ⟨r, c, hr⟩ := hsource.1 ht; rw [hg] at hr; cases hr
    rw [if_neg hf, if_neg (show ¬ j ≥ v.numArgs by omega)] at h
    simp only [bind_run, attempt_run, hg, Res.bind_ok, set_run] at h
    by_cases hx : x ≠ eNoData
    · rw [if_pos hx] at h; cases h
    · rw [if_neg hx] at h
      have : j = 0 ∨ j = 1 := by omega
      rcases this with rfl | rfl
      · exact h
      · exact h
  | ok r t =>
    have hf : source = true := hsource.2 ⟨_, _, hg⟩
    have := hs _ _ hg
    rw [if_pos hf, if_neg (show ¬ j + 1 ≥ v.numArgs by omega)] at h
    simp only [bind_run, attempt_run, hg, Res.bind_ok] at h
    rw [if_neg (show ¬ j + 1 = 0 by omega)] at h
    simp only [bind_run, set_run, Res.bind_ok] at h
    have : j = 0 ∨ j = 1 := by omega
    rcases this with rfl | rfl
    · exact h
    · exact h

/-- The lines of an entry point. -/
theorem itemEntry_modes {e : Env} {v : V1} {n n' k k' : Nat} (hep : v.epType ≠ 0) (hoff : v.argsOff < 256) (hk : TargetAt (e.mode false) v.target k)
    (hk' : TargetAt (e.mode true) v.target k') (hsan : ∃ o o', checkSanity e v o = .ok () o') (h9 : 9 ≤ n') (h128 : n' ≤ 128)
    (h12 : v.epType = 2 → 12 ≤ n') (hn : n = u8 (4 + k + entryItems (e.mode false) v.epType v.numArgs)) (hn' : n' = u8 (9 + k' + entryItems (e.mode true) v.epType v.numArgs))
    (hq : v.epType = 1 → ∀ j c, j < n' - 9 → itemEntry (e.mode true) { v with numItems := n' } j 0 ≠ .ok (b!"?", b!"?") c)
    (hlines : ∀ j, j < n' - 9 → ∃ kv c, itemEntry (e.mode true) { v with numItems := n' } j 0 = .ok kv c) :
    4 ≤ n ∧ n ≤ 128 ∧ ∃ source, ∀ j, j < n - 4 → entryPlace v source j < n' - 9 ∧ ∃ kv c,
      itemEntry (e.mode false) { v with numItems := n } j 0 = .ok kv c ∧ itemEntry (e.mode true) { v with numItems := n' } (entryPlace v source j) 0 = .ok kv c := by
  have hseek : ∀ w : V1, w.argsOff = v.argsOff → seek w.argsOff 0 = .ok () v.argsOff := fun w hw => by
    unfold seek; rw [hw, u16_id (by omega)]
  by_cases h1 : v.epType = 1
  · -- contract calls
    have he : ∀ b, entryItems (e.mode b) v.epType v.numArgs = 1 := fun b => by rw [h1]; rfl
    rw [he] at hn hn'
    have hcust : ∀ b m i, itemEntry (e.mode b) { v with numItems := m } i 0 = itemCustom (e.mode b) { v with numItems := m } i v.argsOff := by
      intro b m i
      unfold itemEntry
      rw [bind_run, hseek _ rfl, Res.bind_ok, if_pos h1]
    by_cases ht : v.target.typ = 3 ∨ v.target.typ = 4
    · have hkk : k = 3 ∧ k' = if v.target.version = noVersion then 3 else 4 := by
        rcases hk with hk | hk | hk | hk | hk
        · omega
        · omega
        · omega
        all_goals
          rcases hk' with hk' | hk' | hk' | hk' | hk'
          · omega
          · omega
          · omega
          all_goals
            have a := hk.2.1
            have a' := hk'.2.1
            rw [mode_expert] at a a'
            refine ⟨by simpa using a, ?_⟩
            rw [a']
            by_cases hv : v.target.version = noVersion <;> simp [hv]
      obtain ⟨rfl, hk4⟩ := hkk
      by_cases hv : v.target.version = noVersion
      · rw [if_pos hv] at hk4
        subst hk4
        have h13 : n' = 13 := hn'
        refine absurd ?_ (hq h1 2 v.argsOff (by omega))
        rw [hcust, itemCustom_blank (by omega) (by omega) (by omega) ht hv]
        rfl
      · rw [if_neg hv] at hk4
        subst hk4
        have h13 : n' = 14 := hn'
        have h8 : n = 8 := hn
        refine ⟨by omega, by omega, false, fun j hj => ?_⟩
        have hp : entryPlace v false j = if 2 ≤ j then j + 1 else j := by
          unfold entryPlace
          by_cases h2 : 2 ≤ j <;> simp [h1, ht, h2]
        have hpl : entryPlace v false j < n' - 9 := by rw [hp]; split <;> omega
        obtain ⟨kv, c, hl⟩ := hlines _ hpl
        refine ⟨hpl, kv, c, ?_, hl⟩
        rw [← hl, hcust, hcust, hp]
        rw [itemCustom_package (by omega) (by omega) (by omega) (by omega) hj ht (hp ▸ hpl)]
    · have hkk : k = k' ∧ k ≤ 3 := by
        rcases hk with hk | hk | hk | hk | hk <;> rcases hk' with hk' | hk' | hk' | hk' | hk' <;> omega
      obtain ⟨rfl, hk3⟩ := hkk
      have e1 : n = 5 + k := by rw [hn]; unfold u8; omega
      have e2 : n' = 10 + k := by rw [hn']; unfold u8; omega
      refine ⟨by omega, by omega, false, fun j hj => ?_⟩
      have hp : entryPlace v false j = j := by
        unfold entryPlace
        simp [ht]
      rw [hp]
      obtain ⟨kv, c, hl⟩ := hlines j (by omega)
      refine ⟨by omega, kv, c, ?_, hl⟩
      rw [← hl, hcust, hcust, itemCustom_modes (n' := n') (by omega) (by omega) (by omega) (by omega) hj ht (by omega)]
  -- native operations
  obtain ⟨o, o', hs⟩ := hsan
  unfold checkSanity at hs
  by_cases hbad : v.epType ≠ 1 ∧ v.target.typ ≠ 0 ∧ v.target.typ ≠ 5
  · rw [if_pos hbad] at hs; cases hs
  rw [if_neg hbad] at hs
  have hkk : k = 0 ∧ k' = 0 := by
    have ht : v.target.typ = 0 ∨ v.target.typ = 5 := by
      by_cases a : v.target.typ = 0
      · exact .inl a
      · by_cases b : v.target.typ = 5
        · exact .inr b
        · exact absurd ⟨h1, a, b⟩ hbad
    rcases hk with hk | hk | hk | hk | hk <;> rcases hk' with hk' | hk' | hk' | hk' | hk' <;> omega
  obtain ⟨rfl, rfl⟩ := hkk
  by_cases h2 : v.epType = 2
  · have e1 : n = 6 := by rw [hn, h2]; rfl
    have e2 := h12 h2
    rw [h2] at hs
    obtain ⟨_, _, ha⟩ := checkRequired_mem hs (x := (b!"amount", true)) (by decide)
    obtain ⟨_, _, hb⟩ := checkRequired_mem hs (x := (b!"target", false)) (by decide)
    obtain ⟨_, _, hc⟩ := checkRequired_mem hs (x := (b!"id", false)) (by decide)
    have h3 := getData_three (by decide) (by decide) (by decide) ha hb hc
    have htr : ∀ b m i, itemEntry (e.mode b) { v with numItems := m } i 0 = itemTransfer (e.mode b) { v with numItems := m } i v.argsOff := by
      intro b m i
      unfold itemEntry
      rw [bind_run, hseek _ rfl, Res.bind_ok, if_neg h1, if_pos h2]
    classical
    refine ⟨by omega, by omega, decide (∃ r c, getData e b!"source" v.numArgs v.argsOff = .ok r c), fun j hj => ?_⟩
    have hp : entryPlace v (decide (∃ r c, getData e b!"source" v.numArgs v.argsOff = .ok r c)) j =
        if decide (∃ r c, getData e b!"source" v.numArgs v.argsOff = .ok r c) then j + 1 else j := by
      unfold entryPlace
      simp [h2]
    have hpl : entryPlace v (decide (∃ r c, getData e b!"source" v.numArgs v.argsOff = .ok r c)) j < n' - 9 := by rw [hp]; split <;> omega
    obtain ⟨kv, c, hl⟩ := hlines _ hpl
    refine ⟨hpl, kv, c, ?_, hl⟩
    rw [htr, hp] at hl
    rw [htr]
    exact itemTransfer_modes (v := { v with numItems := n' }) (show 2 ≤ v.numArgs by omega) (fun _ _ _ => h3) (by omega) (by simp) hl
  · have hee : entryItems (e.mode false) v.epType v.numArgs = entryItems (e.mode true) v.epType v.numArgs := by
      unfold entryItems
      rw [if_neg h2, if_neg h2]
    have e1 : n + 5 = n' := by rw [hee] at hn; unfold u8 at hn hn'; omega
    refine ⟨by omega, by omega, false, fun j hj => ?_⟩
    have hp : entryPlace v false j = j := by
      unfold entryPlace
      simp [h1]
    rw [hp]
    obtain ⟨kv, c, hl⟩ := hlines j (by omega)
    refine ⟨by omega, kv, c, ?_, hl⟩
    rw [← hl]
    unfold itemEntry
    simp only [if_neg h1, if_neg h2, modes]
    rfl

/-- **What expert mode accepts, normal mode does, showing nothing else.** -/
theorem V1Accepted.normal {e : Env} (hs : Small e) {s' : VS} (h : V1Accepted (e.mode true) s') (h9 : 9 ≤ s'.v.numItems)
    (h128 : s'.v.numItems ≤ 128) (h12 : s'.v.epType = 2 → 12 ≤ s'.v.numItems)
    (hq : s'.v.epType = 1 → ∀ i c, getItemV1 (e.mode true) s'.v i 0 ≠ .ok (b!"?", b!"?") c) :
    ∃ (s : VS) (f : Nat → Nat), V1Accepted (e.mode false) s ∧ s.v = { s'.v with numItems := s.v.numItems } ∧
      s.v.numItems ≤ 128 ∧
      (∀ i j, i < j → j < s.v.numItems → f i < f j) ∧
      ∀ i, i < s.v.numItems → f i < s'.v.numItems ∧ ∃ kv c, getItemV1 (e.mode false) s.v i 0 = .ok kv c ∧
          getItemV1 (e.mode true) s'.v (f i) 0 = .ok kv c := by
  have hs0 : Small (e.mode false) := hs
  have hs1 : Small (e.mode true) := hs
  obtain ⟨n, hr⟩ := readV1_modes false true h.parse
  have hF := readV1_post hs0 _ _ hr
  have hF' := readV1_post hs1 _ _ h.parse
  dsimp only at hF
  obtain ⟨fin, k, hh, hb, hn⟩ := hF.body
  obtain ⟨fin', k', hh', hb', hn'⟩ := hF'.body
  dsimp only at hn hb hh
  rw [mode_expert, if_neg (by decide)] at hn
  rw [mode_expert, if_pos rfl] at hn'
  have hpm : s'.v.header.pmItems = 2 := hh'.2.2.2.choose_spec.2.2.2.2.2
  have hao : s'.v.argsOff < 256 := by
    obtain ⟨z, ha, -⟩ := hb'.args
    rw [ha]; unfold u8; omega
  -- lines of the entry point in expert mode
  have hex : ∀ j, j < s'.v.numItems - 9 → s'.v.numItems ≤ 255 → s'.v.epType ≠ 0 →
      getItemV1 (e.mode true) s'.v (8 + j) 0 = itemEntry (e.mode true) s'.v j 0 := by
    intro j hj hle hep
    unfold getItemV1
    have ht : u16 (s'.v.numItems + 65536 - 9) = s'.v.numItems - 9 := by unfold u16; omega
    rw [if_neg (by omega)]
    simp only [mode_expert, if_true, ht, hpm]
    rw [if_neg (by omega), if_neg (by omega), if_neg (by omega), if_neg (by omega), if_neg (by omega), if_neg (by omega), if_neg (by omega),
      if_pos ⟨by omega, by omega, hep⟩, show 8 + j - 8 = j by omega]
  have hle' : s'.v.numItems ≤ 255 := by rw [hn']; unfold u8; omega
  have hhead : ∀ i, i < 4 → i < n → i < s'.v.numItems →
      getItemV1 (e.mode false) { s'.v with numItems := n } i = getItemV1 (e.mode true) s'.v i := by
    intro i h4 h5 h6
    unfold getItemV1
    rw [if_neg (show ¬ i ≥ n by omega), if_neg (show ¬ i ≥ s'.v.numItems by omega)]
    have : i = 0 ∨ i = 1 ∨ i = 2 ∨ i = 3 := by omega
    rcases this with rfl | rfl | rfl | rfl <;> simp [modes] <;> rfl
  have hvalid : ∃ t, validateV1 (e.mode false) { s'.v with numItems := n } 0 = .ok () t := by
    obtain ⟨t, hv⟩ := h.valid
    refine ⟨t, ?_⟩
    rw [← hv, mode_validateV1, mode_validateV1]
    rfl
  by_cases hep : s'.v.epType = 0
  · have hkk : k = 0 ∧ k' = 0 := by
      obtain ⟨o, o', hs⟩ := hb'.sanity
      unfold checkSanity at hs
      by_cases hbad : s'.v.epType ≠ 1 ∧ s'.v.target.typ ≠ 0 ∧ s'.v.target.typ ≠ 5
      · rw [if_pos hbad] at hs; cases hs
      have ht : s'.v.target.typ = 0 ∨ s'.v.target.typ = 5 := by
        by_cases a : s'.v.target.typ = 0
        · exact .inl a
        · by_cases b : s'.v.target.typ = 5
          · exact .inr b
          · exact absurd ⟨by omega, a, b⟩ hbad
      have hk := hb.target
      have hk' := hb'.target
      dsimp only at hk
      rcases hk with hk | hk | hk | hk | hk <;> rcases hk' with hk' | hk' | hk' | hk' | hk' <;> omega
    obtain ⟨rfl, rfl⟩ := hkk
    rw [hep] at hn hn'
    have e1 : n = 4 := hn
    have e2 : s'.v.numItems = 9 := hn'
    refine ⟨⟨s'.off, { s'.v with numItems := n }⟩, id, ⟨hr, hvalid, fun i hi => ?_⟩, rfl, ?_, fun i j hij _ => hij, fun i hi => ?_⟩
    · dsimp only at hi ⊢
      obtain ⟨kv, c, hl⟩ := h.items i (by omega)
      exact ⟨kv, c, by rw [hhead i (by omega) (by omega) (by omega), hl]⟩
    · dsimp only; omega
    · dsimp only at hi ⊢
      obtain ⟨kv, c, hl⟩ := h.items i (by omega)
      exact ⟨show i < _ by omega, kv, c, by rw [hhead i (by omega) (by omega) (by omega), hl], hl⟩
  obtain ⟨a1, a2, source, a5⟩ := itemEntry_modes (e := e) (v := s'.v) (n := n) (n' := s'.v.numItems) hep hao hb.target hb'.target
    (by obtain ⟨o, o', h⟩ := hb'.sanity; exact ⟨o, o', by rw [← h, mode_checkSanity]⟩) h9 h128 h12 hn hn'
    (fun h1 j c hj hl => hq h1 (8 + j) c (by rw [hex j hj hle' hep]; exact hl))
    (fun j hj => by
      obtain ⟨kv, c, hl⟩ := h.items (8 + j) (by omega)
      rw [hex j hj hle' hep] at hl
      exact ⟨kv, c, hl⟩)
  have hno : ∀ j, j < n - 4 → getItemV1 (e.mode false) { s'.v with numItems := n } (4 + j) 0 =
      itemEntry (e.mode false) { s'.v with numItems := n } j 0 := by
    intro j hj
    unfold getItemV1
    have ht : u16 (n + 65536 - 4) = n - 4 := by unfold u16; omega
    have hu : u8 (4 + j + 2 + 2) = 8 + j := by unfold u8; omega
    rw [if_neg (show ¬ 4 + j ≥ n by omega)]
    simp only [mode_expert, Bool.false_eq_true, if_false, hpm, ht, hu, Nat.reduceAdd]
    rw [if_neg (by omega), if_neg (by omega), if_neg (by omega), if_neg (by omega), if_pos ⟨by omega, by omega⟩, show 8 + j - 8 = j by omega]
  have hline : ∀ i, i < n → (if i < 4 then i else 8 + entryPlace s'.v source (i - 4)) < s'.v.numItems ∧ ∃ kv c,
      getItemV1 (e.mode false) { s'.v with numItems := n } i 0 = .ok kv c ∧
          getItemV1 (e.mode true) s'.v (if i < 4 then i else 8 + entryPlace s'.v source (i - 4)) 0 = .ok kv c := by
    intro i hi
    by_cases h4 : i < 4
    · rw [if_pos h4]
      obtain ⟨kv, c, hl⟩ := h.items i (by omega)
      exact ⟨by omega, kv, c, by rw [hhead i h4 hi (by omega), hl], hl⟩
    · rw [if_neg h4]
      obtain ⟨b1, kv, c, b2, b3⟩ := a5 (i - 4) (by omega)
      refine ⟨by omega, kv, c, ?_, ?_⟩
      · have := hno (i - 4) (by omega)
        rw [show 4 + (i - 4) = i by omega] at this
        rw [this, b2]
      · rw [hex _ b1 hle' hep]; exact b3
  refine ⟨⟨s'.off, { s'.v with numItems := n }⟩, fun i => if i < 4 then i else 8 + entryPlace s'.v source (i - 4), ⟨hr, hvalid, fun i hi => ?_⟩, rfl, a2,
    fun i j hij hj => ?_, hline⟩
  · obtain ⟨-, kv, c, b2, -⟩ := hline i hi
    exact ⟨kv, c, b2⟩
  · dsimp only
    unfold entryPlace
    (repeat' split) <;> omega

end Casper
