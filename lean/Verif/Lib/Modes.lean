import Verif.Lib.ModeAttr
import Verif.Lib.DeployFacts
import Verif.Model.TxV1
/-
What expert mode has an influence on: nothing but the counts of lines, in parsing.
-/
namespace Casper
open M

/-- The same environment in the other mode. -/
def Env.mode (e : Env) (b : Bool) : Env := { e with expert := b }

section
variable (e : Env) (b : Bool)

@[modes] theorem mode_buf : (e.mode b).buf = e.buf := rfl
@[modes] theorem mode_blake : (e.mode b).blake = e.blake := rfl
@[modes] theorem mode_wasm : (e.mode b).wasm = e.wasm := rfl
@[modes] theorem mode_expert : (e.mode b).expert = b := rfl
@[modes] theorem mode_readU8 : readU8 (e.mode b) = readU8 e := rfl
@[modes] theorem mode_slice (i n : Nat) : slice (e.mode b) i n = slice e i n := rfl
@[modes] theorem mode_byteAt (i : Nat) : byteAt (e.mode b) i = byteAt e i := rfl
@[modes] theorem mode_readLE (n : Nat) : readLE (e.mode b) n = readLE e n := by
  induction n with
  | zero => rfl
  | succ n ih => unfold readLE; rw [ih, mode_readU8]
@[modes] theorem mode_readU16 : readU16 (e.mode b) = readU16 e := mode_readLE e b 2
@[modes] theorem mode_readU32 : readU32 (e.mode b) = readU32 e := mode_readLE e b 4
@[modes] theorem mode_readU64 : readU64 (e.mode b) = readU64 e := mode_readLE e b 8
@[modes] theorem mode_parseItem : parseItem (e.mode b) = parseItem e := by unfold parseItem; rw [mode_readU32]; rfl
@[modes] theorem mode_readBytes : readBytes (e.mode b) = readBytes e := by unfold readBytes; rw [mode_readU32]; rfl
@[modes] theorem mode_copyItem (c : Nat) : copyItem (e.mode b) c = copyItem e c := by unfold copyItem; rw [mode_readU32]; rfl
@[modes] theorem mode_readTags (n : Nat) : readTags (e.mode b) n = readTags e n := by
  induction n with
  | zero => rfl
  | succ n ih => unfold readTags; rw [ih, mode_readU8]
@[modes] theorem mode_addlType (k t o : Nat) : addlType (e.mode b) k t o = addlType e k t o := by
  induction k generalizing t o with
  | zero => rfl
  | succ k ih =>
    have ih' : addlType (e.mode b) k = addlType e k := by funext t o; exact ih t o
    unfold addlType
    simp only [ih', mode_readU8, mode_readU32, mode_readTags]
@[modes] theorem mode_getType (o : Nat) : getType (e.mode b) o = getType e o := by unfold getType; simp only [mode_readU8, mode_addlType]
@[modes] theorem mode_parseArgs (n : Nat) : parseArgs (e.mode b) n = parseArgs e n := by
  induction n with
  | zero => rfl
  | succ n ih => unfold parseArgs; simp only [ih, modes]

@[modes] theorem mode_searchFrom (name : Bytes) (start : Nat) (n : Nat) : searchFrom (e.mode b) name start n = searchFrom e name start n := by
  induction n with
  | zero => rfl
  | succ n ih => unfold searchFrom; simp only [ih, modes]

@[modes] theorem mode_searchArgs (name : Bytes) (n : Nat) : searchArgs (e.mode b) name n = searchArgs e name n := by unfold searchArgs; simp only [modes]

@[modes] theorem mode_getData (name : Bytes) (n : Nat) : getData (e.mode b) name n = getData e name n := by
  induction n with
  | zero => rfl
  | succ n ih => unfold getData; simp only [ih, modes]

@[modes] theorem mode_checkArg (n : Nat) (name : Bytes) (c : Nat → Nat → Bool) : checkArg (e.mode b) n name c = checkArg e n name c := by unfold checkArg; simp only [modes]

@[modes] theorem mode_countArg (n : Nat) (name : Bytes) (c : Nat → Nat → Bool) : countArg (e.mode b) n name c = countArg e n name c := by unfold countArg; simp only [modes]

@[modes] theorem mode_amountBignum (n : Nat) : amountBignum (e.mode b) n = amountBignum e n := by unfold amountBignum; simp only [modes]

@[modes] theorem mode_displayMotes (t n : Nat) : displayMotes (e.mode b) t n = displayMotes e t n := by unfold displayMotes; simp only [modes]

@[modes] theorem mode_printBytes (o n : Nat) : printBytes (e.mode b) o n = printBytes e o n := by unfold printBytes; simp only [modes]

@[modes] theorem mode_printAddress (o n : Nat) : printAddress (e.mode b) o n = printAddress e o n := by unfold printAddress; simp only [modes]

@[modes] theorem mode_printByHash (o n : Nat) : printByHash (e.mode b) o n = printByHash e o n := by unfold printByHash; simp only [modes]

@[modes] theorem mode_displayString (o n : Nat) : displayString (e.mode b) o n = displayString e o n := by unfold displayString; simp only [modes]

@[modes] theorem mode_displayArg (t n : Nat) : displayArg (e.mode b) t n = displayArg e t n := by unfold displayArg; simp only [modes]

@[modes] theorem mode_showArgsHash (a z : Nat) (x : Bytes) : showArgsHash (e.mode b) a z x = showArgsHash e a z x := by unfold showArgsHash; simp only [modes]

@[modes] theorem mode_showArg (k x : Bytes) (n : Nat) : showArg (e.mode b) k x n = showArg e k x n := by unfold showArg; simp only [modes]

@[modes] theorem mode_showMotes (k x : Bytes) (n : Nat) : showMotes (e.mode b) k x n = showMotes e k x n := by unfold showMotes; simp only [modes]

@[modes] theorem mode_indexPart (h : Header) (p : HPart) : indexPart (e.mode b) h p = indexPart e h p := by unfold indexPart; simp only [modes]; rfl

@[modes] theorem mode_checkTransferArgs (n : Nat) : checkTransferArgs (e.mode b) n = checkTransferArgs e n := by unfold checkTransferArgs; simp only [modes]

@[modes] theorem mode_checkPaymentArgs (n : Nat) : checkPaymentArgs (e.mode b) n = checkPaymentArgs e n := by unfold checkPaymentArgs; simp only [modes]

@[modes] theorem mode_parseSystemPayment (n : Nat) : parseSystemPayment (e.mode b) n = parseSystemPayment e n := by unfold parseSystemPayment; simp only [modes]

@[modes] theorem mode_checkDelegationItems (n : Nat) (r : Bool) : checkDelegationItems (e.mode b) n r = checkDelegationItems e n r := by unfold checkDelegationItems; simp only [modes]

@[modes] theorem mode_auctionKind : auctionKind (e.mode b) = auctionKind e := by unfold auctionKind; simp only [modes]

@[modes] theorem mode_parseAuction (n : Nat) : parseAuction (e.mode b) n = parseAuction e n := by unfold parseAuction; simp only [modes]; rfl

@[modes] theorem mode_checkNewValidator (n : Nat) (r : Bool) : checkNewValidator (e.mode b) n r = checkNewValidator e n r := by unfold checkNewValidator; simp only [modes]

@[modes] theorem mode_delegationLines (n : Nat) (r : Bool) : delegationLines (e.mode b) n r = delegationLines e n r := by unfold delegationLines; simp only [modes]

@[modes] theorem mode_parseVersion : parseVersion (e.mode b) = parseVersion e := by unfold parseVersion; simp only [modes]

@[modes] theorem mode_finishItem (n o : Nat) : finishItem (e.mode b) n o = finishItem e n o := by unfold finishItem; simp only [modes]

@[modes] theorem mode_readDeployHeader : readDeployHeader (e.mode b) = readDeployHeader e := by unfold readDeployHeader; simp only [modes]; rfl

@[modes] theorem mode_validateDeploy (d : Deploy) : validateDeploy (e.mode b) d = validateDeploy e d := by unfold validateDeploy; simp only [modes]; rfl

@[modes] theorem mode_itemSystemPayment (it : Item) (i : Nat) : itemSystemPayment (e.mode b) it i = itemSystemPayment e it i := by unfold itemSystemPayment; simp only [modes]

@[modes] theorem mode_renderEntryPoint (o : Nat) : renderEntryPoint (e.mode b) o = renderEntryPoint e o := by unfold renderEntryPoint; simp only [modes]

@[modes] theorem mode_contractHash : contractHash (e.mode b) = contractHash e := by unfold contractHash; simp only [modes]

end

/-! ### Two runs that differ in the number of fixed lines -/

/-- States of an item that differ at most in the number of fixed lines and, unless `g`, in that of the argument
lines. -/
structure Near (g : Bool) (s t : IS) : Prop where
  off : t.off = s.off
  epo : t.epo = s.epo
  typ : t.item.typ = s.item.typ
  special : t.item.special = s.item.special
  total : t.item.total = s.item.total
  generic : t.item.generic = s.item.generic
  itemOffset : t.item.itemOffset = s.item.itemOffset
  hasAmount : t.item.hasAmount = s.item.hasAmount
  runtime : g = true → t.item.runtime = s.item.runtime

theorem Near.refl (g : Bool) (s : IS) : Near g s s := ⟨rfl, rfl, rfl, rfl, rfl, rfl, rfl, rfl, fun _ => rfl⟩

/-- Outcomes that differ no more than the states do. -/
inductive Close (g : Bool) {α : Type} : Res IS α → Res IS α → Prop
  | ok (a : α) {s t : IS} : Near g s t → Close g (.ok a s) (.ok a t)
  | err (x : Nat) {s t : IS} : Near g s t → Close g (.err x s) (.err x t)
  | fault (f : Fault) : Close g (.fault f) (.fault f)

/-- Two programs with close outcomes. -/
def Modal (g : Bool) {α : Type} (m' m : M IS α) : Prop := ∀ s t, Near g s t → Close g (m s) (m' t)

section
variable {g : Bool} {α β : Type}

theorem Modal.bind {m m' : M IS α} {f f' : α → M IS β} (hm : Modal g m' m) (hf : ∀ a, Modal g (f' a) (f a)) :
    Modal g (m' >>= f') (m >>= f) := by
  intro s t h
  have := hm s t h
  rw [bind_run, bind_run]
  generalize m s = r at this ⊢
  generalize m' t = r' at this ⊢
  cases this with
  | ok a h' => exact hf a _ _ h'
  | err x h' => exact .err x h'
  | fault f => exact .fault f
theorem Modal.pure (a : α) : Modal g (Pure.pure a : M IS α) (Pure.pure a) := fun _ _ h => .ok a h
theorem Modal.fail (x : Nat) : Modal g (M.fail x : M IS α) (M.fail x) := fun _ _ h => .err x h
theorem Modal.ite {c : Prop} [Decidable c] {m n m' n' : M IS α} (hm : c → Modal g m' m) (hn : ¬ c → Modal g n' n) :
    Modal g (if c then m' else n') (if c then m else n) := by
  by_cases h : c
  · rw [if_pos h, if_pos h]; exact hm h
  · rw [if_neg h, if_neg h]; exact hn h
theorem Modal.require (c : Prop) [Decidable c] (x : Nat) : Modal g (M.require c x : M IS Unit) (M.require c x) := by
  intro s t h
  rw [require_run, require_run]
  split
  · exact .ok _ h
  · exact .err _ h
theorem Modal.attempt {m m' : M IS α} (hm : Modal g m' m) : Modal g (M.attempt m') (M.attempt m) := by
  intro s t h
  have := hm s t h
  rw [attempt_run, attempt_run]
  generalize m s = r at this ⊢
  generalize m' t = r' at this ⊢
  cases this with
  | ok a h' => exact .ok _ h'
  | err x h' => exact .ok _ h'
  | fault f => exact .fault f
theorem Modal.lp (m : P α) : Modal g (lp m) (lp m) := by
  intro s t h
  unfold Casper.lp
  rw [h.off]
  cases m s.off with
  | ok a o => exact .ok a ⟨rfl, h.2, h.3, h.4, h.5, h.6, h.7, h.8, h.9⟩
  | err x o => exact .err x ⟨rfl, h.2, h.3, h.4, h.5, h.6, h.7, h.8, h.9⟩
  | fault f => exact .fault f
/-- An assignment that keeps items close. -/
theorem Modal.upd {f f' : Item → Item} (h : ∀ s t : IS, Near g s t → Near g { s with item := f s.item } { t with item := f' t.item }) :
    Modal g (upd f') (upd f) := fun s t hn => .ok () (h s t hn)
theorem Modal.special (v : Nat) : Modal g (Casper.upd fun i => { i with special := v }) (Casper.upd fun i => { i with special := v }) :=
  .upd fun _ _ h => ⟨h.1, h.2, h.3, rfl, h.5, h.6, h.7, h.8, h.9⟩
/-- Reading the state, when what follows is close whatever the state. -/
theorem Modal.getBind {f f' : IS → M IS β} (h : ∀ s t, Near g s t → Close g (f s s) (f' t t)) : Modal g (M.get >>= f') (M.get >>= f) :=
  fun s t hn => h s t hn
end

theorem Modal_checkDelegationItems (e : Env) (n : Nat) (r : Bool) : Modal true (checkDelegationItems e n r) (checkDelegationItems e n r) := by
  unfold checkDelegationItems
  refine .bind (.lp _) fun c => ?_
  cases countStep 0 c with
  | none => exact .pure _
  | some a =>
    refine .bind (.upd fun s t h => ⟨h.1, h.2, h.3, h.4, h.5, h.6, h.7, rfl, h.9⟩) fun _ => .bind (.lp _) fun c => ?_
    cases countStep a c with
    | none => exact .pure _
    | some b =>
      refine .bind (.lp _) fun c => ?_
      cases countStep b c with
      | none => exact .pure _
      | some found =>
        refine .bind (.lp _) fun _ => .bind (.lp _) fun _ => .bind (.lp _) fun _ => .getBind fun s t h => ?_
        rw [h.special]
        have key : ∀ fx, Modal true (upd fun i => { i with runtime := i.runtime + 2, fixed := fx, generic := 1 })
            (upd fun i => { i with runtime := i.runtime + 2, fixed := fx, generic := 1 }) := fun fx =>
          .upd fun s t h => ⟨h.1, h.2, h.3, h.4, h.5, rfl, h.7, h.8, fun _ => by dsimp only; rw [h.9 rfl]⟩
        refine (Modal.ite (fun _ => key _) fun _ => .ite (fun _ => .bind (.lp _) fun _ => .upd fun s t h => ?_) fun _ => .upd fun s t h => ?_ :
          Modal true _ _) s t h
        all_goals exact ⟨h.1, h.2, h.3, h.4, h.5, (by first | rfl | exact h.6), h.7, h.8, fun _ => by dsimp only; rw [h.9 rfl]⟩

theorem Modal_delegationLines (e : Env) (n : Nat) (r : Bool) : Modal true (delegationLines e n r) (delegationLines e n r) := by
  unfold delegationLines
  refine .bind (.attempt (Modal_checkDelegationItems e n r)) fun x => ?_
  cases x with
  | ok _ => exact .pure _
  | error x =>
    dsimp only
    exact .ite (fun _ => .bind (.attempt (.lp _)) fun _ => .upd fun s t h => ⟨h.1, h.2, h.3, h.4, h.5, rfl, h.7, h.8, fun _ => by dsimp only; rw [h.9 rfl]⟩)
      fun _ => .fail _

theorem Modal_parseAuction (e : Env) (n : Nat) : Modal true (parseAuction e n) (parseAuction e n) := by
  unfold parseAuction
  refine .getBind fun s t h => ?_
  dsimp only
  rw [h.off]
  refine (Modal.bind (.upd fun s t h => ⟨h.1, h.2, h.3, h.4, h.5, h.6, rfl, h.8, h.9⟩) fun _ => .bind (.attempt (.lp _)) fun r => .bind (.bind (.attempt (.lp _)) fun x => ?_)
    fun ha => .bind (.lp _) fun k => .bind (.upd fun s t h => ⟨h.1, h.2, h.3, rfl, h.5, h.6, h.7, h.8, h.9⟩) fun _ => .bind (.lp _) fun _ => .pure _ : Modal true _ _) s t h
  cases x with
  | ok x =>
    refine .bind (.require _ _) fun _ => .getBind fun s t h => ?_
    rw [h.off]
    exact (Modal.bind (.require _ _) fun _ => .pure _ : Modal true _ _) s t h
  | error x =>
    exact .ite (fun _ => .fail _) fun _ => .ite (fun _ => .fail _) fun _ =>
      .bind (.upd fun s t h => ⟨h.1, h.2, h.3, h.4, h.5, rfl, by dsimp only; rw [h.7], h.8, h.9⟩) fun _ => .pure _

theorem Modal_checkNewValidator (e : Env) (n : Nat) (r : Bool) : Modal true (checkNewValidator e n r) (checkNewValidator e n r) := by
  unfold checkNewValidator
  exact .ite (fun _ => .lp _) fun _ => .pure _

theorem Modal_finishDelegation (e : Env) (a b : Bool) (c : Bool) : Modal true (finishDelegation (e.mode a) c) (finishDelegation (e.mode b) c) := by
  have fin : ∀ (a : Bool), ∀ s t : IS, Near true s t → ∃ u : IS, ((if (e.mode a).expert && c then upd fun i =>
      let ver := if i.typ = tyVerByHash ∨ i.typ = tyVerByName then 1 else 0
      { i with fixed := 2 + ver + (if i.generic ≠ 0 then 1 else 0) } else pure () : M IS Unit) t) = .ok () u ∧ Near true s u := by
    intro a s t h
    split
    · exact ⟨_, rfl, h.1, h.2, h.3, h.4, h.5, h.6, h.7, h.8, h.9⟩
    · exact ⟨_, rfl, h⟩
  unfold finishDelegation
  refine .bind (.upd fun s t h => ?_) fun _ s t h => ?_
  · rw [h.special]
    split
    · exact ⟨h.1, h.2, h.3, rfl, h.5, rfl, h.7, h.8, h.9⟩
    · exact h
  · obtain ⟨u, h1, h2⟩ := fin a s t h
    obtain ⟨v, h3, h4⟩ := fin b s s (.refl _ _)
    dsimp only at h1 h3 ⊢
    rw [h1, h3]
    exact .ok () ⟨h2.1.trans h4.1.symm, h2.2.trans h4.2.symm, h2.3.trans h4.3.symm, h2.4.trans h4.4.symm, h2.5.trans h4.5.symm, h2.6.trans h4.6.symm,
      h2.7.trans h4.7.symm, h2.8.trans h4.8.symm, fun h => (h2.9 h).trans (h4.9 h).symm⟩

theorem Modal_parseDelegation (e : Env) (a b : Bool) (n : Nat) (r : Bool) :
    Modal true (parseDelegation (e.mode a) n r) (parseDelegation (e.mode b) n r) := by
  unfold parseDelegation
  refine .getBind fun s t h => ?_
  dsimp only
  rw [h.typ]
  simp only [modes]
  exact (Modal.bind (.ite (fun _ => Modal_parseAuction e n) fun _ => .pure _) fun x => .bind (Modal_checkNewValidator e n _) fun _ =>
    .bind (Modal_delegationLines e n _) fun _ => Modal_finishDelegation e a b _ : Modal true _ _) s t h

theorem Modal_versionStep (e : Env) (a b v : Bool) : Modal true (versionStep (e.mode a) v) (versionStep (e.mode b) v) := by
  unfold versionStep
  rw [mode_parseVersion, mode_parseVersion]
  refine .ite (fun _ => .bind (.lp _) fun _ => ?_) fun _ => .pure _
  have fin : ∀ (a : Bool), ∀ s t : IS, Near true s t → ∃ u : IS, ((if a = true then upd fun i => { i with fixed := i.fixed + 1 } else pure () : M IS Unit) t) = .ok () u ∧ Near true s u := by
    intro a s t h
    split
    · exact ⟨_, rfl, h.1, h.2, h.3, h.4, h.5, h.6, h.7, h.8, h.9⟩
    · exact ⟨_, rfl, h⟩
  intro s t h
  obtain ⟨u, h1, h2⟩ := fin (e.mode a).expert s t h
  obtain ⟨v, h3, h4⟩ := fin (e.mode b).expert s s (.refl _ _)
  rw [h1, h3]
  exact .ok () ⟨h2.1.trans h4.1.symm, h2.2.trans h4.2.symm, h2.3.trans h4.3.symm, h2.4.trans h4.4.symm, h2.5.trans h4.5.symm, h2.6.trans h4.6.symm,
      h2.7.trans h4.7.symm, h2.8.trans h4.8.symm, fun h => (h2.9 h).trans (h4.9 h).symm⟩

theorem Modal_finishItem (g : Bool) (e : Env) (n o : Nat) : Modal g (finishItem e n o) (finishItem e n o) := by
  unfold finishItem
  exact .bind (.lp _) fun _ => .bind (.lp _) fun _ => .upd fun s t h => ⟨h.1, h.2, h.3, h.4, rfl, h.6, h.7, h.8, h.9⟩

theorem Modal_checkEntrypoint (e : Env) (a b : Bool) : Modal true (checkEntrypoint (e.mode a)) (checkEntrypoint (e.mode b)) := by
  unfold checkEntrypoint
  simp only [modes]
  refine .bind (fun s t h => .ok () ⟨h.1, h.1, h.3, h.4, h.5, h.6, h.7, h.8, h.9⟩) fun _ => .bind (.lp _) fun name =>
    .bind (fun s t h => .ok () ⟨h.1, h.2, h.3, h.4, h.5, h.6, h.1, h.8, h.9⟩) fun _ => .bind (.lp _) fun n =>
    .bind (.upd fun s t h => ⟨h.1, h.2, h.3, by dsimp only; rw [h.4], h.5, h.6, h.7, h.8, h.9⟩) fun _ => .bind (Modal_parseDelegation e a b _ _) fun _ => .pure _

theorem Modal_parseSystemPayment (e : Env) (n : Nat) : Modal true (parseSystemPayment e n) (parseSystemPayment e n) := by
  unfold parseSystemPayment
  refine .ite (fun _ => .fail _) fun _ => .bind (.attempt ?_) fun x => ?_
  · unfold checkPaymentArgs
    exact .bind (.require _ _) fun _ => .bind (.lp _) fun _ => .upd fun s t h => ⟨h.1, h.2, h.3, h.4, h.5, h.6, h.7, rfl, h.9⟩
  · cases x with
    | ok _ => exact .upd fun s t h => ⟨h.1, h.2, h.3, h.4, h.5, rfl, h.7, h.8, fun _ => by dsimp only; rw [h.9 rfl]⟩
    | error x =>
      exact .ite (fun _ => .fail _) fun _ => .upd fun s t h => ⟨h.1, h.2, h.3, h.4, h.5, rfl, h.7, h.8, fun _ => by dsimp only; rw [h.9 rfl]⟩

theorem Modal_parseNativeTransfer (e : Env) (a b : Bool) (n : Nat) : Modal false (parseNativeTransfer (e.mode a) n) (parseNativeTransfer (e.mode b) n) := by
  unfold parseNativeTransfer
  simp only [modes]
  refine .bind (.lp _) fun found => .ite (fun _ => .ite (fun _ => .upd fun s t h => ?_) fun _ => .bind (.upd fun s t h => ?_) fun _ => .fail _) fun _ => .upd fun s t h => ?_
  all_goals exact ⟨h.1, h.2, h.3, h.4, h.5, rfl, h.7, h.8, nofun⟩

/-- Both modes read an item alike. -/
theorem Modal_parseDeployItem (e : Env) (a b : Bool) (pay : Bool) (s : IS) :
    Close (s.item.typ != tyTransfer) (parseDeployItem (e.mode b) pay s) (parseDeployItem (e.mode a) pay s) := by
  by_cases h5 : s.item.typ = tyTransfer
  · rw [h5]
    unfold parseDeployItem parseTransfer
    rw [bind_run, bind_run]
    simp only [upd, modify_run, Res.bind_ok]
    rw [bind_run, bind_run]
    simp only [get_run, Res.bind_ok, h5]
    exact (Modal.getBind fun s t h => (by
      rw [h.off]
      simp only [modes]
      exact (Modal.bind (.lp _) fun n => .bind (Modal_parseNativeTransfer e a b n) fun _ => .bind
        (.special _) fun _ => Modal_finishItem _ e _ _ : Modal false _ _) s t h) : Modal false _ _) _ _ (.refl _ _)
  · have : (s.item.typ != tyTransfer) = true := by simpa using h5
    rw [this]
    unfold parseDeployItem
    rw [bind_run, bind_run]
    simp only [upd, modify_run, Res.bind_ok]
    rw [bind_run, bind_run]
    simp only [get_run, Res.bind_ok]
    refine (Modal.ite (fun _ => ?_) fun _ => .ite (fun _ => ?_) fun _ => .ite (fun _ => ?_) fun _ => .ite (fun h => absurd h h5) fun _ => .fail _ : Modal true _ _) _ _ (.refl _ _)
    · unfold parseModuleBytes
      refine .getBind fun s t h => ?_
      dsimp only
      rw [h.off]
      simp only [modes]
      refine (Modal.bind (.lp _) fun _ => .bind (.lp _) fun n => ?_ : Modal true _ _) s t h
      cases pay with
      | true => exact .bind (Modal_parseSystemPayment e n) fun _ => .bind (.special _) fun _ => Modal_finishItem _ e _ _
      | false => exact .bind (Modal_parseDelegation e a b n false) fun _ => Modal_finishItem _ e _ _
    · unfold parseByHash
      refine .getBind fun s t h => ?_
      rw [h.off]
      simp only [modes]
      refine (Modal.bind (.lp _) fun _ => .getBind fun s t h => ?_ : Modal true _ _) s t h
      rw [h.typ]
      exact (Modal.bind (Modal_versionStep e a b _) fun _ => .bind (Modal_checkEntrypoint e a b) fun _ => Modal_finishItem _ e _ _ : Modal true _ _) s t h
    · unfold parseByName
      refine .getBind fun s t h => ?_
      rw [h.off]
      simp only [modes]
      refine (Modal.bind (.lp _) fun _ => .getBind fun s t h => ?_ : Modal true _ _) s t h
      rw [h.typ]
      exact (Modal.bind (Modal_versionStep e a b _) fun _ => .bind (Modal_checkEntrypoint e a b) fun _ => Modal_finishItem _ e _ _ : Modal true _ _) s t h

end Casper
