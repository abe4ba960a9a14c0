import Verif.Lib.Post
import Verif.Lib.Walk
import Verif.Lib.NF
/-
`Bd e m`: if the cursor is not beyond the data before `m`, then not after `m` either (whether `m` succeeds or fails).
-/
namespace Casper
open M

/-- The cursor stays in the data. -/
def Bd (e : Env) {α : Type} (m : P α) : Prop :=
  ∀ s, s ≤ e.buf.length → (∀ a t, m s = .ok a t → t ≤ e.buf.length) ∧ (∀ x t, m s = .err x t → t ≤ e.buf.length)

/-- The same for programs that parse an item. -/
def BdI (e : Env) {α : Type} (m : M IS α) : Prop :=
  ∀ s, s.off ≤ e.buf.length → (∀ a t, m s = .ok a t → t.off ≤ e.buf.length) ∧ (∀ x t, m s = .err x t → t.off ≤ e.buf.length)

section
variable {e : Env} {α β : Type}

theorem Bd.bind {m : P α} {f : α → P β} (hm : Bd e m) (hf : ∀ a, Bd e (f a)) : Bd e (m >>= f) := by
  intro s hs
  have h := hm s hs
  constructor <;> intro x t ht <;> rw [bind_run] at ht <;> cases hr : m s <;> rw [hr] at ht
  · exact (hf _ _ (h.1 _ _ hr)).1 _ _ ht
  · cases ht
  · cases ht
  · exact (hf _ _ (h.1 _ _ hr)).2 _ _ ht
  · simp only [Res.bind_err, Res.err.injEq] at ht; obtain ⟨-, rfl⟩ := ht; exact h.2 _ _ hr
  · cases ht
theorem Bd.getBind {f : Nat → P β} (hf : ∀ a, a ≤ e.buf.length → Bd e (f a)) : Bd e (M.get >>= f) := by
  intro s hs
  have := hf s hs s hs
  exact ⟨fun a t h => this.1 a t h, fun x t h => this.2 x t h⟩
theorem Bd.pure (a : α) : Bd e (Pure.pure a : P α) := by
  intro s hs; refine ⟨fun b t h => ?_, fun x t h => ?_⟩ <;> cases h; exact hs
theorem Bd.get : Bd e (M.get : P Nat) := by
  intro s hs; refine ⟨fun b t h => ?_, fun x t h => ?_⟩ <;> cases h; exact hs
theorem Bd.set {a : Nat} (h : a ≤ e.buf.length) : Bd e (M.set a : P Unit) := by
  intro s hs; refine ⟨fun b t h' => ?_, fun x t h' => ?_⟩ <;> cases h'; exact h
theorem Bd.fail (x : Nat) : Bd e (M.fail x : P α) := by
  intro s hs; refine ⟨fun b t h => ?_, fun x t h => ?_⟩ <;> cases h; exact hs
theorem Bd.abort (x : Fault) : Bd e (M.abort x : P α) := by
  intro s hs; refine ⟨fun b t h => ?_, fun x t h => ?_⟩ <;> cases h
theorem Bd.require (c : Prop) [Decidable c] (x : Nat) : Bd e (M.require c x : P Unit) := by
  intro s hs
  unfold M.require
  split
  · exact Bd.pure () s hs
  · exact Bd.fail x s hs
theorem Bd.ite {c : Prop} [Decidable c] {m n : P α} (hm : c → Bd e m) (hn : ¬ c → Bd e n) : Bd e (if c then m else n) := by
  split
  · exact hm ‹_›
  · exact hn ‹_›
theorem Bd.attempt {m : P α} (hm : Bd e m) : Bd e (M.attempt m) := by
  intro s hs
  have h := hm s hs
  refine ⟨fun r t ht => ?_, fun x t ht => ?_⟩
  · rcases attempt_eq_ok.1 ht with ⟨a, -, h1⟩ | ⟨x, -, h1⟩
    · exact h.1 _ _ h1
    · exact h.2 _ _ h1
  · rw [attempt_run] at ht
    cases hr : m s <;> rw [hr] at ht <;> cases ht

theorem BdI.bind {m : M IS α} {f : α → M IS β} (hm : BdI e m) (hf : ∀ a, BdI e (f a)) : BdI e (m >>= f) := by
  intro s hs
  have h := hm s hs
  constructor <;> intro x t ht <;> rw [bind_run] at ht <;> cases hr : m s <;> rw [hr] at ht
  · exact (hf _ _ (h.1 _ _ hr)).1 _ _ ht
  · cases ht
  · cases ht
  · exact (hf _ _ (h.1 _ _ hr)).2 _ _ ht
  · simp only [Res.bind_err, Res.err.injEq] at ht; obtain ⟨-, rfl⟩ := ht; exact h.2 _ _ hr
  · cases ht
theorem BdI.getBind {f : IS → M IS β} (hf : ∀ a : IS, a.off ≤ e.buf.length → BdI e (f a)) : BdI e (M.get >>= f) := by
  intro s hs
  have := hf s hs s hs
  exact ⟨fun a t h => this.1 a t h, fun x t h => this.2 x t h⟩
theorem BdI.pure (a : α) : BdI e (Pure.pure a : M IS α) := by
  intro s hs; refine ⟨fun b t h => ?_, fun x t h => ?_⟩ <;> cases h; exact hs
theorem BdI.get : BdI e (M.get : M IS IS) := by
  intro s hs; refine ⟨fun b t h => ?_, fun x t h => ?_⟩ <;> cases h; exact hs
theorem BdI.fail (x : Nat) : BdI e (M.fail x : M IS α) := by
  intro s hs; refine ⟨fun b t h => ?_, fun x t h => ?_⟩ <;> cases h; exact hs
theorem BdI.require (c : Prop) [Decidable c] (x : Nat) : BdI e (M.require c x : M IS Unit) := by
  intro s hs
  unfold M.require
  split
  · exact BdI.pure () s hs
  · exact BdI.fail x s hs
theorem BdI.ite {c : Prop} [Decidable c] {m n : M IS α} (hm : c → BdI e m) (hn : ¬ c → BdI e n) : BdI e (if c then m else n) := by
  split
  · exact hm ‹_›
  · exact hn ‹_›
theorem BdI.attempt {m : M IS α} (hm : BdI e m) : BdI e (M.attempt m) := by
  intro s hs
  have h := hm s hs
  refine ⟨fun r t ht => ?_, fun x t ht => ?_⟩
  · rcases attempt_eq_ok.1 ht with ⟨a, -, h1⟩ | ⟨x, -, h1⟩
    · exact h.1 _ _ h1
    · exact h.2 _ _ h1
  · rw [attempt_run] at ht
    cases hr : m s <;> rw [hr] at ht <;> cases ht
theorem BdI_upd (f : Item → Item) : BdI e (upd f) := by
  intro s hs; refine ⟨fun b t h => ?_, fun x t h => ?_⟩ <;> cases h; exact hs
theorem BdI_lp {m : P α} (h : Bd e m) : BdI e (lp m) := by
  intro s hs
  have := h s.off hs
  unfold lp
  refine ⟨fun a t ht => ?_, fun x t ht => ?_⟩ <;> cases hr : m s.off <;> rw [hr] at ht <;> cases ht
  · exact this.1 _ _ hr
  · exact this.2 _ _ hr
end

/-! ### Readers -/

theorem Bd_readU8 (e : Env) : Bd e (readU8 e) := by
  intro s hs
  have h := safe_iff.1 (safe_readU8 e s)
  exact ⟨fun a t ht => (h.1 a t ht).2.2, fun x t ht => by rw [(h.2.1 x t ht).2]; exact hs⟩
theorem Bd_readLE (e : Env) (n : Nat) : Bd e (readLE e n) := by
  induction n with
  | zero => exact Bd.pure 0
  | succ n ih => rw [readLE]; exact .bind (Bd_readU8 e) fun _ => .bind ih fun _ => .pure _
theorem Bd_getType (e : Env) (o : Nat) : Bd e (getType e o) := by
  unfold getType
  refine .bind (Bd_readU8 e) fun t => .bind (.require _ _) fun _ => .bind ?_ fun _ => .pure _
  intro s hs
  have h := safe_iff.1 (addl_safe3 (e := e) (f := 0) (t := t) (opt := o) s)
  refine ⟨fun a u hu => ?_, fun x u hu => ?_⟩
  · have := h.1 a u hu; unfold Fwd at this; omega
  · have := (h.2.1 x u hu).2; unfold Fwd at this; omega
theorem Bd_parseItem (e : Env) : Bd e (parseItem e) := by
  unfold parseItem
  refine .bind (Bd_readLE e 4) fun n => .getBind fun a _ => .ite (fun _ => .fail _) fun h => .set ?_
  unfold u32 at h
  unfold u16
  omega
theorem Bd_slice (e : Env) (o n : Nat) : Bd e (slice e o n) := by
  unfold slice
  intro s hs
  split
  · exact Bd.pure _ s hs
  · exact Bd.abort _ s hs
theorem Bd_totalLength (e : Env) (n : Nat) : Bd e (totalLength n) := by unfold totalLength; walk Bd
theorem Bd_parseVersion (e : Env) : Bd e (parseVersion e) := by unfold parseVersion; walk Bd
theorem Bd_copyItem (e : Env) (cap : Nat) : Bd e (copyItem e cap) := by
  unfold copyItem
  refine .bind (Bd_readLE e 4) fun n => ?_
  intro s hs
  rw [bind_run, get_run, Res.bind_ok]
  split
  · exact Bd.fail _ s hs
  rename_i hc
  rw [bind_run]
  cases hr : slice e s n s with
  | err x t => exfalso; unfold slice at hr; split at hr <;> cases hr
  | fault f => constructor <;> intro a t h <;> cases h
  | ok xs t =>
    obtain ⟨h1, h2, rfl⟩ := slice_post xs t hr
    rw [Res.bind_ok]
    constructor <;> intro a t h <;> cases h
    unfold u16
    omega
theorem Bd_parseArgs (e : Env) (n : Nat) : Bd e (parseArgs e n) := by
  induction n with
  | zero => exact Bd.pure ()
  | succ n ih =>
    rw [parseArgs]
    exact .bind (Bd_parseItem e) fun _ => .bind (Bd_parseItem e) fun _ => .bind (Bd_getType e 0) fun _ => ih
theorem Bd_searchFrom (e : Env) (name : Bytes) {s : Nat} (hs : s ≤ e.buf.length) (n : Nat) : Bd e (searchFrom e name s n) := by
  induction n with
  | zero => rw [searchFrom]; exact .bind (.set hs) fun _ => .fail _
  | succ n ih =>
    rw [searchFrom]
    refine .bind (Bd_copyItem e _) fun _ => .ite (fun _ => ?_) fun _ => ?_
    · exact .bind (Bd_parseItem e) fun _ => .bind (Bd_getType e _) fun _ => .bind (.set hs) fun _ => .pure _
    · exact .bind (Bd_parseItem e) fun _ => .bind (Bd_getType e _) fun _ => ih
theorem Bd_searchArgs (e : Env) (name : Bytes) (n : Nat) : Bd e (searchArgs e name n) := by
  unfold searchArgs
  exact .getBind fun a ha => Bd_searchFrom e name ha n
theorem Bd_getData (e : Env) (name : Bytes) (n : Nat) : Bd e (getData e name n) := by
  induction n with
  | zero => exact Bd.fail _
  | succ n ih =>
    rw [getData]
    refine .bind (Bd_copyItem e _) fun _ => .ite (fun _ => ?_) fun _ => ?_
    · refine .bind (Bd_readLE e 4) fun len s hs => ?_
      rw [bind_run, get_run, Res.bind_ok]
      split
      · exact Bd.fail _ s hs
      · rename_i h
        rw [bind_run]
        refine (show Bd e (do let (t, _) ← getType e 0; set s; pure (len, t)) from
          .bind (Bd_getType e 0) fun _ => .bind (.set hs) fun _ => .pure _) (u16 (s + len)) ?_
        unfold u16
        omega
    · exact .bind (Bd_parseItem e) fun _ => .bind (Bd_getType e _) fun _ => ih
theorem Bd_checkArg (e : Env) (n : Nat) (name : Bytes) (c : Nat → Nat → Bool) : Bd e (checkArg e n name c) := by
  unfold checkArg; walk Bd
theorem Bd_countArg (e : Env) (n : Nat) (name : Bytes) (c : Nat → Nat → Bool) : Bd e (countArg e n name c) := by
  unfold countArg; walk Bd
theorem Bd_checkTransferArgs (e : Env) (n : Nat) : Bd e (checkTransferArgs e n) := by unfold checkTransferArgs; walk Bd
theorem Bd_auctionKind (e : Env) : Bd e (auctionKind e) := by unfold auctionKind; walk Bd

/-! ### Items -/

theorem BdI_parseNativeTransfer (e : Env) (n : Nat) : BdI e (parseNativeTransfer e n) := by
  unfold parseNativeTransfer; walk BdI
  all_goals walk Bd
theorem BdI_checkPaymentArgs (e : Env) (n : Nat) : BdI e (checkPaymentArgs e n) := by
  unfold checkPaymentArgs; walk BdI
  all_goals walk Bd
theorem BdI_parseSystemPayment (e : Env) (n : Nat) : BdI e (parseSystemPayment e n) := by
  unfold parseSystemPayment; walk BdI
theorem BdI_checkDelegationItems (e : Env) (n : Nat) (b : Bool) : BdI e (checkDelegationItems e n b) := by
  unfold checkDelegationItems; walk BdI
  all_goals walk Bd
theorem BdI_parseAuction (e : Env) (n : Nat) : BdI e (parseAuction e n) := by
  unfold parseAuction
  refine .getBind fun a ha => .bind (BdI_upd _) fun _ => .bind (.attempt (BdI_lp (Bd_searchArgs e _ n))) fun r => ?_
  dsimp only
  refine .bind ?_ fun b => .bind (BdI_lp (Bd_auctionKind e)) fun k => .bind (BdI_upd _) fun _ =>
    .bind (BdI_lp (.set ha)) fun _ => .pure _
  refine .bind (.attempt (BdI_lp (Bd_getData e _ n))) fun r => ?_
  walk BdI
theorem BdI_parseDelegation (e : Env) (n : Nat) (b : Bool) : BdI e (parseDelegation e n b) := by
  unfold parseDelegation; walk BdI
  all_goals walk Bd
theorem BdI_finishItem (e : Env) (a b : Nat) : BdI e (finishItem e a b) := by
  unfold finishItem; walk BdI
  all_goals walk Bd
theorem BdI_versionStep (e : Env) (b : Bool) : BdI e (versionStep e b) := by
  unfold versionStep; walk BdI
  all_goals walk Bd

end Casper
