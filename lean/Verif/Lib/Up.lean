import Verif.Lib.Post
import Verif.Lib.Walk
import Verif.Lib.NF
import Verif.Lib.Huge
/-
`Up e lo m`: if the cursor is between `lo` and the end of the data before `m`, then also after `m` (whether `m` succeeds or fails).
-/
namespace Casper
open M

/-- The cursor is between `lo` and the end of the data. -/
def Within (e : Env) (lo s : Nat) : Prop := lo ≤ s ∧ s ≤ e.buf.length

/-- No 32-bit number from `lo` on is within 65536 of 2^32 (as a length it would make the cursor go back). -/
structure Plain (e : Env) (lo : Nat) : Prop where
  fits : Fits e
  plain : ¬ HugeFrom e lo

/-- The cursor stays behind `lo` and in the data, if no length is huge. -/
def Up (e : Env) (lo : Nat) {α : Type} (m : P α) : Prop :=
  ∀ s, Within e lo s → (∀ a t, m s = .ok a t → Within e lo t) ∧ (∀ x t, m s = .err x t → Within e lo t)

/-- The same for programs that parse an item. -/
def UpI (e : Env) (lo : Nat) {α : Type} (m : M IS α) : Prop :=
  ∀ s : IS, Within e lo s.off → (∀ a t, m s = .ok a t → Within e lo t.off) ∧ (∀ x t, m s = .err x t → Within e lo t.off)

section
variable {e : Env} {lo : Nat} {α β : Type}

theorem Up.bind {m : P α} {f : α → P β} (hm : Up e lo m) (hf : ∀ a, Up e lo (f a)) : Up e lo (m >>= f) := by
  intro s hs
  have h := hm s hs
  constructor <;> intro x t ht <;> rw [bind_run] at ht <;> cases hr : m s <;> rw [hr] at ht
  · exact (hf _ _ (h.1 _ _ hr)).1 _ _ ht
  · cases ht
  · cases ht
  · exact (hf _ _ (h.1 _ _ hr)).2 _ _ ht
  · simp only [Res.bind_err, Res.err.injEq] at ht; obtain ⟨-, rfl⟩ := ht; exact h.2 _ _ hr
  · cases ht
theorem Up.getBind {f : Nat → P β} (hf : ∀ a, Within e lo a → Up e lo (f a)) : Up e lo (M.get >>= f) := by
  intro s hs
  have := hf s hs s hs
  exact ⟨fun a t h => this.1 a t h, fun x t h => this.2 x t h⟩
theorem Up.pure (a : α) : Up e lo (Pure.pure a : P α) := by
  intro s hs; refine ⟨fun b t h => ?_, fun x t h => ?_⟩ <;> cases h; exact hs
theorem Up.get : Up e lo (M.get : P Nat) := by
  intro s hs; refine ⟨fun b t h => ?_, fun x t h => ?_⟩ <;> cases h; exact hs
theorem Up.set {a : Nat} (h : Within e lo a) : Up e lo (M.set a : P Unit) := by
  intro s hs; refine ⟨fun b t h' => ?_, fun x t h' => ?_⟩ <;> cases h'; exact h
theorem Up.fail (x : Nat) : Up e lo (M.fail x : P α) := by
  intro s hs; refine ⟨fun b t h => ?_, fun x t h => ?_⟩ <;> cases h; exact hs
theorem Up.abort (x : Fault) : Up e lo (M.abort x : P α) := by
  intro s hs; refine ⟨fun b t h => ?_, fun x t h => ?_⟩ <;> cases h
theorem Up.require (c : Prop) [Decidable c] (x : Nat) : Up e lo (M.require c x : P Unit) := by
  intro s hs
  unfold M.require
  split
  · exact Up.pure () s hs
  · exact Up.fail x s hs
theorem Up.ite {c : Prop} [Decidable c] {m n : P α} (hm : c → Up e lo m) (hn : ¬ c → Up e lo n) : Up e lo (if c then m else n) := by
  split
  · exact hm ‹_›
  · exact hn ‹_›
theorem Up.attempt {m : P α} (hm : Up e lo m) : Up e lo (M.attempt m) := by
  intro s hs
  have h := hm s hs
  refine ⟨fun r t ht => ?_, fun x t ht => ?_⟩
  · rcases attempt_eq_ok.1 ht with ⟨a, -, h1⟩ | ⟨x, -, h1⟩
    · exact h.1 _ _ h1
    · exact h.2 _ _ h1
  · rw [attempt_run] at ht
    cases hr : m s <;> rw [hr] at ht <;> cases ht

theorem UpI.bind {m : M IS α} {f : α → M IS β} (hm : UpI e lo m) (hf : ∀ a, UpI e lo (f a)) : UpI e lo (m >>= f) := by
  intro s hs
  have h := hm s hs
  constructor <;> intro x t ht <;> rw [bind_run] at ht <;> cases hr : m s <;> rw [hr] at ht
  · exact (hf _ _ (h.1 _ _ hr)).1 _ _ ht
  · cases ht
  · cases ht
  · exact (hf _ _ (h.1 _ _ hr)).2 _ _ ht
  · simp only [Res.bind_err, Res.err.injEq] at ht; obtain ⟨-, rfl⟩ := ht; exact h.2 _ _ hr
  · cases ht
theorem UpI.getBind {f : IS → M IS β} (hf : ∀ a : IS, Within e lo a.off → UpI e lo (f a)) : UpI e lo (M.get >>= f) := by
  intro s hs
  have := hf s hs s hs
  exact ⟨fun a t h => this.1 a t h, fun x t h => this.2 x t h⟩
theorem UpI.pure (a : α) : UpI e lo (Pure.pure a : M IS α) := by
  intro s hs; refine ⟨fun b t h => ?_, fun x t h => ?_⟩ <;> cases h; exact hs
theorem UpI.get : UpI e lo (M.get : M IS IS) := by
  intro s hs; refine ⟨fun b t h => ?_, fun x t h => ?_⟩ <;> cases h; exact hs
theorem UpI.fail (x : Nat) : UpI e lo (M.fail x : M IS α) := by
  intro s hs; refine ⟨fun b t h => ?_, fun x t h => ?_⟩ <;> cases h; exact hs
theorem UpI.require (c : Prop) [Decidable c] (x : Nat) : UpI e lo (M.require c x : M IS Unit) := by
  intro s hs
  unfold M.require
  split
  · exact UpI.pure () s hs
  · exact UpI.fail x s hs
theorem UpI.ite {c : Prop} [Decidable c] {m n : M IS α} (hm : c → UpI e lo m) (hn : ¬ c → UpI e lo n) : UpI e lo (if c then m else n) := by
  split
  · exact hm ‹_›
  · exact hn ‹_›
theorem UpI.attempt {m : M IS α} (hm : UpI e lo m) : UpI e lo (M.attempt m) := by
  intro s hs
  have h := hm s hs
  refine ⟨fun r t ht => ?_, fun x t ht => ?_⟩
  · rcases attempt_eq_ok.1 ht with ⟨a, -, h1⟩ | ⟨x, -, h1⟩
    · exact h.1 _ _ h1
    · exact h.2 _ _ h1
  · rw [attempt_run] at ht
    cases hr : m s <;> rw [hr] at ht <;> cases ht
theorem UpI_upd (f : Item → Item) : UpI e lo (upd f) := by
  intro s hs; refine ⟨fun b t h => ?_, fun x t h => ?_⟩ <;> cases h; exact hs
theorem UpI_lp {m : P α} (h : Up e lo m) : UpI e lo (lp m) := by
  intro s hs
  have := h s.off hs
  unfold lp
  refine ⟨fun a t ht => ?_, fun x t ht => ?_⟩ <;> cases hr : m s.off <;> rw [hr] at ht <;> cases ht
  · exact this.1 _ _ hr
  · exact this.2 _ _ hr
end

/-! ### Readers -/

theorem Up_readU8 {e : Env} {lo : Nat} (hp : Plain e lo) : Up e lo (readU8 e) := by
  intro s hs
  have h := safe_iff.1 (safe_readU8 e s)
  exact ⟨fun a t ht => ⟨by have := (h.1 a t ht).2.1; have := hs.1; omega, (h.1 a t ht).2.2⟩, fun x t ht => by rw [(h.2.1 x t ht).2]; exact hs⟩
theorem Up_readLE {e : Env} {lo : Nat} (hp : Plain e lo) (n : Nat) : Up e lo (readLE e n) := by
  induction n with
  | zero => exact Up.pure 0
  | succ n ih => rw [readLE]; exact .bind (Up_readU8 hp) fun _ => .bind ih fun _ => .pure _
theorem Up_getType {e : Env} {lo : Nat} (hp : Plain e lo) (o : Nat) : Up e lo (getType e o) := by
  unfold getType
  refine .bind (Up_readU8 hp) fun t => .bind (.require _ _) fun _ => .bind ?_ fun _ => .pure _
  intro s hs
  have h := safe_iff.1 (addl_safe3 (e := e) (f := 0) (t := t) (opt := o) s)
  refine ⟨fun a u hu => ?_, fun x u hu => ?_⟩
  · have := h.1 a u hu; unfold Fwd at this; unfold Within at *; omega
  · have := (h.2.1 x u hu).2; unfold Fwd at this; unfold Within at *; omega
theorem Up_parseItem {e : Env} {lo : Nat} (hp : Plain e lo) : Up e lo (parseItem e) := by
  intro s hs
  refine ⟨fun a t h => ?_, fun x t h => ?_⟩
  · obtain ⟨h1, h2⟩ := parseItem_forward hp.fits (fun h => hp.plain (h.mono hs.1)) a t h
    have := hs.1
    exact ⟨by omega, h2⟩
  · unfold parseItem at h
    rw [bind_run] at h
    have hr := Up_readLE hp 4 s hs
    cases hm : readU32 e s with
    | fault f => rw [hm] at h; cases h
    | err y u => rw [hm] at h; cases h; exact hr.2 _ _ hm
    | ok n u =>
      rw [hm, Res.bind_ok, bind_run, get_run, Res.bind_ok] at h
      split at h
      · cases h; exact hr.1 _ _ hm
      · cases h
theorem Up_slice {e : Env} {lo : Nat} (hp : Plain e lo) (o n : Nat) : Up e lo (slice e o n) := by
  unfold slice
  intro s hs
  split
  · exact Up.pure _ s hs
  · exact Up.abort _ s hs
theorem Up_totalLength {e : Env} {lo : Nat} (hp : Plain e lo) (n : Nat) : Up e lo (totalLength n) := by unfold totalLength; walk Up
theorem Up_parseVersion {e : Env} {lo : Nat} (hp : Plain e lo) : Up e lo (parseVersion e) := by unfold parseVersion; walk Up
theorem Up_copyItem {e : Env} {lo : Nat} (hp : Plain e lo) (cap : Nat) : Up e lo (copyItem e cap) := by
  unfold copyItem
  refine .bind (Up_readLE hp 4) fun n => ?_
  intro s hs
  rw [bind_run, get_run, Res.bind_ok]
  split
  · exact Up.fail _ s hs
  rename_i hc
  rw [bind_run]
  cases hr : slice e s n s with
  | err x t => exfalso; unfold slice at hr; split at hr <;> cases hr
  | fault f => constructor <;> intro a t h <;> cases h
  | ok xs t =>
    obtain ⟨h1, h2, rfl⟩ := slice_post xs t hr
    rw [Res.bind_ok]
    constructor <;> intro a t h <;> cases h
    have hf : e.buf.length ≤ 65535 := hp.fits; have := hs.2
    rw [u16_id (by omega)]
    unfold Within at *
    omega
theorem Up_parseArgs {e : Env} {lo : Nat} (hp : Plain e lo) (n : Nat) : Up e lo (parseArgs e n) := by
  induction n with
  | zero => exact Up.pure ()
  | succ n ih =>
    rw [parseArgs]
    exact .bind (Up_parseItem hp) fun _ => .bind (Up_parseItem hp) fun _ => .bind (Up_getType hp 0) fun _ => ih
theorem Up_searchFrom {e : Env} {lo : Nat} (hp : Plain e lo) (name : Bytes) {s : Nat} (hs : Within e lo s) (n : Nat) : Up e lo (searchFrom e name s n) := by
  induction n with
  | zero => rw [searchFrom]; exact .bind (.set hs) fun _ => .fail _
  | succ n ih =>
    rw [searchFrom]
    refine .bind (Up_copyItem hp _) fun _ => .ite (fun _ => ?_) fun _ => ?_
    · exact .bind (Up_parseItem hp) fun _ => .bind (Up_getType hp _) fun _ => .bind (.set hs) fun _ => .pure _
    · exact .bind (Up_parseItem hp) fun _ => .bind (Up_getType hp _) fun _ => ih
theorem Up_searchArgs {e : Env} {lo : Nat} (hp : Plain e lo) (name : Bytes) (n : Nat) : Up e lo (searchArgs e name n) := by
  unfold searchArgs
  exact .getBind fun a ha => Up_searchFrom hp name ha n
theorem Up_getData {e : Env} {lo : Nat} (hp : Plain e lo) (name : Bytes) (n : Nat) : Up e lo (getData e name n) := by
  induction n with
  | zero => exact Up.fail _
  | succ n ih =>
    rw [getData]
    refine .bind (Up_copyItem hp _) fun _ => .ite (fun _ => ?_) fun _ => ?_
    · refine .bind (Up_readLE hp 4) fun len s hs => ?_
      rw [bind_run, get_run, Res.bind_ok]
      split
      · exact Up.fail _ s hs
      · rename_i h
        rw [bind_run]
        refine (show Up e lo (do let (t, _) ← getType e 0; set s; pure (len, t)) from
          .bind (Up_getType hp 0) fun _ => .bind (.set hs) fun _ => .pure _) (u16 (s + len)) ?_
        have hf : e.buf.length ≤ 65535 := hp.fits; have := hs.2
        rw [u16_id (by omega)]
        unfold Within at *
        omega
    · exact .bind (Up_parseItem hp) fun _ => .bind (Up_getType hp _) fun _ => ih
theorem Up_checkArg {e : Env} {lo : Nat} (hp : Plain e lo) (n : Nat) (name : Bytes) (c : Nat → Nat → Bool) : Up e lo (checkArg e n name c) := by
  unfold checkArg; walk Up
theorem Up_countArg {e : Env} {lo : Nat} (hp : Plain e lo) (n : Nat) (name : Bytes) (c : Nat → Nat → Bool) : Up e lo (countArg e n name c) := by
  unfold countArg; walk Up
theorem Up_checkTransferArgs {e : Env} {lo : Nat} (hp : Plain e lo) (n : Nat) : Up e lo (checkTransferArgs e n) := by unfold checkTransferArgs; walk Up
theorem Up_auctionKind {e : Env} {lo : Nat} (hp : Plain e lo) : Up e lo (auctionKind e) := by unfold auctionKind; walk Up

/-! ### Items -/

theorem UpI_parseNativeTransfer {e : Env} {lo : Nat} (hp : Plain e lo) (n : Nat) : UpI e lo (parseNativeTransfer e n) := by
  unfold parseNativeTransfer; walk UpI
  all_goals walk Up
theorem UpI_checkPaymentArgs {e : Env} {lo : Nat} (hp : Plain e lo) (n : Nat) : UpI e lo (checkPaymentArgs e n) := by
  unfold checkPaymentArgs; walk UpI
  all_goals walk Up
theorem UpI_parseSystemPayment {e : Env} {lo : Nat} (hp : Plain e lo) (n : Nat) : UpI e lo (parseSystemPayment e n) := by
  unfold parseSystemPayment; walk UpI
theorem UpI_checkDelegationItems {e : Env} {lo : Nat} (hp : Plain e lo) (n : Nat) (b : Bool) : UpI e lo (checkDelegationItems e n b) := by
  unfold checkDelegationItems; walk UpI
  all_goals walk Up
theorem UpI_parseAuction {e : Env} {lo : Nat} (hp : Plain e lo) (n : Nat) : UpI e lo (parseAuction e n) := by
  unfold parseAuction
  refine .getBind fun a ha => .bind (UpI_upd _) fun _ => .bind (.attempt (UpI_lp (Up_searchArgs hp _ n))) fun r => ?_
  dsimp only
  refine .bind ?_ fun b => .bind (UpI_lp (Up_auctionKind hp)) fun k => .bind (UpI_upd _) fun _ =>
    .bind (UpI_lp (.set ha)) fun _ => .pure _
  refine .bind (.attempt (UpI_lp (Up_getData hp _ n))) fun r => ?_
  walk UpI
theorem UpI_parseDelegation {e : Env} {lo : Nat} (hp : Plain e lo) (n : Nat) (b : Bool) : UpI e lo (parseDelegation e n b) := by
  unfold parseDelegation; walk UpI
  all_goals walk Up
theorem UpI_finishItem {e : Env} {lo : Nat} (hp : Plain e lo) (a b : Nat) : UpI e lo (finishItem e a b) := by
  unfold finishItem; walk UpI
  all_goals walk Up
theorem UpI_versionStep {e : Env} {lo : Nat} (hp : Plain e lo) (b : Bool) : UpI e lo (versionStep e b) := by
  unfold versionStep; walk UpI
  all_goals walk Up

end Casper
