import Verif.Lib.NZ
/-
Programs without undefined behaviour, from any state.
-/
namespace Casper
open M

/-- `m` never runs into undefined behaviour. -/
def NF {σ α : Type} (m : M σ α) : Prop := ∀ s f, m s ≠ .fault f

section
variable {σ α β : Type}

theorem NF.bind {m : M σ α} {f : α → M σ β} (hm : NF m) (hf : ∀ a, NF (f a)) : NF (m >>= f) := by
  intro s x h
  rw [bind_run] at h
  cases h1 : m s with
  | ok a s' => rw [h1] at h; exact hf a s' x h
  | err y s' => rw [h1] at h; cases h
  | fault f => exact hm s f h1

theorem NF.pure (a : α) : NF (Pure.pure a : M σ α) := by intro s x h; cases h
theorem NF.get : NF (M.get : M σ σ) := by intro s x h; cases h
theorem NF.set (a : σ) : NF (M.set a : M σ Unit) := by intro s x h; cases h
theorem NF.modify (f : σ → σ) : NF (M.modify f : M σ Unit) := by intro s x h; cases h
theorem NF.fail (y : Nat) : NF (M.fail y : M σ α) := by intro s x h; cases h
theorem NF.require (c : Prop) [Decidable c] (y : Nat) : NF (M.require c y : M σ Unit) := by
  intro s x h; rw [require_run] at h; split at h <;> cases h
theorem NF.requireThen {c : Prop} [Decidable c] {y : Nat} {f : Unit → M σ α} (hf : c → NF (f ())) :
    NF (M.require c y >>= f) := by
  intro s x h
  rw [bind_run, require_run] at h
  split at h
  · exact hf ‹_› s x h
  · cases h
theorem NF.attempt {m : M σ α} (hm : NF m) : NF (M.attempt m) := by
  intro s x h
  rw [attempt_run] at h
  cases h1 : m s with
  | ok a s' => rw [h1] at h; cases h
  | err y s' => rw [h1] at h; cases h
  | fault f => exact hm s f h1
theorem NF.ite {c : Prop} [Decidable c] {m n : M σ α} (hm : c → NF m) (hn : ¬ c → NF n) : NF (if c then m else n) := by
  split
  · exact hm ‹_›
  · exact hn ‹_›
end

theorem NF_skip (n : Nat) : NF (skip n) := NF.modify _
theorem NF_seek (n : Nat) : NF (seek n) := NF.modify _
theorem NF_readU8 (e : Env) : NF (readU8 e) := by
  intro s x h; unfold readU8 at h; split at h <;> cases h
theorem NF_readLE (e : Env) (n : Nat) : NF (readLE e n) := by
  induction n with
  | zero => unfold readLE; walk NF
  | succ n ih => unfold readLE; walk NF
theorem NF_parseItem (e : Env) : NF (parseItem e) := by unfold parseItem; walk NF
theorem NF_readBytes (e : Env) : NF (readBytes e) := by unfold readBytes; walk NF
theorem NF_getType (e : Env) (o : Nat) : NF (getType e o) := by
  intro s f h
  exact (safe_iff.1 (getType_safe e o s)).2.2 f h
theorem NF_totalLength (s : Nat) : NF (totalLength s) := by unfold totalLength; walk NF
theorem NF_readBool (e : Env) : NF (readBool e) := by unfold readBool; walk NF
theorem NF_readEntityVersion (e : Env) : NF (readEntityVersion e) := by unfold readEntityVersion; walk NF
theorem NF_readHash : NF readHash := NF_skip 32
theorem NF_readPublicKey (e : Env) : NF (readPublicKey e) := by unfold readPublicKey; walk NF
theorem NF_readSignature (e : Env) : NF (readSignature e) := by unfold readSignature; walk NF
theorem NF_readClvalue (e : Env) : NF (readClvalue e) := by unfold readClvalue; walk NF
theorem NF_readOffsets (e : Env) (n i : Nat) (os : List Nat) (h : i + n ≤ os.length) : NF (readOffsets e n i os) := by
  induction n generalizing i os with
  | zero => unfold readOffsets; walk NF
  | succ n ih =>
    unfold readOffsets
    have := ih (i + 1)
    simp only [show i < os.length by omega, if_true]
    walk NF
    rw [List.length_set]; omega
theorem NF_readMetadata (e : Env) : NF (readMetadata e) := by
  unfold readMetadata
  refine NF.bind .get fun start => NF.bind (NF_readLE e 4) fun n => NF.requireThen fun h => ?_
  refine NF.bind (NF_readOffsets e _ 0 _ (by simp; omega)) fun os => ?_
  walk NF
theorem NF_readRuntime (e : Env) : NF (readRuntime e) := by unfold readRuntime; walk NF

/-- The copy is inside the data: the length was compared with what is left behind a cursor that is inside. -/
theorem NF_copyItem (e : Env) (cap : Nat) : NF (copyItem e cap) := by
  intro s f h
  unfold copyItem at h
  rw [bind_run] at h
  cases h1 : readU32 e s with
  | fault f => exact NF_readLE e 4 s f h1
  | err y t => rw [h1] at h; cases h
  | ok n t =>
    have ht := ((safe_iff.1 (safe_readU32 e s)).1 n t h1).2.2
    rw [h1] at h
    simp only [Res.bind_ok, bind_run, get_run] at h
    split at h
    · cases h
    · rename_i hc
      rw [bind_run, slice, if_pos (by omega)] at h
      cases h

theorem NF_parseArgs (e : Env) (n : Nat) : NF (parseArgs e n) := by
  induction n with
  | zero => unfold parseArgs; walk NF
  | succ n ih => unfold parseArgs; walk NF
theorem NF_searchFrom (e : Env) (name : Bytes) (s n : Nat) : NF (searchFrom e name s n) := by
  induction n with
  | zero => unfold searchFrom; walk NF
  | succ n ih => unfold searchFrom; walk NF
theorem NF_searchArgs (e : Env) (name : Bytes) (n : Nat) : NF (searchArgs e name n) := by unfold searchArgs; walk NF
theorem NF_getData (e : Env) (name : Bytes) (n : Nat) : NF (getData e name n) := by
  induction n with
  | zero => unfold getData; walk NF
  | succ n ih => unfold getData; walk NF
theorem NF_checkArg (e : Env) (n : Nat) (name : Bytes) (c : Nat → Nat → Bool) : NF (checkArg e n name c) := by
  unfold checkArg; walk NF
theorem NF_countArg (e : Env) (n : Nat) (name : Bytes) (c : Nat → Nat → Bool) : NF (countArg e n name c) := by
  unfold countArg; walk NF

/-! ### Version 1 transactions -/

theorem NF_lv {α : Type} {m : P α} (h : NF m) : NF (lv m) := by
  intro s x h'
  unfold lv at h'
  cases h1 : m s.off with
  | ok a t => rw [h1] at h'; cases h'
  | err a t => rw [h1] at h'; cases h'
  | fault f => exact h _ _ h1
theorem NF_onCopy {α : Type} {m : P α} (h : NF m) : NF (onCopy m) := by
  intro s x h'
  unfold onCopy at h'
  cases h1 : m s.off with
  | ok a t => rw [h1] at h'; cases h'
  | err a t => rw [h1] at h'; cases h'
  | fault f => exact h _ _ h1
theorem NF_updV (f : V1 → V1) : NF (updV f) := NF.modify _
theorem NF_incr (k : Nat) : NF (incr k) := NF.modify _
theorem NF_incrExpert (e : Env) (k : Nat) : NF (incrExpert e k) := by unfold incrExpert; walk NF
theorem NF_atOff (k : Nat) : NF (atOff k) := by
  intro s x h; unfold atOff at h; split at h <;> cases h
theorem NF_readInitiator (e : Env) : NF (readInitiator e) := by unfold readInitiator; walk NF
theorem NF_readPricing (e : Env) : NF (readPricing e) := by unfold readPricing; walk NF
theorem NF_readV1Header (e : Env) : NF (readV1Header e) := by unfold readV1Header readChainName; walk NF
theorem NF_readNamedArgs (e : Env) (n : Nat) : NF (readNamedArgs e n) := by
  induction n with
  | zero => unfold readNamedArgs; walk NF
  | succ n ih => unfold readNamedArgs; walk NF
theorem NF_readArgs (e : Env) : NF (readArgs e) := by unfold readArgs; walk NF
theorem NF_readKey (e : Env) (k : Nat) : NF (readKey e k) := by unfold readKey; walk NF
theorem NF_readTarget (e : Env) : NF (readTarget e) := by unfold readTarget readStored; walk NF
theorem NF_checkRequired (e : Env) (s n : Nat) (l : List (Bytes × Bool)) : NF (checkRequired e s n l) := by
  induction l with
  | nil => unfold checkRequired; walk NF
  | cons a l ih => unfold checkRequired; walk NF
theorem NF_readEntryPoint (e : Env) : NF (readEntryPoint e) := by unfold readEntryPoint checkSanity; walk NF
theorem NF_readScheduling (e : Env) : NF (readScheduling e) := by unfold readScheduling; walk NF
theorem NF_readApprovalList (e : Env) (n : Nat) : NF (readApprovalList e n) := by
  induction n with
  | zero => unfold readApprovalList; walk NF
  | succ n ih => unfold readApprovalList; walk NF
theorem NF_readV1 (e : Env) : NF (readV1 e) := by unfold readV1 readPayload readBody readApprovals; walk NF

/-! ### Deploys -/

theorem NF_lp {α : Type} {m : P α} (h : NF m) : NF (lp m) := by
  intro s x h'
  unfold lp at h'
  cases h1 : m s.off with
  | ok a t => rw [h1] at h'; cases h'
  | err a t => rw [h1] at h'; cases h'
  | fault f => exact h _ _ h1
theorem NF_ld {α : Type} {m : P α} (h : NF m) : NF (ld m) := by
  intro s x h'
  unfold ld at h'
  cases h1 : m s.off with
  | ok a t => rw [h1] at h'; cases h'
  | err a t => rw [h1] at h'; cases h'
  | fault f => exact h _ _ h1
theorem NF_onPayment {α : Type} {m : M IS α} (h : NF m) : NF (onPayment m) := by
  intro s x h'
  unfold onPayment at h'
  cases h1 : m ⟨s.off, s.epo, s.dep.payment⟩ with
  | ok a t => rw [h1] at h'; cases h'
  | err a t => rw [h1] at h'; cases h'
  | fault f => exact h _ _ h1
theorem NF_upd (f : Item → Item) : NF (upd f) := NF.modify _
theorem NF_updHeader (f : Header → Header) : NF (updHeader f) := NF.modify _
theorem NF_indexPart (e : Env) (h : Header) (p : HPart) : NF (indexPart e h p) := by unfold indexPart; walk NF
theorem NF_checkTransferArgs (e : Env) (n : Nat) : NF (checkTransferArgs e n) := by unfold checkTransferArgs; walk NF
theorem NF_parseNativeTransfer (e : Env) (n : Nat) : NF (parseNativeTransfer e n) := by unfold parseNativeTransfer; walk NF
theorem NF_checkPaymentArgs (e : Env) (n : Nat) : NF (checkPaymentArgs e n) := by unfold checkPaymentArgs; walk NF
theorem NF_parseSystemPayment (e : Env) (n : Nat) : NF (parseSystemPayment e n) := by unfold parseSystemPayment; walk NF
theorem NF_checkDelegationItems (e : Env) (n : Nat) (b : Bool) : NF (checkDelegationItems e n b) := by
  unfold checkDelegationItems; walk NF
theorem NF_parseVersion (e : Env) : NF (parseVersion e) := by unfold parseVersion; walk NF
theorem NF_finishItem (e : Env) (a b : Nat) : NF (finishItem e a b) := by unfold finishItem; walk NF
theorem NF_versionStep (e : Env) (b : Bool) : NF (versionStep e b) := by unfold versionStep; walk NF
theorem NF_readDeployHeader (e : Env) : NF (readDeployHeader e) := by unfold readDeployHeader; walk NF

end Casper
