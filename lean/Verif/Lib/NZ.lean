import Verif.Lib.Safe
import Verif.Lib.Walk
import Verif.Model.Device
/-
Error codes reported by parsing and validation are never 0 ("No error").
-/
namespace Casper
open M

/-- `m` never fails with code 0. -/
def NZ {σ α : Type} (m : M σ α) : Prop := ∀ s x t, m s = .err x t → x ≠ 0

section
variable {σ α β : Type}

theorem NZ.bind {m : M σ α} {f : α → M σ β} (hm : NZ m) (hf : ∀ a, NZ (f a)) : NZ (m >>= f) := by
  intro s x t h
  rw [bind_run] at h
  cases h1 : m s with
  | ok a s' => rw [h1] at h; exact hf a s' x t h
  | err y s' => rw [h1] at h; simp at h; obtain ⟨rfl, rfl⟩ := h; exact hm s _ _ h1
  | fault f => rw [h1] at h; simp at h

theorem NZ.pure (a : α) : NZ (Pure.pure a : M σ α) := by intro s x t h; simp at h
theorem NZ.get : NZ (M.get : M σ σ) := by intro s x t h; simp at h
theorem NZ.set (a : σ) : NZ (M.set a : M σ Unit) := by intro s x t h; simp at h
theorem NZ.modify (f : σ → σ) : NZ (M.modify f : M σ Unit) := by intro s x t h; simp at h
theorem NZ.abort (f : Fault) : NZ (M.abort f : M σ α) := by intro s x t h; simp at h
theorem NZ.fail {y : Nat} (hy : y ≠ 0) : NZ (M.fail y : M σ α) := by
  intro s x t h; simp at h; exact h.1 ▸ hy
theorem NZ.require (c : Prop) [Decidable c] {y : Nat} (hy : y ≠ 0) : NZ (M.require c y : M σ Unit) := by
  intro s x t h; rw [require_eq_err] at h; exact h.2.1 ▸ hy
theorem NZ.attempt (m : M σ α) : NZ (M.attempt m) := by
  intro s x t h; rw [attempt_run] at h; split at h <;> simp at h
/-- The error looked at comes from `m`. -/
theorem NZ.attemptBind {m : M σ α} {f : Except Nat α → M σ β} (hm : NZ m) (hok : ∀ a, NZ (f (.ok a)))
    (herr : ∀ x, x ≠ 0 → NZ (f (.error x))) : NZ (M.attempt m >>= f) := by
  intro s x t h
  rw [bind_run, attempt_run] at h
  cases h1 : m s with
  | ok a s' => rw [h1] at h; exact hok a s' x t h
  | err y s' => rw [h1] at h; exact herr y (hm s _ _ h1) s' x t h
  | fault f => rw [h1] at h; simp at h
theorem NZ.ite {c : Prop} [Decidable c] {m n : M σ α} (hm : c → NZ m) (hn : ¬ c → NZ n) : NZ (if c then m else n) := by
  split
  · exact hm ‹_›
  · exact hn ‹_›
end

theorem NZ_slice (e : Env) (off n : Nat) : NZ (slice e off n) := by
  intro s x t h; unfold slice at h; split at h <;> simp at h
theorem NZ_skip (n : Nat) : NZ (skip n) := NZ.modify _
theorem NZ_seek (n : Nat) : NZ (seek n) := NZ.modify _
theorem NZ_byteAt (e : Env) (n : Nat) : NZ (byteAt e n) := by
  intro s x t h; unfold byteAt at h; split at h <;> simp at h
theorem NZ_readU8 (e : Env) : NZ (readU8 e) := by
  intro s x t h; unfold readU8 at h; split at h <;> simp at h; exact h.1 ▸ (by decide)
theorem NZ_readLE (e : Env) (n : Nat) : NZ (readLE e n) := by
  induction n with
  | zero => unfold readLE; walk NZ
  | succ n ih => unfold readLE; walk NZ
theorem NZ_parseItem (e : Env) : NZ (parseItem e) := by unfold parseItem; walk NZ
theorem NZ_readBytes (e : Env) : NZ (readBytes e) := by unfold readBytes; walk NZ
theorem NZ_getType (e : Env) (o : Nat) : NZ (getType e o) := by
  intro s x t h
  exact ((safe_iff.1 (getType_safe e o s)).2.1 x t h).1
theorem NZ_totalLength (s : Nat) : NZ (totalLength s) := by unfold totalLength; walk NZ
theorem NZ_readBool (e : Env) : NZ (readBool e) := by unfold readBool; walk NZ
theorem NZ_readEntityVersion (e : Env) : NZ (readEntityVersion e) := by unfold readEntityVersion; walk NZ
theorem NZ_readHash : NZ readHash := NZ_skip 32
theorem NZ_readPublicKey (e : Env) : NZ (readPublicKey e) := by unfold readPublicKey; walk NZ
theorem NZ_readSignature (e : Env) : NZ (readSignature e) := by unfold readSignature; walk NZ
theorem NZ_readClvalue (e : Env) : NZ (readClvalue e) := by unfold readClvalue; walk NZ
theorem NZ_readOffsets (e : Env) (n i : Nat) (os : List Nat) : NZ (readOffsets e n i os) := by
  induction n generalizing i os with
  | zero => unfold readOffsets; walk NZ
  | succ n ih => unfold readOffsets; walk NZ
theorem NZ_readMetadata (e : Env) : NZ (readMetadata e) := by unfold readMetadata; walk NZ
theorem NZ_readRuntime (e : Env) : NZ (readRuntime e) := by unfold readRuntime; walk NZ

/-! ### Texts -/

theorem NZ_insertChar {s : Bytes} {m p : Nat} {c : UInt8} {x : Nat} (h : insertChar s m p c = .err x) : x ≠ 0 := by
  unfold insertChar at h
  split at h
  · simp at h; omega
  split at h
  · simp at h; omega
  split at h <;> simp at h
theorem NZ_sepLoop {m i st : Nat} {s : Bytes} {x : Nat} (h : sepLoop m i st s = .err x) : x ≠ 0 := by
  induction i generalizing st s with
  | zero => simp [sepLoop] at h
  | succ i ih =>
    rw [sepLoop] at h
    split at h
    · split at h
      · exact ih h
      · exact NZ_insertChar h
    · exact ih h
theorem NZ_addThousands {s : Bytes} {m x : Nat} (h : addThousands s m = .err x) : x ≠ 0 := by
  unfold addThousands at h
  split at h
  · simp at h; omega
  · exact NZ_sepLoop h
theorem NZ_motesText (s : Bytes) : NZ (motesText s) := by
  unfold motesText
  split
  · walk NZ
  · split
    · rename_i h; exact NZ.fail (NZ_addThousands h)
    · walk NZ
    · walk NZ
theorem NZ_ttlText (v n : Nat) : NZ (ttlText v n) := by unfold ttlText; walk NZ
theorem NZ_printBytes (e : Env) (o n : Nat) : NZ (printBytes e o n) := by unfold printBytes; walk NZ
theorem NZ_printAddress (e : Env) (o n : Nat) : NZ (printAddress e o n) := by unfold printAddress; walk NZ
theorem NZ_printByHash (e : Env) (o n : Nat) : NZ (printByHash e o n) := by unfold printByHash; walk NZ
theorem NZ_showArray (c : Nat) (s : Bytes) : NZ (showArray c s) := by unfold showArray; walk NZ
theorem NZ_displayString (e : Env) (o n : Nat) : NZ (displayString e o n) := by unfold displayString; walk NZ

/-! ### Arguments -/

theorem NZ_copyItem (e : Env) (c : Nat) : NZ (copyItem e c) := by unfold copyItem; walk NZ
theorem NZ_parseArgs (e : Env) (n : Nat) : NZ (parseArgs e n) := by
  induction n with
  | zero => unfold parseArgs; walk NZ
  | succ n ih => unfold parseArgs; walk NZ
theorem NZ_searchFrom (e : Env) (name : Bytes) (s n : Nat) : NZ (searchFrom e name s n) := by
  induction n with
  | zero => unfold searchFrom; walk NZ
  | succ n ih => unfold searchFrom; walk NZ
theorem NZ_searchArgs (e : Env) (name : Bytes) (n : Nat) : NZ (searchArgs e name n) := by
  unfold searchArgs; exact .bind .get fun _ => NZ_searchFrom _ _ _ _
theorem NZ_getData (e : Env) (name : Bytes) (n : Nat) : NZ (getData e name n) := by
  induction n with
  | zero => unfold getData; walk NZ
  | succ n ih => unfold getData; walk NZ
theorem NZ_checkArg (e : Env) (n : Nat) (name : Bytes) (c : Nat → Nat → Bool) : NZ (checkArg e n name c) := by
  unfold checkArg; walk NZ
theorem NZ_countArg (e : Env) (n : Nat) (name : Bytes) (c : Nat → Nat → Bool) : NZ (countArg e n name c) := by
  unfold countArg; walk NZ
theorem NZ_amountBignum (e : Env) (n : Nat) : NZ (amountBignum e n) := by unfold amountBignum; walk NZ
theorem NZ_displayMotes (e : Env) (t n : Nat) : NZ (displayMotes e t n) := by unfold displayMotes; walk NZ
theorem NZ_displayArg (e : Env) (t n : Nat) : NZ (displayArg e t n) := by unfold displayArg; walk NZ
theorem NZ_showArgsHash (e : Env) (a b : Nat) (n : Bytes) : NZ (showArgsHash e a b n) := by unfold showArgsHash; walk NZ
theorem NZ_showArg (e : Env) (k n : Bytes) (m : Nat) : NZ (showArg e k n m) := by unfold showArg; walk NZ
theorem NZ_showMotes (e : Env) (k n : Bytes) (m : Nat) : NZ (showMotes e k n m) := by unfold showMotes; walk NZ

/-! ### Deploys -/

theorem NZ_lp {α : Type} {m : P α} (h : NZ m) : NZ (lp m) := by
  intro s x t h'
  unfold lp at h'
  split at h' <;> simp at h'
  rename_i hm
  exact h'.1 ▸ h _ _ _ hm
theorem NZ_ld {α : Type} {m : P α} (h : NZ m) : NZ (ld m) := by
  intro s x t h'
  unfold ld at h'
  split at h' <;> simp at h'
  rename_i hm
  exact h'.1 ▸ h _ _ _ hm
theorem NZ_onPayment {α : Type} {m : M IS α} (h : NZ m) : NZ (onPayment m) := by
  intro s x t h'
  unfold onPayment at h'
  split at h' <;> simp at h'
  rename_i hm
  exact h'.1 ▸ h _ _ _ hm
theorem NZ_onSession {α : Type} {m : M IS α} (h : NZ m) : NZ (onSession m) := by
  intro s x t h'
  unfold onSession at h'
  split at h' <;> simp at h'
  rename_i hm
  exact h'.1 ▸ h _ _ _ hm
theorem NZ_upd (f : Item → Item) : NZ (upd f) := NZ.modify _
theorem NZ_updHeader (f : Header → Header) : NZ (updHeader f) := NZ.modify _
theorem NZ_indexPart (e : Env) (h : Header) (p : HPart) : NZ (indexPart e h p) := by unfold indexPart; walk NZ
theorem NZ_checkTransferArgs (e : Env) (n : Nat) : NZ (checkTransferArgs e n) := by unfold checkTransferArgs; walk NZ
theorem NZ_parseNativeTransfer (e : Env) (n : Nat) : NZ (parseNativeTransfer e n) := by unfold parseNativeTransfer; walk NZ
theorem NZ_checkPaymentArgs (e : Env) (n : Nat) : NZ (checkPaymentArgs e n) := by unfold checkPaymentArgs; walk NZ
theorem NZ_parseSystemPayment (e : Env) (n : Nat) : NZ (parseSystemPayment e n) := by unfold parseSystemPayment; walk NZ
theorem NZ_checkDelegationItems (e : Env) (n : Nat) (b : Bool) : NZ (checkDelegationItems e n b) := by
  unfold checkDelegationItems; walk NZ
theorem NZ_auctionKind (e : Env) : NZ (auctionKind e) := by unfold auctionKind; walk NZ
theorem NZ_parseAuction (e : Env) (n : Nat) : NZ (parseAuction e n) := by unfold parseAuction; walk NZ
theorem NZ_parseDelegation (e : Env) (n : Nat) (b : Bool) : NZ (parseDelegation e n b) := by unfold parseDelegation; walk NZ
theorem NZ_parseVersion (e : Env) : NZ (parseVersion e) := by unfold parseVersion; walk NZ
theorem NZ_finishItem (e : Env) (a b : Nat) : NZ (finishItem e a b) := by unfold finishItem; walk NZ
theorem NZ_checkEntrypoint (e : Env) : NZ (checkEntrypoint e) := by unfold checkEntrypoint; walk NZ
theorem NZ_versionStep (e : Env) (b : Bool) : NZ (versionStep e b) := by unfold versionStep; walk NZ
theorem NZ_parseDeployItem (e : Env) (b : Bool) : NZ (parseDeployItem e b) := by
  unfold parseDeployItem parseModuleBytes parseByHash parseByName parseTransfer; walk NZ
theorem NZ_readDeploy (e : Env) : NZ (readDeploy e) := by unfold readDeploy readDeployHeader; walk NZ
theorem NZ_validateDeploy (e : Env) (d : Deploy) : NZ (validateDeploy e d) := by unfold validateDeploy; walk NZ
theorem NZ_renderEntryPoint (e : Env) (n : Nat) : NZ (renderEntryPoint e n) := by unfold renderEntryPoint; walk NZ
theorem NZ_contractHash (e : Env) : NZ (contractHash e) := by unfold contractHash; walk NZ
theorem NZ_itemDelegation (e : Env) (n : Nat) (it : Item) (i : Nat) : NZ (itemDelegation e n it i) := by
  unfold itemDelegation fixedDelegation fixedByHash fixedByName; walk NZ
theorem NZ_getItemDeploy (e : Env) (n : Nat) (d : Deploy) (i : Nat) : NZ (getItemDeploy e n d i) := by
  unfold getItemDeploy headerLine bodyLine itemSystemPayment itemNativeTransfer; walk NZ

/-! ### Version 1 transactions -/

theorem NZ_lv {α : Type} {m : P α} (h : NZ m) : NZ (lv m) := by
  intro s x t h'
  unfold lv at h'
  split at h' <;> simp at h'
  rename_i hm
  exact h'.1 ▸ h _ _ _ hm
theorem NZ_onCopy {α : Type} {m : P α} (h : NZ m) : NZ (onCopy m) := by
  intro s x t h'
  unfold onCopy at h'
  split at h' <;> simp at h'
  rename_i hm
  exact h'.1 ▸ h _ _ _ hm
theorem NZ_updV (f : V1 → V1) : NZ (updV f) := NZ.modify _
theorem NZ_incr (k : Nat) : NZ (incr k) := NZ.modify _
theorem NZ_incrExpert (e : Env) (k : Nat) : NZ (incrExpert e k) := by unfold incrExpert; walk NZ
theorem NZ_atOff (k : Nat) : NZ (atOff k) := by
  intro s x t h; unfold atOff at h; split at h <;> simp at h; exact h.1 ▸ (by decide)
theorem NZ_readInitiator (e : Env) : NZ (readInitiator e) := by unfold readInitiator; walk NZ
theorem NZ_readPricing (e : Env) : NZ (readPricing e) := by unfold readPricing; walk NZ
theorem NZ_readV1Header (e : Env) : NZ (readV1Header e) := by unfold readV1Header readChainName; walk NZ
theorem NZ_readNamedArgs (e : Env) (n : Nat) : NZ (readNamedArgs e n) := by
  induction n with
  | zero => unfold readNamedArgs; walk NZ
  | succ n ih => unfold readNamedArgs; walk NZ
theorem NZ_readArgs (e : Env) : NZ (readArgs e) := by unfold readArgs; walk NZ
theorem NZ_readKey (e : Env) (k : Nat) : NZ (readKey e k) := by unfold readKey; walk NZ
theorem NZ_readTarget (e : Env) : NZ (readTarget e) := by unfold readTarget readStored; walk NZ
theorem NZ_checkRequired (e : Env) (s n : Nat) (l : List (Bytes × Bool)) : NZ (checkRequired e s n l) := by
  induction l with
  | nil => unfold checkRequired; walk NZ
  | cons a l ih => unfold checkRequired; walk NZ
theorem NZ_readEntryPoint (e : Env) : NZ (readEntryPoint e) := by unfold readEntryPoint checkSanity; walk NZ
theorem NZ_readScheduling (e : Env) : NZ (readScheduling e) := by unfold readScheduling; walk NZ
theorem NZ_readApprovalList (e : Env) (n : Nat) : NZ (readApprovalList e n) := by
  induction n with
  | zero => unfold readApprovalList; walk NZ
  | succ n ih => unfold readApprovalList; walk NZ
theorem NZ_readV1 (e : Env) : NZ (readV1 e) := by unfold readV1 readPayload readBody readApprovals; walk NZ
theorem NZ_validateV1 (e : Env) (v : V1) : NZ (validateV1 e v) := by unfold validateV1; walk NZ
theorem NZ_indexV (e : Env) (v : V1) (p : VPart) : NZ (indexV e v p) := by unfold indexV; walk NZ
theorem NZ_paymentText (e : Env) (n : Nat) : NZ (paymentText e n) := by unfold paymentText; walk NZ
theorem NZ_itemPricing (e : Env) (v : V1) (i : Nat) : NZ (itemPricing e v i) := by
  unfold itemPricing pricingValue; walk NZ
theorem NZ_itemCustom (e : Env) (v : V1) (i : Nat) : NZ (itemCustom e v i) := by
  unfold itemCustom customEntry customHash printfStr; walk NZ
theorem NZ_itemTransfer (e : Env) (v : V1) (i : Nat) : NZ (itemTransfer e v i) := by unfold itemTransfer; walk NZ
theorem NZ_itemRedelegate (e : Env) (v : V1) (i : Nat) : NZ (itemRedelegate e v i) := by unfold itemRedelegate; walk NZ
theorem NZ_getItemV1 (e : Env) (v : V1) (i : Nat) : NZ (getItemV1 e v i) := by
  unfold getItemV1 itemEntry itemAddRsv itemCancelRsv itemBurn itemTable; walk NZ

/-! ### The whole of parsing and validation -/

theorem NZ_runP {α : Type} {pl : Platform} {m : Env → P α} (h : ∀ e, NZ (m e)) : NZ (runP pl m) := by
  intro s x t h'
  unfold runP at h'
  split at h' <;> simp at h'
  rename_i hm
  exact h'.1 ▸ h _ _ _ _ hm
theorem NZ_runDeploy {α : Type} {pl : Platform} {m : Env → M DS α} (h : ∀ e, NZ (m e)) : NZ (runDeploy pl m) := by
  intro s x t h'
  unfold runDeploy at h'
  split at h' <;> simp at h'
  rename_i hm
  exact h'.1 ▸ h _ _ _ _ hm
theorem NZ_runV1 (pl : Platform) : NZ (runV1 pl) := by
  intro s x t h'
  unfold runV1 at h'
  split at h' <;> simp at h'
  rename_i hm
  exact h'.1 ▸ NZ_readV1 _ _ _ _ hm
theorem NZ_checkItems {f : Nat → P (Bytes × Bytes)} (h : ∀ i, NZ (f i)) (k i : Nat) : NZ (checkItems f k i) := by
  induction k generalizing i with
  | zero => unfold checkItems; walk NZ
  | succ k ih => unfold checkItems; exact .bind (h i) fun _ => ih _
theorem NZ_parserInit : NZ parserInit := by
  intro s x t h; unfold parserInit at h; split at h <;> simp at h; exact h.1 ▸ (by decide)

theorem NZ_txParse (pl : Platform) : NZ (txParse pl) := by
  unfold txParse parserParse parserValidate
  refine .bind (.bind NZ_parserInit fun _ => .bind (NZ_runP NZ_readU8) fun _ => ?_) fun _ => ?_
  · walk NZ
    · exact NZ_readDeploy
  · refine .bind .get fun d => NZ_runP fun e => ?_
    dsimp only
    have := NZ_validateDeploy e d.dep
    have := NZ_validateV1 e d.v1
    have : NZ (parserNumItems e d) := by unfold parserNumItems; walk NZ
    have := NZ_checkItems (f := parserItem d e) (fun i => by
      have := NZ_getItemDeploy e d.epo d.dep i
      have := NZ_getItemV1 e d.v1 i
      unfold parserItem; walk NZ)
    walk NZ

theorem NZ_parseMessage (pl : Platform) : NZ (parseMessage pl) := by
  unfold parseMessage
  refine .bind NZ_parserInit fun _ => .bind (.modify _) fun _ => .bind (NZ_runP fun e => ?_) fun _ => .modify _
  unfold checkMessage; walk NZ

end Casper
