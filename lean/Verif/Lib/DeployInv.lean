import Verif.Lib.DeployFacts
import Verif.Lib.V1Fwd
/-
Invariants of the item parsers: the item's type stays, no undefined behaviour outside module bytes, cursors return.
-/
namespace Casper
open M

/-- From an item that is not module bytes: no undefined behaviour, and the type of the item stays. -/
def Steady {α : Type} (m : M IS α) : Prop := ∀ s, s.item.typ ≠ tyModuleBytes →
  (∀ f, m s ≠ .fault f) ∧ (∀ a t, m s = .ok a t → t.item.typ = s.item.typ) ∧ (∀ x t, m s = .err x t → t.item.typ = s.item.typ)

section
variable {α β : Type}

theorem Steady.bind {m : M IS α} {f : α → M IS β} (hm : Steady m) (hf : ∀ a, Steady (f a)) : Steady (m >>= f) := by
  intro s hs
  obtain ⟨h1, h2, h3⟩ := hm s hs
  rw [bind_run]
  cases hr : m s with
  | fault f => exact absurd hr (h1 f)
  | err x t =>
    refine ⟨fun f h => (by cases h), fun a t h => (by cases h), fun y u h => ?_⟩
    simp only [Res.bind_err, Res.err.injEq] at h
    obtain ⟨-, rfl⟩ := h
    exact h3 _ _ hr
  | ok a t =>
    rw [Res.bind_ok]
    have ht := h2 _ _ hr
    obtain ⟨k1, k2, k3⟩ := hf a t (by rw [ht]; exact hs)
    exact ⟨k1, fun b u h => (k2 b u h).trans ht, fun b u h => (k3 b u h).trans ht⟩
theorem Steady.pure (a : α) : Steady (Pure.pure a : M IS α) := by
  intro s hs; refine ⟨fun f h => ?_, fun a t h => ?_, fun x t h => ?_⟩ <;> cases h; rfl
theorem Steady.get : Steady (M.get : M IS IS) := by
  intro s hs; refine ⟨fun f h => ?_, fun a t h => ?_, fun x t h => ?_⟩ <;> cases h; rfl
theorem Steady.getBind {f : IS → M IS β} (hf : ∀ a : IS, a.item.typ ≠ tyModuleBytes → Steady (f a)) : Steady (M.get >>= f) :=
  fun s hs => hf s hs s hs
theorem Steady.fail (x : Nat) : Steady (M.fail x : M IS α) := by
  intro s hs; refine ⟨fun f h => ?_, fun a t h => ?_, fun x t h => ?_⟩ <;> cases h; rfl
theorem Steady.modify {f : IS → IS} (h : ∀ s, (f s).item.typ = s.item.typ) : Steady (M.modify f) := by
  intro s hs; refine ⟨fun f h => ?_, fun a t h' => ?_, fun x t h => ?_⟩
  · cases h
  · cases h'; exact h s
  · cases h
theorem Steady.require (c : Prop) [Decidable c] (x : Nat) : Steady (M.require c x : M IS Unit) := by
  intro s hs
  unfold M.require
  split
  · exact Steady.pure () s hs
  · exact Steady.fail x s hs
theorem Steady.ite {c : Prop} [Decidable c] {m n : M IS α} (hm : c → Steady m) (hn : ¬ c → Steady n) : Steady (if c then m else n) := by
  split
  · exact hm ‹_›
  · exact hn ‹_›
theorem Steady.attempt {m : M IS α} (hm : Steady m) : Steady (M.attempt m) := by
  intro s hs
  obtain ⟨h1, h2, h3⟩ := hm s hs
  rw [attempt_run]
  cases hr : m s with
  | fault f => exact absurd hr (h1 f)
  | err x t => refine ⟨fun f h => ?_, fun a t h => ?_, fun x t h => ?_⟩ <;> cases h; exact h3 _ _ hr
  | ok x t => refine ⟨fun f h => ?_, fun a t h => ?_, fun x t h => ?_⟩ <;> cases h; exact h2 _ _ hr
theorem Steady_upd {f : Item → Item} (h : ∀ i, (f i).typ = i.typ) : Steady (upd f) := Steady.modify fun s => h s.item
theorem Steady_lp {m : P α} (h : NF m) : Steady (lp m) := by
  intro s hs
  unfold lp
  cases hr : m s.off with
  | fault f => exact absurd hr (h _ f)
  | err x t => refine ⟨fun f h => ?_, fun a t h => ?_, fun x t h => ?_⟩ <;> cases h; rfl
  | ok x t => refine ⟨fun f h => ?_, fun a t h => ?_, fun x t h => ?_⟩ <;> cases h; rfl
end

theorem Steady_checkDelegationItems (e : Env) (n : Nat) (b : Bool) : Steady (checkDelegationItems e n b) := by
  unfold checkDelegationItems
  walk Steady
  all_goals first | walk NF | skip
  all_goals intro i; rfl
theorem Steady_parseDelegation (e : Env) (n : Nat) (b : Bool) : Steady (parseDelegation e n b) := by
  unfold parseDelegation
  refine .getBind fun a ha => ?_
  have hm : (a.item.typ == tyModuleBytes) = false := by simpa using ha
  rw [hm]
  walk Steady
  all_goals first | walk NF | skip
  all_goals first | contradiction | (intro i; first | rfl | (split <;> rfl) | skip)
theorem Steady_finishItem (e : Env) (n b : Nat) : Steady (finishItem e n b) := by
  unfold finishItem
  walk Steady
  all_goals first | walk NF | skip
  all_goals intro i; rfl
theorem Steady_versionStep (e : Env) (b : Bool) : Steady (versionStep e b) := by
  unfold versionStep
  walk Steady
  all_goals first | walk NF | skip
  all_goals intro i; rfl
theorem Steady_checkEntrypoint (e : Env) : Steady (checkEntrypoint e) := by
  unfold checkEntrypoint
  walk Steady
  all_goals first | walk NF | skip
  all_goals intro i; rfl
theorem Steady_parseNativeTransfer (e : Env) (n : Nat) : Steady (parseNativeTransfer e n) := by
  unfold parseNativeTransfer
  walk Steady
  all_goals first | walk NF | skip
  all_goals intro i; rfl
/-- No undefined behaviour while an item other than module bytes is parsed. -/
theorem Steady_parseDeployItem (e : Env) (b : Bool) : Steady (parseDeployItem e b) := by
  unfold parseDeployItem
  refine .bind (Steady_upd fun _ => rfl) fun _ => .getBind fun a ha => ?_
  dsimp only
  rw [if_neg ha]
  unfold parseByHash parseByName parseTransfer
  walk Steady
  all_goals first | walk NF | skip
  all_goals intro i; rfl

/-- No undefined behaviour while the payment is parsed. -/
theorem NF_parsePayment (e : Env) (s : IS) (h : s.item.typ = 0) (f : Fault) : parseDeployItem e true s ≠ .fault f := by
  have : parseDeployItem e true s = parseModuleBytes e true
      { s with item := { s.item with total := 0, fixed := 0, runtime := 0, generic := 0, special := 255 } } := by
    unfold parseDeployItem
    refine modThen (getThen ?_)
    dsimp only
    rw [if_pos h]
  rw [this]
  have : NF (parseModuleBytes e true) := by unfold parseModuleBytes; simp only [if_true]; walk NF
  exact this _ _

/-! ### Cursors return -/

/-- On the serialized arguments `as`, the cursor is afterwards where it was before. -/
def Back (e : Env) (as : List Arg) {α : Type} (m : P α) : Prop :=
  ∀ s, At e.buf s (encodeArgs as) → (∀ a t, m s = .ok a t → t = s) ∧ (∀ x t, m s = .err x t → t = s)
/-- The same for item parsers. -/
def BackI (e : Env) (as : List Arg) {α : Type} (m : M IS α) : Prop :=
  ∀ s, At e.buf s.off (encodeArgs as) → (∀ a t, m s = .ok a t → t.off = s.off) ∧ (∀ x t, m s = .err x t → t.off = s.off)

section
variable {e : Env} {as : List Arg} {α β : Type}

theorem Back.bind {m : P α} {f : α → P β} (hm : Back e as m) (hf : ∀ a, Back e as (f a)) : Back e as (m >>= f) := by
  intro s hs
  have h := hm s hs
  rw [bind_run]
  cases hr : m s with
  | fault f => constructor <;> intro a t h <;> cases h
  | err x t =>
    constructor <;> intro a t h' <;> cases h'
    exact h.2 _ _ hr
  | ok a t =>
    have ht := h.1 _ _ hr
    subst ht
    exact hf a t hs
theorem Back.pure (a : α) : Back e as (Pure.pure a : P α) := by
  intro s hs; constructor <;> intro b t h <;> cases h; rfl
theorem Back.fail (x : Nat) : Back e as (M.fail x : P α) := by
  intro s hs; constructor <;> intro b t h <;> cases h; rfl
theorem Back.require (c : Prop) [Decidable c] (x : Nat) : Back e as (M.require c x : P Unit) := by
  intro s hs
  unfold M.require
  split
  · exact Back.pure () s hs
  · exact Back.fail x s hs
theorem Back.ite {c : Prop} [Decidable c] {m n : P α} (hm : c → Back e as m) (hn : ¬ c → Back e as n) :
    Back e as (if c then m else n) := by
  split
  · exact hm ‹_›
  · exact hn ‹_›
theorem Back.attempt {m : P α} (hm : Back e as m) : Back e as (M.attempt m) := by
  intro s hs
  have h := hm s hs
  rw [attempt_run]
  cases hr : m s with
  | fault f => constructor <;> intro a t h <;> cases h
  | err x t => constructor <;> intro a t h' <;> cases h'; exact h.2 _ _ hr
  | ok a t => constructor <;> intro a t h' <;> cases h'; exact h.1 _ _ hr

theorem BackI.bind {m : M IS α} {f : α → M IS β} (hm : BackI e as m) (hf : ∀ a, BackI e as (f a)) : BackI e as (m >>= f) := by
  intro s hs
  have h := hm s hs
  rw [bind_run]
  cases hr : m s with
  | fault f => constructor <;> intro a t h <;> cases h
  | err x t =>
    constructor <;> intro a t h' <;> cases h'
    exact h.2 _ _ hr
  | ok a t =>
    have ht := h.1 _ _ hr
    have := hf a t (by rw [ht]; exact hs)
    exact ⟨fun b u h => (this.1 b u h).trans ht, fun b u h => (this.2 b u h).trans ht⟩
theorem BackI.pure (a : α) : BackI e as (Pure.pure a : M IS α) := by
  intro s hs; constructor <;> intro b t h <;> cases h; rfl
theorem BackI.get : BackI e as (M.get : M IS IS) := by
  intro s hs; constructor <;> intro b t h <;> cases h; rfl
theorem BackI.fail (x : Nat) : BackI e as (M.fail x : M IS α) := by
  intro s hs; constructor <;> intro b t h <;> cases h; rfl
theorem BackI.require (c : Prop) [Decidable c] (x : Nat) : BackI e as (M.require c x : M IS Unit) := by
  intro s hs
  unfold M.require
  split
  · exact BackI.pure () s hs
  · exact BackI.fail x s hs
theorem BackI.ite {c : Prop} [Decidable c] {m n : M IS α} (hm : c → BackI e as m) (hn : ¬ c → BackI e as n) :
    BackI e as (if c then m else n) := by
  split
  · exact hm ‹_›
  · exact hn ‹_›
theorem BackI.attempt {m : M IS α} (hm : BackI e as m) : BackI e as (M.attempt m) := by
  intro s hs
  have h := hm s hs
  rw [attempt_run]
  cases hr : m s with
  | fault f => constructor <;> intro a t h <;> cases h
  | err x t => constructor <;> intro a t h' <;> cases h'; exact h.2 _ _ hr
  | ok a t => constructor <;> intro a t h' <;> cases h'; exact h.1 _ _ hr
theorem BackI_upd (f : Item → Item) : BackI e as (upd f) := by
  intro s hs; constructor <;> intro b t h <;> cases h; rfl
theorem BackI_lp {m : P α} (h : Back e as m) : BackI e as (lp m) := by
  intro s hs
  have h := h s.off hs
  unfold lp
  cases hr : m s.off with
  | fault f => constructor <;> intro a t h <;> cases h
  | err x t => constructor <;> intro a t h' <;> cases h'; exact h.2 _ _ hr
  | ok a t => constructor <;> intro a t h' <;> cases h'; exact h.1 _ _ hr

variable (hf : Fits e) (hok : ∀ a ∈ as, a.Ok)
include hf hok

theorem Back_searchArgs (name : Bytes) : Back e as (searchArgs e name as.length) := by
  intro s hs
  rw [searchArgs_at hf hok hs]
  cases as.find? (fun a => cstr a.name == name) <;> constructor <;> intro a t h <;> cases h <;> rfl
theorem Back_checkArg (name : Bytes) (c : Nat → Nat → Bool) : Back e as (checkArg e as.length name c) := by
  have := Back_searchArgs hf hok name
  unfold checkArg; walk Back
theorem Back_countArg (name : Bytes) (c : Nat → Nat → Bool) : Back e as (countArg e as.length name c) := by
  have := Back_searchArgs hf hok name
  unfold countArg; walk Back
theorem Back_checkTransferArgs : Back e as (checkTransferArgs e as.length) := by
  have h1 := Back_checkArg hf hok
  have h2 := Back_countArg hf hok
  unfold checkTransferArgs; walk Back
theorem BackI_parseNativeTransfer : BackI e as (parseNativeTransfer e as.length) := by
  have h1 := Back_checkTransferArgs hf hok
  unfold parseNativeTransfer; walk BackI
theorem BackI_parseSystemPayment : BackI e as (parseSystemPayment e as.length) := by
  have h1 := Back_checkArg hf hok
  unfold parseSystemPayment checkPaymentArgs; walk BackI
  all_goals walk Back
theorem BackI_checkDelegationItems (b : Bool) : BackI e as (checkDelegationItems e as.length b) := by
  have h1 := Back_checkArg hf hok
  have h2 := Back_countArg hf hok
  unfold checkDelegationItems; walk BackI
  all_goals walk Back
omit hf hok in
theorem parseAuction_back {n : Nat} {s : IS} : Post (parseAuction e n) s (fun _ t => t.off = s.off) := by
  unfold parseAuction
  refine Post.getThen (Post.modifyThen ?_)
  dsimp only
  refine Post.seq (P := fun _ _ => True) (fun _ _ _ => trivial) fun _ t _ => ?_
  refine Post.seq (P := fun _ _ => True) (fun _ _ _ => trivial) fun _ t _ => ?_
  refine Post.seq (P := fun _ _ => True) (fun _ _ _ => trivial) fun _ t _ => ?_
  refine Post.modifyThen (Post.seq (P := fun _ t => t.off = s.off) ?_ fun _ t h => Post.pure h)
  intro a t h
  cases h
  rfl
theorem parseDelegation_back {b : Bool} {s : IS} (ha : At e.buf s.off (encodeArgs as)) :
    Post (parseDelegation e as.length b) s (fun _ t => t.off = s.off) := by
  unfold parseDelegation
  refine Post.getThen ?_
  dsimp only
  refine Post.seq (P := fun _ t => t.off = s.off) (Post.ite (fun _ => parseAuction_back) fun _ => Post.pure rfl) fun r t ht => ?_
  obtain ⟨redel, hasA⟩ := r
  dsimp only
  rw [← ht] at ha ⊢
  have h1 := Back_checkArg hf hok
  have h2 := Back_searchArgs hf hok
  have h3 := BackI_checkDelegationItems hf hok
  intro a u hu
  refine ((?_ : BackI e as _) t ha).1 a u hu
  walk BackI
  all_goals walk Back
end

/-! ### How many lines an item has -/

theorem lp_frame {α : Type} {m : P α} {s : IS} : Post (lp m) s (fun _ t => t.epo = s.epo ∧ t.item = s.item) := by
  intro a t ht
  unfold lp at ht
  cases hr : m s.off <;> rw [hr] at ht <;> cases ht
  exact ⟨rfl, rfl⟩

/-- Few lines.  (The number of fixed lines can be 2^32 - 1, which later wraps around.) -/
structure Few (i : Item) (r : Nat) : Prop where
  runtime : i.runtime ≤ r
  fixed : i.fixed ≤ 5 ∨ i.fixed = 4294967295 ∧ 2 ≤ i.runtime

theorem Few.mono {i : Item} {r r' : Nat} (h : Few i r) (hr : r ≤ r') : Few i r' := ⟨by have := h.1; omega, h.2⟩

theorem countStep_le {a : Nat} {c : Count} {b : Nat} (h : countStep a c = some b) : b ≤ a + 1 := by
  cases c <;> simp [countStep] at h <;> omega

/-- At most `k` more lines after success, none after failure. -/
def Lim (k : Nat) {α : Type} (m : M IS α) : Prop :=
  ∀ s r, Few s.item r → (∀ a t, m s = .ok a t → Few t.item (r + k)) ∧ (∀ x t, m s = .err x t → Few t.item r)

section
variable {k : Nat} {α β : Type}
theorem Lim.bind {m : M IS α} {f : α → M IS β} (hm : Lim 0 m) (hf : ∀ a, Lim k (f a)) : Lim k (m >>= f) := by
  intro s r hs
  have h := hm s r hs
  rw [bind_run]
  cases hr : m s with
  | fault f => constructor <;> intro a t h <;> cases h
  | err x t =>
    constructor <;> intro a t h' <;> cases h'
    exact h.2 _ _ hr
  | ok a t => exact hf a t r (h.1 _ _ hr)
theorem Lim.zero {m : M IS α} (h : Lim 0 m) : Lim k m := fun s r hs =>
  ⟨fun a t h' => ((h s r hs).1 a t h').mono (by omega), fun a t h' => (h s r hs).2 a t h'⟩
theorem Lim.pure (a : α) : Lim k (Pure.pure a : M IS α) := by
  intro s r hs; constructor <;> intro b t h <;> cases h; exact hs.mono (by omega)
theorem Lim.get : Lim 0 (M.get : M IS IS) := by
  intro s r hs; constructor <;> intro b t h <;> cases h; exact hs
theorem Lim.fail (x : Nat) : Lim k (M.fail x : M IS α) := by
  intro s r hs; constructor <;> intro b t h <;> cases h; exact hs
theorem Lim.require (c : Prop) [Decidable c] (x : Nat) : Lim k (M.require c x : M IS Unit) := by
  intro s r hs
  unfold M.require
  split
  · exact Lim.pure () s r hs
  · exact Lim.fail x s r hs
theorem Lim.ite {c : Prop} [Decidable c] {m n : M IS α} (hm : c → Lim k m) (hn : ¬ c → Lim k n) : Lim k (if c then m else n) := by
  split
  · exact hm ‹_›
  · exact hn ‹_›
theorem Lim.attempt {m : M IS α} (hm : Lim 0 m) : Lim 0 (M.attempt m) := by
  intro s r hs
  have h := hm s r hs
  rw [attempt_run]
  cases hr : m s with
  | fault f => constructor <;> intro a t h <;> cases h
  | err x t => constructor <;> intro a t h' <;> cases h'; exact h.2 _ _ hr
  | ok a t => constructor <;> intro a t h' <;> cases h'; exact h.1 _ _ hr
theorem Lim_upd {f : Item → Item} (h : ∀ i r, Few i r → Few (f i) (r + k)) : Lim k (upd f) := by
  intro s r hs; constructor <;> intro b t h' <;> cases h'; exact h _ _ hs
theorem Lim_lp (m : P α) : Lim k (lp m) := by
  intro s r hs
  unfold lp
  cases hr : m s.off with
  | fault f => constructor <;> intro a t h <;> cases h
  | err x t => constructor <;> intro a t h' <;> cases h'; exact hs
  | ok a t => constructor <;> intro a t h' <;> cases h'; exact hs.mono (by omega)
theorem Lim.post {m : M IS α} (h : Lim k m) {s : IS} {r : Nat} (hs : Few s.item r) : Post m s (fun _ t => Few t.item (r + k)) :=
  fun a t ht => (h s r hs).1 a t ht
end

theorem Lim_checkDelegationItems (e : Env) (n : Nat) (b : Bool) : Lim 4 (checkDelegationItems e n b) := by
  unfold checkDelegationItems
  refine .bind (Lim_lp _) fun c1 => ?_
  split
  · exact .pure _
  rename_i a ha
  refine .bind (Lim_upd fun i r h => ⟨h.1, h.2⟩) fun _ => .bind (Lim_lp _) fun c2 => ?_
  split
  · exact .pure _
  rename_i b hb
  refine .bind (Lim_lp _) fun c3 => ?_
  split
  · exact .pure _
  rename_i found hc
  refine .bind (Lim_lp _) fun _ => .bind (Lim_lp _) fun _ => .bind (Lim_lp _) fun _ => .bind .get fun s => ?_
  refine .ite (fun _ => ?_) fun _ => .ite (fun _ => ?_) fun _ => ?_
  · have := countStep_le ha
    have := countStep_le hb
    have := countStep_le hc
    refine Lim_upd fun i r h => ⟨by have := h.1; dsimp only; omega, ?_⟩
    dsimp only
    unfold u32
    omega
  · exact .bind (Lim_lp _) fun _ => Lim_upd fun i r h => ⟨by have := h.1; dsimp only; omega, by have := h.2; dsimp only; omega⟩
  · exact Lim_upd fun i r h => ⟨by have := h.1; dsimp only; omega, by have := h.2; dsimp only; omega⟩

theorem Lim_parseAuction (e : Env) (n : Nat) : Lim 0 (parseAuction e n) := by
  unfold parseAuction
  walk Lim
  all_goals intro i r h; exact ⟨h.1, h.2⟩

theorem delegationLines_few {e : Env} {n : Nat} {b : Bool} {u : IS} (hu : Few u.item 0) :
    Post (delegationLines e n b) u (fun _ t => Few t.item 4) := by
  unfold delegationLines
  refine Post.seq (P := fun r (t : IS) => (r.toBool = true → Few t.item 4) ∧ (r.toBool = false → Few t.item 0)) ?_ fun r u hu => ?_
  · exact Post.attempt (fun a t h => ⟨fun _ => (Lim_checkDelegationItems e n b).post hu a t h, fun h => by cases h⟩)
      fun x t h => ⟨fun h => (by cases h), fun _ => (Lim_checkDelegationItems e n b u 0 hu).2 x t h⟩
  cases r with
  | ok a => exact Post.pure (hu.1 rfl)
  | error x =>
    have hu := hu.2 rfl
    refine Post.ite (fun _ => ?_) fun _ => Post.fail
    refine Post.seq (P := fun _ t => Few t.item 0) ((Lim.attempt (Lim_lp _)).post hu) fun r u hu => ?_
    refine Post.modify ⟨?_, .inl (by dsimp only; omega)⟩
    have := hu.1
    dsimp only
    cases r <;> simp only <;> omega

theorem Lim_finishDelegation (e : Env) (b : Bool) : Lim 0 (finishDelegation e b) := by
  unfold finishDelegation
  refine .bind (Lim_upd fun i r h => ?_) fun _ => .ite (fun _ => Lim_upd fun i r h => ?_) fun _ => .pure _
  · split
    · exact ⟨h.1, h.2⟩
    · exact h
  · refine ⟨h.1, .inl ?_⟩
    dsimp only
    split <;> split <;> omega

theorem parseDelegation_few {e : Env} {n : Nat} {b : Bool} {s : IS} (hs : Few s.item 0) :
    Post (parseDelegation e n b) s (fun _ t => Few t.item 4) := by
  unfold parseDelegation
  refine Post.getThen ?_
  dsimp only
  refine Post.seq (P := fun _ t => Few t.item 0) (Post.ite (fun _ => (Lim_parseAuction e n).post hs) fun _ => Post.pure hs) fun r t ht => ?_
  obtain ⟨redel, hasA⟩ := r
  dsimp only
  refine Post.seq (P := fun _ t => Few t.item 0) ?_ fun _ u hu =>
    (delegationLines_few hu).seq fun _ v hv => (Lim_finishDelegation e hasA).post hv
  exact (Lim.ite (fun _ => Lim_lp (k := 0) _) (fun _ => Lim.pure (k := 0) _) : Lim 0 (checkNewValidator e n redel)).post ht

theorem finishItem_few {e : Env} {n a r : Nat} {s : IS} (hs : Few s.item r) : Post (finishItem e n a) s (fun _ t => Few t.item r) := by
  unfold finishItem
  refine (lp_frame).seq fun _ t ht => lp_frame.seq fun _ u hu => Post.modify ?_
  have : Few u.item r := by rw [hu.2, ht.2]; exact hs
  exact ⟨this.1, this.2⟩

theorem checkEntrypoint_few {e : Env} {s : IS} (hs : Few s.item 0) : Post (checkEntrypoint e) s (fun _ t => Few t.item 4) := by
  unfold checkEntrypoint
  refine Post.modifyThen (((Lim_lp (k := 0) _).post (by exact hs)).seq fun _ t ht => Post.modifyThen ?_)
  refine lp_frame.seq fun n u hu => Post.modifyThen ?_
  have : Few u.item 0 := by rw [hu.2]; exact ⟨ht.1, ht.2⟩
  exact (parseDelegation_few (by exact ⟨this.1, this.2⟩)).seq fun _ u hu => Post.pure hu

/-- An item has few lines. -/
theorem parseDeployItem_few {e : Env} {pay : Bool} {s : IS} : Post (parseDeployItem e pay) s (fun _ t => Few t.item 4) := by
  unfold parseDeployItem
  refine Post.modifyThen (Post.getThen ?_)
  dsimp only
  have h0 : Few { s.item with total := 0, fixed := 0, runtime := 0, generic := 0, special := 255 } 0 := ⟨Nat.le_refl _, .inl (Nat.zero_le _)⟩
  have hv : ∀ b (t : IS), t.item = { s.item with total := 0, fixed := 0, runtime := 0, generic := 0, special := 255 } →
      Post (versionStep e b) t (fun _ t => Few t.item 0) := by
    intro b t ht
    unfold versionStep
    refine Post.ite (fun _ => ?_) fun _ => Post.pure (by rw [ht]; exact h0)
    refine lp_frame.seq fun _ u hu => ?_
    rw [← hu.2] at ht
    refine Post.ite (fun _ => Post.modify ⟨?_, .inl ?_⟩) fun _ => Post.pure (by rw [ht]; exact h0)
    · dsimp only; rw [ht]; exact Nat.le_refl _
    · dsimp only; rw [ht]; exact (by decide : 0 + 1 ≤ 5)
  refine Post.ite (fun _ => ?_) fun _ => Post.ite (fun _ => ?_) fun _ => Post.ite (fun _ => ?_) fun _ =>
    Post.ite (fun _ => ?_) fun _ => .fail
  · unfold parseModuleBytes
    refine Post.getThen ?_
    dsimp only
    refine ((Lim_lp (k := 0) _).post (by exact h0)).seq fun _ t ht => ((Lim_lp (k := 0) _).post ht).seq fun n t ht => ?_
    refine Post.ite (fun _ => ?_) fun _ => ?_
    · refine Post.seq (P := fun _ t => Few t.item 4) ?_ fun _ t ht => Post.modifyThen (finishItem_few ⟨ht.1, ht.2⟩)
      unfold parseSystemPayment
      refine Post.ite (fun _ => .fail) fun _ => ?_
      have hp : Lim 0 (checkPaymentArgs e n) := by
        unfold checkPaymentArgs
        exact .bind (.require _ _) fun _ => .bind (Lim_lp _) fun _ => Lim_upd fun i r h => ⟨h.1, h.2⟩
      refine ((Lim.attempt hp).post ht).seq fun r t ht => ?_
      have hr := ht.1
      cases r with
      | ok a => exact Post.modify ⟨by dsimp only; omega, (by have := ht.2; dsimp only; omega)⟩
      | error x => exact Post.ite (fun _ => .fail) fun _ => Post.modify ⟨by dsimp only; omega, (by have := ht.2; dsimp only; omega)⟩
    · exact (parseDelegation_few ht).seq fun _ t ht => finishItem_few ht
  · unfold parseByHash
    refine Post.getThen ?_
    dsimp only
    refine lp_frame.seq fun _ t ht => Post.getThen ?_
    exact (hv _ _ ht.2).seq fun _ t ht => (checkEntrypoint_few ht).seq fun n t ht => finishItem_few ht
  · unfold parseByName
    refine Post.getThen ?_
    dsimp only
    refine lp_frame.seq fun _ t ht => Post.getThen ?_
    exact (hv _ _ ht.2).seq fun _ t ht => (checkEntrypoint_few ht).seq fun n t ht => finishItem_few ht
  · unfold parseTransfer
    refine Post.getThen ?_
    dsimp only
    refine (lp_post readU32_post).seq fun n t ht => ?_
    have hn := ht.1.2.1
    replace ht : Few t.item 0 := by rw [ht.2]; exact h0
    refine Post.seq (P := fun _ t => Few t.item 4) ?_ fun _ t ht => Post.modifyThen (finishItem_few ⟨ht.1, ht.2⟩)
    unfold parseNativeTransfer
    refine lp_frame.seq fun found u hu => ?_
    rw [← hu.2] at ht
    have hr := ht.1
    refine Post.ite (fun hu => Post.ite (fun hfound => ?_) fun _ => ?_) fun _ => Post.modify ⟨by dsimp only; omega, (by have := ht.2; dsimp only; omega)⟩
    · refine Post.modify ⟨?_, (by have := ht.2; dsimp only; omega)⟩
      unfold u32 at hu
      dsimp only
      split <;> omega
    · exact Post.modifyThen .fail

end Casper
