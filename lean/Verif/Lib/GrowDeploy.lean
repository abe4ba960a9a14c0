import Verif.Lib.GrowItems
import Verif.Props.Deploys
/-
Serialized Deploys are read the same when more data follow.
-/
namespace Casper
open M

theorem At.ext {xs ys zs : Bytes} {o : Nat} (h : At xs o ys) : At (xs ++ zs) o ys := by
  obtain ⟨a, b, h1, h2⟩ := h
  exact ⟨a, b ++ zs, by rw [h1]; simp, h2⟩

/-- With serialized arguments at the cursor, `m'` does what `m` does, and the cursor is back afterwards, success or not. -/
def Twin {σ α : Type} (pos : σ → Nat) (e : Env) (as : List Arg) (m' m : M σ α) : Prop := ∀ s, At e.buf (pos s) (encodeArgs as) →
  m' s = m s ∧ (∀ a t, m s = .ok a t → pos t = pos s) ∧ ∀ x t, m s = .err x t → pos t = pos s

section
variable {σ α β : Type} {pos : σ → Nat} {e : Env} {as : List Arg}

theorem Twin.bind {m m' : M σ α} {f f' : α → M σ β} (hm : Twin pos e as m' m) (hf : ∀ a, Twin pos e as (f' a) (f a)) :
    Twin pos e as (m' >>= f') (m >>= f) := by
  intro s hs
  obtain ⟨h1, h2, h3⟩ := hm s hs
  rw [bind_run, bind_run, h1]
  cases hr : m s with
  | fault f => exact ⟨rfl, fun _ _ h => (by cases h), fun _ _ h => (by cases h)⟩
  | err x t => exact ⟨rfl, fun _ _ h => (by cases h), fun _ _ h => by cases h; exact h3 _ _ hr⟩
  | ok a t =>
    have ht := h2 _ _ hr
    obtain ⟨k1, k2, k3⟩ := hf a t (by rw [ht]; exact hs)
    exact ⟨k1, fun a u h => (k2 a u h).trans ht, fun a u h => (k3 a u h).trans ht⟩
theorem Twin.stay {m : M σ α} (h : ∀ s, (∀ a t, m s = .ok a t → pos t = pos s) ∧ ∀ x t, m s = .err x t → pos t = pos s) : Twin pos e as m m :=
  fun s _ => ⟨rfl, h s⟩
theorem Twin.pure (a : α) : Twin pos e as (Pure.pure a : M σ α) (Pure.pure a) :=
  .stay fun s => ⟨fun _ _ h => (by cases h; rfl), fun _ _ h => (by cases h)⟩
theorem Twin.get : Twin pos e as (M.get : M σ σ) M.get :=
  .stay fun s => ⟨fun _ _ h => (by cases h; rfl), fun _ _ h => (by cases h)⟩
theorem Twin.fail (x : Nat) : Twin pos e as (M.fail x : M σ α) (M.fail x) :=
  .stay fun s => ⟨fun _ _ h => (by cases h), fun _ _ h => (by cases h; rfl)⟩
theorem Twin.ite {c : Prop} [Decidable c] {m n m' n' : M σ α} (hm : c → Twin pos e as m' m) (hn : ¬ c → Twin pos e as n' n) :
    Twin pos e as (if c then m' else n') (if c then m else n) := by
  split
  · exact hm ‹_›
  · exact hn ‹_›
theorem Twin.require (c : Prop) [Decidable c] (x : Nat) : Twin pos e as (M.require c x : M σ Unit) (M.require c x) := by
  unfold M.require
  exact .ite (fun _ => .pure _) fun _ => .fail _
theorem Twin.attempt {m m' : M σ α} (hm : Twin pos e as m' m) : Twin pos e as (M.attempt m') (M.attempt m) := by
  intro s hs
  obtain ⟨h1, h2, h3⟩ := hm s hs
  rw [attempt_run, attempt_run, h1]
  cases hr : m s with
  | fault f => exact ⟨rfl, fun _ _ h => (by cases h), fun _ _ h => (by cases h)⟩
  | err x t => exact ⟨rfl, fun _ _ h => (by cases h; exact h3 _ _ hr), fun _ _ h => (by cases h)⟩
  | ok a t => exact ⟨rfl, fun _ _ h => (by cases h; exact h2 _ _ hr), fun _ _ h => (by cases h)⟩
theorem Twin_upd (f : Item → Item) : Twin IS.off e as (upd f) (upd f) :=
  .stay fun s => ⟨fun _ _ h => (by cases h; rfl), fun _ _ h => (by cases h)⟩
theorem Twin_lp {m m' : P α} (h : Twin id e as m' m) : Twin IS.off e as (lp m') (lp m) := by
  intro s hs
  obtain ⟨h1, h2, h3⟩ := h s.off hs
  unfold lp
  rw [h1]
  cases hr : m s.off with
  | fault f => exact ⟨rfl, fun _ _ h => (by cases h), fun _ _ h => (by cases h)⟩
  | err x t => exact ⟨rfl, fun _ _ h => (by cases h), fun _ _ h => (by cases h; exact h3 _ _ hr)⟩
  | ok a t => exact ⟨rfl, fun _ _ h => (by cases h; exact h2 _ _ hr), fun _ _ h => (by cases h)⟩
end

/-- From this state, what `m` succeeds in `m'` does as well. -/
def GrowsAt {σ α : Type} (m' m : M σ α) (s : σ) : Prop := ∀ a t, m s = .ok a t → m' s = .ok a t

section
variable {σ α β : Type} {m m' : M σ α} {f f' : α → M σ β} {s : σ}
theorem Grows.at (h : Grows m' m) : GrowsAt m' m s := h s
theorem GrowsAt.seq {P : α → σ → Prop} (h : GrowsAt m' m s) (hp : Post m s P) (hf : ∀ a t, P a t → GrowsAt (f' a) (f a) t) :
    GrowsAt (m' >>= f') (m >>= f) s := by
  intro b u hb
  obtain ⟨a, t, h1, h2⟩ := bind_eq_ok.1 hb
  exact bind_eq_ok.2 ⟨a, t, h _ _ h1, hf a t (hp _ _ h1) _ _ h2⟩
theorem GrowsAt.bind (h : GrowsAt m' m s) (hf : ∀ a, Grows (f' a) (f a)) : GrowsAt (m' >>= f') (m >>= f) s :=
  h.seq (P := fun _ _ => True) (fun _ _ _ => trivial) fun a _ _ => (hf a).at
theorem GrowsAt.runThen {a : α} {t : σ} (h : m s = .ok a t) (hg : Grows m' m) (hf : GrowsAt (f' a) (f a) t) : GrowsAt (m' >>= f') (m >>= f) s :=
  hg.at.seq (P := fun b u => b = a ∧ u = t) (fun b u hu => by rw [h] at hu; cases hu; exact ⟨rfl, rfl⟩) fun b u hu => by
    obtain ⟨rfl, rfl⟩ := hu; exact hf
theorem GrowsAt.ite {c : Prop} [Decidable c] {m n m' n' : M σ α} (hm : c → GrowsAt m' m s) (hn : ¬ c → GrowsAt n' n s) :
    GrowsAt (if c then m' else n') (if c then m else n) s := by
  split
  · exact hm ‹_›
  · exact hn ‹_›
theorem GrowsAt.getThen {f f' : σ → M σ β} (hf : GrowsAt (f' s) (f s) s) : GrowsAt (M.get >>= f') (M.get >>= f) s := .runThen rfl .get hf
theorem GrowsAt.modifyThen {g : σ → σ} {f f' : Unit → M σ β} (hf : GrowsAt (f' ()) (f ()) (g s)) : GrowsAt (M.modify g >>= f') (M.modify g >>= f) s :=
  .runThen rfl (.modify g) hf
end

theorem Grows_lp {α : Type} {m m' : P α} (h : Grows m' m) : Grows (lp m') (lp m) := by
  intro s a t h1
  unfold lp at h1 ⊢
  cases h2 : m s.off with
  | ok b o => rw [h2] at h1; rw [h _ _ _ h2]; exact h1
  | err b o => rw [h2] at h1; cases h1
  | fault b => rw [h2] at h1; cases h1
theorem Grows_ld {α : Type} {m m' : P α} (h : Grows m' m) : Grows (ld m') (ld m) := by
  intro s a t h1
  unfold ld at h1 ⊢
  cases h2 : m s.off with
  | ok b o => rw [h2] at h1; rw [h _ _ _ h2]; exact h1
  | err b o => rw [h2] at h1; cases h1
  | fault b => rw [h2] at h1; cases h1
theorem Grows_upd (f : Item → Item) : Grows (upd f) (upd f) := .refl _
theorem Grows_updHeader (f : Header → Header) : Grows (updHeader f) (updHeader f) := .refl _

section
variable {e : Env} {ys : Bytes} {as : List Arg} (hf : Fits (e.ext ys)) (hok : ∀ a ∈ as, a.Ok)

theorem Fits.of_ext (h : Fits (e.ext ys)) : Fits e := by
  unfold Fits at h ⊢; simp only [List.length_append] at h; omega

include hf hok
theorem Twin_searchArgs (name : Bytes) : Twin id e as (searchArgs (e.ext ys) name as.length) (searchArgs e name as.length) := by
  intro s hs
  rw [searchArgs_at hf hok (by exact hs.ext), searchArgs_at hf.of_ext hok (by exact hs)]
  refine ⟨rfl, ?_⟩
  cases as.find? (fun a => cstr a.name == name) <;> constructor <;> intro a t h <;> cases h <;> rfl
theorem Twin_checkArg (name : Bytes) (c : Nat → Nat → Bool) : Twin id e as (checkArg (e.ext ys) as.length name c) (checkArg e as.length name c) := by
  have := Twin_searchArgs hf hok name
  unfold checkArg; walk Twin
theorem Twin_countArg (name : Bytes) (c : Nat → Nat → Bool) : Twin id e as (countArg (e.ext ys) as.length name c) (countArg e as.length name c) := by
  have := Twin_searchArgs hf hok name
  unfold countArg; walk Twin
theorem Twin_checkTransferArgs : Twin id e as (checkTransferArgs (e.ext ys) as.length) (checkTransferArgs e as.length) := by
  have h1 := Twin_checkArg hf hok
  have h2 := Twin_countArg hf hok
  unfold checkTransferArgs; walk Twin
theorem Twin_parseNativeTransfer : Twin IS.off e as (parseNativeTransfer (e.ext ys) as.length) (parseNativeTransfer e as.length) := by
  have h1 := Twin_checkTransferArgs hf hok
  unfold parseNativeTransfer; walk Twin
theorem Twin_parseSystemPayment : Twin IS.off e as (parseSystemPayment (e.ext ys) as.length) (parseSystemPayment e as.length) := by
  have h1 := Twin_checkArg hf hok
  unfold parseSystemPayment checkPaymentArgs; walk Twin
theorem Twin_checkDelegationItems (b : Bool) : Twin IS.off e as (checkDelegationItems (e.ext ys) as.length b) (checkDelegationItems e as.length b) := by
  have h1 := Twin_checkArg hf hok
  have h2 := Twin_countArg hf hok
  unfold checkDelegationItems; walk Twin
theorem Twin_delegationLines (b : Bool) : Twin IS.off e as (delegationLines (e.ext ys) as.length b) (delegationLines e as.length b) := by
  have h1 := Twin_searchArgs hf hok
  have h2 := Twin_checkDelegationItems hf hok
  unfold delegationLines; walk Twin
theorem Twin_checkNewValidator (b : Bool) : Twin IS.off e as (checkNewValidator (e.ext ys) as.length b) (checkNewValidator e as.length b) := by
  have h1 := Twin_checkArg hf hok
  unfold checkNewValidator; walk Twin

omit hf hok in
theorem Grows_auctionKind : Grows (auctionKind (e.ext ys)) (auctionKind e) := by unfold auctionKind; walk Grows

omit hf hok in
theorem Grows_lookupI {β : Type} {name : Bytes} {n : Nat} {f f' : Except Nat (Nat × Nat) → M IS β} (h1 : ∀ a, Grows (f' (.ok a)) (f (.ok a)))
    (h2 : Grows (f' (.error 1)) (f (.error 1))) (h3 : ∀ x, x ≠ 1 → ∀ s b t, f (.error x) s ≠ .ok b t) :
    Grows (attempt (lp (getData (e.ext ys) name n)) >>= f') (attempt (lp (getData e name n)) >>= f) := by
  intro s b t h
  rw [bind_run, attempt_run] at h ⊢
  unfold lp at h ⊢
  cases hg : getData e name n s.off with
  | fault x => rw [hg] at h; cases h
  | ok a u => rw [hg] at h; rw [Grows_getData _ _ _ _ _ hg]; exact h1 a _ _ _ h
  | err x u =>
    rw [hg] at h
    by_cases hx : x = 1
    · subst hx; rw [getData_absent_ext hg]; exact h2 _ _ _ h
    · exact absurd h (h3 x hx _ _ _)

omit hf hok in
theorem Twin.at {σ α : Type} {pos : σ → Nat} {m m' : M σ α} (h : Twin pos e as m' m) {s : σ} (ha : At e.buf (pos s) (encodeArgs as)) : GrowsAt m' m s :=
  fun _ _ h' => (h s ha).1.trans h'

/-- The lookup of the auction contract, all of whose errors but "no data" are passed on. -/
theorem parseAuction_grow {s : IS} (ha : At e.buf s.off (encodeArgs as)) :
    GrowsAt (parseAuction (e.ext ys) as.length) (parseAuction e as.length) s := by
  unfold parseAuction
  refine .getThen (.modifyThen ?_)
  dsimp only
  refine ((Twin_lp (Twin_searchArgs hf hok b!"new_validator")).attempt.at (by exact ha)).bind fun r => ?_
  refine .bind (Grows_lookupI (fun a => ?_) ?_ fun x hx s b t h => ?_) fun hasA => ?_
  · obtain ⟨len, ty⟩ := a
    dsimp only
    refine .bind (.refl _) fun _ => .bind .get fun st => .bind ?_ fun _ => .refl _
    intro s a t h
    rw [require_run] at h ⊢
    split at h
    · rename_i hc
      rw [if_pos ⟨hc.1, by have := hc.2; simp only [List.length_append]; omega⟩]; exact h
    · cases h
  · dsimp only
    refine .ite (fun h => absurd rfl h) fun _ => .ite (fun _ => .refl _) fun _ => .refl _
  · dsimp only at h
    rw [if_pos hx] at h; cases h
  · exact .bind (Grows_lp Grows_auctionKind) fun k => .refl _

theorem parseDelegation_grow {b : Bool} {s : IS} (ha : At e.buf s.off (encodeArgs as)) :
    GrowsAt (parseDelegation (e.ext ys) as.length b) (parseDelegation e as.length b) s := by
  unfold parseDelegation
  refine .getThen ?_
  dsimp only
  refine GrowsAt.seq (P := fun _ t => t.off = s.off) (.ite (fun _ => parseAuction_grow hf hok ha) fun _ => (Grows.refl _).at)
    (Post.ite (fun _ => parseAuction_back) fun _ => Post.pure rfl) fun r t ht => ?_
  obtain ⟨redel, hasA⟩ := r
  dsimp only
  rw [← ht] at ha
  refine Twin.at (pos := IS.off) ?_ ha
  have h1 := Twin_checkNewValidator hf hok redel
  have h2 := Twin_delegationLines hf hok redel
  refine .bind h1 fun _ => .bind h2 fun _ => ?_
  unfold finishDelegation
  walk Twin

omit hf hok in
theorem finishItem_grow (n k : Nat) : Grows (finishItem (e.ext ys) n k) (finishItem e n k) := by
  unfold finishItem
  exact .bind (Grows_lp (Grows_parseArgs _)) fun _ => .refl _

theorem checkEntrypoint_grow {n : Bytes} {s : IS} (ha : At e.buf s.off (pfx n ++ encodeRuntimeArgs as)) :
    GrowsAt (checkEntrypoint (e.ext ys)) (checkEntrypoint e) s := by
  rw [encodeRuntimeArgs, At.append, At.append, pfx_length, le_length] at ha
  obtain ⟨h1, h2, h3⟩ := ha
  have hle := h3.le
  have hf' := hf.of_ext
  unfold checkEntrypoint
  refine .modifyThen (GrowsAt.seq (Grows_lp (Grows_copyItem _)).at (lp_post (Post.self.and (copyItem_post hf'))) fun nm t ⟨⟨h4, h5⟩, h6⟩ => ?_)
  dsimp only at h5
  have hn : t.off = s.off + (4 + n.length) := by
    rw [← h5.1.pfx_inj hf' h1]
    omega
  have hlen : as.length < 4294967296 := by
    have := encodeArgs_count as
    unfold Fits at hf'; omega
  refine .modifyThen (GrowsAt.runThen (a := as.length) (lp_run (readLE_at (by rw [hn]; exact h2) (by omega))) (Grows_lp (Grows_readLE 4)) (.modifyThen ?_))
  refine (parseDelegation_grow hf hok ?_).bind fun _ => .refl _
  dsimp only; rw [hn]; exact h3
end

/-- Reading an item yields the same when more data follow. -/
theorem parseDeployItem_grow {e : Env} {ys : Bytes} (hf : Fits (e.ext ys)) {i : ExecItem} (hi : i.Ok) {off epo : Nat} (ha : At e.buf off i.encode) (pay : Bool) :
    GrowsAt (parseDeployItem (e.ext ys) pay) (parseDeployItem e pay) ⟨off + 1, epo, { typ := i.tag }⟩ := by
  have hle := ha.le
  have hf1 := hf.of_ext
  have hf' := hf1
  unfold Fits at hf'
  have hargs := hi.args
  have hcount := encodeArgs_count i.args
  unfold parseDeployItem
  refine .modifyThen (.getThen ?_)
  cases i with
  | moduleBytes code as =>
    rw [ExecItem.encode, At.cons, encodeRuntimeArgs, At.append, At.append, pfx_length, le_length] at ha
    simp only [ExecItem.encode, encodeRuntimeArgs, List.length_cons, List.length_append, pfx_length, le_length, ExecItem.args] at hle hcount hargs
    obtain ⟨h0, h1, h2, h3⟩ := ha
    refine .ite (fun _ => ?_) fun h => absurd rfl h
    unfold parseModuleBytes
    refine .getThen (GrowsAt.runThen (lp_run (parseItem_at (ys := []) (xs := code) hf1 (by simpa using h1))) (Grows_lp Grows_parseItem) ?_)
    refine GrowsAt.runThen (a := as.length) (lp_run (readLE_at (h2.cast (by dsimp only; omega)) (by omega))) (Grows_lp (Grows_readLE 4)) ?_
    have hpos : At e.buf (off + 1 + 4 + code.length + 4) (encodeArgs as) := h3.cast (by omega)
    refine .ite (fun _ => ?_) fun _ => ?_
    · exact ((Twin_parseSystemPayment hf hargs).at (by exact hpos)).bind fun _ => .bind (.refl _) fun _ => finishItem_grow _ _
    · exact (parseDelegation_grow hf hargs (by exact hpos)).bind fun _ => finishItem_grow _ _
  | byHash hash n as =>
    have hl := hi.hash hash (.inl ⟨n, as, rfl⟩)
    rw [ExecItem.encode, At.cons, At.append, hl] at ha
    simp only [ExecItem.encode, encodeRuntimeArgs, List.length_cons, List.length_append, pfx_length, le_length, ExecItem.args] at hle hcount hargs
    obtain ⟨h0, h1, h2⟩ := ha
    refine .ite (fun h => absurd h (by simp [ExecItem.tag])) fun _ => .ite (fun _ => ?_) fun h => absurd (by simp [ExecItem.tag]) h
    unfold parseByHash
    refine .getThen (GrowsAt.runThen (lp_run (skip_run (by dsimp only; omega))) (.refl _) (.getThen (GrowsAt.runThen (t := ⟨off + 33, epo, { typ := 1, special := 255 }⟩) (a := ()) rfl (.refl _) ?_)))
    exact (checkEntrypoint_grow (n := n) hf hargs (by exact h2)).bind fun _ => finishItem_grow _ _
  | versionedByHash hash v n as =>
    have hl := hi.hash hash (.inr ⟨v, n, as, rfl⟩)
    rw [ExecItem.encode, At.cons, At.append, hl, At.append] at ha
    simp only [ExecItem.encode, encodeRuntimeArgs, List.length_cons, List.length_append, pfx_length, le_length, ExecItem.args] at hle hcount hargs
    obtain ⟨h0, h1, h2, h3⟩ := ha
    refine .ite (fun h => absurd h (by simp [ExecItem.tag])) fun _ => .ite (fun _ => ?_) fun h => absurd (by simp [ExecItem.tag]) h
    unfold parseByHash
    refine .getThen (GrowsAt.runThen (lp_run (skip_run (by dsimp only; omega))) (.refl _) (.getThen ?_))
    refine GrowsAt.seq (P := fun _ t => _) ?_ (versionStep_end (v := v) (fun k hk => hi.version k (.inl ⟨hash, n, as, by rw [hk]⟩)) (by exact h2)) fun _ t ht => ?_
    · exact Grows.at (by unfold versionStep; exact .ite (fun _ => .bind (Grows_lp Grows_parseVersion) fun _ => .refl _) fun _ => .refl _)
    dsimp only at ht
    exact (checkEntrypoint_grow (n := n) hf hargs (h3.cast (by omega))).bind fun _ => finishItem_grow _ _
  | byName name n as =>
    rw [ExecItem.encode, At.cons, At.append, pfx_length] at ha
    simp only [ExecItem.encode, encodeRuntimeArgs, List.length_cons, List.length_append, pfx_length, le_length, ExecItem.args] at hle hcount hargs
    obtain ⟨h0, h1, h2⟩ := ha
    refine .ite (fun h => absurd h (by simp [ExecItem.tag])) fun _ => .ite (fun h => absurd h (by simp [ExecItem.tag])) fun _ => .ite (fun _ => ?_) fun h => absurd (by simp [ExecItem.tag]) h
    unfold parseByName
    refine .getThen (GrowsAt.runThen (lp_run (parseItem_at (ys := []) (xs := name) hf1 (by simpa using h1))) (Grows_lp Grows_parseItem) (.getThen (GrowsAt.runThen (t := ⟨off + 1 + 4 + name.length, epo, { typ := 2, special := 255 }⟩) (a := ()) rfl (.refl _) ?_)))
    exact (checkEntrypoint_grow (n := n) hf hargs (h2.cast (by dsimp only; omega))).bind fun _ => finishItem_grow _ _
  | versionedByName name v n as =>
    rw [ExecItem.encode, At.cons, At.append, At.append, pfx_length] at ha
    simp only [ExecItem.encode, encodeRuntimeArgs, List.length_cons, List.length_append, pfx_length, le_length, ExecItem.args] at hle hcount hargs
    obtain ⟨h0, h1, h2, h3⟩ := ha
    refine .ite (fun h => absurd h (by simp [ExecItem.tag])) fun _ => .ite (fun h => absurd h (by simp [ExecItem.tag])) fun _ => .ite (fun _ => ?_) fun h => absurd (by simp [ExecItem.tag]) h
    unfold parseByName
    refine .getThen (GrowsAt.runThen (lp_run (parseItem_at (ys := []) (xs := name) hf1 (by simpa using h1))) (Grows_lp Grows_parseItem) (.getThen ?_))
    dsimp only
    refine GrowsAt.seq (P := fun _ t => _) ?_ (versionStep_end (v := v) (fun k hk => hi.version k (.inr ⟨name, n, as, by rw [hk]⟩)) (h2.cast (by dsimp only; omega))) fun _ t ht => ?_
    · exact Grows.at (by unfold versionStep; exact .ite (fun _ => .bind (Grows_lp Grows_parseVersion) fun _ => .refl _) fun _ => .refl _)
    dsimp only at ht
    exact (checkEntrypoint_grow (n := n) hf hargs (h3.cast (by omega))).bind fun _ => finishItem_grow _ _
  | transfer as =>
    rw [ExecItem.encode, At.cons, encodeRuntimeArgs, At.append, le_length] at ha
    simp only [ExecItem.encode, encodeRuntimeArgs, List.length_cons, List.length_append, pfx_length, le_length, ExecItem.args] at hle hcount hargs
    obtain ⟨h0, h1, h2⟩ := ha
    refine .ite (fun h => absurd h (by simp [ExecItem.tag])) fun _ => .ite (fun h => absurd h (by simp [ExecItem.tag])) fun _ => .ite (fun h => absurd h (by simp [ExecItem.tag])) fun _ => .ite (fun _ => ?_) fun h => absurd rfl h
    unfold parseTransfer
    refine .getThen (GrowsAt.runThen (a := as.length) (lp_run (readLE_at h1 (by omega))) (Grows_lp (Grows_readLE 4)) ?_)
    exact ((Twin_parseNativeTransfer hf hargs).at (by exact h2)).bind fun _ => .bind (.refl _) fun _ => finishItem_grow _ _


theorem onPayment_grow {α : Type} {m m' : M IS α} {s : DS} (h : GrowsAt m' m ⟨s.off, s.epo, s.dep.payment⟩) : GrowsAt (onPayment m') (onPayment m) s := by
  intro a t ht
  unfold onPayment at ht ⊢
  cases hr : m ⟨s.off, s.epo, s.dep.payment⟩ <;> rw [hr] at ht
  · rw [h _ _ hr]; exact ht
  · cases ht
  · cases ht
theorem onSession_grow {α : Type} {m m' : M IS α} {s : DS} (h : GrowsAt m' m ⟨s.off, s.epo, s.dep.session⟩) : GrowsAt (onSession m') (onSession m) s := by
  intro a t ht
  unfold onSession at ht ⊢
  cases hr : m ⟨s.off, s.epo, s.dep.session⟩ <;> rw [hr] at ht
  · rw [h _ _ hr]; exact ht
  · cases ht
  · cases ht

theorem Grows_readDeployHeader {e : Env} {ys : Bytes} : Grows (readDeployHeader (e.ext ys)) (readDeployHeader e) := by
  unfold readDeployHeader
  refine .bind ?_ fun _ => ?_
  · intro s a t h
    rw [require_run] at h ⊢
    split at h
    · rename_i hl
      rw [if_pos (by simp only [List.length_append]; omega)]; exact h
    · cases h
  · walk Grows

theorem GrowsAt.requireThen {σ β : Type} {c : Prop} [Decidable c] {x : Nat} {f f' : Unit → M σ β} {s : σ} (hf : c → GrowsAt (f' ()) (f ()) s) :
    GrowsAt (M.require c x >>= f') (M.require c x >>= f) s := by
  intro a t h
  rw [bind_run, require_run] at h ⊢
  split at h
  · rename_i hc; rw [if_pos hc]; exact hf hc _ _ h
  · cases h

/-- The tag byte of an item. -/
theorem At.itemTag {xs : Bytes} {o k : Nat} {i : ExecItem} (h : At xs o i.encode) (hk : k ≤ 6) (ht : At xs o [UInt8.ofNat k]) : k = i.tag := by
  rw [ExecItem.encode_eq] at h
  have h3 := ht.unique (At.cons.1 h).1 rfl
  have h4 := congrArg UInt8.toNat (List.cons.inj h3).1
  rw [UInt8.toNat_ofNat', UInt8.toNat_ofNat', Nat.mod_eq_of_lt (by omega), Nat.mod_eq_of_lt (by cases i <;> simp [ExecItem.tag])] at h4
  exact h4

/-- A serialized Deploy is read the same when more data follow. -/
theorem readDeploy_grow {e : Env} {ys : Bytes} (hf : Fits (e.ext ys)) {hd : DeployHeader} (ho : hd.Ok) {hh : Bytes} (hl : hh.length = 32) {pay ses : ExecItem}
    (hp : pay.Ok) (hs : ses.Ok) {rest : Bytes} (hb : e.buf = hd.encode ++ hh ++ (pay.encode ++ ses.encode) ++ rest) :
    GrowsAt (readDeploy (e.ext ys)) (readDeploy e) ⟨0, 0, {}⟩ := by
  have hfe := hf.of_ext
  have a0 : At e.buf 0 hd.encode := ⟨[], hh ++ (pay.encode ++ ses.encode) ++ rest, by rw [hb]; simp, rfl⟩
  have a1 : At e.buf (hd.encode.length + 32) pay.encode := ⟨hd.encode ++ hh, ses.encode ++ rest, by rw [hb]; simp, by simp [hl]⟩
  have a2 : At e.buf (hd.encode.length + 32 + pay.encode.length) ses.encode :=
    ⟨hd.encode ++ hh ++ pay.encode, rest, by rw [hb]; simp, by simp [hl]; omega⟩
  obtain ⟨w1, w2, w3⟩ := header_small ho hfe a0
  have le1 := a1.le
  have hf' := hfe
  unfold Fits at hf'
  unfold readDeploy
  refine Grows_readDeployHeader.at.seq readDeployHeader_post fun _ t ⟨h, hh, ht⟩ => ?_
  rw [ht]
  have hbs : h.bodyStart = hd.encode.length + 32 := by
    unfold Header.bodyStart
    rw [hh.view_eq hfe ho a0, w3, u16_id (by omega)]
  refine (Grows_ld Grows_readU8).at.seq (ld_post readU8_post) fun ty t ⟨⟨h1, h2, h3, h4⟩, h5⟩ => .requireThen fun h6 => ?_
  rw [h5, h3]
  refine (onPayment_grow (Grows_upd _).at).seq (onPayment_post Post.self) fun _ t ⟨u, hu, ht⟩ => .requireThen fun h7 => ?_
  cases hu
  rw [ht]
  subst h7
  dsimp only at h1 ⊢
  rw [hbs] at h1 ⊢
  have tp := a1.itemTag (by decide) h1
  have e1 := parseDeployItem_end (epo := 0) hfe hp a1 true
  rw [← tp] at e1
  have g1 := parseDeployItem_grow (epo := 0) hf hp a1 true
  rw [← tp] at g1
  refine (onPayment_grow (by exact g1)).seq (onPayment_post e1) fun _ t ⟨p, hp, ht⟩ => ?_
  rw [ht]
  refine .getThen (.requireThen fun h8 => ?_)
  dsimp only at h8 ⊢
  refine (Grows_ld Grows_readU8).at.seq (ld_post readU8_post) fun k t ⟨⟨h9, h10, h11, h12⟩, h13⟩ => .requireThen fun h14 => ?_
  rw [h13, h11]
  refine (onSession_grow (Grows_upd _).at).seq (onSession_post Post.self) fun _ t ⟨u, hu, ht⟩ => ?_
  cases hu
  rw [ht]
  dsimp only at h9 ⊢
  rw [hp] at h9 ⊢
  have ts := a2.itemTag h14 h9
  have g2 := parseDeployItem_grow (epo := p.epo) hf hs a2 false
  rw [← ts] at g2
  exact (onSession_grow (by exact g2)).bind fun _ => .refl _

end Casper
