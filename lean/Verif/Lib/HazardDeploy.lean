import Verif.Lib.Hazard
import Verif.Lib.DeployInv
/-
Where undefined behaviour can arise while a parsed Deploy is shown.
-/
namespace Casper
open M

section
variable {σ α β : Type} {s : σ} {Q : Fault → Prop}
theorem FaultPost.ite {c : Prop} [Decidable c] {m n : M σ α} (hm : c → FaultPost m s Q) (hn : ¬ c → FaultPost n s Q) :
    FaultPost (if c then m else n) s Q := by
  split
  · exact hm ‹_›
  · exact hn ‹_›
theorem FaultPost.getThen {f : σ → M σ β} (h : FaultPost (f s) s Q) : FaultPost (M.get >>= f) s Q := fun x hx => h x hx
theorem FaultPost.setThen {f : Unit → M σ β} {u : σ} (h : FaultPost (f ()) u Q) : FaultPost (M.set u >>= f) s Q := fun x hx => h x hx
theorem FaultPost.modifyThen {f : Unit → M σ β} {g : σ → σ} (h : FaultPost (f ()) (g s) Q) : FaultPost (M.modify g >>= f) s Q := fun x hx => h x hx
theorem FaultPost.pure {a : α} : FaultPost (Pure.pure a : M σ α) s Q := .none (NF.pure a s)
theorem FaultPost.fail {x : Nat} : FaultPost (M.fail x : M σ α) s Q := .none (NF.fail x s)
theorem FaultPost.abort {x : Fault} (h : Q x) : FaultPost (M.abort x : M σ α) s Q := fun f hf => by cases hf; exact h
theorem FaultPost.mono {m : M σ α} {R : Fault → Prop} (h : FaultPost m s R) (h' : ∀ f, R f → Q f) : FaultPost m s Q := fun f hf => h' f (h f hf)
/-- The last step cannot fault. -/
theorem FaultPost.thenPure {m : M σ α} {k : α → M σ β} (hm : FaultPost m s Q) (hk : ∀ a, NF (k a)) : FaultPost (m >>= k) s Q :=
  .seq hm (Post.self) fun a t _ => .none (hk a t)
/-- The first step cannot fault. -/
theorem FaultPost.nfThen {m : M σ α} {k : α → M σ β} (hm : NF m) (hk : ∀ a t, m s = .ok a t → FaultPost (k a) t Q) : FaultPost (m >>= k) s Q :=
  .seq (.none (hm s)) (Post.self) hk
end

/-! ### What parsing a session leaves behind -/

/-- Position of the arguments, type and kind of the item are unchanged. -/
def SameShape (s t : IS) : Prop := t.item.itemOffset = s.item.itemOffset ∧ t.item.typ = s.item.typ ∧ t.item.special = s.item.special ∧ t.epo = s.epo

/-- `m` changes none of them. -/
def KO {α : Type} (m : M IS α) : Prop := Keeps SameShape m

section
variable {α β : Type}
theorem SameShape.refl (s : IS) : SameShape s s := ⟨rfl, rfl, rfl, rfl⟩
theorem SameShape.trans (a b c : IS) (h : SameShape a b) (h' : SameShape b c) : SameShape a c :=
  ⟨h'.1.trans h.1, h'.2.1.trans h.2.1, h'.2.2.1.trans h.2.2.1, h'.2.2.2.trans h.2.2.2⟩
theorem KO.bind {m : M IS α} {f : α → M IS β} (hm : KO m) (hf : ∀ a, KO (f a)) : KO (m >>= f) := Keeps.bind SameShape.trans hm hf
theorem KO.pure (a : α) : KO (Pure.pure a : M IS α) := Keeps.pure .refl a
theorem KO.fail (x : Nat) : KO (M.fail x : M IS α) := Keeps.fail .refl x
theorem KO.get : KO (M.get : M IS IS) := Keeps.get .refl
theorem KO.require (c : Prop) [Decidable c] (x : Nat) : KO (M.require c x : M IS Unit) := Keeps.require .refl c x
theorem KO.attempt {m : M IS α} (hm : KO m) : KO (M.attempt m) := Keeps.attempt hm
theorem KO.ite {c : Prop} [Decidable c] {m n : M IS α} (hm : c → KO m) (hn : ¬ c → KO n) : KO (if c then m else n) := by
  split
  · exact hm ‹_›
  · exact hn ‹_›
theorem KO_lp (m : P α) : KO (lp m) := by
  intro s
  unfold lp
  constructor <;> intro a t ht <;> cases hr : m s.off <;> rw [hr] at ht <;> cases ht <;> exact ⟨rfl, rfl, rfl, rfl⟩
theorem KO_upd {f : Item → Item} (h : ∀ i, (f i).itemOffset = i.itemOffset ∧ (f i).typ = i.typ ∧ (f i).special = i.special) : KO (upd f) :=
  Keeps.modify fun s => ⟨(h s.item).1, (h s.item).2.1, (h s.item).2.2, rfl⟩
end

theorem KO_checkNewValidator (e : Env) (n : Nat) (b : Bool) : KO (checkNewValidator e n b) := by
  unfold checkNewValidator; exact .ite (fun _ => KO_lp _) fun _ => .pure _
theorem KO_checkDelegationItems (e : Env) (n : Nat) (b : Bool) : KO (checkDelegationItems e n b) := by
  unfold checkDelegationItems
  walk KO
  all_goals exact fun i => ⟨rfl, rfl, rfl⟩
theorem KO_delegationLines (e : Env) (n : Nat) (b : Bool) : KO (delegationLines e n b) := by
  unfold delegationLines
  walk KO
  all_goals exact fun i => ⟨rfl, rfl, rfl⟩
theorem KO_finishDelegation (e : Env) (b : Bool) : KO (finishDelegation e b) := by
  unfold finishDelegation
  refine .bind (KO_upd fun i => ?_) fun _ => .ite (fun _ => KO_upd fun i => ⟨rfl, rfl, rfl⟩) fun _ => .pure _
  split <;> exact ⟨rfl, rfl, rfl⟩
theorem KO_finishItem (e : Env) (n start : Nat) : KO (finishItem e n start) := by
  unfold finishItem
  exact .bind (KO_lp _) fun _ => .bind (KO_lp _) fun _ => KO_upd fun i => ⟨rfl, rfl, rfl⟩

theorem KO.post {α : Type} {m : M IS α} (h : KO m) {s : IS} : Post m s (fun _ t => SameShape s t) := fun a t ht => (h s).1 a t ht

/-- The kinds a session other than a transfer can have. -/
def CallKind (k : Nat) : Prop := k = spDelegate ∨ k = spUnDelegate ∨ k = spReDelegate ∨ k = spGeneric

theorem auctionKind_kind {e : Env} {s : Nat} : Post (auctionKind e) s (fun k _ => CallKind k) := by
  unfold auctionKind
  refine readU32_post.seq fun n t _ => Post.getThen (Post.ite (fun _ => .abort) fun _ => slice_post.seq fun xs u _ => ?_)
  exact Post.ite (fun _ => .pure (.inl rfl)) fun _ => Post.ite (fun _ => .pure (.inr (.inl rfl))) fun _ =>
    Post.ite (fun _ => .pure (.inr (.inr (.inl rfl)))) fun _ => .pure (.inr (.inr (.inr rfl)))

theorem entryKind_kind (name : Bytes) : CallKind (entryKind name 255) := by
  unfold entryKind CallKind
  repeat' split
  all_goals simp_all

/-- Module bytes: the arguments are at the cursor, or their number is just before it. -/
theorem parseDelegation_module {e : Env} {n : Nat} {b : Bool} {s : IS} (hs : s.item.typ = 0) (h4 : 4 ≤ s.off) (hlt : s.off < 4294967296) :
    Post (parseDelegation e n b) s (fun _ t => t.item.typ = 0 ∧ CallKind t.item.special ∧ t.epo = s.epo ∧
      (t.item.itemOffset = s.off ∨ t.item.itemOffset = s.off - 4)) := by
  unfold parseDelegation
  refine Post.getThen ?_
  have hm : (s.item.typ == tyModuleBytes) = true := by rw [hs]; rfl
  dsimp only
  refine Post.seq (P := fun _ t => t.item.typ = 0 ∧ CallKind t.item.special ∧ t.epo = s.epo ∧ (t.item.itemOffset = s.off ∨ t.item.itemOffset = s.off - 4)) ?_ ?_
  · rw [if_pos hm]
    unfold parseAuction
    refine Post.getThen (Post.modifyThen ?_)
    refine (KO.post (KO.attempt (KO_lp _))).seq fun r t h => ?_
    dsimp only
    refine Post.seq (P := fun _ t => t.item.typ = 0 ∧ t.epo = s.epo ∧ (t.item.itemOffset = s.off ∨ t.item.itemOffset = s.off - 4)) ?_ fun ha u hu => ?_
    · have h1 : t.item.itemOffset = s.off := h.1
      have h2 : t.item.typ = 0 := h.2.1.trans hs
      have h3 : t.epo = s.epo := h.2.2.2
      refine (KO.post (KO.attempt (KO_lp _))).seq fun r u hu => ?_
      split
      · refine Post.requireThen fun _ => Post.getThen (Post.requireThen fun _ => Post.pure ?_)
        exact ⟨hu.2.1.trans h2, hu.2.2.2.trans h3, .inl (hu.1.trans h1)⟩
      · refine Post.ite (fun _ => .fail) fun _ => Post.ite (fun _ => .fail) fun _ => Post.modifyThen (Post.pure ?_)
        refine ⟨hu.2.1.trans h2, hu.2.2.2.trans h3, .inr ?_⟩
        show u32 (u.item.itemOffset + 4294967292) = _
        rw [hu.1, h1]
        unfold u32
        omega
    · refine (lp_post auctionKind_kind).seq fun k v ⟨hk, hv⟩ => Post.modifyThen ?_
      rw [hv]
      refine (KO.post (KO_lp _)).seq fun _ w hw => Post.pure ?_
      refine ⟨hw.2.1.trans hu.1, ?_, hw.2.2.2.trans hu.2.1, ?_⟩
      · rw [hw.2.2.1]; exact hk
      · rw [hw.1]; exact hu.2.2
  · intro r t ⟨h1, h2, h3, h5⟩
    obtain ⟨redel, ha⟩ := r
    dsimp only
    have hk : KO (do checkNewValidator e n redel; delegationLines e n redel; finishDelegation e ha) :=
      .bind (KO_checkNewValidator e n redel) fun _ => .bind (KO_delegationLines e n redel) fun _ => KO_finishDelegation e ha
    exact hk.post.mono fun _ u hu => ⟨hu.2.1.trans h1, by rw [hu.2.2.1]; exact h2, hu.2.2.2.trans h3, by rw [hu.1]; exact h5⟩

/-- Other items: nothing of that changes. -/
theorem parseDelegation_other {e : Env} {n : Nat} {b : Bool} {s : IS} (hs : s.item.typ ≠ 0) :
    Post (parseDelegation e n b) s (fun _ t => SameShape s t) := by
  unfold parseDelegation
  refine Post.getThen ?_
  have hm : ¬ (s.item.typ == tyModuleBytes) = true := by simpa using hs
  dsimp only
  rw [if_neg hm]
  refine Post.seq (P := fun r t => SameShape s t) (Post.pure (SameShape.refl s)) fun r t ht => ?_
  obtain ⟨redel, ha⟩ := r
  dsimp only
  have hk : KO (do checkNewValidator e n redel; delegationLines e n redel; finishDelegation e ha) :=
    .bind (KO_checkNewValidator e n redel) fun _ => .bind (KO_delegationLines e n redel) fun _ => KO_finishDelegation e ha
  exact hk.post.mono fun _ u hu => ht.trans _ _ _ hu

/-- What a session at `o` (behind its type byte) of type `k` is known to be after it was parsed. -/
structure SesFacts (e : Env) (o k : Nat) (t : IS) : Prop where
  typ : t.item.typ = k
  call : k ≠ 5 → CallKind t.item.special ∧ t.item.itemOffset ≤ e.buf.length
  transfer : k = 5 → t.item.special = spNativeTransfer ∧ ∃ n, At e.buf o (le 4 n) ∧ n < 4294967296 ∧ (t.item.generic = 0 → n = 3 ∨ n = 4)
  hash : k = 1 ∨ k = 3 → o + 32 ≤ e.buf.length
  module : k = 0 → ∃ n, At e.buf o (le 4 n) ∧ n < 4294967296 ∧ u32 (o + 4 + n) ≤ e.buf.length
  entry : k = 1 ∨ k = 2 ∨ k = 3 ∨ k = 4 → ∃ xs, At e.buf t.epo (pfx xs) ∧ xs.length ≤ 100 ∧ t.item.itemOffset = t.epo + (pfx xs).length

theorem checkEntrypoint_shape {e : Env} (hf : Fits e) {s : IS} (hs : s.item.typ ≠ 0) (h255 : s.item.special = 255) :
    Post (checkEntrypoint e) s (fun _ t => t.item.typ = s.item.typ ∧ CallKind t.item.special ∧ t.epo = s.off ∧
      ∃ xs, At e.buf s.off (pfx xs) ∧ xs.length ≤ 100 ∧ t.item.itemOffset = s.off + (pfx xs).length ∧ s.off + (pfx xs).length ≤ e.buf.length) := by
  unfold checkEntrypoint
  refine Post.modifyThen ((lp_post (copyItem_post hf)).seq fun xs t ⟨⟨h1, h2, h3, h4⟩, h5⟩ => Post.modifyThen ?_)
  refine lp_frame.seq fun n u hu => Post.modifyThen ?_
  have hity : u.item.typ = s.item.typ := by rw [hu.2, h5]
  have hl : (pfx xs).length = 4 + xs.length := pfx_length _
  refine (parseDelegation_other (by show u.item.typ ≠ 0; rw [hity]; exact hs)).seq fun _ v hv => Post.pure ?_
  refine ⟨hv.2.1.trans hity, ?_, ?_, xs, h1, h2, ?_, ?_⟩
  · rw [hv.2.2.1]
    show CallKind (entryKind xs u.item.special)
    rw [hu.2, h5]
    dsimp only
    rw [h255]
    exact entryKind_kind xs
  · rw [hv.2.2.2]; show u.epo = _; rw [hu.1, h5]
  · rw [hv.1]; show u.item.itemOffset = _; rw [hu.2]; dsimp only at *; omega
  · dsimp only at *; omega

theorem KO_versionStep (e : Env) (b : Bool) : KO (versionStep e b) := by
  unfold versionStep
  exact .ite (fun _ => .bind (KO_lp _) fun _ => .ite (fun _ => KO_upd fun i => ⟨rfl, rfl, rfl⟩) fun _ => .pure _) fun _ => .pure _

theorem parseNativeTransfer_three {e : Env} {n : Nat} (hn : n < 4294967296) {s : IS} :
    Post (parseNativeTransfer e n) s (fun _ t => t.item.typ = s.item.typ ∧ (t.item.generic = 0 → n = 3 ∨ n = 4)) := by
  unfold parseNativeTransfer
  refine lp_frame.seq fun found t ht => ?_
  dsimp only
  refine Post.ite (fun h => Post.ite (fun h' => Post.modify ⟨by rw [← ht.2], fun _ => ?_⟩) fun _ => Post.modifyThen .fail) fun _ =>
    Post.modify ⟨by rw [← ht.2], fun h => by cases h⟩
  unfold u32 at h
  omega

/-- What is known of a session after it was parsed. -/
theorem parseSession_facts {e : Env} (hs : Small e) {o epo k : Nat} (ho : o ≤ e.buf.length) :
    Post (parseDeployItem e false) ⟨o, epo, { typ := k }⟩ (fun _ t => SesFacts e o k t) := by
  have hf := hs.fits
  have hs' : e.buf.length ≤ 16384 := hs
  unfold parseDeployItem
  refine Post.modifyThen (Post.getThen ?_)
  dsimp only
  have tail : ∀ (ver : Bool) (t : IS), t.item.typ = k → t.item.special = 255 → k ≠ 0 → k ≠ 5 → (k = 1 ∨ k = 3 → o + 32 = t.off) →
      Post (do versionStep e ver; let n ← checkEntrypoint e; finishItem e n o) t (fun _ t => SesFacts e o k t) := by
    intro ver t h1 h2 h3 h4 h5
    have hv : Post (versionStep e ver) t (fun _ u => SameShape t u ∧ t.off ≤ u.off) := by
      refine Post.and (KO_versionStep e ver).post ?_
      unfold versionStep
      refine Post.ite (fun _ => ?_) fun _ => Post.pure (Nat.le_refl _)
      refine (lp_post (Q := fun _ u => t.off ≤ u) ?_).seq fun _ u hu => Post.ite (fun _ => Post.modify hu.1) fun _ => Post.pure hu.1
      unfold parseVersion
      refine readU8_post.seq fun b u ⟨_, _, hu, _⟩ => Post.ite (fun _ => Post.pure (by omega)) fun _ => Post.ite (fun _ => ?_) fun _ => .fail
      exact readU32_post.mono fun _ w ⟨_, _, hw, _⟩ => by omega
    refine hv.seq fun _ u ⟨hu, hle⟩ => ?_
    refine (checkEntrypoint_shape hf (by rw [hu.2.1, h1]; exact h3) (hu.2.2.1.trans h2)).seq fun n v ⟨g1, g2, g3, xs, g4, g5, g6, g7⟩ => ?_
    refine (KO_finishItem e n o).post.mono fun _ w hw => ?_
    have hl : (pfx xs).length = 4 + xs.length := pfx_length _
    refine ⟨hw.2.1.trans (g1.trans (hu.2.1.trans h1)), fun _ => ⟨by rw [hw.2.2.1]; exact g2, by rw [hw.1, g6]; exact g7⟩, fun h => absurd h h4, fun h => ?_,
      fun h => absurd h h3, fun _ => ⟨xs, ?_, g5, ?_⟩⟩
    · have := h5 h; omega
    · rw [hw.2.2.2, g3]; exact g4
    · rw [hw.1, g6, hw.2.2.2, g3]
  refine Post.ite (fun hk => ?_) fun _ => Post.ite (fun hk => ?_) fun _ => Post.ite (fun hk => ?_) fun _ => Post.ite (fun hk => ?_) fun _ => .fail
  · have hk : k = 0 := hk
    subst hk
    unfold parseModuleBytes
    refine Post.getThen ((lp_post parseItem_post).seq fun _ t ⟨⟨n, h1, h2, h3, h4, h5⟩, h6⟩ => ?_)
    dsimp only at h1 h3 h4 h5
    rw [h6]
    refine (lp_post readU32_post).seq fun m u ⟨⟨k1, k2, k3, k4⟩, k5⟩ => ?_
    dsimp only at k1 k3 k4
    rw [if_neg (by decide), k5]
    refine (parseDelegation_module (by rfl) (by show 4 ≤ u.off; omega) (by show u.off < _; omega)).seq fun _ v ⟨g1, g2, g3, g4⟩ => ?_
    refine (KO_finishItem e m o).post.mono fun _ w hw => ?_
    dsimp only at g4
    exact ⟨hw.2.1.trans g1, fun _ => ⟨by rw [hw.2.2.1]; exact g2, by rw [hw.1]; omega⟩, fun h => absurd h (by decide), fun h => absurd h (by decide),
      fun _ => ⟨n, h1, h2, h4⟩, fun h => by omega⟩
  · unfold parseByHash
    refine Post.getThen (Post.modifyThen (f := fun _ => _) (g := fun s : IS => { s with off := u16 (s.off + 32) }) (Post.getThen ?_))
    refine tail _ _ rfl rfl ?_ ?_ ?_
    · rcases hk with hk | hk <;> rw [hk] <;> decide
    · rcases hk with hk | hk <;> rw [hk] <;> decide
    · intro _; show o + 32 = u16 (o + 32); rw [u16_id (by omega)]
  · unfold parseByName
    refine Post.getThen (lp_frame.seq fun _ t ht => Post.getThen ?_)
    refine tail _ _ (by rw [ht.2]) (by rw [ht.2]) ?_ ?_ ?_
    · rcases hk with hk | hk <;> rw [hk] <;> decide
    · rcases hk with hk | hk <;> rw [hk] <;> decide
    · intro h
      exfalso
      have h2 : tyByName = 2 := rfl
      have h4 : tyVerByName = 4 := rfl
      omega
  · have hk : k = 5 := hk
    subst hk
    unfold parseTransfer
    refine Post.getThen ((lp_post readU32_post).seq fun n t ⟨⟨h1, h2, h3, h4⟩, h5⟩ => ?_)
    rw [h5]
    refine (parseNativeTransfer_three h2).seq fun _ u ⟨g1, g2⟩ => Post.modifyThen ?_
    unfold finishItem
    refine lp_frame.seq fun _ v hv => lp_frame.seq fun _ w hw => Post.modify ?_
    have hi : w.item = { u.item with special := spNativeTransfer } := hw.2.trans hv.2
    refine ⟨?_, fun h => absurd rfl h, fun _ => ⟨?_, n, h1, h2, ?_⟩, fun h => by omega, fun h => by omega, fun h => by omega⟩
    · show w.item.typ = 5; rw [hi]; exact g1
    · show w.item.special = _; rw [hi]
    · show w.item.generic = 0 → _; rw [hi]; exact g2

/-! ### Showing -/

theorem showArray_fault {cap : Nat} {xs : Bytes} {s : Nat} : FaultPost (showArray cap xs) s (fun _ => cap ≤ xs.length ∧ 0 ∉ xs) := by
  unfold showArray
  refine .ite (fun _ => .pure) fun h => .abort ?_
  simp only [not_or, not_lt, List.contains_iff_mem] at h
  exact h

theorem slice_fault {e : Env} {o n s : Nat} : FaultPost (slice e o n) s (fun _ => e.buf.length < o + n) := by
  intro f hf
  unfold slice at hf
  split at hf
  · cases hf
  · omega

/-- The arguments whose values are shown (other than amounts). -/
def shownNames : List Bytes := [b!"target", b!"source", b!"id", b!"delegator", b!"validator", b!"new_validator"]

/-- The ways in which showing a session (its content at `o`, its entry point at `epo`) can leave the bounds of memory. -/
inductive SesHazard (e : Env) (epo : Nat) (it : Item) (o : Nat) : Prop
  /-- an argument looked up cannot be shown -/
  | value (name : Bytes) (n c len t x : Nat) (hm : name ∈ shownNames) (h0 : it.generic = 0)
      (hc : (it.typ = 5 ∧ c = o + 4 ∧ At e.buf o (le 4 n) ∧ n < 4294967296) ∨ (it.typ ≠ 5 ∧ it.typ ≠ 0 ∧ c = it.itemOffset + 4 ∧ n = it.runtime) ∨
        (it.typ = 0 ∧ c = it.itemOffset ∧ n = it.runtime))
      (hg : getData e name n c = .ok (len, t) x) (hl : Looked e len t x) (hv : ValueBad e t len x)
  /-- the arguments end before they start -/
  | back (n m c stop : Nat) (hc : (it.typ = 5 ∧ c = o) ∨ (it.typ ≠ 5 ∧ c = it.itemOffset)) (hm : At e.buf c (le 4 m)) (hlt : m < 4294967296) (hn : n ≤ m) (hg : it.generic ≠ 0) (hp : parseArgs e n (c + 4) = .ok () stop) (hs : stop < c)
  /-- module bytes longer than a hash -/
  | module (n : Nat) (ht : it.typ = 0) (ha : At e.buf o (le 4 n)) (hn : 32 < n) (hlt : n < 4294967296)
  /-- a name that fills its array -/
  | name (xs : Bytes) (ht : it.typ = 2 ∨ it.typ = 4) (ha : At e.buf o (pfx xs)) (hn : xs.length = 300) (h0 : 0 ∉ xs)
  /-- an entry point that fills its array -/
  | entry (xs : Bytes) (hx : e.expert = true) (ht : it.typ ≠ 0 ∧ it.typ ≠ 5) (ha : At e.buf epo (pfx xs)) (hn : xs.length = 100) (h0 : 0 ∉ xs)

theorem renderEntryPoint_fault {e : Env} (hf : Fits e) {epo s : Nat} : FaultPost (renderEntryPoint e epo) s (fun _ =>
    ∃ xs, At e.buf epo (pfx xs) ∧ xs.length = 100 ∧ 0 ∉ xs) := by
  unfold renderEntryPoint
  refine .getThen (.setThen (.seq (.none (NF_copyItem e 100 _)) (copyItem_post hf) fun xs t ⟨h1, h2, h3, h4⟩ => .setThen (.thenPure ?_ fun _ => NF.pure _)))
  exact showArray_fault.mono fun _ h => ⟨xs, h1, by omega, h.2⟩

theorem NF_parseVersion' (e : Env) : NF (parseVersion e) := NF_parseVersion e

theorem fixedByHash_fault {e : Env} (hf : Fits e) {epo o idx : Nat} {b v : Bool} {l : Bytes} (ho : o + 32 ≤ e.buf.length) :
    FaultPost (fixedByHash e epo b v l idx) o (fun _ => e.expert = true ∧ ∃ xs, At e.buf epo (pfx xs) ∧ xs.length = 100 ∧ 0 ∉ xs) := by
  unfold fixedByHash
  refine .ite (fun _ => .pure) fun _ => .ite (fun _ => .getThen (.thenPure (.none ?_) fun _ => NF.pure _)) fun _ => .nfThen (NF_skip 32) fun _ t _ => ?_
  · intro f hp
    have := (printBytes_faults (s := o) ho hf).1 ⟨f, hp⟩
    revert this; decide
  · have fin : ∀ c i : Nat, FaultPost (do parseItem e; if idx = c ∧ e.expert = true then renderEntryPoint e epo else pure (b!"?", b!"?")) i
        (fun _ => e.expert = true ∧ ∃ xs, At e.buf epo (pfx xs) ∧ xs.length = 100 ∧ 0 ∉ xs) := fun c i =>
      .nfThen (NF_parseItem e) fun _ u _ => .ite (fun h => (renderEntryPoint_fault hf).mono fun _ g => ⟨h.2, g⟩) fun _ => .pure
    refine .ite (fun _ => .nfThen (NF_parseVersion e) fun _ u _ => .ite (fun _ => .pure) fun _ => fin _ _) fun _ => fin _ _

theorem fixedByName_fault {e : Env} (hf : Fits e) {epo o idx : Nat} {b v : Bool} {l : Bytes} :
    FaultPost (fixedByName e epo b v l idx) o (fun _ => (e.expert = true ∧ ∃ xs, At e.buf epo (pfx xs) ∧ xs.length = 100 ∧ 0 ∉ xs) ∨
      ∃ xs, At e.buf o (pfx xs) ∧ xs.length = 300 ∧ 0 ∉ xs) := by
  unfold fixedByName
  refine .ite (fun _ => .pure) fun _ => .ite (fun _ => ?_) fun _ => .nfThen (NF_parseItem e) fun _ t _ => ?_
  · refine .seq (.none (NF_copyItem e 300 _)) (copyItem_post hf) fun xs t ⟨h1, h2, h3, h4⟩ => .thenPure ?_ fun _ => NF.pure _
    exact showArray_fault.mono fun _ h => .inr ⟨xs, h1, by omega, h.2⟩
  · have fin : ∀ c i : Nat, FaultPost (do parseItem e; if idx = c ∧ e.expert = true then renderEntryPoint e epo else pure (b!"?", b!"?")) i
        (fun _ => (e.expert = true ∧ ∃ xs, At e.buf epo (pfx xs) ∧ xs.length = 100 ∧ 0 ∉ xs) ∨ ∃ xs, At e.buf o (pfx xs) ∧ xs.length = 300 ∧ 0 ∉ xs) := fun c i =>
      .nfThen (NF_parseItem e) fun _ u _ => .ite (fun h => (renderEntryPoint_fault hf).mono fun _ g => .inl ⟨h.2, g⟩) fun _ => .pure
    refine .ite (fun _ => .nfThen (NF_parseVersion e) fun _ u _ => .ite (fun _ => .pure) fun _ => fin _ _) fun _ => fin _ _

theorem contractHash_fault {e : Env} {o n : Nat} (hs : Small e) (h1 : At e.buf o (le 4 n)) (h2 : n < 4294967296) (h3 : u32 (o + 4 + n) ≤ e.buf.length) :
    FaultPost (contractHash e) o (fun _ => 32 < n) := by
  have hle := h1.le
  rw [le_length] at hle
  unfold Small at hs
  unfold contractHash
  refine .nfThen (NF_readLE e 4) fun m t ht => .getThen ?_
  rw [readU32, readLE_at h1 (by omega)] at ht
  cases ht
  refine .ite (fun h => .abort h) fun h => .thenPure ?_ fun _ => NF.pure _
  rw [u32_id (by omega)] at h3
  exact slice_fault.mono fun _ h' => absurd h' (by omega)

theorem fixedDelegation_fault {e : Env} (hs : Small e) {o k idx : Nat} {t : IS} (h : SesFacts e o k t) :
    FaultPost (fixedDelegation e t.epo t.item idx) o (fun _ => SesHazard e t.epo t.item o) := by
  have hf := hs.fits
  have hty := h.typ
  unfold fixedDelegation
  dsimp only
  refine .ite (fun h0 => ?_) fun h0 => .ite (fun h1 => ?_) fun h1 => .ite (fun h1 => ?_) fun _ => .ite (fun h1 => ?_) fun _ => .ite (fun h1 => ?_) fun _ => .fail
  · have h0' : t.item.typ = 0 := h0
    obtain ⟨n, g1, g2, g3⟩ := h.module (by omega)
    refine .ite (fun _ => .ite (fun _ => .pure) fun _ => .ite (fun _ => ?_) fun _ => .nfThen (NF_parseItem e) fun _ _ _ => .pure) fun _ => .nfThen (NF_parseItem e) fun _ _ _ => .pure
    exact (contractHash_fault hs g1 g2 g3).mono fun _ hn => .module n h0' g1 hn g2
  · have h1' : t.item.typ = 1 := h1
    exact (fixedByHash_fault hf (h.hash (by omega))).mono fun _ ⟨hx, xs, a, b, c⟩ => .entry xs hx ⟨by omega, by omega⟩ a b c
  · have h1' : t.item.typ = 3 := h1
    exact (fixedByHash_fault hf (h.hash (by omega))).mono fun _ ⟨hx, xs, a, b, c⟩ => .entry xs hx ⟨by omega, by omega⟩ a b c
  · have h1' : t.item.typ = 2 := h1
    refine (fixedByName_fault hf).mono fun _ hh => ?_
    rcases hh with ⟨hx, xs, a, b, c⟩ | ⟨xs, a, b, c⟩
    · exact .entry xs hx ⟨by omega, by omega⟩ a b c
    · exact .name xs (.inl h1') a b c
  · have h1' : t.item.typ = 4 := h1
    refine (fixedByName_fault hf).mono fun _ hh => ?_
    rcases hh with ⟨hx, xs, a, b, c⟩ | ⟨xs, a, b, c⟩
    · exact .entry xs hx ⟨by omega, by omega⟩ a b c
    · exact .name xs (.inr h1') a b c

theorem itemDelegation_fault {e : Env} (hs : Small e) {o k idx : Nat} {t : IS} (h : SesFacts e (o + 1) k t) (hk : k ≠ 5) (ho : o + 1 ≤ e.buf.length) :
    FaultPost (itemDelegation e t.epo t.item idx) o (fun _ => SesHazard e t.epo t.item (o + 1)) := by
  have hf := hs.fits
  have hs' : e.buf.length ≤ 16384 := hs
  have hty := h.typ
  have hio := (h.call hk).2
  unfold itemDelegation
  refine .nfThen (NF_skip 1) fun _ u hu => ?_
  rw [skip_run (by omega)] at hu
  cases hu
  refine .ite (fun _ => fixedDelegation_fault hs h) fun _ => .nfThen (NF_seek _) fun _ u hu => ?_
  have hu' : u = t.item.itemOffset := by
    unfold seek at hu; cases hu; exact u16_id (by omega)
  subst hu'
  dsimp only
  refine .ite (fun _ => .fail) fun _ => .ite (fun hg => ?_) fun hg => ?_
  · refine .seq (.none (NF_readLE e 4 _)) readU32_post fun n u ⟨r1, r2, r3, r4⟩ => ?_
    subst r3
    refine .ite (fun _ => .none (showMotes_fault hf)) fun _ => .ite (fun _ => ?_) fun _ => .fail
    refine .seq (.none (NF_parseArgs e n _)) (Post.self.and fun a v hv => (Bd_parseArgs e n _ (by omega)).1 a v hv) fun _ v ⟨p1, p2⟩ => .getThen (.thenPure ?_ fun _ => NF.pure _)
    refine slice_fault.mono fun _ hh => .back n n t.item.itemOffset v (.inr ⟨by omega, rfl⟩) r1 r2 (Nat.le_refl n) hg p1 ?_
    rw [u16_id (by omega)] at hh
    by_contra hc
    have : u32 (v + 4294967296 - t.item.itemOffset) = v - t.item.itemOffset := by unfold u32; omega
    omega
  · have lines : ∀ c : Nat, ((t.item.typ ≠ 5 ∧ t.item.typ ≠ 0 ∧ c = t.item.itemOffset + 4) ∨ (t.item.typ = 0 ∧ c = t.item.itemOffset)) → ∀ key name : Bytes, name ∈ shownNames →
        FaultPost (showArg e key name t.item.runtime) c (fun _ => SesHazard e t.epo t.item (o + 1)) := fun c hc key name hm =>
      (showArg_fault hf).mono fun _ ⟨len, ty, x, g1, g2, g3⟩ => .value name _ c len ty x hm (by omega) (.inr (hc.imp (fun h => ⟨h.1, h.2.1, h.2.2, rfl⟩) fun h => ⟨h.1, h.2, rfl⟩)) g1 g2 g3
    have rest : ∀ c : Nat, ((t.item.typ ≠ 5 ∧ t.item.typ ≠ 0 ∧ c = t.item.itemOffset + 4) ∨ (t.item.typ = 0 ∧ c = t.item.itemOffset)) →
        FaultPost (do
          if idx - t.item.fixed = 0 then showArg e b!"Delegator" b!"delegator" t.item.runtime
          else if t.item.special = spReDelegate then
            if idx - t.item.fixed = 1 then showArg e b!"Old" b!"validator" t.item.runtime
            else if idx - t.item.fixed = 2 then showArg e b!"New" b!"new_validator" t.item.runtime
            else if idx - t.item.fixed = 3 then showMotes e b!"Amount" b!"amount" t.item.runtime
            else fail eNoData
          else if idx - t.item.fixed = 1 then showArg e b!"Validator" b!"validator" t.item.runtime
          else if idx - t.item.fixed = 2 then showMotes e b!"Amount" b!"amount" t.item.runtime
          else fail eNoData) c (fun _ => SesHazard e t.epo t.item (o + 1)) := by
      intro c hc
      refine .ite (fun _ => lines c hc _ _ (by decide)) fun _ => .ite (fun _ => ?_) fun _ => .ite (fun _ => lines c hc _ _ (by decide)) fun _ => .ite (fun _ => .none (showMotes_fault hf)) fun _ => .fail
      exact .ite (fun _ => lines c hc _ _ (by decide)) fun _ => .ite (fun _ => lines c hc _ _ (by decide)) fun _ => .ite (fun _ => .none (showMotes_fault hf)) fun _ => .fail
    by_cases h0 : t.item.typ = 0
    · rw [if_neg (fun hh => hh h0)]
      exact .nfThen (NF.pure ()) fun _ u hu => by cases hu; exact rest _ (.inr ⟨h0, rfl⟩)
    · rw [if_pos h0]
      refine .seq (.none (NF.bind (NF_readLE e 4) (fun _ => NF.pure ()) _)) (R := fun _ u => u = t.item.itemOffset + 4) ?_ fun _ u hu => ?_
      · exact readU32_post.seq fun _ u ⟨_, _, r3, _⟩ => Post.pure r3
      · subst hu
        exact rest _ (.inl ⟨by omega, h0, rfl⟩)

theorem itemNativeTransfer_fault {e : Env} (hs : Small e) {o idx : Nat} {t : IS} (h : SesFacts e (o + 1) 5 t) (ho : o + 1 ≤ e.buf.length) :
    FaultPost (itemNativeTransfer e t.item idx) o (fun _ => SesHazard e t.epo t.item (o + 1)) := by
  have hf := hs.fits
  have hs' : e.buf.length ≤ 16384 := hs
  have hty : t.item.typ = 5 := h.typ
  obtain ⟨-, m, m1, m2, m3⟩ := h.transfer rfl
  have lines : t.item.generic = 0 → ∀ key name : Bytes, name ∈ shownNames →
      FaultPost (showArg e key name m) (o + 1 + 4) (fun _ => SesHazard e t.epo t.item (o + 1)) := fun h0 key name hm =>
    (showArg_fault hf).mono fun _ ⟨len, ty, x, g1, g2, g3⟩ => .value name _ _ len ty x hm h0 (.inl ⟨hty, rfl, m1, m2⟩) g1 g2 g3
  unfold itemNativeTransfer
  refine .nfThen (NF_skip 1) fun _ u hu => .getThen ?_
  rw [skip_run (by omega)] at hu
  cases hu
  refine .nfThen (NF_readLE e 4) fun n u hu => ?_
  have hle := m1.le
  rw [le_length] at hle
  rw [readU32, readLE_at m1 (by omega)] at hu
  cases hu
  refine .ite (fun _ => .fail) fun _ => .ite (fun _ => .fail) fun _ => ?_
  dsimp only
  refine .ite (fun hg => .ite (fun _ => ?_) fun _ => .fail) fun hg => .ite (fun hn => absurd (m3 (by omega)) hn) fun _ => .ite (fun _ => ?_) fun _ =>
    .ite (fun _ => lines (by omega) _ _ (by decide)) fun _ => ?_
  · refine .seq (.none (NF_parseArgs e _ _)) (Post.self.and fun a v hv => (Bd_parseArgs e _ _ (by omega)).1 a v hv) fun _ v ⟨p1, p2⟩ => .getThen (.thenPure ?_ fun _ => .bind (.set _) fun _ => .pure _)
    unfold showArgsHash
    refine .setThen (.thenPure ?_ fun _ => NF.pure _)
    refine slice_fault.mono fun _ hh => .back _ m (o + 1) v (.inl ⟨hty, rfl⟩) m1 m2 (by omega) (by omega) p1 ?_
    by_contra hc
    have : u32 (v + 4294967296 - (o + 1)) = v - (o + 1) := by unfold u32; omega
    omega
  · exact .ite (fun _ => lines (by omega) _ _ (by decide)) fun _ => .ite (fun _ => .none (showMotes_fault hf)) fun _ => .fail
  · exact .ite (fun _ => lines (by omega) _ _ (by decide)) fun _ => .ite (fun _ => .none (showMotes_fault hf)) fun _ => .ite (fun _ => lines (by omega) _ _ (by decide)) fun _ => .fail

end Casper
