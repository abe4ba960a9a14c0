import Verif.Lib.CanonArgs
/-
What looking up names in serialized arguments yields when it succeeds; parsing of sessions, and the lines for named arguments, by inversion.
-/
namespace Casper
open M CLType

/-- The argument found under `name` (names end at their first zero byte). -/
def Found (as : List Arg) (name : Bytes) (a : Arg) : Prop := as.find? (fun b => cstr b.name == name) = some a

/-- There is one. -/
def Has (as : List Arg) (name : Bytes) : Prop := ∃ a ∈ as, cstr a.name = name

theorem Found.has {as : List Arg} {name : Bytes} {a : Arg} (h : Found as name a) : Has as name :=
  ⟨a, List.mem_of_find?_eq_some h, by simpa using List.find?_some h⟩

theorem Found.cons {as : List Arg} {name : Bytes} {a b : Arg} (h : Found as name b) (hn : ¬ cstr a.name = name) : Found (a :: as) name b := by
  unfold Found at h ⊢
  rw [List.find?_cons, show (cstr a.name == name) = false by simpa using hn]; exact h

section
variable {e : Env} (hf : Fits e)
include hf

/-- One serialized argument. -/
theorem arg_parts {off : Nat} {a : Arg} {as : List Arg} (h : At e.buf off (encodeArgs (a :: as))) :
    At e.buf off (pfx a.name) ∧ At e.buf (off + 4 + a.name.length) (pfx a.value ++ a.ty.encode) ∧
    At e.buf (off + 4 + a.name.length + 4 + a.value.length) a.ty.encode ∧
    At e.buf (off + 4 + a.name.length + 4 + a.value.length + a.ty.encode.length) (encodeArgs as) := by
  have h1 := At.append.1 (show At e.buf off (a.encode ++ encodeArgs as) from h)
  have h2 := arg_at h1.1
  refine ⟨(At.append.1 h2.1).1, h2.2.1, h2.2.2.2, h1.2.cast ?_⟩
  rw [Arg.encode_length]; omega

theorem searchFrom_named {name : Bytes} {start : Nat} {as : List Arg} (hg : GoodTypes as) : ∀ {off : Nat}, At e.buf off (encodeArgs as) →
    Home id start (searchFrom e name start as.length off) ∧
    Post (searchFrom e name start as.length) off (fun r _ => ∃ a, Found as name a ∧ r = (a.ty.tag, a.ty.inner 255)) := by
  induction as with
  | nil => intro off _; exact ⟨Home.of_err (.inr rfl), fun a t ht => by cases ht⟩
  | cons a as ih =>
    intro off h
    obtain ⟨p1, p2, p3, p4⟩ := arg_parts hf h
    have hty := hg a (by simp)
    rw [List.length_cons, searchFrom]
    cases hc : copyItem e 300 off with
    | fault f => constructor
                 · simp only [bind_run, hc, Res.bind_fault]; exact Home.of_fault
                 · intro r t ht; simp only [bind_run, hc, Res.bind_fault] at ht; cases ht
    | err x s => constructor
                 · simp only [bind_run, hc, Res.bind_err]; exact Home.of_err (.inl (.inl (copyItem_err hc)))
                 · intro r t ht; simp only [bind_run, hc, Res.bind_err] at ht; cases ht
    | ok key s =>
      obtain ⟨q1, -, q2, -⟩ := copyItem_post hf _ _ hc
      obtain rfl := p1.pfx_inj hf q1
      subst q2
      by_cases hn : cstr a.name = name
      · have : (do
            let key ← copyItem e 300
            if cstr key = name then do
              parseItem e
              let t ← getType e 255
              set start
              pure t
            else do
              parseItem e
              let _ ← getType e 0
              searchFrom e name start as.length) off = .ok (a.ty.tag, a.ty.inner 255) start := by
          simp only [bind_run, hc, Res.bind_ok, if_pos hn, parseItem_at hf p2, getType_ok hty.1 hty.2 p3]
          rfl
        constructor
        · rw [this]; exact Home.of_ok rfl
        · intro r t ht
          rw [this] at ht
          cases ht
          exact ⟨a, by unfold Found; rw [List.find?_cons]; simp [hn], rfl⟩
      · have := ih (fun b hb => hg b (by simp [hb])) p4
        constructor
        · simp only [bind_run, hc, Res.bind_ok, if_neg hn, parseItem_at hf p2, getType_ok hty.1 hty.2 p3]
          exact this.1
        · intro r t ht
          simp only [bind_run, hc, Res.bind_ok, if_neg hn, parseItem_at hf p2, getType_ok hty.1 hty.2 p3] at ht
          obtain ⟨b, k1, k2⟩ := this.2 r t ht
          exact ⟨b, k1.cons hn, k2⟩

theorem Ret_search {as : List Arg} (hg : GoodTypes as) {o : Nat} (h : At e.buf o (encodeArgs as)) (name : Bytes) :
    Ret id o (searchArgs e name as.length) := by
  intro s hs
  cases hs
  exact (searchFrom_named hf hg h).1

theorem checkArg_named {as : List Arg} (hg : GoodTypes as) {o : Nat} (h : At e.buf o (encodeArgs as)) {name : Bytes} {c : Nat → Nat → Bool} :
    Post (checkArg e as.length name c) o (fun _ t => t = o ∧ ∃ a, Found as name a ∧ c a.ty.tag (a.ty.inner 255) = true) := by
  refine checkArg_post.mono fun _ t ⟨h1, r, h2, h3⟩ => ⟨h1, ?_⟩
  obtain ⟨a, k1, rfl⟩ := (searchFrom_named hf hg h).2 r _ h2
  exact ⟨a, k1, h3⟩

/-- Looking up a value, with a number of arguments that is not too large, or for a name that is there. -/
theorem getData_named {name : Bytes} {k : Nat} {as : List Arg} (hg : GoodTypes as) : ∀ {off : Nat}, At e.buf off (encodeArgs as) →
    (k ≤ as.length ∨ Has as name) →
    Post (getData e name k) off (fun r t => ∃ a, Found as name a ∧ r = (a.value.length, a.ty.tag) ∧ At e.buf t (a.value ++ a.ty.encode)) := by
  induction k generalizing as with
  | zero => intro off _ _; exact .fail
  | succ k ih =>
    intro off h hk
    cases as with
    | nil => rcases hk with hk | ⟨a, ha, -⟩
             · simp at hk
             · cases ha
    | cons a as =>
      obtain ⟨p1, p2, p3, p4⟩ := arg_parts hf h
      have hty := hg a (by simp)
      unfold getData
      refine (copyItem_post hf).seq fun key s ⟨q1, _, q2, _⟩ => ?_
      obtain rfl := p1.pfx_inj hf q1
      subst q2
      refine Post.ite (fun hn => ?_) fun hn => ?_
      · have hle := p2.le
        have hv := p2
        unfold Casper.pfx at hv
        rw [List.append_assoc] at hv
        unfold Fits at hf
        simp only [List.length_append, pfx_length] at hle
        refine .runThen (readU32_at hv (by omega)) (Post.getThen ?_)
        rw [if_neg (by omega)]
        refine .runThen (skip_run (by omega)) (.runThen (getType_ok hty.1 hty.2 p3) (Post.setThen (Post.pure ⟨a, ?_, rfl, ?_⟩)))
        · unfold Found; rw [List.find?_cons]; simp [hn]
        · exact At.append.2 ⟨(At.pfx p2).1, p3⟩
      · refine .runThen (parseItem_at hf p2) (.runThen (getType_ok hty.1 hty.2 p3) ?_)
        refine (ih (fun b hb => hg b (by simp [hb])) p4 ?_).mono fun r t ⟨b, k1, k2⟩ => ⟨b, ?_, k2⟩
        · rcases hk with hk | ⟨b, hb, hb'⟩
          · exact .inl (by simpa using hk)
          · rcases List.mem_cons.1 hb with rfl | hb
            · exact absurd hb' hn
            · exact .inr ⟨b, hb, hb'⟩
        · exact k1.cons hn

/-- The line `v` for the argument found under `name` shows its value, if it is one that can be shown. -/
theorem showArg_named {key name : Bytes} {k : Nat} {as : List Arg} (hg : GoodTypes as) {off : Nat} (h : At e.buf off (encodeArgs as))
    (hk : k ≤ as.length ∨ Has as name) :
    Post (showArg e key name k) off (fun kv _ => kv.1 = key ∧ ∃ a, Found as name a ∧ ∀ text, Shown e.blake a.ty a.value text → kv.2 = text) := by
  unfold showArg
  refine (getData_named hf hg h hk).seq fun r t ⟨a, h1, h2, h3⟩ => ?_
  subst h2
  refine Post.seq (P := fun v _ => ∀ text, Shown e.blake a.ty a.value text → v = text) (fun v u hv text hs => ?_) fun v u hv => Post.pure ⟨rfl, a, h1, hv⟩
  obtain ⟨c, hc⟩ := displayArg_at hf hs h3
  rw [hc] at hv; cases hv; rfl

theorem showMotes_named {key name : Bytes} {k : Nat} {as : List Arg} (hg : GoodTypes as) {off : Nat} (h : At e.buf off (encodeArgs as))
    (hk : k ≤ as.length ∨ Has as name) :
    Post (showMotes e key name k) off (fun kv _ => kv.1 = key ∧ ∃ a, Found as name a ∧ ∀ text, ShownMotes a.ty a.value text → kv.2 = text) := by
  unfold showMotes
  refine (getData_named hf hg h hk).seq fun r t ⟨a, h1, h2, h3⟩ => ?_
  subst h2
  refine Post.seq (P := fun v _ => ∀ text, ShownMotes a.ty a.value text → v = text) (fun v u hv text hs => ?_) fun v u hv => Post.pure ⟨rfl, a, h1, hv⟩
  obtain ⟨c, hc⟩ := displayMotes_at hf hs h3
  rw [hc] at hv; cases hv; rfl

end

/-! ### Sessions -/

/-- What the parsing of delegation arguments does not change. -/
def Frame (i j : Item) : Prop := j.typ = i.typ ∧ j.special = i.special ∧ j.itemOffset = i.itemOffset

theorem Frame.refl (i : Item) : Frame i i := ⟨rfl, rfl, rfl⟩
theorem Frame.trans {i j k : Item} (h : Frame i j) (h' : Frame j k) : Frame i k :=
  ⟨h'.1.trans h.1, h'.2.1.trans h.2.1, h'.2.2.trans h.2.2⟩

/-- Whatever the result. -/
def KF {α : Type} (m : M IS α) : Prop := ∀ s, (∀ a t, m s = .ok a t → Frame s.item t.item) ∧ ∀ x t, m s = .err x t → Frame s.item t.item

theorem KF.bind {α β : Type} {m : M IS α} {f : α → M IS β} (h : KF m) (h' : ∀ a, KF (f a)) : KF (m >>= f) := by
  intro s
  rw [bind_run]
  cases hr : m s with
  | ok a t => exact ⟨fun b u hu => ((h s).1 a t hr).trans ((h' a t).1 b u hu), fun b u hu => ((h s).1 a t hr).trans ((h' a t).2 b u hu)⟩
  | err x t => exact ⟨fun b u hu => (by cases hu), fun b u hu => by cases hu; exact (h s).2 x t hr⟩
  | fault f => exact ⟨fun b u hu => (by cases hu), fun b u hu => by cases hu⟩
theorem KF.pure {α : Type} {a : α} : KF (Pure.pure a : M IS α) := fun s => ⟨fun b u hu => (by cases hu; exact .refl _), fun b u hu => by cases hu⟩
theorem KF.fail {α : Type} {x : Nat} : KF (M.fail x : M IS α) := fun s => ⟨fun b u hu => (by cases hu), fun b u hu => by cases hu; exact .refl _⟩
theorem KF.get : KF (M.get : M IS IS) := fun s => ⟨fun b u hu => (by cases hu; exact .refl _), fun b u hu => by cases hu⟩
theorem KF.ite {α : Type} {c : Prop} [Decidable c] {m n : M IS α} (hm : KF m) (hn : KF n) : KF (if c then m else n) := by split <;> assumption
theorem KF.lp {α : Type} {m : P α} : KF (lp m) := by
  intro s
  unfold Casper.lp
  cases hr : m s.off with
  | ok a t => exact ⟨fun b u hu => (by cases hu; exact .refl _), fun b u hu => by cases hu⟩
  | err x t => exact ⟨fun b u hu => (by cases hu), fun b u hu => by cases hu; exact .refl _⟩
  | fault f => exact ⟨fun b u hu => (by cases hu), fun b u hu => by cases hu⟩
theorem KF.upd {f : Item → Item} (h : ∀ i, Frame i (f i)) : KF (upd f) :=
  fun s => ⟨fun b u hu => (by cases hu; exact h _), fun b u hu => by cases hu⟩

theorem KF_checkDelegationItems (e : Env) (n : Nat) (r : Bool) : KF (checkDelegationItems e n r) := by
  unfold checkDelegationItems
  refine KF.lp.bind fun c => ?_
  split
  · exact .pure
  refine (KF.upd (by intro i; exact ⟨rfl, rfl, rfl⟩)).bind fun _ => KF.lp.bind fun c => ?_
  split
  · exact .pure
  refine KF.lp.bind fun c => ?_
  split
  · exact .pure
  exact KF.lp.bind fun _ => KF.lp.bind fun _ => KF.lp.bind fun _ => KF.get.bind fun _ =>
    .ite (.upd (by intro i; exact ⟨rfl, rfl, rfl⟩)) (.ite (KF.lp.bind fun _ => .upd (by intro i; exact ⟨rfl, rfl, rfl⟩)) (.upd (by intro i; exact ⟨rfl, rfl, rfl⟩)))

/-- The names of the lines of an itemised delegation. -/
def DelNames (as : List Arg) (r : Bool) : Prop :=
  Has as b!"delegator" ∧ Has as b!"validator" ∧ Has as b!"amount" ∧ (r = true → Has as b!"new_validator")

/-- If the arguments of a delegation are itemised then they are there. -/
def DelItem (as : List Arg) (r : Bool) (i j : Item) : Prop :=
  Frame i j ∧ (j.generic = 0 → i.generic = 0 ∧ (j.runtime = i.runtime ∨ DelNames as r))

section
variable {e : Env} (hf : Fits e) {as : List Arg} (hg : GoodTypes as) {o : Nat} (h : At e.buf o (encodeArgs as))
include hf hg h

theorem checkDelegationItems_named {r : Bool} {s : IS} (hs : s.off = o) :
    Post (checkDelegationItems e as.length r) s (fun _ t => DelItem as r s.item t.item) := by
  have count : ∀ {u : IS} {name c}, u.off = o → Post (lp (countArg e as.length name c)) u (fun _ t => t.off = o ∧ t.item = u.item) := fun hu a t ht =>
    ⟨((Ret.lp (Ret_countArg (Ret_search hf hg h) _ _)) _ hu).1 a t ht, (lp_frame a t ht).2⟩
  have check : ∀ {u : IS} {name c}, u.off = o → Post (lp (checkArg e as.length name c)) u (fun _ t => t.off = o ∧ t.item = u.item ∧ Has as name) := by
    intro u name c hu
    refine ((lp_post (Q := fun _ t => t = o ∧ ∃ a, Found as name a ∧ c a.ty.tag (a.ty.inner 255) = true) (by rw [hu]; exact checkArg_named hf hg h)).and lp_frame).mono fun _ t ⟨⟨⟨h1, a, h2, _⟩, _⟩, h4⟩ => ⟨h1, h4.2, h2.has⟩
  have none : DelItem as r s.item s.item := ⟨.refl _, fun hg => ⟨hg, .inl rfl⟩⟩
  unfold checkDelegationItems
  refine (count hs).seq fun c t ⟨h1, h2⟩ => ?_
  split
  · exact Post.pure (by rw [h2]; exact none)
  refine Post.modifyThen ((count (by exact h1)).seq fun c u ⟨h3, h4⟩ => ?_)
  dsimp only at h4
  have hd : DelItem as r s.item u.item := by
    rw [h4, h2]; exact ⟨⟨rfl, rfl, rfl⟩, fun hg => ⟨hg, .inl rfl⟩⟩
  split
  · exact Post.pure hd
  refine (count h3).seq fun c v ⟨h5, h6⟩ => ?_
  rw [← h6] at hd
  split
  · exact Post.pure hd
  refine (check h5).seq fun _ w hw => ?_
  obtain ⟨h7, h8, n1⟩ := hw
  refine (check h7).seq fun _ x hx => ?_
  obtain ⟨h9, h10, n2⟩ := hx
  refine (check h9).seq fun _ y hy => Post.getThen ?_
  obtain ⟨h11, h12, n3⟩ := hy
  have hy : y.item = v.item := h12.trans (h10.trans h8)
  rw [← hy] at hd
  have key : ∀ fx, Post (upd fun i => { i with runtime := i.runtime + 2, fixed := fx, generic := 1 }) y (fun _ t => DelItem as r s.item t.item) :=
    fun fx => Post.modify ⟨⟨hd.1.1, hd.1.2.1, hd.1.2.2⟩, fun hc => by cases hc⟩
  refine Post.ite (fun _ => key _) fun _ => Post.ite (fun hr => ?_) fun hr => Post.modify ⟨⟨hd.1.1, hd.1.2.1, hd.1.2.2⟩, fun hc => ⟨(hd.2 hc).1, .inr ⟨n1, n2, n3, fun h => absurd h hr⟩⟩⟩
  · refine (check h11).seq fun _ z ⟨h13, h14, n4⟩ => Post.modify ⟨?_, fun hc => ⟨?_, .inr ⟨n1, n2, n3, fun _ => n4⟩⟩⟩
    · rw [h14]; exact hd.1
    · refine (hd.2 ?_).1; rw [← h14]; exact hc

theorem delegationLines_named {r : Bool} {s : IS} (hs : s.off = o) :
    Post (delegationLines e as.length r) s (fun _ t => DelItem as r s.item t.item) := by
  unfold delegationLines
  refine Post.seq (P := fun x t => match x with | .ok _ => DelItem as r s.item t.item | .error _ => Frame s.item t.item)
    (Post.attempt (checkDelegationItems_named hf hg h hs) fun x t ht => (KF_checkDelegationItems e _ _ s).2 x t ht) fun x t hx => ?_
  cases x with
  | ok a => exact Post.pure hx
  | error x =>
    dsimp only at hx ⊢
    refine Post.ite (fun _ => ?_) fun _ => .fail
    refine Post.seq (P := fun _ u => Frame s.item u.item) ?_ fun am u hu => Post.modify ⟨hu, fun hc => ?_⟩
    · refine Post.attempt (fun a u hu => hx.trans ((KF.lp t).1 a u hu)) fun y u hu => hx.trans ((KF.lp t).2 y u hu)
    · dsimp only at hc; cases hc

theorem finishDelegation_named {a r : Bool} {i : Item} {s : IS} (hd : DelItem as r i s.item) :
    Post (finishDelegation e a) s (fun _ t => DelItem as r i t.item) := by
  unfold finishDelegation
  have h1 : ∀ j, DelItem as r i j → DelItem as r i (if j.special = spGeneric then { j with generic := 1 } else j) := by
    intro j hj
    split
    · exact ⟨hj.1, fun hc => by cases hc⟩
    · exact hj
  refine Post.modifyThen (Post.ite (fun _ => Post.modify ?_) fun _ => Post.pure (h1 _ hd))
  exact ⟨(h1 _ hd).1, fun hc => (h1 _ hd).2 hc⟩

/-- Calls. -/
theorem parseDelegation_named {r : Bool} {s : IS} (hs : s.off = o) (ht : s.item.typ ≠ 0) :
    Post (parseDelegation e as.length r) s (fun _ t => DelItem as r s.item t.item) := by
  unfold parseDelegation
  refine Post.getThen ?_
  dsimp only
  rw [if_neg (by simpa [tyModuleBytes] using ht)]
  refine Post.pureThen ?_
  dsimp only
  refine Post.seq (P := fun _ t => t.off = o ∧ t.item = s.item) ?_ fun _ t ⟨h1, h2⟩ => ?_
  · unfold checkNewValidator
    refine Post.ite (fun _ => ?_) fun _ => Post.pure ⟨hs, rfl⟩
    exact fun a t ht => ⟨((Ret.lp (Ret_checkArg (Ret_search hf hg h) _ _)) _ hs).1 a t ht, (lp_frame a t ht).2⟩
  · rw [← h2]
    exact (delegationLines_named hf hg h h1).seq fun _ u hu => finishDelegation_named hf hg h hu

/-- Module bytes without an argument "auction". -/
theorem parseModule_named {s : IS} (hs : s.off = o) (ht : s.item.typ = 0) (hn : ∀ a ∈ as, a.name.length ≤ 300) (ha : ¬ Has as b!"auction")
    (ho : 4 ≤ o) :
    Post (parseDelegation e as.length false) s (fun _ t => t.item.typ = 0 ∧ t.item.special ≠ 2 ∧ t.item.generic ≠ 0 ∧ t.item.itemOffset = o - 4) := by
  have hok : ∀ a ∈ as, a.Ok := fun a h => ⟨hn a h, (hg a h).1, (hg a h).2⟩
  have hfit := hf
  unfold Fits at hfit
  unfold parseDelegation
  refine Post.getThen ?_
  dsimp only
  rw [if_pos (by simp [ht])]
  refine Post.seq (P := fun _ t => t.off = o ∧ t.item.typ = 0 ∧ t.item.special ≠ 2 ∧ t.item.generic ≠ 0 ∧ t.item.itemOffset = o - 4) ?_ fun ra t h1 => ?_
  · have hlt := h.le
    unfold parseAuction
    refine Post.getThen (Post.modifyThen ?_)
    refine Post.seq (P := fun _ t => t.off = o ∧ t.item = { s.item with itemOffset := o }) ?_ fun redel t ⟨h1, h2⟩ => ?_
    · have hsr := searchArgs_at (name := b!"new_validator") hf hok h

      intro a t ht
      rw [attempt_run] at ht
      unfold lp at ht
      dsimp only at ht
      rw [hs, hsr] at ht
      cases hq : as.find? (fun a => cstr a.name == b!"new_validator") <;> rw [hq] at ht <;> cases ht <;> exact ⟨rfl, rfl⟩
    have hgd := getData_none (name := b!"auction") (k := as.length) hf hok (fun x hx hc => ha ⟨x, by simpa using hx, hc⟩) (Nat.le_refl _) h
    refine Post.seq (P := fun _ t => t.item.typ = 0 ∧ t.item.generic ≠ 0 ∧ t.item.itemOffset = o - 4) ?_ fun hasAuction u ⟨g1, g2, g3⟩ => ?_
    · refine .runThen (a := .error 1) (t := ⟨_, t.epo, t.item⟩) (by rw [attempt_run, lp_err (by rw [h1]; exact hgd)]) ?_
      dsimp only
      refine Post.ite (fun hc => absurd rfl hc) fun _ => Post.ite (fun _ => .fail) fun _ => Post.modifyThen (Post.pure ?_)
      rw [h2]
      refine ⟨ht, by simp, ?_⟩
      show u32 (o + 4294967292) = o - 4
      unfold u32; omega
    · refine (lp_post (Q := fun k _ => k ≠ 2) ?_).seq fun k v ⟨k1, k2⟩ => Post.modifyThen ?_
      · unfold auctionKind
        refine readU32_post.seq fun len _ _ => Post.getThen (Post.ite (fun _ => .abort) fun _ => slice_post.seq fun xs _ _ => ?_)
        exact Post.ite (fun _ => Post.pure (by decide)) fun _ => Post.ite (fun _ => Post.pure (by decide)) fun _ => Post.ite (fun _ => Post.pure (by decide)) fun _ => Post.pure (by decide)
      · refine (lp_post (Post.set (Q := fun _ t => t = s.off) rfl)).seq fun _ w ⟨w1, w2⟩ => Post.pure ?_
        rw [w2, k2]
        exact ⟨w1.trans hs, g1, k1, g2, g3⟩
  · obtain ⟨redel, hasAuction⟩ := ra
    obtain ⟨h1, h2, h3, h4, h5⟩ := h1
    dsimp only
    refine Post.seq (P := fun _ u => u.off = o ∧ u.item = t.item) ?_ fun _ u ⟨u1, u2⟩ => ?_
    · unfold checkNewValidator
      refine Post.ite (fun _ => ?_) fun _ => Post.pure ⟨h1, rfl⟩
      exact fun a w hw => ⟨((Ret.lp (Ret_checkArg (Ret_search hf hg h) _ _)) _ h1).1 a w hw, (lp_frame a w hw).2⟩
    · rw [← u2] at h2 h3 h4 h5
      refine ((delegationLines_named (r := redel) hf hg h u1).seq fun _ v hv => finishDelegation_named hf hg h hv).mono fun _ w hw => ?_
      exact ⟨hw.1.1.trans h2, fun hc => h3 (hw.1.2.1.symm.trans hc), fun hc => h4 (hw.2 hc).1, hw.1.2.2.trans h5⟩

end

/-! ### Lines -/

/-- What is known of a session with arguments `as`, whose number is at `o`. -/
inductive ItemFacts (as : List Arg) (o k : Nat) (i : Item) : Prop
  | transfer (h1 : k = 5) (h2 : i.special = 2)
  | module (h1 : k = 0) (h2 : i.typ = 0) (h3 : i.special ≠ 2) (h4 : i.generic ≠ 0) (h5 : i.itemOffset = o)
  | call (r : Bool) (h1 : k ≠ 0 ∧ k ≠ 5) (h2 : i.typ ≠ 0) (h3 : i.special ≠ 2) (h4 : i.special = 5 → r = true) (h5 : i.itemOffset = o)
      (h6 : i.generic = 0 → i.runtime = 0 ∨ DelNames as r)

theorem ItemFacts.total {as : List Arg} {o k : Nat} {i : Item} (h : ItemFacts as o k i) (t : Nat) : ItemFacts as o k { i with total := t } := by
  cases h with
  | transfer h1 h2 => exact .transfer h1 h2
  | module h1 h2 h3 h4 h5 => exact .module h1 h2 h3 h4 h5
  | call r h1 h2 h3 h4 h5 h6 => exact .call r h1 h2 h3 h4 h5 h6

theorem finishItem_item {e : Env} {n start : Nat} {s : IS} : Post (finishItem e n start) s (fun _ t => ∃ x, t.item = { s.item with total := x }) := by
  unfold finishItem
  refine lp_frame.seq fun _ t ⟨_, h1⟩ => lp_frame.seq fun x u ⟨_, h2⟩ => Post.modify ⟨x, ?_⟩
  rw [h2, h1]

theorem entry_named {e : Env} (hf : Fits e) {as : List Arg} (hg : GoodTypes as) {entry : Bytes} {start : Nat} {s : IS}
    (h : At e.buf s.off (pfx entry ++ encodeRuntimeArgs as)) (hk : s.item.typ ≠ 0 ∧ s.item.typ ≠ 5) (h0 : s.item.special = 255) (hr0 : s.item.runtime = 0) :
    Post (do let n ← checkEntrypoint e; finishItem e n start) s (fun _ t => ItemFacts as (s.off + (pfx entry).length) s.item.typ t.item) := by
  have hp := At.pfx h
  obtain ⟨hn, ha⟩ := At.append.1 (show At e.buf (s.off + 4 + entry.length) (le 4 as.length ++ encodeArgs as) from hp.2)
  have hal := encodeArgs_long as
  have hle := ha.le
  unfold Fits at hf
  rw [le_length] at ha hle
  refine Post.seq (P := fun _ t => ItemFacts as (s.off + (pfx entry).length) s.item.typ t.item) ?_ fun n t ht => ?_
  · unfold checkEntrypoint
    refine Post.modifyThen ((lp_post (copyItem_post hf)).seq fun nm t ⟨⟨h1, h2, h3, h4⟩, h5⟩ => Post.modifyThen ?_)
    obtain rfl := (At.append.1 h).1.pfx_inj hf h1
    refine .runThen (lp_run (readU32_at (by dsimp only; rw [h3]; exact hp.2) (by omega))) (Post.modifyThen ?_)
    rw [h5]
    dsimp only
    refine Post.seq (P := fun _ u => DelItem as _ _ u.item) (parseDelegation_named (o := s.off + 4 + entry.length + 4) hf hg ha (by dsimp only at h3 ⊢; omega) (by exact hk.1)) fun _ u hu => Post.pure ?_
    obtain ⟨⟨f1, f2, f3⟩, f4⟩ := hu
    dsimp only at f1 f2 f3 f4
    rw [h0] at f2
    have hs := pfx_length entry
    refine .call (decide (cstr entry = b!"redelegate")) hk (by rw [f1]; exact hk.1) ?_ (fun h => ?_) (f3.trans ?_) fun h => ?_
    · rw [f2]; unfold entryKind
      split
      · decide
      split
      · decide
      split <;> decide
    · rw [f2] at h; unfold entryKind at h
      split at h
      · cases h
      split at h
      · cases h
      split at h
      · rename_i hr; simpa using hr
      · cases h
    · dsimp only at h3; omega
    · refine (f4 h).2.imp (fun h => h.trans hr0) fun h => h
  · refine finishItem_item.mono fun _ u ⟨x, hx⟩ => ?_
    rw [hx]; exact ht.total x

theorem versionStep_item {e : Env} {ver : Bool} {s : IS} : Post (versionStep e ver) s (fun _ t => ∃ x, t.item = { s.item with fixed := x }) := by
  unfold versionStep
  refine Post.ite (fun _ => lp_frame.seq fun _ t ⟨_, h⟩ => Post.ite (fun _ => Post.modify ⟨_, by rw [h]⟩) fun _ => Post.pure ⟨_, by rw [h]⟩) fun _ => Post.pure ⟨_, rfl⟩

theorem versionStep_false (e : Env) : versionStep e false = Pure.pure () := rfl

theorem versionStep_named {e : Env} {v : Option Nat} {xs : Bytes} {s : IS} (h : At e.buf s.off (optional (le 4) v ++ xs)) :
    Post (versionStep e true) s (fun _ t => t.off = s.off + (optional (le 4) v).length ∧ ∃ x, t.item = { s.item with fixed := x }) := by
  refine Post.and ?_ versionStep_item
  unfold versionStep
  rw [if_pos rfl]
  refine (lp_post (Q := fun _ t => t = s.off + (optional (le 4) v).length) ?_).seq fun _ t ⟨h1, _⟩ => Post.ite (fun _ => Post.modify h1) fun _ => Post.pure h1
  unfold parseVersion
  refine readU8_post.seq fun b t ⟨h1, h2, h3, h4⟩ => ?_
  cases v with
  | none =>
    have := h1.unique (At.append.1 h).1 rfl
    simp only [optional, List.cons.injEq, and_true] at this
    have hb : b = 0 := by
      have := congrArg UInt8.toNat this
      rw [UInt8.toNat_ofNat_of_lt' (by simpa using h2)] at this
      simpa using this
    rw [if_pos hb]
    exact Post.pure h3
  | some n =>
    have := h1.unique (At.cons.1 (At.append.1 h).1).1 rfl
    simp only [List.cons.injEq, and_true] at this
    have hb : b = 1 := by
      have := congrArg UInt8.toNat this
      rw [UInt8.toNat_ofNat_of_lt' (by simpa using h2)] at this
      simpa using this
    rw [if_neg (by omega), if_pos hb]
    refine readU32_post.mono fun _ u ⟨_, _, k, _⟩ => ?_
    simp [optional]; omega

/-- Sessions. -/
theorem parseDeployItem_named {e : Env} (hs : Small e) {as : List Arg} (hg : GoodTypes as) {k off epo : Nat} {head : Bytes} (hh : ItemHead k head)
    (h : At e.buf off (head ++ encodeRuntimeArgs as)) (hm : k = 0 → (∀ a ∈ as, a.name.length ≤ 300) ∧ ¬ Has as b!"auction") :
    Post (parseDeployItem e false) ⟨off, epo, { typ := k }⟩ (fun _ t => ItemFacts as (off + head.length) k t.item) := by
  have hf := hs.to_fits
  have hfin : ∀ {n start : Nat} {u : IS}, ItemFacts as (off + head.length) k u.item →
      Post (finishItem e n start) u (fun _ t => ItemFacts as (off + head.length) k t.item) :=
    fun hu => finishItem_item.mono fun _ t ⟨x, hx⟩ => by rw [hx]; exact hu.total x
  have hn := (At.append.1 h).2
  have ha := (At.append.1 (show At e.buf (off + head.length) (le 4 as.length ++ encodeArgs as) from hn)).2
  have hle := ha.le
  have hal := encodeArgs_long as
  unfold Small at hs
  rw [le_length] at ha hle
  unfold parseDeployItem
  refine Post.modifyThen (Post.getThen ?_)
  dsimp only
  cases hh with
  | moduleBytes code =>
    rw [if_pos rfl]
    unfold parseModuleBytes
    obtain ⟨m1, m2⟩ := hm rfl
    have hl := pfx_length code
    refine Post.getThen (.runThen (lp_run (parseItem_at hf h)) (.runThen (lp_run (readU32_at (At.cast hn (by dsimp only; omega)) (by omega))) ?_))
    rw [if_neg (by decide)]
    refine (parseModule_named (o := off + (pfx code).length + 4) hf hg ha (by dsimp only; omega) rfl m1 m2 (by omega)).seq fun _ t ⟨t1, t2, t3, t4⟩ => hfin ?_
    exact .module rfl t1 t2 t3 (by omega)
  | transfer =>
    unfold parseTransfer
    refine Post.getThen (Post.seq (P := fun _ _ => True) (fun _ _ _ => trivial) fun n t _ => ?_)
    refine Post.seq (P := fun _ _ => True) (fun _ _ _ => trivial) fun n t _ => Post.modifyThen (hfin ?_)
    exact .transfer rfl rfl
  | byHash hb entry hl =>
    rw [if_neg (by decide), if_pos (by decide)]
    unfold parseByHash
    refine Post.getThen (Post.modifyThen (f := fun _ => _) (g := fun s : IS => { s with off := u16 (s.off + 32) }) (Post.getThen ?_))
    dsimp only
    rw [u16_id (by omega)]
    rw [List.append_assoc] at h
    have h2 := (At.append.1 h).2
    rw [hl] at h2
    rw [show (decide (1 = tyVerByHash)) = false from rfl, versionStep_false]
    refine Post.pureThen ?_
    refine (entry_named hf hg h2 ⟨by simp, by simp⟩ rfl rfl).mono fun _ t ht => ?_
    rw [List.length_append, hl, ← Nat.add_assoc]; exact ht
  | byName nb entry =>
    rw [if_neg (by decide), if_neg (by decide), if_pos (by decide)]
    unfold parseByName
    rw [List.append_assoc] at h
    have h2 := (At.pfx h).2
    have hl := pfx_length nb
    refine Post.getThen (.runThen (lp_run (parseItem_at hf h)) (Post.getThen ?_))
    dsimp only
    rw [show (decide (2 = tyVerByName)) = false from rfl, versionStep_false]
    refine Post.pureThen ?_
    refine (entry_named hf hg h2 ⟨by simp, by simp⟩ rfl rfl).mono fun _ t ht => ?_
    rw [List.length_append, hl, show off + (4 + nb.length + (pfx entry).length) = off + 4 + nb.length + (pfx entry).length by omega]; exact ht
  | versionedByHash hb v entry hl =>
    rw [if_neg (by decide), if_pos (by decide)]
    unfold parseByHash
    refine Post.getThen (Post.modifyThen (f := fun _ => _) (g := fun s : IS => { s with off := u16 (s.off + 32) }) (Post.getThen ?_))
    dsimp only
    rw [u16_id (by omega)]
    rw [List.append_assoc, List.append_assoc] at h
    have h2 := (At.append.1 h).2
    rw [hl] at h2
    rw [show (decide (3 = tyVerByHash)) = true from rfl]
    refine Post.seq (versionStep_named h2) fun _ u ⟨u1, x, u2⟩ => ?_
    have h3 := (At.append.1 h2).2
    dsimp only at u1 u2
    have hk : u.item.typ = 3 := by rw [u2]
    refine (entry_named hf hg (by rw [u1]; exact h3) ⟨by rw [hk]; decide, by rw [hk]; decide⟩ (by rw [u2]) (by rw [u2])).mono fun _ t ht => ?_
    rw [hk, u1] at ht
    rw [List.length_append, List.length_append, hl,
      show off + (32 + ((optional (le 4) v).length + (pfx entry).length)) = off + 32 + (optional (le 4) v).length + (pfx entry).length by omega]
    exact ht
  | versionedByName nb v entry =>
    rw [if_neg (by decide), if_neg (by decide), if_pos (by decide)]
    unfold parseByName
    rw [List.append_assoc, List.append_assoc] at h
    have h2 := (At.pfx h).2
    have hl := pfx_length nb
    refine Post.getThen (.runThen (lp_run (parseItem_at hf h)) (Post.getThen ?_))
    dsimp only
    rw [show (decide (4 = tyVerByName)) = true from rfl]
    refine Post.seq (versionStep_named (v := v) h2) fun _ u ⟨u1, x, u2⟩ => ?_
    have h3 := (At.append.1 h2).2
    dsimp only at u1 u2
    have hk : u.item.typ = 4 := by rw [u2]
    refine (entry_named hf hg (by rw [u1]; exact h3) ⟨by rw [hk]; decide, by rw [hk]; decide⟩ (by rw [u2]) (by rw [u2])).mono fun _ t ht => ?_
    rw [hk, u1] at ht
    rw [List.length_append, List.length_append, hl,
      show off + (4 + nb.length + ((optional (le 4) v).length + (pfx entry).length)) = off + 4 + nb.length + (optional (le 4) v).length + (pfx entry).length by omega]
    exact ht

end Casper
