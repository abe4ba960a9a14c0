import Verif.Lib.V1Review
import Verif.Lib.Walk
/-
`tx_content`: which commands change it.
-/
namespace Casper
open M

/-- The same `tx_content`. -/
def SameContent (a b : Dev) : Prop := b.ctx.content = a.ctx.content

theorem SameContent.refl (a : Dev) : SameContent a a := Eq.refl _

theorem SameContent.trans (a b c : Dev) (h1 : SameContent a b) (h2 : SameContent b c) : SameContent a c := Eq.trans h2 h1

/-- `m` leaves `tx_content` alone. -/
def KC {α : Type} (m : M Dev α) : Prop := Keeps SameContent m

theorem KC.bind {α β : Type} {m : M Dev α} {f : α → M Dev β} (hm : KC m) (hf : ∀ a, KC (f a)) : KC (m >>= f) :=
  Keeps.bind SameContent.trans hm hf
theorem KC.pure {α : Type} (a : α) : KC (Pure.pure a : M Dev α) := Keeps.pure .refl a
theorem KC.fail {α : Type} (x : Nat) : KC (M.fail x : M Dev α) := Keeps.fail .refl x
theorem KC.abort {α : Type} (x : Fault) : KC (M.abort x : M Dev α) := Keeps.abort x
theorem KC.get : KC (M.get : M Dev Dev) := Keeps.get .refl
theorem KC.modify {f : Dev → Dev} (h : ∀ s, (f s).ctx.content = s.ctx.content) : KC (M.modify f) := Keeps.modify h
theorem KC.require (c : Prop) [Decidable c] (x : Nat) : KC (M.require c x : M Dev Unit) := Keeps.require .refl c x
theorem KC.attempt {α : Type} {m : M Dev α} (hm : KC m) : KC (M.attempt m) := Keeps.attempt hm
theorem KC.ite {α : Type} {c : Prop} [Decidable c] {m n : M Dev α} (hm : c → KC m) (hn : ¬ c → KC n) : KC (if c then m else n) := by
  split
  · exact hm ‹_›
  · exact hn ‹_›
theorem KC_runP {α : Type} (pl : Platform) (m : Env → P α) : KC (runP pl m) := fun s =>
  ⟨fun a t h => (runP_same pl m s).1 a t h ▸ .refl _, fun a t h => (runP_same pl m s).2 a t h ▸ .refl _⟩
theorem KC_parserInit : KC parserInit := by
  intro s
  unfold parserInit
  split <;> refine ⟨fun a t h => ?_, fun a t h => ?_⟩ <;> cases h <;> rfl
theorem KC_runDeploy {α : Type} (pl : Platform) (m : Env → M DS α) : KC (runDeploy pl m) := by
  intro s
  unfold runDeploy
  split <;> refine ⟨fun a t h => ?_, fun a t h => ?_⟩ <;> cases h <;> rfl
theorem KC_runV1 (pl : Platform) : KC (runV1 pl) := by
  intro s
  unfold runV1
  split <;> refine ⟨fun a t h => ?_, fun a t h => ?_⟩ <;> cases h <;> rfl
theorem KC_txAppend (pl : Platform) (xs : Bytes) : KC (txAppend pl xs) := by
  intro s
  unfold txAppend
  split <;> refine ⟨fun a t h => ?_, fun a t h => ?_⟩ <;> cases h <;> rfl

theorem KC_orThrow {m : M Dev Unit} {f : Dev → Dev} (hm : KC m) (hf : ∀ s, (f s).ctx.content = s.ctx.content) (sw : Nat) :
    KC (orThrow m f sw) := by
  unfold orThrow
  refine KC.bind (KC.attempt hm) fun r => ?_
  cases r
  · exact KC.bind (KC.modify hf) fun _ => KC.fail _
  · exact KC.pure _

theorem KC_processChunk (pl : Platform) (rx : Bytes) : KC (processChunk pl rx) := by
  walk KC <;> (intros; rfl)
theorem KC_processWasmChunk (pl : Platform) (rx : Bytes) : KC (processWasmChunk pl rx) := by
  walk KC <;> (intros; rfl)
theorem KC_handleSignMessage (pl : Platform) (rx : Bytes) : KC (handleSignMessage pl rx) := by
  walk KC <;> (intros; rfl)
theorem KC_handleSignWasm (pl : Platform) (rx : Bytes) : KC (handleSignWasm pl rx) := by
  walk KC <;> (intros; rfl)
theorem KC_handleGetAddr (pl : Platform) (rx : Bytes) : KC (handleGetAddr pl rx) := by
  walk KC <;> (intros; rfl)
theorem KC_handleGetVersion (pl : Platform) (pin : Bool) : KC (handleGetVersion pl pin) := by
  walk KC <;> (intros; rfl)
theorem KC_parserValidate (pl : Platform) : KC (parserValidate pl) := fun s =>
  ⟨fun a t h => (parserValidate_same pl s).1 a t h ▸ .refl _, fun a t h => (parserValidate_same pl s).2 a t h ▸ .refl _⟩

/-- `tx_content` afterwards, whatever the outcome. -/
def ContentOf (d : Dev) (c : Nat) (r : Res Dev Unit) : Prop :=
  match r with
  | .ok _ s => s.ctx.content = d.ctx.content ∨ s.ctx.content = c
  | .err _ s => s.ctx.content = d.ctx.content ∨ s.ctx.content = c
  | .fault _ => True

theorem ContentOf.bind {d : Dev} {c : Nat} {α : Type} {m : M Dev α} {f : α → M Dev Unit} {s : Dev}
    (hm : ∀ a t, m s = .ok a t → ContentOf d c (f a t)) (he : ∀ x t, m s = .err x t → t.ctx.content = d.ctx.content ∨ t.ctx.content = c) :
    ContentOf d c ((m >>= f) s) := by
  rw [bind_run]
  cases h : m s with
  | ok a t => exact hm a t h
  | err x t => exact he x t h
  | fault x => trivial

theorem ContentOf.keeps {d : Dev} {c : Nat} {m : M Dev Unit} (hm : KC m) {s : Dev} (hs : s.ctx.content = d.ctx.content ∨ s.ctx.content = c) :
    ContentOf d c (m s) := by
  cases h : m s with
  | ok a t => have := (hm s).1 a t h; unfold SameContent at this; show t.ctx.content = _ ∨ t.ctx.content = _; rw [this]; exact hs
  | err x t => have := (hm s).2 x t h; unfold SameContent at this; show t.ctx.content = _ ∨ t.ctx.content = _; rw [this]; exact hs
  | fault x => trivial

theorem parserParse_content {pl : Platform} {d : Dev} {x : UInt8} {xs : Bytes} (hd : d.data = x :: xs) :
    ContentOf d x.toNat (parserParse pl d) := by
  unfold parserParse
  refine ContentOf.bind (fun _ t ht => ?_) fun x t h => .inl ((KC_parserInit d).2 x t h)
  have ht' := parserInit_ok ht
  obtain ⟨h1, rfl⟩ := ht'
  refine ContentOf.bind (fun c t hc => ?_) fun x t h => .inl ?_
  swap
  · have := (KC_runP _ _ _).2 x t h
    exact this
  obtain ⟨rfl, o, hr⟩ := runP_ok hc
  have hcx : c = x.toNat := by
    have hb : ((d.mem.drop 0).take (u16 d.pos)).head? = some x := by
      have : d.data.head? = some x := by rw [hd]; rfl
      unfold Dev.data at this
      rw [List.drop_zero, List.head?_take, if_neg h1]
      rw [List.head?_take, if_neg (by intro h; rw [h] at h1; exact h1 rfl)] at this
      exact this
    obtain ⟨y, hy, rfl, -⟩ := readU8_eq_ok.1 hr
    have := hy.get
    simp only [Dev.env] at this
    rw [← List.head?_eq_getElem?, hb] at this
    cases this; rfl
  subst hcx
  refine ContentOf.bind (fun _ t ht => ?_) fun x t h => by cases h
  cases ht
  refine ContentOf.keeps ?_ (.inr rfl)
  walk KC <;> (intros; rfl)

theorem parserParse_empty {pl : Platform} {d : Dev} (hd : d.Ok pl) (hx : d.data = []) (c : Nat) : ContentOf d c (parserParse pl d) := by
  have hp : d.pos = 0 := by have := hd.data_length; rw [hx] at this; simpa using this.symm
  unfold parserParse
  rw [bind_run]
  unfold parserInit
  rw [if_pos (by rw [hp])]
  exact .inl rfl

/-- The end of `handleSign`. -/
theorem signEnd_content {pl : Platform} {d s : Dev} {c : Nat} (hs : s.ctx.content = d.ctx.content)
    (h : ∀ t : Dev, t = { s with txInit := false } → ContentOf t c (parserParse pl t)) :
    ContentOf d c ((do
      M.modify fun d => { d with txInit := false }
      orExplain (txParse pl)
      M.modify fun d => { d with review := some .tx } : M Dev Unit) s) := by
  have h := h _ rfl
  refine ContentOf.bind (fun _ t ht => ?_) fun x t h => by cases h
  have hg : t = { s with txInit := false } := by cases ht; rfl
  have ht : t.ctx.content = d.ctx.content := by rw [hg]; exact hs
  rw [← hg] at h
  clear hg hs
  have key : ContentOf d c (txParse pl t) := by
    unfold txParse
    refine ContentOf.bind (fun _ u hu => ContentOf.keeps (KC_parserValidate pl) ?_) fun x u hu => ?_
    all_goals rw [hu] at h; rw [← ht]; exact h
  refine ContentOf.bind (fun _ u hu => ContentOf.keeps (KC.modify fun _ => rfl) ?_) fun x u hu => ?_
  all_goals
    unfold orExplain at hu
    rw [bind_run, attempt_run] at hu
    cases hr : txParse pl t with
    | ok a v =>
      rw [hr] at hu key
      cases hu
      try exact key
    | err y v =>
      rw [hr] at hu key
      cases hu
      try exact key
    | fault f =>
      rw [hr] at hu
      cases hu

/-- A transaction command changes `tx_content` only as its last chunk, to the first byte uploaded. -/
theorem handleSign_content {pl : Platform} {d : Dev} (hd : d.Ok pl) (rx : Bytes) :
    (rx.getD 2 0 = 2 ∧ ∃ x xs, d.data ++ rx.drop 5 = x :: xs ∧ ContentOf d x.toNat (handleSign pl rx d)) ∨
      ContentOf d d.ctx.content (handleSign pl rx d) := by
  unfold handleSign
  cases hp : processChunk pl rx d with
  | err x t =>
    right
    rw [bind_run, hp]
    exact .inl ((KC_processChunk pl rx d).2 x t hp)
  | fault f =>
    right
    rw [bind_run, hp]
    trivial
  | ok b t =>
    have ht := (KC_processChunk pl rx d).1 b t hp
    cases b with
    | false =>
      right
      rw [bind_run, hp]
      exact .inl ht
    | true =>
      have hc := processChunk_case pl rx d hd.2
      rw [hp] at hc
      generalize hg : Res.ok true t = r at hc
      cases hc <;> simp only [Res.ok.injEq, reduceCtorEq, Bool.true_eq_false, false_and] at hg
      rename_i h1 h2 h3 h4 h5
      obtain ⟨hb, rfl⟩ := hg
      have hdata := Dev.store_data hd (rx.drop 5)
      have hok := hd.store h5
      cases hx : d.data ++ rx.drop 5 with
      | nil =>
        right
        rw [bind_run, hp, Res.bind_ok, if_pos rfl]
        refine signEnd_content ht fun t ht => ?_
        subst ht
        exact parserParse_empty (d := { d.store (rx.drop 5) with txInit := false }) hok (hdata.trans hx) _
      | cons x xs =>
        left
        refine ⟨by simpa using hb.symm, x, xs, rfl, ?_⟩
        rw [bind_run, hp, Res.bind_ok, if_pos rfl]
        refine signEnd_content ht fun t ht => ?_
        subst ht
        exact parserParse_content (d := { d.store (rx.drop 5) with txInit := false }) (hdata.trans hx)

/-- The step of a history that completes an upload of transaction data. -/
def completesTx (d : Dev) (ev : Event) (data : Bytes) : Prop :=
  ∃ rx, ev = .apdu rx true ∧ rx.getD 1 0 = 2 ∧ rx.getD 2 0 = 2 ∧ data = d.data ++ rx.drop 5

theorem appSign_content (pl : Platform) (d : Dev) : (appSign pl d).1.ctx = d.ctx := by
  obtain ⟨i, hi⟩ := appSign_state pl d
  rw [hi]

/-- `tx_content` changes only by a completed upload of transaction data, and then to its first byte. -/
theorem step_content {pl : Platform} {d : Dev} (hd : d.Ok pl) (ev : Event) :
    (step pl d ev).1.ctx.content = d.ctx.content ∨
    ∃ x xs, completesTx d ev (x :: xs) ∧ (step pl d ev).1.ctx.content = x.toNat := by
  cases ev with
  | approve =>
    left
    unfold step
    dsimp only
    cases hr : d.review with
    | none => rfl
    | some r =>
      cases r <;> first | rfl | (dsimp only; rw [appSign_content])
  | reject =>
    left
    unfold step
    dsimp only
    cases hr : d.review <;> rfl
  | setExpert b =>
    left
    unfold step
    dsimp only
    split <;> rfl
  | apdu rx pin =>
    have hd' : (d.recv rx).Ok pl := hd
    rw [step_apdu]
    have key : (rx.getD 1 0 = 2 ∧ rx.getD 2 0 = 2 ∧ pin = true ∧ ∃ x xs, d.data ++ rx.drop 5 = x :: xs ∧
          ContentOf d x.toNat (dispatch pl rx pin (d.recv rx))) ∨
        ContentOf d d.ctx.content (dispatch pl rx pin (d.recv rx)) := by
      by_cases hl : 5 ≤ rx.length
      case neg =>
        right
        unfold dispatch
        refine ContentOf.bind (fun _ t ht => ?_) fun x t h => by cases h
        cases ht
        refine ContentOf.bind (fun _ t ht => ?_) fun x t h => .inl (((KC.require _ _ (d.recv rx)).2 x t h :))
        have h1 := (KC.require _ _ _).1 _ _ ht
        refine ContentOf.bind (fun _ t ht => ?_) fun x t h => .inl (SameContent.trans _ _ _ h1 ((KC.require _ _ _).2 x t h))
        exact absurd (require_eq_ok.1 ht).1 hl
      by_cases h0 : rx.getD 0 0 = 0x11
      case neg =>
        right
        unfold dispatch
        refine ContentOf.bind (fun _ t ht => ?_) fun x t h => by cases h
        cases ht
        refine ContentOf.bind (fun _ t ht => ?_) fun x t h => .inl (((KC.require _ _ (d.recv rx)).2 x t h :))
        have h1 := (require_eq_ok.1 ht).1
        exact absurd ((poke_getD _ _ _ (by omega)).symm.trans h1) h0
      rw [dispatch_eq pl d rx pin hl h0]
      split
      · exact .inr (.keeps (KC_handleGetVersion _ _) (.inl rfl))
      split
      · split
        · split
          · exact .inr (.keeps (KC_handleGetAddr _ _) (.inl rfl))
          split
          · rename_i hpin _ h2
            rcases handleSign_content hd' rx with ⟨h3, x, xs, h4, h5⟩ | h
            · exact .inl ⟨h2, h3, hpin, x, xs, h4, h5⟩
            · exact .inr h
          split
          · exact .inr (.keeps (KC_handleSignMessage _ _) (.inl rfl))
          · exact .inr (.keeps (KC_handleSignWasm _ _) (.inl rfl))
        · exact .inr (.inl rfl)
      · exact .inr (.inl rfl)
    rcases key with ⟨h1, h2, rfl, x, xs, h3, h⟩ | h
    · cases hr : dispatch pl rx true (d.recv rx) with
      | ok a t =>
        rw [hr] at h
        exact h.imp id fun h => ⟨x, xs, ⟨rx, rfl, h1, h2, h3.symm⟩, h⟩
      | err a t =>
        rw [hr] at h
        exact h.imp id fun h => ⟨x, xs, ⟨rx, rfl, h1, h2, h3.symm⟩, h⟩
      | fault f => exact .inl rfl
    · left
      cases hr : dispatch pl rx pin (d.recv rx) with
      | ok a t => rw [hr] at h; exact h.elim id id
      | err a t => rw [hr] at h; exact h.elim id id
      | fault f => rfl

end Casper
