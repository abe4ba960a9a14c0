import Verif.Lib.Parse
import Verif.Props.Text
/-
C21, C31..C33: keys, derivation paths, and what may happen while a review is shown.
-/
namespace Casper
open M

/-! ### Which commands change the derivation path -/

/-- The 20 path bytes of a command. -/
def pathOf (rx : Bytes) : Bytes := (rx.drop 5).take 20

/-- A command with a path: GET_ADDR, or INIT of a signing instruction, with at least 20 bytes of data. -/
def Carries (rx : Bytes) : Prop :=
  (rx.getD 1 0 = 1 ∨ ((rx.getD 1 0 = 2 ∨ rx.getD 1 0 = 3 ∨ rx.getD 1 0 = 4) ∧ rx.getD 2 0 = 0)) ∧ 25 ≤ rx.length

/-- Path unchanged, no session opened. -/
def Calm (a b : Dev) : Prop := b.hdPath = a.hdPath ∧ (b.txInit = true → a.txInit = true)

theorem Calm.refl (a : Dev) : Calm a a := ⟨rfl, id⟩
theorem Calm.trans (a b c : Dev) (h : Calm a b) (h' : Calm b c) : Calm a c := ⟨h'.1.trans h.1, fun x => h.2 (h'.2 x)⟩

/-- Success and failure keep `Calm`. -/
def Calms {α : Type} (m : M Dev α) : Prop := Keeps Calm m

theorem Calms.core {α : Type} {m : M Dev α} (hm : Keeps SameCore m) : Calms m := by
  intro s
  constructor
  · intro a t h'; have := (hm s).1 a t h'; unfold SameCore at this; rw [this]; exact .refl _
  · intro a t h'; have := (hm s).2 a t h'; unfold SameCore at this; rw [this]; exact .refl _

theorem Calms.ofEq {α : Type} {m : M Dev α} (hm : Keeps Eq m) : Calms m :=
  fun s => ⟨fun a t h' => (hm s).1 a t h' ▸ .refl _, fun a t h' => (hm s).2 a t h' ▸ .refl _⟩

theorem Calms.bind {α β : Type} {m : M Dev α} {f : α → M Dev β} (hm : Calms m) (hf : ∀ a, Calms (f a)) :
    Calms (m >>= f) := Keeps.bind Calm.trans hm hf

theorem Calms.modify {f : Dev → Dev} (h : ∀ d, Calm d (f d)) : Calms (M.modify f) := Keeps.modify h
theorem Calms.get : Calms (M.get : M Dev Dev) := Keeps.get .refl
theorem Calms.require (c : Prop) [Decidable c] (x : Nat) : Calms (M.require c x : M Dev Unit) := Keeps.require .refl c x
theorem Calms.attempt {α : Type} {m : M Dev α} (h : Calms m) : Calms (M.attempt m) := Keeps.attempt h
theorem Calms.shut : Calms (M.modify fun d : Dev => { d with txInit := false }) := by
  refine Calms.modify fun d => ⟨rfl, ?_⟩
  intro h; simp at h
theorem Calms.fail {α : Type} (x : Nat) : Calms (M.fail x : M Dev α) := Keeps.fail .refl x
theorem Calms.pure {α : Type} (x : α) : Calms (Pure.pure x : M Dev α) := Keeps.pure .refl x

theorem Calms.explain {m : M Dev Unit} (hm : Calms m) : Calms (orExplain m) := by
  unfold orExplain
  refine .bind (.attempt hm) fun r => ?_
  split
  · exact .pure _
  · exact .bind (.modify fun _ => ⟨rfl, id⟩) fun _ => .fail _

theorem Calms.throw {m : M Dev Unit} (hm : Calms m) {b : Dev → Dev} (hb : ∀ d, Calm d (b d)) (sw : Nat) :
    Calms (orThrow m b sw) := by
  unfold orThrow
  refine .bind (.attempt hm) fun r => ?_
  split
  · exact .pure _
  · exact .bind (.modify hb) fun _ => .fail _

theorem Calms.append (pl : Platform) (xs : Bytes) : Calms (txAppend pl xs) := by
  intro d
  unfold txAppend
  constructor
  · intro a t h
    split at h <;> simp only [Res.ok.injEq] at h <;> rw [← h.2] <;> exact ⟨rfl, id⟩
  · intro a t h
    split at h <;> simp at h

/-- A path that is too short is refused before anything is copied. -/
theorem extract_short {α : Type} {rx : Bytes} (h : rx.length < 25) (f : Unit → M Dev α) :
    Calms (extractPath rx >>= f) := by
  have : ∀ d : Dev, extractPath rx d = .err 0x6700 d := by
    intro d
    unfold extractPath
    simp only [bind_run, require_run]
    rw [if_neg (by omega)]; rfl
  intro s
  rw [bind_run, this]
  rw [Res.bind_err]
  refine ⟨fun _ _ h => by simp at h, fun _ _ h => ?_⟩
  rw [Res.err.injEq] at h; rw [← h.2]; exact .refl _

theorem Calms.chunk (pl : Platform) {rx : Bytes} (h : ¬ (rx.getD 2 0 = 0 ∧ 25 ≤ rx.length)) :
    Calms (processChunk pl rx) := by
  unfold processChunk
  refine .bind (.require _ _) fun _ => .bind (.require _ _) fun _ => ?_
  dsimp only
  split
  · exact .bind (.modify fun _ => ⟨rfl, id⟩) fun _ => extract_short (by grind) _
  split
  · refine .bind (.get) fun _ => .bind (.require _ _) fun _ => .bind (.append _ _) fun b => ?_
    split
    · exact .pure _
    · exact .bind .shut fun _ => .fail _
  · exact .bind .shut fun _ => .fail _

theorem Calms.wasmChunk (pl : Platform) {rx : Bytes} (h : ¬ (rx.getD 2 0 = 0 ∧ 25 ≤ rx.length)) :
    Calms (processWasmChunk pl rx) := by
  unfold processWasmChunk
  refine .bind (.require _ _) fun _ => .bind (.require _ _) fun _ => ?_
  dsimp only
  split
  · exact .bind (.modify fun _ => ⟨rfl, id⟩) fun _ => extract_short (by grind) _
  split
  · refine .bind (.get) fun _ => .bind (.require _ _) fun _ => .bind (.append _ _) fun b =>
      .bind ?_ fun _ => .pure _
    unfold wasmFull
    refine .bind (.get) fun _ => ?_
    split
    · exact .bind (.throw (b := fun d => { d with txInit := false }) (.core (parseWasm_core pl)) (fun _ => ⟨rfl, by simp⟩) _) fun _ =>
        .modify fun _ => ⟨rfl, id⟩
    · exact .pure _
  · exact .bind .shut fun _ => .fail _

theorem Calms.signRest (pl : Platform) (b : Bool) : Calms (if b = true then do
    M.modify fun d : Dev => { d with txInit := false }
    orExplain (txParse pl)
    M.modify fun d : Dev => { d with review := some .tx }
  else M.fail 0x9000 : M Dev Unit) := by
  split
  · exact .bind .shut fun _ => .bind (.explain (.core (txParse_core pl))) fun _ => .modify fun _ => ⟨rfl, id⟩
  · exact .fail _

theorem Calms.messageRest (pl : Platform) (b : Bool) : Calms (if b = true then do
    orExplain (parseMessage pl)
    M.modify fun d : Dev => { d with review := some .message }
  else M.fail 0x9000 : M Dev Unit) := by
  split
  · exact .bind (.explain (.core (parseMessage_core pl))) fun _ => .modify fun _ => ⟨rfl, id⟩
  · exact .fail _

theorem Calms.wasmRest (pl : Platform) (b : Bool) : Calms (if b = true then do
    M.modify fun d : Dev => { d with txInit := false, review := none }
    wasmEnd pl
    orThrow (txValidateWasm pl) id 0x6400
    M.modify fun d : Dev => { d with review := some .wasm }
  else M.fail 0x9000 : M Dev Unit) := by
  split
  · refine .bind (.modify fun _ => ⟨rfl, by simp⟩) fun _ => .bind ?_ fun _ =>
      .bind (.throw (.ofEq (txValidateWasm_same pl)) (fun _ => .refl _) _) fun _ => .modify fun _ => ⟨rfl, id⟩
    unfold wasmEnd
    refine .bind (.get) fun _ => ?_
    split
    · exact .throw (.core (parseWasm_core pl)) (fun _ => .refl _) _
    · exact .pure _
  · exact .fail _

theorem outOf_calm {d : Dev} {m : M Dev Unit} {s : Dev} (hm : Calms m) (hs : Calm d s) :
    Calm d (outOf d (m s)).1 := by
  cases h : m s with
  | ok a t => exact .trans _ _ _ hs ((hm s).1 a t h)
  | err x t => exact .trans _ _ _ hs ((hm s).2 x t h)
  | fault f => exact .refl d

theorem step_outOf (pl : Platform) (d : Dev) (rx : Bytes) (pin : Bool) :
    step pl d (.apdu rx pin) = outOf d (dispatch pl rx pin (d.recv rx)) := by
  rw [step_apdu]; cases dispatch pl rx pin (d.recv rx) <;> rfl

/-- A command without path leaves the path alone and opens no session. -/
theorem calm_step (pl : Platform) (d : Dev) (rx : Bytes) (pin : Bool) (h : ¬ Carries rx) :
    Calm d (step pl d (.apdu rx pin)).1 := by
  rw [step_outOf]
  have h0 : Calm d (d.recv rx) := ⟨rfl, id⟩
  rcases dispatch_cases pl d rx pin with ⟨x, hx, hx'⟩ | ⟨-, -, hc⟩
  · rw [hx]; exact h0
  rcases hc with ⟨hi, hc⟩ | ⟨-, hi, hc⟩ | ⟨-, hi, hc⟩ | ⟨-, hi, hc⟩ | ⟨-, hi, hc⟩ <;> rw [hc]
  · exact h0
  · have hl : rx.length < 25 := Nat.lt_of_not_le fun hl => h ⟨.inl hi, hl⟩
    exact outOf_calm (m := handleGetAddr pl rx) (extract_short hl _) h0
  · have hn : ¬ (rx.getD 2 0 = 0 ∧ 25 ≤ rx.length) := fun hn => h ⟨.inr ⟨.inl hi, hn.1⟩, hn.2⟩
    exact outOf_calm (.bind (.chunk pl hn) (Calms.signRest pl)) h0
  · have hn : ¬ (rx.getD 2 0 = 0 ∧ 25 ≤ rx.length) := fun hn => h ⟨.inr ⟨.inr (.inl hi), hn.1⟩, hn.2⟩
    exact outOf_calm (.bind (.chunk pl hn) (Calms.messageRest pl)) h0
  · have hn : ¬ (rx.getD 2 0 = 0 ∧ 25 ≤ rx.length) := fun hn => h ⟨.inr ⟨.inr (.inr hi), hn.1⟩, hn.2⟩
    exact outOf_calm (.bind (.modify fun _ => ⟨rfl, id⟩) fun _ => .bind (.wasmChunk pl hn) (Calms.wasmRest pl)) h0

/-- A command with a path: refused before the path is read, or a Casper path was stored, or another path was stored
and the command refused. -/
theorem carry_step (pl : Platform) (d : Dev) (hd : d.Ok pl) (rx : Bytes) (pin : Bool) (h : Carries rx) :
    Calm d (step pl d (.apdu rx pin)).1 ∨
    (casperPath (pathOf rx) ∧ (step pl d (.apdu rx pin)).1.hdPath = pathOf rx) ∨
    (¬ casperPath (pathOf rx) ∧ (step pl d (.apdu rx pin)).1.hdPath = pathOf rx ∧
      (step pl d (.apdu rx pin)).1.txInit = d.txInit) := by
  rw [step_outOf]
  have h0 : Calm d (d.recv rx) := ⟨rfl, id⟩
  have hd' : (d.recv rx).pos ≤ pl.cap := hd.2
  obtain ⟨h1, hl⟩ := h
  rcases dispatch_cases pl d rx pin with ⟨x, hx, hx'⟩ | ⟨-, -, hc⟩
  · rw [hx]; exact .inl h0
  rcases hc with ⟨hi, hc⟩ | ⟨-, hi, hc⟩ | ⟨-, hi, hc⟩ | ⟨-, hi, hc⟩ | ⟨-, hi, hc⟩ <;> rw [hc]
  · exact .inl h0
  · have hcase := handleGetAddr_case pl rx (d.recv rx)
    generalize handleGetAddr pl rx (d.recv rx) = r at hcase
    cases hcase with
    | short => omega
    | path _ hp => exact .inr (.inr ⟨hp, rfl, rfl⟩)
    | none _ hp => exact .inr (.inl ⟨hp, rfl⟩)
    | «show» _ _ hp => exact .inr (.inl ⟨hp, rfl⟩)
    | reply _ _ hp => exact .inr (.inl ⟨hp, rfl⟩)
  · rw [hi] at h1
    have h2 : rx.getD 2 0 = 0 := h1.elim (fun h1 => absurd h1 (by decide)) (fun h1 => h1.2)
    rw [handleSign, bind_run]
    have hcase := processChunk_case pl rx _ hd'
    generalize processChunk pl rx (d.recv rx) = r at hcase
    cases hcase with
    | p2 => exact .inl h0
    | short => exact .inl h0
    | initShort => omega
    | initPath _ _ _ hp => exact .inr (.inr ⟨hp, rfl, rfl⟩)
    | init _ _ _ hp => exact .inr (.inl ⟨hp, rfl⟩)
    | notInit => exact .inl h0
    | stored _ _ h12 => rw [h2] at h12; exact absurd h12 (by decide)
    | full _ _ h12 => rw [h2] at h12; exact absurd h12 (by decide)
    | p1 _ _ hn => exact absurd h2 hn
  · rw [hi] at h1
    have h2 : rx.getD 2 0 = 0 := h1.elim (fun h1 => absurd h1 (by decide)) (fun h1 => h1.2)
    rw [handleSignMessage, bind_run]
    have hcase := processChunk_case pl rx _ hd'
    generalize processChunk pl rx (d.recv rx) = r at hcase
    cases hcase with
    | p2 => exact .inl h0
    | short => exact .inl h0
    | initShort => omega
    | initPath _ _ _ hp => exact .inr (.inr ⟨hp, rfl, rfl⟩)
    | init _ _ _ hp => exact .inr (.inl ⟨hp, rfl⟩)
    | notInit => exact .inl h0
    | stored _ _ h12 => rw [h2] at h12; exact absurd h12 (by decide)
    | full _ _ h12 => rw [h2] at h12; exact absurd h12 (by decide)
    | p1 _ _ hn => exact absurd h2 hn
  · rw [hi] at h1
    have h2 : rx.getD 2 0 = 0 := h1.elim (fun h1 => absurd h1 (by decide)) (fun h1 => h1.2)
    rw [handleSignWasm, bind_run, modify_run, Res.bind_ok, bind_run, processWasmChunk]
    simp only [bind_run, require_run]
    by_cases h3 : rx.getD 3 0 = 0
    case neg => rw [if_neg h3]; exact .inl ⟨rfl, id⟩
    rw [if_pos h3, Res.bind_ok, if_pos (by omega), Res.bind_ok, if_pos h2]
    simp only [bind_run, modify_run, Res.bind_ok]
    by_cases hp : casperPath (pathOf rx)
    · rw [extractPath_ok hl hp]; exact .inr (.inl ⟨hp, rfl⟩)
    · have : ∀ d : Dev, extractPath rx d = .err 0x6984 { d with hdPath := pathOf rx } := by
        intro d
        unfold extractPath
        simp only [bind_run, require_run]
        rw [if_pos (by omega)]
        simp only [modify_run, Res.bind_ok]
        unfold casperPath pathOf at hp
        rw [if_neg hp]
        rfl
      rw [this]; exact .inr (.inr ⟨hp, rfl, rfl⟩)

/-! ### C31 -/

/-- No session is open and nothing that could be signed is on the screen. -/
def Idle (d : Dev) : Prop := d.txInit = false ∧ (d.review = none ∨ d.review = some .address)

theorem idle_review {pl : Platform} {d : Dev} (hd : d.Ok pl) (h : Idle d) (rx : Bytes) (pin : Bool) :
    (step pl d (.apdu rx pin)).1.review = none ∨ (step pl d (.apdu rx pin)).1.review = some .address := by
  by_cases hp : (step pl d (.apdu rx pin)).2 = .pending
  · obtain ⟨r, a1, -, -, a4⟩ := pending_review hd.2 hp
    rw [a1]
    by_cases hr : r = .address
    · exact .inr (by rw [hr])
    · have := (a4 hr).2.2; rw [h.1] at this; simp at this
  · rcases (noNew_elementary pl).step_closed _ rx pin hp with h' | h'
    · rw [h']; exact h.2
    · exact .inl h'

/-- The signing path is a Casper path, or there is nothing to sign. -/
def PathInv (d : Dev) : Prop := casperPath d.hdPath ∨ Idle d

theorem approve_state (pl : Platform) (d : Dev) : ∃ i, (step pl d .approve).1 = { d with review := none, io := i } := by
  unfold step
  obtain ⟨i, hi⟩ := appSign_state pl { d with review := none }
  cases hs : d.review with
  | none => exact ⟨d.io, show d = _ from by cases d; simp only at hs; rw [hs]⟩
  | some r => cases r <;> first | exact ⟨d.io, rfl⟩ | exact ⟨i, hi⟩

theorem reject_state (pl : Platform) (d : Dev) : ∃ i, (step pl d .reject).1 = { d with review := none, io := i } := by
  unfold step
  cases hs : d.review with
  | none => exact ⟨d.io, show d = _ from by cases d; simp only at hs; rw [hs]⟩
  | some r => exact ⟨_, rfl⟩

theorem expert_state (pl : Platform) (d : Dev) (b : Bool) :
    ∃ c, (step pl d (.setExpert b)).1 = { d with expert := c } := by
  unfold step; dsimp only
  split
  · exact ⟨b, rfl⟩
  · exact ⟨d.expert, rfl⟩

theorem PathInv.step {pl : Platform} {d : Dev} (hd : d.Ok pl) (h : PathInv d) (ev : Event)
    (hbad : ∀ rx pin, ev = .apdu rx pin → Carries rx → ¬ casperPath (pathOf rx) → Idle d) :
    PathInv (step pl d ev).1 := by
  have calm : ∀ rx pin, Calm d (Casper.step pl d (.apdu rx pin)).1 → PathInv (Casper.step pl d (.apdu rx pin)).1 := by
    intro rx pin hc
    rcases h with h | h
    · exact .inl (by rw [hc.1]; exact h)
    · refine .inr ⟨?_, idle_review hd h rx pin⟩
      cases ht : (Casper.step pl d (.apdu rx pin)).1.txInit with
      | false => rfl
      | true => have := hc.2 ht; rw [h.1] at this; exact this.symm
  cases ev with
  | apdu rx pin =>
    by_cases hr : Carries rx
    · rcases carry_step pl d hd rx pin hr with h1 | ⟨h1, h2⟩ | ⟨h1, h2, h3⟩
      · exact calm rx pin h1
      · exact .inl (by rw [h2]; exact h1)
      · have hi := hbad rx pin rfl hr h1
        exact .inr ⟨h3.trans hi.1, idle_review hd hi rx pin⟩
    · exact calm rx pin (calm_step pl d rx pin hr)
  | approve =>
    obtain ⟨i, hi⟩ := approve_state pl d
    rw [hi]
    exact h.elim .inl fun h => .inr ⟨h.1, .inl rfl⟩
  | reject =>
    obtain ⟨i, hi⟩ := reject_state pl d
    rw [hi]
    exact h.elim .inl fun h => .inr ⟨h.1, .inl rfl⟩
  | setExpert b =>
    obtain ⟨c, hc⟩ := expert_state pl d b
    rw [hc]
    exact h

theorem appSign_agree {pl : Platform} {s' : Bytes → Bytes → Option Bytes} {d : Dev}
    (h : ∀ x, s' d.hdPath x = pl.sign d.hdPath x) : appSign { pl with sign := s' } d = appSign pl d := by
  unfold appSign
  show (match signedBytes pl d with | .fault f => _ | .err _ _ => _ | .ok bytes _ => _) = _
  cases signedBytes pl d with
  | ok a t => dsimp only; rw [h]
  | err x t => rfl
  | fault f => rfl

theorem approve_agree {pl : Platform} {s' : Bytes → Bytes → Option Bytes} {d : Dev}
    (h : ∀ x, s' d.hdPath x = pl.sign d.hdPath x) (ev : Event) :
    step { pl with sign := s' } d ev = step pl d ev := by
  cases ev with
  | apdu rx pin => rfl
  | reject => rfl
  | setExpert b => rfl
  | approve =>
    unfold step
    have := appSign_agree (pl := pl) (s' := s') (d := { d with review := none }) h
    cases hr : d.review with
    | none => rfl
    | some r => cases r <;> first | rfl | exact this

theorem approve_idle {pl : Platform} {s' : Bytes → Bytes → Option Bytes} {d : Dev} (h : Idle d) (ev : Event) :
    step { pl with sign := s' } d ev = step pl d ev := by
  cases ev with
  | apdu rx pin => rfl
  | reject => rfl
  | setExpert b => rfl
  | approve =>
    unfold step
    rcases h.2 with hr | hr <;> rw [hr]

/-- **C31, Casper paths.** If commands with another path are only ever sent while no session is open and no signing
review is shown, then nothing the device does depends on keys of other paths: replacing the signing function by one that
agrees with it on paths starting 44'/506' changes nothing in any history.
Missing from the full property: hosts that send another path during a session, see `C31_path_false`. -/
theorem C31_path_partial (pl : Platform) (s' : Bytes → Bytes → Option Bytes)
    (hs : ∀ p x, casperPath p → s' p x = pl.sign p x) (evs : List Event)
    (hbad : ∀ pre rx pin post, evs = pre ++ .apdu rx pin :: post → Carries rx → ¬ casperPath (pathOf rx) →
      Idle (run pl (Dev.init pl) pre).1) :
    run { pl with sign := s' } (Dev.init pl) evs = run pl (Dev.init pl) evs ∧
    PathInv (run pl (Dev.init pl) evs).1 := by
  induction evs using list_snoc with
  | nil => exact ⟨rfl, .inr ⟨rfl, .inl rfl⟩⟩
  | snoc evs ev ih =>
    obtain ⟨h1, h2⟩ := ih fun pre rx pin post he => hbad pre rx pin (post ++ [ev]) (by simp [he])
    have hd := (Dev.Ok.init pl).run evs
    rw [run_append, run_append, h1]
    have hst : step { pl with sign := s' } (run pl (Dev.init pl) evs).1 ev = step pl (run pl (Dev.init pl) evs).1 ev :=
      h2.elim (fun h => approve_agree (fun x => hs _ x h) ev) (fun h => approve_idle h ev)
    simp only [run, hst, true_and]
    exact h2.step hd ev fun rx pin he => hbad evs rx pin [] (by rw [he])

/-- **C31 fails** when a path is refused during a session: the message was uploaded for 44'/506'/0'/0/0, a GET_ADDR for
44'/60'/0'/0/0 is refused (0x6984), and yet the signature is made with the key of 44'/60'/0'/0/0. -/
theorem C31_path_false : ¬ casperPath otherPath ∧
    (run samplePl (Dev.init samplePl) [.apdu (apdu 3 0 (samplePath 0)) true, .apdu (apdu 1 0 otherPath) true,
      .apdu (apdu 3 2 b!"Casper Message:\nhi") true, .approve]).2 =
    [.reply [] 0x9000, .reply [] 0x6984, .pending, .reply (otherPath ++ 0x53 :: b!"Casper Message:\nhi") 0x9000] := by
  decide +kernel

/-- A history meeting the hypothesis of `C31_path_partial`: another path is refused before the session. -/
example : (∀ pre rx pin post, [Event.apdu (apdu 1 0 otherPath) true, .apdu (apdu 3 0 (samplePath 0)) true,
      .apdu (apdu 3 2 b!"Casper Message:\nhi") true, .approve] = pre ++ .apdu rx pin :: post → Carries rx →
      ¬ casperPath (pathOf rx) → Idle (run samplePl (Dev.init samplePl) pre).1) ∧
    (run samplePl (Dev.init samplePl) [.apdu (apdu 1 0 otherPath) true, .apdu (apdu 3 0 (samplePath 0)) true,
      .apdu (apdu 3 2 b!"Casper Message:\nhi") true, .approve]).2 =
    [.reply [] 0x6984, .reply [] 0x9000, .pending, .reply (samplePath 0 ++ 0x53 :: b!"Casper Message:\nhi") 0x9000] := by
  refine ⟨?_, by decide +kernel⟩
  intro pre rx pin post h hc hp
  match pre with
  | [] => exact ⟨rfl, .inl rfl⟩
  | [_] =>
    simp only [List.cons_append, List.nil_append, List.cons.injEq, Event.apdu.injEq] at h
    rw [← h.2.1.1] at hp; exact absurd hp (by decide)
  | [_, _] =>
    simp only [List.cons_append, List.nil_append, List.cons.injEq, Event.apdu.injEq] at h
    rw [← h.2.2.1.1] at hc; exact absurd hc.1 (by decide)
  | _ :: _ :: _ :: pre =>
    simp only [List.cons_append, List.cons.injEq] at h
    cases pre <;> simp at h

/-! ### C32 -/

/-- A successful INIT: the path is stored, the session is empty and open. -/
theorem init_path (pl : Platform) (d : Dev) (ins : UInt8) (hi : ins = 2 ∨ ins = 3 ∨ ins = 4) (rx : Bytes)
    (hc : Chunk ins 0 rx) (hl : 25 ≤ rx.length) (hp : casperPath (pathOf rx)) :
    (step pl d (.apdu rx true)).2 = .reply [] 0x9000 ∧ (step pl d (.apdu rx true)).1.hdPath = pathOf rx ∧
    (step pl d (.apdu rx true)).1.txInit = true ∧ (step pl d (.apdu rx true)).1.data = [] := by
  have hpc : ∀ s, processChunk pl rx s = .ok false { s with pos := 0, hdPath := pathOf rx, txInit := true } := by
    intro s
    unfold processChunk
    simp only [bind_run, require_run, if_pos hc.p2, if_pos hc.len, Res.bind_ok, if_pos hc.p1, modify_run]
    rw [extractPath_ok hl hp]
    rfl
  have hpw : ∀ s, processWasmChunk pl rx s =
      .ok false { s with pos := 0, hdPath := pathOf rx, txInit := true, bufFull := false, wasmCounter := 0 } := by
    intro s
    unfold processWasmChunk
    simp only [bind_run, require_run, if_pos hc.p2, if_pos hc.len, Res.bind_ok, if_pos hc.p1, modify_run]
    rw [extractPath_ok hl hp]
    rfl
  rcases hi with rfl | rfl | rfl
  · rw [step_apdu, dispatch_sign hc, handleSign, bind_run, hpc]
    exact ⟨rfl, rfl, rfl, rfl⟩
  · rw [step_apdu, dispatch_message hc, handleSignMessage, bind_run, hpc]
    exact ⟨rfl, rfl, rfl, rfl⟩
  · rw [step_apdu, dispatch_wasm hc, handleSignWasm, bind_run, modify_run, Res.bind_ok, bind_run, hpw]
    exact ⟨rfl, rfl, rfl, rfl⟩

/-- **C32, the path of INIT.** After an accepted INIT, as long as no further command with a path is sent, every signature
is made with the path given in that INIT: the signing path stays the same, and nothing depends on any other key.
Missing from the full property: a GET_ADDR or a refused INIT during the upload, see `C32_path_false`. -/
theorem C32_path_partial (pl : Platform) (d : Dev) (ins : UInt8) (hi : ins = 2 ∨ ins = 3 ∨ ins = 4) (rx : Bytes)
    (hc : Chunk ins 0 rx) (hl : 25 ≤ rx.length) (hp : casperPath (pathOf rx)) (evs : List Event)
    (hev : ∀ rx pin, .apdu rx pin ∈ evs → ¬ Carries rx) (s' : Bytes → Bytes → Option Bytes)
    (hs : ∀ x, s' (pathOf rx) x = pl.sign (pathOf rx) x) :
    (run pl (step pl d (.apdu rx true)).1 evs).1.hdPath = pathOf rx ∧
    run { pl with sign := s' } (step pl d (.apdu rx true)).1 evs = run pl (step pl d (.apdu rx true)).1 evs := by
  obtain ⟨-, h0, -, -⟩ := init_path pl d ins hi rx hc hl hp
  generalize (step pl d (.apdu rx true)).1 = s at h0
  induction evs generalizing s with
  | nil => exact ⟨h0, rfl⟩
  | cons ev evs ih =>
    have hst := approve_agree (pl := pl) (s' := s') (d := s) (by rw [h0]; exact hs) ev
    have hk : (step pl s ev).1.hdPath = pathOf rx := by
      cases ev with
      | apdu rx' pin =>
        rw [(calm_step pl s rx' pin (hev rx' pin (by simp))).1, h0]
      | approve => obtain ⟨i, h⟩ := approve_state pl s; rw [h]; exact h0
      | reject => obtain ⟨i, h⟩ := reject_state pl s; rw [h]; exact h0
      | setExpert b => obtain ⟨c, h⟩ := expert_state pl s b; rw [h]; exact h0
    obtain ⟨h1, h2⟩ := ih (fun rx pin h => hev rx pin (by simp [h])) (step pl s ev).1 hk
    simp only [run, hst, h2, h1, and_self]

/-- **C32 fails** when an address is requested during the upload: the session was opened for address index 0, the
signature is made with the key of index 1. -/
theorem C32_path_false :
    (run samplePl (Dev.init samplePl) [.apdu (apdu 3 0 (samplePath 0)) true, .apdu (apdu 1 0 (samplePath 1)) true,
      .apdu (apdu 3 2 b!"Casper Message:\nhi") true, .approve]).2.getLast? =
    some (.reply (samplePath 1 ++ 0x53 :: b!"Casper Message:\nhi") 0x9000) := by
  decide +kernel

example : (run samplePl (Dev.init samplePl) [.apdu (apdu 3 0 (samplePath 4)) true, .apdu (apdu 0 0 []) true,
      .apdu (apdu 3 2 b!"Casper Message:\nhi") true, .setExpert true, .approve]).2.getLast? =
    some (.reply (samplePath 4 ++ 0x53 :: b!"Casper Message:\nhi") 0x9000) := by decide +kernel

/-! ### C33 -/

/-- Same data, same path, same review; only the command buffer, the answer length and the chunk counter differ. -/
def SameReview (d d' : Dev) : Prop := d' = { d with io := d'.io, tx := d'.tx, wasmCounter := d'.wasmCounter }

theorem SameReview.trans {a b c : Dev} (h : SameReview a b) (h' : SameReview b c) : SameReview a c := by
  unfold SameReview at *; rw [h', h]

/-- Commands that cannot change a review: without PIN, GET_VERSION, unknown instructions, and, when the session is
closed, everything except GET_ADDR and INIT. -/
def Harmless (d : Dev) : Event → Prop
  | .apdu rx pin => pin = false ∨ rx.getD 1 0 = 0 ∨ 4 < rx.getD 1 0 ∨
      (d.txInit = false ∧ rx.getD 1 0 ≠ 1 ∧ rx.getD 2 0 ≠ 0)
  | .setExpert _ => True
  | _ => False

theorem harmless_apdu (d : Dev) (rx : Bytes) (pin : Bool) : Harmless d (.apdu rx pin) =
    (pin = false ∨ rx.getD 1 0 = 0 ∨ 4 < rx.getD 1 0 ∨ (d.txInit = false ∧ rx.getD 1 0 ≠ 1 ∧ rx.getD 2 0 ≠ 0)) := rfl

theorem harmless_step {pl : Platform} {d : Dev} {r : Review} (hr : d.review = some r) {ev : Event}
    (h : Harmless d ev) : SameReview d (step pl d ev).1 := by
  cases ev with
  | approve => exact h.elim
  | reject => exact h.elim
  | setExpert b => unfold step; rw [hr]; rfl
  | apdu rx pin =>
    rw [step_outOf]
    rcases dispatch_cases pl d rx pin with ⟨x, hx, hx'⟩ | ⟨-, -, hc⟩
    · rw [hx]; rfl
    rcases hc with ⟨hi, hc⟩ | ⟨hp, hi, hc⟩ | ⟨hp, hi, hc⟩ | ⟨hp, hi, hc⟩ | ⟨hp, hi, hc⟩ <;> rw [hc]
    · rfl
    · rw [harmless_apdu, hi, hp] at h; exact absurd h (by simp)
    all_goals
      rw [harmless_apdu, hi, hp] at h
      have hcl : d.txInit = false ∧ rx.getD 2 0 ≠ 0 := by
        rcases h with h | h | h | h
        · exact absurd h (by decide)
        · exact absurd h (by decide)
        · exact absurd h (by decide)
        · exact ⟨h.1, h.2.2⟩
    · have : ∃ x, processChunk pl rx (d.recv rx) = .err x (d.recv rx) := by
        unfold processChunk
        simp only [bind_run, require_run]
        by_cases h3 : rx.getD 3 0 = 0
        case neg => rw [if_neg h3]; exact ⟨_, rfl⟩
        by_cases hl : rx.length ≥ 5
        case neg => rw [if_pos h3, Res.bind_ok, if_neg hl]; exact ⟨_, rfl⟩
        rw [if_pos h3, Res.bind_ok, if_pos hl, Res.bind_ok, if_neg hcl.2]
        have ht : (d.recv rx).txInit = false := hcl.1
        split
        · simp only [bind_run, get_run, Res.bind_ok, require_run, ht]; exact ⟨_, rfl⟩
        · simp only [bind_run, modify_run, Res.bind_ok, fail_run]
          exact ⟨0x6B00, by rw [← ht]⟩
      obtain ⟨x, hx⟩ := this
      rw [handleSign, bind_run, hx]; rfl
    · have : ∃ x, processChunk pl rx (d.recv rx) = .err x (d.recv rx) := by
        unfold processChunk
        simp only [bind_run, require_run]
        by_cases h3 : rx.getD 3 0 = 0
        case neg => rw [if_neg h3]; exact ⟨_, rfl⟩
        by_cases hl : rx.length ≥ 5
        case neg => rw [if_pos h3, Res.bind_ok, if_neg hl]; exact ⟨_, rfl⟩
        rw [if_pos h3, Res.bind_ok, if_pos hl, Res.bind_ok, if_neg hcl.2]
        have ht : (d.recv rx).txInit = false := hcl.1
        split
        · simp only [bind_run, get_run, Res.bind_ok, require_run, ht]; exact ⟨_, rfl⟩
        · simp only [bind_run, modify_run, Res.bind_ok, fail_run]
          exact ⟨0x6B00, by rw [← ht]⟩
      obtain ⟨x, hx⟩ := this
      rw [handleSignMessage, bind_run, hx]; rfl
    · rw [handleSignWasm, bind_run, modify_run, Res.bind_ok, bind_run]
      have ht : ({ d.recv rx with wasmCounter := u32 ((d.recv rx).wasmCounter + 1) } : Dev).txInit = false := hcl.1
      have hS : SameReview d { d.recv rx with wasmCounter := u32 ((d.recv rx).wasmCounter + 1) } := rfl
      generalize ({ d.recv rx with wasmCounter := u32 ((d.recv rx).wasmCounter + 1) } : Dev) = s at ht hS
      have : ∃ x, processWasmChunk pl rx s = .err x s := by
        unfold processWasmChunk
        simp only [bind_run, require_run]
        by_cases h3 : rx.getD 3 0 = 0
        case neg => rw [if_neg h3]; exact ⟨_, rfl⟩
        by_cases hl : rx.length ≥ 5
        case neg => rw [if_pos h3, Res.bind_ok, if_neg hl]; exact ⟨_, rfl⟩
        rw [if_pos h3, Res.bind_ok, if_pos hl, Res.bind_ok, if_neg hcl.2]
        split
        · simp only [bind_run, get_run, Res.bind_ok, require_run, ht]; exact ⟨_, rfl⟩
        · simp only [bind_run, modify_run, Res.bind_ok, fail_run]
          exact ⟨0x6B00, by rw [← ht]⟩
      obtain ⟨x, hx⟩ := this
      rw [hx]; exact hS

theorem SameReview.harmless {d d' : Dev} (h : SameReview d d') {ev : Event} (hh : Harmless d ev) : Harmless d' ev := by
  have : d'.txInit = d.txInit := by rw [h]
  cases ev <;> simp only [Harmless, this] at hh ⊢ <;> exact hh

/-- **C33, harmless commands.** While a transaction, message or WASM review is shown, any sequence of commands sent to a
locked device, GET_VERSION, unknown instructions and, once the session is closed (always so after SIGN and raw WASM),
further chunks: what the screen shows, and the answer to the approval (so the signature), stay exactly the same.
Missing from the full property: INIT, GET_ADDR, and further chunks of a message, see `C33_review_false`. -/
theorem C33_review_partial (pl : Platform) (d : Dev) (r : Review) (hr : d.review = some r) (hra : r ≠ .address)
    (evs : List Event) (hev : ∀ ev ∈ evs, Harmless d ev) :
    (run pl d evs).1.review = some r ∧ (run pl d evs).1.data = d.data ∧ (run pl d evs).1.hdPath = d.hdPath ∧
    (step pl (run pl d evs).1 .approve).2 = (step pl d .approve).2 ∧
    reviewCount pl (run pl d evs).1 r = reviewCount pl d r ∧
    ∀ idx, reviewItem pl (run pl d evs).1 r idx = reviewItem pl d r idx := by
  have hS : SameReview d (run pl d evs).1 := by
    induction evs generalizing d with
    | nil => rfl
    | cons ev evs ih =>
      have h1 := harmless_step (pl := pl) hr (hev ev (by simp))
      refine h1.trans (ih _ (by rw [h1]; exact hr) fun e he => h1.harmless (hev e (by simp [he])))
  rw [hS]
  refine ⟨hr, rfl, rfl, ?_, ?_, fun idx => ?_⟩
  · unfold step
    dsimp only
    rw [hr]
    have : ∀ i t w, (appSign pl { d with io := i, tx := t, wasmCounter := w, review := none }).2 =
        (appSign pl { d with review := none }).2 := by
      intro i t w
      unfold appSign
      show (match signedBytes pl { d with review := none } with | .fault f => _ | .err _ _ => _ | .ok bytes _ => _ : Dev × Out).2 = _
      cases signedBytes pl { d with review := none } with
      | ok a s => dsimp only; cases pl.sign d.hdPath (pl.sha256 a) <;> rfl
      | err x s => rfl
      | fault f => rfl
    cases r with
    | address => exact absurd rfl hra
    | tx => exact this _ _ _
    | message => exact this _ _ _
    | wasm => exact this _ _ _
  · cases r <;> first | rfl | exact absurd rfl hra
  · cases r <;> first | rfl | exact absurd rfl hra

/-- **C33 fails.** While the message "A" is on the screen, the host starts another upload (without LAST): the approval
signs "B".  And a GET_ADDR without display during the review changes the key used. -/
theorem C33_review_false :
    (run samplePl (Dev.init samplePl) [.apdu (apdu 3 0 (samplePath 0)) true,
      .apdu (apdu 3 2 b!"Casper Message:\nA") true, .apdu (apdu 3 0 (samplePath 0)) true,
      .apdu (apdu 3 1 b!"B") true, .approve]).2 =
    [.reply [] 0x9000, .pending, .reply [] 0x9000, .reply [] 0x9000, .reply (samplePath 0 ++ [0x53, 0x42]) 0x9000] ∧
    (run samplePl (Dev.init samplePl) [.apdu (apdu 3 0 (samplePath 0)) true,
      .apdu (apdu 3 2 b!"Casper Message:\nA") true, .apdu (apdu 1 0 (samplePath 1)) true, .approve]).2.getLast? =
    some (.reply (samplePath 1 ++ 0x53 :: b!"Casper Message:\nA") 0x9000) := by
  decide +kernel

example : (run samplePl (Dev.init samplePl) [.apdu (apdu 3 0 (samplePath 0)) true,
      .apdu (apdu 3 2 b!"Casper Message:\nA") true, .apdu (apdu 0 0 []) true, .apdu (apdu 3 0 (samplePath 1)) false,
      .apdu (apdu 7 0 []) true, .approve]).2.getLast? =
    some (.reply (samplePath 0 ++ 0x53 :: b!"Casper Message:\nA") 0x9000) := by decide +kernel

/-! ### C21 -/

/-- The address text of a 33-byte public key: "02", then the key in hexadecimal with the letter case given by its
BLAKE2b hash. -/
def addressText (H : Hash) (k : Bytes) : Bytes := b!"02" ++ casedHex (H k) k

theorem encodeAddr_two (H : Hash) (k : Bytes) : encodeAddr H (2 :: k) = addressText H k := by
  unfold addressText
  rw [← C20_checksum_hex]; rfl

theorem addressAnswer_some {pl : Platform} {p k : Bytes} (h : pl.pubKey p = some k) :
    addressAnswer pl p = some (k ++ addressText pl.blake k) := by
  unfold addressAnswer; rw [h, Option.map_some, encodeAddr_two]

/-- **C21.** GET_ADDR with a Casper path whose 33-byte public key is `k`: the answer is `k` followed by its address text,
101 bytes.  Without P1 it comes at once; with P1 the address is shown first, the text on the screen is the very text of
the answer, and the answer comes with the approval. -/
theorem C21_address (pl : Platform) (d : Dev) (rx k : Bytes) (p1 : UInt8) (hc : Chunk 1 p1 rx) (hl : 25 ≤ rx.length)
    (hp : casperPath (pathOf rx)) (hk : pl.pubKey (pathOf rx) = some k) (hk33 : k.length = 33) :
    (k ++ addressText pl.blake k).length = 101 ∧
    (p1 = 0 → (step pl d (.apdu rx true)).2 = .reply (k ++ addressText pl.blake k) 0x9000) ∧
    (p1 ≠ 0 → (step pl d (.apdu rx true)).2 = .pending ∧
      (step pl d (.apdu rx true)).1.review = some .address ∧
      reviewItem pl (step pl d (.apdu rx true)).1 .address 0 0 = .ok (b!"Address", addressText pl.blake k) 0 ∧
      (step pl (step pl d (.apdu rx true)).1 .approve).2 = .reply (k ++ addressText pl.blake k) 0x9000) := by
  have hlen : (k ++ addressText pl.blake k).length = 101 := by
    simp only [addressText, List.length_append, casedHex_length, hk33]; rfl
  have ha := addressAnswer_some hk
  have hdis : dispatch pl rx true (d.recv rx) = handleGetAddr pl rx (d.recv rx) := by
    rw [dispatch_eq pl d rx true hc.len hc.cla, hc.ins]; rfl
  have h1 := hc.p1
  refine ⟨hlen, fun h => ?_, fun h => ?_⟩
  · rw [step_apdu, hdis]
    have hcase := handleGetAddr_case pl rx (d.recv rx)
    generalize handleGetAddr pl rx (d.recv rx) = r at hcase
    cases hcase with
    | short => omega
    | path _ hp' => exact absurd hp hp'
    | none _ _ hn => rw [show (rx.drop 5).take 20 = pathOf rx from rfl, hk] at hn; simp at hn
    | «show» a _ _ _ hs => rw [h1] at hs; exact absurd h hs
    | reply a _ _ hr =>
      rw [show (rx.drop 5).take 20 = pathOf rx from rfl, ha] at hr
      simp only [Option.some.injEq] at hr
      subst hr
      show Out.reply ((poke _ _).take 101) _ = _
      rw [← hlen, poke_take]
  · have hgo : handleGetAddr pl rx (d.recv rx) = .ok () { d.recv rx with
        hdPath := pathOf rx, io := poke (List.replicate 260 0) (k ++ addressText pl.blake k), addrLen := 101,
        review := some .address } := by
      have hcase := handleGetAddr_case pl rx (d.recv rx)
      generalize handleGetAddr pl rx (d.recv rx) = r at hcase
      cases hcase with
      | short => omega
      | path _ hp' => exact absurd hp hp'
      | none _ _ hn => rw [show (rx.drop 5).take 20 = pathOf rx from rfl, hk] at hn; simp at hn
      | reply a _ _ _ hs => rw [h1] at hs; exact absurd hs h
      | «show» a _ _ hr =>
        rw [show (rx.drop 5).take 20 = pathOf rx from rfl, ha] at hr
        simp only [Option.some.injEq] at hr
        subst hr
        rfl
    rw [step_apdu, hdis, hgo]
    refine ⟨rfl, rfl, ?_, ?_⟩
    · show addrItem pl _ 0 0 = _
      unfold addrItem
      rw [if_pos rfl]
      have : (poke (List.replicate 260 0) (k ++ addressText pl.blake k)).take 33 = k := by
        unfold poke
        rw [List.append_assoc, ← hk33, List.take_left']
        rfl
      dsimp only
      rw [this, encodeAddr_two]; rfl
    · show Out.reply ((poke _ _).take 101) _ = _
      rw [← hlen, poke_take]

/-- **C21, the screens.** The review of an address has the line "Address" and in expert mode also the line "Path" with the path of the command; no other line. -/
theorem C21_screens (pl : Platform) (d : Dev) (rx k : Bytes) (p1 : UInt8) (hc : Chunk 1 p1 rx) (hl : 25 ≤ rx.length)
    (hp : casperPath (pathOf rx)) (hk : pl.pubKey (pathOf rx) = some k) (hk33 : k.length = 33) (h1 : p1 ≠ 0) (s : Nat) :
    let d' := (step pl d (.apdu rx true)).1
    let lines := [(b!"Address", addressText pl.blake k)] ++ if d.expert then [(b!"Path", pl.pathText (pathOf rx))] else []
    reviewCount pl d' .address s = .ok lines.length s ∧ ∀ i, i < 256 → reviewItem pl d' .address i s = match lines[i]? with
      | some line => .ok line s
      | none => .err 1 s := by
  have ha := addressAnswer_some hk
  have hgo : handleGetAddr pl rx (d.recv rx) = .ok () { d.recv rx with
      hdPath := pathOf rx, io := poke (List.replicate 260 0) (k ++ addressText pl.blake k), addrLen := 101,
      review := some .address } := by
    have hcase := handleGetAddr_case pl rx (d.recv rx)
    generalize handleGetAddr pl rx (d.recv rx) = r at hcase
    cases hcase with
    | short => omega
    | path _ hp' => exact absurd hp hp'
    | none _ _ hn => rw [show (rx.drop 5).take 20 = pathOf rx from rfl, hk] at hn; simp at hn
    | reply a _ _ _ hs => rw [hc.p1] at hs; exact absurd hs h1
    | «show» a _ _ hr =>
      rw [show (rx.drop 5).take 20 = pathOf rx from rfl, ha] at hr
      simp only [Option.some.injEq] at hr
      subst hr
      rfl
  have hdis : dispatch pl rx true (d.recv rx) = handleGetAddr pl rx (d.recv rx) := by
    rw [dispatch_eq pl d rx true hc.len hc.cla, hc.ins]; rfl
  have hio : (poke (List.replicate 260 0) (k ++ addressText pl.blake k)).take 33 = k := by
    unfold poke
    rw [List.append_assoc, ← hk33, List.take_left']
    rfl
  have hexp : (d.recv rx).expert = d.expert := rfl
  intro d' lines
  have hd' : d' = { d.recv rx with hdPath := pathOf rx, io := poke (List.replicate 260 0) (k ++ addressText pl.blake k), addrLen := 101, review := some .address } := by
    show (step pl d (.apdu rx true)).1 = _
    rw [step_apdu, hdis, hgo]
  rw [hd']
  refine ⟨?_, fun i hi => ?_⟩
  · show (pure (if d.expert then 2 else 1) : P Nat) s = _
    rw [pure_run]
    show _ = Res.ok ([(b!"Address", addressText pl.blake k)] ++ if d.expert then [(b!"Path", pl.pathText (pathOf rx))] else []).length s
    cases d.expert <;> rfl
  · show addrItem pl _ (u8 i) s = _
    rw [show u8 i = i from Nat.mod_eq_of_lt hi]
    unfold addrItem
    dsimp only
    rw [hexp, hio]
    show _ = match ([(b!"Address", addressText pl.blake k)] ++ if d.expert then [(b!"Path", pl.pathText (pathOf rx))] else [])[i]? with
      | some line => Res.ok line s
      | none => .err 1 s
    rcases i with _ | _ | i
    · rw [if_pos rfl, encodeAddr_two]; rfl
    · cases d.expert <;> rfl
    · cases d.expert <;> rfl

example : (run samplePl (Dev.init samplePl) [.apdu (apdu 1 0 (samplePath 0)) true, .apdu (apdu 1 1 (samplePath 0)) true,
    .approve]).2 =
    let a := 3 :: samplePath 0 ++ List.replicate 12 7 ++
      b!"02032C000080fa010080000000800000000000000000070707070707070707070707"
    [.reply a 0x9000, .pending, .reply a 0x9000] := by decide +kernel

example :
    let d := (run samplePl (Dev.init samplePl) [.setExpert true, .apdu (apdu 1 1 (samplePath 0)) true]).1
    reviewCount samplePl d .address 0 = .ok 2 0 ∧
    reviewItem samplePl d .address 1 0 = .ok (b!"Path", samplePl.pathText (samplePath 0)) 0 := by decide +kernel

/-- The address of the repository's own test device (`tests_zemu/tests/standard.test.ts:25`). -/
example : addressText Blake.H [0x02, 0x8b, 0x2d, 0xdb, 0xe5, 0x99, 0x76, 0xad, 0x2f, 0x41, 0x38, 0xca, 0x46, 0x55, 0x38, 0x66, 0xde, 0x51, 0x24, 0xd1, 0x3d, 0xb4, 0xe1, 0x36, 0x11, 0xca, 0x75, 0x1e, 0xed, 0xde, 0x9e, 0x02, 0x97] =
    b!"02028b2ddbe59976AD2f4138CA46553866De5124d13dB4e13611CA751EeddE9E0297" := by
  rw [← encodeAddr_two]; decide +kernel

end Casper
