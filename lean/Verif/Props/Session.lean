import Verif.Lib.Device
import Verif.Lib.Sample
/-
C25..C35: upload sessions, reviews, status words.

A state is arbitrary up to `Dev.Ok` (buffer of fixed size, fill level inside), which holds in every reachable state
(`Dev.Ok.init`, `Dev.Ok.run`).  An event that crashes (undefined behaviour) leaves the model's state as it was; the
statements about histories are meant for histories without crash.
-/
namespace Casper
open M

/-! ### C25 -/

theorem parserInit_ok {d d' : Dev} {u : Unit} (h : parserInit d = .ok u d') :
    u16 d.pos ≠ 0 ∧ d' = { d with ctx := { d.ctx with start := 0, len := u16 d.pos }, epo := 0 } := by
  unfold parserInit at h
  split at h
  · simp at h
  · rename_i hp
    simp only [Res.ok.injEq] at h
    exact ⟨hp, h.2.symm⟩

theorem runP_ok {α : Type} {pl : Platform} {m : Env → P α} {d d' : Dev} {a : α} (h : runP pl m d = .ok a d') :
    d' = d ∧ ∃ off, m (d.env pl) 0 = .ok a off := by
  unfold runP at h
  split at h
  · rename_i x y hm
    simp only [Res.ok.injEq] at h
    obtain ⟨rfl, rfl⟩ := h
    exact ⟨rfl, y, hm⟩
  · simp at h
  · simp at h

theorem runP_err {α : Type} {pl : Platform} {m : Env → P α} {d : Dev} {x off : Nat}
    (h : m (d.env pl) 0 = .err x off) : runP pl m d = .err x d := by
  unfold runP; rw [h]

theorem checkMessage_err {e : Env} (h : ¬ b!"Casper Message:\n" <+: e.buf) :
    checkMessage e 0 = .err (if e.buf.length < 16 then 12 else 24) 0 := by
  unfold checkMessage
  split
  · rfl
  · rw [require_run, if_neg]
    intro h'
    exact h ⟨e.buf.drop 16, by
      rw [show b!"Casper Message:\n" = messagePrefix from rfl, ← h', List.take_append_drop]⟩

/-- `parse_message` accepts: what the buffer held, and the resulting state. -/
theorem parseMessage_ok {pl : Platform} {d d' : Dev} {u : Unit} (hd : d.Ok pl) (hcap : pl.cap < 65536)
    (h : parseMessage pl d = .ok u d') :
    16 ≤ d.pos ∧ d.data.take 16 = messagePrefix ∧
      d' = { d with ctx := { d.ctx with start := 0, len := d.pos, obj := .deploy }, epo := 0, dep := { kind := 1 } } := by
  have hpos : u16 d.pos = d.pos := Nat.mod_eq_of_lt (by have := hd.2; omega)
  unfold parseMessage at h
  simp only [bind_eq_ok, modify_eq_ok] at h
  obtain ⟨_, _, h1, _, _, rfl, _, _, h2, rfl⟩ := h
  obtain ⟨hp, rfl⟩ := parserInit_ok h1
  obtain ⟨rfl, off, h3⟩ := runP_ok h2
  rw [hpos] at h3 ⊢
  unfold checkMessage at h3
  split at h3
  · simp at h3
  · rename_i hl
    rw [require_eq_ok] at h3
    simp only [Dev.env, List.drop_zero, List.length_take] at hl h3
    refine ⟨by omega, h3.1, rfl⟩

/-- The state of the device when the LAST chunk `rx` of a message has been stored. -/
theorem message_pending {pl : Platform} {d d' : Dev} {rx : Bytes} {pin : Bool} (hd : d.Ok pl) (hcap : pl.cap < 65536)
    (hins : rx.getD 1 0 = 3) (h : step pl d (.apdu rx pin) = (d', .pending)) :
    rx.getD 2 0 = 2 ∧ d.txInit = true ∧ 16 ≤ d'.pos ∧ d'.data = d.data ++ rx.drop 5 ∧ d'.data.take 16 = messagePrefix ∧
      d'.Ok pl ∧ d' = { (d.recv rx).store (rx.drop 5) with
        ctx := { d.ctx with start := 0, len := d'.pos, obj := .deploy }, epo := 0, dep := { kind := 1 },
        review := some .message } := by
  rw [step_apdu] at h
  split at h
  · rename_i u d1 hdis
    simp only [Prod.mk.injEq, and_true] at h
    subst h
    obtain ⟨hl, h0, hp, hcase⟩ := dispatch_pending hdis
    simp only [hins] at hcase
    have hcase : handleSignMessage pl rx (d.recv rx) = .ok u d1 := by
      rcases hcase with h | h | h | h <;> first | exact h.2 | exact absurd h.1 (by decide)
    have hd' : (d.recv rx).Ok pl := hd
    obtain ⟨a1, a2, a3, a4, a5, d2, h2, rfl⟩ := handleSignMessage_ok hd'.2 hcase
    have hok := hd'.store a5
    obtain ⟨b1, b2, rfl⟩ := parseMessage_ok hok hcap h2
    have hdata := Dev.store_data hd' (rx.drop 5)
    refine ⟨a3, a4, b1, ?_, b2, hok, ?_⟩
    · exact hdata
    · rfl
  · simp at h
  · simp at h

/-- **C25.** A message review is offered only after a LAST chunk in an open session, and only if the bytes uploaded
since INIT start with "Casper Message:\n". -/
theorem C25_message_prefix (pl : Platform) (hcap : pl.cap < 65536) (d d' : Dev) (hd : d.Ok pl) (rx : Bytes) (pin : Bool)
    (hins : rx.getD 1 0 = 3) (h : step pl d (.apdu rx pin) = (d', .pending)) :
    rx.getD 2 0 = 2 ∧ d.txInit = true ∧ d'.review = some .message ∧
      d'.data = d.data ++ rx.drop 5 ∧ b!"Casper Message:\n" <+: d.data ++ rx.drop 5 := by
  obtain ⟨a1, a2, a3, a4, a5, -, a7⟩ := message_pending hd hcap hins h
  refine ⟨a1, a2, ?_, a4, ?_⟩
  · rw [a7]
  · rw [← a4]; exact ⟨d'.data.drop 16, by rw [show b!"Casper Message:\n" = messagePrefix from rfl, ← a5, List.take_append_drop]⟩

/-- A chunk with the given P1 on an unlocked device with P2 = 0. -/
structure Chunk (ins p1 : UInt8) (rx : Bytes) : Prop where
  cla : rx.getD 0 0 = 0x11
  ins : rx.getD 1 0 = ins
  p1 : rx.getD 2 0 = p1
  p2 : rx.getD 3 0 = 0
  len : 5 ≤ rx.length

theorem apdu_chunk (ins p1 : UInt8) (xs : Bytes) : Chunk ins p1 (apdu ins p1 xs) :=
  ⟨rfl, rfl, rfl, rfl, by simp [apdu]⟩

theorem apdu_drop (ins p1 : UInt8) (xs : Bytes) : (apdu ins p1 xs).drop 5 = xs := rfl

theorem dispatch_sign {pl : Platform} {d : Dev} {rx : Bytes} {p1 : UInt8} (h : Chunk 2 p1 rx) :
    dispatch pl rx true (d.recv rx) = handleSign pl rx (d.recv rx) := by
  rw [dispatch_eq pl d rx true h.len h.cla, h.ins]; rfl
theorem dispatch_message {pl : Platform} {d : Dev} {rx : Bytes} {p1 : UInt8} (h : Chunk 3 p1 rx) :
    dispatch pl rx true (d.recv rx) = handleSignMessage pl rx (d.recv rx) := by
  rw [dispatch_eq pl d rx true h.len h.cla, h.ins]; rfl
theorem dispatch_wasm {pl : Platform} {d : Dev} {rx : Bytes} {p1 : UInt8} (h : Chunk 4 p1 rx) :
    dispatch pl rx true (d.recv rx) = handleSignWasm pl rx (d.recv rx) := by
  rw [dispatch_eq pl d rx true h.len h.cla, h.ins]; rfl

theorem processChunk_stored {pl : Platform} {d : Dev} {ins p1 : UInt8} {rx : Bytes} (h : Chunk ins p1 rx)
    (hp : p1 = 1 ∨ p1 = 2) (ht : d.txInit = true) (hf : d.pos + (rx.drop 5).length ≤ pl.cap) :
    processChunk pl rx d = .ok (p1 == 2) (d.store (rx.drop 5)) := by
  have hc := processChunk_case pl rx d (by omega)
  have h1 := h.p1; have h2 := h.p2; have h3 := h.len
  generalize hr : processChunk pl rx d = r at hc
  cases hc with
  | p2 a => exact absurd h2 a
  | short a => omega
  | initShort a b => rw [b] at h1; rcases hp with rfl | rfl <;> simp at h1
  | initPath a b => rw [b] at h1; rcases hp with rfl | rfl <;> simp at h1
  | init a b => rw [b] at h1; rcases hp with rfl | rfl <;> simp at h1
  | notInit _ _ _ a => rw [ht] at a; simp at a
  | stored => rw [← h1]
  | full _ _ _ _ a => exact absurd hf a
  | p1 _ _ _ a b => rw [h1] at a b; rcases hp with rfl | rfl <;> contradiction

/-- **C25, refusals.** In an open session a LAST chunk that completes anything else is answered with 0x6984 and the
text of the specific error: empty (2), shorter than the prefix (12), other first bytes (24); no review is shown. -/
theorem C25_refused (pl : Platform) (hcap : pl.cap < 65536) (d : Dev) (hd : d.Ok pl) (rx : Bytes) (hc : Chunk 3 2 rx)
    (ht : d.txInit = true) (hf : d.pos + (rx.drop 5).length ≤ pl.cap)
    (hbad : ¬ b!"Casper Message:\n" <+: d.data ++ rx.drop 5) :
    (step pl d (.apdu rx true)).2 =
      .reply (errorText (if d.data ++ rx.drop 5 = [] then 2 else if (d.data ++ rx.drop 5).length < 16 then 12 else 24))
        0x6984 ∧
    (step pl d (.apdu rx true)).1.review = d.review := by
  rw [step_apdu, dispatch_message hc]
  unfold handleSignMessage
  rw [bind_run, processChunk_stored hc (.inr rfl) (d := d.recv rx) ht hf]
  simp only [Res.bind_ok, beq_self_eq_true, if_true]
  have hok : ((d.recv rx).store (rx.drop 5)).Ok pl := Dev.Ok.store (d := d.recv rx) hd hf
  have hdata : ((d.recv rx).store (rx.drop 5)).data = d.data ++ rx.drop 5 := Dev.store_data (d := d.recv rx) hd _
  have hrev : ((d.recv rx).store (rx.drop 5)).review = d.review := rfl
  generalize (d.recv rx).store (rx.drop 5) = s at hok hdata hrev
  rw [← hdata] at hbad ⊢
  have hpos : u16 s.pos = s.pos := Nat.mod_eq_of_lt (by have := hok.2; omega)
  have hdl : s.data.length = s.pos := by simp [Dev.data, hok.1]; have := hok.2; omega
  have key : ∃ s', parseMessage pl s = .err (if s.data = [] then 2 else if s.data.length < 16 then 12 else 24) s' ∧
      s'.review = s.review := by
    unfold parseMessage
    rw [bind_run, show parserInit s = if u16 s.pos = 0 then
      .err 2 { s with ctx := { s.ctx with start := 0, len := 0 } } else
      .ok () { s with ctx := { s.ctx with start := 0, len := u16 s.pos }, epo := 0 } from rfl, hpos]
    by_cases h0 : s.pos = 0
    · have : s.data = [] := by simp [Dev.data, h0]
      rw [if_pos h0, if_pos this]
      exact ⟨_, rfl, rfl⟩
    · have : s.data ≠ [] := by intro h; rw [h] at hdl; simp at hdl; omega
      rw [if_neg h0, if_neg this]
      simp only [Res.bind_ok, bind_run, modify_run]
      rw [runP_err (checkMessage_err (by exact hbad))]
      exact ⟨_, rfl, rfl⟩
  obtain ⟨s', hk, hr'⟩ := key
  unfold orExplain
  simp only [bind_run, attempt_run, hk, Res.bind_ok, modify_run, fail_run, Res.bind_err]
  exact ⟨by rw [poke_take], by rw [hr', hrev]⟩

example : ∃ d rx, d.Ok samplePl ∧ Chunk 3 2 rx ∧ (step samplePl d (.apdu rx true)).2 = .pending :=
  ⟨(run samplePl (Dev.init samplePl) [.apdu (apdu 3 0 (samplePath 0)) true]).1, apdu 3 2 b!"Casper Message:\nhi",
    (Dev.Ok.init _).run _, apdu_chunk _ _ _, by decide +kernel⟩

example : (run samplePl (Dev.init samplePl) [.apdu (apdu 3 0 (samplePath 0)) true,
    .apdu (apdu 3 2 b!"casper message:\nhi") true]).2 =
    [.reply [] 0x9000, .reply b!"Unrecognized error code" 0x6984] := by decide +kernel

/-! ### C26 -/

/-- **C26, no other event signs.** Whatever the signing function is, every event other than an approval has the same
effect and output: no signature can come from it. -/
theorem C26_only_approval_signs (pl : Platform) (sign' : Bytes → Bytes → Option Bytes) (d : Dev) (ev : Event)
    (h : ev ≠ .approve) : step { pl with sign := sign' } d ev = step pl d ev := by
  cases ev with
  | approve => exact absurd rfl h
  | apdu rx pin => rfl
  | reject => rfl
  | setExpert b => rfl

/-- **C26, whole histories.** A history without approval reveals nothing about any key. -/
theorem C26_no_approval_no_signature (pl : Platform) (sign' : Bytes → Bytes → Option Bytes) (d : Dev)
    (evs : List Event) (h : .approve ∉ evs) : run { pl with sign := sign' } d evs = run pl d evs := by
  induction evs generalizing d with
  | nil => rfl
  | cons ev evs ih =>
    simp only [List.mem_cons, not_or] at h
    simp only [run, C26_only_approval_signs pl sign' d ev (fun e => h.1 e.symm), ih _ h.2]

/-- **C26, one per review.** An approval without pending review does nothing; approving or rejecting ends the review,
so a second approval does nothing. -/
theorem C26_one_per_review (pl : Platform) (d : Dev) :
    (d.review = none → step pl d .approve = (d, .silent)) ∧
    (step pl d .approve).1.review = none ∧ (step pl d .reject).1.review = none := by
  refine ⟨fun h => by simp [step, h], ?_, ?_⟩
  · unfold step
    cases hr : d.review with
    | none => exact hr
    | some r =>
      obtain ⟨i, hi⟩ := appSign_state pl { d with review := none }
      cases r <;> first | rfl | (show (appSign pl { d with review := none }).1.review = none; rw [hi])
  · unfold step
    cases hr : d.review with
    | none => exact hr
    | some r => rfl

/-- The instruction that offers a review. -/
def insOf : Review → UInt8
  | .address => 1
  | .tx => 2
  | .message => 3
  | .wasm => 4

theorem pending_review {pl : Platform} {d : Dev} {rx : Bytes} {pin : Bool} (hd : d.pos ≤ pl.cap)
    (h : (step pl d (.apdu rx pin)).2 = .pending) :
    ∃ r, (step pl d (.apdu rx pin)).1.review = some r ∧ pin = true ∧ rx.getD 1 0 = insOf r ∧
      (r ≠ .address → rx.getD 2 0 = 2 ∧ rx.getD 3 0 = 0 ∧ d.txInit = true) := by
  rw [step_apdu] at h ⊢
  split at h
  · rename_i u d' hdis
    obtain ⟨-, -, hp, hcase⟩ := dispatch_pending hdis
    have hd' : (d.recv rx).pos ≤ pl.cap := hd
    rcases hcase with ⟨hi, hc⟩ | ⟨hi, hc⟩ | ⟨hi, hc⟩ | ⟨hi, hc⟩
    · obtain ⟨-, -, -, a, -, rfl⟩ := handleGetAddr_ok hc
      exact ⟨.address, rfl, hp, hi, fun h => absurd rfl h⟩
    · obtain ⟨a1, a2, a3, a4, a5, d2, -, rfl⟩ := handleSign_ok hd' hc
      exact ⟨.tx, rfl, hp, hi, fun _ => ⟨a3, a1, a4⟩⟩
    · obtain ⟨a1, a2, a3, a4, a5, d2, -, rfl⟩ := handleSignMessage_ok hd' hc
      exact ⟨.message, rfl, hp, hi, fun _ => ⟨a3, a1, a4⟩⟩
    · obtain ⟨a1, a2, a3, a4, d1, d2, -, -, -, rfl⟩ := handleSignWasm_ok hc
      exact ⟨.wasm, rfl, hp, hi, fun _ => ⟨a3, a1, a4⟩⟩
  · simp at h
  · simp at h

/-- A command that is not answered by opening a review leaves the pending review as it is, or (raw WASM, LAST) takes it
off the screen. -/
def NoNew (d d' : Dev) : Prop := d'.review = d.review ∨ d'.review = none

theorem NoNew.trans (a b c : Dev) (h : NoNew a b) (h' : NoNew b c) : NoNew a c := by
  rcases h' with h' | h' <;> rcases h with h | h <;> simp only [NoNew, h', h] <;> simp

theorem noNew_elementary (pl : Platform) : Elementary pl NoNew where
  refl _ := .inl rfl
  trans := NoNew.trans
  core d d' h := by unfold SameCore at h; rw [h]; exact .inl rfl
  pos _ := .inl rfl
  path _ _ := .inl rfl
  init _ _ := .inl rfl
  store _ _ _ := .inl rfl
  wasm _ _ _ := .inl rfl
  idle _ := .inr rfl
  io _ _ _ _ _ := .inl rfl

/-- **C26, origin of a review.** In every history from power-on, a pending review was opened by a command with its
instruction, on an unlocked device, with no decision since; a signing review by a LAST chunk in an open session. -/
theorem C26_review_origin (pl : Platform) (evs : List Event) (r : Review)
    (h : (run pl (Dev.init pl) evs).1.review = some r) :
    ∃ pre rx post, evs = pre ++ .apdu rx true :: post ∧
      (step pl (run pl (Dev.init pl) pre).1 (.apdu rx true)).2 = .pending ∧
      rx.getD 1 0 = insOf r ∧
      (r ≠ .address → rx.getD 2 0 = 2 ∧ rx.getD 3 0 = 0 ∧ (run pl (Dev.init pl) pre).1.txInit = true) ∧
      (∀ ev ∈ post, ev ≠ .approve ∧ ev ≠ .reject) := by
  induction evs using list_snoc generalizing r with
  | nil => simp [run, Dev.init] at h
  | snoc evs ev ih =>
    rw [run_append] at h
    simp only [run] at h
    have hd := (Dev.Ok.init pl).run evs
    have extend : (run pl (Dev.init pl) evs).1.review = some r → (ev ≠ .approve ∧ ev ≠ .reject) →
        ∃ pre rx post, evs ++ [ev] = pre ++ .apdu rx true :: post ∧
      (step pl (run pl (Dev.init pl) pre).1 (.apdu rx true)).2 = .pending ∧
      rx.getD 1 0 = insOf r ∧
      (r ≠ .address → rx.getD 2 0 = 2 ∧ rx.getD 3 0 = 0 ∧ (run pl (Dev.init pl) pre).1.txInit = true) ∧
      (∀ ev ∈ post, ev ≠ .approve ∧ ev ≠ .reject) := by
      intro hr hev
      obtain ⟨pre, rx, post, h1, h2, h3, h4, h5⟩ := ih r hr
      refine ⟨pre, rx, post ++ [ev], by simp [h1], h2, h3, h4, ?_⟩
      intro e he
      simp only [List.mem_append, List.mem_singleton] at he
      rcases he with he | rfl
      · exact h5 e he
      · exact hev
    cases ev with
    | approve => rw [(C26_one_per_review pl _).2.1] at h; simp at h
    | reject => rw [(C26_one_per_review pl _).2.2] at h; simp at h
    | setExpert b =>
      apply extend _ (by simp)
      rw [← h]; unfold step; dsimp only; split <;> rfl
    | apdu rx pin =>
      by_cases hp : (step pl (run pl (Dev.init pl) evs).1 (.apdu rx pin)).2 = .pending
      · obtain ⟨r', a1, rfl, a3, a4⟩ := pending_review hd.2 hp
        rw [a1] at h
        simp only [Option.some.injEq] at h
        subst h
        exact ⟨evs, rx, [], rfl, hp, a3, a4, by simp⟩
      · rcases (noNew_elementary pl).step_closed _ rx pin hp with h' | h'
        · exact extend (h' ▸ h) (by simp)
        · rw [h'] at h; simp at h

/-- **C26, parsed and validated (transactions, messages).** The review of a transaction is opened only if `tx_parse`
accepted exactly the bytes uploaded since INIT; that of a message only if `tx_parse_message` did. -/
theorem C26_review_of_accepted_data (pl : Platform) (d : Dev) (hd : d.Ok pl) (rx : Bytes) (pin : Bool)
    (h : (step pl d (.apdu rx pin)).2 = .pending) :
    (rx.getD 1 0 = 2 → ∃ s t, s.data = d.data ++ rx.drop 5 ∧ txParse pl s = .ok () t ∧
      (step pl d (.apdu rx pin)).1 = { t with review := some .tx }) ∧
    (rx.getD 1 0 = 3 → ∃ s t, s.data = d.data ++ rx.drop 5 ∧ parseMessage pl s = .ok () t ∧
      (step pl d (.apdu rx pin)).1 = { t with review := some .message }) := by
  have hd' : (d.recv rx).Ok pl := hd
  rw [step_apdu] at h ⊢
  split at h
  · rename_i u d' hdis
    obtain ⟨-, -, hp, hcase⟩ := dispatch_pending hdis
    constructor
    · intro hi
      rw [hi] at hcase
      have hc : handleSign pl rx (d.recv rx) = .ok u d' := by
        rcases hcase with h | h | h | h <;> first | exact h.2 | exact absurd h.1 (by decide)
      obtain ⟨a1, a2, a3, a4, a5, d2, h2, rfl⟩ := handleSign_ok hd'.2 hc
      exact ⟨{ (d.recv rx).store (rx.drop 5) with txInit := false }, d2, Dev.store_data hd' _, h2, rfl⟩
    · intro hi
      rw [hi] at hcase
      have hc : handleSignMessage pl rx (d.recv rx) = .ok u d' := by
        rcases hcase with h | h | h | h <;> first | exact h.2 | exact absurd h.1 (by decide)
      obtain ⟨a1, a2, a3, a4, a5, d2, h2, rfl⟩ := handleSignMessage_ok hd'.2 hc
      exact ⟨_, d2, Dev.store_data hd' _, h2, rfl⟩
  · simp at h
  · simp at h

/-- A history with a message review that was opened and approved: the signature comes out once. -/
example : (run samplePl (Dev.init samplePl) [.apdu (apdu 3 0 (samplePath 0)) true,
    .apdu (apdu 3 1 b!"Casper Mess") true, .apdu (apdu 3 2 b!"age:\nhi") true, .approve, .approve]).2 =
    [.reply [] 0x9000, .reply [] 0x9000, .pending, .reply (samplePath 0 ++ 0x53 :: b!"Casper Message:\nhi") 0x9000,
     .silent] := by decide +kernel

/-! ### C27 -/

theorem processChunk_notInit {pl : Platform} {d : Dev} {ins p1 : UInt8} {rx : Bytes} (h : Chunk ins p1 rx)
    (hp : p1 = 1 ∨ p1 = 2) (ht : d.txInit = false) : processChunk pl rx d = .err 0x6987 d := by
  unfold processChunk
  have h1 := h.p1
  have hp' : p1 ≠ 0 := by rcases hp with rfl | rfl <;> decide
  simp only [bind_run, require_run, if_pos h.p2, if_pos h.len, Res.bind_ok, h1, if_neg hp', if_pos hp, get_run, ht]
  rfl

theorem processWasmChunk_notInit {pl : Platform} {d : Dev} {ins p1 : UInt8} {rx : Bytes} (h : Chunk ins p1 rx)
    (hp : p1 = 1 ∨ p1 = 2) (ht : d.txInit = false) : processWasmChunk pl rx d = .err 0x6987 d := by
  unfold processWasmChunk
  have h1 := h.p1
  have hp' : p1 ≠ 0 := by rcases hp with rfl | rfl <;> decide
  simp only [bind_run, require_run, if_pos h.p2, if_pos h.len, Res.bind_ok, h1, if_neg hp', if_pos hp, get_run, ht]
  rfl

/-- **C27.** Without an open session an ADD or LAST chunk of any of the three signing instructions is answered with
0x6987 and no data; only the command buffer changes (and, for raw WASM, the chunk counter of the progress text). -/
theorem C27_refused (pl : Platform) (d : Dev) (ins p1 : UInt8) (rx : Bytes) (hc : Chunk ins p1 rx)
    (hi : ins = 2 ∨ ins = 3 ∨ ins = 4) (hp : p1 = 1 ∨ p1 = 2) (ht : d.txInit = false) :
    ∃ n, step pl d (.apdu rx true) =
      ({ d with io := poke d.io rx, tx := 0, wasmCounter := n }, .reply [] 0x6987) ∧ (ins ≠ 4 → n = d.wasmCounter) := by
  have ht' : (d.recv rx).txInit = false := ht
  rcases hi with rfl | rfl | rfl
  · refine ⟨d.wasmCounter, ?_, fun _ => rfl⟩
    rw [step_apdu, dispatch_sign hc, handleSign, bind_run, processChunk_notInit hc hp ht']
    rfl
  · refine ⟨d.wasmCounter, ?_, fun _ => rfl⟩
    rw [step_apdu, dispatch_message hc, handleSignMessage, bind_run, processChunk_notInit hc hp ht']
    rfl
  · refine ⟨u32 (d.wasmCounter + 1), ?_, fun h => absurd rfl h⟩
    rw [step_apdu, dispatch_wasm hc, handleSignWasm]
    simp only [bind_run, modify_run, Res.bind_ok]
    rw [processWasmChunk_notInit hc hp (by exact ht')]
    rfl

/-- A command that would open a session: INIT of one of the three signing instructions. -/
def isInit (rx : Bytes) : Prop := (rx.getD 1 0 = 2 ∨ rx.getD 1 0 = 3 ∨ rx.getD 1 0 = 4) ∧ rx.getD 2 0 = 0

/-- Outcome of a signing command that is not INIT, without open session: an error that opens nothing. -/
theorem closed_handlers {pl : Platform} {d : Dev} {rx : Bytes} (hd : d.pos ≤ pl.cap) (ht : d.txInit = false)
    (hp : rx.getD 2 0 ≠ 0) :
    (∃ x t, processChunk pl rx d = .err x t ∧ t.txInit = false ∧ t.review = d.review ∧ x ≠ 0x9000) ∧
    (∃ x t, processWasmChunk pl rx d = .err x t ∧ t.txInit = false ∧ t.review = d.review ∧ x ≠ 0x9000) := by
  by_cases h3 : rx.getD 3 0 = 0
  case neg =>
    unfold processChunk processWasmChunk
    simp only [bind_run, require_run, if_neg h3, Res.bind_err]
    exact ⟨⟨_, _, rfl, ht, rfl, by decide⟩, ⟨_, _, rfl, ht, rfl, by decide⟩⟩
  by_cases hl : rx.length ≥ 5
  case neg =>
    unfold processChunk processWasmChunk
    simp only [bind_run, require_run, if_pos h3, if_neg hl, Res.bind_err, Res.bind_ok]
    exact ⟨⟨_, _, rfl, ht, rfl, by decide⟩, ⟨_, _, rfl, ht, rfl, by decide⟩⟩
  by_cases h12 : rx.getD 2 0 = 1 ∨ rx.getD 2 0 = 2
  · unfold processChunk processWasmChunk
    simp only [bind_run, require_run, if_pos h3, if_pos hl, Res.bind_ok, if_neg hp, if_pos h12, get_run, ht]
    exact ⟨⟨_, _, rfl, ht, rfl, by decide⟩, ⟨_, _, rfl, ht, rfl, by decide⟩⟩
  · unfold processChunk processWasmChunk
    simp only [bind_run, require_run, if_pos h3, if_pos hl, Res.bind_ok, if_neg hp, if_neg h12]
    exact ⟨⟨_, _, rfl, rfl, rfl, by decide⟩, ⟨_, _, rfl, rfl, rfl, by decide⟩⟩

theorem dispatch_cases (pl : Platform) (d : Dev) (rx : Bytes) (pin : Bool) :
    (∃ x, dispatch pl rx pin (d.recv rx) = .err x (d.recv rx) ∧
      (x = 0x6E00 ∨ x = 0x6700 ∨ (x = 0x6986 ∧ pin = false) ∨ x = 0x6D00)) ∨
    (5 ≤ rx.length ∧ rx.getD 0 0 = 0x11 ∧
      ((rx.getD 1 0 = 0 ∧ dispatch pl rx pin (d.recv rx) = handleGetVersion pl pin (d.recv rx)) ∨
       (pin = true ∧ rx.getD 1 0 = 1 ∧ dispatch pl rx pin (d.recv rx) = handleGetAddr pl rx (d.recv rx)) ∨
       (pin = true ∧ rx.getD 1 0 = 2 ∧ dispatch pl rx pin (d.recv rx) = handleSign pl rx (d.recv rx)) ∨
       (pin = true ∧ rx.getD 1 0 = 3 ∧ dispatch pl rx pin (d.recv rx) = handleSignMessage pl rx (d.recv rx)) ∨
       (pin = true ∧ rx.getD 1 0 = 4 ∧ dispatch pl rx pin (d.recv rx) = handleSignWasm pl rx (d.recv rx)))) := by
  by_cases hl : 5 ≤ rx.length
  · by_cases h0 : rx.getD 0 0 = 0x11
    · rw [dispatch_eq pl d rx pin hl h0]
      split
      · exact .inr ⟨hl, h0, .inl ⟨by assumption, rfl⟩⟩
      split
      · rename_i hne hin
        split
        · rename_i hp
          refine .inr ⟨hl, h0, .inr ?_⟩
          rcases hin with h | h | h | h <;> rw [h] <;> simp [hp]
        · rename_i hp
          exact .inl ⟨_, rfl, .inr (.inr (.inl ⟨rfl, by simpa using hp⟩))⟩
      · exact .inl ⟨_, rfl, .inr (.inr (.inr rfl))⟩
    · refine .inl ⟨0x6E00, ?_, .inl rfl⟩
      unfold dispatch
      have : ¬ (d.recv rx).io.getD 0 0 = 0x11 := by
        rw [show (d.recv rx).io = poke d.io rx from rfl, poke_getD _ _ _ (by omega)]; exact h0
      simp only [bind_run, get_run, Res.bind_ok, require_run, if_neg this, Res.bind_err]
  · unfold dispatch
    simp only [bind_run, get_run, Res.bind_ok, require_run]
    split
    · simp only [Res.bind_ok]
      exact .inl ⟨_, rfl, .inr (.inl rfl)⟩
    · exact .inl ⟨_, rfl, .inl rfl⟩

/-- Without open session, any command other than INIT opens none, and a signing command is refused. -/
theorem closed_step {pl : Platform} {d : Dev} {rx : Bytes} {pin : Bool} (hd : d.Ok pl) (ht : d.txInit = false)
    (hni : ¬ isInit rx) :
    (step pl d (.apdu rx pin)).1.txInit = false ∧
    ((step pl d (.apdu rx pin)).1.review = d.review ∨ (step pl d (.apdu rx pin)).1.review = some .address) ∧
    ((rx.getD 1 0 = 2 ∨ rx.getD 1 0 = 3 ∨ rx.getD 1 0 = 4) →
      ∃ data sw, (step pl d (.apdu rx pin)).2 = .reply data sw ∧ sw ≠ 0x9000) := by
  have hd' : (d.recv rx).pos ≤ pl.cap := hd.2
  have ht' : (d.recv rx).txInit = false := ht
  have hp1 : (rx.getD 1 0 = 2 ∨ rx.getD 1 0 = 3 ∨ rx.getD 1 0 = 4) → rx.getD 2 0 ≠ 0 := fun a b => hni ⟨a, b⟩
  rw [step_apdu]
  rcases dispatch_cases pl d rx pin with ⟨x, hx, hx'⟩ | ⟨-, -, hc⟩
  · rw [hx]
    refine ⟨ht, .inl rfl, fun _ => ⟨_, _, rfl, ?_⟩⟩
    rcases hx' with rfl | rfl | ⟨rfl, -⟩ | rfl <;> decide
  rcases hc with ⟨hi, hc⟩ | ⟨-, hi, hc⟩ | ⟨-, hi, hc⟩ | ⟨-, hi, hc⟩ | ⟨-, hi, hc⟩ <;> rw [hc]
  · refine ⟨ht, .inl rfl, fun h => ?_⟩
    rw [hi] at h; rcases h with h | h | h <;> simp at h
  · have hna : ¬ (rx.getD 1 0 = 2 ∨ rx.getD 1 0 = 3 ∨ rx.getD 1 0 = 4) := by rw [hi]; decide
    generalize hr : handleGetAddr pl rx (d.recv rx) = r
    have := handleGetAddr_case pl rx (d.recv rx)
    rw [hr] at this
    cases this with
    | «show» a => exact ⟨ht, .inr rfl, fun h => absurd h hna⟩
    | _ => exact ⟨ht, .inl rfl, fun h => absurd h hna⟩
  · obtain ⟨⟨x, t, hx, h1, h2, h3⟩, -⟩ := closed_handlers (pl := pl) hd' ht' (hp1 (.inl hi))
    rw [handleSign, bind_run, hx]
    exact ⟨h1, .inl h2, fun _ => ⟨_, _, rfl, h3⟩⟩
  · obtain ⟨⟨x, t, hx, h1, h2, h3⟩, -⟩ := closed_handlers (pl := pl) hd' ht' (hp1 (.inr (.inl hi)))
    rw [handleSignMessage, bind_run, hx]
    exact ⟨h1, .inl h2, fun _ => ⟨_, _, rfl, h3⟩⟩
  · obtain ⟨-, ⟨x, t, hx, h1, h2, h3⟩⟩ := closed_handlers (pl := pl)
      (d := { d.recv rx with wasmCounter := u32 ((d.recv rx).wasmCounter + 1) }) hd' ht' (hp1 (.inr (.inr hi)))
    rw [handleSignWasm, bind_run, modify_run, Res.bind_ok, bind_run, hx]
    exact ⟨h1, .inl h2, fun _ => ⟨_, _, rfl, h3⟩⟩

theorem closed_run {pl : Platform} {d : Dev} (hd : d.Ok pl) (ht : d.txInit = false) (evs : List Event)
    (h : ∀ rx pin, .apdu rx pin ∈ evs → ¬ isInit rx) :
    (run pl d evs).1.txInit = false ∧
    ((d.review = none ∨ d.review = some .address) →
      (run pl d evs).1.review = none ∨ (run pl d evs).1.review = some .address) ∧
    (∀ rx pin, (rx.getD 1 0 = 2 ∨ rx.getD 1 0 = 3 ∨ rx.getD 1 0 = 4) → ¬ isInit rx →
      ∃ data sw, (step pl (run pl d evs).1 (.apdu rx pin)).2 = .reply data sw ∧ sw ≠ 0x9000) := by
  have inv : (run pl d evs).1.txInit = false ∧ ((d.review = none ∨ d.review = some .address) →
      ((run pl d evs).1.review = none ∨ (run pl d evs).1.review = some .address)) := by
    induction evs using list_snoc with
    | nil => exact ⟨ht, id⟩
    | snoc evs ev ih =>
      have ih := ih (fun rx pin hm => h rx pin (by simp [hm]))
      rw [run_append]
      simp only [run]
      have hd := hd.run evs
      generalize (run pl d evs).1 = s at ih hd
      cases ev with
      | apdu rx pin =>
        obtain ⟨k1, k2, -⟩ := closed_step (pin := pin) hd ih.1 (h rx pin (by simp))
        refine ⟨k1, fun hr => ?_⟩
        rcases k2 with k2 | k2
        · rw [k2]; exact ih.2 hr
        · exact .inr k2
      | approve =>
        refine ⟨?_, fun _ => .inl (C26_one_per_review pl _).2.1⟩
        unfold step
        obtain ⟨i, hi⟩ := appSign_state pl { s with review := none }
        cases hs : s.review with
        | none => exact ih.1
        | some r =>
          cases r <;> first | exact ih.1 | (show (appSign pl { s with review := none }).1.txInit = false; rw [hi]; exact ih.1)
      | reject =>
        refine ⟨?_, fun _ => .inl (C26_one_per_review pl _).2.2⟩
        unfold step
        cases s.review <;> exact ih.1
      | setExpert b => unfold step; dsimp only; split <;> exact ih
  exact ⟨inv.1, inv.2, fun rx pin hi hni => (closed_step (hd.run evs) inv.1 hni).2.2 hi⟩

/-- **C27, histories without INIT.** As long as no INIT command was sent, no session is open, no signing review is
pending, and no signing command is ever answered with success. -/
theorem C27_no_init (pl : Platform) (evs : List Event) (h : ∀ rx pin, .apdu rx pin ∈ evs → ¬ isInit rx) :
    (run pl (Dev.init pl) evs).1.txInit = false ∧
    ((run pl (Dev.init pl) evs).1.review = none ∨ (run pl (Dev.init pl) evs).1.review = some .address) ∧
    (∀ rx pin, (rx.getD 1 0 = 2 ∨ rx.getD 1 0 = 3 ∨ rx.getD 1 0 = 4) → ¬ isInit rx →
      ∃ data sw, (step pl (run pl (Dev.init pl) evs).1 (.apdu rx pin)).2 = .reply data sw ∧ sw ≠ 0x9000) := by
  obtain ⟨h1, h2, h3⟩ := closed_run (Dev.Ok.init pl) rfl evs h
  exact ⟨h1, h2 (.inl rfl), h3⟩

example : (run samplePl (Dev.init samplePl) [.apdu (apdu 2 1 [1, 2]) true, .apdu (apdu 4 2 []) true,
    .apdu (apdu 1 1 (samplePath 0)) true, .apdu (apdu 3 2 [1]) true]).2 =
    [.reply [] 0x6987, .reply [] 0x6987, .pending, .reply [] 0x6987] := by decide +kernel

end Casper
