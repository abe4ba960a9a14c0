import Verif.Lib.Args
import Verif.Model.Device
/-
Lemmas about the device model: what the parsing entry points and the chunk handlers may change.
-/
namespace Casper
open M

section
variable {σ α β : Type}

theorem M.get_eq_ok {a s t : σ} : (get : M σ σ) s = .ok a t ↔ a = s ∧ t = s := by
  simp only [get_run, Res.ok.injEq]; exact ⟨fun ⟨h, h'⟩ => ⟨h.symm, h'.symm⟩, fun ⟨h, h'⟩ => ⟨h.symm, h'.symm⟩⟩
theorem M.set_eq_ok {x s t : σ} {u : Unit} : (set x : M σ Unit) s = .ok u t ↔ t = x := by
  simp only [set_run, Res.ok.injEq, true_and]; exact eq_comm
theorem M.modify_eq_ok {f : σ → σ} {s t : σ} {u : Unit} : (modify f : M σ Unit) s = .ok u t ↔ t = f s := by
  simp only [modify_run, Res.ok.injEq, true_and]; exact eq_comm

/-- Success and failure of `m` keep the relation `R` between the states before and after. -/
def Keeps (R : σ → σ → Prop) (m : M σ α) : Prop :=
  ∀ s, (∀ a t, m s = .ok a t → R s t) ∧ (∀ x t, m s = .err x t → R s t)

variable {R : σ → σ → Prop}

theorem Keeps.bind (htr : ∀ a b c, R a b → R b c → R a c) {m : M σ α} {f : α → M σ β}
    (hm : Keeps R m) (hf : ∀ a, Keeps R (f a)) : Keeps R (m >>= f) := by
  intro s
  constructor
  · intro b t h
    obtain ⟨a, s', h1, h2⟩ := bind_eq_ok.1 h
    exact htr _ _ _ ((hm s).1 _ _ h1) ((hf a s').1 _ _ h2)
  · intro x t h
    rw [bind_run] at h
    cases h1 : m s with
    | ok a s' =>
      rw [h1] at h
      exact htr _ _ _ ((hm s).1 _ _ h1) ((hf a s').2 _ _ h)
    | err y s' =>
      rw [h1] at h
      simp at h
      obtain ⟨rfl, rfl⟩ := h
      exact (hm s).2 _ _ h1
    | fault f => rw [h1] at h; simp at h

theorem Keeps.pure (hr : ∀ a, R a a) (a : α) : Keeps R (Pure.pure a : M σ α) := by
  intro s; simp; exact hr _
theorem Keeps.fail (hr : ∀ a, R a a) (x : Nat) : Keeps R (M.fail x : M σ α) := by
  intro s; simp; exact hr _
theorem Keeps.abort (x : Fault) : Keeps R (M.abort x : M σ α) := by
  intro s; simp
theorem Keeps.get (hr : ∀ a, R a a) : Keeps R (M.get : M σ σ) := by
  intro s; simp; exact hr _
theorem Keeps.modify {f : σ → σ} (h : ∀ s, R s (f s)) : Keeps R (M.modify f : M σ Unit) := by
  intro s; simp; exact h _
theorem Keeps.require (hr : ∀ a, R a a) (c : Prop) [Decidable c] (x : Nat) : Keeps R (M.require c x : M σ Unit) := by
  intro s
  constructor
  · intro a t h; rw [require_eq_ok] at h; rw [h.2]; exact hr _
  · intro a t h; rw [require_eq_err] at h; rw [h.2.2]; exact hr _
theorem Keeps.attempt {m : M σ α} (hm : Keeps R m) : Keeps R (M.attempt m) := by
  intro s
  constructor
  · intro a t h
    rw [attempt_eq_ok] at h
    rcases h with ⟨a, -, h⟩ | ⟨x, -, h⟩
    · exact (hm s).1 _ _ h
    · exact (hm s).2 _ _ h
  · intro x t h
    rw [attempt_run] at h
    cases h1 : m s <;> rw [h1] at h <;> simp at h

end

/-- Everything except the parser's own globals is the same: the parser writes only `ctx_parsed_tx`,
`parser_tx_obj_deploy`, `parser_tx_obj_txnV1` and `entry_point_offset`. -/
def SameCore (d d' : Dev) : Prop := d' = { d with ctx := d'.ctx, dep := d'.dep, v1 := d'.v1, epo := d'.epo }

theorem SameCore.refl (d : Dev) : SameCore d d := rfl
theorem SameCore.trans (a b c : Dev) (h1 : SameCore a b) (h2 : SameCore b c) : SameCore a c := by
  unfold SameCore at *; rw [h2, h1]

theorem parserInit_core : Keeps SameCore parserInit := by
  intro d
  unfold parserInit
  constructor <;> intro a t h <;> split at h <;> simp at h
  · rw [← h]; rfl
  · rw [← h.2]; rfl

theorem runDeploy_core {α : Type} (pl : Platform) (m : Env → M DS α) : Keeps SameCore (runDeploy pl m) := by
  intro d
  unfold runDeploy
  constructor <;> intro a t h <;> split at h <;> simp at h
  · rw [← h.2]; rfl
  · rw [← h.2]; rfl

theorem runV1_core (pl : Platform) : Keeps SameCore (runV1 pl) := by
  intro d
  unfold runV1
  constructor <;> intro a t h <;> split at h <;> simp at h
  · rw [← h]; rfl
  · rw [← h.2]; rfl

theorem runP_same {α : Type} (pl : Platform) (m : Env → P α) : Keeps Eq (runP pl m) := by
  intro d
  unfold runP
  constructor <;> intro a t h <;> split at h <;> simp at h
  · exact h.2
  · exact h.2

theorem runP_core {α : Type} (pl : Platform) (m : Env → P α) : Keeps SameCore (runP pl m) := by
  intro d
  constructor
  · intro a t h; rw [(runP_same pl m d).1 a t h]; rfl
  · intro a t h; rw [(runP_same pl m d).2 a t h]; rfl

theorem parserParse_core (pl : Platform) : Keeps SameCore (parserParse pl) := by
  unfold parserParse
  refine .bind SameCore.trans parserInit_core fun _ => .bind SameCore.trans (runP_core _ _) fun c => ?_
  refine .bind SameCore.trans (.modify fun d => rfl) fun _ => .bind SameCore.trans (.get .refl) fun d => ?_
  split
  · exact .fail .refl _
  split
  · exact .bind SameCore.trans (.modify fun d => rfl) fun _ => runDeploy_core _ _
  split
  · exact .bind SameCore.trans (.modify fun d => rfl) fun _ => runV1_core _
  · exact .fail .refl _

theorem parserValidate_same (pl : Platform) : Keeps Eq (parserValidate pl) := by
  unfold parserValidate
  exact .bind (fun _ _ _ h h' => h.trans h') (.get fun _ => rfl) fun _ => runP_same _ _

theorem txParse_core (pl : Platform) : Keeps SameCore (txParse pl) := by
  unfold txParse
  refine .bind SameCore.trans (parserParse_core pl) fun _ => ?_
  intro d
  constructor
  · intro a t h; rw [(parserValidate_same pl d).1 a t h]; rfl
  · intro a t h; rw [(parserValidate_same pl d).2 a t h]; rfl

theorem parseMessage_core (pl : Platform) : Keeps SameCore (parseMessage pl) := by
  unfold parseMessage
  exact .bind SameCore.trans parserInit_core fun _ => .bind SameCore.trans (.modify fun _ => rfl) fun _ =>
    .bind SameCore.trans (runP_core _ _) fun _ => .modify fun _ => rfl

theorem parseWasm_core (pl : Platform) : Keeps SameCore (parseWasm pl) := by
  unfold parseWasm
  exact .bind SameCore.trans parserInit_core fun _ => .bind SameCore.trans (.modify fun _ => rfl) fun _ =>
    runDeploy_core _ _

theorem txValidateWasm_same (pl : Platform) : Keeps Eq (txValidateWasm pl) := by
  unfold txValidateWasm
  refine .bind (fun _ _ _ h h' => h.trans h') (.get fun _ => rfl) fun _ => ?_
  split
  · exact runP_same _ _
  · exact .abort _

/-- The state in which `handleApdu` starts to look at the command `rx`. -/
def Dev.recv (d : Dev) (rx : Bytes) : Dev := { d with io := poke d.io rx, tx := 0 }

/-- The bytes uploaded so far. -/
def Dev.data (d : Dev) : Bytes := d.mem.take d.pos

/-- The upload buffer has its fixed size and the fill level is inside. -/
def Dev.Ok (pl : Platform) (d : Dev) : Prop := d.mem.length = pl.cap ∧ d.pos ≤ pl.cap

instance (pl : Platform) (d : Dev) : Decidable (d.Ok pl) := by unfold Dev.Ok; exact inferInstance

/-- A command starting a session carries a path of five words starting 44'/506'. -/
def casperPath (p : Bytes) : Prop := leVal (p.take 4) = 0x8000002c ∧ leVal ((p.drop 4).take 4) = 0x800001fa

instance (p : Bytes) : Decidable (casperPath p) := by unfold casperPath; exact inferInstance

/-- The state after storing `xs` behind the data received so far. -/
def Dev.store (d : Dev) (xs : Bytes) : Dev :=
  { d with mem := d.mem.take d.pos ++ xs ++ d.mem.drop (d.pos + xs.length), pos := d.pos + xs.length }

theorem Dev.Ok.store {pl : Platform} {d : Dev} (h : d.Ok pl) {xs : Bytes} (hx : d.pos + xs.length ≤ pl.cap) :
    (d.store xs).Ok pl := by
  obtain ⟨h1, h2⟩ := h
  refine ⟨?_, hx⟩
  simp [Dev.store, h1]; omega

theorem Dev.store_data {pl : Platform} {d : Dev} (h : d.Ok pl) (xs : Bytes) :
    (d.store xs).data = d.data ++ xs := by
  obtain ⟨h1, h2⟩ := h
  have : (d.mem.take d.pos ++ xs).length = d.pos + xs.length := by simp [h1]; omega
  simp only [Dev.data, Dev.store]
  rw [← this, List.take_left']
  rfl

theorem poke_length (a b : Bytes) (h : b.length ≤ a.length) : (poke a b).length = a.length := by
  simp [poke]; omega

theorem poke_getD (a b : Bytes) (i : Nat) (h : i < b.length) : (poke a b).getD i 0 = b.getD i 0 := by
  simp only [poke, List.getD_eq_getElem?_getD, List.getElem?_append_left h]

theorem poke_take (a b : Bytes) : (poke a b).take b.length = b := by simp [poke]

theorem txAppend_fits {pl : Platform} {d : Dev} {xs : Bytes} (h : d.pos + xs.length ≤ pl.cap) :
    txAppend pl xs d = .ok true (d.store xs) := by
  unfold txAppend; rw [if_pos h]; rfl

theorem txAppend_full {pl : Platform} {d : Dev} {xs : Bytes} (hd : d.pos ≤ pl.cap) (h : ¬ d.pos + xs.length ≤ pl.cap) :
    txAppend pl xs d = .ok false d := by
  unfold txAppend; rw [if_neg h]
  have : xs.length ≠ 0 := by omega
  simp [this]

/-! ### Extraction of the path -/

theorem extractPath_ok {rx : Bytes} {d : Dev} (hl : 25 ≤ rx.length) (hp : casperPath ((rx.drop 5).take 20)) :
    extractPath rx d = .ok () { d with hdPath := (rx.drop 5).take 20 } := by
  unfold extractPath
  simp only [bind_run, require_run, modify_run, Res.bind_ok]
  rw [if_pos (show rx.length - 5 ≥ 20 by omega)]
  simp only [Res.bind_ok]
  unfold casperPath at hp
  rw [if_pos hp]

theorem extractPath_eq_ok {rx : Bytes} {d d' : Dev} {u : Unit} (h : extractPath rx d = .ok u d') :
    25 ≤ rx.length ∧ casperPath ((rx.drop 5).take 20) ∧ d' = { d with hdPath := (rx.drop 5).take 20 } := by
  unfold extractPath at h
  simp only [bind_eq_ok, require_eq_ok, modify_eq_ok] at h
  obtain ⟨_, _, ⟨h1, rfl⟩, _, _, rfl, h2, rfl⟩ := h
  exact ⟨by omega, h2, rfl⟩

theorem extractPath_eq_err {rx : Bytes} {d d' : Dev} {x : Nat} (h : extractPath rx d = .err x d') :
    (x = 0x6700 ∧ rx.length < 25 ∧ d' = d) ∨
    (x = 0x6984 ∧ 25 ≤ rx.length ∧ ¬ casperPath ((rx.drop 5).take 20) ∧ d' = { d with hdPath := (rx.drop 5).take 20 }) := by
  unfold extractPath at h
  simp only [bind_run, require_run, modify_run] at h
  split at h
  · rename_i hl
    simp only [Res.bind_ok] at h
    split at h
    · simp at h
    · rename_i hp
      simp only [Res.err.injEq] at h
      exact .inr ⟨h.1.symm, by omega, hp, h.2.symm⟩
  · simp only [Res.bind_err, Res.err.injEq] at h
    exact .inl ⟨h.1.symm, by omega, h.2.symm⟩

/-! ### `process_chunk` -/

/-- All outcomes of `process_chunk`. -/
inductive ChunkCase (pl : Platform) (rx : Bytes) (d : Dev) : Res Dev Bool → Prop
  | p2 : rx.getD 3 0 ≠ 0 → ChunkCase pl rx d (.err 0x6B00 d)
  | short : rx.length < 5 → ChunkCase pl rx d (.err 0x6700 d)
  | initShort : rx.getD 3 0 = 0 → rx.getD 2 0 = 0 → 5 ≤ rx.length → rx.length < 25 →
      ChunkCase pl rx d (.err 0x6700 { d with pos := 0 })
  | initPath : rx.getD 3 0 = 0 → rx.getD 2 0 = 0 → 25 ≤ rx.length → ¬ casperPath ((rx.drop 5).take 20) →
      ChunkCase pl rx d (.err 0x6984 { d with pos := 0, hdPath := (rx.drop 5).take 20 })
  | init : rx.getD 3 0 = 0 → rx.getD 2 0 = 0 → 25 ≤ rx.length → casperPath ((rx.drop 5).take 20) →
      ChunkCase pl rx d (.ok false { d with pos := 0, hdPath := (rx.drop 5).take 20, txInit := true })
  | notInit : rx.getD 3 0 = 0 → 5 ≤ rx.length → (rx.getD 2 0 = 1 ∨ rx.getD 2 0 = 2) → d.txInit = false →
      ChunkCase pl rx d (.err 0x6987 d)
  | stored : rx.getD 3 0 = 0 → 5 ≤ rx.length → (rx.getD 2 0 = 1 ∨ rx.getD 2 0 = 2) → d.txInit = true →
      d.pos + (rx.drop 5).length ≤ pl.cap → ChunkCase pl rx d (.ok (rx.getD 2 0 == 2) (d.store (rx.drop 5)))
  | full : rx.getD 3 0 = 0 → 5 ≤ rx.length → (rx.getD 2 0 = 1 ∨ rx.getD 2 0 = 2) → d.txInit = true →
      ¬ d.pos + (rx.drop 5).length ≤ pl.cap → ChunkCase pl rx d (.err 0x6983 { d with txInit := false })
  | p1 : rx.getD 3 0 = 0 → 5 ≤ rx.length → rx.getD 2 0 ≠ 0 → rx.getD 2 0 ≠ 1 → rx.getD 2 0 ≠ 2 →
      ChunkCase pl rx d (.err 0x6B00 { d with txInit := false })

theorem processChunk_case (pl : Platform) (rx : Bytes) (d : Dev) (hd : d.pos ≤ pl.cap) :
    ChunkCase pl rx d (processChunk pl rx d) := by
  unfold processChunk
  simp only [bind_run, require_run]
  by_cases h3 : rx.getD 3 0 = 0
  case neg => rw [if_neg h3]; exact .p2 h3
  by_cases hl : rx.length ≥ 5
  case neg => rw [if_pos h3]; simp only [Res.bind_ok]; rw [if_neg hl]; exact .short (by omega)
  rw [if_pos h3]; simp only [Res.bind_ok]; rw [if_pos hl]; simp only [Res.bind_ok]
  by_cases h2 : rx.getD 2 0 = 0
  · rw [if_pos h2]
    simp only [bind_run, modify_run, Res.bind_ok]
    by_cases hl2 : 25 ≤ rx.length
    case neg =>
      have : ∀ d : Dev, extractPath rx d = .err 0x6700 d := by
        intro d
        unfold extractPath
        simp only [bind_run, require_run]
        rw [if_neg (by omega)]; rfl
      rw [this]; exact .initShort h3 h2 hl (by omega)
    by_cases hp : casperPath ((rx.drop 5).take 20)
    · rw [extractPath_ok hl2 hp]; exact .init h3 h2 hl2 hp
    · have : ∀ d : Dev, extractPath rx d = .err 0x6984 { d with hdPath := (rx.drop 5).take 20 } := by
        intro d
        unfold extractPath
        simp only [bind_run, require_run]
        rw [if_pos (by omega)]
        simp only [modify_run, Res.bind_ok]
        unfold casperPath at hp
        rw [if_neg hp]
      rw [this]; exact .initPath h3 h2 hl2 hp
  rw [if_neg h2]
  by_cases h12 : rx.getD 2 0 = 1 ∨ rx.getD 2 0 = 2
  case neg =>
    rw [if_neg h12]; rw [not_or] at h12
    exact .p1 h3 hl h2 h12.1 h12.2
  rw [if_pos h12]
  simp only [bind_run, get_run, Res.bind_ok, require_run]
  by_cases ht : d.txInit = true
  case neg => rw [if_neg ht]; exact .notInit h3 hl h12 (by simpa using ht)
  rw [if_pos ht]
  simp only [Res.bind_ok]
  by_cases hf : d.pos + (rx.drop 5).length ≤ pl.cap
  · rw [txAppend_fits hf]; exact .stored h3 hl h12 ht hf
  · rw [txAppend_full hd hf]; exact .full h3 hl h12 ht hf

/-! ### `handleApdu` -/

theorem step_apdu (pl : Platform) (d : Dev) (rx : Bytes) (pin : Bool) :
    step pl d (.apdu rx pin) = match dispatch pl rx pin (d.recv rx) with
      | .ok _ d' => (d', .pending)
      | .err sw d' => (d', .reply (d'.io.take d'.tx) sw)
      | .fault f => (d, .crash f) := rfl

theorem dispatch_eq (pl : Platform) (d : Dev) (rx : Bytes) (pin : Bool) (hl : 5 ≤ rx.length)
    (h0 : rx.getD 0 0 = 0x11) : dispatch pl rx pin (d.recv rx) =
      if rx.getD 1 0 = 0 then handleGetVersion pl pin (d.recv rx)
      else if rx.getD 1 0 = 1 ∨ rx.getD 1 0 = 2 ∨ rx.getD 1 0 = 3 ∨ rx.getD 1 0 = 4 then
        if pin = true then
          if rx.getD 1 0 = 1 then handleGetAddr pl rx (d.recv rx)
          else if rx.getD 1 0 = 2 then handleSign pl rx (d.recv rx)
          else if rx.getD 1 0 = 3 then handleSignMessage pl rx (d.recv rx)
          else handleSignWasm pl rx (d.recv rx)
        else .err 0x6986 (d.recv rx)
      else .err 0x6D00 (d.recv rx) := by
  unfold dispatch
  simp only [bind_run, get_run, Res.bind_ok, require_run]
  have : (d.recv rx).io.getD 0 0 = 0x11 := by
    rw [← h0]; exact poke_getD _ _ _ (by omega)
  rw [if_pos this]
  simp only [Res.bind_ok]
  rw [if_pos hl]
  simp only [Res.bind_ok]
  split
  · rfl
  split
  · rw [bind_run, require_run]
    split
    · simp only [Res.bind_ok]
      split
      · rfl
      split
      · rfl
      split <;> rfl
    · rfl
  · rfl

/-- A command that leaves a review pending is a complete, recognised command on an unlocked device. -/
theorem dispatch_pending {pl : Platform} {d d' : Dev} {rx : Bytes} {pin : Bool} {u : Unit}
    (h : dispatch pl rx pin (d.recv rx) = .ok u d') :
    5 ≤ rx.length ∧ rx.getD 0 0 = 0x11 ∧ pin = true ∧
      ((rx.getD 1 0 = 1 ∧ handleGetAddr pl rx (d.recv rx) = .ok u d') ∨
       (rx.getD 1 0 = 2 ∧ handleSign pl rx (d.recv rx) = .ok u d') ∨
       (rx.getD 1 0 = 3 ∧ handleSignMessage pl rx (d.recv rx) = .ok u d') ∨
       (rx.getD 1 0 = 4 ∧ handleSignWasm pl rx (d.recv rx) = .ok u d')) := by
  have h' := h
  unfold dispatch at h'
  simp only [bind_eq_ok, get_eq_ok, require_eq_ok] at h'
  obtain ⟨_, _, ⟨rfl, rfl⟩, _, _, ⟨h0, rfl⟩, _, _, ⟨hl, rfl⟩, -⟩ := h'
  have h0' : rx.getD 0 0 = 0x11 := by
    rw [← h0]; exact (poke_getD _ _ _ (by omega)).symm
  rw [dispatch_eq pl d rx pin hl h0'] at h
  refine ⟨hl, h0', ?_⟩
  split at h
  · simp [handleGetVersion] at h
  split at h
  · split at h
    · rename_i hp
      refine ⟨hp, ?_⟩
      split at h
      · exact .inl ⟨by assumption, h⟩
      split at h
      · exact .inr (.inl ⟨by assumption, h⟩)
      split at h
      · exact .inr (.inr (.inl ⟨by assumption, h⟩))
      · exact .inr (.inr (.inr ⟨by grind, h⟩))
    · simp at h
  · simp at h

theorem errorText_unknown (x : Nat) (h : 29 ≤ x) : errorText x = b!"Unrecognized error code" := by
  unfold errorText
  iterate 28 rw [if_neg (by omega)]

theorem errorText_le (x : Nat) : (errorText x).length ≤ 101 := by
  rcases Nat.lt_or_ge x 29 with h | h
  · have : ∀ x < 29, (errorText x).length ≤ 101 := by decide
    exact this x h
  · rw [errorText_unknown x h]; decide

/-! ### A relation kept by every elementary change is kept by every command -/

/-- `R` contains every elementary change a command can make. -/
structure Elementary (pl : Platform) (R : Dev → Dev → Prop) : Prop where
  refl : ∀ d, R d d
  trans : ∀ a b c, R a b → R b c → R a c
  core : ∀ d d', SameCore d d' → R d d'
  pos : ∀ d, R d { d with pos := 0 }
  path : ∀ d p, R d { d with hdPath := p }
  init : ∀ d b, R d { d with txInit := b }
  store : ∀ d xs, d.pos + xs.length ≤ pl.cap → R d (d.store xs)
  wasm : ∀ d b n, R d { d with bufFull := b, wasmCounter := n }
  idle : ∀ d, R d { d with review := none }
  io : ∀ d i t a, (t = d.tx ∨ t ≤ 101 ∨ t = 5 + pl.targetId.length) → R d { d with io := i, tx := t, addrLen := a }

section
variable {pl : Platform} {R : Dev → Dev → Prop} (hR : Elementary pl R)
include hR

theorem Elementary.ofCore {α : Type} {m : M Dev α} (h : Keeps SameCore m) : Keeps R m :=
  fun s => ⟨fun a t h' => hR.core _ _ ((h s).1 a t h'), fun a t h' => hR.core _ _ ((h s).2 a t h')⟩

theorem Elementary.ofEq {α : Type} {m : M Dev α} (h : Keeps Eq m) : Keeps R m :=
  fun s => ⟨fun a t h' => (h s).1 a t h' ▸ hR.refl _, fun a t h' => (h s).2 a t h' ▸ hR.refl _⟩

theorem Elementary.bind {α β : Type} {m : M Dev α} {f : α → M Dev β} (hm : Keeps R m) (hf : ∀ a, Keeps R (f a)) :
    Keeps R (m >>= f) := Keeps.bind hR.trans hm hf

theorem Elementary.extract (rx : Bytes) : Keeps R (extractPath rx) := by
  unfold extractPath
  exact hR.bind (.require hR.refl _ _) fun _ => hR.bind (.modify fun d => hR.path d _) fun _ => .require hR.refl _ _

theorem Elementary.append (xs : Bytes) : Keeps R (txAppend pl xs) := by
  intro d
  unfold txAppend
  constructor
  · intro a t h
    split at h
    · rename_i hf
      simp only [Res.ok.injEq] at h
      rw [← h.2]; exact hR.store d xs hf
    · simp only [Res.ok.injEq] at h
      rw [← h.2]; exact hR.refl _
  · intro a t h
    split at h <;> simp at h

theorem Elementary.chunk (rx : Bytes) : Keeps R (processChunk pl rx) := by
  unfold processChunk
  refine hR.bind (.require hR.refl _ _) fun _ => hR.bind (.require hR.refl _ _) fun _ => ?_
  dsimp only
  split
  · exact hR.bind (.modify fun d => hR.pos d) fun _ => hR.bind (hR.extract rx) fun _ =>
      hR.bind (.modify fun d => hR.init d _) fun _ => .pure hR.refl _
  split
  · refine hR.bind (.get hR.refl) fun _ => hR.bind (.require hR.refl _ _) fun _ => hR.bind (hR.append _) fun b => ?_
    split
    · exact .pure hR.refl _
    · exact hR.bind (.modify fun d => hR.init d _) fun _ => .fail hR.refl _
  · exact hR.bind (.modify fun d => hR.init d _) fun _ => .fail hR.refl _

theorem Elementary.throw {m : M Dev Unit} (hm : Keeps R m) {before : Dev → Dev} (hb : ∀ d, R d (before d)) (sw : Nat) :
    Keeps R (orThrow m before sw) := by
  unfold orThrow
  refine hR.bind (.attempt hm) fun r => ?_
  split
  · exact .pure hR.refl _
  · exact hR.bind (.modify hb) fun _ => .fail hR.refl _

theorem Elementary.explain {m : M Dev Unit} (hm : Keeps R m) : Keeps R (orExplain m) := by
  unfold orExplain
  refine hR.bind (.attempt hm) fun r => ?_
  split
  · exact .pure hR.refl _
  · exact hR.bind (.modify fun d => hR.io d _ _ d.addrLen (.inr (.inl (errorText_le _)))) fun _ => .fail hR.refl _

theorem Elementary.wasmChunk (rx : Bytes) : Keeps R (processWasmChunk pl rx) := by
  unfold processWasmChunk
  refine hR.bind (.require hR.refl _ _) fun _ => hR.bind (.require hR.refl _ _) fun _ => ?_
  dsimp only
  split
  · exact hR.bind (.modify fun d => hR.pos d) fun _ => hR.bind (hR.extract rx) fun _ =>
      hR.bind (.modify fun d => hR.trans _ _ _ (hR.init d true) (hR.wasm _ false 0)) fun _ => .pure hR.refl _
  split
  · refine hR.bind (.get hR.refl) fun _ => hR.bind (.require hR.refl _ _) fun _ => hR.bind (hR.append _) fun b => ?_
    refine hR.bind ?_ fun _ => .pure hR.refl _
    unfold wasmFull
    refine hR.bind (.get hR.refl) fun _ => ?_
    split
    · exact hR.bind (hR.throw (hR.ofCore (parseWasm_core pl)) (fun d => hR.init d _) _) fun _ =>
        .modify fun d => hR.wasm d true d.wasmCounter
    · exact .pure hR.refl _
  · exact hR.bind (.modify fun d => hR.init d _) fun _ => .fail hR.refl _

omit hR in
/-- Errors keep `R`; success keeps `R` except that a review is opened at the end. -/
def Ends (R : Dev → Dev → Prop) (m : M Dev Unit) : Prop :=
  ∀ s, (∀ a t, m s = .ok a t → ∃ u r, R s u ∧ t = { u with review := some r }) ∧ (∀ x t, m s = .err x t → R s t)

theorem Elementary.bindEnd {α : Type} {m : M Dev α} {f : α → M Dev Unit} (hm : Keeps R m) (hf : ∀ a, Ends R (f a)) :
    Ends R (m >>= f) := by
  intro s
  constructor
  · intro b t h
    obtain ⟨a, s', h1, h2⟩ := bind_eq_ok.1 h
    obtain ⟨u, r, h3, h4⟩ := (hf a s').1 _ _ h2
    exact ⟨u, r, hR.trans _ _ _ ((hm s).1 _ _ h1) h3, h4⟩
  · intro x t h
    rw [bind_run] at h
    cases h1 : m s with
    | ok a s' =>
      rw [h1] at h
      exact hR.trans _ _ _ ((hm s).1 _ _ h1) ((hf a s').2 _ _ h)
    | err y s' =>
      rw [h1] at h
      simp at h
      obtain ⟨rfl, rfl⟩ := h
      exact (hm s).2 _ _ h1
    | fault f => rw [h1] at h; simp at h

theorem Elementary.open (r : Review) : Ends R (M.modify fun d => { d with review := some r }) := by
  intro s
  refine ⟨fun a t h => ⟨s, r, hR.refl s, ?_⟩, fun x t h => ?_⟩
  · rw [modify_eq_ok] at h; exact h
  · simp at h

theorem Elementary.failEnd (x : Nat) : Ends R (M.fail x) := by
  intro s
  refine ⟨fun a t h => by simp at h, fun y t h => ?_⟩
  simp at h; rw [← h.2]; exact hR.refl s

theorem Elementary.sign (rx : Bytes) : Ends R (handleSign pl rx) := by
  unfold handleSign
  refine hR.bindEnd (hR.chunk rx) fun b => ?_
  split
  · exact hR.bindEnd (.modify fun d => hR.init d _) fun _ =>
      hR.bindEnd (hR.explain (hR.ofCore (txParse_core pl))) fun _ => hR.open _
  · exact hR.failEnd _

theorem Elementary.signMessage (rx : Bytes) : Ends R (handleSignMessage pl rx) := by
  unfold handleSignMessage
  refine hR.bindEnd (hR.chunk rx) fun b => ?_
  split
  · exact hR.bindEnd (hR.explain (hR.ofCore (parseMessage_core pl))) fun _ => hR.open _
  · exact hR.failEnd _

theorem Elementary.signWasm (rx : Bytes) : Ends R (handleSignWasm pl rx) := by
  unfold handleSignWasm
  refine hR.bindEnd (.modify fun d => hR.wasm d d.bufFull _) fun _ => hR.bindEnd (hR.wasmChunk rx) fun b => ?_
  split
  · refine hR.bindEnd (.modify fun d => hR.trans _ _ _ (hR.init d false) (hR.idle _)) fun _ =>
      hR.bindEnd ?_ fun _ => ?_
    · unfold wasmEnd
      refine hR.bind (.get hR.refl) fun _ => ?_
      split
      · exact hR.throw (hR.ofCore (parseWasm_core pl)) (fun d => hR.refl d) _
      · exact .pure hR.refl _
    · exact hR.bindEnd (hR.throw (hR.ofEq (txValidateWasm_same pl)) (fun d => hR.refl d) _) fun _ => hR.open _
  · exact hR.failEnd _

theorem Elementary.getAddr (rx : Bytes) : Ends R (handleGetAddr pl rx) := by
  unfold handleGetAddr
  refine hR.bindEnd (hR.extract rx) fun _ => hR.bindEnd (.get hR.refl) fun _ => ?_
  split
  · exact hR.bindEnd (.modify fun d => hR.io d _ d.tx _ (.inl rfl)) fun _ => hR.failEnd _
  · refine hR.bindEnd (.modify fun d => hR.io d _ d.tx _ (.inl rfl)) fun _ => ?_
    split
    · exact hR.open _
    · exact hR.bindEnd (.modify fun d => hR.io d d.io _ d.addrLen (.inr (.inl (Nat.le_refl _)))) fun _ =>
        hR.failEnd _

theorem Elementary.dispatch (rx : Bytes) (pin : Bool) : Ends R (dispatch pl rx pin) := by
  unfold Casper.dispatch
  refine hR.bindEnd (.get hR.refl) fun _ => hR.bindEnd (.require hR.refl _ _) fun _ =>
    hR.bindEnd (.require hR.refl _ _) fun _ => ?_
  dsimp only
  split
  · unfold handleGetVersion
    exact hR.bindEnd (.modify fun d => hR.io d _ _ d.addrLen (.inr (.inr rfl))) fun _ => hR.failEnd _
  split
  · refine hR.bindEnd (.require hR.refl _ _) fun _ => ?_
    split
    · exact hR.getAddr rx
    split
    · exact hR.sign rx
    split
    · exact hR.signMessage rx
    · exact hR.signWasm rx
  · exact hR.failEnd _

/-- The state after a command that did not open a review. -/
theorem Elementary.step_closed (d : Dev) (rx : Bytes) (pin : Bool) (h : (step pl d (.apdu rx pin)).2 ≠ .pending) :
    R d (step pl d (.apdu rx pin)).1 := by
  rw [Casper.step_apdu] at h ⊢
  have h0 : R d (d.recv rx) := hR.io d _ _ d.addrLen (.inr (.inl (Nat.zero_le _)))
  have := hR.dispatch rx pin (d.recv rx)
  cases hdis : Casper.dispatch pl rx pin (d.recv rx) with
  | ok a t => rw [hdis] at h; simp at h
  | err x t => exact hR.trans _ _ _ h0 (this.2 x t hdis)
  | fault f => exact hR.refl d

/-- The state after any command. -/
theorem Elementary.step_apdu (hrev : ∀ d r, R d { d with review := some r }) (d : Dev) (rx : Bytes) (pin : Bool) :
    R d (step pl d (.apdu rx pin)).1 := by
  rw [Casper.step_apdu]
  have h0 : R d (d.recv rx) := hR.io d _ _ d.addrLen (.inr (.inl (Nat.zero_le _)))
  have := hR.dispatch rx pin (d.recv rx)
  cases h : Casper.dispatch pl rx pin (d.recv rx) with
  | ok a t =>
    obtain ⟨u, r, hu, rfl⟩ := this.1 a t h
    exact hR.trans _ _ _ (hR.trans _ _ _ h0 hu) (hrev u r)
  | err x t => exact hR.trans _ _ _ h0 (this.2 x t h)
  | fault f => exact hR.refl d

end

theorem ok_elementary (pl : Platform) : Elementary pl fun d d' => d.Ok pl → d'.Ok pl where
  refl _ h := h
  trans _ _ _ h h' := fun x => h' (h x)
  core d d' h := by unfold SameCore at h; rw [h]; exact id
  pos _ h := ⟨h.1, Nat.zero_le _⟩
  path _ _ h := h
  init _ _ h := h
  store _ _ hx h := h.store hx
  wasm _ _ _ h := h
  idle _ h := h
  io _ _ _ _ _ h := h

theorem appSign_state (pl : Platform) (d : Dev) : ∃ i, (appSign pl d).1 = { d with io := i } := by
  unfold appSign
  split
  · exact ⟨d.io, rfl⟩
  · exact ⟨_, rfl⟩
  · split <;> exact ⟨_, rfl⟩

theorem Dev.Ok.init (pl : Platform) : (Dev.init pl).Ok pl := ⟨by simp [Dev.init], Nat.zero_le _⟩

theorem Dev.Ok.step {pl : Platform} {d : Dev} (h : d.Ok pl) (ev : Event) : (step pl d ev).1.Ok pl := by
  cases ev with
  | apdu rx pin => exact (ok_elementary pl).step_apdu (fun _ _ h => h) d rx pin h
  | approve =>
    unfold Casper.step
    cases hr : d.review with
    | none => exact h
    | some r =>
      obtain ⟨i, hi⟩ := appSign_state pl { d with review := none }
      cases r <;> first | exact h | (show Dev.Ok pl (appSign pl { d with review := none }).1; rw [hi]; exact h)
  | reject =>
    unfold Casper.step
    cases hr : d.review with
    | none => exact h
    | some r => exact h
  | setExpert b =>
    unfold Casper.step; dsimp only
    split <;> exact h

theorem list_snoc {α : Type} {P : List α → Prop} (nil : P []) (snoc : ∀ xs x, P xs → P (xs ++ [x])) :
    ∀ xs, P xs := by
  intro xs
  rw [← List.reverse_reverse xs]
  induction xs.reverse with
  | nil => exact nil
  | cons x xs ih => rw [List.reverse_cons]; exact snoc _ _ ih

theorem run_append (pl : Platform) (d : Dev) (xs ys : List Event) :
    run pl d (xs ++ ys) = ((run pl (run pl d xs).1 ys).1, (run pl d xs).2 ++ (run pl (run pl d xs).1 ys).2) := by
  induction xs generalizing d with
  | nil => rfl
  | cons x xs ih => simp only [List.cons_append, run, ih]

theorem Dev.Ok.run {pl : Platform} {d : Dev} (h : d.Ok pl) (evs : List Event) : (run pl d evs).1.Ok pl := by
  induction evs generalizing d with
  | nil => exact h
  | cons ev evs ih => exact ih (h.step ev)

/-! ### Commands that end in a pending review -/

theorem orExplain_ok {m : M Dev Unit} {d d' : Dev} {u : Unit} (h : orExplain m d = .ok u d') : m d = .ok () d' := by
  unfold orExplain at h
  simp only [bind_eq_ok, attempt_eq_ok] at h
  obtain ⟨r, s, h1, h2⟩ := h
  rcases h1 with ⟨a, rfl, h1⟩ | ⟨x, rfl, h1⟩
  · simp only [pure_eq_ok] at h2; rw [h1, h2.2]
  · simp at h2

theorem orThrow_ok {m : M Dev Unit} {b : Dev → Dev} {sw : Nat} {d d' : Dev} {u : Unit}
    (h : orThrow m b sw d = .ok u d') : m d = .ok () d' := by
  unfold orThrow at h
  simp only [bind_eq_ok, attempt_eq_ok] at h
  obtain ⟨r, s, h1, h2⟩ := h
  rcases h1 with ⟨a, rfl, h1⟩ | ⟨x, rfl, h1⟩
  · simp only [pure_eq_ok] at h2; rw [h1, h2.2]
  · simp at h2

theorem processChunk_true {pl : Platform} {rx : Bytes} {d d' : Dev} (hd : d.pos ≤ pl.cap)
    (h : processChunk pl rx d = .ok true d') :
    rx.getD 3 0 = 0 ∧ 5 ≤ rx.length ∧ rx.getD 2 0 = 2 ∧ d.txInit = true ∧ d.pos + (rx.drop 5).length ≤ pl.cap ∧
      d' = d.store (rx.drop 5) := by
  have hc := processChunk_case pl rx d hd
  rw [h] at hc
  generalize hr : Res.ok true d' = r at hc
  cases hc <;> simp only [Res.ok.injEq, reduceCtorEq, Bool.true_eq, Bool.false_eq_true, false_and, beq_iff_eq] at hr
  rename_i h3 hl h12 ht hf
  exact ⟨h3, hl, by simpa using hr.1, ht, hf, hr.2⟩

theorem handleSign_ok {pl : Platform} {rx : Bytes} {d d' : Dev} {u : Unit} (hd : d.pos ≤ pl.cap)
    (h : handleSign pl rx d = .ok u d') :
    rx.getD 3 0 = 0 ∧ 5 ≤ rx.length ∧ rx.getD 2 0 = 2 ∧ d.txInit = true ∧ d.pos + (rx.drop 5).length ≤ pl.cap ∧
      ∃ d2, txParse pl { d.store (rx.drop 5) with txInit := false } = .ok () d2 ∧
        d' = { d2 with review := some .tx } := by
  unfold handleSign at h
  rw [bind_eq_ok] at h
  obtain ⟨b, s, h1, h2⟩ := h
  cases b with
  | false => simp at h2
  | true =>
    obtain ⟨a1, a2, a3, a4, a5, rfl⟩ := processChunk_true hd h1
    simp only [if_true, bind_eq_ok, modify_eq_ok] at h2
    obtain ⟨_, _, rfl, _, d2, h3, rfl⟩ := h2
    exact ⟨a1, a2, a3, a4, a5, d2, orExplain_ok h3, rfl⟩

theorem handleSignMessage_ok {pl : Platform} {rx : Bytes} {d d' : Dev} {u : Unit} (hd : d.pos ≤ pl.cap)
    (h : handleSignMessage pl rx d = .ok u d') :
    rx.getD 3 0 = 0 ∧ 5 ≤ rx.length ∧ rx.getD 2 0 = 2 ∧ d.txInit = true ∧ d.pos + (rx.drop 5).length ≤ pl.cap ∧
      ∃ d2, parseMessage pl (d.store (rx.drop 5)) = .ok () d2 ∧ d' = { d2 with review := some .message } := by
  unfold handleSignMessage at h
  rw [bind_eq_ok] at h
  obtain ⟨b, s, h1, h2⟩ := h
  cases b with
  | false => simp at h2
  | true =>
    obtain ⟨a1, a2, a3, a4, a5, rfl⟩ := processChunk_true hd h1
    simp only [if_true, bind_eq_ok, modify_eq_ok] at h2
    obtain ⟨_, d2, h3, rfl⟩ := h2
    exact ⟨a1, a2, a3, a4, a5, d2, orExplain_ok h3, rfl⟩

theorem processWasmChunk_true {pl : Platform} {rx : Bytes} {d d' : Dev}
    (h : processWasmChunk pl rx d = .ok true d') :
    rx.getD 3 0 = 0 ∧ 5 ≤ rx.length ∧ rx.getD 2 0 = 2 ∧ d.txInit = true ∧
      ∃ full d1, txAppend pl (rx.drop 5) d = .ok full d1 ∧
        ((¬ (d1.bufFull = false ∧ full = false) ∧ d' = d1) ∨
         (d1.bufFull = false ∧ full = false ∧ ∃ d2, parseWasm pl d1 = .ok () d2 ∧ d' = { d2 with bufFull := true })) := by
  unfold processWasmChunk at h
  simp only [bind_eq_ok, require_eq_ok] at h
  obtain ⟨_, _, ⟨h3, rfl⟩, _, _, ⟨hl, rfl⟩, h⟩ := h
  split at h
  · simp only [bind_eq_ok, pure_eq_ok] at h
    obtain ⟨_, _, _, _, _, _, _, _, _, h, _⟩ := h
    simp at h
  split at h
  · simp only [bind_eq_ok, require_eq_ok, get_eq_ok, pure_eq_ok] at h
    obtain ⟨_, _, ⟨rfl, rfl⟩, _, _, ⟨ht, rfl⟩, full, d1, happ, _, _, h, hp, rfl⟩ := h
    refine ⟨h3, hl, by simpa using hp, ht, full, d1, happ, ?_⟩
    unfold wasmFull at h
    simp only [bind_eq_ok, get_eq_ok] at h
    obtain ⟨_, _, ⟨rfl, rfl⟩, h⟩ := h
    split at h
    · rename_i hc
      simp only [bind_eq_ok, modify_eq_ok] at h
      obtain ⟨_, d2, h, rfl⟩ := h
      exact .inr ⟨hc.1, hc.2, d2, orThrow_ok h, rfl⟩
    · rename_i hc
      simp only [pure_eq_ok] at h
      exact .inl ⟨hc, h.2.symm⟩
  · simp [bind_eq_ok] at h

theorem handleSignWasm_ok {pl : Platform} {rx : Bytes} {d d' : Dev} {u : Unit}
    (h : handleSignWasm pl rx d = .ok u d') :
    rx.getD 3 0 = 0 ∧ 5 ≤ rx.length ∧ rx.getD 2 0 = 2 ∧ d.txInit = true ∧
      ∃ d1 d2, processWasmChunk pl rx { d with wasmCounter := u32 (d.wasmCounter + 1) } = .ok true d1 ∧
        ((d1.bufFull = false ∧ parseWasm pl { d1 with txInit := false, review := none } = .ok () d2) ∨
         (d1.bufFull = true ∧ d2 = { d1 with txInit := false, review := none })) ∧
        txValidateWasm pl d2 = .ok () d2 ∧ d' = { d2 with review := some .wasm } := by
  unfold handleSignWasm at h
  simp only [bind_eq_ok, modify_eq_ok] at h
  obtain ⟨_, _, rfl, b, d1, h1, h2⟩ := h
  cases b with
  | false => simp at h2
  | true =>
    obtain ⟨a1, a2, a3, a4, -⟩ := processWasmChunk_true h1
    simp only [if_true, bind_eq_ok, modify_eq_ok, get_eq_ok] at h2
    obtain ⟨_, _, rfl, _, d2, h3, _, d3, h4, rfl⟩ := h2
    have h4 := orThrow_ok h4
    have h5 := (txValidateWasm_same pl d2).1 _ _ h4
    subst h5
    refine ⟨a1, a2, a3, a4, d1, d2, h1, ?_, h4, rfl⟩
    unfold wasmEnd at h3
    simp only [bind_eq_ok, get_eq_ok] at h3
    obtain ⟨_, _, ⟨rfl, rfl⟩, h3⟩ := h3
    split at h3
    · rename_i hb
      exact .inl ⟨hb, orThrow_ok h3⟩
    · rename_i hb
      simp only [pure_eq_ok] at h3
      exact .inr ⟨by simpa using hb, h3.2.symm⟩

theorem handleGetAddr_ok {pl : Platform} {rx : Bytes} {d d' : Dev} {u : Unit} (h : handleGetAddr pl rx d = .ok u d') :
    25 ≤ rx.length ∧ casperPath ((rx.drop 5).take 20) ∧ rx.getD 2 0 ≠ 0 ∧
      ∃ a, addressAnswer pl ((rx.drop 5).take 20) = some a ∧
        d' = { d with hdPath := (rx.drop 5).take 20, io := poke (List.replicate 260 0) a, addrLen := 101,
                      review := some .address } := by
  unfold handleGetAddr at h
  simp only [bind_eq_ok, get_eq_ok] at h
  obtain ⟨_, _, h1, _, _, ⟨rfl, rfl⟩, h2⟩ := h
  obtain ⟨a1, a2, rfl⟩ := extractPath_eq_ok h1
  refine ⟨a1, a2, ?_⟩
  cases ha : addressAnswer pl ((rx.drop 5).take 20) with
  | none =>
    rw [ha] at h2
    simp only [bind_eq_ok, fail_eq_ok, and_false, exists_false] at h2
  | some a =>
    rw [ha] at h2
    simp only [bind_eq_ok, modify_eq_ok] at h2
    obtain ⟨_, _, rfl, h2⟩ := h2
    split at h2
    · rename_i hp
      simp only [modify_eq_ok] at h2
      exact ⟨hp, a, rfl, h2⟩
    · simp only [bind_eq_ok, fail_eq_ok, and_false, exists_false] at h2

/-- All outcomes of `handleGetAddr`. -/
inductive AddrCase (pl : Platform) (rx : Bytes) (d : Dev) : Res Dev Unit → Prop
  | short : rx.length < 25 → AddrCase pl rx d (.err 0x6700 d)
  | path : 25 ≤ rx.length → ¬ casperPath ((rx.drop 5).take 20) →
      AddrCase pl rx d (.err 0x6984 { d with hdPath := (rx.drop 5).take 20 })
  | none : 25 ≤ rx.length → casperPath ((rx.drop 5).take 20) → pl.pubKey ((rx.drop 5).take 20) = none →
      AddrCase pl rx d (.err 0x6400 { d with
        hdPath := (rx.drop 5).take 20, io := List.replicate 260 0, addrLen := 0 })
  | reply (a : Bytes) : 25 ≤ rx.length → casperPath ((rx.drop 5).take 20) →
      addressAnswer pl ((rx.drop 5).take 20) = some a → rx.getD 2 0 = 0 →
      AddrCase pl rx d (.err 0x9000 { d with
        hdPath := (rx.drop 5).take 20, io := poke (List.replicate 260 0) a, addrLen := 101, tx := 101 })
  | «show» (a : Bytes) : 25 ≤ rx.length → casperPath ((rx.drop 5).take 20) →
      addressAnswer pl ((rx.drop 5).take 20) = some a → rx.getD 2 0 ≠ 0 →
      AddrCase pl rx d (.ok () { d with
        hdPath := (rx.drop 5).take 20, io := poke (List.replicate 260 0) a, addrLen := 101, review := some .address })

theorem handleGetAddr_case (pl : Platform) (rx : Bytes) (d : Dev) : AddrCase pl rx d (handleGetAddr pl rx d) := by
  unfold handleGetAddr
  rw [bind_run]
  cases he : extractPath rx d with
  | ok a t =>
    obtain ⟨h1, h2, rfl⟩ := extractPath_eq_ok he
    rw [Res.bind_ok, bind_run, get_run, Res.bind_ok]
    cases ha : addressAnswer pl ((rx.drop 5).take 20) with
    | none =>
      refine .none h1 h2 ?_
      unfold addressAnswer at ha
      simpa using ha
    | some a =>
      simp only [bind_run, modify_run, Res.bind_ok]
      by_cases hp : rx.getD 2 0 = 0
      · rw [if_neg (not_not_intro hp)]
        exact .reply a h1 h2 ha hp
      · rw [if_pos hp]
        exact .show a h1 h2 ha hp
  | err x t =>
    rcases extractPath_eq_err he with ⟨rfl, h, rfl⟩ | ⟨rfl, h, h', rfl⟩
    · exact .short h
    · exact .path h h'
  | fault f =>
    unfold extractPath at he
    simp only [bind_run, require_run, modify_run] at he
    split at he
    · simp only [Res.bind_ok] at he
      split at he <;> simp at he
    · simp at he

end Casper
