import Verif.Props.Session
/-
C28..C30, C34, C35: chunked uploads and status words.
-/
namespace Casper
open M

/-! ### Parsing does not look at the command buffer -/

/-- Apply a function to the state reached. -/
def Res.mapS {σ α : Type} (f : σ → σ) : Res σ α → Res σ α
  | .ok a s => .ok a (f s)
  | .err x s => .err x (f s)
  | .fault x => .fault x

/-- The result of `m` does not depend on the command buffer, which it leaves alone. -/
def Blind {α : Type} (m : M Dev α) : Prop := ∀ d i, m { d with io := i } = (m d).mapS (fun t => { t with io := i })

theorem Blind.bind {α β : Type} {m : M Dev α} {f : α → M Dev β} (hm : Blind m) (hf : ∀ a, Blind (f a)) :
    Blind (m >>= f) := by
  intro d i
  rw [bind_run, bind_run, hm d i]
  cases m d with
  | ok a t => exact hf a t i
  | err x t => rfl
  | fault x => rfl

theorem Blind.getBind {β : Type} {f : Dev → M Dev β} (hf : ∀ a, Blind (f a)) (hi : ∀ d i, f { d with io := i } = f d) :
    Blind (get >>= f) := by
  intro d i
  rw [bind_run, bind_run, get_run, get_run, Res.bind_ok, Res.bind_ok, hi, hf]

theorem Blind.modify {f : Dev → Dev} (h : ∀ d i, f { d with io := i } = { f d with io := i }) :
    Blind (M.modify f) := by
  intro d i
  show Res.ok () (f { d with io := i }) = Res.ok () { f d with io := i }
  rw [h]

theorem Blind.fail {α : Type} (x : Nat) : Blind (M.fail x : M Dev α) := fun _ _ => rfl

theorem Blind.ite {α : Type} {c : Prop} [Decidable c] {m n : M Dev α} (hm : Blind m) (hn : Blind n) :
    Blind (if c then m else n) := by split <;> assumption

theorem parserInit_blind : Blind parserInit := by
  intro d i; unfold parserInit; dsimp only; split <;> rfl

theorem runDeploy_blind {α : Type} (pl : Platform) (m : Env → M DS α) : Blind (runDeploy pl m) := by
  intro d i; unfold runDeploy
  show (match m (d.env pl) ⟨0, d.epo, d.dep⟩ with | .ok a s => _ | .err x s => _ | .fault f => _) = _
  cases m (d.env pl) ⟨0, d.epo, d.dep⟩ <;> rfl

theorem runV1_blind (pl : Platform) : Blind (runV1 pl) := by
  intro d i; unfold runV1
  show (match readV1 (d.env pl) ⟨0, d.v1⟩ with | .ok a s => _ | .err x s => _ | .fault f => _) = _
  cases readV1 (d.env pl) ⟨0, d.v1⟩ <;> rfl

theorem runP_blind {α : Type} (pl : Platform) (m : Env → P α) : Blind (runP pl m) := by
  intro d i; unfold runP
  show (match m (d.env pl) 0 with | .ok a s => _ | .err x s => _ | .fault f => _) = _
  cases m (d.env pl) 0 <;> rfl

theorem parserParse_blind (pl : Platform) : Blind (parserParse pl) := by
  unfold parserParse
  refine .bind parserInit_blind fun _ => .bind (runP_blind _ _) fun c => .bind (.modify fun _ _ => rfl) fun _ =>
    .getBind (fun d => ?_) (fun _ _ => rfl)
  exact .ite (.fail _) (.ite (.bind (.modify fun _ _ => rfl) fun _ => runDeploy_blind _ _)
    (.ite (.bind (.modify fun _ _ => rfl) fun _ => runV1_blind _) (.fail _)))

theorem txParse_blind (pl : Platform) : Blind (txParse pl) := by
  unfold txParse parserValidate
  exact .bind (parserParse_blind pl) fun _ => .getBind (fun _ => runP_blind _ _) (fun _ _ => rfl)

theorem parseMessage_blind (pl : Platform) : Blind (parseMessage pl) := by
  unfold parseMessage
  exact .bind parserInit_blind fun _ => .bind (.modify fun _ _ => rfl) fun _ => .bind (runP_blind _ _) fun _ =>
    .modify fun _ _ => rfl

/-! ### C28 -/

/-- The commands of an upload: INIT with the path, an ADD for each of `cs`, LAST with `last`. -/
def upload (ins : UInt8) (path : Bytes) (cs : List Bytes) (last : Bytes) : List Event :=
  .apdu (apdu ins 0 path) true :: (cs.map fun c => .apdu (apdu ins 1 c) true) ++ [.apdu (apdu ins 2 last) true]

theorem Dev.store_nil {pl : Platform} {d : Dev} (h : d.Ok pl) : d.store [] = d := by
  unfold Dev.store; simp

theorem Dev.store_store {pl : Platform} {d : Dev} (h : d.Ok pl) (xs ys : Bytes) (hx : d.pos + xs.length ≤ pl.cap) :
    (d.store xs).store ys = d.store (xs ++ ys) := by
  have h1 := Dev.store_data h xs
  unfold Dev.data at h1
  have h2 : (d.mem.take d.pos).length = d.pos := by simp [h.1]; have := h.2; omega
  unfold Dev.store at h1 ⊢
  simp only [Dev.mk.injEq, true_and, and_true] at h1 ⊢
  constructor
  · rw [h1]
    have : (d.mem.take d.pos ++ xs ++ d.mem.drop (d.pos + xs.length)).drop (d.pos + xs.length + ys.length)
        = d.mem.drop (d.pos + (xs ++ ys).length) := by
      have e : d.pos + xs.length + ys.length = (d.mem.take d.pos ++ xs).length + ys.length := by
        simp only [List.length_append, h2]
      rw [e, List.drop_length_add_append, List.drop_drop]
      congr 1
      simp; omega
    rw [this]; simp
  · simp; omega

theorem step_init {pl : Platform} {d : Dev} {ins : UInt8} (hi : ins = 2 ∨ ins = 3) {path : Bytes} (hd : d.Ok pl)
    (hl : path.length = 20) (hp : casperPath path) :
    step pl d (.apdu (apdu ins 0 path) true) =
      ({ d.recv (apdu ins 0 path) with pos := 0, hdPath := path, txInit := true }, .reply [] 0x9000) := by
  have hc := apdu_chunk ins 0 path
  have hpath : ((apdu ins 0 path).drop 5).take 20 = path := by rw [apdu_drop, ← hl, List.take_length]
  have h25 : 25 ≤ (apdu ins 0 path).length := by simp [apdu, hl]
  have hpc : processChunk pl (apdu ins 0 path) (d.recv (apdu ins 0 path)) =
      .ok false { d.recv (apdu ins 0 path) with pos := 0, hdPath := path, txInit := true } := by
    unfold processChunk
    simp only [bind_run, require_run, if_pos hc.p2, if_pos hc.len, Res.bind_ok, if_pos hc.p1, modify_run]
    rw [extractPath_ok h25 (by rw [hpath]; exact hp), hpath]
    rfl
  rcases hi with rfl | rfl
  · rw [step_apdu, dispatch_sign hc, handleSign, bind_run, hpc]; rfl
  · rw [step_apdu, dispatch_message hc, handleSignMessage, bind_run, hpc]; rfl

theorem step_add {pl : Platform} {d : Dev} {ins : UInt8} (hi : ins = 2 ∨ ins = 3) {xs : Bytes} (ht : d.txInit = true)
    (hf : d.pos + xs.length ≤ pl.cap) :
    step pl d (.apdu (apdu ins 1 xs) true) = ((d.recv (apdu ins 1 xs)).store xs, .reply [] 0x9000) := by
  have hc := apdu_chunk ins 1 xs
  have hpc := processChunk_stored (pl := pl) (d := d.recv (apdu ins 1 xs)) hc (.inl rfl) ht (by rw [apdu_drop]; exact hf)
  rw [apdu_drop] at hpc
  rcases hi with rfl | rfl
  · rw [step_apdu, dispatch_sign hc, handleSign, bind_run, hpc]; rfl
  · rw [step_apdu, dispatch_message hc, handleSignMessage, bind_run, hpc]; rfl

theorem run_adds {pl : Platform} {ins : UInt8} (hi : ins = 2 ∨ ins = 3) (cs : List Bytes) (d : Dev) (hd : d.Ok pl)
    (ht : d.txInit = true) (htx : d.tx = 0) (hf : d.pos + cs.flatten.length ≤ pl.cap) :
    ∃ i, run pl d (cs.map fun c => .apdu (apdu ins 1 c) true) =
      ({ d.store cs.flatten with io := i }, List.replicate cs.length (.reply [] 0x9000)) := by
  induction cs generalizing d with
  | nil => exact ⟨d.io, by simp [run, Dev.store_nil hd]⟩
  | cons c cs ih =>
    simp only [List.flatten_cons, List.length_append] at hf
    simp only [List.map_cons, run]
    rw [step_add hi ht (by omega)]
    have hok : ((d.recv (apdu ins 1 c)).store c).Ok pl := Dev.Ok.store (d := d.recv _) hd (by
      show d.pos + c.length ≤ pl.cap; omega)
    obtain ⟨i, hr⟩ := ih ((d.recv (apdu ins 1 c)).store c) hok ht rfl (by
      show d.pos + c.length + cs.flatten.length ≤ pl.cap; omega)
    refine ⟨i, ?_⟩
    rw [hr]
    have := Dev.store_store (d := d.recv (apdu ins 1 c)) hd c cs.flatten (by show d.pos + c.length ≤ pl.cap; omega)
    rw [this]
    simp only [List.flatten_cons, List.length_cons, List.replicate_succ, Prod.mk.injEq, and_true]
    simp only [Dev.store, Dev.recv, htx]

/-- What happens after the LAST chunk is stored. -/
def finish (pl : Platform) (ins : UInt8) : M Dev Unit :=
  if ins = 2 then do
    modify fun d => { d with txInit := false }
    orExplain (txParse pl)
    modify fun d => { d with review := some .tx }
  else do
    orExplain (parseMessage pl)
    modify fun d => { d with review := some .message }

/-- Outcome as seen by the host, from the outcome of the handler. -/
def outOf (d : Dev) : Res Dev Unit → Dev × Out
  | .ok _ d' => (d', .pending)
  | .err sw d' => (d', .reply (d'.io.take d'.tx) sw)
  | .fault f => (d, .crash f)

theorem step_last {pl : Platform} {d : Dev} {ins : UInt8} (hi : ins = 2 ∨ ins = 3) {xs : Bytes} (ht : d.txInit = true)
    (hf : d.pos + xs.length ≤ pl.cap) :
    step pl d (.apdu (apdu ins 2 xs) true) = outOf d (finish pl ins ((d.recv (apdu ins 2 xs)).store xs)) := by
  have hc := apdu_chunk ins 2 xs
  have hpc := processChunk_stored (pl := pl) (d := d.recv (apdu ins 2 xs)) hc (.inr rfl) ht (by rw [apdu_drop]; exact hf)
  rw [apdu_drop] at hpc
  rcases hi with rfl | rfl
  · rw [step_apdu, dispatch_sign hc, handleSign, bind_run, hpc]; rfl
  · rw [step_apdu, dispatch_message hc, handleSignMessage, bind_run, hpc]; rfl

theorem orExplain_blind {m : M Dev Unit} (hm : Blind m) (d : Dev) (i j : Bytes) (k : Dev → Dev)
    (hk : ∀ d i, k { d with io := i } = { k d with io := i }) (e e' : Dev) :
    (outOf e ((orExplain m >>= fun _ => modify k) { d with io := i })).2 =
      (outOf e' ((orExplain m >>= fun _ => modify k) { d with io := j })).2 ∧
    ((∀ f, (outOf e ((orExplain m >>= fun _ => modify k) { d with io := i })).2 ≠ .crash f) →
      ∃ n, (outOf e ((orExplain m >>= fun _ => modify k) { d with io := i })).1 =
        { (outOf e' ((orExplain m >>= fun _ => modify k) { d with io := j })).1 with io := n }) := by
  unfold orExplain
  simp only [bind_run, attempt_run, hm d i, hm d j]
  cases m d with
  | ok a t =>
    refine ⟨rfl, fun _ => ⟨i, ?_⟩⟩
    show k { t with io := i } = { k { t with io := j } with io := i }
    rw [hk t i, hk t j]
  | err x t =>
    simp only [Res.mapS, Res.bind_ok, bind_run, fail_run, modify_run, outOf, Res.bind_err, poke_take]
    exact ⟨trivial, fun _ => ⟨_, rfl⟩⟩
  | fault f => exact ⟨rfl, fun h => absurd rfl (h f)⟩

theorem finish_blind (pl : Platform) (ins : UInt8) (d : Dev) (i j : Bytes) (e e' : Dev) :
    (outOf e (finish pl ins { d with io := i })).2 = (outOf e' (finish pl ins { d with io := j })).2 ∧
    ((∀ f, (outOf e (finish pl ins { d with io := i })).2 ≠ .crash f) →
      ∃ n, (outOf e (finish pl ins { d with io := i })).1 =
        { (outOf e' (finish pl ins { d with io := j })).1 with io := n }) := by
  unfold finish
  split
  · exact orExplain_blind (txParse_blind pl) { d with txInit := false } i j _ (fun _ _ => rfl) e e'
  · exact orExplain_blind (parseMessage_blind pl) d i j _ (fun _ _ => rfl) e e'

theorem keeps_data {pl : Platform} {ins : UInt8} {s : Dev} (e : Dev)
    (h : ∀ f, (outOf e (finish pl ins s)).2 ≠ .crash f) : (outOf e (finish pl ins s)).1.data = s.data := by
  have hs : Keeps (fun a b : Dev => b.data = a.data) (finish pl ins) := by
    have core : ∀ {m : M Dev Unit}, Keeps SameCore m → Keeps (fun a b : Dev => b.data = a.data) m := by
      intro m hm s
      constructor
      · intro a t h'; have := (hm s).1 a t h'; unfold SameCore at this; rw [this]; rfl
      · intro a t h'; have := (hm s).2 a t h'; unfold SameCore at this; rw [this]; rfl
    have tr : ∀ a b c : Dev, b.data = a.data → c.data = b.data → c.data = a.data := fun _ _ _ h h' => h'.trans h
    have expl : ∀ {m : M Dev Unit}, Keeps SameCore m → Keeps (fun a b : Dev => b.data = a.data) (orExplain m) := by
      intro m hm
      unfold orExplain
      refine .bind tr (.attempt (core hm)) fun r => ?_
      split
      · exact Keeps.pure (R := fun a b : Dev => b.data = a.data) (fun _ => rfl) _
      · exact .bind tr (.modify fun _ => rfl) fun _ =>
          Keeps.fail (R := fun a b : Dev => b.data = a.data) (fun _ => rfl) _
    unfold finish
    split
    · exact .bind tr (.modify fun _ => rfl) fun _ => .bind tr (expl (txParse_core pl)) fun _ => .modify fun _ => rfl
    · exact .bind tr (expl (parseMessage_core pl)) fun _ => .modify fun _ => rfl
  cases hr : finish pl ins s with
  | ok a t => exact (hs s).1 a t hr
  | err x t => exact (hs s).2 x t hr
  | fault f => rw [hr] at h; exact absurd rfl (h f)

/-- **C28.** Upload `data` in any chunks (that fit) from any state: every chunk but the last is answered 0x9000, and
the final answer is the same as for an upload in one chunk; so is the final state (data, path, parsed transaction,
pending review, ...), up to leftovers in the command buffer.  The data seen is the concatenation. -/
theorem C28_chunking (pl : Platform) (d : Dev) (hd : d.Ok pl) (ins : UInt8) (hi : ins = 2 ∨ ins = 3) (path : Bytes)
    (hl : path.length = 20) (hp : casperPath path) (cs : List Bytes) (last : Bytes)
    (hfit : (cs.flatten ++ last).length ≤ pl.cap) :
    ∃ out, (run pl d (upload ins path cs last)).2 = List.replicate (cs.length + 1) (.reply [] 0x9000) ++ [out] ∧
      (run pl d (upload ins path [] (cs.flatten ++ last))).2 = [.reply [] 0x9000, out] ∧
      ((∀ f, out ≠ .crash f) →
        (run pl d (upload ins path cs last)).1.data = cs.flatten ++ last ∧
        ∃ i, (run pl d (upload ins path cs last)).1 =
          { (run pl d (upload ins path [] (cs.flatten ++ last))).1 with io := i }) := by
  simp only [List.length_append] at hfit
  -- the state after INIT
  have h0 := step_init (pl := pl) hi hd hl hp
  generalize hs0 : ({ d.recv (apdu ins 0 path) with pos := 0, hdPath := path, txInit := true } : Dev) = s0 at h0
  have hok0 : s0.Ok pl := by subst hs0; exact ⟨hd.1, Nat.zero_le _⟩
  have ht0 : s0.txInit = true := by subst hs0; rfl
  have hx0 : s0.tx = 0 := by subst hs0; rfl
  have hpos0 : s0.pos = 0 := by subst hs0; rfl
  have hd0 : s0.data = [] := by simp [Dev.data, hpos0]
  -- after the ADD chunks
  obtain ⟨i, hadds⟩ := run_adds (pl := pl) hi cs s0 hok0 ht0 hx0 (by omega)
  have hlast := step_last (pl := pl) (d := { s0.store cs.flatten with io := i }) hi (xs := last) ht0 (by
    show s0.pos + cs.flatten.length + last.length ≤ pl.cap; omega)
  have hone := step_last (pl := pl) (d := s0) hi (xs := cs.flatten ++ last) ht0 (by
    simp only [List.length_append]; omega)
  have hA : ((({ s0.store cs.flatten with io := i } : Dev).recv (apdu ins 2 last)).store last) =
      { s0.store (cs.flatten ++ last) with io := poke i (apdu ins 2 last) } := by
    rw [← Dev.store_store hok0 cs.flatten last (by omega)]
    simp only [Dev.store, Dev.recv, hx0]
  have hB : ((s0.recv (apdu ins 2 (cs.flatten ++ last))).store (cs.flatten ++ last)) =
      { s0.store (cs.flatten ++ last) with io := poke s0.io (apdu ins 2 (cs.flatten ++ last)) } := by
    simp only [Dev.store, Dev.recv, hx0]
  rw [hA] at hlast
  rw [hB] at hone
  have hb := finish_blind pl ins (s0.store (cs.flatten ++ last)) (poke i (apdu ins 2 last))
    (poke s0.io (apdu ins 2 (cs.flatten ++ last))) { s0.store cs.flatten with io := i } s0
  have hkd := keeps_data (pl := pl) (ins := ins)
    (s := { s0.store (cs.flatten ++ last) with io := poke i (apdu ins 2 last) }) { s0.store cs.flatten with io := i }
  have hrun : run pl d (upload ins path cs last) =
      ((outOf { s0.store cs.flatten with io := i }
        (finish pl ins { s0.store (cs.flatten ++ last) with io := poke i (apdu ins 2 last) })).1,
       List.replicate (cs.length + 1) (.reply [] 0x9000) ++
        [(outOf { s0.store cs.flatten with io := i }
          (finish pl ins { s0.store (cs.flatten ++ last) with io := poke i (apdu ins 2 last) })).2]) := by
    unfold upload
    rw [List.cons_append, run, h0, run_append, hadds]
    simp only [run, hlast, List.replicate_succ, List.cons_append]
  have hrun1 : run pl d (upload ins path [] (cs.flatten ++ last)) =
      ((outOf s0 (finish pl ins { s0.store (cs.flatten ++ last) with
          io := poke s0.io (apdu ins 2 (cs.flatten ++ last)) })).1,
       [.reply [] 0x9000, (outOf s0 (finish pl ins { s0.store (cs.flatten ++ last) with
          io := poke s0.io (apdu ins 2 (cs.flatten ++ last)) })).2]) := by
    unfold upload
    simp only [List.map_nil, List.cons_append, List.nil_append, run, h0, hone]
  rw [hrun, hrun1]
  refine ⟨_, rfl, ?_, ?_⟩
  · rw [hb.1]
  · intro hc
    refine ⟨?_, hb.2 hc⟩
    rw [hkd hc]
    have := Dev.store_data hok0 (cs.flatten ++ last)
    rw [hd0, List.nil_append] at this
    exact this

example : (run samplePl (Dev.init samplePl) (upload 3 (samplePath 0) [b!"Casper", [], b!" Message"] b!":\nhi")).2 =
    [.reply [] 0x9000, .reply [] 0x9000, .reply [] 0x9000, .reply [] 0x9000, .pending] := by decide +kernel

/-! ### C29 -/

theorem processChunk_full {pl : Platform} {d : Dev} {ins p1 : UInt8} {rx : Bytes} (h : Chunk ins p1 rx)
    (hd : d.pos ≤ pl.cap) (hp : p1 = 1 ∨ p1 = 2) (ht : d.txInit = true)
    (hf : ¬ d.pos + (rx.drop 5).length ≤ pl.cap) :
    processChunk pl rx d = .err 0x6983 { d with txInit := false } := by
  unfold processChunk
  have h1 := h.p1
  have hp' : p1 ≠ 0 := by rcases hp with rfl | rfl <;> decide
  simp only [bind_run, require_run, if_pos h.p2, if_pos h.len, Res.bind_ok, h1, if_neg hp', if_pos hp, get_run, ht,
    if_true, txAppend_full hd hf]
  rfl

/-- **C29.** In the sign and sign-message flows a chunk that does not fit is refused with 0x6983; nothing is stored and
the session is closed; from then on, whatever is sent except INIT, no signing command succeeds. -/
theorem C29_oversize (pl : Platform) (d : Dev) (hd : d.Ok pl) (ins p1 : UInt8) (hi : ins = 2 ∨ ins = 3)
    (hp : p1 = 1 ∨ p1 = 2) (rx : Bytes) (hc : Chunk ins p1 rx) (ht : d.txInit = true)
    (hf : pl.cap < d.pos + (rx.drop 5).length) :
    step pl d (.apdu rx true) = ({ d with io := poke d.io rx, tx := 0, txInit := false }, .reply [] 0x6983) ∧
    ∀ evs, (∀ rx pin, .apdu rx pin ∈ evs → ¬ isInit rx) → ∀ rx' pin,
      (rx'.getD 1 0 = 2 ∨ rx'.getD 1 0 = 3 ∨ rx'.getD 1 0 = 4) → ¬ isInit rx' →
      ∃ data sw, (step pl (run pl (step pl d (.apdu rx true)).1 evs).1 (.apdu rx' pin)).2 = .reply data sw ∧ sw ≠ 0x9000 := by
  have hpc := processChunk_full (pl := pl) (d := d.recv rx) hc hd.2 hp ht (by
    show ¬ d.pos + (rx.drop 5).length ≤ pl.cap; omega)
  have h1 : step pl d (.apdu rx true) = ({ d with io := poke d.io rx, tx := 0, txInit := false }, .reply [] 0x6983) := by
    rcases hi with rfl | rfl
    · rw [step_apdu, dispatch_sign hc, handleSign, bind_run, hpc]; rfl
    · rw [step_apdu, dispatch_message hc, handleSignMessage, bind_run, hpc]; rfl
  refine ⟨h1, fun evs he rx' pin hi' hni => ?_⟩
  rw [h1]
  exact (closed_run (d := { d with io := poke d.io rx, tx := 0, txInit := false }) hd rfl evs he).2.2 rx' pin hi' hni

example : (run { samplePl with cap := 3 } (Dev.init { samplePl with cap := 3 }) [.apdu (apdu 2 0 (samplePath 0)) true,
    .apdu (apdu 2 1 [1, 2]) true, .apdu (apdu 2 1 [3, 4]) true, .apdu (apdu 2 2 []) true]).2 =
    [.reply [] 0x9000, .reply [] 0x9000, .reply [] 0x6983, .reply [] 0x6987] := by decide +kernel

/-! ### C30 -/

theorem keeps_closed {m : M Dev Unit} (hm : Keeps SameCore m) : Keeps (fun a b : Dev => b.txInit = a.txInit) m := by
  intro s
  constructor
  · intro a t h'; have := (hm s).1 a t h'; unfold SameCore at this; rw [this]
  · intro a t h'; have := (hm s).2 a t h'; unfold SameCore at this; rw [this]

/-- `false` once, `false` for ever: used for the part of a handler after `tx_initialized = false`. -/
def Shut (a b : Dev) : Prop := a.txInit = false → b.txInit = false

theorem Shut.trans (a b c : Dev) (h : Shut a b) (h' : Shut b c) : Shut a c := fun x => h' (h x)

theorem Shut.core {m : M Dev Unit} (hm : Keeps SameCore m) : Keeps Shut m := by
  intro s
  constructor
  · intro a t h'; have := (hm s).1 a t h'; unfold SameCore at this; rw [this]; exact id
  · intro a t h'; have := (hm s).2 a t h'; unfold SameCore at this; rw [this]; exact id

theorem Shut.explain {m : M Dev Unit} (hm : Keeps Shut m) : Keeps Shut (orExplain m) := by
  unfold orExplain
  refine .bind Shut.trans (.attempt hm) fun r => ?_
  split
  · exact .pure (fun _ => id) _
  · exact .bind Shut.trans (.modify fun _ => id) fun _ => .fail (fun _ => id) _

theorem Shut.throw {m : M Dev Unit} (hm : Keeps Shut m) {b : Dev → Dev} (hb : ∀ d, Shut d (b d)) (sw : Nat) :
    Keeps Shut (orThrow m b sw) := by
  unfold orThrow
  refine .bind Shut.trans (.attempt hm) fun r => ?_
  split
  · exact .pure (fun _ => id) _
  · exact .bind Shut.trans (.modify hb) fun _ => .fail (fun _ => id) _

/-- **C30, transactions and raw WASM.** Whatever the outcome (unless undefined behaviour), after a LAST chunk of SIGN or
of raw-WASM signing no session is open.  Missing from the full property: SIGN-MESSAGE, see `C30_message_false`. -/
theorem C30_closed_partial (pl : Platform) (d : Dev) (hd : d.Ok pl) (ins : UInt8) (hi : ins = 2 ∨ ins = 4) (rx : Bytes)
    (hc : Chunk ins 2 rx) (hok : ∀ f, (step pl d (.apdu rx true)).2 ≠ .crash f) :
    (step pl d (.apdu rx true)).1.txInit = false := by
  have concl : ∀ {r : Res Dev Unit}, (∀ a t, r = .ok a t → t.txInit = false) → (∀ x t, r = .err x t → t.txInit = false) →
      (∀ f, (outOf d r).2 ≠ .crash f) → (outOf d r).1.txInit = false := by
    intro r h1 h2 h3
    cases r with
    | ok a t => exact h1 a t rfl
    | err x t => exact h2 x t rfl
    | fault f => exact absurd rfl (h3 f)
  have hstep : step pl d (.apdu rx true) = outOf d (dispatch pl rx true (d.recv rx)) := by
    rw [step_apdu]; cases dispatch pl rx true (d.recv rx) <;> rfl
  rw [hstep] at hok ⊢
  rcases hi with rfl | rfl
  · rw [dispatch_sign hc] at hok ⊢
    rw [handleSign, bind_run] at hok ⊢
    by_cases ht : d.txInit = true
    · by_cases hf : d.pos + (rx.drop 5).length ≤ pl.cap
      · rw [processChunk_stored (d := d.recv rx) hc (.inr rfl) ht hf] at hok ⊢
        simp only [Res.bind_ok, beq_self_eq_true, if_true, bind_run, modify_run] at hok ⊢
        have hk : Keeps Shut (orExplain (txParse pl) >>= fun _ => modify fun d => { d with review := some .tx }) :=
          .bind Shut.trans (Shut.explain (Shut.core (txParse_core pl))) fun _ => .modify fun _ => id
        exact concl (fun a t h => (hk _).1 a t h rfl) (fun x t h => (hk _).2 x t h rfl) hok
      · rw [processChunk_full (d := d.recv rx) hc hd.2 (.inr rfl) ht hf]
        rfl
    · have ht' : d.txInit = false := by simpa using ht
      rw [processChunk_notInit (d := d.recv rx) hc (.inr rfl) ht']
      exact ht'
  · rw [dispatch_wasm hc] at hok ⊢
    rw [handleSignWasm, bind_run, modify_run, Res.bind_ok, bind_run] at hok ⊢
    by_cases ht : d.txInit = true
    · generalize hs : ({ d.recv rx with wasmCounter := u32 ((d.recv rx).wasmCounter + 1) } : Dev) = s at hok ⊢
      have hts : s.txInit = true := by subst hs; exact ht
      have hd' : s.pos ≤ pl.cap := by subst hs; exact hd.2
      have hp2 : ¬ (2 : UInt8) = 0 := by decide
      -- the chunk
      have hchunk : (∃ t, processWasmChunk pl rx s = .ok true t) ∨ (∃ x t, processWasmChunk pl rx s = .err x t ∧ t.txInit = false) ∨
          ∃ f, processWasmChunk pl rx s = .fault f := by
        unfold processWasmChunk
        simp only [bind_run, require_run, if_pos hc.p2, if_pos hc.len, Res.bind_ok, hc.p1, if_neg hp2, or_true, if_true,
          get_run, hts]
        have happ : ∃ b t, txAppend pl (rx.drop 5) s = .ok b t := by
          unfold txAppend; split <;> exact ⟨_, _, rfl⟩
        obtain ⟨b, t, happ⟩ := happ
        rw [happ]
        simp only [Res.bind_ok, wasmFull, bind_run, get_run]
        split
        · unfold orThrow
          simp only [bind_run, attempt_run]
          cases parseWasm pl t with
          | ok a u => exact .inl ⟨_, rfl⟩
          | err x u => exact .inr (.inl ⟨_, _, rfl, rfl⟩)
          | fault f => exact .inr (.inr ⟨_, rfl⟩)
        · exact .inl ⟨_, rfl⟩
      rcases hchunk with ⟨t, h⟩ | ⟨x, t, h, hx⟩ | ⟨f, h⟩
      · rw [h] at hok ⊢
        simp only [Res.bind_ok, if_true] at hok ⊢
        rw [bind_run, modify_run, Res.bind_ok] at hok ⊢
        have hw : Keeps Shut (wasmEnd pl) := by
          unfold wasmEnd
          refine .bind Shut.trans (.get fun _ => id) fun _ => ?_
          split
          · exact Shut.throw (Shut.core (parseWasm_core pl)) (fun _ => id) _
          · exact .pure (fun _ => id) _
        have hv : Keeps Shut (txValidateWasm pl) := fun s =>
          ⟨fun a t h => (txValidateWasm_same pl s).1 a t h ▸ id, fun a t h => (txValidateWasm_same pl s).2 a t h ▸ id⟩
        have hk : Keeps Shut (wasmEnd pl >>= fun _ => orThrow (txValidateWasm pl) id 0x6400 >>= fun _ =>
            modify fun d => { d with review := some .wasm }) :=
          .bind Shut.trans hw fun _ => .bind Shut.trans (Shut.throw hv (fun _ => id) _) fun _ => .modify fun _ => id
        exact concl (fun a t h => (hk _).1 a t h rfl) (fun x t h => (hk _).2 x t h rfl) hok
      · rw [h]; exact hx
      · rw [h] at hok; exact absurd rfl (hok f)
    · have ht' : d.txInit = false := by simpa using ht
      rw [processWasmChunk_notInit (d := { d.recv rx with wasmCounter := _ }) hc (.inr rfl) ht']
      exact ht'

/-- **C30 fails for messages.** After the LAST chunk of a message was accepted, and after the user signed it, another
LAST chunk is accepted without INIT, appending to the old message. -/
theorem C30_message_false :
    (run samplePl (Dev.init samplePl) [.apdu (apdu 3 0 (samplePath 0)) true,
      .apdu (apdu 3 2 b!"Casper Message:\npay 1") true, .approve, .apdu (apdu 3 2 b!"00") true, .approve]).2 =
    [.reply [] 0x9000, .pending, .reply (samplePath 0 ++ 0x53 :: b!"Casper Message:\npay 1") 0x9000,
     .pending, .reply (samplePath 0 ++ 0x53 :: b!"Casper Message:\npay 100") 0x9000] := by decide +kernel

example : (run samplePl (Dev.init samplePl) [.apdu (apdu 2 0 (samplePath 0)) true, .apdu (apdu 2 2 [1]) true,
    .apdu (apdu 2 2 [0, 5]) true]).2 =
    [.reply [] 0x9000, .reply b!"Unexpected buffer end" 0x6984, .reply [] 0x6987] := by decide +kernel

/-! ### C34 -/

/-- The status words in use. -/
def statusWords : List Nat :=
  [0x9000, 0x6400, 0x6700, 0x6983, 0x6984, 0x6986, 0x6987, 0x6B00, 0x6D00, 0x6E00, 0x6F01]

/-- Every error of `m` is in `S`. -/
def Errs {α : Type} (S : List Nat) (m : M Dev α) : Prop := ∀ s x t, m s = .err x t → x ∈ S

theorem Errs.bind {S : List Nat} {α β : Type} {m : M Dev α} {f : α → M Dev β} (hm : Errs S m) (hf : ∀ a, Errs S (f a)) :
    Errs S (m >>= f) := by
  intro s x t h
  rw [bind_run] at h
  cases h1 : m s with
  | ok a s' => rw [h1] at h; exact hf a s' x t h
  | err y s' => rw [h1] at h; simp at h; obtain ⟨rfl, rfl⟩ := h; exact hm s _ _ h1
  | fault f => rw [h1] at h; simp at h

section
variable {S : List Nat} {α : Type}
theorem Errs.pure (a : α) : Errs S (Pure.pure a : M Dev α) := by intro s x t h; simp at h
theorem Errs.get : Errs S (M.get : M Dev Dev) := by intro s x t h; simp at h
theorem Errs.modify (f : Dev → Dev) : Errs S (M.modify f : M Dev Unit) := by intro s x t h; simp at h
theorem Errs.fail {y : Nat} (hy : y ∈ S) : Errs S (M.fail y : M Dev α) := by
  intro s x t h; simp at h; exact h.1 ▸ hy
theorem Errs.require (c : Prop) [Decidable c] {y : Nat} (hy : y ∈ S) : Errs S (M.require c y : M Dev Unit) := by
  intro s x t h; rw [require_eq_err] at h; exact h.2.1 ▸ hy
theorem Errs.attempt (m : M Dev α) : Errs S (M.attempt m) := by
  intro s x t h; rw [attempt_run] at h; split at h <;> simp at h
end

theorem errs_extract (rx : Bytes) : Errs statusWords (extractPath rx) := by
  unfold extractPath
  exact .bind (.require _ (by decide)) fun _ => .bind (.modify _) fun _ => .require _ (by decide)

theorem errs_append (pl : Platform) (xs : Bytes) : Errs statusWords (txAppend pl xs) := by
  intro s x t h; unfold txAppend at h; split at h <;> simp at h

theorem errs_throw (m : M Dev Unit) (b : Dev → Dev) : Errs statusWords (orThrow m b 0x6400) := by
  unfold orThrow
  refine .bind (.attempt _) fun r => ?_
  split
  · exact .pure _
  · exact .bind (.modify _) fun _ => .fail (by decide)

theorem errs_explain (m : M Dev Unit) : Errs statusWords (orExplain m) := by
  unfold orExplain
  refine .bind (.attempt _) fun r => ?_
  split
  · exact .pure _
  · exact .bind (.modify _) fun _ => .fail (by decide)

theorem errs_chunk (pl : Platform) (rx : Bytes) : Errs statusWords (processChunk pl rx) := by
  unfold processChunk
  refine .bind (.require _ (by decide)) fun _ => .bind (.require _ (by decide)) fun _ => ?_
  dsimp only
  split
  · exact .bind (.modify _) fun _ => .bind (errs_extract rx) fun _ => .bind (.modify _) fun _ => .pure _
  split
  · refine .bind .get fun _ => .bind (.require _ (by decide)) fun _ => .bind (errs_append _ _) fun b => ?_
    split
    · exact .pure _
    · exact .bind (.modify _) fun _ => .fail (by decide)
  · exact .bind (.modify _) fun _ => .fail (by decide)

theorem errs_wasmChunk (pl : Platform) (rx : Bytes) : Errs statusWords (processWasmChunk pl rx) := by
  unfold processWasmChunk
  refine .bind (.require _ (by decide)) fun _ => .bind (.require _ (by decide)) fun _ => ?_
  dsimp only
  split
  · exact .bind (.modify _) fun _ => .bind (errs_extract rx) fun _ => .bind (.modify _) fun _ => .pure _
  split
  · refine .bind .get fun _ => .bind (.require _ (by decide)) fun _ => .bind (errs_append _ _) fun b =>
      .bind ?_ fun _ => .pure _
    unfold wasmFull
    refine .bind .get fun _ => ?_
    split
    · exact .bind (errs_throw _ _) fun _ => .modify _
    · exact .pure _
  · exact .bind (.modify _) fun _ => .fail (by decide)

theorem errs_dispatch (pl : Platform) (rx : Bytes) (pin : Bool) : Errs statusWords (dispatch pl rx pin) := by
  unfold dispatch
  refine .bind .get fun _ => .bind (.require _ (by decide)) fun _ => .bind (.require _ (by decide)) fun _ => ?_
  dsimp only
  split
  · exact .bind (.modify _) fun _ => .fail (by decide)
  split
  · refine .bind (.require _ (by decide)) fun _ => ?_
    split
    · unfold handleGetAddr
      refine .bind (errs_extract rx) fun _ => .bind .get fun _ => ?_
      split
      · exact .bind (.modify _) fun _ => .fail (by decide)
      · refine .bind (.modify _) fun _ => ?_
        split
        · exact .modify _
        · exact .bind (.modify _) fun _ => .fail (by decide)
    split
    · unfold handleSign
      refine .bind (errs_chunk pl rx) fun _ => ?_
      split
      · exact .bind (.modify _) fun _ => .bind (errs_explain _) fun _ => .modify _
      · exact .fail (by decide)
    split
    · unfold handleSignMessage
      refine .bind (errs_chunk pl rx) fun _ => ?_
      split
      · exact .bind (errs_explain _) fun _ => .modify _
      · exact .fail (by decide)
    · unfold handleSignWasm
      refine .bind (.modify _) fun _ => .bind (errs_wasmChunk pl rx) fun _ => ?_
      split
      · refine .bind (.modify _) fun _ => .bind ?_ fun _ => .bind (errs_throw _ _) fun _ => .modify _
        unfold wasmEnd
        refine .bind .get fun _ => ?_
        split
        · exact errs_throw _ _
        · exact .pure _
      · exact .fail (by decide)
  · exact .fail (by decide)

/-- The announced length of the answer stays small. -/
def ShortAnswer (pl : Platform) (a b : Dev) : Prop :=
  a.tx ≤ max 101 (5 + pl.targetId.length) → b.tx ≤ max 101 (5 + pl.targetId.length)

theorem short_elementary (pl : Platform) : Elementary pl (ShortAnswer pl) where
  refl _ := id
  trans _ _ _ h h' := fun x => h' (h x)
  core d d' h := by unfold SameCore at h; rw [h]; exact id
  pos _ := id
  path _ _ := id
  init _ _ := id
  store _ _ _ := id
  wasm _ _ _ := id
  idle _ := id
  io d i t a h := by unfold ShortAnswer; dsimp only; omega

/-- **C34, status words.** Whatever the command and the state, an immediate answer is at most 101 bytes of data (or the
9 bytes of the version) followed by one of ten status words in 0x6xxx or 0x9000. -/
theorem C34_status_words (pl : Platform) (d d' : Dev) (rx : Bytes) (pin : Bool) (data : Bytes) (sw : Nat)
    (h : step pl d (.apdu rx pin) = (d', .reply data sw)) :
    sw ∈ statusWords ∧ data.length ≤ max 101 (5 + pl.targetId.length) := by
  rw [step_apdu] at h
  cases hdis : dispatch pl rx pin (d.recv rx) with
  | ok a t => rw [hdis] at h; simp at h
  | err x t =>
    rw [hdis] at h
    simp only [Prod.mk.injEq, Out.reply.injEq] at h
    obtain ⟨rfl, rfl, rfl⟩ := h
    refine ⟨errs_dispatch pl rx pin _ _ _ hdis, ?_⟩
    have := ((short_elementary pl).dispatch rx pin (d.recv rx)).2 x t hdis (Nat.zero_le _)
    rw [List.length_take]
    omega
  | fault f => rw [hdis] at h; simp at h

/-- **C34, specific codes.** Wrong class, short command, unknown instruction and (for the signing instructions) P2 ≠ 0. -/
theorem C34_specific (pl : Platform) (d : Dev) (rx : Bytes) (pin : Bool) :
    (rx ≠ [] → rx.getD 0 0 ≠ 0x11 → (step pl d (.apdu rx pin)).2 = .reply [] 0x6E00) ∧
    (rx ≠ [] → rx.getD 0 0 = 0x11 → rx.length < 5 → (step pl d (.apdu rx pin)).2 = .reply [] 0x6700) ∧
    (5 ≤ rx.length → rx.getD 0 0 = 0x11 → 4 < rx.getD 1 0 → (step pl d (.apdu rx pin)).2 = .reply [] 0x6D00) ∧
    (5 ≤ rx.length → rx.getD 0 0 = 0x11 → pin = true → (rx.getD 1 0 = 2 ∨ rx.getD 1 0 = 3 ∨ rx.getD 1 0 = 4) →
      rx.getD 3 0 ≠ 0 → (step pl d (.apdu rx pin)).2 = .reply [] 0x6B00) := by
  have hio : ∀ (h : rx ≠ []), (d.recv rx).io.getD 0 0 = rx.getD 0 0 := fun h =>
    poke_getD _ _ _ (List.length_pos_iff.2 h)
  refine ⟨fun h h0 => ?_, fun h h0 hl => ?_, fun hl h0 hi => ?_, fun hl h0 hp hi h3 => ?_⟩
  · rw [step_apdu, dispatch]
    simp only [bind_run, get_run, Res.bind_ok, require_run]
    rw [if_neg (by rw [hio h]; exact h0)]
    rfl
  · rw [step_apdu, dispatch]
    simp only [bind_run, get_run, Res.bind_ok, require_run]
    rw [if_pos (by rw [hio h]; exact h0), Res.bind_ok, if_neg (by omega)]
    rfl
  · rw [step_apdu, dispatch_eq pl d rx pin hl h0]
    have h1 : rx.getD 1 0 ≠ 0 := by intro h; rw [h] at hi; exact absurd hi (by decide)
    have h2 : ¬ (rx.getD 1 0 = 1 ∨ rx.getD 1 0 = 2 ∨ rx.getD 1 0 = 3 ∨ rx.getD 1 0 = 4) := by
      intro h; rcases h with h | h | h | h <;> rw [h] at hi <;> exact absurd hi (by decide)
    rw [if_neg h1, if_neg h2]
    rfl
  · subst hp
    rw [step_apdu, dispatch_eq pl d rx true hl h0]
    have hw : ∀ s, processWasmChunk pl rx s = .err 0x6B00 s := by
      intro s; unfold processWasmChunk
      simp only [bind_run, require_run, if_neg h3, Res.bind_err]
    have hs : ∀ s, processChunk pl rx s = .err 0x6B00 s := by
      intro s; unfold processChunk
      simp only [bind_run, require_run, if_neg h3, Res.bind_err]
    rcases hi with h | h | h <;> rw [h]
    · simp only [show ¬ (2 : UInt8) = 0 by decide, show ¬ (2 : UInt8) = 1 by decide, if_false, true_or, or_true, if_true]
      rw [handleSign, bind_run, hs]; rfl
    · simp only [show ¬ (3 : UInt8) = 0 by decide, show ¬ (3 : UInt8) = 1 by decide, show ¬ (3 : UInt8) = 2 by decide,
        if_false, true_or, or_true, if_true]
      rw [handleSignMessage, bind_run, hs]; rfl
    · simp only [show ¬ (4 : UInt8) = 0 by decide, show ¬ (4 : UInt8) = 1 by decide, show ¬ (4 : UInt8) = 2 by decide,
        show ¬ (4 : UInt8) = 3 by decide, if_false, or_true, if_true]
      rw [handleSignWasm, bind_run, modify_run, Res.bind_ok, bind_run, hw]; rfl

/-- Success of `process_chunk` that is not the last chunk. -/
theorem processChunk_false {pl : Platform} {rx : Bytes} {d d' : Dev} (hd : d.pos ≤ pl.cap)
    (h : processChunk pl rx d = .ok false d') :
    (rx.getD 2 0 = 0 ∧ 25 ≤ rx.length ∧ casperPath ((rx.drop 5).take 20) ∧
      d' = { d with pos := 0, hdPath := (rx.drop 5).take 20, txInit := true }) ∨
    (rx.getD 2 0 = 1 ∧ d.txInit = true ∧ d.pos + (rx.drop 5).length ≤ pl.cap ∧ d' = d.store (rx.drop 5)) := by
  have hc := processChunk_case pl rx d hd
  rw [h] at hc
  generalize hr : Res.ok false d' = r at hc
  cases hc <;> simp only [Res.ok.injEq, reduceCtorEq, true_and] at hr
  · rename_i a b c e
    exact .inl ⟨b, c, e, hr⟩
  · rename_i h3 hl h12 ht hf
    refine .inr ⟨?_, ht, hf, hr.2⟩
    rcases h12 with h12 | h12
    · exact h12
    · rw [h12] at hr; simp at hr

theorem no9000_chunk {pl : Platform} {rx : Bytes} {s t : Dev} (hd : s.pos ≤ pl.cap)
    (h : processChunk pl rx s = .err 0x9000 t) : False := by
  have hc := processChunk_case pl rx s hd
  rw [h] at hc
  generalize hr : Res.err 0x9000 t = r at hc
  cases hc <;> simp at hr

theorem no9000_explain {m : M Dev Unit} {s t : Dev} (h : orExplain m s = .err 0x9000 t) : False := by
  unfold orExplain at h
  rw [bind_run, attempt_run] at h
  cases hm : m s <;> rw [hm] at h <;> simp at h

/-- **C34, success means accepted.** 0x9000 to SIGN or SIGN-MESSAGE: the command was INIT with a Casper path (which now
is the signing path of an empty open session), or ADD in an open session whose data has been appended.  0x9000 to
GET_ADDR: the path is a Casper path and the answer is that of the key. -/
theorem C34_success (pl : Platform) (d d' : Dev) (hd : d.Ok pl) (rx : Bytes) (pin : Bool) (data : Bytes)
    (h : step pl d (.apdu rx pin) = (d', .reply data 0x9000)) :
    (rx.getD 1 0 = 0 ∨ rx.getD 1 0 = 1 ∨ rx.getD 1 0 = 2 ∨ rx.getD 1 0 = 3 ∨ rx.getD 1 0 = 4) ∧
    (rx.getD 1 0 ≠ 0 → pin = true) ∧
    (rx.getD 1 0 = 1 → rx.getD 2 0 = 0 ∧ casperPath ((rx.drop 5).take 20) ∧
      ∃ a, addressAnswer pl ((rx.drop 5).take 20) = some a ∧ (a.length = 101 → data = a)) ∧
    (rx.getD 1 0 = 2 ∨ rx.getD 1 0 = 3 →
      (rx.getD 2 0 = 0 ∧ casperPath ((rx.drop 5).take 20) ∧ d'.txInit = true ∧ d'.data = [] ∧
        d'.hdPath = (rx.drop 5).take 20) ∨
      (rx.getD 2 0 = 1 ∧ d.txInit = true ∧ d'.txInit = true ∧ d'.data = d.data ++ rx.drop 5 ∧ d'.hdPath = d.hdPath)) := by
  have hd' : (d.recv rx).Ok pl := hd
  rw [step_apdu] at h
  rcases dispatch_cases pl d rx pin with ⟨x, hx, hx'⟩ | ⟨-, -, hc⟩
  · rw [hx] at h
    simp only [Prod.mk.injEq, Out.reply.injEq] at h
    exfalso
    rcases hx' with rfl | rfl | ⟨rfl, -⟩ | rfl <;> simp at h
  -- what a chunk command answered 0x9000 did
  have chunk : ∀ t, processChunk pl rx (d.recv rx) = .ok false t →
      (rx.getD 2 0 = 0 ∧ casperPath ((rx.drop 5).take 20) ∧ t.txInit = true ∧ t.data = [] ∧
        t.hdPath = (rx.drop 5).take 20) ∨
      (rx.getD 2 0 = 1 ∧ d.txInit = true ∧ t.txInit = true ∧ t.data = d.data ++ rx.drop 5 ∧ t.hdPath = d.hdPath) := by
    intro t ht
    rcases processChunk_false hd'.2 ht with ⟨a, b, c, rfl⟩ | ⟨a, b, c, rfl⟩
    · exact .inl ⟨a, c, rfl, by simp [Dev.data], rfl⟩
    · exact .inr ⟨a, b, b, Dev.store_data hd' _, rfl⟩
  rcases hc with ⟨hi, hc⟩ | ⟨hp, hi, hc⟩ | ⟨hp, hi, hc⟩ | ⟨hp, hi, hc⟩ | ⟨hp, hi, hc⟩ <;> rw [hc] at h <;> rw [hi]
  · exact ⟨.inl rfl, fun h => absurd rfl h, fun h => absurd h (by decide), fun h => absurd h (by decide)⟩
  · refine ⟨.inr (.inl rfl), fun _ => hp, fun _ => ?_, fun h => absurd h (by decide)⟩
    have hcase := handleGetAddr_case pl rx (d.recv rx)
    generalize handleGetAddr pl rx (d.recv rx) = r at hcase h
    cases hcase with
    | reply a h1 h2 h3 h4 =>
      refine ⟨h4, h2, a, h3, fun ha => ?_⟩
      simp only [Prod.mk.injEq, Out.reply.injEq, and_true] at h
      rw [← h.2, ← ha, poke_take]
    | _ => exact absurd h (by simp only [Prod.mk.injEq, Out.reply.injEq, reduceCtorEq, and_false, not_false_eq_true, Nat.reduceEqDiff])
  · refine ⟨.inr (.inr (.inl rfl)), fun _ => hp, fun h => absurd h (by decide), fun _ => ?_⟩
    rw [handleSign, bind_run] at h
    cases hpc : processChunk pl rx (d.recv rx) with
    | ok b t =>
      rw [hpc] at h
      cases b with
      | false =>
        simp only [Res.bind_ok, Bool.false_eq_true, if_false, fail_run, Prod.mk.injEq] at h
        rw [← h.1]; exact chunk t hpc
      | true =>
        exfalso
        simp only [Res.bind_ok, if_true, bind_run, modify_run] at h
        cases he : orExplain (txParse pl) { t with txInit := false } with
        | ok a u => rw [he] at h; simp at h
        | err x u =>
          rw [he] at h
          simp only [Res.bind_err, Prod.mk.injEq, Out.reply.injEq] at h
          rw [h.2.2] at he
          exact no9000_explain he
        | fault f => rw [he] at h; simp at h
    | err x t =>
      exfalso
      rw [hpc] at h
      simp only [Res.bind_err, Prod.mk.injEq, Out.reply.injEq] at h
      rw [h.2.2] at hpc
      exact no9000_chunk hd'.2 hpc
    | fault f => rw [hpc] at h; simp at h
  · refine ⟨.inr (.inr (.inr (.inl rfl))), fun _ => hp, fun h => absurd h (by decide), fun _ => ?_⟩
    rw [handleSignMessage, bind_run] at h
    cases hpc : processChunk pl rx (d.recv rx) with
    | ok b t =>
      rw [hpc] at h
      cases b with
      | false =>
        simp only [Res.bind_ok, Bool.false_eq_true, if_false, fail_run, Prod.mk.injEq] at h
        rw [← h.1]; exact chunk t hpc
      | true =>
        exfalso
        simp only [Res.bind_ok, if_true, bind_run] at h
        cases he : orExplain (parseMessage pl) t with
        | ok a u => rw [he] at h; simp at h
        | err x u =>
          rw [he] at h
          simp only [Res.bind_err, Prod.mk.injEq, Out.reply.injEq] at h
          rw [h.2.2] at he
          exact no9000_explain he
        | fault f => rw [he] at h; simp at h
    | err x t =>
      exfalso
      rw [hpc] at h
      simp only [Res.bind_err, Prod.mk.injEq, Out.reply.injEq] at h
      rw [h.2.2] at hpc
      exact no9000_chunk hd'.2 hpc
    | fault f => rw [hpc] at h; simp at h
  · exact ⟨.inr (.inr (.inr (.inr rfl))), fun _ => hp, fun h => absurd h (by decide), fun h => absurd h (by decide)⟩

example : (run samplePl (Dev.init samplePl) [.apdu [0x12, 0, 0, 0, 0] true, .apdu [0x11, 2, 0] true,
    .apdu [0x11, 9, 0, 0, 0] true, .apdu [0x11, 2, 0, 1, 0] true, .apdu [0x11, 0, 0, 0, 0] true]).2 =
    [.reply [] 0x6E00, .reply [] 0x6700, .reply [] 0x6D00, .reply [] 0x6B00,
     .reply [0, 3, 0, 2, 0, 0x31, 0x10, 0, 4] 0x9000] := by decide +kernel

/-! ### C35 -/

/-- **C35.** On a locked device every command except GET_VERSION is refused with an error status and no data, and
nothing changes but the command buffer; GET_VERSION too changes nothing else. -/
theorem C35_locked (pl : Platform) (d : Dev) (rx : Bytes) :
    (rx.getD 1 0 ≠ 0 → ∃ sw, step pl d (.apdu rx false) = ({ d with io := poke d.io rx, tx := 0 }, .reply [] sw) ∧
      sw ∈ [0x6700, 0x6986, 0x6D00, 0x6E00]) ∧
    (∃ i n, (step pl d (.apdu rx false)).1 = { d with io := i, tx := n }) := by
  rw [step_apdu]
  rcases dispatch_cases pl d rx false with ⟨x, hx, hx'⟩ | ⟨-, -, hc⟩
  · rw [hx]
    refine ⟨fun _ => ⟨x, rfl, ?_⟩, _, _, rfl⟩
    rcases hx' with rfl | rfl | ⟨rfl, -⟩ | rfl <;> decide
  · rcases hc with ⟨hi, hc⟩ | ⟨hp, -⟩ | ⟨hp, -⟩ | ⟨hp, -⟩ | ⟨hp, -⟩
    · rw [hc]
      exact ⟨fun h => absurd hi h, _, _, rfl⟩
    all_goals simp at hp

/-- **C35, the report.** GET_VERSION is answered in every state, whatever else the command contains: 0 (no debug build), the version 3.0.2, whether the device is locked,
and the identifier of the hardware. -/
theorem C35_version (pl : Platform) (d : Dev) (rx : Bytes) (pin : Bool) (hl : 5 ≤ rx.length) (h0 : rx.getD 0 0 = 0x11) (h1 : rx.getD 1 0 = 0) :
    (step pl d (.apdu rx pin)).2 = .reply ([0, 3, 0, 2] ++ [if pin then 0 else 1] ++ pl.targetId) 0x9000 := by
  rw [step_apdu, dispatch_eq pl d rx pin hl h0, if_pos h1]
  show Out.reply ((poke _ ([0, 3, 0, 2, if pin then 0 else 1] ++ pl.targetId)).take (5 + pl.targetId.length)) _ = _
  have hn : 5 + pl.targetId.length = ([0, 3, 0, 2, if pin then (0 : UInt8) else 1] ++ pl.targetId).length := by simp; omega
  rw [hn, poke_take]
  rfl

example : (step samplePl (Dev.init samplePl) (.apdu [0x11, 0, 7, 8, 0] false)).2 = .reply [0, 3, 0, 2, 1, 0x31, 0x10, 0, 4] 0x9000 := by
  decide +kernel

example : (step samplePl (Dev.init samplePl) (.apdu (apdu 1 0 (samplePath 0)) false)).2 = .reply [] 0x6986 := by
  decide +kernel

end Casper
