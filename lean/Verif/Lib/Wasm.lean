import Verif.Lib.Content
import Verif.Lib.DeployAccept
import Verif.Props.Operations
/-
Raw WASM uploads: what is kept of the chunks, when the parser runs, and in which state the review opens.
-/
namespace Casper
open M

/-! ### Parsing -/

theorem byteAt_post {e : Env} {i s : Nat} : Post (byteAt e i) s (fun b t => At e.buf i [UInt8.ofNat b] ∧ b < 256 ∧ t = s) := by
  intro b t h
  unfold byteAt at h
  split at h
  · cases h
  · rename_i x hx
    cases h
    refine ⟨?_, x.toNat_lt, rfl⟩
    rw [UInt8.ofNat_toNat]
    obtain ⟨hl, rfl⟩ := List.getElem?_eq_some_iff.1 hx
    exact ⟨e.buf.take i, e.buf.drop (i + 1), by simp, by simp; omega⟩

/-- What the parser of raw WASM deploys found: the header, the payment and a module-bytes session. -/
structure WasmParse (e : Env) (s : DS) (p : IS) : Prop where
  kind : s.dep.kind = 2
  header : HeaderFacts e s.dep.header
  payTag : At e.buf s.dep.header.bodyStart [0]
  pay : parseDeployItem e true ⟨s.dep.header.bodyStart + 1, 0, {}⟩ = .ok () p
  amount : ¬ (p.item.special = spSystemPayment ∧ p.item.hasAmount = false)
  sessTag : At e.buf p.off [0]

theorem readWasm_post {e : Env} : Post (readWasm e) ⟨0, 0, { kind := 2 }⟩ (fun _ t => ∃ p, WasmParse e t p) := by
  unfold readWasm
  refine (ld_post byteAt_post).seq fun pk t ⟨⟨h1, h2, h3⟩, h5⟩ => ?_
  rw [h5]
  refine Post.modifyThen (Post.requireThen fun h6 => Post.getThen ?_)
  dsimp only
  refine (ld_post indexPart_post).seq fun _ t ⟨⟨h7, h8⟩, h9⟩ => ?_
  rw [h9]
  refine (ld_post readU32_post).seq fun deps t' ⟨⟨h10, h11, h12, h13⟩, h14⟩ => ?_
  rw [h14]
  refine Post.modifyThen (Post.getThen ?_)
  dsimp only
  refine (ld_post indexPart_post).seq fun _ t ⟨⟨h15, h16⟩, h17⟩ => ?_
  rw [h17]
  refine (ld_post readU32_post).seq fun cl t'' ⟨⟨h18, h19, h20, h21⟩, h22⟩ => ?_
  rw [h22]
  refine Post.modifyThen (Post.getThen ?_)
  dsimp only
  have hf : HeaderFacts e ⟨pk, deps, cl⟩ := by
    refine ⟨h6, h1, ?_, h11, ?_, h19⟩
    · rw [h7] at h10; exact h10
    · rw [h15] at h18; exact h18
  generalize hh : (⟨pk, deps, cl⟩ : Header) = h at hf ⊢
  refine Post.ite (fun _ => .fail) fun _ => ?_
  refine Post.runThen (a := ()) (t := ⟨h.bodyStart, 0, { kind := 2, header := h }⟩) rfl ?_
  refine (ld_post readU8_post).seq fun t1 t ⟨⟨a1, a2, a3, a4⟩, a5⟩ => ?_
  rw [a5, a3]
  refine Post.requireThen fun _ => Post.runThen (a := ()) (t := ⟨h.bodyStart + 1, 0, { kind := 2, header := h, payment := { typ := t1 } }⟩) rfl
    (Post.requireThen fun a6 => ?_)
  subst a6
  refine (onPayment_post Post.self).seq fun _ t ⟨p, b1, b2⟩ => ?_
  rw [b2]
  refine Post.getThen (Post.requireThen fun b3 => ?_)
  refine (ld_post readU8_post).seq fun t2 t ⟨⟨c1, c2, c3, c4⟩, c5⟩ => ?_
  rw [c5, c3]
  refine Post.requireThen fun _ => Post.runThen (a := ()) (t := ⟨p.off + 1, p.epo, { kind := 2, header := h, payment := p.item, session := { typ := t2 } }⟩) rfl ?_
  refine Post.seq (P := fun _ t => t.dep.kind = 2 ∧ t.dep.header = h) ?_ fun r t ⟨d1, d2⟩ => ?_
  · refine Post.attempt ?_ ?_
    · exact (onSession_post (Q := fun _ _ => True) (fun _ _ _ => trivial)).mono fun a t ⟨u, _, hu⟩ => by rw [hu]; exact ⟨rfl, rfl⟩
    · intro x t hx
      unfold onSession at hx
      split at hx <;> cases hx
      exact ⟨rfl, rfl⟩
  · cases r with
    | ok a => exact .fail
    | error x =>
      refine Post.require fun d3 => ⟨p, d1, d2 ▸ hf, by rw [d2]; exact a1, by rw [d2]; exact b1, b3, ?_⟩
      rw [d3.1] at c1; exact c1

/-- The environment in which raw WASM data is parsed and shown; `c` is the kind of the last transaction. -/
def wasmEnv (pl : Platform) (x : Bool) (c : Nat) (xs : Bytes) : Env := { mkEnv pl x xs with wasm := c == 0 }

/-- The state in which the parser starts. -/
def Dev.forWasm (d : Dev) : Dev :=
  { d with ctx := { d.ctx with start := 0, len := d.pos, obj := .deploy }, dep := { kind := 2 }, epo := 0 }

theorem parseWasm_eq {pl : Platform} (hcap : pl.cap < 65536) {d : Dev} (hd : d.Ok pl) :
    parseWasm pl d = if d.data = [] then .err eInitEmpty { d with ctx := { d.ctx with start := 0, len := 0 } }
      else match readWasm (wasmEnv pl d.expert d.ctx.content d.data) ⟨0, 0, { kind := 2 }⟩ with
        | .ok a s => .ok a { d.forWasm with epo := s.epo, dep := s.dep }
        | .err x s => .err x { d.forWasm with epo := s.epo, dep := s.dep }
        | .fault f => .fault f := by
  have hl := hd.data_length
  have hu : u16 d.pos = d.pos := Nat.mod_eq_of_lt (by have := hd.2; omega)
  unfold parseWasm
  rw [bind_run]
  unfold parserInit
  rw [hu]
  by_cases h0 : d.pos = 0
  · rw [if_pos h0, if_pos (List.length_eq_zero_iff.1 (by omega))]; rfl
  · rw [if_neg h0, if_neg (fun h => h0 (by rw [h] at hl; simp at hl; omega))]
    have he : d.forWasm.env pl = wasmEnv pl d.expert d.ctx.content d.data := by
      unfold Dev.env Dev.forWasm wasmEnv mkEnv Dev.data
      simp
    show runDeploy pl readWasm d.forWasm = _
    unfold runDeploy
    rw [he, show (⟨0, d.forWasm.epo, d.forWasm.dep⟩ : DS) = ⟨0, 0, { kind := 2 }⟩ from rfl]
    cases readWasm (wasmEnv pl d.expert d.ctx.content d.data) ⟨0, 0, { kind := 2 }⟩ <;> rfl

/-- The data `xs` is read as the raw WASM deploy `s`. -/
def WasmReads (pl : Platform) (x : Bool) (c : Nat) (xs : Bytes) (s : DS) : Prop :=
  xs ≠ [] ∧ readWasm (wasmEnv pl x c xs) ⟨0, 0, { kind := 2 }⟩ = .ok () s

/-- ... and its hash is right. -/
def WasmAccepts (pl : Platform) (x : Bool) (c : Nat) (xs : Bytes) (s : DS) : Prop :=
  WasmReads pl x c xs s ∧ ∃ t, validateWasm (wasmEnv pl x c xs) s.dep 0 = .ok () t

/-! ### Chunks -/

/-- What is kept of the chunks: whole chunks, up to the first that does not fit; and whether there was such a chunk. -/
def kept (cap : Nat) : Bytes → List Bytes → Bytes × Bool
  | acc, [] => (acc, false)
  | acc, c :: cs => if acc.length + c.length ≤ cap then kept cap (acc ++ c) cs else (acc, true)

theorem kept_snoc (cap : Nat) (acc : Bytes) (cs : List Bytes) (c : Bytes) : kept cap acc (cs ++ [c]) =
    if (kept cap acc cs).2 then kept cap acc cs else kept cap (kept cap acc cs).1 [c] := by
  induction cs generalizing acc with
  | nil => rfl
  | cons x cs ih =>
    simp only [List.cons_append, kept]
    split
    · exact ih _
    · rfl

/-- All chunks are kept if they fit together. -/
theorem kept_fits {cap : Nat} {acc : Bytes} {cs : List Bytes} (h : (acc ++ cs.flatten).length ≤ cap) :
    kept cap acc cs = (acc ++ cs.flatten, false) := by
  induction cs generalizing acc with
  | nil => simp [kept]
  | cons c cs ih =>
    simp only [List.flatten_cons, List.length_append] at h
    rw [kept, if_pos (by omega), ih (by simp only [List.length_append]; omega)]
    simp

/-- What is kept is a prefix of what was sent. -/
theorem kept_prefix (cap : Nat) (acc : Bytes) (cs : List Bytes) : (kept cap acc cs).1 <+: acc ++ cs.flatten := by
  induction cs generalizing acc with
  | nil => simp [kept]
  | cons c cs ih =>
    rw [kept]
    split
    · simpa using ih (acc ++ c)
    · exact List.prefix_append _ _

theorem kept_le {cap : Nat} {acc : Bytes} {cs : List Bytes} (h : acc.length ≤ cap) : (kept cap acc cs).1.length ≤ cap := by
  induction cs generalizing acc with
  | nil => exact h
  | cons c cs ih =>
    rw [kept]
    split
    · exact ih (by simpa using by assumption)
    · exact h

/-- Upload under way, the parser has not run. -/
structure Filling (pl : Platform) (o : Dev) (path acc : Bytes) (d : Dev) : Prop where
  ok : d.Ok pl
  full : d.bufFull = false
  data : d.data = acc
  content : d.ctx.content = o.ctx.content
  v1 : d.v1 = o.v1
  expert : d.expert = o.expert
  path : d.hdPath = path
  tx : d.tx = 0

/-- The parser has run on `seen`. -/
structure Parsed (pl : Platform) (o : Dev) (path seen : Bytes) (s : DS) (d : Dev) : Prop where
  ok : d.Ok pl
  ctx : d.ctx = ⟨0, seen.length, o.ctx.content, .deploy⟩
  v1 : d.v1 = o.v1
  dep : d.dep = s.dep
  mem : d.mem.take seen.length = seen
  pos : seen.length ≤ d.pos
  expert : d.expert = o.expert
  path : d.hdPath = path
  tx : d.tx = 0

theorem wasm_init {pl : Platform} {d : Dev} {path : Bytes} (hd : d.Ok pl) (hl : path.length = 20) (hp : casperPath path) :
    ∃ d', step pl d (.apdu (apdu 4 0 path) true) = (d', .reply [] 0x9000) ∧ Filling pl d path [] d' ∧
      d'.txInit = true := by
  have hc := apdu_chunk 4 0 path
  have hpath : ((apdu 4 0 path).drop 5).take 20 = path := by rw [apdu_drop, ← hl, List.take_length]
  have h25 : 25 ≤ (apdu 4 0 path).length := by simp [apdu, hl]
  rw [step_apdu, dispatch_wasm hc]
  unfold handleSignWasm processWasmChunk
  simp only [bind_run, modify_run, require_run, if_pos hc.p2, if_pos hc.len, Res.bind_ok, if_pos hc.p1]
  rw [extractPath_ok h25 (by rw [hpath]; exact hp), hpath]
  refine ⟨_, rfl, ⟨⟨hd.1, Nat.zero_le _⟩, rfl, ?_, rfl, rfl, rfl, rfl, rfl⟩, rfl⟩
  simp [Dev.data]

/-- What happens after the LAST chunk of a raw WASM deploy. -/
def finishWasm (pl : Platform) : M Dev Unit := do
  modify fun d => { d with txInit := false, review := none }
  wasmEnd pl
  orThrow (txValidateWasm pl) id 0x6400
  modify fun d => { d with review := some .wasm }

/-- Outcome of a chunk once stored. -/
def wasmRest (pl : Platform) (p1 : UInt8) (full : Bool) : M Dev Unit := do
  wasmFull pl full
  if p1 = 2 then finishWasm pl else fail 0x9000

theorem processWasm_chunk {pl : Platform} {d : Dev} {p1 : UInt8} (hp : p1 = 1 ∨ p1 = 2) {xs : Bytes} (ht : d.txInit = true) (hd : d.Ok pl) :
    processWasmChunk pl (apdu 4 p1 xs) d = if d.pos + xs.length ≤ pl.cap then (do wasmFull pl true; pure (p1 == 2)) (d.store xs)
      else (do wasmFull pl false; pure (p1 == 2)) d := by
  have hc := apdu_chunk 4 p1 xs
  have hp0 : p1 ≠ 0 := by rcases hp with rfl | rfl <;> decide
  have h1 := hc.p1
  unfold processWasmChunk
  rw [bind_run, require_run, if_pos hc.p2, Res.bind_ok, bind_run, require_run, if_pos hc.len, Res.bind_ok,
    h1, if_neg hp0, if_pos hp, bind_run, get_run, Res.bind_ok, bind_run, require_run, if_pos ht, Res.bind_ok, bind_run, apdu_drop]
  split
  · rename_i hf; rw [txAppend_fits hf]; rfl
  · rename_i hf; rw [txAppend_full hd.2 hf]; rfl

theorem step_chunk {pl : Platform} {d : Dev} {p1 : UInt8} (hp : p1 = 1 ∨ p1 = 2) {xs : Bytes} (ht : d.txInit = true) (hd : d.Ok pl) :
    ∃ w : Nat, step pl d (.apdu (apdu 4 p1 xs) true) = outOf d (
      if d.pos + xs.length ≤ pl.cap then wasmRest pl p1 true (({ d.recv (apdu 4 p1 xs) with wasmCounter := w } : Dev).store xs)
      else wasmRest pl p1 false { d.recv (apdu 4 p1 xs) with wasmCounter := w }) := by
  have hc := apdu_chunk 4 p1 xs
  refine ⟨u32 (d.wasmCounter + 1), ?_⟩
  rw [step_apdu, dispatch_wasm hc]
  have key : ∀ (full : Bool) (s : Dev), ((do wasmFull pl full; pure (p1 == 2) : M Dev Bool) s).bind
      (fun a => (if a = true then finishWasm pl else fail 0x9000 : M Dev Unit)) = wasmRest pl p1 full s := by
    intro full s
    unfold wasmRest
    rw [bind_run, bind_run]
    cases wasmFull pl full s with
    | ok a t => rcases hp with rfl | rfl <;> rfl
    | err x t => rfl
    | fault f => rfl
  generalize hq : ({ d.recv (apdu 4 p1 xs) with wasmCounter := u32 (d.wasmCounter + 1) } : Dev) = q
  have hH : handleSignWasm pl (apdu 4 p1 xs) (d.recv (apdu 4 p1 xs)) =
      if d.pos + xs.length ≤ pl.cap then wasmRest pl p1 true (q.store xs) else wasmRest pl p1 false q := by
    unfold handleSignWasm
    rw [bind_run, modify_run, Res.bind_ok, bind_run,
      show ({ d.recv (apdu 4 p1 xs) with wasmCounter := u32 ((d.recv (apdu 4 p1 xs)).wasmCounter + 1) } : Dev) = q from hq,
      processWasm_chunk hp (by rw [← hq]; exact ht) (by rw [← hq]; exact hd), show q.pos = d.pos by rw [← hq]; rfl]
    split <;> exact key _ _
  rw [hH]
  rfl

/-- Refused (0x6400) or undefined. -/
def Refused {α : Type} (r : Res Dev α) : Prop := (∃ t, r = .err 0x6400 t) ∨ ∃ f, r = .fault f

theorem Refused.out {r : Res Dev Unit} (h : Refused r) (e : Dev) : (outOf e r).2 ≠ .pending ∧ (outOf e r).2 ≠ .reply [] 0x9000 := by
  rcases h with ⟨t, rfl⟩ | ⟨f, rfl⟩ <;> simp [outOf]

theorem Refused.bind {α β : Type} {r : Res Dev α} (h : Refused r) (k : α → M Dev β) : Refused (r.bind k) := by
  rcases h with ⟨t, rfl⟩ | ⟨f, rfl⟩
  · exact .inl ⟨t, rfl⟩
  · exact .inr ⟨f, rfl⟩

theorem orThrow_refused {m : M Dev Unit} {g : Dev → Dev} {d : Dev} (h : ∀ t, m d ≠ .ok () t) : Refused (orThrow m g 0x6400 d) := by
  unfold orThrow
  rw [bind_run, attempt_run]
  cases hm : m d with
  | ok a t => exact absurd hm (h t)
  | err x t => exact .inl ⟨_, rfl⟩
  | fault f => exact .inr ⟨f, rfl⟩

theorem orThrow_run {m : M Dev Unit} {g : Dev → Dev} {d t : Dev} (h : m d = .ok () t) : orThrow m g 0x6400 d = .ok () t := by
  unfold orThrow
  rw [bind_run, attempt_run, h]
  rfl

section
variable {pl : Platform} {o : Dev} {path seen : Bytes} {d : Dev} {s : DS}

theorem Filling.parses (hcap : pl.cap < 65536) (h : Filling pl o path seen d) (hr : WasmReads pl o.expert o.ctx.content seen s) :
    ∃ d1, parseWasm pl d = .ok () d1 ∧ Parsed pl o path seen s d1 ∧ d1.txInit = d.txInit := by
  refine ⟨{ d.forWasm with epo := s.epo, dep := s.dep }, ?_, ⟨h.ok, ?_, h.v1, rfl, ?_, ?_, h.expert, h.path, h.tx⟩, rfl⟩
  · rw [parseWasm_eq hcap h.ok, h.data, if_neg hr.1, h.expert, h.content, hr.2]
  · have := h.ok.data_length
    rw [h.data] at this
    show Ctx.mk 0 d.pos d.ctx.content .deploy = _
    rw [this, h.content]
  · have := h.ok.data_length
    rw [h.data] at this
    rw [this]
    exact h.data
  · have := h.ok.data_length
    rw [h.data] at this
    exact Nat.le_of_eq this

theorem Filling.refuses (hcap : pl.cap < 65536) (h : Filling pl o path seen d) (hr : ∀ s, ¬ WasmReads pl o.expert o.ctx.content seen s) (t : Dev) :
    parseWasm pl d ≠ .ok () t := by
  rw [parseWasm_eq hcap h.ok, h.data]
  split
  · simp
  · rename_i hn
    rw [h.expert, h.content]
    cases hq : readWasm (wasmEnv pl o.expert o.ctx.content seen) ⟨0, 0, { kind := 2 }⟩ with
    | ok a s => exact absurd ⟨hn, hq⟩ (hr s)
    | err y s => simp
    | fault f => simp

theorem Parsed.env (h : Parsed pl o path seen s d) (hk : s.dep.kind = 2) : d.env pl = wasmEnv pl o.expert o.ctx.content seen := by
  unfold Dev.env wasmEnv mkEnv
  rw [h.ctx, h.dep, hk, h.expert]
  simp only [List.drop_zero, h.mem]
  simp

/-- The end of the upload once the parser has run. -/
theorem Parsed.validate (h : Parsed pl o path seen s d) (hk : s.dep.kind = 2) :
    ((∃ t, validateWasm (wasmEnv pl o.expert o.ctx.content seen) s.dep 0 = .ok () t) →
      (do orThrow (txValidateWasm pl) id 0x6400; modify fun d => { d with review := some .wasm } : M Dev Unit) d =
        .ok () { d with review := some .wasm }) ∧
    ((∀ t, validateWasm (wasmEnv pl o.expert o.ctx.content seen) s.dep 0 ≠ .ok () t) →
      Refused ((do orThrow (txValidateWasm pl) id 0x6400; modify fun d => { d with review := some .wasm } : M Dev Unit) d)) := by
  have he := h.env hk
  have hv : txValidateWasm pl d = runP pl (fun e => validateWasm e d.dep) d := by
    unfold txValidateWasm
    rw [bind_run, get_run, Res.bind_ok, if_pos (by rw [h.ctx])]
  unfold runP at hv
  rw [he, h.dep] at hv
  dsimp only at hv
  refine ⟨fun ⟨t, ht⟩ => ?_, fun hn => ?_⟩
  · rw [ht] at hv
    rw [bind_run, orThrow_run hv]
    rfl
  · rw [bind_run]
    refine Refused.bind (orThrow_refused fun t ht => ?_) _
    rw [hv] at ht
    cases hq : validateWasm (wasmEnv pl o.expert o.ctx.content seen) s.dep 0 with
    | ok a u => exact hn u hq
    | err y u => rw [hq] at ht; cases ht
    | fault f => rw [hq] at ht; cases ht

theorem WasmReads.kind (h : WasmReads pl o.expert o.ctx.content seen s) : s.dep.kind = 2 := by
  obtain ⟨p, hp⟩ := readWasm_post _ _ h.2
  exact hp.kind

theorem WasmReads.unique {s' : DS} (h : WasmReads pl o.expert o.ctx.content seen s) (h' : WasmReads pl o.expert o.ctx.content seen s') : s = s' := by
  have := h.2.symm.trans h'.2
  cases this; rfl

/-- A review of the raw WASM deploy `seen`, read as `s`. -/
def Reviewed (pl : Platform) (o : Dev) (path seen : Bytes) (s : DS) (d : Dev) : Prop :=
  Parsed pl o path seen s d ∧ d.review = some .wasm

theorem Parsed.finish (h : Parsed pl o path seen s d) (hf : d.bufFull = true) (hr : WasmReads pl o.expert o.ctx.content seen s) :
    (WasmAccepts pl o.expert o.ctx.content seen s → ∃ d', finishWasm pl d = .ok () d' ∧ Reviewed pl o path seen s d') ∧
    (¬ WasmAccepts pl o.expert o.ctx.content seen s → Refused (finishWasm pl d)) := by
  have h1 : Parsed pl o path seen s { d with txInit := false, review := none } :=
    ⟨h.ok, h.ctx, h.v1, h.dep, h.mem, h.pos, h.expert, h.path, h.tx⟩
  obtain ⟨v1, v2⟩ := h1.validate hr.kind
  have hw : wasmEnd pl { d with txInit := false, review := none } = .ok () { d with txInit := false, review := none } := by
    unfold wasmEnd
    rw [bind_run, get_run, Res.bind_ok, if_neg (by rw [hf]; decide)]
    rfl
  unfold finishWasm
  rw [bind_run, modify_run, Res.bind_ok, bind_run, hw, Res.bind_ok]
  refine ⟨fun ha => ⟨_, v1 ha.2, ⟨h.ok, h.ctx, h.v1, h.dep, h.mem, h.pos, h.expert, h.path, h.tx⟩, rfl⟩, fun hn => v2 fun t ht => hn ⟨hr, t, ht⟩⟩

theorem Filling.finish (hcap : pl.cap < 65536) (h : Filling pl o path seen d) :
    (∀ s, WasmAccepts pl o.expert o.ctx.content seen s → ∃ d', finishWasm pl d = .ok () d' ∧ Reviewed pl o path seen s d') ∧
    ((∀ s, ¬ WasmAccepts pl o.expert o.ctx.content seen s) → Refused (finishWasm pl d)) := by
  have h1 : Filling pl o path seen { d with txInit := false, review := none } :=
    ⟨h.ok, h.full, h.data, h.content, h.v1, h.expert, h.path, h.tx⟩
  have hw : wasmEnd pl { d with txInit := false, review := none } =
      orThrow (parseWasm pl) id 0x6400 { d with txInit := false, review := none } := by
    unfold wasmEnd
    rw [bind_run, get_run, Res.bind_ok, if_pos h.full]
  unfold finishWasm
  rw [bind_run, modify_run, Res.bind_ok, bind_run, hw]
  refine ⟨fun s ha => ?_, fun hn => ?_⟩
  · obtain ⟨d1, a1, a2, -⟩ := h1.parses hcap ha.1
    rw [orThrow_run a1, Res.bind_ok]
    exact ⟨_, (a2.validate ha.1.kind).1 ha.2, ⟨a2.ok, a2.ctx, a2.v1, a2.dep, a2.mem, a2.pos, a2.expert, a2.path, a2.tx⟩, rfl⟩
  · by_cases hr : ∃ s, WasmReads pl o.expert o.ctx.content seen s
    · obtain ⟨s, hr⟩ := hr
      obtain ⟨d1, a1, a2, -⟩ := h1.parses hcap hr
      rw [orThrow_run a1, Res.bind_ok]
      exact (a2.validate hr.kind).2 fun t ht => hn s ⟨hr, t, ht⟩
    · exact Refused.bind (orThrow_refused (h1.refuses hcap fun s h => hr ⟨s, h⟩)) _

/-- The chunk that does not fit. -/
theorem Filling.overflow (hcap : pl.cap < 65536) (h : Filling pl o path seen d) :
    (∀ s, WasmReads pl o.expert o.ctx.content seen s → ∃ d1, wasmFull pl false d = .ok () d1 ∧ Parsed pl o path seen s d1 ∧ d1.bufFull = true ∧
      d1.txInit = d.txInit) ∧
    ((∀ s, ¬ WasmReads pl o.expert o.ctx.content seen s) → Refused (wasmFull pl false d)) := by
  unfold wasmFull
  rw [bind_run, get_run, Res.bind_ok, if_pos ⟨h.full, rfl⟩, bind_run]
  refine ⟨fun s hr => ?_, fun hn => Refused.bind (orThrow_refused (h.refuses hcap hn)) _⟩
  obtain ⟨d1, a1, a2, a3⟩ := h.parses hcap hr
  rw [orThrow_run a1]
  exact ⟨_, rfl, ⟨a2.ok, a2.ctx, a2.v1, a2.dep, a2.mem, a2.pos, a2.expert, a2.path, a2.tx⟩, rfl, a3⟩

theorem wasmFull_true (d : Dev) : wasmFull pl true d = .ok () d := by
  unfold wasmFull
  rw [bind_run, get_run, Res.bind_ok, if_neg (by simp)]
  rfl

theorem wasmFull_full {b : Bool} (h : d.bufFull = true) : wasmFull pl b d = .ok () d := by
  unfold wasmFull
  rw [bind_run, get_run, Res.bind_ok, if_neg (by simp [h])]
  rfl

theorem Filling.store (h : Filling pl o path seen d) {rx xs : Bytes} {w : Nat} (hf : d.pos + xs.length ≤ pl.cap) :
    Filling pl o path (seen ++ xs) (({ d.recv rx with wasmCounter := w } : Dev).store xs) := by
  have hok : ({ d.recv rx with wasmCounter := w } : Dev).Ok pl := h.ok
  refine ⟨hok.store hf, h.full, ?_, h.content, h.v1, h.expert, h.path, rfl⟩
  rw [Dev.store_data hok, show ({ d.recv rx with wasmCounter := w } : Dev).data = d.data from rfl, h.data]

theorem Parsed.store (h : Parsed pl o path seen s d) {rx xs : Bytes} {w : Nat} (hf : d.pos + xs.length ≤ pl.cap) :
    Parsed pl o path seen s (({ d.recv rx with wasmCounter := w } : Dev).store xs) := by
  have hok : ({ d.recv rx with wasmCounter := w } : Dev).Ok pl := h.ok
  refine ⟨hok.store hf, h.ctx, h.v1, h.dep, ?_, ?_, h.expert, h.path, rfl⟩
  · have h1 := h.pos
    have h2 := h.ok
    show (d.mem.take d.pos ++ xs ++ d.mem.drop (d.pos + xs.length)).take seen.length = seen
    rw [List.append_assoc, List.take_append_of_le_length (by simp [h2.1]; have := h2.2; omega), List.take_take, Nat.min_eq_left h1, h.mem]
  · have := h.pos
    show seen.length ≤ d.pos + xs.length
    omega

/-- A chunk after the parser has run changes nothing of interest. -/
theorem Parsed.chunk (h : Parsed pl o path seen s d) (hb : d.bufFull = true) (ht : d.txInit = true) {p1 : UInt8} (hp : p1 = 1 ∨ p1 = 2) (xs : Bytes) :
    ∃ d1, Parsed pl o path seen s d1 ∧ d1.bufFull = true ∧ d1.txInit = true ∧
      step pl d (.apdu (apdu 4 p1 xs) true) = outOf d (if p1 = 2 then finishWasm pl d1 else .err 0x9000 d1) := by
  obtain ⟨w, hw⟩ := step_chunk hp (xs := xs) ht h.ok
  rw [hw]
  split
  · rename_i hf
    refine ⟨_, h.store (rx := apdu 4 p1 xs) (w := w) hf, hb, ht, ?_⟩
    unfold wasmRest
    rw [bind_run, wasmFull_true, Res.bind_ok]
    split <;> rfl
  · refine ⟨{ d.recv (apdu 4 p1 xs) with wasmCounter := w }, ⟨h.ok, h.ctx, h.v1, h.dep, h.mem, h.pos, h.expert, h.path, rfl⟩, hb, ht, ?_⟩
    unfold wasmRest
    rw [bind_run, wasmFull_full (d := { d.recv (apdu 4 p1 xs) with wasmCounter := w }) hb, Res.bind_ok]
    split <;> rfl

/-- A chunk while the buffer is being filled. -/
theorem Filling.chunk (hcap : pl.cap < 65536) (h : Filling pl o path seen d) (ht : d.txInit = true) {p1 : UInt8} (hp : p1 = 1 ∨ p1 = 2) (xs : Bytes) :
    (seen.length + xs.length ≤ pl.cap → ∃ d1, Filling pl o path (seen ++ xs) d1 ∧ d1.txInit = true ∧
      step pl d (.apdu (apdu 4 p1 xs) true) = outOf d (if p1 = 2 then finishWasm pl d1 else .err 0x9000 d1)) ∧
    (¬ seen.length + xs.length ≤ pl.cap →
      (∀ s, WasmReads pl o.expert o.ctx.content seen s → ∃ d1, Parsed pl o path seen s d1 ∧ d1.bufFull = true ∧ d1.txInit = true ∧
        step pl d (.apdu (apdu 4 p1 xs) true) = outOf d (if p1 = 2 then finishWasm pl d1 else .err 0x9000 d1)) ∧
      ((∀ s, ¬ WasmReads pl o.expert o.ctx.content seen s) → ∃ r, Refused r ∧ step pl d (.apdu (apdu 4 p1 xs) true) = outOf d r)) := by
  obtain ⟨w, hw⟩ := step_chunk hp (xs := xs) ht h.ok
  have hlen : seen.length = d.pos := by rw [← h.data]; exact h.ok.data_length
  rw [hlen, hw]
  refine ⟨fun hf => ?_, fun hf => ?_⟩
  · rw [if_pos hf]
    refine ⟨_, h.store (rx := apdu 4 p1 xs) (w := w) hf, ht, ?_⟩
    unfold wasmRest
    rw [bind_run, wasmFull_true, Res.bind_ok]
    split <;> rfl
  · rw [if_neg hf]
    have h1 : Filling pl o path seen { d.recv (apdu 4 p1 xs) with wasmCounter := w } :=
      ⟨h.ok, h.full, h.data, h.content, h.v1, h.expert, h.path, rfl⟩
    obtain ⟨o1, o2⟩ := h1.overflow hcap
    unfold wasmRest
    refine ⟨fun s hr => ?_, fun hn => ⟨_, Refused.bind (o2 hn) _, rfl⟩⟩
    obtain ⟨d1, a1, a2, a3, a4⟩ := o1 s hr
    refine ⟨d1, a2, a3, a4.trans ht, ?_⟩
    rw [bind_run, a1, Res.bind_ok]
    split <;> rfl

theorem outOf_ok {d d1 : Dev} (h : d1.tx = 0) : outOf d (.err 0x9000 d1) = (d1, .reply [] 0x9000) := by
  show (d1, Out.reply (d1.io.take d1.tx) 0x9000) = _
  rw [h]; rfl

theorem Parsed.adds (cs : List Bytes) (h : Parsed pl o path seen s d) (hb : d.bufFull = true) (ht : d.txInit = true) :
    ∃ d1, Parsed pl o path seen s d1 ∧ d1.bufFull = true ∧ d1.txInit = true ∧
      run pl d (cs.map fun c => .apdu (apdu 4 1 c) true) = (d1, List.replicate cs.length (.reply [] 0x9000)) := by
  induction cs generalizing d with
  | nil => exact ⟨d, h, hb, ht, rfl⟩
  | cons y cs ih =>
    obtain ⟨d1, a1, a2, a3, a4⟩ := h.chunk hb ht (.inl rfl) y
    rw [if_neg (by decide), outOf_ok a1.tx] at a4
    obtain ⟨d2, b1, b2, b3, b4⟩ := ih a1 a2 a3
    refine ⟨d2, b1, b2, b3, ?_⟩
    simp only [List.map_cons, run, a4, b4, List.length_cons, List.replicate_succ]

theorem Filling.adds (hcap : pl.cap < 65536) (cs : List Bytes) {acc : Bytes} (h : Filling pl o path acc d) (ht : d.txInit = true) :
    ((kept pl.cap acc cs).2 = false → ∃ d1, Filling pl o path (kept pl.cap acc cs).1 d1 ∧ d1.txInit = true ∧
      run pl d (cs.map fun c => .apdu (apdu 4 1 c) true) = (d1, List.replicate cs.length (.reply [] 0x9000))) ∧
    ((kept pl.cap acc cs).2 = true →
      (∀ s, WasmReads pl o.expert o.ctx.content (kept pl.cap acc cs).1 s → ∃ d1, Parsed pl o path (kept pl.cap acc cs).1 s d1 ∧ d1.bufFull = true ∧
        d1.txInit = true ∧ run pl d (cs.map fun c => .apdu (apdu 4 1 c) true) = (d1, List.replicate cs.length (.reply [] 0x9000))) ∧
      ((∀ s, ¬ WasmReads pl o.expert o.ctx.content (kept pl.cap acc cs).1 s) →
        (run pl d (cs.map fun c => .apdu (apdu 4 1 c) true)).2 ≠ List.replicate cs.length (.reply [] 0x9000))) := by
  induction cs generalizing d acc with
  | nil => exact ⟨fun _ => ⟨d, h, ht, rfl⟩, fun h => by cases h⟩
  | cons y cs ih =>
    obtain ⟨k1, k2⟩ := h.chunk hcap ht (.inl rfl) y
    rw [kept]
    split
    · rename_i hf
      obtain ⟨d1, a1, a2, a3⟩ := k1 hf
      rw [if_neg (by decide), outOf_ok a1.tx] at a3
      obtain ⟨i1, i2⟩ := ih a1 a2
      simp only [List.map_cons, run, a3, List.length_cons, List.replicate_succ]
      refine ⟨fun hk => ?_, fun hk => ⟨fun s hs => ?_, fun hn he => (i2 hk).2 hn ?_⟩⟩
      · obtain ⟨d2, b1, b2, b3⟩ := i1 hk
        exact ⟨d2, b1, b2, by rw [b3]⟩
      · obtain ⟨d2, b1, b2, b3, b4⟩ := (i2 hk).1 s hs
        exact ⟨d2, b1, b2, b3, by rw [b4]⟩
      · exact (List.cons.inj he).2
    · rename_i hf
      obtain ⟨j1, j2⟩ := k2 hf
      refine ⟨fun hk => (by cases hk), fun _ => ⟨fun s hs => ?_, fun hn he => ?_⟩⟩
      · obtain ⟨d1, a1, a2, a3, a4⟩ := j1 s hs
        rw [if_neg (by decide), outOf_ok a1.tx] at a4
        obtain ⟨d2, b1, b2, b3, b4⟩ := a1.adds cs a2 a3
        refine ⟨d2, b1, b2, b3, ?_⟩
        simp only [List.map_cons, run, a4, b4, List.length_cons, List.replicate_succ]
      · obtain ⟨r, hr, hs⟩ := j2 hn
        simp only [List.map_cons, run, List.length_cons, List.replicate_succ] at he
        rw [hs] at he
        exact (hr.out d).2 (List.cons.inj he).1

end

/-- A complete raw WASM upload: it ends with a review exactly if what was kept of it is accepted; then the review is of that. -/
theorem wasm_upload {pl : Platform} (hcap : pl.cap < 65536) {d : Dev} (hd : d.Ok pl) {path : Bytes} (hl : path.length = 20) (hp : casperPath path)
    (cs : List Bytes) (last : Bytes) :
    (∀ s, WasmAccepts pl d.expert d.ctx.content (kept pl.cap [] (cs ++ [last])).1 s → ∃ d',
      run pl d (upload 4 path cs last) = (d', List.replicate (cs.length + 1) (.reply [] 0x9000) ++ [.pending]) ∧
      Reviewed pl d path (kept pl.cap [] (cs ++ [last])).1 s d') ∧
    ((∀ s, ¬ WasmAccepts pl d.expert d.ctx.content (kept pl.cap [] (cs ++ [last])).1 s) →
      (run pl d (upload 4 path cs last)).2 ≠ List.replicate (cs.length + 1) (.reply [] 0x9000) ++ [.pending]) := by
  obtain ⟨d1, a1, a2, a3⟩ := wasm_init hd hl hp
  obtain ⟨b1, b2⟩ := a2.adds hcap cs a3
  have hrun : ∀ d2 outs, run pl d1 (cs.map fun c => .apdu (apdu 4 1 c) true) = (d2, outs) →
      run pl d (upload 4 path cs last) = ((step pl d2 (.apdu (apdu 4 2 last) true)).1,
        .reply [] 0x9000 :: (outs ++ [(step pl d2 (.apdu (apdu 4 2 last) true)).2])) := by
    intro d2 outs h
    unfold upload
    rw [List.cons_append, run, a1, run_append, h]
    rfl
  rw [kept_snoc]
  by_cases hk : (kept pl.cap [] cs).2 = true
  · rw [if_pos hk]
    obtain ⟨c1, c2⟩ := b2 hk
    by_cases hr : ∃ s, WasmReads pl d.expert d.ctx.content (kept pl.cap [] cs).1 s
    · obtain ⟨s, hr⟩ := hr
      obtain ⟨d2, e1, e2, e3, e4⟩ := c1 s hr
      obtain ⟨d3, f1, f2, f3, f4⟩ := e1.chunk e2 e3 (.inr rfl) last
      rw [if_pos rfl] at f4
      obtain ⟨g1, g2⟩ := f1.finish f2 hr
      rw [hrun _ _ e4, f4]
      refine ⟨fun s' hs => ?_, fun hn he => ?_⟩
      · obtain rfl := hr.unique hs.1
        obtain ⟨d', j1, j2⟩ := g1 hs
        refine ⟨d', ?_, j2⟩
        rw [j1]
        simp only [List.replicate_succ, List.cons_append]
        rfl
      · have := List.append_inj_right (s₁ := Out.reply [] 0x9000 :: List.replicate cs.length (Out.reply [] 0x9000)) (he :) (by simp)
        exact ((g2 (hn s)).out d2).1 (List.cons.inj this).1
    · refine ⟨fun s hs => absurd ⟨s, hs.1⟩ hr, fun hn he => ?_⟩
      have := c2 fun s h => hr ⟨s, h⟩
      generalize hq : run pl d1 (cs.map fun c => .apdu (apdu 4 1 c) true) = q at this
      obtain ⟨d2, outs⟩ := q
      rw [hrun _ _ hq] at he
      have hlen : outs.length = cs.length := by
        have := congrArg List.length he
        simpa using this
      rw [List.replicate_succ, List.cons_append] at he
      exact this (List.append_inj_left (List.cons.inj he).2 (by simp [hlen]))
  · rw [if_neg hk]
    obtain ⟨d2, e1, e2, e3⟩ := b1 (by simpa using hk)
    obtain ⟨k1, k2⟩ := e1.chunk hcap e2 (.inr rfl) last
    generalize (kept pl.cap [] cs).1 = acc at *
    rw [hrun _ _ e3, kept]
    split
    · rename_i hf
      obtain ⟨d3, f1, f2, f3⟩ := k1 hf
      rw [if_pos rfl] at f3
      rw [f3, kept]
      obtain ⟨g1, g2⟩ := f1.finish hcap
      refine ⟨fun s hs => ?_, fun hn he => ?_⟩
      · obtain ⟨d', j1, j2⟩ := g1 s hs
        refine ⟨d', ?_, j2⟩
        rw [j1]
        simp only [List.replicate_succ, List.cons_append]
        rfl
      · have := List.append_inj_right (s₁ := Out.reply [] 0x9000 :: List.replicate cs.length (Out.reply [] 0x9000)) (he :) (by simp)
        exact ((g2 hn).out d2).1 (List.cons.inj this).1
    · rename_i hf
      obtain ⟨j1, j2⟩ := k2 hf
      by_cases hr : ∃ s, WasmReads pl d.expert d.ctx.content acc s
      · obtain ⟨s, hr⟩ := hr
        obtain ⟨d3, f1, f2, f3, f4⟩ := j1 s hr
        rw [if_pos rfl] at f4
        obtain ⟨g1, g2⟩ := f1.finish f2 hr
        rw [f4]
        refine ⟨fun s' hs => ?_, fun hn he => ?_⟩
        · obtain rfl := hr.unique hs.1
          obtain ⟨d', j1, j2⟩ := g1 hs
          refine ⟨d', ?_, j2⟩
          rw [j1]
          simp only [List.replicate_succ, List.cons_append]
          rfl
        · have := List.append_inj_right (s₁ := Out.reply [] 0x9000 :: List.replicate cs.length (Out.reply [] 0x9000)) (he :) (by simp)
          exact ((g2 (hn s)).out d2).1 (List.cons.inj this).1
      · refine ⟨fun s hs => absurd ⟨s, hs.1⟩ hr, fun hn he => ?_⟩
        obtain ⟨r, m1, m2⟩ := j2 fun s h => hr ⟨s, h⟩
        rw [m2] at he
        have := List.append_inj_right (s₁ := Out.reply [] 0x9000 :: List.replicate cs.length (Out.reply [] 0x9000)) (he :) (by simp)
        exact (m1.out d2).1 (List.cons.inj this).1

end Casper
