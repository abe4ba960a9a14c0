import Verif.Props.Keys
import Verif.Props.Deploys
/-
C65: what was done before an upload has no influence on it.
-/
namespace Casper
open M

/-! ### Parsing -/

theorem runP_val {α : Type} (pl : Platform) (m : Env → P α) (d : Dev) : (runP pl m d).val = (m (d.env pl) 0).val := by
  unfold runP
  cases m (d.env pl) 0 <;> rfl

theorem parserValidate_val (pl : Platform) (d : Dev) : (parserValidate pl d).val = Res.val ((do
    if d.ctx.content = 0 then
      if d.ctx.obj = .deploy then validateDeploy (d.env pl) d.dep else abort .typeConfusion
    else if d.ctx.content = 1 then
      if d.ctx.obj = .v1 then validateV1 (d.env pl) d.v1 else abort .typeConfusion
    else fail eUnknownPrefix
    let n ← parserNumItems (d.env pl) d
    checkItems (parserItem d (d.env pl)) n 0 : P Unit) 0) := by
  unfold parserValidate
  rw [bind_run, get_run, Res.bind_ok, runP_val]

/-- The verdict of parsing and validation. -/
theorem txParse_val {pl : Platform} (hcap : pl.cap < 65536) {d : Dev} (h : d.Ok pl) {x : UInt8} {xs : Bytes}
    (hx : d.data = x :: xs) : (txParse pl d).val =
      if xs = [] then .err 12 ()
      else if x = 0 then
        match readDeploy (mkEnv pl d.expert xs) ⟨0, 0, {}⟩ with
        | .ok _ s => Res.val ((do
            validateDeploy (mkEnv pl d.expert xs) s.dep
            checkItems (getItemDeploy (mkEnv pl d.expert xs) s.epo s.dep) (numItemsDeploy (mkEnv pl d.expert xs) s.dep) 0 : P Unit) 0)
        | .err y _ => .err y ()
        | .fault f => .fault f
      else if x = 1 then
        match readV1 (mkEnv pl d.expert xs) ⟨0, {}⟩ with
        | .ok _ s => Res.val ((do
            validateV1 (mkEnv pl d.expert xs) s.v
            checkItems (getItemV1 (mkEnv pl d.expert xs) s.v) s.v.numItems 0 : P Unit) 0)
        | .err y _ => .err y ()
        | .fault f => .fault f
      else .err 24 () := by
  unfold txParse
  rw [bind_run, parserParse_cons hcap h hx]
  split
  · rfl
  split
  · unfold runDeploy
    rw [env_forDeploy h hx]
    cases hr : readDeploy (mkEnv pl d.expert xs) ⟨0, 0, {}⟩ with
    | err y t => rw [show (readDeploy (mkEnv pl d.expert xs) ⟨0, d.forDeploy.epo, d.forDeploy.dep⟩) = _ from hr]; rfl
    | fault f => rw [show (readDeploy (mkEnv pl d.expert xs) ⟨0, d.forDeploy.epo, d.forDeploy.dep⟩) = _ from hr]; rfl
    | ok a s =>
      rw [show (readDeploy (mkEnv pl d.expert xs) ⟨0, d.forDeploy.epo, d.forDeploy.dep⟩) = _ from hr]
      have e1 := env_tookDeploy (s := s) h hx (readDeploy_kind hr)
      change (parserValidate pl (d.tookDeploy s)).val = _
      rw [parserValidate_val, e1]
      rfl
  split
  · unfold runV1
    rw [env_forV1 h hx]
    cases hr : readV1 (mkEnv pl d.expert xs) ⟨0, {}⟩ with
    | err y t => rw [show (readV1 (mkEnv pl d.expert xs) ⟨0, d.forV1.v1⟩) = _ from hr]; rfl
    | fault f => rw [show (readV1 (mkEnv pl d.expert xs) ⟨0, d.forV1.v1⟩) = _ from hr]; rfl
    | ok a s =>
      rw [show (readV1 (mkEnv pl d.expert xs) ⟨0, d.forV1.v1⟩) = _ from hr]
      have e1 := env_tookV1 (s := s) h hx
      change (parserValidate pl (d.tookV1 s)).val = _
      rw [parserValidate_val, e1]
      rfl
  · rfl

/-- Parsing and validation of an upload give the same verdict whatever the parser's globals held before. -/
theorem txParse_same {pl : Platform} (hcap : pl.cap < 65536) {d1 d2 : Dev} (h1 : d1.Ok pl) (h2 : d2.Ok pl)
    (hd : d1.data = d2.data) (hx : d1.expert = d2.expert) : (txParse pl d1).val = (txParse pl d2).val := by
  cases hb : d1.data with
  | nil =>
    obtain ⟨t1, e1⟩ := parserParse_nil h1 hb
    obtain ⟨t2, e2⟩ := parserParse_nil h2 (hd ▸ hb)
    unfold txParse
    rw [bind_run, bind_run, e1, e2]; rfl
  | cons x xs => rw [txParse_val hcap h1 hb, txParse_val hcap h2 (hd ▸ hb), hx]

/-! ### Devices that cannot be told apart -/

/-- What a transaction review shows, and what approving it signs, as functions. -/
def Dev.view (pl : Platform) (d : Dev) : P Nat × (Nat → P (Bytes × Bytes)) × Res Unit Bytes :=
  (parserNumItems (d.env pl) d, parserItem d (d.env pl), signedBytes pl d)

/-- Two devices that agree in everything but leftovers of earlier commands. -/
structure Alike (pl : Platform) (d1 d2 : Dev) : Prop where
  ok1 : d1.Ok pl
  ok2 : d2.Ok pl
  init : d1.txInit = d2.txInit
  data : d1.data = d2.data
  path : d1.hdPath = d2.hdPath
  expert : d1.expert = d2.expert
  review : d1.review = d2.review
  kind : d1.review = none ∨ d1.review = some .tx ∨ d1.review = some .address
  head : d1.io.getD 0 0 = d2.io.getD 0 0
  addr : d1.review = some .address → d1.io = d2.io ∧ d1.addrLen = d2.addrLen
  view : d1.review = some .tx → d1.view pl = d2.view pl

theorem Alike.pos {pl : Platform} {d1 d2 : Dev} (h : Alike pl d1 d2) : d1.pos = d2.pos := by
  rw [← h.ok1.data_length, ← h.ok2.data_length, h.data]

theorem poke_head (a b x : Bytes) (h : a.getD 0 0 = b.getD 0 0) : (poke a x).getD 0 0 = (poke b x).getD 0 0 := by
  cases x with
  | nil => exact h
  | cons y ys => rfl

theorem Alike.recv {pl : Platform} {d1 d2 : Dev} (h : Alike pl d1 d2) (rx : Bytes) :
    Alike pl (d1.recv rx) (d2.recv rx) where
  ok1 := h.ok1
  ok2 := h.ok2
  init := h.init
  data := h.data
  path := h.path
  expert := h.expert
  review := h.review
  kind := h.kind
  head := poke_head _ _ _ h.head
  addr hr := by
    obtain ⟨a, b⟩ := h.addr hr
    exact ⟨by show poke _ _ = poke _ _; rw [a], b⟩
  view hr := h.view hr

/-- Writing the same answer. -/
theorem Alike.answer {pl : Platform} {d1 d2 : Dev} (h : Alike pl d1 d2) (xs : Bytes) (n m : Nat) :
    Alike pl { d1 with io := poke d1.io xs, tx := n } { d2 with io := poke d2.io xs, tx := m } where
  ok1 := h.ok1
  ok2 := h.ok2
  init := h.init
  data := h.data
  path := h.path
  expert := h.expert
  review := h.review
  kind := h.kind
  head := poke_head _ _ _ h.head
  addr hr := by
    obtain ⟨a, b⟩ := h.addr hr
    exact ⟨by show poke _ _ = poke _ _; rw [a], b⟩
  view hr := h.view hr

/-- Same result, states that cannot be told apart. -/
inductive Agree (pl : Platform) {α : Type} : Res Dev α → Res Dev α → Prop
  | ok (a : α) {s t : Dev} : Alike pl s t → Agree pl (.ok a s) (.ok a t)
  | err (x : Nat) {s t : Dev} : Alike pl s t → s.io.take s.tx = t.io.take t.tx → Agree pl (.err x s) (.err x t)
  | fault (f : Fault) : Agree pl (.fault f) (.fault f)

theorem Agree.outOf {pl : Platform} {d1 d2 : Dev} (h : Alike pl d1 d2) {r1 r2 : Res Dev Unit} (hr : Agree pl r1 r2) :
    (match r1 with | .ok _ d' => (d', Out.pending) | .err sw d' => (d', .reply (d'.io.take d'.tx) sw) | .fault f => (d1, .crash f)).2 =
    (match r2 with | .ok _ d' => (d', Out.pending) | .err sw d' => (d', .reply (d'.io.take d'.tx) sw) | .fault f => (d2, .crash f)).2 ∧
    Alike pl (match r1 with | .ok _ d' => (d', Out.pending) | .err sw d' => (d', .reply (d'.io.take d'.tx) sw) | .fault f => (d1, .crash f)).1
    (match r2 with | .ok _ d' => (d', Out.pending) | .err sw d' => (d', .reply (d'.io.take d'.tx) sw) | .fault f => (d2, .crash f)).1 := by
  cases hr with
  | ok a h => exact ⟨rfl, h⟩
  | err x h hio => exact ⟨by dsimp only; rw [hio], h⟩
  | fault f => exact ⟨rfl, h⟩

/-! ### The commands -/

theorem getVersion_alike {pl : Platform} {d1 d2 : Dev} (h : Alike pl d1 d2) (pin : Bool) :
    Agree pl (handleGetVersion pl pin d1) (handleGetVersion pl pin d2) := by
  unfold handleGetVersion
  simp only [bind_run, modify_run, Res.bind_ok]
  refine .err _ (h.answer _ _ _) ?_
  dsimp only
  have := fun a => poke_take a ([0, 3, 0, 2, if pin then 0 else 1] ++ pl.targetId)
  simp only [List.length_append, List.length_cons, List.length_nil, Nat.zero_add, Nat.reduceAdd] at this
  rw [this, this]

theorem getAddr_alike {pl : Platform} {d1 d2 : Dev} (h : Alike pl d1 d2) (hio : d1.tx = 0) (hio2 : d2.tx = 0) (rx : Bytes) :
    Agree pl (handleGetAddr pl rx d1) (handleGetAddr pl rx d2) := by
  have ht : d1.io.take d1.tx = d2.io.take d2.tx := by rw [hio, hio2]; rfl
  have hc1 := handleGetAddr_case pl rx d1
  have hc2 := handleGetAddr_case pl rx d2
  have hq : ∀ {x a}, pl.pubKey x = none → addressAnswer pl x = some a → False := by
    intro x a h1 h2; simp [addressAnswer, h1] at h2
  generalize handleGetAddr pl rx d1 = r1 at hc1
  generalize handleGetAddr pl rx d2 = r2 at hc2
  cases hc1 with
  | short h1 =>
    cases hc2 with
    | short => exact .err _ h ht
    | _ => omega
  | path h1 h2 =>
    cases hc2 with
    | short => omega
    | path => exact .err _ ⟨h.ok1, h.ok2, h.init, h.data, rfl, h.expert, h.review, h.kind, h.head, h.addr, h.view⟩ ht
    | _ => contradiction
  | none h1 h2 h3 =>
    cases hc2 with
    | short => omega
    | path => contradiction
    | none =>
      refine .err _ ⟨h.ok1, h.ok2, h.init, h.data, rfl, h.expert, h.review, h.kind, rfl, fun _ => ⟨rfl, rfl⟩, h.view⟩ ?_
      dsimp only; rw [hio, hio2]
    | reply a k1 k2 k3 => exact (hq h3 k3).elim
    | «show» a k1 k2 k3 => exact (hq h3 k3).elim
  | reply a h1 h2 h3 h4 =>
    cases hc2 with
    | short => omega
    | path => contradiction
    | none k1 k2 k3 => exact (hq k3 h3).elim
    | reply b k1 k2 k3 k4 =>
      rw [h3] at k3
      cases k3
      exact .err _ ⟨h.ok1, h.ok2, h.init, h.data, rfl, h.expert, h.review, h.kind, rfl, fun _ => ⟨rfl, rfl⟩, h.view⟩ rfl
    | «show» => contradiction
  | «show» a h1 h2 h3 h4 =>
    cases hc2 with
    | short => omega
    | path => contradiction
    | none k1 k2 k3 => exact (hq k3 h3).elim
    | reply => contradiction
    | «show» b k1 k2 k3 k4 =>
      rw [h3] at k3
      cases k3
      refine .ok _ ⟨h.ok1, h.ok2, h.init, h.data, rfl, h.expert, rfl, .inr (.inr rfl), rfl, fun _ => ⟨rfl, rfl⟩, fun h => ?_⟩
      cases h

theorem view_deploy {pl : Platform} (hcap : pl.cap ≤ 16384) {d : Dev} (hd : d.Ok pl) {xs : Bytes} (hx : d.data = 0 :: xs) {s : DS}
    (ha : DeployAccepted (mkEnv pl d.expert xs) s) :
    ∃ h, (d.tookDeploy s).view pl = (pure (numItemsDeploy (mkEnv pl d.expert xs) s.dep),
      getItemDeploy (mkEnv pl d.expert xs) s.epo s.dep, .ok h ()) ∧
      (xs.drop (headerLength s.dep.header)).take 32 = h := by
  have hs := small_data hcap hd hx d.expert
  have hk := readDeploy_kind ha.parse
  obtain ⟨p, q, k, hdr, hash, pay, ses, rest, -, h1, h2, h3, -⟩ := ha.split hs
  have h1' : xs = hdr ++ hash ++ (pay ++ ses ++ rest) := by rw [show xs = _ from h1]; simp
  obtain ⟨m1, m2⟩ := mem_at hd (h1' ▸ hx)
  rw [h3] at m1 m2
  refine ⟨hash, ?_, by rw [h1', ← h2, ← h3]; simp⟩
  unfold Dev.view
  rw [env_tookDeploy hd hx hk]
  have hb : signedBytes pl (d.tookDeploy s) = .ok hash () := by
    unfold signedBytes
    simp only [Dev.tookDeploy, Dev.forDeploy]
    simp [← h2, m1, m2, hk]
  rw [hb]
  rfl

theorem view_v1 {pl : Platform} (hcap : pl.cap ≤ 16384) {d : Dev} (hd : d.Ok pl) {xs : Bytes} (hx : d.data = 1 :: xs) {s : VS}
    (ha : V1Accepted (mkEnv pl d.expert xs) s) :
    ∃ h, (d.tookV1 s).view pl = (pure s.v.numItems, getItemV1 (mkEnv pl d.expert xs) s.v, .ok h ()) ∧
      (xs.drop s.v.md.size).take 32 = h := by
  have hs := small_data hcap hd hx d.expert
  obtain ⟨hf, env, hash, payload, rest, h1, h2, h3, -⟩ := ha.split hs
  have h1' : xs = env ++ hash ++ (payload ++ rest) := by rw [show xs = _ from h1]; simp
  obtain ⟨m1, m2⟩ := mem_at hd (h1' ▸ hx)
  rw [h3] at m1 m2
  refine ⟨hash, ?_, by rw [h1', ← h2, ← h3]; simp⟩
  unfold Dev.view
  rw [env_tookV1 hd hx]
  have hb : signedBytes pl (d.tookV1 s) = .ok hash () := by
    unfold signedBytes
    simp only [Dev.tookV1, Dev.forV1]
    simp [hf.fo0, ← h2, m1, m2]
  rw [hb]
  rfl

/-- Accepted data: the reviews that open show the same and sign the same. -/
theorem txParse_view {pl : Platform} (hcap : pl.cap ≤ 16384) {d1 d2 t1 t2 : Dev} (h1 : d1.Ok pl) (h2 : d2.Ok pl)
    (hd : d1.data = d2.data) (hx : d1.expert = d2.expert) (e1 : txParse pl d1 = .ok () t1) (e2 : txParse pl d2 = .ok () t2) :
    t1.view pl = t2.view pl := by
  have hc : pl.cap < 65536 := by omega
  rcases (txParse_ok hc h1).1 e1 with ⟨xs, s, b1, a1, rfl⟩ | ⟨xs, s, b1, a1, rfl⟩
  · rcases (txParse_ok hc h2).1 e2 with ⟨ys, s', b2, a2, rfl⟩ | ⟨ys, s', b2, a2, rfl⟩
    · rw [hd, b2] at b1
      cases b1
      rw [← hx] at a2
      have := a1.parse.symm.trans a2.parse
      cases this
      obtain ⟨h, c1, c2⟩ := view_deploy hcap h1 (hd.trans b2) a1
      obtain ⟨h', c3, c4⟩ := view_deploy hcap h2 b2 (hx ▸ a2)
      rw [c1, c3, ← c2, ← c4, hx]
    · rw [hd, b2] at b1; cases b1
  · rcases (txParse_ok hc h2).1 e2 with ⟨ys, s', b2, a2, rfl⟩ | ⟨ys, s', b2, a2, rfl⟩
    · rw [hd, b2] at b1; cases b1
    · rw [hd, b2] at b1
      cases b1
      rw [← hx] at a2
      have := a1.parse.symm.trans a2.parse
      cases this
      obtain ⟨h, c1, c2⟩ := view_v1 hcap h1 (hd.trans b2) a1
      obtain ⟨h', c3, c4⟩ := view_v1 hcap h2 b2 (hx ▸ a2)
      rw [c1, c3, ← c2, ← c4, hx]

theorem SameCore.alike {pl : Platform} {d1 d2 t1 t2 : Dev} (h : Alike pl d1 d2) (hr : d1.review = none)
    (c1 : SameCore d1 t1) (c2 : SameCore d2 t2) : Alike pl t1 t2 := by
  unfold SameCore at c1 c2
  have hr2 : d2.review = none := h.review ▸ hr
  have r1 : t1.review = none := by rw [c1]; exact hr
  refine ⟨?_, ?_, ?_, ?_, ?_, ?_, ?_, .inl r1, ?_, fun h => ?_, fun h => ?_⟩
  · rw [c1]; exact h.ok1
  · rw [c2]; exact h.ok2
  · rw [c1, c2]; exact h.init
  · rw [c1, c2]; exact h.data
  · rw [c1, c2]; exact h.path
  · rw [c1, c2]; exact h.expert
  · rw [c1, c2]; exact h.review
  · rw [c1, c2]; exact h.head
  · rw [r1] at h; cases h
  · rw [r1] at h; cases h

/-- The last chunk. -/
theorem finish_alike {pl : Platform} (hcap : pl.cap ≤ 16384) {d1 d2 : Dev} (h : Alike pl d1 d2) (hr : d1.review = none) :
    Agree pl ((do orExplain (txParse pl); modify fun d => { d with review := some .tx } : M Dev Unit) d1)
      ((do orExplain (txParse pl); modify fun d => { d with review := some .tx } : M Dev Unit) d2) := by
  have hv := txParse_same (by omega) h.ok1 h.ok2 h.data h.expert
  have k1 := txParse_core pl d1
  have k2 := txParse_core pl d2
  unfold orExplain
  simp only [bind_run, attempt_run]
  cases e1 : txParse pl d1 with
  | ok a t1 =>
    rw [e1] at hv
    obtain ⟨t2, e2⟩ := Res.val_ok.1 hv.symm
    rw [e2]
    have hA := SameCore.alike h hr (k1.1 _ _ e1) (k2.1 _ _ e2)
    have hvw := txParse_view hcap h.ok1 h.ok2 h.data h.expert e1 e2
    simp only [Res.bind_ok, pure_run, modify_run]
    exact .ok _ ⟨hA.ok1, hA.ok2, hA.init, hA.data, hA.path, hA.expert, rfl, .inr (.inl rfl), hA.head,
      (fun h => by cases h), fun _ => hvw⟩
  | err x t1 =>
    cases e2 : txParse pl d2 with
    | ok a t2 => rw [e1, e2] at hv; cases hv
    | fault f => rw [e1, e2] at hv; cases hv
    | err y t2 =>
      rw [e1, e2] at hv
      simp only [Res.val, Res.err.injEq, and_true] at hv
      subst hv
      have hA := SameCore.alike h hr (k1.2 _ _ e1) (k2.2 _ _ e2)
      simp only [Res.bind_ok, bind_run, modify_run, Res.bind_err, fail_run]
      refine .err _ (hA.answer _ _ _) ?_
      dsimp only
      rw [poke_take, poke_take]
  | fault f =>
    cases e2 : txParse pl d2 with
    | ok a t2 => rw [e1, e2] at hv; cases hv
    | err y t2 => rw [e1, e2] at hv; cases hv
    | fault g =>
      rw [e1, e2] at hv
      cases hv
      exact .fault _

/-- Changing the session, nothing being reviewed. -/
theorem Alike.session {pl : Platform} {d1 d2 : Dev} (h : Alike pl d1 d2) (hr : d1.review = none) {t1 t2 : Dev}
    (o1 : t1.Ok pl) (o2 : t2.Ok pl) (i : t1.txInit = t2.txInit) (b : t1.data = t2.data) (p : t1.hdPath = t2.hdPath)
    (x1 : t1.expert = d1.expert) (x2 : t2.expert = d2.expert) (r1 : t1.review = d1.review) (r2 : t2.review = d2.review)
    (j1 : t1.io = d1.io) (j2 : t2.io = d2.io) : Alike pl t1 t2 :=
  ⟨o1, o2, i, b, p, by rw [x1, x2]; exact h.expert, by rw [r1, r2]; exact h.review, .inl (r1.trans hr),
    by rw [j1, j2]; exact h.head, (fun k => by rw [r1, hr] at k; cases k), (fun k => by rw [r1, hr] at k; cases k)⟩

theorem sign_alike {pl : Platform} (hcap : pl.cap ≤ 16384) {d1 d2 : Dev} (h : Alike pl d1 d2) (hr : d1.review = none)
    (hio : d1.tx = 0) (hio2 : d2.tx = 0) (rx : Bytes) (hl : 5 ≤ rx.length) :
    Agree pl (handleSign pl rx d1) (handleSign pl rx d2) := by
  have ht : d1.io.take d1.tx = d2.io.take d2.tx := by rw [hio, hio2]; rfl
  have hp := h.pos
  have hi := h.init
  have hc1 := processChunk_case pl rx d1 h.ok1.2
  have hc2 := processChunk_case pl rx d2 h.ok2.2
  unfold handleSign
  rw [bind_run, bind_run]
  generalize processChunk pl rx d1 = r1 at hc1
  generalize processChunk pl rx d2 = r2 at hc2
  have o1 : Dev.Ok pl { d1 with pos := 0 } := ⟨h.ok1.1, Nat.zero_le _⟩
  have o2 : Dev.Ok pl { d2 with pos := 0 } := ⟨h.ok2.1, Nat.zero_le _⟩
  have hz : ∀ d : Dev, d.mem.take 0 = [] := fun d => rfl
  cases hc1 with
  | p2 a =>
    cases hc2 with
    | p2 => exact .err _ h ht
    | _ => first | contradiction | omega
  | short => omega
  | initShort a b c e =>
    cases hc2 with
    | initShort => exact .err _ (h.session hr o1 o2 hi rfl h.path rfl rfl rfl rfl rfl rfl) ht
    | _ => first | contradiction | omega | (exfalso; simp_all)
  | initPath a b c e =>
    cases hc2 with
    | initPath => exact .err _ (h.session hr o1 o2 hi rfl rfl rfl rfl rfl rfl rfl rfl) ht
    | _ => first | contradiction | omega | (exfalso; simp_all)
  | init a b c e =>
    cases hc2 with
    | init => exact .err _ (h.session hr o1 o2 rfl rfl rfl rfl rfl rfl rfl rfl rfl) ht
    | _ => first | contradiction | omega | (exfalso; simp_all)
  | notInit a b c e =>
    cases hc2 with
    | notInit => exact .err _ h ht
    | _ => first | contradiction | omega | (exfalso; simp_all)
  | stored a b c e f =>
    cases hc2 with
    | stored a' b' c' e' f' =>
      have q1 := Dev.Ok.store h.ok1 f
      have q2 := Dev.Ok.store h.ok2 f'
      have hb : (d1.store (rx.drop 5)).data = (d2.store (rx.drop 5)).data := by
        rw [Dev.store_data h.ok1, Dev.store_data h.ok2, h.data]
      simp only [Res.bind_ok]
      split
      · rw [bind_run, bind_run, modify_run, modify_run, Res.bind_ok, Res.bind_ok]
        exact finish_alike hcap (h.session hr q1 q2 rfl hb h.path rfl rfl rfl rfl rfl rfl) hr
      · exact .err _ (h.session hr q1 q2 h.init hb h.path rfl rfl rfl rfl rfl rfl) ht
    | _ => first | contradiction | omega | (exfalso; simp_all)
  | full a b c e f =>
    cases hc2 with
    | full => exact .err _ (h.session hr h.ok1 h.ok2 rfl h.data h.path rfl rfl rfl rfl rfl rfl) ht
    | _ => first | contradiction | omega | (exfalso; simp_all)
  | p1 a b c e f =>
    cases hc2 with
    | p1 => exact .err _ (h.session hr h.ok1 h.ok2 rfl h.data h.path rfl rfl rfl rfl rfl rfl) ht
    | _ => first | contradiction | omega | (exfalso; simp_all)

theorem Alike.reviewed {pl : Platform} {d1 d2 : Dev} (h : Alike pl d1 d2) (r : Review) (hr : d1.review = some r) :
    reviewCount pl d1 r = reviewCount pl d2 r ∧ ∀ i, reviewItem pl d1 r i = reviewItem pl d2 r i := by
  rcases h.kind with k | k | k
  · rw [k] at hr; cases hr
  · rw [k] at hr; cases hr
    have := h.view k
    unfold Dev.view at this
    simp only [Prod.mk.injEq] at this
    refine ⟨this.1, fun i => ?_⟩
    unfold reviewItem
    dsimp only
    rw [this.1, this.2.1]
  · rw [k] at hr; cases hr
    obtain ⟨a, b⟩ := h.addr k
    refine ⟨?_, fun i => ?_⟩
    · unfold reviewCount; dsimp only; rw [h.expert]
    · unfold reviewItem addrItem; dsimp only; rw [a, h.expert, h.path]

/-- One event keeps the two devices alike, and they answer the same. -/
theorem step_alike {pl : Platform} (hcap : pl.cap ≤ 16384) {d1 d2 : Dev} (h : Alike pl d1 d2) (ev : Event)
    (hev : ∀ rx pin, ev = .apdu rx pin → rx.getD 1 0 ≠ 3 ∧ rx.getD 1 0 ≠ 4 ∧ (rx.getD 1 0 = 2 → d1.review = none)) :
    (step pl d1 ev).2 = (step pl d2 ev).2 ∧ Alike pl (step pl d1 ev).1 (step pl d2 ev).1 := by
  cases ev with
  | apdu rx pin =>
    obtain ⟨n3, n4, n2⟩ := hev rx pin rfl
    have hrec := h.recv rx
    have key : Agree pl (dispatch pl rx pin (d1.recv rx)) (dispatch pl rx pin (d2.recv rx)) := by
      have z1 : (d1.recv rx).tx = 0 := rfl
      have z2 : (d2.recv rx).tx = 0 := rfl
      have ht : (d1.recv rx).io.take (d1.recv rx).tx = (d2.recv rx).io.take (d2.recv rx).tx := rfl
      by_cases hl : 5 ≤ rx.length
      · by_cases h0 : rx.getD 0 0 = 0x11
        · rw [dispatch_eq pl d1 rx pin hl h0, dispatch_eq pl d2 rx pin hl h0]
          split
          · exact getVersion_alike hrec pin
          split
          · split
            · split
              · exact getAddr_alike hrec z1 z2 rx
              split
              · exact sign_alike hcap hrec (n2 ‹_›) z1 z2 rx hl
              · exfalso; simp_all
            · exact .err _ hrec ht
          · exact .err _ hrec ht
        · have e : ∀ d : Dev, dispatch pl rx pin (d.recv rx) = .err 0x6E00 (d.recv rx) := by
            intro d
            unfold dispatch
            have : ¬ (d.recv rx).io.getD 0 0 = 0x11 := by
              rw [show (d.recv rx).io = poke d.io rx from rfl, poke_getD _ _ _ (by omega)]; exact h0
            simp only [bind_run, get_run, Res.bind_ok, require_run, if_neg this, Res.bind_err]
          rw [e, e]
          exact .err _ hrec ht
      · unfold dispatch
        simp only [bind_run, get_run, Res.bind_ok, require_run, hrec.head, if_neg hl]
        split
        · exact .err _ hrec ht
        · exact .err _ hrec ht
    rw [step_apdu, step_apdu]
    exact key.outOf h
  | approve =>
    rcases h.kind with k | k | k
    · have k2 : d2.review = none := h.review ▸ k
      unfold step
      rw [k, k2]
      exact ⟨rfl, h⟩
    · have k2 : d2.review = some .tx := h.review ▸ k
      have hv := h.view k
      unfold Dev.view at hv
      simp only [Prod.mk.injEq] at hv
      have hb : signedBytes pl { d1 with review := none } = signedBytes pl { d2 with review := none } := hv.2.2
      have hN : Alike pl { d1 with review := none } { d2 with review := none } :=
        ⟨h.ok1, h.ok2, h.init, h.data, h.path, h.expert, rfl, .inl rfl, h.head, (fun h => by cases h), (fun h => by cases h)⟩
      unfold step
      rw [k, k2]
      dsimp only
      unfold appSign
      rw [hb]
      cases signedBytes pl { d2 with review := none } with
      | fault f => exact ⟨rfl, hN⟩
      | err x u => exact ⟨rfl, hN.answer _ _ _⟩
      | ok bs u =>
        dsimp only
        rw [show pl.sign d1.hdPath (pl.sha256 bs) = pl.sign d2.hdPath (pl.sha256 bs) by rw [h.path]]
        cases pl.sign d2.hdPath (pl.sha256 bs) with
        | none => exact ⟨rfl, hN.answer _ _ _⟩
        | some sig => exact ⟨rfl, hN.answer _ _ _⟩
    · have k2 : d2.review = some .address := h.review ▸ k
      obtain ⟨a, b⟩ := h.addr k
      unfold step
      rw [k, k2]
      dsimp only
      exact ⟨by rw [a, b], h.ok1, h.ok2, h.init, h.data, h.path, h.expert, rfl, .inl rfl, h.head, (fun h => by cases h), (fun h => by cases h)⟩
  | reject =>
    unfold step
    rw [← h.review]
    cases d1.review with
    | none => exact ⟨rfl, h⟩
    | some r =>
      exact ⟨rfl, h.ok1, h.ok2, h.init, h.data, h.path, h.expert, rfl, .inl rfl, poke_head _ _ _ h.head,
        (fun h => by cases h), (fun h => by cases h)⟩
  | setExpert b =>
    unfold step
    dsimp only
    by_cases k : d1.review = none
    · have k2 : d2.review = none := h.review ▸ k
      rw [if_pos k, if_pos k2]
      exact ⟨rfl, h.ok1, h.ok2, h.init, h.data, h.path, rfl, h.review, .inl k, h.head,
        (fun h => by rw [k] at h; cases h), (fun h => by rw [k] at h; cases h)⟩
    · have k2 : ¬ d2.review = none := h.review ▸ k
      rw [if_neg k, if_neg k2]
      exact ⟨rfl, h⟩

/-- INIT makes any two idle devices alike. -/
theorem init_alike {pl : Platform} {d1 d2 : Dev} (h1 : d1.Ok pl) (h2 : d2.Ok pl) (hx : d1.expert = d2.expert)
    (r1 : d1.review = none) (r2 : d2.review = none) {rx : Bytes} (hc : Chunk 2 0 rx) (hl : 25 ≤ rx.length)
    (hp : casperPath (pathOf rx)) : (step pl d1 (.apdu rx true)).2 = (step pl d2 (.apdu rx true)).2 ∧
    Alike pl (step pl d1 (.apdu rx true)).1 (step pl d2 (.apdu rx true)).1 := by
  have e : ∀ d : Dev, step pl d (.apdu rx true) =
      ({ d.recv rx with pos := 0, hdPath := pathOf rx, txInit := true }, .reply [] 0x9000) := by
    intro d
    have hpc : ∀ s, processChunk pl rx s = .ok false { s with pos := 0, hdPath := pathOf rx, txInit := true } := by
      intro s
      unfold processChunk
      simp only [bind_run, require_run, if_pos hc.p2, if_pos hc.len, Res.bind_ok, if_pos hc.p1, modify_run]
      rw [extractPath_ok hl hp]
      rfl
    rw [step_apdu, dispatch_sign hc, handleSign, bind_run, hpc]
    rfl
  rw [e, e]
  refine ⟨rfl, ⟨h1.1, Nat.zero_le _⟩, ⟨h2.1, Nat.zero_le _⟩, rfl, rfl, rfl, hx, r1.trans r2.symm, .inl r1, ?_,
    fun k => (nomatch r1.symm.trans k), fun k => (nomatch r1.symm.trans k)⟩
  cases rx with
  | nil => simp at hl
  | cons y ys => rfl

/-- The events contain no command of the other two signing instructions, and no SIGN command arrives while a review
is on the screen. -/
def Orderly (pl : Platform) : Dev → List Event → Prop
  | _, [] => True
  | d, ev :: evs =>
    (∀ rx pin, ev = .apdu rx pin → rx.getD 1 0 ≠ 3 ∧ rx.getD 1 0 ≠ 4 ∧ (rx.getD 1 0 = 2 → d.review = none)) ∧
    Orderly pl (step pl d ev).1 evs

theorem run_alike {pl : Platform} (hcap : pl.cap ≤ 16384) {d1 d2 : Dev} (h : Alike pl d1 d2) (evs : List Event)
    (hq : Orderly pl d1 evs) : (run pl d1 evs).2 = (run pl d2 evs).2 ∧ Alike pl (run pl d1 evs).1 (run pl d2 evs).1 := by
  induction evs generalizing d1 d2 with
  | nil => exact ⟨rfl, h⟩
  | cons ev evs ih =>
    obtain ⟨a, b⟩ := step_alike hcap h ev hq.1
    obtain ⟨c, d⟩ := ih b hq.2
    exact ⟨by show _ :: _ = _ :: _; rw [a, c], d⟩

/-! ### C65 -/

/-- **C65.** Two devices whatever happened to them before (`h₁`, `h₂` are any two histories), both idle and in the same
mode. Give both a SIGN INIT and then the same events: further SIGN chunks in any order and of any content,
GET_VERSION, GET_ADDR, malformed commands, approvals, rejections, changes of the expert setting, but no SIGN command
while a review is on the screen. All their answers are equal (status words, addresses, digests, signatures), a review is
pending on the one iff on the other, and it has the same number of lines and the same lines. -/
theorem C65_history (pl : Platform) (hcap : pl.cap ≤ 16384) (h₁ h₂ : List Event) (d₁ d₂ : Dev)
    (e₁ : d₁ = (run pl (Dev.init pl) h₁).1) (e₂ : d₂ = (run pl (Dev.init pl) h₂).1)
    (r₁ : d₁.review = none) (r₂ : d₂.review = none) (hx : d₁.expert = d₂.expert)
    (rx : Bytes) (hc : Chunk 2 0 rx) (hl : 25 ≤ rx.length) (hp : casperPath (pathOf rx)) (evs : List Event)
    (hq : Orderly pl (step pl d₁ (.apdu rx true)).1 evs) :
    (run pl d₁ (.apdu rx true :: evs)).2 = (run pl d₂ (.apdu rx true :: evs)).2 ∧
    (run pl d₁ (.apdu rx true :: evs)).1.review = (run pl d₂ (.apdu rx true :: evs)).1.review ∧
    ∀ r, (run pl d₁ (.apdu rx true :: evs)).1.review = some r →
      reviewCount pl (run pl d₁ (.apdu rx true :: evs)).1 r = reviewCount pl (run pl d₂ (.apdu rx true :: evs)).1 r ∧
      ∀ i, reviewItem pl (run pl d₁ (.apdu rx true :: evs)).1 r i =
        reviewItem pl (run pl d₂ (.apdu rx true :: evs)).1 r i := by
  have o₁ : d₁.Ok pl := e₁ ▸ (Dev.Ok.init pl).run h₁
  have o₂ : d₂.Ok pl := e₂ ▸ (Dev.Ok.init pl).run h₂
  obtain ⟨a, b⟩ := init_alike o₁ o₂ hx r₁ r₂ hc hl hp
  obtain ⟨c, d⟩ := run_alike hcap b evs hq
  refine ⟨?_, d.review, d.reviewed⟩
  show _ :: _ = _ :: _
  rw [a, c]

instance Orderly.dec (pl : Platform) : (d : Dev) → (evs : List Event) → Decidable (Orderly pl d evs)
  | _, [] => isTrue trivial
  | d, ev :: evs =>
    have : Decidable (Orderly pl (step pl d ev).1 evs) := Orderly.dec pl _ evs
    have : Decidable (∀ rx pin, ev = .apdu rx pin →
        rx.getD 1 0 ≠ 3 ∧ rx.getD 1 0 ≠ 4 ∧ (rx.getD 1 0 = 2 → d.review = none)) :=
      match ev with
      | .apdu rx pin =>
        if h : rx.getD 1 0 ≠ 3 ∧ rx.getD 1 0 ≠ 4 ∧ (rx.getD 1 0 = 2 → d.review = none) then
          isTrue (fun _ _ e => by cases e; exact h)
        else isFalse (fun k => h (k rx pin rfl))
      | .approve => isTrue (fun _ _ e => nomatch e)
      | .reject => isTrue (fun _ _ e => nomatch e)
      | .setExpert _ => isTrue (fun _ _ e => nomatch e)
    by unfold Orderly; exact inferInstance

/-- A history: a version 1 transfer was uploaded and rejected. -/
def sampleHistory : List Event := sampleUpload (1 :: sampleTransfer.tx Blake.H []) 1 ++ [.reject]

/-- The upload of the sample Deploy behind its INIT, then other commands and an approval. -/
def sampleRest : List Event :=
  (sampleUpload (0 :: sampleDeploy.tx Blake.H [])).drop 1 ++ [.apdu [0x11, 0, 0, 0, 0] true, .setExpert true, .approve]

/-- A case of C65: a fresh device and one that was asked to sign a transfer before; both sign the sample Deploy. -/
theorem C65_case : Orderly samplePl
      (step samplePl (run samplePl (Dev.init samplePl) sampleHistory).1 (.apdu (apdu 2 0 (samplePath 0)) true)).1 sampleRest ∧
    (run samplePl (Dev.init samplePl) sampleHistory).1.review = none ∧
    (run samplePl (Dev.init samplePl) sampleHistory).1.expert = (Dev.init samplePl).expert ∧
    (run samplePl (Dev.init samplePl) sampleHistory).1.v1 ≠ (Dev.init samplePl).v1 ∧
    (∃ sig, (run samplePl (Dev.init samplePl) (.apdu (apdu 2 0 (samplePath 0)) true :: sampleRest)).2.getLast? =
      some (.reply sig 0x9000) ∧ sig ≠ []) := by
  refine ⟨by decide +kernel, by decide +kernel, by decide +kernel, by decide +kernel, ?_⟩
  refine ⟨_, show _ = some (Out.reply (match (run samplePl (Dev.init samplePl)
    (.apdu (apdu 2 0 (samplePath 0)) true :: sampleRest)).2.getLast? with | some (.reply s _) => s | _ => []) 0x9000) from ?_, ?_⟩
  · decide +kernel
  · decide +kernel

/-- **The condition of C65 is needed.** The sample Deploy is uploaded and its review is on the screen; a second upload of
the single byte 1 is refused; then the user approves what they see. The fresh device and the one with a history
give different signatures: the refused upload has made the device take the upload buffer for a version 1 transaction, at
the offsets left by the transfer of long ago. -/
theorem C65_condition_needed :
    (run samplePl (run samplePl (Dev.init samplePl) sampleHistory).1
      (sampleUpload (0 :: sampleDeploy.tx Blake.H []) ++ sampleUpload [1] 0 ++ [.approve])).2 ≠
    (run samplePl (Dev.init samplePl)
      (sampleUpload (0 :: sampleDeploy.tx Blake.H []) ++ sampleUpload [1] 0 ++ [.approve])).2 := by
  decide +kernel

end Casper
