import Verif.Props.AcceptV1

/-!
# Names in the reviews of calls

Names of contracts, packages and entry points are shown up to the first zero byte, and at most 99 bytes of them. With this the reviews of calls are
known for all names.
-/

namespace Casper

open M

/-- What is shown of a name. -/
def clip (name : Bytes) : Bytes := (name.take 99).takeWhile (· != 0)

/-- A target with what is shown of its name. -/
def V1Target.clipped : V1Target → V1Target
  | byName n rt => byName (clip n) rt
  | byPackageName n v rt => byPackageName (clip n) v rt
  | t => t

/-- In expert mode, packages have a version. -/
def V1Target.Versioned (expert : Bool) : V1Target → Prop
  | byPackageHash _ v _ | byPackageName _ v _ => expert = true → ∃ x, v = some x ∧ x < 2 ^ 32 - 1
  | _ => True

theorem clip_length (name : Bytes) : (clip name).length ≤ 99 :=
  Nat.le_trans (List.takeWhile_sublist _).length_le (by simp)

theorem clip_zero (name : Bytes) : 0 ∉ clip name := by
  unfold clip
  generalize name.take 99 = xs
  induction xs with
  | nil => simp
  | cons x xs ih =>
    rw [List.takeWhile_cons]
    split
    · rename_i h
      rw [List.mem_cons, not_or]
      exact ⟨fun h0 => by rw [← h0] at h; simp at h, ih⟩
    · simp

theorem clip_id {name : Bytes} (hl : name.length ≤ 99) (h0 : 0 ∉ name) : clip name = name := by
  unfold clip
  rw [List.take_of_length_le hl]
  exact cstr_eq h0

theorem V1Target.Versioned.clipped {expert : Bool} {t : V1Target} (h : t.Versioned expert) : t.clipped.Showable expert := by
  cases t with
  | native | session | byHash => trivial
  | byName n rt => exact ⟨clip_length _, clip_zero _⟩
  | byPackageHash x v rt => exact h
  | byPackageName n v rt => exact ⟨⟨clip_length _, clip_zero _⟩, h⟩

theorem V1Target.clipped_items (t : V1Target) {expert : Bool} : t.clipped.items expert = t.items expert := by cases t <;> rfl

theorem printfStr_clip {e : Env} {off s n : Nat} {xs : Bytes} (h : At e.buf off xs) (hn : n = xs.length) : printfStr e off n s = .ok (clip xs) s := by
  have h1 : At e.buf off (xs.take 99) := by
    rw [← List.take_append_drop 99 xs] at h
    exact (At.append.1 h).1
  unfold printfStr
  refine seqThen (slice_at h1 (by rw [List.length_take]; omega)) ?_
  rfl

theorem seen_entryClip {e : Env} {B pos n : Nat} {c : Content} {v : V1} (h : ContentSeen e B pos c n v) {name : Bytes} (hn : c.entry = .custom name)
    (s : Nat) : ∃ o, customEntry e v s = .ok (b!"Entry-point", clip name) o := by
  obtain ⟨h1, h2⟩ := h.custom name hn
  unfold customEntry
  rw [h2]
  exact exThen (printfStr_clip h1 rfl) ⟨_, rfl⟩

/-- The lines about the contract, whatever its name and that of the entry point are. -/
theorem seen_clipped {e : Env} {B pos n : Nat} {c : Content} {v : V1} (h : ContentSeen e B pos c n v) (hc : c.Sized) {name : Bytes} (hn : c.entry = .custom name)
    (ht : c.target.Versioned e.expert) {last : Option (Bytes × Bytes)}
    (hlast : ∀ kv, last = some kv → ∀ s, ∃ o, customHash e v s = .ok kv o) {i : Nat} {kv : Bytes × Bytes}
    (hi : (c.target.clipped.calledLines e.expert (clip name) ++ last.toList)[i]? = some kv) (s : Nat) :
    ∃ o, itemEntry e v i s = .ok kv o := by
  have hcnt := called_count ht.clipped (clip name)
  rw [c.target.clipped_items] at hcnt
  have hle := called_le e.expert c.target.clipped (clip name)
  have hni : v.numItems = (if e.expert then 9 else 4) + ((c.target.clipped.calledLines e.expert (clip name)).length + 1) := by
    rw [h.items, hn, hcnt]
    show u8 (_ + 1 + 1) = _
    rw [u8_id (by split <;> omega)]
    split <;> omega
  have hlt := (List.getElem?_eq_some_iff.1 hi).1
  have hbound : ¬ i ≥ u32 (v.numItems + 4294967296 - (if e.expert then 9 else 4)) := by
    have h1 : last.toList.length ≤ 1 := by cases last <;> simp
    rw [List.length_append] at hlt
    rw [hni]; unfold u32; split <;> omega
  have hentry := seen_entryClip h hn
  have hep : v.epType = 1 := by rw [h.ep, hn]; rfl
  have hH : ∀ {j : Nat}, last.toList[j]? = some kv → ∀ s, ∃ o, customHash e v s = .ok kv o := by
    intro j hj
    refine hlast kv ?_
    cases last with
    | none => simp at hj
    | some x =>
      match j, hj with
      | 0, hj => simpa using hj
  have htg := h.target
  unfold itemEntry
  refine exThen (t := u16 v.argsOff) (by unfold seek; rfl) ?_
  rw [if_pos hep]
  generalize u16 v.argsOff = s
  unfold itemCustom
  rw [if_neg hbound]
  cases hp : c.target with
  | native =>
    rw [hp] at hi htg
    rw [show v.target.typ = 0 from htg]
    exact hH (j := i) (by simpa [V1Target.clipped, V1Target.calledLines] using hi) s
  | session _ _ _ =>
    rw [hp] at hi htg
    rw [show v.target.typ = 5 from htg]
    exact hH (j := i) (by simpa [V1Target.clipped, V1Target.calledLines] using hi) s
  | byHash x rt =>
    rw [hp] at hi htg
    obtain ⟨t1, t2⟩ := htg
    rw [t1]
    match i, hi with
    | 0, hi => simp [V1Target.clipped, V1Target.calledLines] at hi; rw [← hi]; exact ⟨s, rfl⟩
    | 1, hi =>
      simp [V1Target.clipped, V1Target.calledLines] at hi; rw [← hi]
      exact exThen (printByHash_at t2 (hc.byHash x rt hp)) ⟨_, rfl⟩
    | 2, hi => simp [V1Target.clipped, V1Target.calledLines] at hi; rw [← hi]; exact hentry s
    | j + 3, hi => exact hH (j := j) (by simpa [V1Target.clipped, V1Target.calledLines] using hi) s
  | byName x rt =>
    rw [hp] at hi htg ht
    obtain ⟨t1, t2, t3⟩ := htg
    rw [t1]
    match i, hi with
    | 0, hi => simp [V1Target.clipped, V1Target.calledLines] at hi; rw [← hi]; exact ⟨s, rfl⟩
    | 1, hi =>
      simp [V1Target.clipped, V1Target.calledLines] at hi; rw [← hi]
      exact exThen (printfStr_clip t2 t3) ⟨_, rfl⟩
    | 2, hi => simp [V1Target.clipped, V1Target.calledLines] at hi; rw [← hi]; exact hentry s
    | j + 3, hi => exact hH (j := j) (by simpa [V1Target.clipped, V1Target.calledLines] using hi) s
  | byPackageHash x ver rt =>
    rw [hp] at hi htg ht
    obtain ⟨t1, t2, t4⟩ := htg
    rw [t1, t4]
    match i, hi with
    | 0, hi => simp [V1Target.clipped, V1Target.calledLines] at hi; rw [← hi]; exact ⟨s, rfl⟩
    | 1, hi =>
      simp [V1Target.clipped, V1Target.calledLines] at hi; rw [← hi]
      exact exThen (printByHash_at t2 (hc.byPackageHash x ver rt hp)) ⟨_, rfl⟩
    | i + 2, hi =>
      cases hx : e.expert with
      | false =>
        rw [hx] at hi
        simp only [Bool.false_eq_true, false_and, if_false]
        match i, hi with
        | 0, hi => simp [V1Target.clipped, V1Target.calledLines, versionLine] at hi; rw [← hi]; exact hentry s
        | j + 1, hi => exact hH (j := j) (by simpa [V1Target.clipped, V1Target.calledLines, versionLine] using hi) s
      | true =>
        obtain ⟨y, rfl, h2⟩ := ht hx
        rw [hx] at hi
        simp only [true_and, if_true]
        match i, hi with
        | 0, hi =>
          simp [V1Target.clipped, V1Target.calledLines, versionLine] at hi; rw [← hi, ← decimal_eq]
          have hnv : y ≠ noVersion := by simp [noVersion]; omega
          exact ⟨s, congrFun (if_pos (c := y ≠ noVersion) hnv) s⟩
        | 1, hi => simp [V1Target.clipped, V1Target.calledLines, versionLine] at hi; rw [← hi]; exact hentry s
        | j + 2, hi => exact hH (j := j) (by simpa [V1Target.clipped, V1Target.calledLines, versionLine] using hi) s
  | byPackageName x ver rt =>
    rw [hp] at hi htg ht
    obtain ⟨t1, t2, t3, t4⟩ := htg
    rw [t1, t4]
    match i, hi with
    | 0, hi => simp [V1Target.clipped, V1Target.calledLines] at hi; rw [← hi]; exact ⟨s, rfl⟩
    | 1, hi =>
      simp [V1Target.clipped, V1Target.calledLines] at hi; rw [← hi]
      exact exThen (printfStr_clip t2 t3) ⟨_, rfl⟩
    | i + 2, hi =>
      cases hx : e.expert with
      | false =>
        rw [hx] at hi
        simp only [Bool.false_eq_true, false_and, if_false]
        match i, hi with
        | 0, hi => simp [V1Target.clipped, V1Target.calledLines, versionLine] at hi; rw [← hi]; exact hentry s
        | j + 1, hi => exact hH (j := j) (by simpa [V1Target.clipped, V1Target.calledLines, versionLine] using hi) s
      | true =>
        obtain ⟨y, rfl, h2⟩ := ht hx
        rw [hx] at hi
        simp only [true_and, if_true]
        match i, hi with
        | 0, hi =>
          simp [V1Target.clipped, V1Target.calledLines, versionLine] at hi; rw [← hi, ← decimal_eq]
          have hnv : y ≠ noVersion := by simp [noVersion]; omega
          exact ⟨s, congrFun (if_pos (c := y ≠ noVersion) hnv) s⟩
        | 1, hi => simp [V1Target.clipped, V1Target.calledLines, versionLine] at hi; rw [← hi]; exact hentry s
        | j + 2, hi => exact hH (j := j) (by simpa [V1Target.clipped, V1Target.calledLines, versionLine] using hi) s

/-- **C83, calls, for all names.** The review of accepted version 1 data whose content is a call consists of exactly the lines of this content, the
names of the contract or package and of the entry point being clipped.  Missing: arguments at position 256 or later, a wrong length of the arguments
(`C54_length_false`), packages without version and payments of more than 19 digits in expert mode. -/
theorem C83_names_partial (pl : Platform) (hcap : pl.cap ≤ 16384) (d d' : Dev) (hd : d.Ok pl) (rx : Bytes)
    (pin : Bool) (hins : rx.getD 1 0 = 2) (xs : Bytes) (hx : d.data ++ rx.drop 5 = 1 :: xs) (h : step pl d (.apdu rx pin) = (d', .pending))
    (c : Content) (pos n : Nat) (payload : Bytes) (hc : Says pl.blake c pos n payload xs) (hg : ∀ as, c.args = .named as → GoodTypes as)
    (name : Bytes) (hn : c.entry = .custom name) (ht : c.target.Versioned d.expert)
    (hpos : pos < 256) (hsz : ∀ as, c.args = .named as → c.argsSize = c.args.encode.length) (hpr : d.expert = true → c.pricing.Small) :
    ∃ time ttl, (d.expert = true → pl.fmtTime (c.time / 1000) = some time ∧ duration ttl = c.ttl / 1000) ∧
      Displays pl d' (c.screens pl.blake payload d.expert n time ttl
        (c.target.clipped.calledLines d.expert (clip name) ++ [(b!"Args hash", checksumHex pl.blake (pl.blake c.args.blob))])) := by
  obtain ⟨s, B, acc, hs, hok', hdata, rfl, g1, g2, g3, g4, -⟩ := pending_says hcap hd hins hx h hc hg
  have hle := called_le d.expert c.target.clipped (clip name)
  have hcnt := called_count ht.clipped (clip name)
  rw [c.target.clipped_items] at hcnt
  have hlen : (c.target.clipped.calledLines d.expert (clip name) ++ [(b!"Args hash", checksumHex pl.blake (pl.blake c.args.blob))]).length ≤ 5 := by
    rw [List.length_append]; simp; omega
  have key : ∀ {i kv}, (c.target.clipped.calledLines d.expert (clip name) ++ [(b!"Args hash", checksumHex pl.blake (pl.blake c.args.blob))])[i]? = some kv → ∀ o,
      ∃ o', itemEntry (mkEnv pl d.expert xs) s.v i o = .ok kv o' := by
    intro i kv hi o
    refine seen_clipped (last := some (b!"Args hash", checksumHex pl.blake (pl.blake c.args.blob))) g1 g3 hn ht ?_ hi o
    intro kv hkv s'
    cases hkv
    exact seen_argsHash hs g1 hpos (by have := hc.pos_ge; omega) hsz s'
  obtain ⟨time, ttl, t1, t2, t3⟩ := seen_screens hs g1 g3 (payload := payload)
    (lines := c.target.clipped.calledLines d.expert (clip name) ++ [(b!"Args hash", checksumHex pl.blake (pl.blake c.args.blob))]) g2 (hc.chain_lt hpos) hpr g4 acc.items
    (by rw [hn, List.length_append, ← hcnt]; rfl) (by omega) (fun _ _ => by rw [g1.ep, hn]; exact Nat.one_ne_zero) (fun {i kv} hi o => key hi o)
  refine ⟨time, ttl, t1, displays_of_items hok' hdata t2 ?_ t3⟩
  have hpl : (c.pricing.lines pl.blake).length = 2 := by cases c.pricing <;> rfl
  show (c.screens pl.blake payload d.expert n time ttl _).length ≤ 128
  unfold Content.screens
  generalize c.target.clipped.calledLines d.expert (clip name) ++ [(b!"Args hash", checksumHex pl.blake (pl.blake c.args.blob))] = L at hlen ⊢
  cases d.expert <;> simp [hpl] <;> omega

/-- **C84, calls, for all names.** Whatever the names are, a call is accepted exactly if its content can be presented: no name is refused. -/
theorem C84_names_partial (pl : Platform) (hcap : pl.cap ≤ 16384) (d : Dev) (hd : d.Ok pl) (path : Bytes)
    (hlen : path.length = 20) (hpath : casperPath path) (cs : List Bytes) (last xs : Bytes)
    (hcs : cs.flatten ++ last = 1 :: xs) (hfit : (cs.flatten ++ last).length ≤ pl.cap)
    (c : Content) (pos n : Nat) (payload : Bytes) (hc : Says pl.blake c pos n payload xs) (hg : ∀ as, c.args = .named as → GoodTypes as)
    (name : Bytes) (hn : c.entry = .custom name) (ht : c.target.Versioned d.expert)
    (hpos : pos < 256) (hsz : ∀ as, c.args = .named as → c.argsSize = c.args.encode.length) (hpr : d.expert = true → c.pricing.Small) :
    ((run pl d (upload 2 path cs last)).2 = List.replicate (cs.length + 1) (.reply [] 0x9000) ++ [.pending] ↔ c.Presentable pl.fmtTime d.expert) ∧
    (c.Presentable pl.fmtTime d.expert →
      ∃ d' time ttl, (d.expert = true → pl.fmtTime (c.time / 1000) = some time ∧ duration ttl = c.ttl / 1000) ∧
        run pl d (upload 2 path cs last) = (d', List.replicate (cs.length + 1) (.reply [] 0x9000) ++ [.pending]) ∧
        Displays pl d' (c.screens pl.blake payload d.expert n time ttl
          (c.target.clipped.calledLines d.expert (clip name) ++ [(b!"Args hash", checksumHex pl.blake (pl.blake c.args.blob))])) ∧
        (step pl d' .approve).2 = signatureReply pl path (pl.sha256 (pl.blake payload))) := by
  have hle := called_le d.expert c.target.clipped (clip name)
  have hcnt := called_count ht.clipped (clip name)
  rw [c.target.clipped_items] at hcnt
  have hll : (c.target.clipped.calledLines d.expert (clip name) ++ [(b!"Args hash", checksumHex pl.blake (pl.blake c.args.blob))]).length ≤ 5 := by
    rw [List.length_append]; simp; omega
  have key := upload_says pl hcap d hd path hlen hpath cs last xs hcs hfit hc hg hpos hpr
    (lines := c.target.clipped.calledLines d.expert (clip name) ++ [(b!"Args hash", checksumHex pl.blake (pl.blake c.args.blob))]) (by omega) (R := True)
    (fun B v hs g hz => by
      refine ⟨by rw [hn, List.length_append, ← hcnt]; rfl, by omega, fun _ _ => by rw [g.ep, hn]; exact Nat.one_ne_zero, fun {i kv} hi o => ?_⟩
      refine seen_clipped (last := some (b!"Args hash", checksumHex pl.blake (pl.blake c.args.blob))) g hz hn ht ?_ hi o
      intro kv hkv s'
      cases hkv
      exact seen_argsHash hs g hpos (by have := hc.pos_ge; omega) hsz s')
    (fun B v hs g => ⟨fun _ o => by
      have hep : v.epType = 1 := by rw [g.ep, hn]; rfl
      unfold checkSanity
      rw [if_neg (by simp [hep]), hep]
      exact ⟨o, rfl⟩, fun _ => trivial⟩)
  simpa using key

/-- **C53 is false of every call.** Take any serialized call and another one that differs from it only behind a zero byte, or behind the 99th byte, of
the name of its entry point, or of the name of its contract or package. Both are accepted in normal mode, and their reviews differ in nothing but the
transaction hash. So a reader cannot tell which contract or entry point is called. -/
theorem C53_names_false (pl : Platform) (hcap : pl.cap ≤ 16384) (d : Dev) (hd : d.Ok pl) (hxp : d.expert = false) (path : Bytes)
    (hlen : path.length = 20) (hpath : casperPath path) (p q : TxPayload) (hp : p.Ok) (hq : q.Ok) (name name' : Bytes) (hn : p.entry = .custom name)
    (hdiff : q = { p with target := q.target, entry := .custom name' }) (hclip : clip name' = clip name) (htgt : q.target.clipped = p.target.clipped)
    (hpos : p.argsPos < 256) (hchain : p.chain.length ≤ 99) (hg : ∀ as, p.args = .named as → GoodTypes as)
    (hfp : (p.tx pl.blake []).length + 1 ≤ pl.cap) (hfq : (q.tx pl.blake []).length + 1 ≤ pl.cap) :
    ∃ d1 d2 lines, run pl d (upload 2 path [] (1 :: p.tx pl.blake [])) = (d1, [.reply [] 0x9000, .pending]) ∧
      run pl d (upload 2 path [] (1 :: q.tx pl.blake [])) = (d2, [.reply [] 0x9000, .pending]) ∧
      Displays pl d1 ((b!"Txn hash", checksumHex pl.blake (pl.blake p.encode)) :: lines) ∧
      Displays pl d2 ((b!"Txn hash", checksumHex pl.blake (pl.blake q.encode)) :: lines) ∧
      (step pl d1 .approve).2 = signatureReply pl path (pl.sha256 (pl.blake p.encode)) ∧
      (step pl d2 .approve).2 = signatureReply pl path (pl.sha256 (pl.blake q.encode)) := by
  have ver : ∀ t : V1Target, t.Versioned d.expert := by
    intro t
    cases t <;> simp [V1Target.Versioned, hxp]
  have pres : ∀ c : Content, c.chain = p.chain → c.Presentable pl.fmtTime d.expert := fun c h =>
    ⟨.inl (by rw [h]; exact hchain), fun h => by rw [hxp] at h; cases h⟩
  have hqn : q.entry = .custom name' := by rw [hdiff]
  have hqa : q.args = p.args := by rw [hdiff]
  have hqp : q.argsPos = p.argsPos := by rw [hdiff]; rfl
  have sp := TxPayload.says (H := pl.blake) (ap := []) hp (by simp) (by omega)
  have sq := TxPayload.says (H := pl.blake) (ap := []) hq (by simp) (by omega)
  obtain ⟨-, kp⟩ := C84_names_partial pl hcap d hd path hlen hpath [] (1 :: p.tx pl.blake []) _ rfl (by simpa using hfp) p.content _ _ _ sp hg name hn
    (ver _) hpos (fun _ _ => rfl) (fun h => by rw [hxp] at h; cases h)
  obtain ⟨-, kq⟩ := C84_names_partial pl hcap d hd path hlen hpath [] (1 :: q.tx pl.blake []) _ rfl (by simpa using hfq) q.content _ _ _ sq
    (fun as h => hg as (hqa ▸ h)) name' hqn (ver _) (by rw [hqp]; exact hpos) (fun _ _ => rfl) (fun h => by rw [hxp] at h; cases h)
  obtain ⟨d1, _, _, -, p1, p2, p3⟩ := kp (pres _ rfl)
  obtain ⟨d2, _, _, -, q1, q2, q3⟩ := kq (pres _ (by show q.chain = _; rw [hdiff]))
  refine ⟨d1, d2, (p.content.screens pl.blake p.encode false 0 [] [] (p.content.target.clipped.calledLines false (clip name) ++
    [(b!"Args hash", checksumHex pl.blake (pl.blake p.content.args.blob))])).drop 1, p1, q1, ?_, ?_, p3, q3⟩
  · rw [hxp] at p2
    exact p2
  · rw [hxp] at q2
    have e1 : q.content.target.clipped = p.content.target.clipped := htgt
    have e2 : q.content.args = p.content.args := hqa
    have e3 : q.content.addr = p.content.addr := by show q.initiator.addr = _; rw [hdiff]; rfl
    have e4 : q.content.chain = p.content.chain := by show q.chain = _; rw [hdiff]; rfl
    have e5 : q.content.entry.title = p.content.entry.title := by
      show q.entry.title = p.entry.title
      rw [hqn, hn]; rfl
    unfold Content.screens at q2 ⊢
    rw [e1, e2, e3, e4, e5, hclip] at q2
    exact q2

/-- A call of the contract "vault" and of its entry point "deposit", with further bytes behind a zero byte of either name. -/
def sampleZero (contract entry : Bytes) : TxPayload :=
  { sampleCall (.byName (b!"vault" ++ contract) .v1) with entry := .custom (b!"deposit" ++ entry) }

theorem sampleZero_ok (contract entry : Bytes) : (sampleZero contract entry).Ok :=
  have h := (sampleCall_call (t := .byName (b!"vault" ++ contract) .v1) trivial).ok
  { initiator := h.initiator, timestamp := h.timestamp, ttl := h.ttl, pricing := h.pricing, args := h.args, target := h.target, entry := trivial }

/-- An instance of `C53_names_false` (and of the hypotheses of `C84_names_partial` and `C83_names_partial`): "deposit" of "vault", and an entry point
of another contract that looks the same. -/
example : ∃ d1 d2 lines,
    run samplePl (Dev.init samplePl) (upload 2 (samplePath 0) [] (1 :: (sampleZero [] []).tx samplePl.blake [])) = (d1, [.reply [] 0x9000, .pending]) ∧
    run samplePl (Dev.init samplePl) (upload 2 (samplePath 0) [] (1 :: (sampleZero [0, 50] [0, 51, 52]).tx samplePl.blake [])) =
      (d2, [.reply [] 0x9000, .pending]) ∧
    Displays samplePl d1 ((b!"Txn hash", checksumHex samplePl.blake (samplePl.blake (sampleZero [] []).encode)) :: lines) ∧
    Displays samplePl d2 ((b!"Txn hash", checksumHex samplePl.blake (samplePl.blake (sampleZero [0, 50] [0, 51, 52]).encode)) :: lines) := by
  obtain ⟨d1, d2, ls, a, b, c, d, -⟩ := C53_names_false samplePl (by decide) (Dev.init samplePl) (.init _) rfl (samplePath 0) rfl (by decide)
    (sampleZero [] []) (sampleZero [0, 50] [0, 51, 52]) (sampleZero_ok _ _) (sampleZero_ok _ _) b!"deposit" (b!"deposit" ++ [0, 51, 52]) rfl rfl rfl rfl
    (by decide +kernel) (by decide) (fun as h => by cases h; unfold GoodTypes; decide +kernel) (by decide +kernel) (by decide +kernel)
  exact ⟨d1, d2, ls, a, b, c, d⟩

end Casper
