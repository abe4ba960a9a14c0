import Verif.Lib.ContentV1
import Verif.Lib.SameContent
import Verif.Lib.V1Call
import Verif.Props.HeadersV1
import Verif.Props.CanonicalV1
import Verif.Props.RenderV1
/-
C83: the review of accepted version 1 data is that of their content; and more of C43, C44, C46, C48, C53, C54 and C68 for all accepted version 1 data.
-/
namespace Casper
open M

/-- What is known of the parts of a payload. -/
structure Content.Sized (c : Content) : Prop where
  addr : c.addr.length ≤ 34
  time : c.time < 2 ^ 64
  ttl : c.ttl < 2 ^ 64
  op : ∀ t, c.entry = .op t → t ≤ 12 ∧ t ≠ 1
  byHash : ∀ h rt, c.target = .byHash h rt → h.length = 32
  byPackageHash : ∀ h v rt, c.target = .byPackageHash h v rt → h.length = 32

theorem PayloadOf.sized {c : Content} {pos : Nat} {xs : Bytes} (h : PayloadOf c pos xs) : c.Sized := by
  obtain ⟨tb, init, pricing, body, -, -, ⟨tag, hi, -⟩, -, h1, h2, ⟨_, _, _, target, entry, _, -, ht, he, -⟩, -⟩ := h
  refine ⟨?_, h1, h2, ?_, ?_, ?_⟩
  · rcases hi with ⟨-, h | ⟨k, hk, h⟩ | ⟨k, hk, h⟩⟩ | ⟨-, h⟩
    · rw [h]; decide
    · rw [h, List.length_cons]; omega
    · rw [h, List.length_cons]; omega
    · omega
  · intro t h
    rw [h] at he
    cases he with
    | op _ _ h1 h2 _ => exact ⟨h1, h2⟩
  · intro x rt h
    rw [h] at ht
    cases ht with
    | stored _ _ _ _ _ _ h1 _ _ _ =>
      cases h1 with
      | byHash _ _ hh => exact hh
  · intro x v rt h
    rw [h] at ht
    cases ht with
    | stored _ _ _ _ _ _ h1 _ _ _ =>
      cases h1 with
      | byPackageHash _ _ _ hh _ => exact hh

/-- The header as the review finds it. -/
theorem ContentSeen.view {e : Env} {B A n : Nat} {c : Content} {v : V1} (h : ContentSeen e B A c n v) :
    ∃ pfs, PricingFields pfs c.pricing ∧ HeadView e.buf v (B + v.pmd.size + 21) c.addr c.time c.ttl c.chain pfs := by
  obtain ⟨pfs, h1, h2⟩ := h.head.price
  refine ⟨pfs, h1, ?_, h.head.initLen, h.head.chainLen, h.head.items, h.head.addr, h.head.time, h.head.ttl, ?_, h2, ?_⟩
  · rw [h.base, h.head.initMd]
  · have := h.head.chain
    rw [pfx, At.append, le_length] at this
    exact this.2
  · rw [h.head.mode]
    cases hp : c.pricing with
    | limited a g s => rw [hp] at h1; obtain ⟨-, -, st, -, rfl⟩ := h1; exact ⟨0, _, rfl, rfl, by simp [Pricing.tag]⟩
    | fixed g x => rw [hp] at h1; obtain ⟨-, -, rfl⟩ := h1; exact ⟨1, _, rfl, rfl, by simp [Pricing.tag]⟩
    | prepaid r => rw [hp] at h1; obtain ⟨-, rfl⟩ := h1; exact ⟨2, _, rfl, rfl, by simp [Pricing.tag]⟩

theorem seen_type {e : Env} {B A n : Nat} {c : Content} {v : V1} (h : ContentSeen e B A c n v) (hc : c.Sized) (hn : 1 < v.numItems) (s : Nat) :
    getItemV1 e v 1 s = .ok (b!"Type", c.entry.title) s := by
  unfold getItemV1
  rw [if_neg (by omega)]
  dsimp only
  rw [if_neg (by decide), if_pos rfl, h.ep, pure_run]
  congr 2
  cases hp : c.entry with
  | custom n => rfl
  | op t =>
    have ht := (hc.op t hp).1
    show entryName t = _
    clear hp
    have : ∀ t : Fin 13, entryName t.val = opTitles.getD t.val b!"Unknown" := by decide
    exact this ⟨t, by omega⟩

theorem seen_hash {e : Env} {B A n : Nat} {c : Content} {v : V1} {hash : Bytes} (h : ContentSeen e B A c n v) (hs : Small e) (hh : hash.length = 32)
    (ha : At e.buf (B - 32) hash) (hn : 0 < v.numItems) (s : Nat) :
    ∃ o, getItemV1 e v 0 s = .ok (b!"Txn hash", checksumHex e.blake hash) o := by
  have hle := ha.le
  unfold Small at hs
  unfold getItemV1
  rw [if_neg (by omega)]
  dsimp only
  rw [if_pos rfl]
  refine ⟨B - 32, seqThen (t := B - 32) (by unfold seek; rw [h.hash.1, u16_id (by omega)]) (getThen ?_)⟩
  have := printBytes_at (s := B - 32) ha (by rw [hh]; decide)
  rw [hh] at this
  exact seqThen this rfl

theorem seen_entry_expert {e : Env} {v : V1} (hp : v.header.pmItems = 2) (hx : e.expert = true) (h0 : v.epType ≠ 0) {k i : Nat} (hk : v.numItems = 9 + k)
    (hi : i < k) (h256 : v.numItems < 256) (s : Nat) : getItemV1 e v (8 + i) s = itemEntry e v i s := by
  unfold getItemV1
  rw [if_neg (by omega)]
  dsimp only
  have ht : u16 (v.numItems + 65536 - 9) = k := by unfold u16; omega
  rw [if_neg (by omega), if_neg (by omega), if_neg (by omega), if_neg (by omega), if_pos hx, if_neg (by omega),
    if_neg (by omega), if_neg (by rw [hp]; omega), if_pos hx, ht, if_pos (by omega),
    show 8 + i - 8 = i by omega]

theorem seen_approvals {e : Env} {v : V1} (hp : v.header.pmItems = 2) (hx : e.expert = true) {k : Nat} (hk : v.numItems = 9 + k) (h256 : v.numItems < 256) (s : Nat) :
    getItemV1 e v (8 + k) s = .ok (b!"Approvals #", decText v.numApprovals) s := by
  unfold getItemV1
  rw [if_neg (by omega)]
  dsimp only
  have ht : u16 (v.numItems + 65536 - 9) = k := by unfold u16; omega
  rw [if_neg (by omega), if_neg (by omega), if_neg (by omega), if_neg (by omega), if_pos hx, if_neg (by omega),
    if_neg (by omega), if_neg (by rw [hp]; omega), if_pos hx, ht, if_neg (by omega),
    if_pos (by omega), decimal_eq]
  rfl

theorem seen_entry_normal {e : Env} {v : V1} (hp : v.header.pmItems = 2) (hx : e.expert = false) {k i : Nat} (hk : v.numItems = 4 + k) (hi : i < k)
    (h256 : v.numItems < 252) (s : Nat) : getItemV1 e v (4 + i) s = itemEntry e v i s := by
  unfold getItemV1
  rw [if_neg (by omega)]
  dsimp only
  have ht : u16 (v.numItems + 65536 - (2 + v.header.pmItems)) = k := by rw [hp]; unfold u16; omega
  have hd : u8 (4 + i + 2 + v.header.pmItems) = 8 + i := by rw [hp]; unfold u8; omega
  rw [if_neg (by omega), if_neg (by omega), if_neg (by omega), if_neg (by omega), if_neg (by simp [hx]),
    if_neg (c := e.expert = true) (by simp [hx]), ht, hd, if_pos (by omega), show 8 + i - 8 = i by omega]

/-- The review of parsed data with given content, if chain name, timestamp and time to live can be shown. -/
theorem seen_screens_of {e : Env} {B A n : Nat} {c : Content} {v : V1} {payload : Bytes} (hs : Small e) (h : ContentSeen e B A c n v) (hc : c.Sized)
    (ha : At e.buf (B - 32) (e.blake payload)) (hch : c.chain.length < 256) (hpr : e.expert = true → c.pricing.Small) (hn : n < 256)
    (hok2 : ∃ kv o, getItemV1 e v 2 0 = .ok kv o) (hok4 : e.expert = true → (∃ kv o, getItemV1 e v 4 0 = .ok kv o) ∧ ∃ kv o, getItemV1 e v 5 0 = .ok kv o)
    {lines : List (Bytes × Bytes)} (hcount : c.target.items e.expert + entryItems e c.entry.tag v.numArgs = lines.length) (hlines : lines.length ≤ 246)
    (hep : e.expert = true → lines ≠ [] → v.epType ≠ 0)
    (hent : ∀ {i kv}, lines[i]? = some kv → ∀ o, ∃ o', itemEntry e v i o = .ok kv o') :
    ∃ time ttl, (e.expert = true → e.fmtTime (c.time / 1000) = some time ∧ duration ttl = c.ttl / 1000) ∧
      v.numItems = (c.screens e.blake payload e.expert n time ttl lines).length ∧
      ∀ i kv, (c.screens e.blake payload e.expert n time ttl lines)[i]? = some kv → ∀ o, ∃ o', getItemV1 e v i o = .ok kv o' := by
  have hni : v.numItems = (if e.expert then 9 else 4) + lines.length := by
    rw [h.items, ← hcount, u8_id (by split <;> omega)]
    split <;> omega
  have hpl : (c.pricing.lines e.blake).length = 2 := by cases c.pricing <;> rfl
  have hnum : ∀ time ttl, v.numItems = (c.screens e.blake payload e.expert n time ttl lines).length := by
    intro time ttl
    rw [hni]
    unfold Content.screens
    cases e.expert <;> simp [hpl] <;> omega
  obtain ⟨pfs, hpf, hv⟩ := h.view
  have h4 : 4 ≤ v.numItems := by rw [hni]; split <;> omega
  have l0 := seen_hash h hs (e.blake.len _) ha (by omega)
  have l1 := seen_type h hc (show 1 < v.numItems by omega)
  have l2 := hv.chainLine hs hch (show 2 < v.numItems by omega) hok2
  have l3 := hv.accountLine hs (by have := hc.addr; omega) (show 3 < v.numItems by omega)
  cases hxx : e.expert with
  | false =>
    rw [hxx] at hni hnum
    refine ⟨[], [], by simp, hnum _ _, fun i kv hi o => ?_⟩
    unfold Content.screens at hi
    match i, hi with
    | 0, hi => simp only [List.cons_append, List.getElem?_cons_zero, Option.some.injEq] at hi; subst hi; exact l0 o
    | 1, hi => simp only [List.cons_append, List.getElem?_cons_zero, List.getElem?_cons_succ, Option.some.injEq] at hi; subst hi; exact ⟨o, l1 o⟩
    | 2, hi => simp only [List.cons_append, List.getElem?_cons_zero, List.getElem?_cons_succ, Option.some.injEq] at hi; subst hi; exact l2 o
    | 3, hi => simp only [List.cons_append, List.getElem?_cons_zero, List.getElem?_cons_succ, Option.some.injEq] at hi; subst hi; exact l3 o
    | i + 4, hi =>
      simp only [List.cons_append, List.nil_append, List.getElem?_cons_succ, List.append_nil, Bool.false_eq_true, if_false] at hi
      have hlt := (List.getElem?_eq_some_iff.1 hi).1
      rw [Nat.add_comm, seen_entry_normal h.head.items hxx (k := lines.length) (by rw [hni]; rfl) hlt (by rw [hni]; simp; omega)]
      exact hent hi o
  | true =>
    rw [hxx] at hni hnum
    have h9 : 9 ≤ v.numItems := by rw [hni]; simp
    obtain ⟨time, t1, t2⟩ := hv.timeLine hs hxx hc.time (by omega) (hok4 hxx).1
    obtain ⟨ttl, t3, t4⟩ := hv.ttlLine hs hxx hc.ttl (by omega) (hok4 hxx).2
    refine ⟨time, ttl, fun _ => ⟨t1, t3⟩, hnum _ _, fun i kv hi o => ?_⟩
    unfold Content.screens at hi
    match i, hi with
    | 0, hi => simp only [List.cons_append, List.getElem?_cons_zero, Option.some.injEq] at hi; subst hi; exact l0 o
    | 1, hi => simp only [List.cons_append, List.getElem?_cons_zero, List.getElem?_cons_succ, Option.some.injEq] at hi; subst hi; exact ⟨o, l1 o⟩
    | 2, hi => simp only [List.cons_append, List.getElem?_cons_zero, List.getElem?_cons_succ, Option.some.injEq] at hi; subst hi; exact l2 o
    | 3, hi => simp only [List.cons_append, List.getElem?_cons_zero, List.getElem?_cons_succ, Option.some.injEq] at hi; subst hi; exact l3 o
    | 4, hi => simp only [List.cons_append, List.nil_append, if_true, List.getElem?_cons_zero, List.getElem?_cons_succ, Option.some.injEq] at hi; subst hi; exact t2 o
    | 5, hi => simp only [List.cons_append, List.nil_append, if_true, List.getElem?_cons_zero, List.getElem?_cons_succ, Option.some.injEq] at hi; subst hi; exact t4 o
    | i + 6, hi =>
      simp only [List.cons_append, List.nil_append, if_true, List.getElem?_cons_succ, List.append_assoc] at hi
      rcases Nat.lt_or_ge i 2 with hi2 | hi2
      · rw [List.getElem?_append_left (by rw [hpl]; exact hi2)] at hi
        rw [Nat.add_comm]
        exact hv.priceLine hs hxx hpf (hpr hxx) hch hi (by omega) o
      · rw [List.getElem?_append_right (by rw [hpl]; exact hi2), hpl] at hi
        rcases Nat.lt_or_ge (i - 2) lines.length with hi3 | hi3
        · rw [List.getElem?_append_left hi3] at hi
          rw [show i + 6 = 8 + (i - 2) by omega, seen_entry_expert h.head.items hxx (hep hxx (by rintro rfl; simp at hi3))
            (k := lines.length) (by rw [hni]; rfl) hi3 (by rw [hni]; simp; omega)]
          exact hent hi o
        · rw [List.getElem?_append_right hi3] at hi
          have hlt := (List.getElem?_eq_some_iff.1 hi).1
          simp only [List.length_cons, List.length_nil] at hlt
          rw [show i - 2 - lines.length = 0 by omega] at hi
          simp only [List.getElem?_cons_zero, Option.some.injEq] at hi
          subst hi
          rw [show i + 6 = 8 + lines.length by omega, seen_approvals h.head.items hxx (k := lines.length) (by rw [hni]; rfl) (by rw [hni]; simp; omega),
            h.approvals, u8_id hn]
          exact ⟨o, rfl⟩

/-- The review of parsed data with given content, if every line of it can be shown. -/
theorem seen_screens {e : Env} {B A n : Nat} {c : Content} {v : V1} {payload : Bytes} (hs : Small e) (h : ContentSeen e B A c n v) (hc : c.Sized)
    (ha : At e.buf (B - 32) (e.blake payload)) (hch : c.chain.length < 256) (hpr : e.expert = true → c.pricing.Small) (hn : n < 256)
    (hok : ∀ i, i < v.numItems → ∃ kv o, getItemV1 e v i 0 = .ok kv o)
    {lines : List (Bytes × Bytes)} (hcount : c.target.items e.expert + entryItems e c.entry.tag v.numArgs = lines.length) (hlines : lines.length ≤ 246)
    (hep : e.expert = true → lines ≠ [] → v.epType ≠ 0)
    (hent : ∀ {i kv}, lines[i]? = some kv → ∀ o, ∃ o', itemEntry e v i o = .ok kv o') :
    ∃ time ttl, (e.expert = true → e.fmtTime (c.time / 1000) = some time ∧ duration ttl = c.ttl / 1000) ∧
      v.numItems = (c.screens e.blake payload e.expert n time ttl lines).length ∧
      ∀ i kv, (c.screens e.blake payload e.expert n time ttl lines)[i]? = some kv → ∀ o, ∃ o', getItemV1 e v i o = .ok kv o' := by
  have hni : v.numItems = (if e.expert then 9 else 4) + lines.length := by
    rw [h.items, ← hcount, u8_id (by split <;> omega)]
    split <;> omega
  exact seen_screens_of hs h hc ha hch hpr hn (hok 2 (by rw [hni]; split <;> omega))
    (fun hx => ⟨hok 4 (by rw [hni, if_pos hx]; omega), hok 5 (by rw [hni, if_pos hx]; omega)⟩) hcount hlines hep hent

/-- What the parser makes of accepted data with given content. -/
theorem says_seen {e : Env} {s : VS} {c : Content} {pos n : Nat} {payload : Bytes} (hs : Small e) (ha : V1Accepted e s) (h : Says e.blake c pos n payload e.buf)
    (hg : ∀ as, c.args = .named as → GoodTypes as) :
    ∃ B, ContentSeen e B pos c n s.v ∧ At e.buf (B - 32) (e.blake payload) ∧ c.Sized ∧ n < 256 ∧ (∃ o o', checkSanity e s.v o = .ok () o') := by
  obtain ⟨tb, aps, miss, rest, p, h1, h2, rfl, h5, rfl, h7, h8, h9⟩ := h
  have hH : (e.blake payload).length = 32 := e.blake.len _
  obtain ⟨v, s0, o, g1, -, g3⟩ := readV1_of hs h1 hH h2 hg h5 h7 h8 h9
  have hp := ha.parse
  rw [g3] at hp
  have hlen := congrArg List.length h7
  simp only [List.length_append, le_length, hH] at hlen
  have hge : ∀ l : List Bytes, (∀ a ∈ l, LooseApproval a) → 66 * l.length ≤ l.flatten.length := by
    intro l
    induction l with
    | nil => simp
    | cons x l ih =>
      intro hl
      have := looseApproval_long (hl x (by simp))
      have := ih fun y hy => hl y (by simp [hy])
      simp only [List.flatten_cons, List.length_append, List.length_cons]; omega
  have h66 := hge aps h5
  have hs' := hs
  unfold Small at hs'
  refine ⟨tb.length + 32, ?_, ?_, h2.sized, by omega, ?_⟩
  · unfold onCopy at hp
    cases hk : checkSanity e v s0.off with
    | ok a o' =>
      rw [hk] at hp
      cases hp
      exact g1
    | err _ _ => rw [hk] at hp; cases hp
    | fault _ => rw [hk] at hp; cases hp
  · have : At (e.buf ++ miss) tb.length (e.blake payload) := ⟨tb, payload ++ ((le 4 aps.length ++ aps.flatten) ++ rest), by rw [h7]; simp, rfl⟩
    refine (at_left this ?_).cast (by omega)
    rw [hH]
    rcases h9 with rfl | h9
    · simp only [List.length_nil] at hlen; omega
    · have : 1 ≤ aps.length := by cases aps <;> simp_all
      omega
  · unfold onCopy at hp
    cases hk : checkSanity e v s0.off with
    | ok a o' =>
      rw [hk] at hp
      cases hp
      exact ⟨_, _, hk⟩
    | err _ _ => rw [hk] at hp; cases hp
    | fault _ => rw [hk] at hp; cases hp

/-- A review of data with given content. -/
theorem pending_says {pl : Platform} (hcap : pl.cap ≤ 16384) {d d' : Dev} (hd : d.Ok pl) {rx : Bytes} {pin : Bool} (hins : rx.getD 1 0 = 2) {xs : Bytes}
    (hx : d.data ++ rx.drop 5 = 1 :: xs) (h : step pl d (.apdu rx pin) = (d', .pending)) {c : Content} {pos n : Nat} {payload : Bytes}
    (hc : Says pl.blake c pos n payload xs) (hg : ∀ as, c.args = .named as → GoodTypes as) :
    ∃ s B, V1Accepted (mkEnv pl d.expert xs) s ∧ Small (mkEnv pl d.expert xs) ∧ (d.loaded rx).Ok pl ∧ (d.loaded rx).data = 1 :: xs ∧
      d' = { (d.loaded rx).tookV1 s with review := some .tx } ∧ ContentSeen (mkEnv pl d.expert xs) B pos c n s.v ∧ At xs (B - 32) (pl.blake payload) ∧
      c.Sized ∧ n < 256 ∧ ∃ o o', checkSanity (mkEnv pl d.expert xs) s.v o = .ok () o' := by
  obtain ⟨hok, hdata, hcase⟩ := sign_pending (by omega) hd hins h
  rw [hx] at hcase hdata
  rcases hcase with ⟨ys, s, h1, -, -⟩ | ⟨ys, s, h1, h2, rfl⟩
  · simp at h1
  simp only [List.cons.injEq, true_and] at h1
  subst h1
  have hs : Small (mkEnv pl d.expert xs) := small_data hcap hok hdata d.expert
  obtain ⟨B, g1, g2, g3, g4, g5⟩ := says_seen hs h2 (show Says (mkEnv pl d.expert xs).blake c pos n payload (mkEnv pl d.expert xs).buf from hc) hg
  exact ⟨s, B, h2, hs, hok, hdata, rfl, g1, g2, g3, g4, g5⟩

/-! ### Where the content comes from -/

theorem StoredFields.of {fs : List Bytes} (h : StoredFields fs) (rt : VmRuntime) : ∃ t, StoredOf t rt fs := by
  cases h with
  | byHash x hh => exact ⟨_, .byHash x rt hh⟩
  | byName n => exact ⟨_, .byName n rt⟩
  | byPackageHash x hh v hv => exact ⟨_, .byPackageHash x v rt hh hv⟩
  | byPackageName n v hv => exact ⟨_, .byPackageName n v rt hv⟩

theorem LooseRuntime.of {xs : Bytes} (h : LooseRuntime xs) : ∃ rt, RuntimeOf rt xs := by
  obtain ⟨rt, h1, h2⟩ := h
  cases rt with
  | v1 => exact ⟨_, h1, fun _ _ h => (by cases h), h2⟩
  | v2 v s =>
    refine ⟨.v2 (v % 256 ^ 8) s, fun v' s' h => ?_, fun v' s' h => ?_, ?_⟩
    · cases h; exact h1 v s' rfl
    · cases h; exact Nat.mod_lt _ (by decide)
    · simpa only [VmRuntime.fields, ← le_mod_pow] using h2

theorem LooseTarget.of {xs : Bytes} (h : LooseTarget xs) : ∃ t, TargetOf t xs := by
  cases h with
  | native _ h => exact ⟨_, .native _ h⟩
  | stored fs who rt _ h1 h2 h3 h =>
    obtain ⟨r, h3⟩ := h3.of
    obtain ⟨t, h1⟩ := h1.of r
    exact ⟨t, .stored t r fs who rt xs h1 h2 h3 h⟩
  | session i rt code _ h3 h =>
    obtain ⟨r, h3⟩ := h3.of
    exact ⟨_, .session i r rt code xs h3 h⟩

theorem LooseEntry.of {xs : Bytes} (h : LooseEntry xs) : ∃ t, EntryOf t xs := by
  cases h with
  | custom n _ h => exact ⟨_, .custom n _ h⟩
  | op t _ h1 h2 h => exact ⟨_, .op t _ h1 h2 h⟩

/-- A payload has a content. -/
theorem LoosePayload.content {a : V1Args} {xs : Bytes} (h : LoosePayload a.encode xs) : ∃ c pos, c.args = a ∧ PayloadOf c pos xs := by
  obtain ⟨fs, body, ⟨init, time, ttl, chain, pricing, h1, h2, h3, h4, rfl⟩, ⟨l0, l1, l2, l3, target, entry, sched, b1, b2, b3, rfl⟩, tb, hh, rfl⟩ := h
  obtain ⟨addr, h1⟩ := (looseInit_iff _).1 h1
  obtain ⟨pm, h4⟩ := (loosePricing_iff _).1 h4
  obtain ⟨t, b1⟩ := b1.of
  obtain ⟨en, b2⟩ := b2.of
  refine ⟨⟨addr, time, ttl, chain, pm, a, l0 % 256 ^ 4, t, en⟩, _, rfl, tb, init, pricing, _, hh, rfl, h1, h4, h2, h3, ⟨l1, l2, l3, target, entry, sched, Nat.mod_lt _ (by decide), b1, b2, b3, ?_⟩, rfl⟩
  simp only [← le_mod_pow]

/-- **C83, content.** Accepted version 1 data have a content: they are a transaction that says what initiator, timestamp, time to live, chain, pricing mode,
arguments, target and entry point are.  Provided that no 32-bit number in the data is 2^32 - 65536 or more (see C49); and if an argument has a type that the
app reads differently from Casper (`BadType`), then the data have a header and arguments up to this one. -/
theorem C83_content_partial (pl : Platform) (hcap : pl.cap ≤ 16384) (d d' : Dev) (hd : d.Ok pl) (rx : Bytes)
    (pin : Bool) (hins : rx.getD 1 0 = 2) (xs : Bytes) (hx : d.data ++ rx.drop 5 = 1 :: xs) (h : step pl d (.apdu rx pin) = (d', .pending))
    (hh : ∀ i m, At xs i (le 4 m) → m < 4294967296 → m < 4294967296 - 65536) :
    (∃ c pos n payload, Says pl.blake c pos n payload xs ∧ c.args.Fit ∧ ∀ as, c.args = .named as → GoodTypes as) ∨
    ∃ tb payload miss fs ptb l count as name value bad more, LooseHeader fs ∧ Heads fs 6 false ptb ∧ as.length < count ∧ GoodTypes as ∧ BadType bad ∧ miss.length ≤ 64 ∧
      xs ++ miss = tb ++ (pl.blake payload ++ (ptb ++ (fs.flatten ++ (le 4 4 ++ (le 2 0 ++ (le 4 l ++ (0 :: (le 4 count ++
          (encodeArgs as ++ (pfx name ++ (pfx value ++ bad))))))))) ++ more)) := by
  obtain ⟨hok, hdata, hcase⟩ := sign_pending (by omega) hd hins h
  rw [hx] at hcase hdata
  rcases hcase with ⟨ys, s, h1, -, -⟩ | ⟨ys, s, h1, h2, rfl⟩
  · simp at h1
  simp only [List.cons.injEq, true_and] at h1
  subst h1
  obtain ⟨tb, payload, aps, miss, rest, g1, g2, g3, g4, g5, g6⟩ := C82_serialized_partial pl hcap (d.loaded rx) _ hok xs hdata
    ((txParse_ok (by omega) hok).2 (.inr ⟨xs, s, hdata, h2, rfl⟩)) hh
  rcases g6 with ⟨a, ha, hp⟩ | ⟨fs, ptb, l, count, as, name, value, bad, more, e1, e2, e3, e4, e5, e6⟩
  · left
    rw [← V1Args.fitted_encode] at hp
    obtain ⟨c, pos, hca, hc⟩ := hp.content
    refine ⟨c, _, _, payload, ⟨tb, aps, miss, rest, pos, g1, hc, rfl, g2, rfl, g3, g4, g5.imp id And.left⟩, ?_⟩
    rw [hca]
    exact ⟨a.fitted_fit, V1Args.fitted_good ha⟩
  · right
    exact ⟨tb, payload, miss, fs, ptb, l, count, as, name, value, bad, more, e1, e2, e3, e4, e5, g4, by rw [g3, e6]⟩

/-! ### Single lines -/

/-- **C68, all accepted version 1 data.** The line "Type" of the review, if there is one, is the title of the entry point that the data call. -/
theorem C68_v1_accepted_partial (pl : Platform) (hcap : pl.cap ≤ 16384) (d d' : Dev) (hd : d.Ok pl) (rx : Bytes)
    (pin : Bool) (hins : rx.getD 1 0 = 2) (xs : Bytes) (hx : d.data ++ rx.drop 5 = 1 :: xs) (h : step pl d (.apdu rx pin) = (d', .pending))
    (c : Content) (pos n : Nat) (payload : Bytes) (hc : Says pl.blake c pos n payload xs) (hg : ∀ as, c.args = .named as → GoodTypes as)
    (k o : Nat) (hn : reviewCount pl d' .tx 0 = .ok k o) (h1 : 1 < k) (t : Nat) :
    ∃ o', reviewItem pl d' .tx 1 t = .ok (b!"Type", c.entry.title) o' := by
  obtain ⟨s, B, -, hs, hok, hdata, rfl, g1, -, g3, -⟩ := pending_says hcap hd hins hx h hc hg
  rw [reviewCount_v1] at hn
  simp only [Res.ok.injEq] at hn
  rw [reviewItem_v1 hok hdata, show u8 1 = 1 from rfl, if_neg (by omega)]
  exact ⟨t, seen_type g1 g3 (by omega) t⟩

/-- **C46, all accepted version 1 data: target.** If the entry point is not a custom one, the target is native or a session. -/
theorem C46_accepted_target (pl : Platform) (hcap : pl.cap ≤ 16384) (d d' : Dev) (hd : d.Ok pl) (rx : Bytes)
    (pin : Bool) (hins : rx.getD 1 0 = 2) (xs : Bytes) (hx : d.data ++ rx.drop 5 = 1 :: xs) (h : step pl d (.apdu rx pin) = (d', .pending))
    (c : Content) (pos n : Nat) (payload : Bytes) (hc : Says pl.blake c pos n payload xs) (hg : ∀ as, c.args = .named as → GoodTypes as)
    (t : Nat) (he : c.entry = .op t) : c.target = .native ∨ ∃ i rt m, c.target = .session i rt m := by
  obtain ⟨s, B, -, hs, hok, hdata, rfl, g1, -, g3, -, o, o', g5⟩ := pending_says hcap hd hins hx h hc hg
  have hep : s.v.epType = t := by rw [g1.ep, he]; rfl
  have ht := (g3.op t he).2
  unfold checkSanity at g5
  split at g5
  · simp at g5
  rename_i hc'
  rw [hep] at hc'
  have htg := g1.target
  cases htt : c.target <;> rw [htt] at htg <;> simp [TargetSeen] at htg <;> simp [htg, ht] at hc' ⊢

/-- **C46, all accepted version 1 data: required arguments.** ... and the arguments the operation requires are among the signed ones, `amount` being a
U512.  Missing: arguments at position 256 or later, names with a zero byte or of more than 300 bytes. -/
theorem C46_accepted_required_partial (pl : Platform) (hcap : pl.cap ≤ 16384) (d d' : Dev) (hd : d.Ok pl) (rx : Bytes)
    (pin : Bool) (hins : rx.getD 1 0 = 2) (xs : Bytes) (hx : d.data ++ rx.drop 5 = 1 :: xs) (h : step pl d (.apdu rx pin) = (d', .pending))
    (c : Content) (pos n : Nat) (payload : Bytes) (hc : Says pl.blake c pos n payload xs) (t : Nat) (he : c.entry = .op t)
    (as : List Arg) (ha : c.args = .named as) (hok : ∀ a ∈ as, a.Ok) (hn : noNul as) (hpos : pos < 256) :
    ∀ r ∈ opRequired t, ∃ a ∈ as, a.name = r.1 ∧ (r.2 = true → a.ty = .u512) := by
  obtain ⟨s, B, -, hs, -, hdata, rfl, g1, -, g3, -, o, o', g5⟩ := pending_says hcap hd hins hx h hc (by
    intro as' h' a hm; rw [ha] at h'; cases h'; exact ⟨(hok a hm).aligned, (hok a hm).supported⟩)
  have hep : s.v.epType = t := by rw [g1.ep, he]; rfl
  obtain ⟨-, n2, -, -, n5⟩ := g1.named as ha
  unfold checkSanity at g5
  split at g5
  · simp at g5
  rw [hep, g1.argsOff, u8_id hpos, n2, requiredArgs_eq t (g3.op t he).1] at g5
  intro r hr
  obtain ⟨a, h1, h2⟩ := checkRequired_only hs.fits hok hn n5 g5 r hr
  exact ⟨a, List.mem_of_find?_eq_some h1, by simpa using List.find?_some h1, h2⟩

/-- **C48, all accepted version 1 data.** In expert mode, the last line of a review (of at least 9 and at most 128 lines, see C43) shows the number of
approvals. -/
theorem C48_approvals_accepted (pl : Platform) (hcap : pl.cap ≤ 16384) (d d' : Dev) (hd : d.Ok pl) (rx : Bytes)
    (pin : Bool) (hins : rx.getD 1 0 = 2) (xs : Bytes) (hx : d.data ++ rx.drop 5 = 1 :: xs) (h : step pl d (.apdu rx pin) = (d', .pending))
    (c : Content) (pos n : Nat) (payload : Bytes) (hc : Says pl.blake c pos n payload xs) (hg : ∀ as, c.args = .named as → GoodTypes as)
    (hexp : d.expert = true) (k o : Nat) (hn : reviewCount pl d' .tx o = .ok k o) (h9 : 9 ≤ k) (h128 : k ≤ 128) :
    reviewItem pl d' .tx (k - 1) o = .ok (b!"Approvals #", decText n) o := by
  obtain ⟨s, B, -, hs, hok, hdata, rfl, g1, -, g3, g4, -⟩ := pending_says hcap hd hins hx h hc hg
  rw [reviewCount_v1] at hn
  simp only [Res.ok.injEq, and_true] at hn
  subst hn
  have hu : u8 (s.v.numItems - 1) = s.v.numItems - 1 := u8_id (by omega)
  rw [reviewItem_v1 hok hdata, hu, if_neg (by omega)]
  have := seen_approvals (e := mkEnv pl (d.loaded rx).expert xs) g1.head.items hexp (k := s.v.numItems - 9) (by omega) (by omega) o
  rw [g1.approvals, u8_id g4] at this
  rw [← this]
  congr 1
  omega

/-- **C43, all accepted version 1 data.** The number of lines: 4 (9 in expert mode) and those of the target and of the entry point.  For native
operations: `opLineCount`.  When this fits in 8 bits. -/
theorem C43_accepted_count_partial (pl : Platform) (hcap : pl.cap ≤ 16384) (d d' : Dev) (hd : d.Ok pl) (rx : Bytes)
    (pin : Bool) (hins : rx.getD 1 0 = 2) (xs : Bytes) (hx : d.data ++ rx.drop 5 = 1 :: xs) (h : step pl d (.apdu rx pin) = (d', .pending))
    (c : Content) (pos n : Nat) (payload : Bytes) (hc : Says pl.blake c pos n payload xs) (as : List Arg) (ha : c.args = .named as) (hg : GoodTypes as)
    (t : Nat) (ht : 2 ≤ t) (he : c.entry = .op t) (htg : c.target = .native)
    (hfew : (if d.expert then 9 else 4) + opLineCount d.expert t as.length < 256) (o : Nat) :
    reviewCount pl d' .tx o = .ok ((if d.expert then 9 else 4) + opLineCount d.expert t as.length) o := by
  obtain ⟨s, B, -, hs, hok, hdata, rfl, g1, -, g3, -⟩ := pending_says hcap hd hins hx h hc (by intro as' h'; rw [ha] at h'; cases h'; exact hg)
  rw [reviewCount_v1, g1.items, htg, he, (g1.named as ha).2.1]
  congr 1
  have key : entryItems (mkEnv pl d.expert xs) t as.length = opLineCount d.expert t as.length := by
    unfold entryItems opLineCount
    have : (mkEnv pl d.expert xs).expert = d.expert := rfl
    rw [this]
    cases d.expert
    · by_cases h2 : t = 2
      · rw [if_pos h2, if_neg (by decide), if_pos ⟨h2, rfl⟩]
      · rw [if_neg h2, if_neg (by omega), if_neg (show ¬ (t = 2 ∧ false = false) by simp [h2]), if_neg (show ¬ t = 0 by omega)]
    · by_cases h2 : t = 2
      · rw [if_pos h2, if_pos rfl, if_neg (by simp), if_neg (by omega), if_neg (by omega)]
      · rw [if_neg h2, if_neg (by omega), if_neg (show ¬ (t = 2 ∧ true = false) by simp), if_neg (show ¬ t = 0 by omega)]
  show u8 ((if d.expert = true then 8 else 3) + 0 + 1 + entryItems (mkEnv pl d.expert xs) t as.length) = _
  rw [key, ← u8_id hfew]
  congr 1
  split <;> omega

/-! ### The review -/

/-- The lines of a native operation. -/
theorem seen_native {e : Env} {B pos n : Nat} {c : Content} {v : V1} (hs : Small e) (h : ContentSeen e B pos c n v) {t : Nat} {as : List Arg}
    (he : c.entry = .op t) (hkn : t ∈ [2, 3, 4, 5, 6, 7, 8, 9, 12]) (htg : c.target = .native) (ha : c.args = .named as) (hok : ∀ a ∈ as, a.Ok)
    (hn : noNul as) (hpos : pos < 256) (hslots : t = 3 → as.length ≤ 5 ∨ (argNamed as b!"reserved_slots").isSome)
    {lines : List (Bytes × Bytes)} (hl : List.Forall₂ (ArgLine.Shows e.blake as) (opLines e.expert as t) lines) :
    c.target.items e.expert + entryItems e c.entry.tag v.numArgs = (lines ++ opExtra e.expert as.length t lines).length ∧
    (lines ++ opExtra e.expert as.length t lines).length ≤ max as.length 2 ∧ v.epType ≠ 0 ∧
    ∀ {i kv}, (lines ++ opExtra e.expert as.length t lines)[i]? = some kv → ∀ o, ∃ o', itemEntry e v i o = .ok kv o' := by
  obtain ⟨-, n2, -, -, n5⟩ := h.named as ha
  have hep : v.epType = t := by rw [h.ep, he]; rfl
  have hoff : v.argsOff = pos := by rw [h.argsOff, u8_id hpos]
  have hll := hl.length_eq
  have hle := opLines_le hl
  have hkn' := hkn
  simp only [List.mem_cons, List.not_mem_nil, or_false] at hkn'
  have hcount : c.target.items e.expert + entryItems e c.entry.tag v.numArgs = (lines ++ opExtra e.expert as.length t lines).length := by
    rw [htg, he, n2, List.length_append]
    show 0 + entryItems e t as.length = _
    unfold opExtra entryItems
    by_cases h2 : t = 2 ∧ e.expert = false
    · rw [if_pos h2, if_pos h2.1, if_neg (by simp [h2.2]), ← hll, h2.1, h2.2]; simp [opLines]
    · rw [if_neg h2, List.length_replicate]
      have : lines.length + (as.length - lines.length) = as.length := by omega
      rw [this]
      by_cases h3 : t = 2
      · rw [if_pos h3, if_pos (by cases hx : e.expert <;> simp_all)]; omega
      · rw [if_neg h3, if_neg (by omega), if_neg (by omega), if_neg (by omega), if_neg (by omega)]; omega
  refine ⟨hcount, ?_, by omega, fun {i kv} hi o => ?_⟩
  · rw [List.length_append]
    unfold opExtra
    split
    · simp; omega
    · rw [List.length_replicate]; omega
  · rcases Nat.lt_or_ge i lines.length with hi2 | hi2
    · rw [List.getElem?_append_left hi2] at hi
      exact itemEntry_op hs.fits hok hn n5 hep hkn hoff (by omega) n2 hl hi o
    · rw [List.getElem?_append_right hi2] at hi
      rw [show i = lines.length + (i - lines.length) by omega]
      exact itemEntry_extra hs.fits hok hn n5 hep hkn hoff (by omega) n2 hl hslots hi o

theorem displays_of_items {pl : Platform} {d : Dev} {x : UInt8} {xs : Bytes} (hok : d.Ok pl) (hdata : d.data = x :: xs) {s : VS} {items : List (Bytes × Bytes)}
    (hnum : s.v.numItems = items.length) (hn : items.length ≤ 128)
    (hi : ∀ i kv, items[i]? = some kv → ∀ o, ∃ o', getItemV1 (mkEnv pl d.expert xs) s.v i o = .ok kv o') :
    Displays pl { d.tookV1 s with review := some .tx } items := by
  intro t
  refine ⟨by rw [reviewCount_v1, hnum], fun i kv h => ?_⟩
  have hlt := (List.getElem?_eq_some_iff.1 h).1
  rw [reviewItem_v1 hok hdata, u8_id (by omega), if_neg (by omega)]
  exact hi i kv h t

/-- **C83, native operations.** The review of accepted version 1 data whose content is a native operation consists of exactly the lines of this content:
hash of the payload, title of the operation, chain name (up to a zero byte), initiator; in expert mode timestamp, time to live, pricing mode; one line per
argument of the operation, taken from the signed argument list; in expert mode the number of approvals.  The numbers describing the layout do not matter.
Missing: arguments at position 256 or later, names with zero bytes or of more than 300 bytes, more than 119 arguments, reservations (C48), payments of
more than 19 digits in expert mode, and operations with an argument that cannot be shown as its line demands. -/
theorem C83_operation_partial (pl : Platform) (hcap : pl.cap ≤ 16384) (d d' : Dev) (hd : d.Ok pl) (rx : Bytes)
    (pin : Bool) (hins : rx.getD 1 0 = 2) (xs : Bytes) (hx : d.data ++ rx.drop 5 = 1 :: xs) (h : step pl d (.apdu rx pin) = (d', .pending))
    (c : Content) (pos n : Nat) (payload : Bytes) (hc : Says pl.blake c pos n payload xs) (t : Nat) (as : List Arg)
    (he : c.entry = .op t) (hkn : t ∈ [2, 3, 4, 5, 6, 7, 8, 9, 12]) (htg : c.target = .native) (ha : c.args = .named as) (hok : ∀ a ∈ as, a.Ok)
    (hn : noNul as) (hpos : pos < 256) (hfew : as.length ≤ 119) (hslots : t = 3 → as.length ≤ 5 ∨ (argNamed as b!"reserved_slots").isSome)
    (hpr : d.expert = true → c.pricing.Small)
    (lines : List (Bytes × Bytes)) (hl : List.Forall₂ (ArgLine.Shows pl.blake as) (opLines d.expert as t) lines) :
    ∃ time ttl, (d.expert = true → pl.fmtTime (c.time / 1000) = some time ∧ duration ttl = c.ttl / 1000) ∧
      Displays pl d' (c.screens pl.blake payload d.expert n time ttl (lines ++ opExtra d.expert as.length t lines)) := by
  obtain ⟨s, B, acc, hs, hok', hdata, rfl, g1, g2, g3, g4, -⟩ := pending_says hcap hd hins hx h hc (by
    intro as' h' a hm; rw [ha] at h'; cases h'; exact ⟨(hok a hm).aligned, (hok a hm).supported⟩)
  obtain ⟨k1, k2, k3, k4⟩ := seen_native hs g1 he hkn htg ha hok hn hpos hslots (lines := lines) hl
  have hch : c.chain.length < 256 := by
    obtain ⟨tb, aps, miss, rest, p, -, h2, rfl, -⟩ := hc
    obtain ⟨_, _, _, _, -, -, -, -, -, -, -, h⟩ := h2
    rw [pfx_length] at h
    omega
  obtain ⟨time, ttl, t1, t2, t3⟩ := seen_screens hs g1 g3 (payload := payload) g2 hch hpr g4 acc.items k1 (by omega) (fun _ _ => k3) k4
  refine ⟨time, ttl, t1, displays_of_items hok' hdata t2 ?_ t3⟩
  have hpl : (c.pricing.lines pl.blake).length = 2 := by cases c.pricing <;> rfl
  have k2 : (lines ++ opExtra d.expert as.length t lines).length ≤ max as.length 2 := k2
  show (c.screens pl.blake payload d.expert n time ttl (lines ++ opExtra d.expert as.length t lines)).length ≤ 128
  unfold Content.screens
  rw [List.length_append, List.length_append, List.length_append]
  generalize lines ++ opExtra d.expert as.length t lines = L at k2 ⊢
  cases d.expert <;> simp [hpl] <;> omega

/-- **C44, all accepted version 1 data.** The line of an operation shows the first argument of its name in the signed argument list.  Missing: see
`C83_operation_partial`. -/
theorem C44_accepted_partial (pl : Platform) (hcap : pl.cap ≤ 16384) (d d' : Dev) (hd : d.Ok pl) (rx : Bytes)
    (pin : Bool) (hins : rx.getD 1 0 = 2) (xs : Bytes) (hx : d.data ++ rx.drop 5 = 1 :: xs) (h : step pl d (.apdu rx pin) = (d', .pending))
    (c : Content) (pos n : Nat) (payload : Bytes) (hc : Says pl.blake c pos n payload xs) (t : Nat) (as : List Arg)
    (he : c.entry = .op t) (hkn : t ∈ [2, 3, 4, 5, 6, 7, 8, 9, 12]) (htg : c.target = .native) (ha : c.args = .named as) (hok : ∀ a ∈ as, a.Ok)
    (hn : noNul as) (hpos : pos < 256) (hfew : as.length ≤ 119) (hslots : t = 3 → as.length ≤ 5 ∨ (argNamed as b!"reserved_slots").isSome)
    (hpr : d.expert = true → c.pricing.Small)
    (lines : List (Bytes × Bytes)) (hl : List.Forall₂ (ArgLine.Shows pl.blake as) (opLines d.expert as t) lines)
    (i : Nat) (kv : Bytes × Bytes) (hi : lines[i]? = some kv) (o : Nat) :
    ∃ o', reviewItem pl d' .tx ((if d.expert then 8 else 4) + i) o = .ok kv o' := by
  obtain ⟨time, ttl, -, hdis⟩ := C83_operation_partial pl hcap d d' hd rx pin hins xs hx h c pos n payload hc t as he hkn htg ha hok hn hpos hfew hslots hpr lines hl
  refine (hdis o).2 _ kv ?_
  have hlt := (List.getElem?_eq_some_iff.1 hi).1
  have hpl : (c.pricing.lines pl.blake).length = 2 := by cases c.pricing <;> rfl
  unfold Content.screens
  cases d.expert with
  | false =>
    rw [if_neg (by decide), List.append_nil, if_neg (by decide), List.append_nil, if_neg (by decide), Nat.add_comm]
    simp only [List.cons_append, List.nil_append, List.getElem?_cons_succ]
    rw [List.getElem?_append_left hlt, hi]
  | true =>
    rw [if_pos rfl, if_pos rfl, if_pos rfl, Nat.add_comm]
    simp only [List.cons_append, List.nil_append, List.getElem?_cons_succ, List.append_assoc]
    rw [List.getElem?_append_right (by omega), hpl, Nat.add_sub_cancel, List.getElem?_append_left hlt, hi]

/-! ### Calls -/

/-- The hash of the arguments, if the length given for them is right. -/
theorem seen_argsHash {e : Env} {B pos n : Nat} {c : Content} {v : V1} (hs : Small e) (h : ContentSeen e B pos c n v) (hpos : pos < 256) (h4 : 4 ≤ pos)
    (hl : ∀ as, c.args = .named as → c.argsSize = c.args.encode.length) (s : Nat) :
    ∃ o, customHash e v s = .ok (b!"Args hash", checksumHex e.blake (e.blake c.args.blob)) o := by
  unfold customHash
  rw [h.argsOff, u8_id hpos]
  cases ha : c.args with
  | named as =>
    obtain ⟨n1, n2, n3, n4, n5⟩ := h.named as ha
    have hle := n4.le
    unfold Small at hs
    rw [n1, n3, hl as ha, ha, if_pos rfl, if_neg (by omega)]
    refine exThen (slice_at n4 ?_) ⟨s, ?_⟩
    · simp only [V1Args.encode, List.length_cons]; unfold u32; omega
    · rw [C20_checksum_hex]; rfl
  | bytes xs =>
    obtain ⟨n1, n2, n3, n4⟩ := h.bytes xs ha
    rw [n1, n2, if_neg (by decide)]
    refine exThen (slice_at n4 rfl) ⟨s, ?_⟩
    rw [C20_checksum_hex]; rfl

theorem seen_entryName {e : Env} {B pos n : Nat} {c : Content} {v : V1} (h : ContentSeen e B pos c n v) {name : Bytes} (hn : c.entry = .custom name)
    (hnl : name.length ≤ 99) (hn0 : 0 ∉ name) (s : Nat) : ∃ o, customEntry e v s = .ok (b!"Entry-point", name) o := by
  obtain ⟨h1, h2⟩ := h.custom name hn
  unfold customEntry
  rw [h2]
  exact exThen (printfStr_at h1 rfl hnl hn0) ⟨_, rfl⟩

theorem called_count {expert : Bool} {t : V1Target} (ht : t.Showable expert) (name : Bytes) :
    t.items expert = (t.calledLines expert name).length := by
  cases t with
  | native | byHash | byName | session => rfl
  | byPackageHash h v rt =>
    cases expert with
    | false => simp [V1Target.items, V1Target.calledLines, versionLine]
    | true =>
      obtain ⟨x, rfl, h2⟩ := ht rfl
      simp [V1Target.items, V1Target.calledLines, versionLine, noVersion]
      omega
  | byPackageName n v rt =>
    cases expert with
    | false => simp [V1Target.items, V1Target.calledLines, versionLine]
    | true =>
      obtain ⟨x, rfl, h2⟩ := ht.2 rfl
      simp [V1Target.items, V1Target.calledLines, versionLine, noVersion]
      omega

theorem called_le (expert : Bool) (t : V1Target) (name : Bytes) : (t.calledLines expert name).length ≤ 4 := by
  cases t <;> simp [V1Target.calledLines, versionLine] <;> (try split) <;> simp

/-- The contract and the entry point of a call, and the hash of its arguments if it can be shown. -/
theorem seen_called {e : Env} {B pos n : Nat} {c : Content} {v : V1} (h : ContentSeen e B pos c n v) (hc : c.Sized) {name : Bytes} (hn : c.entry = .custom name)
    (hnl : name.length ≤ 99) (hn0 : 0 ∉ name) (ht : c.target.Showable e.expert) {last : Option (Bytes × Bytes)}
    (hlast : ∀ kv, last = some kv → ∀ s, ∃ o, customHash e v s = .ok kv o) {i : Nat} {kv : Bytes × Bytes}
    (hi : (c.target.calledLines e.expert name ++ last.toList)[i]? = some kv) (s : Nat) :
    ∃ o, itemEntry e v i s = .ok kv o := by
  have hcnt := called_count ht name
  have hle := called_le e.expert c.target name
  have hni : v.numItems = (if e.expert then 9 else 4) + ((c.target.calledLines e.expert name).length + 1) := by
    rw [h.items, hn, hcnt]
    show u8 (_ + 1 + 1) = _
    rw [u8_id (by split <;> omega)]
    split <;> omega
  have hlt := (List.getElem?_eq_some_iff.1 hi).1
  have hbound : ¬ i ≥ u32 (v.numItems + 4294967296 - (if e.expert then 9 else 4)) := by
    have h1 : last.toList.length ≤ 1 := by cases last <;> simp
    rw [List.length_append] at hlt
    rw [hni]; unfold u32; split <;> omega
  have hentry := seen_entryName h hn hnl hn0
  have hep : v.epType = 1 := by rw [h.ep, hn]; rfl
  have hH : ∀ {j : Nat}, last.toList[j]? = some kv → ∀ s, ∃ o, customHash e v s = .ok kv o := by
    intro j hj
    refine hlast kv ?_
    cases last with
    | none => simp at hj
    | some x =>
      match j, hj with
      | 0, hj => simpa using hj
  have htg := h.target
  unfold itemEntry
  refine exThen (t := u16 v.argsOff) (by unfold seek; rfl) ?_
  rw [if_pos hep]
  generalize u16 v.argsOff = s
  unfold itemCustom
  rw [if_neg hbound]
  cases hp : c.target with
  | native =>
    rw [hp] at hi htg
    rw [show v.target.typ = 0 from htg]
    exact hH (j := i) (by simpa [V1Target.calledLines] using hi) s
  | session _ _ _ =>
    rw [hp] at hi htg
    rw [show v.target.typ = 5 from htg]
    exact hH (j := i) (by simpa [V1Target.calledLines] using hi) s
  | byHash x rt =>
    rw [hp] at hi htg
    obtain ⟨t1, t2⟩ := htg
    rw [t1]
    match i, hi with
    | 0, hi => simp [V1Target.calledLines] at hi; rw [← hi]; exact ⟨s, rfl⟩
    | 1, hi =>
      simp [V1Target.calledLines] at hi; rw [← hi]
      exact exThen (printByHash_at t2 (hc.byHash x rt hp)) ⟨_, rfl⟩
    | 2, hi => simp [V1Target.calledLines] at hi; rw [← hi]; exact hentry s
    | j + 3, hi => exact hH (j := j) (by simpa [V1Target.calledLines] using hi) s
  | byName x rt =>
    rw [hp] at hi htg ht
    obtain ⟨t1, t2, t3⟩ := htg
    rw [t1]
    match i, hi with
    | 0, hi => simp [V1Target.calledLines] at hi; rw [← hi]; exact ⟨s, rfl⟩
    | 1, hi =>
      simp [V1Target.calledLines] at hi; rw [← hi]
      exact exThen (printfStr_at t2 t3 ht.1 ht.2) ⟨_, rfl⟩
    | 2, hi => simp [V1Target.calledLines] at hi; rw [← hi]; exact hentry s
    | j + 3, hi => exact hH (j := j) (by simpa [V1Target.calledLines] using hi) s
  | byPackageHash x ver rt =>
    rw [hp] at hi htg ht
    obtain ⟨t1, t2, t4⟩ := htg
    rw [t1, t4]
    match i, hi with
    | 0, hi => simp [V1Target.calledLines] at hi; rw [← hi]; exact ⟨s, rfl⟩
    | 1, hi =>
      simp [V1Target.calledLines] at hi; rw [← hi]
      exact exThen (printByHash_at t2 (hc.byPackageHash x ver rt hp)) ⟨_, rfl⟩
    | i + 2, hi =>
      cases hx : e.expert with
      | false =>
        rw [hx] at hi
        simp only [Bool.false_eq_true, false_and, if_false]
        match i, hi with
        | 0, hi => simp [V1Target.calledLines, versionLine] at hi; rw [← hi]; exact hentry s
        | j + 1, hi => exact hH (j := j) (by simpa [V1Target.calledLines, versionLine] using hi) s
      | true =>
        obtain ⟨y, rfl, h2⟩ := ht hx
        rw [hx] at hi
        simp only [true_and, if_true]
        match i, hi with
        | 0, hi =>
          simp [V1Target.calledLines, versionLine] at hi; rw [← hi, ← decimal_eq]
          have hnv : y ≠ noVersion := by simp [noVersion]; omega
          exact ⟨s, congrFun (if_pos (c := y ≠ noVersion) hnv) s⟩
        | 1, hi => simp [V1Target.calledLines, versionLine] at hi; rw [← hi]; exact hentry s
        | j + 2, hi => exact hH (j := j) (by simpa [V1Target.calledLines, versionLine] using hi) s
  | byPackageName x ver rt =>
    rw [hp] at hi htg ht
    obtain ⟨t1, t2, t3, t4⟩ := htg
    rw [t1, t4]
    match i, hi with
    | 0, hi => simp [V1Target.calledLines] at hi; rw [← hi]; exact ⟨s, rfl⟩
    | 1, hi =>
      simp [V1Target.calledLines] at hi; rw [← hi]
      exact exThen (printfStr_at t2 t3 ht.1.1 ht.1.2) ⟨_, rfl⟩
    | i + 2, hi =>
      cases hx : e.expert with
      | false =>
        rw [hx] at hi
        simp only [Bool.false_eq_true, false_and, if_false]
        match i, hi with
        | 0, hi => simp [V1Target.calledLines, versionLine] at hi; rw [← hi]; exact hentry s
        | j + 1, hi => exact hH (j := j) (by simpa [V1Target.calledLines, versionLine] using hi) s
      | true =>
        obtain ⟨y, rfl, h2⟩ := ht.2 hx
        rw [hx] at hi
        simp only [true_and, if_true]
        match i, hi with
        | 0, hi =>
          simp [V1Target.calledLines, versionLine] at hi; rw [← hi, ← decimal_eq]
          have hnv : y ≠ noVersion := by simp [noVersion]; omega
          exact ⟨s, congrFun (if_pos (c := y ≠ noVersion) hnv) s⟩
        | 1, hi => simp [V1Target.calledLines, versionLine] at hi; rw [← hi]; exact hentry s
        | j + 2, hi => exact hH (j := j) (by simpa [V1Target.calledLines, versionLine] using hi) s

theorem Says.chain_lt {H : Bytes → Bytes} {c : Content} {pos n : Nat} {payload xs : Bytes} (h : Says H c pos n payload xs) (hpos : pos < 256) :
    c.chain.length < 256 := by
  obtain ⟨tb, aps, miss, rest, p, -, h2, rfl, -⟩ := h
  obtain ⟨_, _, _, _, -, -, -, -, -, -, -, h⟩ := h2
  rw [pfx_length] at h
  omega

theorem Says.pos_ge {H : Bytes → Bytes} {c : Content} {pos n : Nat} {payload xs : Bytes} (h : Says H c pos n payload xs) : 15 ≤ pos := by
  obtain ⟨tb, aps, miss, rest, p, -, h2, rfl, -⟩ := h
  omega

/-- **C53, all accepted version 1 data.** The review of a call names the contract and the entry point of the signed payload, also where the argument
list is elsewhere or of another length than the layout says.  Missing: names of more than 99 bytes or with zero bytes, and packages without version in
expert mode. -/
theorem C53_accepted_partial (pl : Platform) (hcap : pl.cap ≤ 16384) (d d' : Dev) (hd : d.Ok pl) (rx : Bytes)
    (pin : Bool) (hins : rx.getD 1 0 = 2) (xs : Bytes) (hx : d.data ++ rx.drop 5 = 1 :: xs) (h : step pl d (.apdu rx pin) = (d', .pending))
    (c : Content) (pos n : Nat) (payload : Bytes) (hc : Says pl.blake c pos n payload xs) (hg : ∀ as, c.args = .named as → GoodTypes as)
    (name : Bytes) (hn : c.entry = .custom name) (hnl : name.length ≤ 99) (hn0 : 0 ∉ name) (ht : c.target.Showable d.expert)
    (i : Nat) (kv : Bytes × Bytes) (hi : (c.target.calledLines d.expert name)[i]? = some kv) (o : Nat) :
    ∃ o', reviewItem pl d' .tx ((if d.expert then 8 else 4) + i) o = .ok kv o' := by
  obtain ⟨s, B, -, hs, hok', hdata, rfl, g1, -, g3, -⟩ := pending_says hcap hd hins hx h hc hg
  have hle := called_le d.expert c.target name
  have hcnt := called_count ht name
  have hlt := (List.getElem?_eq_some_iff.1 hi).1
  have hni : s.v.numItems = (if d.expert then 9 else 4) + ((c.target.calledLines d.expert name).length + 1) := by
    rw [g1.items, hn, ← hcnt]
    show u8 ((if d.expert then 8 else 3) + V1Target.items d.expert c.target + 1 + 1) = _
    rw [u8_id (by split <;> omega)]
    split <;> omega
  have hep : s.v.epType ≠ 0 := by rw [g1.ep, hn]; exact Nat.one_ne_zero
  have key := seen_called (last := none) g1 g3 hn hnl hn0 ht (by simp) (i := i) (kv := kv) (by simpa [mkEnv] using hi) o
  have hb : (if d.expert then 8 else 4) + i + 1 < s.v.numItems ∧ s.v.numItems ≤ 14 := by rw [hni]; split <;> omega
  rw [reviewItem_v1 hok' hdata, u8_id (by omega), if_neg (by omega)]
  cases hxp : d.expert with
  | false =>
    rw [hxp] at hni hlt
    rw [if_neg (by decide)] at hni ⊢
    have := seen_entry_normal (e := mkEnv pl d.expert xs) g1.head.items hxp hni (show i < _ by omega) (by omega) o
    rw [← this] at key
    exact key
  | true =>
    rw [hxp] at hni hlt
    rw [if_pos rfl] at hni ⊢
    have := seen_entry_expert (e := mkEnv pl d.expert xs) g1.head.items hxp hep hni (show i < _ by omega) (by omega) o
    rw [← this] at key
    exact key

/-- **C83, calls.** The review of accepted version 1 data whose content is a call consists of exactly the lines of this content: hash, title, chain,
initiator; in expert mode timestamp, time to live, pricing mode; contract, entry point and hash of the signed arguments; in expert mode the number of
approvals.  Missing: arguments at position 256 or later, a wrong length of the arguments (`C54_length_false`), long names or names with zero bytes,
packages without version and payments of more than 19 digits in expert mode. -/
theorem C83_call_partial (pl : Platform) (hcap : pl.cap ≤ 16384) (d d' : Dev) (hd : d.Ok pl) (rx : Bytes)
    (pin : Bool) (hins : rx.getD 1 0 = 2) (xs : Bytes) (hx : d.data ++ rx.drop 5 = 1 :: xs) (h : step pl d (.apdu rx pin) = (d', .pending))
    (c : Content) (pos n : Nat) (payload : Bytes) (hc : Says pl.blake c pos n payload xs) (hg : ∀ as, c.args = .named as → GoodTypes as)
    (name : Bytes) (hn : c.entry = .custom name) (hnl : name.length ≤ 99) (hn0 : 0 ∉ name) (ht : c.target.Showable d.expert)
    (hpos : pos < 256) (hsz : ∀ as, c.args = .named as → c.argsSize = c.args.encode.length) (hpr : d.expert = true → c.pricing.Small) :
    ∃ time ttl, (d.expert = true → pl.fmtTime (c.time / 1000) = some time ∧ duration ttl = c.ttl / 1000) ∧
      Displays pl d' (c.screens pl.blake payload d.expert n time ttl
        (c.target.calledLines d.expert name ++ [(b!"Args hash", checksumHex pl.blake (pl.blake c.args.blob))])) := by
  obtain ⟨s, B, acc, hs, hok', hdata, rfl, g1, g2, g3, g4, -⟩ := pending_says hcap hd hins hx h hc hg
  have hle := called_le d.expert c.target name
  have hcnt := called_count ht name
  have hlen : (c.target.calledLines d.expert name ++ [(b!"Args hash", checksumHex pl.blake (pl.blake c.args.blob))]).length ≤ 5 := by
    rw [List.length_append]; simp; omega
  have key : ∀ {i kv}, (c.target.calledLines d.expert name ++ [(b!"Args hash", checksumHex pl.blake (pl.blake c.args.blob))])[i]? = some kv → ∀ o,
      ∃ o', itemEntry (mkEnv pl d.expert xs) s.v i o = .ok kv o' := by
    intro i kv hi o
    refine seen_called (last := some (b!"Args hash", checksumHex pl.blake (pl.blake c.args.blob))) g1 g3 hn hnl hn0 ht ?_ hi o
    intro kv hkv s'
    cases hkv
    exact seen_argsHash hs g1 hpos (by have := hc.pos_ge; omega) hsz s'
  obtain ⟨time, ttl, t1, t2, t3⟩ := seen_screens hs g1 g3 (payload := payload)
    (lines := c.target.calledLines d.expert name ++ [(b!"Args hash", checksumHex pl.blake (pl.blake c.args.blob))]) g2 (hc.chain_lt hpos) hpr g4 acc.items
    (by rw [hn, List.length_append, ← hcnt]; rfl) (by omega) (fun _ _ => by rw [g1.ep, hn]; exact Nat.one_ne_zero) (fun {i kv} hi o => key hi o)
  refine ⟨time, ttl, t1, displays_of_items hok' hdata t2 ?_ t3⟩
  have hpl : (c.pricing.lines pl.blake).length = 2 := by cases c.pricing <;> rfl
  show (c.screens pl.blake payload d.expert n time ttl _).length ≤ 128
  unfold Content.screens
  generalize c.target.calledLines d.expert name ++ [(b!"Args hash", checksumHex pl.blake (pl.blake c.args.blob))] = L at hlen ⊢
  cases d.expert <;> simp [hpl] <;> omega

/-- **C54, all accepted version 1 data.** Same conditions: the last line (before the approvals) is the hash of the complete signed arguments. -/
theorem C54_accepted_partial (pl : Platform) (hcap : pl.cap ≤ 16384) (d d' : Dev) (hd : d.Ok pl) (rx : Bytes)
    (pin : Bool) (hins : rx.getD 1 0 = 2) (xs : Bytes) (hx : d.data ++ rx.drop 5 = 1 :: xs) (h : step pl d (.apdu rx pin) = (d', .pending))
    (c : Content) (pos n : Nat) (payload : Bytes) (hc : Says pl.blake c pos n payload xs) (hg : ∀ as, c.args = .named as → GoodTypes as)
    (name : Bytes) (hn : c.entry = .custom name) (hnl : name.length ≤ 99) (hn0 : 0 ∉ name) (ht : c.target.Showable d.expert)
    (hpos : pos < 256) (hsz : ∀ as, c.args = .named as → c.argsSize = c.args.encode.length) (hpr : d.expert = true → c.pricing.Small) :
    ∃ i, ∀ o, ∃ o', reviewItem pl d' .tx i o = .ok (b!"Args hash", checksumHex pl.blake (pl.blake c.args.blob)) o' := by
  obtain ⟨time, ttl, -, h3⟩ := C83_call_partial pl hcap d d' hd rx pin hins xs hx h c pos n payload hc hg name hn hnl hn0 ht hpos hsz hpr
  have hm : (b!"Args hash", checksumHex pl.blake (pl.blake c.args.blob)) ∈ c.screens pl.blake payload d.expert n time ttl
      (c.target.calledLines d.expert name ++ [(b!"Args hash", checksumHex pl.blake (pl.blake c.args.blob))]) := by
    unfold Content.screens
    simp
  obtain ⟨i, hi, he⟩ := List.mem_iff_getElem.1 hm
  exact ⟨i, fun s => (h3 s).2 i _ (by rw [List.getElem?_eq_getElem hi, he])⟩

/-! ### Serialized transactions -/

/-- What a serialized payload says. -/
def TxPayload.content (p : TxPayload) : Content :=
  ⟨p.initiator.addr, p.timestamp, p.ttl, p.chain, p.pricing, p.args, p.args.encode.length, p.target, p.entry⟩

theorem VmRuntime.of {rt : VmRuntime} (h : rt.Ok) (hl : rt.encode.length < 65536) : RuntimeOf rt rt.encode := by
  cases rt with
  | v1 => exact ⟨fun _ _ h => (by cases h), fun _ _ h => (by cases h), callTable_loose (by decide) (by decide) (by omega) hl⟩
  | v2 v s => exact ⟨fun v' s' h' => by cases h'; exact h.2 s' rfl, fun v' s' h' => by cases h'; exact h.1, callTable_loose (fs := VmRuntime.fields (.v2 v s)) (by simp [VmRuntime.fields]) (by simp [VmRuntime.fields]) (by omega) hl⟩

theorem V1Target.of {t : V1Target} (h : t.Ok) (hl : t.encode.length < 65536) : TargetOf t t.encode := by
  have fld : ∀ {fs : List Bytes} {f : Bytes}, (callTable fs).length < 65536 → f ∈ fs → f.length < 65536 := fun h hf => lt_of_le_of_lt (callTable_field hf) h
  cases t with
  | native => exact .native _ (callTable_loose (by decide) (by decide) (by decide) hl)
  | byHash x rt =>
    exact .stored _ _ [[0], x] _ _ _ (.byHash x rt h.1) (callTable_loose (by simp) (by simp) (by simp) (fld hl (by simp))) (VmRuntime.of h.2 (fld hl (by simp)))
      (callTable_loose (by simp) (by simp) (by simp) hl)
  | byName x rt =>
    exact .stored _ _ [[1], pfx x] _ _ _ (.byName x rt) (callTable_loose (by simp) (by simp) (by simp) (fld hl (by simp))) (VmRuntime.of h (fld hl (by simp)))
      (callTable_loose (by simp) (by simp) (by simp) hl)
  | byPackageHash x v rt =>
    exact .stored _ _ [[2], x, optional (le 4) v] _ _ _ (.byPackageHash x v rt h.1 h.2.1) (callTable_loose (by simp) (by simp) (by simp) (fld hl (by simp))) (VmRuntime.of h.2.2 (fld hl (by simp)))
      (callTable_loose (by simp) (by simp) (by simp) hl)
  | byPackageName x v rt =>
    exact .stored _ _ [[3], pfx x, optional (le 4) v] _ _ _ (.byPackageName x v rt h.1) (callTable_loose (by simp) (by simp) (by simp) (fld hl (by simp))) (VmRuntime.of h.2 (fld hl (by simp)))
      (callTable_loose (by simp) (by simp) (by simp) hl)
  | session i rt m =>
    exact .session i rt _ m _ (VmRuntime.of h (fld hl (by simp))) (callTable_loose (by simp) (by simp) (by simp) hl)

theorem TxPayload.payloadOf {p : TxPayload} (hp : p.Ok) (hl : p.encode.length < 65536) : PayloadOf p.content (p.argsPos - 63) p.encode := by
  have fld : ∀ {f : Bytes}, f ∈ p.fields → f.length < 65536 := fun hf => lt_of_le_of_lt (callTable_field hf) hl
  have hb := p.body_long
  have hbl : p.body.length < 65536 := fld (by simp [TxPayload.fields])
  obtain ⟨tb, htb, htx⟩ := callTable_loose (fs := p.fields) (n := 6) (whole := true) (by simp [TxPayload.fields]) (by simp [TxPayload.fields]) (by simp [TxPayload.fields]) hl
  have htl : tb.length = 44 := by
    have h1 := congrArg List.length htx
    rw [callTable_length, List.length_append] at h1
    have h2 : p.fields.length = 6 := rfl
    omega
  refine ⟨tb, p.initiator.encode, p.pricing.encode, p.body, htb, htx, ?_, ?_, hp.timestamp, hp.ttl, ?_, ?_⟩
  · have hl := fld (f := p.initiator.encode) (by simp [TxPayload.fields])
    have ho := hp.initiator
    show InitOf p.initiator.addr _
    cases hq : p.initiator with
    | ed25519 k => rw [hq] at hl ho; exact ⟨0, .inl ⟨rfl, .inr (.inl ⟨k, ho, rfl⟩)⟩, callTable_loose (by simp) (by simp) (by simp) hl, (callTable_length _).trans (by simp [Initiator.addr]; omega)⟩
    | secp256k1 k => rw [hq] at hl ho; exact ⟨0, .inl ⟨rfl, .inr (.inr ⟨k, ho, rfl⟩)⟩, callTable_loose (by simp) (by simp) (by simp) hl, (callTable_length _).trans (by simp [Initiator.addr]; omega)⟩
    | account k => rw [hq] at hl ho; exact ⟨1, .inr ⟨rfl, ho⟩, callTable_loose (by simp) (by simp) (by simp) hl, (callTable_length _).trans (by simp [Initiator.addr]; omega)⟩
  · have hl := fld (f := p.pricing.encode) (by simp [TxPayload.fields])
    have ho := hp.pricing
    show PricingOf p.pricing _
    cases hq : p.pricing with
    | limited a g s => rw [hq] at hl ho; exact ⟨_, ⟨ho.1, ho.2, _, by cases s <;> rfl, rfl⟩, callTable_loose (by simp) (by simp) (by simp) hl⟩
    | fixed g x => rw [hq] at hl ho; exact ⟨_, ⟨ho.1, ho.2, rfl⟩, callTable_loose (by simp) (by simp) (by simp) hl⟩
    | prepaid r => rw [hq] at hl ho; exact ⟨_, ⟨ho, rfl⟩, callTable_loose (by simp) (by simp) (by simp) hl⟩
  · refine ⟨p.target.encode.length, p.entry.encode.length, (callTable [[0]]).length, p.target.encode, p.entry.encode, callTable [[0]], ?_, V1Target.of hp.target (show p.target.encode.length < 65536 by omega), ?_, callTable_loose (by decide) (by decide) (by decide) (by decide), ?_⟩
    · show p.args.encode.length < 2 ^ 32; omega
    · have hl : p.entry.encode.length < 65536 := by omega
      have ho := hp.entry
      show EntryOf p.entry _
      cases hq : p.entry with
      | custom n => rw [hq] at hl; exact .custom n _ (callTable_loose (by simp) (by simp) (by simp) hl)
      | op t => rw [hq] at hl ho; exact .op t _ ho.1 ho.2 (callTable_loose (by simp) (by simp) (by simp) hl)
    · show p.body = _
      unfold TxPayload.body pfx TxPayload.content
      simp only [List.append_assoc]
  · show p.argsPos - 63 = tb.length + p.initiator.encode.length + 8 + 8 + (pfx p.chain).length + p.pricing.encode.length + 10
    unfold TxPayload.argsPos
    rw [htl, pfx_length]
    omega

/-- A serialized transaction says what its payload says. -/
theorem TxPayload.says {H : Hash} {p : TxPayload} {ap : List Bytes} (hp : p.Ok) (hap : ∀ x ∈ ap, ApprovalOk x) (hl : (p.tx H ap).length < 65536) :
    Says H p.content p.argsPos ap.length p.encode (p.tx H ap) := by
  obtain ⟨tb, htb, htx⟩ := callTable_loose (fs := p.txFields H ap) (n := 3) (whole := true) (by simp [TxPayload.txFields]) (by simp [TxPayload.txFields])
    (by simp [TxPayload.txFields]) hl
  have hH := H.len p.encode
  have htl : tb.length = 26 := by
    have h1 := congrArg List.length htx
    rw [callTable_length, List.length_append] at h1
    have h2 : (p.txFields H ap).length = 3 := rfl
    omega
  refine ⟨tb, ap, [], [], p.argsPos - 63, htb, p.payloadOf hp (lt_of_le_of_lt (callTable_field (by simp)) hl), ?_, ?_, rfl, ?_, by simp, .inl rfl⟩
  · rw [htl]; unfold TxPayload.argsPos; omega
  · intro a ha
    obtain ⟨k, s, t, h1, h2, h3⟩ := hap a ha
    rcases h1 with ⟨h1, h4⟩ | ⟨h1, h4⟩
    · exact ⟨_, t, s, .inr (.inl ⟨k, h4, rfl⟩), h2, h3, h1⟩
    · exact ⟨_, t, s, .inr (.inr ⟨k, h4, rfl⟩), h2, h3, h1⟩
  · rw [List.append_nil, List.append_nil, p.tx_eq, htx]
    simp [TxPayload.txFields]

/-- The data of `manyFields` (a table that claims 259 fields), which are accepted (`C82_table_false`), say the same as the sample transfer. -/
example : Says Blake.H sampleTransfer.content sampleTransfer.argsPos 0 sampleTransfer.encode manyFields := by
  refine ⟨looseTable 259 [0, 32, 32 + sampleTransfer.encode.length] (36 + sampleTransfer.encode.length), [], [], [], sampleTransfer.argsPos - 63,
    ⟨259, _, _, rfl, by decide, by decide, by decide, ?_, fun _ => by decide +kernel⟩, TxPayload.payloadOf sampleTransfer_ok (by decide +kernel), by decide +kernel,
    by simp, rfl, by decide +kernel, by simp, .inl rfl⟩
  intro j hj
  match j, hj with
  | 0, _ => rfl
  | 1, _ => decide +kernel
  | 2, _ => decide +kernel

/-- The hypotheses of `C83_operation_partial` on the arguments can be met, by those of the sample transfer. -/
example : sampleTransfer.content.entry = .op 2 ∧ sampleTransfer.content.target = .native ∧ sampleTransfer.content.args = .named sampleNamed ∧
    (∀ a ∈ sampleNamed, a.Ok) ∧ noNul sampleNamed ∧ sampleTransfer.argsPos < 256 ∧
    List.Forall₂ (ArgLine.Shows Blake.H sampleNamed) (opLines false sampleNamed 2)
      [(b!"Target", checksumHex Blake.H (List.replicate 32 0x11)), (b!"Amount", motesOf 2500000000)] := by
  refine ⟨rfl, rfl, rfl, ?_, by unfold noNul; decide, by decide +kernel, ?_⟩
  · intro a ha
    simp only [sampleNamed, List.mem_cons, List.not_mem_nil, or_false] at ha
    rcases ha with rfl | rfl | rfl <;> exact ⟨by decide, by decide, by decide⟩
  · exact .cons (.value rfl rfl (.byteArray (List.replicate 32 0x11) (by decide) (by decide))) (.cons (.motes rfl rfl rfl (.u512 4 2500000000 (by decide) (by decide))) .nil)

/-- The hypotheses of `C83_call_partial` can be met, by the sample call. -/
example : Says Blake.H (sampleCall (.byHash (List.replicate 32 0x22) .v1)).content (sampleCall (.byHash (List.replicate 32 0x22) .v1)).argsPos 0
      (sampleCall (.byHash (List.replicate 32 0x22) .v1)).encode ((sampleCall (.byHash (List.replicate 32 0x22) .v1)).tx Blake.H []) ∧
    repliesToV1 ((sampleCall (.byHash (List.replicate 32 0x22) .v1)).tx Blake.H []) 1 = [.reply [] 0x9000, .reply [] 0x9000, .pending] ∧
    (sampleCall (.byHash (List.replicate 32 0x22) .v1)).argsPos < 256 :=
  ⟨TxPayload.says (H := samplePl.blake) (ap := []) (sampleCall_call (t := .byHash (List.replicate 32 0x22) .v1) ⟨by decide, trivial⟩).ok (by simp) (by decide +kernel), by decide +kernel, by decide +kernel⟩

/-- The sample call with other arguments, for which the length `n` is given. -/
def callGiving (n : Nat) (a : V1Args) : Bytes :=
  let p := sampleCall (.byHash (List.replicate 32 0x22) .v1)
  txOf [p.initiator.encode, le 8 p.timestamp, le 8 p.ttl, pfx p.chain, p.pricing.encode,
    le 4 4 ++ (le 2 0 ++ (le 4 n ++ a.encode)) ++ (le 2 1 ++ pfx p.target.encode) ++ (le 2 2 ++ pfx p.entry.encode) ++ (le 2 3 ++ pfx (callTable [[0]]))]

/-- **C54 fails** where the length given for the arguments is wrong: it is not checked, and the hash is that of as many bytes as it says.  With length 5
it is the hash of the number of arguments: calls with different arguments are accepted and show the same "Args hash". -/
theorem C54_length_false : ∃ text : Bytes, ∀ v, v = 1 ∨ v = 200 →
    repliesToV1 (callGiving 5 (.named [⟨b!"amount", bigNum 1 v, .u512⟩])) 1 = [.reply [] 0x9000, .reply [] 0x9000, .pending] ∧
    ∃ o, reviewItem samplePl (run samplePl (Dev.init samplePl) (sampleUpload (1 :: callGiving 5 (.named [⟨b!"amount", bigNum 1 v, .u512⟩])) 1)).1 .tx 7 0 =
      .ok (b!"Args hash", text) o := by
  refine ⟨checksumHex Blake.H (Blake.H (le 4 1)), ?_⟩
  rintro v (rfl | rfl)
  · exact ⟨by decide +kernel, Res.val_ok.1 (by decide +kernel)⟩
  · exact ⟨by decide +kernel, Res.val_ok.1 (by decide +kernel)⟩

end Casper
