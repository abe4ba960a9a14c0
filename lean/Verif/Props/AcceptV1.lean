import Verif.Props.ContentV1
import Verif.Props.Counts
import Verif.Props.Code
/-
C84: whether version 1 data are accepted depends on what they say, not on their layout; and C83, C55, C61 for all accepted data.
-/
namespace Casper
open M

/-- The header of this content can be shown: the chain name has at most 99 bytes (or 100 with a zero byte among them); in expert mode, the timestamp
can be written as a date, and the time to live is less than 29 days. -/
def Content.Presentable (c : Content) (fmt : Nat → Option Bytes) (expert : Bool) : Prop :=
  (c.chain.length ≤ 99 ∨ c.chain.length = 100 ∧ 0 ∈ c.chain) ∧
  (expert = true → (∃ t, fmt (c.time / 1000) = some t) ∧ c.ttl / 1000 < 29 * 86400)

section
variable {e : Env} {v : V1} {B : Nat} {addr chain : Bytes} {time ttl : Nat} {pfs : List Bytes} (h : HeadView e.buf v B addr time ttl chain pfs) (hs : Small e)

include h hs in
theorem HeadView.chain_iff (hc : chain.length < 256) (hn : 2 < v.numItems) :
    (∃ kv c, getItemV1 e v 2 0 = .ok kv c) ↔ (chain.length ≤ 99 ∨ chain.length = 100 ∧ 0 ∈ chain) := by
  have key : getItemV1 e v 2 0 = Res.bind (displayString e (B + addr.length + 8 + 8 + 4) chain.length (B + addr.length + 8 + 8 + 4))
      (fun v => (pure (b!"Chain ID", v) : P (Bytes × Bytes))) := by
    unfold getItemV1
    rw [if_neg (by omega)]
    dsimp only
    rw [if_neg (by decide), if_neg (by decide), if_pos rfl]
    refine seqThen (indexV_at hs h.hchain (by simp only [vIndex, h.base, h.initLen]) 0) (seqThen (get_run _) ?_)
    rw [h.chainLen, u8_id hc]
    rfl
  rw [key]
  unfold displayString
  by_cases h1 : chain.length > 100
  · rw [if_pos h1]
    refine ⟨fun ⟨_, _, hk⟩ => (by cases hk), fun hk => ?_⟩
    omega
  · rw [if_neg h1, bind_run, slice_at h.hchain rfl]
    simp only [Res.bind]
    unfold showArray
    by_cases h2 : chain.length < 100 ∨ chain.contains 0 = true
    · rw [if_pos h2]
      refine ⟨fun _ => ?_, fun _ => ⟨_, _, rfl⟩⟩
      rcases h2 with h2 | h2
      · exact .inl (by omega)
      · rcases Nat.lt_or_ge chain.length 100 with h3 | h3
        · exact .inl (by omega)
        · exact .inr ⟨by omega, by simpa using h2⟩
    · rw [if_neg h2]
      refine ⟨fun ⟨_, _, hk⟩ => (by cases hk), fun hk => absurd ?_ h2⟩
      rcases hk with hk | hk
      · exact .inl (by omega)
      · exact .inr (by simpa using hk.2)

include h hs in
theorem HeadView.time_iff (hx : e.expert = true) (ht : time < 2 ^ 64) (hn : 4 < v.numItems) :
    (∃ kv c, getItemV1 e v 4 0 = .ok kv c) ↔ ∃ t, e.fmtTime (time / 1000) = some t := by
  refine ⟨fun hok => ?_, fun ⟨t, hf⟩ => ?_⟩
  · obtain ⟨t, h1, -⟩ := h.timeLine hs hx ht hn hok
    exact ⟨t, h1⟩
  · unfold getItemV1
    rw [if_neg (by omega)]
    dsimp only
    rw [if_neg (by decide), if_neg (by decide), if_neg (by decide), if_neg (by decide), if_pos hx, if_pos rfl]
    refine ⟨(b!"Timestamp", t), exThen (indexV_at hs h.htime (by simp only [vIndex, h.base, h.initLen]) 0) (exThen (readLE_at h.htime (by omega)) ?_)⟩
    rw [hf]; exact ⟨_, rfl⟩

include h hs in
theorem HeadView.ttl_iff (hx : e.expert = true) (ht : ttl < 2 ^ 64) (hn : 5 < v.numItems) :
    (∃ kv c, getItemV1 e v 5 0 = .ok kv c) ↔ ttl / 1000 < 29 * 86400 := by
  have key : getItemV1 e v 5 0 = Res.bind (ttlText (ttl / 1000) 100 (B + addr.length + 8 + 8))
      (fun t => (pure (b!"Ttl", t) : P (Bytes × Bytes))) := by
    unfold getItemV1
    rw [if_neg (by omega)]
    dsimp only
    rw [if_neg (by decide), if_neg (by decide), if_neg (by decide), if_neg (by decide), if_pos hx, if_neg (by decide), if_pos rfl]
    exact seqThen (indexV_at hs h.httl (by simp only [vIndex, h.base, h.initLen]) 0) (seqThen (readLE_at h.httl (by omega)) rfl)
  obtain ⟨c1, c2⟩ := C19_ttl (ttl / 1000) 100 (by decide) (B + addr.length + 8 + 8)
  rw [key]
  refine ⟨fun ⟨kv, c, hk⟩ => ?_, fun hlt => ?_⟩
  · by_contra hge
    rw [c2 (by omega)] at hk
    cases hk
  · obtain ⟨t, g1, -, -⟩ := c1 hlt
    rw [g1]
    exact ⟨_, _, rfl⟩

end

/-- What is needed of the lines of an operation or a call: their number is the one announced, and each can be shown. -/
structure Lines (e : Env) (c : Content) (v : V1) (lines : List (Bytes × Bytes)) : Prop where
  count : c.target.items e.expert + entryItems e c.entry.tag v.numArgs = lines.length
  few : lines.length ≤ 246
  ep : e.expert = true → lines ≠ [] → v.epType ≠ 0
  shown : ∀ {i kv}, lines[i]? = some kv → ∀ o, ∃ o', itemEntry e v i o = .ok kv o'

/-- Data with given content, parsed: either the check for required arguments fails, or the data are accepted exactly if the header can be shown. -/
theorem says_accepted {e : Env} {c : Content} {pos n : Nat} {payload : Bytes} (hs : Small e) (h : Says e.blake c pos n payload e.buf)
    (hg : ∀ as, c.args = .named as → GoodTypes as) (hch : c.chain.length < 256) (hpr : e.expert = true → c.pricing.Small) :
    ∃ B v, ContentSeen e B pos c n v ∧ At e.buf (B - 32) (e.blake payload) ∧ c.Sized ∧ n < 256 ∧
      ((∃ s, V1Accepted e s) → ∃ o o', checkSanity e v o = .ok () o') ∧
      (∀ lines, Lines e c v lines → (∃ s, V1Accepted e s) → c.Presentable e.fmtTime e.expert) ∧
      (∀ lines, Lines e c v lines → (∀ o, ∃ o', checkSanity e v o = .ok () o') → c.Presentable e.fmtTime e.expert → ∃ s, V1Accepted e s ∧ s.v = v) := by
  obtain ⟨tb, aps, miss, rest, p, h1, h2, rfl, h5, rfl, h7, h8, h9⟩ := h
  have hH : (e.blake payload).length = 32 := e.blake.len _
  obtain ⟨v, s0, o, g1, g2, g3⟩ := readV1_of hs h1 hH h2 hg h5 h7 h8 h9
  have hlen := congrArg List.length h7
  simp only [List.length_append, le_length, hH] at hlen
  have hge : ∀ l : List Bytes, (∀ a ∈ l, LooseApproval a) → 66 * l.length ≤ l.flatten.length := by
    intro l
    induction l with
    | nil => simp
    | cons x l ih =>
      intro hl
      have := looseApproval_long (hl x (by simp))
      have := ih fun y hy => hl y (by simp [hy])
      simp only [List.flatten_cons, List.length_append, List.length_cons]; omega
  have h66 := hge aps h5
  have hs' := hs
  unfold Small at hs'
  have hroom : miss.length ≤ aps.flatten.length := by
    rcases h9 with rfl | h9
    · simp
    · have : 1 ≤ aps.length := by cases aps <;> simp_all
      omega
  have hash : At e.buf tb.length (e.blake payload) :=
    at_left (b := miss) ⟨tb, payload ++ ((le 4 aps.length ++ aps.flatten) ++ rest), by rw [h7]; simp, rfl⟩ (by rw [hH]; omega)
  have hpay : At e.buf (tb.length + 32) payload :=
    at_left (b := miss) ⟨tb ++ e.blake payload, (le 4 aps.length ++ aps.flatten) ++ rest, by rw [h7]; simp, by simp [hH]⟩ (by omega)
  have hn : aps.length < 256 := by omega
  have hsame : ∀ s, V1Accepted e s → s.v = v ∧ ∃ o o', checkSanity e v o = .ok () o' := by
    intro s ha
    have hp := ha.parse
    rw [g3] at hp
    unfold onCopy at hp
    cases hk : checkSanity e v s0.off with
    | ok a o' =>
      rw [hk] at hp
      cases hp
      exact ⟨rfl, _, _, hk⟩
    | err _ _ => rw [hk] at hp; cases hp
    | fault _ => rw [hk] at hp; cases hp
  have hc := h2.sized
  obtain ⟨pfs, hpf, hv⟩ := g1.view
  have hni : ∀ lines, Lines e c v lines → v.numItems = (if e.expert then 9 else 4) + lines.length := by
    intro lines hl
    have := hl.few
    have := hl.count
    rw [g1.items, ← hl.count, u8_id (by split <;> omega)]
    split <;> omega
  refine ⟨tb.length + 32, v, g1, hash.cast (by omega), hc, hn, fun ⟨s, hs⟩ => (hsame s hs).2, ?_, ?_⟩
  · rintro lines hl ⟨s, ha⟩
    have hni := hni lines hl
    have hit := ha.items
    rw [(hsame s ha).1] at hit
    refine ⟨(hv.chain_iff hs hch (by rw [hni]; split <;> omega)).1 (hit 2 (by rw [hni]; split <;> omega)), fun hx => ?_⟩
    rw [hx, if_pos rfl] at hni
    exact ⟨(hv.time_iff hs hx hc.time (by omega)).1 (hit 4 (by omega)), (hv.ttl_iff hs hx hc.ttl (by omega)).1 (hit 5 (by omega))⟩
  · intro lines hl hsan hpre
    have hni := hni lines hl
    obtain ⟨o', ho⟩ := hsan s0.off
    have hread : readV1 e ⟨0, {}⟩ = .ok () ⟨o, v⟩ := by
      rw [g3]; unfold onCopy; rw [ho]; rfl
    obtain ⟨time, ttl, -, t2, t3⟩ := seen_screens_of hs g1 hc (payload := payload) (hash.cast (by omega)) hch hpr hn
      ((hv.chain_iff hs hch (by rw [hni]; split <;> omega)).2 hpre.1)
      (fun hx => by
        rw [hx, if_pos rfl] at hni
        exact ⟨(hv.time_iff hs hx hc.time (by omega)).2 (hpre.2 hx).1, (hv.ttl_iff hs hx hc.ttl (by omega)).2 (hpre.2 hx).2⟩)
      hl.count hl.few hl.ep hl.shown
    refine ⟨⟨o, v⟩, ⟨hread, ?_, fun i hi => ?_⟩, rfl⟩
    · show ∃ t, validateV1 e v 0 = .ok () t
      unfold validateV1
      rw [g1.base, g1.hash.1]
      refine exThen (slice_at (hash.cast (by omega)) hH.symm) (exThen (slice_at hpay g2) ⟨0, ?_⟩)
      rw [require_run, if_pos rfl]
    · have hi : i < v.numItems := hi
      rw [t2] at hi
      exact ⟨_, t3 i _ (List.getElem?_eq_getElem hi) 0⟩

/-- An upload of version 1 data opens a review exactly if the data are accepted. -/
theorem upload_iff (pl : Platform) (hcap : pl.cap < 65536) (d : Dev) (hd : d.Ok pl) (path : Bytes) (hl : path.length = 20)
    (hp : casperPath path) (cs : List Bytes) (last xs : Bytes) (hx : cs.flatten ++ last = 1 :: xs)
    (hfit : (cs.flatten ++ last).length ≤ pl.cap) :
    (run pl d (upload 2 path cs last)).2 = List.replicate (cs.length + 1) (.reply [] 0x9000) ++ [.pending] ↔
      ∃ s, V1Accepted (mkEnv pl d.expert xs) s := by
  refine ⟨fun h => ?_, fun ⟨s, ha⟩ => ?_⟩
  · obtain ⟨d0, e0, h1, h2, h3, h4, -, -, -, h5⟩ := upload_reaches pl d hd 2 (.inl rfl) path hl hp cs last hfit
    rw [h5] at h
    have h : (outOf e0 (finish pl 2 d0)).2 = .pending := by
      have := List.append_cancel_left h
      simpa using this
    have key : ∀ d', txParse pl { d0 with txInit := false } = .ok () d' → ∃ s, V1Accepted (mkEnv pl d.expert xs) s := by
      intro d' hk
      rcases (txParse_ok (d := { d0 with txInit := false }) hcap h1).1 hk with ⟨ys, s, b1, b2, -⟩ | ⟨ys, s, b1, b2, -⟩
      · have : (1 : UInt8) :: xs = 0 :: ys := by rw [← hx, ← h2]; exact b1
        simp at this
      · have : (1 : UInt8) :: xs = 1 :: ys := by rw [← hx, ← h2]; exact b1
        simp only [List.cons.injEq, true_and] at this
        subst this
        rw [show ({ d0 with txInit := false } : Dev).expert = d.expert from h3] at b2
        exact ⟨s, b2⟩
    unfold finish at h
    rw [if_pos rfl] at h
    unfold orExplain at h
    simp only [bind_run, modify_run, Res.bind_ok, attempt_run] at h
    cases hk : txParse pl { d0 with txInit := false } with
    | ok u d' => exact key d' hk
    | err x d' =>
      rw [hk] at h
      exact absurd h (by simp [outOf, fail, bind_run])
    | fault f =>
      rw [hk] at h
      exact absurd h (by simp [outOf])
  · obtain ⟨d0, -, -, -, -, h⟩ := upload_v1 pl hcap d hd path hl hp cs last xs hx hfit ha
    rw [h]

/-- Uploading data with given content: a review opens exactly if the required arguments are there (`R`) and the header can be shown; then it shows the
content, and approving it signs the hash of the payload. -/
theorem upload_says (pl : Platform) (hcap : pl.cap ≤ 16384) (d : Dev) (hd : d.Ok pl) (path : Bytes) (hl : path.length = 20)
    (hp : casperPath path) (cs : List Bytes) (last xs : Bytes) (hx : cs.flatten ++ last = 1 :: xs)
    (hfit : (cs.flatten ++ last).length ≤ pl.cap) {c : Content} {pos n : Nat} {payload : Bytes} (hc : Says pl.blake c pos n payload xs)
    (hg : ∀ as, c.args = .named as → GoodTypes as) (hpos : pos < 256) (hpr : d.expert = true → c.pricing.Small)
    {lines : List (Bytes × Bytes)} (hfew : lines.length ≤ 119) {R : Prop}
    (hlines : ∀ B v, Small (mkEnv pl d.expert xs) → ContentSeen (mkEnv pl d.expert xs) B pos c n v → c.Sized → Lines (mkEnv pl d.expert xs) c v lines)
    (hR : ∀ B v, Small (mkEnv pl d.expert xs) → ContentSeen (mkEnv pl d.expert xs) B pos c n v →
      (R → ∀ o, ∃ o', checkSanity (mkEnv pl d.expert xs) v o = .ok () o') ∧ ((∃ o o', checkSanity (mkEnv pl d.expert xs) v o = .ok () o') → R)) :
    ((run pl d (upload 2 path cs last)).2 = List.replicate (cs.length + 1) (.reply [] 0x9000) ++ [.pending] ↔ R ∧ c.Presentable pl.fmtTime d.expert) ∧
    (R ∧ c.Presentable pl.fmtTime d.expert → ∃ d' time ttl, (d.expert = true → pl.fmtTime (c.time / 1000) = some time ∧ duration ttl = c.ttl / 1000) ∧
      run pl d (upload 2 path cs last) = (d', List.replicate (cs.length + 1) (.reply [] 0x9000) ++ [.pending]) ∧
      Displays pl d' (c.screens pl.blake payload d.expert n time ttl lines) ∧
      (step pl d' .approve).2 = signatureReply pl path (pl.sha256 (pl.blake payload))) := by
  have hs : Small (mkEnv pl d.expert xs) := by
    rw [hx] at hfit
    unfold Small mkEnv; simp only [List.length_cons] at hfit ⊢; omega
  obtain ⟨B, v, g1, g2, g3, g4, g5, g6, g7⟩ := says_accepted (e := mkEnv pl d.expert xs) hs hc hg (hc.chain_lt hpos) hpr
  have hL := hlines B v hs g1 g3
  obtain ⟨r1, r2⟩ := hR B v hs g1
  refine ⟨(upload_iff pl (by omega) d hd path hl hp cs last xs hx hfit).trans ⟨fun ha => ⟨r2 (g5 ha), g6 lines hL ha⟩, fun ⟨a1, a2⟩ => ?_⟩, fun ⟨a1, a2⟩ => ?_⟩
  · obtain ⟨s, b1, -⟩ := g7 lines hL (r1 a1) a2
    exact ⟨s, b1⟩
  · obtain ⟨s, b1, rfl⟩ := g7 lines hL (r1 a1) a2
    obtain ⟨d0, h1, h2, h3, h4, h5⟩ := upload_v1 pl (by omega) d hd path hl hp cs last xs hx hfit b1
    obtain ⟨time, ttl, t1, t2, t3⟩ := seen_screens hs g1 g3 (payload := payload) g2 (hc.chain_lt hpos) hpr g4 b1.items hL.count hL.few hL.ep hL.shown
    refine ⟨_, time, ttl, t1, h5, displays_of_items h1 h2 t2 ?_ (by rw [h3]; exact t3), ?_⟩
    · have hpl : (c.pricing.lines pl.blake).length = 2 := by cases c.pricing <;> rfl
      show (c.screens pl.blake payload d.expert n time ttl lines).length ≤ 128
      unfold Content.screens
      cases d.expert <;> simp [hpl] <;> omega
    · obtain ⟨a, b, k1, k2⟩ := g2
      have k1 : xs = a ++ pl.blake payload ++ b := k1
      rw [approve_v1 h1 (a := a) (c := b) (by rw [h2, ← k1]) (pl.blake.len _) (by rw [g1.hash.1, k2]), h4]

theorem sane_iff {e : Env} {B pos n t : Nat} {c : Content} {v : V1} {as : List Arg} (hs : Small e) (h : ContentSeen e B pos c n v)
    (he : c.entry = .op t) (hkn : t ≤ 12) (htg : c.target = .native) (ha : c.args = .named as) (hok : ∀ a ∈ as, a.Ok) (hn : noNul as) (hpos : pos < 256) :
    ((∀ r ∈ opRequired t, ∃ a, argNamed as r.1 = some a ∧ (r.2 = true → a.ty = .u512)) → ∀ o, ∃ o', checkSanity e v o = .ok () o') ∧
    ((∃ o o', checkSanity e v o = .ok () o') → ∀ r ∈ opRequired t, ∃ a, argNamed as r.1 = some a ∧ (r.2 = true → a.ty = .u512)) := by
  obtain ⟨-, n2, -, -, n5⟩ := h.named as ha
  have hep : v.epType = t := by rw [h.ep, he]; rfl
  have hoff : v.argsOff = pos := by rw [h.argsOff, u8_id hpos]
  have ht : v.target.typ = 0 := by have := h.target; rw [htg] at this; exact this
  unfold checkSanity
  rw [if_neg (by rw [ht]; simp), hep, hoff, n2, requiredArgs_eq t hkn]
  exact ⟨fun hr o => checkRequired_run hs.fits hok hn n5 hr o, fun ⟨o, o', h⟩ => checkRequired_only hs.fits hok hn n5 h⟩

/-- **C84, native operations.** Version 1 data that say a native operation whose lines can be shown are accepted exactly if the required arguments are there
and the header can be shown.  Then the review is that of the content, and approving it signs the hash of the payload.  The layout (positions, tables,
counts, bytes behind the approvals) does not matter.  Missing: as in `C83_operation_partial`. -/
theorem C84_operation_partial (pl : Platform) (hcap : pl.cap ≤ 16384) (d : Dev) (hd : d.Ok pl) (path : Bytes)
    (hlen : path.length = 20) (hpath : casperPath path) (cs : List Bytes) (last xs : Bytes)
    (hcs : cs.flatten ++ last = 1 :: xs) (hfit : (cs.flatten ++ last).length ≤ pl.cap)
    (c : Content) (pos n : Nat) (payload : Bytes) (hc : Says pl.blake c pos n payload xs) (t : Nat) (as : List Arg)
    (he : c.entry = .op t) (hkn : t ∈ [2, 3, 4, 5, 6, 7, 8, 9, 12]) (htg : c.target = .native) (ha : c.args = .named as) (hok : ∀ a ∈ as, a.Ok)
    (hn : noNul as) (hpos : pos < 256) (hfew : as.length ≤ 119) (hslots : t = 3 → as.length ≤ 5 ∨ (argNamed as b!"reserved_slots").isSome)
    (hpr : d.expert = true → c.pricing.Small)
    (lines : List (Bytes × Bytes)) (hl : List.Forall₂ (ArgLine.Shows pl.blake as) (opLines d.expert as t) lines) :
    ((run pl d (upload 2 path cs last)).2 = List.replicate (cs.length + 1) (.reply [] 0x9000) ++ [.pending] ↔
      (∀ r ∈ opRequired t, ∃ a, argNamed as r.1 = some a ∧ (r.2 = true → a.ty = .u512)) ∧ c.Presentable pl.fmtTime d.expert) ∧
    ((∀ r ∈ opRequired t, ∃ a, argNamed as r.1 = some a ∧ (r.2 = true → a.ty = .u512)) ∧ c.Presentable pl.fmtTime d.expert →
      ∃ d' time ttl, (d.expert = true → pl.fmtTime (c.time / 1000) = some time ∧ duration ttl = c.ttl / 1000) ∧
        run pl d (upload 2 path cs last) = (d', List.replicate (cs.length + 1) (.reply [] 0x9000) ++ [.pending]) ∧
        Displays pl d' (c.screens pl.blake payload d.expert n time ttl (lines ++ opExtra d.expert as.length t lines)) ∧
        (step pl d' .approve).2 = signatureReply pl path (pl.sha256 (pl.blake payload))) := by
  have hsm : Small (mkEnv pl d.expert xs) := by
    rw [hcs] at hfit
    unfold Small mkEnv; simp only [List.length_cons] at hfit ⊢; omega
  have hgood : ∀ as', c.args = .named as' → GoodTypes as' := by
    intro as' h' a hm; rw [ha] at h'; cases h'; exact ⟨(hok a hm).aligned, (hok a hm).supported⟩
  obtain ⟨B, v, g1, -⟩ := says_accepted (e := mkEnv pl d.expert xs) hsm hc hgood (hc.chain_lt hpos) hpr
  have hlen2 := (seen_native hsm g1 he hkn htg ha hok hn hpos hslots (lines := lines) hl).2.1
  have ht12 : t ≤ 12 := by
    simp only [List.mem_cons, List.not_mem_nil, or_false] at hkn
    omega
  exact upload_says pl hcap d hd path hlen hpath cs last xs hcs hfit hc hgood hpos hpr
    (lines := lines ++ opExtra d.expert as.length t lines) (hlen2.trans (by omega))
    (fun B v hs g _ => by
      obtain ⟨k1, k2, k3, k4⟩ := seen_native hs g he hkn htg ha hok hn hpos hslots (lines := lines) hl
      exact ⟨k1, k2.trans (by omega), fun _ _ => k3, k4⟩)
    (fun B v hs g => sane_iff hs g he ht12 htg ha hok hn hpos)

/-- **C84, reservations.** The same for reservations and their cancellation. -/
theorem C84_reservation_partial (pl : Platform) (hcap : pl.cap ≤ 16384) (d : Dev) (hd : d.Ok pl) (path : Bytes)
    (hlen : path.length = 20) (hpath : casperPath path) (cs : List Bytes) (last xs : Bytes)
    (hcs : cs.flatten ++ last = 1 :: xs) (hfit : (cs.flatten ++ last).length ≤ pl.cap)
    (c : Content) (pos n : Nat) (payload : Bytes) (hc : Says pl.blake c pos n payload xs) (t : Nat) (as : List Arg)
    (he : c.entry = .op t) (htg : c.target = .native) (ha : c.args = .named as) (hok : ∀ a ∈ as, a.Ok)
    (hn : noNul as) (hpos : pos < 256) (hpr : d.expert = true → c.pricing.Small)
    (lines : List (Bytes × Bytes)) (hl : RsvLines pl.blake as t lines) :
    ((run pl d (upload 2 path cs last)).2 = List.replicate (cs.length + 1) (.reply [] 0x9000) ++ [.pending] ↔ c.Presentable pl.fmtTime d.expert) ∧
    (c.Presentable pl.fmtTime d.expert →
      ∃ d' time ttl, (d.expert = true → pl.fmtTime (c.time / 1000) = some time ∧ duration ttl = c.ttl / 1000) ∧
        run pl d (upload 2 path cs last) = (d', List.replicate (cs.length + 1) (.reply [] 0x9000) ++ [.pending]) ∧
        Displays pl d' (c.screens pl.blake payload d.expert n time ttl lines) ∧
        (step pl d' .approve).2 = signatureReply pl path (pl.sha256 (pl.blake payload))) := by
  have hgood : ∀ as', c.args = .named as' → GoodTypes as' := by
    intro as' h' a hm; rw [ha] at h'; cases h'; exact ⟨(hok a hm).aligned, (hok a hm).supported⟩
  have ht : t = 10 ∨ t = 11 := by cases hl <;> simp
  have hfew : lines.length = (if t = 10 then 2 else 3) := by cases hl <;> rfl
  have hreq : ∀ r ∈ opRequired t, ∃ a, argNamed as r.1 = some a ∧ (r.2 = true → a.ty = .u512) := by
    cases hl with
    | add ha =>
      intro r hr
      simp only [opRequired, List.mem_cons, List.not_mem_nil, or_false] at hr
      subst hr
      exact ⟨_, argNamed_take ha.1, by simp⟩
    | cancel hw _ ha =>
      intro r hr
      simp only [opRequired, List.mem_cons, List.not_mem_nil, or_false] at hr
      rcases hr with rfl | rfl
      · exact ⟨_, argNamed_take hw, by simp⟩
      · exact ⟨_, argNamed_take ha.1, by simp⟩
  have hlt : lines.length ≤ 3 := by rw [hfew]; split <;> omega
  have key := upload_says pl hcap d hd path hlen hpath cs last xs hcs hfit hc hgood hpos hpr
    (lines := lines) (by omega) (R := True)
    (fun B v hs g _ => by
      obtain ⟨-, n2, -, -, n5⟩ := g.named as ha
      have hep : v.epType = t := by rw [g.ep, he]; rfl
      refine ⟨?_, by omega, fun _ _ => by omega, fun {i kv} hi o => itemRsv hs.fits hok hn n5 hep (by rw [g.argsOff, u8_id hpos]) (by omega) hl hi o⟩
      rw [htg, he, hfew]
      show 0 + entryItems _ t _ = _
      unfold entryItems
      rcases ht with rfl | rfl <;> simp)
    (fun B v hs g => ⟨fun _ => (sane_iff hs g he (by omega) htg ha hok hn hpos).1 hreq, fun _ => trivial⟩)
  simpa using key

/-- **C84, calls.** The same for calls whose contract and entry point can be shown: no argument is required.  Missing: as in `C83_call_partial`. -/
theorem C84_call_partial (pl : Platform) (hcap : pl.cap ≤ 16384) (d : Dev) (hd : d.Ok pl) (path : Bytes)
    (hlen : path.length = 20) (hpath : casperPath path) (cs : List Bytes) (last xs : Bytes)
    (hcs : cs.flatten ++ last = 1 :: xs) (hfit : (cs.flatten ++ last).length ≤ pl.cap)
    (c : Content) (pos n : Nat) (payload : Bytes) (hc : Says pl.blake c pos n payload xs) (hg : ∀ as, c.args = .named as → GoodTypes as)
    (name : Bytes) (hn : c.entry = .custom name) (hnl : name.length ≤ 99) (hn0 : 0 ∉ name) (ht : c.target.Showable d.expert)
    (hpos : pos < 256) (hsz : ∀ as, c.args = .named as → c.argsSize = c.args.encode.length) (hpr : d.expert = true → c.pricing.Small) :
    ((run pl d (upload 2 path cs last)).2 = List.replicate (cs.length + 1) (.reply [] 0x9000) ++ [.pending] ↔ c.Presentable pl.fmtTime d.expert) ∧
    (c.Presentable pl.fmtTime d.expert →
      ∃ d' time ttl, (d.expert = true → pl.fmtTime (c.time / 1000) = some time ∧ duration ttl = c.ttl / 1000) ∧
        run pl d (upload 2 path cs last) = (d', List.replicate (cs.length + 1) (.reply [] 0x9000) ++ [.pending]) ∧
        Displays pl d' (c.screens pl.blake payload d.expert n time ttl
          (c.target.calledLines d.expert name ++ [(b!"Args hash", checksumHex pl.blake (pl.blake c.args.blob))])) ∧
        (step pl d' .approve).2 = signatureReply pl path (pl.sha256 (pl.blake payload))) := by
  have hle := called_le d.expert c.target name
  have hcnt := called_count ht name
  have hll : (c.target.calledLines d.expert name ++ [(b!"Args hash", checksumHex pl.blake (pl.blake c.args.blob))]).length ≤ 5 := by
    rw [List.length_append]; simp; omega
  have key := upload_says pl hcap d hd path hlen hpath cs last xs hcs hfit hc hg hpos hpr
    (lines := c.target.calledLines d.expert name ++ [(b!"Args hash", checksumHex pl.blake (pl.blake c.args.blob))]) (by omega) (R := True)
    (fun B v hs g hz => by
      refine ⟨by rw [hn, List.length_append, ← hcnt]; rfl, by omega, fun _ _ => by rw [g.ep, hn]; exact Nat.one_ne_zero, fun {i kv} hi o => ?_⟩
      refine seen_called (last := some (b!"Args hash", checksumHex pl.blake (pl.blake c.args.blob))) g hz hn hnl hn0 ht ?_ hi o
      intro kv hkv s'
      cases hkv
      exact seen_argsHash hs g hpos (by have := hc.pos_ge; omega) hsz s')
    (fun B v hs g => ⟨fun _ o => by
      have hep : v.epType = 1 := by rw [g.ep, hn]; rfl
      unfold checkSanity
      rw [if_neg (by simp [hep]), hep]
      exact ⟨o, rfl⟩, fun _ => trivial⟩)
  simpa using key

/-- **C84, programs.** The same for programs run by `call`: any program and any arguments are accepted, and none of them is shown (C61). -/
theorem C84_program_partial (pl : Platform) (hcap : pl.cap ≤ 16384) (d : Dev) (hd : d.Ok pl) (path : Bytes)
    (hlen : path.length = 20) (hpath : casperPath path) (cs : List Bytes) (last xs : Bytes)
    (hcs : cs.flatten ++ last = 1 :: xs) (hfit : (cs.flatten ++ last).length ≤ pl.cap)
    (c : Content) (pos n : Nat) (payload : Bytes) (hc : Says pl.blake c pos n payload xs) (hg : ∀ as, c.args = .named as → GoodTypes as)
    (he : c.entry = .op 0) (install : Bool) (rt : VmRuntime) (code : Bytes) (ht : c.target = .session install rt code)
    (hpos : pos < 256) (hpr : d.expert = true → c.pricing.Small) :
    ((run pl d (upload 2 path cs last)).2 = List.replicate (cs.length + 1) (.reply [] 0x9000) ++ [.pending] ↔ c.Presentable pl.fmtTime d.expert) ∧
    (c.Presentable pl.fmtTime d.expert →
      ∃ d' time ttl, (d.expert = true → pl.fmtTime (c.time / 1000) = some time ∧ duration ttl = c.ttl / 1000) ∧
        run pl d (upload 2 path cs last) = (d', List.replicate (cs.length + 1) (.reply [] 0x9000) ++ [.pending]) ∧
        Displays pl d' (c.screens pl.blake payload d.expert n time ttl []) ∧
        (step pl d' .approve).2 = signatureReply pl path (pl.sha256 (pl.blake payload))) := by
  have key := upload_says pl hcap d hd path hlen hpath cs last xs hcs hfit hc hg hpos hpr
    (lines := []) (by simp) (R := True)
    (fun B v hs g hz => ⟨by rw [he, ht]; rfl, by simp, fun _ h => absurd rfl h, fun {i kv} hi o => by simp at hi⟩)
    (fun B v hs g => ⟨fun _ o => by
      have hep : v.epType = 0 := by rw [g.ep, he]; rfl
      have htt : v.target.typ = 5 := by have := g.target; rw [ht] at this; exact this
      unfold checkSanity
      rw [if_neg (by simp [htt]), hep]
      exact ⟨o, rfl⟩, fun _ => trivial⟩)
  simpa using key

/-- **C84, two layouts.** Two byte sequences that say the same native operation are both accepted or both refused (same conditions). -/
theorem C84_layout_partial (pl : Platform) (hcap : pl.cap ≤ 16384) (d : Dev) (hd : d.Ok pl) (path : Bytes)
    (hlen : path.length = 20) (hpath : casperPath path) (cs cs' : List Bytes) (last last' xs xs' : Bytes)
    (hcs : cs.flatten ++ last = 1 :: xs) (hfit : (cs.flatten ++ last).length ≤ pl.cap)
    (hcs' : cs'.flatten ++ last' = 1 :: xs') (hfit' : (cs'.flatten ++ last').length ≤ pl.cap)
    (c : Content) (pos n pos' n' : Nat) (payload payload' : Bytes) (hc : Says pl.blake c pos n payload xs) (hc' : Says pl.blake c pos' n' payload' xs')
    (t : Nat) (as : List Arg) (he : c.entry = .op t) (hkn : t ∈ [2, 3, 4, 5, 6, 7, 8, 9, 12]) (htg : c.target = .native) (ha : c.args = .named as)
    (hok : ∀ a ∈ as, a.Ok) (hn : noNul as) (hpos : pos < 256) (hpos' : pos' < 256) (hfew : as.length ≤ 119)
    (hslots : t = 3 → as.length ≤ 5 ∨ (argNamed as b!"reserved_slots").isSome) (hpr : d.expert = true → c.pricing.Small)
    (lines : List (Bytes × Bytes)) (hl : List.Forall₂ (ArgLine.Shows pl.blake as) (opLines d.expert as t) lines) :
    (run pl d (upload 2 path cs last)).2.getLast? = some .pending ↔ (run pl d (upload 2 path cs' last')).2.getLast? = some .pending := by
  have key : ∀ cs last xs pos n payload, cs.flatten ++ last = 1 :: xs → (cs.flatten ++ last).length ≤ pl.cap → Says pl.blake c pos n payload xs →
      pos < 256 → ((run pl d (upload 2 path cs last)).2.getLast? = some .pending ↔
      (∀ r ∈ opRequired t, ∃ a, argNamed as r.1 = some a ∧ (r.2 = true → a.ty = .u512)) ∧ c.Presentable pl.fmtTime d.expert) := by
    intro cs last xs pos n payload h1 h2 h3 h4
    rw [← (C84_operation_partial pl hcap d hd path hlen hpath cs last xs h1 h2 c pos n payload h3 t as he hkn htg ha hok hn h4 hfew hslots hpr lines hl).1]
    obtain ⟨d0, e0, -, -, -, -, -, -, -, h5⟩ := upload_reaches pl d hd 2 (.inl rfl) path hlen hpath cs last h2
    rw [h5]
    simp
  rw [key cs last xs pos n payload hcs hfit hc hpos, key cs' last' xs' pos' n' payload' hcs' hfit' hc' hpos']

/-- The sample transfer, its outer table with `k` more entries. -/
def wideTable (k : Nat) : Bytes :=
  looseTable (3 + k) ([0, 32, 32 + sampleTransfer.encode.length] ++ List.replicate k 0) (36 + sampleTransfer.encode.length) ++
    (Blake.H sampleTransfer.encode ++ (sampleTransfer.encode ++ le 4 0))

theorem wideTable_says {k : Nat} (hk : k ≤ 7) : Says Blake.H sampleTransfer.content (sampleTransfer.argsPos + 6 * k) 0 sampleTransfer.encode (wideTable k) := by
  refine ⟨looseTable (3 + k) ([0, 32, 32 + sampleTransfer.encode.length] ++ List.replicate k 0) (36 + sampleTransfer.encode.length), [], [], [],
    sampleTransfer.argsPos - 63, ⟨3 + k, _, _, rfl, ?_, ?_, ?_, ?_, fun _ => by decide +kernel⟩,
    TxPayload.payloadOf sampleTransfer_ok (by decide +kernel), ?_, by simp, rfl, ?_, by simp, .inl rfl⟩
  · simp; omega
  · simp
  · simp; omega
  · intro j hj
    match j, hj with
    | 0, _ => rfl
    | 1, _ => exact congrArg some (by decide +kernel)
    | 2, _ => exact congrArg some (by decide +kernel)
  · have hl : ∀ (i : Nat) (os : List Nat), (entriesFrom i os).length = 6 * os.length := by
      intro i os
      induction os generalizing i with
      | nil => rfl
      | cons o os ih => simp [entriesFrom, ih]; omega
    have : sampleTransfer.argsPos = 227 := by decide +kernel
    rw [this]
    simp [looseTable, hl]
    omega
  · simp [wideTable]

/-- **C84 fails**: the same transfer, with the same payload and the same hash to be signed, is accepted if its outer table has four more entries (which are
ignored), and refused if it has five. -/
theorem C84_layout_false : ∃ c payload, Says Blake.H c 251 0 payload (wideTable 4) ∧ Says Blake.H c 257 0 payload (wideTable 5) ∧
    repliesToV1 (wideTable 4) 1 = [.reply [] 0x9000, .reply [] 0x9000, .pending] ∧
    ∃ text, repliesToV1 (wideTable 5) 1 = [.reply [] 0x9000, .reply [] 0x9000, .reply text 0x6984] := by
  have h : sampleTransfer.argsPos = 227 := by decide +kernel
  refine ⟨sampleTransfer.content, sampleTransfer.encode, ?_, ?_, by decide +kernel, b!"Unexpected buffer end", by decide +kernel⟩
  · have := wideTable_says (k := 4) (by decide); rwa [h] at this
  · have := wideTable_says (k := 5) (by decide); rwa [h] at this

/-- The hypotheses of `C84_operation_partial` can be met, with a table as Casper would not write it: here all required arguments are there. -/
example : Says Blake.H sampleTransfer.content 233 0 sampleTransfer.encode (wideTable 1) ∧
    (∀ r ∈ opRequired 2, ∃ a, argNamed sampleNamed r.1 = some a ∧ (r.2 = true → a.ty = .u512)) ∧
    sampleTransfer.content.Presentable samplePl.fmtTime false := by
  refine ⟨?_, ?_, .inl (by decide +kernel), by simp⟩
  · have h : sampleTransfer.argsPos = 227 := by decide +kernel
    have := wideTable_says (k := 1) (by decide); rwa [h] at this
  · intro r hr
    simp only [opRequired, List.mem_cons, List.not_mem_nil, or_false] at hr
    rcases hr with rfl | rfl | rfl
    · exact ⟨_, rfl, fun _ => rfl⟩
    · exact ⟨_, rfl, by simp⟩
    · exact ⟨_, rfl, by simp⟩

/-- Those of `C84_reservation_partial`: a cancellation for two delegators. -/
example : ∃ lines, RsvLines samplePl.blake (cancelArgs 2) 11 lines :=
  ⟨_, .cancel (v := ⟨b!"validator", 1 :: List.replicate 32 0x22, .publicKey⟩) rfl (.ed25519 (List.replicate 32 0x22) rfl)
    (n := 2) (a := ⟨b!"delegators", encodeList (List.replicate 2 samplePurse), .list .any⟩) ⟨rfl, (List.replicate 2 samplePurse).flatten, rfl⟩⟩

end Casper
