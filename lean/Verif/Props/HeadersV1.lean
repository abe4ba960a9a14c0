import Verif.Props.CanonicalV1
import Verif.Props.Headers
/-
C62, version 1: the header lines of any accepted version 1 transaction.
-/
namespace Casper
open M

theorem looseInit_iff (xs : Bytes) : LooseInit xs ↔ ∃ addr, InitOf addr xs := by
  constructor
  · rintro ⟨fs, rfl | ⟨k, hk, rfl⟩ | ⟨k, hk, rfl⟩ | ⟨k, hk, rfl⟩, h, h'⟩
    · exact ⟨_, 0, .inl ⟨rfl, .inl rfl⟩, h, by simpa using h'⟩
    · exact ⟨_, 0, .inl ⟨rfl, .inr (.inl ⟨k, hk, rfl⟩)⟩, h, by simp at h' ⊢; omega⟩
    · exact ⟨_, 0, .inl ⟨rfl, .inr (.inr ⟨k, hk, rfl⟩)⟩, h, by simp at h' ⊢; omega⟩
    · exact ⟨_, 1, .inr ⟨rfl, hk⟩, h, by simp at h' ⊢; omega⟩
  · rintro ⟨addr, tag, ⟨rfl, rfl | ⟨k, hk, rfl⟩ | ⟨k, hk, rfl⟩⟩ | ⟨rfl, hk⟩, h, h'⟩
    · exact ⟨_, .inl rfl, h, by simpa using h'⟩
    · exact ⟨_, .inr (.inl ⟨k, hk, rfl⟩), h, by simp at h' ⊢; omega⟩
    · exact ⟨_, .inr (.inr (.inl ⟨k, hk, rfl⟩)), h, by simp at h' ⊢; omega⟩
    · exact ⟨_, .inr (.inr (.inr ⟨_, hk, rfl⟩)), h, by simp at h' ⊢; omega⟩

theorem loosePricing_iff (xs : Bytes) : LoosePricing xs ↔ ∃ pm, PricingOf pm xs := by
  constructor
  · rintro ⟨fs, ⟨a, g, b, h1, h2, rfl⟩ | ⟨g, x, h1, h2, rfl⟩ | ⟨r, h1, rfl⟩, h⟩
    · exact ⟨.limited a g (b != 0), _, ⟨h1, h2, b, rfl, rfl⟩, h⟩
    · exact ⟨.fixed g x, _, ⟨h1, h2, rfl⟩, h⟩
    · exact ⟨.prepaid r, _, ⟨h1, rfl⟩, h⟩
  · rintro ⟨pm, fs, h1, h⟩
    cases pm with
    | limited a g st => obtain ⟨h1, h2, b, -, h3⟩ := h1; exact ⟨fs, .inl ⟨a, g, b, h1, h2, h3⟩, h⟩
    | fixed g x => obtain ⟨h1, h2, h3⟩ := h1; exact ⟨fs, .inr (.inl ⟨g, x, h1, h2, h3⟩), h⟩
    | prepaid r => exact ⟨fs, .inr (.inr ⟨r, h1⟩), h⟩

/-- A table found where a table is has its size. -/
theorem Table.size_eq {e : Env} {off : Nat} {m : Meta} (h : Table e off m) {fs : List Bytes} {n : Nat} {w : Bool} {t : Bytes} (ht : Heads fs n w t)
    (ha : At e.buf off t) : m.size = t.length := by
  obtain ⟨count, os, size, rfl, h1, -, -, -⟩ := ht
  obtain ⟨k, hk, hn⟩ := h.count
  rw [looseTable, List.append_assoc, At.append] at ha
  have h2 := hk.unique ha.1 (by simp)
  rw [looseTable_length, h.size, hn, ← h1]
  have h3 : (le 4 k).head? = (le 4 count).head? := by rw [h2]
  rw [show (le 4 k).head? = some (UInt8.ofNat (k % 256)) from rfl, show (le 4 count).head? = some (UInt8.ofNat (count % 256)) from rfl,
    Option.some.injEq] at h3
  have h4 := congrArg UInt8.toNat h3
  rw [UInt8.toNat_ofNat', UInt8.toNat_ofNat'] at h4
  unfold u8
  omega

/-- Where the header's values are (from the address on), and what the parser remembers of it. -/
structure HeadView (buf : Bytes) (v : V1) (B : Nat) (addr : Bytes) (time ttl : Nat) (chain : Bytes) (pfs : List Bytes) : Prop where
  base : v.md.size + v.md.fo 1 + v.pmd.size + v.header.initMd + 1 = B
  initLen : v.header.initLen = addr.length
  chainLen : v.header.chainLen = u8 chain.length
  items : v.header.pmItems = 2
  hinit : At buf B addr
  htime : At buf (B + addr.length) (le 8 time)
  httl : At buf (B + addr.length + 8) (le 8 ttl)
  hchain : At buf (B + addr.length + 8 + 8 + 4) chain
  hprice : At buf (B + addr.length + 8 + 8 + 4 + chain.length + v.header.pmMd) pfs.flatten
  mode : ∃ b rest, pfs = [b] :: rest ∧ UInt8.ofNat v.header.pmode = b ∧ v.header.pmode ≤ 2

/-- The header of an accepted transaction. -/
theorem V1Facts.view {e : Env} (hs : Small e) {v : V1} (h : V1Facts e v) {tb hash ptb init pricing : Bytes} {f1 f2 pfs : List Bytes} {n1 n2 : Nat}
    {w1 w2 : Bool} {addr chain : Bytes} {time ttl : Nat}
    (ha : At e.buf 0 (tb ++ (hash ++ (ptb ++ (init ++ (le 8 time ++ (le 8 ttl ++ (pfx chain ++ pricing)))))))) (hh : hash.length = 32)
    (h1 : Heads f1 n1 w1 tb) (h2 : Heads f2 n2 w2 ptb) (hi : InitOf addr init) {n3 : Nat} {w3 : Bool} (hp : LooseAs n3 w3 pfs pricing)
    (hne : ∃ b rest, pfs = [b] :: rest) :
    HeadView e.buf v (tb.length + 32 + ptb.length + 21) addr time ttl chain pfs := by
  unfold Small at hs
  obtain ⟨tag, hk, ⟨it, i1, rfl⟩, -⟩ := hi
  obtain ⟨qt, q1, rfl⟩ := hp
  obtain ⟨b, rest, hb⟩ := hne
  have hall := ha.le
  simp only [List.flatten_cons, List.flatten_nil, List.append_nil, pfx, At.append, le_length, hh, Nat.zero_add] at ha
  simp only [List.length_append, le_length, pfx_length, List.flatten_cons, List.flatten_nil, List.length_singleton, List.length_nil] at hall
  obtain ⟨a1, -, a2, ⟨a3, a4, a5⟩, a6, a7, ⟨a8, a9⟩, a10, a11⟩ := ha
  have s1 := h.table.size_eq h1 a1
  obtain ⟨fin, k, ⟨c1, ⟨m, tag', c2, c3, c4, c5⟩, -, len, c6, c7, -, c8, ⟨m', c9, c10, c11, c12, -⟩, c13⟩, -, -⟩ := h.body
  have hpt := h.ptable
  rw [s1] at hpt c2 c4 c5 c6 c9 c11
  have s2 := hpt.size_eq h2 a2
  rw [s2] at c2 c4 c5 c6 c9 c11
  have s3 := c2.size_eq i1 a3
  have s4 := c2.size
  have s5 : it.length = 20 := by omega
  rw [s5] at a4 a5
  have ht : tag' = tag := by
    have := c4.unique a4 (by simp)
    simpa using this
  subst ht
  have hlen : v.header.initLen = addr.length := by
    rcases c5 with ⟨rfl, d1⟩ | ⟨rfl, kb, d2, d3⟩
    · rcases hk with ⟨h0, -⟩ | ⟨-, h0⟩
      · cases h0
      · omega
    · rcases hk with ⟨-, hk⟩ | ⟨h0, -⟩
      swap
      · cases h0
      have hkb : ∀ x ys, addr = x :: ys → kb = x := by
        rintro x ys rfl
        have := d2.unique ((At.cons.1 a5).1.cast (by simp)) (by simp)
        simpa using this
      rcases hk with rfl | ⟨k, hk, rfl⟩ | ⟨k, hk, rfl⟩
      all_goals
        have := hkb _ _ rfl
        subst this
        simp at d3
        simp only [List.length_cons, List.length_nil]
        omega
  have hl2 : len = chain.length := by
    refine c6.le_inj (a8.cast ?_) c7 (by omega)
    rw [hlen]; simp only [List.length_append, List.length_singleton]; omega
  subst hl2
  have hu : u32 (tb.length + 32 + ptb.length + 21 + v.header.initLen + 20 + chain.length) =
      tb.length + 32 + ptb.length + 21 + addr.length + 20 + chain.length := by
    rw [hlen]
    unfold u32; omega
  rw [hu] at c9 c11
  have s6 := c9.size_eq q1 (a10.cast (by simp only [List.length_append, List.length_singleton, le_length]; omega))
  refine ⟨?_, hlen, c8, c13, a5.cast (by simp), a6.cast (by simp only [List.length_append, List.length_singleton]; omega),
    a7.cast (by simp only [List.length_append, List.length_singleton]; omega), a9.cast (by simp only [List.length_append, List.length_singleton]; omega),
    a11.cast (by simp only [List.length_append, List.length_singleton, le_length]; omega), b, rest, hb, ?_, by omega⟩
  · rw [s1, s2, h.fo1, c1]
  · rw [hb, List.flatten_cons, At.append] at a11
    have := c11.unique (a11.1.cast (by simp only [List.length_append, List.length_singleton, le_length]; omega)) (by simp)
    simpa using this

section
variable {e : Env} {v : V1} {B : Nat} {addr chain : Bytes} {time ttl : Nat} {pfs : List Bytes} (h : HeadView e.buf v B addr time ttl chain pfs) (hs : Small e)

include h hs in
theorem HeadView.chainLine (hc : chain.length < 256) (hn : 2 < v.numItems) (hok : ∃ kv c, getItemV1 e v 2 0 = .ok kv c) (s : Nat) :
    ∃ c, getItemV1 e v 2 s = .ok (b!"Chain ID", chain.takeWhile (· != 0)) c := by
  have key : ∀ s, getItemV1 e v 2 s = Res.bind (displayString e (B + addr.length + 8 + 8 + 4) chain.length (B + addr.length + 8 + 8 + 4))
      (fun v => (pure (b!"Chain ID", v) : P (Bytes × Bytes))) := by
    intro s
    unfold getItemV1
    rw [if_neg (by omega)]
    dsimp only
    rw [if_neg (by decide), if_neg (by decide), if_pos rfl]
    refine seqThen (indexV_at hs h.hchain (by simp only [vIndex, h.base, h.initLen]) s) (seqThen (get_run _) ?_)
    rw [h.chainLen, u8_id hc]
    rfl
  obtain ⟨kv, c, hk⟩ := hok
  rw [key] at hk ⊢
  unfold displayString at hk ⊢
  split at hk
  · cases hk
  rename_i hle
  rw [if_neg hle]
  rw [bind_run, slice_at h.hchain rfl] at hk ⊢
  by_cases hc' : chain.length < 100 ∨ chain.contains 0 = true
  · refine ⟨B + addr.length + 8 + 8 + 4, ?_⟩
    simp only [Res.bind]
    unfold showArray
    rw [if_pos hc']
    rfl
  · simp only [Res.bind] at hk
    unfold showArray at hk
    rw [if_neg hc'] at hk
    cases hk

include h hs in
theorem HeadView.accountLine (ha : addr.length ≤ 49) (hn : 3 < v.numItems) (s : Nat) :
    ∃ c, getItemV1 e v 3 s = .ok (b!"Account", checksumHex e.blake addr) c := by
  unfold getItemV1
  rw [if_neg (by omega)]
  dsimp only
  rw [if_neg (by decide), if_neg (by decide), if_neg (by decide), if_pos rfl]
  refine exThen (indexV_at hs h.hinit (by simp only [vIndex, h.base]) s) ?_
  refine exThen (get_run _) (exThen (t := B) (a := checksumHex e.blake addr) ?_ ⟨_, rfl⟩)
  rw [h.initLen]
  exact printBytes_at h.hinit ha

include h hs in
theorem HeadView.timeLine (hx : e.expert = true) (ht : time < 2 ^ 64) (hn : 4 < v.numItems) (hok : ∃ kv c, getItemV1 e v 4 0 = .ok kv c) :
    ∃ t, e.fmtTime (time / 1000) = some t ∧ ∀ s, ∃ c, getItemV1 e v 4 s = .ok (b!"Timestamp", t) c := by
  have key : ∀ s, getItemV1 e v 4 s = (match e.fmtTime (time / 1000) with
        | none => (fail eUnexpectedError : P (Bytes × Bytes))
        | some t => pure (b!"Timestamp", t)) (B + addr.length + 8) := by
    intro s
    unfold getItemV1
    rw [if_neg (by omega)]
    dsimp only
    rw [if_neg (by decide), if_neg (by decide), if_neg (by decide), if_neg (by decide), if_pos hx, if_pos rfl]
    exact seqThen (indexV_at hs h.htime (by simp only [vIndex, h.base, h.initLen]) s) (seqThen (readLE_at h.htime (by omega)) rfl)
  obtain ⟨kv, c, hk⟩ := hok
  rw [key] at hk
  cases hf : e.fmtTime (time / 1000) with
  | none => rw [hf] at hk; cases hk
  | some t => exact ⟨t, rfl, fun s => by rw [key, hf]; exact ⟨_, rfl⟩⟩

include h hs in
theorem HeadView.ttlLine (hx : e.expert = true) (ht : ttl < 2 ^ 64) (hn : 5 < v.numItems) (hok : ∃ kv c, getItemV1 e v 5 0 = .ok kv c) :
    ∃ t, duration t = ttl / 1000 ∧ ∀ s, ∃ c, getItemV1 e v 5 s = .ok (b!"Ttl", t) c := by
  have key : ∀ s, getItemV1 e v 5 s = Res.bind (ttlText (ttl / 1000) 100 (B + addr.length + 8 + 8))
      (fun t => (pure (b!"Ttl", t) : P (Bytes × Bytes))) := by
    intro s
    unfold getItemV1
    rw [if_neg (by omega)]
    dsimp only
    rw [if_neg (by decide), if_neg (by decide), if_neg (by decide), if_neg (by decide), if_pos hx, if_neg (by decide), if_pos rfl]
    exact seqThen (indexV_at hs h.httl (by simp only [vIndex, h.base, h.initLen]) s) (seqThen (readLE_at h.httl (by omega)) rfl)
  obtain ⟨c1, c2⟩ := C19_ttl (ttl / 1000) 100 (by decide) (B + addr.length + 8 + 8)
  obtain ⟨kv, c, hk⟩ := hok
  rw [key] at hk
  have htt : ttl / 1000 < 29 * 86400 := by
    by_contra hge
    rw [c2 (by omega)] at hk
    cases hk
  obtain ⟨t, g1, g2, -⟩ := c1 htt
  exact ⟨t, g2, fun s => by rw [key, g1]; exact ⟨_, rfl⟩⟩

end

/-- The lines of the pricing mode. -/
theorem HeadView.priceLine {e : Env} {v : V1} {B : Nat} {addr chain : Bytes} {time ttl : Nat} {pm : Pricing} {pfs : List Bytes}
    (h : HeadView e.buf v B addr time ttl chain pfs) (hs : Small e) (hx : e.expert = true)
    (hp : PricingFields pfs pm)
    (hb : pm.Small) (hc : chain.length < 256) {i : Nat} {kv : Bytes × Bytes}
    (hi : (pm.lines e.blake)[i]? = some kv) (hn : 6 + i < v.numItems) (s : Nat) : ∃ c, getItemV1 e v (6 + i) s = .ok kv c := by
  have hlen : (pm.lines e.blake).length = 2 := by cases pm <;> rfl
  have hi2 : i < 2 := by
    rw [← hlen]; exact (List.getElem?_eq_some_iff.1 hi).1
  unfold getItemV1
  rw [if_neg (by omega)]
  dsimp only
  rw [if_neg (by omega), if_neg (by omega), if_neg (by omega), if_neg (by omega), if_pos hx, if_neg (by omega),
    if_neg (by omega), if_pos (by rw [h.items]; show 6 + i < 6 + 2; omega), show 6 + i - 6 = i by omega]
  have hcl : v.header.chainLen = chain.length := by rw [h.chainLen]; exact u8_id hc
  obtain ⟨mb, mrest, m1, m2, m3⟩ := h.mode
  have hpr := h.hprice
  have ix : vIndex v .pricing = u16 (B + addr.length + 8 + 8 + 4 + chain.length + v.header.pmMd + 1) := by
    simp only [vIndex, h.base, h.initLen, hcl]
  have ig : vIndex v .gasprice = u16 (B + addr.length + 8 + 8 + 4 + chain.length + v.header.pmMd + 1 +
      if v.header.pmode = 0 then 8 else 0) := by
    simp only [vIndex, h.base, h.initLen, hcl]
  have hmode : ∀ k : Nat, k ≤ 2 → UInt8.ofNat k = mb → v.header.pmode = k := by
    intro k k1 k2
    have := congrArg UInt8.toNat (m2.trans k2.symm)
    rw [UInt8.toNat_ofNat', UInt8.toNat_ofNat'] at this
    omega
  generalize hB : B + addr.length + 8 + 8 + 4 + chain.length + v.header.pmMd = P at *
  cases pm with
  | limited amount gas st =>
    obtain ⟨p1, p2, std, -, rfl⟩ := hp
    have hm : v.header.pmode = 0 := hmode 0 (by omega) (by simp only [List.cons.injEq, and_true] at m1; exact m1.1)
    rw [hm] at ig
    simp only [List.flatten_cons, List.flatten_nil, At.append, le_length] at hpr
    match i, hi with
    | 0, hi =>
      simp only [Pricing.lines, List.getElem?_cons_zero, Option.some.injEq] at hi
      subst hi
      refine itemPricing_run ?_
      unfold pricingValue
      rw [if_pos rfl, if_pos hm]
      refine exThen (indexV_at hs hpr.2.1 ix s) (exThen (readLE_at hpr.2.1 (by omega)) ⟨_, paymentText_run _ _ hb⟩)
    | 1, hi =>
      simp only [Pricing.lines, List.getElem?_cons_zero, List.getElem?_cons_succ, Option.some.injEq] at hi
      subst hi
      have : pricingKey v 1 = b!"Max gs prce" := by unfold pricingKey; rw [if_neg (by decide), if_pos (.inl hm)]
      rw [← this]
      refine itemPricing_run ?_
      unfold pricingValue
      rw [if_neg (by decide), if_pos (.inl hm)]
      refine exThen (indexV_at hs hpr.2.2.1 ig s) (exThen (readByte_at hpr.2.2.1 p2) ⟨_, (?_ : _ = Res.ok (decText gas) (P + 1 + 8 + 1))⟩)
      unfold numStr
      have := decText_length gas 3 (by decide) (by omega)
      rw [decimal_eq, if_pos (by omega)]; rfl
    | i + 2, hi => simp [Pricing.lines] at hi
  | fixed gas ex =>
    obtain ⟨p1, p2, rfl⟩ := hp
    have hm : v.header.pmode = 1 := hmode 1 (by omega) (by simp only [List.cons.injEq, and_true] at m1; exact m1.1)
    rw [hm] at ig
    simp only [List.flatten_cons, List.flatten_nil, At.append, le_length] at hpr
    match i, hi with
    | 0, hi =>
      simp only [Pricing.lines, List.getElem?_cons_zero, Option.some.injEq] at hi
      subst hi
      refine itemPricing_run ?_
      unfold pricingValue
      rw [if_pos rfl, if_neg (by rw [hm]; decide), if_pos hm]
      exact ⟨_, rfl⟩
    | 1, hi =>
      simp only [Pricing.lines, List.getElem?_cons_zero, List.getElem?_cons_succ, Option.some.injEq] at hi
      subst hi
      have : pricingKey v 1 = b!"Max gs prce" := by unfold pricingKey; rw [if_neg (by decide), if_pos (.inr hm)]
      rw [← this]
      refine itemPricing_run ?_
      unfold pricingValue
      rw [if_neg (by decide), if_pos (.inr hm)]
      refine exThen (indexV_at hs hpr.2.1 ig s) (exThen (readByte_at hpr.2.1 p1) ⟨_, (?_ : _ = Res.ok (decText gas) (P + 1 + 1))⟩)
      unfold numStr
      have := decText_length gas 3 (by decide) (by omega)
      rw [decimal_eq, if_pos (by omega)]; rfl
    | i + 2, hi => simp [Pricing.lines] at hi
  | prepaid r =>
    obtain ⟨hr, rfl⟩ := hp
    have hm : v.header.pmode = 2 := hmode 2 (by omega) (by simp only [List.cons.injEq, and_true] at m1; exact m1.1)
    simp only [List.flatten_cons, List.flatten_nil, At.append] at hpr
    match i, hi with
    | 0, hi =>
      simp only [Pricing.lines, List.getElem?_cons_zero, Option.some.injEq] at hi
      subst hi
      refine itemPricing_run ?_
      unfold pricingValue
      rw [if_pos rfl, if_neg (by rw [hm]; decide), if_neg (by rw [hm]; decide), if_pos hm]
      exact ⟨_, rfl⟩
    | 1, hi =>
      simp only [Pricing.lines, List.getElem?_cons_zero, List.getElem?_cons_succ, Option.some.injEq] at hi
      subst hi
      have : pricingKey v 1 = b!"Receipt" := by
        unfold pricingKey; rw [if_neg (by decide), if_neg (by rw [hm]; decide)]
      rw [← this]
      refine itemPricing_run ?_
      unfold pricingValue
      rw [if_neg (by decide), if_neg (by rw [hm]; decide)]
      have := printBytes_at (s := P + 1) hpr.2.1 (by omega)
      rw [hr] at this
      exact exThen (indexV_at hs hpr.2.1 ix s) (exThen (get_run _) ⟨_, this⟩)
    | i + 2, hi => simp [Pricing.lines] at hi

/-- **C62, all accepted version 1 transactions.** Where the received data hold the header of a version 1 transaction (C82: accepted data do), those of
the first eight lines that the review has show this header: the chain name up to its first zero byte, the initiator, and in expert mode the timestamp as
the platform writes it, the time to live in seconds, and the pricing mode.  Chain names must be shorter than 256 bytes (see C53), exact payments have at
most 19 digits (see C43). -/
theorem C62_v1_accepted_partial (pl : Platform) (hcap : pl.cap ≤ 16384) (d d' : Dev) (hd : d.Ok pl) (rx : Bytes)
    (pin : Bool) (hins : rx.getD 1 0 = 2) (xs : Bytes) (hx : d.data ++ rx.drop 5 = 1 :: xs) (h : step pl d (.apdu rx pin) = (d', .pending))
    (tb hash ptb init addr chain pricing more : Bytes) (time ttl : Nat) (pm : Pricing) (f1 f2 : List Bytes) (n1 n2 : Nat) (w1 w2 : Bool)
    (hxs : xs = tb ++ (hash ++ (ptb ++ ([init, le 8 time, le 8 ttl, pfx chain, pricing].flatten ++ more))))
    (h1 : Heads f1 n1 w1 tb) (hh : hash.length = 32) (h2 : Heads f2 n2 w2 ptb) (hi : InitOf addr init) (ht : time < 2 ^ 64) (hl : ttl < 2 ^ 64)
    (hp : PricingOf pm pricing) (n o : Nat) (hn : reviewCount pl d' .tx 0 = .ok n o) :
    (2 < n → chain.length < 256 → ∀ s, ∃ c, reviewItem pl d' .tx 2 s = .ok (b!"Chain ID", chain.takeWhile (· != 0)) c) ∧
    (3 < n → ∀ s, ∃ c, reviewItem pl d' .tx 3 s = .ok (b!"Account", checksumHex pl.blake addr) c) ∧
    (d.expert = true →
      (4 < n → ∃ text, pl.fmtTime (time / 1000) = some text ∧ ∀ s, ∃ c, reviewItem pl d' .tx 4 s = .ok (b!"Timestamp", text) c) ∧
      (5 < n → ∃ text, duration text = ttl / 1000 ∧ ∀ s, ∃ c, reviewItem pl d' .tx 5 s = .ok (b!"Ttl", text) c) ∧
      ∀ i kv, 6 + i < n → chain.length < 256 → pm.Small → (pm.lines pl.blake)[i]? = some kv →
        ∀ s, ∃ c, reviewItem pl d' .tx (6 + i) s = .ok kv c) := by
  obtain ⟨hok, hdata, hcase⟩ := sign_pending (by omega) hd hins h
  rw [hx] at hcase hdata
  rcases hcase with ⟨ys, s, g1, -, -⟩ | ⟨ys, s, g1, g2, rfl⟩
  · simp at g1
  simp only [List.cons.injEq, true_and] at g1
  subst g1
  have hsm : Small (mkEnv pl d.expert xs) := small_data hcap hok hdata d.expert
  have hf := readV1_post hsm _ _ g2.parse
  rw [reviewCount_v1] at hn
  simp only [Res.ok.injEq] at hn
  obtain ⟨hn, -⟩ := hn
  subst hn
  obtain ⟨pfs, hpf, hpl⟩ := hp
  have hat : At (mkEnv pl d.expert xs).buf 0 (tb ++ (hash ++ (ptb ++ (init ++ (le 8 time ++ (le 8 ttl ++ (pfx chain ++ pricing))))))) :=
    ⟨[], more, by show xs = _; rw [hxs]; simp, rfl⟩
  have hne : ∃ b rest, pfs = [b] :: rest := by
    cases pm with
    | limited a g st => obtain ⟨-, -, b, -, rfl⟩ := hpf; exact ⟨_, _, rfl⟩
    | fixed g x => obtain ⟨-, -, rfl⟩ := hpf; exact ⟨_, _, rfl⟩
    | prepaid r => obtain ⟨-, rfl⟩ := hpf; exact ⟨_, _, rfl⟩
  have hal : addr.length ≤ 49 := by
    obtain ⟨_, ⟨-, rfl | ⟨k, hk, rfl⟩ | ⟨k, hk, rfl⟩⟩ | ⟨-, hk⟩, -⟩ := hi <;> (try rw [List.length_cons]) <;> first | omega | decide
  have hv := hf.view hsm hat hh h1 h2 hi hpl hne
  have item : ∀ i t, i < 8 → i < s.v.numItems →
      reviewItem pl { (d.loaded rx).tookV1 s with review := some .tx } .tx i t = getItemV1 (mkEnv pl d.expert xs) s.v i t := by
    intro i t i1 i2
    rw [reviewItem_v1 hok hdata, u8_id (by omega), show (d.loaded rx).expert = d.expert from rfl, if_neg (by omega)]
  refine ⟨fun h3 hc t => ?_, fun h3 t => ?_, fun hx => ⟨fun h3 => ?_, fun h3 => ?_, fun i kv h3 hc hb hi t => ?_⟩⟩
  · rw [item 2 t (by omega) h3]; exact hv.chainLine hsm hc h3 (g2.items 2 h3) t
  · rw [item 3 t (by omega) h3]; exact hv.accountLine hsm hal h3 t
  · obtain ⟨t, t1, t2⟩ := hv.timeLine hsm hx ht h3 (g2.items 4 h3)
    exact ⟨t, t1, fun s' => by rw [item 4 s' (by omega) h3]; exact t2 s'⟩
  · obtain ⟨t, t1, t2⟩ := hv.ttlLine hsm hx hl h3 (g2.items 5 h3)
    exact ⟨t, t1, fun s' => by rw [item 5 s' (by omega) h3]; exact t2 s'⟩
  · have hlen : (pm.lines pl.blake).length = 2 := by cases pm <;> rfl
    have hi2 : i < 2 := by rw [← hlen]; exact (List.getElem?_eq_some_iff.1 hi).1
    rw [item (6 + i) t (by omega) h3]
    exact hv.priceLine hsm hx hpf hb hc hi h3 t

/-- **C62, version 1: there is a header.** Data of any accepted version 1 transaction hold a header as `C62_v1_accepted_partial` describes; what is hashed
begins with it, and the hash of what is signed precedes it.  Provided no 32-bit number in the data is 2^32 - 65536 or more (see C49). -/
theorem C62_v1_header_partial (pl : Platform) (hcap : pl.cap ≤ 16384) (d d' : Dev) (hd : d.Ok pl) (rx : Bytes)
    (pin : Bool) (hins : rx.getD 1 0 = 2) (xs : Bytes) (hx : d.data ++ rx.drop 5 = 1 :: xs) (h : step pl d (.apdu rx pin) = (d', .pending))
    (hh : ∀ i m, At xs i (le 4 m) → m < 4294967296 → m < 4294967296 - 65536) :
    ∃ tb payload ptb init addr chain pricing more rest time ttl pm f1 fs, xs = tb ++ (pl.blake payload ++ (payload ++ rest)) ∧
      payload ++ rest = ptb ++ ([init, le 8 time, le 8 ttl, pfx chain, pricing].flatten ++ more) ∧
      Heads f1 3 false tb ∧ Heads fs 5 false ptb ∧ InitOf addr init ∧ time < 2 ^ 64 ∧ ttl < 2 ^ 64 ∧ PricingOf pm pricing := by
  obtain ⟨hok, hdata, hcase⟩ := sign_pending (by omega) hd hins h
  rw [hx] at hcase hdata
  rcases hcase with ⟨ys, s, g1, -, -⟩ | ⟨ys, s, g1, g2, rfl⟩
  · simp at g1
  simp only [List.cons.injEq, true_and] at g1
  subst g1
  have hs : Small (mkEnv pl d.expert xs) := small_data hcap hok hdata d.expert
  have hp : Plain (mkEnv pl d.expert xs) 0 := ⟨hs.to_fits, fun ⟨i, m, _, g1, g2, g3⟩ => absurd (hh i m g1 g3) (by omega)⟩
  obtain ⟨hf, env, hash, payload, rest0, b1, b2, b3, b4, b5⟩ := g2.split hs
  have b1' : xs = env ++ hash ++ payload ++ rest0 := b1
  have b5' : pl.blake payload = hash := b5
  have hpl : (env ++ hash).length = s.v.md.size + 32 := by rw [List.length_append, b2, b3]
  have hhd : ∃ fs ptb, LooseHeader fs ∧ (∃ gs, Heads gs 5 false ptb) ∧ At (mkEnv pl d.expert xs).buf (s.v.md.size + 32) (ptb ++ fs.flatten) := by
    obtain ⟨-, ⟨fs, ptb, c1, c2, c3, -⟩ | ⟨ys, a, c1, c2, c3, fs, body, c4, c5, tb, c6, rfl⟩⟩ := readV1_spans hs hp _ _ g2.parse
    · obtain ⟨q1, q2, q3, q4, q5, q6, q7, q8, q9⟩ := c2
      exact ⟨fs, ptb, c1, ⟨fs, q1, q2, q3, q4, q5, q6, q7, fun j hj => q8 j (by omega), fun h => by cases h⟩, c3⟩
    · obtain ⟨q1, q2, q3, q4, q5, q6, q7, q8, q9⟩ := c6
      refine ⟨fs, tb, c4, ⟨_, q1, q2, q3, q4, q5, q6, q7, fun j hj => q8 j (by omega), fun h => by cases h⟩, ?_⟩
      rw [List.flatten_append, ← List.append_assoc, At.append] at c2
      exact c2.1
  obtain ⟨fs, ptb, ⟨init, time, ttl, chain, pricing, e1, e2, e3, e4, rfl⟩, ⟨gs, hg⟩, hat⟩ := hhd
  obtain ⟨addr, e1⟩ := (looseInit_iff _).1 e1
  obtain ⟨pm, e4⟩ := (loosePricing_iff _).1 e4
  have hxx : (mkEnv pl d.expert xs).buf = (env ++ hash) ++ (payload ++ rest0) := by rw [b1]; simp
  obtain ⟨more, hm⟩ := at_prefix hxx (by rw [hpl]; exact hat)
  obtain ⟨f1, t, t1, t2, t3⟩ : ∃ f1 : List Bytes, ∃ t, At (mkEnv pl d.expert xs).buf 0 t ∧ t.length = s.v.md.size ∧ Heads f1 3 false t := by
    refine ⟨[hash, payload], hf.table.heads (fun j hj => ?_) (fun j h0 hj => ?_) (fun h => by cases h)⟩
    · match j, hj with
      | 0, _ => exact hf.fo0
      | 1, _ => rw [hf.fo1]; simp [startOf, b3]
      | 2, _ => rw [hf.fo2]; simp [startOf, b3]; omega
    · match j, h0, hj with
      | 1, _, _ => simp [startOf, b3]
      | 2, _, _ => simp [startOf, b3]
  obtain rfl : t = env := t1.unique ⟨[], hash ++ payload ++ rest0, by rw [b1]; simp, rfl⟩ (by omega)
  exact ⟨t, payload, ptb, init, addr, chain, pricing, more, rest0, time, ttl, pm, f1, gs, by rw [b5', b1']; simp, by rw [hm]; simp, t3, hg, e1, e2, e3, e4⟩

/-- The hypotheses can be met in expert mode, by data that are not a serialized transaction: the outer table claims 259 fields. -/
example : (run samplePl { Dev.init samplePl with expert := true } (sampleUpload (1 :: manyFields) 1)).2.getLast? = some .pending ∧ noHuge manyFields = true ∧
    ∃ tb hash ptb more, manyFields = tb ++ (hash ++ (ptb ++ ([sampleTransfer.initiator.encode, le 8 sampleTransfer.timestamp, le 8 sampleTransfer.ttl,
      pfx sampleTransfer.chain, sampleTransfer.pricing.encode].flatten ++ more))) ∧ hash.length = 32 ∧ tb.length = 26 ∧ ptb.length = 44 ∧
      InitOf sampleTransfer.initiator.addr sampleTransfer.initiator.encode :=
  ⟨by decide +kernel, by decide +kernel, manyFields.take 26, (manyFields.drop 26).take 32, (manyFields.drop 58).take 44, manyFields.drop (58 + (sampleTransfer.encode.length - sampleTransfer.body.length)),
    by decide +kernel, by decide +kernel, by decide +kernel, by decide +kernel,
    0, .inl ⟨rfl, .inr (.inr ⟨List.replicate 33 0xab, by decide, rfl⟩)⟩, callTable_loose (by decide) (by decide) (by decide) (by decide), by decide⟩

end Casper
