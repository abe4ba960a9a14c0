import Verif.Lib.EndToEnd
import Verif.Lib.V1Fwd
import Verif.Spec.Screens
/-
What is shown of a well-formed version 1 transaction.
-/
namespace Casper
open M

section
variable {p : TxPayload} {H : Bytes → Bytes} {ap : List Bytes} {e : Env}

/-- The number of lines shown for target and entry point. -/
def TxPayload.opCount (p : TxPayload) (e : Env) : Nat :=
  p.target.items e.expert + entryItems e p.entry.tag (match p.args with | .named as => as.length | .bytes _ => 0)

theorem result_md : (p.result H ap e).md = metaOf (p.txFields H ap) := by
  cases p with | mk i t l c pr a tg en => cases en <;> cases a <;> rfl
theorem result_pmd : (p.result H ap e).pmd = metaOf p.fields := by
  cases p with | mk i t l c pr a tg en => cases en <;> cases a <;> rfl
theorem result_header : (p.result H ap e).header = p.header := by
  cases p with | mk i t l c pr a tg en => cases en <;> cases a <;> rfl
theorem result_ep : (p.result H ap e).epType = p.entry.tag := by
  cases p with | mk i t l c pr a tg en => cases en <;> cases a <;> rfl
theorem result_approvals : (p.result H ap e).numApprovals = u8 ap.length := by
  cases p with | mk i t l c pr a tg en => cases en <;> cases a <;> rfl
theorem result_target (hH : (H p.encode).length = 32) : (p.result H ap e).target =
    p.target.view (26 + 32 + 44 + (p.fields.take 5).flatten.length + 16 + p.args.encode.length) := by
  have h1 : (metaOf (p.txFields H ap)).fo 1 = 32 := by simp [TxPayload.txFields, metaOf, Meta.fo, fill, hH]
  cases p with | mk i t l c pr a tg en =>
  cases en <;> cases a <;>
    simp only [TxPayload.result, TxPayload.view, TxPayload.bodyView, V1Entry.view, V1Args.view, payloadFirst,
      TxPayload.start, h1] <;> rfl
theorem result_items : (p.result H ap e).numItems = u8 ((if e.expert then 9 else 4) + p.opCount e) := by
  cases p with | mk i t l c pr a tg en =>
  cases en <;> cases a <;>
    simp only [TxPayload.result, TxPayload.view, TxPayload.bodyView, V1Entry.view, V1Args.view,
      TxPayload.start, TxPayload.opCount, V1Entry.tag, u8] <;> split <;> omega
theorem take5_length : (p.fields.take 5).flatten.length =
    p.initiator.encode.length + 8 + 8 + (4 + p.chain.length) + p.pricing.encode.length := by
  simp [TxPayload.fields]; omega
theorem result_argsOff (hH : (H p.encode).length = 32) : (p.result H ap e).argsOff = u8 p.argsPos := by
  have h1 : (metaOf (p.txFields H ap)).fo 1 = 32 := by simp [TxPayload.txFields, metaOf, Meta.fo, fill, hH]
  have h2 := take5_length (p := p)
  cases p with | mk i t l c pr a tg en =>
  cases en <;> cases a <;>
    simp only [TxPayload.result, TxPayload.view, TxPayload.bodyView, V1Entry.view, V1Args.view, payloadFirst,
      TxPayload.start, h1, h2, TxPayload.argsPos] <;>
    simp [metaOf, TxPayload.txFields, TxPayload.fields] <;> congr 1 <;> omega
theorem result_numArgs {as : List Arg} (ha : p.args = .named as) : (p.result H ap e).numArgs = as.length := by
  cases p with | mk i t l c pr a tg en =>
  subst ha
  cases en <;> rfl

end

/-- Where the parts of a transaction are. -/
structure TxLayout (p : TxPayload) (H : Bytes → Bytes) (ap : List Bytes) (buf : Bytes) : Prop where
  hash : At buf 26 (H p.encode)
  payload : At buf 58 p.encode
  initiator : At buf 123 p.initiator.addr
  timestamp : At buf (123 + p.initiator.addr.length) (le 8 p.timestamp)
  ttl : At buf (123 + p.initiator.addr.length + 8) (le 8 p.ttl)
  chainLen : At buf (123 + p.initiator.addr.length + 8 + 8) (le 4 p.chain.length)
  chain : At buf (123 + p.initiator.addr.length + 8 + 8 + 4) p.chain
  pricing : At buf (123 + p.initiator.addr.length + 8 + 8 + 4 + p.chain.length + (8 + 6 * p.pricing.fields.length))
    p.pricing.fields.flatten
  body : At buf (p.argsPos - 15) p.body

theorem Initiator.encode_length (a : Initiator) : a.encode.length = 21 + a.addr.length := by
  rw [a.encode_eq, callTable_length]; simp; omega

theorem tx_layout {p : TxPayload} {H : Bytes → Bytes} {ap : List Bytes} {buf : Bytes} (hH : (H p.encode).length = 32)
    (h : At buf 0 (p.tx H ap)) : TxLayout p H ap buf := by
  rw [p.tx_eq] at h
  have h1 := callTable_fields h
  have hn : (p.txFields H ap).length = 3 := rfl
  rw [hn] at h1
  simp only [TxPayload.txFields, List.flatten_cons, List.flatten_nil, List.append_nil] at h1
  rw [At.append, At.append, hH] at h1
  obtain ⟨h1, h2, h3⟩ := h1
  have h4 := callTable_fields (show At buf 58 (callTable p.fields) from h2)
  have hn : p.fields.length = 6 := rfl
  have hi := p.initiator.encode_length
  rw [hn] at h4
  simp only [TxPayload.fields, List.flatten_cons, List.flatten_nil, List.append_nil] at h4
  rw [At.append, At.append, At.append, At.append, At.append] at h4
  simp only [le_length, pfx_length] at h4
  obtain ⟨a1, a2, a3, a4, a5, a6⟩ := h4
  rw [p.initiator.encode_eq] at a1
  have b1 := callTable_fields a1
  simp only [List.flatten_cons, List.flatten_nil, List.append_nil] at b1
  rw [At.append] at b1
  rw [p.pricing.encode_eq] at a5
  have b5 := callTable_fields a5
  rw [pfx, At.append, le_length] at a4
  refine ⟨h1, h2, b1.2, a2.cast ?_, a3.cast ?_, a4.1.cast ?_, a4.2.cast ?_, b5.cast ?_, a6.cast ?_⟩
  all_goals try unfold TxPayload.argsPos
  all_goals omega

/-- The serialized arguments. -/
theorem TxLayout.args {p : TxPayload} {H : Bytes → Bytes} {ap : List Bytes} {buf : Bytes} (h : TxLayout p H ap buf)
    {as : List Arg} (ha : p.args = .named as) : At buf p.argsPos (encodeArgs as) := by
  have hb := h.body
  unfold TxPayload.body at hb
  simp only [At.append, le_length, List.length_append] at hb
  have h1 := hb.1.1.1.2.2
  rw [ha, V1Args.encode, encodeRuntimeArgs, pfx, At.append, At.cons, At.append, le_length, le_length] at h1
  exact h1.2.2.2.cast (by unfold TxPayload.argsPos; omega)

/-! ### Header lines -/

theorem exThen {σ α β : Type} {m : M σ α} {k : α → M σ β} {s t : σ} {a : α} {b : β}
    (h : m s = .ok a t) (hk : ∃ c, k a t = .ok b c) : ∃ c, (m >>= k) s = .ok b c := by
  rw [bind_run, h]; exact hk

/-- What the parser remembers, as far as the header lines are concerned. -/
structure TxView (p : TxPayload) (v : V1) : Prop where
  size : v.md.size = 26
  fo0 : v.md.fo 0 = 0
  fo1 : v.md.fo 1 = 32
  psize : v.pmd.size = 44
  header : v.header = p.header
  ep : v.epType = p.entry.tag

theorem result_view {p : TxPayload} {H : Bytes → Bytes} {ap : List Bytes} {e : Env} (hH : (H p.encode).length = 32) :
    TxView p (p.result H ap e) := by
  refine ⟨by rw [result_md]; rfl, by rw [result_md]; rfl, by
    rw [result_md]; simp [TxPayload.txFields, metaOf, Meta.fo, fill, hH], by rw [result_pmd]; rfl, result_header, result_ep⟩

theorem indexV_at {e : Env} {v : V1} (hs : Small e) {q : VPart} {n : Nat} {xs : Bytes} (h : At e.buf n xs)
    (hn : vIndex v q = u16 n) (s : Nat) : indexV e v q s = .ok () n := by
  have := h.le
  unfold Small at hs
  unfold indexV
  rw [u16_id (by omega)] at hn
  simp only [hn]
  refine setThen ?_
  rw [if_neg (by omega)]; rfl

section
variable {p : TxPayload} {H : Bytes → Bytes} {ap : List Bytes} {e : Env} {v : V1} (hl : TxLayout p H ap e.buf)
  (hv : TxView p v) (hs : Small e)

include hl hv in
theorem item_hash (hH : (H p.encode).length = 32) (hn : 0 < v.numItems) (s : Nat) :
    ∃ c, getItemV1 e v 0 s = .ok (b!"Txn hash", checksumHex e.blake (H p.encode)) c := by
  unfold getItemV1
  rw [if_neg (by omega)]
  dsimp only
  rw [if_pos rfl]
  refine ⟨26, seqThen (t := 26) (by unfold seek; simp [hv.size, hv.fo0, u16, Res.ok.injEq]; rfl) (getThen ?_)⟩
  have := printBytes_at (s := 26) hl.hash (by rw [hH]; decide)
  rw [hH] at this
  exact seqThen this rfl

include hv in
theorem item_type (he : p.entry.Ok) (hn : 1 < v.numItems) (s : Nat) :
    getItemV1 e v 1 s = .ok (b!"Type", p.entry.title) s := by
  unfold getItemV1
  rw [if_neg (by omega)]
  dsimp only
  rw [if_neg (by decide), if_pos rfl, hv.ep, pure_run]
  congr 2
  cases hp : p.entry with
  | custom n => rfl
  | op t =>
    rw [hp] at he
    have ht := he.1
    show entryName t = _
    clear he hp
    have : ∀ t : Fin 13, entryName t.val = opTitles.getD t.val b!"Unknown" := by decide
    exact this ⟨t, by omega⟩

include hl hv hs in
theorem item_chain (hc : p.chain.length ≤ 99) (h0 : 0 ∉ p.chain) (hn : 2 < v.numItems) (s : Nat) :
    ∃ c, getItemV1 e v 2 s = .ok (b!"Chain ID", p.chain) c := by
  unfold getItemV1
  rw [if_neg (by omega)]
  dsimp only
  rw [if_neg (by decide), if_neg (by decide), if_pos rfl]
  refine exThen (indexV_at hs hl.chain (by simp only [vIndex, hv.size, hv.fo1, hv.psize, hv.header]; rfl) s)
    ?_
  refine exThen (get_run _) (exThen (t := 123 + p.initiator.addr.length + 8 + 8 + 4) (a := p.chain) ?_ ⟨_, rfl⟩)
  have : v.header.chainLen = p.chain.length := by rw [hv.header]; exact u8_id (by omega)
  unfold displayString
  rw [this, if_neg (by omega)]
  refine seqThen (slice_at hl.chain rfl) ?_
  unfold showArray
  rw [if_pos (.inl (by omega)), cstr_eq h0]; rfl

include hl hv hs in
theorem item_account (hi : p.initiator.Ok) (hn : 3 < v.numItems) (s : Nat) :
    ∃ c, getItemV1 e v 3 s = .ok (b!"Account", checksumHex e.blake p.initiator.addr) c := by
  unfold getItemV1
  rw [if_neg (by omega)]
  dsimp only
  rw [if_neg (by decide), if_neg (by decide), if_neg (by decide), if_pos rfl]
  refine exThen (indexV_at hs hl.initiator (by simp only [vIndex, hv.size, hv.fo1, hv.psize, hv.header]; rfl) s)
    ?_
  have := hi.length
  refine exThen (get_run _) (exThen (t := 123) (a := checksumHex e.blake p.initiator.addr) ?_ ⟨_, rfl⟩)
  rw [hv.header]
  exact printBytes_at hl.initiator (by omega)

include hl hv hs in
theorem item_time (hx : e.expert = true) (ht : p.timestamp < 2 ^ 64) {t : Bytes} (hf : e.fmtTime (p.timestamp / 1000) = some t)
    (hn : 4 < v.numItems) (s : Nat) : ∃ c, getItemV1 e v 4 s = .ok (b!"Timestamp", t) c := by
  unfold getItemV1
  rw [if_neg (by omega)]
  dsimp only
  rw [if_neg (by decide), if_neg (by decide), if_neg (by decide), if_neg (by decide), if_pos hx, if_pos rfl]
  refine exThen (indexV_at hs hl.timestamp (by simp only [vIndex, hv.size, hv.fo1, hv.psize, hv.header]; rfl) s) ?_
  refine exThen (readLE_at hl.timestamp (by omega)) ?_
  rw [hf]; exact ⟨_, rfl⟩

include hl hv hs in
theorem item_ttl (hx : e.expert = true) (ht : p.ttl / 1000 < 29 * 86400) (hn : 5 < v.numItems) :
    ∃ t, duration t = p.ttl / 1000 ∧ ∀ s, ∃ c, getItemV1 e v 5 s = .ok (b!"Ttl", t) c := by
  obtain ⟨t, h1, h2, -⟩ := (C19_ttl (p.ttl / 1000) 100 (by decide) (123 + p.initiator.addr.length + 8 + 8)).1 ht
  refine ⟨t, h2, fun s => ?_⟩
  unfold getItemV1
  rw [if_neg (by omega)]
  dsimp only
  rw [if_neg (by decide), if_neg (by decide), if_neg (by decide), if_neg (by decide), if_pos hx, if_neg (by decide), if_pos rfl]
  refine exThen (indexV_at hs hl.ttl (by simp only [vIndex, hv.size, hv.fo1, hv.psize, hv.header]; rfl) s) ?_
  refine exThen (readLE_at hl.ttl (by omega)) ?_
  exact exThen h1 ⟨_, rfl⟩

theorem paymentText_run (n s : Nat) (h : n < 10 ^ 19) : paymentText e n s = .ok (group3 (decText n)) s := by
  have hl := decText_length n 19 (by decide) h
  have hd := decText_digit n
  unfold paymentText numStr
  rw [decimal_eq, if_pos (by omega)]
  have := C18_thousand_separators_partial 30 (decText n) [] (fun hc => absurd (hd _ hc) (by decide)) (.inl rfl)
    (by simpa using decText_ne_nil n) (.inr (by simp; omega))
  rw [List.append_nil, if_pos (by simp [group3_length]; omega)] at this
  rw [this]; simp

end

/-- Prices that can be shown: a payment has at most 19 digits. -/
def Pricing.Small : Pricing → Prop
  | limited amount .. => amount < 10 ^ 19
  | _ => True

theorem itemPricing_run {e : Env} {v : V1} {i s : Nat} {x : Bytes} (h : ∃ c, pricingValue e v i s = .ok x c) :
    ∃ c, itemPricing e v i s = .ok (pricingKey v i, x) c := by
  obtain ⟨c, h⟩ := h
  refine ⟨c, ?_⟩
  unfold itemPricing
  rw [bind_run, attempt_run, h]
  rfl

section
variable {p : TxPayload} {H : Bytes → Bytes} {ap : List Bytes} {e : Env} {v : V1} (hl : TxLayout p H ap e.buf)
  (hv : TxView p v) (hs : Small e)

include hl hv hs in
theorem pricing_at (hp : p.pricing.Ok) (hb : p.pricing.Small) (hc : p.chain.length < 256) {i : Nat} {kv : Bytes × Bytes}
    (hi : (p.pricing.lines e.blake)[i]? = some kv) (s : Nat) : ∃ c, itemPricing e v i s = .ok kv c := by
  have hm : v.header.pmode = p.pricing.tag := by rw [hv.header]; rfl
  have hcl : v.header.chainLen = p.chain.length := by rw [hv.header]; exact u8_id hc
  have hpr := hl.pricing
  have ix : vIndex v .pricing = u16 (123 + p.initiator.addr.length + 8 + 8 + 4 + p.chain.length + (8 + 6 * p.pricing.fields.length) + 1) := by
    simp only [vIndex, hv.size, hv.fo1, hv.psize, hcl]; rw [hv.header]; rfl
  have ig : vIndex v .gasprice = u16 (123 + p.initiator.addr.length + 8 + 8 + 4 + p.chain.length + (8 + 6 * p.pricing.fields.length) + 1 +
      if p.pricing.tag = 0 then 8 else 0) := by
    simp only [vIndex, hv.size, hv.fo1, hv.psize, hcl, hm]; rw [hv.header]; rfl
  generalize hB : 123 + p.initiator.addr.length + 8 + 8 + 4 + p.chain.length + (8 + 6 * p.pricing.fields.length) = B at *
  cases hq : p.pricing with
  | limited amount gas st =>
    rw [hq] at hpr hi hp hb hm ig
    simp only [Pricing.fields, List.flatten_cons, List.flatten_nil, At.append, le_length] at hpr
    match i, hi with
    | 0, hi =>
      simp only [Pricing.lines, List.getElem?_cons_zero, Option.some.injEq] at hi
      subst hi
      refine itemPricing_run ?_
      unfold pricingValue
      rw [if_pos rfl, if_pos (by rw [hm]; rfl)]
      refine exThen (indexV_at hs hpr.2.1 ix s) (exThen (readLE_at hpr.2.1 (by have := hp.1; omega)) ⟨_, paymentText_run _ _ hb⟩)
    | 1, hi =>
      simp only [Pricing.lines, List.getElem?_cons_zero, List.getElem?_cons_succ, Option.some.injEq] at hi
      subst hi
      have : pricingKey v 1 = b!"Max gs prce" := by unfold pricingKey; rw [if_neg (by decide), if_pos (.inl (by rw [hm]; rfl))]
      rw [← this]
      refine itemPricing_run ?_
      unfold pricingValue
      rw [if_neg (by decide), if_pos (.inl (by rw [hm]; rfl))]
      refine exThen (indexV_at hs hpr.2.2.1 ig s) (exThen (readByte_at hpr.2.2.1 hp.2) ⟨_, (?_ : _ = Res.ok (decText gas) (B + 1 + 8 + 1))⟩)
      unfold numStr
      have := decText_length gas 3 (by decide) (by have := hp.2; omega)
      rw [decimal_eq, if_pos (by omega)]; rfl
    | i + 2, hi => simp [Pricing.lines] at hi
  | fixed gas ex =>
    rw [hq] at hpr hi hp hb hm ig
    simp only [Pricing.fields, List.flatten_cons, List.flatten_nil, At.append, le_length] at hpr
    match i, hi with
    | 0, hi =>
      simp only [Pricing.lines, List.getElem?_cons_zero, Option.some.injEq] at hi
      subst hi
      refine itemPricing_run ?_
      unfold pricingValue
      rw [if_pos rfl, if_neg (by rw [hm]; simp [Pricing.tag]), if_pos (by rw [hm]; rfl)]
      exact ⟨_, rfl⟩
    | 1, hi =>
      simp only [Pricing.lines, List.getElem?_cons_zero, List.getElem?_cons_succ, Option.some.injEq] at hi
      subst hi
      have : pricingKey v 1 = b!"Max gs prce" := by unfold pricingKey; rw [if_neg (by decide), if_pos (.inr (by rw [hm]; rfl))]
      rw [← this]
      refine itemPricing_run ?_
      unfold pricingValue
      rw [if_neg (by decide), if_pos (.inr (by rw [hm]; rfl))]
      refine exThen (indexV_at hs hpr.2.1 ig s) (exThen (readByte_at hpr.2.1 hp.1) ⟨_, (?_ : _ = Res.ok (decText gas) (B + 1 + 1))⟩)
      unfold numStr
      have := decText_length gas 3 (by decide) (by have := hp.1; omega)
      rw [decimal_eq, if_pos (by omega)]; rfl
    | i + 2, hi => simp [Pricing.lines] at hi
  | prepaid r =>
    rw [hq] at hpr hi hp hb hm ig
    simp only [Pricing.fields, List.flatten_cons, List.flatten_nil, At.append] at hpr
    match i, hi with
    | 0, hi =>
      simp only [Pricing.lines, List.getElem?_cons_zero, Option.some.injEq] at hi
      subst hi
      refine itemPricing_run ?_
      unfold pricingValue
      rw [if_pos rfl, if_neg (by rw [hm]; simp [Pricing.tag]), if_neg (by rw [hm]; simp [Pricing.tag]), if_pos (by rw [hm]; rfl)]
      exact ⟨_, rfl⟩
    | 1, hi =>
      simp only [Pricing.lines, List.getElem?_cons_zero, List.getElem?_cons_succ, Option.some.injEq] at hi
      subst hi
      have : pricingKey v 1 = b!"Receipt" := by
        unfold pricingKey; rw [if_neg (by decide), if_neg (by rw [hm]; simp [Pricing.tag])]
      rw [← this]
      refine itemPricing_run ?_
      unfold pricingValue
      rw [if_neg (by decide), if_neg (by rw [hm]; simp [Pricing.tag])]
      have hr : r.length = 32 := hp
      have := printBytes_at (s := B + 1) hpr.2.1 (by omega)
      rw [hr] at this
      exact exThen (indexV_at hs hpr.2.1 ix s) (exThen (get_run _) ⟨_, this⟩)
    | i + 2, hi => simp [Pricing.lines] at hi

include hl hv hs in
theorem item_pricing (hx : e.expert = true) (hp : p.pricing.Ok) (hb : p.pricing.Small) (hc : p.chain.length < 256)
    {i : Nat} {kv : Bytes × Bytes}
    (hi : (p.pricing.lines e.blake)[i]? = some kv) (hn : 6 + i < v.numItems) (s : Nat) :
    ∃ c, getItemV1 e v (6 + i) s = .ok kv c := by
  have hlen : (p.pricing.lines e.blake).length = 2 := by cases p.pricing <;> rfl
  have hi2 : i < 2 := by
    rw [← hlen]; exact (List.getElem?_eq_some_iff.1 hi).1
  unfold getItemV1
  rw [if_neg (by omega)]
  dsimp only
  rw [if_neg (by omega), if_neg (by omega), if_neg (by omega), if_neg (by omega), if_pos hx, if_neg (by omega),
    if_neg (by omega), if_pos (by rw [hv.header]; show 6 + i < 6 + 2; omega), show 6 + i - 6 = i by omega]
  exact pricing_at hl hv hs hp hb hc hi s

include hv in
theorem item_approvals (hx : e.expert = true) {k : Nat} (hk : v.numItems = 9 + k) (h256 : v.numItems < 256) (s : Nat) :
    getItemV1 e v (8 + k) s = .ok (b!"Approvals #", decText v.numApprovals) s := by
  unfold getItemV1
  rw [if_neg (by omega)]
  dsimp only
  have ht : u16 (v.numItems + 65536 - 9) = k := by unfold u16; omega
  rw [if_neg (by omega), if_neg (by omega), if_neg (by omega), if_neg (by omega), if_pos hx, if_neg (by omega),
    if_neg (by omega), if_neg (by rw [hv.header]; show ¬ 8 + k < 6 + 2; omega), if_pos hx, ht, if_neg (by omega),
    if_pos (by omega), decimal_eq]
  rfl

include hv in
theorem item_entry_expert (hx : e.expert = true) (h0 : v.epType ≠ 0) {k i : Nat} (hk : v.numItems = 9 + k) (hi : i < k)
    (h256 : v.numItems < 256) (s : Nat) : getItemV1 e v (8 + i) s = itemEntry e v i s := by
  unfold getItemV1
  rw [if_neg (by omega)]
  dsimp only
  have ht : u16 (v.numItems + 65536 - 9) = k := by unfold u16; omega
  rw [if_neg (by omega), if_neg (by omega), if_neg (by omega), if_neg (by omega), if_pos hx, if_neg (by omega),
    if_neg (by omega), if_neg (by rw [hv.header]; show ¬ 8 + i < 6 + 2; omega), if_pos hx, ht, if_pos (by omega),
    show 8 + i - 8 = i by omega]

include hv in
theorem item_entry_normal (hx : e.expert = false) {k i : Nat} (hk : v.numItems = 4 + k) (hi : i < k)
    (h256 : v.numItems < 252) (s : Nat) : getItemV1 e v (4 + i) s = itemEntry e v i s := by
  have hp : v.header.pmItems = 2 := by rw [hv.header]; rfl
  unfold getItemV1
  rw [if_neg (by omega)]
  dsimp only
  have ht : u16 (v.numItems + 65536 - (2 + v.header.pmItems)) = k := by rw [hp]; unfold u16; omega
  have hd : u8 (4 + i + 2 + v.header.pmItems) = 8 + i := by rw [hp]; unfold u8; omega
  rw [if_neg (by omega), if_neg (by omega), if_neg (by omega), if_neg (by omega), if_neg (by simp [hx]),
    if_neg (c := e.expert = true) (by simp [hx]), ht, hd, if_pos (by omega), show 8 + i - 8 = i by omega]

end

/-! ### Operation lines -/

section
variable {e : Env} {as : List Arg} {off : Nat} (hf : Fits e) (hok : ∀ a ∈ as, a.Ok) (hn : noNul as)
  (h : At e.buf off (encodeArgs as))

/-- How the app shows an argument line. -/
def ArgLine.show (e : Env) (n : Nat) (l : ArgLine) : P (Bytes × Bytes) :=
  if l.motes then showMotes e l.label l.name n else showArg e l.label l.name n

include hf hok hn h in
theorem show_line {l : ArgLine} {kv : Bytes × Bytes} (hl : l.Shows e.blake as kv) :
    ∃ c, l.show e as.length off = .ok kv c := by
  unfold ArgLine.show
  cases hl with
  | value h1 h2 h3 => rw [if_neg (by simp [h1])]; exact showArg_at hf hok hn h2 h3 h
  | motes h1 h2 _ h3 => rw [if_pos h1]; exact showMotes_at hf hok hn h2 h3 h

include hf hok hn h in
theorem getData_line {l : ArgLine} {kv : Bytes × Bytes} (hl : l.Shows e.blake as kv) :
    ∃ x t o, getData e l.name as.length off = .ok (x, t) o ∧ (l.motes = true → t = 8) := by
  cases hl with
  | value h1 h2 h3 => obtain ⟨o, h4, -⟩ := getData_find hf hok hn h2 h; exact ⟨_, _, o, h4, by simp [h1]⟩
  | motes h1 h2 h5 h3 =>
    obtain ⟨o, h4, -⟩ := getData_find hf hok hn h2 h
    refine ⟨_, _, o, h4, fun _ => by rw [h5]; rfl⟩

end

theorem itemTable_line {e : Env} {v : V1} {i n : Nat} {l : ArgLine} {off : Nat} (hn : v.numArgs = n) (hi : i < n)
    (h : (argTable v.epType)[i]? = some (l.label, l.name, l.motes)) : itemTable e v i off = l.show e n off := by
  unfold itemTable
  rw [if_neg (by omega), h, hn]
  rfl

theorem argTable_lines {ex : Bool} {as : List Arg} {t i : Nat} {l : ArgLine} (ht : t ∈ [3, 4, 5, 6, 8, 9])
    (h : (opLines ex as t)[i]? = some l) : (argTable t)[i]? = some (l.label, l.name, l.motes) := by
  have hp : (opLines ex as t).map (fun l => (l.label, l.name, l.motes)) <+: argTable t := by
    simp only [List.mem_cons, List.not_mem_nil, or_false] at ht
    rcases ht with rfl | rfl | rfl | rfl | rfl | rfl
    · simp only [opLines]
      split
      · exact ⟨[], rfl⟩
      · exact ⟨_, rfl⟩
    all_goals exact ⟨[], rfl⟩
  obtain ⟨tl, hp⟩ := hp
  rw [← hp, List.getElem?_append_left (by
    rw [List.length_map]; exact (List.getElem?_eq_some_iff.1 h).1), List.getElem?_map, h]
  rfl

/-- Going back to the start after a successful lookup. -/
theorem Forall₂_get {α β : Type} {R : α → β → Prop} {xs : List α} {ys : List β} (h : List.Forall₂ R xs ys) {i : Nat} {y : β}
    (hy : ys[i]? = some y) : ∃ x, xs[i]? = some x ∧ R x y := by
  induction h generalizing i with
  | nil => simp at hy
  | cons hr _ ih =>
    cases i with
    | zero => simp only [List.getElem?_cons_zero, Option.some.injEq] at hy; subst hy; exact ⟨_, rfl, hr⟩
    | succ i => exact ih hy

theorem itemTransfer_line {e : Env} {as : List Arg} {off : Nat} (hf : Fits e) (hok : ∀ a ∈ as, a.Ok) (hn : noNul as)
    (h : At e.buf off (encodeArgs as)) {v : V1} (ha : v.numArgs = as.length) {i : Nat} (hb : i < as.length) {l : ArgLine}
    (hl : (opLines e.expert as 2)[i]? = some l) {kv : Bytes × Bytes} (hshow : ∃ c, l.show e as.length off = .ok kv c) :
    ∃ c, itemTransfer e v i off = .ok kv c := by
  unfold itemTransfer
  refine exThen (get_run _) ?_

  rw [ha, if_neg (by omega)]
  cases hx : e.expert with
  | false =>
    rw [hx] at hl
    rw [if_neg (by decide)]
    match i, hl with
    | 0, hl =>
      simp [opLines] at hl; subst hl
      rw [if_pos rfl]; exact hshow
    | 1, hl =>
      simp [opLines] at hl; subst hl
      rw [if_neg (by decide), if_pos rfl]; exact hshow
    | i + 2, hl => simp [opLines] at hl
  | true =>
    rw [hx] at hl
    rw [if_pos rfl]
    cases hsrc : argNamed as b!"source" with
    | some a =>
      obtain ⟨o, h1, h2⟩ := getData_find hf hok hn hsrc h
      refine exThen (t := o) (a := .ok (a.value.length, a.ty.tag)) (by rw [attempt_run, h1]) ?_
      dsimp only
      match i, hl with
      | 0, hl =>
        simp [opLines, hsrc] at hl; subst hl
        rw [if_pos rfl]
        unfold ArgLine.show showArg at hshow
        rw [if_neg (by decide), bind_run, h1] at hshow
        exact hshow
      | 1, hl =>
        simp [opLines, hsrc] at hl; subst hl
        rw [if_neg (by decide)]
        refine exThen (set_run _ _) ?_
        rw [if_pos rfl]; exact hshow
      | 2, hl =>
        simp [opLines, hsrc] at hl; subst hl
        rw [if_neg (by decide)]
        refine exThen (set_run _ _) ?_
        rw [if_neg (by decide), if_pos rfl]; exact hshow
      | 3, hl =>
        simp [opLines, hsrc] at hl; subst hl
        rw [if_neg (by decide)]
        refine exThen (set_run _ _) ?_
        rw [if_neg (by decide), if_neg (by decide), if_pos rfl]; exact hshow
      | i + 4, hl => simp [opLines, hsrc] at hl
    | none =>
      have h1 := getData_absent hf hok hn hsrc h
      refine exThen (t := off + (encodeArgs as).length) (a := .error 1) (by rw [attempt_run, h1]) ?_
      dsimp only
      refine exThen (set_run _ _) ?_
      rw [if_neg (by decide)]
      match i, hl with
      | 0, hl =>
        simp [opLines, hsrc] at hl; subst hl
        rw [if_pos rfl]; exact hshow
      | 1, hl =>
        simp [opLines, hsrc] at hl; subst hl
        rw [if_neg (by decide), if_pos rfl]; exact hshow
      | 2, hl =>
        simp [opLines, hsrc] at hl; subst hl
        rw [if_neg (by decide), if_neg (by decide), if_pos rfl]; exact hshow
      | i + 3, hl => simp [opLines, hsrc] at hl

/-- Arguments that are shown are there. -/
theorem Forall₂_present {H : Bytes → Bytes} {as : List Arg} {ls : List ArgLine} {lines : List (Bytes × Bytes)}
    (hl : List.Forall₂ (ArgLine.Shows H as) ls lines) {l : ArgLine} (hm : l ∈ ls) :
    ∃ a, argNamed as l.name = some a ∧ (l.motes = true → a.ty = .u512) := by
  induction hl with
  | nil => simp at hm
  | cons hr _ ih =>
    rcases List.mem_cons.1 hm with rfl | hm
    · cases hr with
      | value h1 h2 _ => exact ⟨_, h2, by simp [h1]⟩
      | motes _ h2 h3 _ => exact ⟨_, h2, fun _ => h3⟩
    · exact ih hm

theorem itemRedelegate_line {e : Env} {as : List Arg} {off : Nat} (hf : Fits e) (hok : ∀ a ∈ as, a.Ok) (hn : noNul as)
    (h : At e.buf off (encodeArgs as)) {v : V1} (ha : v.numArgs = as.length) {i : Nat} (hb : i < as.length) {l : ArgLine}
    (hl : (opLines e.expert as 7)[i]? = some l) {kv : Bytes × Bytes} (hshow : ∃ c, l.show e as.length off = .ok kv c)
    (hall : ∀ l ∈ opLines e.expert as 7, ∃ a, argNamed as l.name = some a) :
    ∃ c, itemRedelegate e v i off = .ok kv c := by
  obtain ⟨d, hd⟩ := hall ⟨b!"Delegator", b!"delegator", false⟩ (by simp [opLines])
  obtain ⟨w, hw⟩ := hall ⟨b!"Old", b!"validator", false⟩ (by simp [opLines])
  obtain ⟨m, hm⟩ := hall ⟨b!"Amount", b!"amount", true⟩ (by simp [opLines])
  obtain ⟨o1, h1, -⟩ := getData_find hf hok hn hd h
  obtain ⟨o2, h2, -⟩ := getData_find hf hok hn hw h
  obtain ⟨o3, h3, -⟩ := getData_find hf hok hn hm h
  unfold itemRedelegate
  refine exThen (get_run _) ?_
  dsimp only
  rw [ha, if_neg (by omega)]
  refine exThen (a := true) (t := off) (by simp only [bind_run, attempt_run, h1, Res.bind_ok]; rfl) ?_
  refine exThen (a := true) (t := off) (by simp only [bind_run, attempt_run, h2, Res.bind_ok]; rfl) ?_
  refine exThen (a := true) (t := off) (by simp only [bind_run, attempt_run, h3, Res.bind_ok]; rfl) ?_
  match i, hl with
  | 0, hl => simp [opLines] at hl; subst hl; exact hshow
  | 1, hl => simp [opLines] at hl; subst hl; exact hshow
  | 2, hl => simp [opLines] at hl; subst hl; exact hshow
  | 3, hl => simp [opLines] at hl; subst hl; exact hshow
  | i + 4, hl => simp [opLines] at hl

theorem itemBurn_line {e : Env} {as : List Arg} {off : Nat} (hf : Fits e) (hok : ∀ a ∈ as, a.Ok) (hn : noNul as)
    (h : At e.buf off (encodeArgs as)) {v : V1} (ha : v.numArgs = as.length) {i : Nat} (hb : i < as.length) {l : ArgLine}
    (hl : (opLines e.expert as 12)[i]? = some l) {kv : Bytes × Bytes} (hshow : ∃ c, l.show e as.length off = .ok kv c)
    (hall : ∀ l ∈ opLines e.expert as 12, ∃ a, argNamed as l.name = some a) :
    ∃ c, itemBurn e v i off = .ok kv c := by
  obtain ⟨a, hsrc⟩ := hall ⟨b!"Source", b!"source", false⟩ (by simp [opLines])
  obtain ⟨o, h1, -⟩ := getData_find hf hok hn hsrc h
  unfold itemBurn
  refine exThen (get_run _) ?_

  rw [ha, if_neg (by omega)]
  refine exThen (t := o) (a := .ok (a.value.length, a.ty.tag)) (by rw [attempt_run, h1]) ?_
  dsimp only
  match i, hl with
  | 0, hl =>
    simp [opLines] at hl; subst hl
    rw [if_pos rfl]
    unfold ArgLine.show showArg at hshow
    rw [if_neg (by decide), bind_run, h1] at hshow
    exact hshow
  | 1, hl =>
    simp [opLines] at hl; subst hl
    rw [if_neg (by decide)]
    exact exThen (set_run _ _) hshow
  | i + 2, hl => simp [opLines] at hl

theorem opLines_nodup (ex : Bool) (as : List Arg) (t : Nat) : ((opLines ex as t).map ArgLine.name).Nodup := by
  unfold opLines
  split <;> (repeat' split) <;> decide

/-- There are at least as many arguments as lines, since their names differ. -/
theorem opLines_le {H : Bytes → Bytes} {ex : Bool} {as : List Arg} {t : Nat} {lines : List (Bytes × Bytes)}
    (hl : List.Forall₂ (ArgLine.Shows H as) (opLines ex as t) lines) : (opLines ex as t).length ≤ as.length := by
  have hsub : (opLines ex as t).map ArgLine.name ⊆ as.map Arg.name := by
    intro x hx
    obtain ⟨l, h1, rfl⟩ := List.mem_map.1 hx
    obtain ⟨a, h2, -⟩ := Forall₂_present hl h1
    have h3 := List.find?_some h2
    rw [← (by simpa using h3 : a.name = l.name)]
    exact List.mem_map_of_mem (List.mem_of_find?_eq_some h2)
  have := ((opLines_nodup ex as t).subperm hsub).length_le
  simpa using this

/-- The lines of an operation are shown. -/
theorem itemEntry_op {e : Env} {as : List Arg} {off t : Nat} (hf : Fits e) (hok : ∀ a ∈ as, a.Ok) (hn : noNul as)
    (h : At e.buf off (encodeArgs as)) {v : V1} (ht : v.epType = t) (hop : t ∈ [2, 3, 4, 5, 6, 7, 8, 9, 12])
    (ho : v.argsOff = off) (h16 : off < 65536) (ha : v.numArgs = as.length)
    {lines : List (Bytes × Bytes)}
    (hl : List.Forall₂ (ArgLine.Shows e.blake as) (opLines e.expert as t) lines)
    {i : Nat} {kv : Bytes × Bytes} (hi : lines[i]? = some kv) (s : Nat) :
    ∃ c, itemEntry e v i s = .ok kv c := by
  obtain ⟨l, hl1, hl2⟩ := Forall₂_get hl hi
  have hshow := show_line hf hok hn h hl2
  have hb : i < as.length := by
    have := (List.getElem?_eq_some_iff.1 hl1).1
    have := opLines_le hl
    omega
  unfold itemEntry
  refine exThen (t := off) (by unfold seek; rw [ho, u16_id h16]) ?_
  rw [ht]
  by_cases htab : t ∈ [3, 4, 5, 6, 8, 9]
  · have h1 := argTable_lines htab hl1
    rw [← ht] at h1
    have h2 := itemTable_line (e := e) (off := off) ha hb h1
    simp only [List.mem_cons, List.not_mem_nil, or_false] at htab
    rw [if_neg (by omega), if_neg (by omega), if_neg (by omega), if_neg (by omega), if_neg (by omega), if_neg (by omega),
      if_neg (by omega), h2]
    exact hshow
  have hop' : t = 2 ∨ t = 7 ∨ t = 12 := by
    simp only [List.mem_cons, List.not_mem_nil, or_false, not_or] at htab hop; omega
  have hall : ∀ l ∈ opLines e.expert as t, ∃ a, argNamed as l.name = some a := fun l hm =>
    (Forall₂_present hl hm).imp fun _ h => h.1
  rcases hop' with rfl | rfl | rfl
  · rw [if_neg (by decide), if_pos rfl]
    exact itemTransfer_line hf hok hn h ha hb hl1 hshow
  · rw [if_neg (by decide), if_neg (by decide), if_pos rfl]
    exact itemRedelegate_line hf hok hn h ha hb hl1 hshow hall
  · rw [if_neg (by decide), if_neg (by decide), if_neg (by decide), if_neg (by decide), if_neg (by decide), if_pos rfl]
    exact itemBurn_line hf hok hn h ha hb hl1 hshow hall

/-- Further arguments show nothing of themselves. -/
theorem itemEntry_extra {e : Env} {as : List Arg} {off t : Nat} (hf : Fits e) (hok : ∀ a ∈ as, a.Ok) (hn : noNul as)
    (h : At e.buf off (encodeArgs as)) {v : V1} (ht : v.epType = t) (hop : t ∈ [2, 3, 4, 5, 6, 7, 8, 9, 12])
    (ho : v.argsOff = off) (h16 : off < 65536) (ha : v.numArgs = as.length) {lines : List (Bytes × Bytes)}
    (hl : List.Forall₂ (ArgLine.Shows e.blake as) (opLines e.expert as t) lines)
    (hslots : t = 3 → as.length ≤ 5 ∨ (argNamed as b!"reserved_slots").isSome)
    {i : Nat} {kv : Bytes × Bytes} (hi : (opExtra e.expert as.length t lines)[i]? = some kv) (s : Nat) :
    ∃ c, itemEntry e v (lines.length + i) s = .ok kv c := by
  have hll := hl.length_eq
  unfold opExtra at hi
  split at hi
  · simp at hi
  rename_i hne
  have hlt := (List.getElem?_eq_some_iff.1 hi).1
  rw [List.length_replicate] at hlt
  rw [List.getElem?_replicate, if_pos hlt, Option.some.injEq] at hi
  unfold itemEntry
  refine exThen (t := off) (by unfold seek; rw [ho, u16_id h16]) ?_
  rw [ht]
  by_cases htab : t ∈ [3, 4, 5, 6, 8, 9]
  · have h1 : (argTable t)[lines.length + i]? = none := by
      simp only [List.mem_cons, List.not_mem_nil, or_false] at htab
      rw [List.getElem?_eq_none_iff, ← hll]
      rcases htab with rfl | rfl | rfl | rfl | rfl | rfl <;> simp [argTable, opLines]
      · rcases hslots rfl with h5 | h5
        · rw [← hll] at hlt
          simp only [opLines, List.length_append, List.length_cons, List.length_nil] at hlt
          omega
        · rw [h5]; simp
    simp only [List.mem_cons, List.not_mem_nil, or_false] at htab
    rw [if_neg (by omega), if_neg (by omega), if_neg (by omega), if_neg (by omega), if_neg (by omega), if_neg (by omega),
      if_neg (by omega)]
    unfold itemTable
    rw [if_neg (by omega), ht, h1, ← hi, if_neg (by omega)]
    exact ⟨off, rfl⟩
  have hop' : t = 2 ∨ t = 7 ∨ t = 12 := by
    simp only [List.mem_cons, List.not_mem_nil, or_false, not_or] at htab hop; omega
  have hall : ∀ l ∈ opLines e.expert as t, ∃ a, argNamed as l.name = some a := fun l hm =>
    (Forall₂_present hl hm).imp fun _ h => h.1
  rcases hop' with rfl | rfl | rfl
  · rw [if_neg (by decide), if_pos rfl]
    rw [if_neg (by decide)] at hi
    have hx : e.expert = true := by simpa using hne
    unfold itemTransfer
    refine exThen (get_run _) ?_
    rw [ha, if_neg (by omega), if_pos hx]
    rw [hx] at hll
    cases hsrc : argNamed as b!"source" with
    | some a =>
      obtain ⟨o, h1, h2⟩ := getData_find hf hok hn hsrc h
      have h4 : lines.length = 4 := by rw [← hll]; simp [opLines, hsrc]
      refine exThen (t := o) (a := .ok (a.value.length, a.ty.tag)) (by rw [attempt_run, h1]) ?_
      dsimp only
      rw [if_neg (by omega)]
      refine exThen (set_run _ _) ?_
      rw [if_neg (by omega), if_neg (by omega), if_neg (by omega), ← hi]
      exact ⟨off, rfl⟩
    | none =>
      have h1 := getData_absent hf hok hn hsrc h
      have h4 : lines.length = 3 := by rw [← hll]; simp [opLines, hsrc]
      refine exThen (t := off + (encodeArgs as).length) (a := .error 1) (by rw [attempt_run, h1]) ?_
      dsimp only
      refine exThen (set_run _ _) ?_
      rw [if_neg (by decide), if_neg (by omega), if_neg (by omega), if_neg (by omega), ← hi]
      exact ⟨off, rfl⟩
  · rw [if_neg (by decide), if_neg (by decide), if_pos rfl]
    rw [if_neg (by decide)] at hi
    obtain ⟨d, hd⟩ := hall ⟨b!"Delegator", b!"delegator", false⟩ (by simp [opLines])
    obtain ⟨w, hw⟩ := hall ⟨b!"Old", b!"validator", false⟩ (by simp [opLines])
    obtain ⟨m, hm⟩ := hall ⟨b!"Amount", b!"amount", true⟩ (by simp [opLines])
    obtain ⟨o1, h1, -⟩ := getData_find hf hok hn hd h
    obtain ⟨o2, h2, -⟩ := getData_find hf hok hn hw h
    obtain ⟨o3, h3, -⟩ := getData_find hf hok hn hm h
    have h4 : lines.length = 4 := by rw [← hll]; simp [opLines]
    unfold itemRedelegate
    refine exThen (get_run _) ?_
    dsimp only
    rw [ha, if_neg (by omega)]
    refine exThen (a := true) (t := off) (by simp only [bind_run, attempt_run, h1, Res.bind_ok]; rfl) ?_
    refine exThen (a := true) (t := off) (by simp only [bind_run, attempt_run, h2, Res.bind_ok]; rfl) ?_
    refine exThen (a := true) (t := off) (by simp only [bind_run, attempt_run, h3, Res.bind_ok]; rfl) ?_
    obtain ⟨j, hj⟩ : ∃ j, lines.length + i = j + 4 := ⟨i, by omega⟩
    rw [hj, ← hi]
    exact ⟨off, by simp⟩
  · rw [if_neg (by decide), if_neg (by decide), if_neg (by decide), if_neg (by decide), if_neg (by decide), if_pos rfl]
    rw [if_pos rfl] at hi
    obtain ⟨a, hsrc⟩ := hall ⟨b!"Source", b!"source", false⟩ (by simp [opLines])
    obtain ⟨o, h1, -⟩ := getData_find hf hok hn hsrc h
    have h4 : lines.length = 2 := by rw [← hll]; simp [opLines]
    obtain ⟨l, hl1, hl2⟩ := Forall₂_get hl (i := 1) (y := lines[1]'(by omega)) (List.getElem?_eq_getElem _)
    simp only [opLines, List.getElem?_cons_succ, List.getElem?_cons_zero, Option.some.injEq] at hl1
    subst hl1
    have hshow := show_line hf hok hn h hl2
    have hkv : lines[1]'(by omega) = kv := by
      rw [← hi, List.getD_eq_getElem?_getD, List.getElem?_eq_getElem (by omega)]; rfl
    rw [hkv] at hshow
    unfold itemBurn
    refine exThen (get_run _) ?_
    rw [ha, if_neg (by omega)]
    refine exThen (t := o) (a := .ok (a.value.length, a.ty.tag)) (by rw [attempt_run, h1]) ?_
    dsimp only
    rw [if_neg (by omega)]
    exact exThen (set_run _ _) hshow

/-! ### Whole transactions -/

theorem checkRequired_run {e : Env} {as : List Arg} {off : Nat} (hf : Fits e) (hok : ∀ a ∈ as, a.Ok) (hn : noNul as)
    (h : At e.buf off (encodeArgs as)) {rs : List (Bytes × Bool)}
    (hr : ∀ r ∈ rs, ∃ a, argNamed as r.1 = some a ∧ (r.2 = true → a.ty = .u512)) (s : Nat) :
    ∃ c, checkRequired e off as.length rs s = .ok () c := by
  induction rs generalizing s with
  | nil => exact ⟨s, rfl⟩
  | cons r rs ih =>
    obtain ⟨name, big⟩ := r
    obtain ⟨a, h1, h2⟩ := hr (name, big) (by simp)
    obtain ⟨o, h3, -⟩ := getData_find hf hok hn h1 h
    unfold checkRequired
    refine exThen (set_run _ _) (exThen h3 ?_)
    dsimp only
    have hc : big = false ∨ a.ty.tag = 8 := by
      cases big with
      | false => exact .inl rfl
      | true => exact .inr (by rw [h2 rfl]; rfl)
    exact exThen (by rw [require_run, if_pos hc]) (ih (fun r hm => hr r (by simp [hm])) o)

theorem required_shown {ex : Bool} {as : List Arg} {t : Nat} (ht : t ∈ [2, 3, 4, 5, 6, 7, 8, 9, 12]) {r : Bytes × Bool}
    (hr : r ∈ requiredArgs t) : (t = 2 ∧ r = (b!"id", false)) ∨
      ∃ l ∈ opLines ex as t, l.name = r.1 ∧ (r.2 = true → l.motes = true) := by
  simp only [List.mem_cons, List.not_mem_nil, or_false] at ht
  rcases ht with rfl | rfl | rfl | rfl | rfl | rfl | rfl | rfl | rfl <;>
    simp [requiredArgs] at hr
  · rcases hr with rfl | rfl | rfl
    · exact .inr ⟨⟨b!"Amount", b!"amount", true⟩, by simp [opLines], rfl, fun _ => rfl⟩
    · exact .inr ⟨⟨b!"Target", b!"target", false⟩, by simp [opLines], rfl, by simp⟩
    · exact .inl ⟨rfl, rfl⟩
  · rcases hr with rfl | rfl | rfl | rfl | rfl <;> simp [opLines]
  · rcases hr with rfl | rfl <;> simp [opLines]
  · rcases hr with rfl | rfl | rfl <;> simp [opLines]
  · rcases hr with rfl | rfl | rfl <;> simp [opLines]
  · subst hr; simp [opLines]
  · subst hr; simp [opLines]
  · rcases hr with rfl | rfl <;> simp [opLines]
  · rcases hr with rfl | rfl <;> simp [opLines]

/-- A well-formed native operation: parts of proper sizes, argument names without NUL bytes, the arguments of the operation
and perhaps others (at most 246 in all; a bid with more than 5 arguments has reserved slots), and the arguments starting
before byte 256. -/
structure TxPayload.NativeOp (p : TxPayload) (t : Nat) (as : List Arg) : Prop where
  ok : p.Ok
  entry : p.entry = .op t
  known : t ∈ [2, 3, 4, 5, 6, 7, 8, 9, 12]
  target : p.target = .native
  args : p.args = .named as
  names : noNul as
  few : as.length ≤ 246
  slots : t = 3 → as.length ≤ 5 ∨ (argNamed as b!"reserved_slots").isSome
  id : t = 2 → (argNamed as b!"id").isSome
  pos : p.argsPos < 256
  chain : p.chain.length ≤ 99
  chain0 : 0 ∉ p.chain

/-- What has to hold for the lines of expert mode. -/
structure TxPayload.ExpertOk (p : TxPayload) (fmt : Nat → Option Bytes) (time : Bytes) : Prop where
  time : fmt (p.timestamp / 1000) = some time
  ttl : p.ttl / 1000 < 29 * 86400
  pricing : p.pricing.Small

/-- An approval takes 98 bytes or more. -/
theorem approvals_length {ap : List Bytes} (hap : ∀ x ∈ ap, ApprovalOk x) : 98 * ap.length ≤ ap.flatten.length := by
  induction ap with
  | nil => simp
  | cons x xs ih =>
    have h1 := ih fun y hy => hap y (by simp [hy])
    obtain ⟨k, s, t, hk, -, hs⟩ := hap x (by simp)
    rw [List.flatten_cons, List.length_append, List.length_cons]
    rcases hk with ⟨rfl, hk⟩ | ⟨rfl, hk⟩ <;> simp only [List.length_append, List.length_cons] <;> omega

/-- So a transaction that fits has fewer than 256 of them. -/
theorem approvals_few {e : Env} {p : TxPayload} {ap : List Bytes} (hs : Small e) (hap : ∀ x ∈ ap, ApprovalOk x)
    (hbuf : e.buf = p.tx e.blake ap) : ap.length < 256 := by
  have h1 := approvals_length hap
  unfold Small at hs
  have h2 : ap.flatten.length ≤ e.buf.length := by
    rw [hbuf]
    unfold TxPayload.tx callTable
    simp only [List.length_append, List.flatten_cons]
    omega
  omega

/-- A transaction that passes the parser's checks is accepted, and its review consists of header lines and operation
lines. -/
theorem accepted_screens {e : Env} {p : TxPayload} {ap : List Bytes} (hs : Small e)
    (hok : p.Ok) (hap : ∀ x ∈ ap, ApprovalOk x) (hbuf : e.buf = p.tx e.blake ap)
    (hch : p.chain.length ≤ 99) (hch0 : 0 ∉ p.chain)
    (hsan : ∀ o, ∃ o', checkSanity e (p.view e (p.start e.blake ap)) o = .ok () o')
    {lines : List (Bytes × Bytes)} (hcount : p.opCount e = lines.length) (hlines : lines.length ≤ 246)
    (hep : e.expert = true → lines ≠ [] → p.entry.tag ≠ 0)
    (hent : ∀ {i kv}, lines[i]? = some kv → ∀ o, ∃ c, itemEntry e (p.result e.blake ap e) i o = .ok kv c)
    {time : Bytes} (hx : e.expert = true → p.ExpertOk e.fmtTime time) :
    ∃ s ttl, V1Accepted e s ∧ s.v = p.result e.blake ap e ∧ (e.expert = true → duration ttl = p.ttl / 1000) ∧
      s.v.numItems = (p.screens e.blake e.expert ap.length time ttl lines).length ∧
      ∀ i kv, (p.screens e.blake e.expert ap.length time ttl lines)[i]? = some kv →
        ∀ o, ∃ c, getItemV1 e s.v i o = .ok kv c := by
  have hH : (e.blake p.encode).length = 32 := e.blake.len _
  have hat : At e.buf 0 (p.tx e.blake ap) := ⟨[], [], by rw [hbuf]; simp, rfl⟩
  have hlay := tx_layout hH hat
  have hv := result_view (p := p) (ap := ap) (e := e) hH
  have hep : e.expert = true → lines ≠ [] → (p.result e.blake ap e).epType ≠ 0 := by rw [result_ep]; exact hep
  have hni : (p.result e.blake ap e).numItems = (if e.expert then 9 else 4) + lines.length := by
    rw [result_items, hcount, u8_id (by split <;> omega)]
  have hread := readV1_at hs hok hH hap hat hsan
  have hsz : (p.result e.blake ap e).pmd.size + (p.result e.blake ap e).pmd.fieldsSize = p.encode.length := by
    rw [result_pmd, p.encode_eq, callTable_length]; rfl
  have hvalid : ∃ o, validateV1 e (p.result e.blake ap e) 0 = .ok () o := by
    unfold validateV1
    rw [hv.size, hv.fo0, hv.fo1]
    refine exThen (slice_at hlay.hash hH.symm) (exThen (slice_at hlay.payload hsz) ⟨0, ?_⟩)
    rw [require_run, if_pos rfl]
  have hnum : ∀ ttl, (p.result e.blake ap e).numItems = (p.screens e.blake e.expert ap.length time ttl lines).length := by
    intro ttl
    rw [hni]
    unfold TxPayload.screens
    have : (p.pricing.lines e.blake).length = 2 := by cases p.pricing <;> rfl
    cases e.expert <;> simp [this] <;> omega
  have hitems : ∃ ttl, (e.expert = true → duration ttl = p.ttl / 1000) ∧
      ∀ i kv, (p.screens e.blake e.expert ap.length time ttl lines)[i]? = some kv →
        ∀ o, ∃ c, getItemV1 e (p.result e.blake ap e) i o = .ok kv c := by
    have h0 := item_hash (e := e) hlay hv hH (by rw [hni]; split <;> omega)
    have h1 := item_type (e := e) hv hok.entry (by rw [hni]; split <;> omega)
    have h2 := item_chain hlay hv hs hch hch0 (by rw [hni]; split <;> omega)
    have h3 := item_account hlay hv hs hok.initiator (by rw [hni]; split <;> omega)
    cases hxx : e.expert with
    | false =>
      rw [hxx] at hni
      refine ⟨[], by simp, fun i kv hi o => ?_⟩
      unfold TxPayload.screens at hi
      match i, hi with
      | 0, hi => simp only [List.cons_append, List.getElem?_cons_zero, Option.some.injEq] at hi; subst hi; exact h0 o
      | 1, hi => simp only [List.cons_append, List.getElem?_cons_zero, List.getElem?_cons_succ, Option.some.injEq] at hi; subst hi; exact ⟨o, h1 o⟩
      | 2, hi => simp only [List.cons_append, List.getElem?_cons_zero, List.getElem?_cons_succ, Option.some.injEq] at hi; subst hi; exact h2 o
      | 3, hi => simp only [List.cons_append, List.getElem?_cons_zero, List.getElem?_cons_succ, Option.some.injEq] at hi; subst hi; exact h3 o
      | i + 4, hi =>
        simp only [List.cons_append, List.nil_append, List.getElem?_cons_succ, List.append_nil, Bool.false_eq_true, if_false] at hi
        have hlt := (List.getElem?_eq_some_iff.1 hi).1
        rw [Nat.add_comm, item_entry_normal hv hxx (k := lines.length) (by rw [hni]; rfl) hlt (by rw [hni]; simp; omega)]
        exact hent hi o
    | true =>
      rw [hxx] at hni
      have hx := hx hxx
      obtain ⟨ttl, h5, h6⟩ := item_ttl hlay hv hs hxx hx.ttl (by rw [hni]; simp; omega)
      have h4 := item_time hlay hv hs hxx hok.timestamp hx.time (by rw [hni]; simp; omega)
      have h7 := fun i kv hi hn => item_pricing hlay hv hs hxx hok.pricing hx.pricing (by omega) (i := i) (kv := kv) hi hn
      refine ⟨ttl, fun _ => h5, fun i kv hi o => ?_⟩
      unfold TxPayload.screens at hi
      have hpl : (p.pricing.lines e.blake).length = 2 := by cases p.pricing <;> rfl
      match i, hi with
      | 0, hi => simp only [List.cons_append, List.getElem?_cons_zero, Option.some.injEq] at hi; subst hi; exact h0 o
      | 1, hi => simp only [List.cons_append, List.getElem?_cons_zero, List.getElem?_cons_succ, Option.some.injEq] at hi; subst hi; exact ⟨o, h1 o⟩
      | 2, hi => simp only [List.cons_append, List.getElem?_cons_zero, List.getElem?_cons_succ, Option.some.injEq] at hi; subst hi; exact h2 o
      | 3, hi => simp only [List.cons_append, List.getElem?_cons_zero, List.getElem?_cons_succ, Option.some.injEq] at hi; subst hi; exact h3 o
      | 4, hi => simp only [List.cons_append, List.nil_append, if_true, List.getElem?_cons_zero, List.getElem?_cons_succ, Option.some.injEq] at hi; subst hi; exact h4 o
      | 5, hi => simp only [List.cons_append, List.nil_append, if_true, List.getElem?_cons_zero, List.getElem?_cons_succ, Option.some.injEq] at hi; subst hi; exact h6 o
      | i + 6, hi =>
        simp only [List.cons_append, List.nil_append, if_true, List.getElem?_cons_succ, List.append_assoc] at hi
        rcases Nat.lt_or_ge i 2 with hi2 | hi2
        · rw [List.getElem?_append_left (by rw [hpl]; exact hi2)] at hi
          rw [Nat.add_comm]
          exact h7 i kv hi (by rw [hni]; simp; omega) o
        · rw [List.getElem?_append_right (by rw [hpl]; exact hi2), hpl] at hi
          rcases Nat.lt_or_ge (i - 2) lines.length with hi3 | hi3
          · rw [List.getElem?_append_left hi3] at hi
            rw [show i + 6 = 8 + (i - 2) by omega, item_entry_expert hv hxx (hep hxx (by rintro rfl; simp at hi3))
              (k := lines.length) (by rw [hni]; rfl) hi3 (by rw [hni]; simp; omega)]
            exact hent hi o
          · rw [List.getElem?_append_right hi3] at hi
            have hlt := (List.getElem?_eq_some_iff.1 hi).1
            simp only [List.length_cons, List.length_nil] at hlt
            rw [show i - 2 - lines.length = 0 by omega] at hi
            simp only [List.getElem?_cons_zero, Option.some.injEq] at hi
            subst hi
            rw [show i + 6 = 8 + lines.length by omega, item_approvals hv hxx (k := lines.length) (by rw [hni]; rfl) (by rw [hni]; simp; omega),
              result_approvals, u8_id (approvals_few hs hap hbuf)]
            exact ⟨o, rfl⟩
  obtain ⟨ttl, hd, hitems⟩ := hitems
  refine ⟨_, ttl, ⟨hread, hvalid, fun i hi => ?_⟩, rfl, hd, hnum ttl, hitems⟩
  have hi : i < (p.result e.blake ap e).numItems := hi
  rw [hnum ttl] at hi
  exact ⟨_, hitems i _ (List.getElem?_eq_getElem hi) 0⟩

theorem nativeOp_accepted {e : Env} {p : TxPayload} {t : Nat} {as : List Arg} {ap : List Bytes} (hs : Small e)
    (hp : p.NativeOp t as) (hap : ∀ x ∈ ap, ApprovalOk x) (hbuf : e.buf = p.tx e.blake ap)
    {lines : List (Bytes × Bytes)} (hl : List.Forall₂ (ArgLine.Shows e.blake as) (opLines e.expert as t) lines)
    {time : Bytes} (hx : e.expert = true → p.ExpertOk e.fmtTime time) :
    ∃ s ttl, V1Accepted e s ∧ s.v = p.result e.blake ap e ∧ (e.expert = true → duration ttl = p.ttl / 1000) ∧
      s.v.numItems = (p.screens e.blake e.expert ap.length time ttl (lines ++ opExtra e.expert as.length t lines)).length ∧
      ∀ i kv, (p.screens e.blake e.expert ap.length time ttl (lines ++ opExtra e.expert as.length t lines))[i]? = some kv →
        ∀ o, ∃ c, getItemV1 e s.v i o = .ok kv c := by
  have hH : (e.blake p.encode).length = 32 := e.blake.len _
  have hat : At e.buf 0 (p.tx e.blake ap) := ⟨[], [], by rw [hbuf]; simp, rfl⟩
  have hlay := tx_layout hH hat
  have hv := result_view (p := p) (ap := ap) (e := e) hH
  have hoff : (p.result e.blake ap e).argsOff = p.argsPos := by rw [result_argsOff hH, u8_id hp.pos]
  have hna : (p.result e.blake ap e).numArgs = as.length := result_numArgs hp.args
  have hargs := hlay.args hp.args
  have hok : ∀ a ∈ as, a.Ok := by have := hp.ok.args; rw [hp.args] at this; exact this
  have hep : (p.result e.blake ap e).epType = t := by rw [result_ep, hp.entry]; rfl
  have htg : (p.result e.blake ap e).target.typ = 0 := by rw [result_target hH, hp.target]; rfl
  have hll := hl.length_eq
  have hle := opLines_le hl
  have hkn := hp.known
  simp only [List.mem_cons, List.not_mem_nil, or_false] at hkn
  have hcount : p.opCount e = (lines ++ opExtra e.expert as.length t lines).length := by
    unfold TxPayload.opCount
    rw [hp.target, hp.entry, hp.args, List.length_append]
    show 0 + entryItems e t as.length = _
    unfold opExtra entryItems
    by_cases h2 : t = 2 ∧ e.expert = false
    · rw [if_pos h2, if_pos h2.1, if_neg (by simp [h2.2]), ← hll, h2.1, h2.2]; simp [opLines]
    · rw [if_neg h2, List.length_replicate]
      have : lines.length + (as.length - lines.length) = as.length := by omega
      rw [this]
      by_cases h3 : t = 2
      · rw [if_pos h3, if_pos (by cases hx : e.expert <;> simp_all)]; omega
      · rw [if_neg h3, if_neg (by omega), if_neg (by omega), if_neg (by omega), if_neg (by omega)]; omega
  have hlines : (lines ++ opExtra e.expert as.length t lines).length ≤ 246 := by
    have := hp.few
    rw [List.length_append]
    unfold opExtra
    split
    · simp; omega
    · rw [List.length_replicate]; omega
  have hsan : ∀ o, ∃ o', checkSanity e (p.view e (p.start e.blake ap)) o = .ok () o' := by
    intro o
    have e1 : (p.view e (p.start e.blake ap)).epType = t := hep
    have e2 : (p.view e (p.start e.blake ap)).target.typ = 0 := htg
    have e3 : (p.view e (p.start e.blake ap)).argsOff = p.argsPos := hoff
    have e4 : (p.view e (p.start e.blake ap)).numArgs = as.length := hna
    unfold checkSanity
    rw [if_neg (by rw [e2]; simp), e1, e3, e4]
    refine checkRequired_run hs.fits hok hp.names hargs (fun r hr => ?_) o
    rcases required_shown (ex := e.expert) (as := as) hp.known hr with ⟨h2, rfl⟩ | ⟨l, h1, h2, h3⟩
    · obtain ⟨a, ha⟩ := Option.isSome_iff_exists.1 (hp.id h2)
      exact ⟨a, ha, by simp⟩
    · obtain ⟨a, ha, hb⟩ := Forall₂_present hl h1
      exact ⟨a, h2 ▸ ha, fun h => hb (h3 h)⟩
  refine accepted_screens hs hp.ok hap hbuf hp.chain hp.chain0 hsan hcount (by omega)
    (fun _ _ => by rw [hp.entry]; show t ≠ 0; omega)
    (fun {i kv} hi o => ?_) hx
  have h16 : p.argsPos < 65536 := by have := hp.pos; omega
  rcases Nat.lt_or_ge i lines.length with hi2 | hi2
  · rw [List.getElem?_append_left hi2] at hi
    exact itemEntry_op hs.fits hok hp.names hargs hep hp.known hoff h16 hna hl hi o
  · rw [List.getElem?_append_right hi2] at hi
    rw [show i = lines.length + (i - lines.length) by omega]
    exact itemEntry_extra hs.fits hok hp.names hargs hep hp.known hoff h16 hna hl hp.slots hi o

end Casper
