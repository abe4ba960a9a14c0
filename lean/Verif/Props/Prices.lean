import Verif.Props.Items
/-
C52: the payment shown for a version 1 transaction with classic pricing.
-/
namespace Casper
open M

theorem addThousand_length {xs t : Bytes} (hx : xs.length ≤ 19) (h : addThousand 30 xs = .ok t) : t.length ≤ 25 := by
  by_cases hne : xs = []
  · subst hne
    have h0 : addThousand 30 [] = .ok b!"0" := by decide
    rw [h0] at h
    simp only [Str.ok.injEq] at h
    subst h; decide
  · have hsp := List.takeWhile_append_dropWhile (p := (· != (0x2e : UInt8))) (l := xs)
    have h1 : (0x2e : UInt8) ∉ xs.takeWhile (· != 0x2e) := by
      intro hm
      have := List.all_eq_true.1 (List.all_takeWhile (p := (· != (0x2e : UInt8))) (l := xs)) _ hm
      simp at this
    have h2 : xs.dropWhile (· != (0x2e : UInt8)) = [] ∨ ∃ r, xs.dropWhile (· != (0x2e : UInt8)) = 0x2e :: r := by
      cases hd : xs.dropWhile (· != (0x2e : UInt8)) with
      | nil => exact .inl rfl
      | cons c r =>
        have := List.head?_dropWhile_not (· != (0x2e : UInt8)) xs
        rw [hd] at this
        simp at this
        exact .inr ⟨r, by rw [this]⟩
    have hl := congrArg List.length hsp
    rw [List.length_append] at hl
    have := C18_thousand_separators_partial 30 _ _ h1 h2 (by rw [hsp]; exact hne) (.inr (by rw [hsp]; omega))
    rw [hsp, h] at this
    split at this
    · simp only [Str.ok.injEq] at this
      rw [this, List.length_append, group3_length]
      omega
    · simp at this

theorem decText_long (n : Nat) (h : 10 ^ 19 ≤ n) : 20 ≤ (decText n).length := by
  unfold decText
  rw [if_neg (by omega), List.length_map, List.length_reverse]
  rcases Nat.lt_or_ge (Nat.digits 10 n).length 20 with hl | hl
  · exact absurd ((Nat.digits_length_le_iff (b := 10) (k := 19) (by decide) n).1 (by omega)) (by omega)
  · exact hl

/-- With more than 19 digits the text shown is never the exact one. -/
theorem paymentText_wrong {e : Env} {n s c : Nat} {t : Bytes} (hn : 10 ^ 19 ≤ n) (h : paymentText e n s = .ok t c) :
    t ≠ group3 (decText n) := by
  have hl := decText_long n hn
  have hx : (numStr e 20 n).length ≤ 19 := by
    unfold numStr
    rw [decimal_eq, if_neg (by omega)]
    simp
  intro he
  have hg := congrArg List.length he
  rw [group3_length] at hg
  unfold paymentText at h
  cases ht : addThousand 30 (numStr e 20 n) with
  | ok t' =>
    simp only [ht, pure_run, Res.ok.injEq] at h
    rw [← h.1] at hg
    have := addThousand_length hx ht
    omega
  | err x =>
    simp only [ht, pure_run, Res.ok.injEq] at h
    rw [← h.1] at hg
    simp only [List.length_nil] at hg
    omega
  | fault f => simp only [ht] at h; cases h

theorem itemPricing_limited {e : Env} {p : TxPayload} {v : V1} {H : Bytes → Bytes} {ap : List Bytes} (hl : TxLayout p H ap e.buf)
    (hv : TxView p v) (hs : Small e) (hc : p.chain.length < 256) {amount gas : Nat} {st : Bool}
    (hq : p.pricing = .limited amount gas st) (ha : amount < 2 ^ 64) (s : Nat) :
    ∃ o, pricingValue e v 0 s = paymentText e amount o := by
  have hm : v.header.pmode = 0 := by rw [hv.header]; show p.pricing.tag = 0; rw [hq]; rfl
  have hcl : v.header.chainLen = p.chain.length := by rw [hv.header]; exact u8_id hc
  have hpr := hl.pricing
  have ix : vIndex v .pricing = u16 (123 + p.initiator.addr.length + 8 + 8 + 4 + p.chain.length + (8 + 6 * p.pricing.fields.length) + 1) := by
    simp only [vIndex, hv.size, hv.fo1, hv.psize, hcl]; rw [hv.header]; rfl
  generalize hB : 123 + p.initiator.addr.length + 8 + 8 + 4 + p.chain.length + (8 + 6 * p.pricing.fields.length) = B at *
  rw [hq] at hpr
  simp only [Pricing.fields, List.flatten_cons, List.flatten_nil, At.append, le_length] at hpr
  unfold pricingValue
  rw [if_pos rfl, if_pos hm]
  exact ⟨_, seqThen (indexV_at hs hpr.2.1 ix s) (seqThen (readLE_at hpr.2.1 (by omega)) rfl)⟩

/-- **C52 (partial).** In every review in expert mode of a well-formed transaction with classic pricing, item 6 (if announced)
shows the exact payment amount, if it is below 10^19 motes and the chain name has less than 256 bytes.  Missing: larger
amounts, see `C52_payment_false`. -/
theorem C52_payment_partial (pl : Platform) (hcap : pl.cap ≤ 16384) (d d' : Dev) (hd : d.Ok pl) (rx : Bytes)
    (pin : Bool) (hins : rx.getD 1 0 = 2) (p : TxPayload) (hp : p.Ok) (ap : List Bytes) (hap : ∀ x ∈ ap, ApprovalOk x)
    (hx : d.data ++ rx.drop 5 = 1 :: p.tx pl.blake ap) (h : step pl d (.apdu rx pin) = (d', .pending))
    (hexp : d.expert = true) (hc : p.chain.length < 256) (amount gas : Nat) (st : Bool) (hq : p.pricing = .limited amount gas st)
    (hb : amount < 10 ^ 19) (n o : Nat) (hn : reviewCount pl d' .tx 0 = .ok n o) (h6 : 6 < n) (s : Nat) :
    ∃ c, reviewItem pl d' .tx 6 s = .ok (b!"Payment", group3 (decText amount)) c := by
  obtain ⟨v, -, hs, hok, hdata, rfl, hv, -⟩ := pending_tx hcap hd hins hp hap hx h
  have hH : (pl.blake p.encode).length = 32 := pl.blake.len _
  have hat : At (p.tx pl.blake ap) 0 (p.tx pl.blake ap) := ⟨[], [], by simp, rfl⟩
  rw [reviewCount_v1] at hn
  simp only [Res.ok.injEq] at hn
  rw [reviewItem_v1 hok hdata, show u8 6 = 6 from rfl, if_neg (by omega)]
  refine item_pricing (e := mkEnv pl d.expert (p.tx pl.blake ap)) (p := p) (i := 0) (tx_layout hH hat) ?_ hs hexp hp.pricing ?_ hc ?_ (by omega) s
  · rw [hv]; exact result_view hH
  · rw [hq]; exact hb
  · rw [hq]; rfl

/-- **C52: false, for every payment of 10^19 motes or more.** Such transactions are accepted (see the example below), and
whatever is shown as item 6 is not the payment. -/
theorem C52_payment_false (pl : Platform) (hcap : pl.cap ≤ 16384) (d d' : Dev) (hd : d.Ok pl) (rx : Bytes)
    (pin : Bool) (hins : rx.getD 1 0 = 2) (p : TxPayload) (hp : p.Ok) (ap : List Bytes) (hap : ∀ x ∈ ap, ApprovalOk x)
    (hx : d.data ++ rx.drop 5 = 1 :: p.tx pl.blake ap) (h : step pl d (.apdu rx pin) = (d', .pending))
    (hexp : d.expert = true) (hc : p.chain.length < 256) (amount gas : Nat) (st : Bool) (hq : p.pricing = .limited amount gas st)
    (hb : 10 ^ 19 ≤ amount) (s c : Nat) :
    reviewItem pl d' .tx 6 s ≠ .ok (b!"Payment", group3 (decText amount)) c := by
  obtain ⟨v, -, hs, hok, hdata, rfl, hv, -⟩ := pending_tx hcap hd hins hp hap hx h
  have hH : (pl.blake p.encode).length = 32 := pl.blake.len _
  have hat : At (p.tx pl.blake ap) 0 (p.tx pl.blake ap) := ⟨[], [], by simp, rfl⟩
  have hview : TxView p v.v := by rw [hv]; exact result_view hH
  have ha : amount < 2 ^ 64 := by have := hp.pricing; rw [hq] at this; exact this.1
  rw [reviewItem_v1 hok hdata, show u8 6 = 6 from rfl]
  intro hcon
  by_cases h1 : 6 ≥ 128 ∨ 6 > v.v.numItems
  · rw [if_pos h1] at hcon; cases hcon
  rw [if_neg h1] at hcon
  unfold getItemV1 at hcon
  by_cases h2 : 6 ≥ v.v.numItems
  · rw [if_pos h2] at hcon; cases hcon
  rw [if_neg h2] at hcon
  dsimp only at hcon
  have hx' : (mkEnv pl (d.loaded rx).expert (p.tx pl.blake ap)).expert = true := hexp
  rw [if_neg (by decide), if_neg (by decide), if_neg (by decide), if_neg (by decide), if_pos hx', if_neg (by decide),
    if_neg (by decide), if_pos (by rw [hview.header]; show 6 < 6 + 2; decide)] at hcon
  obtain ⟨o, ho⟩ := itemPricing_limited (e := mkEnv pl (d.loaded rx).expert (p.tx pl.blake ap)) (tx_layout hH hat) hview hs hc hq ha s
  unfold itemPricing at hcon
  rw [bind_run, attempt_run, show 6 - 6 = 0 from rfl, ho] at hcon
  cases hr : paymentText (mkEnv pl (d.loaded rx).expert (p.tx pl.blake ap)) amount o with
  | ok t c' =>
    rw [hr] at hcon
    simp only [Res.bind_ok, pure_run, Res.ok.injEq, Prod.mk.injEq] at hcon
    exact paymentText_wrong hb hr hcon.1.2
  | err x c' =>
    rw [hr] at hcon
    simp only [Res.bind_ok, pure_run, Res.ok.injEq, Prod.mk.injEq] at hcon
    have h1 := congrArg List.length hcon.1.2
    have h2 := decText_long amount hb
    rw [group3_length] at h1
    simp at h1
    omega
  | fault f => rw [hr] at hcon; simp at hcon

/-- A transfer paying `n` motes. -/
def samplePayment (n : Nat) : TxPayload := { sampleTransfer with pricing := .limited n 1 true }

theorem samplePayment_ok (n : Nat) (h : n < 2 ^ 64) : (samplePayment n).Ok :=
  { sampleTransfer_ok with pricing := ⟨h, by decide⟩ }

/-- Both kinds of amounts are accepted in expert mode. -/
example : (samplePayment (10 ^ 18)).Ok ∧ (samplePayment (10 ^ 19)).Ok ∧
    (run samplePl (Dev.init samplePl) (.setExpert true :: sampleUpload (1 :: (samplePayment (10 ^ 18)).tx Blake.H []) 1)).2 =
      [.silent, .reply [] 0x9000, .reply [] 0x9000, .pending] ∧
    (run samplePl (Dev.init samplePl) (.setExpert true :: sampleUpload (1 :: (samplePayment (10 ^ 19)).tx Blake.H []) 1)).2 =
      [.silent, .reply [] 0x9000, .reply [] 0x9000, .pending] :=
  ⟨samplePayment_ok _ (by decide), samplePayment_ok _ (by decide), by decide +kernel, by decide +kernel⟩

end Casper
