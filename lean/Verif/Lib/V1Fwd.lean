import Verif.Lib.V1
import Verif.Spec.V1
/-
Forward execution of the version 1 parser on correctly serialized transactions: what is accepted and what the parser
remembers.
-/
namespace Casper
open M

/-! ### Running step by step -/

theorem lvThen {α β : Type} {m : P α} {k : α → M VS β} {s : VS} {a : α} {o : Nat} {r : Res VS β}
    (h : m s.off = .ok a o) (hk : k a ⟨o, s.v⟩ = r) : (lv m >>= k) s = r := by
  rw [bind_run]; unfold lv; rw [h]; exact hk

theorem lv_run {α : Type} {m : P α} {s : VS} {a : α} {o : Nat} (h : m s.off = .ok a o) : lv m s = .ok a ⟨o, s.v⟩ := by
  unfold lv; rw [h]

theorem seqThen {σ α β : Type} {m : M σ α} {k : α → M σ β} {s t : σ} {a : α} {r : Res σ β}
    (h : m s = .ok a t) (hk : k a t = r) : (m >>= k) s = r := by
  rw [bind_run, h]; exact hk

theorem getThen {σ β : Type} {k : σ → M σ β} {s : σ} {r : Res σ β} (hk : k s s = r) : (M.get >>= k) s = r := hk

theorem updThen {β : Type} {f : V1 → V1} {k : Unit → M VS β} {s : VS} {r : Res VS β}
    (hk : k () ⟨s.off, f s.v⟩ = r) : (updV f >>= k) s = r := hk

theorem modThen {σ β : Type} {f : σ → σ} {k : Unit → M σ β} {s : σ} {r : Res σ β}
    (hk : k () (f s) = r) : (M.modify f >>= k) s = r := hk

theorem setThen {σ β : Type} {t : σ} {k : Unit → M σ β} {s : σ} {r : Res σ β}
    (hk : k () t = r) : (M.set t >>= k) s = r := hk

theorem reqThen {σ β : Type} {c : Prop} [Decidable c] {x : Nat} {k : Unit → M σ β} {s : σ} {r : Res σ β}
    (h : c) (hk : k () s = r) : (M.require c x >>= k) s = r := by
  rw [bind_run, require_run, if_pos h]; exact hk

theorem atOff_run {x : Nat} {s : VS} (h : s.off = x) (hx : x < 4294967296) : atOff x s = .ok () s := by
  unfold atOff; rw [u32_id hx, if_pos h]

theorem atThen {β : Type} {x : Nat} {k : Unit → M VS β} {s : VS} {r : Res VS β}
    (h : s.off = x) (hx : x < 4294967296) (hk : k () s = r) : (atOff x >>= k) s = r := seqThen (atOff_run h hx) hk

theorem incrThen {β : Type} {n : Nat} {k : Unit → M VS β} {s : VS} {r : Res VS β}
    (hk : k () ⟨s.off, { s.v with numItems := u8 (s.v.numItems + n) }⟩ = r) : (incr n >>= k) s = r := hk

theorem incrExpert_run {e : Env} {n : Nat} {s : VS} (hn : s.v.numItems < 256) :
    incrExpert e n s = .ok () ⟨s.off, { s.v with numItems := u8 (s.v.numItems + if e.expert then n else 0) }⟩ := by
  unfold incrExpert
  split
  · rfl
  · simp [u8_id hn]

theorem At.cast {buf : Bytes} {off off' : Nat} {xs : Bytes} (h : At buf off xs) (he : off' = off) : At buf off' xs :=
  he ▸ h

/-! ### Calltables -/

/-- What `field_offsets` contains after reading a correct table. -/
def fill : Nat → Nat → List Bytes → List Nat → List Nat
  | _, _, [], os => os
  | i, start, f :: fs, os => fill (i + 1) (start + f.length) fs (os.set i start)

/-- What is remembered of a correct calltable. -/
def metaOf (fs : List Bytes) : Meta :=
  { numFields := fs.length, size := 8 + 6 * fs.length, offsets := fill 0 0 fs [0, 0, 0, 0, 0, 0, 0, 0, 0, 0],
    fieldsSize := fs.flatten.length }

theorem metaOf_size (fs : List Bytes) : (metaOf fs).size = 8 + 6 * fs.length := rfl
theorem metaOf_fieldsSize (fs : List Bytes) : (metaOf fs).fieldsSize = fs.flatten.length := rfl

theorem tableEntries_length (i start : Nat) (fs : List Bytes) : (tableEntries i start fs).length = 6 * fs.length := by
  induction fs generalizing i start with
  | nil => rfl
  | cons f fs ih => simp [tableEntries, ih]; omega

theorem callTable_length (fs : List Bytes) : (callTable fs).length = 8 + 6 * fs.length + fs.flatten.length := by
  simp only [callTable, List.length_append, le_length, tableEntries_length]; omega

theorem readOffsets_at {e : Env} {off i start : Nat} {os : List Nat} {fs : List Bytes}
    (h : At e.buf off (tableEntries i start fs)) (hi : i + fs.length ≤ 65536) (ho : i + fs.length ≤ os.length)
    (hs : start + fs.flatten.length < 4294967296) :
    readOffsets e fs.length i os off = .ok (fill i start fs os) (off + 6 * fs.length) := by
  induction fs generalizing off i start os with
  | nil => rfl
  | cons f fs ih =>
    rw [tableEntries, List.append_assoc, At.append, At.append] at h
    obtain ⟨h1, h2, h3⟩ := h
    simp only [List.length_cons, List.flatten_cons, List.length_append, le_length] at hi ho hs h2 h3
    rw [List.length_cons, readOffsets]
    refine seqThen (readLE_at h1 (by omega)) (reqThen rfl (seqThen (readLE_at h2 (by omega)) ?_))
    rw [if_pos (by omega), ih h3 (by omega) (by rw [List.length_set]; omega) (by omega), fill]
    congr 1; omega

theorem readMetadata_at {e : Env} {off : Nat} {fs : List Bytes} (h : At e.buf off (callTable fs))
    (h0 : 0 < fs.length) (h1 : fs.length ≤ 10) (h2 : fs.flatten.length < 65536) :
    readMetadata e off = .ok (metaOf fs) (off + (8 + 6 * fs.length)) := by
  rw [callTable, List.append_assoc, List.append_assoc, At.append, At.append, At.append] at h
  obtain ⟨ha, hb, hc, -⟩ := h
  simp only [le_length, tableEntries_length] at hb hc
  unfold readMetadata
  refine getThen (seqThen (readLE_at ha (by omega)) ?_)
  rw [u8_id (by omega)]
  refine reqThen ⟨h0, h1⟩ (seqThen (readOffsets_at hb (by omega) (by simpa using h1) (by omega)) (seqThen (readLE_at hc (by omega)) ?_))
  refine getThen ?_
  rw [pure_run]
  rw [u16_id h2, show off + 4 + 6 * fs.length + 4 - off = 8 + 6 * fs.length by omega, u16_id (by omega),
    show off + 4 + 6 * fs.length + 4 = off + (8 + 6 * fs.length) by omega]
  rfl

theorem callTable_fields {buf : Bytes} {off : Nat} {fs : List Bytes} (h : At buf off (callTable fs)) :
    At buf (off + (8 + 6 * fs.length)) fs.flatten := by
  rw [callTable, At.append] at h
  have := h.2
  simp only [List.length_append, le_length, tableEntries_length] at this
  rwa [show off + (8 + 6 * fs.length) = off + (4 + 6 * fs.length + 4) by omega]

/-! ### Small pieces -/

theorem skip_run {n off : Nat} (h : off + n < 65536) : skip n off = .ok () (off + n) := by
  simp [skip, u16_id h]

theorem readBytes_at {e : Env} {off : Nat} {xs : Bytes} (hf : Fits e) (h : At e.buf off (pfx xs)) :
    readBytes e off = .ok xs.length (off + (4 + xs.length)) := by
  rw [Casper.pfx, At.append] at h
  have h2 := h.2.le
  rw [le_length] at h2
  unfold Fits at hf
  unfold readBytes
  refine seqThen (readLE_at h.1 (by omega)) (getThen ?_)
  rw [u32_id (by omega), if_neg (by omega), u16_id (by omega)]
  simp only [bind_run, set_run, Res.bind_ok, pure_run, Nat.add_assoc]

theorem readByte_at {e : Env} {off : Nat} {n : Nat} (h : At e.buf off (le 1 n)) (hn : n < 256) :
    readU8 e off = .ok n (off + 1) := by
  rw [show le 1 n = [UInt8.ofNat (n % 256)] from rfl] at h
  rw [readU8_at h]
  simp [Nat.mod_eq_of_lt hn]

/-! ### Initiator -/

/-- Keys and hashes have their proper lengths. -/
def Initiator.Ok : Initiator → Prop
  | ed25519 k => k.length = 32
  | secp256k1 k => k.length = 33
  | account h => h.length = 32

/-- First field of the encoding. -/
def Initiator.tag : Initiator → UInt8
  | account _ => 1
  | _ => 0

theorem Initiator.encode_eq (a : Initiator) : a.encode = callTable [[a.tag], a.addr] := by cases a <;> rfl

theorem Initiator.Ok.length {a : Initiator} (h : a.Ok) : 32 ≤ a.addr.length ∧ a.addr.length ≤ 34 := by
  cases a <;> simp_all [Initiator.Ok, Initiator.addr]

theorem initiatorKey_at {e : Env} {off : Nat} {a : Initiator} (hs : Small e) (ha : a.Ok) (h : At e.buf off a.addr) :
    initiatorKey e a.tag.toNat off = .ok () (off + a.addr.length) := by
  have hle := h.le
  unfold Small at hs
  cases a <;> simp only [Initiator.Ok, Initiator.addr, Initiator.tag, List.length_cons] at ha h hle ⊢ <;> rw [ha] at hle ⊢
  · unfold initiatorKey readPublicKey
    rw [if_pos (by rfl)]
    refine seqThen (readU8_at h) (reqThen (by simp) ?_)
    rw [if_pos (by rfl), skip_run (by omega)]
  · unfold initiatorKey readPublicKey
    rw [if_pos (by rfl)]
    refine seqThen (readU8_at h) (reqThen (by simp) ?_)
    rw [if_neg (by decide), if_pos (by rfl), skip_run (by omega)]
  · unfold initiatorKey readHash
    rw [if_neg (by decide), skip_run (by omega)]

theorem readInitiator_at {e : Env} {s : VS} {a : Initiator} (hs : Small e) (ha : a.Ok) (h : At e.buf s.off a.encode)
    (hb : payloadFirst s.v = s.off) :
    readInitiator e s = .ok () ⟨s.off + a.encode.length,
      { s.v with header := { s.v.header with initMd := 20, initLen := a.addr.length } }⟩ := by
  have hs' := hs
  unfold Small at hs
  have hle := h.le
  have hal := ha.length
  rw [a.encode_eq] at h hle ⊢
  rw [callTable_length] at hle ⊢
  have hf := callTable_fields h
  simp only [List.flatten_cons, List.flatten_nil, List.append_nil, List.length_append, List.length_cons,
      List.length_nil] at hf hle ⊢
  rw [At.append] at hf
  obtain ⟨h1, h2⟩ := hf
  unfold readInitiator
  refine lvThen (readMetadata_at h (by simp) (by simp) (by simp; omega)) (getThen (reqThen rfl ?_))
  refine atThen (by rw [hb]; rfl) (by rw [hb]; simp [metaOf, Meta.fo, fill]; omega) (updThen ?_)
  refine lvThen (readU8_at h1) (reqThen (by cases a <;> simp [Initiator.tag]) ?_)
  refine atThen (by rw [hb]; rfl) (by rw [hb]; simp [metaOf, Meta.fo, fill]; omega) (getThen ?_)
  refine lvThen (initiatorKey_at hs' ha h2) (atThen (by rw [hb]; simp [metaOf]; omega) (by rw [hb]; simp [metaOf]; omega) ?_)
  refine getThen ?_
  show Res.ok _ _ = _
  congr 1
  simp only [VS.mk.injEq, V1.mk.injEq, V1Header.mk.injEq, List.length_cons, List.length_nil, true_and, and_true]
  refine ⟨by omega, rfl, ?_⟩
  rw [show s.off + (8 + 6 * (0 + 1 + 1)) + 1 + a.addr.length + 4294967296 - (s.off + (8 + 6 * (0 + 1 + 1)) + 1) =
    a.addr.length + 4294967296 by omega]
  unfold u8; omega

/-! ### Pricing -/

/-- Numbers fit their fields. -/
def Pricing.Ok : Pricing → Prop
  | limited amount gas _ => amount < 2 ^ 64 ∧ gas < 256
  | fixed gas extra => gas < 256 ∧ extra < 256
  | prepaid r => r.length = 32

def Pricing.tag : Pricing → Nat
  | limited .. => 0
  | fixed .. => 1
  | prepaid _ => 2

/-- The fields of the calltable. -/
def Pricing.fields : Pricing → List Bytes
  | limited amount gas standard => [[0], le 8 amount, le 1 gas, [if standard then 1 else 0]]
  | fixed gas extra => [[1], le 1 gas, le 1 extra]
  | prepaid r => [[2], r]

theorem Pricing.encode_eq (a : Pricing) : a.encode = callTable a.fields := by cases a <;> rfl

theorem Pricing.fields_len (a : Pricing) : 2 ≤ a.fields.length ∧ a.fields.length ≤ 4 := by
  cases a <;> simp [Pricing.fields]

theorem Pricing.Ok.len {a : Pricing} (h : a.Ok) : a.fields.flatten.length ≤ 33 := by
  cases a <;> simp_all [Pricing.fields, Pricing.Ok]

theorem pricingFields_at {e : Env} {s : VS} {a : Pricing} {base : Nat} (hs : Small e) (ha : a.Ok)
    (h : At e.buf base a.fields.flatten) (ho : s.off = base + 1) :
    pricingFields e base (metaOf a.fields) a.tag s = .ok () ⟨base + a.fields.flatten.length, s.v⟩ := by
  unfold Small at hs
  have hle := h.le
  cases a <;> simp only [Pricing.fields, Pricing.Ok, Pricing.tag] at h hle ha ⊢ <;>
  simp only [List.flatten_cons, List.flatten_nil, List.append_nil, List.length_append, List.length_cons,
      List.length_nil, le_length] at h hle ⊢
  · rw [At.append, At.append, At.append] at h
    simp only [List.length_cons, List.length_nil, Nat.zero_add, le_length, ← ho] at h
    obtain ⟨h1, h2, h3, h4⟩ := h
    unfold pricingFields
    rw [if_pos (by rfl)]
    refine lvThen (readLE_at h2 (by omega)) (atThen (by simp [metaOf, Meta.fo, fill]; omega) (by simp [metaOf, Meta.fo, fill]; omega) ?_)
    refine lvThen (readByte_at h3 (by omega)) (atThen (by simp [metaOf, Meta.fo, fill]; omega) (by simp [metaOf, Meta.fo, fill]; omega) ?_)
    refine lvThen (readU8_at h4) ?_
    simp only [pure_run, le_length]
    congr 2; omega
  · rw [At.append, At.append] at h
    simp only [List.length_cons, List.length_nil, Nat.zero_add, le_length, ← ho] at h
    obtain ⟨h1, h2, h3⟩ := h
    unfold pricingFields
    rw [if_neg (by decide), if_pos (by rfl)]
    refine lvThen (readByte_at h2 (by omega)) (atThen (by simp [metaOf, Meta.fo, fill]; omega) (by simp [metaOf, Meta.fo, fill]; omega) ?_)
    refine lvThen (readByte_at h3 (by omega)) ?_
    simp only [pure_run]
    congr 2; omega
  · rw [At.append] at h
    simp only [List.length_cons, List.length_nil, Nat.zero_add, le_length, ← ho] at h
    obtain ⟨h1, h2⟩ := h
    unfold pricingFields
    rw [if_neg (by decide), if_neg (by decide), if_pos (by rfl)]
    refine (lv_run (skip_run (n := 32) (by omega))).trans ?_
    congr 2; omega

theorem readPricing_at {e : Env} {s : VS} {a : Pricing} (hs : Small e) (ha : a.Ok) (h : At e.buf s.off a.encode)
    (hb : payloadFirst s.v + s.v.pmd.fo 4 = s.off) :
    readPricing e s = .ok () ⟨s.off + a.encode.length,
      { s.v with header := { s.v.header with pmMd := 8 + 6 * a.fields.length, pmItems := 2, pmode := a.tag } }⟩ := by
  have hs' := hs
  unfold Small at hs
  have hle := h.le
  have hfl := a.fields_len
  have hl := ha.len
  rw [a.encode_eq] at h hle ⊢
  rw [callTable_length] at hle ⊢
  have hf := callTable_fields h
  have h1 : At e.buf (s.off + (8 + 6 * a.fields.length)) (le 1 a.tag) := by
    cases a <;> exact (At.append.1 hf).1
  have hfo : (metaOf a.fields).fo 0 = 0 ∧ (metaOf a.fields).fo 1 = 1 := by cases a <;> exact ⟨rfl, rfl⟩
  unfold readPricing
  refine lvThen (readMetadata_at h (by omega) (by omega) (by omega)) (getThen ?_)
  show _ = _
  simp only [hb, hfo]
  refine atThen rfl (by simp [metaOf]; omega) (updThen ?_)
  refine lvThen (readByte_at h1 (by cases a <;> simp [Pricing.tag])) (atThen rfl (by simp [metaOf]; omega) ?_)
  refine seqThen (pricingFields_at hs' ha hf rfl) (atThen rfl (by rw [metaOf_size, metaOf_fieldsSize]; omega) ?_)
  rw [show s.off + (8 + 6 * a.fields.length + a.fields.flatten.length) =
    s.off + (8 + 6 * a.fields.length) + a.fields.flatten.length by omega]
  rfl

/-! ### Header -/

/-- The fields of the payload. -/
def TxPayload.fields (p : TxPayload) : List Bytes :=
  [p.initiator.encode, le 8 p.timestamp, le 8 p.ttl, pfx p.chain, p.pricing.encode, p.body]

/-- What the parser remembers of the header. -/
def TxPayload.header (p : TxPayload) : V1Header where
  initMd := 20
  initLen := p.initiator.addr.length
  chainLen := u8 p.chain.length
  pmode := p.pricing.tag
  pmMd := 8 + 6 * p.pricing.fields.length
  pmItems := 2

theorem readV1Header_at {e : Env} {s : VS} {p : TxPayload} (hs : Small e) (hi : p.initiator.Ok) (hp : p.pricing.Ok)
    (ht : p.timestamp < 2 ^ 64) (hl : p.ttl < 2 ^ 64) (h : At e.buf s.off (p.fields.take 5).flatten)
    (hb : payloadFirst s.v = s.off) (hm : ∀ i, i ≤ 5 → s.v.pmd.fo i = (metaOf p.fields).fo i) (hn : s.v.numItems < 200) :
    readV1Header e s = .ok () ⟨s.off + (p.fields.take 5).flatten.length,
      { s.v with header := p.header, numItems := u8 (s.v.numItems + if e.expert then 6 else 2) }⟩ := by
  have hs' := hs
  unfold Small at hs
  have hle := h.le
  simp only [TxPayload.fields, List.flatten_cons, List.flatten_nil, List.append_nil, List.length_append, List.take,
      le_length] at h hle ⊢
  rw [At.append, At.append, At.append, At.append] at h
  obtain ⟨h1, h2, h3, h4, h5⟩ := h
  simp only [le_length, pfx_length] at h3 h4 h5 hle ⊢
  have f0 : s.v.pmd.fo 0 = 0 := by rw [hm _ (by omega)]; rfl
  have f1 : s.v.pmd.fo 1 = p.initiator.encode.length := by rw [hm _ (by omega)]; simp [TxPayload.fields, metaOf, Meta.fo, fill]
  have f2 : s.v.pmd.fo 2 = p.initiator.encode.length + 8 := by rw [hm _ (by omega)]; simp [TxPayload.fields, metaOf, Meta.fo, fill]
  have f3 : s.v.pmd.fo 3 = p.initiator.encode.length + 8 + 8 := by rw [hm _ (by omega)]; simp [TxPayload.fields, metaOf, Meta.fo, fill]
  have f4 : s.v.pmd.fo 4 = p.initiator.encode.length + 8 + 8 + (4 + p.chain.length) := by
    rw [hm _ (by omega)]; simp [TxPayload.fields, metaOf, Meta.fo, fill]
  have f5 : s.v.pmd.fo 5 = p.initiator.encode.length + 8 + 8 + (4 + p.chain.length) + p.pricing.encode.length := by
    rw [hm _ (by omega)]; simp [TxPayload.fields, metaOf, Meta.fo, fill]
  unfold readV1Header
  refine getThen ?_
  refine atThen (by simp only [f0]; omega) (by omega) (seqThen (readInitiator_at hs' hi h1 hb) (incrThen ?_))
  refine atThen (by simp only [f1]; omega) (by omega) (lvThen (readLE_at h2 (by omega)) (seqThen (incrExpert_run (Nat.mod_lt _ (by omega))) ?_))
  refine atThen (by simp only [f2]; omega) (by omega) (lvThen (readLE_at h3 (by omega)) (seqThen (incrExpert_run (Nat.mod_lt _ (by omega))) ?_))
  refine atThen (by simp only [f3]; omega) (by omega) (seqThen (lvThen (readBytes_at hs'.fits h4) rfl) (incrThen ?_))
  refine atThen (by simp only [f4]; omega) (by omega) (seqThen (readPricing_at hs' hp h5 (by
    show payloadFirst s.v + s.v.pmd.fo 4 = _
    simp only [hb, f4]; omega)) ?_)
  refine atThen (by simp only [f5]; omega) (by omega) (seqThen (incrExpert_run (Nat.mod_lt _ (by omega))) ?_)
  rw [incrExpert_run (Nat.mod_lt _ (by omega))]
  show Res.ok _ _ = _
  congr 1
  simp only [VS.mk.injEq, V1.mk.injEq, true_and, and_true]
  refine ⟨by omega, rfl, ?_⟩
  unfold u8
  split <;> omega

/-! ### Arguments -/

theorem readNamedArgs_at {e : Env} {off : Nat} {as : List Arg} (hf : Fits e) (hok : ∀ a ∈ as, a.Ok)
    (h : At e.buf off (encodeArgs as)) :
    readNamedArgs e as.length off = .ok () (off + (encodeArgs as).length) := by
  induction as generalizing off with
  | nil => rfl
  | cons a as ih =>
    rw [encodeArgs, At.append] at h
    obtain ⟨h1, h2, h3, h4⟩ := arg_at h.1
    have ha := hok a (by simp)
    have := ih (fun b hb => hok b (by simp [hb])) h.2
    rw [List.length_cons, readNamedArgs]
    refine seqThen (readBytes_at hf (At.append.1 h1).1) ?_
    rw [← Nat.add_assoc]
    refine seqThen (m := readClvalue e) (seqThen (readBytes_at hf (At.append.1 h2).1) (seqThen (getType_ok ha.aligned ha.supported (opt := 0) (by rw [← Nat.add_assoc]; exact h4)) rfl)) ?_
    have hl := a.encode_length
    rw [show off + 4 + a.name.length + (4 + a.value.length) + a.ty.encode.length = off + a.encode.length by omega,
      this, encodeArgs, List.length_append, Nat.add_assoc]

theorem encodeArgs_count (as : List Arg) : 9 * as.length ≤ (encodeArgs as).length := by
  induction as with
  | nil => simp
  | cons a as ih =>
    have := a.encode_length
    have : 0 < a.ty.encode.length := by rw [CLType.encode_eq]; simp
    simp only [encodeArgs, List.length_append, List.length_cons]; omega

/-- The arguments can be walked. -/
def V1Args.Ok : V1Args → Prop
  | named as => ∀ a ∈ as, a.Ok
  | bytes _ => True

/-- What the parser remembers of arguments serialized at `off`. -/
def V1Args.view (a : V1Args) (off : Nat) (v : V1) : V1 :=
  match a with
  | named as => { v with argsLen := a.encode.length, argsType := 0, numArgs := as.length, argsOff := u8 (off + 9) }
  | bytes xs => { v with argsLen := xs.length, argsType := 1, argsOff := u8 (off + 9) }

theorem readArgs_at {e : Env} {s : VS} {a : V1Args} (hs : Small e) (ha : a.Ok) (h : At e.buf s.off (pfx a.encode)) :
    readArgs e s = .ok () ⟨s.off + (4 + a.encode.length), a.view s.off s.v⟩ := by
  have hs' := hs
  unfold Small at hs
  have hle := h.le
  rw [pfx, At.append] at h
  obtain ⟨h1, h2⟩ := h
  simp only [pfx_length, le_length] at h2 hle
  unfold readArgs
  refine lvThen (readLE_at h1 (by omega)) (updThen ?_)
  cases a with
  | named as =>
    simp only [V1Args.encode, encodeRuntimeArgs, List.length_cons, List.length_append, le_length] at h2 hle
    rw [At.cons, At.append] at h2
    obtain ⟨h2, h3, h4⟩ := h2
    refine lvThen (readU8_at h2) ?_
    have hc := encodeArgs_count as
    rw [if_pos (by rfl)]
    refine updThen (lvThen (readLE_at h3 (by omega)) (modThen ?_))
    rw [lv_run (readNamedArgs_at hs'.fits ha (by simpa using h4))]
    congr 1
    rw [VS.mk.injEq]
    exact ⟨by simp [V1Args.encode, encodeRuntimeArgs]; omega, rfl⟩
  | bytes xs =>
    simp only [V1Args.encode, List.length_cons, pfx_length] at h2 hle ⊢
    rw [At.cons] at h2
    refine lvThen (readU8_at h2.1) ?_
    rw [if_neg (by decide), if_pos (by rfl)]
    refine modThen (lvThen (readBytes_at hs'.fits h2.2) ?_)
    show Res.ok _ _ = _
    congr 1
    rw [VS.mk.injEq]
    exact ⟨by simp; omega, rfl⟩

/-! ### Target -/

def VmRuntime.Ok : VmRuntime → Prop
  | v1 => True
  | v2 value seed => value < 2 ^ 64 ∧ ∀ x, seed = some x → x.length = 32

def V1Target.Ok : V1Target → Prop
  | native => True
  | byHash h rt => h.length = 32 ∧ rt.Ok
  | byName _ rt => rt.Ok
  | byPackageHash h v rt => h.length = 32 ∧ (∀ x, v = some x → x < 2 ^ 32) ∧ rt.Ok
  | byPackageName _ v rt => (∀ x, v = some x → x < 2 ^ 32) ∧ rt.Ok
  | session _ rt _ => rt.Ok

theorem readRuntime_at {e : Env} {off : Nat} {rt : VmRuntime} (hs : Small e) (ha : rt.Ok) (h : At e.buf off rt.encode) :
    readRuntime e off = .ok () (off + rt.encode.length) := by
  unfold Small at hs
  have hle := h.le
  unfold readRuntime
  cases rt with
  | v1 =>
    simp only [VmRuntime.encode, callTable_length] at h hle ⊢
    have hf := callTable_fields h
    refine seqThen (readMetadata_at h (by simp) (by simp) (by simp)) (seqThen (readU8_at hf) ?_)
    rw [if_neg (by decide), require_run, if_pos (by rfl)]
    simp [Nat.add_assoc]
  | v2 value seed =>
    simp only [VmRuntime.encode, callTable_length] at h hle ⊢
    obtain ⟨hv, hseed⟩ := ha
    have hf := callTable_fields h
    simp only [List.flatten_cons, List.flatten_nil, List.append_nil, List.length_append, List.length_cons,
      List.length_nil, le_length] at hf hle ⊢
    rw [At.append, At.append] at hf
    obtain ⟨h1, h2, h3⟩ := hf
    refine seqThen (readMetadata_at h (by simp) (by simp) (by simp; omega)) (seqThen (readU8_at h1) ?_)
    rw [if_pos (by rfl)]
    refine seqThen (readLE_at h2 (by omega)) ?_
    cases seed with
    | none =>
      refine seqThen (readU8_at h3) ?_
      rw [if_neg (by decide), if_pos (by rfl)]
      simp [Nat.add_assoc, optional]
    | some x =>
      have := hseed x rfl
      refine seqThen (readU8_at h3) ?_
      simp only [optional, id, List.length_cons, this] at hle ⊢
      rw [if_pos (by rfl), readHash, skip_run (by simp; omega)]
      congr 1

theorem readEntityVersion_at {e : Env} {off : Nat} {v : Option Nat} (hv : ∀ x, v = some x → x < 2 ^ 32)
    (h : At e.buf off (optional (le 4) v)) :
    readEntityVersion e off = .ok (v.getD noVersion) (off + (optional (le 4) v).length) := by
  unfold readEntityVersion readBool
  cases v with
  | none =>
    refine seqThen (seqThen (readU8_at h) (reqThen (by simp) rfl)) ?_
    rw [if_neg (by decide)]; rfl
  | some x =>
    have := hv x rfl
    rw [optional, At.cons] at h
    refine seqThen (seqThen (readU8_at h.1) (reqThen (by simp) rfl)) ?_
    rw [if_pos (by rfl)]
    refine (readLE_at h.2 (by omega)).trans ?_
    simp [optional]

/-- Number of screens a target adds. -/
def V1Target.items (expert : Bool) : V1Target → Nat
  | native | session .. => 0
  | byHash .. | byName .. => 3
  | byPackageHash _ v _ | byPackageName _ v _ => if expert ∧ v.getD noVersion ≠ noVersion then 4 else 3

/-- What the parser remembers of a target serialized at `off`. -/
def V1Target.view (off : Nat) : V1Target → Target
  | native => { typ := 0 }
  | byHash .. => { typ := 1, ptr := off + 48 }
  | byName n _ => { typ := 2, ptr := off + 52, nameLen := n.length }
  | byPackageHash _ v _ => { typ := 3, ptr := off + 54, version := v.getD noVersion }
  | byPackageName n v _ => { typ := 4, ptr := off + 58, nameLen := n.length, version := v.getD noVersion }
  | session .. => { typ := 5 }

/-- The stored-target part behind the tag. -/
def V1Target.inner : V1Target → List Bytes
  | native | session .. => []
  | byHash h _ => [[0], h]
  | byName n _ => [[1], pfx n]
  | byPackageHash h v _ => [[2], h, optional (le 4) v]
  | byPackageName n v _ => [[3], pfx n, optional (le 4) v]

def V1Target.rt : V1Target → VmRuntime
  | native => .v1
  | byHash _ r | byName _ r | byPackageHash _ _ r | byPackageName _ _ r | session _ r _ => r

theorem optional_le_len (v : Option Nat) : 1 ≤ (optional (le 4) v).length ∧ (optional (le 4) v).length ≤ 5 := by
  cases v <;> simp [optional]

theorem incrCond_run {e : Env} {ver : Nat} {s : VS} (hn : s.v.numItems < 256) :
    (if ver ≠ noVersion then incrExpert e 1 else pure ()) s =
      .ok () ⟨s.off, { s.v with numItems := u8 (s.v.numItems + if e.expert ∧ ver ≠ noVersion then 1 else 0) }⟩ := by
  by_cases h : ver = noVersion
  · simp [h, u8_id hn]
  · rw [if_pos h, incrExpert_run hn]; simp [h]

theorem readStored_at {e : Env} {s : VS} {t : V1Target} {off : Nat} (hs : Small e) (ht : t.Ok) (hi : t.inner ≠ [])
    (h : At e.buf s.off (callTable t.inner ++ t.rt.encode)) (h0 : s.v.target = {}) (hn : s.v.numItems < 256)
    (ho : s.off = off + 27) :
    readStored e s = .ok () ⟨s.off + ((callTable t.inner).length + t.rt.encode.length),
      { s.v with target := t.view off, numItems := u8 (s.v.numItems + t.items e.expert) }⟩ := by
  have hs' := hs
  unfold Small at hs
  have hle := h.le
  rw [At.append] at h
  rw [List.length_append] at hle
  obtain ⟨h, hrt⟩ := h
  rw [callTable_length] at hrt hle ⊢
  have hf := callTable_fields h
  cases t with
  | native => simp [V1Target.inner] at hi
  | session => simp [V1Target.inner] at hi
  | byHash x r =>
    simp only [V1Target.inner, V1Target.rt, V1Target.Ok, List.flatten_cons, List.flatten_nil, List.append_nil,
      List.length_append, List.length_cons, List.length_nil] at h hf hle ht hrt ⊢
    rw [At.append] at hf
    obtain ⟨h1, h2⟩ := hf
    rw [ht.1] at hle hrt ⊢
    unfold readStored
    refine lvThen (readMetadata_at h (by simp) (by simp) (by simp [ht.1])) (lvThen (readU8_at h1) (incrThen (incrThen ?_)))
    refine seqThen (t := ⟨s.off + (8 + 6 * 2) + 1 + 32, { s.v with target := (V1Target.byHash x r).view off, numItems := u8 (s.v.numItems + 3) }⟩) (a := ()) ?_ ?_
    · unfold storedTarget
      rw [if_pos (by rfl)]
      refine modThen (lvThen (skip_run (n := 32) (by simp; omega)) ?_)
      show Res.ok _ _ = _
      congr 1
      simp only [VS.mk.injEq, V1.mk.injEq, true_and, and_true, V1Target.view, h0, Target.mk.injEq]
      refine ⟨by simp, by simp; omega, by simp [u8]⟩
    · refine (lv_run (readRuntime_at hs' ht.2 (hrt.cast (by first | rfl | (dsimp only; omega))))).trans ?_
      congr 1
      simp only [VS.mk.injEq, V1Target.items, and_true]; omega
  | byName x r =>
    simp only [V1Target.inner, V1Target.rt, V1Target.Ok, List.flatten_cons, List.flatten_nil, List.append_nil,
      List.length_append, List.length_cons, List.length_nil, pfx_length] at h hf hle ht hrt ⊢
    rw [At.append] at hf
    obtain ⟨h1, h2⟩ := hf
    unfold readStored
    refine lvThen (readMetadata_at h (by simp) (by simp) (by simp; omega)) (lvThen (readU8_at h1) (incrThen (incrThen ?_)))
    refine seqThen (t := ⟨s.off + (8 + 6 * 2) + 1 + (4 + x.length), { s.v with target := (V1Target.byName x r).view off, numItems := u8 (s.v.numItems + 3) }⟩) (a := ()) ?_ ?_
    · unfold storedTarget
      rw [if_neg (by decide), if_pos (by rfl)]
      refine modThen (lvThen (readBytes_at hs'.fits h2) (updThen ?_))
      show Res.ok _ _ = _
      congr 1
      simp only [VS.mk.injEq, V1.mk.injEq, true_and, and_true, V1Target.view, h0, Target.mk.injEq]
      refine ⟨by simp, by simp; omega, by simp [u8]⟩
    · refine (lv_run (readRuntime_at hs' ht (hrt.cast (by first | rfl | (dsimp only; omega))))).trans ?_
      congr 1
      simp only [VS.mk.injEq, V1Target.items, and_true]; omega
  | byPackageHash x w r =>
    have hw := optional_le_len w
    simp only [V1Target.inner, V1Target.rt, V1Target.Ok, List.flatten_cons, List.flatten_nil, List.append_nil,
      List.length_append, List.length_cons, List.length_nil] at h hf hle ht hrt ⊢
    rw [At.append, At.append] at hf
    obtain ⟨h1, h2, h3⟩ := hf
    rw [ht.1] at hle hrt h3 ⊢
    unfold readStored
    refine lvThen (readMetadata_at h (by simp) (by simp) (by simp [ht.1]; omega)) (lvThen (readU8_at h1) (incrThen (incrThen ?_)))
    refine seqThen (t := ⟨s.off + (8 + 6 * 3) + 1 + 32 + (optional (le 4) w).length, { s.v with target := (V1Target.byPackageHash x w r).view off, numItems := u8 (s.v.numItems + (V1Target.byPackageHash x w r).items e.expert) }⟩) (a := ()) ?_ ?_
    · unfold storedTarget
      rw [if_neg (by decide), if_neg (by decide), if_pos (by rfl)]
      refine modThen (lvThen (skip_run (n := 32) (by simp; omega)) (lvThen (readEntityVersion_at ht.2.1 h3) (updThen (incrThen ?_))))
      refine (incrCond_run (Nat.mod_lt _ (by omega))).trans ?_
      congr 1
      simp only [VS.mk.injEq, V1.mk.injEq, true_and, and_true, V1Target.view, h0, Target.mk.injEq]
      refine ⟨by simp, by simp; omega, ?_⟩
      simp only [V1Target.items, u8]
      split <;> omega
    · refine (lv_run (readRuntime_at hs' ht.2.2 (hrt.cast (by first | rfl | (dsimp only; omega))))).trans ?_
      congr 1
      simp only [VS.mk.injEq, and_true]; omega
  | byPackageName x w r =>
    have hw := optional_le_len w
    simp only [V1Target.inner, V1Target.rt, V1Target.Ok, List.flatten_cons, List.flatten_nil, List.append_nil,
      List.length_append, List.length_cons, List.length_nil, pfx_length] at h hf hle ht hrt ⊢
    rw [At.append, At.append] at hf
    obtain ⟨h1, h2, h3⟩ := hf
    rw [pfx_length] at h3
    unfold readStored
    refine lvThen (readMetadata_at h (by simp) (by simp) (by simp; omega)) (lvThen (readU8_at h1) (incrThen (incrThen ?_)))
    refine seqThen (t := ⟨s.off + (8 + 6 * 3) + 1 + (4 + x.length) + (optional (le 4) w).length, { s.v with target := (V1Target.byPackageName x w r).view off, numItems := u8 (s.v.numItems + (V1Target.byPackageName x w r).items e.expert) }⟩) (a := ()) ?_ ?_
    · unfold storedTarget
      rw [if_neg (by decide), if_neg (by decide), if_neg (by decide), if_pos (by rfl)]
      refine modThen (lvThen (readBytes_at hs'.fits h2) (updThen (lvThen (readEntityVersion_at ht.1 h3) (updThen (incrThen ?_)))))
      refine (incrCond_run (Nat.mod_lt _ (by omega))).trans ?_
      congr 1
      simp only [VS.mk.injEq, V1.mk.injEq, true_and, and_true, V1Target.view, h0, Target.mk.injEq]
      refine ⟨by simp, by simp; omega, ?_⟩
      simp only [V1Target.items, u8]
      split <;> omega
    · refine (lv_run (readRuntime_at hs' ht.2 (hrt.cast (by first | rfl | (dsimp only; omega))))).trans ?_
      congr 1
      simp only [VS.mk.injEq, and_true]; omega

theorem V1Target.encode_stored {t : V1Target} (hi : t.inner ≠ []) :
    t.encode = callTable [[1], callTable t.inner, t.rt.encode] := by
  cases t <;> first | rfl | (simp [V1Target.inner] at hi)

theorem V1Target.inner_cases (t : V1Target) :
    t = .native ∨ (∃ i r m, t = .session i r m) ∨ t.inner ≠ [] := by
  cases t <;> simp [V1Target.inner]

theorem readTarget_at {e : Env} {s : VS} {t : V1Target} (hs : Small e) (ht : t.Ok)
    (h : At e.buf s.off (pfx t.encode)) (h0 : s.v.target = {}) (hn : s.v.numItems < 256) :
    readTarget e s = .ok () ⟨s.off + (4 + t.encode.length),
      { s.v with target := t.view (s.off + 4), numItems := u8 (s.v.numItems + t.items e.expert) }⟩ := by
  have hs' := hs
  unfold Small at hs
  have hle := h.le
  rw [pfx_length] at hle
  rw [pfx, At.append, le_length] at h
  obtain ⟨hp, h⟩ := h
  unfold readTarget
  refine lvThen (readLE_at hp (by omega)) ?_
  rcases t.inner_cases with rfl | ⟨i, r, m, rfl⟩ | hi
  · rw [V1Target.encode] at h hle ⊢
    have hf := callTable_fields h
    rw [callTable_length] at hle ⊢
    simp only [List.flatten_cons, List.flatten_nil, List.append_nil, List.length_append, List.length_cons, List.length_nil] at hf hle ⊢
    refine lvThen (readMetadata_at h (by simp) (by simp) (by simp)) (getThen ?_)
    refine atThen rfl (by simp [metaOf, Meta.fo, fill]; omega) (lvThen (readU8_at hf) ?_)
    rw [if_pos (by rfl)]
    refine atThen rfl (by simp [metaOf]; omega) ?_
    show Res.ok _ _ = _
    congr 1
    simp only [VS.mk.injEq, V1.mk.injEq, true_and, and_true, V1Target.view, h0, V1Target.items]
    refine ⟨by simp, (u8_id hn).symm⟩
  · rw [V1Target.encode] at h hle ⊢
    have hf := callTable_fields h
    rw [callTable_length] at hle ⊢
    simp only [List.flatten_cons, List.flatten_nil, List.append_nil, List.length_append, List.length_cons, List.length_nil, pfx_length] at hf hle ⊢
    rw [At.append, At.append, At.append] at hf
    obtain ⟨h1, h2, h3, h4⟩ := hf
    refine lvThen (readMetadata_at h (by simp) (by simp) (by simp; omega)) (getThen ?_)
    refine atThen rfl (by simp [metaOf, Meta.fo, fill]; omega) (lvThen (readU8_at h1) ?_)
    rw [if_neg (by decide), if_neg (by decide), if_pos (by rfl)]
    refine atThen (by simp [metaOf, Meta.fo, fill]) (by simp [metaOf, Meta.fo, fill]; omega) (updThen ?_)
    refine lvThen (m := readBool e) (seqThen (readU8_at h2) (reqThen (by cases i <;> simp) rfl)) ?_
    refine lvThen (readRuntime_at hs' ht (h3.cast (by simp))) (lvThen (readBytes_at hs'.fits (h4.cast (by simp))) ?_)
    rw [pure_run]
    congr 1
    simp only [VS.mk.injEq, V1.mk.injEq, true_and, and_true, V1Target.view, h0, V1Target.items]
    refine ⟨by simp; omega, (u8_id hn).symm⟩
  · rw [t.encode_stored hi] at h hle ⊢
    have hf := callTable_fields h
    rw [callTable_length] at hle ⊢
    simp only [List.flatten_cons, List.flatten_nil, List.append_nil, List.length_append, List.length_cons, List.length_nil] at hf hle ⊢
    rw [At.append] at hf
    obtain ⟨h1, h2⟩ := hf
    refine lvThen (readMetadata_at h (by simp) (by simp) (by simp; omega)) (getThen ?_)
    refine atThen rfl (by simp [metaOf, Meta.fo, fill]; omega) (lvThen (readU8_at h1) ?_)
    rw [if_neg (by decide), if_pos (by rfl)]
    refine atThen (by simp [metaOf, Meta.fo, fill]) (by simp [metaOf, Meta.fo, fill]; omega) ?_
    refine (readStored_at (s := ⟨s.off + 4 + (8 + 6 * (0 + 1 + 1 + 1)) + 1, s.v⟩) hs' ht hi h2 h0 hn (off := s.off + 4) rfl).trans ?_
    congr 2
    dsimp only; omega

/-! ### Entry point and scheduling -/

def V1Entry.Ok : V1Entry → Prop
  | custom _ => True
  | op t => t ≤ 12 ∧ t ≠ 1

def V1Entry.tag : V1Entry → Nat
  | custom _ => 1
  | op t => t

/-- What the parser remembers of an entry point serialized at `off`. -/
def V1Entry.view (a : V1Entry) (off : Nat) (v : V1) : V1 :=
  match a with
  | custom n => { v with epType := 1, cepPtr := off + 25, cepLen := n.length }
  | op t => { v with epType := t }

theorem readEntryPoint_at {e : Env} {s : VS} {a : V1Entry} (hs : Small e) (ha : a.Ok)
    (h : At e.buf s.off (pfx a.encode)) {w : V1}
    (hw : w = { a.view (s.off + 4) s.v with
      numItems := u8 (s.v.numItems + 1 + entryItems e a.tag s.v.numArgs) })
    (hc : ∃ o, checkSanity e w (s.off + (4 + a.encode.length)) = .ok () o) :
    readEntryPoint e s = .ok () ⟨s.off + (4 + a.encode.length), w⟩ := by
  have hs' := hs
  unfold Small at hs
  have hle := h.le
  rw [pfx_length] at hle
  rw [pfx, At.append, le_length] at h
  obtain ⟨hp, h⟩ := h
  unfold readEntryPoint
  refine lvThen (readLE_at hp (by omega)) ?_
  cases a with
  | custom n =>
    rw [V1Entry.encode] at h hle hc ⊢
    have hf := callTable_fields h
    rw [callTable_length] at hle hc ⊢
    simp only [List.flatten_cons, List.flatten_nil, List.append_nil, List.length_append, List.length_cons, List.length_nil, pfx_length] at hf hle hc ⊢
    rw [At.append] at hf
    obtain ⟨h1, h2⟩ := hf
    refine lvThen (readMetadata_at h (by simp) (by simp) (by simp; omega)) (getThen ?_)
    refine atThen rfl (by simp [metaOf, Meta.fo, fill]; omega) (lvThen (readU8_at h1) (reqThen (by decide) ?_))
    refine seqThen (m := customName e _ _) (a := ()) (t := ⟨s.off + 4 + 20 + 1 + (4 + n.length), { s.v with cepPtr := s.off + 4 + 25, cepLen := n.length }⟩) ?_ ?_
    · unfold customName
      rw [if_pos (by rfl)]
      refine atThen (by simp [metaOf, Meta.fo, fill]) (by simp [metaOf, Meta.fo, fill]; omega) (modThen (lvThen (readBytes_at hs'.fits h2) ?_))
      rfl
    · refine atThen (by simp [metaOf]; omega) (by simp [metaOf]; omega) (updThen (incrThen (getThen (incrThen (getThen ?_)))))
      have hw' : ({ s.v with cepPtr := s.off + 4 + 25, cepLen := n.length, epType := 1, numItems := u8 (u8 (s.v.numItems + 1) + entryItems e 1 s.v.numArgs) } : V1) = w := by
        rw [hw]
        simp only [V1Entry.view, V1.mk.injEq, true_and, and_true, V1Entry.tag, u8]
        omega
      obtain ⟨o, ho⟩ := hc
      unfold onCopy
      rw [← hw'] at ho
      have hoff : s.off + (4 + (8 + 6 * (0 + 1 + 1) + (0 + 1 + (4 + n.length)))) = s.off + 4 + 20 + 1 + (4 + n.length) := by omega
      rw [hoff] at ho ⊢
      dsimp only
      rw [show UInt8.toNat 1 = 1 from rfl, ho, ← hw']
  | op t =>
    rw [V1Entry.encode] at h hle hc ⊢
    have hf := callTable_fields h
    rw [callTable_length] at hle hc ⊢
    simp only [List.flatten_cons, List.flatten_nil, List.append_nil, List.length_append, List.length_cons, List.length_nil, le_length] at hf hle hc ⊢
    refine lvThen (readMetadata_at h (by simp) (by simp) (by simp)) (getThen ?_)
    refine atThen rfl (by simp [metaOf, Meta.fo, fill]; omega) (lvThen (readByte_at hf (by have := ha.1; omega)) (reqThen ha.1 ?_))
    refine seqThen (m := customName e _ _) (a := ()) (by unfold customName; rw [if_neg ha.2]; rfl) ?_
    refine atThen (by simp [metaOf]) (by simp [metaOf]; omega) (updThen (incrThen (getThen (incrThen (getThen ?_)))))
    have hw' : ({ s.v with epType := t, numItems := u8 (u8 (s.v.numItems + 1) + entryItems e t s.v.numArgs) } : V1) = w := by
      rw [hw]
      simp only [V1Entry.view, V1.mk.injEq, true_and, and_true, V1Entry.tag, u8]
      omega
    obtain ⟨o, ho⟩ := hc
    unfold onCopy
    rw [← hw'] at ho
    have hoff : s.off + (4 + (8 + 6 * (0 + 1) + 1)) = s.off + 4 + (8 + 6 * (0 + 1)) + 1 := by omega
    rw [hoff] at ho ⊢
    dsimp only
    rw [show List.length [le 1 t] = 0 + 1 from rfl, ho, ← hw']

theorem readScheduling_at {e : Env} {s : VS} (hs : Small e) (h : At e.buf s.off (pfx (callTable [[0]]))) :
    readScheduling e s = .ok () ⟨s.off + 19, s.v⟩ := by
  unfold Small at hs
  have hle := h.le
  rw [pfx_length] at hle
  rw [pfx, At.append, le_length] at h
  obtain ⟨hp, h⟩ := h
  have hf := callTable_fields h
  rw [callTable_length] at hle
  simp only [List.flatten_cons, List.flatten_nil, List.append_nil, List.length_append, List.length_cons, List.length_nil] at hf hle
  unfold readScheduling
  refine lvThen (readLE_at hp (by rw [callTable_length]; decide)) ?_
  refine lvThen (readMetadata_at h (by simp) (by simp) (by simp)) (getThen ?_)
  refine atThen rfl (by simp [metaOf, Meta.fo, fill]; omega) (lvThen (readU8_at hf) (reqThen rfl ?_))
  refine (atOff_run rfl (by simp [metaOf]; omega)).trans ?_
  rfl

/-! ### Body, payload, transaction -/

/-- A payload all of whose parts are well-formed. -/
structure TxPayload.Ok (p : TxPayload) : Prop where
  initiator : p.initiator.Ok
  timestamp : p.timestamp < 2 ^ 64
  ttl : p.ttl < 2 ^ 64
  pricing : p.pricing.Ok
  args : p.args.Ok
  target : p.target.Ok
  entry : p.entry.Ok

/-- What the parser remembers of a body serialized at `off`. -/
def TxPayload.bodyView (p : TxPayload) (e : Env) (off : Nat) (v : V1) : V1 :=
  let v1 := p.args.view (off + 6) v
  let v2 := { v1 with
    target := p.target.view (off + 16 + p.args.encode.length)
    numItems := u8 (v.numItems + p.target.items e.expert) }
  { p.entry.view (off + 22 + p.args.encode.length + p.target.encode.length) v2 with
    numItems := u8 (v2.numItems + 1 + entryItems e p.entry.tag v2.numArgs) }

theorem readKey_at {e : Env} {s : VS} {k : Nat} (h : At e.buf s.off (le 2 k)) (hk : k < 65536) :
    readKey e k s = .ok () ⟨s.off + 2, s.v⟩ := by
  unfold readKey
  refine lvThen (readLE_at h (by omega)) ?_
  rw [require_run, if_pos rfl]

theorem readBody_at {e : Env} {s : VS} {p : TxPayload} (hs : Small e) (hp : p.Ok) (h : At e.buf s.off p.body)
    (h0 : s.v.target = {}) (hn : s.v.numItems < 256)
    (hc : ∀ o, ∃ o', checkSanity e (p.bodyView e s.off s.v) o = .ok () o') :
    readBody e s = .ok () ⟨s.off + p.body.length, p.bodyView e s.off s.v⟩ := by
  have hs' := hs
  unfold Small at hs
  have hle := h.le
  have hbl : p.body.length = 12 + 4 + p.args.encode.length + 4 + p.target.encode.length + 4 + p.entry.encode.length + 19 := by
    simp [TxPayload.body, callTable_length]; omega
  rw [hbl] at hle ⊢
  unfold TxPayload.body at h
  simp only [At.append, pfx_length, le_length, List.length_append] at h
  obtain ⟨⟨⟨⟨h1, h2, h3⟩, h4, h5⟩, h6, h7⟩, h8, h9⟩ := h
  have hv1 : (p.args.view (s.off + 6) s.v).target = {} ∧ (p.args.view (s.off + 6) s.v).numItems = s.v.numItems := by
    cases p.args <;> exact ⟨h0, rfl⟩
  unfold readBody
  refine lvThen (readLE_at h1 (by omega)) (reqThen rfl (seqThen (readKey_at h2 (by omega)) ?_))
  refine seqThen (readArgs_at hs' hp.args h3) (seqThen (readKey_at (h4.cast (by dsimp only; omega)) (by omega)) ?_)
  refine seqThen (readTarget_at hs' hp.target (h5.cast (by dsimp only; omega)) hv1.1 (by rw [hv1.2]; exact hn)) (seqThen (readKey_at (h6.cast (by dsimp only; omega)) (by omega)) ?_)
  refine seqThen (readEntryPoint_at (w := p.bodyView e s.off s.v) hs' hp.entry (h7.cast (by dsimp only; omega)) ?_ (hc _)) (seqThen (readKey_at (h8.cast (by dsimp only; omega)) (by omega)) ?_)
  · unfold TxPayload.bodyView
    dsimp only
    rw [hv1.2, show s.off + 16 + p.args.encode.length = s.off + 4 + 2 + (4 + p.args.encode.length) + 2 + 4 by omega,
      show s.off + 22 + p.args.encode.length + p.target.encode.length =
        s.off + 4 + 2 + (4 + p.args.encode.length) + 2 + (4 + p.target.encode.length) + 2 + 4 by omega]
  · refine (readScheduling_at hs' (h9.cast (by dsimp only; omega))).trans ?_
    congr 2
    dsimp only; omega

/-- What the parser remembers of a payload behind an envelope of `k` bytes. -/
def TxPayload.view (p : TxPayload) (e : Env) (v : V1) : V1 :=
  p.bodyView e (payloadFirst { v with pmd := metaOf p.fields } + (p.fields.take 5).flatten.length)
    { v with pmd := metaOf p.fields, header := p.header, numItems := u8 (v.numItems + if e.expert then 6 else 2) }

theorem TxPayload.encode_eq (p : TxPayload) : p.encode = callTable p.fields := rfl

theorem TxPayload.fields_flatten (p : TxPayload) : p.fields.flatten = (p.fields.take 5).flatten ++ p.body := by
  simp [TxPayload.fields]

theorem readPayload_at {e : Env} {s : VS} {p : TxPayload} (hs : Small e) (hp : p.Ok) (h : At e.buf s.off p.encode)
    (h0 : s.v.target = {}) (hn : s.v.numItems < 200) (hb : s.v.md.size + s.v.md.fo 1 = s.off)
    (hc : ∀ o, ∃ o', checkSanity e (p.view e s.v) o = .ok () o') :
    readPayload e s = .ok () ⟨s.off + p.encode.length, p.view e s.v⟩ := by
  have hs' := hs
  unfold Small at hs
  have hle := h.le
  rw [p.encode_eq] at h hle ⊢
  have hf := callTable_fields h
  rw [callTable_length] at hle ⊢
  have hlen : p.fields.length = 6 := rfl
  have hff := congrArg List.length p.fields_flatten
  rw [List.length_append] at hff
  have hbf := hf
  rw [p.fields_flatten, At.append] at hbf
  have hpf : payloadFirst { s.v with pmd := metaOf p.fields } = s.off + 44 := by
    unfold payloadFirst; dsimp only; rw [metaOf_size, hb]; rfl
  have f5 : (metaOf p.fields).fo 5 = (p.fields.take 5).flatten.length := by
    simp [TxPayload.fields, metaOf, Meta.fo, fill]; omega
  unfold readPayload
  refine lvThen (readMetadata_at h (by omega) (by omega) (by omega)) (updThen (getThen ?_))
  refine atThen (by rw [hpf]; rfl) (by rw [hpf]; simp [TxPayload.fields, metaOf, Meta.fo, fill]; omega) ?_
  refine seqThen (readV1Header_at hs' hp.initiator hp.pricing hp.timestamp hp.ttl hbf.1 hpf (fun _ _ => rfl) hn) ?_
  refine atThen (by rw [hpf, f5]; rfl) (by rw [hpf, f5]; omega) ?_
  unfold TxPayload.view at hc ⊢
  rw [hpf] at hc ⊢
  refine seqThen (readBody_at hs' hp hbf.2 h0 (Nat.mod_lt _ (by omega)) hc) ?_
  refine (atOff_run (by rw [metaOf_fieldsSize]; dsimp only; omega) (by rw [metaOf_fieldsSize]; omega)).trans ?_
  congr 2
  dsimp only
  omega

/-- A serialized approval: a public key and a signature. -/
def ApprovalOk (xs : Bytes) : Prop :=
  ∃ (k s : Bytes) (t : UInt8), ((xs = (1 :: k) ++ t :: s ∧ k.length = 32) ∨ (xs = (2 :: k) ++ t :: s ∧ k.length = 33)) ∧
    (t = 1 ∨ t = 2) ∧ s.length = 64

theorem readApprovalList_at {e : Env} {off : Nat} {xs : List Bytes} (hs : Small e) (hx : ∀ x ∈ xs, ApprovalOk x)
    (h : At e.buf off xs.flatten) : readApprovalList e xs.length off = .ok () (off + xs.flatten.length) := by
  induction xs generalizing off with
  | nil => rfl
  | cons x xs ih =>
    rw [List.flatten_cons, At.append] at h
    obtain ⟨k, sg, t, hk, ht, hsg⟩ := hx x (by simp)
    have hle := h.1.le
    have h2 := ih (fun y hy => hx y (by simp [hy])) h.2
    unfold Small at hs
    rw [List.length_cons, readApprovalList]
    rw [List.flatten_cons, List.length_append, ← Nat.add_assoc, ← h2]
    have hsig : ∀ o, At e.buf o (t :: sg) → o + 65 ≤ 16384 → readSignature e o = .ok () (o + 65) := by
      intro o ha hl
      unfold readSignature
      refine seqThen (readU8_at ha) (reqThen (by rcases ht with rfl | rfl <;> simp) ?_)
      rw [skip_run (by omega)]
    rcases hk with ⟨rfl, hk⟩ | ⟨rfl, hk⟩
    · rw [At.append] at h
      simp only [List.length_cons, List.length_append, hk, hsg] at hle h ⊢
      refine seqThen (m := readPublicKey e) (s := off) (a := ()) (t := off + 33) ?_ ?_
      · unfold readPublicKey
        refine seqThen (readU8_at h.1.1) (reqThen (by simp) ?_)
        rw [if_pos (by rfl), skip_run (by omega)]
      · refine seqThen (hsig _ h.1.2 (by omega)) ?_
        rw [show off + (32 + 1 + (64 + 1)) = off + 33 + 65 by omega]
    · rw [At.append] at h
      simp only [List.length_cons, List.length_append, hk, hsg] at hle h ⊢
      refine seqThen (m := readPublicKey e) (s := off) (a := ()) (t := off + 34) ?_ ?_
      · unfold readPublicKey
        refine seqThen (readU8_at h.1.1) (reqThen (by simp) ?_)
        rw [if_neg (by decide), if_pos (by rfl), skip_run (by omega)]
      · refine seqThen (hsig _ h.1.2 (by omega)) ?_
        rw [show off + (33 + 1 + (64 + 1)) = off + 34 + 65 by omega]

/-- The three fields of a transaction. -/
def TxPayload.txFields (H : Bytes → Bytes) (p : TxPayload) (approvals : List Bytes) : List Bytes :=
  [H p.encode, p.encode, le 4 approvals.length ++ approvals.flatten]

theorem TxPayload.tx_eq (H : Bytes → Bytes) (p : TxPayload) (ap : List Bytes) :
    p.tx H ap = callTable (p.txFields H ap) := rfl

/-- The parser's memory when it comes to the payload. -/
def TxPayload.start (H : Bytes → Bytes) (p : TxPayload) (ap : List Bytes) : V1 :=
  { md := metaOf (p.txFields H ap), numItems := 1 }

/-- What the parser remembers of a transaction. -/
def TxPayload.result (H : Bytes → Bytes) (p : TxPayload) (ap : List Bytes) (e : Env) : V1 :=
  let v := p.view e (p.start H ap)
  { v with numApprovals := u8 ap.length, numItems := u8 (v.numItems + if e.expert then 1 else 0) }

theorem readV1_at {e : Env} {H : Bytes → Bytes} {p : TxPayload} {ap : List Bytes} (hs : Small e) (hp : p.Ok)
    (hH : (H p.encode).length = 32) (hap : ∀ x ∈ ap, ApprovalOk x) (h : At e.buf 0 (p.tx H ap))
    (hc : ∀ o, ∃ o', checkSanity e (p.view e (p.start H ap)) o = .ok () o') :
    readV1 e ⟨0, {}⟩ = .ok () ⟨(p.tx H ap).length, p.result H ap e⟩ := by
  have hs' := hs
  unfold Small at hs
  have hle := h.le
  rw [p.tx_eq] at h hle ⊢
  have hf := callTable_fields h
  rw [callTable_length] at hle ⊢
  have hlen : (p.txFields H ap).length = 3 := rfl
  have hfl : (p.txFields H ap).flatten.length = 32 + (p.encode.length + (4 + ap.flatten.length)) := by
    simp [TxPayload.txFields, hH]
  rw [hlen] at hle hf ⊢
  rw [hfl] at hle ⊢
  simp only [TxPayload.txFields, List.flatten_cons, List.flatten_nil, List.append_nil] at hf
  rw [At.append, At.append, At.append, hH] at hf
  obtain ⟨h1, h2, h3, h4⟩ := hf
  have f0 : (metaOf (p.txFields H ap)).fo 0 = 0 := rfl
  have f1 : (metaOf (p.txFields H ap)).fo 1 = 32 := by simp [TxPayload.txFields, metaOf, Meta.fo, fill, hH]
  have f2 : (metaOf (p.txFields H ap)).fo 2 = 32 + p.encode.length := by
    simp [TxPayload.txFields, metaOf, Meta.fo, fill, hH]
  have hsz : (metaOf (p.txFields H ap)).size = 26 := rfl
  have hcount : ap.length ≤ ap.flatten.length := by
    clear h h1 h2 h3 h4 hc hle f2 f1 f0 hsz hlen hfl
    induction ap with
    | nil => simp
    | cons x xs ih =>
      have := ih (fun y hy => hap y (by simp [hy]))
      obtain ⟨k, sg, t, hk, -⟩ := hap x (by simp)
      have : 1 ≤ x.length := by rcases hk with ⟨rfl, -⟩ | ⟨rfl, -⟩ <;> simp <;> omega
      simp only [List.flatten_cons, List.length_append, List.length_cons]; omega
  unfold readV1
  refine reqThen (by omega) (lvThen (readMetadata_at h (by omega) (by omega) (by omega)) (updThen ?_))
  refine atThen (by rw [f0, hsz]; rfl) (by omega) (lvThen (skip_run (n := 32) (by dsimp only; omega)) (incrThen ?_))
  refine atThen (by rw [f1, hsz]; rfl) (by omega) ?_
  refine seqThen (readPayload_at (s := ⟨58, p.start H ap⟩) hs' hp (h2.cast (by rfl)) rfl (by show 1 < 200; omega) (by show (metaOf _).size + (metaOf _).fo 1 = _; rw [f1, hsz]) hc) ?_
  refine atThen (by rw [f2, hsz]; dsimp only; omega) (by omega) ?_
  refine seqThen (m := readApprovals e) (a := ()) (t := ⟨8 + 6 * 3 + (32 + (p.encode.length + (4 + ap.flatten.length))), p.result H ap e⟩) ?_ (atOff_run (by
    rw [hsz, metaOf_fieldsSize, hfl]) (by rw [hsz, metaOf_fieldsSize, hfl]; omega))
  unfold readApprovals
  refine lvThen (readLE_at (h3.cast (by dsimp only)) (by omega)) (updThen (lvThen (readApprovalList_at hs' hap
    (h4.cast (by rw [le_length]))) ?_))
  refine (incrExpert_run (Nat.mod_lt _ (by omega))).trans ?_
  congr 1
  rw [VS.mk.injEq]
  refine ⟨by dsimp only; omega, rfl⟩

end Casper
