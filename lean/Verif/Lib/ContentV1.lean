import Verif.Spec.ContentV1
import Verif.Lib.Loose
import Verif.Lib.V1Fwd
/-
The version 1 parser on payloads with given content whose layout numbers may differ from what Casper writes.
-/
namespace Casper
open M

theorem le_mod_pow (n x : Nat) : le n x = le n (x % 256 ^ n) := by
  induction n generalizing x with
  | zero => rfl
  | succ n ih =>
    rw [le, le, ih (x / 256), ih (x % 256 ^ (n + 1) / 256)]
    have h1 : x % 256 ^ (n + 1) % 256 = x % 256 := by rw [Nat.pow_succ, Nat.mod_mul_left_mod]
    have h2 : x % 256 ^ (n + 1) / 256 = x / 256 % 256 ^ n := by rw [Nat.pow_succ', Nat.mod_mul_right_div_self]
    rw [h1, h2, Nat.mod_mod]

theorem readLE_mod {e : Env} {n off v : Nat} (h : At e.buf off (le n v)) : readLE e n off = .ok (v % 256 ^ n) (off + n) :=
  readLE_at (le_mod_pow n v ▸ h) (Nat.mod_lt _ (Nat.pow_pos (by omega)))

/-! ### Tables -/

theorem readOffsets_loose {e : Env} {off i : Nat} {acc os : List Nat} (h : At e.buf off (entriesFrom i os)) (hi : i + os.length ≤ 65536)
    (ho : i + os.length ≤ acc.length) : ∃ r, readOffsets e os.length i acc off = .ok r (off + 6 * os.length) := by
  induction os generalizing off i acc with
  | nil => exact ⟨acc, rfl⟩
  | cons o os ih =>
    rw [entriesFrom, List.append_assoc, At.append, At.append] at h
    obtain ⟨h1, h2, h3⟩ := h
    simp only [List.length_cons, le_length] at hi ho h2 h3
    obtain ⟨r, hr⟩ := ih (acc := acc.set i (o % 256 ^ 4)) h3 (by omega) (by rw [List.length_set]; omega)
    refine ⟨r, ?_⟩
    rw [List.length_cons, readOffsets]
    refine seqThen (readLE_at h1 (by omega)) (reqThen rfl (seqThen (readLE_mod h2) ?_))
    rw [if_pos (by omega), hr]
    congr 1; omega

/-- What is remembered of a table. -/
structure MetaFor (m : Meta) (fs : List Bytes) (n : Nat) (w : Bool) (t : Bytes) : Prop where
  size : m.size = t.length
  num : t.length = 8 + 6 * m.numFields
  few : m.numFields ≤ 10
  start : ∀ j, j < n → m.fo j = startOf fs j
  whole : w = true → m.fieldsSize = fs.flatten.length

theorem readMetadata_loose {e : Env} {off : Nat} {fs : List Bytes} {n : Nat} {w : Bool} {t : Bytes} (h : Heads fs n w t) (ha : At e.buf off t)
    (hf : fs.flatten.length < 65536) : ∃ m, readMetadata e off = .ok m (off + t.length) ∧ MetaFor m fs n w t := by
  obtain ⟨count, os, size, rfl, h1, h2, h3, h4, h5⟩ := h
  have hst : ∀ j, startOf fs j < 65536 := by
    intro j
    have : startOf fs j ≤ fs.flatten.length := by
      unfold startOf
      conv_rhs => rw [← List.take_append_drop j fs, List.flatten_append, List.length_append]
      omega
    omega
  have hall := ha
  rw [looseTable, List.append_assoc, At.append, At.append] at ha
  obtain ⟨a1, a2, a3⟩ := ha
  simp only [le_length, entriesFrom_length] at a2 a3
  obtain ⟨r, hr⟩ := readOffsets_loose (acc := [0, 0, 0, 0, 0, 0, 0, 0, 0, 0]) a2 (by omega) (by simpa using h3)
  have hc : u8 (count % 256 ^ 4) = os.length := by rw [← h1]; unfold u8; omega
  have hok : readMetadata e off = .ok ⟨os.length, u16 (8 + 6 * os.length), r, u16 (size % 256 ^ 4)⟩ (off + (looseTable count os size).length) := by
    unfold readMetadata
    refine getThen (seqThen (readLE_mod a1) ?_)
    rw [hc]
    refine reqThen ⟨by omega, h3⟩ (seqThen hr (seqThen (readLE_mod a3) (getThen ?_)))
    rw [pure_run, looseTable_length, show off + 4 + 6 * os.length + 4 - off = 8 + 6 * os.length by omega,
      show off + 4 + 6 * os.length + 4 = off + (8 + 6 * os.length) by omega]
  obtain ⟨-, ht⟩ := readMetadata_post _ _ hok
  refine ⟨_, hok, ?_, ?_, h3, ?_, ?_⟩
  · rw [looseTable_length]; exact u16_id (by omega)
  · rw [looseTable_length]
  · intro j hj
    have hlt : j < os.length := (List.getElem?_eq_some_iff.1 (h4 j hj)).1
    have g1 := (At.append.1 (ht.entry j hlt)).2
    have g2 : At e.buf (off + 4 + 6 * j) (le 2 j ++ le 4 (startOf fs j)) := by
      have : ∀ (os : List Nat) (i p : Nat), At e.buf p (entriesFrom i os) → ∀ j o, os[j]? = some o → At e.buf (p + 6 * j) (le 2 (i + j) ++ le 4 o) := by
        intro os
        induction os with
        | nil => intro _ _ _ j o ho; simp at ho
        | cons x os ih =>
          intro i p hp j o ho
          rw [entriesFrom, At.append] at hp
          cases j with
          | zero =>
            simp only [List.getElem?_cons_zero, Option.some.injEq] at ho
            subst ho
            exact hp.1
          | succ j =>
            simp only [List.getElem?_cons_succ] at ho
            have := ih (i + 1) _ hp.2 j o ho
            rw [show i + 1 + j = i + (j + 1) by omega] at this
            exact this.cast (by simp only [List.length_append, le_length]; omega)
      have := this os 0 _ a2 j _ (h4 j hj)
      rwa [Nat.zero_add] at this
    exact g1.le_inj (At.append.1 g2).2 (ht.lt j) (by have := hst j; omega)
  · intro hw
    show u16 (size % 256 ^ 4) = _
    rw [← h5 hw]; unfold u16; omega

/-- Fields behind a table. -/
theorem readMetadata_as {e : Env} {off : Nat} {fs : List Bytes} {n : Nat} {w : Bool} {xs : Bytes} (h : LooseAs n w fs xs) (ha : At e.buf off xs)
    (hf : fs.flatten.length < 65536) : ∃ m t, readMetadata e off = .ok m (off + t.length) ∧ MetaFor m fs n w t ∧
      At e.buf (off + t.length) fs.flatten ∧ xs.length = t.length + fs.flatten.length ∧ Heads fs n w t ∧ At e.buf off t := by
  obtain ⟨t, h1, rfl⟩ := h
  rw [At.append] at ha
  obtain ⟨m, h2, h3⟩ := readMetadata_loose h1 ha.1 hf
  exact ⟨m, t, h2, h3, ha.2, by simp, h1, ha.1⟩

/-! ### Header -/

theorem initiatorKey_of {e : Env} {off : Nat} {tag : UInt8} {addr : Bytes} (hs : Small e)
    (hk : (tag = 0 ∧ (addr = [0] ∨ (∃ k : Bytes, k.length = 32 ∧ addr = 1 :: k) ∨ ∃ k : Bytes, k.length = 33 ∧ addr = 2 :: k)) ∨ (tag = 1 ∧ addr.length = 32))
    (h : At e.buf off addr) : initiatorKey e tag.toNat off = .ok () (off + addr.length) := by
  have hle := h.le
  unfold Small at hs
  rcases hk with ⟨rfl, rfl | ⟨k, hk, rfl⟩ | ⟨k, hk, rfl⟩⟩ | ⟨rfl, hk⟩
  · unfold initiatorKey readPublicKey
    rw [if_pos (by rfl)]
    refine seqThen (readU8_at h) (reqThen (by simp) ?_)
    rw [if_neg (by decide), if_neg (by decide)]; rfl
  · simp only [List.length_cons, hk] at hle ⊢
    unfold initiatorKey readPublicKey
    rw [if_pos (by rfl)]
    refine seqThen (readU8_at h) (reqThen (by simp) ?_)
    rw [if_pos (by rfl), skip_run (by omega)]
  · simp only [List.length_cons, hk] at hle ⊢
    unfold initiatorKey readPublicKey
    rw [if_pos (by rfl)]
    refine seqThen (readU8_at h) (reqThen (by simp) ?_)
    rw [if_neg (by decide), if_pos (by rfl), skip_run (by omega)]
  · rw [hk] at hle ⊢
    unfold initiatorKey readHash
    rw [if_neg (by decide), skip_run (by omega)]

theorem readInitiator_of {e : Env} {s : VS} {addr xs : Bytes} (hs : Small e) (hi : InitOf addr xs) (h : At e.buf s.off xs)
    (hb : payloadFirst s.v = s.off) :
    readInitiator e s = .ok () ⟨s.off + xs.length, { s.v with header := { s.v.header with initMd := 20, initLen := addr.length } }⟩ := by
  obtain ⟨tag, hk, ho, hl⟩ := hi
  have hle := h.le
  have hs' := hs
  unfold Small at hs
  obtain ⟨m, t, h1, h2, h3, h4, -⟩ := readMetadata_as ho h (by
    obtain ⟨t, -, rfl⟩ := ho
    rw [List.length_append] at hle; omega)
  have h20 : t.length = 20 := by simp at h4; omega
  have hal : addr.length ≤ 34 := by
    rcases hk with ⟨rfl, rfl | ⟨k, hk, rfl⟩ | ⟨k, hk, rfl⟩⟩ | ⟨rfl, hk⟩
    · simp
    · simp [hk]
    · simp [hk]
    · omega
  have hn := h2.num
  have f0 : m.fo 0 = 0 := by rw [h2.start 0 (by omega)]; rfl
  have f1 : m.fo 1 = 1 := by rw [h2.start 1 (by omega)]; rfl
  have f2 : m.fieldsSize = 1 + addr.length := by rw [h2.whole rfl]; simp; omega
  have hsz : m.size = 20 := by rw [h2.size, h20]
  rw [h20] at h1 h3
  simp only [List.flatten_cons, List.flatten_nil, List.append_nil] at h3
  rw [At.append] at h3
  obtain ⟨h5, h6⟩ := h3
  unfold readInitiator
  refine lvThen h1 (getThen (reqThen (by omega) ?_))
  rw [show payloadFirst (VS.mk (s.off + 20) s.v).v = s.off from hb, hsz, f0, f1, f2]
  refine atThen rfl (by omega) (updThen ?_)
  refine lvThen (readU8_at h5) (reqThen (by rcases hk with ⟨rfl, -⟩ | ⟨rfl, -⟩ <;> simp) ?_)
  refine atThen rfl (by omega) (getThen ?_)
  refine lvThen (initiatorKey_of hs' hk h6) (atThen (by simp; omega) (by omega) ?_)
  refine getThen ?_
  show Res.ok _ _ = _
  congr 1
  simp only [VS.mk.injEq, V1.mk.injEq, V1Header.mk.injEq, List.length_cons, List.length_nil, true_and, and_true]
  refine ⟨by omega, ?_⟩
  unfold u8; omega

theorem pricingFields_of {e : Env} {s : VS} {pm : Pricing} {m : Meta} {fs : List Bytes} {t : Bytes} {base : Nat} (hs : e.buf.length ≤ 16384)
    (hf : PricingFields fs pm) (h2 : MetaFor m fs fs.length true t) (h3 : At e.buf base fs.flatten) (ho : s.off = base + 1) :
    pricingFields e base m pm.tag s = .ok () ⟨base + fs.flatten.length, s.v⟩ := by
  obtain ⟨off, v⟩ := s
  dsimp only at ho
  subst ho
  have hle := h3.le
  unfold pricingFields
  cases pm with
  | limited a g st =>
    obtain ⟨g1, g2, b, -, rfl⟩ := hf
    have f2 : m.fo 2 = 9 := by rw [h2.start 2 (by simp)]; rfl
    have f3 : m.fo 3 = 10 := by rw [h2.start 3 (by simp)]; rfl
    simp only [List.flatten_cons, List.flatten_nil, List.append_nil, At.append, List.length_singleton, le_length] at h3
    obtain ⟨-, k2, k3, k4⟩ := h3
    rw [if_pos (by rfl), f2, f3]
    refine lvThen (readLE_at k2 (by omega)) (atThen (by rfl) (by omega) ?_)
    refine lvThen (readByte_at k3 (by omega)) (atThen (by rfl) (by omega) ?_)
    refine lvThen (readU8_at k4) ?_
    simp only [pure_run, le_length]
    rfl
  | fixed g x =>
    obtain ⟨g1, g2, rfl⟩ := hf
    have f2 : m.fo 2 = 2 := by rw [h2.start 2 (by simp)]; rfl
    simp only [List.flatten_cons, List.flatten_nil, List.append_nil, At.append, List.length_singleton, le_length] at h3
    obtain ⟨-, k2, k3⟩ := h3
    rw [if_neg (by simp [Pricing.tag]), if_pos (by rfl), f2]
    refine lvThen (readByte_at k2 (by omega)) (atThen (by rfl) (by omega) ?_)
    refine lvThen (readByte_at k3 (by omega)) ?_
    simp only [pure_run]
    rfl
  | prepaid r =>
    obtain ⟨g1, rfl⟩ := hf
    simp only [List.flatten_cons, List.flatten_nil, List.append_nil, List.length_append, List.length_singleton, g1] at hle ⊢
    rw [if_neg (by simp [Pricing.tag]), if_neg (by simp [Pricing.tag]), if_pos (by rfl)]
    refine (lv_run (skip_run (n := 32) (by dsimp only; omega))).trans ?_
    congr 2

theorem readPricing_of {e : Env} {s : VS} {pm : Pricing} {xs : Bytes} (hs : Small e) (hp : PricingOf pm xs) (h : At e.buf s.off xs)
    (hb : payloadFirst s.v + s.v.pmd.fo 4 = s.off) :
    ∃ sz pfs, PricingFields pfs pm ∧ At e.buf (s.off + sz) pfs.flatten ∧ readPricing e s = .ok () ⟨s.off + xs.length,
      { s.v with header := { s.v.header with pmMd := sz, pmItems := 2, pmode := pm.tag } }⟩ := by
  obtain ⟨fs, hf, ho⟩ := hp
  have hle := h.le
  have hs' := hs
  unfold Small at hs
  obtain ⟨m, t, h1, h2, h3, h4, -⟩ := readMetadata_as ho h (by
    obtain ⟨t, -, rfl⟩ := ho
    rw [List.length_append] at hle; omega)
  refine ⟨t.length, fs, hf, h3, ?_⟩
  have hh : ∃ rest, fs = le 1 pm.tag :: rest ∧ 1 ≤ rest.length := by
    cases pm with
    | limited a g st => obtain ⟨-, -, b, -, rfl⟩ := hf; exact ⟨_, rfl, by simp⟩
    | fixed g x => obtain ⟨-, -, rfl⟩ := hf; exact ⟨_, rfl, by simp⟩
    | prepaid r => obtain ⟨-, rfl⟩ := hf; exact ⟨_, rfl, by simp⟩
  obtain ⟨rest, hfs, hr⟩ := hh
  have hlen : 2 ≤ fs.length := by rw [hfs, List.length_cons]; omega
  have f0 : m.fo 0 = 0 := by rw [h2.start 0 (by omega)]; rfl
  have f1 : m.fo 1 = 1 := by rw [h2.start 1 (by omega), hfs]; rfl
  have h5 : At e.buf (s.off + t.length) (le 1 pm.tag) := by
    rw [hfs, List.flatten_cons, At.append] at h3; exact h3.1
  have f2 := h2.whole rfl
  unfold readPricing
  refine lvThen h1 (getThen ?_)
  show _ = _
  simp only [hb, f0, f1, f2, h2.size]
  refine atThen rfl (by omega) (updThen ?_)
  refine lvThen (readByte_at h5 (by cases pm <;> simp [Pricing.tag])) (atThen rfl (by omega) ?_)
  refine seqThen (pricingFields_of hs hf h2 h3 rfl) (atThen rfl (by omega) ?_)
  rw [h4, ← Nat.add_assoc]
  rfl

theorem readV1Header_of {e : Env} {s : VS} {addr init chain pricing : Bytes} {time ttl : Nat} {pm : Pricing} (hs : Small e) (hi : InitOf addr init)
    (hp : PricingOf pm pricing) (ht : time < 2 ^ 64) (hl : ttl < 2 ^ 64)
    (h : At e.buf s.off (init ++ (le 8 time ++ (le 8 ttl ++ (pfx chain ++ pricing)))))
    (hb : payloadFirst s.v = s.off) {body : Bytes} (hm : ∀ i, i < 6 → s.v.pmd.fo i = startOf [init, le 8 time, le 8 ttl, pfx chain, pricing, body] i)
    (hn : s.v.numItems < 200) :
    ∃ sz pfs, PricingFields pfs pm ∧ At e.buf (s.off + (init.length + 8 + 8 + (4 + chain.length)) + sz) pfs.flatten ∧
      readV1Header e s = .ok () ⟨s.off + (init.length + 8 + 8 + (4 + chain.length) + pricing.length),
      { s.v with header := ⟨20, addr.length, u8 chain.length, pm.tag, sz, 2⟩, numItems := u8 (s.v.numItems + if e.expert then 6 else 2) }⟩ := by
  have hs' := hs
  unfold Small at hs
  have hle := h.le
  simp only [At.append] at h
  obtain ⟨h1, h2, h3, h4, h5⟩ := h
  simp only [le_length, pfx_length, List.length_append] at h3 h4 h5 hle
  have f0 : s.v.pmd.fo 0 = 0 := by rw [hm _ (by omega)]; rfl
  have f1 : s.v.pmd.fo 1 = init.length := by rw [hm _ (by omega)]; simp [startOf]
  have f2 : s.v.pmd.fo 2 = init.length + 8 := by rw [hm _ (by omega)]; simp [startOf]
  have f3 : s.v.pmd.fo 3 = init.length + 8 + 8 := by rw [hm _ (by omega)]; simp [startOf]
  have f4 : s.v.pmd.fo 4 = init.length + 8 + 8 + (4 + chain.length) := by
    rw [hm _ (by omega)]; simp [startOf]; omega
  have f5 : s.v.pmd.fo 5 = init.length + 8 + 8 + (4 + chain.length) + pricing.length := by
    rw [hm _ (by omega)]; simp [startOf]; omega
  obtain ⟨sz, pfs, p1, p2, p3⟩ := readPricing_of (s := ⟨s.off + (init.length + 8 + 8 + (4 + chain.length)),
    { s.v with header := { s.v.header with initMd := 20, initLen := addr.length, chainLen := u8 chain.length }, numItems := u8 (s.v.numItems + if e.expert then 4 else 2) }⟩)
    hs' hp (h5.cast (by dsimp only; omega)) (by
    show payloadFirst s.v + s.v.pmd.fo 4 = _
    simp only [hb, f4])
  refine ⟨sz, pfs, p1, p2, ?_⟩
  unfold readV1Header
  refine getThen ?_
  refine atThen (by simp only [f0]; omega) (by omega) (seqThen (readInitiator_of hs' hi h1 hb) (incrThen ?_))
  refine atThen (by simp only [f1]; omega) (by omega) (lvThen (readLE_at h2 (by omega)) (seqThen (incrExpert_run (Nat.mod_lt _ (by omega))) ?_))
  refine atThen (by simp only [f2]; omega) (by omega) (lvThen (readLE_at h3 (by omega)) (seqThen (incrExpert_run (Nat.mod_lt _ (by omega))) ?_))
  refine atThen (by simp only [f3]; omega) (by omega) (seqThen (lvThen (readBytes_at hs'.fits h4) rfl) (incrThen ?_))
  refine atThen (by simp only [f4]; omega) (by omega) ?_
  refine seqThen (a := ()) (Eq.trans ?_ p3) ?_
  · congr 1
    simp only [VS.mk.injEq, V1.mk.injEq, true_and, and_true]
    refine ⟨by omega, ?_⟩
    unfold u8
    split <;> omega
  refine atThen (by simp only [f5]; omega) (by omega) (seqThen (incrExpert_run (Nat.mod_lt _ (by omega))) ?_)
  rw [incrExpert_run (Nat.mod_lt _ (by omega))]
  show Res.ok _ _ = _
  congr 1
  simp only [VS.mk.injEq, V1.mk.injEq, true_and, and_true]
  refine ⟨by omega, ?_⟩
  unfold u8
  split <;> omega

/-! ### Arguments -/

theorem readNamedArgs_good {e : Env} {off : Nat} {as : List Arg} (hf : Fits e) (hok : GoodTypes as)
    (h : At e.buf off (encodeArgs as)) :
    readNamedArgs e as.length off = .ok () (off + (encodeArgs as).length) := by
  induction as generalizing off with
  | nil => rfl
  | cons a as ih =>
    rw [encodeArgs, At.append] at h
    obtain ⟨h1, h2, h3, h4⟩ := arg_at h.1
    obtain ⟨ha, ha'⟩ := hok a (by simp)
    have := ih (fun b hb => hok b (by simp [hb])) h.2
    rw [List.length_cons, readNamedArgs]
    refine seqThen (readBytes_at hf (At.append.1 h1).1) ?_
    rw [← Nat.add_assoc]
    refine seqThen (m := readClvalue e) (seqThen (readBytes_at hf (At.append.1 h2).1) (seqThen (getType_ok ha ha' (opt := 0) (by rw [← Nat.add_assoc]; exact h4)) rfl)) ?_
    have hl := a.encode_length
    rw [show off + 4 + a.name.length + (4 + a.value.length) + a.ty.encode.length = off + a.encode.length by omega,
      this, encodeArgs, List.length_append, Nat.add_assoc]

/-- What the parser remembers of arguments serialized at `off`, said to have `l` bytes. -/
def V1Args.seen (a : V1Args) (off l : Nat) (v : V1) : V1 :=
  match a with
  | named as => { v with argsLen := l % 256 ^ 4, argsType := 0, numArgs := as.length, argsOff := u8 (off + 9) }
  | bytes xs => { v with argsLen := xs.length, argsType := 1, argsOff := u8 (off + 9) }

theorem readArgs_of {e : Env} {s : VS} {a : V1Args} {l : Nat} (hs : Small e) (ha : ∀ as, a = .named as → GoodTypes as) (h : At e.buf s.off (le 4 l ++ a.encode)) :
    readArgs e s = .ok () ⟨s.off + (4 + a.encode.length), a.seen s.off l s.v⟩ := by
  have hs' := hs
  unfold Small at hs
  have hle := h.le
  rw [At.append] at h
  obtain ⟨h1, h2⟩ := h
  simp only [List.length_append, le_length] at h2 hle
  unfold readArgs
  refine lvThen (readLE_mod h1) (updThen ?_)
  cases a with
  | named as =>
    simp only [V1Args.encode, encodeRuntimeArgs, List.length_cons, List.length_append, le_length] at h2 hle
    rw [At.cons, At.append] at h2
    obtain ⟨h2, h3, h4⟩ := h2
    refine lvThen (readU8_at h2) ?_
    have hc := encodeArgs_count as
    rw [if_pos (by rfl)]
    refine updThen (lvThen (readLE_at h3 (by omega)) (modThen ?_))
    rw [lv_run (readNamedArgs_good hs'.fits (ha as rfl) (by simpa using h4))]
    congr 1
    rw [VS.mk.injEq]
    exact ⟨by simp [V1Args.encode, encodeRuntimeArgs]; omega, rfl⟩
  | bytes xs =>
    simp only [V1Args.encode, List.length_cons, pfx_length] at h2 hle ⊢
    rw [At.cons] at h2
    refine lvThen (readU8_at h2.1) ?_
    rw [if_neg (by decide), if_pos (by rfl)]
    refine modThen (lvThen (readBytes_at hs'.fits h2.2) ?_)
    show Res.ok _ _ = _
    congr 1
    rw [VS.mk.injEq]
    exact ⟨by simp; omega, rfl⟩

/-! ### Target -/

theorem readRuntime_of {e : Env} {off : Nat} {rt : VmRuntime} {xs : Bytes} (hs : Small e) (hr : RuntimeOf rt xs) (h : At e.buf off xs) :
    readRuntime e off = .ok () (off + xs.length) := by
  obtain ⟨hseed, -, ho⟩ := hr
  unfold Small at hs
  have hle := h.le
  obtain ⟨m, t, h1, -, h3, h4, -⟩ := readMetadata_as ho h (by
    obtain ⟨t, -, rfl⟩ := ho
    rw [List.length_append] at hle; omega)
  rw [h4, ← Nat.add_assoc]
  unfold readRuntime
  refine seqThen h1 ?_
  cases rt with
  | v1 =>
    refine seqThen (readU8_at h3) ?_
    rw [if_neg (by decide), require_run, if_pos (by rfl)]
    rfl
  | v2 value seed =>
    simp only [VmRuntime.fields, List.flatten_cons, List.flatten_nil, List.append_nil, List.length_append, List.length_singleton, le_length] at h3 h4 ⊢
    rw [At.append, At.append] at h3
    obtain ⟨k1, k2, k3⟩ := h3
    refine seqThen (readU8_at k1) ?_
    rw [if_pos (by rfl)]
    refine seqThen (readLE_mod k2) ?_
    simp only [List.length_singleton, le_length] at k3
    cases seed with
    | none =>
      refine seqThen (readU8_at k3) ?_
      rw [if_neg (by decide), if_pos (by rfl)]
      rfl
    | some x =>
      have := hseed value x rfl
      refine seqThen (readU8_at k3) ?_
      simp only [optional, id, List.length_cons, this] at h4 ⊢
      rw [if_pos (by rfl), readHash, skip_run (by omega)]

/-- What the parser remembers of a target. -/
def TargetSeen (buf : Bytes) (tv : Target) : V1Target → Prop
  | .native => tv.typ = 0
  | .byHash h _ => tv.typ = 1 ∧ At buf tv.ptr h
  | .byName n _ => tv.typ = 2 ∧ At buf tv.ptr n ∧ tv.nameLen = n.length
  | .byPackageHash h v _ => tv.typ = 3 ∧ At buf tv.ptr h ∧ tv.version = v.getD noVersion
  | .byPackageName n v _ => tv.typ = 4 ∧ At buf tv.ptr n ∧ tv.nameLen = n.length ∧ tv.version = v.getD noVersion
  | .session .. => tv.typ = 5

theorem readStored_of {e : Env} {s : VS} {t : V1Target} {r : VmRuntime} {fs : List Bytes} {who rt : Bytes} (hs : Small e) (h1 : StoredOf t r fs)
    (h2 : LooseAs 0 false fs who) (h3 : RuntimeOf r rt) (h : At e.buf s.off (who ++ rt)) (hn : s.v.numItems < 256) :
    ∃ tv, readStored e s = .ok () ⟨s.off + (who.length + rt.length), { s.v with target := tv, numItems := u8 (s.v.numItems + t.items e.expert) }⟩ ∧
      TargetSeen e.buf tv t := by
  have hs' := hs
  unfold Small at hs
  have hle := h.le
  rw [At.append] at h
  rw [List.length_append] at hle
  obtain ⟨h, hrt⟩ := h
  obtain ⟨m, tb, g1, -, g3, g4, -⟩ := readMetadata_as h2 h (by
    obtain ⟨t, -, rfl⟩ := h2
    rw [List.length_append] at hle; omega)
  have hrun : ∀ {o : Nat} {w : V1}, o = s.off + who.length → lv (readRuntime e) ⟨o, w⟩ = .ok () ⟨s.off + (who.length + rt.length), w⟩ := by
    rintro o w rfl
    rw [lv_run (readRuntime_of hs' h3 hrt), Nat.add_assoc]
  unfold readStored
  cases h1 with
  | byHash x _ hx =>
    simp only [List.flatten_cons, List.flatten_nil, List.append_nil, List.length_append, List.length_singleton, hx] at g3 g4
    rw [At.append] at g3
    refine ⟨{ s.v.target with typ := 1, ptr := s.off + tb.length + 1 }, ?_, rfl, g3.2⟩
    refine lvThen g1 (lvThen (readU8_at g3.1) (incrThen (incrThen ?_)))
    refine seqThen (t := ⟨s.off + tb.length + 1 + 32, { s.v with target := { s.v.target with typ := 1, ptr := s.off + tb.length + 1 }, numItems := u8 (s.v.numItems + 3) }⟩) (a := ()) ?_ (hrun (by omega))
    unfold storedTarget
    rw [if_pos (by rfl)]
    refine modThen (lvThen (skip_run (n := 32) (by dsimp only; omega)) ?_)
    show Res.ok _ _ = _
    congr 1
    simp only [VS.mk.injEq, V1.mk.injEq, true_and, and_true]
    simp [u8]
  | byName x _ =>
    simp only [List.flatten_cons, List.flatten_nil, List.append_nil, List.length_append, List.length_singleton, pfx_length] at g3 g4
    rw [At.append] at g3
    refine ⟨{ s.v.target with typ := 2, ptr := s.off + tb.length + 1 + 4, nameLen := x.length }, ?_, rfl, (At.append.1 g3.2).2, rfl⟩
    refine lvThen g1 (lvThen (readU8_at g3.1) (incrThen (incrThen ?_)))
    refine seqThen (t := ⟨s.off + tb.length + 1 + (4 + x.length), { s.v with target := { s.v.target with typ := 2, ptr := s.off + tb.length + 1 + 4, nameLen := x.length }, numItems := u8 (s.v.numItems + 3) }⟩) (a := ()) ?_ (hrun (by omega))
    unfold storedTarget
    rw [if_neg (by decide), if_pos (by rfl)]
    refine modThen (lvThen (readBytes_at hs'.fits g3.2) (updThen ?_))
    show Res.ok _ _ = _
    congr 1
    simp only [VS.mk.injEq, V1.mk.injEq, true_and, and_true]
    simp [u8]
  | byPackageHash x w _ hx hv =>
    have hw := optional_le_len w
    simp only [List.flatten_cons, List.flatten_nil, List.append_nil, List.length_append, List.length_singleton, hx] at g3 g4
    rw [At.append, At.append, hx] at g3
    refine ⟨{ s.v.target with typ := 3, ptr := s.off + tb.length + 1, version := w.getD noVersion }, ?_, rfl, g3.2.1, rfl⟩
    refine lvThen g1 (lvThen (readU8_at g3.1) (incrThen (incrThen ?_)))
    refine seqThen (t := ⟨s.off + tb.length + 1 + 32 + (optional (le 4) w).length, { s.v with target := { s.v.target with typ := 3, ptr := s.off + tb.length + 1, version := w.getD noVersion }, numItems := u8 (s.v.numItems + (V1Target.byPackageHash x w r).items e.expert) }⟩) (a := ()) ?_ (hrun (by omega))
    unfold storedTarget
    rw [if_neg (by decide), if_neg (by decide), if_pos (by rfl)]
    refine modThen (lvThen (skip_run (n := 32) (by dsimp only; omega)) (lvThen (readEntityVersion_at hv g3.2.2) (updThen (incrThen ?_))))
    refine (incrCond_run (Nat.mod_lt _ (by omega))).trans ?_
    congr 1
    simp only [VS.mk.injEq, V1.mk.injEq, true_and, and_true]
    simp only [V1Target.items, u8]
    split <;> omega
  | byPackageName x w _ hv =>
    have hw := optional_le_len w
    simp only [List.flatten_cons, List.flatten_nil, List.append_nil, List.length_append, List.length_singleton, pfx_length] at g3 g4
    rw [At.append, At.append, pfx_length] at g3
    refine ⟨{ s.v.target with typ := 4, ptr := s.off + tb.length + 1 + 4, nameLen := x.length, version := w.getD noVersion }, ?_, rfl, (At.append.1 g3.2.1).2, rfl, rfl⟩
    refine lvThen g1 (lvThen (readU8_at g3.1) (incrThen (incrThen ?_)))
    refine seqThen (t := ⟨s.off + tb.length + 1 + (4 + x.length) + (optional (le 4) w).length, { s.v with target := { s.v.target with typ := 4, ptr := s.off + tb.length + 1 + 4, nameLen := x.length, version := w.getD noVersion }, numItems := u8 (s.v.numItems + (V1Target.byPackageName x w r).items e.expert) }⟩) (a := ()) ?_ (hrun (by omega))
    unfold storedTarget
    rw [if_neg (by decide), if_neg (by decide), if_neg (by decide), if_pos (by rfl)]
    refine modThen (lvThen (readBytes_at hs'.fits g3.2.1) (updThen (lvThen (readEntityVersion_at hv g3.2.2) (updThen (incrThen ?_)))))
    refine (incrCond_run (Nat.mod_lt _ (by omega))).trans ?_
    congr 1
    simp only [VS.mk.injEq, V1.mk.injEq, true_and, and_true]
    simp only [V1Target.items, u8]
    split <;> omega

theorem readTarget_of {e : Env} {s : VS} {t : V1Target} {xs : Bytes} {l : Nat} (hs : Small e) (ht : TargetOf t xs)
    (h : At e.buf s.off (le 4 l ++ xs)) (hn : s.v.numItems < 256) :
    ∃ tv, readTarget e s = .ok () ⟨s.off + (4 + xs.length), { s.v with target := tv, numItems := u8 (s.v.numItems + t.items e.expert) }⟩ ∧
      TargetSeen e.buf tv t := by
  have hs' := hs
  unfold Small at hs
  have hle := h.le
  rw [List.length_append, le_length] at hle
  rw [At.append, le_length] at h
  obtain ⟨hp, h⟩ := h
  have hfit : ∀ {n w fs}, LooseAs n w fs xs → fs.flatten.length < 65536 := by
    rintro n w fs ⟨t, -, rfl⟩
    rw [List.length_append] at hle; omega
  unfold readTarget
  cases ht with
  | native _ ho =>
    obtain ⟨m, tb, g1, g2, g3, g4, -⟩ := readMetadata_as ho h (hfit ho)
    have f0 : m.fo 0 = 0 := by rw [g2.start 0 (by omega)]; rfl
    have f1 : m.fieldsSize = 1 := by rw [g2.whole rfl]; rfl
    refine ⟨{ s.v.target with typ := 0 }, ?_, rfl⟩
    refine lvThen (readLE_mod hp) (lvThen g1 (getThen ?_))
    rw [f0, f1]
    refine atThen rfl (by dsimp only; omega) (lvThen (readU8_at g3) ?_)
    rw [if_pos (by rfl)]
    refine atThen rfl (by dsimp only; omega) ?_
    show Res.ok _ _ = _
    congr 1
    simp only [VS.mk.injEq, V1.mk.injEq, true_and, and_true, V1Target.items]
    refine ⟨by simp at g4; omega, (u8_id hn).symm⟩
  | stored _ r fs who rt _ h1 h2 h3 ho =>
    obtain ⟨m, tb, g1, g2, g3, g4, -⟩ := readMetadata_as ho h (hfit ho)
    have f0 : m.fo 0 = 0 := by rw [g2.start 0 (by omega)]; rfl
    have f1 : m.fo 1 = 1 := by rw [g2.start 1 (by omega)]; rfl
    simp only [List.flatten_cons, List.flatten_nil, List.append_nil, List.length_append, List.length_singleton] at g3 g4
    rw [At.append] at g3
    obtain ⟨tv, q1, q2⟩ := readStored_of (s := ⟨s.off + 4 + tb.length + 1, s.v⟩) hs' h1 h2 h3 g3.2 hn
    refine ⟨tv, ?_, q2⟩
    refine lvThen (readLE_mod hp) (lvThen g1 (getThen ?_))
    rw [f0, f1]
    refine atThen rfl (by dsimp only; omega) (lvThen (readU8_at g3.1) ?_)
    rw [if_neg (by decide), if_pos (by rfl)]
    refine atThen rfl (by dsimp only; omega) ?_
    refine q1.trans ?_
    congr 2
    dsimp only; omega
  | session i r rt code _ h3 ho =>
    obtain ⟨m, tb, g1, g2, g3, g4, -⟩ := readMetadata_as ho h (hfit ho)
    have f0 : m.fo 0 = 0 := by rw [g2.start 0 (by omega)]; rfl
    have f1 : m.fo 1 = 1 := by rw [g2.start 1 (by omega)]; rfl
    simp only [List.flatten_cons, List.flatten_nil, List.append_nil, List.length_append, List.length_singleton, pfx_length] at g3 g4
    rw [At.append, At.append, At.append] at g3
    obtain ⟨k1, k2, k3, k4⟩ := g3
    refine ⟨{ s.v.target with typ := 5 }, ?_, rfl⟩
    refine lvThen (readLE_mod hp) (lvThen g1 (getThen ?_))
    rw [f0, f1]
    refine atThen rfl (by dsimp only; omega) (lvThen (readU8_at k1) ?_)
    rw [if_neg (by decide), if_neg (by decide), if_pos (by rfl)]
    refine atThen rfl (by dsimp only; omega) (updThen ?_)
    refine lvThen (m := readBool e) (seqThen (readU8_at k2) (reqThen (by cases i <;> simp) rfl)) ?_
    refine lvThen (readRuntime_of hs' h3 (k3.cast (by simp))) (lvThen (readBytes_at hs'.fits (k4.cast (by simp))) ?_)
    rw [pure_run]
    congr 1
    simp only [VS.mk.injEq, V1.mk.injEq, true_and, and_true, V1Target.items]
    refine ⟨by omega, (u8_id hn).symm⟩

/-! ### Entry point and scheduling -/

theorem readEntryPoint_of {e : Env} {s : VS} {a : V1Entry} {xs : Bytes} {l : Nat} (hs : Small e) (ha : EntryOf a xs)
    (h : At e.buf s.off (le 4 l ++ xs)) :
    ∃ w cp cl, w = { s.v with epType := a.tag, cepPtr := cp, cepLen := cl, numItems := u8 (s.v.numItems + 1 + entryItems e a.tag s.v.numArgs) } ∧
      (∀ n, a = .custom n → At e.buf cp n ∧ cl = n.length) ∧
      readEntryPoint e s = onCopy (checkSanity e w) ⟨s.off + (4 + xs.length), w⟩ := by
  have hs' := hs
  unfold Small at hs
  have hle := h.le
  rw [List.length_append, le_length] at hle
  rw [At.append, le_length] at h
  obtain ⟨hp, h⟩ := h
  have hfit : ∀ {n w fs}, LooseAs n w fs xs → fs.flatten.length < 65536 := by
    rintro n w fs ⟨t, -, rfl⟩
    rw [List.length_append] at hle; omega
  have h8 : ∀ k, u8 (u8 (s.v.numItems + 1) + k) = u8 (s.v.numItems + 1 + k) := by intro k; unfold u8; omega
  unfold readEntryPoint
  cases ha with
  | custom n _ ho =>
    obtain ⟨m, tb, g1, g2, g3, g4, -⟩ := readMetadata_as ho h (hfit ho)
    have f0 : m.fo 0 = 0 := by rw [g2.start 0 (by omega)]; rfl
    have f1 : m.fo 1 = 1 := by rw [g2.start 1 (by omega)]; rfl
    have f2 : m.fieldsSize = 1 + (4 + n.length) := by rw [g2.whole rfl]; simp; omega
    simp only [List.flatten_cons, List.flatten_nil, List.append_nil, List.length_append, List.length_singleton, pfx_length] at g3 g4
    rw [At.append] at g3
    refine ⟨_, s.off + 4 + tb.length + 1 + 4, n.length, rfl, fun n' hn' => by cases hn'; exact ⟨(At.append.1 g3.2).2, rfl⟩, ?_⟩
    refine lvThen (readLE_mod hp) (lvThen g1 (getThen ?_))
    rw [f0, f1, f2]
    refine atThen rfl (by dsimp only; omega) (lvThen (readU8_at g3.1) (reqThen (by decide) ?_))
    refine seqThen (m := customName e _ _) (a := ()) (t := ⟨s.off + (4 + xs.length), { s.v with cepPtr := s.off + 4 + tb.length + 1 + 4, cepLen := n.length }⟩) ?_ ?_
    · unfold customName
      rw [if_pos (by rfl)]
      refine atThen rfl (by dsimp only; omega) (modThen (lvThen (readBytes_at hs'.fits g3.2) ?_))
      show Res.ok _ _ = _
      congr 1
      simp only [VS.mk.injEq, and_true]
      omega
    · refine atThen (by dsimp only; omega) (by dsimp only; omega) (updThen (incrThen (getThen (incrThen (getThen ?_)))))
      dsimp only
      rw [h8]
      rfl
  | op t _ ht h1 ho =>
    obtain ⟨m, tb, g1, g2, g3, g4, -⟩ := readMetadata_as ho h (hfit ho)
    have f0 : m.fo 0 = 0 := by rw [g2.start 0 (by omega)]; rfl
    have f2 : m.fieldsSize = 1 := by rw [g2.whole rfl]; rfl
    simp only [List.flatten_cons, List.flatten_nil, List.append_nil, le_length] at g3 g4
    refine ⟨_, s.v.cepPtr, s.v.cepLen, rfl, fun n' hn' => (by cases hn'), ?_⟩
    refine lvThen (readLE_mod hp) (lvThen g1 (getThen ?_))
    rw [f0, f2]
    refine atThen rfl (by dsimp only; omega) (lvThen (readByte_at g3 (by omega)) (reqThen ht ?_))
    refine seqThen (m := customName e _ _) (a := ()) (by unfold customName; rw [if_neg h1]; rfl) ?_
    refine atThen rfl (by dsimp only; omega) (updThen (incrThen (getThen (incrThen (getThen ?_)))))
    dsimp only
    rw [h8, show s.off + 4 + tb.length + 1 = s.off + (4 + xs.length) by omega]
    rfl

theorem readScheduling_of {e : Env} {s : VS} {xs : Bytes} {l : Nat} (hs : Small e) (ho : LooseAs 1 true [[0]] xs) (h : At e.buf s.off (le 4 l ++ xs)) :
    readScheduling e s = .ok () ⟨s.off + (4 + xs.length), s.v⟩ := by
  unfold Small at hs
  have hle := h.le
  rw [List.length_append, le_length] at hle
  rw [At.append, le_length] at h
  obtain ⟨hp, h⟩ := h
  obtain ⟨m, tb, g1, g2, g3, g4, -⟩ := readMetadata_as ho h (by simp)
  have f0 : m.fo 0 = 0 := by rw [g2.start 0 (by omega)]; rfl
  have f2 : m.fieldsSize = 1 := by rw [g2.whole rfl]; rfl
  simp only [List.flatten_cons, List.flatten_nil, List.append_nil, List.length_singleton] at g3 g4
  unfold readScheduling
  refine lvThen (readLE_mod hp) (lvThen g1 (getThen ?_))
  rw [f0, f2]
  refine atThen rfl (by dsimp only; omega) (lvThen (readU8_at g3) (reqThen rfl ?_))
  refine (atOff_run rfl (by dsimp only; omega)).trans ?_
  congr 2
  dsimp only; omega

/-! ### Body, payload, transaction -/

/-- What remains when the arguments are found to be complete, or not. -/
theorem gateThen {R : Res VS Unit} {m : M VS Unit} {k : Unit → M VS Unit} {s t u : VS} (h : m s = Res.bind R (fun _ _ => .ok () t))
    (hk : k () t = .ok () u) : (m >>= k) s = Res.bind R (fun _ _ => .ok () u) := by
  rw [bind_run, h]
  cases R with
  | ok a s => exact hk
  | err x s => rfl
  | fault f => rfl

/-- What the parser remembers of a body; its arguments' length is at `pos`. -/
structure BodySeen (e : Env) (pos : Nat) (a : V1Args) (l0 : Nat) (t : V1Target) (en : V1Entry) (v w : V1) : Prop where
  md : w.md = v.md
  pmd : w.pmd = v.pmd
  header : w.header = v.header
  ep : w.epType = en.tag
  custom : ∀ n, en = .custom n → At e.buf w.cepPtr n ∧ w.cepLen = n.length
  target : TargetSeen e.buf w.target t
  argsOff : w.argsOff = u8 (pos + 9)
  named : ∀ as, a = .named as → w.argsType = 0 ∧ w.numArgs = as.length ∧ w.argsLen = l0 ∧ At e.buf (pos + 5) (le 4 as.length) ∧ At e.buf (pos + 9) (encodeArgs as)
  bytes : ∀ xs, a = .bytes xs → w.argsType = 1 ∧ w.argsLen = xs.length ∧ w.numArgs = v.numArgs ∧ At e.buf (pos + 9) xs
  items : w.numItems = u8 (v.numItems + t.items e.expert + 1 + entryItems e en.tag w.numArgs)
  approvals : w.numApprovals = v.numApprovals

theorem readBody_of {e : Env} {s : VS} {a : V1Args} {l0 : Nat} {t : V1Target} {en : V1Entry} {xs : Bytes} (hs : Small e) (ha : ∀ as, a = .named as → GoodTypes as)
    (hb : BodyOf a l0 t en xs) (h : At e.buf s.off xs) (hn : s.v.numItems < 256) :
    ∃ w off, BodySeen e (s.off + 6) a l0 t en s.v w ∧
      readBody e s = Res.bind (onCopy (checkSanity e w) ⟨off, w⟩) (fun _ _ => .ok () ⟨s.off + xs.length, w⟩) := by
  obtain ⟨l1, l2, l3, target, entry, sched, b0, b1, b2, b3, rfl⟩ := hb
  have hle := h.le
  simp only [List.length_append, le_length] at hle
  have hs' := hs
  unfold Small at hs
  simp only [At.append, le_length] at h
  obtain ⟨h1, h2, h3, h4, h5, h6, h7, h8, h9, h10, h11, h12, h13⟩ := h
  have hseen : (a.seen (s.off + 6) l0 s.v).numItems = s.v.numItems := by cases a <;> rfl
  obtain ⟨tv, t1, t2⟩ := readTarget_of (s := ⟨s.off + 4 + 2 + (4 + a.encode.length) + 2, a.seen (s.off + 6) l0 s.v⟩) hs' b1
    (At.append.2 ⟨h6.cast (by dsimp only; omega), h7.cast (by simp only [le_length]; omega)⟩) (by rw [hseen]; exact hn)
  obtain ⟨w, cp, cl, hw, c1, c2⟩ := readEntryPoint_of (s := ⟨s.off + 4 + 2 + (4 + a.encode.length) + 2 + (4 + target.length) + 2,
      { a.seen (s.off + 6) l0 s.v with target := tv, numItems := u8 ((a.seen (s.off + 6) l0 s.v).numItems + t.items e.expert) }⟩) hs' b2
    (At.append.2 ⟨h9.cast (by dsimp only; omega), h10.cast (by simp only [le_length]; omega)⟩)
  refine ⟨w, s.off + 4 + 2 + (4 + a.encode.length) + 2 + (4 + target.length) + 2 + (4 + entry.length), ?_, ?_⟩
  rotate_left 1
  · unfold readBody
    refine lvThen (readLE_at h1 (by omega)) (reqThen rfl (seqThen (readKey_at h2 (by omega)) ?_))
    refine seqThen (readArgs_of hs' ha (At.append.2 ⟨h3.cast (by dsimp only), h4.cast (by simp only [le_length])⟩)) (seqThen (readKey_at (h5.cast (by dsimp only; omega)) (by omega)) ?_)
    refine seqThen t1 (seqThen (readKey_at (h8.cast (by dsimp only; omega)) (by omega)) ?_)
    refine gateThen (t := ⟨s.off + 4 + 2 + (4 + a.encode.length) + 2 + (4 + target.length) + 2 + (4 + entry.length), w⟩) (c2.trans ?_) (seqThen (readKey_at (h11.cast (by dsimp only; omega)) (by omega))
      ((readScheduling_of hs' b3 (At.append.2 ⟨h12.cast (by dsimp only; omega), h13.cast (by simp only [le_length]; omega)⟩)).trans ?_))
    · unfold onCopy
      dsimp only
      cases checkSanity e w (s.off + 4 + 2 + (4 + a.encode.length) + 2 + (4 + target.length) + 2 + (4 + entry.length)) <;> rfl
    · simp only [List.length_append, le_length]
      congr 2
      omega
  · subst hw
    refine ⟨?_, ?_, ?_, rfl, c1, t2, ?_, ?_, ?_, ?_, ?_⟩
    · cases a <;> rfl
    · cases a <;> rfl
    · cases a <;> rfl
    · cases a <;> rfl
    · rintro as rfl
      simp only [V1Args.encode, encodeRuntimeArgs] at h4
      rw [At.cons, At.append] at h4
      exact ⟨rfl, rfl, Nat.mod_eq_of_lt b0, h4.2.1, h4.2.2.cast (by simp only [le_length])⟩
    · rintro xs rfl
      refine ⟨rfl, rfl, rfl, ?_⟩
      simp only [V1Args.encode, pfx] at h4
      rw [At.cons, At.append] at h4
      exact h4.2.2.cast (by simp only [le_length])
    · dsimp only
      rw [hseen]
      unfold u8
      omega
    · cases a <;> rfl

/-- What the parser remembers of the header. -/
structure HeadSeen (buf : Bytes) (off : Nat) (c : Content) (w : V1) : Prop where
  initMd : w.header.initMd = 20
  initLen : w.header.initLen = c.addr.length
  chainLen : w.header.chainLen = u8 c.chain.length
  mode : w.header.pmode = c.pricing.tag
  items : w.header.pmItems = 2
  addr : At buf (off + w.pmd.size + 21) c.addr
  time : At buf (off + w.pmd.size + 21 + c.addr.length) (le 8 c.time)
  ttl : At buf (off + w.pmd.size + 21 + c.addr.length + 8) (le 8 c.ttl)
  chain : At buf (off + w.pmd.size + 21 + c.addr.length + 8 + 8) (pfx c.chain)
  price : ∃ pfs, PricingFields pfs c.pricing ∧ At buf (off + w.pmd.size + 21 + c.addr.length + 8 + 8 + 4 + c.chain.length + w.header.pmMd) pfs.flatten

theorem readPayload_of {e : Env} {s : VS} {c : Content} {pos : Nat} {xs : Bytes} (hs : Small e) (ha : ∀ as, c.args = .named as → GoodTypes as)
    (hp : PayloadOf c pos xs) (h : At e.buf s.off xs) (hn : s.v.numItems < 200) (hb : s.v.md.size + s.v.md.fo 1 = s.off) :
    ∃ w m h' off, HeadSeen e.buf s.off c w ∧ m.size + m.fieldsSize = xs.length ∧
      BodySeen e (s.off + pos - 4) c.args c.argsSize c.target c.entry { s.v with pmd := m, header := h', numItems := u8 (s.v.numItems + if e.expert then 6 else 2) } w ∧
      readPayload e s = Res.bind (onCopy (checkSanity e w) ⟨off, w⟩) (fun _ _ => .ok () ⟨s.off + xs.length, w⟩) := by
  obtain ⟨tb, init, pricing, body, p1, rfl, p2, p3, p4, p5, p6, rfl⟩ := hp
  have hle := h.le
  have hs' := hs
  unfold Small at hs
  rw [At.append] at h
  obtain ⟨h1, h2⟩ := h
  rw [List.length_append] at hle
  obtain ⟨m, g1, g2⟩ := readMetadata_loose p1 h1 (by omega)
  have hfl : ([init, le 8 c.time, le 8 c.ttl, pfx c.chain, pricing, body] : List Bytes).flatten =
      (init ++ (le 8 c.time ++ (le 8 c.ttl ++ (pfx c.chain ++ pricing)))) ++ body := by simp
  have hfll : (init ++ (le 8 c.time ++ (le 8 c.ttl ++ (pfx c.chain ++ pricing)))).length = init.length + 8 + 8 + (4 + c.chain.length) + pricing.length := by
    simp; omega
  have hwh := g2.whole rfl
  have f0 : m.fo 0 = 0 := by rw [g2.start 0 (by omega)]; rfl
  have f5 : m.fo 5 = init.length + 8 + 8 + (4 + c.chain.length) + pricing.length := by
    rw [g2.start 5 (by omega)]; simp [startOf]; omega
  rw [hfl] at h2 hle hwh ⊢
  rw [At.append] at h2
  obtain ⟨h2, h3⟩ := h2
  rw [List.length_append, hfll] at hle hwh
  rw [hfll] at h3
  have hpf : payloadFirst { s.v with pmd := m } = s.off + tb.length := by
    unfold payloadFirst; dsimp only; rw [g2.size, hb]
  obtain ⟨sz, pfs, q1, q2, q3⟩ := readV1Header_of (s := ⟨s.off + tb.length, { s.v with pmd := m }⟩) hs' p2 p3 p4 p5 h2 hpf
    (fun i hi => g2.start i hi) hn
  obtain ⟨w, off, r1, r2⟩ := readBody_of (s := ⟨s.off + tb.length + (init.length + 8 + 8 + (4 + c.chain.length) + pricing.length),
    { s.v with pmd := m, header := ⟨20, c.addr.length, u8 c.chain.length, c.pricing.tag, sz, 2⟩, numItems := u8 (s.v.numItems + if e.expert then 6 else 2) }⟩)
    hs' ha p6 h3 (Nat.mod_lt _ (by omega))
  have hwh' : w.header = ⟨20, c.addr.length, u8 c.chain.length, c.pricing.tag, sz, 2⟩ := r1.header
  have hwp : w.pmd.size = tb.length := by rw [r1.pmd]; exact g2.size
  refine ⟨w, m, ⟨20, c.addr.length, u8 c.chain.length, c.pricing.tag, sz, 2⟩, off, ?_, ?_, ?_, ?_⟩
  · obtain ⟨tag, hk, ⟨it, i1, i2⟩, i3⟩ := p2
    have hit : it.length = 20 := by
      have := congrArg List.length i2; simp at this; omega
    simp only [At.append] at h2
    obtain ⟨a1, a2, a3, a4, a5⟩ := h2
    simp only [le_length, i3] at a2 a3 a4
    refine ⟨by rw [hwh'], by rw [hwh'], by rw [hwh'], by rw [hwh'], by rw [hwh'], ?_, a2.cast (by rw [hwp]; omega), a3.cast (by rw [hwp]; omega),
      a4.cast (by rw [hwp]; omega), pfs, q1, q2.cast (by rw [hwp, hwh', i3]; dsimp only; omega)⟩
    rw [i2] at a1
    simp only [List.flatten_cons, List.flatten_nil, List.append_nil, At.append, List.length_singleton, hit] at a1
    exact a1.2.2.cast (by rw [hwp])
  · rw [hwh, g2.size]; simp only [List.length_append, le_length, pfx_length]; omega
  · refine Eq.mp ?_ r1
    congr 1
    simp only [pfx_length]; omega
  · unfold readPayload
    refine lvThen g1 (updThen (getThen ?_))
    rw [show payloadFirst (VS.mk (s.off + tb.length) { s.v with pmd := m }).v = s.off + tb.length from hpf, f0, f5, hwh]
    refine atThen rfl (by omega) (seqThen q3 (atThen rfl (by omega) (gateThen r2 ?_)))
    refine (atOff_run (by dsimp only; omega) (by omega)).trans ?_
    congr 2
    simp only [List.length_append, hfll]
    omega

theorem at_left {a b : Bytes} {off : Nat} {xs : Bytes} (h : At (a ++ b) off xs) (hl : off + xs.length ≤ a.length) : At a off xs := by
  obtain ⟨p, q, h1, rfl⟩ := h
  have h2 := congrArg (List.take (p.length + xs.length)) h1
  rw [List.take_append_of_le_length hl, List.take_left' (by simp)] at h2
  refine ⟨p, a.drop (p.length + xs.length), ?_, rfl⟩
  conv_lhs => rw [← List.take_append_drop (p.length + xs.length) a, h2]

theorem looseApproval_long {x : Bytes} (h : LooseApproval x) : 66 ≤ x.length := by
  obtain ⟨key, tag, sig, h1, -, h3, rfl⟩ := h
  simp only [List.length_append, List.length_cons, h3]
  rcases h1 with rfl | ⟨k, hk, rfl⟩ | ⟨k, hk, rfl⟩ <;> simp

theorem readApprovalList_of {e : Env} {off : Nat} {xs : List Bytes} {miss : Bytes} (hs : Small e) (hm : miss.length ≤ 64) (hx : ∀ x ∈ xs, LooseApproval x)
    (h : At (e.buf ++ miss) off xs.flatten) : readApprovalList e xs.length off = .ok () (off + xs.flatten.length) := by
  induction xs generalizing off with
  | nil => rfl
  | cons x xs ih =>
    have hle := h.le
    rw [List.flatten_cons, At.append] at h
    have h2 := ih (fun y hy => hx y (by simp [hy])) h.2
    obtain ⟨key, tag, sg, hk, ht, hsg, rfl⟩ := hx x (by simp)
    simp only [List.flatten_cons, List.length_append, List.length_cons, hsg] at hle h2 ⊢
    unfold Small at hs
    have h1 := h.1
    rw [At.append] at h1
    obtain ⟨k1, k2⟩ := h1
    have k3 := (At.cons.1 k2).1
    replace k1 := at_left k1 (by omega)
    replace k3 := at_left k3 (by simp; omega)
    rw [readApprovalList, ← Nat.add_assoc, ← h2]
    refine seqThen (m := readPublicKey e) (s := off) (a := ()) (t := off + key.length) ?_ (seqThen (m := readSignature e) (a := ()) (t := off + (key.length + (64 + 1))) ?_ rfl)
    · unfold readPublicKey
      rcases hk with rfl | ⟨k, hk, rfl⟩ | ⟨k, hk, rfl⟩
      · refine seqThen (readU8_at k1) (reqThen (by simp) ?_)
        rw [if_neg (by decide), if_neg (by decide)]; rfl
      · refine seqThen (readU8_at k1) (reqThen (by simp) ?_)
        simp only [List.length_cons, hk] at hle ⊢
        rw [if_pos (by rfl), skip_run (by omega)]
      · refine seqThen (readU8_at k1) (reqThen (by simp) ?_)
        simp only [List.length_cons, hk] at hle ⊢
        rw [if_neg (by decide), if_pos (by rfl), skip_run (by omega)]
    · unfold readSignature
      refine seqThen (readU8_at k3) (reqThen (by rcases ht with rfl | rfl <;> simp) ?_)
      rw [skip_run (by omega)]
      congr 1

/-- What the parser remembers of a transaction: its payload begins at `B`, its named arguments (or the bytes instead of them) at `A`, it has `n` approvals. -/
structure ContentSeen (e : Env) (B A : Nat) (c : Content) (n : Nat) (v : V1) : Prop where
  base : v.md.size + v.md.fo 1 = B
  hash : v.md.size + v.md.fo 0 = B - 32 ∧ 32 ≤ B
  head : HeadSeen e.buf B c v
  ep : v.epType = c.entry.tag
  custom : ∀ n, c.entry = .custom n → At e.buf v.cepPtr n ∧ v.cepLen = n.length
  target : TargetSeen e.buf v.target c.target
  argsOff : v.argsOff = u8 A
  named : ∀ as, c.args = .named as → v.argsType = 0 ∧ v.numArgs = as.length ∧ v.argsLen = c.argsSize ∧ At e.buf (A - 4) (encodeRuntimeArgs as) ∧ At e.buf A (encodeArgs as)
  bytes : ∀ xs, c.args = .bytes xs → v.argsType = 1 ∧ v.argsLen = xs.length ∧ v.numArgs = 0 ∧ At e.buf A xs
  items : v.numItems = u8 ((if e.expert then 8 else 3) + c.target.items e.expert + 1 + entryItems e c.entry.tag v.numArgs)
  approvals : v.numApprovals = u8 n

/-- The parser on data with given content: what it remembers, and that it succeeds unless required arguments are missing. -/
theorem readV1_of {e : Env} {c : Content} {pos : Nat} {tb hash payload rest miss : Bytes} {aps : List Bytes} (hs : Small e)
    (h1 : Heads [hash, payload, le 4 aps.length ++ aps.flatten] 3 true tb) (h2 : hash.length = 32) (h3 : PayloadOf c pos payload)
    (h4 : ∀ as, c.args = .named as → GoodTypes as) (h5 : ∀ a ∈ aps, LooseApproval a)
    (h6 : e.buf ++ miss = tb ++ (hash ++ (payload ++ ((le 4 aps.length ++ aps.flatten) ++ rest)))) (h7 : miss.length ≤ 64) (h8 : miss = [] ∨ aps ≠ []) :
    ∃ v s o, ContentSeen e (tb.length + 32) (tb.length + 32 + pos + 5) c aps.length v ∧
      v.pmd.size + v.pmd.fieldsSize = payload.length ∧
      readV1 e ⟨0, {}⟩ = Res.bind (onCopy (checkSanity e v) s) (fun _ _ => .ok () ⟨o, v⟩) := by
  have hs' := hs
  unfold Small at hs
  have hlen := congrArg List.length h6
  simp only [List.length_append, le_length, h2] at hlen
  have hmiss : miss.length ≤ aps.flatten.length ∧ aps.length ≤ aps.flatten.length := by
    have hge : ∀ l : List Bytes, (∀ a ∈ l, LooseApproval a) → 66 * l.length ≤ l.flatten.length := by
      intro l
      induction l with
      | nil => simp
      | cons x l ih =>
        intro hl
        have := looseApproval_long (hl x (by simp))
        have := ih fun y hy => hl y (by simp [hy])
        simp only [List.flatten_cons, List.length_append, List.length_cons]; omega
    have := hge aps h5
    refine ⟨?_, by omega⟩
    rcases h8 with rfl | h
    · simp
    · have : 1 ≤ aps.length := by cases aps <;> simp_all
      omega
  have hat : At (e.buf ++ miss) 0 (tb ++ (hash ++ (payload ++ (le 4 aps.length ++ aps.flatten)))) := ⟨[], rest, by rw [h6]; simp, rfl⟩
  simp only [At.append, Nat.zero_add, h2, le_length] at hat
  obtain ⟨a1, a2, a3, a4, a5⟩ := hat
  replace a1 := at_left a1 (by omega)
  replace a3 := at_left a3 (by omega)
  replace a4 := at_left a4 (by simp only [le_length]; omega)
  have hfl : ([hash, payload, le 4 aps.length ++ aps.flatten] : List Bytes).flatten.length = 32 + (payload.length + (4 + aps.flatten.length)) := by simp [h2]
  obtain ⟨m, g1, g2⟩ := readMetadata_loose h1 a1 (by rw [hfl]; omega)
  rw [Nat.zero_add] at g1
  have f0 : m.fo 0 = 0 := by rw [g2.start 0 (by omega)]; rfl
  have f1 : m.fo 1 = 32 := by rw [g2.start 1 (by omega)]; simp [startOf, h2]
  have f2 : m.fo 2 = 32 + payload.length := by rw [g2.start 2 (by omega)]; simp [startOf, h2]
  have f3 : m.fieldsSize = 32 + (payload.length + (4 + aps.flatten.length)) := by rw [g2.whole rfl, hfl]
  obtain ⟨w, pm, h', off, p1, p2, p3, p4⟩ := readPayload_of (s := ⟨tb.length + 32, { ({} : V1) with md := m, numItems := 1 }⟩) hs' h4 h3 a3 (by show 1 < 200; omega) (by
    show m.size + m.fo 1 = _
    rw [g2.size, f1])
  have hpos : 10 ≤ pos := by obtain ⟨_, _, _, _, -, -, -, -, -, -, -, h⟩ := h3; omega
  have hA : tb.length + 32 + pos - 4 + 9 = tb.length + 32 + pos + 5 := by omega
  refine ⟨{ w with numApprovals := u8 aps.length, numItems := u8 (w.numItems + if e.expert then 1 else 0) }, ⟨off, w⟩, ?_⟩
  have hmd : w.md = m := p3.md
  refine ⟨tb.length + 32 + (payload.length + (4 + aps.flatten.length)), ⟨?_, ?_, ?_, p3.ep, p3.custom, p3.target, ?_, ?_, ?_, ?_, rfl⟩, ?_, ?_⟩
  · show w.md.size + w.md.fo 1 = _
    rw [hmd, g2.size, f1]
  · show w.md.size + w.md.fo 0 = _ ∧ _
    rw [hmd, g2.size, f0]
    omega
  · obtain ⟨b1, b2, b3, b4, b5, b6, b7, b8, b9, b10⟩ := p1
    exact ⟨b1, b2, b3, b4, b5, b6, b7, b8, b9, b10⟩
  · exact p3.argsOff.trans (by rw [hA])
  · rintro as ha
    obtain ⟨q1, q2, q3, q4, q5⟩ := p3.named as ha
    exact ⟨q1, q2, q3, At.append.2 ⟨q4.cast (by dsimp only; omega), q5.cast (by simp only [le_length]; omega)⟩, q5.cast hA.symm⟩
  · rintro as ha
    obtain ⟨q1, q2, q3, q4⟩ := p3.bytes as ha
    exact ⟨q1, q2, q3, q4.cast hA.symm⟩
  · show u8 (w.numItems + _) = _
    rw [p3.items]
    dsimp only
    unfold u8
    split <;> omega
  · show w.pmd.size + w.pmd.fieldsSize = _
    rw [p3.pmd]
    exact p2
  · unfold readV1
    refine reqThen (by omega) (lvThen g1 (updThen ?_))
    rw [f0, f1, f2, f3, g2.size]
    refine atThen rfl (by omega) (lvThen (skip_run (n := 32) (by dsimp only; omega)) (incrThen (atThen rfl (by omega) (gateThen p4 ?_))))
    refine atThen (by dsimp only; omega) (by omega) ?_
    refine seqThen (m := readApprovals e) (a := ()) ?_ (atOff_run (by dsimp only; omega) (by omega))
    unfold readApprovals
    refine lvThen (readLE_at a4 (by omega)) (updThen (lvThen (readApprovalList_of hs' h7 h5 a5) ?_))
    refine (incrExpert_run (by show w.numItems < 256; rw [p3.items]; exact Nat.mod_lt _ (by omega))).trans ?_
    congr 1
    rw [VS.mk.injEq]
    refine ⟨by dsimp only; omega, rfl⟩

end Casper
