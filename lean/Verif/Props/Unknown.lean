import Verif.Props.Schedule
import Verif.Props.Payment
import Verif.Props.Headers
import Verif.Lib.Unique
import Verif.Props.Calls
import Verif.Spec.Unknown
/-
C73: what is of an unknown kind is refused.
-/
namespace Casper
open M

theorem Parts.tx_parts (H : Bytes → Bytes) (p : TxPayload) (ap : List Bytes) : p.parts.tx H ap = p.tx H ap := rfl

/-! ### A part of an unknown kind -/

theorem lv_bad {α : Type} {m : P α} {s : VS} (h : (m s.off).Bad) : (lv m s).Bad := by
  unfold lv; cases hm : m s.off <;> rw [hm] at h <;> first | exact h.elim | trivial

theorem atOff_or {σ : Type} {x : Nat} {s : VS} {k : Unit → M VS σ} (h : (k () s).Bad) : ((atOff x >>= k) s).Bad := by
  rw [bind_run]
  unfold atOff
  split
  · exact h
  · trivial

theorem updV_bad {σ : Type} {f : V1 → V1} {s : VS} {k : Unit → M VS σ} (h : (k () ⟨s.off, f s.v⟩).Bad) : ((updV f >>= k) s).Bad := h

theorem require_or {σ α : Type} {c : Prop} [Decidable c] {x : Nat} {s : σ} {k : Unit → M σ α} (h : c → (k () s).Bad) : ((require c x >>= k) s).Bad := by
  rw [bind_run, require_run]
  split
  · next hc => exact h hc
  · trivial

theorem require_bad {σ α : Type} {c : Prop} [Decidable c] {x : Nat} {s : σ} {k : Unit → M σ α} (h : ¬ c) : ((require c x >>= k) s).Bad :=
  require_or fun hc => absurd hc h

theorem expert_bad {e : Env} {σ : Type} {n : Nat} {s : VS} {k : Unit → M VS σ} (h : ∀ v, (k () ⟨s.off, v⟩).Bad) : ((incrExpert e n >>= k) s).Bad := by
  unfold incrExpert
  split
  · exact h _
  · exact h _

/-- Reading the table of a part, and the number of its kind. -/
theorem OfKind.read {e : Env} {off : Nat} {k : UInt8} {xs : Bytes} (hs : Small e) (hk : OfKind k xs) (h : At e.buf off xs) :
    ∃ m o, readMetadata e off = .ok m o ∧ readU8 e o = .ok k.toNat (o + 1) := by
  obtain ⟨fs, hl, rfl⟩ := hk.fields
  have hle := h.le
  unfold Small at hs
  rw [callTable_length] at hle
  have hf := callTable_fields h
  refine ⟨_, _, readMetadata_at h (by simp) (by simp; omega) (by omega), ?_⟩
  rw [List.flatten_cons] at hf
  exact readU8_at (At.append.1 hf).1

/-- The fields of a table: where they start, and that the second follows the first. -/
theorem table_start {e : Env} {off : Nat} {k : UInt8} {fs : List Bytes} (hs : Small e) (hl : fs.length ≤ 9) (h : At e.buf off (callTable ([k] :: fs))) :
    ∃ m o, readMetadata e off = .ok m o ∧ readU8 e o = .ok k.toNat (o + 1) ∧ At e.buf (o + 1) fs.flatten := by
  have hle := h.le
  unfold Small at hs
  rw [callTable_length] at hle
  have hf := callTable_fields h
  rw [List.flatten_cons, At.append] at hf
  exact ⟨_, _, readMetadata_at h (by simp) (by simp; omega) (by omega), readU8_at hf.1, hf.2⟩

theorem gt_toNat {a b : UInt8} (h : a < b) : a.toNat < b.toNat := UInt8.lt_iff_toNat_lt.1 h

theorem readInitiator_strange {e : Env} {s : VS} {k : UInt8} {xs : Bytes} (hs : Small e) (hk : 1 < k) (ho : OfKind k xs) (h : At e.buf s.off xs) :
    (readInitiator e s).Bad := by
  obtain ⟨m, o, h1, h2⟩ := ho.read hs h
  have hk := gt_toNat hk
  unfold readInitiator
  refine badOf (lvThen h1 (getThen rfl)) (require_or fun _ => atOff_or (updV_bad ?_))
  refine badOf (lvThen h2 rfl) (require_bad ?_)
  simp at hk
  omega

theorem readInitiator_key {e : Env} {s : VS} {k : UInt8} {xs : Bytes} (hs : Small e) (hk : 2 < k) (h : At e.buf s.off (callTable [[0], k :: xs])) :
    (readInitiator e s).Bad := by
  obtain ⟨m, o, h1, h2, h3⟩ := table_start hs (by simp) h
  have hk := gt_toNat hk
  simp at hk
  simp only [List.flatten_cons, List.cons_append] at h3
  unfold readInitiator
  refine badOf (lvThen h1 (getThen rfl)) (require_or fun _ => atOff_or (updV_bad ?_))
  refine badOf (lvThen h2 (reqThen (by decide) rfl)) (atOff_or ?_)
  refine badOf (getThen rfl) (badBind (lv_bad ?_))
  unfold initiatorKey
  rw [if_pos (by rfl)]
  exact badOf (seqThen (readU8_at (At.cons.1 h3).1) rfl) (require_bad (by omega))

theorem readPricing_strange {e : Env} {s : VS} {k : UInt8} {xs : Bytes} (hs : Small e) (hk : 2 < k) (ho : OfKind k xs) (h : At e.buf s.off xs) :
    (readPricing e s).Bad := by
  obtain ⟨m, o, h1, h2⟩ := ho.read hs h
  have hk := gt_toNat hk
  simp at hk
  unfold readPricing
  refine badOf (lvThen h1 (getThen rfl)) (atOff_or (updV_bad ?_))
  refine badOf (lvThen h2 rfl) (atOff_or (badBind ?_))
  unfold pricingFields
  rw [if_neg (by omega), if_neg (by omega), if_neg (by omega)]
  trivial

theorem readArgs_strange {e : Env} {s : VS} {k : UInt8} {xs : Bytes} (hs : Small e) (hk : 1 < k) (h : At e.buf s.off (pfx (k :: xs))) :
    (readArgs e s).Bad := by
  have hk := gt_toNat hk
  simp at hk
  have hle := h.le
  unfold Small at hs
  rw [pfx_length] at hle
  rw [pfx, At.append, le_length] at h
  unfold readArgs
  refine badOf (lvThen (readLE_at h.1 (by omega)) rfl) (updV_bad ?_)
  refine badOf (lvThen (readU8_at (At.cons.1 h.2).1) rfl) ?_
  rw [if_neg (by omega), if_neg (by omega)]
  trivial

theorem readRuntime_strange {e : Env} {off : Nat} {xs : Bytes} (hs : Small e) (hk : StrangeRuntime xs) (h : At e.buf off xs) : (readRuntime e off).Bad := by
  cases hk with
  | kind hk ho =>
    obtain ⟨m, o, h1, h2⟩ := ho.read hs h
    have hk := gt_toNat hk
    simp at hk
    unfold readRuntime
    refine badOf (seqThen h1 (seqThen h2 rfl)) ?_
    rw [if_neg (by omega), require_run, if_neg (by omega)]
    trivial
  | seed ho hv ys fs hf =>
    obtain ⟨m, o, h1, h2, h3⟩ := table_start hs (by simp; omega) h
    have ho := gt_toNat ho
    simp at ho
    simp only [List.flatten_cons, List.cons_append] at h3
    rw [At.append, le_length] at h3
    have h4 := At.cons.1 h3.2
    unfold readRuntime
    refine badOf (seqThen h1 (seqThen h2 rfl)) ?_
    rw [if_pos (by rfl)]
    refine badOf (seqThen (readLE_at h3.1 (by exact hv)) (seqThen (readU8_at h4.1) rfl)) ?_
    rw [if_neg (by omega), if_neg (by omega)]
    trivial

/-- An option that is neither absent nor present. -/
theorem readEntityVersion_strange {e : Env} {off : Nat} {o : UInt8} {ys : Bytes} (ho : 1 < o) (h : At e.buf off (o :: ys)) : (readEntityVersion e off).Bad := by
  have ho := gt_toNat ho
  simp at ho
  unfold readEntityVersion readBool
  exact badBind (badOf (seqThen (readU8_at (At.cons.1 h).1) rfl) (require_bad (by omega)))

theorem storedTarget_version {e : Env} {off : Nat} {xs : Bytes} (hs : Small e) (hv : StrangeVersion xs) (h : At e.buf off xs) :
    ∃ m o k, readMetadata e off = .ok m o ∧ readU8 e o = .ok k (o + 1) ∧ ∀ v, (storedTarget e k ⟨o + 1, v⟩).Bad := by
  have hs' := hs
  unfold Small at hs
  cases hv with
  | byHash ho h32 ys fs hf =>
    obtain ⟨m, o, h1, h2, h3⟩ := table_start hs' (by simp; omega) h
    simp only [List.flatten_cons] at h3
    have hle := h3.le
    simp only [List.length_append] at hle
    rw [At.append, At.append, h32] at h3
    refine ⟨m, o, _, h1, h2, fun v => ?_⟩
    unfold storedTarget
    rw [if_neg (by decide), if_neg (by decide), if_pos (by rfl)]
    refine badOf (modThen (lvThen (skip_run (n := 32) (by dsimp only; omega)) rfl)) (badBind (lv_bad ?_))
    exact readEntityVersion_strange ho h3.2.1
  | byName ho name ys fs hf =>
    obtain ⟨m, o, h1, h2, h3⟩ := table_start hs' (by simp; omega) h
    simp only [List.flatten_cons] at h3
    rw [At.append, At.append, pfx_length] at h3
    refine ⟨m, o, _, h1, h2, fun v => ?_⟩
    unfold storedTarget
    rw [if_neg (by decide), if_neg (by decide), if_neg (by decide), if_pos (by rfl)]
    refine badOf (modThen (lvThen (readBytes_at hs'.fits h3.1) (updThen rfl))) (badBind (lv_bad ?_))
    exact readEntityVersion_strange ho h3.2.1

/-- The address of a stored contract is read, and the cursor stands behind it. -/
theorem storedId_at {e : Env} {id : StoredId} {off : Nat} {rest : Bytes} (hs : Small e) (hid : id.Ok) (h : At e.buf off (id.encode ++ rest)) :
    ∃ m o k t, readMetadata e off = .ok m o ∧ readU8 e o = .ok k (o + 1) ∧ At e.buf t rest ∧ ∀ v, ∃ w, storedTarget e k ⟨o + 1, v⟩ = .ok () ⟨t, w⟩ := by
  have hs' := hs
  unfold Small at hs
  have hle := h.le
  rw [At.append] at h
  rw [List.length_append] at hle
  obtain ⟨h, hrest⟩ := h
  have incrIf : ∀ (ver : Nat) (s : VS), ∃ w, (if ver ≠ noVersion then incrExpert e 1 else pure ()) s = .ok () ⟨s.off, w⟩ := by
    intro ver s
    unfold incrExpert
    split
    · split
      · exact ⟨_, rfl⟩
      · exact ⟨_, rfl⟩
    · exact ⟨_, rfl⟩
  cases id with
  | byHash x =>
    simp only [StoredId.encode, StoredId.Ok] at h hrest hid hle
    have hf := callTable_fields h
    rw [callTable_length] at hrest hle
    simp only [List.flatten_cons, List.flatten_nil, List.append_nil, List.length_append, List.length_cons, List.length_nil] at hf hrest hle
    rw [At.append] at hf
    refine ⟨_, _, _, _, readMetadata_at h (by simp) (by simp) (by simp [hid]), readU8_at hf.1, hrest, fun v => ⟨{ v with
      target := { v.target with typ := 1, ptr := off + (8 + 6 * (0 + 1 + 1)) + 1 }, numItems := u8 (v.numItems + 1) }, ?_⟩⟩
    unfold storedTarget
    rw [if_pos (by rfl)]
    refine modThen (lvThen (skip_run (n := 32) (by simp; omega)) ?_)
    show Res.ok _ _ = _
    congr 2
    simp [hid]
  | byName x =>
    simp only [StoredId.encode] at h hrest hle
    have hf := callTable_fields h
    rw [callTable_length] at hrest hle
    simp only [List.flatten_cons, List.flatten_nil, List.append_nil, List.length_append, List.length_cons, List.length_nil, pfx_length] at hf hrest hle
    rw [At.append] at hf
    refine ⟨_, _, _, _, readMetadata_at h (by simp) (by simp) (by simp; omega), readU8_at hf.1, hrest, fun v => ⟨{ v with
      target := { v.target with typ := 2, ptr := off + (8 + 6 * (0 + 1 + 1)) + 1 + 4, nameLen := x.length }, numItems := u8 (v.numItems + 1) }, ?_⟩⟩
    unfold storedTarget
    rw [if_neg (by decide), if_pos (by rfl)]
    refine modThen (lvThen (readBytes_at hs'.fits hf.2) (updThen ?_))
    show Res.ok _ _ = _
    congr 2
    simp; omega
  | byPackageHash x w =>
    have hw := optional_le_len w
    simp only [StoredId.encode, StoredId.Ok] at h hrest hid hle
    have hf := callTable_fields h
    rw [callTable_length] at hrest hle
    simp only [List.flatten_cons, List.flatten_nil, List.append_nil, List.length_append, List.length_cons, List.length_nil] at hf hrest hle
    rw [At.append, At.append] at hf
    obtain ⟨h1, h2, h3⟩ := hf
    rw [hid.1] at h3
    refine ⟨_, _, _, _, readMetadata_at h (by simp) (by simp) (by simp [hid.1]; omega), readU8_at h1, hrest, fun v => ?_⟩
    unfold storedTarget
    rw [if_neg (by decide), if_neg (by decide), if_pos (by rfl)]
    obtain ⟨u, hu⟩ := incrIf (w.getD noVersion) ⟨off + (8 + 6 * 3) + 1 + 32 + (optional (le 4) w).length, _⟩
    refine ⟨u, ?_⟩
    refine modThen (lvThen (skip_run (n := 32) (by simp; omega)) (lvThen (readEntityVersion_at hid.2 h3) (updThen (incrThen ?_))))
    refine hu.trans ?_
    congr 2
    simp [hid.1]; omega
  | byPackageName x w =>
    have hw := optional_le_len w
    simp only [StoredId.encode, StoredId.Ok] at h hrest hid hle
    have hf := callTable_fields h
    rw [callTable_length] at hrest hle
    simp only [List.flatten_cons, List.flatten_nil, List.append_nil, List.length_append, List.length_cons, List.length_nil, pfx_length] at hf hrest hle
    rw [At.append, At.append] at hf
    obtain ⟨h1, h2, h3⟩ := hf
    rw [pfx_length] at h3
    refine ⟨_, _, _, _, readMetadata_at h (by simp) (by simp) (by simp; omega), readU8_at h1, hrest, fun v => ?_⟩
    unfold storedTarget
    rw [if_neg (by decide), if_neg (by decide), if_neg (by decide), if_pos (by rfl)]
    obtain ⟨u, hu⟩ := incrIf (w.getD noVersion) ⟨off + (8 + 6 * 3) + 1 + (4 + x.length) + (optional (le 4) w).length, _⟩
    refine ⟨u, ?_⟩
    refine modThen (lvThen (readBytes_at hs'.fits h2) (updThen (lvThen (readEntityVersion_at hid h3) (updThen (incrThen ?_)))))
    refine hu.trans ?_
    congr 2
    simp; omega

theorem readTarget_strange {e : Env} {s : VS} {xs : Bytes} (hs : Small e) (ht : StrangeTarget xs) (h : At e.buf s.off (pfx xs)) : (readTarget e s).Bad := by
  have hs' := hs
  have hle := h.le
  unfold Small at hs
  rw [pfx_length] at hle
  rw [pfx, At.append, le_length] at h
  obtain ⟨hp, h⟩ := h
  unfold readTarget
  refine badOf (lvThen (readLE_at hp (by omega)) rfl) ?_
  cases ht with
  | kind hk ho =>
    obtain ⟨m, o, h1, h2⟩ := ho.read hs' h
    have hk := gt_toNat hk
    simp at hk
    refine badOf (lvThen h1 (getThen rfl)) (atOff_or (badOf (lvThen h2 rfl) ?_))
    rw [if_neg (by omega), if_neg (by omega), if_neg (by omega)]
    trivial
  | stored fs hk ho hl =>
    obtain ⟨m, o, h1, h2, h3⟩ := table_start hs' (by simp; omega) h
    rw [List.flatten_cons, At.append] at h3
    obtain ⟨m', o', k1, k2⟩ := ho.read hs' h3.1
    have hk := gt_toNat hk
    simp at hk
    refine badOf (lvThen h1 (getThen rfl)) (atOff_or (badOf (lvThen h2 rfl) ?_))
    rw [if_neg (by decide), if_pos (by rfl)]
    refine atOff_or ?_
    unfold readStored
    refine badOf (lvThen k1 (lvThen k2 (incrThen (incrThen rfl)))) (badBind ?_)
    unfold storedTarget
    rw [if_neg (by omega), if_neg (by omega), if_neg (by omega), if_neg (by omega)]
    trivial
  | storedRuntime id hid fs hr hl =>
    obtain ⟨m, o, h1, h2, h3⟩ := table_start hs' (by simp; omega) h
    rw [List.flatten_cons, List.flatten_cons] at h3
    obtain ⟨m', o', k, t, k1, k2, k3, k4⟩ := storedId_at hs' hid h3
    refine badOf (lvThen h1 (getThen rfl)) (atOff_or (badOf (lvThen h2 rfl) ?_))
    rw [if_neg (by decide), if_pos (by rfl)]
    refine atOff_or ?_
    unfold readStored
    obtain ⟨w, hw⟩ := k4 { s.v with numItems := u8 (u8 (s.v.numItems + 1) + 1) }
    refine badOf (lvThen k1 (lvThen k2 (incrThen (incrThen rfl)))) (badOf (seqThen hw rfl) (lv_bad ?_))
    exact readRuntime_strange hs' hr (At.append.1 k3).1
  | version fs hv hl =>
    obtain ⟨m, o, h1, h2, h3⟩ := table_start hs' (by simp; omega) h
    rw [List.flatten_cons, At.append] at h3
    obtain ⟨m', o', k, k1, k2, k3⟩ := storedTarget_version hs' hv h3.1
    refine badOf (lvThen h1 (getThen rfl)) (atOff_or (badOf (lvThen h2 rfl) ?_))
    rw [if_neg (by decide), if_pos (by rfl)]
    refine atOff_or ?_
    unfold readStored
    exact badOf (lvThen k1 (lvThen k2 (incrThen (incrThen rfl)))) (badBind (k3 _))
  | sessionFlag hb fs hl =>
    obtain ⟨m, o, h1, h2, h3⟩ := table_start hs' (by simp; omega) h
    rw [List.flatten_cons, At.append] at h3
    have hb := gt_toNat hb
    simp at hb
    refine badOf (lvThen h1 (getThen rfl)) (atOff_or (badOf (lvThen h2 rfl) ?_))
    rw [if_neg (by decide), if_neg (by decide), if_pos (by rfl)]
    refine atOff_or (updV_bad (badBind (lv_bad ?_)))
    exact badOf (seqThen (readU8_at h3.1) rfl) (require_bad (by omega))
  | sessionRuntime i fs hr hl =>
    obtain ⟨m, o, h1, h2, h3⟩ := table_start hs' (by simp; omega) h
    rw [List.flatten_cons, List.flatten_cons, At.append, At.append] at h3
    refine badOf (lvThen h1 (getThen rfl)) (atOff_or (badOf (lvThen h2 rfl) ?_))
    rw [if_neg (by decide), if_neg (by decide), if_pos (by rfl)]
    refine atOff_or (updV_bad ?_)
    refine badOf (lvThen (m := readBool e) (seqThen (readU8_at h3.1) (reqThen (by cases i <;> simp) rfl)) rfl) (badBind (lv_bad ?_))
    exact readRuntime_strange hs' hr h3.2.1

theorem readEntryPoint_strange {e : Env} {s : VS} {k : UInt8} {xs : Bytes} (hs : Small e) (hk : 12 < k) (ho : OfKind k xs) (h : At e.buf s.off (pfx xs)) :
    (readEntryPoint e s).Bad := by
  have hs' := hs
  have hle := h.le
  unfold Small at hs
  rw [pfx_length] at hle
  rw [pfx, At.append, le_length] at h
  obtain ⟨m, o, h1, h2⟩ := ho.read hs' h.2
  have hk := gt_toNat hk
  simp at hk
  unfold readEntryPoint
  refine badOf (lvThen (readLE_at h.1 (by omega)) rfl) ?_
  refine badOf (lvThen h1 (getThen rfl)) (atOff_or (badOf (lvThen h2 rfl) (require_bad (by omega))))

theorem readScheduling_strange {e : Env} {s : VS} {k : UInt8} {xs : Bytes} (hs : Small e) (hk : 2 < k) (ho : OfKind k xs) (h : At e.buf s.off (pfx xs)) :
    (readScheduling e s).Bad := by
  have hs' := hs
  have hle := h.le
  unfold Small at hs
  rw [pfx_length] at hle
  rw [pfx, At.append, le_length] at h
  obtain ⟨m, o, h1, h2⟩ := ho.read hs' h.2
  have hk := gt_toNat hk
  simp at hk
  unfold readScheduling
  refine badOf (lvThen (readLE_at h.1 (by omega)) rfl) ?_
  refine badOf (lvThen h1 (getThen rfl)) (atOff_or (badOf (lvThen h2 rfl) (require_bad (by omega))))

/-! ### The transaction containing it -/

/-- A body of which some part cannot be read. -/
inductive BodyFails (e : Env) (p : TxPayload) : Parts → Prop
  | args {xs} (h : ∀ s : VS, At e.buf s.off (pfx xs) → (readArgs e s).Bad) : BodyFails e p { p.parts with args := xs }
  | target {xs} (h : ∀ s : VS, At e.buf s.off (pfx xs) → (readTarget e s).Bad) : BodyFails e p { p.parts with target := xs }
  | entry {xs} (h : ∀ s : VS, At e.buf s.off (pfx xs) → (readEntryPoint e s).Bad) : BodyFails e p { p.parts with entry := xs }
  | scheduling {xs} (h : ∀ s : VS, At e.buf s.off (pfx xs) → (readScheduling e s).Bad) : BodyFails e p { p.parts with scheduling := xs }

/-- A transaction of which some part cannot be read. -/
inductive Fails (e : Env) (p : TxPayload) : Parts → Prop
  | initiator {xs} (h : ∀ s : VS, At e.buf s.off xs → (readInitiator e s).Bad) : Fails e p { p.parts with initiator := xs }
  | pricing {xs} (h : ∀ s : VS, At e.buf s.off xs → (readPricing e s).Bad) : Fails e p { p.parts with pricing := xs }
  | body {q} (h : BodyFails e p q) : Fails e p q

theorem Strange.fails {e : Env} {p : TxPayload} {q : Parts} (hs : Small e) (h : Strange p q) : Fails e p q := by
  cases h with
  | initiator hk h => exact .initiator fun _ hat => readInitiator_strange hs hk h hat
  | key hk xs => exact .initiator fun _ hat => readInitiator_key hs hk hat
  | pricing hk h => exact .pricing fun _ hat => readPricing_strange hs hk h hat
  | args hk xs => exact .body (.args fun _ hat => readArgs_strange hs hk hat)
  | target h => exact .body (.target fun _ hat => readTarget_strange hs h hat)
  | entry hk h => exact .body (.entry fun _ hat => readEntryPoint_strange hs hk h hat)
  | scheduling hk h => exact .body (.scheduling fun _ hat => readScheduling_strange hs hk h hat)

def Parts.fields (q : Parts) : List Bytes := [q.initiator, le 8 q.timestamp, le 8 q.ttl, pfx q.chain, q.pricing, q.body]

section
variable {e : Env} {p : TxPayload} {q : Parts} (hs : Small e) (hp : p.Ok)
include hs

theorem body_fails (hp : p.Ok) (hq : BodyFails e p q) {s : VS} (h : At e.buf s.off q.body) (h0 : s.v.target = {}) (hn : s.v.numItems < 256) : (readBody e s).Bad := by
  have hs' := hs
  unfold Small at hs
  have hle := h.le
  have hbl : q.body.length = 12 + 4 + q.args.length + 4 + q.target.length + 4 + q.entry.length + (4 + q.scheduling.length) := by
    simp [Parts.body]; omega
  rw [hbl] at hle
  have hh := h
  unfold Parts.body at h
  simp only [At.append, pfx_length, le_length, List.length_append] at h
  obtain ⟨⟨⟨⟨h1, h2, h3⟩, h4, h5⟩, h6, h7⟩, h8, h9⟩ := h
  have hv1 : (p.args.view (s.off + 6) s.v).target = {} ∧ (p.args.view (s.off + 6) s.v).numItems = s.v.numItems := by
    cases p.args <;> exact ⟨h0, rfl⟩
  have first : ∀ {α : Type} {k : Unit → M VS α}, (k () ⟨s.off + 4 + 2, s.v⟩).Bad → ((do
      let n ← lv (readU32 e)
      require (n = 4) eUnexpectedValue
      readKey e 0 >>= k) s).Bad := fun hk =>
    badOf (lvThen (readLE_at h1 (by omega)) (reqThen rfl (seqThen (readKey_at h2 (by omega)) rfl))) hk
  cases hq with
  | args h =>
    unfold readBody
    exact first (badBind (h _ h3))
  | target h =>
    unfold readBody
    refine first ?_
    refine badOf (seqThen (readArgs_at hs' hp.args h3) (seqThen (readKey_at (h4.cast (by dsimp only [TxPayload.parts]; omega)) (by omega)) rfl)) ?_
    exact badBind (h _ (h5.cast (by dsimp only [TxPayload.parts]; omega)))
  | entry h =>
    unfold readBody
    refine first ?_
    refine badOf (seqThen (readArgs_at hs' hp.args h3) (seqThen (readKey_at (h4.cast (by dsimp only [TxPayload.parts]; omega)) (by omega)) rfl)) ?_
    refine badOf (seqThen (readTarget_at hs' hp.target (h5.cast (by dsimp only [TxPayload.parts]; omega)) hv1.1 (by rw [hv1.2]; exact hn)) (seqThen (readKey_at (h6.cast (by dsimp only [TxPayload.parts]; omega)) (by omega)) rfl)) ?_
    exact badBind (h _ (h7.cast (by dsimp only [TxPayload.parts]; omega)))
  | scheduling h =>
    exact readBody_late hs' hp h hh h0 hn

theorem header_fails (hp : p.Ok) (hq : Fails e p q) {s : VS} (h : At e.buf s.off (q.fields.take 5).flatten)
    (hb : payloadFirst s.v = s.off) (hm : ∀ i, i ≤ 5 → s.v.pmd.fo i = (metaOf q.fields).fo i) :
    (readV1Header e s).Bad ∨ BodyFails e p q := by
  have hs' := hs
  unfold Small at hs
  have hle := h.le
  simp only [Parts.fields, List.flatten_cons, List.flatten_nil, List.append_nil, List.length_append, List.take, le_length] at h hle
  rw [At.append, At.append, At.append, At.append] at h
  obtain ⟨h1, h2, h3, h4, h5⟩ := h
  simp only [le_length, pfx_length] at h3 h4 h5 hle
  have f0 : s.v.pmd.fo 0 = 0 := by rw [hm _ (by omega)]; rfl
  have f1 : s.v.pmd.fo 1 = q.initiator.length := by rw [hm _ (by omega)]; simp [Parts.fields, metaOf, Meta.fo, fill]
  have f2 : s.v.pmd.fo 2 = q.initiator.length + 8 := by rw [hm _ (by omega)]; simp [Parts.fields, metaOf, Meta.fo, fill]
  have f3 : s.v.pmd.fo 3 = q.initiator.length + 8 + 8 := by rw [hm _ (by omega)]; simp [Parts.fields, metaOf, Meta.fo, fill]
  have f4 : s.v.pmd.fo 4 = q.initiator.length + 8 + 8 + (4 + q.chain.length) := by
    rw [hm _ (by omega)]; simp [Parts.fields, metaOf, Meta.fo, fill]
  have hp1 := hp.timestamp
  have hp2 := hp.ttl
  cases hq with
  | initiator h =>
    refine .inl ?_
    unfold readV1Header
    exact badOf (getThen rfl) (atOff_or (badBind (h _ h1)))
  | pricing h =>
    refine .inl ?_
    unfold readV1Header
    refine badOf (getThen rfl) (atOff_or ?_)
    refine badOf (seqThen (readInitiator_at hs' hp.initiator h1 hb) (incrThen rfl)) (atOff_or ?_)
    refine badOf (lvThen (readLE_at h2 (by exact hp1)) rfl) ?_
    refine expert_bad fun _ => atOff_or ?_
    refine badOf (lvThen (readLE_at h3 (by exact hp2)) rfl) ?_
    refine expert_bad fun _ => atOff_or ?_
    refine badOf (seqThen (lvThen (readBytes_at hs'.fits h4) rfl) (incrThen rfl)) (atOff_or (badBind (h _ ?_)))
    exact h5.cast (by dsimp only [TxPayload.parts])
  | body h => exact .inr h

theorem payload_fails (hp : p.Ok) (hq : Fails e p q) {s : VS} (h : At e.buf s.off q.encode) (h0 : s.v.target = {}) (hn : s.v.numItems < 200)
    (hb : s.v.md.size + s.v.md.fo 1 = s.off) : (readPayload e s).Bad := by
  have hs' := hs
  unfold Small at hs
  have hle := h.le
  rw [show q.encode = callTable q.fields from rfl] at h hle
  have hf := callTable_fields h
  rw [callTable_length] at hle
  have hlen : q.fields.length = 6 := rfl
  have hfl : q.fields.flatten = (q.fields.take 5).flatten ++ q.body := by simp [Parts.fields]
  have hff := congrArg List.length hfl
  rw [List.length_append] at hff
  have hbf := hf
  rw [hfl, At.append] at hbf
  have hpf : payloadFirst { s.v with pmd := metaOf q.fields } = s.off + 44 := by
    unfold payloadFirst; dsimp only; rw [metaOf_size, hb, hlen]
  have f5 : (metaOf q.fields).fo 5 = (q.fields.take 5).flatten.length := by simp [Parts.fields, metaOf, Meta.fo, fill]; omega
  have f0 : (metaOf q.fields).fo 0 = 0 := rfl
  rw [hlen] at hbf
  unfold readPayload
  refine badOf (lvThen (readMetadata_at h (by omega) (by omega) (by omega)) (updThen (getThen rfl))) ?_
  refine badOf (atThen (by rw [hpf, f0, hlen]) (by rw [hpf, f0]; omega) rfl) ?_
  rcases header_fails hs' hp hq (s := ⟨s.off + (8 + 6 * q.fields.length), { s.v with pmd := metaOf q.fields }⟩) (by rw [hlen]; exact hbf.1) (by rw [hpf, hlen]) (fun i _ => rfl) with hbad | hbody
  · exact badBind hbad
  have hfe : (q.fields.take 5).flatten = (p.fields.take 5).flatten ∧ ∀ i, i ≤ 5 → (metaOf q.fields).fo i = (metaOf p.fields).fo i := by
    have e1 : q.initiator = p.initiator.encode := by cases hbody <;> rfl
    have e2 : q.pricing = p.pricing.encode := by cases hbody <;> rfl
    have e3 : q.timestamp = p.timestamp ∧ q.ttl = p.ttl ∧ q.chain = p.chain := by cases hbody <;> exact ⟨rfl, rfl, rfl⟩
    constructor
    · simp [Parts.fields, TxPayload.fields, e1, e2, e3]
    · intro i hi
      rcases i with _ | _ | _ | _ | _ | _ | i
      all_goals first | omega | simp [TxPayload.fields, Parts.fields, metaOf, Meta.fo, fill, e1, e2, e3]
  refine badOf (seqThen (readV1Header_at hs' hp.initiator hp.pricing hp.timestamp hp.ttl (by rw [hlen, ← hfe.1]; exact hbf.1) (by rw [hpf, hlen]) hfe.2 hn) rfl) ?_
  refine badOf (atThen (by rw [hpf, f5, hlen, hfe.1]) (by rw [hpf, f5]; omega) rfl) ?_
  refine badBind (body_fails hs' hp hbody (by rw [hlen, ← hfe.1]; exact hbf.2) h0 (Nat.mod_lt _ (by omega)))

theorem v1_fails {H : Bytes → Bytes} {ap : List Bytes} (hp : p.Ok) (hq : Fails e p q) (hH : ∀ xs, (H xs).length = 32) (h : At e.buf 0 (q.tx H ap)) :
    (readV1 e ⟨0, {}⟩).Bad := by
  have hs' := hs
  unfold Small at hs
  have hle := h.le
  unfold Parts.tx at h hle
  have hf := callTable_fields h
  rw [callTable_length] at hle
  generalize hfs : [H q.encode, q.encode, le 4 ap.length ++ ap.flatten] = fs at h hf hle
  have hlen : fs.length = 3 := by rw [← hfs]; rfl
  have hfl : fs.flatten = H q.encode ++ (q.encode ++ (le 4 ap.length ++ ap.flatten)) := by rw [← hfs]; simp
  have hff := congrArg List.length hfl
  simp only [List.length_append, le_length, hH] at hff
  rw [hlen] at hle hf
  rw [hfl, At.append, At.append, hH] at hf
  obtain ⟨h1, h2, h3⟩ := hf
  have f0 : (metaOf fs).fo 0 = 0 := by rw [← hfs]; rfl
  have f1 : (metaOf fs).fo 1 = 32 := by rw [← hfs]; simp [metaOf, Meta.fo, fill, hH]
  have hsz : (metaOf fs).size = 26 := by rw [metaOf_size, hlen]
  unfold readV1
  refine badOf (reqThen (by omega) (lvThen (readMetadata_at h (by omega) (by omega) (by omega)) (updThen rfl))) ?_
  refine badOf (atThen (by rw [f0, hsz, hlen]) (by omega) (lvThen (skip_run (n := 32) (by dsimp only; omega)) (incrThen rfl))) ?_
  refine badOf (atThen (by rw [f1, hsz, hlen]) (by omega) rfl) ?_
  refine badBind (payload_fails hs' hp hq (h2.cast (by rw [hlen])) rfl (by show 1 < 200; omega) ?_)
  show (metaOf fs).size + (metaOf fs).fo 1 = _
  rw [f1, hsz, hlen]
end

/-- **C73, version 1.** A version 1 transaction one part of which is of a kind the standard does not name never leads to a review: its initiator or
the algorithm of the initiator's key, pricing, arguments, target, the way a stored contract is addressed, the virtual machine, its entry point, or its scheduling; nor
one in which an option or a flag of the target is neither 0 nor 1. -/
theorem C73_unknown_kinds (pl : Platform) (hcap : pl.cap ≤ 16384) (d d' : Dev) (hd : d.Ok pl) (rx : Bytes) (pin : Bool) (hins : rx.getD 1 0 = 2)
    (p : TxPayload) (hp : p.Ok) (q : Parts) (hq : Strange p q) (ap : List Bytes) (rest : Bytes)
    (hx : d.data ++ rx.drop 5 = 1 :: (q.tx pl.blake ap ++ rest)) : step pl d (.apdu rx pin) ≠ (d', .pending) := by
  intro h
  obtain ⟨hok, hdata, hcase⟩ := sign_pending (by omega) hd hins h
  rw [hx] at hcase hdata
  rcases hcase with ⟨ys, t, h1, -, -⟩ | ⟨ys, t, h1, h2, -⟩
  · simp at h1
  simp only [List.cons.injEq, true_and] at h1
  subst h1
  have hsm : Small (mkEnv pl d.expert (q.tx pl.blake ap ++ rest)) := small_data hcap hok hdata d.expert
  have := v1_fails (ap := ap) (H := pl.blake) hsm hp (hq.fails hsm) (fun xs => pl.blake.len xs) ⟨[], rest, rfl, rfl⟩
  rw [h2.parse] at this
  exact this

/-- Items are of the kinds 0 to 5. -/
theorem parseDeployItem_kind {e : Env} {pay : Bool} {s : IS} : Post (parseDeployItem e pay) s (fun _ _ => s.item.typ ≤ 5) := by
  unfold parseDeployItem
  refine Post.modifyThen (Post.getThen ?_)
  dsimp only
  by_cases h : s.item.typ ≤ 5
  · exact fun _ _ _ => h
  rw [if_neg (by unfold tyModuleBytes; omega), if_neg (by unfold tyByHash tyVerByHash; omega), if_neg (by unfold tyByName tyVerByName; omega),
    if_neg (by unfold tyTransfer; omega)]
  exact .fail

theorem DeployAccepted.kinds {e : Env} (hs : Small e) {t : DS} (h2 : DeployAccepted e t) {hdr : DeployHeader} (ho : hdr.Ok) {hash body : Bytes} (h32 : hash.length = 32)
    (hbuf : e.buf = hdr.encode ++ (hash ++ body)) :
    (∃ more, body = 0 :: more) ∧ ∀ (pay : ExecItem) (k : UInt8) (more : Bytes), pay.Fit → body = pay.encode ++ k :: more → k ≤ 5 := by
  have hs' := hs
  obtain ⟨p, q, k, hp, hl, -⟩ := h2.small hs.to_fits
  have ha : At e.buf 0 hdr.encode := ⟨[], hash ++ body, hbuf, rfl⟩
  have hv := hp.header.view hs.to_fits ho ha
  obtain ⟨-, -, hlen⟩ := header_small ho hs.to_fits ha
  rw [← hv] at hlen
  have hbody : At e.buf (headerLength t.dep.header + 32) body := ⟨hdr.encode ++ hash, [], by simp [hbuf], by simp [h32, hlen]⟩
  obtain ⟨code, name, v, c1, c2, -⟩ := h2.payment hs hp hl
  have hble := hbody.le
  have hcle := c1.le
  unfold Small at hs'
  have hbl : e.buf.length = headerLength t.dep.header + 32 + body.length := by
    rw [hbuf]
    simp only [List.length_append, h32, hlen]; omega
  obtain ⟨more, hmore⟩ : ∃ more, body = (ExecItem.moduleBytes code [⟨name, v, .u512⟩]).encode ++ more := by
    obtain ⟨u, w, hu, hul⟩ := split_at (l := body) (n := (ExecItem.moduleBytes code [⟨name, v, .u512⟩]).encode.length) (by omega)
    rw [hu] at hbody
    exact ⟨w, by rw [hu, (At.append.1 hbody).1.unique c1 hul]⟩
  refine ⟨⟨_, hmore⟩, fun pay k' more' hfit hb => ?_⟩
  have hll : body.length < 2 ^ 32 := by omega
  have l1 := congrArg List.length hmore
  have l2 := congrArg List.length hb
  rw [List.length_append] at l1 l2
  have fit : (ExecItem.moduleBytes code [⟨name, v, .u512⟩]).Fit := ⟨trivial, by simp [ExecItem.version], by simp [ExecItem.args, CLType.Fit]⟩
  obtain ⟨e1, e2⟩ := ExecItem.encode_cut (by omega) (by omega) hfit fit (hb.symm.trans hmore)
  rw [hb, e1, At.append, ← c2] at hbody
  have hk := hp.sesType.unique (At.cons.1 hbody.2).1 rfl
  have h5 := parseDeployItem_kind _ _ hp.ses
  dsimp only at h5
  rw [List.cons.injEq] at hk
  rw [← hk.1, UInt8.le_iff_toNat_le]
  simp
  omega

/-- **C73, Deploys.** If data starting with a serialized header and 32 bytes of a hash lead to a review, then the payment that follows is of kind 0 (module bytes); and if
the payment that follows is a serialized one, the session behind it is of one of the kinds 0 to 5. -/
theorem C73_deploy_kinds (pl : Platform) (hcap : pl.cap ≤ 16384) (d d' : Dev) (hd : d.Ok pl) (rx : Bytes) (pin : Bool) (hins : rx.getD 1 0 = 2)
    (hdr : DeployHeader) (ho : hdr.Ok) (hash : Bytes) (h32 : hash.length = 32) (body : Bytes)
    (hx : d.data ++ rx.drop 5 = 0 :: (hdr.encode ++ (hash ++ body))) (h : step pl d (.apdu rx pin) = (d', .pending)) :
    (∃ more, body = 0 :: more) ∧
    ∀ (pay : ExecItem) (k : UInt8) (more : Bytes), pay.Fit → body = pay.encode ++ k :: more → k ≤ 5 := by
  obtain ⟨hok, hdata, hcase⟩ := sign_pending (by omega) hd hins h
  rw [hx] at hcase hdata
  rcases hcase with ⟨ys, t, h1, h2, -⟩ | ⟨ys, t, h1, -, -⟩
  swap
  · simp at h1
  simp only [List.cons.injEq, true_and] at h1
  subst h1
  have hs := small_data hcap hok hdata d.expert
  exact h2.kinds hs ho h32 rfl

/-- Cases: the sample transfer is accepted; it is refused with a fourth kind of pricing and with a thirteenth operation. -/
example :
    Strange sampleTransfer { sampleTransfer.parts with pricing := callTable [[3], le 8 5] } ∧
    Strange sampleTransfer { sampleTransfer.parts with entry := callTable [[13]] } ∧
    (run samplePl (Dev.init samplePl) (sampleUpload (1 :: sampleTransfer.parts.tx Blake.H []) 1)).2.getLast? = some .pending ∧
    (∃ text, (run samplePl (Dev.init samplePl) (sampleUpload (1 :: Parts.tx Blake.H { sampleTransfer.parts with pricing := callTable [[3], le 8 5] } []) 1)).2.getLast? =
      some (.reply text 0x6984)) ∧
    ∃ text, (run samplePl (Dev.init samplePl) (sampleUpload (1 :: Parts.tx Blake.H { sampleTransfer.parts with entry := callTable [[13]] } []) 1)).2.getLast? =
      some (.reply text 0x6984) :=
  ⟨.pricing (by decide) ⟨[le 8 5], by decide, rfl⟩, .entry (by decide) ⟨[], by decide, rfl⟩, by decide +kernel,
    ⟨b!"Unexpected value", by decide +kernel⟩, b!"Unexpected value", by decide +kernel⟩

/-- Cases: a call of a package with version 7, and with an option that is neither absent nor present; the same for the flag of an installation. -/
example :
    let id (o : UInt8) : Bytes := callTable [[2], List.replicate 32 5, o :: le 4 7]
    let q (xs : Bytes) : Parts := { (sampleCall (.byPackageHash (List.replicate 32 5) (some 7) .v1)).parts with target := xs }
    Strange (sampleCall (.byPackageHash (List.replicate 32 5) (some 7) .v1)) (q (callTable [[1], id 2, callTable [[0]]])) ∧
    Strange (sampleCall (.byPackageHash (List.replicate 32 5) (some 7) .v1)) (q (callTable [[2], [2], callTable [[0]], pfx [1]])) ∧
    (run samplePl (Dev.init samplePl) (sampleUpload (1 :: (q (callTable [[1], id 1, callTable [[0]]])).tx Blake.H []) 1)).2.getLast? = some .pending ∧
    (run samplePl (Dev.init samplePl) (sampleUpload (1 :: (q (callTable [[1], id 2, callTable [[0]]])).tx Blake.H []) 1)).2.getLast? ≠ some .pending :=
  ⟨.target (.version [callTable [[0]]] (.byHash (o := 2) (by decide) rfl (le 4 7) [] (by decide)) (by decide)),
    .target (.sessionFlag (b := 2) (by decide) [callTable [[0]], pfx [1]] (by decide)), by decide +kernel, by decide +kernel⟩

/-- The sample Deploy with any session, its hashes correct. -/
def sampleSessions (ses : Bytes) : Bytes :=
  let hdr := { sampleDeploy.header Blake.H with bodyHash := Blake.H (samplePay.encode ++ ses) }
  hdr.encode ++ Blake.H hdr.encode ++ (samplePay.encode ++ ses) ++ le 4 0

/-- Cases: accepted with a transfer as its session, refused with the same arguments behind the number 6 or 7. -/
example :
    (run samplePl (Dev.init samplePl) (sampleUpload (0 :: sampleSessions (5 :: encodeRuntimeArgs sampleTransferArgs)))).2.getLast? = some .pending ∧
    (run samplePl (Dev.init samplePl) (sampleUpload (0 :: sampleSessions (6 :: encodeRuntimeArgs sampleTransferArgs)))).2.getLast? ≠ some .pending ∧
    (run samplePl (Dev.init samplePl) (sampleUpload (0 :: sampleSessions (7 :: encodeRuntimeArgs sampleTransferArgs)))).2.getLast? ≠ some .pending :=
  ⟨by decide +kernel, by decide +kernel, by decide +kernel⟩

end Casper
