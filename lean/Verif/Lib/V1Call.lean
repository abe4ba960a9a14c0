import Verif.Lib.V1Review
/-
What is shown of a version 1 contract call.
-/
namespace Casper
open M

section
variable {p : TxPayload} {H : Bytes → Bytes} {ap : List Bytes} {e : Env}

theorem result_argsType : (p.result H ap e).argsType = (match p.args with | .named _ => 0 | .bytes _ => 1) := by
  cases p with | mk i t l c pr a tg en => cases en <;> cases a <;> rfl
theorem result_argsLen : (p.result H ap e).argsLen = (match p.args with | .named as => 5 + (encodeArgs as).length | .bytes xs => xs.length) := by
  cases p with | mk i t l c pr a tg en =>
    cases en <;> cases a <;> simp only [TxPayload.result, TxPayload.view, TxPayload.bodyView, V1Entry.view, V1Args.view, V1Args.encode,
      encodeRuntimeArgs, List.length_cons, List.length_append, le_length] <;> omega
theorem result_target' (hH : (H p.encode).length = 32) : (p.result H ap e).target = p.target.view (p.argsPos + 1 + p.args.encode.length) := by
  rw [result_target hH, take5_length]
  congr 1
  unfold TxPayload.argsPos
  omega
theorem result_cep (hH : (H p.encode).length = 32) {n : Bytes} (hn : p.entry = .custom n) :
    (p.result H ap e).cepPtr = p.argsPos + 1 + p.args.encode.length + p.target.encode.length + 31 ∧ (p.result H ap e).cepLen = n.length := by
  have h1 : (metaOf (p.txFields H ap)).fo 1 = 32 := by simp [TxPayload.txFields, metaOf, Meta.fo, fill, hH]
  have h2 := take5_length (p := p)
  cases p with | mk i t l c pr a tg en =>
  subst hn
  cases a <;>
    simp only [TxPayload.result, TxPayload.view, TxPayload.bodyView, V1Entry.view, V1Args.view, payloadFirst,
      TxPayload.start, h1, h2, TxPayload.argsPos, and_true] <;>
    simp [metaOf, TxPayload.txFields, TxPayload.fields] <;> omega

end

theorem TxLayout.target {p : TxPayload} {H : Bytes → Bytes} {ap : List Bytes} {buf : Bytes} (h : TxLayout p H ap buf) :
    At buf (p.argsPos + 1 + p.args.encode.length) p.target.encode := by
  have hb := h.body
  have h15 : 15 ≤ p.argsPos := by unfold TxPayload.argsPos; omega
  unfold TxPayload.body at hb
  simp only [At.append, le_length, List.length_append, pfx, pfx_length] at hb
  exact hb.1.1.2.2.2.cast (by omega)

theorem TxLayout.entry {p : TxPayload} {H : Bytes → Bytes} {ap : List Bytes} {buf : Bytes} (h : TxLayout p H ap buf) :
    At buf (p.argsPos + 1 + p.args.encode.length + p.target.encode.length + 6) p.entry.encode := by
  have hb := h.body
  have h15 : 15 ≤ p.argsPos := by unfold TxPayload.argsPos; omega
  unfold TxPayload.body at hb
  simp only [At.append, le_length, List.length_append, pfx, pfx_length] at hb
  exact hb.1.2.2.2.cast (by omega)

theorem TxLayout.blob {p : TxPayload} {H : Bytes → Bytes} {ap : List Bytes} {buf : Bytes} (h : TxLayout p H ap buf) :
    (∃ as, p.args = .named as ∧ At buf (p.argsPos - 4) (encodeRuntimeArgs as)) ∨ (∃ xs, p.args = .bytes xs ∧ At buf p.argsPos xs) := by
  have hb := h.body
  have h15 : 15 ≤ p.argsPos := by unfold TxPayload.argsPos; omega
  unfold TxPayload.body at hb
  simp only [At.append, le_length, List.length_append, pfx, pfx_length] at hb
  have h1 := hb.1.1.1.2.2.2
  cases ha : p.args with
  | named as =>
    rw [ha, V1Args.encode, At.cons] at h1
    exact .inl ⟨as, rfl, h1.2.cast (by omega)⟩
  | bytes xs =>
    rw [ha, V1Args.encode, At.cons, pfx, At.append, le_length] at h1
    exact .inr ⟨xs, rfl, h1.2.2.cast (by omega)⟩

theorem byHashLoop_eq (xs acc : Bytes) (h : acc.length + 3 * xs.length ≤ 99) : byHashLoop xs acc = acc ++ decimalAddress xs := by
  induction xs generalizing acc with
  | nil => simp [byHashLoop, decimalAddress]
  | cons b xs ih =>
    have hb := decText_length b.toNat 3 (by decide) (by have := b.toNat_lt; omega)
    simp only [List.length_cons] at h
    rw [byHashLoop, decimal_eq, List.take_of_length_le (by omega), ih _ (by simp; omega)]
    simp [decimalAddress]

theorem printByHash_at {e : Env} {off s : Nat} {xs : Bytes} (h : At e.buf off xs) (hl : xs.length = 32) :
    printByHash e off 32 s = .ok (decimalAddress xs) s := by
  unfold printByHash
  refine seqThen (slice_at h hl.symm) ?_
  rw [byHashLoop_eq _ _ (by simp; omega)]
  rfl

theorem printfStr_at {e : Env} {off s n : Nat} {xs : Bytes} (h : At e.buf off xs) (hn : n = xs.length) (hl : xs.length ≤ 99) (h0 : 0 ∉ xs) :
    printfStr e off n s = .ok xs s := by
  unfold printfStr
  refine seqThen (slice_at h (by omega)) ?_
  rw [cstr_eq h0]; rfl

theorem customHash_at {e : Env} {p : TxPayload} {ap : List Bytes} (hs : Small e) (hH : (e.blake p.encode).length = 32)
    (hl : TxLayout p e.blake ap e.buf) (hpos : p.argsPos < 256) (s : Nat) :
    ∃ c, customHash e (p.result e.blake ap e) s = .ok (b!"Args hash", checksumHex e.blake (e.blake p.args.blob)) c := by
  have h15 : 15 ≤ p.argsPos := by unfold TxPayload.argsPos; omega
  unfold Small at hs
  unfold customHash
  rw [result_argsType, result_argsOff hH, u8_id hpos, result_argsLen]
  rcases hl.blob with ⟨as, ha, hb⟩ | ⟨xs, ha, hb⟩
  · have hle := hb.le
    rw [encodeRuntimeArgs, List.length_append, le_length] at hle
    simp only [ha]
    rw [if_pos trivial, if_neg (by omega)]
    refine exThen (slice_at hb ?_) ⟨s, ?_⟩
    · rw [encodeRuntimeArgs, List.length_append, le_length]; unfold u32; omega
    · rw [C20_checksum_hex]; rfl
  · simp only [ha]
    rw [if_neg (by decide)]
    refine exThen (slice_at hb rfl) ⟨s, ?_⟩
    rw [C20_checksum_hex]; rfl

/-- Targets that can be shown: a contract's name has at most 99 bytes, none of them NUL; in expert mode a package has a
version. -/
def V1Target.Showable (expert : Bool) : V1Target → Prop
  | native | session .. | byHash .. => True
  | byName n _ => n.length ≤ 99 ∧ 0 ∉ n
  | byPackageHash _ v _ => expert = true → ∃ x, v = some x ∧ x < 2 ^ 32 - 1
  | byPackageName n v _ => (n.length ≤ 99 ∧ 0 ∉ n) ∧ (expert = true → ∃ x, v = some x ∧ x < 2 ^ 32 - 1)

theorem customEntry_at {e : Env} {p : TxPayload} {ap : List Bytes} (hH : (e.blake p.encode).length = 32)
    (hl : TxLayout p e.blake ap e.buf) {name : Bytes} (hn : p.entry = .custom name) (hnl : name.length ≤ 99) (hn0 : 0 ∉ name) (s : Nat) :
    ∃ c, customEntry e (p.result e.blake ap e) s = .ok (b!"Entry-point", name) c := by
  obtain ⟨h1, h2⟩ := result_cep (H := e.blake) (ap := ap) (e := e) hH hn
  have h3 := hl.entry
  rw [hn, V1Entry.encode] at h3
  have h4 := callTable_fields h3
  simp only [List.flatten_cons, List.flatten_nil, List.append_nil, List.length_cons, List.length_nil, At.append, pfx, le_length] at h4
  unfold customEntry
  rw [h1, h2]
  exact exThen (printfStr_at (h4.2.2.cast (by omega)) rfl hnl hn0) ⟨_, rfl⟩

theorem callLines_count {e : Env} {p : TxPayload} {name : Bytes} (hn : p.entry = .custom name) (ht : p.target.Showable e.expert) :
    p.opCount e = (p.callLines e.blake e.expert name).length := by
  unfold TxPayload.opCount TxPayload.callLines
  rw [hn, List.length_append]
  show p.target.items e.expert + 1 = _ + 1
  congr 1
  cases hp : p.target with
  | native | byHash | byName | session => rfl
  | byPackageHash h v rt =>
    rw [hp] at ht
    cases hx : e.expert with
    | false => simp [V1Target.items, versionLine]
    | true =>
      obtain ⟨x, rfl, h2⟩ := ht hx
      simp [V1Target.items, versionLine, noVersion]
      omega
  | byPackageName n v rt =>
    rw [hp] at ht
    cases hx : e.expert with
    | false => simp [V1Target.items, versionLine]
    | true =>
      obtain ⟨x, rfl, h2⟩ := ht.2 hx
      simp [V1Target.items, versionLine, noVersion]
      omega

theorem itemCustom_at {e : Env} {p : TxPayload} {ap : List Bytes} (hs : Small e) (hok : p.Ok) (hH : (e.blake p.encode).length = 32)
    (hl : TxLayout p e.blake ap e.buf) (hpos : p.argsPos < 256) {name : Bytes} (hn : p.entry = .custom name) (hnl : name.length ≤ 99)
    (hn0 : 0 ∉ name) (ht : p.target.Showable e.expert) {i : Nat} {kv : Bytes × Bytes}
    (hi : (p.callLines e.blake e.expert name)[i]? = some kv) (s : Nat) :
    ∃ c, itemCustom e (p.result e.blake ap e) i s = .ok kv c := by
  have hlt := (List.getElem?_eq_some_iff.1 hi).1
  have hcnt := callLines_count (e := e) hn ht
  have hlen : (p.callLines e.blake e.expert name).length ≤ 6 := by
    unfold TxPayload.callLines versionLine
    cases p.target <;> simp <;> (try split) <;> simp
  have hni : (p.result e.blake ap e).numItems = (if e.expert then 9 else 4) + (p.callLines e.blake e.expert name).length := by
    rw [result_items, hcnt, u8_id (by split <;> omega)]
  have hbound : ¬ i ≥ u32 ((p.result e.blake ap e).numItems + 4294967296 - (if e.expert then 9 else 4)) := by
    rw [hni]; unfold u32; split <;> omega
  have hhash := customHash_at hs hH hl hpos
  have hentry := customEntry_at hH hl hn hnl hn0
  have htg := hl.target
  unfold itemCustom
  rw [if_neg hbound, result_target' hH]
  have hokt := hok.target
  cases hp : p.target with
  | native =>
    unfold TxPayload.callLines at hi
    rw [hp] at hi
    match i, hi with
    | 0, hi => simp at hi; rw [← hi]; exact hhash s
    | i + 1, hi => simp at hi
  | session _ _ _ =>
    unfold TxPayload.callLines at hi
    rw [hp] at hi
    match i, hi with
    | 0, hi => simp at hi; rw [← hi]; exact hhash s
    | i + 1, hi => simp at hi
  | byHash h rt =>
    unfold TxPayload.callLines at hi
    rw [hp] at hi htg hokt
    match i, hi with
    | 0, hi => simp at hi; rw [← hi]; exact ⟨s, rfl⟩
    | 1, hi =>
      simp at hi; rw [← hi]
      rw [V1Target.encode] at htg
      have h1 := callTable_fields htg
      simp only [List.flatten_cons, List.flatten_nil, List.append_nil, List.length_cons, List.length_nil, At.append] at h1
      have h2 := callTable_fields h1.2.1
      simp only [List.flatten_cons, List.flatten_nil, List.append_nil, List.length_cons, List.length_nil, At.append] at h2
      exact exThen (printByHash_at (h2.2.cast (by simp only [V1Target.view])) hokt.1) ⟨_, rfl⟩
    | 2, hi => simp at hi; rw [← hi]; exact hentry s
    | 3, hi => simp at hi; rw [← hi]; exact hhash s
    | i + 4, hi => simp at hi
  | byName n rt =>
    unfold TxPayload.callLines at hi
    rw [hp] at hi htg ht
    match i, hi with
    | 0, hi => simp at hi; rw [← hi]; exact ⟨s, rfl⟩
    | 1, hi =>
      simp at hi; rw [← hi]
      rw [V1Target.encode] at htg
      have h1 := callTable_fields htg
      simp only [List.flatten_cons, List.flatten_nil, List.append_nil, List.length_cons, List.length_nil, At.append] at h1
      have h2 := callTable_fields h1.2.1
      simp only [List.flatten_cons, List.flatten_nil, List.append_nil, List.length_cons, List.length_nil, At.append, pfx, le_length] at h2
      exact exThen (printfStr_at (h2.2.2.cast (by simp only [V1Target.view])) rfl ht.1 ht.2) ⟨_, rfl⟩
    | 2, hi => simp at hi; rw [← hi]; exact hentry s
    | 3, hi => simp at hi; rw [← hi]; exact hhash s
    | i + 4, hi => simp at hi
  | byPackageHash h v rt =>
    unfold TxPayload.callLines at hi
    rw [hp] at hi htg hokt ht
    match i, hi with
    | 0, hi => simp at hi; rw [← hi]; exact ⟨s, rfl⟩
    | 1, hi =>
      simp at hi; rw [← hi]
      rw [V1Target.encode] at htg
      have h1 := callTable_fields htg
      simp only [List.flatten_cons, List.flatten_nil, List.append_nil, List.length_cons, List.length_nil, At.append] at h1
      have h2 := callTable_fields h1.2.1
      simp only [List.flatten_cons, List.flatten_nil, List.append_nil, List.length_cons, List.length_nil, At.append] at h2
      exact exThen (printByHash_at (h2.2.1.cast (by simp only [V1Target.view])) hokt.1) ⟨_, rfl⟩
    | i + 2, hi =>
      cases hx : e.expert with
      | false =>
        rw [hx] at hi
        simp only [Bool.false_eq_true, false_and, if_false]
        match i, hi with
        | 0, hi => simp [versionLine] at hi; rw [← hi]; exact hentry s
        | 1, hi => simp [versionLine] at hi; rw [← hi]; exact hhash s
        | i + 2, hi => simp [versionLine] at hi
      | true =>
        obtain ⟨x, rfl, h2⟩ := ht hx
        rw [hx] at hi
        simp only [true_and, if_true]
        match i, hi with
        | 0, hi =>
          simp [versionLine] at hi; rw [← hi, ← decimal_eq]
          have hnv : x ≠ noVersion := by simp [noVersion]; omega
          exact ⟨s, congrFun (if_pos (c := x ≠ noVersion) hnv) s⟩
        | 1, hi => simp [versionLine] at hi; rw [← hi]; exact hentry s
        | 2, hi => simp [versionLine] at hi; rw [← hi]; exact hhash s
        | i + 3, hi => simp [versionLine] at hi
  | byPackageName n v rt =>
    unfold TxPayload.callLines at hi
    rw [hp] at hi htg hokt ht
    match i, hi with
    | 0, hi => simp at hi; rw [← hi]; exact ⟨s, rfl⟩
    | 1, hi =>
      simp at hi; rw [← hi]
      rw [V1Target.encode] at htg
      have h1 := callTable_fields htg
      simp only [List.flatten_cons, List.flatten_nil, List.append_nil, List.length_cons, List.length_nil, At.append] at h1
      have h2 := callTable_fields h1.2.1
      simp only [List.flatten_cons, List.flatten_nil, List.append_nil, List.length_cons, List.length_nil, At.append, pfx, le_length] at h2
      exact exThen (printfStr_at (h2.2.1.2.cast (by simp only [V1Target.view])) rfl ht.1.1 ht.1.2) ⟨_, rfl⟩
    | i + 2, hi =>
      cases hx : e.expert with
      | false =>
        rw [hx] at hi
        simp only [Bool.false_eq_true, false_and, if_false]
        match i, hi with
        | 0, hi => simp [versionLine] at hi; rw [← hi]; exact hentry s
        | 1, hi => simp [versionLine] at hi; rw [← hi]; exact hhash s
        | i + 2, hi => simp [versionLine] at hi
      | true =>
        obtain ⟨x, rfl, h2⟩ := ht.2 hx
        rw [hx] at hi
        simp only [true_and, if_true]
        match i, hi with
        | 0, hi =>
          simp [versionLine] at hi; rw [← hi, ← decimal_eq]
          have hnv : x ≠ noVersion := by simp [noVersion]; omega
          exact ⟨s, congrFun (if_pos (c := x ≠ noVersion) hnv) s⟩
        | 1, hi => simp [versionLine] at hi; rw [← hi]; exact hentry s
        | 2, hi => simp [versionLine] at hi; rw [← hi]; exact hhash s
        | i + 3, hi => simp [versionLine] at hi

end Casper
