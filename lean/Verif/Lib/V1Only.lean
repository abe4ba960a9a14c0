import Verif.Lib.V1Show
/-
A well-formed version 1 transaction is accepted only if the required arguments are found, and then the parser remembers
exactly what `readV1_at` says.
-/
namespace Casper
open M

/-- Anything but success. -/
def Res.Bad {σ α : Type} : Res σ α → Prop
  | .ok .. => False
  | _ => True

theorem badOf {σ α : Type} {x y : Res σ α} (h : x = y) (hy : y.Bad) : x.Bad := h ▸ hy

theorem badBind {σ α β : Type} {m : M σ α} {k : α → M σ β} {s : σ} (h : (m s).Bad) : ((m >>= k) s).Bad := by
  rw [bind_run]; cases hm : m s <;> rw [hm] at h <;> first | exact h.elim | trivial

theorem bad_onCopy {α : Type} {m : P α} {s : VS} (h : (m s.off).Bad) : (onCopy m s).Bad := by
  unfold onCopy; cases hm : m s.off <;> rw [hm] at h <;> first | exact h.elim | trivial

theorem readEntryPoint_bad {e : Env} {s : VS} {a : V1Entry} (hs : Small e) (ha : a.Ok)
    (h : At e.buf s.off (pfx a.encode)) {w : V1}
    (hw : w = { a.view (s.off + 4) s.v with
      numItems := u8 (s.v.numItems + 1 + entryItems e a.tag s.v.numArgs) })
    (hc : ∀ o, (checkSanity e w o).Bad) : (readEntryPoint e s).Bad := by
  have hs' := hs
  unfold Small at hs
  have hle := h.le
  rw [pfx_length] at hle
  rw [pfx, At.append, le_length] at h
  obtain ⟨hp, h⟩ := h
  unfold readEntryPoint
  refine badOf (lvThen (readLE_at hp (by omega)) rfl) ?_
  cases a with
  | custom n =>
    rw [V1Entry.encode] at h hle
    have hf := callTable_fields h
    rw [callTable_length] at hle
    simp only [List.flatten_cons, List.flatten_nil, List.append_nil, List.length_append, List.length_cons, List.length_nil, pfx_length] at hf hle
    rw [At.append] at hf
    obtain ⟨h1, h2⟩ := hf
    refine badOf (lvThen (readMetadata_at h (by simp) (by simp) (by simp; omega)) (getThen rfl)) ?_
    refine badOf (atThen rfl (by simp [metaOf, Meta.fo, fill]; omega) (lvThen (readU8_at h1) (reqThen (by decide) rfl))) ?_
    refine badOf (seqThen (m := customName e _ _) (a := ()) (t := ⟨s.off + 4 + 20 + 1 + (4 + n.length), { s.v with cepPtr := s.off + 4 + 25, cepLen := n.length }⟩) ?_ rfl) ?_
    · unfold customName
      rw [if_pos (by rfl)]
      refine atThen (by simp [metaOf, Meta.fo, fill]) (by simp [metaOf, Meta.fo, fill]; omega) (modThen (lvThen (readBytes_at hs'.fits h2) ?_))
      rfl
    · refine badOf (atThen (by simp [metaOf]; omega) (by simp [metaOf]; omega) (updThen (incrThen (getThen (incrThen (getThen rfl)))))) ?_
      have hw' : ({ s.v with cepPtr := s.off + 4 + 25, cepLen := n.length, epType := 1, numItems := u8 (u8 (s.v.numItems + 1) + entryItems e 1 s.v.numArgs) } : V1) = w := by
        rw [hw]
        simp only [V1Entry.view, V1.mk.injEq, true_and, and_true, V1Entry.tag, u8]
        omega
      refine bad_onCopy ?_
      have := hc (s.off + 4 + 20 + 1 + (4 + n.length))
      rw [← hw'] at this
      exact this
  | op t =>
    rw [V1Entry.encode] at h hle
    have hf := callTable_fields h
    rw [callTable_length] at hle
    simp only [List.flatten_cons, List.flatten_nil, List.append_nil, List.length_cons, List.length_nil, le_length] at hf hle
    refine badOf (lvThen (readMetadata_at h (by simp) (by simp) (by simp)) (getThen rfl)) ?_
    refine badOf (atThen rfl (by simp [metaOf, Meta.fo, fill]; omega) (lvThen (readByte_at hf (by have := ha.1; omega)) (reqThen ha.1 rfl))) ?_
    refine badOf (seqThen (m := customName e _ _) (a := ()) (by unfold customName; rw [if_neg ha.2]; rfl) rfl) ?_
    refine badOf (atThen (by simp [metaOf]) (by simp [metaOf]; omega) (updThen (incrThen (getThen (incrThen (getThen rfl)))))) ?_
    have hw' : ({ s.v with epType := t, numItems := u8 (u8 (s.v.numItems + 1) + entryItems e t s.v.numArgs) } : V1) = w := by
      rw [hw]
      simp only [V1Entry.view, V1.mk.injEq, true_and, and_true, V1Entry.tag, u8]
      omega
    refine bad_onCopy ?_
    have := hc (s.off + 4 + (8 + 6 * (0 + 1)) + 1)
    rw [← hw'] at this
    exact this

theorem readBody_bad {e : Env} {s : VS} {p : TxPayload} (hs : Small e) (hp : p.Ok) (h : At e.buf s.off p.body)
    (h0 : s.v.target = {}) (hn : s.v.numItems < 256)
    (hc : ∀ o, (checkSanity e (p.bodyView e s.off s.v) o).Bad) : (readBody e s).Bad := by
  have hs' := hs
  unfold Small at hs
  have hle := h.le
  have hbl : p.body.length = 12 + 4 + p.args.encode.length + 4 + p.target.encode.length + 4 + p.entry.encode.length + 19 := by
    simp [TxPayload.body, callTable_length]; omega
  rw [hbl] at hle
  unfold TxPayload.body at h
  simp only [At.append, pfx_length, le_length, List.length_append] at h
  obtain ⟨⟨⟨⟨h1, h2, h3⟩, h4, h5⟩, h6, h7⟩, h8, h9⟩ := h
  have hv1 : (p.args.view (s.off + 6) s.v).target = {} ∧ (p.args.view (s.off + 6) s.v).numItems = s.v.numItems := by
    cases p.args <;> exact ⟨h0, rfl⟩
  unfold readBody
  refine badOf (lvThen (readLE_at h1 (by omega)) (reqThen rfl (seqThen (readKey_at h2 (by omega)) rfl))) ?_
  refine badOf (seqThen (readArgs_at hs' hp.args h3) (seqThen (readKey_at (h4.cast (by dsimp only; omega)) (by omega)) rfl)) ?_
  refine badOf (seqThen (readTarget_at hs' hp.target (h5.cast (by dsimp only; omega)) hv1.1 (by rw [hv1.2]; exact hn)) (seqThen (readKey_at (h6.cast (by dsimp only; omega)) (by omega)) rfl)) ?_
  refine badBind (readEntryPoint_bad (w := p.bodyView e s.off s.v) hs' hp.entry (h7.cast (by dsimp only; omega)) ?_ hc)
  unfold TxPayload.bodyView
  dsimp only
  rw [hv1.2, show s.off + 16 + p.args.encode.length = s.off + 4 + 2 + (4 + p.args.encode.length) + 2 + 4 by omega,
    show s.off + 22 + p.args.encode.length + p.target.encode.length =
      s.off + 4 + 2 + (4 + p.args.encode.length) + 2 + (4 + p.target.encode.length) + 2 + 4 by omega]

theorem readPayload_bad {e : Env} {s : VS} {p : TxPayload} (hs : Small e) (hp : p.Ok) (h : At e.buf s.off p.encode)
    (h0 : s.v.target = {}) (hn : s.v.numItems < 200) (hb : s.v.md.size + s.v.md.fo 1 = s.off)
    (hc : ∀ o, (checkSanity e (p.view e s.v) o).Bad) : (readPayload e s).Bad := by
  have hs' := hs
  unfold Small at hs
  have hle := h.le
  rw [p.encode_eq] at h hle
  have hf := callTable_fields h
  rw [callTable_length] at hle
  have hlen : p.fields.length = 6 := rfl
  have hff := congrArg List.length p.fields_flatten
  rw [List.length_append] at hff
  have hbf := hf
  rw [p.fields_flatten, At.append] at hbf
  have hpf : payloadFirst { s.v with pmd := metaOf p.fields } = s.off + 44 := by
    unfold payloadFirst; dsimp only; rw [metaOf_size, hb]; rfl
  have f5 : (metaOf p.fields).fo 5 = (p.fields.take 5).flatten.length := by
    simp [TxPayload.fields, metaOf, Meta.fo, fill]; omega
  unfold readPayload
  refine badOf (lvThen (readMetadata_at h (by omega) (by omega) (by omega)) (updThen (getThen rfl))) ?_
  refine badOf (atThen (by rw [hpf]; rfl) (by rw [hpf]; simp [TxPayload.fields, metaOf, Meta.fo, fill]; omega) rfl) ?_
  refine badOf (seqThen (readV1Header_at hs' hp.initiator hp.pricing hp.timestamp hp.ttl hbf.1 hpf (fun _ _ => rfl) hn) rfl) ?_
  refine badOf (atThen (by rw [hpf, f5]; rfl) (by rw [hpf, f5]; omega) rfl) ?_
  unfold TxPayload.view at hc
  rw [hpf] at hc
  exact badBind (readBody_bad hs' hp hbf.2 h0 (Nat.mod_lt _ (by omega)) hc)

theorem readV1_bad {e : Env} {H : Bytes → Bytes} {p : TxPayload} {ap : List Bytes} (hs : Small e) (hp : p.Ok)
    (hH : (H p.encode).length = 32) (h : At e.buf 0 (p.tx H ap))
    (hc : ∀ o, (checkSanity e (p.view e (p.start H ap)) o).Bad) : (readV1 e ⟨0, {}⟩).Bad := by
  have hs' := hs
  unfold Small at hs
  have hle := h.le
  rw [p.tx_eq] at h hle
  have hf := callTable_fields h
  rw [callTable_length] at hle
  have hlen : (p.txFields H ap).length = 3 := rfl
  have hfl : (p.txFields H ap).flatten.length = 32 + (p.encode.length + (4 + ap.flatten.length)) := by
    simp [TxPayload.txFields, hH]
  rw [hlen] at hle hf
  rw [hfl] at hle
  simp only [TxPayload.txFields, List.flatten_cons, List.flatten_nil, List.append_nil] at hf
  rw [At.append, At.append, At.append, hH] at hf
  obtain ⟨h1, h2, h3, h4⟩ := hf
  have f0 : (metaOf (p.txFields H ap)).fo 0 = 0 := rfl
  have f1 : (metaOf (p.txFields H ap)).fo 1 = 32 := by simp [TxPayload.txFields, metaOf, Meta.fo, fill, hH]
  have hsz : (metaOf (p.txFields H ap)).size = 26 := rfl
  unfold readV1
  refine badOf (reqThen (by omega) (lvThen (readMetadata_at h (by omega) (by omega) (by omega)) (updThen rfl))) ?_
  refine badOf (atThen (by rw [f0, hsz]; rfl) (by omega) (lvThen (skip_run (n := 32) (by dsimp only; omega)) (incrThen rfl))) ?_
  refine badOf (atThen (by rw [f1, hsz]; rfl) (by omega) rfl) ?_
  exact badBind (readPayload_bad (s := ⟨58, p.start H ap⟩) hs' hp (h2.cast (by rfl)) rfl (by show 1 < 200; omega) (by show (metaOf _).size + (metaOf _).fo 1 = _; rw [f1, hsz]) hc)

end Casper
