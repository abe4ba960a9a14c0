import Verif.Props.Operations
import Verif.Props.Deploys
import Verif.Spec.Schedule
/-
C69: no transaction that is to be executed later is accepted.
-/
namespace Casper
open M

/-- What was read is bad, or it was read and what follows is bad. -/
theorem Res.bad_or {σ α : Type} (x : Res σ α) : x.Bad ∨ ∃ a t, x = .ok a t := by
  cases x with
  | ok a t => exact .inr ⟨a, t, rfl⟩
  | err _ _ => exact .inl trivial
  | fault _ => exact .inl trivial

theorem readScheduling_bad {e : Env} {s : VS} (hs : Small e) {tag : UInt8} {xs : Bytes} (ht : tag ≠ 0)
    (h : At e.buf s.off (pfx (callTable [[tag], xs]))) : (readScheduling e s).Bad := by
  unfold Small at hs
  have hle := h.le
  rw [pfx_length] at hle
  rw [pfx, At.append, le_length] at h
  obtain ⟨hp, h⟩ := h
  have hf := callTable_fields h
  rw [callTable_length] at hle
  simp only [List.flatten_cons, List.flatten_nil, List.append_nil, List.length_append, List.length_cons, List.length_nil] at hf hle
  rw [At.append] at hf
  unfold readScheduling
  refine badOf (lvThen (readLE_at hp (by rw [callTable_length]; simp; omega)) rfl) ?_
  refine badOf (lvThen (readMetadata_at h (by simp) (by simp) (by simp; omega)) (getThen rfl)) ?_
  refine badOf (atThen rfl (by simp [metaOf, Meta.fo, fill]; omega) (lvThen (readU8_at hf.1) rfl)) ?_
  refine badBind ?_
  rw [require_run, if_neg (fun h => ht (by exact UInt8.toNat_inj.1 h))]
  trivial

section
variable {e : Env} {p : TxPayload} {sch : Bytes} (hs : Small e) (hp : p.Ok) (hbad : ∀ s : VS, At e.buf s.off (pfx sch) → (readScheduling e s).Bad)
include hs hp hbad

theorem readBody_late {s : VS} (h : At e.buf s.off (p.bodyOn sch)) (h0 : s.v.target = {}) (hn : s.v.numItems < 256) : (readBody e s).Bad := by
  have hs' := hs
  unfold Small at hs
  have hle := h.le
  have hbl : (p.bodyOn sch).length = 12 + 4 + p.args.encode.length + 4 + p.target.encode.length + 4 + p.entry.encode.length + (4 + sch.length) := by
    simp [TxPayload.bodyOn]; omega
  rw [hbl] at hle
  unfold TxPayload.bodyOn at h
  simp only [At.append, pfx_length, le_length, List.length_append] at h
  obtain ⟨⟨⟨⟨h1, h2, h3⟩, h4, h5⟩, h6, h7⟩, h8, h9⟩ := h
  have hv1 : (p.args.view (s.off + 6) s.v).target = {} ∧ (p.args.view (s.off + 6) s.v).numItems = s.v.numItems := by
    cases p.args <;> exact ⟨h0, rfl⟩
  unfold readBody
  refine badOf (lvThen (readLE_at h1 (by omega)) (reqThen rfl (seqThen (readKey_at h2 (by omega)) rfl))) ?_
  refine badOf (seqThen (readArgs_at hs' hp.args h3) (seqThen (readKey_at (h4.cast (by dsimp only; omega)) (by omega)) rfl)) ?_
  refine badOf (seqThen (readTarget_at hs' hp.target (h5.cast (by dsimp only; omega)) hv1.1 (by rw [hv1.2]; exact hn)) (seqThen (readKey_at (h6.cast (by dsimp only; omega)) (by omega)) rfl)) ?_
  have hw : p.bodyView e s.off s.v = p.bodyView e s.off s.v := rfl
  conv at hw => rhs; unfold TxPayload.bodyView
  dsimp only at hw
  by_cases hc : ∀ o, (checkSanity e (p.bodyView e s.off s.v) o).Bad
  · refine badBind (readEntryPoint_bad (w := p.bodyView e s.off s.v) hs' hp.entry (h7.cast (by dsimp only; omega)) ?_ hc)
    unfold TxPayload.bodyView
    dsimp only
    rw [hv1.2, show s.off + 16 + p.args.encode.length = s.off + 4 + 2 + (4 + p.args.encode.length) + 2 + 4 by omega,
      show s.off + 22 + p.args.encode.length + p.target.encode.length =
        s.off + 4 + 2 + (4 + p.args.encode.length) + 2 + (4 + p.target.encode.length) + 2 + 4 by omega]
  · rw [Classical.not_forall] at hc
    obtain ⟨o, ho⟩ := hc
    rcases Res.bad_or (checkSanity e (p.bodyView e s.off s.v) o) with hb | ⟨_, o', ho'⟩
    · exact absurd hb ho
    refine badOf (seqThen (readEntryPoint_at (w := p.bodyView e s.off s.v) hs' hp.entry (h7.cast (by dsimp only; omega)) ?_ (checkSanity_any ho' _))
      (seqThen (readKey_at (h8.cast (by dsimp only; omega)) (by omega)) rfl)) (hbad _ (h9.cast (by dsimp only; omega)))
    unfold TxPayload.bodyView
    dsimp only
    rw [hv1.2, show s.off + 16 + p.args.encode.length = s.off + 4 + 2 + (4 + p.args.encode.length) + 2 + 4 by omega,
      show s.off + 22 + p.args.encode.length + p.target.encode.length =
        s.off + 4 + 2 + (4 + p.args.encode.length) + 2 + (4 + p.target.encode.length) + 2 + 4 by omega]

theorem readPayload_late {s : VS} (h : At e.buf s.off (p.encodeOn sch)) (h0 : s.v.target = {}) (hn : s.v.numItems < 200)
    (hb : s.v.md.size + s.v.md.fo 1 = s.off) : (readPayload e s).Bad := by
  have hs' := hs
  unfold Small at hs
  have hle := h.le
  unfold TxPayload.encodeOn at h hle
  have hf := callTable_fields h
  rw [callTable_length] at hle
  generalize hfs : [p.initiator.encode, le 8 p.timestamp, le 8 p.ttl, pfx p.chain, p.pricing.encode, p.bodyOn sch] = fs at h hf hle
  have hlen : fs.length = 6 := by rw [← hfs]; rfl
  have hfl : fs.flatten = (p.fields.take 5).flatten ++ p.bodyOn sch := by rw [← hfs]; simp [TxPayload.fields]
  have hff := congrArg List.length hfl
  rw [List.length_append] at hff
  have hbf := hf
  rw [hfl, At.append] at hbf
  have hfo : ∀ i, i ≤ 5 → (metaOf fs).fo i = (metaOf p.fields).fo i := by
    intro i hi
    rw [← hfs]
    rcases i with _ | _ | _ | _ | _ | _ | i
    all_goals first | omega | simp [TxPayload.fields, metaOf, Meta.fo, fill]
  have hpf : payloadFirst { s.v with pmd := metaOf fs } = s.off + 44 := by
    unfold payloadFirst; dsimp only; rw [metaOf_size, hb, hlen]
  have f5 : (metaOf fs).fo 5 = (p.fields.take 5).flatten.length := by
    rw [hfo 5 (by omega)]; simp [TxPayload.fields, metaOf, Meta.fo, fill]; omega
  have f0 : (metaOf fs).fo 0 = 0 := by rw [hfo 0 (by omega)]; rfl
  rw [hlen] at hbf
  unfold readPayload
  refine badOf (lvThen (readMetadata_at h (by omega) (by omega) (by omega)) (updThen (getThen rfl))) ?_
  refine badOf (atThen (by rw [hpf, f0, hlen]) (by rw [hpf, f0]; omega) rfl) ?_
  refine badOf (seqThen (readV1Header_at hs' hp.initiator hp.pricing hp.timestamp hp.ttl (by rw [hlen]; exact hbf.1) (by rw [hpf, hlen]) hfo hn) rfl) ?_
  refine badOf (atThen (by rw [hpf, f5, hlen]) (by rw [hpf, f5]; omega) rfl) ?_
  exact badBind (readBody_late hs' hp hbad (by rw [hlen]; exact hbf.2) h0 (Nat.mod_lt _ (by omega)))

theorem readV1_late {H : Bytes → Bytes} {ap : List Bytes} (hH : ∀ xs, (H xs).length = 32) (h : At e.buf 0 (p.txOn H sch ap)) : (readV1 e ⟨0, {}⟩).Bad := by
  have hs' := hs
  unfold Small at hs
  have hle := h.le
  unfold TxPayload.txOn at h hle
  have hf := callTable_fields h
  rw [callTable_length] at hle
  generalize hfs : [H (p.encodeOn sch), p.encodeOn sch, le 4 ap.length ++ ap.flatten] = fs at h hf hle
  have hlen : fs.length = 3 := by rw [← hfs]; rfl
  have hfl : fs.flatten = H (p.encodeOn sch) ++ (p.encodeOn sch ++ (le 4 ap.length ++ ap.flatten)) := by rw [← hfs]; simp
  have hff := congrArg List.length hfl
  simp only [List.length_append, le_length, hH] at hff
  rw [hlen] at hle hf
  rw [hfl, At.append, At.append, hH] at hf
  obtain ⟨h1, h2, h3⟩ := hf
  have f0 : (metaOf fs).fo 0 = 0 := by rw [← hfs]; rfl
  have f1 : (metaOf fs).fo 1 = 32 := by rw [← hfs]; simp [metaOf, Meta.fo, fill, hH]
  have hsz : (metaOf fs).size = 26 := by rw [metaOf_size, hlen]
  unfold readV1
  refine badOf (reqThen (by omega) (lvThen (readMetadata_at h (by omega) (by omega) (by omega)) (updThen rfl))) ?_
  refine badOf (atThen (by rw [f0, hsz, hlen]) (by omega) (lvThen (skip_run (n := 32) (by dsimp only; omega)) (incrThen rfl))) ?_
  refine badOf (atThen (by rw [f1, hsz, hlen]) (by omega) rfl) ?_
  refine badBind (readPayload_late hs' hp hbad (h2.cast (by rw [hlen])) rfl (by show 1 < 200; omega) ?_)
  show (metaOf fs).size + (metaOf fs).fo 1 = _
  rw [f1, hsz, hlen]
end

theorem txOn_standard (H : Bytes → Bytes) (p : TxPayload) (ap : List Bytes) : p.txOn H Scheduling.standard.encode ap = p.tx H ap := rfl

/-- **C69.** If data that are a serialized version 1 transaction, with any scheduling, lead to a review, then the scheduling is the standard one: the transaction
may be executed at once. -/
theorem C69_scheduling (pl : Platform) (hcap : pl.cap ≤ 16384) (d d' : Dev) (hd : d.Ok pl) (rx : Bytes)
    (pin : Bool) (hins : rx.getD 1 0 = 2) (p : TxPayload) (hp : p.Ok) (s : Scheduling) (ap : List Bytes) (rest : Bytes)
    (hx : d.data ++ rx.drop 5 = 1 :: (p.txOn pl.blake s.encode ap ++ rest)) (h : step pl d (.apdu rx pin) = (d', .pending)) : s = .standard := by
  obtain ⟨hok, hdata, hcase⟩ := sign_pending (by omega) hd hins h
  rw [hx] at hcase hdata
  rcases hcase with ⟨ys, t, h1, -, -⟩ | ⟨ys, t, h1, h2, -⟩
  · simp at h1
  simp only [List.cons.injEq, true_and] at h1
  subst h1
  have hsm : Small (mkEnv pl d.expert (p.txOn pl.blake s.encode ap ++ rest)) := small_data hcap hok hdata d.expert
  have bad : ∀ {tag : UInt8} {xs : Bytes}, tag ≠ 0 → s.encode = callTable [[tag], xs] → False := by
    intro tag xs ht he
    have := readV1_late (sch := s.encode) (ap := ap) (H := pl.blake) hsm hp (fun t hat => readScheduling_bad hsm ht (by rw [← he]; exact hat)) (fun xs => pl.blake.len xs)
      ⟨[], rest, rfl, rfl⟩
    rw [h2.parse] at this
    exact this
  cases s with
  | standard => rfl
  | futureEra n => exact (bad (by decide) rfl).elim
  | futureTimestamp n => exact (bad (by decide) rfl).elim

/-- A case: the sample transfer is accepted, and refused if it is not to be executed before era 20000. -/
example :
    (run samplePl (Dev.init samplePl) (sampleUpload (1 :: sampleTransfer.txOn Blake.H Scheduling.standard.encode []) 1)).2.getLast? = some .pending ∧
    ∃ text, (run samplePl (Dev.init samplePl) (sampleUpload (1 :: sampleTransfer.txOn Blake.H (Scheduling.futureEra 20000).encode []) 1)).2.getLast? =
      some (.reply text 0x6984) :=
  ⟨by decide +kernel, b!"Unexpected value", by decide +kernel⟩

end Casper
