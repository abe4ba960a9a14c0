import Verif.Lib.Loose
import Verif.Lib.Unique
import Verif.Lib.Signed
import Verif.Props.Canonical
import Verif.Props.Effort
/-
C82: accepted version 1 data are a serialized version 1 transaction, up to the numbers that describe the layout.
-/
namespace Casper

theorem at_prefix {buf pre suf ys : Bytes} (h : buf = pre ++ suf) (ha : At buf pre.length ys) : ∃ more, suf = ys ++ more := by
  have hl := ha.le
  have h1 : At buf pre.length suf := ⟨pre, [], by rw [h]; simp, rfl⟩
  obtain ⟨u, w, rfl, hul⟩ := split_at (l := suf) (n := ys.length) (by rw [h, List.length_append] at hl; omega)
  exact ⟨w, by rw [(At.append.1 h1).1.unique ha hul]⟩

/-- **C82.** Data of an accepted version 1 transaction are a table, the hash, the payload, the approvals, and what is behind these; of the last
signature, which is not signed, up to 64 bytes may be missing.  The hash is the BLAKE2b hash of the payload.  The table's offsets and size are those of
these three fields.  The payload consists of initiator, timestamp, time to live, chain name, pricing mode and body, each a complete value of its kind;
the body of arguments, target, entry point and scheduling, again complete; the arguments' types are read as Casper does.  `LoosePayload` says which
numbers in tables are free.  Provided no 32-bit number in the data is 2^32 - 65536 or more (see C49), and no argument has a type as in `BadType`: in
this last case the theorem tells where. -/
theorem C82_serialized_partial (pl : Platform) (hcap : pl.cap ≤ 16384) (d d' : Dev) (hd : d.Ok pl) (xs : Bytes)
    (hx : d.data = 1 :: xs) (h : txParse pl d = .ok () d') (hh : ∀ i m, At xs i (le 4 m) → m < 4294967296 → m < 4294967296 - 65536) :
    ∃ tb payload aps miss rest, Heads [pl.blake payload, payload, le 4 aps.length ++ aps.flatten] 3 true tb ∧ (∀ a ∈ aps, LooseApproval a) ∧
      xs ++ miss = tb ++ (pl.blake payload ++ (payload ++ ((le 4 aps.length ++ aps.flatten) ++ rest))) ∧
      miss.length ≤ 64 ∧ (miss = [] ∨ (aps ≠ [] ∧ rest = [])) ∧
      ((∃ a : V1Args, (∀ as, a = .named as → GoodTypes as) ∧ LoosePayload a.encode payload) ∨
       ∃ fs ptb l count as name value bad more, LooseHeader fs ∧ Heads fs 6 false ptb ∧ as.length < count ∧ GoodTypes as ∧ BadType bad ∧
        payload ++ ((le 4 aps.length ++ aps.flatten) ++ rest) = ptb ++ (fs.flatten ++ (le 4 4 ++ (le 2 0 ++ (le 4 l ++ (0 :: (le 4 count ++
          (encodeArgs as ++ (pfx name ++ (pfx value ++ bad))))))))) ++ more) := by
  rcases (txParse_ok (by omega) hd).1 h with ⟨ys, s, h1, -, -⟩ | ⟨ys, s, h1, h2, -⟩
  · rw [hx] at h1; simp at h1
  rw [hx] at h1
  simp only [List.cons.injEq, true_and] at h1
  subst h1
  have hs := small_data hcap hd hx d.expert
  have hp : Plain (mkEnv pl d.expert xs) 0 := ⟨hs.to_fits, fun ⟨i, m, _, g1, g2, g3⟩ => absurd (hh i m g1 g3) (by omega)⟩
  obtain ⟨hf, env, hash, payload, rest0, b1, b2, b3, b4, b5⟩ := h2.split hs
  have b1' : xs = env ++ hash ++ payload ++ rest0 := b1
  have b5' : pl.blake payload = hash := b5
  obtain ⟨⟨n, n1, n2, n3, n4⟩, hsp⟩ := readV1_spans hs hp _ _ h2.parse
  have hin := hf.pinside
  have hsz := hf.table.size_le
  have hfs := hf.table.fs_lt
  have hs' : (mkEnv pl d.expert xs).buf.length ≤ 16384 := hs
  have hu : u32 (s.v.md.size + s.v.md.fo 2) = (env ++ hash ++ payload).length := by
    simp only [List.length_append]; unfold u32; rw [hf.fo2]; omega
  rw [hu] at n2 n3
  have hle := n2.le
  rw [le_length] at hle
  obtain ⟨aps, miss, a1, a2, a3, a4, a5, a6⟩ := readApprovalList_spans hs n hle n3
  subst a1
  have hpl : (env ++ hash).length = s.v.md.size + 32 := by rw [List.length_append, b2, b3]
  have hx0 : (mkEnv pl d.expert xs).buf ++ miss = env ++ hash ++ payload ++ (rest0 ++ miss) := by rw [b1]; simp
  have hat : At ((mkEnv pl d.expert xs).buf ++ miss) (env ++ hash ++ payload).length (le 4 aps.length ++ aps.flatten) := by
    refine At.append.2 ⟨?_, a3.cast (by simp)⟩
    obtain ⟨p, q, w1, w2⟩ := n2
    exact ⟨p, q ++ miss, by rw [w1]; simp, w2⟩
  obtain ⟨rest, hr⟩ := at_prefix hx0 hat
  have h32 : (pl.blake payload).length = 32 := pl.blake.len _
  have hst : ∀ j, j < 3 → s.v.md.fo j = startOf [pl.blake payload, payload, le 4 aps.length ++ aps.flatten] j := by
    intro j hj
    match j, hj with
    | 0, _ => exact hf.fo0
    | 1, _ => rw [hf.fo1]; simp [startOf, h32]
    | 2, _ => rw [hf.fo2]; simp [startOf, h32]; omega
  have hlen := congrArg List.length hx0
  rw [hr] at hlen
  simp only [List.length_append, le_length] at hlen a4 hpl
  obtain ⟨tb, t1, t2, t3⟩ := hf.table.heads (fs := [pl.blake payload, payload, le 4 aps.length ++ aps.flatten]) (n := 3) (whole := true) hst
    (fun j h0 hj => by
      match j, h0, hj with
      | 1, _, _ => simp [startOf, h32]
      | 2, _, _ => simp [startOf, h32])
    (fun _ => by
      have := (at_end n4 hfs (by omega)).1
      simp only [List.flatten_cons, List.flatten_nil, List.length_append, le_length, List.length_nil, h32]
      omega)
  obtain rfl : tb = env := t1.unique ⟨[], hash ++ payload ++ rest0, by rw [b1]; simp, rfl⟩ (by omega)
  have hx1 : xs ++ miss = tb ++ hash ++ (payload ++ ((le 4 aps.length ++ aps.flatten) ++ rest)) := by
    rw [← hr, List.append_assoc] at *
    exact hx0.trans (by simp)
  refine ⟨tb, payload, aps, miss, rest, t3, a2, by rw [hx1, b5']; simp, a5, ?_, ?_⟩
  · rcases a6 with rfl | ⟨a6, a7⟩
    · exact .inl rfl
    · right
      refine ⟨a6, List.length_eq_zero_iff.1 ?_⟩
      rw [List.length_append] at a7
      omega
  rcases hsp with ⟨fs, ptb, c1, c2, c3, l, k, c4, as, name, value, bad, c5, c6, c7, c8⟩ | ⟨ys, a, c1, c2, c3, c4⟩
  · right
    obtain ⟨more, hm⟩ := at_prefix hx1
      (ys := ptb ++ (fs.flatten ++ (le 4 4 ++ (le 2 0 ++ (le 4 l ++ (0 :: (le 4 k ++ (encodeArgs as ++ (pfx name ++ (pfx value ++ bad))))))))))
      (by
        rw [List.length_append, hpl]
        have := At.append.2 ⟨c3, At.append.2 ⟨c4, c8.cast (by simp)⟩⟩
        simp only [List.append_assoc, List.cons_append] at this
        obtain ⟨p, q, w1, w2⟩ := this
        have w1' : xs = _ := w1
        exact ⟨p, q ++ miss, by rw [w1']; simp, w2⟩)
    exact ⟨fs, ptb, l, k, as, name, value, bad, more, c1, c2, c5, c6, c7, hm⟩
  · left
    have : payload = ys := by
      have h1 : At (mkEnv pl d.expert xs).buf (s.v.md.size + 32) payload := ⟨tb ++ hash, rest0, by rw [b1], by rw [List.length_append, hpl]⟩
      have := hf.fo2
      exact h1.unique c2 (by omega)
    exact ⟨a, c1, this ▸ c4⟩

/-! ### The specification admits what Casper serializes -/

theorem tableEntries_loose (fs : List Bytes) : ∀ i st, tableEntries i st fs = entriesFrom i ((List.range fs.length).map (fun j => st + startOf fs j)) := by
  induction fs with
  | nil => intro i st; rfl
  | cons f fs ih =>
    intro i st
    rw [tableEntries, ih, List.length_cons, List.range_succ_eq_map, List.map_cons, List.map_map, entriesFrom]
    congr 2
    refine List.map_congr_left fun j _ => ?_
    simp only [Function.comp, startOf, List.take_succ_cons, List.flatten_cons, List.length_append]
    omega

theorem callTable_loose {fs : List Bytes} {n : Nat} {whole : Bool} (h1 : 1 ≤ fs.length) (h10 : fs.length ≤ 10) (hn : n ≤ fs.length) (hl : (callTable fs).length < 65536) :
    LooseAs n whole fs (callTable fs) := by
  rw [callTable_length] at hl
  refine ⟨_, ⟨fs.length, (List.range fs.length).map (startOf fs), fs.flatten.length, rfl, by simp; omega, by simpa using h1, by simpa using h10,
    fun j hj => by rw [List.getElem?_map, List.getElem?_range (by omega)]; rfl, fun _ => by omega⟩, ?_⟩
  unfold callTable looseTable
  rw [tableEntries_loose]
  simp only [Nat.zero_add]

theorem VmRuntime.loose {rt : VmRuntime} (h : rt.Ok) (hl : rt.encode.length < 65536) : LooseRuntime rt.encode := by
  cases rt with
  | v1 => exact ⟨.v1, fun _ _ h => (by cases h), callTable_loose (by decide) (by decide) (by omega) hl⟩
  | v2 v s => exact ⟨.v2 v s, fun v' s' h' => by cases h'; exact h.2 s' rfl, callTable_loose (fs := VmRuntime.fields (.v2 v s)) (by simp [VmRuntime.fields]) (by simp [VmRuntime.fields]) (by omega) hl⟩

theorem V1Target.loose {t : V1Target} (h : t.Ok) (hl : t.encode.length < 65536) : LooseTarget t.encode := by
  have fld : ∀ {fs : List Bytes} {f : Bytes}, (callTable fs).length < 65536 → f ∈ fs → f.length < 65536 := fun h hf => lt_of_le_of_lt (callTable_field hf) h
  cases t with
  | native => exact .native _ (callTable_loose (by decide) (by decide) (by decide) hl)
  | byHash x rt =>
    exact .stored [[0], x] _ _ _ (.byHash x h.1) (callTable_loose (by simp) (by simp) (by simp) (fld hl (by simp))) (VmRuntime.loose h.2 (fld hl (by simp)))
      (callTable_loose (by simp) (by simp) (by simp) hl)
  | byName x rt =>
    exact .stored [[1], pfx x] _ _ _ (.byName x) (callTable_loose (by simp) (by simp) (by simp) (fld hl (by simp))) (VmRuntime.loose h (fld hl (by simp)))
      (callTable_loose (by simp) (by simp) (by simp) hl)
  | byPackageHash x v rt =>
    exact .stored [[2], x, optional (le 4) v] _ _ _ (.byPackageHash x h.1 v h.2.1) (callTable_loose (by simp) (by simp) (by simp) (fld hl (by simp))) (VmRuntime.loose h.2.2 (fld hl (by simp)))
      (callTable_loose (by simp) (by simp) (by simp) hl)
  | byPackageName x v rt =>
    exact .stored [[3], pfx x, optional (le 4) v] _ _ _ (.byPackageName x v h.1) (callTable_loose (by simp) (by simp) (by simp) (fld hl (by simp))) (VmRuntime.loose h.2 (fld hl (by simp)))
      (callTable_loose (by simp) (by simp) (by simp) hl)
  | session i rt m =>
    exact .session i _ m _ (VmRuntime.loose h (fld hl (by simp))) (callTable_loose (by simp) (by simp) (by simp) hl)

theorem TxPayload.body_long (p : TxPayload) : p.args.encode.length ≤ p.body.length ∧ p.target.encode.length ≤ p.body.length ∧ p.entry.encode.length ≤ p.body.length := by
  unfold TxPayload.body pfx
  simp only [List.length_append]
  omega

/-- A complete payload is of the form described in `C82_serialized_partial`. -/
theorem TxPayload.loose {p : TxPayload} (hp : p.Ok) (hl : p.encode.length < 65536) : LoosePayload p.args.encode p.encode := by
  have fld : ∀ {f : Bytes}, f ∈ p.fields → f.length < 65536 := fun hf => lt_of_le_of_lt (callTable_field hf) hl
  have hb := p.body_long
  have hbl : p.body.length < 65536 := fld (by simp [TxPayload.fields])
  refine ⟨p.fields.take 5, p.body, ⟨_, _, _, p.chain, _, ?_, hp.timestamp, hp.ttl, ?_, rfl⟩, ?_, ?_⟩
  · have hl := fld (f := p.initiator.encode) (by simp [TxPayload.fields])
    have ho := hp.initiator
    cases hq : p.initiator with
    | ed25519 k => rw [hq] at hl ho; exact ⟨_, .inr (.inl ⟨k, ho, rfl⟩), callTable_loose (by simp) (by simp) (by simp) hl, callTable_length _⟩
    | secp256k1 k => rw [hq] at hl ho; exact ⟨_, .inr (.inr (.inl ⟨k, ho, rfl⟩)), callTable_loose (by simp) (by simp) (by simp) hl, callTable_length _⟩
    | account k => rw [hq] at hl ho; exact ⟨_, .inr (.inr (.inr ⟨k, ho, rfl⟩)), callTable_loose (by simp) (by simp) (by simp) hl, callTable_length _⟩
  · have hl := fld (f := p.pricing.encode) (by simp [TxPayload.fields])
    have ho := hp.pricing
    cases hq : p.pricing with
    | limited a g s => rw [hq] at hl ho; exact ⟨_, .inl ⟨a, g, _, ho.1, ho.2, rfl⟩, callTable_loose (by simp) (by simp) (by simp) hl⟩
    | fixed g x => rw [hq] at hl ho; exact ⟨_, .inr (.inl ⟨g, x, ho.1, ho.2, rfl⟩), callTable_loose (by simp) (by simp) (by simp) hl⟩
    | prepaid r => rw [hq] at hl ho; exact ⟨_, .inr (.inr ⟨r, ho, rfl⟩), callTable_loose (by simp) (by simp) (by simp) hl⟩
  · refine ⟨p.args.encode.length, p.target.encode.length, p.entry.encode.length, (callTable [[0]]).length, p.target.encode, p.entry.encode, callTable [[0]], V1Target.loose hp.target (by omega), ?_, callTable_loose (by decide) (by decide) (by decide) (by decide), ?_⟩
    · have hl : p.entry.encode.length < 65536 := by omega
      have ho := hp.entry
      cases hq : p.entry with
      | custom n => rw [hq] at hl; exact .custom n _ (callTable_loose (by simp) (by simp) (by simp) hl)
      | op t => rw [hq] at hl ho; exact .op t _ ho.1 ho.2 (callTable_loose (by simp) (by simp) (by simp) hl)
    · unfold TxPayload.body pfx
      simp only [List.append_assoc]
  · exact callTable_loose (fs := p.fields) (by simp [TxPayload.fields]) (by simp [TxPayload.fields]) (by simp [TxPayload.fields]) hl

/-- The hypotheses of `C82_serialized_partial` can be met, and its first case holds, of the sample transfer. -/
example : (run samplePl (Dev.init samplePl) (sampleUpload (1 :: sampleTransfer.tx Blake.H []) 1)).2 =
      [.reply [] 0x9000, .reply [] 0x9000, .pending] ∧ noHuge (sampleTransfer.tx Blake.H []) = true ∧
    LoosePayload sampleTransfer.args.encode sampleTransfer.encode :=
  ⟨by decide +kernel, by decide +kernel, TxPayload.loose sampleTransfer_ok (by decide +kernel)⟩

/-! ### Where it fails -/

/-- The sample transfer, with a table that claims 259 fields. -/
def manyFields : Bytes := le 4 259 ++ (sampleTransfer.tx Blake.H []).drop 4

/-- **C82 fails** for the outer table: a transaction whose table claims 259 fields is accepted; a serialized transaction claims three. -/
theorem C82_table_false :
    (run samplePl (Dev.init samplePl) (sampleUpload (1 :: manyFields) 1)).2 = [.reply [] 0x9000, .reply [] 0x9000, .pending] ∧
    noHuge manyFields = true ∧ ∀ (p : TxPayload) ap rest, manyFields ≠ p.tx Blake.H ap ++ rest := by
  refine ⟨by decide +kernel, by decide +kernel, fun p ap rest h => ?_⟩
  have h1 := congrArg (List.take 4) h
  rw [show (manyFields).take 4 = le 4 259 from by decide +kernel] at h1
  unfold TxPayload.tx callTable at h1
  rw [List.append_assoc, List.append_assoc, List.append_assoc, List.take_append_of_le_length (by simp), List.take_of_length_le (by simp)] at h1
  rw [show ([Blake.H p.encode, p.encode, le 4 ap.length ++ ap.flatten] : List Bytes).length = 3 from rfl] at h1
  exact absurd h1 (by decide)

/-- The body of the sample transfer, but the arguments claim to have a million bytes. -/
def longBody : Bytes :=
  le 4 4 ++ (le 2 0 ++ (le 4 1000000 ++ sampleTransfer.args.encode)) ++ (le 2 1 ++ pfx sampleTransfer.target.encode) ++ (le 2 2 ++ pfx sampleTransfer.entry.encode) ++
    (le 2 3 ++ pfx (callTable [[0]]))
def longPayload : Bytes := callTable (sampleTransfer.fields.take 5 ++ [longBody])
def longTx : Bytes := callTable [Blake.H longPayload, longPayload, le 4 0]

/-- **C82 fails** for the lengths of the body's fields: a transaction with correct hash and tables is accepted, whose arguments claim to be a million
bytes long; no serialized payload is what is signed. -/
theorem C82_length_false :
    (run samplePl (Dev.init samplePl) (sampleUpload (1 :: longTx) 1)).2 = [.reply [] 0x9000, .reply [] 0x9000, .pending] ∧
    noHuge longTx = true ∧ longTx = callTable [Blake.H longPayload, longPayload, le 4 0] ∧ ∀ p : TxPayload, longPayload ≠ p.encode := by
  refine ⟨by decide +kernel, by decide +kernel, rfl, fun p h => ?_⟩
  have hl : longPayload.length < 1000 := by decide +kernel
  have h1 := callTable_inj (by show longPayload.length < _; omega) (by show p.encode.length < _; rw [← h]; omega) h
  have h2 : longBody = p.body := by
    have := congrArg (fun l : List Bytes => l[5]?) h1
    simpa [TxPayload.fields] using this
  have h3 : p.args.encode.length < 1000 := by
    have := p.body_long.1
    have := callTable_field (fs := p.fields) (f := p.body) (by simp [TxPayload.fields])
    have h4 : p.encode.length < 1000 := h ▸ hl
    rw [TxPayload.encode_eq] at h4
    omega
  have h4 := congrArg (fun l => (l.drop 6).take 4) h2
  have h5 : (longBody.drop 6).take 4 = le 4 1000000 := by decide +kernel
  have h6 : (p.body.drop 6).take 4 = le 4 p.args.encode.length := by
    unfold TxPayload.body pfx
    simp only [List.append_assoc]
    rw [← List.append_assoc (le 4 4), List.drop_left' (by simp), List.take_append_of_le_length (by simp), List.take_of_length_le (by simp)]
  rw [h5, h6] at h4
  have := congrArg leVal h4
  rw [leVal_le 4 _ (by omega), leVal_le 4 _ (by omega)] at this
  omega

end Casper
