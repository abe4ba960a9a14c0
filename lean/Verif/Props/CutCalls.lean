import Verif.Props.Contracts
import Verif.Props.ZeroNames

/-!
# Deploys calling contracts, all names

Names of contracts and entry points are shown up to the first zero byte.
-/

namespace Casper

open M

/-- The item with the names of contract and entry point cut at the first zero byte. -/
def ExecItem.cut : ExecItem → ExecItem
  | byHash h entry as => .byHash h (entry.takeWhile (· != 0)) as
  | byName name entry as => .byName (name.takeWhile (· != 0)) (entry.takeWhile (· != 0)) as
  | versionedByHash h v entry as => .versionedByHash h v (entry.takeWhile (· != 0)) as
  | versionedByName name v entry as => .versionedByName (name.takeWhile (· != 0)) v (entry.takeWhile (· != 0)) as
  | it => it

theorem ExecItem.cut_address {it : ExecItem} {H : Bytes → Bytes} (h : it.cut.address H ≠ []) : it.address H ≠ [] := by
  cases it <;> simp_all [ExecItem.cut, ExecItem.address, storedLines]

section
variable {e : Env} (hs : Small e) {off epo idx : Nat} {ls : List (Bytes × Bytes)}
include hs

theorem renderEntryPoint_callee_cut {entry : Bytes} {s : Nat} (h : At e.buf epo (pfx entry)) (hm : (b!"Entry-point", entry.takeWhile (· != 0)) ∈ ls) :
    Post (renderEntryPoint e epo) s (fun kv _ => CalleeLine ls kv) := by
  have hf := hs.to_fits
  unfold renderEntryPoint
  refine Post.getThen (Post.setThen ((copyItem_post hf).seq fun xs t ⟨h1, _, _, _⟩ => Post.setThen ?_))
  obtain rfl := h.pfx_inj hf h1
  unfold showArray
  split
  · refine Post.pureThen (Post.pure fun _ => ?_)
    exact hm
  · exact Post.seq (P := fun _ _ => False) .abort fun _ _ h => h.elim

theorem fixedByHash_callee_cut {b ver : Bool} {hb entry label xs : Bytes} {v : Option Nat} (hl : hb.length = 32)
    (h : At e.buf off (hb ++ ((if ver then optional (le 4) v else []) ++ (pfx entry ++ xs)))) (hv : ∀ n, v = some n → n < 2 ^ 32)
    (hepo : epo = off + 32 + (if ver then optional (le 4) v else []).length) (m1 : (b!"Execution", label) ∈ ls)
    (m2 : (b!"Address", checksumHex e.blake hb) ∈ ls) (m3 : ver = true → (b!"Version", decText (v.getD 0)) ∈ ls) (m4 : (b!"Entry-point", entry.takeWhile (· != 0)) ∈ ls) :
    Post (fixedByHash e epo b ver label idx) off (fun kv _ => CalleeLine ls kv) := by
  have hf := hs.to_fits
  obtain ⟨h1, h2⟩ := At.append.1 h
  obtain ⟨h3, h4⟩ := At.append.1 h2
  have hle := h2.le
  rw [hl] at h3 h4 hle
  have hent : ∀ {s}, Post (renderEntryPoint e epo) s (fun kv _ => CalleeLine ls kv) :=
    renderEntryPoint_callee_cut hs (by rw [hepo]; exact (At.append.1 h4).1) m4
  unfold Small at hs
  unfold fixedByHash
  refine Post.ite (fun _ => Post.pure fun _ => m1) fun _ => Post.ite (fun _ => Post.getThen ?_) fun _ => ?_
  · refine .runThen (by rw [← hl]; exact printBytes_at h1 (by omega)) (Post.pure fun _ => m2)
  refine .runThen (skip_run (by omega)) ?_
  have other : ∀ {c : Prop} [Decidable c] {s : Nat}, Post (if c then renderEntryPoint e epo else Pure.pure (b!"?", b!"?")) s (fun kv _ => CalleeLine ls kv) := by
    intro c _ s
    exact Post.ite (fun _ => hent) fun _ => Post.pure fun h => absurd h (by decide)
  cases ver with
  | true =>
    rw [if_pos rfl]
    rw [if_pos rfl] at h2
    rw [hl] at h2
    refine .runThen (parseVersion_at hv h2) (Post.ite (fun _ => Post.pure fun _ => ?_) fun _ => ?_)
    · rw [decimal_eq]; exact m3 rfl
    · exact Post.seq (P := fun _ _ => True) (fun _ _ _ => trivial) fun _ _ _ => other
  | false =>
    rw [if_neg (by decide)]
    exact Post.seq (P := fun _ _ => True) (fun _ _ _ => trivial) fun _ _ _ => other

theorem fixedByName_callee_cut {b ver : Bool} {nb entry label xs : Bytes} {v : Option Nat}
    (h : At e.buf off (pfx nb ++ ((if ver then optional (le 4) v else []) ++ (pfx entry ++ xs)))) (hv : ∀ n, v = some n → n < 2 ^ 32)
    (hepo : epo = off + 4 + nb.length + (if ver then optional (le 4) v else []).length) (m1 : (b!"Execution", label) ∈ ls)
    (m2 : (b!"Name", nb.takeWhile (· != 0)) ∈ ls) (m3 : ver = true → (b!"Version", decText (v.getD 0)) ∈ ls) (m4 : (b!"Entry-point", entry.takeWhile (· != 0)) ∈ ls) :
    Post (fixedByName e epo b ver label idx) off (fun kv _ => CalleeLine ls kv) := by
  have hf := hs.to_fits
  have h2 := (At.pfx h).2
  obtain ⟨h3, h4⟩ := At.append.1 h2
  have hle := h2.le
  have hent : ∀ {s}, Post (renderEntryPoint e epo) s (fun kv _ => CalleeLine ls kv) :=
    renderEntryPoint_callee_cut hs (by rw [hepo]; exact (At.append.1 h4).1) m4
  unfold fixedByName
  refine Post.ite (fun _ => Post.pure fun _ => m1) fun _ => Post.ite (fun _ => ?_) fun _ => ?_
  · refine (copyItem_post hf).seq fun xs t ⟨k1, _, _, _⟩ => ?_
    obtain rfl := (At.append.1 h).1.pfx_inj hf k1
    unfold showArray
    split
    · refine Post.pureThen (Post.pure fun _ => ?_)
      exact m2
    · exact Post.seq (P := fun _ _ => False) .abort fun _ _ h => h.elim
  refine .runThen (parseItem_at hf h) ?_
  have other : ∀ {c : Prop} [Decidable c] {s : Nat}, Post (if c then renderEntryPoint e epo else Pure.pure (b!"?", b!"?")) s (fun kv _ => CalleeLine ls kv) := by
    intro c _ s
    exact Post.ite (fun _ => hent) fun _ => Post.pure fun h => absurd h (by decide)
  cases ver with
  | true =>
    rw [if_pos rfl]
    rw [if_pos rfl] at h2
    refine .runThen (parseVersion_at hv h2) (Post.ite (fun _ => Post.pure fun _ => ?_) fun _ => ?_)
    · rw [decimal_eq]; exact m3 rfl
    · exact Post.seq (P := fun _ _ => True) (fun _ _ _ => trivial) fun _ _ _ => other
  | false =>
    rw [if_neg (by decide)]
    exact Post.seq (P := fun _ _ => True) (fun _ _ _ => trivial) fun _ _ _ => other
end

theorem fixedDelegation_callee_cut {e : Env} (hs : Small e) {it : ExecItem} {off epo idx : Nat} {i : Item} (h32 : it.Sized) (hv : it.VersionOk)
    (ha : ∀ tail, it.encode = UInt8.ofNat i.typ :: tail → At e.buf off tail) (hi : CallFacts it off epo i) :
    Post (fixedDelegation e epo i idx) off (fun kv _ => CalleeLine (it.cut.callee e.blake) kv) := by
  obtain ⟨tail, t1, t2⟩ := hi.typ
  have tag : ∀ {k : Nat} {ys : Bytes}, k ≤ 5 → it.encode = UInt8.ofNat k :: ys → i.typ = k := fun {k ys} hk h => by
    rw [h] at t1
    have := congrArg UInt8.toNat (List.cons.inj t1).1
    rw [UInt8.toNat_ofNat', UInt8.toNat_ofNat', Nat.mod_eq_of_lt (by omega), Nat.mod_eq_of_lt (by omega)] at this
    exact this.symm
  unfold fixedDelegation
  dsimp only
  cases it with
  | moduleBytes code as =>
    have ht : i.typ = 0 := tag (k := 0) (by omega) rfl
    have hat := ha (pfx code ++ encodeRuntimeArgs as) (by rw [ht]; rfl)
    rw [if_pos ht]
    have q : ∀ {s}, Post (do parseItem e; Pure.pure (b!"?", b!"?")) s (fun kv _ => CalleeLine ((ExecItem.moduleBytes code as).cut.callee e.blake) kv) := by
      intro s
      exact Besides.bind (fun _ => .pure (by decide)) _
    refine Post.ite (fun _ => Post.ite (fun _ => Post.pure fun _ => ?_) fun _ => Post.ite (fun _ => ?_) fun _ => q) fun _ => q
    · simp [ExecItem.cut, ExecItem.callee]
    · have h1 := At.pfx hat
      have hle := h1.1.le
      unfold Small at hs
      unfold contractHash
      rw [Casper.pfx, List.append_assoc] at hat
      refine .runThen (readU32_at hat (by omega)) (Post.getThen (Post.ite (fun _ => .abort) fun _ => ?_))
      refine .runThen (slice_at h1.1 rfl) (Post.pure fun _ => ?_)
      rw [C20_checksum_hex]
      simp [ExecItem.cut, ExecItem.callee, checksumHex]
  | byHash hb entry as =>
    have ht : i.typ = 1 := tag (k := 1) (by omega) rfl
    have henc : (ExecItem.byHash hb entry as).encode = UInt8.ofNat 1 :: (hb ++ (pfx entry ++ encodeRuntimeArgs as)) := by simp [ExecItem.encode]
    have hat := ha _ (by rw [ht]; exact henc)
    rw [ht, if_neg (by decide), if_pos (by decide)]
    exact fixedByHash_callee_cut hs (v := none) h32 hat (by simp) ((hi.entry (.byHash hb h32) henc).trans (by simp only [Bool.false_eq_true, if_false, List.length_nil, Nat.add_zero]; rw [show hb.length = 32 from h32])) (by simp [ExecItem.cut, ExecItem.callee, storedLines])
      (by simp [ExecItem.cut, ExecItem.callee, storedLines]) (by simp) (by simp [ExecItem.cut, ExecItem.callee, storedLines])
  | byName nb entry as =>
    have ht : i.typ = 2 := tag (k := 2) (by omega) rfl
    have henc : (ExecItem.byName nb entry as).encode = UInt8.ofNat 2 :: (pfx nb ++ (pfx entry ++ encodeRuntimeArgs as)) := by simp [ExecItem.encode]
    have hat := ha _ (by rw [ht]; exact henc)
    rw [ht, if_neg (by decide), if_neg (by decide), if_neg (by decide), if_pos (by decide)]
    exact fixedByName_callee_cut hs (v := none) hat (by simp) ((hi.entry (.byName nb) henc).trans (by simp [pfx_length]; omega)) (by simp [ExecItem.cut, ExecItem.callee, storedLines])
      (by simp [ExecItem.cut, ExecItem.callee, storedLines]) (by simp) (by simp [ExecItem.cut, ExecItem.callee, storedLines])
  | versionedByHash hb v entry as =>
    have ht : i.typ = 3 := tag (k := 3) (by omega) rfl
    have henc : (ExecItem.versionedByHash hb v entry as).encode = UInt8.ofNat 3 :: ((hb ++ optional (le 4) v) ++ (pfx entry ++ encodeRuntimeArgs as)) := by simp [ExecItem.encode]
    have hat := ha _ (by rw [ht]; exact henc)
    rw [ht, if_neg (by decide), if_neg (by decide), if_pos (by decide)]
    rw [List.append_assoc] at hat
    have h32' : hb.length = 32 := h32
    exact fixedByHash_callee_cut hs (v := v) (ver := true) h32 hat hv ((hi.entry (.versionedByHash hb v h32) henc).trans (by simp [h32']; omega)) (by simp [ExecItem.cut, ExecItem.callee, storedLines])
      (by simp [ExecItem.cut, ExecItem.callee, storedLines]) (by simp [ExecItem.cut, ExecItem.callee, storedLines]) (by simp [ExecItem.cut, ExecItem.callee, storedLines])
  | versionedByName nb v entry as =>
    have ht : i.typ = 4 := tag (k := 4) (by omega) rfl
    have henc : (ExecItem.versionedByName nb v entry as).encode = UInt8.ofNat 4 :: ((pfx nb ++ optional (le 4) v) ++ (pfx entry ++ encodeRuntimeArgs as)) := by simp [ExecItem.encode]
    have hat := ha _ (by rw [ht]; exact henc)
    rw [ht, if_neg (by decide), if_neg (by decide), if_neg (by decide), if_neg (by decide), if_pos (by decide)]
    rw [List.append_assoc] at hat
    exact fixedByName_callee_cut hs (v := v) (ver := true) hat hv ((hi.entry (.versionedByName nb v) henc).trans (by simp [pfx_length]; omega)) (by simp [ExecItem.cut, ExecItem.callee, storedLines])
      (by simp [ExecItem.cut, ExecItem.callee, storedLines]) (by simp [ExecItem.cut, ExecItem.callee, storedLines]) (by simp [ExecItem.cut, ExecItem.callee, storedLines])
  | transfer as =>
    have ht : i.typ = 5 := tag (k := 5) (by omega) rfl
    rw [ht, if_neg (by decide), if_neg (by decide), if_neg (by decide), if_neg (by decide), if_neg (by decide)]
    exact .fail

theorem getItemDeploy_callee_cut {e : Env} (hs : Small e) {it : ExecItem} {d : Deploy} {epo idx s start : Nat} (h32 : it.Sized) (hv : it.VersionOk)
    (hst : headerLength d.header + 32 + d.payment.total = start) (h : At e.buf start it.encode)
    (hi : CallFacts it (start + 1) epo d.session) :
    Post (getItemDeploy e epo d idx) s (fun kv _ => CalleeLine (it.cut.callee e.blake) kv) := by
  have hsm := hs
  have hle := h.le
  have hlen : 1 ≤ it.encode.length := by obtain ⟨tail, t1, -⟩ := hi.typ; rw [t1]; simp
  unfold Small at hs
  unfold getItemDeploy
  refine Post.ite (fun _ => .fail) fun _ => Post.ite (fun _ => ?_) fun _ => Post.ite (fun _ => Besides.pure (by decide) _) fun _ =>
    Post.ite (fun _ => ?_) fun _ => Post.ite (fun _ => ?_) fun _ => Post.ite (fun _ => Besides_headerLine _) fun _ => ?_
  · exact Besides.bind (fun _ => .bind fun _ => .pure (by decide)) _
  · exact Besides.bind (fun _ => .bind fun _ => .bind fun _ => .pure (by decide)) _
  · exact Besides.bind (fun _ => .bind fun _ => .pure (by decide)) _
  unfold bodyLine
  dsimp only
  refine .runThen (a := ()) (t := headerLength d.header + 32) (by unfold seek; rw [u16_id (by omega)]) ?_
  refine Post.ite (fun _ => Besides.ite Besides_itemSystemPayment .fail _) fun _ => ?_
  refine .runThen (skip_run (by omega)) (Post.ite (fun hx => ?_) fun _ => ?_)
  · refine Post.ite (fun hsp => Besides_itemNativeTransfer _) fun hsp => Post.ite (fun _ => ?_) fun _ => .fail
    rw [hst]
    refine itemDelegation_callee (skip_run (by omega)) (fixedDelegation_callee_cut hsm h32 hv (fun tail ht => ?_) hi)
    rw [ht] at h
    exact (At.cons.1 h).2
  · exact Besides.bind (fun _ => .ite (.bind fun _ => .pure (by decide)) .fail) _

/-- The first two of the fixed lines. -/
theorem fixedDelegation_address_cut {e : Env} (hs : Small e) {it : ExecItem} {off epo idx : Nat} {i : Item} (h32 : it.Sized)
    (hne : it.address e.blake ≠ []) (ha : ∀ tail, it.encode = UInt8.ofNat i.typ :: tail → At e.buf off tail)
    (hi : CallFacts it off epo i) (hx : e.expert = true ∨ i.fixed ≠ 3) (h2 : idx < 2) :
    Post (fixedDelegation e epo i idx) off (fun kv _ => (it.cut.address e.blake)[idx]? = some kv) := by
  obtain ⟨tail, t1, t2⟩ := hi.typ
  have tag : ∀ {k : Nat} {ys : Bytes}, k ≤ 5 → it.encode = UInt8.ofNat k :: ys → i.typ = k := fun {k ys} hk h => by
    rw [h] at t1
    have := congrArg UInt8.toNat (List.cons.inj t1).1
    rw [UInt8.toNat_ofNat', UInt8.toNat_ofNat', Nat.mod_eq_of_lt (by omega), Nat.mod_eq_of_lt (by omega)] at this
    exact this.symm
  have hshow : (e.expert || i.fixed != 3) = true := by
    rcases hx with h | h
    · simp [h]
    · simp [h]
  have hash : ∀ {ver : Bool} {hb label xs : Bytes}, hb.length = 32 → At e.buf off (hb ++ xs) →
      it.cut.address e.blake = [(b!"Execution", label), (b!"Address", checksumHex e.blake hb)] →
      Post (fixedByHash e epo true ver label idx) off (fun kv _ => (it.cut.address e.blake)[idx]? = some kv) := by
    intro ver hb label xs hl h hadr
    unfold fixedByHash
    rw [hadr]
    refine Post.ite (fun h0 => Post.pure (by rw [h0.1]; rfl)) fun h0 => Post.ite (fun h1 => Post.getThen ?_) fun h1 => ?_
    · refine .runThen (by rw [← hl]; exact printBytes_at (At.append.1 h).1 (by omega)) (Post.pure (by rw [h1.1]; rfl))
    · simp only [and_true] at h0 h1; omega
  have name : ∀ {ver : Bool} {nb label xs : Bytes}, At e.buf off (pfx nb ++ xs) →
      it.cut.address e.blake = [(b!"Execution", label), (b!"Name", nb.takeWhile (· != 0))] →
      Post (fixedByName e epo true ver label idx) off (fun kv _ => (it.cut.address e.blake)[idx]? = some kv) := by
    intro ver nb label xs h hadr
    unfold fixedByName
    rw [hadr]
    refine Post.ite (fun h0 => Post.pure (by rw [h0.1]; rfl)) fun h0 => Post.ite (fun h1 => ?_) fun h1 => ?_
    · refine (copyItem_post hs.to_fits).seq fun xs t ⟨k1, _, _, _⟩ => ?_
      obtain rfl := (At.append.1 h).1.pfx_inj hs.to_fits k1
      unfold showArray
      split
      · refine Post.pureThen (Post.pure ?_)
        rw [h1.1]; rfl
      · exact Post.seq (P := fun _ _ => False) .abort fun _ _ h => h.elim
    · simp only [and_true] at h0 h1; omega
  unfold fixedDelegation
  dsimp only
  rw [hshow]
  cases it with
  | moduleBytes | transfer => exact absurd rfl hne
  | byHash hb entry as =>
    have ht : i.typ = 1 := tag (k := 1) (by omega) rfl
    rw [ht, if_neg (by decide), if_pos (by decide)]
    exact hash (xs := pfx entry ++ encodeRuntimeArgs as) h32 (ha _ (by rw [ht]; simp [ExecItem.encode])) rfl
  | byName nb entry as =>
    have ht : i.typ = 2 := tag (k := 2) (by omega) rfl
    rw [ht, if_neg (by decide), if_neg (by decide), if_neg (by decide), if_pos (by decide)]
    exact name (nb := nb) (xs := pfx entry ++ encodeRuntimeArgs as) (ha _ (by rw [ht]; simp [ExecItem.encode])) rfl
  | versionedByHash hb v entry as =>
    have ht : i.typ = 3 := tag (k := 3) (by omega) rfl
    rw [ht, if_neg (by decide), if_neg (by decide), if_pos (by decide)]
    exact hash (xs := optional (le 4) v ++ (pfx entry ++ encodeRuntimeArgs as)) h32 (ha _ (by rw [ht]; simp [ExecItem.encode])) (by simp [ExecItem.cut, ExecItem.address, storedLines])
  | versionedByName nb v entry as =>
    have ht : i.typ = 4 := tag (k := 4) (by omega) rfl
    rw [ht, if_neg (by decide), if_neg (by decide), if_neg (by decide), if_neg (by decide), if_pos (by decide)]
    exact name (nb := nb) (xs := optional (le 4) v ++ (pfx entry ++ encodeRuntimeArgs as)) (ha _ (by rw [ht]; simp [ExecItem.encode])) (by simp [ExecItem.cut, ExecItem.address, storedLines])

/-- The lines behind that of the fee. -/
theorem getItemDeploy_address_cut {e : Env} (hs : Small e) {it : ExecItem} {d : Deploy} {epo idx s start : Nat} (h32 : it.Sized)
    (hne : it.address e.blake ≠ []) (hst : headerLength d.header + 32 + d.payment.total = start) (h : At e.buf start it.encode)
    (hi : CallFacts it (start + 1) epo d.session) (hx : e.expert = true ∨ d.session.fixed ≠ 3) (hp : d.payment.fixed = 0 ∧ d.payment.runtime = 1)
    (hk : CallKind d.session.special) (hfx : 2 ≤ d.session.fixed ∧ d.session.fixed ≤ 5) (hr : d.session.runtime ≤ 4) (h2 : idx < 2) :
    Post (getItemDeploy e epo d ((if e.expert then 9 else 5) + idx)) s (fun kv _ => (it.cut.address e.blake)[idx]? = some kv) := by
  have hsm := hs
  have hle := h.le
  have hlen : 1 ≤ it.encode.length := by obtain ⟨tail, t1, -⟩ := hi.typ; rw [t1]; simp
  unfold Small at hs
  have h5 : 5 ≤ (if e.expert then 9 else 5) + idx := by split <;> omega
  unfold getItemDeploy
  refine Post.ite (fun _ => .fail) fun _ => ?_
  rw [if_neg (by omega), if_neg (by omega), if_neg (by omega), if_neg (by omega)]
  rw [if_neg (by rintro ⟨h8, h9⟩; rw [h8, if_pos rfl] at h9; omega)]
  unfold bodyLine
  dsimp only
  refine .runThen (a := ()) (t := headerLength d.header + 32) (by unfold seek; rw [u16_id (by omega)]) ?_
  have hnew : (if e.expert then 9 else 5) + idx - (if e.expert then 8 else 4) = 1 + idx := by split <;> omega
  rw [hnew, hp.1, hp.2, show u16 (0 + 1) = 1 from rfl, if_neg (by omega)]
  refine .runThen (skip_run (by omega)) ?_
  have hn : u8 (1 + idx + 65536 - 1) = idx := by unfold u8; omega
  have hu : u16 (d.session.fixed + d.session.runtime) = d.session.fixed + d.session.runtime := u16_id (by omega)
  rw [hn, hu, if_pos (by omega)]
  rw [if_neg (by rcases hk with h | h | h | h <;> rw [h] <;> decide), if_pos (by exact hk)]
  unfold itemDelegation
  rw [hst]
  refine .runThen (skip_run (by omega)) ?_
  rw [if_pos (by omega)]
  refine fixedDelegation_address_cut hsm h32 hne (fun tail ht => ?_) hi hx h2
  rw [ht] at h
  exact (At.cons.1 h).2

/-- The lines of the address, where the counts allow for them. -/
theorem DeployAccepted.address_cut {e : Env} (hs : Small e) {s : DS} {p q : IS} {k : Nat} (ha : DeployAccepted e s) (hp : DeployParse e s p q k) {it : ExecItem}
    (h32 : it.Sized) (hne : it.address e.blake ≠ []) (hat : At e.buf p.off it.encode) (hst : headerLength s.dep.header + 32 < 65536)
    (hx : e.expert = true ∨ s.dep.session.fixed ≠ 3) (hfx : 2 ≤ s.dep.session.fixed ∧ s.dep.session.fixed ≤ 5) {j : Nat} {kv : Bytes × Bytes}
    (hj : (it.cut.address e.blake)[j]? = some kv) :
    (if e.expert then 9 else 5) + j < numItemsDeploy e s.dep ∧ ∃ t, getItemDeploy e s.epo s.dep ((if e.expert then 9 else 5) + j) 0 = .ok kv t := by
  have hext := hp.extent hs.to_fits
  have hpay := (hp.payment hs.to_fits).2.1
  have hfew := parseDeployItem_few _ _ hp.ses
  have hfacts := parseSession_facts hs (o := p.off + 1) (epo := p.epo) (k := k) (by omega) _ _ hp.ses
  have hd : s.dep.session = q.item ∧ s.dep.payment = p.item := by rw [hp.result]; exact ⟨rfl, rfl⟩
  have hb : s.dep.header.bodyStart = headerLength s.dep.header + 32 := u16_id hst
  have hpf : s.dep.payment.fixed = 0 ∧ s.dep.payment.runtime = 1 := by rw [hd.2, hpay]; exact ⟨rfl, rfl⟩
  have hr : s.dep.session.runtime ≤ 4 := by rw [hd.1]; exact hfew.1
  have h2 : j < 2 := by
    have := (List.getElem?_eq_some_iff.1 hj).1
    have hl : (it.cut.address e.blake).length ≤ 2 := by
      cases it <;> simp [ExecItem.cut, ExecItem.address, storedLines]
    omega
  have hk5 : k ≠ 5 := by
    rintro rfl
    obtain ⟨k', pre, entry, xs, hh, henc⟩ := ExecItem.address_nil hne h32
    rw [henc] at hat
    have := hp.sesType.unique (At.cons.1 hat).1 rfl
    cases hh <;> exact absurd this (by decide)
  have hn : (if e.expert then 9 else 5) + j < numItemsDeploy e s.dep := by
    unfold numItemsDeploy u8
    rw [hpf.1, hpf.2]
    split <;> omega
  refine ⟨hn, ?_⟩
  obtain ⟨kv', t, hok⟩ := ha.items _ hn
  have := getItemDeploy_address_cut hs (start := p.off) h32 hne (by rw [hd.2]; omega) hat (hp.callFacts hs hat) hx hpf
    (by rw [hd.1]; exact (hfacts.call hk5).1) hfx hr h2 kv' t hok
  rw [hj] at this
  cases this
  exact ⟨t, hok⟩

/-- **C59, partly, for all names.** A transaction review of data `0 :: xs`: `xs` are a header, its hash, a payment, a session and the rest, and the header
contains the hash of payment and session.  If the session is a serialized item, then every line about what is called is a right one, with names up to the
first zero byte: it has the execution kind, the hash of the code, the address or name of the contract, its version and the entry point of the session.  In
expert mode, for stored contracts, items 9 and 10 of the review are those lines that say which contract is called.  In normal mode (arguments with types read as
Casper does), items 5 and 6 are, unless the review calls the transaction a delegation or says nothing about the session at all: see `C59_hidden_false`
and `C14_hidden_false`. -/
theorem C59_cut_partial (pl : Platform) (hcap : pl.cap ≤ 16384) (d d' : Dev) (hd : d.Ok pl) (rx : Bytes)
    (pin : Bool) (hins : rx.getD 1 0 = 2) (xs : Bytes) (hx : d.data ++ rx.drop 5 = 0 :: xs)
    (h : step pl d (.apdu rx pin) = (d', .pending)) :
    ∃ hdr pay ses rest, xs = hdr ++ pl.blake hdr ++ (pay ++ ses) ++ rest ∧ (xs.drop (keyLen xs + 24)).take 32 = pl.blake (pay ++ ses) ∧
      ∀ it : ExecItem, ses = it.encode → it.Sized → it.VersionOk →
        (∀ i key text c, reviewItem pl d' .tx i 0 = .ok (key, text) c → key ∈ contractLabels → (key, text) ∈ it.cut.callee pl.blake) ∧
        (d.expert = true → ∀ j kv, (it.cut.address pl.blake)[j]? = some kv → ∃ c, reviewItem pl d' .tx (9 + j) 0 = .ok kv c) ∧
        (d.expert = false → it.address pl.blake ≠ [] → GoodTypes it.args →
          reviewCount pl d' .tx 0 = .ok 5 0 ∨
          (∃ kind c, reviewItem pl d' .tx 1 0 = .ok (b!"Type", kind) c ∧ kind ∈ [b!"Delegate", b!"Undelegate", b!"Redelegate"]) ∨
          ∀ j kv, (it.cut.address pl.blake)[j]? = some kv → ∃ c, reviewItem pl d' .tx (5 + j) 0 = .ok kv c) := by
  obtain ⟨hok, hdata, hcase⟩ := sign_pending (by omega) hd hins h
  rw [hx] at hcase hdata
  rcases hcase with ⟨ys, s, h1, h2, rfl⟩ | ⟨ys, s, h1, -, -⟩
  swap
  · simp at h1
  simp only [List.cons.injEq, true_and] at h1
  subst h1
  have hsm : Small (mkEnv pl d.expert xs) := small_data hcap hok hdata d.expert
  obtain ⟨p, q, k, hdr, hash, pay, ses, rest, hp, b1, b2, b3, b4, b5, b6, b7⟩ := h2.split hsm
  have hk := readDeploy_kind h2.parse
  have hle := congrArg List.length b1
  simp only [List.length_append] at hle
  refine ⟨hdr, pay, ses, rest, ?_, ?_, ?_⟩
  · rw [show pl.blake hdr = hash from b6]; exact b1
  · rw [hp.header.pkLen] at b7
    have := b7.take_drop
    rw [Hash.len] at this
    exact this
  intro it hses h32 hv
  have hst : headerLength s.dep.header + 32 < 65536 := by have := hsm; unfold Small at this; omega
  have hat : At (mkEnv pl d.expert xs).buf p.off it.encode :=
    ⟨hdr ++ hash ++ pay, rest, by rw [b1, ← hses]; simp only [List.append_assoc], by simp only [List.length_append]; omega⟩
  have hext := hp.extent hsm.to_fits
  have hd' : s.dep.session = q.item ∧ s.dep.payment = p.item := by rw [hp.result]; exact ⟨rfl, rfl⟩
  have hb : s.dep.header.bodyStart = headerLength s.dep.header + 32 := u16_id hst
  have hpay := (hp.payment hsm.to_fits).2.1
  have hcount := (hp.count hsm.to_fits)
  have htag : ∀ {k' : Nat} {tail : Bytes}, k' ≤ 5 → it.encode = UInt8.ofNat k' :: tail → k' = k ∧ At (mkEnv pl d.expert xs).buf (p.off + 1) tail := by
    intro k' tail hk' henc
    rw [henc] at hat
    have := hp.sesType.unique (At.cons.1 hat).1 rfl
    have := congrArg UInt8.toNat (List.cons.inj this).1
    have hsm := hp.small
    rw [UInt8.toNat_ofNat', UInt8.toNat_ofNat', Nat.mod_eq_of_lt (by omega), Nat.mod_eq_of_lt (by omega)] at this
    exact ⟨this.symm, (At.cons.1 hat).2⟩
  refine ⟨fun i key text c hr hl => ?_, fun hex j kv hj => ?_, fun hex hne hg => ?_⟩
  · rw [reviewItem_deploy hok hdata s hk] at hr
    split at hr
    · cases hr
    exact getItemDeploy_callee_cut hsm (start := p.off) h32 hv (by rw [hd'.2]; omega) hat (hp.callFacts hsm hat) _ _ hr hl
  · have hne : it.address pl.blake ≠ [] := ExecItem.cut_address fun h => by rw [h] at hj; cases hj
    obtain ⟨k', pre, entry, ys, hh, henc⟩ := ExecItem.address_nil hne h32
    obtain ⟨rfl, hat'⟩ := htag (by cases hh <;> omega) henc
    have hfx := (parseCall_entry hsm hh hat' _ _ hp.ses).2 hex
    rw [← hd'.1] at hfx
    obtain ⟨h3, c, h4⟩ := h2.address_cut hsm hp h32 hne hat hst (.inl hex) ⟨hfx.1, by omega⟩ hj
    rw [if_pos (show (mkEnv pl d.expert xs).expert = true from hex)] at h3 h4
    refine ⟨c, ?_⟩
    rw [reviewItem_deploy hok hdata s hk, show (d.loaded rx).expert = d.expert from rfl, u8_id (by omega), if_neg (by omega)]
    exact h4
  · obtain ⟨k', head, g1, g2, g3, -, -⟩ := ExecItem.head h32
    have ⟨pre, entry, hh, henc⟩ : ∃ pre entry, CallHead k' pre ∧ it.encode = UInt8.ofNat k' :: (pre ++ (pfx entry ++ encodeRuntimeArgs it.args)) := by
      cases it with
      | moduleBytes | transfer => exact absurd rfl hne
      | byHash hb entry as =>
        obtain rfl : k' = 1 := by have := (htag g2 g3).1; have := (htag (k' := 1) (by omega) rfl).1; omega
        exact ⟨_, entry, .byHash hb h32, by simp [ExecItem.encode, ExecItem.args]⟩
      | byName nb entry as =>
        obtain rfl : k' = 2 := by have := (htag g2 g3).1; have := (htag (k' := 2) (by omega) rfl).1; omega
        exact ⟨_, entry, .byName nb, by simp [ExecItem.encode, ExecItem.args]⟩
      | versionedByHash hb v entry as =>
        obtain rfl : k' = 3 := by have := (htag g2 g3).1; have := (htag (k' := 3) (by omega) rfl).1; omega
        exact ⟨_, entry, .versionedByHash hb v h32, by simp [ExecItem.encode, ExecItem.args]⟩
      | versionedByName nb v entry as =>
        obtain rfl : k' = 4 := by have := (htag g2 g3).1; have := (htag (k' := 4) (by omega) rfl).1; omega
        exact ⟨_, entry, .versionedByName nb v, by simp [ExecItem.encode, ExecItem.args]⟩
    obtain ⟨rfl, hat'⟩ := htag g2 henc
    have hsum := parseCall_summed hsm hex hg hh hat' _ _ hp.ses
    dsimp only at hsum
    have hfacts := parseSession_facts hsm (o := p.off + 1) (epo := p.epo) (k := k') (by omega) _ _ hp.ses
    have hkind := (hfacts.call (by cases hh <;> omega)).1
    rw [← hd'.1] at hsum hkind
    rcases hsum with h0 | h0 | h0
    · refine .inl ?_
      rw [reviewCount_deploy hok hdata s hk, show (d.loaded rx).expert = d.expert from rfl]
      refine congrArg (Res.ok · 0) ?_
      unfold numItemsDeploy
      rw [h0.1, h0.2, hd'.2, hpay, if_neg (by rw [show (mkEnv pl d.expert xs).expert = false from hex]; decide)]
      rfl
    · refine .inr (.inr fun j kv hj => ?_)
      obtain ⟨h3, c, h4⟩ := h2.address_cut hsm hp h32 hne hat hst (.inr (by omega)) (by omega) hj
      rw [if_neg (by rw [show (mkEnv pl d.expert xs).expert = false from hex]; decide)] at h3 h4
      refine ⟨c, ?_⟩
      rw [reviewItem_deploy hok hdata s hk, show (d.loaded rx).expert = d.expert from rfl, u8_id (by omega), if_neg (by omega)]
      exact h4
    · refine .inr (.inl ⟨typeLabel s.dep, 0, ?_, ?_⟩)
      · rw [reviewItem_deploy hok hdata s hk, show (d.loaded rx).expert = d.expert from rfl, u8_id (by omega), if_neg (by omega)]
        unfold getItemDeploy
        rw [if_neg (by omega), if_neg (by omega), if_pos rfl]
        rfl
      · unfold typeLabel
        have ht : s.dep.session.typ ≠ 5 := by rw [hd'.1, hfacts.typ]; cases hh <;> omega
        rw [if_neg (fun h => ht h.2), h0.1]
        rcases hkind with h | h | h | h
        · rw [if_pos ⟨h, rfl⟩]; decide
        · rw [if_neg (by rw [h]; decide), if_pos ⟨h, rfl⟩]; decide
        · rw [if_neg (by rw [h]; decide), if_neg (by rw [h]; decide), if_pos ⟨h, rfl⟩]; decide
        · exact absurd h h0.2

/-- The hypotheses of `C59_cut_partial` can be met by a name with a zero byte, which `C59_contract_partial` leaves out. -/
example :
    (run samplePl { Dev.init samplePl with expert := true } (sampleUpload (0 :: (sampleVault [0, 50] [0, 51, 52]).tx Blake.H []))).2.getLast? = some .pending ∧
    (sampleVault [0, 50] [0, 51, 52]).session.Sized ∧ (sampleVault [0, 50] [0, 51, 52]).session.VersionOk ∧
    ¬ (sampleVault [0, 50] [0, 51, 52]).session.Plain ∧ GoodTypes (sampleVault [0, 50] [0, 51, 52]).session.args ∧
    (sampleVault [0, 50] [0, 51, 52]).session.cut.callee Blake.H =
      [(b!"Execution", b!"by-name"), (b!"Name", b!"vault"), (b!"Entry-point", b!"deposit")] :=
  ⟨by decide +kernel, trivial, trivial, by show ¬ (0 ∉ _ ∧ 0 ∉ _); decide, by unfold GoodTypes; decide +kernel, by decide⟩

end Casper
