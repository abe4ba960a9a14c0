import Verif.Props.Arguments
import Verif.Props.Render
/-
C59: lines about what a Deploy calls.
-/
namespace Casper
open M CLType

/-- The part of a call before the name of the entry point. -/
inductive CallHead : Nat → Bytes → Prop
  | byHash (h : Bytes) (hl : h.length = 32) : CallHead 1 h
  | byName (n : Bytes) : CallHead 2 (pfx n)
  | versionedByHash (h : Bytes) (v : Option Nat) (hl : h.length = 32) : CallHead 3 (h ++ optional (le 4) v)
  | versionedByName (n : Bytes) (v : Option Nat) : CallHead 4 (pfx n ++ optional (le 4) v)

theorem parseDelegation_fixed {e : Env} {n : Nat} {r : Bool} {s : IS} (ht : s.item.typ ≠ 0) :
    Post (parseDelegation e n r) s (fun _ t => e.expert = true → 2 ≤ t.item.fixed ∧ t.item.fixed ≤ 4) := by
  unfold parseDelegation
  refine Post.getThen ?_
  dsimp only
  rw [if_neg (by simpa [tyModuleBytes] using ht)]
  refine Post.pureThen ?_
  dsimp only
  refine Post.seq (P := fun _ _ => True) (fun _ _ _ => trivial) fun _ t _ => Post.seq (P := fun _ _ => True) (fun _ _ _ => trivial) fun _ t _ => ?_
  unfold finishDelegation
  refine Post.modifyThen (Post.ite (fun _ => Post.modify fun _ => ?_) fun h => Post.pure fun hx => ?_)
  · dsimp only; constructor <;> (repeat' split) <;> omega
  · simp [hx] at h

theorem entry_fixed {e : Env} (hf : Fits e) {start : Nat} {s : IS} (hk : s.item.typ ≠ 0) (h0 : s.item.special = 255) :
    Post (do let n ← checkEntrypoint e; finishItem e n start) s (fun _ t => t.epo = s.off ∧ (e.expert = true → 2 ≤ t.item.fixed ∧ t.item.fixed ≤ 4)) := by
  refine Post.seq (P := fun _ t => t.epo = s.off ∧ (e.expert = true → 2 ≤ t.item.fixed ∧ t.item.fixed ≤ 4)) ?_ fun n t ht => ?_
  · refine Post.and ((checkEntrypoint_shape hf hk h0).mono fun _ t h => h.2.2.1) ?_
    unfold checkEntrypoint
    refine Post.modifyThen (lp_frame.seq fun nm t h => Post.modifyThen (lp_frame.seq fun n u h' => Post.modifyThen ?_))
    refine Post.seq (P := fun _ t => e.expert = true → 2 ≤ t.item.fixed ∧ t.item.fixed ≤ 4) (parseDelegation_fixed ?_) fun _ u hu => Post.pure hu
    dsimp only at h h' ⊢
    rw [h'.2, h.2]; exact hk
  · unfold finishItem
    refine lp_frame.seq fun _ u h1 => lp_frame.seq fun x v h2 => Post.modify ⟨?_, fun hx => ?_⟩
    · dsimp only; rw [h2.1, h1.1]; exact ht.1
    · dsimp only; rw [h2.2, h1.2]; exact ht.2 hx

/-- Where the entry point is, and how many fixed lines there are. -/
theorem parseCall_entry {e : Env} (hs : Small e) {k off epo : Nat} {pre entry xs : Bytes} (hh : CallHead k pre)
    (h : At e.buf off (pre ++ (pfx entry ++ xs))) :
    Post (parseDeployItem e false) ⟨off, epo, { typ := k }⟩ (fun _ t => t.epo = off + pre.length ∧ (e.expert = true → 2 ≤ t.item.fixed ∧ t.item.fixed ≤ 4)) := by
  have hf := hs.to_fits
  have hle := h.le
  simp only [List.length_append, pfx_length] at hle
  unfold Small at hs
  unfold parseDeployItem
  refine Post.modifyThen (Post.getThen ?_)
  dsimp only
  cases hh with
  | byHash hb hl =>
    rw [if_neg (by decide), if_pos (by decide)]
    unfold parseByHash
    refine Post.getThen (Post.modifyThen (f := fun _ => _) (g := fun s : IS => { s with off := u16 (s.off + 32) }) (Post.getThen ?_))
    dsimp only
    rw [u16_id (by omega), show (decide (1 = tyVerByHash)) = false from rfl, versionStep_false]
    refine Post.pureThen ?_
    rw [hl]
    exact entry_fixed hf (by simp) rfl
  | byName nb =>
    rw [if_neg (by decide), if_neg (by decide), if_pos (by decide)]
    unfold parseByName
    refine Post.getThen (.runThen (lp_run (parseItem_at hf h)) (Post.getThen ?_))
    dsimp only
    rw [show (decide (2 = tyVerByName)) = false from rfl, versionStep_false]
    refine Post.pureThen ?_
    rw [pfx_length, ← Nat.add_assoc]
    exact entry_fixed hf (by simp) rfl
  | versionedByHash hb v hl =>
    rw [if_neg (by decide), if_pos (by decide)]
    unfold parseByHash
    refine Post.getThen (Post.modifyThen (f := fun _ => _) (g := fun s : IS => { s with off := u16 (s.off + 32) }) (Post.getThen ?_))
    dsimp only
    simp only [List.length_append] at hle
    rw [u16_id (by omega)]
    rw [List.append_assoc] at h
    have h2 := (At.append.1 h).2
    rw [hl] at h2
    rw [show (decide (3 = tyVerByHash)) = true from rfl]
    refine Post.seq (versionStep_named h2) fun _ u ⟨u1, x, u2⟩ => ?_
    dsimp only at u1 u2
    refine (entry_fixed hf (by rw [u2]; simp) (by rw [u2])).mono fun _ t ht => ⟨ht.1.trans ?_, ht.2⟩
    rw [u1, List.length_append, hl]; omega
  | versionedByName nb v =>
    rw [if_neg (by decide), if_neg (by decide), if_pos (by decide)]
    unfold parseByName
    rw [List.append_assoc] at h
    refine Post.getThen (.runThen (lp_run (parseItem_at hf h)) (Post.getThen ?_))
    dsimp only
    have h2 := (At.pfx h).2
    rw [show (decide (4 = tyVerByName)) = true from rfl]
    refine Post.seq (versionStep_named h2) fun _ u ⟨u1, x, u2⟩ => ?_
    dsimp only at u1 u2
    refine (entry_fixed hf (by rw [u2]; simp) (by rw [u2])).mono fun _ t ht => ⟨ht.1.trans ?_, ht.2⟩
    rw [u1, List.length_append, pfx_length]; omega

/-! ### The lines -/

/-- A line about what is called is a right one. -/
def CalleeLine (ls : List (Bytes × Bytes)) (kv : Bytes × Bytes) : Prop := kv.1 ∈ contractLabels → kv ∈ ls

/-- A program that ends with a line about something else. -/
def Besides (ls : List (Bytes × Bytes)) (m : P (Bytes × Bytes)) : Prop := ∀ s, Post m s (fun kv _ => CalleeLine ls kv)

section
variable {ls : List (Bytes × Bytes)}

theorem Besides.pure {key v : Bytes} (h : key ∉ contractLabels) : Besides ls (Pure.pure (key, v)) := fun _ => Post.pure fun hk => absurd hk h
theorem Besides.fail {x : Nat} : Besides ls (M.fail x) := fun _ => .fail
theorem Besides.abort {x : Fault} : Besides ls (M.abort x) := fun _ => .abort
theorem Besides.ite {c : Prop} [Decidable c] {m n : P (Bytes × Bytes)} (hm : Besides ls m) (hn : Besides ls n) : Besides ls (if c then m else n) := by
  split <;> assumption
theorem Besides.bind {α : Type} {m : P α} {f : α → P (Bytes × Bytes)} (h : ∀ a, Besides ls (f a)) : Besides ls (m >>= f) :=
  fun _ => Post.seq (P := fun _ _ => True) (fun _ _ _ => trivial) fun a t _ => h a t

theorem Besides_showArgsHash {e : Env} {a b : Nat} {n : Bytes} : Besides ls (showArgsHash e a b n) := by
  unfold showArgsHash
  exact .bind fun _ => .bind fun _ => .pure (by decide)

theorem Besides_showArg {e : Env} {key name : Bytes} {n : Nat} (h : key ∉ contractLabels) : Besides ls (showArg e key name n) := by
  unfold showArg
  exact .bind fun _ => .bind fun _ => .pure h

theorem Besides_showMotes {e : Env} {key name : Bytes} {n : Nat} (h : key ∉ contractLabels) : Besides ls (showMotes e key name n) := by
  unfold showMotes
  exact .bind fun _ => .bind fun _ => .pure h

theorem Besides_itemSystemPayment {e : Env} {idx : Nat} {it : Item} : Besides ls (itemSystemPayment e it idx) := by
  unfold itemSystemPayment
  refine .bind fun _ => .bind fun _ => .bind fun _ => .ite .fail (.bind fun _ => .bind fun _ => .bind fun _ => .ite .fail (.ite (.ite ?_ ?_) .fail))
  · exact Besides_showMotes (by decide)
  · refine .bind fun _ => .bind fun _ => fun s => ?_
    exact Post.seq (Besides_showArgsHash s) fun r t hr => Post.seq (P := fun _ _ => True) (fun _ _ _ => trivial) fun _ _ _ => Post.pure hr

theorem Besides_headerLine {e : Env} {idx : Nat} {d : Deploy} : Besides ls (headerLine e d idx) := by
  unfold headerLine
  refine .ite (.bind fun _ => .bind fun _ => ?_) (.ite (.bind fun _ => .bind fun _ => .bind fun _ => .pure (by decide))
    (.ite (.bind fun _ => .bind fun _ => .pure (by decide)) (.bind fun _ => .bind fun _ => .pure (by decide))))
  split
  · exact .fail
  · exact .pure (by decide)

theorem Besides_itemNativeTransfer {e : Env} {it : Item} {idx : Nat} : Besides ls (itemNativeTransfer e it idx) := by
  unfold itemNativeTransfer
  refine .bind fun _ => .bind fun _ => .bind fun _ => .ite .fail (.ite .fail ?_)
  dsimp only
  refine .ite (.ite (.bind fun _ => .bind fun _ => fun s => ?_) .fail) (.ite .abort (.ite (.ite ?_ (.ite ?_ .fail)) (.ite ?_ ?_)))
  · exact Post.seq (Besides_showArgsHash s) fun r t hr => Post.seq (P := fun _ _ => True) (fun _ _ _ => trivial) fun _ _ _ => Post.pure hr
  · exact Besides_showArg (by decide)
  · exact Besides_showMotes (by decide)
  · exact Besides_showArg (by decide)
  · exact .ite (Besides_showArg (by decide)) (.ite (Besides_showMotes (by decide)) (.ite (Besides_showArg (by decide)) .fail))

/-- The lines about arguments of a call. -/
theorem itemDelegation_callee {e : Env} {epo idx s t : Nat} {it : Item} (hst : skip 1 s = .ok () t)
    (h : Post (fixedDelegation e epo it idx) t (fun kv _ => CalleeLine ls kv)) : Post (itemDelegation e epo it idx) s (fun kv _ => CalleeLine ls kv) := by
  unfold itemDelegation
  refine .runThen hst (Post.ite (fun _ => h) fun _ => ?_)
  refine Besides.bind (fun _ => ?_) _
  dsimp only
  refine .ite .fail (.ite (.bind fun _ => .ite (Besides_showMotes (by decide)) (.ite (.bind fun _ => .bind fun _ => .bind fun _ => .pure (by decide)) .fail)) ?_)
  refine .bind fun _ => .ite (Besides_showArg (by decide)) (.ite ?_ ?_)
  · exact .ite (Besides_showArg (by decide)) (.ite (Besides_showArg (by decide)) (.ite (Besides_showMotes (by decide)) .fail))
  · exact .ite (Besides_showArg (by decide)) (.ite (Besides_showMotes (by decide)) .fail)

end

/-! ### Lines about what is called -/

section
variable {e : Env} (hs : Small e) {off epo idx : Nat} {ls : List (Bytes × Bytes)}
include hs

theorem renderEntryPoint_callee {entry : Bytes} {s : Nat} (h : At e.buf epo (pfx entry)) (h0 : 0 ∉ entry) (hm : (b!"Entry-point", entry) ∈ ls) :
    Post (renderEntryPoint e epo) s (fun kv _ => CalleeLine ls kv) := by
  have hf := hs.to_fits
  unfold renderEntryPoint
  refine Post.getThen (Post.setThen ((copyItem_post hf).seq fun xs t ⟨h1, _, _, _⟩ => Post.setThen ?_))
  obtain rfl := h.pfx_inj hf h1
  unfold showArray
  split
  · refine Post.pureThen (Post.pure fun _ => ?_)
    rw [cstr_eq h0]; exact hm
  · exact Post.seq (P := fun _ _ => False) .abort fun _ _ h => h.elim

theorem fixedByHash_callee {b ver : Bool} {hb entry label xs : Bytes} {v : Option Nat} (hl : hb.length = 32)
    (h : At e.buf off (hb ++ ((if ver then optional (le 4) v else []) ++ (pfx entry ++ xs)))) (hv : ∀ n, v = some n → n < 2 ^ 32)
    (hepo : epo = off + 32 + (if ver then optional (le 4) v else []).length) (h0 : 0 ∉ entry) (m1 : (b!"Execution", label) ∈ ls)
    (m2 : (b!"Address", checksumHex e.blake hb) ∈ ls) (m3 : ver = true → (b!"Version", decText (v.getD 0)) ∈ ls) (m4 : (b!"Entry-point", entry) ∈ ls) :
    Post (fixedByHash e epo b ver label idx) off (fun kv _ => CalleeLine ls kv) := by
  have hf := hs.to_fits
  obtain ⟨h1, h2⟩ := At.append.1 h
  obtain ⟨h3, h4⟩ := At.append.1 h2
  have hle := h2.le
  rw [hl] at h3 h4 hle
  have hent : ∀ {s}, Post (renderEntryPoint e epo) s (fun kv _ => CalleeLine ls kv) :=
    renderEntryPoint_callee hs (by rw [hepo]; exact (At.append.1 h4).1) h0 m4
  unfold Small at hs
  unfold fixedByHash
  refine Post.ite (fun _ => Post.pure fun _ => m1) fun _ => Post.ite (fun _ => Post.getThen ?_) fun _ => ?_
  · refine .runThen (by rw [← hl]; exact printBytes_at h1 (by omega)) (Post.pure fun _ => m2)
  refine .runThen (skip_run (by omega)) ?_
  have other : ∀ {c : Prop} [Decidable c] {s : Nat}, Post (if c then renderEntryPoint e epo else Pure.pure (b!"?", b!"?")) s (fun kv _ => CalleeLine ls kv) := by
    intro c _ s
    exact Post.ite (fun _ => hent) fun _ => Post.pure fun h => absurd h (by decide)
  cases ver with
  | true =>
    rw [if_pos rfl]
    rw [if_pos rfl] at h2
    rw [hl] at h2
    refine .runThen (parseVersion_at hv h2) (Post.ite (fun _ => Post.pure fun _ => ?_) fun _ => ?_)
    · rw [decimal_eq]; exact m3 rfl
    · exact Post.seq (P := fun _ _ => True) (fun _ _ _ => trivial) fun _ _ _ => other
  | false =>
    rw [if_neg (by decide)]
    exact Post.seq (P := fun _ _ => True) (fun _ _ _ => trivial) fun _ _ _ => other

theorem fixedByName_callee {b ver : Bool} {nb entry label xs : Bytes} {v : Option Nat} (hn : 0 ∉ nb)
    (h : At e.buf off (pfx nb ++ ((if ver then optional (le 4) v else []) ++ (pfx entry ++ xs)))) (hv : ∀ n, v = some n → n < 2 ^ 32)
    (hepo : epo = off + 4 + nb.length + (if ver then optional (le 4) v else []).length) (h0 : 0 ∉ entry) (m1 : (b!"Execution", label) ∈ ls)
    (m2 : (b!"Name", nb) ∈ ls) (m3 : ver = true → (b!"Version", decText (v.getD 0)) ∈ ls) (m4 : (b!"Entry-point", entry) ∈ ls) :
    Post (fixedByName e epo b ver label idx) off (fun kv _ => CalleeLine ls kv) := by
  have hf := hs.to_fits
  have h2 := (At.pfx h).2
  obtain ⟨h3, h4⟩ := At.append.1 h2
  have hle := h2.le
  have hent : ∀ {s}, Post (renderEntryPoint e epo) s (fun kv _ => CalleeLine ls kv) :=
    renderEntryPoint_callee hs (by rw [hepo]; exact (At.append.1 h4).1) h0 m4
  unfold fixedByName
  refine Post.ite (fun _ => Post.pure fun _ => m1) fun _ => Post.ite (fun _ => ?_) fun _ => ?_
  · refine (copyItem_post hf).seq fun xs t ⟨k1, _, _, _⟩ => ?_
    obtain rfl := (At.append.1 h).1.pfx_inj hf k1
    unfold showArray
    split
    · refine Post.pureThen (Post.pure fun _ => ?_)
      rw [cstr_eq hn]; exact m2
    · exact Post.seq (P := fun _ _ => False) .abort fun _ _ h => h.elim
  refine .runThen (parseItem_at hf h) ?_
  have other : ∀ {c : Prop} [Decidable c] {s : Nat}, Post (if c then renderEntryPoint e epo else Pure.pure (b!"?", b!"?")) s (fun kv _ => CalleeLine ls kv) := by
    intro c _ s
    exact Post.ite (fun _ => hent) fun _ => Post.pure fun h => absurd h (by decide)
  cases ver with
  | true =>
    rw [if_pos rfl]
    rw [if_pos rfl] at h2
    refine .runThen (parseVersion_at hv h2) (Post.ite (fun _ => Post.pure fun _ => ?_) fun _ => ?_)
    · rw [decimal_eq]; exact m3 rfl
    · exact Post.seq (P := fun _ _ => True) (fun _ _ _ => trivial) fun _ _ _ => other
  | false =>
    rw [if_neg (by decide)]
    exact Post.seq (P := fun _ _ => True) (fun _ _ _ => trivial) fun _ _ _ => other
end

/-- What is known of the parsed session `i` (entry point at `epo`) for the item `it` at `off` (behind its type). -/
structure CallFacts (it : ExecItem) (off epo : Nat) (i : Item) : Prop where
  typ : ∃ tail, it.encode = UInt8.ofNat i.typ :: tail ∧ i.typ ≤ 5
  entry : ∀ {k pre entry xs}, CallHead k pre → it.encode = UInt8.ofNat k :: (pre ++ (pfx entry ++ xs)) → epo = off + pre.length

theorem fixedDelegation_callee {e : Env} (hs : Small e) {it : ExecItem} {off epo idx : Nat} {i : Item} (h32 : it.Sized) (hv : it.VersionOk)
    (hpl : it.Plain) (ha : ∀ tail, it.encode = UInt8.ofNat i.typ :: tail → At e.buf off tail) (hi : CallFacts it off epo i) :
    Post (fixedDelegation e epo i idx) off (fun kv _ => CalleeLine (it.callee e.blake) kv) := by
  obtain ⟨tail, t1, t2⟩ := hi.typ
  have tag : ∀ {k : Nat} {ys : Bytes}, k ≤ 5 → it.encode = UInt8.ofNat k :: ys → i.typ = k := fun {k ys} hk h => by
    rw [h] at t1
    have := congrArg UInt8.toNat (List.cons.inj t1).1
    rw [UInt8.toNat_ofNat', UInt8.toNat_ofNat', Nat.mod_eq_of_lt (by omega), Nat.mod_eq_of_lt (by omega)] at this
    exact this.symm
  unfold fixedDelegation
  dsimp only
  cases it with
  | moduleBytes code as =>
    have ht : i.typ = 0 := tag (k := 0) (by omega) rfl
    have hat := ha (pfx code ++ encodeRuntimeArgs as) (by rw [ht]; rfl)
    rw [if_pos ht]
    have q : ∀ {s}, Post (do parseItem e; Pure.pure (b!"?", b!"?")) s (fun kv _ => CalleeLine ((ExecItem.moduleBytes code as).callee e.blake) kv) := by
      intro s
      exact Besides.bind (fun _ => .pure (by decide)) _
    refine Post.ite (fun _ => Post.ite (fun _ => Post.pure fun _ => ?_) fun _ => Post.ite (fun _ => ?_) fun _ => q) fun _ => q
    · simp [ExecItem.callee]
    · have h1 := At.pfx hat
      have hle := h1.1.le
      unfold Small at hs
      unfold contractHash
      rw [Casper.pfx, List.append_assoc] at hat
      refine .runThen (readU32_at hat (by omega)) (Post.getThen (Post.ite (fun _ => .abort) fun _ => ?_))
      refine .runThen (slice_at h1.1 rfl) (Post.pure fun _ => ?_)
      rw [C20_checksum_hex]
      simp [ExecItem.callee, checksumHex]
  | byHash hb entry as =>
    have ht : i.typ = 1 := tag (k := 1) (by omega) rfl
    have henc : (ExecItem.byHash hb entry as).encode = UInt8.ofNat 1 :: (hb ++ (pfx entry ++ encodeRuntimeArgs as)) := by simp [ExecItem.encode]
    have hat := ha _ (by rw [ht]; exact henc)
    rw [ht, if_neg (by decide), if_pos (by decide)]
    exact fixedByHash_callee hs (v := none) h32 hat (by simp) ((hi.entry (.byHash hb h32) henc).trans (by simp only [Bool.false_eq_true, if_false, List.length_nil, Nat.add_zero]; rw [show hb.length = 32 from h32])) hpl (by simp [ExecItem.callee, storedLines])
      (by simp [ExecItem.callee, storedLines]) (by simp) (by simp [ExecItem.callee, storedLines])
  | byName nb entry as =>
    have ht : i.typ = 2 := tag (k := 2) (by omega) rfl
    have henc : (ExecItem.byName nb entry as).encode = UInt8.ofNat 2 :: (pfx nb ++ (pfx entry ++ encodeRuntimeArgs as)) := by simp [ExecItem.encode]
    have hat := ha _ (by rw [ht]; exact henc)
    rw [ht, if_neg (by decide), if_neg (by decide), if_neg (by decide), if_pos (by decide)]
    exact fixedByName_callee hs (v := none) hpl.1 hat (by simp) ((hi.entry (.byName nb) henc).trans (by simp [pfx_length]; omega)) hpl.2 (by simp [ExecItem.callee, storedLines])
      (by simp [ExecItem.callee, storedLines]) (by simp) (by simp [ExecItem.callee, storedLines])
  | versionedByHash hb v entry as =>
    have ht : i.typ = 3 := tag (k := 3) (by omega) rfl
    have henc : (ExecItem.versionedByHash hb v entry as).encode = UInt8.ofNat 3 :: ((hb ++ optional (le 4) v) ++ (pfx entry ++ encodeRuntimeArgs as)) := by simp [ExecItem.encode]
    have hat := ha _ (by rw [ht]; exact henc)
    rw [ht, if_neg (by decide), if_neg (by decide), if_pos (by decide)]
    rw [List.append_assoc] at hat
    have h32' : hb.length = 32 := h32
    exact fixedByHash_callee hs (v := v) (ver := true) h32 hat hv ((hi.entry (.versionedByHash hb v h32) henc).trans (by simp [h32']; omega)) hpl (by simp [ExecItem.callee, storedLines])
      (by simp [ExecItem.callee, storedLines]) (by simp [ExecItem.callee, storedLines]) (by simp [ExecItem.callee, storedLines])
  | versionedByName nb v entry as =>
    have ht : i.typ = 4 := tag (k := 4) (by omega) rfl
    have henc : (ExecItem.versionedByName nb v entry as).encode = UInt8.ofNat 4 :: ((pfx nb ++ optional (le 4) v) ++ (pfx entry ++ encodeRuntimeArgs as)) := by simp [ExecItem.encode]
    have hat := ha _ (by rw [ht]; exact henc)
    rw [ht, if_neg (by decide), if_neg (by decide), if_neg (by decide), if_neg (by decide), if_pos (by decide)]
    rw [List.append_assoc] at hat
    exact fixedByName_callee hs (v := v) (ver := true) hpl.1 hat hv ((hi.entry (.versionedByName nb v) henc).trans (by simp [pfx_length]; omega)) hpl.2 (by simp [ExecItem.callee, storedLines])
      (by simp [ExecItem.callee, storedLines]) (by simp [ExecItem.callee, storedLines]) (by simp [ExecItem.callee, storedLines])
  | transfer as =>
    have ht : i.typ = 5 := tag (k := 5) (by omega) rfl
    rw [ht, if_neg (by decide), if_neg (by decide), if_neg (by decide), if_neg (by decide), if_neg (by decide)]
    exact .fail

theorem getItemDeploy_callee {e : Env} (hs : Small e) {it : ExecItem} {d : Deploy} {epo idx s start : Nat} (h32 : it.Sized) (hv : it.VersionOk)
    (hpl : it.Plain) (hst : headerLength d.header + 32 + d.payment.total = start) (h : At e.buf start it.encode)
    (hi : CallFacts it (start + 1) epo d.session) :
    Post (getItemDeploy e epo d idx) s (fun kv _ => CalleeLine (it.callee e.blake) kv) := by
  have hsm := hs
  have hle := h.le
  have hlen : 1 ≤ it.encode.length := by obtain ⟨tail, t1, -⟩ := hi.typ; rw [t1]; simp
  unfold Small at hs
  unfold getItemDeploy
  refine Post.ite (fun _ => .fail) fun _ => Post.ite (fun _ => ?_) fun _ => Post.ite (fun _ => Besides.pure (by decide) _) fun _ =>
    Post.ite (fun _ => ?_) fun _ => Post.ite (fun _ => ?_) fun _ => Post.ite (fun _ => Besides_headerLine _) fun _ => ?_
  · exact Besides.bind (fun _ => .bind fun _ => .pure (by decide)) _
  · exact Besides.bind (fun _ => .bind fun _ => .bind fun _ => .pure (by decide)) _
  · exact Besides.bind (fun _ => .bind fun _ => .pure (by decide)) _
  unfold bodyLine
  dsimp only
  refine .runThen (a := ()) (t := headerLength d.header + 32) (by unfold seek; rw [u16_id (by omega)]) ?_
  refine Post.ite (fun _ => Besides.ite Besides_itemSystemPayment .fail _) fun _ => ?_
  refine .runThen (skip_run (by omega)) (Post.ite (fun hx => ?_) fun _ => ?_)
  · refine Post.ite (fun hsp => Besides_itemNativeTransfer _) fun hsp => Post.ite (fun _ => ?_) fun _ => .fail
    rw [hst]
    refine itemDelegation_callee (skip_run (by omega)) (fixedDelegation_callee hsm h32 hv hpl (fun tail ht => ?_) hi)
    rw [ht] at h
    exact (At.cons.1 h).2
  · exact Besides.bind (fun _ => .ite (.bind fun _ => .pure (by decide)) .fail) _

/-- Accepted Deploys. -/
theorem DeployParse.callFacts {e : Env} (hs : Small e) {s : DS} {p q : IS} {k : Nat} (hp : DeployParse e s p q k) {it : ExecItem}
    (ha : At e.buf p.off it.encode) : CallFacts it (p.off + 1) s.epo s.dep.session := by
  have hses := hp.ses
  have hext := hp.extent hs.to_fits
  have hfacts := parseSession_facts hs (o := p.off + 1) (epo := p.epo) (k := k) (by omega) _ _ hses
  have hd : s.dep.session = q.item ∧ s.epo = q.epo := by rw [hp.result]; exact ⟨rfl, rfl⟩
  have tag : ∀ {j : Nat} {ys : Bytes}, j ≤ 5 → it.encode = UInt8.ofNat j :: ys → j = k := fun {j ys} hj h => by
    rw [h] at ha
    have := hp.sesType.unique (At.cons.1 ha).1 rfl
    have := congrArg UInt8.toNat (List.cons.inj this).1
    have hsm := hp.small
    rw [UInt8.toNat_ofNat', UInt8.toNat_ofNat', Nat.mod_eq_of_lt (by omega), Nat.mod_eq_of_lt (by omega)] at this
    exact this.symm
  refine ⟨?_, fun {j pre entry xs} hh henc => ?_⟩
  · have ⟨j, tail, hj, henc⟩ : ∃ (j : Nat) (tail : Bytes), j ≤ 5 ∧ it.encode = UInt8.ofNat j :: tail := by
      cases it with
      | moduleBytes => exact ⟨0, _, by omega, rfl⟩
      | byHash => exact ⟨1, _, by omega, rfl⟩
      | byName => exact ⟨2, _, by omega, rfl⟩
      | versionedByHash => exact ⟨3, _, by omega, rfl⟩
      | versionedByName => exact ⟨4, _, by omega, rfl⟩
      | transfer => exact ⟨5, _, by omega, rfl⟩
    have := tag hj henc
    exact ⟨tail, by rw [hd.1, hfacts.typ, ← this]; exact henc, by rw [hd.1, hfacts.typ]; omega⟩
  · have hj : j ≤ 5 := by cases hh <;> omega
    obtain rfl := tag hj henc
    rw [henc] at ha
    rw [hd.2]
    exact (parseCall_entry hs hh (At.cons.1 ha).2 _ _ hses).1

/-- A stored call. -/
theorem ExecItem.address_nil {it : ExecItem} {H : Bytes → Bytes} (hne : it.address H ≠ []) (h32 : it.Sized) :
    ∃ k pre entry xs, CallHead k pre ∧ it.encode = UInt8.ofNat k :: (pre ++ (pfx entry ++ xs)) := by
  cases it with
  | moduleBytes | transfer => exact absurd rfl hne
  | byHash hb entry as => exact ⟨1, _, entry, encodeRuntimeArgs as, .byHash hb h32, by simp [ExecItem.encode]⟩
  | byName nb entry as => exact ⟨2, _, entry, encodeRuntimeArgs as, .byName nb, by simp [ExecItem.encode]⟩
  | versionedByHash hb v entry as => exact ⟨3, _, entry, encodeRuntimeArgs as, .versionedByHash hb v h32, by simp [ExecItem.encode]⟩
  | versionedByName nb v entry as => exact ⟨4, _, entry, encodeRuntimeArgs as, .versionedByName nb v, by simp [ExecItem.encode]⟩

/-- The first two of the fixed lines. -/
theorem fixedDelegation_address {e : Env} (hs : Small e) {it : ExecItem} {off epo idx : Nat} {i : Item} (h32 : it.Sized)
    (hpl : it.Plain) (hne : it.address e.blake ≠ []) (ha : ∀ tail, it.encode = UInt8.ofNat i.typ :: tail → At e.buf off tail)
    (hi : CallFacts it off epo i) (hx : e.expert = true ∨ i.fixed ≠ 3) (h2 : idx < 2) :
    Post (fixedDelegation e epo i idx) off (fun kv _ => (it.address e.blake)[idx]? = some kv) := by
  obtain ⟨tail, t1, t2⟩ := hi.typ
  have tag : ∀ {k : Nat} {ys : Bytes}, k ≤ 5 → it.encode = UInt8.ofNat k :: ys → i.typ = k := fun {k ys} hk h => by
    rw [h] at t1
    have := congrArg UInt8.toNat (List.cons.inj t1).1
    rw [UInt8.toNat_ofNat', UInt8.toNat_ofNat', Nat.mod_eq_of_lt (by omega), Nat.mod_eq_of_lt (by omega)] at this
    exact this.symm
  have hshow : (e.expert || i.fixed != 3) = true := by
    rcases hx with h | h
    · simp [h]
    · simp [h]
  have hash : ∀ {ver : Bool} {hb label xs : Bytes}, hb.length = 32 → At e.buf off (hb ++ xs) →
      it.address e.blake = [(b!"Execution", label), (b!"Address", checksumHex e.blake hb)] →
      Post (fixedByHash e epo true ver label idx) off (fun kv _ => (it.address e.blake)[idx]? = some kv) := by
    intro ver hb label xs hl h hadr
    unfold fixedByHash
    rw [hadr]
    refine Post.ite (fun h0 => Post.pure (by rw [h0.1]; rfl)) fun h0 => Post.ite (fun h1 => Post.getThen ?_) fun h1 => ?_
    · refine .runThen (by rw [← hl]; exact printBytes_at (At.append.1 h).1 (by omega)) (Post.pure (by rw [h1.1]; rfl))
    · simp only [and_true] at h0 h1; omega
  have name : ∀ {ver : Bool} {nb label xs : Bytes}, 0 ∉ nb → At e.buf off (pfx nb ++ xs) →
      it.address e.blake = [(b!"Execution", label), (b!"Name", nb)] →
      Post (fixedByName e epo true ver label idx) off (fun kv _ => (it.address e.blake)[idx]? = some kv) := by
    intro ver nb label xs hn h hadr
    unfold fixedByName
    rw [hadr]
    refine Post.ite (fun h0 => Post.pure (by rw [h0.1]; rfl)) fun h0 => Post.ite (fun h1 => ?_) fun h1 => ?_
    · refine (copyItem_post hs.to_fits).seq fun xs t ⟨k1, _, _, _⟩ => ?_
      obtain rfl := (At.append.1 h).1.pfx_inj hs.to_fits k1
      unfold showArray
      split
      · refine Post.pureThen (Post.pure ?_)
        rw [cstr_eq hn, h1.1]; rfl
      · exact Post.seq (P := fun _ _ => False) .abort fun _ _ h => h.elim
    · simp only [and_true] at h0 h1; omega
  unfold fixedDelegation
  dsimp only
  rw [hshow]
  cases it with
  | moduleBytes | transfer => exact absurd rfl hne
  | byHash hb entry as =>
    have ht : i.typ = 1 := tag (k := 1) (by omega) rfl
    rw [ht, if_neg (by decide), if_pos (by decide)]
    exact hash (xs := pfx entry ++ encodeRuntimeArgs as) h32 (ha _ (by rw [ht]; simp [ExecItem.encode])) rfl
  | byName nb entry as =>
    have ht : i.typ = 2 := tag (k := 2) (by omega) rfl
    rw [ht, if_neg (by decide), if_neg (by decide), if_neg (by decide), if_pos (by decide)]
    exact name (xs := pfx entry ++ encodeRuntimeArgs as) hpl.1 (ha _ (by rw [ht]; simp [ExecItem.encode])) rfl
  | versionedByHash hb v entry as =>
    have ht : i.typ = 3 := tag (k := 3) (by omega) rfl
    rw [ht, if_neg (by decide), if_neg (by decide), if_pos (by decide)]
    exact hash (xs := optional (le 4) v ++ (pfx entry ++ encodeRuntimeArgs as)) h32 (ha _ (by rw [ht]; simp [ExecItem.encode])) (by simp [ExecItem.address, storedLines])
  | versionedByName nb v entry as =>
    have ht : i.typ = 4 := tag (k := 4) (by omega) rfl
    rw [ht, if_neg (by decide), if_neg (by decide), if_neg (by decide), if_neg (by decide), if_pos (by decide)]
    exact name (xs := optional (le 4) v ++ (pfx entry ++ encodeRuntimeArgs as)) hpl.1 (ha _ (by rw [ht]; simp [ExecItem.encode])) (by simp [ExecItem.address, storedLines])

/-- The lines behind that of the fee. -/
theorem getItemDeploy_address {e : Env} (hs : Small e) {it : ExecItem} {d : Deploy} {epo idx s start : Nat} (h32 : it.Sized)
    (hpl : it.Plain) (hne : it.address e.blake ≠ []) (hst : headerLength d.header + 32 + d.payment.total = start) (h : At e.buf start it.encode)
    (hi : CallFacts it (start + 1) epo d.session) (hx : e.expert = true ∨ d.session.fixed ≠ 3) (hp : d.payment.fixed = 0 ∧ d.payment.runtime = 1)
    (hk : CallKind d.session.special) (hfx : 2 ≤ d.session.fixed ∧ d.session.fixed ≤ 5) (hr : d.session.runtime ≤ 4) (h2 : idx < 2) :
    Post (getItemDeploy e epo d ((if e.expert then 9 else 5) + idx)) s (fun kv _ => (it.address e.blake)[idx]? = some kv) := by
  have hsm := hs
  have hle := h.le
  have hlen : 1 ≤ it.encode.length := by obtain ⟨tail, t1, -⟩ := hi.typ; rw [t1]; simp
  unfold Small at hs
  have h5 : 5 ≤ (if e.expert then 9 else 5) + idx := by split <;> omega
  unfold getItemDeploy
  refine Post.ite (fun _ => .fail) fun _ => ?_
  rw [if_neg (by omega), if_neg (by omega), if_neg (by omega), if_neg (by omega)]
  rw [if_neg (by rintro ⟨h8, h9⟩; rw [h8, if_pos rfl] at h9; omega)]
  unfold bodyLine
  dsimp only
  refine .runThen (a := ()) (t := headerLength d.header + 32) (by unfold seek; rw [u16_id (by omega)]) ?_
  have hnew : (if e.expert then 9 else 5) + idx - (if e.expert then 8 else 4) = 1 + idx := by split <;> omega
  rw [hnew, hp.1, hp.2, show u16 (0 + 1) = 1 from rfl, if_neg (by omega)]
  refine .runThen (skip_run (by omega)) ?_
  have hn : u8 (1 + idx + 65536 - 1) = idx := by unfold u8; omega
  have hu : u16 (d.session.fixed + d.session.runtime) = d.session.fixed + d.session.runtime := u16_id (by omega)
  rw [hn, hu, if_pos (by omega)]
  rw [if_neg (by rcases hk with h | h | h | h <;> rw [h] <;> decide), if_pos (by exact hk)]
  unfold itemDelegation
  rw [hst]
  refine .runThen (skip_run (by omega)) ?_
  rw [if_pos (by omega)]
  refine fixedDelegation_address hsm h32 hpl hne (fun tail ht => ?_) hi hx h2
  rw [ht] at h
  exact (At.cons.1 h).2

/-! ### Arguments shown by their hash -/

/-- Lines of the arguments: none, their hash behind two fixed lines, or one each. -/
def Summed (i : Item) : Prop := (i.runtime = 0 ∧ i.fixed = 0) ∨ (i.generic ≠ 0 ∧ i.fixed = 2) ∨ (i.generic = 0 ∧ i.special ≠ spGeneric)

section
variable {e : Env} (hf : Fits e) {as : List Arg} (hg : GoodTypes as) {o : Nat} (h : At e.buf o (encodeArgs as))
include hf hg h

theorem checkDelegationItems_summed {r : Bool} {s : IS} (hs : s.off = o) (h0 : s.item.runtime = 0 ∧ s.item.fixed = 0) (hgen : s.item.generic = 0) :
    Post (checkDelegationItems e as.length r) s (fun _ t => Summed t.item) := by
  have count : ∀ {u : IS} {name c}, u.off = o → Post (lp (countArg e as.length name c)) u (fun x t => t.off = o ∧ t.item = u.item ∧
      (x = .skip → ∀ r t, searchArgs e name as.length o ≠ .ok r t)) := by
    intro u name c hu
    refine Post.and (fun a t ht => ((Ret.lp (Ret_countArg (Ret_search hf hg h) _ _)) _ hu).1 a t ht) (Post.and (fun a t ht => (lp_frame a t ht).2) ?_)
    refine (lp_post (Q := fun x _ => x = .skip → ∀ r t, searchArgs e name as.length o ≠ .ok r t) ?_).mono fun x t h => h.1
    rw [hu]
    intro x t hx
    unfold countArg at hx
    rw [bind_run, attempt_run] at hx
    cases hm : searchArgs e name as.length o with
    | ok a v =>
      rw [hm] at hx
      dsimp only [Res.bind_ok] at hx
      split at hx <;> cases hx <;> intro h <;> cases h
    | err y v => intro _ r t h; cases h
    | fault f => rw [hm] at hx; cases hx
  have check : ∀ {u : IS} {name c}, u.off = o → Post (lp (checkArg e as.length name c)) u (fun _ t => t.off = o ∧ t.item = u.item ∧
      ∃ r t, searchArgs e name as.length o = .ok r t) := by
    intro u name c hu
    refine ((lp_post (Q := fun _ t => t = o ∧ ∃ r, searchArgs e name as.length o = .ok r o ∧ c r.1 r.2 = true) (by rw [hu]; exact checkArg_post)).and lp_frame).mono
      fun _ t ⟨⟨⟨h1, a, h2, _⟩, _⟩, h4⟩ => ⟨h1, h4.2, a, o, h2⟩
  have one : ∀ {x : Count} {a b : Nat} {name : Bytes}, countStep a x = some b → (x = .skip → ∀ r t, searchArgs e name as.length o ≠ .ok r t) →
      (∃ r t, searchArgs e name as.length o = .ok r t) → b = a + 1 := by
    intro x a b name hx h1 ⟨r, t, h2⟩
    cases x with
    | found => cases hx; rfl
    | skip => exact absurd h2 (h1 rfl r t)
    | returnOk => cases hx
  unfold checkDelegationItems
  refine (count hs).seq fun c t ⟨h1, h2, c1⟩ => ?_
  split
  · exact Post.pure (.inl (by rw [h2]; exact h0))
  rename_i x1 a s1
  refine Post.modifyThen ((count (by exact h1)).seq fun c u ⟨h3, h4, c2⟩ => ?_)
  dsimp only at h4
  have hu : (u.item.runtime = 0 ∧ u.item.fixed = 0) ∧ u.item.generic = 0 := by rw [h4, h2]; exact ⟨h0, hgen⟩
  split
  · exact Post.pure (.inl hu.1)
  rename_i x2 b s2
  refine (count h3).seq fun c v ⟨h5, h6, c3⟩ => ?_
  rw [← h6] at hu
  split
  · exact Post.pure (.inl hu.1)
  rename_i x3 d s3
  refine (check h5).seq fun _ w ⟨h7, h8, n1⟩ => (check h7).seq fun _ x ⟨h9, h10, n2⟩ => (check h9).seq fun _ y ⟨h11, h12, n3⟩ => Post.getThen ?_
  have hy : y.item = v.item := h12.trans (h10.trans h8)
  rw [← hy] at hu
  have k1 := one s1 c1 n3
  have k2 := one s2 c2 n1
  have k3 := one s3 c3 n2
  have key : ∀ fx, fx = 2 → Post (upd fun i => { i with runtime := i.runtime + 2, fixed := fx, generic := 1 }) y (fun _ t => Summed t.item) :=
    fun fx hfx => Post.modify (.inr (.inl ⟨Nat.one_ne_zero, hfx⟩))
  refine Post.ite (fun _ => key _ ?_) fun hs => Post.ite (fun hr => ?_) fun hr => Post.modify (.inr (.inr ⟨hu.2, hs⟩))
  · subst k1; subst k2; subst k3; rfl
  · refine (check h11).seq fun _ z ⟨h13, h14, n4⟩ => Post.modify (.inr (.inr ?_))
    rw [h14]; exact ⟨hu.2, hs⟩

theorem parseDelegation_summed {r : Bool} {s : IS} (hx : e.expert = false) (hs : s.off = o) (ht : s.item.typ ≠ 0) (h0 : s.item.runtime = 0 ∧ s.item.fixed = 0)
    (hgen : s.item.generic = 0) : Post (parseDelegation e as.length r) s (fun _ t => Summed t.item) := by
  unfold parseDelegation
  refine Post.getThen ?_
  dsimp only
  rw [if_neg (by simpa [tyModuleBytes] using ht)]
  refine Post.pureThen ?_
  dsimp only
  refine Post.seq (P := fun _ t => t.off = o ∧ t.item = s.item) ?_ fun _ t ⟨h1, h2⟩ => Post.seq (P := fun _ t => Summed t.item) ?_ fun _ u hu => ?_
  · unfold checkNewValidator
    refine Post.ite (fun _ => ?_) fun _ => Post.pure ⟨hs, rfl⟩
    exact fun a t ht => ⟨((Ret.lp (Ret_checkArg (Ret_search hf hg h) _ _)) _ hs).1 a t ht, (lp_frame a t ht).2⟩
  · rw [← h2] at h0 hgen
    unfold delegationLines
    refine Post.seq (P := fun x t => match x with | .ok _ => Summed t.item | .error _ => True)
      (Post.attempt (checkDelegationItems_summed hf hg h h1 h0 hgen) fun x t ht => trivial) fun x t hx => ?_
    cases x with
    | ok a => exact Post.pure hx
    | error x =>
      dsimp only
      refine Post.ite (fun _ => ?_) fun _ => .fail
      exact Post.seq (P := fun _ _ => True) (fun _ _ _ => trivial) fun am u hu => Post.modify (.inr (.inl ⟨Nat.one_ne_zero, rfl⟩))
  · unfold finishDelegation
    rw [hx]
    refine Post.modifyThen ?_
    refine Post.pure ?_
    dsimp only
    split
    · rename_i h5
      rcases hu with h | h | h
      · exact .inl h
      · exact .inr (.inl ⟨Nat.one_ne_zero, h.2⟩)
      · exact absurd h5 h.2
    · exact hu

end

theorem entry_summed {e : Env} (hf : Fits e) (hx : e.expert = false) {as : List Arg} (hg : GoodTypes as) {entry : Bytes} {start : Nat} {s : IS}
    (h : At e.buf s.off (pfx entry ++ encodeRuntimeArgs as)) (hk : s.item.typ ≠ 0) (h0 : s.item.runtime = 0 ∧ s.item.fixed = 0)
    (hgen : s.item.generic = 0) :
    Post (do let n ← checkEntrypoint e; finishItem e n start) s (fun _ t => Summed t.item) := by
  have hp := At.pfx h
  obtain ⟨hn, ha⟩ := At.append.1 (show At e.buf (s.off + 4 + entry.length) (le 4 as.length ++ encodeArgs as) from hp.2)
  have hal := encodeArgs_long as
  have hle := ha.le
  unfold Fits at hf
  rw [le_length] at ha hle
  refine Post.seq (P := fun _ t => Summed t.item) ?_ fun n t ht => ?_
  · unfold checkEntrypoint
    refine Post.modifyThen ((lp_post (copyItem_post hf)).seq fun nm t ⟨⟨h1, h2, h3, h4⟩, h5⟩ => Post.modifyThen ?_)
    obtain rfl := (At.append.1 h).1.pfx_inj hf h1
    refine .runThen (lp_run (readU32_at (by dsimp only; rw [h3]; exact hp.2) (by omega))) (Post.modifyThen ?_)
    rw [h5]
    dsimp only
    refine Post.seq (P := fun _ u => Summed u.item) (parseDelegation_summed (o := s.off + 4 + entry.length + 4) hf hg ha hx (by dsimp only at h3 ⊢; omega) (by exact hk)
      (by exact h0) (by exact hgen)) fun _ u hu => Post.pure hu
  · refine finishItem_item.mono fun _ u ⟨x, hx⟩ => ?_
    rw [hx]; exact ht

theorem versionStep_normal {e : Env} (hx : e.expert = false) {ver : Bool} {s : IS} : Post (versionStep e ver) s (fun _ t => t.item = s.item) := by
  unfold versionStep
  rw [hx]
  exact Post.ite (fun _ => lp_frame.seq fun _ t ⟨_, h⟩ => Post.pure h) fun _ => Post.pure rfl

/-- The lines of a call in normal mode. -/
theorem parseCall_summed {e : Env} (hs : Small e) (hx : e.expert = false) {k off epo : Nat} {pre entry : Bytes} {as : List Arg} (hg : GoodTypes as)
    (hh : CallHead k pre) (h : At e.buf off (pre ++ (pfx entry ++ encodeRuntimeArgs as))) :
    Post (parseDeployItem e false) ⟨off, epo, { typ := k }⟩ (fun _ t => Summed t.item) := by
  have hf := hs.to_fits
  have hle := h.le
  simp only [List.length_append, pfx_length] at hle
  unfold Small at hs
  have hent := (At.append.1 h).2
  unfold parseDeployItem
  refine Post.modifyThen (Post.getThen ?_)
  dsimp only
  cases hh with
  | byHash hb hl =>
    rw [if_neg (by decide), if_pos (by decide)]
    unfold parseByHash
    refine Post.getThen (Post.modifyThen (f := fun _ => _) (g := fun s : IS => { s with off := u16 (s.off + 32) }) (Post.getThen ?_))
    dsimp only
    rw [u16_id (by omega), show (decide (1 = tyVerByHash)) = false from rfl, versionStep_false]
    refine Post.pureThen ?_
    rw [hl] at hent
    exact entry_summed hf hx hg hent (by simp) ⟨rfl, rfl⟩ rfl
  | byName nb =>
    rw [if_neg (by decide), if_neg (by decide), if_pos (by decide)]
    unfold parseByName
    refine Post.getThen (.runThen (lp_run (parseItem_at hf h)) (Post.getThen ?_))
    dsimp only
    rw [show (decide (2 = tyVerByName)) = false from rfl, versionStep_false]
    refine Post.pureThen ?_
    rw [pfx_length, ← Nat.add_assoc] at hent
    exact entry_summed hf hx hg hent (by simp) ⟨rfl, rfl⟩ rfl
  | versionedByHash hb v hl =>
    rw [if_neg (by decide), if_pos (by decide)]
    unfold parseByHash
    refine Post.getThen (Post.modifyThen (f := fun _ => _) (g := fun s : IS => { s with off := u16 (s.off + 32) }) (Post.getThen ?_))
    dsimp only
    simp only [List.length_append] at hle
    rw [u16_id (by omega)]
    rw [List.append_assoc] at h
    have h2 := (At.append.1 h).2
    rw [hl] at h2
    rw [show (decide (3 = tyVerByHash)) = true from rfl]
    refine Post.seq ((versionStep_named h2).and (versionStep_normal hx)) fun _ u ⟨⟨u1, _⟩, u2⟩ => ?_
    dsimp only at u1 u2
    refine entry_summed hf hx hg (entry := entry) (by rw [u1]; exact hent.cast (by rw [List.length_append, hl]; omega)) (by rw [u2]; simp) (by rw [u2]; exact ⟨rfl, rfl⟩) (by rw [u2])
  | versionedByName nb v =>
    rw [if_neg (by decide), if_neg (by decide), if_pos (by decide)]
    unfold parseByName
    rw [List.append_assoc] at h
    refine Post.getThen (.runThen (lp_run (parseItem_at hf h)) (Post.getThen ?_))
    dsimp only
    have h2 := (At.pfx h).2
    rw [show (decide (4 = tyVerByName)) = true from rfl]
    refine Post.seq ((versionStep_named h2).and (versionStep_normal hx)) fun _ u ⟨⟨u1, _⟩, u2⟩ => ?_
    dsimp only at u1 u2
    refine entry_summed hf hx hg (entry := entry) (by rw [u1]; exact hent.cast (by rw [List.length_append, pfx_length]; omega)) (by rw [u2]; simp) (by rw [u2]; exact ⟨rfl, rfl⟩) (by rw [u2])

/-! ### Reviews -/

/-- The lines of the address, where the counts allow for them. -/
theorem DeployAccepted.address {e : Env} (hs : Small e) {s : DS} {p q : IS} {k : Nat} (ha : DeployAccepted e s) (hp : DeployParse e s p q k) {it : ExecItem}
    (h32 : it.Sized) (hpl : it.Plain) (hne : it.address e.blake ≠ []) (hat : At e.buf p.off it.encode) (hst : headerLength s.dep.header + 32 < 65536)
    (hx : e.expert = true ∨ s.dep.session.fixed ≠ 3) (hfx : 2 ≤ s.dep.session.fixed ∧ s.dep.session.fixed ≤ 5) {j : Nat} {kv : Bytes × Bytes}
    (hj : (it.address e.blake)[j]? = some kv) :
    (if e.expert then 9 else 5) + j < numItemsDeploy e s.dep ∧ ∃ t, getItemDeploy e s.epo s.dep ((if e.expert then 9 else 5) + j) 0 = .ok kv t := by
  have hext := hp.extent hs.to_fits
  have hpay := (hp.payment hs.to_fits).2.1
  have hfew := parseDeployItem_few _ _ hp.ses
  have hfacts := parseSession_facts hs (o := p.off + 1) (epo := p.epo) (k := k) (by omega) _ _ hp.ses
  have hd : s.dep.session = q.item ∧ s.dep.payment = p.item := by rw [hp.result]; exact ⟨rfl, rfl⟩
  have hb : s.dep.header.bodyStart = headerLength s.dep.header + 32 := u16_id hst
  have hpf : s.dep.payment.fixed = 0 ∧ s.dep.payment.runtime = 1 := by rw [hd.2, hpay]; exact ⟨rfl, rfl⟩
  have hr : s.dep.session.runtime ≤ 4 := by rw [hd.1]; exact hfew.1
  have h2 : j < 2 := by
    have := (List.getElem?_eq_some_iff.1 hj).1
    have hl : (it.address e.blake).length ≤ 2 := by
      cases it <;> simp [ExecItem.address, storedLines]
    omega
  have hk5 : k ≠ 5 := by
    rintro rfl
    obtain ⟨k', pre, entry, xs, hh, henc⟩ := ExecItem.address_nil hne h32
    rw [henc] at hat
    have := hp.sesType.unique (At.cons.1 hat).1 rfl
    cases hh <;> exact absurd this (by decide)
  have hn : (if e.expert then 9 else 5) + j < numItemsDeploy e s.dep := by
    unfold numItemsDeploy u8
    rw [hpf.1, hpf.2]
    split <;> omega
  refine ⟨hn, ?_⟩
  obtain ⟨kv', t, hok⟩ := ha.items _ hn
  have := getItemDeploy_address hs (start := p.off) h32 hpl hne (by rw [hd.2]; omega) hat (hp.callFacts hs hat) hx hpf
    (by rw [hd.1]; exact (hfacts.call hk5).1) hfx hr h2 kv' t hok
  rw [hj] at this
  cases this
  exact ⟨t, hok⟩

/-- **C59, partly.** A transaction review of data `0 :: xs`: `xs` are a header, its hash, a payment, a session and the rest, and the header contains the hash of
payment and session.  If the session is a serialized item, with no zero bytes in names of contracts and entry points, then every line about what is
called is a right one: it has the execution kind, the hash of the code, the address or name of the contract, its version and the entry point of the session.  In expert
mode, for stored contracts, items 9 and 10 of the review are those lines that say which contract is called.  In normal mode (arguments with types read as
Casper does), items 5 and 6 are, unless the review calls the transaction a delegation or says nothing about the session at all: see `C59_hidden_false`
and `C14_hidden_false`. -/
theorem C59_contract_partial (pl : Platform) (hcap : pl.cap ≤ 16384) (d d' : Dev) (hd : d.Ok pl) (rx : Bytes)
    (pin : Bool) (hins : rx.getD 1 0 = 2) (xs : Bytes) (hx : d.data ++ rx.drop 5 = 0 :: xs)
    (h : step pl d (.apdu rx pin) = (d', .pending)) :
    ∃ hdr pay ses rest, xs = hdr ++ pl.blake hdr ++ (pay ++ ses) ++ rest ∧ (xs.drop (keyLen xs + 24)).take 32 = pl.blake (pay ++ ses) ∧
      ∀ it : ExecItem, ses = it.encode → it.Sized → it.VersionOk → it.Plain →
        (∀ i key text c, reviewItem pl d' .tx i 0 = .ok (key, text) c → key ∈ contractLabels → (key, text) ∈ it.callee pl.blake) ∧
        (d.expert = true → ∀ j kv, (it.address pl.blake)[j]? = some kv → ∃ c, reviewItem pl d' .tx (9 + j) 0 = .ok kv c) ∧
        (d.expert = false → it.address pl.blake ≠ [] → GoodTypes it.args →
          reviewCount pl d' .tx 0 = .ok 5 0 ∨
          (∃ kind c, reviewItem pl d' .tx 1 0 = .ok (b!"Type", kind) c ∧ kind ∈ [b!"Delegate", b!"Undelegate", b!"Redelegate"]) ∨
          ∀ j kv, (it.address pl.blake)[j]? = some kv → ∃ c, reviewItem pl d' .tx (5 + j) 0 = .ok kv c) := by
  obtain ⟨hok, hdata, hcase⟩ := sign_pending (by omega) hd hins h
  rw [hx] at hcase hdata
  rcases hcase with ⟨ys, s, h1, h2, rfl⟩ | ⟨ys, s, h1, -, -⟩
  swap
  · simp at h1
  simp only [List.cons.injEq, true_and] at h1
  subst h1
  have hsm : Small (mkEnv pl d.expert xs) := small_data hcap hok hdata d.expert
  obtain ⟨p, q, k, hdr, hash, pay, ses, rest, hp, b1, b2, b3, b4, b5, b6, b7⟩ := h2.split hsm
  have hk := readDeploy_kind h2.parse
  have hle := congrArg List.length b1
  simp only [List.length_append] at hle
  refine ⟨hdr, pay, ses, rest, ?_, ?_, ?_⟩
  · rw [show pl.blake hdr = hash from b6]; exact b1
  · rw [hp.header.pkLen] at b7
    have := b7.take_drop
    rw [Hash.len] at this
    exact this
  intro it hses h32 hv hpl
  have hst : headerLength s.dep.header + 32 < 65536 := by have := hsm; unfold Small at this; omega
  have hat : At (mkEnv pl d.expert xs).buf p.off it.encode :=
    ⟨hdr ++ hash ++ pay, rest, by rw [b1, ← hses]; simp only [List.append_assoc], by simp only [List.length_append]; omega⟩
  have hext := hp.extent hsm.to_fits
  have hd' : s.dep.session = q.item ∧ s.dep.payment = p.item := by rw [hp.result]; exact ⟨rfl, rfl⟩
  have hb : s.dep.header.bodyStart = headerLength s.dep.header + 32 := u16_id hst
  have hpay := (hp.payment hsm.to_fits).2.1
  have hcount := (hp.count hsm.to_fits)
  have htag : ∀ {k' : Nat} {tail : Bytes}, k' ≤ 5 → it.encode = UInt8.ofNat k' :: tail → k' = k ∧ At (mkEnv pl d.expert xs).buf (p.off + 1) tail := by
    intro k' tail hk' henc
    rw [henc] at hat
    have := hp.sesType.unique (At.cons.1 hat).1 rfl
    have := congrArg UInt8.toNat (List.cons.inj this).1
    have hsm := hp.small
    rw [UInt8.toNat_ofNat', UInt8.toNat_ofNat', Nat.mod_eq_of_lt (by omega), Nat.mod_eq_of_lt (by omega)] at this
    exact ⟨this.symm, (At.cons.1 hat).2⟩
  refine ⟨fun i key text c hr hl => ?_, fun hex j kv hj => ?_, fun hex hne hg => ?_⟩
  · rw [reviewItem_deploy hok hdata s hk] at hr
    split at hr
    · cases hr
    exact getItemDeploy_callee hsm (start := p.off) h32 hv hpl (by rw [hd'.2]; omega) hat (hp.callFacts hsm hat) _ _ hr hl
  · have hne : it.address pl.blake ≠ [] := by intro h; rw [h] at hj; cases hj
    obtain ⟨k', pre, entry, ys, hh, henc⟩ := ExecItem.address_nil hne h32
    obtain ⟨rfl, hat'⟩ := htag (by cases hh <;> omega) henc
    have hfx := (parseCall_entry hsm hh hat' _ _ hp.ses).2 hex
    rw [← hd'.1] at hfx
    obtain ⟨h3, c, h4⟩ := h2.address hsm hp h32 hpl hne hat hst (.inl hex) ⟨hfx.1, by omega⟩ hj
    rw [if_pos (show (mkEnv pl d.expert xs).expert = true from hex)] at h3 h4
    refine ⟨c, ?_⟩
    rw [reviewItem_deploy hok hdata s hk, show (d.loaded rx).expert = d.expert from rfl, u8_id (by omega), if_neg (by omega)]
    exact h4
  · obtain ⟨k', head, g1, g2, g3, -, -⟩ := ExecItem.head h32
    have ⟨pre, entry, hh, henc⟩ : ∃ pre entry, CallHead k' pre ∧ it.encode = UInt8.ofNat k' :: (pre ++ (pfx entry ++ encodeRuntimeArgs it.args)) := by
      cases it with
      | moduleBytes | transfer => exact absurd rfl hne
      | byHash hb entry as =>
        obtain rfl : k' = 1 := by have := (htag g2 g3).1; have := (htag (k' := 1) (by omega) rfl).1; omega
        exact ⟨_, entry, .byHash hb h32, by simp [ExecItem.encode, ExecItem.args]⟩
      | byName nb entry as =>
        obtain rfl : k' = 2 := by have := (htag g2 g3).1; have := (htag (k' := 2) (by omega) rfl).1; omega
        exact ⟨_, entry, .byName nb, by simp [ExecItem.encode, ExecItem.args]⟩
      | versionedByHash hb v entry as =>
        obtain rfl : k' = 3 := by have := (htag g2 g3).1; have := (htag (k' := 3) (by omega) rfl).1; omega
        exact ⟨_, entry, .versionedByHash hb v h32, by simp [ExecItem.encode, ExecItem.args]⟩
      | versionedByName nb v entry as =>
        obtain rfl : k' = 4 := by have := (htag g2 g3).1; have := (htag (k' := 4) (by omega) rfl).1; omega
        exact ⟨_, entry, .versionedByName nb v, by simp [ExecItem.encode, ExecItem.args]⟩
    obtain ⟨rfl, hat'⟩ := htag g2 henc
    have hsum := parseCall_summed hsm hex hg hh hat' _ _ hp.ses
    dsimp only at hsum
    have hfacts := parseSession_facts hsm (o := p.off + 1) (epo := p.epo) (k := k') (by omega) _ _ hp.ses
    have hkind := (hfacts.call (by cases hh <;> omega)).1
    rw [← hd'.1] at hsum hkind
    rcases hsum with h0 | h0 | h0
    · refine .inl ?_
      rw [reviewCount_deploy hok hdata s hk, show (d.loaded rx).expert = d.expert from rfl]
      refine congrArg (Res.ok · 0) ?_
      unfold numItemsDeploy
      rw [h0.1, h0.2, hd'.2, hpay, if_neg (by rw [show (mkEnv pl d.expert xs).expert = false from hex]; decide)]
      rfl
    · refine .inr (.inr fun j kv hj => ?_)
      obtain ⟨h3, c, h4⟩ := h2.address hsm hp h32 hpl hne hat hst (.inr (by omega)) (by omega) hj
      rw [if_neg (by rw [show (mkEnv pl d.expert xs).expert = false from hex]; decide)] at h3 h4
      refine ⟨c, ?_⟩
      rw [reviewItem_deploy hok hdata s hk, show (d.loaded rx).expert = d.expert from rfl, u8_id (by omega), if_neg (by omega)]
      exact h4
    · refine .inr (.inl ⟨typeLabel s.dep, 0, ?_, ?_⟩)
      · rw [reviewItem_deploy hok hdata s hk, show (d.loaded rx).expert = d.expert from rfl, u8_id (by omega), if_neg (by omega)]
        unfold getItemDeploy
        rw [if_neg (by omega), if_neg (by omega), if_pos rfl]
        rfl
      · unfold typeLabel
        have ht : s.dep.session.typ ≠ 5 := by rw [hd'.1, hfacts.typ]; cases hh <;> omega
        rw [if_neg (fun h => ht h.2), h0.1]
        rcases hkind with h | h | h | h
        · rw [if_pos ⟨h, rfl⟩]; decide
        · rw [if_neg (by rw [h]; decide), if_pos ⟨h, rfl⟩]; decide
        · rw [if_neg (by rw [h]; decide), if_neg (by rw [h]; decide), if_pos ⟨h, rfl⟩]; decide
        · exact absurd h h0.2

/-- **C59 fails** in normal mode for delegations: a contract other than that of the auction can be called, and the lines are the same but for the hash. -/
theorem C59_hidden_false (pl : Platform) (hcap : pl.cap ≤ 16384) (d : Dev) (hd : d.Ok pl) (hex : d.expert = false) (path : Bytes)
    (hlen : path.length = 20) (hpath : casperPath path) (x : DeploySpec) (code : Bytes) (fk fee : Nat) (hx : x.Usual code fk fee)
    (addr addr' : Bytes) (un : Bool) (as : List Arg) (haddr : addr.length = 32) (haddr' : addr'.length = 32)
    (delegator validator : PubKey) (hdk : delegator.Ok) (hvk : validator.Ok) (k n : Nat) (hk : k ≤ 64) (hkn : n < 256 ^ k)
    (hperm : as.Perm [⟨b!"delegator", delegator.encode, .publicKey⟩, ⟨b!"validator", validator.encode, .publicKey⟩,
      ⟨b!"amount", UInt8.ofNat k :: le k n, .u512⟩])
    (ap : List Bytes) (hap : ap.length < 2 ^ 32) (cs cs' : List Bytes) (last last' : Bytes)
    (hcs : cs.flatten ++ last = 0 :: { x with session := .byHash addr (if un then b!"undelegate" else b!"delegate") as }.tx pl.blake ap)
    (hcs' : cs'.flatten ++ last' = 0 :: { x with session := .byHash addr' (if un then b!"undelegate" else b!"delegate") as }.tx pl.blake ap)
    (hfit : (cs.flatten ++ last).length ≤ pl.cap) (hfit' : (cs'.flatten ++ last').length ≤ pl.cap) :
    ∃ d1 d2 hash hash' lines,
      run pl d (upload 2 path cs last) = (d1, List.replicate (cs.length + 1) (.reply [] 0x9000) ++ [.pending]) ∧
      run pl d (upload 2 path cs' last') = (d2, List.replicate (cs'.length + 1) (.reply [] 0x9000) ++ [.pending]) ∧
      Displays pl d1 ((b!"Txn hash", hash) :: lines) ∧ Displays pl d2 ((b!"Txn hash", hash') :: lines) := by
  obtain ⟨d1, t1, -, a1, a2, -⟩ := C15_delegation pl hcap d hd path hlen hpath { x with session := .byHash addr (if un then b!"undelegate" else b!"delegate") as } code fk fee ⟨⟨hx.1.1, hx.1.2, hx.1.3, hx.1.4, hx.1.5⟩, hx.2, hx.3, hx.4, hx.5, hx.6⟩ true addr none un as rfl haddr (by simp)
    delegator validator hdk hvk k n hk hkn hperm ap hap cs last hcs hfit [] (by simp [hex])
  obtain ⟨d2, t2, -, b1, b2, -⟩ := C15_delegation pl hcap d hd path hlen hpath { x with session := .byHash addr' (if un then b!"undelegate" else b!"delegate") as } code fk fee ⟨⟨hx.1.1, hx.1.2, hx.1.3, hx.1.4, hx.1.5⟩, hx.2, hx.3, hx.4, hx.5, hx.6⟩ true addr' none un as rfl haddr' (by simp)
    delegator validator hdk hvk k n hk hkn hperm ap hap cs' last' hcs' hfit' [] (by simp [hex])
  rw [hex] at a2 b2
  exact ⟨d1, d2, _, _, _, a1, b1, a2, b2⟩

/-- The hypotheses can be met: the sample delegation, and the same one of another contract. -/
example : ∃ d1 d2 hash hash' lines,
    run samplePl (Dev.init samplePl) (upload 2 (samplePath 0) [] (0 :: sampleDelegate.tx Blake.H [])) = (d1, [.reply [] 0x9000, .pending]) ∧
    run samplePl (Dev.init samplePl) (upload 2 (samplePath 0) []
      (0 :: { sampleDelegate with session := .byHash (List.replicate 32 0x66) b!"delegate" sampleDelegate.session.args }.tx Blake.H [])) =
      (d2, [.reply [] 0x9000, .pending]) ∧
    Displays samplePl d1 ((b!"Txn hash", hash) :: lines) ∧ Displays samplePl d2 ((b!"Txn hash", hash') :: lines) :=
  C59_hidden_false samplePl (by decide) (Dev.init samplePl) (.init _) rfl (samplePath 0) rfl (by decide)
    sampleDelegate [] 4 100000000 ⟨⟨rfl, by decide, by decide, by decide, sampleDeploy_ok.deps⟩, by decide, by decide, rfl, by decide, by decide⟩
    (List.replicate 32 0x93) (List.replicate 32 0x66) false sampleDelegate.session.args List.length_replicate List.length_replicate
    sampleAccount (.ed25519 (List.replicate 32 0x44)) rfl rfl 5 500000000000 (by decide) (by decide)
    (List.Perm.refl _) [] (by decide) [] [] _ _ rfl rfl (by decide +kernel) (by decide +kernel)

/-- A call with a version. -/
def sampleStored : DeploySpec := { sampleDeploy with
  session := .versionedByName b!"counter" (some 7) b!"increase" [⟨b!"by", le 4 1, .u32⟩] }

/-- The hypotheses of `C59_contract_partial` can be met: calls and delegations in normal mode. -/
example :
    (run samplePl (Dev.init samplePl) (sampleUpload (0 :: sampleStored.tx Blake.H []))).2.getLast? = some .pending ∧
    sampleStored.session.Sized ∧ sampleStored.session.VersionOk ∧ sampleStored.session.Plain ∧ GoodTypes sampleStored.session.args ∧
    sampleStored.session.address Blake.H = [(b!"Execution", b!"by-name-versioned"), (b!"Name", b!"counter")] ∧
    (∃ c, reviewItem samplePl (run samplePl (Dev.init samplePl) (sampleUpload (0 :: sampleStored.tx Blake.H []))).1 .tx 5 0 =
      .ok (b!"Execution", b!"by-name-versioned") c) ∧
    (∃ c, reviewItem samplePl (run samplePl (Dev.init samplePl) (sampleUpload (0 :: sampleStored.tx Blake.H []))).1 .tx 6 0 =
      .ok (b!"Name", b!"counter") c) :=
  ⟨by decide +kernel, trivial, by intro n h; cases h; decide, ⟨by decide, by decide⟩, by unfold GoodTypes; decide +kernel, rfl,
    Res.val_ok.1 (by decide +kernel), Res.val_ok.1 (by decide +kernel)⟩

/-- In expert mode. -/
example :
    let d := run samplePl { Dev.init samplePl with expert := true } (sampleUpload (0 :: sampleStored.tx Blake.H []))
    d.2.getLast? = some .pending ∧
    (∃ c, reviewItem samplePl d.1 .tx 9 0 = .ok (b!"Execution", b!"by-name-versioned") c) ∧ (∃ c, reviewItem samplePl d.1 .tx 10 0 = .ok (b!"Name", b!"counter") c) ∧
    (∃ c, reviewItem samplePl d.1 .tx 11 0 = .ok (b!"Version", b!"7") c) ∧ (∃ c, reviewItem samplePl d.1 .tx 12 0 = .ok (b!"Entry-point", b!"increase") c) :=
  ⟨by decide +kernel, Res.val_ok.1 (by decide +kernel), Res.val_ok.1 (by decide +kernel), Res.val_ok.1 (by decide +kernel), Res.val_ok.1 (by decide +kernel)⟩

end Casper
