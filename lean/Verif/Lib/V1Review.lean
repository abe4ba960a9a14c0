import Verif.Lib.V1Only
/-
From the parser to the device: what uploading a well-formed version 1 transaction leads to.
-/
namespace Casper
open M

/-- Uploading an accepted transaction opens a review showing exactly its items; approving signs the payload's hash. -/
theorem upload_screens (pl : Platform) (hcap : pl.cap ≤ 16384) (d : Dev) (hd : d.Ok pl) (path : Bytes)
    (hlen : path.length = 20) (hpath : casperPath path) (p : TxPayload) (ap : List Bytes) (cs : List Bytes) (last : Bytes)
    (hcs : cs.flatten ++ last = 1 :: p.tx pl.blake ap) (hfit : (cs.flatten ++ last).length ≤ pl.cap) {s : VS}
    (hacc : V1Accepted (mkEnv pl d.expert (p.tx pl.blake ap)) s)
    (hsv : s.v = p.result pl.blake ap (mkEnv pl d.expert (p.tx pl.blake ap))) {items : List (Bytes × Bytes)}
    (hnum : s.v.numItems = items.length) (hn : items.length ≤ 128)
    (hitems : ∀ i kv, items[i]? = some kv → ∀ o, ∃ c, getItemV1 (mkEnv pl d.expert (p.tx pl.blake ap)) s.v i o = .ok kv c) :
    ∃ d', run pl d (upload 2 path cs last) = (d', List.replicate (cs.length + 1) (.reply [] 0x9000) ++ [.pending]) ∧
      Displays pl d' items ∧
      (step pl d' .approve).2 = signatureReply pl path (pl.sha256 (pl.blake p.encode)) := by
  obtain ⟨d0, h1, h2, h3, h4, h5⟩ := upload_v1 pl (by omega) d hd path hlen hpath cs last _ hcs hfit hacc
  have hH : (pl.blake p.encode).length = 32 := pl.blake.len _
  refine ⟨_, h5, ?_, ?_⟩
  · intro o
    refine ⟨by rw [reviewCount_v1]; exact congrArg (Res.ok · o) hnum, fun i kv hi => ?_⟩
    have hlt := (List.getElem?_eq_some_iff.1 hi).1
    have hu : u8 i = i := u8_id (by omega)
    rw [reviewItem_v1 h1 h2, hu, if_neg (by rw [hnum]; omega), h3]
    exact hitems i kv hi o
  · have hat : At (p.tx pl.blake ap) 0 (p.tx pl.blake ap) := ⟨[], [], by simp, rfl⟩
    obtain ⟨a, c, hb, hla⟩ := (tx_layout hH hat).hash
    have hv := result_view (p := p) (ap := ap) (e := mkEnv pl d.expert (p.tx pl.blake ap)) hH
    rw [approve_v1 h1 (a := a) (c := c) (by rw [h2, ← hb]) hH (by
      rw [hsv]
      exact (congrArg₂ (· + ·) hv.size hv.fo0).trans hla.symm), h4]

/-- The device after an accepted upload, and what approving signs. -/
theorem upload_accepted (pl : Platform) (hcap : pl.cap ≤ 16384) (d : Dev) (hd : d.Ok pl) (path : Bytes)
    (hlen : path.length = 20) (hpath : casperPath path) (p : TxPayload) (ap : List Bytes) (cs : List Bytes) (last : Bytes)
    (hcs : cs.flatten ++ last = 1 :: p.tx pl.blake ap) (hfit : (cs.flatten ++ last).length ≤ pl.cap) {s : VS}
    (hacc : V1Accepted (mkEnv pl d.expert (p.tx pl.blake ap)) s)
    (hsv : s.v = p.result pl.blake ap (mkEnv pl d.expert (p.tx pl.blake ap))) :
    ∃ d0 : Dev, d0.Ok pl ∧ d0.data = 1 :: p.tx pl.blake ap ∧ d0.expert = d.expert ∧
      run pl d (upload 2 path cs last) = ({ d0.tookV1 s with review := some .tx },
        List.replicate (cs.length + 1) (.reply [] 0x9000) ++ [.pending]) ∧
      (step pl { d0.tookV1 s with review := some .tx } .approve).2 = signatureReply pl path (pl.sha256 (pl.blake p.encode)) := by
  obtain ⟨d0, h1, h2, h3, h4, h5⟩ := upload_v1 pl (by omega) d hd path hlen hpath cs last _ hcs hfit hacc
  have hH : (pl.blake p.encode).length = 32 := pl.blake.len _
  refine ⟨d0, h1, h2, h3, h5, ?_⟩
  have hat : At (p.tx pl.blake ap) 0 (p.tx pl.blake ap) := ⟨[], [], by simp, rfl⟩
  obtain ⟨a, c, hb, hla⟩ := (tx_layout hH hat).hash
  have hv := result_view (p := p) (ap := ap) (e := mkEnv pl d.expert (p.tx pl.blake ap)) hH
  rw [approve_v1 h1 (a := a) (c := c) (by rw [h2, ← hb]) hH (by
    rw [hsv]
    exact (congrArg₂ (· + ·) hv.size hv.fo0).trans hla.symm), h4]

/-! ### Acceptance of well-formed transactions -/

theorem checkSanity_any {e : Env} {v : V1} {o o' : Nat} (h : checkSanity e v o = .ok () o') (s : Nat) :
    ∃ s', checkSanity e v s = .ok () s' := by
  unfold checkSanity at h ⊢
  split at h
  · simp at h
  rename_i hc
  rw [if_neg hc]
  cases hr : requiredArgs v.epType with
  | nil => exact ⟨s, rfl⟩
  | cons r rs =>
    rw [hr] at h
    obtain ⟨name, big⟩ := r
    refine ⟨o', ?_⟩
    rw [← h]
    rfl

/-- A well-formed transaction that is parsed is read as `readV1_at` says, and passed the checks. -/
theorem readV1_tx {e : Env} {p : TxPayload} {ap : List Bytes} {s : VS} (h : readV1 e ⟨0, {}⟩ = .ok () s) (hs : Small e)
    (hp : p.Ok) (hap : ∀ x ∈ ap, ApprovalOk x) (hbuf : e.buf = p.tx e.blake ap) :
    s.v = p.result e.blake ap e ∧ ∃ o o', checkSanity e (p.result e.blake ap e) o = .ok () o' := by
  have hH : (e.blake p.encode).length = 32 := e.blake.len _
  have hat : At e.buf 0 (p.tx e.blake ap) := ⟨[], [], by rw [hbuf]; simp, rfl⟩
  by_cases hc : ∀ o, (checkSanity e (p.view e (p.start e.blake ap)) o).Bad
  · have := readV1_bad hs hp hH hat hc
    rw [h] at this
    exact this.elim
  · rw [Classical.not_forall] at hc
    obtain ⟨o, ho⟩ := hc
    have ⟨o', ho'⟩ : ∃ o', checkSanity e (p.view e (p.start e.blake ap)) o = .ok () o' := by
      cases hr : checkSanity e (p.view e (p.start e.blake ap)) o with
      | ok a t => exact ⟨t, rfl⟩
      | err x t => rw [hr] at ho; exact (ho trivial).elim
      | fault f => rw [hr] at ho; exact (ho trivial).elim
    have hr := readV1_at hs hp hH hap hat (checkSanity_any ho')
    rw [h] at hr
    simp only [Res.ok.injEq, true_and] at hr
    refine ⟨by rw [hr], o, o', ?_⟩
    rw [← ho']
    rfl

theorem V1Accepted.of_tx {e : Env} {p : TxPayload} {ap : List Bytes} {s : VS} (h : V1Accepted e s) (hs : Small e)
    (hp : p.Ok) (hap : ∀ x ∈ ap, ApprovalOk x) (hbuf : e.buf = p.tx e.blake ap) :
    s.v = p.result e.blake ap e ∧ ∃ o o', checkSanity e (p.result e.blake ap e) o = .ok () o' := readV1_tx h.parse hs hp hap hbuf

/-- A review opened by a last chunk that completes a well-formed transaction. -/
theorem pending_tx {pl : Platform} (hcap : pl.cap ≤ 16384) {d d' : Dev} (hd : d.Ok pl) {rx : Bytes} {pin : Bool}
    (hins : rx.getD 1 0 = 2) {p : TxPayload} (hp : p.Ok) {ap : List Bytes} (hap : ∀ x ∈ ap, ApprovalOk x)
    (hx : d.data ++ rx.drop 5 = 1 :: p.tx pl.blake ap) (h : step pl d (.apdu rx pin) = (d', .pending)) :
    ∃ s, V1Accepted (mkEnv pl d.expert (p.tx pl.blake ap)) s ∧
      Small (mkEnv pl d.expert (p.tx pl.blake ap)) ∧ (d.loaded rx).Ok pl ∧ (d.loaded rx).data = 1 :: p.tx pl.blake ap ∧
      d' = { (d.loaded rx).tookV1 s with review := some .tx } ∧
      s.v = p.result pl.blake ap (mkEnv pl d.expert (p.tx pl.blake ap)) ∧
      ∃ o o', checkSanity (mkEnv pl d.expert (p.tx pl.blake ap)) (p.result pl.blake ap (mkEnv pl d.expert (p.tx pl.blake ap))) o = .ok () o' := by
  obtain ⟨hok, hdata, hcase⟩ := sign_pending (by omega) hd hins h
  rw [hx] at hcase hdata
  rcases hcase with ⟨ys, s, h1, -, -⟩ | ⟨ys, s, h1, h2, rfl⟩
  · simp at h1
  simp only [List.cons.injEq, true_and] at h1
  subst h1
  have hs : Small (mkEnv pl d.expert (p.tx pl.blake ap)) := by
    have := hok.data_length; rw [hdata] at this; have := hok.2
    unfold Small mkEnv; simp only [List.length_cons] at this ⊢; simp_all; omega
  exact ⟨s, h2, hs, hok, hdata, rfl, h2.of_tx hs hp hap rfl⟩

/-! ### Required arguments -/

theorem requiredArgs_eq (t : Nat) (ht : t ≤ 12) : requiredArgs t = opRequired t := by
  have : ∀ t : Fin 13, requiredArgs t.val = opRequired t.val := by decide
  exact this ⟨t, by omega⟩

theorem checkRequired_only {e : Env} {as : List Arg} {off : Nat} (hf : Fits e) (hok : ∀ a ∈ as, a.Ok) (hn : noNul as)
    (h : At e.buf off (encodeArgs as)) {rs : List (Bytes × Bool)} {s c : Nat}
    (hc : checkRequired e off as.length rs s = .ok () c) :
    ∀ r ∈ rs, ∃ a, argNamed as r.1 = some a ∧ (r.2 = true → a.ty = .u512) := by
  induction rs generalizing s with
  | nil => simp
  | cons r rs ih =>
    obtain ⟨name, big⟩ := r
    unfold checkRequired at hc
    simp only [bind_eq_ok, set_run, Res.ok.injEq] at hc
    obtain ⟨_, _, ⟨-, rfl⟩, ⟨len, t⟩, o, h1, _, _, h2, h3⟩ := hc
    rw [require_eq_ok] at h2
    obtain ⟨h2, rfl⟩ := h2
    intro r hr
    rcases List.mem_cons.1 hr with rfl | hr
    · cases ha : argNamed as name with
      | none => rw [getData_absent hf hok hn ha h] at h1; simp at h1
      | some a =>
        refine ⟨a, rfl, fun hb => ?_⟩
        obtain ⟨o', h4, -⟩ := getData_find hf hok hn ha h
        rw [h4] at h1
        simp only [Res.ok.injEq, Prod.mk.injEq] at h1
        have hb : big = true := hb
        rw [hb] at h2
        have h5 : a.ty.tag = 8 := by rw [h1.1.2]; simpa using h2
        cases ht : a.ty <;> rw [ht] at h5 <;> first | rfl | (simp [CLType.tag] at h5)
    · exact ih h3 r hr

/-- Accepted operations have a native or session target, and their required arguments. -/
theorem sane_op {e : Env} {p : TxPayload} {ap : List Bytes} (hs : Small e) (hbuf : e.buf = p.tx e.blake ap) {t : Nat}
    (he : p.entry = .op t) (hp : p.Ok) {o o' : Nat} (h : checkSanity e (p.result e.blake ap e) o = .ok () o') :
    (p.target = .native ∨ ∃ i rt m, p.target = .session i rt m) ∧
    (p.argsPos < 256 → ∀ as, p.args = .named as → noNul as → 
      ∀ r ∈ opRequired t, ∃ a, argNamed as r.1 = some a ∧ (r.2 = true → a.ty = .u512)) := by
  have hH : (e.blake p.encode).length = 32 := e.blake.len _
  have hat : At e.buf 0 (p.tx e.blake ap) := ⟨[], [], by rw [hbuf]; simp, rfl⟩
  have hlay := tx_layout hH hat
  have hep : (p.result e.blake ap e).epType = t := by rw [result_ep, he]; rfl
  have hok := hp.entry
  rw [he] at hok
  unfold checkSanity at h
  split at h
  · simp at h
  rename_i hc
  rw [hep, result_target hH] at hc
  rw [hep] at h
  refine ⟨?_, fun hpos as ha hn => ?_⟩
  · have h1 := hok.2
    cases ht : p.target <;> rw [ht] at hc <;> simp [V1Target.view, h1] at hc ⊢
  · rw [result_argsOff hH, u8_id hpos, result_numArgs ha, requiredArgs_eq t hok.1] at h
    have hargs := hp.args
    rw [ha] at hargs
    exact checkRequired_only hs.fits hargs hn (hlay.args ha) h

/-! ### Native operations -/

theorem native_sane {e : Env} {p : TxPayload} {t : Nat} {as : List Arg} {ap : List Bytes} (hs : Small e) (hok : p.Ok)
    (hbuf : e.buf = p.tx e.blake ap) (he : p.entry = .op t) (hkn : t ≤ 12) (htg : p.target = .native) (ha : p.args = .named as)
    (hn : noNul as) (hpos : p.argsPos < 256)
    (hr : ∀ r ∈ opRequired t, ∃ a, argNamed as r.1 = some a ∧ (r.2 = true → a.ty = .u512)) (o : Nat) :
    ∃ o', checkSanity e (p.view e (p.start e.blake ap)) o = .ok () o' := by
  have hH : (e.blake p.encode).length = 32 := e.blake.len _
  have hat : At e.buf 0 (p.tx e.blake ap) := ⟨[], [], by rw [hbuf]; simp, rfl⟩
  have hlay := tx_layout hH hat
  have e1 : (p.view e (p.start e.blake ap)).epType = t := by
    have := result_ep (p := p) (H := e.blake) (ap := ap) (e := e); rw [he] at this; exact this
  have e2 : (p.view e (p.start e.blake ap)).target.typ = 0 := by
    have := result_target (p := p) (ap := ap) (e := e) hH; rw [htg] at this
    exact congrArg (fun x => x.typ) this
  have e3 : (p.view e (p.start e.blake ap)).argsOff = p.argsPos := by
    have := result_argsOff (p := p) (ap := ap) (e := e) hH; rw [u8_id hpos] at this; exact this
  have e4 : (p.view e (p.start e.blake ap)).numArgs = as.length := result_numArgs (H := e.blake) (ap := ap) (e := e) ha
  unfold checkSanity
  rw [if_neg (by rw [e2]; simp), e1, e3, e4, requiredArgs_eq t hkn]
  refine checkRequired_run hs.fits ?_ hn (hlay.args ha) hr o
  have := hok.args; rw [ha] at this; exact this

/-- A transaction that passes the parser's checks and has no items is accepted. -/
theorem accepted_empty {e : Env} {p : TxPayload} {ap : List Bytes} (hs : Small e) (hok : p.Ok) (hap : ∀ x ∈ ap, ApprovalOk x)
    (hbuf : e.buf = p.tx e.blake ap) (hsan : ∀ o, ∃ o', checkSanity e (p.view e (p.start e.blake ap)) o = .ok () o')
    (hn : (p.result e.blake ap e).numItems = 0) : ∃ s, V1Accepted e s ∧ s.v = p.result e.blake ap e := by
  have hH : (e.blake p.encode).length = 32 := e.blake.len _
  have hat : At e.buf 0 (p.tx e.blake ap) := ⟨[], [], by rw [hbuf]; simp, rfl⟩
  have hlay := tx_layout hH hat
  refine ⟨⟨(p.tx e.blake ap).length, p.result e.blake ap e⟩, ⟨readV1_at hs hok hH hap hat hsan, ?_, fun i hi => ?_⟩, rfl⟩
  · have hv := result_view (p := p) (ap := ap) (e := e) hH
    unfold validateV1
    dsimp only
    rw [hv.size, hv.fo0, hv.fo1]
    refine exThen (slice_at hlay.hash hH.symm) (exThen (slice_at hlay.payload ?_) ⟨0, ?_⟩)
    · rw [result_pmd, TxPayload.encode_eq, callTable_length]; rfl
    · rw [require_run, if_pos rfl]
  · dsimp only at hi
    rw [hn] at hi
    cases hi

/-- The number of lines of a native operation: a transfer shows two arguments in normal mode, reservations a length and a
hash (and the validator if they are cancelled), the other operations one line for each argument. -/
def opLineCount (expert : Bool) (t n : Nat) : Nat :=
  if t = 2 ∧ expert = false then 2 else if t = 10 then 2 else if t = 11 then 3 else n

theorem opCount_native {e : Env} {p : TxPayload} {t : Nat} {as : List Arg} (ht : 2 ≤ t) (he : p.entry = .op t)
    (htg : p.target = .native) (ha : p.args = .named as) : p.opCount e = opLineCount e.expert t as.length := by
  unfold TxPayload.opCount opLineCount entryItems
  rw [htg, he, ha]
  show 0 + (if t = 2 then (if e.expert = true then as.length else 2) else if t = 1 then 1 else if t = 10 then 2 else
    if t = 11 then 3 else if t = 0 then 0 else as.length) = _
  cases e.expert
  · by_cases h2 : t = 2
    · rw [if_pos h2, if_neg (by decide), if_pos ⟨h2, rfl⟩]
    · rw [if_neg h2, if_neg (by omega), if_neg (show ¬ (t = 2 ∧ false = false) by simp [h2]), if_neg (show ¬ t = 0 by omega)]; omega
  · by_cases h2 : t = 2
    · rw [if_pos h2, if_pos rfl, if_neg (by simp), if_neg (by omega), if_neg (by omega)]; omega
    · rw [if_neg h2, if_neg (by omega), if_neg (show ¬ (t = 2 ∧ true = false) by simp), if_neg (show ¬ t = 0 by omega)]; omega

theorem tx_length (H : Bytes → Bytes) (p : TxPayload) (hH : (H p.encode).length = 32) : (p.tx H []).length = p.encode.length + 62 := by
  unfold TxPayload.tx callTable
  simp [tableEntries, hH]
  omega

end Casper
