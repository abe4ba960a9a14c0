import Verif.Lib.V1Show
import Verif.Props.ContentV1
import Verif.Props.AcceptV1
import Verif.Lib.CodeSession

/-!
# Argument names with zero bytes

The app looks for arguments with C string comparison, so up to the first zero byte of their names.  Here the lines of native version 1 operations are those
of the arguments with their names cut there.
-/

namespace Casper

open M

/-- The arguments, names cut at the first zero byte. -/
def cut (as : List Arg) : List Arg := as.map fun a => { a with name := a.name.takeWhile (· != 0) }

theorem cut_length (as : List Arg) : (cut as).length = as.length := by simp [cut]

/-- The argument found among those with cut names is one of the signed ones. -/
theorem cut_find {as : List Arg} {name : Bytes} {a : Arg} (h : argNamed (cut as) name = some a) :
    ∃ pre b post, as = pre ++ b :: post ∧ a = { b with name := name } ∧ cstr b.name = name ∧ ∀ x ∈ pre, cstr x.name ≠ name := by
  unfold argNamed cut at h
  rw [List.find?_map, Option.map_eq_some_iff] at h
  obtain ⟨b, h1, rfl⟩ := h
  rw [List.find?_eq_some_iff_append] at h1
  obtain ⟨h2, pre, post, rfl, h3⟩ := h1
  have h4 : cstr b.name = name := by simpa [cstr] using h2
  exact ⟨pre, b, post, rfl, by rw [← h4]; rfl, h4, by simpa [cstr] using h3⟩

theorem getData_find_cut {e : Env} {name : Bytes} {off : Nat} {as : List Arg} {a : Arg} (hf : Fits e)
    (hok : ∀ x ∈ as, x.Ok) (ha : argNamed (cut as) name = some a)
    (h : At e.buf off (encodeArgs as)) :
    ∃ o, getData e name as.length off = .ok (a.value.length, a.ty.tag) o ∧ At e.buf o (a.value ++ a.ty.encode) := by
  obtain ⟨pre, b, post, rfl, rfl, h1, h2⟩ := cut_find ha
  have := getData_at (k := (pre ++ b :: post).length) hf (fun x hx => hok x (by simp [hx])) (hok b (by simp))
    h2 h1 (by simp) h
  refine ⟨_, this.1, ?_⟩
  rw [At.append]
  refine ⟨this.2, ?_⟩
  have h3 : At e.buf (off + (encodeArgs pre).length) b.encode := by
    have : encodeArgs (pre ++ b :: post) = encodeArgs pre ++ (b.encode ++ encodeArgs post) := by
      clear this h h2 h1 ha hok
      induction pre with
      | nil => rfl
      | cons b pre ih => simp [encodeArgs, ih]
    rw [this, At.append, At.append] at h
    exact h.2.1
  exact (arg_at h3).2.2.2

theorem getData_absent_cut {e : Env} {name : Bytes} {off : Nat} {as : List Arg} (hf : Fits e)
    (hok : ∀ x ∈ as, x.Ok) (ha : argNamed (cut as) name = none)
    (h : At e.buf off (encodeArgs as)) :
    getData e name as.length off = .err 1 (off + (encodeArgs as).length) := by
  have := getData_none (name := name) (k := as.length) hf hok (fun x hx => by
    rw [List.take_length] at hx
    have := (List.find?_eq_none.1 ha) { x with name := cstr x.name } (List.mem_map_of_mem hx)
    simpa using this) (Nat.le_refl _) h
  rwa [List.take_length] at this

theorem show_line_cut {e : Env} {as : List Arg} {off : Nat} (hf : Fits e) (hok : ∀ a ∈ as, a.Ok)
    (h : At e.buf off (encodeArgs as)) {l : ArgLine} {kv : Bytes × Bytes} (hl : l.Shows e.blake (cut as) kv) :
    ∃ c, l.show e as.length off = .ok kv c := by
  unfold ArgLine.show
  cases hl with
  | value h1 h2 h3 =>
    rw [if_neg (by simp [h1])]
    obtain ⟨o, h4, h5⟩ := getData_find_cut hf hok h2 h
    obtain ⟨c, h6⟩ := displayArg_at hf h3 h5
    exact ⟨c, by unfold showArg; rw [bind_run, h4, Res.bind_ok]; dsimp only; rw [bind_run, h6]; rfl⟩
  | motes h1 h2 _ h3 =>
    rw [if_pos h1]
    obtain ⟨o, h4, h5⟩ := getData_find_cut hf hok h2 h
    obtain ⟨c, h6⟩ := displayMotes_at hf h3 h5
    exact ⟨c, by unfold showMotes; rw [bind_run, h4, Res.bind_ok]; dsimp only; rw [bind_run, h6]; rfl⟩

theorem itemTransfer_line_cut {e : Env} {as : List Arg} {off : Nat} (hf : Fits e) (hok : ∀ a ∈ as, a.Ok)
    (h : At e.buf off (encodeArgs as)) {v : V1} (ha : v.numArgs = as.length) {i : Nat} (hb : i < as.length) {l : ArgLine}
    (hl : (opLines e.expert (cut as) 2)[i]? = some l) {kv : Bytes × Bytes} (hshow : ∃ c, l.show e as.length off = .ok kv c) :
    ∃ c, itemTransfer e v i off = .ok kv c := by
  unfold itemTransfer
  refine exThen (get_run _) ?_

  rw [ha, if_neg (by omega)]
  cases hx : e.expert with
  | false =>
    rw [hx] at hl
    rw [if_neg (by decide)]
    match i, hl with
    | 0, hl =>
      simp [opLines] at hl; subst hl
      rw [if_pos rfl]; exact hshow
    | 1, hl =>
      simp [opLines] at hl; subst hl
      rw [if_neg (by decide), if_pos rfl]; exact hshow
    | i + 2, hl => simp [opLines] at hl
  | true =>
    rw [hx] at hl
    rw [if_pos rfl]
    cases hsrc : argNamed (cut as) b!"source" with
    | some a =>
      obtain ⟨o, h1, h2⟩ := getData_find_cut hf hok hsrc h
      refine exThen (t := o) (a := .ok (a.value.length, a.ty.tag)) (by rw [attempt_run, h1]) ?_
      dsimp only
      match i, hl with
      | 0, hl =>
        simp [opLines, hsrc] at hl; subst hl
        rw [if_pos rfl]
        unfold ArgLine.show showArg at hshow
        rw [if_neg (by decide), bind_run, h1] at hshow
        exact hshow
      | 1, hl =>
        simp [opLines, hsrc] at hl; subst hl
        rw [if_neg (by decide)]
        refine exThen (set_run _ _) ?_
        rw [if_pos rfl]; exact hshow
      | 2, hl =>
        simp [opLines, hsrc] at hl; subst hl
        rw [if_neg (by decide)]
        refine exThen (set_run _ _) ?_
        rw [if_neg (by decide), if_pos rfl]; exact hshow
      | 3, hl =>
        simp [opLines, hsrc] at hl; subst hl
        rw [if_neg (by decide)]
        refine exThen (set_run _ _) ?_
        rw [if_neg (by decide), if_neg (by decide), if_pos rfl]; exact hshow
      | i + 4, hl => simp [opLines, hsrc] at hl
    | none =>
      have h1 := getData_absent_cut hf hok hsrc h
      refine exThen (t := off + (encodeArgs as).length) (a := .error 1) (by rw [attempt_run, h1]) ?_
      dsimp only
      refine exThen (set_run _ _) ?_
      rw [if_neg (by decide)]
      match i, hl with
      | 0, hl =>
        simp [opLines, hsrc] at hl; subst hl
        rw [if_pos rfl]; exact hshow
      | 1, hl =>
        simp [opLines, hsrc] at hl; subst hl
        rw [if_neg (by decide), if_pos rfl]; exact hshow
      | 2, hl =>
        simp [opLines, hsrc] at hl; subst hl
        rw [if_neg (by decide), if_neg (by decide), if_pos rfl]; exact hshow
      | i + 3, hl => simp [opLines, hsrc] at hl

theorem itemRedelegate_line_cut {e : Env} {as : List Arg} {off : Nat} (hf : Fits e) (hok : ∀ a ∈ as, a.Ok)
    (h : At e.buf off (encodeArgs as)) {v : V1} (ha : v.numArgs = as.length) {i : Nat} (hb : i < as.length) {l : ArgLine}
    (hl : (opLines e.expert (cut as) 7)[i]? = some l) {kv : Bytes × Bytes} (hshow : ∃ c, l.show e as.length off = .ok kv c)
    (hall : ∀ l ∈ opLines e.expert (cut as) 7, ∃ a, argNamed (cut as) l.name = some a) :
    ∃ c, itemRedelegate e v i off = .ok kv c := by
  obtain ⟨d, hd⟩ := hall ⟨b!"Delegator", b!"delegator", false⟩ (by simp [opLines])
  obtain ⟨w, hw⟩ := hall ⟨b!"Old", b!"validator", false⟩ (by simp [opLines])
  obtain ⟨m, hm⟩ := hall ⟨b!"Amount", b!"amount", true⟩ (by simp [opLines])
  obtain ⟨o1, h1, -⟩ := getData_find_cut hf hok hd h
  obtain ⟨o2, h2, -⟩ := getData_find_cut hf hok hw h
  obtain ⟨o3, h3, -⟩ := getData_find_cut hf hok hm h
  unfold itemRedelegate
  refine exThen (get_run _) ?_
  dsimp only
  rw [ha, if_neg (by omega)]
  refine exThen (a := true) (t := off) (by simp only [bind_run, attempt_run, h1, Res.bind_ok]; rfl) ?_
  refine exThen (a := true) (t := off) (by simp only [bind_run, attempt_run, h2, Res.bind_ok]; rfl) ?_
  refine exThen (a := true) (t := off) (by simp only [bind_run, attempt_run, h3, Res.bind_ok]; rfl) ?_
  match i, hl with
  | 0, hl => simp [opLines] at hl; subst hl; exact hshow
  | 1, hl => simp [opLines] at hl; subst hl; exact hshow
  | 2, hl => simp [opLines] at hl; subst hl; exact hshow
  | 3, hl => simp [opLines] at hl; subst hl; exact hshow
  | i + 4, hl => simp [opLines] at hl

theorem itemBurn_line_cut {e : Env} {as : List Arg} {off : Nat} (hf : Fits e) (hok : ∀ a ∈ as, a.Ok)
    (h : At e.buf off (encodeArgs as)) {v : V1} (ha : v.numArgs = as.length) {i : Nat} (hb : i < as.length) {l : ArgLine}
    (hl : (opLines e.expert (cut as) 12)[i]? = some l) {kv : Bytes × Bytes} (hshow : ∃ c, l.show e as.length off = .ok kv c)
    (hall : ∀ l ∈ opLines e.expert (cut as) 12, ∃ a, argNamed (cut as) l.name = some a) :
    ∃ c, itemBurn e v i off = .ok kv c := by
  obtain ⟨a, hsrc⟩ := hall ⟨b!"Source", b!"source", false⟩ (by simp [opLines])
  obtain ⟨o, h1, -⟩ := getData_find_cut hf hok hsrc h
  unfold itemBurn
  refine exThen (get_run _) ?_

  rw [ha, if_neg (by omega)]
  refine exThen (t := o) (a := .ok (a.value.length, a.ty.tag)) (by rw [attempt_run, h1]) ?_
  dsimp only
  match i, hl with
  | 0, hl =>
    simp [opLines] at hl; subst hl
    rw [if_pos rfl]
    unfold ArgLine.show showArg at hshow
    rw [if_neg (by decide), bind_run, h1] at hshow
    exact hshow
  | 1, hl =>
    simp [opLines] at hl; subst hl
    rw [if_neg (by decide)]
    exact exThen (set_run _ _) hshow
  | i + 2, hl => simp [opLines] at hl

/-- The lines of an operation are shown. -/
theorem itemEntry_op_cut {e : Env} {as : List Arg} {off t : Nat} (hf : Fits e) (hok : ∀ a ∈ as, a.Ok)
    (h : At e.buf off (encodeArgs as)) {v : V1} (ht : v.epType = t) (hop : t ∈ [2, 3, 4, 5, 6, 7, 8, 9, 12])
    (ho : v.argsOff = off) (h16 : off < 65536) (ha : v.numArgs = as.length)
    {lines : List (Bytes × Bytes)}
    (hl : List.Forall₂ (ArgLine.Shows e.blake (cut as)) (opLines e.expert (cut as) t) lines)
    {i : Nat} {kv : Bytes × Bytes} (hi : lines[i]? = some kv) (s : Nat) :
    ∃ c, itemEntry e v i s = .ok kv c := by
  obtain ⟨l, hl1, hl2⟩ := Forall₂_get hl hi
  have hshow := show_line_cut hf hok h hl2
  have hb : i < as.length := by
    have := (List.getElem?_eq_some_iff.1 hl1).1
    have := opLines_le hl
    rw [cut_length] at this
    omega
  unfold itemEntry
  refine exThen (t := off) (by unfold seek; rw [ho, u16_id h16]) ?_
  rw [ht]
  by_cases htab : t ∈ [3, 4, 5, 6, 8, 9]
  · have h1 := argTable_lines htab hl1
    rw [← ht] at h1
    have h2 := itemTable_line (e := e) (off := off) ha hb h1
    simp only [List.mem_cons, List.not_mem_nil, or_false] at htab
    rw [if_neg (by omega), if_neg (by omega), if_neg (by omega), if_neg (by omega), if_neg (by omega), if_neg (by omega),
      if_neg (by omega), h2]
    exact hshow
  have hop' : t = 2 ∨ t = 7 ∨ t = 12 := by
    simp only [List.mem_cons, List.not_mem_nil, or_false, not_or] at htab hop; omega
  have hall : ∀ l ∈ opLines e.expert (cut as) t, ∃ a, argNamed (cut as) l.name = some a := fun l hm =>
    (Forall₂_present hl hm).imp fun _ h => h.1
  rcases hop' with rfl | rfl | rfl
  · rw [if_neg (by decide), if_pos rfl]
    exact itemTransfer_line_cut hf hok h ha hb hl1 hshow
  · rw [if_neg (by decide), if_neg (by decide), if_pos rfl]
    exact itemRedelegate_line_cut hf hok h ha hb hl1 hshow hall
  · rw [if_neg (by decide), if_neg (by decide), if_neg (by decide), if_neg (by decide), if_neg (by decide), if_pos rfl]
    exact itemBurn_line_cut hf hok h ha hb hl1 hshow hall

/-- Further arguments show nothing of themselves. -/
theorem itemEntry_extra_cut {e : Env} {as : List Arg} {off t : Nat} (hf : Fits e) (hok : ∀ a ∈ as, a.Ok)
    (h : At e.buf off (encodeArgs as)) {v : V1} (ht : v.epType = t) (hop : t ∈ [2, 3, 4, 5, 6, 7, 8, 9, 12])
    (ho : v.argsOff = off) (h16 : off < 65536) (ha : v.numArgs = as.length) {lines : List (Bytes × Bytes)}
    (hl : List.Forall₂ (ArgLine.Shows e.blake (cut as)) (opLines e.expert (cut as) t) lines)
    (hslots : t = 3 → as.length ≤ 5 ∨ (argNamed (cut as) b!"reserved_slots").isSome)
    {i : Nat} {kv : Bytes × Bytes} (hi : (opExtra e.expert as.length t lines)[i]? = some kv) (s : Nat) :
    ∃ c, itemEntry e v (lines.length + i) s = .ok kv c := by
  have hll := hl.length_eq
  unfold opExtra at hi
  split at hi
  · simp at hi
  rename_i hne
  have hlt := (List.getElem?_eq_some_iff.1 hi).1
  rw [List.length_replicate] at hlt
  rw [List.getElem?_replicate, if_pos hlt, Option.some.injEq] at hi
  unfold itemEntry
  refine exThen (t := off) (by unfold seek; rw [ho, u16_id h16]) ?_
  rw [ht]
  by_cases htab : t ∈ [3, 4, 5, 6, 8, 9]
  · have h1 : (argTable t)[lines.length + i]? = none := by
      simp only [List.mem_cons, List.not_mem_nil, or_false] at htab
      rw [List.getElem?_eq_none_iff, ← hll]
      rcases htab with rfl | rfl | rfl | rfl | rfl | rfl <;> simp [argTable, opLines]
      · rcases hslots rfl with h5 | h5
        · rw [← hll] at hlt
          simp only [opLines, List.length_append, List.length_cons, List.length_nil] at hlt
          omega
        · rw [h5]; simp
    simp only [List.mem_cons, List.not_mem_nil, or_false] at htab
    rw [if_neg (by omega), if_neg (by omega), if_neg (by omega), if_neg (by omega), if_neg (by omega), if_neg (by omega),
      if_neg (by omega)]
    unfold itemTable
    rw [if_neg (by omega), ht, h1, ← hi, if_neg (by omega)]
    exact ⟨off, rfl⟩
  have hop' : t = 2 ∨ t = 7 ∨ t = 12 := by
    simp only [List.mem_cons, List.not_mem_nil, or_false, not_or] at htab hop; omega
  have hall : ∀ l ∈ opLines e.expert (cut as) t, ∃ a, argNamed (cut as) l.name = some a := fun l hm =>
    (Forall₂_present hl hm).imp fun _ h => h.1
  rcases hop' with rfl | rfl | rfl
  · rw [if_neg (by decide), if_pos rfl]
    rw [if_neg (by decide)] at hi
    have hx : e.expert = true := by simpa using hne
    unfold itemTransfer
    refine exThen (get_run _) ?_
    rw [ha, if_neg (by omega), if_pos hx]
    rw [hx] at hll
    cases hsrc : argNamed (cut as) b!"source" with
    | some a =>
      obtain ⟨o, h1, h2⟩ := getData_find_cut hf hok hsrc h
      have h4 : lines.length = 4 := by rw [← hll]; simp [opLines, hsrc]
      refine exThen (t := o) (a := .ok (a.value.length, a.ty.tag)) (by rw [attempt_run, h1]) ?_
      dsimp only
      rw [if_neg (by omega)]
      refine exThen (set_run _ _) ?_
      rw [if_neg (by omega), if_neg (by omega), if_neg (by omega), ← hi]
      exact ⟨off, rfl⟩
    | none =>
      have h1 := getData_absent_cut hf hok hsrc h
      have h4 : lines.length = 3 := by rw [← hll]; simp [opLines, hsrc]
      refine exThen (t := off + (encodeArgs as).length) (a := .error 1) (by rw [attempt_run, h1]) ?_
      dsimp only
      refine exThen (set_run _ _) ?_
      rw [if_neg (by decide), if_neg (by omega), if_neg (by omega), if_neg (by omega), ← hi]
      exact ⟨off, rfl⟩
  · rw [if_neg (by decide), if_neg (by decide), if_pos rfl]
    rw [if_neg (by decide)] at hi
    obtain ⟨d, hd⟩ := hall ⟨b!"Delegator", b!"delegator", false⟩ (by simp [opLines])
    obtain ⟨w, hw⟩ := hall ⟨b!"Old", b!"validator", false⟩ (by simp [opLines])
    obtain ⟨m, hm⟩ := hall ⟨b!"Amount", b!"amount", true⟩ (by simp [opLines])
    obtain ⟨o1, h1, -⟩ := getData_find_cut hf hok hd h
    obtain ⟨o2, h2, -⟩ := getData_find_cut hf hok hw h
    obtain ⟨o3, h3, -⟩ := getData_find_cut hf hok hm h
    have h4 : lines.length = 4 := by rw [← hll]; simp [opLines]
    unfold itemRedelegate
    refine exThen (get_run _) ?_
    dsimp only
    rw [ha, if_neg (by omega)]
    refine exThen (a := true) (t := off) (by simp only [bind_run, attempt_run, h1, Res.bind_ok]; rfl) ?_
    refine exThen (a := true) (t := off) (by simp only [bind_run, attempt_run, h2, Res.bind_ok]; rfl) ?_
    refine exThen (a := true) (t := off) (by simp only [bind_run, attempt_run, h3, Res.bind_ok]; rfl) ?_
    obtain ⟨j, hj⟩ : ∃ j, lines.length + i = j + 4 := ⟨i, by omega⟩
    rw [hj, ← hi]
    exact ⟨off, by simp⟩
  · rw [if_neg (by decide), if_neg (by decide), if_neg (by decide), if_neg (by decide), if_neg (by decide), if_pos rfl]
    rw [if_pos rfl] at hi
    obtain ⟨a, hsrc⟩ := hall ⟨b!"Source", b!"source", false⟩ (by simp [opLines])
    obtain ⟨o, h1, -⟩ := getData_find_cut hf hok hsrc h
    have h4 : lines.length = 2 := by rw [← hll]; simp [opLines]
    obtain ⟨l, hl1, hl2⟩ := Forall₂_get hl (i := 1) (y := lines[1]'(by omega)) (List.getElem?_eq_getElem _)
    simp only [opLines, List.getElem?_cons_succ, List.getElem?_cons_zero, Option.some.injEq] at hl1
    subst hl1
    have hshow := show_line_cut hf hok h hl2
    have hkv : lines[1]'(by omega) = kv := by
      rw [← hi, List.getD_eq_getElem?_getD, List.getElem?_eq_getElem (by omega)]; rfl
    rw [hkv] at hshow
    unfold itemBurn
    refine exThen (get_run _) ?_
    rw [ha, if_neg (by omega)]
    refine exThen (t := o) (a := .ok (a.value.length, a.ty.tag)) (by rw [attempt_run, h1]) ?_
    dsimp only
    rw [if_neg (by omega)]
    exact exThen (set_run _ _) hshow

/-- The lines of a native operation. -/
theorem seen_native_cut {e : Env} {B pos n : Nat} {c : Content} {v : V1} (hs : Small e) (h : ContentSeen e B pos c n v) {t : Nat} {as : List Arg}
    (he : c.entry = .op t) (hkn : t ∈ [2, 3, 4, 5, 6, 7, 8, 9, 12]) (htg : c.target = .native) (ha : c.args = .named as) (hok : ∀ a ∈ as, a.Ok)
    (hpos : pos < 256) (hslots : t = 3 → as.length ≤ 5 ∨ (argNamed (cut as) b!"reserved_slots").isSome)
    {lines : List (Bytes × Bytes)} (hl : List.Forall₂ (ArgLine.Shows e.blake (cut as)) (opLines e.expert (cut as) t) lines) :
    c.target.items e.expert + entryItems e c.entry.tag v.numArgs = (lines ++ opExtra e.expert as.length t lines).length ∧
    (lines ++ opExtra e.expert as.length t lines).length ≤ max as.length 2 ∧ v.epType ≠ 0 ∧
    ∀ {i kv}, (lines ++ opExtra e.expert as.length t lines)[i]? = some kv → ∀ o, ∃ o', itemEntry e v i o = .ok kv o' := by
  obtain ⟨-, n2, -, -, n5⟩ := h.named as ha
  have hep : v.epType = t := by rw [h.ep, he]; rfl
  have hoff : v.argsOff = pos := by rw [h.argsOff, u8_id hpos]
  have hll := hl.length_eq
  have hle := opLines_le hl
  rw [cut_length] at hle
  have hkn' := hkn
  simp only [List.mem_cons, List.not_mem_nil, or_false] at hkn'
  have hcount : c.target.items e.expert + entryItems e c.entry.tag v.numArgs = (lines ++ opExtra e.expert as.length t lines).length := by
    rw [htg, he, n2, List.length_append]
    show 0 + entryItems e t as.length = _
    unfold opExtra entryItems
    by_cases h2 : t = 2 ∧ e.expert = false
    · rw [if_pos h2, if_pos h2.1, if_neg (by simp [h2.2]), ← hll, h2.1, h2.2]; simp [opLines]
    · rw [if_neg h2, List.length_replicate]
      have : lines.length + (as.length - lines.length) = as.length := by omega
      rw [this]
      by_cases h3 : t = 2
      · rw [if_pos h3, if_pos (by cases hx : e.expert <;> simp_all)]; omega
      · rw [if_neg h3, if_neg (by omega), if_neg (by omega), if_neg (by omega), if_neg (by omega)]; omega
  refine ⟨hcount, ?_, by omega, fun {i kv} hi o => ?_⟩
  · rw [List.length_append]
    unfold opExtra
    split
    · simp; omega
    · rw [List.length_replicate]; omega
  · rcases Nat.lt_or_ge i lines.length with hi2 | hi2
    · rw [List.getElem?_append_left hi2] at hi
      exact itemEntry_op_cut hs.fits hok n5 hep hkn hoff (by omega) n2 hl hi o
    · rw [List.getElem?_append_right hi2] at hi
      rw [show i = lines.length + (i - lines.length) by omega]
      exact itemEntry_extra_cut hs.fits hok n5 hep hkn hoff (by omega) n2 hl hslots hi o

/-- **C83, native operations, all names.** The review of accepted version 1 data whose content is a native operation consists of exactly the lines of this content:
hash of the payload, title of the operation, chain name (up to a zero byte), initiator; in expert mode timestamp, time to live, pricing mode; one line per
argument of the operation, the first one in the signed argument list whose name, cut at the first zero byte, is that of the line; in expert mode the number
of approvals.  The numbers describing the layout do not matter.
Missing: arguments at position 256 or later, names of more than 300 bytes, more than 119 arguments, reservations (C48), payments of
more than 19 digits in expert mode, and operations with an argument that cannot be shown as its line demands. -/
theorem C83_cut_partial (pl : Platform) (hcap : pl.cap ≤ 16384) (d d' : Dev) (hd : d.Ok pl) (rx : Bytes)
    (pin : Bool) (hins : rx.getD 1 0 = 2) (xs : Bytes) (hx : d.data ++ rx.drop 5 = 1 :: xs) (h : step pl d (.apdu rx pin) = (d', .pending))
    (c : Content) (pos n : Nat) (payload : Bytes) (hc : Says pl.blake c pos n payload xs) (t : Nat) (as : List Arg)
    (he : c.entry = .op t) (hkn : t ∈ [2, 3, 4, 5, 6, 7, 8, 9, 12]) (htg : c.target = .native) (ha : c.args = .named as) (hok : ∀ a ∈ as, a.Ok)
    (hpos : pos < 256) (hfew : as.length ≤ 119) (hslots : t = 3 → as.length ≤ 5 ∨ (argNamed (cut as) b!"reserved_slots").isSome)
    (hpr : d.expert = true → c.pricing.Small)
    (lines : List (Bytes × Bytes)) (hl : List.Forall₂ (ArgLine.Shows pl.blake (cut as)) (opLines d.expert (cut as) t) lines) :
    ∃ time ttl, (d.expert = true → pl.fmtTime (c.time / 1000) = some time ∧ duration ttl = c.ttl / 1000) ∧
      Displays pl d' (c.screens pl.blake payload d.expert n time ttl (lines ++ opExtra d.expert as.length t lines)) := by
  obtain ⟨s, B, acc, hs, hok', hdata, rfl, g1, g2, g3, g4, -⟩ := pending_says hcap hd hins hx h hc (by
    intro as' h' a hm; rw [ha] at h'; cases h'; exact ⟨(hok a hm).aligned, (hok a hm).supported⟩)
  obtain ⟨k1, k2, k3, k4⟩ := seen_native_cut hs g1 he hkn htg ha hok hpos hslots (lines := lines) hl
  have hch : c.chain.length < 256 := by
    obtain ⟨tb, aps, miss, rest, p, -, h2, rfl, -⟩ := hc
    obtain ⟨_, _, _, _, -, -, -, -, -, -, -, h⟩ := h2
    rw [pfx_length] at h
    omega
  obtain ⟨time, ttl, t1, t2, t3⟩ := seen_screens hs g1 g3 (payload := payload) g2 hch hpr g4 acc.items k1 (by omega) (fun _ _ => k3) k4
  refine ⟨time, ttl, t1, displays_of_items hok' hdata t2 ?_ t3⟩
  have hpl : (c.pricing.lines pl.blake).length = 2 := by cases c.pricing <;> rfl
  have k2 : (lines ++ opExtra d.expert as.length t lines).length ≤ max as.length 2 := k2
  show (c.screens pl.blake payload d.expert n time ttl (lines ++ opExtra d.expert as.length t lines)).length ≤ 128
  unfold Content.screens
  rw [List.length_append, List.length_append, List.length_append]
  generalize lines ++ opExtra d.expert as.length t lines = L at k2 ⊢
  cases d.expert <;> simp [hpl] <;> omega

theorem checkRequired_run_cut {e : Env} {as : List Arg} {off : Nat} (hf : Fits e) (hok : ∀ a ∈ as, a.Ok)
    (h : At e.buf off (encodeArgs as)) {rs : List (Bytes × Bool)}
    (hr : ∀ r ∈ rs, ∃ a, argNamed (cut as) r.1 = some a ∧ (r.2 = true → a.ty = .u512)) (s : Nat) :
    ∃ c, checkRequired e off as.length rs s = .ok () c := by
  induction rs generalizing s with
  | nil => exact ⟨s, rfl⟩
  | cons r rs ih =>
    obtain ⟨name, big⟩ := r
    obtain ⟨a, h1, h2⟩ := hr (name, big) (by simp)
    obtain ⟨o, h3, -⟩ := getData_find_cut hf hok h1 h
    unfold checkRequired
    refine exThen (set_run _ _) (exThen h3 ?_)
    dsimp only
    have hc : big = false ∨ a.ty.tag = 8 := by
      cases big with
      | false => exact .inl rfl
      | true => exact .inr (by rw [h2 rfl]; rfl)
    exact exThen (by rw [require_run, if_pos hc]) (ih (fun r hm => hr r (by simp [hm])) o)

theorem checkRequired_only_cut {e : Env} {as : List Arg} {off : Nat} (hf : Fits e) (hok : ∀ a ∈ as, a.Ok)
    (h : At e.buf off (encodeArgs as)) {rs : List (Bytes × Bool)} {s c : Nat}
    (hc : checkRequired e off as.length rs s = .ok () c) :
    ∀ r ∈ rs, ∃ a, argNamed (cut as) r.1 = some a ∧ (r.2 = true → a.ty = .u512) := by
  induction rs generalizing s with
  | nil => simp
  | cons r rs ih =>
    obtain ⟨name, big⟩ := r
    unfold checkRequired at hc
    simp only [bind_eq_ok, set_run, Res.ok.injEq] at hc
    obtain ⟨_, _, ⟨-, rfl⟩, ⟨len, t⟩, o, h1, _, _, h2, h3⟩ := hc
    rw [require_eq_ok] at h2
    obtain ⟨h2, rfl⟩ := h2
    intro r hr
    rcases List.mem_cons.1 hr with rfl | hr
    · cases ha : argNamed (cut as) name with
      | none => rw [getData_absent_cut hf hok ha h] at h1; simp at h1
      | some a =>
        refine ⟨a, rfl, fun hb => ?_⟩
        obtain ⟨o', h4, -⟩ := getData_find_cut hf hok ha h
        rw [h4] at h1
        simp only [Res.ok.injEq, Prod.mk.injEq] at h1
        have hb : big = true := hb
        rw [hb] at h2
        have h5 : a.ty.tag = 8 := by rw [h1.1.2]; simpa using h2
        cases ht : a.ty <;> rw [ht] at h5 <;> first | rfl | (simp [CLType.tag] at h5)
    · exact ih h3 r hr

theorem sane_iff_cut {e : Env} {B pos n t : Nat} {c : Content} {v : V1} {as : List Arg} (hs : Small e) (h : ContentSeen e B pos c n v)
    (he : c.entry = .op t) (hkn : t ≤ 12) (htg : c.target = .native) (ha : c.args = .named as) (hok : ∀ a ∈ as, a.Ok) (hpos : pos < 256) :
    ((∀ r ∈ opRequired t, ∃ a, argNamed (cut as) r.1 = some a ∧ (r.2 = true → a.ty = .u512)) → ∀ o, ∃ o', checkSanity e v o = .ok () o') ∧
    ((∃ o o', checkSanity e v o = .ok () o') → ∀ r ∈ opRequired t, ∃ a, argNamed (cut as) r.1 = some a ∧ (r.2 = true → a.ty = .u512)) := by
  obtain ⟨-, n2, -, -, n5⟩ := h.named as ha
  have hep : v.epType = t := by rw [h.ep, he]; rfl
  have hoff : v.argsOff = pos := by rw [h.argsOff, u8_id hpos]
  have ht : v.target.typ = 0 := by have := h.target; rw [htg] at this; exact this
  unfold checkSanity
  rw [if_neg (by rw [ht]; simp), hep, hoff, n2, requiredArgs_eq t hkn]
  exact ⟨fun hr o => checkRequired_run_cut hs.fits hok n5 hr o, fun ⟨o, o', h⟩ => checkRequired_only_cut hs.fits hok n5 h⟩

/-- **C84, native operations, all names.** Version 1 data that say a native operation whose lines can be shown are accepted exactly if the required arguments are there (up to
zero bytes in names) and the header can be shown.  Then the review is that of the content, and approving it signs the hash of the payload.  The layout (positions, tables,
counts, bytes behind the approvals) does not matter.  Missing: as in `C83_cut_partial`. -/
theorem C84_cut_partial (pl : Platform) (hcap : pl.cap ≤ 16384) (d : Dev) (hd : d.Ok pl) (path : Bytes)
    (hlen : path.length = 20) (hpath : casperPath path) (cs : List Bytes) (last xs : Bytes)
    (hcs : cs.flatten ++ last = 1 :: xs) (hfit : (cs.flatten ++ last).length ≤ pl.cap)
    (c : Content) (pos n : Nat) (payload : Bytes) (hc : Says pl.blake c pos n payload xs) (t : Nat) (as : List Arg)
    (he : c.entry = .op t) (hkn : t ∈ [2, 3, 4, 5, 6, 7, 8, 9, 12]) (htg : c.target = .native) (ha : c.args = .named as) (hok : ∀ a ∈ as, a.Ok)
    (hpos : pos < 256) (hfew : as.length ≤ 119) (hslots : t = 3 → as.length ≤ 5 ∨ (argNamed (cut as) b!"reserved_slots").isSome)
    (hpr : d.expert = true → c.pricing.Small)
    (lines : List (Bytes × Bytes)) (hl : List.Forall₂ (ArgLine.Shows pl.blake (cut as)) (opLines d.expert (cut as) t) lines) :
    ((run pl d (upload 2 path cs last)).2 = List.replicate (cs.length + 1) (.reply [] 0x9000) ++ [.pending] ↔
      (∀ r ∈ opRequired t, ∃ a, argNamed (cut as) r.1 = some a ∧ (r.2 = true → a.ty = .u512)) ∧ c.Presentable pl.fmtTime d.expert) ∧
    ((∀ r ∈ opRequired t, ∃ a, argNamed (cut as) r.1 = some a ∧ (r.2 = true → a.ty = .u512)) ∧ c.Presentable pl.fmtTime d.expert →
      ∃ d' time ttl, (d.expert = true → pl.fmtTime (c.time / 1000) = some time ∧ duration ttl = c.ttl / 1000) ∧
        run pl d (upload 2 path cs last) = (d', List.replicate (cs.length + 1) (.reply [] 0x9000) ++ [.pending]) ∧
        Displays pl d' (c.screens pl.blake payload d.expert n time ttl (lines ++ opExtra d.expert as.length t lines)) ∧
        (step pl d' .approve).2 = signatureReply pl path (pl.sha256 (pl.blake payload))) := by
  have hsm : Small (mkEnv pl d.expert xs) := by
    rw [hcs] at hfit
    unfold Small mkEnv; simp only [List.length_cons] at hfit ⊢; omega
  have hgood : ∀ as', c.args = .named as' → GoodTypes as' := by
    intro as' h' a hm; rw [ha] at h'; cases h'; exact ⟨(hok a hm).aligned, (hok a hm).supported⟩
  obtain ⟨B, v, g1, -⟩ := says_accepted (e := mkEnv pl d.expert xs) hsm hc hgood (hc.chain_lt hpos) hpr
  have hlen2 := (seen_native_cut hsm g1 he hkn htg ha hok hpos hslots (lines := lines) hl).2.1
  have ht12 : t ≤ 12 := by
    simp only [List.mem_cons, List.not_mem_nil, or_false] at hkn
    omega
  exact upload_says pl hcap d hd path hlen hpath cs last xs hcs hfit hc hgood hpos hpr
    (lines := lines ++ opExtra d.expert as.length t lines) (hlen2.trans (by omega))
    (fun B v hs g _ => by
      obtain ⟨k1, k2, k3, k4⟩ := seen_native_cut hs g he hkn htg ha hok hpos hslots (lines := lines) hl
      exact ⟨k1, k2.trans (by omega), fun _ _ => k3, k4⟩)
    (fun B v hs g => sane_iff_cut hs g he ht12 htg ha hok hpos)

/-- An argument with a zero byte behind its name. -/
def Arg.marked (a : Arg) : Arg := { a with name := a.name ++ [0] }

theorem cut_marked {as bs : List Arg} (ha : noNul as) (hb : noNul bs) : cut (bs.map Arg.marked ++ as) = bs ++ as := by
  have e1 : ∀ a ∈ as, ({ a with name := a.name.takeWhile (· != 0) } : Arg) = a := fun a h => by
    have : a.name.takeWhile (· != 0) = a.name := cstr_eq (ha a h)
    rw [this]
  have e2 : ∀ a ∈ bs, ({ a.marked with name := a.marked.name.takeWhile (· != 0) } : Arg) = a := fun a h => by
    have h1 : a.marked.name.takeWhile (· != 0) = a.name := by
      unfold Arg.marked
      have h2 : ∀ x ∈ a.name, (x != (0 : UInt8)) = true := fun x hx => by
        simp only [bne_iff_ne, ne_eq]; rintro rfl; exact hb a h hx
      rw [List.takeWhile_append_of_pos h2]; simp
    rw [h1]; rfl
  unfold cut
  rw [List.map_append, List.map_map]
  congr 1
  · exact (List.map_congr_left e2).trans (List.map_id _)
  · exact (List.map_congr_left e1).trans (List.map_id _)

theorem argNamed_marked {as bs : List Arg} {name : Bytes} (h : 0 ∉ name) : argNamed (bs.map Arg.marked ++ as) name = argNamed as name := by
  unfold argNamed
  rw [List.find?_append, List.find?_eq_none.2, Option.none_or]
  intro x hx
  obtain ⟨b, -, rfl⟩ := List.mem_map.1 hx
  simp only [Arg.marked, beq_iff_eq]
  rintro rfl
  simp at h

theorem opLines_front {as bs : List Arg} {t : Nat} (hslots : t = 3 → (argNamed bs b!"reserved_slots").isSome) :
    opLines false (bs ++ as) t = opLines false bs t := by
  by_cases h3 : t = 3
  · subst h3
    obtain ⟨a, ha⟩ := Option.isSome_iff_exists.1 (hslots rfl)
    simp [opLines, ha, argNamed_front ha]
  · unfold opLines
    split <;> simp_all

theorem shows_front {H : Bytes → Bytes} {as bs : List Arg} {ls : List ArgLine} {lines : List (Bytes × Bytes)}
    (h : List.Forall₂ (ArgLine.Shows H bs) ls lines) : List.Forall₂ (ArgLine.Shows H (bs ++ as)) ls lines :=
  h.imp fun _ _ h => by
    cases h with
    | value h1 h2 h3 => exact .value h1 (argNamed_front h2) h3
    | motes h1 h2 h3 h4 => exact .motes h1 (argNamed_front h2) h3 h4

/-- **C88 is false of every native operation.** Take any native operation, with arguments `as`, and any other arguments `bs` for the same operation. Put `bs`
in front of `as`, with a zero byte behind each of their names. For the network, this changes nothing about the arguments it looks for. The app accepts the
result, and its review shows `bs` only. Approving it signs the operation with `as`. -/
theorem C88_shadow_false (pl : Platform) (hcap : pl.cap ≤ 16384) (d : Dev) (hd : d.Ok pl) (hxp : d.expert = false) (path : Bytes)
    (hlen : path.length = 20) (hpath : casperPath path) (p : TxPayload) (hp : p.Ok) (t : Nat) (as bs : List Arg) (he : p.entry = .op t)
    (hkn : t ∈ [2, 3, 4, 5, 6, 7, 8, 9, 12]) (htg : p.target = .native) (hargs : p.args = .named (bs.map Arg.marked ++ as))
    (hna : noNul as) (hnb : noNul bs) (hpos : p.argsPos < 256) (hchain : p.chain.length ≤ 99) (hfew : bs.length + as.length ≤ 119)
    (hslots : t = 3 → (argNamed bs b!"reserved_slots").isSome)
    (hreq : ∀ r ∈ opRequired t, ∃ a, argNamed bs r.1 = some a ∧ (r.2 = true → a.ty = .u512))
    (lines : List (Bytes × Bytes)) (hl : List.Forall₂ (ArgLine.Shows pl.blake bs) (opLines false bs t) lines)
    (hfit : (p.tx pl.blake []).length + 1 ≤ pl.cap) :
    (∀ name, 0 ∉ name → argNamed (bs.map Arg.marked ++ as) name = argNamed as name) ∧
    ∃ d', run pl d (upload 2 path [] (1 :: p.tx pl.blake [])) = (d', [.reply [] 0x9000, .pending]) ∧
      Displays pl d' (p.content.screens pl.blake p.encode false 0 [] [] (lines ++ opExtra false (bs.length + as.length) t lines)) ∧
      (step pl d' .approve).2 = signatureReply pl path (pl.sha256 (pl.blake p.encode)) := by
  refine ⟨fun _ h => argNamed_marked h, ?_⟩
  have hcut := cut_marked hna hnb
  have hok : ∀ a ∈ bs.map Arg.marked ++ as, a.Ok := by
    have := hp.args
    rw [hargs] at this
    exact this
  have hcnt : (bs.map Arg.marked ++ as).length = bs.length + as.length := by simp
  have h := C84_cut_partial pl hcap d hd path hlen hpath [] (1 :: p.tx pl.blake []) _ rfl (by simpa using hfit) p.content _ _ _
    (TxPayload.says (H := pl.blake) (ap := []) hp (by simp) (by omega)) t (bs.map Arg.marked ++ as) he hkn htg hargs hok hpos (by omega)
    (fun h => by
      right
      rw [hcut]
      obtain ⟨a, ha⟩ := Option.isSome_iff_exists.1 (hslots h)
      rw [argNamed_front ha]; rfl)
    (fun h => by rw [hxp] at h; cases h) lines (by rw [hcut, hxp, opLines_front hslots]; exact shows_front hl)
  obtain ⟨d', time, ttl, -, h1, h2, h3⟩ := h.2 ⟨fun r hr => by
    obtain ⟨a, h1, h2⟩ := hreq r hr
    exact ⟨a, by rw [hcut]; exact argNamed_front h1, h2⟩, .inl hchain, fun h => by rw [hxp] at h; cases h⟩
  rw [hxp, hcnt] at h2
  exact ⟨d', h1, h2, h3⟩

/-- A transfer of 10^17 motes to 6666… that looks like one of 2.5 CSPR to 1111…. -/
def sampleDisguised : TxPayload := { sampleTransfer with
  args := .named (sampleNamed.map Arg.marked ++ [⟨b!"amount", bigNum 8 100000000000000000, .u512⟩, ⟨b!"target", List.replicate 32 0x66, .byteArray 32⟩,
    ⟨b!"id", 1 :: le 8 7, .option .u64⟩]) }

theorem sampleDisguised_ok : sampleDisguised.Ok :=
  { sampleTransfer_ok with
    args := by
      show ∀ a ∈ _, Arg.Ok a
      intro a ha
      simp only [sampleNamed, List.map_cons, List.map_nil, List.cons_append, List.nil_append, List.mem_cons, List.not_mem_nil, or_false] at ha
      rcases ha with rfl | rfl | rfl | rfl | rfl | rfl <;> exact ⟨by decide, by decide, by decide⟩ }

/-- An instance of `C88_shadow_false` (and of the hypotheses of `C84_cut_partial` and `C83_cut_partial`). -/
example : ∃ d' lines, run samplePl (Dev.init samplePl) (upload 2 (samplePath 0) [] (1 :: sampleDisguised.tx Blake.H [])) = (d', [.reply [] 0x9000, .pending]) ∧
    lines.length = 2 ∧ List.Forall₂ (ArgLine.Shows Blake.H sampleNamed) [⟨b!"Target", b!"target", false⟩, ⟨b!"Amount", b!"amount", true⟩] lines ∧
    Displays samplePl d' (sampleDisguised.content.screens Blake.H sampleDisguised.encode false 0 [] [] lines) := by
  have hl : List.Forall₂ (ArgLine.Shows Blake.H sampleNamed) (opLines false sampleNamed 2) _ :=
    .cons (.value rfl rfl (.byteArray (List.replicate 32 0x11) (by decide) (by decide))) (.cons (.motes rfl rfl rfl (.u512 4 2500000000 (by decide) (by decide))) .nil)
  have hn : noNul sampleNamed := by unfold noNul; decide
  have h := C88_shadow_false samplePl (by decide) (Dev.init samplePl) (.init _) rfl (samplePath 0) rfl (by decide) sampleDisguised sampleDisguised_ok 2
    [⟨b!"amount", bigNum 8 100000000000000000, .u512⟩, ⟨b!"target", List.replicate 32 0x66, .byteArray 32⟩, ⟨b!"id", 1 :: le 8 7, .option .u64⟩] sampleNamed
    rfl (by decide) rfl rfl (by unfold noNul; decide) hn (by decide +kernel) (by decide +kernel) (by decide) (by simp)
    (by
      intro r hr
      simp only [opRequired, List.mem_cons, List.not_mem_nil, or_false] at hr
      rcases hr with rfl | rfl | rfl
      · exact ⟨_, rfl, fun _ => rfl⟩
      · exact ⟨_, rfl, by simp⟩
      · exact ⟨_, rfl, by simp⟩) _ hl (by decide +kernel)
  obtain ⟨-, d', h1, h2, -⟩ := h
  exact ⟨d', _, h1, rfl, hl, h2⟩

/-- **C46, all accepted version 1 data, all names.** The arguments the operation requires are among the signed ones, up to zero bytes in names.  Missing:
arguments at position 256 or later, names of more than 300 bytes. -/
theorem C46_cut_partial (pl : Platform) (hcap : pl.cap ≤ 16384) (d d' : Dev) (hd : d.Ok pl) (rx : Bytes)
    (pin : Bool) (hins : rx.getD 1 0 = 2) (xs : Bytes) (hx : d.data ++ rx.drop 5 = 1 :: xs) (h : step pl d (.apdu rx pin) = (d', .pending))
    (c : Content) (pos n : Nat) (payload : Bytes) (hc : Says pl.blake c pos n payload xs) (t : Nat) (he : c.entry = .op t)
    (as : List Arg) (ha : c.args = .named as) (hok : ∀ a ∈ as, a.Ok) (hpos : pos < 256) :
    ∀ r ∈ opRequired t, ∃ a ∈ as, a.name.takeWhile (· != 0) = r.1 ∧ (r.2 = true → a.ty = .u512) := by
  obtain ⟨s, B, -, hs, -, hdata, rfl, g1, -, g3, -, o, o', g5⟩ := pending_says hcap hd hins hx h hc (by
    intro as' h' a hm; rw [ha] at h'; cases h'; exact ⟨(hok a hm).aligned, (hok a hm).supported⟩)
  have hep : s.v.epType = t := by rw [g1.ep, he]; rfl
  obtain ⟨-, n2, -, -, n5⟩ := g1.named as ha
  unfold checkSanity at g5
  split at g5
  · simp at g5
  rw [hep, g1.argsOff, u8_id hpos, n2, requiredArgs_eq t (g3.op t he).1] at g5
  intro r hr
  obtain ⟨a, h1, h2⟩ := checkRequired_only_cut hs.fits hok n5 g5 r hr
  obtain ⟨pre, b, post, rfl, rfl, h3, -⟩ := cut_find h1
  exact ⟨b, by simp, h3, h2⟩

/-- The conclusion of `C46_cut_partial` holds of the sample of `C46_name_false`, whose names all end in a zero byte. -/
example : ∀ r ∈ opRequired 2, ∃ a ∈ sampleNamed.map Arg.marked, a.name.takeWhile (· != 0) = r.1 ∧ (r.2 = true → a.ty = .u512) := by
  intro r hr
  simp only [opRequired, List.mem_cons, List.not_mem_nil, or_false] at hr
  rcases hr with rfl | rfl | rfl
  · exact ⟨_, List.mem_map_of_mem (List.mem_cons_self ..), by decide, fun _ => rfl⟩
  · exact ⟨_, List.mem_map_of_mem (List.mem_cons_of_mem _ (List.mem_cons_self ..)), by decide, by simp⟩
  · exact ⟨_, List.mem_map_of_mem (List.mem_cons_of_mem _ (List.mem_cons_of_mem _ (List.mem_cons_self ..))), by decide, by simp⟩

end Casper
