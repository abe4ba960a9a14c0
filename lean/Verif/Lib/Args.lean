import Verif.Lib.Safe
/-
Reading serialized argument lists (lemmas for C05, C06 and everything built on them).
-/
namespace Casper
open M

/-- The received data is at most 65535 bytes (`bufferLen` is a `uint16_t`). -/
def Fits (e : Env) : Prop := e.buf.length ≤ 65535

instance (e : Env) : Decidable (Fits e) := inferInstanceAs (Decidable (e.buf.length ≤ 65535))

theorem readU32_at {e : Env} {off v : Nat} {xs : Bytes} (h : At e.buf off (le 4 v ++ xs)) (hv : v < 4294967296) :
    readU32 e off = .ok v (off + 4) := readLE_at (At.append.1 h).1 (by omega)

theorem readU64_at {e : Env} {off v : Nat} {xs : Bytes} (h : At e.buf off (le 8 v ++ xs)) (hv : v < 2 ^ 64) :
    readU64 e off = .ok v (off + 8) := readLE_at (At.append.1 h).1 (by omega)

theorem At.pfx {buf : Bytes} {off : Nat} {xs ys : Bytes} (h : At buf off (pfx xs ++ ys)) :
    At buf (off + 4) xs ∧ At buf (off + 4 + xs.length) ys := by
  rw [Casper.pfx, List.append_assoc, At.append, At.append] at h
  simpa using h.2

theorem parseItem_at {e : Env} {off : Nat} {xs ys : Bytes} (hf : Fits e) (h : At e.buf off (pfx xs ++ ys)) :
    parseItem e off = .ok () (off + 4 + xs.length) := by
  have h1 := h.pfx.1.le
  have h2 := h
  rw [Casper.pfx, List.append_assoc] at h2
  unfold Fits at hf
  unfold parseItem
  simp only [bind_run, readU32_at h2 (by omega), Res.bind_ok, get_run]
  rw [if_neg (by simp only [u32]; omega), set_run]
  simp only [u16]; congr 1; omega

theorem copyItem_at {e : Env} {off cap : Nat} {xs ys : Bytes} (hf : Fits e) (h : At e.buf off (pfx xs ++ ys))
    (hc : xs.length ≤ cap) : copyItem e cap off = .ok xs (off + 4 + xs.length) := by
  have h0 := h.pfx.1
  have h1 := h0.le
  have h2 := h
  rw [Casper.pfx, List.append_assoc] at h2
  unfold Fits at hf
  unfold copyItem
  simp only [bind_run, readU32_at h2 (by omega), Res.bind_ok, get_run]
  rw [if_neg (by omega)]
  simp only [bind_run, slice_at h0 rfl, Res.bind_ok, skip, pure_run, u16]
  congr 1; omega

theorem cstr_eq {xs : Bytes} (h : 0 ∉ xs) : cstr xs = xs := by
  unfold cstr
  induction xs with
  | nil => rfl
  | cons x xs ih =>
    simp only [List.mem_cons, not_or] at h
    rw [List.takeWhile_cons_of_pos (by simpa using Ne.symm h.1), ih h.2]

/-- An argument the app can walk over: the name fits its buffer and the type is supported and aligned (see C03). -/
structure Arg.Ok (a : Arg) : Prop where
  name : a.name.length ≤ 300
  aligned : a.ty.aligned
  supported : a.ty.supported

theorem Arg.encode_length (a : Arg) :
    a.encode.length = 8 + a.name.length + a.value.length + a.ty.encode.length := by
  simp [Arg.encode]; omega

theorem arg_at {e : Env} {off : Nat} {a : Arg} (h : At e.buf off a.encode) :
    At e.buf off (pfx a.name ++ (pfx a.value ++ a.ty.encode)) ∧
    At e.buf (off + 4 + a.name.length) (pfx a.value ++ a.ty.encode) ∧
    At e.buf (off + 4 + a.name.length + 4) a.value ∧
    At e.buf (off + 4 + a.name.length + 4 + a.value.length) a.ty.encode :=
  ⟨h, (At.pfx h).2, (At.pfx (At.pfx h).2).1, (At.pfx (At.pfx h).2).2⟩

theorem parseArgs_at {e : Env} {off : Nat} {as : List Arg} (hf : Fits e) (hok : ∀ a ∈ as, a.Ok)
    (h : At e.buf off (encodeArgs as)) :
    parseArgs e as.length off = .ok () (off + (encodeArgs as).length) := by
  induction as generalizing off with
  | nil => rfl
  | cons a as ih =>
    rw [encodeArgs, At.append] at h
    obtain ⟨h1, h2, h3, h4⟩ := arg_at h.1
    have ha := hok a (by simp)
    have := ih (fun b hb => hok b (by simp [hb])) h.2
    rw [List.length_cons, parseArgs]
    simp only [bind_run, parseItem_at hf h1, parseItem_at hf h2, getType_ok ha.aligned ha.supported h4, Res.bind_ok]
    have hl := a.encode_length
    rw [show off + 4 + a.name.length + 4 + a.value.length + a.ty.encode.length = off + a.encode.length by omega,
      this, encodeArgs, List.length_append, Nat.add_assoc]

theorem searchFrom_at {e : Env} {name : Bytes} {start off : Nat} {as : List Arg} (hf : Fits e)
    (hok : ∀ a ∈ as, a.Ok) (h : At e.buf off (encodeArgs as)) :
    searchFrom e name start as.length off =
      match as.find? (fun a => cstr a.name == name) with
      | some a => .ok (a.ty.tag, a.ty.inner 255) start
      | none => .err 27 start := by
  induction as generalizing off with
  | nil => rfl
  | cons a as ih =>
    rw [encodeArgs, At.append] at h
    obtain ⟨h1, h2, h3, h4⟩ := arg_at h.1
    have ha := hok a (by simp)
    have ih := ih (fun b hb => hok b (by simp [hb])) h.2
    rw [List.length_cons, searchFrom]
    simp only [bind_run, copyItem_at hf h1 ha.name, Res.bind_ok]
    by_cases hn : cstr a.name = name
    · rw [if_pos hn, List.find?_cons_of_pos (by simpa using hn)]
      simp [parseItem_at hf h2, getType_ok ha.aligned ha.supported h4]
    · rw [if_neg hn, List.find?_cons_of_neg (by simpa using hn)]
      simp only [bind_run, parseItem_at hf h2, getType_ok ha.aligned ha.supported h4, Res.bind_ok]
      have hl := a.encode_length
      rw [show off + 4 + a.name.length + 4 + a.value.length + a.ty.encode.length = off + a.encode.length by omega,
        ih]

theorem searchArgs_at {e : Env} {name : Bytes} {off : Nat} {as : List Arg} (hf : Fits e)
    (hok : ∀ a ∈ as, a.Ok) (h : At e.buf off (encodeArgs as)) :
    searchArgs e name as.length off =
      match as.find? (fun a => cstr a.name == name) with
      | some a => .ok (a.ty.tag, a.ty.inner 255) off
      | none => .err 27 off := by
  unfold searchArgs
  simp only [bind_run, get_run, Res.bind_ok]
  exact searchFrom_at hf hok h

/-- `getData` on the first argument with that name; `pre` are the arguments before it, `k` the number of arguments
the caller lets it look at. -/
theorem getData_at {e : Env} {name : Bytes} {off k : Nat} {pre post : List Arg} {a : Arg} (hf : Fits e)
    (hok : ∀ x ∈ pre, x.Ok) (ha : a.Ok) (hpre : ∀ x ∈ pre, cstr x.name ≠ name) (hn : cstr a.name = name)
    (hk : pre.length < k)
    (h : At e.buf off (encodeArgs (pre ++ a :: post))) :
    getData e name k off = .ok (a.value.length, a.ty.tag)
        (off + (encodeArgs pre).length + 4 + a.name.length + 4) ∧
      At e.buf (off + (encodeArgs pre).length + 4 + a.name.length + 4) a.value := by
  induction pre generalizing off k with
  | nil =>
    obtain ⟨k, rfl⟩ : ∃ j, k = j + 1 := ⟨k - 1, by simp at hk; omega⟩
    rw [List.nil_append, encodeArgs, At.append] at h
    obtain ⟨h1, h2, h3, h4⟩ := arg_at h.1
    refine ⟨?_, by simpa [encodeArgs] using h3⟩
    have h2' := h2
    rw [Casper.pfx, List.append_assoc] at h2'
    have hle := h3.le
    unfold Fits at hf
    rw [getData]
    simp only [bind_run, copyItem_at hf h1 ha.name, Res.bind_ok]
    rw [if_pos hn]
    simp only [bind_run, readU32_at h2' (by omega), Res.bind_ok, get_run]
    rw [if_neg (by omega)]
    have h16 : skip a.value.length (off + 4 + a.name.length + 4) = .ok () (off + 4 + a.name.length + 4 + a.value.length) := by
      simp only [skip, u16]; congr 1; omega
    simp [h16, getType_ok ha.aligned ha.supported h4, encodeArgs]
  | cons b pre ih =>
    obtain ⟨k, rfl⟩ : ∃ j, k = j + 1 := ⟨k - 1, by simp at hk; omega⟩
    rw [List.cons_append, encodeArgs, At.append] at h
    obtain ⟨h1, h2, h3, h4⟩ := arg_at h.1
    have hb := hok b (by simp)
    have ih := ih (k := k) (fun x hx => hok x (by simp [hx])) (fun x hx => hpre x (by simp [hx])) (by simp at hk; omega) h.2
    have hl := b.encode_length
    rw [show off + (encodeArgs (b :: pre)).length = off + b.encode.length + (encodeArgs pre).length by
      simp [encodeArgs]; omega]
    refine ⟨?_, ih.2⟩
    rw [getData]
    simp only [bind_run, copyItem_at hf h1 hb.name, Res.bind_ok]
    rw [if_neg (hpre b (by simp))]
    simp only [bind_run, parseItem_at hf h2, getType_ok hb.aligned hb.supported h4, Res.bind_ok]
    rw [show off + 4 + b.name.length + 4 + b.value.length + b.ty.encode.length = off + b.encode.length by omega,
      ih.1]

theorem getData_none {e : Env} {name : Bytes} {off k : Nat} {as : List Arg} (hf : Fits e)
    (hok : ∀ a ∈ as, a.Ok) (hn : ∀ x ∈ as.take k, cstr x.name ≠ name) (hk : k ≤ as.length)
    (h : At e.buf off (encodeArgs as)) :
    getData e name k off = .err 1 (off + (encodeArgs (as.take k)).length) := by
  induction as generalizing off k with
  | nil => simp at hk; subst hk; rfl
  | cons b as ih =>
    cases k with
    | zero => rfl
    | succ k =>
      rw [encodeArgs, At.append] at h
      obtain ⟨h1, h2, h3, h4⟩ := arg_at h.1
      have hb := hok b (by simp)
      have ih := ih (k := k) (fun x hx => hok x (by simp [hx])) (fun x hx => hn x (by simp [hx]))
        (by simp at hk; omega) h.2
      have hl := b.encode_length
      rw [getData]
      simp only [bind_run, copyItem_at hf h1 hb.name, Res.bind_ok]
      rw [if_neg (hn b (by simp))]
      simp only [bind_run, parseItem_at hf h2, getType_ok hb.aligned hb.supported h4, Res.bind_ok]
      rw [show off + 4 + b.name.length + 4 + b.value.length + b.ty.encode.length = off + b.encode.length by omega,
        ih]
      simp [encodeArgs]; omega

end Casper
