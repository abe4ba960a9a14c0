import Verif.Lib.Cut
import Verif.Spec.Cut
/-
Walking over an argument list that ends too early.
-/
namespace Casper
open M

/-- From `off` on, the data are a beginning of `xs`. -/
def Begins (buf : Bytes) (off : Nat) (xs : Bytes) : Prop := off ≤ buf.length ∧ buf.drop off <+: xs

theorem Begins.front {buf : Bytes} {off : Nat} {xs zs : Bytes} (h : Begins buf off (xs ++ zs)) (hl : buf.length - off ≤ xs.length) : Begins buf off xs :=
  ⟨h.1, List.prefix_of_prefix_length_le h.2 (List.prefix_append _ _) (by simp only [List.length_drop]; omega)⟩

theorem Begins.past {buf : Bytes} {off : Nat} {xs zs : Bytes} (h : Begins buf off (xs ++ zs)) (hl : xs.length ≤ buf.length - off) :
    At buf off xs ∧ Begins buf (off + xs.length) zs := by
  obtain ⟨h1, h2⟩ := h
  have hp : xs <+: buf.drop off := List.prefix_of_prefix_length_le (List.prefix_append _ _) h2 (by simp only [List.length_drop]; omega)
  obtain ⟨r, hr⟩ := hp
  refine ⟨⟨buf.take off, r, ?_, by simp; omega⟩, by omega, ?_⟩
  · rw [List.append_assoc, hr, List.take_append_drop]
  · rw [← List.drop_drop, ← hr, List.drop_left]
    rw [← hr] at h2
    exact (List.prefix_append_right_inj xs).1 h2

section
variable {e : Env}

/-- A length-prefixed item that is not complete. -/
theorem item_cut {off : Nat} {xs : Bytes} (hb : Begins e.buf off (pfx xs)) (hlt : e.buf.length < off + 4 + xs.length)
    (hs : off + 4 + xs.length < 4294967296) (cap : Nat) :
    parseItem e off = .err eBufferEnd (e.buf.length - (e.buf.length - (off + 4))) ∧
      copyItem e cap off = .err eBufferEnd (e.buf.length - (e.buf.length - (off + 4))) := by
  have ho := hb.1
  unfold parseItem copyItem
  by_cases h4 : e.buf.length < off + 4
  · have hr : readU32 e off = .err eBufferEnd e.buf.length := readLE_end 4 ho h4
    rw [show e.buf.length - (off + 4) = 0 by omega, Nat.sub_zero]
    constructor <;> (rw [bind_run, hr]; rfl)
  · have ha := (hb.past (xs := le 4 xs.length) (zs := xs) (by simp only [le_length]; omega)).1
    have hr : readU32 e off = .ok xs.length (off + 4) := readLE_at ha (by omega)
    rw [show e.buf.length - (e.buf.length - (off + 4)) = off + 4 by omega]
    constructor
    · rw [bind_run, hr, Res.bind_ok, bind_run, get_run, Res.bind_ok, if_pos (by rw [u32_id (by omega)]; omega)]; rfl
    · rw [bind_run, hr, Res.bind_ok, bind_run, get_run, Res.bind_ok, if_pos (.inr (by omega))]; rfl

/-- Where the walk over an incomplete argument ends. -/
theorem arg_cut (hf : Fits e) {off : Nat} {a : Arg} (ha : a.Ok) (hb : Begins e.buf off a.encode) (hlt : e.buf.length - off < a.encode.length)
    (hs : off + a.encode.length < 4294967296) (o : Nat) (c : Nat) (hc : c = e.buf.length - (a.broken (e.buf.length - off)).length) :
    copyItem e 300 off = .err eBufferEnd c ∨
    (∃ p, copyItem e 300 off = .ok a.name p ∧ (parseItem e p = .err eBufferEnd c ∨
      ∃ q, parseItem e p = .ok () q ∧ getType e o q = .err eBufferEnd c)) := by
  have ho := hb.1
  have hle := a.encode_length
  unfold Arg.encode at hb
  unfold Arg.broken at hc
  by_cases h1 : e.buf.length < off + 4 + a.name.length
  · have := (item_cut (hb.front (by simp only [pfx_length]; omega)) h1 (by omega) 300).2
    refine .inl ?_
    rw [this, hc]
    congr 2
    by_cases h0 : e.buf.length - off < 4
    · rw [if_pos h0]; simp only [List.length_nil]; omega
    · rw [if_neg h0, if_pos (by omega), List.length_take]; omega
  · obtain ⟨k1, k2⟩ := hb.past (xs := pfx a.name) (by simp only [pfx_length]; omega)
    rw [pfx_length, ← Nat.add_assoc] at k2
    refine .inr ⟨_, copyItem_at (ys := []) hf (by rwa [List.append_nil]) ha.name, ?_⟩
    rw [if_neg (by omega), if_neg (by omega)] at hc
    by_cases h2 : e.buf.length < off + 4 + a.name.length + 4 + a.value.length
    · have := (item_cut (k2.front (by simp only [pfx_length]; omega)) h2 (by omega) 300).1
      refine .inl ?_
      rw [this, hc]
      congr 2
      by_cases h0 : e.buf.length - off < 8 + a.name.length
      · rw [if_pos h0]; simp only [List.length_nil]; omega
      · rw [if_neg h0, if_pos (by omega), List.length_take]; omega
    · obtain ⟨k3, k4⟩ := k2.past (xs := pfx a.value) (by simp only [pfx_length]; omega)
      rw [pfx_length, ← Nat.add_assoc] at k4
      refine .inr ⟨_, parseItem_at (ys := []) hf (by rwa [List.append_nil]), ?_⟩
      rw [if_neg (by omega), if_neg (by omega), List.length_nil, Nat.sub_zero] at hc
      subst hc
      have hd : (e.buf.drop (off + 4 + a.name.length + 4 + a.value.length)).length = e.buf.length - (off + 4 + a.name.length + 4 + a.value.length) := by simp
      refine getType_cut ha.aligned ha.supported (xs := e.buf.drop (off + 4 + a.name.length + 4 + a.value.length)) ?_ (by omega) k4.2 (by omega)
      exact ⟨e.buf.take (off + 4 + a.name.length + 4 + a.value.length), [], by rw [List.append_nil, List.take_append_drop], by simp; omega⟩

/-- Searching an incomplete argument list. -/
theorem searchFrom_cut (hf : Fits e) {name : Bytes} {start : Nat} : ∀ {off : Nat} {as : List Arg}, (∀ a ∈ as, a.Ok) → Begins e.buf off (encodeArgs as) →
    e.buf.length - off < (encodeArgs as).length → off + (encodeArgs as).length < 4294967296 →
    ((∃ a ∈ wholeArgs as (e.buf.length - off), cstr a.name = name) ∧ ∃ r, searchFrom e name start as.length off = .ok r start) ∨
    (∀ a ∈ wholeArgs as (e.buf.length - off), cstr a.name ≠ name) ∧
      searchFrom e name start as.length off = .err eBufferEnd (e.buf.length - (brokenPart as (e.buf.length - off)).length) := by
  intro off as
  induction as generalizing off with
  | nil => intro _ _ h; simp [encodeArgs] at h
  | cons a as ih =>
    intro hok hb hlt hs
    have ha := hok a (by simp)
    rw [encodeArgs] at hb hlt hs
    rw [List.length_append] at hlt hs
    rw [List.length_cons, searchFrom, bind_run, brokenPart, wholeArgs]
    by_cases hl : e.buf.length - off < a.encode.length
    · rw [if_pos hl, if_pos hl]
      refine .inr ⟨by simp, ?_⟩
      rcases arg_cut hf ha (hb.front (by omega)) hl (by omega) 255 _ rfl with h | ⟨p, h1, h⟩
      · rw [h]; rfl
      · rw [h1, Res.bind_ok]
        have key : ∀ o, parseItem e p = .err eBufferEnd (e.buf.length - (a.broken (e.buf.length - off)).length) ∨
            ∃ q, parseItem e p = .ok () q ∧ getType e o q = .err eBufferEnd (e.buf.length - (a.broken (e.buf.length - off)).length) := by
          intro o
          rcases arg_cut hf ha (hb.front (by omega)) hl (by omega) o _ rfl with h' | ⟨p', h1', h'⟩
          · rw [h'] at h1; cases h1
          · rw [h1'] at h1
            injection h1 with _ h1
            subst h1
            exact h'
        split
        · rcases key 255 with h | ⟨q, h2, h3⟩
          · rw [bind_run, h]; rfl
          · rw [bind_run, h2, Res.bind_ok, bind_run, h3]; rfl
        · rcases key 0 with h | ⟨q, h2, h3⟩
          · rw [bind_run, h]; rfl
          · rw [bind_run, h2, Res.bind_ok, bind_run, h3]; rfl
    · rw [if_neg hl, if_neg hl]
      obtain ⟨k1, k2⟩ := hb.past (by omega)
      obtain ⟨a1, a2, a3, a4⟩ := arg_at k1
      have hal := a.encode_length
      rw [copyItem_at hf a1 ha.name, Res.bind_ok]
      by_cases hn : cstr a.name = name
      · rw [if_pos hn]
        refine .inl ⟨⟨a, by simp, hn⟩, (a.ty.tag, a.ty.inner 255), ?_⟩
        rw [bind_run, parseItem_at hf a2, Res.bind_ok, bind_run, getType_ok ha.aligned ha.supported a4, Res.bind_ok]
        rfl
      · rw [if_neg hn, bind_run, parseItem_at hf a2, Res.bind_ok, bind_run, getType_ok ha.aligned ha.supported a4, Res.bind_ok,
          show off + 4 + a.name.length + 4 + a.value.length + a.ty.encode.length = off + a.encode.length by omega]
        rw [show e.buf.length - off - a.encode.length = e.buf.length - (off + a.encode.length) by omega]
        rcases ih (fun b hb => hok b (by simp [hb])) k2 (by omega) (by omega) with ⟨⟨b, hb, hbn⟩, h⟩ | ⟨h1, h2⟩
        · exact .inl ⟨⟨b, by simp [hb], hbn⟩, h⟩
        · exact .inr ⟨by simpa using ⟨hn, h1⟩, h2⟩

/-- Looking for the value of an argument that is not in the incomplete list. -/
theorem getData_cut (hf : Fits e) {name : Bytes} : ∀ {off : Nat} {as : List Arg}, (∀ a ∈ as, a.Ok) → (∀ a ∈ as, cstr a.name ≠ name) →
    Begins e.buf off (encodeArgs as) → e.buf.length - off < (encodeArgs as).length → off + (encodeArgs as).length < 4294967296 →
    ∃ c, getData e name as.length off = .err eBufferEnd c := by
  intro off as
  induction as generalizing off with
  | nil => intro _ _ _ h; simp [encodeArgs] at h
  | cons a as ih =>
    intro hok hno hb hlt hs
    have ha := hok a (by simp)
    have hna := hno a (by simp)
    rw [encodeArgs] at hb hlt hs
    rw [List.length_append] at hlt hs
    rw [List.length_cons, getData, bind_run]
    by_cases hl : e.buf.length - off < a.encode.length
    · refine ⟨e.buf.length - (a.broken (e.buf.length - off)).length, ?_⟩
      rcases arg_cut hf ha (hb.front (by omega)) hl (by omega) 0 _ rfl with h | ⟨p, h1, h | ⟨q, h2, h3⟩⟩
      · rw [h]; rfl
      · rw [h1, Res.bind_ok, if_neg hna, bind_run, h]; rfl
      · rw [h1, Res.bind_ok, if_neg hna, bind_run, h2, Res.bind_ok, bind_run, h3]; rfl
    · obtain ⟨k1, k2⟩ := hb.past (by omega)
      obtain ⟨a1, a2, a3, a4⟩ := arg_at k1
      have hal := a.encode_length
      rw [copyItem_at hf a1 ha.name, Res.bind_ok, if_neg hna, bind_run, parseItem_at hf a2, Res.bind_ok, bind_run,
        getType_ok ha.aligned ha.supported a4, Res.bind_ok,
        show off + 4 + a.name.length + 4 + a.value.length + a.ty.encode.length = off + a.encode.length by omega]
      exact ih (fun b hb => hok b (by simp [hb])) (fun b hb => hno b (by simp [hb])) k2 (by omega) (by omega)

/-- Looking for an argument in data that cannot be taken for an argument list. -/
theorem getData_unlike {name : Bytes} {k off : Nat} (ho : off ≤ e.buf.length) (hu : Unlike (e.buf.drop off)) :
    ∃ c, getData e name (k + 1) off = .err eBufferEnd c := by
  rw [getData, bind_run]
  unfold copyItem
  by_cases h4 : e.buf.length < off + 4
  · rw [bind_run, show readU32 e off = _ from readLE_end 4 ho h4]
    exact ⟨_, rfl⟩
  · have hd : e.buf.drop off = (e.buf.drop off).take 4 ++ (e.buf.drop off).drop 4 := (List.take_append_drop _ _).symm
    have h4l : ((e.buf.drop off).take 4).length = 4 := by simp only [List.length_take, List.length_drop]; omega
    have hn : leVal ((e.buf.drop off).take 4) < 256 ^ 4 := by have := leVal_lt ((e.buf.drop off).take 4); rwa [h4l] at this
    have hle : le 4 (leVal ((e.buf.drop off).take 4)) = (e.buf.drop off).take 4 := by have := le_leVal ((e.buf.drop off).take 4); rwa [h4l] at this
    have ha : At e.buf off (le 4 (leVal ((e.buf.drop off).take 4))) :=
      ⟨e.buf.take off, (e.buf.drop off).drop 4, by rw [hle, List.append_assoc, List.take_append_drop, List.take_append_drop], by simp; omega⟩
    rw [bind_run, show readU32 e off = _ from readLE_at ha hn, Res.bind_ok, bind_run, get_run, Res.bind_ok]
    have := hu _ _ (by omega) (by rw [hle]; exact hd)
    rw [if_pos (by simp only [List.length_drop] at this; omega)]
    exact ⟨_, rfl⟩
end

end Casper
