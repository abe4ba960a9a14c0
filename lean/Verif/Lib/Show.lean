import Verif.Lib.V1Fwd
import Verif.Props.Text
import Verif.Spec.Value
/-
The argument renderers on correctly serialized values.
-/
namespace Casper
open M

theorem printBytes_at {e : Env} {off s : Nat} {xs : Bytes} (h : At e.buf off xs) (hl : xs.length ≤ 49) :
    printBytes e off xs.length s = .ok (checksumHex e.blake xs) s := by
  unfold printBytes
  have h1 : u8 (u16 xs.length) = xs.length := by unfold u8 u16; omega
  have h2 : ¬ u8 (2 * xs.length) > 100 := by unfold u8; omega
  simp only [h1, if_neg h2]
  rw [if_neg (by omega), bind_run, slice_at h rfl, Res.bind_ok, if_neg (by omega), C20_checksum_hex]
  rfl

theorem printAddress_at {e : Env} {off s : Nat} {b : UInt8} {xs : Bytes} (h : At e.buf off (b :: xs)) (hb : b = 1 ∨ b = 2) :
    printAddress e off (1 + xs.length) s = .ok ((if b = 1 then b!"01" else b!"02") ++ checksumHex e.blake xs) s := by
  unfold printAddress
  rw [bind_run, slice_at h (by simp [Nat.add_comm]), Res.bind_ok, pure_run]
  rw [encodeAddr, C20_checksum_hex]
  rcases hb with rfl | rfl <;> rfl

theorem byteAt_at {e : Env} {i s : Nat} {b : UInt8} {xs : Bytes} (h : At e.buf i (b :: xs)) :
    byteAt e i s = .ok b.toNat s := by
  unfold byteAt; rw [h.get]

/-- A value followed by its type is shown as specified. -/
theorem displayArg_at {e : Env} {off : Nat} {t : CLType} {v text : Bytes} (hf : Fits e) (hs : Shown e.blake t v text)
    (h : At e.buf off (v ++ t.encode)) : ∃ c, displayArg e t.tag v.length off = .ok text c := by
  have hle := h.le
  rw [List.length_append] at hle
  have ht : 0 < t.encode.length := by rw [CLType.encode_eq]; simp
  have hty := (At.append.1 h).2
  replace h := (At.append.1 h).1
  unfold Fits at hf
  have hu : ¬ u32 (off + v.length) ≥ e.buf.length := by rw [u32_id (by omega)]; omega
  have hv : v.length ≠ 0 := by cases hs <;> first | omega | simp | (rw [le_length]; decide)
  unfold displayArg
  simp only [bind_run, get_run, Res.bind_ok]
  rw [if_neg hu, if_neg hv]
  cases hs with
  | u8 n hn => exact ⟨off + 1, by simp [CLType.tag, readByte_at h hn, decimal_eq]⟩
  | u32 n hn => exact ⟨off + 4, by simp [CLType.tag, readLE_at h (by omega : n < 256 ^ 4), decimal_eq]⟩
  | u64 n hn => exact ⟨off + 8, by simp [CLType.tag, readLE_at h (by omega : n < 256 ^ 8), decimal_eq]⟩
  | u512 k n hk hn =>
    refine ⟨off, ?_⟩
    simp [CLType.tag, amountBignum_at hk hn h, motesOf]
  | key tag xs hx =>
    refine ⟨off + 1, ?_⟩
    have h2 := (At.cons.1 h).2
    have := h2.le
    simp only [List.length_cons] at hle
    simp [CLType.tag, skip_run (show off + 1 < 65536 by omega), printBytes_at h2 hx]
  | uref xs r hx =>
    refine ⟨off, ?_⟩
    simp [CLType.tag, printBytes_at (At.append.1 h).1 hx]
  | none t =>
    refine ⟨off + 1, ?_⟩
    simp [CLType.tag, readU8_at h]
  | someU32 n hn =>
    have h2 := (At.cons.1 h).2
    have hb := byteAt_at (s := off + 1) ((At.cons.1 hty).2.cast (off' := off + 1 + (le 4 n).length.succ) (by simp))
    refine ⟨off + 1 + 4, ?_⟩
    simp only [List.length_cons, CLType.tag]
    simp [readU8_at h, readLE_at h2 (by omega : n < 256 ^ 4), decimal_eq]
    simp at hb
    simp [hb, CLType.tag, readLE_at h2 (by omega : n < 256 ^ 4)]
  | someU64 n hn =>
    have h2 := (At.cons.1 h).2
    have hb := byteAt_at (s := off + 1) ((At.cons.1 hty).2.cast (off' := off + 1 + (le 8 n).length.succ) (by simp))
    refine ⟨off + 1 + 8, ?_⟩
    simp only [List.length_cons, CLType.tag]
    simp [readU8_at h, readLE_at h2 (by omega : n < 256 ^ 8), decimal_eq]
    simp at hb
    simp [hb, CLType.tag, readLE_at h2 (by omega : n < 256 ^ 8)]
  | someURef xs r hx =>
    have h2 := (At.append.1 (At.cons.1 h).2).1
    have hb := byteAt_at (s := off + 1) ((At.cons.1 hty).2.cast (off' := off + 1 + (xs ++ [r]).length.succ) (by simp; omega))
    refine ⟨off + 1, ?_⟩
    simp only [List.length_cons, CLType.tag]
    simp [readU8_at h]
    simp at hb
    simp [hb, CLType.tag, printBytes_at h2 hx]
  | byteArray xs h0 hx => exact ⟨off, by simp [CLType.tag, printBytes_at h hx]⟩
  | ed25519 k hk =>
    refine ⟨off, ?_⟩
    have := printAddress_at (s := off) h (.inl rfl)
    rw [hk] at this
    simp [CLType.tag, byteAt_at h, this]
  | secp256k1 k hk =>
    refine ⟨off, ?_⟩
    have := printAddress_at (s := off) h (.inr rfl)
    rw [hk] at this
    simp [CLType.tag, byteAt_at h, this]

theorem displayMotes_at {e : Env} {off : Nat} {t : CLType} {v text : Bytes} (hf : Fits e) (hs : ShownMotes t v text)
    (h : At e.buf off (v ++ t.encode)) : ∃ c, displayMotes e t.tag v.length off = .ok text c := by
  have hle := h.le
  rw [List.length_append] at hle
  have ht : 0 < t.encode.length := by rw [CLType.encode_eq]; simp
  replace h := (At.append.1 h).1
  cases hs with
  | u32 n hn =>
    rw [le_length] at hle
    exact ⟨_, (C17_amount_int e hf off n).1 hn h (by omega)⟩
  | u64 n hn =>
    rw [le_length] at hle
    exact ⟨_, (C17_amount_int e hf off n).2 hn h (by omega)⟩
  | u512 k n hk hn =>
    simp only [List.length_cons, le_length] at hle
    have := (C17_amount_u512 e hf off k n _ hk hn h (by omega)).2
    exact ⟨off, by rw [List.length_cons, le_length]; exact this⟩

/-! ### Arguments by name -/

/-- Splitting a list at the first argument with a given name. -/
theorem find_split {as : List Arg} {name : Bytes} {a : Arg} (h : as.find? (fun b => b.name == name) = some a) :
    ∃ pre post, as = pre ++ a :: post ∧ a.name = name ∧ ∀ x ∈ pre, x.name ≠ name := by
  rw [List.find?_eq_some_iff_append] at h
  obtain ⟨h1, pre, post, rfl, h2⟩ := h
  exact ⟨pre, post, rfl, by simpa using h1, by simpa using h2⟩

/-- Names without NUL bytes. -/
def noNul (as : List Arg) : Prop := ∀ a ∈ as, (0 : UInt8) ∉ a.name

theorem getData_find {e : Env} {name : Bytes} {off : Nat} {as : List Arg} {a : Arg} (hf : Fits e)
    (hok : ∀ x ∈ as, x.Ok) (hn : noNul as) (ha : as.find? (fun b => b.name == name) = some a)
    (h : At e.buf off (encodeArgs as)) :
    ∃ o, getData e name as.length off = .ok (a.value.length, a.ty.tag) o ∧ At e.buf o (a.value ++ a.ty.encode) := by
  obtain ⟨pre, post, rfl, h1, h2⟩ := find_split ha
  have hc : ∀ x ∈ pre ++ a :: post, cstr x.name = x.name := fun x hx => cstr_eq (hn x hx)
  have := getData_at (k := (pre ++ a :: post).length) hf (fun x hx => hok x (by simp [hx])) (hok a (by simp))
    (fun x hx => by rw [hc x (by simp [hx])]; exact h2 x hx) (by rw [hc a (by simp)]; exact h1) (by simp) h
  refine ⟨_, this.1, ?_⟩
  rw [At.append]
  refine ⟨this.2, ?_⟩
  have h3 : At e.buf (off + (encodeArgs pre).length) a.encode := by
    have : encodeArgs (pre ++ a :: post) = encodeArgs pre ++ (a.encode ++ encodeArgs post) := by
      clear this h hc h2 h1 ha hn hok
      induction pre with
      | nil => rfl
      | cons b pre ih => simp [encodeArgs, ih]
    rw [this, At.append, At.append] at h
    exact h.2.1
  exact (arg_at h3).2.2.2

theorem getData_absent {e : Env} {name : Bytes} {off : Nat} {as : List Arg} (hf : Fits e)
    (hok : ∀ x ∈ as, x.Ok) (hn : noNul as) (ha : as.find? (fun b => b.name == name) = none)
    (h : At e.buf off (encodeArgs as)) :
    getData e name as.length off = .err 1 (off + (encodeArgs as).length) := by
  have := getData_none (name := name) (k := as.length) hf hok (fun x hx => by
    rw [List.take_length] at hx
    rw [cstr_eq (hn x hx)]
    simpa using (List.find?_eq_none.1 ha) x hx) (Nat.le_refl _) h
  rwa [List.take_length] at this

theorem showArg_at {e : Env} {key name : Bytes} {off : Nat} {as : List Arg} {a : Arg} {text : Bytes} (hf : Fits e)
    (hok : ∀ x ∈ as, x.Ok) (hn : noNul as) (ha : as.find? (fun b => b.name == name) = some a)
    (hs : Shown e.blake a.ty a.value text) (h : At e.buf off (encodeArgs as)) :
    ∃ c, showArg e key name as.length off = .ok (key, text) c := by
  obtain ⟨o, h1, h2⟩ := getData_find hf hok hn ha h
  obtain ⟨c, h3⟩ := displayArg_at hf hs h2
  exact ⟨c, by unfold showArg; rw [bind_run, h1, Res.bind_ok]; dsimp only; rw [bind_run, h3]; rfl⟩

theorem showMotes_at {e : Env} {key name : Bytes} {off : Nat} {as : List Arg} {a : Arg} {text : Bytes} (hf : Fits e)
    (hok : ∀ x ∈ as, x.Ok) (hn : noNul as) (ha : as.find? (fun b => b.name == name) = some a)
    (hs : ShownMotes a.ty a.value text) (h : At e.buf off (encodeArgs as)) :
    ∃ c, showMotes e key name as.length off = .ok (key, text) c := by
  obtain ⟨o, h1, h2⟩ := getData_find hf hok hn ha h
  obtain ⟨c, h3⟩ := displayMotes_at hf hs h2
  exact ⟨c, by unfold showMotes; rw [bind_run, h1, Res.bind_ok]; dsimp only; rw [bind_run, h3]; rfl⟩

end Casper
