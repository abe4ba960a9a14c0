import Verif.Lib.Show
import Verif.Lib.SampleDeploy
import Verif.Props.Transfers
/-
C16: the texts of argument values.
-/
namespace Casper
open M

/-- Two serialized values of a type that mean the same; for keys and URefs: up to the tag (first byte) resp. the access rights (last byte). -/
def sameValue : CLType → Bytes → Bytes → Prop
  | .u512, v, w => leVal v.tail = leVal w.tail
  | .key, v, w => v.tail = w.tail
  | .uref, v, w => v.dropLast = w.dropLast
  | .option .uref, v, w => v.dropLast = w.dropLast
  | _, v, w => v = w

theorem checksumHex_inj {H : Hash} {xs ys : Bytes} (h : checksumHex H xs = checksumHex H ys) : xs = ys := by
  apply hexText_inj
  rw [← casedHex_lower (H xs) xs, ← casedHex_lower (H ys) ys]
  exact congrArg _ h

theorem decText_null {n : Nat} : decText n ≠ b!"Null" := by
  intro h
  have := decText_digit n 0x4e (by rw [h]; decide)
  exact absurd this (by decide)

theorem halves_take (xs : Bytes) (b : UInt8) : halves (b :: xs) = [b.toNat / 16, b.toNat % 16] ++ halves xs := rfl

theorem casedHex_null {H : Hash} {xs : Bytes} : checksumHex H xs ≠ b!"Null" := by
  intro h
  have h1 := casedHex_lower (H xs) xs
  rw [show casedHex (H xs) xs = b!"Null" from h] at h1
  have h2 : (0x6e : UInt8) ∈ hexText xs := by rw [← h1]; decide
  unfold hexText at h2
  obtain ⟨n, hn, h3⟩ := List.mem_map.1 h2
  have := halves_lt xs n hn
  clear hn
  interval_cases n <;> revert h3 <;> decide

theorem shown_inj {H : Hash} {t t' : CLType} {v w s s' : Bytes} (hv : Shown H t v s) (hw : Shown H t' w s') (ht : t = t') (he : s = s') :
    sameValue t v w := by
  cases hv with
  | u8 n hn => cases hw <;> cases ht; rw [decText_inj he]; rfl
  | u32 n hn => cases hw <;> cases ht; rw [decText_inj he]; rfl
  | u64 n hn => cases hw <;> cases ht; rw [decText_inj he]; rfl
  | u512 k n hk hn =>
    cases hw <;> cases ht
    rename_i k' n' hk' hn'
    have := C17_amount_injective _ _ he
    subst this
    show leVal (le k n) = leVal (le k' n)
    rw [leVal_le k n hn, leVal_le k' n hn']
  | key tag xs hx => cases hw <;> cases ht; exact checksumHex_inj he
  | uref xs r hx =>
    cases hw <;> cases ht
    show List.dropLast _ = List.dropLast _
    rw [List.dropLast_concat, List.dropLast_concat, checksumHex_inj he]
  | none t =>
    cases hw <;> cases ht
    · cases t <;> rfl
    · exact absurd he.symm decText_null
    · exact absurd he.symm decText_null
    · exact absurd he.symm casedHex_null
  | someU32 n hn =>
    cases hw <;> cases ht
    · exact absurd he decText_null
    · rw [decText_inj he]; rfl
  | someU64 n hn =>
    cases hw <;> cases ht
    · exact absurd he decText_null
    · rw [decText_inj he]; rfl
  | someURef xs r hx =>
    cases hw <;> cases ht
    · exact absurd he casedHex_null
    · show List.dropLast (1 :: (xs ++ [r])) = List.dropLast _
      rw [← List.cons_append, ← List.cons_append, List.dropLast_concat, List.dropLast_concat, checksumHex_inj he]
  | byteArray xs h0 hx =>
    cases hw <;> try cases ht
    exact checksumHex_inj he
  | ed25519 k hk =>
    cases hw <;> cases ht
    · have := checksumHex_inj (List.append_cancel_left he); subst this; rfl
    · exact absurd (congrArg (fun l => l[1]?) he) (by simp)
  | secp256k1 k hk =>
    cases hw <;> cases ht
    · exact absurd (congrArg (fun l => l[1]?) he) (by simp)
    · have := checksumHex_inj (List.append_cancel_left he); subst this; rfl

/-- **C16, the text.** A serialized value of a displayable type, standing at the cursor and followed by its type, is shown as specified by
`Shown`: numbers in decimal, byte strings and keys in full hexadecimal. -/
theorem C16_text (e : Env) (hf : Fits e) (off : Nat) (t : CLType) (v text : Bytes) (hs : Shown e.blake t v text)
    (h : At e.buf off (v ++ t.encode)) : ∃ c, displayArg e t.tag v.length off = .ok text c :=
  displayArg_at hf hs h

/-- **C16, unambiguous.** If two such values of the same type are shown by the same text, they are the same value; for keys up to the tag,
for URefs up to the access rights.  (These are indeed not shown, and neither are long byte strings: `C16_key_false`, `C16_uref_false`,
`C16_long_false`.) -/
theorem C16_injective_partial (e e' : Env) (hb : e.blake = e'.blake) (hf : Fits e) (hf' : Fits e') (off off' : Nat) (t : CLType)
    (v w s s' text : Bytes) (hv : Shown e.blake t v s) (hw : Shown e'.blake t w s') (ha : At e.buf off (v ++ t.encode))
    (ha' : At e'.buf off' (w ++ t.encode)) (c c' : Nat) (h : displayArg e t.tag v.length off = .ok text c)
    (h' : displayArg e' t.tag w.length off' = .ok text c') : sameValue t v w := by
  obtain ⟨_, h1⟩ := displayArg_at hf hv ha
  obtain ⟨_, h2⟩ := displayArg_at hf' hw ha'
  rw [h] at h1
  rw [h'] at h2
  have e1 := (Res.ok.inj h1).1
  have e2 := (Res.ok.inj h2).1
  subst e1
  subst e2
  rw [← hb] at hw
  exact shown_inj hv hw rfl rfl

/-- Concretely: an optional number, a byte string, a key. -/
example : displayArg (sampleEnv (1 :: le 8 7 ++ [13, 5])) 13 9 0 = .ok b!"7" 9 ∧
    displayArg (sampleEnv ([0x17, 0x2a, 0xbc, 0xde, 0xf0] ++ [15] ++ le 4 5)) 15 5 0 = .ok b!"172aBcDeF0" 0 ∧
    displayArg (sampleEnv ([1, 0x17, 0x2a, 0xbc, 0xde, 0xf0] ++ [11])) 11 6 0 = .ok b!"172aBcDeF0" 1 := by decide +kernel

/-- **C16 fails** for keys: keys with different tags (an account and a contract, say) with the same address are shown by the same text. -/
theorem C16_key_false (e : Env) (hf : Fits e) (off off' : Nat) (tag tag' : UInt8) (xs : Bytes) (hl : xs.length ≤ 49)
    (h : At e.buf off (tag :: xs ++ [11])) (h' : At e.buf off' (tag' :: xs ++ [11])) :
    ∃ text c c', displayArg e 11 (xs.length + 1) off = .ok text c ∧ displayArg e 11 (xs.length + 1) off' = .ok text c' := by
  obtain ⟨c, h1⟩ := displayArg_at hf (.key tag xs hl) (by simpa [CLType.encode, CLType.tag] using h)
  obtain ⟨c', h2⟩ := displayArg_at hf (.key tag' xs hl) (by simpa [CLType.encode, CLType.tag] using h')
  exact ⟨_, c, c', h1, h2⟩

/-- **C16 fails** for URefs: the access rights are not shown. -/
theorem C16_uref_false (e : Env) (hf : Fits e) (off off' : Nat) (r r' : UInt8) (xs : Bytes) (hl : xs.length ≤ 49)
    (h : At e.buf off (xs ++ [r] ++ [12])) (h' : At e.buf off' (xs ++ [r'] ++ [12])) :
    ∃ text c c', displayArg e 12 (xs.length + 1) off = .ok text c ∧ displayArg e 12 (xs.length + 1) off' = .ok text c' := by
  obtain ⟨c, h1⟩ := displayArg_at hf (.uref xs r hl) (by simpa [CLType.encode, CLType.tag] using h)
  obtain ⟨c', h2⟩ := displayArg_at hf (.uref xs r' hl) (by simpa [CLType.encode, CLType.tag] using h')
  rw [List.length_append, List.length_singleton] at h1 h2
  exact ⟨_, c, c', h1, h2⟩

/-- **C16 fails** for long byte strings: every byte string of 51 to 127 or 179 to 255 bytes is shown as the empty text, and one of 256 to 305
bytes as if it consisted of its first bytes only, as many as it has more than 256. -/
theorem C16_long_false (e : Env) (hf : Fits e) (off : Nat) (xs : Bytes) (t : Nat) (h : At e.buf off (xs ++ 15 :: le 4 t)) :
    (51 ≤ xs.length ∧ xs.length ≤ 127 ∨ 179 ≤ xs.length ∧ xs.length ≤ 255 → displayArg e 15 xs.length off = .ok [] off) ∧
    (256 ≤ xs.length → xs.length ≤ 305 → displayArg e 15 xs.length off = .ok (checksumHex e.blake (xs.take (xs.length - 256))) off) := by
  have hle := h.le
  simp only [List.length_append, List.length_cons, le_length] at hle
  unfold Fits at hf
  have hu : ¬ u32 (off + xs.length) ≥ e.buf.length := by rw [u32_id (by omega)]; omega
  have main : xs.length ≠ 0 → displayArg e 15 xs.length off = printBytes e off xs.length off := by
    intro h0
    unfold displayArg
    simp only [bind_run, get_run, Res.bind_ok]
    rw [if_neg hu, if_neg h0]
    rfl
  constructor
  · intro hl
    rw [main (by omega)]
    unfold printBytes
    rw [if_pos (by unfold u8 u16; omega)]
    rfl
  · intro h1 h2
    rw [main (by omega)]
    have h3 : At e.buf off (xs.take (xs.length - 256)) := by
      have := (At.append.1 h).1
      rw [← List.take_append_drop (xs.length - 256) xs, At.append] at this
      exact this.1
    have h4 := printBytes_at (s := off) h3 (by simp; omega)
    rw [List.length_take, show min (xs.length - 256) xs.length = xs.length - 256 by omega] at h4
    rw [← h4]
    unfold printBytes
    rw [show u8 (u16 xs.length) = u8 (u16 (xs.length - 256)) by unfold u8 u16; omega]

/-- The sample Deploy with the given target of the transfer. -/
def sampleTo (v : Bytes) (t : CLType) : DeploySpec :=
  { sampleDeploy with session := .transfer [⟨b!"amount", bigNum 5 24500000000, .u512⟩, ⟨b!"target", v, t⟩, ⟨b!"id", 1 :: le 8 7, .option .u64⟩] }

/-- The target shown for such a Deploy. -/
def targetShown (v : Bytes) (t : CLType) : Res Unit (Bytes × Bytes) :=
  (reviewItem samplePl (run samplePl (Dev.init samplePl) (sampleUpload (0 :: (sampleTo v t).tx Blake.H []))).1 .tx 5 0).val

/-- **C16 fails** in reviews: transfers to an account key and to a contract key with the same hash show the same target; and a transfer to 64
bytes shows none. -/
theorem C16_target_false :
    targetShown (0 :: List.replicate 32 0x11) .key = .ok (b!"Target", List.replicate 64 0x31) () ∧
    targetShown (1 :: List.replicate 32 0x11) .key = .ok (b!"Target", List.replicate 64 0x31) () ∧
    targetShown (List.replicate 64 0x11) (.byteArray 64) = .ok (b!"Target", []) () := by decide +kernel

end Casper
