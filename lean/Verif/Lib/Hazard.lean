import Verif.Lib.Show
import Verif.Lib.Wasm
import Verif.Lib.DeployFault
/-
Exactly when showing a value leaves the bounds of memory.
-/
namespace Casper
open M

/-- Lengths for which `encode` (called with at most `n` bytes by `parser_printBytes`) leaves its arrays: modulo 256, 50 (no room
for the terminator) or 128 to 178 (the doubled length wraps to at most 100). -/
def BadLen (n : Nat) : Prop := n % 256 = 50 ∨ (128 ≤ n % 256 ∧ n % 256 ≤ 178)

instance (n : Nat) : Decidable (BadLen n) := by unfold BadLen; infer_instance

/-- A value of type `t` and length `len` at `off` that cannot be shown within the arrays and the data: a key or URef whose
length less one is bad, a present optional URef whose length less two is bad, a byte array of bad length, a public key whose
tag claims more bytes than the data has. -/
inductive ValueBad (e : Env) (t len off : Nat) : Prop
  | key (h : t = 11 ∨ t = 12) (hl : 1 ≤ len) (hb : BadLen (len - 1))
  | uref (h : t = 13) (hl : 2 ≤ len) (k : UInt8) (hk : k ≠ 0) (ha : At e.buf off [k]) (hi : At e.buf (off + len + 1) [12]) (hb : BadLen (len - 2))
  | bytes (h : t = 15) (hl : 1 ≤ len) (hb : BadLen len)
  | pk (h : t = 22) (hl : 1 ≤ len) (k : UInt8) (ha : At e.buf off [k]) (hb : e.buf.length < off + (if k = 1 then 33 else 34))

section
variable {e : Env}

theorem faults_bind {σ α β : Type} {m : M σ α} {k : α → M σ β} {s : σ} : (∃ f, (m >>= k) s = .fault f) ↔
    (∃ f, m s = .fault f) ∨ ∃ a t, m s = .ok a t ∧ ∃ f, k a t = .fault f := by
  rw [bind_run]
  cases m s <;> simp

theorem NF.faults {σ α : Type} {m : M σ α} (h : NF m) {s : σ} : (∃ f, m s = .fault f) ↔ False := by
  simp only [iff_false, not_exists]; exact h s

theorem slice_in {off n s : Nat} (h : off + n ≤ e.buf.length) : slice e off n s = .ok ((e.buf.drop off).take n) s := by
  unfold slice; rw [if_pos h]

theorem printBytes_faults {off len s : Nat} (h : off + len ≤ e.buf.length) (hf : Fits e) :
    (∃ f, printBytes e off len s = .fault f) ↔ BadLen len := by
  unfold Fits at hf
  have h1 : u8 (u16 len) = len % 256 := by unfold u8 u16; omega
  unfold printBytes
  simp only [h1]
  unfold BadLen
  split
  · rename_i h2
    unfold u8 at h2
    simp only [pure_run, reduceCtorEq, exists_false, false_iff]
    omega
  · rename_i h2
    unfold u8 at h2
    split
    · simp only [abort_run, Res.fault.injEq, exists_eq', true_iff]
      omega
    · rw [bind_run, slice_in (by omega), Res.bind_ok]
      split
      · simp only [abort_run, Res.fault.injEq, exists_eq', true_iff]
        omega
      · simp only [pure_run, reduceCtorEq, exists_false, false_iff]
        omega

theorem NF_motesText_decimal (v : Nat) (h : v < 10 ^ 256) : NF (motesText (decimal v)) := by
  intro s f hf
  rw [motesText_decimal v h s] at hf
  cases hf

/-- What a successful lookup says about the data: the value of `len` bytes at `o`, preceded by its length and followed by its type. -/
structure Looked (e : Env) (len t o : Nat) : Prop where
  four : 4 ≤ o
  length : At e.buf (o - 4) (le 4 len)
  lt : len < 4294967296
  typ : At e.buf (o + len) [UInt8.ofNat t]
  known : t ≤ 22
  option : t = 13 → o + len + 2 ≤ e.buf.length

theorem getType_option {opt off : Nat} : Post (getType e opt) off (fun r _ => r.1 = 13 → off + 2 ≤ e.buf.length) := by
  unfold getType
  refine readU8_post.seq fun v t ⟨h1, h2, h3, h4⟩ => Post.requireThen fun h5 => ?_
  intro r u h
  rw [bind_eq_ok] at h
  obtain ⟨o, u', ha, hb⟩ := h
  rw [pure_eq_ok] at hb
  obtain ⟨rfl, rfl⟩ := hb
  intro h13
  dsimp only at h13
  subst h13
  unfold addlType at ha
  rw [if_neg (by decide), if_pos rfl, bind_eq_ok] at ha
  obtain ⟨i, t', hi, -⟩ := ha
  obtain ⟨g1, g2, g3, g4⟩ := readU8_post _ _ hi
  omega

theorem getData_looked (hf : Fits e) {name : Bytes} (n : Nat) : ∀ {off : Nat}, Post (getData e name n) off (fun r o => Looked e r.1 r.2 o) := by
  induction n with
  | zero => intro off; exact .fail
  | succ n ih =>
    intro off
    rw [getData]
    refine (copyItem_post hf).seq fun key t ⟨h1, h2, h3, h4⟩ => Post.ite (fun _ => ?_) fun _ => ?_
    · refine readU32_post.seq fun len t' ⟨h5, h6, h7, h8⟩ => Post.getThen (Post.ite (fun _ => .fail) fun h9 => ?_)
      refine Post.modifyThen ?_
      have hb : u16 (t' + len) = t' + len := u16_id (by unfold Fits at hf; omega)
      rw [hb]
      refine (getType_post.and getType_option).seq fun r t'' ⟨⟨g1, g2, x, g3, g4, g5⟩, g6⟩ => ?_
      obtain ⟨r1, r2⟩ := r
      dsimp only at g4 g5 g6 ⊢
      refine Post.setThen (Post.pure ⟨by omega, ?_, h6, ?_, g5, fun h => by have := g6 h; omega⟩)
      · dsimp only; rw [h7, Nat.add_sub_cancel]; exact h5
      · dsimp only; rw [g4, UInt8.ofNat_toNat]; exact g3
    · exact Post.seq (P := fun _ _ => True) (fun _ _ _ => trivial) fun _ t _ =>
        Post.seq (P := fun _ _ => True) (fun _ _ _ => trivial) fun _ t _ => ih

theorem Looked.lt_length {len t o : Nat} (h : Looked e len t o) : o + len + 1 ≤ e.buf.length := by
  have := h.typ.le; simpa using this

theorem at_exists {i : Nat} (h : i < e.buf.length) : ∃ k, At e.buf i [k] := by
  refine ⟨e.buf[i], e.buf.take i, e.buf.drop (i + 1), ?_, by simp; omega⟩
  rw [List.append_assoc, List.singleton_append, ← List.drop_eq_getElem_cons h, List.take_append_drop]

theorem At.byte_inj {buf : Bytes} {i : Nat} {a b : UInt8} (h : At buf i [a]) (h' : At buf i [b]) : a = b := by
  have := h.unique h' rfl; simpa using this

/-- Showing a value that was looked up faults exactly when the value is bad. -/
theorem displayArg_faults (hf : Fits e) {len t o : Nat} (h : Looked e len t o) :
    (∃ f, displayArg e t len o = .fault f) ↔ ValueBad e t len o := by
  have hlt := h.lt_length
  have hf' := hf
  unfold Fits at hf'
  have hno : ∀ {P : Prop}, (P ↔ False) → ¬ ValueBad e t len o → (P ↔ ValueBad e t len o) := fun h1 h2 => h1.trans (by simp [h2])
  unfold displayArg
  rw [bind_run, get_run, Res.bind_ok]
  rw [if_neg (by rw [u32_id (by omega)]; omega)]
  by_cases h0 : len = 0
  · rw [if_pos h0]
    refine hno (NF.fail _).faults ?_
    intro h; cases h <;> omega
  rw [if_neg h0]
  by_cases ht : t = 3
  · rw [if_pos ht]
    refine hno (NF.bind (NF_readU8 e) fun _ => NF.pure _).faults ?_
    intro h; cases h <;> omega
  rw [if_neg ht]
  have hn1 := ht
  clear ht
  by_cases ht : t = 4
  · rw [if_pos ht]
    refine hno (NF.bind (NF_readLE e 4) fun _ => NF.pure _).faults ?_
    intro h; cases h <;> omega
  rw [if_neg ht]
  have hn2 := ht
  clear ht
  by_cases ht : t = 5
  · rw [if_pos ht]
    refine hno (NF.bind (NF_readLE e 8) fun _ => NF.pure _).faults ?_
    intro h; cases h <;> omega
  rw [if_neg ht]
  have hn3 := ht
  clear ht
  by_cases ht : t = 8
  · rw [if_pos ht]
    refine hno ?_ ?_
    · simp only [iff_false, not_exists]
      intro f hf
      unfold amountBignum at hf
      rw [bind_run, get_run, Res.bind_ok, bind_run, slice_in (by omega), Res.bind_ok] at hf
      exact NF_motesText_decimal _ (Nat.mod_lt _ (by decide)) _ _ hf
    · intro h; cases h <;> omega
  rw [if_neg ht]
  have hn4 := ht
  clear ht
  by_cases ht : t = 11
  · rw [if_pos ht]
    rw [bind_run, skip_run (by omega), Res.bind_ok, bind_run, get_run, Res.bind_ok, printBytes_faults (by omega) hf]
    refine ⟨fun hb => .key (.inl ht) (by omega) hb, fun hv => ?_⟩
    cases hv with
    | key _ _ hb => exact hb
    | _ => omega
  rw [if_neg ht]
  have hn5 := ht
  clear ht
  by_cases ht : t = 12
  · rw [if_pos ht]
    rw [printBytes_faults (by omega) hf]
    refine ⟨fun hb => .key (.inr ht) (by omega) hb, fun hv => ?_⟩
    cases hv with
    | key _ _ hb => exact hb
    | _ => omega
  rw [if_neg ht]
  have hn6 := ht
  clear ht
  by_cases ht : t = 13
  · rw [if_pos ht]
    obtain ⟨k, hk⟩ := at_exists (e := e) (i := o) (by omega)
    obtain ⟨j, hj⟩ := at_exists (e := e) (i := o + len + 1) (by have := h.option ht; omega)
    rw [bind_run, readU8_at hk, Res.bind_ok]
    by_cases hk0 : k.toNat = 0
    · rw [if_pos hk0]
      refine hno (NF.pure _).faults ?_
      intro hv
      cases hv with
      | uref _ _ k' hk' ha _ _ => rw [hk.byte_inj ha] at hk0; exact hk' (by rw [← UInt8.toNat_inj, hk0]; rfl)
      | _ => omega
    rw [if_neg hk0, bind_run, get_run, Res.bind_ok, bind_run, show o + 1 + len = o + len + 1 by omega, byteAt_at hj, Res.bind_ok]
    have hk1 : k ≠ 0 := by rintro rfl; exact hk0 rfl
    have hnot : j.toNat ≠ 12 → ¬ ValueBad e t len o := by
      intro hj12 hv
      cases hv with
      | uref _ _ k' hk' ha hi _ => rw [hj.byte_inj hi] at hj12; exact hj12 rfl
      | _ => omega
    split
    · exact hno (NF.bind (NF_readLE e 8) fun _ => NF.pure _).faults (hnot (by omega))
    split
    · exact hno (NF.bind (NF_readLE e 4) fun _ => NF.pure _).faults (hnot (by omega))
    split
    · rename_i hj12
      have hj' : j = 12 := by rw [← UInt8.toNat_inj, hj12]; rfl
      subst hj'
      split
      · refine hno (NF.fail _).faults ?_
        intro hv; cases hv <;> omega
      rw [printBytes_faults (by omega) hf]
      refine ⟨fun hb => .uref ht (by omega) k hk1 hk hj hb, fun hv => ?_⟩
      cases hv with
      | uref _ _ _ _ _ _ hb => exact hb
      | _ => omega
    · exact hno (NF.fail _).faults (hnot (by assumption))
  rw [if_neg ht]
  have hn7 := ht
  clear ht
  by_cases ht : t = 15
  · rw [if_pos ht]
    rw [printBytes_faults (by omega) hf]
    refine ⟨fun hb => .bytes ht (by omega) hb, fun hv => ?_⟩
    cases hv with
    | bytes _ _ hb => exact hb
    | _ => omega
  rw [if_neg ht]
  have hn8 := ht
  clear ht
  by_cases ht : t = 22
  · rw [if_pos ht]
    obtain ⟨k, hk⟩ := at_exists (e := e) (i := o) (by omega)
    rw [bind_run, byteAt_at hk, Res.bind_ok]
    unfold printAddress
    have hkk : (k.toNat = 1) ↔ k = 1 := by rw [← UInt8.toNat_inj]; rfl
    have hlen : 1 + (if k.toNat = 1 then 32 else 33) = if k = 1 then 33 else 34 := by
      by_cases hk1 : k = 1
      · rw [if_pos hk1, if_pos (hkk.2 hk1)]
      · rw [if_neg hk1, if_neg (fun h => hk1 (hkk.1 h))]
    rw [hlen, bind_run]
    by_cases hb : o + (if k = 1 then 33 else 34) ≤ e.buf.length
    · rw [slice_in hb, Res.bind_ok]
      refine hno (NF.pure _).faults ?_
      intro hv
      cases hv with
      | pk _ _ k' ha hb' => rw [← hk.byte_inj ha] at hb'; omega
      | _ => omega
    · unfold slice
      rw [if_neg hb]
      exact ⟨fun _ => .pk ht (by omega) k hk (by omega), fun _ => ⟨_, rfl⟩⟩
  rw [if_neg ht]
  have hn9 := ht
  clear ht
  refine hno (NF.fail _).faults ?_
  intro hv; cases hv <;> omega

/-- Showing an amount never faults. -/
theorem displayMotes_faults (hf : Fits e) {len t o : Nat} (h : Looked e len t o) (f : Fault) : displayMotes e t len o ≠ .fault f := by
  have hlt := h.lt_length
  unfold Fits at hf
  intro hr
  unfold displayMotes at hr
  rw [bind_run, get_run, Res.bind_ok, if_neg (by rw [u32_id (by omega)]; omega)] at hr
  split at hr
  · cases hr
  split at hr
  · rw [bind_run] at hr
    cases hv : readU32 e o with
    | ok v s =>
      rw [hv, Res.bind_ok] at hr
      exact NF_motesText_decimal v (by have := (readU32_post _ _ hv).2.1; have : (4294967296:Nat) < 10 ^ 256 := by decide
                                       omega) _ _ hr
    | err x s => rw [hv] at hr; cases hr
    | fault f => exact NF_readLE e 4 _ _ hv
  split at hr
  · rw [bind_run] at hr
    cases hv : readU64 e o with
    | ok v s =>
      rw [hv, Res.bind_ok] at hr
      have hvlt := (readLE_post (n := 8) (by decide) _ _ hv).2.1
      exact NF_motesText_decimal v (by have : 256 ^ 8 < 10 ^ 256 := by decide
                                       omega) _ _ hr
    | err x s => rw [hv] at hr; cases hr
    | fault f => exact NF_readLE e 8 _ _ hv
  split at hr
  · unfold amountBignum at hr
    rw [bind_run, get_run, Res.bind_ok, bind_run, slice_in (by omega), Res.bind_ok] at hr
    exact NF_motesText_decimal _ (Nat.mod_lt _ (by decide)) _ _ hr
  · cases hr

/-- Looking up and showing an argument. -/
theorem showArg_fault (hf : Fits e) {key name : Bytes} {n off : Nat} : FaultPost (showArg e key name n) off (fun _ =>
    ∃ len t o, getData e name n off = .ok (len, t) o ∧ Looked e len t o ∧ ValueBad e t len o) := by
  unfold showArg
  refine .seq (.none (NF_getData e name n off)) (getData_looked hf n).run fun r o ⟨h1, h2⟩ => ?_
  obtain ⟨len, t⟩ := r
  dsimp only
  refine .seq (R := fun _ _ => True) (fun f hr => ⟨len, t, o, h1, h2, (displayArg_faults hf h2).1 ⟨f, hr⟩⟩) (fun _ _ _ => trivial) fun _ _ _ => .none (NF.pure _ _)

theorem showMotes_fault (hf : Fits e) {key name : Bytes} {n off : Nat} (f : Fault) : showMotes e key name n off ≠ .fault f := by
  revert f
  show FaultPost (showMotes e key name n) off (fun _ => False)
  unfold showMotes
  refine .seq (.none (NF_getData e name n off)) (getData_looked hf n) fun r o h => ?_
  obtain ⟨len, t⟩ := r
  dsimp only
  exact .seq (R := fun _ _ => True) (.none (displayMotes_faults hf h)) (fun _ _ _ => trivial) fun _ _ _ => .none (NF.pure _ _)

end
end Casper
