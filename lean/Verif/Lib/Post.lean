import Verif.Lib.Safe
import Verif.Lib.Args
/-
`Post m s Q`: if `m` succeeds from `s` then `Q` holds of result and final state.  Inversion of successful parses.
-/
namespace Casper
open M

/-- `Q` holds after every successful run of `m` from `s`. -/
def Post {σ α : Type} (m : M σ α) (s : σ) (Q : α → σ → Prop) : Prop := ∀ a t, m s = .ok a t → Q a t

section
variable {σ α β : Type} {s : σ}

theorem Post.seq {m : M σ α} {f : α → M σ β} {P : α → σ → Prop} {Q : β → σ → Prop} (h : Post m s P)
    (h' : ∀ a t, P a t → Post (f a) t Q) : Post (m >>= f) s Q := by
  intro b u hb
  rw [bind_eq_ok] at hb
  obtain ⟨a, t, h1, h2⟩ := hb
  exact h' a t (h a t h1) b u h2
theorem Post.mono {m : M σ α} {P Q : α → σ → Prop} (h : Post m s P) (h' : ∀ a t, P a t → Q a t) : Post m s Q :=
  fun a t ht => h' a t (h a t ht)
theorem Post.and {m : M σ α} {P Q : α → σ → Prop} (h : Post m s P) (h' : Post m s Q) :
    Post m s (fun a t => P a t ∧ Q a t) := fun a t ht => ⟨h a t ht, h' a t ht⟩
/-- Keep the run itself. -/
theorem Post.run {m : M σ α} {P : α → σ → Prop} (h : Post m s P) : Post m s (fun a t => m s = .ok a t ∧ P a t) :=
  fun a t ht => ⟨ht, h a t ht⟩
theorem Post.self {m : M σ α} : Post m s (fun a t => m s = .ok a t) := fun _ _ h => h
theorem Post.pure {a : α} {Q : α → σ → Prop} (h : Q a s) : Post (Pure.pure a : M σ α) s Q := by
  intro b t hb; rw [pure_eq_ok] at hb; obtain ⟨rfl, rfl⟩ := hb; exact h
theorem Post.fail {x : Nat} {Q : α → σ → Prop} : Post (M.fail x : M σ α) s Q := by intro b t hb; simp at hb
theorem Post.abort {x : Fault} {Q : α → σ → Prop} : Post (M.abort x : M σ α) s Q := by intro b t hb; simp at hb
theorem Post.get {Q : σ → σ → Prop} (h : Q s s) : Post (M.get : M σ σ) s Q := by
  intro b t hb; simp at hb; obtain ⟨rfl, rfl⟩ := hb; exact h
theorem Post.set {a : σ} {Q : Unit → σ → Prop} (h : Q () a) : Post (M.set a : M σ Unit) s Q := by
  intro b t hb; simp at hb; obtain rfl := hb; exact h
theorem Post.modify {f : σ → σ} {Q : Unit → σ → Prop} (h : Q () (f s)) : Post (M.modify f : M σ Unit) s Q := by
  intro b t hb; simp at hb; obtain rfl := hb; exact h
theorem Post.require {c : Prop} [Decidable c] {x : Nat} {Q : Unit → σ → Prop} (h : c → Q () s) :
    Post (M.require c x : M σ Unit) s Q := by
  intro b t hb; rw [require_eq_ok] at hb; obtain ⟨hc, rfl⟩ := hb; exact h hc
theorem Post.ite {c : Prop} [Decidable c] {m n : M σ α} {Q : α → σ → Prop} (hm : c → Post m s Q)
    (hn : ¬ c → Post n s Q) : Post (if c then m else n) s Q := by
  split
  · exact hm ‹_›
  · exact hn ‹_›
theorem Post.attempt {m : M σ α} {Q : Except Nat α → σ → Prop} (h : Post m s (fun a t => Q (.ok a) t))
    (h' : ∀ x t, m s = .err x t → Q (.error x) t) : Post (M.attempt m) s Q := by
  intro r t ht
  rcases attempt_eq_ok.1 ht with ⟨a, rfl, h1⟩ | ⟨x, rfl, h1⟩
  · exact h a t h1
  · exact h' x t h1

/-! Forms for use in front of a continuation. -/

theorem Post.getThen {f : σ → M σ β} {Q : β → σ → Prop} (h : Post (f s) s Q) : Post (M.get >>= f) s Q :=
  Post.seq (P := fun a t => a = s ∧ t = s) (Post.get ⟨rfl, rfl⟩) fun _ _ ⟨h1, h2⟩ => h1 ▸ h2 ▸ h
theorem Post.setThen {f : Unit → M σ β} {u : σ} {Q : β → σ → Prop} (h : Post (f ()) u Q) : Post (M.set u >>= f) s Q :=
  Post.seq (P := fun _ t => t = u) (Post.set rfl) fun _ _ h2 => h2 ▸ h
theorem Post.modifyThen {f : Unit → M σ β} {g : σ → σ} {Q : β → σ → Prop} (h : Post (f ()) (g s) Q) :
    Post (M.modify g >>= f) s Q :=
  Post.seq (P := fun _ t => t = g s) (Post.modify rfl) fun _ _ h2 => h2 ▸ h
theorem Post.requireThen {f : Unit → M σ β} {c : Prop} [Decidable c] {x : Nat} {Q : β → σ → Prop}
    (h : c → Post (f ()) s Q) : Post (M.require c x >>= f) s Q :=
  Post.seq (P := fun _ t => c ∧ t = s) (Post.require fun hc => ⟨hc, rfl⟩) fun _ _ ⟨hc, h2⟩ => h2 ▸ h hc
theorem Post.pureThen {f : α → M σ β} {a : α} {Q : β → σ → Prop} (h : Post (f a) s Q) : Post (Pure.pure a >>= f) s Q :=
  Post.seq (P := fun b t => b = a ∧ t = s) (Post.pure ⟨rfl, rfl⟩) fun _ _ ⟨h1, h2⟩ => h1 ▸ h2 ▸ h
end

/-! ### Readers -/

theorem readLE_post {e : Env} {n off : Nat} (hn : 0 < n) :
    Post (readLE e n) off (fun v t => At e.buf off (le n v) ∧ v < 256 ^ n ∧ t = off + n ∧ t ≤ e.buf.length) := by
  intro v t h
  obtain ⟨xs, h1, h2, rfl, rfl⟩ := readLE_eq_ok h
  have h2 : At e.buf off xs := h2.resolve_left (by omega)
  have := leVal_lt xs
  have h3 := le_leVal xs
  rw [h1] at this h3
  have h4 := h2.le
  rw [h1] at h4
  exact ⟨h3.symm ▸ h2, this, rfl, h4⟩

theorem readU8_post {e : Env} {off : Nat} :
    Post (readU8 e) off (fun v t => At e.buf off [UInt8.ofNat v] ∧ v < 256 ∧ t = off + 1 ∧ t ≤ e.buf.length) := by
  intro v t h
  obtain ⟨x, hx, rfl, rfl⟩ := readU8_eq_ok.1 h
  refine ⟨by simpa using hx, x.toNat_lt, rfl, by have := hx.le; simpa using this⟩

theorem readU16_post {e : Env} {off : Nat} :
    Post (readU16 e) off (fun v t => At e.buf off (le 2 v) ∧ v < 65536 ∧ t = off + 2 ∧ t ≤ e.buf.length) :=
  readLE_post (by decide)
theorem readU32_post {e : Env} {off : Nat} :
    Post (readU32 e) off (fun v t => At e.buf off (le 4 v) ∧ v < 4294967296 ∧ t = off + 4 ∧ t ≤ e.buf.length) :=
  readLE_post (by decide)
theorem readU64_post {e : Env} {off : Nat} :
    Post (readU64 e) off (fun v t => At e.buf off (le 8 v) ∧ v < 2 ^ 64 ∧ t = off + 8 ∧ t ≤ e.buf.length) :=
  readLE_post (by decide)

theorem slice_post {e : Env} {off n s : Nat} :
    Post (slice e off n) s (fun xs t => At e.buf off xs ∧ xs.length = n ∧ t = s) := by
  intro xs t h
  obtain ⟨h1, h2, h3⟩ := slice_eq_ok.1 h
  exact ⟨h1, h2, h3.symm⟩

/-- Length-prefixed items: the claimed length and where the cursor goes (`uint32_t` arithmetic). -/
theorem readBytes_post {e : Env} {off : Nat} :
    Post (readBytes e) off (fun n t => At e.buf off (le 4 n) ∧ n < 4294967296 ∧ off + 4 ≤ e.buf.length ∧
      u32 (off + 4 + n) ≤ e.buf.length ∧ t = u16 (off + 4 + n)) := by
  unfold readBytes
  refine readU32_post.seq fun n t ⟨h1, h2, h3, h4⟩ => Post.getThen (Post.ite (fun _ => .fail) fun h => ?_)
  subst h3
  exact Post.setThen (Post.pure ⟨h1, h2, h4, by omega, rfl⟩)

theorem parseItem_post {e : Env} {off : Nat} :
    Post (parseItem e) off (fun _ t => ∃ n, At e.buf off (le 4 n) ∧ n < 4294967296 ∧ off + 4 ≤ e.buf.length ∧
      u32 (off + 4 + n) ≤ e.buf.length ∧ t = u16 (off + 4 + n)) := by
  unfold parseItem
  refine readU32_post.seq fun n t ⟨h1, h2, h3, h4⟩ => Post.getThen (Post.ite (fun _ => .fail) fun h => ?_)
  subst h3
  exact Post.set ⟨n, h1, h2, h4, by omega, rfl⟩

theorem copyItem_post {e : Env} {off cap : Nat} (hf : Fits e) :
    Post (copyItem e cap) off (fun xs t => At e.buf off (pfx xs) ∧ xs.length ≤ cap ∧ t = off + 4 + xs.length ∧
      t ≤ e.buf.length) := by
  unfold copyItem
  refine readU32_post.seq fun n t ⟨h1, h2, h3, h4⟩ => Post.getThen (Post.ite (fun _ => .fail) fun h => ?_)
  subst h3
  refine slice_post.seq fun xs t ⟨h5, h6, h7⟩ => ?_
  subst h7
  refine Post.modifyThen (Post.pure ?_)
  have := h5.le
  unfold Fits at hf
  have hu : u16 (off + 4 + n) = off + 4 + n := Nat.mod_eq_of_lt (by omega)
  refine ⟨?_, by omega, by rw [hu]; omega, by rw [hu]; omega⟩
  show At e.buf off (le 4 xs.length ++ xs)
  rw [At.append, h6]
  refine ⟨h1, ?_⟩
  rw [show (le 4 n).length = 4 from rfl]
  exact h5

theorem getType_post {e : Env} {opt off : Nat} : Post (getType e opt) off (fun r t => off < t ∧ t ≤ e.buf.length ∧
    ∃ x : UInt8, At e.buf off [x] ∧ r.1 = x.toNat ∧ r.1 ≤ 22) := by
  unfold getType
  refine readU8_post.seq fun v t ⟨h1, h2, h3, h4⟩ => Post.requireThen fun h5 => ?_
  intro r u h
  rw [bind_eq_ok] at h
  obtain ⟨o, u', ha, hb⟩ := h
  have := (safe_iff.1 (addl_safe3 (e := e) (f := 0) (t := v) (opt := opt) t)).1 _ _ ha
  rw [pure_eq_ok] at hb
  obtain ⟨rfl, rfl⟩ := hb
  unfold Fwd at this
  refine ⟨by omega, by omega, UInt8.ofNat v, h1, ?_, h5⟩
  simp [UInt8.toNat_ofNat']; omega

/-- Did the program succeed? -/
def Res.succeeded {σ α : Type} : Res σ α → Bool
  | .ok _ _ => true
  | _ => false

theorem Res.of_succeeded {σ : Type} {r : Res σ Unit} (h : r.succeeded = true) : ∃ t, r = .ok () t := by
  cases r with
  | ok a t => exact ⟨t, rfl⟩
  | err _ _ => cases h
  | fault _ => cases h

end Casper
