import Verif.Lib.DeployAccept
/-
Where undefined behaviour can arise while a Deploy is parsed and validated.
-/
namespace Casper
open M

/-- If `m` started in `s` has undefined behaviour, then `Q`. -/
def FaultPost {σ α : Type} (m : M σ α) (s : σ) (Q : Fault → Prop) : Prop := ∀ f, m s = .fault f → Q f

section
variable {σ α β : Type} {m : M σ α} {k : α → M σ β} {s : σ} {Q : Fault → Prop}

theorem FaultPost.none (h : ∀ f, m s ≠ .fault f) : FaultPost m s Q := fun f hf => absurd hf (h f)

theorem FaultPost.seq {R : α → σ → Prop} (hm : FaultPost m s Q) (hp : Post m s R) (hk : ∀ a t, R a t → FaultPost (k a) t Q) :
    FaultPost (m >>= k) s Q := by
  intro f h
  rw [bind_run] at h
  cases hr : m s with
  | ok a t => rw [hr] at h; exact hk a t (hp a t hr) f h
  | err x t => rw [hr] at h; cases h
  | fault g => rw [hr] at h; cases h; exact hm f hr

theorem FaultPost.requireThen {c : Prop} [Decidable c] {x : Nat} {k : Unit → M σ β} (h : c → FaultPost (k ()) s Q) :
    FaultPost (require c x >>= k) s Q :=
  .seq (R := fun _ t => c ∧ t = s) (.none (NF.require c x s)) (by
    intro a t ht; rw [require_run] at ht; split at ht
    · cases ht; exact ⟨by assumption, rfl⟩
    · cases ht) fun _ t ⟨hc, ht⟩ => by rw [ht]; exact h hc
end

/-- The ways in which parsing a Deploy can have undefined behaviour: header and payment are read (payment up to `p`), the
session has type 0, module bytes, and parsing it has the undefined behaviour. -/
theorem readDeploy_fault {e : Env} : FaultPost (readDeploy e) ⟨0, 0, {}⟩ (fun f => ∃ h p, HeaderFacts e h ∧
    At e.buf h.bodyStart [0] ∧ parseDeployItem e true ⟨h.bodyStart + 1, 0, {}⟩ = .ok () p ∧ At e.buf p.off [0] ∧
    parseDeployItem e false ⟨p.off + 1, p.epo, { typ := 0 }⟩ = .fault f) := by
  unfold readDeploy
  have hh0 : NF (readDeployHeader e) := by
    unfold readDeployHeader
    refine .bind (.require _ _) fun _ => .bind (NF_ld (NF_readU8 e)) fun _ => .bind (.require _ _) fun _ =>
      .bind (NF_updHeader _) fun _ => .bind .get fun _ => .bind (NF_ld (NF_indexPart _ _ _)) fun _ =>
      .bind (NF_ld (NF_readLE e 4)) fun _ => .bind (NF_updHeader _) fun _ => .bind .get fun _ =>
      .bind (NF_ld (NF_indexPart _ _ _)) fun _ => .bind (NF_ld (NF_readLE e 4)) fun _ => .bind (NF_updHeader _) fun _ =>
      .bind .get fun _ => NF_ld (NF_seek _)
  refine .seq (.none (hh0 _)) readDeployHeader_post fun _ t ⟨h, hh, ht⟩ => ?_
  rw [ht]
  refine .seq (.none (NF_ld (NF_readU8 e) _)) (ld_post readU8_post) fun ty t ⟨⟨h1, h2, h3, h4⟩, h5⟩ => .requireThen fun h6 => ?_
  rw [h5, h3]
  refine .seq (.none (NF_onPayment (NF_upd _) _)) (onPayment_post (Post.self)) fun _ t ⟨u, hu, ht⟩ => .requireThen fun h7 => ?_
  cases hu
  rw [ht]
  subst h7
  refine .seq (.none ?_) (onPayment_post Post.self) fun _ t ⟨p, hp, ht⟩ => ?_
  · intro f hf
    unfold onPayment at hf
    split at hf <;> cases hf
    rename_i hf
    exact NF_parsePayment e _ rfl f hf
  rw [ht]
  refine .seq (.none (NF.get _)) Post.self fun p' t hp' => ?_
  cases hp'
  refine .requireThen fun h8 => ?_
  dsimp only at h8 hp ⊢
  refine .seq (.none (NF_ld (NF_readU8 e) _)) (ld_post readU8_post) fun k t ⟨⟨h9, h10, h11, h12⟩, h13⟩ => .requireThen fun h14 => ?_
  rw [h13, h11]
  refine .seq (.none ?_) (onSession_post Post.self) fun _ t ⟨u, hu, ht⟩ => ?_
  · intro f hf; cases hf
  cases hu
  rw [ht]
  refine .seq ?_ Post.self fun _ t _ => .none (NF.modify _ _)
  intro f hf
  unfold onSession at hf
  split at hf <;> cases hf
  rename_i hf
  rcases Nat.eq_zero_or_pos k with hk | hk
  · subst hk
    exact ⟨h, p, hh, h1, hp, h9, hf⟩
  · exact absurd hf ((Steady_parseDeployItem e false _ (show k ≠ 0 by omega)).1 f)

/-- Validation of a parsed Deploy stays inside the data, unless the header (with the hash behind it) is said to extend
beyond them. -/
theorem DeployParse.validate_fault {e : Env} (hf : Fits e) {s : DS} {p q : IS} {k : Nat} (h : DeployParse e s p q k)
    (hl : headerLength s.dep.header + 32 ≤ e.buf.length) (t : Nat) (f : Fault) : validateDeploy e s.dep t ≠ .fault f := by
  unfold Fits at hf
  obtain ⟨_, _, _, _, _, _, -, -, -, -, -, -, -, hv⟩ := h.hashes hf (by omega)
  obtain ⟨t', hv⟩ := hv t
  rw [hv]
  split
  · split <;> intro h <;> cases h
  · intro h; cases h

end Casper
