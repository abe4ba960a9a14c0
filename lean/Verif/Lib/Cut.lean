import Verif.Lib.Grow
import Verif.Lib.Args
import Verif.Lib.V1Fwd
/-
Argument lists that end too early.
-/
namespace Casper
open M

section
variable {e : Env} {ys : Bytes} {α β : Type}

/-- Reading beyond the data received stops at their end: what `m'` reads from longer data, `m` reads if it is there, and otherwise reports the end
of the data, with the cursor there. -/
def Falls (e : Env) (m' m : P α) : Prop :=
  (∀ s a t, m' s = .ok a t → s ≤ t) ∧
  ∀ s a t, s ≤ e.buf.length → m' s = .ok a t →
    (t ≤ e.buf.length → m s = .ok a t) ∧ (e.buf.length < t → m s = .err eBufferEnd e.buf.length)

theorem Falls.pure (a : α) : Falls e (Pure.pure a : P α) (Pure.pure a) := by
  refine ⟨fun s a t h => ?_, fun s a t hs h => ?_⟩
  · cases h; exact Nat.le_refl _
  · cases h; exact ⟨fun _ => rfl, fun h => by omega⟩

theorem Falls.fail (y : Nat) (m : P α) : Falls e (M.fail y : P α) m := by
  refine ⟨fun s a t h => ?_, fun s a t hs h => ?_⟩ <;> cases h

theorem Falls.require (c : Prop) [Decidable c] (y : Nat) : Falls e (M.require c y : P Unit) (M.require c y) := by
  refine ⟨fun s a t h => ?_, fun s a t hs h => ?_⟩
  · obtain ⟨-, h⟩ := require_eq_ok.1 h; omega
  · have := require_eq_ok.1 h
    exact ⟨fun _ => h, fun _ => by omega⟩

theorem Falls.bind {m m' : P α} {f f' : α → P β} (hm : Falls e m' m) (hf : ∀ a, Falls e (f' a) (f a)) : Falls e (m' >>= f') (m >>= f) := by
  refine ⟨fun s b u h => ?_, fun s b u hs h => ?_⟩
  · obtain ⟨a, t, h1, h2⟩ := bind_eq_ok.1 h
    have := hm.1 _ _ _ h1
    have := (hf a).1 _ _ _ h2
    omega
  · obtain ⟨a, t, h1, h2⟩ := bind_eq_ok.1 h
    have k2 := (hf a).1 _ _ _ h2
    obtain ⟨k3, k4⟩ := hm.2 _ _ _ hs h1
    by_cases ht : t ≤ e.buf.length
    · obtain ⟨k5, k6⟩ := (hf a).2 _ _ _ ht h2
      rw [bind_run, k3 ht, Res.bind_ok]
      exact ⟨k5, k6⟩
    · refine ⟨fun _ => by omega, fun _ => ?_⟩
      rw [bind_run, k4 (by omega)]
      rfl

theorem Falls.ite {c : Prop} [Decidable c] {m n m' n' : P α} (hm : c → Falls e m' m) (hn : ¬ c → Falls e n' n) :
    Falls e (if c then m' else n') (if c then m else n) := by
  split
  · exact hm ‹_›
  · exact hn ‹_›

theorem Falls_readU8 : Falls e (readU8 (e.ext ys)) (readU8 e) := by
  refine ⟨fun s a t h => ?_, fun s a t hs h => ?_⟩
  · obtain ⟨_, _, _, h⟩ := readU8_eq_ok.1 h; omega
  · have ht : t = s + 1 := by obtain ⟨_, _, _, h⟩ := readU8_eq_ok.1 h; exact h
    subst ht
    unfold readU8 at h ⊢
    refine ⟨fun hl => ?_, fun hl => ?_⟩
    · rwa [show (e.ext ys).buf[s]? = e.buf[s]? from List.getElem?_append_left (by omega)] at h
    · rw [show s = e.buf.length by omega, List.getElem?_eq_none (Nat.le_refl _)]

theorem Falls_readLE (n : Nat) : Falls e (readLE (e.ext ys) n) (readLE e n) := by
  induction n with
  | zero => exact .pure _
  | succ n ih =>
    rw [readLE, readLE]
    exact Falls_readU8.bind fun b => ih.bind fun r => .pure _

theorem Falls_readTags (n : Nat) : Falls e (readTags (e.ext ys) n) (readTags e n) := by
  induction n with
  | zero => exact .pure _
  | succ n ih =>
    rw [readTags, readTags]
    exact Falls_readU8.bind fun b => .ite (fun _ => .fail _ _) fun _ => ih.bind fun r => .pure _

/-- At the end of the data: done without reading, or the end of the data is reported. -/
def Halts (e : Env) (m : P α) : Prop := (∃ a, m e.buf.length = .ok a e.buf.length) ∨ m e.buf.length = .err eBufferEnd e.buf.length

theorem Falls.orElse2 {a a' b b' : Nat → P Nat} (ha : ∀ o, Falls e (a' o) (a o)) (hb : ∀ o, Falls e (b' o) (b o))
    (hh : ∀ o s r t, b' o s = .ok r t → ∀ p, Halts e (b p)) (o : Nat) : Falls e (Casper.orElse2 a' b' o) (Casper.orElse2 a b o) := by
  have key : ∀ s r u, Casper.orElse2 a' b' o s = .ok r u → ∃ p t, a' o s = .ok p t ∧ b' p t = .ok r u := by
    intro s r u h
    unfold Casper.orElse2 at h
    cases h1 : a' o s with
    | fault f => rw [h1] at h; cases h
    | ok p t => rw [h1] at h; exact ⟨p, t, rfl, h⟩
    | err y t =>
      rw [h1] at h
      dsimp only at h
      cases h2 : b' o t with
      | fault f => rw [h2] at h; cases h
      | ok p t => rw [h2] at h; cases h
      | err z w => rw [h2] at h; cases h
  refine ⟨fun s r u h => ?_, fun s r u hs h => ?_⟩
  · obtain ⟨p, t, h1, h2⟩ := key _ _ _ h
    have := (ha o).1 _ _ _ h1
    have := (hb p).1 _ _ _ h2
    omega
  · obtain ⟨p, t, h1, h2⟩ := key _ _ _ h
    have k2 := (hb p).1 _ _ _ h2
    obtain ⟨k3, k4⟩ := (ha o).2 _ _ _ hs h1
    unfold Casper.orElse2
    by_cases ht : t ≤ e.buf.length
    · obtain ⟨k5, k6⟩ := (hb p).2 _ _ _ ht h2
      rw [k3 ht]
      exact ⟨k5, k6⟩
    · refine ⟨fun _ => by omega, fun _ => ?_⟩
      rw [k4 (by omega)]
      rcases hh _ _ _ _ h2 o with ⟨q, hq⟩ | hq <;> simp only [hq]
      rfl

theorem addlType_tag {e : Env} {n t o s r u : Nat} (h : addlType e (n + 1) t o s = .ok r u) : t ≤ 22 := by
  by_cases ht : t ≤ 22
  · exact ht
  · rw [addlType] at h
    repeat rw [if_neg (by omega)] at h
    cases h

theorem readU8_end : readU8 e e.buf.length = .err eBufferEnd e.buf.length := by
  unfold readU8; rw [List.getElem?_eq_none (Nat.le_refl _)]

theorem Halts.bind {m : P α} {f : α → P β} (h : m e.buf.length = .err eBufferEnd e.buf.length) : Halts e (m >>= f) := by
  refine .inr ?_
  rw [bind_run, h]; rfl

theorem Halts_addlType {n t : Nat} (ht : t ≤ 22) (o : Nat) : Halts e (addlType e (n + 1) t o) := by
  have hle : ∀ k, readLE e (k + 1) e.buf.length = .err eBufferEnd e.buf.length := fun k => by
    rw [readLE, bind_run, readU8_end]; rfl
  have htg : ∀ k, readTags e (k + 1) e.buf.length = .err eBufferEnd e.buf.length := fun k => by
    rw [readTags, bind_run, readU8_end]; rfl
  rw [addlType]
  split; · exact .inl ⟨_, rfl⟩
  split; · exact .bind readU8_end
  split; · exact .bind readU8_end
  split; · exact .bind (hle 3)
  split; · exact .bind readU8_end
  split; · exact .bind readU8_end
  split
  · rw [show t - 17 = t - 18 + 1 by omega]
    exact .bind (htg _)
  · omega

theorem Halts_orAll {n : Nat} (ts : List Nat) (h : ∀ t ∈ ts, t ≤ 22) : ∀ o, Halts e (orAll (addlType e (n + 1)) ts o) := by
  induction ts with
  | nil => exact fun o => .inl ⟨_, rfl⟩
  | cons t ts ih =>
    intro o
    have ih := ih fun x hx => h x (by simp [hx])
    rw [orAll]
    unfold Halts orElse2
    rcases Halts_addlType (e := e) (n := n) (h t (by simp)) o with ⟨p, hp⟩ | hp
    · rw [hp]; exact ih p
    · rw [hp]
      dsimp only
      rcases ih o with ⟨q, hq⟩ | hq
      · rw [hq]; exact .inr rfl
      · rw [hq]; exact .inr rfl

theorem orAll_tags {n : Nat} (ts : List Nat) {o s r u : Nat} (h : orAll (addlType e (n + 1)) ts o s = .ok r u) : ∀ t ∈ ts, t ≤ 22 := by
  induction ts generalizing o s with
  | nil => intro t ht; cases ht
  | cons t ts ih =>
    rw [orAll] at h
    unfold orElse2 at h
    cases h1 : addlType e (n + 1) t o s with
    | fault f => rw [h1] at h; cases h
    | ok p w =>
      rw [h1] at h
      intro x hx
      rcases List.mem_cons.1 hx with rfl | hx
      · exact addlType_tag h1
      · exact ih h x hx
    | err y w =>
      rw [h1] at h
      dsimp only at h
      cases h2 : orAll (addlType e (n + 1)) ts o w with
      | fault f => rw [h2] at h; cases h
      | ok p t => rw [h2] at h; cases h
      | err z w => rw [h2] at h; cases h

theorem Falls_addlType (n : Nat) : ∀ t o, Falls e (addlType (e.ext ys) n t o) (addlType e n t o) := by
  induction n with
  | zero =>
    intro t o
    refine ⟨fun s a u h => ?_, fun s a u hs h => ?_⟩ <;> (rw [addlType] at h; cases h)
  | succ n ih =>
    have hh : ∀ t o s r u, addlType (e.ext ys) n t o s = .ok r u → ∀ p, Halts e (addlType e n t p) := by
      intro t o s r u h p
      cases n with
      | zero => rw [addlType] at h; cases h
      | succ n => exact Halts_addlType (addlType_tag h) p
    have hor : ∀ ts o, Falls e (orAll (addlType (e.ext ys) n) ts o) (orAll (addlType e n) ts o) := by
      intro ts
      induction ts with
      | nil => exact fun o => .pure _
      | cons t ts ih2 =>
        intro o
        rw [orAll, orAll]
        refine .orElse2 (ih t) ih2 (fun o s r u h p => ?_) o
        cases n with
        | zero =>
          cases ts with
          | nil => exact .inl ⟨_, rfl⟩
          | cons x xs => rw [orAll] at h; unfold orElse2 at h; rw [addlType] at h; cases h
        | succ n => exact Halts_orAll _ (orAll_tags _ h) p
    intro t o
    rw [addlType, addlType]
    refine .ite (fun _ => .pure _) fun _ => .ite (fun _ => ?_) fun _ => .ite (fun _ => ?_) fun _ => .ite (fun _ => ?_) fun _ =>
      .ite (fun _ => ?_) fun _ => .ite (fun _ => ?_) fun _ => .ite (fun _ => ?_) fun _ => .fail _ _
    · exact Falls_readU8.bind fun b => .ite (fun _ => .fail _ _) fun _ => (ih _ _).bind fun _ => .pure _
    · exact Falls_readU8.bind fun b => .ite (fun _ => .pure _) fun _ => .ite (fun _ => .fail _ _) fun _ => (ih _ _).bind fun _ => .pure _
    · exact (Falls_readLE 4).bind fun _ => .pure _
    · exact Falls_readU8.bind fun b => Falls_readU8.bind fun c => .ite (fun _ => .fail _ _) fun _ => .orElse2 (ih _) (ih _) (hh _) _
    · exact Falls_readU8.bind fun b => Falls_readU8.bind fun c => .ite (fun _ => .fail _ _) fun _ => .orElse2 (ih _) (ih _) (hh _) _
    · exact (Falls_readTags _).bind fun ts => (hor ts _).bind fun _ => .pure _

theorem Falls_getType (o : Nat) : Falls e (getType (e.ext ys) o) (getType e o) := by
  unfold getType
  exact Falls_readU8.bind fun t => (Falls.require _ _).bind fun _ => (Falls_addlType 3 _ _).bind fun _ => .pure _

/-- A type descriptor of which only a part is there. -/
theorem getType_cut {o off : Nat} {t : CLType} (hal : t.aligned) (hs : t.supported) {xs : Bytes} (hx : At e.buf off xs)
    (hend : off + xs.length = e.buf.length) (hp : xs <+: t.encode) (hlt : xs.length < t.encode.length) :
    getType e o off = .err eBufferEnd e.buf.length := by
  obtain ⟨zs, hz⟩ := hp
  have ha : At (e.ext zs).buf off t.encode := by
    obtain ⟨u, v, hu, hl⟩ := hx
    have : v = [] := by
      apply List.eq_nil_of_length_eq_zero
      rw [hu] at hend; simp only [List.length_append] at hend; omega
    subst this
    exact ⟨u, [], by show e.buf ++ zs = _; rw [hu, ← hz]; simp, hl⟩
  have := getType_ok (opt := o) hal hs ha
  exact ((Falls_getType o).2 _ _ _ (by omega) this).2 (by omega)

theorem readLE_end (n : Nat) {off : Nat} (ho : off ≤ e.buf.length) (h : e.buf.length < off + n) : readLE e n off = .err eBufferEnd e.buf.length := by
  induction n generalizing off with
  | zero => omega
  | succ n ih =>
    unfold readLE
    rw [bind_run]
    unfold readU8
    cases hx : e.buf[off]? with
    | none =>
      have := List.getElem?_eq_none_iff.1 hx
      rw [show off = e.buf.length by omega]; rfl
    | some b =>
      have := (List.getElem?_eq_some_iff.1 hx).1
      dsimp only
      rw [Res.bind_ok, bind_run, ih (off := off + 1) (by omega) (by omega)]
      rfl
end

end Casper
