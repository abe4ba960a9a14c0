import Verif.Lib.CodeSession
import Verif.Lib.Cut
/-
Sessions that run code: exactly when parsing them leaves its buffers.
-/
namespace Casper
open M

/-- `m` started in `s` has undefined behaviour. -/
def Crashes {σ α : Type} (m : M σ α) (s : σ) : Prop := ∃ f, m s = .fault f

section
variable {σ α β : Type} {m : M σ α} {k : α → M σ β} {s t : σ} {a : α} {x : Nat}

theorem Crashes.okThen (h : m s = .ok a t) : Crashes (m >>= k) s ↔ Crashes (k a) t := by
  unfold Crashes; rw [bind_run, h]; rfl

theorem Crashes.errThen (h : m s = .err x t) : ¬ Crashes (m >>= k) s := by
  unfold Crashes; rw [bind_run, h]; rintro ⟨f, hf⟩; cases hf

theorem Crashes.first (hk : ∀ a, NF (k a)) : Crashes (m >>= k) s ↔ Crashes m s := by
  unfold Crashes
  rw [bind_run]
  cases h : m s with
  | ok a t => exact ⟨fun ⟨f, hf⟩ => absurd hf (hk a t f), fun ⟨f, hf⟩ => by cases hf⟩
  | err x t => exact ⟨fun ⟨f, hf⟩ => by (cases hf), fun ⟨f, hf⟩ => by cases hf⟩
  | fault f => exact ⟨fun _ => ⟨f, rfl⟩, fun _ => ⟨f, rfl⟩⟩

theorem Crashes.requireThen {c : Prop} [Decidable c] {k : Unit → M σ β} : Crashes (require c x >>= k) s ↔ c ∧ Crashes (k ()) s := by
  by_cases h : c
  · rw [Crashes.okThen (a := ()) (t := s) (by rw [require_run, if_pos h])]
    exact ⟨fun h' => ⟨h, h'⟩, fun h' => h'.2⟩
  · refine ⟨fun h' => absurd h' (Crashes.errThen (x := x) (t := s) (by rw [require_run, if_neg h])), fun h' => absurd h'.1 h⟩

theorem Crashes.getThen {k : σ → M σ β} : Crashes (M.get >>= k) s ↔ Crashes (k s) s := Crashes.okThen rfl
theorem Crashes.modThen {k : Unit → M σ β} {g : σ → σ} : Crashes (M.modify g >>= k) s ↔ Crashes (k ()) (g s) := Crashes.okThen rfl
end

theorem Crashes.updThen {β : Type} {k : Unit → M IS β} {g : Item → Item} {o ep : Nat} {it : Item} :
    Crashes (upd g >>= k) ⟨o, ep, it⟩ ↔ Crashes (k ()) ⟨o, ep, g it⟩ := Crashes.okThen rfl

theorem Crashes.lp {α : Type} {m : P α} {s : IS} : Crashes (lp m) s ↔ Crashes m s.off := by
  unfold Crashes Casper.lp
  cases m s.off with
  | ok a t => exact ⟨fun ⟨f, hf⟩ => by (cases hf), fun ⟨f, hf⟩ => by cases hf⟩
  | err x t => exact ⟨fun ⟨f, hf⟩ => by (cases hf), fun ⟨f, hf⟩ => by cases hf⟩
  | fault f => exact ⟨fun _ => ⟨f, rfl⟩, fun _ => ⟨f, rfl⟩⟩

/-- The first four bytes, read as the length of a text, give more than 100 or more than there is behind them. -/
def Overruns (t : Bytes) : Prop := 4 ≤ t.length ∧ (100 < leVal (t.take 4) ∨ t.length < 4 + leVal (t.take 4))

instance (t : Bytes) : Decidable (Overruns t) := inferInstanceAs (Decidable (_ ∧ _))

/-- Where the name of the operation is looked for: at the value of the first argument whose name up to the first NUL is
"auction" (if it is a text and its value is not longer than 100 bytes; otherwise it is not looked for), and behind the arguments
if there is none. -/
def markAt : List Arg → Bytes → Option Bytes
  | [], rest => some rest
  | a :: as, rest =>
    if cstr a.name = b!"auction" then
      if a.ty = .string ∧ a.value.length ≤ 100 then some (a.value ++ (a.ty.encode ++ (encodeArgs as ++ rest))) else none
    else markAt as rest

theorem auctionKind_crash {e : Env} {p : Nat} (hp : p ≤ e.buf.length) : Crashes (auctionKind e) p ↔ Overruns (e.buf.drop p) := by
  have hlen : (e.buf.drop p).length = e.buf.length - p := List.length_drop
  unfold auctionKind Overruns
  rw [hlen]
  by_cases h4 : e.buf.length < p + 4
  · exact ⟨fun h => absurd h (Crashes.errThen (readLE_end 4 hp h4)), fun h => by omega⟩
  have h4l : ((e.buf.drop p).take 4).length = 4 := by rw [List.length_take, hlen]; omega
  have hn : leVal ((e.buf.drop p).take 4) < 256 ^ 4 := by have := leVal_lt ((e.buf.drop p).take 4); rwa [h4l] at this
  have hat : At e.buf p (le 4 (leVal ((e.buf.drop p).take 4))) := by
    have : le 4 (leVal ((e.buf.drop p).take 4)) = (e.buf.drop p).take 4 := by
      have := le_leVal ((e.buf.drop p).take 4); rwa [h4l] at this
    rw [this]
    exact ⟨e.buf.take p, (e.buf.drop p).drop 4, by rw [List.append_assoc, List.take_append_drop, List.take_append_drop], by rw [List.length_take]; omega⟩
  rw [Crashes.okThen (readLE_at hat hn), Crashes.getThen]
  generalize leVal ((e.buf.drop p).take 4) = n at *
  by_cases h100 : n > 100
  · rw [if_pos h100]
    exact ⟨fun _ => ⟨by omega, .inl h100⟩, fun _ => ⟨_, rfl⟩⟩
  rw [if_neg h100]
  rw [Crashes.first (fun xs => .ite (fun _ => .pure _) fun _ => .ite (fun _ => .pure _) fun _ => .ite (fun _ => .pure _) fun _ => .pure _)]
  unfold Crashes slice
  by_cases hl : p + 4 + n ≤ e.buf.length
  · rw [if_pos hl]
    exact ⟨fun ⟨f, hf⟩ => by (cases hf), fun h => by omega⟩
  · rw [if_neg hl]
    exact ⟨fun _ => ⟨by omega, .inr (by omega)⟩, fun _ => ⟨_, rfl⟩⟩

section
variable {e : Env} {as : List Arg} {rest : Bytes} {o : Nat} (hf : Fits e) (hok : ∀ a ∈ as, a.Ok)

theorem drop_eq {buf pre post : Bytes} {off : Nat} (h : buf = pre ++ post) (hp : pre.length = off) : buf.drop off = post := by
  subst h hp; exact List.drop_left

/-- What `markAt` gives, in terms of positions. -/
theorem markAt_found : ∀ (as : List Arg) (rest : Bytes),
    (∃ pre a post, as = pre ++ a :: post ∧ (∀ x ∈ pre, cstr x.name ≠ b!"auction") ∧ cstr a.name = b!"auction" ∧
      markAt as rest = if a.ty = .string ∧ a.value.length ≤ 100 then some (a.value ++ (a.ty.encode ++ (encodeArgs post ++ rest))) else none) ∨
    ((∀ x ∈ as, cstr x.name ≠ b!"auction") ∧ markAt as rest = some rest) := by
  intro as rest
  induction as with
  | nil => exact .inr ⟨by simp, rfl⟩
  | cons b as ih =>
    by_cases hb : cstr b.name = b!"auction"
    · exact .inl ⟨[], b, as, rfl, by simp, hb, by rw [markAt, if_pos hb]⟩
    · rcases ih with ⟨pre, a, post, h1, h2, h3, h4⟩ | ⟨h1, h2⟩
      · refine .inl ⟨b :: pre, a, post, by rw [h1]; rfl, ?_, h3, by rw [markAt, if_neg hb, h4]⟩
        intro x hx
        rcases List.mem_cons.1 hx with rfl | hx
        · exact hb
        · exact h2 x hx
      · refine .inr ⟨?_, by rw [markAt, if_neg hb, h2]⟩
        intro x hx
        rcases List.mem_cons.1 hx with rfl | hx
        · exact hb
        · exact h1 x hx

include hf hok in
theorem parseAuction_crash (hw : e.wasm = false) {front : Bytes} (hb : e.buf = front ++ (encodeArgs as ++ rest)) (ho : front.length = o) {ep : Nat} {it : Item} :
    Crashes (parseAuction e as.length) ⟨o, ep, it⟩ ↔ ∃ t, markAt as rest = some t ∧ Overruns t := by
  have hf' := hf
  unfold Fits at hf'
  have h : At e.buf o (encodeArgs as) := ⟨front, rest, by rw [hb, List.append_assoc], ho⟩
  unfold parseAuction
  rw [Crashes.getThen]
  dsimp only
  rw [Crashes.updThen]
  obtain ⟨r, hr⟩ : ∃ r, attempt (lp (searchArgs e b!"new_validator" as.length)) ⟨o, ep, { it with itemOffset := o }⟩ =
      .ok r ⟨o, ep, { it with itemOffset := o }⟩ := by
    have hsr := searchArgs_at (name := b!"new_validator") hf hok h
    cases hq : as.find? (fun a => cstr a.name == b!"new_validator") with
    | some a => rw [hq] at hsr; exact ⟨_, by rw [attempt_run, lp_run (s := ⟨_, _, _⟩) hsr]⟩
    | none => rw [hq] at hsr; exact ⟨_, by rw [attempt_run, lp_err (s := ⟨_, _, _⟩) hsr]⟩
  rw [Crashes.okThen hr]
  have hend : ∀ (b : Bool) (r : Bool) (p : Nat) (it : Item), p ≤ e.buf.length → (Crashes (do
      let k ← lp (auctionKind e)
      upd fun i => { i with special := k }
      lp (set o)
      pure (r, b) : M IS (Bool × Bool)) ⟨p, ep, it⟩ ↔ Overruns (e.buf.drop p)) := by
    intro b r p it hp
    rw [Crashes.first (fun k => .bind (NF_upd _) fun _ => .bind (NF_lp (NF.set _)) fun _ => .pure _), Crashes.lp]
    exact auctionKind_crash hp
  rcases markAt_found as rest with ⟨pre, a, post, h1, h2, h3, h4⟩ | ⟨h1, h2⟩
  · obtain ⟨hp1, hp2⟩ := getData_at (k := as.length) hf (fun x hx => hok x (by rw [h1]; simp [hx])) (hok a (by rw [h1]; simp)) h2 h3
      (by rw [h1]; simp) (by rw [← h1]; exact h)
    have hle := hp2.le
    have hdrop : e.buf.drop (o + (encodeArgs pre).length + 4 + a.name.length + 4) = a.value ++ (a.ty.encode ++ (encodeArgs post ++ rest)) := by
      refine drop_eq (pre := front ++ (encodeArgs pre ++ (le 4 a.name.length ++ (a.name ++ le 4 a.value.length)))) ?_ ?_
      · rw [hb, h1, encodeArgs_append]
        simp [encodeArgs, Arg.encode, pfx]
      · simp [ho]; omega
    rw [h4]
    have hgd : ∀ it : Item, attempt (lp (getData e b!"auction" as.length)) ⟨o, ep, it⟩ =
        .ok (.ok (a.value.length, a.ty.tag)) ⟨o + (encodeArgs pre).length + 4 + a.name.length + 4, ep, it⟩ := by
      intro it
      rw [attempt_run, lp_run (s := ⟨_, _, _⟩) hp1]
    by_cases hc : a.ty = .string ∧ a.value.length ≤ 100
    · rw [if_pos hc, Crashes.okThen (a := true) (t := ⟨o + (encodeArgs pre).length + 4 + a.name.length + 4, ep, { it with itemOffset := o }⟩) ?_, hend _ _ _ _ (by omega), hdrop]
      · exact ⟨fun h => ⟨_, rfl, h⟩, fun ⟨t, ht, h⟩ => by cases ht; exact h⟩
      · refine seqThen (hgd _) ?_
        dsimp only
        refine reqThen (by rw [hc.1]; rfl) (getThen (reqThen ⟨hc.2, ?_⟩ rfl))
        dsimp only
        rw [u32_id (by omega)]
        omega
    · rw [if_neg hc]
      refine ⟨fun h => ?_, fun ⟨t, ht, _⟩ => by cases ht⟩
      exfalso
      revert h
      have : ∃ x t, (do
          match ← attempt (lp (getData e b!"auction" as.length)) with
          | .ok (len, t) =>
            require (t = 10) eUnexpectedType
            let off := (← M.get).off
            require (len ≤ 100 ∧ e.buf.length ≥ u32 (off + len)) eBufferEnd
            pure true
          | .error x =>
            if x ≠ eNoData then M.fail x
            else if e.wasm then M.fail eNoData
            else do
              upd fun i => { i with generic := 1, itemOffset := u32 (i.itemOffset + 4294967292) }
              pure false : M IS Bool) ⟨o, ep, { it with itemOffset := o }⟩ = .err x t := by
        rw [bind_run, hgd]
        dsimp only [Res.bind_ok]
        by_cases ht : a.ty.tag = 10
        · have hl : ¬ a.value.length ≤ 100 := fun hl => hc ⟨by revert ht; cases a.ty <;> simp [CLType.tag], hl⟩
          exact ⟨_, _, reqThen ht (getThen (by rw [bind_run, require_run, if_neg (fun h => hl h.1)]; rfl))⟩
        · exact ⟨_, _, by rw [bind_run, require_run, if_neg ht]; rfl⟩
      obtain ⟨x, t, hx⟩ := this
      exact Crashes.errThen hx
  · have hgd := getData_none (name := b!"auction") (k := as.length) hf hok (fun x hx => h1 x (by simpa using hx)) (Nat.le_refl _) h
    rw [List.take_length] at hgd
    have hle := h.le
    rw [Crashes.okThen (a := false) (t := ⟨o + (encodeArgs as).length, ep, { it with generic := 1, itemOffset := u32 (o + 4294967292) }⟩) ?_, hend _ _ _ _ hle, h2,
      drop_eq (pre := front ++ encodeArgs as) (post := rest) (by rw [hb, List.append_assoc]) (by simp [ho])]
    · exact ⟨fun h => ⟨_, rfl, h⟩, fun ⟨t, ht, h⟩ => by cases ht; exact h⟩
    · refine seqThen (by rw [attempt_run, lp_err (s := ⟨_, _, _⟩) hgd]) ?_
      dsimp only
      rw [if_neg (by decide), if_neg (by rw [hw]; decide)]
      rfl

include hf hok in
/-- Exactly when parsing a serialized session that runs code leaves its buffers. -/
theorem module_crash (hw : e.wasm = false) {front code : Bytes} (hb : e.buf = front ++ ((ExecItem.moduleBytes code as).encode ++ rest)) (ho : front.length = o) {ep : Nat} :
    Crashes (parseDeployItem e false) ⟨o + 1, ep, { typ := 0 }⟩ ↔ ∃ t, markAt as rest = some t ∧ Overruns t := by
  have hb1 : e.buf = (front ++ [0]) ++ (pfx code ++ (le 4 as.length ++ (encodeArgs as ++ rest))) := by
    rw [hb]; simp [ExecItem.encode, encodeRuntimeArgs]
  have h1 : At e.buf (o + 1) (pfx code ++ (le 4 as.length ++ (encodeArgs as ++ rest))) := ⟨front ++ [0], [], by rw [List.append_nil]; exact hb1, by simp [ho]⟩
  have h3 := h1.pfx.2
  rw [At.append, le_length] at h3
  have hl3 := h3.2.le
  rw [List.length_append] at hl3
  have hcnt := encodeArgs_count as
  have hf' := hf
  unfold Fits at hf'
  unfold parseDeployItem
  rw [Crashes.updThen, Crashes.getThen]
  dsimp only
  rw [if_pos (by rfl)]
  unfold parseModuleBytes
  rw [Crashes.getThen, Crashes.okThen (lp_run (s := ⟨_, _, _⟩) (parseItem_at hf h1)),
    Crashes.okThen (lp_run (s := ⟨_, _, _⟩) (readLE_at h3.1 (show as.length < 256 ^ 4 by omega)))]
  rw [if_neg (by decide), Crashes.first (fun _ => NF_finishItem _ _ _)]
  unfold parseDelegation
  rw [Crashes.getThen]
  dsimp only
  rw [if_pos (by rfl), Crashes.first]
  · refine parseAuction_crash hf hok hw (front := front ++ [0] ++ (pfx code ++ le 4 as.length)) (by rw [hb1]; simp) ?_
    simp [pfx, ho]; omega
  · intro ⟨r, b⟩
    dsimp only
    refine .bind ?_ fun _ => .bind ?_ fun _ => ?_
    · unfold checkNewValidator
      exact .ite (fun _ => NF_lp (NF_checkArg _ _ _ _)) fun _ => .pure _
    · unfold delegationLines
      walk NF
    · unfold finishDelegation
      walk NF
end

end Casper
