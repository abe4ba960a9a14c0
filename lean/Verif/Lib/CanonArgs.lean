import Verif.Lib.Canon
import Verif.Props.Effort
/-
What the app's loops over named arguments make of arbitrary bytes: unless an argument has a type as in `BadType`, the arguments are serialized
as Casper does, and every search for a name leaves the cursor where it was.
-/
namespace Casper
open M CLType

/-- Types that the app reads as Casper does. -/
def GoodTypes (as : List Arg) : Prop := ∀ a ∈ as, a.ty.aligned ∧ a.ty.supported

theorem encodeArgs_long (as : List Arg) : 9 * as.length ≤ (encodeArgs as).length := by
  induction as with
  | nil => simp [encodeArgs]
  | cons a as ih =>
    have : 1 ≤ a.ty.encode.length := by rw [encode_eq]; simp
    simp only [encodeArgs, List.length_append, List.length_cons, Arg.encode_length]; omega

/-- Among the `n` arguments from `off` on there is one, behind others with good types, whose type begins as in `BadType`. -/
def BadArgs (buf : Bytes) (off n : Nat) : Prop :=
  ∃ as name value bad, as.length < n ∧ GoodTypes as ∧ BadType bad ∧ At buf off (encodeArgs as ++ (pfx name ++ (pfx value ++ bad)))

theorem GoodTypes.snoc {as : List Arg} {a : Arg} (h : GoodTypes as) (h1 : a.ty.aligned) (h2 : a.ty.supported) : GoodTypes (as ++ [a]) := by
  intro b hb
  rcases List.mem_append.1 hb with hb | hb
  · exact h b hb
  · simp only [List.mem_singleton] at hb; subst hb; exact ⟨h1, h2⟩

theorem readU32_err {e : Env} {off x t : Nat} (h : readU32 e off = .err x t) : x = eBufferEnd := by
  have go : ∀ n off, readLE e n off = .err x t → x = eBufferEnd := by
    intro n
    induction n with
    | zero => intro off h; cases h
    | succ n ih =>
      intro off h
      unfold readLE at h
      rcases readU8_cases e off with ⟨y, -, h2⟩ | h2
      · simp only [bind_run, h2, Res.bind_ok] at h
        cases hr : readLE e n (off + 1) with
        | ok a s => simp [hr] at h
        | err z s => simp only [hr, Res.bind_err, Res.err.injEq] at h; exact ih _ (by rw [hr, h.1, h.2])
        | fault f => simp [hr] at h
      · simp only [bind_run, h2, Res.bind_err, Res.err.injEq] at h; exact h.1.symm
  exact go 4 off h

theorem parseItem_err {e : Env} {off x t : Nat} (h : parseItem e off = .err x t) : x = eBufferEnd := by
  unfold parseItem at h
  cases hr : readU32 e off with
  | ok n s =>
    simp only [bind_run, hr, Res.bind_ok, get_run] at h
    split at h
    · simp at h; exact h.1.symm
    · simp at h
  | err z s => simp only [bind_run, hr, Res.bind_err, Res.err.injEq] at h; exact h.1 ▸ readU32_err hr
  | fault f => simp [hr] at h

theorem copyItem_err {e : Env} {cap off x t : Nat} (h : copyItem e cap off = .err x t) : x = eBufferEnd := by
  unfold copyItem at h
  cases hr : readU32 e off with
  | ok n s =>
    simp only [bind_run, hr, Res.bind_ok, get_run] at h
    split at h
    · simp at h; exact h.1.symm
    · cases hs : slice e s n s with
      | ok xs u => simp [hs, skip] at h
      | err y u => unfold slice at hs; split at hs <;> cases hs
      | fault f => simp [hs] at h
  | err z s => simp only [bind_run, hr, Res.bind_err, Res.err.injEq] at h; exact h.1 ▸ readU32_err hr
  | fault f => simp [hr] at h

/-- One more argument. -/
theorem at_snoc {buf : Bytes} {start off : Nat} {pre : List Arg} {name value : Bytes} {xs : Bytes} (hpre : At buf start (encodeArgs pre))
    (ho : off = start + (encodeArgs pre).length) (h1 : At buf off (pfx name)) (h2 : At buf (off + 4 + name.length) (pfx value))
    (h3 : At buf (off + 4 + name.length + 4 + value.length) xs) : At buf start (encodeArgs pre ++ (pfx name ++ (pfx value ++ xs))) := by
  subst ho
  refine At.append.2 ⟨hpre, At.append.2 ⟨h1, At.append.2 ⟨h2.cast ?_, h3.cast ?_⟩⟩⟩
  · simp; omega
  · simp; omega

theorem encodeArgs_snoc (pre : List Arg) (a : Arg) : encodeArgs (pre ++ [a]) = encodeArgs pre ++ (pfx a.name ++ (pfx a.value ++ a.ty.encode)) := by
  rw [encodeArgs_append]; simp [encodeArgs, Arg.encode]

/-- The three parts of an argument, behind `pre`: it is serialized as Casper does, or its type is bad, or its type is refused for another reason. -/
theorem arg_cases {e : Env} {start off n opt : Nat} {pre : List Arg} {name value : Bytes} (hpre : At e.buf start (encodeArgs pre)) (hg : GoodTypes pre)
    (ho : off = start + (encodeArgs pre).length) (hn : pre.length < n) (hb : ¬ BadArgs e.buf start n)
    (h1 : At e.buf off (pfx name)) (h2 : At e.buf (off + 4 + name.length) (pfx value)) :
    (∃ t : CLType, t.aligned ∧ t.supported ∧ At e.buf start (encodeArgs (pre ++ [⟨name, value, t⟩])) ∧
      At e.buf (off + 4 + name.length + 4 + value.length) t.encode ∧ GoodTypes (pre ++ [⟨name, value, t⟩]) ∧
      off + 4 + name.length + 4 + value.length + t.encode.length = start + (encodeArgs (pre ++ [⟨name, value, t⟩])).length) ∨
    ∃ x s, getType e opt (off + 4 + name.length + 4 + value.length) = .err x s ∧ (x = eBufferEnd ∨ x = eUnknownPrefix) := by
  rcases getType_cases e opt (off + 4 + name.length + 4 + value.length) with ⟨t, k1, k2, k3⟩ | ⟨bs, k1, k2⟩ | h
  · refine .inl ⟨t, k1, k2, ?_, k3, hg.snoc k1 k2, ?_⟩
    · rw [encodeArgs_snoc]; exact at_snoc hpre ho h1 h2 k3
    · rw [encodeArgs_snoc]; simp; omega
  · exact absurd ⟨pre, name, value, bs, hn, hg, k1, at_snoc hpre ho h1 h2 k2⟩ hb
  · exact .inr h

/-- The loop over the arguments. -/
theorem parseArgs_canon {e : Env} {start N : Nat} (hp : Plain e start) (hb : ¬ BadArgs e.buf start N) : ∀ (n : Nat) {off t : Nat} {pre : List Arg},
    At e.buf start (encodeArgs pre) → GoodTypes pre → off = start + (encodeArgs pre).length → pre.length + n ≤ N →
    parseArgs e n off = .ok () t →
    ∃ as, as.length = pre.length + n ∧ GoodTypes as ∧ At e.buf start (encodeArgs as) ∧ t = start + (encodeArgs as).length := by
  intro n
  induction n with
  | zero =>
    intro off t pre h1 h2 h3 h4 h
    cases h
    exact ⟨pre, rfl, h2, h1, h3⟩
  | succ n ih =>
    intro off t pre h1 h2 h3 h4 h
    unfold parseArgs at h
    simp only [bind_eq_ok] at h
    obtain ⟨_, a, g1, _, b, g2, r, c, g3, g4⟩ := h
    obtain ⟨name, p1, rfl, -⟩ := parseItem_pfx (hp.mono (by omega)) _ _ g1
    obtain ⟨value, q1, rfl, -⟩ := parseItem_pfx (hp.mono (by omega)) _ _ g2
    rcases arg_cases (opt := 0) h1 h2 h3 (by omega) hb p1 q1 with ⟨ty, k1, k2, k3, k4, k5, k6⟩ | ⟨x, s, k, -⟩
    · rw [getType_ok k1 k2 k4] at g3
      cases g3
      obtain ⟨as, l1, l2⟩ := ih k3 k5 k6 (by simp; omega) g4
      refine ⟨as, ?_, l2⟩
      simp only [List.length_append, List.length_singleton] at l1; omega
    · rw [k] at g3; cases g3

/-- The cursor (`pos`) is at `o` after success, and after an error other than the end of the data or an unknown tag. -/
def Home {σ α : Type} (pos : σ → Nat) (o : Nat) (r : Res σ α) : Prop :=
  (∀ a t, r = .ok a t → pos t = o) ∧ ∀ x t, r = .err x t → (x = eBufferEnd ∨ x = eUnknownPrefix) ∨ pos t = o

theorem Home.of_ok {σ α : Type} {pos : σ → Nat} {o : Nat} {a : α} {s : σ} (h : pos s = o) : Home pos o (.ok a s) :=
  ⟨fun _ _ h' => by cases h'; exact h, fun _ _ h' => by cases h'⟩
theorem Home.of_err {σ α : Type} {pos : σ → Nat} {o : Nat} {x : Nat} {s : σ} (h : (x = eBufferEnd ∨ x = eUnknownPrefix) ∨ pos s = o) :
    Home pos o (.err x s : Res σ α) := ⟨fun _ _ h' => (by cases h'), fun _ _ h' => by cases h'; exact h⟩
theorem Home.of_fault {σ α : Type} {pos : σ → Nat} {o : Nat} {f : Fault} : Home pos o (.fault f : Res σ α) :=
  ⟨fun _ _ h' => (by cases h'), fun _ _ h' => by cases h'⟩

theorem searchFrom_home {e : Env} {start N : Nat} (name : Bytes) (hp : Plain e start) (hb : ¬ BadArgs e.buf start N) : ∀ (n : Nat) {off : Nat} {pre : List Arg},
    At e.buf start (encodeArgs pre) → GoodTypes pre → off = start + (encodeArgs pre).length → pre.length + n ≤ N →
    Home id start (searchFrom e name start n off) := by
  intro n
  induction n with
  | zero => intro off pre _ _ _ _; exact Home.of_err (.inr rfl)
  | succ n ih =>
    intro off pre h1 h2 h3 h4
    rw [searchFrom]
    cases hc : copyItem e 300 off with
    | fault f => simp only [bind_run, hc, Res.bind_fault]; exact Home.of_fault
    | err x s => simp only [bind_run, hc, Res.bind_err]; exact Home.of_err (.inl (.inl (copyItem_err hc)))
    | ok key s =>
      simp only [bind_run, hc, Res.bind_ok]
      obtain ⟨p1, -, p2, -⟩ := copyItem_post hp.fits _ _ hc
      subst p2
      by_cases hn : cstr key = name
      · rw [if_pos hn]
        simp only [bind_run]
        cases hi : parseItem e (off + 4 + key.length) with
        | fault f => simp only [Res.bind_fault]; exact Home.of_fault
        | err x s => simp only [Res.bind_err]; exact Home.of_err (.inl (.inl (parseItem_err hi)))
        | ok u s =>
          obtain ⟨value, q1, q2, -⟩ := parseItem_pfx (hp.mono (by omega)) _ _ hi
          subst q2
          simp only [Res.bind_ok]
          rcases arg_cases (opt := 255) h1 h2 h3 (by omega) hb p1 q1 with ⟨ty, k1, k2, k3, k4, k5, k6⟩ | ⟨x, s, k, hx⟩
          · rw [getType_ok k1 k2 k4]; exact Home.of_ok rfl
          · rw [k]; exact Home.of_err (.inl hx)
      · rw [if_neg hn]
        simp only [bind_run]
        cases hi : parseItem e (off + 4 + key.length) with
        | fault f => simp only [Res.bind_fault]; exact Home.of_fault
        | err x s => simp only [Res.bind_err]; exact Home.of_err (.inl (.inl (parseItem_err hi)))
        | ok u s =>
          obtain ⟨value, q1, q2, -⟩ := parseItem_pfx (hp.mono (by omega)) _ _ hi
          subst q2
          simp only [Res.bind_ok]
          rcases arg_cases (opt := 0) h1 h2 h3 (by omega) hb p1 q1 with ⟨ty, k1, k2, k3, k4, k5, k6⟩ | ⟨x, s, k, hx⟩
          · rw [getType_ok k1 k2 k4]
            exact ih k3 k5 k6 (by simp; omega)
          · rw [k]; exact Home.of_err (.inl hx)

theorem searchArgs_home {e : Env} {o n : Nat} (name : Bytes) (hp : Plain e o) (ho : o ≤ e.buf.length) (hb : ¬ BadArgs e.buf o n) :
    Home id o (searchArgs e name n o) := by
  unfold searchArgs
  simp only [bind_run, get_run, Res.bind_ok]
  exact searchFrom_home name hp hb n (pre := []) (At.nil ho) (by intro a ha; cases ha) rfl (by simp)

/-- From `o`, `m` comes home. -/
def Ret {σ α : Type} (pos : σ → Nat) (o : Nat) (m : M σ α) : Prop := ∀ s, pos s = o → Home pos o (m s)

section
variable {σ α β : Type} {pos : σ → Nat} {o : Nat}

theorem Ret.bind {m : M σ α} {f : α → M σ β} (h : Ret pos o m) (h' : ∀ a, Ret pos o (f a)) : Ret pos o (m >>= f) := by
  intro s hs
  rw [bind_run]
  have := h s hs
  cases hr : m s with
  | ok a t => rw [hr] at this; exact h' a t (this.1 a t rfl)
  | err x t => rw [hr] at this; exact Home.of_err (this.2 x t rfl)
  | fault f => exact Home.of_fault
theorem Ret.pure {a : α} : Ret pos o (Pure.pure a : M σ α) := fun _ hs => Home.of_ok hs
theorem Ret.fail {x : Nat} : Ret pos o (M.fail x : M σ α) := fun _ hs => Home.of_err (.inr hs)
theorem Ret.require {c : Prop} [Decidable c] {x : Nat} : Ret pos o (M.require c x : M σ Unit) := by
  unfold M.require
  split
  · exact Ret.pure
  · exact Ret.fail
theorem Ret.ite {c : Prop} [Decidable c] {m n : M σ α} (hm : Ret pos o m) (hn : Ret pos o n) : Ret pos o (if c then m else n) := by
  split <;> assumption
theorem Ret.get : Ret pos o (M.get : M σ σ) := fun _ hs => Home.of_ok hs
end

theorem Ret.upd {o : Nat} {f : Item → Item} : Ret IS.off o (upd f) := fun _ hs => Home.of_ok hs
theorem Ret.lp {o : Nat} {α : Type} {m : P α} (h : Ret id o m) : Ret IS.off o (lp m) := by
  intro s hs
  unfold Casper.lp
  have := h s.off hs
  cases hr : m s.off with
  | ok a t => rw [hr] at this; exact Home.of_ok (this.1 a t rfl)
  | err x t => rw [hr] at this; exact Home.of_err (this.2 x t rfl)
  | fault f => exact Home.of_fault

section
variable {e : Env} {o n : Nat}

theorem Ret_searchArgs (name : Bytes) (hp : Plain e o) (ho : o ≤ e.buf.length) (hb : ¬ BadArgs e.buf o n) : Ret id o (searchArgs e name n) := by
  intro s hs; cases hs; exact searchArgs_home name hp ho hb

/-! Everything that looks for names comes home if the searches do. -/
variable (hr : ∀ name, Ret id o (searchArgs e name n))
include hr

theorem Ret_checkArg (name : Bytes) (c : Nat → Nat → Bool) : Ret id o (checkArg e n name c) :=
  (hr name).bind fun _ => .require

theorem Ret_countArg (name : Bytes) (c : Nat → Nat → Bool) : Ret id o (countArg e n name c) := by
  intro s hs
  have := hr name s hs
  unfold countArg
  rw [bind_run, attempt_run]
  cases hm : searchArgs e name n s with
  | ok a t =>
    rw [hm] at this
    exact Ret.ite Ret.pure Ret.pure t (this.1 a t rfl)
  | err x t =>
    rw [hm] at this
    simp only [Res.bind_ok]
    by_cases hx : x ≠ eArgNotFound ∧ x ≠ eUnexpectedType
    · rw [if_pos hx]; exact Home.of_err (this.2 x t rfl)
    · rw [if_neg hx]
      refine Home.of_ok ((this.2 x t rfl).resolve_left ?_)
      omega
  | fault f => exact Home.of_fault

theorem Ret_checkTransferArgs : Ret id o (checkTransferArgs e n) := by
  unfold checkTransferArgs
  refine (Ret_checkArg hr _ _).bind fun _ => (Ret_countArg hr _ _).bind fun c => ?_
  split
  · exact .pure
  refine (Ret_countArg hr _ _).bind fun c => ?_
  split
  · exact .pure
  refine (Ret_countArg hr _ _).bind fun c => ?_
  split
  · exact .pure
  refine .ite ((Ret_countArg hr _ _).bind fun c => ?_) .pure
  split <;> exact .pure

theorem Ret_parseNativeTransfer : Ret IS.off o (parseNativeTransfer e n) := by
  unfold parseNativeTransfer
  exact (Ret.lp (Ret_checkTransferArgs hr)).bind fun _ => .ite (.ite .upd (.bind .upd fun _ => .fail)) .upd

theorem Ret_checkPaymentArgs : Ret IS.off o (checkPaymentArgs e n) := by
  unfold checkPaymentArgs
  exact .bind .require fun _ => .bind (.lp (Ret_checkArg hr _ _)) fun _ => .upd

theorem Ret_parseSystemPayment : Ret IS.off o (parseSystemPayment e n) := by
  unfold parseSystemPayment
  refine .ite .fail fun s hs => ?_
  have := Ret_checkPaymentArgs hr s hs
  rw [bind_run, attempt_run]
  cases hm : checkPaymentArgs e n s with
  | ok a t => rw [hm] at this; simp only [Res.bind_ok]; exact Ret.upd t (this.1 a t rfl)
  | err x t =>
    rw [hm] at this
    simp only [Res.bind_ok]
    by_cases hx : x ≠ eNumberItems ∧ x ≠ eArgNotFound ∧ x ≠ eUnexpectedType
    · rw [if_pos hx]; exact Home.of_err (this.2 x t rfl)
    · rw [if_neg hx]
      refine Ret.upd t ((this.2 x t rfl).resolve_left ?_)
      omega
  | fault f => exact Home.of_fault

theorem Ret_checkDelegationItems (r : Bool) : Ret IS.off o (checkDelegationItems e n r) := by
  unfold checkDelegationItems
  refine (Ret.lp (Ret_countArg hr _ _)).bind fun c => ?_
  split
  · exact .pure
  refine Ret.upd.bind fun _ => (Ret.lp (Ret_countArg hr _ _)).bind fun c => ?_
  split
  · exact .pure
  refine (Ret.lp (Ret_countArg hr _ _)).bind fun c => ?_
  split
  · exact .pure
  refine (Ret.lp (Ret_checkArg hr _ _)).bind fun _ => (Ret.lp (Ret_checkArg hr _ _)).bind fun _ =>
    (Ret.lp (Ret_checkArg hr _ _)).bind fun _ => Ret.get.bind fun _ => .ite .upd (.ite (.bind (.lp (Ret_checkArg hr _ _)) fun _ => .upd) .upd)

/-- An error of the first search for the amount is one of the whole check, unless it says that there is none. -/
theorem checkDelegationItems_err {r : Bool} {s : IS} {x : Nat} {t : Nat} (h : searchArgs e b!"amount" n s.off = .err x t)
    (hx : x ≠ eArgNotFound ∧ x ≠ eUnexpectedType) : ∃ u, checkDelegationItems e n r s = .err x u := by
  refine ⟨{ s with off := t }, ?_⟩
  unfold checkDelegationItems
  rw [bind_run]
  have : lp (countArg e n b!"amount" isAmount) s = .err x { s with off := t } := by
    unfold lp countArg
    rw [bind_run, attempt_run, h]
    simp only [Res.bind_ok, if_pos hx]
    rfl
  rw [this]; rfl

theorem Ret_delegationLines (r : Bool) : Ret IS.off o (delegationLines e n r) := by
  intro s hs
  unfold delegationLines
  have := Ret_checkDelegationItems hr r s hs
  rw [bind_run, attempt_run]
  cases hm : checkDelegationItems e n r s with
  | ok a t => rw [hm] at this; exact Home.of_ok (this.1 a t rfl)
  | fault f => exact Home.of_fault
  | err x t =>
    rw [hm] at this
    simp only [Res.bind_ok]
    by_cases hx : x = eArgNotFound ∨ x = eUnexpectedType
    · rw [if_pos hx]
      have ht : t.off = o := (this.2 x t rfl).resolve_left (by omega)
      rw [bind_run, attempt_run]
      have h1 := (hr b!"amount").lp t ht
      cases hq : lp (searchArgs e b!"amount" n) t with
      | ok a u => rw [hq] at h1; simp only [Res.bind_ok]; exact Ret.upd u (h1.1 a u rfl)
      | fault f => exact Home.of_fault
      | err y u =>
        rw [hq] at h1
        simp only [Res.bind_ok]
        refine Ret.upd u ((h1.2 y u rfl).resolve_left fun hy => ?_)
        have hq' : searchArgs e b!"amount" n s.off = .err y u.off := by
          unfold lp at hq
          rw [ht, ← hs] at hq
          cases hz : searchArgs e b!"amount" n s.off with
          | ok a v => rw [hz] at hq; cases hq
          | fault f => rw [hz] at hq; cases hq
          | err a v => rw [hz] at hq; cases hq; rfl
        obtain ⟨w, hw⟩ := checkDelegationItems_err (r := r) hr hq' (by omega)
        rw [hm] at hw
        cases hw
        omega
    · rw [if_neg hx]; exact Home.of_err (this.2 x t rfl)

theorem Ret_finishDelegation (a : Bool) : Ret IS.off o (finishDelegation e a) := by
  unfold finishDelegation
  exact Ret.upd.bind fun _ => .ite .upd .pure

theorem parseDelegation_home (r : Bool) {s : IS} (hs : s.off = o) : Post (parseDelegation e n r) s (fun _ t => t.off = o) := by
  unfold parseDelegation
  refine Post.getThen (Post.seq (P := fun _ t => t.off = o) ?_ fun ra t ht => ?_)
  · refine Post.ite (fun _ => ?_) fun _ => Post.pure hs
    unfold parseAuction
    refine Post.getThen (Post.modifyThen ?_)
    refine Post.seq (P := fun _ _ => True) (fun _ _ _ => trivial) fun _ t _ => ?_
    refine Post.seq (P := fun _ _ => True) (fun _ _ _ => trivial) fun _ t _ => ?_
    refine Post.seq (P := fun _ _ => True) (fun _ _ _ => trivial) fun _ t _ => Post.modifyThen ?_
    exact (lp_post (Post.set (Q := fun _ t => t = s.off) rfl)).seq fun _ t ht => Post.pure (by rw [ht.1, hs])
  · obtain ⟨redel, hasAuction⟩ := ra
    have h1 : Ret IS.off o (checkNewValidator e n redel) := by
      unfold checkNewValidator
      exact .ite (.lp (Ret_checkArg hr _ _)) .pure
    have h2 := h1.bind fun _ => (Ret_delegationLines hr redel).bind fun _ => Ret_finishDelegation hr hasAuction
    exact fun a u hu => (h2 t ht).1 a u hu

end
end Casper
