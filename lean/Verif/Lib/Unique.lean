import Verif.Spec.Whole
import Verif.Lib.At
/-
Serializations are unique: no two well-formed transactions have the same bytes.
-/
namespace Casper

theorem le_inj {n a b : Nat} (ha : a < 256 ^ n) (hb : b < 256 ^ n) (h : le n a = le n b) : a = b := by
  rw [← leVal_le n a ha, h, leVal_le n b hb]

theorem le_cut {n a b : Nat} {r s : Bytes} (ha : a < 256 ^ n) (hb : b < 256 ^ n) (h : le n a ++ r = le n b ++ s) : a = b ∧ r = s := by
  obtain ⟨h1, h2⟩ := List.append_inj h (by simp)
  exact ⟨le_inj ha hb h1, h2⟩

theorem pfx_cut {xs ys r s : Bytes} (hx : xs.length < 2 ^ 32) (hy : ys.length < 2 ^ 32) (h : pfx xs ++ r = pfx ys ++ s) : xs = ys ∧ r = s := by
  unfold pfx at h
  rw [List.append_assoc, List.append_assoc] at h
  obtain ⟨h1, h2⟩ := le_cut (by simpa using hx) (by simpa using hy) h
  exact List.append_inj h2 h1

theorem pfx_inj {xs ys : Bytes} (hx : xs.length < 2 ^ 32) (hy : ys.length < 2 ^ 32) (h : pfx xs = pfx ys) : xs = ys :=
  (pfx_cut (r := []) (s := []) hx hy (by rw [h])).1

theorem optional_cut {v w : Option Nat} {r s : Bytes} (hv : ∀ x, v = some x → x < 2 ^ 32) (hw : ∀ x, w = some x → x < 2 ^ 32)
    (h : optional (le 4) v ++ r = optional (le 4) w ++ s) : v = w ∧ r = s := by
  cases v with
  | none =>
    cases w with
    | none => simpa [optional] using h
    | some y => simp [optional] at h
  | some x =>
    cases w with
    | none => simp [optional] at h
    | some y =>
      simp only [optional, List.cons_append, List.cons.injEq, true_and] at h
      obtain ⟨h1, h2⟩ := le_cut (by simpa using hv x rfl) (by simpa using hw y rfl) h
      exact ⟨by rw [h1], h2⟩

theorem CLType.encode_cut {t : CLType} : ∀ {u : CLType} {r s : Bytes}, t.Fit → u.Fit → t.encode ++ r = u.encode ++ s → t = u ∧ r = s := by
  have htag : ∀ {t u : CLType} {r s : Bytes}, t.encode ++ r = u.encode ++ s → t.tag = u.tag := by
    intro t u r s h
    rw [t.encode_eq, u.encode_eq, List.cons_append, List.cons_append, List.cons.injEq] at h
    have := congrArg UInt8.toNat h.1
    rw [UInt8.toNat_ofNat', UInt8.toNat_ofNat'] at this
    have := t.tag_le
    have := u.tag_le
    omega
  induction t with
  | byteArray n =>
    intro u r s ht hu h
    have := htag h
    cases u <;> simp [CLType.tag] at this
    simp only [CLType.encode, List.cons_append, List.cons.injEq, true_and] at h
    obtain ⟨h1, h2⟩ := le_cut (by simpa [CLType.Fit] using ht) (by simpa [CLType.Fit] using hu) h
    exact ⟨by rw [h1], h2⟩
  | option t ih | list t ih | tuple1 t ih =>
    intro u r s ht hu h
    have := htag h
    cases u <;> simp [CLType.tag] at this
    simp only [CLType.encode, List.cons_append, List.cons.injEq, true_and] at h
    obtain ⟨h1, h2⟩ := ih ht (by exact hu) h
    exact ⟨by rw [h1], h2⟩
  | result a b iha ihb | map a b iha ihb | tuple2 a b iha ihb =>
    intro u r s ht hu h
    have := htag h
    cases u <;> simp [CLType.tag] at this
    simp only [CLType.encode, List.cons_append, List.cons.injEq, true_and, List.append_assoc] at h
    obtain ⟨h1, h2⟩ := iha ht.1 (by exact hu.1) h
    obtain ⟨h3, h4⟩ := ihb ht.2 (by exact hu.2) h2
    exact ⟨by rw [h1, h3], h4⟩
  | tuple3 a b c iha ihb ihc =>
    intro u r s ht hu h
    have := htag h
    cases u <;> simp [CLType.tag] at this
    simp only [CLType.encode, List.cons_append, List.cons.injEq, true_and, List.append_assoc] at h
    obtain ⟨h1, h2⟩ := iha ht.1 (by exact hu.1) h
    obtain ⟨h3, h4⟩ := ihb ht.2.1 (by exact hu.2.1) h2
    obtain ⟨h5, h6⟩ := ihc ht.2.2 (by exact hu.2.2) h4
    exact ⟨by rw [h1, h3, h5], h6⟩
  | _ =>
    intro u r s ht hu h
    have := htag h
    cases u <;> simp [CLType.tag] at this
    simpa [CLType.encode] using h

theorem Arg.encode_cut {a b : Arg} {r s : Bytes} (ha : a.encode.length < 2 ^ 32) (hb : b.encode.length < 2 ^ 32) (fa : a.ty.Fit) (fb : b.ty.Fit)
    (h : a.encode ++ r = b.encode ++ s) : a = b ∧ r = s := by
  unfold Arg.encode at h ha hb
  simp only [List.length_append, pfx_length] at ha hb
  simp only [List.append_assoc] at h
  obtain ⟨h1, h⟩ := pfx_cut (by omega) (by omega) h
  obtain ⟨h2, h⟩ := pfx_cut (by omega) (by omega) h
  obtain ⟨h3, h4⟩ := CLType.encode_cut fa fb h
  refine ⟨?_, h4⟩
  cases a; cases b
  simp only at h1 h2 h3
  rw [h1, h2, h3]

theorem encodeArgs_cut {as bs : List Arg} {r s : Bytes} (hl : as.length = bs.length) (ha : (encodeArgs as).length < 2 ^ 32) (hb : (encodeArgs bs).length < 2 ^ 32)
    (fa : ∀ a ∈ as, a.ty.Fit) (fb : ∀ b ∈ bs, b.ty.Fit) (h : encodeArgs as ++ r = encodeArgs bs ++ s) : as = bs ∧ r = s := by
  induction as generalizing bs with
  | nil =>
    cases bs with
    | nil => exact ⟨rfl, h⟩
    | cons b bs => simp at hl
  | cons a as ih =>
    cases bs with
    | nil => simp at hl
    | cons b bs =>
      simp only [encodeArgs, List.length_append, List.append_assoc] at ha hb h
      obtain ⟨h1, h2⟩ := Arg.encode_cut (by omega) (by omega) (fa a (by simp)) (fb b (by simp)) h
      obtain ⟨h3, h4⟩ := ih (by simpa using hl) (by omega) (by omega) (fun x hx => fa x (by simp [hx])) (fun x hx => fb x (by simp [hx])) h2
      exact ⟨by rw [h1, h3], h4⟩

theorem encodeArgs_atLeast (as : List Arg) : as.length ≤ (encodeArgs as).length := by
  induction as with
  | nil => simp
  | cons a as ih =>
    simp only [encodeArgs, Arg.encode, List.length_append, List.length_cons, pfx_length]
    omega

theorem runtimeArgs_cut {as bs : List Arg} {r s : Bytes} (ha : (encodeRuntimeArgs as).length < 2 ^ 32) (hb : (encodeRuntimeArgs bs).length < 2 ^ 32)
    (fa : ∀ a ∈ as, a.ty.Fit) (fb : ∀ b ∈ bs, b.ty.Fit) (h : encodeRuntimeArgs as ++ r = encodeRuntimeArgs bs ++ s) : as = bs ∧ r = s := by
  unfold encodeRuntimeArgs at ha hb h
  simp only [List.length_append, le_length, List.append_assoc] at ha hb h
  have ca := encodeArgs_atLeast as
  have cb := encodeArgs_atLeast bs
  obtain ⟨h1, h2⟩ := le_cut (by simp; omega) (by simp; omega) h
  exact encodeArgs_cut h1 (by omega) (by omega) fa fb h2

theorem ExecItem.encode_cut {i j : ExecItem} {r s : Bytes} (hi : i.encode.length < 2 ^ 32) (hj : j.encode.length < 2 ^ 32) (fi : i.Fit) (fj : j.Fit)
    (h : i.encode ++ r = j.encode ++ s) : i = j ∧ r = s := by
  have t1 := fi.types
  have t2 := fj.types
  have v1 := fi.version
  have v2 := fj.version
  have s1 := fi.sized
  have s2 := fj.sized
  cases i <;> cases j <;> simp only [ExecItem.encode, List.cons_append, List.cons.injEq, List.append_assoc, List.length_cons, List.length_append, pfx_length] at h hi hj <;>
    first
    | exact absurd h.1 (by decide)
    | simp only [ExecItem.args, ExecItem.version, ExecItem.Sized] at t1 t2 v1 v2 s1 s2
  · obtain ⟨h1, h⟩ := pfx_cut (by omega) (by omega) h.2
    obtain ⟨h2, h⟩ := runtimeArgs_cut (by omega) (by omega) t1 t2 h
    exact ⟨by rw [h1, h2], h⟩
  · obtain ⟨h1, h⟩ := List.append_inj h.2 (by omega)
    obtain ⟨h2, h⟩ := pfx_cut (by omega) (by omega) h
    obtain ⟨h3, h⟩ := runtimeArgs_cut (by omega) (by omega) t1 t2 h
    exact ⟨by rw [h1, h2, h3], h⟩
  · obtain ⟨h1, h⟩ := pfx_cut (by omega) (by omega) h.2
    obtain ⟨h2, h⟩ := pfx_cut (by omega) (by omega) h
    obtain ⟨h3, h⟩ := runtimeArgs_cut (by omega) (by omega) t1 t2 h
    exact ⟨by rw [h1, h2, h3], h⟩
  · obtain ⟨h1, h⟩ := List.append_inj h.2 (by omega)
    obtain ⟨h0, h⟩ := optional_cut v1 v2 h
    obtain ⟨h2, h⟩ := pfx_cut (by omega) (by omega) h
    obtain ⟨h3, h⟩ := runtimeArgs_cut (by omega) (by omega) t1 t2 h
    exact ⟨by rw [h0, h1, h2, h3], h⟩
  · obtain ⟨h1, h⟩ := pfx_cut (by omega) (by omega) h.2
    obtain ⟨h0, h⟩ := optional_cut v1 v2 h
    obtain ⟨h2, h⟩ := pfx_cut (by omega) (by omega) h
    obtain ⟨h3, h⟩ := runtimeArgs_cut (by omega) (by omega) t1 t2 h
    exact ⟨by rw [h0, h1, h2, h3], h⟩
  · obtain ⟨h3, h⟩ := runtimeArgs_cut (by omega) (by omega) t1 t2 h.2
    exact ⟨by rw [h3], h⟩

/-- Payment and session are determined by their bytes. -/
theorem DeploySpec.body_inj {x y : DeploySpec} (fx : x.Fit) (fy : y.Fit) (hx : x.body.length < 2 ^ 32) (hy : y.body.length < 2 ^ 32) (h : x.body = y.body) :
    x.payment = y.payment ∧ x.session = y.session := by
  unfold DeploySpec.body at hx hy h
  rw [List.length_append] at hx hy
  obtain ⟨h1, h2⟩ := ExecItem.encode_cut (by omega) (by omega) fx.payment fy.payment h
  exact ⟨h1, (ExecItem.encode_cut (r := []) (s := []) (by omega) (by omega) fx.session fy.session (by rw [h2])).1⟩

theorem flatten32 {as bs : List Bytes} {r s : Bytes} (hl : as.length = bs.length) (ha : ∀ x ∈ as, x.length = 32) (hb : ∀ x ∈ bs, x.length = 32)
    (h : as.flatten ++ r = bs.flatten ++ s) : as = bs ∧ r = s := by
  induction as generalizing bs with
  | nil =>
    cases bs with
    | nil => exact ⟨rfl, h⟩
    | cons b bs => simp at hl
  | cons a as ih =>
    cases bs with
    | nil => simp at hl
    | cons b bs =>
      simp only [List.flatten_cons, List.append_assoc] at h
      obtain ⟨h1, h2⟩ := List.append_inj h (by rw [ha a (by simp), hb b (by simp)])
      obtain ⟨h3, h4⟩ := ih (by simpa using hl) (fun x hx => ha x (by simp [hx])) (fun x hx => hb x (by simp [hx])) h2
      exact ⟨by rw [h1, h3], h4⟩

theorem length_flatten32 {as : List Bytes} (ha : ∀ x ∈ as, x.length = 32) : as.flatten.length = 32 * as.length := by
  induction as with
  | nil => rfl
  | cons a as ih =>
    rw [List.flatten_cons, List.length_append, ha a (by simp), ih fun x hx => ha x (by simp [hx]), List.length_cons]
    omega

theorem PubKey.encode_cut {k l : PubKey} {r s : Bytes} (hk : k.Ok) (hl : l.Ok) (h : k.encode ++ r = l.encode ++ s) : k = l ∧ r = s := by
  cases k <;> cases l <;> simp only [PubKey.encode, PubKey.Ok, List.cons_append, List.cons.injEq] at h hk hl
  · obtain ⟨h1, h2⟩ := List.append_inj h.2 (by omega)
    exact ⟨by rw [h1], h2⟩
  · exact absurd h.1 (by decide)
  · exact absurd h.1 (by decide)
  · obtain ⟨h1, h2⟩ := List.append_inj h.2 (by omega)
    exact ⟨by rw [h1], h2⟩

/-- A header is determined by its bytes. -/
theorem DeployHeader.encode_inj {a b : DeployHeader} (ha : a.Ok) (hb : b.Ok) (la : a.encode.length < 2 ^ 32) (lb : b.encode.length < 2 ^ 32) (h : a.encode = b.encode) :
    a = b := by
  unfold DeployHeader.encode at h la lb
  have da := length_flatten32 ha.deps
  have db := length_flatten32 hb.deps
  simp only [List.append_assoc] at h
  simp only [List.length_append, le_length, pfx_length, da, db] at la lb
  obtain ⟨h1, h⟩ := PubKey.encode_cut ha.account hb.account h
  obtain ⟨h2, h⟩ := le_cut (by simpa using ha.timestamp) (by simpa using hb.timestamp) h
  obtain ⟨h3, h⟩ := le_cut (by simpa using ha.ttl) (by simpa using hb.ttl) h
  obtain ⟨h4, h⟩ := le_cut (by simpa using ha.gasPrice) (by simpa using hb.gasPrice) h
  obtain ⟨h5, h⟩ := List.append_inj h (by rw [ha.bodyHash, hb.bodyHash])
  obtain ⟨h6, h⟩ := le_cut (by simp; omega) (by simp; omega) h
  obtain ⟨h7, h⟩ := flatten32 h6 ha.deps hb.deps h
  have h8 := pfx_inj (by omega) (by omega) h
  cases a; cases b
  simp only at h1 h2 h3 h4 h5 h7 h8
  rw [h1, h2, h3, h4, h5, h7, h8]

/-! ### Calltables -/

theorem entries_length (i st : Nat) (fs : List Bytes) : (tableEntries i st fs).length = 6 * fs.length := by
  induction fs generalizing i st with
  | nil => rfl
  | cons f fs ih => simp only [tableEntries, List.length_append, le_length, ih, List.length_cons]; omega

theorem tableEntries_inj {i st : Nat} {fs gs : List Bytes} (hl : fs.length = gs.length) (hf : st + fs.flatten.length < 2 ^ 32)
    (h : tableEntries i st fs = tableEntries i st gs) (hfl : fs.flatten = gs.flatten) : fs = gs := by
  induction fs generalizing i st gs with
  | nil =>
    cases gs with
    | nil => rfl
    | cons g gs => simp at hl
  | cons f fs ih =>
    cases gs with
    | nil => simp at hl
    | cons g gs =>
      have hl' : fs.length = gs.length := by simpa using hl
      simp only [tableEntries] at h
      have h' := (List.append_inj h (by simp)).2
      rw [List.flatten_cons, List.flatten_cons] at hfl
      rw [List.flatten_cons, List.length_append] at hf
      have hlen := congrArg List.length hfl
      rw [List.length_append, List.length_append] at hlen
      have hfg : f.length = g.length := by
        cases fs with
        | nil =>
          cases gs with
          | nil => simpa using hlen
          | cons g' gs => simp at hl'
        | cons f' fs =>
          cases gs with
          | nil => simp at hl'
          | cons g' gs =>
            simp only [tableEntries, List.append_assoc] at h'
            have := (List.append_inj h' (by simp)).2
            have := (le_cut (by simp; omega) (by simp; omega) this).1
            omega
      obtain ⟨h1, h2⟩ := List.append_inj hfl hfg
      rw [hfg] at h'
      rw [h1, ih hl' (by omega) (hfg ▸ h') h2]

/-- The fields are determined by the table. -/
theorem callTable_inj {fs gs : List Bytes} (hf : (callTable fs).length < 2 ^ 32) (hg : (callTable gs).length < 2 ^ 32) (h : callTable fs = callTable gs) : fs = gs := by
  unfold callTable at h hf hg
  simp only [List.length_append, le_length, entries_length] at hf hg
  simp only [List.append_assoc] at h
  obtain ⟨h1, h⟩ := le_cut (by simp; omega) (by simp; omega) h
  obtain ⟨h2, h⟩ := List.append_inj h (by rw [entries_length, entries_length, h1])
  obtain ⟨h3, h⟩ := le_cut (by simp only [Nat.reducePow] at *; omega) (by simp only [Nat.reducePow] at *; omega) h
  exact tableEntries_inj h1 (by omega) h2 h

theorem callTable_field {fs : List Bytes} {f : Bytes} (h : f ∈ fs) : f.length ≤ (callTable fs).length := by
  have : f.length ≤ fs.flatten.length := by
    induction fs with
    | nil => cases h
    | cons g fs ih =>
      rw [List.flatten_cons, List.length_append]
      rcases List.mem_cons.1 h with rfl | h
      · omega
      · have := ih h
        omega
  unfold callTable
  simp only [List.length_append]
  omega

theorem Initiator.encode_inj {a b : Initiator} (ha : a.Fit) (hb : b.Fit) (h : a.encode = b.encode) (la : a.encode.length < 2 ^ 32) : a = b := by
  have key : ∀ {fs gs : List Bytes}, callTable fs = callTable gs → (callTable fs).length < 2 ^ 32 → fs = gs := fun h l => callTable_inj l (h ▸ l) h
  cases a <;> cases b <;> simp only [Initiator.encode] at h la <;> have := key h la <;> simp [Initiator.addr] at this <;> rw [this]

theorem Pricing.encode_inj {a b : Pricing} (ha : a.Fit) (hb : b.Fit) (h : a.encode = b.encode) (la : a.encode.length < 2 ^ 32) : a = b := by
  have key : ∀ {fs gs : List Bytes}, callTable fs = callTable gs → (callTable fs).length < 2 ^ 32 → fs = gs := fun h l => callTable_inj l (h ▸ l) h
  cases a <;> cases b <;> simp only [Pricing.encode] at h la <;> have := key h la <;>
    simp only [List.cons.injEq, and_true, true_and, List.cons_ne_nil, List.nil_eq, and_false] at this <;>
    first
    | (obtain ⟨h1, h2, h3⟩ := this
       simp only [Pricing.Fit] at ha hb
       rw [le_inj (by simp; omega) (by simp; omega) h1, le_inj (by simp; omega) (by simp; omega) h2]
       rename_i s _ _ t
       cases s <;> cases t <;> first | rfl | exact absurd h3 (by decide))
    | (obtain ⟨h1, h2⟩ := this
       simp only [Pricing.Fit] at ha hb
       rw [le_inj (by simp; omega) (by simp; omega) h1, le_inj (by simp; omega) (by simp; omega) h2])
    | rw [this]

theorem VmRuntime.encode_inj {a b : VmRuntime} (ha : a.Fit) (hb : b.Fit) (h : a.encode = b.encode) (la : a.encode.length < 2 ^ 32) : a = b := by
  have key : ∀ {fs gs : List Bytes}, callTable fs = callTable gs → (callTable fs).length < 2 ^ 32 → fs = gs := fun h l => callTable_inj l (h ▸ l) h
  cases a <;> cases b <;> first | rfl | simp only [VmRuntime.encode] at h la
  all_goals
    have := key h la
    simp only [List.cons.injEq, and_true, true_and, reduceCtorEq, and_false] at this
  · simp only [VmRuntime.Fit] at ha hb
    rw [le_inj (by simpa using ha) (by simpa using hb) this.1]
    rename_i s _ t
    have := this.2
    cases s <;> cases t <;> simp [optional] at this ⊢
    exact this

theorem V1Target.encode_inj {a b : V1Target} (ha : a.Fit) (hb : b.Fit) (h : a.encode = b.encode) (la : a.encode.length < 2 ^ 32) : a = b := by
  have key : ∀ {fs gs : List Bytes}, callTable fs = callTable gs → (callTable fs).length < 2 ^ 32 → fs = gs := fun h l => callTable_inj l (h ▸ l) h
  have keyn : ∀ {fs gs : List Bytes}, fs ≠ gs → callTable fs = callTable gs → (callTable fs).length < 2 ^ 32 → False := fun h0 h l => h0 (callTable_inj l (h ▸ l) h)
  have opt : ∀ {v w : Option Nat}, (∀ x, v = some x → x < 2 ^ 32) → (∀ x, w = some x → x < 2 ^ 32) → optional (le 4) v = optional (le 4) w → v = w :=
    fun hv hw h => (optional_cut (r := []) (s := []) hv hw (by rw [h])).1
  have fld : ∀ {fs : List Bytes} {f : Bytes}, (callTable fs).length < 2 ^ 32 → f ∈ fs → f.length < 2 ^ 32 := fun h hf => lt_of_le_of_lt (callTable_field hf) h
  have pf : ∀ {xs ys : Bytes}, (pfx xs).length < 2 ^ 32 → pfx xs = pfx ys → xs = ys := by
    intro xs ys h1 h2
    have := congrArg List.length h2
    simp only [pfx_length] at h1 this
    exact pfx_inj (by omega) (by omega) h2
  cases a <;> cases b <;> first | rfl | simp only [V1Target.encode] at h la
  all_goals
    have h1 := key h la
    simp only [List.cons.injEq, and_true, true_and, reduceCtorEq, and_false] at h1
  all_goals
    simp only [V1Target.Fit] at ha hb
  all_goals first
    | exact absurd h1.1 (by decide)
    | (refine (keyn ?_ h1.1 (fld la (by simp))).elim; simp; done)
    | skip
  · have h2 := key h1.1 (fld la (by simp))
    simp only [List.cons.injEq, and_true, true_and] at h2
    rw [h2, VmRuntime.encode_inj ha hb h1.2 (fld la (by simp))]
  · have h2 := key h1.1 (fld la (by simp))
    simp only [List.cons.injEq, and_true, true_and] at h2
    have hin := fun {f} => fld (f := f) (fld la (List.mem_cons_of_mem _ List.mem_cons_self))
    rw [pf (hin (by simp)) h2, VmRuntime.encode_inj ha hb h1.2 (fld la (by simp))]
  · have h2 := key h1.1 (fld la (by simp))
    simp only [List.cons.injEq, and_true, true_and] at h2
    rw [h2.1, opt ha.1 hb.1 h2.2, VmRuntime.encode_inj ha.2 hb.2 h1.2 (fld la (by simp))]
  · have h2 := key h1.1 (fld la (by simp))
    simp only [List.cons.injEq, and_true, true_and] at h2
    have hin := fun {f} => fld (f := f) (fld la (List.mem_cons_of_mem _ List.mem_cons_self))
    rw [pf (hin (by simp)) h2.1, opt ha.1 hb.1 h2.2, VmRuntime.encode_inj ha.2 hb.2 h1.2 (fld la (by simp))]
  · rw [VmRuntime.encode_inj ha hb h1.2.1 (fld la (by simp)), pf (fld la (by simp)) h1.2.2]
    rename_i s _ _ t _ _
    cases s <;> cases t <;> first | rfl | exact absurd h1.1 (by decide)

theorem V1Entry.encode_inj {a b : V1Entry} (ha : a.Fit) (hb : b.Fit) (h : a.encode = b.encode) (la : a.encode.length < 2 ^ 32) : a = b := by
  have key : ∀ {fs gs : List Bytes}, callTable fs = callTable gs → (callTable fs).length < 2 ^ 32 → fs = gs := fun h l => callTable_inj l (h ▸ l) h
  cases a <;> cases b <;> simp only [V1Entry.encode] at h la <;> have h1 := key h la <;> simp only [List.cons.injEq, and_true, true_and, reduceCtorEq, and_false] at h1
  · rename_i m n
    have hm : (pfx m).length < 2 ^ 32 := lt_of_le_of_lt (callTable_field (by simp)) la
    have := congrArg List.length h1
    simp only [pfx_length] at hm this
    rw [pfx_inj (by omega) (by omega) h1]
  · rw [le_inj (by simpa [V1Entry.Fit] using ha) (by simpa [V1Entry.Fit] using hb) h1]

theorem V1Args.encode_inj {a b : V1Args} (ha : a.Fit) (hb : b.Fit) (h : a.encode = b.encode) (la : a.encode.length < 2 ^ 32) : a = b := by
  have lb : b.encode.length < 2 ^ 32 := h ▸ la
  cases a <;> cases b <;> simp only [V1Args.encode, List.cons.injEq, true_and, List.length_cons, pfx_length] at h la lb
  · rw [(runtimeArgs_cut (r := []) (s := []) (by omega) (by omega) ha hb (by rw [h])).1]
  · exact absurd h.1 (by decide)
  · exact absurd h.1 (by decide)
  · rw [pfx_inj (by omega) (by omega) h]

/-- A payload is determined by its bytes. -/
theorem TxPayload.encode_inj {p q : TxPayload} (hp : p.Fit) (hq : q.Fit) (h : p.encode = q.encode) (l : p.encode.length < 2 ^ 32) : p = q := by
  have l' : q.encode.length < 2 ^ 32 := h ▸ l
  unfold TxPayload.encode at h l l'
  have h1 := callTable_inj l l' h
  have fld : ∀ {fs : List Bytes} {f : Bytes}, (callTable fs).length < 2 ^ 32 → f ∈ fs → f.length < 2 ^ 32 := fun h hf => lt_of_le_of_lt (callTable_field hf) h
  simp only [List.cons.injEq, and_true] at h1
  obtain ⟨a1, a2, a3, a4, a5, a6⟩ := h1
  have e1 := Initiator.encode_inj hp.initiator hq.initiator a1 (fld l (by simp))
  have e2 := le_inj (by simpa using hp.timestamp) (by simpa using hq.timestamp) a2
  have e3 := le_inj (by simpa using hp.ttl) (by simpa using hq.ttl) a3
  have b4 : (pfx p.chain).length < 2 ^ 32 := fld l (by simp)
  have b4' : (pfx q.chain).length < 2 ^ 32 := fld l' (by simp)
  have b6 : p.body.length < 2 ^ 32 := fld l (by simp)
  have b6' : q.body.length < 2 ^ 32 := fld l' (by simp)
  simp only [pfx_length] at b4 b4'
  have e4 := pfx_inj (by omega) (by omega) a4
  have e5 := Pricing.encode_inj hp.pricing hq.pricing a5 (fld l (by simp))
  unfold TxPayload.body at a6 b6 b6'
  simp only [List.length_append, le_length, pfx_length] at b6 b6'
  simp only [List.append_assoc] at a6
  have a6 := (List.append_inj a6 (by simp)).2
  have a6 := (List.append_inj a6 (by simp)).2
  obtain ⟨c1, a6⟩ := pfx_cut (by omega) (by omega) a6
  have a6 := (List.append_inj a6 (by simp)).2
  obtain ⟨c2, a6⟩ := pfx_cut (by omega) (by omega) a6
  have a6 := (List.append_inj a6 (by simp)).2
  obtain ⟨c3, -⟩ := pfx_cut (by omega) (by omega) a6
  have e6 := V1Args.encode_inj hp.args hq.args c1 (by omega)
  have e7 := V1Target.encode_inj hp.target hq.target c2 (by omega)
  have e8 := V1Entry.encode_inj hp.entry hq.entry c3 (by omega)
  cases p; cases q
  simp only at e1 e2 e3 e4 e5 e6 e7 e8
  rw [e1, e2, e3, e4, e5, e6, e7, e8]

end Casper
