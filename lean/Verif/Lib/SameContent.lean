import Verif.Spec.ContentV1
import Verif.Lib.Unique
import Verif.Lib.CanonArgs
import Verif.Lib.ContentV1
/-
The bytes of a version 1 transaction determine its content.
-/
namespace Casper

/-- Tables say where they end. -/
theorem Heads.cut {fs gs : List Bytes} {n m : Nat} {w w' : Bool} {t u r s : Bytes} (ht : Heads fs n w t) (hu : Heads gs m w' u) (h : t ++ r = u ++ s) :
    t = u ∧ r = s := by
  obtain ⟨c, os, sz, rfl, h1, -, -, -⟩ := ht
  obtain ⟨c', os', sz', rfl, h1', -, -, -⟩ := hu
  refine List.append_inj h ?_
  have hc : c % 256 = c' % 256 := by
    have := congrArg (fun l => List.headD l 0) h
    simp only [looseTable, le, List.cons_append, List.headD_cons] at this
    have := congrArg UInt8.toNat this
    rw [UInt8.toNat_ofNat', UInt8.toNat_ofNat'] at this
    omega
  simp only [looseTable, List.length_append, le_length, entriesFrom_length]
  omega

theorem entriesFrom_get {i : Nat} {os os' : List Nat} (h : entriesFrom i os = entriesFrom i os') (j x y : Nat) (hx : os[j]? = some x) (hy : os'[j]? = some y)
    (lx : x < 2 ^ 32) (ly : y < 2 ^ 32) : x = y := by
  induction os generalizing i os' j with
  | nil => simp at hx
  | cons o os ih =>
    cases os' with
    | nil => simp at hy
    | cons o' os' =>
      simp only [entriesFrom, List.append_assoc] at h
      obtain ⟨-, h⟩ := List.append_inj h (by simp)
      obtain ⟨h1, h2⟩ := List.append_inj h (by simp)
      cases j with
      | zero =>
        simp only [List.getElem?_cons_zero, Option.some.injEq] at hx hy
        subst hx hy
        exact le_inj (by simpa using lx) (by simpa using ly) h1
      | succ j => exact ih h2 j (by simpa using hx) (by simpa using hy)

/-- Equal tables give equal starts of fields. -/
theorem Heads.starts {fs gs : List Bytes} {n m : Nat} {w w' : Bool} {t : Bytes} (ht : Heads fs n w t) (hu : Heads gs m w' t) (hf : fs.flatten.length < 2 ^ 32)
    (hg : gs.flatten.length < 2 ^ 32) (j : Nat) (hn : j < n) (hm : j < m) : startOf fs j = startOf gs j := by
  obtain ⟨c, os, sz, rfl, h1, -, -, h2, -⟩ := ht
  obtain ⟨c', os', sz', h, h1', -, -, h2', -⟩ := hu
  simp only [looseTable, List.append_assoc] at h
  have hl := congrArg List.length h
  simp only [List.length_append, le_length, entriesFrom_length] at hl
  obtain ⟨-, h⟩ := List.append_inj h (by simp)
  obtain ⟨h, -⟩ := List.append_inj h (by simp only [entriesFrom_length]; omega)
  have key : ∀ l : List Bytes, l.flatten.length < 2 ^ 32 → startOf l j < 2 ^ 32 := by
    intro l hl
    refine lt_of_le_of_lt ?_ hl
    conv_rhs => rw [← List.take_append_drop j l, List.flatten_append, List.length_append]
    exact Nat.le_add_right _ _
  exact entriesFrom_get h j _ _ (h2 j hn) (h2' j hm) (key _ hf) (key _ hg)

/-- Equal bytes and equal starts are equal fields. -/
theorem fields_inj {fs gs : List Bytes} (hl : fs.length = gs.length) (h : fs.flatten = gs.flatten) (hs : ∀ j, j < fs.length → startOf fs j = startOf gs j) :
    fs = gs := by
  refine List.ext_getElem hl fun j h1 h2 => ?_
  have hn : (fs.take (j + 1)).flatten.length = (gs.take (j + 1)).flatten.length := by
    by_cases hj : j + 1 < fs.length
    · exact hs _ hj
    · rw [List.take_of_length_le (by omega), List.take_of_length_le (by omega), h]
  have hp : (fs.take (j + 1)).flatten = (gs.take (j + 1)).flatten := by
    have e : ∀ l : List Bytes, l.flatten = (l.take (j + 1)).flatten ++ (l.drop (j + 1)).flatten := fun l => by
      rw [← List.flatten_append, List.take_append_drop]
    rw [e fs, e gs] at h
    exact (List.append_inj h hn).1
  rw [List.take_succ_eq_append_getElem h1, List.take_succ_eq_append_getElem h2, List.flatten_append, List.flatten_append] at hp
  have := (List.append_inj hp (hs j h1)).2
  simpa using this

/-- Fields all of which are in the table. -/
theorem Heads.inj {fs gs : List Bytes} {w w' : Bool} {t u : Bytes} {n m : Nat} (ht : Heads fs n w t) (hu : Heads gs m w' u) (hf : fs.flatten.length < 2 ^ 32)
    (hg : gs.flatten.length < 2 ^ 32) (hl : fs.length = gs.length) (hn : fs.length ≤ n) (hm : fs.length ≤ m) (h : t ++ fs.flatten = u ++ gs.flatten) :
    t = u ∧ fs = gs := by
  obtain ⟨rfl, k⟩ := ht.cut hu h
  exact ⟨rfl, fields_inj hl k fun j hj => ht.starts hu hf hg j (by omega) (by omega)⟩

theorem InitOf.inj {a b xs : Bytes} (ha : InitOf a xs) (hb : InitOf b xs) : a = b := by
  obtain ⟨t, -, ⟨tb, h1, rfl⟩, -⟩ := ha
  obtain ⟨t', -, ⟨tb', h1', h⟩, -⟩ := hb
  obtain ⟨-, k⟩ := h1.cut h1' h
  simp only [List.flatten_cons, List.flatten_nil, List.append_nil, List.singleton_append, List.cons.injEq] at k
  exact k.2

theorem PricingOf.inj {p q : Pricing} {xs : Bytes} (hp : PricingOf p xs) (hq : PricingOf q xs) : p = q := by
  obtain ⟨fs, f1, tb, h1, rfl⟩ := hp
  obtain ⟨gs, g1, tb', h1', h0⟩ := hq
  obtain ⟨-, h⟩ := h1.cut h1' h0
  clear h0 h1 h1'
  cases p with
  | limited a g s =>
    obtain ⟨a1, a2, mk, rfl, rfl⟩ := f1
    cases q with
    | limited a' g' s' =>
      obtain ⟨b1, b2, mk', rfl, rfl⟩ := g1
      simp only [List.flatten_cons, List.flatten_nil, List.append_nil, List.cons_append, List.nil_append, List.cons.injEq, true_and] at h
      obtain ⟨k1, h⟩ := le_cut (n := 8) a1 b1 h
      obtain ⟨k2, h⟩ := le_cut (n := 1) a2 b2 h
      simp only [List.cons.injEq, and_true] at h
      rw [h, k1, k2]
    | fixed g' x' => obtain ⟨-, -, rfl⟩ := g1; simp at h
    | prepaid r' => obtain ⟨-, rfl⟩ := g1; simp at h
  | fixed g x =>
    obtain ⟨a1, a2, rfl⟩ := f1
    cases q with
    | limited a' g' s' => obtain ⟨-, -, _, -, rfl⟩ := g1; simp at h
    | fixed g' x' =>
      obtain ⟨b1, b2, rfl⟩ := g1
      simp only [List.flatten_cons, List.flatten_nil, List.cons_append, List.nil_append, List.cons.injEq, true_and] at h
      obtain ⟨k1, h⟩ := le_cut (n := 1) a1 b1 h
      obtain ⟨k2, h⟩ := le_cut (n := 1) a2 b2 h
      rw [k1, k2]
    | prepaid r' => obtain ⟨-, rfl⟩ := g1; simp at h
  | prepaid r =>
    obtain ⟨-, rfl⟩ := f1
    cases q with
    | limited a' g' s' => obtain ⟨-, -, _, -, rfl⟩ := g1; simp at h
    | fixed g' x' => obtain ⟨-, -, rfl⟩ := g1; simp at h
    | prepaid r' =>
      obtain ⟨-, rfl⟩ := g1
      simp only [List.flatten_cons, List.flatten_nil, List.append_nil, List.cons_append, List.nil_append, List.cons.injEq, true_and] at h
      rw [h]

theorem RuntimeOf.cut {a b : VmRuntime} {xs ys r s : Bytes} (ha : RuntimeOf a xs) (hb : RuntimeOf b ys) (h0 : xs ++ r = ys ++ s) : a = b ∧ r = s := by
  obtain ⟨a1, a2, tb, h1, rfl⟩ := ha
  obtain ⟨b1, b2, tb', h1', rfl⟩ := hb
  rw [List.append_assoc, List.append_assoc] at h0
  obtain ⟨-, h⟩ := h1.cut h1' h0
  clear h0 h1 h1'
  cases a with
  | v1 =>
    cases b with
    | v1 => simpa [VmRuntime.fields] using h
    | v2 v' s' => simp [VmRuntime.fields] at h
  | v2 v sd =>
    cases b with
    | v1 => simp [VmRuntime.fields] at h
    | v2 v' sd' =>
      simp only [VmRuntime.fields, List.flatten_cons, List.flatten_nil, List.append_nil, List.append_assoc, List.cons_append, List.nil_append, List.cons.injEq, true_and] at h
      obtain ⟨k, h⟩ := le_cut (n := 8) (a2 _ _ rfl) (b2 _ _ rfl) h
      cases sd with
      | none =>
        cases sd' with
        | none => simpa [optional, k] using h
        | some y => simp [optional] at h
      | some x =>
        cases sd' with
        | none => simp [optional] at h
        | some y =>
          simp only [optional, id, List.cons_append, List.cons.injEq, true_and] at h
          obtain ⟨k', h⟩ := List.append_inj h (by rw [a1 _ _ rfl, b1 _ _ rfl])
          exact ⟨by rw [k, k'], h⟩

theorem StoredOf.cut {a b : V1Target} {x y : VmRuntime} {fs gs : List Bytes} {r s : Bytes} (ha : StoredOf a x fs) (hb : StoredOf b y gs)
    (la : fs.flatten.length < 2 ^ 32) (lb : gs.flatten.length < 2 ^ 32) (h : fs.flatten ++ r = gs.flatten ++ s) : (x = y → a = b) ∧ r = s := by
  cases ha <;> cases hb <;>
    simp only [List.flatten_cons, List.flatten_nil, List.append_nil, List.append_assoc, List.cons_append, List.nil_append, List.cons.injEq, List.length_append, List.length_cons, pfx_length] at h la lb
  all_goals try exact absurd h.1 (by decide)
  · obtain ⟨k, h⟩ := List.append_inj h.2 (by omega)
    exact ⟨fun e => by rw [e, k], h⟩
  · obtain ⟨k, h⟩ := pfx_cut (by omega) (by omega) h.2
    exact ⟨fun e => by rw [e, k], h⟩
  · rename_i v1 e1 hv1 _ v2 e2 hv2
    obtain ⟨k, h⟩ := List.append_inj h.2 (by omega)
    obtain ⟨k', h⟩ := optional_cut hv1 hv2 h
    exact ⟨fun e => by rw [e, k, k'], h⟩
  · rename_i v1 hv1 _ v2 hv2
    obtain ⟨k, h⟩ := pfx_cut (by omega) (by omega) h.2
    obtain ⟨k', h⟩ := optional_cut hv1 hv2 h
    exact ⟨fun e => by rw [e, k, k'], h⟩

theorem TargetOf.table {a : V1Target} {xs : Bytes} (ha : TargetOf a xs) : ∃ fs n w t x rest, Heads fs n w t ∧ fs = [x] :: rest ∧ xs = t ++ fs.flatten ∧
    ((x = 0 ∧ a = .native ∧ rest = []) ∨ (x = 1 ∧ ∃ r gs who rt, StoredOf a r gs ∧ LooseAs 0 false gs who ∧ RuntimeOf r rt ∧ rest = [who, rt]) ∨
      (x = 2 ∧ ∃ i r rt code, a = .session i r code ∧ RuntimeOf r rt ∧ rest = [[if i then 1 else 0], rt, pfx code])) := by
  cases ha with
  | native _ h =>
    obtain ⟨t, h1, rfl⟩ := h
    exact ⟨_, _, _, t, 0, [], h1, rfl, rfl, .inl ⟨rfl, rfl, rfl⟩⟩
  | stored _ r fs who rt _ h1 h2 h3 h =>
    obtain ⟨t, k, rfl⟩ := h
    exact ⟨_, _, _, t, 1, [who, rt], k, rfl, rfl, .inr (.inl ⟨rfl, r, fs, who, rt, h1, h2, h3, rfl⟩)⟩
  | session i r rt code _ h3 h =>
    obtain ⟨t, k, rfl⟩ := h
    exact ⟨_, _, _, t, 2, _, k, rfl, rfl, .inr (.inr ⟨rfl, i, r, rt, code, rfl, h3, rfl⟩)⟩

theorem TargetOf.cut {a b : V1Target} {xs ys r s : Bytes} (ha : TargetOf a xs) (hb : TargetOf b ys) (lx : xs.length < 2 ^ 32) (ly : ys.length < 2 ^ 32)
    (h0 : xs ++ r = ys ++ s) : a = b ∧ r = s := by
  obtain ⟨_, n, w, t, x, rest, h1, rfl, rfl, ca⟩ := ha.table
  obtain ⟨_, n', w', t', x', rest', h1', rfl, rfl, cb⟩ := hb.table
  rw [List.append_assoc, List.append_assoc] at h0
  obtain ⟨-, h⟩ := h1.cut h1' h0
  clear h0 h1 h1'
  simp only [List.flatten_cons, List.cons_append, List.nil_append, List.cons.injEq] at h
  obtain ⟨rfl, h⟩ := h
  rw [List.length_append, List.flatten_cons, List.length_append] at lx ly
  rcases ca with ⟨rfl, rfl, rfl⟩ | ⟨rfl, r1, gs, who, rt, s1, ⟨t1, u1, rfl⟩, s3, rfl⟩ | ⟨rfl, i, r1, rt, code, rfl, s3, rfl⟩
  · rcases cb with ⟨-, rfl, rfl⟩ | ⟨hx, -⟩ | ⟨hx, -⟩
    · exact ⟨rfl, h⟩
    · simp at hx
    · simp at hx
  · rcases cb with ⟨hx, -⟩ | ⟨-, r2, gs', who', rt', s1', ⟨t1', u1', rfl⟩, s3', rfl⟩ | ⟨hx, -⟩
    · simp at hx
    · simp only [List.flatten_cons, List.flatten_nil, List.append_nil, List.append_assoc, List.length_append] at h lx ly
      obtain ⟨-, h⟩ := u1.cut u1' h
      obtain ⟨k, h⟩ := s1.cut s1' (by omega) (by omega) h
      obtain ⟨k', h⟩ := s3.cut s3' h
      exact ⟨k k', h⟩
    · simp at hx
  · rcases cb with ⟨hx, -⟩ | ⟨hx, -⟩ | ⟨-, i', r2, rt', code', rfl, s3', rfl⟩
    · simp at hx
    · simp at hx
    · simp only [List.flatten_cons, List.flatten_nil, List.append_nil, List.append_assoc, List.length_append, List.length_cons, List.cons_append, List.nil_append, List.cons.injEq, pfx_length] at h lx ly
      obtain ⟨k, h⟩ := h
      obtain ⟨k', h⟩ := s3.cut s3' h
      obtain ⟨k'', h⟩ := pfx_cut (by omega) (by omega) h
      refine ⟨?_, h⟩
      rw [k', k'']
      cases i <;> cases i' <;> simp at k ⊢

theorem EntryOf.cut {a b : V1Entry} {xs ys r s : Bytes} (ha : EntryOf a xs) (hb : EntryOf b ys) (lx : xs.length < 2 ^ 32) (ly : ys.length < 2 ^ 32)
    (h0 : xs ++ r = ys ++ s) : a = b ∧ r = s := by
  have key : ∀ {a : V1Entry} {xs : Bytes}, EntryOf a xs → ∃ fs n w t x rest, Heads fs n w t ∧ fs = [x] :: rest ∧ xs = t ++ fs.flatten ∧
      ((∃ name, x = 1 ∧ a = .custom name ∧ rest = [pfx name]) ∨ ∃ k, k ≤ 12 ∧ k ≠ 1 ∧ x = UInt8.ofNat k ∧ a = .op k ∧ rest = []) := by
    intro a xs ha
    cases ha with
    | custom name _ h =>
      obtain ⟨t, k, rfl⟩ := h
      exact ⟨_, _, _, t, 1, _, k, rfl, rfl, .inl ⟨name, rfl, rfl, rfl⟩⟩
    | op k _ h1 h2 h =>
      obtain ⟨t, u, rfl⟩ := h
      have e : le 1 k = [UInt8.ofNat k] := by simp only [le]; congr 1; apply UInt8.toNat_inj.1; simp
      rw [e] at u ⊢
      exact ⟨_, _, _, t, UInt8.ofNat k, [], u, rfl, rfl, .inr ⟨k, h1, h2, rfl, rfl, rfl⟩⟩
  obtain ⟨_, n, w, t, x, rest, h1, rfl, rfl, ca⟩ := key ha
  obtain ⟨_, n', w', t', x', rest', h1', rfl, rfl, cb⟩ := key hb
  rw [List.append_assoc, List.append_assoc] at h0
  obtain ⟨-, h⟩ := h1.cut h1' h0
  clear h0 h1 h1'
  simp only [List.flatten_cons, List.cons_append, List.nil_append, List.cons.injEq] at h
  obtain ⟨hx, h⟩ := h
  rw [List.length_append, List.flatten_cons, List.length_append] at lx ly
  have nat : ∀ k, k ≤ 12 → (UInt8.ofNat k).toNat = k := fun k hk => by rw [UInt8.toNat_ofNat']; omega
  rcases ca with ⟨name, rfl, rfl, rfl⟩ | ⟨k, k1, k2, rfl, rfl, rfl⟩
  · rcases cb with ⟨name', -, rfl, rfl⟩ | ⟨k, k1, k2, rfl, rfl, rfl⟩
    · simp only [List.flatten_cons, List.flatten_nil, List.append_nil, pfx_length] at h lx ly
      obtain ⟨k, h⟩ := pfx_cut (by omega) (by omega) h
      exact ⟨by rw [k], h⟩
    · have := congrArg UInt8.toNat hx
      rw [nat k k1] at this
      exact absurd this.symm k2
  · rcases cb with ⟨name', rfl, rfl, rfl⟩ | ⟨k', k1', k2', rfl, rfl, rfl⟩
    · have := congrArg UInt8.toNat hx
      rw [nat k k1] at this
      exact absurd this k2
    · have := congrArg UInt8.toNat hx
      rw [nat k k1, nat k' k1'] at this
      exact ⟨by rw [this], h⟩

theorem V1Args.encode_cut {a b : V1Args} {r s : Bytes} (la : a.encode.length < 2 ^ 32) (lb : b.encode.length < 2 ^ 32) (fa : a.Fit) (fb : b.Fit)
    (h : a.encode ++ r = b.encode ++ s) : a = b ∧ r = s := by
  cases a <;> cases b <;> simp only [V1Args.encode, List.cons_append, List.cons.injEq, List.length_cons, pfx_length] at h la lb
  · obtain ⟨k, h⟩ := runtimeArgs_cut (by omega) (by omega) fa fb h.2
    exact ⟨by rw [k], h⟩
  · exact absurd h.1 (by decide)
  · exact absurd h.1 (by decide)
  · obtain ⟨k, h⟩ := pfx_cut (by omega) (by omega) h.2
    exact ⟨by rw [k], h⟩

theorem BodyOf.inj {a a' : V1Args} {l l' : Nat} {t t' : V1Target} {en en' : V1Entry} {xs : Bytes} (h : BodyOf a l t en xs) (h' : BodyOf a' l' t' en' xs)
    (fa : a.Fit) (fa' : a'.Fit) (lx : xs.length < 2 ^ 32) : a = a' ∧ l = l' ∧ t = t' ∧ en = en' := by
  obtain ⟨l1, l2, l3, target, entry, sched, b0, b1, b2, -, rfl⟩ := h
  obtain ⟨m1, m2, m3, target', entry', sched', c0, c1, c2, -, h⟩ := h'
  have ly := lx
  rw [h] at ly
  simp only [List.length_append, le_length] at lx ly
  obtain ⟨-, h⟩ := List.append_inj h (by simp)
  obtain ⟨-, h⟩ := List.append_inj h (by simp)
  obtain ⟨k1, h⟩ := le_cut (n := 4) b0 c0 h
  obtain ⟨k2, h⟩ := V1Args.encode_cut (by omega) (by omega) fa fa' h
  obtain ⟨-, h⟩ := List.append_inj h (by simp)
  obtain ⟨-, h⟩ := List.append_inj h (by simp)
  obtain ⟨k3, h⟩ := b1.cut c1 (by omega) (by omega) h
  obtain ⟨-, h⟩ := List.append_inj h (by simp)
  obtain ⟨-, h⟩ := List.append_inj h (by simp)
  obtain ⟨k4, h⟩ := b2.cut c2 (by omega) (by omega) h
  exact ⟨k2, k1, k3, k4⟩

theorem PayloadOf.inj {c c' : Content} {pos pos' : Nat} {xs : Bytes} (h : PayloadOf c pos xs) (h' : PayloadOf c' pos' xs) (fa : c.args.Fit) (fa' : c'.args.Fit)
    (lx : xs.length < 2 ^ 32) : c = c' ∧ pos = pos' := by
  obtain ⟨tb, init, pricing, body, h1, rfl, h2, h3, h4, h5, h6, rfl⟩ := h
  obtain ⟨tb', init', pricing', body', g1, g, g2, g3, g4, g5, g6, rfl⟩ := h'
  have ly := lx
  rw [g] at ly
  rw [List.length_append] at lx ly
  obtain ⟨k0, k⟩ := h1.inj g1 (by omega) (by omega) rfl (by simp) (by simp) g
  simp only [List.cons.injEq, and_true] at k
  obtain ⟨rfl, k1, k2, k3, rfl, rfl⟩ := k
  simp only [List.flatten_cons, List.flatten_nil, List.length_append, pfx_length, le_length] at lx ly
  have k4 := le_inj (n := 8) h4 g4 k1
  have k5 := le_inj (n := 8) h5 g5 k2
  have k6 := pfx_inj (by omega) (by omega) k3
  obtain ⟨e1, e2, e3, e4⟩ := h6.inj g6 fa fa' (by omega)
  have e5 := h2.inj g2
  have e6 := h3.inj g3
  obtain ⟨x1, x2, x3, x4, x5, x6, x7, x8, x9⟩ := c
  obtain ⟨y1, y2, y3, y4, y5, y6, y7, y8, y9⟩ := c'
  dsimp only at *
  subst k0 k4 k5 k6 e1 e2 e3 e4 e5 e6
  exact ⟨rfl, rfl⟩

/-- The approvals are long enough that what is missing is part of the last one. -/
theorem approvals_long {aps : List Bytes} (h : ∀ a ∈ aps, LooseApproval a) (hn : aps ≠ []) : 64 ≤ aps.flatten.length := by
  cases aps with
  | nil => exact absurd rfl hn
  | cons a as =>
    obtain ⟨key, tag, sig, -, -, hs, rfl⟩ := h a (by simp)
    simp only [List.flatten_cons, List.length_append, List.length_cons, hs]
    omega

theorem Says.start {H : Hash} {c : Content} {pos n : Nat} {payload xs : Bytes} (h : Says H c pos n payload xs) :
    ∃ tb ap p more, Heads [H payload, payload, ap] 3 true tb ∧ PayloadOf c p payload ∧ pos = tb.length + 32 + p + 5 ∧
      xs = tb ++ (H payload ++ (payload ++ (le 4 n ++ more))) ∧ n ≤ xs.length + 64 ∧ ap.length + payload.length + 32 ≤ xs.length + 64 := by
  obtain ⟨tb, aps, miss, rest, p, h1, h2, h3, h4, rfl, h5, h6, h7⟩ := h
  have hl := congrArg List.length h5
  have hH : (H payload).length = 32 := H.len _
  simp only [List.length_append, le_length, hH] at hl
  have hc : aps.length ≤ aps.flatten.length := by
    clear h1 h5 h7 hl
    induction aps with
    | nil => simp
    | cons a as ih =>
      have := ih fun x hx => h4 x (by simp [hx])
      obtain ⟨key, tag, sig, -, -, hs, rfl⟩ := h4 a (by simp)
      simp only [List.flatten_cons, List.length_append, List.length_cons, hs]
      omega
  have hm : miss.length ≤ aps.flatten.length := by
    rcases h7 with rfl | h7
    · simp
    · have := approvals_long h4 h7; omega
  have hp : tb ++ (H payload ++ (payload ++ le 4 aps.length)) <+: xs := by
    refine List.prefix_of_prefix_length_le (l₃ := xs ++ miss) ⟨aps.flatten ++ rest, ?_⟩ ⟨miss, rfl⟩ ?_
    · rw [h5]; simp only [List.append_assoc]
    · simp only [List.length_append, le_length, hH]; omega
  obtain ⟨more, rfl⟩ := hp
  refine ⟨tb, _, p, more, h1, h2, h3, by simp only [List.append_assoc], by omega, ?_⟩
  simp only [List.length_append, le_length, hH] at hl ⊢
  omega

/-- Data say one thing only. -/
theorem Says.inj {H : Hash} {c c' : Content} {pos pos' n n' : Nat} {payload payload' xs : Bytes} (h : Says H c pos n payload xs) (h' : Says H c' pos' n' payload' xs)
    (fa : c.args.Fit) (fa' : c'.args.Fit) (lx : xs.length < 2 ^ 31) : c = c' ∧ pos = pos' ∧ n = n' ∧ payload = payload' := by
  obtain ⟨tb, ap, p, more, h1, h2, h3, h4, h5, h6⟩ := h.start
  obtain ⟨tb', ap', p', more', g1, g2, g3, g4, g5, g6⟩ := h'.start
  have hH : (H payload).length = 32 := H.len _
  have hH' : (H payload').length = 32 := H.len _
  have e := h4.symm.trans g4
  obtain ⟨e1, e⟩ := h1.cut g1 e
  rw [← e1] at g1 g3
  obtain ⟨-, e⟩ := List.append_inj e (by rw [hH, hH'])
  have hs := h1.starts g1 (by simp only [List.flatten_cons, List.flatten_nil, List.append_nil, List.length_append]; omega)
    (by simp only [List.flatten_cons, List.flatten_nil, List.append_nil, List.length_append]; omega) 2 (by omega) (by omega)
  simp only [startOf, List.take_succ_cons, List.take_zero, List.flatten_cons, List.flatten_nil, List.append_nil, List.length_append, hH, hH'] at hs
  obtain ⟨e2, e⟩ := List.append_inj e (by omega)
  rw [← e2] at g2
  obtain ⟨e3, -⟩ := le_cut (n := 4) (by simp only [Nat.reducePow] at *; omega) (by simp only [Nat.reducePow] at *; omega) e
  obtain ⟨k1, k2⟩ := h2.inj g2 fa fa' (by omega)
  exact ⟨k1, by omega, e3, e2⟩

/-- What a type is that fits: the sizes of byte arrays modulo 2^32. -/
def CLType.fitted : CLType → CLType
  | byteArray n => byteArray (n % 256 ^ 4)
  | option t => option t.fitted
  | list t => list t.fitted
  | tuple1 t => tuple1 t.fitted
  | result a b => result a.fitted b.fitted
  | map a b => map a.fitted b.fitted
  | tuple2 a b => tuple2 a.fitted b.fitted
  | tuple3 a b c => tuple3 a.fitted b.fitted c.fitted
  | t => t

theorem CLType.fitted_fit (t : CLType) : t.fitted.Fit := by
  induction t <;> simp_all [CLType.fitted, CLType.Fit, Nat.mod_lt]

theorem CLType.fitted_encode (t : CLType) : t.fitted.encode = t.encode := by
  induction t with
  | byteArray n => simp only [CLType.fitted, CLType.encode, ← le_mod_pow]
  | _ => simp_all [CLType.fitted, CLType.encode]

theorem CLType.fitted_good (t : CLType) : t.fitted.aligned = t.aligned ∧ t.fitted.supported = t.supported ∧ t.fitted.flat = t.flat ∧ t.fitted.tag = t.tag := by
  have tl : ∀ t : CLType, t.fitted.tail = t.tail := fun t => by unfold CLType.tail; rw [t.fitted_encode]
  induction t with
  | list t ih => cases t <;> simp_all [CLType.fitted, CLType.aligned, CLType.supported, CLType.flat, CLType.tag]
  | _ => simp_all [CLType.fitted, CLType.aligned, CLType.supported, CLType.flat, CLType.tag]

/-- Arguments whose types fit. -/
def V1Args.fitted : V1Args → V1Args
  | .named as => .named (as.map fun a => { a with ty := a.ty.fitted })
  | .bytes xs => .bytes xs

theorem V1Args.fitted_fit (a : V1Args) : a.fitted.Fit := by
  cases a with
  | named as =>
    intro a ha
    obtain ⟨b, -, rfl⟩ := List.mem_map.1 ha
    exact b.ty.fitted_fit
  | bytes xs => trivial

theorem V1Args.fitted_encode (a : V1Args) : a.fitted.encode = a.encode := by
  cases a with
  | named as =>
    have : encodeArgs (as.map fun a => { a with ty := a.ty.fitted }) = encodeArgs as := by
      induction as with
      | nil => rfl
      | cons a as ih => simp only [List.map_cons, encodeArgs, ih, Arg.encode, CLType.fitted_encode]
    simp only [V1Args.fitted, V1Args.encode, encodeRuntimeArgs, this, List.length_map]
  | bytes xs => rfl

theorem V1Args.fitted_good {a : V1Args} (h : ∀ as, a = .named as → GoodTypes as) : ∀ as, a.fitted = .named as → GoodTypes as := by
  intro bs hb
  cases a with
  | named as =>
    cases hb
    intro b hb
    obtain ⟨c, hc, rfl⟩ := List.mem_map.1 hb
    have := h as rfl c hc
    rw [← c.ty.fitted_good.1, ← c.ty.fitted_good.2.1] at this
    exact this
  | bytes xs => cases hb

end Casper
