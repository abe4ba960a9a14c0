import Verif.Props.CutNames
import Verif.Props.AcceptDeploy

/-!
# Transfers in Deploys whose argument names contain zero bytes

Which native transfers are accepted, whatever their arguments are called: names count up to their first zero byte.
-/

namespace Casper

open M

theorem argNamed_cut (rs : List Arg) (name : Bytes) :
    argNamed (cut rs) name = (rs.find? (fun a => cstr a.name == name)).map fun a => { a with name := cstr a.name } := by
  unfold argNamed cut
  rw [List.find?_map]
  rfl

section
variable {e : Env} {off : Nat} {as rs : List Arg} (hf : Fits e) (hok : ∀ a ∈ rs, a.Ok) (hn : as = cut rs) (h : At e.buf off (encodeArgs rs))

include hf hok hn h in
theorem search_found_cut {name : Bytes} {a : Arg} (ha : argNamed as name = some a) :
    searchArgs e name as.length off = .ok (a.ty.tag, a.ty.inner 255) off := by
  subst hn
  have := searchArgs_at (name := name) hf hok h
  rw [argNamed_cut, Option.map_eq_some_iff] at ha
  obtain ⟨b, hb, rfl⟩ := ha
  rw [hb] at this
  rw [cut_length]
  exact this

include hf hok hn h in
theorem search_absent_cut {name : Bytes} (ha : argNamed as name = none) : searchArgs e name as.length off = .err 27 off := by
  subst hn
  have := searchArgs_at (name := name) hf hok h
  rw [argNamed_cut, Option.map_eq_none_iff] at ha
  rw [ha] at this
  rw [cut_length]
  exact this

include hf hok hn h in
theorem checkArg_found_cut {name : Bytes} {cond : Nat → Nat → Bool} {a : Arg} (ha : argNamed as name = some a)
    (hc : cond a.ty.tag (a.ty.inner 255) = true) : checkArg e as.length name cond off = .ok () off := by
  unfold checkArg
  exact seqThen (search_found_cut hf hok hn h ha) (by dsimp only; rw [require_run, if_pos hc])

include hf hok hn h in
theorem checkArg_absent_cut {name : Bytes} {cond : Nat → Nat → Bool} (ha : argNamed as name = none) :
    checkArg e as.length name cond off = .err 27 off := by
  unfold checkArg
  rw [bind_run, search_absent_cut hf hok hn h ha]; rfl

include hf hok hn h in
theorem countArg_found_cut {name : Bytes} {cond : Nat → Nat → Bool} {a : Arg} (ha : argNamed as name = some a)
    (hc : cond a.ty.tag (a.ty.inner 255) = true) : countArg e as.length name cond off = .ok .found off := by
  unfold countArg
  refine seqThen (a := .ok (a.ty.tag, a.ty.inner 255)) (t := off) (by rw [attempt_run, search_found_cut hf hok hn h ha]) ?_
  dsimp only
  rw [if_pos hc]; rfl

include hf hok hn h in
theorem countArg_other_cut {name : Bytes} {cond : Nat → Nat → Bool} {a : Arg} (ha : argNamed as name = some a)
    (hc : cond a.ty.tag (a.ty.inner 255) = false) : countArg e as.length name cond off = .ok .returnOk off := by
  unfold countArg
  refine seqThen (a := .ok (a.ty.tag, a.ty.inner 255)) (t := off) (by rw [attempt_run, search_found_cut hf hok hn h ha]) ?_
  dsimp only
  rw [if_neg (by rw [hc]; decide)]; rfl

include hf hok hn h in
theorem countArg_absent_cut {name : Bytes} {cond : Nat → Nat → Bool} (ha : argNamed as name = none) :
    countArg e as.length name cond off = .ok .skip off := by
  unfold countArg
  refine seqThen (a := .error 27) (t := off) (by rw [attempt_run, search_absent_cut hf hok hn h ha]) ?_
  dsimp only
  rw [if_neg (by decide)]; rfl

end

theorem checkTransferArgs_exact_cut {e : Env} {off : Nat} {as rs : List Arg} (hf : Fits e) (hok : ∀ a ∈ rs, a.Ok) (hn : as = cut rs)
    (h : At e.buf off (encodeArgs rs)) (hm : ∃ a, argNamed as b!"amount" = some a ∧ a.ty = .u512) :
    ∃ f, checkTransferArgs e as.length off = .ok f off ∧ f ≤ 4 ∧ (f = as.length ↔ OnlyTransferArgs as ∨ SparseTransfer as) := by
  obtain ⟨am, ham, hamt⟩ := hm
  have c1 : isU512 am.ty.tag (am.ty.inner 255) = true := by rw [hamt]; rfl
  have hcount : ∀ name cond, (argNamed as name = none ∧ countArg e as.length name cond off = .ok .skip off) ∨
      (∃ a, argNamed as name = some a ∧ cond a.ty.tag (a.ty.inner 255) = true ∧ countArg e as.length name cond off = .ok .found off) ∨
      (∃ a, argNamed as name = some a ∧ cond a.ty.tag (a.ty.inner 255) = false ∧ countArg e as.length name cond off = .ok .returnOk off) := by
    intro name cond
    cases ha : argNamed as name with
    | none => exact .inl ⟨rfl, countArg_absent_cut hf hok hn h ha⟩
    | some a =>
      cases hc : cond a.ty.tag (a.ty.inner 255) with
      | true => exact .inr (.inl ⟨a, rfl, hc, countArg_found_cut hf hok hn h ha hc⟩)
      | false => exact .inr (.inr ⟨a, rfl, hc, countArg_other_cut hf hok hn h ha hc⟩)
  obtain ⟨m1, m2⟩ := argNamed_name ham
  have hpos : 0 < as.length := List.length_pos_of_mem m1
  -- the wrong type
  have bad : ∀ {name a}, argNamed as name = some a → (name = b!"id" ∧ ¬ (a.ty = .u64 ∨ a.ty = .option .u64) ∨ name = b!"target" ∧ ¬ a.ty.isPlace ∨
      name = b!"source" ∧ as.length = 4 ∧ ¬ a.ty.isPlace) → (0 = as.length ↔ OnlyTransferArgs as ∨ SparseTransfer as) := by
    intro name a ha hc
    refine ⟨fun h => by omega, fun h => ?_⟩
    rcases h with h | h
    · obtain ⟨-, ⟨x, h2, h3⟩, ⟨y, h4, h5⟩, h6⟩ := h.facts
      rcases hc with ⟨rfl, hc⟩ | ⟨rfl, hc⟩ | ⟨rfl, hl, hc⟩
      · rw [ha] at h2; cases h2; exact absurd h3 hc
      · rw [ha] at h4; cases h4; exact absurd h5 hc
      · rcases h6 with ⟨h6, -⟩ | ⟨-, z, h6, h7⟩
        · omega
        · rw [ha] at h6; cases h6; exact absurd h7 hc
    · obtain ⟨-, h2⟩ := h.facts
      rcases hc with ⟨rfl, hc⟩ | ⟨rfl, hc⟩ | ⟨rfl, hl, hc⟩
      · rcases h2 with ⟨-, h2, -⟩ | ⟨-, ⟨⟨x, h2, h3⟩, -⟩ | ⟨h2, -⟩⟩
        · rw [ha] at h2; cases h2
        · rw [ha] at h2; cases h2; exact absurd h3 hc
        · rw [ha] at h2; cases h2
      · rcases h2 with ⟨-, -, h2⟩ | ⟨-, ⟨-, h2⟩ | ⟨-, x, h2, h3⟩⟩
        · rw [ha] at h2; cases h2
        · rw [ha] at h2; cases h2
        · rw [ha] at h2; cases h2; exact absurd h3 hc
      · rcases h2 with ⟨h2, -⟩ | ⟨h2, -⟩ <;> omega
  have nId : ∀ {t : CLType}, isId t.tag (t.inner 255) = false → ¬ (t = .u64 ∨ t = .option .u64) := fun h hc => by rw [isId_of hc] at h; cases h
  have nPl : ∀ {t : CLType}, isAccount t.tag (t.inner 255) = false → ¬ t.isPlace := fun h hc => by rw [hc.account] at h; cases h
  have fin : ∀ i t s : Nat, (i = 0 ∧ argNamed as b!"id" = none ∨ i = 1 ∧ ∃ a, argNamed as b!"id" = some a ∧ isId a.ty.tag (a.ty.inner 255) = true) →
      (t = 0 ∧ argNamed as b!"target" = none ∨ t = 1 ∧ ∃ a, argNamed as b!"target" = some a ∧ isAccount a.ty.tag (a.ty.inner 255) = true) →
      (s = 0 ∧ (as.length = 4 → argNamed as b!"source" = none) ∨ s = 1 ∧ as.length = 4 ∧ ∃ a, argNamed as b!"source" = some a ∧ isAccount a.ty.tag (a.ty.inner 255) = true) →
      (1 + i + t + s = as.length ↔ OnlyTransferArgs as ∨ SparseTransfer as) := by
    intro i t s hi ht hs
    constructor
    · intro hl
      rcases hi with ⟨rfl, hi⟩ | ⟨rfl, x, hi, hx⟩ <;> rcases ht with ⟨rfl, ht⟩ | ⟨rfl, y, ht, hy⟩
      · have hs0 : s = 0 := by omega
        subst hs0
        refine .inr ⟨am, ⟨m2, hamt⟩, .inl ?_⟩
        obtain ⟨b, hb⟩ := List.length_eq_one_iff.1 hl.symm
        rw [hb] at m1 ⊢
        simp at m1; rw [m1]
      · have hs0 : s = 0 := by omega
        subst hs0
        obtain ⟨y1, y2⟩ := argNamed_name ht
        refine .inr ⟨am, ⟨m2, hamt⟩, .inr ⟨y, perm_of_named (by simp [m2, y2]) (by simp [m1, y1]) (by simp; omega), .inl ⟨y2, isAccount_ty hy⟩⟩⟩
      · have hs0 : s = 0 := by omega
        subst hs0
        obtain ⟨x1, x2⟩ := argNamed_name hi
        refine .inr ⟨am, ⟨m2, hamt⟩, .inr ⟨x, perm_of_named (by simp [m2, x2]) (by simp [m1, x1]) (by simp; omega), .inr ⟨x2, isId_ty hx⟩⟩⟩
      · obtain ⟨x1, x2⟩ := argNamed_name hi
        obtain ⟨y1, y2⟩ := argNamed_name ht
        rcases hs with ⟨rfl, -⟩ | ⟨rfl, -, z, hs, hz⟩
        · exact .inl ⟨am, y, x, none, perm_of_named (by simp [m2, x2, y2]) (by simp [m1, x1, y1]) (by simp; omega), ⟨m2, hamt⟩, ⟨y2, isAccount_ty hy⟩,
            ⟨x2, isId_ty hx⟩, by simp⟩
        · obtain ⟨z1, z2⟩ := argNamed_name hs
          exact .inl ⟨am, y, x, some z, perm_of_named (by simp [m2, x2, y2, z2]) (by simp [m1, x1, y1, z1]) (by simp; omega), ⟨m2, hamt⟩,
            ⟨y2, isAccount_ty hy⟩, ⟨x2, isId_ty hx⟩, by intro a ha; cases ha; exact ⟨z2, isAccount_ty hz⟩⟩
    · rintro (h | h)
      · obtain ⟨-, ⟨x, h2, -⟩, ⟨y, h4, -⟩, h6⟩ := h.facts
        have hi1 : i = 1 := by rcases hi with ⟨-, hi⟩ | ⟨hi, -⟩; (· rw [h2] at hi; cases hi); exact hi
        have ht1 : t = 1 := by rcases ht with ⟨-, ht⟩ | ⟨ht, -⟩; (· rw [h4] at ht; cases ht); exact ht
        rcases h6 with ⟨h6, h7⟩ | ⟨h6, z, h7, -⟩
        · rcases hs with ⟨hs, -⟩ | ⟨-, hs, -⟩ <;> omega
        · rcases hs with ⟨-, hs⟩ | ⟨hs, -⟩
          · rw [hs h6] at h7; cases h7
          · omega
      · obtain ⟨-, h2⟩ := h.facts
        rcases h2 with ⟨hl, h2, h3⟩ | ⟨hl, ⟨⟨x, h2, -⟩, h3⟩ | ⟨h2, y, h3, -⟩⟩
        all_goals
          have hs0 : s = 0 := by rcases hs with ⟨hs, -⟩ | ⟨-, hs, -⟩ <;> omega
          rw [h2] at hi
          rw [h3] at ht
          simp at hi ht
          omega
  unfold checkTransferArgs
  rw [bind_run, checkArg_found_cut hf hok hn h ham c1, Res.bind_ok, bind_run, countArg_found_cut hf hok hn h ham c1, Res.bind_ok]
  dsimp only [countStep]
  rcases hcount b!"id" isId with ⟨i1, i2⟩ | ⟨ia, i1, i3, i2⟩ | ⟨ia, i1, i3, i2⟩
  rotate_left 2
  · exact ⟨0, seqThen i2 rfl, by omega, bad i1 (.inl ⟨rfl, nId i3⟩)⟩
  all_goals
    rw [bind_run, i2, Res.bind_ok]
    dsimp only
    rcases hcount b!"target" isAccount with ⟨t1, t2⟩ | ⟨ta, t1, t3, t2⟩ | ⟨ta, t1, t3, t2⟩
    rotate_left 2
    · exact ⟨0, seqThen t2 rfl, by omega, bad t1 (.inr (.inl ⟨rfl, nPl t3⟩))⟩
  all_goals
    rw [bind_run, t2, Res.bind_ok]
    dsimp only
    by_cases h4 : as.length = 4
    · rw [if_pos h4]
      rcases hcount b!"source" isAccount with ⟨s1, s2⟩ | ⟨sa, s1, s3, s2⟩ | ⟨sa, s1, s3, s2⟩
      rotate_left 2
      · exact ⟨0, seqThen s2 rfl, by omega, bad s1 (.inr (.inr ⟨rfl, h4, nPl s3⟩))⟩
      all_goals
        rw [bind_run, s2, Res.bind_ok]
        refine ⟨_, rfl, by omega, ?_⟩
        first
        | exact fin 0 0 0 (.inl ⟨rfl, i1⟩) (.inl ⟨rfl, t1⟩) (.inl ⟨rfl, fun _ => s1⟩)
        | exact fin 0 0 1 (.inl ⟨rfl, i1⟩) (.inl ⟨rfl, t1⟩) (.inr ⟨rfl, h4, _, s1, s3⟩)
        | exact fin 0 1 0 (.inl ⟨rfl, i1⟩) (.inr ⟨rfl, _, t1, t3⟩) (.inl ⟨rfl, fun _ => s1⟩)
        | exact fin 0 1 1 (.inl ⟨rfl, i1⟩) (.inr ⟨rfl, _, t1, t3⟩) (.inr ⟨rfl, h4, _, s1, s3⟩)
        | exact fin 1 0 0 (.inr ⟨rfl, _, i1, i3⟩) (.inl ⟨rfl, t1⟩) (.inl ⟨rfl, fun _ => s1⟩)
        | exact fin 1 0 1 (.inr ⟨rfl, _, i1, i3⟩) (.inl ⟨rfl, t1⟩) (.inr ⟨rfl, h4, _, s1, s3⟩)
        | exact fin 1 1 0 (.inr ⟨rfl, _, i1, i3⟩) (.inr ⟨rfl, _, t1, t3⟩) (.inl ⟨rfl, fun _ => s1⟩)
        | exact fin 1 1 1 (.inr ⟨rfl, _, i1, i3⟩) (.inr ⟨rfl, _, t1, t3⟩) (.inr ⟨rfl, h4, _, s1, s3⟩)
    · rw [if_neg h4]
      refine ⟨_, rfl, by omega, ?_⟩
      first
      | exact fin 0 0 0 (.inl ⟨rfl, i1⟩) (.inl ⟨rfl, t1⟩) (.inl ⟨rfl, fun h => absurd h h4⟩)
      | exact fin 0 1 0 (.inl ⟨rfl, i1⟩) (.inr ⟨rfl, _, t1, t3⟩) (.inl ⟨rfl, fun h => absurd h h4⟩)
      | exact fin 1 0 0 (.inr ⟨rfl, _, i1, i3⟩) (.inl ⟨rfl, t1⟩) (.inl ⟨rfl, fun h => absurd h h4⟩)
      | exact fin 1 1 0 (.inr ⟨rfl, _, i1, i3⟩) (.inr ⟨rfl, _, t1, t3⟩) (.inl ⟨rfl, fun h => absurd h h4⟩)

theorem transfer_refused_cut {e : Env} {off epo : Nat} {as rs : List Arg} (hf : Fits e) (hok : ∀ a ∈ rs, a.Ok) (hn : as = cut rs)
    (h : At e.buf off (ExecItem.transfer rs).encode)
    (hc : (¬ ∃ a, argNamed as b!"amount" = some a ∧ a.ty = .u512) ∨ SparseTransfer as) (q : IS) :
    parseDeployItem e false ⟨off + 1, epo, { typ := 5 }⟩ ≠ .ok () q := by
  have hle := h.le
  have hlen : (ExecItem.transfer rs).encode.length = 1 + (4 + (encodeArgs rs).length) := by
    simp [ExecItem.encode, encodeRuntimeArgs]; omega
  have h1 := (At.cons.1 h).2
  unfold encodeRuntimeArgs at h1
  rw [At.append, le_length] at h1
  have hf' := hf
  unfold Fits at hf'
  have hcount := encodeArgs_count rs
  have hlr : rs.length = as.length := by rw [hn, cut_length]
  rw [hlr] at h1 hcount
  have key : ∃ c t, parseNativeTransfer e as.length ⟨off + 1 + 4, epo, { typ := 5, special := 255 }⟩ = .err c t := by
    by_cases hm : ∃ a, argNamed as b!"amount" = some a ∧ a.ty = .u512
    · obtain ⟨f, hf1, hf3, hf2⟩ := checkTransferArgs_exact_cut hf hok hn h1.2 hm
      have hsp := hc.resolve_left (not_not_intro hm)
      have hfl := hf2.2 (.inr hsp)
      have hl2 : as.length ≤ 2 := by rcases hsp.facts.2 with ⟨h, -⟩ | ⟨h, -⟩ <;> omega
      unfold parseNativeTransfer
      rw [bind_run, lp_run hf1, Res.bind_ok]
      have hu : u32 (as.length + 4294967296 - f) = 0 := by unfold u32; omega
      simp only [hu, if_true]
      rw [if_neg (by omega)]
      exact ⟨_, _, rfl⟩
    · have : ∃ c, checkTransferArgs e as.length (off + 1 + 4) = .err c (off + 1 + 4) := by
        unfold checkTransferArgs
        rw [bind_run]
        cases ha : argNamed as b!"amount" with
        | none => rw [checkArg_absent_cut hf hok hn h1.2 ha]; exact ⟨_, rfl⟩
        | some a =>
          have : checkArg e as.length b!"amount" isU512 (off + 1 + 4) = .err eUnexpectedType (off + 1 + 4) := by
            unfold checkArg
            rw [bind_run, search_found_cut hf hok hn h1.2 ha, Res.bind_ok]
            dsimp only
            rw [require_run, if_neg (fun hc => hm ⟨a, ha, isU512_ty hc⟩)]
          rw [this]; exact ⟨_, rfl⟩
      obtain ⟨c, hc⟩ := this
      unfold parseNativeTransfer
      rw [bind_run, lp_err hc]
      exact ⟨_, _, rfl⟩
  obtain ⟨c, t, key⟩ := key
  have herr : parseDeployItem e false ⟨off + 1, epo, { typ := 5 }⟩ = .err c t := by
    unfold parseDeployItem
    refine modThen (getThen ?_)
    dsimp only
    rw [if_neg (by decide), if_neg (by decide), if_neg (by decide), if_pos rfl]
    unfold parseTransfer
    refine getThen (lpThen (readLE_at h1.1 (by omega)) ?_)
    rw [bind_run]
    dsimp only
    rw [key]
    rfl
  rw [herr]
  exact fun h => by cases h

theorem checkTransferArgs_at_cut {e : Env} {off : Nat} {as rs : List Arg} (hf : Fits e) (hok : ∀ a ∈ rs, a.Ok) (hn : as = cut rs) (ht : TransferArgs as) (h : At e.buf off (encodeArgs rs)) :
    checkTransferArgs e as.length off = .ok as.length off := by
  obtain ⟨am, ham, hamt⟩ := ht.amount
  obtain ⟨id, hid, hidt⟩ := ht.id
  obtain ⟨tg, htg, htgt⟩ := ht.target
  have c1 : isU512 am.ty.tag (am.ty.inner 255) = true := by rw [hamt]; rfl
  unfold checkTransferArgs
  refine seqThen (checkArg_found_cut hf hok hn h ham c1) (seqThen (countArg_found_cut hf hok hn h ham c1) ?_)
  refine seqThen (countArg_found_cut hf hok hn h hid (isId_of hidt)) ?_
  refine seqThen (countArg_found_cut hf hok hn h htg htgt.account) ?_
  simp only [countStep]
  rcases ht.source with ⟨hl, -⟩ | ⟨hl, s, hs, hst⟩
  · rw [if_neg (by omega), hl]; rfl
  · rw [if_pos hl]
    refine seqThen (countArg_found_cut hf hok hn h hs hst.account) ?_
    simp only [countStep]
    rw [hl]; rfl

theorem transfer_parse_cut {e : Env} {off : Nat} {as rs : List Arg} (hf : Fits e) (hok : ∀ a ∈ rs, a.Ok) (hn : as = cut rs) (ht : TransferArgs as) (h : At e.buf off (ExecItem.transfer rs).encode) :
    parseDeployItem e false ⟨off + 1, 0, { typ := 5 }⟩ =
      .ok () ⟨off + (ExecItem.transfer rs).encode.length, 0, transferView e.expert rs⟩ := by
  have hle := h.le
  have hlen : (ExecItem.transfer rs).encode.length = 1 + (4 + (encodeArgs rs).length) := by
    simp [ExecItem.encode, encodeRuntimeArgs]; omega
  unfold Fits at hf
  have h1 := (At.cons.1 h).2
  unfold encodeRuntimeArgs at h1
  rw [At.append, le_length] at h1
  have hlr : rs.length = as.length := by rw [hn, cut_length]
  have h34 : as.length = 3 ∨ as.length = 4 := by rcases ht.source with ⟨hl, -⟩ | ⟨hl, -⟩ <;> omega
  unfold parseDeployItem
  refine modThen (getThen ?_)
  dsimp only
  rw [if_neg (by decide), if_neg (by decide), if_neg (by decide), if_pos rfl]
  unfold parseTransfer
  refine getThen (lpThen (readLE_at h1.1 (by omega)) ?_)
  refine seqThen (a := ()) (t := ⟨off + 1 + 4, 0, { typ := 5, special := 255, runtime := if e.expert then rs.length else 2 }⟩) ?_ (modThen ?_)
  · unfold parseNativeTransfer
    rw [hlr]
    refine lpThen (checkTransferArgs_at_cut hf hok hn ht h1.2) ?_
    have hu : u32 (as.length + 4294967296 - as.length) = 0 := by unfold u32; omega
    simp only [hu, if_true]
    rw [if_pos h34]
    show Res.ok _ _ = _
    simp only [Nat.zero_add]
  · unfold finishItem
    refine lpThen (by dsimp only; exact parseArgs_at hf hok h1.2)
      (lpThen (a := (ExecItem.transfer rs).encode.length) (o := off + (ExecItem.transfer rs).encode.length) ?_ ?_)
    · dsimp only
      unfold totalLength
      refine getThen ?_
      rw [if_pos (by omega)]
      show Res.ok _ _ = _
      congr 1 <;> omega
    · rfl

theorem showLine_at_cut {e : Env} {off : Nat} {as rs : List Arg} {l : ArgLine} {kv : Bytes × Bytes} (hf : Fits e) (hok : ∀ a ∈ rs, a.Ok)
    (hn : as = cut rs) (hl : l.Shows e.blake as kv) (h : At e.buf off (encodeArgs rs)) :
    ∃ c, (if l.motes then showMotes e l.label l.name as.length else showArg e l.label l.name as.length) off = .ok kv c := by
  subst hn
  obtain ⟨c, hc⟩ := show_line_cut hf hok h hl
  refine ⟨c, ?_⟩
  rw [cut_length, ← hc]
  unfold ArgLine.show
  split <;> rfl

theorem transfer_session_cut {e : Env} {off : Nat} {as rs : List Arg} {lines : List (Bytes × Bytes)} (hf : Fits e) (hok : ∀ a ∈ rs, a.Ok) (hn : as = cut rs) (ht : TransferArgs as)
    (hl : List.Forall₂ (ArgLine.Shows e.blake as) (opLines e.expert as 2) lines) (h : At e.buf off (ExecItem.transfer rs).encode) :
    SessionAt e off (.transfer rs) 0 (transferView e.expert rs) lines := by
  have hle := h.le
  have hlen : (ExecItem.transfer rs).encode.length = 1 + (4 + (encodeArgs rs).length) := by
    simp [ExecItem.encode, encodeRuntimeArgs]; omega
  have h1 := (At.cons.1 h).2
  unfold encodeRuntimeArgs at h1
  rw [At.append, le_length] at h1
  have hf' := hf
  unfold Fits at hf'
  have hll := hl.length_eq
  have hlr : rs.length = as.length := by rw [hn, cut_length]
  rw [hlr] at h1
  have hsrc : as.length = 3 ∧ argNamed as b!"source" = none ∨ as.length = 4 ∧ (argNamed as b!"source").isSome := by
    rcases ht.source with ⟨hl, h2⟩ | ⟨hl, s, hs, -⟩
    · exact .inl ⟨hl, h2⟩
    · exact .inr ⟨hl, by rw [hs]; rfl⟩
  have hcnt : (transferView e.expert rs).fixed + (transferView e.expert rs).runtime = lines.length := by
    rw [← hll]
    unfold transferView opLines
    dsimp only
    rw [hlr]
    cases e.expert
    · simp
    · rcases hsrc with ⟨hl, h2⟩ | ⟨hl, h2⟩ <;> simp [h2, hl]
  refine ⟨transfer_parse_cut hf hok hn ht h, rfl, hcnt, ?_, fun i kv hi => ?_⟩
  · rw [← hcnt]
    show 0 + (if e.expert then rs.length else 2) ≤ 100
    rw [hlr]; rcases hsrc with ⟨hl, -⟩ | ⟨hl, -⟩ <;> rw [hl] <;> split <;> omega
  obtain ⟨l, hx, hs⟩ := forall₂_get hl hi
  have hil : i < lines.length := (List.getElem?_eq_some_iff.1 hi).1
  have hir : ¬ i ≥ (transferView e.expert rs).runtime := by rw [← hcnt] at hil; simp only [show (transferView e.expert rs).fixed = 0 from rfl, Nat.zero_add] at hil; omega
  have key := showLine_at_cut hf hok hn hs h1.2
  unfold sessionLine
  rw [if_pos (show (transferView e.expert rs).special = spNativeTransfer from rfl)]
  unfold itemNativeTransfer
  refine exThen (skip_run (by omega)) (exThen (get_run _) (exThen (readLE_at h1.1 (by omega)) ?_))
  have h34 : as.length = 3 ∨ as.length = 4 := by rcases hsrc with ⟨hl, -⟩ | ⟨hl, -⟩ <;> omega
  have hrt : ¬ (transferView e.expert rs).runtime > as.length := by
    show ¬ (if e.expert then rs.length else 2) > as.length
    split <;> omega
  rw [if_neg hrt]
  simp only [show (transferView e.expert rs).fixed = 0 from rfl, Nat.not_lt_zero, Nat.sub_zero, false_or, if_neg hir,
    show (transferView e.expert rs).generic = 0 from rfl, gt_iff_lt, Nat.lt_irrefl, if_false, h34, not_true_eq_false]
  cases hx' : e.expert with
  | false =>
    simp only [Bool.false_eq_true, not_false_eq_true, if_true]
    have hi2 : i < 2 := by
      have : (transferView e.expert rs).runtime = 2 := by rw [hx']; rfl
      omega
    rw [hx'] at hx
    unfold opLines at hx
    simp only [Bool.false_eq_true, false_and, if_false, List.nil_append, List.append_nil] at hx
    match i, hi2 with
    | 0, _ => cases hx; exact key
    | 1, _ => cases hx; exact key
  | true =>
    simp only [not_true_eq_false, if_false]
    have hrt : (transferView true rs).runtime = as.length := hlr
    rw [hrt]
    rw [hx', hrt] at hir
    rw [hx'] at hx
    unfold opLines at hx
    simp only [true_and, if_true] at hx
    rcases hsrc with ⟨hl, h2⟩ | ⟨hl, h2⟩
    · simp only [h2, Option.isSome_none, Bool.false_eq_true, if_false, List.nil_append] at hx
      have hi3 : i < 3 := by omega
      match i, hi3 with
      | 0, _ => cases hx; simpa [hl] using key
      | 1, _ => cases hx; simpa [hl] using key
      | 2, _ => cases hx; simpa [hl] using key
    · simp only [h2, if_true] at hx
      have hi3 : i < 4 := by omega
      match i, hi3 with
      | 0, _ => cases hx; simpa [hl] using key
      | 1, _ => cases hx; simpa [hl] using key
      | 2, _ => cases hx; simpa [hl] using key
      | 3, _ => cases hx; simpa [hl] using key

theorem genericTransfer_session_cut {e : Env} {off : Nat} {a : Arg} {as : List Arg} (hf : Fits e) (hok : ∀ x ∈ a :: as, x.Ok)
    (hm : ∃ x, argNamed (cut (a :: as)) b!"amount" = some x ∧ x.ty = .u512) (hother : ¬ OnlyTransferArgs (cut (a :: as))) (hsparse : ¬ SparseTransfer (cut (a :: as)))
    (h : At e.buf off (ExecItem.transfer (a :: as)).encode) :
    SessionAt e off (.transfer (a :: as)) 0 (genericTransferView (a :: as))
      [(b!"Args hash", b!"native-transfer-" ++ casedHex (e.blake (le 4 (a :: as).length ++ a.encode)) (e.blake (le 4 (a :: as).length ++ a.encode)))] := by
  have hle := h.le
  have hlen : (ExecItem.transfer (a :: as)).encode.length = 1 + (4 + (encodeArgs (a :: as)).length) := by
    simp [ExecItem.encode, encodeRuntimeArgs]; omega
  have h1 := (At.cons.1 h).2
  unfold encodeRuntimeArgs at h1
  rw [At.append, le_length] at h1
  have hf' := hf
  unfold Fits at hf'
  have hcount := encodeArgs_count (a :: as)
  obtain ⟨f, hf1, hf3, hf2⟩ := checkTransferArgs_exact_cut hf hok rfl h1.2 hm
  rw [cut_length] at hf1 hf2
  have hne : f ≠ (a :: as).length := fun hc => by
    rcases hf2.1 hc with h | h
    · exact hother h
    · exact hsparse h
  have hl1 : (encodeArgs (a :: as)).length = a.encode.length + (encodeArgs as).length := by rw [encodeArgs, List.length_append]
  refine ⟨?_, rfl, rfl, by simp, fun i kv hi => ?_⟩
  · unfold parseDeployItem
    refine modThen (getThen ?_)
    rw [show (ExecItem.transfer (a :: as)).tag = 5 from rfl]
    dsimp only
    rw [if_neg (by decide), if_neg (by decide), if_neg (by decide), if_pos rfl]
    unfold parseTransfer
    refine getThen (lpThen (readLE_at h1.1 (by omega)) ?_)
    refine seqThen (a := ()) (t := ⟨off + 1 + 4, 0, { typ := 5, special := 255, runtime := 1, generic := 1 }⟩) ?_ (modThen ?_)
    · unfold parseNativeTransfer
      refine lpThen hf1 ?_
      have hu : ¬ u32 ((a :: as).length + 4294967296 - f) = 0 := by unfold u32; omega
      simp only [hu, if_false]
      rfl
    · unfold finishItem
      refine lpThen (by dsimp only; exact parseArgs_at hf hok h1.2)
        (lpThen (a := (ExecItem.transfer (a :: as)).encode.length) (o := off + (ExecItem.transfer (a :: as)).encode.length) ?_ ?_)
      · dsimp only
        unfold totalLength
        refine getThen ?_
        rw [if_pos (by omega)]
        show Res.ok _ _ = _
        congr 1 <;> omega
      · rfl
  · have hi0 : i = 0 := by
      have := (List.getElem?_eq_some_iff.1 hi).1
      simpa using this
    subst hi0
    cases hi
    unfold sessionLine
    rw [if_pos (show (genericTransferView (a :: as)).special = spNativeTransfer from rfl)]
    unfold itemNativeTransfer
    refine exThen (skip_run (by omega)) (exThen (get_run _) (exThen (readLE_at h1.1 (by omega)) ?_))
    rw [if_neg (by show ¬ 1 > (a :: as).length; simp), if_neg (by show ¬ (0 < 0 ∨ 0 - 0 ≥ 1); decide)]
    simp only [show (genericTransferView (a :: as)).generic = 1 from rfl, show (genericTransferView (a :: as)).fixed = 0 from rfl,
      show (genericTransferView (a :: as)).runtime = 1 from rfl, gt_iff_lt, Nat.lt_one_iff, if_true]
    have ha1 : At e.buf (off + 1 + 4) (encodeArgs [a]) := by
      have := h1.2
      rw [encodeArgs, At.append] at this
      simpa [encodeArgs] using this.1
    have hp := parseArgs_at hf (as := [a]) (fun x hx => hok x (by simp at hx; simp [hx])) ha1
    simp only [List.length_singleton, encodeArgs, List.append_nil] at hp
    refine exThen hp (exThen (get_run _) ?_)
    refine exThen (a := (b!"Args hash", b!"native-transfer-" ++ casedHex (e.blake (le 4 (a :: as).length ++ a.encode)) (e.blake (le 4 (a :: as).length ++ a.encode))))
      (t := off + 1) ?_ ⟨_, rfl⟩
    unfold showArgsHash
    refine setThen (seqThen (slice_at (xs := le 4 (a :: as).length ++ a.encode) ?_ ?_) ?_)
    · rw [At.append, le_length]
      refine ⟨h1.1, ?_⟩
      have := h1.2
      rw [encodeArgs, At.append] at this
      exact this.1
    · unfold u32; rw [List.length_append, le_length]; omega
    · rw [(C20_hash_hex _ []).1]; rfl

/-- As in `C85_deploy_partial`, for a session of which one knows how it is read and shown. -/
theorem deploy_shown_iff (pl : Platform) (hcap : pl.cap ≤ 16384) (d : Dev) (hd : d.Ok pl) (path : Bytes)
    (hlen : path.length = 20) (hpath : casperPath path) (x : DeploySpec) (hx : x.Ok) (h0 : 0 ∉ x.chain) (hpay : x.payment.PaysPlainly)
    (type : Bytes) (lines : List (Bytes × Bytes)) (rest : Bytes) (hok : x.session.Ok)
    (hses : At (signedEnv pl d.expert x rest).buf (x.sessionPos pl.blake) x.session.encode → ∃ epo it,
      SessionAt (signedEnv pl d.expert x rest) (x.sessionPos pl.blake) x.session epo it lines ∧
      ∀ (x : DeploySpec) (code : Bytes) (k fee : Nat), typeLabel (x.parsed pl.blake code k fee it) = type)
    (cs : List Bytes) (last : Bytes) (hcs : cs.flatten ++ last = 0 :: (x.signedPart pl.blake ++ rest)) (hfit : (cs.flatten ++ last).length ≤ pl.cap) :
    ((run pl d (upload 2 path cs last)).2 = List.replicate (cs.length + 1) (.reply [] 0x9000) ++ [.pending] ↔
      ∃ fee, x.Presentable pl.fmtTime d.expert rest fee) ∧
    ∀ fee, x.Presentable pl.fmtTime d.expert rest fee → ∃ d' time ttl,
      (d.expert = true → pl.fmtTime (x.timestamp / 1000) = some time ∧ duration ttl = x.ttl / 1000) ∧
      run pl d (upload 2 path cs last) = (d', List.replicate (cs.length + 1) (.reply [] 0x9000) ++ [.pending]) ∧
      Displays pl d' (x.screens pl.blake d.expert (leVal (rest.take 4)) type time ttl (motesOf fee) lines) ∧
      (step pl d' .approve).2 = signatureReply pl path (pl.sha256 (pl.blake (x.header pl.blake).encode)) := by
  have hsm : Small (signedEnv pl d.expert x rest) := by
    rw [hcs] at hfit
    unfold Small; simp only [List.length_cons] at hfit; show (x.signedPart pl.blake ++ rest).length ≤ 16384; omega
  have hl := signed_layout (H := pl.blake) (d := x) (rest := rest) rfl
  obtain ⟨epo, it, hat, hty⟩ := hses hl.session
  have key : ∀ fee, x.Presentable pl.fmtTime d.expert rest fee → ∃ d' time ttl,
      (d.expert = true → pl.fmtTime (x.timestamp / 1000) = some time ∧ duration ttl = x.ttl / 1000) ∧
      run pl d (upload 2 path cs last) = (d', List.replicate (cs.length + 1) (.reply [] 0x9000) ++ [.pending]) ∧
      Displays pl d' (x.screens pl.blake d.expert (leVal (rest.take 4)) type time ttl (motesOf fee) lines) ∧
      (step pl d' .approve).2 = signatureReply pl path (pl.sha256 (pl.blake (x.header pl.blake).encode)) := by
    rintro fee ⟨p1, ⟨code, k, p2, p3, p4⟩, p5, p6, p7⟩
    have htime : ∃ time, d.expert = true → x.ExpertOk pl.fmtTime time := by
      cases he : d.expert with
      | false => exact ⟨[], fun h => by cases h⟩
      | true => obtain ⟨t, ht⟩ := p5 he; exact ⟨t, fun _ => ⟨ht, p6 he⟩⟩
    obtain ⟨time, htime⟩ := htime
    obtain ⟨d', ttl, r1, r2, r3, r4⟩ := signed_upload pl hcap d hd path hlen hpath x code k fee ⟨hx, p1, h0, p4, p2, p3⟩ rest (leVal (rest.take 4))
      (fun he => ⟨by
          have := leVal_lt (rest.take 4)
          rw [List.length_take, Nat.min_eq_left (p7 he)] at this
          exact this, rest.drop 4, by
          have := le_leVal (rest.take 4)
          rw [List.length_take, Nat.min_eq_left (p7 he)] at this
          rw [this, List.take_append_drop]⟩) cs last hcs hfit hat (hty x code k fee) time htime
    exact ⟨d', time, ttl, fun he => ⟨(htime he).time, r1 he⟩, r2, r3, r4⟩
  refine ⟨⟨fun h => ?_, fun ⟨fee, h⟩ => ?_⟩, key⟩
  · obtain ⟨s, hs⟩ := (upload_deploy_iff pl (by omega) d hd path hlen hpath cs last _ hcs hfit).1 h
    exact hs.presentable hsm hx h0 hpay hok rfl
  · obtain ⟨d', time, ttl, -, r2, -⟩ := key fee h
    rw [r2]

theorem cut_ok {rs : List Arg} (hok : ∀ a ∈ rs, a.Ok) : ∀ a ∈ cut rs, a.Ok := by
  intro a ha
  unfold cut at ha
  obtain ⟨b, hb, rfl⟩ := List.mem_map.1 ha
  exact ⟨(List.takeWhile_sublist _).length_le.trans (hok b hb).name, (hok b hb).aligned, (hok b hb).supported⟩

theorem cut_noNul (rs : List Arg) : noNul (cut rs) := by
  intro a ha h0
  unfold cut at ha
  obtain ⟨b, hb, rfl⟩ := List.mem_map.1 ha
  have := List.all_eq_true.1 (List.all_takeWhile (l := b.name) (p := (· != 0))) 0 h0
  simp at this

/-- The lines of a transfer with the usual arguments. -/
theorem transfer_lines {H : Bytes → Bytes} (expert : Bool) {as : List Arg} (ho : OnlyTransferArgs as)
    (hval : ∀ a ∈ as, (a.name = b!"amount" → ∃ k n, k ≤ 64 ∧ n < 256 ^ k ∧ a.value = UInt8.ofNat k :: le k n) ∧
      (a.name ≠ b!"amount" → ∃ text, Shown H a.ty a.value text)) :
    ∃ lines, List.Forall₂ (ArgLine.Shows H as) (opLines expert as 2) lines := by
  obtain ⟨⟨m, m1, m2⟩, ⟨i, i1, -⟩, ⟨t, t1, -⟩, hs⟩ := ho.facts
  have hother : ∀ {name a}, argNamed as name = some a → name ≠ b!"amount" → ∃ text, Shown H a.ty a.value text := by
    intro name a h hn
    obtain ⟨k1, k2⟩ := argNamed_name h
    exact (hval a k1).2 (by rw [k2]; exact hn)
  obtain ⟨it, hit⟩ := hother i1 (by decide)
  obtain ⟨tt, htt⟩ := hother t1 (by decide)
  obtain ⟨n1, n2⟩ := argNamed_name m1
  obtain ⟨k, n, hk, hn, hkn⟩ := (hval m n1).1 n2
  have s1 : ArgLine.Shows H as ⟨b!"Target", b!"target", false⟩ (b!"Target", tt) := .value rfl t1 htt
  have s2 : ArgLine.Shows H as ⟨b!"Amount", b!"amount", true⟩ (b!"Amount", motesOf n) := .motes rfl m1 m2 (by rw [m2, hkn]; exact .u512 k n hk hn)
  have s3 : ArgLine.Shows H as ⟨b!"ID", b!"id", false⟩ (b!"ID", it) := .value rfl i1 hit
  unfold opLines
  cases expert with
  | false => simp only [Bool.false_eq_true, false_and, if_false, List.nil_append, List.append_nil]; exact ⟨_, .cons s1 (.cons s2 .nil)⟩
  | true =>
    rcases hs with ⟨-, h4⟩ | ⟨-, a, h4, -⟩
    · rw [if_neg (by simp [h4])]
      exact ⟨_, .cons s1 (.cons s2 (.cons s3 .nil))⟩
    · obtain ⟨st, hst⟩ := hother h4 (by decide)
      rw [if_pos (by simp [h4])]
      exact ⟨_, .cons (.value rfl h4 hst) (.cons s1 (.cons s2 (.cons s3 .nil)))⟩

/-- **C85, all transfers, all names.** Which Deploys with a native transfer are accepted, whatever the arguments of the transfer are, whatever they are called and
whatever follows: those that can be presented, whose first argument named "amount" up to a zero byte is a U512, and that have more to say than an amount and perhaps
one of target and id, names counting up to their first zero byte.
(Missing: values that do not belong to their types in transfers with just the usual arguments.) -/
theorem C85_transfer_cut_partial (pl : Platform) (hcap : pl.cap ≤ 16384) (d : Dev) (hd : d.Ok pl) (path : Bytes)
    (hlen : path.length = 20) (hpath : casperPath path) (x : DeploySpec) (hx : x.Ok) (h0 : 0 ∉ x.chain) (hpay : x.payment.PaysPlainly)
    (as : List Arg) (hses : x.session = .transfer as) (hok : ∀ a ∈ as, a.Ok)
    (hval : OnlyTransferArgs (cut as) → ∀ a ∈ cut as,
      (a.name = b!"amount" → ∃ k n, k ≤ 64 ∧ n < 256 ^ k ∧ a.value = UInt8.ofNat k :: le k n) ∧
      (a.name ≠ b!"amount" → ∃ text, Shown pl.blake a.ty a.value text)) (rest : Bytes)
    (cs : List Bytes) (last : Bytes) (hcs : cs.flatten ++ last = 0 :: (x.signedPart pl.blake ++ rest)) (hfit : (cs.flatten ++ last).length ≤ pl.cap) :
    (run pl d (upload 2 path cs last)).2 = List.replicate (cs.length + 1) (.reply [] 0x9000) ++ [.pending] ↔
      (∃ fee, x.Presentable pl.fmtTime d.expert rest fee) ∧ (∃ a, argNamed (cut as) b!"amount" = some a ∧ a.ty = .u512) ∧ ¬ SparseTransfer (cut as) := by
  have hsm : Small (signedEnv pl d.expert x rest) := by
    rw [hcs] at hfit
    unfold Small; simp only [List.length_cons] at hfit; show (x.signedPart pl.blake ++ rest).length ≤ 16384; omega
  have hsok : x.session.Ok := by
    rw [hses]
    exact ⟨hok, (by rintro h (⟨n, as, hc⟩ | ⟨v, n, as, hc⟩) <;> cases hc), (by rintro v (⟨h, n, as, hc⟩ | ⟨h, n, as, hc⟩) <;> cases hc)⟩
  constructor
  · intro h
    obtain ⟨s, hs⟩ := (upload_deploy_iff pl (by omega) d hd path hlen hpath cs last _ hcs hfit).1 h
    obtain ⟨fee, hp⟩ := hs.presentable (x := x) (rest := rest) hsm hx h0 hpay hsok rfl
    refine ⟨⟨fee, hp⟩, ?_⟩
    obtain ⟨epo, q, hq⟩ := hs.session_read hsm hx hp hsok rfl
    have hl := (signed_layout (H := pl.blake) (d := x) (rest := rest) rfl).session
    rw [hses] at hl hq
    by_contra hc
    refine transfer_refused_cut (e := signedEnv pl d.expert x rest) (off := x.sessionPos pl.blake) hsm.to_fits hok rfl hl ?_ q hq
    by_cases hm : ∃ a, argNamed (cut as) b!"amount" = some a ∧ a.ty = .u512
    · exact .inr (not_not.1 fun h => hc ⟨hm, h⟩)
    · exact .inl hm
  · rintro ⟨hp, hm, hsp⟩
    by_cases ho : OnlyTransferArgs (cut as)
    · obtain ⟨lines, hl⟩ := transfer_lines (H := pl.blake) d.expert ho (hval ho)
      refine (deploy_shown_iff pl hcap d hd path hlen hpath x hx h0 hpay b!"Token transfer" lines rest hsok (fun hat => ?_) cs last hcs hfit).1.2 hp
      rw [hses] at hat ⊢
      obtain ⟨f1, f2, f3, f4⟩ := ho.facts
      exact ⟨0, _, transfer_session_cut hsm.to_fits hok rfl ⟨cut_ok hok, cut_noNul as, f1, f2, f3, f4⟩ hl hat, fun _ _ _ _ => rfl⟩
    · cases as with
      | nil => obtain ⟨a, h, -⟩ := hm; cases h
      | cons a as =>
        refine (deploy_shown_iff pl hcap d hd path hlen hpath x hx h0 hpay b!"Token transfer"
          [(b!"Args hash", b!"native-transfer-" ++ casedHex (pl.blake (le 4 (a :: as).length ++ a.encode)) (pl.blake (le 4 (a :: as).length ++ a.encode)))]
          rest hsok (fun hat => ?_) cs last hcs hfit).1.2 hp
        rw [hses] at hat ⊢
        exact ⟨0, _, genericTransfer_session_cut hsm.to_fits hok hm ho hsp hat, fun _ _ _ _ => rfl⟩

/-- The usual transfer with a zero byte at the end of each name meets the conditions on its arguments; an amount alone, with such a name, does not. -/
example : (∃ a, argNamed (cut (sampleTransferArgs.map Arg.marked)) b!"amount" = some a ∧ a.ty = .u512) ∧ OnlyTransferArgs (cut (sampleTransferArgs.map Arg.marked)) ∧
    SparseTransfer (cut [(⟨b!"amount" ++ [0], bigNum 5 24500000000, .u512⟩ : Arg)]) := by
  have h : cut (sampleTransferArgs.map Arg.marked) = sampleTransferArgs := by decide +kernel
  refine ⟨⟨_, by rw [h]; rfl, rfl⟩, ?_, ⟨⟨b!"amount", bigNum 5 24500000000, .u512⟩, ⟨rfl, rfl⟩, .inl (by decide +kernel)⟩⟩
  rw [h]
  exact ⟨_, _, _, none, List.Perm.refl _, ⟨rfl, rfl⟩, ⟨rfl, .inr (.inr (.inl ⟨_, rfl⟩))⟩, ⟨rfl, .inr rfl⟩, by simp⟩

end Casper
