import Verif.Lib.DeployReview
/-
Native transfers in Deploys: which lists of arguments are itemised, which are shown by a hash, and which are refused.
-/
namespace Casper
open M

/-- These are the arguments of a transfer, and there are no others: amount, target and id, perhaps source, each once and of a type it may have. -/
def OnlyTransferArgs (as : List Arg) : Prop :=
  ∃ amount target id : Arg, ∃ source : Option Arg, as.Perm ([amount, target, id] ++ source.toList) ∧
    (amount.name = b!"amount" ∧ amount.ty = .u512) ∧ (target.name = b!"target" ∧ target.ty.isPlace) ∧
    (id.name = b!"id" ∧ (id.ty = .u64 ∨ id.ty = .option .u64)) ∧ ∀ a, source = some a → a.name = b!"source" ∧ a.ty.isPlace

theorem isU512_ty {t : CLType} (h : isU512 t.tag (t.inner 255) = true) : t = .u512 := by
  cases t <;> simp_all [isU512, CLType.tag]

theorem isAccount_ty {t : CLType} (h : isAccount t.tag (t.inner 255) = true) : t.isPlace := by
  unfold CLType.isPlace
  cases t <;> simp_all [isAccount, CLType.tag]

theorem isId_ty {t : CLType} (h : isId t.tag (t.inner 255) = true) : t = .u64 ∨ t = .option .u64 := by
  cases t with
  | option u => cases u <;> simp_all [isId, CLType.tag, CLType.inner]
  | _ => simp_all [isId, CLType.tag, CLType.inner]

/-- A transfer with too little to say: an amount, and at most one of target and id. -/
def SparseTransfer (as : List Arg) : Prop :=
  ∃ amount : Arg, (amount.name = b!"amount" ∧ amount.ty = .u512) ∧
    (as = [amount] ∨ ∃ a, as.Perm [amount, a] ∧
      (a.name = b!"target" ∧ a.ty.isPlace ∨ a.name = b!"id" ∧ (a.ty = .u64 ∨ a.ty = .option .u64)))

theorem perm_of_named {as bs : List Arg} (hnd : (bs.map Arg.name).Nodup) (hsub : ∀ a ∈ bs, a ∈ as) (hl : as.length ≤ bs.length) : as.Perm bs :=
  (List.Subperm.perm_of_length_le (List.subperm_of_subset (List.Nodup.of_map _ hnd) hsub) hl).symm

theorem argNamed_name {as : List Arg} {name : Bytes} {a : Arg} (h : argNamed as name = some a) : a ∈ as ∧ a.name = name := by
  unfold argNamed at h
  exact ⟨List.mem_of_find?_eq_some h, by simpa using List.find?_some h⟩

/-- What the lookups say of the arguments of a transfer. -/
theorem OnlyTransferArgs.facts {as : List Arg} (h : OnlyTransferArgs as) :
    (∃ a, argNamed as b!"amount" = some a ∧ a.ty = .u512) ∧ (∃ a, argNamed as b!"id" = some a ∧ (a.ty = .u64 ∨ a.ty = .option .u64)) ∧
    (∃ a, argNamed as b!"target" = some a ∧ a.ty.isPlace) ∧
    (as.length = 3 ∧ argNamed as b!"source" = none ∨ as.length = 4 ∧ ∃ a, argNamed as b!"source" = some a ∧ a.ty.isPlace) := by
  obtain ⟨amount, target, id, source, hperm, ⟨n1, t1⟩, ⟨n2, t2⟩, ⟨n3, t3⟩, n4⟩ := h
  have hnd : (([amount, target, id] ++ source.toList).map Arg.name).Nodup := by
    cases source with
    | none => simp [*]
    | some a => simp [n1, n2, n3, (n4 a rfl).1]
  have hnd' : (as.map Arg.name).Nodup := (hperm.map _).nodup_iff.2 hnd
  have hmem : ∀ a, a ∈ as ↔ a ∈ [amount, target, id] ++ source.toList := fun a => hperm.mem_iff
  have f1 := argNamed_mem hnd' ((hmem amount).2 (by simp))
  have f2 := argNamed_mem hnd' ((hmem target).2 (by simp))
  have f3 := argNamed_mem hnd' ((hmem id).2 (by simp))
  rw [n1] at f1
  rw [n2] at f2
  rw [n3] at f3
  have hcount := hperm.length_eq
  refine ⟨⟨_, f1, t1⟩, ⟨_, f3, t3⟩, ⟨_, f2, t2⟩, ?_⟩
  cases source with
  | none =>
    refine .inl ⟨by simpa using hcount, argNamed_none fun a ha => ?_⟩
    rw [hmem] at ha
    simp at ha
    rcases ha with rfl | rfl | rfl <;> simp [*]
  | some a =>
    have f4 := argNamed_mem hnd' ((hmem a).2 (by simp))
    rw [(n4 a rfl).1] at f4
    exact .inr ⟨by simpa using hcount, a, f4, (n4 a rfl).2⟩

/-- What the lookups say of a transfer with too little to say. -/
theorem SparseTransfer.facts {as : List Arg} (h : SparseTransfer as) :
    (∃ a, argNamed as b!"amount" = some a ∧ a.ty = .u512) ∧
    (as.length = 1 ∧ argNamed as b!"id" = none ∧ argNamed as b!"target" = none ∨
      as.length = 2 ∧ ((∃ a, argNamed as b!"id" = some a ∧ (a.ty = .u64 ∨ a.ty = .option .u64)) ∧ argNamed as b!"target" = none ∨
        argNamed as b!"id" = none ∧ ∃ a, argNamed as b!"target" = some a ∧ a.ty.isPlace)) := by
  obtain ⟨amount, ⟨n1, t1⟩, rfl | ⟨a, hperm, hc⟩⟩ := h
  · refine ⟨⟨amount, by simp [argNamed, n1], t1⟩, .inl ⟨rfl, by simp [argNamed, n1], by simp [argNamed, n1]⟩⟩
  · have hmem : ∀ b, b ∈ as ↔ b ∈ [amount, a] := fun b => hperm.mem_iff
    have hnd : (as.map Arg.name).Nodup := (hperm.map _).nodup_iff.2 (by rcases hc with ⟨n2, -⟩ | ⟨n2, -⟩ <;> simp [n1, n2])
    have f1 := argNamed_mem hnd ((hmem amount).2 (by simp))
    have f2 := argNamed_mem hnd ((hmem a).2 (by simp))
    rw [n1] at f1
    refine ⟨⟨_, f1, t1⟩, .inr ⟨hperm.length_eq, ?_⟩⟩
    rcases hc with ⟨n2, t2⟩ | ⟨n2, t2⟩ <;> rw [n2] at f2
    · refine .inr ⟨argNamed_none fun b hb => ?_, _, f2, t2⟩
      rw [hmem] at hb
      simp at hb
      rcases hb with rfl | rfl <;> simp [n1, n2]
    · refine .inl ⟨⟨_, f2, t2⟩, argNamed_none fun b hb => ?_⟩
      rw [hmem] at hb
      simp at hb
      rcases hb with rfl | rfl <;> simp [n1, n2]

/-- How many arguments are counted: all of them exactly in the two cases above. -/
theorem checkTransferArgs_exact {e : Env} {off : Nat} {as : List Arg} (hf : Fits e) (hok : ∀ a ∈ as, a.Ok) (hn : noNul as)
    (h : At e.buf off (encodeArgs as)) (hm : ∃ a, argNamed as b!"amount" = some a ∧ a.ty = .u512) :
    ∃ f, checkTransferArgs e as.length off = .ok f off ∧ f ≤ 4 ∧ (f = as.length ↔ OnlyTransferArgs as ∨ SparseTransfer as) := by
  obtain ⟨am, ham, hamt⟩ := hm
  have c1 : isU512 am.ty.tag (am.ty.inner 255) = true := by rw [hamt]; rfl
  have hcount : ∀ name cond, (argNamed as name = none ∧ countArg e as.length name cond off = .ok .skip off) ∨
      (∃ a, argNamed as name = some a ∧ cond a.ty.tag (a.ty.inner 255) = true ∧ countArg e as.length name cond off = .ok .found off) ∨
      (∃ a, argNamed as name = some a ∧ cond a.ty.tag (a.ty.inner 255) = false ∧ countArg e as.length name cond off = .ok .returnOk off) := by
    intro name cond
    cases ha : argNamed as name with
    | none => exact .inl ⟨rfl, countArg_absent hf hok hn h ha⟩
    | some a =>
      cases hc : cond a.ty.tag (a.ty.inner 255) with
      | true => exact .inr (.inl ⟨a, rfl, hc, countArg_found hf hok hn h ha hc⟩)
      | false => exact .inr (.inr ⟨a, rfl, hc, countArg_other hf hok hn h ha hc⟩)
  obtain ⟨m1, m2⟩ := argNamed_name ham
  have hpos : 0 < as.length := List.length_pos_of_mem m1
  -- the wrong type
  have bad : ∀ {name a}, argNamed as name = some a → (name = b!"id" ∧ ¬ (a.ty = .u64 ∨ a.ty = .option .u64) ∨ name = b!"target" ∧ ¬ a.ty.isPlace ∨
      name = b!"source" ∧ as.length = 4 ∧ ¬ a.ty.isPlace) → (0 = as.length ↔ OnlyTransferArgs as ∨ SparseTransfer as) := by
    intro name a ha hc
    refine ⟨fun h => by omega, fun h => ?_⟩
    rcases h with h | h
    · obtain ⟨-, ⟨x, h2, h3⟩, ⟨y, h4, h5⟩, h6⟩ := h.facts
      rcases hc with ⟨rfl, hc⟩ | ⟨rfl, hc⟩ | ⟨rfl, hl, hc⟩
      · rw [ha] at h2; cases h2; exact absurd h3 hc
      · rw [ha] at h4; cases h4; exact absurd h5 hc
      · rcases h6 with ⟨h6, -⟩ | ⟨-, z, h6, h7⟩
        · omega
        · rw [ha] at h6; cases h6; exact absurd h7 hc
    · obtain ⟨-, h2⟩ := h.facts
      rcases hc with ⟨rfl, hc⟩ | ⟨rfl, hc⟩ | ⟨rfl, hl, hc⟩
      · rcases h2 with ⟨-, h2, -⟩ | ⟨-, ⟨⟨x, h2, h3⟩, -⟩ | ⟨h2, -⟩⟩
        · rw [ha] at h2; cases h2
        · rw [ha] at h2; cases h2; exact absurd h3 hc
        · rw [ha] at h2; cases h2
      · rcases h2 with ⟨-, -, h2⟩ | ⟨-, ⟨-, h2⟩ | ⟨-, x, h2, h3⟩⟩
        · rw [ha] at h2; cases h2
        · rw [ha] at h2; cases h2
        · rw [ha] at h2; cases h2; exact absurd h3 hc
      · rcases h2 with ⟨h2, -⟩ | ⟨h2, -⟩ <;> omega
  have nId : ∀ {t : CLType}, isId t.tag (t.inner 255) = false → ¬ (t = .u64 ∨ t = .option .u64) := fun h hc => by rw [isId_of hc] at h; cases h
  have nPl : ∀ {t : CLType}, isAccount t.tag (t.inner 255) = false → ¬ t.isPlace := fun h hc => by rw [hc.account] at h; cases h
  have fin : ∀ i t s : Nat, (i = 0 ∧ argNamed as b!"id" = none ∨ i = 1 ∧ ∃ a, argNamed as b!"id" = some a ∧ isId a.ty.tag (a.ty.inner 255) = true) →
      (t = 0 ∧ argNamed as b!"target" = none ∨ t = 1 ∧ ∃ a, argNamed as b!"target" = some a ∧ isAccount a.ty.tag (a.ty.inner 255) = true) →
      (s = 0 ∧ (as.length = 4 → argNamed as b!"source" = none) ∨ s = 1 ∧ as.length = 4 ∧ ∃ a, argNamed as b!"source" = some a ∧ isAccount a.ty.tag (a.ty.inner 255) = true) →
      (1 + i + t + s = as.length ↔ OnlyTransferArgs as ∨ SparseTransfer as) := by
    intro i t s hi ht hs
    constructor
    · intro hl
      rcases hi with ⟨rfl, hi⟩ | ⟨rfl, x, hi, hx⟩ <;> rcases ht with ⟨rfl, ht⟩ | ⟨rfl, y, ht, hy⟩
      · have hs0 : s = 0 := by omega
        subst hs0
        refine .inr ⟨am, ⟨m2, hamt⟩, .inl ?_⟩
        obtain ⟨b, hb⟩ := List.length_eq_one_iff.1 hl.symm
        rw [hb] at m1 ⊢
        simp at m1; rw [m1]
      · have hs0 : s = 0 := by omega
        subst hs0
        obtain ⟨y1, y2⟩ := argNamed_name ht
        refine .inr ⟨am, ⟨m2, hamt⟩, .inr ⟨y, perm_of_named (by simp [m2, y2]) (by simp [m1, y1]) (by simp; omega), .inl ⟨y2, isAccount_ty hy⟩⟩⟩
      · have hs0 : s = 0 := by omega
        subst hs0
        obtain ⟨x1, x2⟩ := argNamed_name hi
        refine .inr ⟨am, ⟨m2, hamt⟩, .inr ⟨x, perm_of_named (by simp [m2, x2]) (by simp [m1, x1]) (by simp; omega), .inr ⟨x2, isId_ty hx⟩⟩⟩
      · obtain ⟨x1, x2⟩ := argNamed_name hi
        obtain ⟨y1, y2⟩ := argNamed_name ht
        rcases hs with ⟨rfl, -⟩ | ⟨rfl, -, z, hs, hz⟩
        · exact .inl ⟨am, y, x, none, perm_of_named (by simp [m2, x2, y2]) (by simp [m1, x1, y1]) (by simp; omega), ⟨m2, hamt⟩, ⟨y2, isAccount_ty hy⟩,
            ⟨x2, isId_ty hx⟩, by simp⟩
        · obtain ⟨z1, z2⟩ := argNamed_name hs
          exact .inl ⟨am, y, x, some z, perm_of_named (by simp [m2, x2, y2, z2]) (by simp [m1, x1, y1, z1]) (by simp; omega), ⟨m2, hamt⟩,
            ⟨y2, isAccount_ty hy⟩, ⟨x2, isId_ty hx⟩, by intro a ha; cases ha; exact ⟨z2, isAccount_ty hz⟩⟩
    · rintro (h | h)
      · obtain ⟨-, ⟨x, h2, -⟩, ⟨y, h4, -⟩, h6⟩ := h.facts
        have hi1 : i = 1 := by rcases hi with ⟨-, hi⟩ | ⟨hi, -⟩; (· rw [h2] at hi; cases hi); exact hi
        have ht1 : t = 1 := by rcases ht with ⟨-, ht⟩ | ⟨ht, -⟩; (· rw [h4] at ht; cases ht); exact ht
        rcases h6 with ⟨h6, h7⟩ | ⟨h6, z, h7, -⟩
        · rcases hs with ⟨hs, -⟩ | ⟨-, hs, -⟩ <;> omega
        · rcases hs with ⟨-, hs⟩ | ⟨hs, -⟩
          · rw [hs h6] at h7; cases h7
          · omega
      · obtain ⟨-, h2⟩ := h.facts
        rcases h2 with ⟨hl, h2, h3⟩ | ⟨hl, ⟨⟨x, h2, -⟩, h3⟩ | ⟨h2, y, h3, -⟩⟩
        all_goals
          have hs0 : s = 0 := by rcases hs with ⟨hs, -⟩ | ⟨-, hs, -⟩ <;> omega
          rw [h2] at hi
          rw [h3] at ht
          simp at hi ht
          omega
  unfold checkTransferArgs
  rw [bind_run, checkArg_found hf hok hn h ham c1, Res.bind_ok, bind_run, countArg_found hf hok hn h ham c1, Res.bind_ok]
  dsimp only [countStep]
  rcases hcount b!"id" isId with ⟨i1, i2⟩ | ⟨ia, i1, i3, i2⟩ | ⟨ia, i1, i3, i2⟩
  rotate_left 2
  · exact ⟨0, seqThen i2 rfl, by omega, bad i1 (.inl ⟨rfl, nId i3⟩)⟩
  all_goals
    rw [bind_run, i2, Res.bind_ok]
    dsimp only
    rcases hcount b!"target" isAccount with ⟨t1, t2⟩ | ⟨ta, t1, t3, t2⟩ | ⟨ta, t1, t3, t2⟩
    rotate_left 2
    · exact ⟨0, seqThen t2 rfl, by omega, bad t1 (.inr (.inl ⟨rfl, nPl t3⟩))⟩
  all_goals
    rw [bind_run, t2, Res.bind_ok]
    dsimp only
    by_cases h4 : as.length = 4
    · rw [if_pos h4]
      rcases hcount b!"source" isAccount with ⟨s1, s2⟩ | ⟨sa, s1, s3, s2⟩ | ⟨sa, s1, s3, s2⟩
      rotate_left 2
      · exact ⟨0, seqThen s2 rfl, by omega, bad s1 (.inr (.inr ⟨rfl, h4, nPl s3⟩))⟩
      all_goals
        rw [bind_run, s2, Res.bind_ok]
        refine ⟨_, rfl, by omega, ?_⟩
        first
        | exact fin 0 0 0 (.inl ⟨rfl, i1⟩) (.inl ⟨rfl, t1⟩) (.inl ⟨rfl, fun _ => s1⟩)
        | exact fin 0 0 1 (.inl ⟨rfl, i1⟩) (.inl ⟨rfl, t1⟩) (.inr ⟨rfl, h4, _, s1, s3⟩)
        | exact fin 0 1 0 (.inl ⟨rfl, i1⟩) (.inr ⟨rfl, _, t1, t3⟩) (.inl ⟨rfl, fun _ => s1⟩)
        | exact fin 0 1 1 (.inl ⟨rfl, i1⟩) (.inr ⟨rfl, _, t1, t3⟩) (.inr ⟨rfl, h4, _, s1, s3⟩)
        | exact fin 1 0 0 (.inr ⟨rfl, _, i1, i3⟩) (.inl ⟨rfl, t1⟩) (.inl ⟨rfl, fun _ => s1⟩)
        | exact fin 1 0 1 (.inr ⟨rfl, _, i1, i3⟩) (.inl ⟨rfl, t1⟩) (.inr ⟨rfl, h4, _, s1, s3⟩)
        | exact fin 1 1 0 (.inr ⟨rfl, _, i1, i3⟩) (.inr ⟨rfl, _, t1, t3⟩) (.inl ⟨rfl, fun _ => s1⟩)
        | exact fin 1 1 1 (.inr ⟨rfl, _, i1, i3⟩) (.inr ⟨rfl, _, t1, t3⟩) (.inr ⟨rfl, h4, _, s1, s3⟩)
    · rw [if_neg h4]
      refine ⟨_, rfl, by omega, ?_⟩
      first
      | exact fin 0 0 0 (.inl ⟨rfl, i1⟩) (.inl ⟨rfl, t1⟩) (.inl ⟨rfl, fun h => absurd h h4⟩)
      | exact fin 0 1 0 (.inl ⟨rfl, i1⟩) (.inr ⟨rfl, _, t1, t3⟩) (.inl ⟨rfl, fun h => absurd h h4⟩)
      | exact fin 1 0 0 (.inr ⟨rfl, _, i1, i3⟩) (.inl ⟨rfl, t1⟩) (.inl ⟨rfl, fun h => absurd h h4⟩)
      | exact fin 1 1 0 (.inr ⟨rfl, _, i1, i3⟩) (.inr ⟨rfl, _, t1, t3⟩) (.inl ⟨rfl, fun h => absurd h h4⟩)

/-- Transfers without an amount, with an amount of another type, or with too little to say are refused. -/
theorem transfer_refused {e : Env} {off epo : Nat} {as : List Arg} (hf : Fits e) (hok : ∀ a ∈ as, a.Ok) (hn : noNul as)
    (h : At e.buf off (ExecItem.transfer as).encode)
    (hc : (¬ ∃ a, argNamed as b!"amount" = some a ∧ a.ty = .u512) ∨ SparseTransfer as) (q : IS) :
    parseDeployItem e false ⟨off + 1, epo, { typ := 5 }⟩ ≠ .ok () q := by
  have hle := h.le
  have hlen : (ExecItem.transfer as).encode.length = 1 + (4 + (encodeArgs as).length) := by
    simp [ExecItem.encode, encodeRuntimeArgs]; omega
  have h1 := (At.cons.1 h).2
  unfold encodeRuntimeArgs at h1
  rw [At.append, le_length] at h1
  have hf' := hf
  unfold Fits at hf'
  have hcount := encodeArgs_count as
  have key : ∃ c t, parseNativeTransfer e as.length ⟨off + 1 + 4, epo, { typ := 5, special := 255 }⟩ = .err c t := by
    by_cases hm : ∃ a, argNamed as b!"amount" = some a ∧ a.ty = .u512
    · obtain ⟨f, hf1, hf3, hf2⟩ := checkTransferArgs_exact hf hok hn h1.2 hm
      have hsp := hc.resolve_left (not_not_intro hm)
      have hfl := hf2.2 (.inr hsp)
      have hl2 : as.length ≤ 2 := by rcases hsp.facts.2 with ⟨h, -⟩ | ⟨h, -⟩ <;> omega
      unfold parseNativeTransfer
      rw [bind_run, lp_run hf1, Res.bind_ok]
      have hu : u32 (as.length + 4294967296 - f) = 0 := by unfold u32; omega
      simp only [hu, if_true]
      rw [if_neg (by omega)]
      exact ⟨_, _, rfl⟩
    · have : ∃ c, checkTransferArgs e as.length (off + 1 + 4) = .err c (off + 1 + 4) := by
        unfold checkTransferArgs
        rw [bind_run]
        cases ha : argNamed as b!"amount" with
        | none => rw [checkArg_absent hf hok hn h1.2 ha]; exact ⟨_, rfl⟩
        | some a =>
          have : checkArg e as.length b!"amount" isU512 (off + 1 + 4) = .err eUnexpectedType (off + 1 + 4) := by
            unfold checkArg
            rw [bind_run, search_found hf hok hn h1.2 ha, Res.bind_ok]
            dsimp only
            rw [require_run, if_neg (fun hc => hm ⟨a, ha, isU512_ty hc⟩)]
          rw [this]; exact ⟨_, rfl⟩
      obtain ⟨c, hc⟩ := this
      unfold parseNativeTransfer
      rw [bind_run, lp_err hc]
      exact ⟨_, _, rfl⟩
  obtain ⟨c, t, key⟩ := key
  have herr : parseDeployItem e false ⟨off + 1, epo, { typ := 5 }⟩ = .err c t := by
    unfold parseDeployItem
    refine modThen (getThen ?_)
    dsimp only
    rw [if_neg (by decide), if_neg (by decide), if_neg (by decide), if_pos rfl]
    unfold parseTransfer
    refine getThen (lpThen (readLE_at h1.1 (by omega)) ?_)
    rw [bind_run]
    dsimp only
    rw [key]
    rfl
  rw [herr]
  exact fun h => by cases h

/-- What a transfer with other arguments is read as. -/
def genericTransferView (as : List Arg) : Item :=
  { typ := 5, special := 2, total := (ExecItem.transfer as).encode.length, runtime := 1, generic := 1 }

/-- A transfer with other arguments shows the hash of the number of arguments and the first argument. -/
theorem genericTransfer_session {e : Env} {off : Nat} {a : Arg} {as : List Arg} (hf : Fits e) (hok : ∀ x ∈ a :: as, x.Ok) (hn : noNul (a :: as))
    (hm : ∃ x, argNamed (a :: as) b!"amount" = some x ∧ x.ty = .u512) (hother : ¬ OnlyTransferArgs (a :: as)) (hsparse : ¬ SparseTransfer (a :: as))
    (h : At e.buf off (ExecItem.transfer (a :: as)).encode) :
    SessionAt e off (.transfer (a :: as)) 0 (genericTransferView (a :: as))
      [(b!"Args hash", b!"native-transfer-" ++ casedHex (e.blake (le 4 (a :: as).length ++ a.encode)) (e.blake (le 4 (a :: as).length ++ a.encode)))] := by
  have hle := h.le
  have hlen : (ExecItem.transfer (a :: as)).encode.length = 1 + (4 + (encodeArgs (a :: as)).length) := by
    simp [ExecItem.encode, encodeRuntimeArgs]; omega
  have h1 := (At.cons.1 h).2
  unfold encodeRuntimeArgs at h1
  rw [At.append, le_length] at h1
  have hf' := hf
  unfold Fits at hf'
  have hcount := encodeArgs_count (a :: as)
  obtain ⟨f, hf1, hf3, hf2⟩ := checkTransferArgs_exact hf hok hn h1.2 hm
  have hne : f ≠ (a :: as).length := fun hc => by
    rcases hf2.1 hc with h | h
    · exact hother h
    · exact hsparse h
  have hl1 : (encodeArgs (a :: as)).length = a.encode.length + (encodeArgs as).length := by rw [encodeArgs, List.length_append]
  refine ⟨?_, rfl, rfl, by simp, fun i kv hi => ?_⟩
  · unfold parseDeployItem
    refine modThen (getThen ?_)
    rw [show (ExecItem.transfer (a :: as)).tag = 5 from rfl]
    dsimp only
    rw [if_neg (by decide), if_neg (by decide), if_neg (by decide), if_pos rfl]
    unfold parseTransfer
    refine getThen (lpThen (readLE_at h1.1 (by omega)) ?_)
    refine seqThen (a := ()) (t := ⟨off + 1 + 4, 0, { typ := 5, special := 255, runtime := 1, generic := 1 }⟩) ?_ (modThen ?_)
    · unfold parseNativeTransfer
      refine lpThen hf1 ?_
      have hu : ¬ u32 ((a :: as).length + 4294967296 - f) = 0 := by unfold u32; omega
      simp only [hu, if_false]
      rfl
    · unfold finishItem
      refine lpThen (by dsimp only; exact parseArgs_at hf hok h1.2)
        (lpThen (a := (ExecItem.transfer (a :: as)).encode.length) (o := off + (ExecItem.transfer (a :: as)).encode.length) ?_ ?_)
      · dsimp only
        unfold totalLength
        refine getThen ?_
        rw [if_pos (by omega)]
        show Res.ok _ _ = _
        congr 1 <;> omega
      · rfl
  · have hi0 : i = 0 := by
      have := (List.getElem?_eq_some_iff.1 hi).1
      simpa using this
    subst hi0
    cases hi
    unfold sessionLine
    rw [if_pos (show (genericTransferView (a :: as)).special = spNativeTransfer from rfl)]
    unfold itemNativeTransfer
    refine exThen (skip_run (by omega)) (exThen (get_run _) (exThen (readLE_at h1.1 (by omega)) ?_))
    rw [if_neg (by show ¬ 1 > (a :: as).length; simp), if_neg (by show ¬ (0 < 0 ∨ 0 - 0 ≥ 1); decide)]
    simp only [show (genericTransferView (a :: as)).generic = 1 from rfl, show (genericTransferView (a :: as)).fixed = 0 from rfl,
      show (genericTransferView (a :: as)).runtime = 1 from rfl, gt_iff_lt, Nat.lt_one_iff, if_true]
    have ha1 : At e.buf (off + 1 + 4) (encodeArgs [a]) := by
      have := h1.2
      rw [encodeArgs, At.append] at this
      simpa [encodeArgs] using this.1
    have hp := parseArgs_at hf (as := [a]) (fun x hx => hok x (by simp at hx; simp [hx])) ha1
    simp only [List.length_singleton, encodeArgs, List.append_nil] at hp
    refine exThen hp (exThen (get_run _) ?_)
    refine exThen (a := (b!"Args hash", b!"native-transfer-" ++ casedHex (e.blake (le 4 (a :: as).length ++ a.encode)) (e.blake (le 4 (a :: as).length ++ a.encode))))
      (t := off + 1) ?_ ⟨_, rfl⟩
    unfold showArgsHash
    refine setThen (seqThen (slice_at (xs := le 4 (a :: as).length ++ a.encode) ?_ ?_) ?_)
    · rw [At.append, le_length]
      refine ⟨h1.1, ?_⟩
      have := h1.2
      rw [encodeArgs, At.append] at this
      exact this.1
    · unfold u32; rw [List.length_append, le_length]; omega
    · rw [(C20_hash_hex _ []).1]; rfl

