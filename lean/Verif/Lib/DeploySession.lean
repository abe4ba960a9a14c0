import Verif.Lib.DeployShow
/-
What well-formed sessions are read as and shown as.
-/
namespace Casper
open M

/-! ### Looking arguments up -/

theorem find_cstr {as : List Arg} (hn : noNul as) (name : Bytes) : as.find? (fun a => cstr a.name == name) = argNamed as name := by
  unfold argNamed
  induction as with
  | nil => rfl
  | cons a as ih =>
    have h1 : cstr a.name = a.name := cstr_eq (hn a (by simp))
    rw [List.find?_cons, List.find?_cons, h1, ih fun b hb => hn b (by simp [hb])]

section
variable {e : Env} {off : Nat} {as : List Arg} (hf : Fits e) (hok : ∀ a ∈ as, a.Ok) (hn : noNul as) (h : At e.buf off (encodeArgs as))

include hf hok hn h in
theorem search_found {name : Bytes} {a : Arg} (ha : argNamed as name = some a) :
    searchArgs e name as.length off = .ok (a.ty.tag, a.ty.inner 255) off := by
  have := searchArgs_at (name := name) hf hok h
  rw [find_cstr hn, ha] at this
  exact this

include hf hok hn h in
theorem search_absent {name : Bytes} (ha : argNamed as name = none) : searchArgs e name as.length off = .err 27 off := by
  have := searchArgs_at (name := name) hf hok h
  rw [find_cstr hn, ha] at this
  exact this

include hf hok hn h in
theorem checkArg_found {name : Bytes} {cond : Nat → Nat → Bool} {a : Arg} (ha : argNamed as name = some a)
    (hc : cond a.ty.tag (a.ty.inner 255) = true) : checkArg e as.length name cond off = .ok () off := by
  unfold checkArg
  exact seqThen (search_found hf hok hn h ha) (by dsimp only; rw [require_run, if_pos hc])

include hf hok hn h in
theorem checkArg_absent {name : Bytes} {cond : Nat → Nat → Bool} (ha : argNamed as name = none) :
    checkArg e as.length name cond off = .err 27 off := by
  unfold checkArg
  rw [bind_run, search_absent hf hok hn h ha]; rfl

include hf hok hn h in
theorem countArg_found {name : Bytes} {cond : Nat → Nat → Bool} {a : Arg} (ha : argNamed as name = some a)
    (hc : cond a.ty.tag (a.ty.inner 255) = true) : countArg e as.length name cond off = .ok .found off := by
  unfold countArg
  refine seqThen (a := .ok (a.ty.tag, a.ty.inner 255)) (t := off) (by rw [attempt_run, search_found hf hok hn h ha]) ?_
  dsimp only
  rw [if_pos hc]; rfl

include hf hok hn h in
theorem countArg_other {name : Bytes} {cond : Nat → Nat → Bool} {a : Arg} (ha : argNamed as name = some a)
    (hc : cond a.ty.tag (a.ty.inner 255) = false) : countArg e as.length name cond off = .ok .returnOk off := by
  unfold countArg
  refine seqThen (a := .ok (a.ty.tag, a.ty.inner 255)) (t := off) (by rw [attempt_run, search_found hf hok hn h ha]) ?_
  dsimp only
  rw [if_neg (by rw [hc]; decide)]; rfl

include hf hok hn h in
theorem countArg_absent {name : Bytes} {cond : Nat → Nat → Bool} (ha : argNamed as name = none) :
    countArg e as.length name cond off = .ok .skip off := by
  unfold countArg
  refine seqThen (a := .error 27) (t := off) (by rw [attempt_run, search_absent hf hok hn h ha]) ?_
  dsimp only
  rw [if_neg (by decide)]; rfl

end

/-! ### Native transfers -/

/-- The types a transfer's purses and accounts may have. -/
def CLType.isPlace (t : CLType) : Prop := t = .key ∨ t = .uref ∨ (∃ n, t = .byteArray n) ∨ t = .publicKey

theorem CLType.isPlace.account {t : CLType} (h : t.isPlace) : isAccount t.tag (t.inner 255) = true := by
  rcases h with rfl | rfl | ⟨n, rfl⟩ | rfl <;> rfl

/-- The arguments of a native transfer in its usual form: an amount, a target, an id, and perhaps a source, in any order. -/
structure TransferArgs (as : List Arg) : Prop where
  ok : ∀ a ∈ as, a.Ok
  names : noNul as
  amount : ∃ a, argNamed as b!"amount" = some a ∧ a.ty = .u512
  id : ∃ a, argNamed as b!"id" = some a ∧ (a.ty = .u64 ∨ a.ty = .option .u64)
  target : ∃ a, argNamed as b!"target" = some a ∧ a.ty.isPlace
  source : as.length = 3 ∧ argNamed as b!"source" = none ∨ as.length = 4 ∧ ∃ a, argNamed as b!"source" = some a ∧ a.ty.isPlace

theorem isId_of {t : CLType} (h : t = .u64 ∨ t = .option .u64) : isId t.tag (t.inner 255) = true := by
  rcases h with rfl | rfl <;> rfl

theorem checkTransferArgs_at {e : Env} {off : Nat} {as : List Arg} (hf : Fits e) (ht : TransferArgs as) (h : At e.buf off (encodeArgs as)) :
    checkTransferArgs e as.length off = .ok as.length off := by
  obtain ⟨am, ham, hamt⟩ := ht.amount
  obtain ⟨id, hid, hidt⟩ := ht.id
  obtain ⟨tg, htg, htgt⟩ := ht.target
  have c1 : isU512 am.ty.tag (am.ty.inner 255) = true := by rw [hamt]; rfl
  unfold checkTransferArgs
  refine seqThen (checkArg_found hf ht.ok ht.names h ham c1) (seqThen (countArg_found hf ht.ok ht.names h ham c1) ?_)
  refine seqThen (countArg_found hf ht.ok ht.names h hid (isId_of hidt)) ?_
  refine seqThen (countArg_found hf ht.ok ht.names h htg htgt.account) ?_
  simp only [countStep]
  rcases ht.source with ⟨hl, -⟩ | ⟨hl, s, hs, hst⟩
  · rw [if_neg (by omega), hl]; rfl
  · rw [if_pos hl]
    refine seqThen (countArg_found hf ht.ok ht.names h hs hst.account) ?_
    simp only [countStep]
    rw [hl]; rfl

/-- What a transfer is read as. -/
def transferView (expert : Bool) (as : List Arg) : Item :=
  { typ := 5, special := 2, total := (ExecItem.transfer as).encode.length, runtime := if expert then as.length else 2 }

theorem transfer_parse {e : Env} {off : Nat} {as : List Arg} (hf : Fits e) (ht : TransferArgs as) (h : At e.buf off (ExecItem.transfer as).encode) :
    parseDeployItem e false ⟨off + 1, 0, { typ := 5 }⟩ =
      .ok () ⟨off + (ExecItem.transfer as).encode.length, 0, transferView e.expert as⟩ := by
  have hle := h.le
  have hlen : (ExecItem.transfer as).encode.length = 1 + (4 + (encodeArgs as).length) := by
    simp [ExecItem.encode, encodeRuntimeArgs]; omega
  unfold Fits at hf
  have h1 := (At.cons.1 h).2
  unfold encodeRuntimeArgs at h1
  rw [At.append, le_length] at h1
  have h34 : as.length = 3 ∨ as.length = 4 := by rcases ht.source with ⟨hl, -⟩ | ⟨hl, -⟩ <;> omega
  unfold parseDeployItem
  refine modThen (getThen ?_)
  dsimp only
  rw [if_neg (by decide), if_neg (by decide), if_neg (by decide), if_pos rfl]
  unfold parseTransfer
  refine getThen (lpThen (readLE_at h1.1 (by omega)) ?_)
  refine seqThen (a := ()) (t := ⟨off + 1 + 4, 0, { typ := 5, special := 255, runtime := if e.expert then as.length else 2 }⟩) ?_ (modThen ?_)
  · unfold parseNativeTransfer
    refine lpThen (checkTransferArgs_at hf ht h1.2) ?_
    have hu : u32 (as.length + 4294967296 - as.length) = 0 := by unfold u32; omega
    simp only [hu, if_true]
    rw [if_pos h34]
    show Res.ok _ _ = _
    simp only [Nat.zero_add]
  · unfold finishItem
    refine lpThen (by dsimp only; exact parseArgs_at hf ht.ok h1.2)
      (lpThen (a := (ExecItem.transfer as).encode.length) (o := off + (ExecItem.transfer as).encode.length) ?_ ?_)
    · dsimp only
      unfold totalLength
      refine getThen ?_
      rw [if_pos (by omega)]
      show Res.ok _ _ = _
      congr 1 <;> omega
    · rfl

theorem showLine_at {e : Env} {off : Nat} {as : List Arg} {l : ArgLine} {kv : Bytes × Bytes} (hf : Fits e) (hok : ∀ a ∈ as, a.Ok)
    (hn : noNul as) (hl : l.Shows e.blake as kv) (h : At e.buf off (encodeArgs as)) :
    ∃ c, (if l.motes then showMotes e l.label l.name as.length else showArg e l.label l.name as.length) off = .ok kv c := by
  cases hl with
  | value h1 h2 h3 => rw [h1]; exact showArg_at hf hok hn h2 h3 h
  | motes h1 h2 h3 h4 => rw [h1]; exact showMotes_at hf hok hn h2 h4 h

/-- Like `ArgLine.Shows`, for amounts of any type that is shown in motes. -/
inductive ArgLine.Renders (H : Bytes → Bytes) (as : List Arg) : ArgLine → Bytes × Bytes → Prop
  | value {l a text} : l.motes = false → argNamed as l.name = some a → Shown H a.ty a.value text → Renders H as l (l.label, text)
  | motes {l a text} : l.motes = true → argNamed as l.name = some a → ShownMotes a.ty a.value text → Renders H as l (l.label, text)

theorem ArgLine.Shows.renders {H : Bytes → Bytes} {as : List Arg} {l : ArgLine} {kv : Bytes × Bytes} (h : l.Shows H as kv) : l.Renders H as kv := by
  cases h with
  | value h1 h2 h3 => exact .value h1 h2 h3
  | motes h1 h2 h3 h4 => exact .motes h1 h2 h4

theorem renderLine_at {e : Env} {off : Nat} {as : List Arg} {l : ArgLine} {kv : Bytes × Bytes} (hf : Fits e) (hok : ∀ a ∈ as, a.Ok)
    (hn : noNul as) (hl : l.Renders e.blake as kv) (h : At e.buf off (encodeArgs as)) :
    ∃ c, (if l.motes then showMotes e l.label l.name as.length else showArg e l.label l.name as.length) off = .ok kv c := by
  cases hl with
  | value h1 h2 h3 => rw [h1]; exact showArg_at hf hok hn h2 h3 h
  | motes h1 h2 h3 => rw [h1]; exact showMotes_at hf hok hn h2 h3 h

theorem renders_of {H : Bytes → Bytes} {as : List Arg} {ls : List ArgLine} {kvs : List (Bytes × Bytes)} (h : List.Forall₂ (ArgLine.Shows H as) ls kvs) :
    List.Forall₂ (ArgLine.Renders H as) ls kvs := h.imp fun _ _ => ArgLine.Shows.renders

theorem forall₂_get {α β : Type} {R : α → β → Prop} {xs : List α} {ys : List β} (h : List.Forall₂ R xs ys) {i : Nat} {y : β}
    (hy : ys[i]? = some y) : ∃ x, xs[i]? = some x ∧ R x y := by
  induction h generalizing i with
  | nil => simp at hy
  | cons h1 _ ih =>
    cases i with
    | zero => simp only [List.getElem?_cons_zero, Option.some.injEq] at hy ⊢; subst hy; exact ⟨_, rfl, h1⟩
    | succ i => simp only [List.getElem?_cons_succ] at hy ⊢; exact ih hy

theorem transfer_session {e : Env} {off : Nat} {as : List Arg} {lines : List (Bytes × Bytes)} (hf : Fits e) (ht : TransferArgs as)
    (hl : List.Forall₂ (ArgLine.Shows e.blake as) (opLines e.expert as 2) lines) (h : At e.buf off (ExecItem.transfer as).encode) :
    SessionAt e off (.transfer as) 0 (transferView e.expert as) lines := by
  have hle := h.le
  have hlen : (ExecItem.transfer as).encode.length = 1 + (4 + (encodeArgs as).length) := by
    simp [ExecItem.encode, encodeRuntimeArgs]; omega
  have h1 := (At.cons.1 h).2
  unfold encodeRuntimeArgs at h1
  rw [At.append, le_length] at h1
  have hf' := hf
  unfold Fits at hf'
  have hll := hl.length_eq
  have hsrc : as.length = 3 ∧ argNamed as b!"source" = none ∨ as.length = 4 ∧ (argNamed as b!"source").isSome := by
    rcases ht.source with ⟨hl, h2⟩ | ⟨hl, s, hs, -⟩
    · exact .inl ⟨hl, h2⟩
    · exact .inr ⟨hl, by rw [hs]; rfl⟩
  have hcnt : (transferView e.expert as).fixed + (transferView e.expert as).runtime = lines.length := by
    rw [← hll]
    unfold transferView opLines
    dsimp only
    cases e.expert
    · simp
    · rcases hsrc with ⟨hl, h2⟩ | ⟨hl, h2⟩ <;> simp [h2, hl]
  refine ⟨transfer_parse hf ht h, rfl, hcnt, ?_, fun i kv hi => ?_⟩
  · rw [← hcnt]
    show 0 + (if e.expert then as.length else 2) ≤ 100
    rcases hsrc with ⟨hl, -⟩ | ⟨hl, -⟩ <;> rw [hl] <;> split <;> omega
  obtain ⟨l, hx, hs⟩ := forall₂_get hl hi
  have hil : i < lines.length := (List.getElem?_eq_some_iff.1 hi).1
  have hir : ¬ i ≥ (transferView e.expert as).runtime := by rw [← hcnt] at hil; simp only [show (transferView e.expert as).fixed = 0 from rfl, Nat.zero_add] at hil; omega
  have key := showLine_at hf ht.ok ht.names hs h1.2
  unfold sessionLine
  rw [if_pos (show (transferView e.expert as).special = spNativeTransfer from rfl)]
  unfold itemNativeTransfer
  refine exThen (skip_run (by omega)) (exThen (get_run _) (exThen (readLE_at h1.1 (by omega)) ?_))
  have h34 : as.length = 3 ∨ as.length = 4 := by rcases hsrc with ⟨hl, -⟩ | ⟨hl, -⟩ <;> omega
  have hrt : ¬ (transferView e.expert as).runtime > as.length := by
    show ¬ (if e.expert then as.length else 2) > as.length
    split <;> omega
  rw [if_neg hrt]
  simp only [show (transferView e.expert as).fixed = 0 from rfl, Nat.not_lt_zero, Nat.sub_zero, false_or, if_neg hir,
    show (transferView e.expert as).generic = 0 from rfl, gt_iff_lt, Nat.lt_irrefl, if_false, h34, not_true_eq_false]
  cases hx' : e.expert with
  | false =>
    simp only [Bool.false_eq_true, not_false_eq_true, if_true]
    have hi2 : i < 2 := by
      have : (transferView e.expert as).runtime = 2 := by rw [hx']; rfl
      omega
    rw [hx'] at hx
    unfold opLines at hx
    simp only [Bool.false_eq_true, false_and, if_false, List.nil_append, List.append_nil] at hx
    match i, hi2 with
    | 0, _ => cases hx; exact key
    | 1, _ => cases hx; exact key
  | true =>
    simp only [not_true_eq_false, if_false]
    have hrt : (transferView true as).runtime = as.length := rfl
    rw [hrt]
    rw [hx', hrt] at hir
    rw [hx'] at hx
    unfold opLines at hx
    simp only [true_and, if_true] at hx
    rcases hsrc with ⟨hl, h2⟩ | ⟨hl, h2⟩
    · simp only [h2, Option.isSome_none, Bool.false_eq_true, if_false, List.nil_append] at hx
      have hi3 : i < 3 := by omega
      match i, hi3 with
      | 0, _ => cases hx; simpa [hl] using key
      | 1, _ => cases hx; simpa [hl] using key
      | 2, _ => cases hx; simpa [hl] using key
    · simp only [h2, if_true] at hx
      have hi3 : i < 4 := by omega
      match i, hi3 with
      | 0, _ => cases hx; simpa [hl] using key
      | 1, _ => cases hx; simpa [hl] using key
      | 2, _ => cases hx; simpa [hl] using key
      | 3, _ => cases hx; simpa [hl] using key

/-! ### Calls of stored contracts -/

/-- The addresses, versions and names are well formed. -/
structure StoredOk (byHash : Bool) (x : Bytes) (version : Option (Option Nat)) (entry : Bytes) (as : List Arg) : Prop where
  hash : byHash = true → x.length = 32
  ver : ∀ n, version = some (some n) → n < 2 ^ 32
  short : entry.length ≤ 100
  entry0 : (0 : UInt8) ∉ entry
  ok : ∀ a ∈ as, a.Ok
  names : noNul as

/-- Type byte, address, version, entry point, arguments. -/
theorem storedCall_encode (b : Bool) (x : Bytes) (v : Option (Option Nat)) (entry : Bytes) (as : List Arg) :
    (storedCall b x v entry as).encode = UInt8.ofNat (storedCall b x v entry as).tag ::
      ((if b then x else pfx x) ++ ((match v with | none => [] | some v => optional (le 4) v) ++ (pfx entry ++ encodeRuntimeArgs as))) := by
  cases b <;> cases v <;> simp [storedCall, ExecItem.encode, ExecItem.tag]

/-- Bytes in front of the entry point. -/
def headLen (b : Bool) (x : Bytes) (v : Option (Option Nat)) : Nat :=
  1 + (if b then x else pfx x).length + (match v with | none => [] | some v => optional (le 4) v).length

theorem parseVersion_at {e : Env} {off : Nat} {v : Option Nat} {xs : Bytes} (hv : ∀ n, v = some n → n < 2 ^ 32)
    (h : At e.buf off (optional (le 4) v ++ xs)) : parseVersion e off = .ok (v.getD 0) (off + (optional (le 4) v).length) := by
  unfold parseVersion
  cases v with
  | none => exact seqThen (readU8_at h) rfl
  | some n =>
    obtain ⟨h1, h2⟩ := At.cons.1 (At.append.1 h).1
    exact seqThen (readU8_at h) (readLE_at h2 (hv n rfl))

section
variable {e : Env} {off : Nat} {b : Bool} {x : Bytes} {v : Option (Option Nat)} {entry : Bytes} {as : List Arg}
  (hf : Fits e) (hk : StoredOk b x v entry as) (h : At e.buf off (storedCall b x v entry as).encode)

/-- Where the parts are. -/
structure StoredLayout (e : Env) (off : Nat) (b : Bool) (x : Bytes) (v : Option (Option Nat)) (entry : Bytes) (as : List Arg) : Prop where
  head : At e.buf (off + 1) ((if b then x else pfx x) ++ [])
  version : At e.buf (off + 1 + (if b then x else pfx x).length) ((match v with | none => [] | some v => optional (le 4) v) ++ [])
  start : At e.buf (off + headLen b x v) (pfx entry ++ encodeRuntimeArgs as)
  count : At e.buf (off + headLen b x v + 4 + entry.length) (le 4 as.length)
  args : At e.buf (off + headLen b x v + 4 + entry.length + 4) (encodeArgs as)
  total : (storedCall b x v entry as).encode.length = headLen b x v + (4 + entry.length + (4 + (encodeArgs as).length))
  le : off + headLen b x v + (4 + entry.length + (4 + (encodeArgs as).length)) ≤ e.buf.length

include h in
theorem stored_layout : StoredLayout e off b x v entry as := by
  have hle := h.le
  have ht : (storedCall b x v entry as).encode.length = headLen b x v + (4 + entry.length + (4 + (encodeArgs as).length)) := by
    rw [storedCall_encode, List.length_cons, List.length_append, List.length_append, List.length_append, pfx_length, encodeRuntimeArgs, List.length_append,
      le_length]
    unfold headLen
    omega
  rw [ht] at hle
  rw [storedCall_encode, At.cons, At.append, At.append] at h
  obtain ⟨-, h1, h2, h3⟩ := h
  have h3' : At e.buf (off + headLen b x v) (pfx entry ++ encodeRuntimeArgs as) := h3.cast (by unfold headLen; omega)
  have h4 := h3'.pfx.2
  unfold encodeRuntimeArgs at h4
  rw [At.append, le_length] at h4
  exact ⟨by simpa using h1, by rw [List.append_nil]; exact h2, h3', h4.1, h4.2, ht, by omega⟩

/-- What is read of a call before its arguments are looked at. -/
def storedStart (expert b : Bool) (x : Bytes) (v : Option (Option Nat)) (entry : Bytes) (off : Nat) : Item :=
  { typ := (storedCall b x v entry []).tag, special := entryKind entry 255, fixed := if v.isSome ∧ expert then 1 else 0,
    itemOffset := off + headLen b x v + 4 + entry.length }

include hf hk h in
/-- Parsing a stored call: the arguments are looked at once the entry point has been read. -/
theorem stored_parse_bind (ep : Nat) :
    parseDeployItem e false ⟨off + 1, ep, { typ := (storedCall b x v entry as).tag }⟩ =
      Res.bind (parseDelegation e as.length (decide (entry = b!"redelegate"))
        ⟨off + headLen b x v + 4 + entry.length + 4, off + headLen b x v, storedStart e.expert b x v entry off⟩)
        fun _ s => finishItem e as.length (off + 1) s := by
  have ly := stored_layout h
  have hle := ly.le
  have hlen : 0 < headLen b x v := by unfold headLen; omega
  have hf' := hf
  unfold Fits at hf'
  have htag : (storedCall b x v entry as).tag = (storedCall b x v entry []).tag := by cases b <;> cases v <;> rfl
  have hc : cstr entry = entry := cstr_eq hk.entry0
  have tail : ∀ it : Item, { it with itemOffset := off + headLen b x v + 4 + entry.length, special := entryKind entry it.special } =
        storedStart e.expert b x v entry off →
      (checkEntrypoint e >>= fun n => finishItem e n (off + 1)) ⟨off + headLen b x v, ep, it⟩ =
      Res.bind (parseDelegation e as.length (decide (entry = b!"redelegate"))
        ⟨off + headLen b x v + 4 + entry.length + 4, off + headLen b x v, storedStart e.expert b x v entry off⟩)
        fun _ s => finishItem e as.length (off + 1) s := by
    intro it hit
    have hcount := encodeArgs_count as
    have hce : checkEntrypoint e ⟨off + headLen b x v, ep, it⟩ = Res.bind (parseDelegation e as.length (decide (entry = b!"redelegate"))
        ⟨off + headLen b x v + 4 + entry.length + 4, off + headLen b x v, storedStart e.expert b x v entry off⟩) fun _ s => .ok as.length s := by
      unfold checkEntrypoint
      refine modThen (lpThen (by dsimp only; exact copyItem_at hf ly.start hk.short) (modThen (lpThen (by dsimp only; exact readLE_at ly.count (by omega)) (modThen ?_))))
      dsimp only
      rw [hc, bind_run, hit]; rfl
    rw [bind_run, hce]
    cases parseDelegation e as.length (decide (entry = b!"redelegate"))
        ⟨off + headLen b x v + 4 + entry.length + 4, off + headLen b x v, storedStart e.expert b x v entry off⟩ <;> rfl
  unfold parseDeployItem
  refine modThen (getThen ?_)
  dsimp only
  have hhead := ly.head
  have hver := ly.version
  cases b with
  | true =>
    have h32 := hk.hash rfl
    cases v with
    | none =>
      rw [show (storedCall true x none entry as).tag = 1 from rfl, if_neg (by decide), if_pos (by decide)]
      unfold parseByHash
      refine getThen (lpThen (skip_run (by dsimp only; simp [headLen, h32] at hle; omega)) (getThen (seqThen (a := ()) (t := ⟨off + 1 + 32, ep, { typ := 1, special := 255 }⟩) rfl ?_)))
      have hh : off + 1 + 32 = off + headLen true x none := by simp [headLen, h32]
      rw [hh]
      exact tail _ rfl
    | some w =>
      rw [show (storedCall true x (some w) entry as).tag = 3 from rfl, if_neg (by decide), if_pos (by decide)]
      unfold parseByHash
      simp only [if_true, h32] at hver
      refine getThen (lpThen (skip_run (by dsimp only; simp [headLen, h32] at hle; omega)) (getThen (seqThen (a := ())
        (t := ⟨off + 1 + 32 + (optional (le 4) w).length, ep, { typ := 3, special := 255, fixed := if e.expert then 1 else 0 }⟩) ?_ ?_)))
      · show versionStep e true _ = _
        unfold versionStep
        rw [if_pos rfl]
        refine lpThen (parseVersion_at (fun n hn => hk.ver n (by rw [hn])) hver) ?_
        cases e.expert <;> rfl
      · have hh : off + 1 + 32 + (optional (le 4) w).length = off + headLen true x (some w) := by simp [headLen, h32]; omega
        rw [hh]
        exact tail _ (by unfold storedStart; cases e.expert <;> rfl)
  | false =>
    simp only [Bool.false_eq_true, if_false] at hhead hver
    cases v with
    | none =>
      rw [show (storedCall false x none entry as).tag = 2 from rfl, if_neg (by decide), if_neg (by decide), if_pos (by decide)]
      unfold parseByName
      refine getThen (lpThen (parseItem_at hf hhead) (getThen (seqThen (a := ()) (t := ⟨off + 1 + 4 + x.length, ep, { typ := 2, special := 255 }⟩) rfl ?_)))
      have hh : off + 1 + 4 + x.length = off + headLen false x none := by simp [headLen]; omega
      rw [hh]
      exact tail _ rfl
    | some w =>
      rw [show (storedCall false x (some w) entry as).tag = 4 from rfl, if_neg (by decide), if_neg (by decide), if_pos (by decide)]
      unfold parseByName
      rw [pfx_length] at hver
      refine getThen (lpThen (parseItem_at hf hhead) (getThen (seqThen (a := ())
        (t := ⟨off + 1 + 4 + x.length + (optional (le 4) w).length, ep, { typ := 4, special := 255, fixed := if e.expert then 1 else 0 }⟩) ?_ ?_)))
      · show versionStep e true _ = _
        unfold versionStep
        rw [if_pos rfl]
        refine lpThen (parseVersion_at (fun n hn => hk.ver n (by rw [hn])) (hver.cast (by dsimp only; omega))) ?_
        cases e.expert <;> rfl
      · have hh : off + 1 + 4 + x.length + (optional (le 4) w).length = off + headLen false x (some w) := by simp [headLen]; omega
        rw [hh]
        exact tail _ (by unfold storedStart; cases e.expert <;> rfl)

include hf hk h in
/-- Parsing a stored call, given what its arguments are read as. -/
theorem stored_parse {r : Item} (hd : parseDelegation e as.length (decide (entry = b!"redelegate"))
      ⟨off + headLen b x v + 4 + entry.length + 4, off + headLen b x v, storedStart e.expert b x v entry off⟩ =
      .ok () ⟨off + headLen b x v + 4 + entry.length + 4, off + headLen b x v, r⟩) (ep : Nat) :
    parseDeployItem e false ⟨off + 1, ep, { typ := (storedCall b x v entry as).tag }⟩ =
      .ok () ⟨off + (storedCall b x v entry as).encode.length, off + headLen b x v, { r with total := (storedCall b x v entry as).encode.length }⟩ := by
  have ly := stored_layout h
  have hle := ly.le
  have hf' := hf
  unfold Fits at hf'
  rw [stored_parse_bind hf hk h, hd]
  show finishItem e as.length (off + 1) _ = _
  unfold finishItem
  refine lpThen (by dsimp only; exact parseArgs_at hf hk.ok ly.args)
    (lpThen (a := (storedCall b x v entry as).encode.length) (o := off + (storedCall b x v entry as).encode.length) ?_ ?_)
  · dsimp only
    unfold totalLength
    refine getThen ?_
    rw [if_pos (by omega), ly.total]
    show Res.ok _ _ = _
    congr 1 <;> omega
  · rfl

end

/-- The arguments of a delegation (`redel = false`) or redelegation, and no others, in any order. -/
structure DelegateArgs (redel : Bool) (as : List Arg) : Prop where
  amount : ∃ a, argNamed as b!"amount" = some a ∧ a.ty = .u512
  delegator : ∃ a, argNamed as b!"delegator" = some a ∧ a.ty = .publicKey
  validator : ∃ a, argNamed as b!"validator" = some a ∧ a.ty = .publicKey
  new : redel = true → ∃ a, argNamed as b!"new_validator" = some a ∧ a.ty = .publicKey
  count : as.length = if redel then 4 else 3

/-- The types of amounts that are looked for. -/
def CLType.isMotes (t : CLType) : Prop := t = .u512 ∨ t = .u32

/-- The arguments of a delegation (`redel = false`) or redelegation, and perhaps others. -/
structure DelegateNames (redel : Bool) (as : List Arg) : Prop where
  amount : ∃ a, argNamed as b!"amount" = some a ∧ a.ty.isMotes
  delegator : ∃ a, argNamed as b!"delegator" = some a ∧ a.ty = .publicKey
  validator : ∃ a, argNamed as b!"validator" = some a ∧ a.ty = .publicKey
  new : redel = true → ∃ a, argNamed as b!"new_validator" = some a ∧ a.ty = .publicKey

theorem DelegateArgs.present {redel : Bool} {as : List Arg} (h : DelegateArgs redel as) : DelegateNames redel as :=
  ⟨by obtain ⟨a, h1, h2⟩ := h.amount; exact ⟨a, h1, .inl h2⟩, h.delegator, h.validator, h.new⟩

/-- The arguments of any other call: amounts and keys have their types where their names occur, and the three arguments
of a delegation do not all occur under the name of a delegation. -/
structure OtherArgs (entry : Bytes) (as : List Arg) : Prop where
  amount : ∀ a, argNamed as b!"amount" = some a → a.ty.isMotes
  delegator : ∀ a, argNamed as b!"delegator" = some a → a.ty = .publicKey
  validator : ∀ a, argNamed as b!"validator" = some a → a.ty = .publicKey
  new : entry = b!"redelegate" → ∃ a, argNamed as b!"new_validator" = some a ∧ a.ty = .publicKey
  missing : entry = b!"delegate" ∨ entry = b!"undelegate" ∨ entry = b!"redelegate" →
    argNamed as b!"amount" = none ∨ argNamed as b!"delegator" = none ∨ argNamed as b!"validator" = none

/-- One of the arguments looked for has a type that is not expected. -/
def WrongArgs (as : List Arg) : Prop :=
  (∃ a, argNamed as b!"amount" = some a ∧ ¬ a.ty.isMotes) ∨ (∃ a, argNamed as b!"delegator" = some a ∧ a.ty ≠ .publicKey) ∨
    ∃ a, argNamed as b!"validator" = some a ∧ a.ty ≠ .publicKey

theorem isAmount_iff (t : CLType) : isAmount t.tag (t.inner 255) = true ↔ t.isMotes := by
  unfold isAmount CLType.isMotes
  cases t <;> simp [CLType.tag]

theorem isPublicKey_iff (t : CLType) : isPublicKey t.tag (t.inner 255) = true ↔ t = .publicKey := by
  unfold isPublicKey
  cases t <;> simp [CLType.tag]

/-- There is an amount of a type that is expected. -/
def hasMotes (as : List Arg) : Bool := match argNamed as b!"amount" with
  | some a => isAmount a.ty.tag (a.ty.inner 255)
  | none => false

theorem publicKey_ok {a : Arg} (h : a.ty = .publicKey) : isPublicKey a.ty.tag (a.ty.inner 255) = true := by rw [h]; rfl
theorem motes_ok {a : Arg} (h : a.ty.isMotes) : isAmount a.ty.tag (a.ty.inner 255) = true := by rcases h with h | h <;> rw [h] <;> rfl
theorem u512_ok {a : Arg} (h : a.ty = .u512) : isAmount a.ty.tag (a.ty.inner 255) = true := by rw [h]; rfl

/-- Number of version lines. -/
def Item.ver (i : Item) : Nat := if i.typ = tyVerByHash ∨ i.typ = tyVerByName then 1 else 0

section
variable {e : Env} {o ep : Nat} {as : List Arg} {it : Item} (hf : Fits e) (hok : ∀ a ∈ as, a.Ok) (hn : noNul as) (h : At e.buf o (encodeArgs as))
  (hty : it.typ ≠ 0)

include hf hok hn h hty in
theorem delegation_at {redel : Bool} (hd : DelegateNames redel as) (hsp : it.special ≠ 0) (hg : it.generic = 0) :
    parseDelegation e as.length redel ⟨o, ep, it⟩ = .ok () ⟨o, ep,
      { it with hasAmount := true, runtime := it.runtime + (if redel then 4 else 3), fixed := if e.expert then 2 + it.ver else it.fixed }⟩ := by
  obtain ⟨am, am1, am2⟩ := hd.amount
  obtain ⟨dl, dl1, dl2⟩ := hd.delegator
  obtain ⟨vl, vl1, vl2⟩ := hd.validator
  unfold parseDelegation
  refine getThen ?_
  simp only [show (it.typ == tyModuleBytes) = false by simpa using hty, Bool.false_eq_true, if_false]
  refine seqThen (a := (redel, true)) (t := ⟨o, ep, it⟩) rfl ?_
  dsimp only
  refine seqThen (a := ()) (t := ⟨o, ep, it⟩) ?_ ?_
  · unfold checkNewValidator
    cases redel with
    | false => rfl
    | true =>
      obtain ⟨nv, nv1, nv2⟩ := hd.new rfl
      rw [if_pos rfl]
      exact lp_run (checkArg_found hf hok hn h nv1 (publicKey_ok nv2))
  refine seqThen (a := ()) (t := ⟨o, ep, { it with hasAmount := true, runtime := it.runtime + (if redel then 4 else 3) }⟩) ?_ ?_
  · unfold delegationLines
    refine seqThen (a := .ok ()) (t := ⟨o, ep, { it with hasAmount := true, runtime := it.runtime + (if redel then 4 else 3) }⟩) ?_ rfl
    have : checkDelegationItems e as.length redel ⟨o, ep, it⟩ = .ok () ⟨o, ep, { it with hasAmount := true, runtime := it.runtime + (if redel then 4 else 3) }⟩ := by
      unfold checkDelegationItems
      refine lpThen (countArg_found hf hok hn h am1 (motes_ok am2)) (modThen (lpThen (countArg_found hf hok hn h dl1 (publicKey_ok dl2)) ?_))
      refine lpThen (countArg_found hf hok hn h vl1 (publicKey_ok vl2)) ?_
      refine lpThen (checkArg_found hf hok hn h dl1 (publicKey_ok dl2)) (lpThen (checkArg_found hf hok hn h vl1 (publicKey_ok vl2)) ?_)
      refine lpThen (checkArg_found hf hok hn h am1 (motes_ok am2)) (getThen ?_)
      dsimp only
      rw [if_neg hsp]
      cases redel with
      | false => rw [if_neg (by decide)]; rfl
      | true =>
        obtain ⟨nv, nv1, nv2⟩ := hd.new rfl
        rw [if_pos rfl]
        exact lpThen (checkArg_found hf hok hn h nv1 (publicKey_ok nv2)) rfl
    rw [attempt_run, this]
  · unfold finishDelegation
    refine modThen ?_
    dsimp only
    rw [if_neg hsp]
    cases e.expert with
    | false => rfl
    | true =>
      simp only [Bool.and_true, if_true]
      show Res.ok _ _ = _
      simp [hg, Item.ver]

include hf hok hn h in
/-- An argument of an unexpected type ends the search for arguments (`COUNT_RUNTIME_ARGTYPE` returns `parser_ok`). -/
theorem wrongItems_at (redel : Bool) (hw : WrongArgs as) (hha : it.hasAmount = false) :
    checkDelegationItems e as.length redel ⟨o, ep, it⟩ = .ok () ⟨o, ep, { it with hasAmount := hasMotes as }⟩ := by
  have hcount : ∀ name (cond : Nat → Nat → Bool), countArg e as.length name cond o =
      .ok (match argNamed as name with
        | none => .skip
        | some a => if cond a.ty.tag (a.ty.inner 255) then .found else .returnOk) o := by
    intro name cond
    cases ha : argNamed as name with
    | none => exact countArg_absent hf hok hn h ha
    | some a =>
      cases hc : cond a.ty.tag (a.ty.inner 255) with
      | true => rw [countArg_found hf hok hn h ha hc]; simp [hc]
      | false => rw [countArg_other hf hok hn h ha hc]; simp [hc]
  unfold checkDelegationItems
  refine lpThen (hcount b!"amount" isAmount) ?_
  by_cases h1 : ∃ a, argNamed as b!"amount" = some a ∧ ¬ a.ty.isMotes
  · obtain ⟨a, h1, h2⟩ := h1
    have h3 : isAmount a.ty.tag (a.ty.inner 255) = false := by rw [← isAmount_iff] at h2; simpa using h2
    unfold hasMotes
    simp only [h1, h3, Bool.false_eq_true, if_false, countStep]
    rw [← hha]; rfl
  obtain ⟨k, h2, h3⟩ : ∃ k, countStep 0 (match argNamed as b!"amount" with
        | none => Count.skip
        | some a => if isAmount a.ty.tag (a.ty.inner 255) then .found else .returnOk) = some k ∧ (k == 1) = hasMotes as := by
    unfold hasMotes
    cases ha : argNamed as b!"amount" with
    | none => exact ⟨0, rfl, rfl⟩
    | some a =>
      have h3 : isAmount a.ty.tag (a.ty.inner 255) = true := by
        rw [isAmount_iff]; by_contra hc; exact h1 ⟨a, ha, hc⟩
      exact ⟨1, by simp only [h3, if_true]; rfl, by simp only [h3]; rfl⟩
  simp only [h2]
  refine modThen ?_
  dsimp only
  rw [h3]
  refine lpThen (hcount b!"delegator" isPublicKey) ?_
  by_cases h4 : ∃ a, argNamed as b!"delegator" = some a ∧ a.ty ≠ .publicKey
  · obtain ⟨a, h5, h6⟩ := h4
    have h7 : isPublicKey a.ty.tag (a.ty.inner 255) = false := by rw [ne_eq, ← isPublicKey_iff] at h6; simpa using h6
    simp only [h5, h7, Bool.false_eq_true, if_false, countStep]; rfl
  obtain ⟨k2, h5⟩ : ∃ k2, countStep k (match argNamed as b!"delegator" with
        | none => Count.skip
        | some a => if isPublicKey a.ty.tag (a.ty.inner 255) then .found else .returnOk) = some k2 := by
    cases ha : argNamed as b!"delegator" with
    | none => exact ⟨k, rfl⟩
    | some a =>
      have h3 : isPublicKey a.ty.tag (a.ty.inner 255) = true := by
        rw [isPublicKey_iff]; by_contra hc; exact h4 ⟨a, ha, hc⟩
      exact ⟨k + 1, by simp only [h3, if_true]; rfl⟩
  simp only [h5]
  refine lpThen (hcount b!"validator" isPublicKey) ?_
  obtain ⟨a, h8, h9⟩ : ∃ a, argNamed as b!"validator" = some a ∧ a.ty ≠ .publicKey := by
    rcases hw with hw | hw | hw
    · exact absurd hw h1
    · exact absurd hw h4
    · exact hw
  have h7 : isPublicKey a.ty.tag (a.ty.inner 255) = false := by rw [ne_eq, ← isPublicKey_iff] at h9; simpa using h9
  simp only [h8, h7, Bool.false_eq_true, if_false, countStep]; rfl

include hf hok hn h hty in
theorem hidden_at {entry : Bytes} (hw : WrongArgs as) (hha : it.hasAmount = false)
    (hd : entry = b!"redelegate" → ∃ a, argNamed as b!"new_validator" = some a ∧ a.ty = .publicKey) :
    parseDelegation e as.length (decide (entry = b!"redelegate")) ⟨o, ep, it⟩ = .ok () ⟨o, ep,
      { it with hasAmount := hasMotes as, generic := if it.special = 0 then 1 else it.generic,
                fixed := if e.expert then 2 + it.ver + (if it.special = 0 ∨ it.generic ≠ 0 then 1 else 0) else it.fixed }⟩ := by
  unfold parseDelegation
  refine getThen ?_
  simp only [show (it.typ == tyModuleBytes) = false by simpa using hty, Bool.false_eq_true, if_false]
  refine seqThen (a := (decide (entry = b!"redelegate"), true)) (t := ⟨o, ep, it⟩) rfl ?_
  dsimp only
  refine seqThen (a := ()) (t := ⟨o, ep, it⟩) ?_ ?_
  · unfold checkNewValidator
    by_cases hr : entry = b!"redelegate"
    · obtain ⟨nv, nv1, nv2⟩ := hd hr
      rw [if_pos (by simpa using hr)]
      exact lp_run (checkArg_found hf hok hn h nv1 (publicKey_ok nv2))
    · rw [if_neg (by simpa using hr)]; rfl
  refine seqThen (a := ()) (t := ⟨o, ep, { it with hasAmount := hasMotes as }⟩) ?_ ?_
  · unfold delegationLines
    refine seqThen (a := .ok ()) (t := ⟨o, ep, { it with hasAmount := hasMotes as }⟩) ?_ rfl
    rw [attempt_run, wrongItems_at hf hok hn h _ hw hha]
  · unfold finishDelegation
    refine modThen ?_
    dsimp only
    cases e.expert with
    | false =>
      by_cases hs : it.special = 0
      · simp only [hs, if_true]; rfl
      · simp only [hs, if_false]; rfl
    | true =>
      simp only [Bool.and_true, if_true]
      show Res.ok _ _ = _
      by_cases hs : it.special = 0
      · simp [hs, Item.ver]
      · simp [hs, Item.ver]

include hf hok hn h hty in
/-- Redelegations without a key under the name "new_validator" are refused. -/
theorem noNew_at (hd : ¬ ∃ a, argNamed as b!"new_validator" = some a ∧ a.ty = .publicKey) :
    ∃ c t, parseDelegation e as.length true ⟨o, ep, it⟩ = .err c t := by
  have h1 : ∃ c t, checkArg e as.length b!"new_validator" isPublicKey o = .err c t := by
    cases ha : argNamed as b!"new_validator" with
    | none => exact ⟨_, _, checkArg_absent hf hok hn h ha⟩
    | some a =>
      have h3 : ¬ isPublicKey a.ty.tag (a.ty.inner 255) = true := by
        rw [isPublicKey_iff]; exact fun hc => hd ⟨a, ha, hc⟩
      unfold checkArg
      exact ⟨_, _, seqThen (search_found hf hok hn h ha) (by dsimp only; rw [require_run, if_neg h3])⟩
  obtain ⟨c, t, h1⟩ := h1
  refine ⟨c, ⟨t, ep, it⟩, ?_⟩
  unfold parseDelegation
  refine getThen ?_
  simp only [show (it.typ == tyModuleBytes) = false by simpa using hty, Bool.false_eq_true, if_false]
  refine seqThen (a := (true, true)) (t := ⟨o, ep, it⟩) rfl ?_
  dsimp only
  unfold checkNewValidator
  rw [if_pos rfl, bind_run, lp_err (s := ⟨_, _, _⟩) h1]; rfl

include hf hok hn h in
/-- The lines of a call that is not a delegation: its amount, if it has one, and the hash of its arguments. -/
theorem otherLines_at (redel : Bool) (h1 : ∀ a, argNamed as b!"amount" = some a → a.ty.isMotes)
    (h2 : ∀ a, argNamed as b!"delegator" = some a → a.ty = .publicKey) (h3 : ∀ a, argNamed as b!"validator" = some a → a.ty = .publicKey)
    (hkind : it.special = 0 ∨ (argNamed as b!"amount" = none ∨ argNamed as b!"delegator" = none ∨ argNamed as b!"validator" = none)) :
    delegationLines e as.length redel ⟨o, ep, it⟩ = .ok () ⟨o, ep,
      { it with hasAmount := (argNamed as b!"amount").isSome, runtime := it.runtime + (1 + if (argNamed as b!"amount").isSome then 1 else 0), generic := 1, fixed := 2 }⟩ := by
  have hcount : ∀ name cond, (∀ a, argNamed as name = some a → cond a.ty.tag (a.ty.inner 255) = true) →
      countArg e as.length name cond o = .ok (if (argNamed as name).isSome then .found else .skip) o := by
    intro name cond hc
    cases ha : argNamed as name with
    | none => exact countArg_absent hf hok hn h ha
    | some a => exact countArg_found hf hok hn h ha (hc a ha)
  have c1 := hcount b!"amount" isAmount fun a ha => motes_ok (h1 a ha)
  have c2 := hcount b!"delegator" isPublicKey fun a ha => publicKey_ok (h2 a ha)
  have c3 := hcount b!"validator" isPublicKey fun a ha => publicKey_ok (h3 a ha)
  have hcheck : ∀ name cond, (∀ a, argNamed as name = some a → cond a.ty.tag (a.ty.inner 255) = true) →
      checkArg e as.length name cond o = if (argNamed as name).isSome then .ok () o else .err 27 o := by
    intro name cond hc
    cases ha : argNamed as name with
    | none => exact checkArg_absent hf hok hn h ha
    | some a => exact checkArg_found hf hok hn h ha (hc a ha)
  have d1 := hcheck b!"amount" isAmount fun a ha => motes_ok (h1 a ha)
  have d2 := hcheck b!"delegator" isPublicKey fun a ha => publicKey_ok (h2 a ha)
  have d3 := hcheck b!"validator" isPublicKey fun a ha => publicKey_ok (h3 a ha)
  have hstep : ∀ (k : Nat) (b : Bool), countStep k (if b then .found else .skip) = some (k + if b then 1 else 0) := by
    intro k b; cases b <;> rfl
  by_cases hall : (argNamed as b!"amount").isSome ∧ (argNamed as b!"delegator").isSome ∧ (argNamed as b!"validator").isSome
  · obtain ⟨a1, a2, a3⟩ := hall
    have h0' : it.special = 0 := by
      rcases hkind with h | h | h | h
      · exact h
      · rw [h] at a1; simp at a1
      · rw [h] at a2; simp at a2
      · rw [h] at a3; simp at a3
    rw [a1] at c1 d1 ⊢
    rw [a2] at c2 d2
    rw [a3] at c3 d3
    unfold delegationLines
    refine seqThen (a := .ok ()) (t := ⟨o, ep, { it with hasAmount := true, runtime := it.runtime + 2, generic := 1, fixed := 2 }⟩) ?_ rfl
    have : checkDelegationItems e as.length redel ⟨o, ep, it⟩ =
        .ok () ⟨o, ep, { it with hasAmount := true, runtime := it.runtime + 2, generic := 1, fixed := 2 }⟩ := by
      unfold checkDelegationItems
      refine lpThen c1 (modThen (lpThen c2 (lpThen c3 ?_)))
      refine lpThen d2 (lpThen d3 (lpThen d1 (getThen ?_)))
      dsimp only
      rw [if_pos h0']; rfl
    rw [attempt_run, this]
  · have herr : checkDelegationItems e as.length redel ⟨o, ep, it⟩ =
        .err 27 ⟨o, ep, { it with hasAmount := (argNamed as b!"amount").isSome }⟩ := by
      unfold checkDelegationItems
      refine lpThen c1 ?_
      rw [hstep]
      dsimp only
      refine modThen (lpThen c2 ?_)
      rw [hstep]
      dsimp only
      refine lpThen c3 ?_
      rw [hstep]
      have hb : (0 + (if (argNamed as b!"amount").isSome = true then 1 else 0) == 1) = (argNamed as b!"amount").isSome := by
        cases (argNamed as b!"amount").isSome <;> rfl
      dsimp only
      rw [hb]
      by_cases a2 : (argNamed as b!"delegator").isSome
      · rw [if_pos a2] at d2
        refine lpThen d2 ?_
        by_cases a3 : (argNamed as b!"validator").isSome
        · rw [if_pos a3] at d3
          have a1 : ¬ (argNamed as b!"amount").isSome := fun a1 => hall ⟨a1, a2, a3⟩
          rw [if_neg a1] at d1
          refine lpThen d3 ?_
          rw [bind_run, lp_err d1]; rfl
        · rw [if_neg a3] at d3
          rw [bind_run, lp_err d3]; rfl
      · rw [if_neg a2] at d2
        rw [bind_run, lp_err d2]; rfl
    unfold delegationLines
    refine seqThen (a := .error 27) (t := ⟨o, ep, { it with hasAmount := (argNamed as b!"amount").isSome }⟩) (by rw [attempt_run, herr]) ?_
    dsimp only
    rw [if_pos (.inl rfl)]
    cases ha : argNamed as b!"amount" with
    | none =>
      refine seqThen (a := .error 27) (t := ⟨o, ep, { it with hasAmount := false }⟩) ?_ rfl
      rw [attempt_run, lp_err (search_absent hf hok hn h ha)]; rfl
    | some a =>
      refine seqThen (a := .ok (a.ty.tag, a.ty.inner 255)) (t := ⟨o, ep, { it with hasAmount := true }⟩) ?_ rfl
      rw [attempt_run, lp_run (search_found hf hok hn h ha)]; rfl

include hf hok hn h hty in
theorem other_at {entry : Bytes} (hd : OtherArgs entry as) (hsp : it.special = entryKind entry 255) (h0 : (0 : UInt8) ∉ entry) :
    parseDelegation e as.length (decide (entry = b!"redelegate")) ⟨o, ep, it⟩ = .ok () ⟨o, ep,
      { it with hasAmount := (argNamed as b!"amount").isSome, runtime := it.runtime + (1 + if (argNamed as b!"amount").isSome then 1 else 0), generic := 1, fixed := if e.expert then 3 + it.ver else 2 }⟩ := by
  have hkind : it.special = 0 ∨ (argNamed as b!"amount" = none ∨ argNamed as b!"delegator" = none ∨ argNamed as b!"validator" = none) := by
    unfold entryKind at hsp
    rw [cstr_eq h0] at hsp
    by_cases h1 : entry = b!"delegate"
    · exact .inr (hd.missing (.inl h1))
    by_cases h2 : entry = b!"undelegate"
    · exact .inr (hd.missing (.inr (.inl h2)))
    by_cases h3 : entry = b!"redelegate"
    · exact .inr (hd.missing (.inr (.inr h3)))
    rw [if_neg h1, if_neg h2, if_neg h3, if_pos rfl] at hsp
    exact .inl hsp
  unfold parseDelegation
  refine getThen ?_
  simp only [show (it.typ == tyModuleBytes) = false by simpa using hty, Bool.false_eq_true, if_false]
  refine seqThen (a := (decide (entry = b!"redelegate"), true)) (t := ⟨o, ep, it⟩) rfl ?_
  dsimp only
  refine seqThen (a := ()) (t := ⟨o, ep, it⟩) ?_ ?_
  · unfold checkNewValidator
    by_cases hr : entry = b!"redelegate"
    · obtain ⟨nv, nv1, nv2⟩ := hd.new hr
      rw [if_pos (by simpa using hr)]
      exact lp_run (checkArg_found hf hok hn h nv1 (publicKey_ok nv2))
    · rw [if_neg (by simpa using hr)]; rfl
  refine seqThen (a := ()) (t := ⟨o, ep, { it with hasAmount := (argNamed as b!"amount").isSome, runtime := it.runtime + (1 + if (argNamed as b!"amount").isSome then 1 else 0), generic := 1, fixed := 2 }⟩) ?_ ?_
  · exact otherLines_at hf hok hn h _ hd.amount hd.delegator hd.validator hkind
  · unfold finishDelegation
    refine modThen ?_
    dsimp only
    rw [ite_self]
    cases e.expert with
    | false => rfl
    | true =>
      simp only [Bool.and_true, if_true]
      show Res.ok _ _ = _
      simp [Item.ver]; omega

end

section
variable {e : Env} {off : Nat} {b : Bool} {x : Bytes} {v : Option (Option Nat)} {entry : Bytes} {as : List Arg}
  (hf : Fits e) (hk : StoredOk b x v entry as) (h : At e.buf off (storedCall b x v entry as).encode)

include hf hk h in
theorem entryPoint_at (hs : entry.length ≤ 99) (t : Nat) : ∃ c, renderEntryPoint e (off + headLen b x v) t = .ok (b!"Entry-point", entry) c := by
  have ly := stored_layout h
  unfold renderEntryPoint
  refine exThen (get_run _) (exThen (a := ()) (t := off + headLen b x v) rfl (exThen (copyItem_at hf ly.start hk.short) (exThen (a := ()) (t := t) rfl ?_)))
  refine exThen (a := entry) (t := t) ?_ ⟨_, rfl⟩
  unfold showArray
  rw [if_pos (.inl (by omega)), cstr_eq hk.entry0]; rfl

/-- The lines shown first. -/
def callHead (H : Bytes → Bytes) (expert b : Bool) (x : Bytes) (v : Option (Option Nat)) (entry : Bytes) : List (Bytes × Bytes) :=
  storedLines H expert b x v ++ if expert then [(b!"Entry-point", entry)] else []

include hf hk h in
theorem stored_fixed {it : Item} (htyp : it.typ = (storedCall b x v entry []).tag) (hshow : (e.expert || it.fixed != 3) = true)
    (hnm : b = false → x.length ≤ 299 ∧ (0 : UInt8) ∉ x) (hs : e.expert = true → entry.length ≤ 99) {i : Nat} {kv : Bytes × Bytes}
    (hi : (callHead e.blake e.expert b x v entry)[i]? = some kv) :
    ∃ c, fixedDelegation e (off + headLen b x v) it i (off + 1) = .ok kv c := by
  have ly := stored_layout h
  have hle := ly.le
  have hhead := ly.head
  have hver := ly.version
  have hstart := ly.start
  have hf' := hf
  unfold Fits at hf'
  have hent := entryPoint_at hf hk h
  unfold fixedDelegation
  rw [htyp, hshow]
  unfold callHead storedLines at hi
  cases b with
  | true =>
    have h32 := hk.hash rfl
    simp only [if_true, List.append_nil] at hhead
    cases v with
    | none =>
      rw [show (storedCall true x none entry []).tag = 1 from rfl, if_neg (by decide), if_pos rfl]
      have hl : headLen true x none = 33 := by simp [headLen, h32]
      rw [hl] at hent hstart hle ⊢
      unfold fixedByHash
      match i, hi with
      | 0, hi => cases hi; exact ⟨_, rfl⟩
      | 1, hi =>
        cases hi
        rw [if_neg (by decide), if_pos (by decide)]
        have := printBytes_at (s := off + 1) hhead (by omega)
        rw [h32] at this
        exact exThen (get_run _) (exThen this ⟨_, rfl⟩)
      | i + 2, hi =>
        cases hx : e.expert with
        | false => rw [hx] at hi; simp at hi
        | true =>
          rw [hx] at hi
          cases i with
          | succ i => simp at hi
          | zero =>
            cases hi
            rw [if_neg (by simp), if_neg (by simp)]
            refine exThen (skip_run (by omega)) ?_
            rw [if_neg (by decide)]
            refine exThen (parseItem_at hf hstart) ?_
            rw [if_pos (by simp)]
            exact hent (hs hx) _
    | some w =>
      rw [show (storedCall true x (some w) entry []).tag = 3 from rfl, if_neg (by decide), if_neg (by decide), if_pos rfl]
      have hl : headLen true x (some w) = 33 + (optional (le 4) w).length := by simp [headLen, h32]
      rw [hl] at hent hstart hle ⊢
      simp only [if_true, h32] at hver
      have hpv := parseVersion_at (fun n hn => hk.ver n (by rw [hn])) hver
      unfold fixedByHash
      match i, hi with
      | 0, hi => cases hi; exact ⟨_, rfl⟩
      | 1, hi =>
        cases hi
        rw [if_neg (by decide), if_pos (by decide)]
        have := printBytes_at (s := off + 1) hhead (by omega)
        rw [h32] at this
        exact exThen (get_run _) (exThen this ⟨_, rfl⟩)
      | i + 2, hi =>
        cases hx : e.expert with
        | false => rw [hx] at hi; simp at hi
        | true =>
          rw [hx] at hi
          rw [if_neg (by simp), if_neg (by simp)]
          refine exThen (skip_run (by omega)) ?_
          rw [if_pos rfl]
          refine exThen hpv ?_
          match i, hi with
          | 0, hi => cases hi; rw [if_pos (by simp), decimal_eq]; exact ⟨_, rfl⟩
          | 1, hi =>
            cases hi
            rw [if_neg (by simp)]
            refine exThen (parseItem_at hf (hstart.cast (by omega))) ?_
            rw [if_pos (by simp)]
            exact hent (hs hx) _
          | i + 2, hi => simp at hi
  | false =>
    obtain ⟨hx1, hx2⟩ := hnm rfl
    simp only [Bool.false_eq_true, if_false] at hhead hver
    cases v with
    | none =>
      rw [show (storedCall false x none entry []).tag = 2 from rfl, if_neg (by decide), if_neg (by decide), if_neg (by decide), if_pos rfl]
      have hl : headLen false x none = 1 + 4 + x.length := by simp [headLen]; omega
      rw [hl] at hent hstart hle ⊢
      unfold fixedByName
      match i, hi with
      | 0, hi => cases hi; exact ⟨_, rfl⟩
      | 1, hi =>
        cases hi
        rw [if_neg (by decide), if_pos (by decide)]
        refine exThen (copyItem_at hf hhead (by omega)) (exThen (a := x) (t := off + 1 + 4 + x.length) ?_ ⟨_, rfl⟩)
        unfold showArray
        rw [if_pos (.inl (by omega)), cstr_eq hx2]; rfl
      | i + 2, hi =>
        cases hx : e.expert with
        | false => rw [hx] at hi; simp at hi
        | true =>
          rw [hx] at hi
          cases i with
          | succ i => simp at hi
          | zero =>
            cases hi
            rw [if_neg (by simp), if_neg (by simp)]
            refine exThen (parseItem_at hf hhead) ?_
            rw [if_neg (by decide)]
            refine exThen (parseItem_at hf (hstart.cast (by omega))) ?_
            rw [if_pos (by simp)]
            exact hent (hs hx) _
    | some w =>
      rw [show (storedCall false x (some w) entry []).tag = 4 from rfl, if_neg (by decide), if_neg (by decide), if_neg (by decide), if_neg (by decide), if_pos rfl]
      have hl : headLen false x (some w) = 1 + 4 + x.length + (optional (le 4) w).length := by simp [headLen]; omega
      rw [hl] at hent hstart hle ⊢
      rw [pfx_length] at hver
      have hpv := parseVersion_at (fun n hn => hk.ver n (by rw [hn])) (hver.cast (show off + 1 + 4 + x.length = off + 1 + (4 + x.length) by omega))
      unfold fixedByName
      match i, hi with
      | 0, hi => cases hi; exact ⟨_, rfl⟩
      | 1, hi =>
        cases hi
        rw [if_neg (by decide), if_pos (by decide)]
        refine exThen (copyItem_at hf hhead (by omega)) (exThen (a := x) (t := off + 1 + 4 + x.length) ?_ ⟨_, rfl⟩)
        unfold showArray
        rw [if_pos (.inl (by omega)), cstr_eq hx2]; rfl
      | i + 2, hi =>
        cases hx : e.expert with
        | false => rw [hx] at hi; simp at hi
        | true =>
          rw [hx] at hi
          rw [if_neg (by simp), if_neg (by simp)]
          refine exThen (parseItem_at hf hhead) ?_
          rw [if_pos rfl]
          refine exThen hpv ?_
          match i, hi with
          | 0, hi => cases hi; rw [if_pos (by simp), decimal_eq]; exact ⟨_, rfl⟩
          | 1, hi =>
            cases hi
            rw [if_neg (by simp)]
            refine exThen (parseItem_at hf (hstart.cast (by omega))) ?_
            rw [if_pos (by simp)]
            exact hent (hs hx) _
          | i + 2, hi => simp at hi

theorem storedTag (entry : Bytes) : (storedCall b x v entry []).tag = if b then (if v.isSome then 3 else 1) else (if v.isSome then 4 else 2) := by
  cases b <;> cases v <;> rfl

theorem storedStart_ver (ex : Bool) (off : Nat) : (storedStart ex b x v entry off).ver = if v.isSome then 1 else 0 := by
  cases b <;> cases v <;> rfl

theorem storedLines_length (H : Bytes → Bytes) (ex : Bool) : (storedLines H ex b x v).length = 2 + if ex ∧ v.isSome then 1 else 0 := by
  cases v <;> cases ex <;> rfl

/-- What a call that is not a delegation is read as. -/
def otherView (ex b : Bool) (x : Bytes) (v : Option (Option Nat)) (entry : Bytes) (as : List Arg) (off : Nat) : Item :=
  { storedStart ex b x v entry off with
    hasAmount := (argNamed as b!"amount").isSome, runtime := 1 + (if (argNamed as b!"amount").isSome then 1 else 0), generic := 1,
    fixed := if ex then 3 + (if v.isSome then 1 else 0) else 2, total := (storedCall b x v entry as).encode.length }

/-- What a delegation is read as. -/
def delegationView (ex b : Bool) (x : Bytes) (v : Option (Option Nat)) (entry : Bytes) (as : List Arg) (off : Nat) : Item :=
  { storedStart ex b x v entry off with
    hasAmount := true, runtime := if entry = b!"redelegate" then 4 else 3,
    fixed := if ex then 2 + (if v.isSome then 1 else 0) else 0, total := (storedCall b x v entry as).encode.length }

/-- The arguments part of a call that is not a delegation: its amount, if it has one, and the hash of all arguments. -/
def otherLines (H : Bytes → Bytes) (as : List Arg) (amount : List (Bytes × Bytes)) : List (Bytes × Bytes) :=
  amount ++ [(b!"Args hash", argsHashText H as)]

include hf hk h in
theorem other_session (ha : OtherArgs entry as) (hnm : b = false → x.length ≤ 299 ∧ (0 : UInt8) ∉ x) (hs : e.expert = true → entry.length ≤ 99)
    {amount : List (Bytes × Bytes)}
    (ham : List.Forall₂ (ArgLine.Renders e.blake as) (if (argNamed as b!"amount").isSome then [⟨b!"Amount", b!"amount", true⟩] else []) amount) :
    SessionAt e off (storedCall b x v entry as) (off + headLen b x v) (otherView e.expert b x v entry as off)
      (callHead e.blake e.expert b x v entry ++ otherLines e.blake as amount) := by
  have ly := stored_layout h
  have hle := ly.le
  have hf' := hf
  unfold Fits at hf'
  have hal := ham.length_eq
  have hcl : (callHead e.blake e.expert b x v entry).length = (otherView e.expert b x v entry as off).fixed := by
    unfold callHead
    rw [List.length_append, storedLines_length]
    show _ = if e.expert then 3 + (if v.isSome then 1 else 0) else 2
    cases e.expert <;> cases v <;> rfl
  have hrl : (otherLines e.blake as amount).length = (otherView e.expert b x v entry as off).runtime := by
    unfold otherLines
    rw [List.length_append, ← hal]
    show _ = 1 + (if (argNamed as b!"amount").isSome then 1 else 0)
    split <;> rfl
  have hst : storedStart e.expert b x v entry off = storedStart e.expert b x v entry off := rfl
  have hty : (storedStart e.expert b x v entry off).typ ≠ 0 := by
    show (storedCall b x v entry []).tag ≠ 0
    rw [storedTag]; cases b <;> cases v <;> simp
  have hpd := other_at (ep := off + headLen b x v) hf hk.ok hk.names ly.args hty ha rfl hk.entry0
  rw [storedStart_ver] at hpd
  have hfew1 : (callHead e.blake e.expert b x v entry).length ≤ 4 := by
    rw [hcl]; show (if e.expert then 3 + (if v.isSome then 1 else 0) else 2) ≤ 4
    split <;> try split
    all_goals omega
  have hfew2 : (otherLines e.blake as amount).length ≤ 2 := by
    rw [hrl]; show 1 + (if (argNamed as b!"amount").isSome then 1 else 0) ≤ 2
    split <;> omega
  refine ⟨?_, rfl, by rw [List.length_append, hcl, hrl], by rw [List.length_append]; omega, fun i kv hi => ?_⟩
  · have := stored_parse hf hk h hpd
    rw [this 0]
    simp only [otherView]
    rw [show (storedStart e.expert b x v entry off).runtime = 0 from rfl, Nat.zero_add]
  · unfold sessionLine
    have hsp : ∀ n, entryKind n 255 = 3 ∨ entryKind n 255 = 4 ∨ entryKind n 255 = 5 ∨ entryKind n 255 = 0 := by
      intro n
      unfold entryKind
      by_cases h1 : cstr n = b!"delegate"
      · rw [if_pos h1]; exact .inl rfl
      by_cases h2 : cstr n = b!"undelegate"
      · rw [if_neg h1, if_pos h2]; exact .inr (.inl rfl)
      by_cases h3 : cstr n = b!"redelegate"
      · rw [if_neg h1, if_neg h2, if_pos h3]; exact .inr (.inr (.inl rfl))
      rw [if_neg h1, if_neg h2, if_neg h3, if_pos rfl]; exact .inr (.inr (.inr rfl))
    have hsp' : (otherView e.expert b x v entry as off).special = entryKind entry 255 := rfl
    rw [hsp', if_neg (by show ¬ entryKind entry 255 = 2; rcases hsp entry with h | h | h | h <;> rw [h] <;> decide), if_pos (hsp entry)]
    unfold itemDelegation
    refine exThen (skip_run (by omega)) ?_
    by_cases hlt : i < (otherView e.expert b x v entry as off).fixed
    · rw [if_pos hlt]
      rw [List.getElem?_append_left (by omega)] at hi
      refine stored_fixed hf hk h rfl ?_ hnm hs hi
      show (e.expert || (if e.expert then 3 + (if v.isSome then 1 else 0) else 2) != 3) = true
      cases e.expert <;> simp
    · rw [if_neg hlt]
      rw [List.getElem?_append_right (by omega), hcl] at hi
      have hilt := (List.getElem?_eq_some_iff.1 hi).1
      rw [hrl] at hilt
      have hio : (otherView e.expert b x v entry as off).itemOffset = off + headLen b x v + 4 + entry.length := rfl
      have hcount := encodeArgs_count as
      refine exThen (a := ()) (t := off + headLen b x v + 4 + entry.length) (by
        show Res.ok () (u16 _) = _
        rw [hio, u16_id (by omega)]) ?_
      rw [if_neg (by omega), if_pos (by show (1 : Nat) ≠ 0; decide)]
      refine exThen (readLE_at ly.count (by omega)) ?_
      have hhash : ∃ c, (do
          parseArgs e as.length
          let stop ← M.get
          let xs ← slice e (u16 (otherView e.expert b x v entry as off).itemOffset)
            (u32 (stop + 4294967296 - (otherView e.expert b x v entry as off).itemOffset))
          pure (b!"Args hash", b!"execution" ++ b!"-" ++ encodeHex (e.blake xs)) : P (Bytes × Bytes)) (off + headLen b x v + 4 + entry.length + 4) =
          .ok (b!"Args hash", argsHashText e.blake as) c := by
        refine exThen (parseArgs_at hf hk.ok ly.args) (exThen (get_run _) ?_)
        rw [hio, u16_id (by omega)]
        refine exThen (slice_at (xs := encodeRuntimeArgs as) ly.start.pfx.2 ?_) ?_
        · unfold encodeRuntimeArgs u32
          rw [List.length_append, le_length]; omega
        · rw [(C20_hash_hex _ []).1]; exact ⟨_, rfl⟩
      generalize hj : i - (otherView e.expert b x v entry as off).fixed = j at hi hilt ⊢
      have hrt : (otherView e.expert b x v entry as off).runtime = 1 + (if (argNamed as b!"amount").isSome then 1 else 0) := rfl
      unfold otherLines at hi
      rw [hrt] at hilt ⊢
      split at ham
      · rename_i hsome
        simp only [hsome, if_true] at hilt ⊢
        cases ham with
        | cons a1 a2 =>
          cases a2
          match j, hilt with
          | 0, _ =>
            cases hi
            rw [if_pos (by simp)]
            exact renderLine_at hf hk.ok hk.names a1 ly.args
          | 1, _ =>
            cases hi
            rw [if_neg (by decide), if_pos (by simp)]
            exact hhash
      · rename_i hsome
        simp only [hsome, Bool.false_eq_true, if_false] at hilt ⊢
        cases ham
        have : j = 0 := by omega
        subst this
        cases hi
        rw [if_neg (by decide), if_pos (.inl rfl)]
        exact hhash

include hf hk h in
theorem delegation_parse (hop : entry = b!"delegate" ∨ entry = b!"undelegate" ∨ entry = b!"redelegate")
    (hd : DelegateNames (decide (entry = b!"redelegate")) as) (ep : Nat) :
    parseDeployItem e false ⟨off + 1, ep, { typ := (storedCall b x v entry as).tag }⟩ =
      .ok () ⟨off + (storedCall b x v entry as).encode.length, off + headLen b x v, delegationView e.expert b x v entry as off⟩ := by
  have ly := stored_layout h
  have hty : (storedStart e.expert b x v entry off).typ ≠ 0 := by
    show (storedCall b x v entry []).tag ≠ 0
    rw [storedTag]; cases b <;> cases v <;> simp
  have hpd := delegation_at (it := storedStart e.expert b x v entry off) (ep := off + headLen b x v) hf hk.ok hk.names ly.args hty hd
    (by show entryKind entry 255 ≠ 0; rcases hop with rfl | rfl | rfl <;> decide) rfl
  rw [storedStart_ver] at hpd
  rw [stored_parse hf hk h hpd]
  simp only [delegationView, decide_eq_true_eq]
  rw [show (storedStart e.expert b x v entry off).runtime = 0 from rfl, Nat.zero_add]
  cases e.expert with
  | true => rfl
  | false => simp [storedStart]

include hf hk h in
/-- Redelegations without a new validator are refused. -/
theorem redelegate_refused (hr : entry = b!"redelegate") (hd : ¬ ∃ a, argNamed as b!"new_validator" = some a ∧ a.ty = .publicKey) (ep : Nat) (q : IS) :
    parseDeployItem e false ⟨off + 1, ep, { typ := (storedCall b x v entry as).tag }⟩ ≠ .ok () q := by
  have ly := stored_layout h
  have hty : (storedStart e.expert b x v entry off).typ ≠ 0 := by
    show (storedCall b x v entry []).tag ≠ 0
    rw [storedTag]; cases b <;> cases v <;> simp
  obtain ⟨c, t, hq⟩ := noNew_at (it := storedStart e.expert b x v entry off) (ep := off + headLen b x v) hf hk.ok hk.names ly.args hty hd
  rw [stored_parse_bind hf hk h, show decide (entry = b!"redelegate") = true by simpa using hr, hq]
  intro hc
  cases hc

include hf hk h in
/-- The lines of a delegation are looked for among its first arguments only. -/
theorem delegation_line_absent {op : Nat} (hop : op = 5 ∧ entry = b!"delegate" ∨ op = 6 ∧ entry = b!"undelegate" ∨ op = 7 ∧ entry = b!"redelegate")
    {j : Nat} {l : ArgLine} (hl : (opLines e.expert as op)[j]? = some l) (hcount : (if op = 7 then 4 else 3) ≤ as.length)
    (habs : ∀ a ∈ as.take (if op = 7 then 4 else 3), a.name ≠ l.name) (kv : Bytes × Bytes) (c : Nat) :
    sessionLine e (off + headLen b x v) (delegationView e.expert b x v entry as off) ((delegationView e.expert b x v entry as off).fixed + j) off ≠ .ok kv c := by
  have ly := stored_layout h
  have hle := ly.le
  have hf' := hf
  unfold Fits at hf'
  have hkind : entryKind entry 255 = op - 2 := by rcases hop with ⟨rfl, rfl⟩ | ⟨rfl, rfl⟩ | ⟨rfl, rfl⟩ <;> decide
  have hop3 : op = 5 ∨ op = 6 ∨ op = 7 := by omega
  have hrt : (delegationView e.expert b x v entry as off).runtime = if op = 7 then 4 else 3 := by
    show (if entry = b!"redelegate" then 4 else 3) = _
    rcases hop with ⟨rfl, rfl⟩ | ⟨rfl, rfl⟩ | ⟨rfl, rfl⟩ <;> rfl
  have hjl : j < (if op = 7 then 4 else 3) := by
    have := (List.getElem?_eq_some_iff.1 hl).1
    have hol : (opLines e.expert as op).length = if op = 7 then 4 else 3 := by rcases hop3 with rfl | rfl | rfl <;> rfl
    omega
  have hty : (storedStart e.expert b x v entry off).typ ≠ 0 := by
    show (storedCall b x v entry []).tag ≠ 0
    rw [storedTag]; cases b <;> cases v <;> simp
  have hnone := getData_none (name := l.name) (k := if op = 7 then 4 else 3) hf hk.ok
    (fun y hy => by rw [cstr_eq (hk.names y (List.mem_of_mem_take hy))]; exact habs y hy) hcount ly.args
  obtain ⟨t, hshow⟩ : ∃ t, (if l.motes then showMotes e l.label l.name (if op = 7 then 4 else 3) else showArg e l.label l.name (if op = 7 then 4 else 3))
      (off + headLen b x v + 4 + entry.length + 4) = .err 1 t := by
    split
    · exact ⟨_, by unfold showMotes; rw [bind_run, hnone]; rfl⟩
    · exact ⟨_, by unfold showArg; rw [bind_run, hnone]; rfl⟩
  suffices hs : sessionLine e (off + headLen b x v) (delegationView e.expert b x v entry as off) ((delegationView e.expert b x v entry as off).fixed + j) off = .err 1 t by
    rw [hs]; intro hc; cases hc
  unfold sessionLine
  have hsp' : (delegationView e.expert b x v entry as off).special = op - 2 := hkind
  rw [hsp', if_neg (by show ¬ op - 2 = 2; omega), if_pos (by show op - 2 = 3 ∨ op - 2 = 4 ∨ op - 2 = 5 ∨ op - 2 = 0; omega)]
  unfold itemDelegation
  refine seqThen (skip_run (by omega)) ?_
  rw [if_neg (by omega)]
  have hio : (delegationView e.expert b x v entry as off).itemOffset = off + headLen b x v + 4 + entry.length := rfl
  have hcnt := encodeArgs_count as
  refine seqThen (a := ()) (t := off + headLen b x v + 4 + entry.length) (by
    show Res.ok () (u16 _) = _
    rw [hio, u16_id (by omega)]) ?_
  rw [Nat.add_sub_cancel_left, hrt, if_neg (by omega), if_neg (by show ¬ (0 : Nat) ≠ 0; decide)]
  refine seqThen (a := ()) (t := off + headLen b x v + 4 + entry.length + 4) ?_ ?_
  · rw [if_pos (by exact hty)]
    exact seqThen (readLE_at ly.count (by omega)) rfl
  rcases hop3 with rfl | rfl | rfl
  · simp only [hsp', show ¬ (5 : Nat) - 2 = spReDelegate by decide, if_false]
    match j, hjl with
    | 0, _ => cases hl; exact hshow
    | 1, _ => cases hl; exact hshow
    | 2, _ => cases hl; exact hshow
  · simp only [hsp', show ¬ (6 : Nat) - 2 = spReDelegate by decide, if_false]
    match j, hjl with
    | 0, _ => cases hl; exact hshow
    | 1, _ => cases hl; exact hshow
    | 2, _ => cases hl; exact hshow
  · simp only [hsp', show (7 : Nat) - 2 = spReDelegate by decide, if_true]
    match j, hjl with
    | 0, _ => cases hl; exact hshow
    | 1, _ => cases hl; exact hshow
    | 2, _ => cases hl; exact hshow
    | 3, _ => cases hl; exact hshow

include hf hk h in
theorem delegation_session {op : Nat} (hop : op = 5 ∧ entry = b!"delegate" ∨ op = 6 ∧ entry = b!"undelegate" ∨ op = 7 ∧ entry = b!"redelegate")
    (hd : DelegateNames (decide (entry = b!"redelegate")) as) (hnm : e.expert = true → b = false → x.length ≤ 299 ∧ (0 : UInt8) ∉ x)
    {front more : List Arg} (has : as = front ++ more) (hfl : front.length = if entry = b!"redelegate" then 4 else 3)
    {lines : List (Bytes × Bytes)} (hl : List.Forall₂ (ArgLine.Renders e.blake front) (opLines e.expert front op) lines) :
    SessionAt e off (storedCall b x v entry as) (off + headLen b x v) (delegationView e.expert b x v entry as off)
      ((if e.expert then storedLines e.blake true b x v else []) ++ lines) := by
  have ly := stored_layout h
  have hle := ly.le
  have hf' := hf
  unfold Fits at hf'
  have hal := hl.length_eq
  have hs : entry.length ≤ 99 := by rcases hop with ⟨-, rfl⟩ | ⟨-, rfl⟩ | ⟨-, rfl⟩ <;> decide
  have hkind : entryKind entry 255 = op - 2 := by rcases hop with ⟨rfl, rfl⟩ | ⟨rfl, rfl⟩ | ⟨rfl, rfl⟩ <;> decide
  have hop3 : op = 5 ∨ op = 6 ∨ op = 7 := by omega
  have hred : decide (entry = b!"redelegate") = decide (op = 7) := by rcases hop with ⟨rfl, rfl⟩ | ⟨rfl, rfl⟩ | ⟨rfl, rfl⟩ <;> decide
  have hcl : (if e.expert then storedLines e.blake true b x v else []).length = (delegationView e.expert b x v entry as off).fixed := by
    show _ = if e.expert then 2 + (if v.isSome then 1 else 0) else 0
    cases e.expert
    · rfl
    · rw [if_pos rfl, if_pos rfl, storedLines_length]; simp
  have hrt : (delegationView e.expert b x v entry as off).runtime = if op = 7 then 4 else 3 := by
    show (if entry = b!"redelegate" then 4 else 3) = _
    rcases hop with ⟨rfl, rfl⟩ | ⟨rfl, rfl⟩ | ⟨rfl, rfl⟩ <;> rfl
  have hrl : lines.length = (delegationView e.expert b x v entry as off).runtime := by
    rw [← hal, hrt]
    rcases hop3 with rfl | rfl | rfl <;> rfl
  have hty : (storedStart e.expert b x v entry off).typ ≠ 0 := by
    show (storedCall b x v entry []).tag ≠ 0
    rw [storedTag]; cases b <;> cases v <;> simp
  have hfew1 : (if e.expert then storedLines e.blake true b x v else []).length ≤ 3 := by
    rw [hcl]; show (if e.expert then 2 + (if v.isSome then 1 else 0) else 0) ≤ 3
    split <;> try split
    all_goals omega
  refine ⟨?_, rfl, by rw [List.length_append, hcl, hrl], by
    have : (if op = 7 then 4 else 3) ≤ 4 := by split <;> omega
    rw [List.length_append, hrl, hrt]; omega, fun i kv hi => ?_⟩
  · exact delegation_parse hf hk h (by rcases hop with ⟨-, h⟩ | ⟨-, h⟩ | ⟨-, h⟩ <;> simp [h]) hd 0
  · unfold sessionLine
    have hsp' : (delegationView e.expert b x v entry as off).special = op - 2 := hkind
    rw [hsp', if_neg (by show ¬ op - 2 = 2; omega), if_pos (by show op - 2 = 3 ∨ op - 2 = 4 ∨ op - 2 = 5 ∨ op - 2 = 0; omega)]
    unfold itemDelegation
    refine exThen (skip_run (by omega)) ?_
    by_cases hlt : i < (delegationView e.expert b x v entry as off).fixed
    · rw [if_pos hlt]
      rw [List.getElem?_append_left (by omega)] at hi
      cases hx : e.expert with
      | false => rw [hx] at hi; simp at hi
      | true =>
        rw [hx, if_pos rfl] at hi
        refine stored_fixed hf hk h rfl (by rw [hx]; rfl) (hnm hx) (fun _ => hs) ?_
        unfold callHead
        rw [hx, List.getElem?_append_left (List.getElem?_eq_some_iff.1 hi).1]
        exact hi
    · rw [if_neg hlt]
      rw [List.getElem?_append_right (by omega), hcl] at hi
      have hilt := (List.getElem?_eq_some_iff.1 hi).1
      rw [hrl] at hilt
      have hio : (delegationView e.expert b x v entry as off).itemOffset = off + headLen b x v + 4 + entry.length := rfl
      have hcount := encodeArgs_count as
      refine exThen (a := ()) (t := off + headLen b x v + 4 + entry.length) (by
        show Res.ok () (u16 _) = _
        rw [hio, u16_id (by omega)]) ?_
      rw [if_neg (by omega), if_neg (by show ¬ (0 : Nat) ≠ 0; decide)]
      refine exThen (a := ()) (t := off + headLen b x v + 4 + entry.length + 4) ?_ ?_
      · rw [if_pos (by exact hty)]
        exact seqThen (readLE_at ly.count (by omega)) rfl
      generalize hj : i - (delegationView e.expert b x v entry as off).fixed = j at hi hilt ⊢
      obtain ⟨l, hx, hsh⟩ := forall₂_get hl hi
      have hfr := ly.args
      rw [has, encodeArgs_append, At.append] at hfr
      have key := renderLine_at hf (fun a ha => hk.ok a (by simp [has, ha])) (fun a ha => hk.names a (by simp [has, ha])) hsh hfr.1
      rw [show front.length = (delegationView e.expert b x v entry as off).runtime from hfl] at key
      rw [hrt] at hilt
      rcases hop3 with rfl | rfl | rfl
      · simp only [hsp', show ¬ (5 : Nat) - 2 = spReDelegate by decide, if_false]
        match j, hilt with
        | 0, _ => cases hx; exact key
        | 1, _ => cases hx; exact key
        | 2, _ => cases hx; exact key
      · simp only [hsp', show ¬ (6 : Nat) - 2 = spReDelegate by decide, if_false]
        match j, hilt with
        | 0, _ => cases hx; exact key
        | 1, _ => cases hx; exact key
        | 2, _ => cases hx; exact key
      · simp only [hsp', show (7 : Nat) - 2 = spReDelegate by decide, if_true]
        match j, hilt with
        | 0, _ => cases hx; exact key
        | 1, _ => cases hx; exact key
        | 2, _ => cases hx; exact key
        | 3, _ => cases hx; exact key

/-- The operations with a name of their own. -/
def namedOp (entry : Bytes) : Bool := entry = b!"delegate" ∨ entry = b!"undelegate" ∨ entry = b!"redelegate"

/-- What a call with an argument of an unexpected type is read as. -/
def hiddenView (ex b : Bool) (x : Bytes) (v : Option (Option Nat)) (entry : Bytes) (as : List Arg) (off : Nat) : Item :=
  { storedStart ex b x v entry off with
    hasAmount := hasMotes as,
    generic := if namedOp entry then 0 else 1,
    fixed := if ex then 2 + (if v.isSome then 1 else 0) + (if namedOp entry then 0 else 1) else 0,
    total := (storedCall b x v entry as).encode.length }

include hf hk h in
theorem hidden_session (hw : WrongArgs as)
    (hd : entry = b!"redelegate" → ∃ a, argNamed as b!"new_validator" = some a ∧ a.ty = .publicKey)
    (hnm : e.expert = true → b = false → x.length ≤ 299 ∧ (0 : UInt8) ∉ x) (hs : e.expert = true → entry.length ≤ 99) :
    SessionAt e off (storedCall b x v entry as) (off + headLen b x v) (hiddenView e.expert b x v entry as off)
      (if e.expert then storedLines e.blake true b x v ++ (if namedOp entry then [] else [(b!"Entry-point", entry)]) else []) := by
  have ly := stored_layout h
  have hle := ly.le
  have hf' := hf
  unfold Fits at hf'
  have hkind : entryKind entry 255 = 0 ↔ namedOp entry = false := by
    unfold entryKind namedOp
    rw [cstr_eq hk.entry0]
    by_cases h1 : entry = b!"delegate"
    · simp [h1]
    by_cases h2 : entry = b!"undelegate"
    · simp [h2]
    by_cases h3 : entry = b!"redelegate"
    · simp [h3]
    rw [if_neg h1, if_neg h2, if_neg h3, if_pos rfl]
    simp [h1, h2, h3]
  have hcl : (if e.expert then storedLines e.blake true b x v ++ (if namedOp entry then [] else [(b!"Entry-point", entry)]) else []).length =
      (hiddenView e.expert b x v entry as off).fixed := by
    show _ = if e.expert then 2 + (if v.isSome then 1 else 0) + (if namedOp entry then 0 else 1) else 0
    cases e.expert
    · rfl
    · rw [if_pos rfl, if_pos rfl, List.length_append, storedLines_length]
      cases namedOp entry <;> simp
  have hty : (storedStart e.expert b x v entry off).typ ≠ 0 := by
    show (storedCall b x v entry []).tag ≠ 0
    rw [storedTag]; cases b <;> cases v <;> simp
  have hpd := hidden_at (it := storedStart e.expert b x v entry off) (ep := off + headLen b x v) hf hk.ok hk.names ly.args hty hw rfl hd
  rw [storedStart_ver] at hpd
  have hg : (storedStart e.expert b x v entry off).generic = 0 := rfl
  have hsp : (storedStart e.expert b x v entry off).special = entryKind entry 255 := rfl
  rw [hg, hsp] at hpd
  refine ⟨?_, rfl, by rw [hcl]; rfl, ?_, fun i kv hi => ?_⟩
  · rw [stored_parse hf hk h hpd]
    unfold hiddenView
    have hfx : e.expert = false → (storedStart e.expert b x v entry off).fixed = 0 := by
      intro hx; show (if v.isSome ∧ e.expert then 1 else 0) = 0; rw [hx]; simp
    cases hno : namedOp entry with
    | true =>
      have : ¬ entryKind entry 255 = 0 := by rw [hkind, hno]; decide
      cases hx : e.expert with
      | true => simp [this, storedStart]
      | false => simp [this, storedStart]
    | false =>
      have : entryKind entry 255 = 0 := hkind.2 hno
      cases hx : e.expert with
      | true => simp [this, storedStart]
      | false => simp [this, storedStart]
  · rw [hcl]
    show (if e.expert then 2 + (if v.isSome then 1 else 0) + (if namedOp entry then 0 else 1) else 0) ≤ 100
    split <;> try split
    all_goals try split
    all_goals omega
  · have hilt := (List.getElem?_eq_some_iff.1 hi).1
    rw [hcl] at hilt
    cases hx : e.expert with
    | false => rw [hx] at hi; simp at hi
    | true =>
      unfold sessionLine
      have hk4 : entryKind entry 255 = 3 ∨ entryKind entry 255 = 4 ∨ entryKind entry 255 = 5 ∨ entryKind entry 255 = 0 := by
        unfold entryKind
        by_cases h1 : cstr entry = b!"delegate"
        · rw [if_pos h1]; exact .inl rfl
        by_cases h2 : cstr entry = b!"undelegate"
        · rw [if_neg h1, if_pos h2]; exact .inr (.inl rfl)
        by_cases h3 : cstr entry = b!"redelegate"
        · rw [if_neg h1, if_neg h2, if_pos h3]; exact .inr (.inr (.inl rfl))
        rw [if_neg h1, if_neg h2, if_neg h3, if_pos rfl]; exact .inr (.inr (.inr rfl))
      have hsp' : (hiddenView true b x v entry as off).special = entryKind entry 255 := rfl
      rw [hsp', if_neg (by show ¬ entryKind entry 255 = 2; omega), if_pos hk4]
      unfold itemDelegation
      refine exThen (skip_run (by omega)) ?_
      rw [hx] at hilt
      rw [if_pos hilt]
      rw [hx, if_pos rfl] at hi
      refine stored_fixed hf hk h rfl (by rw [hx]; rfl) (hnm hx) hs ?_
      unfold callHead
      rw [hx, if_pos rfl]
      cases hno : namedOp entry with
      | false => rw [hno] at hi; exact hi
      | true =>
        rw [hno, if_pos rfl, List.append_nil] at hi
        rw [List.getElem?_append_left (List.getElem?_eq_some_iff.1 hi).1]
        exact hi

end

end Casper
