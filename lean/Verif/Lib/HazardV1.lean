import Verif.Lib.HazardItem
import Verif.Lib.V1
/-
Where undefined behaviour can arise while a parsed version 1 transaction is shown.
-/
namespace Casper
open M

/-- Names of arguments shown other than as amounts. -/
def shownNamesV1 : List Bytes := [b!"source", b!"target", b!"id", b!"delegator", b!"validator", b!"new_validator", b!"public_key", b!"delegation_rate",
  b!"minimum_delegation_amount", b!"maximum_delegation_amount", b!"reserved_slots", b!"validator_public_key", b!"new_public_key"]

/-- Where the chain name starts. -/
def chainPos (v : V1) : Nat := v.md.size + 32 + v.pmd.size + 21 + v.header.initLen + 20

/-- The ways in which showing a parsed transaction can leave the bounds of memory. -/
inductive V1Hazard (e : Env) (v : V1) : Prop
  /-- a value that cannot be shown -/
  | value (name : Bytes) (n len t x : Nat) (hm : name ∈ shownNamesV1) (hop : v.epType ≠ 1 ∧ v.epType ≠ 0 ∧ v.epType ≠ 10)
      (hn : (v.epType = 11 ∧ n = 3 ∧ name = b!"validator") ∨ (v.epType ≠ 11 ∧ n = v.numArgs)) (hg : getData e name n v.argsOff = .ok (len, t) x)
      (hl : Looked e len t x) (hb : ValueBad e t len x)
  /-- a chain name that fills its array -/
  | chain (len : Nat) (ha : At e.buf (chainPos v - 4) (le 4 len)) (hlt : len < 4294967296) (hm : len % 256 = 100) (hc : v.header.chainLen = 100)
      (hin : chainPos v + len ≤ e.buf.length) (xs : Bytes) (hx : At e.buf (chainPos v) xs) (hl : xs.length = 100) (h0 : 0 ∉ xs)
  /-- the claimed length of the chain name wraps -/
  | chainHuge (len : Nat) (ha : At e.buf (chainPos v - 4) (le 4 len)) (hlt : len < 4294967296) (hh : 4294967296 - 65536 ≤ len)
  /-- the claimed length of the contract name wraps -/
  | name (hp : 4 ≤ v.target.ptr) (ht : v.target.typ = 2 ∨ v.target.typ = 4) (ha : At e.buf (v.target.ptr - 4) (le 4 v.target.nameLen))
      (hlt : v.target.nameLen < 4294967296) (hh : 4294967296 - 65536 ≤ v.target.nameLen)
  /-- the claimed length of the entry point wraps -/
  | entry (hep : v.epType = 1) (hp : 4 ≤ v.cepPtr) (ha : At e.buf (v.cepPtr - 4) (le 4 v.cepLen)) (hlt : v.cepLen < 4294967296)
      (hh : 4294967296 - 65536 ≤ v.cepLen)
  /-- the claimed length of the named arguments is not theirs, or they start where it cannot be remembered -/
  | args (off z : Nat) (hep : v.epType = 1) (ht : v.argsType = 0) (ha : ArgsAt e off v z)
      (hb : v.argsOff < 4 ∨ v.argsLen = 0 ∨ (e.buf.length < off + 4 + v.argsLen ∧ e.buf.length + 5 < v.argsOff + v.argsLen))
  /-- the claimed length of the arguments given as bytes wraps -/
  | bytes (off z : Nat) (hep : v.epType = 1) (ht : v.argsType = 1) (ha : ArgsAt e off v z) (hh : 4294967296 - 65536 ≤ v.argsLen)

theorem numStr_length (e : Env) (cap n : Nat) (h : 0 < cap) : (numStr e cap n).length < cap := by
  unfold numStr
  split
  · assumption
  · rw [List.length_take]; omega

theorem NF_paymentText (e : Env) (n : Nat) : NF (paymentText e n) := by
  intro s f h
  have hl := numStr_length e 20 n (by decide)
  unfold paymentText at h
  cases ha : addThousand 30 (numStr e 20 n) with
  | ok t => rw [ha] at h; cases h
  | err x => rw [ha] at h; cases h
  | fault g =>
    unfold addThousand at ha
    dsimp only at ha
    repeat' split at ha
    all_goals first | (simp only [reduceCtorEq] at ha; done) | omega

theorem NF_indexV (e : Env) (v : V1) (q : VPart) : NF (indexV e v q) := by
  unfold indexV
  exact .bind (.set _) fun _ => .ite (fun _ => .fail _) fun _ => .pure _

theorem indexV_post {e : Env} {v : V1} {q : VPart} {s : Nat} : Post (indexV e v q) s (fun _ t => t = vIndex v q ∧ t ≤ e.buf.length) := by
  unfold indexV
  exact Post.setThen (Post.ite (fun _ => .fail) fun h => Post.pure ⟨rfl, by omega⟩)

theorem FaultPost.attempt {σ α : Type} {m : M σ α} {s : σ} {Q : Fault → Prop} (h : FaultPost m s Q) : FaultPost (M.attempt m) s Q := by
  intro f hf
  rw [attempt_run] at hf
  cases hm : m s <;> rw [hm] at hf <;> cases hf
  exact h _ hm

section
variable {e : Env} {v : V1} {s : Nat}

/-- A line that shows the value of an argument. -/
theorem showArg_hazard (hf : Fits e) {key name : Bytes} {n : Nat} (hm : name ∈ shownNamesV1) (hop : v.epType ≠ 1 ∧ v.epType ≠ 0 ∧ v.epType ≠ 10)
    (hn : (v.epType = 11 ∧ n = 3 ∧ name = b!"validator") ∨ (v.epType ≠ 11 ∧ n = v.numArgs)) :
    FaultPost (showArg e key name n) v.argsOff (fun _ => V1Hazard e v) :=
  (showArg_fault hf).mono fun _ ⟨len, t, o, h1, h2, h3⟩ => .value name n len t o hm hop hn h1 h2 h3

theorem itemTransfer_fault (hf : Fits e) (hep : v.epType = 2) {i : Nat} : FaultPost (itemTransfer e v i) v.argsOff (fun _ => V1Hazard e v) := by
  have hop : v.epType ≠ 1 ∧ v.epType ≠ 0 ∧ v.epType ≠ 10 := by omega
  have hsh : ∀ {key name : Bytes}, name ∈ shownNamesV1 → FaultPost (showArg e key name v.numArgs) v.argsOff (fun _ => V1Hazard e v) :=
    fun hm => showArg_hazard hf hm hop (.inr ⟨by omega, rfl⟩)
  have hmo : ∀ {key name : Bytes}, FaultPost (showMotes e key name v.numArgs) v.argsOff (fun _ => V1Hazard e v) := .none (showMotes_fault hf)
  unfold itemTransfer
  refine .getThen (.ite (fun _ => .fail) fun _ => .ite (fun _ => ?_) fun _ =>
    .ite (fun _ => hsh (by decide)) fun _ => .ite (fun _ => hmo) fun _ => .pure)
  refine .seq (.attempt (.none (NF_getData e _ _ _))) Post.self fun r o hr => ?_
  rw [attempt_run] at hr
  cases hg : getData e b!"source" v.numArgs v.argsOff with
  | ok p t =>
    rw [hg] at hr
    cases hr
    obtain ⟨len, ty⟩ := p
    have hl := getData_looked hf _ _ _ hg
    refine .ite (fun _ => .thenPure (fun f hh => ?_) fun _ => NF.pure _) fun _ => .setThen
      (.ite (fun _ => hsh (by decide)) fun _ => .ite (fun _ => hmo) fun _ => .ite (fun _ => hsh (by decide)) fun _ => .pure)
    exact .value _ _ _ _ _ (by decide) hop (.inr ⟨by omega, rfl⟩) hg hl ((displayArg_faults hf hl).1 ⟨f, hh⟩)
  | err x t =>
    rw [hg] at hr
    cases hr
    exact .setThen (.ite (fun _ => .fail) fun _ => .ite (fun _ => hsh (by decide)) fun _ => .ite (fun _ => hmo) fun _ =>
      .ite (fun _ => hsh (by decide)) fun _ => .pure)
  | fault f => exact absurd hg (NF_getData e _ _ _ f)

theorem itemBurn_fault (hf : Fits e) (hep : v.epType = 12) {i : Nat} : FaultPost (itemBurn e v i) v.argsOff (fun _ => V1Hazard e v) := by
  have hop : v.epType ≠ 1 ∧ v.epType ≠ 0 ∧ v.epType ≠ 10 := by omega
  have hmo : ∀ {key name : Bytes}, FaultPost (showMotes e key name v.numArgs) v.argsOff (fun _ => V1Hazard e v) := .none (showMotes_fault hf)
  unfold itemBurn
  refine .getThen (.ite (fun _ => .fail) fun _ => ?_)
  refine .seq (.attempt (.none (NF_getData e _ _ _))) Post.self fun r o hr => ?_
  rw [attempt_run] at hr
  cases hg : getData e b!"source" v.numArgs v.argsOff with
  | ok p t =>
    rw [hg] at hr
    cases hr
    obtain ⟨len, ty⟩ := p
    have hl := getData_looked hf _ _ _ hg
    refine .ite (fun _ => .thenPure (fun f hh => ?_) fun _ => NF.pure _) fun _ => .setThen hmo
    exact .value _ _ _ _ _ (by decide) hop (.inr ⟨by omega, rfl⟩) hg hl ((displayArg_faults hf hl).1 ⟨f, hh⟩)
  | err x t =>
    rw [hg] at hr
    cases hr
    exact .setThen hmo
  | fault f => exact absurd hg (NF_getData e _ _ _ f)

theorem itemRedelegate_fault (hf : Fits e) (hep : v.epType = 7) {i : Nat} : FaultPost (itemRedelegate e v i) v.argsOff (fun _ => V1Hazard e v) := by
  have hop : v.epType ≠ 1 ∧ v.epType ≠ 0 ∧ v.epType ≠ 10 := by omega
  have hsh : ∀ {key name : Bytes}, name ∈ shownNamesV1 → FaultPost (showArg e key name v.numArgs) v.argsOff (fun _ => V1Hazard e v) :=
    fun hm => showArg_hazard hf hm hop (.inr ⟨by omega, rfl⟩)
  have hmo : ∀ {key name : Bytes}, FaultPost (showMotes e key name v.numArgs) v.argsOff (fun _ => V1Hazard e v) := .none (showMotes_fault hf)
  have hex : ∀ {name : Bytes} {β : Type} {k : Bool → P β} {Q : Fault → Prop}, (∀ b, FaultPost (k b) v.argsOff Q) →
      FaultPost ((do
        match ← M.attempt (getData e name v.numArgs) with
        | .ok _ => do
          M.set v.argsOff
          pure true
        | .error x =>
          if x ≠ eNoData then M.fail x
          else do
            M.set v.argsOff
            pure false : P Bool) >>= k) v.argsOff Q := by
    intro name β k Q hk
    refine .seq (R := fun _ t => t = v.argsOff) (.none ?_) ?_ fun b t ht => by subst ht; exact hk b
    · refine (NF.bind (.attempt (NF_getData e _ _)) fun r => ?_) _
      split
      · exact .bind (.set _) fun _ => .pure _
      · exact .ite (fun _ => .fail _) fun _ => .bind (.set _) fun _ => .pure _
    · refine Post.seq (P := fun _ _ => True) (fun _ _ _ => trivial) fun r t _ => ?_
      split
      · exact Post.setThen (Post.pure rfl)
      · exact Post.ite (fun _ => .fail) fun _ => Post.setThen (Post.pure rfl)
  unfold itemRedelegate
  refine .getThen (.ite (fun _ => .fail) fun _ => hex fun d => hex fun o => hex fun a => ?_)
  dsimp only
  refine .ite (fun _ => hsh (by decide)) fun _ => ?_
  exact .ite (fun _ => hsh (by decide)) fun _ => .ite (fun _ => hsh (by decide)) fun _ => .ite (fun _ => hmo) fun _ => .pure

theorem argTable_names {ep i : Nat} {r : Bytes × Bytes × Bool} (h : (argTable ep)[i]? = some r) : r.2.2 = true ∨ r.2.1 ∈ shownNamesV1 := by
  have hm := List.mem_of_getElem? h
  have : ∀ q ∈ argTable 3 ++ argTable 4 ++ argTable 5 ++ argTable 8 ++ argTable 9, q.2.2 = true ∨ q.2.1 ∈ shownNamesV1 := by decide
  apply this
  simp only [List.mem_append]
  unfold argTable at hm ⊢
  split at hm
  · exact .inl (.inl (.inl (.inl hm)))
  split at hm
  · exact .inl (.inl (.inl (.inr hm)))
  split at hm
  · exact .inl (.inl (.inr hm))
  split at hm
  · exact .inl (.inr hm)
  split at hm
  · exact .inr hm
  · cases hm

theorem itemTable_fault (hf : Fits e) (hop : v.epType ≠ 1 ∧ v.epType ≠ 0 ∧ v.epType ≠ 10) (h11 : v.epType ≠ 11) {i : Nat} :
    FaultPost (itemTable e v i) v.argsOff (fun _ => V1Hazard e v) := by
  unfold itemTable
  refine .ite (fun _ => .fail) fun _ => ?_
  split
  · exact .pure
  · rename_i key name motes hr
    refine .ite (fun _ => .none (showMotes_fault hf)) fun hmo => ?_
    refine showArg_hazard hf ?_ hop (.inr ⟨h11, rfl⟩)
    rcases argTable_names hr with h | h
    · exact absurd h hmo
    · exact h

/-- The tail of a line about a list: its first byte or the hash of its bytes. -/
theorem list_fault (hf : Fits e) {name : Bytes} {n : Nat} {c : Prop} [Decidable c] {Q : Fault → Prop} {f : Nat → Bytes × Bytes} {g : Bytes → Bytes × Bytes} :
    FaultPost (do
      let (len, _) ← getData e name n
      let off ← M.get
      if c then do
        let b ← byteAt e off
        pure (f b)
      else do
        let xs ← slice e off len
        pure (g xs)) s Q := by
  refine .seq (.none (NF_getData e _ _ _)) (getData_looked hf n) fun r o hl => ?_
  obtain ⟨len, t⟩ := r
  have hlt := hl.lt_length
  dsimp only at hlt ⊢
  refine .getThen (.ite (fun _ => .thenPure (.none ?_) fun _ => NF.pure _) fun _ => .thenPure (slice_fault.mono fun _ h => absurd h (by omega)) fun _ => NF.pure _)
  obtain ⟨k, hk⟩ := at_exists (e := e) (i := o) (by omega)
  intro f hh
  rw [byteAt_at hk] at hh
  cases hh

theorem itemAddRsv_fault (hf : Fits e) {i : Nat} {Q : Fault → Prop} : FaultPost (itemAddRsv e i) s Q := by
  unfold itemAddRsv
  exact .ite (fun _ => .fail) fun _ => list_fault hf

theorem itemCancelRsv_fault (hf : Fits e) (hep : v.epType = 11) {i : Nat} : FaultPost (itemCancelRsv e i) v.argsOff (fun _ => V1Hazard e v) := by
  unfold itemCancelRsv
  exact .ite (fun _ => .fail) fun _ => .ite (fun _ => showArg_hazard hf (by decide) (by omega) (.inl ⟨hep, rfl, rfl⟩)) fun _ => list_fault hf

theorem printfStr_fault {ptr len : Nat} : FaultPost (printfStr e ptr len) s (fun _ => e.buf.length < ptr + len) := by
  unfold printfStr
  exact .thenPure (slice_fault.mono fun _ h => by omega) fun _ => NF.pure _

theorem huge_of {x len n : Nat} (hn : n ≤ 16384) (hx : x ≤ n + 4) (hlt : len < 4294967296) (hu : u32 (x + len) ≤ n) (h : n < x + len) : 4294967296 - 65536 ≤ len := by
  unfold u32 at hu; omega

theorem customEntry_fault (hs : Small e) (hep : v.epType = 1) (hc : CustomAt e v.epType v.cepPtr v.cepLen) :
    FaultPost (customEntry e v) s (fun _ => V1Hazard e v) := by
  obtain ⟨h1, h2, h3, h4⟩ := hc hep
  have hle := h2.le
  rw [le_length] at hle
  unfold customEntry
  exact .thenPure (printfStr_fault.mono fun _ h => .entry hep h1 h2 h3 (huge_of hs (by omega) h3 h4 h)) fun _ => NF.pure _

theorem customHash_fault (hs : Small e) (hep : v.epType = 1) {off z : Nat} (ha : ArgsAt e off v z) :
    FaultPost (customHash e v) s (fun _ => V1Hazard e v) := by
  obtain ⟨h1, h2⟩ := ha
  have h1' : v.argsOff ≤ off + 9 := by rw [h1]; exact Nat.mod_le _ _
  unfold customHash
  refine .ite (fun h0 => .ite (fun h => .abort (.args off z hep h0 ⟨h1, h2⟩ (.inl h))) fun h4 => .thenPure (slice_fault.mono fun _ h => ?_) fun _ => NF.pure _)
    fun h0 => .thenPure (slice_fault.mono fun _ h => ?_) fun _ => NF.pure _
  · have hlt : v.argsLen < 4294967296 := by
      rcases h2 with ⟨-, -, -, -, h, -⟩ | ⟨h, -⟩
      · exact h
      · omega
    refine .args off z hep h0 ⟨h1, h2⟩ (.inr ?_)
    by_cases hz : v.argsLen = 0
    · exact .inl hz
    · right
      unfold u32 at h
      constructor <;> omega
  · rcases h2 with ⟨h', -⟩ | ⟨g1, g2, g3, g4, g5, g6, g7⟩
    · exact absurd h' h0
    · have hle := g4.le
      rw [le_length] at hle
      exact .bytes off z hep g1 ⟨h1, .inr ⟨g1, g2, g3, g4, g5, g6, g7⟩⟩ (huge_of hs (by omega) g5 g6 (by omega))

theorem targetName_fault (hs : Small e) {k : Nat} (ht : TargetAt e v.target k) (h : v.target.typ = 2 ∨ v.target.typ = 4) :
    FaultPost (printfStr e v.target.ptr v.target.nameLen) s (fun _ => V1Hazard e v) := by
  obtain ⟨h1, h2, h3, h4⟩ : 4 ≤ v.target.ptr ∧ At e.buf (v.target.ptr - 4) (le 4 v.target.nameLen) ∧ v.target.nameLen < 4294967296 ∧
      u32 (v.target.ptr + v.target.nameLen) ≤ e.buf.length := by
    rcases ht with ⟨-, h' | h'⟩ | ⟨h', -⟩ | ⟨-, -, h1, h2, h3, h4⟩ | ⟨h', -⟩ | ⟨-, -, h1, h2, h3, h4⟩
    all_goals first | exact ⟨h1, h2, h3, h4⟩ | omega
  have hle := h2.le
  rw [le_length] at hle
  exact printfStr_fault.mono fun _ hb => .name h1 h h2 h3 (huge_of hs (by omega) h3 h4 hb)

theorem targetHash_fault {k : Nat} {Q : Fault → Prop} (ht : TargetAt e v.target k) (h : v.target.typ = 1 ∨ v.target.typ = 3) :
    FaultPost (printByHash e v.target.ptr 32) s Q := by
  have hle : v.target.ptr + 32 ≤ e.buf.length := by
    rcases ht with ⟨-, h' | h'⟩ | ⟨-, -, h'⟩ | ⟨h', -⟩ | ⟨-, -, h'⟩ | ⟨h', -⟩
    all_goals omega
  unfold printByHash
  exact .thenPure (slice_fault.mono fun _ h => by omega) fun _ => NF.pure _

theorem itemCustom_fault (hs : Small e) (hep : v.epType = 1) {off k i : Nat} (hb : BodyAt e off v k) :
    FaultPost (itemCustom e v i) s (fun _ => V1Hazard e v) := by
  obtain ⟨z, ha⟩ := hb.args
  have hH : FaultPost (customHash e v) s (fun _ => V1Hazard e v) := customHash_fault hs hep ha
  have hE : FaultPost (customEntry e v) s (fun _ => V1Hazard e v) := customEntry_fault hs hep hb.custom
  unfold itemCustom
  refine .ite (fun _ => .fail) fun _ => .ite (fun h => ?_) fun _ => .ite (fun h => ?_) fun _ => hH
  · refine .ite (fun _ => .pure) fun _ => .ite (fun _ => ?_) fun _ => .ite (fun _ => hE) fun _ => hH
    exact .ite (fun h1 => .thenPure (targetHash_fault hb.target (.inl h1)) fun _ => NF.pure _) fun h1 =>
      .thenPure (targetName_fault hs hb.target (by omega)) fun _ => NF.pure _
  · refine .ite (fun _ => .pure) fun _ => .ite (fun _ => ?_) fun _ => .ite (fun _ => .ite (fun _ => .pure) fun _ => .pure) fun _ =>
      .ite (fun _ => hE) fun _ => hH
    exact .ite (fun h1 => .thenPure (targetHash_fault hb.target (.inr h1)) fun _ => NF.pure _) fun h1 =>
      .thenPure (targetName_fault hs hb.target (by omega)) fun _ => NF.pure _

theorem itemEntry_fault (hs : Small e) {off k i : Nat} (hb : BodyAt e off v k) : FaultPost (itemEntry e v i) s (fun _ => V1Hazard e v) := by
  have hf := hs.fits
  have hlt : v.argsOff < 256 := by
    obtain ⟨z, h, -⟩ := hb.args
    rw [h]; exact Nat.mod_lt _ (by decide)
  unfold itemEntry
  refine .nfThen (NF_seek _) fun _ t ht => ?_
  have ht' : t = v.argsOff := by
    unfold seek at ht; cases ht; exact u16_id (by omega)
  subst ht'
  refine .ite (fun h => itemCustom_fault hs h hb) fun h1 => .ite (fun h => itemTransfer_fault hf h) fun _ => .ite (fun h => itemRedelegate_fault hf h) fun _ =>
    .ite (fun h => itemAddRsv_fault hf) fun h10 => .ite (fun h => itemCancelRsv_fault hf h) fun h11 => .ite (fun h => itemBurn_fault hf h) fun _ =>
    .ite (fun _ => .pure) fun h0 => itemTable_fault hf ⟨h1, by omega, h10⟩ h11

end

/-! ### The header -/

section
variable {e : Env} {v : V1} {s : Nat}

theorem HeaderAt.chainPos {fin : Nat} (h : HeaderAt e (v.md.size + 32 + v.pmd.size) v.header fin) :
    ∃ len, At e.buf (chainPos v - 4) (le 4 len) ∧ len < 4294967296 ∧ Casper.chainPos v ≤ e.buf.length ∧ u32 (Casper.chainPos v + len) ≤ e.buf.length ∧
      v.header.chainLen = u8 len ∧ PricingAt e (u32 (Casper.chainPos v + len)) v.header.pmMd v.header.pmode fin := by
  obtain ⟨-, -, h3, len, h4, h5, h6, h7, h8, -⟩ := h
  exact ⟨len, h4.cast (by unfold Casper.chainPos; omega), h5, by unfold Casper.chainPos; omega, h6, h7, h8⟩

/-- The chain name lies in the data unless its claimed length wraps. -/
theorem chain_in (hs : Small e) {len : Nat} (ha : At e.buf (chainPos v - 4) (le 4 len)) (hlt : len < 4294967296) (hp : chainPos v ≤ e.buf.length)
    (hu : u32 (chainPos v + len) ≤ e.buf.length) : chainPos v + len ≤ e.buf.length ∨ V1Hazard e v := by
  by_cases h : chainPos v + len ≤ e.buf.length
  · exact .inl h
  · exact .inr (.chainHuge len ha hlt (huge_of hs (by omega) hlt hu (by omega)))

theorem pricingValue_fault (hs : Small e) (hv : V1Facts e v) {i : Nat} : FaultPost (pricingValue e v i) s (fun _ => V1Hazard e v) := by
  have hs' : e.buf.length ≤ 16384 := hs
  unfold pricingValue
  refine .ite (fun _ => .ite (fun _ => .nfThen (NF_indexV e _ _) fun _ _ _ => .nfThen (NF_readLE e 8) fun _ _ _ => .none (NF_paymentText e _ _)) fun _ =>
    .ite (fun _ => .pure) fun _ => .ite (fun _ => .pure) fun _ => .fail) fun _ => .ite (fun _ => .nfThen (NF_indexV e _ _) fun _ _ _ => .nfThen (NF_readU8 e) fun _ _ _ => .pure) fun hm => ?_
  refine .nfThen (NF_indexV e _ _) fun _ t ht => .getThen ?_
  obtain ⟨ht, -⟩ := indexV_post _ _ ht
  obtain ⟨fin, k, hh, hb, -⟩ := hv.body
  have hcount := hb.count.le
  obtain ⟨len, c1, c2, c3, c4, c5, m, -, hms, -, htag, -⟩ := hh.chainPos
  have hmd : v.header.initMd = 20 := hh.1
  rcases chain_in hs c1 c2 c3 c4 with hin | hz
  · have hfin : fin = u32 (chainPos v + len) + v.header.pmMd + 33 := by omega
    rw [u32_id (by omega)] at hfin
    have hle : v.header.chainLen ≤ len := by rw [c5]; exact Nat.mod_le _ _
    have hidx : vIndex v .pricing = chainPos v + v.header.chainLen + v.header.pmMd + 1 := by
      have e1 : v.md.size + v.md.fo 1 + v.pmd.size + v.header.initMd + 1 + v.header.initLen + 8 + 8 + 4 + v.header.chainLen + v.header.pmMd + 1 =
          chainPos v + v.header.chainLen + v.header.pmMd + 1 := by rw [hv.fo1, hmd]; unfold chainPos; omega
      unfold vIndex
      dsimp only
      rw [e1, u16_id (by simp at hcount; omega)]
    intro f hp
    have := (printBytes_faults (s := t) (off := t) (len := 32) (by simp at hcount; omega) hs.fits).1 ⟨f, hp⟩
    exact absurd this (by decide)
  · intro _ _; exact hz

theorem itemPricing_fault (hs : Small e) (hv : V1Facts e v) {i : Nat} : FaultPost (itemPricing e v i) s (fun _ => V1Hazard e v) := by
  unfold itemPricing
  refine .seq (.attempt (pricingValue_fault hs hv)) Post.self fun r _ _ => ?_
  cases r <;> exact .pure

/-- Showing any line of a parsed transaction stays within memory, except for the hazards. -/
theorem V1Facts.item_fault (hs : Small e) (hv : V1Facts e v) {idx : Nat} : FaultPost (getItemV1 e v idx) s (fun _ => V1Hazard e v) := by
  have hs' : e.buf.length ≤ 16384 := hs
  have hf := hs.fits
  obtain ⟨fin, k, hh, hb, -⟩ := hv.body
  have hmd : v.header.initMd = 20 := hh.1
  have hinit := hh.2.1.len_le
  obtain ⟨len, c1, c2, c3, c4, c5, -⟩ := hh.chainPos
  have hpos : v.md.size + v.md.fo 1 + v.pmd.size + v.header.initMd + 1 = v.md.size + 32 + v.pmd.size + 21 := by rw [hv.fo1, hmd]
  unfold getItemV1
  refine .ite (fun _ => .fail) fun _ => ?_
  dsimp only
  refine .ite (fun _ => ?_) fun _ => .ite (fun _ => .pure) fun _ => .ite (fun _ => ?_) fun _ => .ite (fun _ => ?_) fun _ => .ite (fun _ => ?_) fun _ => ?_
  · refine .nfThen (NF_seek _) fun _ t ht => .getThen (.thenPure (.none fun f hp => ?_) fun _ => NF.pure _)
    have hpi := hv.pinside
    have ht' : t = v.md.size := by
      unfold seek at ht; cases ht; rw [hv.fo0]; exact u16_id (by omega)
    subst ht'
    have := (printBytes_faults (s := v.md.size) (off := v.md.size) (len := 32) (by omega) hf).1 ⟨f, hp⟩
    revert this; decide
  · refine .nfThen (NF_indexV e _ _) fun _ t ht => .getThen (.thenPure ?_ fun _ => NF.pure _)
    obtain ⟨ht, -⟩ := indexV_post _ _ ht
    have hidx : vIndex v .chainname = chainPos v := by
      unfold vIndex
      dsimp only
      rw [hpos]
      unfold chainPos at c3 ⊢
      rw [u16_id (by omega)]
    rw [hidx] at ht
    subst ht
    rcases chain_in hs c1 c2 c3 c4 with hin | hz
    · have hle : v.header.chainLen ≤ len := by rw [c5]; exact Nat.mod_le _ _
      unfold displayString
      refine .ite (fun _ => .fail) fun hcl => .seq (slice_fault.mono fun _ h => absurd h (by omega)) Post.self fun xs t hx => ?_
      obtain ⟨hx1, hx2, -⟩ := slice_eq_ok.1 hx
      refine showArray_fault.mono fun _ h => .chain len c1 c2 ?_ (by omega) hin xs hx1 (by omega) h.2
      have : u8 len = 100 := by omega
      exact this
    · intro _ _; exact hz
  · refine .nfThen (NF_indexV e _ _) fun _ t ht => .getThen (.thenPure (.none fun f hp => ?_) fun _ => NF.pure _)
    obtain ⟨ht, -⟩ := indexV_post _ _ ht
    unfold chainPos at c3
    have hidx : vIndex v .initiator = v.md.size + 32 + v.pmd.size + 21 := by
      unfold vIndex
      dsimp only
      rw [hpos, u16_id (by omega)]
    have := (printBytes_faults (s := t) (off := t) (len := v.header.initLen) (by omega) hf).1 ⟨f, hp⟩
    unfold BadLen at this
    omega
  · refine .ite (fun _ => .nfThen (NF_indexV e _ _) fun _ _ _ => .nfThen (NF_readLE e 8) fun x _ _ => ?_) fun _ =>
      .ite (fun _ => .nfThen (NF_indexV e _ _) fun _ _ _ => .nfThen (NF_readLE e 8) fun x _ _ => .nfThen (NF_ttlText _ _) fun _ _ _ => .pure) fun _ =>
      .ite (fun _ => itemPricing_fault hs hv) fun _ => .ite (fun _ => itemEntry_fault hs hb) fun _ => .ite (fun _ => .pure) fun _ => .pure
    split
    · exact .fail
    · exact .pure
  · exact .ite (fun _ => itemEntry_fault hs hb) fun _ => .pure

end
end Casper
