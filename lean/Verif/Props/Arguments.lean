import Verif.Lib.Named
import Verif.Spec.Lines
import Verif.Props.Canonical
/-
C58: lines for named arguments of a Deploy show the arguments of these names.
-/
namespace Casper
open M CLType

/-- If the line `kv` has one of these labels then there is an argument found by this name, and the text is that of its value, if it is the serialization
of a value that can be shown. -/
def LineOf (H : Bytes → Bytes) (as : List Arg) (kv : Bytes × Bytes) : Prop :=
  ∀ l ∈ sessionLabels, kv.1 = l.label → ∃ a, Found as l.name a ∧
    l.Right H a kv.2

theorem LineOf.other {H : Bytes → Bytes} {as : List Arg} {key v : Bytes} (h : sessionLabels.all (fun l => key != l.label) = true) : LineOf H as (key, v) := by
  intro l hl hk
  have := List.all_eq_true.1 h l hl
  simp at this
  exact absurd hk this

theorem LineOf.arg {e : Env} {as : List Arg} {key name : Bytes} {kv : Bytes × Bytes}
    (hu : sessionLabels.all (fun l => key != l.label || (l.name == name && !l.motes)) = true)
    (h : kv.1 = key ∧ ∃ a, Found as name a ∧ ∀ text, Shown e.blake a.ty a.value text → kv.2 = text) : LineOf e.blake as kv := by
  intro l hl hk
  have := List.all_eq_true.1 hu l hl
  rw [← h.1, hk] at this
  simp at this
  obtain ⟨a, h1, h2⟩ := h.2
  exact ⟨a, by rw [this.1]; exact h1, fun text ht => h2 text (by rw [this.2] at ht; exact ht)⟩

theorem LineOf.amount {H : Bytes → Bytes} {as : List Arg} {kv : Bytes × Bytes}
    (h : kv.1 = b!"Amount" ∧ ∃ a, Found as b!"amount" a ∧ ∀ text, ShownMotes a.ty a.value text → kv.2 = text) : LineOf H as kv := by
  intro l hl hk
  have := List.all_eq_true.1 (show sessionLabels.all (fun l => b!"Amount" != l.label || (l.name == b!"amount" && l.motes)) = true by decide) l hl
  rw [← h.1, hk] at this
  simp at this
  obtain ⟨a, h1, h2⟩ := h.2
  exact ⟨a, by rw [this.1]; exact h1, fun text ht => h2 text (by rw [this.2] at ht; exact ht)⟩

/-- A program that ends with a line of another kind. -/
def Else (as : List Arg) (H : Bytes → Bytes) (m : P (Bytes × Bytes)) : Prop := ∀ s, Post m s (fun kv _ => LineOf H as kv)

section
variable {as : List Arg} {H : Bytes → Bytes}

theorem Else.pure {key v : Bytes} (h : sessionLabels.all (fun l => key != l.label) = true) : Else as H (Pure.pure (key, v)) := fun _ => Post.pure (.other h)
theorem Else.fail {x : Nat} : Else as H (M.fail x) := fun _ => .fail
theorem Else.abort {x : Fault} : Else as H (M.abort x) := fun _ => .abort
theorem Else.ite {c : Prop} [Decidable c] {m n : P (Bytes × Bytes)} (hm : Else as H m) (hn : Else as H n) : Else as H (if c then m else n) := by
  split <;> assumption
theorem Else.bind {α : Type} {m : P α} {f : α → P (Bytes × Bytes)} (h : ∀ a, Else as H (f a)) : Else as H (m >>= f) :=
  fun _ => Post.seq (P := fun _ _ => True) (fun _ _ _ => trivial) fun a t _ => h a t

theorem Else_renderEntryPoint {e : Env} {epo : Nat} : Else as H (renderEntryPoint e epo) := by
  unfold renderEntryPoint
  exact .bind fun _ => .bind fun _ => .bind fun _ => .bind fun _ => .bind fun _ => .pure (by decide)

theorem Else_showArgsHash {e : Env} {a b : Nat} {n : Bytes} : Else as H (showArgsHash e a b n) := by
  unfold showArgsHash
  exact .bind fun _ => .bind fun _ => .pure (by decide)

theorem Else_contractHash {e : Env} : Else as H (contractHash e) := by
  unfold contractHash
  exact .bind fun _ => .bind fun _ => .ite .abort (.bind fun _ => .pure (by decide))

theorem Else_fixedByHash {e : Env} {epo idx : Nat} {s v : Bool} {l : Bytes} : Else as H (fixedByHash e epo s v l idx) := by
  unfold fixedByHash
  refine .ite (.pure (by decide)) (.ite (.bind fun _ => .bind fun _ => .pure (by decide)) (.bind fun _ => .ite ?_ ?_))
  · exact .bind fun _ => .ite (.pure (by decide)) (.bind fun _ => .ite Else_renderEntryPoint (.pure (by decide)))
  · exact .bind fun _ => .ite Else_renderEntryPoint (.pure (by decide))

theorem Else_fixedByName {e : Env} {epo idx : Nat} {s v : Bool} {l : Bytes} : Else as H (fixedByName e epo s v l idx) := by
  unfold fixedByName
  refine .ite (.pure (by decide)) (.ite (.bind fun _ => .bind fun _ => .pure (by decide)) (.bind fun _ => .ite ?_ ?_))
  · exact .bind fun _ => .ite (.pure (by decide)) (.bind fun _ => .ite Else_renderEntryPoint (.pure (by decide)))
  · exact .bind fun _ => .ite Else_renderEntryPoint (.pure (by decide))

theorem Else_fixedDelegation {e : Env} {epo idx : Nat} {it : Item} : Else as H (fixedDelegation e epo it idx) := by
  unfold fixedDelegation
  dsimp only
  refine .ite (.ite (.ite (.pure (by decide)) (.ite Else_contractHash (.bind fun _ => .pure (by decide)))) (.bind fun _ => .pure (by decide))) ?_
  exact .ite Else_fixedByHash (.ite Else_fixedByHash (.ite Else_fixedByName (.ite Else_fixedByName .fail)))

theorem Else_itemSystemPayment {e : Env} {idx : Nat} {it : Item} : Else as H (itemSystemPayment e it idx) := by
  unfold itemSystemPayment
  refine .bind fun _ => .bind fun _ => .bind fun _ => .ite .fail (.bind fun _ => .bind fun _ => .bind fun _ => .ite .fail (.ite (.ite ?_ ?_) .fail))
  · unfold showMotes
    exact .bind fun _ => .bind fun _ => .pure (by decide)
  · refine .bind fun _ => .bind fun _ => fun s => ?_
    exact Post.seq (Else_showArgsHash s) fun r t hr => Post.seq (P := fun _ _ => True) (fun _ _ _ => trivial) fun _ _ _ => Post.pure hr

theorem Else_headerLine {e : Env} {idx : Nat} {d : Deploy} : Else as H (headerLine e d idx) := by
  unfold headerLine
  refine .ite (.bind fun _ => .bind fun _ => ?_) (.ite (.bind fun _ => .bind fun _ => .bind fun _ => .pure (by decide))
    (.ite (.bind fun _ => .bind fun _ => .pure (by decide)) (.bind fun _ => .bind fun _ => .pure (by decide))))
  split
  · exact .fail
  · exact .pure (by decide)
end

section
variable {e : Env} (hs : Small e) {as : List Arg} (hg : GoodTypes as)
include hs hg

theorem itemNativeTransfer_lines {it : Item} {off idx : Nat} (h : At e.buf (off + 1) (encodeRuntimeArgs as)) :
    Post (itemNativeTransfer e it idx) off (fun kv _ => LineOf e.blake as kv) := by
  have hf := hs.to_fits
  obtain ⟨hn, ha⟩ := At.append.1 (show At e.buf (off + 1) (le 4 as.length ++ encodeArgs as) from h)
  rw [le_length] at ha
  have hle := ha.le
  have hal := encodeArgs_long as
  unfold Small at hs
  have arg : ∀ {key name}, sessionLabels.all (fun l => key != l.label || (l.name == name && !l.motes)) = true →
      Post (showArg e key name as.length) (off + 1 + 4) (fun kv _ => LineOf e.blake as kv) :=
    fun hu => (showArg_named hf hg ha (.inl (Nat.le_refl _))).mono fun kv _ hk => LineOf.arg hu hk
  have amount : Post (showMotes e b!"Amount" b!"amount" as.length) (off + 1 + 4) (fun kv _ => LineOf e.blake as kv) :=
    (showMotes_named hf hg ha (.inl (Nat.le_refl _))).mono fun kv _ hk => LineOf.amount hk
  unfold itemNativeTransfer
  refine .runThen (skip_run (by omega)) (Post.getThen (.runThen (readU32_at h (by omega)) ?_))
  refine Post.ite (fun _ => .fail) fun _ => Post.ite (fun _ => .fail) fun _ => ?_
  dsimp only
  refine Post.ite (fun _ => Post.ite (fun _ => ?_) fun _ => .fail) fun _ => Post.ite (fun _ => .abort) fun _ => ?_
  · refine Else.bind (fun _ => .bind fun _ => fun s => ?_) _
    exact Post.seq (Else_showArgsHash s) fun r t hr => Post.seq (P := fun _ _ => True) (fun _ _ _ => trivial) fun _ _ _ => Post.pure hr
  · refine Post.ite (fun _ => Post.ite (fun _ => arg (by decide)) fun _ => Post.ite (fun _ => amount) fun _ => .fail) fun _ => ?_
    refine Post.ite (fun _ => arg (by decide)) fun _ => ?_
    exact Post.ite (fun _ => arg (by decide)) fun _ => Post.ite (fun _ => amount) fun _ => Post.ite (fun _ => arg (by decide)) fun _ => .fail

theorem itemDelegation_lines {it : Item} {epo o k idx s : Nat} (h : At e.buf o (encodeRuntimeArgs as)) (hi : ItemFacts as o k it) (hk : k ≠ 5)
    (hx : idx < u16 (it.fixed + it.runtime)) : Post (itemDelegation e epo it idx) s (fun kv _ => LineOf e.blake as kv) := by
  have hf := hs.to_fits
  obtain ⟨hn, ha⟩ := At.append.1 (show At e.buf o (le 4 as.length ++ encodeArgs as) from h)
  rw [le_length] at ha
  have hle := ha.le
  have hal := encodeArgs_long as
  unfold Small at hs
  have ho : it.itemOffset = o := by cases hi <;> first | assumption | contradiction
  unfold itemDelegation
  refine Post.seq (P := fun _ _ => True) (fun _ _ _ => trivial) fun _ t _ => Post.ite (fun _ => Else_fixedDelegation _) fun hfix => ?_
  refine .runThen (a := ()) (t := o) (by unfold seek; rw [ho, u16_id (by omega)]) ?_
  dsimp only
  refine Post.ite (fun _ => .fail) fun hrt => Post.ite (fun hgen => ?_) fun hgen => ?_
  · refine .runThen (readU32_at h (by omega)) (Post.ite (fun _ => ?_) fun _ => Else.ite (.bind fun _ => .bind fun _ => .bind fun _ => .pure (by decide)) .fail _)
    exact (showMotes_named hf hg ha (.inl (Nat.le_refl _))).mono fun kv _ hk => LineOf.amount hk
  · cases hi with
    | transfer h1 => exact absurd h1 hk
    | module _ _ _ h4 => exact absurd h4 hgen
    | call r h1 h2 h3 h4 h5 h6 =>
      rw [if_pos h2]
      refine Post.seq (P := fun _ t => t = o + 4) ?_ fun _ t ht => ?_
      · exact .runThen (readU32_at h (by omega)) (Post.pure rfl)
      subst ht
      rcases h6 (by omega) with h0 | ⟨n1, n2, n3, n4⟩
      · exfalso
        have : u16 (it.fixed + it.runtime) ≤ it.fixed + it.runtime := Nat.mod_le _ _
        omega
      have arg : ∀ {key name}, Has as name → sessionLabels.all (fun l => key != l.label || (l.name == name && !l.motes)) = true →
          Post (showArg e key name it.runtime) (o + 4) (fun kv _ => LineOf e.blake as kv) :=
        fun hh hu => (showArg_named hf hg ha (.inr hh)).mono fun kv _ hk => LineOf.arg hu hk
      have amount : Post (showMotes e b!"Amount" b!"amount" it.runtime) (o + 4) (fun kv _ => LineOf e.blake as kv) :=
        (showMotes_named hf hg ha (.inr n3)).mono fun kv _ hk => LineOf.amount hk
      refine Post.ite (fun _ => arg n1 (by decide)) fun _ => Post.ite (fun h5 => ?_) fun _ => ?_
      · exact Post.ite (fun _ => arg n2 (by decide)) fun _ => Post.ite (fun _ => arg (n4 (h4 h5)) (by decide)) fun _ => Post.ite (fun _ => amount) fun _ => .fail
      · exact Post.ite (fun _ => arg n2 (by decide)) fun _ => Post.ite (fun _ => amount) fun _ => .fail

theorem getItemDeploy_lines {d : Deploy} {epo o k idx s start : Nat} (hst : headerLength d.header + 32 + d.payment.total = start)
    (h : At e.buf o (encodeRuntimeArgs as)) (h5 : k = 5 → o = start + 1) (hl : start ≤ e.buf.length) (hi : ItemFacts as o k d.session) :
    Post (getItemDeploy e epo d idx) s (fun kv _ => LineOf e.blake as kv) := by
  have hsm := hs
  unfold Small at hs
  unfold getItemDeploy
  refine Post.ite (fun _ => .fail) fun _ => Post.ite (fun _ => ?_) fun _ => Post.ite (fun _ => Post.pure (.other (by decide))) fun _ =>
    Post.ite (fun _ => ?_) fun _ => Post.ite (fun _ => ?_) fun _ => Post.ite (fun _ => Else_headerLine _) fun _ => ?_
  · exact Else.bind (fun _ => .bind fun _ => .pure (by decide)) _
  · exact Else.bind (fun _ => .bind fun _ => .bind fun _ => .pure (by decide)) _
  · exact Else.bind (fun _ => .bind fun _ => .pure (by decide)) _
  unfold bodyLine
  dsimp only
  refine .runThen (a := ()) (t := headerLength d.header + 32) (by unfold seek; rw [u16_id (by omega)]) ?_
  refine Post.ite (fun _ => Else.ite Else_itemSystemPayment .fail _) fun _ => ?_
  refine .runThen (skip_run (by omega)) (Post.ite (fun hx => ?_) fun _ => ?_)
  · refine Post.ite (fun hsp => ?_) fun hsp => Post.ite (fun _ => ?_) fun _ => .fail
    · have hk : k = 5 := by cases hi <;> first | assumption | contradiction
      rw [hst]
      exact itemNativeTransfer_lines hsm hg (by rw [← h5 hk]; exact h)
    · have hk : k ≠ 5 := by
        cases hi with
        | transfer _ h2 => exact absurd h2 hsp
        | module h1 => omega
        | call _ h1 => omega
      exact itemDelegation_lines hsm hg h hi hk hx
  · exact Else.bind (fun _ => .ite (.bind fun _ => .pure (by decide)) .fail) _
end

/-- Items and heads. -/
theorem ExecItem.head {it : ExecItem} (h : it.Sized) : ∃ k head, ItemHead k head ∧ k ≤ 5 ∧ it.encode = UInt8.ofNat k :: (head ++ encodeRuntimeArgs it.args) ∧
    (k = 0 → ∃ code, it = .moduleBytes code it.args) ∧ (k = 5 → head = []) := by
  cases it with
  | moduleBytes code as => exact ⟨0, _, .moduleBytes code, by omega, rfl, fun _ => ⟨code, rfl⟩, by simp⟩
  | byHash x entry as => exact ⟨1, _, .byHash x entry h, by omega, by simp [ExecItem.encode, ExecItem.args], by simp, by simp⟩
  | byName n entry as => exact ⟨2, _, .byName n entry, by omega, by simp [ExecItem.encode, ExecItem.args], by simp, by simp⟩
  | versionedByHash x v entry as => exact ⟨3, _, .versionedByHash x v entry h, by omega, by simp [ExecItem.encode, ExecItem.args], by simp, by simp⟩
  | versionedByName n v entry as => exact ⟨4, _, .versionedByName n v entry, by omega, by simp [ExecItem.encode, ExecItem.args], by simp, by simp⟩
  | transfer as => exact ⟨5, _, .transfer, by omega, rfl, by simp, fun _ => rfl⟩

/-- Accepted Deploys. -/
theorem DeployParse.lines {e : Env} (hs : Small e) {s : DS} {p q : IS} {k : Nat} (hp : DeployParse e s p q k) {it : ExecItem} (h32 : it.Sized)
    (hg : GoodTypes it.args) (hn : noNul it.args) (hm : ¬ it.AuctionCode) (ha : At e.buf p.off it.encode)
    (hst : headerLength s.dep.header + 32 < 65536) {idx o : Nat} {kv : Bytes × Bytes} {c : Nat}
    (h : getItemDeploy e s.epo s.dep idx o = .ok kv c) : LineOf e.blake it.args kv := by
  obtain ⟨k', head, h1, h2, h3, h4, h5⟩ := ExecItem.head h32
  rw [h3] at ha
  have hk : k' = k := by
    have := hp.sesType.unique (At.cons.1 ha).1 rfl
    have := congrArg UInt8.toNat (List.cons.inj this).1
    have hsm := hp.small
    rw [UInt8.toNat_ofNat', UInt8.toNat_ofNat', Nat.mod_eq_of_lt (by omega), Nat.mod_eq_of_lt (by omega)] at this
    exact this.symm
  subst hk
  have ha' := (At.cons.1 ha).2
  have hext := hp.extent hs.to_fits
  have hpay := hp.payment hs.to_fits
  have hfacts := parseDeployItem_named hs hg (epo := p.epo) h1 ha' (fun h0 => by
    obtain ⟨code, hc⟩ := h4 h0
    rw [hc] at hm
    simp only [ExecItem.AuctionCode, ExecItem.args, not_or, not_exists, not_and, Nat.not_lt] at hm
    refine ⟨by rw [hc]; exact hm.2, fun ⟨a, ha, hb⟩ => hm.1 ?_⟩
    rw [Option.isSome_iff_exists]
    rw [cstr_eq (hn a ha)] at hb
    cases hq : argNamed it.args b!"auction" with
    | none => exact absurd hb (by simpa using List.find?_eq_none.1 hq a ha)
    | some b => exact ⟨b, by rw [hc] at hq; exact hq⟩) _ _ hp.ses
  have hd : s.dep.session = q.item ∧ s.dep.payment = p.item := by rw [hp.result]; exact ⟨rfl, rfl⟩
  dsimp only at hfacts
  rw [← hd.1] at hfacts
  have hb : s.dep.header.bodyStart = headerLength s.dep.header + 32 := u16_id hst
  refine getItemDeploy_lines hs hg (start := p.off) ?_ (At.append.1 ha').2 (fun h => by rw [h5 h]; rfl) (by omega) hfacts _ _ h
  rw [hd.2]; omega

/-- **C58.** A transaction review of data `0 :: xs`: `xs` are a header, its hash, a payment, a session and the rest, and the header contains the hash of payment and
session.  If the session is a serialized item, whose arguments have types read as Casper does (by C57 this is so but for huge numbers and `BadType`) and
names without zero bytes, then every line of the review whose label is one of `sessionLabels` is about the argument of that name: there is one (the first
of this name), and if its value can be shown at all then the text is that of its value.  Not covered: code with an argument "auction" or a name over 300
bytes (see `C58_module_false`), and names with zero bytes (see `C58_name_false`). -/
theorem C58_arguments_partial (pl : Platform) (hcap : pl.cap ≤ 16384) (d d' : Dev) (hd : d.Ok pl) (rx : Bytes)
    (pin : Bool) (hins : rx.getD 1 0 = 2) (xs : Bytes) (hx : d.data ++ rx.drop 5 = 0 :: xs)
    (h : step pl d (.apdu rx pin) = (d', .pending)) :
    ∃ hdr pay ses rest, xs = hdr ++ pl.blake hdr ++ (pay ++ ses) ++ rest ∧ (xs.drop (keyLen xs + 24)).take 32 = pl.blake (pay ++ ses) ∧
      ∀ it : ExecItem, ses = it.encode → it.Sized → GoodTypes it.args → noNul it.args → ¬ it.AuctionCode →
        ∀ i key text c, reviewItem pl d' .tx i 0 = .ok (key, text) c → ∀ l ∈ sessionLabels, key = l.label →
          ∃ a, argNamed it.args l.name = some a ∧ l.Right pl.blake a text := by
  obtain ⟨hok, hdata, hcase⟩ := sign_pending (by omega) hd hins h
  rw [hx] at hcase hdata
  rcases hcase with ⟨ys, s, h1, h2, rfl⟩ | ⟨ys, s, h1, -, -⟩
  swap
  · simp at h1
  simp only [List.cons.injEq, true_and] at h1
  subst h1
  have hsm : Small (mkEnv pl d.expert xs) := small_data hcap hok hdata d.expert
  obtain ⟨p, q, k, hdr, hash, pay, ses, rest, hp, b1, b2, b3, b4, b5, b6, b7⟩ := h2.split hsm
  have hk := readDeploy_kind h2.parse
  have hle := congrArg List.length b1
  simp only [List.length_append] at hle
  refine ⟨hdr, pay, ses, rest, ?_, ?_, ?_⟩
  · rw [show pl.blake hdr = hash from b6]; exact b1
  · rw [hp.header.pkLen] at b7
    have := b7.take_drop
    rw [Hash.len] at this
    exact this
  · intro it hses h32 hg hn hm i key text c hr l hl hkey
    rw [reviewItem_deploy hok hdata s hk] at hr
    split at hr
    · cases hr
    have hst : headerLength s.dep.header + 32 < 65536 := by have := hsm; unfold Small at this; omega
    have hat : At (mkEnv pl d.expert xs).buf p.off it.encode :=
      ⟨hdr ++ hash ++ pay, rest, by rw [b1, ← hses]; simp only [List.append_assoc], by simp only [List.length_append]; omega⟩
    obtain ⟨a, g1, g2⟩ := hp.lines hsm h32 hg hn hm hat hst hr l hl hkey
    exact ⟨a, by rw [← find_cstr hn]; exact g1, g2⟩

/-- The hypotheses can be met: the sample delegation. -/
example :
    (run samplePl (Dev.init samplePl) (sampleUpload (0 :: sampleDelegate.tx Blake.H []))).2.getLast? = some .pending ∧
    sampleDelegate.session.Sized ∧ GoodTypes sampleDelegate.session.args ∧ noNul sampleDelegate.session.args ∧
    ¬ sampleDelegate.session.AuctionCode ∧
    (∃ c, reviewItem samplePl (run samplePl (Dev.init samplePl) (sampleUpload (0 :: sampleDelegate.tx Blake.H []))).1 .tx 7 0 =
      .ok (b!"Amount", b!"500 000 000 000 motes") c) ∧
    argNamed sampleDelegate.session.args b!"amount" = some ⟨b!"amount", bigNum 5 500000000000, .u512⟩ :=
  ⟨by decide +kernel, List.length_replicate, by unfold GoodTypes; decide +kernel, by unfold noNul; decide +kernel, id,
    Res.val_ok.1 (by decide +kernel), by decide +kernel⟩

/-! ### Where it fails -/

/-- A delegation with two amounts, the first name ending in a zero byte. -/
def sampleTwoAmounts : DeploySpec := { sampleDeploy with
  session := .byHash (List.replicate 32 0x33) b!"delegate"
    [⟨b!"delegator", 1 :: List.replicate 32 0x11, .publicKey⟩, ⟨b!"validator", 1 :: List.replicate 32 0x22, .publicKey⟩,
     ⟨b!"amount" ++ [0], bigNum 1 5, .u512⟩, ⟨b!"amount", bigNum 8 100000000000000000, .u512⟩] }

/-- **C58 fails** for names with zero bytes: the argument named "amount" is 10^17, the review says 5 motes. -/
theorem C58_name_false :
    (run samplePl (Dev.init samplePl) (sampleUpload (0 :: sampleTwoAmounts.tx Blake.H []))).2.getLast? = some .pending ∧
    argNamed sampleTwoAmounts.session.args b!"amount" = some ⟨b!"amount", bigNum 8 100000000000000000, .u512⟩ ∧
    ∃ c, reviewItem samplePl (run samplePl (Dev.init samplePl) (sampleUpload (0 :: sampleTwoAmounts.tx Blake.H []))).1 .tx 7 0 =
      .ok (b!"Amount", b!"5 motes") c :=
  ⟨by decide +kernel, by decide +kernel, Res.val_ok.1 (by decide +kernel)⟩

/-- Code with an argument "auction".  The app takes the length of the first name (2) for the number of arguments, the name and half of the length behind it for
the length of a name (257), and finds another "amount" 257 bytes later. -/
def sampleAuction : DeploySpec := { sampleDeploy with
  session := .moduleBytes b!"code"
    [⟨[1, 1], [], .bool⟩,
     ⟨b!"z", List.replicate 245 0x7a ++ (pfx [] ++ [0] ++ (Arg.mk b!"amount" (bigNum 1 5) .u512).encode), .string⟩,
     ⟨b!"amount", bigNum 8 100000000000000000, .u512⟩, ⟨b!"auction", pfx b!"x", .string⟩] }

/-- **C58 fails** for code with an argument "auction": the argument named "amount" is 10^17, the review says 5 motes. -/
theorem C58_module_false :
    (run samplePl (Dev.init samplePl) (sampleUpload (0 :: sampleAuction.tx Blake.H []) 4)).2.getLast? = some .pending ∧
    noNul sampleAuction.session.args ∧ GoodTypes sampleAuction.session.args ∧
    argNamed sampleAuction.session.args b!"amount" = some ⟨b!"amount", bigNum 8 100000000000000000, .u512⟩ ∧
    ∃ c, reviewItem samplePl (run samplePl (Dev.init samplePl) (sampleUpload (0 :: sampleAuction.tx Blake.H []) 4)).1 .tx 7 0 =
      .ok (b!"Amount", b!"5 motes") c :=
  ⟨by decide +kernel, by unfold noNul; decide +kernel, by unfold GoodTypes; decide +kernel, by decide +kernel, Res.val_ok.1 (by decide +kernel)⟩

end Casper
