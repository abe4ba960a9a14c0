import Verif.Props.Arguments
import Verif.Props.Seen
import Verif.Lib.ContentV1

/-!
C86: a line "Args hash" in the review of a Deploy that calls a contract or runs code.
-/
namespace Casper
open M CLType

/-- A program that ends with a line of another kind. -/
def Mute (m : P (Bytes × Bytes)) : Prop := ∀ s, Post m s (fun kv _ => kv.1 ≠ b!"Args hash")

section

theorem Mute.pure {key v : Bytes} (h : key ≠ b!"Args hash") : Mute (Pure.pure (key, v)) := fun _ => Post.pure h
theorem Mute.fail {x : Nat} : Mute (M.fail x) := fun _ => .fail
theorem Mute.abort {x : Fault} : Mute (M.abort x) := fun _ => .abort
theorem Mute.ite {c : Prop} [Decidable c] {m n : P (Bytes × Bytes)} (hm : Mute m) (hn : Mute n) : Mute (if c then m else n) := by
  split <;> assumption
theorem Mute.bind {α : Type} {m : P α} {f : α → P (Bytes × Bytes)} (h : ∀ a, Mute (f a)) : Mute (m >>= f) :=
  fun _ => Post.seq (P := fun _ _ => True) (fun _ _ _ => trivial) fun a t _ => h a t

theorem Mute_renderEntryPoint {e : Env} {epo : Nat} : Mute (renderEntryPoint e epo) := by
  unfold renderEntryPoint
  exact .bind fun _ => .bind fun _ => .bind fun _ => .bind fun _ => .bind fun _ => .pure (by decide)

theorem Mute_contractHash {e : Env} : Mute (contractHash e) := by
  unfold contractHash
  exact .bind fun _ => .bind fun _ => .ite .abort (.bind fun _ => .pure (by decide))

theorem Mute_fixedByHash {e : Env} {epo idx : Nat} {s v : Bool} {l : Bytes} : Mute (fixedByHash e epo s v l idx) := by
  unfold fixedByHash
  refine .ite (.pure (by decide)) (.ite (.bind fun _ => .bind fun _ => .pure (by decide)) (.bind fun _ => .ite ?_ ?_))
  · exact .bind fun _ => .ite (.pure (by decide)) (.bind fun _ => .ite Mute_renderEntryPoint (.pure (by decide)))
  · exact .bind fun _ => .ite Mute_renderEntryPoint (.pure (by decide))

theorem Mute_fixedByName {e : Env} {epo idx : Nat} {s v : Bool} {l : Bytes} : Mute (fixedByName e epo s v l idx) := by
  unfold fixedByName
  refine .ite (.pure (by decide)) (.ite (.bind fun _ => .bind fun _ => .pure (by decide)) (.bind fun _ => .ite ?_ ?_))
  · exact .bind fun _ => .ite (.pure (by decide)) (.bind fun _ => .ite Mute_renderEntryPoint (.pure (by decide)))
  · exact .bind fun _ => .ite Mute_renderEntryPoint (.pure (by decide))

theorem Mute_fixedDelegation {e : Env} {epo idx : Nat} {it : Item} : Mute (fixedDelegation e epo it idx) := by
  unfold fixedDelegation
  dsimp only
  refine .ite (.ite (.ite (.pure (by decide)) (.ite Mute_contractHash (.bind fun _ => .pure (by decide)))) (.bind fun _ => .pure (by decide))) ?_
  exact .ite Mute_fixedByHash (.ite Mute_fixedByHash (.ite Mute_fixedByName (.ite Mute_fixedByName .fail)))

theorem Mute_headerLine {e : Env} {idx : Nat} {d : Deploy} : Mute (headerLine e d idx) := by
  unfold headerLine
  refine .ite (.bind fun _ => .bind fun _ => ?_) (.ite (.bind fun _ => .bind fun _ => .bind fun _ => .pure (by decide))
    (.ite (.bind fun _ => .bind fun _ => .pure (by decide)) (.bind fun _ => .bind fun _ => .pure (by decide))))
  split
  · exact .fail
  · exact .pure (by decide)

theorem Mute_showArg {e : Env} {key name : Bytes} {n : Nat} (h : key ≠ b!"Args hash") : Mute (showArg e key name n) := by
  unfold showArg
  exact .bind fun _ => .bind fun _ => .pure h

theorem Mute_showMotes {e : Env} {key name : Bytes} {n : Nat} (h : key ≠ b!"Args hash") : Mute (showMotes e key name n) := by
  unfold showMotes
  exact .bind fun _ => .bind fun _ => .pure h

theorem Mute_itemSystemPayment {e : Env} {idx : Nat} {it : Item} (h : it.generic = 0) : Mute (itemSystemPayment e it idx) := by
  unfold itemSystemPayment
  exact .bind fun _ => .bind fun _ => .bind fun _ => .ite .fail (.bind fun _ => .bind fun _ => .bind fun _ => .ite .fail
    (.ite (by rw [if_pos h]; exact Mute_showMotes (by decide)) .fail))
end

/-- If the line is an "Args hash" then it is the hash of these arguments. -/
def HashOf (H : Bytes → Bytes) (as : List Arg) (kv : Bytes × Bytes) : Prop := kv.1 = b!"Args hash" → kv.2 = argsHashText H as

theorem Mute.hash {as : List Arg} {H : Bytes → Bytes} {m : P (Bytes × Bytes)} (h : Mute m) (s : Nat) : Post m s (fun kv _ => HashOf H as kv) :=
  (h s).mono fun _ _ h1 h2 => absurd h2 h1

theorem parseArgs_good {e : Env} {off : Nat} {as : List Arg} (hf : Fits e) (hok : GoodTypes as) (h : At e.buf off (encodeArgs as)) :
    parseArgs e as.length off = .ok () (off + (encodeArgs as).length) := by
  induction as generalizing off with
  | nil => rfl
  | cons a as ih =>
    rw [encodeArgs, At.append] at h
    obtain ⟨h1, h2, h3, h4⟩ := arg_at h.1
    obtain ⟨ha, ha'⟩ := hok a (by simp)
    have := ih (fun b hb => hok b (by simp [hb])) h.2
    rw [List.length_cons, parseArgs]
    simp only [bind_run, parseItem_at hf h1, parseItem_at hf h2, getType_ok ha ha' h4, Res.bind_ok]
    have hl := a.encode_length
    rw [show off + 4 + a.name.length + 4 + a.value.length + a.ty.encode.length = off + a.encode.length by omega,
      this, encodeArgs, List.length_append, Nat.add_assoc]

section
variable {e : Env} (hs : Small e) {as : List Arg} (hg : GoodTypes as)
include hs hg

theorem itemDelegation_hash {it : Item} {epo o k idx s : Nat} (h : At e.buf o (encodeRuntimeArgs as)) (hi : ItemFacts as o k it) (hk : k ≠ 5) :
    Post (itemDelegation e epo it idx) s (fun kv _ => HashOf e.blake as kv) := by
  have hf := hs.to_fits
  obtain ⟨hn, ha⟩ := At.append.1 (show At e.buf o (le 4 as.length ++ encodeArgs as) from h)
  rw [le_length] at ha
  have hle := ha.le
  have hal := encodeArgs_long as
  have hlen : (encodeRuntimeArgs as).length = 4 + (encodeArgs as).length := by unfold encodeRuntimeArgs; rw [List.length_append, le_length]
  unfold Small at hs
  have ho : it.itemOffset = o := by cases hi <;> first | assumption | contradiction
  unfold itemDelegation
  refine Post.seq (P := fun _ _ => True) (fun _ _ _ => trivial) fun _ t _ => Post.ite (fun _ => Mute_fixedDelegation.hash _) fun hfix => ?_
  refine .runThen (a := ()) (t := o) (by unfold seek; rw [ho, u16_id (by omega)]) ?_
  dsimp only
  refine Post.ite (fun _ => .fail) fun _ => Post.ite (fun _ => ?_) fun _ => Mute.hash ?_ _
  · refine .runThen (readU32_at h (by omega)) (Post.ite (fun _ => (Mute_showMotes (by decide)).hash _) fun _ => Post.ite (fun _ => ?_) fun _ => .fail)
    refine .runThen (parseArgs_good hf hg ha) (Post.getThen ?_)
    refine .runThen (slice_at (by rw [ho, u16_id (by omega)]; exact h) (by rw [ho]; unfold u32; omega)) (Post.pure fun _ => ?_)
    exact congrArg (b!"execution-" ++ ·) (encLoop_eq _ _)
  · refine .bind fun _ => .ite (Mute_showArg (by decide)) (.ite ?_ ?_)
    · exact .ite (Mute_showArg (by decide)) (.ite (Mute_showArg (by decide)) (.ite (Mute_showMotes (by decide)) .fail))
    · exact .ite (Mute_showArg (by decide)) (.ite (Mute_showMotes (by decide)) .fail)

theorem getItemDeploy_hash {d : Deploy} {epo o k idx s : Nat} (hst : headerLength d.header + 32 + d.payment.total ≤ e.buf.length) (hpay : d.payment.generic = 0)
    (h : At e.buf o (encodeRuntimeArgs as)) (hk : k ≠ 5) (hi : ItemFacts as o k d.session) :
    Post (getItemDeploy e epo d idx) s (fun kv _ => HashOf e.blake as kv) := by
  have hsm := hs
  unfold Small at hs
  unfold getItemDeploy
  refine Post.ite (fun _ => .fail) fun _ => Post.ite (fun _ => ?_) fun _ => Post.ite (fun _ => Mute.hash (.pure (by decide)) _) fun _ =>
    Post.ite (fun _ => ?_) fun _ => Post.ite (fun _ => ?_) fun _ => Post.ite (fun _ => Mute_headerLine.hash _) fun _ => ?_
  · exact Mute.hash (.bind fun _ => .bind fun _ => .pure (by decide)) _
  · exact Mute.hash (.bind fun _ => .bind fun _ => .bind fun _ => .pure (by decide)) _
  · exact Mute.hash (.bind fun _ => .bind fun _ => .pure (by decide)) _
  unfold bodyLine
  dsimp only
  refine .runThen (a := ()) (t := headerLength d.header + 32) (by unfold seek; rw [u16_id (by omega)]) ?_
  refine Post.ite (fun _ => Mute.hash (.ite (Mute_itemSystemPayment hpay) .fail) _) fun _ => ?_
  refine .runThen (skip_run (by omega)) (Post.ite (fun hx => ?_) fun _ => ?_)
  · refine Post.ite (fun hsp => ?_) fun hsp => Post.ite (fun _ => ?_) fun _ => .fail
    · exfalso
      cases hi with
      | transfer h1 => exact hk h1
      | module _ _ h3 => exact h3 hsp
      | call _ _ _ h3 => exact h3 hsp
    · exact itemDelegation_hash hsm hg h hi hk
  · exact Mute.hash (.bind fun _ => .ite (.bind fun _ => .pure (by decide)) .fail) _
end

/-- Accepted Deploys. -/
theorem DeployParse.hash {e : Env} (hs : Small e) {s : DS} {p q : IS} {k : Nat} (hp : DeployParse e s p q k) {it : ExecItem} (h32 : it.Sized)
    (hg : GoodTypes it.args) (hn : noNul it.args) (hm : ¬ it.AuctionCode) (h5 : ∀ as, it ≠ .transfer as) (ha : At e.buf p.off it.encode)
    (hst : headerLength s.dep.header + 32 < 65536) {idx o : Nat} {kv : Bytes × Bytes} {c : Nat}
    (h : getItemDeploy e s.epo s.dep idx o = .ok kv c) : HashOf e.blake it.args kv := by
  obtain ⟨k', head, h1, h2, h3, h4, -⟩ := ExecItem.head h32
  have hne : k' ≠ 5 := by
    rintro rfl
    cases it with
    | transfer as => exact h5 as rfl
    | moduleBytes | byHash | byName | versionedByHash | versionedByName =>
      have := (List.cons.inj h3).1
      exact absurd this (by decide)
  rw [h3] at ha
  have hk : k' = k := by
    have := hp.sesType.unique (At.cons.1 ha).1 rfl
    have := congrArg UInt8.toNat (List.cons.inj this).1
    have hsm := hp.small
    rw [UInt8.toNat_ofNat', UInt8.toNat_ofNat', Nat.mod_eq_of_lt (by omega), Nat.mod_eq_of_lt (by omega)] at this
    exact this.symm
  subst hk
  have ha' := (At.cons.1 ha).2
  have hext := hp.extent hs.to_fits
  have hpay := hp.payment hs.to_fits
  have hfacts := parseDeployItem_named hs hg (epo := p.epo) h1 ha' (fun h0 => by
    obtain ⟨code, hc⟩ := h4 h0
    rw [hc] at hm
    simp only [ExecItem.AuctionCode, ExecItem.args, not_or, not_exists, not_and, Nat.not_lt] at hm
    refine ⟨by rw [hc]; exact hm.2, fun ⟨a, ha, hb⟩ => hm.1 ?_⟩
    rw [Option.isSome_iff_exists]
    rw [cstr_eq (hn a ha)] at hb
    cases hq : argNamed it.args b!"auction" with
    | none => exact absurd hb (by simpa using List.find?_eq_none.1 hq a ha)
    | some b => exact ⟨b, by rw [hc] at hq; exact hq⟩) _ _ hp.ses
  have hd : s.dep.session = q.item ∧ s.dep.payment = p.item := by rw [hp.result]; exact ⟨rfl, rfl⟩
  dsimp only at hfacts
  rw [← hd.1] at hfacts
  have hb : s.dep.header.bodyStart = headerLength s.dep.header + 32 := u16_id hst
  refine getItemDeploy_hash hs hg ?_ (by rw [hd.2, hpay.2.1]) (At.append.1 ha').2 hne hfacts _ _ h
  rw [hd.2, hpay.2.1]
  dsimp only
  omega

/-- **C86.** A transaction review of data `0 :: xs`: `xs` are a header, its hash, a payment, a session and the rest, and the header contains the hash of payment and
session.  If the session is a serialized item other than a native transfer, whose arguments have types read as Casper does (by C57 this is so but for huge numbers and
`BadType`) and names without zero bytes, then every line "Args hash" of the review shows the hash of the complete list of arguments.  Not covered: code with an argument
"auction" or a name over 300 bytes (see `C86_masked_false`), and native transfers (see C13). -/
theorem C86_hash_partial (pl : Platform) (hcap : pl.cap ≤ 16384) (d d' : Dev) (hd : d.Ok pl) (rx : Bytes)
    (pin : Bool) (hins : rx.getD 1 0 = 2) (xs : Bytes) (hx : d.data ++ rx.drop 5 = 0 :: xs)
    (h : step pl d (.apdu rx pin) = (d', .pending)) :
    ∃ hdr pay ses rest, xs = hdr ++ pl.blake hdr ++ (pay ++ ses) ++ rest ∧ (xs.drop (keyLen xs + 24)).take 32 = pl.blake (pay ++ ses) ∧
      ∀ it : ExecItem, ses = it.encode → it.Sized → GoodTypes it.args → noNul it.args → ¬ it.AuctionCode → (∀ as, it ≠ .transfer as) →
        ∀ i text c, reviewItem pl d' .tx i 0 = .ok (b!"Args hash", text) c → text = argsHashText pl.blake it.args := by
  obtain ⟨hok, hdata, hcase⟩ := sign_pending (by omega) hd hins h
  rw [hx] at hcase hdata
  rcases hcase with ⟨ys, s, h1, h2, rfl⟩ | ⟨ys, s, h1, -, -⟩
  swap
  · simp at h1
  simp only [List.cons.injEq, true_and] at h1
  subst h1
  have hsm : Small (mkEnv pl d.expert xs) := small_data hcap hok hdata d.expert
  obtain ⟨p, q, k, hdr, hash, pay, ses, rest, hp, b1, b2, b3, b4, b5, b6, b7⟩ := h2.split hsm
  have hk := readDeploy_kind h2.parse
  have hle := congrArg List.length b1
  simp only [List.length_append] at hle
  refine ⟨hdr, pay, ses, rest, ?_, ?_, ?_⟩
  · rw [show pl.blake hdr = hash from b6]; exact b1
  · rw [hp.header.pkLen] at b7
    have := b7.take_drop
    rw [Hash.len] at this
    exact this
  · intro it hses h32 hg hn hm h5 i text c hr
    rw [reviewItem_deploy hok hdata s hk] at hr
    split at hr
    · cases hr
    have hst : headerLength s.dep.header + 32 < 65536 := by have := hsm; unfold Small at this; omega
    have hat : At (mkEnv pl d.expert xs).buf p.off it.encode :=
      ⟨hdr ++ hash ++ pay, rest, by rw [b1, ← hses]; simp only [List.append_assoc], by simp only [List.length_append]; omega⟩
    exact hp.hash hsm h32 hg hn hm h5 hat hst hr rfl

/-- The hypotheses can be met: the sample call. -/
example :
    (run samplePl (Dev.init samplePl) (sampleUpload (0 :: sampleMint.tx Blake.H []))).2.getLast? = some .pending ∧
    sampleMint.session.Sized ∧ GoodTypes sampleMint.session.args ∧ noNul sampleMint.session.args ∧ ¬ sampleMint.session.AuctionCode ∧
    (∀ as, sampleMint.session ≠ .transfer as) ∧
    ∃ c, reviewItem samplePl (run samplePl (Dev.init samplePl) (sampleUpload (0 :: sampleMint.tx Blake.H []))).1 .tx 8 0 =
      .ok (b!"Args hash", argsHashText Blake.H sampleMint.session.args) c :=
  ⟨by decide +kernel, List.length_replicate, by unfold GoodTypes; decide +kernel, by unfold noNul; decide +kernel, id, (fun _ h => by cases h),
    Res.val_ok.1 (by decide +kernel)⟩

/-- The answer is a line with this label and another text. -/
def Res.says (r : Res Nat (Bytes × Bytes)) (key text : Bytes) : Bool :=
  match r with
  | .ok kv _ => kv.1 == key && kv.2 != text
  | _ => false

theorem Res.says_ok {r : Res Nat (Bytes × Bytes)} {key text : Bytes} (h : r.says key text = true) : ∃ text' c, r = .ok (key, text') c ∧ text' ≠ text := by
  cases r with
  | ok kv c =>
    simp only [Res.says, Bool.and_eq_true, beq_iff_eq, bne_iff_ne] at h
    exact ⟨kv.2, c, by rw [← h.1], h.2⟩
  | err | fault => cases h

/-- The code and arguments of `sampleAuction`, but for another amount and one argument more. -/
def sampleMasked : DeploySpec := { sampleDeploy with
  session := .moduleBytes b!"code"
    (sampleAuction.session.args.take 2 ++ [⟨b!"amount", bigNum 8 1, .u512⟩, ⟨b!"to", List.replicate 32 0x66, .byteArray 32⟩, ⟨b!"auction", pfx b!"x", .string⟩]) }

/-- **C86 fails** for code with an argument "auction": the hash shown is that of something else, and two Deploys with different arguments are shown with the same hash, and
altogether with the same lines apart from that of the transaction hash. -/
theorem C86_masked_false :
    (run samplePl (Dev.init samplePl) (sampleUpload (0 :: sampleAuction.tx Blake.H []) 4)).2.getLast? = some .pending ∧
    (run samplePl (Dev.init samplePl) (sampleUpload (0 :: sampleMasked.tx Blake.H []) 4)).2.getLast? = some .pending ∧
    sampleAuction.session.args ≠ sampleMasked.session.args ∧ GoodTypes sampleMasked.session.args ∧ noNul sampleMasked.session.args ∧
    SameButHash samplePl (run samplePl (Dev.init samplePl) (sampleUpload (0 :: sampleAuction.tx Blake.H []) 4)).1
      (run samplePl (Dev.init samplePl) (sampleUpload (0 :: sampleMasked.tx Blake.H []) 4)).1 ∧
    ∃ text c, reviewItem samplePl (run samplePl (Dev.init samplePl) (sampleUpload (0 :: sampleMasked.tx Blake.H []) 4)).1 .tx 8 0 = .ok (b!"Args hash", text) c ∧
      text ≠ argsHashText Blake.H sampleMasked.session.args :=
  ⟨by decide +kernel, by decide +kernel, fun h => absurd (congrArg List.length h) (by decide), by unfold GoodTypes; decide +kernel, by unfold noNul; decide +kernel,
    ⟨9, by decide +kernel, by decide +kernel, by decide +kernel⟩, Res.says_ok (by decide +kernel)⟩

end Casper
