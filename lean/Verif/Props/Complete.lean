import Verif.Props.Arguments
import Verif.Props.Seen
import Verif.Lib.TransferCount
/-
C72: an itemised review of a transfer in a Deploy leaves no argument out.
-/
namespace Casper
open M CLType

section
variable {e : Env} (hf : Fits e) {as : List Arg} (hg : GoodTypes as) {o : Nat} (h : At e.buf o (encodeArgs as))
include hf hg h

theorem countArg_named {name : Bytes} {c : Nat → Nat → Bool} :
    Post (countArg e as.length name c) o (fun x t => t = o ∧ (x = .found → ∃ a, Found as name a ∧ c a.ty.tag (a.ty.inner 255) = true)) := by
  intro x t hx
  refine ⟨((Ret_countArg (Ret_search hf hg h) _ _) _ rfl).1 x t hx, ?_⟩
  unfold countArg at hx
  rw [bind_run, attempt_run] at hx
  cases hm : searchArgs e name as.length o with
  | ok r v =>
    rw [hm] at hx
    dsimp only [Res.bind_ok] at hx
    obtain ⟨a, k1, rfl⟩ := (searchFrom_named hf hg h).2 r _ hm
    split at hx
    · rename_i hc
      intro _
      exact ⟨a, k1, hc⟩
    · cases hx; intro h; cases h
  | err y v =>
    rw [hm] at hx
    dsimp only [Res.bind_ok] at hx
    split at hx
    · cases hx
    · cases hx; intro h; cases h
  | fault f => rw [hm] at hx; cases hx

/-- What the counting says if all arguments are counted. -/
theorem checkTransferArgs_named (hn : noNul as) : Post (checkTransferArgs e as.length) o
    (fun k t => t = o ∧ k ≤ 4 ∧ (k = as.length → k = 3 ∨ k = 4 → OnlyTransferArgs as)) := by
  have count : ∀ {name : Bytes} {c : Nat → Nat → Bool} {a b x}, countStep a x = some b →
      (x = .found → ∃ a, Found as name a ∧ c a.ty.tag (a.ty.inner 255) = true) →
      b = a ∨ b = a + 1 ∧ ∃ y ∈ as, y.name = name ∧ c y.ty.tag (y.ty.inner 255) = true := by
    intro name c a b x hx hc
    cases x with
    | found =>
      cases hx
      obtain ⟨y, h1, h2⟩ := hc rfl
      have h3 := List.mem_of_find?_eq_some h1
      refine .inr ⟨rfl, y, h3, ?_, h2⟩
      rw [← cstr_eq (hn y h3)]
      simpa using List.find?_some h1
    | skip => cases hx; exact .inl rfl
    | returnOk => cases hx
  have zero : Post (pure 0 : P Nat) o (fun k t => t = o ∧ k ≤ 4 ∧ (k = as.length → k = 3 ∨ k = 4 → OnlyTransferArgs as)) :=
    Post.pure ⟨rfl, by omega, fun _ h => by omega⟩
  have three : ∀ {x y z : Arg} {src : Option Arg}, x ∈ as → y ∈ as → z ∈ as → (∀ a, src = some a → a ∈ as) → as.length = 3 + src.toList.length →
      x.name = b!"amount" → y.name = b!"target" → z.name = b!"id" → (∀ a, src = some a → a.name = b!"source") →
      as.Perm ([x, y, z] ++ src.toList) := by
    intro x y z src hx hy hz hs hl nx ny nz ns
    refine (List.Subperm.perm_of_length_le (List.subperm_of_subset ?_ ?_) ?_).symm
    · refine List.Nodup.of_map Arg.name ?_
      cases src with
      | none => simp [nx, ny, nz]
      | some a => simp [nx, ny, nz, ns a rfl]
    · intro a ha
      simp at ha
      rcases ha with rfl | rfl | rfl | ha
      · exact hx
      · exact hy
      · exact hz
      · exact hs a ha
    · simp only [List.length_append, List.length_cons, List.length_nil]; omega
  unfold checkTransferArgs
  refine (checkArg_named hf hg h).seq fun _ t ⟨h0, _⟩ => ?_
  subst h0
  refine (countArg_named hf hg h).seq fun x t ⟨h0, c1⟩ => ?_
  subst h0
  split
  · exact zero
  rename_i a s1
  have k1 := count s1 c1
  refine (countArg_named hf hg h).seq fun x t ⟨h0, c2⟩ => ?_
  subst h0
  split
  · exact zero
  rename_i b s2
  have k2 := count s2 c2
  refine (countArg_named hf hg h).seq fun x t ⟨h0, c3⟩ => ?_
  subst h0
  split
  · exact zero
  rename_i c s3
  have k3 := count s3 c3
  clear s1 s2 s3 c1 c2 c3
  split
  · rename_i h4
    refine (countArg_named hf hg h).seq fun x t ⟨h0, c4⟩ => ?_
    subst h0
    split
    · exact zero
    rename_i d s4
    have k4 := count s4 c4
    refine Post.pure ⟨rfl, by omega, fun hd _ => ?_⟩
    rcases k1 with k1 | ⟨k1, x, x1, x2, x3⟩
    · omega
    rcases k2 with k2 | ⟨k2, y, y1, y2, y3⟩
    · omega
    rcases k3 with k3 | ⟨k3, z, z1, z2, z3⟩
    · omega
    rcases k4 with k4 | ⟨k4, w, w1, w2, w3⟩
    · omega
    refine ⟨x, z, y, some w, three x1 z1 y1 (by intro a h; cases h; exact w1) (by simp [h4]) x2 z2 y2 (by intro a h; cases h; exact w2),
      ⟨x2, isU512_ty x3⟩, ⟨z2, isAccount_ty z3⟩, ⟨y2, isId_ty y3⟩, by intro a h; cases h; exact ⟨w2, isAccount_ty w3⟩⟩
  · refine Post.pure ⟨rfl, by omega, fun hd _ => ?_⟩
    rcases k1 with k1 | ⟨k1, x, x1, x2, x3⟩
    · omega
    rcases k2 with k2 | ⟨k2, y, y1, y2, y3⟩
    · omega
    rcases k3 with k3 | ⟨k3, z, z1, z2, z3⟩
    · omega
    refine ⟨x, z, y, none, three x1 z1 y1 (by intro a h; cases h) (by simp; omega) x2 z2 y2 (by intro a h; cases h),
      ⟨x2, isU512_ty x3⟩, ⟨z2, isAccount_ty z3⟩, ⟨y2, isId_ty y3⟩, by intro a h; cases h⟩

end

/-- Transfers without a hash of their arguments. -/
theorem parseTransfer_named {e : Env} (hs : Small e) {as : List Arg} (hg : GoodTypes as) (hn : noNul as) {off epo : Nat} (h : At e.buf off (encodeRuntimeArgs as)) :
    Post (parseDeployItem e false) ⟨off, epo, { typ := 5 }⟩ (fun _ t => t.item.special = spNativeTransfer ∧ (t.item.generic = 0 → OnlyTransferArgs as)) := by
  have hf := hs.to_fits
  have ha := (At.append.1 (show At e.buf off (le 4 as.length ++ encodeArgs as) from h)).2
  have hle := ha.le
  have hal := encodeArgs_long as
  unfold Small at hs
  rw [le_length] at ha hle
  unfold parseDeployItem
  refine Post.modifyThen (Post.getThen ?_)
  dsimp only
  rw [if_neg (by decide), if_neg (by decide), if_neg (by decide), if_pos (by decide)]
  unfold parseTransfer
  refine Post.getThen (.runThen (lp_run (readU32_at h (by omega))) ?_)
  refine Post.seq (P := fun _ t => t.item.generic = 0 → OnlyTransferArgs as) ?_ fun _ t ht => Post.modifyThen (finishItem_item.mono fun _ u ⟨x, hx⟩ => ?_)
  · unfold parseNativeTransfer
    refine (lp_post (checkTransferArgs_named hf hg ha hn)).seq fun k t ⟨⟨h1, h2, h3⟩, h4⟩ => ?_
    dsimp only
    refine Post.ite (fun hu => Post.ite (fun hk => Post.modify fun _ => h3 ?_ hk) fun _ => Post.modifyThen .fail) fun _ => Post.modify fun h => by cases h
    unfold u32 at hu
    omega
  · rw [hx]; exact ⟨rfl, ht⟩

/-- Reviews with a hash of the arguments have no lines about arguments. -/
theorem getItemDeploy_hashed {e : Env} {d : Deploy} {epo idx s : Nat} (h1 : d.session.special = spNativeTransfer) (h2 : d.session.generic ≠ 0) :
    Post (getItemDeploy e epo d idx) s (fun kv _ => LineOf e.blake [] kv) := by
  unfold getItemDeploy
  refine Post.ite (fun _ => .fail) fun _ => Post.ite (fun _ => ?_) fun _ => Post.ite (fun _ => Post.pure (.other (by decide))) fun _ =>
    Post.ite (fun _ => ?_) fun _ => Post.ite (fun _ => ?_) fun _ => Post.ite (fun _ => Else_headerLine _) fun _ => ?_
  · exact Else.bind (fun _ => .bind fun _ => .pure (by decide)) _
  · exact Else.bind (fun _ => .bind fun _ => .bind fun _ => .pure (by decide)) _
  · exact Else.bind (fun _ => .bind fun _ => .pure (by decide)) _
  unfold bodyLine
  dsimp only
  refine Else.bind (fun _ => Else.ite (Else.ite Else_itemSystemPayment .fail) (.bind fun _ => .ite ?_ (.bind fun _ => .ite (.bind fun _ => .pure (by decide)) .fail))) _
  rw [if_pos h1]
  unfold itemNativeTransfer
  refine .bind fun _ => .bind fun _ => .bind fun _ => .ite .fail (.ite .fail ?_)
  dsimp only
  rw [if_pos (by omega)]
  refine .ite (.bind fun _ => .bind fun _ => fun s => ?_) .fail
  exact Post.seq (Else_showArgsHash s) fun r t hr => Post.seq (P := fun _ _ => True) (fun _ _ _ => trivial) fun _ _ _ => Post.pure hr

/-- **C72.** A transaction review of data `0 :: xs`: `xs` are a header, its hash, a payment, a session and the rest, and the header contains the hash of payment and
session.  If the session is a serialized transfer, whose arguments have types read as Casper does (by C57 this is so but for huge numbers and `BadType`) and names
without zero bytes, and if the review has a line about one of them ("Target", "Amount", "From" or "ID"), then there are no others: the arguments are amount,
target, id, and perhaps a source, each once and of the type it should have.  Not covered: transfers shown by a hash of (some of) their arguments, see C13, and other
sessions, see `C72_delegation_false`. -/
theorem C72_complete_partial (pl : Platform) (hcap : pl.cap ≤ 16384) (d d' : Dev) (hd : d.Ok pl) (rx : Bytes)
    (pin : Bool) (hins : rx.getD 1 0 = 2) (xs : Bytes) (hx : d.data ++ rx.drop 5 = 0 :: xs)
    (h : step pl d (.apdu rx pin) = (d', .pending)) :
    ∃ hdr pay ses rest, xs = hdr ++ pl.blake hdr ++ (pay ++ ses) ++ rest ∧ (xs.drop (keyLen xs + 24)).take 32 = pl.blake (pay ++ ses) ∧
      ∀ as, ses = (ExecItem.transfer as).encode → GoodTypes as → noNul as →
        ∀ i key text c, reviewItem pl d' .tx i 0 = .ok (key, text) c → key ∈ sessionLabels.map ArgLine.label → OnlyTransferArgs as := by
  obtain ⟨hok, hdata, hcase⟩ := sign_pending (by omega) hd hins h
  rw [hx] at hcase hdata
  rcases hcase with ⟨ys, s, h1, h2, rfl⟩ | ⟨ys, s, h1, -, -⟩
  swap
  · simp at h1
  simp only [List.cons.injEq, true_and] at h1
  subst h1
  have hsm : Small (mkEnv pl d.expert xs) := small_data hcap hok hdata d.expert
  obtain ⟨p, q, k, hdr, hash, pay, ses, rest, hp, b1, b2, b3, b4, b5, b6, b7⟩ := h2.split hsm
  have hk := readDeploy_kind h2.parse
  have hle := congrArg List.length b1
  simp only [List.length_append] at hle
  refine ⟨hdr, pay, ses, rest, ?_, ?_, ?_⟩
  · rw [show pl.blake hdr = hash from b6]; exact b1
  · rw [hp.header.pkLen] at b7
    have := b7.take_drop
    rw [Hash.len] at this
    exact this
  · intro as hses hg hn i key text c hr hl
    rw [reviewItem_deploy hok hdata s hk] at hr
    split at hr
    · cases hr
    have hat : At (mkEnv pl d.expert xs).buf p.off (5 :: encodeRuntimeArgs as) :=
      ⟨hdr ++ hash ++ pay, rest, by rw [b1, hses]; simp only [List.append_assoc]; rfl, by simp only [List.length_append]; omega⟩
    have hk5 : k = 5 := by
      have := hp.sesType.unique (At.cons.1 hat).1 rfl
      have := congrArg UInt8.toNat (List.cons.inj this).1
      have hsm := hp.small
      rw [UInt8.toNat_ofNat', Nat.mod_eq_of_lt (by omega)] at this
      exact this
    subst hk5
    obtain ⟨g1, g2⟩ := parseTransfer_named hsm hg hn (At.cons.1 hat).2 _ _ hp.ses
    have hd : s.dep.session = q.item := by rw [hp.result]
    rw [← hd] at g1 g2
    by_cases hgen : s.dep.session.generic = 0
    · exact g2 hgen
    · exfalso
      obtain ⟨l, l1, l2⟩ := List.mem_map.1 hl
      obtain ⟨a, h1, -⟩ := getItemDeploy_hashed g1 hgen _ _ hr l l1 l2.symm
      cases h1

/-- The hypotheses can be met: the sample transfer. -/
example :
    (run samplePl (Dev.init samplePl) (sampleUpload (0 :: sampleDeploy.tx Blake.H []))).2.getLast? = some .pending ∧
    sampleDeploy.session = .transfer sampleTransferArgs ∧ GoodTypes sampleTransferArgs ∧ noNul sampleTransferArgs ∧
    (∃ text c, reviewItem samplePl (afterUpload false (0 :: sampleDeploy.tx Blake.H [])) .tx 5 0 = .ok (b!"Target", text) c) ∧
    b!"Target" ∈ sessionLabels.map ArgLine.label := by
  refine ⟨by decide +kernel, rfl, by unfold GoodTypes; decide +kernel, by unfold noNul; decide +kernel, ?_, by decide⟩
  obtain ⟨_, ttext, _, _, _, _, _, _, h1⟩ := (sampleTransfers sampleDeploy_usual rfl).shown (pl := samplePl) (by decide) (.init _) (ap := []) (by decide)
    (uploaded_sample (ex := false) (by decide +kernel)) (time := []) (by intro h; cases h)
  obtain ⟨c, h2⟩ := (h1 0).2 5 (b!"Target", ttext) (by simp [DeploySpec.screens, show (Dev.init samplePl).expert = false from rfl])
  exact ⟨_, c, h2⟩

/-- The sample delegation with a fourth argument, which contracts can read. -/
def sampleExtra : DeploySpec := { sampleDelegate with
  session := .byHash (List.replicate 32 0x93) b!"delegate" (sampleDelegate.session.args ++ [⟨b!"beneficiary", 1 :: List.replicate 32 0x66, .publicKey⟩]) }

/-- **C72 fails** for delegations: a fourth argument changes nothing in the review but the hash of the transaction, not even in expert mode. -/
theorem C72_delegation_false :
    (∃ a ∈ sampleExtra.session.args, a ∉ sampleDelegate.session.args) ∧
    SameButHash samplePl (afterUpload false (0 :: sampleDelegate.tx Blake.H [])) (afterUpload false (0 :: sampleExtra.tx Blake.H [])) ∧
    SameButHash samplePl (afterUpload true (0 :: sampleDelegate.tx Blake.H [])) (afterUpload true (0 :: sampleExtra.tx Blake.H [])) :=
  ⟨⟨⟨b!"beneficiary", 1 :: List.replicate 32 0x66, .publicKey⟩, by decide +kernel, by decide +kernel⟩,
    ⟨8, by decide +kernel, by decide +kernel, by decide +kernel⟩, ⟨15, by decide +kernel, by decide +kernel, by decide +kernel⟩⟩

end Casper
