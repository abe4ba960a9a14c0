import Verif.Props.ArgsHash
import Verif.Props.Kinds
import Verif.Props.Complete
import Verif.Props.CutCalls
import Verif.Props.CutNames

/-!
# Deploys: kinds, hashes and completeness, all names
-/

namespace Casper

open M CLType

/-- Accepted Deploys. -/
theorem DeployParse.hash_cut {e : Env} (hs : Small e) {s : DS} {p q : IS} {k : Nat} (hp : DeployParse e s p q k) {it : ExecItem} (h32 : it.Sized)
    (hg : GoodTypes it.args) (hm : ∀ code as, it = .moduleBytes code as → ∀ a ∈ as, a.name.length ≤ 300 ∧ a.name.takeWhile (· != 0) ≠ b!"auction")
    (h5 : ∀ as, it ≠ .transfer as) (ha : At e.buf p.off it.encode)
    (hst : headerLength s.dep.header + 32 < 65536) {idx o : Nat} {kv : Bytes × Bytes} {c : Nat}
    (h : getItemDeploy e s.epo s.dep idx o = .ok kv c) : HashOf e.blake it.args kv := by
  obtain ⟨k', head, h1, h2, h3, h4, -⟩ := ExecItem.head h32
  have hne : k' ≠ 5 := by
    rintro rfl
    cases it with
    | transfer as => exact h5 as rfl
    | moduleBytes | byHash | byName | versionedByHash | versionedByName =>
      have := (List.cons.inj h3).1
      exact absurd this (by decide)
  rw [h3] at ha
  have hk : k' = k := by
    have := hp.sesType.unique (At.cons.1 ha).1 rfl
    have := congrArg UInt8.toNat (List.cons.inj this).1
    have hsm := hp.small
    rw [UInt8.toNat_ofNat', UInt8.toNat_ofNat', Nat.mod_eq_of_lt (by omega), Nat.mod_eq_of_lt (by omega)] at this
    exact this.symm
  subst hk
  have ha' := (At.cons.1 ha).2
  have hext := hp.extent hs.to_fits
  have hpay := hp.payment hs.to_fits
  have hfacts := parseDeployItem_named hs hg (epo := p.epo) h1 ha' (fun h0 => by
    obtain ⟨code, hc⟩ := h4 h0
    have hm := hm code it.args hc
    exact ⟨fun a ha => (hm a ha).1, fun ⟨a, ha, hb⟩ => (hm a ha).2 hb⟩) _ _ hp.ses
  have hd : s.dep.session = q.item ∧ s.dep.payment = p.item := by rw [hp.result]; exact ⟨rfl, rfl⟩
  dsimp only at hfacts
  rw [← hd.1] at hfacts
  have hb : s.dep.header.bodyStart = headerLength s.dep.header + 32 := u16_id hst
  refine getItemDeploy_hash hs hg ?_ (by rw [hd.2, hpay.2.1]) (At.append.1 ha').2 hne hfacts _ _ h
  rw [hd.2, hpay.2.1]
  dsimp only
  omega

/-- **C86, all names.** As `C86_hash_partial`, without conditions on zero bytes in names.  Not covered: code with an argument of the name "auction", up to a zero
byte, or with a name over 300 bytes; native transfers. -/
theorem C86_cut_partial (pl : Platform) (hcap : pl.cap ≤ 16384) (d d' : Dev) (hd : d.Ok pl) (rx : Bytes)
    (pin : Bool) (hins : rx.getD 1 0 = 2) (xs : Bytes) (hx : d.data ++ rx.drop 5 = 0 :: xs)
    (h : step pl d (.apdu rx pin) = (d', .pending)) :
    ∃ hdr pay ses rest, xs = hdr ++ pl.blake hdr ++ (pay ++ ses) ++ rest ∧ (xs.drop (keyLen xs + 24)).take 32 = pl.blake (pay ++ ses) ∧
      ∀ it : ExecItem, ses = it.encode → it.Sized → GoodTypes it.args →
      (∀ code as, it = .moduleBytes code as → ∀ a ∈ as, a.name.length ≤ 300 ∧ a.name.takeWhile (· != 0) ≠ b!"auction") →
      (∀ as, it ≠ .transfer as) →
        ∀ i text c, reviewItem pl d' .tx i 0 = .ok (b!"Args hash", text) c → text = argsHashText pl.blake it.args := by
  obtain ⟨hok, hdata, hcase⟩ := sign_pending (by omega) hd hins h
  rw [hx] at hcase hdata
  rcases hcase with ⟨ys, s, h1, h2, rfl⟩ | ⟨ys, s, h1, -, -⟩
  swap
  · simp at h1
  simp only [List.cons.injEq, true_and] at h1
  subst h1
  have hsm : Small (mkEnv pl d.expert xs) := small_data hcap hok hdata d.expert
  obtain ⟨p, q, k, hdr, hash, pay, ses, rest, hp, b1, b2, b3, b4, b5, b6, b7⟩ := h2.split hsm
  have hk := readDeploy_kind h2.parse
  have hle := congrArg List.length b1
  simp only [List.length_append] at hle
  refine ⟨hdr, pay, ses, rest, ?_, ?_, ?_⟩
  · rw [show pl.blake hdr = hash from b6]; exact b1
  · rw [hp.header.pkLen] at b7
    have := b7.take_drop
    rw [Hash.len] at this
    exact this
  · intro it hses h32 hg hm h5 i text c hr
    rw [reviewItem_deploy hok hdata s hk] at hr
    split at hr
    · cases hr
    have hst : headerLength s.dep.header + 32 < 65536 := by have := hsm; unfold Small at this; omega
    have hat : At (mkEnv pl d.expert xs).buf p.off it.encode :=
      ⟨hdr ++ hash ++ pay, rest, by rw [b1, ← hses]; simp only [List.append_assoc], by simp only [List.length_append]; omega⟩
    exact hp.hash_cut hsm h32 hg hm h5 hat hst hr rfl

/-- The hypotheses of `C86_cut_partial` can be met by a call of an unknown entry point with a zero byte in the name of its argument. -/
def sampleOddMint : DeploySpec := { sampleDeploy with
  session := .byHash (List.replicate 32 0x33) b!"mint" [⟨b!"auction" ++ 0 :: b!"eer", le 4 1, .u32⟩] }

example :
    (run samplePl (Dev.init samplePl) (sampleUpload (0 :: sampleOddMint.tx Blake.H []))).2.getLast? = some .pending ∧
    sampleOddMint.session.Sized ∧ GoodTypes sampleOddMint.session.args ∧ (∀ as, sampleOddMint.session ≠ .transfer as) ∧
    ∃ c, reviewItem samplePl (run samplePl (Dev.init samplePl) (sampleUpload (0 :: sampleOddMint.tx Blake.H []))).1 .tx 7 0 =
      .ok (b!"Args hash", argsHashText Blake.H sampleOddMint.session.args) c :=
  ⟨by decide +kernel, List.length_replicate, by unfold GoodTypes; decide +kernel, (fun _ h => by cases h), Res.val_ok.1 (by decide +kernel)⟩

theorem ExecItem.cut_entry {it : ExecItem} {entry : Bytes} (h : it.entryPoint = some entry) : it.cut.entryPoint = some (entry.takeWhile (· != 0)) := by
  cases it <;> cases h <;> rfl

/-- The titles of the kinds. -/
theorem typeLabel_title_cut {d : Deploy} (ht : d.session.typ ≠ 5) {entry : Bytes} (h : d.session.special = entryKind entry 255) :
    (entry.takeWhile (· != 0), typeLabel d) ∈ callTitles ∨ typeLabel d = b!"Contract execution" := by
  unfold typeLabel
  rw [if_neg (fun h => ht h.2), h]
  unfold entryKind
  have hce : cstr entry = entry.takeWhile (· != 0) := rfl
  rw [hce]
  generalize entry.takeWhile (· != 0) = entry
  by_cases hg : d.session.generic = 0
  swap
  · rw [if_neg (fun h => hg h.2), if_neg (fun h => hg h.2), if_neg (fun h => hg h.2)]
    exact .inr rfl
  rw [hg]
  by_cases h1 : entry = b!"delegate"
  · subst h1; exact .inl (by decide)
  by_cases h2 : entry = b!"undelegate"
  · subst h2; exact .inl (by decide)
  by_cases h3 : entry = b!"redelegate"
  · subst h3; exact .inl (by decide)
  rw [if_neg h1, if_neg h2, if_neg h3]
  exact .inr rfl

/-- Accepted Deploys. -/
theorem DeployParse.titled_cut {e : Env} (hs : Small e) {s : DS} {p q : IS} {k : Nat} (hp : DeployParse e s p q k) {it : ExecItem} (h32 : it.Sized)
    (hat : At e.buf p.off it.encode)
    (hm : ∀ code as, it = .moduleBytes code as → GoodTypes as ∧ ∀ a ∈ as, a.name.length ≤ 300 ∧ a.name.takeWhile (· != 0) ≠ b!"auction") 
    : it.cut.Titled (typeLabel s.dep) := by
  have hext := hp.extent hs.to_fits
  have hpay := (hp.payment hs.to_fits).2.1
  have hfacts := hp.facts hs
  have hd : s.dep.session = q.item ∧ s.dep.payment = p.item := by rw [hp.result]; exact ⟨rfl, rfl⟩
  have htag : ∀ {k' : Nat} {tail : Bytes}, k' ≤ 5 → it.encode = UInt8.ofNat k' :: tail → k' = k ∧ At e.buf (p.off + 1) tail := by
    intro k' tail hk' henc
    rw [henc] at hat
    have := hp.sesType.unique (At.cons.1 hat).1 rfl
    have := congrArg UInt8.toNat (List.cons.inj this).1
    have hsm := hp.small
    rw [UInt8.toNat_ofNat', UInt8.toNat_ofNat', Nat.mod_eq_of_lt (by omega), Nat.mod_eq_of_lt (by omega)] at this
    exact ⟨this.symm, (At.cons.1 hat).2⟩
  cases he : it.entryPoint with
  | some entry =>
    obtain ⟨k', pre, hh, henc⟩ := it.callHead h32 he
    obtain ⟨rfl, hat'⟩ := htag (by cases hh <;> omega) henc
    have hk := parseCall_kind hs hh hat' _ _ hp.ses
    have h5 : s.dep.session.typ ≠ 5 := by rw [hd.1, hfacts.typ]; cases hh <;> omega
    rcases typeLabel_title_cut h5 (by rw [hd.1]; exact hk) with h | h
    · exact .inr (.inl ⟨_, ExecItem.cut_entry he, h⟩)
    · exact .inr (.inr ⟨h, by intro as h; cases it <;> simp [ExecItem.cut] at h; cases he⟩)
  | none =>
    cases it with
    | byHash | byName | versionedByHash | versionedByName => cases he
    | transfer as =>
      obtain ⟨rfl, -⟩ := htag (k' := 5) (by omega) rfl
      refine .inl ⟨?_, as, rfl⟩
      unfold typeLabel
      rw [if_pos ⟨by rw [hd.2, hpay], by rw [hd.1]; exact hfacts.typ⟩]
    | moduleBytes code as =>
      obtain ⟨rfl, hat'⟩ := htag (k' := 0) (by omega) rfl
      obtain ⟨hg, ha⟩ := hm code as rfl
      refine .inr (.inr ⟨?_, by simp [ExecItem.cut]⟩)
      have hgen : s.dep.session.generic ≠ 0 := by
        have hfs := parseDeployItem_named hs hg (epo := p.epo) (.moduleBytes code) hat'
          (fun _ => ⟨fun a hm => (ha a hm).1, fun ⟨a, hm, hb⟩ => (ha a hm).2 hb⟩) _ _ hp.ses
        rw [hd.1]
        cases hfs with
        | transfer h => cases h
        | module _ _ _ h4 _ => exact h4
        | call _ h => exact absurd rfl h.1
      unfold typeLabel
      rw [if_neg (by rw [hd.1, hfacts.typ]; exact fun h => absurd h.2 (by decide)), if_neg (fun h => hgen h.2), if_neg (fun h => hgen h.2), if_neg (fun h => hgen h.2)]

/-- **C68, Deploys, all names.** As `C68_deploy_partial`, without conditions on zero bytes: the title is right for the session with its names cut at the first
zero byte.  Not covered: code with an argument of the (cut) name "auction". -/
theorem C68_cut_partial (pl : Platform) (hcap : pl.cap ≤ 16384) (d d' : Dev) (hd : d.Ok pl) (rx : Bytes)
    (pin : Bool) (hins : rx.getD 1 0 = 2) (xs : Bytes) (hx : d.data ++ rx.drop 5 = 0 :: xs)
    (h : step pl d (.apdu rx pin) = (d', .pending)) :
    ∃ hdr pay ses rest, xs = hdr ++ pl.blake hdr ++ (pay ++ ses) ++ rest ∧ (xs.drop (keyLen xs + 24)).take 32 = pl.blake (pay ++ ses) ∧
      ∃ text, (∀ t, ∃ c, reviewItem pl d' .tx 1 t = .ok (b!"Type", text) c) ∧
        ∀ it : ExecItem, ses = it.encode → it.Sized →
          (∀ code as, it = .moduleBytes code as → GoodTypes as ∧ ∀ a ∈ as, a.name.length ≤ 300 ∧ a.name.takeWhile (· != 0) ≠ b!"auction") →
            it.cut.Titled text := by
  obtain ⟨hok, hdata, hcase⟩ := sign_pending (by omega) hd hins h
  rw [hx] at hcase hdata
  rcases hcase with ⟨ys, s, h1, h2, rfl⟩ | ⟨ys, s, h1, -, -⟩
  swap
  · simp at h1
  simp only [List.cons.injEq, true_and] at h1
  subst h1
  have hsm : Small (mkEnv pl d.expert xs) := small_data hcap hok hdata d.expert
  obtain ⟨p, q, k, hdr, hash, pay, ses, rest, hp, b1, b2, b3, b4, b5, b6, b7⟩ := h2.split hsm
  have hk := readDeploy_kind h2.parse
  have hle := congrArg List.length b1
  simp only [List.length_append] at hle
  have hcount := hp.count hsm.to_fits
  refine ⟨hdr, pay, ses, rest, ?_, ?_, typeLabel s.dep, fun t => ⟨t, ?_⟩, fun it hses h32 hm => ?_⟩
  · rw [show pl.blake hdr = hash from b6]; exact b1
  · rw [hp.header.pkLen] at b7
    have := b7.take_drop
    rw [Hash.len] at this
    exact this
  · rw [reviewItem_deploy hok hdata s hk, show (d.loaded rx).expert = d.expert from rfl, u8_id (by omega), if_neg (by omega)]
    unfold getItemDeploy
    rw [if_neg (by omega), if_neg (by omega), if_pos rfl]
    rfl
  · have hat : At (mkEnv pl d.expert xs).buf p.off it.encode :=
      ⟨hdr ++ hash ++ pay, rest, by rw [b1, ← hses]; simp only [List.append_assoc], by simp only [List.length_append]; omega⟩
    exact hp.titled_cut hsm h32 hat hm

/-- The hypotheses of `C68_cut_partial` can be met by the sample of `C68_name_false`: with its name cut, it is a delegation. -/
example : (run samplePl (Dev.init samplePl) (sampleUpload (0 :: sampleOddEntry.tx Blake.H []))).2.getLast? = some .pending ∧
    sampleOddEntry.session.Sized ∧ ¬ sampleOddEntry.session.Plain ∧ sampleOddEntry.session.cut.Titled b!"Delegate" :=
  ⟨by decide +kernel, List.length_replicate, by show ¬ (0 : UInt8) ∉ _; decide, .inr (.inl ⟨b!"delegate", rfl, by decide⟩)⟩

section
variable {e : Env} (hf : Fits e) {as : List Arg} (hg : GoodTypes as) {o : Nat} (h : At e.buf o (encodeArgs as))
include hf hg h

/-- What the counting says if all arguments are counted. -/
theorem checkTransferArgs_named_cut : Post (checkTransferArgs e as.length) o
    (fun k t => t = o ∧ k ≤ 4 ∧ (k = as.length → k = 3 ∨ k = 4 → OnlyTransferArgs (cut as))) := by
  have count : ∀ {name : Bytes} {c : Nat → Nat → Bool} {a b x}, countStep a x = some b →
      (x = .found → ∃ a, Found as name a ∧ c a.ty.tag (a.ty.inner 255) = true) →
      b = a ∨ b = a + 1 ∧ ∃ y ∈ cut as, y.name = name ∧ c y.ty.tag (y.ty.inner 255) = true := by
    intro name c a b x hx hc
    cases x with
    | found =>
      cases hx
      obtain ⟨y, h1, h2⟩ := hc rfl
      have h3 := List.mem_of_find?_eq_some h1
      exact .inr ⟨rfl, { y with name := y.name.takeWhile (· != 0) }, List.mem_map_of_mem h3, by simpa [cstr] using List.find?_some h1, h2⟩
    | skip => cases hx; exact .inl rfl
    | returnOk => cases hx
  have zero : Post (pure 0 : P Nat) o (fun k t => t = o ∧ k ≤ 4 ∧ (k = as.length → k = 3 ∨ k = 4 → OnlyTransferArgs (cut as))) :=
    Post.pure ⟨rfl, by omega, fun _ h => by omega⟩
  have three : ∀ {x y z : Arg} {src : Option Arg}, x ∈ cut as → y ∈ cut as → z ∈ cut as → (∀ a, src = some a → a ∈ cut as) → as.length = 3 + src.toList.length →
      x.name = b!"amount" → y.name = b!"target" → z.name = b!"id" → (∀ a, src = some a → a.name = b!"source") →
      (cut as).Perm ([x, y, z] ++ src.toList) := by
    intro x y z src hx hy hz hs hl nx ny nz ns
    refine (List.Subperm.perm_of_length_le (List.subperm_of_subset ?_ ?_) ?_).symm
    · refine List.Nodup.of_map Arg.name ?_
      cases src with
      | none => simp [nx, ny, nz]
      | some a => simp [nx, ny, nz, ns a rfl]
    · intro a ha
      simp at ha
      rcases ha with rfl | rfl | rfl | ha
      · exact hx
      · exact hy
      · exact hz
      · exact hs a ha
    · rw [cut_length]; simp only [List.length_append, List.length_cons, List.length_nil]; omega
  unfold checkTransferArgs
  refine (checkArg_named hf hg h).seq fun _ t ⟨h0, _⟩ => ?_
  subst h0
  refine (countArg_named hf hg h).seq fun x t ⟨h0, c1⟩ => ?_
  subst h0
  split
  · exact zero
  rename_i a s1
  have k1 := count s1 c1
  refine (countArg_named hf hg h).seq fun x t ⟨h0, c2⟩ => ?_
  subst h0
  split
  · exact zero
  rename_i b s2
  have k2 := count s2 c2
  refine (countArg_named hf hg h).seq fun x t ⟨h0, c3⟩ => ?_
  subst h0
  split
  · exact zero
  rename_i c s3
  have k3 := count s3 c3
  clear s1 s2 s3 c1 c2 c3
  split
  · rename_i h4
    refine (countArg_named hf hg h).seq fun x t ⟨h0, c4⟩ => ?_
    subst h0
    split
    · exact zero
    rename_i d s4
    have k4 := count s4 c4
    refine Post.pure ⟨rfl, by omega, fun hd _ => ?_⟩
    rcases k1 with k1 | ⟨k1, x, x1, x2, x3⟩
    · omega
    rcases k2 with k2 | ⟨k2, y, y1, y2, y3⟩
    · omega
    rcases k3 with k3 | ⟨k3, z, z1, z2, z3⟩
    · omega
    rcases k4 with k4 | ⟨k4, w, w1, w2, w3⟩
    · omega
    refine ⟨x, z, y, some w, three x1 z1 y1 (by intro a h; cases h; exact w1) (by simp [h4]) x2 z2 y2 (by intro a h; cases h; exact w2),
      ⟨x2, isU512_ty x3⟩, ⟨z2, isAccount_ty z3⟩, ⟨y2, isId_ty y3⟩, by intro a h; cases h; exact ⟨w2, isAccount_ty w3⟩⟩
  · refine Post.pure ⟨rfl, by omega, fun hd _ => ?_⟩
    rcases k1 with k1 | ⟨k1, x, x1, x2, x3⟩
    · omega
    rcases k2 with k2 | ⟨k2, y, y1, y2, y3⟩
    · omega
    rcases k3 with k3 | ⟨k3, z, z1, z2, z3⟩
    · omega
    refine ⟨x, z, y, none, three x1 z1 y1 (by intro a h; cases h) (by simp; omega) x2 z2 y2 (by intro a h; cases h),
      ⟨x2, isU512_ty x3⟩, ⟨z2, isAccount_ty z3⟩, ⟨y2, isId_ty y3⟩, by intro a h; cases h⟩

end

/-- Transfers without a hash of their arguments. -/
theorem parseTransfer_named_cut {e : Env} (hs : Small e) {as : List Arg} (hg : GoodTypes as) {off epo : Nat} (h : At e.buf off (encodeRuntimeArgs as)) :
    Post (parseDeployItem e false) ⟨off, epo, { typ := 5 }⟩ (fun _ t => t.item.special = spNativeTransfer ∧ (t.item.generic = 0 → OnlyTransferArgs (cut as))) := by
  have hf := hs.to_fits
  have ha := (At.append.1 (show At e.buf off (le 4 as.length ++ encodeArgs as) from h)).2
  have hle := ha.le
  have hal := encodeArgs_long as
  unfold Small at hs
  rw [le_length] at ha hle
  unfold parseDeployItem
  refine Post.modifyThen (Post.getThen ?_)
  dsimp only
  rw [if_neg (by decide), if_neg (by decide), if_neg (by decide), if_pos (by decide)]
  unfold parseTransfer
  refine Post.getThen (.runThen (lp_run (readU32_at h (by omega))) ?_)
  refine Post.seq (P := fun _ t => t.item.generic = 0 → OnlyTransferArgs (cut as)) ?_ fun _ t ht => Post.modifyThen (finishItem_item.mono fun _ u ⟨x, hx⟩ => ?_)
  · unfold parseNativeTransfer
    refine (lp_post (checkTransferArgs_named_cut hf hg ha)).seq fun k t ⟨⟨h1, h2, h3⟩, h4⟩ => ?_
    dsimp only
    refine Post.ite (fun hu => Post.ite (fun hk => Post.modify fun _ => h3 ?_ hk) fun _ => Post.modifyThen .fail) fun _ => Post.modify fun h => by cases h
    unfold u32 at hu
    omega
  · rw [hx]; exact ⟨rfl, ht⟩

/-- **C72, all names.** As `C72_complete_partial`, without conditions on zero bytes: there are no other arguments than amount, target, id, and perhaps a source,
where names are cut at the first zero byte. -/
theorem C72_cut_partial (pl : Platform) (hcap : pl.cap ≤ 16384) (d d' : Dev) (hd : d.Ok pl) (rx : Bytes)
    (pin : Bool) (hins : rx.getD 1 0 = 2) (xs : Bytes) (hx : d.data ++ rx.drop 5 = 0 :: xs)
    (h : step pl d (.apdu rx pin) = (d', .pending)) :
    ∃ hdr pay ses rest, xs = hdr ++ pl.blake hdr ++ (pay ++ ses) ++ rest ∧ (xs.drop (keyLen xs + 24)).take 32 = pl.blake (pay ++ ses) ∧
      ∀ as, ses = (ExecItem.transfer as).encode → GoodTypes as →
        ∀ i key text c, reviewItem pl d' .tx i 0 = .ok (key, text) c → key ∈ sessionLabels.map ArgLine.label → OnlyTransferArgs (cut as) := by
  obtain ⟨hok, hdata, hcase⟩ := sign_pending (by omega) hd hins h
  rw [hx] at hcase hdata
  rcases hcase with ⟨ys, s, h1, h2, rfl⟩ | ⟨ys, s, h1, -, -⟩
  swap
  · simp at h1
  simp only [List.cons.injEq, true_and] at h1
  subst h1
  have hsm : Small (mkEnv pl d.expert xs) := small_data hcap hok hdata d.expert
  obtain ⟨p, q, k, hdr, hash, pay, ses, rest, hp, b1, b2, b3, b4, b5, b6, b7⟩ := h2.split hsm
  have hk := readDeploy_kind h2.parse
  have hle := congrArg List.length b1
  simp only [List.length_append] at hle
  refine ⟨hdr, pay, ses, rest, ?_, ?_, ?_⟩
  · rw [show pl.blake hdr = hash from b6]; exact b1
  · rw [hp.header.pkLen] at b7
    have := b7.take_drop
    rw [Hash.len] at this
    exact this
  · intro as hses hg i key text c hr hl
    rw [reviewItem_deploy hok hdata s hk] at hr
    split at hr
    · cases hr
    have hat : At (mkEnv pl d.expert xs).buf p.off (5 :: encodeRuntimeArgs as) :=
      ⟨hdr ++ hash ++ pay, rest, by rw [b1, hses]; simp only [List.append_assoc]; rfl, by simp only [List.length_append]; omega⟩
    have hk5 : k = 5 := by
      have := hp.sesType.unique (At.cons.1 hat).1 rfl
      have := congrArg UInt8.toNat (List.cons.inj this).1
      have hsm := hp.small
      rw [UInt8.toNat_ofNat', Nat.mod_eq_of_lt (by omega)] at this
      exact this
    subst hk5
    obtain ⟨g1, g2⟩ := parseTransfer_named_cut hsm hg (At.cons.1 hat).2 _ _ hp.ses
    have hd : s.dep.session = q.item := by rw [hp.result]
    rw [← hd] at g1 g2
    by_cases hgen : s.dep.session.generic = 0
    · exact g2 hgen
    · exfalso
      obtain ⟨l, l1, l2⟩ := List.mem_map.1 hl
      obtain ⟨a, h1, -⟩ := getItemDeploy_hashed g1 hgen _ _ hr l l1 l2.symm
      cases h1

/-- A transfer all of whose names end in a zero byte. -/
def sampleOddTransfer : DeploySpec := { sampleDeploy with session := .transfer (sampleTransferArgs.map Arg.marked) }

/-- The hypotheses of `C72_cut_partial` can be met by it.  For the network it has neither amount nor target. -/
example :
    (run samplePl (Dev.init samplePl) (sampleUpload (0 :: sampleOddTransfer.tx Blake.H []))).2.getLast? = some .pending ∧
    GoodTypes (sampleTransferArgs.map Arg.marked) ∧ argNamed (sampleTransferArgs.map Arg.marked) b!"amount" = none ∧
    argNamed (sampleTransferArgs.map Arg.marked) b!"target" = none ∧
    ∃ key text c, reviewItem samplePl (run samplePl (Dev.init samplePl) (sampleUpload (0 :: sampleOddTransfer.tx Blake.H []))).1 .tx 6 0 = .ok (key, text) c ∧
      key ∈ sessionLabels.map ArgLine.label := by
  refine ⟨by decide +kernel, by unfold GoodTypes; decide +kernel, by decide +kernel, by decide +kernel, b!"Amount", ?_⟩
  have h : ∃ c, reviewItem samplePl (run samplePl (Dev.init samplePl) (sampleUpload (0 :: sampleOddTransfer.tx Blake.H []))).1 .tx 6 0 =
      .ok (b!"Amount", b!"24 500 000 000 motes") c := Res.val_ok.1 (by decide +kernel)
  obtain ⟨c, h⟩ := h
  exact ⟨_, c, h, by decide⟩

end Casper
