import Verif.Props.Wire
import Verif.Lib.CanonArgs
import Verif.Props.Payment
/-
C57: accepted Deploys are serialized Deploys.
-/
namespace Casper
open M CLType

/-- From `o` to `fin` there are `n` serialized arguments, or one with a bad type. -/
def ItemArgsAt (e : Env) (o n fin : Nat) : Prop :=
  BadArgs e.buf o n ∨ ∃ as : List Arg, as.length = n ∧ GoodTypes as ∧ At e.buf o (encodeArgs as) ∧ fin = o + (encodeArgs as).length

/-- The loop over the arguments, after searches that leave the cursor where it was. -/
theorem finish_canon {e : Env} {o n start : Nat} (hp : Plain e o) (ho : o ≤ e.buf.length) {s : IS} (hs : ¬ BadArgs e.buf o n → s.off = o) :
    Post (finishItem e n start) s (fun _ t => ItemArgsAt e o n t.off) := by
  by_cases hb : BadArgs e.buf o n
  · exact fun _ _ _ => .inl hb
  have hs := hs hb
  subst hs
  refine (finishItem_post ho).mono fun _ t ⟨h1, _⟩ => .inr ?_
  obtain ⟨as, k1, k2, k3, k4⟩ := parseArgs_canon hp hb n (pre := []) (At.nil ho) (by intro a ha; cases ha) rfl (by simp) h1
  exact ⟨as, by simpa using k1, k2, k3, k4⟩

theorem parseDelegation_post {e : Env} {o n : Nat} (hp : Plain e o) (ho : o ≤ e.buf.length) (r : Bool) {s : IS} (hs : s.off = o) :
    Post (parseDelegation e n r) s (fun _ t => ¬ BadArgs e.buf o n → t.off = o) :=
  fun a t ht hb => parseDelegation_home (fun nm => Ret_searchArgs nm hp ho hb) r hs a t ht

theorem entry_canon {e : Env} {start : Nat} {s : IS} (hp : Plain e s.off) :
    Post (do let n ← checkEntrypoint e; finishItem e n start) s (fun _ t => ∃ n entry, At e.buf s.off (pfx entry ++ le 4 n) ∧ n < 4294967296 ∧
      ItemArgsAt e (s.off + (pfx entry).length + 4) n t.off) := by
  refine (show Post (checkEntrypoint e) s (fun n t => ∃ entry, At e.buf s.off (pfx entry ++ le 4 n) ∧ n < 4294967296 ∧
      (¬ BadArgs e.buf (s.off + (pfx entry).length + 4) n → t.off = s.off + (pfx entry).length + 4)) from ?_).seq fun n t ⟨entry, h1, h2, h3⟩ => ?_
  · unfold checkEntrypoint
    refine Post.modifyThen ((lp_post (copyItem_post hp.fits)).seq fun nm t ⟨⟨h1, h2, h3, h4⟩, h5⟩ => Post.modifyThen ?_)
    dsimp only at h1 h3
    refine (lp_post readU32_post).seq fun n u ⟨⟨k1, k2, k3, k4⟩, k5⟩ => Post.modifyThen ?_
    have hl : (pfx nm).length = 4 + nm.length := pfx_length _
    dsimp only at k1 k3 k4
    have hu : u.off = s.off + (pfx nm).length + 4 := by omega
    have hpu : Plain e u.off := hp.mono (by omega)
    refine Post.seq (P := fun _ t => ¬ BadArgs e.buf u.off n → t.off = u.off) (parseDelegation_post (o := u.off) hpu (by omega) _ (by rfl)) fun _ w hw => Post.pure ?_
    exact ⟨nm, At.append.2 ⟨h1, k1.cast (by omega)⟩, k2, by rw [← hu]; exact hw⟩
  · have := h1.le
    simp only [List.length_append, le_length] at this
    exact (finish_canon (hp.mono (by omega)) (by omega) h3).mono fun _ u h => ⟨n, entry, h1, h2, h⟩

/-- From the version on. -/
theorem version_canon {e : Env} {start : Nat} {s : IS} (hp : Plain e s.off) (ver : Bool) :
    Post (do versionStep e ver; let n ← checkEntrypoint e; finishItem e n start) s (fun _ t => ∃ vb entry n, At e.buf s.off (vb ++ (pfx entry ++ le 4 n)) ∧
      (ver = false → vb = []) ∧ (ver = true → ∃ v, vb = optional (le 4) v) ∧ n < 4294967296 ∧
      ItemArgsAt e (s.off + vb.length + (pfx entry).length + 4) n t.off) := by
  refine (versionStep_long ver).seq fun _ t ⟨vb, h1, h2, h3, h4⟩ => ?_
  refine (entry_canon (hp.mono (by omega))).mono fun _ u ⟨n, entry, k1, k2, k3⟩ => ?_
  exact ⟨vb, entry, n, h1 _ k1, h3, h4, k2, by rw [← h2]; exact k3⟩

/-- An item whose data contain no huge numbers: a head according to the type, the number of arguments, the arguments. -/
theorem parseDeployItem_canon {e : Env} {off epo k : Nat} (hsm : Small e) (hp : Plain e off) (ho : off ≤ e.buf.length) (pay : Bool) :
    Post (parseDeployItem e pay) ⟨off, epo, { typ := k }⟩ (fun _ t => ∃ head n, ItemHead k head ∧ At e.buf off (head ++ le 4 n) ∧
      n < 4294967296 ∧ ItemArgsAt e (off + head.length + 4) n t.off) := by
  unfold parseDeployItem
  refine Post.modifyThen (Post.getThen ?_)
  dsimp only
  refine Post.ite (fun hk => ?_) fun _ => Post.ite (fun hk => ?_) fun _ => Post.ite (fun hk => ?_) fun _ => Post.ite (fun hk => ?_) fun _ => .fail
  · unfold parseModuleBytes
    refine Post.getThen ((lp_post (parseItem_pfx hp)).seq fun _ t ⟨⟨xs, h1, h2, h3⟩, h4⟩ => ?_)
    dsimp only at h1 h2
    refine (lp_post readU32_post).seq fun n u ⟨⟨k1, k2, k3, k4⟩, k5⟩ => ?_
    have hl : (pfx xs).length = 4 + xs.length := pfx_length _
    have hpu : Plain e u.off := hp.mono (by omega)
    have hu : u.off = off + (pfx xs).length + 4 := by omega
    have fin : ∀ w : IS, (¬ BadArgs e.buf u.off n → w.off = u.off) → Post (finishItem e n off) w (fun _ t => ∃ head n, ItemHead k head ∧
      At e.buf off (head ++ le 4 n) ∧ n < 4294967296 ∧ ItemArgsAt e (off + head.length + 4) n t.off) := fun w hw =>
      (finish_canon hpu (by omega) hw).mono fun _ v h => ⟨pfx xs, n, hk ▸ .moduleBytes xs, At.append.2 ⟨h1, k1.cast (by omega)⟩, k2, hu ▸ h⟩
    refine Post.ite (fun _ => ?_) fun _ => ?_
    · refine Post.seq (P := fun _ t => ¬ BadArgs e.buf u.off n → t.off = u.off) ?_ fun _ w h => Post.modifyThen (fin _ h)
      exact fun a t ht hb => (Ret_parseSystemPayment (fun nm => Ret_searchArgs nm hpu (by omega) hb) u rfl).1 a t ht
    · exact (parseDelegation_post hpu (by omega) _ rfl).seq fun _ w h => fin _ h
  · unfold parseByHash
    refine Post.getThen (Post.modifyThen (f := fun _ => _) (g := fun s : IS => { s with off := u16 (s.off + 32) }) (Post.getThen ?_))
    have ho' : u16 (off + 32) = off + 32 := u16_id (by unfold Small at hsm; omega)
    dsimp only
    rw [ho']
    refine (version_canon (hp.mono (by exact Nat.le_add_right off 32)) _).mono fun _ u ⟨vb, entry, n, h1, h2, h3, h4, h5⟩ => ?_
    dsimp only at h1 h5
    have hle := h1.le
    obtain ⟨h, g1, g2⟩ := at_mid (buf := e.buf) (a := off) (b := off + 32) (by omega) (by omega)
    have h32 : h.length = 32 := by omega
    have hat : At e.buf off (h ++ (vb ++ (pfx entry ++ le 4 n))) := by
      refine At.append.2 ⟨g1, h1.cast ?_⟩; omega
    rcases hk with hk | hk <;> subst hk
    · obtain rfl := h2 (decide_eq_false (by decide))
      refine ⟨h ++ pfx entry, n, .byHash h entry h32, by simpa using hat, h4, ?_⟩
      rw [show off + (h ++ pfx entry).length + 4 = off + 32 + ([] : Bytes).length + (pfx entry).length + 4 by simp [h32]; omega]; exact h5
    · obtain ⟨v, rfl⟩ := h3 (decide_eq_true rfl)
      refine ⟨h ++ (optional (le 4) v ++ pfx entry), n, .versionedByHash h v entry h32, by simpa using hat, h4, ?_⟩
      rw [show off + (h ++ (optional (le 4) v ++ pfx entry)).length + 4 = off + 32 + (optional (le 4) v).length + (pfx entry).length + 4 by
        simp [h32]; omega]; exact h5
  · unfold parseByName
    refine Post.getThen ((lp_post (parseItem_pfx hp)).seq fun _ t ⟨⟨xs, g1, g2, g3⟩, g4⟩ => Post.getThen ?_)
    dsimp only at g1 g2
    have hl : (pfx xs).length = 4 + xs.length := pfx_length _
    refine (version_canon (hp.mono (by omega)) _).mono fun _ u ⟨vb, entry, n, h1, h2, h3, h4, h5⟩ => ?_
    have hat : At e.buf off (pfx xs ++ (vb ++ (pfx entry ++ le 4 n))) := At.append.2 ⟨g1, h1.cast (by omega)⟩
    have htyp : t.item.typ = k := by rw [g4]
    rw [htyp] at h2 h3
    rcases hk with hk | hk <;> subst hk
    · obtain rfl := h2 (decide_eq_false (by decide))
      refine ⟨pfx xs ++ pfx entry, n, .byName xs entry, by simpa using hat, h4, ?_⟩
      rw [show off + (pfx xs ++ pfx entry).length + 4 = t.off + ([] : Bytes).length + (pfx entry).length + 4 by
        simp only [List.length_append, List.length_nil]; omega]; exact h5
    · obtain ⟨v, rfl⟩ := h3 (decide_eq_true rfl)
      refine ⟨pfx xs ++ (optional (le 4) v ++ pfx entry), n, .versionedByName xs v entry, by simpa using hat, h4, ?_⟩
      rw [show off + (pfx xs ++ (optional (le 4) v ++ pfx entry)).length + 4 = t.off + (optional (le 4) v).length + (pfx entry).length + 4 by
        simp only [List.length_append]; omega]; exact h5
  · unfold parseTransfer
    refine Post.getThen ?_
    refine (lp_post readU32_post).seq fun n u ⟨⟨k1, k2, k3, k4⟩, k5⟩ => ?_
    dsimp only at k1 k3
    have hpu : Plain e u.off := hp.mono (by omega)
    refine Post.seq (P := fun _ t => ¬ BadArgs e.buf u.off n → t.off = u.off) ?_ fun _ w h => Post.modifyThen ?_
    · exact fun a t ht hb => (Ret_parseNativeTransfer (fun nm => Ret_searchArgs nm hpu (by omega) hb) u rfl).1 a t ht
    · refine Post.mono (P := fun _ t => ItemArgsAt e u.off n t.off) (finish_canon hpu (by omega) (by exact h)) fun _ v h => ⟨[], n, hk ▸ .transfer, k1, k2, ?_⟩
      simpa [← k3] using h

/-- Heads belong to items. -/
theorem ItemHead.item {k : Nat} {head : Bytes} (h : ItemHead k head) (as : List Arg) :
    ∃ it : ExecItem, it.encode = UInt8.ofNat k :: (head ++ encodeRuntimeArgs as) ∧ it.args = as := by
  cases h with
  | moduleBytes code => exact ⟨.moduleBytes code as, rfl, rfl⟩
  | byHash h entry _ => exact ⟨.byHash h entry as, by simp [ExecItem.encode], rfl⟩
  | byName n entry => exact ⟨.byName n entry as, by simp [ExecItem.encode], rfl⟩
  | versionedByHash h v entry _ => exact ⟨.versionedByHash h v entry as, by simp [ExecItem.encode], rfl⟩
  | versionedByName n v entry => exact ⟨.versionedByName n v entry as, by simp [ExecItem.encode], rfl⟩
  | transfer => exact ⟨.transfer as, rfl, rfl⟩

/-- The session of an accepted Deploy whose data contain no huge numbers is a serialized item, unless it has an argument with a bad type. -/
theorem DeployParse.session {e : Env} {s : DS} {p q : IS} {k : Nat} (hs : Small e) (hp : DeployParse e s p q k)
    (hh : ∀ i m, At e.buf i (le 4 m) → m < 4294967296 → m < 4294967296 - 65536) :
    (∃ it : ExecItem, GoodTypes it.args ∧ At e.buf p.off it.encode ∧ q.off = p.off + it.encode.length) ∨
    ∃ head n as name value bad, ItemHead k head ∧ as.length < n ∧ n < 4294967296 ∧ GoodTypes as ∧ BadType bad ∧
      At e.buf p.off (UInt8.ofNat k :: (head ++ (le 4 n ++ (encodeArgs as ++ (pfx name ++ (pfx value ++ bad)))))) := by
  have hpl : ∀ lo, Plain e lo := fun lo => ⟨hs.to_fits, fun ⟨i, m, _, g1, g2, g3⟩ => absurd (hh i m g1 g3) (by omega)⟩
  have ho := hp.sesType.le
  obtain ⟨head, n, k1, k2, k3, k4⟩ := parseDeployItem_canon hs (hpl _) (by simpa using ho) false _ _ hp.ses
  obtain ⟨k5, k6⟩ := At.append.1 k2
  rcases k4 with ⟨as, name, value, bad, b1, b2, b3, b4⟩ | ⟨as, b1, b2, b3, b4⟩
  · refine .inr ⟨head, n, as, name, value, bad, k1, b1, k3, b2, b3, At.cons.2 ⟨hp.sesType, At.append.2 ⟨k5, At.append.2 ⟨k6, b4.cast (by simp)⟩⟩⟩⟩
  · obtain ⟨it, i1, i2⟩ := k1.item as
    refine .inl ⟨it, i2 ▸ b2, ?_, ?_⟩
    · rw [i1]
      refine At.cons.2 ⟨hp.sesType, At.append.2 ⟨k5, ?_⟩⟩
      unfold encodeRuntimeArgs
      rw [b1]
      exact At.append.2 ⟨k6, b3.cast (by simp)⟩
    · rw [i1, b4]
      simp [encodeRuntimeArgs]; omega

/-- **C57.** Data of an accepted Deploy are a serialized Deploy: a complete header, its BLAKE2b hash, a payment (module bytes with one U512
argument), a session, and what is behind these; the header's body hash is the hash of payment and session; the session is a serialized item
whose arguments have types that are read as Casper does.  Provided the count of dependencies is less than 2046 (see C56), no 32-bit number in the
data is 2^32 - 65536 or more (see C49), and no argument of the session has a type as in `BadType`: in this last case the theorem tells where. -/
theorem C57_canonical_partial (pl : Platform) (hcap : pl.cap ≤ 16384) (d d' : Dev) (hd : d.Ok pl) (xs : Bytes)
    (hx : d.data = 0 :: xs) (h : txParse pl d = .ok () d') (hn : leVal ((xs.drop (keyLen xs + 56)).take 4) < 2046)
    (hh : ∀ i m, At xs i (le 4 m) → m < 4294967296 → m < 4294967296 - 65536) :
    ∃ hdr : DeployHeader, ∃ code name v ses rest, hdr.Ok ∧ cstr name = b!"amount" ∧
      xs = hdr.encode ++ pl.blake hdr.encode ++ ((ExecItem.moduleBytes code [⟨name, v, .u512⟩]).encode ++ ses) ++ rest ∧
      hdr.bodyHash = pl.blake ((ExecItem.moduleBytes code [⟨name, v, .u512⟩]).encode ++ ses) ∧
      ((∃ it : ExecItem, ses = it.encode ∧ GoodTypes it.args) ∨
       ∃ k head n as name value bad more, ItemHead k head ∧ as.length < n ∧ GoodTypes as ∧ BadType bad ∧
        ses ++ rest = UInt8.ofNat k :: (head ++ (le 4 n ++ (encodeArgs as ++ (pfx name ++ (pfx value ++ bad))))) ++ more) := by
  rcases (txParse_ok (by omega) hd).1 h with ⟨ys, s, h1, h2, -⟩ | ⟨ys, s, h1, -, -⟩
  swap
  · rw [hx] at h1; simp at h1
  rw [hx] at h1
  simp only [List.cons.injEq, true_and] at h1
  subst h1
  have hs := small_data hcap hd hx d.expert
  obtain ⟨_, _, _, _, -, hcl⟩ := h2.small hs.to_fits
  obtain ⟨p, q, k, hdr, hash, pay, ses, rest, hp, b1, b2, b3, b4, b5, b6, b7⟩ := h2.split hs
  have hle := congrArg List.length b1
  simp only [List.length_append] at hle
  have hdeps : s.dep.header.deps < 2046 := by
    have h1 := hp.header.deps.take_drop
    rw [hp.header.pkLen, le_length] at h1
    rw [show (mkEnv pl d.expert xs).buf = xs from rfl] at h1
    rw [h1, leVal_le 4 _ hp.header.depsLt] at hn
    exact hn
  obtain ⟨g, g1, g2, g3⟩ := hp.header.serialized hs hdeps hcl (by omega)
  have hg : hdr = g.encode := by
    rw [← g3, ← b2, b1, List.append_assoc, List.append_assoc, List.take_left]
  obtain ⟨code, name, v, c1, c2, c3, -, -⟩ := h2.payment hs hp (by omega)
  have ap : At (mkEnv pl d.expert xs).buf (hdr.length + 32) pay := ⟨hdr ++ hash, ses ++ rest, by rw [b1]; simp, by simp [b3]⟩
  have as : At (mkEnv pl d.expert xs).buf p.off (ses ++ rest) := ⟨hdr ++ hash ++ pay, [], by rw [b1]; simp, by simp [b3]; omega⟩
  have hpay : pay = (ExecItem.moduleBytes code [⟨name, v, .u512⟩]).encode := ap.unique (b2 ▸ c1) (by omega)
  refine ⟨g, code, name, v, ses, rest, g1, c3, ?_, ?_, ?_⟩
  · rw [← hpay, ← hg, show pl.blake hdr = hash from b6]; exact b1
  · have a0 : At (mkEnv pl d.expert xs).buf 0 g.encode := ⟨[], hash ++ (pay ++ ses) ++ rest, by rw [b1, hg]; simp, rfl⟩
    rw [← g2] at b7
    rw [← hpay]
    exact (header_layout g1 a0).bodyHash.unique b7 (by rw [g1.bodyHash]; exact (Hash.len _ _).symm)
  · rcases hp.session hs hh with ⟨it, i1, i2, i3⟩ | ⟨head, n, as', name, value, bad, i1, i2, -, i4, i5, i6⟩
    · exact .inl ⟨it, (At.append.1 as).1.unique i2 (by omega), i1⟩
    · refine .inr ⟨k, head, n, as', name, value, bad, ?_⟩
      obtain ⟨more, hm⟩ : ∃ more, ses ++ rest = UInt8.ofNat k :: (head ++ (le 4 n ++ (encodeArgs as' ++ (pfx name ++ (pfx value ++ bad))))) ++ more := by
        have hl6 := i6.le
        obtain ⟨u, w, hu, hul⟩ := split_at (l := ses ++ rest) (n := (UInt8.ofNat k :: (head ++ (le 4 n ++ (encodeArgs as' ++ (pfx name ++ (pfx value ++ bad)))))).length)
          (by rw [List.length_append]; omega)
        exact ⟨w, by rw [hu, (At.append.1 (hu ▸ as)).1.unique i6 hul]⟩
      exact ⟨more, i1, i2, i4, i5, hm⟩

/-! ### Where it fails -/

/-- **C57 fails** when lengths are huge: a Deploy with correct hashes whose session claims 1000 arguments is accepted, though no session with 1000
arguments, nor any other serialized item, stands behind its payment. -/
theorem C57_loop_false :
    (run samplePl (Dev.init samplePl) (sampleUpload (0 :: loopDeploy))).2 =
      [.reply [] 0x9000, .reply [] 0x9000, .reply [] 0x9000, .pending] ∧
    loopDeploy = loopHeader.encode ++ Blake.H loopHeader.encode ++ (samplePay.encode ++ loopSession) ++ loopArg ∧
    loopHeader.bodyHash = Blake.H (samplePay.encode ++ loopSession) ∧
    ¬ ∃ (it : ExecItem) (rest : Bytes), loopSession ++ loopArg = it.encode ++ rest := by
  refine ⟨C49_accepted_false.2, by unfold loopDeploy; simp only [List.append_assoc], rfl, ?_⟩
  rintro ⟨it, rest, h⟩
  have h0 : (loopSession ++ loopArg).take 5 = 5 :: le 4 1000 := by decide +kernel
  have hl : (loopSession ++ loopArg).length = 34 := by decide +kernel
  cases it with
  | transfer as =>
    simp only [ExecItem.encode, encodeRuntimeArgs, List.cons_append, List.append_assoc] at h
    rw [h] at h0 hl
    rw [List.take_succ_cons, List.take_append_of_le_length (by simp), List.take_of_length_le (by simp)] at h0
    have := encodeArgs_long as
    simp only [List.length_cons, List.length_append, le_length] at hl
    have h1 := congrArg leVal (List.cons.inj h0).2
    rw [leVal_le 4 _ (by omega), leVal_le 4 _ (by omega)] at h1
    omega
  | _ => rw [h] at h0; simp [ExecItem.encode] at h0

/-- A transfer session that says it has two arguments.  The second one's type is an option of an option; more bytes follow. -/
def strayPre : Bytes := 5 :: le 4 2 ++ encodeArgs [⟨b!"amount", bigNum 5 24500000000, .u512⟩] ++ (pfx b!"x" ++ (pfx [] ++ [13, 13]))
def straySession : Bytes := strayPre ++ encodeArgs [⟨b!"y", [7], .u8⟩, ⟨b!"z", [9], .u8⟩]
def strayHeader : DeployHeader := { sampleDeploy.header Blake.H with bodyHash := Blake.H (samplePay.encode ++ straySession) }
def strayDeploy : Bytes := strayHeader.encode ++ Blake.H strayHeader.encode ++ (samplePay.encode ++ straySession) ++ le 4 0

/-- The serialized arguments behind `as` are determined. -/
theorem arg_inj {a : Arg} {name value xs ys : Bytes} (h : a.encode ++ xs = pfx name ++ (pfx value ++ ys)) (h1 : name.length < 2 ^ 32)
    (h2 : value.length < 2 ^ 32) (h3 : a.name.length < 2 ^ 32) (h4 : a.value.length < 2 ^ 32) : a.name = name ∧ a.value = value ∧ a.ty.encode ++ xs = ys := by
  have key : ∀ {u v w z : Bytes}, pfx u ++ w = pfx v ++ z → u.length < 2 ^ 32 → v.length < 2 ^ 32 → u = v ∧ w = z := by
    intro u v w z h hu hv
    unfold pfx at h
    rw [List.append_assoc, List.append_assoc] at h
    obtain ⟨g1, g2⟩ := List.append_inj h (by simp)
    have g3 := congrArg leVal g1
    rw [leVal_le 4 _ (by omega), leVal_le 4 _ (by omega)] at g3
    exact List.append_inj g2 g3
  unfold Arg.encode at h
  rw [List.append_assoc, List.append_assoc] at h
  obtain ⟨g1, g2⟩ := key h h3 h1
  obtain ⟨g3, g4⟩ := key g2 h4 h2
  exact ⟨g1, g3, g4⟩

/-- **C57 fails** when an argument has a bad type: a Deploy with correct hashes and no huge numbers is accepted, though the bytes it takes as payment
and session, which its body hash covers, are not a serialized payment and session. -/
theorem C57_type_false :
    (run samplePl (Dev.init samplePl) (sampleUpload (0 :: strayDeploy))).2 =
      [.reply [] 0x9000, .reply [] 0x9000, .reply [] 0x9000, .pending] ∧ noHuge strayDeploy = true ∧
    strayDeploy = strayHeader.encode ++ Blake.H strayHeader.encode ++ (samplePay.encode ++ straySession) ++ le 4 0 ∧
    strayHeader.bodyHash = Blake.H (samplePay.encode ++ straySession) ∧ ¬ ∃ it : ExecItem, straySession = it.encode := by
  refine ⟨by decide +kernel, by decide +kernel, rfl, rfl, ?_⟩
  rintro ⟨it, h⟩
  have h0 : straySession.take 5 = 5 :: le 4 2 := by decide +kernel
  have hl : straySession.length = 59 := by decide +kernel
  cases it with
  | transfer as =>
    simp only [ExecItem.encode, encodeRuntimeArgs] at h
    rw [h] at h0 hl
    rw [List.take_succ_cons, List.take_append_of_le_length (by simp), List.take_of_length_le (by simp)] at h0
    have := encodeArgs_long as
    simp only [List.length_cons, List.length_append, le_length] at hl
    have h1 := congrArg leVal (List.cons.inj h0).2
    rw [leVal_le 4 _ (by omega), leVal_le 4 _ (by omega)] at h1
    obtain ⟨a, b, rfl⟩ := List.length_eq_two.1 h1
    have h2 : (5 :: le 4 2 : Bytes) ++ (pfx b!"amount" ++ (pfx (bigNum 5 24500000000) ++ ((8 : UInt8) :: (pfx b!"x" ++ (pfx [] ++ ((13 : UInt8) :: (13 :: 
      encodeArgs [⟨b!"y", [7], .u8⟩, ⟨b!"z", [9], .u8⟩]))))))) = (5 :: le 4 2 : Bytes) ++ (a.encode ++ (b.encode ++ [])) := h
    have h3 := (List.append_inj h2 rfl).2
    simp only [encodeArgs, List.length_append, Arg.encode_length, List.length_nil] at hl
    obtain ⟨-, -, h4⟩ := arg_inj h3.symm (by decide) (by decide) (by omega) (by omega)
    have h5 : a.ty.encode = [8] ∧ b.encode ++ [] = pfx b!"x" ++ (pfx [] ++ ((13 : UInt8) :: (13 :: encodeArgs [⟨b!"y", [7], .u8⟩, ⟨b!"z", [9], .u8⟩]))) := by
      cases hq : a.ty with
      | u512 => rw [hq] at h4; exact ⟨rfl, (List.cons.inj h4).2⟩
      | _ => rw [hq] at h4; exact absurd (List.cons.inj h4).1 (by decide)
    obtain ⟨-, -, h6⟩ := arg_inj h5.2 (by decide) (by decide) (by omega) (by omega)
    cases hq : b.ty with
    | option t =>
      rw [hq] at h6
      have h7 := (List.cons.inj h6).2
      cases t with
      | option t =>
        have h8 := (List.cons.inj h7).2
        cases t with
        | i32 => exact absurd (List.cons.inj h8).2 (by decide)
        | _ => exact absurd (List.cons.inj h8).1 (by decide)
      | _ => exact absurd (List.cons.inj h7).1 (by decide)
    | _ => rw [hq] at h6; exact absurd (List.cons.inj h6).1 (by decide)
  | _ => rw [h] at h0; simp [ExecItem.encode] at h0

/-- The hypotheses of the theorem are met by the sample transfer: see the example at the end of `Verif.Props.Effort`; its count of dependencies: -/
example : leVal (((sampleDeploy.tx Blake.H []).drop (keyLen (sampleDeploy.tx Blake.H []) + 56)).take 4) < 2046 := by decide +kernel

/-! ### C03 for arbitrary data -/

/-- **C03 (partial), from the data.**  Whatever the data: when the app accepts a type descriptor, then either the data hold there the serialization of
a type of Casper, the app has consumed exactly this serialization and reports the tag of this type, or the data hold there the beginning of a
descriptor as in `BadType`.  With `C03_type_extent_partial` this is the whole of C03 but for `BadType`. -/
theorem C03_accepted_partial (e : Env) (opt off off' : Nat) (v : Nat × Nat) (h : getType e opt off = .ok v off') :
    (∃ t : CLType, t.aligned ∧ t.supported ∧ At e.buf off t.encode ∧ off' = off + t.encode.length ∧ v = (t.tag, t.inner opt)) ∨
    ∃ bs, BadType bs ∧ At e.buf off bs := by
  rcases getType_cases e opt off with ⟨t, h1, h2, h3⟩ | h1 | ⟨x, s, h1, _⟩
  · have := C03_type_extent_partial e t opt off h1 h3
    rw [if_pos h2, h] at this
    simp only [Res.ok.injEq] at this
    exact .inl ⟨t, h1, h2, h3, this.2, this.1⟩
  · exact .inr h1
  · rw [h1] at h; cases h

/-- Both cases: `Map<String, ByteArray(32)>`, and the descriptor of `C03_type_extent_false`. -/
example : getType (sampleEnv (1 :: (CLType.map .string (.byteArray 32)).encode)) 0 1 = .ok (17, 0) 8 ∧
    getType (sampleEnv ((CLType.map (.byteArray 13) .u8).encode ++ [0])) 0 0 = .ok (17, 0) 8 ∧ BadType [17, 15] :=
  ⟨by decide, by decide, .component 17 [] 15 (by decide) (by decide)⟩

end Casper
