import Verif.Props.Deploys
import Verif.Props.Counts
import Verif.Lib.Up
/-
C49: no more arguments than the bytes can hold.
-/
namespace Casper
open M

theorem bind_congr_post {σ α β : Type} {m : M σ α} {k k' : α → M σ β} {s : σ} {P : α → σ → Prop} (hp : Post m s P)
    (h : ∀ a t, P a t → k a t = k' a t) : (m >>= k) s = (m >>= k') s := by
  rw [bind_run, bind_run]
  cases hr : m s with
  | ok a t => exact h a t (hp a t hr)
  | err _ _ => rfl
  | fault _ => rfl

/-- The loops over arguments do not depend on the claimed number once this exceeds what the bytes can hold. -/
theorem parseArgs_stable {e : Env} (hf : Fits e) (n : Nat) : ∀ {m off : Nat}, off ≤ e.buf.length → ¬ HugeFrom e off →
    e.buf.length < off + 9 * n → e.buf.length < off + 9 * m → parseArgs e n off = parseArgs e m off := by
  induction n with
  | zero => intro m off ho _ h _; omega
  | succ n ih =>
    intro m off ho hh h1 h2
    cases m with
    | zero => omega
    | succ m =>
      unfold parseArgs
      refine bind_congr_post (parseItem_forward hf hh) fun _ t ⟨a1, a2⟩ => ?_
      have hh1 : ¬ HugeFrom e t := fun h => hh (h.mono (by omega))
      refine bind_congr_post (parseItem_forward hf hh1) fun _ u ⟨b1, b2⟩ => ?_
      refine bind_congr_post getType_post fun _ w ⟨c1, c2, _⟩ => ?_
      exact ih c2 (fun h => hh (h.mono (by omega))) (by omega) (by omega)

theorem readNamedArgs_stable {e : Env} (hf : Fits e) (n : Nat) : ∀ {m off : Nat}, off ≤ e.buf.length → ¬ HugeFrom e off →
    e.buf.length < off + 9 * n → e.buf.length < off + 9 * m → readNamedArgs e n off = readNamedArgs e m off := by
  induction n with
  | zero => intro m off ho _ h _; omega
  | succ n ih =>
    intro m off ho hh h1 h2
    cases m with
    | zero => omega
    | succ m =>
      unfold readNamedArgs
      refine bind_congr_post (readBytes_forward hf hh) fun _ t ⟨a1, a2⟩ => ?_
      have hh1 : ¬ HugeFrom e t := fun h => hh (h.mono (by omega))
      have hcl : Post (readClvalue e) t (fun _ u => t + 5 ≤ u ∧ u ≤ e.buf.length) := by
        unfold readClvalue
        exact (readBytes_forward hf hh1).seq fun _ u ⟨b1, b2⟩ => getType_post.seq fun _ w ⟨c1, c2, _⟩ => Post.pure ⟨by omega, c2⟩
      refine bind_congr_post hcl fun _ w ⟨c1, c2⟩ => ?_
      exact ih c2 (fun h => hh (h.mono (by omega))) (by omega) (by omega)

theorem searchFrom_stable {e : Env} (hf : Fits e) (name : Bytes) (start n : Nat) : ∀ {m off : Nat}, off ≤ e.buf.length → ¬ HugeFrom e off →
    e.buf.length < off + 9 * n → e.buf.length < off + 9 * m → searchFrom e name start n off = searchFrom e name start m off := by
  induction n with
  | zero => intro m off ho _ h _; omega
  | succ n ih =>
    intro m off ho hh h1 h2
    cases m with
    | zero => omega
    | succ m =>
      unfold searchFrom
      refine bind_congr_post (copyItem_post hf) fun key t ⟨a1, a2, a3, a4⟩ => ?_
      split
      · rfl
      have hh1 : ¬ HugeFrom e t := fun h => hh (h.mono (by omega))
      refine bind_congr_post (parseItem_forward hf hh1) fun _ u ⟨b1, b2⟩ => ?_
      refine bind_congr_post getType_post fun _ w ⟨c1, c2, _⟩ => ?_
      exact ih c2 (fun h => hh (h.mono (by omega))) (by omega) (by omega)

theorem getData_stable {e : Env} (hf : Fits e) (name : Bytes) (n : Nat) : ∀ {m off : Nat}, off ≤ e.buf.length → ¬ HugeFrom e off →
    e.buf.length < off + 9 * n → e.buf.length < off + 9 * m → getData e name n off = getData e name m off := by
  induction n with
  | zero => intro m off ho _ h _; omega
  | succ n ih =>
    intro m off ho hh h1 h2
    cases m with
    | zero => omega
    | succ m =>
      unfold getData
      refine bind_congr_post (copyItem_post hf) fun key t ⟨a1, a2, a3, a4⟩ => ?_
      split
      · rfl
      have hh1 : ¬ HugeFrom e t := fun h => hh (h.mono (by omega))
      refine bind_congr_post (parseItem_forward hf hh1) fun _ u ⟨b1, b2⟩ => ?_
      refine bind_congr_post getType_post fun _ w ⟨c1, c2, _⟩ => ?_
      exact ih c2 (fun h => hh (h.mono (by omega))) (by omega) (by omega)

/-- **C49, effort.** Whatever number of arguments is claimed, each of the loops over arguments (walking over those of a Deploy, over those of a
version 1 transaction, looking for one by name when parsing and when showing) behaves as if the number were at most what the data can hold, at
9 bytes each, plus one; unless the data contain, from the cursor on, a 32-bit number of 2^32 - 65536 or more.  (Otherwise see
`C49_loop_false`.) -/
theorem C49_effort_partial (e : Env) (hf : Fits e) (off n : Nat) (ho : off ≤ e.buf.length)
    (hh : ∀ i m, off ≤ i → At e.buf i (le 4 m) → m < 4294967296 → m < 4294967296 - 65536) (hn : (e.buf.length - off) / 9 < n) :
    parseArgs e n off = parseArgs e ((e.buf.length - off) / 9 + 1) off ∧
    readNamedArgs e n off = readNamedArgs e ((e.buf.length - off) / 9 + 1) off ∧
    (∀ name start, searchFrom e name start n off = searchFrom e name start ((e.buf.length - off) / 9 + 1) off) ∧
    (∀ name, getData e name n off = getData e name ((e.buf.length - off) / 9 + 1) off) ∧
    (∀ t, parseArgs e n off ≠ .ok () t ∧ readNamedArgs e n off ≠ .ok () t) := by
  have hh' : ¬ HugeFrom e off := by
    rintro ⟨i, m, h1, h2, h3, h4⟩
    have := hh i m h1 h2 h4
    omega
  refine ⟨parseArgs_stable hf n ho hh' (by omega) (by omega), readNamedArgs_stable hf n ho hh' (by omega) (by omega),
    fun name start => searchFrom_stable hf name start n ho hh' (by omega) (by omega),
    fun name => getData_stable hf name n ho hh' (by omega) (by omega), fun t => ⟨fun h => ?_, fun h => ?_⟩⟩
  · have := (parseArgs_long hf n ho h).resolve_right hh'
    omega
  · have := (readNamedArgs_long hf n ho h).resolve_right hh'
    omega

/-! ### Accepted transactions -/

/-- What precedes the number of arguments in an item of type `k`. -/
inductive ItemHead : Nat → Bytes → Prop
  | moduleBytes (code : Bytes) : ItemHead 0 (pfx code)
  | byHash (h entry : Bytes) (hl : h.length = 32) : ItemHead 1 (h ++ pfx entry)
  | byName (n entry : Bytes) : ItemHead 2 (pfx n ++ pfx entry)
  | versionedByHash (h : Bytes) (v : Option Nat) (entry : Bytes) (hl : h.length = 32) : ItemHead 3 (h ++ (optional (le 4) v ++ pfx entry))
  | versionedByName (n : Bytes) (v : Option Nat) (entry : Bytes) : ItemHead 4 (pfx n ++ (optional (le 4) v ++ pfx entry))
  | transfer : ItemHead 5 []

theorem at_mid {buf : Bytes} {a b : Nat} (h1 : a ≤ b) (h2 : b ≤ buf.length) : ∃ xs, At buf a xs ∧ xs.length = b - a := by
  obtain ⟨p, q, hp, hl⟩ := split_at h2
  obtain ⟨p1, p2, hp', hl'⟩ := split_at (l := p) (n := a) (by omega)
  refine ⟨p2, ⟨p1, q, by rw [hp, hp'], hl'⟩, ?_⟩
  rw [hp'] at hl
  simp only [List.length_append] at hl
  omega

theorem parseItem_pfx {e : Env} {off : Nat} (hp : Plain e off) :
    Post (parseItem e) off (fun _ t => ∃ xs, At e.buf off (pfx xs) ∧ t = off + 4 + xs.length ∧ t ≤ e.buf.length) :=
  parseItem_post.mono fun _ t ⟨n, h1, h2, h3, h4, h5⟩ => by
    obtain ⟨k1, k2⟩ := (item_forward hp.fits h1 h2 h3 h4 h5).resolve_right hp.plain
    obtain ⟨xs, g1, g2⟩ := at_mid k1 k2
    have hn : n < 4294967296 - 65536 := by
      by_contra hc
      exact hp.plain ⟨off, n, Nat.le_refl _, h1, by omega, h2⟩
    have hf : e.buf.length ≤ 65535 := hp.fits
    rw [u32_id (by omega)] at h4
    rw [u16_id (by omega)] at h5
    have hx : xs.length = n := by omega
    refine ⟨xs, At.append.2 ⟨by rw [hx]; exact h1, by rw [le_length]; exact g1⟩, by omega, k2⟩

/-- The end of an item: the loop over the arguments starts behind the count and needs nine bytes for each. -/
theorem finish_long {e : Env} {lo n start : Nat} (hp : Plain e lo) {s : IS} (hs : Within e lo s.off) :
    Post (finishItem e n start) s (fun _ t => lo + 9 * n ≤ t.off ∧ t.off ≤ e.buf.length) :=
  (finishItem_post hs.2).mono fun _ t ⟨h1, _⟩ => by
    have h2 := (parseArgs_long hp.fits n hs.2 h1).resolve_right (fun h => hp.plain (h.mono hs.1))
    have := hs.1
    omega

theorem UpI.post {e : Env} {lo : Nat} {α : Type} {m : M IS α} (h : UpI e lo m) {s : IS} (hs : Within e lo s.off) :
    Post m s (fun _ t => Within e lo t.off) := fun a t ht => (h s hs).1 a t ht

theorem Plain.mono {e : Env} {a b : Nat} (h : Plain e a) (hab : a ≤ b) : Plain e b := ⟨h.fits, fun k => h.plain (k.mono hab)⟩

theorem entry_long {e : Env} {start : Nat} {s : IS} (hp : Plain e s.off) :
    Post (do let n ← checkEntrypoint e; finishItem e n start) s (fun _ t => ∃ n entry, At e.buf s.off (pfx entry ++ le 4 n) ∧ n < 4294967296 ∧
      s.off + (pfx entry).length + 4 + 9 * n ≤ t.off ∧ t.off ≤ e.buf.length) := by
  refine (show Post (checkEntrypoint e) s (fun n t => ∃ entry, At e.buf s.off (pfx entry ++ le 4 n) ∧ n < 4294967296 ∧
      Within e (s.off + (pfx entry).length + 4) t.off) from ?_).seq fun n t ⟨entry, h1, h2, h3⟩ => ?_
  · unfold checkEntrypoint
    refine Post.modifyThen ((lp_post (copyItem_post hp.fits)).seq fun nm t ⟨⟨h1, h2, h3, h4⟩, h5⟩ => Post.modifyThen ?_)
    dsimp only at h1 h3
    refine (lp_post readU32_post).seq fun n u ⟨⟨k1, k2, k3, k4⟩, k5⟩ => Post.modifyThen ?_
    have hl : (pfx nm).length = 4 + nm.length := pfx_length _
    dsimp only at k1 k3 k4
    have hpu : Plain e u.off := hp.mono (by omega)
    refine Post.seq (P := fun _ t => Within e u.off t.off) (UpI.post (UpI_parseDelegation hpu n _) (by exact ⟨Nat.le_refl u.off, by omega⟩)) fun _ w hw =>
      Post.pure ?_
    refine ⟨nm, ?_, k2, ?_⟩
    · exact At.append.2 ⟨h1, k1.cast (by omega)⟩
    · unfold Within at *; omega
  · exact (finish_long (hp.mono (by omega)) h3).mono fun _ u h => ⟨n, entry, h1, h2, h⟩

theorem versionStep_long {e : Env} {s : IS} (ver : Bool) :
    Post (versionStep e ver) s (fun _ t => ∃ vb, (∀ xs, At e.buf t.off xs → At e.buf s.off (vb ++ xs)) ∧ t.off = s.off + vb.length ∧
      (ver = false → vb = []) ∧ (ver = true → ∃ v, vb = optional (le 4) v)) := by
  unfold versionStep
  refine Post.ite (fun hv => ?_) fun hv => ?_
  · refine (lp_post (Q := fun _ t => ∃ v, At e.buf s.off (optional (le 4) v) ∧ t = s.off + (optional (le 4) v).length) ?_).seq fun _ t ⟨⟨v, h1, h2⟩, _⟩ => ?_
    · unfold parseVersion
      refine readU8_post.seq fun b t ⟨h1, h2, h3, h4⟩ => Post.ite (fun hb => Post.pure ⟨none, ?_, h3⟩) fun _ => Post.ite (fun hb => ?_) fun _ => .fail
      · rw [hb] at h1; exact h1
      · refine readU32_post.mono fun n u ⟨k1, k2, k3, k4⟩ => ⟨some n, ?_, by rw [k3, h3]; rfl⟩
        rw [hb] at h1
        exact At.cons.2 ⟨h1, by rw [← h3]; exact k1⟩
    · refine Post.ite (fun _ => Post.modify ?_) fun _ => Post.pure ?_
      all_goals exact ⟨_, fun xs hx => At.append.2 ⟨h1, h2 ▸ hx⟩, h2, fun h => by simp_all, fun _ => ⟨v, rfl⟩⟩
  · exact Post.pure ⟨[], fun xs hx => hx, rfl, fun _ => rfl, fun h => absurd h hv⟩

/-- From the version on: the version bytes, the entry point, the number of arguments, and at least nine bytes for each. -/
theorem version_long {e : Env} {start : Nat} {s : IS} (hp : Plain e s.off) (ver : Bool) :
    Post (do versionStep e ver; let n ← checkEntrypoint e; finishItem e n start) s (fun _ t => ∃ vb entry n, At e.buf s.off (vb ++ (pfx entry ++ le 4 n)) ∧
      (ver = false → vb = []) ∧ (ver = true → ∃ v, vb = optional (le 4) v) ∧ n < 4294967296 ∧
      s.off + vb.length + (pfx entry).length + 4 + 9 * n ≤ t.off ∧ t.off ≤ e.buf.length) := by
  refine (versionStep_long ver).seq fun _ t ⟨vb, h1, h2, h3, h4⟩ => ?_
  refine (entry_long (hp.mono (by omega))).mono fun _ u ⟨n, entry, k1, k2, k3, k4⟩ => ?_
  exact ⟨vb, entry, n, h1 _ k1, h3, h4, k2, by omega, k4⟩

/-- An item whose data contain no huge numbers: a head according to the type, the number of arguments, and at least nine bytes for each. -/
theorem parseDeployItem_long {e : Env} {off epo k : Nat} (hsm : Small e) (hp : Plain e off) (ho : off ≤ e.buf.length) (pay : Bool) :
    Post (parseDeployItem e pay) ⟨off, epo, { typ := k }⟩ (fun _ t => ∃ head n, ItemHead k head ∧ At e.buf off (head ++ le 4 n) ∧
      n < 4294967296 ∧ off + head.length + 4 + 9 * n ≤ t.off ∧ t.off ≤ e.buf.length) := by
  unfold parseDeployItem
  refine Post.modifyThen (Post.getThen ?_)
  dsimp only
  refine Post.ite (fun hk => ?_) fun _ => Post.ite (fun hk => ?_) fun _ => Post.ite (fun hk => ?_) fun _ => Post.ite (fun hk => ?_) fun _ => .fail
  · unfold parseModuleBytes
    refine Post.getThen ((lp_post (parseItem_pfx hp)).seq fun _ t ⟨⟨xs, h1, h2, h3⟩, h4⟩ => ?_)
    dsimp only at h2
    refine (lp_post readU32_post).seq fun n u ⟨⟨k1, k2, k3, k4⟩, k5⟩ => ?_
    have hl : (pfx xs).length = 4 + xs.length := pfx_length _
    have hpu : Plain e u.off := hp.mono (by omega)
    have hw : Within e u.off u.off := ⟨Nat.le_refl _, by omega⟩
    have fin : ∀ w : IS, Within e u.off w.off → Post (finishItem e n off) w (fun _ t => ∃ head n, ItemHead k head ∧ At e.buf off (head ++ le 4 n) ∧
      n < 4294967296 ∧ off + head.length + 4 + 9 * n ≤ t.off ∧ t.off ≤ e.buf.length) := fun w hw =>
      (finish_long hpu hw).mono fun _ v h => ⟨pfx xs, n, hk ▸ .moduleBytes xs, At.append.2 ⟨h1, k1.cast (by omega)⟩, k2, by omega, h.2⟩
    refine Post.ite (fun _ => ?_) fun _ => ?_
    · exact (UpI.post (UpI_parseSystemPayment hpu n) hw).seq fun _ w h => Post.modifyThen (fin _ h)
    · exact (UpI.post (UpI_parseDelegation hpu n _) hw).seq fun _ w h => fin _ h
  · unfold parseByHash
    refine Post.getThen (Post.modifyThen (f := fun _ => _) (g := fun s : IS => { s with off := u16 (s.off + 32) }) (Post.getThen ?_))
    have ho' : u16 (off + 32) = off + 32 := u16_id (by unfold Small at hsm; omega)
    dsimp only
    rw [ho']
    refine (version_long (hp.mono (by exact Nat.le_add_right off 32)) _).mono fun _ u ⟨vb, entry, n, h1, h2, h3, h4, h5, h6⟩ => ?_
    dsimp only at h1 h5
    have hle := h1.le
    obtain ⟨h, g1, g2⟩ := at_mid (buf := e.buf) (a := off) (b := off + 32) (by omega) (by omega)
    have h32 : h.length = 32 := by omega
    have hat : At e.buf off (h ++ (vb ++ (pfx entry ++ le 4 n))) := by
      refine At.append.2 ⟨g1, h1.cast ?_⟩; omega
    rcases hk with hk | hk <;> subst hk
    · obtain rfl := h2 (decide_eq_false (by decide))
      refine ⟨h ++ pfx entry, n, .byHash h entry h32, by simpa using hat, h4, ?_, h6⟩
      simp only [List.length_append, List.length_nil] at *; omega
    · obtain ⟨v, rfl⟩ := h3 (decide_eq_true rfl)
      refine ⟨h ++ (optional (le 4) v ++ pfx entry), n, .versionedByHash h v entry h32, by simpa using hat, h4, ?_, h6⟩
      simp only [List.length_append] at *; omega
  · unfold parseByName
    refine Post.getThen ((lp_post (parseItem_pfx hp)).seq fun _ t ⟨⟨xs, g1, g2, g3⟩, g4⟩ => Post.getThen ?_)
    dsimp only at g1 g2
    have hl : (pfx xs).length = 4 + xs.length := pfx_length _
    refine (version_long (hp.mono (by omega)) _).mono fun _ u ⟨vb, entry, n, h1, h2, h3, h4, h5, h6⟩ => ?_
    have hat : At e.buf off (pfx xs ++ (vb ++ (pfx entry ++ le 4 n))) := At.append.2 ⟨g1, h1.cast (by omega)⟩
    have htyp : t.item.typ = k := by rw [g4]
    rw [htyp] at h2 h3
    rcases hk with hk | hk <;> subst hk
    · obtain rfl := h2 (decide_eq_false (by decide))
      refine ⟨pfx xs ++ pfx entry, n, .byName xs entry, by simpa using hat, h4, ?_, h6⟩
      simp only [List.length_append, List.length_nil] at *; omega
    · obtain ⟨v, rfl⟩ := h3 (decide_eq_true rfl)
      refine ⟨pfx xs ++ (optional (le 4) v ++ pfx entry), n, .versionedByName xs v entry, by simpa using hat, h4, ?_, h6⟩
      simp only [List.length_append] at *; omega
  · unfold parseTransfer
    refine Post.getThen ?_
    refine (lp_post readU32_post).seq fun n u ⟨⟨k1, k2, k3, k4⟩, k5⟩ => ?_
    dsimp only at k1 k3
    have hpu : Plain e u.off := hp.mono (by omega)
    refine (UpI.post (UpI_parseNativeTransfer hpu n) ⟨Nat.le_refl _, by omega⟩).seq fun _ w h => Post.modifyThen ?_
    refine Post.mono (P := fun _ t => u.off + 9 * n ≤ t.off ∧ t.off ≤ e.buf.length) (finish_long hpu (by exact h)) fun _ v h => ⟨[], n, hk ▸ .transfer, k1, k2, by simp; omega, h.2⟩

/-- **C49, accepted Deploys.** The data of an accepted Deploy are `hdr ++ hash ++ (pay ++ ses) ++ rest` with `hash` the hash of `hdr`; and unless
a 32-bit number of 2^32 - 65536 or more occurs in them, `ses` is a type `k`, what precedes the number of arguments in an item of that type, this
number `n`, and at least `9 * n` bytes; likewise `pay`, of type 0. -/
theorem C49_deploy_partial (e : Env) (s : DS) (hs : Small e) (h : DeployAccepted e s)
    (hh : ∀ i m, At e.buf i (le 4 m) → m < 4294967296 → m < 4294967296 - 65536) :
    ∃ hdr hash pay ses rest, e.buf = hdr ++ hash ++ (pay ++ ses) ++ rest ∧ hash.length = 32 ∧ e.blake hdr = hash ∧
      (∃ k head n xs, ses = UInt8.ofNat k :: (head ++ le 4 n ++ xs) ∧ ItemHead k head ∧ n < 4294967296 ∧ 9 * n ≤ xs.length) ∧
      (∃ head n xs, pay = 0 :: (head ++ le 4 n ++ xs) ∧ ItemHead 0 head ∧ n < 4294967296 ∧ 9 * n ≤ xs.length) := by
  obtain ⟨p, q, k, hdr, hash, pay, ses, rest, hp, hb, h1, h2, h3, h4, h5, h6⟩ := h.split hs
  have hpl : ∀ lo, Plain e lo := fun lo => ⟨hs.to_fits, fun ⟨i, m, _, g1, g2, g3⟩ => absurd (hh i m g1 g3) (by omega)⟩
  have hlen : e.buf.length = hdr.length + hash.length + pay.length + ses.length + rest.length := by rw [hb]; simp; omega
  have hbs : s.dep.header.bodyStart = hdr.length + 32 := by
    unfold Header.bodyStart
    unfold Small at hs
    rw [← h1, u16_id (by omega)]
  have ap : At e.buf (hdr.length + 32) pay := ⟨hdr ++ hash, ses ++ rest, by rw [hb]; simp, by simp [h2]⟩
  have as : At e.buf (hdr.length + 32 + pay.length) ses :=
    ⟨hdr ++ hash ++ pay, rest, by rw [hb]; simp, by simp only [List.length_append]; omega⟩
  -- cut an item behind its arguments' number
  have cut : ∀ (off fin k n : Nat) (it head : Bytes), At e.buf off it → it.length = fin - off → off ≤ fin → At e.buf off [UInt8.ofNat k] →
      At e.buf (off + 1) (head ++ le 4 n) → off + 1 + head.length + 4 + 9 * n ≤ fin →
      ∃ xs, it = UInt8.ofNat k :: (head ++ le 4 n ++ xs) ∧ 9 * n ≤ xs.length := by
    intro off fin k n it head a1 a2 a3 a4 a5 a6
    obtain ⟨x, y, hxy, hx⟩ := split_at (l := it) (n := 1 + (head.length + 4)) (by omega)
    have : At e.buf off (UInt8.ofNat k :: (head ++ le 4 n)) := At.cons.2 ⟨a4, a5⟩
    have h7 := (At.append.1 (hxy ▸ a1)).1.unique this (by simp [hx]; omega)
    refine ⟨y, by rw [hxy, h7]; simp, ?_⟩
    rw [hxy] at a2
    simp only [List.length_append] at a2
    omega
  obtain ⟨head, n, k1, k2, k3, k4, k5⟩ := parseDeployItem_long hs (hpl _) (by have := hp.sesType.le; simpa using this) false _ _ hp.ses
  have hpay := hp.pay
  rw [hbs] at hpay
  obtain ⟨head', n', l1, l2, l3, l4, l5⟩ := parseDeployItem_long hs (hpl _) (by omega) true _ _ hpay
  refine ⟨hdr, hash, pay, ses, rest, hb, h2, h5, ?_, ?_⟩
  · obtain ⟨xs, m1, m2⟩ := cut p.off q.off k n ses head (h3 ▸ as) (by omega) (by omega) hp.sesType k2 (by omega)
    exact ⟨k, head, n, xs, m1, k1, k3, m2⟩
  · obtain ⟨xs, m1, m2⟩ := cut (hdr.length + 32) p.off 0 n' pay head' ap (by omega) (by omega) (hbs ▸ hp.payType) l2 (by omega)
    exact ⟨head', n', xs, m1, l1, l3, m2⟩

/-- **C49, accepted version 1 transactions.** The body's map of fields (`4` fields, the first with key `0`) starts with the arguments: bytes, or a
number `n` of named arguments followed by at least `9 * n` bytes; unless a 32-bit number of 2^32 - 65536 or more occurs in the data. -/
theorem C49_v1_partial (e : Env) (s : VS) (hs : Small e) (h : V1Accepted e s)
    (hh : ∀ i m, At e.buf i (le 4 m) → m < 4294967296 → m < 4294967296 - 65536) :
    ∃ o len, At e.buf o (le 4 4 ++ le 2 0) ∧ ((At e.buf (o + 10) [1] ∧ At e.buf (o + 11) (le 4 len)) ∨
      ∃ n, n = s.v.numArgs ∧ At e.buf (o + 6) (le 4 len ++ 0 :: le 4 n) ∧ n < 4294967296 ∧ o + 15 + 9 * n ≤ e.buf.length) := by
  obtain ⟨hf, -⟩ := h.split hs
  obtain ⟨fin, k, -, hb, -⟩ := hf.body
  obtain ⟨z, -, hz | hz⟩ := hb.args
  · obtain ⟨-, z1, z2, z3, z4, z5, z6⟩ := hz
    have hle := z3.le
    rw [le_length] at hle
    refine ⟨fin, _, hb.count, .inr ⟨_, rfl, At.append.2 ⟨z1, At.cons.2 ⟨z2, z3⟩⟩, z5, ?_⟩⟩
    rcases readNamedArgs_long hs.to_fits _ (by omega) z6 with g | ⟨i, m, _, g1, g2, g3⟩
    · omega
    · exact absurd (hh i m g1 g3) (by omega)
  · obtain ⟨-, -, z2, z3, -⟩ := hz
    exact ⟨fin, _, hb.count, .inl ⟨z2, z3⟩⟩

/-! ### Where it fails -/

/-- An empty name and a value whose claimed length leads 9 bytes back: to the byte before the pair. -/
def loopArg : Bytes := le 4 0 ++ le 4 4294967287

/-- **C49 fails, generally.** Eight bytes count as any number of arguments: where a byte up to 12 (a type without parameters) precedes
`loopArg`, walking over `n` arguments succeeds for every `n`, and leaves the cursor where it was. -/
theorem C49_loop_false (e : Env) (hf : Fits e) (off : Nat) (b : UInt8) (hb : b ≤ 12) (h0 : At e.buf off [b]) (h : At e.buf (off + 1) loopArg) (n : Nat) :
    parseArgs e n (off + 1) = .ok () (off + 1) := by
  induction n with
  | zero => rfl
  | succ n ih =>
    obtain ⟨a1, a2⟩ := At.append.1 h
    have hl := h.le
    have : e.buf.length ≤ 65535 := hf
    rw [show loopArg.length = 8 from rfl] at hl
    rw [show (le 4 0).length = 4 from rfl] at a2
    have step : ∀ (o m t : Nat), At e.buf o (le 4 m) → m < 4294967296 → u32 (o + 4 + m) ≤ e.buf.length → u16 (o + 4 + m) = t →
        parseItem e o = .ok () t := by
      intro o m t ha hm hb ht
      unfold parseItem
      rw [bind_run, readU32, readLE_at ha (by omega), Res.bind_ok, bind_run, get_run, Res.bind_ok]
      show (if u32 (o + 4 + m) > e.buf.length then fail eBufferEnd else set (u16 (o + 4 + m)) : P Unit) (o + 4) = _
      rw [if_neg (by omega), ← ht]
      rfl
    have ht : getType e 0 off = .ok (b.toNat, 0) (off + 1) := by
      have hb' : b.toNat ≤ 12 := hb
      unfold getType
      refine seqThen (readU8_at h0) (reqThen (by omega) ?_)
      exact seqThen (show addlType e 3 b.toNat 0 (off + 1) = .ok 0 (off + 1) by
        unfold addlType; rw [if_pos (.inl hb')]; rfl) rfl
    have hu : u32 (off + 1 + 4 + 4 + 4294967287) = off := by unfold u32; omega
    have hu' : u16 (off + 1 + 4 + 4 + 4294967287) = off := by unfold u16; omega
    unfold parseArgs
    rw [bind_run, step _ 0 (off + 1 + 4) a1 (by omega) (by unfold u32; omega) (by unfold u16; omega), Res.bind_ok, bind_run,
      step _ _ off a2 (by omega) (by omega) hu', Res.bind_ok, bind_run, ht, Res.bind_ok]
    exact ih

/-- A transfer session that says it has 1000 arguments, up to its first argument. -/
def loopSession : Bytes := 5 :: le 4 1000 ++ encodeArgs [⟨b!"amount", bigNum 5 24500000000, .u512⟩]
/-- The header of the sample Deploy, with the hash of a payment and of that session. -/
def loopHeader : DeployHeader := { sampleDeploy.header Blake.H with bodyHash := Blake.H (samplePay.encode ++ loopSession) }
/-- A Deploy with that session, its one argument followed by the eight bytes. -/
def loopDeploy : Bytes := loopHeader.encode ++ Blake.H loopHeader.encode ++ samplePay.encode ++ loopSession ++ loopArg

/-- **C49 fails, end to end.** A Deploy of 236 bytes whose session claims 1000 arguments is accepted and offered for signing. -/
theorem C49_accepted_false : loopDeploy.length = 236 ∧
    (run samplePl (Dev.init samplePl) (sampleUpload (0 :: loopDeploy))).2 =
      [.reply [] 0x9000, .reply [] 0x9000, .reply [] 0x9000, .pending] := by
  constructor <;> decide +kernel

/-- No two bytes `ff ff`: no 32-bit number of 2^32 - 65536 or more. -/
def noHuge (buf : Bytes) : Bool := (List.range buf.length).all fun i => leVal ((buf.drop i).take 4) < 4294967296 - 65536

theorem noHuge_plain {buf : Bytes} (h : noHuge buf = true) : ∀ i m, At buf i (le 4 m) → m < 4294967296 → m < 4294967296 - 65536 := by
  intro i m ha hm
  have hl := ha.le
  rw [le_length] at hl
  have h1 := ha.take_drop
  rw [le_length] at h1
  unfold noHuge at h
  have h2 := List.all_eq_true.1 h i (List.mem_range.2 (by omega))
  rw [h1, leVal_le 4 m (by omega)] at h2
  simpa using h2

/-- The hypotheses of the theorems about accepted transactions are met by the sample transfer: it is accepted, and contains no huge number. -/
example : ((run samplePl (Dev.init samplePl) (sampleUpload (0 :: sampleDeploy.tx Blake.H []))).2 =
      [.reply [] 0x9000, .reply [] 0x9000, .reply [] 0x9000, .pending]) ∧ noHuge (sampleDeploy.tx Blake.H []) = true := by
  constructor <;> decide +kernel

end Casper
