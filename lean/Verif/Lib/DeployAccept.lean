import Verif.Lib.DeployInv
import Verif.Lib.DeployFwd
/-
What acceptance of a Deploy says about its bytes: the payment, the two hashes, the number of items.
-/
namespace Casper
open M

/-! ### Payment -/

theorem searchFrom_post {e : Env} {name : Bytes} {start n s : Nat} :
    Post (searchFrom e name start n) s (fun _ t => t = start) := by
  induction n generalizing s with
  | zero => unfold searchFrom; exact Post.setThen .fail
  | succ n ih =>
    unfold searchFrom
    refine Post.seq Post.self fun key t _ => Post.ite (fun _ => ?_) fun _ => ?_
    · exact Post.seq Post.self fun _ t _ => Post.seq Post.self fun _ t _ => Post.setThen (Post.pure rfl)
    · exact Post.seq Post.self fun _ t _ => Post.seq Post.self fun _ t _ => ih

theorem searchArgs_post {e : Env} {name : Bytes} {n s : Nat} : Post (searchArgs e name n) s (fun _ t => t = s) := by
  unfold searchArgs
  exact Post.getThen searchFrom_post

theorem checkArg_post {e : Env} {name : Bytes} {n s : Nat} {c : Nat → Nat → Bool} :
    Post (checkArg e n name c) s (fun _ t => t = s ∧ ∃ r, searchArgs e name n s = .ok r s ∧ c r.1 r.2 = true) := by
  unfold checkArg
  refine (searchArgs_post.run).seq fun r t ⟨h1, h2⟩ => ?_
  subst h2
  exact Post.require fun h => ⟨rfl, r, h1, h⟩

/-- A payment that was read: as payments are, with one argument if the amount was found. -/
theorem parsePayment_post {e : Env} {o epo : Nat} (ho : o ≤ e.buf.length) : Post (parseDeployItem e true) ⟨o, epo, {}⟩ (fun _ t => t.epo = epo ∧
    t.item.special = 1 ∧ (t.item.hasAmount = true → ∃ o1 r, parseItem e o = .ok () o1 ∧ readU32 e o1 = .ok 1 (o1 + 4) ∧
      searchArgs e b!"amount" 1 (o1 + 4) = .ok r (o1 + 4) ∧ r.1 = 8 ∧ parseArgs e 1 (o1 + 4) = .ok () t.off ∧
      t.item = { special := 1, total := t.off - o + 1, runtime := 1, hasAmount := true })) := by
  unfold parseDeployItem
  refine Post.modifyThen (Post.getThen ?_)
  dsimp only
  rw [if_pos rfl]
  unfold parseModuleBytes
  refine Post.getThen ?_
  dsimp only
  refine (lp_post (Post.self.and fun a t ht => (Bd_parseItem e _ ho).1 a t ht)).seq fun _ t ⟨⟨h1, h1b⟩, h2⟩ => ?_
  rw [h2]
  refine (lp_post (s := ⟨t.off, epo, { special := 255 }⟩) (Post.self.and (Post.and readU32_post fun a t ht => (Bd_readLE e 4 _ h1b).1 a t ht))).seq fun n u ⟨⟨h3, h4, h4b⟩, h5⟩ => ?_
  rw [h5]
  rw [if_pos rfl]
  dsimp only at h3 h4
  have h6 : u.off = t.off + 4 := h4.2.2.1
  rw [h6] at h3 ⊢
  rw [h6] at h4b
  unfold parseSystemPayment
  refine Post.seq (P := fun _ v => v.off ≤ e.buf.length ∧ v.epo = epo ∧ (v.item.hasAmount = true → n = 1 ∧ v.off = t.off + 4 ∧ (∃ r, searchArgs e b!"amount" 1 (t.off + 4) = .ok r (t.off + 4) ∧ r.1 = 8) ∧
    v.item = { special := 255, runtime := 1, hasAmount := true })) ?_ ?_
  · refine Post.ite (fun _ => .fail) fun _ => ?_
    refine Post.seq (P := fun r v => v.off ≤ e.buf.length ∧ v.epo = epo ∧ (r.toBool = true → n = 1 ∧ v.off = t.off + 4 ∧ (∃ r, searchArgs e b!"amount" 1 (t.off + 4) = .ok r (t.off + 4) ∧ r.1 = 8) ∧
      v.item = { special := 255, hasAmount := true }) ∧ (r.toBool = false → v.item.hasAmount = false)) ?_ fun r v hv => ?_
    · refine Post.attempt ?_ fun x v hx => ⟨?_, ?_, fun h => (by cases h), fun _ => ?_⟩
      · unfold checkPaymentArgs
        refine Post.requireThen fun hn => ?_
        subst hn
        refine (lp_post checkArg_post).seq fun _ v ⟨⟨h7, r, h8, h9⟩, h10⟩ => Post.modify ?_
        rw [h10]
        dsimp only at h7 h8 ⊢
        rw [h7]
        refine ⟨h4b, rfl, fun _ => ⟨rfl, rfl, ⟨r, h8, by simpa [isU512] using h9⟩, rfl⟩, fun h => (by cases h)⟩
      all_goals
        unfold checkPaymentArgs at hx
        rw [bind_run, require_run] at hx
        split at hx
        · rw [Res.bind_ok, bind_run] at hx
          unfold lp at hx
          cases hr : checkArg e n b!"amount" isU512 (t.off + 4) with
          | ok a o => rw [hr] at hx; cases hx
          | fault f => rw [hr] at hx; cases hx
          | err y o =>
            rw [hr] at hx; cases hx
            first | rfl | exact (Bd_checkArg e _ _ _ _ h4b).2 _ _ hr
        · cases hx; first | rfl | exact h4b
    · cases r with
      | ok a =>
        obtain ⟨hv1, hv2, hv3, hv4⟩ := hv
        obtain ⟨h7, h8, h9, h10⟩ := hv3 rfl
        refine Post.modify ⟨hv1, hv2, fun _ => ⟨h7, h8, h9, ?_⟩⟩
        dsimp only
        rw [h10]
      | error x =>
        refine Post.ite (fun _ => .fail) fun _ => Post.modify ⟨hv.1, hv.2.1, fun h => ?_⟩
        have := hv.2.2.2 rfl
        dsimp only at h
        rw [this] at h; cases h
  · intro _ v ⟨hv1, hv2, hv3⟩
    refine Post.modifyThen ((finishItem_post (by exact hv1)).mono fun _ w ⟨h7, h8, h9, h10, h11⟩ => ?_)
    dsimp only at h7 h8 h9 h10 h11
    refine ⟨h10.trans hv2, by rw [h11], fun h => ?_⟩
    rw [h11] at h
    obtain ⟨hn, h12, ⟨r, h13, h14⟩, h15⟩ := hv3 h
    subst hn
    rw [h12] at h7
    exact ⟨t.off, r, h1, h3, h13, h14, h7, by rw [h11, h15]⟩

/-- The payment of a parsed Deploy. -/
theorem DeployParse.payment {e : Env} (hf : Fits e) {s : DS} {p q : IS} {k : Nat} (h : DeployParse e s p q k) :
    p.epo = 0 ∧ p.item = { special := 1, total := p.off - s.dep.header.bodyStart, runtime := 1, hasAmount := true } ∧ s.dep.header.bodyStart + 1 < p.off ∧
    ∃ o1 r, parseItem e (s.dep.header.bodyStart + 1) = .ok () o1 ∧ readU32 e o1 = .ok 1 (o1 + 4) ∧
      searchArgs e b!"amount" 1 (o1 + 4) = .ok r (o1 + 4) ∧ r.1 = 8 ∧ parseArgs e 1 (o1 + 4) = .ok () p.off := by
  have ho : s.dep.header.bodyStart + 1 ≤ e.buf.length := by have := h.payType.le; simpa using this
  obtain ⟨h1, h2, h3⟩ := parsePayment_post ho _ _ h.pay
  have h4 : p.item.hasAmount = true := by
    cases hp : p.item.hasAmount with
    | true => rfl
    | false => exact absurd ⟨h2, hp⟩ h.hasAmount
  obtain ⟨o1, r, h5, h6, h7, h8, h9, h10⟩ := h3 h4
  have hlt : s.dep.header.bodyStart + 1 < p.off := by
    have := h.extent hf
    omega
  refine ⟨h1, ?_, hlt, o1, r, h5, h6, h7, h8, h9⟩
  rw [h10]
  simp only [Item.mk.injEq, true_and, and_true]
  omega

/-- The number of items. -/
theorem DeployParse.count {e : Env} (hf : Fits e) {s : DS} {p q : IS} {k : Nat} (h : DeployParse e s p q k) :
    5 ≤ numItemsDeploy e s.dep ∧ numItemsDeploy e s.dep ≤ 19 := by
  have h1 := (h.payment hf).2.1
  have h2 := parseDeployItem_few _ _ h.ses
  have h3 := h2.1
  have h4 := h2.2
  unfold numItemsDeploy u8
  rw [h.result]
  dsimp only
  rw [h1]
  dsimp only
  split <;> omega

/-! ### The hashes -/

theorem split_at {α : Type} {l : List α} {n : Nat} (h : n ≤ l.length) : ∃ a b, l = a ++ b ∧ a.length = n :=
  ⟨l.take n, l.drop n, (List.take_append_drop _ _).symm, by simp [h]⟩

/-- A parsed Deploy whose header ends before byte 65504: header, hash, payment, session, rest; and what validation does with
them. -/
theorem DeployParse.hashes {e : Env} (hf : Fits e) {s : DS} {p q : IS} {k : Nat} (h : DeployParse e s p q k)
    (hl : headerLength s.dep.header + 32 < 65536) :
    ∃ hdr hash pay ses rest bh, e.buf = hdr ++ hash ++ (pay ++ ses) ++ rest ∧ hdr.length = headerLength s.dep.header ∧
      hash.length = 32 ∧ hdr.length + 32 + pay.length = p.off ∧ hdr.length + 32 + pay.length + ses.length = q.off ∧
      bh.length = 32 ∧ At e.buf (pkLen s.dep.header + 24) bh ∧
      ∀ t, ∃ t', validateDeploy e s.dep t =
        if e.blake hdr = hash then if e.blake (pay ++ ses) = bh then .ok () t' else .err 21 t' else .err 21 t := by
  have hx := h.extent hf
  have hb : s.dep.header.bodyStart = headerLength s.dep.header + 32 := u16_id hl
  rw [hb] at hx
  obtain ⟨l1, rest, e1, n1⟩ := split_at (l := e.buf) (n := q.off) (by omega)
  obtain ⟨l2, ses, e2, n2⟩ := split_at (l := l1) (n := p.off) (by omega)
  obtain ⟨l3, pay, e3, n3⟩ := split_at (l := l2) (n := headerLength s.dep.header + 32) (by omega)
  obtain ⟨hdr, hash, e4, n4⟩ := split_at (l := l3) (n := headerLength s.dep.header) (by omega)
  subst e2 e3 e4
  simp only [List.length_append] at n1 n2 n3
  have hdeps := h.header.deps.le
  simp only [le_length] at hdeps
  obtain ⟨m1, m2, e5, n5⟩ := split_at (l := e.buf) (n := pkLen s.dep.header + 24) (by omega)
  have hm2 : 32 ≤ m2.length := by rw [e5, List.length_append] at hdeps; omega
  obtain ⟨bh, m3, e6, n6⟩ := split_at (l := m2) (n := 32) hm2
  subst e6
  have hbuf : e.buf = hdr ++ hash ++ (pay ++ ses) ++ rest := by rw [e1]; simp
  have hbh : At e.buf (pkLen s.dep.header + 24) bh := ⟨m1, m3, by rw [e5]; simp, n5⟩
  refine ⟨hdr, hash, pay, ses, rest, bh, hbuf, n4, by omega, by omega, by omega, n6, hbh, fun t => ?_⟩
  refine ⟨pkLen s.dep.header + 24, ?_⟩
  unfold validateDeploy
  refine seqThen (slice_at (xs := hdr) ⟨[], hash ++ (pay ++ ses) ++ rest, by rw [hbuf]; simp, rfl⟩ n4.symm) ?_
  refine seqThen (slice_at (xs := hash) ⟨hdr, (pay ++ ses) ++ rest, by rw [hbuf]; simp, n4⟩ (by omega)) ?_
  by_cases hh : e.blake hdr = hash
  · rw [if_pos hh]
    refine reqThen hh ?_
    have hsz : u32 (s.dep.payment.total + s.dep.session.total) = (pay ++ ses).length := by
      rw [h.result]
      dsimp only
      rw [hx.2.2.2.1, hx.2.2.2.2, u32_id (by unfold Fits at hf; omega), List.length_append]
      omega
    rw [hsz]
    refine seqThen (slice_at (xs := pay ++ ses) ⟨hdr ++ hash, rest, by rw [hbuf], ?_⟩ rfl) ?_
    · rw [u16_id hl, List.length_append]; omega
    refine seqThen (indexPart_at hbh rfl _) (seqThen (slice_at hbh n6.symm) ?_)
    unfold M.require
    split <;> rfl
  · rw [if_neg hh, bind_run]
    unfold M.require
    rw [if_neg hh]; rfl

/-- The header of an accepted Deploy: chain name of at most 100 bytes, inside the data. -/
theorem DeployAccepted.small {e : Env} (hf : Fits e) {s : DS} (h : DeployAccepted e s) :
    ∃ p q k, DeployParse e s p q k ∧ headerLength s.dep.header + 32 ≤ e.buf.length ∧ s.dep.header.chainLen ≤ 100 := by
  obtain ⟨p, q, k, hp⟩ := readDeploy_post _ _ h.parse
  refine ⟨p, q, k, hp, ?_, ?_⟩
  · obtain ⟨t, hv⟩ := h.valid
    unfold validateDeploy at hv
    simp only [bind_eq_ok, slice_eq_ok] at hv
    obtain ⟨hdr, _, ⟨-, -, -⟩, hash, _, ⟨h1, h2, -⟩, -⟩ := hv
    have := h1.le
    omega
  · have hc := hp.count hf
    obtain ⟨kv, t, hi⟩ := h.items 2 (by omega)
    unfold getItemDeploy at hi
    rw [if_neg (by omega), if_neg (by decide), if_neg (by decide), if_pos rfl] at hi
    simp only [bind_eq_ok] at hi
    obtain ⟨_, _, -, _, _, -, v, _, hd, -⟩ := hi
    unfold displayString at hd
    by_contra hn
    rw [if_pos (by omega)] at hd
    simp at hd

/-! ### Where a serialized item ends -/

theorem At.unique {buf : Bytes} {off : Nat} {xs ys : Bytes} (h : At buf off xs) (h' : At buf off ys) (hl : xs.length = ys.length) :
    xs = ys := by
  rw [← h.take_drop, ← h'.take_drop, hl]
theorem At.le_inj {buf : Bytes} {off n a b : Nat} (h : At buf off (Casper.le n a)) (h' : At buf off (Casper.le n b)) (ha : a < 256 ^ n)
    (hb : b < 256 ^ n) : a = b := by
  rw [← leVal_le n a ha, ← leVal_le n b hb, h.unique h' (by simp)]
theorem At.pfx_inj {e : Env} (hf : Fits e) {off : Nat} {xs ys : Bytes} (h : At e.buf off (Casper.pfx xs)) (h' : At e.buf off (Casper.pfx ys)) :
    xs = ys := by
  have l1 := h.le
  have l2 := h'.le
  rw [pfx_length] at l1 l2
  unfold Fits at hf
  rw [Casper.pfx, At.append] at h h'
  have := h.1.le_inj h'.1 (by omega) (by omega)
  exact h.2.unique h'.2 this

theorem Post.runThen {σ α β : Type} {m : M σ α} {f : α → M σ β} {s t : σ} {a : α} {Q : β → σ → Prop} (h : m s = .ok a t)
    (h' : Post (f a) t Q) : Post (m >>= f) s Q := by
  intro b u hb
  rw [bind_run, h] at hb
  exact h' _ _ hb

/-- Type byte of an item. -/
def ExecItem.tag : ExecItem → Nat
  | moduleBytes .. => 0 | byHash .. => 1 | byName .. => 2 | versionedByHash .. => 3 | versionedByName .. => 4 | transfer .. => 5

/-- What follows the type byte. -/
def ExecItem.rest (i : ExecItem) : Bytes := i.encode.tail

theorem ExecItem.encode_eq (i : ExecItem) : i.encode = UInt8.ofNat i.tag :: i.rest := by cases i <;> rfl

/-- Hashes have 32 bytes, versions fit; arguments are such as the app can walk over. -/
structure ExecItem.Ok (i : ExecItem) : Prop where
  args : ∀ a ∈ i.args, a.Ok
  hash : ∀ h, (∃ n as, i = .byHash h n as) ∨ (∃ v n as, i = .versionedByHash h v n as) → h.length = 32
  version : ∀ v, (∃ h n as, i = .versionedByHash h (some v) n as) ∨ (∃ h n as, i = .versionedByName h (some v) n as) → v < 4294967296

theorem finishItem_end {e : Env} (hf : Fits e) {as : List Arg} (hok : ∀ a ∈ as, a.Ok) {s : IS} (ha : At e.buf s.off (encodeArgs as))
    {start : Nat} : Post (finishItem e as.length start) s (fun _ t => t.off = s.off + (encodeArgs as).length) := by
  have := ha.le
  refine (finishItem_post (by omega)).mono fun _ t h => ?_
  have h1 := h.1
  rw [parseArgs_at hf hok ha] at h1
  exact (Res.ok.inj h1).2.symm

theorem checkEntrypoint_end {e : Env} (hf : Fits e) {as : List Arg} (hok : ∀ a ∈ as, a.Ok) {n : Bytes} {s : IS}
    (ha : At e.buf s.off (pfx n ++ encodeRuntimeArgs as)) :
    Post (checkEntrypoint e) s (fun k t => k = as.length ∧ t.off = s.off + (4 + n.length) + 4) := by
  rw [encodeRuntimeArgs, At.append, At.append, pfx_length, le_length] at ha
  obtain ⟨h1, h2, h3⟩ := ha
  have hle := h3.le
  unfold checkEntrypoint
  refine Post.modifyThen ((lp_post (Post.self.and (copyItem_post hf))).seq fun nm t ⟨⟨h4, h5⟩, h6⟩ => ?_)
  dsimp only at h5
  have hn : t.off = s.off + (4 + n.length) := by
    rw [← h5.1.pfx_inj hf h1]
    omega
  have hlen : as.length < 4294967296 := by
    have := encodeArgs_count as
    unfold Fits at hf; omega
  refine Post.modifyThen (Post.runThen (a := as.length) (lp_run (readLE_at (by rw [hn]; exact h2) (by omega))) (Post.modifyThen ?_))
  refine (parseDelegation_back hf hok ?_).seq fun _ u hu => Post.pure ⟨rfl, ?_⟩
  · dsimp only; rw [hn]; exact h3
  · rw [hu]; dsimp only; omega

theorem versionStep_end {e : Env} {v : Option Nat} (hv : ∀ n, v = some n → n < 4294967296) {s : IS} (ha : At e.buf s.off (optional (le 4) v)) :
    Post (versionStep e true) s (fun _ t => t.off = s.off + (optional (le 4) v).length) := by
  unfold versionStep
  rw [if_pos rfl]
  have : ∃ n, parseVersion e s.off = .ok n (s.off + (optional (le 4) v).length) := by
    unfold parseVersion
    cases v with
    | none => exact ⟨0, seqThen (readU8_at ha) rfl⟩
    | some n =>
      obtain ⟨h1, h2⟩ := At.cons.1 ha
      exact ⟨n, seqThen (readU8_at ha) (readLE_at h2 (hv n rfl))⟩
  obtain ⟨n, h⟩ := this
  refine Post.runThen (lp_run h) (Post.ite (fun _ => Post.modify rfl) fun _ => Post.pure rfl)

/-- The parser ends an item where its serialization ends. -/
theorem parseDeployItem_end {e : Env} (hf : Fits e) {i : ExecItem} (hi : i.Ok) {off epo : Nat} (ha : At e.buf off i.encode) (pay : Bool) :
    Post (parseDeployItem e pay) ⟨off + 1, epo, { typ := i.tag }⟩ (fun _ t => t.off = off + i.encode.length) := by
  have hle := ha.le
  have hf' := hf
  unfold Fits at hf'
  have hargs := hi.args
  have hcount := encodeArgs_count i.args
  unfold parseDeployItem
  refine Post.modifyThen (Post.getThen ?_)
  cases i with
  | moduleBytes code as =>
    rw [ExecItem.encode, At.cons, encodeRuntimeArgs, At.append, At.append, pfx_length, le_length] at ha
    simp only [ExecItem.encode, encodeRuntimeArgs, List.length_cons, List.length_append, pfx_length, le_length, ExecItem.args] at hle hcount hargs ⊢
    obtain ⟨h0, h1, h2, h3⟩ := ha
    refine Post.ite (fun _ => ?_) fun h => absurd rfl h
    unfold parseModuleBytes
    refine Post.getThen (Post.runThen (lp_run (parseItem_at (ys := []) (xs := code) hf (by simpa using h1))) ?_)
    refine Post.runThen (a := as.length) (lp_run (readLE_at (h2.cast (by dsimp only; omega)) (by omega))) ?_
    have hpos : At e.buf (off + 1 + 4 + code.length + 4) (encodeArgs as) := h3.cast (by omega)
    refine Post.ite (fun _ => ?_) fun _ => ?_
    · refine Post.seq (P := fun _ t => t.off = off + 1 + 4 + code.length + 4) (fun a t ht => (BackI_parseSystemPayment hf hargs _ (by exact hpos)).1 a t ht) fun _ t ht =>
        Post.modifyThen ((finishItem_end hf hargs (by exact ht ▸ hpos)).mono fun _ u hu => ?_)
      rw [hu]; dsimp only; omega
    · refine (parseDelegation_back hf hargs (by exact hpos)).seq fun _ t ht => (finishItem_end hf hargs (ht ▸ hpos)).mono fun _ u hu => ?_
      dsimp only at ht; omega
  | byHash hash n as =>
    have hl := hi.hash hash (.inl ⟨n, as, rfl⟩)
    rw [ExecItem.encode, At.cons, At.append, hl] at ha
    simp only [ExecItem.encode, encodeRuntimeArgs, List.length_cons, List.length_append, pfx_length, le_length, ExecItem.args] at hle hcount hargs ⊢
    obtain ⟨h0, h1, h2⟩ := ha
    refine Post.ite (fun h => absurd h (by simp [ExecItem.tag])) fun _ => Post.ite (fun _ => ?_) fun h => absurd (by simp [ExecItem.tag]) h
    unfold parseByHash
    refine Post.getThen (Post.runThen (lp_run (skip_run (by dsimp only; omega))) (Post.getThen (Post.runThen (t := ⟨off + 33, epo, { typ := 1, special := 255 }⟩) (a := ()) ?_ ?_)))
    rotate_left
    · refine (checkEntrypoint_end (n := n) hf hargs (by exact h2)).seq fun k t ⟨hk, ht⟩ => ?_
      subst hk
      rw [encodeRuntimeArgs, At.append, At.append, pfx_length, le_length] at h2
      dsimp only at ht
      refine (finishItem_end hf hargs (h2.2.2.cast (by omega))).mono fun _ u hu => ?_
      omega
    · rfl
  | versionedByHash hash v n as =>
    have hl := hi.hash hash (.inr ⟨v, n, as, rfl⟩)
    rw [ExecItem.encode, At.cons, At.append, hl, At.append] at ha
    simp only [ExecItem.encode, encodeRuntimeArgs, List.length_cons, List.length_append, pfx_length, le_length, ExecItem.args] at hle hcount hargs ⊢
    obtain ⟨h0, h1, h2, h3⟩ := ha
    refine Post.ite (fun h => absurd h (by simp [ExecItem.tag])) fun _ => Post.ite (fun _ => ?_) fun h => absurd (by simp [ExecItem.tag]) h
    unfold parseByHash
    refine Post.getThen (Post.runThen (lp_run (skip_run (by dsimp only; omega))) (Post.getThen ?_))
    refine (versionStep_end (v := v) (fun k hk => hi.version k (.inl ⟨hash, n, as, by rw [hk]⟩)) (by exact h2)).seq fun _ t ht => ?_
    dsimp only at ht
    refine (checkEntrypoint_end (n := n) hf hargs (h3.cast (by omega))).seq fun k u ⟨hk, hu⟩ => ?_
    subst hk
    rw [encodeRuntimeArgs, At.append, At.append, pfx_length, le_length] at h3
    refine (finishItem_end hf hargs (h3.2.2.cast (by omega))).mono fun _ u hu => ?_
    omega
  | byName name n as =>
    rw [ExecItem.encode, At.cons, At.append, pfx_length] at ha
    simp only [ExecItem.encode, encodeRuntimeArgs, List.length_cons, List.length_append, pfx_length, le_length, ExecItem.args] at hle hcount hargs ⊢
    obtain ⟨h0, h1, h2⟩ := ha
    refine Post.ite (fun h => absurd h (by simp [ExecItem.tag])) fun _ => Post.ite (fun h => absurd h (by simp [ExecItem.tag])) fun _ => Post.ite (fun _ => ?_) fun h => absurd (by simp [ExecItem.tag]) h
    unfold parseByName
    refine Post.getThen (Post.runThen (lp_run (parseItem_at (ys := []) (xs := name) hf (by simpa using h1))) (Post.getThen (Post.runThen (t := ⟨off + 1 + 4 + name.length, epo, { typ := 2, special := 255 }⟩) (a := ()) ?_ ?_)))
    rotate_left
    · refine (checkEntrypoint_end (n := n) hf hargs (h2.cast (by dsimp only; omega))).seq fun k t ⟨hk, ht⟩ => ?_
      subst hk
      rw [encodeRuntimeArgs, At.append, At.append, pfx_length, le_length] at h2
      dsimp only at ht
      refine (finishItem_end hf hargs (h2.2.2.cast (by omega))).mono fun _ u hu => ?_
      omega
    · rfl
  | versionedByName name v n as =>
    rw [ExecItem.encode, At.cons, At.append, At.append, pfx_length] at ha
    simp only [ExecItem.encode, encodeRuntimeArgs, List.length_cons, List.length_append, pfx_length, le_length, ExecItem.args] at hle hcount hargs ⊢
    obtain ⟨h0, h1, h2, h3⟩ := ha
    refine Post.ite (fun h => absurd h (by simp [ExecItem.tag])) fun _ => Post.ite (fun h => absurd h (by simp [ExecItem.tag])) fun _ => Post.ite (fun _ => ?_) fun h => absurd (by simp [ExecItem.tag]) h
    unfold parseByName
    refine Post.getThen (Post.runThen (lp_run (parseItem_at (ys := []) (xs := name) hf (by simpa using h1))) (Post.getThen ?_))
    dsimp only
    refine (versionStep_end (v := v) (fun k hk => hi.version k (.inr ⟨name, n, as, by rw [hk]⟩)) (h2.cast (by dsimp only; omega))).seq fun _ t ht => ?_
    dsimp only at ht
    refine (checkEntrypoint_end (n := n) hf hargs (h3.cast (by omega))).seq fun k u ⟨hk, hu⟩ => ?_
    subst hk
    rw [encodeRuntimeArgs, At.append, At.append, pfx_length, le_length] at h3
    refine (finishItem_end hf hargs (h3.2.2.cast (by omega))).mono fun _ u hu => ?_
    omega
  | transfer as =>
    rw [ExecItem.encode, At.cons, encodeRuntimeArgs, At.append, le_length] at ha
    simp only [ExecItem.encode, encodeRuntimeArgs, List.length_cons, List.length_append, pfx_length, le_length, ExecItem.args] at hle hcount hargs ⊢
    obtain ⟨h0, h1, h2⟩ := ha
    refine Post.ite (fun h => absurd h (by simp [ExecItem.tag])) fun _ => Post.ite (fun h => absurd h (by simp [ExecItem.tag])) fun _ => Post.ite (fun h => absurd h (by simp [ExecItem.tag])) fun _ => Post.ite (fun _ => ?_) fun h => absurd rfl h
    unfold parseTransfer
    refine Post.getThen (Post.runThen (a := as.length) (lp_run (readLE_at h1 (by omega))) ?_)
    refine Post.seq (P := fun _ t => t.off = off + 1 + 4) (fun a t ht => (BackI_parseNativeTransfer hf hargs _ (by exact h2)).1 a t ht) fun _ t ht =>
        Post.modifyThen ((finishItem_end hf hargs (by exact ht ▸ h2)).mono fun _ u hu => ?_)
    rw [hu]; dsimp only; omega

end Casper
