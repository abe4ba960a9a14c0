import Verif.Lib.Bound
/-
What a successful `parser_read_deploy` says about the bytes it read.
-/
namespace Casper
open M

theorem ld_post {α : Type} {m : P α} {s : DS} {Q : α → Nat → Prop} (h : Post m s.off Q) :
    Post (ld m) s (fun a t => Q a t.off ∧ t = { s with off := t.off }) := by
  intro a t ht
  unfold ld at ht
  cases hr : m s.off <;> rw [hr] at ht <;> cases ht
  exact ⟨h _ _ hr, rfl⟩
theorem lp_post {α : Type} {m : P α} {s : IS} {Q : α → Nat → Prop} (h : Post m s.off Q) :
    Post (lp m) s (fun a t => Q a t.off ∧ t = { s with off := t.off }) := by
  intro a t ht
  unfold lp at ht
  cases hr : m s.off <;> rw [hr] at ht <;> cases ht
  exact ⟨h _ _ hr, rfl⟩
theorem onPayment_post {α : Type} {m : M IS α} {s : DS} {Q : α → IS → Prop} (h : Post m ⟨s.off, s.epo, s.dep.payment⟩ Q) :
    Post (onPayment m) s (fun a t => ∃ u, Q a u ∧ t = ⟨u.off, u.epo, { s.dep with payment := u.item }⟩) := by
  intro a t ht
  unfold onPayment at ht
  cases hr : m ⟨s.off, s.epo, s.dep.payment⟩ <;> rw [hr] at ht <;> cases ht
  exact ⟨_, h _ _ hr, rfl⟩
theorem onSession_post {α : Type} {m : M IS α} {s : DS} {Q : α → IS → Prop} (h : Post m ⟨s.off, s.epo, s.dep.session⟩ Q) :
    Post (onSession m) s (fun a t => ∃ u, Q a u ∧ t = ⟨u.off, u.epo, { s.dep with session := u.item }⟩) := by
  intro a t ht
  unfold onSession at ht
  cases hr : m ⟨s.off, s.epo, s.dep.session⟩ <;> rw [hr] at ht <;> cases ht
  exact ⟨_, h _ _ hr, rfl⟩

theorem indexPart_post {e : Env} {h : Header} {p : HPart} {s : Nat} :
    Post (indexPart e h p) s (fun _ t => t = partIndex h p ∧ t ≤ e.buf.length) := by
  unfold indexPart
  exact Post.setThen (Post.ite (fun _ => .fail) fun h => .pure ⟨rfl, by omega⟩)

/-- Position of the first byte of the body: behind the header and the deploy hash (16-bit arithmetic). -/
def Header.bodyStart (h : Header) : Nat := u16 (headerLength h + 32)

/-- What the header says. -/
structure HeaderFacts (e : Env) (h : Header) : Prop where
  kind : h.pubkeyType = 1 ∨ h.pubkeyType = 2
  key : At e.buf 0 [UInt8.ofNat h.pubkeyType]
  deps : At e.buf (pkLen h + 56) (le 4 h.deps)
  depsLt : h.deps < 4294967296
  chain : At e.buf (partIndex h .chainname) (le 4 h.chainLen)
  chainLt : h.chainLen < 4294967296

theorem readDeployHeader_post {e : Env} {epo : Nat} : Post (readDeployHeader e) ⟨0, epo, {}⟩
    (fun _ t => ∃ h, HeaderFacts e h ∧ t = ⟨h.bodyStart, epo, { header := h }⟩) := by
  unfold readDeployHeader
  refine Post.requireThen fun _ => (ld_post readU8_post).seq fun pk t ⟨⟨h1, h2, h3, h4⟩, h5⟩ => Post.requireThen fun h6 => ?_
  rw [h5]
  refine Post.modifyThen (Post.getThen ?_)
  dsimp only
  refine (ld_post indexPart_post).seq fun _ t ⟨⟨h7, h8⟩, h9⟩ => ?_
  rw [h9]
  refine (ld_post readU32_post).seq fun deps t' ⟨⟨h10, h11, h12, h13⟩, h14⟩ => ?_
  rw [h14]
  refine Post.modifyThen (Post.getThen ?_)
  dsimp only
  refine (ld_post indexPart_post).seq fun _ t ⟨⟨h15, h16⟩, h17⟩ => ?_
  rw [h17]
  refine (ld_post readU32_post).seq fun cl t'' ⟨⟨h18, h19, h20, h21⟩, h22⟩ => ?_
  rw [h22]
  refine Post.modifyThen (Post.getThen ?_)
  dsimp only
  intro a t ht
  unfold ld seek at ht
  cases ht
  refine ⟨⟨pk, deps, cl⟩, ⟨h6, h1, ?_, h11, ?_, h19⟩, rfl⟩
  · rw [h7] at h10; exact h10
  · rw [h15] at h18; exact h18

/-- The parse of a Deploy, taken apart: header `h`, payment read from behind its type byte (ending in `p`), session of type
`k` (ending in `q`). -/
structure DeployParse (e : Env) (s : DS) (p q : IS) (k : Nat) : Prop where
  header : HeaderFacts e s.dep.header
  payType : At e.buf s.dep.header.bodyStart [0]
  pay : parseDeployItem e true ⟨s.dep.header.bodyStart + 1, 0, {}⟩ = .ok () p
  hasAmount : ¬ (p.item.special = spSystemPayment ∧ p.item.hasAmount = false)
  sesType : At e.buf p.off [UInt8.ofNat k]
  small : k ≤ 6
  ses : parseDeployItem e false ⟨p.off + 1, p.epo, { typ := k }⟩ = .ok () q
  result : s = ⟨q.off, q.epo, { header := s.dep.header, payment := p.item, session := q.item }⟩

theorem readDeploy_post {e : Env} : Post (readDeploy e) ⟨0, 0, {}⟩ (fun _ s => ∃ p q k, DeployParse e s p q k) := by
  unfold readDeploy
  refine readDeployHeader_post.seq fun _ t ⟨h, hh, ht⟩ => ?_
  rw [ht]
  refine (ld_post readU8_post).seq fun ty t ⟨⟨h1, h2, h3, h4⟩, h5⟩ => Post.requireThen fun h6 => ?_
  rw [h5, h3]
  refine (onPayment_post (Post.self)).seq fun _ t ⟨u, hu, ht⟩ => Post.requireThen fun h7 => ?_
  cases hu
  rw [ht]
  subst h7
  refine (onPayment_post Post.self).seq fun _ t ⟨p, hp, ht⟩ => ?_
  rw [ht]
  refine Post.getThen (Post.requireThen fun h8 => ?_)
  dsimp only at h8 hp ⊢
  refine (ld_post readU8_post).seq fun k t ⟨⟨h9, h10, h11, h12⟩, h13⟩ => Post.requireThen fun h14 => ?_
  rw [h13, h11]
  refine (onSession_post Post.self).seq fun _ t ⟨u, hu, ht⟩ => ?_
  cases hu
  rw [ht]
  refine (onSession_post Post.self).seq fun _ t ⟨q, hq, ht⟩ => ?_
  rw [ht]
  exact Post.modify ⟨p, q, k, hh, h1, hp, h8, h9, h14, hq, rfl⟩

/-! ### Extent of an item -/

theorem BdI.post {e : Env} {α : Type} {m : M IS α} (h : BdI e m) {s : IS} (hs : s.off ≤ e.buf.length) :
    Post m s (fun _ t => t.off ≤ e.buf.length) := fun a t ht => (h s hs).1 a t ht

theorem finishItem_post {e : Env} {n start : Nat} {s : IS} (hs : s.off ≤ e.buf.length) :
    Post (finishItem e n start) s (fun _ t => parseArgs e n s.off = .ok () t.off ∧ start < t.off ∧ t.off ≤ e.buf.length ∧
      t.epo = s.epo ∧ t.item = { s.item with total := t.off - start + 1 }) := by
  unfold finishItem
  refine (lp_post (Post.self.and (fun a t ht => (Bd_parseArgs e n _ hs).1 a t ht))).seq fun _ t ⟨⟨h0, h1⟩, h2⟩ => ?_
  rw [h2]
  refine (lp_post (Q := fun a t' => t' = t.off ∧ a = t.off - start + 1 ∧ start < t.off) ?_).seq fun a t' ⟨⟨h3, h5, h6⟩, h4⟩ => ?_
  · unfold totalLength
    exact Post.getThen (Post.ite (fun h => .pure ⟨rfl, rfl, h⟩) fun _ => .fail)
  rw [h4]
  refine Post.modify ?_
  dsimp only
  rw [h3, h5]
  exact ⟨h0, h6, h1, rfl, rfl⟩

/-- The cursor is inside after a successful `versionStep` and reading the entry point, wherever it was before. -/
theorem checkEntrypoint_bound {e : Env} (hf : Fits e) {s : IS} :
    Post (checkEntrypoint e) s (fun _ t => t.off ≤ e.buf.length) := by
  unfold checkEntrypoint
  refine Post.modifyThen ((lp_post (copyItem_post hf)).seq fun _ t ⟨h1, h2⟩ => Post.modifyThen ?_)
  have : t.off ≤ e.buf.length := h1.2.2.2
  refine BdI.post (m := _) ?_ (s := { t with item := { t.item with itemOffset := t.off } }) this
  exact .bind (BdI_lp (Bd_readLE e 4)) fun n => .bind (BdI_upd _) fun _ => .bind (BdI_parseDelegation e _ _) fun _ => .pure _

/-- An item ends behind its type byte and inside the data, and its recorded length runs from the type byte to that end. -/
theorem parseDeployItem_extent {e : Env} (hf : Fits e) {pay : Bool} {s : IS} (hs : s.off ≤ e.buf.length) :
    Post (parseDeployItem e pay) s (fun _ t => s.off < t.off ∧ t.off ≤ e.buf.length ∧ t.item.total = t.off - s.off + 1) := by
  have hfin : ∀ (n : Nat) (t : IS), t.off ≤ e.buf.length → Post (finishItem e n s.off) t
      (fun _ t => s.off < t.off ∧ t.off ≤ e.buf.length ∧ t.item.total = t.off - s.off + 1) := fun n t ht =>
    (finishItem_post ht).mono fun _ t ⟨_, h1, h2, _, h3⟩ => ⟨h1, h2, by rw [h3]⟩
  unfold parseDeployItem
  refine Post.modifyThen (Post.getThen ?_)
  dsimp only
  refine Post.ite (fun _ => ?_) fun _ => Post.ite (fun _ => ?_) fun _ => Post.ite (fun _ => ?_) fun _ =>
    Post.ite (fun _ => ?_) fun _ => .fail
  · unfold parseModuleBytes
    refine Post.getThen ?_
    dsimp only
    refine ((BdI_lp (Bd_parseItem e)).post (by exact hs)).seq fun _ t ht => ((BdI_lp (Bd_readLE e 4)).post ht).seq fun n t ht => ?_
    refine Post.ite (fun _ => ?_) fun _ => ?_
    · exact ((BdI_parseSystemPayment e n).post ht).seq fun _ t ht => Post.modifyThen (hfin n _ ht)
    · exact ((BdI_parseDelegation e n _).post ht).seq fun _ t ht => hfin n _ ht
  · unfold parseByHash
    refine Post.getThen (Post.seq (P := fun _ _ => True) (fun _ _ _ => trivial) fun _ t _ => Post.getThen ?_)
    exact Post.seq (P := fun _ _ => True) (fun _ _ _ => trivial) fun _ t _ =>
      (checkEntrypoint_bound hf).seq fun n t ht => hfin n _ ht
  · unfold parseByName
    refine Post.getThen (Post.seq (P := fun _ _ => True) (fun _ _ _ => trivial) fun _ t _ => Post.getThen ?_)
    exact Post.seq (P := fun _ _ => True) (fun _ _ _ => trivial) fun _ t _ =>
      (checkEntrypoint_bound hf).seq fun n t ht => hfin n _ ht
  · unfold parseTransfer
    refine Post.getThen ?_
    dsimp only
    refine ((BdI_lp (Bd_readLE e 4)).post (by exact hs)).seq fun n t ht => ?_
    exact ((BdI_parseNativeTransfer e n).post ht).seq fun _ t ht => Post.modifyThen (hfin n _ ht)

/-- Extent of payment and session. -/
theorem DeployParse.extent {e : Env} (hf : Fits e) {s : DS} {p q : IS} {k : Nat} (h : DeployParse e s p q k) :
    s.dep.header.bodyStart + 1 < p.off ∧ p.off + 1 < q.off ∧ q.off ≤ e.buf.length ∧
    p.item.total = p.off - s.dep.header.bodyStart ∧ q.item.total = q.off - p.off := by
  have h1 := parseDeployItem_extent (pay := true) (s := ⟨s.dep.header.bodyStart + 1, 0, {}⟩) hf (by have := h.payType.le; simpa using this) _ _ h.pay
  have h2 := parseDeployItem_extent (pay := false) (s := ⟨p.off + 1, p.epo, { typ := k }⟩) hf (by have := h.sesType.le; simpa using this) _ _ h.ses
  dsimp only at h1 h2
  omega

end Casper
