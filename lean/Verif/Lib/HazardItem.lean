import Verif.Lib.HazardDeploy
import Verif.Lib.DeployAccept
/-
Where undefined behaviour can arise while any line of a parsed Deploy is shown.
-/
namespace Casper
open M

theorem NF_ttlText (v n : Nat) : NF (ttlText v n) := by
  unfold ttlText
  exact .ite (fun _ => .fail _) fun _ => .ite (fun _ => .fail _) fun _ => .pure _

theorem NF_headerLine (e : Env) (d : Deploy) (idx : Nat) : NF (headerLine e d idx) := by
  unfold headerLine
  refine .ite (fun _ => .bind (NF_indexPart e _ _) fun _ => .bind (NF_readLE e 8) fun v => ?_) fun _ =>
    .ite (fun _ => .bind (NF_indexPart e _ _) fun _ => .bind (NF_readLE e 8) fun v => .bind (NF_ttlText _ _) fun _ => .pure _) fun _ =>
    .ite (fun _ => .bind (NF_indexPart e _ _) fun _ => .bind (NF_readLE e 8) fun v => .pure _) fun _ =>
    .bind (NF_indexPart e _ _) fun _ => .bind (NF_readLE e 4) fun v => .pure _
  split
  · exact .fail _
  · exact .pure _

theorem itemSystemPayment_fault {e : Env} (hf : Fits e) {it : Item} (hg : it.generic = 0) {idx s : Nat} {Q : Fault → Prop} : FaultPost (itemSystemPayment e it idx) s Q := by
  unfold itemSystemPayment
  refine .nfThen (NF_skip 1) fun _ _ _ => .nfThen (NF_readLE e 4) fun _ _ _ => .getThen (.ite (fun _ => .fail) fun _ => .nfThen (NF_skip _) fun _ _ _ => .getThen ?_)
  refine .nfThen (NF_readLE e 4) fun _ _ _ => .ite (fun _ => .fail) fun _ => .ite (fun _ => ?_) fun _ => .fail
  rw [if_pos hg]
  exact .none (showMotes_fault hf)

/-- The ways in which showing a parsed Deploy can leave the bounds of memory. -/
inductive DeployHazard (e : Env) (s : DS) (o : Nat) : Prop
  /-- a chain name that fills its array -/
  | chain (xs : Bytes) (ha : At e.buf (partIndex s.dep.header .chainname) (pfx xs)) (hn : xs.length = 100) (h0 : 0 ∉ xs)
  | session (h : SesHazard e s.epo s.dep.session o)

theorem DeployParse.facts {e : Env} (hs : Small e) {s : DS} {p q : IS} {k : Nat} (h : DeployParse e s p q k) : SesFacts e (p.off + 1) k q :=
  parseSession_facts hs (by have := h.sesType.le; simpa using this) _ _ h.ses

theorem DeployParse.bodyLine_fault {e : Env} (hs : Small e) {s : DS} {p q : IS} {k : Nat} (h : DeployParse e s p q k) {idx c : Nat} :
    FaultPost (bodyLine e s.epo s.dep idx) c (fun _ => DeployHazard e s (p.off + 1)) := by
  have hf := hs.fits
  have hs' : e.buf.length ≤ 16384 := hs
  have hfac := h.facts hs
  obtain ⟨-, hpay, hlt, -⟩ := h.payment hf
  have hext := h.extent hf
  have ho : p.off + 1 ≤ e.buf.length := by omega
  have hd : s.dep.payment = p.item := by rw [h.result]
  have hses : s.dep.session = q.item := by rw [h.result]
  have hepo : s.epo = q.epo := by rw [h.result]
  have hg : s.dep.payment.generic = 0 := by rw [hd, hpay]
  have htot : s.dep.payment.total = p.off - s.dep.header.bodyStart := by rw [hd, hpay]
  unfold bodyLine
  dsimp only
  refine .nfThen (NF_seek _) fun _ u hu => .ite (fun _ => .ite (fun _ => itemSystemPayment_fault hf hg) fun _ => .fail) fun _ =>
    .nfThen (NF_skip _) fun _ v hv => ?_
  have hu' : u = s.dep.header.bodyStart := by unfold seek at hu; cases hu; rfl
  subst hu'
  rw [skip_run (by omega)] at hv
  have hv' : v = p.off := by cases hv; omega
  subst hv'
  refine .ite (fun _ => .ite (fun hk => ?_) fun _ => .ite (fun hk => ?_) fun _ => .fail) fun _ =>
    .nfThen (NF_skip _) fun _ _ _ => .ite (fun _ => .nfThen (NF_readLE e 4) fun _ _ _ => .pure) fun _ => .fail
  · rw [hses] at hk ⊢
    by_cases h5 : k = 5
    · subst h5
      exact (itemNativeTransfer_fault hs hfac ho).mono fun _ hh => .session (by rw [hses, hepo]; exact hh)
    · have := (hfac.call h5).1
      rw [hk] at this
      exact absurd this (by unfold CallKind; decide)
  · rw [hses] at hk ⊢
    by_cases h5 : k = 5
    · rw [(hfac.transfer h5).1] at hk
      exact absurd hk (by decide)
    · rw [hepo]
      exact (itemDelegation_fault hs hfac h5 ho).mono fun _ hh => .session (by rw [hses, hepo]; exact hh)

/-- Showing any line of a parsed Deploy whose header lies in the data stays within memory, except for the hazards. -/
theorem DeployParse.item_fault {e : Env} (hs : Small e) {s : DS} {p q : IS} {k : Nat} (h : DeployParse e s p q k)
    (hl : headerLength s.dep.header + 32 ≤ e.buf.length) {idx c : Nat} :
    FaultPost (getItemDeploy e s.epo s.dep idx) c (fun _ => DeployHazard e s (p.off + 1)) := by
  have hf := hs.fits
  have hs' : e.buf.length ≤ 16384 := hs
  unfold getItemDeploy
  refine .ite (fun _ => .fail) fun _ => .ite (fun _ => .nfThen (NF_seek _) fun _ u _ => .thenPure (.none ?_) fun _ => NF.pure _) fun _ =>
    .ite (fun _ => .pure) fun _ => .ite (fun _ => ?_) fun _ => .ite (fun _ => ?_) fun _ => .ite (fun _ => .none (NF_headerLine e _ _ _)) fun _ => h.bodyLine_fault hs
  · intro f hp
    have := (printBytes_faults (s := u) hl hf).1 ⟨f, hp⟩
    revert this; decide
  · have hc := h.header.chain
    have hle := hc.le
    rw [le_length] at hle
    refine .nfThen (NF_indexPart e _ _) fun _ u hu => .getThen (.thenPure ?_ fun _ => NF.pure _)
    have hu' : u = partIndex s.dep.header .chainname := (indexPart_post _ _ hu).1
    subst hu'
    unfold displayString
    refine .ite (fun _ => .fail) fun hcl => ?_
    have hin : partIndex s.dep.header .chainname + 4 + s.dep.header.chainLen ≤ e.buf.length := by
      have e1 : headerLength s.dep.header = partIndex s.dep.header .chainname + 4 + s.dep.header.chainLen := by
        unfold headerLength partIndex at *
        unfold u16 at *
        dsimp only at *
        omega
      omega
    refine .seq (.none fun f hp => ?_) Post.self fun xs u hu => ?_
    · rw [slice_in hin] at hp; cases hp
    · obtain ⟨hx1, hx2, -⟩ := slice_eq_ok.1 hu
      refine showArray_fault.mono fun _ hh => .chain xs ?_ (by omega) hh.2
      rw [Casper.pfx, At.append, le_length, hx2]
      exact ⟨hc, hx1⟩
  · refine .nfThen (NF_indexPart e _ _) fun _ u hu => .thenPure ?_ fun _ => NF.pure _
    have hle := h.header.deps.le
    rw [le_length] at hle
    unfold printAddress
    exact .thenPure (slice_fault.mono fun _ hh => absurd hh (by omega)) fun _ => NF.pure _

end Casper
