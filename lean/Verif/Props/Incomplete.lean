import Verif.Props.Trailing
import Verif.Props.RenderV1
import Verif.Props.Messages
/-
C78: incomplete transactions are refused.
-/
namespace Casper
open M

/-! ### Version 1 -/

/-- Where the reader of a well-formed transaction ends. -/
theorem readV1_end {e : Env} {p : TxPayload} {ap : List Bytes} {s : VS} (h : readV1 e ⟨0, {}⟩ = .ok () s) (hs : Small e)
    (hp : p.Ok) (hap : ∀ x ∈ ap, ApprovalOk x) (hbuf : e.buf = p.tx e.blake ap) :
    s = ⟨(p.tx e.blake ap).length, p.result e.blake ap e⟩ := by
  obtain ⟨-, o, o', hc⟩ := readV1_tx h hs hp hap hbuf
  have hat : At e.buf 0 (p.tx e.blake ap) := ⟨[], [], by rw [hbuf]; simp, rfl⟩
  have hr := readV1_at hs hp (e.blake.len _) hap hat (checkSanity_any (by rw [← hc]; rfl))
  rw [h] at hr
  injection hr

/-- Reading approvals leaves the data by at most the 64 bytes of a signature. -/
theorem readApprovalList_near (e : Env) (n : Nat) : ∀ off t, off ≤ e.buf.length + 64 → readApprovalList e n off = .ok () t → t ≤ e.buf.length + 64 := by
  induction n with
  | zero => intro off t ho h; unfold readApprovalList at h; cases h; exact ho
  | succ n ih =>
    intro off t ho h
    unfold readApprovalList at h
    rw [bind_eq_ok] at h
    obtain ⟨_, u, -, h⟩ := h
    rw [bind_eq_ok] at h
    obtain ⟨_, w, h1, h⟩ := h
    refine ih w t ?_ h
    unfold readSignature at h1
    rw [bind_eq_ok] at h1
    obtain ⟨tag, x, h2, h1⟩ := h1
    rw [bind_eq_ok] at h1
    obtain ⟨_, y, h3, h1⟩ := h1
    obtain ⟨h2, -, h4, -⟩ := readU8_post _ _ h2
    have hle := h2.le
    rw [require_eq_ok] at h3
    obtain ⟨-, rfl⟩ := h3
    unfold skip at h1
    injection h1 with _ h1
    simp only [List.length_cons, List.length_nil] at hle
    have := Nat.mod_le (x + 64) 65536
    have h5 : w = (x + 64) % 65536 := h1.symm
    omega

theorem readV1_near {e : Env} {s : VS} (h : readV1 e ⟨0, {}⟩ = .ok () s) : s.off ≤ e.buf.length + 64 := by
  unfold readV1 at h
  simp only [bind_eq_ok] at h
  obtain ⟨_, _, -, _, _, -, _, _, -, _, _, -, _, _, -, _, _, -, _, _, -, _, _, -, _, _, -, _, t, h1, h2⟩ := h
  unfold atOff at h2
  split at h2
  swap; · cases h2
  injection h2 with _ h2
  subst h2
  unfold readApprovals at h1
  simp only [bind_eq_ok] at h1
  obtain ⟨n, a, h3, _, b, h4, _, c, h5, h6⟩ := h1
  have hoff : t.off = c.off := by
    unfold incrExpert at h6
    split at h6
    · unfold incr updV M.modify at h6
      injection h6 with _ h6
      rw [← h6]
    · injection h6 with _ h6
      rw [← h6]
  rw [hoff]
  have hb : b.off = a.off := by
    unfold updV M.modify at h4
    injection h4 with _ h4
    rw [← h4]
  have ha : a.off ≤ e.buf.length := by
    obtain ⟨-, h7⟩ := Post.lv readU32_post _ _ h3
    exact h7.2.2.2
  obtain ⟨-, h7⟩ := Post.lv (Q := fun _ t => t ≤ e.buf.length + 64) (fun _ t h => readApprovalList_near e n _ t (by omega) h) _ _ h5
  exact h7

/-- Accepted data at the beginning of a serialized transaction. -/
theorem V1Accepted.cut {e : Env} {s : VS} (h : V1Accepted e s) {p : TxPayload} (hp : p.Ok) {ap : List Bytes} (hap : ∀ x ∈ ap, ApprovalOk x)
    (hpre : e.buf <+: p.tx e.blake ap) (hlen : (p.tx e.blake ap).length ≤ 16384) :
    (p.tx e.blake ap).length ≤ e.buf.length + 64 ∧ (p.tx e.blake ap).length ≤ e.buf.length + ap.flatten.length := by
  obtain ⟨ys, hys⟩ := hpre
  have hsm : Small (e.ext ys) := by unfold Small; dsimp only; rw [hys]; exact hlen
  have hs := readV1_end (Grows_readV1 (ys := ys) _ _ _ h.parse) hsm hp hap hys
  refine ⟨by have := readV1_near h.parse; rw [hs] at this; exact this, ?_⟩
  have hsm' : Small e := by
    unfold Small at hsm ⊢; simp only [List.length_append] at hsm; omega
  obtain ⟨n, -, hn, -⟩ := (readV1_post hsm' _ _ h.parse).approvals
  have hle := hn.le
  rw [hs] at hle
  have hH : (e.blake p.encode).length = 32 := e.blake.len _
  have hv := result_view (p := p) (ap := ap) (e := e.ext ys) hH
  have hpm := result_pmd (p := p) (ap := ap) (e := e.ext ys) (H := e.blake)
  dsimp only at hle
  rw [hv.size, hv.psize, hpm, le_length] at hle
  have h1 : p.encode.length = 44 + (metaOf p.fields).fieldsSize := by
    rw [TxPayload.encode_eq, callTable_length]; rfl
  rw [TxPayload.tx_eq, callTable_length]
  simp only [TxPayload.txFields, List.length_cons, List.length_nil, List.flatten_cons, List.flatten_nil, List.length_append, le_length, hH]
  omega

/-- **C78, version 1.** Let the data of an upload be the beginning of a serialized transaction that would fit into the device.  If a review opens,
then hash, payload and the number of approvals are complete, and of the approvals at most the last 64 bytes are missing, whatever happened
before and however the data are split.  In particular a transaction without approvals is complete.
(Missing: the last signature can be cut off, see `C78_signature_false`.) -/
theorem C78_v1_partial (pl : Platform) (hcap : pl.cap ≤ 16384) (d d' : Dev) (hd : d.Ok pl) (rx : Bytes) (pin : Bool) (hins : rx.getD 1 0 = 2)
    (p : TxPayload) (hp : p.Ok) (ap : List Bytes) (hap : ∀ x ∈ ap, ApprovalOk x) (xs : Bytes) (hpre : xs <+: p.tx pl.blake ap)
    (hlen : (p.tx pl.blake ap).length < pl.cap) (hx : d.data ++ rx.drop 5 = 1 :: xs) (h : step pl d (.apdu rx pin) = (d', .pending)) :
    (p.tx pl.blake ap).length ≤ xs.length + 64 ∧ (p.tx pl.blake []).length ≤ xs.length ∧ (ap = [] → xs = p.tx pl.blake ap) := by
  obtain ⟨hok, hdata, hcase⟩ := sign_pending (by omega) hd hins h
  rw [hx] at hcase
  rcases hcase with ⟨ys, s, h1, -, -⟩ | ⟨ys, s, h1, h2, -⟩
  · simp at h1
  simp only [List.cons.injEq, true_and] at h1
  subst h1
  obtain ⟨k1, k2⟩ := h2.cut hp hap hpre (by show (p.tx pl.blake ap).length ≤ _; omega)
  have k2 : (p.tx pl.blake ap).length ≤ xs.length + ap.flatten.length := k2
  refine ⟨k1, ?_, ?_⟩
  · have : (p.tx pl.blake ap).length = (p.tx pl.blake []).length + ap.flatten.length := by
      rw [TxPayload.tx_eq, TxPayload.tx_eq, callTable_length, callTable_length]
      simp only [TxPayload.txFields, List.length_cons, List.length_nil, List.flatten_cons, List.flatten_nil, List.length_append, le_length]
      omega
    omega
  · rintro rfl
    exact hpre.eq_of_length_le (by simpa using k2)

/-! ### Deploys -/

theorem HeaderFacts.ext {e : Env} {h : Header} (hh : HeaderFacts e h) (ys : Bytes) : HeaderFacts (e.ext ys) h :=
  ⟨hh.kind, hh.key.ext, hh.deps.ext, hh.depsLt, hh.chain.ext, hh.chainLt⟩

/-- Accepted data at the beginning of a serialized Deploy. -/
theorem DeployAccepted.cut {e : Env} {s : DS} (h : DeployAccepted e s) {x : DeploySpec} (hx : x.Ok) {ap : List Bytes}
    (hpre : e.buf <+: x.tx e.blake ap) (hlen : (x.tx e.blake ap).length ≤ 16384) :
    (x.signedPart e.blake).length ≤ e.buf.length ∨ ∃ y, y <+: x.body ∧ y ≠ x.body ∧ e.blake y = e.blake x.body := by
  obtain ⟨ys, hys⟩ := hpre
  have hsm : Small (e.ext ys) := by unfold Small; dsimp only; rw [hys]; exact hlen
  have hsm' : Small e := by
    unfold Small at hsm ⊢; simp only [List.length_append] at hsm; omega
  obtain ⟨p, q, k, hdr, hash, pay, ses, rest, hp, b1, b2, b3, b4, b5, b6, b7⟩ := h.split hsm'
  have ho := hx.header e.blake
  have a0 : At (e.ext ys).buf 0 (x.header e.blake).encode := ⟨[], e.blake (x.header e.blake).encode ++ (x.body ++ (le 4 ap.length ++ ap.flatten)),
    hys.trans (by unfold DeploySpec.tx; simp only [List.append_assoc, List.nil_append]), rfl⟩
  have hv := (hp.header.ext ys).view_eq hsm.to_fits ho a0
  obtain ⟨-, -, w3⟩ := header_small ho hsm.to_fits a0
  have hbh := (header_layout ho a0).bodyHash
  rw [hv] at b2 b7
  rw [w3] at b2
  have b8 : e.blake (pay ++ ses) = e.blake x.body :=
    At.unique (b7.ext (zs := ys)) hbh (by rw [e.blake.len]; exact (e.blake.len _).symm)
  have hfull : hdr ++ (hash ++ ((pay ++ ses) ++ (rest ++ ys))) =
      (x.header e.blake).encode ++ (e.blake (x.header e.blake).encode ++ (x.body ++ (le 4 ap.length ++ ap.flatten))) := by
    have := hys
    rw [b1] at this
    simpa only [DeploySpec.tx, List.append_assoc] using this
  obtain ⟨c1, c2⟩ := List.append_inj hfull b2
  obtain ⟨c3, c4⟩ := List.append_inj c2 (by rw [b3]; exact (e.blake.len _).symm)
  by_cases hl : x.body.length ≤ (pay ++ ses).length
  · left
    rw [b1]
    unfold DeploySpec.signedPart
    simp only [List.length_append] at hl ⊢
    rw [b2, b3]
    have : (e.blake (x.header e.blake).encode).length = 32 := e.blake.len _
    omega
  · refine .inr ⟨pay ++ ses, ?_, ?_, b8⟩
    · exact List.prefix_of_prefix_length_le ⟨_, c4⟩ ⟨_, rfl⟩ (by omega)
    · intro hc; rw [hc] at hl; omega

/-- **C78, Deploys.** Let the data of an upload be the beginning of a serialized Deploy that would fit into the device.  If a review opens, then
the part that is signed (header, hash, payment and session) is complete, whatever happened before and however the data are split; otherwise
some beginning of the body has the same BLAKE2b hash as the whole body.
(Missing: the approvals can be absent, see `C78_approvals_false`.) -/
theorem C78_deploy_partial (pl : Platform) (hcap : pl.cap ≤ 16384) (d d' : Dev) (hd : d.Ok pl) (rx : Bytes) (pin : Bool) (hins : rx.getD 1 0 = 2)
    (x : DeploySpec) (hok : x.Ok) (ap : List Bytes) (xs : Bytes) (hpre : xs <+: x.tx pl.blake ap)
    (hlen : (x.tx pl.blake ap).length < pl.cap) (hx : d.data ++ rx.drop 5 = 0 :: xs) (h : step pl d (.apdu rx pin) = (d', .pending)) :
    x.signedPart pl.blake <+: xs ∨ ∃ y, y <+: x.body ∧ y ≠ x.body ∧ pl.blake y = pl.blake x.body := by
  obtain ⟨-, hdata, hcase⟩ := sign_pending (by omega) hd hins h
  rw [hx] at hcase
  rcases hcase with ⟨ys, s, h1, h2, -⟩ | ⟨ys, s, h1, -, -⟩
  swap
  · simp at h1
  simp only [List.cons.injEq, true_and] at h1
  subst h1
  rcases h2.cut hok (ap := ap) hpre (by show (x.tx pl.blake ap).length ≤ _; omega) with k | k
  · exact .inl (List.prefix_of_prefix_length_le ⟨_, rfl⟩ hpre k)
  · exact .inr k

/-! ### Where it fails -/

/-- **C78 fails.** A transfer with one approval whose signature has been cut off, all 64 bytes of it, opens a review, shows the lines of the
transfer, and is signed; with one byte less it is refused. -/
theorem C78_signature_false : sampleTransfer.Ok ∧ ApprovalOk sampleApproval ∧
    outcome (1 :: (sampleTransfer.tx Blake.H [sampleApproval]).take ((sampleTransfer.tx Blake.H [sampleApproval]).length - 64)) 4 5 =
      outcome (1 :: sampleTransfer.tx Blake.H [sampleApproval]) 4 5 ∧
    (outcome (1 :: sampleTransfer.tx Blake.H [sampleApproval]) 4 5).answer = some .pending ∧
    (outcome (1 :: sampleTransfer.tx Blake.H [sampleApproval]) 4 5).signed =
      signatureReply samplePl (samplePath 0) (samplePl.sha256 (Blake.H sampleTransfer.encode)) ∧
    (outcome (1 :: (sampleTransfer.tx Blake.H [sampleApproval]).take ((sampleTransfer.tx Blake.H [sampleApproval]).length - 65)) 4 5).answer ≠ some .pending :=
  ⟨sampleTransfer_ok, sampleApproval_ok _ (by simp), by decide +kernel, by decide +kernel, by decide +kernel, by decide +kernel⟩

/-- **C78 fails.** A Deploy cut off behind its session, without even the number of its approvals, opens a review and is signed; with one byte less
it is refused. -/
theorem C78_approvals_false : sampleDeploy.Ok ∧
    outcome (0 :: sampleDeploy.signedPart Blake.H) 5 6 = outcome (0 :: sampleDeploy.tx Blake.H [sampleApproval]) 5 6 ∧
    (outcome (0 :: sampleDeploy.signedPart Blake.H) 5 6).answer = some .pending ∧
    (outcome (0 :: (sampleDeploy.signedPart Blake.H).dropLast) 5 6).answer ≠ some .pending :=
  ⟨sampleDeploy_ok, by decide +kernel, by decide +kernel, by decide +kernel⟩

/-- The hypotheses of `C78_v1_partial` can be met, by an incomplete transaction: one with an approval, without the last 64 bytes. -/
example : sampleTransfer.Ok ∧ (∀ x ∈ [sampleApproval], ApprovalOk x) ∧ (sampleTransfer.tx Blake.H [sampleApproval]).length < samplePl.cap ∧
    (sampleTransfer.tx Blake.H [sampleApproval]).take 421 <+: sampleTransfer.tx Blake.H [sampleApproval] ∧
    (sampleTransfer.tx Blake.H [sampleApproval]).length = 421 + 64 ∧
    (run samplePl (Dev.init samplePl) ((sampleUpload (1 :: (sampleTransfer.tx Blake.H [sampleApproval]).take 421)).take 3)).1.data ++
      (apdu 2 2 ((1 :: (sampleTransfer.tx Blake.H [sampleApproval]).take 421).drop 500)).drop 5 =
        1 :: (sampleTransfer.tx Blake.H [sampleApproval]).take 421 ∧
    (step samplePl (run samplePl (Dev.init samplePl) ((sampleUpload (1 :: (sampleTransfer.tx Blake.H [sampleApproval]).take 421)).take 3)).1
      (.apdu (apdu 2 2 ((1 :: (sampleTransfer.tx Blake.H [sampleApproval]).take 421).drop 500)) true)).2 = .pending :=
  ⟨sampleTransfer_ok, sampleApproval_ok, by decide +kernel, by decide +kernel, by decide +kernel, by decide +kernel, by decide +kernel⟩

/-- The hypotheses of `C78_deploy_partial` can be met: the signed part of a transfer, without its approval. -/
example : sampleDeploy.Ok ∧ (sampleDeploy.tx Blake.H [sampleApproval]).length < samplePl.cap ∧
    sampleDeploy.signedPart Blake.H <+: sampleDeploy.tx Blake.H [sampleApproval] ∧
    sampleDeploy.signedPart Blake.H ≠ sampleDeploy.tx Blake.H [sampleApproval] ∧
    (run samplePl (Dev.init samplePl) ((sampleUpload (0 :: sampleDeploy.signedPart Blake.H)).take 3)).1.data ++
      (apdu 2 2 ((0 :: sampleDeploy.signedPart Blake.H).drop 500)).drop 5 = 0 :: sampleDeploy.signedPart Blake.H ∧
    (step samplePl (run samplePl (Dev.init samplePl) ((sampleUpload (0 :: sampleDeploy.signedPart Blake.H)).take 3)).1
      (.apdu (apdu 2 2 ((0 :: sampleDeploy.signedPart Blake.H).drop 500)) true)).2 = .pending :=
  ⟨sampleDeploy_ok, by decide +kernel, by decide +kernel, by decide +kernel, by decide +kernel, by decide +kernel⟩

end Casper
