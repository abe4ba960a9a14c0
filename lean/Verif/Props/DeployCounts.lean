import Verif.Props.Headers
import Verif.Props.Incomplete
/-
C48: the number of approvals of a Deploy.
-/
namespace Casper
open M

/-- What is read for the approvals of a Deploy stands behind its session. -/
theorem DeployAccepted.approvals {e : Env} {s : DS} (h : DeployAccepted e s) (hs : Small e) (hx : e.expert = true)
    {hd : DeployHeader} (ho : hd.Ok) {hh : Bytes} (hl : hh.length = 32) {pay ses : ExecItem} (hp : pay.Ok) (hses : ses.Ok)
    {rest : Bytes} (hb : e.buf = hd.encode ++ hh ++ (pay.encode ++ ses.encode) ++ rest) :
    4 ≤ rest.length ∧ 10 ≤ numItemsDeploy e s.dep ∧
      ∀ t, ∃ c, getItemDeploy e s.epo s.dep (numItemsDeploy e s.dep - 1) t = .ok (b!"Approvals #", decText (leVal (rest.take 4))) c := by
  obtain ⟨p, q, k, hq⟩ := readDeploy_post _ _ h.parse
  have hf := hs.to_fits
  obtain ⟨-, f2, -, -, f5, f6, f7⟩ := hq.formed hf ho hl hp hses hb
  have hc := hq.count hf
  have hc9 := hq.countExpert hf hx
  have hx2 := hq.extent hf
  have hbs : s.dep.header.bodyStart = headerLength s.dep.header + 32 := u16_id f7
  have h1 := (hq.payment hf).2.1
  have h2 := parseDeployItem_few _ _ hq.ses
  have h3 := h2.1
  have h4 := h2.2
  have hlen := congrArg List.length hb
  simp only [List.length_append] at hlen
  have hsp : s.dep.payment = p.item ∧ s.dep.session = q.item := by rw [hq.result]; exact ⟨rfl, rfl⟩
  have hn : numItemsDeploy e s.dep = 10 + u16 (q.item.fixed + q.item.runtime) := by
    unfold numItemsDeploy u8 u16
    rw [if_pos hx, hsp.1, hsp.2, h1]
    dsimp only
    omega
  have htp : u16 (s.dep.payment.fixed + s.dep.payment.runtime) = 1 := by rw [hsp.1, h1]; rfl
  have hts : u16 (s.dep.session.fixed + s.dep.session.runtime) = u16 (q.item.fixed + q.item.runtime) := by rw [hsp.2]
  have hpt : s.dep.payment.total = pay.encode.length := by rw [hsp.1]; omega
  have hst : s.dep.session.total = ses.encode.length := by rw [hsp.2]; omega
  unfold Small at hs
  have key : ∀ t, getItemDeploy e s.epo s.dep (numItemsDeploy e s.dep - 1) t = (do
      let v ← readU32 e
      pure (b!"Approvals #", decimal v) : P (Bytes × Bytes)) (hd.encode.length + 32 + pay.encode.length + ses.encode.length) := by
    intro t
    unfold getItemDeploy
    rw [if_neg (by omega), if_neg (by omega), if_neg (by omega), if_neg (by omega), if_neg (by omega), if_neg (by omega)]
    unfold bodyLine
    refine seqThen (t := hd.encode.length + 32) (by unfold seek; rw [f2, u16_id (by omega)]) ?_
    dsimp only
    rw [htp, if_pos hx, if_neg (by omega)]
    refine seqThen (skip_run (by rw [hpt]; omega)) ?_
    rw [hts, if_neg (by unfold u8; omega)]
    refine seqThen (skip_run (by rw [hpt, hst]; omega)) ?_
    rw [if_pos ⟨by omega, hx⟩, hpt, hst]
  obtain ⟨kv, t, ht⟩ := h.items (numItemsDeploy e s.dep - 1) (by omega)
  rw [key] at ht
  obtain ⟨v, u, hv, -⟩ := bind_eq_ok.1 ht
  obtain ⟨ys, y1, y2, y3, rfl⟩ := readU32_eq_ok hv
  have hat : At e.buf (hd.encode.length + 32 + pay.encode.length + ses.encode.length) rest :=
    ⟨hd.encode ++ hh ++ (pay.encode ++ ses.encode), [], by rw [hb]; simp, by simp [hl]; omega⟩
  have hr : 4 ≤ rest.length := by have := y2.le; omega
  have hy : ys = rest.take 4 := by
    rw [← List.take_append_drop 4 rest, At.append] at hat
    exact y2.unique hat.1 (by simp [y1]; omega)
  refine ⟨hr, by omega, fun t => ⟨hd.encode.length + 32 + pay.encode.length + ses.encode.length + 4, ?_⟩⟩
  rw [key]
  refine seqThen hv ?_
  rw [y3, hy, decimal_eq]; rfl

/-- **C48, approvals of Deploys.** In expert mode the last line of the review of an accepted Deploy shows the number behind its session, where Casper
writes how many approvals there are; a Deploy without this number is refused. -/
theorem C48_deploy_approvals (pl : Platform) (hcap : pl.cap ≤ 16384) (d d' : Dev) (hd : d.Ok pl) (rx : Bytes) (pin : Bool) (hins : rx.getD 1 0 = 2)
    (hdr : DeployHeader) (ho : hdr.Ok) (hh : Bytes) (hl : hh.length = 32) (pay ses : ExecItem) (hp : pay.Ok) (hs : ses.Ok) (rest : Bytes)
    (hx : d.data ++ rx.drop 5 = 0 :: (hdr.encode ++ hh ++ (pay.encode ++ ses.encode) ++ rest)) (h : step pl d (.apdu rx pin) = (d', .pending))
    (hexp : d.expert = true) :
    4 ≤ rest.length ∧ ∃ n, (∀ t, reviewCount pl d' .tx t = .ok n t) ∧ 10 ≤ n ∧
      ∀ t, ∃ c, reviewItem pl d' .tx (n - 1) t = .ok (b!"Approvals #", decText (leVal (rest.take 4))) c := by
  obtain ⟨hok, hdata, hcase⟩ := sign_pending (by omega) hd hins h
  generalize hxs : hdr.encode ++ hh ++ (pay.encode ++ ses.encode) ++ rest = xs at hx
  rw [hx] at hcase hdata
  rcases hcase with ⟨ys, s, h1, h2, rfl⟩ | ⟨ys, s, h1, -, -⟩
  swap
  · simp at h1
  simp only [List.cons.injEq, true_and] at h1
  subst h1
  have hsm : Small (mkEnv pl d.expert xs) := small_data hcap hok hdata d.expert
  have hk := readDeploy_kind h2.parse
  obtain ⟨p, q, k, hq⟩ := readDeploy_post _ _ h2.parse
  have hn := hq.count hsm.to_fits
  have hn9 := hq.countExpert hsm.to_fits hexp
  obtain ⟨r1, r0, r2⟩ := h2.approvals hsm hexp ho hl hp hs hxs.symm
  refine ⟨r1, _, fun t => reviewCount_deploy hok hdata s hk t, ?_, fun t => ?_⟩
  · exact r0
  · rw [reviewItem_deploy hok hdata s hk]
    change ∃ c, (if u8 (numItemsDeploy (mkEnv pl d.expert xs) s.dep - 1) ≥ 128 ∨ u8 (numItemsDeploy (mkEnv pl d.expert xs) s.dep - 1) >
        numItemsDeploy (mkEnv pl d.expert xs) s.dep then fail 1 else getItemDeploy (mkEnv pl d.expert xs) s.epo s.dep
          (u8 (numItemsDeploy (mkEnv pl d.expert xs) s.dep - 1)) : M Nat _) t = _
    rw [u8_id (by omega), if_neg (by omega)]
    exact r2 t

/-- The same for Deploys with all their approvals: the line shows how many there are. -/
theorem C48_deploy_number (pl : Platform) (hcap : pl.cap ≤ 16384) (d d' : Dev) (hd : d.Ok pl) (rx : Bytes) (pin : Bool) (hins : rx.getD 1 0 = 2)
    (x : DeploySpec) (ho : x.Ok) (hp : x.payment.Ok) (hs : x.session.Ok) (ap : List Bytes) (hx : d.data ++ rx.drop 5 = 0 :: x.tx pl.blake ap)
    (hap : ap.length < 2 ^ 32) (h : step pl d (.apdu rx pin) = (d', .pending)) (hexp : d.expert = true) :
    ∃ n, (∀ t, reviewCount pl d' .tx t = .ok n t) ∧ 10 ≤ n ∧
      ∀ t, ∃ c, reviewItem pl d' .tx (n - 1) t = .ok (b!"Approvals #", decText ap.length) c := by
  have hx' : d.data ++ rx.drop 5 = 0 :: ((x.header pl.blake).encode ++ pl.blake (x.header pl.blake).encode ++ (x.payment.encode ++ x.session.encode) ++
      (le 4 ap.length ++ ap.flatten)) := hx
  have := (C48_deploy_approvals pl hcap d d' hd rx pin hins _ (ho.header pl.blake) _ (pl.blake.len _) _ _ hp hs _ hx' h hexp).2
  rwa [List.take_append_of_le_length (by simp), List.take_of_length_le (by simp), leVal_le 4 _ (by simpa using hap)] at this

/-- **C78, Deploys in expert mode.** Let the data of an upload be the beginning of a serialized Deploy that would fit into the device.  If a review
opens in expert mode, then not only the signed part is complete, also the number of approvals behind it is; otherwise some beginning of the body has
the same BLAKE2b hash as the whole body.
(Missing: the approvals themselves can be absent.) -/
theorem C78_expert_partial (pl : Platform) (hcap : pl.cap ≤ 16384) (d d' : Dev) (hd : d.Ok pl) (rx : Bytes) (pin : Bool) (hins : rx.getD 1 0 = 2)
    (x : DeploySpec) (hok : x.Ok) (hp : x.payment.Ok) (hs : x.session.Ok) (ap : List Bytes) (xs : Bytes) (hpre : xs <+: x.tx pl.blake ap)
    (hlen : (x.tx pl.blake ap).length < pl.cap) (hx : d.data ++ rx.drop 5 = 0 :: xs) (h : step pl d (.apdu rx pin) = (d', .pending))
    (hexp : d.expert = true) :
    x.signedPart pl.blake ++ le 4 ap.length <+: xs ∨ ∃ y, y <+: x.body ∧ y ≠ x.body ∧ pl.blake y = pl.blake x.body := by
  refine (C78_deploy_partial pl hcap d d' hd rx pin hins x hok ap xs hpre hlen hx h).imp ?_ id
  rintro ⟨rest, rfl⟩
  have hr := (C48_deploy_approvals pl hcap d d' hd rx pin hins _ (hok.header pl.blake) _ (pl.blake.len _) _ _ hp hs rest hx h hexp).1
  have h2 : rest <+: le 4 ap.length ++ ap.flatten := by
    have : x.signedPart pl.blake ++ rest <+: x.signedPart pl.blake ++ (le 4 ap.length ++ ap.flatten) := hpre
    exact (List.prefix_append_right_inj _).1 this
  exact (List.prefix_append_right_inj _).2 (List.prefix_of_prefix_length_le ⟨_, rfl⟩ h2 (by simpa using hr))

/-- The hypotheses can be met: a transfer with one approval, in expert mode.  Without the approval, but with their number, it is accepted as well;
without the number it is refused. -/
example : sampleDeploy.Ok ∧ sampleDeploy.payment.Ok ∧ sampleDeploy.session.Ok ∧
    (run samplePl { Dev.init samplePl with expert := true } (sampleUpload (0 :: sampleDeploy.tx Blake.H [sampleApproval]))).2.getLast? = some .pending ∧
    (run samplePl { Dev.init samplePl with expert := true } (sampleUpload (0 :: (sampleDeploy.signedPart Blake.H ++ le 4 1)))).2.getLast? = some .pending ∧
    (run samplePl { Dev.init samplePl with expert := true } (sampleUpload (0 :: sampleDeploy.signedPart Blake.H))).2.getLast? ≠ some .pending := by
  refine ⟨sampleDeploy_ok, ⟨?_, ?_, ?_⟩, ⟨?_, ?_, ?_⟩, by decide +kernel, by decide +kernel, by decide +kernel⟩
  · intro a ha
    simp only [sampleDeploy, samplePay, ExecItem.args, List.mem_singleton] at ha
    subst ha
    exact ⟨by decide, by decide, by decide⟩
  · rintro h (⟨n, as, hc⟩ | ⟨v, n, as, hc⟩) <;> cases hc
  · rintro v (⟨h, n, as, hc⟩ | ⟨h, n, as, hc⟩) <;> cases hc
  · intro a ha
    simp only [sampleDeploy, sampleTransferArgs, ExecItem.args, List.mem_cons, List.not_mem_nil, or_false] at ha
    rcases ha with rfl | rfl | rfl <;> exact ⟨by decide, by decide, by decide⟩
  · rintro h (⟨n, as, hc⟩ | ⟨v, n, as, hc⟩) <;> cases hc
  · rintro v (⟨h, n, as, hc⟩ | ⟨h, n, as, hc⟩) <;> cases hc

end Casper
