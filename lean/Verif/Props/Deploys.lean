import Verif.Lib.DeployFault
import Verif.Lib.SampleDeploy
import Verif.Props.Hash
/-
C08, C09, C10, C22: the header of a Deploy, its hashes, and what is signed.
-/
namespace Casper
open M

/-! ### Deploys laid out as they should be -/

/-- Data starting with a serialized header: what is read is the header's view. -/
theorem HeaderFacts.view_eq {e : Env} (hf : Fits e) {v : Header} (h : HeaderFacts e v) {hd : DeployHeader} (ho : hd.Ok)
    (a0 : At e.buf 0 hd.encode) : v = hd.view := by
  have hly := header_layout ho a0
  obtain ⟨w1, w2, w3⟩ := header_small ho hf a0
  unfold Fits at hf
  have hlen := ho.length
  have le1 := a0.le
  obtain ⟨b, xs, hb1, hb2⟩ := PubKey.head hly.account
  have hk : v.pubkeyType = hd.view.pubkeyType := by
    have := h.key.unique (At.cons.1 hb1).1 rfl
    have h3 := congrArg UInt8.toNat (List.cons.inj this).1
    have h4 := h.kind
    rw [show b.toNat = hd.view.pubkeyType from hb2] at h3
    rw [← h3, UInt8.toNat_ofNat', Nat.mod_eq_of_lt (by omega)]
  have hpk : Casper.pkLen v = Casper.pkLen hd.view := by unfold Casper.pkLen; rw [hk]
  have hd1 : v.deps = hd.view.deps := by
    refine At.le_inj (n := 4) h.deps ?_ h.depsLt (show hd.deps.length < _ by omega)
    rw [hpk]
    exact (At.append.1 hly.deps).1
  have hix : partIndex v .chainname = partIndex hd.view .chainname := by simp only [partIndex, hpk, hd1]
  have hc1 : v.chainLen = hd.view.chainLen := by
    refine At.le_inj (n := 4) h.chain ?_ h.chainLt (show hd.chain.length < _ by omega)
    rw [hix, w2]
    exact (At.append.1 hly.chain).1
  revert hk hd1 hc1
  cases v
  cases hd.view
  rintro rfl rfl rfl
  rfl

/-- A parsed Deploy that is a serialized header, 32 bytes, a serialized payment and a serialized session: the parser found
exactly these. -/
theorem DeployParse.formed {e : Env} (hf : Fits e) {s : DS} {p q : IS} {k : Nat} (h : DeployParse e s p q k)
    {hd : DeployHeader} (ho : hd.Ok) {hh : Bytes} (hl : hh.length = 32) {pay ses : ExecItem} (hp : pay.Ok) (hs : ses.Ok)
    {rest : Bytes} (hb : e.buf = hd.encode ++ hh ++ (pay.encode ++ ses.encode) ++ rest) :
    s.dep.header = hd.view ∧ headerLength s.dep.header = hd.encode.length ∧ pay.tag = 0 ∧ k = ses.tag ∧
    p.off = hd.encode.length + 32 + pay.encode.length ∧ q.off = p.off + ses.encode.length ∧
    headerLength s.dep.header + 32 < 65536 := by
  have a0 : At e.buf 0 hd.encode := ⟨[], hh ++ (pay.encode ++ ses.encode) ++ rest, by rw [hb]; simp, rfl⟩
  have a1 : At e.buf (hd.encode.length + 32) pay.encode := ⟨hd.encode ++ hh, ses.encode ++ rest, by rw [hb]; simp, by simp [hl]⟩
  have a2 : At e.buf (hd.encode.length + 32 + pay.encode.length) ses.encode :=
    ⟨hd.encode ++ hh ++ pay.encode, rest, by rw [hb]; simp, by simp [hl]; omega⟩
  have hly := header_layout ho a0
  obtain ⟨w1, w2, w3⟩ := header_small ho hf a0
  have hf' := hf
  unfold Fits at hf'
  have le1 := a1.le
  have hlen := ho.length
  have hv : s.dep.header = hd.view := h.header.view_eq hf ho a0
  have hbs : s.dep.header.bodyStart = hd.encode.length + 32 := by
    unfold Header.bodyStart
    rw [hv, w3, u16_id (by omega)]
  have hpt : pay.tag = 0 := by
    have := h.payType
    rw [hbs] at this
    rw [ExecItem.encode_eq] at a1
    have h3 := this.unique (At.cons.1 a1).1 rfl
    have h4 := congrArg UInt8.toNat (List.cons.inj h3).1
    rw [UInt8.toNat_ofNat', Nat.mod_eq_of_lt (by cases pay <;> simp [ExecItem.tag])] at h4
    exact h4.symm
  have hpo : p.off = hd.encode.length + 32 + pay.encode.length := by
    have := h.pay
    rw [hbs] at this
    exact parseDeployItem_end (epo := 0) hf hp a1 true () p (by rw [hpt]; exact this)
  have hst : k = ses.tag := by
    have := h.sesType
    rw [hpo] at this
    have a3 := a2
    rw [ExecItem.encode_eq ses] at a3
    have h3 := this.unique (At.cons.1 a3).1 rfl
    have h4 := congrArg UInt8.toNat (List.cons.inj h3).1
    have h5 := h.small
    rw [UInt8.toNat_ofNat', UInt8.toNat_ofNat', Nat.mod_eq_of_lt (by omega),
      Nat.mod_eq_of_lt (by cases ses <;> simp [ExecItem.tag])] at h4
    exact h4
  refine ⟨hv, by rw [hv, w3], hpt, hst, hpo, ?_, by rw [hv, w3]; omega⟩
  have := h.ses
  rw [hst] at this
  rw [hpo] at this ⊢
  exact parseDeployItem_end hf hs a2 false () q this

/-! ### C08 -/

/-- **C08.** Data starting with a serialized header: the header is read, and whenever the Deploy parses, the bytes that
validation hashes as the header are exactly the serialized header, of 1 + key length + 56 + 4 + 32 n + 4 + m bytes for n
dependencies and a chain name of m bytes. -/
theorem C08_header_extent (e : Env) (hf : Fits e) (h : DeployHeader) (ho : h.Ok) (rest : Bytes) (hb : e.buf = h.encode ++ rest) :
    (∃ v c, readDeployHeader e ⟨0, 0, {}⟩ = .ok () ⟨c, 0, { header := v }⟩) ∧
    ∀ v c, readDeployHeader e ⟨0, 0, {}⟩ = .ok () ⟨c, 0, { header := v }⟩ →
      headerLength v = h.account.encode.length + 56 + (4 + 32 * h.deps.length) + (4 + h.chain.length) ∧
      e.buf.take (headerLength v) = h.encode ∧ c = u16 (h.encode.length + 32) := by
  have a0 : At e.buf 0 h.encode := ⟨[], rest, by rw [hb]; simp, rfl⟩
  have hr := readDeployHeader_at (epo := 0) ho hf a0
  refine ⟨⟨_, _, hr⟩, fun v c hv => ?_⟩
  rw [hr] at hv
  cases hv
  obtain ⟨w1, w2, w3⟩ := header_small ho hf a0
  refine ⟨?_, ?_, rfl⟩
  · rw [w3, ho.length]
    have : pkLen h.view = h.account.encode.length := by rw [ho.account.length]; rfl
    omega
  · rw [w3, hb, List.take_left]

example : sampleDeploy.deps.length = 1 ∧ (sampleDeploy.header Blake.H).encode.length = 34 + 56 + 36 + 15 ∧
    headerLength (sampleDeploy.header Blake.H).view = 141 := by decide +kernel

/-! ### C09 -/

theorem small_data {pl : Platform} (hcap : pl.cap ≤ 16384) {d : Dev} (hd : d.Ok pl) {x : UInt8} {xs : Bytes} (hx : d.data = x :: xs) (b : Bool) :
    Small (mkEnv pl b xs) := by
  have := hd.data_length; rw [hx] at this; have := hd.2
  unfold Small mkEnv; simp only [List.length_cons] at this ⊢; simp_all; omega

theorem Small.to_fits {e : Env} (h : Small e) : Fits e := by unfold Small at h; unfold Fits; omega

/-- A parsed and validated Deploy, taken apart. -/
theorem DeployAccepted.split {e : Env} {s : DS} (hs : Small e) (h : DeployAccepted e s) :
    ∃ p q k hdr hash pay ses rest, DeployParse e s p q k ∧ e.buf = hdr ++ hash ++ (pay ++ ses) ++ rest ∧
      hdr.length = headerLength s.dep.header ∧ hash.length = 32 ∧ hdr.length + 32 + pay.length = p.off ∧
      hdr.length + 32 + pay.length + ses.length = q.off ∧
      e.blake hdr = hash ∧ At e.buf (pkLen s.dep.header + 24) (e.blake (pay ++ ses)) := by
  obtain ⟨p, q, k, hp, h1, h2⟩ := h.small hs.to_fits
  have hl : headerLength s.dep.header + 32 < 65536 := by unfold Small at hs; omega
  obtain ⟨hdr, hash, pay, ses, rest, bh, b1, b2, b3, b4, b5, b6, b7, b8⟩ := hp.hashes hs.to_fits hl
  obtain ⟨t, hv⟩ := h.valid
  obtain ⟨t', hv'⟩ := b8 0
  rw [hv'] at hv
  split at hv
  · split at hv
    · rename_i c1 c2
      exact ⟨p, q, k, hdr, hash, pay, ses, rest, hp, b1, b2, b3, b4, b5, c1, by rw [c2]; exact b7⟩
    · cases hv
  · cases hv

/-- Length of the serialized key at the beginning of a header. -/
def keyLen (xs : Bytes) : Nat := if xs.head? = some 2 then 34 else 33

theorem HeaderFacts.pkLen {e : Env} {h : Header} (hh : HeaderFacts e h) : pkLen h = keyLen e.buf := by
  have hk := hh.key.get
  have : e.buf.head? = some (UInt8.ofNat h.pubkeyType) := by rw [List.head?_eq_getElem?]; exact hk
  unfold keyLen Casper.pkLen
  rw [this]
  rcases hh.kind with h | h <;> rw [h] <;> decide

/-- **C09.** Accepted Deploy data are: header, 32-byte hash, payment and session, the rest.  The hash is BLAKE2b of the
header; the 32 bytes at the place of the body hash (behind the key and three 64-bit numbers) are BLAKE2b of payment and
session; the payment starts with type byte 0 (module bytes), the session with a type byte up to 6. -/
theorem C09_accepted_hashes (pl : Platform) (hcap : pl.cap ≤ 16384) (d d' : Dev) (hd : d.Ok pl) (xs : Bytes)
    (hx : d.data = 0 :: xs) (h : txParse pl d = .ok () d') :
    ∃ hdr hash pay ses rest, xs = hdr ++ hash ++ (pay ++ ses) ++ rest ∧ hash.length = 32 ∧ pl.blake hdr = hash ∧
      (xs.drop (keyLen xs + 24)).take 32 = pl.blake (pay ++ ses) ∧ pay.head? = some 0 ∧ 2 ≤ pay.length ∧
      (∃ k, ses.head? = some (UInt8.ofNat k) ∧ k ≤ 6) ∧ 2 ≤ ses.length := by
  rcases (txParse_ok (by omega) hd).1 h with ⟨ys, s, h1, h2, -⟩ | ⟨ys, s, h1, -, -⟩
  swap
  · rw [hx] at h1; simp at h1
  rw [hx] at h1
  simp only [List.cons.injEq, true_and] at h1
  subst h1
  have hs := small_data hcap hd hx d.expert
  obtain ⟨p, q, k, hdr, hash, pay, ses, rest, hp, b1, b2, b3, b4, b5, b6, b7⟩ := h2.split hs
  have hex := hp.extent hs.to_fits
  have hb : s.dep.header.bodyStart = hdr.length + 32 := by
    have := congrArg List.length b1
    simp only [List.length_append] at this
    unfold Small at hs
    rw [b2]
    exact u16_id (by omega)
  refine ⟨hdr, hash, pay, ses, rest, b1, b3, b6, ?_, ?_, by omega, ⟨k, ?_, hp.small⟩, by omega⟩
  · rw [hp.header.pkLen] at b7
    have := b7.take_drop
    rw [Hash.len] at this
    exact this
  · have h1 := hp.payType
    rw [hb] at h1
    have h2 : At (mkEnv pl d.expert xs).buf (hdr.length + 32) (pay ++ ses) := ⟨hdr ++ hash, rest, b1, by simp [b3]⟩
    cases pay with
    | nil => simp at b4; omega
    | cons x pay =>
      rw [List.cons_append] at h2
      rw [List.head?_cons, ← (List.cons.inj (h1.unique (At.cons.1 h2).1 rfl)).1]
  · have h1 := hp.sesType
    have h2 : At (mkEnv pl d.expert xs).buf p.off ses := ⟨hdr ++ hash ++ pay, rest, by rw [b1]; simp, by simp [b3]; omega⟩
    cases ses with
    | nil => simp at b5; omega
    | cons x ses => rw [List.head?_cons, ← (List.cons.inj (h1.unique (At.cons.1 h2).1 rfl)).1]

/-- **C09, serialized Deploys.** If the data are a serialized header, 32 bytes, and a serialized payment and session (and
anything behind), then acceptance means: the 32 bytes are BLAKE2b of the header, and the header's body hash is BLAKE2b of
payment and session. -/
theorem C09_serialized (pl : Platform) (hcap : pl.cap ≤ 16384) (d d' : Dev) (hd : d.Ok pl) (h : DeployHeader) (ho : h.Ok)
    (hh : Bytes) (hl : hh.length = 32) (pay ses : ExecItem) (hp : pay.Ok) (hs : ses.Ok) (rest : Bytes)
    (hx : d.data = 0 :: (h.encode ++ hh ++ (pay.encode ++ ses.encode) ++ rest)) (ht : txParse pl d = .ok () d') :
    hh = pl.blake h.encode ∧ h.bodyHash = pl.blake (pay.encode ++ ses.encode) := by
  rcases (txParse_ok (by omega) hd).1 ht with ⟨ys, s, h1, h2, -⟩ | ⟨ys, s, h1, -, -⟩
  swap
  · rw [hx] at h1; simp at h1
  rw [hx] at h1
  simp only [List.cons.injEq, true_and] at h1
  subst h1
  have hsm := small_data hcap hd hx d.expert
  obtain ⟨p, q, k, hdr, hash, pay', ses', rest', hpp, b1, b2, b3, b4, b5, b6, b7⟩ := h2.split hsm
  have hbuf : (mkEnv pl d.expert (h.encode ++ hh ++ (pay.encode ++ ses.encode) ++ rest)).buf = h.encode ++ hh ++ (pay.encode ++ ses.encode) ++ rest := rfl
  obtain ⟨c1, c2, c3, c4, c5, c6, c7⟩ := hpp.formed hsm.to_fits ho hl hp hs hbuf
  rw [hbuf] at b1
  obtain ⟨d1, d2⟩ := List.append_inj b1 (by simp only [List.length_append]; omega)
  obtain ⟨d3, d4⟩ := List.append_inj d1 (by simp only [List.length_append]; omega)
  obtain ⟨d5, d6⟩ := List.append_inj d3 (by omega)
  refine ⟨by rw [d5, d6]; exact b6.symm, ?_⟩
  rw [d4]
  have a0 : At (mkEnv pl d.expert (h.encode ++ hh ++ (pay.encode ++ ses.encode) ++ rest)).buf 0 h.encode :=
    ⟨[], hh ++ (pay.encode ++ ses.encode) ++ rest, by rw [hbuf]; simp, rfl⟩
  rw [c1] at b7
  exact (header_layout ho a0).bodyHash.unique b7 (by rw [ho.bodyHash]; exact (Hash.len _ _).symm)

example : (run samplePl (Dev.init samplePl) (sampleUpload (0 :: sampleDeploy.tx Blake.H [sampleApproval]))).2 =
    [.reply [] 0x9000, .reply [] 0x9000, .reply [] 0x9000, .pending] := by decide +kernel

/-- The same data with one bit of the body (in the target account) changed are refused. -/
example : (run samplePl (Dev.init samplePl)
    (sampleUpload ((0 :: sampleDeploy.tx Blake.H [sampleApproval]).set 250 0x10))).2 =
    [.reply [] 0x9000, .reply [] 0x9000, .reply [] 0x9000, .reply b!"context prefix is invalid" 0x6984] := by
  decide +kernel

/-! ### C10 -/

theorem txParse_invalid {pl : Platform} (hcap : pl.cap < 65536) {d : Dev} (hd : d.Ok pl) {xs : Bytes} (hx : d.data = 0 :: xs) {s : DS}
    (h1 : readDeploy (mkEnv pl d.expert xs) ⟨0, 0, {}⟩ = .ok () s) {x t : Nat} (h2 : validateDeploy (mkEnv pl d.expert xs) s.dep 0 = .err x t) :
    ∃ d', txParse pl d = .err x d' := by
  have hne : xs ≠ [] := by
    rintro rfl
    obtain ⟨p, q, k, hp⟩ := readDeploy_post _ _ h1
    have := hp.payType.le
    simp [mkEnv] at this
  have hp : parserParse pl d = .ok () (d.tookDeploy s) := by
    rw [parserParse_cons hcap hd hx, if_neg hne, if_pos rfl]
    unfold runDeploy
    rw [env_forDeploy hd hx, show (readDeploy (mkEnv pl d.expert xs) ⟨0, d.forDeploy.epo, d.forDeploy.dep⟩) = _ from h1]
    rfl
  unfold txParse
  rw [bind_run, hp, Res.bind_ok]
  unfold parserValidate
  simp only [bind_run, get_run, Res.bind_ok, runP, env_tookDeploy (s := s) hd hx (readDeploy_kind h1),
    show (d.tookDeploy s).ctx.content = 0 from rfl, show (d.tookDeploy s).ctx.obj = .deploy from rfl, if_true,
    show (d.tookDeploy s).dep = s.dep from rfl, h2, Res.bind_err]
  exact ⟨_, rfl⟩

/-- **C10.** The last chunk of a session, completing the data of a Deploy: a serialized header, a 32-byte hash, a serialized
payment and session, anything behind.  If the hash is not BLAKE2b of the header, or the header's body hash is not BLAKE2b of
payment and session, then no review opens; and whenever the Deploy parses, the reply is "context prefix is invalid". -/
theorem C10_wrong_hash_refused (pl : Platform) (hcap : pl.cap ≤ 16384) (d : Dev) (hd : d.Ok pl) (rx : Bytes) (hc : Chunk 2 2 rx)
    (ht : d.txInit = true) (hfit : d.pos + (rx.drop 5).length ≤ pl.cap) (h : DeployHeader) (ho : h.Ok) (hh : Bytes)
    (hl : hh.length = 32) (pay ses : ExecItem) (hp : pay.Ok) (hs : ses.Ok) (rest xs : Bytes)
    (hxs : xs = h.encode ++ hh ++ (pay.encode ++ ses.encode) ++ rest) (hx : d.data ++ rx.drop 5 = 0 :: xs)
    (hw : hh ≠ pl.blake h.encode ∨ h.bodyHash ≠ pl.blake (pay.encode ++ ses.encode)) :
    (step pl d (.apdu rx true)).2 ≠ .pending ∧
    ((∃ s, readDeploy (mkEnv pl d.expert xs) ⟨0, 0, {}⟩ = .ok () s) →
      (step pl d (.apdu rx true)).2 = .reply b!"context prefix is invalid" 0x6984 ∧
      (step pl d (.apdu rx true)).1.review = d.review) := by
  have hok : (d.loaded rx).Ok pl := Dev.Ok.store (show (d.recv rx).Ok pl from hd) hfit
  have hdata : (d.loaded rx).data = 0 :: xs := (Dev.store_data (d := d.recv rx) hd _).trans hx
  constructor
  · intro hpend
    obtain ⟨-, -, hcase⟩ := sign_pending (d' := (step pl d (.apdu rx true)).1) (by omega) hd hc.ins (by rw [← hpend])
    rcases hcase with ⟨ys, s, h1, h2, h3⟩ | ⟨ys, s, h1, -, -⟩
    · rw [hx] at h1
      simp only [List.cons.injEq, true_and] at h1
      subst h1
      obtain ⟨e1, e2⟩ := C09_serialized pl hcap (d.loaded rx) _ hok h ho hh hl pay ses hp hs rest (by rw [hdata, hxs])
        ((txParse_ok (by omega) hok).2 (.inl ⟨xs, s, hdata, h2, rfl⟩))
      rcases hw with hw | hw
      · exact hw e1
      · exact hw e2
    · rw [hx] at h1; simp at h1
  · rintro ⟨s, hr⟩
    obtain ⟨p, q, k, hpp⟩ := readDeploy_post _ _ hr
    have hsm := small_data hcap hok hdata d.expert
    have hbuf : (mkEnv pl d.expert xs).buf = h.encode ++ hh ++ (pay.encode ++ ses.encode) ++ rest := hxs
    obtain ⟨c1, c2, c3, c4, c5, c6, c7⟩ := hpp.formed hsm.to_fits ho hl hp hs hbuf
    obtain ⟨hdr, hash, pay', ses', rest', bh, b1, b2, b3, b4, b5, b6, b7, b8⟩ := hpp.hashes hsm.to_fits c7
    have b0 := b1
    rw [hbuf] at b1
    obtain ⟨d1, d2⟩ := List.append_inj b1 (by simp only [List.length_append]; omega)
    obtain ⟨d3, d4⟩ := List.append_inj d1 (by simp only [List.length_append]; omega)
    obtain ⟨d5, d6⟩ := List.append_inj d3 (by omega)
    have a0 : At (mkEnv pl d.expert xs).buf 0 h.encode := ⟨[], hh ++ (pay.encode ++ ses.encode) ++ rest, by rw [hbuf]; simp, rfl⟩
    rw [c1] at b7
    have hbh : h.bodyHash = bh := (header_layout ho a0).bodyHash.unique b7 (by rw [ho.bodyHash, b6])
    obtain ⟨t', b8⟩ := b8 0
    have herr : ∃ t, validateDeploy (mkEnv pl d.expert xs) s.dep 0 = .err 21 t := by
      rw [b8, ← d4, ← d5, ← d6, ← hbh]
      by_cases e1 : pl.blake h.encode = hh
      · rw [if_pos (show (mkEnv pl d.expert xs).blake h.encode = hh from e1)]
        rcases hw with hw | hw
        · exact absurd e1.symm hw
        · rw [if_neg (show ¬ (mkEnv pl d.expert xs).blake (pay.encode ++ ses.encode) = h.bodyHash from fun e => hw e.symm)]
          exact ⟨_, rfl⟩
      · rw [if_neg (show ¬ (mkEnv pl d.expert xs).blake h.encode = hh from e1)]
        exact ⟨_, rfl⟩
    obtain ⟨t, herr⟩ := herr
    obtain ⟨d', hd'⟩ := txParse_invalid (d := d.loaded rx) (by omega) hok hdata hr herr
    exact sign_refused hd hc ht hfit hd'

/-- Concretely: the sample Deploy with a wrong deploy hash parses; it is answered as claimed. -/
example : Res.succeeded (readDeploy (mkEnv samplePl false ((sampleDeploy.header Blake.H).encode ++ List.replicate 32 0 ++
      (samplePay.encode ++ sampleDeploy.session.encode) ++ le 4 0)) ⟨0, 0, {}⟩) = true ∧
    (run samplePl (Dev.init samplePl) (sampleUpload (0 :: ((sampleDeploy.header Blake.H).encode ++ List.replicate 32 0 ++
      (samplePay.encode ++ sampleDeploy.session.encode) ++ le 4 0)))).2 =
    [.reply [] 0x9000, .reply [] 0x9000, .reply [] 0x9000, .reply b!"context prefix is invalid" 0x6984] := by
  decide +kernel

/-! ### C22 -/

/-- **C22.** A transaction review of data `0 :: xs`: `xs` are a header, 32 bytes `hash` that are BLAKE2b of the header, and
more; item 0 of the review shows exactly these 32 bytes as "Txn hash"; approving answers with the signature of SHA-256 of
exactly these 32 bytes under the key of the session's path (or reports that signing failed). -/
theorem C22_signed_is_shown (pl : Platform) (hcap : pl.cap ≤ 16384) (d d' : Dev) (hd : d.Ok pl) (rx : Bytes)
    (pin : Bool) (hins : rx.getD 1 0 = 2) (xs : Bytes) (hx : d.data ++ rx.drop 5 = 0 :: xs)
    (h : step pl d (.apdu rx pin) = (d', .pending)) :
    ∃ hdr hash pay ses rest, xs = hdr ++ hash ++ (pay ++ ses) ++ rest ∧ hash.length = 32 ∧ pl.blake hdr = hash ∧
      (xs.drop (keyLen xs + 24)).take 32 = pl.blake (pay ++ ses) ∧
      (step pl d' .approve).2 = signatureReply pl d.hdPath (pl.sha256 hash) ∧
      (∃ n c, reviewCount pl d' .tx 0 = .ok n c ∧ 5 ≤ n) ∧
      ∃ c, reviewItem pl d' .tx 0 0 = .ok (b!"Txn hash", casedHex (pl.blake hash) hash) c := by
  obtain ⟨hok, hdata, hcase⟩ := sign_pending (by omega) hd hins h
  rw [hx] at hcase hdata
  rcases hcase with ⟨ys, s, h1, h2, rfl⟩ | ⟨ys, s, h1, -, -⟩
  swap
  · simp at h1
  simp only [List.cons.injEq, true_and] at h1
  subst h1
  have hsm : Small (mkEnv pl d.expert xs) := small_data hcap hok hdata d.expert
  obtain ⟨p, q, k, hdr, hash, pay, ses, rest, hp, b1, b2, b3, b4, b5, b6, b7⟩ := h2.split hsm
  have hk := readDeploy_kind h2.parse
  have hn := hp.count hsm.to_fits
  have hle := congrArg List.length b1
  simp only [List.length_append] at hle
  have hb : xs = hdr ++ hash ++ ((pay ++ ses) ++ rest) := by rw [← List.append_assoc]; exact b1
  refine ⟨hdr, hash, pay, ses, rest, b1, b3, b6, ?_, ?_, ?_, ?_⟩
  · rw [hp.header.pkLen] at b7
    have := b7.take_drop
    rw [Hash.len] at this
    exact this
  · exact approve_deploy hok (a := hdr) (h := hash) (c := (pay ++ ses) ++ rest) (by rw [hdata, ← hb]) b3 hk b2.symm
  · exact ⟨_, _, reviewCount_deploy (d := d.loaded rx) hok hdata s hk 0, hn.1⟩
  · rw [reviewItem_deploy hok hdata s hk]
    have hn' : ¬ (u8 0 ≥ 128 ∨ u8 0 > numItemsDeploy (mkEnv pl d.expert xs) s.dep) := by
      have h8 : u8 0 = 0 := rfl
      omega
    rw [show (d.loaded rx).expert = d.expert from rfl, if_neg hn']
    unfold getItemDeploy
    rw [show u8 0 = 0 from rfl, if_neg (by omega), if_pos rfl]
    have h3 : seek (headerLength s.dep.header) 0 = .ok () (headerLength s.dep.header) := by
      show Res.ok () (u16 (headerLength s.dep.header)) = _
      unfold Small at hsm
      rw [u16_id (by omega)]
    simp only [bind_run, h3, Res.bind_ok]
    rw [printBytes_hash (e := mkEnv pl d.expert xs) (xs := hash) ⟨hdr, (pay ++ ses) ++ rest, hb, b2⟩ b3]
    exact ⟨_, rfl⟩

/-- Concretely, with a signature function that returns its arguments. -/
example : (run samplePl (Dev.init samplePl)
    (sampleUpload (0 :: sampleDeploy.tx Blake.H [sampleApproval]) ++ [.approve])).2.getLast? =
    some (signatureReply samplePl (run samplePl (Dev.init samplePl)
      (sampleUpload (0 :: sampleDeploy.tx Blake.H [sampleApproval]))).1.hdPath
      (samplePl.sha256 (Blake.H (sampleDeploy.header Blake.H).encode))) := by decide +kernel

/-! ### C56 -/

theorem chunks_of {n k : Nat} {l : Bytes} (h : l.length = n * k) : ∃ ls : List Bytes, ls.length = n ∧ (∀ x ∈ ls, x.length = k) ∧ ls.flatten = l := by
  induction n generalizing l with
  | zero => exact ⟨[], rfl, by simp, by simp at h; simp [h]⟩
  | succ n ih =>
    obtain ⟨a, b, rfl, hl⟩ := split_at (l := l) (n := k) (by rw [h, Nat.add_mul]; omega)
    obtain ⟨ls, h1, h2, h3⟩ := ih (l := b) (by rw [List.length_append, Nat.add_mul] at h; omega)
    exact ⟨a :: ls, by simp [h1], by simpa [hl] using h2, by simp [h3]⟩

/-- What is read as a header is one, unless the count of dependencies is too large. -/
theorem HeaderFacts.serialized {e : Env} {v : Header} (h : HeaderFacts e v) (hs : Small e) (hd : v.deps < 2046) (hc : v.chainLen ≤ 100)
    (hl : headerLength v ≤ e.buf.length) : ∃ hd : DeployHeader, hd.Ok ∧ hd.view = v ∧ e.buf.take (headerLength v) = hd.encode := by
  unfold Small at hs
  have hpk : Casper.pkLen v = 33 ∨ Casper.pkLen v = 34 := by unfold Casper.pkLen; split <;> simp
  have hix : partIndex v .chainname = Casper.pkLen v + 56 + (4 + v.deps * 32) := by
    simp only [partIndex]; rw [u16_id (x := 4 + v.deps * 32) (by omega), u16_id (by omega)]
  have h1 := h.chain.le
  rw [hix, le_length] at h1
  have hlen : headerLength v = Casper.pkLen v + 56 + (4 + v.deps * 32) + (4 + v.chainLen) := by
    unfold headerLength; rw [u16_id (x := 4 + v.deps * 32) (by omega), u16_id (x := 4 + v.chainLen) (by omega), u16_id (by omega)]
  obtain ⟨l, r, e0, n0⟩ := split_at hl
  have e0' := e0
  obtain ⟨l1, chain, rfl, n1⟩ := split_at (l := l) (n := Casper.pkLen v + 56 + (4 + v.deps * 32) + 4) (by omega)
  obtain ⟨l2, m, rfl, n2⟩ := split_at (l := l1) (n := Casper.pkLen v + 56 + (4 + v.deps * 32)) (by omega)
  obtain ⟨l3, ds, rfl, n3⟩ := split_at (l := l2) (n := Casper.pkLen v + 56 + 4) (by omega)
  obtain ⟨l4, n, rfl, n4⟩ := split_at (l := l3) (n := Casper.pkLen v + 56) (by omega)
  obtain ⟨l5, bh, rfl, n5⟩ := split_at (l := l4) (n := Casper.pkLen v + 24) (by omega)
  obtain ⟨l6, gas, rfl, n6⟩ := split_at (l := l5) (n := Casper.pkLen v + 16) (by omega)
  obtain ⟨l7, ttl, rfl, n7⟩ := split_at (l := l6) (n := Casper.pkLen v + 8) (by omega)
  obtain ⟨key, ts, rfl, n8⟩ := split_at (l := l7) (n := Casper.pkLen v) (by omega)
  simp only [List.length_append] at n0 n1 n2 n3 n4 n5 n6 n7
  have hkey := h.key
  have hn : le 4 v.deps = n := h.deps.unique ⟨key ++ ts ++ ttl ++ gas ++ bh, ds ++ m ++ chain ++ r, by rw [e0]; simp, by simp; omega⟩ (by rw [le_length]; omega)
  have hm : le 4 v.chainLen = m := h.chain.unique ⟨key ++ ts ++ ttl ++ gas ++ bh ++ n ++ ds, chain ++ r, by rw [e0]; simp, by rw [hix]; simp; omega⟩ (by rw [le_length]; omega)
  obtain ⟨deps, g1, g2, g3⟩ := chunks_of (l := ds) (n := v.deps) (k := 32) (by omega)
  obtain ⟨acc, a1, a2, a3⟩ : ∃ acc : PubKey, acc.Ok ∧ acc.encode = key ∧ acc.kind = v.pubkeyType := by
    cases key with
    | nil => simp at n8; omega
    | cons b ks =>
      have hb : At e.buf 0 (b :: ks) := ⟨[], ts ++ ttl ++ gas ++ bh ++ n ++ ds ++ m ++ chain ++ r, by rw [e0]; simp, rfl⟩
      have := (List.cons.inj (hkey.unique (At.cons.1 hb).1 rfl)).1
      unfold Casper.pkLen at n8
      rw [List.length_cons] at n8
      rcases h.kind with hk | hk
      · refine ⟨.ed25519 ks, ?_, ?_, hk.symm⟩
        · rw [hk] at n8; show ks.length = 32; simp at n8; omega
        · rw [← this, hk]; rfl
      · refine ⟨.secp256k1 ks, ?_, ?_, hk.symm⟩
        · rw [hk] at n8; show ks.length = 33; simp at n8; omega
        · rw [← this, hk]; rfl
  have l8 : ∀ x : Bytes, x.length = 8 → leVal x < 2 ^ 64 ∧ le 8 (leVal x) = x := fun x hx => by
    have h1 := leVal_lt x
    have h2 := le_leVal x
    rw [hx] at h1 h2
    exact ⟨h1, h2⟩
  refine ⟨⟨acc, leVal ts, leVal ttl, leVal gas, bh, deps, chain⟩,
    ⟨a1, (l8 _ (by omega)).1, (l8 _ (by omega)).1, (l8 _ (by omega)).1, by dsimp only; omega, g2⟩, ?_, ?_⟩
  · show Header.mk acc.kind deps.length chain.length = v
    rw [a3, g1, show chain.length = v.chainLen by omega]
  · rw [e0, List.take_left' (by simp only [List.length_append]; omega)]
    unfold DeployHeader.encode
    dsimp only
    rw [a2, g1, g3, (l8 ts (by omega)).2, (l8 ttl (by omega)).2, (l8 gas (by omega)).2, hn, pfx, show chain.length = v.chainLen by omega, hm]
    simp

/-- **C56.** The header of accepted Deploy data is a complete serialized header, whose body hash is BLAKE2b of the payment
and session bytes behind it, provided the count of dependencies (the 32-bit number behind the body hash) is less than 2046.
(Without the proviso see `C56_header_false`.) -/
theorem C56_header_partial (pl : Platform) (hcap : pl.cap ≤ 16384) (d d' : Dev) (hd : d.Ok pl) (xs : Bytes)
    (hx : d.data = 0 :: xs) (h : txParse pl d = .ok () d') (hn : leVal ((xs.drop (keyLen xs + 56)).take 4) < 2046) :
    ∃ hdr : DeployHeader, ∃ pay ses rest, hdr.Ok ∧ xs = hdr.encode ++ pl.blake hdr.encode ++ (pay ++ ses) ++ rest ∧
      hdr.bodyHash = pl.blake (pay ++ ses) ∧ hdr.chain.length ≤ 100 := by
  rcases (txParse_ok (by omega) hd).1 h with ⟨ys, s, h1, h2, -⟩ | ⟨ys, s, h1, -, -⟩
  swap
  · rw [hx] at h1; simp at h1
  rw [hx] at h1
  simp only [List.cons.injEq, true_and] at h1
  subst h1
  have hs := small_data hcap hd hx d.expert
  obtain ⟨_, _, _, _, -, hcl⟩ := h2.small hs.to_fits
  obtain ⟨p, q, k, hdr, hash, pay, ses, rest, hp, b1, b2, b3, b4, b5, b6, b7⟩ := h2.split hs
  have hle := congrArg List.length b1
  simp only [List.length_append] at hle
  have hdeps : s.dep.header.deps < 2046 := by
    have h1 := hp.header.deps.take_drop
    rw [hp.header.pkLen, le_length] at h1
    rw [show (mkEnv pl d.expert xs).buf = xs from rfl] at h1
    rw [h1, leVal_le 4 _ hp.header.depsLt] at hn
    exact hn
  obtain ⟨g, g1, g2, g3⟩ := hp.header.serialized hs hdeps hcl (by omega)
  have hg : hdr = g.encode := by
    rw [← g3, ← b2, b1, List.append_assoc, List.append_assoc, List.take_left]
  refine ⟨g, pay, ses, rest, g1, ?_, ?_, ?_⟩
  · rw [← hg, show pl.blake hdr = hash from b6]; exact b1
  · have a0 : At (mkEnv pl d.expert xs).buf 0 g.encode := ⟨[], hash ++ (pay ++ ses) ++ rest, by rw [b1, hg]; simp, rfl⟩
    rw [← g2] at b7
    exact (header_layout g1 a0).bodyHash.unique b7 (by rw [g1.bodyHash]; exact (Hash.len _ _).symm)
  · have := congrArg Header.chainLen g2
    rw [← this] at hcl
    exact hcl

/-- A "header" that counts 2048 dependencies but contains none. -/
def hollowHeader (bh : Bytes) : Bytes :=
  sampleAccount.encode ++ le 8 1620138035000 ++ le 8 3600000 ++ le 8 1 ++ bh ++ le 4 2048 ++ pfx b!"casper-test"
/-- A Deploy with that header, and correct hashes. -/
def hollowDeploy : Bytes :=
  hollowHeader (Blake.H sampleDeploy.body) ++ Blake.H (hollowHeader (Blake.H sampleDeploy.body)) ++ sampleDeploy.body ++ le 4 0

/-- **C56 fails** without the proviso: data counting 2048 dependencies but containing none are accepted (the length of the
dependencies is a 16-bit number), though they do not start with a serialized header. -/
theorem C56_header_false :
    (run samplePl (Dev.init samplePl) (sampleUpload (0 :: hollowDeploy))).2 =
      [.reply [] 0x9000, .reply [] 0x9000, .reply [] 0x9000, .pending] ∧
    ¬ ∃ (h : DeployHeader) (rest : Bytes), h.Ok ∧ hollowDeploy = h.encode ++ rest := by
  refine ⟨by decide +kernel, ?_⟩
  rintro ⟨h, rest, ho, hb⟩
  have a0 : At hollowDeploy 0 h.encode := ⟨[], rest, hb, rfl⟩
  have hly := header_layout ho a0
  have hlen : hollowDeploy.length = 272 := by decide +kernel
  have hle := a0.le
  have h1 := ho.length
  obtain ⟨b, xs, hb1, hb2⟩ := PubKey.head hly.account
  have hb3 : hollowDeploy[0]? = some 2 := by decide +kernel
  have hb4 := hb1.get
  rw [hb3] at hb4
  have hk : h.account.kind = 2 := by rw [← hb2, ← Option.some.inj hb4]; rfl
  have h2 := (At.append.1 hly.deps).1
  have h3 : partIndex h.view .deps = 90 := by
    show pkLen h.view + 56 = 90
    unfold pkLen
    rw [show h.view.pubkeyType = h.account.kind from rfl, hk]; rfl
  rw [h3] at h2
  have h4 : At hollowDeploy 90 (le 4 2048) := at_iff.2 ⟨by decide +kernel, by decide +kernel⟩
  have := h2.le_inj h4 (by omega) (by decide)
  omega

/-! ### C39 -/

/-- **C39, any bytes.** If parsing as a Deploy leaves its buffers, then header and payment were read without problem, and
the session, which starts at some `o`, has type byte 0 (module bytes).  If parsing succeeds, validation stays inside the data
unless the header and hash are said to extend beyond them. -/
theorem C39_deploy_memory_partial (e : Env) (hs : Small e) :
    (∀ f, readDeploy e ⟨0, 0, {}⟩ = .fault f → ∃ v o, HeaderFacts e v ∧ At e.buf v.bodyStart [0] ∧ v.bodyStart < o ∧ At e.buf o [0]) ∧
    (∀ s, readDeploy e ⟨0, 0, {}⟩ = .ok () s → ∀ t f, validateDeploy e s.dep t = .fault f →
      HeaderFacts e s.dep.header ∧ e.buf.length < headerLength s.dep.header + 32) := by
  constructor
  · intro f hf
    obtain ⟨h, p, h1, h2, h3, h4, -⟩ := readDeploy_fault f hf
    have := (parseDeployItem_extent hs.to_fits (by have := h2.le; simpa using this) : Post _ _ _) _ _ h3
    exact ⟨h, p.off, h1, h2, by have := this.1; dsimp only at this; omega, h4⟩
  · intro s hr t f hv
    obtain ⟨p, q, k, hp⟩ := readDeploy_post _ _ hr
    refine ⟨hp.header, ?_⟩
    rcases Nat.lt_or_ge e.buf.length (headerLength s.dep.header + 32) with h | h
    · exact h
    · exact absurd hv (hp.validate_fault hs.to_fits h t f)

/-- **C39, serialized Deploys.** Parsing and validating a serialized header, 32 bytes, a serialized payment and a serialized
session other than module bytes (and anything behind) stays inside the data and the local buffers. -/
theorem C39_serialized_partial (e : Env) (hs : Small e) (h : DeployHeader) (ho : h.Ok) (hh : Bytes) (hl : hh.length = 32)
    (pay ses : ExecItem) (hp : pay.Ok) (hses : ses.Ok) (hne : ∀ code args, ses ≠ .moduleBytes code args) (rest : Bytes)
    (hb : e.buf = h.encode ++ hh ++ (pay.encode ++ ses.encode) ++ rest) :
    (∀ f, readDeploy e ⟨0, 0, {}⟩ ≠ .fault f) ∧
    (∀ s, readDeploy e ⟨0, 0, {}⟩ = .ok () s → ∀ t f, validateDeploy e s.dep t ≠ .fault f) := by
  have a0 : At e.buf 0 h.encode := ⟨[], hh ++ (pay.encode ++ ses.encode) ++ rest, by rw [hb]; simp, rfl⟩
  have a1 : At e.buf (h.encode.length + 32) pay.encode := ⟨h.encode ++ hh, ses.encode ++ rest, by rw [hb]; simp, by simp [hl]⟩
  have a2 : At e.buf (h.encode.length + 32 + pay.encode.length) ses.encode :=
    ⟨h.encode ++ hh ++ pay.encode, rest, by rw [hb]; simp, by simp [hl]; omega⟩
  obtain ⟨w1, w2, w3⟩ := header_small ho hs.to_fits a0
  have hs' := hs
  unfold Small at hs'
  have le1 := a1.le
  constructor
  · intro f hf
    obtain ⟨v, p, h1, h2, h3, h4, -⟩ := readDeploy_fault f hf
    have hv := h1.view_eq hs.to_fits ho a0
    have hbs : v.bodyStart = h.encode.length + 32 := by
      unfold Header.bodyStart
      rw [hv, w3, u16_id (by omega)]
    rw [hbs] at h2 h3
    have hpt : pay.tag = 0 := by
      rw [ExecItem.encode_eq] at a1
      have h3 := h2.unique (At.cons.1 a1).1 rfl
      have h4 := congrArg UInt8.toNat (List.cons.inj h3).1
      rw [UInt8.toNat_ofNat', Nat.mod_eq_of_lt (by cases pay <;> simp [ExecItem.tag])] at h4
      exact h4.symm
    have hpo := parseDeployItem_end (epo := 0) hs.to_fits hp a1 true () p (by rw [hpt]; exact h3)
    rw [hpo] at h4
    rw [ExecItem.encode_eq ses] at a2
    have h5 := congrArg UInt8.toNat (List.cons.inj (h4.unique (At.cons.1 a2).1 rfl)).1
    cases ses with
    | moduleBytes code args => exact hne code args rfl
    | _ => simp [ExecItem.tag] at h5
  · intro s hr t f
    obtain ⟨p, q, k, hpp⟩ := readDeploy_post _ _ hr
    obtain ⟨c1, c2, c3, c4, c5, c6, c7⟩ := hpp.formed hs.to_fits ho hl hp hses hb
    exact hpp.validate_fault hs.to_fits (by rw [c2]; omega) t f

/-- A Deploy that runs a contract given as module bytes, without any argument. -/
def sampleModule : DeploySpec := { sampleDeploy with session := .moduleBytes b!"code" [] }

/-- **C39 fails**: a correctly serialized Deploy that runs a contract without an "auction" argument and carries more than 100
approvals overflows a local buffer while it is parsed (the approvals count is taken for the length of a text, and that many
bytes are copied into a buffer of 100). -/
theorem C39_approvals_false :
    readDeploy (mkEnv samplePl false (sampleModule.tx Blake.H (List.replicate 101 sampleApproval))) ⟨0, 0, {}⟩ =
      .fault .oobWrite := by decide +kernel

/-- The same on the device, with a count of 101 approvals followed by nothing. -/
theorem C39_crash_false :
    (run samplePl (Dev.init samplePl) (sampleUpload (0 :: ((sampleModule.header Blake.H).encode ++
      Blake.H (sampleModule.header Blake.H).encode ++ sampleModule.body ++ le 4 101)))).2 =
      [.reply [] 0x9000, .reply [] 0x9000, .reply [] 0x9000, .crash .oobWrite] := by decide +kernel

/-- Data whose header is said to have 65505 bytes, so that (modulo 65536) payment and session start at byte 1, inside the
key. -/
def wrapDeploy : Bytes :=
  [1] ++ (ExecItem.moduleBytes [] [⟨b!"amount", [1, 5], .u512⟩]).encode ++ (ExecItem.byName [] [] []).encode ++
    List.replicate 49 0 ++ le 4 0 ++ le 4 65408

/-- **C39 fails**: validating these data reads beyond the upload. -/
theorem C39_validate_false :
    (run samplePl (Dev.init samplePl) (sampleUpload (0 :: wrapDeploy))).2 =
      [.reply [] 0x9000, .reply [] 0x9000, .reply [] 0x9000, .crash .oobRead] := by decide +kernel

end Casper
