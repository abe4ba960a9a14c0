import Verif.Props.Keys
import Verif.Props.Limits
import Verif.Props.Contracts
/-
C62: the header lines of a review show the header that is signed, the account as the device reports it.
-/
namespace Casper
open M

theorem DeployParse.countExpert {e : Env} (hf : Fits e) {s : DS} {p q : IS} {k : Nat} (h : DeployParse e s p q k) (hx : e.expert = true) :
    9 ≤ numItemsDeploy e s.dep := by
  have h1 := (h.payment hf).2.1
  have h2 := parseDeployItem_few _ _ h.ses
  have h3 := h2.1
  have h4 := h2.2
  unfold numItemsDeploy u8
  rw [h.result, if_pos hx]
  dsimp only
  rw [h1]
  dsimp only
  omega

/-- The header found is the serialized one. -/
theorem HeaderFacts.view {e : Env} (hf : Fits e) {hdr : Header} (h : HeaderFacts e hdr) {hh : DeployHeader} (ho : hh.Ok)
    (ha : At e.buf 0 hh.encode) : hdr = hh.view := by
  have ly := header_layout ho ha
  obtain ⟨-, w2, -⟩ := header_small ho hf ha
  obtain ⟨b, xs, b1, b2⟩ := PubKey.head ly.account
  have hlen := ha.le
  have hol := ho.length
  unfold Fits at hf
  have hk : hdr.pubkeyType = hh.account.kind := by
    have h1 := h.key.unique (At.cons.1 b1).1 rfl
    rw [List.cons.injEq] at h1
    rw [← b2, ← h1.1]
    rcases h.kind with h2 | h2 <;> rw [h2] <;> rfl
  have hp : Casper.pkLen hdr = Casper.pkLen hh.view := by unfold Casper.pkLen; rw [hk]; rfl
  have hd : hdr.deps = hh.deps.length := by
    have h1 := h.deps
    rw [hp] at h1
    exact h1.le_inj (At.append.1 ly.deps).1 h.depsLt (by omega)
  have hc : hdr.chainLen = hh.chain.length := by
    have h1 := h.chain
    have h2 : partIndex hdr .chainname = partIndex hh.view .chainname := by simp only [partIndex, hp, hd]; rfl
    rw [h2, w2] at h1
    have h3 := ly.chain
    rw [pfx, At.append] at h3
    exact h1.le_inj h3.1 h.chainLt (by omega)
  cases hdr
  simp only at hk hd hc
  rw [hk, hd, hc]; rfl

/-- The header lines of an accepted Deploy. -/
theorem DeployAccepted.headerLines {e : Env} (hs : Small e) {s : DS} (h : DeployAccepted e s) {hh : DeployHeader} (ho : hh.Ok)
    (ha : At e.buf 0 hh.encode) :
    (∀ t, ∃ c, getItemDeploy e s.epo s.dep 2 t = .ok (b!"Chain ID", hh.chain.takeWhile (· != 0)) c) ∧
    (∀ t, ∃ c, getItemDeploy e s.epo s.dep 3 t = .ok (b!"Account", hh.account.address e.blake) c) ∧
    (e.expert = true → ∃ time ttl, e.fmtTime (hh.timestamp / 1000) = some time ∧ duration ttl = hh.ttl / 1000 ∧ ∀ t,
      (∃ c, getItemDeploy e s.epo s.dep 4 t = .ok (b!"Timestamp", time) c) ∧
      (∃ c, getItemDeploy e s.epo s.dep 5 t = .ok (b!"Ttl", ttl) c) ∧
      (∃ c, getItemDeploy e s.epo s.dep 6 t = .ok (b!"Gas price", decText hh.gasPrice) c) ∧
      (∃ c, getItemDeploy e s.epo s.dep 7 t = .ok (b!"Deps #", decText hh.deps.length) c)) := by
  have hf := hs.to_fits
  obtain ⟨p, q, k, hp⟩ := readDeploy_post _ _ h.parse
  have hv := hp.header.view hf ho ha
  have hcount := (hp.count hf).1
  have ly := header_layout ho ha
  obtain ⟨-, w2, -⟩ := header_small ho hf ha
  refine ⟨fun t => ?_, fun t => ?_, fun hx => ?_⟩
  · have hcl : hh.chain.length ≤ 100 := by
      obtain ⟨_, _, _, -, -, hcl⟩ := h.small hf
      rw [hv] at hcl
      exact hcl
    have ly3 := ly.chain
    rw [pfx, At.append, le_length] at ly3
    have key : ∀ t, getItemDeploy e s.epo s.dep 2 t = Res.bind (showArray 100 hh.chain (pkLen hh.view + 56 + (4 + hh.deps.length * 32)))
        (fun v => (pure (b!"Chain ID", v) : P (Bytes × Bytes))) := by
      intro t
      unfold getItemDeploy
      rw [if_neg (by omega), if_neg (by decide), if_neg (by decide), if_pos rfl, hv]
      refine seqThen (indexPart_at ly.chain w2 _) (seqThen (get_run _) ?_)
      unfold displayString
      rw [show hh.view.chainLen = hh.chain.length from rfl, if_neg (by omega), bind_run, bind_run, slice_at ly3.2 rfl]
      rfl
    obtain ⟨kv, c, hkv⟩ := h.items 2 (by omega)
    rw [key] at hkv ⊢
    unfold showArray at hkv ⊢
    split at hkv
    · rename_i hc
      rw [if_pos hc]
      exact ⟨_, rfl⟩
    · cases hkv
  · unfold getItemDeploy
    rw [if_neg (by omega), if_neg (by decide), if_neg (by decide), if_neg (by decide), if_pos rfl, hv]
    refine exThen (indexPart_at ly.account rfl _) (exThen (a := hh.account.address e.blake) (t := 0) ?_ ⟨_, rfl⟩)
    have hk : pkLen hh.view = hh.account.encode.length := by rw [ho.account.length]; rfl
    rw [hk]
    have ly' : At e.buf 0 hh.account.encode := ly.account
    cases ha : hh.account with
    | ed25519 x => rw [ha] at ly'; rw [PubKey.encode, List.length_cons, Nat.add_comm]; exact printAddress_at ly' (.inl rfl)
    | secp256k1 x => rw [ha] at ly'; rw [PubKey.encode, List.length_cons, Nat.add_comm]; exact printAddress_at ly' (.inr rfl)
  · have hn := hp.countExpert hf hx
    have h4 : ∀ t, getItemDeploy e s.epo s.dep 4 t = (match e.fmtTime (hh.timestamp / 1000) with
        | none => (fail eUnexpectedError : P (Bytes × Bytes))
        | some t => pure (b!"Timestamp", t)) (partIndex hh.view .timestamp + 8) := by
      intro t
      unfold getItemDeploy
      rw [if_neg (by omega), if_neg (by decide), if_neg (by decide), if_neg (by decide), if_neg (by decide), if_pos ⟨hx, by decide⟩]
      unfold headerLine
      rw [if_pos rfl, hv]
      exact seqThen (indexPart_at ly.timestamp rfl _) (seqThen (readLE_at ly.timestamp ho.timestamp) rfl)
    have h5 : ∀ t, getItemDeploy e s.epo s.dep 5 t = Res.bind (ttlText (hh.ttl / 1000) 100 (partIndex hh.view .ttl + 8))
        (fun t => (pure (b!"Ttl", t) : P (Bytes × Bytes))) := by
      intro t
      unfold getItemDeploy
      rw [if_neg (by omega), if_neg (by decide), if_neg (by decide), if_neg (by decide), if_neg (by decide), if_pos ⟨hx, by decide⟩]
      unfold headerLine
      rw [if_neg (by decide), if_pos rfl, hv]
      exact seqThen (indexPart_at ly.ttl rfl _) (seqThen (readLE_at ly.ttl ho.ttl) rfl)
    have h6 : ∀ t, ∃ c, getItemDeploy e s.epo s.dep 6 t = .ok (b!"Gas price", decText hh.gasPrice) c := by
      intro t
      unfold getItemDeploy
      rw [if_neg (by omega), if_neg (by decide), if_neg (by decide), if_neg (by decide), if_neg (by decide), if_pos ⟨hx, by decide⟩]
      unfold headerLine
      rw [if_neg (by decide), if_neg (by decide), if_pos rfl, hv]
      refine exThen (indexPart_at ly.gasPrice rfl _) (exThen (readLE_at ly.gasPrice ho.gasPrice) ?_)
      rw [decimal_eq]; exact ⟨_, rfl⟩
    have hdl : hh.deps.length < 256 ^ 4 := by
      have h1 := ho.length
      have h2 := ha.le
      unfold Small at hs
      omega
    have h7 : ∀ t, ∃ c, getItemDeploy e s.epo s.dep 7 t = .ok (b!"Deps #", decText hh.deps.length) c := by
      intro t
      unfold getItemDeploy
      rw [if_neg (by omega), if_neg (by decide), if_neg (by decide), if_neg (by decide), if_neg (by decide), if_pos ⟨hx, by decide⟩]
      unfold headerLine
      rw [if_neg (by decide), if_neg (by decide), if_neg (by decide), hv]
      refine exThen (indexPart_at ly.deps rfl _) (exThen (readLE_at (At.append.1 ly.deps).1 hdl) ?_)
      rw [decimal_eq]; exact ⟨_, rfl⟩
    obtain ⟨kv, c, hkv⟩ := h.items 4 (by omega)
    obtain ⟨kw, c', hkw⟩ := h.items 5 (by omega)
    rw [h4] at hkv
    rw [h5] at hkw
    obtain ⟨c1, c2⟩ := C19_ttl (hh.ttl / 1000) 100 (by decide) (partIndex hh.view .ttl + 8)
    have htt : hh.ttl / 1000 < 29 * 86400 := by
      by_contra hge
      rw [c2 (by omega)] at hkw
      cases hkw
    obtain ⟨ttl, g1, g2, -⟩ := c1 htt
    cases htm : e.fmtTime (hh.timestamp / 1000) with
    | none => rw [htm] at hkv; cases hkv
    | some time =>
      refine ⟨time, ttl, rfl, g2, fun t => ⟨?_, ?_, h6 t, h7 t⟩⟩
      · rw [h4, htm]; exact ⟨_, rfl⟩
      · rw [h5, g1]; exact ⟨_, rfl⟩

/-- **C62, Deploys.** In the review of any accepted Deploy that starts with a header (by C56 this is so unless it counts 2046 dependencies or more) the header
lines are those of this header: the chain name up to its first zero byte, the account, and in expert mode the timestamp as the platform writes it, the time to live in
seconds, the gas price and the number of dependencies.  For a Secp256k1 account the text is the one the device reports as the address of that key (C21). -/
theorem C62_deploy_partial (pl : Platform) (hcap : pl.cap ≤ 16384) (d d' : Dev) (hd : d.Ok pl) (rx : Bytes)
    (pin : Bool) (hins : rx.getD 1 0 = 2) (hh : DeployHeader) (ho : hh.Ok) (rest : Bytes) (hx : d.data ++ rx.drop 5 = 0 :: (hh.encode ++ rest))
    (h : step pl d (.apdu rx pin) = (d', .pending)) :
    (∀ t, ∃ c, reviewItem pl d' .tx 2 t = .ok (b!"Chain ID", hh.chain.takeWhile (· != 0)) c) ∧
    (∃ text, (∀ t, ∃ c, reviewItem pl d' .tx 3 t = .ok (b!"Account", text) c) ∧ text = hh.account.address pl.blake ∧
      ∀ key, hh.account = .secp256k1 key → text = addressText pl.blake key) ∧
    (d.expert = true → ∃ time ttl, pl.fmtTime (hh.timestamp / 1000) = some time ∧ duration ttl = hh.ttl / 1000 ∧ ∀ t,
      (∃ c, reviewItem pl d' .tx 4 t = .ok (b!"Timestamp", time) c) ∧
      (∃ c, reviewItem pl d' .tx 5 t = .ok (b!"Ttl", ttl) c) ∧
      (∃ c, reviewItem pl d' .tx 6 t = .ok (b!"Gas price", decText hh.gasPrice) c) ∧
      (∃ c, reviewItem pl d' .tx 7 t = .ok (b!"Deps #", decText hh.deps.length) c)) := by
  obtain ⟨hok, hdata, hcase⟩ := sign_pending (by omega) hd hins h
  rw [hx] at hcase hdata
  rcases hcase with ⟨ys, s, h1, h2, rfl⟩ | ⟨ys, s, h1, -, -⟩
  swap
  · simp at h1
  simp only [List.cons.injEq, true_and] at h1
  subst h1
  have hsm : Small (mkEnv pl d.expert (hh.encode ++ rest)) := small_data hcap hok hdata d.expert
  have hk := readDeploy_kind h2.parse
  obtain ⟨p, q, k, hp⟩ := readDeploy_post _ _ h2.parse
  have hn := (hp.count hsm.to_fits).1
  obtain ⟨l1, l2, l3⟩ := h2.headerLines hsm ho ⟨[], rest, rfl, rfl⟩
  have item : ∀ i t, i < numItemsDeploy (mkEnv pl d.expert (hh.encode ++ rest)) s.dep → i < 128 →
      reviewItem pl { (d.loaded rx).tookDeploy s with review := some .tx } .tx i t = getItemDeploy (mkEnv pl d.expert (hh.encode ++ rest)) s.epo s.dep i t := by
    intro i t h1 h2
    rw [reviewItem_deploy hok hdata s hk, u8_id (by omega), show (d.loaded rx).expert = d.expert from rfl, if_neg (by omega)]
  refine ⟨fun t => ?_, ⟨_, fun t => ?_, rfl, fun key hkey => ?_⟩, fun hx => ?_⟩
  · rw [item 2 t (by omega) (by omega)]; exact l1 t
  · rw [item 3 t (by omega) (by omega)]; exact l2 t
  · rw [hkey]; rfl
  · have hn' := hp.countExpert hsm.to_fits hx
    obtain ⟨time, ttl, g1, g2, g3⟩ := l3 hx
    refine ⟨time, ttl, g1, g2, fun t => ?_⟩
    rw [item 4 t (by omega) (by omega), item 5 t (by omega) (by omega), item 6 t (by omega) (by omega), item 7 t (by omega) (by omega)]
    exact g3 t

/-- **C47, Deploys.** In the review of any accepted Deploy that starts with a header whose chain name has no zero byte, the chain shown is the chain signed. -/
theorem C47_chain_deploy_partial (pl : Platform) (hcap : pl.cap ≤ 16384) (d d' : Dev) (hd : d.Ok pl) (rx : Bytes)
    (pin : Bool) (hins : rx.getD 1 0 = 2) (hh : DeployHeader) (ho : hh.Ok) (rest : Bytes) (hx : d.data ++ rx.drop 5 = 0 :: (hh.encode ++ rest))
    (h : step pl d (.apdu rx pin) = (d', .pending)) (h0 : 0 ∉ hh.chain) (t : Nat) :
    ∃ c, reviewItem pl d' .tx 2 t = .ok (b!"Chain ID", hh.chain) c := by
  have := (C62_deploy_partial pl hcap d d' hd rx pin hins hh ho rest hx h).1 t
  rwa [show hh.chain.takeWhile (· != 0) = hh.chain from cstr_eq h0] at this

/-- **C62, version 1.** In the review of a serialized version 1 transaction that has an item 3, it shows the address of the initiator; for a Secp256k1 key this is, but for
the case of its letters, the address the device reports. -/
theorem C62_v1_partial (pl : Platform) (hcap : pl.cap ≤ 16384) (d d' : Dev) (hd : d.Ok pl) (rx : Bytes)
    (pin : Bool) (hins : rx.getD 1 0 = 2) (p : TxPayload) (hp : p.Ok) (ap : List Bytes) (hap : ∀ x ∈ ap, ApprovalOk x)
    (hx : d.data ++ rx.drop 5 = 1 :: p.tx pl.blake ap) (h : step pl d (.apdu rx pin) = (d', .pending))
    (n o : Nat) (hn : reviewCount pl d' .tx 0 = .ok n o) (h3 : 3 < n) :
    ∃ text, (∀ s, ∃ c, reviewItem pl d' .tx 3 s = .ok (b!"Account", text) c) ∧ text.map lowerCase = hexText p.initiator.addr ∧
      ∀ key, p.initiator = .secp256k1 key → text.map lowerCase = (addressText pl.blake key).map lowerCase := by
  obtain ⟨v, -, hs, hok, hdata, rfl, hv, -⟩ := pending_tx hcap hd hins hp hap hx h
  have hH : (pl.blake p.encode).length = 32 := pl.blake.len _
  have hat : At (p.tx pl.blake ap) 0 (p.tx pl.blake ap) := ⟨[], [], by simp, rfl⟩
  rw [reviewCount_v1] at hn
  simp only [Res.ok.injEq] at hn
  refine ⟨checksumHex pl.blake p.initiator.addr, fun s => ?_, casedHex_lower _ _, fun key hk => ?_⟩
  · rw [reviewItem_v1 hok hdata, show u8 3 = 3 from rfl, if_neg (by omega)]
    refine item_account (e := mkEnv pl d.expert (p.tx pl.blake ap)) (tx_layout hH hat) ?_ hs hp.initiator (by omega) s
    rw [hv]
    exact result_view hH
  · rw [hk]
    unfold checksumHex addressText
    rw [casedHex_lower, List.map_append, casedHex_lower]
    rfl

/-- The hypotheses can be met, in expert mode: the sample delegation. -/
example : (sampleDelegate.header Blake.H).Ok ∧
    (run samplePl { Dev.init samplePl with expert := true } (sampleUpload (0 :: sampleDelegate.tx Blake.H []))).2.getLast? = some .pending ∧
    ∃ rest, sampleDelegate.tx Blake.H [] = (sampleDelegate.header Blake.H).encode ++ rest := by
  refine ⟨⟨by show List.length _ = 33; decide, by decide, by decide, by decide, Blake.H.len _, ?_⟩, by decide +kernel, ?_⟩
  · show ∀ d ∈ sampleDelegate.deps, d.length = 32
    decide +kernel
  · exact ⟨_, by unfold DeploySpec.tx; rw [List.append_assoc, List.append_assoc]⟩

/-- **C62 fails** for version 1: the account line of a transaction from a Secp256k1 key is not the address the device reports for this key. -/
theorem C62_account_false : sampleTransfer.initiator = .secp256k1 (List.replicate 33 0xab) ∧
    (run samplePl (Dev.init samplePl) (sampleUpload (1 :: sampleTransfer.tx Blake.H []) 1)).2.getLast? = some .pending ∧
    ∃ text c, reviewItem samplePl (run samplePl (Dev.init samplePl) (sampleUpload (1 :: sampleTransfer.tx Blake.H []) 1)).1 .tx 3 0 = .ok (b!"Account", text) c ∧
      text ≠ addressText Blake.H (List.replicate 33 0xab) :=
  ⟨rfl, by decide +kernel, checksumHex Blake.H (2 :: List.replicate 33 0xab), by
    obtain ⟨c, hc⟩ := Res.val_ok.1 (show (reviewItem samplePl (run samplePl (Dev.init samplePl) (sampleUpload (1 :: sampleTransfer.tx Blake.H []) 1)).1 .tx 3 0).val =
      .ok (b!"Account", checksumHex Blake.H (2 :: List.replicate 33 0xab)) () by decide +kernel)
    exact ⟨c, hc, by decide +kernel⟩⟩

/-- **C62 fails** for chain names with a zero byte, of Deploys too. -/
theorem C62_chain_false : ∃ p : DeploySpec, p.chain ≠ b!"casper" ∧
    (run samplePl (Dev.init samplePl) (sampleUpload (0 :: p.tx Blake.H []))).2.getLast? = some .pending ∧
    ∃ c, reviewItem samplePl (run samplePl (Dev.init samplePl) (sampleUpload (0 :: p.tx Blake.H []))).1 .tx 2 0 = .ok (b!"Chain ID", b!"casper") c :=
  ⟨{ sampleDelegate with chain := b!"casper" ++ 0 :: b!"-test" }, by decide, by decide +kernel, Res.val_ok.1 (by decide +kernel)⟩

/-- **C62 fails** for parts of a second: two times to live, half a second and no time at all, look the same. -/
theorem C62_ttl_false : ∃ p q : DeploySpec, p.ttl = 0 ∧ q.ttl = 500 ∧
    (run samplePl { Dev.init samplePl with expert := true } (sampleUpload (0 :: p.tx Blake.H []))).2.getLast? = some .pending ∧
    (run samplePl { Dev.init samplePl with expert := true } (sampleUpload (0 :: q.tx Blake.H []))).2.getLast? = some .pending ∧
    ∃ text, (∃ c, reviewItem samplePl (run samplePl { Dev.init samplePl with expert := true } (sampleUpload (0 :: p.tx Blake.H []))).1 .tx 5 0 = .ok (b!"Ttl", text) c) ∧
      ∃ c, reviewItem samplePl (run samplePl { Dev.init samplePl with expert := true } (sampleUpload (0 :: q.tx Blake.H []))).1 .tx 5 0 = .ok (b!"Ttl", text) c :=
  ⟨{ sampleDelegate with ttl := 0 }, { sampleDelegate with ttl := 500 }, rfl, rfl, by decide +kernel, by decide +kernel, [],
    Res.val_ok.1 (by decide +kernel), Res.val_ok.1 (by decide +kernel)⟩

end Casper
