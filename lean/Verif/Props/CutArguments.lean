import Verif.Props.Arguments

/-!
# Deploys, all names of arguments
-/

namespace Casper

open M CLType

/-- Accepted Deploys. -/
theorem DeployParse.lines_cut {e : Env} (hs : Small e) {s : DS} {p q : IS} {k : Nat} (hp : DeployParse e s p q k) {it : ExecItem} (h32 : it.Sized)
    (hg : GoodTypes it.args) (hm : ∀ code as, it = .moduleBytes code as → ∀ a ∈ as, a.name.length ≤ 300 ∧ a.name.takeWhile (· != 0) ≠ b!"auction") (ha : At e.buf p.off it.encode)
    (hst : headerLength s.dep.header + 32 < 65536) {idx o : Nat} {kv : Bytes × Bytes} {c : Nat}
    (h : getItemDeploy e s.epo s.dep idx o = .ok kv c) : LineOf e.blake it.args kv := by
  obtain ⟨k', head, h1, h2, h3, h4, h5⟩ := ExecItem.head h32
  rw [h3] at ha
  have hk : k' = k := by
    have := hp.sesType.unique (At.cons.1 ha).1 rfl
    have := congrArg UInt8.toNat (List.cons.inj this).1
    have hsm := hp.small
    rw [UInt8.toNat_ofNat', UInt8.toNat_ofNat', Nat.mod_eq_of_lt (by omega), Nat.mod_eq_of_lt (by omega)] at this
    exact this.symm
  subst hk
  have ha' := (At.cons.1 ha).2
  have hext := hp.extent hs.to_fits
  have hpay := hp.payment hs.to_fits
  have hfacts := parseDeployItem_named hs hg (epo := p.epo) h1 ha' (fun h0 => by
    obtain ⟨code, hc⟩ := h4 h0
    have hm := hm code it.args hc
    exact ⟨fun a ha => (hm a ha).1, fun ⟨a, ha, hb⟩ => (hm a ha).2 hb⟩) _ _ hp.ses
  have hd : s.dep.session = q.item ∧ s.dep.payment = p.item := by rw [hp.result]; exact ⟨rfl, rfl⟩
  dsimp only at hfacts
  rw [← hd.1] at hfacts
  have hb : s.dep.header.bodyStart = headerLength s.dep.header + 32 := u16_id hst
  refine getItemDeploy_lines hs hg (start := p.off) ?_ (At.append.1 ha').2 (fun h => by rw [h5 h]; rfl) (by omega) hfacts _ _ h
  rw [hd.2]; omega

/-- **C58, all names.** As `C58_arguments_partial`, without conditions on zero bytes: a line whose label is one of `sessionLabels` is about the first argument
whose name, cut at the first zero byte, is that of the line.  Not covered: code with an argument of the (cut) name "auction" or a name over 300 bytes. -/
theorem C58_cut_partial (pl : Platform) (hcap : pl.cap ≤ 16384) (d d' : Dev) (hd : d.Ok pl) (rx : Bytes)
    (pin : Bool) (hins : rx.getD 1 0 = 2) (xs : Bytes) (hx : d.data ++ rx.drop 5 = 0 :: xs)
    (h : step pl d (.apdu rx pin) = (d', .pending)) :
    ∃ hdr pay ses rest, xs = hdr ++ pl.blake hdr ++ (pay ++ ses) ++ rest ∧ (xs.drop (keyLen xs + 24)).take 32 = pl.blake (pay ++ ses) ∧
      ∀ it : ExecItem, ses = it.encode → it.Sized → GoodTypes it.args →
      (∀ code as, it = .moduleBytes code as → ∀ a ∈ as, a.name.length ≤ 300 ∧ a.name.takeWhile (· != 0) ≠ b!"auction") →
        ∀ i key text c, reviewItem pl d' .tx i 0 = .ok (key, text) c → ∀ l ∈ sessionLabels, key = l.label →
          ∃ pre a post, it.args = pre ++ a :: post ∧ a.name.takeWhile (· != 0) = l.name ∧ (∀ x ∈ pre, x.name.takeWhile (· != 0) ≠ l.name) ∧
            l.Right pl.blake a text := by
  obtain ⟨hok, hdata, hcase⟩ := sign_pending (by omega) hd hins h
  rw [hx] at hcase hdata
  rcases hcase with ⟨ys, s, h1, h2, rfl⟩ | ⟨ys, s, h1, -, -⟩
  swap
  · simp at h1
  simp only [List.cons.injEq, true_and] at h1
  subst h1
  have hsm : Small (mkEnv pl d.expert xs) := small_data hcap hok hdata d.expert
  obtain ⟨p, q, k, hdr, hash, pay, ses, rest, hp, b1, b2, b3, b4, b5, b6, b7⟩ := h2.split hsm
  have hk := readDeploy_kind h2.parse
  have hle := congrArg List.length b1
  simp only [List.length_append] at hle
  refine ⟨hdr, pay, ses, rest, ?_, ?_, ?_⟩
  · rw [show pl.blake hdr = hash from b6]; exact b1
  · rw [hp.header.pkLen] at b7
    have := b7.take_drop
    rw [Hash.len] at this
    exact this
  · intro it hses h32 hg hm i key text c hr l hl hkey
    rw [reviewItem_deploy hok hdata s hk] at hr
    split at hr
    · cases hr
    have hst : headerLength s.dep.header + 32 < 65536 := by have := hsm; unfold Small at this; omega
    have hat : At (mkEnv pl d.expert xs).buf p.off it.encode :=
      ⟨hdr ++ hash ++ pay, rest, by rw [b1, ← hses]; simp only [List.append_assoc], by simp only [List.length_append]; omega⟩
    obtain ⟨a, g1, g2⟩ := hp.lines_cut hsm h32 hg hm hat hst hr l hl hkey
    have g1 : it.args.find? (fun b => cstr b.name == l.name) = some a := g1
    rw [List.find?_eq_some_iff_append] at g1
    obtain ⟨g3, pre, post, g4, g5⟩ := g1
    exact ⟨pre, a, post, g4, by simpa [cstr] using g3, by simpa [cstr] using g5, g2⟩

/-- The hypotheses of `C58_cut_partial` can be met by the sample of `C58_name_false`: the line is about its third argument. -/
example :
    (run samplePl (Dev.init samplePl) (sampleUpload (0 :: sampleTwoAmounts.tx Blake.H []))).2.getLast? = some .pending ∧
    sampleTwoAmounts.session.Sized ∧ GoodTypes sampleTwoAmounts.session.args ∧
    (∀ code as, sampleTwoAmounts.session = .moduleBytes code as → ∀ a ∈ as, a.name.length ≤ 300 ∧ a.name.takeWhile (· != 0) ≠ b!"auction") ∧
    ∃ pre post, sampleTwoAmounts.session.args = pre ++ ⟨b!"amount" ++ [0], bigNum 1 5, .u512⟩ :: post ∧
      ∀ x ∈ pre, x.name.takeWhile (· != 0) ≠ b!"amount" :=
  ⟨by decide +kernel, List.length_replicate, by unfold GoodTypes; decide +kernel, fun _ _ h => by simp [sampleTwoAmounts] at h,
    [⟨b!"delegator", 1 :: List.replicate 32 0x11, .publicKey⟩, ⟨b!"validator", 1 :: List.replicate 32 0x22, .publicKey⟩],
    [⟨b!"amount", bigNum 8 100000000000000000, .u512⟩], rfl, by decide⟩

end Casper
