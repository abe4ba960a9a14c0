import Verif.Props.Contracts
import Verif.Props.Headers
import Verif.Spec.Kinds
/-
C68: the line "Type".
-/
namespace Casper
open M CLType

theorem entry_kind {e : Env} (hf : Fits e) {entry xs : Bytes} {start : Nat} {s : IS} (hk : s.item.typ ≠ 0) (h0 : s.item.special = 255)
    (h : At e.buf s.off (pfx entry ++ xs)) :
    Post (do let n ← checkEntrypoint e; finishItem e n start) s (fun _ t => t.item.special = entryKind entry 255) := by
  refine Post.seq (P := fun _ t => t.item.special = entryKind entry 255) ?_ fun n t ht => ?_
  · unfold checkEntrypoint
    refine Post.modifyThen ((lp_post (copyItem_post hf)).seq fun nm t ⟨⟨h1, h2, h3, h4⟩, h5⟩ => Post.modifyThen ?_)
    obtain rfl := (At.append.1 h).1.pfx_inj hf h1
    refine lp_frame.seq fun n u hu => Post.modifyThen ?_
    have hity : u.item.typ = s.item.typ := by rw [hu.2, h5]
    refine (parseDelegation_other (by show u.item.typ ≠ 0; rw [hity]; exact hk)).seq fun _ v hv => Post.pure ?_
    rw [hv.2.2.1]
    show entryKind entry u.item.special = _
    rw [hu.2, h5]
    dsimp only
    rw [h0]
  · refine finishItem_item.mono fun _ u ⟨x, hx⟩ => ?_
    rw [hx]; exact ht

/-- The kind of call that is remembered. -/
theorem parseCall_kind {e : Env} (hs : Small e) {k off epo : Nat} {pre entry xs : Bytes} (hh : CallHead k pre)
    (h : At e.buf off (pre ++ (pfx entry ++ xs))) :
    Post (parseDeployItem e false) ⟨off, epo, { typ := k }⟩ (fun _ t => t.item.special = entryKind entry 255) := by
  have hf := hs.to_fits
  have hle := h.le
  simp only [List.length_append, pfx_length] at hle
  unfold Small at hs
  unfold parseDeployItem
  refine Post.modifyThen (Post.getThen ?_)
  dsimp only
  cases hh with
  | byHash hb hl =>
    rw [if_neg (by decide), if_pos (by decide)]
    unfold parseByHash
    refine Post.getThen (Post.modifyThen (f := fun _ => _) (g := fun s : IS => { s with off := u16 (s.off + 32) }) (Post.getThen ?_))
    dsimp only
    rw [u16_id (by omega), show (decide (1 = tyVerByHash)) = false from rfl, versionStep_false]
    refine Post.pureThen ?_
    have h2 := (At.append.1 h).2
    rw [hl] at h2
    exact entry_kind hf (by simp) rfl h2
  | byName nb =>
    rw [if_neg (by decide), if_neg (by decide), if_pos (by decide)]
    unfold parseByName
    refine Post.getThen (.runThen (lp_run (parseItem_at hf h)) (Post.getThen ?_))
    dsimp only
    rw [show (decide (2 = tyVerByName)) = false from rfl, versionStep_false]
    refine Post.pureThen ?_
    exact entry_kind hf (by simp) rfl (At.pfx h).2
  | versionedByHash hb v hl =>
    rw [if_neg (by decide), if_pos (by decide)]
    unfold parseByHash
    refine Post.getThen (Post.modifyThen (f := fun _ => _) (g := fun s : IS => { s with off := u16 (s.off + 32) }) (Post.getThen ?_))
    dsimp only
    simp only [List.length_append] at hle
    rw [u16_id (by omega)]
    rw [List.append_assoc] at h
    have h2 := (At.append.1 h).2
    rw [hl] at h2
    rw [show (decide (3 = tyVerByHash)) = true from rfl]
    refine Post.seq (versionStep_named h2) fun _ u ⟨u1, x, u2⟩ => ?_
    dsimp only at u1 u2
    exact entry_kind hf (by rw [u2]; simp) (by rw [u2]) (by rw [u1]; exact (At.append.1 h2).2)
  | versionedByName nb v =>
    rw [if_neg (by decide), if_neg (by decide), if_pos (by decide)]
    unfold parseByName
    rw [List.append_assoc] at h
    refine Post.getThen (.runThen (lp_run (parseItem_at hf h)) (Post.getThen ?_))
    dsimp only
    have h2 := (At.pfx h).2
    rw [show (decide (4 = tyVerByName)) = true from rfl]
    refine Post.seq (versionStep_named h2) fun _ u ⟨u1, x, u2⟩ => ?_
    dsimp only at u1 u2
    exact entry_kind hf (by rw [u2]; simp) (by rw [u2]) (by rw [u1]; exact (At.append.1 h2).2)

/-- Calls and their heads. -/
theorem ExecItem.callHead {it : ExecItem} (h : it.Sized) {entry : Bytes} (he : it.entryPoint = some entry) :
    ∃ k pre, CallHead k pre ∧ it.encode = UInt8.ofNat k :: (pre ++ (pfx entry ++ encodeRuntimeArgs it.args)) := by
  cases it with
  | moduleBytes | transfer => cases he
  | byHash hb en as => cases he; exact ⟨_, _, .byHash hb h, by simp [ExecItem.encode, ExecItem.args]⟩
  | byName nb en as => cases he; exact ⟨_, _, .byName nb, by simp [ExecItem.encode, ExecItem.args]⟩
  | versionedByHash hb v en as => cases he; exact ⟨_, _, .versionedByHash hb v h, by simp [ExecItem.encode, ExecItem.args]⟩
  | versionedByName nb v en as => cases he; exact ⟨_, _, .versionedByName nb v, by simp [ExecItem.encode, ExecItem.args]⟩

theorem ExecItem.Plain.entry {it : ExecItem} (h : it.Plain) {entry : Bytes} (he : it.entryPoint = some entry) : 0 ∉ entry := by
  cases it with
  | moduleBytes | transfer => cases he
  | byHash | versionedByHash => cases he; exact h
  | byName | versionedByName => cases he; exact h.2

/-- The titles of the kinds. -/
theorem typeLabel_title {d : Deploy} (ht : d.session.typ ≠ 5) {entry : Bytes} (h : d.session.special = entryKind entry 255) (h0 : 0 ∉ entry) :
    (entry, typeLabel d) ∈ callTitles ∨ typeLabel d = b!"Contract execution" := by
  unfold typeLabel
  rw [if_neg (fun h => ht h.2), h]
  unfold entryKind
  rw [cstr_eq h0]
  by_cases hg : d.session.generic = 0
  swap
  · rw [if_neg (fun h => hg h.2), if_neg (fun h => hg h.2), if_neg (fun h => hg h.2)]
    exact .inr rfl
  rw [hg]
  by_cases h1 : entry = b!"delegate"
  · subst h1; exact .inl (by decide)
  by_cases h2 : entry = b!"undelegate"
  · subst h2; exact .inl (by decide)
  by_cases h3 : entry = b!"redelegate"
  · subst h3; exact .inl (by decide)
  rw [if_neg h1, if_neg h2, if_neg h3]
  exact .inr rfl

/-- Accepted Deploys. -/
theorem DeployParse.titled {e : Env} (hs : Small e) {s : DS} {p q : IS} {k : Nat} (hp : DeployParse e s p q k) {it : ExecItem} (h32 : it.Sized)
    (hpl : it.Plain) (hat : At e.buf p.off it.encode)
    (hm : ∀ code as, it = .moduleBytes code as → GoodTypes as ∧ noNul as ∧ ¬ it.AuctionCode) : it.Titled (typeLabel s.dep) := by
  have hext := hp.extent hs.to_fits
  have hpay := (hp.payment hs.to_fits).2.1
  have hfacts := hp.facts hs
  have hd : s.dep.session = q.item ∧ s.dep.payment = p.item := by rw [hp.result]; exact ⟨rfl, rfl⟩
  have htag : ∀ {k' : Nat} {tail : Bytes}, k' ≤ 5 → it.encode = UInt8.ofNat k' :: tail → k' = k ∧ At e.buf (p.off + 1) tail := by
    intro k' tail hk' henc
    rw [henc] at hat
    have := hp.sesType.unique (At.cons.1 hat).1 rfl
    have := congrArg UInt8.toNat (List.cons.inj this).1
    have hsm := hp.small
    rw [UInt8.toNat_ofNat', UInt8.toNat_ofNat', Nat.mod_eq_of_lt (by omega), Nat.mod_eq_of_lt (by omega)] at this
    exact ⟨this.symm, (At.cons.1 hat).2⟩
  cases he : it.entryPoint with
  | some entry =>
    obtain ⟨k', pre, hh, henc⟩ := it.callHead h32 he
    obtain ⟨rfl, hat'⟩ := htag (by cases hh <;> omega) henc
    have hk := parseCall_kind hs hh hat' _ _ hp.ses
    have h5 : s.dep.session.typ ≠ 5 := by rw [hd.1, hfacts.typ]; cases hh <;> omega
    rcases typeLabel_title h5 (by rw [hd.1]; exact hk) (hpl.entry he) with h | h
    · exact .inr (.inl ⟨entry, he, h⟩)
    · exact .inr (.inr ⟨h, by rintro as rfl; cases he⟩)
  | none =>
    cases it with
    | byHash | byName | versionedByHash | versionedByName => cases he
    | transfer as =>
      obtain ⟨rfl, -⟩ := htag (k' := 5) (by omega) rfl
      refine .inl ⟨?_, as, rfl⟩
      unfold typeLabel
      rw [if_pos ⟨by rw [hd.2, hpay], by rw [hd.1]; exact hfacts.typ⟩]
    | moduleBytes code as =>
      obtain ⟨rfl, hat'⟩ := htag (k' := 0) (by omega) rfl
      obtain ⟨hg, hn, ha⟩ := hm code as rfl
      refine .inr (.inr ⟨?_, by simp⟩)
      have hgen : s.dep.session.generic ≠ 0 := by
        simp only [ExecItem.AuctionCode, not_or, not_exists, not_and, Nat.not_lt] at ha
        have hfs := parseDeployItem_named hs hg (epo := p.epo) (.moduleBytes code) hat' (fun _ => ⟨ha.2, fun ⟨a, hm, hb⟩ => ha.1 (by
          rw [Option.isSome_iff_exists]
          rw [cstr_eq (hn a hm)] at hb
          cases hq : argNamed as b!"auction" with
          | none => exact absurd hb (by simpa using List.find?_eq_none.1 hq a hm)
          | some b => exact ⟨b, rfl⟩)⟩) _ _ hp.ses
        rw [hd.1]
        cases hfs with
        | transfer h => cases h
        | module _ _ _ h4 _ => exact h4
        | call _ h => exact absurd rfl h.1
      unfold typeLabel
      rw [if_neg (by rw [hd.1, hfacts.typ]; exact fun h => absurd h.2 (by decide)), if_neg (fun h => hgen h.2), if_neg (fun h => hgen h.2), if_neg (fun h => hgen h.2)]

/-- **C68, Deploys.** A transaction review of data `0 :: xs`: `xs` are a header, its hash, a payment, a session and the rest, and the header contains the hash of
payment and session.  Item 1 of the review is the line "Type".  If the session is a serialized item then this line is right (`Titled`): it says "Token transfer" for
transfers and for nothing else, and if it says "Delegate", "Undelegate" or "Redelegate" then the session calls the entry point of that name of a stored contract.  Not
covered: names of entry points with zero bytes (see `C68_name_false`), and code with an argument "auction" (see `C68_code_false`). -/
theorem C68_deploy_partial (pl : Platform) (hcap : pl.cap ≤ 16384) (d d' : Dev) (hd : d.Ok pl) (rx : Bytes)
    (pin : Bool) (hins : rx.getD 1 0 = 2) (xs : Bytes) (hx : d.data ++ rx.drop 5 = 0 :: xs)
    (h : step pl d (.apdu rx pin) = (d', .pending)) :
    ∃ hdr pay ses rest, xs = hdr ++ pl.blake hdr ++ (pay ++ ses) ++ rest ∧ (xs.drop (keyLen xs + 24)).take 32 = pl.blake (pay ++ ses) ∧
      ∃ text, (∀ t, ∃ c, reviewItem pl d' .tx 1 t = .ok (b!"Type", text) c) ∧
        ∀ it : ExecItem, ses = it.encode → it.Sized → it.Plain →
          (∀ code as, it = .moduleBytes code as → GoodTypes as ∧ noNul as ∧ ¬ it.AuctionCode) → it.Titled text := by
  obtain ⟨hok, hdata, hcase⟩ := sign_pending (by omega) hd hins h
  rw [hx] at hcase hdata
  rcases hcase with ⟨ys, s, h1, h2, rfl⟩ | ⟨ys, s, h1, -, -⟩
  swap
  · simp at h1
  simp only [List.cons.injEq, true_and] at h1
  subst h1
  have hsm : Small (mkEnv pl d.expert xs) := small_data hcap hok hdata d.expert
  obtain ⟨p, q, k, hdr, hash, pay, ses, rest, hp, b1, b2, b3, b4, b5, b6, b7⟩ := h2.split hsm
  have hk := readDeploy_kind h2.parse
  have hle := congrArg List.length b1
  simp only [List.length_append] at hle
  have hcount := hp.count hsm.to_fits
  refine ⟨hdr, pay, ses, rest, ?_, ?_, typeLabel s.dep, fun t => ⟨t, ?_⟩, fun it hses h32 hpl hm => ?_⟩
  · rw [show pl.blake hdr = hash from b6]; exact b1
  · rw [hp.header.pkLen] at b7
    have := b7.take_drop
    rw [Hash.len] at this
    exact this
  · rw [reviewItem_deploy hok hdata s hk, show (d.loaded rx).expert = d.expert from rfl, u8_id (by omega), if_neg (by omega)]
    unfold getItemDeploy
    rw [if_neg (by omega), if_neg (by omega), if_pos rfl]
    rfl
  · have hat : At (mkEnv pl d.expert xs).buf p.off it.encode :=
      ⟨hdr ++ hash ++ pay, rest, by rw [b1, ← hses]; simp only [List.append_assoc], by simp only [List.length_append]; omega⟩
    exact hp.titled hsm h32 hpl hat hm

/-- The hypotheses can be met: the sample delegation. -/
example :
    (run samplePl (Dev.init samplePl) (sampleUpload (0 :: sampleDelegate.tx Blake.H []))).2.getLast? = some .pending ∧
    sampleDelegate.session.Sized ∧ sampleDelegate.session.Plain ∧
    (∀ code as, sampleDelegate.session = .moduleBytes code as → GoodTypes as ∧ noNul as ∧ ¬ sampleDelegate.session.AuctionCode) ∧
    sampleDelegate.session.Titled b!"Delegate" ∧ ¬ sampleDelegate.session.Titled b!"Undelegate" ∧ ¬ sampleDelegate.session.Titled b!"Token transfer" :=
  ⟨by decide +kernel, List.length_replicate, (by show (0 : UInt8) ∉ b!"delegate"; decide), (by intro _ _ h; cases h), .inr (.inl ⟨b!"delegate", rfl, by decide⟩), by
    rintro (⟨h, -⟩ | ⟨en, h, h'⟩ | ⟨h, -⟩)
    · exact absurd h (by decide)
    · cases h; exact absurd h' (by decide)
    · exact absurd h (by decide), by
    rintro (⟨-, _, h⟩ | ⟨en, h, h'⟩ | ⟨h, -⟩)
    · cases h
    · cases h; exact absurd h' (by decide)
    · exact absurd h (by decide)⟩

/-- **C68, version 1.** In the review of a serialized version 1 transaction that has an item 1, this is the line "Type" and has the title of the entry point. -/
theorem C68_v1_partial (pl : Platform) (hcap : pl.cap ≤ 16384) (d d' : Dev) (hd : d.Ok pl) (rx : Bytes)
    (pin : Bool) (hins : rx.getD 1 0 = 2) (p : TxPayload) (hp : p.Ok) (ap : List Bytes) (hap : ∀ x ∈ ap, ApprovalOk x)
    (hx : d.data ++ rx.drop 5 = 1 :: p.tx pl.blake ap) (h : step pl d (.apdu rx pin) = (d', .pending))
    (n o : Nat) (hn : reviewCount pl d' .tx 0 = .ok n o) (h1 : 1 < n) (t : Nat) :
    ∃ c, reviewItem pl d' .tx 1 t = .ok (b!"Type", p.entry.title) c := by
  obtain ⟨v, -, hs, hok, hdata, rfl, hv, -⟩ := pending_tx hcap hd hins hp hap hx h
  have hH : (pl.blake p.encode).length = 32 := pl.blake.len _
  rw [reviewCount_v1] at hn
  simp only [Res.ok.injEq] at hn
  rw [reviewItem_v1 hok hdata, show u8 1 = 1 from rfl, if_neg (by omega)]
  refine ⟨t, item_type (e := mkEnv pl d.expert (p.tx pl.blake ap)) ?_ hp.entry (by omega) t⟩
  rw [hv]
  exact result_view hH

/-- The hypotheses can be met: a withdrawal. -/
example : (run samplePl (Dev.init samplePl) (sampleUpload (1 :: (sampleWithdraw 5).tx Blake.H []) 1)).2.getLast? = some .pending ∧
    (sampleWithdraw 5).entry.title = b!"Withdraw Bid" :=
  ⟨by decide +kernel, by decide⟩

/-! ### Where it fails -/

/-- Code that is no delegation at all, with arguments that look like one. -/
def sampleDisguise : DeploySpec := { sampleDeploy with
  session := .moduleBytes b!"any code" (sampleDelegate.session.args ++ [⟨b!"auction", pfx b!"delegate", .string⟩]) }

/-- **C68 fails** for code with an argument "auction": whatever it does, it is shown as a delegation. -/
theorem C68_code_false :
    (run samplePl (Dev.init samplePl) (sampleUpload (0 :: sampleDisguise.tx Blake.H []))).2.getLast? = some .pending ∧
    (∃ c, reviewItem samplePl (run samplePl (Dev.init samplePl) (sampleUpload (0 :: sampleDisguise.tx Blake.H []))).1 .tx 1 0 = .ok (b!"Type", b!"Delegate") c) ∧
    ¬ sampleDisguise.session.Titled b!"Delegate" :=
  ⟨by decide +kernel, Res.val_ok.1 (by decide +kernel), by
    rintro (⟨h, -⟩ | ⟨en, h, -⟩ | ⟨h, -⟩)
    · exact absurd h (by decide)
    · cases h
    · exact absurd h (by decide)⟩

/-- The entry point "delegate", a zero byte and more. -/
def sampleOddEntry : DeploySpec := { sampleDeploy with
  session := .byHash (List.replicate 32 0x33) (b!"delegate" ++ 0 :: b!"_all") sampleDelegate.session.args }

/-- **C68 fails** for entry points with a zero byte in their name. -/
theorem C68_name_false :
    (run samplePl (Dev.init samplePl) (sampleUpload (0 :: sampleOddEntry.tx Blake.H []))).2.getLast? = some .pending ∧
    (∃ c, reviewItem samplePl (run samplePl (Dev.init samplePl) (sampleUpload (0 :: sampleOddEntry.tx Blake.H []))).1 .tx 1 0 = .ok (b!"Type", b!"Delegate") c) ∧
    ¬ sampleOddEntry.session.Titled b!"Delegate" :=
  ⟨by decide +kernel, Res.val_ok.1 (by decide +kernel), by
    rintro (⟨h, -⟩ | ⟨en, h, h'⟩ | ⟨h, -⟩)
    · exact absurd h (by decide)
    · cases h; exact absurd h' (by decide)
    · exact absurd h (by decide)⟩

end Casper
