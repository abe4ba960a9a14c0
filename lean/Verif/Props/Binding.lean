import Verif.Props.Trailing
import Verif.Props.Messages
import Verif.Props.Values
/-
C66: the line "Txn hash" names one transaction.
-/
namespace Casper
open M

/-! ### Specification: what a network hash commits to -/

/-- What a user is asked to sign: a Deploy, of which the network hashes the header, which contains a hash of the body; or a version 1
transaction, of which the network hashes the payload. -/
inductive Asked where
  | deploy (header body : Bytes)
  | v1 (payload : Bytes)
  deriving DecidableEq

namespace Asked

/-- The hash the network gives it. -/
def hash (H : Hash) : Asked → Bytes
  | deploy header _ => H header
  | v1 payload => H payload

/-- The parts that are hashed. -/
def parts : Asked → List Bytes
  | deploy header body => [header, body]
  | v1 payload => [payload]

/-- These data contain it: a Deploy is 0, the header, its hash, the body (and anything else), the header starting with a key and the body
hash being behind the key and three 64-bit numbers; a version 1 transaction is 1, an envelope, the hash of the payload, the payload (and
anything else), the payload starting with the number of its fields. -/
def In (H : Hash) : Asked → Bytes → Prop
  | deploy header body, xs => (∃ rest, xs = 0 :: (header ++ H header ++ body ++ rest)) ∧
      (header.head? = some 1 ∨ header.head? = some 2) ∧ keyLen header ≤ header.length ∧
      ((header ++ H header ++ body).drop (keyLen header + 24)).take 32 = H body
  | v1 payload, xs => (∃ envelope rest, xs = 1 :: (envelope ++ H payload ++ payload ++ rest)) ∧
      ∃ n, payload.head? = some n ∧ 6 ≤ n ∧ n ≤ 10

/-- Two different parts with the same hash. -/
def Clash (H : Hash) (a b : Asked) : Prop := ∃ x ∈ a.parts, ∃ y ∈ b.parts, x ≠ y ∧ H x = H y

/-- A body whose hash ends with the body's own first bytes (at most 24), the bytes before being the end of the hash of the header. -/
def Knot (H : Hash) : Asked → Prop
  | deploy header body => ∃ m t, 1 ≤ m ∧ m ≤ 24 ∧ t <:+ header ++ H header ∧ H body = t ++ body.take m
  | v1 _ => False

theorem body_hash {H : Hash} {hdr body xs : Bytes} (h : (deploy hdr body).In H xs) :
    H body = ((hdr ++ H hdr).drop (keyLen hdr + 24)).take 32 ∨ (deploy hdr body).Knot H := by
  obtain ⟨-, -, h2, h3⟩ := h
  have hH := H.len hdr
  have hl : (hdr ++ H hdr).length = hdr.length + 32 := by rw [List.length_append, hH]
  rw [List.drop_append_of_le_length (by omega)] at h3
  by_cases hc : keyLen hdr + 24 ≤ hdr.length
  · left
    rw [← h3, List.take_append_of_le_length (by rw [List.length_drop]; omega)]
  · right
    refine ⟨keyLen hdr + 24 - hdr.length, (hdr ++ H hdr).drop (keyLen hdr + 24), by omega, by omega, List.drop_suffix _ _, ?_⟩
    rw [← h3, List.take_append, List.length_drop, hl, List.take_of_length_le (by rw [List.length_drop]; omega)]
    congr 2
    omega

/-- Whatever the hash function is: two requests with the same hash are the same, or show two byte strings with the same hash, or are both
Deploys whose bodies contain part of their own hashes. -/
theorem binding {H : Hash} {a b : Asked} {xs ys : Bytes} (ha : a.In H xs) (hb : b.In H ys) (hab : a.hash H = b.hash H) :
    a = b ∨ a.Clash H b ∨ (a.Knot H ∧ b.Knot H) := by
  cases a with
  | deploy hdr body =>
    cases b with
    | deploy hdr' body' =>
      by_cases h1 : hdr = hdr'
      · subst h1
        by_cases h2 : body = body'
        · exact .inl (by rw [h2])
        · by_cases h3 : H body = H body'
          · exact .inr (.inl ⟨body, by simp [parts], body', by simp [parts], h2, h3⟩)
          · rcases body_hash ha with ka | ka
            · rcases body_hash hb with kb | kb
              · exact absurd (ka.trans kb.symm) h3
              · exfalso
                obtain ⟨-, -, -, a3⟩ := ha
                obtain ⟨-, -, -, b3⟩ := hb
                obtain ⟨m, t, m1, m2, -, -⟩ := kb
                have := H.len hdr
                have := H.len body
                have hl := congrArg List.length ka
                simp only [List.length_take, List.length_drop, List.length_append] at hl
                rw [List.drop_append_of_le_length (by simp; omega), List.take_append_of_le_length (by simp; omega)] at a3 b3
                exact h3 (a3.symm.trans b3)
            · rcases body_hash hb with kb | kb
              · exfalso
                obtain ⟨-, -, -, a3⟩ := ha
                obtain ⟨-, -, -, b3⟩ := hb
                have := H.len hdr
                have := H.len body'
                have hl := congrArg List.length kb
                simp only [List.length_take, List.length_drop, List.length_append] at hl
                rw [List.drop_append_of_le_length (by simp; omega), List.take_append_of_le_length (by simp; omega)] at a3 b3
                exact h3 (a3.symm.trans b3)
              · exact .inr (.inr ⟨ka, kb⟩)
      · exact .inr (.inl ⟨hdr, by simp [parts], hdr', by simp [parts], h1, hab⟩)
    | v1 p =>
      refine .inr (.inl ⟨hdr, by simp [parts], p, by simp [parts], ?_, hab⟩)
      rintro rfl
      obtain ⟨-, ⟨n, n1, n2, -⟩⟩ := hb
      rcases ha.2.1 with h | h <;> rw [n1] at h <;> simp only [Option.some.injEq] at h <;> subst h <;> exact absurd n2 (by decide)
  | v1 p =>
    cases b with
    | deploy hdr body =>
      refine .inr (.inl ⟨p, by simp [parts], hdr, by simp [parts], ?_, hab⟩)
      rintro rfl
      obtain ⟨-, ⟨n, n1, n2, -⟩⟩ := ha
      rcases hb.2.1 with h | h <;> rw [n1] at h <;> simp only [Option.some.injEq] at h <;> subst h <;> exact absurd n2 (by decide)
    | v1 p' =>
      by_cases h1 : p = p'
      · exact .inl (by rw [h1])
      · exact .inr (.inl ⟨p, by simp [parts], p', by simp [parts], h1, hab⟩)

end Asked

/-! ### What a review asks for -/

theorem HeaderFacts.key_inside {e : Env} {h : Header} (hh : HeaderFacts e h) (hs : Small e) (hc : h.chainLen ≤ 100) :
    Casper.pkLen h ≤ headerLength h := by
  have hle := hh.chain.le
  rw [le_length] at hle
  unfold Small at hs
  have hp : Casper.pkLen h = 33 ∨ Casper.pkLen h = 34 := by unfold Casper.pkLen; split <;> omega
  change u16 (Casper.pkLen h + 56 + u16 (4 + h.deps * 32)) + 4 ≤ _ at hle
  unfold headerLength
  unfold u16 at *
  omega

/-- **C66, one review.** Every review of a SIGN upload, opened in any state, asks for one Deploy or version 1 transaction in the data
received: approving signs SHA-256 of its hash, and the first line, if there is any, shows its hash. -/
theorem C66_review (pl : Platform) (hcap : pl.cap ≤ 16384) (d d' : Dev) (hd : d.Ok pl) (rx : Bytes) (pin : Bool)
    (hins : rx.getD 1 0 = 2) (h : step pl d (.apdu rx pin) = (d', .pending)) :
    ∃ a : Asked, a.In pl.blake (d.data ++ rx.drop 5) ∧
      (step pl d' .approve).2 = signatureReply pl d.hdPath (pl.sha256 (a.hash pl.blake)) ∧
      ∀ l c, reviewItem pl d' .tx 0 0 = .ok l c → l = (b!"Txn hash", checksumHex pl.blake (a.hash pl.blake)) := by
  obtain ⟨hok, hdata, hcase⟩ := sign_pending (by omega) hd hins h
  rcases hcase with ⟨xs, s, h1, h2, h3⟩ | ⟨xs, s, h1, h2, h3⟩
  · rw [h1] at hdata
    have hsm : Small (mkEnv pl d.expert xs) := small_data hcap hok hdata d.expert
    obtain ⟨_, _, _, _, -, hcl⟩ := h2.small hsm.to_fits
    obtain ⟨p, q, k, hdr, hash, pay, ses, rest, hp, b1, b2, b3, b4, b5, b6, b7⟩ := h2.split hsm
    obtain ⟨hdr', hash', pay', ses', rest', c1, c2, c3, c4, c5, -, c7⟩ := C22_signed_is_shown pl hcap d d' hd rx pin hins xs h1 h
    have b6' : pl.blake hdr = hash := b6
    have hk : keyLen hdr = Casper.pkLen s.dep.header := by
      rw [hp.header.pkLen]
      unfold keyLen
      rw [b1]
      have : hdr ≠ [] := by
        rintro rfl
        have := hp.header.key_inside hsm hcl
        have : 33 ≤ Casper.pkLen s.dep.header := by unfold Casper.pkLen; split <;> omega
        simp at b2
        omega
      cases hdr with
      | nil => simp at this
      | cons x hdr => simp
    have hi := hp.header.key_inside hsm hcl
    have h33 : 33 ≤ Casper.pkLen s.dep.header := by unfold Casper.pkLen; split <;> omega
    refine ⟨.deploy hdr (pay ++ ses), ⟨⟨rest, by rw [h1, b6']; exact congrArg _ b1⟩, ?_, by omega, ?_⟩, ?_, ?_⟩
    · have h0 := hp.header.key.get
      rw [b1, List.append_assoc, List.append_assoc, List.getElem?_append_left (by omega), ← List.head?_eq_getElem?] at h0
      rcases hp.header.kind with hk | hk <;> rw [hk] at h0
      · exact .inl h0
      · exact .inr h0
    · rw [hk, b6']
      have h5 := b7.take_drop
      obtain ⟨code, name, v, w1, w2, w3, w4, -⟩ := h2.payment hsm hp (by simp only [b1, List.length_append]; omega)
      have hlen : 24 ≤ pay.length := by
        have h6 : 6 ≤ name.length := by
          have := congrArg List.length w3
          have h7 : (cstr name).length ≤ name.length := by unfold cstr; exact (List.takeWhile_sublist _).length_le
          rw [this] at h7
          exact h7
        have h8 := List.length_pos_iff.2 w4
        have h9 : CLType.u512.encode.length = 1 := rfl
        simp only [ExecItem.encode, encodeRuntimeArgs, encodeArgs, Arg.encode, List.length_cons, List.length_append, pfx_length, le_length] at w2
        omega
      rw [Hash.len, b1, List.drop_append_of_le_length (by simp only [List.length_append]; omega),
        List.take_append_of_le_length (by simp only [List.length_append, List.length_drop]; omega)] at h5
      exact h5
    · rw [h3]
      show _ = signatureReply pl _ (pl.sha256 (pl.blake hdr))
      rw [b6']
      exact approve_deploy hok (a := hdr) (h := hash) (c := (pay ++ ses) ++ rest)
        (by rw [hdata, ← List.append_assoc]; exact congrArg _ b1) b3 (readDeploy_kind h2.parse) b2.symm
    · intro l c hl
      have hn := hp.count hsm.to_fits
      have hb : xs = hdr ++ hash ++ ((pay ++ ses) ++ rest) := by rw [← List.append_assoc]; exact b1
      have hle := congrArg List.length b1
      simp only [List.length_append] at hle
      rw [h3, reviewItem_deploy hok hdata s (readDeploy_kind h2.parse), show u8 0 = 0 from rfl,
        show (d.loaded rx).expert = d.expert from rfl, if_neg (by omega)] at hl
      unfold getItemDeploy at hl
      rw [if_neg (by omega), if_pos rfl] at hl
      have h4 : seek (headerLength s.dep.header) 0 = .ok () (headerLength s.dep.header) := by
        show Res.ok () (u16 (headerLength s.dep.header)) = _
        unfold Small at hsm
        rw [u16_id (by omega)]
      simp only [bind_run, h4, Res.bind_ok] at hl
      rw [printBytes_hash (e := mkEnv pl d.expert xs) (xs := hash) ⟨hdr, (pay ++ ses) ++ rest, hb, b2⟩ b3] at hl
      cases hl
      show _ = (_, checksumHex pl.blake (pl.blake hdr))
      rw [b6']
      rfl
  · rw [h1] at hdata
    have hsm : Small (mkEnv pl d.expert xs) := small_data hcap hok hdata d.expert
    obtain ⟨hf, env, hash, payload, rest, hb, hl1, hl2, hl3, hh⟩ := h2.split hsm
    have hxs : xs = env ++ hash ++ payload ++ rest := hb
    have hh' : pl.blake payload = hash := hh
    refine ⟨.v1 payload, ⟨⟨env, rest, by rw [h1, hh', hxs]⟩, ?_⟩, ?_, ?_⟩
    · obtain ⟨k, k1, k2⟩ := hf.ptable.count
      have h6 := hf.six
      have h10 := hf.ptable.le10
      have hg : (mkEnv pl d.expert xs).buf[s.v.md.size + 32]? = some (UInt8.ofNat (k % 256)) := by
        have := (At.append (xs := [UInt8.ofNat (k % 256)]).1 k1).1
        exact this.get
      rw [hb, List.append_assoc, List.getElem?_append_right (by simp; omega),
        List.getElem?_append_left (by simp; have := hf.ptable.size; omega)] at hg
      refine ⟨UInt8.ofNat (k % 256), ?_, ?_, ?_⟩
      · rw [List.head?_eq_getElem?, ← hg]
        congr 1
        simp
        omega
      · unfold u8 at k2
        rw [UInt8.le_iff_toNat_le, UInt8.toNat_ofNat']
        simp
        omega
      · unfold u8 at k2
        rw [UInt8.le_iff_toNat_le, UInt8.toNat_ofNat']
        simp
        omega
    · rw [h3]
      show _ = signatureReply pl _ (pl.sha256 (pl.blake payload))
      rw [hh']
      refine approve_v1 hok (a := env) (h := hash) (c := payload ++ rest) (by rw [hdata, hxs]; simp) hl2 ?_
      rw [hf.fo0, hl1]; rfl
    · intro l c hl
      rw [h3, reviewItem_v1 hok hdata, show (d.loaded rx).expert = d.expert from rfl, show u8 0 = 0 from rfl] at hl
      rcases Nat.eq_zero_or_pos s.v.numItems with hn | hn
      · rw [if_neg (by omega)] at hl
        unfold getItemV1 at hl
        rw [if_pos (by omega)] at hl
        cases hl
      · rw [if_neg (by omega)] at hl
        have hsz := hf.table.size_le
        obtain ⟨c', hc'⟩ := getItemV1_hash (e := mkEnv pl d.expert xs) (hxs.trans (List.append_assoc _ _ _))
          (by rw [hf.fo0, hl1]; rfl) hl2 hn 0 (by omega)
        rw [hc'] at hl
        cases hl
        show _ = (_, checksumHex pl.blake (pl.blake payload))
        rw [hh']
        rfl

/-- **C66.** Two reviews of SIGN uploads, each opened in any state and mode of a device, with the same first line: what they ask for is the
same, or two different byte strings with the same BLAKE2b hash are contained in the data, or both are Deploys the hash of whose body is
made of the body's own first bytes and the header's hash.  (In the first case the data differ at most in their unsigned parts: the
approvals, the envelope.) -/
theorem C66_same_line (pl : Platform) (hcap : pl.cap ≤ 16384) (d1 d1' d2 d2' : Dev) (hd1 : d1.Ok pl) (hd2 : d2.Ok pl)
    (rx1 rx2 : Bytes) (pin1 pin2 : Bool) (hins1 : rx1.getD 1 0 = 2) (hins2 : rx2.getD 1 0 = 2)
    (h1 : step pl d1 (.apdu rx1 pin1) = (d1', .pending)) (h2 : step pl d2 (.apdu rx2 pin2) = (d2', .pending))
    (l : Bytes × Bytes) (c1 c2 : Nat) (hl1 : reviewItem pl d1' .tx 0 0 = .ok l c1) (hl2 : reviewItem pl d2' .tx 0 0 = .ok l c2) :
    ∃ a b : Asked, a.In pl.blake (d1.data ++ rx1.drop 5) ∧ b.In pl.blake (d2.data ++ rx2.drop 5) ∧
      (a = b ∨ a.Clash pl.blake b ∨ (a.Knot pl.blake ∧ b.Knot pl.blake)) ∧
      (step pl d1' .approve).2 = signatureReply pl d1.hdPath (pl.sha256 (a.hash pl.blake)) ∧
      (step pl d2' .approve).2 = signatureReply pl d2.hdPath (pl.sha256 (a.hash pl.blake)) := by
  obtain ⟨a, a1, a2, a3⟩ := C66_review pl hcap d1 d1' hd1 rx1 pin1 hins1 h1
  obtain ⟨b, b1, b2, b3⟩ := C66_review pl hcap d2 d2' hd2 rx2 pin2 hins2 h2
  have hab : a.hash pl.blake = b.hash pl.blake := by
    have := (a3 l c1 hl1).symm.trans (b3 l c2 hl2)
    rw [Prod.mk.injEq] at this
    exact checksumHex_inj this.2
  exact ⟨a, b, a1, b1, Asked.binding a1 b1 hab, a2, hab ▸ b2⟩

/-- **C66, digests.** Approving two reviews signs the same digest only if what they ask for is the same, or some hash function has a
collision: SHA-256 on the two transaction hashes, or BLAKE2b on the data (or the bodies are tied to their own hashes). -/
theorem C66_same_digest (pl : Platform) (hcap : pl.cap ≤ 16384) (d1 d1' d2 d2' : Dev) (hd1 : d1.Ok pl) (hd2 : d2.Ok pl)
    (rx1 rx2 : Bytes) (pin1 pin2 : Bool) (hins1 : rx1.getD 1 0 = 2) (hins2 : rx2.getD 1 0 = 2)
    (h1 : step pl d1 (.apdu rx1 pin1) = (d1', .pending)) (h2 : step pl d2 (.apdu rx2 pin2) = (d2', .pending)) :
    ∃ (a b : Asked) (x y : Bytes), a.In pl.blake (d1.data ++ rx1.drop 5) ∧ b.In pl.blake (d2.data ++ rx2.drop 5) ∧
      (step pl d1' .approve).2 = signatureReply pl d1.hdPath (pl.sha256 x) ∧
      (step pl d2' .approve).2 = signatureReply pl d2.hdPath (pl.sha256 y) ∧ x.length = 32 ∧ y.length = 32 ∧
      (pl.sha256 x = pl.sha256 y → x ≠ y ∨ a = b ∨ a.Clash pl.blake b ∨ (a.Knot pl.blake ∧ b.Knot pl.blake)) := by
  obtain ⟨a, a1, a2, -⟩ := C66_review pl hcap d1 d1' hd1 rx1 pin1 hins1 h1
  obtain ⟨b, b1, b2, -⟩ := C66_review pl hcap d2 d2' hd2 rx2 pin2 hins2 h2
  refine ⟨a, b, _, _, a1, b1, a2, b2, ?_, ?_, fun _ => ?_⟩
  · cases a <;> exact Hash.len _ _
  · cases b <;> exact Hash.len _ _
  · by_cases hab : a.hash pl.blake = b.hash pl.blake
    · exact .inr (Asked.binding a1 b1 hab)
    · exact .inl hab

/-- **C66, messages.** Two message reviews with the same line are about the same message, or there is a collision of BLAKE2b. -/
theorem C66_message (pl : Platform) (hcap : pl.cap < 65536) (d1 d1' d2 d2' : Dev) (hd1 : d1.Ok pl) (hd2 : d2.Ok pl)
    (rx1 rx2 : Bytes) (pin1 pin2 : Bool) (hins1 : rx1.getD 1 0 = 3) (hins2 : rx2.getD 1 0 = 3)
    (h1 : step pl d1 (.apdu rx1 pin1) = (d1', .pending)) (h2 : step pl d2 (.apdu rx2 pin2) = (d2', .pending))
    (l : Bytes × Bytes) (c1 c2 : Nat) (hl1 : reviewItem pl d1' .message 0 0 = .ok l c1)
    (hl2 : reviewItem pl d2' .message 0 0 = .ok l c2) :
    d1.data ++ rx1.drop 5 = d2.data ++ rx2.drop 5 ∨
      (d1.data ++ rx1.drop 5 ≠ d2.data ++ rx2.drop 5 ∧
        pl.blake (d1.data ++ rx1.drop 5) = pl.blake (d2.data ++ rx2.drop 5)) := by
  have key : ∀ d d' : Dev, d.Ok pl → ∀ rx pin, rx.getD 1 0 = 3 → step pl d (.apdu rx pin) = (d', .pending) → ∀ c,
      reviewItem pl d' .message 0 0 = .ok l c → l = (b!"Msg hash", lowerHex (pl.blake (d.data ++ rx.drop 5))) := by
    intro d d' hd rx pin hins h c hl
    obtain ⟨-, -, -, a4, -, a6, a7⟩ := message_pending hd hcap hins h
    have hb : (d'.env pl).buf = d.data ++ rx.drop 5 := by
      rw [← a4]
      show (d'.mem.drop d'.ctx.start).take d'.ctx.len = d'.mem.take d'.pos
      rw [show d'.ctx.start = 0 by rw [a7], show d'.ctx.len = d'.pos from congrArg (fun x : Dev => x.ctx.len) a7, List.drop_zero]
    change messageItem (d'.env pl) 0 0 = _ at hl
    unfold messageItem at hl
    rw [if_neg (by decide)] at hl
    cases hl
    rw [hb]
    rfl
  have := (key d1 d1' hd1 rx1 pin1 hins1 h1 c1 hl1).symm.trans (key d2 d2' hd2 rx2 pin2 hins2 h2 c2 hl2)
  rw [Prod.mk.injEq] at this
  rw [lowerHex_eq, lowerHex_eq] at this
  have := hexText_inj this.2
  by_cases h : d1.data ++ rx1.drop 5 = d2.data ++ rx2.drop 5
  · exact .inl h
  · exact .inr ⟨h, this⟩

/-! ### Concrete cases -/

/-- Two uploads that differ (in the approvals): the same first line, the same signature, and the same Deploy asked for. -/
example : outcome (0 :: sampleDeploy.tx Blake.H []) 0 0 = outcome (0 :: sampleDeploy.tx Blake.H [sampleApproval]) 0 0 ∧
    (outcome (0 :: sampleDeploy.tx Blake.H []) 0 0).answer = some .pending ∧
    (outcome (0 :: sampleDeploy.tx Blake.H []) 0 0).line =
      some (b!"Txn hash", checksumHex Blake.H (Blake.H (sampleDeploy.header Blake.H).encode)) := by
  decide +kernel

example : (Asked.deploy (sampleDeploy.header Blake.H).encode sampleDeploy.body).In Blake.H (0 :: sampleDeploy.tx Blake.H []) ∧
    (Asked.deploy (sampleDeploy.header Blake.H).encode sampleDeploy.body).In Blake.H (0 :: sampleDeploy.tx Blake.H [sampleApproval]) := by
  have key : ∀ ap, (∃ rest, 0 :: sampleDeploy.tx Blake.H ap = 0 :: ((sampleDeploy.header Blake.H).encode ++
      Blake.H (sampleDeploy.header Blake.H).encode ++ sampleDeploy.body ++ rest)) := by
    intro ap
    exact ⟨le 4 ap.length ++ ap.flatten, by unfold DeploySpec.tx; simp only [List.append_assoc]⟩
  exact ⟨⟨key _, by decide +kernel, by decide +kernel, by decide +kernel⟩, ⟨key _, by decide +kernel, by decide +kernel, by decide +kernel⟩⟩

/-- A version 1 transaction. -/
example : (outcome (1 :: sampleTransfer.tx Blake.H []) 0 0).answer = some .pending ∧
    (outcome (1 :: sampleTransfer.tx Blake.H []) 0 0).line =
      some (b!"Txn hash", checksumHex Blake.H (Blake.H sampleTransfer.encode)) := by
  decide +kernel

end Casper
