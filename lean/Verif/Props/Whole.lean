import Verif.Lib.Unique
import Verif.Props.Binding
import Verif.Props.Headers
import Verif.Props.Kinds
/-
C71: the hash shown and signed determines the whole transaction, field by field.
-/
namespace Casper
open M

/-- What is shown first and what is signed, for a serialized transaction and anything behind it. -/
theorem Txn.asked (pl : Platform) (hcap : pl.cap ≤ 16384) (d d' : Dev) (hd : d.Ok pl) (rx : Bytes) (pin : Bool) (hins : rx.getD 1 0 = 2)
    (a : Txn) (ha : a.Fit) (ap : List Bytes) (rest : Bytes) (hx : d.data ++ rx.drop 5 = a.data pl.blake ap ++ rest)
    (h : step pl d (.apdu rx pin) = (d', .pending)) :
    (step pl d' .approve).2 = signatureReply pl d.hdPath (pl.sha256 (a.hash pl.blake)) ∧
      ∀ l c, reviewItem pl d' .tx 0 0 = .ok l c → l = (b!"Txn hash", checksumHex pl.blake (a.hash pl.blake)) := by
  obtain ⟨hok, hdata, hcase⟩ := sign_pending (by omega) hd hins h
  rw [hx] at hcase hdata
  cases a with
  | deploy x =>
    rcases hcase with ⟨xs, s, h1, h2, h3⟩ | ⟨ys, s, h1, -, -⟩
    swap
    · simp [Txn.data] at h1
    simp only [Txn.data, List.cons_append, List.cons.injEq, true_and] at h1
    replace hdata : (d.loaded rx).data = 0 :: xs := by rw [hdata, ← h1]; rfl
    have hsm : Small (mkEnv pl d.expert xs) := small_data hcap hok hdata d.expert
    obtain ⟨p, q, k, hdr, hash, pay, ses, r, hp, b1, b2, b3, b4, b5, b6, b7⟩ := h2.split hsm
    have ho : (x.header pl.blake).Ok := ⟨ha.account, ha.timestamp, ha.ttl, ha.gasPrice, pl.blake.len _, ha.deps⟩
    have hat : At (mkEnv pl d.expert xs).buf 0 (x.header pl.blake).encode :=
      ⟨[], pl.blake (x.header pl.blake).encode ++ x.body ++ (le 4 ap.length ++ ap.flatten) ++ rest, by
        show xs = _
        rw [← h1]
        simp [DeploySpec.tx], rfl⟩
    have hv := hp.header.view hsm.to_fits ho hat
    obtain ⟨-, -, hlen⟩ := header_small ho hsm.to_fits hat
    rw [hv, hlen] at b2
    have hhdr : hdr = (x.header pl.blake).encode := by
      refine At.unique (off := 0) ⟨[], hash ++ (pay ++ ses) ++ r, ?_, rfl⟩ hat b2
      rw [b1]
      simp
    have b6' : pl.blake hdr = hash := b6
    have hash' : Txn.hash pl.blake (.deploy x) = hash := by rw [← b6', hhdr]; rfl
    have hb : xs = hdr ++ hash ++ ((pay ++ ses) ++ r) := by rw [← List.append_assoc]; exact b1
    have hb2 : headerLength s.dep.header = hdr.length := by rw [hv, hlen, hhdr]
    refine ⟨?_, fun l c hl => ?_⟩
    · rw [h3, hash']
      exact approve_deploy hok (a := hdr) (h := hash) (c := (pay ++ ses) ++ r) (by rw [hdata, ← hb]) b3 (readDeploy_kind h2.parse) hb2
    · have hn := hp.count hsm.to_fits
      have hle := congrArg List.length hb
      simp only [List.length_append] at hle
      rw [h3, reviewItem_deploy hok hdata s (readDeploy_kind h2.parse), show u8 0 = 0 from rfl,
        show (d.loaded rx).expert = d.expert from rfl, if_neg (by omega)] at hl
      unfold getItemDeploy at hl
      rw [if_neg (by omega), if_pos rfl] at hl
      have h4 : seek (headerLength s.dep.header) 0 = .ok () (headerLength s.dep.header) := by
        show Res.ok () (u16 (headerLength s.dep.header)) = _
        have : xs.length ≤ 16384 := hsm
        rw [u16_id (by omega)]
      simp only [bind_run, h4, Res.bind_ok] at hl
      rw [printBytes_hash (e := mkEnv pl d.expert xs) (xs := hash) ⟨hdr, (pay ++ ses) ++ r, hb, hb2.symm⟩ b3] at hl
      cases hl
      rw [hash']
      rfl
  | v1 p =>
    rcases hcase with ⟨ys, s, h1, -, -⟩ | ⟨xs, s, h1, h2, h3⟩
    · simp [Txn.data] at h1
    simp only [Txn.data, List.cons_append, List.cons.injEq, true_and] at h1
    replace hdata : (d.loaded rx).data = 1 :: xs := by rw [hdata, ← h1]; rfl
    have hsm : Small (mkEnv pl d.expert xs) := small_data hcap hok hdata d.expert
    have hxl : xs.length ≤ 16384 := hsm
    obtain ⟨hf, env, hash, payload, r, hb, hl1, hl2, hl3, hh⟩ := h2.split hsm
    have hxs : xs = env ++ hash ++ payload ++ r := hb
    have hh' : pl.blake payload = hash := hh
    -- the outer table
    have hat : At xs 0 (p.tx pl.blake ap) := ⟨[], rest, by rw [← h1]; rfl, rfl⟩
    have hcount : ∀ {fs : List Bytes} {off : Nat} {m : Meta}, Table (mkEnv pl d.expert xs) off m → At xs off (callTable fs) → fs.length < 256 →
        m.numFields = fs.length ∧ m.fieldsSize = fs.flatten.length := by
      intro fs off m ht hc hlt
      have hcl := hc.le
      unfold callTable at hc hcl
      simp only [At.append, List.length_append, le_length, entries_length] at hc hcl
      obtain ⟨⟨⟨c1, -⟩, c2⟩, -⟩ := hc
      obtain ⟨k, k1, k2⟩ := ht.count
      obtain ⟨j, j1, j2⟩ := ht.fields
      have e1 : le 4 k = le 4 fs.length := k1.unique c1 (by simp)
      have hk : m.numFields = fs.length := by
        have h0 := congrArg (fun l => l.headD 0) e1
        have h1 : UInt8.ofNat (k % 256) = UInt8.ofNat (fs.length % 256) := h0
        have := congrArg UInt8.toNat h1
        rw [UInt8.toNat_ofNat', UInt8.toNat_ofNat'] at this
        unfold u8 at k2
        omega
      refine ⟨hk, ?_⟩
      rw [hk] at j1
      have e2 : le 4 j = le 4 fs.flatten.length := j1.unique (by rw [show off + 4 + 6 * fs.length = off + (4 + 6 * fs.length) by omega]; exact c2) (by simp)
      have hj : j % 65536 = fs.flatten.length := by
        have h0 := congrArg (fun l => (l.getD 0 0, l.getD 1 0)) e2
        have h0 : (UInt8.ofNat (j % 256), UInt8.ofNat (j / 256 % 256)) =
          (UInt8.ofNat (fs.flatten.length % 256), UInt8.ofNat (fs.flatten.length / 256 % 256)) := h0
        rw [Prod.mk.injEq] at h0
        have h5 := congrArg UInt8.toNat h0.1
        have h6 := congrArg UInt8.toNat h0.2
        rw [UInt8.toNat_ofNat', UInt8.toNat_ofNat'] at h5 h6
        omega
      rw [j2]
      exact hj
    have hH : (pl.blake p.encode).length = 32 := pl.blake.len _
    have c1 := hcount hf.table hat (by simp)
    have hsz : s.v.md.size = 26 := by rw [hf.table.size, c1.1]; rfl
    have hflat : At xs 26 (pl.blake p.encode ++ p.encode) := by
      unfold TxPayload.tx callTable at hat
      have h7 := (At.append.1 hat).2
      simp only [List.length_append, le_length, entries_length, List.flatten_cons] at h7
      rw [← List.append_assoc] at h7
      exact (At.append.1 h7).1
    have hpat := (At.append.1 hflat).2
    rw [hH] at hpat
    have hpt := hf.ptable
    rw [hsz] at hpt
    have c2 := hcount hpt hpat (by simp)
    have hpay : payload = p.encode := by
      refine At.unique (off := 26 + 32) ⟨env ++ hash, r, hxs, by rw [List.length_append, hl1, hl2, hsz]⟩ hpat ?_
      rw [hl3, hpt.size, c2.1, c2.2]
      unfold TxPayload.encode callTable
      simp only [List.length_append, le_length, entries_length, List.length_cons, List.length_nil]
    have hash' : Txn.hash pl.blake (.v1 p) = hash := by rw [← hh', hpay]; rfl
    refine ⟨?_, fun l c hl => ?_⟩
    · rw [h3, hash']
      refine approve_v1 hok (a := env) (h := hash) (c := payload ++ r) (by rw [hdata, hxs]; simp) hl2 ?_
      rw [hf.fo0, hl1]; rfl
    · rw [h3, reviewItem_v1 hok hdata, show (d.loaded rx).expert = d.expert from rfl, show u8 0 = 0 from rfl] at hl
      rcases Nat.eq_zero_or_pos s.v.numItems with hn | hn
      · rw [if_neg (by omega)] at hl
        unfold getItemV1 at hl
        rw [if_pos (by omega)] at hl
        cases hl
      · rw [if_neg (by omega)] at hl
        obtain ⟨c', hc'⟩ := getItemV1_hash (e := mkEnv pl d.expert xs) (hxs.trans (List.append_assoc _ _ _))
          (by rw [hf.fo0, hl1]; rfl) hl2 hn 0 (by omega)
        rw [hc'] at hl
        cases hl
        rw [hash']
        rfl

/-- Two different byte strings, one hashed for each transaction, with the same hash. -/
def Txn.Collide (H : Hash) (a b : Txn) : Prop := ∃ x ∈ a.hashed H, ∃ y ∈ b.hashed H, x ≠ y ∧ H x = H y

/-- Transactions with the same hash are the same, or show a collision. -/
theorem Txn.binding {H : Hash} {a b : Txn} (ha : a.Fit) (hb : b.Fit) (la : ∀ x ∈ a.hashed H, x.length < 2 ^ 32) (lb : ∀ x ∈ b.hashed H, x.length < 2 ^ 32)
    (h : a.hash H = b.hash H) : a = b ∨ a.Collide H b := by
  cases a with
  | deploy x =>
    cases b with
    | deploy y =>
      by_cases h1 : (x.header H).encode = (y.header H).encode
      · by_cases h2 : x.body = y.body
        · left
          have h3 := DeployHeader.encode_inj ⟨ha.account, ha.timestamp, ha.ttl, ha.gasPrice, H.len _, ha.deps⟩
            ⟨hb.account, hb.timestamp, hb.ttl, hb.gasPrice, H.len _, hb.deps⟩ (la _ (by simp [Txn.hashed])) (lb _ (by simp [Txn.hashed])) h1
          obtain ⟨h4, h5⟩ := DeploySpec.body_inj ha hb (la _ (by simp [Txn.hashed])) (lb _ (by simp [Txn.hashed])) h2
          cases x; cases y
          simp only [DeploySpec.header, DeployHeader.mk.injEq] at h3 h4 h5
          obtain ⟨e1, e2, e3, e4, -, e5, e6⟩ := h3
          rw [e1, e2, e3, e4, e5, e6, h4, h5]
        · refine .inr ⟨x.body, by simp [Txn.hashed], y.body, by simp [Txn.hashed], h2, ?_⟩
          exact congrArg DeployHeader.bodyHash (DeployHeader.encode_inj (a := x.header H) (b := y.header H)
            ⟨ha.account, ha.timestamp, ha.ttl, ha.gasPrice, H.len _, ha.deps⟩
            ⟨hb.account, hb.timestamp, hb.ttl, hb.gasPrice, H.len _, hb.deps⟩ (la _ (by simp [Txn.hashed])) (lb _ (by simp [Txn.hashed])) h1)
      · exact .inr ⟨_, by simp [Txn.hashed], _, by simp [Txn.hashed], h1, h⟩
    | v1 q =>
      refine .inr ⟨_, by simp [Txn.hashed], _, by simp [Txn.hashed], ?_, h⟩
      intro h1
      have h2 : (x.header H).encode.head? = some 6 := by rw [h1]; rfl
      unfold DeployHeader.encode DeploySpec.header at h2
      cases hx : x.account <;> simp [hx, PubKey.encode] at h2
  | v1 p =>
    cases b with
    | deploy y =>
      refine .inr ⟨_, by simp [Txn.hashed], _, by simp [Txn.hashed], ?_, h⟩
      intro h1
      have h2 : (y.header H).encode.head? = some 6 := by rw [← h1]; rfl
      unfold DeployHeader.encode DeploySpec.header at h2
      cases hy : y.account <;> simp [hy, PubKey.encode] at h2
    | v1 q =>
      by_cases h1 : p.encode = q.encode
      · rw [TxPayload.encode_inj ha hb h1 (la _ (by simp [Txn.hashed]))]
        exact .inl rfl
      · exact .inr ⟨_, by simp [Txn.hashed], _, by simp [Txn.hashed], h1, h⟩

theorem Txn.hashed_le {H : Hash} {a : Txn} {ap : List Bytes} {x : Bytes} (hx : x ∈ a.hashed H) : x.length ≤ (a.data H ap).length := by
  cases a with
  | deploy y =>
    simp only [Txn.hashed, List.mem_cons, List.not_mem_nil, or_false] at hx
    rcases hx with rfl | rfl <;> simp only [Txn.data, DeploySpec.tx, List.length_cons, List.length_append] <;> omega
  | v1 p =>
    simp only [Txn.hashed, List.mem_singleton] at hx
    subst hx
    have := callTable_field (fs := [H p.encode, p.encode, le 4 ap.length ++ ap.flatten]) (f := p.encode) (by simp)
    simp only [Txn.data, TxPayload.tx, List.length_cons]
    omega

theorem asked_small {pl : Platform} (hcap : pl.cap ≤ 16384) {d d' : Dev} (hd : d.Ok pl) {rx : Bytes} {pin : Bool} (hins : rx.getD 1 0 = 2)
    (h : step pl d (.apdu rx pin) = (d', .pending)) : (d.data ++ rx.drop 5).length < 2 ^ 32 := by
  obtain ⟨hok, hdata, -⟩ := sign_pending (by omega) hd hins h
  rw [← hdata]
  have : (d.loaded rx).data.length ≤ pl.cap := by
    have h1 := hok.1
    have h2 : (d.loaded rx).data.length ≤ (d.loaded rx).mem.length := by
      show (List.take _ _).length ≤ _
      rw [List.length_take]; omega
    omega
  omega

/-- **C71.** Two reviews of SIGN uploads, each opened in any state and mode of a device, of serialized transactions, of any format, with any approvals and anything
behind them: if the first lines are the same then the transactions are the same, in every field, or two different byte strings with the same BLAKE2b hash are
among those that were hashed for them. -/
theorem C71_line (pl : Platform) (hcap : pl.cap ≤ 16384) (d1 d1' d2 d2' : Dev) (hd1 : d1.Ok pl) (hd2 : d2.Ok pl)
    (rx1 rx2 : Bytes) (pin1 pin2 : Bool) (hins1 : rx1.getD 1 0 = 2) (hins2 : rx2.getD 1 0 = 2)
    (a b : Txn) (ha : a.Fit) (hb : b.Fit) (ap1 ap2 : List Bytes) (rest1 rest2 : Bytes)
    (hx1 : d1.data ++ rx1.drop 5 = a.data pl.blake ap1 ++ rest1) (hx2 : d2.data ++ rx2.drop 5 = b.data pl.blake ap2 ++ rest2)
    (h1 : step pl d1 (.apdu rx1 pin1) = (d1', .pending)) (h2 : step pl d2 (.apdu rx2 pin2) = (d2', .pending))
    (l : Bytes × Bytes) (c1 c2 : Nat) (hl1 : reviewItem pl d1' .tx 0 0 = .ok l c1) (hl2 : reviewItem pl d2' .tx 0 0 = .ok l c2) :
    a = b ∨ a.Collide pl.blake b := by
  have s1 := asked_small hcap hd1 hins1 h1
  have s2 := asked_small hcap hd2 hins2 h2
  rw [hx1, List.length_append] at s1
  rw [hx2, List.length_append] at s2
  obtain ⟨-, k1⟩ := Txn.asked pl hcap d1 d1' hd1 rx1 pin1 hins1 a ha ap1 rest1 hx1 h1
  obtain ⟨-, k2⟩ := Txn.asked pl hcap d2 d2' hd2 rx2 pin2 hins2 b hb ap2 rest2 hx2 h2
  have := (k1 l c1 hl1).symm.trans (k2 l c2 hl2)
  rw [Prod.mk.injEq] at this
  refine Txn.binding ha hb (fun x hx => ?_) (fun x hx => ?_) (checksumHex_inj this.2)
  · have := Txn.hashed_le (ap := ap1) hx
    omega
  · have := Txn.hashed_le (ap := ap2) hx
    omega

/-- **C71, digests.** Approving signs one digest for each of two transactions; if these are the same then the transactions are the same, in every field, or SHA-256 or
BLAKE2b has a collision, among the byte strings that were hashed. -/
theorem C71_digest (pl : Platform) (hcap : pl.cap ≤ 16384) (d1 d1' d2 d2' : Dev) (hd1 : d1.Ok pl) (hd2 : d2.Ok pl)
    (rx1 rx2 : Bytes) (pin1 pin2 : Bool) (hins1 : rx1.getD 1 0 = 2) (hins2 : rx2.getD 1 0 = 2)
    (a b : Txn) (ha : a.Fit) (hb : b.Fit) (ap1 ap2 : List Bytes) (rest1 rest2 : Bytes)
    (hx1 : d1.data ++ rx1.drop 5 = a.data pl.blake ap1 ++ rest1) (hx2 : d2.data ++ rx2.drop 5 = b.data pl.blake ap2 ++ rest2)
    (h1 : step pl d1 (.apdu rx1 pin1) = (d1', .pending)) (h2 : step pl d2 (.apdu rx2 pin2) = (d2', .pending)) :
    (step pl d1' .approve).2 = signatureReply pl d1.hdPath (pl.sha256 (a.hash pl.blake)) ∧
      (step pl d2' .approve).2 = signatureReply pl d2.hdPath (pl.sha256 (b.hash pl.blake)) ∧
      (pl.sha256 (a.hash pl.blake) = pl.sha256 (b.hash pl.blake) → a = b ∨ a.hash pl.blake ≠ b.hash pl.blake ∨ a.Collide pl.blake b) := by
  have s1 := asked_small hcap hd1 hins1 h1
  have s2 := asked_small hcap hd2 hins2 h2
  rw [hx1, List.length_append] at s1
  rw [hx2, List.length_append] at s2
  obtain ⟨k1, -⟩ := Txn.asked pl hcap d1 d1' hd1 rx1 pin1 hins1 a ha ap1 rest1 hx1 h1
  obtain ⟨k2, -⟩ := Txn.asked pl hcap d2 d2' hd2 rx2 pin2 hins2 b hb ap2 rest2 hx2 h2
  refine ⟨k1, k2, fun _ => ?_⟩
  by_cases h : a.hash pl.blake = b.hash pl.blake
  · rcases Txn.binding ha hb (fun x hx => lt_of_le_of_lt (Txn.hashed_le (ap := ap1) hx) (by omega))
      (fun x hx => lt_of_le_of_lt (Txn.hashed_le (ap := ap2) hx) (by omega)) h with h | h
    · exact .inl h
    · exact .inr (.inr h)
  · exact .inr (.inl h)

/-! ### Cases -/

theorem sampleDeploy_fit : sampleDeploy.Fit where
  account := rfl
  timestamp := by decide
  ttl := by decide
  gasPrice := by decide
  deps := sampleDeploy_ok.deps
  payment := ⟨trivial, (by intro v h; cases h), (by intro a ha; simp only [sampleDeploy, samplePay, ExecItem.args, List.mem_singleton] at ha; subst ha; trivial)⟩
  session := ⟨trivial, (by intro v h; cases h), (by
    intro a ha
    simp only [sampleDeploy, ExecItem.args, sampleTransferArgs, List.mem_cons, List.not_mem_nil, or_false] at ha
    rcases ha with rfl | rfl | rfl <;> first | trivial | exact (show 32 < 2 ^ 32 by decide))⟩

theorem sampleTransfer_fit : sampleTransfer.Fit where
  initiator := rfl
  timestamp := by decide
  ttl := by decide
  pricing := show 1 < 2 ^ 8 ∧ 0 < 2 ^ 8 by decide
  args := by
    intro a ha
    simp only [List.mem_cons, List.not_mem_nil, or_false] at ha
    rcases ha with rfl | rfl | rfl <;> first | trivial | exact (show 32 < 2 ^ 32 by decide)
  target := trivial
  entry := show 2 < 2 ^ 8 by decide

/-- The hypotheses can be met, for both formats: the review of the Deploy, without and with an approval, in normal and in expert mode, starts with the same line. -/
example : (Txn.deploy sampleDeploy).Fit ∧ (Txn.v1 sampleTransfer).Fit ∧
    (run samplePl (Dev.init samplePl) (upload 2 (samplePath 0) [] ((Txn.deploy sampleDeploy).data Blake.H []))).2.getLast? = some .pending ∧
    (run samplePl { Dev.init samplePl with expert := true } (upload 2 (samplePath 0) [] ((Txn.deploy sampleDeploy).data Blake.H [sampleApproval] ++ [1, 2]))).2.getLast? = some .pending ∧
    (run samplePl (Dev.init samplePl) (upload 2 (samplePath 0) [] ((Txn.v1 sampleTransfer).data Blake.H [sampleApproval] ))).2.getLast? = some .pending ∧
    (reviewItem samplePl (run samplePl (Dev.init samplePl) (upload 2 (samplePath 0) [] ((Txn.deploy sampleDeploy).data Blake.H []))).1 .tx 0 0).val =
      (reviewItem samplePl (run samplePl { Dev.init samplePl with expert := true } (upload 2 (samplePath 0) []
        ((Txn.deploy sampleDeploy).data Blake.H [sampleApproval] ++ [1, 2]))).1 .tx 0 0).val :=
  ⟨sampleDeploy_fit, sampleTransfer_fit, by decide +kernel, by decide +kernel, by decide +kernel, by decide +kernel⟩

end Casper
