import Verif.Lib.GrowDeploy
import Verif.Lib.EndToEnd
import Verif.Props.Headers
import Verif.Props.Limits
import Verif.Props.Transfers
/-
C63: what follows the signed part of a Deploy.
C64: what follows a version 1 transaction.
-/
namespace Casper
open M

/-- Two pending reviews announce the same number of lines and show the same lines. -/
def SameLines (pl : Platform) (d1 d2 : Dev) : Prop :=
  ∃ n, reviewCount pl d1 .tx 0 = .ok n 0 ∧ reviewCount pl d2 .tx 0 = .ok n 0 ∧
    ∀ i, i < n → reviewItem pl d1 .tx i 0 = reviewItem pl d2 .tx i 0

theorem DeployAccepted.grow {e : Env} {s : DS} (h : DeployAccepted e s) {ys : Bytes} (hf : Fits (e.ext ys)) {hd : DeployHeader} (ho : hd.Ok)
    {hh : Bytes} (hl : hh.length = 32) {pay ses : ExecItem} (hp : pay.Ok) (hs : ses.Ok) {rest : Bytes}
    (hb : e.buf = hd.encode ++ hh ++ (pay.encode ++ ses.encode) ++ rest) :
    DeployAccepted (e.ext ys) s ∧ ∀ i, i < numItemsDeploy e s.dep → getItemDeploy e s.epo s.dep i 0 = getItemDeploy (e.ext ys) s.epo s.dep i 0 := by
  refine ⟨⟨readDeploy_grow hf ho hl hp hs hb _ _ h.parse, ?_, fun i hi => ?_⟩, fun i hi => ?_⟩
  · obtain ⟨t, ht⟩ := h.valid
    exact ⟨t, Grows_validateDeploy _ _ _ _ ht⟩
  · obtain ⟨kv, t, ht⟩ := h.items i hi
    exact ⟨kv, t, Grows_getItemDeploy _ _ _ _ _ _ ht⟩
  · obtain ⟨kv, t, ht⟩ := h.items i hi
    rw [ht, Grows_getItemDeploy _ _ _ _ _ _ ht]

/-- **C63.** Let a serialized Deploy be accepted: signed part (header, hash, payment, session) and whatever follows.  Followed by more
data it is accepted as well, on any device in the same mode, after any history and in any chunking; the review announces the same lines
and shows the same lines, and what is signed on approval is the same digest.  With nothing following the signed part in the first
upload, this says that approvals and other trailing bytes have no influence on the review of a Deploy whose signed part is accepted by
itself.  (Missing: Deploys whose signed part is not accepted by itself, see the counterexamples; arguments of unsupported types.) -/
theorem C63_trailing_partial (pl : Platform) (hcap : pl.cap ≤ 16384) (d1 d1' d2 : Dev) (hd1 : d1.Ok pl) (hd2 : d2.Ok pl) (hmode : d1.expert = d2.expert)
    (rx : Bytes) (pin : Bool) (hins : rx.getD 1 0 = 2) (hd : DeployHeader) (ho : hd.Ok) (hh : Bytes) (hl : hh.length = 32) (pay ses : ExecItem) (hp : pay.Ok)
    (hs : ses.Ok) (rest : Bytes) (hx : d1.data ++ rx.drop 5 = 0 :: (hd.encode ++ hh ++ (pay.encode ++ ses.encode) ++ rest))
    (h : step pl d1 (.apdu rx pin) = (d1', .pending)) (more : Bytes)
    (path : Bytes) (hlen : path.length = 20) (hpath : casperPath path) (cs : List Bytes) (last : Bytes)
    (hcs : cs.flatten ++ last = 0 :: (hd.encode ++ hh ++ (pay.encode ++ ses.encode) ++ rest ++ more)) (hfit : (cs.flatten ++ last).length ≤ pl.cap) :
    ∃ d2', run pl d2 (upload 2 path cs last) = (d2', List.replicate (cs.length + 1) (.reply [] 0x9000) ++ [.pending]) ∧
      SameLines pl d1' d2' ∧
      (step pl d1' .approve).2 = signatureReply pl d1.hdPath (pl.sha256 hh) ∧ (step pl d2' .approve).2 = signatureReply pl path (pl.sha256 hh) := by
  generalize hxs : hd.encode ++ hh ++ (pay.encode ++ ses.encode) ++ rest = xs at hx hcs
  obtain ⟨hok, hdata, hcase⟩ := sign_pending (by omega) hd1 hins h
  rw [hx] at hcase hdata
  rcases hcase with ⟨ys, s, h1, h2, rfl⟩ | ⟨ys, s, h1, -, -⟩
  swap
  · simp at h1
  simp only [List.cons.injEq, true_and] at h1
  subst h1
  have hsm : Fits ((mkEnv pl d1.expert xs).ext more) := by
    rw [hcs] at hfit
    unfold Fits mkEnv; simp only [List.length_cons, List.length_append] at hfit ⊢; omega
  obtain ⟨k1, k2⟩ := h2.grow hsm ho hl hp hs (rest := rest) hxs.symm
  have k1' : DeployAccepted (mkEnv pl d2.expert (xs ++ more)) s := by rw [← hmode]; exact k1
  obtain ⟨d0, m1, m2, m3, m4, m5⟩ := upload_deploy pl (by omega) d2 hd2 path hlen hpath cs last _ hcs hfit k1'
  obtain ⟨p, q, k, hp'⟩ := readDeploy_post _ _ h2.parse
  have hk := readDeploy_kind h2.parse
  have hfe : Fits (mkEnv pl d1.expert xs) := hsm.of_ext
  obtain ⟨v1, v2, -⟩ := hp'.formed hfe ho hl hp hs (rest := rest) hxs.symm
  refine ⟨_, m5, ⟨numItemsDeploy (mkEnv pl d1.expert xs) s.dep, reviewCount_deploy (d := d1.loaded rx) hok hdata s hk 0, ?_, fun i hi => ?_⟩, ?_, ?_⟩
  · rw [reviewCount_deploy m1 m2 s hk 0, m3, ← hmode]; rfl
  · rw [reviewItem_deploy hok hdata s hk, reviewItem_deploy m1 m2 s hk, m3, ← hmode, show (d1.loaded rx).expert = d1.expert from rfl]
    have hn := hp'.count hfe
    have hu : u8 i = i := u8_id (by omega)
    rw [hu, show numItemsDeploy (mkEnv pl d1.expert (xs ++ more)) s.dep = numItemsDeploy (mkEnv pl d1.expert xs) s.dep from rfl]
    by_cases hc : i ≥ 128 ∨ i > numItemsDeploy (mkEnv pl d1.expert xs) s.dep
    · rw [if_pos hc, if_pos hc]
    · rw [if_neg hc, if_neg hc]
      exact k2 i hi
  · exact approve_deploy (a := hd.encode) (h := hh) (c := (pay.encode ++ ses.encode) ++ rest) hok (by rw [hdata, ← hxs]; simp) hl hk v2
  · rw [approve_deploy (a := hd.encode) (h := hh) (c := (pay.encode ++ ses.encode) ++ rest ++ more) m1 (by rw [m2, ← hxs]; simp) hl hk v2, m4]

/-- What an upload leads to: the last answer, the answer to an approval, and two of the lines shown. -/
structure Outcome where
  answer : Option Out
  signed : Out
  line : Option (Bytes × Bytes)
  line' : Option (Bytes × Bytes)
  deriving DecidableEq

/-- The outcome of an upload, with the lines `i` and `j`. -/
def outcome (xs : Bytes) (i j : Nat) : Outcome :=
  let r := run samplePl (Dev.init samplePl) (sampleUpload xs)
  let item (i : Nat) := match reviewItem samplePl r.1 .tx i 0 with
    | .ok kv _ => some kv
    | _ => none
  ⟨r.2.getLast?, (step samplePl r.1 .approve).2, item i, item j⟩

/-- **C63 fails.** A Deploy that runs code given in it, followed by the count 0 of approvals and followed by a text "delegate": both are
accepted, the same digest is signed, but the first review says that a contract is executed and which one, the second shows question marks
there. -/
theorem C63_contract_false :
    outcome (0 :: (sampleModule.signedPart Blake.H ++ le 4 0)) 5 6 =
      ⟨some .pending, signatureReply samplePl (samplePath 0) (samplePl.sha256 (Blake.H (sampleModule.header Blake.H).encode)),
        some (b!"Execution", b!"contract"), some (b!"Cntrct hash", checksumHex Blake.H (Blake.H b!"code"))⟩ ∧
    outcome (0 :: (sampleModule.signedPart Blake.H ++ (le 4 8 ++ b!"delegate"))) 5 6 =
      ⟨some .pending, signatureReply samplePl (samplePath 0) (samplePl.sha256 (Blake.H (sampleModule.header Blake.H).encode)),
        some (b!"?", b!"?"), some (b!"?", b!"?")⟩ :=
  ⟨by decide +kernel, by decide +kernel⟩

/-- A transfer whose target is said to be a public key but has one byte only; it is the last argument. -/
def sampleShort : DeploySpec := { sampleDeploy with session := .transfer [⟨b!"amount", bigNum 5 500000000000, .u512⟩,
  ⟨b!"id", 1 :: le 8 7, .option .u64⟩, ⟨b!"target", [1], .publicKey⟩] }

/-- **C63 fails.** The target of a transfer is shown from bytes that are not signed: 27 of the bytes shown are those behind the count of
approvals, and differ between two uploads for which the same digest is signed. -/
theorem C63_target_false :
    outcome (0 :: (sampleShort.signedPart Blake.H ++ (le 4 0 ++ List.replicate 27 0x11))) 5 6 =
      ⟨some .pending, signatureReply samplePl (samplePath 0) (samplePl.sha256 (Blake.H (sampleShort.header Blake.H).encode)),
        some (b!"Target", b!"01" ++ checksumHex Blake.H (22 :: le 4 0 ++ List.replicate 27 0x11)), some (b!"Amount", motesOf 500000000000)⟩ ∧
    outcome (0 :: (sampleShort.signedPart Blake.H ++ (le 4 0 ++ List.replicate 27 0x22))) 5 6 =
      ⟨some .pending, signatureReply samplePl (samplePath 0) (samplePl.sha256 (Blake.H (sampleShort.header Blake.H).encode)),
        some (b!"Target", b!"01" ++ checksumHex Blake.H (22 :: le 4 0 ++ List.replicate 27 0x22)), some (b!"Amount", motesOf 500000000000)⟩ :=
  ⟨by decide +kernel, by decide +kernel⟩

/-- The hypotheses of `C63_trailing_partial` can be met: a transfer with nothing behind the signed part, and the same followed by one
approval. -/
example : (step samplePl (run samplePl (Dev.init samplePl) ((sampleUpload (0 :: sampleDeploy.signedPart Blake.H)).take 3)).1
      (.apdu (apdu 2 2 ((0 :: sampleDeploy.signedPart Blake.H).drop 500)) true)).2 = .pending ∧
    (run samplePl (Dev.init samplePl) ((sampleUpload (0 :: sampleDeploy.signedPart Blake.H)).take 3)).1.data ++
      (apdu 2 2 ((0 :: sampleDeploy.signedPart Blake.H).drop 500)).drop 5 = 0 :: ((sampleDeploy.header Blake.H).encode ++
        Blake.H (sampleDeploy.header Blake.H).encode ++ (samplePay.encode ++ sampleDeploy.session.encode) ++ []) ∧
    [(0 :: sampleDeploy.tx Blake.H [sampleApproval]).take 200].flatten ++ (0 :: sampleDeploy.tx Blake.H [sampleApproval]).drop 200 =
      0 :: ((sampleDeploy.header Blake.H).encode ++ Blake.H (sampleDeploy.header Blake.H).encode ++ (samplePay.encode ++ sampleDeploy.session.encode) ++ [] ++
        (le 4 1 ++ sampleApproval)) := by decide +kernel

/-- Accepted version 1 data followed by more data. -/
theorem V1Accepted.grow {e : Env} {s : VS} (h : V1Accepted e s) {ys : Bytes} (hs : Small e)
    (hq : ∀ i kv t, i < 8 → i < s.v.numItems → getItemV1 e s.v i 0 = .ok kv t → kv.2 = b!"?" → kv.1 = b!"?") :
    V1Accepted (e.ext ys) s ∧ ∀ i, i < s.v.numItems → getItemV1 e s.v i 0 = getItemV1 (e.ext ys) s.v i 0 := by
  obtain ⟨fin, k, ⟨-, -, -, _, -, -, -, -, -, hpm⟩, hb, -⟩ := (readV1_post hs _ _ h.parse).body
  have hb : s.v.epType = 12 → ∃ a t, getData e b!"source" s.v.numArgs (u16 s.v.argsOff) = .ok a t := by
    intro h12
    obtain ⟨z, hz⟩ := hb.args
    obtain ⟨o, o', hsan⟩ := hb.sanity
    unfold checkSanity at hsan
    split at hsan
    · cases hsan
    rw [h12] at hsan
    simp only [requiredArgs] at hsan
    rw [if_neg (by decide), if_neg (by decide), if_neg (by decide), if_neg (by decide), if_neg (by decide), if_neg (by decide), if_neg (by decide),
      if_neg (by decide), if_neg (by decide), if_pos trivial] at hsan
    unfold checkRequired at hsan
    obtain ⟨_, u, hu, hsan⟩ := bind_eq_ok.1 hsan
    cases hu
    obtain ⟨a, w, hw, -⟩ := bind_eq_ok.1 hsan
    have : s.v.argsOff < 65536 := by rw [hz.1]; unfold u8; omega
    rw [u16_id this]
    exact ⟨a, w, hw⟩
  have item : ∀ i kv t, i < s.v.numItems → getItemV1 e s.v i 0 = .ok kv t → getItemV1 (e.ext ys) s.v i 0 = .ok kv t :=
    fun i kv t hi ht => getItemV1_ext hb ht fun h6 => hq i kv t (by omega) hi ht
  refine ⟨⟨Grows_readV1 _ _ _ h.parse, ?_, fun i hi => ?_⟩, fun i hi => ?_⟩
  · obtain ⟨t, ht⟩ := h.valid
    exact ⟨t, Grows_validateV1 _ _ _ _ ht⟩
  · obtain ⟨kv, t, ht⟩ := h.items i hi
    exact ⟨kv, t, item i kv t hi ht⟩
  · obtain ⟨kv, t, ht⟩ := h.items i hi
    rw [ht, item i kv t hi ht]

/-- **C64.** Let version 1 transaction data be accepted, no labelled line of the review being a mere "?".  Followed by more data they are
accepted as well, on any device in the same mode, after any history and in any chunking; the review announces the same lines and shows
the same lines, and what is signed on approval is the same digest. -/
theorem C64_appended_partial (pl : Platform) (hcap : pl.cap ≤ 16384) (d1 d1' d2 : Dev) (hd1 : d1.Ok pl) (hd2 : d2.Ok pl) (hmode : d1.expert = d2.expert)
    (rx : Bytes) (pin : Bool) (hins : rx.getD 1 0 = 2) (xs : Bytes) (hx : d1.data ++ rx.drop 5 = 1 :: xs)
    (h : step pl d1 (.apdu rx pin) = (d1', .pending)) (hq : ∀ i k c, reviewItem pl d1' .tx i 0 = .ok (k, b!"?") c → k = b!"?") (more : Bytes)
    (path : Bytes) (hlen : path.length = 20) (hpath : casperPath path) (cs : List Bytes) (last : Bytes)
    (hcs : cs.flatten ++ last = 1 :: (xs ++ more)) (hfit : (cs.flatten ++ last).length ≤ pl.cap) :
    ∃ d2' hash, run pl d2 (upload 2 path cs last) = (d2', List.replicate (cs.length + 1) (.reply [] 0x9000) ++ [.pending]) ∧
      SameLines pl d1' d2' ∧
      (step pl d1' .approve).2 = signatureReply pl d1.hdPath (pl.sha256 hash) ∧ (step pl d2' .approve).2 = signatureReply pl path (pl.sha256 hash) := by
  obtain ⟨hok, hdata, hcase⟩ := sign_pending (by omega) hd1 hins h
  rw [hx] at hcase hdata
  rcases hcase with ⟨ys, s, h1, -, -⟩ | ⟨ys, s, h1, h2, rfl⟩
  · simp at h1
  simp only [List.cons.injEq, true_and] at h1
  subst h1
  have hsm : Small (mkEnv pl d1.expert xs) := small_data hcap hok hdata d1.expert
  have hn : s.v.numItems < 256 := by
    obtain ⟨fin, k, -, -, hn⟩ := (readV1_post hsm _ _ h2.parse).body
    rw [hn]; unfold u8; omega
  obtain ⟨k1, k2⟩ := h2.grow (ys := more) hsm (by
    intro i kv t h8 hi ht h3
    refine hq i kv.1 t ?_
    rw [reviewItem_v1 hok hdata s, u8_id (by omega), if_neg (by omega), show (d1.loaded rx).expert = d1.expert from rfl, ht, ← h3])
  have k1' : V1Accepted (mkEnv pl d2.expert (xs ++ more)) s := by rw [← hmode]; exact k1
  obtain ⟨d0, m1, m2, m3, m4, m5⟩ := upload_v1 pl (by omega) d2 hd2 path hlen hpath cs last _ hcs hfit k1'
  obtain ⟨hfa, env, hash, payload, rest, b1, b2, b3, -⟩ := h2.split hsm
  have b1' : xs = env ++ hash ++ payload ++ rest := b1
  have hsz : s.v.md.size + s.v.md.fo 0 = env.length := by rw [hfa.fo0, b2]; rfl
  refine ⟨_, hash, m5, ⟨s.v.numItems, reviewCount_v1 (d := d1.loaded rx) s 0, reviewCount_v1 s 0, fun i hi => ?_⟩, ?_, ?_⟩
  · rw [reviewItem_v1 hok hdata s, reviewItem_v1 m1 m2 s, m3, ← hmode, show (d1.loaded rx).expert = d1.expert from rfl, u8_id (by omega)]
    by_cases hc : i ≥ 128 ∨ i > s.v.numItems
    · rw [if_pos hc, if_pos hc]
    · rw [if_neg hc, if_neg hc]
      exact k2 i hi
  · exact approve_v1 (a := env) (h := hash) (c := payload ++ rest) hok (by rw [hdata, b1']; simp) b3 hsz
  · rw [approve_v1 (a := env) (h := hash) (c := payload ++ rest ++ more) m1 (by rw [m2, b1']; simp) b3 hsz, m4]

/-- A transfer of 10^17 motes whose chain name has 268 bytes.  The arguments start at offset 489, which is 233 mod 256; there, in the chain
name, is the start of an argument "x" whose value is said to reach to the end of the transaction. -/
def jumpTx : TxPayload := { sampleTransfer with
  chain := b!"casper" ++ List.replicate 50 0 ++ (pfx b!"x" ++ le 4 420) ++ List.replicate 203 0
  args := .named [⟨b!"amount", bigNum 8 (10 ^ 17), .u512⟩, ⟨b!"target", List.replicate 32 0x66, .byteArray 32⟩,
    ⟨b!"id", 1 :: le 8 7, .option .u64⟩, ⟨b!"x", [], .unit⟩] }

/-- Bytes to follow it: the type of "x", and arguments. -/
def jumpTo (amount : Nat) (b : UInt8) : Bytes := 9 :: encodeArgs [⟨b!"amount", bigNum 1 amount, .u512⟩,
  ⟨b!"target", List.replicate 32 b, .byteArray 32⟩, ⟨b!"id", 1 :: le 8 7, .option .u64⟩]

theorem jumpTx_ok : jumpTx.Ok := { sampleTransfer_ok with
  args := by
    intro a ha
    simp only [List.mem_cons, List.not_mem_nil, or_false] at ha
    rcases ha with rfl | rfl | rfl | rfl <;> exact ⟨by decide, by decide, by decide⟩ }

/-- **C64 fails** for bytes behind the signed part in general: a well-formed transfer of 10^17 motes, followed by bytes that are not signed.
Amount and target are shown from the latter, for two continuations differently, though the same digest is signed. -/
theorem C64_unsigned_false : jumpTx.Ok ∧
    outcome (1 :: (jumpTx.tx Blake.H [] ++ jumpTo 5 0x11)) 4 5 =
      ⟨some .pending, signatureReply samplePl (samplePath 0) (samplePl.sha256 (Blake.H jumpTx.encode)),
        some (b!"Target", checksumHex Blake.H (List.replicate 32 0x11)), some (b!"Amount", motesOf 5)⟩ ∧
    outcome (1 :: (jumpTx.tx Blake.H [] ++ jumpTo 7 0x22)) 4 5 =
      ⟨some .pending, signatureReply samplePl (samplePath 0) (samplePl.sha256 (Blake.H jumpTx.encode)),
        some (b!"Target", checksumHex Blake.H (List.replicate 32 0x22)), some (b!"Amount", motesOf 7)⟩ :=
  ⟨jumpTx_ok, by decide +kernel, by decide +kernel⟩

/-- Lines of the sample transfer. -/
theorem sampleTransfer_lines : ∀ i, i < 128 → ¬ ∃ k c, (reviewItem samplePl (run samplePl (Dev.init samplePl)
    (sampleUpload (1 :: sampleTransfer.tx Blake.H []))).1 .tx i 0) = .ok (k, b!"?") c := by
  have key : ∀ i, i < 128 → (match reviewItem samplePl (run samplePl (Dev.init samplePl)
    (sampleUpload (1 :: sampleTransfer.tx Blake.H []))).1 .tx i 0 with
      | .ok kv _ => kv.2 == b!"?"
      | _ => false) = false := by decide +kernel
  rintro i hi ⟨k, c, h⟩
  have := key i hi
  rw [h] at this
  cases this

/-- The hypotheses of `C64_appended_partial` can be met: a transfer followed by 9 bytes. -/
example : (step samplePl (run samplePl (Dev.init samplePl) ((sampleUpload (1 :: sampleTransfer.tx Blake.H [])).take 3)).1
      (.apdu (apdu 2 2 ((1 :: sampleTransfer.tx Blake.H []).drop 500)) true)).2 = .pending ∧
    (run samplePl (Dev.init samplePl) ((sampleUpload (1 :: sampleTransfer.tx Blake.H [])).take 3)).1.data ++
      (apdu 2 2 ((1 :: sampleTransfer.tx Blake.H []).drop 500)).drop 5 = 1 :: sampleTransfer.tx Blake.H [] ∧
    [(1 :: (sampleTransfer.tx Blake.H [] ++ List.replicate 9 0)).take 200].flatten ++ (1 :: (sampleTransfer.tx Blake.H [] ++ List.replicate 9 0)).drop 200 =
      1 :: (sampleTransfer.tx Blake.H [] ++ List.replicate 9 0) := by
  decide +kernel

end Casper
