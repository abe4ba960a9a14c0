import Verif.Lib.HiddenAuction
import Verif.Props.HiddenCode
/-
Deploys that run code and name an operation: operations announced without a word about what they are (C74).
-/
namespace Casper
open M

/-- The name shown for an operation. -/
def announced (entry : Bytes) : Bytes :=
  if entry = b!"delegate" then b!"Delegate" else if entry = b!"undelegate" then b!"Undelegate" else if entry = b!"redelegate" then b!"Redelegate"
  else b!"Contract execution"

/-- **C74 fails: operations announced without their operands.** Take any well-formed Deploy that runs code, of whatever length, with a text of at most 96 bytes in an
argument "auction", and in which one of the arguments named "amount", "delegator" or "validator" has an unexpected type (a "new_validator", if there is one,
being a key), followed by anything.  In normal mode it is acknowledged, in every chunking and after whatever was done before; the review says "Delegate"
(or whatever the text names) and nothing more: neither who delegates, nor to whom, nor how much, nor which code runs; and approving signs the Deploy's hash. -/
theorem C74_hidden_false (pl : Platform) (hcap : pl.cap ≤ 16384) (d : Dev) (hd : d.Ok pl) (hnormal : d.expert = false) (path : Bytes)
    (hlen : path.length = 20) (hpath : casperPath path) (x : DeploySpec) (pcode : Bytes) (fk fee : Nat) (hx : x.Usual pcode fk fee)
    (code : Bytes) (as : List Arg) (hses : x.session = .moduleBytes code as)
    (hok : ∀ a ∈ as, a.Ok) (hn : noNul as) (entry : Bytes) (hentry : entry.length ≤ 96)
    (hau : argNamed as b!"auction" = some ⟨b!"auction", pfx entry, .string⟩) (hm : Mistyped as)
    (hnew : ∀ a, argNamed as b!"new_validator" = some a → a.ty = .publicKey) (rest : Bytes) (cs : List Bytes) (last : Bytes)
    (hcs : cs.flatten ++ last = 0 :: (x.signedPart pl.blake ++ rest)) (hfit : (cs.flatten ++ last).length ≤ pl.cap) :
    ∃ d', run pl d (upload 2 path cs last) = (d', List.replicate (cs.length + 1) (.reply [] 0x9000) ++ [.pending]) ∧
      Displays pl d' [(b!"Txn hash", checksumHex pl.blake (pl.blake (x.header pl.blake).encode)), (b!"Type", announced entry), (b!"Chain ID", x.chain),
        (b!"Account", x.account.address pl.blake), (b!"Fee", motesOf fee)] ∧
      (step pl d' .approve).2 = signatureReply pl path (pl.sha256 (pl.blake (x.header pl.blake).encode)) := by
  have hsm : Small (signedEnv pl d.expert x rest) := by
    rw [hcs] at hfit
    unfold Small; simp only [List.length_cons] at hfit; show (x.signedPart pl.blake ++ rest).length ≤ 16384; omega
  have hat := (signed_layout (H := pl.blake) (d := x) (rest := rest) rfl).session
  rw [hses] at hat
  have key := hiddenAuction_session (e := signedEnv pl d.expert x rest) (off := x.sessionPos pl.blake) hsm.to_fits hok hn hentry hau hnormal hm.wrong hnew hat
  rw [← hses] at key
  have hty : typeLabel (x.parsed pl.blake pcode fk fee (hiddenAuction entry code as (x.sessionPos pl.blake))) = announced entry := by
    unfold typeLabel DeploySpec.parsed hiddenAuction auctionNumber announced
    dsimp only
    by_cases h3 : entry = b!"delegate"
    · subst h3; rfl
    by_cases h4 : entry = b!"undelegate"
    · subst h4; rfl
    by_cases h5 : entry = b!"redelegate"
    · subst h5; rfl
    simp only [h3, h4, h5, if_false]
    rfl
  obtain ⟨d', ttl, -, r2, r3, r4⟩ := signed_upload pl hcap d hd path hlen hpath x pcode fk fee hx rest 0 (fun h => by rw [hnormal] at h; cases h) cs last hcs hfit key hty []
    (fun h => by rw [hnormal] at h; cases h)
  rw [hnormal] at r3
  exact ⟨d', r2, r3, r4⟩

/-- A Deploy that runs some code, with an amount of type U256, and says that it is a delegation. -/
def sampleAnnounced (code : Bytes) : DeploySpec := { sampleDeploy with
  session := .moduleBytes code [⟨b!"auction", pfx b!"delegate", .string⟩, ⟨b!"amount", UInt8.ofNat 2 :: le 2 1000, .u256⟩] }

/-- The hypotheses can be met: any code whatever is presented as a delegation of an unknown amount. -/
example (code rest : Bytes) (cs : List Bytes) (last : Bytes) (hcs : cs.flatten ++ last = 0 :: ((sampleAnnounced code).signedPart Blake.H ++ rest))
    (hfit : (cs.flatten ++ last).length ≤ samplePl.cap) : ∃ d', run samplePl (Dev.init samplePl) (upload 2 (samplePath 0) cs last) =
      (d', List.replicate (cs.length + 1) (.reply [] 0x9000) ++ [.pending]) ∧
    Displays samplePl d' [(b!"Txn hash", checksumHex Blake.H (Blake.H ((sampleAnnounced code).header Blake.H).encode)), (b!"Type", b!"Delegate"),
      (b!"Chain ID", b!"casper-test"), (b!"Account", b!"02" ++ checksumHex Blake.H (List.replicate 33 0xab)), (b!"Fee", motesOf 100000000)] := by
  have hargs : ∀ a ∈ (sampleAnnounced []).session.args, a.Ok ∧ (0 : UInt8) ∉ a.name := by
    intro a ha
    simp only [sampleAnnounced, ExecItem.args, List.mem_cons, List.not_mem_nil, or_false] at ha
    rcases ha with rfl | rfl
    · exact ⟨⟨show 7 ≤ 300 by decide, rfl, rfl⟩, show (0 : UInt8) ∉ b!"auction" by decide⟩
    · exact ⟨⟨show 6 ≤ 300 by decide, rfl, rfl⟩, show (0 : UInt8) ∉ b!"amount" by decide⟩
  obtain ⟨d', h1, h2, -⟩ := C74_hidden_false samplePl (by decide) (Dev.init samplePl) (.init _) rfl (samplePath 0) rfl (by decide)
    (sampleAnnounced code) [] 4 100000000
    ⟨⟨rfl, sampleDeploy_usual.ok.timestamp, sampleDeploy_usual.ok.ttl, sampleDeploy_usual.ok.gasPrice, sampleDeploy_ok.deps⟩, sampleDeploy_usual.chain, sampleDeploy_usual.chain0, rfl, by decide, by decide⟩
    code (sampleAnnounced []).session.args rfl (fun a ha => (hargs a ha).1) (fun a ha => (hargs a ha).2) b!"delegate" (by decide) rfl
    (.inl ⟨_, rfl, by decide, by decide⟩) (by intro a ha; cases ha) rest cs last hcs hfit
  exact ⟨d', h1, h2⟩

end Casper
