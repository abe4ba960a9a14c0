import Verif.Lib.SameContent
import Verif.Props.ContentV1
/-
C83: the content of accepted version 1 data is unique, and it is what the signature is for.
-/
namespace Casper
open M

/-- **C83, uniqueness.** Data have at most one content: initiator, timestamp, time to live, chain, pricing mode, arguments, target and entry point are
determined by the bytes, as are position of the arguments, number of approvals, and payload.  (The sizes of byte array types are taken modulo 2^32,
`V1Args.Fit`; a device holds far fewer than 2^31 bytes.) -/
theorem C83_unique (H : Hash) (c c' : Content) (pos pos' n n' : Nat) (payload payload' xs : Bytes) (h : Says H c pos n payload xs)
    (h' : Says H c' pos' n' payload' xs) (fa : c.args.Fit) (fa' : c'.args.Fit) (lx : xs.length < 2 ^ 31) :
    c = c' ∧ pos = pos' ∧ n = n' ∧ payload = payload' :=
  h.inj h' fa fa' lx

/-- **C83, signature.** Approving the review of accepted version 1 data signs SHA-256 of the BLAKE2b hash of the payload that has their content. -/
theorem C83_signed (pl : Platform) (hcap : pl.cap ≤ 16384) (d d' : Dev) (hd : d.Ok pl) (rx : Bytes)
    (pin : Bool) (hins : rx.getD 1 0 = 2) (xs : Bytes) (hx : d.data ++ rx.drop 5 = 1 :: xs) (h : step pl d (.apdu rx pin) = (d', .pending))
    (c : Content) (pos n : Nat) (payload : Bytes) (hc : Says pl.blake c pos n payload xs) (hg : ∀ as, c.args = .named as → GoodTypes as) :
    (step pl d' .approve).2 = signatureReply pl d.hdPath (pl.sha256 (pl.blake payload)) := by
  obtain ⟨s, B, acc, hs, hok, hdata, rfl, g1, ⟨a, b, g2, g3⟩, -⟩ := pending_says hcap hd hins hx h hc hg
  exact approve_v1 hok (a := a) (h := pl.blake payload) (c := b) (by rw [hdata, g2]) (pl.blake.len _) (by rw [g1.hash.1, g3])

/-- **C83, binding.** Two uploads of version 1 data whose approvals sign the same hash have the same content, unless their payloads are two texts with the
same BLAKE2b hash; however the data are laid out, and whatever approvals they hold. -/
theorem C83_binding (pl : Platform) (hcap : pl.cap ≤ 16384) (d1 d1' d2 d2' : Dev) (hd1 : d1.Ok pl) (hd2 : d2.Ok pl) (rx1 rx2 : Bytes) (pin1 pin2 : Bool)
    (hins1 : rx1.getD 1 0 = 2) (hins2 : rx2.getD 1 0 = 2) (xs1 xs2 : Bytes) (hx1 : d1.data ++ rx1.drop 5 = 1 :: xs1) (hx2 : d2.data ++ rx2.drop 5 = 1 :: xs2)
    (h1 : step pl d1 (.apdu rx1 pin1) = (d1', .pending)) (h2 : step pl d2 (.apdu rx2 pin2) = (d2', .pending))
    (c1 c2 : Content) (pos1 pos2 n1 n2 : Nat) (p1 p2 : Bytes) (hc1 : Says pl.blake c1 pos1 n1 p1 xs1) (hc2 : Says pl.blake c2 pos2 n2 p2 xs2)
    (hf1 : c1.args.Fit) (hf2 : c2.args.Fit) (hg1 : ∀ as, c1.args = .named as → GoodTypes as) (hg2 : ∀ as, c2.args = .named as → GoodTypes as) :
    ∃ x y, (step pl d1' .approve).2 = signatureReply pl d1.hdPath (pl.sha256 x) ∧ (step pl d2' .approve).2 = signatureReply pl d2.hdPath (pl.sha256 y) ∧
      (x = y → c1 = c2 ∨ (p1 ≠ p2 ∧ pl.blake p1 = pl.blake p2)) := by
  refine ⟨_, _, C83_signed pl hcap d1 d1' hd1 rx1 pin1 hins1 xs1 hx1 h1 c1 pos1 n1 p1 hc1 hg1, C83_signed pl hcap d2 d2' hd2 rx2 pin2 hins2 xs2 hx2 h2 c2 pos2 n2 p2 hc2 hg2, fun he => ?_⟩
  by_cases hp : p1 = p2
  · left
    subst hp
    obtain ⟨_, _, p, _, -, k1, -, -, -, k5⟩ := hc1.start
    obtain ⟨_, _, q, _, -, k2, -⟩ := hc2.start
    obtain ⟨s, B, -, hs, -⟩ := pending_says hcap hd1 hins1 hx1 h1 hc1 hg1
    have hs : xs1.length ≤ 16384 := hs
    exact (k1.inj k2 hf1 hf2 (by omega)).1
  · exact .inr ⟨hp, he⟩

/-- The hypotheses can be met: the transfer and the same payload under a table that claims 259 fields (`manyFields`) are accepted, and have one content. -/
example : Says Blake.H sampleTransfer.content sampleTransfer.argsPos 0 sampleTransfer.encode (sampleTransfer.tx Blake.H []) ∧
    sampleTransfer.content.args.Fit ∧ (∀ as, sampleTransfer.content.args = .named as → GoodTypes as) ∧
    repliesToV1 (sampleTransfer.tx Blake.H []) 1 = [.reply [] 0x9000, .reply [] 0x9000, .pending] ∧
    repliesToV1 manyFields 1 = [.reply [] 0x9000, .reply [] 0x9000, .pending] := by
  have hm : ∀ a ∈ sampleNamed, a.ty.Fit ∧ a.ty.aligned = true ∧ a.ty.supported = true := by
    intro a ha
    simp only [sampleNamed, List.mem_cons, List.not_mem_nil, or_false] at ha
    rcases ha with rfl | rfl | rfl <;> exact ⟨by simp [CLType.Fit], by decide, by decide⟩
  refine ⟨TxPayload.says (H := samplePl.blake) (ap := []) sampleTransfer_ok (by simp) (by decide +kernel), fun a ha => (hm a ha).1, ?_, by decide +kernel, by decide +kernel⟩
  intro as h a ha
  cases h
  exact (hm a ha).2

end Casper
