import Verif.Props.Calls
import Verif.Props.Hash
import Verif.Props.Values
/-
C61: the review of code to be run says which code and with which arguments.
-/
namespace Casper
open M

/-- Well-formed version 1 transactions that run session code by its entry point `call`. -/
structure TxPayload.Session (p : TxPayload) : Prop where
  ok : p.Ok
  entry : p.entry = .op 0
  target : ∃ install rt code, p.target = .session install rt code
  chain : p.chain.length ≤ 99
  chain0 : 0 ∉ p.chain

theorem session_sane {e : Env} {p : TxPayload} {ap : List Bytes} (hp : p.Session) (o : Nat) :
    ∃ o', checkSanity e (p.view e (p.start e.blake ap)) o = .ok () o' := by
  have h1 : (p.view e (p.start e.blake ap)).epType = 0 := by
    have := result_ep (H := e.blake) (p := p) (ap := ap) (e := e)
    rw [hp.entry] at this
    exact this
  have hH : (e.blake p.encode).length = 32 := e.blake.len _
  have h2 : (p.view e (p.start e.blake ap)).target.typ = 5 := by
    have := result_target (H := e.blake) (p := p) (ap := ap) (e := e) hH
    obtain ⟨i, rt, c, ht⟩ := hp.target
    rw [ht] at this
    exact congrArg Target.typ this
  unfold checkSanity
  rw [if_neg (by simp [h2]), h1]
  exact ⟨o, rfl⟩

/-- Such a transaction is accepted, shown with the header lines alone, and signed. -/
theorem session_upload (pl : Platform) (hcap : pl.cap ≤ 16384) (d : Dev) (hd : d.Ok pl) (path : Bytes)
    (hlen : path.length = 20) (hpath : casperPath path) (p : TxPayload) (ap : List Bytes)
    (hp : p.Session) (hap : ∀ x ∈ ap, ApprovalOk x) (cs : List Bytes) (last : Bytes)
    (hcs : cs.flatten ++ last = 1 :: p.tx pl.blake ap) (hfit : (cs.flatten ++ last).length ≤ pl.cap)
    (time : Bytes) (hx : d.expert = true → p.ExpertOk pl.fmtTime time) :
    ∃ d' ttl, (d.expert = true → duration ttl = p.ttl / 1000) ∧
      run pl d (upload 2 path cs last) = (d', List.replicate (cs.length + 1) (.reply [] 0x9000) ++ [.pending]) ∧
      Displays pl d' (p.screens pl.blake d.expert ap.length time ttl []) ∧
      (step pl d' .approve).2 = signatureReply pl path (pl.sha256 (pl.blake p.encode)) := by
  have hs : Small (mkEnv pl d.expert (p.tx pl.blake ap)) := by
    rw [hcs] at hfit
    unfold Small mkEnv; simp only [List.length_cons] at hfit ⊢; omega
  have hcount : p.opCount (mkEnv pl d.expert (p.tx pl.blake ap)) = ([] : List (Bytes × Bytes)).length := by
    obtain ⟨i, rt, c, ht⟩ := hp.target
    unfold TxPayload.opCount
    rw [hp.entry, ht]
    rfl
  obtain ⟨s, ttl, hacc, hsv, hdur, hnum, hitems⟩ :=
    accepted_screens (e := mkEnv pl d.expert (p.tx pl.blake ap)) (p := p) (ap := ap) (lines := []) (time := time)
      hs hp.ok hap rfl hp.chain hp.chain0 (session_sane hp) hcount (Nat.zero_le _)
      (fun _ h => absurd rfl h) (fun {i kv} hi o => by simp at hi) hx
  have hn : (p.screens pl.blake d.expert ap.length time ttl []).length ≤ 128 := by
    have : (p.pricing.lines pl.blake).length = 2 := by cases p.pricing <;> rfl
    unfold TxPayload.screens
    cases hxx : d.expert <;> simp [this]
  obtain ⟨d', h1, h2, h3⟩ := upload_screens pl hcap d hd path hlen hpath p ap cs last hcs hfit hacc hsv hnum hn hitems
  exact ⟨d', ttl, hdur, h1, h2, h3⟩

/-- **C61: false for every transaction that runs session code by `call`.** Whatever the code and the arguments, the review consists of the
header lines alone (`screens` with no operation lines: hash, type, chain, account, in expert mode time, time to live, price and number of approvals);
approving it signs. -/
theorem C61_session_false (pl : Platform) (hcap : pl.cap ≤ 16384) (d : Dev) (hd : d.Ok pl) (path : Bytes)
    (hlen : path.length = 20) (hpath : casperPath path) (p : TxPayload) (ap : List Bytes)
    (hp : p.Session) (hap : ∀ x ∈ ap, ApprovalOk x) (cs : List Bytes) (last : Bytes)
    (hcs : cs.flatten ++ last = 1 :: p.tx pl.blake ap) (hfit : (cs.flatten ++ last).length ≤ pl.cap)
    (time : Bytes) (hx : d.expert = true → p.ExpertOk pl.fmtTime time) :
    ∃ d' ttl, (d.expert = true → duration ttl = p.ttl / 1000) ∧
      run pl d (upload 2 path cs last) = (d', List.replicate (cs.length + 1) (.reply [] 0x9000) ++ [.pending]) ∧
      Displays pl d' (p.screens pl.blake d.expert ap.length time ttl []) ∧
      (step pl d' .approve).2 = signatureReply pl path (pl.sha256 (pl.blake p.encode)) :=
  session_upload pl hcap d hd path hlen hpath p ap hp hap cs last hcs hfit time hx

/-- **C61, two programs, one review.** Two such transactions from the same account on the same chain, with any two programs and any two lists of
arguments, have in normal mode the same four lines but for the hash of the transaction. -/
theorem C61_same_review_false (pl : Platform) (hcap : pl.cap ≤ 16384) (d : Dev) (hd : d.Ok pl) (hn : d.expert = false) (path : Bytes)
    (hlen : path.length = 20) (hpath : casperPath path) (p q : TxPayload) (hp : p.Session) (hq : q.Session)
    (hi : q.initiator = p.initiator) (hc : q.chain = p.chain) (cs cs' : List Bytes) (last last' : Bytes)
    (hcs : cs.flatten ++ last = 1 :: p.tx pl.blake []) (hfit : (cs.flatten ++ last).length ≤ pl.cap)
    (hcs' : cs'.flatten ++ last' = 1 :: q.tx pl.blake []) (hfit' : (cs'.flatten ++ last').length ≤ pl.cap) :
    ∃ d1 d2, run pl d (upload 2 path cs last) = (d1, List.replicate (cs.length + 1) (.reply [] 0x9000) ++ [.pending]) ∧
      run pl d (upload 2 path cs' last') = (d2, List.replicate (cs'.length + 1) (.reply [] 0x9000) ++ [.pending]) ∧
      (∃ rest, rest.length = 3 ∧ Displays pl d1 ((b!"Txn hash", checksumHex pl.blake (pl.blake p.encode)) :: rest) ∧
        Displays pl d2 ((b!"Txn hash", checksumHex pl.blake (pl.blake q.encode)) :: rest)) ∧
      (step pl d1 .approve).2 = signatureReply pl path (pl.sha256 (pl.blake p.encode)) ∧
      (step pl d2 .approve).2 = signatureReply pl path (pl.sha256 (pl.blake q.encode)) := by
  obtain ⟨d1, ttl, -, a1, a2, a3⟩ := session_upload pl hcap d hd path hlen hpath p [] hp (by simp) cs last hcs hfit []
    (by rw [hn]; intro h; cases h)
  obtain ⟨d2, ttl', -, b1, b2, b3⟩ := session_upload pl hcap d hd path hlen hpath q [] hq (by simp) cs' last' hcs' hfit' []
    (by rw [hn]; intro h; cases h)
  refine ⟨d1, d2, a1, b1, ⟨[(b!"Type", b!"Call"), (b!"Chain ID", p.chain), (b!"Account", checksumHex pl.blake p.initiator.addr)], rfl, ?_, ?_⟩, a3, b3⟩
  · unfold TxPayload.screens at a2
    rw [hn, hp.entry] at a2
    exact a2
  · unfold TxPayload.screens at b2
    rw [hn, hq.entry, hi, hc] at b2
    exact b2

/-- **C61, code called by name.** With an entry point of its own name, session code is shown with the hash of its arguments, not of the code. -/
theorem C61_custom_false (pl : Platform) (hcap : pl.cap ≤ 16384) (d : Dev) (hd : d.Ok pl) (path : Bytes)
    (hlen : path.length = 20) (hpath : casperPath path) (p : TxPayload) (name : Bytes) (hp : p.Call name)
    (install : Bool) (rt : VmRuntime) (code : Bytes) (ht : p.target = .session install rt code) (ap : List Bytes)
    (hap : ∀ x ∈ ap, ApprovalOk x) (cs : List Bytes) (last : Bytes)
    (hcs : cs.flatten ++ last = 1 :: p.tx pl.blake ap) (hfit : (cs.flatten ++ last).length ≤ pl.cap)
    (time : Bytes) (hx : d.expert = true → p.ExpertOk pl.fmtTime time) :
    ∃ d' ttl, (d.expert = true → duration ttl = p.ttl / 1000) ∧
      run pl d (upload 2 path cs last) = (d', List.replicate (cs.length + 1) (.reply [] 0x9000) ++ [.pending]) ∧
      Displays pl d' (p.screens pl.blake d.expert ap.length time ttl [(b!"Args hash", checksumHex pl.blake (pl.blake p.args.blob))]) ∧
      (step pl d' .approve).2 = signatureReply pl path (pl.sha256 (pl.blake p.encode)) := by
  have := C53_call_partial pl hcap d hd path hlen hpath p name ap hp (by rw [ht]; trivial) hap cs last hcs hfit time hx
  unfold TxPayload.callLines at this
  rw [ht] at this
  exact this

/-- **C61, what the review does commit to.** Two reviews of version 1 transactions that show the same first line are reviews of payloads with the
same hash, whatever is accepted.  (Missing: the user cannot compare code or arguments by themselves; and a review may have no lines, C23.) -/
theorem C61_hash_partial (pl : Platform) (hcap : pl.cap ≤ 16384) (d1 d2 d1' d2' : Dev) (hd1 : d1.Ok pl) (hd2 : d2.Ok pl) (rx1 rx2 : Bytes)
    (pin1 pin2 : Bool) (hi1 : rx1.getD 1 0 = 2) (hi2 : rx2.getD 1 0 = 2) (xs1 xs2 : Bytes) (hx1 : d1.data ++ rx1.drop 5 = 1 :: xs1)
    (hx2 : d2.data ++ rx2.drop 5 = 1 :: xs2) (h1 : step pl d1 (.apdu rx1 pin1) = (d1', .pending))
    (h2 : step pl d2 (.apdu rx2 pin2) = (d2', .pending)) (kv : Bytes × Bytes) (c1 c2 : Nat)
    (hn1 : ∀ c, reviewCount pl d1' .tx 0 ≠ .ok 0 c) (hn2 : ∀ c, reviewCount pl d2' .tx 0 ≠ .ok 0 c)
    (hk1 : reviewItem pl d1' .tx 0 0 = .ok kv c1) (hk2 : reviewItem pl d2' .tx 0 0 = .ok kv c2) :
    ∃ m1 m2 k1 k2 t1 t2 n1 n2 r1 r2, pl.blake m1 = pl.blake m2 ∧
      xs1 = txEnvelope k1 m1.length ++ t1 ++ pl.blake m1 ++ m1 ++ le 4 n1 ++ r1 ∧
      xs2 = txEnvelope k2 m2.length ++ t2 ++ pl.blake m2 ++ m2 ++ le 4 n2 ++ r2 := by
  obtain ⟨k1, t1, a1, m1, n1, r1, e1, -, b1, -, f1⟩ := C23_signed_is_shown_partial pl hcap d1 d1' hd1 rx1 pin1 hi1 xs1 hx1 h1
  obtain ⟨k2, t2, a2, m2, n2, r2, e2, -, b2, -, f2⟩ := C23_signed_is_shown_partial pl hcap d2 d2' hd2 rx2 pin2 hi2 xs2 hx2 h2
  subst b1 b2
  refine ⟨m1, m2, k1, k2, t1, t2, n1, n2, r1, r2, ?_, e1, e2⟩
  rcases f1 with ⟨c, f1⟩ | ⟨x1, f1⟩
  · exact absurd f1 (hn1 c)
  rcases f2 with ⟨c, f2⟩ | ⟨x2, f2⟩
  · exact absurd f2 (hn2 c)
  rw [hk1] at f1
  rw [hk2] at f2
  injection f1 with f1 _
  injection f2 with f2 _
  rw [f1] at f2
  injection f2 with _ f2
  exact checksumHex_inj (H := pl.blake) f2

/-- A case: two different programs with different arguments. -/
def sampleSession (code : Bytes) (as : List Arg) : TxPayload :=
  { sampleTransfer with args := .named as, target := .session false .v1 code, entry := .op 0 }

theorem sampleSession_ok {code : Bytes} {as : List Arg} (ha : V1Args.Ok (.named as)) : (sampleSession code as).Session where
  ok := {
    initiator := show (List.replicate 33 (0xab : UInt8)).length = 33 by decide
    timestamp := show 1620137435000 < 2 ^ 64 by decide
    ttl := show 1800000 < 2 ^ 64 by decide
    pricing := ⟨by decide, by decide⟩
    args := ha
    target := trivial
    entry := show (0 : Nat) ≤ 12 ∧ 0 ≠ 1 by decide }
  entry := rfl
  target := ⟨_, _, _, rfl⟩
  chain := show b!"casper".length ≤ 99 by decide
  chain0 := show 0 ∉ b!"casper" by decide

example : ∃ d1 d2 rest, run samplePl (Dev.init samplePl) (upload 2 (samplePath 0) [] (1 :: (sampleSession [0, 97, 115, 109] []).tx Blake.H [])) =
      (d1, [.reply [] 0x9000, .pending]) ∧
    run samplePl (Dev.init samplePl) (upload 2 (samplePath 0) []
      (1 :: (sampleSession [1, 2, 3] [⟨b!"amount", bigNum 4 2500000000, .u512⟩]).tx Blake.H [])) = (d2, [.reply [] 0x9000, .pending]) ∧
    Displays samplePl d1 ((b!"Txn hash", checksumHex Blake.H (Blake.H (sampleSession [0, 97, 115, 109] []).encode)) :: rest) ∧
    Displays samplePl d2 ((b!"Txn hash", checksumHex Blake.H (Blake.H
      (sampleSession [1, 2, 3] [⟨b!"amount", bigNum 4 2500000000, .u512⟩]).encode)) :: rest) := by
  obtain ⟨d1, d2, h1, h2, ⟨rest, -, h3, h4⟩, -, -⟩ := C61_same_review_false samplePl (by decide) (Dev.init samplePl) (.init _) rfl (samplePath 0) rfl (by decide)
    (sampleSession [0, 97, 115, 109] []) (sampleSession [1, 2, 3] [⟨b!"amount", bigNum 4 2500000000, .u512⟩])
    (sampleSession_ok (by intro a ha; cases ha))
    (sampleSession_ok (by
      intro a ha
      simp only [List.mem_cons, List.not_mem_nil, or_false] at ha
      subst ha
      exact ⟨by decide, by decide, by decide⟩))
    rfl rfl [] [] _ _ rfl (by decide +kernel) rfl (by decide +kernel)
  exact ⟨d1, d2, rest, h1, h2, h3, h4⟩

end Casper
