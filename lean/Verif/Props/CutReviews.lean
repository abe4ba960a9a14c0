import Verif.Props.CutAcceptCalls

/-!
# What reviews of contract calls and unusual transfers show, for all argument names

As in `C14_call_partial`, `C14_hidden_false` and `C13_first_partial`, arguments being found by their names up to a zero byte.
-/

namespace Casper

open M

/-- **C14, partly, all names of arguments** (as in `C14_call_partial`; names count up to a zero byte). Any chunking of a well-formed Deploy that calls a stored contract in any other way is acknowledged and opens a review;
the review shows which contract is called, in expert mode the entry point, the amount if there is one, and a hash of the complete list of
arguments.  Missing: calls in which an argument named "amount", "delegator" or "validator" is not of its usual type (see
`C14_hidden_false`), calls of delegations with more arguments than they need (see C72 and C85), and module bytes (see C75). -/
theorem C14_call_cut_partial (pl : Platform) (hcap : pl.cap ≤ 16384) (d : Dev) (hd : d.Ok pl) (path : Bytes)
    (hlen : path.length = 20) (hpath : casperPath path) (x : DeploySpec) (code : Bytes) (fk fee : Nat) (hx : x.Usual code fk fee)
    (byHash : Bool) (addr : Bytes) (version : Option (Option Nat)) (entry : Bytes) (as : List Arg)
    (hses : x.session = storedCall byHash addr version entry as)
    (haddr : if byHash then addr.length = 32 else addr.length ≤ 299 ∧ 0 ∉ addr) (hver : ∀ n, version = some (some n) → n < 2 ^ 32)
    (hentry : entry.length ≤ 99) (hentry0 : 0 ∉ entry) (hok : ∀ a ∈ as, a.Ok)
    (hkey : ∀ name, name = b!"delegator" ∨ name = b!"validator" → ∀ a, argNamed (cut as) name = some a → a.ty = .publicKey)
    (hnew : entry = b!"redelegate" → ∃ a, argNamed (cut as) b!"new_validator" = some a ∧ a.ty = .publicKey)
    (hother : entry = b!"delegate" ∨ entry = b!"undelegate" ∨ entry = b!"redelegate" →
      argNamed (cut as) b!"amount" = none ∨ argNamed (cut as) b!"delegator" = none ∨ argNamed (cut as) b!"validator" = none)
    (amount : List (Bytes × Bytes)) (hamount : argNamed (cut as) b!"amount" = none ∧ amount = [] ∨
      ∃ a k n, argNamed (cut as) b!"amount" = some a ∧ a.ty = .u512 ∧ a.value = UInt8.ofNat k :: le k n ∧ k ≤ 64 ∧ n < 256 ^ k ∧
        amount = [(b!"Amount", motesOf n)])
    (ap : List Bytes) (hap : ap.length < 2 ^ 32) (cs : List Bytes) (last : Bytes)
    (hcs : cs.flatten ++ last = 0 :: x.tx pl.blake ap) (hfit : (cs.flatten ++ last).length ≤ pl.cap)
    (time : Bytes) (hxo : d.expert = true → x.ExpertOk pl.fmtTime time) :
    ∃ d' ttl, (d.expert = true → duration ttl = x.ttl / 1000) ∧
      run pl d (upload 2 path cs last) = (d', List.replicate (cs.length + 1) (.reply [] 0x9000) ++ [.pending]) ∧
      Displays pl d' (x.screens pl.blake d.expert ap.length b!"Contract execution" time ttl (motesOf fee)
        (storedLines pl.blake d.expert byHash addr version ++ (if d.expert then [(b!"Entry-point", entry)] else []) ++ (amount ++
          [(b!"Args hash", argsHashText pl.blake as)]))) ∧
      (step pl d' .approve).2 = signatureReply pl path (pl.sha256 (pl.blake (x.header pl.blake).encode)) := by
  have hl := deploy_layout (H := pl.blake) (d := x) (ap := ap) (rest := []) (List.append_nil _).symm
  have hfits : Fits (deployEnv pl d.expert x ap) := by
    rw [hcs] at hfit
    unfold Fits; simp only [List.length_cons] at hfit; show (x.tx pl.blake ap).length ≤ 65535; omega
  have hat := hl.session
  rw [hses] at hat
  have hso : StoredFine byHash addr version entry as :=
    ⟨fun hb => by rw [hb] at haddr; exact haddr, hver, by omega, hentry0, hok⟩
  have hoa : OtherArgs entry (cut as) := by
    refine ⟨fun a ha => ?_, hkey _ (.inl rfl), hkey _ (.inr rfl), hnew, hother⟩
    rcases hamount with ⟨h, -⟩ | ⟨b, k, n, h, h2, -⟩
    · rw [h] at ha; cases ha
    · rw [h] at ha; cases ha; exact .inl h2
  have key := other_session_cut (e := deployEnv pl d.expert x ap) (off := x.sessionPos pl.blake) hfits hso hat hoa
    (fun hb => by rw [hb] at haddr; exact haddr) (fun _ => hentry) (amount := amount) (by
      rcases hamount with ⟨h, rfl⟩ | ⟨b, k, n, h, h2, h3, h4, h5, rfl⟩
      · rw [h]; exact .nil
      · rw [h]; exact .cons (.motes rfl h (by rw [h2, h3]; exact .u512 k n h4 h5)) .nil)
  rw [← hses] at key
  refine deploy_upload pl hcap d hd path hlen hpath x code fk fee hx ap hap cs last hcs hfit key ?_ time hxo
  unfold typeLabel DeploySpec.parsed otherView_cut otherView storedStart
  have : (storedCall byHash addr version entry []).tag ≠ 5 := by rw [storedTag]; cases byHash <;> cases version <;> simp
  simp [this]

/-- **C14 fails, all names of arguments** (as in `C14_hidden_false`; names count up to a zero byte). Whenever a call of a stored contract has an argument named "amount" whose type is neither U512 nor U32, or an argument named "delegator" or "validator"
that is not a PublicKey, the Deploy is accepted and its review shows neither arguments nor a hash of them; in normal mode it does not even show which contract is called.  Calls of
"delegate", "undelegate" and "redelegate" are still presented under those names. -/
theorem C14_hidden_cut_false (pl : Platform) (hcap : pl.cap ≤ 16384) (d : Dev) (hd : d.Ok pl) (path : Bytes)
    (hlen : path.length = 20) (hpath : casperPath path) (x : DeploySpec) (code : Bytes) (fk fee : Nat) (hx : x.Usual code fk fee)
    (byHash : Bool) (addr : Bytes) (version : Option (Option Nat)) (entry : Bytes) (as : List Arg)
    (hses : x.session = storedCall byHash addr version entry as)
    (haddr : if byHash then addr.length = 32 else addr.length ≤ 299 ∧ 0 ∉ addr) (hver : ∀ n, version = some (some n) → n < 2 ^ 32)
    (hentry : entry.length ≤ 99) (hentry0 : 0 ∉ entry) (hok : ∀ a ∈ as, a.Ok)
    (hnew : entry = b!"redelegate" → ∃ a, argNamed (cut as) b!"new_validator" = some a ∧ a.ty = .publicKey)
    (hwrong : (∃ a, argNamed (cut as) b!"amount" = some a ∧ a.ty ≠ .u512 ∧ a.ty ≠ .u32) ∨ (∃ a, argNamed (cut as) b!"delegator" = some a ∧ a.ty ≠ .publicKey) ∨
      ∃ a, argNamed (cut as) b!"validator" = some a ∧ a.ty ≠ .publicKey)
    (ap : List Bytes) (hap : ap.length < 2 ^ 32) (cs : List Bytes) (last : Bytes)
    (hcs : cs.flatten ++ last = 0 :: x.tx pl.blake ap) (hfit : (cs.flatten ++ last).length ≤ pl.cap)
    (time : Bytes) (hxo : d.expert = true → x.ExpertOk pl.fmtTime time) :
    ∃ d' ttl type, (d.expert = true → duration ttl = x.ttl / 1000) ∧
      (type = if entry = b!"delegate" then b!"Delegate" else if entry = b!"undelegate" then b!"Undelegate"
        else if entry = b!"redelegate" then b!"Redelegate" else b!"Contract execution") ∧
      run pl d (upload 2 path cs last) = (d', List.replicate (cs.length + 1) (.reply [] 0x9000) ++ [.pending]) ∧
      Displays pl d' (x.screens pl.blake d.expert ap.length type time ttl (motesOf fee)
        (if d.expert then storedLines pl.blake true byHash addr version ++
          (if type = b!"Contract execution" then [(b!"Entry-point", entry)] else []) else [])) ∧
      (step pl d' .approve).2 = signatureReply pl path (pl.sha256 (pl.blake (x.header pl.blake).encode)) := by
  have hl := deploy_layout (H := pl.blake) (d := x) (ap := ap) (rest := []) (List.append_nil _).symm
  have hfits : Fits (deployEnv pl d.expert x ap) := by
    rw [hcs] at hfit
    unfold Fits; simp only [List.length_cons] at hfit; show (x.tx pl.blake ap).length ≤ 65535; omega
  have hat := hl.session
  rw [hses] at hat
  have hso : StoredFine byHash addr version entry as :=
    ⟨fun hb => by rw [hb] at haddr; exact haddr, hver, by omega, hentry0, hok⟩
  have hw : WrongArgs (cut as) := by
    rcases hwrong with ⟨a, ha, ht1, ht2⟩ | hw
    · exact .inl ⟨a, ha, by rintro (h | h); exacts [ht1 h, ht2 h]⟩
    · exact .inr hw
  have key := hidden_session_cut (e := deployEnv pl d.expert x ap) (off := x.sessionPos pl.blake) hfits hso hat hw hnew
    (fun _ hb => by rw [hb] at haddr; exact haddr) (fun _ => hentry)
  rw [← hses] at key
  obtain ⟨d', ttl, k1, k2, k3, k4⟩ := deploy_upload pl hcap d hd path hlen hpath x code fk fee hx ap hap cs last hcs hfit key rfl time hxo
  have htag : (storedCall byHash addr version entry []).tag ≠ 5 := by rw [storedTag]; cases byHash <;> cases version <;> simp
  have hty : typeLabel (x.parsed pl.blake code fk fee (hiddenView_cut d.expert byHash addr version entry as (x.sessionPos pl.blake))) =
      if entry = b!"delegate" then b!"Delegate" else if entry = b!"undelegate" then b!"Undelegate"
        else if entry = b!"redelegate" then b!"Redelegate" else b!"Contract execution" := by
    unfold typeLabel DeploySpec.parsed hiddenView_cut hiddenView storedStart entryKind
    dsimp only
    rw [cstr_eq hentry0, if_neg (by simp [htag])]
    by_cases h1 : entry = b!"delegate"
    · simp [h1, namedOp]
    by_cases h2 : entry = b!"undelegate"
    · simp [h2, namedOp]
    by_cases h3 : entry = b!"redelegate"
    · simp [h3, namedOp]
    simp [h1, h2, h3]
  refine ⟨d', ttl, _, k1, rfl, k2, ?_, k4⟩
  rw [← hty]
  have : (typeLabel (x.parsed pl.blake code fk fee (hiddenView_cut d.expert byHash addr version entry as (x.sessionPos pl.blake))) = b!"Contract execution") ↔
      namedOp entry = false := by
    rw [hty]
    unfold namedOp
    by_cases h1 : entry = b!"delegate"
    · simp [h1]
    by_cases h2 : entry = b!"undelegate"
    · simp [h2]
    by_cases h3 : entry = b!"redelegate"
    · simp [h3]
    simp [h1, h2, h3]
  have hline : (if typeLabel (x.parsed pl.blake code fk fee (hiddenView_cut d.expert byHash addr version entry as (x.sessionPos pl.blake))) =
      b!"Contract execution" then [(b!"Entry-point", entry)] else []) = if namedOp entry = true then [] else [(b!"Entry-point", entry)] := by
    cases hno : namedOp entry with
    | false => rw [if_pos (this.2 hno), if_neg (by decide)]
    | true => rw [if_neg (fun h => by rw [this.1 h] at hno; cases hno), if_pos rfl]
  rw [hline]
  exact k3

/-- **C13, what is true of it, all names of arguments** (as in `C13_first_partial`; names count up to a zero byte). A native transfer with a U512 amount that has not just the usual arguments (`OnlyTransferArgs`, see C12) or too few
(`SparseTransfer`, refused, see C85) is accepted, and its review shows a hash; but that is a hash of the number of arguments and the first argument only.  The full statement has the complete list
in place of `a`; see `C13_same_hash_false`. -/
theorem C13_first_cut_partial (pl : Platform) (hcap : pl.cap ≤ 16384) (d : Dev) (hd : d.Ok pl) (path : Bytes)
    (hlen : path.length = 20) (hpath : casperPath path) (x : DeploySpec) (code : Bytes) (fk fee : Nat) (hx : x.Usual code fk fee)
    (a : Arg) (as : List Arg) (hses : x.session = .transfer (a :: as)) (hok : ∀ b ∈ a :: as, b.Ok)
    (hamount : ∃ b, argNamed (cut (a :: as)) b!"amount" = some b ∧ b.ty = .u512)
    (hother : ¬ OnlyTransferArgs (cut (a :: as))) (hsparse : ¬ SparseTransfer (cut (a :: as)))
    (ap : List Bytes) (hap : ap.length < 2 ^ 32) (cs : List Bytes) (last : Bytes)
    (hcs : cs.flatten ++ last = 0 :: x.tx pl.blake ap) (hfit : (cs.flatten ++ last).length ≤ pl.cap)
    (time : Bytes) (hxo : d.expert = true → x.ExpertOk pl.fmtTime time) :
    ∃ d' ttl, (d.expert = true → duration ttl = x.ttl / 1000) ∧
      run pl d (upload 2 path cs last) = (d', List.replicate (cs.length + 1) (.reply [] 0x9000) ++ [.pending]) ∧
      Displays pl d' (x.screens pl.blake d.expert ap.length b!"Token transfer" time ttl (motesOf fee)
        [(b!"Args hash", b!"native-transfer-" ++ casedHex (pl.blake (le 4 (a :: as).length ++ a.encode)) (pl.blake (le 4 (a :: as).length ++ a.encode)))]) ∧
      (step pl d' .approve).2 = signatureReply pl path (pl.sha256 (pl.blake (x.header pl.blake).encode)) := by
  have hl := deploy_layout (H := pl.blake) (d := x) (ap := ap) (rest := []) (List.append_nil _).symm
  have hfits : Fits (deployEnv pl d.expert x ap) := by
    rw [hcs] at hfit
    unfold Fits; simp only [List.length_cons] at hfit; show (x.tx pl.blake ap).length ≤ 65535; omega
  have hat := hl.session
  rw [hses] at hat
  have key := genericTransfer_session_cut (e := deployEnv pl d.expert x ap) (off := x.sessionPos pl.blake) hfits hok hamount hother hsparse hat
  rw [← hses] at key
  exact deploy_upload pl hcap d hd path hlen hpath x code fk fee hx ap hap cs last hcs hfit key rfl time hxo

/-- The session of a Deploy with a zero byte appended to each name of an argument. -/
def markSession : ExecItem → ExecItem
  | .moduleBytes code as => .moduleBytes code (as.map Arg.marked)
  | .byHash h n as => .byHash h n (as.map Arg.marked)
  | .byName h n as => .byName h n (as.map Arg.marked)
  | .versionedByHash h v n as => .versionedByHash h v n (as.map Arg.marked)
  | .versionedByName h v n as => .versionedByName h v n (as.map Arg.marked)
  | .transfer as => .transfer (as.map Arg.marked)

/-- A Deploy with a zero byte appended to each name of an argument of its session. -/
def DeploySpec.masked (x : DeploySpec) : DeploySpec := { x with session := markSession x.session }

/-- The hypotheses of `C14_call_cut_partial` can be met: an amount is shown that Casper does not find. -/
example : ∃ d', run samplePl (Dev.init samplePl) (upload 2 (samplePath 0) [] (0 :: sampleMint.masked.tx Blake.H [])) =
      (d', [.reply [] 0x9000, .pending]) ∧
    Displays samplePl d' [(b!"Txn hash", checksumHex Blake.H (Blake.H (sampleMint.masked.header Blake.H).encode)), (b!"Type", b!"Contract execution"),
      (b!"Chain ID", b!"casper-test"), (b!"Account", b!"02" ++ checksumHex Blake.H (List.replicate 33 0xab)), (b!"Fee", motesOf 100000000),
      (b!"Execution", b!"by-hash-versioned"), (b!"Address", checksumHex Blake.H (List.replicate 32 0x93)), (b!"Amount", motesOf 500000000000),
      (b!"Args hash", argsHashText Blake.H sampleMint.masked.session.args)] ∧ argNamed sampleMint.masked.session.args b!"amount" = none := by
  have hcut : cut sampleMint.masked.session.args = sampleMint.session.args := by decide +kernel
  obtain ⟨d', ttl, -, h1, h2, -⟩ := C14_call_cut_partial samplePl (by decide) (Dev.init samplePl) (.init _) (samplePath 0) rfl (by decide)
    sampleMint.masked [] 4 100000000 ⟨⟨rfl, by decide, by decide, by decide, sampleDeploy_ok.deps⟩, by decide, by decide, rfl, by decide, by decide⟩
    true (List.replicate 32 0x93) (some (some 2)) b!"mint" sampleMint.masked.session.args rfl rfl (by simp +contextual) (by decide) (by decide) (by
      intro a ha
      simp only [DeploySpec.masked, markSession, sampleMint, ExecItem.args, List.map_cons, List.map_nil, List.mem_cons, List.not_mem_nil, or_false] at ha
      rcases ha with rfl | rfl | rfl <;> exact ⟨by decide, by decide, by decide⟩)
    (by rw [hcut]; rintro _ (rfl | rfl) a ha <;> cases ha) (by intro h; exact absurd h (by decide)) (by intro h; exact absurd h (by decide)) _
    (.inr ⟨_, 5, 500000000000, by rw [hcut]; rfl, rfl, rfl, by decide, by decide, rfl⟩)
    [] (by decide) [] _ rfl (by decide +kernel) [] (by intro h; cases h)
  exact ⟨d', h1, h2, by decide +kernel⟩

/-- The hypotheses of `C14_hidden_cut_false` can be met. -/
example : ∃ d', run samplePl (Dev.init samplePl) (upload 2 (samplePath 0) [] (0 :: sampleHidden.masked.tx Blake.H [])) =
      (d', [.reply [] 0x9000, .pending]) ∧
    Displays samplePl d' [(b!"Txn hash", checksumHex Blake.H (Blake.H (sampleHidden.masked.header Blake.H).encode)), (b!"Type", b!"Delegate"),
      (b!"Chain ID", b!"casper-test"), (b!"Account", b!"02" ++ checksumHex Blake.H (List.replicate 33 0xab)), (b!"Fee", motesOf 100000000)] := by
  have hcut : cut sampleHidden.masked.session.args = sampleHidden.session.args := by decide +kernel
  obtain ⟨d', ttl, type, -, rfl, h1, h2, -⟩ := C14_hidden_cut_false samplePl (by decide) (Dev.init samplePl) (.init _) (samplePath 0) rfl (by decide)
    sampleHidden.masked [] 4 100000000 ⟨⟨rfl, by decide, by decide, by decide, sampleDeploy_ok.deps⟩, by decide, by decide, rfl, by decide, by decide⟩
    true (List.replicate 32 0x93) none b!"delegate" sampleHidden.masked.session.args rfl rfl (by simp) (by decide) (by decide) (by
      intro a ha
      simp only [DeploySpec.masked, markSession, sampleHidden, ExecItem.args, List.map_cons, List.map_nil, List.mem_cons, List.not_mem_nil, or_false] at ha
      rcases ha with rfl | rfl | rfl <;> exact ⟨by decide, by decide, by decide⟩)
    (by intro h; exact absurd h (by decide)) (by rw [hcut]; exact .inl ⟨_, rfl, by decide, by decide⟩)
    [] (by decide) [] _ rfl (by decide +kernel) [] (by intro h; cases h)
  exact ⟨d', h1, h2⟩

/-- The hypotheses of `C13_first_cut_partial` can be met. -/
example : ∃ d', run samplePl (Dev.init samplePl) (upload 2 (samplePath 0) [] (0 :: (sampleRemark 0x11).masked.tx Blake.H [])) =
      (d', [.reply [] 0x9000, .pending]) ∧
    Displays samplePl d' [(b!"Txn hash", checksumHex Blake.H (Blake.H ((sampleRemark 0x11).masked.header Blake.H).encode)), (b!"Type", b!"Token transfer"),
      (b!"Chain ID", b!"casper-test"), (b!"Account", b!"02" ++ checksumHex Blake.H (List.replicate 33 0xab)), (b!"Fee", motesOf 100000000),
      (b!"Args hash", b!"native-transfer-" ++ casedHex (Blake.H (le 4 4 ++ (Arg.mk (b!"amount" ++ [0]) (bigNum 5 24500000000) .u512).encode))
        (Blake.H (le 4 4 ++ (Arg.mk (b!"amount" ++ [0]) (bigNum 5 24500000000) .u512).encode)))] := by
  have hcut : cut (sampleRemark 0x11).masked.session.args = (sampleRemark 0x11).session.args := by decide +kernel
  obtain ⟨d', ttl, -, h1, h2, -⟩ := C13_first_cut_partial samplePl (by decide) (Dev.init samplePl) (.init _) (samplePath 0) rfl (by decide)
    (sampleRemark 0x11).masked [] 4 100000000 ⟨⟨rfl, sampleDeploy_ok.timestamp, sampleDeploy_ok.ttl, sampleDeploy_ok.gasPrice, sampleDeploy_ok.deps⟩,
      sampleDeploy_usual.chain, sampleDeploy_usual.chain0, rfl, by decide, by decide⟩
    ⟨b!"amount" ++ [0], bigNum 5 24500000000, .u512⟩ (sampleRemark 0x11).masked.session.args.tail rfl (by
      intro a ha
      simp only [DeploySpec.masked, markSession, sampleRemark, ExecItem.args, List.map_cons, List.map_nil, List.tail_cons, List.mem_cons, List.not_mem_nil, or_false] at ha
      rcases ha with rfl | rfl | rfl | rfl <;> exact ⟨by decide, by decide, by decide⟩)
    ⟨⟨b!"amount", bigNum 5 24500000000, .u512⟩, by decide +kernel, rfl⟩ (fun h => by
      replace h : OnlyTransferArgs (cut (sampleRemark 0x11).masked.session.args) := h
      rw [hcut] at h
      rcases h.facts.2.2.2 with ⟨hl, -⟩ | ⟨-, a, ha, -⟩
      · cases hl
      · cases ha) (fun h => by
      replace h : SparseTransfer (cut (sampleRemark 0x11).masked.session.args) := h
      rw [hcut] at h
      rcases h.facts.2 with ⟨hl, -⟩ | ⟨hl, -⟩ <;> cases hl)
    [] (by decide) [] _ rfl (by decide +kernel) [] (by intro h; cases h)
  exact ⟨d', h1, h2⟩

end Casper
