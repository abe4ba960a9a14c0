import Verif.Props.Operations
import Verif.Props.Hash
/-
C46, C44, C47, C43, C23, C42, C52: what the app guarantees for accepted version 1 transactions, and where 8-bit fields break
the guarantee.
-/
namespace Casper
open M

/-! ### C46 -/

/-- **C46, target.** If the last chunk of a well-formed transaction opens a review and the entry point is not a custom one,
then the target is native or a session. -/
theorem C46_target (pl : Platform) (hcap : pl.cap ≤ 16384) (d d' : Dev) (hd : d.Ok pl) (rx : Bytes) (pin : Bool)
    (hins : rx.getD 1 0 = 2) (p : TxPayload) (hp : p.Ok) (ap : List Bytes) (hap : ∀ x ∈ ap, ApprovalOk x)
    (hx : d.data ++ rx.drop 5 = 1 :: p.tx pl.blake ap) (h : step pl d (.apdu rx pin) = (d', .pending)) (t : Nat)
    (he : p.entry = .op t) : p.target = .native ∨ ∃ i rt m, p.target = .session i rt m := by
  obtain ⟨s, -, hs, -, -, -, -, o, o', hc⟩ := pending_tx hcap hd hins hp hap hx h
  exact (sane_op hs rfl he hp hc).1

/-- **C46, required arguments (partial).** ... and the arguments the operation requires are among the signed ones, `amount`
being a U512.  Missing: arguments serialized at offset 256 or later (see `C46_required_false`), and argument names containing a
NUL byte, which the app cuts off there. -/
theorem C46_required_partial (pl : Platform) (hcap : pl.cap ≤ 16384) (d d' : Dev) (hd : d.Ok pl) (rx : Bytes) (pin : Bool)
    (hins : rx.getD 1 0 = 2) (p : TxPayload) (hp : p.Ok) (ap : List Bytes) (hap : ∀ x ∈ ap, ApprovalOk x)
    (hx : d.data ++ rx.drop 5 = 1 :: p.tx pl.blake ap) (h : step pl d (.apdu rx pin) = (d', .pending)) (t : Nat)
    (he : p.entry = .op t) (as : List Arg) (ha : p.args = .named as) (hn : noNul as) (hpos : p.argsPos < 256) :
    ∀ r ∈ opRequired t, ∃ a ∈ as, a.name = r.1 ∧ (r.2 = true → a.ty = .u512) := by
  obtain ⟨s, -, hs, -, -, -, -, o, o', hc⟩ := pending_tx hcap hd hins hp hap hx h
  intro r hr
  obtain ⟨a, h1, h2⟩ := (sane_op hs rfl he hp hc).2 hpos as ha hn r hr
  exact ⟨a, List.mem_of_find?_eq_some h1, by simpa using List.find?_some h1, h2⟩

/-- The hypotheses can be met: the sample transfer, whose three required arguments are found. -/
example : (step samplePl (run samplePl (Dev.init samplePl)
      ((sampleUpload (1 :: sampleTransfer.tx Blake.H [sampleApproval])).take 3)).1
      (.apdu (apdu 2 2 ((1 :: sampleTransfer.tx Blake.H [sampleApproval]).drop 500)) true)).2 = .pending ∧
    (run samplePl (Dev.init samplePl) ((sampleUpload (1 :: sampleTransfer.tx Blake.H [sampleApproval])).take 3)).1.data ++
      (apdu 2 2 ((1 :: sampleTransfer.tx Blake.H [sampleApproval]).drop 500)).drop 5 =
      1 :: sampleTransfer.tx Blake.H [sampleApproval] ∧
    sampleTransfer.argsPos < 256 := by decide +kernel

/-- The arguments shown for the next two transactions: hidden in the chain name. -/
def decoyArgs : List Arg := [⟨b!"amount", bigNum 1 5, .u512⟩, ⟨b!"target", List.replicate 32 0x11, .byteArray 32⟩,
    ⟨b!"id", 1 :: le 8 7, .option .u64⟩]

/-- A chain name of 268 bytes: its length mod 256 is 12, and the arguments of a transaction with this chain name start at
offset 489, which is 233 mod 256; that is where the decoys are. -/
def decoyChain : Bytes :=
  b!"casper" ++ List.replicate 50 0 ++ encodeArgs decoyArgs ++ List.replicate 123 0

/-- A transaction with this chain name and the arguments `as`. -/
def decoyTx (as : List Arg) : TxPayload := { sampleTransfer with chain := decoyChain, args := .named as }

theorem decoyTx_ok (as : List Arg) (h : ∀ a ∈ as, a.Ok) : (decoyTx as).Ok :=
  { sampleTransfer_ok with args := h }

/-- **C46, required arguments: false.** A transfer with neither amount nor target nor id is accepted. -/
theorem C46_required_false : ∃ (p : TxPayload) (as : List Arg), p.Ok ∧ p.entry = .op 2 ∧ p.target = .native ∧
    p.args = .named as ∧ noNul as ∧ argNamed as b!"amount" = none ∧ argNamed as b!"target" = none ∧
    argNamed as b!"id" = none ∧
    (run samplePl (Dev.init samplePl) (sampleUpload (1 :: p.tx Blake.H []) 2)).2 =
      [.reply [] 0x9000, .reply [] 0x9000, .reply [] 0x9000, .pending] := by
  refine ⟨decoyTx (List.replicate 3 ⟨b!"x", [], .unit⟩), _, decoyTx_ok _ ?_, rfl, rfl, rfl, ?_, by decide, by decide, by decide, ?_⟩
  · intro a ha
    rw [List.eq_of_mem_replicate ha]
    exact ⟨by decide, by decide, by decide⟩
  · intro a ha
    rw [List.eq_of_mem_replicate ha]
    decide
  · decide +kernel


theorem pair_eq {α β : Type} {x : α × β} {b : β} (h : x.2 = b) : x = (x.1, b) := by cases x; cases h; rfl

/-! ### C44 -/

/-- **C44 (partial).** In every review of a well-formed native operation whose arguments are serialized before offset 256, the
operation's lines show the first argument of the respective name in the signed argument list.  Missing: arguments at offset 256
or later (see `C44_signed_arguments_false`). -/
theorem C44_signed_arguments_partial (pl : Platform) (hcap : pl.cap ≤ 16384) (d d' : Dev) (hd : d.Ok pl) (rx : Bytes)
    (pin : Bool) (hins : rx.getD 1 0 = 2) (p : TxPayload) (t : Nat) (as : List Arg) (hp : p.NativeOp t as)
    (hfew : as.length ≤ 119) (ap : List Bytes) (hap : ∀ x ∈ ap, ApprovalOk x)
    (hx : d.data ++ rx.drop 5 = 1 :: p.tx pl.blake ap) (h : step pl d (.apdu rx pin) = (d', .pending))
    (lines : List (Bytes × Bytes)) (hl : List.Forall₂ (ArgLine.Shows pl.blake as) (opLines d.expert as t) lines)
    (time : Bytes) (hxp : d.expert = true → p.ExpertOk pl.fmtTime time) (i : Nat) (kv : Bytes × Bytes)
    (hi : lines[i]? = some kv) (s : Nat) :
    ∃ c, reviewItem pl d' .tx ((if d.expert then 8 else 4) + i) s = .ok kv c := by
  obtain ⟨v, -, hs, hok, hdata, rfl, hv, -⟩ := pending_tx hcap hd hins hp.ok hap hx h
  obtain ⟨v', ttl, -, hv', -, hnum, hitems⟩ :=
    nativeOp_accepted (e := mkEnv pl d.expert (p.tx pl.blake ap)) hs hp hap rfl hl hxp
  have hvv : v'.v = v.v := hv'.trans hv.symm
  rw [hvv] at hnum hitems
  have hlt := (List.getElem?_eq_some_iff.1 hi).1
  have hle := opLines_le hl
  have hll := hl.length_eq
  have hpl : (p.pricing.lines pl.blake).length = 2 := by cases p.pricing <;> rfl
  have hget : (p.screens pl.blake d.expert ap.length time ttl (lines ++ opExtra d.expert as.length t lines))[(if d.expert then 8 else 4) + i]? = some kv := by
    unfold TxPayload.screens
    cases d.expert with
    | false =>
      rw [if_neg (by decide), List.append_nil, if_neg (by decide), List.append_nil, if_neg (by decide), Nat.add_comm]
      simp only [List.cons_append, List.nil_append, List.getElem?_cons_succ]
      rw [List.getElem?_append_left hlt, hi]
    | true =>
      rw [if_pos rfl, if_pos rfl, if_pos rfl, Nat.add_comm]
      simp only [List.cons_append, List.nil_append, List.getElem?_cons_succ, List.append_assoc]
      rw [List.getElem?_append_right (by omega), hpl, Nat.add_sub_cancel, List.getElem?_append_left hlt, hi]
  have hi128 : (if d.expert then 8 else 4) + i < 128 := by split <;> omega
  rw [reviewItem_v1 hok hdata, u8_id (by omega), if_neg (by
    have := (List.getElem?_eq_some_iff.1 hget).1
    have hnum' : v.v.numItems = _ := hnum
    rw [hnum']
    show ¬ (_ ≥ 128 ∨ _ > (p.screens pl.blake d.expert ap.length time ttl (lines ++ opExtra d.expert as.length t lines)).length)
    omega)]
  exact hitems _ _ hget s

/-- **C44: false.** A transfer of 10^17 motes to one account is accepted and shown as a transfer of 5 motes to another: the
values shown are not those of the signed argument list. -/
theorem C44_signed_arguments_false : ∃ (p : TxPayload) (as : List Arg) (d : Dev), p.Ok ∧ p.entry = .op 2 ∧ p.target = .native ∧
    p.args = .named as ∧
    argNamed as b!"amount" = some ⟨b!"amount", bigNum 8 (10 ^ 17), .u512⟩ ∧
    argNamed as b!"target" = some ⟨b!"target", List.replicate 32 0x66, .byteArray 32⟩ ∧
    run samplePl (Dev.init samplePl) (sampleUpload (1 :: p.tx Blake.H []) 2) =
      (d, [.reply [] 0x9000, .reply [] 0x9000, .reply [] 0x9000, .pending]) ∧
    (reviewItem samplePl d .tx 4 0).val = .ok (b!"Target", checksumHex Blake.H (List.replicate 32 0x11)) () ∧
    (reviewItem samplePl d .tx 5 0).val = .ok (b!"Amount", motesOf 5) () ∧
    (step samplePl d .approve).2 = signatureReply samplePl (samplePath 0) (samplePl.sha256 (Blake.H p.encode)) := by
  refine ⟨decoyTx [⟨b!"amount", bigNum 8 (10 ^ 17), .u512⟩, ⟨b!"target", List.replicate 32 0x66, .byteArray 32⟩,
    ⟨b!"id", 1 :: le 8 7, .option .u64⟩], _, _, decoyTx_ok _ ?_, rfl, rfl, rfl, rfl, rfl, pair_eq ?_, ?_, ?_, ?_⟩
  · intro a ha
    simp only [List.mem_cons, List.not_mem_nil, or_false] at ha
    rcases ha with rfl | rfl | rfl <;> exact ⟨by decide, by decide, by decide⟩
  · decide +kernel
  · decide +kernel
  · decide +kernel
  · decide +kernel

/-! ### C47 (version 1 transactions) -/

/-- **C47, version 1 (partial).** In every review of a well-formed transaction that has an item 2, that item shows the chain
name, when this has less than 100 bytes and no NUL byte.  Missing: names of 256 bytes or more, shown by the first bytes only, and
names with a NUL byte, shown up to it. -/
theorem C47_chain_v1_partial (pl : Platform) (hcap : pl.cap ≤ 16384) (d d' : Dev) (hd : d.Ok pl) (rx : Bytes)
    (pin : Bool) (hins : rx.getD 1 0 = 2) (p : TxPayload) (hp : p.Ok) (ap : List Bytes) (hap : ∀ x ∈ ap, ApprovalOk x)
    (hx : d.data ++ rx.drop 5 = 1 :: p.tx pl.blake ap) (h : step pl d (.apdu rx pin) = (d', .pending))
    (hc : p.chain.length < 100) (h0 : 0 ∉ p.chain) (n o : Nat) (hn : reviewCount pl d' .tx 0 = .ok n o) (h2 : 2 < n) (s : Nat) :
    ∃ c, reviewItem pl d' .tx 2 s = .ok (b!"Chain ID", p.chain) c := by
  obtain ⟨v, -, hs, hok, hdata, rfl, hv, -⟩ := pending_tx hcap hd hins hp hap hx h
  have hH : (pl.blake p.encode).length = 32 := pl.blake.len _
  have hat : At (p.tx pl.blake ap) 0 (p.tx pl.blake ap) := ⟨[], [], by simp, rfl⟩
  rw [reviewCount_v1] at hn
  simp only [Res.ok.injEq] at hn
  rw [reviewItem_v1 hok hdata, show u8 2 = 2 from rfl, if_neg (by omega)]
  refine item_chain (e := mkEnv pl d.expert (p.tx pl.blake ap)) (tx_layout hH hat) ?_ hs (by omega) h0 (by omega) s
  rw [hv]
  exact result_view hH

/-- A chain name of 6 characters, a NUL byte and more. -/
def nulChainTx : TxPayload := { sampleTransfer with chain := b!"casper" ++ 0 :: b!"-test" }

/-- **C47: false.** Two transactions for different chains show the same chain; the second hides 262 bytes of its name. -/
theorem C47_chain_false :
    (∃ d, nulChainTx.Ok ∧ nulChainTx.chain ≠ b!"casper" ∧
      run samplePl (Dev.init samplePl) (sampleUpload (1 :: nulChainTx.tx Blake.H []) 1) =
        (d, [.reply [] 0x9000, .reply [] 0x9000, .pending]) ∧
      (reviewItem samplePl d .tx 2 0).val = .ok (b!"Chain ID", b!"casper") ()) ∧
    (∃ d, (decoyTx decoyArgs).Ok ∧ (decoyTx decoyArgs).chain.length = 268 ∧
      run samplePl (Dev.init samplePl) (sampleUpload (1 :: (decoyTx decoyArgs).tx Blake.H []) 2) =
        (d, [.reply [] 0x9000, .reply [] 0x9000, .reply [] 0x9000, .pending]) ∧
      (reviewItem samplePl d .tx 2 0).val = .ok (b!"Chain ID", b!"casper") ()) := by
  refine ⟨⟨_, { sampleTransfer_ok with }, by decide, pair_eq ?_, ?_⟩, ⟨_, decoyTx_ok _ ?_, by decide +kernel, pair_eq ?_, ?_⟩⟩
  · decide +kernel
  · decide +kernel
  · intro a ha
    simp only [decoyArgs, List.mem_cons, List.not_mem_nil, or_false] at ha
    rcases ha with rfl | rfl | rfl <;> exact ⟨by decide, by decide, by decide⟩
  · decide +kernel
  · decide +kernel

end Casper
