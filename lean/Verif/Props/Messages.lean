import Verif.Lib.Content
import Verif.Props.Operations
/-
C24: message signing.
-/
namespace Casper
open M

/-- The pending review is of kind `r` and has exactly these items, in this order, whenever and however often they are asked for. -/
def Shows (pl : Platform) (d : Dev) (r : Review) (items : List (Bytes × Bytes)) : Prop :=
  d.review = some r ∧ ∀ t, reviewCount pl d r t = .ok items.length t ∧
    ∀ i kv, items[i]? = some kv → ∃ c, reviewItem pl d r i t = .ok kv c

/-- What an approval answers when these bytes are to be signed. -/
theorem approve_signs {pl : Platform} {d : Dev} {r : Review} (hr : d.review = some r) (hn : r ≠ .address) {bytes : Bytes}
    (h : signedBytes pl { d with review := none } = .ok bytes ()) :
    (step pl d .approve).2 = signatureReply pl d.hdPath (pl.sha256 bytes) := by
  have : step pl d .approve = appSign pl { d with review := none } := by
    unfold step
    rw [hr]
    cases r <;> first | rfl | exact absurd rfl hn
  rw [this]
  unfold appSign signatureReply
  rw [h]
  dsimp only
  cases pl.sign d.hdPath (pl.sha256 bytes) <;> rfl

/-- The upload of a message, in any device state. -/
theorem message_upload (pl : Platform) (hcap : pl.cap ≤ 16384) (d : Dev) (hd : d.Ok pl) (path : Bytes) (hl : path.length = 20)
    (hp : casperPath path) (cs : List Bytes) (last : Bytes) (hpre : b!"Casper Message:\n" <+: cs.flatten ++ last)
    (hfit : (cs.flatten ++ last).length ≤ pl.cap) :
    ∃ d', run pl d (upload 3 path cs last) = (d', List.replicate (cs.length + 1) (.reply [] 0x9000) ++ [.pending]) ∧
      Shows pl d' .message [(b!"Msg hash", lowerHex (pl.blake (cs.flatten ++ last)))] ∧ d'.hdPath = path ∧ d'.Ok pl ∧
      d'.ctx.content = d.ctx.content ∧ d'.v1 = d.v1 ∧ d'.dep = { kind := 1 } ∧ d'.pos = (cs.flatten ++ last).length ∧
      d'.mem = cs.flatten ++ last ++ d.mem.drop (cs.flatten ++ last).length := by
  obtain ⟨d0, e0, h1, h2, h3, h4, h5, h6, h7, h8, h9, h10⟩ := upload_reaches_mem pl d hd 3 (.inr rfl) path hl hp cs last hfit
  generalize cs.flatten ++ last = m at *
  have h16 : 16 ≤ m.length := hpre.length_le
  have ht16 : m.take 16 = messagePrefix := by
    obtain ⟨t, rfl⟩ := hpre
    rfl
  have hu : u16 d0.pos = m.length := by rw [h9]; exact Nat.mod_eq_of_lt (by omega)
  let d' : Dev := { d0 with ctx := { d0.ctx with start := 0, len := m.length, obj := .deploy }, epo := 0, dep := { kind := 1 }, review := some .message }
  have hbuf : (d0.mem.drop 0).take m.length = m := by rw [List.drop_zero, h8]; simp
  have hfin : finish pl 3 d0 = .ok () d' := by
    unfold finish
    rw [if_neg (by decide)]
    unfold orExplain parseMessage
    have hi : parserInit d0 = .ok () { d0 with ctx := { d0.ctx with start := 0, len := m.length }, epo := 0 } := by
      unfold parserInit
      rw [hu, if_neg (by omega)]
    simp only [bind_run, attempt_run, hi, modify_run, Res.bind_ok]
    have hc : ∀ e : Env, e.buf = m → checkMessage e 0 = .ok () 0 := by
      intro e he
      unfold checkMessage
      rw [he, if_neg (by omega), require_run, if_pos ht16]
    unfold runP
    simp only [Dev.env]
    rw [hc _ hbuf]
    rfl
  rw [hfin] at h10
  refine ⟨d', h10, ⟨rfl, fun t => ⟨rfl, fun i kv hi => ?_⟩⟩, h4, h1, (congrArg Ctx.content h5 :), h7, rfl, h9, h8⟩
  have hi0 : i = 0 := by have := (List.getElem?_eq_some_iff.1 hi).1; simpa using this
  subst hi0
  simp only [List.getElem?_cons_zero, Option.some.injEq] at hi
  subst hi
  refine ⟨t, ?_⟩
  show messageItem (d'.env pl) 0 t = _
  unfold messageItem
  rw [if_neg (by decide)]
  show Res.ok (b!"Msg hash", lowerHex (pl.blake ((d0.mem.drop 0).take m.length))) t = _
  rw [hbuf]

/-- **C24, what is true of it (any device state).** If the last transaction data handed to the device was a Deploy (or if there was none
since power on) then approving a message signs SHA-256 of exactly the message whose hash was shown. -/
theorem C24_state_partial (pl : Platform) (hcap : pl.cap ≤ 16384) (d : Dev) (hd : d.Ok pl) (hc : d.ctx.content = 0) (path : Bytes)
    (hl : path.length = 20) (hp : casperPath path) (cs : List Bytes) (last : Bytes) (hpre : b!"Casper Message:\n" <+: cs.flatten ++ last)
    (hfit : (cs.flatten ++ last).length ≤ pl.cap) :
    ∃ d', run pl d (upload 3 path cs last) = (d', List.replicate (cs.length + 1) (.reply [] 0x9000) ++ [.pending]) ∧
      Shows pl d' .message [(b!"Msg hash", lowerHex (pl.blake (cs.flatten ++ last)))] ∧
      (step pl d' .approve).2 = signatureReply pl path (pl.sha256 (cs.flatten ++ last)) := by
  obtain ⟨d', h1, h2, h3, h4, h5, h6, h7, h8, h9⟩ := message_upload pl hcap d hd path hl hp cs last hpre hfit
  refine ⟨d', h1, h2, ?_⟩
  rw [← h3]
  refine approve_signs h2.1 (by decide) ?_
  unfold signedBytes
  dsimp only
  rw [h5, h7, hc]
  simp only [h8, h9]
  generalize cs.flatten ++ last = m at *
  have : u16 (u16 m.length + 65536) = m.length := by unfold u16; omega
  simp [this]

/-- Whenever an upload of transaction data was completed in the history, the data began with the byte of a Deploy. -/
def OnlyDeploys (pl : Platform) (evs : List Event) : Prop :=
  ∀ pre ev post x xs, evs = pre ++ ev :: post → completesTx (run pl (Dev.init pl) pre).1 ev (x :: xs) → x = 0

theorem onlyDeploys_content {pl : Platform} {evs : List Event} (h : OnlyDeploys pl evs) : (run pl (Dev.init pl) evs).1.ctx.content = 0 := by
  induction evs using list_snoc with
  | nil => rfl
  | snoc evs ev ih =>
    have ih := ih fun pre ev' post x xs he hc => h pre ev' (post ++ [ev]) x xs (by rw [he]; simp) hc
    rw [run_append]
    simp only [run]
    rcases step_content ((Dev.Ok.init pl).run evs) ev with h1 | ⟨x, xs, h1, h2⟩
    · rw [h1, ih]
    · rw [h2, h evs ev [] x xs rfl h1]; rfl

/-- **C24, what is true of it (histories).** After any history in which all transaction data completed was Deploy data — whatever else
happened — a message upload is reviewed with its hash, and approving it signs SHA-256 of exactly the message.  The full statement has no
condition on the history; see `C24_rejected_transaction_false` and `C24_first_bytes_false`. -/
theorem C24_history_partial (pl : Platform) (hcap : pl.cap ≤ 16384) (evs : List Event) (hev : OnlyDeploys pl evs) (path : Bytes)
    (hl : path.length = 20) (hp : casperPath path) (cs : List Bytes) (last : Bytes) (hpre : b!"Casper Message:\n" <+: cs.flatten ++ last)
    (hfit : (cs.flatten ++ last).length ≤ pl.cap) :
    ∃ d', run pl (run pl (Dev.init pl) evs).1 (upload 3 path cs last) =
        (d', List.replicate (cs.length + 1) (.reply [] 0x9000) ++ [.pending]) ∧
      Shows pl d' .message [(b!"Msg hash", lowerHex (pl.blake (cs.flatten ++ last)))] ∧
      (step pl d' .approve).2 = signatureReply pl path (pl.sha256 (cs.flatten ++ last)) :=
  C24_state_partial pl hcap _ ((Dev.Ok.init pl).run evs) (onlyDeploys_content hev) path hl hp cs last hpre hfit

/-- The hypothesis on the history can be met, for example by the start of an upload of a Deploy, an address request, and another message. -/
example : OnlyDeploys samplePl ([.apdu (apdu 2 0 (samplePath 0)) true, .apdu (apdu 2 2 [0, 1, 2, 3]) true, .apdu (apdu 1 1 (samplePath 0)) true,
    .approve] ++ upload 3 (samplePath 0) [] b!"Casper Message:\nhi" ++ [.approve]) := by
  intro pre ev post x xs he ⟨rx, h1, h2, h3, h4⟩
  rcases pre with _ | ⟨a, pre⟩
  · cases he; cases h1; cases h3
  rcases pre with _ | ⟨b, pre⟩
  · cases he; cases h1
    have : x :: xs = [0, 1, 2, 3] := by rw [h4]; decide +kernel
    cases this; rfl
  rcases pre with _ | ⟨c, pre⟩
  · cases he; cases h1; cases h2
  rcases pre with _ | ⟨a, pre⟩
  · cases he; cases h1
  rcases pre with _ | ⟨a, pre⟩
  · cases he; cases h1; cases h2
  rcases pre with _ | ⟨a, pre⟩
  · cases he; cases h1; cases h2
  rcases pre with _ | ⟨a, pre⟩
  · cases he; cases h1
  · simp only [List.cons_append, List.nil_append, upload, List.map_nil, List.cons.injEq] at he
    simp at he

/-! ### Where it fails -/

/-- A completed upload that opened a review of version 1 data. -/
theorem upload_v1_pending {pl : Platform} (hcap : pl.cap ≤ 16384) {d d1 : Dev} (hd : d.Ok pl) {path : Bytes} (hl : path.length = 20)
    (hp : casperPath path) {cs : List Bytes} {last xs : Bytes} (hx : cs.flatten ++ last = 1 :: xs) (hfit : (cs.flatten ++ last).length ≤ pl.cap)
    (h : run pl d (upload 2 path cs last) = (d1, List.replicate (cs.length + 1) (.reply [] 0x9000) ++ [.pending])) :
    ∃ (d0 : Dev) (s : VS), d0.Ok pl ∧ d0.data = 1 :: xs ∧ d0.mem = 1 :: xs ++ d.mem.drop (xs.length + 1) ∧
      V1Accepted (mkEnv pl d.expert xs) s ∧ d1 = { d0.tookV1 s with review := some .tx } := by
  obtain ⟨d0, e0, h1, h2, h3, h4, h5, h6, h7, h8, h9, h10⟩ := upload_reaches_mem pl d hd 2 (.inl rfl) path hl hp cs last hfit
  rw [h] at h10
  simp only [Prod.mk.injEq, List.append_cancel_left_eq, List.cons.injEq, and_true] at h10
  obtain ⟨h11, h12⟩ := h10
  rw [hx] at h2 h8
  cases hf : finish pl 2 d0 with
  | err y t => rw [hf] at h12; cases h12
  | fault y => rw [hf] at h12; cases h12
  | ok a t =>
    rw [hf] at h11
    have h13 : d1 = t := h11
    subst h13
    unfold finish at hf
    rw [if_pos rfl] at hf
    unfold orExplain at hf
    simp only [bind_run, modify_run, Res.bind_ok, attempt_run] at hf
    cases ht : txParse pl { d0 with txInit := false } with
    | err y t => rw [ht] at hf; cases hf
    | fault y => rw [ht] at hf; cases hf
    | ok a t =>
      rw [ht] at hf
      rcases (txParse_ok (d := { d0 with txInit := false }) (by omega) h1).1 ht with ⟨ys, s, b1, b2, b3⟩ | ⟨ys, s, b1, b2, b3⟩
      · rw [show Dev.data { d0 with txInit := false } = d0.data from rfl, h2] at b1; cases b1
      · rw [show Dev.data { d0 with txInit := false } = d0.data from rfl, h2] at b1
        cases b1
        refine ⟨{ d0 with txInit := false }, s, h1, h2, h8, by rw [← h3]; exact b2, ?_⟩
        cases hf
        rw [b3]

/-- **C24 fails, with consequences.** A well-formed version 1 transaction is uploaded, its review opens, and the user rejects it.  Afterwards
a message of at most 27 bytes is uploaded and its review shows just the hash of the message.  Approving this *message* yields a signature of
the *rejected transaction's* hash, with the key chosen by the message upload. -/
theorem C24_rejected_transaction_false (pl : Platform) (hcap : pl.cap ≤ 16384) (d d1 : Dev) (hd : d.Ok pl) (path path' : Bytes)
    (hl : path.length = 20) (hp : casperPath path) (hl' : path'.length = 20) (hp' : casperPath path')
    (p : TxPayload) (hok : p.Ok) (ap : List Bytes) (hap : ∀ x ∈ ap, ApprovalOk x) (cs : List Bytes) (last : Bytes)
    (hcs : cs.flatten ++ last = 1 :: p.tx pl.blake ap) (hfit : (cs.flatten ++ last).length ≤ pl.cap)
    (hopen : run pl d (upload 2 path cs last) = (d1, List.replicate (cs.length + 1) (.reply [] 0x9000) ++ [.pending]))
    (ms : List Bytes) (mlast : Bytes) (hpre : b!"Casper Message:\n" <+: ms.flatten ++ mlast) (hshort : (ms.flatten ++ mlast).length ≤ 27) :
    ∃ d', run pl d1 (.reject :: upload 3 path' ms mlast) =
        (d', .reply [] 0x6986 :: (List.replicate (ms.length + 1) (.reply [] 0x9000) ++ [.pending])) ∧
      Shows pl d' .message [(b!"Msg hash", lowerHex (pl.blake (ms.flatten ++ mlast)))] ∧
      (step pl d' .approve).2 = signatureReply pl path' (pl.sha256 (pl.blake p.encode)) := by
  obtain ⟨d0, s, k1, k2, k3, k4, rfl⟩ := upload_v1_pending hcap hd hl hp hcs hfit hopen
  have hsmall : Small (mkEnv pl d.expert (p.tx pl.blake ap)) := by
    rw [hcs] at hfit
    unfold Small mkEnv; simp only [List.length_cons] at hfit ⊢; omega
  obtain ⟨hsv, -⟩ := k4.of_tx hsmall hok hap rfl
  have hH : (pl.blake p.encode).length = 32 := pl.blake.len _
  have hv := result_view (p := p) (ap := ap) (e := mkEnv pl d.expert (p.tx pl.blake ap)) hH
  have hat : At (p.tx pl.blake ap) 0 (p.tx pl.blake ap) := ⟨[], [], by simp, rfl⟩
  have hhash := (tx_layout hH hat).hash
  have hlen := hhash.le
  rw [hH] at hlen
  have hrej : step pl { d0.tookV1 s with review := some .tx } .reject =
      ({ d0.tookV1 s with review := none, io := poke d0.io [0x69, 0x86] }, .reply [] 0x6986) := rfl
  have hcap' : 58 + 1 ≤ pl.cap := by rw [hcs] at hfit; simp only [List.length_cons] at hfit; omega
  obtain ⟨d', h1, h2, h3, h4, h5, h6, h7, h8, h9⟩ := message_upload pl hcap { d0.tookV1 s with review := none, io := poke d0.io [0x69, 0x86] } k1
    path' hl' hp' ms mlast hpre (by omega)
  refine ⟨d', ?_, h2, ?_⟩
  · rw [run, hrej, h1]
  rw [← h3]
  refine approve_signs h2.1 (by decide) ?_
  have hc : d'.ctx.content = 1 := h5
  have hoff : d'.v1.md.size + d'.v1.md.fo 0 = 26 := by
    rw [h6]
    show s.v.md.size + s.v.md.fo 0 = 26
    rw [hsv]
    exact congrArg₂ (· + ·) hv.size hv.fo0
  have hmem : (d'.mem.drop 27).take 32 = pl.blake p.encode := by
    rw [h9]
    show ((ms.flatten ++ mlast ++ d0.mem.drop (ms.flatten ++ mlast).length).drop 27).take 32 = _
    generalize ms.flatten ++ mlast = m at *
    rw [List.drop_append, List.drop_eq_nil_of_le hshort, List.nil_append, List.drop_drop,
      show m.length + (27 - m.length) = 27 by omega, k3]
    obtain ⟨a, c, hb, hla⟩ := hhash
    rw [hb, show (1 :: (a ++ pl.blake p.encode ++ c) ++ d.mem.drop ((a ++ pl.blake p.encode ++ c).length + 1)) =
      (1 :: a) ++ (pl.blake p.encode ++ (c ++ d.mem.drop ((a ++ pl.blake p.encode ++ c).length + 1))) by simp,
      List.drop_left' (by simp [hla]), List.take_left' hH]
  unfold signedBytes
  dsimp only
  rw [hc]
  simp only [hoff]
  rw [if_neg (by decide), if_pos (show ((1 : Nat) = 0 ∧ d'.dep.kind = 0) ∨ True from .inr trivial), if_pos (by omega), hmem]

/-- An instance: the transfer of 2.5 CSPR is rejected, the message "Hello" is approved — and the transfer is signed. -/
example : ∃ d1 d', run samplePl (Dev.init samplePl) (upload 2 (samplePath 0)
      [(1 :: sampleTransfer.tx Blake.H [sampleApproval]).take 200] ((1 :: sampleTransfer.tx Blake.H [sampleApproval]).drop 200)) =
      (d1, [.reply [] 0x9000, .reply [] 0x9000, .pending]) ∧
    run samplePl d1 (.reject :: upload 3 (samplePath 0) [] b!"Casper Message:\nHello") =
      (d', [.reply [] 0x6986, .reply [] 0x9000, .pending]) ∧
    Shows samplePl d' .message [(b!"Msg hash", lowerHex (Blake.H b!"Casper Message:\nHello"))] ∧
    (step samplePl d' .approve).2 = signatureReply samplePl (samplePath 0) (samplePl.sha256 (Blake.H sampleTransfer.encode)) := by
  obtain ⟨d1, ttl, -, h1, -, -⟩ := C45_transfer samplePl (by decide) (Dev.init samplePl) (.init _) (samplePath 0) rfl (by decide)
    sampleTransfer sampleNamed [sampleApproval] sampleTransfer_ok rfl rfl rfl
    ⟨b!"amount", bigNum 4 2500000000, .u512⟩ ⟨b!"target", List.replicate 32 0x11, .byteArray 32⟩
    ⟨b!"id", 1 :: le 8 7, .option .u64⟩ [] (List.Perm.refl _) ⟨rfl, rfl, rfl, .inl rfl⟩ 4 2500000000 (by decide) (by decide)
    ⟨rfl, rfl⟩ _ _ (.byteArray (List.replicate 32 0x11) (by decide) (by decide)) (.someU64 7 (by decide)) [] (by simp)
    (by decide) (by decide) (by decide) sampleApproval_ok [(1 :: sampleTransfer.tx Blake.H [sampleApproval]).take 200]
    ((1 :: sampleTransfer.tx Blake.H [sampleApproval]).drop 200)
    (by rw [List.flatten_cons, List.flatten_nil, List.append_nil, List.take_append_drop]; rfl) (by decide +kernel) [] (by intro h; cases h)
  obtain ⟨d', h2, h3, h4⟩ := C24_rejected_transaction_false samplePl (by decide) (Dev.init samplePl) d1 (.init _) (samplePath 0) (samplePath 0) rfl
    (by decide) rfl (by decide) sampleTransfer sampleTransfer_ok [sampleApproval] sampleApproval_ok
    [(1 :: sampleTransfer.tx Blake.H [sampleApproval]).take 200] ((1 :: sampleTransfer.tx Blake.H [sampleApproval]).drop 200)
    (by rw [List.flatten_cons, List.flatten_nil, List.append_nil, List.take_append_drop]; rfl) (by decide +kernel) h1 []
    b!"Casper Message:\nHello" (by decide) (by decide)
  exact ⟨d1, d', h1, h2, h3, h4⟩

/-- Transaction data of an unknown kind, after power on: refused, but the kind is remembered. -/
theorem refused_kind (pl : Platform) (hcap : pl.cap ≤ 16384) (path : Bytes) (hl : path.length = 20) (hp : casperPath path)
    (x y : UInt8) (xs : Bytes) (hx : 2 ≤ x) (hxs : xs.length + 2 ≤ pl.cap) :
    ∃ t : Dev, run pl (Dev.init pl) (upload 2 path [] (x :: y :: xs)) = (t, [.reply [] 0x9000, .reply b!"Unrecognized error code" 0x6984]) ∧
      t.Ok pl ∧ t.ctx.content = x.toNat ∧ t.v1 = {} := by
  obtain ⟨d0, e0, k1, k2, k3, k4, k5, k6, k7, k8, k9, k10⟩ := upload_reaches_mem pl (Dev.init pl) (.init pl) 2 (.inl rfl) path hl hp []
    (x :: y :: xs) (by simp; omega)
  rw [List.flatten_nil, List.nil_append] at k2 k8 k9
  have hu : u16 d0.pos = xs.length + 2 := by rw [k9]; simp only [List.length_cons]; exact Nat.mod_eq_of_lt (by omega)
  have hbuf : (d0.mem.drop 0).take (xs.length + 2) = x :: y :: xs := by rw [List.drop_zero, k8]; simp
  have hfin : ∃ t : Dev, outOf e0 (finish pl 2 d0) = (t, .reply b!"Unrecognized error code" 0x6984) ∧ t.Ok pl ∧ t.ctx.content = x.toNat ∧
      t.v1 = {} := by
    have hpar : ∃ t : Dev, txParse pl { d0 with txInit := false } = .err eUnknownPrefix t ∧ t.Ok pl ∧ t.ctx.content = x.toNat ∧ t.v1 = {} := by
      have hi : parserInit { d0 with txInit := false } = .ok () { d0 with
          txInit := false, ctx := { d0.ctx with start := 0, len := xs.length + 2 }, epo := 0 } := by
        unfold parserInit
        dsimp only
        rw [hu, if_neg (by omega)]
      unfold txParse parserParse
      simp only [bind_run, hi, Res.bind_ok]
      unfold runP
      simp only [Dev.env]
      rw [hbuf]
      simp only [readU8, List.getElem?_cons_zero, Res.bind_ok, modify_run, get_run]
      have h0 : x.toNat ≠ 0 := by have : (2 : UInt8).toNat ≤ x.toNat := hx; simp at this; omega
      have h1 : x.toNat ≠ 1 := by have : (2 : UInt8).toNat ≤ x.toNat := hx; simp at this; omega
      rw [if_neg (show ¬ xs.length + 2 - 1 = 0 by omega), if_neg h0, if_neg h1]
      exact ⟨_, rfl, k1, rfl, k7⟩
    obtain ⟨t, ht, h1, h2, h3⟩ := hpar
    unfold finish
    rw [if_pos rfl]
    unfold orExplain
    simp only [bind_run, modify_run, Res.bind_ok, attempt_run, ht]
    refine ⟨_, Prod.ext rfl ?_, h1, h2, h3⟩
    show Out.reply (List.take (errorText eUnknownPrefix).length (poke t.io (errorText eUnknownPrefix))) 0x6984 = _
    rw [poke_take]
    rfl
  obtain ⟨t, k11, k12, k13, k14⟩ := hfin
  rw [k11] at k10
  exact ⟨t, k10, k12, k13, k14⟩

/-- **C24 fails after refused data, too.** After power on, someone sends transaction data of an unknown kind (first byte 2 or more), which is
refused.  A message of at least 32 bytes is then reviewed with the hash of the whole message, but approving it signs SHA-256 of its
first 32 bytes only: all messages which agree in these have the same signature. -/
theorem C24_first_bytes_false (pl : Platform) (hcap : pl.cap ≤ 16384) (path path' : Bytes) (hl : path.length = 20) (hp : casperPath path)
    (hl' : path'.length = 20) (hp' : casperPath path') (x y : UInt8) (xs : Bytes) (hx : 2 ≤ x) (hxs : xs.length + 2 ≤ pl.cap)
    (ms : List Bytes) (mlast : Bytes) (hpre : b!"Casper Message:\n" <+: ms.flatten ++ mlast) (hlong : 32 ≤ (ms.flatten ++ mlast).length)
    (hfit : (ms.flatten ++ mlast).length ≤ pl.cap) :
    ∃ d1 d', run pl (Dev.init pl) (upload 2 path [] (x :: y :: xs)) = (d1, [.reply [] 0x9000, .reply b!"Unrecognized error code" 0x6984]) ∧
      run pl d1 (upload 3 path' ms mlast) = (d', List.replicate (ms.length + 1) (.reply [] 0x9000) ++ [.pending]) ∧
      Shows pl d' .message [(b!"Msg hash", lowerHex (pl.blake (ms.flatten ++ mlast)))] ∧
      (step pl d' .approve).2 = signatureReply pl path' (pl.sha256 ((ms.flatten ++ mlast).take 32)) := by
  obtain ⟨t, k10, k12, k13, k14⟩ := refused_kind pl hcap path hl hp x y xs hx hxs
  obtain ⟨d', h1, h2, h3, h4, h5, h6, h7, h8, h9⟩ := message_upload pl hcap t k12 path' hl' hp' ms mlast hpre hfit
  refine ⟨t, d', k10, h1, h2, ?_⟩
  rw [← h3]
  refine approve_signs h2.1 (by decide) ?_
  have h0 : x.toNat ≠ 0 := by have : (2 : UInt8).toNat ≤ x.toNat := hx; simp at this; omega
  have h1 : x.toNat ≠ 1 := by have : (2 : UInt8).toNat ≤ x.toNat := hx; simp at this; omega
  unfold signedBytes
  dsimp only
  rw [h5, k13, h6, k14, h9]
  simp only [h0, h1, false_and, or_false, if_false]
  rw [if_pos (show 0 + ((V1.md {}).size + (V1.md {}).fo 0) + 32 ≤ pl.cap by show 32 ≤ pl.cap; omega)]
  show Res.ok (((ms.flatten ++ mlast ++ t.mem.drop (ms.flatten ++ mlast).length).drop 0).take 32) () = _
  rw [List.drop_zero, List.take_append_of_le_length hlong]

/-- Two different messages with the same signature. -/
example : ∃ m m' : Bytes, m ≠ m' ∧ ∀ t ∈ [m, m'], ∃ d1 d',
    run samplePl (Dev.init samplePl) (upload 2 (samplePath 0) [] [7, 0]) = (d1, [.reply [] 0x9000, .reply b!"Unrecognized error code" 0x6984]) ∧
    run samplePl d1 (upload 3 (samplePath 0) [] t) = (d', [.reply [] 0x9000, .pending]) ∧
    (step samplePl d' .approve).2 = signatureReply samplePl (samplePath 0) (samplePl.sha256 b!"Casper Message:\nI will give you ") := by
  refine ⟨b!"Casper Message:\nI will give you 10 CSPR", b!"Casper Message:\nI will give you 9999 CSPR", by decide, fun t ht => ?_⟩
  simp only [List.mem_cons, List.not_mem_nil, or_false] at ht
  rcases ht with rfl | rfl
  · obtain ⟨d1, d', h1, h2, h3, h4⟩ := C24_first_bytes_false samplePl (by decide) (samplePath 0) (samplePath 0) rfl (by decide) rfl (by decide) 7 0 []
      (by decide) (by decide) [] b!"Casper Message:\nI will give you 10 CSPR" (by decide) (by decide) (by decide)
    exact ⟨d1, d', h1, h2, h4⟩
  · obtain ⟨d1, d', h1, h2, h3, h4⟩ := C24_first_bytes_false samplePl (by decide) (samplePath 0) (samplePath 0) rfl (by decide) rfl (by decide) 7 0 []
      (by decide) (by decide) [] b!"Casper Message:\nI will give you 9999 CSPR" (by decide) (by decide) (by decide)
    exact ⟨d1, d', h1, h2, h4⟩

end Casper
