import Verif.Lib.V1Call
import Verif.Props.Operations
/-
C53: well-formed version 1 contract calls are accepted, shown faithfully and signed.
C54: the arguments of a version 1 contract call are always committed to by a hash that is shown.
C50: different contract addresses are shown differently.
-/
namespace Casper
open M

/-- Well-formed calls of an entry point `name`: names of at most 99 bytes without NUL, arguments that start before position
256. -/
structure TxPayload.Call (p : TxPayload) (name : Bytes) : Prop where
  ok : p.Ok
  entry : p.entry = .custom name
  short : name.length ≤ 99
  name0 : 0 ∉ name
  pos : p.argsPos < 256
  chain : p.chain.length ≤ 99
  chain0 : 0 ∉ p.chain

theorem call_sane {e : Env} {p : TxPayload} {ap : List Bytes} {name : Bytes} (hn : p.entry = .custom name) (o : Nat) :
    ∃ o', checkSanity e (p.view e (p.start e.blake ap)) o = .ok () o' := by
  have h1 : (p.view e (p.start e.blake ap)).epType = 1 := by
    have := result_ep (H := e.blake) (p := p) (ap := ap) (e := e)
    rw [hn] at this
    exact this
  unfold checkSanity
  rw [if_neg (by simp [h1]), h1]
  exact ⟨o, rfl⟩

/-- Calls whose operation lines are `lines` are accepted and shown with them. -/
theorem call_upload (pl : Platform) (hcap : pl.cap ≤ 16384) (d : Dev) (hd : d.Ok pl) (path : Bytes)
    (hlen : path.length = 20) (hpath : casperPath path) (p : TxPayload) (name : Bytes) (ap : List Bytes)
    (hp : p.Call name) (hap : ∀ x ∈ ap, ApprovalOk x) (cs : List Bytes) (last : Bytes)
    (hcs : cs.flatten ++ last = 1 :: p.tx pl.blake ap) (hfit : (cs.flatten ++ last).length ≤ pl.cap)
    (time : Bytes) (hx : d.expert = true → p.ExpertOk pl.fmtTime time) (lines : List (Bytes × Bytes))
    (hcount : p.opCount (mkEnv pl d.expert (p.tx pl.blake ap)) = lines.length) (hfew : lines.length ≤ 100)
    (hent : ∀ {i kv}, lines[i]? = some kv → ∀ o, ∃ c, itemCustom (mkEnv pl d.expert (p.tx pl.blake ap))
      (p.result pl.blake ap (mkEnv pl d.expert (p.tx pl.blake ap))) i o = .ok kv c) :
    ∃ d' ttl, (d.expert = true → duration ttl = p.ttl / 1000) ∧
      run pl d (upload 2 path cs last) = (d', List.replicate (cs.length + 1) (.reply [] 0x9000) ++ [.pending]) ∧
      Displays pl d' (p.screens pl.blake d.expert ap.length time ttl lines) ∧
      (step pl d' .approve).2 = signatureReply pl path (pl.sha256 (pl.blake p.encode)) := by
  have hs : Small (mkEnv pl d.expert (p.tx pl.blake ap)) := by
    rw [hcs] at hfit
    unfold Small mkEnv; simp only [List.length_cons] at hfit ⊢; omega
  have hep : (p.result pl.blake ap (mkEnv pl d.expert (p.tx pl.blake ap))).epType = 1 := by rw [result_ep, hp.entry]; rfl
  obtain ⟨s, ttl, hacc, hsv, hdur, hnum, hitems⟩ :=
    accepted_screens (e := mkEnv pl d.expert (p.tx pl.blake ap)) (p := p) (ap := ap) (lines := lines) (time := time)
      hs hp.ok hap rfl hp.chain hp.chain0 (call_sane hp.entry) hcount (by omega)
      (fun _ _ => by rw [hp.entry]; exact Nat.one_ne_zero)
      (fun {i kv} hi o => by
        unfold itemEntry
        refine exThen (t := _) (a := ()) rfl ?_
        obtain ⟨c, hc⟩ := hent hi _
        exact ⟨c, (congrFun (if_pos hep) _).trans hc⟩) hx
  have hn : (p.screens pl.blake d.expert ap.length time ttl lines).length ≤ 128 := by
    have : (p.pricing.lines pl.blake).length = 2 := by cases p.pricing <;> rfl
    unfold TxPayload.screens
    cases hxx : d.expert <;> simp [this] <;> omega
  obtain ⟨d', h1, h2, h3⟩ := upload_screens pl hcap d hd path hlen hpath p ap cs last hcs hfit hacc hsv hnum hn hitems
  exact ⟨d', ttl, hdur, h1, h2, h3⟩

theorem callLines_le (H : Bytes → Bytes) (p : TxPayload) (expert : Bool) (name : Bytes) :
    (p.callLines H expert name).length ≤ 6 := by
  unfold TxPayload.callLines versionLine
  cases p.target <;> simp <;> (try split) <;> simp

/-- **C53.** Any chunking of a well-formed contract call is acknowledged and opens a review; the review consists of exactly
the specified lines: hash, type, chain, account, how the contract is found and which one it is, the entry point, and the hash
of the serialized arguments; approving it answers with the signature of SHA-256 of the payload's hash.  (Missing: packages
without version in expert mode, see C54; names longer than 99 bytes or containing NUL; arguments from position 256 on.) -/
theorem C53_call_partial (pl : Platform) (hcap : pl.cap ≤ 16384) (d : Dev) (hd : d.Ok pl) (path : Bytes)
    (hlen : path.length = 20) (hpath : casperPath path) (p : TxPayload) (name : Bytes) (ap : List Bytes)
    (hp : p.Call name) (ht : p.target.Showable d.expert) (hap : ∀ x ∈ ap, ApprovalOk x) (cs : List Bytes) (last : Bytes)
    (hcs : cs.flatten ++ last = 1 :: p.tx pl.blake ap) (hfit : (cs.flatten ++ last).length ≤ pl.cap)
    (time : Bytes) (hx : d.expert = true → p.ExpertOk pl.fmtTime time) :
    ∃ d' ttl, (d.expert = true → duration ttl = p.ttl / 1000) ∧
      run pl d (upload 2 path cs last) = (d', List.replicate (cs.length + 1) (.reply [] 0x9000) ++ [.pending]) ∧
      Displays pl d' (p.screens pl.blake d.expert ap.length time ttl (p.callLines pl.blake d.expert name)) ∧
      (step pl d' .approve).2 = signatureReply pl path (pl.sha256 (pl.blake p.encode)) := by
  have hs : Small (mkEnv pl d.expert (p.tx pl.blake ap)) := by
    rw [hcs] at hfit
    unfold Small mkEnv; simp only [List.length_cons] at hfit ⊢; omega
  have hH : (pl.blake p.encode).length = 32 := pl.blake.len _
  have hat : At (p.tx pl.blake ap) 0 (p.tx pl.blake ap) := ⟨[], [], by simp, rfl⟩
  have hlay := tx_layout hH hat
  refine call_upload pl hcap d hd path hlen hpath p name ap hp hap cs last hcs hfit time hx _
    (callLines_count (e := mkEnv pl d.expert (p.tx pl.blake ap)) hp.entry ht) ?_ ?_
  · have := callLines_le pl.blake p d.expert name; omega
  · intro i kv hi o
    exact itemCustom_at (e := mkEnv pl d.expert (p.tx pl.blake ap)) hs hp.ok hH hlay hp.pos hp.entry hp.short hp.name0 ht hi o

/-- What expert mode shows of a call of a package without version: a line of question marks, and no hash. -/
theorem itemCustom_unversioned {e : Env} {p : TxPayload} {ap : List Bytes} (hok : p.Ok)
    (hH : (e.blake p.encode).length = 32) (hl : TxLayout p e.blake ap e.buf) {name : Bytes} (hn : p.entry = .custom name)
    (hnl : name.length ≤ 99) (hn0 : 0 ∉ name) {h : Bytes} {rt : VmRuntime} (ht : p.target = .byPackageHash h none rt)
    (hx : e.expert = true) {i : Nat} {kv : Bytes × Bytes}
    (hi : ([(b!"Execution", b!"by-hash-versioned"), (b!"Address", decimalAddress h), (b!"?", b!"?"),
      (b!"Entry-point", name)] : List (Bytes × Bytes))[i]? = some kv) (s : Nat) :
    ∃ c, itemCustom e (p.result e.blake ap e) i s = .ok kv c := by
  have hlt := (List.getElem?_eq_some_iff.1 hi).1
  have hcnt : p.opCount e = 4 := by
    unfold TxPayload.opCount
    rw [hn, ht]
    simp [V1Target.items, entryItems, V1Entry.tag]
  have hni : (p.result e.blake ap e).numItems = 13 := by
    rw [result_items, hcnt, if_pos hx]
  have hbound : ¬ i ≥ u32 ((p.result e.blake ap e).numItems + 4294967296 - (if e.expert then 9 else 4)) := by
    rw [hni, if_pos hx]
    simp only [List.length_cons, List.length_nil] at hlt
    show ¬ i ≥ 4
    omega
  have hentry := customEntry_at hH hl hn hnl hn0
  have htg := hl.target
  unfold itemCustom
  rw [if_neg hbound, result_target' hH, hx]
  have hokt := hok.target
  rw [ht] at htg hokt ⊢
  match i, hi with
  | 0, hi => simp at hi; rw [← hi]; exact ⟨s, rfl⟩
  | 1, hi =>
    simp at hi; rw [← hi]
    rw [V1Target.encode] at htg
    have h1 := callTable_fields htg
    simp only [List.flatten_cons, List.flatten_nil, List.append_nil, List.length_cons, List.length_nil, At.append] at h1
    have h2 := callTable_fields h1.2.1
    simp only [List.flatten_cons, List.flatten_nil, List.append_nil, List.length_cons, List.length_nil, At.append] at h2
    exact exThen (printByHash_at (h2.2.1.cast (by simp only [V1Target.view])) hokt.1) ⟨_, rfl⟩
  | 2, hi => simp at hi; rw [← hi]; exact ⟨s, rfl⟩
  | 3, hi => simp at hi; rw [← hi]; exact hentry s
  | i + 4, hi => simp at hi

/-- **C54 is false.** In expert mode the review of any well-formed call of a package without version shows question marks and
no hash of the arguments; approving it signs. -/
theorem C54_args_hash_false (pl : Platform) (hcap : pl.cap ≤ 16384) (d : Dev) (hd : d.Ok pl) (path : Bytes)
    (hlen : path.length = 20) (hpath : casperPath path) (p : TxPayload) (name : Bytes) (ap : List Bytes)
    (hp : p.Call name) (h : Bytes) (rt : VmRuntime) (ht : p.target = .byPackageHash h none rt) (hap : ∀ x ∈ ap, ApprovalOk x)
    (cs : List Bytes) (last : Bytes)
    (hcs : cs.flatten ++ last = 1 :: p.tx pl.blake ap) (hfit : (cs.flatten ++ last).length ≤ pl.cap)
    (time : Bytes) (hexp : d.expert = true) (hx : p.ExpertOk pl.fmtTime time) :
    ∃ d' ttl, duration ttl = p.ttl / 1000 ∧
      run pl d (upload 2 path cs last) = (d', List.replicate (cs.length + 1) (.reply [] 0x9000) ++ [.pending]) ∧
      Displays pl d' (p.screens pl.blake true ap.length time ttl
        [(b!"Execution", b!"by-hash-versioned"), (b!"Address", decimalAddress h), (b!"?", b!"?"), (b!"Entry-point", name)]) ∧
      (step pl d' .approve).2 = signatureReply pl path (pl.sha256 (pl.blake p.encode)) := by
  have hH : (pl.blake p.encode).length = 32 := pl.blake.len _
  have hat : At (p.tx pl.blake ap) 0 (p.tx pl.blake ap) := ⟨[], [], by simp, rfl⟩
  have hlay := tx_layout hH hat
  obtain ⟨d', ttl, h1, h2, h3, h4⟩ := call_upload pl hcap d hd path hlen hpath p name ap hp hap cs last hcs hfit time (fun _ => hx)
    [(b!"Execution", b!"by-hash-versioned"), (b!"Address", decimalAddress h), (b!"?", b!"?"), (b!"Entry-point", name)]
    (by
      unfold TxPayload.opCount
      rw [hp.entry, ht]
      simp [V1Target.items, entryItems, V1Entry.tag]) (by simp)
    (fun {i kv} hi o => itemCustom_unversioned (e := mkEnv pl d.expert (p.tx pl.blake ap)) hp.ok hH hlay hp.entry hp.short
      hp.name0 ht hexp hi o)
  rw [hexp] at h3
  exact ⟨d', ttl, h1 hexp, h2, h3, h4⟩

/-- **C54, the other cases.** Every other well-formed call shows the hash of its complete serialized arguments. -/
theorem C54_args_hash_partial (pl : Platform) (hcap : pl.cap ≤ 16384) (d : Dev) (hd : d.Ok pl) (path : Bytes)
    (hlen : path.length = 20) (hpath : casperPath path) (p : TxPayload) (name : Bytes) (ap : List Bytes)
    (hp : p.Call name) (ht : p.target.Showable d.expert) (hap : ∀ x ∈ ap, ApprovalOk x) (cs : List Bytes) (last : Bytes)
    (hcs : cs.flatten ++ last = 1 :: p.tx pl.blake ap) (hfit : (cs.flatten ++ last).length ≤ pl.cap)
    (time : Bytes) (hx : d.expert = true → p.ExpertOk pl.fmtTime time) :
    ∃ d' i, run pl d (upload 2 path cs last) = (d', List.replicate (cs.length + 1) (.reply [] 0x9000) ++ [.pending]) ∧
      ∀ s, ∃ c, reviewItem pl d' .tx i s = .ok (b!"Args hash", checksumHex pl.blake (pl.blake p.args.blob)) c := by
  obtain ⟨d', ttl, -, h2, h3, -⟩ := C53_call_partial pl hcap d hd path hlen hpath p name ap hp ht hap cs last hcs hfit time hx
  have hm : (b!"Args hash", checksumHex pl.blake (pl.blake p.args.blob)) ∈
      p.screens pl.blake d.expert ap.length time ttl (p.callLines pl.blake d.expert name) := by
    unfold TxPayload.screens TxPayload.callLines
    simp
  obtain ⟨i, hi, he⟩ := List.mem_iff_getElem.1 hm
  exact ⟨d', i, h2, fun s => (h3 s).2 i _ (by rw [List.getElem?_eq_getElem hi, he])⟩

/-! ### Addresses -/

theorem decText_three {n : Nat} (h : 100 ≤ n) (h' : n < 256) : (decText n).length = 3 := by
  have : ∀ n : Fin 256, 100 ≤ n.val → (decText n.val).length = 3 := by decide +kernel
  exact this ⟨n, h'⟩ h

/-- **C50, addresses whose bytes all have three digits.** The text shown determines the address. -/
theorem C50_address_partial (xs ys : Bytes) (hx : ∀ b ∈ xs, 100 ≤ b.toNat) (hy : ∀ b ∈ ys, 100 ≤ b.toNat)
    (h : decimalAddress xs = decimalAddress ys) : xs = ys := by
  induction xs generalizing ys with
  | nil =>
    cases ys with
    | nil => rfl
    | cons y ys =>
      have := congrArg List.length h
      simp [decimalAddress, decText_three (hy y (by simp)) y.toNat_lt] at this
      omega
  | cons x xs ih =>
    cases ys with
    | nil =>
      have := congrArg List.length h
      simp [decimalAddress, decText_three (hx x (by simp)) x.toNat_lt] at this
    | cons y ys =>
      simp only [decimalAddress, List.flatMap_cons] at h
      obtain ⟨h1, h2⟩ := List.append_inj h (by
        rw [decText_three (hx x (by simp)) x.toNat_lt, decText_three (hy y (by simp)) y.toNat_lt])
      have h3 : x.toNat = y.toNat := decText_inj h1
      rw [UInt8.toNat_inj] at h3
      rw [h3, ih ys (fun b hb => hx b (by simp [hb])) (fun b hb => hy b (by simp [hb])) h2]

/-! A concrete call, in normal mode. -/

def sampleCall (target : V1Target) : TxPayload where
  initiator := .secp256k1 (List.replicate 33 0xab)
  timestamp := 1700000000000
  ttl := 1800000
  chain := b!"casper"
  pricing := .limited 2500000000 1 true
  args := .named [⟨b!"amount", bigNum 4 2500000000, .u512⟩]
  target := target
  entry := .custom b!"deposit"

theorem sampleCall_call {t : V1Target} (ht : t.Ok) : (sampleCall t).Call b!"deposit" where
  ok := {
    initiator := rfl
    timestamp := show 1700000000000 < 2 ^ 64 by decide
    ttl := show 1800000 < 2 ^ 64 by decide
    pricing := ⟨by decide, by decide⟩
    args := by
      intro a ha
      simp only [List.mem_cons, List.not_mem_nil, or_false] at ha
      subst ha
      exact ⟨by decide, by decide, by decide⟩
    target := ht
    entry := trivial }
  entry := rfl
  short := by decide
  name0 := by decide
  pos := show (sampleCall .native).argsPos < 256 by decide
  chain := show b!"casper".length ≤ 99 by decide
  chain0 := show 0 ∉ b!"casper" by decide

theorem encode_length_target (p : TxPayload) (t : V1Target) :
    ({ p with target := t } : TxPayload).encode.length + p.target.encode.length = p.encode.length + t.encode.length := by
  simp only [TxPayload.encode, TxPayload.body, callTable_length, List.flatten_cons, List.flatten_nil, List.length_append,
    List.length_cons, pfx_length]
  omega

/-- The review of a call by hash, uploaded in one chunk in normal mode. -/
theorem sampleCall_shown (h : Bytes) (hh : h.length = 32) :
    ∃ d', run samplePl (Dev.init samplePl) (upload 2 (samplePath 0) [] (1 :: (sampleCall (.byHash h .v1)).tx Blake.H [])) =
      (d', [.reply [] 0x9000, .pending]) ∧
    Displays samplePl d' [(b!"Txn hash", checksumHex Blake.H (Blake.H (sampleCall (.byHash h .v1)).encode)),
      (b!"Type", b!"Contract Execution"), (b!"Chain ID", b!"casper"),
      (b!"Account", checksumHex Blake.H (2 :: List.replicate 33 0xab)), (b!"Execution", b!"by-hash"),
      (b!"Address", decimalAddress h), (b!"Entry-point", b!"deposit"),
      (b!"Args hash", checksumHex Blake.H (Blake.H (encodeRuntimeArgs [⟨b!"amount", bigNum 4 2500000000, .u512⟩])))] := by
  obtain ⟨d', ttl, -, h1, h2, -⟩ := C53_call_partial samplePl (by decide) (Dev.init samplePl) (.init _) (samplePath 0) rfl (by decide)
    (sampleCall (.byHash h .v1)) b!"deposit" [] (sampleCall_call ⟨hh, trivial⟩) trivial (by simp) []
    (1 :: (sampleCall (.byHash h .v1)).tx Blake.H []) rfl
    (by
      rw [List.flatten_nil, List.nil_append, List.length_cons, tx_length _ _ (Blake.H.len _)]
      have h1 := encode_length_target (sampleCall .native) (.byHash h .v1)
      have h2 : (V1Target.byHash h .v1).encode.length = 95 := by
        simp [V1Target.encode, callTable_length, VmRuntime.encode, hh]
      have h3 : (sampleCall .native).encode.length ≤ 1000 := by decide +kernel
      have h4 : (sampleCall (.byHash h .v1)).encode.length ≤ 1095 := by
        have : (sampleCall (.byHash h .v1)).encode.length + V1Target.native.encode.length =
          (sampleCall .native).encode.length + (V1Target.byHash h .v1).encode.length := h1
        omega
      show _ ≤ 8192
      omega)
    [] (by intro h; cases h)
  exact ⟨d', h1, h2⟩

/-- **C50 is false.** Two different addresses whose calls are accepted and show the same address. -/
theorem C50_address_false : ∃ h h' d d', h ≠ h' ∧ h.length = 32 ∧ h'.length = 32 ∧
    run samplePl (Dev.init samplePl) (upload 2 (samplePath 0) [] (1 :: (sampleCall (.byHash h .v1)).tx Blake.H [])) =
      (d, [.reply [] 0x9000, .pending]) ∧
    run samplePl (Dev.init samplePl) (upload 2 (samplePath 0) [] (1 :: (sampleCall (.byHash h' .v1)).tx Blake.H [])) =
      (d', [.reply [] 0x9000, .pending]) ∧
    ∃ text, ∀ s, (∃ c, reviewItem samplePl d .tx 5 s = .ok (b!"Address", text) c) ∧
      ∃ c, reviewItem samplePl d' .tx 5 s = .ok (b!"Address", text) c := by
  obtain ⟨d, h1, h2⟩ := sampleCall_shown (1 :: 11 :: List.replicate 30 0) rfl
  obtain ⟨d', h3, h4⟩ := sampleCall_shown (11 :: 1 :: List.replicate 30 0) rfl
  refine ⟨_, _, d, d', by decide, rfl, rfl, h1, h3, decimalAddress (1 :: 11 :: List.replicate 30 0), fun s => ⟨?_, ?_⟩⟩
  · exact (h2 s).2 5 _ rfl
  · rw [show decimalAddress (1 :: 11 :: List.replicate 30 0) = decimalAddress (11 :: 1 :: List.replicate 30 0) by decide]
    exact (h4 s).2 5 _ rfl

/-- The hypotheses of `C54_args_hash_false` can be met. -/
example : ∃ d' ttl, run samplePl { Dev.init samplePl with expert := true } (upload 2 (samplePath 0) []
      (1 :: (sampleCall (.byPackageHash (List.replicate 32 7) none .v1)).tx Blake.H [])) =
      (d', [.reply [] 0x9000, .pending]) ∧
    Displays samplePl d' ((sampleCall (.byPackageHash (List.replicate 32 7) none .v1)).screens Blake.H true 0
      b!"2021-05-04 14:20:35 UTC" ttl
        [(b!"Execution", b!"by-hash-versioned"), (b!"Address", decimalAddress (List.replicate 32 7)), (b!"?", b!"?"),
         (b!"Entry-point", b!"deposit")]) := by
  obtain ⟨d', ttl, -, h1, h2, -⟩ := C54_args_hash_false samplePl (by decide) { Dev.init samplePl with expert := true }
    (Dev.Ok.init samplePl) (samplePath 0) rfl (by decide)
    (sampleCall (.byPackageHash (List.replicate 32 7) none .v1)) b!"deposit" []
    (sampleCall_call ⟨rfl, by simp, trivial⟩) _ _ rfl (by simp) [] _ rfl (by decide +kernel) b!"2021-05-04 14:20:35 UTC" rfl
    ⟨rfl, by decide, show 2500000000 < 10 ^ 19 by decide⟩
  exact ⟨d', ttl, h1, h2⟩

/-- The hypotheses of `C50_address_partial` can be met by addresses that differ. -/
example : (∀ b ∈ List.replicate 32 (100 : UInt8), 100 ≤ b.toNat) ∧
    decimalAddress (List.replicate 32 100) ≠ decimalAddress (List.replicate 31 100 ++ [255]) := by decide +kernel

/-- Calls of entry points with names of 100 bytes. -/
def sampleLongEntry (c : UInt8) : TxPayload :=
  { sampleCall (.byHash (List.replicate 32 7) .v1) with entry := .custom (List.replicate 99 97 ++ [c]) }

/-- **C53 fails** for names of more than 99 bytes: the rest is cut off, so that calls of different entry points are shown alike. -/
theorem C53_name_false : ∃ text : Bytes, ∀ c : UInt8, c = 98 ∨ c = 99 →
    (run samplePl (Dev.init samplePl) (upload 2 (samplePath 0) [] (1 :: (sampleLongEntry c).tx Blake.H []))).2 = [.reply [] 0x9000, .pending] ∧
    ∃ o, reviewItem samplePl (run samplePl (Dev.init samplePl) (upload 2 (samplePath 0) [] (1 :: (sampleLongEntry c).tx Blake.H []))).1 .tx 6 0 =
      .ok (b!"Entry-point", text) o := by
  refine ⟨List.replicate 99 97, ?_⟩
  rintro c (rfl | rfl)
  · exact ⟨by decide +kernel, Res.val_ok.1 (by decide +kernel)⟩
  · exact ⟨by decide +kernel, Res.val_ok.1 (by decide +kernel)⟩

/-- **C53 fails** for packages without version in expert mode: a line has no content and the last one, the hash of the arguments, is missing. -/
theorem C53_version_false : ∀ d, d = (run samplePl { Dev.init samplePl with expert := true } (upload 2 (samplePath 0) []
      (1 :: (sampleCall (.byPackageHash (List.replicate 32 7) none .v1)).tx Blake.H []))).1 →
    (∃ o, reviewCount samplePl d .tx 0 = .ok 13 o) ∧ (∃ o, reviewItem samplePl d .tx 10 0 = .ok (b!"?", b!"?") o) ∧
      ∃ o, reviewItem samplePl d .tx 11 0 = .ok (b!"Entry-point", b!"deposit") o := by
  intro d hd
  rw [hd]
  refine ⟨?_, ?_, ?_⟩
  all_goals
    refine Res.val_ok.1 ?_
    decide +kernel

end Casper
