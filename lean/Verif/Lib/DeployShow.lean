import Verif.Lib.DeployAccept
import Verif.Lib.EndToEnd
/-
What the review of a well-formed Deploy consists of, given what its session is read as and shown as.
-/
namespace Casper
open M

/-- Keys, numbers, hashes and names have their proper sizes. -/
structure DeploySpec.Ok (d : DeploySpec) : Prop where
  account : d.account.Ok
  timestamp : d.timestamp < 2 ^ 64
  ttl : d.ttl < 2 ^ 64
  gasPrice : d.gasPrice < 2 ^ 64
  deps : ∀ x ∈ d.deps, x.length = 32

theorem DeploySpec.Ok.header {d : DeploySpec} (h : d.Ok) (H : Hash) : (d.header H).Ok :=
  ⟨h.account, h.timestamp, h.ttl, h.gasPrice, H.len _, h.deps⟩

/-- A payment of `fee` motes (written in `k` bytes). -/
def payItem (code : Bytes) (k fee : Nat) : ExecItem := .moduleBytes code [⟨b!"amount", UInt8.ofNat k :: le k fee, .u512⟩]

/-- What the payment is read as. -/
def payView (code : Bytes) (k fee : Nat) : Item :=
  { special := 1, total := (payItem code k fee).encode.length, runtime := 1, hasAmount := true }

/-- The payment is read. -/
theorem payment_at {e : Env} (hf : Fits e) {off : Nat} {code : Bytes} {k fee : Nat} (h : At e.buf off (payItem code k fee).encode) :
    parseDeployItem e true ⟨off + 1, 0, {}⟩ = .ok () ⟨off + (payItem code k fee).encode.length, 0, payView code k fee⟩ := by
  have hle := h.le
  unfold Fits at hf
  have hlen : (payItem code k fee).encode.length = 1 + (4 + code.length + (4 + (encodeArgs [⟨b!"amount", UInt8.ofNat k :: le k fee, .u512⟩]).length)) := by
    simp [payItem, ExecItem.encode, encodeRuntimeArgs, pfx_length]; omega
  rw [hlen] at hle
  have h1 := (At.cons.1 h).2
  have h2 := h1.pfx
  have h3 := h2.2
  unfold encodeRuntimeArgs at h3
  rw [At.append] at h3
  have hok : ∀ a ∈ ([⟨b!"amount", UInt8.ofNat k :: le k fee, .u512⟩] : List Arg), a.Ok := by
    intro a ha; simp only [List.mem_singleton] at ha; subst ha; exact ⟨show 6 ≤ 300 by decide, rfl, rfl⟩
  have ha := h3.2
  have hpa := parseArgs_at hf hok ha
  have hsa := searchArgs_at (name := b!"amount") hf hok ha
  unfold parseDeployItem
  refine modThen (getThen ?_)
  dsimp only
  rw [if_pos rfl]
  unfold parseModuleBytes
  refine getThen (lpThen (parseItem_at hf h1) (lpThen (readLE_at h3.1 (show 1 < 256 ^ 4 by decide)) ?_))
  dsimp only [List.length_singleton]
  rw [if_pos rfl]
  have hpay : ∀ it : Item, parseSystemPayment e 1 ⟨off + 1 + 4 + code.length + 4, 0, it⟩ = .ok ()
      ⟨off + 1 + 4 + code.length + 4, 0, { it with hasAmount := true, generic := 0, runtime := it.runtime + 1 }⟩ := by
    intro it
    unfold parseSystemPayment
    rw [if_neg (by decide)]
    have : attempt (checkPaymentArgs e 1) ⟨off + 1 + 4 + code.length + 4, 0, it⟩ =
        .ok (.ok ()) ⟨off + 1 + 4 + code.length + 4, 0, { it with hasAmount := true }⟩ := by
      rw [attempt_run]
      have : checkPaymentArgs e 1 ⟨off + 1 + 4 + code.length + 4, 0, it⟩ =
          .ok () ⟨off + 1 + 4 + code.length + 4, 0, { it with hasAmount := true }⟩ := by
        unfold checkPaymentArgs
        refine reqThen rfl (lpThen (a := ()) (o := off + 1 + 4 + code.length + 4) ?_ rfl)
        unfold checkArg
        rw [le_length] at hsa
        exact seqThen hsa rfl
      rw [this]
    exact seqThen this rfl
  refine seqThen (hpay _) (modThen ?_)
  unfold finishItem
  rw [le_length] at hpa
  refine lpThen (by dsimp only; exact hpa) (lpThen (a := (payItem code k fee).encode.length) (o := off + (payItem code k fee).encode.length) ?_ ?_)
  · dsimp only
    unfold totalLength
    refine getThen ?_
    dsimp only [List.length_singleton] at *
    rw [if_pos (by omega)]
    show Res.ok _ _ = _
    congr 1 <;> omega
  · rfl

/-- A line of the session (the inner part of `bodyLine`). -/
def sessionLine (e : Env) (epo : Nat) (it : Item) (i : Nat) : P (Bytes × Bytes) :=
  if it.special = spNativeTransfer then itemNativeTransfer e it i
  else if it.special = spDelegate ∨ it.special = spUnDelegate ∨ it.special = spReDelegate ∨ it.special = spGeneric then
    itemDelegation e epo it i
  else fail eUnexpectedType

/-- The session starting at `off` is read as `it` (entry point at `epo`) and shown as `lines`. -/
structure SessionAt (e : Env) (off : Nat) (ses : ExecItem) (epo : Nat) (it : Item) (lines : List (Bytes × Bytes)) : Prop where
  parse : parseDeployItem e false ⟨off + 1, 0, { typ := ses.tag }⟩ = .ok () ⟨off + ses.encode.length, epo, it⟩
  total : it.total = ses.encode.length
  count : it.fixed + it.runtime = lines.length
  few : lines.length ≤ 100
  lines : ∀ i kv, lines[i]? = some kv → ∃ c, sessionLine e epo it i off = .ok kv c

/-- What has to hold for the lines of expert mode. -/
structure DeploySpec.ExpertOk (d : DeploySpec) (fmt : Nat → Option Bytes) (time : Bytes) : Prop where
  time : fmt (d.timestamp / 1000) = some time
  ttl : d.ttl / 1000 < 29 * 86400

/-- The parsed form of a Deploy. -/
def DeploySpec.parsed (H : Hash) (d : DeploySpec) (code : Bytes) (k fee : Nat) (it : Item) : Deploy :=
  { header := (d.header H).view, payment := payView code k fee, session := it }

section
variable {e : Env} {d : DeploySpec} {rest : Bytes} {n : Nat} {code : Bytes} {k fee epo : Nat} {it : Item} {lines : List (Bytes × Bytes)}

/-- Where the parts of a Deploy are. -/
structure DeployLayout (H : Hash) (d : DeploySpec) (rest buf : Bytes) : Prop where
  header : At buf 0 (d.header H).encode
  hash : At buf (d.header H).encode.length (H (d.header H).encode)
  payment : At buf ((d.header H).encode.length + 32) d.payment.encode
  session : At buf ((d.header H).encode.length + 32 + d.payment.encode.length) d.session.encode
  rest : At buf ((d.header H).encode.length + 32 + d.payment.encode.length + d.session.encode.length) rest

theorem signed_layout {H : Hash} {d : DeploySpec} {buf rest : Bytes} (hb : buf = d.signedPart H ++ rest) : DeployLayout H d rest buf := by
  have h32 := H.len (d.header H).encode
  subst hb
  unfold DeploySpec.signedPart DeploySpec.body
  refine ⟨⟨[], _, by simp only [List.nil_append, List.append_assoc]; rfl, rfl⟩, ⟨(d.header H).encode, _, by simp only [List.append_assoc]; rfl, rfl⟩,
    ⟨(d.header H).encode ++ H (d.header H).encode, _, by simp only [List.append_assoc]; rfl, by rw [List.length_append, h32]⟩,
    ⟨(d.header H).encode ++ H (d.header H).encode ++ d.payment.encode, _, by simp only [List.append_assoc]; rfl, by
      simp only [List.length_append, h32]⟩,
    ⟨(d.header H).encode ++ H (d.header H).encode ++ d.payment.encode ++ d.session.encode, [], by simp only [List.append_assoc, List.append_nil], by
      simp only [List.length_append, h32]⟩⟩

theorem deploy_layout {H : Hash} {d : DeploySpec} {ap : List Bytes} {buf rest : Bytes} (hb : buf = d.tx H ap ++ rest) :
    DeployLayout H d (le 4 ap.length ++ ap.flatten ++ rest) buf :=
  signed_layout (by rw [hb]; unfold DeploySpec.tx DeploySpec.signedPart; simp only [List.append_assoc])

variable (hs : Small e) (hd : d.Ok) (hb : e.buf = d.signedPart e.blake ++ rest) (hp : d.payment = payItem code k fee)
  (hses : SessionAt e ((d.header e.blake).encode.length + 32 + d.payment.encode.length) d.session epo it lines)

include hs hd hb hp in
/-- A Deploy whose session is read is read. -/
theorem readDeploy_of (hpar : parseDeployItem e false ⟨(d.header e.blake).encode.length + 32 + d.payment.encode.length + 1, 0, { typ := d.session.tag }⟩ =
      .ok () ⟨(d.header e.blake).encode.length + 32 + d.payment.encode.length + d.session.encode.length, epo, it⟩) : readDeploy e ⟨0, 0, {}⟩ = .ok ()
    ⟨(d.header e.blake).encode.length + 32 + d.payment.encode.length + d.session.encode.length, epo, d.parsed e.blake code k fee it⟩ := by
  have hl := signed_layout hb
  have l1 := hl.payment.le
  have l2 := hl.session.le
  have l3 := hl.session.le
  have hs' := hs
  unfold Small at hs'
  unfold readDeploy
  refine seqThen (readDeployHeader_at (hd.header e.blake) hs.fits hl.header) ?_
  rw [u16_id (by omega)]
  have hpa := hl.payment
  rw [hp] at hpa
  refine ldThen (readU8_at hpa) (reqThen (by decide) ?_)
  refine seqThen (a := ()) (t := ⟨(d.header e.blake).encode.length + 32 + 1, 0, { header := (d.header e.blake).view }⟩) rfl (reqThen rfl ?_)
  refine seqThen (a := ()) (t := ⟨(d.header e.blake).encode.length + 32 + d.payment.encode.length, 0,
    { header := (d.header e.blake).view, payment := payView code k fee }⟩) ?_ ?_
  · unfold onPayment
    dsimp only
    rw [payment_at hs.fits hpa, hp]
  refine getThen (reqThen (by simp [payView]) ?_)
  have hsa := hl.session
  rw [ExecItem.encode_eq d.session] at hsa
  have ht : d.session.tag ≤ 5 := by cases d.session <;> simp [ExecItem.tag]
  refine ldThen (a := d.session.tag) (o := (d.header e.blake).encode.length + 32 + d.payment.encode.length + 1) ?_ (reqThen (by omega) ?_)
  · have := readU8_at hsa
    rw [UInt8.toNat_ofNat', Nat.mod_eq_of_lt (by omega)] at this
    exact this
  refine seqThen (a := ()) (t := ⟨(d.header e.blake).encode.length + 32 + d.payment.encode.length + 1, 0,
    { header := (d.header e.blake).view, payment := payView code k fee, session := { typ := d.session.tag } }⟩) rfl ?_
  refine seqThen (a := ()) (t := ⟨(d.header e.blake).encode.length + 32 + d.payment.encode.length + d.session.encode.length, epo,
    { header := (d.header e.blake).view, payment := payView code k fee, session := it }⟩) ?_ rfl
  unfold onSession
  dsimp only
  rw [hpar]

include hs hd hb hp hses in
theorem readDeploy_at : readDeploy e ⟨0, 0, {}⟩ = .ok ()
    ⟨(d.header e.blake).encode.length + 32 + d.payment.encode.length + d.session.encode.length, epo, d.parsed e.blake code k fee it⟩ :=
  readDeploy_of hs hd hb hp hses.parse

include hs hd hb hp hses in
theorem validateDeploy_at (t : Nat) : ∃ c, validateDeploy e (d.parsed e.blake code k fee it) t = .ok () c := by
  have hr := readDeploy_at hs hd hb hp hses
  obtain ⟨p, q, kk, hpp⟩ := readDeploy_post _ _ hr
  have ho := hd.header e.blake
  have hl := signed_layout hb
  obtain ⟨-, -, w3⟩ := header_small ho hs.fits hl.header
  have l3 := hl.session.le
  have hs' := hs
  unfold Small at hs'
  have hbuf : e.buf = (d.header e.blake).encode ++ e.blake (d.header e.blake).encode ++ (d.payment.encode ++ d.session.encode) ++ rest := by
    rw [hb]; rfl
  have ly := header_layout ho hl.header
  unfold validateDeploy
  have hh : headerLength (d.parsed e.blake code k fee it).header = (d.header e.blake).encode.length := w3
  have hsz : u32 ((d.parsed e.blake code k fee it).payment.total + (d.parsed e.blake code k fee it).session.total) = (d.payment.encode ++ d.session.encode).length := by
    show u32 ((payItem code k fee).encode.length + it.total) = _
    rw [← hp, hses.total, List.length_append, u32_id (by omega)]
  dsimp only
  rw [hh, hsz, u16_id (by omega)]
  refine exThen (slice_at hl.header rfl) (exThen (slice_at hl.hash (e.blake.len _).symm) ?_)
  refine exThen (a := ()) (t := t) (by rw [require_run, if_pos rfl]) ?_
  refine exThen (slice_at (xs := d.payment.encode ++ d.session.encode) ⟨_, _, hbuf, by simp [e.blake.len]⟩ rfl) ?_
  refine exThen (indexPart_at ly.bodyHash rfl _) (exThen (slice_at ly.bodyHash (e.blake.len _).symm) ?_)
  rw [require_run, if_pos (show e.blake (d.payment.encode ++ d.session.encode) = (d.header e.blake).bodyHash from rfl)]
  exact ⟨_, rfl⟩

include hs hd hb in
theorem deploy_chain (hc : d.chain.length ≤ 99) (h0 : 0 ∉ d.chain) {v : Deploy} (hv : v.header = (d.header e.blake).view) (hn : 2 < numItemsDeploy e v)
    (epo t : Nat) : ∃ c, getItemDeploy e epo v 2 t = .ok (b!"Chain ID", d.chain) c := by
  have hl := signed_layout hb
  have ho := hd.header e.blake
  have ly := (header_layout ho hl.header).chain
  obtain ⟨-, w2, -⟩ := header_small ho hs.fits hl.header
  unfold getItemDeploy
  rw [if_neg (by omega), if_neg (by decide), if_neg (by decide), if_pos rfl, hv]
  refine exThen (indexPart_at ly w2 _) (exThen (get_run _) ?_)
  refine exThen (a := d.chain) (t := pkLen (d.header e.blake).view + 56 + (4 + (d.header e.blake).deps.length * 32)) ?_ ⟨_, rfl⟩
  have hlen : (d.header e.blake).view.chainLen = d.chain.length := rfl
  unfold displayString
  rw [hlen, if_neg (by omega)]
  rw [pfx, At.append, le_length] at ly
  refine seqThen (slice_at ly.2 rfl) ?_
  unfold showArray
  have : (d.header e.blake).chain = d.chain := rfl
  rw [this, if_pos (.inl (by omega)), cstr_eq h0]; rfl

include hs hd hb in
theorem deploy_account {v : Deploy} (hv : v.header = (d.header e.blake).view) (hn : 3 < numItemsDeploy e v)
    (epo t : Nat) : ∃ c, getItemDeploy e epo v 3 t = .ok (b!"Account", d.account.address e.blake) c := by
  have hl := signed_layout hb
  have ho := hd.header e.blake
  have ly := (header_layout ho hl.header).account
  unfold getItemDeploy
  rw [if_neg (by omega), if_neg (by decide), if_neg (by decide), if_neg (by decide), if_pos rfl, hv]
  refine exThen (indexPart_at ly rfl _) (exThen (a := d.account.address e.blake) (t := 0) ?_ ⟨_, rfl⟩)
  have hk : pkLen (d.header e.blake).view = d.account.encode.length := by rw [hd.account.length]; rfl
  rw [hk]
  have ly' : At e.buf 0 d.account.encode := ly
  cases ha : d.account with
  | ed25519 x => rw [ha] at ly'; rw [PubKey.encode, List.length_cons, Nat.add_comm]; exact printAddress_at ly' (.inl rfl)
  | secp256k1 x => rw [ha] at ly'; rw [PubKey.encode, List.length_cons, Nat.add_comm]; exact printAddress_at ly' (.inr rfl)

include hs hd hb in
theorem deploy_header_lines (hx : e.expert = true) {time : Bytes} (hxo : d.ExpertOk e.fmtTime time) {v : Deploy} (hv : v.header = (d.header e.blake).view)
    (hn : 7 < numItemsDeploy e v) : ∃ ttl, duration ttl = d.ttl / 1000 ∧ ∀ epo t,
      (∃ c, getItemDeploy e epo v 4 t = .ok (b!"Timestamp", time) c) ∧
      (∃ c, getItemDeploy e epo v 5 t = .ok (b!"Ttl", ttl) c) ∧
      (∃ c, getItemDeploy e epo v 6 t = .ok (b!"Gas price", decText d.gasPrice) c) ∧
      (∃ c, getItemDeploy e epo v 7 t = .ok (b!"Deps #", decText d.deps.length) c) := by
  have hl := signed_layout hb
  have ho := hd.header e.blake
  have ly := header_layout ho hl.header
  have hdl : d.deps.length < 256 ^ 4 := by
    have h1 := ho.length
    have h2 := hl.header.le
    unfold Small at hs
    have : (d.header e.blake).deps = d.deps := rfl
    rw [this] at h1
    omega
  obtain ⟨ttl, h1, h2, -⟩ := (C19_ttl (d.ttl / 1000) 100 (by decide) (partIndex (d.header e.blake).view .ttl + 8)).1 hxo.ttl
  refine ⟨ttl, h2, fun epo t => ?_⟩
  unfold getItemDeploy headerLine
  simp only [hv, hx, show ¬ (4 ≥ numItemsDeploy e v) by omega, show ¬ (5 ≥ numItemsDeploy e v) by omega,
    show ¬ (6 ≥ numItemsDeploy e v) by omega, show ¬ (7 ≥ numItemsDeploy e v) by omega, if_false, reduceIte,
    show ¬ (4 : Nat) = 0 by decide, show ¬ (4 : Nat) = 1 by decide, show ¬ (4 : Nat) = 2 by decide, show ¬ (4 : Nat) = 3 by decide,
    show (4 : Nat) < 8 by decide, show ¬ (5 : Nat) = 0 by decide, show ¬ (5 : Nat) = 1 by decide, show ¬ (5 : Nat) = 2 by decide,
    show ¬ (5 : Nat) = 3 by decide, show ¬ (5 : Nat) = 4 by decide, show (5 : Nat) < 8 by decide,
    show ¬ (6 : Nat) = 0 by decide, show ¬ (6 : Nat) = 1 by decide, show ¬ (6 : Nat) = 2 by decide, show ¬ (6 : Nat) = 3 by decide,
    show ¬ (6 : Nat) = 4 by decide, show ¬ (6 : Nat) = 5 by decide, show (6 : Nat) < 8 by decide,
    show ¬ (7 : Nat) = 0 by decide, show ¬ (7 : Nat) = 1 by decide, show ¬ (7 : Nat) = 2 by decide, show ¬ (7 : Nat) = 3 by decide,
    show ¬ (7 : Nat) = 4 by decide, show ¬ (7 : Nat) = 5 by decide, show ¬ (7 : Nat) = 6 by decide, show (7 : Nat) < 8 by decide, and_self, if_true]
  refine ⟨?_, ?_, ?_, ?_⟩
  · refine exThen (indexPart_at ly.timestamp rfl _) (exThen (readLE_at ly.timestamp (show d.timestamp < _ from hd.timestamp)) ?_)
    have : e.fmtTime ((d.header e.blake).timestamp / 1000) = some time := hxo.time
    rw [this]; exact ⟨_, rfl⟩
  · refine exThen (indexPart_at ly.ttl rfl _) (exThen (readLE_at ly.ttl (show d.ttl < _ from hd.ttl)) ?_)
    exact exThen h1 ⟨_, rfl⟩
  · refine exThen (indexPart_at ly.gasPrice rfl _) (exThen (readLE_at ly.gasPrice (show d.gasPrice < _ from hd.gasPrice)) ?_)
    rw [decimal_eq]; exact ⟨_, rfl⟩
  · refine exThen (indexPart_at ly.deps rfl _) (exThen (readLE_at (At.append.1 ly.deps).1 (show d.deps.length < _ from hdl)) ?_)
    rw [decimal_eq]; exact ⟨_, rfl⟩

include hs hd hb hp hses in
/-- The lines behind those of the header. -/
theorem deploy_body_lines (hap : e.expert = true → n < 2 ^ 32 ∧ ∃ more, rest = le 4 n ++ more) (hk : k ≤ 64) (hfee : fee < 256 ^ k) (base : Nat) (hbase : base = if e.expert then 8 else 4)
    (hn : numItemsDeploy e (d.parsed e.blake code k fee it) = base + 1 + lines.length + (if e.expert then 1 else 0)) (t : Nat) :
    (∃ c, bodyLine e epo (d.parsed e.blake code k fee it) base t = .ok (b!"Fee", motesOf fee) c) ∧
    (∀ i kv, lines[i]? = some kv → ∃ c, bodyLine e epo (d.parsed e.blake code k fee it) (base + 1 + i) t = .ok kv c) ∧
    (e.expert = true → ∃ c, bodyLine e epo (d.parsed e.blake code k fee it) (base + 1 + lines.length) t =
      .ok (b!"Approvals #", decText n) c) := by
  have hl := signed_layout hb
  have ho := hd.header e.blake
  obtain ⟨-, -, w3⟩ := header_small ho hs.fits hl.header
  have l3 := hl.session.le
  have hs' := hs
  unfold Small at hs'
  have hh : headerLength (d.parsed e.blake code k fee it).header = (d.header e.blake).encode.length := w3
  have hseek : ∀ t, seek (headerLength (d.parsed e.blake code k fee it).header + 32) t = .ok () ((d.header e.blake).encode.length + 32) := by
    intro t
    show Res.ok () (u16 (headerLength (d.parsed e.blake code k fee it).header + 32)) = _
    rw [hh, u16_id (by omega)]
  have htp : u16 ((d.parsed e.blake code k fee it).payment.fixed + (d.parsed e.blake code k fee it).payment.runtime) = 1 := rfl
  have hts : u16 ((d.parsed e.blake code k fee it).session.fixed + (d.parsed e.blake code k fee it).session.runtime) = lines.length := by
    have := hses.few
    show u16 (it.fixed + it.runtime) = _
    rw [hses.count, u16_id (by omega)]
  have hpt : (d.parsed e.blake code k fee it).payment.total = d.payment.encode.length := by rw [hp]; rfl
  have hst : (d.parsed e.blake code k fee it).session.total = d.session.encode.length := hses.total
  have hfew := hses.few
  refine ⟨?_, fun i kv hi => ?_, fun hx => ?_⟩
  · unfold bodyLine
    refine exThen (hseek t) ?_
    dsimp only
    rw [← hbase, Nat.sub_self, htp, if_pos (by decide),
      if_pos (show (d.parsed e.blake code k fee it).payment.special = spSystemPayment from rfl)]
    have hpa := hl.payment
    have hple := hpa.le
    rw [hp] at hpa hple
    unfold itemSystemPayment
    have hlen : (payItem code k fee).encode.length = 1 + (4 + code.length + (4 + (encodeArgs [⟨b!"amount", UInt8.ofNat k :: le k fee, .u512⟩]).length)) := by
      simp [payItem, ExecItem.encode, encodeRuntimeArgs, pfx_length]; omega
    rw [hlen] at hple
    have h1 := (At.cons.1 hpa).2
    have h3 := h1.pfx.2
    unfold encodeRuntimeArgs at h3
    rw [At.append] at h3
    have h1' := h1
    rw [pfx, List.append_assoc, At.append] at h1'
    refine exThen (skip_run (by omega)) (exThen (readLE_at h1'.1 (by omega)) (exThen (get_run _) ?_))
    rw [if_neg (by omega)]
    refine exThen (skip_run (by omega)) (exThen (get_run _) (exThen (readLE_at h3.1 (show 1 < 256 ^ 4 by decide)) ?_))
    simp only [show (d.parsed e.blake code k fee it).payment.fixed = 0 from rfl, show (d.parsed e.blake code k fee it).payment.runtime = 1 from rfl,
      show (d.parsed e.blake code k fee it).payment.generic = 0 from rfl, Nat.lt_irrefl, Nat.sub_self, gt_iff_lt, Nat.not_lt_zero, or_self, if_false, if_true]
    have hok : ∀ a ∈ ([⟨b!"amount", UInt8.ofNat k :: le k fee, .u512⟩] : List Arg), a.Ok := by
      intro a ha; simp only [List.mem_singleton] at ha; subst ha; exact ⟨show 6 ≤ 300 by decide, rfl, rfl⟩
    have := showMotes_at (key := b!"Fee") (name := b!"amount") (a := ⟨b!"amount", UInt8.ofNat k :: le k fee, .u512⟩) (text := motesOf fee) hs.fits hok
      (by intro a ha; simp only [List.mem_singleton] at ha; subst ha; show (0 : UInt8) ∉ b!"amount"; decide)
      (by simp) (.u512 k fee hk hfee) h3.2
    exact this
  · have hlt := (List.getElem?_eq_some_iff.1 hi).1
    unfold bodyLine
    refine exThen (hseek t) ?_
    dsimp only
    rw [← hbase, htp, if_neg (by omega), hpt, hts]
    refine exThen (skip_run (by omega)) ?_
    rw [show u8 (base + 1 + i - base + 65536 - 1) = i by unfold u8; omega, if_pos hlt]
    exact hses.lines i kv hi
  · unfold bodyLine
    refine exThen (hseek t) ?_
    dsimp only
    rw [← hbase, htp, if_neg (by omega), hpt, hts, hst]
    refine exThen (skip_run (by omega)) ?_
    rw [show u8 (base + 1 + lines.length - base + 65536 - 1) = lines.length by unfold u8; omega, if_neg (by omega)]
    refine exThen (skip_run (by omega)) ?_
    rw [if_pos ⟨by rw [hn, if_pos hx], hx⟩]
    obtain ⟨hlt, more, hmore⟩ := hap hx
    have hr := hl.rest
    rw [hmore, At.append] at hr
    refine exThen (readLE_at hr.1 (show _ < 256 ^ 4 from hlt)) ?_
    rw [decimal_eq]; exact ⟨_, rfl⟩

include hs hd hb hp hses in
/-- The Deploy is accepted, and its review consists of these lines. -/
theorem deploy_accepted (hap : e.expert = true → n < 2 ^ 32 ∧ ∃ more, rest = le 4 n ++ more) (hk : k ≤ 64) (hfee : fee < 256 ^ k) (hc : d.chain.length ≤ 99) (h0 : 0 ∉ d.chain)
    {type : Bytes} (hty : typeLabel (d.parsed e.blake code k fee it) = type)
    {time : Bytes} (hx : e.expert = true → d.ExpertOk e.fmtTime time) :
    ∃ s ttl, DeployAccepted e s ∧ s.dep.header = (d.header e.blake).view ∧ (e.expert = true → duration ttl = d.ttl / 1000) ∧
      numItemsDeploy e s.dep = (d.screens e.blake e.expert n type time ttl (motesOf fee) lines).length ∧
      ∀ i kv, (d.screens e.blake e.expert n type time ttl (motesOf fee) lines)[i]? = some kv →
        ∀ o, ∃ c, getItemDeploy e s.epo s.dep i o = .ok kv c := by
  have hl := signed_layout hb
  have ho := hd.header e.blake
  have hs' := hs
  unfold Small at hs'
  have hfew := hses.few
  have hn : numItemsDeploy e (d.parsed e.blake code k fee it) = (if e.expert then 8 else 4) + 1 + lines.length + (if e.expert then 1 else 0) := by
    show u8 ((if e.expert then 9 else 4) + 0 + 1 + it.fixed + it.runtime) = _
    rw [Nat.add_assoc _ it.fixed, hses.count]
    unfold u8
    split <;> omega
  have hv : (d.parsed e.blake code k fee it).header = (d.header e.blake).view := rfl
  have hnum : ∀ ttl, numItemsDeploy e (d.parsed e.blake code k fee it) = (d.screens e.blake e.expert n type time ttl (motesOf fee) lines).length := by
    intro ttl
    rw [hn]
    unfold DeploySpec.screens
    cases e.expert <;> simp <;> omega
  have hbody := deploy_body_lines hs hd hb hp hses hap hk hfee _ rfl hn
  have hitems : ∃ ttl, (e.expert = true → duration ttl = d.ttl / 1000) ∧
      ∀ i kv, (d.screens e.blake e.expert n type time ttl (motesOf fee) lines)[i]? = some kv →
        ∀ o, ∃ c, getItemDeploy e epo (d.parsed e.blake code k fee it) i o = .ok kv c := by
    have h0' : ∀ o, ∃ c, getItemDeploy e epo (d.parsed e.blake code k fee it) 0 o =
        .ok (b!"Txn hash", checksumHex e.blake (e.blake (d.header e.blake).encode)) c := by
      intro o
      obtain ⟨-, -, w3⟩ := header_small ho hs.fits hl.header
      unfold getItemDeploy
      rw [if_neg (by rw [hn]; split <;> omega), if_pos rfl, hv, w3]
      refine exThen (a := ()) (t := (d.header e.blake).encode.length) ?_ ?_
      · show Res.ok () (u16 _) = _
        have := hl.hash.le
        rw [u16_id (by omega)]
      · refine exThen (a := checksumHex e.blake (e.blake (d.header e.blake).encode)) (t := (d.header e.blake).encode.length) ?_ ⟨_, rfl⟩
        have := printBytes_at (s := (d.header e.blake).encode.length) hl.hash (by rw [e.blake.len]; decide)
        rw [e.blake.len] at this
        exact this
    have h1 : ∀ o, ∃ c, getItemDeploy e epo (d.parsed e.blake code k fee it) 1 o = .ok (b!"Type", type) c := by
      intro o
      unfold getItemDeploy
      rw [if_neg (by rw [hn]; split <;> omega), if_neg (by decide), if_pos rfl, hty]
      exact ⟨_, rfl⟩
    have h2 := deploy_chain hs hd hb hc h0 hv (by rw [hn]; split <;> omega) epo
    have h3 := deploy_account hs hd hb hv (by rw [hn]; split <;> omega) epo
    have hb2 : ∀ i o, (if e.expert then 8 else 4) ≤ i → i < numItemsDeploy e (d.parsed e.blake code k fee it) →
        getItemDeploy e epo (d.parsed e.blake code k fee it) i o = bodyLine e epo (d.parsed e.blake code k fee it) i o := by
      intro i o hi hi'
      have hi4 : 4 ≤ i := by split at hi <;> omega
      unfold getItemDeploy
      rw [if_neg (by omega), if_neg (by omega), if_neg (by omega), if_neg (by omega), if_neg (by omega), if_neg]
      rintro ⟨hx, h8⟩
      rw [if_pos hx] at hi
      omega
    cases hxx : e.expert with
    | false =>
      rw [hxx] at hn hb2 hbody
      simp only [Bool.false_eq_true, if_false] at hn hb2 hbody
      refine ⟨[], by simp, fun i kv hi o => ?_⟩
      unfold DeploySpec.screens at hi
      match i, hi with
      | 0, hi => simp only [List.cons_append, List.getElem?_cons_zero, Option.some.injEq] at hi; subst hi; exact h0' o
      | 1, hi => simp only [List.cons_append, List.getElem?_cons_zero, List.getElem?_cons_succ, Option.some.injEq] at hi; subst hi; exact h1 o
      | 2, hi => simp only [List.cons_append, List.getElem?_cons_zero, List.getElem?_cons_succ, Option.some.injEq] at hi; subst hi; exact h2 o
      | 3, hi => simp only [List.cons_append, List.getElem?_cons_zero, List.getElem?_cons_succ, Option.some.injEq] at hi; subst hi; exact h3 o
      | 4, hi =>
        simp only [List.cons_append, List.nil_append, Bool.false_eq_true, if_false, List.getElem?_cons_zero, List.getElem?_cons_succ, Option.some.injEq] at hi
        subst hi
        rw [hb2 4 o (Nat.le_refl _) (by omega)]
        exact (hbody o).1
      | i + 5, hi =>
        simp only [List.cons_append, List.nil_append, List.getElem?_cons_succ, List.append_nil, Bool.false_eq_true, if_false] at hi
        have hlt := (List.getElem?_eq_some_iff.1 hi).1
        rw [hb2 _ o (by omega) (by omega), show i + 5 = 4 + 1 + i by omega]
        exact (hbody o).2.1 i kv hi
    | true =>
      have hx := hx hxx
      obtain ⟨ttl, h5, h6⟩ := deploy_header_lines hs hd hb hxx hx hv (by rw [hn, hxx]; simp; omega)
      rw [hxx] at hn hb2 hbody
      simp only [if_true] at hn hb2 hbody
      refine ⟨ttl, fun _ => h5, fun i kv hi o => ?_⟩
      obtain ⟨t4, t5, t6, t7⟩ := h6 epo o
      unfold DeploySpec.screens at hi
      match i, hi with
      | 0, hi => simp only [List.cons_append, List.getElem?_cons_zero, Option.some.injEq] at hi; subst hi; exact h0' o
      | 1, hi => simp only [List.cons_append, List.getElem?_cons_zero, List.getElem?_cons_succ, Option.some.injEq] at hi; subst hi; exact h1 o
      | 2, hi => simp only [List.cons_append, List.getElem?_cons_zero, List.getElem?_cons_succ, Option.some.injEq] at hi; subst hi; exact h2 o
      | 3, hi => simp only [List.cons_append, List.getElem?_cons_zero, List.getElem?_cons_succ, Option.some.injEq] at hi; subst hi; exact h3 o
      | 4, hi => simp only [List.cons_append, List.nil_append, if_true, List.getElem?_cons_zero, List.getElem?_cons_succ, Option.some.injEq] at hi; subst hi; exact t4
      | 5, hi => simp only [List.cons_append, List.nil_append, if_true, List.getElem?_cons_zero, List.getElem?_cons_succ, Option.some.injEq] at hi; subst hi; exact t5
      | 6, hi => simp only [List.cons_append, List.nil_append, if_true, List.getElem?_cons_zero, List.getElem?_cons_succ, Option.some.injEq] at hi; subst hi; exact t6
      | 7, hi => simp only [List.cons_append, List.nil_append, if_true, List.getElem?_cons_zero, List.getElem?_cons_succ, Option.some.injEq] at hi; subst hi; exact t7
      | 8, hi =>
        simp only [List.cons_append, List.nil_append, if_true, List.getElem?_cons_zero, List.getElem?_cons_succ, Option.some.injEq] at hi
        subst hi
        rw [hb2 8 o (Nat.le_refl _) (by omega)]
        exact (hbody o).1
      | i + 9, hi =>
        simp only [List.cons_append, List.nil_append, if_true, List.getElem?_cons_succ] at hi
        rcases Nat.lt_or_ge i lines.length with hi3 | hi3
        · rw [List.getElem?_append_left hi3] at hi
          rw [hb2 _ o (by omega) (by omega), show i + 9 = 8 + 1 + i by omega]
          exact (hbody o).2.1 i kv hi
        · rw [List.getElem?_append_right hi3] at hi
          have hlt := (List.getElem?_eq_some_iff.1 hi).1
          simp only [List.length_cons, List.length_nil] at hlt
          rw [show i - lines.length = 0 by omega] at hi
          simp only [List.getElem?_cons_zero, Option.some.injEq] at hi
          subst hi
          rw [hb2 _ o (by omega) (by omega), show i + 9 = 8 + 1 + lines.length by omega]
          exact (hbody o).2.2 trivial
  obtain ⟨ttl, hdur, hitems⟩ := hitems
  refine ⟨_, ttl, ⟨readDeploy_at hs hd hb hp hses, validateDeploy_at hs hd hb hp hses 0, fun i hi => ?_⟩, rfl, hdur, hnum ttl, hitems⟩
  have hi : i < numItemsDeploy e (d.parsed e.blake code k fee it) := hi
  rw [hnum ttl] at hi
  exact ⟨_, hitems i _ (List.getElem?_eq_getElem hi) 0⟩

end

end Casper
