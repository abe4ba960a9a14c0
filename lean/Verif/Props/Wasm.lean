import Verif.Lib.Wasm
import Verif.Lib.CutArgs
import Verif.Lib.DeployReview
import Verif.Lib.SampleDeploy
import Verif.Props.Messages
import Verif.Props.Deploys
import Verif.Props.Transfers
/-
C36 and the raw WASM part of C26.

A raw WASM deploy may be larger than the upload buffer.  What the device looks at is `kept cap [] chunks`: whole chunks, up to the first
which does not fit.
-/
namespace Casper
open M

section
variable {pl : Platform} {o d : Dev} {path seen : Bytes} {s : DS} {x : Bool} {c : Nat}

/-- The header and its hash in accepted data. -/
theorem WasmAccepts.split (h : WasmAccepts pl x c seen s) : ∃ hdr rest, seen = hdr ++ pl.blake hdr ++ rest ∧
    hdr.length = headerLength s.dep.header := by
  obtain ⟨-, t, ht⟩ := h
  unfold validateWasm at ht
  simp only [bind_eq_ok, require_eq_ok] at ht
  obtain ⟨hdr, _, h1, hash, _, h2, h3, -⟩ := ht
  obtain ⟨a1, l1, rfl⟩ := slice_eq_ok.1 h1
  obtain ⟨a2, l2, rfl⟩ := slice_eq_ok.1 h2
  have h3 : pl.blake hdr = hash := h3
  have : At seen 0 (hdr ++ hash) := At.append.2 ⟨a1, by rw [l1, Nat.zero_add]; exact a2⟩
  obtain ⟨a, b, hb, ha⟩ := this
  obtain rfl := List.length_eq_zero_iff.1 ha
  exact ⟨hdr, b, by rw [h3]; simpa using hb, l1⟩

theorem WasmAccepts.bodyHash (h : WasmAccepts pl x c seen s) :
    partIndex s.dep.header .bodyhash = keyLen seen + 24 ∧ keyLen seen + 60 ≤ seen.length := by
  obtain ⟨p, hp⟩ := readWasm_post _ _ h.1.2
  have h1 := hp.header.pkLen
  have h2 := hp.header.deps.le
  rw [h1] at h2
  simp only [le_length] at h2
  refine ⟨?_, h2⟩
  simp only [partIndex]
  rw [h1]; rfl

/-- The review of accepted raw WASM data. -/
theorem Reviewed.shows (h : Reviewed pl o path seen s d) (ha : WasmAccepts pl o.expert o.ctx.content seen s) {hdr rest : Bytes}
    (hs : seen = hdr ++ pl.blake hdr ++ rest) (hl : hdr.length = headerLength s.dep.header) :
    Shows pl d .wasm [(b!"DeployHash", lowerHex (pl.blake hdr)),
      (b!"BodyHash", lowerHex ((seen.drop (keyLen seen + 24)).take 32))] := by
  obtain ⟨hp, hr⟩ := h
  refine ⟨hr, fun t => ⟨rfl, fun i kv hi => ?_⟩⟩
  have he := hp.env ha.1.kind
  have hi2 : i = 0 ∨ i = 1 := by have := (List.getElem?_eq_some_iff.1 hi).1; simp at this; omega
  have hitem : reviewItem pl d .wasm i t = wasmItem (wasmEnv pl o.expert o.ctx.content seen) s.dep (u8 i) t := by
    unfold reviewItem
    dsimp only
    rw [if_pos (by rw [hp.ctx]), he, hp.dep]
  obtain ⟨b1, b2⟩ := ha.bodyHash
  rw [hitem]
  rcases hi2 with rfl | rfl
  · cases hi
    refine ⟨t, ?_⟩
    unfold wasmItem
    rw [if_pos (by decide), bind_run, slice_at (xs := pl.blake hdr) ⟨hdr, rest, hs, hl⟩ (pl.blake.len _).symm]
    rfl
  · cases hi
    refine ⟨keyLen seen + 24, ?_⟩
    unfold wasmItem
    rw [if_neg (by decide), if_pos (by decide), bind_run]
    have : indexPart (wasmEnv pl o.expert o.ctx.content seen) s.dep.header .bodyhash t = .ok () (keyLen seen + 24) := by
      unfold indexPart
      rw [b1, bind_run, set_run, Res.bind_ok, if_neg (show ¬ keyLen seen + 24 > (wasmEnv pl o.expert o.ctx.content seen).buf.length from Nat.not_lt.2 (show _ ≤ seen.length by omega))]
      rfl
    have hat : At seen (keyLen seen + 24) ((seen.drop (keyLen seen + 24)).take 32) :=
      ⟨seen.take (keyLen seen + 24), seen.drop (keyLen seen + 24 + 32), by
        rw [List.append_assoc, ← List.drop_drop (i := 32), List.take_append_drop, List.take_append_drop], by simp; omega⟩
    rw [this, Res.bind_ok, bind_run, get_run, Res.bind_ok, bind_run, slice_at hat (by simp; omega)]
    rfl

theorem Parsed.mem_split (h : Parsed pl o path seen s d) (n : Nat) {m : Nat} (hs : n + m ≤ seen.length) :
    (d.mem.drop n).take m = (seen.drop n).take m := by
  conv_rhs => rw [← h.mem]
  rw [List.drop_take, List.take_take, Nat.min_eq_left (by omega)]

/-- The 32 bytes signed, unless stale information about an earlier transaction interferes. -/
theorem Reviewed.signs (h : Reviewed pl o path seen s d) (ha : WasmAccepts pl o.expert o.ctx.content seen s) (hc : o.ctx.content = 0)
    {hdr rest : Bytes} (hs : seen = hdr ++ pl.blake hdr ++ rest) (hl : hdr.length = headerLength s.dep.header) :
    (step pl d .approve).2 = signatureReply pl path (pl.sha256 (pl.blake hdr)) := by
  obtain ⟨hp, hr⟩ := h
  rw [← hp.path]
  refine approve_signs hr (by decide) ?_
  have hk := ha.1.kind
  have hlen : hdr.length + 32 ≤ seen.length := by
    rw [hs]; simp only [List.length_append, pl.blake.len]; omega
  have hcap : seen.length ≤ pl.cap := by have := hp.pos; have := hp.ok.2; omega
  unfold signedBytes
  dsimp only
  rw [hp.ctx, hp.dep, hk]
  simp only [hc, ← hl, Nat.reduceEqDiff, and_false, or_self, or_true, false_or, if_false, if_true, Nat.zero_add, zero_ne_one]
  rw [if_pos (by omega), hp.mem_split hdr.length hlen]
  congr 1
  rw [hs, List.append_assoc, List.drop_left, List.take_left' (pl.blake.len _)]

end

/-- A raw WASM upload that opened a review. -/
theorem wasm_open {pl : Platform} (hcap : pl.cap ≤ 16384) {d d' : Dev} (hd : d.Ok pl) {path : Bytes}
    (hl : path.length = 20) (hp : casperPath path) {cs : List Bytes} {last : Bytes}
    (h : run pl d (upload 4 path cs last) = (d', List.replicate (cs.length + 1) (.reply [] 0x9000) ++ [.pending])) :
    ∃ s, WasmAccepts pl d.expert d.ctx.content (kept pl.cap [] (cs ++ [last])).1 s ∧
      Reviewed pl d path (kept pl.cap [] (cs ++ [last])).1 s d' := by
  obtain ⟨h1, h2⟩ := wasm_upload (pl := pl) (by omega) hd hl hp cs last
  by_cases hacc : ∃ s, WasmAccepts pl d.expert d.ctx.content (kept pl.cap [] (cs ++ [last])).1 s
  · obtain ⟨s, hs⟩ := hacc
    obtain ⟨d2, k1, k2⟩ := h1 s hs
    rw [h] at k1
    cases k1
    exact ⟨s, hs, k2⟩
  · exact absurd (by rw [h]) (h2 fun s hs => hacc ⟨s, hs⟩)

/-- Data beginning with a serialized header: what the parser made of it. -/
theorem WasmAccepts.header {pl : Platform} (hcap : pl.cap ≤ 16384) {x : Bool} {c : Nat} {seen : Bytes} {s : DS} (ha : WasmAccepts pl x c seen s)
    (hlen : seen.length ≤ pl.cap) {h : DeployHeader} (ho : h.Ok) {hash rest : Bytes} (hh : hash.length = 32)
    (hs : seen = h.encode ++ hash ++ rest) : hash = pl.blake h.encode ∧ h.encode.length = headerLength s.dep.header ∧
      (seen.drop (keyLen seen + 24)).take 32 = h.bodyHash := by
  have hf : Fits (wasmEnv pl x c seen) := by unfold Fits; show seen.length ≤ 65535; omega
  have a0 : At (wasmEnv pl x c seen).buf 0 h.encode := ⟨[], hash ++ rest, by show seen = _; rw [hs]; simp, rfl⟩
  obtain ⟨p, hp⟩ := readWasm_post _ _ ha.1.2
  have hv := hp.header.view_eq hf ho a0
  obtain ⟨-, -, w3⟩ := header_small ho hf a0
  obtain ⟨hdr, r, b1, b2⟩ := ha.split
  have hb2 := b2
  rw [hv, w3] at b2
  rw [hs, List.append_assoc, List.append_assoc] at b1
  obtain ⟨c1, c2⟩ := List.append_inj b1 b2.symm
  obtain ⟨c3, -⟩ := List.append_inj c2 (by rw [hh, pl.blake.len])
  have hly := (header_layout ho a0).bodyHash
  have hpk := hp.header.pkLen
  rw [hv] at hpk
  refine ⟨by rw [c3, c1], by rw [c1, hb2], ?_⟩
  have := hly.take_drop
  rw [show partIndex h.view .bodyhash = pkLen h.view + 24 from rfl, hpk, ho.bodyHash] at this
  exact this

/-- **C36, what is true of it (any device state).** If the last transaction data handed to the device was a Deploy (or if there was none
since power on): whenever a raw WASM upload opens a review, the data kept begins with a header and its hash, the review shows exactly that
hash and the 32 bytes in the place of the body hash, and approving it signs SHA-256 of exactly the hash shown. -/
theorem C36_state_partial (pl : Platform) (hcap : pl.cap ≤ 16384) (d d' : Dev) (hd : d.Ok pl) (hc : d.ctx.content = 0) (path : Bytes)
    (hl : path.length = 20) (hp : casperPath path) (cs : List Bytes) (last seen : Bytes) (hseen : seen = (kept pl.cap [] (cs ++ [last])).1)
    (h : run pl d (upload 4 path cs last) = (d', List.replicate (cs.length + 1) (.reply [] 0x9000) ++ [.pending])) :
    ∃ hdr rest, seen = hdr ++ pl.blake hdr ++ rest ∧
      Shows pl d' .wasm [(b!"DeployHash", lowerHex (pl.blake hdr)), (b!"BodyHash", lowerHex ((seen.drop (keyLen seen + 24)).take 32))] ∧
      (step pl d' .approve).2 = signatureReply pl path (pl.sha256 (pl.blake hdr)) := by
  obtain ⟨s, hs, k2⟩ := wasm_open hcap hd hl hp h
  rw [← hseen] at hs k2
  obtain ⟨hdr, rest, a1, a2⟩ := hs.split
  exact ⟨hdr, rest, a1, k2.shows hs a1 a2, k2.signs hs hc a1 a2⟩

/-- **C36, what is true of it (well-formed headers).** As before, for data that begins with the serialization of a header followed by 32
bytes: these bytes are the hash of that very serialization, and the second line shows the body hash of that header. -/
theorem C36_header_partial (pl : Platform) (hcap : pl.cap ≤ 16384) (d d' : Dev) (hd : d.Ok pl) (hc : d.ctx.content = 0) (path : Bytes)
    (hl : path.length = 20) (hp : casperPath path) (cs : List Bytes) (last : Bytes) (x : DeployHeader) (hx : x.Ok) (hash rest : Bytes)
    (hh : hash.length = 32) (hseen : (kept pl.cap [] (cs ++ [last])).1 = x.encode ++ hash ++ rest)
    (h : run pl d (upload 4 path cs last) = (d', List.replicate (cs.length + 1) (.reply [] 0x9000) ++ [.pending])) :
    hash = pl.blake x.encode ∧
      Shows pl d' .wasm [(b!"DeployHash", lowerHex (pl.blake x.encode)), (b!"BodyHash", lowerHex x.bodyHash)] ∧
      (step pl d' .approve).2 = signatureReply pl path (pl.sha256 (pl.blake x.encode)) := by
  obtain ⟨s, hs, k2⟩ := wasm_open hcap hd hl hp h
  obtain ⟨a1, a2, a3⟩ := hs.header hcap (kept_le (Nat.zero_le _)) hx hh hseen
  rw [a1] at hseen
  have := k2.shows hs hseen a2
  rw [a3] at this
  exact ⟨a1, this, k2.signs hs hc hseen a2⟩

/-! ### Proper raw WASM deploys are accepted, however large -/

theorem readLE_short {e : Env} (n : Nat) {off : Nat} (ho : off ≤ e.buf.length) (h : e.buf.length < off + n) : ∃ t, readLE e n off = .err eBufferEnd t := by
  induction n generalizing off with
  | zero => omega
  | succ n ih =>
    unfold readLE
    rw [bind_run]
    unfold readU8
    cases hx : e.buf[off]? with
    | none => exact ⟨off, rfl⟩
    | some b =>
      have := (List.getElem?_eq_some_iff.1 hx).1
      obtain ⟨t, ht⟩ := ih (off := off + 1) (by omega) (by omega)
      refine ⟨t, ?_⟩
      dsimp only
      rw [Res.bind_ok, bind_run, ht]
      rfl

/-- Module code cut off. -/
theorem parseItem_cut {e : Env} {off n : Nat} (ho : off ≤ e.buf.length) (hn : off + 4 + n < 4294967296)
    (ha : off + 4 ≤ e.buf.length → At e.buf off (le 4 n)) (h : e.buf.length < off + 4 + n) : ∃ t, parseItem e off = .err eBufferEnd t := by
  unfold parseItem
  rw [bind_run]
  by_cases h4 : off + 4 ≤ e.buf.length
  · rw [show readU32 e off = _ from readLE_at (ha h4) (by omega), Res.bind_ok, bind_run, get_run, Res.bind_ok,
      if_pos (by rw [u32_id (by omega)]; omega)]
    exact ⟨_, rfl⟩
  · obtain ⟨t, ht⟩ := readLE_short 4 ho (by omega)
    rw [show readU32 e off = _ from ht]
    exact ⟨t, rfl⟩

/-- The raw WASM parser on a proper header, payment and the beginning of a session of which parsing fails. -/
theorem readWasm_session {e : Env} (hf : Fits e) {d : DeploySpec} (hd : d.Ok) {code : Bytes} {k fee : Nat} (hp : d.payment = payItem code k fee)
    {rest : Bytes} (hb : e.buf = (d.header e.blake).encode ++ e.blake (d.header e.blake).encode ++ d.payment.encode ++ 0 :: rest)
    {y : Nat} {u : IS} (hs : parseDeployItem e false ⟨d.sessionPos e.blake + 1, 0, {}⟩ = .err y u) :
    readWasm e ⟨0, 0, { kind := 2 }⟩ =
      (if y = eNoData ∨ y = eBufferEnd then Res.ok () else Res.err eUnexpectedError)
        ⟨u.off, u.epo, { kind := 2, header := (d.header e.blake).view, payment := payView code k fee, session := u.item }⟩ := by
  have h32 := e.blake.len (d.header e.blake).encode
  have ho := hd.header e.blake
  have a0 : At e.buf 0 (d.header e.blake).encode := ⟨[], _, by rw [hb]; simp only [List.nil_append, List.append_assoc]; rfl, rfl⟩
  have a1 : At e.buf ((d.header e.blake).encode.length + 32) d.payment.encode :=
    ⟨(d.header e.blake).encode ++ e.blake (d.header e.blake).encode, _, hb, by rw [List.length_append, h32]⟩
  have a2 : At e.buf (d.sessionPos e.blake) (0 :: rest) :=
    ⟨(d.header e.blake).encode ++ e.blake (d.header e.blake).encode ++ d.payment.encode, [], by rw [hb, List.append_nil],
      by rw [List.length_append, List.length_append, h32]; rfl⟩
  have hly := header_layout ho a0
  obtain ⟨w1, w2, w3⟩ := header_small ho hf a0
  have l1 := a1.le
  have l2 := a2.le
  have hlen := ho.length
  have hf' := hf
  unfold Fits at hf'
  have hsp : d.sessionPos e.blake = (d.header e.blake).encode.length + 32 + d.payment.encode.length := rfl
  unfold readWasm
  obtain ⟨b, xs, hb1, hb2⟩ := PubKey.head hly.account
  have hbyte : byteAt e 0 0 = .ok b.toNat 0 := by unfold byteAt; rw [hb1.get]
  refine ldThen hbyte (modThen (reqThen ?_ (getThen ?_)))
  rotate_left
  · rw [hb2]
    refine ldThen (indexPart_at hly.deps rfl _) (ldThen (readLE_at (At.append.1 hly.deps).1 (by omega)) (modThen (getThen ?_)))
    refine ldThen (indexPart_at hly.chain w2 _) (ldThen (readLE_at (At.append.1 hly.chain).1 (by omega)) (modThen (getThen ?_)))
    have hc := hly.chain.le
    rw [pfx_length] at hc
    rw [if_neg (by show ¬ e.buf.length < pkLen (d.header e.blake).view + 56 + (4 + (d.header e.blake).deps.length * 32) + 4 + 32; omega)]
    refine ldThen (a := ()) (o := (d.header e.blake).encode.length + 32) ?_ ?_
    · show seek (headerLength (d.header e.blake).view + 32) _ = _
      rw [w3]
      show Res.ok () (u16 _) = _
      rw [u16_id (by omega)]
    rw [hp] at a1
    refine ldThen (readU8_at a1) (reqThen (by decide) ?_)
    refine seqThen (a := ()) (t := ⟨(d.header e.blake).encode.length + 32 + 1, 0, { kind := 2, header := (d.header e.blake).view }⟩) rfl (reqThen rfl ?_)
    refine seqThen (a := ()) (t := ⟨d.sessionPos e.blake, 0, { kind := 2, header := (d.header e.blake).view, payment := payView code k fee }⟩) ?_ ?_
    · unfold onPayment
      dsimp only
      rw [payment_at hf a1, hsp, hp]
    refine getThen (reqThen (by simp [payView]) ?_)
    refine ldThen (readU8_at a2) (reqThen (by decide) ?_)
    refine seqThen (a := ()) (t := ⟨d.sessionPos e.blake + 1, 0, { kind := 2, header := (d.header e.blake).view, payment := payView code k fee }⟩) rfl ?_
    refine seqThen (a := .error y) (t := ⟨u.off, u.epo, { kind := 2, header := (d.header e.blake).view, payment := payView code k fee, session := u.item }⟩) ?_ ?_
    · rw [attempt_run]
      unfold onSession
      dsimp only
      rw [hs]
    · dsimp only
      rw [require_run]
      by_cases hy : y = eNoData ∨ y = eBufferEnd
      · rw [if_pos hy, if_pos ⟨rfl, hy⟩]
      · rw [if_neg hy, if_neg fun h => hy h.2]
  · rw [hb2]; cases (d.header e.blake).account <;> simp [PubKey.kind]

/-- Bound on what is lost at the end of the buffer. -/
theorem kept_full {cap m : Nat} {acc : Bytes} {cs : List Bytes} (hm : ∀ c ∈ cs, c.length ≤ m) (h : cap < (acc ++ cs.flatten).length) :
    cap < (kept cap acc cs).1.length + m := by
  induction cs generalizing acc with
  | nil => simp at h; simp [kept]; omega
  | cons c cs ih =>
    rw [kept]
    split
    · exact ih (fun c hc => hm c (by simp [hc])) (by simpa using h)
    · have := hm c (by simp)
      dsimp only; omega

/-- Module code that is not complete. -/
theorem module_cut {e : Env} {off n : Nat} (ho : off ≤ e.buf.length) (hn : off + 4 + n < 4294967296)
    (ha : off + 4 ≤ e.buf.length → At e.buf off (le 4 n)) (h : e.buf.length < off + 4 + n) :
    ∃ u, parseDeployItem e false ⟨off, 0, {}⟩ = .err eBufferEnd u := by
  obtain ⟨t, ht⟩ := parseItem_cut ho hn ha h
  refine ⟨⟨t, 0, { total := 0, fixed := 0, runtime := 0, generic := 0, special := 255 }⟩, ?_⟩
  unfold parseDeployItem
  refine modThen (getThen ?_)
  dsimp only
  rw [if_pos rfl]
  unfold parseModuleBytes
  refine getThen ?_
  rw [bind_run, lp_err (s := ⟨_, _, _⟩) ht]
  rfl

/-- Module code with its arguments, of which none called "auction" is found. -/
theorem module_search {e : Env} (hf : Fits e) {off n c c' y : Nat} {code : Bytes} (h : At e.buf off (0 :: pfx code ++ le 4 n)) (hn : n < 4294967296)
    (hs : (∃ r, searchArgs e b!"new_validator" n (off + 1 + 4 + code.length + 4) = .ok r c) ∨
      ∃ x, searchArgs e b!"new_validator" n (off + 1 + 4 + code.length + 4) = .err x c)
    (hg : getData e b!"auction" n c = .err y c') (hy : y = eNoData → e.wasm = true) :
    ∃ u, parseDeployItem e false ⟨off + 1, 0, {}⟩ = .err y u := by
  have h1 := (At.cons.1 h).2
  have h3 := h1.pfx.2
  refine ⟨⟨c', 0, { total := 0, fixed := 0, runtime := 0, generic := 0, special := 255, itemOffset := off + 1 + 4 + code.length + 4 }⟩, ?_⟩
  unfold parseDeployItem
  refine modThen (getThen ?_)
  dsimp only
  rw [if_pos rfl]
  unfold parseModuleBytes
  refine getThen (lpThen (parseItem_at hf h1) (lpThen (readLE_at h3 (show n < 256 ^ 4 by omega)) ?_))
  dsimp only
  rw [if_neg (by decide), bind_run]
  have : parseDelegation e n false ⟨off + 1 + 4 + code.length + 4, 0, { total := 0, fixed := 0, runtime := 0, generic := 0, special := 255 }⟩
      = .err y ⟨c', 0, { total := 0, fixed := 0, runtime := 0, generic := 0, special := 255, itemOffset := off + 1 + 4 + code.length + 4 }⟩ := by
    unfold parseDelegation
    refine getThen ?_
    rw [if_pos (by rfl), bind_run]
    have : parseAuction e n ⟨off + 1 + 4 + code.length + 4, 0, { total := 0, fixed := 0, runtime := 0, generic := 0, special := 255 }⟩
        = .err y ⟨c', 0, { total := 0, fixed := 0, runtime := 0, generic := 0, special := 255, itemOffset := off + 1 + 4 + code.length + 4 }⟩ := by
      unfold parseAuction
      refine getThen (modThen ?_)
      dsimp only
      obtain ⟨r, hr⟩ : ∃ r, attempt (lp (searchArgs e b!"new_validator" n)) ⟨off + 1 + 4 + code.length + 4, 0,
          { total := 0, fixed := 0, runtime := 0, generic := 0, special := 255, itemOffset := off + 1 + 4 + code.length + 4 }⟩ =
          .ok r ⟨c, 0, { total := 0, fixed := 0, runtime := 0, generic := 0, special := 255, itemOffset := off + 1 + 4 + code.length + 4 }⟩ := by
        rw [attempt_run]
        unfold lp
        dsimp only
        rcases hs with ⟨r, hs⟩ | ⟨x, hs⟩ <;> rw [hs] <;> exact ⟨_, rfl⟩
      refine seqThen hr ?_
      rw [bind_run, bind_run, attempt_run, lp_err (s := ⟨_, _, _⟩) hg]
      dsimp only
      rw [Res.bind_ok]
      dsimp only
      by_cases h1 : y = eNoData
      · rw [if_neg (by simpa using h1), if_pos (hy h1), h1]; rfl
      · rw [if_pos h1]; rfl
    rw [this]
    rfl
  rw [this]
  rfl

/-- Complete module code, without an argument called "auction". -/
theorem module_whole {e : Env} (hf : Fits e) (hw : e.wasm = true) {off : Nat} {code : Bytes} {as : List Arg} (hok : ∀ a ∈ as, a.Ok)
    (hau : ∀ a ∈ as, cstr a.name ≠ b!"auction") (h : At e.buf off (ExecItem.moduleBytes code as).encode) :
    ∃ u, parseDeployItem e false ⟨off + 1, 0, {}⟩ = .err eNoData u := by
  have h0 : At e.buf off (0 :: pfx code ++ le 4 as.length ++ encodeArgs as) := by
    simpa [ExecItem.encode, encodeRuntimeArgs] using h
  obtain ⟨h1, h2⟩ := At.append.1 h0
  have hl := h2.le
  have hc := encodeArgs_count as
  have hf' := hf
  unfold Fits at hf'
  simp only [List.length_append, List.length_cons, pfx_length, le_length] at h2 hl
  rw [show off + (4 + code.length + 1 + 4) = off + 1 + 4 + code.length + 4 by omega] at h2 hl
  have hs := searchArgs_at (name := b!"new_validator") hf hok h2
  have hg := getData_none (name := b!"auction") (k := as.length) hf hok (by simpa using hau) (Nat.le_refl _) h2
  refine module_search hf h1 (by omega) ?_ hg fun _ => hw
  cases hx : as.find? (fun a => cstr a.name == b!"new_validator") with
  | none => rw [hx] at hs; exact .inr ⟨_, hs⟩
  | some a => rw [hx] at hs; exact .inl ⟨_, hs⟩

/-- Module code whose arguments are not complete: the number of arguments, or the arguments themselves. -/
theorem module_args_cut {e : Env} (hf : Fits e) {off : Nat} {code : Bytes} {as : List Arg} (hok : ∀ a ∈ as, a.Ok)
    (h : Begins e.buf off (0 :: pfx code ++ encodeRuntimeArgs as)) (h1 : off + 5 + code.length ≤ e.buf.length)
    (h2 : e.buf.length < off + 5 + code.length + (encodeRuntimeArgs as).length)
    (hlong : off + 5 + code.length + (encodeRuntimeArgs as).length < 4294967296) :
    (e.buf.length < off + 9 + code.length ∧ ∃ u, parseDeployItem e false ⟨off + 1, 0, {}⟩ = .err eBufferEnd u) ∨
    off + 9 + code.length ≤ e.buf.length ∧ At e.buf off (0 :: pfx code ++ le 4 as.length) ∧
      ((∃ a ∈ wholeArgs as (e.buf.length - (off + 9 + code.length)), cstr a.name = b!"new_validator") ∧
        (∃ r, searchArgs e b!"new_validator" as.length (off + 1 + 4 + code.length + 4) = .ok r (off + 1 + 4 + code.length + 4)) ∧
        ((∀ a ∈ as, cstr a.name ≠ b!"auction") → ∃ c, getData e b!"auction" as.length (off + 1 + 4 + code.length + 4) = .err eBufferEnd c) ∨
      (∀ a ∈ wholeArgs as (e.buf.length - (off + 9 + code.length)), cstr a.name ≠ b!"new_validator") ∧
        searchArgs e b!"new_validator" as.length (off + 1 + 4 + code.length + 4) =
          .err eBufferEnd (e.buf.length - (brokenPart as (e.buf.length - (off + 9 + code.length))).length)) := by
  have hl : (encodeRuntimeArgs as).length = 4 + (encodeArgs as).length := by unfold encodeRuntimeArgs; simp
  by_cases h9 : e.buf.length < off + 9 + code.length
  · refine .inl ⟨h9, ?_⟩
    obtain ⟨k1, -⟩ := h.past (by simp only [List.length_cons, pfx_length]; omega)
    refine ⟨⟨e.buf.length, 0, { total := 0, fixed := 0, runtime := 0, generic := 0, special := 255 }⟩, ?_⟩
    unfold parseDeployItem
    refine modThen (getThen ?_)
    dsimp only
    rw [if_pos rfl]
    unfold parseModuleBytes
    refine getThen (lpThen (parseItem_at (ys := []) hf (by rw [List.append_nil]; exact (At.cons.1 k1).2)) ?_)
    rw [bind_run, lp_err (s := ⟨_, _, _⟩) (show readU32 e (off + 1 + 4 + code.length) = _ from readLE_end 4 (by omega) (by omega))]
    rfl
  · refine .inr ⟨by omega, ?_⟩
    unfold encodeRuntimeArgs at h
    rw [← List.append_assoc] at h
    obtain ⟨k1, k2⟩ := h.past (by simp only [List.length_append, List.length_cons, pfx_length, le_length]; omega)
    simp only [List.length_append, List.length_cons, pfx_length, le_length] at k2
    rw [show off + (4 + code.length + 1 + 4) = off + 9 + code.length by omega] at k2
    refine ⟨k1, ?_⟩
    rw [show off + 1 + 4 + code.length + 4 = off + 9 + code.length by omega]
    unfold searchArgs
    rw [bind_run, get_run, Res.bind_ok]
    rcases searchFrom_cut hf (name := b!"new_validator") (start := off + 9 + code.length) hok k2 (by omega) (by omega) with ⟨h0, h⟩ | h
    · exact .inl ⟨h0, h, fun hau => getData_cut hf hok hau k2 (by omega) (by omega)⟩
    · exact .inr h

/-- What is kept of an argument list ends where it can be told that it is not complete. -/
def EndsWell (as : List Arg) (m : Nat) : Prop := (∃ a ∈ wholeArgs as m, cstr a.name = b!"new_validator") ∨ Unlike (brokenPart as m)

theorem brokenPart_length : ∀ (as : List Arg) (m : Nat), (brokenPart as m).length ≤ m := by
  intro as
  induction as with
  | nil => intro m; simp [brokenPart]
  | cons a as ih =>
    intro m
    rw [brokenPart]
    split
    · unfold Arg.broken
      split; · simp
      split; · simp only [List.length_take]; omega
      split; · simp
      split; · simp only [List.length_take]; omega
      · simp
    · have := ih (m - a.encode.length); omega

theorem take_past {xs ys : Bytes} {m : Nat} (h : xs.length ≤ m) : (xs ++ ys).take m = xs ++ ys.take (m - xs.length) := by
  rw [List.take_append, List.take_of_length_le h]

theorem Arg.broken_suffix (a : Arg) (m : Nat) : a.broken m <:+ a.encode.take m := by
  unfold Arg.broken
  split; · exact List.nil_suffix
  split
  · rename_i h4 h
    refine ⟨le 4 a.name.length, ?_⟩
    unfold Arg.encode Casper.pfx
    rw [List.append_assoc, take_past (by simp only [le_length]; omega), le_length, List.take_append_of_le_length (by omega)]
  split; · exact List.nil_suffix
  split
  · rename_i h4 h5 h8 h
    refine ⟨Casper.pfx a.name ++ le 4 a.value.length, ?_⟩
    unfold Arg.encode
    rw [take_past (by simp only [pfx_length]; omega), show Casper.pfx a.value = le 4 a.value.length ++ a.value from rfl, List.append_assoc,
      List.append_assoc, take_past (xs := le 4 a.value.length) (by simp only [pfx_length, le_length]; omega), List.take_append_of_le_length (by simp; omega)]
    rw [pfx_length, le_length, show m - (4 + a.name.length) - 4 = m - 8 - a.name.length by omega]
  · exact List.nil_suffix

theorem brokenPart_suffix : ∀ (as : List Arg) (m : Nat), m < (encodeArgs as).length → brokenPart as m <:+ (encodeArgs as).take m := by
  intro as
  induction as with
  | nil => intro m h; simp [encodeArgs] at h
  | cons a as ih =>
    intro m h
    rw [brokenPart, encodeArgs]
    rw [encodeArgs, List.length_append] at h
    split
    · rename_i hm
      rw [List.take_append_of_le_length (by omega)]
      exact a.broken_suffix m
    · rw [List.take_append, List.take_of_length_le (by omega)]
      obtain ⟨r, hr⟩ := ih (m - a.encode.length) (by omega)
      exact ⟨a.encode ++ r, by rw [List.append_assoc, hr]⟩

/-- The data kept of a raw WASM deploy: a part that ends within the code, within the arguments, or after them. -/
inductive WasmSeen (H : Bytes → Bytes) (x : DeploySpec) (ap : List Bytes) (code : Bytes) (as : List Arg) (content : Nat) : Bytes → Prop where
  | cut {seen : Bytes} (hp : seen <+: x.tx H ap) (h1 : x.sessionPos H < seen.length) (h2 : seen.length < x.sessionPos H + 5 + code.length) :
      WasmSeen H x ap code as content seen
  | args {seen : Bytes} (hp : seen <+: x.tx H ap) (hok : ∀ a ∈ as, a.Ok) (hau : ∀ a ∈ as, cstr a.name ≠ b!"auction")
      (h1 : x.sessionPos H + 5 + code.length ≤ seen.length) (h2 : seen.length < x.sessionPos H + 5 + code.length + (encodeRuntimeArgs as).length)
      (he : x.sessionPos H + 9 + code.length ≤ seen.length → EndsWell as (seen.length - (x.sessionPos H + 9 + code.length))) :
      WasmSeen H x ap code as content seen
  | after {seen : Bytes} (hp : seen <+: x.tx H ap) (hc : content = 0) (hok : ∀ a ∈ as, a.Ok) (hau : ∀ a ∈ as, cstr a.name ≠ b!"auction")
      (h1 : x.sessionPos H + 5 + code.length + (encodeRuntimeArgs as).length ≤ seen.length) : WasmSeen H x ap code as content seen

theorem WasmSeen.start {H : Bytes → Bytes} {x : DeploySpec} {ap : List Bytes} {code : Bytes} {as : List Arg} {content : Nat} {seen : Bytes}
    (h : WasmSeen H x ap code as content seen) : seen <+: x.tx H ap ∧ x.sessionPos H < seen.length := by
  cases h with
  | cut hp h1 h2 => exact ⟨hp, h1⟩
  | args hp _ _ h1 => exact ⟨hp, by omega⟩
  | after hp _ _ _ h1 => exact ⟨hp, by omega⟩

/-- Everything before the code. -/
theorem DeploySpec.tx_eq (H : Bytes → Bytes) (x : DeploySpec) (ap : List Bytes) {code : Bytes} {as : List Arg} (hses : x.session = .moduleBytes code as) :
    x.tx H ap = (x.header H).encode ++ H (x.header H).encode ++ x.payment.encode ++
      0 :: (le 4 code.length ++ (code ++ encodeRuntimeArgs as ++ (le 4 ap.length ++ ap.flatten))) := by
  unfold DeploySpec.tx DeploySpec.body
  rw [hses]
  simp [ExecItem.encode, pfx]

/-- The beginning of a raw WASM deploy. -/
theorem DeploySpec.beginning {H : Bytes → Bytes} (h32 : ∀ x, (H x).length = 32) {x : DeploySpec} {ap : List Bytes} {code : Bytes} {as : List Arg}
    (hses : x.session = .moduleBytes code as) {seen : Bytes} (hp : seen <+: x.tx H ap) (h1 : x.sessionPos H < seen.length) :
    (∃ rest, seen = (x.header H).encode ++ H (x.header H).encode ++ x.payment.encode ++ 0 :: rest) ∧
      Begins seen (x.sessionPos H) (0 :: pfx code ++ encodeRuntimeArgs as ++ (le 4 ap.length ++ ap.flatten)) := by
  have htx := x.tx_eq H ap hses
  have hlen : ((x.header H).encode ++ H (x.header H).encode ++ x.payment.encode).length = x.sessionPos H := by
    unfold DeploySpec.sessionPos; simp only [List.length_append, h32]
  constructor
  · have hpre : (x.header H).encode ++ H (x.header H).encode ++ x.payment.encode ++ [0] <+: seen := by
      refine List.prefix_of_prefix_length_le ?_ hp ?_
      · rw [htx]; exact ⟨le 4 code.length ++ (code ++ encodeRuntimeArgs as ++ (le 4 ap.length ++ ap.flatten)), by simp⟩
      · rw [List.length_append, hlen]; exact h1
    obtain ⟨r, hr⟩ := hpre
    exact ⟨r, by rw [← hr]; simp⟩
  · have h0 : Begins seen 0 ((x.header H).encode ++ H (x.header H).encode ++ x.payment.encode ++
        (0 :: pfx code ++ encodeRuntimeArgs as ++ (le 4 ap.length ++ ap.flatten))) := by
      refine ⟨Nat.zero_le _, ?_⟩
      rw [List.drop_zero, show _ ++ _ = x.tx H ap by rw [htx]; simp [pfx]]
      exact hp
    have := (h0.past (by rw [hlen]; omega)).2
    rwa [hlen, Nat.zero_add] at this

/-- The last bytes of data that end within the arguments. -/
theorem DeploySpec.broken_drop {seen : Bytes} {off : Nat} {code : Bytes} {as : List Arg} (h : Begins seen off (0 :: pfx code ++ encodeRuntimeArgs as))
    (h1 : off + 9 + code.length ≤ seen.length) (h2 : seen.length < off + 9 + code.length + (encodeArgs as).length) :
    seen.drop (seen.length - (brokenPart as (seen.length - (off + 9 + code.length))).length) =
      brokenPart as (seen.length - (off + 9 + code.length)) := by
  unfold encodeRuntimeArgs at h
  rw [← List.append_assoc] at h
  obtain ⟨-, k2⟩ := h.past (by simp only [List.length_append, List.length_cons, pfx_length, le_length]; omega)
  simp only [List.length_append, List.length_cons, pfx_length, le_length] at k2
  rw [show off + (4 + code.length + 1 + 4) = off + 9 + code.length by omega] at k2
  obtain ⟨r, hr⟩ := k2.2
  have ht : (encodeArgs as).take (seen.length - (off + 9 + code.length)) = seen.drop (off + 9 + code.length) := by
    rw [← hr, List.take_append_of_le_length (by simp), List.take_of_length_le (by simp)]
  obtain ⟨q, hq⟩ := brokenPart_suffix as (seen.length - (off + 9 + code.length)) (by omega)
  rw [ht] at hq
  have hbl := brokenPart_length as (seen.length - (off + 9 + code.length))
  have hql := congrArg List.length hq
  simp only [List.length_append, List.length_drop] at hql
  rw [show seen.length - (brokenPart as (seen.length - (off + 9 + code.length))).length = off + 9 + code.length + q.length by omega,
    ← List.drop_drop, ← hq, List.drop_left]

/-- A raw WASM deploy is accepted. -/
theorem wasm_accepted {pl : Platform} (hcap : pl.cap ≤ 16384) {expert : Bool} {content : Nat} {x : DeploySpec} {k fee : Nat} {pcode code : Bytes}
    {as : List Arg} {ap : List Bytes} (hx : x.Usual pcode k fee) (hses : x.session = .moduleBytes code as)
    (hlong : (x.tx pl.blake ap).length < 2 ^ 32)
    {seen : Bytes} (hlen : seen.length ≤ pl.cap) (hs : WasmSeen pl.blake x ap code as content seen) :
    (∃ s, WasmAccepts pl expert content seen s) ∧ ∃ rest, seen = (x.header pl.blake).encode ++ pl.blake (x.header pl.blake).encode ++ rest := by
  have hf : Fits (wasmEnv pl expert content seen) := by unfold Fits; show seen.length ≤ 65535; omega
  have h32 := pl.blake.len (x.header pl.blake).encode
  have htx := x.tx_eq pl.blake ap hses
  obtain ⟨⟨rest, hrest⟩, hbeg⟩ := DeploySpec.beginning pl.blake.len hses hs.start.1 hs.start.2
  have htl : (x.tx pl.blake ap).length = x.sessionPos pl.blake + 5 + code.length + (encodeRuntimeArgs as).length + (4 + ap.flatten.length) := by
    rw [htx]; unfold DeploySpec.sessionPos; simp only [List.length_append, List.length_cons, h32, le_length]; omega
  obtain ⟨y, u, hy, hsp⟩ : ∃ (y : Nat) (u : IS), (y = eNoData ∨ y = eBufferEnd) ∧
      parseDeployItem (wasmEnv pl expert content seen) false ⟨x.sessionPos pl.blake + 1, 0, {}⟩ = .err y u := by
    cases hs with
    | after hp hc hok hau h1 =>
      have hss := (hbeg.past (xs := 0 :: pfx code ++ encodeRuntimeArgs as) (by
        simp only [List.length_append, List.length_cons, pfx_length]; omega)).1
      obtain ⟨u, hu⟩ := module_whole (e := wasmEnv pl expert content seen) hf (by unfold wasmEnv; simp [hc]) hok hau (code := code)
        (by show At seen _ _; simpa [ExecItem.encode] using hss)
      exact ⟨_, u, .inl rfl, hu⟩
    | args hp hok hau h1 h2 he =>
      have hb2 := hbeg.front (xs := 0 :: pfx code ++ encodeRuntimeArgs as) (by simp only [List.length_append, List.length_cons, pfx_length]; omega)
      rcases module_args_cut (e := wasmEnv pl expert content seen) hf hok hb2 h1 h2 (by omega) with ⟨-, u, hu⟩ | ⟨h9, k1, k2⟩
      · exact ⟨_, u, .inr rfl, hu⟩
      · have hn := encodeArgs_count as
        have hel : (encodeRuntimeArgs as).length = 4 + (encodeArgs as).length := by unfold encodeRuntimeArgs; simp
        have h9' : x.sessionPos pl.blake + 9 + code.length ≤ seen.length := h9
        rcases k2 with ⟨-, hsr, hg⟩ | ⟨hno, hsr⟩
        · obtain ⟨c, hg⟩ := hg hau
          obtain ⟨u, hu⟩ := module_search hf k1 (by omega) (.inl hsr) hg (by intro h; cases h)
          exact ⟨_, u, .inr rfl, hu⟩
        · rcases he h9' with ⟨a, ha, hna⟩ | hu
          · exact absurd hna (hno a ha)
          · have hbl := brokenPart_length as (seen.length - (x.sessionPos pl.blake + 9 + code.length))
            have hdrop : seen.drop (seen.length - (brokenPart as (seen.length - (x.sessionPos pl.blake + 9 + code.length))).length) =
                brokenPart as (seen.length - (x.sessionPos pl.blake + 9 + code.length)) :=
              DeploySpec.broken_drop hb2 h9' (by omega)
            obtain ⟨n, hn2⟩ : ∃ n, as.length = n + 1 := by
              cases as with
              | nil => simp [encodeArgs] at hel; omega
              | cons a as => exact ⟨_, rfl⟩
            obtain ⟨c, hg⟩ := getData_unlike (e := wasmEnv pl expert content seen) (name := b!"auction") (k := n)
              (off := seen.length - (brokenPart as (seen.length - (x.sessionPos pl.blake + 9 + code.length))).length) (Nat.sub_le _ _)
              (by show Unlike (seen.drop _); rw [hdrop]; exact hu)
            rw [← hn2] at hg
            obtain ⟨u, hu⟩ := module_search hf k1 (by omega) (.inr ⟨_, hsr⟩) hg (by intro h; cases h)
            exact ⟨_, u, .inr rfl, hu⟩
    | cut hp h1 h2 =>
      have := hbeg
      obtain ⟨u, hu⟩ := module_cut (e := wasmEnv pl expert content seen) (off := x.sessionPos pl.blake + 1) (n := code.length)
        (show _ ≤ seen.length from h1) (by omega) (fun h4 => by
          have h4 : x.sessionPos pl.blake + 1 + 4 ≤ seen.length := h4
          have hb3 : Begins seen (x.sessionPos pl.blake) ([0] ++ (le 4 code.length ++ (code ++ encodeRuntimeArgs as ++ (le 4 ap.length ++ ap.flatten)))) := by
            simpa [pfx] using hbeg
          obtain ⟨-, j2⟩ := hb3.past (by show 1 ≤ _; omega)
          exact (j2.past (by rw [le_length, List.length_singleton]; omega)).1)
        (show seen.length < _ by omega)
      exact ⟨_, u, .inr rfl, hu⟩
  have hne : seen ≠ [] := by rw [hrest]; simp
  have hs2 := readWasm_session hf hx.ok hx.pays hrest hsp
  rw [if_pos hy] at hs2
  generalize (⟨u.off, u.epo, _⟩ : DS) = s at hs2
  have hrd : WasmReads pl expert content seen s := ⟨hne, hs2⟩
  obtain ⟨p, hp⟩ := readWasm_post _ _ hs2
  have hsplit : seen = (x.header pl.blake).encode ++ pl.blake (x.header pl.blake).encode ++ (x.payment.encode ++ 0 :: rest) := by
    rw [hrest]; simp
  have a0 : At (wasmEnv pl expert content seen).buf 0 (x.header pl.blake).encode :=
    ⟨[], pl.blake (x.header pl.blake).encode ++ (x.payment.encode ++ 0 :: rest), by show seen = _; rw [hsplit]; simp, rfl⟩
  have a1 : At (wasmEnv pl expert content seen).buf (x.header pl.blake).encode.length (pl.blake (x.header pl.blake).encode) :=
    ⟨(x.header pl.blake).encode, x.payment.encode ++ 0 :: rest, hsplit, rfl⟩
  have hv := hp.header.view_eq hf (hx.ok.header pl.blake) a0
  obtain ⟨-, -, w3⟩ := header_small (hx.ok.header pl.blake) hf a0
  have hhl : headerLength s.dep.header = (x.header pl.blake).encode.length := by rw [hv, w3]
  refine ⟨⟨s, hrd, ?_⟩, _, hsplit⟩
  unfold validateWasm
  rw [hhl]
  refine exThen (slice_at a0 rfl) (exThen (slice_at a1 h32.symm) ?_)
  rw [require_run, if_pos (show (wasmEnv pl expert content seen).blake (x.header pl.blake).encode = pl.blake (x.header pl.blake).encode from rfl)]
  exact ⟨_, rfl⟩

theorem seen_le {pl : Platform} {cs : List Bytes} {last : Bytes} : (kept pl.cap [] (cs ++ [last])).1.length ≤ pl.cap := kept_le (Nat.zero_le _)

/-- What is on the screen for a raw WASM deploy. -/
theorem wasm_reviewed (pl : Platform) (hcap : pl.cap ≤ 16384) (d : Dev) (hd : d.Ok pl) (path : Bytes) (hl : path.length = 20)
    (hp : casperPath path) (x : DeploySpec) (pcode : Bytes) (k fee : Nat) (hx : x.Usual pcode k fee) (code : Bytes) (as : List Arg)
    (hses : x.session = .moduleBytes code as) (ap : List Bytes) (hlong : (x.tx pl.blake ap).length < 2 ^ 32) (cs : List Bytes) (last : Bytes)
    (hs : WasmSeen pl.blake x ap code as d.ctx.content (kept pl.cap [] (cs ++ [last])).1) :
    ∃ d' s rest, run pl d (upload 4 path cs last) = (d', List.replicate (cs.length + 1) (.reply [] 0x9000) ++ [.pending]) ∧
      WasmAccepts pl d.expert d.ctx.content (kept pl.cap [] (cs ++ [last])).1 s ∧
      (kept pl.cap [] (cs ++ [last])).1 = (x.header pl.blake).encode ++ pl.blake (x.header pl.blake).encode ++ rest ∧
      (x.header pl.blake).encode.length = headerLength s.dep.header ∧ Reviewed pl d path (kept pl.cap [] (cs ++ [last])).1 s d' ∧
      Shows pl d' .wasm [(b!"DeployHash", lowerHex (pl.blake (x.header pl.blake).encode)), (b!"BodyHash", lowerHex (pl.blake x.body))] := by
  obtain ⟨⟨s, hs2⟩, rest, hr⟩ := wasm_accepted (expert := d.expert) hcap hx hses hlong seen_le hs
  obtain ⟨h1, -⟩ := wasm_upload (pl := pl) (by omega) hd hl hp cs last
  obtain ⟨d', k1, k2⟩ := h1 s hs2
  obtain ⟨a1, a2, a3⟩ := hs2.header hcap seen_le (hx.ok.header pl.blake) (pl.blake.len _) hr
  have := k2.shows hs2 hr a2
  rw [a3] at this
  exact ⟨d', s, rest, k1, hs2, hr, a2, k2, this⟩

/-- **C36, what is true of it (proper raw WASM deploys).** In the same states, uploading a well-formed Deploy whose session is module code —
either one that fits into the buffer and has no argument called "auction", or one of which the data kept ends within the code — opens a review
with the deploy hash and the body hash, and approving it signs SHA-256 of the deploy hash. -/
theorem C36_deploy_partial (pl : Platform) (hcap : pl.cap ≤ 16384) (d : Dev) (hd : d.Ok pl) (hc : d.ctx.content = 0) (path : Bytes)
    (hl : path.length = 20) (hp : casperPath path) (x : DeploySpec) (pcode : Bytes) (k fee : Nat) (hx : x.Usual pcode k fee) (code : Bytes)
    (as : List Arg) (hses : x.session = .moduleBytes code as) (ap : List Bytes) (hlong : (x.tx pl.blake ap).length < 2 ^ 32)
    (cs : List Bytes) (last : Bytes) (hcs : cs.flatten ++ last = x.tx pl.blake ap)
    (hwhole : (x.tx pl.blake ap).length ≤ pl.cap ∧ (∀ a ∈ as, a.Ok) ∧ (∀ a ∈ as, cstr a.name ≠ b!"auction") ∨
      ((∀ c ∈ cs ++ [last], c.length ≤ 255) ∧ x.sessionPos pl.blake + 255 ≤ pl.cap ∧ pl.cap < x.sessionPos pl.blake + 5 + code.length)) :
    ∃ d', run pl d (upload 4 path cs last) = (d', List.replicate (cs.length + 1) (.reply [] 0x9000) ++ [.pending]) ∧
      Shows pl d' .wasm [(b!"DeployHash", lowerHex (pl.blake (x.header pl.blake).encode)), (b!"BodyHash", lowerHex (pl.blake x.body))] ∧
      (step pl d' .approve).2 = signatureReply pl path (pl.sha256 (pl.blake (x.header pl.blake).encode)) := by
  have hfl : (cs ++ [last]).flatten = x.tx pl.blake ap := by rw [← hcs]; simp
  have hseen : WasmSeen pl.blake x ap code as d.ctx.content (kept pl.cap [] (cs ++ [last])).1 := by
    rcases hwhole with ⟨h1, h2, h3⟩ | ⟨h1, h2, h3⟩
    · rw [kept_fits (by simpa [hfl] using h1), List.nil_append, hfl]
      have htl := x.tx_eq pl.blake ap hses
      refine .after (List.prefix_refl _) hc h2 h3 ?_
      rw [htl]; unfold DeploySpec.sessionPos
      simp only [List.length_append, List.length_cons, pl.blake.len, le_length]; omega
    · have hpre := kept_prefix pl.cap [] (cs ++ [last])
      rw [List.nil_append, hfl] at hpre
      have hle := seen_le (pl := pl) (cs := cs) (last := last)
      have htl : x.sessionPos pl.blake + 5 + code.length ≤ (x.tx pl.blake ap).length := by
        rw [x.tx_eq pl.blake ap hses]; unfold DeploySpec.sessionPos
        simp only [List.length_append, List.length_cons, pl.blake.len, le_length]; omega
      have := kept_full (cap := pl.cap) (m := 255) (acc := []) h1 (by rw [List.nil_append, hfl]; omega)
      exact .cut hpre (by omega) (by omega)
  obtain ⟨d', s, rest, k1, k2, k3, k4, k5, k6⟩ := wasm_reviewed pl hcap d hd path hl hp x pcode k fee hx code as hses ap hlong cs last hseen
  exact ⟨d', k1, k6, k5.signs k2 hc k3 k4⟩

/-- **C36, what is true of it (histories).** `C36_state_partial` and `C36_header_partial` hold after any history in which all transaction
data completed was Deploy data.  The full statement has no condition on the history; see `C36_first_bytes_false` and `C36_transaction_false`. -/
theorem C36_history_partial (pl : Platform) (hcap : pl.cap ≤ 16384) (evs : List Event) (hev : OnlyDeploys pl evs) (d' : Dev) (path : Bytes)
    (hl : path.length = 20) (hp : casperPath path) (cs : List Bytes) (last seen : Bytes) (hseen : seen = (kept pl.cap [] (cs ++ [last])).1)
    (h : run pl (run pl (Dev.init pl) evs).1 (upload 4 path cs last) =
      (d', List.replicate (cs.length + 1) (.reply [] 0x9000) ++ [.pending])) :
    ∃ hdr rest, seen = hdr ++ pl.blake hdr ++ rest ∧
      Shows pl d' .wasm [(b!"DeployHash", lowerHex (pl.blake hdr)), (b!"BodyHash", lowerHex ((seen.drop (keyLen seen + 24)).take 32))] ∧
      (step pl d' .approve).2 = signatureReply pl path (pl.sha256 (pl.blake hdr)) ∧
      ∀ (x : DeployHeader) (hash rest' : Bytes), x.Ok → hash.length = 32 → seen = x.encode ++ hash ++ rest' →
        hdr = x.encode ∧ (seen.drop (keyLen seen + 24)).take 32 = x.bodyHash := by
  obtain ⟨s, hs, k2⟩ := wasm_open hcap ((Dev.Ok.init pl).run evs) hl hp h
  rw [← hseen] at hs k2
  obtain ⟨hdr, rest, a1, a2⟩ := hs.split
  refine ⟨hdr, rest, a1, k2.shows hs a1 a2, k2.signs hs (onlyDeploys_content hev) a1 a2, fun x hash rest' hx hh he => ?_⟩
  obtain ⟨b1, b2, b3⟩ := hs.header hcap (by rw [hseen]; exact seen_le) hx hh he
  refine ⟨?_, b3⟩
  rw [he, List.append_assoc, List.append_assoc] at a1
  exact (List.append_inj a1 (by rw [b2, a2])).1.symm

/-- **C36 fails after refused data.** After power on, someone sends transaction data of an unknown kind (first byte 2 or more), which is refused.
From then on every raw WASM deploy too large for the buffer is reviewed with its deploy hash and body hash, but approving it signs SHA-256 of the
*first 32 bytes* of the data instead: the account, and nothing else. -/
theorem C36_first_bytes_false (pl : Platform) (hcap : pl.cap ≤ 16384) (path path' : Bytes) (hl : path.length = 20) (hp : casperPath path)
    (hl' : path'.length = 20) (hp' : casperPath path') (b y : UInt8) (ys : Bytes) (hb : 2 ≤ b) (hys : ys.length + 2 ≤ pl.cap)
    (x : DeploySpec) (pcode : Bytes) (k fee : Nat) (hx : x.Usual pcode k fee) (code : Bytes) (as : List Arg)
    (hses : x.session = .moduleBytes code as) (ap : List Bytes) (hlong : (x.tx pl.blake ap).length < 2 ^ 32)
    (cs : List Bytes) (last : Bytes) (hcs : cs.flatten ++ last = x.tx pl.blake ap) (hch : ∀ c ∈ cs ++ [last], c.length ≤ 255)
    (h1 : x.sessionPos pl.blake + 255 ≤ pl.cap) (h2 : pl.cap < x.sessionPos pl.blake + 5 + code.length) :
    ∃ d1 d', run pl (Dev.init pl) (upload 2 path [] (b :: y :: ys)) = (d1, [.reply [] 0x9000, .reply b!"Unrecognized error code" 0x6984]) ∧
      run pl d1 (upload 4 path' cs last) = (d', List.replicate (cs.length + 1) (.reply [] 0x9000) ++ [.pending]) ∧
      Shows pl d' .wasm [(b!"DeployHash", lowerHex (pl.blake (x.header pl.blake).encode)), (b!"BodyHash", lowerHex (pl.blake x.body))] ∧
      (step pl d' .approve).2 = signatureReply pl path' (pl.sha256 (x.account.encode.take 32)) := by
  obtain ⟨t, k10, k12, k13, k14⟩ := refused_kind pl hcap path hl hp b y ys hb hys
  have hfl : (cs ++ [last]).flatten = x.tx pl.blake ap := by rw [← hcs]; simp
  have hpre := kept_prefix pl.cap [] (cs ++ [last])
  rw [List.nil_append, hfl] at hpre
  have hle := seen_le (pl := pl) (cs := cs) (last := last)
  have htl : x.sessionPos pl.blake + 5 + code.length ≤ (x.tx pl.blake ap).length := by
    rw [x.tx_eq pl.blake ap hses]; unfold DeploySpec.sessionPos
    simp only [List.length_append, List.length_cons, pl.blake.len, le_length]; omega
  have hlo := kept_full (cap := pl.cap) (m := 255) (acc := []) hch (by rw [List.nil_append, hfl]; omega)
  obtain ⟨d', s, rest, j1, j2, j3, j4, ⟨j5, j6⟩, j7⟩ := wasm_reviewed pl hcap t k12 path' hl' hp' x pcode k fee hx code as hses ap hlong cs last
    (.cut hpre (by omega) (by omega))
  refine ⟨t, d', k10, j1, j7, ?_⟩
  rw [← j5.path]
  refine approve_signs j6 (by decide) ?_
  have b0 : b.toNat ≠ 0 := by have : (2 : UInt8).toNat ≤ b.toNat := hb; simp at this; omega
  have b1 : b.toNat ≠ 1 := by have : (2 : UInt8).toNat ≤ b.toNat := hb; simp at this; omega
  unfold signedBytes
  dsimp only
  rw [j5.ctx, j5.v1, k14, k13]
  simp only [b0, b1, false_and, or_false, if_false]
  rw [if_pos (show 0 + ((V1.md {}).size + (V1.md {}).fo 0) + 32 ≤ pl.cap by show 32 ≤ pl.cap; omega)]
  show Res.ok ((d'.mem.drop 0).take 32) () = _
  have hak : 32 ≤ x.account.encode.length := by
    have := hx.ok.account
    cases hxa : x.account <;> rw [hxa] at this <;> simp only [PubKey.Ok] at this <;> simp [PubKey.encode, this]
  have hsl : x.sessionPos pl.blake < (kept pl.cap [] (cs ++ [last])).1.length := by omega
  have h32 : 32 ≤ x.sessionPos pl.blake := by unfold DeploySpec.sessionPos; omega
  rw [j5.mem_split 0 (by omega), j3, List.drop_zero]
  unfold DeployHeader.encode
  simp only [List.append_assoc]
  rw [show (x.header pl.blake).account = x.account from rfl, List.take_append_of_le_length hak]

/-- **C36 fails after a version 1 transaction.** A well-formed version 1 transaction is uploaded, its review opens, and the user rejects it.
Every raw WASM deploy too large for the buffer is afterwards reviewed with its deploy hash and body hash, but approving it signs SHA-256 of
the bytes 27 to 58 of the data instead, which reach to the beginning of the body hash only. -/
theorem C36_transaction_false (pl : Platform) (hcap : pl.cap ≤ 16384) (d d1 : Dev) (hd : d.Ok pl) (path path' : Bytes)
    (hl : path.length = 20) (hp : casperPath path) (hl' : path'.length = 20) (hp' : casperPath path')
    (p : TxPayload) (hok : p.Ok) (tap : List Bytes) (htap : ∀ x ∈ tap, ApprovalOk x) (ts : List Bytes) (tlast : Bytes)
    (hts : ts.flatten ++ tlast = 1 :: p.tx pl.blake tap) (hfit : (ts.flatten ++ tlast).length ≤ pl.cap)
    (hopen : run pl d (upload 2 path ts tlast) = (d1, List.replicate (ts.length + 1) (.reply [] 0x9000) ++ [.pending]))
    (x : DeploySpec) (pcode : Bytes) (k fee : Nat) (hx : x.Usual pcode k fee) (code : Bytes) (as : List Arg)
    (hses : x.session = .moduleBytes code as) (ap : List Bytes) (hlong : (x.tx pl.blake ap).length < 2 ^ 32)
    (cs : List Bytes) (last : Bytes) (hcs : cs.flatten ++ last = x.tx pl.blake ap) (hch : ∀ c ∈ cs ++ [last], c.length ≤ 255)
    (h1 : x.sessionPos pl.blake + 255 ≤ pl.cap) (h2 : pl.cap < x.sessionPos pl.blake + 5 + code.length) :
    ∃ d', run pl d1 (.reject :: upload 4 path' cs last) =
        (d', .reply [] 0x6986 :: (List.replicate (cs.length + 1) (.reply [] 0x9000) ++ [.pending])) ∧
      Shows pl d' .wasm [(b!"DeployHash", lowerHex (pl.blake (x.header pl.blake).encode)), (b!"BodyHash", lowerHex (pl.blake x.body))] ∧
      (step pl d' .approve).2 = signatureReply pl path' (pl.sha256 (((x.header pl.blake).encode.drop 27).take 32)) := by
  obtain ⟨d0, s, k1, k2, k3, k4, rfl⟩ := upload_v1_pending hcap hd hl hp hts hfit hopen
  have hsmall : Small (mkEnv pl d.expert (p.tx pl.blake tap)) := by
    rw [hts] at hfit
    unfold Small mkEnv; simp only [List.length_cons] at hfit ⊢; omega
  obtain ⟨hsv, -⟩ := k4.of_tx hsmall hok htap rfl
  have hv := result_view (p := p) (ap := tap) (e := mkEnv pl d.expert (p.tx pl.blake tap)) (pl.blake.len _)
  have hrej : step pl { d0.tookV1 s with review := some .tx } .reject =
      ({ d0.tookV1 s with review := none, io := poke d0.io [0x69, 0x86] }, .reply [] 0x6986) := rfl
  have hfl : (cs ++ [last]).flatten = x.tx pl.blake ap := by rw [← hcs]; simp
  have hpre := kept_prefix pl.cap [] (cs ++ [last])
  rw [List.nil_append, hfl] at hpre
  have hle := seen_le (pl := pl) (cs := cs) (last := last)
  have htl : x.sessionPos pl.blake + 5 + code.length ≤ (x.tx pl.blake ap).length := by
    rw [x.tx_eq pl.blake ap hses]; unfold DeploySpec.sessionPos
    simp only [List.length_append, List.length_cons, pl.blake.len, le_length]; omega
  have hlo := kept_full (cap := pl.cap) (m := 255) (acc := []) hch (by rw [List.nil_append, hfl]; omega)
  obtain ⟨d', s', rest, j1, j2, j3, j4, ⟨j5, j6⟩, j7⟩ := wasm_reviewed pl hcap { d0.tookV1 s with review := none, io := poke d0.io [0x69, 0x86] } k1
    path' hl' hp' x pcode k fee hx code as hses ap hlong cs last (.cut hpre (by omega) (by omega))
  refine ⟨d', by rw [run, hrej, j1], j7, ?_⟩
  rw [← j5.path]
  refine approve_signs j6 (by decide) ?_
  have hc : d'.ctx.content = 1 := by rw [j5.ctx]; rfl
  have hoff : d'.v1.md.size + d'.v1.md.fo 0 = 26 := by
    rw [j5.v1]
    show s.v.md.size + s.v.md.fo 0 = 26
    rw [hsv]
    exact congrArg₂ (· + ·) hv.size hv.fo0
  have hhl : 59 ≤ (x.header pl.blake).encode.length := by
    have := (hx.ok.header pl.blake).length
    omega
  have hsl : x.sessionPos pl.blake < (kept pl.cap [] (cs ++ [last])).1.length := by omega
  have h32 : 59 ≤ x.sessionPos pl.blake := by unfold DeploySpec.sessionPos; omega
  unfold signedBytes
  dsimp only
  rw [hc]
  simp only [hoff]
  rw [if_neg (by decide), if_pos (show ((1 : Nat) = 0 ∧ d'.dep.kind = 0) ∨ True from .inr trivial), if_pos (by omega),
    j5.mem_split 27 (by omega), j3, List.append_assoc, List.drop_append_of_le_length (by omega), List.take_append_of_le_length (by simp; omega)]

/-! ### The raw WASM part of C26 -/

/-- **C26, parsed and validated (raw WASM deploys uploaded without interruption).** If the commands of one raw WASM upload — INIT, chunks,
LAST — are sent in sequence and a review opens, then the data kept of this very upload was parsed, and its hash is right. -/
theorem C26_wasm_partial (pl : Platform) (hcap : pl.cap ≤ 16384) (d d' : Dev) (hd : d.Ok pl) (path : Bytes)
    (hl : path.length = 20) (hp : casperPath path) (cs : List Bytes) (last seen : Bytes) (hseen : seen = (kept pl.cap [] (cs ++ [last])).1)
    (h : run pl d (upload 4 path cs last) = (d', List.replicate (cs.length + 1) (.reply [] 0x9000) ++ [.pending])) :
    seen <+: cs.flatten ++ last ∧ ∃ s, WasmReads pl d.expert d.ctx.content seen s ∧ d'.dep = s.dep ∧
      ∃ hdr rest, seen = hdr ++ pl.blake hdr ++ rest ∧ hdr.length = headerLength s.dep.header := by
  obtain ⟨s, hs, k2⟩ := wasm_open hcap hd hl hp h
  rw [← hseen] at hs k2
  have hpre := kept_prefix pl.cap [] (cs ++ [last])
  rw [← hseen] at hpre
  exact ⟨by simpa using hpre, s, hs.1, k2.1.dep, hs.split⟩

/-- The end of a raw WASM upload while `tx_bufferFull` is set: the parser is not run. -/
theorem stale_finish {pl : Platform} {q : Dev} {n c : Nat} {z : Bytes} (hctx : q.ctx = ⟨0, n, c, .deploy⟩) (hk : q.dep.kind = 2)
    (hz : q.mem.take n = z) (hb : q.bufFull = true) {t : Nat} (hv : validateWasm (wasmEnv pl q.expert c z) q.dep 0 = .ok () t) :
    wasmRest pl 2 true q = .ok () { q with txInit := false, review := some .wasm } := by
  unfold wasmRest
  rw [bind_run, wasmFull_true, Res.bind_ok, if_pos rfl]
  unfold finishWasm
  have hw : wasmEnd pl { q with txInit := false, review := none } = .ok () { q with txInit := false, review := none } := by
    unfold wasmEnd
    rw [bind_run, get_run, Res.bind_ok, if_neg (by rw [hb]; decide)]
    rfl
  rw [bind_run, modify_run, Res.bind_ok, bind_run, hw, Res.bind_ok, bind_run]
  have he : Dev.env pl { q with txInit := false, review := none } = wasmEnv pl q.expert c z := by
    unfold Dev.env wasmEnv mkEnv
    simp only [hctx, hk, List.drop_zero, hz]
    simp
  have hval : txValidateWasm pl { q with txInit := false, review := none } = .ok () { q with txInit := false, review := none } := by
    unfold txValidateWasm
    rw [bind_run, get_run, Res.bind_ok, if_pos (by show q.ctx.obj = _; rw [hctx])]
    unfold runP
    rw [he]
    dsimp only
    rw [hv]
  rw [orThrow_run hval]
  rfl

/-- **C26 fails for raw WASM deploys sent in parts of different uploads.** A raw WASM deploy too large for the buffer is begun; then the first
chunk of a *transaction* upload is sent, then the LAST chunk of the raw WASM upload, empty.  A review opens, without the parser ever having seen the
data: `tx_bufferFull` still says that it was parsed.  All that is required of the data is that it consist of as many bytes as the header before,
and their hash; approving the review signs that hash. -/
theorem C26_wasm_false (pl : Platform) (hcap : pl.cap ≤ 16384) (d : Dev) (hd : d.Ok pl) (hc : d.ctx.content = 0) (path path' : Bytes)
    (hl : path.length = 20) (hp : casperPath path) (hl' : path'.length = 20) (hp' : casperPath path')
    (x : DeploySpec) (pcode : Bytes) (k fee : Nat) (hx : x.Usual pcode k fee) (code : Bytes) (as : List Arg)
    (hses : x.session = .moduleBytes code as) (ap : List Bytes) (hlong : (x.tx pl.blake ap).length < 2 ^ 32)
    (cs : List Bytes) (last : Bytes) (hcs : cs.flatten ++ last = x.tx pl.blake ap) (hch : ∀ c ∈ cs, c.length ≤ 255)
    (hover : pl.cap < cs.flatten.length)
    (h1 : x.sessionPos pl.blake + 255 ≤ pl.cap) (h2 : pl.cap < x.sessionPos pl.blake + 5 + code.length)
    (any : Bytes) (hany : any.length = (x.header pl.blake).encode.length) :
    ∃ d', run pl d (.apdu (apdu 4 0 path) true :: ((cs.map fun c => .apdu (apdu 4 1 c) true) ++
          [.apdu (apdu 2 0 path') true, .apdu (apdu 2 1 (any ++ pl.blake any)) true, .apdu (apdu 4 2 []) true])) =
        (d', .reply [] 0x9000 :: (List.replicate cs.length (.reply [] 0x9000) ++ [.reply [] 0x9000, .reply [] 0x9000, .pending])) ∧
      (∃ body, Shows pl d' .wasm [(b!"DeployHash", lowerHex (pl.blake any)), (b!"BodyHash", body)]) ∧
      (step pl d' .approve).2 = signatureReply pl path' (pl.sha256 (pl.blake any)) := by
  obtain ⟨d1, a1, a2, a3⟩ := wasm_init hd hl hp
  obtain ⟨-, b2⟩ := a2.adds (by omega) cs a3
  have hk2 : (kept pl.cap [] cs).2 = true := by
    by_contra hn
    have : ∀ (acc : Bytes) (cs : List Bytes), (kept pl.cap acc cs).2 = false → (kept pl.cap acc cs).1 = acc ++ cs.flatten := by
      intro acc cs
      induction cs generalizing acc with
      | nil => intro _; simp [kept]
      | cons c cs ih =>
        rw [kept]
        split
        · intro h; rw [ih _ h]; simp
        · intro h; cases h
    have h3 := this [] cs (by simpa using hn)
    have h4 : (kept pl.cap [] cs).1.length ≤ pl.cap := kept_le (Nat.zero_le _)
    rw [h3, List.nil_append] at h4
    omega
  have hle : (kept pl.cap [] cs).1.length ≤ pl.cap := kept_le (Nat.zero_le _)
  have hpre : (kept pl.cap [] cs).1 <+: x.tx pl.blake ap := by
    have := kept_prefix pl.cap [] cs
    rw [← hcs]
    exact List.IsPrefix.trans this (by simp)
  have hlo := kept_full (cap := pl.cap) (m := 255) (acc := []) hch (by simpa using hover)
  obtain ⟨⟨s, hs⟩, rest, hr⟩ := wasm_accepted (expert := d.expert) (content := d.ctx.content) hcap hx hses hlong hle (.cut hpre (by omega) (by omega))
  obtain ⟨e1, e2, e3⟩ := hs.header hcap hle (hx.ok.header pl.blake) (pl.blake.len _) hr
  have hbh := hs.bodyHash
  obtain ⟨d2, f1, f2, f3, f4⟩ := (b2 hk2).1 s hs.1
  generalize (kept pl.cap [] cs).1 = seen at *
  have hkind := hs.1.kind
  have h32 := pl.blake.len any
  have hsl : (x.header pl.blake).encode.length + 32 ≤ seen.length := by
    rw [hr]; simp only [List.length_append, pl.blake.len]; omega
  -- the transaction upload
  have g1 := step_init (pl := pl) (ins := 2) (.inl rfl) f1.ok hl' hp'
  generalize hs0 : ({ d2.recv (apdu 2 0 path') with pos := 0, hdPath := path', txInit := true } : Dev) = s0 at g1
  have hok0 : s0.Ok pl := by subst hs0; exact ⟨f1.ok.1, Nat.zero_le _⟩
  have hpos0 : s0.pos = 0 := by subst hs0; rfl
  obtain ⟨i, g2⟩ := run_adds (pl := pl) (ins := 2) (.inl rfl) [any ++ pl.blake any] s0 hok0 (by subst hs0; rfl) (by subst hs0; rfl)
    (by rw [hpos0]; simp; omega)
  rw [List.flatten_singleton] at g2
  generalize hs1 : ({ s0.store (any ++ pl.blake any) with io := i } : Dev) = s1 at g2
  have hok1 : s1.Ok pl := by
    subst hs1
    exact hok0.store (by rw [hpos0]; simp; omega)
  have hmem1 : s1.mem = any ++ pl.blake any ++ d2.mem.drop (any ++ pl.blake any).length := by
    subst hs1; subst hs0; simp [Dev.store, Dev.recv]
  have hpos1 : s1.pos = (any ++ pl.blake any).length := by subst hs1; subst hs0; simp [Dev.store]
  have hctx1 : s1.ctx = ⟨0, seen.length, d.ctx.content, .deploy⟩ := by rw [← f1.ctx]; subst hs1; subst hs0; rfl
  have hdep1 : s1.dep = s.dep := by rw [← f1.dep]; subst hs1; subst hs0; rfl
  have hpath1 : s1.hdPath = path' := by subst hs1; subst hs0; rfl
  have hexp1 : s1.expert = d.expert := by rw [← f1.expert]; subst hs1; subst hs0; rfl
  -- the last chunk
  obtain ⟨w, g3⟩ := step_chunk (pl := pl) (d := s1) (p1 := 2) (.inr rfl) (xs := []) (by subst hs1; subst hs0; rfl) hok1
  rw [if_pos (by simpa using hok1.2)] at g3
  generalize hq : (({ s1.recv (apdu 4 2 []) with wasmCounter := w } : Dev).store []) = q at g3
  have hmemq : q.mem = s1.mem := by
    subst hq; simp [Dev.store, Dev.recv]
  have hz : q.mem.take seen.length = any ++ pl.blake any ++ seen.drop (any ++ pl.blake any).length := by
    rw [hmemq, hmem1, List.take_append, List.take_of_length_le (by simp only [List.length_append]; omega)]
    congr 1
    conv_rhs => rw [← f1.mem]
    rw [List.drop_take]
  generalize hzz : any ++ pl.blake any ++ seen.drop (any ++ pl.blake any).length = z at hz
  have hzl : z.length = seen.length := by
    rw [← hzz]; simp only [List.length_append, List.length_drop]; omega
  have hctxq : q.ctx = ⟨0, seen.length, d.ctx.content, .deploy⟩ := by rw [← hctx1]; subst hq; rfl
  have hdepq : q.dep = s.dep := by rw [← hdep1]; subst hq; rfl
  have hexpq : q.expert = d.expert := by rw [← hexp1]; subst hq; rfl
  have ha0 : At z 0 any := ⟨[], pl.blake any ++ seen.drop (any ++ pl.blake any).length, by rw [← hzz]; simp, rfl⟩
  have ha1 : At z any.length (pl.blake any) := ⟨any, seen.drop (any ++ pl.blake any).length, hzz.symm, rfl⟩
  obtain ⟨t, hv⟩ : ∃ t, validateWasm (wasmEnv pl q.expert d.ctx.content z) q.dep 0 = .ok () t := by
    rw [hdepq]
    unfold validateWasm
    rw [← e2, ← hany]
    refine exThen (slice_at (e := wasmEnv pl q.expert d.ctx.content z) ha0 rfl)
      (exThen (slice_at (e := wasmEnv pl q.expert d.ctx.content z) ha1 h32.symm) ?_)
    rw [require_run, if_pos (show (wasmEnv pl q.expert d.ctx.content z).blake any = pl.blake any from rfl)]
    exact ⟨_, rfl⟩
  rw [stale_finish hctxq (by rw [hdepq]; exact hkind) hz (by subst hq; subst hs1; subst hs0; exact f2) hv] at g3
  refine ⟨{ q with txInit := false, review := some .wasm }, ?_, ⟨lowerHex ((z.drop (keyLen seen + 24)).take 32), rfl, fun u => ⟨rfl, fun j kv hj => ?_⟩⟩, ?_⟩
  · have g2' : step pl s0 (.apdu (apdu 2 1 (any ++ pl.blake any)) true) = (s1, .reply [] 0x9000) := by
      simp only [List.map_cons, List.map_nil, run, List.length_singleton, List.replicate_one] at g2
      obtain ⟨p1, p2⟩ := Prod.mk.inj g2
      exact Prod.ext p1 (List.cons.inj p2).1
    rw [run, a1, run_append, f4]
    simp only [run, g1, g2', g3, outOf]
  · have hitem : reviewItem pl { q with txInit := false, review := some .wasm } .wasm j u =
        wasmItem (wasmEnv pl d.expert d.ctx.content z) s.dep (u8 j) u := by
      unfold reviewItem
      dsimp only
      rw [if_pos (by rw [hctxq])]
      have he : Dev.env pl { q with txInit := false, review := some .wasm } = wasmEnv pl d.expert d.ctx.content z := by
        unfold Dev.env wasmEnv mkEnv
        simp only [hctxq, hdepq, hkind, hexpq, List.drop_zero, hz]
        simp
      rw [he, hdepq]
    rw [hitem]
    have hi2 : j = 0 ∨ j = 1 := by have := (List.getElem?_eq_some_iff.1 hj).1; simp at this; omega
    rcases hi2 with rfl | rfl
    · cases hj
      refine ⟨u, ?_⟩
      unfold wasmItem
      rw [if_pos (by decide), bind_run, ← e2, ← hany, slice_at (e := wasmEnv pl d.expert d.ctx.content z) ha1 h32.symm]
      rfl
    · cases hj
      refine ⟨keyLen seen + 24, ?_⟩
      obtain ⟨c1, c2⟩ := hbh
      unfold wasmItem
      rw [if_neg (by decide), if_pos (by decide), bind_run]
      have : indexPart (wasmEnv pl d.expert d.ctx.content z) s.dep.header .bodyhash u = .ok () (keyLen seen + 24) := by
        unfold indexPart
        rw [c1, bind_run, set_run, Res.bind_ok, if_neg (show ¬ keyLen seen + 24 > (wasmEnv pl d.expert d.ctx.content z).buf.length from Nat.not_lt.2 (show _ ≤ z.length by omega))]
        rfl
      have hat : At z (keyLen seen + 24) ((z.drop (keyLen seen + 24)).take 32) :=
        ⟨z.take (keyLen seen + 24), z.drop (keyLen seen + 24 + 32), by
          rw [List.append_assoc, ← List.drop_drop (i := 32), List.take_append_drop, List.take_append_drop], by simp; omega⟩
      rw [this, Res.bind_ok, bind_run, get_run, Res.bind_ok, bind_run,
        slice_at (e := wasmEnv pl d.expert d.ctx.content z) hat (by simp; omega)]
      rfl
  · have hq2 : q.hdPath = path' := by rw [← hpath1]; subst hq; rfl
    rw [← hq2]
    refine approve_signs (d := { q with txInit := false, review := some .wasm }) rfl (by decide) ?_
    unfold signedBytes
    dsimp only
    rw [hctxq, hdepq, hkind, hc]
    simp only [Nat.reduceEqDiff, and_false, or_self, or_true, false_or, if_false, if_true, Nat.zero_add, zero_ne_one]
    rw [if_pos (by omega), ← e2, ← hany, hmemq, hmem1, List.append_assoc, List.drop_left, List.take_left' h32]

/-! ### Examples -/

/-- The first `n` chunks of `k` bytes. -/
def chunksOf (k n : Nat) (xs : Bytes) : List Bytes := (List.range n).map fun i => (xs.drop (i * k)).take k

theorem chunksOf_flatten (k n : Nat) (xs : Bytes) : (chunksOf k n xs).flatten = xs.take (n * k) := by
  unfold chunksOf
  induction n with
  | zero => simp
  | succ n ih => rw [List.range_succ, List.map_append, List.flatten_append, ih, Nat.succ_mul, List.take_add]; simp

theorem chunksOf_le {k n : Nat} {xs c : Bytes} (h : c ∈ chunksOf k n xs) : c.length ≤ k := by
  unfold chunksOf at h
  obtain ⟨i, -, rfl⟩ := List.mem_map.1 h
  simp

/-- A raw WASM deploy larger than the buffer. -/
def sampleWasm : DeploySpec := { sampleDeploy with session := .moduleBytes (List.replicate 9000 0x61) [⟨b!"id", [7], .u8⟩] }

theorem sampleWasm_usual : sampleWasm.Usual [] 4 100000000 :=
  ⟨⟨rfl, by decide, by decide, by decide, sampleDeploy_ok.deps⟩, by decide, by decide, rfl, by decide, by decide⟩

theorem sampleWasm_pos (H : Hash) : sampleWasm.sessionPos H = 202 ∧ (sampleWasm.header H).encode.length = 141 := by
  have h : (sampleWasm.header H).encode.length = 141 := by
    have hb := H.len sampleWasm.body
    unfold DeployHeader.encode
    have h1 : (sampleWasm.header H).bodyHash.length = 32 := hb
    simp only [List.length_append, le_length, h1, pfx_length]
    rfl
  refine ⟨?_, h⟩
  unfold DeploySpec.sessionPos
  rw [h]
  rfl

theorem sampleWasm_length (H : Hash) : (sampleWasm.tx H []).length = 9227 := by
  rw [sampleWasm.tx_eq H [] (code := List.replicate 9000 0x61) (as := [⟨b!"id", [7], .u8⟩]) rfl]
  simp only [List.length_append, List.length_cons, (sampleWasm_pos H).2, H.len, le_length, List.length_replicate]
  rfl

theorem sampleWasm_chunks (H : Hash) : (chunksOf 250 36 (sampleWasm.tx H [])).flatten ++ (sampleWasm.tx H []).drop 9000 = sampleWasm.tx H [] := by
  rw [chunksOf_flatten, List.take_append_drop]

theorem sampleWasm_small (H : Hash) : ∀ c ∈ chunksOf 250 36 (sampleWasm.tx H []) ++ [(sampleWasm.tx H []).drop 9000], c.length ≤ 255 := by
  intro c hc
  rcases List.mem_append.1 hc with hc | hc
  · have := chunksOf_le hc; omega
  · obtain rfl := List.mem_singleton.1 hc
    rw [List.length_drop, sampleWasm_length]; omega

/-- An instance of `C36_deploy_partial` (and of the hypotheses of `C36_state_partial`, `C36_header_partial`, `C36_history_partial`,
`C26_wasm_partial`): a raw WASM deploy of 9227 bytes, of which the device keeps 8000. -/
example : ∃ d', run samplePl (Dev.init samplePl) (upload 4 (samplePath 0) (chunksOf 250 36 (sampleWasm.tx Blake.H []))
      ((sampleWasm.tx Blake.H []).drop 9000)) = (d', List.replicate 37 (.reply [] 0x9000) ++ [.pending]) ∧
    Shows samplePl d' .wasm [(b!"DeployHash", lowerHex (Blake.H (sampleWasm.header Blake.H).encode)), (b!"BodyHash", lowerHex (Blake.H sampleWasm.body))] ∧
    (step samplePl d' .approve).2 = signatureReply samplePl (samplePath 0) (samplePl.sha256 (Blake.H (sampleWasm.header Blake.H).encode)) :=
  C36_deploy_partial samplePl (by decide) (Dev.init samplePl) (.init _) rfl (samplePath 0) rfl (by decide) sampleWasm [] 4 100000000 sampleWasm_usual
    (List.replicate 9000 0x61) _ rfl [] (by rw [show samplePl.blake = Blake.H from rfl, sampleWasm_length]; decide) _ _ (sampleWasm_chunks _)
    (.inr ⟨sampleWasm_small _, by rw [(sampleWasm_pos samplePl.blake).1]; decide, by
      rw [(sampleWasm_pos samplePl.blake).1, List.length_replicate]; decide⟩)

/-- An instance of `C36_first_bytes_false`. -/
example : ∃ d1 d', run samplePl (Dev.init samplePl) (upload 2 (samplePath 0) [] [7, 0]) = (d1, [.reply [] 0x9000, .reply b!"Unrecognized error code" 0x6984]) ∧
    run samplePl d1 (upload 4 (samplePath 0) (chunksOf 250 36 (sampleWasm.tx Blake.H [])) ((sampleWasm.tx Blake.H []).drop 9000)) =
      (d', List.replicate 37 (.reply [] 0x9000) ++ [.pending]) ∧
    Shows samplePl d' .wasm [(b!"DeployHash", lowerHex (Blake.H (sampleWasm.header Blake.H).encode)), (b!"BodyHash", lowerHex (Blake.H sampleWasm.body))] ∧
    (step samplePl d' .approve).2 = signatureReply samplePl (samplePath 0) (samplePl.sha256 (sampleAccount.encode.take 32)) :=
  C36_first_bytes_false samplePl (by decide) (samplePath 0) (samplePath 0) rfl (by decide) rfl (by decide) 7 0 [] (by decide) (by decide)
    sampleWasm [] 4 100000000 sampleWasm_usual
    (List.replicate 9000 0x61) _ rfl [] (by rw [show samplePl.blake = Blake.H from rfl, sampleWasm_length]; decide) _ _ (sampleWasm_chunks _)
    (sampleWasm_small _) (by rw [(sampleWasm_pos samplePl.blake).1]; decide) (by
      rw [(sampleWasm_pos samplePl.blake).1, List.length_replicate]; decide)

/-- An instance of `C26_wasm_false`: the data under review is 141 zero bytes and their hash, which the parser would refuse. -/
example : (∀ x c rest s, ¬ WasmReads samplePl x c (List.replicate 141 0 ++ rest) s) ∧
    ∃ d', run samplePl (Dev.init samplePl) (.apdu (apdu 4 0 (samplePath 0)) true ::
          (((chunksOf 250 36 (sampleWasm.tx Blake.H [])).map fun c => .apdu (apdu 4 1 c) true) ++
          [.apdu (apdu 2 0 (samplePath 0)) true, .apdu (apdu 2 1 (List.replicate 141 0 ++ Blake.H (List.replicate 141 0))) true, .apdu (apdu 4 2 []) true])) =
        (d', .reply [] 0x9000 :: (List.replicate 36 (.reply [] 0x9000) ++ [.reply [] 0x9000, .reply [] 0x9000, .pending])) ∧
      (∃ body, Shows samplePl d' .wasm [(b!"DeployHash", lowerHex (Blake.H (List.replicate 141 0))), (b!"BodyHash", body)]) ∧
      (step samplePl d' .approve).2 = signatureReply samplePl (samplePath 0) (samplePl.sha256 (Blake.H (List.replicate 141 0))) := by
  refine ⟨fun x c rest s hs => ?_, C26_wasm_false samplePl (by decide) (Dev.init samplePl) (.init _) rfl (samplePath 0) (samplePath 0) rfl
    (by decide) rfl (by decide) sampleWasm [] 4 100000000 sampleWasm_usual
    (List.replicate 9000 0x61) _ rfl [] (by rw [show samplePl.blake = Blake.H from rfl, sampleWasm_length]; decide) _ _ (sampleWasm_chunks _)
    (fun c hc => sampleWasm_small _ c (List.mem_append_left _ hc)) (by
      rw [chunksOf_flatten, List.length_take, sampleWasm_length]; decide) (by rw [(sampleWasm_pos samplePl.blake).1]; decide) (by
      rw [(sampleWasm_pos samplePl.blake).1, List.length_replicate]; decide) (List.replicate 141 0) (by
      rw [(sampleWasm_pos samplePl.blake).2, List.length_replicate])⟩
  obtain ⟨-, h⟩ := hs
  unfold readWasm at h
  have h0 : byteAt (wasmEnv samplePl x c (List.replicate 141 0 ++ rest)) 0 0 = .ok 0 0 := rfl
  rw [bind_run, ld_run (s := ⟨0, 0, { kind := 2 }⟩) h0] at h
  cases h

/-- An instance of `C36_transaction_false`. -/
example : ∃ d1 d', run samplePl (Dev.init samplePl) (upload 2 (samplePath 0)
      [(1 :: sampleTransfer.tx Blake.H [sampleApproval]).take 200] ((1 :: sampleTransfer.tx Blake.H [sampleApproval]).drop 200)) =
      (d1, [.reply [] 0x9000, .reply [] 0x9000, .pending]) ∧
    run samplePl d1 (.reject :: upload 4 (samplePath 0) (chunksOf 250 36 (sampleWasm.tx Blake.H [])) ((sampleWasm.tx Blake.H []).drop 9000)) =
      (d', .reply [] 0x6986 :: (List.replicate 37 (.reply [] 0x9000) ++ [.pending])) ∧
    Shows samplePl d' .wasm [(b!"DeployHash", lowerHex (Blake.H (sampleWasm.header Blake.H).encode)), (b!"BodyHash", lowerHex (Blake.H sampleWasm.body))] ∧
    (step samplePl d' .approve).2 = signatureReply samplePl (samplePath 0) (samplePl.sha256 (((sampleWasm.header Blake.H).encode.drop 27).take 32)) := by
  obtain ⟨d1, ttl, -, h1, -, -⟩ := C45_transfer samplePl (by decide) (Dev.init samplePl) (.init _) (samplePath 0) rfl (by decide)
    sampleTransfer sampleNamed [sampleApproval] sampleTransfer_ok rfl rfl rfl
    ⟨b!"amount", bigNum 4 2500000000, .u512⟩ ⟨b!"target", List.replicate 32 0x11, .byteArray 32⟩
    ⟨b!"id", 1 :: le 8 7, .option .u64⟩ [] (List.Perm.refl _) ⟨rfl, rfl, rfl, .inl rfl⟩ 4 2500000000 (by decide) (by decide)
    ⟨rfl, rfl⟩ _ _ (.byteArray (List.replicate 32 0x11) (by decide) (by decide)) (.someU64 7 (by decide)) [] (by simp)
    (by decide) (by decide) (by decide) sampleApproval_ok [(1 :: sampleTransfer.tx Blake.H [sampleApproval]).take 200]
    ((1 :: sampleTransfer.tx Blake.H [sampleApproval]).drop 200)
    (by rw [List.flatten_cons, List.flatten_nil, List.append_nil, List.take_append_drop]; rfl) (by decide +kernel) [] (by intro h; cases h)
  obtain ⟨d', h2, h3, h4⟩ := C36_transaction_false samplePl (by decide) (Dev.init samplePl) d1 (.init _) (samplePath 0) (samplePath 0) rfl
    (by decide) rfl (by decide) sampleTransfer sampleTransfer_ok [sampleApproval] sampleApproval_ok
    [(1 :: sampleTransfer.tx Blake.H [sampleApproval]).take 200] ((1 :: sampleTransfer.tx Blake.H [sampleApproval]).drop 200)
    (by rw [List.flatten_cons, List.flatten_nil, List.append_nil, List.take_append_drop]; rfl) (by decide +kernel) h1
    sampleWasm [] 4 100000000 sampleWasm_usual
    (List.replicate 9000 0x61) _ rfl [] (by rw [show samplePl.blake = Blake.H from rfl, sampleWasm_length]; decide) _ _ (sampleWasm_chunks _)
    (sampleWasm_small _) (by rw [(sampleWasm_pos samplePl.blake).1]; decide) (by
      rw [(sampleWasm_pos samplePl.blake).1, List.length_replicate]; decide)
  exact ⟨d1, d', h1, h2, h3, h4⟩

end Casper
