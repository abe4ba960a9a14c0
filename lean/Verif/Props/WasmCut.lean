import Verif.Props.Wasm
import Verif.Props.CodeDelegation
/-
C81: which raw WASM deploys can be reviewed.
-/
namespace Casper
open M

/-- A raw WASM deploy whose session cannot be parsed for another reason than a lack of data is not accepted. -/
theorem wasm_refused {pl : Platform} (hcap : pl.cap ≤ 16384) {expert : Bool} {content : Nat} {x : DeploySpec} {k fee : Nat} {pcode code : Bytes}
    {as : List Arg} {ap : List Bytes} (hx : x.Usual pcode k fee) (hses : x.session = .moduleBytes code as) {seen : Bytes} (hlen : seen.length ≤ pl.cap)
    (hp : seen <+: x.tx pl.blake ap) (h1 : x.sessionPos pl.blake < seen.length) {y : Nat} {u : IS} (hy : y ≠ eNoData ∧ y ≠ eBufferEnd)
    (hsp : parseDeployItem (wasmEnv pl expert content seen) false ⟨x.sessionPos pl.blake + 1, 0, {}⟩ = .err y u) (s : DS) :
    ¬ WasmAccepts pl expert content seen s := by
  have hf : Fits (wasmEnv pl expert content seen) := by unfold Fits; show seen.length ≤ 65535; omega
  obtain ⟨⟨rest, hrest⟩, -⟩ := DeploySpec.beginning pl.blake.len hses hp h1
  have hs2 := readWasm_session hf hx.ok hx.pays hrest hsp
  rw [if_neg (by rintro (h | h); exacts [hy.1 h, hy.2 h])] at hs2
  intro h
  rw [h.1.2] at hs2
  cases hs2

/-- The arguments look like an empty name, an empty value and an unknown type. -/
theorem getData_strange {e : Env} {name : Bytes} (hname : name ≠ []) {k off : Nat} (hf : Fits e) {b : UInt8} (hb : 22 < b.toNat) {ys : Bytes}
    (h : At e.buf off (pfx [] ++ (pfx [] ++ b :: ys))) : ∃ c, getData e name (k + 1) off = .err eUnknownPrefix c := by
  have h2 := h.pfx.2
  have h3 := h2.pfx.2
  rw [getData, bind_run, copyItem_at hf h (by decide), Res.bind_ok, if_neg (show ¬ cstr [] = name from fun h => hname h.symm), bind_run,
    parseItem_at hf h2, Res.bind_ok, bind_run]
  unfold getType
  rw [bind_run, readU8_at h3, Res.bind_ok, bind_run, require_run, if_neg (by omega)]
  exact ⟨_, rfl⟩

/-- An argument called "auction" that is not a text. -/
theorem module_auction {e : Env} (hf : Fits e) {off n c c' l t : Nat} {code : Bytes} (h : At e.buf off (0 :: pfx code ++ le 4 n)) (hn : n < 4294967296)
    (hs : (∃ r, searchArgs e b!"new_validator" n (off + 1 + 4 + code.length + 4) = .ok r c) ∨
      ∃ x, searchArgs e b!"new_validator" n (off + 1 + 4 + code.length + 4) = .err x c)
    (hg : getData e b!"auction" n c = .ok (l, t) c') (ht : t ≠ 10) :
    ∃ u, parseDeployItem e false ⟨off + 1, 0, {}⟩ = .err eUnexpectedType u := by
  have h1 := (At.cons.1 h).2
  have h3 := h1.pfx.2
  refine ⟨⟨c', 0, { total := 0, fixed := 0, runtime := 0, generic := 0, special := 255, itemOffset := off + 1 + 4 + code.length + 4 }⟩, ?_⟩
  unfold parseDeployItem
  refine modThen (getThen ?_)
  dsimp only
  rw [if_pos rfl]
  unfold parseModuleBytes
  refine getThen (lpThen (parseItem_at hf h1) (lpThen (readLE_at h3 (show n < 256 ^ 4 by omega)) ?_))
  dsimp only
  rw [if_neg (by decide), bind_run]
  have : parseDelegation e n false ⟨off + 1 + 4 + code.length + 4, 0, { total := 0, fixed := 0, runtime := 0, generic := 0, special := 255 }⟩
      = .err eUnexpectedType ⟨c', 0, { total := 0, fixed := 0, runtime := 0, generic := 0, special := 255, itemOffset := off + 1 + 4 + code.length + 4 }⟩ := by
    unfold parseDelegation
    refine getThen ?_
    rw [if_pos (by rfl), bind_run]
    have : parseAuction e n ⟨off + 1 + 4 + code.length + 4, 0, { total := 0, fixed := 0, runtime := 0, generic := 0, special := 255 }⟩
        = .err eUnexpectedType ⟨c', 0, { total := 0, fixed := 0, runtime := 0, generic := 0, special := 255, itemOffset := off + 1 + 4 + code.length + 4 }⟩ := by
      unfold parseAuction
      refine getThen (modThen ?_)
      dsimp only
      obtain ⟨r, hr⟩ : ∃ r, attempt (lp (searchArgs e b!"new_validator" n)) ⟨off + 1 + 4 + code.length + 4, 0,
          { total := 0, fixed := 0, runtime := 0, generic := 0, special := 255, itemOffset := off + 1 + 4 + code.length + 4 }⟩ =
          .ok r ⟨c, 0, { total := 0, fixed := 0, runtime := 0, generic := 0, special := 255, itemOffset := off + 1 + 4 + code.length + 4 }⟩ := by
        rw [attempt_run]
        unfold lp
        dsimp only
        rcases hs with ⟨r, hs⟩ | ⟨x, hs⟩ <;> rw [hs] <;> exact ⟨_, rfl⟩
      refine seqThen hr ?_
      rw [bind_run, bind_run, attempt_run]
      unfold lp
      dsimp only
      rw [hg]
      dsimp only
      rw [Res.bind_ok]
      dsimp only
      rw [bind_run, require_run, if_neg ht]
      rfl
    rw [this]
    rfl
  rw [this]
  rfl

/-- How much of a raw WASM deploy with code is there. -/
theorem DeploySpec.tx_length {pl : Platform} {x : DeploySpec} {code : Bytes} {as : List Arg} (hses : x.session = .moduleBytes code as) (ap : List Bytes) :
    (x.tx pl.blake ap).length = x.sessionPos pl.blake + 9 + code.length + (encodeArgs as).length + (4 + ap.flatten.length) := by
  rw [x.tx_eq pl.blake ap hses]
  unfold DeploySpec.sessionPos encodeRuntimeArgs
  simp only [List.length_append, List.length_cons, pl.blake.len, le_length]; omega

/-- **C81, what is true of it.** A raw WASM deploy whose arguments have supported types and of which none is called "auction" can be of any size: the
review opens with the deploy hash and the body hash, and approving it signs SHA-256 of the deploy hash.  Conditions: the device has room for the header,
the payment and one chunk; the last transaction data completed was a Deploy, if any; and if the data kept end within the arguments, then (a) an argument
called "new_validator" is kept completely, or (b) what is kept of the name or value they end in cannot be taken for arguments: there are less than four bytes
of it, or it begins with a number larger than 300 or than the number of bytes that follow.  The full statement has no such conditions; see
`C81_value_false` and `C81_auction_false`. -/
theorem C81_reviewed_partial (pl : Platform) (hcap : pl.cap ≤ 16384) (d : Dev) (hd : d.Ok pl) (hc : d.ctx.content = 0) (path : Bytes)
    (hl : path.length = 20) (hp : casperPath path) (x : DeploySpec) (pcode : Bytes) (k fee : Nat) (hx : x.Usual pcode k fee) (code : Bytes)
    (as : List Arg) (hses : x.session = .moduleBytes code as) (hok : ∀ a ∈ as, a.Ok) (hau : ∀ a ∈ as, cstr a.name ≠ b!"auction")
    (ap : List Bytes) (hlong : (x.tx pl.blake ap).length < 2 ^ 32)
    (cs : List Bytes) (last : Bytes) (hcs : cs.flatten ++ last = x.tx pl.blake ap) (hch : ∀ c ∈ cs ++ [last], c.length ≤ 255)
    (hroom : x.sessionPos pl.blake + 255 ≤ pl.cap)
    (hend : ∀ m, (kept pl.cap [] (cs ++ [last])).1.length = x.sessionPos pl.blake + 9 + code.length + m → m < (encodeArgs as).length → EndsWell as m) :
    ∃ d', run pl d (upload 4 path cs last) = (d', List.replicate (cs.length + 1) (.reply [] 0x9000) ++ [.pending]) ∧
      Shows pl d' .wasm [(b!"DeployHash", lowerHex (pl.blake (x.header pl.blake).encode)), (b!"BodyHash", lowerHex (pl.blake x.body))] ∧
      (step pl d' .approve).2 = signatureReply pl path (pl.sha256 (pl.blake (x.header pl.blake).encode)) := by
  have hfl : (cs ++ [last]).flatten = x.tx pl.blake ap := by rw [← hcs]; simp
  have hpre := kept_prefix pl.cap [] (cs ++ [last])
  rw [List.nil_append, hfl] at hpre
  have htl := DeploySpec.tx_length (pl := pl) hses ap
  have hel : (encodeRuntimeArgs as).length = 4 + (encodeArgs as).length := by unfold encodeRuntimeArgs; simp
  have h1 : x.sessionPos pl.blake < (kept pl.cap [] (cs ++ [last])).1.length := by
    by_cases hfit : (x.tx pl.blake ap).length ≤ pl.cap
    · rw [kept_fits (by simpa [hfl] using hfit), List.nil_append, hfl]; show _ < (x.tx pl.blake ap).length; omega
    · have := kept_full (cap := pl.cap) (m := 255) (acc := []) hch (by rw [List.nil_append, hfl]; omega)
      omega
  have hseen : WasmSeen pl.blake x ap code as d.ctx.content (kept pl.cap [] (cs ++ [last])).1 := by
    by_cases h2 : (kept pl.cap [] (cs ++ [last])).1.length < x.sessionPos pl.blake + 5 + code.length
    · exact .cut hpre h1 h2
    · by_cases h3 : (kept pl.cap [] (cs ++ [last])).1.length < x.sessionPos pl.blake + 5 + code.length + (encodeRuntimeArgs as).length
      · exact .args hpre hok hau (by omega) h3 fun h9 => hend _ (by omega) (by omega)
      · exact .after hpre hc hok hau (by omega)
  obtain ⟨d', s, rest, k1, k2, k3, k4, k5, k6⟩ := wasm_reviewed pl hcap d hd path hl hp x pcode k fee hx code as hses ap hlong cs last hseen
  exact ⟨d', k1, k6, k5.signs k2 hc k3 k4⟩

/-- **C81 fails** where the data kept end within a value that looks like an argument of an unknown type: eight zero bytes, followed by a byte larger
than 22.  No review opens, although the deploy is well formed.  (Searching for "new_validator", the app stops at the incomplete value; it does not go back
to the beginning of the arguments before it searches for "auction", but takes the value for arguments.) -/
theorem C81_value_false (pl : Platform) (hcap : pl.cap ≤ 16384) (d : Dev) (hd : d.Ok pl) (path : Bytes)
    (hl : path.length = 20) (hp : casperPath path) (x : DeploySpec) (pcode : Bytes) (k fee : Nat) (hx : x.Usual pcode k fee) (code : Bytes)
    (as : List Arg) (hses : x.session = .moduleBytes code as) (hok : ∀ a ∈ as, a.Ok) (ap : List Bytes) (hlong : (x.tx pl.blake ap).length < 2 ^ 32)
    (cs : List Bytes) (last : Bytes) (hcs : cs.flatten ++ last = x.tx pl.blake ap) (m : Nat)
    (hm : (kept pl.cap [] (cs ++ [last])).1.length = x.sessionPos pl.blake + 9 + code.length + m) (hma : m < (encodeArgs as).length)
    (hnv : ∀ a ∈ wholeArgs as m, cstr a.name ≠ b!"new_validator") (b : UInt8) (hb : 22 < b.toNat) (ys : Bytes)
    (hbr : brokenPart as m = [0, 0, 0, 0, 0, 0, 0, 0] ++ b :: ys) :
    (run pl d (upload 4 path cs last)).2 ≠ List.replicate (cs.length + 1) (.reply [] 0x9000) ++ [.pending] := by
  have hfl : (cs ++ [last]).flatten = x.tx pl.blake ap := by rw [← hcs]; simp
  have hpre := kept_prefix pl.cap [] (cs ++ [last])
  rw [List.nil_append, hfl] at hpre
  have htl := DeploySpec.tx_length (pl := pl) hses ap
  have hel : (encodeRuntimeArgs as).length = 4 + (encodeArgs as).length := by unfold encodeRuntimeArgs; simp
  have hle := seen_le (pl := pl) (cs := cs) (last := last)
  refine (wasm_upload (pl := pl) (by omega) hd hl hp cs last).2 ?_
  generalize (kept pl.cap [] (cs ++ [last])).1 = seen at *
  have h1 : x.sessionPos pl.blake < seen.length := by omega
  obtain ⟨-, hbeg⟩ := DeploySpec.beginning pl.blake.len hses hpre h1
  have hf : Fits (wasmEnv pl d.expert d.ctx.content seen) := by unfold Fits; show seen.length ≤ 65535; omega
  have hb2 := hbeg.front (xs := 0 :: pfx code ++ encodeRuntimeArgs as) (by simp only [List.length_append, List.length_cons, pfx_length]; omega)
  have hmm : seen.length - (x.sessionPos pl.blake + 9 + code.length) = m := by omega
  rcases module_args_cut (e := wasmEnv pl d.expert d.ctx.content seen) hf hok hb2 (by show _ ≤ seen.length; omega) (by show seen.length < _; omega)
    (by omega) with ⟨h9, -⟩ | ⟨h9, k1, k2⟩
  · exact absurd h9 (by show ¬ seen.length < _; omega)
  have hdrop : seen.drop (seen.length - (brokenPart as m).length) = brokenPart as m := by
    have := DeploySpec.broken_drop hb2 (by omega) (by omega)
    rwa [hmm] at this
  have hbl := brokenPart_length as m
  have hn := encodeArgs_count as
  obtain ⟨n, hn2⟩ : ∃ n, as.length = n + 1 := by
    cases as with
    | nil => simp [encodeArgs] at hma
    | cons a as => exact ⟨_, rfl⟩
  rcases k2 with ⟨⟨a, ha, hna⟩, -⟩ | ⟨-, hsr⟩
  · rw [show (wasmEnv pl d.expert d.ctx.content seen).buf.length - (x.sessionPos pl.blake + 9 + code.length) = m from hmm] at ha
    exact absurd hna (hnv a ha)
  · rw [show (wasmEnv pl d.expert d.ctx.content seen).buf.length - (x.sessionPos pl.blake + 9 + code.length) = m from hmm] at hsr
    have hat : At (wasmEnv pl d.expert d.ctx.content seen).buf (seen.length - (brokenPart as m).length) (pfx [] ++ (pfx [] ++ b :: ys)) := by
      refine ⟨seen.take (seen.length - (brokenPart as m).length), [], ?_, by simp⟩
      rw [List.append_nil, show pfx [] ++ (pfx [] ++ b :: ys) = brokenPart as m from hbr.symm]
      show seen = _
      conv_rhs => rw [← hdrop]
      rw [hdrop]
      exact (by conv_lhs => rw [← List.take_append_drop (seen.length - (brokenPart as m).length) seen, hdrop])
    obtain ⟨c, hg⟩ := getData_strange (name := b!"auction") (by decide) (k := n) hf hb hat
    rw [← hn2] at hg
    obtain ⟨u, hu⟩ := module_search hf k1 (by omega) (.inr ⟨_, hsr⟩) hg (by intro h; cases h)
    exact wasm_refused hcap hx hses hle hpre h1 (by decide) hu

/-- **C81 fails** for arguments called "auction" that are not texts.  If the data kept contain all arguments, no review opens. -/
theorem C81_auction_false (pl : Platform) (hcap : pl.cap ≤ 16384) (d : Dev) (hd : d.Ok pl) (path : Bytes)
    (hl : path.length = 20) (hp : casperPath path) (x : DeploySpec) (pcode : Bytes) (k fee : Nat) (hx : x.Usual pcode k fee) (code : Bytes)
    (pre : List Arg) (a : Arg) (post : List Arg) (hses : x.session = .moduleBytes code (pre ++ a :: post)) (hok : ∀ b ∈ pre ++ a :: post, b.Ok)
    (hpre : ∀ b ∈ pre, cstr b.name ≠ b!"auction") (ha : cstr a.name = b!"auction") (hty : a.ty ≠ .string) (ap : List Bytes)
    (cs : List Bytes) (last : Bytes) (hcs : cs.flatten ++ last = x.tx pl.blake ap)
    (hm : x.sessionPos pl.blake + 9 + code.length + (encodeArgs (pre ++ a :: post)).length ≤ (kept pl.cap [] (cs ++ [last])).1.length) :
    (run pl d (upload 4 path cs last)).2 ≠ List.replicate (cs.length + 1) (.reply [] 0x9000) ++ [.pending] := by
  have hfl : (cs ++ [last]).flatten = x.tx pl.blake ap := by rw [← hcs]; simp
  have hpr := kept_prefix pl.cap [] (cs ++ [last])
  rw [List.nil_append, hfl] at hpr
  have hle := seen_le (pl := pl) (cs := cs) (last := last)
  refine (wasm_upload (pl := pl) (by omega) hd hl hp cs last).2 ?_
  generalize (kept pl.cap [] (cs ++ [last])).1 = seen at *
  have h1 : x.sessionPos pl.blake < seen.length := by omega
  obtain ⟨-, hbeg⟩ := DeploySpec.beginning pl.blake.len hses hpr h1
  have hf : Fits (wasmEnv pl d.expert d.ctx.content seen) := by unfold Fits; show seen.length ≤ 65535; omega
  have hl2 : (0 :: pfx code ++ encodeRuntimeArgs (pre ++ a :: post)).length = 9 + code.length + (encodeArgs (pre ++ a :: post)).length := by
    unfold encodeRuntimeArgs; simp only [List.length_append, List.length_cons, pfx_length, le_length]; omega
  have h0 := (hbeg.past (xs := 0 :: pfx code ++ encodeRuntimeArgs (pre ++ a :: post)) (by rw [hl2]; omega)).1
  unfold encodeRuntimeArgs at h0
  rw [← List.append_assoc] at h0
  obtain ⟨k1, k2⟩ := At.append.1 h0
  simp only [List.length_append, List.length_cons, pfx_length, le_length] at k2
  rw [show x.sessionPos pl.blake + (4 + code.length + 1 + 4) = x.sessionPos pl.blake + 1 + 4 + code.length + 4 by omega] at k2
  have hc := encodeArgs_count (pre ++ a :: post)
  have hs := searchArgs_at (e := wasmEnv pl d.expert d.ctx.content seen) (name := b!"new_validator") hf hok k2
  have hg := (getData_at (e := wasmEnv pl d.expert d.ctx.content seen) (k := (pre ++ a :: post).length) hf (fun b hb => hok b (by simp [hb]))
    (hok a (by simp)) hpre ha (by simp) k2).1
  obtain ⟨u, hu⟩ := module_auction (e := wasmEnv pl d.expert d.ctx.content seen) hf k1 (by omega) (by
    cases hx : (pre ++ a :: post).find? (fun a => cstr a.name == b!"new_validator") with
    | none => rw [hx] at hs; exact .inr ⟨_, hs⟩
    | some a => rw [hx] at hs; exact .inl ⟨_, hs⟩) hg (by
      intro h
      cases hq : a.ty <;> rw [hq] at h <;> first | exact hty hq | (simp only [CLType.tag] at h; omega))
  exact wasm_refused hcap hx hses hle hpr h1 (by decide) hu

/-! ### Samples -/

/-- Code of 7700 bytes with one argument of 300 bytes. -/
def sampleLong (v : Bytes) : DeploySpec := { sampleDeploy with session := .moduleBytes (List.replicate 7700 0x61) [⟨b!"data", v, .byteArray 300⟩] }

theorem sampleLong_usual (v : Bytes) : (sampleLong v).Usual [] 4 100000000 :=
  ⟨⟨rfl, sampleDeploy_usual.ok.timestamp, sampleDeploy_usual.ok.ttl, sampleDeploy_usual.ok.gasPrice, sampleDeploy_ok.deps⟩, sampleDeploy_usual.chain, sampleDeploy_usual.chain0, rfl, by decide, by decide⟩

theorem sampleLong_ok (v : Bytes) : ∀ a ∈ [(⟨b!"data", v, .byteArray 300⟩ : Arg)], a.Ok := by
  intro a ha
  obtain rfl := List.mem_singleton.1 ha
  exact ⟨show List.length b!"data" ≤ 300 by decide, show (CLType.byteArray 300).aligned by decide, show (CLType.byteArray 300).supported by decide⟩

theorem sampleLong_pos (H : Hash) (v : Bytes) : (sampleLong v).sessionPos H = 202 := by
  have h : ((sampleLong v).header H).encode.length = 141 := by
    have hb := H.len (sampleLong v).body
    unfold DeployHeader.encode
    have h1 : ((sampleLong v).header H).bodyHash.length = 32 := hb
    simp only [List.length_append, le_length, h1, pfx_length]
    rfl
  unfold DeploySpec.sessionPos
  rw [h]
  rfl

theorem sampleLong_length (v : Bytes) (hv : v.length = 300) : ((sampleLong v).tx samplePl.blake []).length = 8232 := by
  rw [DeploySpec.tx_length (code := List.replicate 7700 0x61) (as := [⟨b!"data", v, .byteArray 300⟩]) rfl, sampleLong_pos, List.length_replicate]
  simp only [encodeArgs, List.length_append, Arg.encode_length, hv]
  rfl

theorem sampleLong_chunks (v : Bytes) : (chunksOf 250 32 ((sampleLong v).tx samplePl.blake [])).flatten ++ ((sampleLong v).tx samplePl.blake []).drop 8000 =
    (sampleLong v).tx samplePl.blake [] := by
  rw [chunksOf_flatten, List.take_append_drop]

theorem sampleLong_kept (v : Bytes) (hv : v.length = 300) :
    (kept samplePl.cap [] (chunksOf 250 32 ((sampleLong v).tx samplePl.blake []) ++ [((sampleLong v).tx samplePl.blake []).drop 8000])).1.length = 8000 := by
  have hfl : (chunksOf 250 32 ((sampleLong v).tx samplePl.blake [])).flatten = ((sampleLong v).tx samplePl.blake []).take 8000 := chunksOf_flatten _ _ _
  have hl := sampleLong_length v hv
  have h8 : (((sampleLong v).tx samplePl.blake []).take 8000).length = 8000 := by rw [List.length_take, hl]; rfl
  have hcap : samplePl.cap = 8192 := rfl
  rw [kept_snoc, kept_fits (by rw [List.nil_append, hfl, h8, hcap]; decide), if_neg (by simp), List.nil_append, hfl, kept,
    if_neg (by rw [h8, List.length_drop, hl, hcap]; decide), h8]

theorem sampleLong_broken (v : Bytes) (hv : v.length = 300) : brokenPart [⟨b!"data", v, .byteArray 300⟩] 89 = v.take 77 := by
  rw [brokenPart, if_pos (by rw [Arg.encode_length]; simp only [hv]; decide)]
  unfold Arg.broken
  simp only [hv]
  rfl

theorem sampleLong_reviewed (v : Bytes) (hv : v.length = 300) (hu : Unlike (v.take 77)) :
    ∃ d', run samplePl (Dev.init samplePl) (upload 4 (samplePath 0) (chunksOf 250 32 ((sampleLong v).tx samplePl.blake []))
      (((sampleLong v).tx samplePl.blake []).drop 8000)) = (d', List.replicate 33 (.reply [] 0x9000) ++ [.pending]) ∧
    Shows samplePl d' .wasm [(b!"DeployHash", lowerHex (samplePl.blake ((sampleLong v).header samplePl.blake).encode)),
      (b!"BodyHash", lowerHex (samplePl.blake (sampleLong v).body))] ∧
    (step samplePl d' .approve).2 = signatureReply samplePl (samplePath 0)
      (samplePl.sha256 (samplePl.blake ((sampleLong v).header samplePl.blake).encode)) := by
  refine C81_reviewed_partial samplePl (by decide) (Dev.init samplePl) (.init _) rfl (samplePath 0) rfl (by decide) (sampleLong v) [] 4
    100000000 (sampleLong_usual _) (List.replicate 7700 0x61) _ rfl (sampleLong_ok _) (fun a ha => ?_) [] (by
      rw [sampleLong_length _ hv]; decide) _ _ (sampleLong_chunks _) (fun c hc => ?_) (by rw [sampleLong_pos]; decide) fun m hm _ => ?_
  · obtain rfl := List.mem_singleton.1 ha
    show cstr b!"data" ≠ _
    decide
  · rcases List.mem_append.1 hc with hc | hc
    · have := chunksOf_le hc; omega
    · rw [List.mem_singleton.1 hc, List.length_drop, sampleLong_length _ hv]; omega
  · rw [sampleLong_kept _ hv, sampleLong_pos, List.length_replicate] at hm
    obtain rfl : m = 89 := Nat.add_left_cancel (n := 7911) hm.symm
    refine .inr ?_
    rw [sampleLong_broken _ hv]
    exact hu

theorem sampleLong_refused (v : Bytes) (hv : v.length = 300) (b : UInt8) (hb : 22 < b.toNat) (ys : Bytes)
    (hu : v.take 77 = [0, 0, 0, 0, 0, 0, 0, 0] ++ b :: ys) :
    (run samplePl (Dev.init samplePl) (upload 4 (samplePath 0) (chunksOf 250 32 ((sampleLong v).tx samplePl.blake []))
      (((sampleLong v).tx samplePl.blake []).drop 8000))).2 ≠ List.replicate 33 (.reply [] 0x9000) ++ [.pending] :=
  C81_value_false samplePl (by decide) (Dev.init samplePl) (.init _) (samplePath 0) rfl (by decide)
    (sampleLong v) [] 4 100000000 (sampleLong_usual _) (List.replicate 7700 0x61) _ rfl (sampleLong_ok _) [] (by
      rw [sampleLong_length _ hv]; decide) _ _ (sampleLong_chunks _) 89 (by rw [sampleLong_kept _ hv, sampleLong_pos, List.length_replicate]) (by
      simp only [encodeArgs, List.length_append, Arg.encode_length, hv]; decide) (by
      rw [wholeArgs, if_pos (by rw [Arg.encode_length]; simp only [hv]; decide)]; simp) b hb ys (by
      rw [sampleLong_broken _ hv]; exact hu)

theorem unlike_ones : Unlike ((List.replicate 300 (255 : UInt8)).take 77) := by
  intro n ys hn h
  have h4 := congrArg (fun xs => leVal (List.take 4 xs)) h
  rw [List.take_append_of_le_length (by simp), List.take_of_length_le (l := le 4 n) (by simp), leVal_le 4 n (by omega)] at h4
  rw [← h4]
  exact .inl (by decide)

/-- Instances of `C81_reviewed_partial` (the data kept end after 77 bytes 255 of the argument) and of `C81_value_false` (after eight bytes 0 and 69 bytes
255 of it). -/
example := And.intro (sampleLong_reviewed (List.replicate 300 255) List.length_replicate unlike_ones)
  (sampleLong_refused (List.replicate 8 0 ++ List.replicate 292 255) (by rw [List.length_append, List.length_replicate, List.length_replicate])
    255 (by decide) (List.replicate 68 255) (by decide))

/-- A short deploy with an argument "auction" that is the hash of an auction. -/
def sampleAuctionHash : DeploySpec := { sampleDeploy with session := .moduleBytes b!"code" [⟨b!"auction", List.replicate 32 7, .byteArray 32⟩] }

/-- **C81 fails**, and the other command for transactions is no way out: this deploy is refused by both. -/
theorem C81_both_false :
    (run samplePl (Dev.init samplePl) (upload 4 (samplePath 0) [] (sampleAuctionHash.tx Blake.H []))).2 = [.reply [] 0x9000, .reply [] 0x6400] ∧
    (run samplePl (Dev.init samplePl) (sampleUpload (0 :: sampleAuctionHash.tx Blake.H []))).2.getLast? = some (.reply b!"Unexpected data type" 0x6984) := by
  decide +kernel

end Casper
