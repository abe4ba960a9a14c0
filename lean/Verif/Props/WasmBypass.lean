import Verif.Props.Wasm

/-!
# Which Deploys can be signed behind two hashes

The raw WASM command is meant for Deploys whose code does not fit into the buffer: their review is the deploy hash and the body hash, and
nothing else. The session is hashed by nobody: the body hash of the header is displayed, never compared with the data.
-/

namespace Casper

open M

/-- What the raw WASM command needs of a Deploy: its header, its hash, its payment and the beginning of some code that does not end. -/
def unfinished (H : Bytes → Bytes) (x : DeploySpec) (n : Nat) (junk : Bytes) : Bytes :=
  (x.header H).encode ++ H (x.header H).encode ++ x.payment.encode ++ 0 :: (le 4 n ++ junk)

/-- Unfinished code behind the header of any Deploy is accepted as a raw WASM deploy. -/
theorem unfinished_accepted {pl : Platform} (hcap : pl.cap ≤ 16384) {expert : Bool} {content : Nat} {x : DeploySpec} {k fee : Nat} {pcode : Bytes}
    (hx : x.Usual pcode k fee) {n : Nat} {junk : Bytes} (hn : n < 2 ^ 31) (hj : junk.length < n)
    (hlen : (unfinished pl.blake x n junk).length ≤ pl.cap) :
    ∃ s, WasmAccepts pl expert content (unfinished pl.blake x n junk) s := by
  generalize hseen : unfinished pl.blake x n junk = seen at hlen
  have hf : Fits (wasmEnv pl expert content seen) := by unfold Fits; show seen.length ≤ 65535; omega
  have h32 := pl.blake.len (x.header pl.blake).encode
  have hrest : seen = (x.header pl.blake).encode ++ pl.blake (x.header pl.blake).encode ++ x.payment.encode ++ 0 :: (le 4 n ++ junk) := hseen.symm
  have hpos : ((x.header pl.blake).encode ++ pl.blake (x.header pl.blake).encode ++ x.payment.encode).length = x.sessionPos pl.blake := by
    unfold DeploySpec.sessionPos; simp only [List.length_append, h32]
  have htl : seen.length = x.sessionPos pl.blake + (5 + junk.length) := by
    rw [hrest, List.length_append, hpos, List.length_cons, List.length_append, le_length]; omega
  obtain ⟨u, hu⟩ := module_cut (e := wasmEnv pl expert content seen) (off := x.sessionPos pl.blake + 1) (n := n)
    (show _ ≤ seen.length by omega) (by omega)
    (fun _ => ⟨(x.header pl.blake).encode ++ pl.blake (x.header pl.blake).encode ++ x.payment.encode ++ [0], junk,
      by show seen = _; rw [hrest]; simp, by rw [List.length_append, hpos]; rfl⟩)
    (show seen.length < _ by omega)
  have hne : seen ≠ [] := by rw [hrest]; simp
  have hs2 := readWasm_session hf hx.ok hx.pays hrest hu
  rw [if_pos (.inr rfl)] at hs2
  generalize (⟨u.off, u.epo, _⟩ : DS) = s at hs2
  have hrd : WasmReads pl expert content seen s := ⟨hne, hs2⟩
  obtain ⟨p, hp⟩ := readWasm_post _ _ hs2
  have hsplit : seen = (x.header pl.blake).encode ++ pl.blake (x.header pl.blake).encode ++ (x.payment.encode ++ 0 :: (le 4 n ++ junk)) := by
    rw [hrest]; simp
  have a0 : At (wasmEnv pl expert content seen).buf 0 (x.header pl.blake).encode :=
    ⟨[], pl.blake (x.header pl.blake).encode ++ (x.payment.encode ++ 0 :: (le 4 n ++ junk)), by show seen = _; rw [hsplit]; simp, rfl⟩
  have a1 : At (wasmEnv pl expert content seen).buf (x.header pl.blake).encode.length (pl.blake (x.header pl.blake).encode) :=
    ⟨(x.header pl.blake).encode, x.payment.encode ++ 0 :: (le 4 n ++ junk), hsplit, rfl⟩
  have hv := hp.header.view_eq hf (hx.ok.header pl.blake) a0
  obtain ⟨-, -, w3⟩ := header_small (hx.ok.header pl.blake) hf a0
  have hhl : headerLength s.dep.header = (x.header pl.blake).encode.length := by rw [hv, w3]
  refine ⟨s, hrd, ?_⟩
  unfold validateWasm
  rw [hhl]
  refine exThen (slice_at a0 rfl) (exThen (slice_at a1 h32.symm) ?_)
  rw [require_run, if_pos (show (wasmEnv pl expert content seen).blake (x.header pl.blake).encode = pl.blake (x.header pl.blake).encode from rfl)]
  exact ⟨_, rfl⟩

/-- **C87 is false.** Every well-formed Deploy whatever — a transfer of tokens, a delegation, a call of a stored contract — can be signed behind
nothing but its two hashes: sent as raw WASM with its own header, hash and payment and the beginning of some code in the place of what it does,
it opens a review of "DeployHash" and "BodyHash" alone, and approving it gives the signature that makes the Deploy valid. -/
theorem C87_bypass_false (pl : Platform) (hcap : pl.cap ≤ 16384) (d : Dev) (hd : d.Ok pl) (hc : d.ctx.content = 0) (path : Bytes)
    (hl : path.length = 20) (hp : casperPath path) (x : DeploySpec) (pcode : Bytes) (k fee : Nat) (hx : x.Usual pcode k fee)
    (n : Nat) (junk : Bytes) (hn : n < 2 ^ 31) (hj : junk.length < n) (cs : List Bytes) (last : Bytes)
    (hcs : cs.flatten ++ last = unfinished pl.blake x n junk) (hlen : (unfinished pl.blake x n junk).length ≤ pl.cap) :
    ∃ d', run pl d (upload 4 path cs last) = (d', List.replicate (cs.length + 1) (.reply [] 0x9000) ++ [.pending]) ∧
      Shows pl d' .wasm [(b!"DeployHash", lowerHex (pl.blake (x.header pl.blake).encode)), (b!"BodyHash", lowerHex (pl.blake x.body))] ∧
      (step pl d' .approve).2 = signatureReply pl path (pl.sha256 (pl.blake (x.header pl.blake).encode)) := by
  have hfl : (cs ++ [last]).flatten = unfinished pl.blake x n junk := by rw [← hcs]; simp
  have hk : (kept pl.cap [] (cs ++ [last])).1 = unfinished pl.blake x n junk := by
    rw [kept_fits (by simpa [hfl] using hlen), List.nil_append, hfl]
  obtain ⟨s, hs⟩ := unfinished_accepted (expert := d.expert) (content := d.ctx.content) hcap hx hn hj hlen
  have hr : (kept pl.cap [] (cs ++ [last])).1 =
      (x.header pl.blake).encode ++ pl.blake (x.header pl.blake).encode ++ (x.payment.encode ++ 0 :: (le 4 n ++ junk)) := by
    rw [hk]; unfold unfinished; simp
  rw [← hk] at hs
  obtain ⟨h1, -⟩ := wasm_upload (pl := pl) (by omega) hd hl hp cs last
  obtain ⟨d', k1, k2⟩ := h1 s hs
  obtain ⟨-, a2, a3⟩ := hs.header hcap seen_le (hx.ok.header pl.blake) (pl.blake.len _) hr
  have := k2.shows hs hr a2
  rw [a3] at this
  exact ⟨d', k1, this, k2.signs hs hc hr a2⟩

/-- **C87, what is true of it.** The parser looks at the kind of the session: if the data kept hold the header, the hash and the payment of a
well-formed Deploy and then the tag of anything but code, no review is opened. So Deploys that are sent as they are, and are not code, are never
reviewed by their hashes alone. -/
theorem C87_kind_partial (pl : Platform) (hcap : pl.cap ≤ 16384) (d : Dev) (hd : d.Ok pl) (path : Bytes)
    (hl : path.length = 20) (hp : casperPath path) (x : DeploySpec) (pcode : Bytes) (k fee : Nat) (hx : x.Usual pcode k fee)
    (cs : List Bytes) (last : Bytes) (tag : UInt8) (ht : tag ≠ 0)
    (hk : (x.header pl.blake).encode ++ pl.blake (x.header pl.blake).encode ++ x.payment.encode ++ [tag] <+: (kept pl.cap [] (cs ++ [last])).1) :
    (run pl d (upload 4 path cs last)).2 ≠ List.replicate (cs.length + 1) (.reply [] 0x9000) ++ [.pending] := by
  refine (wasm_upload (pl := pl) (by omega) hd hl hp cs last).2 fun s hs => ?_
  have hle := seen_le (pl := pl) (cs := cs) (last := last)
  generalize (kept pl.cap [] (cs ++ [last])).1 = seen at hk hs hle
  obtain ⟨rest, hrest⟩ := hk
  have hf : Fits (wasmEnv pl d.expert d.ctx.content seen) := by unfold Fits; show seen.length ≤ 65535; omega
  have h32 := pl.blake.len (x.header pl.blake).encode
  obtain ⟨⟨-, hs2⟩, -⟩ := hs
  obtain ⟨p, hp⟩ := readWasm_post _ _ hs2
  have a0 : At (wasmEnv pl d.expert d.ctx.content seen).buf 0 (x.header pl.blake).encode :=
    ⟨[], pl.blake (x.header pl.blake).encode ++ x.payment.encode ++ [tag] ++ rest, by show seen = _; rw [← hrest]; simp, rfl⟩
  have a1 : At (wasmEnv pl d.expert d.ctx.content seen).buf ((x.header pl.blake).encode.length + 32) x.payment.encode :=
    ⟨(x.header pl.blake).encode ++ pl.blake (x.header pl.blake).encode, [tag] ++ rest, by show seen = _; rw [← hrest]; simp,
      by rw [List.length_append, h32]⟩
  have a2 : At (wasmEnv pl d.expert d.ctx.content seen).buf ((x.header pl.blake).encode.length + 32 + x.payment.encode.length) [tag] :=
    ⟨(x.header pl.blake).encode ++ pl.blake (x.header pl.blake).encode ++ x.payment.encode, rest, by show seen = _; rw [← hrest],
      by simp only [List.length_append, h32]⟩
  have hv := hp.header.view_eq hf (hx.ok.header pl.blake) a0
  obtain ⟨-, -, w3⟩ := header_small (hx.ok.header pl.blake) hf a0
  have hbs : s.dep.header.bodyStart = (x.header pl.blake).encode.length + 32 := by
    have := a1.le
    rw [hv]; unfold Header.bodyStart; rw [w3]
    exact u16_id (by unfold Fits at hf; omega)
  have hpay := hp.pay
  rw [hx.pays] at a1
  rw [hbs, payment_at hf a1] at hpay
  cases hpay
  have h3 := hp.sessTag
  rw [hx.pays] at a2
  have h4 := h3.unique a2 rfl
  simp at h4
  exact ht h4.symm

/-- **C87, what is true of it (what the two hashes say).** If two raw WASM reviews, of data that begin with the headers of two Deploys, show the
same lines, then the headers have the same hash, and so have what the Deploys do: payment and session, whatever has been sent instead of them. So
headers or bodies that are not the same collide under BLAKE2b. -/
theorem C87_lines_partial (pl : Platform) (hcap : pl.cap ≤ 16384) (d1 d1' d2 d2' : Dev) (hd1 : d1.Ok pl) (hd2 : d2.Ok pl)
    (hc1 : d1.ctx.content = 0) (hc2 : d2.ctx.content = 0) (path1 path2 : Bytes) (hl1 : path1.length = 20) (hl2 : path2.length = 20)
    (hp1 : casperPath path1) (hp2 : casperPath path2) (cs1 cs2 : List Bytes) (last1 last2 : Bytes) (x y : DeploySpec) (hx : x.Ok) (hy : y.Ok)
    (hash1 hash2 rest1 rest2 : Bytes) (hh1 : hash1.length = 32) (hh2 : hash2.length = 32)
    (hs1 : (kept pl.cap [] (cs1 ++ [last1])).1 = (x.header pl.blake).encode ++ hash1 ++ rest1)
    (hs2 : (kept pl.cap [] (cs2 ++ [last2])).1 = (y.header pl.blake).encode ++ hash2 ++ rest2)
    (h1 : run pl d1 (upload 4 path1 cs1 last1) = (d1', List.replicate (cs1.length + 1) (.reply [] 0x9000) ++ [.pending]))
    (h2 : run pl d2 (upload 4 path2 cs2 last2) = (d2', List.replicate (cs2.length + 1) (.reply [] 0x9000) ++ [.pending]))
    (a b : Bytes × Bytes) (sh1 : Shows pl d1' .wasm [a, b]) (sh2 : Shows pl d2' .wasm [a, b]) :
    pl.blake (x.header pl.blake).encode = pl.blake (y.header pl.blake).encode ∧ pl.blake x.body = pl.blake y.body := by
  have one : ∀ {d : Dev} {ls ms : List (Bytes × Bytes)}, Shows pl d .wasm ls → Shows pl d .wasm ms → ls = ms := by
    intro d ls ms u v
    have hlen : ls.length = ms.length := by
      have p := (u.2 0).1; have q := (v.2 0).1
      rw [p] at q; injection q
    refine List.ext_getElem? fun i => ?_
    by_cases hi : i < ls.length
    · have e1 : ls[i]? = some (ls[i]) := List.getElem?_eq_getElem hi
      have e2 : ms[i]? = some (ms[i]'(by omega)) := List.getElem?_eq_getElem (by omega)
      obtain ⟨_, g1⟩ := (u.2 0).2 i _ e1
      obtain ⟨_, g2⟩ := (v.2 0).2 i _ e2
      rw [g1] at g2
      injection g2 with g2
      rw [e1, e2, g2]
    · rw [List.getElem?_eq_none (by omega), List.getElem?_eq_none (by omega)]
  obtain ⟨-, t1, -⟩ := C36_header_partial pl hcap d1 d1' hd1 hc1 path1 hl1 hp1 cs1 last1 _ (hx.header pl.blake) hash1 rest1 hh1 hs1 h1
  obtain ⟨-, t2, -⟩ := C36_header_partial pl hcap d2 d2' hd2 hc2 path2 hl2 hp2 cs2 last2 _ (hy.header pl.blake) hash2 rest2 hh2 hs2 h2
  have k1 := one sh1 t1
  have k2 := one sh2 t2
  rw [k1] at k2
  simp only [List.cons.injEq, Prod.mk.injEq, true_and, and_true, lowerHex_eq] at k2
  exact ⟨hexText_inj k2.1, hexText_inj k2.2⟩

theorem sampleDeploy_front (H : Hash) : (sampleDeploy.header H).encode.length = 141 ∧ (unfinished H sampleDeploy 8 [1, 2, 3]).length = 210 := by
  have h : (sampleDeploy.header H).encode.length = 141 := by
    have hb := H.len sampleDeploy.body
    unfold DeployHeader.encode
    have h1 : (sampleDeploy.header H).bodyHash.length = 32 := hb
    simp only [List.length_append, le_length, h1, pfx_length]
    rfl
  refine ⟨h, ?_⟩
  unfold unfinished
  simp only [List.length_append, h, H.len, le_length, List.length_cons]
  rfl

/-- An instance of `C87_bypass_false`: a transfer of tokens, signed behind two hashes. -/
example : ∃ d', run samplePl (Dev.init samplePl) (upload 4 (samplePath 0) [] (unfinished Blake.H sampleDeploy 8 [1, 2, 3])) =
      (d', [.reply [] 0x9000, .pending]) ∧
    Shows samplePl d' .wasm [(b!"DeployHash", lowerHex (Blake.H (sampleDeploy.header Blake.H).encode)), (b!"BodyHash", lowerHex (Blake.H sampleDeploy.body))] ∧
    (step samplePl d' .approve).2 = signatureReply samplePl (samplePath 0) (samplePl.sha256 (Blake.H (sampleDeploy.header Blake.H).encode)) :=
  C87_bypass_false samplePl (by decide) (Dev.init samplePl) (.init _) rfl (samplePath 0) rfl (by decide) sampleDeploy [] 4 100000000 sampleDeploy_usual
    8 [1, 2, 3] (by decide) (by decide) [] _ rfl (by rw [(sampleDeploy_front samplePl.blake).2]; decide)

/-- The hypotheses of `C87_lines_partial` are met by two uploads of which only the unfinished code differs. -/
example : ∃ d1 d2 a b,
    run samplePl (Dev.init samplePl) (upload 4 (samplePath 0) [] (unfinished Blake.H sampleDeploy 8 [1, 2, 3])) = (d1, [.reply [] 0x9000, .pending]) ∧
    run samplePl (Dev.init samplePl) (upload 4 (samplePath 0) [] (unfinished Blake.H sampleDeploy 8 [4, 5, 6])) = (d2, [.reply [] 0x9000, .pending]) ∧
    Shows samplePl d1 .wasm [a, b] ∧ Shows samplePl d2 .wasm [a, b] := by
  have hl : ∀ junk : Bytes, junk.length = 3 → (unfinished samplePl.blake sampleDeploy 8 junk).length ≤ samplePl.cap := by
    intro junk hj
    have := (sampleDeploy_front samplePl.blake).2
    unfold unfinished at this ⊢
    simp only [List.length_append, List.length_cons, List.length_nil] at this ⊢
    rw [hj, this]; decide
  obtain ⟨d1, a1, a2, -⟩ := C87_bypass_false samplePl (by decide) (Dev.init samplePl) (.init _) rfl (samplePath 0) rfl (by decide) sampleDeploy [] 4
    100000000 sampleDeploy_usual 8 [1, 2, 3] (by decide) (by decide) [] _ rfl (hl _ rfl)
  obtain ⟨d2, b1, b2, -⟩ := C87_bypass_false samplePl (by decide) (Dev.init samplePl) (.init _) rfl (samplePath 0) rfl (by decide) sampleDeploy [] 4
    100000000 sampleDeploy_usual 8 [4, 5, 6] (by decide) (by decide) [] _ rfl (hl _ rfl)
  exact ⟨d1, d2, _, _, a1, b1, a2, b2⟩

/-- An instance of `C87_kind_partial`: the same transfer, sent as it is. -/
example : (run samplePl (Dev.init samplePl) (upload 4 (samplePath 0) [] (sampleDeploy.tx Blake.H []))).2 ≠ [.reply [] 0x9000, .pending] := by
  have hl : (sampleDeploy.tx Blake.H []).length ≤ samplePl.cap := by
    unfold DeploySpec.tx
    simp only [List.length_append, (sampleDeploy_front _).1, Blake.H.len]
    decide +kernel
  refine C87_kind_partial samplePl (by decide) (Dev.init samplePl) (.init _) (samplePath 0) rfl (by decide) sampleDeploy [] 4 100000000
    sampleDeploy_usual [] _ 5 (by decide) ?_
  rw [kept_fits (by simpa using hl)]
  have key : ∀ a b c s s' t : Bytes, s = 5 :: s' → a ++ b ++ c ++ [5] <+: ([] : Bytes) ++ (([] : List Bytes) ++ [a ++ b ++ (c ++ s) ++ t]).flatten := by
    intro a b c s s' t h
    exact ⟨s' ++ t, by simp [h]⟩
  exact key _ _ _ _ (sampleDeploy.session.encode.drop 1) _ (by decide)

end Casper
