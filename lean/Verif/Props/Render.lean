import Verif.Lib.HazardArgs
import Verif.Lib.Huge
import Verif.Props.Values
import Verif.Props.Deploys
/-
C40: memory safety of showing a Deploy.
-/
namespace Casper
open M

/-! ### Specification -/

/-- The value fits the array its text is built in; public keys are what they should be. -/
def Arg.Shows (a : Arg) : Prop :=
  match a.ty with
  | .key | .uref => a.value.length ≤ 50
  | .option .uref => a.value.length ≤ 51
  | .byteArray _ => a.value.length ≤ 49
  | .publicKey => ∃ k : PubKey, k.Ok ∧ a.value = k.encode
  | _ => True

/-- The parts of a Deploy that are shown fit the arrays they are shown from.  (Only the named arguments matter, a name counting up
to its first NUL.) -/
structure DeployFits (h : DeployHeader) (ses : ExecItem) : Prop where
  chain : h.chain.length ≤ 99
  args : ∀ a ∈ ses.args, a.name.takeWhile (· != 0) ∈ [b!"target", b!"source", b!"id", b!"delegator", b!"validator", b!"new_validator"] → a.Shows
  code : ∀ c as, ses = .moduleBytes c as → c.length ≤ 32
  name : ∀ n, (∃ x as, ses = .byName n x as) ∨ (∃ v x as, ses = .versionedByName n v x as) → n.length ≤ 299
  entry : ∀ n, (∃ h as, ses = .byHash h n as) ∨ (∃ h v as, ses = .versionedByHash h v n as) ∨ (∃ x as, ses = .byName x n as) ∨
    (∃ x v as, ses = .versionedByName x v n as) → n.length ≤ 99

/-- Lengths that do not fit: modulo 256, 50 bytes leave no room for the terminator of their text; for 128 to 178 the length of the text is
computed modulo 256, found small enough, and the text written beyond the array. -/
def Overlong (n : Nat) : Prop := n % 256 = 50 ∨ (128 ≤ n % 256 ∧ n % 256 ≤ 178)

/-- The bytes `xs` contain `v` with its length in front and `post` behind. -/
def Holds (xs v post : Bytes) : Prop := ∃ pre, xs = pre ++ (pfx v ++ post)

/-- The bytes contain a value with its length and type that cannot be shown: a key, URef, present optional URef or byte array that is
overlong, or a public key cut short by the end of the data. -/
inductive BadValue (xs : Bytes) : Prop
  | key (v post : Bytes) (t : UInt8) (h : Holds xs v (t :: post)) (ht : t = 11 ∨ t = 12) (hl : 1 ≤ v.length) (hv : Overlong (v.length - 1))
  | uref (v post : Bytes) (h : Holds xs v (13 :: 12 :: post)) (hl : 2 ≤ v.length) (h0 : v.head? ≠ some 0) (hv : Overlong (v.length - 2))
  | bytes (v post : Bytes) (h : Holds xs v (15 :: post)) (hv : Overlong v.length)
  | publicKey (k : UInt8) (v post : Bytes) (h : Holds xs (k :: v) (22 :: post)) (hv : v.length + 1 + post.length < if k = 1 then 32 else 33)

/-- What the bytes of a Deploy contain if showing it leaves the bounds of memory: a bad value; a chain name or (in expert mode) an
entry point of 100 bytes, a contract name of 300 bytes (without terminator); module bytes longer than a hash; or a number above 2³² − 65536,
taken for a length. -/
inductive OutOfBounds (expert : Bool) (xs : Bytes) : Prop
  | value (h : BadValue xs)
  | chain (v post : Bytes) (h : Holds xs v post) (hl : v.length = 100) (h0 : 0 ∉ v)
  | entry (v post : Bytes) (hx : expert = true) (h : Holds xs v post) (hl : v.length = 100) (h0 : 0 ∉ v)
  | name (v post : Bytes) (h : Holds xs v post) (hl : v.length = 300) (h0 : 0 ∉ v)
  | code (pre post : Bytes) (n : Nat) (h : xs = pre ++ (0 :: le 4 n ++ post)) (hn : 32 < n) (hlt : n < 2 ^ 32)
  | huge (pre post : Bytes) (n : Nat) (h : xs = pre ++ (le 4 n ++ post)) (hn : 2 ^ 32 - 65536 ≤ n) (hlt : n < 2 ^ 32)

/-! ### Proof -/

theorem At.holds {buf v : Bytes} {o : Nat} (h : At buf o (Casper.pfx v)) : ∃ post, Holds buf v post := by
  obtain ⟨pre, post, h, -⟩ := h
  exact ⟨post, pre, by rw [h]; simp⟩

theorem Looked.holds {e : Env} {len t o : Nat} (h : Looked e len t o) : ∃ v post, Holds e.buf v (UInt8.ofNat t :: post) ∧ v.length = len ∧ At e.buf o v ∧
    At e.buf (o + len + 1) post ∧ o + len + 1 + post.length = e.buf.length := by
  have hlt := h.lt_length
  obtain ⟨b, hb⟩ : ∃ v, At e.buf o v ∧ v.length = len := ⟨(e.buf.drop o).take len, at_iff.2 ⟨by simp; omega, by simp⟩, by simp; omega⟩
  obtain ⟨pre, post, h1, h2⟩ : At e.buf (o - 4) (le 4 len ++ (b ++ [UInt8.ofNat t])) := by
    rw [At.append, At.append, le_length, Nat.sub_add_cancel h.four, hb.2]
    exact ⟨h.length, hb.1, h.typ⟩
  refine ⟨b, post, ⟨pre, ?_⟩, hb.2, hb.1, ⟨pre ++ (le 4 len ++ (b ++ [UInt8.ofNat t])), [], by rw [List.append_nil]; exact h1, ?_⟩, ?_⟩
  · rw [h1, Casper.pfx, hb.2]; simp
  · have := h.four; have := hb.2; simp; omega
  · have := h.four; have := hb.2; rw [h1]; simp; omega

theorem ValueBad.bounds {e : Env} {len t o : Nat} (hl : Looked e len t o) (h : ValueBad e t len o) : BadValue e.buf := by
  obtain ⟨v, post, h1, h2, h3, h4, h5⟩ := hl.holds
  subst h2
  cases h with
  | key ht hlen hb =>
    refine .key v post (UInt8.ofNat t) h1 ?_ hlen hb
    rcases ht with rfl | rfl
    · exact .inl rfl
    · exact .inr rfl
  | uref ht hlen k hk ha hi hb =>
    subst ht
    have hle := hi.le
    cases post with
    | nil => simp at hle h5; omega
    | cons j post =>
      have := (At.cons.1 h4).1.byte_inj hi
      subst this
      refine .uref v post h1 hlen ?_ hb
      cases v with
      | nil => simp at hlen
      | cons k' v =>
        have := (At.cons.1 h3).1.byte_inj ha
        subst this
        simpa using hk
  | bytes ht hlen hb => subst ht; exact .bytes v post h1 hb
  | pk ht hlen k ha hb =>
    subst ht
    cases v with
    | nil => simp at hlen
    | cons k' v =>
      have := (At.cons.1 h3).1.byte_inj ha
      subst this
      refine .publicKey k' v post h1 ?_
      simp only [List.length_cons] at h5
      split <;> rename_i hk
      · rw [if_pos hk] at hb; omega
      · rw [if_neg hk] at hb; omega

theorem ValueBad.not_shows {e : Env} {a : Arg} {x : Nat} (ha : At e.buf x (a.value ++ a.ty.encode)) (h : ValueBad e a.ty.tag a.value.length x) : ¬ a.Shows := by
  obtain ⟨name, v, ty⟩ := a
  dsimp only at ha h
  unfold Arg.Shows
  rw [At.append] at ha
  have hle := ha.2.le
  have key : ∀ t : CLType, (t = .key ∨ t = .uref) → 1 ≤ v.length → BadLen (v.length - 1) → ty = t → ¬ v.length ≤ 50 := by
    intro t _ hl hb _ hh
    unfold BadLen at hb
    omega
  cases h with
  | key h hl hb =>
    cases ty <;> simp [CLType.tag] at h
    · exact key .key (.inl rfl) hl hb rfl
    · exact key .uref (.inr rfl) hl hb rfl
  | uref h hl k hk hat hi hb =>
    cases ty <;> simp [CLType.tag] at h
    rename_i t
    have h2 : At e.buf (x + v.length + 1) t.encode := (At.cons.1 ha.2).2
    rw [CLType.encode_eq] at h2
    have := (At.cons.1 h2).1.byte_inj hi
    have hu : t = .uref := by
      cases t <;> first | rfl | (exfalso; simp only [CLType.tag] at this; revert this; decide)
    subst hu
    · intro hh
      dsimp only at hh
      unfold BadLen at hb
      omega
  | bytes h hl hb =>
    cases ty <;> simp [CLType.tag] at h
    intro hh
    dsimp only at hh
    unfold BadLen at hb
    omega
  | pk h hl k hat hb =>
    cases ty <;> simp [CLType.tag] at h
    rintro ⟨pk, hok, hv⟩
    dsimp only at hv
    subst hv
    have h1 := ha.1.le
    cases pk with
    | ed25519 xs =>
      have hk := hat.byte_inj (At.cons.1 ha.1).1
      subst hk
      have : xs.length = 32 := hok
      simp only [PubKey.encode, List.length_cons] at h1
      rw [if_pos rfl] at hb
      omega
    | secp256k1 xs =>
      have hk := hat.byte_inj (At.cons.1 ha.1).1
      subst hk
      have : xs.length = 33 := hok
      simp only [PubKey.encode, List.length_cons] at h1
      rw [if_neg (by decide)] at hb
      omega

/-- Parsing some of the arguments ends behind where it starts. -/
theorem parseArgs_forward {e : Env} (hf : Fits e) {as : List Arg} (hok : ∀ a ∈ as, a.Ok) {off n stop : Nat} (ha : At e.buf off (encodeArgs as))
    (hn : n ≤ as.length) (h : parseArgs e n off = .ok () stop) : off ≤ stop := by
  have h1 : At e.buf off (encodeArgs (as.take n)) := by
    rw [← List.take_append_drop n as, encodeArgs_append, At.append] at ha
    exact ha.1
  have h2 := parseArgs_at hf (fun a ha => hok a (List.mem_of_mem_take ha)) h1
  rw [List.length_take, Nat.min_eq_left hn, h] at h2
  cases h2
  omega

theorem encode_args {e : Env} {i : ExecItem} {o : Nat} (ha : At e.buf o i.encode) : i.tag = 5 → At e.buf (o + 1) (encodeRuntimeArgs i.args) := by
  intro h
  cases i <;> simp [ExecItem.tag] at h
  exact (At.cons.1 ha).2

/-- **C40, any bytes.** If showing a line of a Deploy that was parsed and validated leaves the bounds of memory, then the data contain
one of the things listed in `OutOfBounds`. -/
theorem C40_deploy_partial (e : Env) (hs : Small e) (s : DS) (hr : readDeploy e ⟨0, 0, {}⟩ = .ok () s)
    (hv : ∃ t, validateDeploy e s.dep 0 = .ok () t) (i c : Nat) (f : Fault) (hfault : getItemDeploy e s.epo s.dep i c = .fault f) :
    OutOfBounds e.expert e.buf := by
  have hf := hs.to_fits
  have hl : headerLength s.dep.header + 32 ≤ e.buf.length := by
    obtain ⟨t, hv⟩ := hv
    unfold validateDeploy at hv
    simp only [bind_eq_ok, slice_eq_ok] at hv
    obtain ⟨hdr, _, ⟨-, -, -⟩, hash, _, ⟨h1, h2, -⟩, -⟩ := hv
    have := h1.le
    omega
  obtain ⟨p, q, k, hpp⟩ := readDeploy_post _ _ hr
  have hitem : s.dep.session = q.item := by rw [hpp.result]
  have hfac := hpp.facts hs
  cases hpp.item_fault hs hl f hfault with
  | chain xs ha hn h0 =>
    obtain ⟨post, h⟩ := ha.holds
    exact .chain xs post h hn h0
  | session hz =>
    cases hz with
    | value name n c' len t x hm h0 hc hg hlk hv => exact .value (hv.bounds hlk)
    | back n m c' stop hc hm hlt hn hg hpa hst =>
      have hle := hm.le
      rw [le_length] at hle
      rcases parseArgs_long hf n hle hpa with hh' | ⟨i, m', -, ⟨pre, post, g2, -⟩, g3, g4⟩
      · omega
      · exact .huge pre post m' (by rw [g2]; simp) (by omega) (by omega)
    | module n ht ha hn hlt =>
      have hk : k = 0 := by rw [← hfac.typ, ← hitem]; exact ht
      subst hk
      obtain ⟨pre, post, h1, -⟩ : At e.buf p.off ([0] ++ le 4 n) := by
        rw [At.append]
        exact ⟨hpp.sesType, ha⟩
      exact .code pre post n (by rw [h1]; simp) hn (by omega)
    | name xs ht ha hn h0 =>
      obtain ⟨post, h⟩ := ha.holds
      exact .name xs post h hn h0
    | entry xs hx ht ha hn h0 =>
      obtain ⟨post, h⟩ := ha.holds
      exact .entry xs post hx h hn h0

/-- **C40, serialized Deploys.** The bytes are a serialized header, 32 bytes, a serialized payment and session, and anything behind; the
parts shown fit (`DeployFits`); for module bytes, no four bytes form a number above 2³² − 65536.  Then, once parsed, showing any line
reads and writes only where it may. -/
theorem C40_serialized_partial (e : Env) (hs : Small e) (h : DeployHeader) (ho : h.Ok) (hh : Bytes) (hl : hh.length = 32)
    (pay ses : ExecItem) (hp : pay.Ok) (hses : ses.Ok) (rest : Bytes) (hb : e.buf = h.encode ++ hh ++ (pay.encode ++ ses.encode) ++ rest)
    (hfit : DeployFits h ses)
    (hno : ∀ c as, ses = .moduleBytes c as → ∀ i m, At e.buf i (le 4 m) → m < 2 ^ 32 → m < 2 ^ 32 - 65536)
    (s : DS) (hr : readDeploy e ⟨0, 0, {}⟩ = .ok () s) (i c : Nat) (f : Fault) : getItemDeploy e s.epo s.dep i c ≠ .fault f := by
  have hf := hs.to_fits
  have hs' : e.buf.length ≤ 16384 := hs
  obtain ⟨p, q, k, hpp⟩ := readDeploy_post _ _ hr
  obtain ⟨c1, c2, c3, c4, c5, c6, c7⟩ := hpp.formed hf ho hl hp hses hb
  have a0 : At e.buf 0 h.encode := ⟨[], hh ++ (pay.encode ++ ses.encode) ++ rest, by rw [hb]; simp, rfl⟩
  have a2 : At e.buf p.off ses.encode := ⟨h.encode ++ hh ++ pay.encode, rest, by rw [hb]; simp, by rw [c5]; simp [hl]; omega⟩
  have hle2 := a2.le
  have hlen : headerLength s.dep.header + 32 ≤ e.buf.length := by rw [c2]; omega
  intro hfault
  have hz := hpp.item_fault hs hlen f hfault
  have hepo : s.epo = q.epo := by rw [hpp.result]
  have hitem : s.dep.session = q.item := by rw [hpp.result]
  have hfac := hpp.facts hs
  have hsa : SesArgs e ses q := by
    refine parseSession_args hf hses (epo := p.epo) a2 () q ?_
    rw [← c4]
    exact hpp.ses
  have hty : q.item.typ = ses.tag := by rw [hfac.typ, c4]
  have htail : ∀ {xs ys : Bytes} {o : Nat}, At e.buf o (pfx xs) → At e.buf o (pfx ys) → xs = ys := fun h h' => h.pfx_inj hf h'
  cases hz with
  | chain xs ha hn _ =>
    have hch := (header_layout ho a0).chain
    rw [c1, (header_small ho hf a0).2.1] at ha
    have := hfit.chain
    rw [← htail ha hch] at this
    omega
  | session hz =>
    rw [hitem, hepo] at hz
    cases hz with
    | value name n c' len t x hm h0 hc hg hlk hv =>
      have hfound : ∃ a ∈ ses.args, cstr a.name = name ∧ len = a.value.length ∧ t = a.ty.tag ∧ At e.buf x (a.value ++ a.ty.encode) := by
        rcases hc with ⟨h5, hc, hn, hlt⟩ | ⟨h5, h0', hc, hn⟩ | ⟨h0', hc, hn⟩
        · have ha := encode_args a2 (by omega)
          rw [encodeRuntimeArgs, At.append, le_length] at ha
          have hcount := encodeArgs_count ses.args
          have hle3 := ha.2.le
          have : n = ses.args.length := At.le_inj (n := 4) hn ha.1 hlt (by omega)
          subst this
          subst hc
          exact getData_arg hf hses.args ha.2 (Nat.le_refl _) hg
        · subst hc
          have hca := hsa.call (by omega) (by omega)
          rw [encodeRuntimeArgs, At.append, le_length] at hca
          refine getData_arg hf hses.args hca.2 ?_ hg
          rw [hn]
          exact hsa.few (by omega) h0
        · subst hc
          refine getData_arg hf hses.args (hsa.module (by omega) h0) ?_ hg
          rw [hn]
          exact hsa.few (by omega) h0
      obtain ⟨a, ham, han, rfl, rfl, hat⟩ := hfound
      refine hv.not_shows hat (hfit.args a ham ?_)
      show cstr a.name ∈ shownNames
      rw [han]
      exact hm
    | back n m c' stop hc hm hlt hn hg hpa hst =>
      rcases hc with ⟨h5, hc⟩ | ⟨h5, hc⟩
      · have ha := encode_args a2 (by omega)
        rw [encodeRuntimeArgs, At.append, le_length] at ha
        have hcount := encodeArgs_count ses.args
        have hle3 := ha.2.le
        subst hc
        have : m = ses.args.length := At.le_inj (n := 4) hm ha.1 hlt (by omega)
        have := parseArgs_forward hf hses.args ha.2 (by omega) hpa
        omega
      · by_cases h0 : ses.tag = 0
        · obtain ⟨code, as, rfl⟩ : ∃ c as, ses = .moduleBytes c as := by
            cases ses <;> simp [ExecItem.tag] at h0
            exact ⟨_, _, rfl⟩
          have hle := hm.le
          rw [le_length] at hle
          rcases parseArgs_long hf n hle hpa with hh' | ⟨i, m', -, g2, g3, g4⟩
          · omega
          · have := hno code as rfl i m' g2 (by omega)
            omega
        · have ha := hsa.call (by omega) h0
          subst hc
          rw [encodeRuntimeArgs, At.append, le_length] at ha
          have hcount := encodeArgs_count ses.args
          have hle3 := ha.2.le
          have : m = ses.args.length := At.le_inj (n := 4) hm ha.1 hlt (by omega)
          have := parseArgs_forward hf hses.args ha.2 (by omega) hpa
          omega
    | module n ht ha hn hlt =>
      obtain ⟨code, as, rfl⟩ : ∃ c as, ses = .moduleBytes c as := by
        rw [hty] at ht
        cases ses <;> simp [ExecItem.tag] at ht
        exact ⟨_, _, rfl⟩
      have h1 := (At.cons.1 a2).2
      rw [At.append, Casper.pfx, At.append] at h1
      have hle := h1.1.2.le
      have := hfit.code code as rfl
      have : n = code.length := At.le_inj (n := 4) ha h1.1.1 hlt (by omega)
      omega
    | name xs ht ha hn h0 =>
      rw [hty] at ht
      obtain ⟨nm, hnm, h1⟩ : ∃ nm, ((∃ x as, ses = .byName nm x as) ∨ (∃ v x as, ses = .versionedByName nm v x as)) ∧ At e.buf (p.off + 1) (pfx nm) := by
        cases ses <;> simp [ExecItem.tag] at ht
        · exact ⟨_, .inl ⟨_, _, rfl⟩, (At.append.1 (At.cons.1 a2).2).1⟩
        · exact ⟨_, .inr ⟨_, _, _, rfl⟩, (At.append.1 (At.cons.1 a2).2).1⟩
      have := hfit.name nm hnm
      rw [← htail ha h1] at this
      omega
    | entry xs hx ht ha hn h0 =>
      rw [hty] at ht
      obtain ⟨nm, hnm⟩ : ∃ n, (∃ h as, ses = .byHash h n as) ∨ (∃ h v as, ses = .versionedByHash h v n as) ∨ (∃ x as, ses = .byName x n as) ∨
          (∃ x v as, ses = .versionedByName x v n as) := by
        cases ses <;> simp [ExecItem.tag] at ht
        · exact ⟨_, .inl ⟨_, _, rfl⟩⟩
        · exact ⟨_, .inr (.inr (.inl ⟨_, _, rfl⟩))⟩
        · exact ⟨_, .inr (.inl ⟨_, _, _, rfl⟩)⟩
        · exact ⟨_, .inr (.inr (.inr ⟨_, _, _, rfl⟩))⟩
      have := hfit.entry nm hnm
      rw [← htail ha (hsa.entry nm hnm)] at this
      omega


/-- The sample transfer is such a Deploy. -/
example : DeployFits (sampleDeploy.header Blake.H) sampleDeploy.session := by
  refine ⟨by decide, ?_, ?_, ?_, ?_⟩
  · intro a ha _
    simp only [sampleDeploy, ExecItem.args, sampleTransferArgs, List.mem_cons, List.not_mem_nil, or_false] at ha
    rcases ha with rfl | rfl | rfl
    · trivial
    · exact (by decide : (List.replicate 32 (0x11 : UInt8)).length ≤ 49)
    · trivial
  · intro c as h; cases h
  · intro n h; rcases h with ⟨_, _, h⟩ | ⟨_, _, _, h⟩ <;> cases h
  · intro n h; rcases h with ⟨_, _, h⟩ | ⟨_, _, _, h⟩ | ⟨_, _, h⟩ | ⟨_, _, _, h⟩ <;> cases h

/-! ### Deploys that make the device leave the bounds of memory -/

/-- The replies to the upload of a Deploy (in `k` pieces and the rest). -/
def repliesTo (d : DeploySpec) (k : Nat := 2) : List Out :=
  (run samplePl (Dev.init samplePl) (sampleUpload (0 :: d.tx Blake.H []) k)).2

/-- The pieces are accepted, the last one ends in undefined behaviour. -/
def crashAfter (k : Nat) (f : Fault) : List Out := List.replicate (k + 1) (.reply [] 0x9000) ++ [.crash f]

/-- **C40 fails**: a transfer to a byte array of 128 bytes makes the device write beyond an array, one to 50 bytes read beyond it, while the
last piece is processed (all lines are rendered once before the review). -/
theorem C40_target_false :
    repliesTo (sampleTo (List.replicate 128 0x11) (.byteArray 128)) = crashAfter 2 .oobWrite ∧
    repliesTo (sampleTo (List.replicate 50 0x11) (.byteArray 50)) = crashAfter 2 .unterminated := by
  decide +kernel

/-- **C40 fails**: any contract of more than 32 bytes overflows the array meant for its hash. -/
theorem C40_code_false :
    repliesTo { sampleDeploy with session := .moduleBytes (List.replicate 33 0x11) [] } = crashAfter 2 .oobWrite := by
  decide +kernel

/-- A transfer with the given arguments, without anything behind it. -/
def sampleTo' (as : List Arg) : Bytes :=
  ({ sampleDeploy with session := .transfer as } : DeploySpec) |> fun d => (d.header Blake.H).encode ++ Blake.H (d.header Blake.H).encode ++ d.body

/-- **C40 fails**: a public key of one byte, at the end of the data, is read beyond them (the data end behind its type). -/
theorem C40_key_false :
    (run samplePl (Dev.init samplePl) (sampleUpload (0 :: (sampleTo' [⟨b!"amount", bigNum 5 24500000000, .u512⟩, ⟨b!"id", 1 :: le 8 7, .option .u64⟩,
      ⟨b!"target", [1], .publicKey⟩])) 2)).2 = crashAfter 2 .oobRead := by
  decide +kernel

/-- **C40 fails**: names that fill their arrays leave no room for a terminator: a chain name of 100 bytes, a contract name of 300 bytes. -/
theorem C40_names_false :
    repliesTo { sampleDeploy with chain := List.replicate 100 0x61 } = crashAfter 2 .unterminated ∧
    repliesTo { sampleDeploy with session := .byName (List.replicate 300 0x61) b!"call" [] } 3 = crashAfter 3 .unterminated := by
  decide +kernel

end Casper
