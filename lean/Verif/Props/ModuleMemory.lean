import Verif.Lib.FaultIff
import Verif.Props.Deploys
import Verif.Props.AcceptDeploy
/-
Property C39 for Deploys that run code: exactly which of them make the parser leave its buffers.
-/
namespace Casper
open M

/-- The name of the operation is looked for at a place where the bytes, read as a text, are too long. -/
def Misread (args : List Arg) (rest : Bytes) : Prop := ∃ t, markAt args rest = some t ∧ Overruns t

/-- Parsing the session of a Deploy with undefined behaviour is the only way to have it. -/
theorem readDeploy_crash {e : Env} (hs : Small e) {d : DeploySpec} (hd : d.Ok) {rest code : Bytes} {k fee : Nat}
    (hb : e.buf = d.signedPart e.blake ++ rest) (hp : d.payment = payItem code k fee)
    (h : Crashes (parseDeployItem e false) ⟨(d.header e.blake).encode.length + 32 + d.payment.encode.length + 1, 0, { typ := d.session.tag }⟩) :
    Crashes (readDeploy e) ⟨0, 0, {}⟩ := by
  obtain ⟨f, hpar⟩ := h
  refine ⟨f, ?_⟩
  have hl := signed_layout hb
  have l1 := hl.payment.le
  have l3 := hl.session.le
  have hs' := hs
  unfold Small at hs'
  unfold readDeploy
  refine seqThen (readDeployHeader_at (hd.header e.blake) hs.fits hl.header) ?_
  rw [u16_id (by omega)]
  have hpa := hl.payment
  rw [hp] at hpa
  refine ldThen (readU8_at hpa) (reqThen (by decide) ?_)
  refine seqThen (a := ()) (t := ⟨(d.header e.blake).encode.length + 32 + 1, 0, { header := (d.header e.blake).view }⟩) rfl (reqThen rfl ?_)
  refine seqThen (a := ()) (t := ⟨(d.header e.blake).encode.length + 32 + d.payment.encode.length, 0,
    { header := (d.header e.blake).view, payment := payView code k fee }⟩) ?_ ?_
  · unfold onPayment
    dsimp only
    rw [payment_at hs.fits hpa, hp]
  refine getThen (reqThen (by simp [payView]) ?_)
  have hsa := hl.session
  rw [ExecItem.encode_eq d.session] at hsa
  have ht : d.session.tag ≤ 5 := by cases d.session <;> simp [ExecItem.tag]
  refine ldThen (a := d.session.tag) (o := (d.header e.blake).encode.length + 32 + d.payment.encode.length + 1) ?_ (reqThen (by omega) ?_)
  · have := readU8_at hsa
    rw [UInt8.toNat_ofNat', Nat.mod_eq_of_lt (by omega)] at this
    exact this
  refine seqThen (a := ()) (t := ⟨(d.header e.blake).encode.length + 32 + d.payment.encode.length + 1, 0,
    { header := (d.header e.blake).view, payment := payView code k fee, session := { typ := d.session.tag } }⟩) rfl ?_
  rw [bind_run]
  unfold onSession
  dsimp only
  rw [hpar]
  rfl

/-- **C39, Deploys that run code.** Parsing and validating a serialized header, 32 bytes, a serialized payment and a serialized
session of module bytes (and anything behind) stays inside the data and the local buffers, unless the name of the operation
is looked for at a place where the bytes, read as a text, are too long. -/
theorem C39_module_partial (e : Env) (hs : Small e) (hw : e.wasm = false) (h : DeployHeader) (ho : h.Ok) (hh : Bytes) (hl : hh.length = 32)
    (pay : ExecItem) (hp : pay.Ok) (code : Bytes) (args : List Arg) (hses : (ExecItem.moduleBytes code args).Ok) (rest : Bytes)
    (hb : e.buf = h.encode ++ hh ++ (pay.encode ++ (ExecItem.moduleBytes code args).encode) ++ rest) (hm : ¬ Misread args rest) :
    (∀ f, readDeploy e ⟨0, 0, {}⟩ ≠ .fault f) ∧
    (∀ s, readDeploy e ⟨0, 0, {}⟩ = .ok () s → ∀ t f, validateDeploy e s.dep t ≠ .fault f) := by
  have a0 : At e.buf 0 h.encode := ⟨[], hh ++ (pay.encode ++ (ExecItem.moduleBytes code args).encode) ++ rest, by rw [hb]; simp, rfl⟩
  have a1 : At e.buf (h.encode.length + 32) pay.encode := ⟨h.encode ++ hh, (ExecItem.moduleBytes code args).encode ++ rest, by rw [hb]; simp, by simp [hl]⟩
  have a2 : At e.buf (h.encode.length + 32 + pay.encode.length) (ExecItem.moduleBytes code args).encode :=
    ⟨h.encode ++ hh ++ pay.encode, rest, by rw [hb]; simp, by simp [hl]; omega⟩
  obtain ⟨w1, w2, w3⟩ := header_small ho hs.to_fits a0
  have hs' := hs
  unfold Small at hs'
  have le1 := a1.le
  constructor
  · intro f hf
    obtain ⟨v, p, h1, h2, h3, h4, h5⟩ := readDeploy_fault f hf
    have hv := h1.view_eq hs.to_fits ho a0
    have hbs : v.bodyStart = h.encode.length + 32 := by
      unfold Header.bodyStart
      rw [hv, w3, u16_id (by omega)]
    rw [hbs] at h2 h3
    have hpt : pay.tag = 0 := by
      rw [ExecItem.encode_eq] at a1
      have h3 := h2.unique (At.cons.1 a1).1 rfl
      have h4 := congrArg UInt8.toNat (List.cons.inj h3).1
      rw [UInt8.toNat_ofNat', Nat.mod_eq_of_lt (by cases pay <;> simp [ExecItem.tag])] at h4
      exact h4.symm
    have hpo := parseDeployItem_end (epo := 0) hs.to_fits hp a1 true () p (by rw [hpt]; exact h3)
    rw [hpo] at h5
    exact hm ((module_crash (as := args) hs.to_fits hses.args hw (code := code) (front := h.encode ++ hh ++ pay.encode) (rest := rest) (by rw [hb]; simp) (by simp [hl]; omega)).1 ⟨f, h5⟩)
  · intro s hr t f
    obtain ⟨p, q, k, hpp⟩ := readDeploy_post _ _ hr
    obtain ⟨c1, c2, c3, c4, c5, c6, c7⟩ := hpp.formed hs.to_fits ho hl hp hses hb
    exact hpp.validate_fault hs.to_fits (by rw [c2]; omega) t f

/-- **C39 fails, exactly**: a Deploy that runs code, paid with a single amount, makes the parser leave its buffers exactly if
the name of the operation is looked for at a place where the bytes, read as a text, are too long. -/
theorem C39_module_false (e : Env) (hs : Small e) (hw : e.wasm = false) (d : DeploySpec) (hd : d.Ok) (c : Bytes) (k fee : Nat)
    (hp : d.payment = payItem c k fee) (code : Bytes) (args : List Arg) (hses : d.session = .moduleBytes code args) (hok : ∀ a ∈ args, a.Ok) (rest : Bytes)
    (hb : e.buf = d.signedPart e.blake ++ rest) :
    (∃ f, readDeploy e ⟨0, 0, {}⟩ = .fault f) ↔ Misread args rest := by
  have hl := signed_layout hb
  have hle := hl.session.le
  have hs' := hs
  unfold Small at hs'
  have h32 := e.blake.len (d.header e.blake).encode
  have hcr := fun ep : Nat => module_crash (e := e) (as := args) (rest := rest) (o := (d.header e.blake).encode.length + 32 + d.payment.encode.length) (ep := ep)
    hs.to_fits hok hw (code := code)
    (front := (d.header e.blake).encode ++ e.blake (d.header e.blake).encode ++ d.payment.encode) (by rw [hb, ← hses]; simp [DeploySpec.signedPart, DeploySpec.body]) (by simp [h32]; omega)
  constructor
  · rintro ⟨f, hf⟩
    by_contra hm
    obtain ⟨v, p, h1, h2, h3, h4, h5⟩ := readDeploy_fault f hf
    have hv := h1.view_eq hs.to_fits (hd.header e.blake) hl.header
    obtain ⟨w1, w2, w3⟩ := header_small (hd.header e.blake) hs.to_fits hl.header
    have hbs : v.bodyStart = (d.header e.blake).encode.length + 32 := by
      unfold Header.bodyStart
      rw [hv, w3, u16_id (by omega)]
    rw [hbs] at h3
    have hpa := hl.payment
    rw [hp] at hpa
    rw [show (⟨(d.header e.blake).encode.length + 32 + 1, 0, {}⟩ : IS) = ⟨(d.header e.blake).encode.length + 32 + 1, 0, { typ := 0 }⟩ from rfl, payment_at hs.fits hpa] at h3
    cases h3
    rw [← hp] at h5
    exact hm ((hcr _).1 ⟨f, h5⟩)
  · intro hm
    refine readDeploy_crash hs hd hb hp ?_
    rw [hses]
    exact (hcr 0).2 hm

/-- **C39, the number of approvals**: a Deploy that runs code, without an argument "auction", and carries its approvals (each
of at least one byte) makes the parser leave its buffers exactly if there are more than 100 approvals. -/
theorem C39_many_false (e : Env) (hs : Small e) (hw : e.wasm = false) (d : DeploySpec) (hd : d.Ok) (c : Bytes) (k fee : Nat)
    (hp : d.payment = payItem c k fee) (code : Bytes) (args : List Arg) (hses : d.session = .moduleBytes code args) (hok : ∀ a ∈ args, a.Ok)
    (hau : ∀ a ∈ args, cstr a.name ≠ b!"auction") (ap : List Bytes) (hap : ∀ a ∈ ap, a ≠ []) (rest : Bytes)
    (hb : e.buf = d.tx e.blake ap ++ rest) :
    (∃ f, readDeploy e ⟨0, 0, {}⟩ = .fault f) ↔ 100 < ap.length := by
  have hb' : e.buf = d.signedPart e.blake ++ (le 4 ap.length ++ (ap.flatten ++ rest)) := by
    rw [hb]; simp [DeploySpec.tx, DeploySpec.signedPart]
  rw [C39_module_false e hs hw d hd c k fee hp code args hses hok _ hb']
  have hfl : ap.length ≤ ap.flatten.length := by
    clear hb hb'
    induction ap with
    | nil => simp
    | cons a ap ih =>
      have h1 := ih fun a h => hap a (by simp [h])
      have h2 : 1 ≤ a.length := List.length_pos_of_ne_nil (hap a (by simp))
      simp only [List.length_cons, List.flatten_cons, List.length_append]; omega
  have hs' := hs
  unfold Small at hs'
  have hlen : ap.length < 256 ^ 4 := by
    have := congrArg List.length hb'
    simp only [List.length_append, le_length] at this
    omega
  have hmark : markAt args (le 4 ap.length ++ (ap.flatten ++ rest)) = some (le 4 ap.length ++ (ap.flatten ++ rest)) := by
    rcases markAt_found args (le 4 ap.length ++ (ap.flatten ++ rest)) with ⟨pre, a, post, h1, h2, h3, h4⟩ | ⟨h1, h2⟩
    · exact absurd h3 (hau a (by rw [h1]; simp))
    · exact h2
  have htake : (le 4 ap.length ++ (ap.flatten ++ rest)).take 4 = le 4 ap.length := by
    rw [List.take_left' (le_length 4 _)]
  unfold Misread
  rw [hmark]
  constructor
  · rintro ⟨t, ht, h1, h2⟩
    cases ht
    rw [htake, leVal_le 4 _ hlen] at h2
    simp only [List.length_append, le_length] at h2
    omega
  · intro h
    refine ⟨_, rfl, by simp, .inl ?_⟩
    rw [htake, leVal_le 4 _ hlen]
    exact h

theorem txParse_crash {pl : Platform} (hcap : pl.cap < 65536) {d : Dev} (hd : d.Ok pl) {xs : Bytes} (hx : d.data = 0 :: xs) (hne : xs ≠ []) {f : Fault}
    (h : readDeploy (mkEnv pl d.expert xs) ⟨0, 0, {}⟩ = .fault f) : txParse pl d = .fault f := by
  unfold txParse
  rw [bind_run, parserParse_cons hcap hd hx, if_neg hne, if_pos rfl]
  unfold runDeploy
  rw [env_forDeploy hd hx, show (readDeploy (mkEnv pl d.expert xs) ⟨0, d.forDeploy.epo, d.forDeploy.dep⟩) = _ from h]
  rfl

/-- **C39 on the device**: whatever happened before, uploading such a Deploy, in whatever chunks, ends in undefined behaviour
with the last chunk. -/
theorem C39_upload_false (pl : Platform) (hcap : pl.cap ≤ 16384) (d : Dev) (hd : d.Ok pl) (path : Bytes) (hl : path.length = 20)
    (hpa : casperPath path) (cs : List Bytes) (last : Bytes) (x : DeploySpec) (hx : x.Ok) (c : Bytes) (k fee : Nat)
    (hp : x.payment = payItem c k fee) (code : Bytes) (args : List Arg) (hses : x.session = .moduleBytes code args) (hok : ∀ a ∈ args, a.Ok) (rest : Bytes)
    (hdata : cs.flatten ++ last = 0 :: (x.signedPart pl.blake ++ rest)) (hfit : (cs.flatten ++ last).length ≤ pl.cap) (hm : Misread args rest) :
    ∃ f, (run pl d (upload 2 path cs last)).2 = List.replicate (cs.length + 1) (.reply [] 0x9000) ++ [.crash f] := by
  obtain ⟨d0, e0, h1, h2, h3, h4, -, -, -, h5⟩ := upload_reaches pl d hd 2 (.inl rfl) path hl hpa cs last hfit
  have hs : Small (mkEnv pl d.expert (x.signedPart pl.blake ++ rest)) := by
    unfold Small
    show (x.signedPart pl.blake ++ rest).length ≤ 16384
    rw [hdata, List.length_cons] at hfit
    omega
  obtain ⟨f, hf⟩ := (C39_module_false (mkEnv pl d.expert (x.signedPart pl.blake ++ rest)) hs rfl x hx c k fee hp code args hses hok rest rfl).2 hm
  refine ⟨f, ?_⟩
  rw [h5]
  have hne : x.signedPart pl.blake ++ rest ≠ [] := by
    intro h
    have := congrArg List.length h
    simp [DeploySpec.signedPart, pl.blake.len] at this
  have hdat : d0.data = 0 :: (x.signedPart pl.blake ++ rest) := h2.trans hdata
  have hk : txParse pl { d0 with txInit := false } = .fault f := by
    rw [← h3] at hf
    exact txParse_crash (d := { d0 with txInit := false }) (by omega) h1 hdat hne hf
  have : (outOf e0 (finish pl 2 d0)).2 = .crash f := by
    unfold finish
    rw [if_pos rfl]
    unfold orExplain
    simp only [bind_run, modify_run, Res.bind_ok, attempt_run, hk]
    rfl
  rw [this]

/-- The sample with 3 approvals is parsed inside the buffers, that with 101 is not; and so on every device. -/
example : Misread [] (le 4 101 ++ List.replicate 5 0) ∧ ¬ Misread [] (le 4 3 ++ List.replicate 9 0) :=
  ⟨⟨_, rfl, by decide⟩, fun ⟨t, h, h'⟩ => absurd h' (by cases h; decide)⟩

/-- An argument "auction" with an unfinished text. -/
example : Misread [⟨b!"auction", [200, 0, 0, 0], .string⟩] (le 4 0) := ⟨_, rfl, by decide⟩

/-- A usual one. -/
example : ¬ Misread [⟨b!"auction", pfx b!"delegate", .string⟩] (le 4 1000) := by
  rintro ⟨t, h, h'⟩
  rw [show markAt _ _ = some _ from rfl] at h
  cases h
  revert h'
  decide

/-- The sample that runs code, with 101 approvals of one byte, on every device, in one chunk or many. -/
example (d : Dev) (hd : d.Ok samplePl) (cs : List Bytes) (last : Bytes)
    (hdata : cs.flatten ++ last = 0 :: (sampleModule.signedPart Blake.H ++ (le 4 101 ++ List.replicate 101 7))) :
    ∃ f, (run samplePl d (upload 2 (samplePath 0) cs last)).2 = List.replicate (cs.length + 1) (.reply [] 0x9000) ++ [.crash f] :=
  C39_upload_false samplePl (by decide) d hd (samplePath 0) (by decide) (by decide) cs last sampleModule
    (by obtain ⟨h1, h2, h3, h4, h5⟩ := sampleDeploy_ok; exact ⟨h1, h2, h3, h4, h5⟩)
    [] 4 100000000 rfl b!"code" [] rfl (by simp) _ hdata (by rw [hdata]; decide +kernel) ⟨_, rfl, by decide⟩

end Casper
