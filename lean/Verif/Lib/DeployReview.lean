import Verif.Lib.DeploySession
/-
From the parser to the device: what uploading a well-formed Deploy leads to.
-/
namespace Casper
open M

/-- Names that differ identify their arguments. -/
theorem argNamed_mem {as : List Arg} (hnd : (as.map Arg.name).Nodup) {a : Arg} (ha : a ∈ as) : argNamed as a.name = some a := by
  induction as with
  | nil => simp at ha
  | cons b as ih =>
    simp only [List.map_cons, List.nodup_cons] at hnd
    unfold argNamed
    rcases List.mem_cons.1 ha with rfl | hm
    · simp
    · rw [List.find?_cons_of_neg]
      · exact ih hnd.2 hm
      · simp only [beq_iff_eq]
        intro h
        exact hnd.1 (h ▸ List.mem_map_of_mem hm)

theorem argNamed_none {as : List Arg} {name : Bytes} (h : ∀ a ∈ as, a.name ≠ name) : argNamed as name = none := by
  unfold argNamed
  rw [List.find?_eq_none]
  simpa using h

/-- A Deploy in its usual form: header fields of their proper sizes, a chain name that can be shown, a payment of `fee` motes written
in `k` bytes. -/
structure DeploySpec.Usual (d : DeploySpec) (code : Bytes) (k fee : Nat) : Prop where
  ok : d.Ok
  chain : d.chain.length ≤ 99
  chain0 : (0 : UInt8) ∉ d.chain
  pays : d.payment = .moduleBytes code [⟨b!"amount", UInt8.ofNat k :: le k fee, .u512⟩]
  size : k ≤ 64
  fee : fee < 256 ^ k

/-- The environment in which a Deploy is parsed. -/
abbrev deployEnv (pl : Platform) (expert : Bool) (x : DeploySpec) (ap : List Bytes) : Env := mkEnv pl expert (x.tx pl.blake ap)

/-- Where the session starts. -/
def DeploySpec.sessionPos (H : Bytes → Bytes) (x : DeploySpec) : Nat := (x.header H).encode.length + 32 + x.payment.encode.length

/-- The environment in which a Deploy is parsed, whatever follows it. -/
abbrev signedEnv (pl : Platform) (expert : Bool) (x : DeploySpec) (rest : Bytes) : Env := mkEnv pl expert (x.signedPart pl.blake ++ rest)

theorem signed_upload (pl : Platform) (hcap : pl.cap ≤ 16384) (d : Dev) (hd : d.Ok pl) (path : Bytes)
    (hlen : path.length = 20) (hpath : casperPath path) (x : DeploySpec) (code : Bytes) (k fee : Nat) (hx : x.Usual code k fee) (rest : Bytes) (n : Nat)
    (hap : d.expert = true → n < 2 ^ 32 ∧ ∃ more, rest = le 4 n ++ more) (cs : List Bytes) (last : Bytes) (hcs : cs.flatten ++ last = 0 :: (x.signedPart pl.blake ++ rest))
    (hfit : (cs.flatten ++ last).length ≤ pl.cap) {epo : Nat} {it : Item} {lines : List (Bytes × Bytes)}
    (hses : SessionAt (signedEnv pl d.expert x rest) (x.sessionPos pl.blake) x.session epo it lines)
    {type : Bytes} (hty : typeLabel (x.parsed pl.blake code k fee it) = type)
    (time : Bytes) (hxo : d.expert = true → x.ExpertOk pl.fmtTime time) :
    ∃ d' ttl, (d.expert = true → duration ttl = x.ttl / 1000) ∧
      run pl d (upload 2 path cs last) = (d', List.replicate (cs.length + 1) (.reply [] 0x9000) ++ [.pending]) ∧
      Displays pl d' (x.screens pl.blake d.expert n type time ttl (motesOf fee) lines) ∧
      (step pl d' .approve).2 = signatureReply pl path (pl.sha256 (pl.blake (x.header pl.blake).encode)) := by
  have hs : Small (signedEnv pl d.expert x rest) := by
    rw [hcs] at hfit
    unfold Small; simp only [List.length_cons] at hfit; show (x.signedPart pl.blake ++ rest).length ≤ 16384; omega
  obtain ⟨s, ttl, hacc, hh, hdur, hnum, hitems⟩ :=
    deploy_accepted (e := signedEnv pl d.expert x rest) hs hx.ok rfl hx.pays hses hap hx.size hx.fee hx.chain hx.chain0 hty hxo
  have hl := signed_layout (H := pl.blake) (d := x) (rest := rest) rfl
  obtain ⟨-, -, w3⟩ := header_small (hx.ok.header pl.blake) hs.fits hl.header
  obtain ⟨d0, h1, h2, h3, h4, h5⟩ := upload_deploy pl (by omega) d hd path hlen hpath cs last _ hcs hfit hacc
  have hk : s.dep.kind = 0 := readDeploy_kind hacc.parse
  have hn : (x.screens pl.blake d.expert n type time ttl (motesOf fee) lines).length ≤ 128 := by
    have := hses.few
    unfold DeploySpec.screens
    cases d.expert <;> simp <;> omega
  refine ⟨_, ttl, hdur, h5, ?_, ?_⟩
  · intro o
    refine ⟨by rw [reviewCount_deploy h1 h2 s hk, h3]; exact congrArg (Res.ok · o) hnum, fun i kv hi => ?_⟩
    have hlt := (List.getElem?_eq_some_iff.1 hi).1
    have hu : u8 i = i := u8_id (by omega)
    rw [reviewItem_deploy h1 h2 s hk, hu, if_neg (by rw [h3]; show ¬ (_ ∨ _ > numItemsDeploy (signedEnv pl d.expert x rest) s.dep); rw [hnum]; show ¬ (_ ∨ _ > (x.screens pl.blake d.expert n type time ttl (motesOf fee) lines).length); omega), h3]
    exact hitems i kv hi o
  · have e1 : x.signedPart pl.blake ++ rest = (x.header pl.blake).encode ++ pl.blake (x.header pl.blake).encode ++ (x.body ++ rest) := by
      unfold DeploySpec.signedPart; simp only [List.append_assoc]
    rw [approve_deploy h1 (h := pl.blake (x.header pl.blake).encode) (by rw [h2, e1]) (pl.blake.len _) hk (by rw [hh]; exact w3), h4]

theorem deploy_upload (pl : Platform) (hcap : pl.cap ≤ 16384) (d : Dev) (hd : d.Ok pl) (path : Bytes)
    (hlen : path.length = 20) (hpath : casperPath path) (x : DeploySpec) (code : Bytes) (k fee : Nat) (hx : x.Usual code k fee) (ap : List Bytes)
    (hap : ap.length < 2 ^ 32) (cs : List Bytes) (last : Bytes) (hcs : cs.flatten ++ last = 0 :: x.tx pl.blake ap)
    (hfit : (cs.flatten ++ last).length ≤ pl.cap) {epo : Nat} {it : Item} {lines : List (Bytes × Bytes)}
    (hses : SessionAt (deployEnv pl d.expert x ap) (x.sessionPos pl.blake) x.session epo it lines)
    {type : Bytes} (hty : typeLabel (x.parsed pl.blake code k fee it) = type)
    (time : Bytes) (hxo : d.expert = true → x.ExpertOk pl.fmtTime time) :
    ∃ d' ttl, (d.expert = true → duration ttl = x.ttl / 1000) ∧
      run pl d (upload 2 path cs last) = (d', List.replicate (cs.length + 1) (.reply [] 0x9000) ++ [.pending]) ∧
      Displays pl d' (x.screens pl.blake d.expert ap.length type time ttl (motesOf fee) lines) ∧
      (step pl d' .approve).2 = signatureReply pl path (pl.sha256 (pl.blake (x.header pl.blake).encode)) :=
  signed_upload pl hcap d hd path hlen hpath x code k fee hx (le 4 ap.length ++ ap.flatten) ap.length (fun _ => ⟨hap, _, rfl⟩) cs last hcs hfit hses hty time hxo

end Casper
