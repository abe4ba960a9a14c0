import Verif.Lib.V1Review
import Verif.Lib.SampleV1
/-
C45: well-formed native version 1 operations are accepted, shown faithfully and signed.
-/
namespace Casper
open M

/-- **C45, every native operation.** Any chunking of a well-formed transfer, bid, delegation or burn is acknowledged and
opens a review; the review consists of exactly the specified lines (whenever and however often they are asked for); and
approving it answers with the signature of SHA-256 of the payload's hash under the key of the path sent first.  (Without the
bound on the number of arguments see C42, C43.) -/
theorem C45_native_operation (pl : Platform) (hcap : pl.cap ≤ 16384) (d : Dev) (hd : d.Ok pl) (path : Bytes)
    (hlen : path.length = 20) (hpath : casperPath path) (p : TxPayload) (t : Nat) (as : List Arg) (ap : List Bytes)
    (hp : p.NativeOp t as) (hfew : as.length ≤ 119) (hap : ∀ x ∈ ap, ApprovalOk x) (cs : List Bytes) (last : Bytes)
    (hcs : cs.flatten ++ last = 1 :: p.tx pl.blake ap) (hfit : (cs.flatten ++ last).length ≤ pl.cap)
    (lines : List (Bytes × Bytes)) (hl : List.Forall₂ (ArgLine.Shows pl.blake as) (opLines d.expert as t) lines)
    (time : Bytes) (hx : d.expert = true → p.ExpertOk pl.fmtTime time) :
    ∃ d' ttl, (d.expert = true → duration ttl = p.ttl / 1000) ∧
      run pl d (upload 2 path cs last) = (d', List.replicate (cs.length + 1) (.reply [] 0x9000) ++ [.pending]) ∧
      Displays pl d' (p.screens pl.blake d.expert ap.length time ttl (lines ++ opExtra d.expert as.length t lines)) ∧
      (step pl d' .approve).2 = signatureReply pl path (pl.sha256 (pl.blake p.encode)) := by
  have hs : Small (mkEnv pl d.expert (p.tx pl.blake ap)) := by
    rw [hcs] at hfit
    unfold Small mkEnv; simp only [List.length_cons] at hfit ⊢; omega
  obtain ⟨s, ttl, hacc, hsv, hdur, hnum, hitems⟩ :=
    nativeOp_accepted (e := mkEnv pl d.expert (p.tx pl.blake ap)) hs hp hap rfl hl hx
  have hle := opLines_le hl
  have hll := hl.length_eq
  have hn : (p.screens pl.blake d.expert ap.length time ttl (lines ++ opExtra d.expert as.length t lines)).length ≤ 128 := by
    have : (p.pricing.lines pl.blake).length = 2 := by cases p.pricing <;> rfl
    have hlines : (lines ++ opExtra d.expert as.length t lines).length ≤ 119 := by
      rw [List.length_append]
      unfold opExtra
      split
      · simp; omega
      · rw [List.length_replicate]; omega
    unfold TxPayload.screens
    cases hxx : d.expert <;> rw [hxx] at hlines <;> simp [this] at hlines ⊢ <;> omega
  obtain ⟨d', h1, h2, h3⟩ := upload_screens pl hcap d hd path hlen hpath p ap cs last hcs hfit hacc hsv hnum hn hitems
  exact ⟨d', ttl, hdur, h1, h2, h3⟩

/-- **C45, transfers.** The same for a transfer whose arguments are `amount`, `target`, `id` and perhaps `source`, in any
order: target and amount are shown, in expert mode also source and id. -/
theorem C45_transfer (pl : Platform) (hcap : pl.cap ≤ 16384) (d : Dev) (hd : d.Ok pl) (path : Bytes)
    (hlen : path.length = 20) (hpath : casperPath path) (p : TxPayload) (as : List Arg) (ap : List Bytes)
    (hok : p.Ok) (hentry : p.entry = .op 2) (htarget : p.target = .native) (hargs : p.args = .named as)
    (amount target id : Arg) (source : List Arg) (hperm : as.Perm ([amount, target, id] ++ source))
    (hn : amount.name = b!"amount" ∧ target.name = b!"target" ∧ id.name = b!"id" ∧
      (source = [] ∨ ∃ a, source = [a] ∧ a.name = b!"source"))
    (k n : Nat) (hk : k ≤ 64) (hkn : n < 256 ^ k) (hamount : amount.ty = .u512 ∧ amount.value = UInt8.ofNat k :: le k n)
    (ttext itext : Bytes) (htt : Shown pl.blake target.ty target.value ttext) (hit : Shown pl.blake id.ty id.value itext)
    (stext : Bytes) (hst : ∀ a ∈ source, Shown pl.blake a.ty a.value stext)
    (hpos : p.argsPos < 256) (hchain : p.chain.length ≤ 99) (hchain0 : 0 ∉ p.chain)
    (hap : ∀ x ∈ ap, ApprovalOk x) (cs : List Bytes) (last : Bytes)
    (hcs : cs.flatten ++ last = 1 :: p.tx pl.blake ap) (hfit : (cs.flatten ++ last).length ≤ pl.cap)
    (time : Bytes) (hx : d.expert = true → p.ExpertOk pl.fmtTime time) :
    ∃ d' ttl, (d.expert = true → duration ttl = p.ttl / 1000) ∧
      run pl d (upload 2 path cs last) = (d', List.replicate (cs.length + 1) (.reply [] 0x9000) ++ [.pending]) ∧
      Displays pl d' (p.screens pl.blake d.expert ap.length time ttl
        (if d.expert then source.map (fun _ => (b!"From", stext)) ++
            [(b!"Target", ttext), (b!"Amount", motesOf n), (b!"ID", itext)]
          else [(b!"Target", ttext), (b!"Amount", motesOf n)])) ∧
      (step pl d' .approve).2 = signatureReply pl path (pl.sha256 (pl.blake p.encode)) := by
  obtain ⟨n1, n2, n3, n4⟩ := hn
  have hnames : (as.map Arg.name).Perm (([amount, target, id] ++ source).map Arg.name) := hperm.map _
  have hnd : (([amount, target, id] ++ source).map Arg.name).Nodup := by
    rcases n4 with rfl | ⟨a, rfl, n4⟩ <;> simp [n1, n2, n3, *]
  have hnd' := hnames.nodup_iff.2 hnd
  have hfind : ∀ a ∈ as, argNamed as a.name = some a := by
    intro a ha
    have : ∀ as : List Arg, (as.map Arg.name).Nodup → a ∈ as → argNamed as a.name = some a := by
      intro as
      induction as with
      | nil => simp
      | cons b as ih =>
        intro hnd hm
        simp only [List.map_cons, List.nodup_cons] at hnd
        unfold argNamed
        rcases List.mem_cons.1 hm with rfl | hm
        · simp
        · rw [List.find?_cons_of_neg]
          · exact ih hnd.2 hm
          · simp only [beq_iff_eq]
            intro h
            exact hnd.1 (h ▸ List.mem_map_of_mem hm)
    exact this as hnd' ha
  have hmem : ∀ a, a ∈ as ↔ a ∈ [amount, target, id] ++ source := fun a => hperm.mem_iff
  have f1 := hfind amount ((hmem _).2 (by simp))
  have f2 := hfind target ((hmem _).2 (by simp))
  have f3 := hfind id ((hmem _).2 (by simp))
  rw [n1] at f1
  rw [n2] at f2
  rw [n3] at f3
  have hsome : (argNamed as b!"source").isSome ↔ source ≠ [] := by
    rcases n4 with rfl | ⟨a, rfl, n4⟩
    · simp only [ne_eq, not_true_eq_false, iff_false]
      unfold argNamed
      rw [List.find?_isSome]
      rintro ⟨x, hx1, hx2⟩
      rw [hmem] at hx1
      simp at hx1 hx2
      rcases hx1 with rfl | rfl | rfl <;> simp_all
    · have := hfind a ((hmem _).2 (by simp))
      rw [n4] at this
      simp [this]
  have hcount : as.length = 3 + source.length := by
    rw [hperm.length_eq]; simp; omega
  have hsl : source.length ≤ 1 := by rcases n4 with rfl | ⟨b, rfl, n4⟩ <;> simp
  have key := C45_native_operation pl hcap d hd path hlen hpath p 2 as ap
    ⟨hok, hentry, by simp, htarget, hargs, ?_, by omega, by simp, fun _ => by rw [f3]; rfl, hpos, hchain, hchain0⟩ (by omega) hap cs last hcs hfit
    (if d.expert then source.map (fun _ => (b!"From", stext)) ++
            [(b!"Target", ttext), (b!"Amount", motesOf n), (b!"ID", itext)]
          else [(b!"Target", ttext), (b!"Amount", motesOf n)]) ?_ time hx
  · have hex : opExtra d.expert as.length 2 (if d.expert then source.map (fun _ => (b!"From", stext)) ++
            [(b!"Target", ttext), (b!"Amount", motesOf n), (b!"ID", itext)]
          else [(b!"Target", ttext), (b!"Amount", motesOf n)]) = [] := by
      unfold opExtra
      cases d.expert
      · simp
      · simp [hcount]; omega
    rw [hex, List.append_nil] at key
    exact key
  · intro a ha
    rw [hmem] at ha
    rcases n4 with rfl | ⟨b, rfl, n4⟩ <;> simp at ha
    · rcases ha with rfl | rfl | rfl <;> simp [*]
    · rcases ha with rfl | rfl | rfl | rfl <;> simp [*]
  · have s1 : ArgLine.Shows pl.blake as ⟨b!"Target", b!"target", false⟩ (b!"Target", ttext) := .value rfl f2 htt
    have s2 : ArgLine.Shows pl.blake as ⟨b!"Amount", b!"amount", true⟩ (b!"Amount", motesOf n) :=
      .motes rfl f1 hamount.1 (by rw [hamount.1, hamount.2]; exact .u512 k n hk hkn)
    have s3 : ArgLine.Shows pl.blake as ⟨b!"ID", b!"id", false⟩ (b!"ID", itext) := .value rfl f3 hit
    unfold opLines
    cases d.expert with
    | false => simp only [Bool.false_eq_true, false_and, if_false, List.nil_append, List.append_nil]; exact .cons s1 (.cons s2 .nil)
    | true =>
      rcases n4 with rfl | ⟨a, rfl, n4⟩
      · rw [if_neg (by simp [hsome])]
        exact .cons s1 (.cons s2 (.cons s3 .nil))
      · rw [if_pos (by simp [hsome])]
        have f4 := hfind a ((hmem _).2 (by simp))
        rw [n4] at f4
        exact .cons (.value rfl f4 (hst a (by simp))) (.cons s1 (.cons s2 (.cons s3 .nil)))

/-! A concrete transfer meeting the hypotheses, and what is shown for it. -/

def sampleNamed : List Arg := [⟨b!"amount", bigNum 4 2500000000, .u512⟩, ⟨b!"target", List.replicate 32 0x11, .byteArray 32⟩,
    ⟨b!"id", 1 :: le 8 7, .option .u64⟩]

theorem sampleTransfer_ok : sampleTransfer.Ok where
  initiator := rfl
  timestamp := by decide
  ttl := by decide
  pricing := ⟨by decide, by decide⟩
  args := by
    show ∀ a ∈ sampleNamed, a.Ok
    intro a ha
    simp only [sampleNamed, List.mem_cons, List.not_mem_nil, or_false] at ha
    rcases ha with rfl | rfl | rfl <;> exact ⟨by decide, by decide, by decide⟩
  target := trivial
  entry := ⟨by decide, by decide⟩

theorem sampleApproval_ok : ∀ x ∈ [sampleApproval], ApprovalOk x := by
  intro x hx
  simp only [List.mem_cons, List.not_mem_nil, or_false] at hx
  subst hx
  exact ⟨List.replicate 33 0xab, List.replicate 64 0x5a, 2, .inr ⟨rfl, rfl⟩, .inr rfl, rfl⟩

/-- All hypotheses together can be met: uploaded in two chunks, in normal mode. -/
example : ∃ d', run samplePl (Dev.init samplePl) (upload 2 (samplePath 0)
      [(1 :: sampleTransfer.tx Blake.H [sampleApproval]).take 200] ((1 :: sampleTransfer.tx Blake.H [sampleApproval]).drop 200)) =
      (d', [.reply [] 0x9000, .reply [] 0x9000, .pending]) ∧
    Displays samplePl d' [(b!"Txn hash", checksumHex Blake.H (Blake.H sampleTransfer.encode)), (b!"Type", b!"Transfer"),
      (b!"Chain ID", b!"casper"), (b!"Account", checksumHex Blake.H (2 :: List.replicate 33 0xab)),
      (b!"Target", checksumHex Blake.H (List.replicate 32 0x11)), (b!"Amount", motesOf 2500000000)] := by
  obtain ⟨d', ttl, -, h1, h2, -⟩ := C45_transfer samplePl (by decide) (Dev.init samplePl) (.init _) (samplePath 0) rfl (by decide)
    sampleTransfer sampleNamed [sampleApproval] sampleTransfer_ok rfl rfl rfl
    ⟨b!"amount", bigNum 4 2500000000, .u512⟩ ⟨b!"target", List.replicate 32 0x11, .byteArray 32⟩
    ⟨b!"id", 1 :: le 8 7, .option .u64⟩ [] (List.Perm.refl _) ⟨rfl, rfl, rfl, .inl rfl⟩ 4 2500000000 (by decide) (by decide)
    ⟨rfl, rfl⟩ _ _ (.byteArray (List.replicate 32 0x11) (by decide) (by decide)) (.someU64 7 (by decide)) [] (by simp)
    (by decide) (by decide) (by decide) sampleApproval_ok [(1 :: sampleTransfer.tx Blake.H [sampleApproval]).take 200]
    ((1 :: sampleTransfer.tx Blake.H [sampleApproval]).drop 200)
    (by rw [List.flatten_cons, List.flatten_nil, List.append_nil, List.take_append_drop]; rfl) (by decide +kernel) [] (by intro h; cases h)
  exact ⟨d', h1, h2⟩

end Casper
