import Verif.Props.ContentV1
import Verif.Props.RenderV1
import Verif.Props.Contracts

/-!
# Names with zero bytes

The app compares names up to the first zero byte, the network compares all of them.
-/

namespace Casper

open M

/-- A native transfer with two amounts, the first name ending in a zero byte, and two targets likewise. -/
def sampleShadowed : TxPayload := { sampleTransfer with
  args := .named [⟨b!"amount" ++ [0], bigNum 1 5, .u512⟩, ⟨b!"target" ++ [0], List.replicate 32 0x11, .byteArray 32⟩,
    ⟨b!"amount", bigNum 8 100000000000000000, .u512⟩, ⟨b!"target", List.replicate 32 0x66, .byteArray 32⟩, ⟨b!"id", 1 :: le 8 7, .option .u64⟩] }

/-- A native transfer all of whose names end in a zero byte: for the network it has neither amount nor target nor id. -/
def sampleMisnamed : TxPayload := { sampleTransfer with
  args := .named (sampleNamed.map fun a => { a with name := a.name ++ [0] }) }

/-- **C88, what is true of it.** In the review of an accepted native operation, without zero bytes in names, line `i` of the operation shows the first
argument of the name this line is about, as `ArgLine.Shows` says, whatever the other arguments, their order and number are, if every line can be shown.
Missing: as in `C83_operation_partial`. -/
theorem C88_operation_partial (pl : Platform) (hcap : pl.cap ≤ 16384) (d d' : Dev) (hd : d.Ok pl) (rx : Bytes)
    (pin : Bool) (hins : rx.getD 1 0 = 2) (xs : Bytes) (hx : d.data ++ rx.drop 5 = 1 :: xs) (h : step pl d (.apdu rx pin) = (d', .pending))
    (c : Content) (pos n : Nat) (payload : Bytes) (hc : Says pl.blake c pos n payload xs) (t : Nat) (as : List Arg)
    (he : c.entry = .op t) (hkn : t ∈ [2, 3, 4, 5, 6, 7, 8, 9, 12]) (htg : c.target = .native) (ha : c.args = .named as) (hok : ∀ a ∈ as, a.Ok)
    (hn : noNul as) (hpos : pos < 256) (hfew : as.length ≤ 119) (hslots : t = 3 → as.length ≤ 5 ∨ (argNamed as b!"reserved_slots").isSome)
    (hpr : d.expert = true → c.pricing.Small) (hall : ∀ l ∈ opLines d.expert as t, ∃ kv, ArgLine.Shows pl.blake as l kv)
    (i : Nat) (l : ArgLine) (hi : (opLines d.expert as t)[i]? = some l) :
    ∃ kv, ArgLine.Shows pl.blake as l kv ∧ ∀ o, ∃ o', reviewItem pl d' .tx ((if d.expert then 8 else 4) + i) o = .ok kv o' := by
  have mk : ∀ ls : List ArgLine, (∀ l ∈ ls, ∃ kv, ArgLine.Shows pl.blake as l kv) → ∃ lines, List.Forall₂ (ArgLine.Shows pl.blake as) ls lines := by
    intro ls
    induction ls with
    | nil => exact fun _ => ⟨[], .nil⟩
    | cons x xs ih =>
      intro h
      obtain ⟨kv, hk⟩ := h x (by simp)
      obtain ⟨m, hm⟩ := ih fun y hy => h y (by simp [hy])
      exact ⟨kv :: m, .cons hk hm⟩
  have nth : ∀ {ls : List ArgLine} {lines : List (Bytes × Bytes)}, List.Forall₂ (ArgLine.Shows pl.blake as) ls lines → ∀ {i : Nat} {l : ArgLine}, ls[i]? = some l →
      ∃ kv, lines[i]? = some kv ∧ ArgLine.Shows pl.blake as l kv := by
    intro ls lines hl
    induction hl with
    | nil => intro i l h; simp at h
    | cons h1 _ ih =>
      intro i l h
      cases i with
      | zero => simp at h; subst h; exact ⟨_, rfl, h1⟩
      | succ i => exact ih (by simpa using h)
  obtain ⟨lines, hl⟩ := mk _ hall
  obtain ⟨kv, h1, h2⟩ := nth hl hi
  exact ⟨kv, h2, C44_accepted_partial pl hcap d d' hd rx pin hins xs hx h c pos n payload hc t as he hkn htg ha hok hn hpos hfew hslots hpr lines hl i kv h1⟩

/-- The hypotheses of `C88_operation_partial` on the arguments are met by the sample transfer with a further argument in front. -/
example : ∀ l ∈ opLines false (⟨b!"memo", pfx b!"x", .string⟩ :: sampleNamed) 2, ∃ kv, ArgLine.Shows Blake.H (⟨b!"memo", pfx b!"x", .string⟩ :: sampleNamed) l kv := by
  intro l hl
  have h : opLines false (⟨b!"memo", pfx b!"x", .string⟩ :: sampleNamed) 2 = [⟨b!"Target", b!"target", false⟩, ⟨b!"Amount", b!"amount", true⟩] := by decide
  rw [h] at hl
  simp only [List.mem_cons, List.not_mem_nil, or_false] at hl
  rcases hl with rfl | rfl
  · exact ⟨_, .value rfl rfl (.byteArray (List.replicate 32 0x11) (by decide) (by decide))⟩
  · exact ⟨_, .motes rfl rfl rfl (.u512 4 2500000000 (by decide) (by decide))⟩

/-- **C88 fails** for names with zero bytes: the arguments "amount" and "target" are 10^17 and 6666…, the review says 5 motes to 1111…. -/
theorem C88_name_false :
    repliesToV1 (sampleShadowed.tx Blake.H []) 2 = [.reply [] 0x9000, .reply [] 0x9000, .reply [] 0x9000, .pending] ∧
    (∃ as, sampleShadowed.args = .named as ∧ argNamed as b!"amount" = some ⟨b!"amount", bigNum 8 100000000000000000, .u512⟩ ∧
      argNamed as b!"target" = some ⟨b!"target", List.replicate 32 0x66, .byteArray 32⟩) ∧
    (∃ o, reviewItem samplePl (run samplePl (Dev.init samplePl) (sampleUpload (1 :: sampleShadowed.tx Blake.H []) 2)).1 .tx 4 0 =
      .ok (b!"Target", checksumHex Blake.H (List.replicate 32 0x11)) o) ∧
    ∃ o, reviewItem samplePl (run samplePl (Dev.init samplePl) (sampleUpload (1 :: sampleShadowed.tx Blake.H []) 2)).1 .tx 5 0 =
      .ok (b!"Amount", b!"5 motes") o :=
  ⟨by decide +kernel, ⟨_, rfl, by decide +kernel, by decide +kernel⟩, Res.val_ok.1 (by decide +kernel), Res.val_ok.1 (by decide +kernel)⟩

/-- **C46, required arguments: false** also where the argument list starts before offset 256: names need to agree up to a zero byte only. -/
theorem C46_name_false :
    repliesToV1 (sampleMisnamed.tx Blake.H []) 2 = [.reply [] 0x9000, .reply [] 0x9000, .reply [] 0x9000, .pending] ∧ sampleMisnamed.argsPos < 256 ∧
    ∃ as, sampleMisnamed.args = .named as ∧ argNamed as b!"amount" = none ∧ argNamed as b!"target" = none ∧ argNamed as b!"id" = none :=
  ⟨by decide +kernel, by decide +kernel, _, rfl, by decide +kernel, by decide +kernel, by decide +kernel⟩

/-- A Deploy that calls "deposit" of the contract "vault", with further bytes behind either name. -/
def sampleVault (contract entry : Bytes) : DeploySpec := { sampleDeploy with
  session := .byName (b!"vault" ++ contract) (b!"deposit" ++ entry) [⟨b!"amount", bigNum 5 500000000000, .u512⟩] }

/-- **C59 fails** for names with zero bytes, in expert mode too: what stands behind the zero byte of the name of the contract or of the entry point is
not shown, so that calls of different contracts look the same. -/
theorem C59_zero_false : ∀ z w : Bytes, (z = [] ∧ w = []) ∨ (z = [0, 50] ∧ w = [0, 51, 52]) →
    (run samplePl { Dev.init samplePl with expert := true } (sampleUpload (0 :: (sampleVault z w).tx Blake.H []))).2.getLast? = some .pending ∧
    (∃ o, reviewItem samplePl (run samplePl { Dev.init samplePl with expert := true } (sampleUpload (0 :: (sampleVault z w).tx Blake.H []))).1 .tx 10 0 =
      .ok (b!"Name", b!"vault") o) ∧
    ∃ o, reviewItem samplePl (run samplePl { Dev.init samplePl with expert := true } (sampleUpload (0 :: (sampleVault z w).tx Blake.H []))).1 .tx 11 0 =
      .ok (b!"Entry-point", b!"deposit") o := by
  rintro z w (⟨rfl, rfl⟩ | ⟨rfl, rfl⟩)
  all_goals exact ⟨by decide +kernel, Res.val_ok.1 (by decide +kernel), Res.val_ok.1 (by decide +kernel)⟩

end Casper
