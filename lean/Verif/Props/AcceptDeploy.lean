import Verif.Props.Transfers
import Verif.Props.DeployCounts
import Verif.Props.Headers
import Verif.Props.Payment
import Verif.Lib.Unique
import Verif.Lib.CodeSession
import Verif.Lib.ModeDeploy
/-
Which Deploys are accepted, and what is shown for all of them (C85).
-/
namespace Casper
open M

/-! ### Specification -/

/-- What the app shows for a session: the name of the operation and the lines, for native transfers, delegations and other calls of stored contracts.  (Sessions
that run code given in the Deploy are treated in C75.) -/
inductive ItemShown (H : Bytes → Bytes) (expert : Bool) : ExecItem → Bytes → List (Bytes × Bytes) → Prop
  /-- A native transfer of `n` motes, in its usual form. -/
  | transfer (as : List Arg) (amount target id : Arg) (source : List Arg) (k n : Nat) (ttext itext stext : Bytes)
      (ok : ∀ a ∈ as, a.Ok) (perm : as.Perm ([amount, target, id] ++ source))
      (names : amount.name = b!"amount" ∧ target.name = b!"target" ∧ id.name = b!"id" ∧
        (source = [] ∨ ∃ a, source = [a] ∧ a.name = b!"source" ∧ a.ty.isPlace))
      (hk : k ≤ 64) (hn : n < 256 ^ k) (hamount : amount.ty = .u512 ∧ amount.value = UInt8.ofNat k :: le k n)
      (htarget : target.ty.isPlace ∧ Shown H target.ty target.value ttext)
      (hid : (id.ty = .u64 ∨ id.ty = .option .u64) ∧ Shown H id.ty id.value itext)
      (hsource : ∀ a ∈ source, Shown H a.ty a.value stext) :
      ItemShown H expert (.transfer as) b!"Token transfer"
        (if expert then source.map (fun _ => (b!"From", stext)) ++ [(b!"Target", ttext), (b!"Amount", motesOf n), (b!"ID", itext)]
          else [(b!"Target", ttext), (b!"Amount", motesOf n)])
  /-- A native transfer that has not just the usual arguments: see C13. -/
  | other (a : Arg) (as : List Arg) (ok : ∀ b ∈ a :: as, b.Ok) (nul : ∀ b ∈ a :: as, (0 : UInt8) ∉ b.name)
      (hamount : ∃ b, argNamed (a :: as) b!"amount" = some b ∧ b.ty = .u512)
      (hother : ¬ OnlyTransferArgs (a :: as)) (hsparse : ¬ SparseTransfer (a :: as)) :
      ItemShown H expert (.transfer (a :: as)) b!"Token transfer"
        [(b!"Args hash", b!"native-transfer-" ++ casedHex (H (le 4 (a :: as).length ++ a.encode)) (H (le 4 (a :: as).length ++ a.encode)))]
  /-- A delegation or undelegation; its operands come first. -/
  | delegation (byHash : Bool) (addr : Bytes) (version : Option (Option Nat)) (un : Bool) (front more : List Arg)
      (haddr : if byHash then addr.length = 32 else addr.length ≤ 299 ∧ 0 ∉ addr) (hver : ∀ n, version = some (some n) → n < 2 ^ 32)
      (ok : ∀ a ∈ front ++ more, a.Ok) (nul : ∀ a ∈ front ++ more, (0 : UInt8) ∉ a.name)
      (delegator validator : PubKey) (hd : delegator.Ok) (hv : validator.Ok) (amount : Arg) (text : Bytes)
      (hname : amount.name = b!"amount") (hamount : amount.ty ≠ .u64 ∧ ShownMotes amount.ty amount.value text)
      (perm : front.Perm [⟨b!"delegator", delegator.encode, .publicKey⟩, ⟨b!"validator", validator.encode, .publicKey⟩, amount]) :
      ItemShown H expert (storedCall byHash addr version (if un then b!"undelegate" else b!"delegate") (front ++ more)) (if un then b!"Undelegate" else b!"Delegate")
        ((if expert then storedLines H true byHash addr version else []) ++
          [(b!"Delegator", delegator.address H), (b!"Validator", validator.address H), (b!"Amount", text)])
  /-- A redelegation; its operands come first. -/
  | redelegation (byHash : Bool) (addr : Bytes) (version : Option (Option Nat)) (front more : List Arg)
      (haddr : if byHash then addr.length = 32 else addr.length ≤ 299 ∧ 0 ∉ addr) (hver : ∀ n, version = some (some n) → n < 2 ^ 32)
      (ok : ∀ a ∈ front ++ more, a.Ok) (nul : ∀ a ∈ front ++ more, (0 : UInt8) ∉ a.name)
      (delegator validator new : PubKey) (hd : delegator.Ok) (hv : validator.Ok) (hw : new.Ok) (amount : Arg) (text : Bytes)
      (hname : amount.name = b!"amount") (hamount : amount.ty ≠ .u64 ∧ ShownMotes amount.ty amount.value text)
      (perm : front.Perm [⟨b!"delegator", delegator.encode, .publicKey⟩, ⟨b!"validator", validator.encode, .publicKey⟩,
        ⟨b!"new_validator", new.encode, .publicKey⟩, amount]) :
      ItemShown H expert (storedCall byHash addr version b!"redelegate" (front ++ more)) b!"Redelegate"
        ((if expert then storedLines H true byHash addr version else []) ++
          [(b!"Delegator", delegator.address H), (b!"Old", validator.address H), (b!"New", new.address H), (b!"Amount", text)])
  /-- Another call of a stored contract. -/
  | call (byHash : Bool) (addr : Bytes) (version : Option (Option Nat)) (entry : Bytes) (as : List Arg) (amount : List (Bytes × Bytes))
      (haddr : if byHash then addr.length = 32 else addr.length ≤ 299 ∧ 0 ∉ addr) (hver : ∀ n, version = some (some n) → n < 2 ^ 32)
      (hentry : entry.length ≤ 99) (hentry0 : 0 ∉ entry) (ok : ∀ a ∈ as, a.Ok) (nul : ∀ a ∈ as, (0 : UInt8) ∉ a.name)
      (hkey : ∀ name, name = b!"delegator" ∨ name = b!"validator" → ∀ a, argNamed as name = some a → a.ty = .publicKey)
      (hnew : entry = b!"redelegate" → ∃ a, argNamed as b!"new_validator" = some a ∧ a.ty = .publicKey)
      (hother : entry = b!"delegate" ∨ entry = b!"undelegate" ∨ entry = b!"redelegate" →
        argNamed as b!"amount" = none ∨ argNamed as b!"delegator" = none ∨ argNamed as b!"validator" = none)
      (hamount : argNamed as b!"amount" = none ∧ amount = [] ∨
        ∃ a text, argNamed as b!"amount" = some a ∧ a.ty ≠ .u64 ∧ ShownMotes a.ty a.value text ∧ amount = [(b!"Amount", text)]) :
      ItemShown H expert (storedCall byHash addr version entry as) b!"Contract execution"
        (storedLines H expert byHash addr version ++ (if expert then [(b!"Entry-point", entry)] else []) ++ (amount ++
          [(b!"Args hash", argsHashText H as)]))
  /-- A call with an operand of another type: see C14. -/
  | hidden (byHash : Bool) (addr : Bytes) (version : Option (Option Nat)) (entry : Bytes) (as : List Arg)
      (haddr : if byHash then addr.length = 32 else addr.length ≤ 299 ∧ 0 ∉ addr) (hver : ∀ n, version = some (some n) → n < 2 ^ 32)
      (hentry : entry.length ≤ 99) (hentry0 : 0 ∉ entry) (ok : ∀ a ∈ as, a.Ok) (nul : ∀ a ∈ as, (0 : UInt8) ∉ a.name)
      (hnew : entry = b!"redelegate" → ∃ a, argNamed as b!"new_validator" = some a ∧ a.ty = .publicKey)
      (hwrong : (∃ a, argNamed as b!"amount" = some a ∧ a.ty ≠ .u512 ∧ a.ty ≠ .u32) ∨ (∃ a, argNamed as b!"delegator" = some a ∧ a.ty ≠ .publicKey) ∨
        ∃ a, argNamed as b!"validator" = some a ∧ a.ty ≠ .publicKey) :
      ItemShown H expert (storedCall byHash addr version entry as)
        (if entry = b!"delegate" then b!"Delegate" else if entry = b!"undelegate" then b!"Undelegate"
          else if entry = b!"redelegate" then b!"Redelegate" else b!"Contract execution")
        (if expert then storedLines H true byHash addr version ++
          (if entry = b!"delegate" ∨ entry = b!"undelegate" ∨ entry = b!"redelegate" then [] else [(b!"Entry-point", entry)]) else [])

/-- The operands of an operation on stakes. -/
def operands (entry : Bytes) : List Bytes :=
  [b!"delegator", b!"validator", b!"amount"] ++ if entry = b!"redelegate" then [b!"new_validator"] else []

/-- What the app expects of the arguments of a call of a stored contract: redelegations have a new validator; and where amount, delegator and validator of an operation
on stakes are there and have their usual types, the operands are the first arguments. -/
structure CallFine (entry : Bytes) (as : List Arg) : Prop where
  new : entry = b!"redelegate" → ∃ a, argNamed as b!"new_validator" = some a ∧ a.ty = .publicKey
  first : entry = b!"delegate" ∨ entry = b!"undelegate" ∨ entry = b!"redelegate" →
    (∃ a, argNamed as b!"amount" = some a ∧ (a.ty = .u512 ∨ a.ty = .u32)) → (∃ a, argNamed as b!"delegator" = some a ∧ a.ty = .publicKey) →
    (∃ a, argNamed as b!"validator" = some a ∧ a.ty = .publicKey) →
    ∀ name ∈ operands entry, ∃ a ∈ as.take (operands entry).length, a.name = name

/-- Names without zero bytes, and numbers where numbers are due. -/
structure ExecItem.PaysPlainly (it : ExecItem) : Prop where
  fit : it.Fit
  names : ∀ a ∈ it.args, (0 : UInt8) ∉ a.name
  numbers : ∀ a ∈ it.args, a.ty = .u512 → ∃ k n, k ≤ 64 ∧ n < 256 ^ k ∧ a.value = UInt8.ofNat k :: le k n

/-- When a Deploy, followed by `rest`, can be presented (`fmt` writes the time in seconds since 1970): the chain name has at most 99 bytes; the payment runs
code with one argument, an amount of `fee` motes; in expert mode the time can be written, the time to live is less than 29 days, and a count of
approvals follows. -/
structure DeploySpec.Presentable (x : DeploySpec) (fmt : Nat → Option Bytes) (expert : Bool) (rest : Bytes) (fee : Nat) : Prop where
  chain : x.chain.length ≤ 99
  payment : ∃ code k, k ≤ 64 ∧ fee < 256 ^ k ∧ x.payment = .moduleBytes code [⟨b!"amount", UInt8.ofNat k :: le k fee, .u512⟩]
  time : expert = true → ∃ t, fmt (x.timestamp / 1000) = some t
  ttl : expert = true → x.ttl / 1000 < 29 * 86400
  approvals : expert = true → 4 ≤ rest.length

/-! ### Proofs -/

theorem storedCall_args (b : Bool) (x : Bytes) (v : Option (Option Nat)) (entry : Bytes) (as : List Arg) : (storedCall b x v entry as).args = as := by
  cases b <;> rcases v with _ | v <;> rfl

theorem storedCall_ok {b : Bool} {x : Bytes} {v : Option (Option Nat)} {entry : Bytes} {as : List Arg} (hx : b = true → x.length = 32)
    (hv : ∀ n, v = some (some n) → n < 2 ^ 32) (hok : ∀ a ∈ as, a.Ok) : (storedCall b x v entry as).Ok := by
  refine ⟨by rw [storedCall_args]; exact hok, ?_, ?_⟩
  · rintro h (⟨n, bs, hc⟩ | ⟨w, n, bs, hc⟩) <;> cases b <;> rcases v with _ | v <;> simp [storedCall] at hc
    · rw [← hc.1]; exact hx rfl
    · rw [← hc.1]; exact hx rfl
  · rintro w (⟨h, n, bs, hc⟩ | ⟨h, n, bs, hc⟩) <;> cases b <;> rcases v with _ | v <;> simp [storedCall] at hc
    · exact hv w (by rw [hc.2.1])
    · exact hv w (by rw [hc.2.1])

/-- The sessions in question are of the form the parser expects. -/
theorem ItemShown.ok {H : Bytes → Bytes} {expert : Bool} {it : ExecItem} {type : Bytes} {lines : List (Bytes × Bytes)}
    (h : ItemShown H expert it type lines) : it.Ok := by
  cases h with
  | transfer as amount target id source k n ttext itext stext ok perm names hk hn hamount htarget hid hsource =>
    exact ⟨ok, (by rintro h (⟨n, as, hc⟩ | ⟨v, n, as, hc⟩) <;> cases hc), (by rintro v (⟨h, n, as, hc⟩ | ⟨h, n, as, hc⟩) <;> cases hc)⟩
  | other a as ok nul hamount hother hsparse =>
    exact ⟨ok, (by rintro h (⟨n, as, hc⟩ | ⟨v, n, as, hc⟩) <;> cases hc), (by rintro v (⟨h, n, as, hc⟩ | ⟨h, n, as, hc⟩) <;> cases hc)⟩
  | delegation byHash addr version un front more haddr hver ok nul delegator validator hd hv amount text hname hamount perm =>
    exact storedCall_ok (fun hb => by rw [hb] at haddr; exact haddr) hver ok
  | redelegation byHash addr version front more haddr hver ok nul delegator validator new hd hv hw amount text hname hamount perm =>
    exact storedCall_ok (fun hb => by rw [hb] at haddr; exact haddr) hver ok
  | hidden byHash addr version entry as haddr hver hentry hentry0 ok nul hnew hwrong =>
    exact storedCall_ok (fun hb => by rw [hb] at haddr; exact haddr) hver ok
  | call byHash addr version entry as amount haddr hver hentry hentry0 ok nul hkey hnew hother hamount =>
    exact storedCall_ok (fun hb => by rw [hb] at haddr; exact haddr) hver ok

theorem ShownMotes.isMotes {t : CLType} {v text : Bytes} (h : ShownMotes t v text) (h64 : t ≠ .u64) : t.isMotes := by
  cases h with
  | u32 => exact .inr rfl
  | u64 => exact absurd rfl h64
  | u512 => exact .inl rfl

/-- They are read, and shown as said. -/
theorem ItemShown.session {e : Env} (hfits : Fits e) {off : Nat} {ses : ExecItem} {type : Bytes} {lines : List (Bytes × Bytes)}
    (h : ItemShown e.blake e.expert ses type lines) (hat : At e.buf off ses.encode) :
    ∃ epo it, SessionAt e off ses epo it lines ∧
      ∀ (x : DeploySpec) (code : Bytes) (k fee : Nat), typeLabel (x.parsed e.blake code k fee it) = type := by
  generalize hH : e.blake = H at h
  generalize hE : e.expert = expert at h
  cases h with
  | transfer as amount target id source k n ttext itext stext hok hperm hn hk hkn hamount htt hit hst =>
    subst hH hE
    obtain ⟨n1, n2, n3, n4⟩ := hn
    have hnd : (([amount, target, id] ++ source).map Arg.name).Nodup := by
      rcases n4 with rfl | ⟨a, rfl, n4, -⟩ <;> simp [*]
    have hnd' : (as.map Arg.name).Nodup := (hperm.map _).nodup_iff.2 hnd
    have hmem : ∀ a, a ∈ as ↔ a ∈ [amount, target, id] ++ source := fun a => hperm.mem_iff
    have f1 := argNamed_mem hnd' ((hmem amount).2 (by simp))
    have f2 := argNamed_mem hnd' ((hmem target).2 (by simp))
    have f3 := argNamed_mem hnd' ((hmem id).2 (by simp))
    rw [n1] at f1
    rw [n2] at f2
    rw [n3] at f3
    have hcount : as.length = 3 + source.length := by rw [hperm.length_eq]; simp; omega
    have hnul : noNul as := by
      intro a ha
      rw [hmem] at ha
      rcases n4 with rfl | ⟨b, rfl, n4, -⟩ <;> simp at ha
      · rcases ha with rfl | rfl | rfl <;> simp [*]
      · rcases ha with rfl | rfl | rfl | rfl <;> simp [*]
    have ht : TransferArgs as := by
      refine ⟨hok, hnul, ⟨_, f1, hamount.1⟩, ⟨_, f3, hit.1⟩, ⟨_, f2, htt.1⟩, ?_⟩
      rcases n4 with rfl | ⟨a, rfl, n4, n5⟩
      · refine .inl ⟨by simpa using hcount, argNamed_none fun a ha => ?_⟩
        rw [hmem] at ha
        simp at ha
        rcases ha with rfl | rfl | rfl <;> simp [*]
      · have f4 := argNamed_mem hnd' ((hmem a).2 (by simp))
        rw [n4] at f4
        exact .inr ⟨by simpa using hcount, a, f4, n5⟩
    refine ⟨0, transferView e.expert as, transfer_session (e := e) hfits ht ?_ hat, fun _ _ _ _ => rfl⟩
    have s1 : ArgLine.Shows e.blake as ⟨b!"Target", b!"target", false⟩ (b!"Target", ttext) := .value rfl f2 htt.2
    have s2 : ArgLine.Shows e.blake as ⟨b!"Amount", b!"amount", true⟩ (b!"Amount", motesOf n) :=
      .motes rfl f1 hamount.1 (by rw [hamount.1, hamount.2]; exact .u512 k n hk hkn)
    have s3 : ArgLine.Shows e.blake as ⟨b!"ID", b!"id", false⟩ (b!"ID", itext) := .value rfl f3 hit.2
    unfold opLines
    cases hx : e.expert with
    | false => simp only [Bool.false_eq_true, false_and, if_false, List.nil_append, List.append_nil]; exact .cons s1 (.cons s2 .nil)
    | true =>
      rcases ht.source with ⟨h3, h4⟩ | ⟨h3, a, h4, -⟩
      · have : source = [] := by rw [hcount] at h3; exact List.length_eq_zero_iff.1 (by omega)
        subst this
        rw [if_neg (by simp [h4])]
        exact .cons s1 (.cons s2 (.cons s3 .nil))
      · rcases n4 with rfl | ⟨b, rfl, n4, -⟩
        · simp at hcount; omega
        · have f4 := argNamed_mem hnd' ((hmem b).2 (by simp))
          rw [n4] at f4
          rw [if_pos (by simp [f4])]
          exact .cons (.value rfl f4 (hst b (by simp))) (.cons s1 (.cons s2 (.cons s3 .nil)))
  | other a as ok nul hamount hother hsparse =>
    subst hH hE
    exact ⟨0, _, genericTransfer_session hfits ok nul hamount hother hsparse hat, fun _ _ _ _ => rfl⟩
  | delegation byHash addr version un front more haddr hver hok hnul delegator validator hdk hvk amount text hname hamount hperm =>
    subst hH hE
    have hnd : (front.map Arg.name).Nodup := (hperm.map _).nodup_iff.2 (by
      simp only [List.map_cons, List.map_nil, hname]; decide)
    have hmem : ∀ a, a ∈ front ↔ _ := fun a => hperm.mem_iff
    have f1 := argNamed_mem hnd ((hmem ⟨b!"delegator", delegator.encode, .publicKey⟩).2 (by simp))
    have f2 := argNamed_mem hnd ((hmem ⟨b!"validator", validator.encode, .publicKey⟩).2 (by simp))
    have f3 := argNamed_mem hnd ((hmem amount).2 (by simp))
    rw [hname] at f3
    have hso : StoredOk byHash addr version (if un then b!"undelegate" else b!"delegate") (front ++ more) :=
      ⟨fun hb => by rw [hb] at haddr; exact haddr, hver, by cases un <;> decide, by cases un <;> decide, hok, hnul⟩
    have hnr : decide ((if un then b!"undelegate" else b!"delegate") = b!"redelegate") = false := by cases un <;> decide
    have hda : DelegateNames (decide ((if un then b!"undelegate" else b!"delegate") = b!"redelegate")) (front ++ more) := by
      rw [hnr]
      exact ⟨⟨_, argNamed_front f3, hamount.2.isMotes hamount.1⟩, ⟨_, argNamed_front f1, rfl⟩, ⟨_, argNamed_front f2, rfl⟩, by simp⟩
    have s1 : ArgLine.Renders e.blake front ⟨b!"Delegator", b!"delegator", false⟩ (b!"Delegator", delegator.address e.blake) := .value rfl f1 (PubKey.shown _ hdk)
    have s2 : ArgLine.Renders e.blake front ⟨b!"Validator", b!"validator", false⟩ (b!"Validator", validator.address e.blake) := .value rfl f2 (PubKey.shown _ hvk)
    have s3 : ArgLine.Renders e.blake front ⟨b!"Amount", b!"amount", true⟩ (b!"Amount", text) := .motes rfl f3 hamount.2
    refine ⟨_, _, delegation_session (e := e) (op := if un then 6 else 5) hfits hso hat
      (by cases un <;> simp) hda (fun _ hb => by rw [hb] at haddr; exact haddr) rfl (by rw [hperm.length_eq]; cases un <;> rfl)
      (by cases un <;> exact .cons s1 (.cons s2 (.cons s3 .nil))), fun _ _ _ _ => ?_⟩
    cases un <;> cases byHash <;> cases version <;> rfl
  | redelegation byHash addr version front more haddr hver hok hnul delegator validator new hdk hvk hnk amount text hname hamount hperm =>
    subst hH hE
    have hnd : (front.map Arg.name).Nodup := (hperm.map _).nodup_iff.2 (by
      simp only [List.map_cons, List.map_nil, hname]; decide)
    have hmem : ∀ a, a ∈ front ↔ _ := fun a => hperm.mem_iff
    have f1 := argNamed_mem hnd ((hmem ⟨b!"delegator", delegator.encode, .publicKey⟩).2 (by simp))
    have f2 := argNamed_mem hnd ((hmem ⟨b!"validator", validator.encode, .publicKey⟩).2 (by simp))
    have f3 := argNamed_mem hnd ((hmem amount).2 (by simp))
    have f4 := argNamed_mem hnd ((hmem ⟨b!"new_validator", new.encode, .publicKey⟩).2 (by simp))
    rw [hname] at f3
    have hso : StoredOk byHash addr version b!"redelegate" (front ++ more) :=
      ⟨fun hb => by rw [hb] at haddr; exact haddr, hver, by decide, by decide, hok, hnul⟩
    have hda : DelegateNames (decide (b!"redelegate" = b!"redelegate")) (front ++ more) :=
      ⟨⟨_, argNamed_front f3, hamount.2.isMotes hamount.1⟩, ⟨_, argNamed_front f1, rfl⟩, ⟨_, argNamed_front f2, rfl⟩, fun _ => ⟨_, argNamed_front f4, rfl⟩⟩
    have s1 : ArgLine.Renders e.blake front ⟨b!"Delegator", b!"delegator", false⟩ (b!"Delegator", delegator.address e.blake) := .value rfl f1 (PubKey.shown _ hdk)
    have s2 : ArgLine.Renders e.blake front ⟨b!"Old", b!"validator", false⟩ (b!"Old", validator.address e.blake) := .value rfl f2 (PubKey.shown _ hvk)
    have s4 : ArgLine.Renders e.blake front ⟨b!"New", b!"new_validator", false⟩ (b!"New", new.address e.blake) := .value rfl f4 (PubKey.shown _ hnk)
    have s3 : ArgLine.Renders e.blake front ⟨b!"Amount", b!"amount", true⟩ (b!"Amount", text) := .motes rfl f3 hamount.2
    refine ⟨_, _, delegation_session (e := e) (op := 7) hfits hso hat
      (by simp) hda (fun _ hb => by rw [hb] at haddr; exact haddr) rfl (by rw [hperm.length_eq]; rfl)
      (.cons s1 (.cons s2 (.cons s4 (.cons s3 .nil)))), fun _ _ _ _ => ?_⟩
    cases byHash <;> cases version <;> rfl
  | call byHash addr version entry as amount haddr hver hentry hentry0 hok hnul hkey hnew hother hamount =>
    subst hH hE
    have hso : StoredOk byHash addr version entry as :=
      ⟨fun hb => by rw [hb] at haddr; exact haddr, hver, by omega, hentry0, hok, hnul⟩
    have hoa : OtherArgs entry as := by
      refine ⟨fun a ha => ?_, hkey _ (.inl rfl), hkey _ (.inr rfl), hnew, hother⟩
      rcases hamount with ⟨h, -⟩ | ⟨b, text, h, h2, h3, -⟩
      · rw [h] at ha; cases ha
      · rw [h] at ha; cases ha; exact h3.isMotes h2
    refine ⟨_, _, other_session (e := e) hfits hso hat hoa
      (fun hb => by rw [hb] at haddr; exact haddr) (fun _ => hentry) (amount := amount) (by
        rcases hamount with ⟨h, rfl⟩ | ⟨b, text, h, h2, h3, rfl⟩
        · rw [h]; exact .nil
        · rw [h]; exact .cons (.motes rfl h h3) .nil), fun _ _ _ _ => ?_⟩
    unfold typeLabel DeploySpec.parsed otherView storedStart
    have : (storedCall byHash addr version entry []).tag ≠ 5 := by rw [storedTag]; cases byHash <;> cases version <;> simp
    simp [this]
  | hidden byHash addr version entry as haddr hver hentry hentry0 hok hnul hnew hwrong =>
    subst hH hE
    have hso : StoredOk byHash addr version entry as :=
      ⟨fun hb => by rw [hb] at haddr; exact haddr, hver, by omega, hentry0, hok, hnul⟩
    have hw : WrongArgs as := by
      rcases hwrong with ⟨a, ha, ht1, ht2⟩ | hw
      · exact .inl ⟨a, ha, by rintro (h | h); exacts [ht1 h, ht2 h]⟩
      · exact .inr hw
    have key := hidden_session (e := e) hfits hso hat hw hnew (fun _ hb => by rw [hb] at haddr; exact haddr) (fun _ => hentry)
    have hno : (if namedOp entry = true then [] else [(b!"Entry-point", entry)]) =
        if entry = b!"delegate" ∨ entry = b!"undelegate" ∨ entry = b!"redelegate" then [] else [(b!"Entry-point", entry)] := by
      unfold namedOp
      simp only [decide_eq_true_eq]
    rw [hno] at key
    refine ⟨_, _, key, fun _ _ _ _ => ?_⟩
    have htag : (storedCall byHash addr version entry []).tag ≠ 5 := by rw [storedTag]; cases byHash <;> cases version <;> simp
    unfold typeLabel DeploySpec.parsed hiddenView storedStart entryKind
    dsimp only
    rw [cstr_eq hentry0, if_neg (by simp [htag])]
    by_cases h1 : entry = b!"delegate"
    · simp [h1, namedOp]
    by_cases h2 : entry = b!"undelegate"
    · simp [h2, namedOp]
    by_cases h3 : entry = b!"redelegate"
    · simp [h3, namedOp]
    simp [h1, h2, h3]

/-- An upload of a Deploy opens a review exactly if the data are accepted. -/
theorem upload_deploy_iff (pl : Platform) (hcap : pl.cap < 65536) (d : Dev) (hd : d.Ok pl) (path : Bytes) (hl : path.length = 20)
    (hp : casperPath path) (cs : List Bytes) (last xs : Bytes) (hx : cs.flatten ++ last = 0 :: xs)
    (hfit : (cs.flatten ++ last).length ≤ pl.cap) :
    (run pl d (upload 2 path cs last)).2 = List.replicate (cs.length + 1) (.reply [] 0x9000) ++ [.pending] ↔
      ∃ s, DeployAccepted (mkEnv pl d.expert xs) s := by
  refine ⟨fun h => ?_, fun ⟨s, ha⟩ => ?_⟩
  · obtain ⟨d0, e0, h1, h2, h3, h4, -, -, -, h5⟩ := upload_reaches pl d hd 2 (.inl rfl) path hl hp cs last hfit
    rw [h5] at h
    have h : (outOf e0 (finish pl 2 d0)).2 = .pending := by
      have := List.append_cancel_left h
      simpa using this
    have key : ∀ d', txParse pl { d0 with txInit := false } = .ok () d' → ∃ s, DeployAccepted (mkEnv pl d.expert xs) s := by
      intro d' hk
      rcases (txParse_ok (d := { d0 with txInit := false }) hcap h1).1 hk with ⟨ys, s, b1, b2, -⟩ | ⟨ys, s, b1, b2, -⟩
      · have : (0 : UInt8) :: xs = 0 :: ys := by rw [← hx, ← h2]; exact b1
        simp only [List.cons.injEq, true_and] at this
        subst this
        rw [show ({ d0 with txInit := false } : Dev).expert = d.expert from h3] at b2
        exact ⟨s, b2⟩
      · have : (0 : UInt8) :: xs = 1 :: ys := by rw [← hx, ← h2]; exact b1
        simp at this
    unfold finish at h
    rw [if_pos rfl] at h
    unfold orExplain at h
    simp only [bind_run, modify_run, Res.bind_ok, attempt_run] at h
    cases hk : txParse pl { d0 with txInit := false } with
    | ok u d' => exact key d' hk
    | err x d' =>
      rw [hk] at h
      exact absurd h (by simp [outOf, fail, bind_run])
    | fault f =>
      rw [hk] at h
      exact absurd h (by simp [outOf])
  · obtain ⟨d0, -, -, -, -, h⟩ := upload_deploy pl hcap d hd path hl hp cs last xs hx hfit ha
    rw [h]

/-- Accepted Deploys can be presented. -/
theorem DeployAccepted.presentable {e : Env} (hs : Small e) {s : DS} (h : DeployAccepted e s) {x : DeploySpec} (hx : x.Ok) (h0 : 0 ∉ x.chain)
    (hp : x.payment.PaysPlainly) (hses : x.session.Ok) {rest : Bytes} (hb : e.buf = x.signedPart e.blake ++ rest) :
    ∃ fee, x.Presentable e.fmtTime e.expert rest fee := by
  have hf := hs.to_fits
  have hs' := hs
  unfold Small at hs'
  have hl := signed_layout hb
  have ho := hx.header e.blake
  obtain ⟨p, q, kk, hq, hle, -⟩ := h.small hf
  have hv := hq.header.view hf ho hl.header
  obtain ⟨-, w2, w3⟩ := header_small ho hf hl.header
  -- the payment
  obtain ⟨code, name, v, k1, k2, k3, k4, -⟩ := h.payment hs hq hle
  rw [hv, w3] at k1
  have hpay : x.payment = .moduleBytes code [⟨name, v, .u512⟩] := by
    obtain ⟨a1, b1, c1, c2⟩ := hl.payment
    obtain ⟨a2, b2, c3, c4⟩ := k1
    rw [c1, List.append_assoc, List.append_assoc] at c3
    have e1 := (List.append_inj c3 (by omega)).2
    have l1 := hl.payment.le
    have l2 := (show At e.buf _ _ from ⟨a2, b2, by rw [c1, List.append_assoc, c3, List.append_assoc], c4⟩ : At e.buf ((x.header e.blake).encode.length + 32) (ExecItem.moduleBytes code [⟨name, v, .u512⟩]).encode).le
    refine (ExecItem.encode_cut (by omega) (by omega) hp.fit ⟨?_, ?_, ?_⟩ e1).1
    · simp [ExecItem.Sized]
    · intro v hv; cases hv
    · intro a ha
      simp only [ExecItem.args, List.mem_singleton] at ha
      subst ha
      trivial
  have hn0 := hp.names
  have hnum := hp.numbers
  rw [hpay] at hn0 hnum
  simp only [ExecItem.args, List.mem_singleton, forall_eq] at hn0 hnum
  rw [cstr_eq hn0] at k3
  subst k3
  obtain ⟨k, fee, hk, hfee, rfl⟩ := hnum trivial
  -- the header
  obtain ⟨g1, -, g3⟩ := h.headerLines hs ho hl.header
  have hn := (hq.count hf).1
  have hpok : x.payment.Ok := by
    rw [hpay]
    refine ⟨fun a ha => ?_, (by rintro h (⟨n, as, hc⟩ | ⟨v, n, as, hc⟩) <;> cases hc), (by rintro v (⟨h, n, as, hc⟩ | ⟨h, n, as, hc⟩) <;> cases hc)⟩
    simp only [ExecItem.args, List.mem_singleton] at ha
    subst ha
    exact ⟨show 6 ≤ 300 by decide, rfl, rfl⟩
  refine ⟨fee, ?_, ⟨code, k, hk, hfee, hpay⟩, fun he => ?_, fun he => ?_, fun he => ?_⟩
  · have ly := (header_layout ho hl.header).chain
    have hcl : x.chain.length ≤ 100 := by
      obtain ⟨_, _, _, -, -, hcl⟩ := h.small hf
      rw [hv] at hcl
      exact hcl
    have ly3 := ly
    rw [pfx, At.append, le_length] at ly3
    have ly4 : At e.buf (pkLen (x.header e.blake).view + 56 + (4 + (x.header e.blake).deps.length * 32) + 4) x.chain := ly3.2
    obtain ⟨kv, c, hkv⟩ := h.items 2 (by omega)
    have key : ∀ t, getItemDeploy e s.epo s.dep 2 t = Res.bind (showArray 100 x.chain (pkLen (x.header e.blake).view + 56 + (4 + (x.header e.blake).deps.length * 32)))
        (fun v => (pure (b!"Chain ID", v) : P (Bytes × Bytes))) := by
      intro t
      unfold getItemDeploy
      rw [if_neg (by omega), if_neg (by decide), if_neg (by decide), if_pos rfl, hv]
      refine seqThen (indexPart_at ly w2 _) (seqThen (get_run _) ?_)
      unfold displayString
      rw [show (x.header e.blake).view.chainLen = x.chain.length from rfl, if_neg (by omega), bind_run, bind_run, slice_at ly4 rfl]
      rfl
    rw [key] at hkv
    unfold showArray at hkv
    split at hkv
    · rename_i hc
      rcases hc with hc | hc
      · omega
      · exact absurd hc (by simpa using h0)
    · cases hkv
  · obtain ⟨time, ttl, r1, -⟩ := g3 he
    exact ⟨time, r1⟩
  · have ly := header_layout ho hl.header
    have hn8 := hq.countExpert hf he
    have h5 : ∀ t, getItemDeploy e s.epo s.dep 5 t = Res.bind (ttlText (x.ttl / 1000) 100 (partIndex (x.header e.blake).view .ttl + 8))
        (fun t => (pure (b!"Ttl", t) : P (Bytes × Bytes))) := by
      intro t
      unfold getItemDeploy
      rw [if_neg (by omega), if_neg (by decide), if_neg (by decide), if_neg (by decide), if_neg (by decide), if_pos ⟨he, by decide⟩]
      unfold headerLine
      rw [if_neg (by decide), if_pos rfl, hv]
      exact seqThen (indexPart_at ly.ttl rfl _) (seqThen (readLE_at ly.ttl ho.ttl) rfl)
    obtain ⟨kw, c', hkw⟩ := h.items 5 (by omega)
    rw [h5] at hkw
    obtain ⟨-, c2⟩ := C19_ttl (x.ttl / 1000) 100 (by decide) (partIndex (x.header e.blake).view .ttl + 8)
    by_contra hge
    rw [c2 (by omega)] at hkw
    cases hkw
  · exact (h.approvals hs he ho (e.blake.len _) hpok hses hb).1

/-- **C85.** Data of an upload are a well-formed Deploy and anything behind it; its session is a native transfer, a delegation or another call of a stored contract
(`ItemShown`), names contain no zero bytes, numbers are written as numbers.  Then a review opens exactly if the Deploy can be presented
(`DeploySpec.Presentable`: a chain name of at most 99 bytes, the standard payment; in expert mode a time that can be written, a time to live under 29 days, and
at least four bytes behind the Deploy).  And whenever it opens, in both modes, after whatever was done before and in any chunking, it consists of exactly the lines
that belong to this Deploy, the number of approvals being the one that follows; approving signs the hash of its header.
(Missing: sessions that run code given in the Deploy, names with zero bytes, values that do not belong to their types; see C75, C58, C63.) -/
theorem C85_deploy_partial (pl : Platform) (hcap : pl.cap ≤ 16384) (d : Dev) (hd : d.Ok pl) (path : Bytes)
    (hlen : path.length = 20) (hpath : casperPath path) (x : DeploySpec) (hx : x.Ok) (h0 : 0 ∉ x.chain) (hpay : x.payment.PaysPlainly)
    (type : Bytes) (lines : List (Bytes × Bytes)) (hses : ItemShown pl.blake d.expert x.session type lines) (rest : Bytes)
    (cs : List Bytes) (last : Bytes) (hcs : cs.flatten ++ last = 0 :: (x.signedPart pl.blake ++ rest)) (hfit : (cs.flatten ++ last).length ≤ pl.cap) :
    ((run pl d (upload 2 path cs last)).2 = List.replicate (cs.length + 1) (.reply [] 0x9000) ++ [.pending] ↔
      ∃ fee, x.Presentable pl.fmtTime d.expert rest fee) ∧
    ∀ fee, x.Presentable pl.fmtTime d.expert rest fee → ∃ d' time ttl,
      (d.expert = true → pl.fmtTime (x.timestamp / 1000) = some time ∧ duration ttl = x.ttl / 1000) ∧
      run pl d (upload 2 path cs last) = (d', List.replicate (cs.length + 1) (.reply [] 0x9000) ++ [.pending]) ∧
      Displays pl d' (x.screens pl.blake d.expert (leVal (rest.take 4)) type time ttl (motesOf fee) lines) ∧
      (step pl d' .approve).2 = signatureReply pl path (pl.sha256 (pl.blake (x.header pl.blake).encode)) := by
  have hsm : Small (signedEnv pl d.expert x rest) := by
    rw [hcs] at hfit
    unfold Small; simp only [List.length_cons] at hfit; show (x.signedPart pl.blake ++ rest).length ≤ 16384; omega
  have hl := signed_layout (H := pl.blake) (d := x) (rest := rest) rfl
  obtain ⟨epo, it, hat, hty⟩ := ItemShown.session (e := signedEnv pl d.expert x rest) hsm.to_fits hses (off := x.sessionPos pl.blake) hl.session
  have key : ∀ fee, x.Presentable pl.fmtTime d.expert rest fee → ∃ d' time ttl,
      (d.expert = true → pl.fmtTime (x.timestamp / 1000) = some time ∧ duration ttl = x.ttl / 1000) ∧
      run pl d (upload 2 path cs last) = (d', List.replicate (cs.length + 1) (.reply [] 0x9000) ++ [.pending]) ∧
      Displays pl d' (x.screens pl.blake d.expert (leVal (rest.take 4)) type time ttl (motesOf fee) lines) ∧
      (step pl d' .approve).2 = signatureReply pl path (pl.sha256 (pl.blake (x.header pl.blake).encode)) := by
    rintro fee ⟨p1, ⟨code, k, p2, p3, p4⟩, p5, p6, p7⟩
    have htime : ∃ time, d.expert = true → x.ExpertOk pl.fmtTime time := by
      cases he : d.expert with
      | false => exact ⟨[], fun h => by cases h⟩
      | true => obtain ⟨t, ht⟩ := p5 he; exact ⟨t, fun _ => ⟨ht, p6 he⟩⟩
    obtain ⟨time, htime⟩ := htime
    obtain ⟨d', ttl, r1, r2, r3, r4⟩ := signed_upload pl hcap d hd path hlen hpath x code k fee ⟨hx, p1, h0, p4, p2, p3⟩ rest (leVal (rest.take 4))
      (fun he => ⟨by
          have := leVal_lt (rest.take 4)
          rw [List.length_take, Nat.min_eq_left (p7 he)] at this
          exact this, rest.drop 4, by
          have := le_leVal (rest.take 4)
          rw [List.length_take, Nat.min_eq_left (p7 he)] at this
          rw [this, List.take_append_drop]⟩) cs last hcs hfit hat (hty x code k fee) time htime
    exact ⟨d', time, ttl, fun he => ⟨(htime he).time, r1 he⟩, r2, r3, r4⟩
  refine ⟨⟨fun h => ?_, fun ⟨fee, h⟩ => ?_⟩, key⟩
  · obtain ⟨s, hs⟩ := (upload_deploy_iff pl (by omega) d hd path hlen hpath cs last _ hcs hfit).1 h
    exact hs.presentable hsm hx h0 hpay hses.ok rfl
  · obtain ⟨d', time, ttl, -, r2, -⟩ := key fee h
    rw [r2]

/-- The session of an accepted Deploy has been read. -/
theorem DeployAccepted.session_read {e : Env} (hs : Small e) {s : DS} (h : DeployAccepted e s) {x : DeploySpec} (hx : x.Ok) {fee : Nat}
    {rest : Bytes} (hp : x.Presentable e.fmtTime e.expert rest fee) (hses : x.session.Ok) (hb : e.buf = x.signedPart e.blake ++ rest) :
    ∃ epo q, parseDeployItem e false ⟨x.sessionPos e.blake + 1, epo, { typ := x.session.tag }⟩ = .ok () q := by
  obtain ⟨p, q, k, hq⟩ := readDeploy_post _ _ h.parse
  obtain ⟨code, n, -, -, hpay⟩ := hp.payment
  have hpok : x.payment.Ok := by
    rw [hpay]
    refine ⟨fun a ha => ?_, (by rintro h (⟨n, as, hc⟩ | ⟨v, n, as, hc⟩) <;> cases hc), (by rintro v (⟨h, n, as, hc⟩ | ⟨h, n, as, hc⟩) <;> cases hc)⟩
    simp only [ExecItem.args, List.mem_singleton] at ha
    subst ha
    exact ⟨show 6 ≤ 300 by decide, rfl, rfl⟩
  obtain ⟨-, -, -, f4, f5, -⟩ := hq.formed hs.to_fits (hx.header e.blake) (e.blake.len _) hpok hses hb
  have := hq.ses
  rw [f4, f5] at this
  exact ⟨_, _, this⟩

/-- Transfers with a U512 amount and enough to say are shown in one of the two ways. -/
theorem ItemShown.of_transfer {H : Bytes → Bytes} (expert : Bool) {as : List Arg} (hok : ∀ a ∈ as, a.Ok) (hnul : ∀ a ∈ as, (0 : UInt8) ∉ a.name)
    (hval : OnlyTransferArgs as → ∀ a ∈ as, (a.name = b!"amount" → ∃ k n, k ≤ 64 ∧ n < 256 ^ k ∧ a.value = UInt8.ofNat k :: le k n) ∧
      (a.name ≠ b!"amount" → ∃ text, Shown H a.ty a.value text))
    (hamount : ∃ a, argNamed as b!"amount" = some a ∧ a.ty = .u512) (hsparse : ¬ SparseTransfer as) :
    ∃ lines, ItemShown H expert (.transfer as) b!"Token transfer" lines := by
  by_cases ho : OnlyTransferArgs as
  · have hv := hval ho
    obtain ⟨amount, target, id, source, hperm, ⟨n1, t1⟩, ⟨n2, t2⟩, ⟨n3, t3⟩, n4⟩ := ho
    have hmem : ∀ a, a ∈ as ↔ a ∈ [amount, target, id] ++ source.toList := fun a => hperm.mem_iff
    obtain ⟨k, n, hk, hn, hkn⟩ := (hv amount ((hmem _).2 (by simp))).1 n1
    obtain ⟨tt, htt⟩ := (hv target ((hmem _).2 (by simp))).2 (by rw [n2]; decide)
    obtain ⟨it, hit⟩ := (hv id ((hmem _).2 (by simp))).2 (by rw [n3]; decide)
    cases source with
    | none =>
      exact ⟨_, .transfer as amount target id [] k n tt it [] hok hperm ⟨n1, n2, n3, .inl rfl⟩ hk hn ⟨t1, hkn⟩ ⟨t2, htt⟩ ⟨t3, hit⟩ (by simp)⟩
    | some a =>
      obtain ⟨st, hst⟩ := (hv a ((hmem _).2 (by simp))).2 (by rw [(n4 a rfl).1]; decide)
      exact ⟨_, .transfer as amount target id [a] k n tt it st hok hperm ⟨n1, n2, n3, .inr ⟨a, rfl, n4 a rfl⟩⟩ hk hn ⟨t1, hkn⟩ ⟨t2, htt⟩ ⟨t3, hit⟩
        (by simpa using hst)⟩
  · cases as with
    | nil => obtain ⟨a, h, -⟩ := hamount; cases h
    | cons a as => exact ⟨_, .other a as hok hnul hamount ho hsparse⟩

/-- **C85, all transfers.** Which Deploys with a native transfer are accepted, whatever the arguments of the transfer are and whatever follows: those that can be
presented, whose first argument named "amount" is a U512, and that have more to say than an amount and perhaps one of target and id.
(Missing: values that do not belong to their types in transfers with just the usual arguments, and names with zero bytes.) -/
theorem C85_transfer_partial (pl : Platform) (hcap : pl.cap ≤ 16384) (d : Dev) (hd : d.Ok pl) (path : Bytes)
    (hlen : path.length = 20) (hpath : casperPath path) (x : DeploySpec) (hx : x.Ok) (h0 : 0 ∉ x.chain) (hpay : x.payment.PaysPlainly)
    (as : List Arg) (hses : x.session = .transfer as) (hok : ∀ a ∈ as, a.Ok) (hnul : ∀ a ∈ as, (0 : UInt8) ∉ a.name)
    (hval : OnlyTransferArgs as → ∀ a ∈ as, (a.name = b!"amount" → ∃ k n, k ≤ 64 ∧ n < 256 ^ k ∧ a.value = UInt8.ofNat k :: le k n) ∧
      (a.name ≠ b!"amount" → ∃ text, Shown pl.blake a.ty a.value text)) (rest : Bytes)
    (cs : List Bytes) (last : Bytes) (hcs : cs.flatten ++ last = 0 :: (x.signedPart pl.blake ++ rest)) (hfit : (cs.flatten ++ last).length ≤ pl.cap) :
    (run pl d (upload 2 path cs last)).2 = List.replicate (cs.length + 1) (.reply [] 0x9000) ++ [.pending] ↔
      (∃ fee, x.Presentable pl.fmtTime d.expert rest fee) ∧ (∃ a, argNamed as b!"amount" = some a ∧ a.ty = .u512) ∧ ¬ SparseTransfer as := by
  have hsm : Small (signedEnv pl d.expert x rest) := by
    rw [hcs] at hfit
    unfold Small; simp only [List.length_cons] at hfit; show (x.signedPart pl.blake ++ rest).length ≤ 16384; omega
  have hsok : x.session.Ok := by
    rw [hses]
    exact ⟨hok, (by rintro h (⟨n, as, hc⟩ | ⟨v, n, as, hc⟩) <;> cases hc), (by rintro v (⟨h, n, as, hc⟩ | ⟨h, n, as, hc⟩) <;> cases hc)⟩
  constructor
  · intro h
    obtain ⟨s, hs⟩ := (upload_deploy_iff pl (by omega) d hd path hlen hpath cs last _ hcs hfit).1 h
    obtain ⟨fee, hp⟩ := hs.presentable (x := x) (rest := rest) hsm hx h0 hpay hsok rfl
    refine ⟨⟨fee, hp⟩, ?_⟩
    obtain ⟨epo, q, hq⟩ := hs.session_read hsm hx hp hsok rfl
    have hl := (signed_layout (H := pl.blake) (d := x) (rest := rest) rfl).session
    rw [hses] at hl hq
    by_contra hc
    refine transfer_refused (e := signedEnv pl d.expert x rest) (off := x.sessionPos pl.blake) hsm.to_fits hok hnul hl ?_ q hq
    by_cases hm : ∃ a, argNamed as b!"amount" = some a ∧ a.ty = .u512
    · exact .inr (not_not.1 fun h => hc ⟨hm, h⟩)
    · exact .inl hm
  · rintro ⟨hp, hm, hsp⟩
    obtain ⟨lines, hl⟩ := ItemShown.of_transfer (H := pl.blake) d.expert hok hnul hval hm hsp
    exact (C85_deploy_partial pl hcap d hd path hlen hpath x hx h0 hpay _ lines (by rw [hses]; exact hl) rest cs last hcs hfit).1.2 hp

/-- **C63, Deploys of these kinds.** In normal mode, what stands behind such a Deploy has no influence at all: two uploads that differ only in it, on any devices and in
any chunking, are both refused, or both lead to reviews of exactly the same lines, and to signatures of the same digest.
(Missing: as in `C85_deploy_partial`; in expert mode at least four bytes have to follow, and the number of approvals is shown.) -/
theorem C63_kinds_partial (pl : Platform) (hcap : pl.cap ≤ 16384) (x : DeploySpec) (hx : x.Ok) (h0 : 0 ∉ x.chain) (hpay : x.payment.PaysPlainly)
    (type : Bytes) (lines : List (Bytes × Bytes)) (hses : ItemShown pl.blake false x.session type lines)
    (d1 d2 : Dev) (hd1 : d1.Ok pl) (hd2 : d2.Ok pl) (hn1 : d1.expert = false) (hn2 : d2.expert = false) (path : Bytes)
    (hlen : path.length = 20) (hpath : casperPath path) (rest1 rest2 : Bytes) (cs1 cs2 : List Bytes) (last1 last2 : Bytes)
    (hcs1 : cs1.flatten ++ last1 = 0 :: (x.signedPart pl.blake ++ rest1)) (hfit1 : (cs1.flatten ++ last1).length ≤ pl.cap)
    (hcs2 : cs2.flatten ++ last2 = 0 :: (x.signedPart pl.blake ++ rest2)) (hfit2 : (cs2.flatten ++ last2).length ≤ pl.cap) :
    ((run pl d1 (upload 2 path cs1 last1)).2 = List.replicate (cs1.length + 1) (.reply [] 0x9000) ++ [.pending] ↔
      (run pl d2 (upload 2 path cs2 last2)).2 = List.replicate (cs2.length + 1) (.reply [] 0x9000) ++ [.pending]) ∧
    ((run pl d1 (upload 2 path cs1 last1)).2 = List.replicate (cs1.length + 1) (.reply [] 0x9000) ++ [.pending] →
      (∃ all, Displays pl (run pl d1 (upload 2 path cs1 last1)).1 all ∧ Displays pl (run pl d2 (upload 2 path cs2 last2)).1 all) ∧
      (step pl (run pl d1 (upload 2 path cs1 last1)).1 .approve).2 = (step pl (run pl d2 (upload 2 path cs2 last2)).1 .approve).2) := by
  obtain ⟨a1, b1⟩ := C85_deploy_partial pl hcap d1 hd1 path hlen hpath x hx h0 hpay type lines (by rw [hn1]; exact hses) rest1 cs1 last1 hcs1 hfit1
  obtain ⟨a2, b2⟩ := C85_deploy_partial pl hcap d2 hd2 path hlen hpath x hx h0 hpay type lines (by rw [hn2]; exact hses) rest2 cs2 last2 hcs2 hfit2
  rw [hn1] at a1 b1
  rw [hn2] at a2 b2
  have hp : ∀ r1 r2 fee, x.Presentable pl.fmtTime false r1 fee → x.Presentable pl.fmtTime false r2 fee := by
    rintro r1 r2 fee ⟨p1, p2, -, -, -⟩
    exact ⟨p1, p2, by simp, by simp, by simp⟩
  refine ⟨⟨fun h => ?_, fun h => ?_⟩, fun h => ?_⟩
  · obtain ⟨fee, hf⟩ := a1.1 h
    exact a2.2 ⟨fee, hp _ _ _ hf⟩
  · obtain ⟨fee, hf⟩ := a2.1 h
    exact a1.2 ⟨fee, hp _ _ _ hf⟩
  · obtain ⟨fee, hf⟩ := a1.1 h
    obtain ⟨e1, t1, l1, -, r1, s1, g1⟩ := b1 fee hf
    obtain ⟨e2, t2, l2, -, r2, s2, g2⟩ := b2 fee (hp _ _ _ hf)
    rw [r1, r2]
    refine ⟨⟨_, s1, ?_⟩, by rw [g1, g2]⟩
    simpa [DeploySpec.screens] using s2

/-! ### The hypotheses can be met -/

theorem samplePay_plain : samplePay.PaysPlainly := by
  refine ⟨⟨?_, ?_, ?_⟩, ?_, ?_⟩
  · simp [samplePay, ExecItem.Sized]
  · intro v hv; cases hv
  · intro a ha
    simp only [samplePay, ExecItem.args, List.mem_singleton] at ha
    subst ha
    trivial
  · intro a ha
    simp only [samplePay, ExecItem.args, List.mem_singleton] at ha
    subst ha
    decide
  · intro a ha _
    simp only [samplePay, ExecItem.args, List.mem_singleton] at ha
    subst ha
    exact ⟨4, 100000000, by decide, by decide, rfl⟩

theorem sampleDeploy_shown (H : Bytes → Bytes) (expert : Bool) : ∃ lines, ItemShown H expert sampleDeploy.session b!"Token transfer" lines :=
  ⟨_, .transfer sampleTransferArgs ⟨b!"amount", bigNum 5 24500000000, .u512⟩ ⟨b!"target", List.replicate 32 0x11, .byteArray 32⟩
    ⟨b!"id", 1 :: le 8 7, .option .u64⟩ [] 5 24500000000 _ _ [] (by
      intro a ha
      simp only [sampleTransferArgs, List.mem_cons, List.not_mem_nil, or_false] at ha
      rcases ha with rfl | rfl | rfl <;> exact ⟨by decide, by decide, by decide⟩)
    (List.Perm.refl _) ⟨rfl, rfl, rfl, .inl rfl⟩ (by decide) (by decide) ⟨rfl, rfl⟩
    ⟨.inr (.inr (.inl ⟨_, rfl⟩)), .byteArray (List.replicate 32 0x11) (by decide) (by decide)⟩ ⟨.inr rfl, .someU64 7 (by decide)⟩ (by simp)⟩

/-- A transfer, with nothing behind it in normal mode, with three bytes behind it in normal and in expert mode, and with four bytes in expert mode: it is accepted, but
for the second but last case. -/
example : (∃ fee, sampleDeploy.Presentable samplePl.fmtTime false [] fee) ∧ (∃ fee, sampleDeploy.Presentable samplePl.fmtTime false [1, 2, 3] fee) ∧
    (¬ ∃ fee, sampleDeploy.Presentable samplePl.fmtTime true [1, 2, 3] fee) ∧ (∃ fee, sampleDeploy.Presentable samplePl.fmtTime true [1, 2, 3, 4] fee) := by
  have hp : ∃ code k, k ≤ 64 ∧ 100000000 < 256 ^ k ∧ sampleDeploy.payment = .moduleBytes code [⟨b!"amount", UInt8.ofNat k :: le k 100000000, .u512⟩] :=
    ⟨[], 4, by decide, by decide, rfl⟩
  refine ⟨⟨_, by decide, hp, by simp, by simp, by simp⟩, ⟨_, by decide, hp, by simp, by simp, by simp⟩, ?_,
    ⟨_, by decide, hp, fun _ => ⟨_, rfl⟩, fun _ => by decide, fun _ => by decide⟩⟩
  rintro ⟨fee, h⟩
  exact absurd (h.approvals rfl) (by decide)

/-- Transfers of one of three kinds: with an amount alone, refused; with an amount and a remark, shown by a hash; with the usual arguments. -/
example : SparseTransfer [⟨b!"amount", bigNum 5 24500000000, .u512⟩] ∧
    ¬ SparseTransfer [⟨b!"amount", bigNum 5 24500000000, .u512⟩, ⟨b!"remark", pfx b!"hi", .string⟩] ∧
    ¬ OnlyTransferArgs [⟨b!"amount", bigNum 5 24500000000, .u512⟩, ⟨b!"remark", pfx b!"hi", .string⟩] ∧ OnlyTransferArgs sampleTransferArgs := by
  refine ⟨⟨_, ⟨rfl, rfl⟩, .inl rfl⟩, fun h => ?_, fun h => ?_, ⟨_, _, _, none, List.Perm.refl _, ⟨rfl, rfl⟩, ⟨rfl, .inr (.inr (.inl ⟨_, rfl⟩))⟩, ⟨rfl, .inr rfl⟩, by simp⟩⟩
  · rcases h.facts.2 with ⟨h, -⟩ | ⟨-, ⟨⟨a, h, -⟩, -⟩ | ⟨-, a, h, -⟩⟩ <;> cases h
  · obtain ⟨-, ⟨a, h, -⟩, -⟩ := h.facts
    cases h

/-- So it is accepted with nothing behind it: all hypotheses together can be met. -/
example : (run samplePl (Dev.init samplePl) (upload 2 (samplePath 0) [(0 :: sampleDeploy.signedPart Blake.H).take 200]
      ((0 :: sampleDeploy.signedPart Blake.H).drop 200))).2 = [.reply [] 0x9000, .reply [] 0x9000, .pending] := by
  obtain ⟨lines, hl⟩ := sampleDeploy_shown samplePl.blake false
  exact (C85_deploy_partial samplePl (by decide) (Dev.init samplePl) (.init _) (samplePath 0) rfl (by decide) sampleDeploy sampleDeploy_ok (by decide)
    samplePay_plain _ lines hl [] [(0 :: sampleDeploy.signedPart Blake.H).take 200] ((0 :: sampleDeploy.signedPart Blake.H).drop 200)
    (by rw [List.flatten_cons, List.flatten_nil, List.append_nil, List.take_append_drop, List.append_nil]; rfl) (by decide +kernel)).1.2
    ⟨100000000, by decide, ⟨[], 4, by decide, by decide, rfl⟩, by simp [Dev.init], by simp [Dev.init], by simp [Dev.init]⟩

/-- **C85 fails** for Deploys that run code given in them: such a Deploy is accepted if a count of approvals follows, refused if nothing does; for the parser takes what
follows its arguments for the name of an operation (`parser_special.c:667-683`). -/
theorem C85_code_false :
    (run samplePl (Dev.init samplePl) (sampleUpload (0 :: (sampleModule.signedPart Blake.H ++ le 4 0)))).2.getLast? = some .pending ∧
    (run samplePl (Dev.init samplePl) (sampleUpload (0 :: sampleModule.signedPart Blake.H))).2.getLast? ≠ some .pending :=
  ⟨by decide +kernel, by decide +kernel⟩

end Casper
