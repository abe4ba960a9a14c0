import Verif.Props.Transfers
import Verif.Props.Operations
import Verif.Props.Values
import Verif.Spec.Seen
/-
C70: what is shown of a transfer, a delegation or another native operation besides its hash determines what is done.
-/
namespace Casper
open M

/-- Two reviews have the same number of lines, and the same lines except perhaps for the first one, the hash. -/
def SameButHash (pl : Platform) (d d' : Dev) : Prop :=
  ∃ n, (reviewCount pl d .tx 0).val = .ok n () ∧ (reviewCount pl d' .tx 0).val = .ok n () ∧
    ∀ i, i < n → i ≠ 0 → (reviewItem pl d .tx i 0).val = (reviewItem pl d' .tx i 0).val

/-- The data have been uploaded, with some path and in some chunks. -/
def Uploaded (pl : Platform) (d : Dev) (data : Bytes) (d' : Dev) : Prop :=
  ∃ path cs last, path.length = 20 ∧ casperPath path ∧ cs.flatten ++ last = data ∧ data.length ≤ pl.cap ∧ (run pl d (upload 2 path cs last)).1 = d'

theorem Displays.tail_eq {pl : Platform} {d d' : Dev} {l l' : List (Bytes × Bytes)} (h : Displays pl d l) (h' : Displays pl d' l') (hs : SameButHash pl d d') :
    l.tail = l'.tail := by
  obtain ⟨n, s1, s2, s3⟩ := hs
  rw [(h 0).1] at s1
  rw [(h' 0).1] at s2
  have e1 : l.length = n := by simpa [Res.val] using s1
  have e2 : l'.length = n := by simpa [Res.val] using s2
  refine List.ext_getElem? fun i => ?_
  rw [List.getElem?_tail, List.getElem?_tail]
  by_cases hi : i + 1 < l.length
  · have hi' : i + 1 < l'.length := by omega
    have := s3 (i + 1) (by omega) (by omega)
    obtain ⟨c, h1⟩ := (h 0).2 (i + 1) l[i + 1] (List.getElem?_eq_getElem hi)
    obtain ⟨c', h2⟩ := (h' 0).2 (i + 1) l'[i + 1] (List.getElem?_eq_getElem hi')
    rw [h1, h2] at this
    rw [List.getElem?_eq_getElem hi, List.getElem?_eq_getElem hi']
    simpa [Res.val] using this
  · rw [List.getElem?_eq_none (by omega), List.getElem?_eq_none (by omega)]

theorem PubKey.address_inj {H : Hash} {k k' : PubKey} (h : k.address H = k'.address H) : k = k' := by
  cases k <;> cases k' <;> simp only [PubKey.address] at h
  · rw [checksumHex_inj (List.append_cancel_left h)]
  · exact absurd (congrArg (fun l => l[1]?) h) (by simp)
  · exact absurd (congrArg (fun l => l[1]?) h) (by simp)
  · rw [checksumHex_inj (List.append_cancel_left h)]

/-- What equal lines say about the headers. -/
theorem DeploySpec.screens_tail {pl : Platform} {x y : DeploySpec} {ex : Bool} {n n' : Nat} {ty ty' tm tm' ttl ttl' : Bytes} {fee fee' : Nat}
    {ls ls' : List (Bytes × Bytes)}
    (h : (x.screens pl.blake ex n ty tm ttl (motesOf fee) ls).tail = (y.screens pl.blake ex n' ty' tm' ttl' (motesOf fee') ls').tail)
    (hx : ex = true → pl.fmtTime (x.timestamp / 1000) = some tm) (hy : ex = true → pl.fmtTime (y.timestamp / 1000) = some tm')
    (dx : ex = true → duration ttl = x.ttl / 1000) (dy : ex = true → duration ttl' = y.ttl / 1000) :
    x.HeadAlike pl.fmtTime ex y ∧ fee = fee' ∧ ty = ty' ∧
      ls ++ (if ex then [(b!"Approvals #", decText n)] else []) = ls' ++ (if ex then [(b!"Approvals #", decText n')] else []) := by
  cases ex with
  | false =>
    simp only [DeploySpec.screens, Bool.false_eq_true, if_false, List.append_nil, List.cons_append, List.nil_append, List.tail_cons, List.cons.injEq, Prod.mk.injEq,
      true_and] at h
    obtain ⟨h1, h2, h3, h4, h5⟩ := h
    refine ⟨⟨PubKey.address_inj h3, h2, ?_, ?_, ?_, ?_⟩, C17_amount_injective _ _ h4, h1, by rw [h5]; rfl⟩ <;> intro h <;> cases h
  | true =>
    simp only [DeploySpec.screens, if_true, List.cons_append, List.nil_append, List.tail_cons, List.cons.injEq, Prod.mk.injEq, true_and] at h ⊢
    obtain ⟨h1, h2, h3, h4, h5, h6, h7, h8, h9⟩ := h
    refine ⟨⟨PubKey.address_inj h3, h2, fun _ => decText_inj h6, fun _ => decText_inj h7, fun _ => ?_, fun _ => ?_⟩, C17_amount_injective _ _ h8, h1, h9⟩
    · rw [← dx rfl, ← dy rfl, h5]
    · rw [hx rfl, hy rfl, h4]

/-! ### Transfers in Deploys -/

/-- A well-formed Deploy that transfers `amount` motes to `target`, from `source` if there is one, for `fee` motes. -/
structure DeploySpec.Transfers (H : Bytes → Bytes) (x : DeploySpec) (fee amount : Nat) (target id : Arg) (source : Option Arg) : Prop where
  usual : ∃ code k, x.Usual code k fee
  session : ∃ as k, x.session = .transfer as ∧ (∀ a ∈ as, a.Ok) ∧ k ≤ 64 ∧ amount < 256 ^ k ∧
    as.Perm ([⟨b!"amount", UInt8.ofNat k :: le k amount, .u512⟩, target, id] ++ source.toList)
  target : target.name = b!"target" ∧ target.ty.isPlace ∧ ∃ text, Shown H target.ty target.value text
  id : id.name = b!"id" ∧ (id.ty = .u64 ∨ id.ty = .option .u64) ∧ ∃ text, Shown H id.ty id.value text
  source : ∀ a, source = some a → a.name = b!"source" ∧ a.ty.isPlace ∧ ∃ text, Shown H a.ty a.value text

/-- Such a Deploy is shown (C12). -/
theorem DeploySpec.Transfers.shown {pl : Platform} (hcap : pl.cap ≤ 16384) {d d' : Dev} (hd : d.Ok pl) {x : DeploySpec} {fee n : Nat} {target id : Arg}
    {source : Option Arg} (hx : x.Transfers pl.blake fee n target id source) {ap : List Bytes} (hap : ap.length < 2 ^ 32) (hu : Uploaded pl d (0 :: x.tx pl.blake ap) d') {time : Bytes}
    (hxo : d.expert = true → x.ExpertOk pl.fmtTime time) :
    ∃ ttl ttext itext stext, (d.expert = true → duration ttl = x.ttl / 1000) ∧ Shown pl.blake target.ty target.value ttext ∧
      Shown pl.blake id.ty id.value itext ∧ (∀ a, source = some a → Shown pl.blake a.ty a.value stext) ∧
      Displays pl d' (x.screens pl.blake d.expert ap.length b!"Token transfer" time ttl (motesOf fee)
        (if d.expert then source.toList.map (fun _ => (b!"From", stext)) ++ [(b!"Target", ttext), (b!"Amount", motesOf n), (b!"ID", itext)]
          else [(b!"Target", ttext), (b!"Amount", motesOf n)])) := by
  obtain ⟨⟨code, fk, husual⟩, ⟨as, k, hses, hok, hk, hn, hperm⟩, ⟨t1, t2, ttext, t3⟩, ⟨i1, i2, itext, i3⟩, hsrc⟩ := hx
  obtain ⟨path, cs, last, p1, p2, p3, p4, rfl⟩ := hu
  obtain ⟨stext, hst⟩ : ∃ stext, ∀ a, source = some a → Shown pl.blake a.ty a.value stext := by
    cases source with
    | none => exact ⟨[], by intro a h; cases h⟩
    | some a =>
      obtain ⟨-, -, text, ht⟩ := hsrc a rfl
      exact ⟨text, by intro b h; cases h; exact ht⟩
  obtain ⟨d', ttl, h1, h2, h3, -⟩ := C12_transfer pl hcap d hd path p1 p2 x code fk fee husual as hses hok ⟨b!"amount", UInt8.ofNat k :: le k n, .u512⟩ target id
    source.toList hperm ⟨rfl, t1, i1, by
      cases source with
      | none => exact .inl rfl
      | some a => exact .inr ⟨a, rfl, (hsrc a rfl).1, (hsrc a rfl).2.1⟩⟩
    k n hk hn ⟨rfl, rfl⟩ ttext itext ⟨t2, t3⟩ ⟨i2, i3⟩ stext (by
      intro a ha
      rw [Option.mem_toList] at ha
      exact hst a ha) ap hap cs last p3 (by rw [p3]; exact p4) time hxo
  rw [h2]
  exact ⟨ttl, ttext, itext, stext, h1, t3, i3, hst, h3⟩

/-- Two arguments look the same: values of the same type are the same, as far as values are shown (C16: without the kind of a key, the rights of a URef). -/
def Arg.Alike (a b : Arg) : Prop := a.ty = b.ty → sameValue a.ty a.value b.value

theorem Arg.alike {H : Hash} {a b : Arg} {text : Bytes} (h : Shown H a.ty a.value text) (h' : Shown H b.ty b.value text) : a.Alike b :=
  fun ht => shown_inj h h' ht rfl

/-- **C70, transfers in Deploys.** Two reviews, in the same mode, of well-formed Deploys that transfer something: if they show the same lines, apart from the hash,
then account, chain, fee, amount and target are the same, and in expert mode also gas price, times (in seconds), source and id. -/
theorem C70_transfer (pl : Platform) (hcap : pl.cap ≤ 16384) (d1 d2 d1' d2' : Dev) (hd1 : d1.Ok pl) (hd2 : d2.Ok pl) (hm : d1.expert = d2.expert) (x y : DeploySpec)
    (fee fee' n n' : Nat) (target target' id id' : Arg) (source source' : Option Arg) (hx : x.Transfers pl.blake fee n target id source)
    (hy : y.Transfers pl.blake fee' n' target' id' source') (ap ap' : List Bytes) (hap : ap.length < 2 ^ 32) (hap' : ap'.length < 2 ^ 32)
    (hu1 : Uploaded pl d1 (0 :: x.tx pl.blake ap) d1') (hu2 : Uploaded pl d2 (0 :: y.tx pl.blake ap') d2') (time time' : Bytes)
    (ho1 : d1.expert = true → x.ExpertOk pl.fmtTime time) (ho2 : d2.expert = true → y.ExpertOk pl.fmtTime time') (hs : SameButHash pl d1' d2') :
    x.HeadAlike pl.fmtTime d1.expert y ∧ fee = fee' ∧ n = n' ∧ target.Alike target' ∧
      (d1.expert = true → id.Alike id' ∧ source.isSome = source'.isSome ∧ (∀ a b, source = some a → source' = some b → a.Alike b) ∧ ap.length = ap'.length) := by
  obtain ⟨ttl, tt, it, st, a1, a2, a3, a4, a5⟩ := hx.shown hcap hd1 hap hu1 ho1
  obtain ⟨ttl', tt', it', st', b1, b2, b3, b4, b5⟩ := hy.shown hcap hd2 hap' hu2 ho2
  have ht := Displays.tail_eq a5 b5 hs
  rw [← hm] at ht b1 ho2
  obtain ⟨h1, h2, -, h3⟩ := DeploySpec.screens_tail ht (fun h => (ho1 h).time) (fun h => (ho2 h).time) a1 b1
  refine ⟨h1, h2, ?_⟩
  cases hexp : d1.expert with
  | false =>
    simp only [hexp, Bool.false_eq_true, if_false, List.append_nil, List.cons.injEq, Prod.mk.injEq, true_and, and_true] at h3
    obtain ⟨h4, h5⟩ := h3
    subst h4
    exact ⟨C17_amount_injective _ _ h5, Arg.alike a2 b2, by intro h; cases h⟩
  | true =>
    simp only [hexp, if_true] at h3
    have key : tt = tt' ∧ motesOf n = motesOf n' ∧ it = it' ∧ source.isSome = source'.isSome ∧ (source.isSome → st = st') ∧ decText ap.length = decText ap'.length := by
      cases source <;> cases source' <;> simp at h3 ⊢ <;> simp [h3]
    obtain ⟨rfl, k2, rfl, k4, k5, k6⟩ := key
    refine ⟨C17_amount_injective _ _ k2, Arg.alike a2 b2, fun _ => ⟨Arg.alike a3 b3, k4, fun a b ha hb => ?_, decText_inj k6⟩⟩
    have := k5 (by rw [ha]; rfl)
    subst this
    exact Arg.alike (a4 a ha) (b4 b hb)

/-! ### Delegations in Deploys -/

/-- A well-formed Deploy that calls "delegate" or "undelegate" of a stored contract. -/
structure DeploySpec.Delegates (x : DeploySpec) (fee : Nat) (un byHash : Bool) (addr : Bytes) (version : Option (Option Nat)) (delegator validator : PubKey)
    (amount : Nat) : Prop where
  usual : ∃ code k, x.Usual code k fee
  session : ∃ as k, x.session = storedCall byHash addr version (if un then b!"undelegate" else b!"delegate") as ∧ k ≤ 64 ∧ amount < 256 ^ k ∧
    as.Perm [⟨b!"delegator", delegator.encode, .publicKey⟩, ⟨b!"validator", validator.encode, .publicKey⟩, ⟨b!"amount", UInt8.ofNat k :: le k amount, .u512⟩]
  addr : if byHash then addr.length = 32 else addr.length ≤ 299 ∧ 0 ∉ addr
  version : ∀ n, version = some (some n) → n < 2 ^ 32
  delegator : delegator.Ok
  validator : validator.Ok

/-- **C70, delegations in Deploys.** Two reviews, in the same mode, of well-formed Deploys that call "delegate" or "undelegate": if they show the same lines, apart from
the hash, then both delegate or both undelegate, and account, chain, fee, delegator, validator and amount are the same; in expert mode also the contract
that is called (a version that is not given is shown as 0). -/
theorem C70_delegation (pl : Platform) (hcap : pl.cap ≤ 16384) (d1 d2 d1' d2' : Dev) (hd1 : d1.Ok pl) (hd2 : d2.Ok pl) (hm : d1.expert = d2.expert) (x y : DeploySpec)
    (fee fee' n n' : Nat) (un un' byHash byHash' : Bool) (addr addr' : Bytes) (version version' : Option (Option Nat)) (delegator delegator' validator validator' : PubKey)
    (hx : x.Delegates fee un byHash addr version delegator validator n) (hy : y.Delegates fee' un' byHash' addr' version' delegator' validator' n')
    (ap ap' : List Bytes) (hap : ap.length < 2 ^ 32) (hap' : ap'.length < 2 ^ 32)
    (hu1 : Uploaded pl d1 (0 :: x.tx pl.blake ap) d1') (hu2 : Uploaded pl d2 (0 :: y.tx pl.blake ap') d2') (time time' : Bytes)
    (ho1 : d1.expert = true → x.ExpertOk pl.fmtTime time) (ho2 : d2.expert = true → y.ExpertOk pl.fmtTime time') (hs : SameButHash pl d1' d2') :
    x.HeadAlike pl.fmtTime d1.expert y ∧ fee = fee' ∧ un = un' ∧ delegator = delegator' ∧ validator = validator' ∧ n = n' ∧
      (d1.expert = true → byHash = byHash' ∧ addr = addr' ∧ version.map (·.getD 0) = version'.map (·.getD 0) ∧ ap.length = ap'.length) := by
  obtain ⟨⟨code, fk, u1⟩, ⟨as, k, u2, u3, u4, u5⟩, u6, u7, u8, u9⟩ := hx
  obtain ⟨⟨code', fk', v1⟩, ⟨as', k', v2, v3, v4, v5⟩, v6, v7, v8, v9⟩ := hy
  obtain ⟨path, cs, last, p1, p2, p3, p4, rfl⟩ := hu1
  obtain ⟨path', cs', last', q1, q2, q3, q4, rfl⟩ := hu2
  obtain ⟨d', ttl, a1, a2, a5, -⟩ := C15_delegation pl hcap d1 hd1 path p1 p2 x code fk fee u1 byHash addr version un as u2 u6 u7 delegator validator u8 u9 k n u3 u4 u5
    ap hap cs last p3 (by rw [p3]; exact p4) time ho1
  obtain ⟨d'', ttl', b1, b2, b5, -⟩ := C15_delegation pl hcap d2 hd2 path' q1 q2 y code' fk' fee' v1 byHash' addr' version' un' as' v2 v6 v7 delegator' validator' v8 v9
    k' n' v3 v4 v5 ap' hap' cs' last' q3 (by rw [q3]; exact q4) time' ho2
  rw [a2, b2] at hs
  have ht := Displays.tail_eq a5 b5 hs
  rw [← hm] at ht b1 ho2
  obtain ⟨h1, h2, h0, h3⟩ := DeploySpec.screens_tail ht (fun h => (ho1 h).time) (fun h => (ho2 h).time) a1 b1
  have hun : un = un' := by
    cases un <;> cases un' <;> first | rfl | exact absurd h0 (by decide)
  refine ⟨h1, h2, hun, ?_⟩
  cases hexp : d1.expert with
  | false =>
    simp only [hexp, Bool.false_eq_true, if_false, List.append_nil, List.nil_append, List.cons.injEq, Prod.mk.injEq, true_and, and_true] at h3
    exact ⟨PubKey.address_inj h3.1, PubKey.address_inj h3.2.1, C17_amount_injective _ _ h3.2.2, by intro h; cases h⟩
  | true =>
    simp only [hexp, if_true] at h3
    have key : byHash = byHash' ∧ (if byHash then checksumHex pl.blake addr = checksumHex pl.blake addr' else addr = addr') ∧
        (version.map fun v => decText (v.getD 0)) = (version'.map fun v => decText (v.getD 0)) ∧
        delegator.address pl.blake = delegator'.address pl.blake ∧ validator.address pl.blake = validator'.address pl.blake ∧ motesOf n = motesOf n' ∧
        decText ap.length = decText ap'.length := by
      cases byHash <;> cases byHash' <;> cases version <;> cases version' <;> simp [storedLines] at h3 ⊢ <;> simp [h3]
    obtain ⟨rfl, k2, k3, k4, k5, k6, k7⟩ := key
    refine ⟨PubKey.address_inj k4, PubKey.address_inj k5, C17_amount_injective _ _ k6, fun _ => ⟨rfl, ?_, ?_, decText_inj k7⟩⟩
    · cases byHash with
      | true => exact checksumHex_inj k2
      | false => exact k2
    · cases version <;> cases version' <;> simp at k3 ⊢
      exact decText_inj k3

/-! ### Version 1 -/

theorem Initiator.addr_inj {a b : Initiator} (ha : a.Ok) (hb : b.Ok) (h : a.addr = b.addr) : a = b := by
  cases a <;> cases b <;> simp only [Initiator.addr, Initiator.Ok] at h ha hb
  · cases h; rfl
  · cases h
  · rw [← h] at hb; simp at hb; omega
  · cases h
  · cases h; rfl
  · rw [← h] at hb; simp at hb; omega
  · rw [h] at ha; simp at ha; omega
  · rw [h] at ha; simp at ha; omega
  · cases h; rfl

theorem group3_digits (n : Nat) (c : UInt8) (h : c ∈ group3 (decText n)) : c = 0x20 ∨ 0x30 ≤ c ∧ c ≤ 0x39 := by
  by_cases hc : c = 0x20
  · exact .inl hc
  · refine .inr (decText_digit n c ?_)
    rw [← C18_digits_kept (decText n) (fun h0 => absurd (decText_digit n _ h0).1 (by decide)), List.mem_filter]
    exact ⟨h, by simpa using hc⟩

theorem group3_inj {m n : Nat} (h : group3 (decText m) = group3 (decText n)) : m = n :=
  C17_amount_injective m n (by rw [h])

theorem Pricing.lines_inj {H : Hash} {a b : Pricing} (h : a.lines H = b.lines H) : a.Alike b := by
  cases a <;> cases b <;> simp [Pricing.lines, Pricing.Alike] at h ⊢
  · exact ⟨group3_inj h.1, decText_inj h.2⟩
  · exact absurd (group3_digits _ 0x46 (by rw [h.1]; simp)) (by decide)
  · exact absurd (group3_digits _ 0x46 (by rw [← h.1]; simp)) (by decide)
  · exact decText_inj h
  · exact checksumHex_inj h

theorem TxPayload.screens_tail {pl : Platform} {p q : TxPayload} (hp : p.initiator.Ok) (hq : q.initiator.Ok) {ex : Bool} {n n' : Nat} {tm tm' ttl ttl' : Bytes}
    {ls ls' : List (Bytes × Bytes)}
    (h : (p.screens pl.blake ex n tm ttl ls).tail = (q.screens pl.blake ex n' tm' ttl' ls').tail)
    (hx : ex = true → pl.fmtTime (p.timestamp / 1000) = some tm) (hy : ex = true → pl.fmtTime (q.timestamp / 1000) = some tm')
    (dx : ex = true → duration ttl = p.ttl / 1000) (dy : ex = true → duration ttl' = q.ttl / 1000) :
    p.initiator = q.initiator ∧ p.chain = q.chain ∧ p.entry.title = q.entry.title ∧
      (ex = true → p.pricing.Alike q.pricing ∧ p.ttl / 1000 = q.ttl / 1000 ∧ pl.fmtTime (p.timestamp / 1000) = pl.fmtTime (q.timestamp / 1000)) ∧
      ls ++ (if ex then [(b!"Approvals #", decText n)] else []) = ls' ++ (if ex then [(b!"Approvals #", decText n')] else []) := by
  cases ex with
  | false =>
    simp only [TxPayload.screens, Bool.false_eq_true, if_false, List.append_nil, List.cons_append, List.nil_append, List.tail_cons, List.cons.injEq, Prod.mk.injEq,
      true_and] at h
    obtain ⟨h1, h2, h3, h4⟩ := h
    exact ⟨Initiator.addr_inj hp hq (checksumHex_inj h3), h2, h1, (by intro h; cases h), by rw [h4]; rfl⟩
  | true =>
    simp only [TxPayload.screens, if_true, List.cons_append, List.nil_append, List.tail_cons, List.cons.injEq, Prod.mk.injEq, true_and, List.append_assoc] at h ⊢
    obtain ⟨h1, h2, h3, h4, h5, h6⟩ := h
    obtain ⟨h6, h7⟩ := List.append_inj h6 (by cases p.pricing <;> cases q.pricing <;> rfl)
    refine ⟨Initiator.addr_inj hp hq (checksumHex_inj h3), h2, h1, fun _ => ⟨Pricing.lines_inj h6, ?_, ?_⟩, h7⟩
    · rw [← dx rfl, ← dy rfl, h5]
    · rw [hx rfl, hy rfl, h4]

/-- The labels of the lines about arguments. -/
theorem shows_labels {H : Bytes → Bytes} {as : List Arg} {ls : List ArgLine} {lines : List (Bytes × Bytes)} (h : List.Forall₂ (ArgLine.Shows H as) ls lines) :
    lines.map Prod.fst = ls.map ArgLine.label := by
  induction h with
  | nil => rfl
  | cons h _ ih => cases h <;> simp [ih]

/-- A bid with reserved slots does not look like one without. -/
theorem slots_apart {H : Bytes → Bytes} {ex : Bool} {as bs : List Arg} (ha : as.length ≤ 5) (hA : (argNamed as b!"reserved_slots").isSome = false)
    (hB : (argNamed bs b!"reserved_slots").isSome = true) {ls ls' : List (Bytes × Bytes)} {n n' : Nat}
    (hl : List.Forall₂ (ArgLine.Shows H as) (opLines ex as 3) ls) (hl' : List.Forall₂ (ArgLine.Shows H bs) (opLines ex bs 3) ls')
    (h : ls ++ opExtra ex as.length 3 ls ++ (if ex then [(b!"Approvals #", decText n)] else []) =
      ls' ++ opExtra ex bs.length 3 ls' ++ (if ex then [(b!"Approvals #", decText n')] else [])) : False := by
  have l1 := shows_labels hl
  have l2 := shows_labels hl'
  have n1 := hl.length_eq
  have hx : opExtra ex as.length 3 ls = [] := by
    unfold opExtra
    rw [if_neg (by omega), ← n1, show (opLines ex as 3).length = 5 by simp [opLines, hA], Nat.sub_eq_zero_of_le ha]
    rfl
  rw [hx] at h
  have h6 := congrArg (fun l => (l.map Prod.fst)[5]?) h
  simp only [List.map_append, l1, l2] at h6
  cases ex <;> simp [opLines, hA, hB] at h6

/-- The same lines are about the same arguments. -/
theorem opLines_same {H : Bytes → Bytes} {ex : Bool} {t : Nat} {as bs : List Arg} (ha : t = 3 → as.length ≤ 5 ∨ (argNamed as b!"reserved_slots").isSome)
    (hb : t = 3 → bs.length ≤ 5 ∨ (argNamed bs b!"reserved_slots").isSome) {ls ls' : List (Bytes × Bytes)} {n n' : Nat}
    (hl : List.Forall₂ (ArgLine.Shows H as) (opLines ex as t) ls) (hl' : List.Forall₂ (ArgLine.Shows H bs) (opLines ex bs t) ls')
    (h : ls ++ opExtra ex as.length t ls ++ (if ex then [(b!"Approvals #", decText n)] else []) =
      ls' ++ opExtra ex bs.length t ls' ++ (if ex then [(b!"Approvals #", decText n')] else [])) : opLines ex as t = opLines ex bs t ∧ ls = ls' := by
  have l1 := shows_labels hl
  have l2 := shows_labels hl'
  have n1 := hl.length_eq
  have n2 := hl'.length_eq
  have main : opLines ex as t = opLines ex bs t := by
    by_cases h2 : t = 2
    · subst h2
      cases ex with
      | false => simp [opLines]
      | true =>
        have := congrArg (fun l => (l.map Prod.fst).head?) h
        simp only [List.map_append, l1, l2] at this
        cases hA : (argNamed as b!"source").isSome <;> cases hB : (argNamed bs b!"source").isSome <;> simp [opLines, hA, hB] at this ⊢
    by_cases h3 : t = 3
    · subst h3
      cases hA : (argNamed as b!"reserved_slots").isSome <;> cases hB : (argNamed bs b!"reserved_slots").isSome
      · simp [opLines, hA, hB]
      · exact (slots_apart (by have := ha rfl; simpa [hA] using this) hA hB hl hl' h).elim
      · exact (slots_apart (by have := hb rfl; simpa [hB] using this) hB hA hl' hl h.symm).elim
      · simp [opLines, hA, hB]
    · unfold opLines
      split <;> first | rfl | omega
  refine ⟨main, ?_⟩
  rw [main] at n1
  rw [List.append_assoc, List.append_assoc] at h
  exact (List.append_inj h (by omega)).1

theorem motes_inj {v w text : Bytes} (h : ShownMotes .u512 v text) (h' : ShownMotes .u512 w text) : sameValue .u512 v w := by
  cases h with
  | u512 k n hk hn =>
    generalize hs : motesOf n = s at h'
    cases h' with
    | u512 k' n' hk' hn' =>
      have := C17_amount_injective _ _ hs
      subst this
      show leVal (le k n) = leVal (le k' n)
      rw [leVal_le _ _ hn, leVal_le _ _ hn']

/-- Two lists of lines for the same arguments: the arguments look the same. -/
theorem shows_alike {H : Hash} {as bs : List Arg} {ls : List ArgLine} {lines : List (Bytes × Bytes)} (h : List.Forall₂ (ArgLine.Shows H as) ls lines)
    (h' : List.Forall₂ (ArgLine.Shows H bs) ls lines) : ∀ l ∈ ls, ∃ a b, argNamed as l.name = some a ∧ argNamed bs l.name = some b ∧ a.Alike b := by
  induction h with
  | nil => simp
  | cons h1 _ ih =>
    cases h' with
    | cons h2 h' =>
      intro l hl
      rcases List.mem_cons.1 hl with rfl | hl
      · cases h1 with
        | value m1 a1 s1 =>
          cases h2 with
          | value _ a2 s2 => exact ⟨_, _, a1, a2, Arg.alike s1 s2⟩
          | motes m2 _ _ _ => rw [m1] at m2; cases m2
        | motes m1 a1 t1 s1 =>
          cases h2 with
          | value m2 _ _ => rw [m1] at m2; cases m2
          | motes _ a2 t2 s2 =>
            refine ⟨_, _, a1, a2, fun _ => ?_⟩
            rw [t1] at s1 ⊢
            rw [t2] at s2
            exact motes_inj s1 s2
      · exact ih h' l hl

/-- **C70, version 1.** Two reviews, in the same mode, of well-formed native operations (transfers, bids, delegations, burns): if they show the same lines, apart from
the hash, then they are the same operation, for the same account on the same chain, and all arguments that are shown have values that look the same; in
expert mode also prices and times (in seconds) are the same. -/
theorem C70_operation (pl : Platform) (hcap : pl.cap ≤ 16384) (d1 d2 d1' d2' : Dev) (hd1 : d1.Ok pl) (hd2 : d2.Ok pl) (hm : d1.expert = d2.expert) (p q : TxPayload)
    (t u : Nat) (as bs : List Arg) (hp : p.NativeOp t as) (hq : q.NativeOp u bs) (hfew : as.length ≤ 119) (hfew' : bs.length ≤ 119)
    (ap ap' : List Bytes) (hap : ∀ x ∈ ap, ApprovalOk x) (hap' : ∀ x ∈ ap', ApprovalOk x)
    (hu1 : Uploaded pl d1 (1 :: p.tx pl.blake ap) d1') (hu2 : Uploaded pl d2 (1 :: q.tx pl.blake ap') d2')
    (lines lines' : List (Bytes × Bytes)) (hl : List.Forall₂ (ArgLine.Shows pl.blake as) (opLines d1.expert as t) lines)
    (hl' : List.Forall₂ (ArgLine.Shows pl.blake bs) (opLines d2.expert bs u) lines') (time time' : Bytes)
    (ho1 : d1.expert = true → p.ExpertOk pl.fmtTime time) (ho2 : d2.expert = true → q.ExpertOk pl.fmtTime time') (hs : SameButHash pl d1' d2') :
    p.HeadAlike pl.fmtTime d1.expert q ∧ t = u ∧
      ∀ l ∈ opLines d1.expert as t, ∃ a b, argNamed as l.name = some a ∧ argNamed bs l.name = some b ∧ a.Alike b := by
  obtain ⟨path, cs, last, p1, p2, p3, p4, rfl⟩ := hu1
  obtain ⟨path', cs', last', q1, q2, q3, q4, rfl⟩ := hu2
  obtain ⟨d', ttl, a1, a2, a5, -⟩ := C45_native_operation pl hcap d1 hd1 path p1 p2 p t as ap hp hfew hap cs last p3 (by rw [p3]; exact p4) lines hl time ho1
  obtain ⟨d'', ttl', b1, b2, b5, -⟩ := C45_native_operation pl hcap d2 hd2 path' q1 q2 q u bs ap' hq hfew' hap' cs' last' q3 (by rw [q3]; exact q4) lines' hl' time' ho2
  rw [a2, b2] at hs
  have ht := Displays.tail_eq a5 b5 hs
  rw [← hm] at ht b1 ho2 hl'
  obtain ⟨h1, h2, h3, h4, h5⟩ := TxPayload.screens_tail hp.ok.initiator hq.ok.initiator ht (fun h => (ho1 h).time) (fun h => (ho2 h).time) a1 b1
  have htu : t = u := by
    rw [hp.entry, hq.entry] at h3
    have : ∀ t ∈ [2, 3, 4, 5, 6, 7, 8, 9, 12], ∀ u ∈ [2, 3, 4, 5, 6, 7, 8, 9, 12], (V1Entry.op t).title = (V1Entry.op u).title → t = u := by decide
    exact this t hp.known u hq.known h3
  subst htu
  obtain ⟨h6, h7⟩ := opLines_same hp.slots hq.slots hl hl' h5
  subst h7
  rw [← h6] at hl'
  exact ⟨⟨h1, h2, by rw [hp.entry, hq.entry], fun h => (h4 h).1, fun h => (h4 h).2.1, fun h => (h4 h).2.2⟩, rfl, shows_alike hl hl'⟩

/-! ### Other contract calls in Deploys -/

/-- A well-formed Deploy that calls a stored contract and is not shown as a delegation; `amount` if there is an argument of this name. -/
structure DeploySpec.Calls (x : DeploySpec) (fee : Nat) (byHash : Bool) (addr : Bytes) (version : Option (Option Nat)) (entry : Bytes) (as : List Arg)
    (amount : Option Nat) : Prop where
  usual : ∃ code k, x.Usual code k fee
  sessionIs : x.session = storedCall byHash addr version entry as
  addrIs : if byHash then addr.length = 32 else addr.length ≤ 299 ∧ 0 ∉ addr
  versionIs : ∀ n, version = some (some n) → n < 2 ^ 32
  entryIs : entry.length ≤ 99 ∧ 0 ∉ entry
  argsIs : (∀ a ∈ as, a.Ok) ∧ noNul as
  keys : ∀ name, name = b!"delegator" ∨ name = b!"validator" → ∀ a, argNamed as name = some a → a.ty = .publicKey
  redelegate : entry = b!"redelegate" → ∃ a, argNamed as b!"new_validator" = some a ∧ a.ty = .publicKey
  other : entry = b!"delegate" ∨ entry = b!"undelegate" ∨ entry = b!"redelegate" →
    argNamed as b!"amount" = none ∨ argNamed as b!"delegator" = none ∨ argNamed as b!"validator" = none
  amountIs : argNamed as b!"amount" = none ∧ amount = none ∨
    ∃ a k n, argNamed as b!"amount" = some a ∧ a.ty = .u512 ∧ a.value = UInt8.ofNat k :: le k n ∧ k ≤ 64 ∧ n < 256 ^ k ∧ amount = some n

theorem argsHash_inj {H : Hash} {as bs : List Arg} (h : argsHashText H as = argsHashText H bs) : H (encodeRuntimeArgs as) = H (encodeRuntimeArgs bs) := by
  have := List.append_cancel_left h
  apply hexText_inj
  rw [← casedHex_lower (H (encodeRuntimeArgs as)) (H (encodeRuntimeArgs as)), ← casedHex_lower (H (encodeRuntimeArgs bs)) (H (encodeRuntimeArgs bs))]
  exact congrArg _ this

theorem DeploySpec.Calls.shown {pl : Platform} (hcap : pl.cap ≤ 16384) {d d' : Dev} (hd : d.Ok pl) {x : DeploySpec} {fee : Nat} {byHash : Bool} {addr : Bytes}
    {version : Option (Option Nat)} {entry : Bytes} {as : List Arg} {amount : Option Nat} (hx : x.Calls fee byHash addr version entry as amount) {ap : List Bytes}
    (hap : ap.length < 2 ^ 32) (hu : Uploaded pl d (0 :: x.tx pl.blake ap) d') {time : Bytes} (hxo : d.expert = true → x.ExpertOk pl.fmtTime time) :
    ∃ ttl, (d.expert = true → duration ttl = x.ttl / 1000) ∧
      Displays pl d' (x.screens pl.blake d.expert ap.length b!"Contract execution" time ttl (motesOf fee)
        (storedLines pl.blake d.expert byHash addr version ++ (if d.expert then [(b!"Entry-point", entry)] else []) ++
          (amount.toList.map (fun n => (b!"Amount", motesOf n)) ++ [(b!"Args hash", argsHashText pl.blake as)]))) := by
  obtain ⟨path, cs, last, p1, p2, p3, p4, rfl⟩ := hu
  obtain ⟨code, k, hus⟩ := hx.usual
  obtain ⟨d', ttl, h1, h2, h3, -⟩ := C14_call_partial pl hcap d hd path p1 p2 x code k fee hus byHash addr version entry as hx.sessionIs hx.addrIs hx.versionIs hx.entryIs.1
    hx.entryIs.2 hx.argsIs.1 hx.argsIs.2 hx.keys hx.redelegate hx.other (amount.toList.map (fun n => (b!"Amount", motesOf n))) (by
      rcases hx.amountIs with ⟨h1, h2⟩ | ⟨a, k, n, h1, h2, h3, h4, h5, h6⟩
      · exact .inl ⟨h1, by rw [h2]; rfl⟩
      · exact .inr ⟨a, k, n, h1, h2, h3, h4, h5, by rw [h6]; rfl⟩) ap hap cs last p3 (by rw [p3]; exact p4) time hxo
  rw [h2]
  exact ⟨ttl, h1, h3⟩

/-- **C70, contract calls in Deploys.** Two reviews, in the same mode, of well-formed Deploys that call a stored contract: if they show the same lines, apart from
the hash, then account, chain, fee, contract and amount are the same, and the lists of arguments are the same or have the same BLAKE2b hash; in expert mode also version
and entry point are the same.  (In normal mode the entry point is not shown: `C70_entry_false`.) -/
theorem C70_call_partial (pl : Platform) (hcap : pl.cap ≤ 16384) (d1 d2 d1' d2' : Dev) (hd1 : d1.Ok pl) (hd2 : d2.Ok pl) (hm : d1.expert = d2.expert) (x y : DeploySpec)
    (fee fee' : Nat) (byHash byHash' : Bool) (addr addr' : Bytes) (version version' : Option (Option Nat)) (entry entry' : Bytes) (as bs : List Arg)
    (amount amount' : Option Nat)
    (hx : x.Calls fee byHash addr version entry as amount) (hy : y.Calls fee' byHash' addr' version' entry' bs amount')
    (ap ap' : List Bytes) (hap : ap.length < 2 ^ 32) (hap' : ap'.length < 2 ^ 32)
    (hu1 : Uploaded pl d1 (0 :: x.tx pl.blake ap) d1') (hu2 : Uploaded pl d2 (0 :: y.tx pl.blake ap') d2') (time time' : Bytes)
    (ho1 : d1.expert = true → x.ExpertOk pl.fmtTime time) (ho2 : d2.expert = true → y.ExpertOk pl.fmtTime time') (hs : SameButHash pl d1' d2') :
    x.HeadAlike pl.fmtTime d1.expert y ∧ fee = fee' ∧ byHash = byHash' ∧ addr = addr' ∧ version.isSome = version'.isSome ∧ amount = amount' ∧
      (encodeRuntimeArgs as = encodeRuntimeArgs bs ∨
        encodeRuntimeArgs as ≠ encodeRuntimeArgs bs ∧ pl.blake (encodeRuntimeArgs as) = pl.blake (encodeRuntimeArgs bs)) ∧
      (d1.expert = true → version.map (·.getD 0) = version'.map (·.getD 0) ∧ entry = entry' ∧ ap.length = ap'.length) := by
  obtain ⟨ttl, a1, a5⟩ := hx.shown hcap hd1 hap hu1 ho1
  obtain ⟨ttl', b1, b5⟩ := hy.shown hcap hd2 hap' hu2 ho2
  have ht := Displays.tail_eq a5 b5 hs
  rw [← hm] at ht b1 ho2
  obtain ⟨h1, h2, -, h3⟩ := DeploySpec.screens_tail ht (fun h => (ho1 h).time) (fun h => (ho2 h).time) a1 b1
  refine ⟨h1, h2, ?_⟩
  have key : byHash = byHash' ∧ (if byHash then checksumHex pl.blake addr = checksumHex pl.blake addr' else addr = addr') ∧ version.isSome = version'.isSome ∧
      amount.map motesOf = amount'.map motesOf ∧ argsHashText pl.blake as = argsHashText pl.blake bs ∧
      (d1.expert = true → (version.map fun v => decText (v.getD 0)) = (version'.map fun v => decText (v.getD 0)) ∧ entry = entry' ∧
        decText ap.length = decText ap'.length) := by
    cases hexp : d1.expert <;> rw [hexp] at h3 <;> cases byHash <;> cases byHash' <;> cases version <;> cases version' <;> cases amount <;> cases amount' <;>
      simp [storedLines] at h3 ⊢ <;> simp [h3]
  obtain ⟨rfl, k2, k3, k4, k5, k6⟩ := key
  refine ⟨rfl, ?_, k3, ?_, ?_, fun h => ⟨?_, (k6 h).2.1, decText_inj (k6 h).2.2⟩⟩
  · cases byHash with
    | true => exact checksumHex_inj k2
    | false => exact k2
  · cases amount <;> cases amount' <;> simp at k4 ⊢
    exact C17_amount_injective _ _ k4
  · by_cases hab : encodeRuntimeArgs as = encodeRuntimeArgs bs
    · exact .inl hab
    · exact .inr ⟨hab, argsHash_inj k5⟩
  · have := (k6 h).1
    cases version <;> cases version' <;> simp at this ⊢
    exact decText_inj this

/-! ### Cases -/

/-- The state after an upload in one chunk. -/
def afterUpload (expert : Bool) (data : Bytes) : Dev := (run samplePl { Dev.init samplePl with expert := expert } (upload 2 (samplePath 0) [] data)).1

theorem uploaded_sample {ex : Bool} {data : Bytes} (h : data.length ≤ 8192) : Uploaded samplePl { Dev.init samplePl with expert := ex } data (afterUpload ex data) :=
  ⟨samplePath 0, [], data, rfl, by decide, by simp, h, rfl⟩

/-- The sample transfer, one millisecond later. -/
def sampleLater : DeploySpec := { sampleDeploy with timestamp := 1620138035001 }

theorem sampleLater_usual : sampleLater.Usual [] 4 100000000 :=
  ⟨⟨rfl, by decide, by decide, by decide, by
    intro x hx; simp only [sampleLater, sampleDeploy, List.mem_singleton] at hx; subst hx; rfl⟩, by decide, by decide, rfl, by decide, by decide⟩

theorem sampleTransfers {x : DeploySpec} (hx : x.Usual [] 4 100000000) (hs : x.session = .transfer sampleTransferArgs) :
    x.Transfers Blake.H 100000000 24500000000 ⟨b!"target", List.replicate 32 0x11, .byteArray 32⟩ ⟨b!"id", 1 :: le 8 7, .option .u64⟩ none :=
  ⟨⟨_, _, hx⟩, ⟨sampleTransferArgs, 5, hs, by
      intro a ha
      simp only [sampleTransferArgs, List.mem_cons, List.not_mem_nil, or_false] at ha
      rcases ha with rfl | rfl | rfl <;> exact ⟨by decide, by decide, by decide⟩, by decide, by decide, List.Perm.refl _⟩,
    ⟨rfl, .inr (.inr (.inl ⟨_, rfl⟩)), _, .byteArray (List.replicate 32 0x11) (by decide) (by decide)⟩, ⟨rfl, .inr rfl, _, .someU64 7 (by decide)⟩,
    by intro a h; cases h⟩

theorem Displays.same {pl : Platform} {d d' : Dev} {l l' : List (Bytes × Bytes)} (h : Displays pl d l) (h' : Displays pl d' l') (hl : l.length = l'.length)
    (ht : l.tail = l'.tail) : SameButHash pl d d' := by
  refine ⟨l.length, by rw [(h 0).1]; rfl, by rw [(h' 0).1, hl]; rfl, fun i hi h0 => ?_⟩
  obtain ⟨i, rfl⟩ := Nat.exists_eq_succ_of_ne_zero h0
  obtain ⟨c, h1⟩ := (h 0).2 (i + 1) _ (List.getElem?_eq_getElem hi)
  obtain ⟨c', h2⟩ := (h' 0).2 (i + 1) l[i + 1] (by rw [← List.getElem?_tail, ← ht, List.getElem?_tail, List.getElem?_eq_getElem hi])
  rw [h1, h2]
  rfl

/-- The hypotheses of `C70_transfer` can be met by different Deploys: the same transfer a millisecond later, in normal mode. -/
example : SameButHash samplePl (afterUpload false (0 :: sampleDeploy.tx Blake.H [])) (afterUpload false (0 :: sampleLater.tx Blake.H [])) ∧
    sampleDeploy ≠ sampleLater ∧
    sampleDeploy.Transfers Blake.H 100000000 24500000000 ⟨b!"target", List.replicate 32 0x11, .byteArray 32⟩ ⟨b!"id", 1 :: le 8 7, .option .u64⟩ none ∧
    sampleLater.Transfers Blake.H 100000000 24500000000 ⟨b!"target", List.replicate 32 0x11, .byteArray 32⟩ ⟨b!"id", 1 :: le 8 7, .option .u64⟩ none := by
  have hx := sampleTransfers sampleDeploy_usual rfl
  have hy := sampleTransfers sampleLater_usual rfl
  refine ⟨?_, fun h => absurd (congrArg DeploySpec.timestamp h) (by decide), hx, hy⟩
  obtain ⟨_, ttext, _, _, _, t1, _, _, h1⟩ := hx.shown (pl := samplePl) (by decide) (.init _) (ap := []) (by decide) (uploaded_sample (ex := false) (by decide +kernel)) (time := [])
    (by intro h; cases h)
  obtain ⟨_, ttext', _, _, _, t2, _, _, h2⟩ := hy.shown (pl := samplePl) (by decide) (.init _) (ap := []) (by decide) (uploaded_sample (ex := false) (by decide +kernel)) (time := [])
    (by intro h; cases h)
  have key : ∀ {ty v t}, Shown Blake.H ty v t → ∀ n, ty = .byteArray n → t = checksumHex Blake.H v := by
    intro ty v t h n hn
    cases h <;> first | rfl | cases hn
  rw [key t1 32 rfl] at h1
  rw [key t2 32 rfl] at h2
  have he : (Dev.init samplePl).expert = false := rfl
  exact h1.same h2 (by simp [DeploySpec.screens, he]) (by simp [DeploySpec.screens, sampleLater, he])

/-- The same call with another entry point. -/
def sampleOther : DeploySpec := { sampleMint with session := .versionedByHash (List.replicate 32 0x93) (some 2) b!"give_away" sampleMint.session.args }

/-- **C70 fails** for contract calls in normal mode: calls of the entry points "mint" and "give_away" look the same, apart from the hash. -/
theorem C70_entry_false : sampleMint.session = .versionedByHash (List.replicate 32 0x93) (some 2) b!"mint" sampleMint.session.args ∧
    SameButHash samplePl (afterUpload false (0 :: sampleMint.tx Blake.H [])) (afterUpload false (0 :: sampleOther.tx Blake.H [])) :=
  ⟨rfl, 9, by decide +kernel, by decide +kernel, by decide +kernel⟩

/-- The same delegation, asked of another contract. -/
def sampleImpostor : DeploySpec := { sampleDelegate with session := .byHash (List.replicate 32 0x66) b!"delegate" sampleDelegate.session.args }

/-- **C70 fails** for delegations in normal mode: which contract is asked to delegate is not shown. -/
theorem C70_contract_false : sampleDelegate.session = .byHash (List.replicate 32 0x93) b!"delegate" sampleDelegate.session.args ∧
    SameButHash samplePl (afterUpload false (0 :: sampleDelegate.tx Blake.H [])) (afterUpload false (0 :: sampleImpostor.tx Blake.H [])) :=
  ⟨rfl, 8, by decide +kernel, by decide +kernel, by decide +kernel⟩

/-- The sample transfer of version 1, one millisecond later. -/
def sampleTransferLater : TxPayload := { sampleTransfer with timestamp := 1620137435001 }

theorem sampleTransfer_shown {p : TxPayload} (hp : p.Ok) (h1 : p.args = .named sampleNamed) (h2 : p.target = .native) (h3 : p.entry = .op 2)
    (h4 : p.argsPos < 256) (h5 : p.chain = b!"casper") (h6 : p.initiator = sampleKey) (h7 : (1 :: p.tx Blake.H []).length ≤ 8192) :
    Displays samplePl (afterUpload false (1 :: p.tx Blake.H [])) [(b!"Txn hash", checksumHex Blake.H (Blake.H p.encode)), (b!"Type", b!"Transfer"),
      (b!"Chain ID", b!"casper"), (b!"Account", checksumHex Blake.H (2 :: List.replicate 33 0xab)),
      (b!"Target", checksumHex Blake.H (List.replicate 32 0x11)), (b!"Amount", motesOf 2500000000)] := by
  obtain ⟨d', ttl, -, h8, h9, -⟩ := C45_transfer samplePl (by decide) (Dev.init samplePl) (.init _) (samplePath 0) rfl (by decide)
    p sampleNamed [] hp h3 h2 h1
    ⟨b!"amount", bigNum 4 2500000000, .u512⟩ ⟨b!"target", List.replicate 32 0x11, .byteArray 32⟩
    ⟨b!"id", 1 :: le 8 7, .option .u64⟩ [] (List.Perm.refl _) ⟨rfl, rfl, rfl, .inl rfl⟩ 4 2500000000 (by decide) (by decide)
    ⟨rfl, rfl⟩ _ _ (.byteArray (List.replicate 32 0x11) (by decide) (by decide)) (.someU64 7 (by decide)) [] (by simp)
    h4 (by rw [h5]; decide) (by rw [h5]; decide) (by simp) [] (1 :: p.tx Blake.H []) rfl h7 [] (by intro h; cases h)
  have : afterUpload false (1 :: p.tx Blake.H []) = d' := congrArg Prod.fst h8
  rw [this]
  rw [TxPayload.screens, h3, h5, h6] at h9
  exact h9

/-- The same for `C70_operation`: what is shown of two different transfers. -/
example : sampleTransfer ≠ sampleTransferLater ∧
    SameButHash samplePl (afterUpload false (1 :: sampleTransfer.tx Blake.H [])) (afterUpload false (1 :: sampleTransferLater.tx Blake.H [])) :=
  ⟨fun h => absurd (congrArg TxPayload.timestamp h) (by decide),
    (sampleTransfer_shown sampleTransfer_ok rfl rfl rfl (by decide) rfl rfl (by decide +kernel)).same
      (sampleTransfer_shown (p := sampleTransferLater) { sampleTransfer_ok with timestamp := by decide } rfl rfl rfl (by decide) rfl rfl (by decide +kernel)) (by simp) (by simp)⟩

end Casper
