import Verif.Props.AcceptDeploy
/-
Which Deploys that call stored contracts are accepted (C85).
-/
namespace Casper
open M

/-- Keys and amounts are written as their types demand. -/
def ValuesFine (as : List Arg) : Prop := ∀ a ∈ as,
  (a.ty = .publicKey → ∃ k : PubKey, k.Ok ∧ a.value = k.encode) ∧
  (a.ty = .u512 → ∃ k n, k ≤ 64 ∧ n < 256 ^ k ∧ a.value = UInt8.ofNat k :: le k n) ∧ (a.ty = .u32 → ∃ n, n < 2 ^ 32 ∧ a.value = le 4 n)

/-! ### Proofs -/

theorem ValuesFine.motes {as : List Arg} (h : ValuesFine as) {a : Arg} (ha : a ∈ as) (ht : a.ty.isMotes) :
    a.ty ≠ .u64 ∧ ∃ text, ShownMotes a.ty a.value text := by
  obtain ⟨-, h2, h3⟩ := h a ha
  rcases ht with ht | ht
  · obtain ⟨k, n, hk, hn, hv⟩ := h2 ht
    rw [ht, hv]
    exact ⟨by simp, _, .u512 k n hk hn⟩
  · obtain ⟨n, hn, hv⟩ := h3 ht
    rw [ht, hv]
    exact ⟨by simp, _, .u32 n hn⟩

theorem ValuesFine.key {as : List Arg} (h : ValuesFine as) {name : Bytes} {a : Arg} (ha : a ∈ as) (hn : a.name = name) (ht : a.ty = .publicKey) :
    ∃ k : PubKey, k.Ok ∧ a = ⟨name, k.encode, .publicKey⟩ := by
  obtain ⟨k, hk, hv⟩ := (h a ha).1 ht
  refine ⟨k, hk, ?_⟩
  cases a
  dsimp only at hn ht hv
  subst hn ht hv
  rfl

/-- The argument found is found at the front as well. -/
theorem argNamed_taken {as : List Arg} {name : Bytes} {a : Arg} {k : Nat} (h : argNamed as name = some a) (hm : ∃ b ∈ as.take k, b.name = name) :
    argNamed (as.take k) name = some a := by
  cases hc : argNamed (as.take k) name with
  | none =>
    obtain ⟨b, hb, hn⟩ := hm
    unfold argNamed at hc
    rw [List.find?_eq_none] at hc
    exact absurd hn (by simpa using hc b hb)
  | some c =>
    have := argNamed_front (bs := as.drop k) hc
    rw [List.take_append_drop, h] at this
    exact this.symm

/-- Calls that are fine are shown in one of the ways. -/
theorem ItemShown.of_call {H : Bytes → Bytes} (expert : Bool) {b : Bool} {x : Bytes} {v : Option (Option Nat)} {entry : Bytes} {as : List Arg}
    (haddr : if b then x.length = 32 else x.length ≤ 299 ∧ 0 ∉ x) (hver : ∀ n, v = some (some n) → n < 2 ^ 32)
    (hentry : entry.length ≤ 99) (hentry0 : 0 ∉ entry) (hok : ∀ a ∈ as, a.Ok) (hnul : ∀ a ∈ as, (0 : UInt8) ∉ a.name) (hval : ValuesFine as)
    (hf : CallFine entry as) : ∃ type lines, ItemShown H expert (storedCall b x v entry as) type lines := by
  by_cases hw : (∃ a, argNamed as b!"amount" = some a ∧ a.ty ≠ .u512 ∧ a.ty ≠ .u32) ∨ (∃ a, argNamed as b!"delegator" = some a ∧ a.ty ≠ .publicKey) ∨
        ∃ a, argNamed as b!"validator" = some a ∧ a.ty ≠ .publicKey
  · exact ⟨_, _, .hidden b x v entry as haddr hver hentry hentry0 hok hnul hf.new hw⟩
  have h1 : ∀ a, argNamed as b!"amount" = some a → a.ty.isMotes := by
    intro a ha
    by_contra hc
    exact hw (.inl ⟨a, ha, fun h => hc (.inl h), fun h => hc (.inr h)⟩)
  have h2 : ∀ a, argNamed as b!"delegator" = some a → a.ty = .publicKey := by
    intro a ha
    by_contra hc
    exact hw (.inr (.inl ⟨a, ha, hc⟩))
  have h3 : ∀ a, argNamed as b!"validator" = some a → a.ty = .publicKey := by
    intro a ha
    by_contra hc
    exact hw (.inr (.inr ⟨a, ha, hc⟩))
  by_cases hop : (entry = b!"delegate" ∨ entry = b!"undelegate" ∨ entry = b!"redelegate") ∧
      ¬ (argNamed as b!"amount" = none ∨ argNamed as b!"delegator" = none ∨ argNamed as b!"validator" = none)
  · obtain ⟨hop, hsome⟩ := hop
    simp only [not_or] at hsome
    obtain ⟨s1, s2, s3⟩ := hsome
    obtain ⟨am, am1⟩ := Option.ne_none_iff_exists'.1 s1
    obtain ⟨dl, dl1⟩ := Option.ne_none_iff_exists'.1 s2
    obtain ⟨vl, vl1⟩ := Option.ne_none_iff_exists'.1 s3
    have hfirst := hf.first hop ⟨am, am1, h1 am am1⟩ ⟨dl, dl1, h2 dl dl1⟩ ⟨vl, vl1, h3 vl vl1⟩
    have fam := argNamed_taken am1 (hfirst b!"amount" (by simp [operands]))
    have fdl := argNamed_taken dl1 (hfirst b!"delegator" (by simp [operands]))
    have fvl := argNamed_taken vl1 (hfirst b!"validator" (by simp [operands]))
    obtain ⟨m1, m2⟩ := argNamed_name fam
    obtain ⟨d1, d2⟩ := argNamed_name fdl
    obtain ⟨v1, v2⟩ := argNamed_name fvl
    obtain ⟨kd, hkd, ed⟩ := hval.key (List.mem_of_mem_take d1) d2 (h2 dl dl1)
    obtain ⟨kv, hkv, ev⟩ := hval.key (List.mem_of_mem_take v1) v2 (h3 vl vl1)
    obtain ⟨h64, text, htext⟩ := hval.motes (List.mem_of_mem_take m1) (h1 am am1)
    have hsplit : as = as.take (operands entry).length ++ as.drop (operands entry).length := (List.take_append_drop _ _).symm
    by_cases hr : entry = b!"redelegate"
    · obtain ⟨nv, nv1, nv2⟩ := hf.new hr
      have fnv := argNamed_taken nv1 (hfirst b!"new_validator" (by simp [operands, hr]))
      obtain ⟨n1, n2⟩ := argNamed_name fnv
      obtain ⟨kn, hkn, en⟩ := hval.key (List.mem_of_mem_take n1) n2 nv2
      have hperm : (as.take (operands entry).length).Perm [dl, vl, nv, am] := by
        refine perm_of_named (by simp [d2, v2, n2, m2]) (by simp [d1, v1, n1, m1]) ?_
        rw [List.length_take]
        have : (operands entry).length = 4 := by rw [hr]; rfl
        simp only [List.length_cons, List.length_nil]
        omega
      rw [ed, ev, en] at hperm
      rw [hr]
      rw [hr] at hperm hsplit
      rw [hsplit] at hok hnul ⊢
      exact ⟨_, _, .redelegation b x v _ _ haddr hver hok hnul kd kv kn hkd hkv hkn am text m2 ⟨h64, htext⟩ hperm⟩
    · have hl : (operands entry).length = 3 := by unfold operands; rw [if_neg hr]; rfl
      have hperm : (as.take (operands entry).length).Perm [dl, vl, am] := by
        refine perm_of_named (by simp [d2, v2, m2]) (by simp [d1, v1, m1]) ?_
        rw [List.length_take]
        simp only [List.length_cons, List.length_nil]
        omega
      rw [ed, ev] at hperm
      rw [hsplit] at hok hnul ⊢
      have he : entry = if decide (entry = b!"undelegate") = true then b!"undelegate" else b!"delegate" := by
        rcases hop with h | h | h
        · rw [h]; rfl
        · rw [h]; rfl
        · exact absurd h hr
      have key := ItemShown.delegation (H := H) (expert := expert) b x v (decide (entry = b!"undelegate")) _ _ haddr hver hok hnul kd kv hkd hkv am text m2
        ⟨h64, htext⟩ hperm
      rw [← he] at key
      exact ⟨_, _, key⟩
  · have hother : entry = b!"delegate" ∨ entry = b!"undelegate" ∨ entry = b!"redelegate" →
        argNamed as b!"amount" = none ∨ argNamed as b!"delegator" = none ∨ argNamed as b!"validator" = none := fun h => by
      by_contra hc
      exact hop ⟨h, hc⟩
    have hkey : ∀ name, name = b!"delegator" ∨ name = b!"validator" → ∀ a, argNamed as name = some a → a.ty = .publicKey := by
      rintro name (rfl | rfl)
      · exact h2
      · exact h3
    cases ha : argNamed as b!"amount" with
    | none => exact ⟨_, _, .call b x v entry as [] haddr hver hentry hentry0 hok hnul hkey hf.new hother (.inl ⟨ha, rfl⟩)⟩
    | some a =>
      obtain ⟨h64, text, htext⟩ := hval.motes (argNamed_name ha).1 (h1 a ha)
      exact ⟨_, _, .call b x v entry as _ haddr hver hentry hentry0 hok hnul hkey hf.new hother (.inr ⟨a, text, ha, h64, htext, rfl⟩)⟩

/-- What is read of the session of an accepted Deploy can be shown. -/
theorem DeployAccepted.session_lines {e : Env} (hs : Small e) {s : DS} (h : DeployAccepted e s) {x : DeploySpec} (hx : x.Ok) {fee : Nat}
    {rest : Bytes} (hp : x.Presentable e.fmtTime e.expert rest fee) (hses : x.session.Ok) (hb : e.buf = x.signedPart e.blake ++ rest) :
    ∃ ep q, parseDeployItem e false ⟨x.sessionPos e.blake + 1, ep, { typ := x.session.tag }⟩ = .ok () q ∧
      ∀ j < u16 (q.item.fixed + q.item.runtime), ∃ kv c, sessionLine e q.epo q.item j (x.sessionPos e.blake) = .ok kv c := by
  obtain ⟨p, q, k, hq⟩ := readDeploy_post _ _ h.parse
  obtain ⟨code, n, -, -, hpay⟩ := hp.payment
  have hpok : x.payment.Ok := by
    rw [hpay]
    refine ⟨fun a ha => ?_, (by rintro h (⟨n, as, hc⟩ | ⟨v, n, as, hc⟩) <;> cases hc), (by rintro v (⟨h, n, as, hc⟩ | ⟨h, n, as, hc⟩) <;> cases hc)⟩
    simp only [ExecItem.args, List.mem_singleton] at ha
    subst ha
    exact ⟨show 6 ≤ 300 by decide, rfl, rfl⟩
  obtain ⟨-, -, -, f4, f5, -⟩ := hq.formed hs.to_fits (hx.header e.blake) (e.blake.len _) hpok hses hb
  have hread := hq.ses
  rw [f4, f5] at hread
  refine ⟨_, _, hread, fun j hj => ?_⟩
  have h1 := (hq.payment hs.to_fits).2.1
  have hfew := parseDeployItem_few _ _ hq.ses
  have h3 := hfew.1
  have h4 := hfew.2
  have hu : u16 (q.item.fixed + q.item.runtime) = (q.item.fixed + q.item.runtime) % 65536 := rfl
  have hn : (if e.expert then 9 else 5) + j < numItemsDeploy e s.dep := by
    unfold numItemsDeploy u8
    rw [hq.result]
    dsimp only
    rw [h1]
    dsimp only
    split <;> omega
  obtain ⟨kv, c, hk⟩ := h.items _ hn
  rw [getItem_session hs hq hj (by omega) hn, f5] at hk
  exact ⟨kv, c, hk⟩

/-- **C85, all calls of stored contracts.** Which Deploys that call a stored contract are accepted, whatever is called with whatever arguments and whatever follows: those
that can be presented and whose call is fine (`CallFine`): a redelegation has a new validator; and if delegator, validator and amount of an operation on stakes are there,
then the operands are the first arguments.  (Missing: names of more than 299 bytes, entry points of more than 99, names with zero bytes, and keys and amounts that are
not written as their types demand.) -/
theorem C85_call_partial (pl : Platform) (hcap : pl.cap ≤ 16384) (d : Dev) (hd : d.Ok pl) (path : Bytes)
    (hlen : path.length = 20) (hpath : casperPath path) (x : DeploySpec) (hx : x.Ok) (h0 : 0 ∉ x.chain) (hpay : x.payment.PaysPlainly)
    (byHash : Bool) (addr : Bytes) (version : Option (Option Nat)) (entry : Bytes) (as : List Arg)
    (hses : x.session = storedCall byHash addr version entry as)
    (haddr : if byHash then addr.length = 32 else addr.length ≤ 299 ∧ 0 ∉ addr) (hver : ∀ n, version = some (some n) → n < 2 ^ 32)
    (hentry : entry.length ≤ 99) (hentry0 : 0 ∉ entry) (hok : ∀ a ∈ as, a.Ok) (hnul : ∀ a ∈ as, (0 : UInt8) ∉ a.name) (hval : ValuesFine as) (rest : Bytes)
    (cs : List Bytes) (last : Bytes) (hcs : cs.flatten ++ last = 0 :: (x.signedPart pl.blake ++ rest)) (hfit : (cs.flatten ++ last).length ≤ pl.cap) :
    (run pl d (upload 2 path cs last)).2 = List.replicate (cs.length + 1) (.reply [] 0x9000) ++ [.pending] ↔
      (∃ fee, x.Presentable pl.fmtTime d.expert rest fee) ∧ CallFine entry as := by
  have hsm : Small (signedEnv pl d.expert x rest) := by
    rw [hcs] at hfit
    unfold Small; simp only [List.length_cons] at hfit; show (x.signedPart pl.blake ++ rest).length ≤ 16384; omega
  have hso : StoredOk byHash addr version entry as :=
    ⟨fun hb => by rw [hb] at haddr; exact haddr, hver, by omega, hentry0, hok, hnul⟩
  have hsok : x.session.Ok := by
    rw [hses]
    exact storedCall_ok (fun hb => by rw [hb] at haddr; exact haddr) hver hok
  constructor
  · intro h
    obtain ⟨s, hs⟩ := (upload_deploy_iff pl (by omega) d hd path hlen hpath cs last _ hcs hfit).1 h
    obtain ⟨fee, hp⟩ := hs.presentable (x := x) (rest := rest) hsm hx h0 hpay hsok rfl
    refine ⟨⟨fee, hp⟩, ?_⟩
    obtain ⟨ep, q, hq, hlines⟩ := hs.session_lines hsm hx hp hsok rfl
    have hl := (signed_layout (H := pl.blake) (d := x) (rest := rest) rfl).session
    rw [hses] at hl hq
    have hnew : entry = b!"redelegate" → ∃ a, argNamed as b!"new_validator" = some a ∧ a.ty = .publicKey := by
      intro hr
      by_contra hc
      exact redelegate_refused (e := signedEnv pl d.expert x rest) hsm.to_fits hso hl hr hc ep q hq
    refine ⟨hnew, fun hop ham hdl hvl name hname => ?_⟩
    have hparse := delegation_parse (e := signedEnv pl d.expert x rest) hsm.to_fits hso hl hop ⟨ham, hdl, hvl, fun h => hnew (by simpa using h)⟩ ep
    have hqe := hparse.symm.trans hq
    cases hqe
    dsimp only at hlines
    have hoplen : (operands entry).length = if entry = b!"redelegate" then 4 else 3 := by
      unfold operands
      split <;> rfl
    -- there are at least as many arguments
    have hcount : (operands entry).length ≤ as.length := by
      have hsub : ∀ m ∈ operands entry, m ∈ as.map Arg.name := by
        intro m hm
        unfold operands at hm
        have hone : ∀ {n : Bytes} {P : Arg → Prop}, (∃ a, argNamed as n = some a ∧ P a) → n ∈ as.map Arg.name := by
          rintro n P ⟨a, ha, -⟩
          obtain ⟨h1, h2⟩ := argNamed_name ha
          exact List.mem_map.2 ⟨a, h1, h2⟩
        simp only [List.cons_append, List.nil_append, List.mem_cons] at hm
        rcases hm with rfl | rfl | rfl | hm
        · exact hone hdl
        · exact hone hvl
        · exact hone ham
        · split at hm
          · rename_i hr
            simp only [List.mem_singleton] at hm
            subst hm
            exact hone (hnew hr)
          · cases hm
      have hnd : (operands entry).Nodup := by
        unfold operands
        split <;> decide
      have := (List.subperm_of_subset hnd hsub).length_le
      simpa using this
    by_contra hc
    have habs : ∀ a ∈ as.take (operands entry).length, a.name ≠ name := fun a ha hn => hc ⟨a, ha, hn⟩
    have fin : ∀ op, (op = 5 ∧ entry = b!"delegate" ∨ op = 6 ∧ entry = b!"undelegate" ∨ op = 7 ∧ entry = b!"redelegate") →
        (if op = 7 then 4 else 3) = (operands entry).length →
        (∃ (j : Nat) (l : ArgLine), (opLines d.expert as op)[j]? = some l ∧ l.name = name) → False := by
      rintro op h1 h2 ⟨j, l, h3, rfl⟩
      have hjl := (List.getElem?_eq_some_iff.1 h3).1
      have hol : (opLines d.expert as op).length = (operands entry).length := by
        rw [← h2]; rcases h1 with ⟨rfl, -⟩ | ⟨rfl, -⟩ | ⟨rfl, -⟩ <;> rfl
      obtain ⟨kv, c, h4⟩ := hlines ((delegationView d.expert byHash addr version entry as (x.sessionPos pl.blake)).fixed + j) (by
        show _ < u16 ((if d.expert then 2 + (if version.isSome then 1 else 0) else 0) + (if entry = b!"redelegate" then 4 else 3))
        have hfx : (delegationView d.expert byHash addr version entry as (x.sessionPos pl.blake)).fixed =
          if d.expert then 2 + (if version.isSome then 1 else 0) else 0 := rfl
        have hsm3 : (if d.expert then 2 + (if version.isSome then 1 else 0) else 0) ≤ 3 := by
          split <;> try split
          all_goals omega
        have hsm4 : (if entry = b!"redelegate" then 4 else 3) ≤ 4 := by split <;> omega
        rw [u16_id (by omega), hfx]
        omega)
      exact delegation_line_absent (e := signedEnv pl d.expert x rest) (off := x.sessionPos pl.blake) hsm.to_fits hso hl h1 h3 (by rw [h2]; exact hcount)
        (by rw [h2]; exact habs) kv c h4
    rcases hop with rfl | rfl | rfl
    · refine fin 5 (.inl ⟨rfl, rfl⟩) rfl ?_
      simp only [operands, List.cons_append, List.nil_append, List.mem_cons] at hname
      rcases hname with rfl | rfl | rfl | hname
      · exact ⟨0, _, rfl, rfl⟩
      · exact ⟨1, _, rfl, rfl⟩
      · exact ⟨2, _, rfl, rfl⟩
      · simp at hname
    · refine fin 6 (.inr (.inl ⟨rfl, rfl⟩)) rfl ?_
      simp only [operands, List.cons_append, List.nil_append, List.mem_cons] at hname
      rcases hname with rfl | rfl | rfl | hname
      · exact ⟨0, _, rfl, rfl⟩
      · exact ⟨1, _, rfl, rfl⟩
      · exact ⟨2, _, rfl, rfl⟩
      · simp at hname
    · refine fin 7 (.inr (.inr ⟨rfl, rfl⟩)) rfl ?_
      simp only [operands, List.cons_append, List.nil_append, List.mem_cons] at hname
      rcases hname with rfl | rfl | rfl | hname
      · exact ⟨0, _, rfl, rfl⟩
      · exact ⟨1, _, rfl, rfl⟩
      · exact ⟨3, _, rfl, rfl⟩
      · simp only [if_true, List.mem_singleton] at hname
        subst hname
        exact ⟨2, _, rfl, rfl⟩
  · rintro ⟨hp, hc⟩
    obtain ⟨type, lines, hl⟩ := ItemShown.of_call (H := pl.blake) d.expert haddr hver hentry hentry0 hok hnul hval hc
    exact (C85_deploy_partial pl hcap d hd path hlen hpath x hx h0 hpay type lines (by rw [hses]; exact hl) rest cs last hcs hfit).1.2 hp

/-! ### The hypotheses can be met -/

/-- A delegation whose operands stand behind another argument is refused, with the other argument behind them it is accepted; and so is a call of "delegate" that lacks a
validator, which is presented as a call of a contract. -/
example : ¬ CallFine b!"delegate" (⟨b!"memo", pfx b!"hi", .string⟩ :: sampleDelegate.session.args) ∧
    CallFine b!"delegate" (sampleDelegate.session.args ++ [⟨b!"memo", pfx b!"hi", .string⟩]) ∧
    CallFine b!"delegate" [⟨b!"delegator", sampleAccount.encode, .publicKey⟩] ∧ ¬ CallFine b!"redelegate" sampleDelegate.session.args := by
  refine ⟨fun h => ?_, ⟨by decide, fun _ _ _ _ name hn => ?_⟩, ⟨by decide, fun _ ⟨a, h, _⟩ => by cases h⟩, fun h => ?_⟩
  · obtain ⟨a, ha, hn⟩ := h.first (.inl rfl) ⟨_, rfl, .inl rfl⟩ ⟨_, rfl, rfl⟩ ⟨_, rfl, rfl⟩ b!"amount" (by decide)
    simp only [sampleDelegate, ExecItem.args, show (operands b!"delegate").length = 3 from rfl, List.take_succ_cons, List.take_zero, List.mem_cons,
      List.not_mem_nil, or_false] at ha
    rcases ha with rfl | rfl | rfl <;> revert hn <;> decide
  · simp only [show operands b!"delegate" = [b!"delegator", b!"validator", b!"amount"] from rfl, List.mem_cons, List.not_mem_nil, or_false] at hn
    rcases hn with rfl | rfl | rfl
    · exact ⟨_, .head _, rfl⟩
    · exact ⟨_, .tail _ (.head _), rfl⟩
    · exact ⟨_, .tail _ (.tail _ (.head _)), rfl⟩
  · obtain ⟨a, ha, -⟩ := h.new rfl
    cases ha

/-- A delegation with its operands behind another argument. -/
def sampleLate : DeploySpec := { sampleDelegate with
  session := .byHash (List.replicate 32 0x93) b!"delegate" (⟨b!"memo", pfx b!"hi", .string⟩ :: sampleDelegate.session.args) }

/-- All hypotheses together: this one is refused for the position of its operands alone. -/
example : (run samplePl (Dev.init samplePl) (upload 2 (samplePath 0) [(0 :: sampleLate.signedPart Blake.H).take 200]
      ((0 :: sampleLate.signedPart Blake.H).drop 200))).2 ≠ [.reply [] 0x9000, .reply [] 0x9000, .pending] ∧
    ∃ fee, sampleLate.Presentable samplePl.fmtTime false [] fee := by
  constructor
  · intro h
    have := ((C85_call_partial samplePl (by decide) (Dev.init samplePl) (.init _) (samplePath 0) rfl (by decide) sampleLate
      ⟨rfl, by decide, by decide, by decide, sampleDeploy_ok.deps⟩ (by decide) samplePay_plain true (List.replicate 32 0x93) none b!"delegate"
      (⟨b!"memo", pfx b!"hi", .string⟩ :: sampleDelegate.session.args) rfl rfl (by simp) (by decide) (by decide) (by
        intro a ha
        simp only [sampleDelegate, ExecItem.args, List.mem_cons, List.not_mem_nil, or_false] at ha
        rcases ha with rfl | rfl | rfl | rfl <;> exact ⟨by decide, by decide, by decide⟩) (by
        intro a ha
        simp only [sampleDelegate, ExecItem.args, List.mem_cons, List.not_mem_nil, or_false] at ha
        rcases ha with rfl | rfl | rfl | rfl <;> decide) (by
        intro a ha
        simp only [sampleDelegate, ExecItem.args, List.mem_cons, List.not_mem_nil, or_false] at ha
        rcases ha with rfl | rfl | rfl | rfl
        · exact ⟨by simp, by simp, by simp⟩
        · exact ⟨fun _ => ⟨sampleAccount, rfl, rfl⟩, by simp, by simp⟩
        · exact ⟨fun _ => ⟨.ed25519 (List.replicate 32 0x44), rfl, rfl⟩, by simp, by simp⟩
        · exact ⟨by simp, fun _ => ⟨5, 500000000000, by decide, by decide, rfl⟩, by simp⟩)
      [] [(0 :: sampleLate.signedPart Blake.H).take 200] ((0 :: sampleLate.signedPart Blake.H).drop 200)
      (by rw [List.flatten_cons, List.flatten_nil, List.append_nil, List.take_append_drop, List.append_nil]; rfl) (by decide +kernel)).1 h).2
    obtain ⟨a, ha, hn⟩ := this.first (.inl rfl) ⟨_, rfl, .inl rfl⟩ ⟨_, rfl, rfl⟩ ⟨_, rfl, rfl⟩ b!"amount" (by decide)
    simp only [sampleDelegate, ExecItem.args, show (operands b!"delegate").length = 3 from rfl, List.take_succ_cons, List.take_zero, List.mem_cons,
      List.not_mem_nil, or_false] at ha
    rcases ha with rfl | rfl | rfl <;> revert hn <;> decide
  · exact ⟨100000000, by decide, ⟨[], 4, by decide, by decide, rfl⟩, by simp, by simp, by simp⟩

end Casper
