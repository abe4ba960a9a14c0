import Verif.Props.CutNames

/-!
# Layouts and lines of native operations, for all argument names

As in `C84_layout_partial` and `C44_accepted_partial`, arguments being found by their names up to a zero byte.
-/

namespace Casper

open M

/-- **C84, two layouts, all names.** Two byte sequences that say the same native operation are both accepted or both refused (same conditions). -/
theorem C84_layout_cut_partial (pl : Platform) (hcap : pl.cap ≤ 16384) (d : Dev) (hd : d.Ok pl) (path : Bytes)
    (hlen : path.length = 20) (hpath : casperPath path) (cs cs' : List Bytes) (last last' xs xs' : Bytes)
    (hcs : cs.flatten ++ last = 1 :: xs) (hfit : (cs.flatten ++ last).length ≤ pl.cap)
    (hcs' : cs'.flatten ++ last' = 1 :: xs') (hfit' : (cs'.flatten ++ last').length ≤ pl.cap)
    (c : Content) (pos n pos' n' : Nat) (payload payload' : Bytes) (hc : Says pl.blake c pos n payload xs) (hc' : Says pl.blake c pos' n' payload' xs')
    (t : Nat) (as : List Arg) (he : c.entry = .op t) (hkn : t ∈ [2, 3, 4, 5, 6, 7, 8, 9, 12]) (htg : c.target = .native) (ha : c.args = .named as)
    (hok : ∀ a ∈ as, a.Ok) (hpos : pos < 256) (hpos' : pos' < 256) (hfew : as.length ≤ 119)
    (hslots : t = 3 → as.length ≤ 5 ∨ (argNamed (cut as) b!"reserved_slots").isSome) (hpr : d.expert = true → c.pricing.Small)
    (lines : List (Bytes × Bytes)) (hl : List.Forall₂ (ArgLine.Shows pl.blake (cut as)) (opLines d.expert (cut as) t) lines) :
    (run pl d (upload 2 path cs last)).2.getLast? = some .pending ↔ (run pl d (upload 2 path cs' last')).2.getLast? = some .pending := by
  have key : ∀ cs last xs pos n payload, cs.flatten ++ last = 1 :: xs → (cs.flatten ++ last).length ≤ pl.cap → Says pl.blake c pos n payload xs →
      pos < 256 → ((run pl d (upload 2 path cs last)).2.getLast? = some .pending ↔
      (∀ r ∈ opRequired t, ∃ a, argNamed (cut as) r.1 = some a ∧ (r.2 = true → a.ty = .u512)) ∧ c.Presentable pl.fmtTime d.expert) := by
    intro cs last xs pos n payload h1 h2 h3 h4
    rw [← (C84_cut_partial pl hcap d hd path hlen hpath cs last xs h1 h2 c pos n payload h3 t as he hkn htg ha hok h4 hfew hslots hpr lines hl).1]
    obtain ⟨d0, e0, -, -, -, -, -, -, -, h5⟩ := upload_reaches pl d hd 2 (.inl rfl) path hlen hpath cs last h2
    rw [h5]
    simp
  rw [key cs last xs pos n payload hcs hfit hc hpos, key cs' last' xs' pos' n' payload' hcs' hfit' hc' hpos']

/-- **C44, all accepted version 1 data, all names.** The line of an operation shows the first argument of its name up to a zero byte in the signed argument list.  Missing: see
`C83_cut_partial`. -/
theorem C44_accepted_cut_partial (pl : Platform) (hcap : pl.cap ≤ 16384) (d d' : Dev) (hd : d.Ok pl) (rx : Bytes)
    (pin : Bool) (hins : rx.getD 1 0 = 2) (xs : Bytes) (hx : d.data ++ rx.drop 5 = 1 :: xs) (h : step pl d (.apdu rx pin) = (d', .pending))
    (c : Content) (pos n : Nat) (payload : Bytes) (hc : Says pl.blake c pos n payload xs) (t : Nat) (as : List Arg)
    (he : c.entry = .op t) (hkn : t ∈ [2, 3, 4, 5, 6, 7, 8, 9, 12]) (htg : c.target = .native) (ha : c.args = .named as) (hok : ∀ a ∈ as, a.Ok)
    (hpos : pos < 256) (hfew : as.length ≤ 119) (hslots : t = 3 → as.length ≤ 5 ∨ (argNamed (cut as) b!"reserved_slots").isSome)
    (hpr : d.expert = true → c.pricing.Small)
    (lines : List (Bytes × Bytes)) (hl : List.Forall₂ (ArgLine.Shows pl.blake (cut as)) (opLines d.expert (cut as) t) lines)
    (i : Nat) (kv : Bytes × Bytes) (hi : lines[i]? = some kv) (o : Nat) :
    ∃ o', reviewItem pl d' .tx ((if d.expert then 8 else 4) + i) o = .ok kv o' := by
  obtain ⟨time, ttl, -, hdis⟩ := C83_cut_partial pl hcap d d' hd rx pin hins xs hx h c pos n payload hc t as he hkn htg ha hok hpos hfew hslots hpr lines hl
  refine (hdis o).2 _ kv ?_
  have hlt := (List.getElem?_eq_some_iff.1 hi).1
  have hpl : (c.pricing.lines pl.blake).length = 2 := by cases c.pricing <;> rfl
  unfold Content.screens
  cases d.expert with
  | false =>
    rw [if_neg (by decide), List.append_nil, if_neg (by decide), List.append_nil, if_neg (by decide), Nat.add_comm]
    simp only [List.cons_append, List.nil_append, List.getElem?_cons_succ]
    rw [List.getElem?_append_left hlt, hi]
  | true =>
    rw [if_pos rfl, if_pos rfl, if_pos rfl, Nat.add_comm]
    simp only [List.cons_append, List.nil_append, List.getElem?_cons_succ, List.append_assoc]
    rw [List.getElem?_append_right (by omega), hpl, Nat.add_sub_cancel, List.getElem?_append_left hlt, hi]

theorem sampleDisguised_lines : List.Forall₂ (ArgLine.Shows Blake.H (cut (sampleNamed.map Arg.marked ++ [⟨b!"amount", bigNum 8 100000000000000000, .u512⟩,
      ⟨b!"target", List.replicate 32 0x66, .byteArray 32⟩, ⟨b!"id", 1 :: le 8 7, .option .u64⟩]))) (opLines false (cut (sampleNamed.map Arg.marked ++
      [⟨b!"amount", bigNum 8 100000000000000000, .u512⟩, ⟨b!"target", List.replicate 32 0x66, .byteArray 32⟩, ⟨b!"id", 1 :: le 8 7, .option .u64⟩])) 2)
    [(b!"Target", checksumHex Blake.H (List.replicate 32 0x11)), (b!"Amount", motesOf 2500000000)] := by
  rw [cut_marked (by unfold noNul; decide) (by unfold noNul; decide), opLines_front (by simp)]
  exact shows_front (.cons (.value rfl rfl (.byteArray (List.replicate 32 0x11) (by decide) (by decide))) (.cons (.motes rfl rfl rfl (.u512 4 2500000000 (by decide) (by decide))) .nil))

/-- The hypotheses of `C84_layout_cut_partial` can be met: with an approval or without. -/
example : (run samplePl (Dev.init samplePl) (upload 2 (samplePath 0) [] (1 :: sampleDisguised.tx Blake.H []))).2.getLast? = some .pending ↔
    (run samplePl (Dev.init samplePl) (upload 2 (samplePath 0) [] (1 :: sampleDisguised.tx Blake.H [sampleApproval]))).2.getLast? = some .pending :=
  C84_layout_cut_partial samplePl (by decide) (Dev.init samplePl) (.init _) (samplePath 0) rfl (by decide) [] [] _ _ _ _ rfl (by decide +kernel) rfl (by decide +kernel)
    sampleDisguised.content _ _ _ _ _ _ (TxPayload.says (H := Blake.H) (ap := []) sampleDisguised_ok (by simp) (by decide +kernel))
    (TxPayload.says (H := Blake.H) (ap := [sampleApproval]) sampleDisguised_ok sampleApproval_ok (by decide +kernel)) 2 _ rfl (by decide) rfl rfl sampleDisguised_ok.args
    (by decide +kernel) (by decide +kernel) (by decide) (by intro h; cases h) (by intro h; cases h) _ sampleDisguised_lines

/-- Those of `C44_accepted_cut_partial`: the review shows 2.5 CSPR, though Casper finds another amount. -/
example (rx : Bytes) (pin : Bool) (d' : Dev) (hins : rx.getD 1 0 = 2) (hx : rx.drop 5 = 1 :: sampleDisguised.tx Blake.H [])
    (h : step samplePl (Dev.init samplePl) (.apdu rx pin) = (d', .pending)) (o : Nat) :
    ∃ o', reviewItem samplePl d' .tx 5 o = .ok (b!"Amount", motesOf 2500000000) o' :=
  C44_accepted_cut_partial samplePl (by decide) (Dev.init samplePl) d' (.init _) rx pin hins _ hx h
    sampleDisguised.content _ _ _ (TxPayload.says (H := Blake.H) (ap := []) sampleDisguised_ok (by simp) (by decide +kernel)) 2 _ rfl (by decide) rfl rfl sampleDisguised_ok.args
    (by decide +kernel) (by decide) (by intro h; cases h) (by intro h; cases h) _ sampleDisguised_lines 1 _ rfl o

end Casper
