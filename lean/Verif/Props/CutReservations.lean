import Verif.Props.CutNames
import Verif.Props.Counts

/-!
# Reservations whose argument names contain zero bytes

As in `CutNames`, for the list of reservations (operation 10) and its cancellation (operation 11).
-/

namespace Casper

open M

theorem cut_take (as : List Arg) (k : Nat) : (cut as).take k = cut (as.take k) := by simp [cut]

theorem getData_take_cut {e : Env} {name : Bytes} {off k : Nat} {as : List Arg} {a : Arg} (hf : Fits e)
    (hok : ∀ x ∈ as, x.Ok) (ha : argNamed ((cut as).take k) name = some a)
    (h : At e.buf off (encodeArgs as)) :
    ∃ o, getData e name k off = .ok (a.value.length, a.ty.tag) o ∧ At e.buf o (a.value ++ a.ty.encode) := by
  rw [cut_take] at ha
  obtain ⟨pre, b, post, h0, rfl, h1, h2⟩ := cut_find ha
  have hlen : pre.length < k := by
    have := congrArg List.length h0
    rw [List.length_take, List.length_append, List.length_cons] at this
    omega
  obtain ⟨post', rfl⟩ : ∃ post', as = pre ++ b :: post' :=
    ⟨post ++ as.drop k, by rw [← List.cons_append, ← List.append_assoc, ← h0, List.take_append_drop]⟩
  have hg := getData_at (k := k) hf (fun x hx => hok x (by simp [hx])) (hok b (by simp)) h2 h1 hlen h
  refine ⟨_, hg.1, ?_⟩
  rw [At.append]
  refine ⟨hg.2, ?_⟩
  have h3 : At e.buf (off + (encodeArgs pre).length) b.encode := by
    have he : encodeArgs (pre ++ b :: post') = encodeArgs pre ++ (b.encode ++ encodeArgs post') := by
      clear hg h h2 h1 ha hok h0 hlen
      induction pre with
      | nil => rfl
      | cons b pre ih => simp [encodeArgs, ih]
    rw [he, At.append, At.append] at h
    exact h.2.1
  exact (arg_at h3).2.2.2

theorem listLine_at_cut {e : Env} {name : Bytes} {off k n : Nat} {as : List Arg} {a : Arg} (hf : Fits e)
    (hok : ∀ x ∈ as, x.Ok) (ha : ListArg (cut as) k name n a) (h : At e.buf off (encodeArgs as)) :
    ∃ o l t, getData e name k off = .ok (l, t) o ∧ byteAt e o o = .ok (n % 256) o ∧ slice e o l o = .ok a.value o := by
  obtain ⟨h1, rest, h2⟩ := ha
  obtain ⟨o, h3, h4⟩ := getData_take_cut hf hok h1 h
  have h5 := (At.append.1 h4).1
  refine ⟨o, _, _, h3, ?_, slice_at h5 rfl⟩
  obtain ⟨b, xs, h6, h7⟩ := listByte n rest
  rw [h2, h6] at h5
  rw [byteAt_at h5, h7]

theorem itemRsv_cut {e : Env} {v : V1} {as : List Arg} {off t : Nat} (hf : Fits e) (hok : ∀ a ∈ as, a.Ok)
    (h : At e.buf off (encodeArgs as)) (hep : v.epType = t) (hoff : v.argsOff = off) (h16 : off < 65536)
    {lines : List (Bytes × Bytes)} (hl : RsvLines e.blake (cut as) t lines) {i : Nat} {kv : Bytes × Bytes}
    (hi : lines[i]? = some kv) (o : Nat) : ∃ c, itemEntry e v i o = .ok kv c := by
  have hseek : seek v.argsOff o = .ok () off := by
    rw [hoff]; show Res.ok () (u16 off) = _; unfold u16; rw [Nat.mod_eq_of_lt h16]
  unfold itemEntry
  refine exThen hseek ?_
  cases hl with
  | @add n a ha =>
    rw [if_neg (by omega), if_neg (by omega), if_neg (by omega), if_pos hep]
    obtain ⟨q, l, ty, h1, h2, h3⟩ := listLine_at_cut hf hok ha h
    unfold itemAddRsv
    match i, hi with
    | 0, hi =>
      simp only [listLines, List.getElem?_cons_zero, Option.some.injEq] at hi
      subst hi
      rw [if_neg (by omega)]
      refine exThen h1 (exThen (get_run q) ?_)
      rw [if_pos rfl]
      exact exThen h2 ⟨q, by rw [decimal_eq]; rfl⟩
    | 1, hi =>
      simp only [listLines, List.getElem?_cons_zero, List.getElem?_cons_succ, Option.some.injEq] at hi
      subst hi
      rw [if_neg (by omega)]
      refine exThen h1 (exThen (get_run q) ?_)
      rw [if_neg (by omega)]
      exact exThen h3 ⟨q, by rw [C20_checksum_hex]; rfl⟩
    | i + 2, hi => simp [listLines] at hi
  | @cancel w text n a hw hs ha =>
    rw [if_neg (by omega), if_neg (by omega), if_neg (by omega), if_neg (by omega), if_pos hep]
    obtain ⟨q, l, ty, h1, h2, h3⟩ := listLine_at_cut hf hok ha h
    unfold itemCancelRsv
    match i, hi with
    | 0, hi =>
      simp only [listLines, List.getElem?_cons_zero, Option.some.injEq] at hi
      subst hi
      rw [if_neg (by omega), if_pos rfl]
      obtain ⟨q', k1, k2⟩ := getData_take_cut hf hok hw h
      obtain ⟨c, k3⟩ := displayArg_at hf hs k2
      exact ⟨c, by unfold showArg; rw [bind_run, k1, Res.bind_ok]; dsimp only; rw [bind_run, k3]; rfl⟩
    | 1, hi =>
      simp only [listLines, List.getElem?_cons_zero, List.getElem?_cons_succ, Option.some.injEq] at hi
      subst hi
      rw [if_neg (by omega), if_neg (by omega)]
      refine exThen h1 (exThen (get_run q) ?_)
      rw [if_pos rfl]
      exact exThen h2 ⟨q, by rw [decimal_eq]; rfl⟩
    | 2, hi =>
      simp only [listLines, List.getElem?_cons_zero, List.getElem?_cons_succ, Option.some.injEq] at hi
      subst hi
      rw [if_neg (by omega), if_neg (by omega)]
      refine exThen h1 (exThen (get_run q) ?_)
      rw [if_neg (by omega)]
      exact exThen h3 ⟨q, by rw [C20_checksum_hex]; rfl⟩
    | i + 3, hi => simp [listLines] at hi

/-- **C84, reservations with any argument names.**  Reservations and cancellations, all argument names, zero bytes included: what counts is each name up to its first zero byte. -/
theorem C84_reservation_cut_partial (pl : Platform) (hcap : pl.cap ≤ 16384) (d : Dev) (hd : d.Ok pl) (path : Bytes)
    (hlen : path.length = 20) (hpath : casperPath path) (cs : List Bytes) (last xs : Bytes)
    (hcs : cs.flatten ++ last = 1 :: xs) (hfit : (cs.flatten ++ last).length ≤ pl.cap)
    (c : Content) (pos n : Nat) (payload : Bytes) (hc : Says pl.blake c pos n payload xs) (t : Nat) (as : List Arg)
    (he : c.entry = .op t) (htg : c.target = .native) (ha : c.args = .named as) (hok : ∀ a ∈ as, a.Ok)
    (hpos : pos < 256) (hpr : d.expert = true → c.pricing.Small)
    (lines : List (Bytes × Bytes)) (hl : RsvLines pl.blake (cut as) t lines) :
    ((run pl d (upload 2 path cs last)).2 = List.replicate (cs.length + 1) (.reply [] 0x9000) ++ [.pending] ↔ c.Presentable pl.fmtTime d.expert) ∧
    (c.Presentable pl.fmtTime d.expert →
      ∃ d' time ttl, (d.expert = true → pl.fmtTime (c.time / 1000) = some time ∧ duration ttl = c.ttl / 1000) ∧
        run pl d (upload 2 path cs last) = (d', List.replicate (cs.length + 1) (.reply [] 0x9000) ++ [.pending]) ∧
        Displays pl d' (c.screens pl.blake payload d.expert n time ttl lines) ∧
        (step pl d' .approve).2 = signatureReply pl path (pl.sha256 (pl.blake payload))) := by
  have hgood : ∀ as', c.args = .named as' → GoodTypes as' := by
    intro as' h' a hm; rw [ha] at h'; cases h'; exact ⟨(hok a hm).aligned, (hok a hm).supported⟩
  have ht : t = 10 ∨ t = 11 := by cases hl <;> simp
  have hfew : lines.length = (if t = 10 then 2 else 3) := by cases hl <;> rfl
  have hreq : ∀ r ∈ opRequired t, ∃ a, argNamed (cut as) r.1 = some a ∧ (r.2 = true → a.ty = .u512) := by
    cases hl with
    | add ha =>
      intro r hr
      simp only [opRequired, List.mem_cons, List.not_mem_nil, or_false] at hr
      subst hr
      exact ⟨_, argNamed_take ha.1, by simp⟩
    | cancel hw _ ha =>
      intro r hr
      simp only [opRequired, List.mem_cons, List.not_mem_nil, or_false] at hr
      rcases hr with rfl | rfl
      · exact ⟨_, argNamed_take hw, by simp⟩
      · exact ⟨_, argNamed_take ha.1, by simp⟩
  have hlt : lines.length ≤ 3 := by rw [hfew]; split <;> omega
  have key := upload_says pl hcap d hd path hlen hpath cs last xs hcs hfit hc hgood hpos hpr
    (lines := lines) (by omega) (R := True)
    (fun B v hs g _ => by
      obtain ⟨-, n2, -, -, n5⟩ := g.named as ha
      have hep : v.epType = t := by rw [g.ep, he]; rfl
      refine ⟨?_, by omega, fun _ _ => by omega, fun {i kv} hi o => itemRsv_cut hs.fits hok n5 hep (by rw [g.argsOff, u8_id hpos]) (by omega) hl hi o⟩
      rw [htg, he, hfew]
      show 0 + entryItems _ t _ = _
      unfold entryItems
      rcases ht with rfl | rfl <;> simp)
    (fun B v hs g => ⟨fun _ => (sane_iff_cut hs g he (by omega) htg ha hok hpos).1 hreq, fun _ => trivial⟩)
  simpa using key

/-- Its hypotheses are met by a cancellation whose names end in zero bytes. -/
example : ∃ lines, RsvLines samplePl.blake (cut ((cancelArgs 2).map Arg.marked)) 11 lines :=
  ⟨_, .cancel (v := ⟨b!"validator", 1 :: List.replicate 32 0x22, .publicKey⟩) rfl (.ed25519 (List.replicate 32 0x22) rfl)
    (n := 2) (a := ⟨b!"delegators", encodeList (List.replicate 2 samplePurse), .list .any⟩) ⟨rfl, (List.replicate 2 samplePurse).flatten, rfl⟩⟩

end Casper
