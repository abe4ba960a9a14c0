import Verif.Spec.Loose
import Verif.Lib.CanonArgs
import Verif.Props.Effort
import Verif.Lib.V1
/-
What version 1 transactions consist of when they are accepted.
-/
namespace Casper
open M

theorem entriesFrom_length (os : List Nat) : ∀ i, (entriesFrom i os).length = 6 * os.length := by
  induction os with
  | nil => intro i; rfl
  | cons o os ih => intro i; simp only [entriesFrom, List.length_append, le_length, List.length_cons, ih]; omega
theorem entriesFrom_snoc (os : List Nat) (o : Nat) : ∀ i, entriesFrom i (os ++ [o]) = entriesFrom i os ++ (le 2 (i + os.length) ++ le 4 o) := by
  induction os with
  | nil => intro i; simp [entriesFrom]
  | cons x os ih =>
    intro i
    simp only [List.cons_append, entriesFrom, ih, List.append_assoc, List.length_cons]
    rw [show i + 1 + os.length = i + (os.length + 1) by omega]
theorem looseTable_length (c : Nat) (os : List Nat) (n : Nat) : (looseTable c os n).length = 8 + 6 * os.length := by
  simp only [looseTable, List.length_append, le_length, entriesFrom_length]; omega

theorem entries_at {buf : Bytes} {off : Nat} {f : Nat → Nat} {n : Nat} (ho : off ≤ buf.length) (h : ∀ j, j < n → At buf (off + 6 * j) (le 2 j ++ le 4 (f j))) :
    At buf off (entriesFrom 0 ((List.range n).map f)) := by
  induction n with
  | zero => exact At.nil ho
  | succ n ih =>
    rw [List.range_succ, List.map_append, List.map_singleton, entriesFrom_snoc, At.append]
    refine ⟨ih fun j hj => h j (by omega), ?_⟩
    have := h n (by omega)
    simpa [entriesFrom_length] using this

/-- A table as bytes. -/
theorem Table.bytes {e : Env} {off : Nat} {m : Meta} (h : Table e off m) : ∃ count size, count % 256 = m.numFields ∧ size % 65536 = m.fieldsSize ∧
    At e.buf off (looseTable count ((List.range m.numFields).map m.fo) size) := by
  obtain ⟨c, h1, h2⟩ := h.count
  obtain ⟨n, h3, h4⟩ := h.fields
  refine ⟨c, n, h2.symm, h4.symm, ?_⟩
  unfold looseTable
  have := h1.le
  rw [le_length] at this
  rw [List.append_assoc, At.append, At.append]
  refine ⟨h1, ?_, ?_⟩
  · rw [le_length]; exact entries_at this h.entry
  · rw [entriesFrom_length, le_length]; simpa using h3

theorem Table.heads {e : Env} {off : Nat} {m : Meta} (h : Table e off m) {fs : List Bytes} {n : Nat} {whole : Bool}
    (hn : ∀ j, j < n → m.fo j = startOf fs j) (hpos : ∀ j, 0 < j → j < n → 0 < startOf fs j) (hw : whole = true → m.fieldsSize = fs.flatten.length) :
    ∃ t, At e.buf off t ∧ t.length = m.size ∧ Heads fs n whole t := by
  obtain ⟨c, sz, h1, h2, h3⟩ := h.bytes
  refine ⟨_, h3, by rw [looseTable_length, h.size]; simp, c, _, sz, rfl, by simpa using h1, by have := h.pos; simp; omega, by simpa using h.le10, ?_, fun w => by rw [h2, hw w]⟩
  intro j hj
  have hlt : j < m.numFields := by
    by_contra hc
    have h0 := h.none j (by omega)
    have h1 := hn j hj
    by_cases hz : j = 0
    · have := h.pos; omega
    · have := hpos j (by omega) hj; omega
  simp [hlt, hn j hj]

/-- From `a` to `b`, if `b` is within the data, stand bytes as in `R`. -/
def Spans (e : Env) (a b : Nat) (R : Bytes → Prop) : Prop := b ≤ e.buf.length → ∃ xs, At e.buf a xs ∧ b = a + xs.length ∧ R xs

theorem Spans.mono {e : Env} {a b : Nat} {R S : Bytes → Prop} (h : Spans e a b R) (hs : ∀ xs, R xs → S xs) : Spans e a b S := fun hb =>
  let ⟨xs, h1, h2, h3⟩ := h hb; ⟨xs, h1, h2, hs xs h3⟩

/-- A table and its fields. -/
theorem Table.loose {e : Env} {off b : Nat} {m : Meta} (h : Table e off m) {fs : List Bytes} {n : Nat} {whole : Bool}
    (hf : At e.buf (off + m.size) fs.flatten) (hb : b = off + m.size + fs.flatten.length)
    (hn : ∀ j, j < n → m.fo j = startOf fs j) (hpos : ∀ j, 0 < j → j < n → 0 < startOf fs j) (hw : whole = true → m.fieldsSize = fs.flatten.length) :
    ∃ xs, At e.buf off xs ∧ b = off + xs.length ∧ LooseAs n whole fs xs := by
  obtain ⟨t, h1, h2, h3⟩ := h.heads hn hpos hw
  refine ⟨t ++ fs.flatten, At.append.2 ⟨h1, by rw [h2]; exact hf⟩, by rw [List.length_append]; omega, t, h3, rfl⟩

/-- An offset is what the check says. -/
theorem at_pos {s b x : Nat} (h : s = u32 (b + x)) (hx : x < 4294967296) (hb : b ≤ s) : x = s - b := by unfold u32 at h; omega
theorem at_end {s b x : Nat} (h : s = u32 (b + x)) (hx : x < 65536) (hb : b < 65536) : x = s - b ∧ b ≤ s := by unfold u32 at h; omega

/-! ### The header -/

theorem readPublicKey_spans {e : Env} {off : Nat} (hs : Small e) :
    Post (readPublicKey e) off (fun _ t => off < t ∧ t ≤ off + 34 ∧ Spans e off t (fun xs => xs = [0] ∨ (∃ k, k.length = 32 ∧ xs = 1 :: k) ∨ ∃ k, k.length = 33 ∧ xs = 2 :: k)) := by
  refine (readPublicKey_post hs).mono fun _ t ⟨k, h1, h2⟩ => ?_
  refine ⟨by omega, by omega, fun ht => ?_⟩
  rcases h2 with ⟨rfl, rfl⟩ | ⟨rfl, rfl⟩ | ⟨rfl, rfl⟩
  · exact ⟨_, h1, rfl, .inl rfl⟩
  · obtain ⟨k, g1, g2⟩ := at_mid (buf := e.buf) (a := off + 1) (b := off + 33) (by omega) ht
    exact ⟨1 :: k, At.cons.2 ⟨h1, g1⟩, by simp; omega, .inr (.inl ⟨k, by omega, rfl⟩)⟩
  · obtain ⟨k, g1, g2⟩ := at_mid (buf := e.buf) (a := off + 1) (b := off + 34) (by omega) ht
    exact ⟨2 :: k, At.cons.2 ⟨h1, g1⟩, by simp; omega, .inr (.inr ⟨k, by omega, rfl⟩)⟩

theorem readHash_spans {e : Env} {off : Nat} (h : off + 32 < 65536) :
    Post readHash off (fun _ t => t = off + 32 ∧ Spans e off t (fun xs => xs.length = 32)) :=
  (readHash_post h).mono fun _ t h1 => ⟨h1, fun hb => by
    obtain ⟨k, g1, g2⟩ := at_mid (buf := e.buf) (a := off) (b := t) (by omega) hb
    exact ⟨k, g1, by omega, by omega⟩⟩

theorem readInitiator_spans {e : Env} {s : VS} (hs : Small e) (hb : payloadFirst s.v = s.off) :
    Post (readInitiator e) s (fun _ t => ∃ h, t.v = { s.v with header := h } ∧ Spans e s.off t.off LooseInit) := by
  unfold readInitiator
  refine Post.lvThen readMetadata_post fun m o ⟨h1, h2⟩ => Post.getThen (Post.requireThen fun h3 => ?_)
  have hsz := h2.size_le
  have hin := h2.inside
  subst h1
  unfold Small at hs
  refine Post.atOffThen fun a0 => Post.modifyThen (Post.lvThen readU8_post fun tag o ⟨h4, h5, h6, h7⟩ => ?_)
  refine Post.requireThen fun h8 => Post.atOffThen fun a1 => Post.getThen ?_
  dsimp only at a0 a1 h4 h6 ⊢
  rw [hb] at a0 a1 ⊢
  subst h6
  have f0 := at_pos a0 (h2.lt 0) (by omega)
  have f1 := at_pos a1 (h2.lt 1) (by omega)
  refine Post.lvThen (P := fun _ o => s.off + m.size + 1 < o ∧ o ≤ s.off + m.size + 35 ∧ Spans e (s.off + m.size + 1) o (fun xs =>
    ∃ fs : List Bytes, (fs = [[0], [0]] ∨ (∃ k, k.length = 32 ∧ fs = [[0], 1 :: k]) ∨ (∃ k, k.length = 33 ∧ fs = [[0], 2 :: k]) ∨
    ∃ h, h.length = 32 ∧ fs = [[1], h]) ∧ fs = [[UInt8.ofNat tag], xs])) ?_ fun _ o ⟨k1, k2, k3⟩ => ?_
  · unfold initiatorKey
    refine Post.ite (fun h => ?_) fun h => ?_
    · subst h
      refine (readPublicKey_spans hs).mono fun _ t ⟨g1, g2, g3⟩ => ⟨g1, by omega, g3.mono fun xs hx => ⟨[[0], xs], ?_, rfl⟩⟩
      rcases hx with rfl | ⟨k, hk, rfl⟩ | ⟨k, hk, rfl⟩
      · exact .inl rfl
      · exact .inr (.inl ⟨k, hk, rfl⟩)
      · exact .inr (.inr (.inl ⟨k, hk, rfl⟩))
    · obtain rfl : tag = 1 := by omega
      show Post readHash (s.off + m.size + 1) _
      exact (readHash_spans (e := e) (by omega)).mono fun _ t ⟨g1, g2⟩ => ⟨by omega, by omega, g2.mono fun xs hx => ⟨[[1], xs], .inr (.inr (.inr ⟨xs, hx, rfl⟩)), rfl⟩⟩
  · refine Post.atOffThen fun a2 => Post.getThen (Post.modify ⟨_, rfl, fun ht => ?_⟩)
    dsimp only at a2 ht ⊢
    obtain ⟨xs, g1, g2, fs, g3, rfl⟩ := k3 ht
    obtain ⟨f2, f3⟩ := at_end a2 h2.fs_lt (by omega)
    have hl : ([[UInt8.ofNat tag], xs] : List Bytes).flatten.length = 1 + xs.length := by simp; omega
    obtain ⟨ys, y1, y2, y3⟩ := h2.loose (fs := [[UInt8.ofNat tag], xs]) (n := 2) (whole := true) (b := o)
      (by simp only [List.flatten_cons, List.flatten_nil, List.append_nil]; exact At.append.2 ⟨h4, g1⟩) (by rw [hl]; omega)
      (fun j hj => by
        match j, hj with
        | 0, _ => rw [f0]; simp [startOf]
        | 1, _ => rw [f1]; simp [startOf])
      (fun j h0 hj => by
        match j, hj with
        | 0, _ => omega
        | 1, _ => simp [startOf])
      (fun _ => by rw [hl]; omega)
    exact ⟨ys, y1, y2, _, g3, y3, by rw [hl]; have := h2.size; omega⟩

theorem readBytes_spans {e : Env} {off : Nat} (hp : Plain e off) :
    Post (readBytes e) off (fun n t => ∃ xs, xs.length = n ∧ At e.buf off (pfx xs) ∧ t = off + (pfx xs).length ∧ t ≤ e.buf.length) :=
  readBytes_post.mono fun n t ⟨h1, h2, h3, h4, h5⟩ => by
    obtain ⟨k1, k2⟩ := (item_forward hp.fits h1 h2 h3 h4 h5).resolve_right hp.plain
    obtain ⟨xs, g1, g2⟩ := at_mid k1 k2
    have hn : n < 4294967296 - 65536 := by
      by_contra hc
      exact hp.plain ⟨off, n, Nat.le_refl _, h1, by omega, h2⟩
    have hf : e.buf.length ≤ 65535 := hp.fits
    have ht : t = off + 4 + n := by
      rw [h5]; unfold u32 at h4; unfold u16; omega
    have hl : xs.length = n := by omega
    subst hl
    exact ⟨xs, rfl, At.append.2 ⟨h1, by rw [le_length]; exact g1⟩, by rw [pfx_length]; omega, k2⟩

theorem readPricing_spans {e : Env} {s : VS} (hs : Small e) (hb : payloadFirst s.v + s.v.pmd.fo 4 = s.off) :
    Post (readPricing e) s (fun _ t => s.off < t.off ∧ ∃ h, t.v = { s.v with header := h } ∧ Spans e s.off t.off LoosePricing) := by
  unfold readPricing
  unfold Small at hs
  refine Post.lvThen readMetadata_post fun m o ⟨h1, h2⟩ => Post.getThen (Post.atOffThen fun a0 => Post.modifyThen ?_)
  have hsz := h2.size_le
  have hin := h2.inside
  subst h1
  dsimp only at a0 ⊢
  rw [hb] at a0 ⊢
  refine Post.lvThen readU8_post fun tag o ⟨h4, h5, h6, h7⟩ => Post.atOffThen fun a1 => ?_
  dsimp only at a1 h4 h6 ⊢
  subst h6
  have f0 := at_pos a0 (h2.lt 0) (by omega)
  have f1 := at_pos a1 (h2.lt 1) (by omega)
  refine Post.seq (P := fun _ t => s.off + m.size < t.off ∧ t.off < 65536 ∧ (∃ h, t.v = { s.v with header := h }) ∧ Spans e (s.off + m.size) t.off (fun xs =>
    ∃ fs : List Bytes, ((∃ amount gas standard, amount < 2 ^ 64 ∧ gas < 256 ∧ fs = [[0], le 8 amount, le 1 gas, [standard]]) ∨
    (∃ gas extra, gas < 256 ∧ extra < 256 ∧ fs = [[1], le 1 gas, le 1 extra]) ∨ ∃ r, r.length = 32 ∧ fs = [[2], r]) ∧ xs = fs.flatten ∧
    (∀ j, j < fs.length → m.fo j = startOf fs j) ∧ ∀ j, 0 < j → j < fs.length → 0 < startOf fs j)) ?_ fun _ t ⟨k1, k2, ⟨h, k3⟩, k4⟩ => ?_
  · unfold pricingFields
    refine Post.ite (fun h => ?_) fun _ => Post.ite (fun h => ?_) fun _ => Post.ite (fun h => ?_) fun _ => Post.fail
    · subst h
      refine Post.lvThen readU64_post fun am o ⟨b1, b2, b3, b4⟩ => Post.atOffThen fun a2 => Post.lvThen readU8_post fun g o ⟨c1, c2, c3, c4⟩ =>
        Post.atOffThen fun a3 => Post.lvThen readU8_post fun st o ⟨d1, d2, d3, d4⟩ => Post.pure ?_
      dsimp only at a2 a3 b1 b3 c1 c3 d1 d3 ⊢
      subst b3 c3 d3
      have f2 := at_pos a2 (h2.lt 2) (by omega)
      have f3 := at_pos a3 (h2.lt 3) (by omega)
      refine ⟨by omega, by omega, ⟨_, rfl⟩, fun _ => ⟨[0] ++ (le 8 am ++ (le 1 g ++ [UInt8.ofNat st])), ?_, by simp, [[0], le 8 am, le 1 g, [UInt8.ofNat st]],
        .inl ⟨am, g, _, b2, c2, rfl⟩, by simp, ?_, ?_⟩⟩
      · refine At.append.2 ⟨h4, At.append.2 ⟨b1, At.append.2 ⟨?_, ?_⟩⟩⟩
        · simpa [le, Nat.mod_eq_of_lt c2] using c1
        · simpa using d1
      · intro j hj
        match j, hj with
        | 0, _ => rw [f0]; simp [startOf]
        | 1, _ => rw [f1]; simp [startOf]
        | 2, _ => rw [f2]; simp [startOf]; omega
        | 3, _ => rw [f3]; simp [startOf]; omega
      · intro j h0 hj
        match j, hj with
        | 0, _ => omega
        | 1, _ => simp [startOf]
        | 2, _ => simp [startOf]
        | 3, _ => simp [startOf]
    · subst h
      refine Post.lvThen readU8_post fun g o ⟨b1, b2, b3, b4⟩ => Post.atOffThen fun a2 => Post.lvThen readU8_post fun x o ⟨c1, c2, c3, c4⟩ => Post.pure ?_
      dsimp only at a2 b1 b3 c1 c3 ⊢
      subst b3 c3
      have f2 := at_pos a2 (h2.lt 2) (by omega)
      refine ⟨by omega, by omega, ⟨_, rfl⟩, fun _ => ⟨[1] ++ (le 1 g ++ le 1 x), ?_, by simp, [[1], le 1 g, le 1 x],
        .inr (.inl ⟨g, x, b2, c2, rfl⟩), by simp, ?_, ?_⟩⟩
      · refine At.append.2 ⟨h4, At.append.2 ⟨?_, ?_⟩⟩
        · simpa [le, Nat.mod_eq_of_lt b2] using b1
        · simpa [le, Nat.mod_eq_of_lt c2] using c1
      · intro j hj
        match j, hj with
        | 0, _ => rw [f0]; simp [startOf]
        | 1, _ => rw [f1]; simp [startOf]
        | 2, _ => rw [f2]; simp [startOf]; omega
      · intro j h0 hj
        match j, hj with
        | 0, _ => omega
        | 1, _ => simp [startOf]
        | 2, _ => simp [startOf]
    · subst h
      refine (Post.lv (readHash_spans (e := e) (by dsimp only; omega))).mono fun _ t ⟨g0, g1, g2⟩ => ?_
      rw [g0] at g1 ⊢
      dsimp only at g1 g2 ⊢
      refine ⟨by omega, by omega, ⟨_, rfl⟩, fun ht => ?_⟩
      obtain ⟨r, r1, r2, r3⟩ := g2 ht
      refine ⟨[2] ++ r, At.append.2 ⟨h4, r1⟩, by simp; omega, [[2], r], .inr (.inr ⟨r, r3, rfl⟩), by simp, ?_, ?_⟩
      · intro j hj
        match j, hj with
        | 0, _ => rw [f0]; simp [startOf]
        | 1, _ => rw [f1]; simp [startOf]
      · intro j h0 hj
        match j, hj with
        | 0, _ => omega
        | 1, _ => simp [startOf]
  · refine Post.atOffThen fun a2 => Post.modify ⟨by dsimp only; omega, _, by rw [k3], fun ht => ?_⟩
    dsimp only at a2 ht ⊢
    obtain ⟨xs, g1, g2, fs, g3, rfl, g4, g5⟩ := k4 ht
    obtain ⟨f2, f3⟩ := at_end a2 h2.fs_lt (by omega)
    obtain ⟨ys, y1, y2, y3⟩ := h2.loose (fs := fs) (n := fs.length) (whole := true) (b := t.off) g1 g2 g4 g5 (fun _ => by omega)
    exact ⟨ys, y1, y2, _, g3, y3⟩

theorem readChainName_spans {e : Env} {s : VS} (hp : Plain e s.off) :
    Post (readChainName e) s (fun _ t => (∃ h, t.v = { s.v with header := h }) ∧ ∃ chain, At e.buf s.off (pfx chain) ∧ t.off = s.off + (pfx chain).length ∧
      t.off ≤ e.buf.length) := by
  unfold readChainName
  exact Post.lvThen (readBytes_spans hp) fun len o ⟨xs, h1, h2, h3, h4⟩ => Post.modify ⟨⟨_, rfl⟩, xs, h2, h3, h4⟩

theorem readV1Header_spans {e : Env} {s : VS} (hs : Small e) (hp : Plain e 0) (hb : payloadFirst s.v = s.off) (hlt : ∀ j, s.v.pmd.fo j < 4294967296) :
    Post (readV1Header e) s (fun _ t => t.v.md = s.v.md ∧ t.v.pmd = s.v.pmd ∧ Spans e s.off t.off (fun xs => ∃ fs, LooseHeader fs ∧ xs = fs.flatten ∧
      (∀ j, j < 6 → s.v.pmd.fo j = startOf fs j) ∧ ∀ j, 0 < j → j < 6 → 0 < startOf fs j)) := by
  unfold readV1Header
  simp only [incrExpert_eq]
  refine Post.getThen (Post.atOffThen fun a0 => (readInitiator_spans hs hb).seq fun _ t ⟨h, ht, hi⟩ => ?_)
  obtain ⟨io, iv⟩ := t
  dsimp only at ht hi
  subst ht
  refine Post.modifyThen (Post.atOffThen fun a1 => Post.lvThen readU64_post fun ts o ⟨k1, k2, k3, k4⟩ => ?_)
  refine Post.modifyThen (Post.atOffThen fun a2 => Post.lvThen readU64_post fun ttl o ⟨l1, l2, l3, l4⟩ => ?_)
  dsimp only at a1 a2 k1 k3 l1 l3
  subst k3 l3
  obtain ⟨init, i1, i2, i3⟩ := hi (by omega)
  refine Post.modifyThen (Post.atOffThen fun a3 => (readChainName_spans (hp.mono (Nat.zero_le _))).seq fun _ t ⟨⟨h', ht⟩, chain, c1, c2, c3⟩ => ?_)
  obtain ⟨co, cv⟩ := t
  dsimp only at a3 c1 c2 c3 ht
  subst ht
  refine Post.modifyThen (Post.atOffThen fun a4 => ?_)
  dsimp only at a4
  rw [hb] at a0 a1 a2 a3 a4 ⊢
  unfold Small at hs
  have f0 := at_pos a0 (hlt 0) (by omega)
  have f1 := at_pos a1 (hlt 1) (by omega)
  have f2 := at_pos a2 (hlt 2) (by omega)
  have f3 := at_pos a3 (hlt 3) (by omega)
  have f4 := at_pos a4 (hlt 4) (by omega)
  refine (readPricing_spans hs (by show payloadFirst s.v + s.v.pmd.fo 4 = co; omega)).seq fun _ t ⟨p0, h'', ht, hpr⟩ => ?_
  obtain ⟨po, pv⟩ := t
  dsimp only at p0 ht hpr
  subst ht
  refine Post.atOffThen fun a5 => Post.modifyThen (Post.modify ⟨rfl, rfl, fun hin => ?_⟩)
  dsimp only at a5 hin ⊢
  obtain ⟨pr, q1, q2, q3⟩ := hpr hin
  have f5 := at_pos a5 (hlt 5) (by omega)
  have hcl : (pfx chain).length = 4 + chain.length := pfx_length _
  have hil : 0 < init.length := by
    obtain ⟨fs, -, -, h⟩ := i3
    omega
  refine ⟨init ++ (le 8 ts ++ (le 8 ttl ++ (pfx chain ++ pr))), ?_, ?_, [init, le 8 ts, le 8 ttl, pfx chain, pr], ⟨init, ts, ttl, chain, pr, i3, k2, l2, q3, rfl⟩,
    by simp, ?_, ?_⟩
  · refine At.append.2 ⟨i1, At.append.2 ⟨k1.cast (by omega), At.append.2 ⟨l1.cast (by simp; omega), At.append.2 ⟨c1.cast (by simp; omega), q1.cast (by simp; omega)⟩⟩⟩⟩
  · simp only [List.length_append, le_length]; omega
  · intro j hj
    match j, hj with
    | 0, _ => rw [f0]; simp [startOf]
    | 1, _ => rw [f1]; simp [startOf]; omega
    | 2, _ => rw [f2]; simp [startOf]; omega
    | 3, _ => rw [f3]; simp [startOf]; omega
    | 4, _ => rw [f4]; simp [startOf]; omega
    | 5, _ => rw [f5]; simp [startOf]; omega
  · intro j h0 hj
    match j, hj with
    | 0, _ => omega
    | 1, _ => simp [startOf]; omega
    | 2, _ => simp [startOf]
    | 3, _ => simp [startOf]
    | 4, _ => simp [startOf]
    | 5, _ => simp [startOf]

/-! ### The arguments -/

/-- The loop over named arguments. -/
theorem readNamedArgs_canon {e : Env} {start N : Nat} (hp : Plain e start) (hb : ¬ BadArgs e.buf start N) : ∀ (n : Nat) {off t : Nat} {pre : List Arg},
    At e.buf start (encodeArgs pre) → GoodTypes pre → off = start + (encodeArgs pre).length → pre.length + n ≤ N →
    readNamedArgs e n off = .ok () t →
    ∃ as, as.length = pre.length + n ∧ GoodTypes as ∧ At e.buf start (encodeArgs as) ∧ t = start + (encodeArgs as).length := by
  intro n
  induction n with
  | zero =>
    intro off t pre h1 h2 h3 h4 h
    cases h
    exact ⟨pre, rfl, h2, h1, h3⟩
  | succ n ih =>
    intro off t pre h1 h2 h3 h4 h
    unfold readNamedArgs readClvalue at h
    simp only [bind_eq_ok] at h
    obtain ⟨_, a, g1, _, c, ⟨_, b, g2, r, c', g3, gp⟩, g4⟩ := h
    rw [pure_eq_ok] at gp
    obtain ⟨-, rfl⟩ := gp
    obtain ⟨name, -, p1, rfl, -⟩ := readBytes_spans (hp.mono (by omega)) _ _ g1
    obtain ⟨value, -, q1, rfl, -⟩ := readBytes_spans (hp.mono (by omega)) _ _ g2
    rw [pfx_length, ← Nat.add_assoc] at g3 q1
    rw [pfx_length, ← Nat.add_assoc] at g3
    rcases arg_cases (opt := 0) h1 h2 h3 (by omega) hb p1 q1 with ⟨ty, k1, k2, k3, k4, k5, k6⟩ | ⟨x, s, k, -⟩
    · rw [getType_ok k1 k2 k4] at g3
      cases g3
      obtain ⟨as, l1, l2⟩ := ih k3 k5 k6 (by simp; omega) g4
      refine ⟨as, ?_, l2⟩
      simp only [List.length_append, List.length_singleton] at l1; omega
    · rw [k] at g3; cases g3

/-- Arguments as Casper writes them, with types that are read alike; or one with a bad type among the first. -/
theorem readArgs_spans {e : Env} {s : VS} (hp : Plain e 0) :
    Post (readArgs e) s (fun _ t => t.v.md = s.v.md ∧ t.v.pmd = s.v.pmd ∧ ∃ l, At e.buf s.off (le 4 l) ∧
      ((∃ n, At e.buf (s.off + 4) (0 :: le 4 n) ∧ BadArgs e.buf (s.off + 9) n) ∨
       ∃ a : V1Args, (∀ as, a = .named as → GoodTypes as) ∧ At e.buf (s.off + 4) a.encode ∧ t.off = s.off + 4 + a.encode.length ∧ t.off ≤ e.buf.length)) := by
  unfold readArgs
  refine Post.lvThen readU32_post fun l o ⟨h1, h2, h3, h4⟩ => Post.modifyThen (Post.lvThen readU8_post fun tag o ⟨k1, k2, k3, k4⟩ => ?_)
  dsimp only at h3 k1 k3
  subst h3 k3
  refine Post.ite (fun h => ?_) fun _ => Post.ite (fun h => ?_) fun _ => Post.fail
  · subst h
    refine Post.modifyThen (Post.lvThen readU32_post fun n o ⟨l1, l2, l3, l4⟩ => Post.modifyThen ?_)
    dsimp only at l1 l3
    subst l3
    refine (Post.lv Post.self).mono fun _ t ⟨g0, g1⟩ => ?_
    rw [g0]
    refine ⟨rfl, rfl, l, h1, ?_⟩
    dsimp only at g1 ⊢
    have hat : At e.buf (s.off + 4) (0 :: le 4 n) := At.cons.2 ⟨k1, l1⟩
    by_cases hb : BadArgs e.buf (s.off + 9) n
    · exact .inl ⟨n, hat, hb⟩
    · obtain ⟨as, a1, a2, a3, a4⟩ := readNamedArgs_canon (hp.mono (Nat.zero_le _)) hb n (pre := []) (off := s.off + 4 + 1 + 4) (At.nil (by omega))
        (by intro a ha; cases ha) rfl (by simp) g1
      simp only [List.length_nil, Nat.zero_add] at a1
      refine .inr ⟨.named as, fun x hx => by cases hx; exact a2, ?_, ?_, ?_⟩
      · show At e.buf (s.off + 4) ((0 :: le 4 as.length) ++ encodeArgs as)
        rw [a1]
        exact At.append.2 ⟨hat, a3.cast (by simp)⟩
      · rw [a4]; simp [V1Args.encode, encodeRuntimeArgs]; omega
      · rw [a4]; exact a3.le
  · subst h
    refine Post.modifyThen (Post.lvThen (readBytes_spans (hp.mono (Nat.zero_le _))) fun n o ⟨xs, g1, g2, g3, g4⟩ => Post.modify ?_)
    dsimp only at g2 g3 ⊢
    refine ⟨rfl, rfl, l, h1, .inr ⟨.bytes xs, fun x hx => (by cases hx), At.cons.2 ⟨k1, g2⟩, ?_, g4⟩⟩
    rw [g3]; simp [V1Args.encode]; omega

/-! ### Target, entry point, scheduling -/

/-- A table of which nothing is checked. -/
theorem Table.any {e : Env} {off b : Nat} {m : Meta} (h : Table e off m) {fs : List Bytes} (hf : At e.buf (off + m.size) fs.flatten)
    (hb : b = off + m.size + fs.flatten.length) : ∃ xs, At e.buf off xs ∧ b = off + xs.length ∧ LooseAs 0 false fs xs :=
  h.loose hf hb (fun j hj => absurd hj (by omega)) (fun j _ hj => absurd hj (by omega)) (fun h => by cases h)

theorem readRuntime_spans {e : Env} {off : Nat} (hs : Small e) :
    Post (readRuntime e) off (fun _ t => off < t ∧ t ≤ e.buf.length + 32 ∧ Spans e off t LooseRuntime) := by
  unfold readRuntime Small at *
  refine readMetadata_post.seq fun m t ⟨h1, h2⟩ => ?_
  have hsz := h2.size_le
  have hin := h2.inside
  subst h1
  refine readU8_post.seq fun r t ⟨k1, k2, k3, k4⟩ => Post.ite (fun h => ?_) fun h => Post.require fun h => ?_
  · subst h k3
    refine readU64_post.seq fun x t ⟨l1, l2, l3, l4⟩ => readU8_post.seq fun sd t ⟨m1, m2, m3, m4⟩ => ?_
    subst l3 m3
    refine Post.ite (fun h => ?_) fun h => Post.ite (fun h => Post.pure ?_) fun h => Post.fail
    · subst h
      refine (readHash_spans (e := e) (by omega)).mono fun _ t ⟨g1, g2⟩ => ⟨by omega, by omega, fun hb => ?_⟩
      obtain ⟨sd, s1, s2, s3⟩ := g2 hb
      obtain ⟨xs, x1, x2, x3⟩ := h2.any (fs := (VmRuntime.v2 x (some sd)).fields) (b := t)
        (by
          simp only [VmRuntime.fields, optional, id, List.flatten_cons, List.flatten_nil, List.append_nil]
          exact At.append.2 ⟨k1, At.append.2 ⟨l1, At.cons.2 ⟨m1, s1⟩⟩⟩)
        (by simp [VmRuntime.fields, optional]; omega)
      exact ⟨xs, x1, x2, .v2 x (some sd), fun v s hv => by cases hv; exact s3, x3⟩
    · subst h
      refine ⟨by omega, by omega, fun hb => ?_⟩
      obtain ⟨xs, x1, x2, x3⟩ := h2.any (fs := (VmRuntime.v2 x none).fields) (b := off + m.size + 1 + 8 + 1)
        (by
          simp only [VmRuntime.fields, optional, List.flatten_cons, List.flatten_nil, List.append_nil]
          exact At.append.2 ⟨k1, At.append.2 ⟨l1, m1⟩⟩)
        (by simp [VmRuntime.fields, optional])
      exact ⟨xs, x1, x2, .v2 x none, fun v s hv => (by cases hv), x3⟩
  · subst h k3
    refine ⟨by omega, by omega, fun hb => ?_⟩
    obtain ⟨xs, x1, x2, x3⟩ := h2.any (fs := VmRuntime.v1.fields) (b := off + m.size + 1) (by simpa [VmRuntime.fields] using k1) (by simp [VmRuntime.fields])
    exact ⟨xs, x1, x2, .v1, fun v s hv => (by cases hv), x3⟩

theorem readEntityVersion_spans {e : Env} {off : Nat} :
    Post (readEntityVersion e) off (fun _ t => off < t ∧ t ≤ e.buf.length ∧ ∃ v, (∀ n, v = some n → n < 2 ^ 32) ∧ At e.buf off (optional (le 4) v) ∧
      t = off + (optional (le 4) v).length) := by
  refine readEntityVersion_post.mono fun v t ⟨h1, h2, h3, h4⟩ => ⟨h1, h2, ?_⟩
  rcases h4 with ⟨k1, k2, k3⟩ | ⟨k1, k2, k3⟩
  · exact ⟨none, fun n hn => (by cases hn), k1, k3⟩
  · exact ⟨some v, fun n hn => by cases hn; exact h3, At.cons.2 ⟨k1, k2⟩, by rw [k3]; simp [optional]⟩

theorem storedTarget_spans {e : Env} {s : VS} {tag : Nat} (hs : Small e) (hp : Plain e 0) (ho : s.off ≤ e.buf.length) :
    Post (storedTarget e tag) s (fun _ t => t.v.md = s.v.md ∧ t.v.pmd = s.v.pmd ∧ s.off ≤ t.off ∧
      Spans e s.off t.off (fun xs => ∃ fs, StoredFields fs ∧ [UInt8.ofNat tag] ++ xs = fs.flatten)) := by
  unfold storedTarget Small at *
  simp only [incrExpert_eq]
  refine Post.ite (fun h => ?_) fun h => Post.ite (fun h => ?_) fun h => Post.ite (fun h => ?_) fun h =>
    Post.ite (fun h => ?_) fun _ => Post.fail
  · subst h
    refine Post.modifyThen (Post.lvThen (readHash_spans (e := e) (by dsimp only; omega)) fun _ o ⟨h1, h2⟩ => Post.modify ⟨rfl, rfl, by dsimp only at h1 ⊢; omega, ?_⟩)
    exact h2.mono fun xs hx => ⟨_, .byHash xs hx, by simp⟩
  · subst h
    refine Post.modifyThen (Post.lvThen (readBytes_spans (hp.mono (Nat.zero_le _))) fun n o ⟨xs, h1, h2, h3, h4⟩ => Post.modifyThen (Post.modify ⟨rfl, rfl, by dsimp only at h3 ⊢; omega, fun _ => ?_⟩))
    exact ⟨pfx xs, h2, h3, _, .byName xs, by simp⟩
  · subst h
    refine Post.modifyThen (Post.lvThen (readHash_spans (e := e) (by dsimp only; omega)) fun _ o ⟨h1, h2⟩ => Post.lvThen readEntityVersion_spans fun _ o' ⟨k1, k2, v, k3, k4, k5⟩ => ?_)
    dsimp only at h1 h2 k1 k4 k5
    have fin : ∀ w : VS, w.off = o' → w.v.md = s.v.md → w.v.pmd = s.v.pmd → w.v.md = s.v.md ∧ w.v.pmd = s.v.pmd ∧ s.off ≤ w.off ∧
        Spans e s.off w.off (fun xs => ∃ fs, StoredFields fs ∧ [UInt8.ofNat 2] ++ xs = fs.flatten) := by
      intro w w1 w2 w3
      refine ⟨w2, w3, by omega, fun hb => ?_⟩
      obtain ⟨xs, x1, x2, x3⟩ := h2 (by omega)
      exact ⟨xs ++ optional (le 4) v, At.append.2 ⟨x1, k4.cast (by omega)⟩, by rw [List.length_append]; omega, _, .byPackageHash xs x3 v k3, by simp⟩
    refine Post.modifyThen (Post.modifyThen (Post.ite (fun _ => Post.modify ?_) fun _ => Post.pure ?_)) <;> exact fin _ rfl rfl rfl
  · subst h
    refine Post.modifyThen (Post.lvThen (readBytes_spans (hp.mono (Nat.zero_le _))) fun n o ⟨xs, h1, h2, h3, h4⟩ => Post.modifyThen
      (Post.lvThen readEntityVersion_spans fun _ o' ⟨k1, k2, v, k3, k4, k5⟩ => ?_))
    dsimp only at h2 h3 k1 k4 k5
    have fin : ∀ w : VS, w.off = o' → w.v.md = s.v.md → w.v.pmd = s.v.pmd → w.v.md = s.v.md ∧ w.v.pmd = s.v.pmd ∧ s.off ≤ w.off ∧
        Spans e s.off w.off (fun xs => ∃ fs, StoredFields fs ∧ [UInt8.ofNat 3] ++ xs = fs.flatten) := by
      intro w w1 w2 w3
      refine ⟨w2, w3, by omega, fun hb => ?_⟩
      exact ⟨pfx xs ++ optional (le 4) v, At.append.2 ⟨h2, k4.cast (by omega)⟩, by rw [List.length_append]; omega, _, .byPackageName xs v k3, by simp⟩
    refine Post.modifyThen (Post.modifyThen (Post.ite (fun _ => Post.modify ?_) fun _ => Post.pure ?_)) <;> exact fin _ rfl rfl rfl

theorem readStored_spans {e : Env} {s : VS} (hs : Small e) (hp : Plain e 0) :
    Post (readStored e) s (fun _ t => t.v.md = s.v.md ∧ t.v.pmd = s.v.pmd ∧ Spans e s.off t.off (fun xs => ∃ fs who rt, StoredFields fs ∧
      LooseAs 0 false fs who ∧ LooseRuntime rt ∧ xs = who ++ rt)) := by
  unfold readStored
  refine Post.lvThen readMetadata_post fun m o ⟨h1, h2⟩ => Post.lvThen readU8_post fun tag o' ⟨k1, k2, k3, k4⟩ => ?_
  dsimp only at h1 k1 k3
  subst h1 k3
  refine Post.modifyThen (Post.modifyThen ((storedTarget_spans hs hp k4).seq fun _ t ⟨e1, e2, e3, e4⟩ => ?_))
  dsimp only at e1 e2 e3 e4
  refine (Post.lv (readRuntime_spans hs)).mono fun _ u ⟨g0, g1, g2, g3⟩ => ?_
  refine ⟨by rw [g0]; exact e1, by rw [g0]; exact e2, fun hb => ?_⟩
  obtain ⟨rt, r1, r2, r3⟩ := g3 hb
  obtain ⟨xs, x1, x2, fs, x3, x4⟩ := e4 (by omega)
  obtain ⟨who, w1, w2, w3⟩ := h2.any (fs := fs) (b := t.off) (by rw [← x4]; exact At.append.2 ⟨k1, x1⟩) (by rw [← x4]; simp; omega)
  exact ⟨who ++ rt, At.append.2 ⟨w1, r1.cast (by omega)⟩, by rw [List.length_append]; omega, fs, who, rt, x3, w3, r3, rfl⟩

theorem readTarget_spans {e : Env} {s : VS} (hs : Small e) (hp : Plain e 0) :
    Post (readTarget e) s (fun _ t => t.v.md = s.v.md ∧ t.v.pmd = s.v.pmd ∧ Spans e s.off t.off (fun xs => ∃ l target, LooseTarget target ∧
      xs = le 4 l ++ target)) := by
  unfold readTarget
  refine Post.lvThen readU32_post fun l o ⟨h1, h2, h3, h4⟩ => Post.lvThen readMetadata_post fun m o ⟨k1, k2⟩ => ?_
  have hsz := k2.size_le
  have hin := k2.inside
  refine Post.getThen (Post.atOffThen fun a0 => Post.lvThen readU8_post fun tag o ⟨l1, l2, l3, l4⟩ => ?_)
  dsimp only at h1 h3 k1 k2 hin a0 l1 l3
  subst h3 k1 l3
  unfold Small at hs
  have f0 := at_pos a0 (k2.lt 0) (by omega)
  refine Post.ite (fun h => ?_) fun h => Post.ite (fun h => ?_) fun h => Post.ite (fun h => ?_) fun _ => Post.fail
  · subst h
    refine Post.atOffThen fun a1 => Post.modify ⟨rfl, rfl, fun _ => ?_⟩
    dsimp only at a1 ⊢
    obtain ⟨f1, f2⟩ := at_end a1 k2.fs_lt (by omega)
    obtain ⟨xs, x1, x2, x3⟩ := k2.loose (fs := [[0]]) (n := 1) (whole := true) (b := s.off + 4 + m.size + 1) (by simpa using l1) (by simp)
      (fun j hj => by obtain rfl : j = 0 := by omega
                      rw [f0]; simp [startOf]) (fun j _ hj => by omega) (fun _ => by rw [f1]; simp)
    exact ⟨le 4 l ++ xs, At.append.2 ⟨h1, x1⟩, by simp; omega, l, xs, .native _ x3, rfl⟩
  · subst h
    refine Post.atOffThen fun a1 => (readStored_spans hs hp).mono fun _ t ⟨e1, e2, e3⟩ => ⟨e1, e2, fun hb => ?_⟩
    dsimp only at a1 e3
    have f1 := at_pos a1 (k2.lt 1) (by omega)
    obtain ⟨ys, y1, y2, fs, who, rt, y3, y4, y5, rfl⟩ := e3 hb
    obtain ⟨xs, x1, x2, x3⟩ := k2.loose (fs := [[1], who, rt]) (n := 2) (whole := false) (b := t.off)
      (by simp only [List.flatten_cons, List.flatten_nil, List.append_nil]; exact At.append.2 ⟨l1, y1⟩) (by simp at y2 ⊢; omega)
      (fun j hj => by
        match j, hj with
        | 0, _ => rw [f0]; simp [startOf]
        | 1, _ => rw [f1]; simp [startOf])
      (fun j h0 hj => by
        match j, hj with
        | 0, _ => omega
        | 1, _ => simp [startOf]) (fun h => by cases h)
    exact ⟨le 4 l ++ xs, At.append.2 ⟨h1, x1⟩, by simp; omega, l, xs, .stored fs who rt _ y3 y4 y5 x3, rfl⟩
  · subst h
    refine Post.atOffThen fun a1 => Post.modifyThen (Post.lvThen readBool_post fun b o ⟨b1, b2, b3, b4⟩ => Post.lvThen (readRuntime_spans hs) fun _ o' ⟨c1, c2, c3⟩ =>
      Post.lvThen (readBytes_spans (hp.mono (Nat.zero_le _))) fun n o'' ⟨code, d1, d2, d3, d4⟩ => Post.pure ⟨rfl, rfl, fun hb => ?_⟩)
    dsimp only at a1 b1 b3 c1 c3 d2 d3 ⊢
    subst b3
    have f1 := at_pos a1 (k2.lt 1) (by omega)
    have hcl : (pfx code).length = 4 + code.length := pfx_length _
    obtain ⟨rt, r1, r2, r3⟩ := c3 (by omega)
    obtain ⟨i, hi⟩ : ∃ i : Bool, UInt8.ofNat b = if i then 1 else 0 := by
      rcases (by omega : b = 0 ∨ b = 1) with rfl | rfl
      · exact ⟨false, rfl⟩
      · exact ⟨true, rfl⟩
    obtain ⟨xs, x1, x2, x3⟩ := k2.loose (fs := [[2], [if i then 1 else 0], rt, pfx code]) (n := 2) (whole := false) (b := o'')
      (by
        simp only [List.flatten_cons, List.flatten_nil, List.append_nil]
        rw [← hi]
        exact At.append.2 ⟨l1, At.append.2 ⟨b1, At.append.2 ⟨r1, d2.cast (by simp; omega)⟩⟩⟩) (by simp; omega)
      (fun j hj => by
        match j, hj with
        | 0, _ => rw [f0]; simp [startOf]
        | 1, _ => rw [f1]; simp [startOf])
      (fun j h0 hj => by
        match j, hj with
        | 0, _ => omega
        | 1, _ => simp [startOf]) (fun h => by cases h)
    exact ⟨le 4 l ++ xs, At.append.2 ⟨h1, x1⟩, by simp; omega, l, xs, .session i rt code _ r3 x3, rfl⟩

theorem readEntryPoint_spans {e : Env} {s : VS} (hs : Small e) (hp : Plain e 0) :
    Post (readEntryPoint e) s (fun _ t => t.v.md = s.v.md ∧ t.v.pmd = s.v.pmd ∧ Spans e s.off t.off (fun xs => ∃ l entry, LooseEntry entry ∧
      xs = le 4 l ++ entry)) := by
  unfold readEntryPoint
  refine Post.lvThen readU32_post fun l o ⟨h1, h2, h3, h4⟩ => Post.lvThen readMetadata_post fun m o ⟨k1, k2⟩ => ?_
  have hsz := k2.size_le
  have hin := k2.inside
  refine Post.getThen (Post.atOffThen fun a0 => Post.lvThen readU8_post fun tag o ⟨l1, l2, l3, l4⟩ => Post.requireThen fun ht => ?_)
  dsimp only at h1 h3 k1 k2 hin a0 l1 l3
  subst h3 k1 l3
  unfold Small at hs
  have f0 := at_pos a0 (k2.lt 0) (by omega)
  refine Post.seq (P := fun _ t => t.v.md = s.v.md ∧ t.v.pmd = s.v.pmd ∧ t.off ≤ e.buf.length ∧ ∃ fs : List Bytes, At e.buf (s.off + 4 + m.size) fs.flatten ∧
    t.off = s.off + 4 + m.size + fs.flatten.length ∧ ((tag = 1 ∧ ∃ name, fs = [[1], pfx name] ∧ m.fo 1 = 1) ∨ (tag ≠ 1 ∧ fs = [le 1 tag]))) ?_
    fun _ t ⟨e1, e2, e0, fs, e3, e4, e5⟩ => ?_
  · unfold customName
    refine Post.ite (fun h => ?_) fun h => Post.pure ?_
    · subst h
      refine Post.atOffThen fun a1 => Post.modifyThen (Post.lvThen (readBytes_spans (hp.mono (Nat.zero_le _))) fun n o ⟨name, n1, n2, n3, n4⟩ => Post.modify ?_)
      dsimp only at a1 n2 n3 ⊢
      have f1 := at_pos a1 (k2.lt 1) (by omega)
      have hcl : (pfx name).length = 4 + name.length := pfx_length _
      refine ⟨rfl, rfl, n4, [[1], pfx name], ?_, by simp; omega, .inl ⟨rfl, name, rfl, by omega⟩⟩
      simp only [List.flatten_cons, List.flatten_nil, List.append_nil]
      exact At.append.2 ⟨l1, n2⟩
    · refine ⟨rfl, rfl, l4, [le 1 tag], ?_, by simp, .inr ⟨h, rfl⟩⟩
      simpa [le, Nat.mod_eq_of_lt l2] using l1
  · refine Post.atOffThen fun a2 => Post.modifyThen (Post.modifyThen (Post.getThen (Post.modifyThen (Post.getThen ?_))))
    refine Post.onCopy.mono fun _ u ⟨m1, _⟩ => ?_
    subst m1
    refine ⟨e1, e2, fun _ => ?_⟩
    dsimp only at a2 ⊢
    obtain ⟨f1, f2⟩ := at_end a2 k2.fs_lt (by omega)
    rcases e5 with ⟨rfl, name, rfl, g⟩ | ⟨hne, rfl⟩
    · obtain ⟨xs, x1, x2, x3⟩ := k2.loose (fs := [[1], pfx name]) (n := 2) (whole := true) (b := t.off) e3 e4
        (fun j hj => by
          match j, hj with
          | 0, _ => rw [f0]; simp [startOf]
          | 1, _ => rw [g]; simp [startOf])
        (fun j h0 hj => by
          match j, hj with
          | 0, _ => omega
          | 1, _ => simp [startOf]) (fun _ => by omega)
      exact ⟨le 4 l ++ xs, At.append.2 ⟨h1, x1⟩, by simp; omega, l, xs, .custom name _ x3, rfl⟩
    · obtain ⟨xs, x1, x2, x3⟩ := k2.loose (fs := [le 1 tag]) (n := 1) (whole := true) (b := t.off) e3 e4
        (fun j hj => by obtain rfl : j = 0 := by omega
                        rw [f0]; simp [startOf]) (fun j _ hj => by omega) (fun _ => by omega)
      exact ⟨le 4 l ++ xs, At.append.2 ⟨h1, x1⟩, by simp; omega, l, xs, .op tag _ ht hne x3, rfl⟩

theorem readScheduling_spans {e : Env} {s : VS} (hs : Small e) :
    Post (readScheduling e) s (fun _ t => t.v = s.v ∧ t.off ≤ e.buf.length ∧ Spans e s.off t.off (fun xs => ∃ l sched, LooseAs 1 true [[0]] sched ∧
      xs = le 4 l ++ sched)) := by
  unfold readScheduling
  refine Post.lvThen readU32_post fun l o ⟨h1, h2, h3, h4⟩ => Post.lvThen readMetadata_post fun m o ⟨k1, k2⟩ => ?_
  have hsz := k2.size_le
  have hin := k2.inside
  refine Post.getThen (Post.atOffThen fun a0 => Post.lvThen readU8_post fun tag o ⟨l1, l2, l3, l4⟩ => Post.requireThen fun ht => ?_)
  dsimp only at h1 h3 k1 k2 hin a0 l1 l3
  subst h3 k1 l3 ht
  unfold Small at hs
  have f0 := at_pos a0 (k2.lt 0) (by omega)
  refine Post.atOff fun a1 => ⟨rfl, l4, fun _ => ?_⟩
  dsimp only at a1 ⊢
  obtain ⟨f1, f2⟩ := at_end a1 k2.fs_lt (by omega)
  obtain ⟨xs, x1, x2, x3⟩ := k2.loose (fs := [[0]]) (n := 1) (whole := true) (b := s.off + 4 + m.size + 1) (by simpa using l1) (by simp)
    (fun j hj => by obtain rfl : j = 0 := by omega
                    rw [f0]; simp [startOf]) (fun j _ hj => by omega) (fun _ => by rw [f1]; simp)
  exact ⟨le 4 l ++ xs, At.append.2 ⟨h1, x1⟩, by simp; omega, l, xs, x3, rfl⟩

/-! ### The whole -/

/-- At `off` begins a body whose arguments contain a bad type. -/
def BadBody (e : Env) (off : Nat) : Prop :=
  ∃ l n, At e.buf off (le 4 4 ++ (le 2 0 ++ (le 4 l ++ (0 :: le 4 n)))) ∧ BadArgs e.buf (off + 15) n

theorem readBody_spans {e : Env} {s : VS} (hs : Small e) (hp : Plain e 0) :
    Post (readBody e) s (fun _ t => t.v.md = s.v.md ∧ t.v.pmd = s.v.pmd ∧ s.off < e.buf.length ∧ (BadBody e s.off ∨ (t.off ≤ e.buf.length ∧ 
      ∃ xs, ∃ a : V1Args, (∀ as, a = .named as → GoodTypes as) ∧ At e.buf s.off xs ∧ t.off = s.off + xs.length ∧ LooseBody a.encode xs))) := by
  unfold readBody
  refine Post.lvThen readU32_post fun n o ⟨h1, h2, h3, h4⟩ => Post.requireThen fun h5 => ?_
  subst h3 h5
  refine readKey_post.seq fun _ t ⟨k1, k2, k3⟩ => ?_
  subst k1
  dsimp only at k2 k3 ⊢
  refine (readArgs_spans hp).seq fun _ t1 ⟨e1, e2, l0, a1, a2⟩ => ?_
  dsimp only at e1 e2 a1 a2
  refine readKey_post.seq fun _ t ⟨b1, b2, b3⟩ => ?_
  subst b1
  refine (readTarget_spans hs hp).seq fun _ t2 ⟨e3, e4, c1⟩ => ?_
  refine readKey_post.seq fun _ t ⟨d1, d2, d3⟩ => ?_
  subst d1
  refine (readEntryPoint_spans hs hp).seq fun _ t3 ⟨e5, e6, f1⟩ => ?_
  refine readKey_post.seq fun _ t ⟨g1, g2, g3⟩ => ?_
  subst g1
  refine (readScheduling_spans hs).mono fun _ t4 ⟨e7, i1, i2⟩ => ?_
  dsimp only at e3 e4 e5 e6 e7 c1 f1 i2
  refine ⟨by rw [e7, e5, e3, e1], by rw [e7, e6, e4, e2], by omega, ?_⟩
  rcases a2 with ⟨n, q1, q2⟩ | ⟨a, q1, q2, q3, q4⟩
  · left
    refine ⟨l0, n, At.append.2 ⟨h1, At.append.2 ⟨k2, At.append.2 ⟨a1, q1⟩⟩⟩, ?_⟩
    rw [show s.off + 15 = s.off + 4 + 2 + 9 by omega]; exact q2
  · right
    obtain ⟨tg, c2, c3, l1, target, c4, rfl⟩ := c1 (by omega)
    obtain ⟨en, f2, f3, l2, entry, f4, rfl⟩ := f1 (by omega)
    obtain ⟨sc, i3, i4, l3, sched, i5, rfl⟩ := i2 i1
    refine ⟨i1, _, a, q1, ?_, ?_, l0, l1, l2, l3, target, entry, sched, c4, f4, i5, rfl⟩
    · refine At.append.2 ⟨h1, At.append.2 ⟨k2, At.append.2 ⟨a1, At.append.2 ⟨q2, At.append.2 ⟨b2.cast (by simp; omega), ?_⟩⟩⟩⟩⟩
      rw [← List.append_assoc (le 4 l1)]
      refine At.append.2 ⟨c2.cast (by simp; omega), At.append.2 ⟨d2.cast (by simp at c3 ⊢; omega), ?_⟩⟩
      rw [← List.append_assoc (le 4 l2)]
      exact At.append.2 ⟨f2.cast (by simp at c3 ⊢; omega), At.append.2 ⟨g2.cast (by simp at c3 f3 ⊢; omega), i3.cast (by simp at c3 f3 ⊢; omega)⟩⟩
    · simp at c3 f3 i4 ⊢; omega

theorem readPayload_spans {e : Env} {s : VS} (hs : Small e) (hp : Plain e 0) (hb : s.v.md.size + s.v.md.fo 1 = s.off) :
    Post (readPayload e) s (fun _ t => t.v.md = s.v.md ∧ (
      (∃ fs tb, LooseHeader fs ∧ Heads fs 6 false tb ∧ At e.buf s.off (tb ++ fs.flatten) ∧ BadBody e (s.off + (tb ++ fs.flatten).length)) ∨
      ∃ xs, ∃ a : V1Args, (∀ as, a = .named as → GoodTypes as) ∧ At e.buf s.off xs ∧ t.off = s.off + xs.length ∧ LoosePayload a.encode xs)) := by
  unfold readPayload
  refine Post.lvThen readMetadata_post fun m o ⟨h1, h2⟩ => Post.modifyThen (Post.getThen (Post.atOffThen fun a0 => ?_))
  subst h1
  have hsz := h2.size_le
  have hin := h2.inside
  dsimp only at a0 ⊢
  have hpf : payloadFirst { s.v with pmd := m } = s.off + m.size := by unfold payloadFirst; dsimp only; omega
  rw [hpf] at a0 ⊢
  refine (readV1Header_spans hs hp hpf h2.lt).seq fun _ t ⟨e1, e2, e3⟩ => Post.atOffThen fun _ => ?_
  dsimp only at e1 e2 e3
  refine (readBody_spans hs hp).seq fun _ u ⟨e4, e5, e6, e7⟩ => Post.atOff fun a6 => ⟨by rw [e4, e1], ?_⟩
  obtain ⟨hx, x1, x2, fs, x3, rfl, x4, x5⟩ := e3 (by omega)
  unfold Small at hs
  rcases e7 with hbad | ⟨e7, xs, a, y1, y2, y3, y4⟩
  · left
    obtain ⟨tb, t1, t2, t3⟩ := h2.heads (fs := fs) (n := 6) (whole := false) x4 x5 (fun h => by cases h)
    refine ⟨fs, tb, x3, t3, At.append.2 ⟨t1, x1.cast (by omega)⟩, ?_⟩
    rw [List.length_append, t2, ← Nat.add_assoc, ← x2]
    exact hbad
  · right
    obtain ⟨f1, f2⟩ := at_end a6 h2.fs_lt (by omega)
    have hst : ∀ j, j < 6 → startOf (fs ++ [xs]) j = startOf fs j := by
      intro j hj
      obtain ⟨a, b, c, d, p, -, -, -, -, rfl⟩ := x3
      match j, hj with
      | 0, _ => rfl
      | 1, _ => rfl
      | 2, _ => rfl
      | 3, _ => rfl
      | 4, _ => rfl
      | 5, _ => rfl
    have hfl : (fs ++ [xs]).flatten = fs.flatten ++ xs := by simp
    obtain ⟨ys, z1, z2, z3⟩ := h2.loose (fs := fs ++ [xs]) (n := 6) (whole := true) (b := u.off)
      (by rw [hfl]; exact At.append.2 ⟨x1, y2.cast (by omega)⟩) (by rw [hfl, List.length_append]; omega) (fun j hj => by rw [hst j hj]; exact x4 j hj)
      (fun j h0 hj => by rw [hst j hj]; exact x5 j h0 hj) (fun _ => by rw [hfl, List.length_append]; omega)
    exact ⟨ys, a, y1, z1, z2, fs, xs, x3, y4, z3⟩

/-! ### Approvals -/

theorem readSignature_post {e : Env} {off : Nat} (hs : Small e) :
    Post (readSignature e) off (fun _ t => t = off + 65 ∧ off + 1 ≤ e.buf.length ∧ ∃ tag : UInt8, (tag = 1 ∨ tag = 2) ∧ At e.buf off [tag]) := by
  unfold readSignature
  refine readU8_post.seq fun v t ⟨h1, h2, h3, h4⟩ => ?_
  refine Post.requireThen fun k2 => ?_
  subst h3
  unfold Small at hs
  intro a t' h
  rw [skip_run (by omega)] at h
  cases h
  refine ⟨by omega, h4, UInt8.ofNat v, ?_, h1⟩
  rcases k2 with rfl | rfl
  · exact .inl rfl
  · exact .inr rfl

/-- A list of approvals; of the last signature, up to 64 bytes may be missing. -/
theorem readApprovalList_spans {e : Env} (hs : Small e) : ∀ (n : Nat) {off t : Nat}, off ≤ e.buf.length → readApprovalList e n off = .ok () t →
    ∃ aps : List Bytes, ∃ miss : Bytes, aps.length = n ∧ (∀ a ∈ aps, LooseApproval a) ∧ At (e.buf ++ miss) off aps.flatten ∧ t = off + aps.flatten.length ∧ miss.length ≤ 64 ∧
      (miss = [] ∨ (aps ≠ [] ∧ t = (e.buf ++ miss).length)) := by
  intro n
  induction n with
  | zero =>
    intro off t ho h
    cases h
    exact ⟨[], [], rfl, by simp, At.nil (by simpa using ho), by simp, by simp, .inl rfl⟩
  | succ n ih =>
    intro off t ho h
    unfold readApprovalList at h
    simp only [bind_eq_ok] at h
    obtain ⟨_, t1, h1, _, t2, h2, h3⟩ := h
    obtain ⟨k1, k2, k3⟩ := readPublicKey_spans hs _ _ h1
    obtain ⟨k4, k5, tag, k6, k7⟩ := readSignature_post hs _ _ h2
    obtain ⟨key, g1, g2, g3⟩ := k3 (by omega)
    by_cases hc : t2 ≤ e.buf.length
    · obtain ⟨sig, s1, s2⟩ := at_mid (buf := e.buf) (a := t1 + 1) (b := t2) (by omega) hc
      obtain ⟨aps, miss, a1, a2, a3, a4, a5, a6⟩ := ih hc h3
      refine ⟨(key ++ tag :: sig) :: aps, miss, by simp [a1], ?_, ?_, ?_, a5, a6.imp_right fun h => ⟨by simp, h.2⟩⟩
      · intro a ha
        rcases List.mem_cons.1 ha with rfl | ha
        · exact ⟨key, tag, sig, g3, k6, by omega, rfl⟩
        · exact a2 a ha
      · have : At e.buf off (key ++ tag :: sig) := At.append.2 ⟨g1, At.cons.2 ⟨k7.cast (by omega), s1.cast (by omega)⟩⟩
        rw [List.flatten_cons]
        refine At.append.2 ⟨?_, a3.cast (by simp; omega)⟩
        obtain ⟨p, q, w1, w2⟩ := this
        exact ⟨p, q ++ miss, by rw [w1]; simp, w2⟩
      · rw [List.flatten_cons, List.length_append, List.length_append, List.length_cons]; omega
    · cases n with
      | succ n =>
        unfold readApprovalList at h3
        simp only [bind_eq_ok] at h3
        obtain ⟨_, t3, h4, -⟩ := h3
        unfold readPublicKey at h4
        simp only [bind_eq_ok] at h4
        obtain ⟨_, _, h5, -⟩ := h4
        have := readU8_post _ _ h5
        omega
      | zero =>
        cases h3
        obtain ⟨sig, s1, s2⟩ := at_mid (buf := e.buf) (a := t1 + 1) (b := e.buf.length) (by omega) (Nat.le_refl _)
        refine ⟨[key ++ tag :: (sig ++ List.replicate (64 - sig.length) 0)], List.replicate (64 - sig.length) 0, rfl, ?_, ?_, ?_, by simp, ?_⟩
        · intro a ha
          rw [List.mem_singleton] at ha
          exact ⟨key, tag, _, g3, k6, by simp; omega, ha⟩
        · have : At e.buf off (key ++ tag :: sig) := At.append.2 ⟨g1, At.cons.2 ⟨k7.cast (by omega), s1.cast (by omega)⟩⟩
          obtain ⟨p, q, w1, w2⟩ := this
          have hq : q = [] := by
            have := congrArg List.length w1
            simp only [List.length_append, List.length_cons] at this
            exact List.length_eq_zero_iff.1 (by omega)
          refine ⟨p, [], ?_, w2⟩
          rw [w1, hq]; simp
        · simp only [List.flatten_cons, List.flatten_nil, List.length_append, List.length_cons, List.length_replicate, List.length_nil]; omega
        · exact .inr ⟨by simp, by simp only [List.length_append, List.length_replicate]; omega⟩

theorem readApprovals_post' {e : Env} {s : VS} : Post (readApprovals e) s (fun _ t => t.v.md = s.v.md ∧ ∃ n, n < 4294967296 ∧ At e.buf s.off (le 4 n) ∧
    readApprovalList e n (s.off + 4) = .ok () t.off) := by
  unfold readApprovals
  rw [incrExpert_eq]
  refine Post.lvThen readU32_post fun n o ⟨h1, h2, h3, h4⟩ => Post.modifyThen (Post.lvThen Post.self fun _ o h5 => ?_)
  subst h3
  exact Post.modify ⟨rfl, n, h2, h1, h5⟩

/-- What follows the hash. -/
theorem readV1_spans {e : Env} (hs : Small e) (hp : Plain e 0) : Post (readV1 e) ⟨0, {}⟩ (fun _ t =>
      (∃ n, n < 4294967296 ∧ At e.buf (u32 (t.v.md.size + t.v.md.fo 2)) (le 4 n) ∧ readApprovalList e n (u32 (t.v.md.size + t.v.md.fo 2) + 4) = .ok () t.off ∧
        t.off = u32 (t.v.md.size + t.v.md.fieldsSize)) ∧
      ((∃ fs tb, LooseHeader fs ∧ Heads fs 6 false tb ∧ At e.buf (t.v.md.size + 32) (tb ++ fs.flatten) ∧
        BadBody e (t.v.md.size + 32 + (tb ++ fs.flatten).length)) ∨
      ∃ xs, ∃ a : V1Args, (∀ as, a = .named as → GoodTypes as) ∧ At e.buf (t.v.md.size + 32) xs ∧ t.v.md.fo 2 = 32 + xs.length ∧
        LoosePayload a.encode xs)) := by
  unfold readV1
  refine Post.requireThen fun _ => Post.lvThen readMetadata_post fun m o ⟨h1, h2⟩ => Post.modifyThen (Post.atOffThen fun h3 => ?_)
  have hsz := h2.size_le
  have hfo := h2.lt
  subst h1
  refine Post.lvThen (readHash_post (by dsimp only; omega)) fun _ o h4 => Post.modifyThen (Post.atOffThen fun h5 => ?_)
  subst h4
  dsimp only at h3 h5 ⊢
  have f1 : m.fo 1 = 32 := by have := hfo 1; unfold u32 at h5; omega
  refine (readPayload_spans hs hp (by dsimp only; omega)).seq fun _ t ⟨k1, k2⟩ => Post.atOffThen fun k8 => ?_
  dsimp only at k1 k2
  refine readApprovals_post'.seq fun _ u ⟨hu, n, n1, n2, n3⟩ => Post.atOff fun k9 => ?_
  rw [hu, k1]
  rw [show 0 + m.size + 32 = m.size + 32 by omega] at k2
  refine ⟨⟨n, n1, k8 ▸ n2, k8 ▸ n3, k9⟩, ?_⟩
  rcases k2 with hbad | ⟨xs, a, y1, y2, y3, y4⟩
  · exact .inl hbad
  · exact .inr ⟨xs, a, y1, y2, by have := at_pos k8 (hfo 2) (by omega); omega, y4⟩

end Casper
