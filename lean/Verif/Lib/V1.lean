import Verif.Lib.Post
import Verif.Model.TxV1
/-
Inversion of a successful `parser_read_transactionV1`: which bytes were found where, and what was recorded.
-/
namespace Casper
open M

theorem Post.lv {α : Type} {m : P α} {s : VS} {Q : α → Nat → Prop} (h : Post m s.off Q) :
    Post (lv m) s (fun a t => t = { s with off := t.off } ∧ Q a t.off) := by
  intro a t ht
  unfold Casper.lv at ht
  cases hm : m s.off <;> rw [hm] at ht <;> simp at ht
  obtain ⟨rfl, rfl⟩ := ht
  exact ⟨rfl, h _ _ hm⟩

/-- Continue after a cursor-only function. -/
theorem Post.lvThen {α β : Type} {m : P α} {f : α → M VS β} {s : VS} {P : α → Nat → Prop} {Q : β → VS → Prop}
    (h : Post m s.off P) (h' : ∀ a o, P a o → Post (f a) ⟨o, s.v⟩ Q) : Post (Casper.lv m >>= f) s Q :=
  (Post.lv h).seq fun a t ⟨h1, h2⟩ => by rw [h1]; exact h' a t.off h2

theorem atOff_eq {x : Nat} {s t : VS} {u : Unit} : atOff x s = .ok u t ↔ s.off = u32 x ∧ t = s := by
  unfold atOff; split <;> simp_all [eq_comm]
theorem Post.atOffThen {β : Type} {f : Unit → M VS β} {x : Nat} {s : VS} {Q : β → VS → Prop}
    (h : s.off = u32 x → Post (f ()) s Q) : Post (atOff x >>= f) s Q :=
  Post.seq (P := fun _ t => s.off = u32 x ∧ t = s) (fun _ _ h => atOff_eq.1 h) fun _ _ ⟨h1, h2⟩ => h2 ▸ h h1
theorem Post.atOff {x : Nat} {s : VS} {Q : Unit → VS → Prop} (h : s.off = u32 x → Q () s) : Post (atOff x) s Q := by
  intro a t ht; obtain ⟨h1, rfl⟩ := atOff_eq.1 ht; exact h h1

/-! ### Calltables -/

theorem readOffsets_post {e : Env} {n i off : Nat} {os : List Nat} (hi : i + n ≤ os.length) :
    Post (readOffsets e n i os) off (fun os' t => t = off + 6 * n ∧ (n = 0 ∨ t ≤ e.buf.length) ∧
      os'.length = os.length ∧ (∀ j, j < n → At e.buf (off + 6 * j) (le 2 (i + j) ++ le 4 (os'.getD (i + j) 0))) ∧
      (∀ j, j < n → os'.getD (i + j) 0 < 4294967296) ∧
      (∀ k, k < i ∨ i + n ≤ k → os'.getD k 0 = os.getD k 0)) := by
  induction n generalizing i off os with
  | zero =>
    exact Post.pure ⟨by omega, .inl rfl, rfl, fun j hj => absurd hj (by omega), fun j hj => absurd hj (by omega), fun _ _ => rfl⟩
  | succ n ih =>
    rw [readOffsets]
    refine readU16_post.seq fun idx t ⟨h1, _, h2, h3⟩ => Post.requireThen fun h4 => ?_
    subst h2 h4
    refine readU32_post.seq fun o t ⟨h5, h6, h7, h8⟩ => ?_
    subst h7
    rw [if_pos (by omega)]
    refine (ih (by simp; omega)).mono fun os' t ⟨k1, k2, k3, k4, k5, k6⟩ => ?_
    have hidx : os'.getD idx 0 = o := by
      rw [k6 idx (.inl (by omega)), List.getD_eq_getElem?_getD, List.getElem?_set_self (by omega)]; rfl
    refine ⟨by omega, .inr (by omega), by simpa using k3, ?_, ?_, ?_⟩
    · intro j hj
      cases j with
      | zero =>
        simp only [Nat.mul_zero, Nat.add_zero]
        rw [hidx, At.append]
        exact ⟨h1, h5⟩
      | succ j =>
        have := k4 j (by omega)
        rw [show off + 2 + 4 + 6 * j = off + 6 * (j + 1) by omega, show idx + 1 + j = idx + (j + 1) by omega] at this
        exact this
    · intro j hj
      cases j with
      | zero => simp only [Nat.add_zero]; rw [hidx]; exact h6
      | succ j => have := k5 j (by omega); rw [show idx + 1 + j = idx + (j + 1) by omega] at this; exact this
    · intro k hk
      rw [k6 k (by omega), List.getD_eq_getElem?_getD, List.getD_eq_getElem?_getD, List.getElem?_set_ne (by omega)]

/-- A calltable envelope found at `off`: `m` was read from it. -/
structure Table (e : Env) (off : Nat) (m : Meta) : Prop where
  count : ∃ k, At e.buf off (le 4 k) ∧ m.numFields = u8 k
  pos : 0 < m.numFields
  le10 : m.numFields ≤ 10
  size : m.size = 8 + 6 * m.numFields
  inside : off + m.size ≤ e.buf.length
  entry : ∀ j, j < m.numFields → At e.buf (off + 4 + 6 * j) (le 2 j ++ le 4 (m.fo j))
  lt : ∀ j, m.fo j < 4294967296
  none : ∀ j, m.numFields ≤ j → m.fo j = 0
  fields : ∃ k, At e.buf (off + 4 + 6 * m.numFields) (le 4 k) ∧ m.fieldsSize = u16 k

theorem Table.size_le {e : Env} {off : Nat} {m : Meta} (h : Table e off m) : 14 ≤ m.size ∧ m.size ≤ 68 := by
  have := h.size; have := h.pos; have := h.le10; omega
theorem Table.fs_lt {e : Env} {off : Nat} {m : Meta} (h : Table e off m) : m.fieldsSize < 65536 := by
  obtain ⟨k, -, h⟩ := h.fields; rw [h]; exact Nat.mod_lt _ (by decide)

theorem readMetadata_post {e : Env} {off : Nat} :
    Post (readMetadata e) off (fun m t => t = off + m.size ∧ Table e off m) := by
  unfold readMetadata
  refine Post.getThen (readU32_post.seq fun n t ⟨h1, h2, h3, h4⟩ => ?_)
  subst h3
  refine Post.requireThen fun ⟨h5, h6⟩ => ?_
  refine (readOffsets_post (by simp; omega)).seq fun os t ⟨k1, k2, k3, k4, k5, k6⟩ => ?_
  subst k1
  refine readU32_post.seq fun fs t ⟨l1, l2, l3, l4⟩ => ?_
  subst l3
  refine Post.getThen (Post.pure ?_)
  have hs : u16 (off + 4 + 6 * u8 n + 4 - off) = 8 + 6 * u8 n := by
    rw [show off + 4 + 6 * u8 n + 4 - off = 8 + 6 * u8 n by omega]
    exact Nat.mod_eq_of_lt (by omega)
  have k4' : ∀ j, j < u8 n → At e.buf (off + 4 + 6 * j) (le 2 j ++ le 4 (os.getD j 0)) := by
    intro j hj; have := k4 j hj; rwa [Nat.zero_add] at this
  have k5' : ∀ j, j < u8 n → os.getD j 0 < 4294967296 := by
    intro j hj; have := k5 j hj; rwa [Nat.zero_add] at this
  have hz : ∀ j, u8 n ≤ j → os.getD j 0 = 0 := by
    intro j hj
    rw [k6 j (.inr (by omega))]
    match j with
    | 0 | 1 | 2 | 3 | 4 | 5 | 6 | 7 | 8 | 9 => rfl
    | j + 10 => rfl
  refine ⟨?_, ⟨⟨n, h1, rfl⟩, h5, h6, hs, ?_, k4', ?_, hz, ⟨fs, l1, rfl⟩⟩⟩
  · show _ = off + u16 (off + 4 + 6 * u8 n + 4 - off)
    omega
  · show off + u16 (off + 4 + 6 * u8 n + 4 - off) ≤ _
    omega
  · intro j
    show os.getD j 0 < _
    rcases Nat.lt_or_ge j (u8 n) with h | h
    · exact k5' j h
    · rw [hz j h]; decide

/-! ### Header -/

/-- Data that fits the upload buffer of every supported device (`common/tx.c:26-32`). -/
def Small (e : Env) : Prop := e.buf.length ≤ 16384

theorem Small.fits {e : Env} (h : Small e) : Fits e := by unfold Small at h; unfold Fits; omega

theorem u16_of_u32 {x n : Nat} (h : u32 x ≤ n) (hn : n ≤ 65535) : u16 x = u32 x := by
  unfold u16 u32 at *; omega
theorem u16_id {x : Nat} (h : x < 65536) : u16 x = x := Nat.mod_eq_of_lt h
theorem u32_id {x : Nat} (h : x < 4294967296) : u32 x = x := Nat.mod_eq_of_lt h
theorem u8_id {x : Nat} (h : x < 256) : u8 x = x := Nat.mod_eq_of_lt h

theorem readHash_post {off : Nat} (h : off + 32 < 65536) : Post readHash off (fun _ t => t = off + 32) :=
  Post.modify (u16_id h)

theorem readPublicKey_post {e : Env} {off : Nat} (hs : Small e) :
    Post (readPublicKey e) off (fun _ t => ∃ k : UInt8, At e.buf off [k] ∧
      ((k = 0 ∧ t = off + 1) ∨ (k = 1 ∧ t = off + 33) ∨ (k = 2 ∧ t = off + 34))) := by
  unfold readPublicKey Small at *
  refine readU8_post.seq fun v t ⟨h1, h2, h3, h4⟩ => Post.requireThen fun h5 => ?_
  subst h3
  refine Post.ite (fun h => Post.modify ?_) fun h => Post.ite (fun h => Post.modify ?_) fun h' => Post.pure ?_
  · subst h; exact ⟨_, h1, .inr (.inl ⟨rfl, u16_id (by omega)⟩)⟩
  · subst h; exact ⟨_, h1, .inr (.inr ⟨rfl, u16_id (by omega)⟩)⟩
  · have : v = 0 := by omega
    subst this; exact ⟨_, h1, .inl ⟨rfl, rfl⟩⟩

/-- An initiator address at `off`: public key (33 or 34 bytes, or only the tag of the system key) or account hash. -/
def InitAt (e : Env) (off len : Nat) : Prop :=
  ∃ m tag : _, Table e off m ∧ m.numFields = 2 ∧ At e.buf (off + 20) [tag] ∧
    ((tag = 1 ∧ len = 32) ∨ (tag = 0 ∧ ∃ k : UInt8, At e.buf (off + 21) [k] ∧
      ((k = 0 ∧ len = 1) ∨ (k = 1 ∧ len = 33) ∨ (k = 2 ∧ len = 34))))

theorem InitAt.len_le {e : Env} {off len : Nat} (h : InitAt e off len) : 1 ≤ len ∧ len ≤ 34 := by
  obtain ⟨m, tag, -, -, -, h | ⟨-, k, -, h⟩⟩ := h <;> omega

theorem readInitiator_post {e : Env} {s : VS} (hs : Small e) :
    Post (readInitiator e) s (fun _ t => ∃ len, InitAt e s.off len ∧
      t = ⟨s.off + 21 + len, { s.v with header := { s.v.header with initMd := 20, initLen := len } }⟩) := by
  unfold readInitiator
  refine Post.lvThen readMetadata_post fun m o ⟨h1, h2⟩ => Post.getThen (Post.requireThen fun h3 => ?_)
  have hsz : m.size = 20 := by have := h2.size; omega
  subst h1
  refine Post.atOffThen fun _ => Post.modifyThen (Post.lvThen readU8_post fun tag o ⟨h4, h5, h6, h7⟩ => ?_)
  refine Post.requireThen fun h8 => Post.atOffThen fun _ => Post.getThen ?_
  dsimp only at h4 h6
  subst h6
  dsimp only
  rw [hsz] at h4 h7 ⊢
  unfold Small at hs
  refine Post.lvThen (P := fun _ o => ∃ len, InitAt e s.off len ∧ o = s.off + 21 + len) ?_ ?_
  · unfold initiatorKey
    refine Post.ite (fun h => ?_) fun h => ?_
    · subst h
      refine (readPublicKey_post hs).mono fun _ o ⟨k, k2, k3⟩ => ?_
      dsimp only at k2 k3
      rcases k3 with ⟨k3, k4⟩ | ⟨k3, k4⟩ | ⟨k3, k4⟩
      · exact ⟨1, ⟨m, _, h2, h3, h4, .inr ⟨rfl, k, k2, .inl ⟨k3, rfl⟩⟩⟩, k4⟩
      · exact ⟨33, ⟨m, _, h2, h3, h4, .inr ⟨rfl, k, k2, .inr (.inl ⟨k3, rfl⟩)⟩⟩, k4⟩
      · exact ⟨34, ⟨m, _, h2, h3, h4, .inr ⟨rfl, k, k2, .inr (.inr ⟨k3, rfl⟩)⟩⟩, k4⟩
    · have : tag = 1 := by omega
      subst this
      refine (readHash_post (by dsimp only; omega)).mono fun _ o k2 => ?_
      exact ⟨32, ⟨m, _, h2, h3, h4, .inl ⟨rfl, rfl⟩⟩, k2⟩
  · rintro _ o ⟨len, hi, rfl⟩
    refine Post.atOffThen fun _ => Post.getThen (Post.modify ⟨len, hi, ?_⟩)
    have := hi.len_le
    have : u8 (s.off + 21 + len + 4294967296 - (s.off + 20 + 1)) = len := by
      rw [show s.off + 21 + len + 4294967296 - (s.off + 20 + 1) = len + 4294967296 by omega]
      unfold u8; omega
    simp only [this]

theorem readChainName_post {e : Env} {s : VS} (hs : Small e) :
    Post (readChainName e) s (fun _ t => ∃ len, At e.buf s.off (le 4 len) ∧ len < 4294967296 ∧
      u32 (s.off + 4 + len) ≤ e.buf.length ∧
      t = ⟨u32 (s.off + 4 + len), { s.v with header := { s.v.header with chainLen := u8 len } }⟩) := by
  unfold readChainName
  refine Post.lvThen readBytes_post fun len o ⟨h1, h2, h3, h4, h5⟩ => Post.modify ⟨len, h1, h2, h4, ?_⟩
  rw [h5, u16_of_u32 h4 (by unfold Small at hs; omega)]

/-- A pricing mode at `off`. -/
def PricingAt (e : Env) (off size tag fin : Nat) : Prop :=
  ∃ m, Table e off m ∧ m.size = size ∧ At e.buf (off + size) [UInt8.ofNat tag] ∧
    ((tag = 0 ∧ fin = off + size + 11) ∨ (tag = 1 ∧ fin = off + size + 3) ∨ (tag = 2 ∧ fin = off + size + 33)) ∧
    (tag = 0 ∨ tag = 1 → fin ≤ e.buf.length)

theorem readPricing_post {e : Env} {s : VS} (hs : Small e) :
    Post (readPricing e) s (fun _ t => ∃ size tag fin, PricingAt e s.off size tag fin ∧
      t = ⟨fin, { s.v with header := { s.v.header with pmMd := size, pmItems := 2, pmode := tag } }⟩) := by
  unfold readPricing
  unfold Small at hs
  refine Post.lvThen readMetadata_post fun m o ⟨h1, h2⟩ => Post.getThen (Post.atOffThen fun _ => Post.modifyThen ?_)
  have hsz := h2.size_le
  have hin := h2.inside
  subst h1
  refine Post.lvThen readU8_post fun tag o ⟨h4, h5, h6, h7⟩ => Post.atOffThen fun _ => ?_
  dsimp only at h4 h6
  subst h6
  refine Post.seq (P := fun _ t => ∃ fin, PricingAt e s.off m.size tag fin ∧
    t = ⟨fin, { s.v with header := { s.v.header with pmMd := m.size, pmItems := 2 } }⟩) ?_ ?_
  · unfold pricingFields
    refine Post.ite (fun h => ?_) fun h => Post.ite (fun h => ?_) fun h => Post.ite (fun h => ?_) fun h => Post.fail
    · subst h
      refine Post.lvThen readU64_post fun _ o ⟨k1, k2, k3, k4⟩ => Post.atOffThen fun _ => ?_
      subst k3
      refine Post.lvThen readU8_post fun _ o ⟨l1, l2, l3, l4⟩ => Post.atOffThen fun _ => ?_
      subst l3
      refine Post.lvThen readU8_post fun _ o ⟨m1, m2, m3, m4⟩ => Post.pure ?_
      subst m3
      exact ⟨s.off + m.size + 11, ⟨m, h2, rfl, h4, .inl ⟨rfl, rfl⟩, fun _ => m4⟩, rfl⟩
    · subst h
      refine Post.lvThen readU8_post fun _ o ⟨l1, l2, l3, l4⟩ => Post.atOffThen fun _ => ?_
      subst l3
      refine Post.lvThen readU8_post fun _ o ⟨m1, m2, m3, m4⟩ => Post.pure ?_
      subst m3
      exact ⟨s.off + m.size + 3, ⟨m, h2, rfl, h4, .inr (.inl ⟨rfl, rfl⟩), fun _ => m4⟩, rfl⟩
    · subst h
      refine (Post.lv (readHash_post (by dsimp only; omega))).mono fun _ t ⟨k1, k2⟩ => ?_
      refine ⟨s.off + m.size + 33, ⟨m, h2, rfl, h4, .inr (.inr ⟨rfl, rfl⟩), fun h => by omega⟩, ?_⟩
      rw [k1, k2]
  · rintro _ t ⟨fin, hp, rfl⟩
    exact Post.atOffThen fun _ => Post.modify ⟨m.size, tag, fin, hp, rfl⟩

theorem incrExpert_eq (e : Env) (k : Nat) : incrExpert e k =
    updV fun v => { v with numItems := if e.expert then u8 (v.numItems + k) else v.numItems } := by
  unfold incrExpert incr updV
  by_cases h : e.expert
  · simp [h]
  · funext s; simp [h]

/-- What `read_txV1_header` finds: the initiator at `b`, the times, the chain name at `b + 21 + il + 16`, the pricing
mode. -/
def HeaderAt (e : Env) (b : Nat) (h : V1Header) (fin : Nat) : Prop :=
  h.initMd = 20 ∧ InitAt e b h.initLen ∧ b + 21 + h.initLen + 20 ≤ e.buf.length ∧
  ∃ len, At e.buf (b + 21 + h.initLen + 16) (le 4 len) ∧ len < 4294967296 ∧
    u32 (b + 21 + h.initLen + 20 + len) ≤ e.buf.length ∧ h.chainLen = u8 len ∧
    PricingAt e (u32 (b + 21 + h.initLen + 20 + len)) h.pmMd h.pmode fin ∧ h.pmItems = 2

theorem readV1Header_post {e : Env} {s : VS} (hs : Small e) :
    Post (readV1Header e) s (fun _ t => ∃ h, HeaderAt e s.off h t.off ∧
      t.v = { s.v with header := h, numItems := u8 (s.v.numItems + if e.expert then 6 else 2) } ∧
      s.off = u32 (payloadFirst s.v + s.v.pmd.fo 0) ∧ t.off = u32 (payloadFirst s.v + s.v.pmd.fo 5)) := by
  unfold readV1Header
  simp only [incrExpert_eq]
  refine Post.getThen (Post.atOffThen fun a0 => (readInitiator_post hs).seq fun _ t ⟨il, hi, ht⟩ => ?_)
  subst ht
  refine Post.modifyThen (Post.atOffThen fun _ => Post.lvThen readU64_post fun ts o ⟨k1, k2, k3, k4⟩ => ?_)
  refine Post.modifyThen (Post.atOffThen fun _ => Post.lvThen readU64_post fun ttl o ⟨l1, l2, l3, l4⟩ => ?_)
  refine Post.modifyThen (Post.atOffThen fun _ => (readChainName_post hs).seq fun _ t ⟨len, m1, m2, m3, ht⟩ => ?_)
  subst ht
  refine Post.modifyThen (Post.atOffThen fun _ => (readPricing_post hs).seq fun _ t ⟨size, tag, fin, hp, ht⟩ => ?_)
  subst ht
  refine Post.atOffThen fun a5 => Post.modifyThen (Post.modify ?_)
  dsimp only at *
  subst k3 l3
  have hm := m1.le
  have e1 : s.off + 21 + il + 8 + 8 = s.off + 21 + il + 16 := by omega
  have e2 : s.off + 21 + il + 8 + 8 + 4 + len = s.off + 21 + il + 20 + len := by omega
  rw [e1] at m1 hm
  rw [e2] at m3 hp
  refine ⟨⟨20, il, u8 len, tag, size, 2⟩, ⟨rfl, hi, ?_, len, m1, m2, m3, rfl, hp, rfl⟩, ?_, a0, a5⟩
  · rw [show (le 4 len).length = 4 from rfl] at hm; dsimp only; omega
  · congr 1
    cases e.expert <;> simp [u8] <;> omega

/-! ### Body -/

/-- Named arguments (`argsType` 0) or a byte string (1) behind a length, a tag and a count at `off`. -/
def ArgsAt (e : Env) (off : Nat) (v : V1) (fin : Nat) : Prop :=
  v.argsOff = u8 (off + 9) ∧
  ((v.argsType = 0 ∧ At e.buf off (le 4 v.argsLen) ∧ At e.buf (off + 4) [0] ∧ At e.buf (off + 5) (le 4 v.numArgs) ∧
      v.argsLen < 4294967296 ∧ v.numArgs < 4294967296 ∧ readNamedArgs e v.numArgs (off + 9) = .ok () fin) ∨
    (v.argsType = 1 ∧ v.numArgs = 0 ∧ At e.buf (off + 4) [1] ∧ At e.buf (off + 5) (le 4 v.argsLen) ∧
      v.argsLen < 4294967296 ∧ u32 (off + 9 + v.argsLen) ≤ e.buf.length ∧ fin = u32 (off + 9 + v.argsLen)))

theorem readArgs_post {e : Env} {s : VS} (hs : Small e) (h0 : s.v.numArgs = 0) :
    Post (readArgs e) s (fun _ t => ∃ a b c d, t.v = { s.v with argsOff := a, argsType := b, argsLen := c, numArgs := d } ∧
      ArgsAt e s.off t.v t.off) := by
  unfold readArgs
  refine Post.lvThen readU32_post fun len o ⟨h1, h2, h3, h4⟩ => Post.modifyThen ?_
  subst h3
  refine Post.lvThen readU8_post fun tag o ⟨k1, k2, k3, k4⟩ => ?_
  dsimp only at k1 k3
  subst k3
  refine Post.ite (fun h => ?_) fun h => Post.ite (fun h => ?_) fun _ => Post.fail
  · subst h
    refine Post.modifyThen (Post.lvThen readU32_post fun n o ⟨l1, l2, l3, l4⟩ => Post.modifyThen ?_)
    dsimp only at l1 l3
    subst l3
    refine (Post.lv (Post.self)).mono fun _ t ⟨m1, m2⟩ => ⟨u8 (s.off + 4 + 1 + 4), 0, len, n, by rw [m1], ?_⟩
    rw [m1]
    exact ⟨rfl, .inl ⟨rfl, h1, k1, l1, h2, l2, m2⟩⟩
  · subst h
    refine Post.modifyThen (Post.lvThen readBytes_post fun l o ⟨l1, l2, l3, l4, l5⟩ => Post.modify ?_)
    dsimp only at l1 l3 l4 l5
    refine ⟨u8 (s.off + 4 + 1 + 4), 1, l, 0, ?_, rfl, .inr ⟨rfl, ?_, k1, l1, l2, ?_, ?_⟩⟩
    · dsimp only; rw [h0]
    · exact h0
    · rw [← show s.off + 4 + 1 + 4 + l = s.off + 9 + l by omega]; exact l4
    · rw [← show s.off + 4 + 1 + 4 + l = s.off + 9 + l by omega]
      show o = _
      rw [l5, u16_of_u32 l4 (by unfold Small at hs; omega)]

theorem readKey_post {e : Env} {k : Nat} {s : VS} :
    Post (readKey e k) s (fun _ t => t = { s with off := s.off + 2 } ∧ At e.buf s.off (le 2 k) ∧ s.off + 2 ≤ e.buf.length) := by
  unfold readKey
  refine Post.lvThen readU16_post fun x o ⟨h1, h2, h3, h4⟩ => Post.require fun h => ?_
  subst h h3
  exact ⟨rfl, h1, h4⟩

theorem readBool_post {e : Env} {off : Nat} :
    Post (readBool e) off (fun v t => At e.buf off [UInt8.ofNat v] ∧ v ≤ 1 ∧ t = off + 1 ∧ t ≤ e.buf.length) := by
  unfold readBool
  refine readU8_post.seq fun v t ⟨h1, h2, h3, h4⟩ => Post.requireThen fun h => Post.pure ⟨h1, by omega, h3, h4⟩

theorem readEntityVersion_post {e : Env} {off : Nat} :
    Post (readEntityVersion e) off (fun v t => off < t ∧ t ≤ e.buf.length ∧ v < 4294967296 ∧
      ((At e.buf off [0] ∧ v = noVersion ∧ t = off + 1) ∨ (At e.buf off [1] ∧ At e.buf (off + 1) (le 4 v) ∧ t = off + 5))) := by
  unfold readEntityVersion
  refine readBool_post.seq fun b t ⟨h1, h2, h3, h4⟩ => ?_
  subst h3
  refine Post.ite (fun h => ?_) fun h => Post.pure ?_
  · subst h
    refine readU32_post.mono fun v t ⟨k1, k2, k3, k4⟩ => ?_
    subst k3
    exact ⟨by omega, k4, k2, .inr ⟨h1, k1, by omega⟩⟩
  · have : b = 0 := by omega
    subst this
    exact ⟨by omega, h4, by decide, .inl ⟨h1, rfl, rfl⟩⟩

theorem readRuntime_post {e : Env} {off : Nat} (hs : Small e) :
    Post (readRuntime e) off (fun _ t => off + 15 ≤ e.buf.length ∧ off < t ∧ t ≤ e.buf.length + 32) := by
  unfold readRuntime
  refine readMetadata_post.seq fun m t ⟨h1, h2⟩ => ?_
  subst h1
  have := h2.size_le
  refine readU8_post.seq fun r t ⟨k1, k2, k3, k4⟩ => Post.ite (fun h => ?_) fun h => Post.require fun h => ?_
  · refine readU64_post.seq fun x t ⟨l1, l2, l3, l4⟩ => readU8_post.seq fun sd t ⟨m1, m2, m3, m4⟩ => ?_
    refine Post.ite (fun h => ?_) fun h => Post.ite (fun h => Post.pure ?_) fun h => Post.fail
    · refine (readHash_post (by unfold Small at hs; omega)).mono fun _ t h => ?_
      omega
    · omega
  · omega

/-- A stored target. -/
def StoredAt (e : Env) (g : Target) (n : Nat) : Prop :=
  (g.typ = 1 ∧ n = 3 ∧ g.ptr + 32 ≤ e.buf.length) ∨
  (g.typ = 2 ∧ n = 3 ∧ 4 ≤ g.ptr ∧ At e.buf (g.ptr - 4) (le 4 g.nameLen) ∧ g.nameLen < 4294967296 ∧
    u32 (g.ptr + g.nameLen) ≤ e.buf.length) ∨
  (g.typ = 3 ∧ n = (if g.version ≠ noVersion ∧ e.expert then 4 else 3) ∧ g.ptr + 32 ≤ e.buf.length) ∨
  (g.typ = 4 ∧ n = (if g.version ≠ noVersion ∧ e.expert then 4 else 3) ∧ 4 ≤ g.ptr ∧
    At e.buf (g.ptr - 4) (le 4 g.nameLen) ∧ g.nameLen < 4294967296 ∧ u32 (g.ptr + g.nameLen) ≤ e.buf.length)

theorem storedTarget_post {e : Env} {s : VS} {tag : Nat} (hs : Small e) (ho : s.off ≤ e.buf.length) :
    Post (storedTarget e tag) s (fun _ t => ∃ g n, (t.off ≤ e.buf.length → StoredAt e g n) ∧
      t.v = { s.v with target := g, numItems := u8 (s.v.numItems + (n - 2)) }) := by
  unfold storedTarget Small at *
  simp only [incrExpert_eq]
  refine Post.ite (fun h => ?_) fun h => Post.ite (fun h => ?_) fun h => Post.ite (fun h => ?_) fun h =>
    Post.ite (fun h => ?_) fun _ => Post.fail
  · refine Post.modifyThen (Post.lvThen (readHash_post (by dsimp only; omega)) fun _ o h1 => Post.modify ?_)
    subst h1
    exact ⟨{ s.v.target with typ := 1, ptr := s.off }, 3, fun h => .inl ⟨rfl, rfl, h⟩, rfl⟩
  · refine Post.modifyThen (Post.lvThen readBytes_post fun len o ⟨h1, h2, h3, h4, h5⟩ => Post.modifyThen (Post.modify ?_))
    exact ⟨{ s.v.target with typ := 2, ptr := s.off + 4, nameLen := len }, 3, fun h => .inr (.inl ⟨rfl, rfl, by dsimp only; omega, h1, h2, h4⟩), rfl⟩
  · refine Post.modifyThen (Post.lvThen (readHash_post (by dsimp only; omega)) fun _ o h1 => ?_)
    subst h1
    refine Post.lvThen readEntityVersion_post fun ver o ⟨h1, h2, h3, h4⟩ => Post.modifyThen (Post.modifyThen ?_)
    dsimp only at h1
    refine Post.ite (fun hv => Post.modify ?_) fun hv => Post.pure ?_
    · refine ⟨{ s.v.target with typ := 3, ptr := s.off, version := ver }, if e.expert then 4 else 3,
        fun h => .inr (.inr (.inl ⟨rfl, ?_, by dsimp only; omega⟩)), ?_⟩
      · simp only [hv, ne_eq, not_false_eq_true, true_and]
      · simp only
        congr 1
        cases e.expert <;> simp [u8]
    · refine ⟨{ s.v.target with typ := 3, ptr := s.off, version := ver }, 3,
        fun h => .inr (.inr (.inl ⟨rfl, ?_, by dsimp only; omega⟩)), rfl⟩
      simp only [hv, false_and, if_false]
  · refine Post.modifyThen (Post.lvThen readBytes_post fun len o ⟨k1, k2, k3, k4, k5⟩ => Post.modifyThen ?_)
    refine Post.lvThen readEntityVersion_post fun ver o ⟨h1, h2, h3, h4⟩ => Post.modifyThen (Post.modifyThen ?_)
    refine Post.ite (fun hv => Post.modify ?_) fun hv => Post.pure ?_
    · refine ⟨{ s.v.target with typ := 4, ptr := s.off + 4, nameLen := len, version := ver }, if e.expert then 4 else 3,
        fun h => .inr (.inr (.inr ⟨rfl, ?_, by dsimp only; omega, k1, k2, k4⟩)), ?_⟩
      · simp only [hv, ne_eq, not_false_eq_true, true_and]
      · simp only
        congr 1
        cases e.expert <;> simp [u8]
    · refine ⟨{ s.v.target with typ := 4, ptr := s.off + 4, nameLen := len, version := ver }, 3,
        fun h => .inr (.inr (.inr ⟨rfl, ?_, by dsimp only; omega, k1, k2, k4⟩)), rfl⟩
      simp only [hv, false_and, if_false]

/-- What `read_target` records. -/
def TargetAt (e : Env) (g : Target) (n : Nat) : Prop := (n = 0 ∧ (g.typ = 0 ∨ g.typ = 5)) ∨ StoredAt e g n

theorem readStored_post {e : Env} {s : VS} (hs : Small e) :
    Post (readStored e) s (fun _ t => ∃ g n, StoredAt e g n ∧
      t.v = { s.v with target := g, numItems := u8 (s.v.numItems + n) }) := by
  unfold readStored
  refine Post.lvThen readMetadata_post fun m o ⟨h1, h2⟩ => Post.lvThen readU8_post fun tag o' ⟨k1, k2, k3, k4⟩ => ?_
  refine Post.modifyThen (Post.modifyThen ((storedTarget_post hs k4).seq fun _ t ⟨g, n, h3, h4⟩ => ?_))
  refine (Post.lv (readRuntime_post hs)).mono fun _ u ⟨l1, l2, _⟩ => ?_
  have hg := h3 (by omega)
  refine ⟨g, n, hg, ?_⟩
  have hn : 3 ≤ n ∧ n ≤ 4 := by
    rcases hg with h | h | h | h
    · omega
    · omega
    · obtain ⟨_, h, _⟩ := h; split at h <;> omega
    · obtain ⟨_, h, _⟩ := h; split at h <;> omega
  rw [l1]
  dsimp only at h4 ⊢
  rw [h4]
  congr 1
  simp only [u8]; omega

theorem readTarget_post {e : Env} {s : VS} (hs : Small e) (hn : s.v.numItems < 256) :
    Post (readTarget e) s (fun _ t => ∃ g n, TargetAt e g n ∧
      t.v = { s.v with target := g, numItems := u8 (s.v.numItems + n) }) := by
  unfold readTarget
  refine Post.lvThen readU32_post fun _ o ⟨h1, h2, h3, h4⟩ => Post.lvThen readMetadata_post fun m o ⟨k1, k2⟩ => ?_
  refine Post.getThen (Post.atOffThen fun _ => Post.lvThen readU8_post fun tag o ⟨l1, l2, l3, l4⟩ => ?_)
  refine Post.ite (fun h => Post.atOffThen fun _ => Post.modify ?_) fun h =>
    Post.ite (fun h => Post.atOffThen fun _ => ?_) fun h => Post.ite (fun h => Post.atOffThen fun _ => ?_) fun _ => Post.fail
  · exact ⟨_, 0, .inl ⟨rfl, .inl rfl⟩, by simp only [Nat.add_zero, u8_id hn]; rfl⟩
  · exact (readStored_post hs).mono fun _ t ⟨g, n, h1, h2⟩ => ⟨g, n, .inr h1, h2⟩
  · refine Post.modifyThen (Post.lvThen readBool_post fun _ o _ => Post.lvThen (readRuntime_post hs) fun _ o _ =>
      Post.lvThen readBytes_post fun _ o _ => Post.pure ?_)
    exact ⟨_, 0, .inl ⟨rfl, .inr rfl⟩, by simp only [Nat.add_zero, u8_id hn]; rfl⟩

/-- A custom entry point name. -/
def CustomAt (e : Env) (tag ptr len : Nat) : Prop :=
  tag = 1 → 4 ≤ ptr ∧ At e.buf (ptr - 4) (le 4 len) ∧ len < 4294967296 ∧ u32 (ptr + len) ≤ e.buf.length

theorem customName_post {e : Env} {s : VS} {x tag : Nat} :
    Post (customName e x tag) s (fun _ t => ∃ p l, CustomAt e tag p l ∧ t.v = { s.v with cepPtr := p, cepLen := l }) := by
  unfold customName
  refine Post.ite (fun h => Post.atOffThen fun _ => Post.modifyThen ?_) fun h => Post.pure ?_
  · refine Post.lvThen readBytes_post fun len o ⟨h1, h2, h3, h4, h5⟩ => Post.modify ?_
    exact ⟨s.off + 4, len, fun _ => ⟨by omega, h1, h2, h4⟩, rfl⟩
  · exact ⟨_, _, fun h' => absurd h' h, rfl⟩

theorem Post.onCopy {α : Type} {m : P α} {s : VS} :
    Post (onCopy m) s (fun a t => t = s ∧ ∃ o, m s.off = .ok a o) := by
  intro a t ht
  unfold Casper.onCopy at ht
  cases hm : m s.off <;> rw [hm] at ht <;> simp at ht
  obtain ⟨rfl, rfl⟩ := ht
  exact ⟨rfl, _, rfl⟩

theorem checkRequired_start {e : Env} {start n s t : Nat} {l : List (Bytes × Bool)} (hl : l ≠ []) :
    checkRequired e start n l s = checkRequired e start n l t := by
  cases l with
  | nil => exact absurd rfl hl
  | cons a l => simp only [checkRequired, bind_run, set_run, Res.bind_ok]

theorem readEntryPoint_post {e : Env} {s : VS} :
    Post (readEntryPoint e) s (fun _ t => ∃ tag p l, tag ≤ 12 ∧ CustomAt e tag p l ∧
      t.v = { s.v with epType := tag, cepPtr := p, cepLen := l,
                       numItems := u8 (s.v.numItems + 1 + entryItems e tag s.v.numArgs) } ∧
      ∃ o o', checkSanity e t.v o = .ok () o') := by
  unfold readEntryPoint
  refine Post.lvThen readU32_post fun _ o ⟨h1, h2, h3, h4⟩ => Post.lvThen readMetadata_post fun m o ⟨k1, k2⟩ => ?_
  refine Post.getThen (Post.atOffThen fun _ => Post.lvThen readU8_post fun tag o ⟨l1, l2, l3, l4⟩ => ?_)
  refine Post.requireThen fun ht => customName_post.seq fun _ t ⟨p, l, h1, h2⟩ => Post.atOffThen fun _ => ?_
  refine Post.modifyThen (Post.modifyThen (Post.getThen (Post.modifyThen (Post.getThen ?_))))
  refine Post.onCopy.mono fun _ u ⟨m1, o', m2⟩ => ?_
  subst m1
  refine ⟨tag, p, l, ht, h1, ?_, _, _, m2⟩
  dsimp only at h2 ⊢
  rw [h2]
  dsimp only
  congr 1
  simp only [u8]; omega

theorem readScheduling_post {e : Env} {s : VS} :
    Post (readScheduling e) s (fun _ t => t.v = s.v ∧ t.off ≤ e.buf.length) := by
  unfold readScheduling
  refine Post.lvThen readU32_post fun _ o ⟨h1, h2, h3, h4⟩ => Post.lvThen readMetadata_post fun m o ⟨k1, k2⟩ => ?_
  refine Post.getThen (Post.atOffThen fun _ => Post.lvThen readU8_post fun tag o ⟨l1, l2, l3, l4⟩ => ?_)
  exact Post.requireThen fun _ => Post.atOff fun _ => ⟨rfl, l4⟩

/-- What was recorded from the body fields at `off`, with `k` items counted for the target. -/
structure BodyAt (e : Env) (off : Nat) (v : V1) (k : Nat) : Prop where
  count : At e.buf off (le 4 4 ++ le 2 0)
  args : ∃ z, ArgsAt e (off + 6) v z
  target : TargetAt e v.target k
  ep : v.epType ≤ 12
  custom : CustomAt e v.epType v.cepPtr v.cepLen
  sanity : ∃ o o', checkSanity e v o = .ok () o'

theorem BodyAt.of {e : Env} {off : Nat} {v w : V1} {k : Nat} (h : BodyAt e off v k) (he : w = { v with
    md := w.md, header := w.header, pmd := w.pmd, numItems := w.numItems, numApprovals := w.numApprovals }) : BodyAt e off w k := by
  obtain ⟨h1, ⟨z, h2⟩, h3, h4, h5, ⟨o, o', h6⟩⟩ := h
  rw [he]
  exact ⟨h1, ⟨z, h2⟩, h3, h4, h5, ⟨o, o', h6⟩⟩

theorem readBody_post {e : Env} {s : VS} (hs : Small e) (h0 : s.v.numArgs = 0) (hn : s.v.numItems < 256) :
    Post (readBody e) s (fun _ t => ∃ k, BodyAt e s.off t.v k ∧ t.off ≤ e.buf.length ∧ t.v = { t.v with
      md := s.v.md, header := s.v.header, pmd := s.v.pmd, numApprovals := s.v.numApprovals,
      numItems := u8 (s.v.numItems + k + 1 + entryItems e t.v.epType t.v.numArgs) }) := by
  unfold readBody
  refine Post.lvThen readU32_post fun n o ⟨h1, h2, h3, h4⟩ => Post.requireThen fun h5 => ?_
  subst h3 h5
  refine readKey_post.seq fun _ t ⟨k1, k2, k3⟩ => ?_
  subst k1
  dsimp only
  refine (readArgs_post (s := ⟨s.off + 4 + 2, s.v⟩) hs h0).seq fun _ t1 ⟨a, b, c, d, l1, l2⟩ => ?_
  refine readKey_post.seq fun _ t ⟨k1, _, _⟩ => ?_
  subst k1
  refine (readTarget_post hs (by dsimp only; rw [l1]; exact hn)).seq fun _ t ⟨g, k, m1, m2⟩ => ?_
  refine readKey_post.seq fun _ t ⟨k1, _, _⟩ => ?_
  subst k1
  refine readEntryPoint_post.seq fun _ t ⟨tag, p, l, n1, n2, n3, n4⟩ => ?_
  refine readKey_post.seq fun _ t ⟨k1, _, _⟩ => ?_
  subst k1
  refine readScheduling_post.mono fun _ t ⟨p1, p2⟩ => ?_
  dsimp only at p1 n3 m2
  rw [m2] at n3
  rw [l1] at n3
  refine ⟨k, ?_, p2, ?_⟩
  · rw [p1]
    refine ⟨?_, ⟨t1.off, ?_⟩, ?_, ?_, ?_, n4⟩
    · rw [At.append]; exact ⟨h1, k2⟩
    · rw [n3]; rw [l1] at l2; exact l2
    · rw [n3]; exact m1
    · rw [n3]; exact n1
    · rw [n3]; exact n2
  · rw [p1, n3]
    dsimp only
    congr 1
    simp only [u8]; omega

/-- Everything recorded from a transaction that was read successfully. -/
structure V1Facts (e : Env) (v : V1) : Prop where
  table : Table e 0 v.md
  fo0 : v.md.fo 0 = 0
  fo1 : v.md.fo 1 = 32
  fo2 : v.md.fo 2 = 32 + v.pmd.size + v.pmd.fieldsSize
  ptable : Table e (v.md.size + 32) v.pmd
  pinside : v.md.size + 32 + v.pmd.size + v.pmd.fieldsSize ≤ e.buf.length
  body : ∃ fin k, HeaderAt e (v.md.size + 32 + v.pmd.size) v.header fin ∧ BodyAt e fin v k ∧
    v.numItems = u8 ((if e.expert then 9 else 4) + k + entryItems e v.epType v.numArgs)
  approvals : ∃ n o, At e.buf (v.md.size + 32 + v.pmd.size + v.pmd.fieldsSize) (le 4 n) ∧ n < 4294967296 ∧
    v.numApprovals = u8 n ∧
    readApprovalList e n (v.md.size + 32 + v.pmd.size + v.pmd.fieldsSize + 4) = .ok () o
  six : 6 ≤ v.pmd.numFields

/-- The address and the body cannot begin at the same place: one begins with 2, the other with 4. -/
theorem HeaderAt.apart {e : Env} {b k : Nat} {h : V1Header} {fin : Nat} {v : V1} (hh : HeaderAt e b h fin) (hb : BodyAt e fin v k) : fin ≠ b := by
  rintro rfl
  obtain ⟨-, ⟨m, tag, ht, h2, -⟩, -⟩ := hh
  obtain ⟨n, hn, hn'⟩ := ht.count
  have hc := (At.append.1 hb.count).1
  have : le 4 n = le 4 4 := by rw [← hn.take_drop, ← hc.take_drop]; rfl
  rw [h2] at hn'
  have h0 := congrArg List.head? this
  rw [show (le 4 n).head? = some (UInt8.ofNat (n % 256)) from rfl, show (le 4 4).head? = some 4 from rfl] at h0
  simp only [Option.some.injEq] at h0
  have h1 := congrArg UInt8.toNat h0
  rw [UInt8.toNat_ofNat'] at h1
  unfold u8 at hn'
  simp at h1
  omega

theorem readPayload_post {e : Env} {s : VS} (hs : Small e) (h0 : s.v.numArgs = 0) (hn : s.v.numItems < 256) :
    Post (readPayload e) s (fun _ t => Table e s.off t.v.pmd ∧ t.off ≤ e.buf.length ∧
      t.off = u32 (payloadFirst t.v + t.v.pmd.fieldsSize) ∧
      (s.off + t.v.pmd.size = u32 (payloadFirst t.v + t.v.pmd.fo 0)) ∧
      ∃ fin k, fin = u32 (payloadFirst t.v + t.v.pmd.fo 5) ∧ HeaderAt e (s.off + t.v.pmd.size) t.v.header fin ∧ BodyAt e fin t.v k ∧ t.v = { t.v with
        md := s.v.md, numApprovals := s.v.numApprovals,
        numItems := u8 (s.v.numItems + (if e.expert then 7 else 3) + k + entryItems e t.v.epType t.v.numArgs) }) := by
  unfold readPayload
  refine Post.lvThen readMetadata_post fun m o ⟨h1, h2⟩ => Post.modifyThen (Post.getThen (Post.atOffThen fun h3 => ?_))
  subst h1
  refine (readV1Header_post hs).seq fun _ t ⟨h, k1, k2, k3, k4⟩ => Post.atOffThen fun _ => ?_
  dsimp only at k1 k2
  refine (readBody_post hs (by rw [k2]; exact h0) (by rw [k2]; exact Nat.mod_lt _ (by decide))).seq
    fun _ u ⟨k, l1, l2, l3⟩ => Post.atOff fun l4 => ?_
  rw [k2] at l3
  dsimp only at l3
  have e1 : u.v.md = s.v.md := by rw [l3]
  have e2 : u.v.pmd = m := by rw [l3]
  have e3 : u.v.header = h := by rw [l3]
  have e4 : payloadFirst { s.v with pmd := m } = payloadFirst u.v := by unfold payloadFirst; rw [e1, e2]
  refine ⟨by rw [e2]; exact h2, l2, ?_, ?_, t.off, k, ?_, ?_, l1, ?_⟩
  · dsimp only at l4; rw [l4, e4, e2]
  · dsimp only at h3; rw [e2, h3, e4]
  · dsimp only at k4; rw [k4, e4, e2]
  · rw [e2, e3]; exact k1
  · rw [l3]
    dsimp only
    congr 1
    cases e.expert <;> simp [u8] <;> omega

theorem readApprovals_post {e : Env} {s : VS} (hn : s.v.numItems < 256) :
    Post (readApprovals e) s (fun _ t => ∃ n, At e.buf s.off (le 4 n) ∧ n < 4294967296 ∧
      readApprovalList e n (s.off + 4) = .ok () t.off ∧
      t.v = { s.v with numApprovals := u8 n, numItems := u8 (s.v.numItems + if e.expert then 1 else 0) }) := by
  unfold readApprovals
  rw [incrExpert_eq]
  refine Post.lvThen readU32_post fun n o ⟨h1, h2, h3, h4⟩ => Post.modifyThen (Post.lvThen Post.self fun _ o h5 => ?_)
  subst h3
  refine Post.modify ⟨n, h1, h2, h5, ?_⟩
  dsimp only
  congr 1
  cases e.expert <;> simp [u8_id hn]

theorem readV1_post {e : Env} (hs : Small e) : Post (readV1 e) ⟨0, {}⟩ (fun _ t => V1Facts e t.v) := by
  unfold readV1
  refine Post.requireThen fun _ => Post.lvThen readMetadata_post fun m o ⟨h1, h2⟩ => Post.modifyThen (Post.atOffThen fun h3 => ?_)
  have hsz := h2.size_le
  have hfo := h2.lt
  have hfs := h2.fs_lt
  subst h1
  refine Post.lvThen (readHash_post (by dsimp only; omega)) fun _ o h4 => Post.modifyThen (Post.atOffThen fun h5 => ?_)
  subst h4
  dsimp only at h3 h5 ⊢
  have f0 : m.fo 0 = 0 := by have := hfo 0; unfold u32 at h3; omega
  have f1 : m.fo 1 = 32 := by have := hfo 1; unfold u32 at h5; omega
  refine (readPayload_post hs rfl (Nat.mod_lt _ (by decide))).seq fun _ t ⟨k1, k2, k3, k4, fin, k, k9, k5, k6, k7⟩ =>
    Post.atOffThen fun k8 => ?_
  dsimp only at k1 k4 k5 k7
  have hmd : t.v.md = m := by rw [k7]
  have hps := k1.size_le
  have hpf := k1.fs_lt
  have hlt : ∀ j, m.fo j < 4294967296 := hfo
  have hend : t.off = m.size + 32 + t.v.pmd.size + t.v.pmd.fieldsSize := by
    rw [k3]; unfold payloadFirst; rw [hmd, f1]; exact u32_id (by omega)
  have f2 : m.fo 2 = 32 + t.v.pmd.size + t.v.pmd.fieldsSize := by
    have := hfo 2; rw [hend] at k8; unfold u32 at k8; unfold Small at hs; omega
  refine (readApprovals_post (by rw [k7]; exact Nat.mod_lt _ (by decide))).seq fun _ u ⟨n, l1, l2, l3, l4⟩ =>
    Post.atOff fun _ => ?_
  rw [Nat.zero_add] at k1 k5
  have g1 : u.v.md = m := by rw [l4, hmd]
  have g2 : u.v.pmd = t.v.pmd := by rw [l4]
  have g3 : u.v.header = t.v.header := by rw [l4]
  refine ⟨?_, ?_, ?_, ?_, ?_, ?_, ⟨fin, k, ?_, ?_, ?_⟩, ⟨n, u.off, ?_, l2, ?_, ?_⟩, ?_⟩
  · rw [g1]; exact h2
  · rw [g1]; exact f0
  · rw [g1]; exact f1
  · rw [g1, g2]; exact f2
  · rw [g1, g2]; exact k1
  · rw [g1, g2, ← hend]; exact k2
  · rw [g1, g2, g3]; exact k5
  · exact k6.of (by rw [l4])
  · have : t.v.numItems = _ := congrArg V1.numItems k7
    dsimp only at this
    rw [l4]
    dsimp only
    rw [this]
    cases e.expert <;> simp [u8] <;> omega
  · rw [g1, g2, ← hend]; exact l1
  · rw [l4]
  · rw [g1, g2, ← hend]; exact l3
  · rw [g2]
    refine Nat.le_of_not_lt fun hlt6 => ?_
    have f5 := k1.none 5 (by omega)
    refine k5.apart k6 ?_
    rw [k9, f5]
    unfold payloadFirst
    rw [hmd, f1]
    exact u32_id (by omega)

end Casper
