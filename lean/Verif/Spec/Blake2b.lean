import Verif.Model.Basic
/-
BLAKE2b-256 (RFC 7693), written from the RFC so that concrete witnesses use the real hash function.
Everything is structural recursion over lists of `Nat` words, so it also computes in the kernel.
-/
namespace Casper.Blake

/-- Evaluate a number before going on (only a matter of evaluation order). -/
def force {α : Type} (n : Nat) (k : Nat → α) : α :=
  match n with
  | 0 => k 0
  | m + 1 => k (m + 1)

/-- `n` little-endian bytes of a number. -/
def leBytes : Nat → Nat → Bytes
  | 0, _ => []
  | n + 1, v => UInt8.ofNat (v % 256) :: leBytes n (v / 256)

theorem leBytes_length (n v : Nat) : (leBytes n v).length = n := by
  induction n generalizing v with
  | zero => rfl
  | succ n ih => simp [leBytes, ih]

/-- Addition modulo 2^64. -/
def add (a b : Nat) : Nat := (a + b) % 18446744073709551616

/-- Rotation of a 64-bit word to the right. -/
def rotr (x n : Nat) : Nat := (x >>> n) ||| ((x <<< (64 - n)) % 18446744073709551616)

/-- Initialisation vector (RFC 7693, 2.6). -/
def iv : List Nat :=
  [0x6a09e667f3bcc908, 0xbb67ae8584caa73b, 0x3c6ef372fe94f82b, 0xa54ff53a5f1d36f1,
   0x510e527fade682d1, 0x9b05688c2b3e6c1f, 0x1f83d9abfb41bd6b, 0x5be0cd19137e2179]

/-- Message schedule (RFC 7693, 2.7), ten rows, then the first two again. -/
def sigma : List (List Nat) :=
  [[0, 1, 2, 3, 4, 5, 6, 7, 8, 9, 10, 11, 12, 13, 14, 15],
   [14, 10, 4, 8, 9, 15, 13, 6, 1, 12, 0, 2, 11, 7, 5, 3],
   [11, 8, 12, 0, 5, 2, 15, 13, 10, 14, 3, 6, 7, 1, 9, 4],
   [7, 9, 3, 1, 13, 12, 11, 14, 2, 6, 5, 10, 4, 0, 15, 8],
   [9, 0, 5, 7, 2, 4, 10, 15, 14, 1, 11, 12, 6, 8, 3, 13],
   [2, 12, 6, 10, 0, 11, 8, 3, 4, 13, 7, 5, 15, 14, 1, 9],
   [12, 5, 1, 15, 14, 13, 4, 10, 0, 7, 6, 3, 9, 2, 8, 11],
   [13, 11, 7, 14, 12, 1, 3, 9, 5, 0, 15, 4, 8, 6, 2, 10],
   [6, 15, 14, 9, 11, 3, 0, 8, 12, 2, 13, 7, 1, 4, 10, 5],
   [10, 2, 8, 4, 7, 6, 1, 5, 15, 11, 9, 14, 3, 12, 13, 0],
   [0, 1, 2, 3, 4, 5, 6, 7, 8, 9, 10, 11, 12, 13, 14, 15],
   [14, 10, 4, 8, 9, 15, 13, 6, 1, 12, 0, 2, 11, 7, 5, 3]]

/-- Mixing function G (RFC 7693, 3.1) on four words and two message words, in continuation style. -/
def mix {α : Type} (a b c d x y : Nat) (k : Nat → Nat → Nat → Nat → α) : α :=
  force (add (add a b) x) fun a =>
  force (rotr (d ^^^ a) 32) fun d =>
  force (add c d) fun c =>
  force (rotr (b ^^^ c) 24) fun b =>
  force (add (add a b) y) fun a =>
  force (rotr (d ^^^ a) 16) fun d =>
  force (add c d) fun c =>
  force (rotr (b ^^^ c) 63) fun b =>
  k a b c d

/-- The working vector. -/
structure V where
  (v0 v1 v2 v3 v4 v5 v6 v7 v8 v9 v10 v11 v12 v13 v14 v15 : Nat)

/-- One round (RFC 7693, 3.2). -/
def round (m : List Nat) (s : List Nat) (v : V) : V :=
  let w (i : Nat) : Nat := m.getD (s.getD i 0) 0
  match v with
  | ⟨v0, v1, v2, v3, v4, v5, v6, v7, v8, v9, v10, v11, v12, v13, v14, v15⟩ =>
    mix v0 v4 v8 v12 (w 0) (w 1) fun v0 v4 v8 v12 =>
    mix v1 v5 v9 v13 (w 2) (w 3) fun v1 v5 v9 v13 =>
    mix v2 v6 v10 v14 (w 4) (w 5) fun v2 v6 v10 v14 =>
    mix v3 v7 v11 v15 (w 6) (w 7) fun v3 v7 v11 v15 =>
    mix v0 v5 v10 v15 (w 8) (w 9) fun v0 v5 v10 v15 =>
    mix v1 v6 v11 v12 (w 10) (w 11) fun v1 v6 v11 v12 =>
    mix v2 v7 v8 v13 (w 12) (w 13) fun v2 v7 v8 v13 =>
    mix v3 v4 v9 v14 (w 14) (w 15) fun v3 v4 v9 v14 =>
    ⟨v0, v1, v2, v3, v4, v5, v6, v7, v8, v9, v10, v11, v12, v13, v14, v15⟩

/-- All rounds. -/
def rounds (m : List Nat) : List (List Nat) → V → V
  | [], v => v
  | s :: ss, v => rounds m ss (round m s v)

/-- Evaluate all numbers of a list before going on. -/
def forceAll {α : Type} : List Nat → (List Nat → α) → α
  | [], k => k []
  | x :: xs, k => force x fun x => forceAll xs fun xs => k (x :: xs)

/-- Compression function F (RFC 7693, 3.2): state `h`, sixteen message words, byte counter, last-block flag. -/
def compress (h m : List Nat) (t : Nat) (last : Bool) : List Nat :=
  let g (i : Nat) : Nat := h.getD i 0
  let c (i : Nat) : Nat := iv.getD i 0
  match rounds m sigma ⟨g 0, g 1, g 2, g 3, g 4, g 5, g 6, g 7, c 0, c 1, c 2, c 3,
      c 4 ^^^ (t % 18446744073709551616), c 5 ^^^ (t / 18446744073709551616),
      if last then c 6 ^^^ 18446744073709551615 else c 6, c 7⟩ with
  | ⟨v0, v1, v2, v3, v4, v5, v6, v7, v8, v9, v10, v11, v12, v13, v14, v15⟩ =>
    forceAll [g 0 ^^^ v0 ^^^ v8, g 1 ^^^ v1 ^^^ v9, g 2 ^^^ v2 ^^^ v10, g 3 ^^^ v3 ^^^ v11,
      g 4 ^^^ v4 ^^^ v12, g 5 ^^^ v5 ^^^ v13, g 6 ^^^ v6 ^^^ v14, g 7 ^^^ v7 ^^^ v15] id

/-- `n` words of a block. -/
def words : Nat → Bytes → List Nat
  | 0, _ => []
  | n + 1, xs => leVal (xs.take 8) :: words n (xs.drop 8)

/-- Process the data block by block (the first argument bounds the number of blocks). -/
def blocks : Nat → List Nat → Bytes → Nat → List Nat
  | 0, h, _, _ => h
  | k + 1, h, xs, t =>
    if xs.length ≤ 128 then
      forceAll (words 16 xs) fun m => compress h m (t + xs.length) true
    else
      forceAll (words 16 (xs.take 128)) fun m =>
        forceAll (compress h m (t + 128) false) fun h => blocks k h (xs.drop 128) (t + 128)

/-- BLAKE2b with a 32-byte digest and no key. -/
def blake2b256 (xs : Bytes) : Bytes :=
  let h := blocks (xs.length / 128 + 1) ((0x6a09e667f3bcc908 ^^^ 0x01010020) :: iv.drop 1) xs 0
  leBytes 8 (h.getD 0 0) ++ leBytes 8 (h.getD 1 0) ++ leBytes 8 (h.getD 2 0) ++ leBytes 8 (h.getD 3 0)

/-- As a `Hash`. -/
def H : Hash := ⟨blake2b256, fun x => by simp [blake2b256, leBytes_length]⟩

end Casper.Blake
