import Verif.Model.Device
/-
Key handling (`app/src/crypto.c:51-156`): `crypto_extractPublicKey` and `crypto_sign` behind the computation of the digest.
-/
namespace Casper
open M

/-- The calls into the Ledger SDK and zxlib.  Each gets the old contents of what it may write and returns whether it succeeded and the new contents,
so a failing call may leave anything behind.  `derive` is `os_derive_bip32_with_seed_no_throw`, `initKey` and `initPub` are
`cx_ecfp_init_{private,public}_key_no_throw`, `pair` is `cx_ecfp_generate_pair_no_throw` (public key, private key), `ecdsa` is
`cx_ecdsa_sign_no_throw` (array for the DER signature, its length, `info`), `rsv` is `convertDERtoRSV` (r, s, v). -/
structure Sdk where
  derive : Bytes → Bytes → Bool × Bytes
  initKey : Bytes → Bytes → Bool × Bytes
  initPub : Bytes → Bool × Bytes
  pair : Bytes → Bytes → Bool × Bytes × Bytes
  ecdsa : Bytes → Bytes → Bytes → Bool × Bytes × Nat × Nat
  rsv : Bytes → Nat → Bytes → Bytes → UInt8 → Bool × Bytes × Bytes × UInt8

/-- Sizes: nothing is written outside the arrays handed over. -/
structure Sdk.Ok (k : Sdk) : Prop where
  pair : ∀ w x, w.length = 65 → (k.pair w x).2.1.length = 65
  initPub : ∀ w, w.length = 65 → (k.initPub w).2.length = 65
  der : ∀ x h a, a.length = 73 → (k.ecdsa x h a).2.1.length = 73
  derLength : ∀ x h a, (k.ecdsa x h a).2.2.1 ≤ 73
  rsv : ∀ a i r s v, r.length = 32 → s.length = 32 → (k.rsv a i r s v).2.1.length = 32 ∧ (k.rsv a i r s v).2.2.1.length = 32

/-- Memory: `privateKeyData[64]`, `cx_privateKey`, `cx_publicKey.W[65]`, the output array (`signature` or `pubKey`), `*sigSize`. -/
structure KeyMem where
  seed : Bytes
  key : Bytes
  pub : Bytes
  out : Bytes
  size : Nat
  deriving DecidableEq, Repr

/-- `MEMZERO` of an array. -/
def zeros (n : Nat) : Bytes := List.replicate n 0

/-- `sizeof(cx_ecfp_private_key_t)`: curve, length, 32 bytes (only its being fixed matters). -/
def keySize : Nat := 40

/-- A call that may fail, under `CATCH_CXERROR` (zxlib: jump to `catch_cx_error` unless the result is `CX_OK`). -/
def sdkCall (f : KeyMem → Bool × KeyMem) : M KeyMem Unit := fun s =>
  match f s with
  | (true, t) => .ok () t
  | (false, t) => .err eUnexpectedError t

/-- `MEMZERO(&cx_privateKey, …); MEMZERO(privateKeyData, …)` (`crypto.c:73-74,147-148`). -/
def wipeKeys : M KeyMem Unit := modify fun s => { s with key := zeros keySize, seed := zeros 64 }

/-- The end of both functions (`crypto.c:72-80,146-155`): wipe the keys, on failure the output too. -/
def leave (r : Except Nat Unit) : M KeyMem Unit := do
  wipeKeys
  match r with
  | .ok _ => pure ()
  | .error x => do
    modify fun s => { s with out := zeros s.out.length }
    fail x

/-- Derivation of the private key (`crypto.c:62-65,129-132`). -/
def deriveKey (k : Sdk) (path : Bytes) : M KeyMem Unit := do
  sdkCall fun s => let r := k.derive path s.seed; (r.1, { s with seed := r.2 })
  sdkCall fun s => let r := k.initKey (s.seed.take 32) s.key; (r.1, { s with key := r.2 })

/-- `signature_t` (`crypto.c:83-92`): r, s, v, DER. -/
def sigR (xs : Bytes) : Bytes := xs.take 32
def sigS (xs : Bytes) : Bytes := (xs.drop 32).take 32
def sigV (xs : Bytes) : UInt8 := xs.getD 64 0
def sigDer (xs : Bytes) : Bytes := (xs.drop 65).take 73

/-- Write `signature_t` at the start of the output. -/
def putSig (xs r s : Bytes) (v : UInt8) (der : Bytes) : Bytes := poke xs (r ++ s ++ [v] ++ der)

/-- The calls of `crypto_sign` (`crypto.c:132-144`). -/
def signCalls (k : Sdk) (path digest : Bytes) : M KeyMem Unit := do
  deriveKey k path
  let s ← get
  let e := k.ecdsa s.key digest (sigDer s.out)
  sdkCall fun s => (e.1, { s with out := putSig s.out (sigR s.out) (sigS s.out) (sigV s.out) e.2.1 })
  let s ← get
  let c := k.rsv (sigDer s.out) e.2.2.2 (sigR s.out) (sigS s.out) (sigV s.out)
  sdkCall fun s => (c.1, { s with out := putSig s.out c.2.1 c.2.2.1 c.2.2.2 (sigDer s.out) })
  modify fun s => { s with size := u16 (32 + 32 + 1 + e.2.2.1) }

/-- `crypto_sign` behind the digest (`crypto.c:122-156`; `MEMZERO(signature, signatureMaxlen)` is line 99). -/
def cryptoSign (k : Sdk) (path digest : Bytes) : M KeyMem Unit := do
  modify fun s => { s with out := zeros s.out.length }
  modify fun s => { s with key := zeros keySize, seed := zeros 64, size := 0 }
  let r ← attempt (signCalls k path digest)
  leave r

/-- The calls of `crypto_extractPublicKey` (`crypto.c:62-70`). -/
def publicCalls (k : Sdk) (path : Bytes) : M KeyMem Unit := do
  deriveKey k path
  sdkCall fun s => let r := k.initPub s.pub; (r.1, { s with pub := r.2 })
  sdkCall fun s => let r := k.pair s.pub s.key; (r.1, { s with pub := r.2.1, key := r.2.2 })
  modify fun s => { s with pub := (if (s.pub.getD 64 0) &&& 1 = 1 then 3 else 2) :: s.pub.drop 1 }
  modify fun s => { s with out := s.pub.take 33 }

/-- `crypto_extractPublicKey` (`crypto.c:51-81`), for an output of 33 bytes. -/
def extractPublicKey (k : Sdk) (path : Bytes) : M KeyMem Unit := do
  modify fun s => { s with key := zeros keySize, seed := zeros 64, pub := zeros 65 }
  let r ← attempt (publicCalls k path)
  leave r

/-- `app_sign` behind the digest (`common/actions.h:45-54`): the bytes of the answer, if there is one. -/
def signAnswer (k : Sdk) (path digest : Bytes) (s : KeyMem) : Option Bytes :=
  match cryptoSign k path digest s with
  | .ok _ t => if t.size = 0 then none else some (t.out.take t.size)
  | _ => none

/-- The key of an answer (`crypto_fillAddress`, `crypto.c:220-224`). -/
def keyAnswer (k : Sdk) (path : Bytes) (s : KeyMem) : Option Bytes :=
  match extractPublicKey k path s with
  | .ok _ t => some t.out
  | _ => none

end Casper
