import Verif.Model.Crypto
/-
What signing and key extraction should do, in terms of the calls that are made.
-/
namespace Casper

/-- All bytes are zero. -/
def AllZero (xs : Bytes) : Prop := ∀ x ∈ xs, x = 0

/-- The memory a call ends with. -/
def Res.memory {σ α : Type} : Res σ α → Option σ
  | .ok _ s | .err _ s => some s
  | .fault _ => none

/-- The result of a call that succeeds. -/
def given {α : Type} (r : Bool × α) : Option α := if r.1 then some r.2 else none

/-- The private key of a path. -/
def Sdk.privateKey (k : Sdk) (path : Bytes) : Option Bytes := do
  let seed ← given (k.derive path (List.replicate 64 0))
  given (k.initKey (seed.take 32) (List.replicate 40 0))

/-- The signature of a digest with the key of a path: r, s, v and the DER form. -/
def Sdk.signature (k : Sdk) (path digest : Bytes) : Option Bytes := do
  let key ← k.privateKey path
  let (der, n, info) ← given (k.ecdsa key digest (List.replicate 73 0))
  let (r, s, v) ← given (k.rsv der info (List.replicate 32 0) (List.replicate 32 0) 0)
  pure (r ++ s ++ [v] ++ der.take n)

/-- SEC 1 compression of an uncompressed point: 2 or 3 according to the last bit of Y, then X. -/
def compressed (w : Bytes) : Bytes := (if (w.getD 64 0).toNat % 2 = 1 then 3 else 2) :: (w.drop 1).take 32

/-- The compressed public key of a path. -/
def Sdk.publicKey (k : Sdk) (path : Bytes) : Option Bytes := do
  let key ← k.privateKey path
  let w ← given (k.initPub (List.replicate 65 0))
  let (w, _) ← given (k.pair w key)
  pure (compressed w)

end Casper
