import Verif.Spec.Bytesrepr
/-
Type descriptors outside the part of Casper's types that the app reads as Casper does.  Independent of the model.
-/
namespace Casper

/-- Number of components of a composite type, by tag. -/
def components (c : UInt8) : Nat :=
  if c = 13 ∨ c = 14 ∨ c = 18 then 1 else if c = 16 ∨ c = 17 ∨ c = 19 then 2 else if c = 20 then 3 else 0

/-- `k` is not the tag of a type, or that of a composite type (a component of a component; only a map may have one, as its value,
and no map), or that of `Any` outside a list or map, or that of a byte array that is not the last component. -/
def badComponent (c : UInt8) (last : Bool) (k : UInt8) : Bool :=
  k > 22 || (k ≥ 13 && k ≤ 20 && !last) || (k ≥ 13 && k ≤ 20 && k != 15 && c != 17) || (k == 21 && c != 17 && c != 14) || (k == 17 && c == 17)

/-- The beginning of a type descriptor up to a component as in `badComponent`. -/
inductive BadType : Bytes → Prop
  | component (c : UInt8) (ks : Bytes) (k : UInt8) (hl : ks.length < components c)
      (hk : badComponent c (ks.length + 1 == components c) k = true) : BadType (c :: (ks ++ [k]))
  | mapValue (k : UInt8) (bs : Bytes) (h : BadType bs) : BadType (17 :: k :: bs)

end Casper
