/-
Basic vocabulary of the model: bytes, C integer widths, error codes, outcomes and the
state/error monad in which the C functions are transcribed.
-/
namespace Casper

/-- Raw bytes (`uint8_t *`). -/
abbrev Bytes := List UInt8

/-- C truncation to `uint8_t`. -/
abbrev u8 (n : Nat) : Nat := n % 256
/-- C truncation to `uint16_t`. -/
abbrev u16 (n : Nat) : Nat := n % 65536
/-- C truncation to `uint32_t`. -/
abbrev u32 (n : Nat) : Nat := n % 4294967296

open Lean in
/-- `b!"text"`: the bytes of an ASCII literal, as an explicit list (so that it computes in the kernel). -/
macro:max "b!" s:str : term => do
  let xs : Array (TSyntax `term) := s.getString.toUTF8.toList.toArray.map
    (fun b => Syntax.mkNumLit (toString b.toNat))
  `(([$xs,*] : List UInt8))

/-! Error codes, `app/src/common/parser_common.h:34-70`. -/
section
scoped notation "eNoData" => (1 : Nat)
scoped notation "eInitEmpty" => (2 : Nat)
scoped notation "eIdxOutOfRange" => (3 : Nat)
scoped notation "eUnexpectedError" => (5 : Nat)
scoped notation "eUnexpectedType" => (10 : Nat)
scoped notation "eBufferEnd" => (12 : Nat)
scoped notation "eUnexpectedValue" => (13 : Nat)
scoped notation "eNumberItems" => (14 : Nat)
scoped notation "eNumberFields" => (15 : Nat)
scoped notation "eFieldOffset" => (18 : Nat)
scoped notation "eOutOfRange" => (19 : Nat)
scoped notation "eMismatch" => (21 : Nat)
scoped notation "eUnknownPrefix" => (24 : Nat)
scoped notation "eArgNotFound" => (27 : Nat)
scoped notation "eInvalidStored" => (28 : Nat)
end

/-- Undefined behaviour, as a distinct outcome of the model. -/
inductive Fault where
  /-- read outside `ctx->buffer[0 .. bufferLen)` -/
  | oobRead
  /-- write outside a local array -/
  | oobWrite
  /-- a `char` array without terminator handed to a string function -/
  | unterminated
  /-- an object of one type read through a pointer to another type -/
  | typeConfusion
  /-- recursion budget of the model exhausted (proved unreachable) -/
  | fuel
  deriving DecidableEq, Repr

/-- Outcome of a C function: success with a value, an error code (with the state reached, since several callers
go on after an error), or undefined behaviour. -/
inductive Res (σ α : Type) where
  | ok (a : α) (s : σ)
  | err (e : Nat) (s : σ)
  | fault (f : Fault)
  deriving DecidableEq, Repr

/-- Functions that read and change a state `σ` (the parser context) and may fail. -/
def M (σ α : Type) : Type := σ → Res σ α

namespace Res
variable {σ α β : Type}

/-- Sequencing: `CHECK_PARSER_ERR(call)` followed by the rest (`parser_common.h:27-32`). -/
def bind (r : Res σ α) (f : α → σ → Res σ β) : Res σ β :=
  match r with
  | .ok a s => f a s
  | .err e s => .err e s
  | .fault x => .fault x

@[simp] theorem bind_ok (a : α) (s : σ) (f : α → σ → Res σ β) : (Res.ok a s).bind f = f a s := rfl
@[simp] theorem bind_err (e : Nat) (s : σ) (f : α → σ → Res σ β) : (Res.err e s).bind f = .err e s := rfl
@[simp] theorem bind_fault (x : Fault) (f : α → σ → Res σ β) : (Res.fault x).bind f = .fault x := rfl

end Res

namespace M
variable {σ α β : Type}

instance : Monad (M σ) where
  pure a := fun s => .ok a s
  bind m f := fun s => (m s).bind (fun a s' => f a s')

/-- `return ERROR;` -/
def fail (e : Nat) : M σ α := fun s => .err e s
/-- undefined behaviour -/
def abort (f : Fault) : M σ α := fun _ => .fault f
/-- read the state -/
def get : M σ σ := fun s => .ok s s
/-- replace the state -/
def set (s : σ) : M σ Unit := fun _ => .ok () s
/-- update the state -/
def modify (f : σ → σ) : M σ Unit := fun s => .ok () (f s)

/-- `PARSER_ASSERT_OR_ERROR(cond, e)` (`parser_utils.h:14-15`). -/
def require (c : Prop) [Decidable c] (e : Nat) : M σ Unit := if c then pure () else fail e

/-- Call a function and look at its error code instead of returning it: `none` is `parser_ok`. -/
def attempt (m : M σ α) : M σ (Except Nat α) := fun s =>
  match m s with
  | .ok a s' => .ok (.ok a) s'
  | .err e s' => .ok (.error e) s'
  | .fault f => .fault f

@[simp] theorem pure_run (a : α) (s : σ) : (pure a : M σ α) s = .ok a s := rfl
@[simp] theorem bind_run (m : M σ α) (f : α → M σ β) (s : σ) :
    (m >>= f) s = (m s).bind (fun a s' => f a s') := rfl
@[simp] theorem fail_run (e : Nat) (s : σ) : (fail e : M σ α) s = .err e s := rfl
@[simp] theorem abort_run (f : Fault) (s : σ) : (abort f : M σ α) s = .fault f := rfl
@[simp] theorem get_run (s : σ) : (get : M σ σ) s = .ok s s := rfl
@[simp] theorem set_run (t s : σ) : (set t : M σ Unit) s = .ok () t := rfl
@[simp] theorem modify_run (f : σ → σ) (s : σ) : (modify f : M σ Unit) s = .ok () (f s) := rfl
theorem require_run (c : Prop) [Decidable c] (e : Nat) (s : σ) :
    (require c e : M σ Unit) s = if c then .ok () s else .err e s := by
  unfold require; split <;> rfl
@[simp] theorem require_true {c : Prop} [Decidable c] (h : c) (e : Nat) (s : σ) :
    (require c e : M σ Unit) s = .ok () s := by simp [require_run, h]
theorem attempt_run (m : M σ α) (s : σ) : attempt m s = (match m s with
  | .ok a s' => .ok (.ok a) s'
  | .err e s' => .ok (.error e) s'
  | .fault f => .fault f) := rfl

end M

/-- 32-byte hash function (BLAKE2b-256 in the app); any function with 32-byte results. -/
structure Hash where
  f : Bytes → Bytes
  len : ∀ x, (f x).length = 32

instance : CoeFun Hash (fun _ => Bytes → Bytes) := ⟨Hash.f⟩

/-- What the parsing and rendering functions read but never write: the bytes `ctx->buffer[0..bufferLen)`,
`app_mode_expert()`, BLAKE2b (`crypto.c:41-49`), `printTimeSpecialFormat` (external; `none` is a failure), what
the external `uint64_to_str` leaves in an array too small for the number (`overlong cap n`), and whether `ctx->tx_content == Deploy && parser_tx_obj_deploy.type == WasmDeploy` (`parser_special.c:656`). -/
structure Env where
  buf : Bytes
  expert : Bool
  blake : Hash
  fmtTime : Nat → Option Bytes
  overlong : Nat → Nat → Bytes := fun _ _ => []
  wasm : Bool := false

/-- Parsers over the cursor `ctx->offset` (a `uint16_t`). -/
abbrev P (α : Type) := M Nat α

/-- The bytes `ctx->buffer[off .. off+n)`; undefined behaviour when not inside the received data. -/
def slice (e : Env) (off n : Nat) : P Bytes := fun s =>
  if off + n ≤ e.buf.length then .ok ((e.buf.drop off).take n) s else .fault .oobRead

/-- `ctx->offset += n` without any check. -/
def skip (n : Nat) : P Unit := fun off => .ok () (u16 (off + n))

/-- `ctx->offset = n` (a `uint16_t` assignment). -/
def seek (n : Nat) : P Unit := fun _ => .ok () (u16 n)

/-- C view of a `char[]` holding these bytes: up to the first NUL. -/
def cstr (xs : Bytes) : Bytes := xs.takeWhile (· != 0)

/-- Little-endian value of a byte string. -/
def leVal : Bytes → Nat
  | [] => 0
  | b :: bs => b.toNat + 256 * leVal bs

/-- Decimal digits of a number (`"0"` for zero): contract of the external `fpuint64_to_str(.., 0)`,
`uint64_to_str`, `snprintf("%d")` on non-negative values and of BCD printing. -/
def decimal (n : Nat) : Bytes := (Nat.toDigits 10 n).map (fun c => UInt8.ofNat c.toNat)

end Casper
