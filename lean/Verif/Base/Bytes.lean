/-!
Byte strings and C integer helpers shared by all models.

* A C string is a `List UInt8` holding the bytes before the terminating NUL.
* `b!"text"` is the byte list of an ASCII literal, `c!"x"` the byte of a one-character literal.
-/
namespace WG

abbrev Byte := UInt8
abbrev CStr := List UInt8

open Lean in
macro:max "b!" s:str : term => do
  let elems := s.getString.toUTF8.toList.map fun b => Syntax.mkNumLit (toString b.toNat)
  `(([$(elems.toArray),*] : List UInt8))

open Lean in
macro:max "c!" s:str : term => do
  match s.getString.toUTF8.toList with
  | [b] => `(($(Syntax.mkNumLit (toString b.toNat)) : UInt8))
  | _ => Macro.throwError "c! expects a one-byte literal"

/-- A 32-byte key (`uint8_t key[WG_KEY_LEN]`; containers.h:21-23, WG_KEY_LEN = 32). -/
abbrev Key := Vector UInt8 32

/-- The all-zero key (`calloc`/`memset` result). -/
def zeroKey : Key := Vector.replicate 32 0

/-- Integer promotion of a `char` to `int`: sign-extended where `char` is signed (x86),
zero-extended where it is unsigned (ARM). -/
def charToInt (sc : Bool) (c : UInt8) : BitVec 32 :=
  if sc then c.toBitVec.signExtend 32 else c.toBitVec.setWidth 32

/-- Integer promotion of a `uint8_t` to `int`/`unsigned int`. -/
def u8ToInt (c : UInt8) : BitVec 32 := c.toBitVec.setWidth 32

/-- Conversion of an `int`/`unsigned` to `uint8_t`/`char` (the low eight bits). -/
def toU8 (x : BitVec 32) : UInt8 := ⟨x.setWidth 8⟩

/-- `>>` on `int`: arithmetic shift (implementation-defined in ISO C, this is what GCC and Clang do). -/
def asr (x : BitVec 32) (n : Nat) : BitVec 32 := x.sshiftRight n

/-- The C string stored in a raw buffer: everything before the first NUL. -/
def cstr (raw : List UInt8) : CStr := raw.takeWhile (· ≠ 0)

end WG
