import Verif.Base
import Verif.MsgStorage
/-!
# `OpcUaSduBuffer` (common/ua/common/OpcUaSduBuffer.cpp) and the codec monad

The buffer is a fixed array of 4096 bytes with a read position (`tail`) and a write position
(`head`).  Neither `read` nor `write` checks its position, so an access at or after index 4096 is
undefined behaviour.  The array is not initialised by the constructor: its content is arbitrary.
The member `len` is never used and not modelled.
-/

namespace Uscada.Ua

/-- OpcUaSduBuffer.hpp:37. -/
def maxPacketLen : Nat := 4096

/-- OpcUaSduBuffer.hpp:39-42. -/
structure Buf where
  packet : Mem
  tail : Nat
  head : Nat

/-- OpcUaSduBuffer.cpp:7-11; the array is left uninitialised. -/
def Buf.create (m : Mem) : Buf := { packet := m, tail := 0, head := 0 }

/-- OpcUaSduBuffer.cpp:51-54 (the name says size, the value is the write position). -/
def Buf.size (b : Buf) : Nat := b.head

/-- OpcUaSduBuffer.cpp:56-59: unsigned subtraction, `head` never exceeds the array in a run that
stays defined. -/
def Buf.capacity (b : Buf) : Nat := maxPacketLen - b.head

/-- OpcUaSduBuffer.cpp:61-64. -/
def Buf.seek (b : Buf) (n : Nat) : Buf := { b with head := b.head + n }

/-- OpcUaSduBuffer.cpp:66-69. -/
def Buf.reset (b : Buf) : Buf := { b with tail := 0, head := 0 }

/-- The bytes between the read and the write position. -/
def Buf.content (b : Buf) : List UInt8 := memRead b.packet b.tail (b.head - b.tail)

/-- A codec operation: `operator<<` and `operator>>` thread the buffer through. -/
def Codec (α : Type) : Type := Buf → Exec (α × Buf)

namespace Codec

instance : Monad Codec where
  pure a := fun b => .ok (a, b)
  bind m f := fun b => m b >>= fun p => f p.1 p.2

/-- a C++ exception -/
def throws {α : Type} : Codec α := fun _ => .throws

/-- `throw;` with no active exception: `std::terminate` -/
def terminate {α : Type} : Codec α := fun _ => .abort

@[simp] theorem pure_run {α : Type} (a : α) (b : Buf) : (pure a : Codec α) b = .ok (a, b) := rfl
theorem bind_run {α β : Type} (m : Codec α) (f : α → Codec β) (b : Buf) :
    (m >>= f) b = (m b >>= fun p => f p.1 p.2) := rfl

end Codec

/-- OpcUaSduBuffer.cpp:17-21 (through OpcUaBinaryCodec.cpp:18-21). -/
def write (v : UInt8) : Codec Unit := fun b =>
  if b.head < maxPacketLen then
    .ok ((), { b with packet := memWrite b.packet b.head [v], head := b.head + 1 })
  else .ub

/-- OpcUaSduBuffer.cpp:23-29. -/
def read : Codec UInt8 := fun b =>
  if b.tail < maxPacketLen then .ok (b.packet b.tail, { b with tail := b.tail + 1 }) else .ub

/-- `*s.buf().begin()`, OpcUaSduBuffer.cpp:31-34: look at the byte at the read position. -/
def peek : Codec UInt8 := fun b =>
  if b.tail < maxPacketLen then .ok (b.packet b.tail, b) else .ub

/-- A loop of `n` calls of `read`. -/
def readN : Nat → Codec (List UInt8)
  | 0 => pure []
  | n + 1 => do
    let x ← read
    let xs ← readN n
    pure (x :: xs)

/-- A loop of `write` calls. -/
def writeL : List UInt8 → Codec Unit
  | [] => pure ()
  | x :: xs => do
    write x
    writeL xs

/-- The pair of overloaded operators of a type, OpcUaBinaryCodec.hpp.  `init` is the
default-constructed value; `dec` takes the old value of the target, because some decoders leave
parts of it untouched. -/
class Ua (α : Type) where
  init : α
  enc : α → Codec Unit
  dec : α → Codec α

export Ua (enc dec)

end Uscada.Ua
