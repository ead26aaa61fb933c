import Verif.MsgStorage
/-!
# The Modbus/TCP codec

`PduBuffer` (modbus/PduBuffer.hpp) and `ModbusCodec` (modbus/ModbusCodec.cpp), with the structures
`AduRequest` (modbus/client/AduRequest.hpp) and `AduRespond` (modbus/client/AduRespond.hpp).
-/

namespace Uscada

namespace Exec

theorem bind_assoc {α β γ : Type} (x : Exec α) (f : α → Exec β) (g : β → Exec γ) :
    ((x >>= f) >>= g) = (x >>= fun a => f a >>= g) := by
  cases x <;> rfl

end Exec

namespace Modbus

/-! ## The buffer -/

/-- PduBuffer.hpp:10-106.  The array content is arbitrary until written. -/
structure PduBuf where
  buf : Mem
  pos : Nat
  len : Nat

/-- PduBuffer.hpp:13 -/
def maxLen : Nat := 512

namespace PduBuf

/-- PduBuffer.hpp:16-19 and 86-90: a new or reset buffer keeps whatever bytes the array has. -/
def fresh (m : Mem) : PduBuf := { buf := m, pos := 0, len := 0 }

/-- PduBuffer.hpp:36-39 -/
def read (b : PduBuf) : Exec (Nat × PduBuf) :=
  if b.pos < maxLen then .ok ((b.buf b.pos).toNat, { b with pos := b.pos + 1 }) else .ub

/-- PduBuffer.hpp:48-53 -/
def readBe (b : PduBuf) : Exec (Nat × PduBuf) := do
  let (hh, b) ← b.read
  let (ll, b) ← b.read
  pure (hh * 256 + ll, b)

/-- PduBuffer.hpp:55-58: the argument is truncated to a byte by the assignment. -/
def write (b : PduBuf) (v : Nat) : Exec PduBuf :=
  if b.len < maxLen then
    .ok { b with buf := memWrite b.buf b.len [UInt8.ofNat v], len := b.len + 1 }
  else .ub

/-- PduBuffer.hpp:60-64 -/
def writeBe (b : PduBuf) (v : Nat) : Exec PduBuf := do
  let b ← b.write (v / 256)
  b.write v

/-- The bytes `[begin(), begin() + size())`, PduBuffer.hpp:21-34, 71-74. -/
def content (b : PduBuf) : List UInt8 := memRead b.buf 0 b.len

/-- PduBuffer.hpp:66-69 together with the `read(2)` into `end()` done by the link: `bytes` arrived. -/
def received (b : PduBuf) (bytes : List UInt8) : PduBuf :=
  { b with buf := memWrite b.buf b.len bytes, len := b.len + bytes.length }

/-- PduBuffer.hpp:76-79 -/
def capacity (b : PduBuf) : Nat := maxLen - b.len

/-- PduBuffer.hpp:86-90 -/
def reset (b : PduBuf) : PduBuf := { b with pos := 0, len := 0 }

end PduBuf

/-! ## Constants (modbus/ModbusDefs.hpp:7-18, common/msg/types/ModbusFunction.hpp, ModbusCodec.hpp) -/

/-- ModbusDefs.hpp:11 -/
def maxPduLen : Nat := 1 + 252
/-- ModbusDefs.hpp:16 -/
def maxAduLen : Nat := 2 + 2 + 2 + 1 + maxPduLen
/-- ModbusDefs.hpp:18 -/
def maxAddr : Nat := 247
/-- ModbusCodec.hpp:41 -/
def aduHdrLen : Nat := 6
/-- ModbusCodec.hpp:38 -/
def aduLenOffset : Nat := 4

/-- Function codes, common/msg/types/ModbusFunction.hpp:8-18; other byte values also occur after the cast. -/
def fReadCoil : Nat := 0x1
def fReadDiscrete : Nat := 0x2
def fReadHolding : Nat := 0x3
def fReadInput : Nat := 0x4
def fForceCoil : Nat := 0x5
def fPresetSingle : Nat := 0x6
def fPresetMulti : Nat := 0x10
def fError : Nat := 0x8f

/-- The case labels ModbusCodec.cpp:76-79 and 182-185. -/
abbrev isReadFunc (f : Nat) : Prop :=
  f = fReadCoil ∨ f = fReadDiscrete ∨ f = fReadHolding ∨ f = fReadInput
/-- The case labels ModbusCodec.cpp:95-96, 201-202, 282-283 and 376-377. -/
abbrev isSingleFunc (f : Nat) : Prop := f = fForceCoil ∨ f = fPresetSingle
/-- The case labels ModbusCodec.cpp:261-262 and 355-356. -/
abbrev isRegFunc (f : Nat) : Prop := f = fReadHolding ∨ f = fReadInput

/-- modbus/client/AduRequest.hpp:13-27.  `data` points to `dataCap` accessible bytes (0 for a null
pointer). -/
structure AduReq where
  clientId : Nat
  transactId : Nat
  func : Nat
  addr : Nat
  startItem : Nat
  numItems : Nat
  numBytes : Nat
  data : Mem
  dataCap : Nat

/-- modbus/client/AduRespond.hpp:14-24.  `data` is an array of `maxAduLen` bytes. -/
structure AduRsp where
  transactId : Nat
  func : Nat
  addr : Nat
  error : Nat
  startItem : Nat
  numItems : Nat
  numBytes : Nat
  data : Mem

/-- `toUint8(ModbusError)`, common/msg/types/ModbusError.hpp:22-40: undeclared codes become 255. -/
def errorToByte (e : Nat) : Nat :=
  if e ∈ [0, 1, 2, 3, 4, 5, 6, 7, 8, 10, 11, 255] then e else 255

/-! ## Length checks -/

/-- ModbusCodec.cpp:13-18 -/
def aduPktLen (b : PduBuf) : Nat :=
  (b.buf (aduLenOffset + 0)).toNat * 256 + (b.buf (aduLenOffset + 1)).toNat

/-- ModbusCodec.cpp:20-45 (the `default` case returns `false`, i.e. 0). -/
def pduLen (func numItems : Nat) : Nat :=
  if func = fReadCoil ∨ func = fReadDiscrete ∨ func = fForceCoil ∨ func = fPresetSingle then
    1 + 1 + (numItems + 7) / 8
  else if func = fReadHolding ∨ func = fReadInput ∨ func = fPresetMulti then
    1 + 1 + numItems * 2
  else 0

/-- ModbusCodec.cpp:47-50 -/
def isAduHdrReceived (b : PduBuf) : Bool := b.len ≥ aduHdrLen
/-- ModbusCodec.cpp:52-55 -/
def isAduReceived (b : PduBuf) : Bool := b.len ≥ aduPktLen b
/-- ModbusCodec.cpp:57-60 -/
def isAduDataLenValid (b : PduBuf) : Bool := aduPktLen b + aduHdrLen < maxAduLen
/-- ModbusCodec.cpp:62-65 -/
def isAduValid (b : PduBuf) : Bool := b.len < maxAduLen && aduPktLen b + aduHdrLen == b.len

/-! ## Encoding -/

/-- Reading `data[i]` through a pointer to `cap` bytes. -/
def dataGet (data : Mem) (cap i : Nat) : Exec Nat := if i < cap then .ok (data i).toNat else .ub

/-- The loops `for (i = 0; i < numBytes; i += 2) { write(data[i+1]); write(data[i]); }`,
ModbusCodec.cpp:143-147 and 275-279; the last argument is the number of iterations left. -/
def writeRegs (b : PduBuf) (data : Mem) (cap i : Nat) : Nat → Exec PduBuf
  | 0 => .ok b
  | n + 1 => do
    let hi ← dataGet data cap (i + 1)
    let b ← b.write hi
    let lo ← dataGet data cap i
    let b ← b.write lo
    writeRegs b data cap (i + 2) n

/-- The header written by every encoder: transaction, protocol id 0, length, address, function. -/
def writeHdr (b : PduBuf) (transactId pktLen addr func : Nat) : Exec PduBuf := do
  let b ← b.writeBe transactId
  let b ← b.writeBe 0
  let b ← b.writeBe pktLen
  let b ← b.write addr
  b.write func

/-- The coil value check, ModbusCodec.cpp:108-117 and 290-299 (true: value rejected). -/
def coilBad (func : Nat) (data : Mem) (cap : Nat) : Exec Bool :=
  if func = fForceCoil then do
    let d1 ← dataGet data cap 1
    let d0 ← dataGet data cap 0
    pure (d1 ≠ 0 ∨ (d0 ≠ 0 ∧ d0 ≠ 0xFF))
  else .ok false

/-- ModbusCodec.cpp:67-162 -/
def encodeReq (b : PduBuf) (a : AduReq) : Exec (PduBuf × Bool) :=
  if ¬ a.addr ≤ maxAddr then .ok (b, false)
  else if isReadFunc a.func then
    if pduLen a.func a.numItems > maxPduLen then .ok (b, false)
    else do
      let b ← writeHdr b a.transactId (1 + 1 + 2 + 2) a.addr a.func
      let b ← b.writeBe a.startItem
      let b ← b.writeBe a.numItems
      pure (b, decide (b.len ≤ maxAduLen))
  else if isSingleFunc a.func then
    if a.numItems ≠ 0 then .ok (b, false)
    else if a.numBytes ≠ 2 then .ok (b, false)
    else do
      let bad ← coilBad a.func a.data a.dataCap
      if bad then pure (b, false)
      else do
        let b ← writeHdr b a.transactId (1 + 1 + 2 + 2) a.addr a.func
        let b ← b.writeBe a.startItem
        let b ← writeRegs b a.data a.dataCap 0 1
        pure (b, decide (b.len ≤ maxAduLen))
  else if a.func = fPresetMulti then
    if a.numBytes ≠ a.numItems * 2 then .ok (b, false)
    else do
      let b ← writeHdr b a.transactId (1 + 1 + 2 + 2 + 1 + a.numBytes) a.addr a.func
      let b ← b.writeBe a.startItem
      let b ← b.writeBe a.numItems
      let b ← b.write a.numBytes
      let b ← writeRegs b a.data a.dataCap 0 ((a.numBytes + 1) / 2)
      pure (b, decide (b.len ≤ maxAduLen))
  else .ok (b, false)

/-- ModbusCodec.cpp:247-334 -/
def encodeRsp (b : PduBuf) (a : AduRsp) : Exec (PduBuf × Bool) :=
  if a.func = fError then do
    let b ← writeHdr b a.transactId (1 + 1 + 1) a.addr a.func
    let b ← b.write (errorToByte a.error)
    pure (b, decide (b.len ≤ maxAduLen))
  else if isRegFunc a.func then do
    let b ← writeHdr b a.transactId (1 + 1 + 1 + a.numBytes) a.addr a.func
    let b ← b.write a.numBytes
    if a.numBytes % 2 ≠ 0 then pure (b, false)
    else do
      let b ← writeRegs b a.data maxAduLen 0 ((a.numBytes + 1) / 2)
      pure (b, decide (b.len ≤ maxAduLen))
  else if isSingleFunc a.func then
    if a.numBytes ≠ 2 then .ok (b, false)
    else do
      let bad ← coilBad a.func a.data maxAduLen
      if bad then pure (b, false)
      else do
        let b ← writeHdr b a.transactId (1 + 1 + 2 + 2) a.addr a.func
        let b ← b.writeBe a.startItem
        let b ← writeRegs b a.data maxAduLen 0 1
        pure (b, decide (b.len ≤ maxAduLen))
  else if a.func = fPresetMulti then do
    let b ← writeHdr b a.transactId (1 + 1 + 2 + 2) a.addr a.func
    let b ← b.writeBe a.startItem
    let b ← b.writeBe a.numItems
    pure (b, decide (b.len ≤ maxAduLen))
  else .ok (b, false)

/-! ## Decoding -/

/-- Storing `data[i] = v` through a pointer to `cap` bytes. -/
def dataSet (data : Mem) (cap i v : Nat) : Exec Mem :=
  if i < cap then .ok (memWrite data i [UInt8.ofNat v]) else .ub

/-- The loops `for (i = 0; i < numBytes; i += 2) { data[i+1] = read(); data[i] = read(); }`,
ModbusCodec.cpp:230-234 and 369-373. -/
def readRegs (b : PduBuf) (data : Mem) (cap i : Nat) : Nat → Exec (PduBuf × Mem)
  | 0 => .ok (b, data)
  | n + 1 => do
    let (hi, b) ← b.read
    let data ← dataSet data cap (i + 1) hi
    let (lo, b) ← b.read
    let data ← dataSet data cap i lo
    readRegs b data cap (i + 2) n

/-- ModbusCodec.cpp:164-245.  `a` is the caller's structure; the fields not assigned keep their
previous values also when decoding fails. -/
def decodeReq (b : PduBuf) (a : AduReq) : Exec (PduBuf × AduReq × Bool) := do
  let (t, b) ← b.readBe
  let a := { a with transactId := t }
  let (proto, b) ← b.readBe
  if proto ≠ 0 then pure (b, a, false)
  else do
    let (pktLen, b) ← b.readBe
    let (addr, b) ← b.read
    let a := { a with addr := addr }
    if ¬ a.addr ≤ maxAddr then pure (b, a, false)
    else do
      let (func, b) ← b.read
      let a := { a with func := func }
      if isReadFunc a.func then
        if pktLen ≠ 6 then pure (b, a, false)
        else do
          let (s, b) ← b.readBe
          let (n, b) ← b.readBe
          let a := { a with startItem := s, numItems := n }
          if pduLen a.func a.numItems > maxPduLen then pure (b, a, false)
          else pure (b, a, true)
      else if isSingleFunc a.func then
        if pktLen ≠ 6 then pure (b, a, false)
        else do
          let (s, b) ← b.readBe
          let a := { a with startItem := s, numBytes := 2 }
          let (b, d) ← readRegs b a.data a.dataCap 0 1
          pure (b, { a with data := d }, true)
      else if a.func = fPresetMulti then do
        let (s, b) ← b.readBe
        let (n, b) ← b.readBe
        let (nb, b) ← b.read
        let a := { a with startItem := s, numItems := n, numBytes := nb }
        if a.numBytes ≠ a.numItems * 2 then pure (b, a, false)
        else if pktLen ≠ 7 + a.numBytes then pure (b, a, false)
        else do
          let (b, d) ← readRegs b a.data a.dataCap 0 ((a.numBytes + 1) / 2)
          pure (b, { a with data := d }, true)
      else pure (b, a, false)

/-- ModbusCodec.cpp:336-409 -/
def decodeRsp (b : PduBuf) (a : AduRsp) : Exec (PduBuf × AduRsp × Bool) := do
  let (t, b) ← b.readBe
  let a := { a with transactId := t }
  let (proto, b) ← b.readBe
  if proto ≠ 0 then pure (b, a, false)
  else do
    let (pktLen, b) ← b.readBe
    let (addr, b) ← b.read
    let (func, b) ← b.read
    let a := { a with addr := addr, func := func }
    if a.func = fError then do
      let (e, b) ← b.read
      pure (b, { a with error := e }, true)
    else if isRegFunc a.func then do
      let (nb, b) ← b.read
      let a := { a with numBytes := nb }
      if pktLen ≠ a.numBytes + 3 then pure (b, a, false)
      else if a.numBytes % 2 ≠ 0 then pure (b, a, false)
      else do
        let (b, d) ← readRegs b a.data maxAduLen 0 ((a.numBytes + 1) / 2)
        pure (b, { a with data := d }, true)
    else if isSingleFunc a.func then
      if pktLen ≠ 6 then pure (b, a, false)
      else do
        let (s, b) ← b.readBe
        let a := { a with startItem := s, numBytes := 2 }
        let (b, d) ← readRegs b a.data maxAduLen 0 1
        pure (b, { a with data := d }, true)
    else if a.func = fPresetMulti then
      if pktLen ≠ 6 then pure (b, a, false)
      else do
        let (s, b) ← b.readBe
        let (n, b) ← b.readBe
        pure (b, { a with startItem := s, numItems := n }, true)
    else pure (b, a, false)

end Modbus

end Uscada
