import Verif.UaMessagesProps
import Verif.ModbusClient
/-!
# Cutting OPC UA chunks out of the byte stream, and building chunks

`OpcUaConnection::receive` (common/ua/protocols/connection/OpcUaConnection.cpp:71-111) and
`UaTcpConnection::receive` (ua/transport/server/UaTcpConnection.cpp:176-216) are the same code up to
log texts and are modelled once.  All senders encode into a fresh `OpcUaSduBuffer`, patch the size
field and hand `begin()`, `size()` to the link; that is `frame`.
-/

namespace Uscada.Ua

open Modbus (Rx)

/-- `Result`, OpcUaConnection.hpp and UaTcpConnection.hpp:26-31. -/
inductive Res where
  | noerror
  | done
  | error
deriving DecidableEq, Repr

/-- MessageHeader.hpp:10. -/
def messageHeaderSize : Nat := 8

/-- MessageHeader.hpp:19-27 applied to the read position of a buffer. -/
def msgSize (b : Buf) : Nat :=
  ((b.packet (b.tail + 7)).toUInt32 <<< 24 ||| (b.packet (b.tail + 6)).toUInt32 <<< 16 |||
    (b.packet (b.tail + 5)).toUInt32 <<< 8 ||| (b.packet (b.tail + 4)).toUInt32).toNat

/-- `Link::receive` into `end()`, followed by `seek` (OpcUaConnection.cpp:80-92): at most `capacity()`
bytes are delivered. -/
def Buf.received (b : Buf) (bytes : List UInt8) : Buf :=
  { b with packet := memWrite b.packet b.head (bytes.take b.capacity),
           head := b.head + (bytes.take b.capacity).length }

/-- OpcUaConnection.cpp:94-110: the decision after new bytes were stored.  The header is read at the
read position; a position so close to the end that it reaches behind the array is undefined. -/
def evaluate (b : Buf) : Exec Res :=
  if b.size < messageHeaderSize then .ok .noerror
  else if maxPacketLen < b.tail + messageHeaderSize then .ub
  else if b.size < msgSize b then .ok .noerror
  else if b.size ≠ msgSize b then .ok .error
  else .ok .done

/-- OpcUaConnection.cpp:71-111 and UaTcpConnection.cpp:176-216; a link without a file descriptor
answers `error` (Link.cpp:115-119). -/
def receive (opened : Bool) (rx : Rx) (b : Buf) : Exec (Res × Buf) :=
  if 1024 < b.size then .ok (.error, b)
  else if opened then
    match rx with
    | .na => .ok (.noerror, b)
    | .error => .ok (.error, b)
    | .ok bytes => do
      let r ← evaluate (b.received bytes)
      pure (r, b.received bytes)
  else .ok (.error, b)

/-- MessageHeader.hpp:29-35, with `tx.begin()` and `tx.size()` as arguments. -/
def setPayloadSize (b : Buf) : Exec Buf :=
  if b.tail + messageHeaderSize ≤ maxPacketLen then
    let field := [UInt8.ofNat b.head, UInt8.ofNat (b.head >>> 8), UInt8.ofNat (b.head >>> 16),
      UInt8.ofNat (b.head >>> 24)]
    .ok { b with packet := memWrite b.packet (b.tail + 4) field }
  else .ub

/-- What `link->send(tx.begin(), tx.size())` is given, for a buffer with read position 0. -/
def Buf.bytes (b : Buf) : List UInt8 := memRead b.packet b.tail b.size

/-- A sender: encode into a fresh buffer (its array holds arbitrary bytes `m`), patch the size. -/
def frame (m : Mem) (e : Codec Unit) : Exec (List UInt8) := do
  let r ← e (Buf.create m)
  let b ← setPayloadSize r.2
  pure b.bytes

/-- `std::memcpy(tx.end(), data, n); tx.seek(n)` (UaTcpConnection.cpp:54-55, 82-83, 114-115). -/
def appendRaw (l : List UInt8) : Codec Unit := fun b =>
  if b.head + l.length ≤ maxPacketLen then .ok ((), b.append l) else .ub

/-- The three letters and the flag of a chunk header, with a size still to be patched. -/
def header (a b c f : UInt8) : MessageHeader := ⟨(a, b, c), f, 0⟩

/-- UaTcpDefs.hpp:9-10 and OpcUaConnection.hpp. -/
def opcUaBufferSize : UInt32 := 65536
/-- UaTcpDefs.hpp:11. -/
def opcUaMaxChunkCount : UInt32 := 5000

/-- ClientConnection.cpp:88-113. -/
def helloMsg : HelloMessage :=
  { protocolVersion := 0, receiveBufferSize := opcUaBufferSize, sendBufferSize := opcUaBufferSize,
    maxMessageSize := opcUaBufferSize, maxChunkCount := opcUaMaxChunkCount, endpointUrl := ⟨[]⟩ }

/-- ClientConnection.cpp:90-108 (everything `sendHello` encodes). -/
def helloEnc : Codec Unit := do
  enc (header 0x48 0x45 0x4C 0x46)
  enc helloMsg

/-- ServerConnection.cpp:123-128, UaTcpConnection.cpp:260-265. -/
def ackMsg : AcknowledgeMessage :=
  { protocolVersion := 0, receiveBufferSize := opcUaBufferSize, sendBufferSize := opcUaBufferSize,
    maxMessageSize := opcUaMaxChunkCount * opcUaBufferSize, maxChunkCount := opcUaMaxChunkCount }

/-- ServerConnection.cpp:113-130, UaTcpConnection.cpp:250-266. -/
def ackEnc : Codec Unit := do
  enc (header 0x41 0x43 0x4B 0x46)
  enc ackMsg

/-- ServerConnection.cpp:60-69. -/
def reverseHelloEnc : Codec Unit := do
  enc (header 0x52 0x48 0x45 0x46)
  enc (⟨⟨[]⟩, ⟨[]⟩⟩ : ReverseHelloMessage)

/-- UaTcpConnection.cpp:44-55, 72-83 and 104-115: header with channel id, then the data handed down. -/
def secEnc (a b c chunk : UInt8) (channel : UInt32) (data : List UInt8) : Codec Unit := do
  enc (⟨(a, b, c), chunk, 0, channel⟩ : UaMessageHeader)
  appendRaw data

end Uscada.Ua
