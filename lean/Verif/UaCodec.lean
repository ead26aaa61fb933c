import Verif.UaBuffer
/-!
# OPC UA binary codec: built-in types (common/ua/common/OpcUaBinaryCodec.cpp:38-916)

Every `operator<<` / `operator>>` pair is one instance of `Ua`.  Line numbers without a file name
are lines of OpcUaBinaryCodec.cpp.

Simplifications: `float` and `double` are their bit patterns (the code copies them with `memcpy`);
`std::string` contents are byte lists; memory is never exhausted, so `resize` with a huge positive
length succeeds here (a negative length, converted to a huge `size_t`, throws), but `Verif.UaDemand`
makes the requests for memory visible and lets an allocator refuse them; log calls are omitted.
-/

namespace Uscada.Ua

/-! ## Fixed size types -/

/-- Boolean, 38-48. -/
instance : Ua Bool where
  init := false
  enc v := write (if v then 0x1 else 0x0)
  dec _ := do
    let x ← read
    pure (x != 0)

/-- SByte, 50-60. -/
instance : Ua Int8 where
  init := 0
  enc v := write v.toUInt8
  dec _ := do
    let x ← read
    pure x.toInt8

/-- Byte, 62-72. -/
instance : Ua UInt8 where
  init := 0
  enc v := write v
  dec _ := read

/-- Int16, 74-87. -/
instance : Ua Int16 where
  init := 0
  enc v := do
    write v.toInt8.toUInt8
    write (v >>> 8).toInt8.toUInt8
  dec _ := do
    let ll ← read
    let hh ← read
    pure (hh.toUInt16 <<< 8 ||| ll.toUInt16).toInt16

/-- UInt16, 89-102. -/
instance : Ua UInt16 where
  init := 0
  enc v := do
    write v.toUInt8
    write (v >>> 8).toUInt8
  dec _ := do
    let ll ← read
    let hh ← read
    pure (hh.toUInt16 <<< 8 ||| ll.toUInt16)

/-- Int32, 104-121. -/
instance : Ua Int32 where
  init := 0
  enc v := do
    write v.toInt8.toUInt8
    write (v >>> 8).toInt8.toUInt8
    write (v >>> 16).toInt8.toUInt8
    write (v >>> 24).toInt8.toUInt8
  dec _ := do
    let a ← read
    let b ← read
    let c ← read
    let d ← read
    pure (d.toUInt32 <<< 24 ||| c.toUInt32 <<< 16 ||| b.toUInt32 <<< 8 ||| a.toUInt32).toInt32

/-- UInt32, 123-140. -/
instance : Ua UInt32 where
  init := 0
  enc v := do
    write v.toUInt8
    write (v >>> 8).toUInt8
    write (v >>> 16).toUInt8
    write (v >>> 24).toUInt8
  dec _ := do
    let a ← read
    let b ← read
    let c ← read
    let d ← read
    pure (d.toUInt32 <<< 24 ||| c.toUInt32 <<< 16 ||| b.toUInt32 <<< 8 ||| a.toUInt32)

/-- Int64, 142-167. -/
instance : Ua Int64 where
  init := 0
  enc v := do
    write v.toInt8.toUInt8
    write (v >>> 8).toInt8.toUInt8
    write (v >>> 16).toInt8.toUInt8
    write (v >>> 24).toInt8.toUInt8
    write (v >>> 32).toInt8.toUInt8
    write (v >>> 40).toInt8.toUInt8
    write (v >>> 48).toInt8.toUInt8
    write (v >>> 56).toInt8.toUInt8
  dec _ := do
    let a ← read
    let b ← read
    let c ← read
    let d ← read
    let e ← read
    let f ← read
    let g ← read
    let h ← read
    pure (h.toUInt64 <<< 56 ||| g.toUInt64 <<< 48 ||| f.toUInt64 <<< 40 ||| e.toUInt64 <<< 32
      ||| d.toUInt64 <<< 24 ||| c.toUInt64 <<< 16 ||| b.toUInt64 <<< 8 ||| a.toUInt64).toInt64

/-- UInt64, 169-194. -/
instance : Ua UInt64 where
  init := 0
  enc v := do
    write v.toUInt8
    write (v >>> 8).toUInt8
    write (v >>> 16).toUInt8
    write (v >>> 24).toUInt8
    write (v >>> 32).toUInt8
    write (v >>> 40).toUInt8
    write (v >>> 48).toUInt8
    write (v >>> 56).toUInt8
  dec _ := do
    let a ← read
    let b ← read
    let c ← read
    let d ← read
    let e ← read
    let f ← read
    let g ← read
    let h ← read
    pure (h.toUInt64 <<< 56 ||| g.toUInt64 <<< 48 ||| f.toUInt64 <<< 40 ||| e.toUInt64 <<< 32
      ||| d.toUInt64 <<< 24 ||| c.toUInt64 <<< 16 ||| b.toUInt64 <<< 8 ||| a.toUInt64)

/-- Float (types/Float.hpp): the bit pattern. -/
structure F32 where
  bits : UInt32
deriving DecidableEq, Repr

/-- Float, 196-219. -/
instance : Ua F32 where
  init := ⟨0⟩
  enc v := do
    let comb := v.bits
    write comb.toUInt8
    write (comb >>> 8).toUInt8
    write (comb >>> 16).toUInt8
    write (comb >>> 24).toUInt8
  dec _ := do
    let a ← read
    let b ← read
    let c ← read
    let d ← read
    pure ⟨d.toUInt32 <<< 24 ||| c.toUInt32 <<< 16 ||| b.toUInt32 <<< 8 ||| a.toUInt32⟩

/-- Double (types/Double.hpp): the bit pattern. -/
structure F64 where
  bits : UInt64
deriving DecidableEq, Repr

/-- Double, 221-252. -/
instance : Ua F64 where
  init := ⟨0⟩
  enc v := do
    let comb := v.bits
    write comb.toUInt8
    write (comb >>> 8).toUInt8
    write (comb >>> 16).toUInt8
    write (comb >>> 24).toUInt8
    write (comb >>> 32).toUInt8
    write (comb >>> 40).toUInt8
    write (comb >>> 48).toUInt8
    write (comb >>> 56).toUInt8
  dec _ := do
    let a ← read
    let b ← read
    let c ← read
    let d ← read
    let e ← read
    let f ← read
    let g ← read
    let h ← read
    pure ⟨h.toUInt64 <<< 56 ||| g.toUInt64 <<< 48 ||| f.toUInt64 <<< 40 ||| e.toUInt64 <<< 32
      ||| d.toUInt64 <<< 24 ||| c.toUInt64 <<< 16 ||| b.toUInt64 <<< 8 ||| a.toUInt64⟩

/-- types/DateTime.hpp:8. -/
structure DateTime where
  val : Int64
deriving DecidableEq, Repr

/-- DateTime, 288-301. -/
instance : Ua DateTime where
  init := ⟨0⟩
  enc v := enc v.val
  dec _ := do
    let t ← dec (0 : Int64)
    pure ⟨t⟩

/-- types/StatusCode.hpp:6. -/
structure StatusCode where
  val : UInt32
deriving DecidableEq, Repr

/-- StatusCode, 452-465. -/
instance : Ua StatusCode where
  init := ⟨0⟩
  enc v := enc v.val
  dec _ := do
    let t ← dec (0 : UInt32)
    pure ⟨t⟩

/-- types/XmlElement.hpp:8: one byte. -/
structure XmlElement where
  val : UInt8
deriving DecidableEq, Repr

/-- XmlElement, 580-588: nothing is written, nothing is read. -/
instance : Ua XmlElement where
  init := ⟨0⟩
  enc _ := pure ()
  dec old := pure old

/-- `std::tuple` (OpcUaBinaryCodec.hpp:262-273) and, as nested pairs of equal types, `StaticArray`
(OpcUaBinaryCodec.hpp:221-238): element after element. -/
instance {α β : Type} [Ua α] [Ua β] : Ua (α × β) where
  init := (Ua.init, Ua.init)
  enc v := do
    enc v.1
    enc v.2
  dec old := do
    let a ← dec old.1
    let b ← dec old.2
    pure (a, b)

/-- `StaticArray<Byte, 3>`. -/
abbrev Bytes3 := UInt8 × UInt8 × UInt8
/-- `StaticArray<Byte, 8>`. -/
abbrev Bytes8 := (UInt8 × UInt8 × UInt8 × UInt8) × UInt8 × UInt8 × UInt8 × UInt8

/-- types/Guid.hpp:13-16. -/
structure Guid where
  data1 : UInt32
  data2 : UInt16
  data3 : UInt16
  data4 : Bytes8
deriving DecidableEq, Repr

/-- Guid, 303-319. -/
instance : Ua Guid where
  init := ⟨0, 0, 0, Ua.init⟩
  enc v := do
    enc v.data1
    enc v.data2
    enc v.data3
    enc v.data4
  dec old := do
    let data1 ← dec old.data1
    let data2 ← dec old.data2
    let data3 ← dec old.data3
    let data4 ← dec old.data4
    pure { data1, data2, data3, data4 }

/-! ## Strings -/

/-- types/String.hpp:9-12, types/DataType.hpp:89-108. -/
structure Str where
  bytes : List UInt8
deriving DecidableEq, Repr

/-- `resize` of the target followed by the loop of `read` calls (264-268, 332-336): a negative
length becomes a huge `size_t` and `std::string::resize` throws. -/
def readChars (len : Int32) : Codec (List UInt8) :=
  if len < 0 then Codec.throws else readN len.toInt.toNat

/-- The loop of `write` calls over the first `len` characters (282-285, 350-353). -/
def writeChars (len : Int32) (bytes : List UInt8) : Codec Unit :=
  writeL (bytes.take len.toInt.toNat)

/-- String, 254-286: length -1 leaves the target unchanged. -/
instance : Ua Str where
  init := ⟨[]⟩
  enc v := do
    let len := Int32.ofNat v.bytes.length
    if len = 0 then
      enc (-1 : Int32)
    else do
      enc len
      writeChars len v.bytes
  dec old := do
    let len ← dec (0 : Int32)
    if len = -1 then pure old
    else do
      let bytes ← readChars len
      pure ⟨bytes⟩

/-- types/ByteString.hpp:9-12; `Opaque` is the same type. -/
structure ByteString where
  bytes : List UInt8
deriving DecidableEq, Repr

/-- ByteString, 321-354: length -1 clears the target. -/
instance : Ua ByteString where
  init := ⟨[]⟩
  enc v := do
    let len := Int32.ofNat v.bytes.length
    if len = 0 then
      enc (-1 : Int32)
    else do
      enc len
      writeChars len v.bytes
  dec _ := do
    let len ← dec (0 : Int32)
    if len = -1 then pure ⟨[]⟩
    else do
      let bytes ← readChars len
      pure ⟨bytes⟩

/-! ## Optional values, arrays -/

/-- `Opt<T>`, OpcUaBinaryCodec.hpp:195-207: decoding always creates a fresh value; encoding an empty
one throws `bad_optional_access`. -/
instance {α : Type} [Ua α] : Ua (Option α) where
  init := none
  enc v := match v with
    | none => Codec.throws
    | some x => enc x
  dec _ := do
    let x ← dec (Ua.init : α)
    pure (some x)

/-- The loop over the elements in `operator<<` for `DynamicArray`, OpcUaBinaryCodec.hpp:255-258. -/
def encElems {α : Type} [Ua α] : List α → Codec Unit
  | [] => pure ()
  | x :: xs => do
    enc x
    encElems xs

/-- The loop over the elements in `operator>>` for `DynamicArray`, OpcUaBinaryCodec.hpp:245-248. -/
def decElems {α : Type} [Ua α] : List α → Codec (List α)
  | [] => pure []
  | x :: xs => do
    let y ← dec x
    let ys ← decElems xs
    pure (y :: ys)

/-- `std::vector::resize`: keeps the first elements, appends default-constructed ones. -/
def resizeTo {α : Type} [Ua α] (old : List α) (n : Nat) : List α :=
  old.take n ++ List.replicate (n - old.length) Ua.init

/-- `DynamicArray<T>`, OpcUaBinaryCodec.hpp:239-261. -/
instance {α : Type} [Ua α] : Ua (List α) where
  init := []
  enc v := do
    enc (Int32.ofNat v.length)
    encElems v
  dec old := do
    let arrayLength ← dec (0 : Int32)
    if arrayLength < 0 then Codec.throws
    else decElems (resizeTo old arrayLength.toInt.toNat)

/-! ## Node identifiers -/

/-- types/NodeId.hpp:15-21. -/
inductive NodeIdValue where
  | numeric (v : UInt32)
  | string (v : Str)
  | guid (v : Guid)
  | opaque (v : ByteString)
deriving DecidableEq, Repr

/-- types/NodeId.hpp:13-23. -/
structure NodeId where
  namespaceIndex : UInt16
  value : NodeIdValue
deriving DecidableEq, Repr

/-- NodeId encoder, 404-450.  The last branch (`valueless_by_exception`) is unreachable. -/
def NodeId.encode (v : NodeId) : Codec Unit :=
  match v.value with
  | .numeric identifier =>
    if v.namespaceIndex = 0 ∧ identifier < 256 then do
      enc (0 : UInt8)
      enc identifier.toUInt8
    else if v.namespaceIndex < 256 ∧ identifier < 65536 then do
      enc (1 : UInt8)
      enc v.namespaceIndex.toUInt8
      enc identifier.toUInt16
    else do
      enc (2 : UInt8)
      enc v.namespaceIndex
      enc identifier
  | .string s => do
    enc (3 : UInt8)
    enc v.namespaceIndex
    enc s
  | .guid g => do
    enc (4 : UInt8)
    enc v.namespaceIndex
    enc g
  | .opaque o => do
    enc (5 : UInt8)
    enc v.namespaceIndex
    enc o

/-- The switch of the NodeId decoder, 360-400.  The two-byte form leaves the namespace of the target
untouched; `throw;` without an active exception terminates the process. -/
def NodeId.decodeBody (old : NodeId) (form : Nat) : Codec NodeId :=
  match form with
  | 0 => do
    let identifier ← dec (0 : UInt8)
    pure { old with value := .numeric identifier.toUInt32 }
  | 1 => do
    let ns ← dec (0 : UInt8)
    let identifier ← dec (0 : UInt16)
    pure { namespaceIndex := ns.toUInt16, value := .numeric identifier.toUInt32 }
  | 2 => do
    let ns ← dec old.namespaceIndex
    let identifier ← dec (Ua.init : UInt32)
    pure { namespaceIndex := ns, value := .numeric identifier }
  | 3 => do
    let ns ← dec old.namespaceIndex
    let s ← dec (Ua.init : Str)
    pure { namespaceIndex := ns, value := .string s }
  | 4 => do
    let ns ← dec old.namespaceIndex
    let g ← dec (Ua.init : Guid)
    pure { namespaceIndex := ns, value := .guid g }
  | 5 => do
    let ns ← dec old.namespaceIndex
    let o ← dec (Ua.init : ByteString)
    pure { namespaceIndex := ns, value := .opaque o }
  | _ => Codec.terminate

/-- NodeId decoder, 356-402. -/
def NodeId.decode (old : NodeId) : Codec NodeId := do
  let encByte ← dec (0 : UInt8)
  NodeId.decodeBody old (encByte &&& 0xF).toNat

instance : Ua NodeId where
  init := { namespaceIndex := 0, value := .numeric 0 }
  enc := NodeId.encode
  dec := NodeId.decode

/-! ## Presence masks (types/StructType.hpp) -/

/-- The fold in `encodeMask` and `encodeMaskSizeCheck`: `result |= c ? (1u << pos) : 0; pos += 1`. -/
def maskLoop : UInt8 → UInt8 → List Bool → UInt8
  | _, result, [] => result
  | pos, result, c :: cs => maskLoop (pos + 1) (result ||| (if c then 1 <<< pos else 0)) cs

/-- types/StructType.hpp:41-52, applied to the items converted to `bool`. -/
def encodeMask (items : List Bool) : UInt8 := maskLoop 0 0 items

/-- types/StructType.hpp:54-65, applied to the values of `item && item->size()`. -/
def encodeMaskSizeCheck (items : List Bool) : UInt8 := maskLoop 0 0 items

/-- The member `size()` (types/DataType.hpp:82, 105; types/StructType.hpp:17). -/
class UaSize (α : Type) where
  size : α → Nat

instance : UaSize Str where size s := s.bytes.length
instance : UaSize ByteString where size s := s.bytes.length
instance : UaSize UInt32 where size _ := 1

/-- `item && item->size()`. -/
def sized {α : Type} [UaSize α] : Option α → Bool
  | none => false
  | some x => UaSize.size x != 0

/-- One item of `compare`, types/StructType.hpp:20-39; `eq` is the `operator==` of the type. -/
def compareItem {α : Type} [UaSize α] (eq : α → α → Bool) (lhs rhs : Option α) : Bool :=
  match lhs, rhs with
  | some l, some r => eq l r
  | _, _ => !(sized lhs || sized rhs)

/-- `if (mask & bit) s << field;` -/
def encIf {α : Type} [Ua α] (c : Bool) (v : α) : Codec Unit := if c then enc v else pure ()

/-- `if (mask & bit) s >> field;` -/
def decIf {α : Type} [Ua α] (c : Bool) (old : α) : Codec α := if c then dec old else pure old

/-- `mask & bit` as a condition. -/
def bit (mask b : UInt8) : Bool := (mask &&& b) != 0

/-! ## Structures with optional fields -/

/-- types/ExpandedNodeId.hpp:11-15. -/
structure ExpandedNodeId where
  nodeId : NodeId
  namespaceUri : Option Str
  serverIndex : Option UInt32
deriving DecidableEq, Repr

/-- types/ExpandedNodeId.hpp:23-30. -/
def ExpandedNodeId.encodingMask (v : ExpandedNodeId) : UInt8 :=
  encodeMaskSizeCheck [sized v.namespaceUri, sized v.serverIndex]

/-- `encodingMask |= flag` through the reference taken before, 607, 611, 616: it refers to
`packet[tail]`, the read position at the start of the call. -/
def orAt (pos : Nat) (flag : UInt8) : Codec Unit := fun b =>
  if pos < maxPacketLen then
    .ok ((), { b with packet := memWrite b.packet pos [b.packet pos ||| flag] })
  else .ub

/-- The read position, for the reference `uint8_t& encodingMask = *s.buf().begin();`. -/
def tailPos : Codec Nat := fun b => .ok (b.tail, b)

/-- `orAt` under the condition of the `if` it stands in. -/
def orAtIf (c : Bool) (pos : Nat) (flag : UInt8) : Codec Unit :=
  if c then orAt pos flag else pure ()

/-- ExpandedNodeId encoder, 605-620. -/
def ExpandedNodeId.encode (v : ExpandedNodeId) : Codec Unit := do
  let pos ← tailPos
  enc v.nodeId
  orAtIf (bit v.encodingMask 0x1) pos 0x80
  encIf (bit v.encodingMask 0x1) v.namespaceUri
  orAtIf (bit v.encodingMask 0x2) pos 0x40
  encIf (bit v.encodingMask 0x2) v.serverIndex

/-- ExpandedNodeId decoder, 590-603.  The reference is read again for each test; decoding does not
change the packet, so it is the same byte. -/
def ExpandedNodeId.decode (old : ExpandedNodeId) : Codec ExpandedNodeId := do
  let encodingMask ← peek
  let nodeId ← dec old.nodeId
  let namespaceUri ← decIf (bit encodingMask 0x80) old.namespaceUri
  let serverIndex ← decIf (bit encodingMask 0x40) old.serverIndex
  pure { nodeId, namespaceUri, serverIndex }

instance : Ua ExpandedNodeId where
  init := ⟨Ua.init, none, none⟩
  enc := ExpandedNodeId.encode
  dec := ExpandedNodeId.decode

/-- types/QualifiedName.hpp:8-11. -/
structure QualifiedName where
  namespaceIndex : UInt16
  name : Str
deriving DecidableEq, Repr

/-- QualifiedName, 537-547. -/
instance : Ua QualifiedName where
  init := ⟨0, Ua.init⟩
  enc v := do
    enc v.namespaceIndex
    enc v.name
  dec old := do
    let namespaceIndex ← dec old.namespaceIndex
    let name ← dec old.name
    pure { namespaceIndex, name }

/-- types/LocalizedText.hpp:9-12. -/
structure LocalizedText where
  locale : Option Str
  text : Option Str
deriving DecidableEq, Repr

/-- types/LocalizedText.hpp:21-28. -/
def LocalizedText.encodingMask (v : LocalizedText) : UInt8 :=
  encodeMaskSizeCheck [sized v.locale, sized v.text]

/-- types/LocalizedText.hpp:13-20. -/
def LocalizedText.eq (lhs rhs : LocalizedText) : Bool :=
  compareItem (fun a b => decide (a = b)) lhs.locale rhs.locale &&
    compareItem (fun a b => decide (a = b)) lhs.text rhs.text

/-- LocalizedText, 549-578. -/
instance : Ua LocalizedText where
  init := ⟨none, none⟩
  enc v := do
    let encodingMask := v.encodingMask
    enc encodingMask
    encIf (bit encodingMask 0x1 && sized v.locale) v.locale
    encIf (bit encodingMask 0x2 && sized v.text) v.text
  dec old := do
    let encodingMask ← dec (0 : UInt8)
    let locale ← decIf (bit encodingMask 0x1) old.locale
    let text ← decIf (bit encodingMask 0x2) old.text
    pure { locale, text }

/-- types/ExtensionObject.hpp:10-13. -/
structure ExtensionObject where
  nodeId : NodeId
  byteString : Option ByteString
deriving DecidableEq, Repr

/-- types/ExtensionObject.hpp:20-26. -/
def ExtensionObject.encodingMask (v : ExtensionObject) : UInt8 :=
  encodeMaskSizeCheck [sized v.byteString]

/-- ExtensionObject, 622-662.  A mask other than 0, 1, 2 is only logged. -/
instance : Ua ExtensionObject where
  init := ⟨Ua.init, none⟩
  enc v := do
    let encodingMask := v.encodingMask
    enc v.nodeId
    enc encodingMask
    encIf (encodingMask == 1 || encodingMask == 2) v.byteString
  dec old := do
    let nodeId ← dec old.nodeId
    let encodingMask ← dec (0 : UInt8)
    let byteString ← decIf (encodingMask == 1 || encodingMask == 2) old.byteString
    pure { nodeId, byteString }

/-- The plain fields of types/DiagnosticInfo.hpp:12-19. -/
structure DiagFields where
  symbolicId : Option Int32
  namespaceUri : Option Int32
  locale : Option Int32
  localizedText : Option Int32
  additionalInfo : Option Str
  innerStatusCode : Option StatusCode
deriving DecidableEq, Repr

/-- types/DiagnosticInfo.hpp:12-20: `nest` is a value whose `innerDiagnosticInfo` pointer is set. -/
inductive DiagnosticInfo where
  | leaf (f : DiagFields)
  | nest (f : DiagFields) (inner : DiagnosticInfo)
deriving DecidableEq, Repr

/-- Default constructed. -/
def DiagFields.init : DiagFields := ⟨none, none, none, none, none, none⟩

/-- types/DiagnosticInfo.hpp:42-55. -/
def DiagFields.encodingMask (f : DiagFields) (inner : Bool) : UInt8 :=
  encodeMask [f.symbolicId.isSome, f.namespaceUri.isSome, f.locale.isSome, f.localizedText.isSome,
    f.additionalInfo.isSome, f.innerStatusCode.isSome, inner]

/-- 504-529: mask and the plain fields. -/
def DiagFields.encode (f : DiagFields) (inner : Bool) : Codec Unit := do
  let encodingMask := f.encodingMask inner
  enc encodingMask
  encIf (bit encodingMask 0x1) f.symbolicId
  encIf (bit encodingMask 0x2) f.namespaceUri
  encIf (bit encodingMask 0x4) f.locale
  encIf (bit encodingMask 0x8) f.localizedText
  encIf (bit encodingMask 0x10) f.additionalInfo
  encIf (bit encodingMask 0x20) f.innerStatusCode

/-- DiagnosticInfo encoder, 502-535; `Ptr` (OpcUaBinaryCodec.hpp:215-220) encodes the pointee. -/
def DiagnosticInfo.encode : DiagnosticInfo → Codec Unit
  | .leaf f => do
    f.encode false
    if bit (f.encodingMask false) 0x40 then Codec.terminate else pure ()
  | .nest f inner => do
    f.encode true
    if bit (f.encodingMask true) 0x40 then inner.encode else pure ()

/-- The old value with new plain fields. -/
def DiagnosticInfo.withFields : DiagnosticInfo → DiagFields → DiagnosticInfo
  | .leaf _, f => .leaf f
  | .nest _ i, f => .nest f i

/-- The plain fields of a value. -/
def DiagnosticInfo.fields : DiagnosticInfo → DiagFields
  | .leaf f => f
  | .nest f _ => f

/-- 471-494: the plain fields; returns the mask as well. -/
def DiagFields.decode (old : DiagFields) : Codec (UInt8 × DiagFields) := do
  let encodingMask ← dec (0 : UInt8)
  let symbolicId ← decIf (bit encodingMask 0x1) old.symbolicId
  let namespaceUri ← decIf (bit encodingMask 0x2) old.namespaceUri
  let locale ← decIf (bit encodingMask 0x4) old.locale
  let localizedText ← decIf (bit encodingMask 0x8) old.localizedText
  let additionalInfo ← decIf (bit encodingMask 0x10) old.additionalInfo
  let innerStatusCode ← decIf (bit encodingMask 0x20) old.innerStatusCode
  pure (encodingMask,
    { symbolicId, namespaceUri, locale, localizedText, additionalInfo, innerStatusCode })

/-- DiagnosticInfo decoder, 467-500.  The recursion consumes at least the mask byte, so
`maxPacketLen + 1` levels can never be used up: the read before would be outside the array.
`Ptr` (OpcUaBinaryCodec.hpp:208-214) decodes into a fresh object. -/
def DiagnosticInfo.decode : Nat → DiagnosticInfo → Codec DiagnosticInfo
  | 0, _ => fun _ => .ub
  | n + 1, old => do
    let (encodingMask, f) ← old.fields.decode
    if bit encodingMask 0x40 then do
      let inner ← DiagnosticInfo.decode n (.leaf DiagFields.init)
      pure (.nest f inner)
    else pure (old.withFields f)

instance : Ua DiagnosticInfo where
  init := .leaf DiagFields.init
  enc := DiagnosticInfo.encode
  dec := DiagnosticInfo.decode (maxPacketLen + 1)

/-! ## Variants and data values -/

/-- types/Variant.hpp:35-56, alternatives 0 to 21. -/
inductive Scalar where
  | boolean (v : Bool)
  | sbyte (v : Int8)
  | byte (v : UInt8)
  | int16 (v : Int16)
  | uint16 (v : UInt16)
  | int32 (v : Int32)
  | uint32 (v : UInt32)
  | int64 (v : Int64)
  | uint64 (v : UInt64)
  | float (v : F32)
  | double (v : F64)
  | string (v : Str)
  | dateTime (v : DateTime)
  | guid (v : Guid)
  | byteString (v : ByteString)
  | xmlElement (v : XmlElement)
  | nodeId (v : NodeId)
  | expandedNodeId (v : ExpandedNodeId)
  | statusCode (v : StatusCode)
  | qualifiedName (v : QualifiedName)
  | localizedText (v : LocalizedText)
  | extensionObject (v : ExtensionObject)
deriving DecidableEq, Repr

/-- types/Variant.hpp:58-79, alternatives 22 to 43. -/
inductive VArray where
  | boolean (v : List Bool)
  | sbyte (v : List Int8)
  | byte (v : List UInt8)
  | int16 (v : List Int16)
  | uint16 (v : List UInt16)
  | int32 (v : List Int32)
  | uint32 (v : List UInt32)
  | int64 (v : List Int64)
  | uint64 (v : List UInt64)
  | float (v : List F32)
  | double (v : List F64)
  | string (v : List Str)
  | dateTime (v : List DateTime)
  | guid (v : List Guid)
  | byteString (v : List ByteString)
  | xmlElement (v : List XmlElement)
  | nodeId (v : List NodeId)
  | expandedNodeId (v : List ExpandedNodeId)
  | statusCode (v : List StatusCode)
  | qualifiedName (v : List QualifiedName)
  | localizedText (v : List LocalizedText)
  | extensionObject (v : List ExtensionObject)
deriving DecidableEq, Repr

/-- types/Variant.hpp:32-80. -/
inductive VarValue where
  | scalar (v : Scalar)
  | array (v : VArray)
deriving DecidableEq, Repr

/-- types/Variant.hpp:30, 81-82. -/
structure Variant where
  value : Option VarValue
  arrayDimensions : Option (List Int32)
deriving DecidableEq, Repr

/-- `std::variant::index` for the alternatives in the order of types/Variant.hpp:35-56. -/
def Scalar.index : Scalar → Nat
  | .boolean _ => 0
  | .sbyte _ => 1
  | .byte _ => 2
  | .int16 _ => 3
  | .uint16 _ => 4
  | .int32 _ => 5
  | .uint32 _ => 6
  | .int64 _ => 7
  | .uint64 _ => 8
  | .float _ => 9
  | .double _ => 10
  | .string _ => 11
  | .dateTime _ => 12
  | .guid _ => 13
  | .byteString _ => 14
  | .xmlElement _ => 15
  | .nodeId _ => 16
  | .expandedNodeId _ => 17
  | .statusCode _ => 18
  | .qualifiedName _ => 19
  | .localizedText _ => 20
  | .extensionObject _ => 21

/-- `std::variant::index` for the alternatives in the order of types/Variant.hpp:58-79. -/
def VArray.index : VArray → Nat
  | .boolean _ => 22
  | .sbyte _ => 23
  | .byte _ => 24
  | .int16 _ => 25
  | .uint16 _ => 26
  | .int32 _ => 27
  | .uint32 _ => 28
  | .int64 _ => 29
  | .uint64 _ => 30
  | .float _ => 31
  | .double _ => 32
  | .string _ => 33
  | .dateTime _ => 34
  | .guid _ => 35
  | .byteString _ => 36
  | .xmlElement _ => 37
  | .nodeId _ => 38
  | .expandedNodeId _ => 39
  | .statusCode _ => 40
  | .qualifiedName _ => 41
  | .localizedText _ => 42
  | .extensionObject _ => 43

/-- `value->index()`. -/
def VarValue.index : VarValue → Nat
  | .scalar v => v.index
  | .array v => v.index

/-- types/Variant.hpp:98-103. -/
def Variant.encodingMask (v : Variant) : UInt8 :=
  match v.value with
  | none => 0
  | some x => UInt8.ofNat (if x.index < 22 then x.index + 1 else (x.index - 21) ||| 0x80)

/-- The visitor of 908-911 on the scalar alternatives. -/
def Scalar.encode : Scalar → Codec Unit
  | .boolean v => enc v
  | .sbyte v => enc v
  | .byte v => enc v
  | .int16 v => enc v
  | .uint16 v => enc v
  | .int32 v => enc v
  | .uint32 v => enc v
  | .int64 v => enc v
  | .uint64 v => enc v
  | .float v => enc v
  | .double v => enc v
  | .string v => enc v
  | .dateTime v => enc v
  | .guid v => enc v
  | .byteString v => enc v
  | .xmlElement v => enc v
  | .nodeId v => enc v
  | .expandedNodeId v => enc v
  | .statusCode v => enc v
  | .qualifiedName v => enc v
  | .localizedText v => enc v
  | .extensionObject v => enc v

/-- The visitor of 908-911 on the array alternatives. -/
def VArray.encode : VArray → Codec Unit
  | .boolean v => enc v
  | .sbyte v => enc v
  | .byte v => enc v
  | .int16 v => enc v
  | .uint16 v => enc v
  | .int32 v => enc v
  | .uint32 v => enc v
  | .int64 v => enc v
  | .uint64 v => enc v
  | .float v => enc v
  | .double v => enc v
  | .string v => enc v
  | .dateTime v => enc v
  | .guid v => enc v
  | .byteString v => enc v
  | .xmlElement v => enc v
  | .nodeId v => enc v
  | .expandedNodeId v => enc v
  | .statusCode v => enc v
  | .qualifiedName v => enc v
  | .localizedText v => enc v
  | .extensionObject v => enc v

/-- Variant encoder, 899-916; `arrayDimensions` is not written. -/
def Variant.encode (v : Variant) : Codec Unit := do
  let encodingMask := v.encodingMask
  enc encodingMask
  match v.value with
  | none => pure ()
  | some (.scalar x) => x.encode
  | some (.array x) => x.encode

/-- Decode into a freshly emplaced alternative, types/Variant.hpp:104-109. -/
def fresh {α : Type} [Ua α] : Codec α := dec Ua.init

/-- 734-776: arrays; a type that is not listed executes `throw;`. -/
def VArray.decode (typeId : Nat) : Codec VArray :=
  match typeId with
  | 1 => do let x ← fresh; pure (.boolean x)
  | 2 => do let x ← fresh; pure (.sbyte x)
  | 3 => do let x ← fresh; pure (.byte x)
  | 4 => do let x ← fresh; pure (.int16 x)
  | 5 => do let x ← fresh; pure (.uint16 x)
  | 6 => do let x ← fresh; pure (.int32 x)
  | 7 => do let x ← fresh; pure (.uint32 x)
  | _ => Codec.terminate

/-- 780-895: scalars; `none` for the types that are only logged or not listed. -/
def Scalar.decode (typeId : Nat) : Codec (Option Scalar) :=
  match typeId with
  | 1 => do let x ← fresh; pure (some (.boolean x))
  | 2 => do let x ← fresh; pure (some (.sbyte x))
  | 3 => do let x ← fresh; pure (some (.byte x))
  | 4 => do let x ← fresh; pure (some (.int16 x))
  | 5 => do let x ← fresh; pure (some (.uint16 x))
  | 6 => do let x ← fresh; pure (some (.int32 x))
  | 7 => do let x ← fresh; pure (some (.uint32 x))
  | 8 => do let x ← fresh; pure (some (.int64 x))
  | 9 => do let x ← fresh; pure (some (.uint64 x))
  | 10 => do let x ← fresh; pure (some (.float x))
  | 11 => do let x ← fresh; pure (some (.double x))
  | 12 => do let x ← fresh; pure (some (.string x))
  | 13 => do let x ← fresh; pure (some (.dateTime x))
  | 14 => do let x ← fresh; pure (some (.guid x))
  | 15 => do let x ← fresh; pure (some (.byteString x))
  | 16 => do let x ← fresh; pure (some (.xmlElement x))
  | 17 => do let x ← fresh; pure (some (.nodeId x))
  | 18 => do let x ← fresh; pure (some (.expandedNodeId x))
  | 19 => do let x ← fresh; pure (some (.statusCode x))
  | 20 => do let x ← fresh; pure (some (.qualifiedName x))
  | 21 => do let x ← fresh; pure (some (.localizedText x))
  | 22 => do let x ← fresh; pure (some (.extensionObject x))
  | _ => pure none

/-- Variant decoder, 726-897. -/
def Variant.decode (old : Variant) : Codec Variant := do
  let encodingMask ← dec (0 : UInt8)
  if encodingMask = 0 then pure old
  else
    let typeId := (encodingMask &&& 0x3f).toNat
    if bit encodingMask 0x80 then do
      let x ← VArray.decode typeId
      pure { old with value := some (.array x) }
    else do
      let x ← Scalar.decode typeId
      match x with
      | some x => pure { old with value := some (.scalar x) }
      | none => pure old

instance : Ua Variant where
  init := ⟨none, none⟩
  enc := Variant.encode
  dec := Variant.decode

/-- types/DataValue.hpp:9-16. -/
structure DataValue where
  value : Variant
  status : Option StatusCode
  sourceTimestampt : Option DateTime
  sourcePicoSeconds : Option UInt16
  serverTimeStampt : Option DateTime
  serverPicoSeconds : Option UInt16
deriving DecidableEq, Repr

/-- types/DataValue.hpp:27-38. -/
def DataValue.encodingMask (v : DataValue) : UInt8 :=
  encodeMask [v.value.value.isSome, v.status.isSome, v.sourceTimestampt.isSome,
    v.sourcePicoSeconds.isSome, v.serverTimeStampt.isSome, v.serverPicoSeconds.isSome]

/-- DataValue, 664-724. -/
instance : Ua DataValue where
  init := ⟨Ua.init, none, none, none, none, none⟩
  enc v := do
    let encodingMask := v.encodingMask
    enc encodingMask
    encIf (bit encodingMask 0x1) v.value
    encIf (bit encodingMask 0x2) v.status
    encIf (bit encodingMask 0x4) v.sourceTimestampt
    encIf (bit encodingMask 0x8) v.sourcePicoSeconds
    encIf (bit encodingMask 0x10) v.serverTimeStampt
    encIf (bit encodingMask 0x20) v.serverPicoSeconds
  dec old := do
    let encodingMask ← dec (0 : UInt8)
    let value ← decIf (bit encodingMask 0x1) old.value
    let status ← decIf (bit encodingMask 0x2) old.status
    let sourceTimestampt ← decIf (bit encodingMask 0x4) old.sourceTimestampt
    let sourcePicoSeconds ← decIf (bit encodingMask 0x8) old.sourcePicoSeconds
    let serverTimeStampt ← decIf (bit encodingMask 0x10) old.serverTimeStampt
    let serverPicoSeconds ← decIf (bit encodingMask 0x20) old.serverPicoSeconds
    pure { value, status, sourceTimestampt, sourcePicoSeconds, serverTimeStampt,
           serverPicoSeconds }

end Uscada.Ua
