import Verif.UaCodec
/-!
# OPC UA binary encoding: what the bytes should be

The wire format of the built-in types as a function from values to byte lists, following OPC UA
part 6 (binary encoding), except for the mask of diagnostic infos, which has two bits swapped as in the program
(`C74_diagnosticInfo_violated`).  Nothing here refers to the encoder or decoder of the model.

`ok` names the values the wire format can carry: lengths have to fit the signed 32-bit length field
and, where the format has no representation of "present but empty", such values are excluded.
-/

namespace Uscada.Ua

/-- Wire format of a type. -/
class Wire (α : Type) where
  wire : α → List UInt8
  ok : α → Prop

export Wire (wire)

instance : Wire Bool where
  wire v := [if v then 1 else 0]
  ok _ := True
instance : Wire Int8 where
  wire v := leBytes 1 v.toUInt8.toNat
  ok _ := True
instance : Wire UInt8 where
  wire v := leBytes 1 v.toNat
  ok _ := True
instance : Wire Int16 where
  wire v := leBytes 2 v.toUInt16.toNat
  ok _ := True
instance : Wire UInt16 where
  wire v := leBytes 2 v.toNat
  ok _ := True
instance : Wire Int32 where
  wire v := leBytes 4 v.toUInt32.toNat
  ok _ := True
instance : Wire UInt32 where
  wire v := leBytes 4 v.toNat
  ok _ := True
instance : Wire Int64 where
  wire v := leBytes 8 v.toUInt64.toNat
  ok _ := True
instance : Wire UInt64 where
  wire v := leBytes 8 v.toNat
  ok _ := True
instance : Wire F32 where
  wire v := leBytes 4 v.bits.toNat
  ok _ := True
instance : Wire F64 where
  wire v := leBytes 8 v.bits.toNat
  ok _ := True
instance : Wire DateTime where
  wire v := leBytes 8 v.val.toUInt64.toNat
  ok _ := True
instance : Wire StatusCode where
  wire v := leBytes 4 v.val.toNat
  ok _ := True

instance {α β : Type} [Wire α] [Wire β] : Wire (α × β) where
  wire v := wire v.1 ++ wire v.2
  ok v := Wire.ok v.1 ∧ Wire.ok v.2

instance : Wire Guid where
  wire v := leBytes 4 v.data1.toNat ++ (leBytes 2 v.data2.toNat ++
    (leBytes 2 v.data3.toNat ++ wire v.data4))
  ok _ := True

/-- Length-prefixed bytes; the empty string is sent as the null string, length -1. -/
def lenBytes (bytes : List UInt8) : List UInt8 :=
  if bytes = [] then [0xff, 0xff, 0xff, 0xff] else leBytes 4 bytes.length ++ bytes

instance : Wire Str where
  wire v := lenBytes v.bytes
  ok v := v.bytes.length < 2 ^ 31
instance : Wire ByteString where
  wire v := lenBytes v.bytes
  ok v := v.bytes.length < 2 ^ 31

instance {α : Type} [Wire α] : Wire (List α) where
  wire v := leBytes 4 v.length ++ v.flatMap wire
  ok v := v.length < 2 ^ 31 ∧ ∀ x ∈ v, Wire.ok x

/-- Two-byte, four-byte and full numeric form; string, guid and opaque form. -/
instance : Wire NodeId where
  wire v := match v.value with
    | .numeric i =>
      if v.namespaceIndex.toNat = 0 ∧ i.toNat < 256 then 0 :: leBytes 1 i.toNat
      else if v.namespaceIndex.toNat < 256 ∧ i.toNat < 65536 then
        1 :: (leBytes 1 v.namespaceIndex.toNat ++ leBytes 2 i.toNat)
      else 2 :: (leBytes 2 v.namespaceIndex.toNat ++ leBytes 4 i.toNat)
    | .string s => 3 :: (leBytes 2 v.namespaceIndex.toNat ++ wire s)
    | .guid g => 4 :: (leBytes 2 v.namespaceIndex.toNat ++ wire g)
    | .opaque o => 5 :: (leBytes 2 v.namespaceIndex.toNat ++ wire o)
  ok v := match v.value with
    | .string s => Wire.ok s
    | .opaque o => Wire.ok o
    | _ => True

/-- Bytes of an optional field: nothing when absent. -/
def optWire {α : Type} [Wire α] : Option α → List UInt8
  | none => []
  | some x => wire x

/-- An optional field can be carried. -/
def optOk {α : Type} [Wire α] : Option α → Prop
  | none => True
  | some x => Wire.ok x

/-- Weight of a mask bit. -/
def flag {α : Type} (o : Option α) (w : Nat) : Nat := if o.isSome then w else 0

/-- A present text must not be empty: an empty one is sent as absent. -/
def notEmpty : Option Str → Prop
  | none => True
  | some s => s.bytes ≠ []

/-- Namespace flag 0x80 and server flag 0x40 are set in the first byte of the node id. -/
instance : Wire ExpandedNodeId where
  wire v := match wire v.nodeId with
    | [] => []
    | x :: xs => UInt8.ofNat (x.toNat + flag v.namespaceUri 0x80 + flag v.serverIndex 0x40) ::
        (xs ++ (optWire v.namespaceUri ++ optWire v.serverIndex))
  ok v := Wire.ok v.nodeId ∧ v.namespaceUri = none ∧ v.serverIndex = none

instance : Wire QualifiedName where
  wire v := leBytes 2 v.namespaceIndex.toNat ++ wire v.name
  ok v := Wire.ok v.name

instance : Wire LocalizedText where
  wire v := UInt8.ofNat (flag v.locale 1 + flag v.text 2) :: (optWire v.locale ++ optWire v.text)
  ok v := optOk v.locale ∧ optOk v.text ∧ notEmpty v.locale ∧ notEmpty v.text

/-- Body encoding 0 (no body) or 1 (byte string body). -/
instance : Wire ExtensionObject where
  wire v := wire v.nodeId ++ (UInt8.ofNat (flag v.byteString 1) :: optWire v.byteString)
  ok v := Wire.ok v.nodeId ∧ optOk v.byteString ∧ v.byteString ≠ some ⟨[]⟩

/-- Mask and plain fields of a diagnostic info. -/
def DiagFields.wire (f : DiagFields) (inner : Nat) : List UInt8 :=
  UInt8.ofNat (flag f.symbolicId 1 + flag f.namespaceUri 2 + flag f.locale 4 +
      flag f.localizedText 8 + flag f.additionalInfo 16 + flag f.innerStatusCode 32 + inner) ::
    (optWire f.symbolicId ++ (optWire f.namespaceUri ++ (optWire f.locale ++
      (optWire f.localizedText ++ (optWire f.additionalInfo ++ optWire f.innerStatusCode)))))

/-- Diagnostic info: fields, then the inner diagnostic info if there is one. -/
def DiagnosticInfo.wire : DiagnosticInfo → List UInt8
  | .leaf f => f.wire 0
  | .nest f i => f.wire 64 ++ i.wire

/-- Diagnostic infos the format can carry. -/
def DiagnosticInfo.Ok : DiagnosticInfo → Prop
  | .leaf f => optOk f.additionalInfo
  | .nest f i => optOk f.additionalInfo ∧ i.Ok

instance : Wire DiagnosticInfo where
  wire := DiagnosticInfo.wire
  ok := DiagnosticInfo.Ok

/-- Built-in type id and bytes of a scalar. -/
def Scalar.wire : Scalar → List UInt8
  | .boolean v => 1 :: Ua.wire v
  | .sbyte v => 2 :: Ua.wire v
  | .byte v => 3 :: Ua.wire v
  | .int16 v => 4 :: Ua.wire v
  | .uint16 v => 5 :: Ua.wire v
  | .int32 v => 6 :: Ua.wire v
  | .uint32 v => 7 :: Ua.wire v
  | .int64 v => 8 :: Ua.wire v
  | .uint64 v => 9 :: Ua.wire v
  | .float v => 10 :: Ua.wire v
  | .double v => 11 :: Ua.wire v
  | .string v => 12 :: Ua.wire v
  | .dateTime v => 13 :: Ua.wire v
  | .guid v => 14 :: Ua.wire v
  | .byteString v => 15 :: Ua.wire v
  | .xmlElement v => 16 :: leBytes 1 v.val.toNat
  | .nodeId v => 17 :: Ua.wire v
  | .expandedNodeId v => 18 :: Ua.wire v
  | .statusCode v => 19 :: Ua.wire v
  | .qualifiedName v => 20 :: Ua.wire v
  | .localizedText v => 21 :: Ua.wire v
  | .extensionObject v => 22 :: Ua.wire v

/-- Scalars whose encoding is claimed: all but `XmlElement`, which the code does not encode. -/
def Scalar.Ok : Scalar → Prop
  | .string v => Wire.ok v
  | .byteString v => Wire.ok v
  | .xmlElement _ => False
  | .nodeId v => Wire.ok v
  | .expandedNodeId v => Wire.ok v
  | .qualifiedName v => Wire.ok v
  | .localizedText v => Wire.ok v
  | .extensionObject v => Wire.ok v
  | _ => True

/-- Type id with the array flag and bytes of an array. -/
def VArray.wire : VArray → List UInt8
  | .boolean v => 0x81 :: Ua.wire v
  | .sbyte v => 0x82 :: Ua.wire v
  | .byte v => 0x83 :: Ua.wire v
  | .int16 v => 0x84 :: Ua.wire v
  | .uint16 v => 0x85 :: Ua.wire v
  | .int32 v => 0x86 :: Ua.wire v
  | .uint32 v => 0x87 :: Ua.wire v
  | .int64 v => 0x88 :: Ua.wire v
  | .uint64 v => 0x89 :: Ua.wire v
  | .float v => 0x8a :: Ua.wire v
  | .double v => 0x8b :: Ua.wire v
  | .string v => 0x8c :: Ua.wire v
  | .dateTime v => 0x8d :: Ua.wire v
  | .guid v => 0x8e :: Ua.wire v
  | .byteString v => 0x8f :: Ua.wire v
  | .xmlElement v => 0x90 :: (leBytes 4 v.length ++ v.map (·.val))
  | .nodeId v => 0x91 :: Ua.wire v
  | .expandedNodeId v => 0x92 :: Ua.wire v
  | .statusCode v => 0x93 :: Ua.wire v
  | .qualifiedName v => 0x94 :: Ua.wire v
  | .localizedText v => 0x95 :: Ua.wire v
  | .extensionObject v => 0x96 :: Ua.wire v

/-- Arrays whose encoding is claimed: those of types 1 to 7, which the code decodes. -/
def VArray.Ok : VArray → Prop
  | .boolean v => Wire.ok v
  | .sbyte v => Wire.ok v
  | .byte v => Wire.ok v
  | .int16 v => Wire.ok v
  | .uint16 v => Wire.ok v
  | .int32 v => Wire.ok v
  | .uint32 v => Wire.ok v
  | _ => False

/-- Variants: byte 0 for the null variant.  Values with `arrayDimensions` are not claimed. -/
instance : Wire Variant where
  wire v := match v.value with
    | none => [0]
    | some (.scalar x) => x.wire
    | some (.array x) => x.wire
  ok v := v.arrayDimensions = none ∧ (match v.value with
    | none => True
    | some (.scalar x) => x.Ok
    | some (.array x) => x.Ok)

/-- Data values. -/
instance : Wire DataValue where
  wire v := UInt8.ofNat (flag v.value.value 1 + flag v.status 2 + flag v.sourceTimestampt 4 +
      flag v.sourcePicoSeconds 8 + flag v.serverTimeStampt 16 + flag v.serverPicoSeconds 32) ::
    ((if v.value.value.isSome then wire v.value else []) ++ (optWire v.status ++
      (optWire v.sourceTimestampt ++ (optWire v.sourcePicoSeconds ++
        (optWire v.serverTimeStampt ++ optWire v.serverPicoSeconds)))))
  ok v := Wire.ok v.value

end Uscada.Ua
