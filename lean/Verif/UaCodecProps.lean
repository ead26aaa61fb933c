import Verif.UaLocal
/-!
# Properties of the OPC UA codec: built-in types (C22-C27, C29, C43)
-/

namespace Uscada.Ua

/-! ## What "survives encoding" means -/

/-- Encoding `v` appends exactly the bytes `w` at the write position of any buffer with room for
them and changes nothing else; and whenever the bytes `w` stand at the read position of a buffer,
whatever precedes and follows them, decoding into a default-constructed target yields `v`, moves the
read position behind `w` and changes nothing else. -/
def RoundTrips {α : Type} [Ua α] (v : α) (w : List UInt8) : Prop :=
  (∀ b : Buf, b.head + w.length ≤ 4096 → ∃ b', enc v b = .ok ((), b') ∧
    b'.head = b.head + w.length ∧ b'.tail = b.tail ∧
    memRead b'.packet b.head w.length = w ∧
    ∀ i, (i < b.head ∨ b.head + w.length ≤ i) → b'.packet i = b.packet i) ∧
  (∀ b : Buf, b.tail + w.length ≤ 4096 → memRead b.packet b.tail w.length = w →
    ∃ b', dec (Ua.init : α) b = .ok (v, b') ∧
      b'.tail = b.tail + w.length ∧ b'.head = b.head ∧ b'.packet = b.packet)

theorem Writes.append {α : Type} [Ua α] {v : α} {w : List UInt8} (h : Writes (enc v) w) (b : Buf)
    (hb : b.head + w.length ≤ 4096) : ∃ b', enc v b = .ok ((), b') ∧
    b'.head = b.head + w.length ∧ b'.tail = b.tail ∧
    memRead b'.packet b.head w.length = w ∧
    ∀ i, (i < b.head ∨ b.head + w.length ≤ i) → b'.packet i = b.packet i := by
  have e := h b (by simp only [maxPacketLen]; omega)
  rw [if_pos (by simpa only [maxPacketLen] using hb)] at e
  refine ⟨_, e, rfl, rfl, MsgStorage.memRead_memWrite_same _ _ _, ?_⟩
  intro i hi
  simp only [Buf.append, memWrite]
  rw [if_neg (by omega)]

theorem roundTrips_of {α : Type} [Ua α] {v : α} {w : List UInt8}
    (h1 : Writes (enc v) w) (h2 : Reads (dec Ua.init) w v) : RoundTrips v w :=
  ⟨h1.append, fun b hl hb => ⟨_, h2 b hl hb, rfl, rfl, rfl⟩⟩

theorem roundTrips {α : Type} [Ua α] [Wire α] [Lawful α] (v : α) (h : Wire.ok v) :
    RoundTrips v (wire v) :=
  roundTrips_of (Lawful.writes v h) (Lawful.reads v h)

/-- An encoder that is given no room writes outside the array. -/
def Overflows {α : Type} [Ua α] (v : α) (w : List UInt8) : Prop :=
  ∀ b : Buf, b.head ≤ 4096 → 4096 < b.head + w.length → enc v b = .ub

theorem overflows_of {α : Type} [Ua α] {v : α} {w : List UInt8} (h : Writes (enc v) w) :
    Overflows v w := by
  intro b h1 h2
  rw [h b h1, if_neg (by simp only [maxPacketLen]; omega)]

/-- Encoding into a buffer and decoding what was appended gives the value back. -/
theorem RoundTrips.compose {α : Type} [Ua α] {v : α} {w : List UInt8} (h : RoundTrips v w) (b : Buf)
    (hb : b.head + w.length ≤ 4096) : ∃ b' b'', enc v b = .ok ((), b') ∧
      dec (Ua.init : α) { b' with tail := b.head } = .ok (v, b'') ∧ b''.tail = b''.head := by
  obtain ⟨b', he, h1, h2, h3, _⟩ := h.1 b hb
  obtain ⟨b'', hd, k1, k2, k3⟩ := h.2 { b' with tail := b.head } hb h3
  exact ⟨b', b'', he, hd, by rw [k1, k2]; exact h1.symm⟩

/-! ### Observers for examples -/

/-- A fresh buffer over zeroed memory. -/
def buf0 : Buf := Buf.create fun _ => 0

/-- Bytes written into a fresh buffer. -/
def encoded {α : Type} [Ua α] (v : α) : Option (List UInt8) :=
  match enc v buf0 with
  | .ok (_, b) => some b.content
  | _ => none

/-- A buffer that has received the given bytes. -/
def received (w : List UInt8) : Buf := (Buf.create fun _ => 0).append w

/-- Value decoded from the given bytes and the number of bytes consumed. -/
def decoded {α : Type} [Ua α] (w : List UInt8) : Option (α × Nat) :=
  match dec (Ua.init : α) (received w) with
  | .ok (v, b) => some (v, b.tail)
  | _ => none

/-- The value decoded from the encoding of a value placed behind `pre` bytes. -/
def reDecoded {α : Type} [Ua α] (pre : Nat) (v : α) : Option (α × Nat) :=
  match enc v (buf0.append (List.replicate pre 7)) with
  | .ok (_, b) => match dec (Ua.init : α) { b with tail := pre } with
    | .ok (v, b) => some (v, b.tail)
    | _ => none
  | _ => none

/-! ## C22: fixed-size types -/

theorem C22_boolean (v : Bool) : RoundTrips v [if v then 1 else 0] := roundTrips v trivial
theorem C22_sbyte (v : Int8) : RoundTrips v (leBytes 1 v.toUInt8.toNat) := roundTrips v trivial
theorem C22_byte (v : UInt8) : RoundTrips v (leBytes 1 v.toNat) := roundTrips v trivial
theorem C22_int16 (v : Int16) : RoundTrips v (leBytes 2 v.toUInt16.toNat) := roundTrips v trivial
theorem C22_uint16 (v : UInt16) : RoundTrips v (leBytes 2 v.toNat) := roundTrips v trivial
theorem C22_int32 (v : Int32) : RoundTrips v (leBytes 4 v.toUInt32.toNat) := roundTrips v trivial
theorem C22_uint32 (v : UInt32) : RoundTrips v (leBytes 4 v.toNat) := roundTrips v trivial
theorem C22_int64 (v : Int64) : RoundTrips v (leBytes 8 v.toUInt64.toNat) := roundTrips v trivial
theorem C22_uint64 (v : UInt64) : RoundTrips v (leBytes 8 v.toNat) := roundTrips v trivial
theorem C22_float (v : F32) : RoundTrips v (leBytes 4 v.bits.toNat) := roundTrips v trivial
theorem C22_double (v : F64) : RoundTrips v (leBytes 8 v.bits.toNat) := roundTrips v trivial
theorem C22_dateTime (v : DateTime) : RoundTrips v (leBytes 8 v.val.toUInt64.toNat) :=
  roundTrips v trivial
theorem C22_statusCode (v : StatusCode) : RoundTrips v (leBytes 4 v.val.toNat) :=
  roundTrips v trivial

/-- The eight bytes of `data4` in order. -/
def Bytes8.toList (v : Bytes8) : List UInt8 :=
  [v.1.1, v.1.2.1, v.1.2.2.1, v.1.2.2.2, v.2.1, v.2.2.1, v.2.2.2.1, v.2.2.2.2]

theorem C22_guid (v : Guid) : RoundTrips v
    (leBytes 4 v.data1.toNat ++ (leBytes 2 v.data2.toNat ++ (leBytes 2 v.data3.toNat ++
      Bytes8.toList v.data4))) := by
  have e : Bytes8.toList v.data4 = wire v.data4 := by
    obtain ⟨⟨a, b, c, d⟩, e, f, g, h⟩ := (v.data4 : Bytes8)
    show _ = (wire a ++ (wire b ++ (wire c ++ wire d))) ++ (wire e ++ (wire f ++ (wire g ++ wire h)))
    simp [wire_u8, Bytes8.toList]
  rw [e]
  exact roundTrips v trivial

/-- When there is no room, the bytes are written outside the array. -/
theorem C22_no_room_violated (v : UInt32) : Overflows v (leBytes 4 v.toNat) :=
  overflows_of (Lawful.writes v trivial)

example : encoded (-2 : Int32) = some [0xfe, 0xff, 0xff, 0xff] := by decide +kernel
example : reDecoded 5 (-123456789012 : Int64) = some (-123456789012, 13) := by decide +kernel
example : decoded [0x34, 0x12, 0xff] = some ((0x1234 : UInt16), 2) := by decide +kernel

/-! ## C23: strings -/

/-- A non-empty string is its length in four bytes followed by its bytes; the empty string is sent
as the null string. -/
theorem C23_string_partial (s : Str) (h : s.bytes.length < 2 ^ 31) : RoundTrips s
    (if s.bytes = [] then [0xff, 0xff, 0xff, 0xff] else leBytes 4 s.bytes.length ++ s.bytes) :=
  roundTrips s h

theorem C23_byteString_partial (s : ByteString) (h : s.bytes.length < 2 ^ 31) : RoundTrips s
    (if s.bytes = [] then [0xff, 0xff, 0xff, 0xff] else leBytes 4 s.bytes.length ++ s.bytes) :=
  roundTrips s h

/-- A string that does not fit the rest of the packet is written outside of it. -/
theorem C23_long_string_violated (s : Str) (h : s.bytes.length < 2 ^ 31) (h0 : s.bytes ≠ []) (b : Buf)
    (hb : b.head ≤ 4096) (hl : 4096 < b.head + 4 + s.bytes.length) : enc s b = .ub := by
  refine overflows_of (Lawful.writes s h) b hb ?_
  show 4096 < b.head + (lenBytes s.bytes).length
  simp only [lenBytes, if_neg h0, List.length_append, MsgStorage.length_leBytes]
  omega

example : encoded (⟨[0x61, 0x62]⟩ : Str) = some [2, 0, 0, 0, 0x61, 0x62] := by decide +kernel
example : encoded (⟨[]⟩ : ByteString) = some [255, 255, 255, 255] := by decide +kernel
example : decoded [3, 0, 0, 0, 1, 2, 3, 9] = some ((⟨[1, 2, 3]⟩ : Str), 7) := by decide +kernel
/-- The overflow hypotheses are met by a 4100-byte string in an empty buffer. -/
example : enc (⟨List.replicate 4100 65⟩ : Str) buf0 = .ub :=
  C23_long_string_violated _ (by rw [List.length_replicate]; omega) (by rw [Ne, List.replicate_eq_nil_iff]; omega) _
    (by decide) (by rw [List.length_replicate]; decide)

/-! ## C24: node identifiers -/

/-- Bytes of a node identifier (OPC UA part 6, 5.2.2.9). -/
def nodeIdBytes (v : NodeId) : List UInt8 :=
  match v.value with
  | .numeric i =>
    if v.namespaceIndex.toNat = 0 ∧ i.toNat < 256 then 0 :: leBytes 1 i.toNat
    else if v.namespaceIndex.toNat < 256 ∧ i.toNat < 65536 then
      1 :: (leBytes 1 v.namespaceIndex.toNat ++ leBytes 2 i.toNat)
    else 2 :: (leBytes 2 v.namespaceIndex.toNat ++ leBytes 4 i.toNat)
  | .string s => 3 :: (leBytes 2 v.namespaceIndex.toNat ++ lenBytes s.bytes)
  | .guid g => 4 :: (leBytes 2 v.namespaceIndex.toNat ++ wire g)
  | .opaque o => 5 :: (leBytes 2 v.namespaceIndex.toNat ++ lenBytes o.bytes)

/-- Lengths that fit the length field. -/
def NodeId.Fits (v : NodeId) : Prop :=
  match v.value with
  | .string s => s.bytes.length < 2 ^ 31
  | .opaque o => o.bytes.length < 2 ^ 31
  | _ => True

theorem C24_nodeId (v : NodeId) (h : v.Fits) : RoundTrips v (nodeIdBytes v) := by
  have hk : Wire.ok v := by
    obtain ⟨ns, val⟩ := v
    cases val <;> exact h
  have e : nodeIdBytes v = wire v := by
    obtain ⟨ns, val⟩ := v
    cases val <;> rfl
  rw [e]
  exact roundTrips v hk

/-- The encoder chooses the shortest numeric form that can carry the identifier. -/
theorem C24_numeric_size (ns : UInt16) (i : UInt32) :
    (nodeIdBytes ⟨ns, .numeric i⟩).length =
      if ns.toNat = 0 ∧ i.toNat < 256 then 2
      else if ns.toNat < 256 ∧ i.toNat < 65536 then 4 else 7 := by
  simp only [nodeIdBytes]
  split
  · rfl
  · split
    · rfl
    · rfl

/-- A node identifier with one of the unused encodings 6 to 15 terminates the process. -/
theorem C24_unknown_encoding_violated (b : Buf) (h : b.tail < 4096)
    (hx : 6 ≤ (b.packet b.tail &&& 0xF).toNat) (old : NodeId) : dec old b = .abort := by
  show NodeId.decode old b = .abort
  have hr : dec (0 : UInt8) b = .ok (b.packet b.tail, { b with tail := b.tail + 1 }) := by
    show read b = _
    simp only [read]
    exact if_pos h
  simp only [NodeId.decode]
  rw [Codec.bind_run, hr]
  simp only [Exec.ok_bind]
  have : ∀ n, 6 ≤ n → NodeId.decodeBody old n = Codec.terminate := by
    intro n hn
    unfold NodeId.decodeBody
    split
    all_goals first
      | rfl
      | omega
  rw [this _ hx]
  rfl

example : encoded (⟨0, .numeric 255⟩ : NodeId) = some [0, 255] := by decide +kernel
example : encoded (⟨0, .numeric 256⟩ : NodeId) = some [1, 0, 0, 1] := by decide +kernel
example : encoded (⟨256, .numeric 1⟩ : NodeId) = some [2, 0, 1, 1, 0, 0, 0] := by decide +kernel
example : reDecoded 3 (⟨2, .string ⟨[0x61]⟩⟩ : NodeId) = some (⟨2, .string ⟨[0x61]⟩⟩, 11) := by
  decide +kernel
example : ((dec (Ua.init : NodeId) (received [0x0f])) matches .abort) = true := by decide +kernel

/-! ## C25: expanded node identifiers -/

/-- Bytes of an expanded node identifier: the flags are in the first byte. -/
def expandedBytes (v : ExpandedNodeId) : List UInt8 :=
  match nodeIdBytes v.nodeId with
  | [] => []
  | x :: xs =>
    UInt8.ofNat (x.toNat + (if v.namespaceUri.isSome then 0x80 else 0) +
      (if v.serverIndex.isSome then 0x40 else 0)) ::
    (xs ++ ((match v.namespaceUri with | none => [] | some s => lenBytes s.bytes) ++
      (match v.serverIndex with | none => [] | some i => leBytes 4 i.toNat)))

/-- Values the wire format can carry; an empty namespace uri counts as absent. -/
def ExpandedNodeId.Fits (v : ExpandedNodeId) : Prop :=
  v.nodeId.Fits ∧ ∀ s, v.namespaceUri = some s → s.bytes ≠ [] ∧ s.bytes.length < 2 ^ 31

theorem fits_ok (v : NodeId) (h : v.Fits) : Wire.ok v := by
  obtain ⟨ns, val⟩ := v
  cases val <;> exact h

theorem nodeIdBytes_wire (v : NodeId) : nodeIdBytes v = wire v := by
  obtain ⟨ns, val⟩ := v
  cases val <;> rfl

theorem expandedBytes_wire (v : ExpandedNodeId) : expandedBytes v = wire v := by
  obtain ⟨n, u, s⟩ := v
  show expandedBytes _ = match wire n with
    | [] => []
    | x :: xs => _
  simp only [expandedBytes, nodeIdBytes_wire]
  cases u <;> cases s <;> rfl

theorem ExpandedNodeId.fits_ok (v : ExpandedNodeId) (h : v.Fits) :
    Wire.ok v.nodeId ∧ optOk v.namespaceUri ∧ notEmpty v.namespaceUri := by
  obtain ⟨n, u, s⟩ := v
  refine ⟨Ua.fits_ok n h.1, ?_, ?_⟩
  · cases u with
    | none => trivial
    | some x => exact (h.2 x rfl).2
  · cases u with
    | none => trivial
    | some x => exact (h.2 x rfl).1

/-- Decoding is right wherever the bytes stand. -/
theorem C25_decode (v : ExpandedNodeId) (h : v.Fits) (b : Buf)
    (hl : b.tail + (expandedBytes v).length ≤ 4096)
    (hb : memRead b.packet b.tail (expandedBytes v).length = expandedBytes v) :
    dec (Ua.init : ExpandedNodeId) b =
      .ok (v, { b with tail := b.tail + (expandedBytes v).length }) := by
  obtain ⟨h1, h2, _⟩ := v.fits_ok h
  rw [expandedBytes_wire] at hl hb ⊢
  exact Reads.expanded v h1 h2 b hl hb

/-- The whole round trip, for a value that is encoded while the write position equals the read
position (for instance at the start of a fresh buffer).  Missing: any other position, where the
presence flags end up in a byte that is not the first byte of the identifier. -/
theorem C25_roundtrip_partial (v : ExpandedNodeId) (h : v.Fits) (b : Buf) (ht : b.tail = b.head)
    (hl : b.head + (expandedBytes v).length ≤ 4096) :
    ∃ b', enc v b = .ok ((), b') ∧ b'.head = b.head + (expandedBytes v).length ∧
      memRead b'.packet b.head (expandedBytes v).length = expandedBytes v ∧
      (∀ i, (i < b.head ∨ b.head + (expandedBytes v).length ≤ i) → b'.packet i = b.packet i) ∧
      dec (Ua.init : ExpandedNodeId) b' = .ok (v, { b' with tail := b'.head }) := by
  obtain ⟨h1, h2, h3⟩ := v.fits_ok h
  have hd := C25_decode v h (b.append (expandedBytes v)) (by rw [← ht] at hl; exact hl)
    (by
      show memRead (memWrite _ b.head _) b.tail _ = _
      rw [ht]
      exact MsgStorage.memRead_memWrite_same _ _ _)
  rw [expandedBytes_wire] at hl hd ⊢
  refine ⟨_, writes_expanded v h1 h2 h3 b ht hl, rfl, MsgStorage.memRead_memWrite_same _ _ _, ?_, ?_⟩
  · intro i hi
    simp only [Buf.append, memWrite]
    rw [if_neg (by omega)]
  · rw [hd]
    simp only [Buf.append, ht]

/-- Without optional fields the round trip holds at every position. -/
theorem C25_plain_partial (n : NodeId) (h : n.Fits) :
    RoundTrips (⟨n, none, none⟩ : ExpandedNodeId) (nodeIdBytes n) := by
  have hk : Wire.ok (⟨n, none, none⟩ : ExpandedNodeId) := ⟨fits_ok n h, rfl, rfl⟩
  have e : nodeIdBytes n = wire (⟨n, none, none⟩ : ExpandedNodeId) := by
    rw [ExpandedNodeId.wire_plain _ rfl rfl, nodeIdBytes_wire]
  rw [e]
  exact roundTrips _ hk

/-- An identifier with a server index, encoded behind another byte: the flag is set in that other
byte (which is damaged) and the decoder finds no server index. -/
theorem C25_position_violated :
    reDecoded 1 (⟨⟨0, .numeric 1⟩, none, some 5⟩ : ExpandedNodeId) =
        some (⟨⟨0, .numeric 1⟩, none, none⟩, 3) ∧
      (match enc (⟨⟨0, .numeric 1⟩, none, some 5⟩ : ExpandedNodeId) (buf0.append [7]) with
        | .ok (_, b) => some (b.packet 0)
        | _ => none) = some 0x47 := by
  decide +kernel

example : encoded (⟨⟨0, .numeric 1⟩, some ⟨[0x61]⟩, some 5⟩ : ExpandedNodeId) =
    some [0xc0, 1, 1, 0, 0, 0, 0x61, 5, 0, 0, 0] := by decide +kernel
example : reDecoded 0 (⟨⟨3, .numeric 70000⟩, some ⟨[0x61]⟩, some 5⟩ : ExpandedNodeId) =
    some (⟨⟨3, .numeric 70000⟩, some ⟨[0x61]⟩, some 5⟩, 16) := by decide +kernel
example : (⟨⟨3, .numeric 70000⟩, some ⟨[0x61]⟩, some 5⟩ : ExpandedNodeId).Fits := by
  refine ⟨trivial, ?_⟩
  intro s h
  cases h
  exact ⟨by decide, by decide⟩

/-! ## C26: structures with optional fields -/

/-- Bytes of an optional part. -/
def optBytes {α : Type} (f : α → List UInt8) : Option α → List UInt8
  | none => []
  | some x => f x

theorem C26_qualifiedName (v : QualifiedName) (h : v.name.bytes.length < 2 ^ 31) :
    RoundTrips v (leBytes 2 v.namespaceIndex.toNat ++ lenBytes v.name.bytes) :=
  roundTrips v h

/-- Localized texts whose present fields are not empty. -/
theorem C26_localizedText_partial (v : LocalizedText)
    (h1 : ∀ s, v.locale = some s → s.bytes ≠ [] ∧ s.bytes.length < 2 ^ 31)
    (h2 : ∀ s, v.text = some s → s.bytes ≠ [] ∧ s.bytes.length < 2 ^ 31) :
    RoundTrips v (UInt8.ofNat ((if v.locale.isSome then 1 else 0) + (if v.text.isSome then 2 else 0)) ::
      (optBytes (fun s => lenBytes s.bytes) v.locale ++
        optBytes (fun s => lenBytes s.bytes) v.text)) := by
  obtain ⟨l, t⟩ := v
  have hk : Wire.ok (⟨l, t⟩ : LocalizedText) := by
    refine ⟨?_, ?_, ?_, ?_⟩
    · cases l with
      | none => trivial
      | some x => exact (h1 x rfl).2
    · cases t with
      | none => trivial
      | some x => exact (h2 x rfl).2
    · cases l with
      | none => trivial
      | some x => exact (h1 x rfl).1
    · cases t with
      | none => trivial
      | some x => exact (h2 x rfl).1
  have := roundTrips _ hk
  have e : wire (⟨l, t⟩ : LocalizedText) =
      UInt8.ofNat ((if l.isSome then 1 else 0) + (if t.isSome then 2 else 0)) ::
      (optBytes (fun s => lenBytes s.bytes) l ++ optBytes (fun s => lenBytes s.bytes) t) := by
    cases l <;> cases t <;> rfl
  rw [e] at this
  exact this

/-- Present but empty becomes absent. -/
def dropEmpty : Option Str → Option Str
  | none => none
  | some s => if s.bytes = [] then none else some s

/-- A present but empty text arrives as an absent one, which `operator==` treats as equal. -/
theorem C26_localizedText_empty (v : LocalizedText)
    (h1 : ∀ s, v.locale = some s → s.bytes.length < 2 ^ 31)
    (h2 : ∀ s, v.text = some s → s.bytes.length < 2 ^ 31) (b : Buf)
    (hb : b.head + 1 + (optBytes (fun s => 0 :: 0 :: 0 :: 0 :: s.bytes) v.locale).length +
      (optBytes (fun s => 0 :: 0 :: 0 :: 0 :: s.bytes) v.text).length ≤ 4096) :
    ∃ b' b'', enc v b = .ok ((), b') ∧
      dec (Ua.init : LocalizedText) { b' with tail := b.head } =
        .ok (⟨dropEmpty v.locale, dropEmpty v.text⟩, b'') ∧ b''.tail = b''.head ∧
      LocalizedText.eq v ⟨dropEmpty v.locale, dropEmpty v.text⟩ = true := by
  obtain ⟨l, t⟩ := v
  simp only at h1 h2 hb
  -- the encoder cannot tell the value from the canonical one
  have hs : ∀ o : Option Str, sized (dropEmpty o) = sized o ∧
      encIf (sized o) o = encIf (sized o) (dropEmpty o) := by
    intro o
    cases o with
    | none => exact ⟨rfl, rfl⟩
    | some s =>
      by_cases h : s.bytes = []
      · simp [dropEmpty, h, sized, UaSize.size, encIf]
      · simp [dropEmpty, h]
  have he : enc (⟨l, t⟩ : LocalizedText) = enc (⟨dropEmpty l, dropEmpty t⟩ : LocalizedText) := by
    have bits : ∀ l t : Option Str, enc (⟨l, t⟩ : LocalizedText) = (do
        enc (encodeMaskSizeCheck [sized l, sized t])
        encIf (sized l) l
        encIf (sized t) t) := by
      intro l t
      obtain ⟨b1, b2⟩ := bit_mask2 (sized l) (sized t)
      show (do
        enc (encodeMaskSizeCheck [sized l, sized t])
        encIf (bit (encodeMaskSizeCheck [sized l, sized t]) 0x1 && sized l) l
        encIf (bit (encodeMaskSizeCheck [sized l, sized t]) 0x2 && sized t) t) = _
      rw [b1, b2, Bool.and_self, Bool.and_self]
    rw [bits, bits, (hs l).1, (hs t).1, (hs l).2, (hs t).2]
  have hd : ∀ o : Option Str, (∀ s, o = some s → s.bytes.length < 2 ^ 31) →
      ∀ s, dropEmpty o = some s → s.bytes ≠ [] ∧ s.bytes.length < 2 ^ 31 := by
    intro o ho s h
    cases o with
    | none => cases h
    | some x =>
      simp only [dropEmpty] at h
      split at h
      · cases h
      · cases h
        exact ⟨by assumption, ho _ rfl⟩
  have rt := C26_localizedText_partial ⟨dropEmpty l, dropEmpty t⟩ (hd l h1) (hd t h2)
  have hlen : ∀ o : Option Str, (optBytes (fun s => lenBytes s.bytes) (dropEmpty o)).length ≤
      (optBytes (fun s => 0 :: 0 :: 0 :: 0 :: s.bytes) o).length := by
    intro o
    cases o with
    | none => exact Nat.le_refl _
    | some s =>
      by_cases h : s.bytes = []
      · simp [dropEmpty, h, optBytes]
      · simp [dropEmpty, h, optBytes, lenBytes, MsgStorage.length_leBytes]
        omega
  have k1 := hlen l
  have k2 := hlen t
  obtain ⟨b', b'', e1, e2, e3⟩ := rt.compose b (by
    simp only [List.length_cons, List.length_append]
    omega)
  refine ⟨b', b'', he ▸ e1, e2, e3, ?_⟩
  have hc : ∀ o : Option Str, compareItem (fun a b => decide (a = b)) o (dropEmpty o) = true := by
    intro o
    cases o with
    | none => rfl
    | some s =>
      by_cases h : s.bytes = []
      · simp [dropEmpty, h, compareItem, sized, UaSize.size]
      · simp [dropEmpty, h, compareItem]
  simp [LocalizedText.eq, hc]

/-- Bytes of a diagnostic info: mask, plain fields, then the inner diagnostic info. -/
def diagBytes : DiagnosticInfo → List UInt8
  | .leaf f => fieldBytes f 0
  | .nest f i => fieldBytes f 64 ++ diagBytes i
where
  fieldBytes (f : DiagFields) (inner : Nat) : List UInt8 :=
    let bitOf (c : Bool) (w : Nat) : Nat := if c then w else 0
    UInt8.ofNat (bitOf f.symbolicId.isSome 1 + bitOf f.namespaceUri.isSome 2 +
      bitOf f.locale.isSome 4 + bitOf f.localizedText.isSome 8 + bitOf f.additionalInfo.isSome 16 +
      bitOf f.innerStatusCode.isSome 32 + inner) ::
    (optBytes (fun v => leBytes 4 v.toUInt32.toNat) f.symbolicId ++
      (optBytes (fun v => leBytes 4 v.toUInt32.toNat) f.namespaceUri ++
      (optBytes (fun v => leBytes 4 v.toUInt32.toNat) f.locale ++
      (optBytes (fun v => leBytes 4 v.toUInt32.toNat) f.localizedText ++
      (optBytes (fun s => lenBytes s.bytes) f.additionalInfo ++
      optBytes (fun v => leBytes 4 v.val.toNat) f.innerStatusCode)))))

/-- Texts of a diagnostic info at every level fit the length field. -/
def DiagnosticInfo.Fits : DiagnosticInfo → Prop
  | .leaf f => ∀ s, f.additionalInfo = some s → s.bytes.length < 2 ^ 31
  | .nest f i => (∀ s, f.additionalInfo = some s → s.bytes.length < 2 ^ 31) ∧ i.Fits

theorem DiagnosticInfo.fits_ok (v : DiagnosticInfo) (h : v.Fits) : v.Ok := by
  have key : ∀ o : Option Str, (∀ s, o = some s → s.bytes.length < 2 ^ 31) → optOk o := by
    intro o ho
    cases o with
    | none => trivial
    | some s => exact ho s rfl
  induction v with
  | leaf f => exact key _ h
  | nest f i ih => exact ⟨key _ h.1, ih h.2⟩

theorem diagBytes_wire (v : DiagnosticInfo) : diagBytes v = v.wire := by
  have key : ∀ f n, diagBytes.fieldBytes f n = f.wire n := by
    intro f n
    obtain ⟨a, b, c, d, e, g⟩ := f
    simp only [diagBytes.fieldBytes, DiagFields.wire, flag]
    cases a <;> cases b <;> cases c <;> cases d <;> cases e <;> cases g <;> rfl
  induction v with
  | leaf f => simp only [diagBytes, DiagnosticInfo.wire, key]
  | nest f i ih => simp only [diagBytes, DiagnosticInfo.wire, key, ih]

/-- Diagnostic infos of every nesting depth; each optional field is present exactly when it was. -/
theorem C26_diagnosticInfo (v : DiagnosticInfo) (h : v.Fits) : RoundTrips v (diagBytes v) := by
  rw [diagBytes_wire]
  exact roundTrips v (v.fits_ok h)

/-- Extension objects whose body is absent or not empty. -/
theorem C26_extensionObject_partial (v : ExtensionObject) (h : v.nodeId.Fits)
    (h2 : ∀ s, v.byteString = some s → s.bytes ≠ [] ∧ s.bytes.length < 2 ^ 31) :
    RoundTrips v (nodeIdBytes v.nodeId ++
      ((if v.byteString.isSome then 1 else 0) ::
        optBytes (fun s => lenBytes s.bytes) v.byteString)) := by
  obtain ⟨n, o⟩ := v
  have hk : Wire.ok (⟨n, o⟩ : ExtensionObject) := by
    refine ⟨fits_ok n h, ?_, ?_⟩
    · cases o with
      | none => trivial
      | some x => exact (h2 x rfl).2
    · intro e
      exact (h2 ⟨[]⟩ e).1 rfl
  have e : wire (⟨n, o⟩ : ExtensionObject) = nodeIdBytes n ++ ((if o.isSome then 1 else 0) ::
        optBytes (fun s => lenBytes s.bytes) o) := by
    rw [nodeIdBytes_wire]
    cases o <;> rfl
  have := roundTrips _ hk
  rw [e] at this
  exact this

/-- A present but empty body is decoded as absent, and `operator==` of the extension object tells
the two apart. -/
theorem C26_extensionObject_empty_violated :
    reDecoded 0 (⟨⟨0, .numeric 1⟩, some ⟨[]⟩⟩ : ExtensionObject) =
      some (⟨⟨0, .numeric 1⟩, none⟩, 3) := by
  decide +kernel

example : encoded (DiagnosticInfo.nest ⟨some 1, none, none, none, some ⟨[0x41]⟩, none⟩
      (.leaf ⟨none, none, none, none, none, some ⟨7⟩⟩)) =
    some [0x51, 1, 0, 0, 0, 1, 0, 0, 0, 0x41, 0x20, 7, 0, 0, 0] := by decide +kernel
example : reDecoded 9 (DiagnosticInfo.nest ⟨some 1, none, none, none, some ⟨[]⟩, none⟩
      (.nest DiagFields.init (.leaf ⟨none, none, none, none, none, some ⟨7⟩⟩))) =
    some (.nest ⟨some 1, none, none, none, some ⟨[]⟩, none⟩
      (.nest DiagFields.init (.leaf ⟨none, none, none, none, none, some ⟨7⟩⟩)), 24) := by
  decide +kernel
example : reDecoded 2 (⟨some ⟨[1]⟩, none⟩ : LocalizedText) = some (⟨some ⟨[1]⟩, none⟩, 8) := by
  decide +kernel
example : reDecoded 2 (⟨some ⟨[]⟩, some ⟨[1]⟩⟩ : LocalizedText) = some (⟨none, some ⟨[1]⟩⟩, 8) := by
  decide +kernel
example : reDecoded 1 (⟨⟨0, .numeric 300⟩, some ⟨[9]⟩⟩ : ExtensionObject) =
    some (⟨⟨0, .numeric 300⟩, some ⟨[9]⟩⟩, 11) := by decide +kernel

/-! ## C27: variants and data values -/

/-- Type id of a scalar and its bytes, by the built-in type table of OPC UA part 6. -/
def scalarBytes : Scalar → List UInt8
  | .boolean v => [1, if v then 1 else 0]
  | .sbyte v => 2 :: leBytes 1 v.toUInt8.toNat
  | .byte v => 3 :: leBytes 1 v.toNat
  | .int16 v => 4 :: leBytes 2 v.toUInt16.toNat
  | .uint16 v => 5 :: leBytes 2 v.toNat
  | .int32 v => 6 :: leBytes 4 v.toUInt32.toNat
  | .uint32 v => 7 :: leBytes 4 v.toNat
  | .int64 v => 8 :: leBytes 8 v.toUInt64.toNat
  | .uint64 v => 9 :: leBytes 8 v.toNat
  | .float v => 10 :: leBytes 4 v.bits.toNat
  | .double v => 11 :: leBytes 8 v.bits.toNat
  | .string v => 12 :: lenBytes v.bytes
  | .dateTime v => 13 :: leBytes 8 v.val.toUInt64.toNat
  | .guid v => 14 :: wire v
  | .byteString v => 15 :: lenBytes v.bytes
  | .xmlElement _ => [16]
  | .nodeId v => 17 :: nodeIdBytes v
  | .expandedNodeId v => 18 :: expandedBytes v
  | .statusCode v => 19 :: leBytes 4 v.val.toNat
  | .qualifiedName v => 20 :: wire v
  | .localizedText v => 21 :: wire v
  | .extensionObject v => 22 :: wire v

theorem scalarBytes_wire (x : Scalar) (h : x.Ok) : scalarBytes x = x.wire := by
  cases x
  case xmlElement => exact h.elim
  case nodeId v => exact congrArg _ (nodeIdBytes_wire v)
  case expandedNodeId v => exact congrArg _ (expandedBytes_wire v)
  all_goals rfl

/-- Scalars.  Missing: `XmlElement`, expanded node ids with optional fields, texts and bodies that
are present but empty. -/
theorem C27_scalar_partial (x : Scalar) (h : x.Ok) :
    RoundTrips (⟨some (.scalar x), none⟩ : Variant) (scalarBytes x) := by
  rw [scalarBytes_wire x h]
  exact roundTrips (⟨some (.scalar x), none⟩ : Variant) ⟨rfl, h⟩

/-- The null variant. -/
theorem C27_null : RoundTrips (⟨none, none⟩ : Variant) [0] :=
  roundTrips (⟨none, none⟩ : Variant) ⟨rfl, trivial⟩

/-- Arrays of every length of the element types 1 to 7.  Missing: arrays of the other types, and the
array dimensions. -/
theorem C27_array_partial (x : VArray) (h : x.Ok) :
    RoundTrips (⟨some (.array x), none⟩ : Variant) x.wire :=
  roundTrips (⟨some (.array x), none⟩ : Variant) ⟨rfl, h⟩

/-- An array of 32-bit integers: type byte 0x86, length, elements. -/
theorem C27_int32_array (l : List Int32) (h : l.length < 2 ^ 31) :
    RoundTrips (⟨some (.array (.int32 l)), none⟩ : Variant)
      (0x86 :: (leBytes 4 l.length ++ l.flatMap fun v => leBytes 4 v.toUInt32.toNat)) :=
  C27_array_partial (.int32 l) ⟨h, fun _ _ => trivial⟩

/-- Data values with a variant as above: mask, then the present fields. -/
theorem C27_dataValue_partial (v : DataValue) (h : Wire.ok v.value) :
    RoundTrips v (UInt8.ofNat ((if v.value.value.isSome then 1 else 0) +
        (if v.status.isSome then 2 else 0) + (if v.sourceTimestampt.isSome then 4 else 0) +
        (if v.sourcePicoSeconds.isSome then 8 else 0) +
        (if v.serverTimeStampt.isSome then 16 else 0) +
        (if v.serverPicoSeconds.isSome then 32 else 0)) ::
      ((if v.value.value.isSome then wire v.value else []) ++
        (optBytes (fun s => leBytes 4 s.val.toNat) v.status ++
        (optBytes (fun s => leBytes 8 s.val.toUInt64.toNat) v.sourceTimestampt ++
        (optBytes (fun s => leBytes 2 s.toNat) v.sourcePicoSeconds ++
        (optBytes (fun s => leBytes 8 s.val.toUInt64.toNat) v.serverTimeStampt ++
        optBytes (fun s => leBytes 2 s.toNat) v.serverPicoSeconds)))))) := by
  have := roundTrips v h
  obtain ⟨a, b, c, d, e, f⟩ := v
  have hw : ∀ {α : Type} [Wire α] (g : α → List UInt8) (o : Option α), (∀ x, wire x = g x) →
      optBytes g o = optWire o := by
    intro α _ g o hg
    cases o with
    | none => rfl
    | some x => exact (hg x).symm
  have k1 := hw (fun s : StatusCode => leBytes 4 s.val.toNat) b (fun _ => rfl)
  have k2 := hw (fun s : DateTime => leBytes 8 s.val.toUInt64.toNat) c (fun _ => rfl)
  have k3 := hw (fun s : UInt16 => leBytes 2 s.toNat) d (fun _ => rfl)
  have k4 := hw (fun s : DateTime => leBytes 8 s.val.toUInt64.toNat) e (fun _ => rfl)
  have k5 := hw (fun s : UInt16 => leBytes 2 s.toNat) f (fun _ => rfl)
  simp only [k1, k2, k3, k4, k5]
  exact this

/-- An XML element loses its value. -/
theorem C27_xmlElement_violated :
    reDecoded 0 (⟨some (.scalar (.xmlElement ⟨5⟩)), none⟩ : Variant) =
      some (⟨some (.scalar (.xmlElement ⟨0⟩)), none⟩, 1) := by
  decide +kernel

/-- An array of an element type from 8 on is encoded, but decoding it terminates the process. -/
theorem C27_array_terminates_violated (x : VArray) (old : Variant) (b : Buf) (h : b.tail < 4096)
    (h8 : 29 ≤ x.index) (hb : b.packet b.tail = (⟨some (.array x), none⟩ : Variant).encodingMask) :
    dec old b = .abort := by
  have hr : dec (0 : UInt8) b = .ok (b.packet b.tail, { b with tail := b.tail + 1 }) := by
    show read b = _
    simp only [read]
    exact if_pos h
  have hm : (⟨some (.array x), none⟩ : Variant).encodingMask =
      UInt8.ofNat ((x.index - 21) ||| 0x80) :=
    congrArg UInt8.ofNat (if_neg (Nat.not_lt.2 x.index_ge))
  have hi : x.index - 21 < 23 := by
    cases x <;> simp only [VArray.index] <;> decide
  obtain ⟨m1, m2, m3⟩ := varray_mask _ hi
  show Variant.decode old b = _
  simp only [Variant.decode]
  rw [Codec.bind_run, hr]
  simp only [Exec.ok_bind, hb, hm, if_neg m3, m1, m2, if_true]
  have : ∀ n, 8 ≤ n → VArray.decode n = Codec.terminate := by
    intro n hn
    unfold VArray.decode
    split
    all_goals first
      | rfl
      | omega
  rw [this _ (by omega)]
  rfl

/-- The array dimensions are not sent. -/
theorem C27_dimensions_violated :
    reDecoded 0 (⟨some (.array (.byte [1, 2, 3, 4])), some [2, 2]⟩ : Variant) =
      some (⟨some (.array (.byte [1, 2, 3, 4])), none⟩, 9) := by
  decide +kernel

/-- An expanded node id with a server index in a variant: the flag lands in the type byte of the
variant (18 becomes 82), so another type is decoded and the value is lost. -/
theorem C27_expandedNodeId_violated :
    encoded (⟨some (.scalar (.expandedNodeId ⟨⟨0, .numeric 1⟩, none, some 5⟩)), none⟩ : Variant) =
        some [82, 0, 1, 5, 0, 0, 0] ∧
      reDecoded 0 (⟨some (.scalar (.expandedNodeId ⟨⟨0, .numeric 1⟩, none, some 5⟩)), none⟩ : Variant) =
        some (⟨some (.scalar (.expandedNodeId ⟨⟨0, .numeric 1⟩, none, none⟩)), none⟩, 3) := by
  decide +kernel

example : encoded (⟨some (.scalar (.double ⟨0x3ff0000000000000⟩)), none⟩ : Variant) =
    some [11, 0, 0, 0, 0, 0, 0, 0xf0, 0x3f] := by decide +kernel
example : reDecoded 4 (⟨some (.array (.int16 [-1, 300])), none⟩ : Variant) =
    some (⟨some (.array (.int16 [-1, 300])), none⟩, 13) := by decide +kernel
example : reDecoded 4 (⟨⟨some (.scalar (.boolean true)), none⟩, none, some ⟨5⟩, none, none, some 3⟩ :
    DataValue) =
    some (⟨⟨some (.scalar (.boolean true)), none⟩, none, some ⟨5⟩, none, none, some 3⟩, 17) := by
  decide +kernel
example : encoded (⟨some (.array (.int64 [1])), none⟩ : Variant) =
    some [0x88, 1, 0, 0, 0, 1, 0, 0, 0, 0, 0, 0, 0] := by decide +kernel
example : (dec (Ua.init : Variant) (received [0x88, 1, 0, 0, 0, 1]) matches .abort) = true := by
  decide +kernel

/-! ## C29: received bytes only -/

/-- Two buffers that have received the same bytes. -/
def SameReceived (b c : Buf) : Prop :=
  c.tail = b.tail ∧ c.head = b.head ∧ ∀ i, b.tail ≤ i → i < b.head → c.packet i = b.packet i

/-- If decoding ends within the received bytes, the result is a function of the received bytes: a
buffer that differs anywhere else gives the same value and the same position, and nothing is
written.  Missing: the code does not check that decoding ends within the received bytes. -/
theorem C29_within_partial {α : Type} [Ua α] [LocalDec α] (old v : α) (b b' c : Buf)
    (h : dec old b = .ok (v, b')) (hin : b'.tail ≤ b.head) (hs : SameReceived b c) :
    (b'.packet = b.packet ∧ b'.head = b.head ∧ b.tail ≤ b'.tail) ∧
      dec old c = .ok (v, { c with tail := b'.tail }) := by
  obtain ⟨⟨h1, h2, h3, _⟩, h4⟩ := LocalDec.loc old b v b' h
  exact ⟨⟨h1, h2, h3⟩, h4 c hs.1 fun i k1 k2 => hs.2.2 i k1 (by omega)⟩

theorem C29_nodeId_partial (old v : NodeId) (b b' c : Buf) (h : dec old b = .ok (v, b'))
    (hin : b'.tail ≤ b.head) (hs : SameReceived b c) :
    dec old c = .ok (v, { c with tail := b'.tail }) := (C29_within_partial old v b b' c h hin hs).2

theorem C29_string_partial (old v : Str) (b b' c : Buf) (h : dec old b = .ok (v, b'))
    (hin : b'.tail ≤ b.head) (hs : SameReceived b c) :
    dec old c = .ok (v, { c with tail := b'.tail }) := (C29_within_partial old v b b' c h hin hs).2

/-- A string that claims more bytes than were received is filled with whatever the packet array
contained before: here the received bytes are `[2, 0, 0, 0, 0x61]`, and the second character is a
left-over that differs between the two buffers. -/
theorem C29_stale_bytes_violated : ∃ (b c : Buf), SameReceived b c ∧ b.content = [2, 0, 0, 0, 0x61] ∧
    (match dec (Ua.init : Str) b with | .ok (v, _) => some v | _ => none) = some ⟨[0x61, 0x53]⟩ ∧
    (match dec (Ua.init : Str) c with | .ok (v, _) => some v | _ => none) = some ⟨[0x61, 0x54]⟩ := by
  refine ⟨⟨memWrite (fun _ => 0x53) 0 [2, 0, 0, 0, 0x61], 0, 5⟩,
    ⟨memWrite (fun _ => 0x54) 0 [2, 0, 0, 0, 0x61], 0, 5⟩, ⟨rfl, rfl, ?_⟩, by decide +kernel,
    by decide +kernel, by decide +kernel⟩
  intro i _ h
  have h : i < 5 := h
  simp only [memWrite, List.length_cons, List.length_nil]
  rw [if_pos (by omega), if_pos (by omega)]

theorem readN_outside (n : Nat) (b : Buf) (h : b.tail ≤ 4096) (hn : 4096 < b.tail + n) :
    readN n b = .ub := by
  induction n generalizing b with
  | zero => omega
  | succ n ih =>
    simp only [readN]
    rw [Codec.bind_run]
    by_cases hb : b.tail < 4096
    · have : read b = .ok (b.packet b.tail, { b with tail := b.tail + 1 }) := if_pos hb
      rw [this]
      simp only [Exec.ok_bind]
      rw [Codec.bind_run, ih { b with tail := b.tail + 1 } hb (by show 4096 < b.tail + 1 + n; omega)]
      rfl
    · have : read b = .ub := if_neg hb
      rw [this]
      rfl

/-- A string whose length field points beyond the packet array is read outside of the array, whatever
was received. -/
theorem C29_outside_array_violated (old : Str) (b : Buf) (n : Nat) (hn : n < 2 ^ 31)
    (hb : memRead b.packet b.tail 4 = leBytes 4 n) (h : b.tail + 4 ≤ 4096)
    (ho : 4096 < b.tail + 4 + n) : dec old b = .ub := by
  have hl := i32_len hn
  have hw := wire_len hn
  have hr := Lawful.reads (Int32.ofNat n) trivial b
    (by rw [hw, MsgStorage.length_leBytes]; exact h)
    (by rw [hw, MsgStorage.length_leBytes]; exact hb)
  have hr : dec (0 : Int32) b = .ok (Int32.ofNat n, { b with tail := b.tail + 4 }) := by
    rw [hw] at hr
    exact hr
  show (do
      let len ← dec (0 : Int32)
      if len = -1 then Pure.pure old else do
        let bytes ← Ua.readChars len
        Pure.pure (⟨bytes⟩ : Str) : Codec Str) b = .ub
  rw [Codec.bind_run, hr]
  simp only [Exec.ok_bind]
  rw [if_neg hl.2.2.2.2, Codec.bind_run]
  have : Ua.readChars (Int32.ofNat n) { b with tail := b.tail + 4 } = .ub := by
    simp only [Ua.readChars]
    rw [if_neg hl.2.2.1, hl.2.1]
    exact readN_outside n _ h ho
  rw [this]
  rfl

example : dec (Ua.init : Str) (received [0xff, 0xff, 0, 0]) = .ub :=
  C29_outside_array_violated _ _ 0xffff (by decide) (by decide +kernel) (by decide) (by decide)

example : (match dec (Ua.init : NodeId) (received [1, 2, 3, 4, 9]) with
    | .ok (v, b) => some (v, b.tail, b.head) | _ => none) =
    some (⟨2, .numeric 0x403⟩, 4, 5) := by decide +kernel

/-! ## C43: masks and comparison -/

/-- Bit `i` of the mask is set exactly when item `i` is present. -/
theorem maskLoop_bit (items : List Bool) (pos : Nat) (r : UInt8) (h : pos + items.length ≤ 8) (i : Nat)
    (hi : i < 8) : (maskLoop (UInt8.ofNat pos) r items).toNat.testBit i =
      (r.toNat.testBit i || (decide (pos ≤ i) && items.getD (i - pos) false)) := by
  induction items generalizing pos r with
  | nil => simp [maskLoop]
  | cons c cs ih =>
    simp only [List.length_cons] at h
    have e : UInt8.ofNat pos + 1 = UInt8.ofNat (pos + 1) := by
      simp
    simp only [maskLoop, e]
    rw [ih (pos + 1) _ (by omega)]
    have hp : pos < 8 := by omega
    have hb : ((if c = true then 1 <<< UInt8.ofNat pos else 0 : UInt8)).toNat.testBit i =
        (decide (pos = i) && c) := by
      have : ∀ p, p < 8 → ∀ j, j < 8 → ∀ c : Bool,
          ((if c = true then 1 <<< UInt8.ofNat p else 0 : UInt8)).toNat.testBit j =
            (decide (p = j) && c) := by decide +kernel
      exact this pos hp i hi c
    rw [UInt8.toNat_or, Nat.testBit_or, hb]
    by_cases h1 : pos = i
    · subst h1
      simp [Nat.not_succ_le_self]
    · by_cases h2 : pos + 1 ≤ i
      · have h3 : pos ≤ i := by omega
        obtain ⟨k, hk⟩ : ∃ k, i - pos = k + 1 := ⟨i - pos - 1, by omega⟩
        have hk' : i - (pos + 1) = k := by omega
        simp [h1, h2, h3, hk, hk']
      · have h3 : ¬ pos ≤ i := by omega
        simp [h1, h2, h3]

theorem C43_mask (items : List Bool) (h : items.length ≤ 8) (i : Nat) (hi : i < 8) :
    (encodeMask items).toNat.testBit i = items.getD i false ∧
      (encodeMaskSizeCheck items).toNat.testBit i = items.getD i false := by
  have := maskLoop_bit items 0 0 (by omega) i hi
  simp only [Nat.zero_le, decide_true, Bool.true_and, Nat.sub_zero] at this
  have z : (0 : UInt8).toNat.testBit i = false := by simp
  rw [z, Bool.false_or] at this
  exact ⟨this, this⟩

/-- The mask of a diagnostic info has exactly the bits of the present fields. -/
theorem C43_diagnosticInfo_mask (f : DiagFields) (inner : Bool) :
    let m := (f.encodingMask inner).toNat
    m.testBit 0 = f.symbolicId.isSome ∧ m.testBit 1 = f.namespaceUri.isSome ∧
    m.testBit 2 = f.locale.isSome ∧ m.testBit 3 = f.localizedText.isSome ∧
    m.testBit 4 = f.additionalInfo.isSome ∧ m.testBit 5 = f.innerStatusCode.isSome ∧
    m.testBit 6 = inner ∧ m.testBit 7 = false := by
  have key := fun i hi => (C43_mask [f.symbolicId.isSome, f.namespaceUri.isSome, f.locale.isSome,
    f.localizedText.isSome, f.additionalInfo.isSome, f.innerStatusCode.isSome, inner]
    (by simp) i hi).1
  exact ⟨key 0 (by omega), key 1 (by omega), key 2 (by omega), key 3 (by omega), key 4 (by omega),
    key 5 (by omega), key 6 (by omega), key 7 (by omega)⟩

/-- Content of an optional string, an absent one being empty. -/
def contentOf : Option Str → List UInt8
  | none => []
  | some s => s.bytes

/-- The mask of a localized text has the bits of the fields that are not empty. -/
theorem C43_localizedText_mask (v : LocalizedText) :
    v.encodingMask.toNat.testBit 0 = decide (contentOf v.locale ≠ []) ∧
    v.encodingMask.toNat.testBit 1 = decide (contentOf v.text ≠ []) := by
  have key := fun i hi => (C43_mask [sized v.locale, sized v.text] (by simp) i hi).2
  have hs : ∀ o : Option Str, sized o = decide (contentOf o ≠ []) := by
    intro o
    cases o with
    | none => rfl
    | some s => cases h : s.bytes <;> simp [sized, UaSize.size, contentOf, h]
  refine ⟨?_, ?_⟩
  · rw [← hs]
    exact key 0 (by omega)
  · rw [← hs]
    exact key 1 (by omega)

theorem compareItem_str (l r : Option Str) :
    compareItem (fun a b => decide (a = b)) l r = decide (contentOf l = contentOf r) := by
  cases l with
  | none =>
    cases r with
    | none => rfl
    | some s => cases h : s.bytes <;> simp [compareItem, sized, UaSize.size, contentOf, h]
  | some s =>
    cases r with
    | none => cases h : s.bytes <;> simp [compareItem, sized, UaSize.size, contentOf, h]
    | some t =>
      obtain ⟨s⟩ := s
      obtain ⟨t⟩ := t
      simp only [compareItem, contentOf, Str.mk.injEq]
      congr

/-- Two localized texts compare equal exactly when they hold the same texts, absent and empty being
the same. -/
theorem C43_compare (a b : LocalizedText) :
    LocalizedText.eq a b = true ↔
      contentOf a.locale = contentOf b.locale ∧ contentOf a.text = contentOf b.text := by
  simp [LocalizedText.eq, compareItem_str]

/-- The comparison is an equivalence. -/
theorem C43_compare_equivalence : Equivalence fun a b => LocalizedText.eq a b = true := by
  refine ⟨?_, ?_, ?_⟩
  · intro a
    exact (C43_compare a a).2 ⟨rfl, rfl⟩
  · intro a b h
    rw [C43_compare] at h ⊢
    exact ⟨h.1.symm, h.2.symm⟩
  · intro a b c h1 h2
    rw [C43_compare] at h1 h2 ⊢
    exact ⟨h1.1.trans h2.1, h1.2.trans h2.2⟩

/-- types/Variant.hpp:84-97: dereferencing an empty `arrayDimensions` is undefined behaviour. -/
def Variant.eq (a b : Variant) : Exec Bool := do
  let cmpValue := match a.value, b.value with
    | some x, some y => decide (x = y)
    | x, y => !(x.isSome || y.isSome)
  match a.arrayDimensions, b.arrayDimensions with
  | some x, some y => .ok (cmpValue && decide (x = y))
  | _, _ => .ub

/-- Comparing variants without array dimensions, which every decoded variant is, is undefined
behaviour. -/
theorem C43_variant_compare_violated (b b' : Buf) (v w : Variant)
    (h : dec (Ua.init : Variant) b = .ok (v, b')) : Variant.eq v w = .ub ∧ Variant.eq w v = .ub := by
  have hn : v.arrayDimensions = none := by
    have h : Variant.decode ⟨none, none⟩ b = _ := h
    simp only [Variant.decode, Codec.bind_run] at h
    rw [Exec.bind_eq_ok] at h
    obtain ⟨⟨m, b1⟩, _, h⟩ := h
    simp only at h
    split at h
    · cases h; rfl
    · split at h
      · rw [Codec.bind_run, Exec.bind_eq_ok] at h
        obtain ⟨⟨x, b2⟩, _, h⟩ := h
        cases h; rfl
      · rw [Codec.bind_run, Exec.bind_eq_ok] at h
        obtain ⟨⟨x, b2⟩, _, h⟩ := h
        cases x with
        | none => cases h; rfl
        | some x => cases h; rfl
  constructor
  · unfold Variant.eq
    rw [hn]
  · unfold Variant.eq
    rw [hn]
    cases w.arrayDimensions <;> rfl

example : LocalizedText.eq ⟨none, some ⟨[1]⟩⟩ ⟨some ⟨[]⟩, some ⟨[1]⟩⟩ = true := by decide
example : LocalizedText.eq ⟨none, some ⟨[1]⟩⟩ ⟨some ⟨[2]⟩, some ⟨[1]⟩⟩ = false := by decide
example : encodeMask [true, false, true, true] = 13 := by decide
example : (decoded [1, 1] : Option (Variant × Nat)) =
    some (⟨some (.scalar (.boolean true)), none⟩, 2) := by decide +kernel

end Uscada.Ua
