import Verif.UaDemand
import Verif.UaConnection
/-!
# C88: the memory that decoding asks for

A receiver that works on messages of strangers has to bound the memory it asks for by the bytes it has received.
-/

namespace Uscada.Ua

open Meter (ask lift erase demand all Fair erase_bind erase_pure erase_lift erase_ask erase_ite)
open Metered (decM same fair)

/-- A message that is decoded to its end has asked for fewer elements than it has bytes, and decoding never goes beyond the
packet array: at most 4096 elements are asked for.  Missing: messages that are not decoded to their end. -/
theorem C88_decoded_partial {α : Type} [Ua α] [LocalDec α] [Metered α] (old v : α) (b b' : Buf)
    (h : dec old b = .ok (v, b')) (hb : b.tail ≤ maxPacketLen) :
    demand (decM old) b < b'.tail - b.tail ∧ demand (decM old) b < 4096 := by
  have hs : (decM old all b).2 = .ok (v, b') := by
    have := congrFun (same old) b
    rw [h] at this
    exact this
  have h1 := (fair old).paid all b v b' hs
  have h2 := (LocalDec.loc old b v b' h).1.2.2.2 hb
  have h3 : maxPacketLen = 4096 := rfl
  show (decM old all b).1 < _ ∧ (decM old all b).1 < _
  omega

/-- Whatever requests the allocator refuses, decoding then throws or does what it does with unlimited memory; and a message
that is decoded to its end is decoded by every allocator that grants requests of fewer elements than the message has bytes.
Missing: what becomes of the process when the allocator refuses nothing and the memory is not there. -/
theorem C88_refused_partial {α : Type} [Ua α] [Metered α] (old : α) (g : Nat → Bool) (b : Buf) :
    ((decM old g b).2 = .throws ∨ (decM old g b).2 = dec old b) ∧
      ∀ v b', dec old b = .ok (v, b') → (∀ n, n < b'.tail - b.tail → g n = true) → (decM old g b).2 = .ok (v, b') := by
  have hs : (decM old all b).2 = dec old b := congrFun (same old) b
  constructor
  · rcases (fair old).mild g b with h | h
    · exact Or.inl h
    · exact Or.inr (by rw [h, hs])
  · intro v b' h hg
    have h1 := (fair old).paid all b v b' (by rw [hs, h])
    rw [(fair old).kept g b fun n hn => hg n (by omega), hs, h]

/-- The bytes of a request that names a node to read. -/
def readReqBytes : List UInt8 := wire (Cont.make 631 exampleReadReq)

/-- 73 bytes: fewer than 73 elements are asked for, and an allocator that refuses all larger requests is good enough. -/
example : ∃ b', dec (Ua.init : Cont UaReadReq 631) (Ua.received readReqBytes) = .ok (Cont.make 631 exampleReadReq, b') ∧
    demand (decM (Ua.init : Cont UaReadReq 631)) (Ua.received readReqBytes) < 73 ∧
    (decM (Ua.init : Cont UaReadReq 631) (fun n => decide (n < 73)) (Ua.received readReqBytes)).2 =
      .ok (Cont.make 631 exampleReadReq, b') := by
  have hl : readReqBytes.length = 73 := by decide +kernel
  have h : dec (Ua.init : Cont UaReadReq 631) (Ua.received readReqBytes) =
      .ok (Cont.make 631 exampleReadReq, (Ua.received readReqBytes).skip 73) := by
    rw [← hl]
    refine Lawful.reads (Cont.make 631 exampleReadReq) ?_ _ ?_ ?_
    · exact ⟨⟨trivial, rfl, rfl⟩, exampleReadReq_ok⟩
    · decide +kernel
    · decide +kernel
  have h1 := C88_decoded_partial _ _ _ _ h (by decide)
  have h2 := (C88_refused_partial (Ua.init : Cont UaReadReq 631) (fun n => decide (n < 73)) (Ua.received readReqBytes)).2 _ _ h
    fun n hn => decide_eq_true hn
  exact ⟨_, h, h1.1, h2⟩

/-! ## Lengths that nobody checks -/

/-- When `w` is at the read position, the decoder asks for at least `n` elements. -/
def Asks {α : Type} (m : Meter α) (w : List UInt8) (n : Nat) : Prop :=
  ∀ b : Buf, b.tail + w.length ≤ maxPacketLen → memRead b.packet b.tail w.length = w → n ≤ demand m b

theorem demand_bind {α β : Type} (m : Meter α) (f : α → Meter β) (b : Buf) : demand m b ≤ demand (m >>= f) b := by
  show (m all b).1 ≤ (Meter.next (m all b).1 (fun a => f a all) (m all b).2).1
  cases (m all b).2 with
  | ok p => exact Nat.le_add_right _ _
  | throws => exact Nat.le_refl _
  | abort => exact Nat.le_refl _
  | ub => exact Nat.le_refl _

theorem demand_after {α β : Type} {m : Meter α} {f : α → Meter β} {b b' : Buf} {a : α} (h : erase m b = .ok (a, b')) :
    demand (f a) b' ≤ demand (m >>= f) b := by
  have h : (m all b).2 = .ok (a, b') := h
  show (f a all b').1 ≤ (Meter.next (m all b).1 (fun a => f a all) (m all b).2).1
  rw [h]
  exact Nat.le_add_left _ _

theorem Asks.here {α β : Type} {m : Meter α} {f : α → Meter β} {w : List UInt8} {n : Nat} (h : Asks m w n) :
    Asks (m >>= f) w n :=
  fun b hl hb => Nat.le_trans (h b hl hb) (demand_bind m f b)

theorem Asks.after {α β : Type} {m : Meter α} {f : α → Meter β} {w1 w2 : List UInt8} {a : α} {n : Nat}
    (h1 : Reads (erase m) w1 a) (h2 : Asks (f a) w2 n) : Asks (m >>= f) (w1 ++ w2) n := by
  intro b hl hb
  have := memRead_app hb
  rw [List.length_append] at hl
  refine Nat.le_trans (h2 (b.skip w1.length) (by simp only [Buf.skip]; omega) this.2) (demand_after ?_)
  exact h1 b (by omega) this.1

/-- A field that is read. -/
theorem Asks.field {α β : Type} [Ua α] [Wire α] [Lawful α] [Metered α] (v : α) (hv : Wire.ok v) {f : α → Meter β}
    {w : List UInt8} {n : Nat} (h : Asks (f v) w n) : Asks (decM Ua.init >>= f) (wire v ++ w) n :=
  Asks.after (by rw [same]; exact Lawful.reads v hv) h

theorem asks_ask {α : Type} (n : Nat) (m : Meter α) : Asks (do ask n; m) [] n := by
  intro b _ _
  exact demand_bind (ask n) (fun _ => m) b

/-- The four bytes of a length suffice. -/
theorem asks_length {β : Type} {f : Int32 → Meter β} {n : Nat} (hn : n < 2 ^ 31) (h : Asks (f (Int32.ofNat n)) [] n) :
    Asks (decM (0 : Int32) >>= f) (leBytes 4 n) n := by
  have hr : Reads (erase (decM (0 : Int32))) (leBytes 4 n) (Int32.ofNat n) := by
    rw [same, ← wire_len hn]
    exact Lawful.reads (Int32.ofNat n) trivial
  have := Asks.after hr h
  rwa [List.append_nil] at this

theorem asks_chars {n : Nat} (hn : n < 2 ^ 31) : Asks (readCharsM (Int32.ofNat n)) [] n := by
  obtain ⟨_, h2, h3, _, _⟩ := i32_len hn
  unfold readCharsM
  rw [if_neg h3, h2]
  exact asks_ask n _

theorem asks_str {n : Nat} (old : Str) (hn : n < 2 ^ 31) : Asks (decM old) (leBytes 4 n) n := by
  refine asks_length hn ?_
  obtain ⟨_, _, _, _, h5⟩ := i32_len hn
  rw [if_neg h5]
  exact (asks_chars hn).here

theorem asks_bytes {n : Nat} (old : ByteString) (hn : n < 2 ^ 31) : Asks (decM old) (leBytes 4 n) n := by
  refine asks_length hn ?_
  obtain ⟨_, _, _, _, h5⟩ := i32_len hn
  rw [if_neg h5]
  exact (asks_chars hn).here

theorem asks_list {α : Type} [Ua α] [Metered α] {n : Nat} (old : List α) (hn : n < 2 ^ 31) :
    Asks (decM old) (leBytes 4 n) n := by
  refine asks_length hn ?_
  obtain ⟨_, h2, h3, _, _⟩ := i32_len hn
  rw [if_neg h3, h2]
  exact asks_ask n _

/-- What `ServerConnection::receiveHello` and `UaTcpConnection::receiveHello` decode (ServerConnection.cpp:102-106,
UaTcpConnection.cpp:237-244; the latter for a chunk of any type). -/
def helloM : Meter Unit := do
  let _ ← decM (Ua.init : MessageHeader)
  let _ ← decM (Ua.init : HelloMessage)
  pure ()

theorem erase_helloM : erase helloM = handshakeDec .server := by
  simp only [helloM, erase_bind, erase_pure, same]
  rfl

/-- A Hello of 32 bytes with a length `n` in its last four. -/
def greedyHello (version rx tx size chunks : UInt32) (n : Nat) : List UInt8 :=
  [0x48, 0x45, 0x4C, 0x46, 32, 0, 0, 0] ++ (wire version ++ (wire rx ++ (wire tx ++ (wire size ++ (wire chunks ++
    leBytes 4 n)))))

theorem greedyHello_length (a1 a2 a3 a4 a5 : UInt32) (n : Nat) : (greedyHello a1 a2 a3 a4 a5 n).length = 32 := rfl

/-- Before anything is known about the peer, 32 bytes suffice to make the server ask for any number of characters below
`2 ^ 31`: the connection takes the chunk for a complete Hello and decodes it. -/
theorem C88_hello_violated (a1 a2 a3 a4 a5 : UInt32) (n : Nat) (hn : n < 2 ^ 31) (m : Mem) :
    (greedyHello a1 a2 a3 a4 a5 n).length = 32 ∧
    evaluate ((Buf.create m).received (greedyHello a1 a2 a3 a4 a5 n)) = .ok .done ∧
    isHandshake .server ((Buf.create m).received (greedyHello a1 a2 a3 a4 a5 n)) = true ∧
    n ≤ demand helloM ((Buf.create m).received (greedyHello a1 a2 a3 a4 a5 n)) := by
  have hb : memRead ((Buf.create m).received (greedyHello a1 a2 a3 a4 a5 n)).packet 0 32 = greedyHello a1 a2 a3 a4 a5 n := rfl
  refine ⟨rfl, ?_, rfl, ?_⟩
  · have hz : msgSize ((Buf.create m).received (greedyHello a1 a2 a3 a4 a5 n)) = 32 := by
      show ((0 : UInt8).toUInt32 <<< 24 ||| (0 : UInt8).toUInt32 <<< 16 ||| (0 : UInt8).toUInt32 <<< 8 |||
        (32 : UInt8).toUInt32).toNat = 32
      decide
    have hh : ((Buf.create m).received (greedyHello a1 a2 a3 a4 a5 n)).size = 32 := rfl
    unfold evaluate
    rw [hz, hh]
    rfl
  have hw : Reads (dec (Ua.init : MessageHeader)) [0x48, 0x45, 0x4C, 0x46, 32, 0, 0, 0] ⟨(0x48, 0x45, 0x4C), 0x46, 32⟩ :=
    Lawful.reads (⟨(0x48, 0x45, 0x4C), 0x46, 32⟩ : MessageHeader) (by exact ⟨ok_bytes3 _, trivial, trivial⟩)
  have h : Asks helloM (greedyHello a1 a2 a3 a4 a5 n) n := by
    refine Asks.after (by rw [same]; exact hw) (Asks.here ?_)
    refine Asks.field a1 trivial (Asks.field a2 trivial (Asks.field a3 trivial (Asks.field a4 trivial
      (Asks.field a5 trivial (Asks.here (asks_str _ hn))))))
  refine h _ ?_ ?_
  · show 0 + 32 ≤ 4096
    omega
  · exact hb

/-- Two gigabytes for 32 bytes; an allocator that has not that much throws. -/
example : 2147483647 ≤ demand helloM ((Buf.create fun _ => 0).received (greedyHello 0 65536 65536 0 0 2147483647)) :=
  (C88_hello_violated 0 65536 65536 0 0 2147483647 (by decide) fun _ => 0).2.2.2

example : ((helloM (fun n => decide (n ≤ 1000000000))
    ((Buf.create fun _ => 0).received (greedyHello 0 65536 65536 0 0 2147483647))).2 matches .throws) = true := by
  decide +kernel

/-- The first four bytes behind the channel identifier of an Open chunk: the length of the policy
(UaServerSecureChannel.cpp:45-52 and OpcUaServerSecureChannel.cpp:88-96 decode a `UaSecurityHeader` first). -/
theorem C88_open_violated (n : Nat) (hn : n < 2 ^ 31) : Asks (decM (Ua.init : UaSecurityHeader)) (leBytes 4 n) n :=
  (asks_bytes _ hn).here

/-- The start of a request: type, token, time, handle, diagnostics, and the length `n` of the audit entry. -/
def greedyHeader (ty token : NodeId) (time : DateTime) (handle diag : UInt32) (n : Nat) : List UInt8 :=
  wire (⟨ty, none, none⟩ : ExpandedNodeId) ++ (wire token ++ (wire time ++ (wire handle ++ (wire diag ++ leBytes 4 n))))

theorem asks_header {n : Nat} (hn : n < 2 ^ 31) (token : NodeId) (ht : Wire.ok token) (time : DateTime)
    (handle diag : UInt32) : Asks (decM (Ua.init : UaRequestHeader))
      (wire token ++ (wire time ++ (wire handle ++ (wire diag ++ leBytes 4 n)))) n :=
  Asks.field token ht (Asks.field time trivial (Asks.field handle trivial (Asks.field diag trivial
    (Asks.here (asks_str _ hn)))))

theorem asks_cont {α : Type} [Ua α] [Metered α] {id : UInt32} {ty : NodeId} (hy : Wire.ok ty) {w : List UInt8} {n : Nat}
    (h : Asks (decM (Ua.init : α)) w n) :
    Asks (decM (Ua.init : Cont α id)) (wire (⟨ty, none, none⟩ : ExpandedNodeId) ++ w) n := by
  refine Asks.after (a := ⟨ty, none, none⟩) ?_ (Asks.here h)
  rw [same]
  have h1 := Lawful.reads (⟨ty, none, none⟩ : ExpandedNodeId) ⟨hy, rfl, rfl⟩
  rw [← Cont.dec_eNodeId id] at h1
  exact h1

/-- The header of a request suffices, whatever the request is. -/
theorem C88_request_violated (ty token : NodeId) (hy : Wire.ok ty) (ht : Wire.ok token) (time : DateTime)
    (handle diag : UInt32) (n : Nat) (hn : n < 2 ^ 31) :
    Asks (decM (Ua.init : Cont UaOpenSecureChannelReq 446)) (greedyHeader ty token time handle diag n) n ∧
    Asks (decM (Ua.init : Cont UaCloseSecureChannelReq 452)) (greedyHeader ty token time handle diag n) n ∧
    Asks (decM (Ua.init : Cont UaGetEndpointsReq 428)) (greedyHeader ty token time handle diag n) n ∧
    Asks (decM (Ua.init : Cont UaCreateSessionReq 461)) (greedyHeader ty token time handle diag n) n ∧
    Asks (decM (Ua.init : Cont UaActivateSessionReq 467)) (greedyHeader ty token time handle diag n) n ∧
    Asks (decM (Ua.init : Cont UaCloseSessionReq 473)) (greedyHeader ty token time handle diag n) n ∧
    Asks (decM (Ua.init : Cont UaReadReq 631)) (greedyHeader ty token time handle diag n) n := by
  have h := asks_header hn token ht time handle diag
  exact ⟨asks_cont hy (Asks.here h), asks_cont hy (Asks.here h), asks_cont hy (Asks.here h), asks_cont hy (Asks.here h),
    asks_cont hy (Asks.here h), asks_cont hy (Asks.here h), asks_cont hy (Asks.here h)⟩

/-- 26 bytes of a read request. -/
example : greedyHeader ⟨0, .numeric 631⟩ ⟨0, .numeric 0⟩ ⟨0⟩ 1 0 2147483647 =
    [1, 0, 0x77, 0x02, 0, 0, 0, 0, 0, 0, 0, 0, 0, 0, 1, 0, 0, 0, 0, 0, 0, 0, 0xff, 0xff, 0xff, 0x7f] := by
  decide +kernel

/-- A complete header followed by a number of nodes to read: `std::vector<ReadValueId>::resize`. -/
theorem C88_nodes_violated (ty : NodeId) (hy : Wire.ok ty) (hdr : UaRequestHeader) (hh : Wire.ok hdr) (age : F64)
    (stamps : Int32) (n : Nat) (hn : n < 2 ^ 31) :
    Asks (decM (Ua.init : Cont UaReadReq 631))
      (wire (⟨ty, none, none⟩ : ExpandedNodeId) ++ (wire hdr ++ (wire age ++ (wire stamps ++ leBytes 4 n)))) n :=
  asks_cont hy (Asks.field hdr hh (Asks.field age trivial (Asks.field stamps trivial (Asks.here (asks_list _ hn)))))

end Uscada.Ua
