import Verif.UaStd
import Verif.UaMessagesLaws
/-!
# The decoder accepts all encodings of the standard without null arrays
-/

namespace Uscada.Ua

open Lawful (reads)

/-- Every encoding without null arrays is understood, and `wire` is one. -/
class Accepts (α : Type) [Ua α] [Wire α] [Std α] : Prop where
  acc : ∀ (v : α) (w : List UInt8), std false v w → Reads (dec Ua.init) w v
  canon : ∀ v : α, Wire.ok v → std false v (wire v)

open Accepts (acc canon)

/-! ## Built-in types -/

instance : Accepts Bool where
  acc v w h := by
    obtain ⟨x, rfl, hx⟩ := h
    have := Reads.map (f := fun y : UInt8 => y != 0) (Reads.read x)
    have e : (x != 0) = v := by
      cases v
      · exact bne_eq_false_iff_eq.mpr (Classical.byContradiction fun hn => by simp [hn] at hx)
      · exact bne_iff_ne.mpr (hx.mp rfl)
    rw [e] at this
    exact this
  canon v _ := ⟨if v then 1 else 0, rfl, by cases v <;> decide⟩

instance : Accepts UInt8 where
  acc v w h := by
    have h : w = [v] := h
    rw [h, ← wire_u8]
    exact reads v trivial
  canon v _ := wire_u8 v

instance : Accepts UInt16 := ⟨fun v w h => by rw [show w = wire v from h]; exact reads v trivial, fun _ _ => rfl⟩
instance : Accepts UInt32 := ⟨fun v w h => by rw [show w = wire v from h]; exact reads v trivial, fun _ _ => rfl⟩
instance : Accepts Int32 := ⟨fun v w h => by rw [show w = wire v from h]; exact reads v trivial, fun _ _ => rfl⟩
instance : Accepts F64 := ⟨fun v w h => by rw [show w = wire v from h]; exact reads v trivial, fun _ _ => rfl⟩
instance : Accepts DateTime := ⟨fun v w h => by rw [show w = wire v from h]; exact reads v trivial, fun _ _ => rfl⟩
instance : Accepts Guid := ⟨fun v w h => by rw [show w = wire v from h]; exact reads v trivial, fun _ _ => rfl⟩

/-- A string of length 0. -/
theorem reads_len0 {α : Type} {f : List UInt8 → α} {x : α} : Reads (do
    let len ← dec (0 : Int32)
    if len = -1 then Pure.pure x else do
      let bytes ← readChars len
      Pure.pure (f bytes)) (leBytes 4 0 ++ []) (f []) := by
  have h0 : leBytes 4 0 = wire (0 : Int32) := by decide
  rw [h0]
  refine Reads.bind (reads (0 : Int32) trivial) ?_
  rw [if_neg (by decide)]
  have := Reads.map (f := f) (Reads.readChars (l := []) (by decide))
  exact this

theorem stdBytes_cases {b w : List UInt8} (h : stdBytes b w) : w = lenBytes b ∨ b = [] ∧ w = leBytes 4 0 ++ [] := by
  obtain ⟨_, h | ⟨h1, h2⟩⟩ := h
  · by_cases hb : b = []
    · rw [hb] at h
      exact .inr ⟨hb, h⟩
    · rw [lenBytes, if_neg hb]
      exact .inl h
  · rw [lenBytes, if_pos h1]
    exact .inl h2

theorem stdBytes_len {b : List UInt8} (h : b.length < 2 ^ 31) : stdBytes b (lenBytes b) := by
  refine ⟨h, ?_⟩
  unfold lenBytes
  split
  · exact .inr ⟨‹_›, rfl⟩
  · exact .inl rfl

instance : Accepts Str where
  acc v w h := by
    rcases stdBytes_cases h with h1 | ⟨h1, h2⟩
    · rw [h1]
      exact reads v h.1
    · obtain ⟨b⟩ := v
      have h1 : b = [] := h1
      subst h1
      rw [h2]
      exact reads_len0 (f := Str.mk)
  canon _ h := stdBytes_len h

instance : Accepts ByteString where
  acc v w h := by
    rcases stdBytes_cases h with h1 | ⟨h1, h2⟩
    · rw [h1]
      exact reads v h.1
    · obtain ⟨b⟩ := v
      have h1 : b = [] := h1
      subst h1
      rw [h2]
      exact reads_len0 (f := ByteString.mk)
  canon _ h := stdBytes_len h

section
variable {α : Type} [Ua α] [Wire α] [Std α] [Accepts α]

theorem acc_elems (l : List α) {w : List UInt8} (h : stdElems false l w) : Reads (decElems (List.replicate l.length (Ua.init : α))) w l := by
  induction l generalizing w with
  | nil =>
    have h : w = [] := h
    rw [h]
    exact Reads.pure _
  | cons x xs ih =>
    obtain ⟨a, b, h1, h2, rfl⟩ := h
    exact Reads.bind (acc _ _ h1) (Reads.map (f := fun ys => x :: ys) (ih h2))

theorem canon_elems (l : List α) (h : ∀ x ∈ l, Wire.ok x) : stdElems false l (l.flatMap wire) := by
  induction l with
  | nil => rfl
  | cons x xs ih =>
    rw [List.flatMap_cons]
    exact ⟨_, _, canon x (h x List.mem_cons_self), ih fun y hy => h y (List.mem_cons_of_mem _ hy), rfl⟩

instance : Accepts (List α) where
  acc v w h := by
    obtain ⟨hl, ⟨a, b, ha, hb, rfl⟩ | ⟨hn, _⟩⟩ := h
    · show Reads (do
        let n ← dec (0 : Int32)
        if n < 0 then Codec.throws else decElems (resizeTo ([] : List α) n.toInt.toNat)) (a ++ b) v
      have ha : a = leBytes 4 v.length := ha
      rw [ha, ← wire_len hl]
      refine Reads.bind (reads _ trivial) ?_
      obtain ⟨_, h2, h3, _, _⟩ := i32_len hl
      rw [if_neg h3, h2]
      have : resizeTo ([] : List α) v.length = List.replicate v.length (Ua.init : α) := by
        simp [resizeTo]
      rw [this]
      exact acc_elems v hb
    · cases hn
  canon v h := ⟨h.1, .inl ⟨_, _, rfl, canon_elems v h.2, rfl⟩⟩

theorem acc_opt (o : Option α) {w : List UInt8} (h : stdOpt false o w) : Reads (decIf o.isSome (none : Option α)) w o := by
  cases o with
  | none =>
    have h : w = [] := h
    rw [h]
    exact Reads.pure _
  | some x => exact Reads.map (f := some) (acc x w h)

theorem canon_opt (o : Option α) (h : optOk o) : stdOpt false o (optWire o) := by
  cases o with
  | none => rfl
  | some x => exact canon x h
end

/-! ## Node identifiers -/

theorem acc_nodeId {v : NodeId} {x : UInt8} {xs : List UInt8} (h : StdNodeId v x xs) :
    x.toNat < 6 ∧ Reads (NodeId.decodeBody Ua.init x.toNat) xs v := by
  cases h with
  | two i h =>
    refine ⟨by decide, ?_⟩
    have r := reads i.toUInt8 trivial
    have e : wire i.toUInt8 = leBytes 1 i.toNat := by
      show leBytes 1 _ = _
      rw [UInt32.toNat_toUInt8, Nat.mod_eq_of_lt h]
    rw [e] at r
    have := Reads.map (f := fun x : UInt8 => (⟨0, .numeric x.toUInt32⟩ : NodeId)) r
    have e2 : i.toUInt8.toUInt32 = i := UInt32.toNat_inj.1 (by simp; omega)
    simp only [e2] at this
    exact this
  | four ns i h hi =>
    refine ⟨by decide, ?_⟩
    have a := reads ns.toUInt8 trivial
    have b := reads i.toUInt16 trivial
    have : wire i.toUInt16 = leBytes 2 i.toNat := by
      show leBytes 2 _ = _
      rw [UInt32.toNat_toUInt16, Nat.mod_eq_of_lt hi]
    rw [this] at b
    have : wire ns.toUInt8 = leBytes 1 ns.toNat := by
      show leBytes 1 _ = _
      rw [UInt16.toNat_toUInt8, Nat.mod_eq_of_lt h]
    rw [this] at a
    have e2 : i.toUInt16.toUInt32 = i := UInt32.toNat_inj.1 (by simp; omega)
    have e3 : ns.toUInt8.toUInt16 = ns := UInt16.toNat_inj.1 (by simp; omega)
    have m := Reads.map (f := fun x : UInt16 => (⟨ns.toUInt8.toUInt16, .numeric x.toUInt32⟩ : NodeId)) b
    refine Reads.bind a ?_
    simp only [e2, e3] at m ⊢
    exact m
  | numeric ns i =>
    exact ⟨by decide, Reads.bind (reads ns trivial) (Reads.map (f := fun x : UInt32 => (⟨ns, .numeric x⟩ : NodeId)) (reads i trivial))⟩
  | string ns s w h =>
    exact ⟨by decide, Reads.bind (reads ns trivial) (Reads.map (f := fun x => (⟨ns, .string x⟩ : NodeId)) (acc s w h))⟩
  | guid ns g =>
    exact ⟨by decide, Reads.bind (reads ns trivial) (Reads.map (f := fun x => (⟨ns, .guid x⟩ : NodeId)) (reads g trivial))⟩
  | «opaque» ns o w h =>
    exact ⟨by decide, Reads.bind (reads ns trivial) (Reads.map (f := fun x => (⟨ns, .opaque x⟩ : NodeId)) (acc o w h))⟩

theorem canon_nodeId (v : NodeId) (h : Wire.ok v) : ∃ x xs, StdNodeId v x xs ∧ wire v = x :: xs := by
  obtain ⟨ns, val⟩ := v
  cases val with
  | numeric i =>
    simp only [wire]
    split
    next h0 =>
      have e3 : ns = 0 := UInt16.toNat_inj.1 h0.1
      rw [e3]
      exact ⟨_, _, .two i h0.2, rfl⟩
    next h0 =>
      split
      next h1 => exact ⟨_, _, .four ns i h1.1 h1.2, rfl⟩
      next h1 => exact ⟨_, _, .numeric ns i, rfl⟩
  | string s => exact ⟨_, _, .string ns s _ (stdBytes_len h), rfl⟩
  | guid g => exact ⟨_, _, .guid ns g, rfl⟩
  | «opaque» o => exact ⟨_, _, .opaque ns o _ (stdBytes_len h), rfl⟩

instance : Accepts NodeId where
  acc v w h := by
    obtain ⟨x, xs, h, rfl⟩ := h
    obtain ⟨hx, hr⟩ := acc_nodeId h
    show Reads (NodeId.decode _) _ _
    refine Reads.byte ?_
    rw [small_low hx]
    exact hr
  canon := canon_nodeId

instance : Accepts ExpandedNodeId where
  acc v w h := by
    obtain ⟨x, xs, a, h, ⟨b, c, hb, hc, rfl⟩, rfl⟩ := h
    obtain ⟨n, u, s⟩ := v
    obtain ⟨hx, hr⟩ := acc_nodeId h
    obtain ⟨f1, f2, f3⟩ := bw_flag_bits x.toNat hx u.isSome s.isSome
    show Reads _ (UInt8.ofNat (x.toNat + bw u.isSome 0x80 + bw s.isSome 0x40) :: (xs ++ (b ++ c))) _
    intro buf hl hbuf
    have hp : buf.packet buf.tail = UInt8.ofNat (x.toNat + bw u.isSome 0x80 + bw s.isSome 0x40) := by
      rw [List.length_cons, memRead, List.range_succ_eq_map] at hbuf
      simp only [List.map_cons, Nat.add_zero] at hbuf
      exact (List.cons.inj hbuf).1
    have hlt : buf.tail < maxPacketLen := by
      simp only [List.length_cons] at hl
      omega
    have hpk : peek buf = .ok (UInt8.ofNat (x.toNat + bw u.isSome 0x80 + bw s.isSome 0x40), buf) := by
      simp only [peek, if_pos hlt, hp]
    show ExpandedNodeId.decode _ buf = _
    simp only [ExpandedNodeId.decode]
    rw [Codec.bind_run, hpk]
    simp only [Exec.ok_bind, f1, f2]
    have hn : Reads (dec (Ua.init : NodeId)) (UInt8.ofNat (x.toNat + bw u.isSome 0x80 + bw s.isSome 0x40) :: xs) n := by
      show Reads (NodeId.decode _) _ _
      refine Reads.byte ?_
      rw [f3]
      exact hr
    have hall := Reads.bind (f := fun nodeId => do
        let namespaceUri ← decIf u.isSome (none : Option Str)
        let serverIndex ← decIf s.isSome (none : Option UInt32)
        Pure.pure (⟨nodeId, namespaceUri, serverIndex⟩ : ExpandedNodeId)) hn
      (Reads.bind (acc_opt u hb) (Reads.map (f := fun x => (⟨n, u, x⟩ : ExpandedNodeId)) (acc_opt s hc)))
    exact hall buf hl hbuf
  canon v h := by
    obtain ⟨n, u, s⟩ := v
    obtain ⟨h1, h2, h3⟩ := h
    have h2 : u = none := h2
    have h3 : s = none := h3
    subst h2 h3
    obtain ⟨x, xs, hn, hw⟩ := canon_nodeId n h1
    refine ⟨x, xs, [], hn, ⟨[], [], rfl, rfl, rfl⟩, ?_⟩
    show (match wire n with
      | [] => []
      | x :: xs => UInt8.ofNat (x.toNat + flag (none : Option Str) 0x80 + flag (none : Option UInt32) 0x40) :: (xs ++ (optWire (none : Option Str) ++ optWire (none : Option UInt32)))) = _
    rw [hw]
    rfl

/-! ## Structures with optional fields -/

instance : Accepts QualifiedName where
  acc v w h := by
    obtain ⟨a, b, h1, h2, rfl⟩ := h
    exact Reads.bind (acc _ _ h1) (Reads.map (f := fun x => (⟨v.namespaceIndex, x⟩ : QualifiedName)) (acc _ _ h2))
  canon v h := ⟨_, _, canon v.namespaceIndex trivial, canon v.name h, rfl⟩

theorem bit_flags : ∀ a b : Bool, bit (UInt8.ofNat (bw a 1 + bw b 2)) 0x1 = a ∧ bit (UInt8.ofNat (bw a 1 + bw b 2)) 0x2 = b := by
  decide

instance : Accepts LocalizedText where
  acc v w h := by
    obtain ⟨m, b, hm, ⟨c, d, h1, h2, rfl⟩, rfl⟩ := h
    have hm : m = [UInt8.ofNat (bw v.locale.isSome 1 + bw v.text.isSome 2)] := hm
    rw [hm, List.singleton_append]
    refine Reads.byte ?_
    obtain ⟨b1, b2⟩ := bit_flags v.locale.isSome v.text.isSome
    simp only [b1, b2]
    exact Reads.bind (acc_opt v.locale h1) (Reads.map (f := fun x => (⟨v.locale, x⟩ : LocalizedText)) (acc_opt v.text h2))
  canon v h := ⟨_, _, rfl, ⟨_, _, canon_opt _ h.1, canon_opt _ h.2.1, rfl⟩, rfl⟩

instance : Accepts ExtensionObject where
  acc v w h := by
    obtain ⟨a, b, h1, h2, rfl⟩ := h
    obtain ⟨nid, bs⟩ := v
    refine Reads.bind (acc nid a h1) ?_
    cases bs with
    | none =>
      have h2 : b = [0] := h2
      rw [h2]
      exact Reads.byte (x := 0) (Reads.map (f := fun x => (⟨nid, x⟩ : ExtensionObject)) (Reads.pure none))
    | some s =>
      obtain ⟨c, d, h3, h4, rfl⟩ := h2
      rcases h3 with rfl | rfl <;>
      exact Reads.byte (Reads.map (f := fun x => (⟨nid, x⟩ : ExtensionObject)) (Reads.map (f := some) (acc s d h4)))
  canon v h := by
    obtain ⟨nid, bs⟩ := v
    obtain ⟨h1, h2, h3⟩ := h
    cases bs with
    | none => exact ⟨_, _, canon nid h1, rfl, rfl⟩
    | some s => exact ⟨_, _, canon nid h1, ⟨_, _, .inl rfl, canon s h2, rfl⟩, rfl⟩

/-! ## Messages -/

instance : Accepts HelloMessage where
  acc v w h := by
    obtain ⟨a1, b1, h1, ⟨a2, b2, h2, ⟨a3, b3, h3, ⟨a4, b4, h4, ⟨a5, b5, h5, h6, rfl⟩, rfl⟩, rfl⟩, rfl⟩, rfl⟩ := h
    exact Reads.bind (acc _ _ h1) (Reads.bind (acc _ _ h2) (Reads.bind (acc _ _ h3) (Reads.bind (acc _ _ h4) (Reads.bind (acc _ _ h5)
      (Reads.map (f := fun x => (⟨v.protocolVersion, v.receiveBufferSize, v.sendBufferSize, v.maxMessageSize, v.maxChunkCount, x⟩ :
      HelloMessage)) (acc _ _ h6))))))
  canon v h := ⟨_, _, canon _ h.1, ⟨_, _, canon _ h.2.1, ⟨_, _, canon _ h.2.2.1, ⟨_, _, canon _ h.2.2.2.1, ⟨_, _, canon _ h.2.2.2.2.1, canon
    _ h.2.2.2.2.2, rfl⟩, rfl⟩, rfl⟩, rfl⟩, rfl⟩

instance : Accepts UaSecurityHeader where
  acc v w h := by
    obtain ⟨a1, b1, h1, ⟨a2, b2, h2, h3, rfl⟩, rfl⟩ := h
    exact Reads.bind (acc _ _ h1) (Reads.bind (acc _ _ h2) (Reads.map (f := fun x => (⟨v.securityPolicyUri, v.senderCertificate, x⟩ :
      UaSecurityHeader)) (acc _ _ h3)))
  canon v h := ⟨_, _, canon _ h.1, ⟨_, _, canon _ h.2.1, canon _ h.2.2, rfl⟩, rfl⟩

instance : Accepts UaSecurityTokenHeader where
  acc _ _ h := Reads.map (f := fun x => (⟨x⟩ : UaSecurityTokenHeader)) (acc _ _ h)
  canon v h := canon v.tokenId h

instance : Accepts UaSequenceHeader where
  acc v w h := by
    obtain ⟨a1, b1, h1, h2, rfl⟩ := h
    exact Reads.bind (acc _ _ h1) (Reads.map (f := fun x => (⟨v.sequenceNumber, x⟩ : UaSequenceHeader)) (acc _ _ h2))
  canon v h := ⟨_, _, canon _ h.1, canon _ h.2, rfl⟩

instance : Accepts UaRequestHeader where
  acc v w h := by
    obtain ⟨a1, b1, h1, ⟨a2, b2, h2, ⟨a3, b3, h3, ⟨a4, b4, h4, ⟨a5, b5, h5, ⟨a6, b6, h6, h7, rfl⟩, rfl⟩, rfl⟩, rfl⟩, rfl⟩, rfl⟩ := h
    exact Reads.bind (acc _ _ h1) (Reads.bind (acc _ _ h2) (Reads.bind (acc _ _ h3) (Reads.bind (acc _ _ h4) (Reads.bind (acc _ _ h5)
      (Reads.bind (acc _ _ h6) (Reads.map (f := fun x => (⟨v.authentificationToken, v.timestamp, v.requestHandle, v.returnDignostics,
      v.auditEntityId, v.timeoutHint, x⟩ : UaRequestHeader)) (acc _ _ h7)))))))
  canon v h := ⟨_, _, canon _ h.1, ⟨_, _, canon _ h.2.1, ⟨_, _, canon _ h.2.2.1, ⟨_, _, canon _ h.2.2.2.1, ⟨_, _, canon _ h.2.2.2.2.1, ⟨_,
    _, canon _ h.2.2.2.2.2.1, canon _ h.2.2.2.2.2.2, rfl⟩, rfl⟩, rfl⟩, rfl⟩, rfl⟩, rfl⟩

instance : Accepts UaOpenSecureChannelReq where
  acc v w h := by
    obtain ⟨a1, b1, h1, ⟨a2, b2, h2, ⟨a3, b3, h3, ⟨a4, b4, h4, ⟨a5, b5, h5, h6, rfl⟩, rfl⟩, rfl⟩, rfl⟩, rfl⟩ := h
    exact Reads.bind (acc _ _ h1) (Reads.bind (acc _ _ h2) (Reads.bind (acc _ _ h3) (Reads.bind (acc _ _ h4) (Reads.bind (acc _ _ h5)
      (Reads.map (f := fun x => (⟨v.requestHdr, v.clientProtocolVer, v.securityTokenRequestType, v.securityMode, v.clientNonce, x⟩ :
      UaOpenSecureChannelReq)) (acc _ _ h6))))))
  canon v h := ⟨_, _, canon _ h.1, ⟨_, _, canon _ h.2.1, ⟨_, _, canon _ h.2.2.1, ⟨_, _, canon _ h.2.2.2.1, ⟨_, _, canon _ h.2.2.2.2.1, canon
    _ h.2.2.2.2.2, rfl⟩, rfl⟩, rfl⟩, rfl⟩, rfl⟩

instance : Accepts UaCloseSecureChannelReq where
  acc _ _ h := Reads.map (f := fun x => (⟨x⟩ : UaCloseSecureChannelReq)) (acc _ _ h)
  canon v h := canon v.requestHdr h

instance : Accepts UaGetEndpointsReq where
  acc v w h := by
    obtain ⟨a1, b1, h1, ⟨a2, b2, h2, ⟨a3, b3, h3, h4, rfl⟩, rfl⟩, rfl⟩ := h
    exact Reads.bind (acc _ _ h1) (Reads.bind (acc _ _ h2) (Reads.bind (acc _ _ h3) (Reads.map (f := fun x => (⟨v.requestHdr, v.endpointUrl,
      v.localeIds, x⟩ : UaGetEndpointsReq)) (acc _ _ h4))))
  canon v h := ⟨_, _, canon _ h.1, ⟨_, _, canon _ h.2.1, ⟨_, _, canon _ h.2.2.1, canon _ h.2.2.2, rfl⟩, rfl⟩, rfl⟩

instance : Accepts UaApplicationDescription where
  acc v w h := by
    obtain ⟨a1, b1, h1, ⟨a2, b2, h2, ⟨a3, b3, h3, ⟨a4, b4, h4, ⟨a5, b5, h5, ⟨a6, b6, h6, h7, rfl⟩, rfl⟩, rfl⟩, rfl⟩, rfl⟩, rfl⟩ := h
    exact Reads.bind (acc _ _ h1) (Reads.bind (acc _ _ h2) (Reads.bind (acc _ _ h3) (Reads.bind (acc _ _ h4) (Reads.bind (acc _ _ h5)
      (Reads.bind (acc _ _ h6) (Reads.map (f := fun x => (⟨v.applicationUri, v.productUri, v.applicationName, v.applicationType,
      v.gatewayServerUri, v.discoveryProfileUri, x⟩ : UaApplicationDescription)) (acc _ _ h7)))))))
  canon v h := ⟨_, _, canon _ h.1, ⟨_, _, canon _ h.2.1, ⟨_, _, canon _ h.2.2.1, ⟨_, _, canon _ h.2.2.2.1, ⟨_, _, canon _ h.2.2.2.2.1, ⟨_,
    _, canon _ h.2.2.2.2.2.1, canon _ h.2.2.2.2.2.2, rfl⟩, rfl⟩, rfl⟩, rfl⟩, rfl⟩, rfl⟩

instance : Accepts UaCreateSessionReq where
  acc v w h := by
    obtain ⟨a1, b1, h1, ⟨a2, b2, h2, ⟨a3, b3, h3, ⟨a4, b4, h4, ⟨a5, b5, h5, ⟨a6, b6, h6, ⟨a7, b7, h7, ⟨a8, b8, h8, h9, rfl⟩, rfl⟩, rfl⟩, rfl⟩, rfl⟩, rfl⟩, rfl⟩, rfl⟩ := h
    exact Reads.bind (acc _ _ h1) (Reads.bind (acc _ _ h2) (Reads.bind (acc _ _ h3) (Reads.bind (acc _ _ h4) (Reads.bind (acc _ _ h5)
      (Reads.bind (acc _ _ h6) (Reads.bind (acc _ _ h7) (Reads.bind (acc _ _ h8) (Reads.map (f := fun x => (⟨v.requestHdr,
      v.clientDescription, v.serverUri, v.endpointUrl, v.sessionName, v.clientNonce, v.clientCertificate, v.requestedSessionTimeout, x⟩ :
      UaCreateSessionReq)) (acc _ _ h9)))))))))
  canon v h := ⟨_, _, canon _ h.1, ⟨_, _, canon _ h.2.1, ⟨_, _, canon _ h.2.2.1, ⟨_, _, canon _ h.2.2.2.1, ⟨_, _, canon _ h.2.2.2.2.1, ⟨_,
    _, canon _ h.2.2.2.2.2.1, ⟨_, _, canon _ h.2.2.2.2.2.2.1, ⟨_, _, canon _ h.2.2.2.2.2.2.2.1, canon _ h.2.2.2.2.2.2.2.2, rfl⟩, rfl⟩, rfl⟩,
    rfl⟩, rfl⟩, rfl⟩, rfl⟩, rfl⟩

instance : Accepts UaSignatureData where
  acc v w h := by
    obtain ⟨a1, b1, h1, h2, rfl⟩ := h
    exact Reads.bind (acc _ _ h1) (Reads.map (f := fun x => (⟨v.algorithm, x⟩ : UaSignatureData)) (acc _ _ h2))
  canon v h := ⟨_, _, canon _ h.1, canon _ h.2, rfl⟩

instance : Accepts UaCloseSessionReq where
  acc v w h := by
    obtain ⟨a1, b1, h1, h2, rfl⟩ := h
    exact Reads.bind (acc _ _ h1) (Reads.map (f := fun x => (⟨v.requestHdr, x⟩ : UaCloseSessionReq)) (acc _ _ h2))
  canon v h := ⟨_, _, canon _ h.1, canon _ h.2, rfl⟩

instance : Accepts UaActivateSessionReq where
  acc v w h := by
    obtain ⟨a1, b1, h1, ⟨a2, b2, h2, ⟨a3, b3, h3, ⟨a4, b4, h4, ⟨a5, b5, h5, h6, rfl⟩, rfl⟩, rfl⟩, rfl⟩, rfl⟩ := h
    exact Reads.bind (acc _ _ h1) (Reads.bind (acc _ _ h2) (Reads.bind (acc _ _ h3) (Reads.bind (acc _ _ h4) (Reads.bind (acc _ _ h5)
      (Reads.map (f := fun x => (⟨v.requestHdr, v.clientSignature, v.clientSoftwareCertificates, v.localeIds, v.userIdentityToken, x⟩ :
      UaActivateSessionReq)) (acc _ _ h6))))))
  canon v h := ⟨_, _, canon _ h.1, ⟨_, _, canon _ h.2.1, ⟨_, _, canon _ h.2.2.1, ⟨_, _, canon _ h.2.2.2.1, ⟨_, _, canon _ h.2.2.2.2.1, canon
    _ h.2.2.2.2.2, rfl⟩, rfl⟩, rfl⟩, rfl⟩, rfl⟩

instance : Accepts ReadValueId where
  acc v w h := by
    obtain ⟨a1, b1, h1, ⟨a2, b2, h2, ⟨a3, b3, h3, h4, rfl⟩, rfl⟩, rfl⟩ := h
    exact Reads.bind (acc _ _ h1) (Reads.bind (acc _ _ h2) (Reads.bind (acc _ _ h3) (Reads.map (f := fun x => (⟨v.nodeId, v.attributeId,
      v.indexRange, x⟩ : ReadValueId)) (acc _ _ h4))))
  canon v h := ⟨_, _, canon _ h.1, ⟨_, _, canon _ h.2.1, ⟨_, _, canon _ h.2.2.1, canon _ h.2.2.2, rfl⟩, rfl⟩, rfl⟩

instance : Accepts UaReadReq where
  acc v w h := by
    obtain ⟨a1, b1, h1, ⟨a2, b2, h2, ⟨a3, b3, h3, h4, rfl⟩, rfl⟩, rfl⟩ := h
    exact Reads.bind (acc _ _ h1) (Reads.bind (acc _ _ h2) (Reads.bind (acc _ _ h3) (Reads.map (f := fun x => (⟨v.requestHdr, v.maxAge,
      v.timestampsToReturn, x⟩ : UaReadReq)) (acc _ _ h4))))
  canon v h := ⟨_, _, canon _ h.1, ⟨_, _, canon _ h.2.1, ⟨_, _, canon _ h.2.2.1, canon _ h.2.2.2, rfl⟩, rfl⟩, rfl⟩

instance {α : Type} [Ua α] [Wire α] [Std α] [Accepts α] {id : UInt32} : Accepts (Cont α id) where
  acc v w h := by
    obtain ⟨a, b, h1, h2, rfl⟩ := h
    exact Reads.bind (acc v.eNodeId a h1) (Reads.map (f := fun x => (⟨v.eNodeId, x⟩ : Cont α id)) (acc v.msg b h2))
  canon v h := ⟨_, _, canon _ h.1, canon _ h.2, rfl⟩

end Uscada.Ua
