import Verif.UaCodecLemmas
/-!
# The compound built-in types follow their wire format
-/

namespace Uscada.Ua

open Lawful (writes reads)

instance {α β : Type} [Ua α] [Ua β] [Wire α] [Wire β] [Lawful α] [Lawful β] : Lawful (α × β) where
  writes v h := Writes.bind (writes v.1 h.1) (writes v.2 h.2)
  reads v h := Reads.bind (reads v.1 h.1) (Reads.map (f := fun b => (v.1, b)) (reads v.2 h.2))

theorem ok_bytes8 (v : Bytes8) : Wire.ok v :=
  ⟨⟨trivial, trivial, trivial, trivial⟩, trivial, trivial, trivial, trivial⟩

theorem ok_bytes3 (v : Bytes3) : Wire.ok v := ⟨trivial, trivial, trivial⟩

instance : Lawful Guid where
  writes v _ := Writes.bind (writes v.data1 trivial) (Writes.bind (writes v.data2 trivial)
    (Writes.bind (writes v.data3 trivial) (writes v.data4 (ok_bytes8 _))))
  reads v _ := Reads.bind (reads v.data1 trivial) (Reads.bind (reads v.data2 trivial)
    (Reads.bind (reads v.data3 trivial)
      (Reads.map (f := fun d => (⟨v.data1, v.data2, v.data3, d⟩ : Guid))
        (reads v.data4 (ok_bytes8 _)))))

/-! ## Strings -/

theorem i32_len {n : Nat} (h : n < 2 ^ 31) :
    (Int32.ofNat n).toUInt32.toNat = n ∧ (Int32.ofNat n).toInt.toNat = n ∧ ¬ Int32.ofNat n < 0 ∧
      (Int32.ofNat n = 0 ↔ n = 0) ∧ Int32.ofNat n ≠ -1 := by
  have h1 : (Int32.ofNat n).toInt = n := Int32.toInt_ofNat_of_lt h
  have h2 : (Int32.ofNat n).toUInt32.toNat = n := by
    show (UInt32.ofNat n).toNat = n
    simp
    omega
  refine ⟨h2, by omega, ?_, ?_, ?_⟩
  · rw [Int32.lt_iff_toInt_lt, h1]
    simp
  · rw [← Int32.toInt_inj, h1]
    simp
  · rw [Ne, ← Int32.toInt_inj, h1]
    simp

theorem wire_len {n : Nat} (h : n < 2 ^ 31) : wire (Int32.ofNat n) = leBytes 4 n := by
  show leBytes 4 _ = _
  rw [(i32_len h).1]

theorem Reads.readChars {l : List UInt8} (h : l.length < 2 ^ 31) :
    Reads (readChars (Int32.ofNat l.length)) l l := by
  obtain ⟨_, h2, h3, _, _⟩ := i32_len h
  simp only [Ua.readChars, if_neg h3, h2]
  exact Reads.readN l

theorem Writes.writeChars {l : List UInt8} (h : l.length < 2 ^ 31) :
    Writes (writeChars (Int32.ofNat l.length) l) l := by
  obtain ⟨_, h2, h3, _, _⟩ := i32_len h
  simp only [Ua.writeChars, h2, List.take_length]
  exact Writes.writeL l

theorem wire_m1 : wire (-1 : Int32) = [0xff, 0xff, 0xff, 0xff] := by decide

instance : Lawful Str where
  writes v h := by
    have h : v.bytes.length < 2 ^ 31 := h
    have hl := i32_len h
    show Writes (if Int32.ofNat v.bytes.length = 0 then enc (-1 : Int32) else do
      enc (Int32.ofNat v.bytes.length); writeChars (Int32.ofNat v.bytes.length) v.bytes)
      (lenBytes v.bytes)
    by_cases h0 : v.bytes = []
    · rw [if_pos (hl.2.2.2.1.2 (by simp [h0])), lenBytes, if_pos h0, ← wire_m1]
      exact writes _ trivial
    · rw [if_neg (fun hc => h0 (List.length_eq_zero_iff.1 (hl.2.2.2.1.1 hc))), lenBytes, if_neg h0,
        ← wire_len h]
      exact Writes.bind (writes _ trivial) (Writes.writeChars h)
  reads v h := by
    have h : v.bytes.length < 2 ^ 31 := h
    have hl := i32_len h
    show Reads (do
      let len ← dec (0 : Int32)
      if len = -1 then Pure.pure (⟨[]⟩ : Str) else do
        let bytes ← Ua.readChars len
        Pure.pure ⟨bytes⟩) (lenBytes v.bytes) v
    by_cases h0 : v.bytes = []
    · rw [lenBytes, if_pos h0, ← wire_m1, ← List.append_nil (wire (-1 : Int32))]
      refine Reads.bind (reads (-1 : Int32) trivial) ?_
      rw [if_pos rfl]
      have e : v = ⟨[]⟩ := by cases v; exact congrArg _ h0
      rw [e]
      exact Reads.pure _
    · rw [lenBytes, if_neg h0, ← wire_len h]
      refine Reads.bind (reads _ trivial) ?_
      rw [if_neg hl.2.2.2.2]
      exact Reads.map (f := Str.mk) (Reads.readChars h)

instance : Lawful ByteString where
  writes v h := by
    have h : v.bytes.length < 2 ^ 31 := h
    have hl := i32_len h
    show Writes (if Int32.ofNat v.bytes.length = 0 then enc (-1 : Int32) else do
      enc (Int32.ofNat v.bytes.length); writeChars (Int32.ofNat v.bytes.length) v.bytes)
      (lenBytes v.bytes)
    by_cases h0 : v.bytes = []
    · rw [if_pos (hl.2.2.2.1.2 (by simp [h0])), lenBytes, if_pos h0, ← wire_m1]
      exact writes _ trivial
    · rw [if_neg (fun hc => h0 (List.length_eq_zero_iff.1 (hl.2.2.2.1.1 hc))), lenBytes, if_neg h0,
        ← wire_len h]
      exact Writes.bind (writes _ trivial) (Writes.writeChars h)
  reads v h := by
    have h : v.bytes.length < 2 ^ 31 := h
    have hl := i32_len h
    show Reads (do
      let len ← dec (0 : Int32)
      if len = -1 then Pure.pure (⟨[]⟩ : ByteString) else do
        let bytes ← Ua.readChars len
        Pure.pure ⟨bytes⟩) (lenBytes v.bytes) v
    by_cases h0 : v.bytes = []
    · rw [lenBytes, if_pos h0, ← wire_m1, ← List.append_nil (wire (-1 : Int32))]
      refine Reads.bind (reads (-1 : Int32) trivial) ?_
      rw [if_pos rfl]
      have e : v = ⟨[]⟩ := by cases v; exact congrArg _ h0
      rw [e]
      exact Reads.pure _
    · rw [lenBytes, if_neg h0, ← wire_len h]
      refine Reads.bind (reads _ trivial) ?_
      rw [if_neg hl.2.2.2.2]
      exact Reads.map (f := ByteString.mk) (Reads.readChars h)

/-! ## Arrays -/

section
variable {α : Type} [Ua α] [Wire α] [Lawful α]

theorem Writes.elems (l : List α) (h : ∀ x ∈ l, Wire.ok x) :
    Writes (encElems l) (l.flatMap wire) := by
  induction l with
  | nil => exact Writes.nil
  | cons x xs ih =>
    rw [List.flatMap_cons]
    exact Writes.bind (writes x (h x (by simp))) (ih fun y hy => h y (by simp [hy]))

theorem Reads.elems (l : List α) (h : ∀ x ∈ l, Wire.ok x) :
    Reads (decElems (List.replicate l.length (Ua.init : α))) (l.flatMap wire) l := by
  induction l with
  | nil => exact Reads.pure _
  | cons x xs ih =>
    rw [List.flatMap_cons]
    exact Reads.bind (reads x (h x (by simp)))
      (Reads.map (f := fun ys => x :: ys) (ih fun y hy => h y (by simp [hy])))

instance : Lawful (List α) where
  writes v h := by
    have hl : v.length < 2 ^ 31 := h.1
    show Writes (do enc (Int32.ofNat v.length); encElems v) (leBytes 4 v.length ++ v.flatMap wire)
    rw [← wire_len hl]
    exact Writes.bind (writes _ trivial) (Writes.elems v h.2)
  reads v h := by
    have hl : v.length < 2 ^ 31 := h.1
    show Reads (do
      let n ← dec (0 : Int32)
      if n < 0 then Codec.throws else decElems (resizeTo ([] : List α) n.toInt.toNat))
      (leBytes 4 v.length ++ v.flatMap wire) v
    rw [← wire_len hl]
    refine Reads.bind (reads _ trivial) ?_
    obtain ⟨_, h2, h3, _, _⟩ := i32_len hl
    rw [if_neg h3, h2]
    have : resizeTo ([] : List α) v.length = List.replicate v.length (Ua.init : α) := by
      simp [resizeTo]
    rw [this]
    exact Reads.elems v h.2
end

/-! ## Node identifiers -/

theorem u8_of (n : Nat) (h : n < 256) : (UInt8.ofNat n).toNat = n := by simp; omega

theorem wire_u8 (v : UInt8) : wire v = [v] := by
  show leBytes 1 v.toNat = [v]
  simp [leBytes]

/-- A decoder that starts with a byte. -/
theorem Reads.byte {β : Type} {f : UInt8 → Codec β} {x : UInt8} {w : List UInt8} {u : β}
    (h : Reads (f x) w u) : Reads (do let y ← dec (0 : UInt8); f y) (x :: w) u := by
  have := Reads.bind (f := f) (reads x trivial) h
  rwa [wire_u8] at this

theorem Writes.byte {f : Codec Unit} {x : UInt8} {w : List UInt8} (h : Writes f w) :
    Writes (do enc x; f) (x :: w) := by
  have := Writes.bind (writes x trivial) h
  rwa [wire_u8] at this

theorem small_low {x : UInt8} (h : x.toNat < 6) : (x &&& 0xF).toNat = x.toNat := by
  have : x = 0 ∨ x = 1 ∨ x = 2 ∨ x = 3 ∨ x = 4 ∨ x = 5 := by
    simp only [← UInt8.toNat_inj]
    have : ∀ n : Nat, n < 6 → n = 0 ∨ n = 1 ∨ n = 2 ∨ n = 3 ∨ n = 4 ∨ n = 5 := by omega
    exact this _ h
  rcases this with rfl | rfl | rfl | rfl | rfl | rfl <;> decide

theorem NodeId.reads_body (v : NodeId) (h : Wire.ok v) : ∃ x xs, wire v = x :: xs ∧ x.toNat < 6 ∧
    Reads (NodeId.decodeBody Ua.init x.toNat) xs v := by
  obtain ⟨ns, val⟩ := v
  cases val with
  | numeric i =>
    simp only [wire]
    split
    next h0 =>
      refine ⟨_, _, rfl, by decide, ?_⟩
      have r := reads i.toUInt8 trivial
      have e : wire i.toUInt8 = leBytes 1 i.toNat := by
        show leBytes 1 _ = _
        rw [UInt32.toNat_toUInt8, Nat.mod_eq_of_lt h0.2]
      rw [e] at r
      have := Reads.map (f := fun x : UInt8 => (⟨0, .numeric x.toUInt32⟩ : NodeId)) r
      have e2 : i.toUInt8.toUInt32 = i := UInt32.toNat_inj.1 (by simp; omega)
      have e3 : ns = 0 := UInt16.toNat_inj.1 h0.1
      simp only [e2] at this
      rw [e3]
      exact this
    next h0 =>
      split
      next h1 =>
        refine ⟨_, _, rfl, by decide, ?_⟩
        have a := reads ns.toUInt8 trivial
        have b := reads i.toUInt16 trivial
        have : wire i.toUInt16 = leBytes 2 i.toNat := by
          show leBytes 2 _ = _
          rw [UInt32.toNat_toUInt16, Nat.mod_eq_of_lt h1.2]
        rw [this] at b
        have : wire ns.toUInt8 = leBytes 1 ns.toNat := by
          show leBytes 1 _ = _
          rw [UInt16.toNat_toUInt8, Nat.mod_eq_of_lt h1.1]
        rw [this] at a
        have e2 : i.toUInt16.toUInt32 = i := UInt32.toNat_inj.1 (by simp; omega)
        have e3 : ns.toUInt8.toUInt16 = ns := UInt16.toNat_inj.1 (by simp; omega)
        have m := Reads.map (f := fun x : UInt16 =>
          (⟨ns.toUInt8.toUInt16, .numeric x.toUInt32⟩ : NodeId)) b
        refine Reads.bind a ?_
        simp only [e2, e3] at m ⊢
        exact m
      next h1 =>
        exact ⟨_, _, rfl, by decide, Reads.bind (reads ns trivial) (Reads.map (f := fun x : UInt32 =>
          (⟨ns, .numeric x⟩ : NodeId)) (reads i trivial))⟩
  | string s =>
    exact ⟨_, _, rfl, by decide, Reads.bind (reads ns trivial) (Reads.map (f := fun x =>
      (⟨ns, .string x⟩ : NodeId)) (reads s h))⟩
  | guid g =>
    exact ⟨_, _, rfl, by decide, Reads.bind (reads ns trivial) (Reads.map (f := fun x =>
      (⟨ns, .guid x⟩ : NodeId)) (reads g trivial))⟩
  | «opaque» o =>
    exact ⟨_, _, rfl, by decide, Reads.bind (reads ns trivial) (Reads.map (f := fun x =>
      (⟨ns, .opaque x⟩ : NodeId)) (reads o h))⟩

instance : Lawful NodeId where
  writes v h := by
    obtain ⟨ns, val⟩ := v
    show Writes (NodeId.encode _) _
    cases val with
    | numeric i =>
      have e0 : (ns = 0 ∧ i < 256) ↔ (ns.toNat = 0 ∧ i.toNat < 256) := by
        rw [← UInt16.toNat_inj, UInt32.lt_iff_toNat_lt]; rfl
      have e1 : (ns < 256 ∧ i < 65536) ↔ (ns.toNat < 256 ∧ i.toNat < 65536) := by
        rw [UInt16.lt_iff_toNat_lt, UInt32.lt_iff_toNat_lt]; rfl
      simp only [NodeId.encode, wire, e0, e1]
      split
      next h0 =>
        refine Writes.byte ?_
        have := writes i.toUInt8 trivial
        have e : wire i.toUInt8 = leBytes 1 i.toNat := by
          show leBytes 1 _ = _
          rw [UInt32.toNat_toUInt8, Nat.mod_eq_of_lt h0.2]
        rwa [e] at this
      next h0 =>
        split
        next h1 =>
          refine Writes.byte ?_
          have a := writes ns.toUInt8 trivial
          have b := writes i.toUInt16 trivial
          have : wire i.toUInt16 = leBytes 2 i.toNat := by
            show leBytes 2 _ = _
            rw [UInt32.toNat_toUInt16, Nat.mod_eq_of_lt h1.2]
          rw [this] at b
          have : wire ns.toUInt8 = leBytes 1 ns.toNat := by
            show leBytes 1 _ = _
            rw [UInt16.toNat_toUInt8, Nat.mod_eq_of_lt h1.1]
          rw [this] at a
          exact Writes.bind a b
        next h1 => exact Writes.byte (Writes.bind (writes ns trivial) (writes i trivial))
    | string s => exact Writes.byte (Writes.bind (writes ns trivial) (writes s h))
    | guid g => exact Writes.byte (Writes.bind (writes ns trivial) (writes g trivial))
    | «opaque» o => exact Writes.byte (Writes.bind (writes ns trivial) (writes o h))
  reads v h := by
    obtain ⟨x, xs, hw, hx, hr⟩ := v.reads_body h
    rw [hw]
    show Reads (NodeId.decode _) _ _
    refine Reads.byte ?_
    rw [small_low hx]
    exact hr

/-! ## Presence masks -/

theorem bit_mask7 (a b c d e f g : Bool) :
    let m := encodeMask [a, b, c, d, e, f, g]
    bit m 0x1 = a ∧ bit m 0x2 = b ∧ bit m 0x4 = c ∧ bit m 0x8 = d ∧ bit m 0x10 = e ∧
      bit m 0x20 = f ∧ bit m 0x40 = g := by
  revert a b c d e f g
  decide

theorem bit_mask6 (a b c d e f : Bool) :
    let m := encodeMask [a, b, c, d, e, f]
    bit m 0x1 = a ∧ bit m 0x2 = b ∧ bit m 0x4 = c ∧ bit m 0x8 = d ∧ bit m 0x10 = e ∧
      bit m 0x20 = f := by
  revert a b c d e f
  decide

theorem bit_mask2 (a b : Bool) :
    let m := encodeMaskSizeCheck [a, b]
    bit m 0x1 = a ∧ bit m 0x2 = b := by
  revert a b
  decide

/-- Weight of a flag that is set or not. -/
def bw (c : Bool) (w : Nat) : Nat := if c then w else 0

theorem flag_eq {α : Type} (o : Option α) (w : Nat) : flag o w = bw o.isSome w := rfl

theorem mask7_val (a b c d e f g : Bool) :
    encodeMask [a, b, c, d, e, f, g] =
      UInt8.ofNat (bw a 1 + bw b 2 + bw c 4 + bw d 8 + bw e 16 + bw f 32 + bw g 64) := by
  revert a b c d e f g
  decide

theorem mask6_val (a b c d e f : Bool) :
    encodeMask [a, b, c, d, e, f] =
      UInt8.ofNat (bw a 1 + bw b 2 + bw c 4 + bw d 8 + bw e 16 + bw f 32) := by
  revert a b c d e f
  decide

theorem mask2_val (a b : Bool) :
    encodeMaskSizeCheck [a, b] = UInt8.ofNat (bw a 1 + bw b 2) := by
  revert a b
  decide

theorem mask1_val (a : Bool) : encodeMaskSizeCheck [a] = UInt8.ofNat (bw a 1) := by
  revert a
  decide

section
variable {α : Type} [Ua α] [Wire α] [Lawful α]

theorem Writes.optField (o : Option α) (h : optOk o) : Writes (encIf o.isSome o) (optWire o) := by
  cases o with
  | none => exact Writes.nil
  | some x => exact writes x h

theorem Reads.optField (o : Option α) (h : optOk o) :
    Reads (decIf o.isSome (none : Option α)) (optWire o) o := by
  cases o with
  | none => exact Reads.pure _
  | some x => exact Reads.map (f := some) (reads x h)
end

theorem optOk_true {α : Type} [Wire α] (h : ∀ x : α, Wire.ok x) (o : Option α) : optOk o := by
  cases o with
  | none => trivial
  | some x => exact h x

theorem sized_isSome {o : Option Str} (h : notEmpty o) : sized o = o.isSome := by
  cases o with
  | none => rfl
  | some s =>
    have h : s.bytes ≠ [] := h
    simp [sized, UaSize.size, h]

instance : Lawful QualifiedName where
  writes v h := Writes.bind (writes v.namespaceIndex trivial) (writes v.name h)
  reads v h := Reads.bind (reads v.namespaceIndex trivial)
    (Reads.map (f := fun x => (⟨v.namespaceIndex, x⟩ : QualifiedName)) (reads v.name h))

instance : Lawful LocalizedText where
  writes v h := by
    obtain ⟨h1, h2, h3, h4⟩ := h
    have hm : v.encodingMask = UInt8.ofNat (flag v.locale 1 + flag v.text 2) := by
      simp only [LocalizedText.encodingMask, sized_isSome h3, sized_isSome h4]
      exact mask2_val _ _
    obtain ⟨b1, b2⟩ := bit_mask2 (sized v.locale) (sized v.text)
    show Writes (do
      enc v.encodingMask
      encIf (bit v.encodingMask 0x1 && sized v.locale) v.locale
      encIf (bit v.encodingMask 0x2 && sized v.text) v.text) _
    have b1 : bit v.encodingMask 0x1 = sized v.locale := b1
    have b2 : bit v.encodingMask 0x2 = sized v.text := b2
    rw [b1, b2, Bool.and_self, Bool.and_self, sized_isSome h3, sized_isSome h4, hm]
    exact Writes.byte (Writes.bind (Writes.optField _ h1) (Writes.optField _ h2))
  reads v h := by
    obtain ⟨h1, h2, h3, h4⟩ := h
    have hm : v.encodingMask = UInt8.ofNat (flag v.locale 1 + flag v.text 2) := by
      simp only [LocalizedText.encodingMask, sized_isSome h3, sized_isSome h4]
      exact mask2_val _ _
    obtain ⟨b1, b2⟩ := bit_mask2 (sized v.locale) (sized v.text)
    have b1 : bit v.encodingMask 0x1 = sized v.locale := b1
    have b2 : bit v.encodingMask 0x2 = sized v.text := b2
    rw [hm, sized_isSome h3] at b1
    rw [hm, sized_isSome h4] at b2
    refine Reads.byte ?_
    simp only [b1, b2]
    exact Reads.bind (Reads.optField _ h1)
      (Reads.map (f := fun x => (⟨v.locale, x⟩ : LocalizedText)) (Reads.optField _ h2))

instance : Lawful ExtensionObject where
  writes v h := by
    obtain ⟨h1, h2, h3⟩ := h
    obtain ⟨nid, bs⟩ := v
    refine Writes.bind (writes nid h1) ?_
    cases bs with
    | none =>
      have hm : (ExtensionObject.mk nid none).encodingMask = 0 := mask1_val false
      simp only [hm]
      exact Writes.byte Writes.nil
    | some s =>
      have h0 : s.bytes ≠ [] := fun e => h3 (by cases s; simp_all)
      have hm : (ExtensionObject.mk nid (some s)).encodingMask = 1 := by
        simp only [ExtensionObject.encodingMask, sized, UaSize.size]
        rw [show (s.bytes.length != 0) = true by simp [h0]]
        rfl
      simp only [hm]
      exact Writes.byte (writes s h2)
  reads v h := by
    obtain ⟨h1, h2, h3⟩ := h
    obtain ⟨nid, bs⟩ := v
    refine Reads.bind (reads nid h1) ?_
    cases bs with
    | none =>
      exact Reads.byte (x := 0) (Reads.map (f := fun x => (⟨nid, x⟩ : ExtensionObject))
        (Reads.optField none trivial))
    | some s =>
      exact Reads.byte (Reads.map (f := fun x => (⟨nid, x⟩ : ExtensionObject))
        (Reads.optField (some s) h2))

/-! ## Diagnostic infos -/

theorem DiagFields.mask_val (f : DiagFields) (g : Bool) : f.encodingMask g =
    UInt8.ofNat (flag f.symbolicId 1 + flag f.namespaceUri 2 + flag f.locale 4 +
      flag f.localizedText 8 + flag f.additionalInfo 16 + flag f.innerStatusCode 32 + bw g 64) :=
  mask7_val _ _ _ _ _ _ _

theorem ok_i32 (o : Option Int32) : optOk o := optOk_true (fun _ => trivial) o
theorem ok_status (o : Option StatusCode) : optOk o := optOk_true (fun _ => trivial) o

theorem DiagFields.writes (f : DiagFields) (g : Bool) (h : optOk f.additionalInfo) :
    Writes (f.encode g) (f.wire (bw g 64)) := by
  obtain ⟨b1, b2, b3, b4, b5, b6, _⟩ := bit_mask7 f.symbolicId.isSome f.namespaceUri.isSome
    f.locale.isSome f.localizedText.isSome f.additionalInfo.isSome f.innerStatusCode.isSome g
  have hm := f.mask_val g
  simp only [DiagFields.wire, DiagFields.encode, ← hm]
  refine Writes.byte ?_
  simp only [DiagFields.encodingMask, b1, b2, b3, b4, b5, b6]
  exact Writes.bind (Writes.optField _ (ok_i32 _)) (Writes.bind (Writes.optField _ (ok_i32 _))
    (Writes.bind (Writes.optField _ (ok_i32 _)) (Writes.bind (Writes.optField _ (ok_i32 _))
      (Writes.bind (Writes.optField _ h) (Writes.optField _ (ok_status _))))))

theorem DiagFields.reads (f : DiagFields) (g : Bool) (h : optOk f.additionalInfo) :
    Reads DiagFields.init.decode (f.wire (bw g 64)) (f.encodingMask g, f) := by
  obtain ⟨b1, b2, b3, b4, b5, b6, _⟩ := bit_mask7 f.symbolicId.isSome f.namespaceUri.isSome
    f.locale.isSome f.localizedText.isSome f.additionalInfo.isSome f.innerStatusCode.isSome g
  have hm := f.mask_val g
  simp only [DiagFields.wire, DiagFields.decode, ← hm]
  refine Reads.byte ?_
  have b1 : bit (f.encodingMask g) 0x1 = _ := b1
  have b2 : bit (f.encodingMask g) 0x2 = _ := b2
  have b3 : bit (f.encodingMask g) 0x4 = _ := b3
  have b4 : bit (f.encodingMask g) 0x8 = _ := b4
  have b5 : bit (f.encodingMask g) 0x10 = _ := b5
  have b6 : bit (f.encodingMask g) 0x20 = _ := b6
  simp only [b1, b2, b3, b4, b5, b6]
  exact Reads.bind (Reads.optField _ (ok_i32 _)) (Reads.bind (Reads.optField _ (ok_i32 _))
    (Reads.bind (Reads.optField _ (ok_i32 _)) (Reads.bind (Reads.optField _ (ok_i32 _))
      (Reads.bind (Reads.optField _ h) (Reads.map (f := fun x => (f.encodingMask g,
        (⟨f.symbolicId, f.namespaceUri, f.locale, f.localizedText, f.additionalInfo, x⟩ :
          DiagFields))) (Reads.optField _ (ok_status _)))))))

theorem DiagFields.bit_inner (f : DiagFields) (g : Bool) : bit (f.encodingMask g) 0x40 = g :=
  (bit_mask7 f.symbolicId.isSome f.namespaceUri.isSome f.locale.isSome f.localizedText.isSome
    f.additionalInfo.isSome f.innerStatusCode.isSome g).2.2.2.2.2.2

theorem DiagnosticInfo.writes (v : DiagnosticInfo) (h : v.Ok) : Writes v.encode v.wire := by
  induction v with
  | leaf f =>
    have := Writes.bind (f.writes false h) Writes.nil
    rw [List.append_nil] at this
    simp only [DiagnosticInfo.encode, f.bit_inner false]
    exact this
  | nest f i ih =>
    have := Writes.bind (f.writes true h.1) (ih h.2)
    simp only [DiagnosticInfo.encode, f.bit_inner true, if_true]
    exact this

/-- Number of nested values. -/
def DiagnosticInfo.depth : DiagnosticInfo → Nat
  | .leaf _ => 1
  | .nest _ i => i.depth + 1

theorem DiagnosticInfo.depth_le (v : DiagnosticInfo) : v.depth ≤ v.wire.length := by
  induction v with
  | leaf f => simp [DiagnosticInfo.depth, DiagnosticInfo.wire, DiagFields.wire]
  | nest f i ih =>
    simp only [DiagnosticInfo.depth, DiagnosticInfo.wire, DiagFields.wire, List.length_append,
      List.length_cons]
    omega

theorem DiagnosticInfo.reads_fuel (v : DiagnosticInfo) (h : v.Ok) (n : Nat) (hn : v.depth ≤ n) :
    Reads (DiagnosticInfo.decode n (.leaf DiagFields.init)) v.wire v := by
  induction v generalizing n with
  | leaf f =>
    cases n with
    | zero => simp [DiagnosticInfo.depth] at hn
    | succ n =>
      have := Reads.bind (f := fun p : UInt8 × DiagFields => if bit p.1 0x40 then do
        let inner ← DiagnosticInfo.decode n (.leaf DiagFields.init)
        Pure.pure (.nest p.2 inner)
        else Pure.pure ((DiagnosticInfo.leaf DiagFields.init).withFields p.2))
        (f.reads false h) (w2 := []) (u := .leaf f) (by
          simp only [f.bit_inner false, DiagnosticInfo.withFields]
          exact Reads.pure _)
      rwa [List.append_nil] at this
  | nest f i ih =>
    cases n with
    | zero => simp [DiagnosticInfo.depth] at hn
    | succ n =>
      simp only [DiagnosticInfo.depth] at hn
      refine Reads.bind (f := fun p : UInt8 × DiagFields => if bit p.1 0x40 then do
        let inner ← DiagnosticInfo.decode n (.leaf DiagFields.init)
        Pure.pure (.nest p.2 inner)
        else Pure.pure ((DiagnosticInfo.leaf DiagFields.init).withFields p.2))
        (f.reads true h.1) ?_
      simp only [f.bit_inner true, if_true]
      exact Reads.map (f := DiagnosticInfo.nest f) (ih h.2 n (by omega))

instance : Lawful DiagnosticInfo where
  writes v h := v.writes h
  reads v h := by
    intro b hl hb
    have hd := v.depth_le
    refine v.reads_fuel h (maxPacketLen + 1) ?_ b hl hb
    have hl : b.tail + v.wire.length ≤ maxPacketLen := hl
    omega

/-! ## Expanded node identifiers without options -/

theorem NodeId.wire_cons (v : NodeId) : ∃ x xs, wire v = x :: xs ∧ x.toNat < 6 := by
  obtain ⟨ns, val⟩ := v
  cases val with
  | numeric i =>
    simp only [wire]
    split
    · exact ⟨_, _, rfl, by decide⟩
    · split
      · exact ⟨_, _, rfl, by decide⟩
      · exact ⟨_, _, rfl, by decide⟩
  | string s => exact ⟨_, _, rfl, by decide⟩
  | guid s => exact ⟨_, _, rfl, by decide⟩
  | «opaque» s => exact ⟨_, _, rfl, by decide⟩

theorem ExpandedNodeId.wire_plain (v : ExpandedNodeId) (h1 : v.namespaceUri = none)
    (h2 : v.serverIndex = none) : wire v = wire v.nodeId := by
  obtain ⟨n, u, s⟩ := v
  simp only at h1 h2
  subst h1 h2
  obtain ⟨x, xs, hw, _⟩ := n.wire_cons
  simp only [wire] at hw ⊢
  rw [hw]
  simp [flag, optWire]

theorem bit_small {x : UInt8} (h : x.toNat < 6) : bit x 0x80 = false ∧ bit x 0x40 = false := by
  have : x = 0 ∨ x = 1 ∨ x = 2 ∨ x = 3 ∨ x = 4 ∨ x = 5 := by
    simp only [← UInt8.toNat_inj]
    have : ∀ n : Nat, n < 6 → n = 0 ∨ n = 1 ∨ n = 2 ∨ n = 3 ∨ n = 4 ∨ n = 5 := by omega
    exact this _ h
  rcases this with rfl | rfl | rfl | rfl | rfl | rfl <;> decide

instance : Lawful ExpandedNodeId where
  writes v h := by
    obtain ⟨h0, h1, h2⟩ := h
    rw [v.wire_plain h1 h2]
    obtain ⟨n, u, s⟩ := v
    simp only at h1 h2
    subst h1 h2
    intro b hb
    have hm : (ExpandedNodeId.mk n none none).encodingMask = 0 := mask2_val false false
    have b1 : bit 0 0x1 = false := by decide
    have b2 : bit 0 0x2 = false := by decide
    have hw := Writes.bind (writes n h0) Writes.nil b hb
    rw [List.append_nil] at hw
    show ExpandedNodeId.encode _ b = _
    rw [← hw]
    simp only [ExpandedNodeId.encode, hm, b1, b2]
    rfl
  reads v h := by
    obtain ⟨h0, h1, h2⟩ := h
    rw [v.wire_plain h1 h2]
    obtain ⟨n, u, s⟩ := v
    simp only at h1 h2
    subst h1 h2
    intro b hl hb
    obtain ⟨x, xs, hw, hx⟩ := n.wire_cons
    have hr := reads n h0 b hl hb
    have hp : b.packet b.tail = x := by
      simp only [hw, List.length_cons, memRead, List.range_succ_eq_map] at hb
      simp at hb
      exact hb.1
    have hlt : b.tail < maxPacketLen := by
      simp only [hw, List.length_cons] at hl
      omega
    show ExpandedNodeId.decode _ b = _
    have hpk : peek b = .ok (x, b) := by simp only [peek, if_pos hlt, hp]
    obtain ⟨f1, f2⟩ := bit_small hx
    have hr : dec (Ua.init : ExpandedNodeId).nodeId b = _ := hr
    simp only [ExpandedNodeId.decode, Codec.bind_run, hpk, Exec.ok_bind, hr, f1, f2, decIf]
    rfl

/-! ## Expanded node identifiers with options -/

theorem bw_flag_bits : ∀ x : Nat, x < 6 → ∀ p q : Bool,
    bit (UInt8.ofNat (x + bw p 0x80 + bw q 0x40)) 0x80 = p ∧
    bit (UInt8.ofNat (x + bw p 0x80 + bw q 0x40)) 0x40 = q ∧
    (UInt8.ofNat (x + bw p 0x80 + bw q 0x40) &&& 0xF).toNat = x := by
  decide +kernel

theorem bw_or : ∀ x : Nat, x < 6 → ∀ p q : Bool,
    ((UInt8.ofNat x ||| UInt8.ofNat (bw p 0x80)) ||| UInt8.ofNat (bw q 0x40)) =
      UInt8.ofNat (x + bw p 0x80 + bw q 0x40) := by
  decide +kernel

theorem Reads.expanded (v : ExpandedNodeId) (h : Wire.ok v.nodeId) (hu : optOk v.namespaceUri) :
    Reads (dec (Ua.init : ExpandedNodeId)) (wire v) v := by
  obtain ⟨n, u, s⟩ := v
  obtain ⟨x, xs, hw, hx, hr⟩ := n.reads_body h
  have hwire : wire (ExpandedNodeId.mk n u s) =
      UInt8.ofNat (x.toNat + bw u.isSome 0x80 + bw s.isSome 0x40) ::
        (xs ++ (optWire u ++ optWire s)) := by
    show (match wire n with
      | [] => []
      | x :: xs => UInt8.ofNat (x.toNat + flag u 0x80 + flag s 0x40) ::
        (xs ++ (optWire u ++ optWire s))) = _
    rw [hw]
    rfl
  rw [hwire]
  obtain ⟨f1, f2, f3⟩ := bw_flag_bits x.toNat hx u.isSome s.isSome
  intro b hl hb
  have hp : b.packet b.tail = UInt8.ofNat (x.toNat + bw u.isSome 0x80 + bw s.isSome 0x40) := by
    rw [List.length_cons, memRead, List.range_succ_eq_map] at hb
    simp only [List.map_cons, Nat.add_zero] at hb
    exact (List.cons.inj hb).1
  have hlt : b.tail < maxPacketLen := by
    simp only [List.length_cons] at hl
    omega
  have hpk : peek b = .ok (UInt8.ofNat (x.toNat + bw u.isSome 0x80 + bw s.isSome 0x40), b) := by
    simp only [peek, if_pos hlt, hp]
  show ExpandedNodeId.decode _ b = _
  simp only [ExpandedNodeId.decode]
  rw [Codec.bind_run, hpk]
  simp only [Exec.ok_bind, f1, f2]
  have hn : Reads (dec (Ua.init : NodeId))
      (UInt8.ofNat (x.toNat + bw u.isSome 0x80 + bw s.isSome 0x40) :: xs) n := by
    show Reads (NodeId.decode _) _ _
    refine Reads.byte ?_
    rw [f3]
    exact hr
  have hall := Reads.bind (f := fun nodeId => do
      let namespaceUri ← decIf u.isSome (none : Option Str)
      let serverIndex ← decIf s.isSome (none : Option UInt32)
      Pure.pure (⟨nodeId, namespaceUri, serverIndex⟩ : ExpandedNodeId)) hn
    (Reads.bind (Reads.optField u hu) (Reads.map (f := fun x => (⟨n, u, x⟩ : ExpandedNodeId))
      (Reads.optField s (optOk_true (fun _ => trivial) s))))
  exact hall b hl hb

theorem append_append (b : Buf) (w1 w2 : List UInt8) :
    (b.append w1).append w2 = b.append (w1 ++ w2) := by
  simp only [Buf.append, memWrite_app, List.length_append, Nat.add_assoc]

theorem orAt_append (b : Buf) (x f : UInt8) (xs : List UInt8) (h : b.head < maxPacketLen) :
    orAt b.head f (b.append (x :: xs)) = .ok ((), b.append ((x ||| f) :: xs)) := by
  simp only [orAt, if_pos h]
  have hx : (b.append (x :: xs)).packet b.head = x := by
    simp [Buf.append, memWrite]
  rw [hx]
  simp only [Buf.append, List.length_cons, Exec.ok.injEq, Prod.mk.injEq, true_and, Buf.mk.injEq,
    and_true]
  funext i
  simp only [memWrite, List.length_cons, List.length_nil]
  by_cases h1 : i = b.head
  · subst h1
    simp
  · rw [if_neg (by omega)]
    by_cases h2 : b.head ≤ i ∧ i < b.head + (xs.length + 1)
    · rw [if_pos h2, if_pos h2]
      obtain ⟨k, hk⟩ : ∃ k, i - b.head = k + 1 := ⟨i - b.head - 1, by omega⟩
      rw [hk]
      rfl
    · rw [if_neg h2, if_neg h2]

theorem orAtIf_append (b : Buf) (x : UInt8) (xs : List UInt8) (h : b.head < maxPacketLen)
    (c : Bool) (f : Nat) :
    orAtIf c b.head (UInt8.ofNat f) (b.append (x :: xs)) =
      .ok ((), b.append ((x ||| UInt8.ofNat (bw c f)) :: xs)) := by
  cases c with
  | true => exact orAt_append b x _ xs h
  | false =>
    simp [orAtIf, bw]

theorem sized_u32 (o : Option UInt32) : sized o = o.isSome := by
  cases o <;> rfl

/-- The encoder is right when the write position equals the read position. -/
theorem writes_expanded (v : ExpandedNodeId) (h : Wire.ok v.nodeId) (hu : optOk v.namespaceUri)
    (he : notEmpty v.namespaceUri) (b : Buf) (hb : b.tail = b.head)
    (hl : b.head + (wire v).length ≤ maxPacketLen) :
    enc v b = .ok ((), b.append (wire v)) := by
  obtain ⟨n, u, s⟩ := v
  obtain ⟨x, xs, hw, hx, hr⟩ := n.reads_body h
  have hwire : wire (ExpandedNodeId.mk n u s) =
      UInt8.ofNat (x.toNat + bw u.isSome 0x80 + bw s.isSome 0x40) ::
        (xs ++ (optWire u ++ optWire s)) := by
    show (match wire n with
      | [] => []
      | x :: xs => UInt8.ofNat (x.toNat + flag u 0x80 + flag s 0x40) ::
        (xs ++ (optWire u ++ optWire s))) = _
    rw [hw]
    rfl
  rw [hwire] at hl ⊢
  simp only [List.length_cons, List.length_append] at hl
  obtain ⟨b1, b2⟩ := bit_mask2 (sized u) (sized s)
  have b1 : bit (ExpandedNodeId.mk n u s).encodingMask 0x1 = u.isSome := by
    rw [← sized_isSome he]; exact b1
  have b2 : bit (ExpandedNodeId.mk n u s).encodingMask 0x2 = s.isSome := by
    rw [← sized_u32]; exact b2
  show ExpandedNodeId.encode _ b = _
  simp only [ExpandedNodeId.encode, b1, b2]
  have hlt : b.head < maxPacketLen := by omega
  have e1 : enc n b = .ok ((), b.append (x :: xs)) := by
    rw [writes n h b (by omega), hw, if_pos (by simp only [List.length_cons]; omega)]
  have ht : tailPos b = .ok (b.head, b) := by simp only [tailPos, hb]
  have e2 := orAtIf_append b x xs hlt u.isSome 0x80
  have e3 : encIf u.isSome u (b.append ((x ||| UInt8.ofNat (bw u.isSome 0x80)) :: xs)) =
      .ok ((), b.append ((x ||| UInt8.ofNat (bw u.isSome 0x80)) :: (xs ++ optWire u))) := by
    rw [Writes.optField u hu _ (by simp only [Buf.append, List.length_cons]; omega),
      if_pos (by simp only [Buf.append, List.length_cons]; omega), append_append]
    rfl
  have e4 := orAtIf_append b (x ||| UInt8.ofNat (bw u.isSome 0x80)) (xs ++ optWire u) hlt s.isSome 0x40
  have hs : optOk s := optOk_true (fun _ => trivial) s
  have e5 : encIf s.isSome s (b.append ((x ||| UInt8.ofNat (bw u.isSome 0x80) |||
      UInt8.ofNat (bw s.isSome 0x40)) :: (xs ++ optWire u))) =
      .ok ((), b.append ((x ||| UInt8.ofNat (bw u.isSome 0x80) |||
      UInt8.ofNat (bw s.isSome 0x40)) :: (xs ++ optWire u ++ optWire s))) := by
    rw [Writes.optField s hs _
        (by simp only [Buf.append, List.length_cons, List.length_append]; omega),
      if_pos (by simp only [Buf.append, List.length_cons, List.length_append]; omega),
      append_append]
    rfl
  have hor := bw_or x.toNat hx u.isSome s.isSome
  rw [UInt8.ofNat_toNat] at hor
  rw [Codec.bind_run, ht]
  simp only [Exec.ok_bind]
  rw [Codec.bind_run, e1]
  simp only [Exec.ok_bind]
  rw [Codec.bind_run, show orAtIf u.isSome b.head 0x80 _ = _ from e2]
  simp only [Exec.ok_bind]
  rw [Codec.bind_run, e3]
  simp only [Exec.ok_bind]
  rw [Codec.bind_run, show orAtIf s.isSome b.head 0x40 _ = _ from e4]
  simp only [Exec.ok_bind]
  rw [e5, hor, List.append_assoc]

/-! ## Variants and data values -/

theorem Writes.scalar (x : Scalar) (h : x.Ok) :
    Writes (do enc (UInt8.ofNat (x.index + 1)); x.encode) x.wire := by
  cases x
  case xmlElement => exact h.elim
  all_goals first
    | exact Writes.byte (writes _ trivial)
    | exact Writes.byte (writes _ h)

theorem Writes.byte' {f : Codec Unit} {x y : UInt8} {w : List UInt8} (e : x = y)
    (h : Writes f w) : Writes (do enc x; f) (y :: w) := e ▸ Writes.byte h

theorem Writes.varray (x : VArray) (h : x.Ok) :
    Writes (do enc (UInt8.ofNat ((x.index - 21) ||| 0x80)); x.encode) x.wire := by
  cases x
  all_goals first
    | exact h.elim
    | exact Writes.byte' (by simp only [VArray.index]; decide) (writes _ h)

theorem Reads.scalarBody (x : Scalar) (h : x.Ok) :
    ∃ w, x.wire = UInt8.ofNat (x.index + 1) :: w ∧ Reads (Scalar.decode (x.index + 1)) w (some x) := by
  cases x
  case xmlElement => exact h.elim
  all_goals first
    | exact ⟨_, rfl, Reads.map (reads _ trivial)⟩
    | exact ⟨_, rfl, Reads.map (reads _ h)⟩

theorem Reads.varrayBody (x : VArray) (h : x.Ok) :
    x.index - 21 < 23 ∧ ∃ w, x.wire = UInt8.ofNat ((x.index - 21) ||| 0x80) :: w ∧
      Reads (VArray.decode (x.index - 21)) w x := by
  cases x
  all_goals first
    | exact h.elim
    | exact ⟨by simp only [VArray.index]; decide, _,
        by simp only [VArray.wire, VArray.index]; exact congrArg (· :: _) (by decide),
        Reads.map (reads _ h)⟩

theorem Scalar.index_lt (x : Scalar) : x.index < 22 := by
  cases x <;> simp only [Scalar.index] <;> decide

theorem VArray.index_ge (x : VArray) : 22 ≤ x.index := by
  cases x <;> simp only [VArray.index] <;> decide

theorem scalar_mask : ∀ k, k < 22 → bit (UInt8.ofNat (k + 1)) 0x80 = false ∧
    ((UInt8.ofNat (k + 1)) &&& 0x3f).toNat = k + 1 ∧ UInt8.ofNat (k + 1) ≠ 0 := by
  decide

theorem varray_mask : ∀ k, k < 23 → bit (UInt8.ofNat (k ||| 0x80)) 0x80 = true ∧
    ((UInt8.ofNat (k ||| 0x80)) &&& 0x3f).toNat = k ∧ UInt8.ofNat (k ||| 0x80) ≠ 0 := by
  decide

theorem Reads.scalar (x : Scalar) (h : x.Ok) :
    Reads (Variant.decode ⟨none, none⟩) x.wire ⟨some (.scalar x), none⟩ := by
  obtain ⟨w, hw, hr⟩ := Reads.scalarBody x h
  obtain ⟨m1, m2, m3⟩ := scalar_mask x.index x.index_lt
  rw [hw]
  refine Reads.byte ?_
  simp only [if_neg m3, m1, m2]
  have := Reads.bind (f := fun y : Option Scalar => match y with
      | some x => (Pure.pure (⟨some (.scalar x), none⟩ : Variant) : Codec Variant)
      | none => Pure.pure ⟨none, none⟩) hr (Reads.pure _)
  rw [List.append_nil] at this
  exact this

theorem Reads.varray (x : VArray) (h : x.Ok) :
    Reads (Variant.decode ⟨none, none⟩) x.wire ⟨some (.array x), none⟩ := by
  obtain ⟨hlt, w, hw, hr⟩ := Reads.varrayBody x h
  obtain ⟨m1, m2, m3⟩ := varray_mask (x.index - 21) hlt
  rw [hw]
  refine Reads.byte ?_
  simp only [if_neg m3, m1, m2, if_true]
  exact Reads.map (f := fun x => (⟨some (.array x), none⟩ : Variant)) hr

instance : Lawful Variant where
  writes v h := by
    obtain ⟨val, dims⟩ := v
    obtain ⟨h1, h2⟩ := h
    show Writes (Variant.encode _) _
    match val with
    | none => exact Writes.byte Writes.nil
    | some (.scalar x) =>
      have hm : (Variant.mk (some (.scalar x)) dims).encodingMask = UInt8.ofNat (x.index + 1) :=
        congrArg UInt8.ofNat (if_pos x.index_lt)
      simp only [Variant.encode, hm]
      exact Writes.scalar x h2
    | some (.array x) =>
      have hm : (Variant.mk (some (.array x)) dims).encodingMask =
          UInt8.ofNat ((x.index - 21) ||| 0x80) :=
        congrArg UInt8.ofNat (if_neg (Nat.not_lt.2 x.index_ge))
      simp only [Variant.encode, hm]
      exact Writes.varray x h2
  reads v h := by
    obtain ⟨val, dims⟩ := v
    obtain ⟨h1, h2⟩ := h
    simp only at h1
    subst h1
    match val with
    | none =>
      show Reads (Variant.decode ⟨none, none⟩) [0] _
      refine Reads.byte ?_
      rw [if_pos rfl]
      exact Reads.pure _
    | some (.scalar x) => exact Reads.scalar x h2
    | some (.array x) => exact Reads.varray x h2

theorem ok_dt (o : Option DateTime) : optOk o := optOk_true (fun _ => trivial) o
theorem ok_u16 (o : Option UInt16) : optOk o := optOk_true (fun _ => trivial) o

theorem DataValue.mask_val (v : DataValue) : v.encodingMask =
    UInt8.ofNat (flag v.value.value 1 + flag v.status 2 + flag v.sourceTimestampt 4 +
      flag v.sourcePicoSeconds 8 + flag v.serverTimeStampt 16 + flag v.serverPicoSeconds 32) :=
  mask6_val _ _ _ _ _ _

instance : Lawful DataValue where
  writes v h := by
    obtain ⟨b1, b2, b3, b4, b5, b6⟩ := bit_mask6 v.value.value.isSome v.status.isSome
      v.sourceTimestampt.isSome v.sourcePicoSeconds.isSome v.serverTimeStampt.isSome
      v.serverPicoSeconds.isSome
    have hm := v.mask_val
    show Writes (do
      enc v.encodingMask
      encIf (bit v.encodingMask 0x1) v.value
      encIf (bit v.encodingMask 0x2) v.status
      encIf (bit v.encodingMask 0x4) v.sourceTimestampt
      encIf (bit v.encodingMask 0x8) v.sourcePicoSeconds
      encIf (bit v.encodingMask 0x10) v.serverTimeStampt
      encIf (bit v.encodingMask 0x20) v.serverPicoSeconds) _
    simp only [wire, ← hm]
    refine Writes.byte ?_
    simp only [DataValue.encodingMask, b1, b2, b3, b4, b5, b6]
    refine Writes.bind ?_ (Writes.bind (Writes.optField _ (ok_status _))
      (Writes.bind (Writes.optField _ (ok_dt _)) (Writes.bind (Writes.optField _ (ok_u16 _))
        (Writes.bind (Writes.optField _ (ok_dt _)) (Writes.optField _ (ok_u16 _))))))
    by_cases hv : v.value.value.isSome
    · rw [if_pos hv, hv]
      exact writes v.value h
    · rw [if_neg hv, show v.value.value.isSome = false by simpa using hv]
      exact Writes.nil
  reads v h := by
    obtain ⟨b1, b2, b3, b4, b5, b6⟩ := bit_mask6 v.value.value.isSome v.status.isSome
      v.sourceTimestampt.isSome v.sourcePicoSeconds.isSome v.serverTimeStampt.isSome
      v.serverPicoSeconds.isSome
    have hm := v.mask_val
    simp only [wire, ← hm]
    refine Reads.byte ?_
    have b1 : bit v.encodingMask 0x1 = _ := b1
    have b2 : bit v.encodingMask 0x2 = _ := b2
    have b3 : bit v.encodingMask 0x4 = _ := b3
    have b4 : bit v.encodingMask 0x8 = _ := b4
    have b5 : bit v.encodingMask 0x10 = _ := b5
    have b6 : bit v.encodingMask 0x20 = _ := b6
    simp only [b1, b2, b3, b4, b5, b6]
    refine Reads.bind (v := v.value) ?_ (Reads.bind (Reads.optField _ (ok_status _))
      (Reads.bind (Reads.optField _ (ok_dt _)) (Reads.bind (Reads.optField _ (ok_u16 _))
        (Reads.bind (Reads.optField _ (ok_dt _)) (Reads.map (f := fun x =>
          (⟨v.value, v.status, v.sourceTimestampt, v.sourcePicoSeconds, v.serverTimeStampt, x⟩ :
            DataValue)) (Reads.optField _ (ok_u16 _)))))))
    by_cases hv : v.value.value.isSome
    · rw [if_pos hv, hv]
      exact reads v.value h
    · rw [if_neg hv, show v.value.value.isSome = false by simpa using hv]
      obtain ⟨⟨val, dims⟩, _⟩ := v
      have hn : val = none := by simpa using hv
      have hd : dims = none := h.1
      subst hn hd
      exact Reads.pure _

end Uscada.Ua
