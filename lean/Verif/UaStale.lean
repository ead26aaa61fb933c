import Verif.UaCodecProps
/-!
# C29: strings that claim more bytes than were received
-/

namespace Uscada.Ua

theorem getD_stale (m : Mem) (off : Nat) {n i : Nat} (h : i < n) : (memRead m off n).getD i 0 = m (off + i) := by
  simp [memRead, List.getD_eq_getElem?_getD, List.getElem?_map, List.getElem?_range h]

/-- A string is read from the packet array as its length field says, wherever the received bytes end.  The bytes from `b.head` on are
what earlier messages left there. -/
theorem string_taken (old : Str) (b : Buf) (n : Nat) (hn : n < 2 ^ 31) (hb : memRead b.packet b.tail 4 = leBytes 4 n) (h : b.tail + 4 + n ≤ 4096) :
    dec old b = .ok (⟨memRead b.packet (b.tail + 4) n⟩, { b with tail := b.tail + 4 + n }) := by
  have hl := i32_len hn
  have hw := wire_len hn
  have hr := Lawful.reads (Int32.ofNat n) trivial b
    (by rw [hw, MsgStorage.length_leBytes]; show b.tail + 4 ≤ 4096; omega)
    (by rw [hw, MsgStorage.length_leBytes]; exact hb)
  have hr : dec (0 : Int32) b = .ok (Int32.ofNat n, { b with tail := b.tail + 4 }) := by
    rw [hw] at hr
    exact hr
  show (do
      let len ← dec (0 : Int32)
      if len = -1 then Pure.pure old else do
        let bytes ← Ua.readChars len
        Pure.pure (⟨bytes⟩ : Str) : Codec Str) b = _
  rw [Codec.bind_run, hr]
  simp only [Exec.ok_bind]
  rw [if_neg hl.2.2.2.2, Codec.bind_run]
  have hlen : (memRead b.packet (b.tail + 4) n).length = n := MsgStorage.length_memRead _ _ _
  have hk := Reads.readN (memRead b.packet (b.tail + 4) n) { b with tail := b.tail + 4 } (by rw [hlen]; exact h) (by rw [hlen])
  rw [hlen] at hk
  have : Ua.readChars (Int32.ofNat n) { b with tail := b.tail + 4 } = .ok (memRead b.packet (b.tail + 4) n, { b with tail := b.tail + 4 + n }) := by
    simp only [Ua.readChars]
    rw [if_neg hl.2.2.1, hl.2.1]
    exact hk
  rw [this]
  rfl

/-- Violation of C29, always: whenever the length field of a string was received, but not all of the bytes it announces, and these lie in the packet array, what is
decoded depends on bytes that were not received: there is a buffer with the same received bytes from which another string is decoded. -/
theorem C29_every_stale_violated (old : Str) (b : Buf) (n : Nat) (hn : n < 2 ^ 31) (hb : memRead b.packet b.tail 4 = leBytes 4 n) (h : b.tail + 4 + n ≤ 4096)
    (h4 : b.tail + 4 ≤ b.head) (hs : b.head < b.tail + 4 + n) :
    ∃ c v w b' c', SameReceived b c ∧ dec old b = .ok (v, b') ∧ dec old c = .ok (w, c') ∧ v ≠ w := by
  let q : Mem := fun i => if i = b.head then b.packet i + 1 else b.packet i
  have hq : ∀ i, i ≠ b.head → q i = b.packet i := fun i hi => if_neg hi
  have h4' : memRead q b.tail 4 = leBytes 4 n := by
    rw [← hb]
    unfold memRead
    refine List.map_congr_left fun i hi => hq _ ?_
    have := List.mem_range.1 hi
    omega
  refine ⟨{ b with packet := q }, _, _, _, _, ⟨rfl, rfl, ?_⟩, string_taken old b n hn hb h, string_taken old { b with packet := q } n hn h4' h, ?_⟩
  · intro i _ hi
    first | exact hq i (by omega) | exact (hq i (by omega)).symm
  · intro he
    have he : memRead b.packet (b.tail + 4) n = memRead q (b.tail + 4) n := congrArg Str.bytes he
    have hg := congrArg (fun l => l.getD (b.head - (b.tail + 4)) 0) he
    simp only [getD_stale _ _ (show b.head - (b.tail + 4) < n by omega)] at hg
    rw [show b.tail + 4 + (b.head - (b.tail + 4)) = b.head by omega] at hg
    have : q b.head = b.packet b.head + 1 := if_pos rfl
    rw [this] at hg
    have := congrArg UInt8.toNat hg
    have hx := (b.packet b.head).toNat_lt
    rw [UInt8.toNat_add] at this
    have h1 : (1 : UInt8).toNat = 1 := rfl
    omega

/-- Non-vacuity: five bytes were received, the string claims two characters, the second is a left-over. -/
example : memRead (memWrite (fun _ => 0x53) 0 [2, 0, 0, 0, 0x61]) 0 4 = leBytes 4 2 ∧
    (match dec (Ua.init : Str) ⟨memWrite (fun _ => 0x53) 0 [2, 0, 0, 0, 0x61], 0, 5⟩ with | .ok (v, b) => some (v, b.tail, b.head) | _ => none) =
      some (⟨[0x61, 0x53]⟩, 6, 5) := by
  decide +kernel

end Uscada.Ua
