import Verif.MsgStorage
/-!
# Layout of batched Modbus client requests

`MsgModbusClientAduReq` (common/msg/MsgModbusClientAduReq.hpp) and `memAlign`
(common/utils/MemUtils.hpp).  Offsets are relative to `&items[0]`.
-/

namespace Uscada.AduLayout

/-- MemUtils.hpp:6-10 at `std::size_t`: `(val + 15) & ~0x0F` on 64 bits. -/
def memAlign (v : Nat) : Nat := ((v + 15) % 2 ^ 64) &&& (2 ^ 64 - 1 - 15)

/-- Fields of an item with its data, MsgModbusClientAduReq.hpp:14-24. -/
structure Item where
  clientId : UInt32
  transactId : UInt32
  func : UInt8
  addr : UInt16
  startItem : UInt16
  numItems : UInt16
  data : List UInt8

/-- `sizeof(ModbusClientAduReqItem)` (MsgModbusClientAduReq.hpp:14-24): 18 bytes of fields padded to a multiple of 4. -/
def itemSizeof : Nat := 20
/-- `offsetof(ModbusClientAduReqItem, numBytes)` (MsgModbusClientAduReq.hpp:16-22). -/
def numBytesOff : Nat := 16
/-- `offsetof(ModbusClientAduReqItem, data)` (MsgModbusClientAduReq.hpp:23). -/
def dataOff : Nat := 18
/-- `sizeof(MsgModbusClientAduReq)` (MsgModbusClientAduReq.hpp:26-29): vtable pointer, `numItems`, padding. -/
def msgSizeof : Nat := 16
/-- `offsetof(MsgModbusClientAduReq, items)` (MsgModbusClientAduReq.hpp:29). -/
def itemsOff : Nat := 12

/-- Reading `item.numBytes` through a pointer (MsgModbusClientAduReq.hpp:38,52,64). -/
def readNumBytes (m : Mem) (p : Nat) : Nat := leValue (memRead m (p + numBytesOff) 2)

/-- One iteration of the pointer walk, MsgModbusClientAduReq.hpp:37-42, 51-53, 63-65. -/
def stride (m : Mem) (p : Nat) : Nat := memAlign (itemSizeof + readNumBytes m p)

/-- `item(itemIdx)`, MsgModbusClientAduReq.hpp:46-56 and 58-68: pointer to item `i`. -/
def itemPtr (m : Mem) : Nat → Nat
  | 0 => 0
  | i + 1 => itemPtr m i + stride m (itemPtr m i)

/-- `size()`, MsgModbusClientAduReq.hpp:31-44, for `numItems = n`: the loop keeps the pointer and the
accumulated size. -/
def sizeLoop (m : Mem) : Nat → Nat × Nat
  | 0 => (0, msgSizeof)
  | n + 1 =>
    let (p, sz) := sizeLoop m n
    (p + stride m p, sz + stride m p)

def size (m : Mem) (n : Nat) : Nat := (sizeLoop m n).2

/-- A sender filling an item in place: the fixed fields before `numBytes` (with the padding byte after
`func` left alone), `numBytes`, then the data.  controller/modbus/ModbusTestController.cpp writes
items this way. -/
def writeItem (m : Mem) (p : Nat) (it : Item) : Mem :=
  let m := memWrite m p (leBytes 4 it.clientId.toNat)
  let m := memWrite m (p + 4) (leBytes 4 it.transactId.toNat)
  let m := memWrite m (p + 8) [it.func]
  let m := memWrite m (p + 10) (leBytes 2 it.addr.toNat)
  let m := memWrite m (p + 12) (leBytes 2 it.startItem.toNat)
  let m := memWrite m (p + 14) (leBytes 2 it.numItems.toNat)
  let m := memWrite m (p + numBytesOff) (leBytes 2 it.data.length)
  memWrite m (p + dataOff) it.data

/-- A receiver reading an item through its pointer. -/
def readItem (m : Mem) (p : Nat) : Item where
  clientId := UInt32.ofNat (leValue (memRead m p 4))
  transactId := UInt32.ofNat (leValue (memRead m (p + 4) 4))
  func := m (p + 8)
  addr := UInt16.ofNat (leValue (memRead m (p + 10) 2))
  startItem := UInt16.ofNat (leValue (memRead m (p + 12) 2))
  numItems := UInt16.ofNat (leValue (memRead m (p + 14) 2))
  data := memRead m (p + dataOff) (readNumBytes m p)

/-- Fill the items with indices `i, i+1, ...` in order, locating each with `item(i)`. -/
def fill (m : Mem) (i : Nat) : List Item → Mem
  | [] => m
  | it :: its => fill (writeItem m (itemPtr m i) it) (i + 1) its

/-! ## Helper lemmas -/

theorem memAlign_eq (v : Nat) (h : v + 15 < 2 ^ 64) : memAlign v = (v + 15) / 16 * 16 := by
  have h1 : (2 ^ 64 - 1 - 15 : Nat) = (2 ^ 60 - 1) <<< 4 := by decide
  have h2 : (v + 15) / 16 * 16 = ((v + 15) >>> 4) <<< 4 := by
    rw [Nat.shiftLeft_eq, Nat.shiftRight_eq_div_pow]
  unfold memAlign
  rw [Nat.mod_eq_of_lt h, h1, h2]
  apply Nat.eq_of_testBit_eq
  intro i
  simp only [Nat.testBit_and, Nat.testBit_shiftLeft, Nat.testBit_two_pow_sub_one,
    Nat.testBit_shiftRight]
  by_cases h4 : 4 ≤ i
  · simp only [ge_iff_le, h4, decide_true, Bool.true_and]
    have : 4 + (i - 4) = i := by omega
    rw [this]
    by_cases h5 : i - 4 < 60
    · simp [h5]
    · have : (v + 15).testBit i = false := by
        apply Nat.testBit_lt_two_pow
        exact Nat.lt_of_lt_of_le h (Nat.pow_le_pow_right (by omega) (by omega))
      simp [this]
  · simp [h4]

theorem writeItem_agree (m : Mem) (p q n : Nat) (it : Item)
    (h : q + n ≤ p ∨ p + dataOff + it.data.length ≤ q) :
    memRead (writeItem m p it) q n = memRead m q n := by
  have hd : dataOff = 18 := rfl
  have hn : numBytesOff = 16 := rfl
  unfold writeItem
  rw [MsgStorage.memRead_memWrite_disjoint _ _ _ _ _ (by omega),
    MsgStorage.memRead_memWrite_disjoint _ _ _ _ _ (by simp; omega),
    MsgStorage.memRead_memWrite_disjoint _ _ _ _ _ (by simp; omega),
    MsgStorage.memRead_memWrite_disjoint _ _ _ _ _ (by simp; omega),
    MsgStorage.memRead_memWrite_disjoint _ _ _ _ _ (by simp; omega),
    MsgStorage.memRead_memWrite_disjoint _ _ _ _ _ (by simp; omega),
    MsgStorage.memRead_memWrite_disjoint _ _ _ _ _ (by simp; omega),
    MsgStorage.memRead_memWrite_disjoint _ _ _ _ _ (by simp; omega)]

theorem byte_eq_memRead (m : Mem) (q : Nat) : m q = (memRead m q 1).getD 0 0 := by
  simp [memRead]

theorem readNumBytes_lt (m : Mem) (p : Nat) : readNumBytes m p < 65536 := by
  simp only [readNumBytes, memRead, List.range, List.range.loop, List.map, leValue]
  have h1 := (m (p + numBytesOff + 0)).toNat_lt
  have h2 := (m (p + numBytesOff + 1)).toNat_lt
  omega

theorem stride_eq (m : Mem) (p : Nat) : stride m p = (35 + readNumBytes m p) / 16 * 16 := by
  have := readNumBytes_lt m p
  have hs : itemSizeof = 20 := rfl
  unfold stride
  rw [memAlign_eq _ (by omega), hs]
  congr 2; omega

theorem readNumBytes_writeItem (m : Mem) (p : Nat) (it : Item) (h : it.data.length < 65536) :
    readNumBytes (writeItem m p it) p = it.data.length := by
  have hd : dataOff = 18 := rfl
  have hn : numBytesOff = 16 := rfl
  unfold readNumBytes writeItem
  rw [MsgStorage.memRead_memWrite_disjoint _ _ _ _ _ (by omega)]
  have := MsgStorage.memRead_memWrite_same
    (memWrite (memWrite (memWrite (memWrite (memWrite (memWrite m p (leBytes 4 it.clientId.toNat))
      (p + 4) (leBytes 4 it.transactId.toNat)) (p + 8) [it.func]) (p + 10)
      (leBytes 2 it.addr.toNat)) (p + 12) (leBytes 2 it.startItem.toNat)) (p + 14)
      (leBytes 2 it.numItems.toNat)) (p + numBytesOff) (leBytes 2 it.data.length)
  rw [MsgStorage.length_leBytes] at this
  rw [this, MsgStorage.leValue_leBytes _ _ (by omega)]

/-- Reading a field of size `n` at distance `k` right after it was written and later writes were
elsewhere. -/
theorem readItem_writeItem (m : Mem) (p : Nat) (it : Item) (h : it.data.length < 65536) :
    readItem (writeItem m p it) p = it := by
  have hd : dataOff = 18 := rfl
  have hn : numBytesOff = 16 := rfl
  have hnb := readNumBytes_writeItem m p it h
  have same : ∀ (m : Mem) (off n v : Nat), memRead (memWrite m off (leBytes n v)) off n = leBytes n v := by
    intro m off n v
    have := MsgStorage.memRead_memWrite_same m off (leBytes n v)
    rwa [MsgStorage.length_leBytes] at this
  obtain ⟨c, t, f, a, s, ni, d⟩ := it
  simp only [readItem, hnb]
  congr 1
  · unfold writeItem
    rw [MsgStorage.memRead_memWrite_disjoint _ _ _ _ _ (by omega),
      MsgStorage.memRead_memWrite_disjoint _ _ _ _ _ (by omega),
      MsgStorage.memRead_memWrite_disjoint _ _ _ _ _ (by omega),
      MsgStorage.memRead_memWrite_disjoint _ _ _ _ _ (by omega),
      MsgStorage.memRead_memWrite_disjoint _ _ _ _ _ (by omega),
      MsgStorage.memRead_memWrite_disjoint _ _ _ _ _ (by omega),
      MsgStorage.memRead_memWrite_disjoint _ _ _ _ _ (by omega), same,
      MsgStorage.leValue_leBytes _ _ (by have := c.toNat_lt; omega)]
    simp
  · unfold writeItem
    rw [MsgStorage.memRead_memWrite_disjoint _ _ _ _ _ (by omega),
      MsgStorage.memRead_memWrite_disjoint _ _ _ _ _ (by omega),
      MsgStorage.memRead_memWrite_disjoint _ _ _ _ _ (by omega),
      MsgStorage.memRead_memWrite_disjoint _ _ _ _ _ (by omega),
      MsgStorage.memRead_memWrite_disjoint _ _ _ _ _ (by omega),
      MsgStorage.memRead_memWrite_disjoint _ _ _ _ _ (by omega), same,
      MsgStorage.leValue_leBytes _ _ (by have := t.toNat_lt; omega)]
    simp
  · rw [byte_eq_memRead (writeItem _ _ _) (p + 8)]
    unfold writeItem
    rw [MsgStorage.memRead_memWrite_disjoint _ _ _ _ _ (by omega),
      MsgStorage.memRead_memWrite_disjoint _ _ _ _ _ (by omega),
      MsgStorage.memRead_memWrite_disjoint _ _ _ _ _ (by omega),
      MsgStorage.memRead_memWrite_disjoint _ _ _ _ _ (by omega),
      MsgStorage.memRead_memWrite_disjoint _ _ _ _ _ (by omega)]
    simp [memRead, memWrite]
  · unfold writeItem
    rw [MsgStorage.memRead_memWrite_disjoint _ _ _ _ _ (by omega),
      MsgStorage.memRead_memWrite_disjoint _ _ _ _ _ (by omega),
      MsgStorage.memRead_memWrite_disjoint _ _ _ _ _ (by omega),
      MsgStorage.memRead_memWrite_disjoint _ _ _ _ _ (by omega), same,
      MsgStorage.leValue_leBytes _ _ (by have := a.toNat_lt; omega)]
    simp
  · unfold writeItem
    rw [MsgStorage.memRead_memWrite_disjoint _ _ _ _ _ (by omega),
      MsgStorage.memRead_memWrite_disjoint _ _ _ _ _ (by omega),
      MsgStorage.memRead_memWrite_disjoint _ _ _ _ _ (by omega), same,
      MsgStorage.leValue_leBytes _ _ (by have := s.toNat_lt; omega)]
    simp
  · unfold writeItem
    rw [MsgStorage.memRead_memWrite_disjoint _ _ _ _ _ (by omega),
      MsgStorage.memRead_memWrite_disjoint _ _ _ _ _ (by omega), same,
      MsgStorage.leValue_leBytes _ _ (by have := ni.toNat_lt; omega)]
    simp
  · unfold writeItem
    exact MsgStorage.memRead_memWrite_same _ _ _

theorem readItem_agree (m m' : Mem) (p : Nat)
    (h : ∀ q n, p ≤ q → q + n ≤ p + dataOff + readNumBytes m p → memRead m' q n = memRead m q n) :
    readItem m' p = readItem m p ∧ readNumBytes m' p = readNumBytes m p := by
  have hd : dataOff = 18 := rfl
  have hn : numBytesOff = 16 := rfl
  have hnb : readNumBytes m' p = readNumBytes m p := by
    rw [readNumBytes, h _ _ (by omega) (by omega), readNumBytes]
  refine ⟨?_, hnb⟩
  simp only [readItem, hnb]
  congr 1
  · rw [h _ _ (by omega) (by omega)]
  · rw [h _ _ (by omega) (by omega)]
  · rw [byte_eq_memRead m', h _ _ (by omega) (by omega), ← byte_eq_memRead]
  · rw [h _ _ (by omega) (by omega)]
  · rw [h _ _ (by omega) (by omega)]
  · rw [h _ _ (by omega) (by omega)]
  · rw [h _ _ (by omega) (by omega)]

/-- Each item, with its data, ends at or before the start of the next one. -/
theorem itemPtr_succ_ge (m : Mem) (i : Nat) :
    itemPtr m i + dataOff + readNumBytes m (itemPtr m i) ≤ itemPtr m (i + 1) := by
  have hd : dataOff = 18 := rfl
  simp only [itemPtr, stride_eq]
  omega

theorem itemPtr_mono (m : Mem) {i j : Nat} (h : i ≤ j) : itemPtr m i ≤ itemPtr m j := by
  induction h with
  | refl => omega
  | @step j h ih => have := itemPtr_succ_ge m j; simp only [Nat.succ_eq_add_one]; omega

/-- Changing memory at or after the start of item `i` does not move the items up to `i`. -/
theorem itemPtr_agree (m m' : Mem) (i : Nat)
    (h : ∀ q n, q + n ≤ itemPtr m i → memRead m' q n = memRead m q n) :
    ∀ j, j ≤ i → itemPtr m' j = itemPtr m j := by
  intro j
  induction j with
  | zero => intro _; rfl
  | succ j ih =>
    intro hj
    have h1 := ih (by omega)
    have h2 := itemPtr_succ_ge m j
    have h3 := itemPtr_mono m hj
    have hd : dataOff = 18 := rfl
    have hn : numBytesOff = 16 := rfl
    simp only [itemPtr, h1, stride, readNumBytes]
    rw [h _ _ (by omega)]

theorem sizeLoop_eq (m : Mem) (n : Nat) : sizeLoop m n = (itemPtr m n, msgSizeof + itemPtr m n) := by
  induction n with
  | zero => rfl
  | succ n ih => simp only [sizeLoop, ih, itemPtr, Nat.add_assoc]

end Uscada.AduLayout
