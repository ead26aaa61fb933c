import Verif.UaWire
/-!
# Compositional reasoning about codec operations
-/

namespace Uscada.Ua

/-- Bytes appended at the write position. -/
def Buf.append (b : Buf) (w : List UInt8) : Buf :=
  { b with packet := memWrite b.packet b.head w, head := b.head + w.length }

/-- The read position moved by `n`. -/
def Buf.skip (b : Buf) (n : Nat) : Buf := { b with tail := b.tail + n }

/-- The operation appends exactly `w` when it fits; otherwise it writes outside the array. -/
def Writes (e : Codec Unit) (w : List UInt8) : Prop :=
  ∀ b : Buf, b.head ≤ maxPacketLen →
    e b = if b.head + w.length ≤ maxPacketLen then .ok ((), b.append w) else .ub

/-- When `w` is at the read position the operation yields `v` and consumes exactly `w`. -/
def Reads {α : Type} (d : Codec α) (w : List UInt8) (v : α) : Prop :=
  ∀ b : Buf, b.tail + w.length ≤ maxPacketLen → memRead b.packet b.tail w.length = w →
    d b = .ok (v, b.skip w.length)

/-- The result depends only on the bytes consumed; the buffer is otherwise left alone. -/
def Local {α : Type} (d : Codec α) : Prop :=
  ∀ b v b', d b = .ok (v, b') →
    (b'.packet = b.packet ∧ b'.head = b.head ∧ b.tail ≤ b'.tail ∧
      (b.tail ≤ maxPacketLen → b'.tail ≤ maxPacketLen)) ∧
    ∀ c : Buf, c.tail = b.tail → (∀ i, b.tail ≤ i → i < b'.tail → c.packet i = b.packet i) →
      d c = .ok (v, { c with tail := b'.tail })

/-! ## Memory -/

theorem memWrite_nil (m : Mem) (off : Nat) : memWrite m off [] = m := by
  funext i
  simp only [memWrite, List.length_nil]
  split
  · omega
  · rfl

theorem memWrite_app (m : Mem) (off : Nat) (l l' : List UInt8) :
    memWrite m off (l ++ l') = memWrite (memWrite m off l) (off + l.length) l' := by
  funext i
  simp only [memWrite, List.length_append]
  by_cases h1 : off ≤ i ∧ i < off + l.length
  · have h2 : ¬ (off + l.length ≤ i ∧ i < off + l.length + l'.length) := by omega
    have h3 : off ≤ i ∧ i < off + (l.length + l'.length) := by omega
    rw [if_pos h3, if_neg h2, if_pos h1]
    simp only [List.getD_eq_getElem?_getD]
    rw [List.getElem?_append_left (by omega)]
  · by_cases h2 : off + l.length ≤ i ∧ i < off + l.length + l'.length
    · have h3 : off ≤ i ∧ i < off + (l.length + l'.length) := by omega
      rw [if_pos h3, if_pos h2]
      simp only [List.getD_eq_getElem?_getD]
      rw [List.getElem?_append_right (by omega), show i - (off + l.length) = i - off - l.length by omega]
    · have h3 : ¬ (off ≤ i ∧ i < off + (l.length + l'.length)) := by omega
      rw [if_neg h3, if_neg h2, if_neg h1]

theorem memRead_split (m : Mem) (off a b : Nat) :
    memRead m off (a + b) = memRead m off a ++ memRead m (off + a) b := by
  simp only [memRead, List.range_add, List.map_append, List.map_map]
  congr 1
  apply List.map_congr_left
  intro i _
  simp [Nat.add_assoc]

theorem memRead_app {m : Mem} {off : Nat} {w1 w2 : List UInt8}
    (h : memRead m off (w1 ++ w2).length = w1 ++ w2) :
    memRead m off w1.length = w1 ∧ memRead m (off + w1.length) w2.length = w2 := by
  rw [List.length_append, memRead_split] at h
  exact List.append_inj h (by simp [MsgStorage.length_memRead])

/-! ## Writing -/

theorem Writes.nil : Writes (pure ()) [] := by
  intro b hb
  simp only [List.length_nil, Nat.add_zero, if_pos hb]
  simp [Buf.append, memWrite_nil]

theorem Writes.bind {e f : Codec Unit} {w1 w2 : List UInt8} (h1 : Writes e w1) (h2 : Writes f w2) :
    Writes (do e; f) (w1 ++ w2) := by
  intro b hb
  show (e b >>= fun p => f p.2) = _
  rw [h1 b hb]
  by_cases hf : b.head + w1.length ≤ maxPacketLen
  · rw [if_pos hf]
    simp only [Exec.ok_bind]
    rw [h2 (b.append w1) hf]
    simp only [Buf.append, List.length_append, memWrite_app, Nat.add_assoc]
  · rw [if_neg hf, if_neg (by simp only [List.length_append]; omega)]
    rfl

theorem Writes.write (v : UInt8) : Writes (write v) [v] := by
  intro b hb
  simp only [Ua.write, List.length_cons, List.length_nil, Buf.append]
  by_cases h : b.head < maxPacketLen
  · rw [if_pos h, if_pos (by omega)]
  · rw [if_neg h, if_neg (by omega)]

theorem Writes.writeL (l : List UInt8) : Writes (writeL l) l := by
  induction l with
  | nil => exact Writes.nil
  | cons x xs ih => exact Writes.bind (Writes.write x) ih

/-! ## Reading -/

theorem Reads.pure {α : Type} (v : α) : Reads (pure v) [] v := by
  intro b _ _
  rfl

theorem Reads.bind {α β : Type} {d : Codec α} {f : α → Codec β} {w1 w2 : List UInt8} {v : α} {u : β}
    (h1 : Reads d w1 v) (h2 : Reads (f v) w2 u) : Reads (d >>= f) (w1 ++ w2) u := by
  intro b hl hb
  have := memRead_app hb
  rw [List.length_append] at hl
  rw [Codec.bind_run, h1 b (by omega) this.1]
  simp only [Exec.ok_bind]
  rw [h2 (b.skip w1.length) (by simp only [Buf.skip]; omega) this.2]
  simp only [Buf.skip, List.length_append, Nat.add_assoc]

/-- The last step of a decoder only builds the value. -/
theorem Reads.map {α β : Type} {d : Codec α} {f : α → β} {w : List UInt8} {v : α}
    (h : Reads d w v) : Reads (do let x ← d; Pure.pure (f x)) w (f v) := by
  have := Reads.bind (f := fun x => Pure.pure (f x)) h (Reads.pure (f v))
  rwa [List.append_nil] at this

theorem Reads.read (v : UInt8) : Reads read [v] v := by
  intro b hl hb
  simp only [List.length_cons, List.length_nil] at hl
  have h : b.packet b.tail = v := by
    simpa [memRead] using hb
  simp only [Ua.read, h, if_pos (show b.tail < maxPacketLen by omega)]
  rfl

theorem Reads.readN (l : List UInt8) : Reads (readN l.length) l l := by
  induction l with
  | nil => exact Reads.pure _
  | cons x xs ih =>
    show Reads (do let y ← Ua.read; let ys ← Ua.readN xs.length; Pure.pure (y :: ys)) ([x] ++ xs) _
    exact Reads.bind (Reads.read x) (Reads.map (f := fun ys => x :: ys) ih)

/-! ## Locality -/

theorem Local.pure {α : Type} (v : α) : Local (pure v) := by
  intro b v' b' h
  simp only [Codec.pure_run, Exec.ok.injEq, Prod.mk.injEq] at h
  obtain ⟨rfl, rfl⟩ := h
  refine ⟨⟨rfl, rfl, Nat.le_refl _, id⟩, ?_⟩
  intro c hc _
  simp only [Codec.pure_run]
  rw [← hc]

theorem Local.bind {α β : Type} {d : Codec α} {f : α → Codec β} (h1 : Local d)
    (h2 : ∀ v, Local (f v)) : Local (d >>= f) := by
  intro b u b'' h
  rw [Codec.bind_run, Exec.bind_eq_ok] at h
  obtain ⟨⟨v, b'⟩, hd, hf⟩ := h
  obtain ⟨⟨p1, p2, p3, p4⟩, q⟩ := h1 b v b' hd
  obtain ⟨⟨r1, r2, r3, r4⟩, s⟩ := h2 v b' u b'' hf
  refine ⟨⟨r1.trans p1, r2.trans p2, by omega, fun h => r4 (p4 h)⟩, ?_⟩
  intro c hc hp
  rw [Codec.bind_run, q c hc (fun i h1 h2 => hp i h1 (by omega))]
  simp only [Exec.ok_bind]
  have := s { c with tail := b'.tail } rfl
    (fun i h1 h2 => by rw [p1]; exact hp i (by omega) h2)
  exact this

theorem Local.read : Local read := by
  intro b v b' h
  simp only [Ua.read] at h
  by_cases hb : b.tail < maxPacketLen
  · rw [if_pos hb] at h
    simp only [Exec.ok.injEq, Prod.mk.injEq] at h
    obtain ⟨rfl, rfl⟩ := h
    refine ⟨⟨rfl, rfl, by simp, fun _ => by simp only; omega⟩, ?_⟩
    intro c hc hp
    simp only [Ua.read, hc, if_pos hb]
    rw [hp b.tail (Nat.le_refl _) (by simp)]
  · rw [if_neg hb] at h
    cases h

theorem Local.throws {α : Type} : Local (Codec.throws : Codec α) := by
  intro b v b' h
  cases h

theorem Local.terminate {α : Type} : Local (Codec.terminate : Codec α) := by
  intro b v b' h
  cases h

theorem Local.ite {α : Type} {c : Prop} [Decidable c] {d e : Codec α} (h1 : Local d)
    (h2 : Local e) : Local (if c then d else e) := by
  split
  · exact h1
  · exact h2

theorem Local.readN (n : Nat) : Local (readN n) := by
  induction n with
  | zero => exact Local.pure _
  | succ n ih => exact Local.bind Local.read fun _ => Local.bind ih fun _ => Local.pure _

/-! ## Lawful types -/

/-- The encoder and decoder of a type agree with its wire format. -/
class Lawful (α : Type) [Ua α] [Wire α] : Prop where
  writes : ∀ v : α, Wire.ok v → Writes (enc v) (wire v)
  reads : ∀ v : α, Wire.ok v → Reads (dec Ua.init) (wire v) v

/-- The decoder of a type only depends on the bytes it consumes. -/
class LocalDec (α : Type) [Ua α] : Prop where
  loc : ∀ old : α, Local (dec old)

/-! ## Integers -/

theorem u8_bit (n i : Nat) (hi : i < 8) : (UInt8.ofNat n).toBitVec[i] = n.testBit i := by
  show (BitVec.ofNat 8 n)[i] = _
  rw [← BitVec.getLsbD_eq_getElem, BitVec.getLsbD_ofNat]
  simp [hi]

theorem byte_u16 (v : UInt16) (k : Nat) (hk : k ≤ 8) :
    (v >>> (UInt16.ofNat k)).toUInt8 = UInt8.ofNat (v.toNat / 2 ^ k) := by
  apply UInt8.toNat_inj.1
  have h1 : k % 2 ^ 16 = k := Nat.mod_eq_of_lt (by omega)
  have h2 : k % 16 = k := Nat.mod_eq_of_lt (by omega)
  simp only [UInt16.toNat_toUInt8, UInt16.toNat_shiftRight, UInt16.toNat_ofNat', h1, h2,
    UInt8.toNat_ofNat', Nat.shiftRight_eq_div_pow]

theorem byte_u32 (v : UInt32) (k : Nat) (hk : k ≤ 24) :
    (v >>> (UInt32.ofNat k)).toUInt8 = UInt8.ofNat (v.toNat / 2 ^ k) := by
  apply UInt8.toNat_inj.1
  have h1 : k % 2 ^ 32 = k := Nat.mod_eq_of_lt (by omega)
  have h2 : k % 32 = k := Nat.mod_eq_of_lt (by omega)
  simp only [UInt32.toNat_toUInt8, UInt32.toNat_shiftRight, UInt32.toNat_ofNat', h1, h2,
    UInt8.toNat_ofNat', Nat.shiftRight_eq_div_pow]

theorem byte_u64 (v : UInt64) (k : Nat) (hk : k ≤ 56) :
    (v >>> (UInt64.ofNat k)).toUInt8 = UInt8.ofNat (v.toNat / 2 ^ k) := by
  apply UInt8.toNat_inj.1
  have h1 : k % 2 ^ 64 = k := Nat.mod_eq_of_lt (by omega)
  have h2 : k % 64 = k := Nat.mod_eq_of_lt (by omega)
  simp only [UInt64.toNat_toUInt8, UInt64.toNat_shiftRight, UInt64.toNat_ofNat', h1, h2,
    UInt8.toNat_ofNat', Nat.shiftRight_eq_div_pow]

theorem byte_i16 (v s : Int16) (k : Nat) (hs : (s.toBitVec.smod 16#16).toNat = k) (hk : k ≤ 8) :
    (v >>> s).toInt8.toUInt8 = UInt8.ofNat (v.toUInt16.toNat / 2 ^ k) := by
  apply UInt8.toBitVec_inj.1
  ext i hi
  have h2 : k + i < 16 := by omega
  have : i < 16 := by omega
  rw [u8_bit _ _ hi, Nat.testBit_div_two_pow, Nat.add_comm]
  simp [Int16.toBitVec_shiftRight, BitVec.getElem_signExtend, BitVec.getElem_sshiftRight, hs, h2,
    this]
  rfl

theorem byte_i32 (v s : Int32) (k : Nat) (hs : (s.toBitVec.smod 32#32).toNat = k) (hk : k ≤ 24) :
    (v >>> s).toInt8.toUInt8 = UInt8.ofNat (v.toUInt32.toNat / 2 ^ k) := by
  apply UInt8.toBitVec_inj.1
  ext i hi
  have h2 : k + i < 32 := by omega
  have : i < 32 := by omega
  rw [u8_bit _ _ hi, Nat.testBit_div_two_pow, Nat.add_comm]
  simp [Int32.toBitVec_shiftRight, BitVec.getElem_signExtend, BitVec.getElem_sshiftRight, hs, h2,
    this]
  rfl

theorem byte_i64 (v s : Int64) (k : Nat) (hs : (s.toBitVec.smod 64#64).toNat = k) (hk : k ≤ 56) :
    (v >>> s).toInt8.toUInt8 = UInt8.ofNat (v.toUInt64.toNat / 2 ^ k) := by
  apply UInt8.toBitVec_inj.1
  ext i hi
  have h2 : k + i < 64 := by omega
  have : i < 64 := by omega
  rw [u8_bit _ _ hi, Nat.testBit_div_two_pow, Nat.add_comm]
  simp [Int64.toBitVec_shiftRight, BitVec.getElem_signExtend, BitVec.getElem_sshiftRight, hs, h2,
    this]
  rfl

theorem byte0_i (v : Int8) : v.toUInt8 = UInt8.ofNat v.toUInt8.toNat := by simp
theorem byte0_i16 (v : Int16) : v.toInt8.toUInt8 = UInt8.ofNat v.toUInt16.toNat := by
  apply UInt8.toBitVec_inj.1
  ext i hi
  have : i < 16 := by omega
  rw [u8_bit _ _ hi]
  simp [BitVec.getElem_signExtend, this]
  rfl
theorem byte0_i32 (v : Int32) : v.toInt8.toUInt8 = UInt8.ofNat v.toUInt32.toNat := by
  apply UInt8.toBitVec_inj.1
  ext i hi
  have : i < 32 := by omega
  rw [u8_bit _ _ hi]
  simp [BitVec.getElem_signExtend, this]
  rfl
theorem byte0_i64 (v : Int64) : v.toInt8.toUInt8 = UInt8.ofNat v.toUInt64.toNat := by
  apply UInt8.toBitVec_inj.1
  ext i hi
  have : i < 64 := by omega
  rw [u8_bit _ _ hi]
  simp [BitVec.getElem_signExtend, this]
  rfl

theorem or_u16 (x : UInt8) (r : UInt16) (k : Nat) (hk : k ≤ 8) (hr : r.toNat < 2 ^ k) :
    (x.toUInt16 <<< (UInt16.ofNat k) ||| r).toNat = x.toNat * 2 ^ k + r.toNat := by
  have hx : x.toNat < 256 := x.toNat_lt
  have h1 : k % 2 ^ 16 = k := Nat.mod_eq_of_lt (by omega)
  have h2 : k % 16 = k := Nat.mod_eq_of_lt (by omega)
  have h3 : x.toNat * 2 ^ k < 2 ^ 16 := by
    have : x.toNat * 2 ^ k ≤ 255 * 2 ^ k := Nat.mul_le_mul_right _ (by omega)
    have : 2 ^ k ≤ 2 ^ 8 := Nat.pow_le_pow_right (by omega) hk
    omega
  have := Nat.shiftLeft_add_eq_or_of_lt hr x.toNat
  simp only [UInt16.toNat_or, UInt16.toNat_shiftLeft, UInt8.toNat_toUInt16, UInt16.toNat_ofNat',
    h1, h2, Nat.shiftLeft_eq, Nat.mod_eq_of_lt h3]
  simp only [Nat.shiftLeft_eq] at this
  exact this.symm

theorem or_u32 (x : UInt8) (r : UInt32) (k : Nat) (hk : k ≤ 24) (hr : r.toNat < 2 ^ k) :
    (x.toUInt32 <<< (UInt32.ofNat k) ||| r).toNat = x.toNat * 2 ^ k + r.toNat := by
  have hx : x.toNat < 256 := x.toNat_lt
  have h1 : k % 2 ^ 32 = k := Nat.mod_eq_of_lt (by omega)
  have h2 : k % 32 = k := Nat.mod_eq_of_lt (by omega)
  have h3 : x.toNat * 2 ^ k < 2 ^ 32 := by
    have : x.toNat * 2 ^ k ≤ 255 * 2 ^ k := Nat.mul_le_mul_right _ (by omega)
    have : 2 ^ k ≤ 2 ^ 24 := Nat.pow_le_pow_right (by omega) hk
    omega
  have := Nat.shiftLeft_add_eq_or_of_lt hr x.toNat
  simp only [UInt32.toNat_or, UInt32.toNat_shiftLeft, UInt8.toNat_toUInt32, UInt32.toNat_ofNat',
    h1, h2, Nat.shiftLeft_eq, Nat.mod_eq_of_lt h3]
  simp only [Nat.shiftLeft_eq] at this
  exact this.symm

theorem or_u64 (x : UInt8) (r : UInt64) (k : Nat) (hk : k ≤ 56) (hr : r.toNat < 2 ^ k) :
    (x.toUInt64 <<< (UInt64.ofNat k) ||| r).toNat = x.toNat * 2 ^ k + r.toNat := by
  have hx : x.toNat < 256 := x.toNat_lt
  have h1 : k % 2 ^ 64 = k := Nat.mod_eq_of_lt (by omega)
  have h2 : k % 64 = k := Nat.mod_eq_of_lt (by omega)
  have h3 : x.toNat * 2 ^ k < 2 ^ 64 := by
    have : x.toNat * 2 ^ k ≤ 255 * 2 ^ k := Nat.mul_le_mul_right _ (by omega)
    have : 2 ^ k ≤ 2 ^ 56 := Nat.pow_le_pow_right (by omega) hk
    omega
  have := Nat.shiftLeft_add_eq_or_of_lt hr x.toNat
  simp only [UInt64.toNat_or, UInt64.toNat_shiftLeft, UInt8.toNat_toUInt64, UInt64.toNat_ofNat',
    h1, h2, Nat.shiftLeft_eq, Nat.mod_eq_of_lt h3]
  simp only [Nat.shiftLeft_eq] at this
  exact this.symm

theorem comb_u16 (a b : UInt8) : (b.toUInt16 <<< 8 ||| a.toUInt16).toNat = leValue [a, b] := by
  have ha := a.toNat_lt
  have k1 := or_u16 b a.toUInt16 8 (by omega) (by simp; omega)
  simp at k1 ⊢
  simp only [leValue]
  omega

theorem comb_u32 (a b c d : UInt8) :
    (d.toUInt32 <<< 24 ||| c.toUInt32 <<< 16 ||| b.toUInt32 <<< 8 ||| a.toUInt32).toNat
      = leValue [a, b, c, d] := by
  have ha := a.toNat_lt
  have hb := b.toNat_lt
  have hc := c.toNat_lt
  simp only [UInt32.or_assoc]
  have k1 := or_u32 b a.toUInt32 8 (by omega) (by simp; omega)
  have k2 := or_u32 c _ 16 (by omega) (by rw [k1]; simp; omega)
  have k3 := or_u32 d _ 24 (by omega) (by rw [k2, k1]; simp; omega)
  rw [k2, k1] at k3
  simp at k3 ⊢
  simp only [leValue]
  omega

theorem comb_u64 (a b c d e f g h : UInt8) :
    (h.toUInt64 <<< 56 ||| g.toUInt64 <<< 48 ||| f.toUInt64 <<< 40 ||| e.toUInt64 <<< 32
      ||| d.toUInt64 <<< 24 ||| c.toUInt64 <<< 16 ||| b.toUInt64 <<< 8 ||| a.toUInt64).toNat
      = leValue [a, b, c, d, e, f, g, h] := by
  have ha := a.toNat_lt
  have hb := b.toNat_lt
  have hc := c.toNat_lt
  have hd := d.toNat_lt
  have he := e.toNat_lt
  have hf := f.toNat_lt
  have hg := g.toNat_lt
  simp only [UInt64.or_assoc]
  have k1 := or_u64 b a.toUInt64 8 (by omega) (by simp; omega)
  have k2 := or_u64 c _ 16 (by omega) (by rw [k1]; simp; omega)
  have k3 := or_u64 d _ 24 (by omega) (by rw [k2, k1]; simp; omega)
  have k4 := or_u64 e _ 32 (by omega) (by rw [k3, k2, k1]; simp; omega)
  have k5 := or_u64 f _ 40 (by omega) (by rw [k4, k3, k2, k1]; simp; omega)
  have k6 := or_u64 g _ 48 (by omega) (by rw [k5, k4, k3, k2, k1]; simp; omega)
  have k7 := or_u64 h _ 56 (by omega) (by rw [k6, k5, k4, k3, k2, k1]; simp; omega)
  rw [k6, k5, k4, k3, k2, k1] at k7
  simp at k7 ⊢
  simp only [leValue]
  omega

/-- Writing two, four, eight bytes. -/
theorem Writes.two {a b : UInt8} {w : List UInt8} (h : w = [a, b]) :
    Writes (do Ua.write a; Ua.write b) w := by
  subst h
  exact Writes.bind (Writes.write a) (Writes.write b)

theorem Writes.four {a b c d : UInt8} {w : List UInt8} (h : w = [a, b, c, d]) :
    Writes (do Ua.write a; Ua.write b; Ua.write c; Ua.write d) w := by
  subst h
  exact Writes.bind (Writes.write a) (Writes.bind (Writes.write b) (Writes.bind (Writes.write c)
    (Writes.write d)))

theorem Writes.eight {a b c d e f g h : UInt8} {w : List UInt8} (hw : w = [a, b, c, d, e, f, g, h]) :
    Writes (do Ua.write a; Ua.write b; Ua.write c; Ua.write d; Ua.write e; Ua.write f; Ua.write g
               Ua.write h) w := by
  subst hw
  exact Writes.bind (Writes.write a) (Writes.bind (Writes.write b) (Writes.bind (Writes.write c)
    (Writes.bind (Writes.write d) (Writes.bind (Writes.write e) (Writes.bind (Writes.write f)
      (Writes.bind (Writes.write g) (Writes.write h)))))))

theorem Reads.two {α : Type} {k : UInt8 → UInt8 → α} {w : List UInt8} {a b : UInt8} {v : α}
    (hw : w = [a, b]) (hv : k a b = v) :
    Reads (do let a ← Ua.read; let b ← Ua.read; Pure.pure (k a b)) w v := by
  subst hw hv
  exact Reads.bind (Reads.read a) (Reads.bind (Reads.read b) (Reads.pure _))

theorem Reads.four {α : Type} {k : UInt8 → UInt8 → UInt8 → UInt8 → α} {w : List UInt8}
    {a b c d : UInt8} {v : α} (hw : w = [a, b, c, d]) (hv : k a b c d = v) :
    Reads (do let a ← Ua.read; let b ← Ua.read; let c ← Ua.read; let d ← Ua.read
              Pure.pure (k a b c d)) w v := by
  subst hw hv
  exact Reads.bind (Reads.read a) (Reads.bind (Reads.read b) (Reads.bind (Reads.read c)
    (Reads.bind (Reads.read d) (Reads.pure _))))

theorem Reads.eight {α : Type}
    {k : UInt8 → UInt8 → UInt8 → UInt8 → UInt8 → UInt8 → UInt8 → UInt8 → α} {w : List UInt8}
    {a b c d e f g h : UInt8} {v : α} (hw : w = [a, b, c, d, e, f, g, h])
    (hv : k a b c d e f g h = v) :
    Reads (do let a ← Ua.read; let b ← Ua.read; let c ← Ua.read; let d ← Ua.read
              let e ← Ua.read; let f ← Ua.read; let g ← Ua.read; let h ← Ua.read
              Pure.pure (k a b c d e f g h)) w v := by
  subst hw hv
  exact Reads.bind (Reads.read a) (Reads.bind (Reads.read b) (Reads.bind (Reads.read c)
    (Reads.bind (Reads.read d) (Reads.bind (Reads.read e) (Reads.bind (Reads.read f)
      (Reads.bind (Reads.read g) (Reads.bind (Reads.read h) (Reads.pure _))))))))

theorem le2 (n : Nat) : leBytes 2 n = [UInt8.ofNat n, UInt8.ofNat (n / 2 ^ 8)] := rfl
theorem le4 (n : Nat) : leBytes 4 n = [UInt8.ofNat n, UInt8.ofNat (n / 2 ^ 8),
    UInt8.ofNat (n / 2 ^ 16), UInt8.ofNat (n / 2 ^ 24)] := by
  simp only [leBytes, Nat.div_div_eq_div_mul]
theorem le8 (n : Nat) : leBytes 8 n = [UInt8.ofNat n, UInt8.ofNat (n / 2 ^ 8),
    UInt8.ofNat (n / 2 ^ 16), UInt8.ofNat (n / 2 ^ 24), UInt8.ofNat (n / 2 ^ 32),
    UInt8.ofNat (n / 2 ^ 40), UInt8.ofNat (n / 2 ^ 48), UInt8.ofNat (n / 2 ^ 56)] := by
  simp only [leBytes, Nat.div_div_eq_div_mul]

theorem le4v {n : Nat} (h : n < 2 ^ 32) : leValue [UInt8.ofNat n, UInt8.ofNat (n / 2 ^ 8),
    UInt8.ofNat (n / 2 ^ 16), UInt8.ofNat (n / 2 ^ 24)] = n := by
  rw [← le4]; exact MsgStorage.leValue_leBytes 4 n h
theorem le2v {n : Nat} (h : n < 2 ^ 16) : leValue [UInt8.ofNat n, UInt8.ofNat (n / 2 ^ 8)] = n := by
  rw [← le2]; exact MsgStorage.leValue_leBytes 2 n h
theorem le8v {n : Nat} (h : n < 2 ^ 64) : leValue [UInt8.ofNat n, UInt8.ofNat (n / 2 ^ 8),
    UInt8.ofNat (n / 2 ^ 16), UInt8.ofNat (n / 2 ^ 24), UInt8.ofNat (n / 2 ^ 32),
    UInt8.ofNat (n / 2 ^ 40), UInt8.ofNat (n / 2 ^ 48), UInt8.ofNat (n / 2 ^ 56)] = n := by
  rw [← le8]; exact MsgStorage.leValue_leBytes 8 n h

instance : Lawful UInt8 where
  writes v _ := by
    show Writes (write v) [UInt8.ofNat v.toNat]
    simpa using Writes.write v
  reads v _ := by
    show Reads read [UInt8.ofNat v.toNat] v
    simpa using Reads.read v
instance : Lawful Bool where
  writes v _ := by
    show Writes (write _) [if v then 1 else 0]
    exact Writes.write _
  reads v _ := by
    show Reads (do let x ← read; Pure.pure (x != 0)) [if v then 1 else 0] v
    have := Reads.map (f := fun x : UInt8 => x != 0) (Reads.read (if v then 1 else 0))
    cases v <;> exact this
instance : Lawful Int8 where
  writes v _ := by
    show Writes (write v.toUInt8) [UInt8.ofNat v.toUInt8.toNat]
    rw [← byte0_i]
    exact Writes.write _
  reads v _ := by
    show Reads (do let x ← read; Pure.pure x.toInt8) [UInt8.ofNat v.toUInt8.toNat] v
    rw [← byte0_i]
    exact Reads.map (f := UInt8.toInt8) (Reads.read v.toUInt8)

instance : Lawful UInt16 where
  writes v _ := Writes.two (by
    rw [show (v >>> 8).toUInt8 = _ from byte_u16 v 8 (by omega)]
    show leBytes 2 _ = _
    rw [le2]
    congr 1)
  reads v _ := Reads.two (le2 v.toNat) (UInt16.toNat_inj.1 (by
    rw [comb_u16, le2v v.toNat_lt]))
instance : Lawful Int16 where
  writes v _ := Writes.two (by
    rw [show (v >>> 8).toInt8.toUInt8 = _ from byte_i16 v 8 8 (by decide) (by omega), byte0_i16]
    exact le2 _)
  reads v _ := Reads.two (le2 v.toUInt16.toNat) (by
    show UInt16.toInt16 _ = v
    rw [show ((UInt8.ofNat (v.toUInt16.toNat / 2 ^ 8)).toUInt16 <<< 8 |||
      (UInt8.ofNat v.toUInt16.toNat).toUInt16) = v.toUInt16 from UInt16.toNat_inj.1 (by
        rw [comb_u16, le2v v.toUInt16.toNat_lt])]
    rfl)
instance : Lawful UInt32 where
  writes v _ := Writes.four (by
    rw [show (v >>> 8).toUInt8 = _ from byte_u32 v 8 (by omega),
      show (v >>> 16).toUInt8 = _ from byte_u32 v 16 (by omega),
      show (v >>> 24).toUInt8 = _ from byte_u32 v 24 (by omega)]
    show leBytes 4 _ = _
    rw [le4]
    congr 1)
  reads v _ := Reads.four (le4 v.toNat) (UInt32.toNat_inj.1 (by
    rw [comb_u32, le4v v.toNat_lt]))
instance : Lawful Int32 where
  writes v _ := Writes.four (by
    rw [show (v >>> 8).toInt8.toUInt8 = _ from byte_i32 v 8 8 (by decide) (by omega),
      show (v >>> 16).toInt8.toUInt8 = _ from byte_i32 v 16 16 (by decide) (by omega),
      show (v >>> 24).toInt8.toUInt8 = _ from byte_i32 v 24 24 (by decide) (by omega), byte0_i32]
    exact le4 _)
  reads v _ := Reads.four (le4 v.toUInt32.toNat) (by
    have : _ = v.toUInt32 := UInt32.toNat_inj.1 (by
        rw [comb_u32, le4v v.toUInt32.toNat_lt])
    rw [this]
    rfl)
instance : Lawful UInt64 where
  writes v _ := Writes.eight (by
    rw [show (v >>> 8).toUInt8 = _ from byte_u64 v 8 (by omega),
      show (v >>> 16).toUInt8 = _ from byte_u64 v 16 (by omega),
      show (v >>> 24).toUInt8 = _ from byte_u64 v 24 (by omega),
      show (v >>> 32).toUInt8 = _ from byte_u64 v 32 (by omega),
      show (v >>> 40).toUInt8 = _ from byte_u64 v 40 (by omega),
      show (v >>> 48).toUInt8 = _ from byte_u64 v 48 (by omega),
      show (v >>> 56).toUInt8 = _ from byte_u64 v 56 (by omega)]
    show leBytes 8 _ = _
    rw [le8]
    congr 1)
  reads v _ := Reads.eight (le8 v.toNat) (UInt64.toNat_inj.1 (by
    rw [comb_u64, le8v v.toNat_lt]))
instance : Lawful Int64 where
  writes v _ := Writes.eight (by
    rw [show (v >>> 8).toInt8.toUInt8 = _ from byte_i64 v 8 8 (by decide) (by omega),
      show (v >>> 16).toInt8.toUInt8 = _ from byte_i64 v 16 16 (by decide) (by omega),
      show (v >>> 24).toInt8.toUInt8 = _ from byte_i64 v 24 24 (by decide) (by omega),
      show (v >>> 32).toInt8.toUInt8 = _ from byte_i64 v 32 32 (by decide) (by omega),
      show (v >>> 40).toInt8.toUInt8 = _ from byte_i64 v 40 40 (by decide) (by omega),
      show (v >>> 48).toInt8.toUInt8 = _ from byte_i64 v 48 48 (by decide) (by omega),
      show (v >>> 56).toInt8.toUInt8 = _ from byte_i64 v 56 56 (by decide) (by omega), byte0_i64]
    exact le8 _)
  reads v _ := Reads.eight (le8 v.toUInt64.toNat) (by
    have : _ = v.toUInt64 := UInt64.toNat_inj.1 (by
        rw [comb_u64, le8v v.toUInt64.toNat_lt])
    rw [this]
    rfl)
instance : Lawful F32 where
  writes v _ := (Lawful.writes v.bits trivial : Writes (enc v.bits) _)
  reads v _ := Reads.four (le4 v.bits.toNat) (by
    have : _ = v.bits := UInt32.toNat_inj.1 (by
        rw [comb_u32, le4v v.bits.toNat_lt])
    rw [this])
instance : Lawful F64 where
  writes v _ := (Lawful.writes v.bits trivial : Writes (enc v.bits) _)
  reads v _ := Reads.eight (le8 v.bits.toNat) (by
    have : _ = v.bits := UInt64.toNat_inj.1 (by
        rw [comb_u64, le8v v.bits.toNat_lt])
    rw [this])
instance : Lawful DateTime where
  writes v _ := (Lawful.writes v.val trivial : Writes (enc v.val) _)
  reads v _ := Reads.map (f := DateTime.mk) (Lawful.reads v.val trivial)
instance : Lawful StatusCode where
  writes v _ := (Lawful.writes v.val trivial : Writes (enc v.val) _)
  reads v _ := Reads.map (f := StatusCode.mk) (Lawful.reads v.val trivial)

end Uscada.Ua
