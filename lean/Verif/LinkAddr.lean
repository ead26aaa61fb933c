/-!
# `LinkAddr` (common/reactor/types/LinkAddr.hpp)

`char data[16]` holds the IPv4 address in bytes 0-3 and the port in bytes 4-5.  `char` is signed on
the target platform (x86-64), so converting a byte of 128 or more to a wider unsigned type extends
its sign.
-/

namespace Uscada.LinkAddr

/-- Conversion `char -> uintN_t` with `N = w`: sign extension modulo `2^w`. -/
def charTo (w : Nat) (b : UInt8) : Nat :=
  if b.toNat < 128 then b.toNat else b.toNat + 2 ^ w - 256

/-- common/reactor/types/LinkAddr.hpp:18-23.  `a << 8 | b` is computed in `int` (no overflow: `a` is at
most 65535) and converted back to 16 bits. -/
def ipv4port (data : Nat → UInt8) : Nat :=
  ((charTo 16 (data 4)) <<< 8 ||| charTo 16 (data 5)) % 2 ^ 16

/-- common/reactor/types/LinkAddr.hpp:25-32, all in 32-bit unsigned arithmetic. -/
def ipv4addr (data : Nat → UInt8) : Nat :=
  ((charTo 32 (data 0)) <<< 24 % 2 ^ 32 ||| (charTo 32 (data 1)) <<< 16 % 2 ^ 32 |||
    (charTo 32 (data 2)) <<< 8 % 2 ^ 32 ||| charTo 32 (data 3))

/-- Appending a sign-extended byte below an accumulated value, in `w`-bit arithmetic. -/
def combine (w acc : Nat) (b : UInt8) : Nat :=
  if b.toNat < 128 then acc * 256 + b.toNat else 2 ^ w - 256 + b.toNat

theorem or_low {x b : Nat} (h : b < 256) : (x <<< 8 ||| b) = x * 256 + b := by
  rw [← Nat.shiftLeft_add_eq_or_of_lt (i := 8) (by simpa using h), Nat.shiftLeft_eq]

theorem or_ones {x k : Nat} (h : x < 2 ^ k) : x ||| (2 ^ k - 1) = 2 ^ k - 1 := by
  apply Nat.eq_of_testBit_eq
  intro i
  rw [Nat.testBit_or, Nat.testBit_two_pow_sub_one]
  by_cases hi : i < k
  · simp [hi]
  · have : x < 2 ^ i := Nat.lt_of_lt_of_le h (Nat.pow_le_pow_right (by omega) (by omega))
    simp [hi, Nat.testBit_lt_two_pow this]

/-- The key step: shifting by one byte and or-ing a sign-extended byte. -/
theorem combine_eq (k acc : Nat) (b : UInt8) (hk : 8 ≤ 8 * k) :
    (acc <<< 8 ||| charTo (8 * k) b) % 2 ^ (8 * k) = combine (8 * k) (acc % 2 ^ (8 * k - 8)) b := by
  have hb : b.toNat < 256 := by have := b.toNat_lt; simpa using this
  have hp : 2 ^ (8 * k) = 2 ^ (8 * k - 8) * 256 := by
    rw [show (256 : Nat) = 2 ^ 8 from rfl, ← Nat.pow_add]; congr 1; omega
  have hmod : ∀ y, (y * 256 + b.toNat) % 2 ^ (8 * k) = y % 2 ^ (8 * k - 8) * 256 + b.toNat := by
    intro y
    rw [hp]
    have hp0 : 0 < 2 ^ (8 * k - 8) := Nat.pow_pos (by omega)
    rw [Nat.mul_comm (2 ^ (8 * k - 8)) 256, Nat.mod_mul]
    have h1 : (y * 256 + b.toNat) % 256 = b.toNat := by omega
    have h2 : (y * 256 + b.toNat) / 256 = y := by omega
    rw [h1, h2]; omega
  unfold charTo combine
  split
  · rw [or_low hb, hmod]
  · have hp0 : 0 < 2 ^ (8 * k - 8) := Nat.pow_pos (by omega)
    have he : b.toNat + 2 ^ (8 * k) - 256 = ((2 ^ (8 * k - 8) - 1) <<< 8 ||| b.toNat) := by
      rw [or_low hb, hp, Nat.sub_mul]; omega
    rw [he, ← Nat.or_assoc, ← Nat.shiftLeft_or_distrib, or_low hb, hmod]
    have hor : (acc ||| (2 ^ (8 * k - 8) - 1)) % 2 ^ (8 * k - 8) = 2 ^ (8 * k - 8) - 1 := by
      rw [Nat.or_mod_two_pow, Nat.mod_eq_of_lt (a := 2 ^ (8 * k - 8) - 1) (by omega)]
      exact or_ones (Nat.mod_lt _ hp0)
    rw [hor, hp, Nat.sub_mul]

end Uscada.LinkAddr
