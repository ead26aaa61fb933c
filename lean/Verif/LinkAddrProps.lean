import Verif.LinkAddr
/-!
# C06: configured IPv4 address and port are the ones used
-/

namespace Uscada.LinkAddr

/-- Specification: the port is the big-endian value of bytes 4 and 5. -/
def specPort (data : Nat → UInt8) : Nat := (data 4).toNat * 256 + (data 5).toNat

/-- Specification: the address is the big-endian value of bytes 0 to 3. -/
def specAddr (data : Nat → UInt8) : Nat :=
  (data 0).toNat * 2 ^ 24 + (data 1).toNat * 2 ^ 16 + (data 2).toNat * 2 ^ 8 + (data 3).toNat

private theorem charTo_mod (k : Nat) (hk : 8 ≤ 8 * k) (b : UInt8) : charTo (8 * k) b % 256 = b.toNat := by
  have hb : b.toNat < 256 := by have := b.toNat_lt; simpa using this
  have hp : 2 ^ (8 * k) = 2 ^ (8 * k - 8) * 256 := by
    rw [show (256 : Nat) = 2 ^ 8 from rfl, ← Nat.pow_add]; congr 1; omega
  have hp0 : 0 < 2 ^ (8 * k - 8) := Nat.pow_pos (by omega)
  unfold charTo
  split
  · omega
  · omega

private theorem port_eq (data : Nat → UInt8) :
    ipv4port data = combine 16 (data 4).toNat (data 5) := by
  have h := combine_eq 2 (charTo 16 (data 4)) (data 5) (by omega)
  have h1 := charTo_mod 2 (by omega) (data 4)
  simp only [Nat.reduceMul, Nat.reduceSub, show (2 : Nat) ^ 8 = 256 from rfl] at h h1
  rw [h1] at h
  exact h

/-- C06 (port, partial): the port used is the configured one exactly when its low byte is below 128 or
its high byte is 255. -/
theorem C06_port_iff_partial (data : Nat → UInt8) :
    ipv4port data = specPort data ↔ ((data 5).toNat < 128 ∨ (data 4).toNat = 255) := by
  have h4 : (data 4).toNat < 256 := by have := (data 4).toNat_lt; simpa using this
  rw [port_eq]
  unfold combine specPort
  split <;> omega

private theorem charTo_sext (k : Nat) (h1 : 8 ≤ 8 * k) (h2 : 8 * k ≤ 32) (b : UInt8) :
    charTo 32 b % 2 ^ (8 * k) = charTo (8 * k) b % 2 ^ (8 * k) := by
  have hb : b.toNat < 256 := by have := b.toNat_lt; simpa using this
  have hk : k = 1 ∨ k = 2 ∨ k = 3 ∨ k = 4 := by omega
  unfold charTo
  rcases hk with rfl | rfl | rfl | rfl <;> split <;> omega

private theorem or_mod (x y n : Nat) : (x ||| y) % 2 ^ n = (x % 2 ^ n ||| y % 2 ^ n) % 2 ^ n := by
  rw [Nat.or_mod_two_pow, Nat.or_mod_two_pow, Nat.mod_mod, Nat.mod_mod]

private theorem combine_eq32 (k acc : Nat) (b : UInt8) (h1 : 8 ≤ 8 * k) (h2 : 8 * k ≤ 32) :
    (acc <<< 8 ||| charTo 32 b) % 2 ^ (8 * k) = combine (8 * k) (acc % 2 ^ (8 * k - 8)) b := by
  rw [or_mod, charTo_sext k h1 h2, ← or_mod, combine_eq k acc b h1]

private theorem addr_eq (data : Nat → UInt8) :
    ipv4addr data =
      combine 32 (combine 24 (combine 16 (data 0).toNat (data 1)) (data 2)) (data 3) := by
  have hlt : charTo 32 (data 3) < 2 ^ 32 := by
    have hb : (data 3).toNat < 256 := by have := (data 3).toNat_lt; simpa using this
    unfold charTo; split <;> omega
  have e : ipv4addr data =
      ((((charTo 32 (data 0)) <<< 8 ||| charTo 32 (data 1)) <<< 8 ||| charTo 32 (data 2)) <<< 8 |||
        charTo 32 (data 3)) % 2 ^ 32 := by
    unfold ipv4addr
    rw [Nat.or_mod_two_pow, Nat.mod_eq_of_lt hlt]
    congr 1
    simp only [Nat.shiftLeft_or_distrib, ← Nat.shiftLeft_add, Nat.or_mod_two_pow]
  rw [e]
  have a3 := combine_eq32 4 (((charTo 32 (data 0)) <<< 8 ||| charTo 32 (data 1)) <<< 8 ||| charTo 32 (data 2))
    (data 3) (by omega) (by omega)
  have a2 := combine_eq32 3 ((charTo 32 (data 0)) <<< 8 ||| charTo 32 (data 1)) (data 2) (by omega) (by omega)
  have a1 := combine_eq32 2 (charTo 32 (data 0)) (data 1) (by omega) (by omega)
  have a0 := charTo_mod 4 (by omega) (data 0)
  simp only [Nat.reduceMul, Nat.reduceSub, show (2 : Nat) ^ 8 = 256 from rfl] at a0 a1 a2 a3
  rw [a3, a2, a1, a0]

/-- C06 (address, partial): the address used is the configured one exactly when every byte of 128 or
more is preceded only by bytes of 255. -/
theorem C06_addr_iff_partial (data : Nat → UInt8) :
    ipv4addr data = specAddr data ↔
      (128 ≤ (data 1).toNat → (data 0).toNat = 255) ∧
      (128 ≤ (data 2).toNat → (data 0).toNat = 255 ∧ (data 1).toNat = 255) ∧
      (128 ≤ (data 3).toNat → (data 0).toNat = 255 ∧ (data 1).toNat = 255 ∧ (data 2).toNat = 255) := by
  have h0 : (data 0).toNat < 256 := by have := (data 0).toNat_lt; simpa using this
  have h1 : (data 1).toNat < 256 := by have := (data 1).toNat_lt; simpa using this
  have h2 : (data 2).toNat < 256 := by have := (data 2).toNat_lt; simpa using this
  have h3 : (data 3).toNat < 256 := by have := (data 3).toNat_lt; simpa using this
  rw [addr_eq]
  unfold combine specAddr
  repeat' split
  all_goals omega

/-- Bytes of a configured address, for concrete cases. -/
def ofList (l : List UInt8) : Nat → UInt8 := fun i => l.getD i 0

/-- Non-vacuity: 127.0.0.1 port 0x1234 is used as configured. -/
example : ipv4addr (ofList [127, 0, 0, 1, 0x12, 0x34]) = 2130706433 ∧
    ipv4port (ofList [127, 0, 0, 1, 0x12, 0x34]) = 0x1234 := by decide

/-- Violation: the standard Modbus/TCP port 502 is turned into 65526, and the OPC UA port 4840 into
65512. -/
theorem C06_port_violated :
    specPort (ofList [127, 0, 0, 1, 1, 246]) = 502 ∧
    ipv4port (ofList [127, 0, 0, 1, 1, 246]) = 65526 ∧
    specPort (ofList [127, 0, 0, 1, 18, 232]) = 4840 ∧
    ipv4port (ofList [127, 0, 0, 1, 18, 232]) = 65512 := by decide

/-- Violation: 192.168.0.1 is turned into 255.168.0.1. -/
theorem C06_addr_violated :
    ipv4addr (ofList [192, 168, 0, 1]) = specAddr (ofList [255, 168, 0, 1]) ∧
    ipv4addr (ofList [192, 168, 0, 1]) ≠ specAddr (ofList [192, 168, 0, 1]) := by decide

end Uscada.LinkAddr
