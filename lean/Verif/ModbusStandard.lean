import Verif.ModbusExchange
/-!
# C75: the Modbus application protocol

The frames of the standard (MODBUS Application Protocol Specification V1.1b3, sections 6 and 7; MODBUS Messaging on TCP/IP
Implementation Guide V1.0b, section 3.1) for the functions the program names, written without reference to the codec of the
program.  The theorems relate them to what a session forwards and answers and to what a client sends and understands.
-/

namespace Uscada.Modbus

open AduStorage (Pending)
open Client (wordAt byteAt swapPairs)

namespace Standard

/-! ## The standard -/

/-- Requests (sections 6.1 to 6.6 and 6.12). -/
inductive Request where
  | readCoils (start qty : Nat)
  | readDiscrete (start qty : Nat)
  | readHolding (start qty : Nat)
  | readInput (start qty : Nat)
  | writeCoil (addr : Nat) (on : Bool)
  | writeRegister (addr value : Nat)
  | writeRegisters (start : Nat) (values : List Nat)
deriving DecidableEq, Repr

/-- Two bytes, the most significant first. -/
def word (v : Nat) : List UInt8 := [UInt8.ofNat (v / 256), UInt8.ofNat (v % 256)]

namespace Request

/-- The function code. -/
def code : Request → Nat
  | readCoils .. => 1
  | readDiscrete .. => 2
  | readHolding .. => 3
  | readInput .. => 4
  | writeCoil .. => 5
  | writeRegister .. => 6
  | writeRegisters .. => 16

/-- The value that stands for a coil. -/
def coil (on : Bool) : Nat := if on then 0xFF00 else 0

/-- The bytes of the request. -/
def pdu : Request → List UInt8
  | readCoils s q => [1] ++ word s ++ word q
  | readDiscrete s q => [2] ++ word s ++ word q
  | readHolding s q => [3] ++ word s ++ word q
  | readInput s q => [4] ++ word s ++ word q
  | writeCoil a on => [5] ++ word a ++ word (coil on)
  | writeRegister a v => [6] ++ word a ++ word v
  | writeRegisters s vs => [16] ++ word s ++ word vs.length ++ [UInt8.ofNat (2 * vs.length)] ++ vs.flatMap word

/-- The limits of the fields. -/
def Valid : Request → Prop
  | readCoils s q | readDiscrete s q => s < 65536 ∧ 1 ≤ q ∧ q ≤ 2000
  | readHolding s q | readInput s q => s < 65536 ∧ 1 ≤ q ∧ q ≤ 125
  | writeCoil a _ => a < 65536
  | writeRegister a v => a < 65536 ∧ v < 65536
  | writeRegisters s vs => s < 65536 ∧ 1 ≤ vs.length ∧ vs.length ≤ 123 ∧ ∀ v ∈ vs, v < 65536

/-- The bytes of the answer; `regs` are the values of the registers that were read. -/
def answer (regs : List Nat) : Request → List UInt8
  | readCoils _ _ => []
  | readDiscrete _ _ => []
  | readHolding _ _ => [3, UInt8.ofNat (2 * regs.length)] ++ regs.flatMap word
  | readInput _ _ => [4, UInt8.ofNat (2 * regs.length)] ++ regs.flatMap word
  | writeCoil a on => [5] ++ word a ++ word (coil on)
  | writeRegister a v => [6] ++ word a ++ word v
  | writeRegisters s vs => [16] ++ word s ++ word vs.length

/-- The registers an answer carries: as many as were asked for. -/
def Fits (regs : List Nat) : Request → Prop
  | readHolding _ q | readInput _ q => regs.length = q ∧ ∀ v ∈ regs, v < 65536
  | _ => True

/-- The bytes of an exception answer (section 7). -/
def exception (r : Request) (e : Nat) : List UInt8 := [UInt8.ofNat (r.code + 0x80), UInt8.ofNat e]

/-- The two functions that read bits. -/
def bits : Request → Bool
  | readCoils .. | readDiscrete .. => true
  | _ => false

/-- The request that switches a coil on. -/
def coilOn : Request → Bool
  | writeCoil _ on => on
  | _ => false

end Request

/-- A frame on TCP: transaction identifier, protocol identifier 0, number of bytes that follow, unit identifier, content. -/
def onLink (tid unit : Nat) (pdu : List UInt8) : List UInt8 :=
  word tid ++ [0, 0] ++ word (pdu.length + 1) ++ [UInt8.ofNat unit] ++ pdu

/-! ## What the application and the callers of the client deal with: registers as two bytes, the least significant first -/

/-- A register in the memory of an application. -/
def host (v : Nat) : List UInt8 := [UInt8.ofNat (v % 256), UInt8.ofNat (v / 256)]

/-- What the application has to be told about a request. -/
def Request.view (tid unit : Nat) (r : Request) : ReqView where
  transactId := tid
  addr := unit
  func := r.code
  startItem := match r with
    | readCoils s _ | readDiscrete s _ | readHolding s _ | readInput s _ | writeCoil s _ | writeRegister s _
    | writeRegisters s _ => s
  numItems := match r with
    | readCoils _ q | readDiscrete _ q | readHolding _ q | readInput _ q => some q
    | writeCoil .. | writeRegister .. => none
    | writeRegisters _ vs => some vs.length
  data := match r with
    | readCoils .. | readDiscrete .. | readHolding .. | readInput .. => none
    | writeCoil _ on => some (host (coil on))
    | writeRegister _ v => some (host v)
    | writeRegisters _ vs => some (vs.flatMap host)

/-- The data of an application's answer: the registers that were read, or the value that was written. -/
def Request.reply (regs : List Nat) : Request → List UInt8
  | readCoils .. | readDiscrete .. => []
  | readHolding .. | readInput .. => regs.flatMap host
  | writeCoil _ on => host (coil on)
  | writeRegister _ v => host v
  | writeRegisters .. => []

/-- The request as a caller of the client hands it over. -/
def Request.pending (clientId tid unit : Nat) (r : Request) : Pending where
  clientId := clientId
  transactId := tid
  func := r.code
  addr := unit
  startItem := (r.view tid unit).startItem
  numItems := (r.view tid unit).numItems.getD 0
  numBytes := ((r.view tid unit).data.getD []).length
  data := (r.view tid unit).data.getD []

/-! ## Bytes -/

theorem word_eq (v : Nat) : word v = be16 v := by
  unfold word be16
  congr 2
  apply UInt8.toNat_inj.1
  simp only [UInt8.toNat_ofNat']
  omega

@[simp] theorem length_word (v : Nat) : (word v).length = 2 := rfl
@[simp] theorem length_host (v : Nat) : (host v).length = 2 := rfl

@[simp] theorem length_words (vs : List Nat) : (vs.flatMap word).length = 2 * vs.length := by
  induction vs with
  | nil => rfl
  | cons v vs ih => simp only [List.flatMap_cons, List.length_append, ih, length_word, List.length_cons]; omega

@[simp] theorem length_hosts (vs : List Nat) : (vs.flatMap host).length = 2 * vs.length := by
  induction vs with
  | nil => rfl
  | cons v vs ih => simp only [List.flatMap_cons, List.length_append, ih, length_host, List.length_cons]; omega

theorem swap_words (vs : List Nat) : swapPairs (vs.flatMap word) = vs.flatMap host := by
  induction vs with
  | nil => rfl
  | cons v vs ih => simp [List.flatMap_cons, word, host, swapPairs, ih]

/-- The registers of a host put on the link. -/
theorem regBytes_hosts (vs : List Nat) : ∀ (m : Mem) (i : Nat), (∀ k, k < 2 * vs.length → m (i + k) = (vs.flatMap host).getD k 0) →
    regBytes m i vs.length = vs.flatMap word := by
  induction vs with
  | nil => intro m i _; rfl
  | cons v vs ih =>
    intro m i h
    have h0 := h 0 (by simp)
    have h1 := h 1 (by simp; omega)
    simp only [List.flatMap_cons, host, List.cons_append, List.nil_append, List.getD_cons_zero, List.getD_cons_succ, Nat.add_zero] at h0 h1
    simp only [List.length_cons, regBytes, List.flatMap_cons, word, List.cons_append, List.nil_append, h0, h1]
    rw [ih m (i + 2)]
    intro k hk
    have := h (k + 2) (by simp; omega)
    rw [show i + 2 + k = i + (k + 2) by omega, this]
    simp [host]

theorem onLink_hdr (tid unit f : Nat) (c : UInt8) (hc : c = UInt8.ofNat f) (l : List UInt8) :
    onLink tid unit (c :: l) = hdr tid (l.length + 2) unit f ++ l := by
  subst hc
  simp only [onLink, hdr, word_eq, List.length_cons, show l.length + 1 + 1 = l.length + 2 from rfl]
  simp only [be16, List.cons_append, List.nil_append]
  rfl

theorem pdu_cons (r : Request) : ∃ l, r.pdu = UInt8.ofNat r.code :: l := by
  cases r <;> exact ⟨_, rfl⟩

theorem byteAt_cons_succ (b : UInt8) (l : List UInt8) (i : Nat) : byteAt (b :: l) (i + 1) = byteAt l i := rfl

theorem byteAt_zero (b : UInt8) (l : List UInt8) : byteAt (b :: l) 0 = b.toNat := rfl

theorem wordAt_word (v : Nat) (h : v < 65536) : (UInt8.ofNat (v / 256)).toNat * 256 + (UInt8.ofNat (v % 256)).toNat = v := by
  simp only [UInt8.toNat_ofNat']
  omega

/-- The header of a frame. -/
theorem onLink_fields {tid unit : Nat} {pdu : List UInt8} (ht : tid < 65536) (hu : unit < 256) (hp : pdu.length + 7 < 260) :
    (onLink tid unit pdu).length = pdu.length + 7 ∧ wordAt (onLink tid unit pdu) 0 = tid ∧ wordAt (onLink tid unit pdu) 2 = 0 ∧
    wordAt (onLink tid unit pdu) 4 = pdu.length + 1 ∧ byteAt (onLink tid unit pdu) 6 = unit ∧
    (∀ i, byteAt (onLink tid unit pdu) (7 + i) = byteAt pdu i) ∧ ∀ i, (onLink tid unit pdu).drop (7 + i) = pdu.drop i := by
  have e : onLink tid unit pdu = UInt8.ofNat (tid / 256) :: UInt8.ofNat (tid % 256) :: 0 :: 0 :: UInt8.ofNat ((pdu.length + 1) / 256) ::
      UInt8.ofNat ((pdu.length + 1) % 256) :: UInt8.ofNat unit :: pdu := by
    simp [onLink, word]
  rw [e]
  have hw := wordAt_word (pdu.length + 1) (by omega)
  have ht' := wordAt_word tid ht
  refine ⟨by simp, ht', by simp [wordAt, byteAt], ?_, ?_, ?_, ?_⟩
  · rw [wordAt, byteAt_cons_succ]
    exact hw
  · exact toNat_ofNat_small _ hu
  · intro i
    rw [show 7 + i = i + 1 + 1 + 1 + 1 + 1 + 1 + 1 by omega]
    rfl
  · intro i
    rw [show 7 + i = i + 1 + 1 + 1 + 1 + 1 + 1 + 1 by omega]
    rfl

theorem framed_onLink {tid unit : Nat} {pdu : List UInt8} (ht : tid < 65536) (hu : unit < 256) (hp : pdu.length + 7 < 260) :
    Framed (onLink tid unit pdu) := by
  obtain ⟨h1, _, _, h4, _⟩ := onLink_fields ht hu hp
  exact ⟨by omega, by omega⟩

namespace Request

/-- The limits the program puts on the fields instead. -/
def Near : Request → Prop
  | readCoils s q | readDiscrete s q => s < 65536 ∧ q ≤ 2008
  | readHolding s q | readInput s q => s < 65536 ∧ q ≤ 125
  | writeCoil a _ => a < 65536
  | writeRegister a v => a < 65536 ∧ v < 65536
  | writeRegisters s vs => s < 65536 ∧ vs.length ≤ 123 ∧ ∀ v ∈ vs, v < 65536

theorem Valid.near {r : Request} (h : r.Valid) : r.Near := by
  cases r with
  | readCoils s q => exact ⟨h.1, by have := h.2.2; omega⟩
  | readDiscrete s q => exact ⟨h.1, by have := h.2.2; omega⟩
  | readHolding s q => exact ⟨h.1, h.2.2⟩
  | readInput s q => exact ⟨h.1, h.2.2⟩
  | writeCoil a on => exact h
  | writeRegister a v => exact h
  | writeRegisters s vs => exact ⟨h.1, h.2.2⟩

/-- The number of bytes of a request. -/
def size : Request → Nat
  | writeRegisters _ vs => 6 + 2 * vs.length
  | _ => 5

theorem pdu_length (r : Request) : r.pdu.length = r.size := by
  cases r with
  | writeRegisters s vs =>
    show ([16] ++ word s ++ word vs.length ++ [UInt8.ofNat (2 * vs.length)] ++ vs.flatMap word).length = 6 + 2 * vs.length
    rw [List.length_append, length_words]
    rfl
  | _ => rfl

theorem Near.size {r : Request} (h : r.Near) : r.size ≤ 252 := by
  cases r with
  | writeRegisters s vs => have := h.2.1; show 6 + 2 * vs.length ≤ 252; omega
  | _ => show 5 ≤ 252; omega

theorem acceptable {r : Request} (h : r.Near) {tid unit : Nat} (ht : tid < 65536) (hu : unit ≤ 247) :
    AcceptableReq (onLink tid unit r.pdu) ∧ frameReq (onLink tid unit r.pdu) = r.view tid unit := by
  have hl := h.size
  have hl' := pdu_length r
  obtain ⟨f1, f2, f3, f4, f5, f6, f7⟩ := onLink_fields (pdu := r.pdu) ht (by omega : unit < 256) (by omega)
  have w8 : wordAt (onLink tid unit r.pdu) 8 = wordAt r.pdu 1 := by
    unfold wordAt
    rw [show (8 : Nat) = 7 + 1 from rfl, f6, show 7 + 1 + 1 = 7 + 2 from rfl, f6]
  have w10 : wordAt (onLink tid unit r.pdu) 10 = wordAt r.pdu 3 := by
    unfold wordAt
    rw [show (10 : Nat) = 7 + 3 from rfl, f6, show 7 + 3 + 1 = 7 + 4 from rfl, f6]
  have b7 := f6 0
  have b12 := f6 5
  have d10 := f7 3
  have d13 := f7 6
  simp only [Nat.add_zero, Nat.reduceAdd] at b7 b12 d10 d13
  unfold AcceptableReq frameReq
  simp only [b7, b12, w8, w10, d10, d13, f1, f2, f3, f4, f5]
  cases r with
  | readCoils s q =>
    obtain ⟨h1, h3⟩ := h
    have e1 : wordAt (readCoils s q).pdu 1 = s := wordAt_word s h1
    have e2 : wordAt (readCoils s q).pdu 3 = q := wordAt_word q (by omega)
    have e6 : (readCoils s q).size = 5 := rfl
    have e3 : byteAt (readCoils s q).pdu 0 = 1 := rfl
    simp only [e1, e2, e3, e6, hl']
    exact ⟨by simp <;> omega, rfl⟩
  | readDiscrete s q =>
    obtain ⟨h1, h3⟩ := h
    have e1 : wordAt (readDiscrete s q).pdu 1 = s := wordAt_word s h1
    have e2 : wordAt (readDiscrete s q).pdu 3 = q := wordAt_word q (by omega)
    have e6 : (readDiscrete s q).size = 5 := rfl
    have e3 : byteAt (readDiscrete s q).pdu 0 = 2 := rfl
    simp only [e1, e2, e3, e6, hl']
    exact ⟨by simp <;> omega, rfl⟩
  | readHolding s q =>
    obtain ⟨h1, h3⟩ := h
    have e1 : wordAt (readHolding s q).pdu 1 = s := wordAt_word s h1
    have e2 : wordAt (readHolding s q).pdu 3 = q := wordAt_word q (by omega)
    have e6 : (readHolding s q).size = 5 := rfl
    have e3 : byteAt (readHolding s q).pdu 0 = 3 := rfl
    simp only [e1, e2, e3, e6, hl']
    exact ⟨by simp <;> omega, rfl⟩
  | readInput s q =>
    obtain ⟨h1, h3⟩ := h
    have e1 : wordAt (readInput s q).pdu 1 = s := wordAt_word s h1
    have e2 : wordAt (readInput s q).pdu 3 = q := wordAt_word q (by omega)
    have e6 : (readInput s q).size = 5 := rfl
    have e3 : byteAt (readInput s q).pdu 0 = 4 := rfl
    simp only [e1, e2, e3, e6, hl']
    exact ⟨by simp <;> omega, rfl⟩
  | writeCoil a on =>
    have e1 : wordAt (writeCoil a on).pdu 1 = a := wordAt_word a h
    have e6 : (writeCoil a on).size = 5 := rfl
    have e3 : byteAt (writeCoil a on).pdu 0 = 5 := rfl
    simp only [e1, e3, e6, hl']
    exact ⟨by simp <;> omega, rfl⟩
  | writeRegister a v =>
    have e1 : wordAt (writeRegister a v).pdu 1 = a := wordAt_word a h.1
    have e6 : (writeRegister a v).size = 5 := rfl
    have e3 : byteAt (writeRegister a v).pdu 0 = 6 := rfl
    simp only [e1, e3, e6, hl']
    exact ⟨by simp <;> omega, rfl⟩
  | writeRegisters s vs =>
    obtain ⟨h1, h3, h4⟩ := h
    have e1 : wordAt (writeRegisters s vs).pdu 1 = s := wordAt_word s h1
    have e2 : wordAt (writeRegisters s vs).pdu 3 = vs.length := wordAt_word _ (by omega)
    have e3 : byteAt (writeRegisters s vs).pdu 0 = 16 := rfl
    have e4 : byteAt (writeRegisters s vs).pdu 5 = 2 * vs.length := toNat_ofNat_small _ (by omega)
    have e6 : (writeRegisters s vs).size = 6 + 2 * vs.length := rfl
    have e5 : (writeRegisters s vs).pdu.drop 6 = vs.flatMap word := rfl
    simp only [e1, e2, e3, e4, e5, e6, hl', swap_words]
    exact ⟨by simp <;> omega, rfl⟩

end Request

/-! ## Byte strings the program accepts -/

/-- Registers of a sequence of bytes. -/
def regsOf : List UInt8 → List Nat
  | a :: b :: l => (a.toNat * 256 + b.toNat) :: regsOf l
  | _ => []

theorem word_bytes (a b : UInt8) : word (a.toNat * 256 + b.toNat) = [a, b] := by
  have ha := a.toNat_lt
  have hb := b.toNat_lt
  have h1 : (a.toNat * 256 + b.toNat) / 256 = a.toNat := by omega
  have h2 : (a.toNat * 256 + b.toNat) % 256 = b.toNat := by omega
  simp [word, h1, h2]

theorem words_regsOf : ∀ (n : Nat) (l : List UInt8), l.length = 2 * n →
    (regsOf l).flatMap word = l ∧ (regsOf l).length = n ∧ ∀ v ∈ regsOf l, v < 65536
  | 0, l, h => by
    have : l = [] := List.eq_nil_of_length_eq_zero (by omega)
    subst this
    simp [regsOf]
  | n + 1, [], h => by simp at h
  | n + 1, [_], h => by simp at h; omega
  | n + 1, a :: b :: l, h => by
    obtain ⟨h1, h2, h3⟩ := words_regsOf n l (by simp at h; omega)
    have ha := a.toNat_lt
    have hb := b.toNat_lt
    refine ⟨?_, by simp [regsOf, h2], ?_⟩
    · simp only [regsOf, List.flatMap_cons, word_bytes, h1]
      rfl
    · intro v hv
      simp only [regsOf, List.mem_cons] at hv
      rcases hv with hv | hv
      · omega
      · exact h3 v hv

/-- A coil write with a value the standard does not allow. -/
def badCoil (a v : Nat) : List UInt8 := [5] ++ word a ++ word v

theorem split1 (w : List UInt8) (i : Nat) (h : i + 1 ≤ w.length) : w.drop i = [UInt8.ofNat (byteAt w i)] ++ w.drop (i + 1) := by
  rw [List.drop_eq_getElem_cons (by omega)]
  simp [byteAt, show i < w.length by omega]

theorem split2 (w : List UInt8) (i : Nat) (h : i + 2 ≤ w.length) : w.drop i = word (wordAt w i) ++ w.drop (i + 2) := by
  rw [split1 w i (by omega), split1 w (i + 1) (by omega), wordAt, byteAt, byteAt, word_bytes]
  simp

theorem wordAt_lt (w : List UInt8) (i : Nat) : wordAt w i < 65536 := by
  have h1 := (w.getD i 0).toNat_lt
  have h2 := (w.getD (i + 1) 0).toNat_lt
  unfold wordAt byteAt
  omega

theorem onLink_of {w : List UInt8} (h : 7 ≤ w.length) (h2 : wordAt w 2 = 0) (h4 : wordAt w 4 + 6 = w.length) :
    w = onLink (wordAt w 0) (byteAt w 6) (w.drop 7) := by
  have e : w = w.drop 0 := rfl
  rw [split2 w 0 (by omega), split2 w 2 (by omega), split2 w 4 (by omega), split1 w 6 (by omega), h2,
    show wordAt w 4 = (w.drop 7).length + 1 by simp; omega] at e
  simpa [onLink, word] using e

theorem acceptable_is {w : List UInt8} (h : AcceptableReq w) :
    (∃ (r : Request) (tid unit : Nat), r.Near ∧ tid < 65536 ∧ unit ≤ 247 ∧ w = onLink tid unit r.pdu) ∨
    (∃ tid unit a v, tid < 65536 ∧ unit ≤ 247 ∧ a < 65536 ∧ v < 65536 ∧ v ≠ 0 ∧ v ≠ 0xFF00 ∧ w = onLink tid unit (badCoil a v)) := by
  obtain ⟨h1, h2, h3, h4, h5⟩ := h
  have h6 : 12 ≤ w.length := by omega
  have e := onLink_of (by omega) h3 h2
  have s0 := wordAt_lt w 0
  have s8 := wordAt_lt w 8
  have s10 := wordAt_lt w 10
  have e7 : w.drop 7 = [UInt8.ofNat (byteAt w 7)] ++ (word (wordAt w 8) ++ (word (wordAt w 10) ++ w.drop 12)) := by
    rw [split1 w 7 (by omega), split2 w 8 (by omega), split2 w 10 (by omega)]
  rw [e7] at e
  have hnil : w.length = 12 → w.drop 12 = [] := fun h => List.drop_eq_nil_of_le (by omega)
  have key : ∀ r : Request, r.Near → r.pdu = [UInt8.ofNat (byteAt w 7)] ++ (word (wordAt w 8) ++ (word (wordAt w 10) ++ w.drop 12)) →
      (∃ (r : Request) (tid unit : Nat), r.Near ∧ tid < 65536 ∧ unit ≤ 247 ∧ w = onLink tid unit r.pdu) :=
    fun r hr hp => ⟨r, _, _, hr, s0, h4, by rw [hp]; exact e⟩
  rcases h5 with ⟨h7 | h7, h8, h9⟩ | ⟨h7 | h7, h8, h9⟩ | ⟨h7 | h7, h8⟩ | ⟨h7, h8, h9⟩
  · exact .inl (key (.readCoils (wordAt w 8) (wordAt w 10)) ⟨s8, h9⟩ (by rw [h7, hnil h8, List.append_nil]; rfl))
  · exact .inl (key (.readDiscrete (wordAt w 8) (wordAt w 10)) ⟨s8, h9⟩ (by rw [h7, hnil h8, List.append_nil]; rfl))
  · exact .inl (key (.readHolding (wordAt w 8) (wordAt w 10)) ⟨s8, h9⟩ (by rw [h7, hnil h8, List.append_nil]; rfl))
  · exact .inl (key (.readInput (wordAt w 8) (wordAt w 10)) ⟨s8, h9⟩ (by rw [h7, hnil h8, List.append_nil]; rfl))
  · by_cases hv : wordAt w 10 = 0
    · exact .inl (key (.writeCoil (wordAt w 8) false) s8 (by rw [h7, hnil h8, List.append_nil, hv]; rfl))
    by_cases hv' : wordAt w 10 = 0xFF00
    · exact .inl (key (.writeCoil (wordAt w 8) true) s8 (by rw [h7, hnil h8, List.append_nil, hv']; rfl))
    · refine .inr ⟨_, _, wordAt w 8, wordAt w 10, s0, h4, s8, s10, hv, hv', ?_⟩
      rw [h7, hnil h8, List.append_nil] at e
      exact e
  · exact .inl (key (.writeRegister (wordAt w 8) (wordAt w 10)) ⟨s8, s10⟩ (by rw [h7, hnil h8, List.append_nil]; rfl))
  · have s13 : w.drop 12 = [UInt8.ofNat (byteAt w 12)] ++ w.drop 13 := split1 w 12 (by omega)
    obtain ⟨r1, r2, r3⟩ := words_regsOf (wordAt w 10) (w.drop 13) (by simp; omega)
    refine .inl (key (.writeRegisters (wordAt w 8) (regsOf (w.drop 13))) ⟨s8, by omega, r3⟩ ?_)
    simp only [Request.pdu, r1, r2, h7, s13, h8]
    simp

/-! ## Answers of a session -/

/-- What a session does with an answer of the application. -/
theorem rsp_step {s : Session} (hw : s.st = .wait) (hl : s.link = true) (ht : s.timer = true) (ho : s.opened = true)
    {r : AppRsp} (hd : r.data.length ≤ 260) :
    (r.transactId = s.adu.transactId ∧ r.success = true ∧ RspOk (s.rspOf r) ∧
      s.step (.rsp r true) = .ok (Session.ready s, [.frame (rspFrame (s.rspOf r))])) ∨
    (¬ (r.transactId = s.adu.transactId ∧ r.success = true ∧ RspOk (s.rspOf r)) ∧
      s.step (.rsp r true) = .ok (Session.ready s, [])) := by
  have hA : maxAduLen = 260 := rfl
  have hstep : ∀ o, s.send r true = .ok (o, .done) → s.step (.rsp r true) = .ok (Session.ready s, o) := by
    intro o hsend
    simp only [Session.step, Session.onRsp, hw, hsend, Exec.ok_bind]
    rw [Session.transit_connected (by rw [hw]; decide) ht]
    simp
  by_cases h1 : r.transactId = s.adu.transactId
  case neg =>
    refine .inr ⟨fun h => h1 h.1, hstep _ ?_⟩
    rw [Session.send_body]
    rw [if_pos h1]
  by_cases h2 : r.success = true
  case neg =>
    refine .inr ⟨fun h => h2 h.2.1, hstep _ ?_⟩
    rw [Session.send_body]
    rw [if_neg (by simpa using h1), if_pos (by simpa using h2)]
  obtain ⟨b, ok, e1, _, e2, e3⟩ := encodeRsp_eq (fun _ => 0) (s.rspOf r) hd
  have hs : s.send r true = (do
      if ok = false then pure ([], .done)
      else if isAduValid b = false then pure ([], .done)
      else if s.link = false then Exec.ub
      else if s.opened ∧ true = true then pure ([.frame b.content], .done)
      else pure ([], .error)) := by
    rw [Session.send_body]
    rw [if_neg (by simpa using h1), if_neg (by simp [h2]), if_neg (by omega), e1]
    rfl
  by_cases h3 : RspOk (s.rspOf r)
  case neg =>
    refine .inr ⟨fun h => h3 h.2.2, hstep _ ?_⟩
    have : ok = false := by
      cases ok with
      | false => rfl
      | true => exact absurd (e2.1 rfl) h3
    rw [hs, this]
    rfl
  refine .inl ⟨h1, h2, h3, hstep _ ?_⟩
  have hok := e2.2 h3
  subst hok
  obtain ⟨e3, _⟩ := e3 rfl
  have hF : Framed (rspFrame (s.rspOf r)) := Exchange.framed_rsp h3
  have hval : isAduValid b = true := by
    have h4 := Client.wordAt_content b 4 (by rw [e3.2.1]; have := hF.1; omega)
    rw [e3.content] at h4
    have hl := e3.2.1
    obtain ⟨f1, f2⟩ := hF
    unfold beAt at h4
    simp only [Nat.reduceAdd] at h4
    simp [isAduValid, aduPktLen, aduHdrLen, aduLenOffset, hA]
    omega
  rw [hs]
  simp [hval, hl, ho, e3.content]

end Standard

end Uscada.Modbus
