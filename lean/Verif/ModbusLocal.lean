import Verif.ModbusClientBlindProps
import Verif.ModbusBlindProps
/-!
# C91 and C92: local variables

The buffers that frames are encoded into and the structures that answers are decoded into and built in are local variables without initialiser.  What they
contain does not matter, in whatever state the session or client is.
-/

namespace Uscada.Modbus

/-- Runs that end alike, with related results. -/
inductive Both {α β : Type} (R : α → β → Prop) : Exec α → Exec β → Prop where
  | ok {a : α} {b : β} (h : R a b) : Both R (.ok a) (.ok b)
  | throws : Both R .throws .throws
  | abort : Both R .abort .abort
  | ub : Both R .ub .ub

theorem Both.bind {α β γ δ : Type} {R : α → β → Prop} {S : γ → δ → Prop} {x : Exec α} {y : Exec β} {f : α → Exec γ} {g : β → Exec δ} (h : Both R x y)
    (k : ∀ a b, R a b → Both S (f a) (g b)) : Both S (x >>= f) (y >>= g) := by
  cases h with
  | ok h => exact k _ _ h
  | throws => exact .throws
  | abort => exact .abort
  | ub => exact .ub

theorem Both.eq {α : Type} {x y : Exec α} (h : Both (· = ·) x y) : x = y := by
  cases h with
  | ok h => rw [h]
  | throws => rfl
  | abort => rfl
  | ub => rfl

theorem Both.refl {α : Type} (x : Exec α) : Both (· = ·) x x := by
  cases x with
  | ok a => exact .ok rfl
  | throws => exact .throws
  | abort => exact .abort
  | ub => exact .ub

/-! ## Encoding -/

/-- Buffers into which the same bytes have been written. -/
def Wrote (b b' : PduBuf) : Prop := b.len = b'.len ∧ ∀ i, i < b.len → b.buf i = b'.buf i

theorem Wrote.content {b b' : PduBuf} (h : Wrote b b') : b.content = b'.content := by
  unfold PduBuf.content memRead
  rw [← h.1]
  refine List.map_congr_left fun i hi => ?_
  rw [Nat.zero_add]
  exact h.2 i (List.mem_range.1 hi)

theorem Wrote.fresh (m m' : Mem) : Wrote (PduBuf.fresh m) (PduBuf.fresh m') := ⟨rfl, fun i hi => absurd hi (Nat.not_lt_zero i)⟩

theorem write_both {b b' : PduBuf} (h : Wrote b b') (v : Nat) : Both Wrote (b.write v) (b'.write v) := by
  obtain ⟨h1, h2⟩ := h
  unfold PduBuf.write
  rw [← h1]
  split
  · refine .ok ⟨rfl, fun i hi => ?_⟩
    dsimp only at hi ⊢
    unfold memWrite
    by_cases k : i < b.len
    · rw [if_neg (by omega), if_neg (by omega), h2 i k]
    · rw [if_pos ⟨by omega, hi⟩, if_pos ⟨by omega, hi⟩]
  · exact .ub

theorem writeBe_both {b b' : PduBuf} (h : Wrote b b') (v : Nat) : Both Wrote (b.writeBe v) (b'.writeBe v) :=
  (write_both h _).bind fun _ _ h => write_both h _

theorem writeHdr_both {b b' : PduBuf} (h : Wrote b b') (t l a f : Nat) : Both Wrote (writeHdr b t l a f) (writeHdr b' t l a f) :=
  (writeBe_both h _).bind fun _ _ h => (writeBe_both h _).bind fun _ _ h => (writeBe_both h _).bind fun _ _ h => (write_both h _).bind fun _ _ h => write_both h _

theorem dataGet_same {d d' : Mem} {cap i : Nat} (h : d i = d' i) : dataGet d cap i = dataGet d' cap i := by
  unfold dataGet
  rw [h]

theorem writeRegs_both {d d' : Mem} (cap : Nat) : ∀ (n i : Nat) {b b' : PduBuf}, Wrote b b' → (∀ j, i ≤ j → j < i + 2 * n → d j = d' j) →
    Both Wrote (writeRegs b d cap i n) (writeRegs b' d' cap i n)
  | 0, _, _, _, h, _ => .ok h
  | n + 1, i, b, b', h, hd => by
    unfold writeRegs
    rw [dataGet_same (hd (i + 1) (by omega) (by omega)), dataGet_same (hd i (by omega) (by omega))]
    refine (Both.refl _).bind fun _ _ e => ?_
    subst e
    refine (write_both h _).bind fun _ _ h => (Both.refl _).bind fun _ _ e => ?_
    subst e
    exact (write_both h _).bind fun _ _ h => writeRegs_both cap n (i + 2) h fun j h1 h2 => hd j (by omega) (by omega)

theorem coilBad_same {d d' : Mem} {f cap : Nat} (h0 : d 0 = d' 0) (h1 : d 1 = d' 1) : coilBad f d cap = coilBad f d' cap := by
  unfold coilBad
  rw [dataGet_same h0, dataGet_same h1]

/-- Results of encoders. -/
def Sealed (x y : PduBuf × Bool) : Prop := Wrote x.1 y.1 ∧ x.2 = y.2

theorem sealed_len {b b' : PduBuf} (h : Wrote b b') (n : Nat) : Sealed (b, decide (b.len ≤ n)) (b', decide (b'.len ≤ n)) := ⟨h, by dsimp only; rw [h.1]⟩

theorem encodeReq_both (m m' : Mem) (a : AduReq) : Both Sealed (encodeReq (PduBuf.fresh m) a) (encodeReq (PduBuf.fresh m') a) := by
  have w := Wrote.fresh m m'
  unfold encodeReq
  split
  · exact .ok ⟨w, rfl⟩
  split
  · split
    · exact .ok ⟨w, rfl⟩
    · exact (writeHdr_both w ..).bind fun _ _ w => (writeBe_both w _).bind fun _ _ w => (writeBe_both w _).bind fun _ _ w => .ok (sealed_len w _)
  split
  · split
    · exact .ok ⟨w, rfl⟩
    split
    · exact .ok ⟨w, rfl⟩
    refine (Both.refl _).bind fun bad _ e => ?_
    subst e
    split
    · exact .ok ⟨w, rfl⟩
    · exact (writeHdr_both w ..).bind fun _ _ w => (writeBe_both w _).bind fun _ _ w =>
        (writeRegs_both _ 1 0 w fun _ _ _ => rfl).bind fun _ _ w => .ok (sealed_len w _)
  split
  · split
    · exact .ok ⟨w, rfl⟩
    · exact (writeHdr_both w ..).bind fun _ _ w => (writeBe_both w _).bind fun _ _ w => (writeBe_both w _).bind fun _ _ w => (write_both w _).bind fun _ _ w =>
        (writeRegs_both _ _ 0 w fun _ _ _ => rfl).bind fun _ _ w => .ok (sealed_len w _)
  · exact .ok ⟨w, rfl⟩

/-- The data of a response may differ behind the bytes that are its data, if these are at least two for a single write. -/
theorem encodeRsp_both (m m' d' : Mem) (a : AduRsp) (hd : ∀ i, i < a.numBytes → a.data i = d' i) :
    Both Sealed (encodeRsp (PduBuf.fresh m) a) (encodeRsp (PduBuf.fresh m') { a with data := d' }) := by
  have w := Wrote.fresh m m'
  unfold encodeRsp
  dsimp only
  split
  · exact (writeHdr_both w ..).bind fun _ _ w => (write_both w _).bind fun _ _ w => .ok (sealed_len w _)
  split
  · refine (writeHdr_both w ..).bind fun _ _ w => (write_both w _).bind fun _ _ w => ?_
    split
    · exact .ok ⟨w, rfl⟩
    · exact (writeRegs_both _ _ 0 w fun j _ hj => hd j (by omega)).bind fun _ _ w => .ok (sealed_len w _)
  split
  · split
    · exact .ok ⟨w, rfl⟩
    rename_i h2
    replace h2 := Decidable.not_not.1 h2
    rw [coilBad_same (hd 0 (by omega)) (hd 1 (by omega))]
    refine (Both.refl _).bind fun bad _ e => ?_
    subst e
    split
    · exact .ok ⟨w, rfl⟩
    · exact (writeHdr_both w ..).bind fun _ _ w => (writeBe_both w _).bind fun _ _ w =>
        (writeRegs_both _ 1 0 w fun j _ hj => hd j (by omega)).bind fun _ _ w => .ok (sealed_len w _)
  split
  · exact (writeHdr_both w ..).bind fun _ _ w => (writeBe_both w _).bind fun _ _ w => (writeBe_both w _).bind fun _ _ w => .ok (sealed_len w _)
  · exact .ok ⟨w, rfl⟩

theorem Wrote.valid {b b' : PduBuf} (h : Wrote b b') : isAduValid b = isAduValid b' := by
  unfold isAduValid
  rw [← h.1]
  by_cases k : 6 ≤ b.len
  · unfold aduPktLen aduLenOffset
    rw [h.2 _ (by omega), h.2 _ (by omega)]
  · have n : ∀ c : PduBuf, (aduPktLen c + aduHdrLen == b.len) = false := fun c => by
      simp only [aduHdrLen, beq_eq_false_iff_ne]
      omega
    rw [n, n]

/-! ## Decoding -/

theorem dataSet_both {d d' : Mem} (cap i v : Nat) {P : Nat → Prop} (h : ∀ j, P j → d j = d' j) :
    Both (fun e e' : Mem => ∀ j, P j ∨ j = i → e j = e' j) (dataSet d cap i v) (dataSet d' cap i v) := by
  unfold dataSet
  split
  · refine .ok fun j hj => ?_
    unfold memWrite
    split
    · rfl
    · rename_i hn
      exact h j (hj.resolve_right fun e => hn ⟨by omega, by simp; omega⟩)
  · exact .ub

/-- What has been read is the same. -/
theorem readRegs_both (cap : Nat) : ∀ (n i : Nat) (b : PduBuf) {d d' : Mem}, (∀ j, j < i → d j = d' j) →
    Both (fun x y : PduBuf × Mem => x.1 = y.1 ∧ ∀ j, j < i + 2 * n → x.2 j = y.2 j) (readRegs b d cap i n) (readRegs b d' cap i n)
  | 0, _, _, _, _, h => .ok ⟨rfl, h⟩
  | n + 1, i, b, d, d', h => by
    unfold readRegs
    refine (Both.refl _).bind fun x _ e => ?_
    subst e
    refine (dataSet_both cap (i + 1) x.1 (P := fun j => j < i) h).bind fun e e' k => ?_
    refine (Both.refl _).bind fun y _ e => ?_
    subst e
    refine (dataSet_both cap i y.1 k).bind fun f f' k => ?_
    have := readRegs_both cap n (i + 2) y.2 (d := f) (d' := f') fun j hj => k j (by omega)
    rwa [show i + 2 + 2 * n = i + 2 * (n + 1) by omega] at this

/-- Decoded responses that agree in all that is assigned by decoding. -/
def Read (x y : PduBuf × AduRsp × Bool) : Prop :=
  x.1 = y.1 ∧ x.2.2 = y.2.2 ∧ (x.2.2 = true → x.2.1.transactId = y.2.1.transactId ∧ x.2.1.addr = y.2.1.addr ∧ x.2.1.func = y.2.1.func ∧
    (x.2.1.func = fError → x.2.1.error = y.2.1.error) ∧
    (x.2.1.func ≠ fError → memRead x.2.1.data 0 x.2.1.numBytes = memRead y.2.1.data 0 y.2.1.numBytes))

theorem memRead_same {m m' : Mem} {n : Nat} (h : ∀ j, j < n → m j = m' j) : memRead m 0 n = memRead m' 0 n := by
  unfold memRead
  refine List.map_congr_left fun i hi => ?_
  rw [Nat.zero_add]
  exact h i (List.mem_range.1 hi)

theorem decodeRsp_both (b : PduBuf) {a a' : AduRsp} (h : a.numBytes = 0) (h' : a'.numBytes = 0) : Both Read (decodeRsp b a) (decodeRsp b a') := by
  unfold decodeRsp
  refine (Both.refl _).bind fun x _ e => ?_
  subst e
  refine (Both.refl _).bind fun y _ e => ?_
  subst e
  dsimp only
  split
  · exact .ok ⟨rfl, rfl, fun e => by cases e⟩
  refine (Both.refl _).bind fun l _ e => ?_
  subst e
  refine (Both.refl _).bind fun u _ e => ?_
  subst e
  refine (Both.refl _).bind fun f _ e => ?_
  subst e
  split
  · rename_i hf
    refine (Both.refl _).bind fun v _ e => ?_
    subst e
    exact .ok ⟨rfl, rfl, fun _ => ⟨rfl, rfl, rfl, fun _ => rfl, fun n => absurd hf n⟩⟩
  split
  · refine (Both.refl _).bind fun v _ e => ?_
    subst e
    split
    · exact .ok ⟨rfl, rfl, fun e => by cases e⟩
    split
    · exact .ok ⟨rfl, rfl, fun e => by cases e⟩
    · rename_i hf _ _ _
      refine (readRegs_both _ _ 0 _ fun _ hj => absurd hj (Nat.not_lt_zero _)).bind ?_
      rintro ⟨b1, d1⟩ ⟨b2, d2⟩ ⟨k1, k2⟩
      dsimp only at k1 k2
      subst k1
      exact .ok ⟨rfl, rfl, fun _ => ⟨rfl, rfl, rfl, fun n => absurd n hf, fun _ => memRead_same fun j hj => k2 j (by dsimp only at hj; omega)⟩⟩
  split
  · split
    · exact .ok ⟨rfl, rfl, fun e => by cases e⟩
    · rename_i hf _ _ _
      refine (Both.refl _).bind fun v _ e => ?_
      subst e
      refine (readRegs_both _ _ 0 _ fun _ hj => absurd hj (Nat.not_lt_zero _)).bind ?_
      rintro ⟨b1, d1⟩ ⟨b2, d2⟩ ⟨k1, k2⟩
      dsimp only at k1 k2
      subst k1
      exact .ok ⟨rfl, rfl, fun _ => ⟨rfl, rfl, rfl, fun n => absurd n hf, fun _ => memRead_same fun j hj => k2 j (by dsimp only at hj; omega)⟩⟩
  split
  · split
    · exact .ok ⟨rfl, rfl, fun e => by cases e⟩
    · rename_i hf _ _ _ _
      refine (Both.refl _).bind fun v _ e => ?_
      subst e
      refine (Both.refl _).bind fun w _ e => ?_
      subst e
      refine .ok ⟨rfl, rfl, fun _ => ⟨rfl, rfl, rfl, fun n => absurd n hf, fun _ => ?_⟩⟩
      dsimp only
      rw [h, h']
      rfl
  · exact .ok ⟨rfl, rfl, fun e => by cases e⟩

/-! ## The properties -/

/-- C91: the local variables of `ModbusSession::send` (ModbusSession.cpp:156-208), whatever they contain, do not show. -/
theorem C91_local (m d : Mem) (s : Session) (r : AppRsp) (ok : Bool) : Session.sendIn m d s r ok = s.send r ok := by
  refine Both.eq ?_
  unfold Session.send Session.sendIn
  split
  · exact .ok rfl
  split
  · exact .ok rfl
  split
  · exact .ub
  have hd : ∀ i, i < ({ Session.rspOf s r with data := fun i => r.data.getD i (d i) } : AduRsp).numBytes → r.data.getD i (d i) = r.data.getD i 0 := fun i hi => by
    have hi : i < r.data.length := hi
    simp [hi]
  refine (encodeRsp_both m (fun _ => 0) (fun i => r.data.getD i 0) { Session.rspOf s r with data := fun i => r.data.getD i (d i) } hd).bind ?_
  rintro ⟨b, k⟩ ⟨b', k'⟩ ⟨w, e⟩
  dsimp only at w e ⊢
  subst e
  by_cases hk : k = false
  · rw [if_pos hk, if_pos hk]
    exact .ok rfl
  rw [if_neg hk, if_neg hk, w.valid, w.content]
  exact .refl _

/-- Non-vacuity of `C91_local`: a frame is sent. -/
example : Session.sendIn (fun _ => 255) (fun _ => 255) { Session.create (fun _ => 0) ⟨0, 7, 3, 1, 0, 1, 0, fun _ => 0, 260⟩ with link := true, opened := true }
    ⟨7, 0, true, [5, 6]⟩ true = .ok ([.frame [0, 7, 0, 0, 0, 5, 1, 3, 2, 6, 5]], .done) := by decide +kernel

/-- C92: neither do those of `ModbusClient::send` (ModbusClient.cpp:49-75) and `ModbusClient::receive` (ModbusClient.cpp:82-186), whose response structure initialises
nothing but the number of bytes. -/
theorem C92_local (m : Mem) (a : AduRsp) (h : a.numBytes = 0) (c : Client) (p : AduStorage.Pending) (ok : Bool) :
    Client.sendIn m c ok = c.send ok ∧ Client.evaluateIn a c p = c.evaluate p := by
  constructor
  · refine Both.eq ?_
    unfold Client.send Client.sendIn
    cases c.pending with
    | nil => exact .ok rfl
    | cons q qs =>
      dsimp only
      refine (encodeReq_both m (fun _ => 0) _).bind ?_
      rintro ⟨b, k⟩ ⟨b', k'⟩ ⟨w, e⟩
      dsimp only at w e ⊢
      subst e
      rw [w.content]
      exact .refl _
  · refine Both.eq ?_
    unfold Client.evaluate Client.evaluateIn
    split
    · exact .ok rfl
    split
    · exact .ok rfl
    split
    · exact .ok rfl
    split
    · exact .ok rfl
    refine (decodeRsp_both c.pdu h rfl).bind ?_
    rintro ⟨b, r, k⟩ ⟨b', r', k'⟩ ⟨e1, e2, e3⟩
    dsimp only at e1 e2 e3 ⊢
    subst e1 e2
    by_cases hk : k = false
    · rw [if_pos hk, if_pos hk]
      exact .ok rfl
    obtain ⟨g1, g2, g3, g4, g5⟩ := e3 (by simpa using hk)
    rw [if_neg hk, if_neg hk, ← g1, ← g2, ← g3]
    by_cases hf : r.func = fError
    · rw [g4 hf]
      simp only [if_pos hf]
      exact .refl _
    · rw [g5 hf]
      simp only [if_neg hf]
      exact .refl _

/-- Non-vacuity of `C92_local`: an answer is decoded into memory full of ones. -/
example : (Client.evaluateIn ⟨9, 9, 9, 9, 9, 9, 0, fun _ => 255⟩
      { Client.create (fun _ => 0) with pdu := (PduBuf.fresh fun _ => 0).received (Client.sampleAnswer 5) } (AduStorage.pendingOf (Client.sampleCall 5)) >>= fun x => pure x.2) =
    .ok ([.rsp ⟨1, 5, true, 0, [2, 1, 4, 3]⟩], .done) := by decide +kernel

end Uscada.Modbus
