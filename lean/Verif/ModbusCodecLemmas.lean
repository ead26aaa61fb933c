import Verif.ModbusCodec
/-!
# Closed forms of the Modbus encoders and decoders (helper lemmas)
-/

namespace Uscada.Modbus

open MsgStorage

/-- Writing a block of bytes at the end of the buffer. -/
def writeAll (b : PduBuf) (l : List UInt8) : Exec PduBuf :=
  if b.len + l.length ≤ maxLen then
    .ok { b with buf := memWrite b.buf b.len l, len := b.len + l.length }
  else .ub

theorem memWrite_append (m : Mem) (off : Nat) (l l' : List UInt8) :
    memWrite (memWrite m off l) (off + l.length) l' = memWrite m off (l ++ l') := by
  funext i
  simp only [memWrite, List.length_append, List.getD_eq_getElem?_getD, List.getElem?_append]
  by_cases h1 : off + l.length ≤ i ∧ i < off + l.length + l'.length
  · rw [if_pos h1, if_pos (by omega), if_neg (by omega)]
    congr 2; omega
  · rw [if_neg h1]
    by_cases h2 : off ≤ i ∧ i < off + l.length
    · rw [if_pos h2, if_pos (by omega), if_pos (by omega)]
    · rw [if_neg h2, if_neg (by omega)]

theorem memWrite_nil (m : Mem) (off : Nat) : memWrite m off [] = m := by
  funext i
  simp only [memWrite, List.length_nil]
  rw [if_neg (by omega)]

theorem writeAll_append (b : PduBuf) (l l' : List UInt8) :
    (writeAll b l >>= fun b' => writeAll b' l') = writeAll b (l ++ l') := by
  unfold writeAll
  by_cases h : b.len + l.length ≤ maxLen
  · simp only [if_pos h, Exec.ok_bind, List.length_append, memWrite_append, Nat.add_assoc]
  · rw [if_neg h, if_neg (by simp only [List.length_append]; omega)]
    rfl

/-- `writeAll` followed by more code. -/
theorem writeAll_bind {β : Type} (b : PduBuf) (l l' : List UInt8) (f : PduBuf → Exec β) :
    (writeAll b l >>= fun b' => writeAll b' l' >>= f) = (writeAll b (l ++ l') >>= f) := by
  rw [← writeAll_append, Exec.bind_assoc]

theorem write_eq (b : PduBuf) (v : Nat) : b.write v = writeAll b [UInt8.ofNat v] := by
  simp only [PduBuf.write, writeAll, List.length_cons, List.length_nil]
  split <;> split <;> first | rfl | omega

/-- Big-endian 16-bit value, truncated. -/
def be16 (v : Nat) : List UInt8 := [UInt8.ofNat (v / 256), UInt8.ofNat v]

theorem writeBe_eq (b : PduBuf) (v : Nat) : b.writeBe v = writeAll b (be16 v) := by
  simp only [PduBuf.writeBe, write_eq]
  exact writeAll_append b [_] [_]

/-- Pairs of bytes, each swapped. -/
def regBytes (data : Mem) (i : Nat) : Nat → List UInt8
  | 0 => []
  | n + 1 => data (i + 1) :: data i :: regBytes data (i + 2) n

@[simp] theorem length_regBytes (data : Mem) (i n : Nat) : (regBytes data i n).length = 2 * n := by
  induction n generalizing i with
  | zero => rfl
  | succ n ih => simp [regBytes, ih]; omega

theorem writeRegs_eq (data : Mem) (cap n : Nat) : ∀ (b : PduBuf) (i : Nat), i + 2 * n ≤ cap →
    b.len ≤ maxLen → writeRegs b data cap i n = writeAll b (regBytes data i n) := by
  induction n with
  | zero =>
    intro b i _ hb
    simp only [writeRegs, regBytes, writeAll, List.length_nil, Nat.add_zero, if_pos hb, memWrite_nil]
  | succ n ih =>
    intro b i hi hb
    have h1 : dataGet data cap (i + 1) = .ok (data (i + 1)).toNat := by
      unfold dataGet; rw [if_pos (by omega)]
    have h2 : dataGet data cap i = .ok (data i).toNat := by
      unfold dataGet; rw [if_pos (by omega)]
    simp only [writeRegs, h1, h2, Exec.ok_bind, write_eq, UInt8.ofNat_toNat]
    rw [writeAll_bind]
    have h3 : regBytes data i (n + 1) = [data (i + 1), data i] ++ regBytes data (i + 2) n := rfl
    rw [h3]
    refine Eq.trans ?_ (writeAll_append _ _ _)
    simp only [List.cons_append, List.nil_append]
    unfold writeAll
    by_cases h : b.len + [data (i + 1), data i].length ≤ maxLen
    · simp only [if_pos h, Exec.ok_bind]
      exact ih _ _ (by omega) h
    · rw [if_neg h]
      rfl

/-- The seven-byte header plus the function code. -/
def hdr (transactId pktLen addr func : Nat) : List UInt8 :=
  be16 transactId ++ be16 0 ++ be16 pktLen ++ [UInt8.ofNat addr, UInt8.ofNat func]

@[simp] theorem length_hdr (t l a f : Nat) : (hdr t l a f).length = 8 := rfl

theorem writeHdr_eq (b : PduBuf) (t l a f : Nat) : writeHdr b t l a f = writeAll b (hdr t l a f) := by
  unfold writeHdr
  simp only [writeBe_eq, write_eq]
  rw [writeAll_bind, writeAll_bind, writeAll_bind]
  exact writeAll_append b _ _

theorem writeAll_ok (b : PduBuf) (l : List UInt8) (h : b.len + l.length ≤ maxLen) :
    writeAll b l = .ok { b with buf := memWrite b.buf b.len l, len := b.len + l.length } := if_pos h

/-- A buffer holding exactly `l`, positioned at the start. -/
def PduBuf.Has (b : PduBuf) (l : List UInt8) : Prop :=
  b.pos = 0 ∧ b.len = l.length ∧ ∀ i, (h : i < l.length) → b.buf i = l[i]

theorem has_of_write (m : Mem) (l : List UInt8) :
    PduBuf.Has { buf := memWrite m 0 l, pos := 0, len := 0 + l.length } l := by
  refine ⟨rfl, by simp, ?_⟩
  intro i h
  simp [memWrite, h]

/-! ## Closed forms of the encoders -/

/-- The bytes of a request frame: what the Modbus/TCP specification prescribes. -/
def reqFrame (a : AduReq) : List UInt8 :=
  if a.func = fPresetMulti then
    hdr a.transactId (7 + a.numBytes) a.addr a.func ++ be16 a.startItem ++ be16 a.numItems ++
      [UInt8.ofNat a.numBytes] ++ regBytes a.data 0 (a.numBytes / 2)
  else if isSingleFunc a.func then
    hdr a.transactId 6 a.addr a.func ++ be16 a.startItem ++ regBytes a.data 0 1
  else hdr a.transactId 6 a.addr a.func ++ be16 a.startItem ++ be16 a.numItems

/-- When a request is acceptable to the encoder. -/
def ReqOk (a : AduReq) : Prop :=
  a.addr ≤ 247 ∧
  ((isReadFunc a.func ∧ pduLen a.func a.numItems ≤ 253) ∨
   (isSingleFunc a.func ∧ a.numItems = 0 ∧ a.numBytes = 2 ∧
     (a.func = fForceCoil → a.data 1 = 0 ∧ (a.data 0 = 0 ∨ a.data 0 = 0xFF))) ∨
   (a.func = fPresetMulti ∧ a.numBytes = a.numItems * 2 ∧ a.numBytes ≤ 247))

theorem coilBad_eq (func : Nat) (data : Mem) (cap : Nat) (h : 2 ≤ cap) :
    coilBad func data cap = .ok (decide (func = fForceCoil ∧
      ¬ (data 1 = 0 ∧ (data 0 = 0 ∨ data 0 = 0xFF)))) := by
  have h1 : dataGet data cap 1 = .ok (data 1).toNat := by unfold dataGet; rw [if_pos (by omega)]
  have h0 : dataGet data cap 0 = .ok (data 0).toNat := by unfold dataGet; rw [if_pos (by omega)]
  have e1 : ((data 1).toNat ≠ 0) ↔ ¬ data 1 = 0 := by
    rw [← UInt8.toNat_inj]; rfl
  have e2 : ((data 0).toNat ≠ 0) ↔ ¬ data 0 = 0 := by
    rw [← UInt8.toNat_inj]; rfl
  have e3 : ((data 0).toNat ≠ 0xFF) ↔ ¬ data 0 = 0xFF := by
    rw [← UInt8.toNat_inj]; rfl
  unfold coilBad
  by_cases hf : func = fForceCoil
  · simp only [h1, h0, Exec.ok_bind, Exec.pure_eq, hf, true_and, e1, e2, e3]
    congr 2
    by_cases hd1 : data 1 = 0 <;> by_cases hd0 : data 0 = 0 <;> by_cases hd2 : data 0 = 255 <;>
      simp [hd1, hd0, hd2]
  · simp [hf]

/-- Encoding a request with at most 260 data bytes, all accessible, into a fresh buffer. -/
theorem encodeReq_eq (m : Mem) (a : AduReq) (hcap : a.numBytes ≤ a.dataCap) (hlen : a.numBytes ≤ 260) :
    ∃ b ok, encodeReq (PduBuf.fresh m) a = .ok (b, ok) ∧ b.len ≤ maxLen ∧
      (ok = true ↔ ReqOk a) ∧ (ok = true → b.Has (reqFrame a) ∧ (reqFrame a).length ≤ 260) := by
  have hm : maxLen = 512 := rfl
  have ha : maxAddr = 247 := rfl
  have hp : maxPduLen = 253 := rfl
  have hA : maxAduLen = 260 := rfl
  have f0 : (PduBuf.fresh m).len = 0 := rfl
  unfold encodeReq
  by_cases h1 : ¬ a.addr ≤ maxAddr
  · refine ⟨_, _, if_pos h1, by rw [f0]; omega, ?_, by simp⟩
    simp only [Bool.false_eq_true, false_iff]
    rintro ⟨h, _⟩; omega
  rw [if_neg h1]
  by_cases h2 : isReadFunc a.func
  · rw [if_pos h2]
    have hns : ¬ isSingleFunc a.func := by
      rcases h2 with h | h | h | h <;> rw [h] <;> decide
    have hnm : ¬ a.func = fPresetMulti := by
      rcases h2 with h | h | h | h <;> rw [h] <;> decide
    have hframe : reqFrame a = hdr a.transactId 6 a.addr a.func ++ be16 a.startItem ++ be16 a.numItems := by
      unfold reqFrame; rw [if_neg hnm, if_neg hns]
    by_cases h3 : pduLen a.func a.numItems > maxPduLen
    · refine ⟨_, _, if_pos h3, by rw [f0]; omega, ?_, by simp⟩
      simp only [Bool.false_eq_true, false_iff]
      rintro ⟨_, ⟨_, h⟩ | ⟨h, _⟩ | ⟨h, _⟩⟩
      · omega
      · exact hns h
      · exact hnm h
    · rw [if_neg h3]
      simp only [writeHdr_eq, writeBe_eq]
      rw [writeAll_bind, writeAll_bind]
      rw [writeAll_ok _ _ (by simp [f0, be16, hm])]
      refine ⟨_, _, rfl, by simp [f0, be16, hm], ?_, ?_⟩
      · constructor
        · intro _; exact ⟨by omega, Or.inl ⟨h2, by omega⟩⟩
        · intro _; simp [f0, be16, hA]
      · intro _
        rw [hframe]
        exact ⟨has_of_write m _, by simp [be16]⟩
  rw [if_neg h2]
  by_cases h4 : isSingleFunc a.func
  · rw [if_pos h4]
    have hnm : ¬ a.func = fPresetMulti := by
      rcases h4 with h | h <;> rw [h] <;> decide
    have hframe : reqFrame a = hdr a.transactId 6 a.addr a.func ++ be16 a.startItem ++ regBytes a.data 0 1 := by
      unfold reqFrame; rw [if_neg hnm, if_pos h4]
    by_cases h5 : a.numItems ≠ 0
    · refine ⟨_, _, if_pos h5, by rw [f0]; omega, ?_, by simp⟩
      simp only [Bool.false_eq_true, false_iff]
      rintro ⟨_, ⟨h, _⟩ | ⟨_, h, _⟩ | ⟨h, _⟩⟩
      · exact h2 h
      · exact h5 h
      · exact hnm h
    rw [if_neg h5]
    by_cases h6 : a.numBytes ≠ 2
    · refine ⟨_, _, if_pos h6, by rw [f0]; omega, ?_, by simp⟩
      simp only [Bool.false_eq_true, false_iff]
      rintro ⟨_, ⟨h, _⟩ | ⟨_, _, h, _⟩ | ⟨h, _⟩⟩
      · exact h2 h
      · exact h6 h
      · exact hnm h
    rw [if_neg h6, coilBad_eq _ _ _ (by omega)]
    simp only [Exec.ok_bind, decide_eq_true_eq]
    by_cases h7 : a.func = fForceCoil ∧ ¬ (a.data 1 = 0 ∧ (a.data 0 = 0 ∨ a.data 0 = 0xFF))
    · refine ⟨_, _, if_pos h7, by rw [f0]; omega, ?_, by simp⟩
      simp only [Bool.false_eq_true, false_iff]
      rintro ⟨_, ⟨h, _⟩ | ⟨_, _, _, h⟩ | ⟨h, _⟩⟩
      · exact h2 h
      · exact h7.2 (h h7.1)
      · exact hnm h
    · rw [if_neg h7]
      simp only [writeHdr_eq, writeBe_eq]
      rw [writeAll_bind]
      rw [writeAll_ok _ _ (by simp [f0, be16, hm])]
      simp only [Exec.ok_bind]
      rw [writeRegs_eq _ _ _ _ _ (by omega) (by simp [f0, be16, hm])]
      rw [writeAll_ok _ _ (by simp [f0, be16, hm])]
      refine ⟨_, _, rfl, by simp [f0, be16, hm], ?_, ?_⟩
      · constructor
        · intro _
          exact ⟨by omega, Or.inr (Or.inl ⟨h4, by omega, by omega, fun h => by
            by_cases hc : a.data 1 = 0 ∧ (a.data 0 = 0 ∨ a.data 0 = 0xFF)
            · exact hc
            · exact absurd ⟨h, hc⟩ h7⟩)⟩
        · intro _; simp [f0, be16, hA]
      · intro _
        rw [hframe]
        refine ⟨?_, by simp [be16]⟩
        simp only [memWrite_append, f0]
        have := has_of_write m (hdr a.transactId 6 a.addr a.func ++ be16 a.startItem ++ regBytes a.data 0 1)
        simpa only [List.length_append, Nat.add_assoc, PduBuf.fresh] using this
  rw [if_neg h4]
  by_cases h8 : a.func = fPresetMulti
  · rw [if_pos h8]
    have hframe : reqFrame a = hdr a.transactId (7 + a.numBytes) a.addr a.func ++ be16 a.startItem ++
        be16 a.numItems ++ [UInt8.ofNat a.numBytes] ++ regBytes a.data 0 (a.numBytes / 2) := by
      unfold reqFrame; rw [if_pos h8]
    by_cases h9 : a.numBytes ≠ a.numItems * 2
    · refine ⟨_, _, if_pos h9, by rw [f0]; omega, ?_, by simp⟩
      simp only [Bool.false_eq_true, false_iff]
      rintro ⟨_, ⟨h, _⟩ | ⟨h, _⟩ | ⟨_, h, _⟩⟩
      · exact h2 h
      · exact h4 h
      · exact h9 h
    rw [if_neg h9]
    have hn : (a.numBytes + 1) / 2 = a.numBytes / 2 := by omega
    have hpk : 1 + 1 + 2 + 2 + 1 + a.numBytes = 7 + a.numBytes := by omega
    simp only [writeHdr_eq, writeBe_eq, write_eq, hn, hpk]
    rw [writeAll_bind, writeAll_bind, writeAll_bind]
    rw [writeAll_ok _ _ (by simp [f0, be16, hm])]
    simp only [Exec.ok_bind]
    rw [writeRegs_eq _ _ _ _ _ (by omega) (by simp [f0, be16, hm])]
    rw [writeAll_ok _ _ (by simp [f0, be16, hm]; omega)]
    refine ⟨_, _, rfl, by simp [f0, be16, hm]; omega, ?_, ?_⟩
    · simp only [f0, hA, List.length_append, length_hdr, be16, List.length_cons, List.length_nil,
        length_regBytes, decide_eq_true_eq]
      constructor
      · intro h
        exact ⟨by omega, Or.inr (Or.inr ⟨h8, by omega, by omega⟩)⟩
      · rintro ⟨_, ⟨h, _⟩ | ⟨h, _⟩ | ⟨_, _, h⟩⟩
        · exact absurd h h2
        · exact absurd h h4
        · omega
    · intro h
      simp only [f0, hA, List.length_append, length_hdr, be16, List.length_cons, List.length_nil,
        length_regBytes, decide_eq_true_eq] at h
      rw [hframe]
      refine ⟨?_, by simp [be16]; omega⟩
      simp only [memWrite_append, f0]
      have := has_of_write m (hdr a.transactId (7 + a.numBytes) a.addr a.func ++ be16 a.startItem ++
        be16 a.numItems ++ [UInt8.ofNat a.numBytes] ++ regBytes a.data 0 (a.numBytes / 2))
      simpa only [List.length_append, Nat.add_assoc, PduBuf.fresh] using this
  · rw [if_neg h8]
    refine ⟨_, _, rfl, by rw [f0]; omega, ?_, by simp⟩
    simp only [Bool.false_eq_true, false_iff]
    rintro ⟨_, ⟨h, _⟩ | ⟨h, _⟩ | ⟨h, _⟩⟩
    · exact h2 h
    · exact h4 h
    · exact h8 h

/-- The bytes of a response frame. -/
def rspFrame (a : AduRsp) : List UInt8 :=
  if a.func = fError then hdr a.transactId 3 a.addr a.func ++ [UInt8.ofNat (errorToByte a.error)]
  else if isRegFunc a.func then
    hdr a.transactId (3 + a.numBytes) a.addr a.func ++ [UInt8.ofNat a.numBytes] ++
      regBytes a.data 0 (a.numBytes / 2)
  else if isSingleFunc a.func then
    hdr a.transactId 6 a.addr a.func ++ be16 a.startItem ++ regBytes a.data 0 1
  else hdr a.transactId 6 a.addr a.func ++ be16 a.startItem ++ be16 a.numItems

/-- When a response is acceptable to the encoder. -/
def RspOk (a : AduRsp) : Prop :=
  a.func = fError ∨
  (isRegFunc a.func ∧ a.numBytes % 2 = 0 ∧ a.numBytes ≤ 251) ∨
  (isSingleFunc a.func ∧ a.numBytes = 2 ∧
     (a.func = fForceCoil → a.data 1 = 0 ∧ (a.data 0 = 0 ∨ a.data 0 = 0xFF))) ∨
  a.func = fPresetMulti

/-- Encoding a response with at most 260 data bytes into a fresh buffer. -/
theorem encodeRsp_eq (m : Mem) (a : AduRsp) (hlen : a.numBytes ≤ 260) :
    ∃ b ok, encodeRsp (PduBuf.fresh m) a = .ok (b, ok) ∧ b.len ≤ maxLen ∧
      (ok = true ↔ RspOk a) ∧ (ok = true → b.Has (rspFrame a) ∧ (rspFrame a).length ≤ 260) := by
  have hm : maxLen = 512 := rfl
  have hA : maxAduLen = 260 := rfl
  have f0 : (PduBuf.fresh m).len = 0 := rfl
  unfold encodeRsp
  by_cases h1 : a.func = fError
  · rw [if_pos h1]
    have hframe : rspFrame a = hdr a.transactId 3 a.addr a.func ++ [UInt8.ofNat (errorToByte a.error)] := by
      unfold rspFrame; rw [if_pos h1]
    simp only [writeHdr_eq, write_eq]
    rw [writeAll_bind, writeAll_ok _ _ (by simp [f0, hm])]
    refine ⟨_, _, rfl, by simp [f0, hm], ?_, ?_⟩
    · exact ⟨fun _ => Or.inl h1, fun _ => by simp [f0, hA]⟩
    · intro _
      rw [hframe]
      exact ⟨has_of_write m _, by simp⟩
  rw [if_neg h1]
  by_cases h2 : isRegFunc a.func
  · rw [if_pos h2]
    have hns : ¬ isSingleFunc a.func := by
      rcases h2 with h | h <;> rw [h] <;> decide
    have hnm : ¬ a.func = fPresetMulti := by
      rcases h2 with h | h <;> rw [h] <;> decide
    have hframe : rspFrame a = hdr a.transactId (3 + a.numBytes) a.addr a.func ++
        [UInt8.ofNat a.numBytes] ++ regBytes a.data 0 (a.numBytes / 2) := by
      unfold rspFrame; rw [if_neg h1, if_pos h2]
    have hpk : 1 + 1 + 1 + a.numBytes = 3 + a.numBytes := by omega
    simp only [writeHdr_eq, write_eq, hpk]
    rw [writeAll_bind, writeAll_ok _ _ (by simp [f0, hm])]
    simp only [Exec.ok_bind]
    by_cases h3 : a.numBytes % 2 ≠ 0
    · refine ⟨_, _, if_pos h3, by simp [f0, hm], ?_, by simp⟩
      simp only [Bool.false_eq_true, false_iff]
      rintro (h | ⟨_, h, _⟩ | ⟨h, _⟩ | h)
      · exact h1 h
      · exact h3 h
      · exact hns h
      · exact hnm h
    rw [if_neg h3]
    have hn : (a.numBytes + 1) / 2 = a.numBytes / 2 := by omega
    rw [hn, writeRegs_eq _ _ _ _ _ (by omega) (by simp [f0, hm])]
    rw [writeAll_ok _ _ (by simp [f0, hm]; omega)]
    refine ⟨_, _, rfl, by simp [f0, hm]; omega, ?_, ?_⟩
    · simp only [f0, hA, List.length_append, length_hdr, List.length_cons, List.length_nil,
        length_regBytes, decide_eq_true_eq]
      constructor
      · intro h
        exact Or.inr (Or.inl ⟨h2, by omega, by omega⟩)
      · rintro (h | ⟨_, h, _⟩ | ⟨h, _⟩ | h)
        · exact absurd h h1
        · omega
        · exact absurd h hns
        · exact absurd h hnm
    · intro h
      simp only [f0, hA, List.length_append, length_hdr, List.length_cons, List.length_nil,
        length_regBytes, decide_eq_true_eq] at h
      rw [hframe]
      refine ⟨?_, by simp; omega⟩
      simp only [memWrite_append, f0]
      have := has_of_write m (hdr a.transactId (3 + a.numBytes) a.addr a.func ++
        [UInt8.ofNat a.numBytes] ++ regBytes a.data 0 (a.numBytes / 2))
      simpa only [List.length_append, Nat.add_assoc, PduBuf.fresh] using this
  rw [if_neg h2]
  by_cases h4 : isSingleFunc a.func
  · rw [if_pos h4]
    have hnm : ¬ a.func = fPresetMulti := by
      rcases h4 with h | h <;> rw [h] <;> decide
    have hframe : rspFrame a = hdr a.transactId 6 a.addr a.func ++ be16 a.startItem ++ regBytes a.data 0 1 := by
      unfold rspFrame; rw [if_neg h1, if_neg h2, if_pos h4]
    by_cases h6 : a.numBytes ≠ 2
    · refine ⟨_, _, if_pos h6, by rw [f0]; omega, ?_, by simp⟩
      simp only [Bool.false_eq_true, false_iff]
      rintro (h | ⟨h, _⟩ | ⟨_, h, _⟩ | h)
      · exact h1 h
      · exact h2 h
      · exact h6 h
      · exact hnm h
    rw [if_neg h6, coilBad_eq _ _ _ (by omega)]
    simp only [Exec.ok_bind, decide_eq_true_eq]
    by_cases h7 : a.func = fForceCoil ∧ ¬ (a.data 1 = 0 ∧ (a.data 0 = 0 ∨ a.data 0 = 0xFF))
    · refine ⟨_, _, if_pos h7, by rw [f0]; omega, ?_, by simp⟩
      simp only [Bool.false_eq_true, false_iff]
      rintro (h | ⟨h, _⟩ | ⟨_, _, h⟩ | h)
      · exact h1 h
      · exact h2 h
      · exact h7.2 (h h7.1)
      · exact hnm h
    · rw [if_neg h7]
      simp only [writeHdr_eq, writeBe_eq]
      rw [writeAll_bind]
      rw [writeAll_ok _ _ (by simp [f0, be16, hm])]
      simp only [Exec.ok_bind]
      rw [writeRegs_eq _ _ _ _ _ (by omega) (by simp [f0, be16, hm])]
      rw [writeAll_ok _ _ (by simp [f0, be16, hm])]
      refine ⟨_, _, rfl, by simp [f0, be16, hm], ?_, ?_⟩
      · constructor
        · intro _
          exact Or.inr (Or.inr (Or.inl ⟨h4, by omega, fun h => by
            by_cases hc : a.data 1 = 0 ∧ (a.data 0 = 0 ∨ a.data 0 = 0xFF)
            · exact hc
            · exact absurd ⟨h, hc⟩ h7⟩))
        · intro _; simp [f0, be16, hA]
      · intro _
        rw [hframe]
        refine ⟨?_, by simp [be16]⟩
        simp only [memWrite_append, f0]
        have := has_of_write m (hdr a.transactId 6 a.addr a.func ++ be16 a.startItem ++ regBytes a.data 0 1)
        simpa only [List.length_append, Nat.add_assoc, PduBuf.fresh] using this
  rw [if_neg h4]
  by_cases h8 : a.func = fPresetMulti
  · rw [if_pos h8]
    have hframe : rspFrame a = hdr a.transactId 6 a.addr a.func ++ be16 a.startItem ++ be16 a.numItems := by
      unfold rspFrame; rw [if_neg h1, if_neg h2, if_neg h4]
    simp only [writeHdr_eq, writeBe_eq]
    rw [writeAll_bind, writeAll_bind]
    rw [writeAll_ok _ _ (by simp [f0, be16, hm])]
    refine ⟨_, _, rfl, by simp [f0, be16, hm], ?_, ?_⟩
    · exact ⟨fun _ => Or.inr (Or.inr (Or.inr h8)), fun _ => by simp [f0, be16, hA]⟩
    · intro _
      rw [hframe]
      exact ⟨has_of_write m _, by simp [be16]⟩
  · rw [if_neg h8]
    refine ⟨_, _, rfl, by rw [f0]; omega, ?_, by simp⟩
    simp only [Bool.false_eq_true, false_iff]
    rintro (h | ⟨h, _⟩ | ⟨h, _⟩ | h)
    · exact h1 h
    · exact h2 h
    · exact h4 h
    · exact h8 h

/-! ## Closed forms of the decoders -/

theorem read_ok {b : PduBuf} (h : b.pos < 512) :
    b.read = .ok ((b.buf b.pos).toNat, { b with pos := b.pos + 1 }) := if_pos h

/-- Big-endian value at an address. -/
def beAt (m : Mem) (p : Nat) : Nat := (m p).toNat * 256 + (m (p + 1)).toNat

theorem readBe_ok {b : PduBuf} (h : b.pos + 1 < 512) :
    b.readBe = .ok (beAt b.buf b.pos, { b with pos := b.pos + 2 }) := by
  unfold PduBuf.readBe
  rw [read_ok (by omega)]
  simp only [Exec.ok_bind]
  rw [read_ok (by simpa using h)]
  rfl

theorem dataSet_ok (d : Mem) (cap i v : Nat) (h : i < cap) :
    dataSet d cap i v = .ok (memWrite d i [UInt8.ofNat v]) := if_pos h

theorem readRegs_ok (n : Nat) : ∀ (b : PduBuf) (data : Mem) (cap i : Nat), b.pos + 2 * n ≤ 512 →
    i + 2 * n ≤ cap →
    readRegs b data cap i n =
      .ok ({ b with pos := b.pos + 2 * n }, memWrite data i (regBytes b.buf b.pos n)) := by
  induction n with
  | zero => intro b data cap i _ _; simp [readRegs, regBytes, memWrite_nil]
  | succ n ih =>
    intro b data cap i hb hc
    simp only [readRegs]
    rw [read_ok (by omega)]
    simp only [Exec.ok_bind]
    rw [dataSet_ok _ _ _ _ (by omega)]
    simp only [Exec.ok_bind]
    rw [read_ok (by simp only; omega)]
    simp only [Exec.ok_bind]
    rw [dataSet_ok _ _ _ _ (by omega)]
    simp only [Exec.ok_bind, UInt8.ofNat_toNat]
    rw [ih _ _ _ _ (by simp only; omega) (by omega)]
    simp only
    congr 2
    · congr 1; omega
    · have h1 : regBytes b.buf b.pos (n + 1) =
          [b.buf (b.pos + 1), b.buf b.pos] ++ regBytes b.buf (b.pos + 1 + 1) n := rfl
      rw [h1, ← memWrite_append]
      congr 1
      funext j
      simp only [memWrite, List.length_cons, List.length_nil]
      by_cases hj : j = i
      · subst hj; simp
      · by_cases hj' : j = i + 1
        · subst hj'; simp
        · rw [if_neg (by omega), if_neg (by omega), if_neg (by omega)]

/-- What decoding a request from memory `m` at position `p` yields: bytes consumed, the resulting
structure, and acceptance. -/
def parseReq (m : Mem) (p : Nat) (a : AduReq) : Nat × AduReq × Bool :=
  let a := { a with transactId := beAt m p }
  if beAt m (p + 2) ≠ 0 then (4, a, false)
  else
    let pktLen := beAt m (p + 4)
    let a := { a with addr := (m (p + 6)).toNat }
    if ¬ a.addr ≤ maxAddr then (7, a, false)
    else
      let a := { a with func := (m (p + 7)).toNat }
      if isReadFunc a.func then
        if pktLen ≠ 6 then (8, a, false)
        else
          let a := { a with startItem := beAt m (p + 8), numItems := beAt m (p + 10) }
          if pduLen a.func a.numItems > maxPduLen then (12, a, false) else (12, a, true)
      else if isSingleFunc a.func then
        if pktLen ≠ 6 then (8, a, false)
        else (12, { a with startItem := beAt m (p + 8), numBytes := 2,
                           data := memWrite a.data 0 (regBytes m (p + 10) 1) }, true)
      else if a.func = fPresetMulti then
        let a := { a with startItem := beAt m (p + 8), numItems := beAt m (p + 10),
                          numBytes := (m (p + 12)).toNat }
        if a.numBytes ≠ a.numItems * 2 then (13, a, false)
        else if pktLen ≠ 7 + a.numBytes then (13, a, false)
        else (13 + a.numBytes, { a with data := memWrite a.data 0 (regBytes m (p + 13) (a.numBytes / 2)) }, true)
      else (8, a, false)

theorem decodeReq_eq (b : PduBuf) (a : AduReq) (hp : b.pos + 268 ≤ 512) (hc : 256 ≤ a.dataCap) :
    decodeReq b a = .ok ({ b with pos := b.pos + (parseReq b.buf b.pos a).1 },
      (parseReq b.buf b.pos a).2) := by
  unfold decodeReq parseReq
  rw [readBe_ok (by omega)]
  simp only [Exec.ok_bind]
  rw [readBe_ok (by simp only; omega)]
  simp only [Exec.ok_bind]
  split
  · rfl
  rw [readBe_ok (by simp only; omega)]
  simp only [Exec.ok_bind]
  rw [read_ok (by simp only; omega)]
  simp only [Exec.ok_bind]
  split
  · rfl
  rw [read_ok (by simp only; omega)]
  simp only [Exec.ok_bind]
  split
  · split
    · rfl
    · rw [readBe_ok (by simp only; omega)]
      simp only [Exec.ok_bind]
      rw [readBe_ok (by simp only; omega)]
      simp only [Exec.ok_bind]
      split <;> rfl
  split
  · split
    · rfl
    · rw [readBe_ok (by simp only; omega)]
      simp only [Exec.ok_bind]
      rw [readRegs_ok _ _ _ _ _ (by simp only; omega) (by omega)]
      rfl
  split
  · rw [readBe_ok (by simp only; omega)]
    simp only [Exec.ok_bind]
    rw [readBe_ok (by simp only; omega)]
    simp only [Exec.ok_bind]
    rw [read_ok (by simp only; omega)]
    simp only [Exec.ok_bind]
    split
    · rfl
    split
    · rfl
    · rename_i h1 h2
      have h3 := (b.buf (b.pos + 2 + 2 + 2 + 1 + 1 + 2 + 2)).toNat_lt
      rw [readRegs_ok _ _ _ _ _ (by simp only; omega) (by omega)]
      simp only [Exec.ok_bind, Exec.pure_eq]
      have h4 : ((b.buf (b.pos + 2 + 2 + 2 + 1 + 1 + 2 + 2)).toNat + 1) / 2 =
        (b.buf (b.pos + 2 + 2 + 2 + 1 + 1 + 2 + 2)).toNat / 2 := by omega
      have h5 : b.pos + 2 + 2 + 2 + 1 + 1 + 2 + 2 = b.pos + 12 := rfl
      rw [h4, h5]
      congr 2
      congr 1
      rw [h5] at h1
      omega
  · rfl

/-- What decoding a response yields. -/
def parseRsp (m : Mem) (p : Nat) (a : AduRsp) : Nat × AduRsp × Bool :=
  let a := { a with transactId := beAt m p }
  if beAt m (p + 2) ≠ 0 then (4, a, false)
  else
    let pktLen := beAt m (p + 4)
    let a := { a with addr := (m (p + 6)).toNat, func := (m (p + 7)).toNat }
    if a.func = fError then (9, { a with error := (m (p + 8)).toNat }, true)
    else if isRegFunc a.func then
      let a := { a with numBytes := (m (p + 8)).toNat }
      if pktLen ≠ a.numBytes + 3 then (9, a, false)
      else if a.numBytes % 2 ≠ 0 then (9, a, false)
      else (9 + a.numBytes, { a with data := memWrite a.data 0 (regBytes m (p + 9) (a.numBytes / 2)) }, true)
    else if isSingleFunc a.func then
      if pktLen ≠ 6 then (8, a, false)
      else (12, { a with startItem := beAt m (p + 8), numBytes := 2,
                         data := memWrite a.data 0 (regBytes m (p + 10) 1) }, true)
    else if a.func = fPresetMulti then
      if pktLen ≠ 6 then (8, a, false)
      else (12, { a with startItem := beAt m (p + 8), numItems := beAt m (p + 10) }, true)
    else (8, a, false)

theorem decodeRsp_eq (b : PduBuf) (a : AduRsp) (hp : b.pos + 264 ≤ 512) :
    decodeRsp b a = .ok ({ b with pos := b.pos + (parseRsp b.buf b.pos a).1 },
      (parseRsp b.buf b.pos a).2) := by
  have hA : maxAduLen = 260 := rfl
  unfold decodeRsp parseRsp
  rw [readBe_ok (by omega)]
  simp only [Exec.ok_bind]
  rw [readBe_ok (by simp only; omega)]
  simp only [Exec.ok_bind]
  split
  · rfl
  rw [readBe_ok (by simp only; omega)]
  simp only [Exec.ok_bind]
  rw [read_ok (by simp only; omega)]
  simp only [Exec.ok_bind]
  rw [read_ok (by simp only; omega)]
  simp only [Exec.ok_bind]
  split
  · rw [read_ok (by simp only; omega)]
    rfl
  split
  · rw [read_ok (by simp only; omega)]
    simp only [Exec.ok_bind]
    split
    · rfl
    split
    · rfl
    · rename_i h1 h2
      have h3 := (b.buf (b.pos + 2 + 2 + 2 + 1 + 1)).toNat_lt
      rw [readRegs_ok _ _ _ _ _ (by simp only; omega) (by omega)]
      simp only [Exec.ok_bind, Exec.pure_eq]
      have h4 : ((b.buf (b.pos + 2 + 2 + 2 + 1 + 1)).toNat + 1) / 2 =
        (b.buf (b.pos + 2 + 2 + 2 + 1 + 1)).toNat / 2 := by omega
      have h5 : b.pos + 2 + 2 + 2 + 1 + 1 = b.pos + 8 := rfl
      rw [h4, h5]
      congr 2
      congr 1
      rw [h5] at h2
      omega
  split
  · split
    · rfl
    · rw [readBe_ok (by simp only; omega)]
      simp only [Exec.ok_bind]
      rw [readRegs_ok _ _ _ _ _ (by simp only; omega) (by omega)]
      rfl
  split
  · split
    · rfl
    · rw [readBe_ok (by simp only; omega)]
      simp only [Exec.ok_bind]
      rw [readBe_ok (by simp only; omega)]
      rfl
  · rfl

end Uscada.Modbus
