import Verif.ModbusCodecLemmas
/-!
# C08-C11: the Modbus codec

C08 requests survive encoding and decoding, C09 the same for responses, C10 encoded frames are well
formed and bounded, C11 decoding depends only on received bytes.
-/

namespace Uscada.Modbus

/-! ## Specification -/

/-- What a request means: the fields that belong to its function. -/
structure ReqView where
  transactId : Nat
  addr : Nat
  func : Nat
  startItem : Nat
  /-- item count, for all functions except single writes -/
  numItems : Option Nat
  /-- register or coil data, for the writing functions -/
  data : Option (List UInt8)
deriving DecidableEq

def AduReq.view (a : AduReq) : ReqView where
  transactId := a.transactId
  addr := a.addr
  func := a.func
  startItem := a.startItem
  numItems := if isSingleFunc a.func then none else some a.numItems
  data := if isReadFunc a.func then none else some (memRead a.data 0 a.numBytes)

/-- What a response means. -/
structure RspView where
  transactId : Nat
  addr : Nat
  func : Nat
  error : Option Nat
  startItem : Option Nat
  numItems : Option Nat
  data : Option (List UInt8)
deriving DecidableEq

def AduRsp.view (a : AduRsp) : RspView where
  transactId := a.transactId
  addr := a.addr
  func := a.func
  error := if a.func = fError then some a.error else none
  startItem := if isSingleFunc a.func ∨ a.func = fPresetMulti then some a.startItem else none
  numItems := if a.func = fPresetMulti then some a.numItems else none
  data := if isRegFunc a.func ∨ isSingleFunc a.func then some (memRead a.data 0 a.numBytes) else none

/-- A buffer into which exactly the bytes `l` were received, positioned at the start; the rest of the
array is arbitrary. -/
def Received (b : PduBuf) (l : List UInt8) : Prop := b.pos = 0 ∧ b.len = l.length ∧ b.content = l

/-- Error codes the application can name (common/msg/types/ModbusError.hpp:6-20). -/
def declaredErrors : List Nat := [0, 1, 2, 3, 4, 5, 6, 7, 8, 10, 11, 255]

/-- A well-formed Modbus/TCP frame: bounded, protocol id 0, length field equal to the number of bytes
after it. -/
def WellFormed (w : List UInt8) : Prop :=
  8 ≤ w.length ∧ w.length ≤ 260 ∧ w.getD 2 0 = 0 ∧ w.getD 3 0 = 0 ∧
  (w.getD 4 0).toNat * 256 + (w.getD 5 0).toNat = w.length - 6

/-! ## Helper lemmas -/

theorem Received.has {b : PduBuf} {l : List UInt8} (h : Received b l) : b.Has l := by
  obtain ⟨h1, h2, h3⟩ := h
  refine ⟨h1, h2, ?_⟩
  intro i hi
  have : b.content[i]? = l[i]? := by rw [h3]
  simp only [PduBuf.content, memRead] at this
  have hi' : i < b.len := by omega
  rw [List.getElem?_eq_getElem (by simpa using hi'), List.getElem?_eq_getElem hi] at this
  simpa using this

theorem PduBuf.Has.content {b : PduBuf} {l : List UInt8} (h : b.Has l) : b.content = l := by
  obtain ⟨_, h2, h3⟩ := h
  apply List.ext_getElem
  · simp [PduBuf.content, h2]
  · intro i h4 h5
    simp [PduBuf.content, memRead, h3 i h5]

/-- The other byte of a register pair. -/
def partner (k : Nat) : Nat := if k % 2 = 0 then k + 1 else k - 1

theorem regBytes_get (d : Mem) (n : Nat) : ∀ (i k : Nat) (h : k < (regBytes d i n).length),
    (regBytes d i n)[k] = d (i + partner k) := by
  induction n with
  | zero => intro i k h; simp [regBytes] at h
  | succ n ih =>
    intro i k h
    match k with
    | 0 => simp [regBytes, partner]
    | 1 => simp [regBytes, partner]
    | k + 2 =>
      simp only [regBytes, List.getElem_cons_succ]
      rw [ih]
      congr 1
      unfold partner
      have : (k + 2) % 2 = k % 2 := by omega
      rw [this]
      split <;> omega

/-- Data decoded from swapped pairs is the original data. -/
theorem decoded_data (m d d0 : Mem) (p n : Nat)
    (h : ∀ k, k < 2 * n → m (p + k) = d (partner k)) :
    memRead (memWrite d0 0 (regBytes m p n)) 0 (2 * n) = memRead d 0 (2 * n) := by
  apply List.ext_getElem
  · simp
  · intro k h1 h2
    have hk : k < 2 * n := by simpa using h1
    simp only [memRead, List.getElem_map, List.getElem_range, memWrite, length_regBytes, Nat.zero_add]
    rw [if_pos (by omega), Nat.sub_zero]
    rw [List.getD_eq_getElem?_getD, List.getElem?_eq_getElem (by simpa using hk)]
    rw [Option.getD_some, regBytes_get]
    have h3 : partner k < 2 * n := by unfold partner; split <;> omega
    rw [h _ h3]
    congr 1
    unfold partner
    split <;> split <;> omega

theorem beAt_be16 (m : Mem) (p v : Nat) (h : v < 65536) (h0 : m p = UInt8.ofNat (v / 256))
    (h1 : m (p + 1) = UInt8.ofNat v) : beAt m p = v := by
  unfold beAt
  rw [h0, h1]
  simp only [UInt8.toNat_ofNat']
  omega

theorem toNat_ofNat_small (v : Nat) (h : v < 256) : (UInt8.ofNat v).toNat = v := by
  simp only [UInt8.toNat_ofNat']; omega

/-- The first eight bytes of a frame. -/
theorem hdr_bytes {m : Mem} {l r : List UInt8} {t n a f : Nat} (hl : l = hdr t n a f ++ r)
    (h : ∀ i, (h : i < l.length) → m i = l[i]) (ht : t < 65536) (hn : n < 65536) (ha : a < 256)
    (hf : f < 256) :
    beAt m 0 = t ∧ beAt m 2 = 0 ∧ beAt m 4 = n ∧ (m 6).toNat = a ∧ (m 7).toNat = f ∧
    ∀ i, (h : i < r.length) → m (8 + i) = r[i] := by
  subst hl
  have g : ∀ i (hi : i < 8), m i = (hdr t n a f)[i]'(by simpa using hi) := by
    intro i hi
    rw [h i (by simp; omega), List.getElem_append_left]
  refine ⟨beAt_be16 _ _ _ ht ?_ ?_, beAt_be16 _ _ _ (by omega) ?_ ?_, beAt_be16 _ _ _ hn ?_ ?_, ?_, ?_, ?_⟩
  · exact g 0 (by omega)
  · exact g 1 (by omega)
  · exact g 2 (by omega)
  · exact g 3 (by omega)
  · exact g 4 (by omega)
  · exact g 5 (by omega)
  · rw [show m 6 = UInt8.ofNat a from g 6 (by omega), toNat_ofNat_small _ ha]
  · rw [show m 7 = UInt8.ofNat f from g 7 (by omega), toNat_ofNat_small _ hf]
  · intro i hi
    rw [h (8 + i) (by simp; omega), List.getElem_append_right (by simp)]
    simp

theorem wellFormed_of_hdr {l r : List UInt8} {t n a f : Nat} (hl : l = hdr t n a f ++ r)
    (hn : n = r.length + 2) (h : l.length ≤ 260) : WellFormed l := by
  subst hl
  have hlen : (hdr t n a f ++ r).length = 8 + r.length := by simp
  rw [hlen] at h
  refine ⟨by omega, by omega, rfl, rfl, ?_⟩
  have e4 : (hdr t n a f ++ r).getD 4 0 = UInt8.ofNat (n / 256) := rfl
  have e5 : (hdr t n a f ++ r).getD 5 0 = UInt8.ofNat n := rfl
  rw [e4, e5, hlen]
  simp only [UInt8.toNat_ofNat']
  omega

theorem reqOk_func_lt {a : AduReq} (h : ReqOk a) : a.func < 256 := by
  obtain ⟨_, ⟨h, _⟩ | ⟨h, _⟩ | ⟨h, _⟩⟩ := h
  · rcases h with h | h | h | h <;> rw [h] <;> decide
  · rcases h with h | h <;> rw [h] <;> decide
  · rw [h]; decide

/-- Decoding the bytes of an acceptable request frame. -/
theorem parseReq_frame (m : Mem) (a a0 : AduReq) (hR : ReqOk a)
    (ht : a.transactId < 65536) (hs : a.startItem < 65536) (hn : a.numItems < 65536)
    (hby : ∀ i, (h : i < (reqFrame a).length) → m i = (reqFrame a)[i]) :
    ∃ k a', parseReq m 0 a0 = (k, a', true) ∧ a'.view = a.view := by
  have hfl := reqOk_func_lt hR
  have hP : maxPduLen = 253 := rfl
  have hA : maxAddr = 247 := rfl
  obtain ⟨haddr, hcase⟩ := hR
  rcases hcase with ⟨hf, hpl⟩ | ⟨hf, hni, hnb, hcoil⟩ | ⟨hf, hnb, hle⟩
  · have hns : ¬ isSingleFunc a.func := by rcases hf with h | h | h | h <;> rw [h] <;> decide
    have hnm : ¬ a.func = fPresetMulti := by rcases hf with h | h | h | h <;> rw [h] <;> decide
    have hframe : reqFrame a = hdr a.transactId 6 a.addr a.func ++ (be16 a.startItem ++ be16 a.numItems) := by
      unfold reqFrame; rw [if_neg hnm, if_neg hns, List.append_assoc]
    obtain ⟨e0, e2, e4, e6, e7, er⟩ := hdr_bytes hframe hby ht (by omega) (by omega) hfl
    have e8 : beAt m 8 = a.startItem := beAt_be16 _ _ _ hs (er 0 (by simp [be16])) (er 1 (by simp [be16]))
    have e10 : beAt m 10 = a.numItems := beAt_be16 _ _ _ hn (er 2 (by simp [be16])) (er 3 (by simp [be16]))
    unfold parseReq
    simp only [Nat.zero_add, e0, e2, e4, e6, e7, e8, e10]
    rw [if_neg (by omega), if_neg (by omega), if_pos hf, if_neg (by omega), if_neg (by omega)]
    refine ⟨_, _, rfl, ?_⟩
    simp only [AduReq.view, if_neg hns, if_pos hf]
  · have hnr : ¬ isReadFunc a.func := by rcases hf with h | h <;> rw [h] <;> decide
    have hnm : ¬ a.func = fPresetMulti := by rcases hf with h | h <;> rw [h] <;> decide
    have hframe : reqFrame a = hdr a.transactId 6 a.addr a.func ++ (be16 a.startItem ++ regBytes a.data 0 1) := by
      unfold reqFrame; rw [if_neg hnm, if_pos hf, List.append_assoc]
    obtain ⟨e0, e2, e4, e6, e7, er⟩ := hdr_bytes hframe hby ht (by omega) (by omega) hfl
    have e8 : beAt m 8 = a.startItem := beAt_be16 _ _ _ hs (er 0 (by simp [be16])) (er 1 (by simp [be16]))
    unfold parseReq
    simp only [Nat.zero_add, e0, e2, e4, e6, e7, e8]
    rw [if_neg (by omega), if_neg (by omega), if_neg hnr, if_pos hf, if_neg (by omega)]
    refine ⟨_, _, rfl, ?_⟩
    have hd := decoded_data m a.data a0.data 10 1 (by
      intro k hk
      have := er (2 + k) (by simp [be16]; omega)
      rw [show 8 + (2 + k) = 10 + k by omega] at this
      rw [this, List.getElem_append_right (by simp [be16]), regBytes_get]
      congr 1
      simp [be16])
    simp only [AduReq.view, if_pos hf, if_neg hnr, hnb]
    rw [hd]
  · have hnr : ¬ isReadFunc a.func := by rw [hf]; decide
    have hns : ¬ isSingleFunc a.func := by rw [hf]; decide
    have hframe : reqFrame a = hdr a.transactId (7 + a.numBytes) a.addr a.func ++ (be16 a.startItem ++
        (be16 a.numItems ++ ([UInt8.ofNat a.numBytes] ++ regBytes a.data 0 (a.numBytes / 2)))) := by
      unfold reqFrame; rw [if_pos hf]; simp only [List.append_assoc]
    obtain ⟨e0, e2, e4, e6, e7, er⟩ := hdr_bytes hframe hby ht (by omega) (by omega) hfl
    have e8 : beAt m 8 = a.startItem := beAt_be16 _ _ _ hs (er 0 (by simp [be16])) (er 1 (by simp [be16]))
    have e10 : beAt m 10 = a.numItems := beAt_be16 _ _ _ hn (er 2 (by simp [be16])) (er 3 (by simp [be16]))
    have e12 : (m 12).toNat = a.numBytes := by
      have h12 : m 12 = UInt8.ofNat a.numBytes := er 4 (by simp [be16])
      rw [h12, toNat_ofNat_small _ (by omega)]
    unfold parseReq
    simp only [Nat.zero_add, e0, e2, e4, e6, e7, e8, e10, e12]
    rw [if_neg (by omega), if_neg (by omega), if_neg hnr, if_neg hns, if_pos hf, if_neg (by omega),
      if_neg (by omega)]
    refine ⟨_, _, rfl, ?_⟩
    have h2 : 2 * (a.numBytes / 2) = a.numBytes := by omega
    have hd := decoded_data m a.data a0.data 13 (a.numBytes / 2) (by
      intro k hk
      have := er (5 + k) (by simp [be16]; omega)
      rw [show 8 + (5 + k) = 13 + k by omega] at this
      rw [this]
      have hk' : k < (regBytes a.data 0 (a.numBytes / 2)).length := by simpa using hk
      have : (be16 a.startItem ++ (be16 a.numItems ++ ([UInt8.ofNat a.numBytes] ++
          regBytes a.data 0 (a.numBytes / 2))))[5 + k]'(by simp [be16]; omega) =
          (regBytes a.data 0 (a.numBytes / 2))[k] := by
        rw [List.getElem_append_right (by simp [be16]; omega),
          List.getElem_append_right (by simp [be16]; omega),
          List.getElem_append_right (by simp [be16]; omega)]
        congr 1
        simp [be16]
        omega
      rw [this, regBytes_get, Nat.zero_add])
    rw [h2] at hd
    simp only [AduReq.view, if_neg hns, if_neg hnr]
    rw [hd]

theorem rspOk_func_lt {a : AduRsp} (h : RspOk a) : a.func < 256 := by
  rcases h with h | ⟨h, _⟩ | ⟨h, _⟩ | h
  · rw [h]; decide
  · rcases h with h | h <;> rw [h] <;> decide
  · rcases h with h | h <;> rw [h] <;> decide
  · rw [h]; decide

/-- Decoding the bytes of an acceptable response frame. -/
theorem parseRsp_frame (m : Mem) (a a0 : AduRsp) (hR : RspOk a)
    (ht : a.transactId < 65536) (haddr : a.addr < 256) (hs : a.startItem < 65536)
    (hn : a.numItems < 65536) (he : a.error ∈ declaredErrors)
    (hby : ∀ i, (h : i < (rspFrame a).length) → m i = (rspFrame a)[i]) :
    ∃ k a', parseRsp m 0 a0 = (k, a', true) ∧ a'.view = a.view := by
  have hfl := rspOk_func_lt hR
  rcases hR with hf | ⟨hf, hev, hle⟩ | ⟨hf, hnb, hcoil⟩ | hf
  · have hframe : rspFrame a = hdr a.transactId 3 a.addr a.func ++ [UInt8.ofNat (errorToByte a.error)] := by
      unfold rspFrame; rw [if_pos hf]
    have hns : ¬ isSingleFunc a.func := by rw [hf]; decide
    have hnr : ¬ isRegFunc a.func := by rw [hf]; decide
    have hnm : ¬ a.func = fPresetMulti := by rw [hf]; decide
    obtain ⟨e0, e2, e4, e6, e7, er⟩ := hdr_bytes hframe hby ht (by omega) haddr hfl
    have e8 : (m 8).toNat = a.error := by
      have h8 : m 8 = UInt8.ofNat (errorToByte a.error) := er 0 (by simp)
      have h9 : errorToByte a.error = a.error := if_pos he
      rw [h8, h9]
      apply toNat_ofNat_small
      simp only [declaredErrors, List.mem_cons, List.not_mem_nil, or_false] at he
      omega
    unfold parseRsp
    simp only [Nat.zero_add, e0, e2, e4, e6, e7, e8]
    rw [if_neg (by omega), if_pos hf]
    refine ⟨_, _, rfl, ?_⟩
    simp only [AduRsp.view, hns, hnr, hnm, if_false, or_self]
  · have hne : ¬ a.func = fError := by rcases hf with h | h <;> rw [h] <;> decide
    have hns : ¬ isSingleFunc a.func := by rcases hf with h | h <;> rw [h] <;> decide
    have hnm : ¬ a.func = fPresetMulti := by rcases hf with h | h <;> rw [h] <;> decide
    have hframe : rspFrame a = hdr a.transactId (3 + a.numBytes) a.addr a.func ++
        ([UInt8.ofNat a.numBytes] ++ regBytes a.data 0 (a.numBytes / 2)) := by
      unfold rspFrame; rw [if_neg hne, if_pos hf, List.append_assoc]
    obtain ⟨e0, e2, e4, e6, e7, er⟩ := hdr_bytes hframe hby ht (by omega) haddr hfl
    have e8 : (m 8).toNat = a.numBytes := by
      have h8 : m 8 = UInt8.ofNat a.numBytes := er 0 (by simp)
      rw [h8, toNat_ofNat_small _ (by omega)]
    unfold parseRsp
    simp only [Nat.zero_add, e0, e2, e4, e6, e7, e8]
    rw [if_neg (by omega), if_neg hne, if_pos hf, if_neg (by omega), if_neg (by omega)]
    refine ⟨_, _, rfl, ?_⟩
    have h2 : 2 * (a.numBytes / 2) = a.numBytes := by omega
    have hd := decoded_data m a.data a0.data 9 (a.numBytes / 2) (by
      intro k hk
      have := er (1 + k) (by simp; omega)
      rw [show 8 + (1 + k) = 9 + k by omega] at this
      rw [this, List.getElem_append_right (by simp), regBytes_get]
      congr 1
      simp)
    rw [h2] at hd
    simp only [AduRsp.view, hns, hne, hnm, if_false, or_self, if_pos (Or.inl hf : isRegFunc a.func ∨ _)]
    rw [hd]
  · have hne : ¬ a.func = fError := by rcases hf with h | h <;> rw [h] <;> decide
    have hnr : ¬ isRegFunc a.func := by rcases hf with h | h <;> rw [h] <;> decide
    have hnm : ¬ a.func = fPresetMulti := by rcases hf with h | h <;> rw [h] <;> decide
    have hframe : rspFrame a = hdr a.transactId 6 a.addr a.func ++ (be16 a.startItem ++ regBytes a.data 0 1) := by
      unfold rspFrame; rw [if_neg hne, if_neg hnr, if_pos hf, List.append_assoc]
    obtain ⟨e0, e2, e4, e6, e7, er⟩ := hdr_bytes hframe hby ht (by omega) haddr hfl
    have e8 : beAt m 8 = a.startItem := beAt_be16 _ _ _ hs (er 0 (by simp [be16])) (er 1 (by simp [be16]))
    unfold parseRsp
    simp only [Nat.zero_add, e0, e2, e4, e6, e7, e8]
    rw [if_neg (by omega), if_neg hne, if_neg hnr, if_pos hf, if_neg (by omega)]
    refine ⟨_, _, rfl, ?_⟩
    have hd := decoded_data m a.data a0.data 10 1 (by
      intro k hk
      have := er (2 + k) (by simp [be16]; omega)
      rw [show 8 + (2 + k) = 10 + k by omega] at this
      rw [this, List.getElem_append_right (by simp [be16]), regBytes_get]
      congr 1
      simp [be16])
    simp only [AduRsp.view, hne, hnm, if_false, if_pos (Or.inr hf : _ ∨ isSingleFunc a.func),
      if_pos (Or.inl hf : isSingleFunc a.func ∨ _), hnb]
    rw [hd]
  · have hne : ¬ a.func = fError := by rw [hf]; decide
    have hnr : ¬ isRegFunc a.func := by rw [hf]; decide
    have hns : ¬ isSingleFunc a.func := by rw [hf]; decide
    have hframe : rspFrame a = hdr a.transactId 6 a.addr a.func ++ (be16 a.startItem ++ be16 a.numItems) := by
      unfold rspFrame; rw [if_neg hne, if_neg hnr, if_neg hns, List.append_assoc]
    obtain ⟨e0, e2, e4, e6, e7, er⟩ := hdr_bytes hframe hby ht (by omega) haddr hfl
    have e8 : beAt m 8 = a.startItem := beAt_be16 _ _ _ hs (er 0 (by simp [be16])) (er 1 (by simp [be16]))
    have e10 : beAt m 10 = a.numItems := beAt_be16 _ _ _ hn (er 2 (by simp [be16])) (er 3 (by simp [be16]))
    unfold parseRsp
    simp only [Nat.zero_add, e0, e2, e4, e6, e7, e8, e10]
    rw [if_neg (by omega), if_neg hne, if_neg hnr, if_neg hns, if_pos hf, if_neg (by omega)]
    refine ⟨_, _, rfl, ?_⟩
    simp only [AduRsp.view, hns, hnr, hne, if_false, or_self]

/-! ## C08 -/

/-- C08.  For every request with up to 260 accessible data bytes, whenever encoding succeeds and the
transaction id fits 16 bits: any buffer that received exactly the encoded bytes (whatever else it
contains) is decoded without touching memory outside the buffers, into any target structure, and
yields the same request. -/
theorem C08_request_roundtrip (m : Mem) (a : AduReq) (b : PduBuf)
    (hcap : a.numBytes ≤ a.dataCap) (hlen : a.numBytes ≤ 260)
    (ht : a.transactId < 65536) (hs : a.startItem < 65536) (hn : a.numItems < 65536)
    (henc : encodeReq (PduBuf.fresh m) a = .ok (b, true))
    (b2 : PduBuf) (hb2 : Received b2 b.content) (a0 : AduReq) (ha0 : 260 ≤ a0.dataCap) :
    ∃ b' a', decodeReq b2 a0 = .ok (b', a', true) ∧ a'.view = a.view := by
  obtain ⟨b1, ok, he, _, hok, hhas⟩ := encodeReq_eq m a hcap hlen
  rw [henc] at he
  cases he
  obtain ⟨hh, _⟩ := hhas rfl
  rw [hh.content] at hb2
  obtain ⟨hpos, hl2, hby⟩ := hb2.has
  rw [decodeReq_eq b2 a0 (by omega) (by omega), hpos]
  obtain ⟨k, a', h1, h2⟩ := parseReq_frame b2.buf a a0 (hok.1 rfl) ht hs hn hby
  rw [h1]
  exact ⟨_, _, rfl, h2⟩

/-- C08 (scope).  Which requests the encoder accepts: slave address at most 247 and, depending on the
function, at most 125 registers or 2008 coils to read, a two-byte value without item count for single
writes (`0x0000`/`0x00FF` in memory order for coils), and at most 123 registers with matching byte
count for multiple writes. -/
theorem C08_accepted_requests (m : Mem) (a : AduReq)
    (hcap : a.numBytes ≤ a.dataCap) (hlen : a.numBytes ≤ 260) :
    (∃ b, encodeReq (PduBuf.fresh m) a = .ok (b, true)) ↔
      a.addr ≤ 247 ∧
      (((a.func = fReadCoil ∨ a.func = fReadDiscrete) ∧ a.numItems ≤ 2008) ∨
       ((a.func = fReadHolding ∨ a.func = fReadInput) ∧ a.numItems ≤ 125) ∨
       (a.func = fPresetSingle ∧ a.numItems = 0 ∧ a.numBytes = 2) ∨
       (a.func = fForceCoil ∧ a.numItems = 0 ∧ a.numBytes = 2 ∧ a.data 1 = 0 ∧
         (a.data 0 = 0 ∨ a.data 0 = 0xFF)) ∨
       (a.func = fPresetMulti ∧ a.numItems ≤ 123 ∧ a.numBytes = a.numItems * 2)) := by
  have h1 : (∃ b, encodeReq (PduBuf.fresh m) a = .ok (b, true)) ↔ ReqOk a := by
    obtain ⟨b1, ok, he, _, hok, _⟩ := encodeReq_eq m a hcap hlen
    rw [he, ← hok]
    constructor
    · rintro ⟨b, h⟩; cases h; rfl
    · intro h; subst h; exact ⟨_, rfl⟩
  rw [h1]
  unfold ReqOk pduLen isReadFunc isSingleFunc
  simp only [fReadCoil, fReadDiscrete, fReadHolding, fReadInput, fForceCoil, fPresetSingle, fPresetMulti]
  constructor
  · rintro ⟨h0, ⟨hf, hp⟩ | ⟨hf, hi, hb, hc⟩ | ⟨hf, hb, hl⟩⟩
    · refine ⟨h0, ?_⟩
      rcases hf with hf | hf | hf | hf <;> simp only [hf] at hp <;> simp at hp
      · exact Or.inl ⟨Or.inl hf, by omega⟩
      · exact Or.inl ⟨Or.inr hf, by omega⟩
      · exact Or.inr (Or.inl ⟨Or.inl hf, by omega⟩)
      · exact Or.inr (Or.inl ⟨Or.inr hf, by omega⟩)
    · refine ⟨h0, ?_⟩
      rcases hf with hf | hf
      · exact Or.inr (Or.inr (Or.inr (Or.inl ⟨hf, hi, hb, hc hf⟩)))
      · exact Or.inr (Or.inr (Or.inl ⟨hf, hi, hb⟩))
    · exact ⟨h0, Or.inr (Or.inr (Or.inr (Or.inr ⟨hf, by omega, hb⟩)))⟩
  · rintro ⟨h0, ⟨hf, hn⟩ | ⟨hf, hn⟩ | ⟨hf, hi, hb⟩ | ⟨hf, hi, hb, hd⟩ | ⟨hf, hi, hb⟩⟩
    · refine ⟨h0, Or.inl ⟨by omega, ?_⟩⟩
      rcases hf with hf | hf <;> rw [hf] <;> simp <;> omega
    · refine ⟨h0, Or.inl ⟨by omega, ?_⟩⟩
      rcases hf with hf | hf <;> rw [hf] <;> simp <;> omega
    · exact ⟨h0, Or.inr (Or.inl ⟨by omega, hi, hb, fun h => by omega⟩)⟩
    · exact ⟨h0, Or.inr (Or.inl ⟨by omega, hi, hb, fun _ => hd⟩)⟩
    · exact ⟨h0, Or.inr (Or.inr ⟨hf, hb, by omega⟩)⟩

/-- A sample request: write registers 7 and 8 with 0x0102 and 0x0304 on slave 9. -/
def sampleReq : AduReq :=
  { clientId := 1, transactId := 513, func := fPresetMulti, addr := 9, startItem := 7, numItems := 2,
    numBytes := 4, data := fun i => [2, 1, 4, 3].getD i 0, dataCap := 260 }

/-- Non-vacuity: the sample is accepted and produces the bytes of the specification. -/
example : ∃ b, encodeReq (PduBuf.fresh fun _ => 0xAA) sampleReq = .ok (b, true) ∧
    b.content = [2, 1, 0, 0, 0, 11, 9, 16, 0, 7, 0, 2, 4, 1, 2, 3, 4] :=
  ⟨_, rfl, by decide⟩

/-! ## C09 -/

/-- C09 (partial: the transaction id fits 16 bits, the address one byte, the error code is a declared
one, and there are at most 260 data bytes).  Whenever a response is encoded, any buffer that received
exactly the encoded bytes is decoded into the same response. -/
theorem C09_response_roundtrip_partial (m : Mem) (a : AduRsp) (b : PduBuf)
    (hlen : a.numBytes ≤ 260) (ht : a.transactId < 65536) (haddr : a.addr < 256)
    (hs : a.startItem < 65536) (hn : a.numItems < 65536) (he : a.error ∈ declaredErrors)
    (henc : encodeRsp (PduBuf.fresh m) a = .ok (b, true))
    (b2 : PduBuf) (hb2 : Received b2 b.content) (a0 : AduRsp) :
    ∃ b' a', decodeRsp b2 a0 = .ok (b', a', true) ∧ a'.view = a.view := by
  obtain ⟨b1, ok, he', _, hok, hhas⟩ := encodeRsp_eq m a hlen
  rw [henc] at he'
  cases he'
  obtain ⟨hh, _⟩ := hhas rfl
  rw [hh.content] at hb2
  obtain ⟨hpos, hl2, hby⟩ := hb2.has
  rw [decodeRsp_eq b2 a0 (by omega), hpos]
  obtain ⟨k, a', h1, h2⟩ := parseRsp_frame b2.buf a a0 (hok.1 rfl) ht haddr hs hn he hby
  rw [h1]
  exact ⟨_, _, rfl, h2⟩

/-- A sample response: two registers. -/
def sampleRsp : AduRsp :=
  { transactId := 513, func := fReadHolding, addr := 9, error := 0, startItem := 7, numItems := 2,
    numBytes := 4, data := fun i => [2, 1, 4, 3].getD i 0 }

/-- Non-vacuity. -/
example : ∃ b, encodeRsp (PduBuf.fresh fun _ => 0xAA) sampleRsp = .ok (b, true) ∧
    b.content = [2, 1, 0, 0, 0, 7, 9, 3, 4, 1, 2, 3, 4] := ⟨_, rfl, by decide⟩

/-- Encode a response into a zeroed buffer and decode the buffer again, as a partial function. -/
def rspRoundTrip (a : AduRsp) : Option AduRsp :=
  match encodeRsp (PduBuf.fresh fun _ => 0) a with
  | .ok (b, true) => match decodeRsp b sampleRsp with
    | .ok (_, a', true) => some a'
    | _ => none
  | _ => none

/-- Violation of C09 outside these bounds: the encoder reports success although a transaction id
above 65535 or an address above 255 is truncated on the wire, so a different response is decoded. -/
theorem C09_truncation_violated :
    (rspRoundTrip { sampleRsp with transactId := 65536 + 7 }).map (·.transactId) = some 7 ∧
    (rspRoundTrip { sampleRsp with addr := 256 + 9 }).map (·.addr) = some 9 ∧
    (rspRoundTrip { sampleRsp with func := fError, error := 9 }).map (·.error) = some 255 := by
  decide +kernel

/-- Violation of C09 for functions: responses to the two bit-reading functions can be requested
(`C08_accepted_requests`) but never encoded by a server nor decoded by a client, whatever their
content. -/
theorem C09_bit_reads_unsupported (m : Mem) (a : AduRsp)
    (hf : a.func = fReadCoil ∨ a.func = fReadDiscrete) :
    encodeRsp (PduBuf.fresh m) a = .ok (PduBuf.fresh m, false) ∧
    ∀ (b : PduBuf) (a0 : AduRsp), b.pos = 0 → (b.buf 7).toNat = a.func →
      ∃ b' a', decodeRsp b a0 = .ok (b', a', false) := by
  have e1 : ¬ a.func = fError := by rcases hf with h | h <;> rw [h] <;> decide
  have e2 : ¬ isRegFunc a.func := by rcases hf with h | h <;> rw [h] <;> decide
  have e3 : ¬ isSingleFunc a.func := by rcases hf with h | h <;> rw [h] <;> decide
  have e4 : ¬ a.func = fPresetMulti := by rcases hf with h | h <;> rw [h] <;> decide
  refine ⟨?_, ?_⟩
  · unfold encodeRsp
    rw [if_neg e1, if_neg e2, if_neg e3, if_neg e4]
  · intro b a0 hp h7
    rw [decodeRsp_eq b a0 (by omega), hp]
    unfold parseRsp
    simp only [Nat.zero_add, h7]
    by_cases h : beAt b.buf 2 ≠ 0
    · rw [if_pos h]; exact ⟨_, _, rfl⟩
    · rw [if_neg h, if_neg e1, if_neg e2, if_neg e3, if_neg e4]
      exact ⟨_, _, rfl⟩

/-! ## C10 -/

/-- C10 (requests).  Encoding any request with at most 260 accessible data bytes never touches memory
outside the buffers; every frame reported as encoded is well formed, at most 260 bytes long, and
carries a slave address of at most 247. -/
theorem C10_request_frame (m : Mem) (a : AduReq) (hcap : a.numBytes ≤ a.dataCap)
    (hlen : a.numBytes ≤ 260) :
    ∃ b ok, encodeReq (PduBuf.fresh m) a = .ok (b, ok) ∧ b.len ≤ 512 ∧
      (ok = true → WellFormed b.content ∧ (b.content.getD 6 0).toNat = a.addr ∧ a.addr ≤ 247 ∧
        (b.content.getD 7 0).toNat = a.func ∧ b.content.length = b.len) := by
  obtain ⟨b, ok, he, hl, hok, hhas⟩ := encodeReq_eq m a hcap hlen
  refine ⟨b, ok, he, hl, ?_⟩
  intro h
  obtain ⟨hh, hle⟩ := hhas h
  have hR := hok.1 h
  have hfl := reqOk_func_lt hR
  rw [hh.content]
  obtain ⟨haddr, hcase⟩ := hR
  have key : ∀ (n : Nat) (r : List UInt8), reqFrame a = hdr a.transactId n a.addr a.func ++ r →
      n = r.length + 2 → WellFormed (reqFrame a) ∧ ((reqFrame a).getD 6 0).toNat = a.addr ∧
        a.addr ≤ 247 ∧ ((reqFrame a).getD 7 0).toNat = a.func ∧ (reqFrame a).length = b.len := by
    intro n r h1 h2
    refine ⟨wellFormed_of_hdr h1 h2 hle, ?_, haddr, ?_, hh.2.1.symm⟩
    · rw [h1]; exact toNat_ofNat_small _ (by omega)
    · rw [h1]; exact toNat_ofNat_small _ hfl
  rcases hcase with ⟨hf, _⟩ | ⟨hf, _⟩ | ⟨hf, h1, h2⟩
  · have hns : ¬ isSingleFunc a.func := by rcases hf with h | h | h | h <;> rw [h] <;> decide
    have hnm : ¬ a.func = fPresetMulti := by rcases hf with h | h | h | h <;> rw [h] <;> decide
    refine key 6 (be16 a.startItem ++ be16 a.numItems) ?_ rfl
    unfold reqFrame; rw [if_neg hnm, if_neg hns, List.append_assoc]
  · have hnm : ¬ a.func = fPresetMulti := by rcases hf with h | h <;> rw [h] <;> decide
    refine key 6 (be16 a.startItem ++ regBytes a.data 0 1) ?_ rfl
    unfold reqFrame; rw [if_neg hnm, if_pos hf, List.append_assoc]
  · refine key (7 + a.numBytes) (be16 a.startItem ++ (be16 a.numItems ++
      ([UInt8.ofNat a.numBytes] ++ regBytes a.data 0 (a.numBytes / 2)))) ?_ ?_
    · unfold reqFrame; rw [if_pos hf]; simp only [List.append_assoc]
    · simp [be16]; omega

/-- C10 (responses).  The same for responses with at most 260 data bytes. -/
theorem C10_response_frame (m : Mem) (a : AduRsp) (hlen : a.numBytes ≤ 260) :
    ∃ b ok, encodeRsp (PduBuf.fresh m) a = .ok (b, ok) ∧ b.len ≤ 512 ∧
      (ok = true → WellFormed b.content ∧ (b.content.getD 7 0).toNat = a.func ∧
        b.content.length = b.len) := by
  obtain ⟨b, ok, he, hl, hok, hhas⟩ := encodeRsp_eq m a hlen
  refine ⟨b, ok, he, hl, ?_⟩
  intro h
  obtain ⟨hh, hle⟩ := hhas h
  have hR := hok.1 h
  have hfl := rspOk_func_lt hR
  rw [hh.content]
  have key : ∀ (n : Nat) (r : List UInt8), rspFrame a = hdr a.transactId n a.addr a.func ++ r →
      n = r.length + 2 → WellFormed (rspFrame a) ∧
        ((rspFrame a).getD 7 0).toNat = a.func ∧ (rspFrame a).length = b.len := by
    intro n r h1 h2
    refine ⟨wellFormed_of_hdr h1 h2 hle, ?_, hh.2.1.symm⟩
    rw [h1]; exact toNat_ofNat_small _ hfl
  rcases hR with hf | ⟨hf, hev, _⟩ | ⟨hf, _⟩ | hf
  · refine key 3 [UInt8.ofNat (errorToByte a.error)] ?_ rfl
    unfold rspFrame; rw [if_pos hf]
  · have hne : ¬ a.func = fError := by rcases hf with h | h <;> rw [h] <;> decide
    refine key (3 + a.numBytes) ([UInt8.ofNat a.numBytes] ++ regBytes a.data 0 (a.numBytes / 2)) ?_ ?_
    · unfold rspFrame; rw [if_neg hne, if_pos hf, List.append_assoc]
    · simp; omega
  · have hne : ¬ a.func = fError := by rcases hf with h | h <;> rw [h] <;> decide
    have hnr : ¬ isRegFunc a.func := by rcases hf with h | h <;> rw [h] <;> decide
    refine key 6 (be16 a.startItem ++ regBytes a.data 0 1) ?_ rfl
    unfold rspFrame; rw [if_neg hne, if_neg hnr, if_pos hf, List.append_assoc]
  · have hne : ¬ a.func = fError := by rw [hf]; decide
    have hnr : ¬ isRegFunc a.func := by rw [hf]; decide
    have hns : ¬ isSingleFunc a.func := by rw [hf]; decide
    refine key 6 (be16 a.startItem ++ be16 a.numItems) ?_ rfl
    unfold rspFrame; rw [if_neg hne, if_neg hnr, if_neg hns, List.append_assoc]

/-- Encode a request into a zeroed buffer: the acceptance and the number of bytes written. -/
def reqLen (a : AduReq) : Option (Nat × Bool) :=
  match encodeReq (PduBuf.fresh fun _ => 0) a with
  | .ok (b, ok) => some (b.len, ok)
  | _ => none

/-- Non-vacuity at the limit: 123 registers give the largest frame, 259 bytes; 124 are rejected. -/
example :
    reqLen { sampleReq with numItems := 123, numBytes := 246 } = some (259, true) ∧
    (reqLen { sampleReq with numItems := 124, numBytes := 248 }).map (·.2) = some false := by
  decide +kernel

/-! ## C11 -/

/-- Two buffers that received the same bytes; the rest of their arrays may differ. -/
def SameReceived (b1 b2 : PduBuf) : Prop :=
  b1.pos = 0 ∧ b2.pos = 0 ∧ b1.len = b2.len ∧ ∀ i, i < b1.len → b1.buf i = b2.buf i

theorem regBytes_congr (m1 m2 : Mem) (p n : Nat) (h : ∀ i, p ≤ i → i < p + 2 * n → m1 i = m2 i) :
    regBytes m1 p n = regBytes m2 p n := by
  apply List.ext_getElem
  · simp
  · intro k h1 h2
    rw [regBytes_get, regBytes_get]
    have hk : k < 2 * n := by simpa using h1
    apply h
    · omega
    · unfold partner; split <;> omega

theorem memRead_memWrite_zero (d0 d1 : Mem) (l : List UInt8) (n : Nat) (h : n ≤ l.length) :
    memRead (memWrite d0 0 l) 0 n = memRead (memWrite d1 0 l) 0 n := by
  apply List.ext_getElem
  · simp
  · intro k h1 h2
    have hk : k < n := by simpa using h1
    simp only [memRead, List.getElem_map, List.getElem_range, memWrite, Nat.zero_add]
    rw [if_pos (by omega), if_pos (by omega)]

theorem ite_or_same {α : Type} {p q : Prop} [Decidable p] [Decidable q] (x y : α) (h : p ∨ q) :
    (if p then x else if q then x else y) = x := by
  split
  · rfl
  · rw [if_pos (h.resolve_left ‹¬ p›)]

/-- C11 (requests).  For every received byte string that passes the length checks, whatever the rest
of the receive buffer and the target structure contain: decoding never touches memory outside the
buffers, acceptance is determined by the received bytes alone, and so is the accepted request. -/
theorem C11_request_determined (b1 b2 : PduBuf) (a1 a2 : AduReq) (hsame : SameReceived b1 b2)
    (hh : isAduHdrReceived b1) (hv : isAduValid b1) (h1 : 260 ≤ a1.dataCap) (h2 : 260 ≤ a2.dataCap) :
    ∃ c1 c2 r1 r2 ok, decodeReq b1 a1 = .ok (c1, r1, ok) ∧ decodeReq b2 a2 = .ok (c2, r2, ok) ∧
      (ok = true → r1.view = r2.view) := by
  obtain ⟨p1, p2, hl, hby⟩ := hsame
  rw [decodeReq_eq b1 a1 (by omega) (by omega), decodeReq_eq b2 a2 (by omega) (by omega), p1, p2]
  have h6 : 6 ≤ b1.len := by simpa [isAduHdrReceived, aduHdrLen] using hh
  have hpk : beAt b1.buf 4 + 6 = b1.len := by
    have := hv
    simp only [isAduValid, aduPktLen, aduLenOffset, aduHdrLen, Bool.and_eq_true, beq_iff_eq] at this
    exact this.2
  have e0 : beAt b2.buf 0 = beAt b1.buf 0 := by
    unfold beAt; rw [hby 0 (by omega), hby 1 (by omega)]
  have e2 : beAt b2.buf 2 = beAt b1.buf 2 := by
    unfold beAt; rw [hby 2 (by omega), hby 3 (by omega)]
  have e4 : beAt b2.buf 4 = beAt b1.buf 4 := by
    unfold beAt; rw [hby 4 (by omega), hby 5 (by omega)]
  -- when too little was received to contain a function code, both are rejected
  have short : ∀ (m : Mem) (a : AduReq), beAt m 4 < 6 → (parseReq m 0 a).2.2 = false := by
    intro m a hlt
    unfold parseReq
    simp only [Nat.zero_add]
    repeat' split
    all_goals first | rfl | omega | (rename_i h; simp only [ne_eq, Decidable.not_not] at h; omega)
  by_cases hlt : beAt b1.buf 4 < 6
  · have s1 := short b1.buf a1 hlt
    have s2 := short b2.buf a2 (by omega)
    refine ⟨{ b1 with pos := 0 + (parseReq b1.buf 0 a1).1 }, { b2 with pos := 0 + (parseReq b2.buf 0 a2).1 },
      (parseReq b1.buf 0 a1).2.1, (parseReq b2.buf 0 a2).2.1, false, ?_, ?_, by simp⟩
    · rw [← s1, ← p1]
    · rw [← s2, ← p2]
  have e6 : b2.buf 6 = b1.buf 6 := (hby 6 (by omega)).symm
  have e7 : b2.buf 7 = b1.buf 7 := (hby 7 (by omega)).symm
  have e8 : beAt b2.buf 8 = beAt b1.buf 8 := by
    unfold beAt; rw [hby 8 (by omega), hby 9 (by omega)]
  have e10 : beAt b2.buf 10 = beAt b1.buf 10 := by
    unfold beAt; rw [hby 10 (by omega), hby 11 (by omega)]
  unfold parseReq
  simp only [Nat.zero_add, e0, e2, e4, e6, e7, e8, e10]
  by_cases c1 : beAt b1.buf 2 ≠ 0
  · rw [if_pos c1, if_pos c1]; exact ⟨_, _, _, _, _, rfl, rfl, by simp⟩
  rw [if_neg c1, if_neg c1]
  by_cases c2 : ¬ (b1.buf 6).toNat ≤ maxAddr
  · rw [if_pos c2, if_pos c2]; exact ⟨_, _, _, _, _, rfl, rfl, by simp⟩
  rw [if_neg c2, if_neg c2]
  by_cases c3 : isReadFunc (b1.buf 7).toNat
  · rw [if_pos c3, if_pos c3]
    by_cases c4 : beAt b1.buf 4 ≠ 6
    · rw [if_pos c4, if_pos c4]; exact ⟨_, _, _, _, _, rfl, rfl, by simp⟩
    rw [if_neg c4, if_neg c4]
    by_cases c5 : pduLen (b1.buf 7).toNat (beAt b1.buf 10) > maxPduLen
    · rw [if_pos c5, if_pos c5]; exact ⟨_, _, _, _, _, rfl, rfl, by simp⟩
    rw [if_neg c5, if_neg c5]
    refine ⟨_, _, _, _, _, rfl, rfl, fun _ => ?_⟩
    simp only [AduReq.view, if_pos c3]
  rw [if_neg c3, if_neg c3]
  by_cases c6 : isSingleFunc (b1.buf 7).toNat
  · rw [if_pos c6, if_pos c6]
    by_cases c4 : beAt b1.buf 4 ≠ 6
    · rw [if_pos c4, if_pos c4]; exact ⟨_, _, _, _, _, rfl, rfl, by simp⟩
    rw [if_neg c4, if_neg c4]
    refine ⟨_, _, _, _, _, rfl, rfl, fun _ => ?_⟩
    have hr : regBytes b2.buf 10 1 = regBytes b1.buf 10 1 :=
      regBytes_congr _ _ _ _ fun i _ h => (hby i (by omega)).symm
    simp only [AduReq.view, if_pos c6, if_neg c3, hr]
    rw [memRead_memWrite_zero a1.data a2.data _ _ (by simp)]
  rw [if_neg c6, if_neg c6]
  by_cases c7 : (b1.buf 7).toNat = fPresetMulti
  · rw [if_pos c7, if_pos c7]
    by_cases hlt13 : beAt b1.buf 4 = 6
    · -- the byte count is not part of the received bytes: rejected either way
      have d1 : (b1.buf 12).toNat ≠ beAt b1.buf 10 * 2 ∨ beAt b1.buf 4 ≠ 7 + (b1.buf 12).toNat := by omega
      have d2 : (b2.buf 12).toNat ≠ beAt b1.buf 10 * 2 ∨ beAt b1.buf 4 ≠ 7 + (b2.buf 12).toNat := by omega
      rw [ite_or_same _ _ d1, ite_or_same _ _ d2]
      exact ⟨_, _, _, _, _, rfl, rfl, by simp⟩
    · have e12 : b2.buf 12 = b1.buf 12 := (hby 12 (by omega)).symm
      rw [e12]
      by_cases d1 : (b1.buf 12).toNat ≠ beAt b1.buf 10 * 2
      · rw [if_pos d1, if_pos d1]; exact ⟨_, _, _, _, _, rfl, rfl, by simp⟩
      rw [if_neg d1, if_neg d1]
      by_cases d2 : beAt b1.buf 4 ≠ 7 + (b1.buf 12).toNat
      · rw [if_pos d2, if_pos d2]; exact ⟨_, _, _, _, _, rfl, rfl, by simp⟩
      rw [if_neg d2, if_neg d2]
      refine ⟨_, _, _, _, _, rfl, rfl, fun _ => ?_⟩
      have hr : regBytes b2.buf 13 ((b1.buf 12).toNat / 2) = regBytes b1.buf 13 ((b1.buf 12).toNat / 2) :=
        regBytes_congr _ _ _ _ fun i _ h => (hby i (by omega)).symm
      simp only [AduReq.view, if_neg c3, if_neg c6, hr]
      rw [memRead_memWrite_zero a1.data a2.data _ _ (by simp; omega)]
  · rw [if_neg c7, if_neg c7]; exact ⟨_, _, _, _, _, rfl, rfl, by simp⟩

/-- C11 (responses, partial: frames with at least three bytes after the length field).  The decoder is
called with a freshly created structure whose `numBytes` is 0 (AduRespond.hpp:22). -/
theorem C11_response_determined_partial (b1 b2 : PduBuf) (a1 a2 : AduRsp) (hsame : SameReceived b1 b2)
    (hv : isAduValid b1) (h9 : 9 ≤ b1.len) :
    ∃ c1 c2 r1 r2 ok, decodeRsp b1 a1 = .ok (c1, r1, ok) ∧ decodeRsp b2 a2 = .ok (c2, r2, ok) ∧
      (ok = true → r1.view = r2.view) := by
  obtain ⟨p1, p2, hl, hby⟩ := hsame
  rw [decodeRsp_eq b1 a1 (by omega), decodeRsp_eq b2 a2 (by omega), p1, p2]
  have hpk : beAt b1.buf 4 + 6 = b1.len := by
    have := hv
    simp only [isAduValid, aduPktLen, aduLenOffset, aduHdrLen, Bool.and_eq_true, beq_iff_eq] at this
    exact this.2
  have e0 : beAt b2.buf 0 = beAt b1.buf 0 := by
    unfold beAt; rw [hby 0 (by omega), hby 1 (by omega)]
  have e2 : beAt b2.buf 2 = beAt b1.buf 2 := by
    unfold beAt; rw [hby 2 (by omega), hby 3 (by omega)]
  have e4 : beAt b2.buf 4 = beAt b1.buf 4 := by
    unfold beAt; rw [hby 4 (by omega), hby 5 (by omega)]
  have e6 : b2.buf 6 = b1.buf 6 := (hby 6 (by omega)).symm
  have e7 : b2.buf 7 = b1.buf 7 := (hby 7 (by omega)).symm
  have e8 : b2.buf 8 = b1.buf 8 := (hby 8 (by omega)).symm
  unfold parseRsp
  simp only [Nat.zero_add, e0, e2, e4, e6, e7, e8]
  by_cases c1 : beAt b1.buf 2 ≠ 0
  · rw [if_pos c1, if_pos c1]; exact ⟨_, _, _, _, _, rfl, rfl, by simp⟩
  rw [if_neg c1, if_neg c1]
  by_cases c2 : (b1.buf 7).toNat = fError
  · rw [if_pos c2, if_pos c2]
    have f1 : ¬ isRegFunc (b1.buf 7).toNat := by rw [c2]; decide
    have f2 : ¬ isSingleFunc (b1.buf 7).toNat := by rw [c2]; decide
    have f3 : ¬ (b1.buf 7).toNat = fPresetMulti := by rw [c2]; decide
    refine ⟨_, _, _, _, _, rfl, rfl, fun _ => ?_⟩
    simp only [AduRsp.view, f1, f2, f3, or_self, if_false]
  rw [if_neg c2, if_neg c2]
  by_cases c3 : isRegFunc (b1.buf 7).toNat
  · rw [if_pos c3, if_pos c3]
    by_cases d1 : beAt b1.buf 4 ≠ (b1.buf 8).toNat + 3
    · rw [if_pos d1, if_pos d1]; exact ⟨_, _, _, _, _, rfl, rfl, by simp⟩
    rw [if_neg d1, if_neg d1]
    by_cases d2 : (b1.buf 8).toNat % 2 ≠ 0
    · rw [if_pos d2, if_pos d2]; exact ⟨_, _, _, _, _, rfl, rfl, by simp⟩
    rw [if_neg d2, if_neg d2]
    have f2 : ¬ isSingleFunc (b1.buf 7).toNat := by rcases c3 with h | h <;> rw [h] <;> decide
    have f3 : ¬ (b1.buf 7).toNat = fPresetMulti := by rcases c3 with h | h <;> rw [h] <;> decide
    have hr : regBytes b2.buf 9 ((b1.buf 8).toNat / 2) = regBytes b1.buf 9 ((b1.buf 8).toNat / 2) :=
      regBytes_congr _ _ _ _ fun i _ h => (hby i (by omega)).symm
    refine ⟨_, _, _, _, _, rfl, rfl, fun _ => ?_⟩
    simp only [AduRsp.view, f2, f3, c2, or_self, if_false, hr]
    rw [memRead_memWrite_zero a1.data a2.data _ _ (by simp; omega)]
  rw [if_neg c3, if_neg c3]
  by_cases c4 : isSingleFunc (b1.buf 7).toNat
  · rw [if_pos c4, if_pos c4]
    by_cases d1 : beAt b1.buf 4 ≠ 6
    · rw [if_pos d1, if_pos d1]; exact ⟨_, _, _, _, _, rfl, rfl, by simp⟩
    rw [if_neg d1, if_neg d1]
    have e8' : beAt b2.buf 8 = beAt b1.buf 8 := by
      unfold beAt; rw [hby 8 (by omega), hby 9 (by omega)]
    have f3 : ¬ (b1.buf 7).toNat = fPresetMulti := by rcases c4 with h | h <;> rw [h] <;> decide
    have hr : regBytes b2.buf 10 1 = regBytes b1.buf 10 1 :=
      regBytes_congr _ _ _ _ fun i _ h => (hby i (by omega)).symm
    refine ⟨_, _, _, _, _, rfl, rfl, fun _ => ?_⟩
    simp only [AduRsp.view, f3, c2, if_false, hr, e8']
    rw [memRead_memWrite_zero a1.data a2.data _ _ (by simp)]
  rw [if_neg c4, if_neg c4]
  by_cases c5 : (b1.buf 7).toNat = fPresetMulti
  · rw [if_pos c5, if_pos c5]
    by_cases d1 : beAt b1.buf 4 ≠ 6
    · rw [if_pos d1, if_pos d1]; exact ⟨_, _, _, _, _, rfl, rfl, by simp⟩
    rw [if_neg d1, if_neg d1]
    have e8' : beAt b2.buf 8 = beAt b1.buf 8 := by
      unfold beAt; rw [hby 8 (by omega), hby 9 (by omega)]
    have e10 : beAt b2.buf 10 = beAt b1.buf 10 := by
      unfold beAt; rw [hby 10 (by omega), hby 11 (by omega)]
    refine ⟨_, _, _, _, _, rfl, rfl, fun _ => ?_⟩
    simp only [AduRsp.view, c2, c3, c4, or_self, if_false, e8', e10]
  · rw [if_neg c5, if_neg c5]; exact ⟨_, _, _, _, _, rfl, rfl, by simp⟩

/-- Non-vacuity for C11: a received 12-byte read request in two buffers with different leftovers, and a
9-byte error response. -/
example :
    let w : List UInt8 := [0, 1, 0, 0, 0, 6, 1, 3, 0, 0, 0, 2]
    let b1 := (PduBuf.fresh fun _ => 0xAA).received w
    let b2 := (PduBuf.fresh fun _ => 0x55).received w
    SameReceived b1 b2 ∧ isAduHdrReceived b1 = true ∧ isAduValid b1 = true ∧
    ((decodeReq b1 sampleReq) matches .ok (_, _, true)) = true := by
  refine ⟨⟨rfl, rfl, rfl, ?_⟩, by decide, by decide, by decide⟩
  intro i hi
  have : i < 12 := hi
  simp only [PduBuf.received, PduBuf.fresh, memWrite]
  rw [if_pos (by simp; omega), if_pos (by simp; omega)]

/-- The error code a response decoder reports for a buffer, if it accepts it. -/
def decodedError (b : PduBuf) : Option Nat :=
  match decodeRsp b sampleRsp with
  | .ok (_, a', true) => some a'.error
  | _ => none

/-- Violation of C11 for responses: a frame whose length field says two bytes follow and whose function
byte is the error function is accepted, and its error code is whatever was in the buffer before:
the same eight received bytes are decoded once as "illegal function" and once as "device busy". -/
theorem C11_stale_error_code_violated :
    let w : List UInt8 := [0, 1, 0, 0, 0, 2, 1, 0x8f]
    let b1 := (PduBuf.fresh fun _ => 1).received w
    let b2 := (PduBuf.fresh fun _ => 6).received w
    isAduHdrReceived b1 = true ∧ isAduDataLenValid b1 = true ∧ isAduReceived b1 = true ∧
    isAduValid b1 = true ∧ b1.content = b2.content ∧
    decodedError b1 = some 1 ∧ decodedError b2 = some 6 := by
  decide +kernel

end Uscada.Modbus
