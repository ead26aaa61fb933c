import Verif.UaFraming
/-!
# C45 (size field of a chunk) and the framing half of C30 (TCP segmentation)
-/

namespace Uscada.Ua

open Modbus (Rx)

/-- The size field of a chunk: bytes 4 to 7, least significant first (OPC 10000-6, 7.1.2.2). -/
def sizeField (f : List UInt8) : Nat :=
  (f.getD 4 0).toNat + 256 * (f.getD 5 0).toNat + 65536 * (f.getD 6 0).toNat
    + 16777216 * (f.getD 7 0).toNat

/-- A complete chunk: a header and a size field that tells the length. -/
def IsChunk (f : List UInt8) : Prop := 8 ≤ f.length ∧ sizeField f = f.length

instance (f : List UInt8) : Decidable (IsChunk f) := by unfold IsChunk; infer_instance

theorem getD_memRead (m : Mem) (off n i : Nat) (h : i < n) : (memRead m off n).getD i 0 = m (off + i) := by
  simp [memRead, List.getD_eq_getElem?_getD, List.getElem?_map, List.getElem?_range h]

theorem msgSize_eq (b : Buf) : msgSize b = sizeField (memRead b.packet b.tail 8) := by
  unfold msgSize sizeField
  rw [getD_memRead _ _ _ _ (by omega), getD_memRead _ _ _ _ (by omega), getD_memRead _ _ _ _ (by omega),
    getD_memRead _ _ _ _ (by omega)]
  have h := comb_u32 (b.packet (b.tail + 4)) (b.packet (b.tail + 5)) (b.packet (b.tail + 6))
    (b.packet (b.tail + 7))
  rw [h]
  simp only [leValue]
  omega

/-! ## C45: sending -/

theorem memRead_ext {m : Mem} {off n : Nat} {l : List UInt8} (hl : l.length = n)
    (h : ∀ i, i < n → m (off + i) = l.getD i 0) : memRead m off n = l := by
  apply List.ext_getElem?
  intro i
  by_cases hi : i < n
  · have h1 := h i hi
    rw [List.getD_eq_getElem?_getD, List.getElem?_eq_getElem (by omega)] at h1
    rw [List.getElem?_eq_getElem (l := l) (by omega)]
    simp only [Option.getD_some] at h1
    simp [memRead, List.getElem?_map, List.getElem?_range hi, h1]
  · rw [List.getElem?_eq_none (by simp [memRead]; omega), List.getElem?_eq_none (by omega)]

/-- The bytes that carry a length. -/
def sizeBytes (n : Nat) : List UInt8 :=
  [UInt8.ofNat n, UInt8.ofNat (n >>> 8), UInt8.ofNat (n >>> 16), UInt8.ofNat (n >>> 24)]

theorem getD_app_left (l r : List UInt8) (i : Nat) (h : i < l.length) : (l ++ r).getD i 0 = l.getD i 0 := by
  rw [List.getD_eq_getElem?_getD, List.getD_eq_getElem?_getD, List.getElem?_append_left h]

theorem getD_app_right (l r : List UInt8) (i : Nat) (h : l.length ≤ i) :
    (l ++ r).getD i 0 = r.getD (i - l.length) 0 := by
  rw [List.getD_eq_getElem?_getD, List.getD_eq_getElem?_getD, List.getElem?_append_right h]

/-- What a sender puts on the wire: the encoding with bytes 4 to 7 replaced. -/
theorem frame_eq {e : Codec Unit} {w : List UInt8} (he : Writes e w) (h8 : 8 ≤ w.length)
    (hw : w.length ≤ 4096) (m : Mem) :
    frame m e = .ok (w.take 4 ++ sizeBytes w.length ++ w.drop 8) := by
  have h1 := he (Buf.create m) (by simp [Buf.create])
  rw [if_pos (by simp only [Buf.create, maxPacketLen]; omega)] at h1
  have h2 : setPayloadSize ((Buf.create m).append w) =
      .ok { packet := memWrite (memWrite m 0 w) 4 (sizeBytes w.length), tail := 0, head := w.length } := by
    unfold setPayloadSize
    rw [if_pos (by simp only [Buf.append, Buf.create, maxPacketLen, messageHeaderSize]; omega)]
    simp only [Buf.append, Buf.create, Nat.zero_add, sizeBytes]
  unfold frame
  rw [h1, Exec.ok_bind]
  simp only
  rw [h2, Exec.ok_bind]
  simp only [Exec.pure_eq, Exec.ok.injEq, Buf.bytes, Buf.size]
  have hs : (sizeBytes w.length).length = 4 := rfl
  have ht : (w.take 4).length = 4 := by rw [List.length_take]; omega
  apply memRead_ext
  · simp only [List.length_append, List.length_drop, hs, ht]; omega
  intro i hi
  rw [Nat.zero_add]
  by_cases h4 : i < 4
  · rw [getD_app_left _ _ _ (by rw [List.length_append]; omega), getD_app_left _ _ _ (by omega)]
    simp only [memWrite, hs]
    rw [if_neg (by omega), if_pos (by omega), Nat.sub_zero, List.getD_eq_getElem?_getD,
      List.getD_eq_getElem?_getD, List.getElem?_take_of_lt h4]
  · by_cases h8 : i < 8
    · rw [getD_app_left _ _ _ (by rw [List.length_append]; omega), getD_app_right _ _ _ (by omega)]
      simp only [memWrite, hs]
      rw [if_pos (by omega), ht]
    · rw [getD_app_right _ _ _ (by rw [List.length_append]; omega)]
      simp only [memWrite, hs]
      rw [if_neg (by omega), if_pos (by omega), List.length_append, hs, ht, Nat.sub_zero,
        List.getD_eq_getElem?_getD, List.getD_eq_getElem?_getD, List.getElem?_drop]
      congr 2; omega

theorem sizeField_patched (w : List UInt8) (h8 : 8 ≤ w.length) (hw : w.length < 2 ^ 32) :
    sizeField (w.take 4 ++ sizeBytes w.length ++ w.drop 8) = w.length := by
  have ht : (w.take 4).length = 4 := by rw [List.length_take]; omega
  have hg : ∀ i, i < 4 → (w.take 4 ++ sizeBytes w.length ++ w.drop 8).getD (4 + i) 0
      = (sizeBytes w.length).getD i 0 := by
    intro i hi
    rw [getD_app_left _ _ _ (by rw [List.length_append, ht]; simp [sizeBytes]; omega),
      getD_app_right _ _ _ (by omega), ht]
    congr 1; omega
  have h0 := hg 0 (by omega)
  have h1 := hg 1 (by omega)
  have h2 := hg 2 (by omega)
  have h3 := hg 3 (by omega)
  simp only [Nat.add_zero, Nat.reduceAdd] at h0 h1 h2 h3
  unfold sizeField
  rw [h0, h1, h2, h3]
  simp only [sizeBytes, List.getD_cons_zero, List.getD_cons_succ, UInt8.toNat_ofNat', Nat.shiftRight_eq_div_pow]
  omega

/-- C45: whatever a sender encodes (at least the header, at most what fits into the buffer), the chunk
it puts on the wire is as long as the encoding, tells this length in its size field, and differs
from the encoding only there; nothing of the uninitialised buffer is sent. -/
theorem C45_sent {e : Codec Unit} {w : List UInt8} (he : Writes e w) (h8 : 8 ≤ w.length)
    (hw : w.length ≤ 4096) (m : Mem) : ∃ f, frame m e = .ok f ∧ f.length = w.length ∧
      sizeField f = f.length ∧ f.take 4 = w.take 4 ∧ f.drop 8 = w.drop 8 := by
  have ht : (w.take 4).length = 4 := by rw [List.length_take]; omega
  have hs : (sizeBytes w.length).length = 4 := rfl
  have hl : (w.take 4 ++ sizeBytes w.length ++ w.drop 8).length = w.length := by
    simp only [List.length_append, List.length_drop, hs, ht]; omega
  refine ⟨_, frame_eq he h8 hw m, hl, ?_, ?_, ?_⟩
  · rw [sizeField_patched w h8 (by omega), hl]
  · rw [List.append_assoc, List.take_append_of_le_length (by omega), List.take_of_length_le (by omega)]
  · rw [List.drop_append, List.drop_eq_nil_of_le (by rw [List.length_append]; omega), List.nil_append,
      List.length_append, hs, ht, Nat.sub_self, List.drop_zero]

/-- C45: the receiver extracts the same number from a chunk standing at its read position. -/
theorem C45_extracted (b : Buf) (f : List UInt8) (h8 : 8 ≤ f.length)
    (h : memRead b.packet b.tail f.length = f) : msgSize b = sizeField f := by
  rw [msgSize_eq]
  have hg : ∀ i, i < 8 → (memRead b.packet b.tail 8).getD i 0 = f.getD i 0 := by
    intro i hi
    rw [getD_memRead _ _ _ _ hi, ← getD_memRead b.packet b.tail f.length i (by omega), h]
  unfold sizeField
  rw [hg 4 (by omega), hg 5 (by omega), hg 6 (by omega), hg 7 (by omega)]

/-! ## C30: receiving -/

/-- The results of `receive` for a sequence of read results. -/
def feed : List Rx → Buf → Exec (List Res × Buf)
  | [], b => .ok ([], b)
  | x :: xs, b => do
    let r ← receive true x b
    let s ← feed xs r.2
    pure (r.1 :: s.1, s.2)

theorem received_packet (b : Buf) (p : List UInt8) (h : b.head + p.length ≤ 4096) : b.received p = b.append p := by
  have : p.take b.capacity = p := List.take_of_length_le (by simp only [Buf.capacity, maxPacketLen]; omega)
  simp only [Buf.received, this, Buf.append]

theorem memRead_append (b : Buf) (p q : List UInt8) (hp : memRead b.packet 0 b.head = p) :
    memRead (b.append q).packet 0 (b.append q).head = p ++ q := by
  have hl : p.length = b.head := by rw [← hp, MsgStorage.length_memRead]
  apply memRead_ext
  · simp [Buf.append, hl]
  intro i hi
  simp only [Buf.append, memWrite, Nat.zero_add] at hi ⊢
  by_cases h : i < b.head
  · rw [if_neg (by omega), getD_app_left _ _ _ (by omega), ← hp, getD_memRead _ _ _ _ h, Nat.zero_add]
  · rw [if_pos (by omega), getD_app_right _ _ _ (by omega), hl]

theorem getD_take (f : List UInt8) (n i : Nat) (h : i < n) : (f.take n).getD i 0 = f.getD i 0 := by
  rw [List.getD_eq_getElem?_getD, List.getD_eq_getElem?_getD, List.getElem?_take_of_lt h]

/-- A buffer that holds the prefix `p` of a chunk `p ++ r`. -/
theorem evaluate_prefix (b : Buf) (p r : List UInt8) (ht : b.tail = 0) (hp : memRead b.packet 0 b.head = p)
    (hf : IsChunk (p ++ r)) : evaluate b = .ok (if r = [] then .done else .noerror) := by
  have hl : p.length = b.head := by rw [← hp, MsgStorage.length_memRead]
  obtain ⟨h8, hz⟩ := hf
  have hsz : b.size = b.head := rfl
  have hhs : messageHeaderSize = 8 := rfl
  have hpl : maxPacketLen = 4096 := rfl
  unfold evaluate
  by_cases hs : b.head < 8
  · rw [if_pos (by omega), if_neg]
    intro hr
    rw [hr, List.append_nil] at h8
    omega
  · rw [if_neg (by omega), if_neg (by omega)]
    have hm : msgSize b = (p ++ r).length := by
      rw [← hz, C45_extracted b p (by omega) (by rw [ht, hl]; exact hp)]
      unfold sizeField
      rw [getD_app_left _ _ _ (by omega), getD_app_left _ _ _ (by omega), getD_app_left _ _ _ (by omega),
        getD_app_left _ _ _ (by omega)]
    rw [hm, List.length_append, hl]
    by_cases hr : r = []
    · subst hr
      rw [List.length_nil, if_neg (by omega), if_neg (by omega), if_pos rfl]
    · have : 0 < r.length := by
        cases r with
        | nil => exact absurd rfl hr
        | cons => simp
      rw [if_neg hr, if_pos (by omega)]

theorem receive_ok {b : Buf} {x : List UInt8} {r : Res} (h1 : b.head ≤ 1024) (h2 : b.head + x.length ≤ 4096)
    (he : evaluate (b.append x) = .ok r) : receive true (.ok x) b = .ok (r, b.append x) := by
  unfold receive
  rw [if_neg (by simp only [Buf.size]; omega), if_pos rfl]
  simp only [received_packet _ _ h2, he, Exec.ok_bind, Exec.pure_eq]

/-- C30: however the stream is cut, a chunk produces `noerror` for every piece but the last and
`done` with the last piece, and the buffer then holds exactly the chunk.  The pieces before the last
may hold at most 1024 bytes in total (`_partial`: the code gives up when more than 1024 bytes of an
incomplete chunk are there, and the buffer holds 4096 bytes). -/
theorem C30_framing_partial (b : Buf) (ps : List (List UInt8)) (last : List UInt8) (ht : b.tail = 0) (hh : b.head = 0)
    (hc : IsChunk (ps.flatten ++ last)) (hlast : last ≠ []) (h1 : ps.flatten.length ≤ 1024)
    (h2 : (ps.flatten ++ last).length ≤ 4096) :
    ∃ b', feed ((ps ++ [last]).map .ok) b = .ok (List.replicate ps.length .noerror ++ [.done], b') ∧
      b'.tail = 0 ∧ b'.bytes = ps.flatten ++ last := by
  have gen : ∀ (ps : List (List UInt8)) (b : Buf) (p : List UInt8), b.tail = 0 → memRead b.packet 0 b.head = p →
      IsChunk (p ++ ps.flatten ++ last) → (p ++ ps.flatten).length ≤ 1024 → (p ++ ps.flatten ++ last).length ≤ 4096 →
      ∃ b', feed ((ps ++ [last]).map .ok) b = .ok (List.replicate ps.length .noerror ++ [.done], b') ∧
        b'.tail = 0 ∧ b'.bytes = p ++ ps.flatten ++ last := by
    intro ps
    induction ps with
    | nil =>
      intro b p ht hp hc h1 h2
      simp only [List.flatten_nil, List.append_nil, List.length_append] at hc h1 h2
      have hl : p.length = b.head := by rw [← hp, MsgStorage.length_memRead]
      have hm := memRead_append b p last hp
      refine ⟨b.append last, ?_, ht, by simpa [Buf.bytes, Buf.size, ht, Buf.append] using hm⟩
      have he := evaluate_prefix (b.append last) (p ++ last) [] ht hm (by rw [List.append_nil]; exact hc)
      simp only [List.nil_append, List.map_cons, List.map_nil, feed]
      rw [receive_ok (by omega) (by omega) he]
      rfl
    | cons x xs ih =>
      intro b p ht hp hc h1 h2
      simp only [List.flatten_cons, List.length_append] at h1 h2
      have hl : p.length = b.head := by rw [← hp, MsgStorage.length_memRead]
      have hm := memRead_append b p x hp
      have hr : xs.flatten ++ last ≠ [] := fun h => hlast (List.append_eq_nil_iff.1 h).2
      have hc' : IsChunk (p ++ x ++ (xs.flatten ++ last)) := by
        simpa only [List.flatten_cons, List.append_assoc] using hc
      have he := evaluate_prefix (b.append x) (p ++ x) (xs.flatten ++ last) ht hm hc'
      rw [if_neg hr] at he
      obtain ⟨b', hf, ht', hb'⟩ := ih (b.append x) (p ++ x) ht hm
        (by simpa only [List.append_assoc] using hc') (by simp only [List.length_append]; omega)
        (by simp only [List.length_append]; omega)
      refine ⟨b', ?_, ht', by simpa only [List.flatten_cons, List.append_assoc] using hb'⟩
      simp only [List.cons_append, List.map_cons, feed]
      rw [receive_ok (by omega) (by omega) he]
      simp only [Exec.ok_bind, Exec.pure_eq, hf, List.length_cons, List.replicate_succ, List.cons_append]
  have h0 : memRead b.packet 0 b.head = [] := by rw [hh]; rfl
  obtain ⟨b', h⟩ := gen ps b [] ht h0 (by simpa using hc) (by simpa using h1) (by simpa using h2)
  exact ⟨b', by simpa using h⟩

/-- C30 is false for chunks of more than 1024 bytes even though both sides announce buffers of 65536
bytes: a chunk of 1100 bytes that arrives as 1050 and 50 bytes is refused. -/
theorem C30_framing_violated : ∃ p q : List UInt8, IsChunk (p ++ q) ∧ p.length = 1050 ∧ q.length = 50 ∧
    ∀ b : Buf, b.tail = 0 → b.head = 0 → ∃ b', feed [.ok p, .ok q] b = .ok ([.noerror, .error], b') := by
  refine ⟨[0x4D, 0x53, 0x47, 0x46, 0x4C, 0x04, 0, 0] ++ List.replicate 1042 (0 : UInt8), List.replicate 50 0, ?_⟩
  have hp : ([0x4D, 0x53, 0x47, 0x46, 0x4C, 0x04, 0, 0] ++ List.replicate 1042 (0 : UInt8)).length = 1050 := by
    rw [List.length_append, List.length_replicate]; rfl
  have hchunk : IsChunk (([0x4D, 0x53, 0x47, 0x46, 0x4C, 0x04, 0, 0] ++ List.replicate 1042 (0 : UInt8)) ++
      List.replicate 50 0) := by
    constructor
    · rw [List.length_append, hp]; omega
    · rw [List.length_append, hp, List.length_replicate]
      rfl
  generalize [0x4D, 0x53, 0x47, 0x46, 0x4C, 0x04, 0, 0] ++ List.replicate 1042 (0 : UInt8) = p at hchunk hp ⊢
  have hq : (List.replicate 50 (0 : UInt8)).length = 50 := List.length_replicate
  refine ⟨hchunk, hp, hq, ?_⟩
  intro b ht hh
  have h0 : memRead b.packet 0 b.head = [] := by rw [hh]; rfl
  have hm := memRead_append b [] p h0
  rw [List.nil_append] at hm
  have he := evaluate_prefix (b.append p) p (List.replicate 50 0) ht hm hchunk
  rw [if_neg (by intro h; cases h)] at he
  refine ⟨b.append p, ?_⟩
  have h2 : receive true (.ok (List.replicate 50 0)) (b.append p) = .ok (.error, b.append p) := by
    unfold receive
    rw [if_pos (by simp only [Buf.size, Buf.append]; omega)]
  simp only [feed]
  rw [receive_ok (by omega) (by omega) he]
  simp only [Exec.ok_bind, h2, Exec.pure_eq]

/-- C30 is also false when the last piece brings the first bytes of the next chunk: the whole is refused. -/
theorem C30_coalesced_violated (b : Buf) (f g : List UInt8) (ht : b.tail = 0) (hh : b.head = 0) (hf : IsChunk f)
    (hg : g ≠ []) (h : (f ++ g).length ≤ 4096) :
    ∃ b', feed [.ok (f ++ g)] b = .ok ([.error], b') := by
  have h0 : memRead b.packet 0 b.head = [] := by rw [hh]; rfl
  have hm := memRead_append b [] (f ++ g) h0
  rw [List.nil_append] at hm
  have hlen : (b.append (f ++ g)).head = f.length + g.length := by simp [Buf.append, hh]
  have hgl : 0 < g.length := by
    cases g with
    | nil => exact absurd rfl hg
    | cons => simp
  have he : evaluate (b.append (f ++ g)) = .ok .error := by
    have hsz : msgSize (b.append (f ++ g)) = f.length := by
      rw [C45_extracted _ (f ++ g) (by have := hf.1; simp only [List.length_append]; omega)
        (by simpa [Buf.append, ht, hh] using hm), ← hf.2]
      have := hf.1
      unfold sizeField
      rw [getD_app_left _ _ _ (by omega), getD_app_left _ _ _ (by omega), getD_app_left _ _ _ (by omega),
        getD_app_left _ _ _ (by omega)]
    have h8 := hf.1
    have hs : (b.append (f ++ g)).size = f.length + g.length := hlen
    have hhs : messageHeaderSize = 8 := rfl
    have hpl : maxPacketLen = 4096 := rfl
    have ht' : (b.append (f ++ g)).tail = 0 := ht
    unfold evaluate
    rw [hsz, if_neg (by omega), if_neg (by omega), if_neg (by omega), if_pos (by omega)]
  refine ⟨b.append (f ++ g), ?_⟩
  simp only [feed]
  rw [receive_ok (by omega) (by omega) he]
  rfl

/-! ## C59: reception stays inside of the packet buffer -/

/-- All bytes the link offers. -/
def offered : List Rx → List UInt8
  | [] => []
  | .ok x :: xs => x ++ offered xs
  | _ :: xs => offered xs

theorem feed_full (xs : List Rx) (b : Buf) (h : 1024 < b.head) : feed xs b = .ok (List.replicate xs.length .error, b) := by
  induction xs with
  | nil => rfl
  | cons x xs ih =>
    have hr : receive true x b = .ok (.error, b) := by
      unfold receive
      rw [if_pos (show 1024 < b.size from h)]
    simp only [feed, hr, Exec.ok_bind, ih, Exec.pure_eq]
    rfl

theorem evaluate_defined (b : Buf) (ht : b.tail = 0) : ∃ r, evaluate b = .ok r := by
  unfold evaluate
  have hhs : messageHeaderSize = 8 := rfl
  have hpl : maxPacketLen = 4096 := rfl
  by_cases h1 : b.size < messageHeaderSize
  · exact ⟨_, if_pos h1⟩
  rw [if_neg h1, if_neg (by omega)]
  by_cases h2 : b.size < msgSize b
  · exact ⟨_, if_pos h2⟩
  rw [if_neg h2]
  by_cases h3 : b.size ≠ msgSize b
  · exact ⟨_, if_pos h3⟩
  · exact ⟨_, if_neg h3⟩

/-- C59: whatever the link offers, in whatever pieces, reception is defined, at most the 4096 bytes of the buffer are filled,
and they are the first bytes offered. -/
theorem C59_reception (xs : List Rx) (b : Buf) (ht : b.tail = 0) (hh : b.head = 0) :
    ∃ rs b', feed xs b = .ok (rs, b') ∧ rs.length = xs.length ∧ b'.tail = 0 ∧ b'.head ≤ 4096 ∧ b'.bytes <+: offered xs := by
  have gen : ∀ (xs : List Rx) (b : Buf) (p : List UInt8), b.tail = 0 → b.head ≤ 4096 → memRead b.packet 0 b.head = p →
      ∃ rs b', feed xs b = .ok (rs, b') ∧ rs.length = xs.length ∧ b'.tail = 0 ∧ b'.head ≤ 4096 ∧
        memRead b'.packet 0 b'.head <+: p ++ offered xs := by
    intro xs
    induction xs with
    | nil =>
      intro b p ht hh hp
      exact ⟨[], b, rfl, rfl, ht, hh, by rw [hp]; exact List.prefix_append ..⟩
    | cons x xs ih =>
      intro b p ht hh hp
      by_cases hf : 1024 < b.head
      · exact ⟨_, b, feed_full _ b hf, List.length_replicate, ht, hh, by rw [hp]; exact List.prefix_append ..⟩
      have stay : ∀ r, receive true x b = .ok (r, b) → offered (x :: xs) = offered xs →
          ∃ rs b', feed (x :: xs) b = .ok (rs, b') ∧ rs.length = (x :: xs).length ∧ b'.tail = 0 ∧ b'.head ≤ 4096 ∧
            memRead b'.packet 0 b'.head <+: p ++ offered (x :: xs) := by
        intro r hr ho
        obtain ⟨rs, b', h1, h2, h3, h4, h5⟩ := ih b p ht hh hp
        refine ⟨r :: rs, b', ?_, by simp [h2], h3, h4, by rw [ho]; exact h5⟩
        simp only [feed, hr, Exec.ok_bind, h1, Exec.pure_eq]
      have hsz : ¬ 1024 < b.size := hf
      cases x with
      | na => exact stay .noerror (by unfold receive; rw [if_neg hsz, if_pos rfl]) rfl
      | error => exact stay .error (by unfold receive; rw [if_neg hsz, if_pos rfl]) rfl
      | ok x =>
        obtain ⟨r, hr⟩ := evaluate_defined (b.received x) ht
        have hrec : receive true (.ok x) b = .ok (r, b.received x) := by
          unfold receive
          rw [if_neg hsz, if_pos rfl]
          simp only [hr, Exec.ok_bind, Exec.pure_eq]
        have hcap : b.capacity = 4096 - b.head := rfl
        have hhead : (b.received x).head ≤ 4096 := by
          simp only [Buf.received, List.length_take]
          omega
        have hmem : memRead (b.received x).packet 0 (b.received x).head = p ++ x.take b.capacity :=
          memRead_append b p (x.take b.capacity) hp
        by_cases hx : x.length ≤ b.capacity
        · obtain ⟨rs, b', h1, h2, h3, h4, h5⟩ := ih (b.received x) (p ++ x.take b.capacity) ht hhead hmem
          refine ⟨r :: rs, b', ?_, by simp [h2], h3, h4, ?_⟩
          · simp only [feed, hrec, Exec.ok_bind, h1, Exec.pure_eq]
          · rw [List.take_of_length_le hx, List.append_assoc] at h5
            exact h5
        · have hfull : (b.received x).head = 4096 := by
            simp only [Buf.received, List.length_take]
            omega
          refine ⟨r :: List.replicate xs.length .error, b.received x, ?_, ?_, ht, hhead, ?_⟩
          · simp only [feed, hrec, Exec.ok_bind, feed_full xs _ (by omega : 1024 < (b.received x).head), Exec.pure_eq]
          · simp
          · rw [hmem]
            show _ <+: p ++ (x ++ offered xs)
            rw [List.prefix_append_right_inj]
            exact (List.take_prefix ..).trans (List.prefix_append ..)
  obtain ⟨rs, b', h1, h2, h3, h4, h5⟩ := gen xs b [] ht (by omega) (by rw [hh]; rfl)
  refine ⟨rs, b', h1, h2, h3, h4, ?_⟩
  unfold Buf.bytes
  rw [h3]
  exact h5

/-- More bytes than the buffer holds: 4096 are kept, the next read is refused. -/
example (m : Mem) (x : List UInt8) (hx : x.length = 5000) : ∃ r b', feed [.ok x, .ok [1]] (Buf.create m) = .ok ([r, .error], b') ∧
    b'.head = 4096 := by
  have hh : ((Buf.create m).received x).head = 4096 := by
    show 0 + (x.take 4096).length = 4096
    rw [List.length_take, hx]
    rfl
  obtain ⟨r, hr⟩ := evaluate_defined ((Buf.create m).received x) rfl
  refine ⟨r, (Buf.create m).received x, ?_, hh⟩
  have h1 : receive true (.ok x) (Buf.create m) = .ok (r, (Buf.create m).received x) := by
    unfold receive
    rw [if_neg (show ¬ 1024 < (Buf.create m).size from show ¬ 1024 < 0 by omega), if_pos rfl]
    simp only [hr, Exec.ok_bind, Exec.pure_eq]
  show (do
    let r ← receive true (.ok x) (Buf.create m)
    let s ← feed [.ok [1]] r.2
    pure (r.1 :: s.1, s.2) : Exec (List Res × Buf)) = _
  rw [h1, Exec.ok_bind, feed_full _ _ (by rw [hh]; omega)]
  rfl

/-! ## Concrete chunks -/

theorem wire_header (a b c f : UInt8) : Wire.wire (header a b c f) = [a, b, c, f, 0, 0, 0, 0] := by
  show Wire.wire (header a b c f).messageType ++ (Wire.wire f ++ leBytes 4 0) = _
  show (Wire.wire a ++ (Wire.wire b ++ Wire.wire c)) ++ (Wire.wire f ++ leBytes 4 0) = _
  rw [wire_u8, wire_u8, wire_u8, wire_u8]
  rfl

theorem writes_header (a b c f : UInt8) : Writes (enc (header a b c f)) [a, b, c, f, 0, 0, 0, 0] := by
  have := Lawful.writes (header a b c f) ⟨⟨trivial, trivial, trivial⟩, trivial, trivial⟩
  rwa [wire_header] at this

/-- C45: the Hello chunk, OPC 10000-6 table 37, with the url left null. -/
theorem C45_hello (m : Mem) : frame m helloEnc = .ok [0x48, 0x45, 0x4C, 0x46, 32, 0, 0, 0, 0, 0, 0, 0, 0, 0, 1, 0,
    0, 0, 1, 0, 0, 0, 1, 0, 0x88, 0x13, 0, 0, 0xFF, 0xFF, 0xFF, 0xFF] := by
  have h : Writes helloEnc ([0x48, 0x45, 0x4C, 0x46, 0, 0, 0, 0] ++ Wire.wire helloMsg) :=
    Writes.bind (writes_header _ _ _ _) (Lawful.writes helloMsg ⟨trivial, trivial, trivial, trivial, trivial, by
      show 0 < 2 ^ 31; decide⟩)
  have e : Wire.wire helloMsg = [0, 0, 0, 0, 0, 0, 1, 0, 0, 0, 1, 0, 0, 0, 1, 0, 0x88, 0x13, 0, 0,
      0xFF, 0xFF, 0xFF, 0xFF] := by decide +kernel
  rw [e] at h
  exact frame_eq h (by decide) (by decide) m

/-- C45: the Acknowledge chunk of both servers. -/
theorem C45_acknowledge (m : Mem) : frame m ackEnc = .ok [0x41, 0x43, 0x4B, 0x46, 28, 0, 0, 0, 0, 0, 0, 0, 0, 0, 1, 0,
    0, 0, 1, 0, 0, 0, 0x88, 0x13, 0x88, 0x13, 0, 0] := by
  have h : Writes ackEnc ([0x41, 0x43, 0x4B, 0x46, 0, 0, 0, 0] ++ Wire.wire ackMsg) :=
    Writes.bind (writes_header _ _ _ _) (Lawful.writes ackMsg ⟨trivial, trivial, trivial, trivial, trivial⟩)
  have e : Wire.wire ackMsg = [0, 0, 0, 0, 0, 0, 1, 0, 0, 0, 1, 0, 0, 0, 0x88, 0x13, 0x88, 0x13, 0, 0] := by
    decide +kernel
  rw [e] at h
  exact frame_eq h (by decide) (by decide) m

/-- C45: the ReverseHello chunk. -/
theorem C45_reverseHello (m : Mem) : frame m reverseHelloEnc = .ok [0x52, 0x48, 0x45, 0x46, 16, 0, 0, 0,
    0xFF, 0xFF, 0xFF, 0xFF, 0xFF, 0xFF, 0xFF, 0xFF] := by
  have h : Writes reverseHelloEnc ([0x52, 0x48, 0x45, 0x46, 0, 0, 0, 0] ++
      Wire.wire (⟨⟨[]⟩, ⟨[]⟩⟩ : ReverseHelloMessage)) :=
    Writes.bind (writes_header _ _ _ _) (Lawful.writes (⟨⟨[]⟩, ⟨[]⟩⟩ : ReverseHelloMessage)
      ⟨by show 0 < 2 ^ 31; decide, by show 0 < 2 ^ 31; decide⟩)
  have e : Wire.wire (⟨⟨[]⟩, ⟨[]⟩⟩ : ReverseHelloMessage) =
      [0xFF, 0xFF, 0xFF, 0xFF, 0xFF, 0xFF, 0xFF, 0xFF] := by decide +kernel
  rw [e] at h
  exact frame_eq h (by decide) (by decide) m

theorem writes_raw (l : List UInt8) : Writes (appendRaw l) l := by
  intro b _
  rfl

/-- C45: an OPN, MSG or CLO chunk of the transport layer: header, length, channel id, and the data of
the channel layer unchanged. -/
theorem C45_secured (m : Mem) (a b c chunk : UInt8) (channel : UInt32) (data : List UInt8)
    (h : data.length ≤ 4084) : frame m (secEnc a b c chunk channel data) =
      .ok ([a, b, c, chunk] ++ leBytes 4 (data.length + 12) ++ leBytes 4 channel.toNat ++ data) := by
  have e : Wire.wire (⟨(a, b, c), chunk, 0, channel⟩ : UaMessageHeader) =
      [a, b, c, chunk, 0, 0, 0, 0] ++ leBytes 4 channel.toNat := by
    show (Wire.wire a ++ (Wire.wire b ++ Wire.wire c)) ++ (Wire.wire chunk ++ (leBytes 4 0 ++ leBytes 4 channel.toNat)) = _
    rw [wire_u8, wire_u8, wire_u8, wire_u8]
    rfl
  have hw : Writes (secEnc a b c chunk channel data)
      (([a, b, c, chunk, 0, 0, 0, 0] ++ leBytes 4 channel.toNat) ++ data) := by
    have := Writes.bind (Lawful.writes (⟨(a, b, c), chunk, 0, channel⟩ : UaMessageHeader)
      ⟨⟨trivial, trivial, trivial⟩, trivial, trivial, trivial⟩) (writes_raw data)
    rwa [e] at this
  have hl4 : (leBytes 4 channel.toNat).length = 4 := rfl
  have hl : (([a, b, c, chunk, 0, 0, 0, 0] ++ leBytes 4 channel.toNat) ++ data).length = data.length + 12 := by
    rw [List.length_append, List.length_append, hl4]
    simp only [List.length_cons, List.length_nil]
    omega
  have := frame_eq hw (by omega) (by omega) m
  rw [this, hl]
  have hsb : sizeBytes (data.length + 12) = leBytes 4 (data.length + 12) := by
    simp only [sizeBytes, leBytes, Nat.shiftRight_eq_div_pow, Nat.div_div_eq_div_mul]
  rw [hsb]
  simp [leBytes]

/-- C45: data that does not fit behind the 12-byte header is written outside the buffer. -/
theorem C45_secured_overflow (m : Mem) (a b c chunk : UInt8) (channel : UInt32) (data : List UInt8)
    (h : 4084 < data.length) : frame m (secEnc a b c chunk channel data) = .ub := by
  have hw := Writes.bind (Lawful.writes (⟨(a, b, c), chunk, 0, channel⟩ : UaMessageHeader)
      ⟨⟨trivial, trivial, trivial⟩, trivial, trivial, trivial⟩) (writes_raw data)
  have e := hw (Buf.create m) (by simp [Buf.create])
  have hl : (Wire.wire (⟨(a, b, c), chunk, 0, channel⟩ : UaMessageHeader)).length = 12 := rfl
  rw [if_neg (by rw [List.length_append, hl]; simp only [Buf.create, maxPacketLen]; omega)] at e
  unfold frame secEnc
  rw [e]
  rfl

/-- A MSG chunk of 14 bytes cut inside the size field and again before its last byte. -/
example : ∃ b', feed [.ok [0x4D, 0x53, 0x47, 0x46, 14], .ok [0, 0, 0, 1, 0, 0, 0, 0xA0], .ok [0xA1]] (Buf.create fun _ => 7) =
    .ok ([.noerror, .noerror, .done], b') ∧ b'.bytes = [0x4D, 0x53, 0x47, 0x46, 14, 0, 0, 0, 1, 0, 0, 0, 0xA0, 0xA1] := by
  obtain ⟨b', h, _, h'⟩ := C30_framing_partial (Buf.create fun _ => 7)
    [[0x4D, 0x53, 0x47, 0x46, 14], [0, 0, 0, 1, 0, 0, 0, 0xA0]] [0xA1] rfl rfl (by decide) (by decide) (by decide)
    (by decide)
  exact ⟨b', h, h'⟩

example : frame (fun _ => 0x55) (secEnc 0x4D 0x53 0x47 0x46 7 [1, 2, 3]) =
    .ok [0x4D, 0x53, 0x47, 0x46, 15, 0, 0, 0, 7, 0, 0, 0, 1, 2, 3] := by decide +kernel

end Uscada.Ua
