import Verif.Queue
/-!
# `MsgMemStorage` (common/reactor/MsgMemStorage.cpp): the mailbox of a reactor

Byte-level model: one block of `numChunks * chunkSize` bytes (plus the alignment slack of the
allocation), chunk `id` holding an 8-byte little-endian length followed by the message bytes.
-/

namespace Uscada

/-- Byte memory addressed from the aligned start of the block. -/
abbrev Mem := Nat → UInt8

/-- `memcpy` into the block. -/
def memWrite (m : Mem) (off : Nat) (bytes : List UInt8) : Mem :=
  fun i => if off ≤ i ∧ i < off + bytes.length then bytes.getD (i - off) 0 else m i

/-- `memcpy` out of the block. -/
def memRead (m : Mem) (off n : Nat) : List UInt8 :=
  (List.range n).map fun i => m (off + i)

/-- Little-endian bytes of an `n`-byte unsigned integer. -/
def leBytes : Nat → Nat → List UInt8
  | 0, _ => []
  | n + 1, v => UInt8.ofNat v :: leBytes n (v / 256)

/-- Value of little-endian bytes. -/
def leValue : List UInt8 → Nat
  | [] => 0
  | b :: bs => b.toNat + 256 * leValue bs

/-- common/reactor/MsgMemStorage.hpp:30-37.  `slack` is the number of bytes of the allocation after
the last chunk (`malloc(totalMem + 15)` minus the alignment shift, so at most 15). -/
structure MsgStorage where
  chunkSize : Nat
  numChunks : Nat
  slack : Nat
  mem : Mem
  freeIds : Queue Nat
  busyIds : Queue Nat

namespace MsgStorage

/-- Size in bytes of `Item::len` (MsgMemStorage.hpp:25). -/
def hdrLen : Nat := 8

/-- The constructor loop, MsgMemStorage.cpp:20-23. -/
def fill (q : Queue Nat) : Nat → Nat → Exec (Queue Nat)
  | _, 0 => .ok q
  | i, n + 1 => do
    let q' ← q.push i
    fill q' (i + 1) n

/-- MsgMemStorage.cpp:8-24.  The initial memory content is arbitrary. -/
def create (chunkSize numChunks slack : Nat) (mem : Mem) : Exec MsgStorage := do
  let freeIds ← fill (Queue.create Nat numChunks) 0 numChunks
  pure { chunkSize, numChunks, slack, mem, freeIds, busyIds := Queue.create Nat numChunks }

/-- Number of usable bytes of the allocation. -/
def memSize (s : MsgStorage) : Nat := s.chunkSize * s.numChunks + s.slack

/-- MsgMemStorage.cpp:31-46 (runs under the mutex, hence atomic).  Writing past the allocation is
undefined behaviour; writing past the chunk is not checked. -/
def push (s : MsgStorage) (data : List UInt8) : Exec (MsgStorage × Bool) :=
  if s.freeIds.empty then .ok (s, false)
  else do
    let id ← s.freeIds.front
    let free ← s.freeIds.pop
    let busy ← s.busyIds.push id
    let off := s.chunkSize * id
    if off + hdrLen + data.length ≤ s.memSize then
      pure ({ s with
        freeIds := free
        busyIds := busy
        mem := memWrite (memWrite s.mem off (leBytes hdrLen data.length)) (off + hdrLen) data }, true)
    else .ub

/-- MsgMemStorage.cpp:48-62.  `dstCap` is the size of the caller's buffer
(`localBuf[maxMsgSize]`, Reactor.cpp:142).  The length is read back from the chunk. -/
def pop (s : MsgStorage) (dstCap : Nat) : Exec (MsgStorage × Option (List UInt8)) :=
  if s.busyIds.empty then .ok (s, none)
  else do
    let id ← s.busyIds.front
    let busy ← s.busyIds.pop
    let free ← s.freeIds.push id
    let off := s.chunkSize * id
    let len := leValue (memRead s.mem off hdrLen)
    if len ≤ dstCap ∧ off + hdrLen + len ≤ s.memSize then
      pure ({ s with freeIds := free, busyIds := busy }, some (memRead s.mem (off + hdrLen) len))
    else .ub

/-! ## Helper lemmas -/

@[simp] theorem length_leBytes (n v : Nat) : (leBytes n v).length = n := by
  induction n generalizing v with
  | zero => rfl
  | succ n ih => simp [leBytes, ih]

theorem leValue_leBytes (n v : Nat) (h : v < 256 ^ n) : leValue (leBytes n v) = v := by
  induction n generalizing v with
  | zero => simp at h; simp [leBytes, leValue, h]
  | succ n ih =>
    have : v / 256 < 256 ^ n := by
      rw [Nat.div_lt_iff_lt_mul (by omega)]; rw [Nat.pow_succ] at h; exact h
    simp [leBytes, leValue, ih _ this]
    omega

@[simp] theorem length_memRead (m : Mem) (off n : Nat) : (memRead m off n).length = n := by
  simp [memRead]

theorem memRead_memWrite_same (m : Mem) (off : Nat) (bs : List UInt8) :
    memRead (memWrite m off bs) off bs.length = bs := by
  apply List.ext_getElem
  · simp
  · intro i h1 h2
    simp [memRead, memWrite, h2]

theorem memRead_memWrite_disjoint (m : Mem) (off off' n : Nat) (bs : List UInt8)
    (h : off' + n ≤ off ∨ off + bs.length ≤ off') :
    memRead (memWrite m off bs) off' n = memRead m off' n := by
  apply List.ext_getElem
  · simp
  · intro i h1 h2
    simp at h1
    simp only [memRead, memWrite, List.getElem_map, List.getElem_range]
    split
    · omega
    · rfl

theorem fill_holds (n : Nat) : ∀ (q : Queue Nat) (l : List Nat) (i : Nat), q.Holds l →
    l.length + n ≤ q.cap →
    ∃ q', fill q i n = .ok q' ∧ q'.Holds (l ++ List.range' i n) ∧ q'.cap = q.cap := by
  induction n with
  | zero => intro q l i h _; exact ⟨q, rfl, by simpa using h, rfl⟩
  | succ n ih =>
    intro q l i h hl
    obtain ⟨q1, h1, h2, h3⟩ := h.push (by omega) i
    obtain ⟨q2, h4, h5, h6⟩ := ih q1 _ (i + 1) h2 (by simp; omega)
    refine ⟨q2, by simp [fill, h1, h4], ?_, by omega⟩
    simpa [List.range'_succ] using h5

/-- Chunk `id` holds message `m`. -/
def ChunkHolds (s : MsgStorage) (id : Nat) (m : List UInt8) : Prop :=
  m.length + hdrLen ≤ s.chunkSize ∧
  leValue (memRead s.mem (s.chunkSize * id) hdrLen) = m.length ∧
  memRead s.mem (s.chunkSize * id + hdrLen) m.length = m

/-- The storage holds the messages `msgs`, oldest first. -/
structure Rep (chunkSize numChunks : Nat) (s : MsgStorage) (msgs : List (List UInt8)) : Prop where
  hcs : s.chunkSize = chunkSize
  hn : s.numChunks = numChunks
  hfc : s.freeIds.cap = numChunks
  hbc : s.busyIds.cap = numChunks
  ex : ∃ (free : List Nat) (slots : List (Nat × List UInt8)),
    msgs = slots.map Prod.snd ∧ s.freeIds.Holds free ∧ s.busyIds.Holds (slots.map Prod.fst) ∧
    (free ++ slots.map Prod.fst).Perm (List.range numChunks) ∧
    ∀ p ∈ slots, ChunkHolds s p.1 p.2

theorem rep_create {chunkSize numChunks : Nat} (h0 : 0 < numChunks) (h1 : numChunks < Queue.szMod)
    (slack : Nat) (mem : Mem) :
    ∃ s, create chunkSize numChunks slack mem = .ok s ∧ Rep chunkSize numChunks s [] := by
  obtain ⟨q, h2, h3, h4⟩ := fill_holds numChunks (Queue.create Nat numChunks) [] 0
    (Queue.holds_create h0 h1) (by simp [Queue.create])
  refine ⟨_, by simp [create, h2]; rfl, rfl, rfl, h4, rfl, _, [], rfl, h3,
    Queue.holds_create h0 h1, ?_, by simp⟩
  simp [List.range_eq_range']

theorem Rep.length_le {c n : Nat} {s : MsgStorage} {msgs : List (List UInt8)} (h : Rep c n s msgs) :
    msgs.length ≤ n := by
  obtain ⟨free, slots, rfl, hf, hb, hp, hc⟩ := h.ex
  have := hp.length_eq
  simp at this ⊢
  omega

theorem Rep.push_full {c n : Nat} {s : MsgStorage} {msgs : List (List UInt8)} (h : Rep c n s msgs)
    (hfull : msgs.length = n) (m : List UInt8) : s.push m = .ok (s, false) := by
  obtain ⟨free, slots, rfl, hf, hb, hp, hc⟩ := h.ex
  have hl := hp.length_eq
  simp at hl hfull
  have : free = [] := List.length_eq_zero_iff.1 (by omega)
  subst this
  simp [MsgStorage.push, hf.empty_iff]

private theorem chunk_le {c n id : Nat} (h : id < n) : c * id + c ≤ c * n := by
  have : c * (id + 1) ≤ c * n := Nat.mul_le_mul_left c h
  rwa [Nat.mul_succ] at this

theorem Rep.push {c n : Nat} {s : MsgStorage} {msgs : List (List UInt8)} (h : Rep c n s msgs)
    (hlt : msgs.length < n) (m : List UInt8) (hm : m.length + hdrLen ≤ c) (hc64 : c < 2 ^ 64) :
    ∃ s', s.push m = .ok (s', true) ∧ Rep c n s' (msgs ++ [m]) := by
  obtain ⟨free, slots, rfl, hf, hb, hp, hc⟩ := h.ex
  have hl := hp.length_eq
  simp at hl hlt
  cases free with
  | nil => simp at hl; omega
  | cons id free =>
    obtain ⟨qf, hf1, hf2, hf3⟩ := hf.pop
    obtain ⟨qb, hb1, hb2, hb3⟩ := hb.push (by rw [h.hbc]; simpa using hlt) id
    have hid : id < n := by
      have : id ∈ List.range n := hp.mem_iff.1 (by simp)
      simpa using this
    have hnd : ((id :: free) ++ slots.map Prod.fst).Nodup := hp.nodup_iff.2 List.nodup_range
    have hle := chunk_le (c := c) hid
    have hguard : s.chunkSize * id + hdrLen + m.length ≤ s.memSize := by
      simp only [memSize, h.hcs, h.hn]; omega
    refine ⟨_, by simp [MsgStorage.push, hf.empty_iff, hf.front, hf1, hb1, hguard]; rfl, ?_⟩
    refine ⟨h.hcs, h.hn, by simp [hf3, h.hfc], by simp [hb3, h.hbc], free, slots ++ [(id, m)],
      by simp, hf2, by simpa using hb2, ?_, ?_⟩
    · refine List.Perm.trans ?_ hp
      simp only [List.map_append, List.map_cons, List.map_nil, ← List.append_assoc]
      refine (List.perm_append_comm).trans ?_
      simp
    · intro p hpm
      simp only [List.mem_append, List.mem_singleton] at hpm
      have hlen : (leBytes hdrLen m.length).length = hdrLen := length_leBytes _ _
      rcases hpm with hpm | rfl
      · obtain ⟨g1, g2, g3⟩ := hc p hpm
        have hne : p.1 ≠ id := by
          simp at hnd
          intro he
          exact hnd.1.2 p.2 (by rw [← he]; exact hpm)
        have hdis : s.chunkSize * p.1 + s.chunkSize ≤ s.chunkSize * id ∨
            s.chunkSize * id + s.chunkSize ≤ s.chunkSize * p.1 := by
          rcases Nat.lt_or_gt_of_ne hne with hlt' | hgt
          · left; exact chunk_le hlt'
          · right; exact chunk_le hgt
        rw [← h.hcs] at hm
        have hhdr : hdrLen = 8 := rfl
        refine ⟨g1, ?_, ?_⟩
        · rw [memRead_memWrite_disjoint _ _ _ _ _ (by simp only []; omega),
            memRead_memWrite_disjoint _ _ _ _ _ (by rw [hlen]; simp only []; omega)]
          exact g2
        · rw [memRead_memWrite_disjoint _ _ _ _ _ (by simp only []; omega),
            memRead_memWrite_disjoint _ _ _ _ _ (by rw [hlen]; simp only []; omega)]
          exact g3
      · refine ⟨by simpa [h.hcs] using hm, ?_, ?_⟩
        · show leValue (memRead (memWrite (memWrite s.mem (s.chunkSize * id) _) _ m)
            (s.chunkSize * id) hdrLen) = m.length
          rw [memRead_memWrite_disjoint _ _ _ _ _ (by simp [hdrLen])]
          have := memRead_memWrite_same s.mem (s.chunkSize * id) (leBytes hdrLen m.length)
          rw [hlen] at this
          rw [this]
          exact leValue_leBytes _ _ (by simp [hdrLen] at *; omega)
        · exact memRead_memWrite_same _ _ _

theorem Rep.pop_empty {c n : Nat} {s : MsgStorage} (h : Rep c n s []) (d : Nat) :
    s.pop d = .ok (s, none) := by
  obtain ⟨free, slots, hm, hf, hb, hp, hc⟩ := h.ex
  have : slots = [] := by simpa using hm.symm
  subst this
  simp [MsgStorage.pop, hb.empty_iff]

theorem Rep.pop {c n : Nat} {s : MsgStorage} {m : List UInt8} {msgs : List (List UInt8)}
    (h : Rep c n s (m :: msgs)) {d : Nat} (hd : c ≤ d + hdrLen) :
    ∃ s', s.pop d = .ok (s', some m) ∧ Rep c n s' msgs := by
  obtain ⟨free, slots, hm, hf, hb, hp, hc⟩ := h.ex
  cases slots with
  | nil => simp at hm
  | cons p slots =>
    simp only [List.map_cons, List.cons.injEq] at hm
    obtain ⟨rfl, rfl⟩ := hm
    have hl := hp.length_eq
    simp at hl
    obtain ⟨qb, hb1, hb2, hb3⟩ := hb.pop
    obtain ⟨qf, hf1, hf2, hf3⟩ := hf.push (by rw [h.hfc]; omega) p.1
    obtain ⟨g1, g2, g3⟩ := hc p (by simp)
    have hid : p.1 < n := by
      have : p.1 ∈ List.range n := hp.mem_iff.1 (by simp)
      simpa using this
    have hle := chunk_le (c := c) hid
    have hg : p.2.length ≤ d ∧ s.chunkSize * p.1 + hdrLen + p.2.length ≤ s.memSize := by
      simp only [memSize, h.hcs, h.hn] at *; omega
    refine ⟨_, by simp [MsgStorage.pop, hb.empty_iff, hb.front, hb1, hf1, g2, hg, g3]; rfl, ?_⟩
    refine ⟨h.hcs, h.hn, by simp [hf3, h.hfc], by simp [hb3, h.hbc], free ++ [p.1], slots, rfl, hf2,
      hb2, by simpa using hp, ?_⟩
    intro p' hp'
    exact hc p' (by simp [hp'])

end MsgStorage

end Uscada
