import Verif.ModbusCodec
/-!
# `ModbusAduStorage` (modbus/client/ModbusAduStorage.cpp): pending client requests

The store keeps 64 request slots, each with its own 260-byte part of one data buffer.
-/

namespace Uscada.Modbus

/-- The request a caller passes to the store (modbus/client/AduRequest.hpp:13-27).  `data = none` is a
null pointer; `some l` a pointer to the `l.length` accessible bytes `l`. -/
structure CallerReq where
  clientId : Nat
  transactId : Nat
  func : Nat
  addr : Nat
  startItem : Nat
  numItems : Nat
  numBytes : Nat
  data : Option (List UInt8)
deriving DecidableEq, Repr

/-- A slot of the store: `data` is the offset into the store's own buffer, or a null pointer, or (after
a rejected request) a pointer into the caller's memory. -/
inductive SlotPtr where
  | null
  | own (off : Nat)
  | caller
deriving DecidableEq, Repr

/-- An `AduRequest` kept in the store. -/
structure Slot where
  clientId : Nat := 0
  transactId : Nat := 0
  func : Nat := 0
  addr : Nat := 0
  startItem : Nat := 0
  numItems : Nat := 0
  numBytes : Nat := 0
  data : SlotPtr := .null

/-- ModbusAduStorage.hpp:33-39.  -/
structure AduStorage where
  freeIds : Queue Nat
  busyIds : Queue Nat
  adus : Nat → Slot
  buffer : Mem

namespace AduStorage

/-- ModbusAduStorage.hpp:33 -/
def capacity : Nat := 64
/-- ModbusAduStorage.hpp:34 -/
def bufferSize : Nat := capacity * maxAduLen

/-- ModbusAduStorage.cpp:10-19.  The buffer content is arbitrary. -/
def create (mem : Mem) : Exec AduStorage := do
  let freeIds ← MsgStorage.fill (Queue.create Nat capacity) 0 capacity
  pure { freeIds, busyIds := Queue.create Nat capacity, adus := fun _ => {}, buffer := mem }

/-- ModbusAduStorage.cpp:33: all fields copied, including the caller's pointer. -/
def slotOf (r : CallerReq) (p : SlotPtr) : Slot :=
  { clientId := r.clientId, transactId := r.transactId, func := r.func, addr := r.addr,
    startItem := r.startItem, numItems := r.numItems, numBytes := r.numBytes, data := p }

def setSlot (s : AduStorage) (id : Nat) (v : Slot) : AduStorage :=
  { s with adus := fun i => if i = id then v else s.adus i }

/-- ModbusAduStorage.cpp:25-51.  Index out of the vector or the buffer, and reading more bytes than
the caller provides, are undefined behaviour. -/
def push (s : AduStorage) (r : CallerReq) : Exec (AduStorage × Bool) :=
  if s.freeIds.empty then .ok (s, false)
  else do
    let id ← s.freeIds.front
    if capacity ≤ id then .ub else
    let s1 := s.setSlot id (slotOf r (if r.data.isSome then .caller else .null))
    if r.numBytes > maxAduLen then pure (s1, false)
    else do
      let s2 ← match r.data with
        | some l =>
          if r.numBytes ≠ 0 then
            if r.numBytes ≤ l.length ∧ maxAduLen * id + r.numBytes ≤ bufferSize then
              pure { (s1.setSlot id (slotOf r (.own (maxAduLen * id)))) with
                buffer := memWrite s1.buffer (maxAduLen * id) (l.take r.numBytes) }
            else .ub
          else pure (s1.setSlot id (slotOf r .null))
        | none => pure (s1.setSlot id (slotOf r .null))
      let busy ← s2.busyIds.push id
      let free ← s2.freeIds.pop
      pure ({ s2 with busyIds := busy, freeIds := free }, true)

/-- The `AduRequest` a reader of slot `v` sees. -/
def reqOf (s : AduStorage) (v : Slot) : AduReq :=
  { clientId := v.clientId, transactId := v.transactId, func := v.func, addr := v.addr,
    startItem := v.startItem, numItems := v.numItems, numBytes := v.numBytes,
    data := fun i => match v.data with | .own o => s.buffer (o + i) | _ => 0
    dataCap := match v.data with | .own o => bufferSize - o | _ => 0 }

/-- ModbusAduStorage.cpp:53-60.  A slot still pointing into a caller's buffer must not be read. -/
def front (s : AduStorage) : Exec AduReq := do
  let id ← s.busyIds.front
  if capacity ≤ id then .ub else
  if (s.adus id).data = .caller then .ub else pure (s.reqOf (s.adus id))

/-- ModbusAduStorage.cpp:62-71 -/
def pop (s : AduStorage) : Exec AduStorage :=
  if s.busyIds.empty then .ok s
  else do
    let id ← s.busyIds.front
    let free ← s.freeIds.push id
    let busy ← s.busyIds.pop
    pure { s with freeIds := free, busyIds := busy }

/-- ModbusAduStorage.cpp:73-76 -/
def empty (s : AduStorage) : Bool := s.busyIds.empty

/-! ## Sequences of calls -/

inductive Op where
  | push (r : CallerReq)
  | front
  | pop
  | isEmpty

/-- A request as its user understands it: the fields and the bytes. -/
structure Pending where
  clientId : Nat
  transactId : Nat
  func : Nat
  addr : Nat
  startItem : Nat
  numItems : Nat
  numBytes : Nat
  data : List UInt8
deriving DecidableEq, Repr

inductive Out where
  | unit
  | bool (b : Bool)
  | req (p : Pending)
deriving DecidableEq, Repr

/-- What can be read through the returned request: the fields and, when the pointer is not null,
`numBytes` bytes. -/
def observe (a : AduReq) : Pending :=
  { clientId := a.clientId, transactId := a.transactId, func := a.func, addr := a.addr,
    startItem := a.startItem, numItems := a.numItems, numBytes := a.numBytes,
    data := memRead a.data 0 (min a.numBytes a.dataCap) }

def step (s : AduStorage) : Op → Exec (AduStorage × Out)
  | .push r => do let (s', b) ← s.push r; pure (s', .bool b)
  | .front => do let a ← s.front; pure (s, .req (observe a))
  | .pop => do let s' ← s.pop; pure (s', .unit)
  | .isEmpty => .ok (s, .bool s.empty)

def run (s : AduStorage) : List Op → Exec (AduStorage × List Out)
  | [] => .ok (s, [])
  | op :: ops => do
    let (s1, o) ← s.step op
    let (s2, os) ← run s1 ops
    pure (s2, o :: os)

/-! ## Helper lemmas -/

/-- What the store must remember of a caller's request. -/
def pendingOf (r : CallerReq) : Pending :=
  { clientId := r.clientId, transactId := r.transactId, func := r.func, addr := r.addr,
    startItem := r.startItem, numItems := r.numItems, numBytes := r.numBytes,
    data := match r.data with | some l => l.take r.numBytes | none => [] }

def SlotHolds (s : AduStorage) (id : Nat) (p : Pending) : Prop :=
  observe (s.reqOf (s.adus id)) = p ∧
  ((s.adus id).data = .null ∨ (s.adus id).data = .own (maxAduLen * id) ∧ p.numBytes ≤ maxAduLen)

structure Rep (s : AduStorage) (l : List Pending) : Prop where
  hfc : s.freeIds.cap = capacity
  hbc : s.busyIds.cap = capacity
  ex : ∃ (free : List Nat) (slots : List (Nat × Pending)),
    l = slots.map Prod.snd ∧ s.freeIds.Holds free ∧ s.busyIds.Holds (slots.map Prod.fst) ∧
    (free ++ slots.map Prod.fst).Perm (List.range capacity) ∧
    ∀ p ∈ slots, SlotHolds s p.1 p.2

theorem rep_create (mem : Mem) : ∃ s, create mem = .ok s ∧ Rep s [] := by
  have h0 : 0 < capacity := by decide
  have h1 : capacity < Queue.szMod := by decide
  obtain ⟨q, h2, h3, h4⟩ := MsgStorage.fill_holds capacity (Queue.create Nat capacity) [] 0
    (Queue.holds_create h0 h1) (by simp [Queue.create])
  refine ⟨_, by simp [create, h2]; rfl, h4, rfl, _, [], rfl, h3, Queue.holds_create h0 h1, ?_, by simp⟩
  simp [List.range_eq_range']

theorem Rep.empty {s : AduStorage} {l : List Pending} (h : Rep s l) : s.empty = l.isEmpty := by
  obtain ⟨free, slots, rfl, hf, hb, hp, hc⟩ := h.ex
  simp [AduStorage.empty, hb.empty_iff]

theorem Rep.length_le {s : AduStorage} {l : List Pending} (h : Rep s l) : l.length ≤ capacity := by
  obtain ⟨free, slots, rfl, hf, hb, hp, hc⟩ := h.ex
  have := hp.length_eq
  simp at this ⊢
  omega

theorem Rep.push_full {s : AduStorage} {l : List Pending} (h : Rep s l) (hfull : l.length = capacity)
    (r : CallerReq) : s.push r = .ok (s, false) := by
  obtain ⟨free, slots, rfl, hf, hb, hp, hc⟩ := h.ex
  have hl := hp.length_eq
  simp at hl hfull
  have : free = [] := List.length_eq_zero_iff.1 (by omega)
  subst this
  simp [AduStorage.push, hf.empty_iff]

theorem Rep.front {s : AduStorage} {p : Pending} {l : List Pending} (h : Rep s (p :: l)) :
    ∃ a, s.front = .ok a ∧ observe a = p ∧ (a.dataCap = 0 ∨ a.numBytes ≤ a.dataCap ∧ a.numBytes ≤ maxAduLen) := by
  obtain ⟨free, slots, hm, hf, hb, hp, hc⟩ := h.ex
  cases slots with
  | nil => simp at hm
  | cons q slots =>
    simp only [List.map_cons, List.cons.injEq] at hm
    obtain ⟨rfl, rfl⟩ := hm
    obtain ⟨g1, g2⟩ := hc q (by simp)
    have hid : q.1 < capacity := by
      have : q.1 ∈ List.range capacity := hp.mem_iff.1 (by simp)
      simpa using this
    have hn : ¬ (s.adus q.1).data = .caller := by
      rcases g2 with g | ⟨g, _⟩ <;> rw [g] <;> simp
    refine ⟨_, by simp only [AduStorage.front, List.map_cons] at *; rw [hb.front]
                  simp only [Exec.ok_bind, Exec.pure_eq]; rw [if_neg (by omega), if_neg hn], g1, ?_⟩
    rcases g2 with g | ⟨g, g3⟩
    · left; simp [reqOf, g]
    · right
      have : (s.reqOf (s.adus q.1)).numBytes = q.2.numBytes := by rw [← g1]; rfl
      refine ⟨?_, by omega⟩
      have hA : maxAduLen = 260 := rfl
      have hB : bufferSize = 64 * 260 := rfl
      have hC : capacity = 64 := rfl
      have hm : maxAduLen * q.1 = 260 * q.1 := by rw [hA]
      rw [this] at *
      simp only [reqOf, g]
      omega

theorem Rep.pop_empty {s : AduStorage} (h : Rep s []) : s.pop = .ok s := by
  obtain ⟨free, slots, hm, hf, hb, hp, hc⟩ := h.ex
  have : slots = [] := by simpa using hm.symm
  subst this
  simp [AduStorage.pop, hb.empty_iff]

theorem Rep.pop {s : AduStorage} {p : Pending} {l : List Pending} (h : Rep s (p :: l)) :
    ∃ s', s.pop = .ok s' ∧ Rep s' l := by
  obtain ⟨free, slots, hm, hf, hb, hp, hc⟩ := h.ex
  cases slots with
  | nil => simp at hm
  | cons q slots =>
    simp only [List.map_cons, List.cons.injEq] at hm
    obtain ⟨rfl, rfl⟩ := hm
    have hl := hp.length_eq
    simp at hl
    obtain ⟨qb, hb1, hb2, hb3⟩ := hb.pop
    obtain ⟨qf, hf1, hf2, hf3⟩ := hf.push (by rw [h.hfc]; omega) q.1
    refine ⟨_, by simp [AduStorage.pop, hb.empty_iff, hb.front, hb1, hf1]; rfl, ?_⟩
    refine ⟨by simp [hf3, h.hfc], by simp [hb3, h.hbc], free ++ [q.1], slots, rfl, hf2,
      hb2, by simpa using hp, ?_⟩
    intro p' hp'
    exact hc p' (by simp [hp'])

theorem slotHolds_setSlot {s : AduStorage} {id id' : Nat} (v : Slot) {p : Pending} (hne : id' ≠ id)
    (h : SlotHolds s id' p) : SlotHolds (s.setSlot id v) id' p := by
  unfold SlotHolds at *
  have : (s.setSlot id v).adus id' = s.adus id' := by simp [setSlot, hne]
  rw [this]
  exact h

theorem slotHolds_buffer {s : AduStorage} {id id' : Nat} {p : Pending} (hne : id' ≠ id)
    (h : SlotHolds s id' p) (bs : List UInt8) (hbs : bs.length ≤ maxAduLen) :
    SlotHolds { s with buffer := memWrite s.buffer (maxAduLen * id) bs } id' p := by
  obtain ⟨h1, h2⟩ := h
  refine ⟨?_, h2⟩
  rw [← h1]
  have hA : maxAduLen = 260 := rfl
  have hnb : (s.adus id').numBytes = p.numBytes := by rw [← h1]; rfl
  rcases h2 with h2 | ⟨h2, h3⟩
  · simp [observe, reqOf, h2]
  · have : memRead (fun i => memWrite s.buffer (maxAduLen * id) bs (maxAduLen * id' + i)) 0
        (min (s.adus id').numBytes (bufferSize - maxAduLen * id')) =
        memRead (fun i => s.buffer (maxAduLen * id' + i)) 0
        (min (s.adus id').numBytes (bufferSize - maxAduLen * id')) := by
      apply List.ext_getElem
      · simp
      · intro k hk1 hk2
        have hk : k < (s.adus id').numBytes := by simp at hk1; omega
        simp only [memRead, List.getElem_map, List.getElem_range, memWrite, Nat.zero_add]
        have hm : maxAduLen * id = 260 * id := by rw [hA]
        have hm' : maxAduLen * id' = 260 * id' := by rw [hA]
        rw [if_neg (by omega)]
    simp only [observe, reqOf, h2, this]

theorem Rep.push_oversize {s : AduStorage} {l : List Pending} (h : Rep s l) (hlt : l.length < capacity)
    (r : CallerReq) (hr : maxAduLen < r.numBytes) : ∃ s', s.push r = .ok (s', false) ∧ Rep s' l := by
  obtain ⟨free, slots, rfl, hf, hb, hp, hc⟩ := h.ex
  have hl := hp.length_eq
  simp at hl hlt
  cases free with
  | nil => simp at hl; omega
  | cons id free =>
    have hid : id < capacity := by
      have : id ∈ List.range capacity := hp.mem_iff.1 (by simp)
      simpa using this
    have hnd : ((id :: free) ++ slots.map Prod.fst).Nodup := hp.nodup_iff.2 List.nodup_range
    refine ⟨s.setSlot id (slotOf r (if r.data.isSome then .caller else .null)), ?_, ?_⟩
    · unfold AduStorage.push
      rw [hf.empty_iff, hf.front]
      simp only [List.isEmpty_cons, Bool.false_eq_true, if_false, Exec.ok_bind]
      rw [if_neg (by omega), if_pos hr]
      rfl
    · refine ⟨h.hfc, h.hbc, _, slots, rfl, hf, hb, hp, ?_⟩
      intro p hpm
      apply slotHolds_setSlot _ _ (hc p hpm)
      intro he
      simp at hnd
      exact hnd.1.2 p.2 (by rw [← he]; exact hpm)

theorem memRead_shift (m : Mem) (o n : Nat) : memRead (fun i => m (o + i)) 0 n = memRead m o n := by
  simp [memRead]

theorem Rep.push {s : AduStorage} {l : List Pending} (h : Rep s l) (hlt : l.length < capacity)
    (r : CallerReq) (hr : r.numBytes ≤ maxAduLen) (hd : ∀ d, r.data = some d → r.numBytes ≤ d.length) :
    ∃ s', s.push r = .ok (s', true) ∧ Rep s' (l ++ [pendingOf r]) := by
  obtain ⟨free, slots, rfl, hf, hb, hp, hc⟩ := h.ex
  have hl := hp.length_eq
  simp at hl hlt
  cases free with
  | nil => simp at hl; omega
  | cons id free =>
    have hid : id < capacity := by
      have : id ∈ List.range capacity := hp.mem_iff.1 (by simp)
      simpa using this
    have hnd : ((id :: free) ++ slots.map Prod.fst).Nodup := hp.nodup_iff.2 List.nodup_range
    have hne : ∀ p ∈ slots, p.1 ≠ id := by
      intro p hpm he
      simp at hnd
      exact hnd.1.2 p.2 (by rw [← he]; exact hpm)
    obtain ⟨qf, hf1, hf2, hf3⟩ := hf.pop
    obtain ⟨qb, hb1, hb2, hb3⟩ := hb.push (by rw [h.hbc]; simpa using hlt) id
    have hA : maxAduLen = 260 := rfl
    have hB : bufferSize = 64 * 260 := rfl
    have hC : capacity = 64 := rfl
    have hm : maxAduLen * id = 260 * id := by rw [hA]
    have hperm : (free ++ (slots ++ [(id, pendingOf r)]).map Prod.fst).Perm (List.range capacity) := by
      refine List.Perm.trans ?_ hp
      simp only [List.map_append, List.map_cons, List.map_nil, ← List.append_assoc]
      refine (List.perm_append_comm).trans ?_
      simp
    -- the state between the copy and the queue updates
    have core : ∀ s2 : AduStorage, s2.busyIds = s.busyIds → s2.freeIds = s.freeIds →
        SlotHolds s2 id (pendingOf r) → (∀ p ∈ slots, SlotHolds s2 p.1 p.2) →
        ∃ s', (do let busy ← s2.busyIds.push id
                  let free ← s2.freeIds.pop
                  pure ({ s2 with busyIds := busy, freeIds := free }, true) : Exec (AduStorage × Bool))
            = .ok (s', true) ∧ Rep s' (slots.map Prod.snd ++ [pendingOf r]) := by
      intro s2 e1 e2 h1 h2
      refine ⟨{ s2 with busyIds := qb, freeIds := qf }, by rw [e1, e2, hb1, hf1]; rfl, ?_⟩
      refine ⟨by simp [hf3, h.hfc], by simp [hb3, h.hbc], free, slots ++ [(id, pendingOf r)],
        by simp, hf2, by simpa using hb2, hperm, ?_⟩
      intro p hpm
      simp only [List.mem_append, List.mem_singleton] at hpm
      rcases hpm with hpm | rfl
      · exact h2 p hpm
      · exact h1
    unfold AduStorage.push
    rw [hf.empty_iff, hf.front]
    simp only [List.isEmpty_cons, Bool.false_eq_true, if_false, Exec.ok_bind]
    rw [if_neg (by omega), if_neg (by omega)]
    have nullCase : (∀ d, r.data = some d → r.numBytes = 0) →
        ∀ s1 : AduStorage, s1.busyIds = s.busyIds → s1.freeIds = s.freeIds →
        (∀ p ∈ slots, SlotHolds s1 p.1 p.2) →
        SlotHolds (s1.setSlot id (slotOf r .null)) id (pendingOf r) ∧
        ∀ p ∈ slots, SlotHolds (s1.setSlot id (slotOf r .null)) p.1 p.2 := by
      intro h0 s1 _ _ h1
      constructor
      · refine ⟨?_, Or.inl (by simp [setSlot, slotOf])⟩
        cases hdd : r.data with
        | none => simp [observe, reqOf, setSlot, slotOf, pendingOf, memRead, hdd]
        | some d => simp [observe, reqOf, setSlot, slotOf, pendingOf, memRead, hdd, h0 d hdd]
      · intro p hpm
        exact slotHolds_setSlot _ (hne p hpm) (h1 p hpm)
    have hs1 : ∀ v, ∀ p ∈ slots, SlotHolds (s.setSlot id v) p.1 p.2 :=
      fun v p hpm => slotHolds_setSlot _ (hne p hpm) (hc p hpm)
    cases hdd : r.data with
    | none =>
      simp only [Exec.pure_eq, Exec.ok_bind]
      obtain ⟨c1, c2⟩ := nullCase (by simp [hdd]) (s.setSlot id (slotOf r .null)) rfl rfl (hs1 _)
      exact core _ rfl rfl c1 c2
    | some d =>
      by_cases hz : r.numBytes ≠ 0
      · simp only [if_pos hz]
        rw [if_pos ⟨hd d hdd, by omega⟩]
        simp only [Exec.pure_eq, Exec.ok_bind]
        have hlen : (d.take r.numBytes).length = r.numBytes := by
          have := hd d hdd
          simp; omega
        refine core { ((s.setSlot id (slotOf r (if (some d).isSome then .caller else .null))).setSlot id
          (slotOf r (.own (maxAduLen * id)))) with
          buffer := memWrite s.buffer (maxAduLen * id) (d.take r.numBytes) } rfl rfl ?_ ?_
        · refine ⟨?_, Or.inr ⟨by simp [setSlot, slotOf], hr⟩⟩
          have hmin : min r.numBytes (bufferSize - maxAduLen * id) = r.numBytes := by omega
          have hrd : memRead (memWrite s.buffer (maxAduLen * id) (d.take r.numBytes)) (maxAduLen * id)
              r.numBytes = d.take r.numBytes := by
            have := MsgStorage.memRead_memWrite_same s.buffer (maxAduLen * id) (d.take r.numBytes)
            rwa [hlen] at this
          simp only [observe, reqOf, setSlot, slotOf, pendingOf, hdd, if_true, memRead_shift, hmin, hrd]
        · intro p hpm
          refine slotHolds_buffer (hne p hpm) (slotHolds_setSlot _ (hne p hpm) ?_) _ (by omega)
          exact hs1 _ p hpm
      · simp only [if_neg hz, Exec.pure_eq, Exec.ok_bind]
        obtain ⟨c1, c2⟩ := nullCase (fun _ _ => by omega) (s.setSlot id _) rfl rfl (hs1 _)
        exact core _ rfl rfl c1 c2

end AduStorage

end Uscada.Modbus
