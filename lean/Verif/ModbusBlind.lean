import Verif.ModbusPeers
/-!
# C91: what uninitialised memory has to do with the answers of the Modbus server

Receive buffers and stored requests of Modbus sessions are uninitialised when the server is created, and decoding does not look at the number of received
bytes.  Two servers that differ in nothing but this memory are run with the same events.
-/

namespace Uscada.Modbus.Blind

open Uscada.Modbus.Server Uscada.Masters

/-! ## Decoding -/

/-- The fields of the stored request that an answer is made of. -/
structure SameAdu (a a' : AduReq) : Prop where
  tid : a.transactId = a'.transactId
  addr : a.addr = a'.addr
  func : a.func = a'.func
  start : a.startItem = a'.startItem
  num : a.func = 16 → a.numItems = a'.numItems

theorem beAt_same {m m' : Mem} {n i : Nat} (h : ∀ j, j < n → m j = m' j) (hi : i + 1 < n) : beAt m i = beAt m' i := by
  simp only [beAt, h i (by omega), h (i + 1) hi]

theorem regBytes_same {m m' : Mem} : ∀ (n i : Nat), (∀ j, i ≤ j → j < i + 2 * n → m j = m' j) → regBytes m i n = regBytes m' i n
  | 0, _, _ => rfl
  | n + 1, i, h => by
    simp only [regBytes, h i (by omega) (by omega), h (i + 1) (by omega) (by omega), regBytes_same n (i + 2) fun j h1 h2 => h j (by omega) (by omega)]

theorem view_same {q q' : FwdReq} (h1 : q.transactId = q'.transactId) (h2 : q.addr = q'.addr) (h3 : q.func = q'.func) (h4 : q.startItem = q'.startItem)
    (h5 : ¬ (q.func = 5 ∨ q.func = 6) → q.numItems = q'.numItems) (h6 : ¬ (q.func = 1 ∨ q.func = 2 ∨ q.func = 3 ∨ q.func = 4) → q.data = q'.data) :
    q.view = q'.view := by
  unfold FwdReq.view
  rw [← h1, ← h2, ← h3, ← h4]
  congr 1
  · by_cases h : q.func = 5 ∨ q.func = 6
    · rw [if_pos h, if_pos h]
    · rw [if_neg h, if_neg h, h5 h]
  · by_cases h : q.func = 1 ∨ q.func = 2 ∨ q.func = 3 ∨ q.func = 4
    · rw [if_pos h, if_pos h]
    · rw [if_neg h, if_neg h, h6 h]

/-- Accepted requests have at least 12 bytes. -/
theorem accepted_length {m : Mem} {a : AduReq} (h : (parseReq m 0 a).2.2 = true) : 6 ≤ beAt m 4 := by
  revert h
  unfold parseReq
  dsimp only
  split
  · simp
  split
  · simp
  split
  · split
    · simp
    · rename_i h6
      intro _
      simp only [Nat.zero_add, Decidable.not_not] at h6
      omega
  split
  · split
    · simp
    · rename_i h6
      intro _
      simp only [Nat.zero_add, Decidable.not_not] at h6
      omega
  split
  · split
    · simp
    split
    · simp
    · rename_i h6
      intro _
      simp only [Nat.zero_add, Decidable.not_not] at h6
      omega
  · simp

/-- The first bytes decide what answers are made of. -/
theorem parse_fields_same {m m' : Mem} {a a' : AduReq} (h : ∀ i, i < 12 → m i = m' i) (ha : SameAdu a a') :
    SameAdu (parseReq m 0 a).2.1 (parseReq m' 0 a').2.1 := by
  have e0 := beAt_same h (i := 0) (by omega)
  have e2 := beAt_same h (i := 2) (by omega)
  have e4 := beAt_same h (i := 4) (by omega)
  have e8 := beAt_same h (i := 8) (by omega)
  have e10 := beAt_same h (i := 10) (by omega)
  have e6 := h 6 (by omega)
  have e7 := h 7 (by omega)
  unfold parseReq
  simp only [Nat.zero_add]
  rw [← e0, ← e2, ← e4, ← e8, ← e10, ← e6, ← e7]
  have k1 : SameAdu { a with transactId := beAt m 0 } { a' with transactId := beAt m 0 } := ⟨rfl, ha.addr, ha.func, ha.start, ha.num⟩
  split
  · exact k1
  have k2 : SameAdu { a with transactId := beAt m 0, addr := (m 6).toNat } { a' with transactId := beAt m 0, addr := (m 6).toNat } :=
    ⟨rfl, rfl, ha.func, ha.start, ha.num⟩
  split
  · exact k2
  split
  · rename_i hr
    have n16 : (m 7).toNat ≠ 16 := by
      intro e
      rw [e] at hr
      simp [isReadFunc, fReadCoil, fReadDiscrete, fReadHolding, fReadInput] at hr
    split
    · exact ⟨rfl, rfl, rfl, ha.start, fun e => absurd e n16⟩
    · split <;> exact ⟨rfl, rfl, rfl, rfl, fun _ => rfl⟩
  split
  · rename_i hr
    have n16 : (m 7).toNat ≠ 16 := by
      intro e
      rw [e] at hr
      simp [isSingleFunc, fForceCoil, fPresetSingle] at hr
    split
    · exact ⟨rfl, rfl, rfl, ha.start, fun e => absurd e n16⟩
    · exact ⟨rfl, rfl, rfl, rfl, fun e => absurd e n16⟩
  split
  · have same : ∀ (x y : Nat) (d d' : Mem), SameAdu
        { a with transactId := beAt m 0, addr := (m 6).toNat, func := (m 7).toNat, startItem := beAt m 8, numItems := beAt m 10, numBytes := x, data := d }
        { a' with transactId := beAt m 0, addr := (m 6).toNat, func := (m 7).toNat, startItem := beAt m 8, numItems := beAt m 10, numBytes := y, data := d' } :=
      fun x y d d' => ⟨rfl, rfl, rfl, rfl, fun _ => rfl⟩
    split <;> split <;> (try split) <;> (try split) <;> exact same ..
  · rename_i hf
    exact ⟨rfl, rfl, rfl, ha.start, fun e => absurd e hf⟩

/-- An accepted request does not depend on anything but received bytes. -/
theorem parse_accepted {m m' : Mem} {a a' : AduReq} (h : ∀ i, i < beAt m 4 + 6 → m i = m' i) (ok : (parseReq m 0 a).2.2 = true) :
    (parseReq m' 0 a').2.2 = true ∧ (Session.fwdOf (parseReq m 0 a).2.1).view = (Session.fwdOf (parseReq m' 0 a').2.1).view ∧
      SameAdu (parseReq m 0 a).2.1 (parseReq m' 0 a').2.1 := by
  have h6 := accepted_length ok
  have e0 := beAt_same h (i := 0) (by omega)
  have e2 := beAt_same h (i := 2) (by omega)
  have e4 := beAt_same h (i := 4) (by omega)
  have e8 := beAt_same h (i := 8) (by omega)
  have e10 := beAt_same h (i := 10) (by omega)
  have e6 := h 6 (by omega)
  have e7 := h 7 (by omega)
  revert ok
  unfold parseReq
  simp only [Nat.zero_add]
  rw [← e0, ← e2, ← e4, ← e8, ← e10, ← e6, ← e7]
  split
  · simp
  split
  · simp
  split
  · rename_i hr
    split
    · simp
    split
    · simp
    · intro _
      refine ⟨rfl, ?_, rfl, rfl, rfl, rfl, fun _ => rfl⟩
      have e : (m 7).toNat = 1 ∨ (m 7).toNat = 2 ∨ (m 7).toNat = 3 ∨ (m 7).toNat = 4 := hr
      exact view_same rfl rfl rfl rfl (fun _ => rfl) fun k => absurd e k
  split
  · rename_i hr
    split
    · simp
    · rename_i h6'
      intro _
      have e : (m 7).toNat = 5 ∨ (m 7).toNat = 6 := hr
      refine ⟨rfl, ?_, rfl, rfl, rfl, rfl, fun e' => ?_⟩
      · refine view_same rfl rfl rfl rfl (fun k => absurd e k) fun _ => ?_
        dsimp only [Session.fwdOf]
        rw [regBytes_same 1 10 fun j _ h2 => h j (by omega), memRead_memWrite_zero a.data a'.data _ 2 (by simp)]
      · dsimp only at e'
        omega
  split
  · split
    · simp
    split
    · simp
    · rename_i hx hy
      intro _
      have e12 : m 12 = m' 12 := h 12 (by omega)
      rw [← e12]
      rw [if_neg hx, if_neg hy]
      refine ⟨rfl, ?_, rfl, rfl, rfl, rfl, fun _ => rfl⟩
      refine view_same rfl rfl rfl rfl (fun _ => rfl) fun _ => ?_
      dsimp only [Session.fwdOf]
      have hz : (m 12).toNat = beAt m 10 * 2 := Decidable.not_not.1 hx
      have hw : beAt m 4 = 7 + (m 12).toNat := Decidable.not_not.1 hy
      rw [regBytes_same ((m 12).toNat / 2) 13 fun j _ h2 => h j (by omega), memRead_memWrite_zero a.data a'.data _ _ (by simp; omega)]
  · simp

theorem parse_moves (m : Mem) (a : AduReq) : (parseReq m 0 a).1 ≠ 0 := by
  unfold parseReq
  dsimp only
  repeat' split
  all_goals simp

/-! ## Sessions -/

/-- What two effects have in common: the same bytes for the peer, and for the application requests that agree in all that their function uses. -/
def Alike : SOut → SOut → Prop
  | .fwd q, .fwd q' => q.view = q'.view
  | .frame w, .frame w' => w = w'
  | .released, .released => True
  | _, _ => False

/-- Lists of equal length whose elements are related. -/
inductive Each {α : Type} (R : α → α → Prop) : List α → List α → Prop
  | nil : Each R [] []
  | cons {x x' : α} {l l' : List α} : R x x' → Each R l l' → Each R (x :: l) (x' :: l')

theorem Each.append {α : Type} {R : α → α → Prop} {l l' k k' : List α} (h : Each R l l') (h' : Each R k k') : Each R (l ++ k) (l' ++ k') := by
  induction h with
  | nil => exact h'
  | cons h1 _ ih => exact .cons h1 ih

/-- Two sessions that differ in memory that was never written.  `p`: a request was forwarded before. -/
structure Twin (p : Prop) (s s' : Session) : Prop where
  st : s.st = s'.st
  link : s.link = s'.link
  timer : s.timer = s'.timer
  opened : s.opened = s'.opened
  armed : s.armed = s'.armed
  len : s.pdu.len = s'.pdu.len
  pos : s.pdu.pos = 0 ↔ s'.pdu.pos = 0
  mem : ∀ i, i < s.pdu.len → s.pdu.buf i = s'.pdu.buf i
  num : s.adu.numBytes ≤ 255
  num' : s'.adu.numBytes ≤ 255
  told : p → (∀ i, i < 12 → s.pdu.buf i = s'.pdu.buf i) ∧ SameAdu s.adu s'.adu

theorem Twin.weaken {p p' : Prop} {s s' : Session} (h : Twin p s s') (k : p' → p) : Twin p' s s' :=
  { h with told := fun e => h.told (k e) }

/-- The buffers are evaluated alike. -/
theorem evaluate_twin {p : Prop} {s s' : Session} (h : Twin p s s') (hc : s.adu.dataCap = 260) (hc' : s'.adu.dataCap = 260)
    (hp : s.pdu.len = beAt s.pdu.buf 4 + 6 → s.pdu.pos = 0) :
    ∃ t t' o o' r, s.evaluate = .ok (t, o, r) ∧ s'.evaluate = .ok (t', o', r) ∧ Each Alike o o' ∧ Twin (p ∨ ∃ q, .fwd q ∈ o) t t' := by
  have h4 : 6 ≤ s.pdu.len → beAt s.pdu.buf 4 = beAt s'.pdu.buf 4 := fun e => beAt_same h.mem (by omega)
  rw [Session.evaluate_eq s hc h.num hp]
  rw [Session.evaluate_eq s' hc' h.num' (by
    intro e
    refine h.pos.1 (hp ?_)
    rw [h.len, e, ← h4 (by rw [h.len]; omega)])]
  have same : ∀ r, ∃ t t' o o' r', (Exec.ok (s, ([] : List SOut), r) : Exec (Session × List SOut × Status)) = .ok (t, o, r') ∧
      (Exec.ok (s', ([] : List SOut), r) : Exec (Session × List SOut × Status)) = .ok (t', o', r') ∧ Each Alike o o' ∧ Twin (p ∨ ∃ q, .fwd q ∈ o) t t' :=
    fun r => ⟨_, _, _, _, _, rfl, rfl, .nil, h.weaken (by simp)⟩
  unfold Session.evalSpec
  rw [← h.len]
  by_cases h6 : s.pdu.len < 6
  · rw [if_pos h6, if_pos h6]
    exact same _
  rw [if_neg h6, if_neg h6, ← h4 (by omega)]
  by_cases k1 : 254 ≤ beAt s.pdu.buf 4
  · rw [if_pos k1, if_pos k1]
    exact same _
  rw [if_neg k1, if_neg k1]
  by_cases k2 : s.pdu.len < beAt s.pdu.buf 4
  · rw [if_pos k2, if_pos k2]
    exact same _
  rw [if_neg k2, if_neg k2]
  by_cases k3 : s.pdu.len ≠ beAt s.pdu.buf 4 + 6
  · rw [if_pos k3, if_pos k3]
    exact same _
  rw [if_neg k3, if_neg k3]
  replace k3 := Decidable.not_not.1 k3
  have hm : ∀ i, i < beAt s.pdu.buf 4 + 6 → s.pdu.buf i = s'.pdu.buf i := fun i hi => h.mem i (by omega)
  have hm' : ∀ i, i < beAt s'.pdu.buf 4 + 6 → s'.pdu.buf i = s.pdu.buf i := fun i hi => (hm i (by rw [h4 (by omega)]; exact hi)).symm
  have n := (Session.inv_decoded hc h.num).2
  have n' := (Session.inv_decoded hc' h.num').2
  have acc : (parseReq s.pdu.buf 0 s.adu).2.2 = (parseReq s'.pdu.buf 0 s'.adu).2.2 := by
    cases e : (parseReq s.pdu.buf 0 s.adu).2.2
    · cases e' : (parseReq s'.pdu.buf 0 s'.adu).2.2
      · rfl
      · rw [(parse_accepted (a' := s.adu) hm' e').1] at e
        cases e
    · rw [(parse_accepted (a' := s'.adu) hm e).1]
  have moved : s.decoded.pdu.pos = 0 ↔ s'.decoded.pdu.pos = 0 :=
    ⟨fun e => absurd e (parse_moves _ _), fun e => absurd e (parse_moves _ _)⟩
  rw [← acc]
  cases e : (parseReq s.pdu.buf 0 s.adu).2.2
  · refine ⟨_, _, _, _, _, rfl, rfl, .nil, ⟨h.st, h.link, h.timer, h.opened, h.armed, h.len, moved, h.mem, n, n', ?_⟩⟩
    rintro (k | ⟨q, hq⟩)
    · exact ⟨(h.told k).1, parse_fields_same (h.told k).1 (h.told k).2⟩
    · simp at hq
  · obtain ⟨_, v, w⟩ := parse_accepted (a' := s'.adu) hm e
    have l := accepted_length e
    exact ⟨_, _, _, _, _, rfl, rfl, .cons v .nil, ⟨h.st, h.link, h.timer, h.opened, h.armed, h.len, moved, h.mem, n, n',
      fun _ => ⟨fun i hi => hm i (by omega), w⟩⟩⟩

/-- The end of the stream is not read behind a decoded request. -/
def Polite (s : Session) (e : Session.Ev) : Prop := e = .data (.ok []) → s.st = .wait → s.pdu.pos = 0

theorem Polite.lasting {s : Session} {e : Session.Ev} (h : Polite s e) : Lasting s e := fun h1 h2 => by
  have := h h1 h2
  omega

theorem received_twin {p : Prop} {s s' : Session} (h : Twin p s s') (bs : List UInt8) :
    Twin p { s with pdu := s.pdu.received bs } { s' with pdu := s'.pdu.received bs } := by
  have w : ∀ i, s.pdu.buf i = s'.pdu.buf i ∨ s.pdu.len ≤ i ∧ i < s.pdu.len + bs.length → (s.pdu.received bs).buf i = (s'.pdu.received bs).buf i := by
    intro i hi
    simp only [PduBuf.received, memWrite, ← h.len]
    split
    · rfl
    · rename_i k
      exact hi.resolve_right k
  refine ⟨h.st, h.link, h.timer, h.opened, h.armed, ?_, h.pos, ?_, h.num, h.num', fun k => ⟨fun i hi => w i (.inl ((h.told k).1 i hi)), (h.told k).2⟩⟩
  · simp only [PduBuf.received, h.len]
  · intro i hi
    by_cases hl : i < s.pdu.len
    · exact w i (.inl (h.mem i hl))
    · exact w i (.inr ⟨by omega, hi⟩)

/-- Reading. -/
theorem receive_twin {p : Prop} {s s' : Session} {rx : Rx} (h : Twin p s s') (f : Firm s) (f' : Firm s') (hs : s.st ≠ .init) (he : Polite s (.data rx)) :
    ∃ t t' o o' r, s.receive rx = .ok (t, o, r) ∧ s'.receive rx = .ok (t', o', r) ∧ Each Alike o o' ∧ Twin (p ∨ ∃ q, .fwd q ∈ o) t t' := by
  have hA : maxAduLen = 260 := rfl
  have same : ∀ r, ∃ t t' o o' r', (Exec.ok (s, ([] : List SOut), r) : Exec (Session × List SOut × Status)) = .ok (t, o, r') ∧
      (Exec.ok (s', ([] : List SOut), r) : Exec (Session × List SOut × Status)) = .ok (t', o', r') ∧ Each Alike o o' ∧ Twin (p ∨ ∃ q, .fwd q ∈ o) t t' :=
    fun r => ⟨_, _, _, _, _, rfl, rfl, .nil, h.weaken (by simp)⟩
  have hl : ¬ s.link = false := by rw [(f.held hs).1]; decide
  have hl' : ¬ s'.link = false := by rw [← h.link]; exact hl
  unfold Session.receive
  rw [← h.len]
  by_cases k1 : s.pdu.len > maxAduLen
  · rw [if_pos k1, if_pos k1]
    exact same _
  rw [if_neg k1, if_neg k1, if_neg hl, if_neg hl']
  by_cases k2 : s.opened = false
  · rw [if_pos k2, if_pos (h.opened ▸ k2)]
    exact same _
  rw [if_neg k2, if_neg (h.opened ▸ k2)]
  cases rx with
  | na => exact same _
  | error => exact same _
  | ok bytes =>
    dsimp only
    have hcap : s'.pdu.capacity = s.pdu.capacity := by simp only [PduBuf.capacity, h.len]
    rw [hcap]
    refine evaluate_twin (received_twin h _) f.cap f'.cap ?_
    intro e
    show s.pdu.pos = 0
    have hst : s.st = .connected ∨ s.st = .wait := by
      cases hx : s.st
      · exact absurd hx hs
      · exact .inl rfl
      · exact .inr rfl
    rcases hst with hst | hst
    · exact f.conn hst
    · rcases f.wait hst with k | ⟨g1, g2⟩
      · exact k
      · by_cases hb : bytes = []
        · subst hb
          exact he rfl hst
        · exfalso
          rw [show (s.pdu.received (bytes.take s.pdu.capacity)).len = s.pdu.len + (bytes.take s.pdu.capacity).length from rfl,
            Session.buf4_received _ _ g1] at e
          have := List.length_pos_iff.2 hb
          have : s.pdu.capacity = 512 - s.pdu.len := rfl
          rw [List.length_take] at e
          omega

/-- Answering. -/
theorem send_twin {p : Prop} {s s' : Session} (h : Twin p s s') (hp : p) (r : AppRsp) (ok : Bool) : s'.send r ok = s.send r ok := by
  obtain ⟨_, k⟩ := h.told hp
  have e : ∀ b, encodeRsp b (Session.rspOf s' r) = encodeRsp b (Session.rspOf s r) := by
    intro b
    have e1 : Session.rspOf s' r = { Session.rspOf s r with numItems := s'.adu.numItems } := by
      simp only [Session.rspOf, k.addr, k.func, k.start]
    by_cases h16 : (Session.rspOf s r).func = fPresetMulti
    · rw [e1]
      have : s.adu.func = 16 := by
        simp only [Session.rspOf] at h16
        split at h16
        · simp [fError, fPresetMulti] at h16
        · exact h16
      rw [← k.num this]
      rfl
    · rw [e1]
      simp only [encodeRsp]
      rw [if_neg h16, if_neg h16]
  rw [Session.send_body, Session.send_body]
  rw [e, ← k.tid, ← h.link, ← h.opened]

/-- The effects of an event are alike. -/
theorem step_twin {p : Prop} {s s' : Session} {e : Session.Ev} (h : Twin p s s') (f : Firm s) (f' : Firm s') (he : Polite s e)
    (hr : ∀ r ok, e = .rsp r ok → r.data.length ≤ 260 ∧ p) :
    ∃ t t' o o', s.step e = .ok (t, o) ∧ s'.step e = .ok (t', o') ∧ Each Alike o o' ∧ Twin (p ∨ ∃ q, .fwd q ∈ o) t t' := by
  have keep : ∀ {t t' : Session} {o : List SOut}, (∀ q, .fwd q ∉ o) → Twin p t t' → Twin (p ∨ ∃ q, .fwd q ∈ o) t t' := fun hn k =>
    k.weaken (Or.rec id fun ⟨q, hq⟩ => absurd hq (hn q))
  have ends : ∀ {p : Prop} {t t' : Session}, Twin p t t' → Twin p (Session.ended t) (Session.ended t') := fun k =>
    ⟨rfl, rfl, rfl, rfl, rfl, k.len, k.pos, k.mem, k.num, k.num', k.told⟩
  have readies : ∀ {p : Prop} {t t' : Session}, Twin p t t' → Twin p (Session.ready t) (Session.ready t') := fun k =>
    ⟨rfl, k.link, k.timer, k.opened, rfl, rfl, ⟨fun _ => rfl, fun _ => rfl⟩, fun _ hi => absurd hi (Nat.not_lt_zero _), k.num, k.num', k.told⟩
  have waits : ∀ {p : Prop} {t t' : Session}, Twin p t t' → Twin p (Session.waits t) (Session.waits t') := fun k =>
    ⟨rfl, k.link, k.timer, k.opened, rfl, k.len, k.pos, k.mem, k.num, k.num', k.told⟩
  have unarmed : Twin p { s with armed := false } { s' with armed := false } :=
    ⟨h.st, h.link, h.timer, h.opened, rfl, h.len, h.pos, h.mem, h.num, h.num', h.told⟩
  have idle : ∃ t t' o o', (Exec.ok (s, ([] : List SOut)) : Exec (Session × List SOut)) = .ok (t, o) ∧ (Exec.ok (s', ([] : List SOut)) : Exec (Session × List SOut)) = .ok (t', o') ∧
      Each Alike o o' ∧ Twin (p ∨ ∃ q, .fwd q ∈ o) t t' := ⟨_, _, _, _, rfl, rfl, .nil, keep (by simp) h⟩
  cases e with
  | start =>
    have up : Twin p { s with link := true, timer := true, opened := true } { s' with link := true, timer := true, opened := true } :=
      ⟨h.st, rfl, rfl, rfl, h.armed, h.len, h.pos, h.mem, h.num, h.num', h.told⟩
    simp only [Session.step, Session.onStart]
    rw [← h.st]
    cases hs : s.st
    · dsimp only
      have hs' : s'.st = .init := h.st ▸ hs
      rw [Session.transit_connected (by simp) rfl, Session.transit_connected (by simp) rfl]
      rw [hs] at up
      rw [hs'] at up
      exact ⟨_, _, _, _, rfl, rfl, .nil, keep (by simp) (readies up)⟩
    all_goals
      have hs' := h.st ▸ hs
      dsimp only
      rw [hs, hs'] at up
      exact ⟨_, _, _, _, rfl, rfl, .nil, keep (by simp) up⟩
  | linkError => exact ⟨_, _, _, _, rfl, rfl, .nil, keep (by simp) ⟨h.st, h.link, h.timer, rfl, h.armed, h.len, h.pos, h.mem, h.num, h.num', h.told⟩⟩
  | timer =>
    simp only [Session.step]
    rw [← h.armed]
    by_cases ha : s.armed = true
    · rw [if_pos ha, if_pos ha]
      unfold Session.onTimer
      dsimp only
      rw [← h.st]
      cases hs : s.st
      · rw [f.idle hs] at ha
        cases ha
      · have hs' : s'.st = .connected := h.st ▸ hs
        have ht := (f.held (by simp [hs])).2
        have ht' := (f'.held (by simp [hs'])).2
        dsimp only
        rw [hs, hs'] at unarmed
        rw [Session.transit_init (s := { s with st := .connected, armed := false }) (by simp) ht,
          Session.transit_init (s := { s' with st := .connected, armed := false }) (by simp) ht']
        exact ⟨_, _, _, _, rfl, rfl, .cons trivial .nil, keep (by simp) (ends unarmed)⟩
      · have hs' : s'.st = .wait := h.st ▸ hs
        have ht := (f.held (by simp [hs])).2
        have ht' := (f'.held (by simp [hs'])).2
        dsimp only
        rw [hs, hs'] at unarmed
        rw [Session.transit_connected (s := { s with st := .wait, armed := false }) (by simp) ht,
          Session.transit_connected (s := { s' with st := .wait, armed := false }) (by simp) ht']
        exact ⟨_, _, _, _, rfl, rfl, .nil, keep (by simp) (readies unarmed)⟩
    · rw [if_neg ha, if_neg ha]
      exact idle
  | rsp r ok =>
    obtain ⟨hd, hp⟩ := hr r ok rfl
    simp only [Session.step, Session.onRsp]
    rw [← h.st]
    cases hs : s.st
    · exact idle
    · exact idle
    · have hs' : s'.st = .wait := h.st ▸ hs
      have hh := f.held (by simp [hs])
      have hh' := f'.held (by simp [hs'])
      dsimp only
      rw [send_twin h hp]
      obtain ⟨o, res, h1, h2, h3⟩ := Session.send_spec s r ok hd hh.1
      rw [h1, Exec.ok_bind, Exec.ok_bind]
      have eo : Each Alike o o ∧ ∀ q, .fwd q ∉ o := by
        rcases h3 with rfl | ⟨w, rfl, _⟩
        · exact ⟨.nil, by simp⟩
        · exact ⟨.cons rfl .nil, by simp⟩
      rcases h2 with rfl | rfl
      · dsimp only
        rw [Session.transit_connected (by simp [hs]) hh.2, Session.transit_connected (by simp [hs']) hh'.2]
        exact ⟨_, _, _, _, rfl, rfl, eo.1.append .nil, keep (by simpa using eo.2) (readies h)⟩
      · dsimp only
        rw [Session.transit_init (by simp [hs]) hh.2, Session.transit_init (by simp [hs']) hh'.2]
        exact ⟨_, _, _, _, rfl, rfl, eo.1.append (.cons trivial .nil), keep (by simpa using eo.2) (ends h)⟩
  | data rx =>
    simp only [Session.step]
    rw [← h.link]
    by_cases hl : s.link = true
    · rw [if_pos hl, if_pos hl]
      unfold Session.onData
      rw [← h.st]
      cases hs : s.st
      · exact idle
      · have hs' : s'.st = .connected := h.st ▸ hs
        dsimp only
        obtain ⟨t, t', o, o', r, h1, h2, h3, h4⟩ := receive_twin h f f' (by simp [hs]) he
        obtain ⟨t1, _, _, g, g1, g2, g3, _⟩ := receive_firm f (by simp [hs]) he.lasting
        rw [h1] at g
        cases g
        have kt : t.timer = true := g3.trans (f.held (by simp [hs])).2
        have kt' : t'.timer = true := h4.timer.symm.trans kt
        have ks : t.st = .connected := g1.trans hs
        have ks' : t'.st = .connected := h4.st.symm.trans ks
        rw [h1, h2, Exec.ok_bind, Exec.ok_bind]
        cases r
        case error =>
          dsimp only
          rw [Session.transit_init (by simp [ks]) kt, Session.transit_init (by simp [ks']) kt']
          exact ⟨_, _, _, _, rfl, rfl, h3.append (.cons trivial .nil), (ends h4).weaken (by simp)⟩
        case done =>
          dsimp only
          rw [Session.transit_wait ks kt, Session.transit_wait ks' kt']
          exact ⟨_, _, _, _, rfl, rfl, h3.append .nil, (waits h4).weaken (by simp)⟩
        all_goals exact ⟨_, _, _, _, rfl, rfl, h3, h4⟩
      · have hs' : s'.st = .wait := h.st ▸ hs
        dsimp only
        obtain ⟨t, t', o, o', r, h1, h2, h3, h4⟩ := receive_twin h f f' (by simp [hs]) he
        obtain ⟨t1, _, _, g, g1, g2, g3, _⟩ := receive_firm f (by simp [hs]) he.lasting
        rw [h1] at g
        cases g
        have kt : t.timer = true := g3.trans (f.held (by simp [hs])).2
        have kt' : t'.timer = true := h4.timer.symm.trans kt
        have ks : t.st = .wait := g1.trans hs
        have ks' : t'.st = .wait := h4.st.symm.trans ks
        rw [h1, h2, Exec.ok_bind, Exec.ok_bind]
        cases r
        case error =>
          dsimp only
          rw [Session.transit_init (by simp [ks]) kt, Session.transit_init (by simp [ks']) kt']
          exact ⟨_, _, _, _, rfl, rfl, h3.append (.cons trivial .nil), (ends h4).weaken (by simp)⟩
        all_goals exact ⟨_, _, _, _, rfl, rfl, h3, h4⟩
    · rw [if_neg hl, if_neg hl]
      exact idle

/-! ## Servers -/

/-- The effects of two servers. -/
def Alike2 (x x' : Nat × SOut) : Prop := x.1 = x'.1 ∧ Alike x.2 x'.2

/-- The events considered: streams do not end behind a decoded request, and the application answers a session only if the session has forwarded a
request before; the answer fits into its message. -/
def Fair (v : Server) (outs : List (Nat × SOut)) : Server.Ev → Prop
  | .accept _ => True
  | .sess i (.rsp r _) => r.data.length ≤ 260 ∧ ∃ q, (i, .fwd q) ∈ outs
  | .sess i e => Polite (v.sess i) e

/-- The histories of a server that was created with the sessions `f`, with all effects. -/
inductive Served (f : Nat → Session) (timers links : Nat) : List Server.Ev → List (Nat × SOut) → Server → Prop
  | create : Served f timers links [] [] (Server.create f timers links)
  | step {es : List Server.Ev} {outs : List (Nat × SOut)} {v : Server} {e : Server.Ev} {v1 : Server} {o : List (Nat × SOut)} :
    Served f timers links es outs v → Fair v outs e → v.step e = .ok (v1, o) → Served f timers links (es ++ [e]) (outs ++ o) v1

/-- Sessions as the constructor leaves them. -/
def Unused (f : Nat → Session) : Prop := ∀ i, ∃ m a, f i = Session.create m a

/-- Two servers whose sessions differ in memory that was never written. -/
structure Twins (outs outs' : List (Nat × SOut)) (v v' : Server) : Prop where
  free : v.free = v'.free
  timers : v.timers = v'.timers
  links : v.links = v'.links
  sess : ∀ i, Twin (∃ q, (i, .fwd q) ∈ outs) (v.sess i) (v'.sess i)
  firm : ∀ i, Firm (v.sess i)
  firm' : ∀ i, Firm (v'.sess i)
  outs : Each Alike2 outs outs'

theorem Each.map {o o' : List SOut} (i : Nat) (h : Each Alike o o') : Each Alike2 (o.map fun x => (i, x)) (o'.map fun x => (i, x)) := by
  induction h with
  | nil => exact .nil
  | cons h1 _ ih => exact .cons ⟨rfl, h1⟩ ih

theorem Each.released {o o' : List SOut} (h : Each Alike o o') : o.count .released = o'.count .released := by
  induction h with
  | nil => rfl
  | @cons x x' _ _ h1 _ ih =>
    rw [List.count_cons, List.count_cons, ih]
    cases x <;> cases x' <;> simp [Alike] at h1 ⊢

theorem Each.fwd {outs outs' : List (Nat × SOut)} (h : Each Alike2 outs outs') {i : Nat} {q : FwdReq} (hq : (i, .fwd q) ∈ outs) :
    ∃ q', (i, .fwd q') ∈ outs' := by
  induction h with
  | nil => simp at hq
  | @cons x x' l l' h1 _ ih =>
    rcases List.mem_cons.1 hq with e | e
    · subst e
      obtain ⟨j, y⟩ := x'
      obtain ⟨e1, e2⟩ := h1
      dsimp only at e1 e2
      subst e1
      cases y with
      | fwd q' => exact ⟨q', by simp⟩
      | frame | released => cases e2
    · obtain ⟨q', k⟩ := ih e
      exact ⟨q', List.mem_cons_of_mem _ k⟩

/-- What a session did goes into the server. -/
theorem absorb_twins {outs outs' : List (Nat × SOut)} {v v' : Server} {i : Nat} {s s' : Session} {o o' : List SOut} (h : Twins outs outs' v v')
    (k : Twin ((∃ q, (i, .fwd q) ∈ outs) ∨ ∃ q, .fwd q ∈ o) s s') (f : Firm s) (f' : Firm s') (ho : Each Alike o o') :
    Twins (outs ++ o.map fun x => (i, x)) (outs' ++ o'.map fun x => (i, x)) (absorb v i s o) (absorb v' i s' o') := by
  have hc := ho.released
  have sess : ∀ j, Twin (∃ q, (j, .fwd q) ∈ outs ++ o.map fun x => (i, x)) (Server.set v.sess i s j) (Server.set v'.sess i s' j) := by
    intro j
    by_cases e : j = i
    · subst e
      rw [set_same, set_same]
      refine k.weaken ?_
      rintro ⟨q, hq⟩
      rcases List.mem_append.1 hq with hq | hq
      · exact .inl ⟨q, hq⟩
      · obtain ⟨x, hx, e⟩ := List.mem_map.1 hq
        cases e
        exact .inr ⟨q, hx⟩
    · rw [set_other _ _ e, set_other _ _ e]
      refine (h.sess j).weaken ?_
      rintro ⟨q, hq⟩
      rcases List.mem_append.1 hq with hq | hq
      · exact ⟨q, hq⟩
      · obtain ⟨x, hx, e'⟩ := List.mem_map.1 hq
        cases e'
        exact absurd rfl e
  have firm : ∀ {g : Nat → Session} {t : Session}, (∀ j, Firm (g j)) → Firm t → ∀ j, Firm (Server.set g i t j) := by
    intro g t h1 h2 j
    unfold Server.set
    split
    · exact h2
    · exact h1 j
  have all := h.outs.append (ho.map i)
  have mem : SOut.released ∈ o ↔ SOut.released ∈ o' := by
    rw [← List.count_pos_iff, ← List.count_pos_iff, hc]
  unfold absorb
  by_cases hr : SOut.released ∈ o
  · rw [if_pos hr, if_pos (mem.1 hr)]
    exact ⟨by rw [h.free, hc], by rw [h.timers, (h.sess i).timer], by rw [h.links, (h.sess i).link], sess, firm h.firm f, firm h.firm' f', all⟩
  · rw [if_neg hr, if_neg (mt mem.2 hr)]
    exact ⟨h.free, h.timers, h.links, sess, firm h.firm f, firm h.firm' f', all⟩

/-- Changes that are the same in both servers. -/
theorem change_twins {outs outs' : List (Nat × SOut)} {v v' : Server} (h : Twins outs outs' v v') (i : Nat) {g : Session → Session}
    (hg : ∀ {p : Prop} {s s' : Session}, Twin p s s' → Twin p (g s) (g s')) (hf : ∀ {s : Session}, Firm s → Firm (g s)) (free : List Nat) (t l : Nat) :
    Twins outs outs' { free, sess := Server.set v.sess i (g (v.sess i)), timers := t, links := l }
      { free, sess := Server.set v'.sess i (g (v'.sess i)), timers := t, links := l } := by
  refine ⟨rfl, rfl, rfl, fun j => ?_, fun j => ?_, fun j => ?_, h.outs⟩
  · by_cases e : j = i
    · subst e
      dsimp only
      rw [set_same, set_same]
      exact hg (h.sess j)
    · dsimp only
      rw [set_other _ _ e, set_other _ _ e]
      exact h.sess j
  all_goals
    dsimp only
    unfold Server.set
    split
  · exact hf (h.firm i)
  · exact h.firm j
  · exact hf (h.firm' i)
  · exact h.firm' j

/-- Preparing a session. -/
theorem prepare_twins {outs outs' : List (Nat × SOut)} {v v' : Server} (h : Twins outs outs' v v') (i : Nat) (ok : Bool) :
    (prepare v i ok).2 = (prepare v' i ok).2 ∧ Twins outs outs' (prepare v i ok).1 (prepare v' i ok).1 := by
  have timer := change_twins h i (g := fun s => { s with timer := true })
    (fun k => ⟨k.st, k.link, rfl, k.opened, k.armed, k.len, k.pos, k.mem, k.num, k.num', k.told⟩)
    (fun k => ⟨k.cap, k.num, k.idle, fun e => ⟨(k.held e).1, rfl⟩, k.conn, k.wait⟩) v.free (v.timers - 1) v.links
  have link := change_twins timer i (g := fun s => { s with link := true })
    (fun k => ⟨k.st, rfl, k.timer, k.opened, k.armed, k.len, k.pos, k.mem, k.num, k.num', k.told⟩)
    (fun k => ⟨k.cap, k.num, k.idle, fun e => ⟨rfl, (k.held e).2⟩, k.conn, k.wait⟩) v.free (v.timers - 1) (v.links - 1)
  unfold prepare
  rw [← h.timers]
  by_cases ht : v.timers = 0
  · rw [if_pos ht, if_pos ht]
    exact ⟨rfl, h⟩
  rw [if_neg ht, if_neg ht]
  dsimp only
  rw [← h.links, ← h.free]
  by_cases hl : v.links = 0
  · rw [if_pos hl, if_pos hl]
    exact ⟨rfl, timer⟩
  · rw [if_neg hl, if_neg hl]
    exact ⟨rfl, link⟩

theorem Fair.session {v : Server} {outs : List (Nat × SOut)} {i : Nat} {k : Session.Ev} (h : Fair v outs (.sess i k)) :
    Polite (v.sess i) k ∧ ∀ r ok, k = .rsp r ok → r.data.length ≤ 260 ∧ ∃ q, (i, .fwd q) ∈ outs := by
  cases k with
  | rsp r ok => exact ⟨(by intro e; cases e), fun r' ok' e => by cases e; exact h⟩
  | _ => exact ⟨h, fun r ok e => by cases e⟩

theorem Fair.other {outs outs' : List (Nat × SOut)} {v v' : Server} {e : Server.Ev} (t : Twins outs outs' v v') (h : Fair v outs e) : Fair v' outs' e := by
  have polite : ∀ i k, Polite (v.sess i) k → Polite (v'.sess i) k := fun i k hk e1 e2 => (t.sess i).pos.1 (hk e1 ((t.sess i).st.trans e2))
  cases e with
  | accept => trivial
  | sess i k =>
    cases k with
    | rsp r ok => exact ⟨h.1, h.2.elim fun q hq => t.outs.fwd hq⟩
    | _ => exact polite _ _ h

/-- One event. -/
theorem server_twins {outs outs' : List (Nat × SOut)} {v v' v1 : Server} {o : List (Nat × SOut)} {e : Server.Ev} (h : Twins outs outs' v v') (he : Fair v outs e)
    (hs : v.step e = .ok (v1, o)) : ∃ v1' o', v'.step e = .ok (v1', o') ∧ Twins (outs ++ o) (outs' ++ o') v1 v1' := by
  cases e with
  | accept ok =>
    simp only [Server.step] at hs ⊢
    rw [← h.free]
    split at hs
    · cases hs
      exact ⟨_, _, rfl, by simpa using h⟩
    · rename_i i fr hfr
      have h0 : Twins outs outs' { v with free := fr } { v' with free := fr } := ⟨rfl, h.timers, h.links, h.sess, h.firm, h.firm', h.outs⟩
      obtain ⟨hp, hq⟩ := prepare_twins h0 i ok
      generalize prepare { v with free := fr } i ok = r at hp hq hs
      generalize prepare { v' with free := fr } i ok = r' at hp hq
      obtain ⟨w, g⟩ := r
      obtain ⟨w', g'⟩ := r'
      dsimp only at hp hq hs ⊢
      subst hp
      cases g with
      | false =>
        simp only [if_true] at hs ⊢
        cases hs
        exact ⟨_, _, rfl, by simpa using hq⟩
      | true =>
        simp only [Bool.true_eq_false, if_false] at hs ⊢
        obtain ⟨t, t', x, x', k1, k2, k3, k4⟩ := step_twin (e := .start) (hq.sess i) (hq.firm i) (hq.firm' i) (by intro e; cases e) (by intro r k e; cases e)
        obtain ⟨_, _, g1, g2, _⟩ := step_firm (e := .start) (hq.firm i) (by intro e; cases e) (by intro r k e; cases e)
        obtain ⟨_, _, g1', g2', _⟩ := step_firm (e := .start) (hq.firm' i) (by intro e; cases e) (by intro r k e; cases e)
        rw [k1] at g1 hs
        cases g1
        rw [k2] at g1' ⊢
        cases g1'
        cases hs
        exact ⟨_, _, rfl, absorb_twins hq k4 g2 g2' k3⟩
  | sess i k =>
    by_cases hk : k = .start
    · subst hk
      cases hs
      exact ⟨_, _, rfl, by simpa using h⟩
    have hstep : ∀ S : Server, S.step (.sess i k) = (if i ≥ maxNumSession then .ub else do
        let (s, o) ← (S.sess i).step k
        pure (absorb S i s o, o.map fun x => (i, x))) := by
      intro S
      cases k <;> first | exact absurd rfl hk | rfl
    rw [hstep] at hs ⊢
    split at hs
    · cases hs
    rename_i hi
    rw [if_neg hi]
    obtain ⟨a1, a2⟩ := he.session
    have a3 : ∀ r ok, k = .rsp r ok → r.data.length ≤ 260 := fun r ok e => (a2 r ok e).1
    have a4 : Polite (v'.sess i) k := fun e1 e2 => (h.sess i).pos.1 (a1 e1 ((h.sess i).st.trans e2))
    obtain ⟨t, t', x, x', k1, k2, k3, k4⟩ := step_twin (h.sess i) (h.firm i) (h.firm' i) a1 a2
    obtain ⟨_, _, g1, g2, _⟩ := step_firm (h.firm i) a1.lasting a3
    obtain ⟨_, _, g1', g2', _⟩ := step_firm (h.firm' i) a4.lasting a3
    rw [k1] at g1 hs
    cases g1
    rw [k2] at g1' ⊢
    cases g1'
    cases hs
    exact ⟨_, _, rfl, absorb_twins h k4 g2 g2' k3⟩

theorem firm_create (m : Mem) (a : AduReq) : Firm (Session.create m a) := ⟨rfl, Nat.zero_le _, fun _ => rfl, fun e => absurd rfl e, nofun, nofun⟩

theorem twin_create (m m' : Mem) (a a' : AduReq) : Twin False (Session.create m a) (Session.create m' a') :=
  ⟨rfl, rfl, rfl, rfl, rfl, rfl, ⟨fun _ => rfl, fun _ => rfl⟩, fun _ hi => absurd hi (Nat.not_lt_zero _), Nat.zero_le _, Nat.zero_le _, False.elim⟩

theorem served_twins {f f' : Nat → Session} {timers links : Nat} {es : List Server.Ev} {outs : List (Nat × SOut)} {v : Server} (hf : Unused f) (hf' : Unused f')
    (h : Served f timers links es outs v) : ∃ outs' v', Served f' timers links es outs' v' ∧ Twins outs outs' v v' := by
  induction h with
  | create =>
    refine ⟨_, _, .create, rfl, rfl, rfl, fun i => ?_, fun i => ?_, fun i => ?_, .nil⟩
    · obtain ⟨m, a, e⟩ := hf i
      obtain ⟨m', a', e'⟩ := hf' i
      show Twin _ (f i) (f' i)
      rw [e, e']
      exact (twin_create ..).weaken (by simp)
    · obtain ⟨m, a, e⟩ := hf i
      show Firm (f i)
      rw [e]
      exact firm_create ..
    · obtain ⟨m, a, e⟩ := hf' i
      show Firm (f' i)
      rw [e]
      exact firm_create ..
  | step _ he hs ih =>
    obtain ⟨outs', v', h1, h2⟩ := ih
    obtain ⟨v1', o', h3, h4⟩ := server_twins h2 he hs
    exact ⟨_, _, .step h1 (he.other h2) h3, h4⟩

end Uscada.Modbus.Blind
