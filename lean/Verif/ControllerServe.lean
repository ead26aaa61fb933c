import Verif.ControllerLife
/-!
# C61: the registers behind the Modbus server

The requests that the Modbus server forwards are answered from memory the controller keeps.  The specification replays the
answered requests of the log on sixteen register files, one for each transaction number.
-/

namespace Uscada.Controller

open Uscada Uscada.Modbus

/-! ## Specification -/

/-- Register files: number of the file, offset of the byte. -/
abbrev Files := Nat → Nat → UInt8

/-- What a request does to the files: functions 6 and 16 write their data at the start register. -/
def written (F : Files) (q : FwdReq) : Files := fun i a =>
  if (q.func = 6 ∨ q.func = 16) ∧ i = q.transactId ∧ 2 * q.startItem ≤ a ∧ a < 2 * q.startItem + q.data.length then
    q.data.getD (a - 2 * q.startItem) 0
  else F i a

/-- One entry of the log; the second component is the request that would be answered next. -/
def replay1 (rnd : Nat → UInt8) : Files × Option FwdReq → Act → Files × Option FwdReq
  | _, .rcv (.start true) => (fun _ => rnd, none)
  | (F, _), .rcv (.modbusAduReq _ _ q) => (F, some q)
  | (F, some q), .snd (.modbusAduRsp ..) => (written F q, none)
  | (F, p), .snd _ => (F, p)
  | (F, _), .rcv _ => (F, none)

/-- The files after a history: the initial content, and the answered requests in their order since the last start. -/
def replay (rnd : Nat → UInt8) (log : List Act) : Files := (log.foldl (replay1 rnd) (fun _ => rnd, none)).1

/-- The bytes of `n` registers. -/
def Files.read (F : Files) (i start n : Nat) : List UInt8 := (List.range (2 * n)).map fun j => F i (2 * start + j)

/-- The request names one of the sixteen files and stays inside of its 1024 registers. -/
def InRegs (q : FwdReq) : Prop :=
  q.transactId < 16 ∧
  (q.func = 3 ∨ q.func = 4 → q.startItem < 1024 ∧ q.startItem + q.numItems ≤ 1024) ∧
  (q.func = 6 ∨ q.func = 16 → q.startItem < 1024 ∧ 2 * q.startItem + q.data.length ≤ 2048)

/-- The data of the answer. -/
def reply (F : Files) (q : FwdReq) : List UInt8 :=
  if q.func = 3 ∨ q.func = 4 then F.read q.transactId q.startItem q.numItems else if q.func = 6 then q.data else []

/-- The numbers whose answers are marked as failed, and the number whose answer carries an exception code. -/
def failed : List Nat := [1, 5, 6, 9, 12, 13, 14, 15]
def excepted : Nat := 2

/-! ## The invariant -/

structure Mirror (rnd : Nat → UInt8) (t : Test) (log : List Act) : Prop where
  bytes : ∀ i k, t.cases[i]? = some k → ∀ a < 2048, k.regs[a]? = some (replay rnd log i a)

def isAduRsp : Out → Bool
  | .modbusAduRsp .. => true
  | _ => false

theorem foldl_quiet (rnd : Nat → UInt8) (o : List Out) (ho : ∀ x ∈ o, isAduRsp x = false) (s : Files × Option FwdReq) :
    (o.map Act.snd).foldl (replay1 rnd) s = s := by
  induction o generalizing s with
  | nil => rfl
  | cons x o ih =>
    have hx := ho x (by simp)
    have e : replay1 rnd s (.snd x) = s := by
      obtain ⟨F, p⟩ := s
      cases x <;> cases p <;> first | rfl | cases hx
    simp only [List.map_cons, List.foldl_cons, e]
    exact ih (fun y hy => ho y (by simp [hy])) s

theorem replay_quiet (rnd : Nat → UInt8) (log : List Act) (e : Ev) (he : e ≠ .start true) (o : List Out)
    (ho : ∀ x ∈ o, isAduRsp x = false) : replay rnd (log ++ .rcv e :: o.map .snd) = replay rnd log := by
  unfold replay
  rw [List.foldl_append, List.foldl_cons, foldl_quiet rnd o ho]
  generalize List.foldl (replay1 rnd) (fun _ => rnd, none) log = s
  obtain ⟨F, p⟩ := s
  cases e with
  | start b =>
    cases b
    · cases p <;> rfl
    · exact absurd rfl he
  | _ => cases p <;> rfl

theorem replay_start (rnd : Nat → UInt8) (log : List Act) (o : List Out) (ho : ∀ x ∈ o, isAduRsp x = false) :
    replay rnd (log ++ .rcv (.start true) :: o.map .snd) = fun _ => rnd := by
  unfold replay
  rw [List.foldl_append, List.foldl_cons, foldl_quiet rnd o ho]
  rfl

theorem replay_served (rnd : Nat → UInt8) (log : List Act) (sid ses : Nat) (q : FwdReq) (r : AppRsp) :
    replay rnd (log ++ .rcv (.modbusAduReq sid ses q) :: [Out.modbusAduRsp sid ses r].map .snd) = written (replay rnd log) q := by
  unfold replay
  rw [List.foldl_append]
  rfl

theorem transit_cases (t : Test) (s : TSt) : (t.transit s).1.cases = t.cases ∧ ∀ x ∈ (t.transit s).2, isAduRsp x = false := by
  unfold Test.transit
  split
  · simp
  · unfold Test.enter Test.exit
    cases s <;> cases t.st <;> simp [isAduRsp]

/-- Everything but start and forwarded requests leaves the registers alone. -/
theorem step_keeps {rnd : Nat → UInt8} {c c' : Ctl} {e : Ev} {o : List Out} (h : c.step rnd e = .ok (c', o))
    (h1 : e ≠ .start true) (h2 : ∀ sid ses q, e ≠ .modbusAduReq sid ses q) :
    (∀ x ∈ o, isAduRsp x = false) ∧ ∀ t', c'.modbus = some t' → ∃ t, c.modbus = some t ∧ t'.cases = t.cases := by
  have same : ∀ {c' : Ctl} {o : List Out}, (Exec.ok (c, []) : Exec (Ctl × List Out)) = .ok (c', o) →
      (∀ x ∈ o, isAduRsp x = false) ∧ ∀ t', c'.modbus = some t' → ∃ t, c.modbus = some t ∧ t'.cases = t.cases := by
    intro c' o h
    injection h with h
    injection h with e1 e2
    subst e1; subst e2
    exact ⟨by simp, fun t ht => ⟨t, ht, rfl⟩⟩
  have on : ∀ (f : Test → Test × List Out), (∀ t, (f t).1.cases = t.cases ∧ ∀ x ∈ (f t).2, isAduRsp x = false) →
      (Exec.ok (c.onTest f) : Exec (Ctl × List Out)) = .ok (c', o) →
      (∀ x ∈ o, isAduRsp x = false) ∧ ∀ t', c'.modbus = some t' → ∃ t, c.modbus = some t ∧ t'.cases = t.cases := by
    intro f hf h
    unfold Ctl.onTest at h
    cases hm : c.modbus with
    | none =>
      rw [hm] at h
      have := same h
      rw [hm] at this
      exact this
    | some t =>
      rw [hm] at h
      injection h with h
      injection h with e1 e2
      subst e1; subst e2
      refine ⟨(hf t).2, ?_⟩
      intro t' ht'
      injection ht' with ht'
      subst ht'
      exact ⟨t, rfl, (hf t).1⟩
  cases e with
  | start b =>
    cases b
    · exact same h
    · exact absurd rfl h1
  | stop =>
    simp only [Ctl.step] at h
    cases hm : c.modbus with
    | none => rw [hm] at h; cases h
    | some t =>
      cases hu : c.ua with
      | none => rw [hm, hu] at h; cases h
      | some u =>
        rw [hm, hu] at h
        injection h with h
        injection h with e1 e2
        subst e1; subst e2
        refine ⟨?_, by simp⟩
        intro x hx
        rcases List.mem_append.1 hx with hx | hx
        · have ht := transit_cases t .init
          cases hs : t.st <;> simp only [Test.onStop, hs] at hx
          · rw [List.mem_singleton.1 hx]; rfl
          · cases hx
          · exact ht.2 x hx
          · exact ht.2 x hx
        · cases u
          · cases hx
          · simp only [USt.onStop, List.mem_cons, List.not_mem_nil, or_false] at hx
            rcases hx with hx | hx | hx <;> subst hx <;> rfl
  | modbusInitRsp =>
    refine on (·.onInitRsp) ?_ h
    intro t
    cases hs : t.st <;> simp only [Test.onInitRsp, hs]
    · exact transit_cases t _
    all_goals simp
  | modbusReleaseRsp => exact same h
  | modbusConfigRsp =>
    refine on (·.onConfigRsp) ?_ h
    intro t
    cases hs : t.st <;> simp only [Test.onConfigRsp, hs]
    case configure => exact transit_cases t _
    all_goals simp
  | modbusClientAduRsp r =>
    simp only [Ctl.step, Ctl.onTestE] at h
    cases hm : c.modbus with
    | none =>
      rw [hm] at h
      have := same h
      rw [hm] at this
      exact this
    | some t =>
      rw [hm] at h
      simp only at h
      rw [Exec.bind_eq_ok] at h
      obtain ⟨⟨t1, o1⟩, ht1, h⟩ := h
      injection h with h
      injection h with e1 e2
      subst e1; subst e2
      have key : t1.cases = t.cases ∧ ∀ x ∈ o1, isAduRsp x = false := by
        unfold Test.onClientAduRsp at ht1
        have idle : (Exec.ok (t, []) : Exec (Test × List Out)) = .ok (t1, o1) → t1.cases = t.cases ∧ ∀ x ∈ o1, isAduRsp x = false := by
          intro e
          injection e with e
          injection e with e1 e2
          subst e1; subst e2
          simp
        cases hs : t.st <;> rw [hs] at ht1
        case run =>
          simp only at ht1
          rw [Exec.bind_eq_ok] at ht1
          obtain ⟨⟨t2, v⟩, hc, ht1⟩ := ht1
          obtain ⟨e2, _⟩ := check_cases hc
          cases v
          · injection ht1 with e
            injection e with e1 e3
            subst e1; subst e3; subst e2
            simp
          · have := transit_cases t2 .setup
            injection ht1 with e
            rw [e] at this
            subst e2
            exact this
          · have := transit_cases t2 .init
            injection ht1 with e
            rw [e] at this
            subst e2
            exact this
        all_goals exact idle ht1
      refine ⟨key.2, ?_⟩
      intro t' ht'
      injection ht' with ht'
      subst ht'
      exact ⟨t, rfl, key.1⟩
  | modbusAduReq sid ses q => exact absurd rfl (h2 sid ses q)
  | ua m =>
    simp only [Ctl.step] at h
    cases hu : c.ua with
    | none => rw [hu] at h; exact same h
    | some u =>
      rw [hu] at h
      injection h with h
      injection h with e1 e2
      subst e1; subst e2
      refine ⟨?_, fun t ht => ⟨t, ht, rfl⟩⟩
      intro x hx
      cases u <;> cases m <;> simp [USt.onMsg] at hx <;> (subst hx; rfl)
  | timer =>
    refine on (·.onTimer) ?_ h
    intro t
    unfold Test.onTimer
    split
    · cases hs : t.st <;> simp only
      case setup =>
        have := transit_cases { t with armed := false } .run
        simpa [hs] using this
      all_goals simp
    · simp

theorem patch_spec {v : List UInt8} {off : Nat} {b : List UInt8} (h1 : off < v.length) (h2 : off + b.length ≤ v.length) :
    ∃ v', patch v off b = .ok v' ∧ ∀ a < v.length,
      v'[a]? = if off ≤ a ∧ a < off + b.length then b[a - off]? else v[a]? := by
  unfold patch
  rw [if_pos ⟨h1, h2⟩]
  refine ⟨_, rfl, ?_⟩
  intro a ha
  have hl : (v.take off).length = off := by simp; omega
  rw [List.getElem?_append, List.getElem?_append, List.length_append, hl]
  split
  · split
    · rw [if_neg (by omega), List.getElem?_take, if_pos (by omega)]
    · rw [if_pos (by omega)]
  · rw [if_neg (by omega), List.getElem?_drop]
    congr 1
    omega

/-- What is served, and what it does to the registers. -/
theorem serve_spec {rnd : Nat → UInt8} {t : Test} {log : List Act} (h : Live rnd t log) (hm : Mirror rnd t log)
    {q : FwdReq} (hq : InRegs q) (sid ses : Nat) :
    ∃ t' k, t.cases[q.transactId]? = some k ∧
      t.serve sid ses q = .ok (t', [.modbusAduRsp sid ses ⟨q.transactId, k.error, k.success, reply (replay rnd log) q⟩]) ∧
      ∀ i k, t'.cases[i]? = some k → ∀ a < 2048, k.regs[a]? = some (written (replay rnd log) q i a) := by
  have hlen := h.length
  obtain ⟨hq1, hq2, hq3⟩ := hq
  have hk : t.cases[q.transactId]? = some t.cases[q.transactId] := List.getElem?_eq_getElem (by omega)
  have hl := h.regs _ (List.mem_of_getElem? hk)
  have hb := hm.bytes _ _ hk
  have wr : (q.func = 6 ∨ q.func = 16) → ∃ v', patch t.cases[q.transactId].regs (q.startItem * 2) q.data = .ok v' ∧
      ∀ i k, (t.cases.set q.transactId { t.cases[q.transactId] with regs := v' })[i]? = some k → ∀ a < 2048,
        k.regs[a]? = some (written (replay rnd log) q i a) := by
    intro hf
    have hr := hq3 hf
    obtain ⟨v', hv, hv'⟩ := patch_spec (v := t.cases[q.transactId].regs) (off := q.startItem * 2) (b := q.data) (by omega) (by omega)
    refine ⟨v', hv, ?_⟩
    intro i k hi a ha
    rw [List.getElem?_set] at hi
    split at hi
    · rename_i e
      subst e
      rw [if_pos (by omega)] at hi
      injection hi with hi
      subst hi
      show v'[a]? = _
      rw [hv' a (by omega)]
      unfold written
      split
      · rename_i hc
        rw [if_pos ⟨hf, rfl, by omega, by omega⟩, List.getElem?_eq_getElem (by omega), List.getD_eq_getElem?_getD,
          List.getElem?_eq_getElem (by omega), Option.getD_some]
        congr 2
        omega
      · rename_i hc
        rw [if_neg (by omega)]
        exact hb a ha
    · rename_i e
      unfold written
      rw [if_neg (by omega)]
      exact hm.bytes i k hi a ha
  have same : ¬ (q.func = 6 ∨ q.func = 16) → ∀ i k, t.cases[i]? = some k → ∀ a < 2048,
      k.regs[a]? = some (written (replay rnd log) q i a) := by
    intro hf i k hi a ha
    unfold written
    rw [if_neg (by intro hc; exact hf hc.1)]
    exact hm.bytes i k hi a ha
  unfold Test.serve reply
  simp only [hk]
  by_cases h1 : q.func = fReadHolding ∨ q.func = fReadInput
  · have h1' : q.func = 3 ∨ q.func = 4 := h1
    have hr := hq2 h1'
    rw [if_pos h1, if_pos h1', slice_ok (by omega) (by omega), Exec.ok_bind]
    refine ⟨t, _, rfl, ?_, same (by omega)⟩
    have e : (t.cases[q.transactId].regs.drop (q.startItem * 2)).take (q.numItems * 2 % 65536) =
        (replay rnd log).read q.transactId q.startItem q.numItems := by
      apply List.ext_getElem?
      intro j
      unfold Files.read
      rw [List.getElem?_take, List.getElem?_map]
      by_cases hj : j < 2 * q.numItems
      · rw [if_pos (by omega), List.getElem?_drop, hb _ (by omega), List.getElem?_range hj]
        simp only [Option.map_some]
        congr 2
        omega
      · rw [if_neg (by omega), List.getElem?_eq_none (by simp; omega)]
        rfl
    rw [e]
    rfl
  rw [if_neg h1]
  have h1' : ¬ (q.func = 3 ∨ q.func = 4) := h1
  rw [if_neg h1']
  by_cases h2 : q.func = fPresetSingle
  · have h2' : q.func = 6 := h2
    obtain ⟨v', hv, hv'⟩ := wr (.inl h2')
    rw [if_pos h2, if_pos h2', hv, Exec.ok_bind]
    exact ⟨_, _, rfl, rfl, hv'⟩
  rw [if_neg h2]
  have h2' : ¬ q.func = 6 := h2
  rw [if_neg h2']
  by_cases h3 : q.func = fPresetMulti
  · have h3' : q.func = 16 := h3
    obtain ⟨v', hv, hv'⟩ := wr (.inr h3')
    rw [if_pos h3, hv, Exec.ok_bind]
    exact ⟨_, _, rfl, rfl, hv'⟩
  · have h3' : ¬ q.func = 16 := h3
    rw [if_neg h3]
    exact ⟨t, _, rfl, rfl, same (by omega)⟩

theorem serve_mirror {rnd : Nat → UInt8} {t t' : Test} {log : List Act} (h : Live rnd t log) (hm : Mirror rnd t log)
    {q : FwdReq} {sid ses : Nat} {o : List Out} (hs : t.serve sid ses q = .ok (t', o)) :
    ∃ r, o = [.modbusAduRsp sid ses r] ∧
      ∀ i k, t'.cases[i]? = some k → ∀ a < 2048, k.regs[a]? = some (written (replay rnd log) q i a) := by
  obtain ⟨⟨r, hr, _⟩, _⟩ := serve_cases hs
  refine ⟨r, hr, ?_⟩
  have hlen := h.length
  by_cases hf : q.func = 6 ∨ q.func = 16
  · have hq : InRegs q := by
      unfold Test.serve at hs
      split at hs
      · cases hs
      · rename_i c hc
        have hl := h.regs _ (List.mem_of_getElem? hc)
        have ht : q.transactId < 16 := by
          obtain ⟨hi, _⟩ := List.getElem?_eq_some_iff.1 hc
          omega
        have hp : ∃ v, patch c.regs (q.startItem * 2) q.data = .ok v := by
          simp only at hs
          rw [if_neg (by simp only [fReadHolding, fReadInput]; omega)] at hs
          split at hs
          · rw [Exec.bind_eq_ok] at hs
            obtain ⟨v, hv, _⟩ := hs
            exact ⟨v, hv⟩
          rename_i hn
          have hn' : ¬ q.func = 6 := hn
          have h16 : q.func = fPresetMulti := by simp only [fPresetMulti]; omega
          rw [if_pos h16] at hs
          rw [Exec.bind_eq_ok] at hs
          obtain ⟨v, hv, _⟩ := hs
          exact ⟨v, hv⟩
        obtain ⟨v, hv⟩ := hp
        unfold patch at hv
        split at hv
        · rename_i hb
          exact ⟨ht, by omega, fun _ => by omega⟩
        · cases hv
    obtain ⟨t1, k, _, h1, h2⟩ := serve_spec h hm hq sid ses
    rw [h1] at hs
    injection hs with e
    injection e with e1 e2
    subst e1
    exact h2
  · have e : t' = t := by
      unfold Test.serve at hs
      split at hs
      · cases hs
      · have n6 : ¬ q.func = fPresetSingle := by simp only [fPresetSingle]; omega
        have n16 : ¬ q.func = fPresetMulti := by simp only [fPresetMulti]; omega
        simp only [if_neg n6, if_neg n16] at hs
        split at hs
        · rw [Exec.bind_eq_ok] at hs
          obtain ⟨v, _, hs⟩ := hs
          injection hs with e
          injection e with e1 _
          exact e1.symm
        · injection hs with e
          injection e with e1 _
          exact e1.symm
    subst e
    intro i k hi a ha
    unfold written
    rw [if_neg (by intro hc; exact hf hc.1)]
    exact hm.bytes i k hi a ha

theorem mirror_create (rnd : Nat → UInt8) : ∀ (i : Nat) (k : Case), (testCases rnd)[i]? = some k → ∀ a < 2048, k.regs[a]? = some (rnd a) := by
  intro i k hi a ha
  have hk := List.mem_of_getElem? hi
  simp only [testCases, List.mem_cons, List.not_mem_nil, or_false] at hk
  rcases hk with h | h | h | h | h | h | h | h | h | h | h | h | h | h | h | h <;>
    (subst h; simp [randVector, List.getElem?_range ha])

theorem mirror_step {rnd : Nat → UInt8} {c c' : Ctl} {log : List Act} {e : Ev} {o : List Out} (hi : Inv rnd c log)
    (hm : ∀ t, c.modbus = some t → Mirror rnd t log) (h : c.step rnd e = .ok (c', o)) :
    ∀ t, c'.modbus = some t → Mirror rnd t (log ++ .rcv e :: o.map .snd) := by
  by_cases h1 : e = .start true
  · subst h1
    injection h with h
    injection h with e1 e2
    subst e1; subst e2
    intro t ht
    injection ht with ht
    subst ht
    constructor
    rw [replay_start rnd log _ (by simp [isAduRsp])]
    exact mirror_create rnd
  by_cases h2 : ∃ sid ses q, e = .modbusAduReq sid ses q
  · obtain ⟨sid, ses, q, e1⟩ := h2
    subst e1
    simp only [Ctl.step, Ctl.onTestE] at h
    cases hc : c.modbus with
    | none =>
      rw [hc] at h
      injection h with h
      injection h with e1 e2
      subst e1
      intro t ht
      rw [hc] at ht
      cases ht
    | some t =>
      rw [hc] at h
      simp only at h
      rw [Exec.bind_eq_ok] at h
      obtain ⟨⟨t1, o1⟩, ht1, h⟩ := h
      injection h with h
      injection h with e1 e2
      subst e1; subst e2
      intro t' ht'
      injection ht' with ht'
      subst ht'
      unfold Test.onAduReq at ht1
      have idle : (Exec.ok (t, []) : Exec (Test × List Out)) = .ok (t1, o1) →
          Mirror rnd t1 (log ++ .rcv (.modbusAduReq sid ses q) :: o1.map .snd) := by
        intro e
        injection e with e
        injection e with e1 e2
        subst e1; subst e2
        constructor
        rw [replay_quiet rnd log _ (by simp) _ (by simp)]
        exact (hm t hc).bytes
      cases hs : t.st <;> rw [hs] at ht1
      case run =>
        obtain ⟨r, hr, hb⟩ := serve_mirror (hi.live t hc) (hm t hc) ht1
        subst hr
        constructor
        rw [replay_served]
        exact hb
      all_goals exact idle ht1
  · obtain ⟨ho, hk⟩ := step_keeps h h1 (fun a b q e => h2 ⟨a, b, q, e⟩)
    intro t' ht'
    obtain ⟨t, ht, ec⟩ := hk t' ht'
    constructor
    rw [replay_quiet rnd log e h1 o ho, ec]
    exact (hm t ht).bytes

theorem mirror_run {rnd : Nat → UInt8} {c c' : Ctl} {log log' : List Act} {es : List Ev} (hi : Inv rnd c log)
    (hm : ∀ t, c.modbus = some t → Mirror rnd t log) (hr : run rnd c log es = .ok (c', log')) :
    ∀ t, c'.modbus = some t → Mirror rnd t log' := by
  induction es generalizing c log with
  | nil =>
    injection hr with hr
    injection hr with h1 h2
    subst h1; subst h2
    exact hm
  | cons e es ih =>
    simp only [run] at hr
    rw [Exec.bind_eq_ok] at hr
    obtain ⟨⟨c1, o⟩, h1, h2⟩ := hr
    exact ih (inv_step hi h1) (mirror_step hi hm h1) h2

theorem Live.status {rnd : Nat → UInt8} {t : Test} {log : List Act} (h : Live rnd t log) {i : Nat} {k : Case}
    (hk : t.cases[i]? = some k) : k.success = decide (i ∉ failed) ∧ k.error = if i = excepted then 4 else 0 := by
  have hi : i < 16 := by
    obtain ⟨hi, _⟩ := List.getElem?_eq_some_iff.1 hk
    have := h.length
    omega
  have e : ((testCases rnd).map fixed)[i]? = some (fixed k) := by
    rw [← h.reqs, List.getElem?_map, hk]; rfl
  have e1 : ((testCases rnd).map fixed).map Case.success = [true, false, true, true, true, false, false, true, true, false, true, true,
      false, false, false, false] := rfl
  have e2 : ((testCases rnd).map fixed).map Case.error = [0, 0, 4, 0, 0, 0, 0, 0, 0, 0, 0, 0, 0, 0, 0, 0] := rfl
  have f1 := congrArg (·[i]?) e1
  have f2 := congrArg (·[i]?) e2
  simp only [List.getElem?_map (f := Case.success), List.getElem?_map (f := Case.error), e, Option.map_some] at f1 f2
  have hs : k.success = (fixed k).success := rfl
  have he : k.error = (fixed k).error := rfl
  have cover : ∀ i < 16, ∀ b n, [true, false, true, true, true, false, false, true, true, false, true, true,
      false, false, false, false][i]? = some b → [0, 0, 4, 0, 0, 0, 0, 0, 0, 0, 0, 0, 0, 0, 0, 0][i]? = some n →
      b = decide (i ∉ failed) ∧ n = if i = excepted then 4 else 0 := by
    intro i hi b n
    have : i = 0 ∨ i = 1 ∨ i = 2 ∨ i = 3 ∨ i = 4 ∨ i = 5 ∨ i = 6 ∨ i = 7 ∨ i = 8 ∨ i = 9 ∨ i = 10 ∨ i = 11 ∨ i = 12 ∨
        i = 13 ∨ i = 14 ∨ i = 15 := by omega
    rcases this with h | h | h | h | h | h | h | h | h | h | h | h | h | h | h | h <;> subst h <;>
      (intro h1 h2; injection h1 with h1; injection h2 with h2; subst h1; subst h2; decide)
  rw [hs, he]
  exact cover i hi _ _ f1.symm f2.symm

/-! ## C61 -/

/-- C61: while the answers to the batch are awaited, a forwarded request that is in range is answered at once, to the session
it came from, with its number and the content that the replayed history gives; a read returns the bytes last written under its
number.  At any other time it is not answered. -/
theorem C61_served_partial (rnd : Nat → UInt8) (es : List Ev) (c : Ctl) (log : List Act)
    (h : run rnd Ctl.create [] es = .ok (c, log)) (sid ses : Nat) (q : FwdReq) (hq : InRegs q) :
    (Running log ∧ Testing log → ∃ c', c.step rnd (.modbusAduReq sid ses q) = .ok (c', [.modbusAduRsp sid ses
      ⟨q.transactId, if q.transactId = excepted then 4 else 0, decide (q.transactId ∉ failed), reply (replay rnd log) q⟩])) ∧
    (¬ (Running log ∧ Testing log) → c.step rnd (.modbusAduReq sid ses q) = .ok (c, [])) := by
  have hi := inv_run (inv_create rnd) h
  have hrun := running_run running_create h
  have hmir := mirror_run (inv_create rnd) (by simp [Ctl.create]) h
  constructor
  · rintro ⟨h1, h2⟩
    cases hm : c.modbus with
    | none => exact absurd hm (hrun.2 h1)
    | some t =>
      have hl := hi.live t hm
      have hst := hl.testing.2 h2
      obtain ⟨t', k, hk, hs, _⟩ := serve_spec hl (hmir t hm) hq sid ses
      obtain ⟨s1, s2⟩ := hl.status hk
      rw [s1, s2] at hs
      refine ⟨{ c with modbus := some t' }, ?_⟩
      simp only [Ctl.step, Ctl.onTestE, hm, Test.onAduReq, hst, hs, Exec.ok_bind]
      rfl
  · intro hnot
    simp only [Ctl.step, Ctl.onTestE]
    cases hm : c.modbus with
    | none => rfl
    | some t =>
      have hl := hi.live t hm
      have hst : t.st ≠ .run := fun e => hnot ⟨hl.running, hl.testing.1 e⟩
      have e : t.onAduReq sid ses q = .ok (t, []) := by
        unfold Test.onAduReq
        cases hs : t.st <;> simp [hs] at hst ⊢
      simp only [e, Exec.ok_bind]
      show Exec.ok (({ c with modbus := some t } : Ctl), ([] : List Out)) = _
      rw [← hm]

/-- The data of the answers in a log. -/
def answered : List Act → List (List UInt8)
  | [] => []
  | .snd (.modbusAduRsp _ _ r) :: l => r.data :: answered l
  | _ :: l => answered l

/-- The data of the answers in the log of a history. -/
def answeredIn (es : List Ev) : List (List UInt8) :=
  match run UInt8.ofNat Ctl.create [] ([.start true, .modbusInitRsp, .modbusConfigRsp] ++ es) with
  | .ok (_, log) => answered log
  | _ => []

/-- Non-vacuity: two registers are written under number 3 and read back; the register before them has its first content. -/
example : answeredIn [.modbusAduReq 0 5 ⟨3, 16, 1, 10, 2, 4, [1, 2, 3, 4]⟩, .modbusAduReq 0 5 ⟨3, 3, 1, 9, 3, 0, []⟩] =
    [[], [18, 19, 1, 2, 3, 4]] ∧ InRegs ⟨3, 16, 1, 10, 2, 4, [1, 2, 3, 4]⟩ := by
  refine ⟨by decide +kernel, by decide, by decide, by decide⟩

/-- C61 is violated: the registers are not shared.  What is written under one number is not seen by a read under another. -/
theorem C61_shared_violated :
    answeredIn [.modbusAduReq 0 5 ⟨3, 16, 1, 10, 1, 2, [1, 2]⟩, .modbusAduReq 0 5 ⟨4, 3, 1, 10, 1, 0, []⟩] = [[], [20, 21]] := by
  decide +kernel

/-- C61 is violated: at any time the answers are awaited, a forwarded request with a transaction number above 15 is undefined
behaviour, and so is one whose registers do not exist. -/
theorem C61_range_violated (rnd : Nat → UInt8) (es : List Ev) (c : Ctl) (log : List Act)
    (h : run rnd Ctl.create [] es = .ok (c, log)) (hr : Running log) (ht : Testing log) (sid ses : Nat) (q : FwdReq)
    (hn : 16 ≤ q.transactId ∨ q.func ∈ [3, 4, 6, 16] ∧ 1024 ≤ q.startItem) :
    c.step rnd (.modbusAduReq sid ses q) = .ub := by
  have hi := inv_run (inv_create rnd) h
  have hrun := running_run running_create h
  cases hm : c.modbus with
  | none => exact absurd hm (hrun.2 hr)
  | some t =>
    have hl := hi.live t hm
    have hst := hl.testing.2 ht
    have hs : t.serve sid ses q = .ub := by
      unfold Test.serve
      cases hk : t.cases[q.transactId]? with
      | none => rfl
      | some k =>
        have hlen := hl.length
        have h16 : q.transactId < 16 := by
          obtain ⟨hi, _⟩ := List.getElem?_eq_some_iff.1 hk
          omega
        have hreg := hl.regs k (List.mem_of_getElem? hk)
        rcases hn with hn | ⟨hf, hn⟩
        · omega
        simp only [List.mem_cons, List.not_mem_nil, or_false] at hf
        simp only [slice, patch, fReadHolding, fReadInput, fPresetSingle, fPresetMulti]
        rcases hf with hf | hf | hf | hf <;> rw [hf] <;> simp <;> (rw [if_neg (by omega)]; rfl)
    simp only [Ctl.step, Ctl.onTestE, hm, Test.onAduReq, hst, hs]
    rfl

/-- The request to read one register with transaction number 16, as a peer of the Modbus server sends it. -/
def hostile : List UInt8 := [0, 16, 0, 0, 0, 6, 1, 3, 0, 0, 0, 1]

/-- C61 is violated from outside: a well-formed request of a peer reaches the controller through a session of the server with
the transaction number the peer chose; the controller then indexes its sixteen test
cases with it. -/
theorem C61_remote_violated (rnd : Nat → UInt8) :
    (match (Session.create (fun _ => 0) ⟨0, 0, 0, 0, 0, 0, 0, fun _ => 0, 0⟩).run [.start, .data (.ok hostile)] with
      | .ok (_, os) => os.map (·.2)
      | _ => []) = [[], [.fwd ⟨16, 3, 1, 0, 1, 0, []⟩]] ∧
    run rnd Ctl.create [] [.start true, .modbusInitRsp, .modbusConfigRsp, .modbusAduReq 0 0 ⟨16, 3, 1, 0, 1, 0, []⟩] = .ub :=
  ⟨by decide +kernel, rfl⟩

end Uscada.Controller
