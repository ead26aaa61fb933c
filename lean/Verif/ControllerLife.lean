import Verif.ControllerProps
/-!
# C60: starting, stopping, and what the controller makes of the answers
-/

namespace Uscada.Controller

open Uscada Uscada.Modbus

/-! ## Running -/

theorem running_snoc (l : List Act) (a : Act) :
    Running (l ++ [a]) ↔ a = .rcv (.start true) ∨ (Running l ∧ isStop a = false) := by
  constructor
  · rintro ⟨x, y, e, hy⟩
    rcases List.eq_nil_or_concat y with h | ⟨y', b, h⟩
    · subst h
      obtain ⟨_, e2⟩ := List.append_inj' e rfl
      injection e2 with e2 _
      exact .inl e2
    · rw [h, List.concat_eq_append, ← List.cons_append, ← List.append_assoc] at e
      obtain ⟨e1, e2⟩ := List.append_inj' e rfl
      injection e2 with e2 _
      rw [h, List.concat_eq_append] at hy
      subst e2
      exact .inr ⟨⟨x, y', e1, fun c hc => hy c (by simp [hc])⟩, hy a (by simp)⟩
  · rintro (h | ⟨h, ha⟩)
    · subst h
      exact ⟨l, [], rfl, by simp⟩
    · exact h.snoc ha

theorem running_snds (l : List Act) (os : List Out) : Running (l ++ os.map .snd) ↔ Running l := by
  induction os generalizing l with
  | nil => simp
  | cons o os ih =>
    have e : l ++ (o :: os).map .snd = l ++ [.snd o] ++ os.map .snd := by simp
    rw [e, ih, running_snoc]
    constructor
    · rintro (h | h)
      · cases h
      · exact h.1
    · exact fun h => .inr ⟨h, rfl⟩

theorem step_modbus {rnd : Nat → UInt8} {c c' : Ctl} {e : Ev} {o : List Out} (hs : c.step rnd e = .ok (c', o)) :
    c'.modbus ≠ none ↔ e = .start true ∨ (c.modbus ≠ none ∧ e ≠ .stop) := by
  have test : ∀ f : Test → Test × List Out, (c.onTest f).1.modbus ≠ none ↔ c.modbus ≠ none := by
    intro f
    unfold Ctl.onTest
    cases hm : c.modbus <;> simp [hm]
  have testE : ∀ (f : Test → Exec (Test × List Out)), c.onTestE f = .ok (c', o) → (c'.modbus ≠ none ↔ c.modbus ≠ none) := by
    intro f hf
    unfold Ctl.onTestE at hf
    cases hm : c.modbus with
    | none =>
      rw [hm] at hf
      injection hf with hf
      injection hf with h1 _
      rw [← h1, hm]
    | some t =>
      rw [hm] at hf
      simp only [Exec.bind_eq_ok] at hf
      obtain ⟨_, _, hf⟩ := hf
      injection hf with hf
      injection hf with h1 _
      rw [← h1]
      simp
  cases e with
  | start b =>
    cases b <;> injection hs with hs <;> injection hs with h1 _ <;> subst h1 <;> simp
  | stop =>
    simp only [Ctl.step] at hs
    split at hs
    · injection hs with hs
      injection hs with h1 _
      subst h1
      simp
    · cases hs
  | modbusInitRsp | modbusConfigRsp | timer =>
    injection hs with hs
    have h1 : c' = (c.onTest _).1 := (congrArg Prod.fst hs).symm
    rw [h1, test]
    simp
  | modbusReleaseRsp =>
    injection hs with hs
    injection hs with h1 _
    subst h1
    simp
  | modbusClientAduRsp r =>
    rw [testE _ hs]
    simp
  | modbusAduReq a b q =>
    rw [testE _ hs]
    simp
  | ua m =>
    simp only [Ctl.step] at hs
    split at hs <;> injection hs with hs <;> injection hs with h1 _ <;> subst h1 <;> simp

theorem running_step {rnd : Nat → UInt8} {c c' : Ctl} {log : List Act} {e : Ev} {o : List Out}
    (h : c.modbus ≠ none ↔ Running log) (hs : c.step rnd e = .ok (c', o)) :
    c'.modbus ≠ none ↔ Running (log ++ .rcv e :: o.map .snd) := by
  have e1 : log ++ .rcv e :: o.map .snd = log ++ [.rcv e] ++ o.map .snd := by simp
  rw [e1, running_snds, running_snoc, step_modbus hs, h]
  have e2 : isStop (.rcv e) = false ↔ e ≠ .stop := by
    cases e <;> simp [isStop]
  rw [e2]
  constructor
  · rintro (h | h)
    · exact .inl (by rw [h])
    · exact .inr h
  · rintro (h | h)
    · injection h with h
      exact .inl h
    · exact .inr h

theorem running_run {rnd : Nat → UInt8} {c c' : Ctl} {log log' : List Act} {es : List Ev} (h : c.modbus ≠ none ↔ Running log)
    (hr : run rnd c log es = .ok (c', log')) : c'.modbus ≠ none ↔ Running log' := by
  induction es generalizing c log with
  | nil =>
    injection hr with hr
    injection hr with h1 h2
    subst h1; subst h2
    exact h
  | cons e es ih =>
    simp only [run] at hr
    rw [Exec.bind_eq_ok] at hr
    obtain ⟨⟨c1, o⟩, h1, h2⟩ := hr
    exact ih (running_step h h1) h2

theorem running_create : Ctl.create.modbus ≠ none ↔ Running [] := by
  constructor
  · intro h; exact absurd rfl h
  · rintro ⟨x, y, e, _⟩
    simp at e

/-! ## Stopping -/

/-- C60: a stop request to a running controller, at any time except between the request to configure the Modbus component
and the answer to it, makes it send the four release requests, once each, and forget everything. -/
theorem C60_stop_partial (rnd : Nat → UInt8) (es : List Ev) (c : Ctl) (log : List Act)
    (h : run rnd Ctl.create [] es = .ok (c, log)) (hr : Running log) (hc : ¬ Configuring (since isReset log)) :
    c.step rnd .stop = .ok (Ctl.create,
      [.modbusReleaseReq, .uaSecureChannelReleaseReq, .uaTransportReleaseReq, .uaServiceReleaseReq]) := by
  have hi := inv_run (inv_create rnd) h
  have hm := (running_run running_create h).2 hr
  cases hm' : c.modbus with
  | none => exact absurd hm' hm
  | some t =>
    cases hu : c.ua with
    | none => exact absurd (hi.both.1 hu) hm
    | some u =>
      have hl := (hi.live t hm').st
      simp only [Ctl.step, hm', hu, hi.ua u hu]
      cases hst : t.st with
      | init => simp [Test.onStop, hst, USt.onStop, Ctl.create]
      | configure =>
        rw [hst] at hl
        exact absurd hl.1 hc
      | run => simp [Test.onStop, hst, Test.transit, Test.enter, USt.onStop, Ctl.create]
      | setup => simp [Test.onStop, hst, Test.transit, Test.enter, USt.onStop, Ctl.create]

/-- C60 is violated by a stop request that comes while the configuration request is not answered: the Modbus component is not
released, whatever happened before. -/
theorem C60_stop_configuring_violated (rnd : Nat → UInt8) (es : List Ev) (c : Ctl) (log : List Act)
    (h : run rnd Ctl.create [] es = .ok (c, log)) (hr : Running log) (hc : Configuring (since isReset log)) :
    c.step rnd .stop = .ok (Ctl.create,
      [.uaSecureChannelReleaseReq, .uaTransportReleaseReq, .uaServiceReleaseReq]) := by
  have hi := inv_run (inv_create rnd) h
  have hm := (running_run running_create h).2 hr
  cases hm' : c.modbus with
  | none => exact absurd hm' hm
  | some t =>
    cases hu : c.ua with
    | none => exact absurd (hi.both.1 hu) hm
    | some u =>
      have hl := (hi.live t hm').st
      simp only [Ctl.step, hm', hu, hi.ua u hu]
      cases hst : t.st with
      | init =>
        rw [hst] at hl
        obtain ⟨⟨a, ha, ha'⟩, _⟩ := hc
        rw [hl.1 a ha] at ha'
        cases ha'
      | configure => simp [Test.onStop, hst, USt.onStop, Ctl.create]
      | run =>
        rw [hst] at hl
        exact absurd hc hl.1.not_configuring
      | setup =>
        rw [hst] at hl
        exact absurd hc hl.1.not_configuring

/-- C60 is violated by every stop request that comes when the controller does not run (before the first start, or twice): a
null pointer is used. -/
theorem C60_stop_idle_violated (rnd : Nat → UInt8) (es : List Ev) (c : Ctl) (log : List Act)
    (h : run rnd Ctl.create [] es = .ok (c, log)) (hr : ¬ Running log) : c.step rnd .stop = .ub := by
  have hm : c.modbus = none := Classical.byContradiction fun hm => hr ((running_run running_create h).1 hm)
  simp [Ctl.step, hm]

/-- The two configurations of the test. -/
private def cfgs : List CfgReq := [⟨0, false, modbusAddr⟩, ⟨0, true, modbusAddr⟩]

/-- Non-vacuity: the controller is started and, with or without an answer of the Modbus component, stopped. -/
example : ∃ c log, run (fun _ => 7) Ctl.create [] [.start true, .modbusInitRsp, .modbusConfigRsp] = .ok (c, log) ∧
    Running log ∧ ¬ Configuring (since isReset log) := by
  refine ⟨_, [.rcv (.start true), .snd (.modbusInitReq 1 1), .snd .uaSecureChannelInitReq, .snd .uaTransportInitReq,
    .snd .uaServiceInitReq, .rcv .modbusInitRsp, .snd (.modbusConfigReq cfgs), .rcv .modbusConfigRsp,
    .snd (.modbusClientAduReq (batch (testCases fun _ => 7)))], rfl, ⟨[], _, rfl, by simp [isStop]⟩, ?_⟩
  intro h
  exact absurd (h.2 (.rcv .modbusConfigRsp) (by simp [since, isReset, isConfig])) (by simp [isConfigRsp])

example : ∃ c log, run (fun _ => 7) Ctl.create [] [.start true, .modbusInitRsp] = .ok (c, log) ∧
    Running log ∧ Configuring (since isReset log) := by
  refine ⟨_, [.rcv (.start true), .snd (.modbusInitReq 1 1), .snd .uaSecureChannelInitReq, .snd .uaTransportInitReq,
    .snd .uaServiceInitReq, .rcv .modbusInitRsp, .snd (.modbusConfigReq cfgs)], rfl, ⟨[], _, rfl, by simp [isStop]⟩, ?_⟩
  exact ⟨⟨.snd (.modbusConfigReq cfgs), by simp [since, isReset], rfl⟩, by simp [since, isReset, isConfig]⟩

example : ¬ Running [] := fun h => by obtain ⟨x, y, e, _⟩ := h; simp at e

example : ∃ c log, run (fun _ => 7) Ctl.create [] [.start true, .stop] = .ok (c, log) ∧ ¬ Running log := by
  refine ⟨_, _, rfl, fun h => ?_⟩
  exact ((running_run (rnd := fun _ => 7) (es := [.start true, .stop]) running_create rfl).2 h) rfl

/-! ## Answers -/

/-- The register bytes a test case is about. -/
def Case.window (c : Case) (n : Nat) : List UInt8 := (c.regs.drop (c.startItem * 2)).take n

/-- The answer that a test case expects. -/
def Expected (c : Case) (r : CRsp) : Prop :=
  r.clientId = c.clientId ∧ r.success = c.success ∧ r.error = c.error ∧
  (r.success = true → r.error = 0 →
    ((c.func = 3 ∨ c.func = 4) ∧ r.data = c.window (c.numItems * 2)) ∨
    (c.func = 6 ∧ r.data.length = 2 ∧ c.window c.data.length = c.data) ∨
    (c.func = 16 ∧ r.data = [] ∧ c.window c.data.length = c.data))

/-- The batch has been sent and less than sixteen answers came since. -/
def Testing (log : List Act) : Prop := Configured (since isReset log) ∧ answers log < 16

theorem Live.testing {rnd : Nat → UInt8} {t : Test} {log : List Act} (h : Live rnd t log) :
    t.st = .run ↔ Testing log := by
  have hst := h.st
  unfold Testing
  cases hs : t.st <;> rw [hs] at hst
  · simp only [reduceCtorEq, false_iff]
    rintro ⟨⟨⟨a, ha, ha'⟩, _⟩, _⟩
    rw [hst.1 a ha] at ha'
    cases ha'
  · simp only [reduceCtorEq, false_iff]
    exact fun hc => hc.1.not_configuring hst.1
  · simp only [true_iff]
    exact ⟨hst.1, by rw [hst.2.1]; exact hst.2.2⟩
  · simp only [reduceCtorEq, false_iff]
    intro hc
    have := hc.2
    omega

/-- The numbers of the test cases stay inside of the vectors. -/
structure Fits (c : Case) : Prop where
  start : c.startItem * 2 < 2048
  read : c.startItem * 2 + c.numItems * 2 ≤ 2048
  write : c.startItem * 2 + c.data.length ≤ 2048
  data : c.success = true → c.error = 0 → c.func = 6 ∨ c.func = 16 → c.data ≠ []

theorem testCases_fits (rnd : Nat → UInt8) : ∀ c ∈ testCases rnd, Fits c := by
  intro c hc
  simp only [testCases, List.mem_cons, List.not_mem_nil, or_false] at hc
  rcases hc with h | h | h | h | h | h | h | h | h | h | h | h | h | h | h | h <;>
    (subst h; constructor <;> simp [randVector])

theorem Live.fits {rnd : Nat → UInt8} {t : Test} {log : List Act} (h : Live rnd t log) : ∀ c ∈ t.cases, Fits c := by
  intro c hc
  have : fixed c ∈ (testCases rnd).map fixed := by
    rw [← h.reqs]
    exact List.mem_map_of_mem hc
  obtain ⟨d, hd, e⟩ := List.mem_map.1 this
  have hf := testCases_fits rnd d hd
  have e1 : d.startItem = c.startItem := (congrArg Case.startItem e : (fixed d).startItem = (fixed c).startItem)
  have e2 : d.numItems = c.numItems := (congrArg Case.numItems e : (fixed d).numItems = (fixed c).numItems)
  have e3 : d.data = c.data := (congrArg Case.data e : (fixed d).data = (fixed c).data)
  have e4 : d.success = c.success := (congrArg Case.success e : (fixed d).success = (fixed c).success)
  have e5 : d.error = c.error := (congrArg Case.error e : (fixed d).error = (fixed c).error)
  have e6 : d.func = c.func := (congrArg Case.func e : (fixed d).func = (fixed c).func)
  obtain ⟨h1, h2, h3, h4⟩ := hf
  rw [e1] at h1 h2 h3
  rw [e2] at h2
  rw [e3] at h3 h4
  rw [e4, e5, e6] at h4
  exact ⟨h1, h2, h3, h4⟩

theorem slice_ok {v : List UInt8} {off n : Nat} (h1 : off < v.length) (h2 : off + n ≤ v.length) :
    slice v off n = .ok ((v.drop off).take n) := if_pos ⟨h1, h2⟩

theorem compare_spec {c : Case} (hf : Fits c) (hl : c.regs.length = 2048) {r : CRsp} (hs : c.success = true) (he : c.error = 0) :
    ∃ b, Test.compare c r = .ok b ∧ (b = true ↔
      ((c.func = 3 ∨ c.func = 4) ∧ r.data = c.window (c.numItems * 2)) ∨
      (c.func = 6 ∧ r.data.length = 2 ∧ c.window c.data.length = c.data) ∨
      (c.func = 16 ∧ r.data = [] ∧ c.window c.data.length = c.data)) := by
  obtain ⟨h1, h2, h3, h4⟩ := hf
  have hw : ∀ n, c.startItem * 2 + n ≤ 2048 → (c.window n).length = n := by
    intro n hn
    simp only [Case.window, List.length_take, List.length_drop, hl]
    omega
  unfold Test.compare
  by_cases hr : c.func = fReadHolding ∨ c.func = fReadInput
  · rw [if_pos hr]
    have hr' : c.func = 3 ∨ c.func = 4 := hr
    have n6 : c.func ≠ 6 := by omega
    have n16 : c.func ≠ 16 := by omega
    by_cases hn : c.numItems * 2 ≠ r.data.length
    · rw [if_pos hn]
      refine ⟨false, rfl, ?_⟩
      simp only [Bool.false_eq_true, n6, n16, false_and, or_false, false_iff]
      rintro ⟨_, e⟩
      apply hn
      rw [e, hw _ h2]
    · rw [if_neg hn, slice_ok (by omega) (by omega)]
      refine ⟨_, rfl, ?_⟩
      simp only [n6, n16, hr', false_and, or_false, true_and, decide_eq_true_eq]
      rfl
  · rw [if_neg hr]
    have n3 : ¬ (c.func = 3 ∨ c.func = 4) := hr
    by_cases h6 : c.func = fPresetSingle
    · rw [if_pos h6]
      have h6' : c.func = 6 := h6
      have n16 : c.func ≠ 16 := by omega
      by_cases hn : 2 ≠ r.data.length
      · rw [if_pos hn]
        refine ⟨false, rfl, ?_⟩
        simp only [Bool.false_eq_true, n3, n16, false_and, or_false, false_or, false_iff]
        exact fun h => hn h.2.1.symm
      · have hd := h4 hs he (.inl h6')
        have hd' : 0 < c.data.length := List.length_pos_iff.2 hd
        rw [if_neg hn, slice_ok hd' (by omega), slice_ok (by omega) (by omega)]
        refine ⟨_, rfl, ?_⟩
        have hn' : r.data.length = 2 := by omega
        simp only [n3, n16, hn', false_and, or_false, false_or, true_and, decide_eq_true_eq, List.drop_zero, List.take_length]
        exact ⟨fun h => ⟨h6', h.symm⟩, fun h => h.2.symm⟩
    · rw [if_neg h6]
      have n6 : c.func ≠ 6 := h6
      by_cases h16 : c.func = fPresetMulti
      · rw [if_pos h16]
        have h16' : c.func = 16 := h16
        by_cases hn : 0 ≠ r.data.length
        · rw [if_pos hn]
          refine ⟨false, rfl, ?_⟩
          simp only [Bool.false_eq_true, n3, n6, false_and, false_or, false_iff]
          rintro ⟨_, e, _⟩
          rw [e] at hn
          exact hn rfl
        · have hd := h4 hs he (.inr h16')
          have hd' : 0 < c.data.length := List.length_pos_iff.2 hd
          rw [if_neg hn, slice_ok hd' (by omega), slice_ok (by omega) (by omega)]
          refine ⟨_, rfl, ?_⟩
          have hn' : r.data = [] := List.length_eq_zero_iff.1 (by omega)
          simp only [n3, hn', n6, false_and, false_or, true_and, decide_eq_true_eq, List.drop_zero, List.take_length]
          exact ⟨fun h => ⟨h16', h.symm⟩, fun h => h.2.symm⟩
      · rw [if_neg h16]
        have n16 : c.func ≠ 16 := h16
        exact ⟨false, rfl, by simp [n3, n6, n16]⟩

theorem check_spec {rnd : Nat → UInt8} {t : Test} {log : List Act} (h : Live rnd t log) {r : CRsp} {k : Case}
    (hk : t.cases[r.transactId]? = some k) :
    (Expected k r → t.check r = .ok ({ t with counter := t.counter + 1 },
      if t.counter + 1 = t.cases.length then .done else .noerror)) ∧
    (¬ Expected k r → t.check r = .ok ({ t with counter := t.counter + 1 }, .error)) := by
  have hmem := List.mem_of_getElem? hk
  unfold Test.check Expected
  simp only [hk]
  by_cases h1 : k.clientId ≠ r.clientId
  · rw [if_pos h1]
    exact ⟨fun h => absurd h.1.symm h1, fun _ => rfl⟩
  rw [if_neg h1]
  by_cases h2 : k.success ≠ r.success
  · rw [if_pos h2]
    exact ⟨fun h => absurd h.2.1.symm h2, fun _ => rfl⟩
  rw [if_neg h2]
  by_cases h3 : k.error ≠ r.error
  · rw [if_pos h3]
    exact ⟨fun h => absurd h.2.2.1.symm h3, fun _ => rfl⟩
  rw [if_neg h3]
  have h1' := Decidable.not_not.1 h1
  have h2' := Decidable.not_not.1 h2
  have h3' := Decidable.not_not.1 h3
  unfold Test.content
  by_cases hg : r.success = true ∧ r.error = 0
  · rw [if_pos hg]
    obtain ⟨b, hb, hb'⟩ := compare_spec (r := r) (h.fits k hmem) (h.regs k hmem) (by rw [h2', hg.1]) (by rw [h3', hg.2])
    rw [hb, Exec.ok_bind]
    constructor
    · intro he
      rw [if_neg (by rw [hb'.2 (he.2.2.2 hg.1 hg.2)]; simp)]
      rfl
    · intro he
      have : b = false := by
        cases b with
        | false => rfl
        | true => exact absurd ⟨h1'.symm, h2'.symm, h3'.symm, fun _ _ => hb'.1 rfl⟩ he
      rw [if_pos this]
      rfl
  · rw [if_neg hg, Exec.ok_bind, if_neg (by simp)]
    refine ⟨fun _ => rfl, fun he => absurd ⟨h1'.symm, h2'.symm, h3'.symm, fun a b => absurd ⟨a, b⟩ hg⟩ he⟩

/-- C60: while the sixteen answers are awaited, an answer that the test case with its number expects is counted and nothing
is sent; any other answer makes the controller release the Modbus component; outside of that time answers are ignored. -/
theorem C60_verdict_partial (rnd : Nat → UInt8) (es : List Ev) (c : Ctl) (log : List Act)
    (h : run rnd Ctl.create [] es = .ok (c, log)) (r : CRsp) (hr : r.transactId < 16) :
    (Running log ∧ Testing log → ∃ t k c', c.modbus = some t ∧ t.cases[r.transactId]? = some k ∧
      (Expected k r → c.step rnd (.modbusClientAduRsp r) = .ok (c', [])) ∧
      (¬ Expected k r → c.step rnd (.modbusClientAduRsp r) = .ok (c', [.modbusReleaseReq]))) ∧
    (¬ (Running log ∧ Testing log) → c.step rnd (.modbusClientAduRsp r) = .ok (c, [])) := by
  have hi := inv_run (inv_create rnd) h
  have hrun := running_run running_create h
  constructor
  · rintro ⟨h1, h2⟩
    cases hm : c.modbus with
    | none => exact absurd hm (hrun.2 h1)
    | some t =>
      have hl := hi.live t hm
      have hst := hl.testing.2 h2
      have hlen := hl.length
      have hk : t.cases[r.transactId]? = some t.cases[r.transactId] := List.getElem?_eq_getElem (by omega)
      obtain ⟨hp, hn⟩ := check_spec hl hk
      by_cases he : Expected t.cases[r.transactId] r
      · by_cases hc : t.counter + 1 = t.cases.length
        · refine ⟨t, _, ⟨some { t with counter := t.counter + 1, st := .setup, armed := true }, c.ua⟩, rfl, hk, fun _ => ?_, fun h => absurd he h⟩
          simp [Ctl.step, Ctl.onTestE, hm, Test.onClientAduRsp, hst, hp he, hc, Test.transit, Test.enter, Test.exit]
        · refine ⟨t, _, ⟨some { t with counter := t.counter + 1 }, c.ua⟩, rfl, hk, fun _ => ?_, fun h => absurd he h⟩
          simp [Ctl.step, Ctl.onTestE, hm, Test.onClientAduRsp, hst, hp he, hc]
      · refine ⟨t, _, ⟨some { t with counter := t.counter + 1, st := .init }, c.ua⟩, rfl, hk, fun h => absurd h he, fun _ => ?_⟩
        simp [Ctl.step, Ctl.onTestE, hm, Test.onClientAduRsp, hst, hn he, Test.transit, Test.enter, Test.exit]
  · intro hnot
    simp only [Ctl.step, Ctl.onTestE]
    cases hm : c.modbus with
    | none => rfl
    | some t =>
      have hl := hi.live t hm
      have hst : t.st ≠ .run := fun e => hnot ⟨hl.running, hl.testing.1 e⟩
      have e : t.onClientAduRsp r = .ok (t, []) := by
        unfold Test.onClientAduRsp
        cases hs : t.st <;> simp [hs] at hst ⊢
      simp only [e, Exec.ok_bind]
      show Exec.ok (({ c with modbus := some t } : Ctl), ([] : List Out)) = _
      rw [← hm]

/-- The answers of a complete run: those that the test cases expect once the requests that write have been served. -/
def goodAnswers (rnd : Nat → UInt8) : List CRsp :=
  (testCases rnd).zipIdx.map fun (c, i) => ⟨c.clientId, i, c.success, c.error,
    if c.success = true ∧ c.error = 0 then
      if c.func = 4 then c.window (c.numItems * 2) else if c.func = 6 then [1, 2] else []
    else []⟩

/-- The forwarded requests of a complete run. -/
def goodRequests (rnd : Nat → UInt8) : List Ev :=
  [.modbusAduReq 0 0 ⟨0, 0x10, 1, 890, 120, 240, randVector rnd 240⟩, .modbusAduReq 0 0 ⟨3, 4, 1, 890, 120, 0, []⟩,
    .modbusAduReq 0 0 ⟨4, 6, 1, 190, 0, 2, randVector rnd 2⟩, .modbusAduReq 0 0 ⟨7, 0x10, 1, 890, 120, 240, randVector rnd 240⟩,
    .modbusAduReq 0 0 ⟨8, 0x10, 1, 256, 1, 2, randVector rnd 2⟩]

/-- Non-vacuity: a complete run in which every answer is expected; nothing is released and the batch is sent twice. -/
example : (match run UInt8.ofNat Ctl.create [] ([.start true, .modbusInitRsp, .modbusConfigRsp] ++ goodRequests UInt8.ofNat ++
      (goodAnswers UInt8.ofNat).map .modbusClientAduRsp ++ [.timer]) with
    | .ok (_, log) => (log.countP isBatch, log.countP isReset, log.countP isAnswer, log.countP isSnd)
    | _ => (0, 0, 0, 0)) = (2, 1, 16, 12) := by
  decide +kernel

/-- Non-vacuity of the second case: without the requests that write, the answer to test case 0 is not expected. -/
example : (match run UInt8.ofNat Ctl.create [] ([.start true, .modbusInitRsp, .modbusConfigRsp,
      .modbusClientAduRsp ⟨0, 0, true, 0, []⟩]) with
    | .ok (_, log) => (log.countP isBatch, log.countP isReset)
    | _ => (0, 0)) = (1, 2) := by
  decide +kernel

/-- C60 is violated: an answer with a number that no test case has is undefined behaviour, at any time the answers are awaited. -/
theorem C60_unknown_number_violated (rnd : Nat → UInt8) (es : List Ev) (c : Ctl) (log : List Act)
    (h : run rnd Ctl.create [] es = .ok (c, log)) (hr : Running log) (ht : Testing log) (r : CRsp) (hn : 16 ≤ r.transactId) :
    c.step rnd (.modbusClientAduRsp r) = .ub := by
  have hi := inv_run (inv_create rnd) h
  have hrun := running_run running_create h
  cases hm : c.modbus with
  | none => exact absurd hm (hrun.2 hr)
  | some t =>
    have hl := hi.live t hm
    have hst := hl.testing.2 ht
    have hk : t.cases[r.transactId]? = none := by
      rw [List.getElem?_eq_none_iff, hl.length]
      exact hn
    simp [Ctl.step, Ctl.onTestE, hm, Test.onClientAduRsp, hst, Test.check, hk]

/-- The answer to test case 1 (a read of 126 registers, which the client refuses to send). -/
def firstAnswer : Ev := .modbusClientAduRsp ⟨0, 1, false, 0, []⟩

theorem step_firstAnswer (rnd : Nat → UInt8) (u : Option USt) (k : Nat) :
    (k + 1 < 16 → Ctl.step rnd ⟨some ⟨.run, testCases rnd, k, false⟩, u⟩ firstAnswer =
      .ok (⟨some ⟨.run, testCases rnd, k + 1, false⟩, u⟩, [])) ∧
    (k + 1 = 16 → Ctl.step rnd ⟨some ⟨.run, testCases rnd, k, false⟩, u⟩ firstAnswer =
      .ok (⟨some ⟨.setup, testCases rnd, k + 1, true⟩, u⟩, [])) := by
  have hc : Test.check ⟨.run, testCases rnd, k, false⟩ ⟨0, 1, false, 0, []⟩ =
      .ok (⟨.run, testCases rnd, k + 1, false⟩, if k + 1 = 16 then .done else .noerror) := rfl
  constructor <;> intro h
  · rw [if_neg (by omega)] at hc
    simp only [firstAnswer, Ctl.step, Ctl.onTestE, Test.onClientAduRsp, hc, Exec.ok_bind]
    rfl
  · rw [if_pos h] at hc
    simp only [firstAnswer, Ctl.step, Ctl.onTestE, Test.onClientAduRsp, hc, Exec.ok_bind]
    rfl

theorem run_firstAnswer (rnd : Nat → UInt8) (u : Option USt) (es : List Ev) : ∀ (n k : Nat) (log : List Act), k + n < 16 →
    run rnd ⟨some ⟨.run, testCases rnd, k, false⟩, u⟩ log (List.replicate n firstAnswer ++ es) =
      run rnd ⟨some ⟨.run, testCases rnd, k + n, false⟩, u⟩ (log ++ List.replicate n (.rcv firstAnswer)) es := by
  intro n
  induction n with
  | zero => intro k log _; simp
  | succ n ih =>
    intro k log h
    rw [List.replicate_succ, List.cons_append]
    simp only [run, (step_firstAnswer rnd u k).1 (by omega), Exec.ok_bind]
    rw [ih (k + 1) _ (by omega)]
    simp [List.replicate_succ, Nat.add_assoc, Nat.add_comm 1 n]

/-- C60 is violated: answers are only counted.  Sixteen copies of the answer to one test case end the run as if all test cases
had been answered, and the next run starts. -/
theorem C60_only_counted_violated (rnd : Nat → UInt8) :
    ∃ c log, run rnd Ctl.create []
        ([.start true, .modbusInitRsp, .modbusConfigRsp] ++ List.replicate 16 firstAnswer ++ [.timer]) = .ok (c, log) ∧
      log.countP isBatch = 2 := by
  let log0 : List Act := [.rcv (.start true), .snd (.modbusInitReq 1 1), .snd .uaSecureChannelInitReq, .snd .uaTransportInitReq,
    .snd .uaServiceInitReq, .rcv .modbusInitRsp, .snd (.modbusConfigReq [⟨0, false, modbusAddr⟩, ⟨0, true, modbusAddr⟩]),
    .rcv .modbusConfigRsp, .snd (.modbusClientAduReq (batch (testCases rnd)))]
  refine ⟨⟨some ⟨.run, testCases rnd, 0, false⟩, some .inited⟩,
    log0 ++ List.replicate 15 (.rcv firstAnswer) ++ [.rcv firstAnswer] ++
      [.rcv .timer, .snd (.modbusClientAduReq (batch (testCases rnd)))], ?_, ?_⟩
  · have h0 : ∀ es, run rnd Ctl.create [] ([.start true, .modbusInitRsp, .modbusConfigRsp] ++ es) =
        run rnd ⟨some ⟨.run, testCases rnd, 0, false⟩, some .inited⟩ log0 es := fun _ => rfl
    rw [List.append_assoc, h0, show List.replicate 16 firstAnswer = List.replicate 15 firstAnswer ++ [firstAnswer] from rfl,
      List.append_assoc, run_firstAnswer rnd _ _ 15 0 _ (by decide), List.singleton_append]
    simp only [run, (step_firstAnswer rnd _ _).2 rfl, Exec.ok_bind]
    rfl
  · rfl

/-! ## Definedness -/

/-- Start and stop alternate as they should: a stop only after a start. -/
def Alternates : Bool → List Ev → Prop
  | _, [] => True
  | _, .start true :: es => Alternates true es
  | on, .stop :: es => on = true ∧ Alternates false es
  | on, _ :: es => Alternates on es

/-- A server request whose number is that of a test case and whose registers exist. -/
def InRange (q : FwdReq) : Prop :=
  q.transactId < 16 ∧
  (q.func = 3 ∨ q.func = 4 → q.startItem * 2 < 2048 ∧ q.startItem * 2 + q.numItems * 2 % 65536 ≤ 2048) ∧
  (q.func = 6 ∨ q.func = 16 → q.startItem * 2 < 2048 ∧ q.startItem * 2 + q.data.length ≤ 2048)

theorem serve_defined {rnd : Nat → UInt8} {t : Test} {log : List Act} (h : Live rnd t log) {q : FwdReq} (hq : InRange q)
    (sid ses : Nat) : ∃ x, t.serve sid ses q = .ok x := by
  have hlen := h.length
  have hq1 := hq.1
  have hk : t.cases[q.transactId]? = some t.cases[q.transactId] := List.getElem?_eq_getElem (by omega)
  have hl := h.regs _ (List.mem_of_getElem? hk)
  unfold Test.serve
  rw [hk]
  simp only
  by_cases h1 : q.func = fReadHolding ∨ q.func = fReadInput
  · rw [if_pos h1]
    have := hq.2.1 h1
    rw [slice_ok (by omega) (by omega)]
    exact ⟨_, rfl⟩
  rw [if_neg h1]
  by_cases h2 : q.func = fPresetSingle
  · rw [if_pos h2]
    have := hq.2.2 (.inl h2)
    unfold patch
    rw [if_pos ⟨by omega, by omega⟩]
    exact ⟨_, rfl⟩
  rw [if_neg h2]
  by_cases h3 : q.func = fPresetMulti
  · rw [if_pos h3]
    have := hq.2.2 (.inr h3)
    unfold patch
    rw [if_pos ⟨by omega, by omega⟩]
    exact ⟨_, rfl⟩
  · rw [if_neg h3]
    exact ⟨_, rfl⟩

theorem step_defined {rnd : Nat → UInt8} {c : Ctl} {log : List Act} (h : Inv rnd c log) {e : Ev}
    (hs : e = .stop → c.modbus ≠ none) (ha : ∀ r, e = .modbusClientAduRsp r → r.transactId < 16)
    (hq : ∀ sid ses q, e = .modbusAduReq sid ses q → InRange q) : ∃ x, c.step rnd e = .ok x := by
  have onE : ∀ f : Test → Exec (Test × List Out), (∀ t, c.modbus = some t → ∃ x, f t = .ok x) → ∃ x, c.onTestE f = .ok x := by
    intro f hf
    unfold Ctl.onTestE
    cases hm : c.modbus with
    | none => exact ⟨_, rfl⟩
    | some t =>
      obtain ⟨x, hx⟩ := hf t hm
      simp only [hx, Exec.ok_bind]
      exact ⟨_, rfl⟩
  cases e with
  | start b => cases b <;> exact ⟨_, rfl⟩
  | stop =>
    cases hm : c.modbus with
    | none => exact absurd hm (hs rfl)
    | some t =>
      cases hu : c.ua with
      | none => rw [h.both.1 hu] at hm; cases hm
      | some u => exact ⟨_, by simp only [Ctl.step, hm, hu]; rfl⟩
  | modbusInitRsp | modbusReleaseRsp | modbusConfigRsp | timer => exact ⟨_, rfl⟩
  | modbusClientAduRsp r =>
    refine onE _ fun t ht => ?_
    have hl := h.live t ht
    have hr := ha r rfl
    have hlen := hl.length
    have hk : t.cases[r.transactId]? = some t.cases[r.transactId] := List.getElem?_eq_getElem (by omega)
    obtain ⟨h1, h2⟩ := check_spec hl hk
    unfold Test.onClientAduRsp
    cases t.st
    case run =>
      by_cases he : Expected t.cases[r.transactId] r
      · rw [h1 he, Exec.ok_bind]
        simp only
        split <;> exact ⟨_, rfl⟩
      · rw [h2 he, Exec.ok_bind]
        exact ⟨_, rfl⟩
    all_goals exact ⟨_, rfl⟩
  | modbusAduReq sid ses q =>
    refine onE _ fun t ht => ?_
    unfold Test.onAduReq
    cases t.st
    case run => exact serve_defined (h.live t ht) (hq sid ses q rfl) sid ses
    all_goals exact ⟨_, rfl⟩
  | ua m =>
    simp only [Ctl.step]
    cases c.ua <;> exact ⟨_, rfl⟩

/-- C60: no undefined behaviour when stop requests come only after start requests, answers carry the number of a test case,
and the requests of the server are in range. -/
theorem C60_defined_partial (rnd : Nat → UInt8) (es : List Ev) (hs : Alternates false es)
    (ha : ∀ r, .modbusClientAduRsp r ∈ es → r.transactId < 16) (hq : ∀ sid ses q, .modbusAduReq sid ses q ∈ es → InRange q) :
    ∃ c log, run rnd Ctl.create [] es = .ok (c, log) := by
  have gen : ∀ (es : List Ev) (c : Ctl) (log : List Act) (on : Bool), Inv rnd c log → (on = true → c.modbus ≠ none) →
      Alternates on es → (∀ r, .modbusClientAduRsp r ∈ es → r.transactId < 16) →
      (∀ sid ses q, .modbusAduReq sid ses q ∈ es → InRange q) → ∃ c' log', run rnd c log es = .ok (c', log') := by
    intro es
    induction es with
    | nil => intro c log on _ _ _ _ _; exact ⟨c, log, rfl⟩
    | cons e es ih =>
      intro c log on hi hon hs ha hq
      have hstop : e = .stop → c.modbus ≠ none := by
        intro he
        subst he
        exact hon hs.1
      obtain ⟨⟨c1, o⟩, hx⟩ := step_defined hi hstop (fun r hr => ha r (by simp [hr])) (fun a b q h => hq a b q (by simp [h]))
      have hm := step_modbus hx
      simp only [run, hx, Exec.ok_bind]
      have hi' := inv_step hi hx
      have ha' : ∀ r, .modbusClientAduRsp r ∈ es → r.transactId < 16 := fun r h => ha r (by simp [h])
      have hq' : ∀ sid ses q, .modbusAduReq sid ses q ∈ es → InRange q := fun a b q h => hq a b q (by simp [h])
      by_cases h1 : e = .start true
      · subst h1
        exact ih _ _ true hi' (fun _ => hm.2 (.inl rfl)) hs ha' hq'
      by_cases h2 : e = .stop
      · subst h2
        exact ih _ _ false hi' (by simp) hs.2 ha' hq'
      · refine ih _ _ on hi' (fun h => hm.2 (.inr ⟨hon h, h2⟩)) ?_ ha' hq'
        cases e with
        | start b =>
          cases b
          · exact hs
          · exact absurd rfl h1
        | stop => exact absurd rfl h2
        | _ => exact hs
  exact gen es _ [] false (inv_create rnd) (by simp) hs ha hq

/-- Non-vacuity: a run with a forwarded request, an expected answer, a stop, and a second start. -/
example : Alternates false [.start true, .modbusInitRsp, .modbusConfigRsp, .modbusAduReq 0 3 ⟨0, 4, 1, 890, 120, 0, []⟩,
      .modbusClientAduRsp ⟨0, 1, false, 0, []⟩, .stop, .start true] ∧ InRange ⟨0, 4, 1, 890, 120, 0, []⟩ := by
  refine ⟨by simp [Alternates], by decide, by decide, by decide⟩

/-! ## The batch -/

open AduLayout in
/-- C60: the batch fits in the 4096 bytes of a message, and a receiver reads from it, item by item, the test cases in their
order, each with its index as transaction number, and no field is cut. -/
theorem C60_batch (rnd : Nat → UInt8) (m : Mem) :
    let b := fill m 0 (batch (testCases rnd))
    size b 16 = 1008 ∧ ∀ k < 16, ∃ c, (testCases rnd)[k]? = some c ∧
      (readItem b (itemPtr b k)).clientId.toNat = c.clientId ∧ (readItem b (itemPtr b k)).transactId.toNat = k ∧
      (readItem b (itemPtr b k)).func.toNat = c.func ∧ (readItem b (itemPtr b k)).addr.toNat = c.addr ∧
      (readItem b (itemPtr b k)).startItem.toNat = c.startItem ∧ (readItem b (itemPtr b k)).numItems.toNat = c.numItems ∧
      (readItem b (itemPtr b k)).data = c.data := by
  have hl : ∀ it ∈ batch (testCases rnd), it.data.length < 65536 := by
    intro it h
    simp only [batch, testCases, List.zipIdx_cons, List.zipIdx_nil, List.map_cons, List.map_nil, List.mem_cons,
      List.not_mem_nil, or_false] at h
    rcases h with h | h | h | h | h | h | h | h | h | h | h | h | h | h | h | h <;> subst h <;>
      simp [batchItem, randVector]
  intro b
  have rd : ∀ k (hk : k < (batch (testCases rnd)).length), readItem b (itemPtr b k) = (batch (testCases rnd))[k] :=
    C07_fill_read_back m _ hl
  have hn : (batch (testCases rnd)).length = 16 := rfl
  have nb : ∀ k (hk : k < (batch (testCases rnd)).length), readNumBytes b (itemPtr b k) = (batch (testCases rnd))[k].data.length := by
    intro k hk
    rw [← rd k hk]
    simp [readItem, memRead]
  constructor
  · have hd : (batch (testCases rnd)).map (fun it => it.data.length) = [240, 0, 0, 0, 2, 2, 0, 240, 2, 4, 0, 0, 0, 0, 0, 2] := by
      simp [batch, testCases, batchItem, randVector]
    have st : ∀ k n, k < 16 → [240, 0, 0, 0, 2, 2, 0, 240, 2, 4, 0, 0, 0, 0, 0, 2][k]? = some n →
        itemPtr b (k + 1) = itemPtr b k + (35 + n) / 16 * 16 := by
      intro k n hk h
      rw [← hd, List.getElem?_map, List.getElem?_eq_getElem (by omega), Option.map_some, Option.some.injEq] at h
      rw [itemPtr, stride_eq, nb k (by omega), h]
    unfold size
    rw [sizeLoop_eq]
    have h0 : itemPtr b 0 = 0 := rfl
    have h1 : itemPtr b 1 = itemPtr b 0 + 272 := st 0 240 (by decide) rfl
    have h2 : itemPtr b 2 = itemPtr b 1 + 32 := st 1 0 (by decide) rfl
    have h3 : itemPtr b 3 = itemPtr b 2 + 32 := st 2 0 (by decide) rfl
    have h4 : itemPtr b 4 = itemPtr b 3 + 32 := st 3 0 (by decide) rfl
    have h5 : itemPtr b 5 = itemPtr b 4 + 32 := st 4 2 (by decide) rfl
    have h6 : itemPtr b 6 = itemPtr b 5 + 32 := st 5 2 (by decide) rfl
    have h7 : itemPtr b 7 = itemPtr b 6 + 32 := st 6 0 (by decide) rfl
    have h8 : itemPtr b 8 = itemPtr b 7 + 272 := st 7 240 (by decide) rfl
    have h9 : itemPtr b 9 = itemPtr b 8 + 32 := st 8 2 (by decide) rfl
    have h10 : itemPtr b 10 = itemPtr b 9 + 32 := st 9 4 (by decide) rfl
    have h11 : itemPtr b 11 = itemPtr b 10 + 32 := st 10 0 (by decide) rfl
    have h12 : itemPtr b 12 = itemPtr b 11 + 32 := st 11 0 (by decide) rfl
    have h13 : itemPtr b 13 = itemPtr b 12 + 32 := st 12 0 (by decide) rfl
    have h14 : itemPtr b 14 = itemPtr b 13 + 32 := st 13 0 (by decide) rfl
    have h15 : itemPtr b 15 = itemPtr b 14 + 32 := st 14 0 (by decide) rfl
    have h16 : itemPtr b 16 = itemPtr b 15 + 32 := st 15 2 (by decide) rfl
    show 16 + itemPtr b 16 = 1008
    omega
  · intro k hk
    have hlc : (testCases rnd).length = 16 := rfl
    refine ⟨(testCases rnd)[k], List.getElem?_eq_getElem (by omega), ?_⟩
    rw [rd k (by omega)]
    have h : ∀ k (hk : k < 16), k = 0 ∨ k = 1 ∨ k = 2 ∨ k = 3 ∨ k = 4 ∨ k = 5 ∨ k = 6 ∨ k = 7 ∨ k = 8 ∨ k = 9 ∨ k = 10 ∨ k = 11 ∨ k = 12 ∨
        k = 13 ∨ k = 14 ∨ k = 15 := by omega
    rcases h k hk with h | h | h | h | h | h | h | h | h | h | h | h | h | h | h | h <;> subst h <;>
      exact ⟨rfl, rfl, rfl, rfl, rfl, rfl, rfl⟩

end Uscada.Controller
