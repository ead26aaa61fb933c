import Verif.AduLayoutProps
import Verif.Controller
import Verif.History
/-!
# C60: order of what the controller sends

The specification looks at the log of what the component received and sent and at nothing else.
-/

namespace Uscada.Controller

open Uscada Uscada.Modbus

/-! ## Specification -/

/-- The entries after the last one that satisfies `p` (all entries if there is none). -/
def since (p : Act → Bool) (log : List Act) : List Act := (log.reverse.takeWhile fun a => !p a).reverse

def isReset : Act → Bool
  | .rcv (.start true) => true
  | .snd .modbusReleaseReq => true
  | _ => false

def isConfig : Act → Bool
  | .snd (.modbusConfigReq _) => true
  | _ => false

def isConfigRsp : Act → Bool
  | .rcv .modbusConfigRsp => true
  | _ => false

def isBatch : Act → Bool
  | .snd (.modbusClientAduReq _) => true
  | _ => false

def isAnswer : Act → Bool
  | .rcv (.modbusClientAduRsp _) => true
  | _ => false

def isSnd : Act → Bool
  | .snd _ => true
  | _ => false

def isStop : Act → Bool
  | .rcv .stop => true
  | _ => false

/-- Answers to client requests received since the last batch was sent. -/
def answers (log : List Act) : Nat := (since isBatch log).countP isAnswer

/-- A configuration request was sent, and the last one was answered. -/
def Configured (s : List Act) : Prop := (∃ a ∈ s, isConfig a = true) ∧ ∃ b ∈ since isConfig s, isConfigRsp b = true

/-- A configuration request was sent, and the last one was not answered. -/
def Configuring (s : List Act) : Prop := (∃ a ∈ s, isConfig a = true) ∧ ∀ b ∈ since isConfig s, isConfigRsp b = false

/-- A start request was honoured, and no stop request came after it, except perhaps as the last thing received. -/
def Started (log : List Act) : Prop :=
  ∃ x y, log = x ++ .rcv (.start true) :: y ∧ ∀ u v, y = u ++ .rcv .stop :: v → ∀ a ∈ v, isSnd a = true

/-- The last thing received is `e`. -/
def ReactsTo (e : Ev) (log : List Act) : Prop := ∃ x y, log = x ++ .rcv e :: y ∧ ∀ a ∈ y, isSnd a = true

/-- What may be sent when. -/
def Allowed (rnd : Nat → UInt8) (pre : List Act) : Act → Prop
  | .rcv _ => True
  | .snd o => Started pre ∧
    match o with
    | .modbusInitReq s c => ReactsTo (.start true) pre ∧ s = 1 ∧ c = 1
    | .modbusReleaseReq => ReactsTo .stop pre ∨ ∃ r, ReactsTo (.modbusClientAduRsp r) pre
    | .modbusConfigReq items =>
        ReactsTo .modbusInitRsp pre ∧ (∀ a ∈ since isReset pre, isConfig a = false) ∧
          items = [⟨0, false, modbusAddr⟩, ⟨0, true, modbusAddr⟩]
    | .modbusClientAduReq items =>
        items = batch (testCases rnd) ∧ Configured (since isReset pre) ∧
          ((∀ a ∈ since isReset pre, isBatch a = false) ∨ ReactsTo .timer pre ∧ 16 ≤ answers pre)
    | .modbusAduRsp sid ses r => ∃ q, ReactsTo (.modbusAduReq sid ses q) pre ∧ r.transactId = q.transactId
    | .uaSecureChannelInitReq | .uaTransportInitReq | .uaServiceInitReq => ReactsTo (.start true) pre
    | .uaSecureChannelConfigReq => ReactsTo (.ua .secureChannelInitRsp) pre
    | .uaTransportConfigReq addr => ReactsTo (.ua .transportInitRsp) pre ∧ addr = uaAddr
    | .uaServiceConfigReq => ReactsTo (.ua .serviceInitRsp) pre
    | .uaSecureChannelReleaseReq | .uaTransportReleaseReq | .uaServiceReleaseReq => ReactsTo .stop pre

/-! ## Lemmas about logs -/

theorem since_snoc (p : Act → Bool) (l : List Act) (a : Act) :
    since p (l ++ [a]) = if p a then [] else since p l ++ [a] := by
  unfold since
  rw [List.reverse_append, List.reverse_singleton, List.singleton_append, List.takeWhile_cons]
  cases h : p a <;> simp

theorem since_snoc_true {p : Act → Bool} {a : Act} (h : p a = true) (l : List Act) : since p (l ++ [a]) = [] := by
  rw [since_snoc, if_pos h]

theorem since_snoc_false {p : Act → Bool} {a : Act} (h : p a = false) (l : List Act) :
    since p (l ++ [a]) = since p l ++ [a] := by
  rw [since_snoc, h]; rfl

theorem answers_snoc_batch {a : Act} (h : isBatch a = true) (l : List Act) : answers (l ++ [a]) = 0 := by
  unfold answers
  rw [since_snoc_true h]; rfl

theorem answers_snoc {a : Act} (h : isBatch a = false) (l : List Act) :
    answers (l ++ [a]) = answers l + if isAnswer a then 1 else 0 := by
  unfold answers
  rw [since_snoc_false h, List.countP_append, List.countP_singleton]

theorem Configured.snoc {s : List Act} (h : Configured s) {a : Act} (ha : isConfig a = false) : Configured (s ++ [a]) := by
  obtain ⟨⟨x, hx, hx'⟩, b, hb, hb'⟩ := h
  refine ⟨⟨x, by simp [hx], hx'⟩, b, ?_, hb'⟩
  rw [since_snoc_false ha]
  simp [hb]

theorem Configuring.snoc {s : List Act} (h : Configuring s) {a : Act} (ha : isConfigRsp a = false) (hc : isConfig a = false) :
    Configuring (s ++ [a]) := by
  obtain ⟨⟨x, hx, hx'⟩, hb⟩ := h
  refine ⟨⟨x, by simp [hx], hx'⟩, ?_⟩
  rw [since_snoc_false hc]
  intro b h
  rcases List.mem_append.1 h with h | h
  · exact hb b h
  · rw [List.mem_singleton.1 h]; exact ha

theorem Configuring.start (s : List Act) {a : Act} (hc : isConfig a = true) : Configuring (s ++ [a]) :=
  ⟨⟨a, by simp, hc⟩, by rw [since_snoc_true hc]; simp⟩

theorem Configuring.answered {s : List Act} (h : Configuring s) {a : Act} (ha : isConfigRsp a = true) (hc : isConfig a = false) :
    Configured (s ++ [a]) := by
  obtain ⟨⟨x, hx, hx'⟩, _⟩ := h
  exact ⟨⟨x, by simp [hx], hx'⟩, a, by rw [since_snoc_false hc]; simp, ha⟩

theorem Configured.not_configuring {s : List Act} (h : Configured s) : ¬ Configuring s := by
  obtain ⟨_, b, hb, hb'⟩ := h
  intro ⟨_, hc⟩
  rw [hc b hb] at hb'
  cases hb'

theorem none_snoc {p : Act → Bool} {s : List Act} (h : ∀ a ∈ s, p a = false) {a : Act} (ha : p a = false) :
    ∀ b ∈ s ++ [a], p b = false := by
  intro b hb
  rcases List.mem_append.1 hb with hb | hb
  · exact h b hb
  · rw [List.mem_singleton.1 hb]; exact ha

theorem ReactsTo.here (e : Ev) (log : List Act) : ReactsTo e (log ++ [.rcv e]) := ⟨log, [], rfl, by simp⟩

theorem ReactsTo.snd {e : Ev} {log : List Act} (h : ReactsTo e log) (o : Out) : ReactsTo e (log ++ [.snd o]) := by
  obtain ⟨x, y, he, hy⟩ := h
  refine ⟨x, y ++ [.snd o], by simp [he], ?_⟩
  intro a ha
  rcases List.mem_append.1 ha with ha | ha
  · exact hy a ha
  · rw [List.mem_singleton.1 ha]; rfl

/-- Started and not stopped. -/
def Running (log : List Act) : Prop := ∃ x y, log = x ++ .rcv (.start true) :: y ∧ ∀ a ∈ y, isStop a = false

theorem Running.snoc {log : List Act} (h : Running log) {a : Act} (ha : isStop a = false) : Running (log ++ [a]) := by
  obtain ⟨x, y, he, hy⟩ := h
  refine ⟨x, y ++ [a], by simp [he], ?_⟩
  intro b hb
  rcases List.mem_append.1 hb with hb | hb
  · exact hy b hb
  · rw [List.mem_singleton.1 hb]; exact ha

theorem Running.started {log : List Act} (h : Running log) : Started log := by
  obtain ⟨x, y, he, hy⟩ := h
  refine ⟨x, y, he, ?_⟩
  intro u v e
  have := hy (.rcv .stop) (by simp [e])
  cases this

theorem Started.snd {log : List Act} (h : Started log) (o : Out) : Started (log ++ [.snd o]) := by
  obtain ⟨x, y, he, hy⟩ := h
  refine ⟨x, y ++ [.snd o], by simp [he], ?_⟩
  intro u v e a ha
  rcases List.eq_nil_or_concat v with hv | ⟨v', b, hv⟩
  · rw [hv] at ha; cases ha
  · rw [hv, List.concat_eq_append, ← List.cons_append, ← List.append_assoc] at e
    obtain ⟨e1, e2⟩ := List.append_inj' e rfl
    rw [hv, List.concat_eq_append] at ha
    rcases List.mem_append.1 ha with ha | ha
    · exact hy u v' e1 a ha
    · rw [List.mem_singleton.1 ha]
      injection e2 with e2 _
      rw [← e2]; rfl

theorem Running.stopped {log : List Act} (h : Running log) : Started (log ++ [.rcv .stop]) := by
  obtain ⟨x, y, he, hy⟩ := h
  refine ⟨x, y ++ [.rcv .stop], by simp [he], ?_⟩
  intro u v e a ha
  rcases List.eq_nil_or_concat v with hv | ⟨v', b, hv⟩
  · rw [hv] at ha; cases ha
  · rw [hv, List.concat_eq_append, ← List.cons_append, ← List.append_assoc] at e
    obtain ⟨e1, _⟩ := List.append_inj' e rfl
    have := hy (.rcv .stop) (by simp [e1])
    cases this

/-! ## Invariant -/

/-- A test case without its registers. -/
def fixed (c : Case) : Case := { c with regs := [] }

theorem batch_fixed (cs : List Case) : batch cs = batch (cs.map fixed) := by
  unfold batch
  rw [List.zipIdx_map, List.map_map]
  rfl

structure Live (rnd : Nat → UInt8) (t : Test) (log : List Act) : Prop where
  running : Running log
  reqs : t.cases.map fixed = (testCases rnd).map fixed
  regs : ∀ c ∈ t.cases, c.regs.length = 2048
  armed : t.armed = decide (t.st = .setup)
  st : match t.st with
    | .init => (∀ a ∈ since isReset log, isConfig a = false) ∧ ∀ a ∈ since isReset log, isBatch a = false
    | .configure => Configuring (since isReset log) ∧ ∀ a ∈ since isReset log, isBatch a = false
    | .run => Configured (since isReset log) ∧ answers log = t.counter ∧ t.counter < 16
    | .setup => Configured (since isReset log) ∧ 16 ≤ answers log

structure Inv (rnd : Nat → UInt8) (c : Ctl) (log : List Act) : Prop where
  hist : AllOk (Allowed rnd) log
  both : c.ua = none ↔ c.modbus = none
  ua : ∀ u, c.ua = some u → u = .inited
  live : ∀ t, c.modbus = some t → Live rnd t log

/-- An entry that changes nothing for the invariant. -/
def quiet (a : Act) : Bool := !(isReset a || isConfig a || isConfigRsp a || isBatch a || isAnswer a || isStop a)

theorem Live.quiet {rnd : Nat → UInt8} {t : Test} {log : List Act} (h : Live rnd t log) {a : Act}
    (ha : Controller.quiet a = true) : Live rnd t (log ++ [a]) := by
  simp only [Controller.quiet, Bool.not_eq_true', Bool.or_eq_false_iff] at ha
  obtain ⟨⟨⟨⟨⟨h1, h2⟩, h3⟩, h4⟩, h5⟩, h6⟩ := ha
  refine ⟨h.running.snoc h6, h.reqs, h.regs, h.armed, ?_⟩
  have hst := h.st
  rw [since_snoc_false h1]
  cases hs : t.st <;> rw [hs] at hst
  · exact ⟨none_snoc hst.1 h2, none_snoc hst.2 h4⟩
  · exact ⟨hst.1.snoc h3 h2, none_snoc hst.2 h4⟩
  · refine ⟨hst.1.snoc h2, ?_, hst.2.2⟩
    rw [answers_snoc h4, h5]; exact hst.2.1
  · refine ⟨hst.1.snoc h2, ?_⟩
    rw [answers_snoc h4, h5]; exact hst.2

theorem _root_.Uscada.AllOk.rcv {rnd : Nat → UInt8} {log : List Act} (h : AllOk (Allowed rnd) log) (e : Ev) :
    AllOk (Allowed rnd) (log ++ [.rcv e]) := h.snoc trivial

theorem testCases_regs (rnd : Nat → UInt8) : ∀ c ∈ testCases rnd, c.regs.length = 2048 := by
  intro c hc
  simp only [testCases, List.mem_cons, List.not_mem_nil, or_false] at hc
  rcases hc with h | h | h | h | h | h | h | h | h | h | h | h | h | h | h | h <;> (subst h; simp [randVector])

theorem Live.length {rnd : Nat → UInt8} {t : Test} {log : List Act} (h : Live rnd t log) : t.cases.length = 16 := by
  have := congrArg List.length h.reqs
  simpa [testCases] using this

theorem Live.batch {rnd : Nat → UInt8} {t : Test} {log : List Act} (h : Live rnd t log) :
    batch t.cases = batch (testCases rnd) := by
  rw [batch_fixed, h.reqs, ← batch_fixed]

theorem Live.create (rnd : Nat → UInt8) (log : List Act) : Live rnd (Test.create rnd) (log ++ [.rcv (.start true)]) :=
  ⟨⟨log, [], rfl, by simp⟩, rfl, testCases_regs rnd, rfl, by
    show (∀ a ∈ since isReset _, _) ∧ _
    rw [since_snoc_true rfl]
    simp⟩

theorem check_cases {t t' : Test} {r : CRsp} {v : Verdict} (h : t.check r = .ok (t', v)) :
    t' = { t with counter := t.counter + 1 } ∧ (v = .noerror → t.counter + 1 ≠ t.cases.length) ∧
      (v = .done → t.counter + 1 = t.cases.length) := by
  unfold Test.check at h
  simp only at h
  split at h
  · cases h
  · rename_i c hc
    have fin : ∀ {w : Verdict}, (Exec.ok ({ t with counter := t.counter + 1 }, w) : Exec (Test × Verdict)) = .ok (t', v) →
        (w = .noerror → t.counter + 1 ≠ t.cases.length) → (w = .done → t.counter + 1 = t.cases.length) →
        t' = { t with counter := t.counter + 1 } ∧ (v = .noerror → t.counter + 1 ≠ t.cases.length) ∧
          (v = .done → t.counter + 1 = t.cases.length) := by
      intro w e h1 h2
      injection e with e
      injection e with e1 e2
      subst e1; subst e2
      exact ⟨rfl, h1, h2⟩
    split at h
    · exact fin h (by simp) (by simp)
    split at h
    · exact fin h (by simp) (by simp)
    split at h
    · exact fin h (by simp) (by simp)
    rw [Exec.bind_eq_ok] at h
    obtain ⟨g, _, h⟩ := h
    split at h
    · exact fin h (by simp) (by simp)
    · refine fin h ?_ ?_
      · intro hw e
        rw [if_pos e] at hw
        cases hw
      · intro hw
        by_cases e : t.counter + 1 = t.cases.length
        · exact e
        · rw [if_neg e] at hw
          cases hw

theorem patch_length {v v' : List UInt8} {off : Nat} {b : List UInt8} (h : patch v off b = .ok v') : v'.length = v.length := by
  unfold patch at h
  split at h
  · injection h with h
    subst h
    simp
    omega
  · cases h

theorem set_fixed {cs : List Case} {i : Nat} {c : Case} (h : cs[i]? = some c) (regs : List UInt8) :
    (cs.set i { c with regs }).map fixed = cs.map fixed := by
  rw [List.map_set]
  apply List.ext_getElem?
  intro j
  rw [List.getElem?_set]
  split
  · rename_i e
    subst e
    rw [List.getElem?_map, h]
    obtain ⟨hi, _⟩ := List.getElem?_eq_some_iff.1 h
    simp [hi, fixed]
  · rfl

/-- What serving a request leaves: the requests of the test cases, the sizes, everything else. -/
theorem serve_cases {t t' : Test} {sid ses : Nat} {q : FwdReq} {o : List Out} (h : t.serve sid ses q = .ok (t', o)) :
    (∃ r : AppRsp, o = [.modbusAduRsp sid ses r] ∧ r.transactId = q.transactId) ∧
      t'.cases.map fixed = t.cases.map fixed ∧
      ((∀ c ∈ t.cases, c.regs.length = 2048) → ∀ c ∈ t'.cases, c.regs.length = 2048) ∧
      t'.st = t.st ∧ t'.armed = t.armed ∧ t'.counter = t.counter := by
  unfold Test.serve at h
  split at h
  · cases h
  · rename_i c hc
    have setc : ∀ {regs : List UInt8} {off : Nat} {b : List UInt8}, patch c.regs off b = .ok regs →
        (∀ d ∈ t.cases, d.regs.length = 2048) → ∀ d ∈ t.cases.set q.transactId { c with regs }, d.regs.length = 2048 := by
      intro regs off b hp hl d hd
      rcases List.mem_or_eq_of_mem_set hd with hd | hd
      · exact hl d hd
      · subst hd
        show regs.length = 2048
        rw [patch_length hp]
        exact hl c (List.mem_of_getElem? hc)
    simp only at h
    split at h
    · rw [Exec.bind_eq_ok] at h
      obtain ⟨d, _, h⟩ := h
      injection h with h
      injection h with h1 h2
      subst h1; subst h2
      exact ⟨⟨_, rfl, rfl⟩, rfl, id, rfl, rfl, rfl⟩
    split at h
    · rw [Exec.bind_eq_ok] at h
      obtain ⟨d, hp, h⟩ := h
      injection h with h
      injection h with h1 h2
      subst h1; subst h2
      exact ⟨⟨_, rfl, rfl⟩, set_fixed hc d, setc hp, rfl, rfl, rfl⟩
    split at h
    · rw [Exec.bind_eq_ok] at h
      obtain ⟨d, hp, h⟩ := h
      injection h with h
      injection h with h1 h2
      subst h1; subst h2
      exact ⟨⟨_, rfl, rfl⟩, set_fixed hc d, setc hp, rfl, rfl, rfl⟩
    · injection h with h
      injection h with h1 h2
      subst h1; subst h2
      exact ⟨⟨_, rfl, rfl⟩, rfl, id, rfl, rfl, rfl⟩

theorem snd1 (log : List Act) (e : Ev) (o : Out) : log ++ .rcv e :: [o].map .snd = log ++ [.rcv e] ++ [.snd o] := by simp

theorem snd0 (log : List Act) (e : Ev) : log ++ .rcv e :: ([] : List Out).map .snd = log ++ [.rcv e] := rfl

theorem inv_start {rnd : Nat → UInt8} {c : Ctl} {log : List Act} (h : Inv rnd c log) :
    Inv rnd ⟨some (Test.create rnd), some .inited⟩ (log ++ .rcv (.start true) ::
      [Out.modbusInitReq 1 1, .uaSecureChannelInitReq, .uaTransportInitReq, .uaServiceInitReq].map .snd) := by
  have hr := ReactsTo.here (.start true) log
  have hl := Live.create rnd log
  have hs := hl.running.started
  have e : log ++ .rcv (.start true) ::
      [Out.modbusInitReq 1 1, .uaSecureChannelInitReq, .uaTransportInitReq, .uaServiceInitReq].map .snd =
      log ++ [.rcv (.start true)] ++ [.snd (.modbusInitReq 1 1)] ++ [.snd .uaSecureChannelInitReq] ++
        [.snd .uaTransportInitReq] ++ [.snd .uaServiceInitReq] := by simp
  rw [e]
  refine ⟨?_, by simp, by simp, ?_⟩
  · refine ((((h.hist.rcv _).snoc ?_).snoc ?_).snoc ?_).snoc ?_
    · exact ⟨hs, hr, rfl, rfl⟩
    · exact ⟨hs.snd _, hr.snd _⟩
    · exact ⟨(hs.snd _).snd _, (hr.snd _).snd _⟩
    · exact ⟨((hs.snd _).snd _).snd _, ((hr.snd _).snd _).snd _⟩
  · intro t ht
    injection ht with ht
    subst ht
    exact (((hl.quiet rfl).quiet rfl).quiet rfl).quiet rfl

theorem inv_stop {rnd : Nat → UInt8} {c : Ctl} {log : List Act} (h : Inv rnd c log) {t : Test} (ht : c.modbus = some t) :
    Inv rnd ⟨none, none⟩ (log ++ .rcv .stop :: (t.onStop.2 ++ USt.inited.onStop.2).map .snd) := by
  have hr := ReactsTo.here .stop log
  have hs := (h.live t ht).running.stopped
  refine ⟨?_, by simp, by simp, by simp⟩
  have three : ∀ l : List Act, AllOk (Allowed rnd) l → Started l → ReactsTo .stop l →
      AllOk (Allowed rnd) (l ++ USt.inited.onStop.2.map .snd) := by
    intro l hl hs hr
    have e : l ++ USt.inited.onStop.2.map .snd =
        l ++ [.snd .uaSecureChannelReleaseReq] ++ [.snd .uaTransportReleaseReq] ++ [.snd .uaServiceReleaseReq] := by
      simp [USt.onStop]
    rw [e]
    refine ((hl.snoc ?_).snoc ?_).snoc ?_
    · exact ⟨hs, hr⟩
    · exact ⟨hs.snd _, hr.snd _⟩
    · exact ⟨(hs.snd _).snd _, (hr.snd _).snd _⟩
  have ho : t.onStop.2 = [] ∨ t.onStop.2 = [.modbusReleaseReq] := by
    unfold Test.onStop
    cases hst : t.st <;> simp [Test.transit, Test.enter, hst]
  have e : ∀ o : List Out, log ++ .rcv .stop :: (o ++ USt.inited.onStop.2).map .snd =
      (log ++ [.rcv .stop] ++ o.map .snd) ++ USt.inited.onStop.2.map .snd := by
    intro o; simp
  rw [e]
  rcases ho with ho | ho <;> rw [ho]
  · rw [List.map_nil, List.append_nil]
    exact three _ (h.hist.rcv _) hs hr
  · refine three _ ((h.hist.rcv _).snoc ?_) (hs.snd _) (hr.snd _)
    exact ⟨hs, .inl hr⟩

/-- The received entry changes nothing and nothing is sent. -/
theorem inv_quiet {rnd : Nat → UInt8} {c : Ctl} {log : List Act} (h : Inv rnd c log) {e : Ev} (he : quiet (.rcv e) = true) :
    Inv rnd c (log ++ .rcv e :: ([] : List Out).map .snd) := by
  rw [snd0]
  exact ⟨h.hist.rcv e, h.both, h.ua, fun t ht => (h.live t ht).quiet he⟩

/-- The test controller is replaced and at most one message is sent. -/
theorem inv_test {rnd : Nat → UInt8} {c : Ctl} {log : List Act} (h : Inv rnd c log) {t t' : Test} (ht : c.modbus = some t)
    {e : Ev} (o : Out) (ha : Allowed rnd (log ++ [.rcv e]) (.snd o)) (hl : Live rnd t' (log ++ [.rcv e] ++ [.snd o])) :
    Inv rnd { c with modbus := some t' } (log ++ .rcv e :: [o].map .snd) := by
  rw [snd1]
  refine ⟨(h.hist.rcv e).snoc ha, ?_, h.ua, ?_⟩
  · have := h.both
    simp [ht] at this
    simp [this]
  · intro t'' ht''
    injection ht'' with ht''
    subst ht''
    exact hl

theorem inv_test0 {rnd : Nat → UInt8} {c : Ctl} {log : List Act} (h : Inv rnd c log) {t t' : Test} (ht : c.modbus = some t)
    {e : Ev} (hl : Live rnd t' (log ++ [.rcv e])) :
    Inv rnd { c with modbus := some t' } (log ++ .rcv e :: ([] : List Out).map .snd) := by
  rw [snd0]
  refine ⟨h.hist.rcv e, ?_, h.ua, ?_⟩
  · have := h.both
    simp [ht] at this
    simp [this]
  · intro t'' ht''
    injection ht'' with ht''
    subst ht''
    exact hl

theorem onInitRsp_init {t : Test} (h : t.st = .init) :
    t.onInitRsp = ({ t with st := .configure }, [.modbusConfigReq [⟨0, false, modbusAddr⟩, ⟨0, true, modbusAddr⟩]]) := by
  simp [Test.onInitRsp, Test.transit, Test.enter, Test.exit, h]

theorem onConfigRsp_configure {t : Test} (h : t.st = .configure) :
    t.onConfigRsp = ({ t with st := .run, counter := 0 }, [.modbusClientAduReq (batch t.cases)]) := by
  simp [Test.onConfigRsp, Test.transit, Test.enter, Test.exit, h]

theorem onTimer_setup {t : Test} (h : t.st = .setup) (ha : t.armed = true) :
    t.onTimer = ({ t with st := .run, counter := 0, armed := false }, [.modbusClientAduReq (batch t.cases)]) := by
  simp [Test.onTimer, Test.transit, Test.enter, Test.exit, h, ha]

theorem inv_step {rnd : Nat → UInt8} {c c' : Ctl} {log : List Act} {e : Ev} {o : List Out} (h : Inv rnd c log)
    (hs : c.step rnd e = .ok (c', o)) : Inv rnd c' (log ++ .rcv e :: o.map .snd) := by
  cases e with
  | start b =>
    cases b
    · injection hs with hs
      injection hs with h1 h2
      subst h1; subst h2
      exact inv_quiet h rfl
    · injection hs with hs
      injection hs with h1 h2
      subst h1; subst h2
      exact inv_start h
  | stop =>
    simp only [Ctl.step] at hs
    split at hs
    · rename_i t u ht hu
      injection hs with hs
      injection hs with h1 h2
      subst h1; subst h2
      rw [h.ua u hu]
      exact inv_stop h ht
    · cases hs
  | modbusInitRsp =>
    simp only [Ctl.step, Ctl.onTest] at hs
    split at hs
    · injection hs with hs
      injection hs with h1 h2
      subst h1; subst h2
      exact inv_quiet h rfl
    · rename_i t ht
      injection hs with hs
      injection hs with h1 h2
      subst h1; subst h2
      have hl := h.live t ht
      cases hst : t.st with
      | init =>
        rw [onInitRsp_init hst]
        have hq := hl.quiet (a := .rcv .modbusInitRsp) rfl
        have hst' := hq.st
        rw [hst] at hst'
        refine inv_test h ht _ ⟨hq.running.started, ReactsTo.here .., hst'.1, rfl⟩ ?_
        refine ⟨hq.running.snoc rfl, hl.reqs, hl.regs, ?_, ?_⟩
        · have := hl.armed
          rw [hst] at this
          exact this
        · show Configuring (since isReset _) ∧ _
          rw [since_snoc_false rfl]
          refine ⟨Configuring.start _ rfl, none_snoc hst'.2 rfl⟩
      | configure | run | setup =>
        have e : t.onInitRsp = (t, []) := by simp [Test.onInitRsp, hst]
        rw [e]
        exact inv_test0 h ht (hl.quiet rfl)
  | modbusReleaseRsp =>
    injection hs with hs
    injection hs with h1 h2
    subst h1; subst h2
    exact inv_quiet h rfl
  | modbusConfigRsp =>
    simp only [Ctl.step, Ctl.onTest] at hs
    split at hs
    · rename_i hn
      injection hs with hs
      injection hs with h1 h2
      subst h1; subst h2
      rw [snd0]
      exact ⟨h.hist.rcv _, h.both, h.ua, fun t ht => by rw [hn] at ht; cases ht⟩
    · rename_i t ht
      injection hs with hs
      injection hs with h1 h2
      subst h1; subst h2
      have hl := h.live t ht
      have hlst := hl.st
      cases hst : t.st with
      | configure =>
        rw [hst] at hlst
        rw [onConfigRsp_configure hst]
        refine inv_test h ht _ ⟨(hl.running.snoc rfl).started, hl.batch, ?_, .inl ?_⟩ ?_
        · rw [since_snoc_false rfl]
          exact hlst.1.answered rfl rfl
        · rw [since_snoc_false rfl]
          exact none_snoc hlst.2 rfl
        · refine ⟨(hl.running.snoc rfl).snoc rfl, hl.reqs, hl.regs, ?_, ?_⟩
          · have := hl.armed
            rw [hst] at this
            exact this
          · show Configured (since isReset _) ∧ answers _ = 0 ∧ 0 < 16
            rw [answers_snoc_batch rfl, since_snoc_false rfl, since_snoc_false rfl]
            exact ⟨(hlst.1.answered rfl rfl).snoc rfl, rfl, by omega⟩
      | init =>
        rw [hst] at hlst
        have e : t.onConfigRsp = (t, []) := by simp [Test.onConfigRsp, hst]
        rw [e]
        refine inv_test0 h ht ⟨hl.running.snoc rfl, hl.reqs, hl.regs, hl.armed, ?_⟩
        rw [hst]
        show (∀ a ∈ since isReset _, _) ∧ _
        rw [since_snoc_false rfl]
        exact ⟨none_snoc hlst.1 rfl, none_snoc hlst.2 rfl⟩
      | run =>
        rw [hst] at hlst
        have e : t.onConfigRsp = (t, []) := by simp [Test.onConfigRsp, hst]
        rw [e]
        refine inv_test0 h ht ⟨hl.running.snoc rfl, hl.reqs, hl.regs, hl.armed, ?_⟩
        rw [hst]
        show Configured (since isReset _) ∧ answers _ = _ ∧ _
        rw [since_snoc_false rfl, answers_snoc rfl]
        exact ⟨hlst.1.snoc rfl, hlst.2⟩
      | setup =>
        rw [hst] at hlst
        have e : t.onConfigRsp = (t, []) := by simp [Test.onConfigRsp, hst]
        rw [e]
        refine inv_test0 h ht ⟨hl.running.snoc rfl, hl.reqs, hl.regs, hl.armed, ?_⟩
        rw [hst]
        show Configured (since isReset _) ∧ _ ≤ answers _
        rw [since_snoc_false rfl, answers_snoc rfl]
        exact ⟨hlst.1.snoc rfl, hlst.2⟩
  | modbusClientAduRsp r =>
    simp only [Ctl.step, Ctl.onTestE] at hs
    split at hs
    · rename_i hn
      injection hs with hs
      injection hs with h1 h2
      subst h1; subst h2
      rw [snd0]
      exact ⟨h.hist.rcv _, h.both, h.ua, fun t ht => by rw [hn] at ht; cases ht⟩
    · rename_i t ht
      rw [Exec.bind_eq_ok] at hs
      obtain ⟨⟨t', o'⟩, hs', hs⟩ := hs
      injection hs with hs
      injection hs with h1 h2
      subst h1; subst h2
      have hl := h.live t ht
      have hlst := hl.st
      cases hst : t.st with
      | run =>
        rw [hst] at hlst
        simp only [Test.onClientAduRsp, hst] at hs'
        rw [Exec.bind_eq_ok] at hs'
        obtain ⟨⟨t1, v⟩, hc, hs'⟩ := hs'
        obtain ⟨e1, hn, hd⟩ := check_cases hc
        subst e1
        rw [hl.length] at hn hd
        cases v with
        | noerror =>
          injection hs' with hs'
          injection hs' with h1 h2
          subst h1; subst h2
          refine inv_test0 h ht ⟨hl.running.snoc rfl, hl.reqs, hl.regs, hl.armed, ?_⟩
          show match t.st with | _ => _
          rw [hst]
          show Configured (since isReset _) ∧ answers _ = t.counter + 1 ∧ t.counter + 1 < 16
          have := hn rfl
          rw [since_snoc_false rfl, answers_snoc rfl]
          exact ⟨hlst.1.snoc rfl, by rw [hlst.2.1]; rfl, by omega⟩
        | done =>
          have e : ({ t with counter := t.counter + 1 } : Test).transit .setup =
              ({ t with counter := t.counter + 1, st := .setup, armed := true }, []) := by
            simp [Test.transit, Test.enter, Test.exit, hst]
          simp only [e] at hs'
          injection hs' with hs'
          injection hs' with h1 h2
          subst h1; subst h2
          refine inv_test0 h ht ⟨hl.running.snoc rfl, hl.reqs, hl.regs, rfl, ?_⟩
          show Configured (since isReset _) ∧ 16 ≤ answers _
          have := hd rfl
          rw [since_snoc_false rfl, answers_snoc rfl]
          exact ⟨hlst.1.snoc rfl, by rw [hlst.2.1]; show 16 ≤ t.counter + 1; omega⟩
        | error =>
          have e : ({ t with counter := t.counter + 1 } : Test).transit .init =
              ({ t with counter := t.counter + 1, st := .init }, [.modbusReleaseReq]) := by
            simp [Test.transit, Test.enter, Test.exit, hst]
          simp only [e] at hs'
          injection hs' with hs'
          injection hs' with h1 h2
          subst h1; subst h2
          refine inv_test h ht _ ⟨(hl.running.snoc rfl).started, .inr ⟨r, ReactsTo.here ..⟩⟩ ?_
          refine ⟨(hl.running.snoc rfl).snoc rfl, hl.reqs, hl.regs, ?_, ?_⟩
          · have := hl.armed
            rw [hst] at this
            exact this
          · show (∀ a ∈ since isReset _, _) ∧ _
            rw [since_snoc_true rfl]
            simp
      | init =>
        rw [hst] at hlst
        simp only [Test.onClientAduRsp, hst] at hs'
        injection hs' with hs'
        injection hs' with h1 h2
        subst h1; subst h2
        refine inv_test0 h ht ⟨hl.running.snoc rfl, hl.reqs, hl.regs, hl.armed, ?_⟩
        rw [hst]
        show (∀ a ∈ since isReset _, _) ∧ _
        rw [since_snoc_false rfl]
        exact ⟨none_snoc hlst.1 rfl, none_snoc hlst.2 rfl⟩
      | configure =>
        rw [hst] at hlst
        simp only [Test.onClientAduRsp, hst] at hs'
        injection hs' with hs'
        injection hs' with h1 h2
        subst h1; subst h2
        refine inv_test0 h ht ⟨hl.running.snoc rfl, hl.reqs, hl.regs, hl.armed, ?_⟩
        rw [hst]
        show Configuring (since isReset _) ∧ _
        rw [since_snoc_false rfl]
        exact ⟨hlst.1.snoc rfl rfl, none_snoc hlst.2 rfl⟩
      | setup =>
        rw [hst] at hlst
        simp only [Test.onClientAduRsp, hst] at hs'
        injection hs' with hs'
        injection hs' with h1 h2
        subst h1; subst h2
        refine inv_test0 h ht ⟨hl.running.snoc rfl, hl.reqs, hl.regs, hl.armed, ?_⟩
        rw [hst]
        show Configured (since isReset _) ∧ 16 ≤ answers _
        rw [since_snoc_false rfl, answers_snoc rfl]
        exact ⟨hlst.1.snoc rfl, Nat.le_trans hlst.2 (Nat.le_add_right ..)⟩
  | modbusAduReq sid ses q =>
    simp only [Ctl.step, Ctl.onTestE] at hs
    split at hs
    · injection hs with hs
      injection hs with h1 h2
      subst h1; subst h2
      exact inv_quiet h rfl
    · rename_i t ht
      rw [Exec.bind_eq_ok] at hs
      obtain ⟨⟨t', o'⟩, hs', hs⟩ := hs
      injection hs with hs
      injection hs with h1 h2
      subst h1; subst h2
      have hl := h.live t ht
      cases hst : t.st with
      | run =>
        simp only [Test.onAduReq, hst] at hs'
        obtain ⟨⟨r, e, hr⟩, h1, h2, h3, h4, h5⟩ := serve_cases hs'
        subst e
        have hq := (hl.quiet (a := .rcv (.modbusAduReq sid ses q)) rfl).quiet (a := .snd (.modbusAduRsp sid ses r)) rfl
        refine inv_test h ht _ ⟨(hl.running.snoc rfl).started, q, ReactsTo.here .., hr⟩ ?_
        refine ⟨hq.running, h1.trans hl.reqs, h2 hl.regs, ?_, ?_⟩
        · rw [h3, h4]; exact hl.armed
        · rw [h3, h5]; exact hq.st
      | init | configure | setup =>
        simp only [Test.onAduReq, hst] at hs'
        injection hs' with hs'
        injection hs' with h1 h2
        subst h1; subst h2
        exact inv_test0 h ht (hl.quiet rfl)
  | ua m =>
    simp only [Ctl.step] at hs
    split at hs
    · injection hs with hs
      injection hs with h1 h2
      subst h1; subst h2
      exact inv_quiet h (by cases m <;> rfl)
    · rename_i u hu
      injection hs with hs
      injection hs with h1 h2
      subst h1; subst h2
      have hm : ∃ t, c.modbus = some t := by
        cases hm : c.modbus with
        | none => rw [h.both.2 hm] at hu; cases hu
        | some t => exact ⟨t, rfl⟩
      obtain ⟨t, ht⟩ := hm
      have hq : ∀ {o : Out}, Allowed rnd (log ++ [.rcv (.ua m)]) (.snd o) → quiet (.snd o) = true →
          Inv rnd c (log ++ .rcv (.ua m) :: [o].map .snd) := by
        intro o ha ho
        rw [snd1]
        exact ⟨(h.hist.rcv _).snoc ha, h.both, h.ua, fun t ht => ((h.live t ht).quiet (by cases m <;> rfl)).quiet ho⟩
      have hs := ((h.live t ht).running.snoc (a := .rcv (.ua m)) rfl).started
      rw [h.ua u hu]
      cases m
      case secureChannelInitRsp => exact hq ⟨hs, ReactsTo.here ..⟩ rfl
      case transportInitRsp => exact hq ⟨hs, ReactsTo.here .., rfl⟩ rfl
      case serviceInitRsp => exact hq ⟨hs, ReactsTo.here ..⟩ rfl
      all_goals exact inv_quiet h rfl
  | timer =>
    simp only [Ctl.step, Ctl.onTest] at hs
    split at hs
    · injection hs with hs
      injection hs with h1 h2
      subst h1; subst h2
      exact inv_quiet h rfl
    · rename_i t ht
      injection hs with hs
      injection hs with h1 h2
      subst h1; subst h2
      have hl := h.live t ht
      have ha := hl.armed
      cases hst : t.st with
      | setup =>
        have hlst := hl.st
        rw [hst] at hlst ha
        rw [onTimer_setup hst ha]
        refine inv_test h ht _ ⟨(hl.running.snoc rfl).started, hl.batch, ?_, .inr ⟨ReactsTo.here .., ?_⟩⟩ ?_
        · rw [since_snoc_false rfl]
          exact hlst.1.snoc rfl
        · rw [answers_snoc rfl]
          exact hlst.2
        · refine ⟨(hl.running.snoc rfl).snoc rfl, hl.reqs, hl.regs, rfl, ?_⟩
          show Configured (since isReset _) ∧ answers _ = 0 ∧ 0 < 16
          rw [answers_snoc_batch rfl, since_snoc_false rfl, since_snoc_false rfl]
          exact ⟨(hlst.1.snoc rfl).snoc rfl, rfl, by omega⟩
      | init | configure | run =>
        rw [hst] at ha
        have e : t.onTimer = (t, []) := by simp [Test.onTimer, ha]
        rw [e]
        exact inv_test0 h ht (hl.quiet rfl)

theorem inv_create (rnd : Nat → UInt8) : Inv rnd Ctl.create [] := ⟨.nil, by simp [Ctl.create], by simp [Ctl.create], by simp [Ctl.create]⟩

theorem inv_run {rnd : Nat → UInt8} {c c' : Ctl} {log log' : List Act} {es : List Ev} (h : Inv rnd c log)
    (hr : run rnd c log es = .ok (c', log')) : Inv rnd c' log' := by
  induction es generalizing c log with
  | nil =>
    injection hr with hr
    injection hr with h1 h2
    subst h1; subst h2
    exact h
  | cons e es ih =>
    simp only [run] at hr
    rw [Exec.bind_eq_ok] at hr
    obtain ⟨⟨c1, o⟩, h1, h2⟩ := hr
    exact ih (inv_step h h1) h2

/-! ## C60 -/

/-- C60: whatever the component receives, as long as it does not run into undefined behaviour, everything it sends is allowed:
nothing before a start or after a stop; requests to configure only as a reaction to the answer of the component, once per
initialisation; the batch of the sixteen requests only when the configuration was answered, and again only when a timer ran
out after sixteen answers; a release only on stop or after an answer; every answer to a server request carries the
identifiers of the request. -/
theorem C60_order_partial (rnd : Nat → UInt8) (es : List Ev) (c : Ctl) (log : List Act)
    (h : run rnd Ctl.create [] es = .ok (c, log)) : AllOk (Allowed rnd) log := (inv_run (inv_create rnd) h).hist

/-- Non-vacuity: a start, the answers of the Modbus component, a request of a peer, a stop. -/
example (rnd : Nat → UInt8) : ∃ c log, run rnd Ctl.create [] [.start true, .modbusInitRsp, .ua .transportInitRsp, .modbusConfigRsp,
      .modbusAduReq 0 7 ⟨0, 99, 1, 0, 0, 0, []⟩, .stop] = .ok (c, log) ∧ log.length = 18 ∧
      log[11]? = some (.rcv (.modbusAduReq 0 7 ⟨0, 99, 1, 0, 0, 0, []⟩)) ∧
      log[12]? = some (.snd (.modbusAduRsp 0 7 ⟨0, 0, true, []⟩)) := ⟨_, _, rfl, rfl, rfl, rfl⟩

end Uscada.Controller
