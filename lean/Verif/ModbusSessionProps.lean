import Verif.ModbusSessionLemmas
/-!
# Modbus server sessions: properties C17, C18, C19 and the server part of C12

The specification is on the bytes received and the effects of a session: `Answers` (every frame sent
answers the request that is waiting), `AcceptableReq`/`frameReq` (which byte strings are requests and
what they say) and, for the server, who owns identifiers, timers and links.
-/

namespace Uscada.Modbus

open Client (wordAt byteAt content_received wordAt_content swapPairs)

namespace Session

/-! ## Histories -/

/-- A clean history: at every event the environment does what `CleanEv` asks for. -/
def Clean (s : Session) (q : Open) : List Ev → Prop
  | [] => True
  | e :: es => CleanEv s q e ∧ ∀ s1 o, s.step e = .ok (s1, o) → Clean s1 (nextOpen s1 o q) es

/-- All effects of a history in order. -/
def outs (h : List (Ev × List SOut)) : List SOut := h.flatMap Prod.snd

theorem answers_append_none {o1 : List SOut} : ∀ (q : Open), Answers q o1 →
    ∀ o2, Answers (o1.foldl track q) o2 → Answers q (o1 ++ o2) := by
  induction o1 with
  | nil => intro q _ o2 h2; exact h2
  | cons x o1 ih =>
    intro q h1 o2 h2
    cases x with
    | fwd r => exact ih _ h1 o2 h2
    | frame w => exact ⟨h1.1, ih _ h1.2 o2 h2⟩
    | released => exact ih _ h1 o2 h2

/-- More may be waiting than the session still knows of. -/
theorem answers_weaken {o : List SOut} {q : Open} (h : Answers none o) : Answers q o := by
  cases o with
  | nil => trivial
  | cons x o =>
    cases x with
    | fwd r => exact h
    | frame w => obtain ⟨⟨t, a, f, h1, _⟩, _⟩ := h; simp at h1
    | released => exact h

theorem run_J {s : Session} {acc : List UInt8} {q : Open} (es : List Ev) (h : J s acc q) (hc : Clean s q es) :
    ∃ s' os, s.run es = .ok (s', os) ∧ Answers q (outs os) ∧ ∃ acc' q', J s' acc' q' := by
  induction es generalizing s acc q with
  | nil => exact ⟨s, [], rfl, trivial, acc, q, h⟩
  | cons e es ih =>
    obtain ⟨hc1, hc2⟩ := hc
    obtain ⟨s1, o, h1, h2, h3, _, h5⟩ := step_J h hc1
    obtain ⟨s', os, g1, g2, g3⟩ := ih h2 (hc2 _ _ h1)
    refine ⟨s', (e, o) :: os, ?_, ?_, g3⟩
    · simp [run, h1, g1]
    · show Answers q (o ++ outs os)
      refine answers_append_none _ h3 _ ?_
      unfold nextOpen at g2
      split at g2
      · exact g2
      · exact answers_weaken g2

/-- C17: every history of a session in which the environment is clean ends without undefined
behaviour, and every frame sent answers the last forwarded request, which has not been answered before, with
its transaction id, its slave address and its function (or the error code). -/
theorem C17_answers_match_partial (m : Mem) (a : AduReq) (es : List Ev) (hc : Clean (create m a) none es) :
    ∃ s' os, (create m a).run es = .ok (s', os) ∧ Answers none (outs os) := by
  obtain ⟨s', os, h1, h2, _⟩ := run_J es (j_create m a) hc
  exact ⟨s', os, h1, h2⟩

/-- Number of frames and of forwarded requests. -/
def frames (o : List SOut) : Nat := o.countP fun x => match x with | .frame _ => true | _ => false
def forwards (o : List SOut) : Nat := o.countP fun x => match x with | .fwd _ => true | _ => false

theorem answers_count {o : List SOut} : ∀ q : Open, Answers q o →
    frames o ≤ forwards o + (if q = none then 0 else 1) := by
  induction o with
  | nil => intro q _; simp [frames]
  | cons x o ih =>
    intro q h
    cases x with
    | fwd r => have := ih _ h; simp [frames, forwards] at *; omega
    | frame w =>
      obtain ⟨⟨t, a, f, h1, _⟩, h2⟩ := h
      have := ih _ h2
      simp [frames, forwards, h1] at *
      omega
    | released => have := ih _ h; simp [frames, forwards] at *; omega

/-- C17: at most one frame per forwarded request, in every prefix of a clean history. -/
theorem C17_at_most_one_answer_partial (m : Mem) (a : AduReq) (es : List Ev) (hc : Clean (create m a) none es)
    {s' : Session} {os : List (Ev × List SOut)} (h : (create m a).run es = .ok (s', os)) :
    frames (outs os) ≤ forwards (outs os) := by
  obtain ⟨s1, os1, h1, h2⟩ := C17_answers_match_partial m a es hc
  rw [h] at h1
  obtain ⟨_, rfl⟩ : s' = s1 ∧ os = os1 := by simpa using h1
  simpa using answers_count _ h2

/-! ## Unconditional facts -/

/-- What a session holds. -/
def Holds (s : Session) : Prop :=
  (s.st = .init → s.link = false ∧ s.timer = false ∧ s.armed = false) ∧
  (s.st ≠ .init → s.link = true ∧ s.timer = true ∧ s.armed = true)

theorem evaluate_keeps {s s' : Session} {o : List SOut} {r : Status} (h : s.evaluate = .ok (s', o, r)) :
    s'.st = s.st ∧ s'.link = s.link ∧ s'.timer = s.timer ∧ s'.armed = s.armed ∧
    .released ∉ o ∧ (∀ w, .frame w ∉ o) := by
  unfold evaluate at h
  split at h
  · cases h; simp
  split at h
  · cases h; simp
  split at h
  · cases h; simp
  split at h
  · cases h; simp
  rw [Exec.bind_eq_ok] at h
  obtain ⟨⟨b, a, ok⟩, h1, h2⟩ := h
  dsimp only at h2
  split at h2
  · cases h2; simp
  split at h2
  · cases h2
  · cases h2; simp

theorem receive_keeps {s s' : Session} {rx : Rx} {o : List SOut} {r : Status} (h : s.receive rx = .ok (s', o, r)) :
    s'.st = s.st ∧ s'.link = s.link ∧ s'.timer = s.timer ∧ s'.armed = s.armed ∧
    .released ∉ o ∧ (∀ w, .frame w ∉ o) := by
  unfold receive at h
  split at h
  · cases h; simp
  split at h
  · cases h
  split at h
  · cases h; simp
  split at h
  · cases h; simp
  · cases h; simp
  · have := evaluate_keeps h
    exact this

/-- Who causes a frame. -/
theorem send_keeps {s : Session} {r : AppRsp} {ok : Bool} {o : List SOut} {res : Status}
    (h : s.send r ok = .ok (o, res)) :
    o = [] ∨ ∃ w, o = [.frame w] ∧ res = .done ∧ r.success = true ∧ ok = true ∧
      r.transactId = s.adu.transactId ∧ wordAt w 0 = r.transactId % 65536 := by
  have hA : maxAduLen = 260 := rfl
  rw [send_body] at h
  split at h
  · cases h; simp
  rename_i ht
  split at h
  · cases h; simp
  rename_i hs
  split at h
  · cases h
  rename_i hl
  obtain ⟨b, k, h1, h2, h3, h4⟩ := encodeRsp_eq (fun _ => 0) (rspOf s r) (by simp [rspOf]; omega)
  rw [h1] at h
  simp only [Exec.ok_bind] at h
  cases k
  · cases h; simp
  simp only [Bool.true_eq_false, if_false] at h
  split at h
  · cases h; simp
  split at h
  · cases h
  split at h
  · rename_i hk
    cases h
    refine .inr ⟨_, rfl, rfl, by simpa using hs, hk.2, by simpa using ht, ?_⟩
    rw [(h4 rfl).1.content]
    have key : ∀ (l : Nat) (tail : List UInt8), wordAt (hdr r.transactId l s.adu.addr
        (if r.error ≠ 0 then fError else s.adu.func) ++ tail) 0 = r.transactId % 65536 := by
      intro l tail
      simp [wordAt, byteAt, hdr, be16]
      omega
    unfold rspFrame
    simp only [List.append_assoc]
    repeat' split
    all_goals exact key _ _
  · cases h; simp

theorem holds_ended (s : Session) : Holds (ended s) := ⟨by simp [ended], by simp [ended]⟩
theorem holds_ready {s : Session} (h1 : s.link = true) (h2 : s.timer = true) : Holds (ready s) :=
  ⟨by simp [ready], by simp [ready, h1, h2]⟩

/-- What every event does, whatever the environment did before. -/
theorem step_holds {s s1 : Session} {e : Ev} {o : List SOut} (h : Holds s) (hs : s.step e = .ok (s1, o)) :
    Holds s1 ∧ ((.released ∈ o ↔ s.st ≠ .init ∧ s1.st = .init) ∧ o.count .released ≤ 1) ∧
    (s.st = .init → e ≠ .start → s1.st = .init ∧ o = []) ∧
    (s.st = .init → e = .start → s1.st = .connected ∧ o = []) ∧
    (∀ w, .frame w ∈ o → s.st = .wait ∧ o = [.frame w] ∧ s1.st = .connected ∧ ∃ r, e = .rsp r true ∧ r.success = true ∧
      r.transactId = s.adu.transactId ∧ wordAt w 0 = r.transactId % 65536) := by
  have hst : s.st = .init ∨ s.st = .connected ∨ s.st = .wait := by cases s.st <;> simp
  have hsame : s.st ≠ .init → Holds s1 → s1.st = s.st → .released ∉ o → (∀ w, .frame w ∉ o) →
      Holds s1 ∧ ((.released ∈ o ↔ s.st ≠ .init ∧ s1.st = .init) ∧ o.count .released ≤ 1) ∧
    (s.st = .init → e ≠ .start → s1.st = .init ∧ o = []) ∧
    (s.st = .init → e = .start → s1.st = .connected ∧ o = []) ∧
    (∀ w, .frame w ∈ o → s.st = .wait ∧ o = [.frame w] ∧ s1.st = .connected ∧ ∃ r, e = .rsp r true ∧ r.success = true ∧
      r.transactId = s.adu.transactId ∧ wordAt w 0 = r.transactId % 65536) := by
    intro k1 k2 k3 k4 k5
    refine ⟨k2, ⟨⟨fun hr => absurd hr k4, fun hr => ?_⟩, by rw [List.count_eq_zero_of_not_mem k4]; omega⟩, fun hh => absurd hh k1, fun hh => absurd hh k1, fun w hw => absurd hw (k5 w)⟩
    rw [k3] at hr
    exact absurd hr.2 hr.1
  cases e with
  | start =>
    rcases hst with hi | hi | hi
    · have : s.step .start = .ok (ready { s with link := true, timer := true, opened := true }, []) := by
        simp only [step, onStart, hi]
        rw [← transit_connected (by simp) rfl]
      rw [this] at hs
      cases hs
      exact ⟨holds_ready rfl rfl, by simp [hi], by simp, fun _ _ => ⟨rfl, rfl⟩, by simp⟩
    all_goals
      have hh := h.2 (by rw [hi]; simp)
      have : s.step .start = .ok ({ s with link := true, timer := true, opened := true }, []) := by
        simp only [step, onStart, hi]
      rw [this] at hs
      cases hs
      exact hsame (by rw [hi]; simp) ⟨by simp [hi], by simp [hh]⟩ rfl (by simp) (by simp)
  | data rx =>
    rcases hst with hi | hi
    · have : s.step (.data rx) = .ok (s, []) := by simp [step, (h.1 hi).1]
      rw [this] at hs
      cases hs
      exact ⟨h, by simp, fun _ _ => ⟨hi, rfl⟩, by simp, by simp⟩
    have hni : s.st ≠ .init := by rcases hi with hi | hi <;> rw [hi] <;> simp
    have hh := h.2 hni
    have hstep : s.step (.data rx) = s.onData rx := by simp [step, hh.1]
    rw [hstep] at hs
    have key : ∃ s2 o2 r2, s.receive rx = .ok (s2, o2, r2) ∧
        ((r2 = .error ∧ s2.transit .init >>= (fun x => Exec.ok (x.1, o2 ++ x.2)) = .ok (s1, o)) ∨
         (r2 ≠ .error ∧ s.st = .connected ∧ s2.transit .wait >>= (fun x => Exec.ok (x.1, o2 ++ x.2)) = .ok (s1, o)) ∨
         (s1 = s2 ∧ o = o2)) := by
      rcases hi with hi | hi <;>
      · simp only [onData, hi] at hs
        rw [Exec.bind_eq_ok] at hs
        obtain ⟨⟨s2, o2, r2⟩, g1, g2⟩ := hs
        refine ⟨s2, o2, r2, g1, ?_⟩
        cases r2 <;> simp_all
    obtain ⟨s2, o2, r2, g1, g2⟩ := key
    obtain ⟨k1, k2, k3, k4, k5, k6⟩ := receive_keeps g1
    rcases g2 with ⟨_, g2⟩ | ⟨_, hcn, g2⟩ | ⟨rfl, rfl⟩
    · rw [transit_init (by rw [k1]; exact hni) (by rw [k3]; exact hh.2.1)] at g2
      simp only [Exec.ok_bind] at g2
      cases g2
      refine ⟨holds_ended _, ⟨by simp [hni, ended], by simp [List.count_eq_zero_of_not_mem k5]⟩, by simp [hni], by simp [hni], ?_⟩
      intro w hw
      simp only [List.mem_append, List.mem_singleton, reduceCtorEq, or_false] at hw
      exact absurd hw (k6 w)
    · rw [transit_wait (by rw [k1]; exact hcn) (by rw [k3]; exact hh.2.1)] at g2
      simp only [Exec.ok_bind, List.append_nil] at g2
      cases g2
      refine ⟨⟨by simp [waits], fun _ => ⟨by simp [waits, k2, hh], by simp [waits, k3, hh], rfl⟩⟩, ⟨?_, by rw [List.count_eq_zero_of_not_mem k5]; omega⟩, by simp [hni], by simp [hni], fun w hw => absurd hw (k6 w)⟩
      simp [k5, waits]
    · exact hsame hni ⟨by simp [k1, hni], by simp [k2, k3, k4, hh]⟩ k1 k5 k6
  | linkError =>
    simp only [step] at hs
    cases hs
    by_cases hi : s.st = .init
    · exact ⟨h, by simp, fun _ _ => ⟨hi, rfl⟩, by simp, by simp⟩
    · exact hsame hi h rfl (by simp) (by simp)
  | rsp r ok =>
    rcases hst with hi | hi | hi
    · simp only [step, onRsp, hi] at hs
      cases hs
      exact ⟨h, by simp, fun _ _ => ⟨hi, rfl⟩, by simp, by simp⟩
    · simp only [step, onRsp, hi] at hs
      cases hs
      exact hsame (by rw [hi]; simp) h rfl (by simp) (by simp)
    have hh := h.2 (by rw [hi]; simp)
    simp only [step, onRsp, hi] at hs
    rw [Exec.bind_eq_ok] at hs
    obtain ⟨⟨o2, res⟩, g1, g2⟩ := hs
    have hsk := send_keeps g1
    have ho2 : .released ∉ o2 := by
      rcases hsk with f | ⟨w, f, _⟩ <;> rw [f] <;> simp
    cases res
    all_goals dsimp only at g2
    case noerror | codecError =>
      have : o2 = [] := by
        rcases hsk with f | ⟨w, f, f2, _⟩
        · exact f
        · simp at f2
      subst this
      cases g2
      exact hsame (by rw [hi]; simp) h rfl (by simp) (by simp)
    case done =>
      rw [transit_connected (by rw [hi]; simp) hh.2.1] at g2
      simp only [Exec.ok_bind, List.append_nil] at g2
      cases g2
      refine ⟨holds_ready hh.1 hh.2.1, ⟨by simp [ho2, ready], by rw [List.count_eq_zero_of_not_mem ho2]; omega⟩, by simp [hi], by simp [hi], ?_⟩
      intro w hw
      rcases hsk with f | ⟨w', f, f2, f3, f4, f5, f6⟩
      · rw [f] at hw; simp at hw
      · rw [f] at hw
        simp only [List.mem_singleton, SOut.frame.injEq] at hw
        subst hw
        exact ⟨hi, f, rfl, r, by rw [f4], f3, f5, f6⟩
    case error =>
      rw [transit_init (by rw [hi]; simp) hh.2.1] at g2
      simp only [Exec.ok_bind] at g2
      cases g2
      refine ⟨holds_ended _, ⟨by simp [hi, ended], by simp [List.count_eq_zero_of_not_mem ho2]⟩, by simp [hi], by simp [hi], ?_⟩
      intro w hw
      rcases hsk with f | ⟨w', f, f2, _⟩
      · rw [f] at hw; simp at hw
      · simp at f2
  | timer =>
    rcases hst with hi | hi | hi
    · have : s.step .timer = .ok (s, []) := by simp [step, (h.1 hi).2.2]
      rw [this] at hs
      cases hs
      exact ⟨h, by simp, fun _ _ => ⟨hi, rfl⟩, by simp, by simp⟩
    · have hh := h.2 (by rw [hi]; simp)
      have : s.step .timer = .ok (ended { s with armed := false }, [.released]) := by
        simp only [step, hh.2.2, if_true, onTimer, hi]
        exact transit_init (s := { s with st := .connected, armed := false }) (by simp) hh.2.1
      rw [this] at hs
      cases hs
      exact ⟨holds_ended _, by simp [hi, ended], by simp [hi], by simp [hi], by simp⟩
    · have hh := h.2 (by rw [hi]; simp)
      have : s.step .timer = .ok (ready { s with armed := false }, []) := by
        simp only [step, hh.2.2, if_true, onTimer, hi]
        exact transit_connected (s := { s with st := .wait, armed := false }) (by simp) hh.2.1
      rw [this] at hs
      cases hs
      exact ⟨holds_ready (s := { s with armed := false }) hh.1 hh.2.1, by simp [ready], by simp [hi], by simp [hi], by simp⟩

theorem holds_create (m : Mem) (a : AduReq) : Holds (create m a) := ⟨by simp [create], by simp [create]⟩

theorem run_holds {s s' : Session} {es : List Ev} {os : List (Ev × List SOut)} (h : Holds s)
    (hr : s.run es = .ok (s', os)) : Holds s' ∧ ∀ e o w, (e, o) ∈ os → .frame w ∈ o →
      o = [.frame w] ∧ ∃ r, e = .rsp r true ∧ r.success = true ∧ wordAt w 0 = r.transactId % 65536 := by
  induction es generalizing s os with
  | nil => simp only [run, Exec.ok.injEq, Prod.mk.injEq] at hr; obtain ⟨rfl, rfl⟩ := hr; exact ⟨h, by simp⟩
  | cons e es ih =>
    simp only [run] at hr
    rw [Exec.bind_eq_ok] at hr
    obtain ⟨⟨s1, o⟩, h1, h2⟩ := hr
    dsimp only at h2
    rw [Exec.bind_eq_ok] at h2
    obtain ⟨⟨s2, os2⟩, h3, h4⟩ := h2
    cases h4
    obtain ⟨k1, _, _, _, k5⟩ := step_holds h h1
    obtain ⟨g1, g2⟩ := ih k1 h3
    refine ⟨g1, fun e' o' w hm hw => ?_⟩
    simp only [List.mem_cons, Prod.mk.injEq] at hm
    rcases hm with ⟨rfl, rfl⟩ | hm
    · obtain ⟨_, q2, _, r, q4, q5, _, q6⟩ := k5 w hw
      exact ⟨q2, r, q4, q5, q6⟩
    · exact g2 e' o' w hm hw

/-- C17, without any assumption on the environment: a frame is sent only while handling a successful
answer of the application, carries that answer's transaction id, and one answer causes at most one frame. -/
theorem C17_frames_only_for_answers {m : Mem} {a : AduReq} {es : List Ev} {s' : Session}
    {os : List (Ev × List SOut)} (h : (create m a).run es = .ok (s', os)) {e : Ev} {o : List SOut}
    {w : List UInt8} (he : (e, o) ∈ os) (hw : .frame w ∈ o) :
    o = [.frame w] ∧ ∃ r, e = .rsp r true ∧ r.success = true ∧ wordAt w 0 = r.transactId % 65536 :=
  (run_holds (holds_create m a) h).2 e o w he hw

/-! ## C19 -/

/-- At every event of a history: whatever is forwarded is a valid request frame consisting of exactly
the bytes received since the session became ready, and says what these bytes say.  Nothing is claimed after
an end of stream in the waiting state. -/
def Sees (s : Session) (acc : List UInt8) : List Ev → Prop
  | [] => True
  | e :: es => (s.st = .wait → e ≠ .data (.ok [])) → ∀ s1 o, s.step e = .ok (s1, o) →
      (∀ r, .fwd r ∈ o → AcceptableReq (rxAcc s e acc) ∧ r.view = frameReq (rxAcc s e acc)) ∧
      Sees s1 (nextAcc s e s1 acc) es

theorem j_forget {s : Session} {acc : List UInt8} {q : Open} (h : J s acc q) : J s acc none :=
  ⟨h.inv, h.acc, h.ready, fun hw => by
    obtain ⟨h1, h2, h3, h4⟩ := h.waiting hw
    refine ⟨h1, h2, h3, ?_⟩
    rcases h4 with h4 | h4
    · exact .inl ⟨h4.1, h4.2.1, rfl⟩
    · exact .inr h4, fun _ => rfl, by simp⟩

theorem step_rsp_J {s s1 : Session} {acc : List UInt8} {q : Open} {r : AppRsp} {ok : Bool} {o : List SOut}
    (h : J s acc q) (hs : s.step (.rsp r ok) = .ok (s1, o)) :
    J s1 (nextAcc s (.rsp r ok) s1 acc) none ∧ ∀ r, .fwd r ∉ o := by
  have hst : s.st = .init ∨ s.st = .connected ∨ s.st = .wait := by cases s.st <;> simp
  rcases hst with hi | hi | hi
  · simp only [step, onRsp, hi] at hs
    cases hs
    exact ⟨j_forget (j_keep _ h rfl rfl rfl h.inv.idle h.inv.held (.inl rfl)), by simp⟩
  · simp only [step, onRsp, hi] at hs
    cases hs
    exact ⟨j_forget (j_keep _ h rfl rfl rfl h.inv.idle h.inv.held (.inl rfl)), by simp⟩
  have hh := h.inv.held (by rw [hi]; simp)
  simp only [step, onRsp, hi] at hs
  rw [Exec.bind_eq_ok] at hs
  obtain ⟨⟨o2, res⟩, g1, g2⟩ := hs
  have hsk := send_keeps g1
  have ho2 : ∀ r, .fwd r ∉ o2 := by
    rcases hsk with f | ⟨w, f, _⟩ <;> rw [f] <;> simp
  cases res
  all_goals dsimp only at g2
  case noerror | codecError =>
    have : o2 = [] := by
      rcases hsk with f | ⟨w, f, f2, _⟩
      · exact f
      · simp at f2
    subst this
    cases g2
    exact ⟨j_forget (j_keep _ h rfl rfl rfl h.inv.idle h.inv.held (.inl rfl)), by simp⟩
  case done =>
    rw [transit_connected (by rw [hi]; simp) hh.2.1] at g2
    simp only [Exec.ok_bind, List.append_nil] at g2
    cases g2
    exact ⟨j_forget (j_ready _ _ (by rw [hi]; simp) h.inv.cap h.inv.nb hh.1 hh.2.1 [] none), ho2⟩
  case error =>
    rw [transit_init (by rw [hi]; simp) hh.2.1] at g2
    simp only [Exec.ok_bind] at g2
    cases g2
    exact ⟨j_forget (j_ended _ h.inv.cap h.inv.nb h.inv.len [] none), by simpa using ho2⟩

theorem sees_J {s : Session} {acc : List UInt8} {q : Open} (es : List Ev) (h : J s acc q) : Sees s acc es := by
  induction es generalizing s acc q with
  | nil => trivial
  | cons e es ih =>
    intro hw s1 o hs
    by_cases he : ∃ r ok, e = .rsp r ok
    · obtain ⟨r, ok, rfl⟩ := he
      obtain ⟨h1, h2⟩ := step_rsp_J h hs
      exact ⟨fun r hr => absurd hr (h2 r), ih h1⟩
    · have hc : CleanEv s q e := by
        cases e with
        | data rx =>
          cases rx with
          | ok bs => intro h1 h2; exact hw h1 (by rw [h2])
          | _ => trivial
        | rsp r ok => exact absurd ⟨r, ok, rfl⟩ he
        | _ => trivial
      obtain ⟨s2, o2, h1, h2, _, h4, _⟩ := step_J h hc
      rw [hs] at h1
      cases h1
      exact ⟨h4, ih h2⟩

/-- C19: in every history, each forwarded request is the one in the bytes received since the session
became ready: these bytes are a valid request frame, and its transaction id, slave address, function, first
item, item count (where the function has one) and data (where the function has some) are
those of the frame.

Missing: fields a function does not use may hold leftovers (`C19_leftovers_violated`), and an end of
stream in the waiting state makes the session decode bytes beyond the frame (`C19_phantom_request_violated`). -/
theorem C19_request_is_frame_partial (m : Mem) (a : AduReq) (es : List Ev) : Sees (create m a) [] es :=
  sees_J es (j_create m a)

end Session
end Uscada.Modbus
