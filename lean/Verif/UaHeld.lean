import Verif.UaOrphans
import Verif.UaLoadProps
/-!
# C99: when channels are not left behind

As long as answers to open requests find their connection connected and without a channel, requests to end a connection come
only when its channel is closed, and no message is lost, every open channel is the channel of its connection, or an answer or a
notice that names it is under way.
-/

namespace Uscada.Ua

open SM

/-! ## Connections -/

namespace Transport

variable {c : UInt32} {k : Nat} {l : List Unit}

/-- A channel is assigned, or the end of the connection is asked for. -/
def turns : TAct → Option Unit
  | .assigned _ => some ()
  | .asked => some ()
  | _ => none

theorem tu_sendReleaseInd : TEmits turns k l (sendReleaseInd k) := by
  refine em_self.quiet fun t => ?_
  split
  · exact .ret
  · exact em_note_none rfl

theorem tu_release : TEmits turns k l (release k) :=
  (em_conn fun _ => by rfl).quiet fun _ => (em_note_none rfl).quiet fun _ => em_releaseId

theorem tu_toInit : TEmits turns k l (toInit k) := em_transit tu_release

theorem tu_fail : TEmits turns k l (fail k) := tu_sendReleaseInd.quiet fun _ => tu_toInit

theorem tu_onAcceptLink {e : TEnv} : TEmits turns k l (onAcceptLink k e) := by
  refine em_self.quiet fun t => ?_
  split
  · refine (em_conn fun _ => by rfl).quiet fun _ => ?_
    refine Emits.quiet ?_ fun _ => (em_note_none rfl).quiet fun _ => em_toHello
    unfold allocTimer
    split
    · exact em_conn fun _ => by rfl
    · exact .throws
  · exact .ret

theorem tu_onTimer : TEmits turns k l (onTimer k) := by
  refine (em_conn fun _ => by rfl).quiet fun _ => em_self.quiet fun t => ?_
  split
  · exact .ret
  · exact tu_toInit
  · exact tu_fail

theorem tu_answered {r : Res} : TEmits turns k l (answered k r) := by
  cases r
  · exact tu_fail
  · exact .ret
  · exact tu_fail

theorem tu_onReceive {e : TEnv} {m : Down} (h1 : ∀ c f d, m ≠ .openRsp c f d) (h2 : m ≠ .releaseReq) : TEmits turns k [] (onReceive k e m) := by
  refine em_self.quiet fun t => ?_
  split
  · cases m with
    | openRsp c b d => exact absurd rfl (h1 c b d)
    | closeRsp c b d =>
      refine Emits.quiet (l := []) ?_ fun x => tu_answered
      refine em_self.quiet fun t => ?_
      split
      · exact em_sendSecured (f := turns) (ty := .clo)
      · exact .ret
    | sendReq c b d =>
      refine Emits.quiet (l := []) ?_ fun x => tu_answered
      refine em_self.quiet fun t => ?_
      split
      · exact em_sendSecured (f := turns) (ty := .msg)
      · exact .ret
    | releaseReq => exact absurd rfl h2
  · exact .ret

theorem tu_onData {e : TEnv} : TEmits turns k [] (onData k e) := by
  refine em_self.quiet fun t => ?_
  split
  · exact .ret
  · refine (em_receiveHello rfl).quiet fun x => ?_
    split
    · exact .ret
    · exact em_toConnected
    · exact tu_toInit
  · refine Emits.quiet (l := []) ?_ fun x => ?_
    · refine em_receiveRx.quiet fun x => ?_
      split
      · exact .ret
      · exact .ret
      · exact em_self.quiet fun t => Emits.lift.quiet fun r => (em_conn fun _ => by rfl).quiet fun _ => em_forward fun _ => rfl
    · split
      · exact .ret
      · exact em_startTimer.quiet fun _ => em_receivePreaction
      · exact tu_fail

/-- No channel is assigned and no end is asked for. -/
def Steady (new : List TAct) : Prop := (∀ c, .assigned c ∉ new) ∧ .asked ∉ new

theorem steady_of {new : List TAct} (h : (new.filterMap turns).Sublist []) : Steady new := by
  constructor
  · intro c hm
    cases h.subset (List.mem_filterMap.mpr ⟨_, hm, rfl⟩)
  · intro hm
    cases h.subset (List.mem_filterMap.mpr ⟨_, hm, rfl⟩)

/-- What an event adds to the log of its connection. -/
theorem next_turns {m : Nat → Mem} {evs : List (TEnv × TEv)} {s s' : Srv} {e : TEnv} {v : TEv} (hr : Srv.Reach m evs s) (hp : Possible s v)
    (h1 : ∀ k c f d, v ≠ .down k (.openRsp c f d)) (h2 : ∀ k, v ≠ .down k .releaseReq) (h : next s e v = .ok s') :
    ∃ k new, Adds tlogs k new s s' ∧ Steady new ∧ Pool.valid k := by
  have key : ∀ k, Small tlogs turns k [] s s' → Pool.valid k → ∃ k new, Adds tlogs k new s s' ∧ Steady new ∧ Pool.valid k :=
    fun k ⟨new, h1, h2⟩ hk => ⟨k, new, h1, steady_of h2, hk⟩
  have one : Pool.valid 1 := by decide
  have none_added : Small tlogs turns 1 [] s s := ⟨[], .refl, .refl _⟩
  obtain ⟨l, hl, _⟩ : s.Inv True False := reach_inv (fun _ _ => ⟨fun _ => trivial, False.elim⟩) hr
  cases v with
  | accept =>
    have h : settle ((takeLink e >>= fun _ => allocId >>= fun r => match r with
      | none => pure ()
      | some k => onAcceptLink k e) s) = .ok s' := h
    rw [bind_run] at h
    unfold takeLink at h
    split at h
    · simp only [pure_run, andThen] at h
      rw [bind_run] at h
      unfold allocId at h
      split at h
      · rename_i r q hq
        simp only [andThen] at h
        cases r with
        | none =>
          injection h with h
          subst h
          exact key 1 ⟨[], ⟨(List.append_nil _).symm, fun _ _ => rfl⟩, by simp⟩ one
        | some k =>
          have hk : k ∈ l := by
            cases l with
            | nil => rw [hl.alloc_nil] at hq; cases hq
            | cons i l =>
              obtain ⟨q', hq', -⟩ := hl.alloc_cons
              rw [hq'] at hq
              cases hq
              simp
          exact key k (tu_onAcceptLink.settled (s := { s with ids := q }) h) (hl.ids k hk)
      · injection h with h
        subst h
        exact key 1 none_added one
      · cases h
      · cases h
    · injection h with h
      subst h
      exact key 1 none_added one
  | linkData k => exact key k (tu_onData.settled h) hp.1
  | linkError k => exact key k ((em_conn fun _ => by rfl : TEmits turns k [] (onError k)).settled h) hp.1
  | timer k => exact key k (tu_onTimer.settled h) hp.1
  | down k m =>
    have h : settle ((if Pool.valid k then onReceive k e m else undefined : SM Srv Unit) s) = .ok s' := h
    split at h
    · rename_i hk
      exact key k ((tu_onReceive (fun c f d hm => h1 k c f d (by rw [hm])) fun hm => h2 k (by rw [hm])).settled h) hk
    · cases h

/-- The answer to an open request assigns its channel to a connected connection. -/
theorem next_assigns {s s' : Srv} {e : TEnv} {f : UInt8} {d : List UInt8} (hst : (s.conns k).st = .connected)
    (h : next s e (.down k (.openRsp c f d)) = .ok s') : ∃ new, Adds tlogs k (.assigned c :: new) s s' ∧ Steady new ∧ Pool.valid k := by
  have h : settle ((if Pool.valid k then onReceive k e (.openRsp c f d) else undefined : SM Srv Unit) s) = .ok s' := h
  split at h
  · rename_i hk
    have hrun : onReceive k e (.openRsp c f d) s = (sendSecured k e (letters .opn).1 (letters .opn).2.1 (letters .opn).2.2 f c d >>= answered k)
        ((s.set k { s.conns k with assoc := some c }).set k { (s.set k { s.conns k with assoc := some c }).conns k with
          log := ((s.set k { s.conns k with assoc := some c }).conns k).log ++ [.assigned c] }) := by
      unfold onReceive
      rw [bind_ok (show self k s = (.ok (s.conns k), s) from rfl)]
      rw [hst]
      rfl
    rw [hrun] at h
    obtain ⟨new, h1, h2⟩ := (show TEmits turns k [] (sendSecured k e (letters .opn).1 (letters .opn).2.1 (letters .opn).2.2 f c d >>= answered k) from
      (em_sendSecured (f := turns) (ty := .opn)).quiet fun x => tu_answered).settled h
    refine ⟨new, (Adds.trans (a := [.assigned c]) ⟨?_, fun j hj => ?_⟩ h1 : Adds tlogs k ([.assigned c] ++ new) s s'), steady_of h2, hk⟩
    · simp [tlogs, Srv.set]
    · simp [tlogs, Srv.set, hj]
  · cases h

/-- What a request adds, it adds to the log of its connection. -/
theorem next_down {s s' : Srv} {e : TEnv} {x : Down} (h : next s e (.down k x) = .ok s') : ∃ new, Adds tlogs k new s s' ∧ Pool.valid k := by
  have h : settle ((if Pool.valid k then onReceive k e x else undefined : SM Srv Unit) s) = .ok s' := h
  split at h
  · rename_i hk
    obtain ⟨new, h1, _⟩ := (em_onReceive (f := fun _ => (none : Option Unit)) ⟨rfl, fun _ => rfl, rfl, rfl, fun _ => rfl⟩).settled h
    exact ⟨new, h1, hk⟩
  · cases h

theorem owner_nothing {l new : List TAct} (h1 : ∀ c, .assigned c ∉ new) (h2 : .released ∉ new) : owner (l ++ new) = owner l := by
  induction new generalizing l with
  | nil => simp
  | cons a new ih =>
    rw [List.append_cons, ih (fun c hc => h1 c (List.mem_cons_of_mem _ hc)) fun hm => h2 (List.mem_cons_of_mem _ hm), owner_append]
    cases a with
    | assigned c => exact absurd List.mem_cons_self (h1 c)
    | released => exact absurd List.mem_cons_self h2
    | _ => rfl

/-- A connection that has a channel keeps it or tells it. -/
theorem steady_life {new : List TAct} (h : Steady new) {q : Life} (hr : (Life.live (some c)).run new = some q) :
    .released ∉ new ∨ ∃ pre post x, new = pre ++ .up (.released x) :: post ∧ .released ∉ pre := by
  induction new with
  | nil => exact .inl (by simp)
  | cons a new ih =>
    have hs : Steady new := ⟨fun c hc => h.1 c (List.mem_cons_of_mem _ hc), fun hm => h.2 (List.mem_cons_of_mem _ hm)⟩
    have same : a ≠ .released → (Life.live (some c)).next a = some (.live (some c)) → .released ∉ a :: new ∨ ∃ pre post x, a :: new = pre ++ .up (.released x) :: post ∧ .released ∉ pre := by
      intro ha hn
      simp only [Life.run, hn] at hr
      rcases ih hs hr with h1 | ⟨pre, post, x, h1, h2⟩
      · exact .inl (by simp [h1, Ne.symm ha])
      · exact .inr ⟨a :: pre, post, x, by rw [h1]; rfl, by simp [h2, Ne.symm ha]⟩
    cases a with
    | assigned c => exact absurd List.mem_cons_self (h.1 c)
    | asked => exact absurd List.mem_cons_self h.2
    | released => simp [Life.run, Life.next] at hr
    | accepted => simp [Life.run, Life.next] at hr
    | sent b => exact same (by simp) rfl
    | up y =>
      cases y with
      | released x => exact .inr ⟨[], new, x, rfl, by simp⟩
      | _ => exact same (by simp) rfl

/-- After any event, a connection that had a channel, or got one at the event, has it still or has told it. -/
theorem stays {m : Nat → Mem} {evs : List (TEnv × TEv)} {s : Srv} (hr : Srv.Reach m evs s) (hk : Pool.valid k) {l new : List TAct}
    (hl : (s.conns k).log = l ++ new) (ho : owner l = some c) (hs : Steady new) (hlife : Life.run .idle l = some (.live (some c))) :
    owner (s.conns k).log = some c ∨ .up (.released c) ∈ new := by
  have h1 := C36_life m evs s hr k hk
  rw [hl, Life.run_append, hlife] at h1
  rcases steady_life hs h1 with h2 | ⟨pre, post, x, h2, h3⟩
  · exact .inl (by rw [hl, owner_nothing hs.1 h2, ho])
  · refine .inr ?_
    have := C35_own_traffic m evs s hr k hk (l ++ pre) post (.up (.released x)) (by rw [hl, h2, List.append_assoc])
    rw [owner_nothing (fun c hc => hs.1 c (by rw [h2]; exact List.mem_append_left _ hc)) h3, ho] at this
    have this : some c = some x := this
    injection this with this
    rw [this, h2]
    simp

/-- The phase of a connection that has a channel. -/
theorem owner_phase {m : Nat → Mem} {evs : List (TEnv × TEv)} {s : Srv} (hr : Srv.Reach m evs s) (hk : Pool.valid k)
    (ho : owner (s.conns k).log = some c) : Life.run .idle (s.conns k).log = some (.live (some c)) ∧ (s.conns k).assoc = some c ∧ (s.conns k).st ≠ .init := by
  have hi : s.Inv True False := reach_inv (fun _ _ => ⟨fun _ => trivial, False.elim⟩) hr
  rcases inv_around hi hk with ⟨_, _, _, _, _, h' | h'⟩ | h'
  · have := h'.logged.owner
    rw [ho] at this
    exact ⟨by rw [this]; exact h'.logged.life, this.symm, h'.st⟩
  · have := h'.2.logged.owner
    rw [ho] at this
    cases this
  · have := h'.logged.owner
    rw [ho] at this
    cases this

/-- There are no connections but those of the pool. -/
theorem outside {m : Nat → Mem} {evs : List (TEnv × TEv)} {s : Srv} (hr : Srv.Reach m evs s) {j : Nat} (hj : ¬ Pool.valid j) : (s.conns j).log = [] := by
  induction hr with
  | create h =>
    obtain ⟨ids, _, h⟩ := Exec.bind_eq_ok.mp h
    injection h with h
    subst h
    rfl
  | @step _ s s' e v hr hp hn ih =>
    have key : ∃ k new, Adds tlogs k new s s' ∧ Pool.valid k := by
      by_cases hd : ∃ k x, v = .down k x
      · obtain ⟨k, x, rfl⟩ := hd
        obtain ⟨new, h1, h2⟩ := next_down hn
        exact ⟨k, new, h1, h2⟩
      · obtain ⟨k, new, h1, _, h2⟩ := next_turns hr hp (fun k c f d he => hd ⟨_, _, he⟩) (fun k he => hd ⟨_, _, he⟩) hn
        exact ⟨k, new, h1, h2⟩
    obtain ⟨k, new, h1, h2⟩ := key
    rw [show (s'.conns j).log = (s.conns j).log from h1.2 j fun hx => hj (hx ▸ h2)]
    exact ih

end Transport

/-! ## Channels -/

namespace Channel

open Ent

variable {c x : UInt32} {k : Nat} {l : List Unit}

/-- The channel is opened. -/
def begins : CAct → Option Unit
  | .opened _ _ _ => some ()
  | _ => none

theorem be_toInit : CEmits begins k l (toInit k) :=
  (em_obj fun _ => by rfl).quiet fun _ => (em_obj fun _ => by rfl).quiet fun _ => (em_note_none rfl).quiet fun _ => em_releaseId

theorem be_onReceive {e : CEnv} {m : CIn} (hm : ∀ c d, m ≠ .open c d) : CEmits begins k [] (onReceive k e m) := by
  unfold onReceive
  refine (em_note_none rfl).quiet fun _ => em_self.quiet fun t => ?_
  split
  · exact absurd rfl (hm _ _)
  · exact (em_receiveClose fun _ _ => List.Sublist.refl _).after fun _ => (em_note_none rfl).quiet fun _ => be_toInit
  · refine (em_receiveMessage fun _ _ _ _ => List.Sublist.refl _).after fun ok => ?_
    split
    · exact .ret
    · exact (em_note_none rfl).quiet fun _ => be_toInit
  · exact be_toInit
  · exact em_receiveAssociate rfl
  · exact em_receiveSend fun _ _ _ => List.Sublist.refl _
  · exact .ret

theorem owner_old {l new : List CAct} (hn : ∀ c t q, .opened c t q ∉ new) (h : owner (l ++ new) = some x) : owner l = some x ∧ .released ∉ new := by
  induction new generalizing l with
  | nil => simpa using h
  | cons a new ih =>
    rw [List.append_cons] at h
    obtain ⟨h1, h2⟩ := ih (fun c t q hm => hn c t q (List.mem_cons_of_mem _ hm)) h
    rw [owner_snoc] at h1
    cases a with
    | opened c t q => exact absurd List.mem_cons_self (hn c t q)
    | released => cases h1
    | _ => exact ⟨h1, by simp [h2]⟩

/-- A channel that is open after a message was open before it and was not told of the end of its connection, or the message opened it and it answers. -/
theorem next_opens {u : Nat → UInt32 × UInt32} {evs : List (CEnv × CIn)} {s s' : Chans} {e : CEnv} {m : CIn} (hr : Reach u evs s)
    (h : next s e m = .ok s') (hv : Pool.valid c.toNat) (ho : owner (s'.objs c.toNat).log = some x) :
    (owner (s.objs c.toNat).log = some x ∧ ∀ y, m ≠ .released y c) ∨ ∃ new d, Adds clogs c.toNat new s s' ∧ .openRsp x c d ∈ new := by
  have far : ∀ ch : UInt32, (∀ y, m ≠ .released y c) → (∀ c d, m ≠ .open c d) → settle (Ent.get ch.toNat (onReceive ch.toNat e m) s) = .ok s' →
      owner (s.objs c.toNat).log = some x ∧ ∀ y, m ≠ .released y c := by
    intro ch hne hno hn
    unfold Ent.get at hn
    split at hn
    · obtain ⟨new, h1, h2⟩ := (be_onReceive hno).settled hn
      refine ⟨?_, hne⟩
      by_cases hj : c.toNat = ch.toNat
      · have h1 : (s'.objs c.toNat).log = (s.objs c.toNat).log ++ new := by rw [hj]; exact h1.1
        rw [h1] at ho
        exact (owner_old (fun c t q hm => by cases h2.subset (List.mem_filterMap.mpr ⟨_, hm, rfl⟩)) ho).1
      · have h1 : (s'.objs c.toNat).log = (s.objs c.toNat).log := h1.2 _ hj
        rw [h1] at ho
        exact ho
    · cases hn
  cases m with
  | close y ch d => exact .inl (far ch (by simp) (by simp) h)
  | message y ch d => exact .inl (far ch (by simp) (by simp) h)
  | associate hd => exact .inl (far hd.secureChannelId (by simp) (by simp) h)
  | send hd d => exact .inl (far hd.secureChannelId (by simp) (by simp) h)
  | released y ch =>
    by_cases hc : ch = c
    · subst hc
      have hold : owner (s.objs ch.toNat).log = some x := by
        have hn : settle (Ent.get ch.toNat (onReceive ch.toNat e (.released y ch)) s) = .ok s' := h
        unfold Ent.get at hn
        rw [if_pos hv] at hn
        obtain ⟨new, h1, h2⟩ := (be_onReceive (by simp)).settled hn
        rw [show (s'.objs ch.toNat).log = (s.objs ch.toNat).log ++ new from h1.1] at ho
        exact (owner_old (fun c t q hm => by cases h2.subset (List.mem_filterMap.mpr ⟨_, hm, rfl⟩)) ho).1
      obtain ⟨t, h1, h2, _⟩ := release_run hr hv (c' := y) hold e
      rw [h] at h1
      injection h1 with h1
      subst h1
      rw [h2.1, List.append_cons, owner_snoc] at ho
      cases ho
    · exact .inl (far ch (fun z hz => hc (by injection hz)) (by simp) h)
  | «open» y d =>
    obtain ⟨free, hl, hg⟩ := reach_inv (A := False) hr False.elim
    have h : settle ((allocId >>= fun r => match r with
      | none => pure ()
      | some k => onReceive k e (.open y d)) s) = .ok s' := h
    cases free with
    | nil =>
      have ha : allocId s = (.ok none, s) ∨ ∃ q, allocId s = (.ok none, { s with ids := q }) := by
        unfold allocId
        rw [hl.alloc_nil]
        exact .inr ⟨_, rfl⟩
      refine .inl ⟨?_, by simp⟩
      rcases ha with ha | ⟨q, ha⟩
      all_goals
        rw [bind_ok ha] at h
        injection h with h
        subst h
        exact ho
    | cons k free =>
      obtain ⟨q, _, ha⟩ := alloc_run hl
      have hk := hl.ids k (by simp)
      have hidle := (hg k hk).1 (by simp)
      rw [bind_ok ha] at h
      by_cases hkc : c.toNat = k
      · have hck : c = UInt32.ofNat k := by rw [← hkc]; exact (UInt32.ofNat_toNat).symm
        refine .inr ?_
        have hnone : (s'.objs k).log = (s.objs k).log ++ [.got (.open y d)] → False := by
          intro hl
          rw [hkc, hl, owner_snoc] at ho
          rw [hidle.owner] at ho
          cases ho
        replace h : settle (onReceive k e (.open y d) { s with ids := q }) = .ok s' := h
        unfold onReceive at h
        rw [note, bind_ok (obj_run _ _ _), bind_ok (self_run _ _), set_at] at h
        simp only [hidle.st] at h
        rw [receiveOpen_eq, SM.assoc] at h
        cases hload : load e.mem d with
        | ok b =>
          rw [bind_ok (lift_ok hload _), SM.assoc] at h
          cases hdec : openReqDec b with
          | ok r =>
            rw [bind_ok (lift_ok hdec _), bind_ok (answerOpen_run _ _ _ _ _ _ _ _), obj_run] at h
            injection h with h
            subst h
            rw [hkc, set_at] at ho
            simp only [set_at, owner_snoc] at ho
            injection ho with ho
            subst ho
            refine ⟨[.got (.open y d), .opened y e.token r.1.1.sequenceNumber, .openRsp y (UInt32.ofNat k) (openAnswer e (UInt32.ofNat k) e.token (s.objs k).tx
              r.1.1.requestId r.1.2.requestHdr.requestHandle r.1.2.requestLifetime)], _, ⟨?_, fun j hj => ?_⟩, by rw [hck]; exact List.mem_cons_of_mem _ (List.mem_cons_of_mem _ List.mem_cons_self)⟩
            · simp only [clogs, hkc, set_at, List.append_assoc]
              rfl
            · simp only [clogs]
              rw [hkc] at hj
              rw [set_other _ _ hj, set_other _ _ hj, set_other _ _ hj]
          | throws =>
            rw [hdec] at h
            injection h with h
            exact (hnone (by rw [← h, set_at])).elim
          | abort => rw [hdec] at h; cases h
          | ub => rw [hdec] at h; cases h
        | throws =>
          rw [hload] at h
          injection h with h
          exact (hnone (by rw [← h, set_at])).elim
        | abort => rw [hload] at h; cases h
        | ub => rw [hload] at h; cases h
      · obtain ⟨new, h1, h2⟩ := em_any.settled (s := { s with ids := q }) h
        have h1 : (s'.objs c.toNat).log = (s.objs c.toNat).log := h1.2 _ hkc
        exact .inl ⟨by rw [h1] at ho; exact ho, by simp⟩

end Channel

/-! ## The three components -/

namespace Stack

open Transport (Down TEv tlogs Steady)
open Channel (clogs)

variable {m : Nat → Mem} {u : Nat → UInt32 × UInt32} {evs : List (Env × Ev)} {s s' : Stack}

/-- No message is lost in the step; the answer to an open request finds its connection connected and without a channel; the request
to end a connection comes when the channel of the connection is not open for it. -/
structure Orderly (e : Env) (s : Stack) (v : Ev) : Prop where
  kept : ∀ s', step s e v = .ok s' → Kept s s' v
  answer : v = .deliver → ∀ k c f d rest, s.box = .tcp k (.openRsp c f d) :: rest →
    (s.srv.conns k).st = .connected ∧ Transport.owner (s.srv.conns k).log = none
  closing : v = .deliver → ∀ k rest, s.box = .tcp k .releaseReq :: rest → ∀ c, Transport.owner (s.srv.conns k).log = some c →
    Channel.owner (s.chans.objs c.toNat).log ≠ some (UInt32.ofNat k)

/-- Channel `c`, open for `x`, is the channel of connection `x`; or the answer that says so is under way; or the notice that it is not any more. -/
def Held (s : Stack) (c x : UInt32) : Prop :=
  Transport.owner (s.srv.conns x.toNat).log = some c ∨ (∃ f d, .tcp x.toNat (.openRsp c f d) ∈ s.box) ∨ ∃ y, .chan (.released y c) ∈ s.box

theorem sent_tcp {x : Mail} (h : x ∈ sentTcp s.srv s'.srv) : x ∈ sent s s' := List.mem_append_left _ h

theorem sent_chan {x : Mail} (h : x ∈ sentChan s.chans s'.chans) : x ∈ sent s s' := List.mem_append_right _ (List.mem_append_left _ h)

/-- Connection `k` with channel `c` after a step of the transport component. -/
theorem held_tcp {tevs : List (TEnv × TEv)} (ht' : Srv.Reach m tevs s'.srv) {k : Nat} (hk : Pool.valid k) {c : UInt32} {l new new' : List TAct}
    (ha : Adds tlogs k new s.srv s'.srv) (hn : new = l ++ new') (hs : Steady new') (ho : Transport.owner ((s.srv.conns k).log ++ l) = some c)
    (hlife : Transport.Life.run .idle ((s.srv.conns k).log ++ l) = some (.live (some c))) :
    Transport.owner (s'.srv.conns k).log = some c ∨ .chan (.released (UInt32.ofNat k) c) ∈ sent s s' := by
  have hlog : (s'.srv.conns k).log = ((s.srv.conns k).log ++ l) ++ new' := by
    rw [show (s'.srv.conns k).log = (s.srv.conns k).log ++ new from ha.1, hn, List.append_assoc]
  refine (Transport.stays ht' hk hlog ho hs hlife).imp_right fun h => sent_tcp ?_
  rw [sentTcp_adds ha, if_pos (lt33 hk)]
  exact List.mem_filterMap.mpr ⟨_, by rw [hn]; exact List.mem_append_right _ h, rfl⟩

theorem held_step (h : Reach m u evs s) {e : Env} {v : Ev} (hp : Possible s v) (hor : Orderly e s v) (hn : step s e v = .ok s')
    (hh : ∀ c x, Pool.valid c.toNat → Channel.owner (s.chans.objs c.toNat).log = some x → Held s c x) {c x : UInt32} (hv : Pool.valid c.toNat)
    (ho : Channel.owner (s'.chans.objs c.toNat).log = some x) : Held s' c x := by
  obtain ⟨_, _, _, ht', _, _, _⟩ := reach_parts (.step h hp hn)
  obtain ⟨_, _, _, ht, hc, _, _⟩ := reach_parts h
  have hkept := hor.kept s' hn
  have old : ∀ y ∈ rest s v, y ∈ s'.box := fun y hy => by rw [hkept]; exact List.mem_append_left _ hy
  have new : ∀ y ∈ sent s s', y ∈ s'.box := fun y hy => by rw [hkept]; exact List.mem_append_right _ hy
  -- a step of the transport component that assigns nothing
  have steady : ∀ {k new}, s'.chans = s.chans → Adds tlogs k new s.srv s'.srv → Steady new → Pool.valid k → (∀ y, y ∈ s.box → y ∈ rest s v ∨ ∃ k d, y = .tcp k d ∧ ∀ c f d', d ≠ .openRsp c f d') →
      Held s' c x := by
    intro k new' hch ha hs hk hbox
    rw [hch] at ho
    rcases hh c x hv ho with h1 | ⟨f, d, h1⟩ | ⟨y, h1⟩
    · by_cases hxk : x.toNat = k
      · rw [hxk] at h1
        have := held_tcp (l := []) ht' hk ha rfl hs (by simpa using h1) (by simpa using (Transport.owner_phase ht hk h1).1)
        rcases this with h2 | h2
        · exact .inl (by rw [hxk]; exact h2)
        · exact .inr (.inr ⟨_, new _ h2⟩)
      · exact .inl (by rw [show (s'.srv.conns x.toNat).log = (s.srv.conns x.toNat).log from ha.2 _ hxk]; exact h1)
    · rcases hbox _ h1 with h2 | ⟨_, _, h2, h3⟩
      · exact .inr (.inl ⟨f, d, old _ h2⟩)
      · injection h2 with _ h2
        exact absurd h2.symm (h3 c f d)
    · rcases hbox _ h1 with h2 | ⟨_, _, h2, _⟩
      · exact .inr (.inr ⟨y, old _ h2⟩)
      · cases h2
  cases v with
  | net v =>
    obtain ⟨h1, h2, h3, h4⟩ := onTcp_ok hn
    have hdown : ∀ k d, v ≠ .down k d := by
      rintro k d rfl
      exact Bool.noConfusion hp.1
    obtain ⟨k, new', ha, hs, hk⟩ := Transport.next_turns ht hp.2 (fun k c f d => hdown _ _) (fun k => hdown _ _) h1
    exact steady h2 ha hs hk fun y hy => .inl hy
  | deliver =>
    have hn' := hn
    unfold step stepIn deliver at hn'
    cases hb : s.box with
    | nil => exact absurd hb hp
    | cons y rest' =>
      have hrest : rest s .deliver = rest' := by
        show s.box.tail = _
        rw [hb]
        rfl
      have hmem : ∀ z, z ∈ s.box → z = y ∨ z ∈ rest' := fun z hz => by rw [hb] at hz; exact List.mem_cons.mp hz
      rw [hb] at hn'
      cases y with
      | tcp k d =>
        obtain ⟨h1, h2, h3, h4⟩ := onTcp_ok hn'
        have hch : s'.chans = s.chans := h2
        by_cases hq : ∃ c' f d', d = .openRsp c' f d'
        · obtain ⟨c', f, d', rfl⟩ := hq
          obtain ⟨hst, hfree⟩ := hor.answer rfl k c' f d' rest' hb
          obtain ⟨new', ha, hs, hk⟩ := Transport.next_assigns hst h1
          rw [hch] at ho
          have hx : k ≠ x.toNat → Transport.owner (s'.srv.conns x.toNat).log = Transport.owner (s.srv.conns x.toNat).log := fun hx => by
            rw [show (s'.srv.conns x.toNat).log = (s.srv.conns x.toNat).log from ha.2 _ (Ne.symm hx)]
          rcases hh c x hv ho with g1 | ⟨f', d'', g1⟩ | ⟨y, g1⟩
          · by_cases hxk : k = x.toNat
            · rw [← hxk, hfree] at g1
              cases g1
            · exact .inl (by rw [hx hxk]; exact g1)
          · rcases hmem _ g1 with g2 | g2
            · injection g2 with g2 g3
              injection g3 with g3 _ _
              subst g3
              have hlife : Transport.Life.run .idle ((s.srv.conns k).log ++ [.assigned c]) = some (.live (some c)) := by
                rw [Transport.Life.run_append, Transport.C36_life _ _ _ ht k hk, hst]
                rfl
              rcases held_tcp (l := [.assigned c]) ht' hk ha rfl hs (by rw [Transport.owner_append]) hlife with g4 | g4
              · exact .inl (by rw [g2]; exact g4)
              · exact .inr (.inr ⟨_, new _ g4⟩)
            · exact .inr (.inl ⟨f', d'', old _ (by rw [hrest]; exact g2)⟩)
          · rcases hmem _ g1 with g2 | g2
            · cases g2
            · exact .inr (.inr ⟨y, old _ (by rw [hrest]; exact g2)⟩)
        · have hno : ∀ c f d', d ≠ .openRsp c f d' := fun c f d' hd => hq ⟨c, f, d', hd⟩
          have hbox : ∀ y, y ∈ s.box → y ∈ rest s .deliver ∨ ∃ k d, y = .tcp k d ∧ ∀ c f d', d ≠ .openRsp c f d' := fun y hy =>
            (hmem y hy).elim (fun h => .inr ⟨k, d, h, hno⟩) fun h => .inl (by rw [hrest]; exact h)
          by_cases hr : d = .releaseReq
          · subst hr
            obtain ⟨new', ha, hk⟩ := Transport.next_down h1
            rw [hch] at ho
            rcases hh c x hv ho with g1 | ⟨f', d'', g1⟩ | ⟨y, g1⟩
            · by_cases hxk : k = x.toNat
              · have := hor.closing rfl k rest' hb c (by rw [hxk]; exact g1)
                rw [ho, hxk, UInt32.ofNat_toNat] at this
                exact absurd rfl this
              · exact .inl (by rw [show (s'.srv.conns x.toNat).log = (s.srv.conns x.toNat).log from ha.2 _ (Ne.symm hxk)]; exact g1)
            · rcases hmem _ g1 with g2 | g2
              · injection g2 with _ g2
                cases g2
              · exact .inr (.inl ⟨f', d'', old _ (by rw [hrest]; exact g2)⟩)
            · rcases hmem _ g1 with g2 | g2
              · cases g2
              · exact .inr (.inr ⟨y, old _ (by rw [hrest]; exact g2)⟩)
          · obtain ⟨k, new', ha, hs, hk⟩ := Transport.next_turns (v := .down k d) ht trivial (fun k' c f d' he => hno c f d' (by injection he))
              (fun k' he => hr (by injection he)) h1
            exact steady hch ha hs hk hbox
      | chan y =>
        obtain ⟨h1, h2, h3, h4⟩ := onChan_ok hn'
        have hsrv : s'.srv = s.srv := h2
        rcases Channel.next_opens hc h1 hv ho with ⟨g1, g2⟩ | ⟨new', d, g1, g2⟩
        · rcases hh c x hv g1 with g3 | ⟨f, d, g3⟩ | ⟨z, g3⟩
          · exact .inl (by rw [hsrv]; exact g3)
          · rcases hmem _ g3 with g4 | g4
            · cases g4
            · exact .inr (.inl ⟨f, d, old _ (by rw [hrest]; exact g4)⟩)
          · rcases hmem _ g3 with g4 | g4
            · injection g4 with g4
              exact absurd g4.symm (g2 z)
            · exact .inr (.inr ⟨z, old _ (by rw [hrest]; exact g4)⟩)
        · refine .inr (.inl ⟨0x46, d, new _ (sent_chan ?_)⟩)
          have hd : diff (fun k => (s.chans.objs k).log) (fun k => (s'.chans.objs k).log) = if c.toNat < 33 then new' else [] := diff_adds (logs := clogs) g1
          unfold sentChan
          rw [hd, if_pos (lt33 hv)]
          exact List.mem_filterMap.mpr ⟨_, g2, rfl⟩
      | sess hdr d =>
        obtain ⟨h1, h2, h3, h4⟩ := onSess_ok hn'
        have hsrv : s'.srv = s.srv := h2
        have hch : s'.chans = s.chans := h3
        rw [hch] at ho
        rcases hh c x hv ho with g3 | ⟨f, d, g3⟩ | ⟨z, g3⟩
        · exact .inl (by rw [hsrv]; exact g3)
        · rcases hmem _ g3 with g4 | g4
          · cases g4
          · exact .inr (.inl ⟨f, d, old _ (by rw [hrest]; exact g4)⟩)
        · rcases hmem _ g3 with g4 | g4
          · cases g4
          · exact .inr (.inr ⟨z, old _ (by rw [hrest]; exact g4)⟩)

/-- C99: in every history of orderly steps every open channel is the channel of its connection, or a message that makes it so or
tells it of the end of the connection is under way. -/
theorem C99_held_partial {s0 : Stack} (h0 : create m u = .ok s0) {l : List (Env × Ev)} (hp : Path Orderly s0 l s) {c x : UInt32}
    (hv : Pool.valid c.toNat) (ho : Channel.owner (s.chans.objs c.toNat).log = some x) : Held s c x := by
  suffices Reach m u l s ∧ ∀ c x, Pool.valid c.toNat → Channel.owner (s.chans.objs c.toNat).log = some x → Held s c x from this.2 c x hv ho
  clear hv ho c x
  induction hp with
  | nil =>
    refine ⟨.create h0, fun c x _ ho => ?_⟩
    obtain ⟨srv, h1, h⟩ := Exec.bind_eq_ok.mp h0
    obtain ⟨chans, h2, h⟩ := Exec.bind_eq_ok.mp h
    obtain ⟨sess, h3, h⟩ := Exec.bind_eq_ok.mp h
    injection h with h
    subst h
    obtain ⟨ids, _, h2⟩ := Exec.bind_eq_ok.mp h2
    injection h2 with h2
    subst h2
    cases ho
  | snoc _ hposs hP hn ih => exact ⟨.step ih.1 hposs hn, fun c x => held_step ih.1 hposs hP hn ih.2⟩

/-- C99: at rest every open channel is the channel of a connection that is in use: none is left behind. -/
theorem C99_rest_partial {s0 : Stack} (h0 : create m u = .ok s0) {l : List (Env × Ev)} (hp : Path Orderly s0 l s) (hb : s.box = []) {c x : UInt32}
    (hv : Pool.valid c.toNat) (ho : Channel.owner (s.chans.objs c.toNat).log = some x) :
    Pool.valid x.toNat ∧ (s.srv.conns x.toNat).assoc = some c ∧ (s.srv.conns x.toNat).st ≠ .init ∧ ¬ Orphan s c := by
  have hr : Reach m u l s := by
    clear hb hv ho
    induction hp with
    | nil => exact .create h0
    | snoc _ hposs hP hn ih => exact .step ih hposs hn
  obtain ⟨_, _, _, ht, _, _, _⟩ := reach_parts hr
  rcases C99_held_partial h0 hp hv ho with h | ⟨f, d, h⟩ | ⟨y, h⟩
  · have hx : Pool.valid x.toNat := by
      by_cases hx : Pool.valid x.toNat
      · exact hx
      · rw [Transport.outside ht hx] at h
        cases h
    obtain ⟨_, h1, h2⟩ := Transport.owner_phase ht hx h
    exact ⟨hx, h1, h2, fun horph => horph.alone _ (Nat.le_of_lt_succ (lt33 hx)) h⟩
  · rw [hb] at h
    cases h
  · rw [hb] at h
    cases h

/-! ## Runs -/

/-- Whether a step is orderly. -/
def orderly (e : Env) (s : Stack) (v : Ev) : Bool :=
  (match step s e v with
    | .ok s' => decide (s'.box = rest s v ++ sent s s')
    | _ => true) &&
  match v, s.box with
  | .deliver, .tcp k (.openRsp _ _ _) :: _ => decide ((s.srv.conns k).st = .connected) && decide (Transport.owner (s.srv.conns k).log = none)
  | .deliver, .tcp k .releaseReq :: _ => match Transport.owner (s.srv.conns k).log with
    | none => true
    | some c => decide (Channel.owner (s.chans.objs c.toNat).log ≠ some (UInt32.ofNat k))
  | _, _ => true

theorem orderly_iff {e : Env} {v : Ev} (h : orderly e s v = true) : Orderly e s v := by
  unfold orderly at h
  rw [Bool.and_eq_true] at h
  obtain ⟨h1, h2⟩ := h
  refine ⟨fun s' hs => ?_, ?_, ?_⟩
  · rw [hs] at h1
    exact (of_decide_eq_true h1 : s'.box = rest s v ++ sent s s')
  · rintro rfl k c f d rest hb
    rw [hb] at h2
    rw [Bool.and_eq_true] at h2
    exact ⟨of_decide_eq_true h2.1, of_decide_eq_true h2.2⟩
  · rintro rfl k rest hb c hc
    rw [hb] at h2
    simp only [hc] at h2
    exact of_decide_eq_true h2

/-- A history of possible orderly steps. -/
def strolls (s : Stack) : List (Env × Ev) → Exec Stack
  | [] => .ok s
  | (e, v) :: l => if Possible s v ∧ orderly e s v = true then step s e v >>= fun s' => strolls s' l else .throws

theorem strolls_path {pre l : List (Env × Ev)} {s0 : Stack} (h : Path Orderly s0 pre s) (hr : strolls s l = .ok s') : Path Orderly s0 (pre ++ l) s' := by
  induction l generalizing pre s with
  | nil =>
    injection hr with hr
    rw [List.append_nil, ← hr]
    exact h
  | cons x l ih =>
    obtain ⟨e, v⟩ := x
    unfold strolls at hr
    split at hr
    · rename_i hp
      obtain ⟨s1, h1, h2⟩ := Exec.bind_eq_ok.mp hr
      rw [List.append_cons]
      exact ih (h.snoc hp.1 (orderly_iff hp.2) h1) h2
    · cases hr

/-- The client of `opens` departs without a word. -/
def departs : List (Env × Ev) := opens ++ [(calm, .net (.timer 1)), (calm, .deliver)]

theorem talk_strolls : (do
    let s ← create (fun _ => garbage) Channel.unset
    let s' ← strolls s talk
    pure (s'.box, Channel.owner (s'.chans.objs 1).log)) = .ok ([], some 1) := by
  decide +kernel

theorem departs_strolls : (do
    let s ← create (fun _ => garbage) Channel.unset
    let s' ← strolls s departs
    pure (s'.box, (List.range 33).map fun c => Channel.owner (s'.chans.objs c).log)) = .ok ([], List.replicate 33 none) := by
  decide +kernel

/-- C99: the steps of `talk` are orderly; at its end channel 1 is open and the channel of connection 1. -/
example : ∃ s0 s, create (fun _ => garbage) Channel.unset = .ok s0 ∧ Path Orderly s0 talk s ∧ Channel.owner (s.chans.objs 1).log = some 1 ∧
    (s.srv.conns 1).assoc = some 1 := by
  obtain ⟨s0, h1, h2⟩ := Exec.bind_eq_ok.mp talk_strolls
  obtain ⟨s, h3, h4⟩ := Exec.bind_eq_ok.mp h2
  injection h4 with h4
  injection h4 with h4 h5
  have hp := strolls_path (pre := []) .nil h3
  exact ⟨s0, s, h1, hp, h5, (C99_rest_partial h1 hp h4 (c := 1) (by decide) h5).2.1⟩

/-- C99: those of `departs` too, and no channel is open at its end. -/
example : ∃ s0 s, create (fun _ => garbage) Channel.unset = .ok s0 ∧ Path Orderly s0 departs s ∧ s.box = [] ∧
    (List.range 33).map (fun c => Channel.owner (s.chans.objs c).log) = List.replicate 33 none := by
  obtain ⟨s0, h1, h2⟩ := Exec.bind_eq_ok.mp departs_strolls
  obtain ⟨s, h3, h4⟩ := Exec.bind_eq_ok.mp h2
  injection h4 with h4
  injection h4 with h4 h5
  exact ⟨s0, s, h1, strolls_path (pre := []) .nil h3, h4, h5⟩

end Stack

end Uscada.Ua
