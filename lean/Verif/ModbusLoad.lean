import Verif.ModbusNetProps
import Verif.ModbusNetRuns
/-!
# C86: how many messages wait between the Modbus sessions and the controller

The mailbox of a reactor has 64 slots and drops what finds none (Reactor.cpp:23,109-118, MsgMemStorage.cpp:31-46).  `ModbusNet` leaves open when this
happens.  Here the messages of the masters are counted.
-/

namespace Uscada.Masters

open Uscada.Modbus Uscada.Modbus.Server Uscada.Controller

/-- The sessions with a message under way, one entry for each message. -/
def Net.keys (n : Net) : List (Nat × Nat) := n.asks.map (fun m => (m.1, m.2.1)) ++ n.says.map (fun m => (m.1, m.2.1))

/-- What masters do not do while a request of theirs is under way: send more, leave, or wait so long that the timer of the session expires.  And the server
is not replaced then. -/
def Patient (n : Net) : Ev → Prop
  | .modbus (.server v (.sess i e)) _ => (v, i) ∈ n.keys → e = .data .na
  | .modbus (.config its) _ => ∀ it ∈ its, ∀ k ∈ n.keys, it.id = k.1 → ∃ m, it.entity = .inl m
  | _ => True

/-- The servers of a configuration message are new and find at most `L` free links (Modbus.cpp:30-36, Reactor.cpp:24-28). -/
def NewWith (L : Nat) : Ev → Prop
  | .modbus (.config its) _ => ∀ it ∈ its, ∀ S, it.entity = .inr S → ∃ f t l, NewSessions f ∧ l ≤ L ∧ S = Server.create f t l
  | _ => True

/-- The states of the program with `a` servers while all masters are patient. -/
inductive Calm (rnd : Nat → UInt8) (a L : Nat) : Net → Prop
  | create (b : Nat) : Calm rnd a L (Net.create (Dispatcher.create a b))
  | step {n n' : Net} {e : Ev} {o : List Dispatcher.Out} : Calm rnd a L n → Patient n e → NewWith L e → n.step rnd e = .ok (n', o) → Calm rnd a L n'

/-! ## What a session forwards -/

theorem transit_outs {s s' : Session} {t : SSt} {o : List SOut} (h : s.transit t = .ok (s', o)) : ∀ q, .fwd q ∉ o := by
  unfold Session.transit at h
  split at h
  · cases h
    simp
  rw [Exec.bind_eq_ok] at h
  obtain ⟨s1, _, h⟩ := h
  unfold Session.enter at h
  dsimp only at h
  split at h
  · cases h
    simp
  · rw [Exec.bind_eq_ok] at h
    obtain ⟨s2, _, h⟩ := h
    cases h
    simp
  · rw [Exec.bind_eq_ok] at h
    obtain ⟨s2, _, h⟩ := h
    cases h
    simp

theorem transit_wait {s s' : Session} {o : List SOut} (h : s.transit .wait = .ok (s', o)) : o = [] ∧ s'.st = .wait ∧ s'.opened = s.opened := by
  unfold Session.transit at h
  split at h
  · rename_i hs
    cases h
    exact ⟨rfl, hs, rfl⟩
  rw [Exec.bind_eq_ok] at h
  obtain ⟨s1, h0, h⟩ := h
  have h0 : s1.opened = s.opened := by
    unfold Session.exit at h0
    split at h0
    · cases h0; rfl
    all_goals
      unfold Session.setTimer at h0
      split at h0 <;> cases h0
      rfl
  unfold Session.enter at h
  dsimp only at h
  rw [Exec.bind_eq_ok] at h
  obtain ⟨s2, h1, h⟩ := h
  cases h
  unfold Session.setTimer at h1
  split at h1
  · cases h1
    exact ⟨rfl, rfl, h0⟩
  · cases h1

/-- Reading forwards nothing, or one request and is done. -/
theorem receive_outs {s s' : Session} {rx : Rx} {o : List SOut} {r : Status} (h : s.receive rx = .ok (s', o, r)) :
    s'.st = s.st ∧ ((∃ q, o = [.fwd q] ∧ r = .done ∧ s'.opened = true) ∨ o = []) := by
  have ev : ∀ {s s' : Session} {o : List SOut} {r : Status}, s.opened = true → s.evaluate = .ok (s', o, r) →
      s'.st = s.st ∧ ((∃ q, o = [.fwd q] ∧ r = .done ∧ s'.opened = true) ∨ o = []) := by
    intro s s' o r hop h
    unfold Session.evaluate at h
    split at h
    · cases h; exact ⟨rfl, .inr rfl⟩
    split at h
    · cases h; exact ⟨rfl, .inr rfl⟩
    split at h
    · cases h; exact ⟨rfl, .inr rfl⟩
    split at h
    · cases h; exact ⟨rfl, .inr rfl⟩
    rw [Exec.bind_eq_ok] at h
    obtain ⟨⟨b, a, ok⟩, _, h⟩ := h
    dsimp only at h
    split at h
    · cases h; exact ⟨rfl, .inr rfl⟩
    split at h
    · cases h
    · cases h; exact ⟨rfl, .inl ⟨_, rfl, rfl, hop⟩⟩
  unfold Session.receive at h
  split at h
  · cases h; exact ⟨rfl, .inr rfl⟩
  split at h
  · cases h
  split at h
  · cases h; exact ⟨rfl, .inr rfl⟩
  split at h
  · cases h; exact ⟨rfl, .inr rfl⟩
  · cases h; exact ⟨rfl, .inr rfl⟩
  · rename_i hop _ _
    have := ev (by simpa using hop) h
    exact this

/-- Answers are not forwarded. -/
theorem rsp_outs {s s' : Session} {r : AppRsp} {ok : Bool} {o : List SOut} (h : s.step (.rsp r ok) = .ok (s', o)) : ∀ q, .fwd q ∉ o := by
  simp only [Session.step, Session.onRsp] at h
  split at h
  · cases h; simp
  · cases h; simp
  rw [Exec.bind_eq_ok] at h
  obtain ⟨⟨o1, res⟩, h1, h⟩ := h
  have h3 : ∀ q, .fwd q ∉ o1 := by
    intro q hq
    rw [Session.send_body] at h1
    split at h1
    · cases h1; simp at hq
    split at h1
    · cases h1; simp at hq
    split at h1
    · cases h1
    rw [Exec.bind_eq_ok] at h1
    obtain ⟨⟨b, k⟩, _, h1⟩ := h1
    dsimp only at h1
    split at h1
    · cases h1; simp at hq
    split at h1
    · cases h1; simp at hq
    split at h1
    · cases h1
    split at h1 <;> cases h1 <;> simp at hq
  dsimp only at h
  split at h
  · rw [Exec.bind_eq_ok] at h
    obtain ⟨⟨s2, o2⟩, h2, h⟩ := h
    cases h
    exact fun q hq => (List.mem_append.mp hq).elim (h3 q) (transit_outs h2 q)
  · rw [Exec.bind_eq_ok] at h
    obtain ⟨⟨s2, o2⟩, h2, h⟩ := h
    cases h
    exact fun q hq => (List.mem_append.mp hq).elim (h3 q) (transit_outs h2 q)
  · cases h
    exact h3

/-- A step of a session forwards one request, and then the session waits, or nothing. -/
theorem sess_out {s s' : Session} {e : Session.Ev} {o : List SOut} (h : s.step e = .ok (s', o)) :
    (∃ q, o = [.fwd q] ∧ s'.st = .wait ∧ s'.opened = true ∧ s.st ≠ .init) ∨ ∀ q, .fwd q ∉ o := by
  cases e with
  | start =>
    simp only [Session.step, Session.onStart] at h
    split at h
    · exact .inr (transit_outs h)
    · cases h; exact .inr (by simp)
  | linkError => simp only [Session.step] at h; cases h; exact .inr (by simp)
  | timer =>
    simp only [Session.step, Session.onTimer] at h
    split at h
    · split at h
      · cases h; exact .inr (by simp)
      · exact .inr (transit_outs h)
      · exact .inr (transit_outs h)
    · cases h; exact .inr (by simp)
  | rsp r ok => exact .inr (rsp_outs h)
  | data rx =>
    simp only [Session.step] at h
    split at h
    case isFalse => cases h; exact .inr (by simp)
    unfold Session.onData at h
    split at h
    · cases h; exact .inr (by simp)
    · rename_i hs
      rw [Exec.bind_eq_ok] at h
      obtain ⟨⟨s1, o1, r⟩, h1, h⟩ := h
      obtain ⟨_, h1 | rfl⟩ := receive_outs h1
      · obtain ⟨q, rfl, rfl, hop⟩ := h1
        dsimp only at h
        rw [Exec.bind_eq_ok] at h
        obtain ⟨⟨s2, o2⟩, h2, h⟩ := h
        cases h
        obtain ⟨h5, h6, h7⟩ := transit_wait h2
        subst h5
        exact .inl ⟨q, rfl, h6, h7.trans hop, by rw [hs]; simp⟩
      · dsimp only at h
        split at h
        · rw [Exec.bind_eq_ok] at h
          obtain ⟨⟨s2, o2⟩, h2, h⟩ := h
          cases h
          exact .inr (transit_outs h2)
        · rw [Exec.bind_eq_ok] at h
          obtain ⟨⟨s2, o2⟩, h2, h⟩ := h
          cases h
          exact .inr (transit_outs h2)
        · cases h; exact .inr (by simp)
    · rename_i hs
      rw [Exec.bind_eq_ok] at h
      obtain ⟨⟨s1, o1, r⟩, h1, h⟩ := h
      obtain ⟨h0, h1 | rfl⟩ := receive_outs h1
      · obtain ⟨q, rfl, rfl, hop⟩ := h1
        cases h
        exact .inl ⟨q, rfl, h0.trans hs, hop, by rw [hs]; simp⟩
      · dsimp only at h
        split at h
        · rw [Exec.bind_eq_ok] at h
          obtain ⟨⟨s2, o2⟩, h2, h⟩ := h
          cases h
          exact .inr (transit_outs h2)
        · cases h; exact .inr (by simp)

/-! ## What the component forwards -/

theorem asksOf_map (v i : Nat) (o : List SOut) : asksOf (o.map (.session v i)) = o.filterMap fun
    | .fwd q => some (v, i, q)
    | _ => none := by
  unfold asksOf
  rw [List.filterMap_map]
  congr 1
  funext x
  cases x <;> rfl

theorem asksOf_none {v i : Nat} {o : List SOut} (h : ∀ q, .fwd q ∉ o) : asksOf (o.map (.session v i)) = [] := by
  rw [asksOf_map, List.filterMap_eq_nil_iff]
  intro x hx
  cases x with
  | fwd q => exact absurd hx (h q)
  | frame w => rfl
  | released => rfl

/-- The effects of a server are those of one session. -/
theorem server_out {S S' : Server} {e : Server.Ev} {o : List (Nat × SOut)} (hg : Safe S) (h : S.step e = .ok (S', o)) :
    (∃ i q k, o = [(i, .fwd q)] ∧ e = .sess i k ∧ k ≠ .data .na ∧ k ≠ .linkError ∧ i < 256 ∧ i ∉ S'.free ∧
      (S'.sess i).st = .wait ∧ (S'.sess i).opened = true) ∨
    ∀ i q, (i, .fwd q) ∉ o := by
  cases e with
  | accept ok =>
    refine .inr ?_
    cases hf : S.free with
    | nil =>
      simp only [Server.step, hf] at h
      cases h
      simp
    | cons j fr =>
      simp only [Server.step, hf] at h
      generalize Server.prepare { S with free := fr } j ok = p at h
      obtain ⟨T, good⟩ := p
      dsimp only at h
      split at h
      · cases h
        simp
      · rw [Exec.bind_eq_ok] at h
        obtain ⟨⟨s, o'⟩, h1, h2⟩ := h
        cases h2
        simp only [Session.step, Session.onStart] at h1
        have h3 : ∀ q, .fwd q ∉ o' := by
          split at h1
          · exact transit_outs h1
          · cases h1; simp
        intro i q hq
        obtain ⟨x, hx, hx2⟩ := List.mem_map.mp hq
        cases hx2
        exact h3 q hx
  | sess j k =>
    by_cases hs : k = .start
    · subst hs
      simp only [Server.step] at h
      cases h
      exact .inr (by simp)
    have hstep : S.step (.sess j k) = (if j ≥ Server.maxNumSession then .ub else do
        let (s, o) ← (S.sess j).step k
        pure (Server.absorb S j s o, o.map fun x => (j, x))) := by
      cases k <;> first | exact absurd rfl hs | rfl
    rw [hstep] at h
    split at h
    · cases h
    rename_i hj
    rw [Exec.bind_eq_ok] at h
    obtain ⟨⟨s, o'⟩, h1, h2⟩ := h
    cases h2
    rcases sess_out h1 with ⟨q, rfl, h3, hop, h4⟩ | h3
    · refine .inl ⟨j, q, k, rfl, rfl, ?_, ?_, ?_, ?_, ?_⟩
      · rintro rfl
        simp only [Session.step] at h1
        split at h1
        case isFalse => cases h1
        unfold Session.onData at h1
        have hna : ∀ {s : Session} {r : Exec (Session × List SOut × Status)}, s.receive .na = r → ∀ s' o r', r = .ok (s', o, r') → o = [] := by
          rintro s r rfl s' o r' hr
          unfold Session.receive at hr
          split at hr
          · cases hr; rfl
          split at hr
          · cases hr
          split at hr <;> cases hr <;> rfl
        split at h1
        · cases h1
        · rw [Exec.bind_eq_ok] at h1
          obtain ⟨⟨s1, o1, r⟩, h5, h6⟩ := h1
          have := hna rfl _ _ _ h5
          subst this
          dsimp only at h6
          split at h6
          · rw [Exec.bind_eq_ok] at h6
            obtain ⟨⟨s2, o2⟩, h7, h8⟩ := h6
            injection h8 with h8
            injection h8 with _ h8
            rw [List.nil_append] at h8
            dsimp only at h8
            exact transit_outs h7 q (by rw [h8]; simp)
          · rw [Exec.bind_eq_ok] at h6
            obtain ⟨⟨s2, o2⟩, h7, h8⟩ := h6
            injection h8 with h8
            injection h8 with _ h8
            rw [List.nil_append] at h8
            dsimp only at h8
            exact transit_outs h7 q (by rw [h8]; simp)
          · cases h6
        · rw [Exec.bind_eq_ok] at h1
          obtain ⟨⟨s1, o1, r⟩, h5, h6⟩ := h1
          have := hna rfl _ _ _ h5
          subst this
          dsimp only at h6
          split at h6
          · rw [Exec.bind_eq_ok] at h6
            obtain ⟨⟨s2, o2⟩, h7, h8⟩ := h6
            injection h8 with h8
            injection h8 with _ h8
            rw [List.nil_append] at h8
            dsimp only at h8
            exact transit_outs h7 q (by rw [h8]; simp)
          · cases h6
      · rintro rfl
        simp only [Session.step] at h1
        cases h1
      · have : ¬ (256 ≤ j) := hj
        omega
      · show j ∉ (Server.absorb S j s [SOut.fwd q]).free
        simp only [Server.absorb, List.mem_singleton, reduceCtorEq, if_false]
        intro hm
        exact h4 (hg.idle j hm).1
      · show ((Server.absorb S j s [SOut.fwd q]).sess j).st = .wait ∧ ((Server.absorb S j s [SOut.fwd q]).sess j).opened = true
        simp only [Server.absorb, List.mem_singleton, reduceCtorEq, if_false, set_same]
        exact ⟨h3, hop⟩
    · refine .inr fun i q hq => ?_
      obtain ⟨x, hx, hx2⟩ := List.mem_map.mp hq
      cases hx2
      exact h3 q hx

/-- No effect of a session. -/
def NoSession (o : List Dispatcher.Out) : Prop := ∀ v i x, .session v i x ∉ o

theorem NoSession.asks {o : List Dispatcher.Out} (h : NoSession o) : asksOf o = [] := by
  unfold asksOf
  rw [List.filterMap_eq_nil_iff]
  intro x hx
  cases x with
  | session v i y => exact absurd hx (h v i y)
  | client _ _ => rfl
  | reject _ => rfl
  | cfgRsp _ => rfl

theorem configItem_none {d d' : Dispatcher} {it : Dispatcher.CfgItem} {o : List Dispatcher.Out} {t : Bool} (h : d.configItem it = .ok (d', o, t)) :
    NoSession o ∧ d'.numServers = d.numServers := by
  have hc : ∀ (k : Nat) (o : List COut), NoSession (o.map (.client k)) := by
    intro k o v i x hx
    obtain ⟨_, _, e⟩ := List.mem_map.1 hx
    cases e
  have hn : NoSession [] := fun v i x h => by simp at h
  unfold Dispatcher.configItem at h
  split at h
  · split at h
    · cases h; exact ⟨hn, rfl⟩
    split at h
    · cases h; exact ⟨hn, rfl⟩
    split at h
    · cases h
    · cases h; exact ⟨hn, rfl⟩
  · split at h
    · cases h; exact ⟨hn, rfl⟩
    split at h
    · cases h; exact ⟨hn, rfl⟩
    all_goals
      rw [Exec.bind_eq_ok] at h
      obtain ⟨⟨c, o'⟩, _, h⟩ := h
      cases h
      exact ⟨hc _ _, rfl⟩

theorem configLoop_none (its : List Dispatcher.CfgItem) : ∀ {d d' : Dispatcher} {o : List Dispatcher.Out} {t : Bool}, d.configLoop its = .ok (d', o, t) →
    NoSession o ∧ d'.numServers = d.numServers := by
  induction its with
  | nil =>
    intro d d' o t h
    cases h
    exact ⟨fun v i x h => by simp at h, rfl⟩
  | cons it its ih =>
    intro d d' o t h
    unfold Dispatcher.configLoop at h
    rw [Exec.bind_eq_ok] at h
    obtain ⟨⟨d1, o1, t1⟩, h1, h⟩ := h
    have a := configItem_none h1
    dsimp only at h
    split at h
    · cases h
      exact a
    · rw [Exec.bind_eq_ok] at h
      obtain ⟨⟨d2, o2, t2⟩, h2, h⟩ := h
      cases h
      have b := ih h2
      exact ⟨fun v i x hx => (List.mem_append.mp hx).elim (a.1 v i x) (b.1 v i x), b.2.trans a.2⟩

/-- What one event of the component forwards. -/
theorem dispatcher_out {d d' : Dispatcher} {e : Dispatcher.Ev} {o : List Dispatcher.Out} (hf : Fine d) (h : d.step e = .ok (d', o)) :
    d'.numServers = d.numServers ∧ (asksOf o = [] ∨ ∃ v i q k s, asksOf o = [(v, i, q)] ∧ e = .server v (.sess i k) ∧ k ≠ .data .na ∧ k ≠ .linkError ∧
      Sits d' v i s ∧ s.st = .wait ∧ s.opened = true) := by
  have hc : ∀ (k : Nat) (o : List COut), NoSession (o.map (.client k)) := by
    intro k o v i x hx
    obtain ⟨_, _, e⟩ := List.mem_map.1 hx
    cases e
  have nothing : asksOf [] = [] := rfl
  have outs : ∀ {v : Nat} {o : List (Nat × SOut)}, (∀ i q, (i, .fwd q) ∉ o) → asksOf (o.map fun x => .session v x.1 x.2) = [] := by
    intro v o ho
    unfold asksOf
    rw [List.filterMap_eq_nil_iff]
    intro x hx
    obtain ⟨⟨i, y⟩, hy, rfl⟩ := List.mem_map.mp hx
    cases y with
    | fwd q => exact absurd hy (ho i q)
    | frame _ => rfl
    | released => rfl
  cases e with
  | config its =>
    simp only [Dispatcher.step, Dispatcher.config] at h
    rw [Exec.bind_eq_ok] at h
    obtain ⟨⟨d1, o1, t1⟩, h1, h⟩ := h
    obtain ⟨a1, a2⟩ := configLoop_none its h1
    dsimp only at h
    split at h
    · cases h
      exact ⟨a2, .inl a1.asks⟩
    · cases h
      refine ⟨a2, .inl (NoSession.asks ?_)⟩
      intro v i x hx
      rcases List.mem_append.mp hx with hx | hx
      · exact a1 v i x hx
      · simp at hx
  | batch rs =>
    have a := fun v i => batch_foreign v i rs h
    exact ⟨(a 0 0).1, .inl (NoSession.asks fun v i x => (a v i).2.2 x)⟩
  | aduRsp v r k ok =>
    simp only [Dispatcher.step, Dispatcher.aduRsp] at h
    split at h
    · cases h; exact ⟨rfl, .inl nothing⟩
    split at h
    · cases h; exact ⟨rfl, .inl nothing⟩
    · rename_i S hS
      rw [Exec.bind_eq_ok] at h
      obtain ⟨⟨S', o'⟩, h1, h2⟩ := h
      cases h2
      refine ⟨rfl, .inl (outs fun i q hq => ?_)⟩
      rcases server_out (hf v S hS).2.1 h1 with ⟨i', q', k', rfl, h3, _⟩ | h3
      · cases h3
        have hstep : S.step (.sess r (.rsp k ok)) = (if r ≥ Server.maxNumSession then .ub else do
            let (s, o) ← (S.sess r).step (.rsp k ok)
            pure (Server.absorb S r s o, o.map fun x => (r, x))) := rfl
        rw [hstep] at h1
        split at h1
        · cases h1
        rw [Exec.bind_eq_ok] at h1
        obtain ⟨⟨s1, o1⟩, h4, h5⟩ := h1
        injection h5 with h5
        injection h5 with _ h5
        exact rsp_outs h4 q' (by
          rcases o1 with _ | ⟨x, l⟩
          · cases h5
          · injection h5 with h5 _
            injection h5 with _ h5
            rw [← h5]
            simp)
      · exact h3 i q hq
  | client k e =>
    simp only [Dispatcher.step] at h
    split at h
    · cases h; exact ⟨rfl, .inl nothing⟩
    · split at h
      · rw [Exec.bind_eq_ok] at h
        obtain ⟨⟨c, o'⟩, _, h2⟩ := h
        cases h2
        exact ⟨rfl, .inl (hc _ _).asks⟩
      · cases h; exact ⟨rfl, .inl nothing⟩
  | server v e =>
    simp only [Dispatcher.step] at h
    split at h
    · cases h; exact ⟨rfl, .inl nothing⟩
    · rename_i S hS
      split at h
      · rw [Exec.bind_eq_ok] at h
        obtain ⟨⟨S', o'⟩, h1, h2⟩ := h
        cases h2
        refine ⟨rfl, ?_⟩
        rcases server_out (hf v S hS).2.1 h1 with ⟨i, q, k, rfl, rfl, h4, h5, h6, h7, h8⟩ | h3
        · exact .inr ⟨v, i, q, k, S'.sess i, rfl, rfl, h4, h5, ⟨(hf v S hS).1, h6, S', upd_same _ _ _, h7, rfl⟩, h8⟩
        · exact .inl (outs h3)
      · cases h; exact ⟨rfl, .inl nothing⟩

/-! ## The sessions with a message under way -/

/-- No two messages of one session are under way, and the session waits with its connection open. -/
structure OneEach (n : Net) : Prop where
  nodup : n.keys.Nodup
  waits : ∀ k ∈ n.keys, ∃ s, Sits n.modbus k.1 k.2 s ∧ s.st = .wait ∧ s.opened = true

theorem keys_asks (n : Net) (d : Dispatcher) (l : List (Nat × Nat × FwdReq)) :
    ({ n with modbus := d, asks := n.asks ++ l } : Net).keys.Perm (n.keys ++ l.map fun m => (m.1, m.2.1)) := by
  unfold Net.keys
  rw [List.map_append, List.append_assoc, List.append_assoc]
  exact List.Perm.append_left _ List.perm_append_comm

theorem sits_unique {d : Dispatcher} {v i : Nat} {s t : Session} (h : Sits d v i s) (k : Sits d v i t) : s = t := by
  obtain ⟨S, h1, _, h2⟩ := h.here
  obtain ⟨T, k1, _, k2⟩ := k.here
  rw [h1] at k1
  cases k1
  exact h2.symm.trans k2

theorem sits_link {d : Dispatcher} {v i : Nat} {s : Session} (hf : Fine d) (h : Sits d v i s) (hw : s.st = .wait) : s.link = true := by
  obtain ⟨S, h1, _, rfl⟩ := h.here
  exact ((hf v S h1).2.1.held i (by rw [hw]; simp)).1

theorem oneEach_step {rnd : Nat → UInt8} {n n' : Net} {e : Ev} {o : List Dispatcher.Out} (hf : Fine n.modbus) (h : OneEach n) (hp : Patient n e)
    (hs : n.step rnd e = .ok (n', o)) : OneEach n' := by
  cases e with
  | ctl e =>
    have : n'.modbus = n.modbus ∧ n'.keys = n.keys := by
      simp only [Net.step] at hs
      split at hs
      · cases hs; exact ⟨rfl, rfl⟩
      · rw [Exec.bind_eq_ok] at hs
        obtain ⟨⟨c, o'⟩, _, hs⟩ := hs
        cases hs
        exact ⟨rfl, rfl⟩
    obtain ⟨a, b⟩ := this
    exact ⟨b ▸ h.nodup, fun k hk => a ▸ h.waits k (b ▸ hk)⟩
  | serve room =>
    simp only [Net.step] at hs
    split at hs
    · cases hs; exact h
    rename_i v i q as he
    rw [Exec.bind_eq_ok] at hs
    obtain ⟨⟨c, o'⟩, h1, hs⟩ := hs
    cases hs
    have hk : n.keys = (v, i) :: (as.map (fun m => (m.1, m.2.1)) ++ n.says.map fun m => (m.1, m.2.1)) := by
      unfold Net.keys
      rw [he]
      rfl
    have hnd := h.nodup
    rw [hk] at hnd
    have hsub : (as.map (fun m => (m.1, m.2.1)) ++ (n.says ++ if room then saysOf o' else []).map fun m => (m.1, m.2.1)).Sublist
          (as.map (fun m => (m.1, m.2.1)) ++ n.says.map (fun m => (m.1, m.2.1)) ++ [(v, i)]) := by
      rw [List.map_append, List.append_assoc]
      refine List.Sublist.append_left (List.Sublist.append_left ?_ _) _
      rcases adu_cases h1 with rfl | ⟨r, rfl⟩
      · cases room <;> simp [saysOf]
      · cases room <;> simp [saysOf]
    have hperm : (as.map (fun m => (m.1, m.2.1)) ++ n.says.map (fun m => (m.1, m.2.1)) ++ [(v, i)]).Perm n.keys := by
      rw [hk]
      exact List.perm_append_singleton _ _
    exact ⟨hsub.nodup (hperm.nodup_iff.2 h.nodup), fun k hk => h.waits k (hperm.mem_iff.1 (hsub.mem hk))⟩
  | answer ok =>
    simp only [Net.step] at hs
    split at hs
    · cases hs; exact h
    rename_i v i r ss he
    rw [Exec.bind_eq_ok] at hs
    obtain ⟨⟨d, o'⟩, h1, hs⟩ := hs
    cases hs
    have hk : n.keys = n.asks.map (fun m => (m.1, m.2.1)) ++ (v, i) :: ss.map fun m => (m.1, m.2.1) := by
      unfold Net.keys
      rw [he]
      rfl
    have hperm : n.keys.Perm ((v, i) :: (n.asks.map (fun m => (m.1, m.2.1)) ++ ss.map fun m => (m.1, m.2.1))) := by
      rw [hk]
      exact List.perm_middle
    have hnd := hperm.nodup_iff.1 h.nodup
    obtain ⟨h2, h3⟩ := List.nodup_cons.1 hnd
    refine ⟨h3, fun k hk' => ?_⟩
    obtain ⟨s, a1, a2⟩ := h.waits k (hperm.mem_iff.2 (List.mem_cons_of_mem _ hk'))
    refine ⟨s, (dispatcher_foreign a1 ?_ h1).1, a2⟩
    rintro ⟨rfl, rfl⟩
    exact h2 hk'
  | modbus e room =>
    by_cases hadu : ∃ a b c d, e = .aduRsp a b c d
    · obtain ⟨a, b, c, d, rfl⟩ := hadu
      simp only [Net.step] at hs
      cases hs
      exact h
    have hstep : n.step rnd (.modbus e room) = (do
        let (d, o) ← n.modbus.step e
        pure ({ n with modbus := d, asks := n.asks ++ if room then asksOf o else [] }, o)) := by
      cases e <;> first | rfl | exact absurd ⟨_, _, _, _, rfl⟩ hadu
    rw [hstep, Exec.bind_eq_ok] at hs
    obtain ⟨⟨d, o'⟩, h1, hs⟩ := hs
    cases hs
    -- the sessions with a message under way stay as they are
    have keep : ∀ k ∈ n.keys, ∃ s, Sits d k.1 k.2 s ∧ s.st = .wait ∧ s.opened = true := by
      intro k hk
      obtain ⟨s, a1, a2, a3⟩ := h.waits k hk
      by_cases ho : Others k.1 k.2 e
      · exact ⟨s, (dispatcher_foreign a1 ho h1).1, a2, a3⟩
      · cases e with
        | config its => exact absurd (fun it hit => hp it hit k hk) ho
        | batch rs => exact absurd trivial ho
        | client c e => exact absurd trivial ho
        | aduRsp a b c d => exact absurd ⟨_, _, _, _, rfl⟩ hadu
        | server v e =>
          cases e with
          | accept ok => exact absurd trivial ho
          | sess i e =>
            have hvi : v = k.1 ∧ i = k.2 := Classical.byContradiction ho
            obtain ⟨rfl, rfl⟩ := hvi
            have := hp hk
            subst this
            obtain ⟨d', b1, b2⟩ := dispatcher_own a1 (by simp) (step_na (sits_link hf a1 a2) a3 (.inl a2)) (by simp) (by simp)
            rw [b1] at h1
            cases h1
            exact ⟨s, b2, a2, a3⟩
    have hperm := keys_asks n d (if room then asksOf o else [])
    have old : ∀ {l : List (Nat × Nat × FwdReq)}, l = [] → OneEach { n with modbus := d, asks := n.asks ++ l } := by
      rintro l rfl
      have hperm := keys_asks n d []
      rw [show (n.keys ++ List.map (fun m => (m.1, m.2.1)) ([] : List (Nat × Nat × FwdReq))) = n.keys by simp] at hperm
      exact ⟨hperm.nodup_iff.2 h.nodup, fun k hk => keep k (hperm.mem_iff.1 hk)⟩
    cases room with
    | false => exact old rfl
    | true =>
      rcases (dispatcher_out hf h1).2 with h2 | ⟨v, i, q, k, s, h2, rfl, h3, h4, h5, h6⟩
      · exact old (by rw [if_pos rfl, h2])
      · rw [if_pos rfl, h2] at hperm ⊢
        have hnew : (v, i) ∉ n.keys := fun hk => h3 (hp hk)
        refine ⟨hperm.nodup_iff.2 ?_, fun k hk => ?_⟩
        · rw [List.nodup_append]
          refine ⟨h.nodup, by simp, fun a ha b hb => ?_⟩
          simp only [List.map_cons, List.map_nil, List.mem_singleton] at hb
          subst hb
          rintro rfl
          exact hnew ha
        · rcases List.mem_append.1 (hperm.mem_iff.1 hk) with hk | hk
          · exact keep k hk
          · simp only [List.map_cons, List.map_nil, List.mem_singleton] at hk
            subst hk
            exact ⟨s, h5, h6⟩

/-! ## Links -/

/-- The sessions in use. -/
def busy (S : Server) : List Nat := (List.range 256).filter fun i => (S.sess i).st ≠ .init

theorem busy_same {S T : Server} (h : ∀ i, ((T.sess i).st = .init ↔ (S.sess i).st = .init)) : busy T = busy S := by
  unfold busy
  congr 1
  funext i
  have := h i
  by_cases e : (S.sess i).st = .init
  · simp [e, this.2 e]
  · have : ¬ (T.sess i).st = .init := fun k => e (this.1 k)
    simp [e, this]

theorem filter_change (i : Nat) (f g : Nat → Bool) (h : ∀ j, j ≠ i → f j = g j) : ∀ l : List Nat, l.Nodup → i ∈ l → f i = false → g i = true →
    (l.filter g).length = (l.filter f).length + 1 := by
  intro l
  induction l with
  | nil => simp
  | cons a l ih =>
    intro hn hi hf hg
    obtain ⟨h1, h2⟩ := List.nodup_cons.1 hn
    by_cases ha : a = i
    · subst ha
      have : l.filter g = l.filter f := List.filter_congr fun x hx => (h x fun e => h1 (e ▸ hx)).symm
      rw [List.filter_cons_of_pos hg, List.filter_cons_of_neg (by simp [hf]), this, List.length_cons]
    · have hi' : i ∈ l := (List.mem_cons.1 hi).resolve_left (Ne.symm ha)
      have := ih h2 hi' hf hg
      rw [List.filter_cons, List.filter_cons, h a ha]
      split
      · rw [List.length_cons, List.length_cons, this]
      · exact this

/-- A session starts. -/
theorem busy_more {S T : Server} {i : Nat} (hi : i < 256) (h : ∀ j, j ≠ i → (T.sess j).st = (S.sess j).st) (h1 : (S.sess i).st = .init)
    (h2 : (T.sess i).st ≠ .init) : (busy T).length = (busy S).length + 1 :=
  filter_change i _ _ (fun j hj => by rw [h j hj]) _ List.nodup_range (List.mem_range.2 hi) (by simp [h1]) (by simp [h2])

/-- The links of a server and those of its sessions. -/
def Linked (L : Nat) (S : Server) : Prop := S.links + (busy S).length ≤ L

theorem linked_create {f : Nat → Session} (h : NewSessions f) (t : Nat) {l L : Nat} (hl : l ≤ L) : Linked L (Server.create f t l) := by
  have : busy (Server.create f t l) = [] := by
    unfold busy
    rw [List.filter_eq_nil_iff]
    intro i _
    obtain ⟨m, a, e⟩ := h i
    simp [Server.create, e, Session.create]
  show l + (busy (Server.create f t l)).length ≤ L
  rw [this]
  exact hl

theorem accept_links {S S' : Server} {i : Nat} {fr : List Nat} {ok : Bool} {o : List (Nat × SOut)} (hfr : S.free = i :: fr)
    (hbad : S.timers = 0 ∨ S.links = 0 ∨ ok = false) (h : S.step (.accept ok) = .ok (S', o)) : S'.links ≤ S.links := by
  simp only [Server.step, hfr] at h
  unfold Server.prepare at h
  by_cases ht : S.timers = 0
  · simp only [ht, if_true] at h
    cases h
    exact Nat.le_refl _
  by_cases hl : S.links = 0
  · simp only [ht, if_false, hl, if_true] at h
    cases h
    exact Nat.zero_le _
  · have : ok = false := (hbad.resolve_left ht).resolve_left hl
    subst this
    simp only [ht, if_false, hl, if_true] at h
    cases h
    exact Nat.sub_le _ _

theorem linked_step {L : Nat} {S S' : Server} {e : Server.Ev} {o : List (Nat × SOut)} (hg : Safe S) (hL : Linked L S) (h : S.step e = .ok (S', o)) :
    Linked L S' := by
  unfold Linked at *
  cases e with
  | accept ok =>
    cases hfr : S.free with
    | nil =>
      simp only [Server.step, hfr] at h
      cases h
      exact hL
    | cons i fr =>
      have hi := hg.idle i (by rw [hfr]; simp)
      have hlt := hg.range i (by rw [hfr]; simp)
      by_cases hgood : 0 < S.timers ∧ 0 < S.links ∧ ok = true
      · obtain ⟨g1, g2, rfl⟩ := hgood
        rw [accept_ok hfr hg g1 g2] at h
        cases h
        have := @busy_more S (accepted S i fr) i hlt (fun j hj => by simp only [accepted]; rw [set_other _ _ hj]) hi.1
          (by simp only [accepted]; rw [set_same]; simp [Session.ready])
        rw [this]
        show S.links - 1 + _ ≤ L
        omega
      · have hbad : S.timers = 0 ∨ S.links = 0 ∨ ok = false := by
          by_cases a : S.timers = 0
          · exact .inl a
          by_cases b : S.links = 0
          · exact .inr (.inl b)
          refine .inr (.inr ?_)
          cases ok
          · rfl
          · exact absurd ⟨by omega, by omega, rfl⟩ hgood
        have h1 := accept_links hfr hbad h
        obtain ⟨s, t, l, rfl, e1, e2⟩ := accept_fail hfr hbad h
        rw [busy_same (S := S) fun j => ?_]
        · dsimp only at h1 ⊢
          omega
        · dsimp only
          by_cases hj : j = i
          · subst hj; rw [set_same, e1]
          · rw [set_other _ _ hj]
  | sess i e =>
    rcases sess_step hg h with rfl | ⟨s, rfl, h1, h2, _⟩ | ⟨s, rfl, h1, h2, _⟩ | ⟨s, rfl, h0, h1, h2, h3⟩
    · exact hL
    · rw [busy_same (S := S) fun j => ?_]
      · exact hL
      · dsimp only
        by_cases hj : j = i
        · subst hj; rw [set_same]; simp [h1, h2]
        · rw [set_other _ _ hj]
    · rw [busy_same (S := S) fun j => ?_]
      · exact hL
      · dsimp only
        by_cases hj : j = i
        · subst hj; rw [set_same]; simp [h1, h2]
        · rw [set_other _ _ hj]
    · have := @busy_more { free := S.free ++ [i], sess := Server.set S.sess i s, timers := S.timers + 1, links := S.links + 1 } S i h0
        (fun j hj => by dsimp only; rw [set_other _ _ hj]) (by dsimp only; rw [set_same]; exact h2) h1
      dsimp only
      omega

/-- All servers. -/
def AllLinked (L : Nat) (d : Dispatcher) : Prop := ∀ v S, d.servers v = some S → Linked L S

theorem allLinked_upd {L : Nat} {d : Dispatcher} {v : Nat} {S : Server} (h : AllLinked L d) (hS : Linked L S) :
    ∀ v' T, Dispatcher.upd d.servers v S v' = some T → Linked L T := by
  intro v' T hT
  by_cases hv : v' = v
  · subst hv
    rw [upd_same] at hT
    cases hT
    exact hS
  · rw [upd_other _ _ hv] at hT
    exact h v' T hT

theorem allLinked_configLoop {L : Nat} (its : List Dispatcher.CfgItem) : (∀ it ∈ its, ∀ S, it.entity = .inr S → Linked L S) →
    ∀ {d d' : Dispatcher} {o : List Dispatcher.Out} {t : Bool}, AllLinked L d → d.configLoop its = .ok (d', o, t) → AllLinked L d' := by
  induction its with
  | nil =>
    intro _ d d' o t h hc
    cases hc
    exact h
  | cons it its ih =>
    intro hn d d' o t h hc
    unfold Dispatcher.configLoop at hc
    rw [Exec.bind_eq_ok] at hc
    obtain ⟨⟨d1, o1, t1⟩, h1, hc⟩ := hc
    have hd1 : AllLinked L d1 := by
      unfold Dispatcher.configItem at h1
      split at h1
      · rename_i S hS
        split at h1
        · cases h1; exact h
        split at h1
        · cases h1; exact h
        split at h1
        · cases h1
        · cases h1
          exact allLinked_upd h (hn it (by simp) S hS)
      · split at h1
        · cases h1; exact h
        split at h1
        · cases h1; exact h
        all_goals
          rw [Exec.bind_eq_ok] at h1
          obtain ⟨⟨c, o'⟩, _, h2⟩ := h1
          cases h2
          exact h
    dsimp only at hc
    split at hc
    · cases hc
      exact hd1
    · rw [Exec.bind_eq_ok] at hc
      obtain ⟨⟨d2, o2, t2⟩, h2, hc⟩ := hc
      cases hc
      exact ih (fun x hx => hn x (by simp [hx])) hd1 h2

theorem allLinked_step {L : Nat} {d d' : Dispatcher} {e : Dispatcher.Ev} {o : List Dispatcher.Out} (hf : Fine d) (hd : AllLinked L d)
    (he : ∀ its, e = .config its → ∀ it ∈ its, ∀ S, it.entity = .inr S → Linked L S) (h : d.step e = .ok (d', o)) : AllLinked L d' := by
  cases e with
  | config its =>
    simp only [Dispatcher.step, Dispatcher.config] at h
    rw [Exec.bind_eq_ok] at h
    obtain ⟨⟨d1, o1, t1⟩, h1, h⟩ := h
    have := allLinked_configLoop its (he its rfl) hd h1
    dsimp only at h
    split at h <;> cases h <;> exact this
  | batch rs =>
    have := (batch_foreign 0 0 rs h).2.1
    intro v S hS
    rw [this] at hS
    exact hd v S hS
  | aduRsp v r k ok =>
    simp only [Dispatcher.step, Dispatcher.aduRsp] at h
    split at h
    · cases h; exact hd
    split at h
    · cases h; exact hd
    · rename_i S hS
      rw [Exec.bind_eq_ok] at h
      obtain ⟨⟨S', o'⟩, h1, h2⟩ := h
      cases h2
      exact allLinked_upd hd (linked_step (hf v S hS).2.1 (hd v S hS) h1)
  | client k e =>
    simp only [Dispatcher.step] at h
    split at h
    · cases h; exact hd
    · split at h
      · rw [Exec.bind_eq_ok] at h
        obtain ⟨⟨c, o'⟩, _, h2⟩ := h
        cases h2
        exact hd
      · cases h; exact hd
  | server v e =>
    simp only [Dispatcher.step] at h
    split at h
    · cases h; exact hd
    · rename_i S hS
      split at h
      · rw [Exec.bind_eq_ok] at h
        obtain ⟨⟨S', o'⟩, h1, h2⟩ := h
        cases h2
        exact allLinked_upd hd (linked_step (hf v S hS).2.1 (hd v S hS) h1)
      · cases h; exact hd

/-- What an event of the program does to the Modbus component. -/
theorem net_modbus {rnd : Nat → UInt8} {n n' : Net} {e : Ev} {o : List Dispatcher.Out} (h : n.step rnd e = .ok (n', o)) :
    n'.modbus = n.modbus ∨ ∃ k, n.modbus.step k = .ok (n'.modbus, o) ∧ (∀ its, k = .config its → ∃ room, e = .modbus (.config its) room) := by
  cases e with
  | ctl e =>
    simp only [Net.step] at h
    split at h
    · cases h; exact .inl rfl
    · rw [Exec.bind_eq_ok] at h
      obtain ⟨⟨c, o'⟩, _, h⟩ := h
      cases h
      exact .inl rfl
  | serve room =>
    simp only [Net.step] at h
    split at h
    · cases h; exact .inl rfl
    · rw [Exec.bind_eq_ok] at h
      obtain ⟨⟨c, o'⟩, _, h⟩ := h
      cases h
      exact .inl rfl
  | answer ok =>
    simp only [Net.step] at h
    split at h
    · cases h; exact .inl rfl
    · rw [Exec.bind_eq_ok] at h
      obtain ⟨⟨c, o'⟩, h1, h⟩ := h
      cases h
      exact .inr ⟨_, h1, by simp⟩
  | modbus e room =>
    by_cases hadu : ∃ a b c d, e = .aduRsp a b c d
    · obtain ⟨a, b, c, d, rfl⟩ := hadu
      simp only [Net.step] at h
      cases h
      exact .inl rfl
    have hstep : n.step rnd (.modbus e room) = (do
        let (d, o) ← n.modbus.step e
        pure ({ n with modbus := d, asks := n.asks ++ if room then asksOf o else [] }, o)) := by
      cases e <;> first | rfl | exact absurd ⟨_, _, _, _, rfl⟩ hadu
    rw [hstep, Exec.bind_eq_ok] at h
    obtain ⟨⟨d, o'⟩, h1, h⟩ := h
    cases h
    exact .inr ⟨e, h1, fun its he => ⟨room, by rw [he]⟩⟩

/-! ## All states -/

theorem NewWith.new {L : Nat} {e : Ev} (h : NewWith L e) : NewServers e := by
  cases e with
  | modbus e room =>
    cases e with
    | config its =>
      intro it hit S hS
      obtain ⟨f, t, l, h1, _, h2⟩ := h it hit S hS
      exact ⟨f, t, l, h1, h2⟩
    | _ => trivial
  | _ => trivial

/-- What holds in all states while masters are patient. -/
structure CalmInv (rnd : Nat → UInt8) (a L : Nat) (n : Net) : Prop where
  fine : Fine n.modbus
  kept : Kept rnd n
  num : n.modbus.numServers = a
  one : OneEach n
  linked : AllLinked L n.modbus

theorem calm_inv {rnd : Nat → UInt8} {a L : Nat} {n : Net} (h : Calm rnd a L n) : CalmInv rnd a L n := by
  induction h with
  | create b =>
    have hr : Reach rnd (Net.create (Dispatcher.create a b)) := ⟨a, b, [], by simp, rfl⟩
    obtain ⟨h1, h2⟩ := reach_inv hr
    exact ⟨h1, h2, rfl, ⟨List.nodup_nil, fun k hk => by cases hk⟩, fun v S hS => by cases hS⟩
  | @step n n' e o _ hp hn hs ih =>
    obtain ⟨h1, h2⟩ := net_inv ih.fine ih.kept hn.new hs
    refine ⟨h1, h2, ?_, oneEach_step ih.fine ih.one hp hs, ?_⟩
    · rcases net_modbus hs with e | ⟨k, hk, _⟩
      · rw [e]; exact ih.num
      · exact (dispatcher_out ih.fine hk).1.trans ih.num
    · rcases net_modbus hs with e | ⟨k, hk, hc⟩
      · rw [e]; exact ih.linked
      · refine allLinked_step ih.fine ih.linked ?_ hk
        rintro its rfl it hit S hS
        obtain ⟨room, rfl⟩ := hc its rfl
        obtain ⟨f, t, l, g1, g2, rfl⟩ := hn it hit S hS
        exact linked_create g1 t g2

theorem sum_le {α : Type} (L : Nat) (f : α → List Nat) : ∀ l : List α, (∀ x ∈ l, (f x).length ≤ L) → ((l.map fun x => (f x).length).sum) ≤ l.length * L := by
  intro l
  induction l with
  | nil => intro _; simp
  | cons a l ih =>
    intro h
    rw [List.map_cons, List.sum_cons, List.length_cons, Nat.succ_mul]
    have h1 := h a (by simp)
    have h2 := ih fun x hx => h x (by simp [hx])
    omega

/-- The sessions in use of a server that may not exist. -/
def busyAt (d : Dispatcher) (v : Nat) : List Nat := match d.servers v with
  | none => []
  | some S => busy S

/-- C86 for the two mailboxes: while masters wait for their answers, not more messages of theirs are under way than there are links for them. -/
theorem C86_bounded_partial {rnd : Nat → UInt8} {a L : Nat} {n : Net} (h : Calm rnd a L n) : n.asks.length + n.says.length ≤ a * L := by
  have hi := calm_inv h
  have hlen : n.asks.length + n.says.length = n.keys.length := by simp [Net.keys]
  rw [hlen]
  let all : List (Nat × Nat) := (List.range a).flatMap fun v => (busyAt n.modbus v).map fun i => (v, i)
  have hsub : n.keys ⊆ all := by
    intro k hk
    obtain ⟨s, h1, h2, _⟩ := hi.one.waits k hk
    obtain ⟨S, h3, _, h5⟩ := h1.here
    refine List.mem_flatMap.2 ⟨k.1, List.mem_range.2 (hi.num ▸ h1.vlt), List.mem_map.2 ⟨k.2, ?_, rfl⟩⟩
    show k.2 ∈ busyAt n.modbus k.1
    unfold busyAt
    rw [h3]
    exact List.mem_filter.2 ⟨List.mem_range.2 h1.ilt, by rw [h5, h2]; rfl⟩
  have h1 := List.Nodup.length_le_of_subset hi.one.nodup hsub
  have h2 : all.length ≤ a * L := by
    have := sum_le L (fun v => busyAt n.modbus v) (List.range a) (by
      intro v _
      show (busyAt n.modbus v).length ≤ L
      unfold busyAt
      split
      · exact Nat.zero_le _
      · rename_i S hS
        have := hi.linked v S hS
        unfold Linked at this
        omega)
    rw [List.length_range] at this
    show ((List.range a).flatMap fun v => (busyAt n.modbus v).map fun i => (v, i)).length ≤ a * L
    rw [List.length_flatMap]
    simpa using this
  omega

/-- C86 for one server with the 32 links of the reactor: when a master's request is forwarded, a mailbox of 64 slots that holds at most 32 other messages has room
for it, and then still for the answer. -/
theorem C86_room_partial {rnd : Nat → UInt8} {n n' : Net} {e : Ev} {o : List Dispatcher.Out} (h : Calm rnd 1 32 n) (hp : Patient n e) (hn : NewWith 32 e)
    (hs : n.step rnd e = .ok (n', o)) (others : Nat) (ho : others ≤ 32) : others + n'.asks.length ≤ 64 ∧ others + n'.says.length ≤ 64 := by
  have := C86_bounded_partial (.step h hp hn hs)
  omega

/-! ## Histories -/

/-- A check of `Patient`. -/
def patientB (n : Net) : Ev → Bool
  | .modbus (.server v (.sess i e)) _ => decide ((v, i) ∉ n.keys) || (match e with
    | .data .na => true
    | _ => false)
  | .modbus (.config _) _ => n.keys.isEmpty
  | _ => true

theorem patient_of {n : Net} {e : Ev} (h : patientB n e = true) : Patient n e := by
  unfold patientB at h
  split at h
  · rename_i v i e _
    intro hk
    rw [decide_eq_false (by simpa using hk), Bool.false_or] at h
    split at h
    · rfl
    · cases h
  · rw [List.isEmpty_iff] at h
    intro it _ k hk
    rw [h] at hk
    cases hk
  · rename_i h1 h2
    cases e with
    | modbus e room =>
      cases e with
      | config its => exact absurd rfl (h2 _ _)
      | server v e =>
        cases e with
        | sess i e => exact absurd rfl (h1 _ _ _ _)
        | accept _ => trivial
      | _ => trivial
    | _ => trivial

/-- A history of patient masters. -/
def calmly (rnd : Nat → UInt8) (n : Net) : List Ev → Option Net
  | [] => some n
  | e :: es => if patientB n e then (match n.step rnd e with
    | .ok (m, _) => calmly rnd m es
    | _ => none) else none

theorem calm_of {rnd : Nat → UInt8} {a L : Nat} (es : List Ev) : (∀ e ∈ es, NewWith L e) → ∀ {n m : Net}, Calm rnd a L n → calmly rnd n es = some m → Calm rnd a L m := by
  induction es with
  | nil =>
    intro _ n m h k
    cases k
    exact h
  | cons e es ih =>
    intro hn n m h k
    unfold calmly at k
    split at k
    · rename_i hp
      split at k
      · rename_i n1 o hs
        exact ih (fun x hx => hn x (by simp [hx])) (.step h (patient_of hp) (hn e (by simp)) hs) k
      · cases k
    · cases k

/-- The first `m` masters connect and ask for two registers each. -/
def crowd (m : Nat) : List Ev :=
  (List.range m).flatMap fun k => [.modbus (.server 0 (.accept true)) true, arrive k (Standard.onLink 3 9 (Standard.Request.readHolding 10 2).pdu)]

theorem crowd_new (m : Nat) : ∀ e ∈ begun ++ crowd m, NewWith 32 e := by
  intro e he
  rcases List.mem_append.1 he with he | he
  · simp only [begun, List.mem_cons, List.not_mem_nil, or_false] at he
    rcases he with rfl | rfl | rfl | rfl
    · intro it hit S hS
      rw [List.mem_singleton.1 hit] at hS
      cases hS
      exact ⟨_, 32, 32, fun _ => ⟨_, _, rfl⟩, Nat.le_refl _, rfl⟩
    all_goals trivial
  · obtain ⟨k, _, hk⟩ := List.mem_flatMap.1 he
    simp only [List.mem_cons, List.not_mem_nil, or_false] at hk
    rcases hk with rfl | rfl <;> trivial

/-- Non-vacuity, and the bound is reached: of 40 masters 32 are connected, and the requests of all of them are under way. -/
example : ∃ n, Calm UInt8.ofNat 1 32 n ∧ n.asks.length = 32 := by
  have h : (match calmly UInt8.ofNat net0 (begun ++ crowd 40) with
      | some n => decide (n.asks.length = 32)
      | none => false) = true := by decide +kernel
  split at h
  · rename_i n hn
    exact ⟨n, calm_of _ (crowd_new 40) (.create 0) hn, of_decide_eq_true h⟩
  · cases h

/-- Non-vacuity: half of the requests of 32 masters have been served, answers have been delivered and some of the masters asked again. -/
example : ∃ n, Calm UInt8.ofNat 1 32 n ∧ n.asks.length = 18 ∧ n.says.length = 14 := by
  have h : (match calmly UInt8.ofNat net0 (begun ++ crowd 32) with
      | some n => match calmly UInt8.ofNat n (List.replicate 16 (.serve true) ++ [.answer true, .answer true, .modbus (.server 0 (.sess 7 (.data .na))) true,
            arrive 0 (Standard.onLink 4 9 (Standard.Request.writeRegister 10 2).pdu), arrive 1 (Standard.onLink 4 9 (Standard.Request.readInput 10 2).pdu)]) with
        | some m => decide (m.asks.length = 18 ∧ m.says.length = 14)
        | none => false
      | none => false) = true := by decide +kernel
  split at h
  · rename_i n hn
    split at h
    · rename_i m hm
      have h := of_decide_eq_true h
      refine ⟨m, calm_of _ ?_ (calm_of _ (crowd_new 32) (.create 0) hn) hm, h.1, h.2⟩
      intro e he
      rcases List.mem_append.1 he with he | he
      · rw [(List.mem_replicate.1 he).2]
        trivial
      · simp only [List.mem_cons, List.not_mem_nil, or_false] at he
        rcases he with rfl | rfl | rfl | rfl | rfl <;> trivial
    · cases h
  · cases h

/-- Violation of C86: `m` masters, one after the other, connect, ask for two registers and leave. -/
def passers (m : Nat) : List Ev :=
  begun ++ (List.range m).flatMap fun k => [.modbus (.server 0 (.accept true)) true, arrive k (Standard.onLink 3 9 (Standard.Request.readHolding 10 2).pdu),
    .modbus (.server 0 (.sess k (.data .error))) true]

/-- One master asks, lets the timer of its session expire (ModbusSessionWaitModbusAduRsp.cpp:54-58) and asks again, `m` times. -/
def nagger (m : Nat) : List Ev :=
  begun ++ .modbus (.server 0 (.accept true)) true :: (List.replicate m [arrive 0 (Standard.onLink 3 9 (Standard.Request.readHolding 10 2).pdu),
    .modbus (.server 0 (.sess 0 .timer)) true]).flatten

/-- Violation of C86: masters that do not wait for their answers fill the mailbox of the controller, whose 64 slots the 65th request does not find free; one
connection at a time is enough. -/
theorem C86_passers_violated :
    (match net0.run UInt8.ofNat (passers 65) with
      | .ok n => some (n.asks.length)
      | _ => none) = some 65 ∧
    (match net0.run UInt8.ofNat (nagger 65) with
      | .ok n => some (n.asks.length)
      | _ => none) = some 65 := by
  refine ⟨by decide +kernel, by decide +kernel⟩

end Uscada.Masters
