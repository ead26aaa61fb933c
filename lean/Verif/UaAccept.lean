import Verif.UaFoot

/-!
# A connection of the OPC UA server comes from an accepted link and from nothing else

`UaTcpServer::onAccept` (UaTcpServer.cpp:53-68) creates the link and accepts the peer before it asks for a connection; when no link is left
or `accept` fails an exception leaves it.  No other event takes a connection that is at rest into use.
-/

namespace Uscada.Ua.Transport

open SM

/-- Someone was accepted: the event is one of the listening socket, a link was left and the system call succeeded. -/
def Came (e : TEnv) (v : TEv) : Prop := v = .accept ∧ e.linkFree = true ∧ e.accepts = true

/-- A connection that serves nobody, with nothing done since `l`. -/
def Rests (l : List TAct) (t : Tcp) : Prop := t.st = .init ∧ t.log = l

section
variable {k : Nat} {s s' : Srv} {e : TEnv} {l : List TAct}

theorem rests_foot {j : Nat} {ch : UInt32} (hr : Rests l (s.conns k)) (hj : j ≠ k) (hf : Foot j ch s s') : Rests l (s'.conns k) := by
  rw [hf.1 k (Ne.symm hj)]
  exact hr

theorem rests_set {f : Tcp → Tcp} (hr : Rests l (s.conns k)) (hf : ∀ t, (f t).st = t.st ∧ (f t).log = t.log) : Rests l ((s.set k (f (s.conns k))).conns k) := by
  simp only [Srv.set, if_pos]
  exact ⟨(hf _).1.trans hr.1, (hf _).2.trans hr.2⟩

/-- C36 (beginning): whatever the state of the server, a connection at rest stays at rest and does nothing, unless a link was there and
`accept` succeeded. -/
theorem C36_only_accepted (hr : Rests l (s.conns k)) {v : TEv} (hv : ¬ Came e v) (hn : next s e v = .ok s') : Rests l (s'.conns k) := by
  have quiet : ∀ {m : SM Srv Unit}, m s = (.ok (), s) → settle (m s) = .ok s' → Rests l (s'.conns k) := by
    intro m hm h
    rw [hm] at h
    injection h with h
    rw [← h]
    exact hr
  cases v with
  | accept =>
    have hc : (e.linkFree && e.accepts) = false := by
      cases h1 : e.linkFree <;> cases h2 : e.accepts <;> first | rfl | exact absurd ⟨rfl, h1, h2⟩ hv
    have hn : settle ((takeLink e >>= fun _ => allocId >>= fun r => match r with
      | none => pure ()
      | some k => onAcceptLink k e) s) = .ok s' := hn
    unfold takeLink at hn
    rw [hc] at hn
    injection hn with hn
    rw [← hn]
    exact hr
  | linkData j =>
    by_cases hj : j = k
    · subst hj
      exact quiet (m := onData j e) (by simp only [onData, bind_run, self, andThen, hr.1, pure_run]) hn
    · exact rests_foot hr hj ((ft_onData (ch := 0)).settled hn)
  | linkError j =>
    by_cases hj : j = k
    · subst hj
      injection hn with hn
      rw [← hn]
      exact rests_set (f := fun t => { t with opened := false }) hr fun _ => ⟨rfl, rfl⟩
    · exact rests_foot hr hj ((ft_conn fun _ => ⟨rfl, id⟩ : Foots j 0 (onError j)).settled hn)
  | timer j =>
    by_cases hj : j = k
    · subst hj
      have h1 : ((s.set j { (s.conns j) with armed := false }).conns j).st = .init := by simp only [Srv.set, if_pos]; exact hr.1
      have hd : onTimer j s = (.ok (), s.set j { (s.conns j) with armed := false }) := by
        simp only [onTimer, bind_run, conn, SM.modify, andThen, self, h1, pure_run]
      have hn : settle (onTimer j s) = .ok s' := hn
      rw [hd] at hn
      injection hn with hn
      rw [← hn]
      exact rests_set (f := fun t => { t with armed := false }) hr fun _ => ⟨rfl, rfl⟩
    · exact rests_foot hr hj ((ft_onTimer (ch := 0)).settled hn)
  | down j x =>
    have hn : settle ((if Pool.valid j then onReceive j e x else undefined : SM Srv Unit) s) = .ok s' := hn
    split at hn
    · by_cases hj : j = k
      · subst hj
        exact quiet (m := onReceive j e x) (by simp only [onReceive, bind_run, self, andThen, hr.1, pure_run]) hn
      · obtain ⟨ch, hch⟩ : ∃ ch : UInt32, ∀ f d, x ≠ .openRsp ch f d := by
          cases x with
          | openRsp c f d =>
            refine ⟨c + 1, fun f' d' he => ?_⟩
            injection he with he
            have : (c + 1).toNat = (c.toNat + 1) % 2 ^ 32 := UInt32.toNat_add c 1
            have := c.toNat_lt
            have := congrArg UInt32.toNat he
            omega
          | closeRsp c f d => exact ⟨0, fun _ _ he => nomatch he⟩
          | sendReq c f d => exact ⟨0, fun _ _ he => nomatch he⟩
          | releaseReq => exact ⟨0, fun _ _ he => nomatch he⟩
        exact rests_foot hr hj ((ft_onReceive hch).settled hn)
    · cases hn

end

/-- C36 (beginning, histories): as long as nobody was accepted, no connection of the server has done anything, whatever else happened. -/
theorem C36_nobody_accepted {m : Nat → Mem} {evs : List (TEnv × TEv)} {s : Srv} (h : Srv.Reach m evs s) (hv : ∀ p ∈ evs, ¬ Came p.1 p.2) (k : Nat) :
    Rests [] (s.conns k) := by
  induction h with
  | create h0 =>
    unfold Srv.create at h0
    cases hq : Pool.create with
    | ok q =>
      rw [hq] at h0
      injection h0 with h0
      rw [← h0]
      exact ⟨rfl, rfl⟩
    | throws => rw [hq] at h0; cases h0
    | abort => rw [hq] at h0; cases h0
    | ub => rw [hq] at h0; cases h0
  | step _ _ hn ih =>
    exact C36_only_accepted (ih fun p hp => hv p (List.mem_append_left _ hp)) (hv _ (List.mem_append_right _ (List.mem_singleton.mpr rfl))) hn

/-- Two peers that are not accepted. -/
def refused : List (TEnv × TEv) := [({ calm with accepts := false }, .accept), ({ calm with linkFree := false }, .accept)]

/-- The hypotheses can be met, and the next peer that is accepted is served. -/
example : (∃ s, Srv.Reach (fun _ => garbage) refused s ∧ ∀ k, Rests [] (s.conns k)) ∧
    observe 1 (refused ++ [(calm, .accept)]) = .ok ⟨.hello, true, true, none, [.accepted], 31⟩ := by
  refine ⟨?_, by decide +kernel⟩
  have h : ∃ x, observe 1 refused = .ok x := by
    cases hx : observe 1 refused with
    | ok x => exact ⟨x, rfl⟩
    | throws => exact absurd hx (by decide +kernel)
    | abort => exact absurd hx (by decide +kernel)
    | ub => exact absurd hx (by decide +kernel)
  obtain ⟨x, hx⟩ := h
  obtain ⟨s, hs, -⟩ := observe_reach hx
  refine ⟨s, hs, C36_nobody_accepted hs fun p hp => ?_⟩
  simp only [refused, List.mem_cons, List.not_mem_nil, or_false] at hp
  rcases hp with rfl | rfl <;> simp [Came, calm]

end Uscada.Ua.Transport
