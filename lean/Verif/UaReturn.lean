import Verif.UaCaller
import Verif.UaRevive
/-!
# Property C115: the library's channels come back

Specification: whatever a client channel (`OpcUaClientSecureChannel`) or a server channel (`OpcUaServerSecureChannel`) of the library has
done, when its timer runs out it is idle and holds nothing, its user has been told once if it was in use, and it opens secure channels again:
with the other end of the library (C109), and the client also with the server program (C110) when that has come back (C114).  A client
that waits for the answer to its open request is the exception: it never comes back.
-/

namespace Uscada.Ua

namespace Cli

open SM

variable {es : List (KEnv × Ev)} {p : Cli} {e : KEnv}

/-- What the user is told when the timer runs out. -/
def lastNote (c : CSt) : KNote := if c = .connected then .closed else .error

/-- The timer of a connection in use runs out; the user does nothing when told. -/
theorem lapses (hc : p.conn.st ≠ .init) (hl : p.conn.link = true) (ht : p.conn.timer = true) (he : e.react = []) :
    ∃ c, p.next e .timer = .ok { conn := c, st := if p.st = .waiting then .waiting else .init, log := p.log ++ if p.st = .init then [] else [.note (lastNote p.conn.st)] } ∧
      c.st = .init ∧ c.link = false ∧ c.timer = false := by
  obtain ⟨⟨cst, rx, link, opened, timer, armed, clog⟩, st, log⟩ := p
  obtain ⟨env, stop, react⟩ := e
  simp only at hc hl ht he
  subst hl ht he
  refine ⟨⟨.init, rx, false, false, false, false, clog ++ [.note (if cst = .connected then .closed else .error)]⟩, ?_, rfl, rfl, rfl⟩
  cases cst with
  | init => exact absurd rfl hc
  | connecting => cases st <;> simp only [reduceCtorEq, if_true, if_false, List.append_nil] <;> rfl
  | handshake => cases st <;> simp only [reduceCtorEq, if_true, if_false, List.append_nil] <;> rfl
  | connected => cases st <;> simp only [reduceCtorEq, if_true, if_false, List.append_nil] <;> rfl

theorem lapses_init (hc : p.conn.st = .init) : p.next e .timer = .ok { p with conn := { p.conn with armed := false } } := by
  obtain ⟨⟨cst, rx, link, opened, timer, armed, clog⟩, st, log⟩ := p
  simp only at hc
  subst hc
  rfl

theorem idle_link (hi : Inv true p.conn) (hc : p.conn.st = .init) : p.conn.link = false ∧ p.conn.timer = false := by
  constructor
  · cases hx : p.conn.link with
    | false => rfl
    | true => exact absurd hc (hi.link.1 hx)
  · cases hx : p.conn.timer with
    | false => rfl
    | true => exact absurd hc (hi.timer.1 hx)

theorem next_reach {p' : Cli} (h : From es p) (hg : ∀ x ∈ es, Good x.1) (he : Good e) (hn : p.next e .timer = .ok p') :
    ∃ es, From es p' ∧ ∀ x ∈ es, Good x.1 :=
  reach_run ⟨es, h, hg⟩ (es := [(e, .timer)]) (by simpa using he) (by show (p.next _ _ >>= fun q => q.run []) = _; rw [hn]; rfl)

end Cli

namespace Peer

open SM

variable {es : List (PEnv × Ev)} {s : Peer} {e : PEnv}

/-- The timer of a connection in use runs out; the user does nothing when told. -/
theorem lapses (hc : s.conn.st = .handshake ∨ s.conn.st = .connected) (hl : s.conn.link = true) (ht : s.conn.timer = true) (he : e.react = []) (hs : s.st ≠ .init) :
    ∃ c n, s.next e .timer = .ok { s with conn := c, st := .init, log := s.log ++ [.note n] } ∧ (n = .closed ∨ n = .error) ∧ c.st = .init ∧ c.link = false ∧
      c.timer = false := by
  obtain ⟨⟨cst, rx, link, opened, timer, armed, clog⟩, st, id, tx, rxSeq, reqId, lifetime, token, log⟩ := s
  obtain ⟨env, id', token', now, now2, stop, react⟩ := e
  simp only at hc hl ht he hs
  subst hl ht he
  refine ⟨⟨.init, rx, false, false, false, false, clog ++ [.note (if cst = .connected then .closed else .error)]⟩, if cst = .connected then .closed else .error, ?_, ?_, rfl,
    rfl, rfl⟩
  · rcases hc with rfl | rfl <;> cases st <;> first | exact absurd rfl hs | rfl
  · split <;> simp

theorem lapses_init (hc : s.conn.st = .init) : s.next e .timer = .ok { s with conn := { s.conn with armed := false } } := by
  obtain ⟨⟨cst, rx, link, opened, timer, armed, clog⟩, st, id, tx, rxSeq, reqId, lifetime, token, log⟩ := s
  simp only at hc
  subst hc
  rfl

end Peer

/-! ## C115 -/

/-- C115: after any history a client channel that does not wait for an answer is idle when its timer has run out, holds neither link nor
timer, and its user is told of the end exactly if the channel was in use. -/
theorem C115_client_back_partial {p : Cli} {es : List (KEnv × Cli.Ev)} {e : KEnv} (h : Cli.From es p) (hg : ∀ x ∈ es, Cli.Good x.1) (hw : p.st ≠ .waiting) (he : Cli.Good e)
    (hr : e.react = []) : ∃ p', p.next e .timer = .ok p' ∧ p'.Idle ∧ p'.conn.link = false ∧ p'.conn.timer = false ∧
      (Cli.life p.log = some .idle ∧ p'.log = p.log ∨ Cli.life p.log ≠ some .idle ∧ ∃ n, p'.log = p.log ++ [.note n]) := by
  obtain ⟨st, c, l, hp, hh⟩ := Cli.from_ok h hg
  have hst : p.st = st := hh.st
  have hi := hh.conn.2
  have hlife := hh.life
  by_cases hc : p.conn.st = .init
  · have hn := Cli.lapses_init (e := e) hc
    have h0 : p.st = .init ∧ l = .idle := by
      rw [hh.conn.1] at hc
      subst hc
      cases hp
      · exact ⟨hst, rfl⟩
      · exact absurd hst hw
    refine ⟨_, hn, ⟨Cli.next_reach h hg he hn, h0.1, hc⟩, (Cli.idle_link hi hc).1, (Cli.idle_link hi hc).2, .inl ⟨by rw [hlife, h0.2], rfl⟩⟩
  · obtain ⟨c', hn, h1, h2, h3⟩ := Cli.lapses (e := e) hc (hi.link.2 hc) (hi.timer.2 hc) hr
    refine ⟨_, hn, ⟨Cli.next_reach h hg he hn, by simp [hw], h1⟩, h2, h3, ?_⟩
    by_cases hs : p.st = .init
    · refine .inl ⟨?_, by simp [hs]⟩
      rw [hlife]
      rw [hst] at hs
      subst hs
      cases hp <;> rfl
    · refine .inr ⟨?_, ⟨_, by simp [hs]; rfl⟩⟩
      rw [hlife]
      rw [hst] at hs hw
      cases hp <;> simp_all

/-- Against C115: in whatever history it got there, a client channel that waits for the answer to its open request is lost when the timer
runs out: its connection is given back, but no later event makes the channel do anything. -/
theorem C115_waiting_violated {p : Cli} {es : List (KEnv × Cli.Ev)} {e : KEnv} (h : Cli.From es p) (hg : ∀ x ∈ es, Cli.Good x.1) (hw : p.st = .waiting)
    (hr : e.react = []) : ∃ p', p.next e .timer = .ok p' ∧ p'.conn.link = false ∧ ∀ fs q, p'.run fs = .ok q → q.st = .waiting ∧ q.log = p'.log := by
  obtain ⟨st, c, l, hp, hh⟩ := Cli.from_ok h hg
  have hi := hh.conn.2
  by_cases hc : p.conn.st = .init
  · refine ⟨_, Cli.lapses_init (e := e) hc, (Cli.idle_link hi hc).1, fun fs q hq => ?_⟩
    have := Cli.stuck_run (q := { p with conn := { p.conn with armed := false } }) hw hc hq
    exact ⟨this.1, this.2.2⟩
  · obtain ⟨c', hn, h1, h2, h3⟩ := Cli.lapses (e := e) hc (hi.link.2 hc) (hi.timer.2 hc) hr
    refine ⟨_, hn, h2, fun fs q hq => ?_⟩
    have := Cli.stuck_run (by simp [hw]) h1 hq
    exact ⟨this.1, this.2.2⟩

/-- C115: after any history (with chunks that hold their headers) a server channel is idle when its timer has run out, holds neither link nor
timer, and its user is told of the end exactly if the channel was in use. -/
theorem C115_server_back_partial {s : Peer} {es : List (PEnv × Peer.Ev)} {e : PEnv} (h : Peer.From es s) (hg : ∀ x ∈ es, Peer.Good x.1) (hl : Peer.Longs s.log) (he : Peer.Good e)
    (hr : e.react = []) : ∃ s', s.next e .timer = .ok s' ∧ s'.Idle ∧ s'.conn.link = false ∧ s'.conn.timer = false ∧
      (Peer.life s.log = some .idle ∧ s'.log = s.log ∨ Peer.life s.log ≠ some .idle ∧ ∃ n, s'.log = s.log ++ [.note n]) := by
  obtain ⟨st, c, l, hp, hh⟩ := Peer.from_ok h hg
  have hst : s.st = st := hh.st
  have hcs : s.conn.st = c := hh.conn.1
  have hi := hh.conn.2
  have hlife := hh.life
  have reach : ∀ {s'}, s.next e .timer = .ok s' → ∃ es, Peer.From es s' ∧ ∀ x ∈ es, Peer.Good x.1 := fun hn =>
    Peer.reach_run ⟨es, h, hg⟩ (es := [(e, .timer)]) (by simpa using he) (by show (s.next _ _ >>= fun q => q.run []) = _; rw [hn]; rfl)
  by_cases hc : s.conn.st = .init
  · have hn := Peer.lapses_init (e := e) hc
    have h0 : s.st = .init ∧ l = .idle := by
      rw [hcs] at hc
      subst hc
      cases hp
      exact ⟨hst, rfl⟩
    refine ⟨_, hn, ⟨reach hn, hl, h0.1, hc⟩, ?_, ?_, .inl ⟨by rw [hlife, h0.2], rfl⟩⟩
    · cases hx : s.conn.link with
      | false => rfl
      | true => exact absurd hc (hi.link.1 hx)
    · cases hx : s.conn.timer with
      | false => rfl
      | true => exact absurd hc (hi.timer.1 hx)
  · have h1 : (s.conn.st = .handshake ∨ s.conn.st = .connected) ∧ s.st ≠ .init ∧ l ≠ .idle := by
      rw [hst, hcs]
      rw [hcs] at hc
      cases hp <;> simp_all
    obtain ⟨c', n, hn, -, k1, k2, k3⟩ := Peer.lapses (e := e) h1.1 (hi.link.2 hc) (hi.timer.2 hc) hr h1.2.1
    refine ⟨_, hn, ⟨reach hn, ?_, rfl, k1⟩, k2, k3, .inr ⟨by rw [hlife]; simpa using h1.2.2, n, rfl⟩⟩
    intro z hz
    rcases List.mem_append.1 hz with hz | hz
    · exact hl z hz
    · simp at hz

/-- C115: both ends of the library, after any histories, open a secure channel with each other when their timers have run out. -/
theorem C115_meets_again_partial {p : Cli} {s : Peer} {es : List (KEnv × Cli.Ev)} {fs : List (PEnv × Peer.Ev)} {e : KEnv} {f : PEnv} (h : Cli.From es p)
    (hg : ∀ x ∈ es, Cli.Good x.1) (hw : p.st ≠ .waiting) (hs : Peer.From fs s) (hf : ∀ x ∈ fs, Peer.Good x.1) (hl : Peer.Longs s.log) (he : Cli.Good e) (hr : e.react = [])
    (he' : Peer.Good f) (hr' : f.react = []) {m : Meeting} (hm : m.Fine) : ∃ p1 s1 p2 s2 t n, p.next e .timer = .ok p1 ∧ s.next f .timer = .ok s1 ∧
      meet m p1 s1 = .ok (p2, s2) ∧ p2.st = .established ∧ Peer.Speaks s2 m.fopen.id ⟨t, 0, 0, n⟩ := by
  obtain ⟨p1, h1, h2, -⟩ := C115_client_back_partial h hg hw he hr
  obtain ⟨s1, k1, k2, -⟩ := C115_server_back_partial hs hf hl he' hr'
  obtain ⟨p2, s2, _, id, t, _, q1, q2, -, q3, -, -, -, q4, -⟩ := C109_opens h2 k2 hm
  exact ⟨p1, s1, p2, s2, t, _, h1, k1, q1, q3, by rw [← q2]; exact q4⟩

/-- C115: a client of the library after any history, and the server program after any history of C114 and the silence behind it: the client opens a secure
channel with the program, if a channel was free or a connection had one. -/
theorem C115_dials_again_partial {p : Cli} {es : List (KEnv × Cli.Ev)} {e : KEnv} (h : Cli.From es p) (hg : ∀ x ∈ es, Cli.Good x.1) (hw : p.st ≠ .waiting) (he : Cli.Good e)
    (hr : e.react = []) {m : Nat → Mem} {u : Nat → UInt32 × UInt32} {evs l : List (Stack.Env × Stack.Ev)} {s t : Stack} (hs : Stack.Tame m u evs s) (hb : s.box = [])
    (hv : ∀ x ∈ evs, x.1.tcp.timerFree = true ∧ x.1.tcp.starts = true) (hp : Stack.Path Stack.Hush s l t) (ht : Stack.Still t)
    (hc : s.chans.ids.len ≠ 0 ∨ ∃ k c, Pool.valid k ∧ Pool.valid c.toNat ∧ (s.srv.conns k).assoc = some c ∧ Channel.owner (s.chans.objs c.toNat).log ≠ none)
    {d : Dial} (hd : d.Fine) : ∃ p1 k p2 t' ch x, p.next e .timer = .ok p1 ∧ dial d k p1 t = .ok (p2, t') ∧ p2.st = .established ∧ Stack.Ready t' k ch x := by
  obtain ⟨p1, h1, h2, -⟩ := C115_client_back_partial h hg hw he hr
  obtain ⟨g1, -⟩ := Stack.fading_path (Stack.fading_start hs hb hv) hb hp
  obtain ⟨⟨free, k1, k2, k3, -⟩, k5, k6⟩ := Stack.C114_comes_back_partial hs hb hv hp ht
  have hlen : t.srv.ids.len = 32 := k1.hlen.trans k3
  obtain ⟨evs', htm⟩ := g1.tame
  have hch : t.chans.ids.len ≠ 0 := by
    rcases hc with hc | ⟨k, c, h1, h2, h3, h4⟩
    · omega
    · have := g1.gain c.toNat h2 h4 (k5 k h1 c h3)
      omega
  obtain ⟨k, p2, t', _, ch, tk, tx, _, _, q1, -, -, -, q2, -, -, q3, -⟩ := C110_opens h2 htm.reach ht.1 (by omega) hch hd
  exact ⟨p1, k, p2, t', ch, _, h1, q1, q2, q3⟩

/-! ## Not vacuous -/

/-- A history of a client: it opens, the link comes up, and nothing more happens. -/
def halfway : List (KEnv × Cli.Ev) := [(Cli.env, .user .open), (Cli.env, .linkConnected)]

theorem halfway_runs : ∃ p, Cli.From halfway p ∧ p.st = .connecting ∧ p.conn.st = .handshake ∧ p.log = [.opening] := by
  obtain ⟨p, hp, hv⟩ := Cli.observe_from (es := halfway) (v := ⟨.connecting, .handshake, true, true, true, 0, 0, [.opening]⟩) (by decide +kernel)
  injection hv with h1 h2 h3 h4 h5 h6 h7 h8
  exact ⟨p, hp, h1, h2, h8⟩

theorem env_good : Cli.Good Cli.env := ⟨⟨rfl, rfl, rfl, rfl⟩, by simp [Cli.env]⟩

theorem halfway_good : ∀ x ∈ halfway, Cli.Good x.1 := by
  intro x hx
  simp only [halfway, List.mem_cons, List.not_mem_nil, or_false] at hx
  rcases hx with rfl | rfl <;> exact env_good

/-- C115: a client whose server never acknowledges; a server whose client never says Hello; then they meet. -/
example : ∃ p s p1 s1 p2 s2, Cli.From halfway p ∧ p.conn.link = true ∧ (Peer.create garbage 0 0 0 0 0).next Peer.env (.user .open) = .ok s ∧ s.conn.link = true ∧
    p.next Cli.env .timer = .ok p1 ∧ s.next Peer.env .timer = .ok s1 ∧ meet (slow 5) p1 s1 = .ok (p2, s2) ∧ p2.st = .established := by
  have hpg : Peer.Good Peer.env := ⟨⟨rfl, rfl, rfl, rfl⟩, by simp [Peer.env]⟩
  obtain ⟨p, h1, h2, h3, h4⟩ := halfway_runs
  obtain ⟨d, g1, g2, -⟩ := Peer.opens_link (s := Peer.create garbage 0 0 0 0 0) (e := Peer.env) rfl rfl hpg
  obtain ⟨p1, s1, p2, s2, _, _, k1, k2, k3, k4, -⟩ := C115_meets_again_partial h1 halfway_good (by rw [h2]; simp) (s := _) (fs := [(Peer.env, .user .open)])
    ⟨garbage, 0, 0, 0, 0, 0, by show (Peer.next _ _ _ >>= fun q => q.run []) = _; rw [g1]; rfl⟩ (by simpa using hpg) (by intro z hz; simp [Peer.create] at hz)
    env_good rfl hpg rfl (slow_fine 5)
  exact ⟨p, _, p1, s1, p2, s2, h1, (Cli.C58_in_use_partial h1 halfway_good (by rw [h4]; decide +kernel)).1, g1, g2.link, k1, k2, k3, k4⟩

/-- C115: the same client calls the program, which two clients have left without a word (C114). -/
example : ∃ p s t p1 k p2 t' ch x, Cli.From halfway p ∧ Stack.Tame (fun _ => garbage) Channel.unset Stack.abandoned s ∧ Stack.Path Stack.Hush s Stack.sleep t ∧
    p.next Cli.env .timer = .ok p1 ∧ dial slowDial k p1 t = .ok (p2, t') ∧ p2.st = .established ∧ Stack.Ready t' k ch x := by
  obtain ⟨p, g1, g2, -⟩ := halfway_runs
  obtain ⟨s0, h1, h2⟩ := Exec.bind_eq_ok.mp Stack.sleep_runs
  obtain ⟨s, h3, h4⟩ := Exec.bind_eq_ok.mp h2
  obtain ⟨t, h5, h6⟩ := Exec.bind_eq_ok.mp h4
  injection h6 with h6
  simp only [Prod.mk.injEq] at h6
  obtain ⟨q1, q2, -, q4, -⟩ := h6
  obtain ⟨hb1, hb2⟩ := List.append_eq_nil_iff.mp q1
  injection q2 with q2 q3
  injection q3 with q3 _
  obtain ⟨-, htm⟩ := Stack.ambles_both (pre := []) .nil (.create h1) h3
  have hp := Stack.sleeps_path (pre := []) .nil h5
  have hst : Stack.Still t := ⟨hb2, fun k hk => by
    have : (t.srv.conns k).armed ∈ Stack.armedList t := List.mem_map.mpr ⟨k, List.mem_range'_1.2 ⟨hk.1, by have := hk.2; unfold poolCap at *; omega⟩, rfl⟩
    rw [q4] at this
    exact List.eq_of_mem_replicate this⟩
  obtain ⟨p1, k, p2, t', ch, x, k1, k2, k3, k4⟩ := C115_dials_again_partial g1 halfway_good (by rw [g2]; simp) env_good rfl htm hb1 Stack.abandoned_env hp hst
    (.inr ⟨1, 1, by decide, by decide, q2, by show Channel.owner (s.chans.objs 1).log ≠ none; rw [q3]; simp⟩) slowDial_fine
  exact ⟨p, s, t, p1, k, p2, t', ch, x, g1, htm, hp, k1, k2, k3, k4⟩

/-- C115: the client's wait is the exception. -/
example : ∃ p p', Cli.From Cli.start p ∧ p.next Cli.env .timer = .ok p' ∧ p'.conn.link = false ∧ ∀ q, p'.run [(Cli.env, .user .open)] = .ok q → q.log = p'.log := by
  obtain ⟨p, hp, hv⟩ := Cli.observe_from (es := Cli.start) (v := ⟨.waiting, .connected, true, true, true, 0, 0, Cli.startLog⟩) (by decide +kernel)
  injection hv with h1 h2 h3 h4 h5 h6 h7 h8
  obtain ⟨p', k1, k2, k3⟩ := C115_waiting_violated (e := Cli.env) hp Cli.good_start h1 rfl
  exact ⟨p, p', hp, k1, k2, fun q hq => (k3 _ _ hq).2⟩

end Uscada.Ua
