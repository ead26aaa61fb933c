import Verif.UaBlindProps

/-!
# C97: connections and channels that are used again

UaTcpConnection.cpp:146-175 and UaServerSecureChannel.cpp:23-29: the server serves one peer after the other with the same objects.
The receive buffer of a connection and the numbers of a channel keep what the peer before left there.  The theorem compares the server
with one where other values stand in these places, whatever peers came before: to the peers that come now both are the same server.
-/

namespace Uscada.Ua

open SM

open Transport (chunk)

namespace Stack

/-- The server goes on from `s` to `t`: nothing hurts and all that is read was received. -/
inductive Continues (s : Stack) : List (Env × Ev) → Stack → Prop
  | stay : Continues s [] s
  | step {evs : List (Env × Ev)} {t t' : Stack} {e : Env} {v : Ev} (h : Continues s evs t) (hp : Possible t v) (hh : Harmless t e v)
      (hw : Whole t e v) (hn : Stack.step t e v = .ok t') : Continues s (evs ++ [(e, v)]) t'

/-- The server may go from `s` to `t`. -/
inductive Resumes (s : Stack) : List (Env × Ev) → Stack → Prop
  | stay : Resumes s [] s
  | step {evs : List (Env × Ev)} {t t' : Stack} {e : Env} {v : Ev} (h : Resumes s evs t) (hp : Possible t v)
      (hn : Stack.step t e v = .ok t') : Resumes s (evs ++ [(e, v)]) t'

/-- What earlier use leaves in a connection is exchanged: the bytes of the buffer in which nothing has been received yet. -/
def swapBuffer (t : Tcp) (m : Mem) : Tcp := { t with rx := { t.rx with packet := m } }

/-- What earlier use leaves in a channel is exchanged: the number of the last message and the token of a channel that is not open. -/
def swapNumbers (c : Chan) (x : UInt32 × UInt32) : Chan :=
  if c.st = .established then c else { c with rxSeq := x.1, token := x.2 }

/-- The server with other remains: `m` in the buffers in which nothing has been received, `u` in the channels that are not open. -/
def swap (s : Stack) (m : Nat → Mem) (u : Nat → UInt32 × UInt32) : Stack :=
  { s with
    srv := { s.srv with conns := fun k => if (s.srv.conns k).rx.head = 0 then swapBuffer (s.srv.conns k) (m k) else s.srv.conns k }
    chans := { s.chans with objs := fun k => swapNumbers (s.chans.objs k) (u k) } }

theorem swap_twins (s : Stack) (m : Nat → Mem) (u : Nat → UInt32 × UInt32) : Twins s (s.swap m u) := by
  refine ⟨⟨rfl, fun k => ?_⟩, ⟨rfl, fun k => ?_⟩, rfl, rfl⟩
  · show Transport.Twin _ (if _ then _ else _)
    split
    · rename_i h
      exact ⟨rfl, rfl, rfl, rfl, rfl, rfl, rfl, rfl, by rw [h]; rfl, rfl⟩
    · exact ⟨rfl, rfl, rfl, rfl, rfl, rfl, rfl, rfl, rfl, rfl⟩
  · show Channel.Twin _ (swapNumbers _ _)
    unfold swapNumbers
    split
    · exact ⟨rfl, rfl, fun _ => ⟨rfl, rfl⟩, rfl, rfl, rfl⟩
    · rename_i h
      exact ⟨rfl, rfl, fun h' => absurd h' h, rfl, rfl, rfl⟩

variable {m : Nat → Mem} {u : Nat → UInt32 × UInt32} {past : List (Env × Ev)} {s : Stack}

theorem Continues.plain (h : Plain m u past s) {evs : List (Env × Ev)} {t : Stack} (ho : Continues s evs t) : Plain m u (past ++ evs) t := by
  induction ho with
  | stay => rw [List.append_nil]; exact h
  | step _ hp hh hw hn ih => rw [← List.append_assoc]; exact .step ih hp hh hw hn

theorem Continues.twins (h : Plain m u past s) {s' : Stack} (hs : Twins s s') {evs evs' : List (Env × Ev)} {t : Stack} (ho : Continues s evs t)
    (he : evs'.map (fun x => (forget x.1, x.2)) = evs.map (fun x => (forget x.1, x.2))) : ∃ t', Resumes s' evs' t' ∧ Twins t t' := by
  induction ho generalizing evs' with
  | stay =>
    obtain rfl := List.map_eq_nil_iff.mp he
    exact ⟨s', .stay, hs⟩
  | @step evs t r e v ho hp hh hw hn ih =>
    rw [List.map_append] at he
    obtain ⟨a, b, rfl, h1, h2⟩ := List.map_eq_append_iff.mp he
    obtain ⟨x, rfl, hx⟩ : ∃ x : Env × Ev, b = [x] ∧ (forget x.1, x.2) = (forget e, v) := by
      obtain ⟨x, y, rfl, h3, h4⟩ := List.map_eq_cons_iff.mp h2
      obtain rfl := List.map_eq_nil_iff.mp h4
      exact ⟨x, rfl, h3⟩
    obtain ⟨e', v'⟩ := x
    obtain ⟨hx1, hx2⟩ : forget e' = forget e ∧ v' = v := Prod.mk.inj hx
    subst hx2
    obtain ⟨t', h4, h5⟩ := ih h1
    obtain ⟨h6, r', h7, h8⟩ := step_twins h5 (ho.plain h).tame.solid hx1 hp hh hw hn
    exact ⟨r', .step h4 h6 h7, h8⟩

/-- C97, for peers whose messages contain all that is read of them: whatever peers a server has served, what they left in the buffers
and in the channels does not show to the peers that come afterwards.  If other values stood there, the server would go on with the same
events and show the same to every peer.  Missing: to peers that announce less than they are read for the bytes of their predecessors
are attributed (`C97_remains_violated`). -/
theorem C97_stack_partial (h : Plain m u past s) (evs : List (Env × Ev)) (t : Stack) (ho : Continues s evs t) (m' : Nat → Mem)
    (u' : Nat → UInt32 × UInt32) (evs' : List (Env × Ev))
    (he : evs'.map (fun x => (forget x.1, x.2)) = evs.map (fun x => (forget x.1, x.2))) :
    ∃ t', Resumes (s.swap m' u') evs' t' ∧ ∀ k, t'.shown k = t.shown k := by
  obtain ⟨t', h1, h2⟩ := ho.twins h (swap_twins s m' u') he
  exact ⟨t', h1, h2.shown⟩

/-! ## What the predecessor said -/

/-- A client connects while 31 others wait, opens a channel with the four bytes `x` as life time and falls silent until the
server drops it; the next client gets the same
connection, says hello and sends an open request without life time. -/
def follows (x : List UInt8) : List (Env × Ev) := List.replicate 32 (calm, .net .accept) ++
  [(reads helloFrame, .net (.linkData 1)), (reads (chunk .opn 0x46 0 (cut 4 ++ x)), .net (.linkData 1)), (calm, .deliver), (calm, .deliver),
   (calm, .net (.timer 1)), (calm, .deliver),
   (calm, .net .accept), (reads helloFrame, .net (.linkData 1)), (reads (chunk .opn 0x46 0 (cut 4)), .net (.linkData 1)), (calm, .deliver),
   (calm, .deliver)]

def learns (x : List UInt8) : Exec (List (List UInt8) × Nat) := do
  let s ← create (fun _ => garbage) Channel.unset
  let s' ← runs s (follows x)
  pure (lifetimes (s'.shown 1), ((s'.shown 1).filter (· = .accepted)).length)

theorem learns_reach {x : List UInt8} {l : List (List UInt8)} {n : Nat} (h : learns x = .ok (l, n)) :
    ∃ s, Reach (fun _ => garbage) Channel.unset (follows x) s ∧ lifetimes (s.shown 1) = l := by
  obtain ⟨s, h1, h2⟩ := Exec.bind_eq_ok.mp h
  obtain ⟨s', h3, h4⟩ := Exec.bind_eq_ok.mp h2
  injection h4 with h4
  have := runs_reach (pre := []) (.create h1) h3
  exact ⟨s', this, (Prod.mk.inj h4).1⟩

/-- Against C97: two histories that differ in four bytes of what the first client said.  The second client, which sends the same bytes in
both and has the connection for itself, gets these four bytes as the life time of its token. -/
theorem C97_remains_violated : ∃ s s', Reach (fun _ => garbage) Channel.unset (follows [0x53, 0x45, 0x43, 0x52]) s ∧
    Reach (fun _ => garbage) Channel.unset (follows [0x80, 0xEE, 0x36, 0]) s' ∧
    lifetimes (s.shown 1) = [[0x53, 0x45, 0x43, 0x52], [0x53, 0x45, 0x43, 0x52]] ∧
    lifetimes (s'.shown 1) = [[0x80, 0xEE, 0x36, 0], [0x80, 0xEE, 0x36, 0]] := by
  have h1 : learns [0x53, 0x45, 0x43, 0x52] = .ok ([[0x53, 0x45, 0x43, 0x52], [0x53, 0x45, 0x43, 0x52]], 2) := by decide +kernel
  have h2 : learns [0x80, 0xEE, 0x36, 0] = .ok ([[0x80, 0xEE, 0x36, 0], [0x80, 0xEE, 0x36, 0]], 2) := by decide +kernel
  obtain ⟨s, r1, q1⟩ := learns_reach h1
  obtain ⟨s', r2, q2⟩ := learns_reach h2
  exact ⟨s, s', r1, r2, q1, q2⟩

/-! ## A connection that is used twice -/

theorem plains_onward {os rs : List (List UInt8)} (ho : ∀ w ∈ os, ∃ v, Reads Channel.openReqDec w v)
    (hd : ∀ w ∈ rs, ∃ v, Reads Session.dispatch w v) {pre evs : List (Env × Ev)} {t t' : Stack} (h : Continues s pre t)
    (hr : plains os rs t evs = .ok t') : Continues s (pre ++ evs) t' := by
  induction evs generalizing pre t with
  | nil =>
    injection hr with hr
    rw [List.append_nil, ← hr]
    exact h
  | cons x l ih =>
    obtain ⟨e, v⟩ := x
    unfold plains at hr
    split at hr
    · rename_i hp
      obtain ⟨s1, h1, h2⟩ := Exec.bind_eq_ok.mp hr
      have := ih (h.step hp.1 hp.2.1 (known_whole ho hd hp.2.2) h1) h2
      rwa [List.append_assoc] at this
    · cases hr

/-- The first client of `follows`, until its connection is free again. -/
def visits : List (Env × Ev) := List.replicate 32 (calm, .net .accept) ++
  [(reads helloFrame, .net (.linkData 1)), (reads (chunk .opn 0x46 0 Channel.openReq), .net (.linkData 1)), (calm, .deliver),
   (calm, .deliver), (calm, .net (.timer 1)), (calm, .deliver)]

theorem visits_plains : (do
    let s ← create (fun _ => garbage) Channel.unset
    let s' ← plains [Channel.openReq] [] s visits
    let t ← plains [Channel.openReq] [] s' connects
    pure ((s'.shown 1).length, (t.shown 1).length, (s'.srv.conns 1).rx.head, (s'.chans.objs 1).token)) = .ok (4, 7, 0, 77) := by
  decide +kernel

/-- C97: the second client of connection 1 sees three things, whatever the first one left in the buffer and its channel. -/
example : ∃ s t, Plain (fun _ => garbage) Channel.unset visits s ∧ Continues s connects t ∧ (s.shown 1).length = 4 ∧ (t.shown 1).length = 7 ∧
    ∀ m u, ∃ t', Resumes (s.swap m u) connects t' ∧ ∀ k, t'.shown k = t.shown k := by
  obtain ⟨s, h1, h2⟩ := Exec.bind_eq_ok.mp visits_plains
  obtain ⟨s', h3, h4⟩ := Exec.bind_eq_ok.mp h2
  obtain ⟨t, h5, h6⟩ := Exec.bind_eq_ok.mp h4
  injection h6 with h6
  simp only [Prod.mk.injEq] at h6
  have ho : ∀ w ∈ [Channel.openReq], ∃ v, Reads Channel.openReqDec w v := fun w hw => by
    rw [List.mem_singleton.mp hw]
    exact ⟨_, Channel.open_reads _ _ _ openReq_says⟩
  have hd : ∀ w ∈ ([] : List (List UInt8)), ∃ v, Reads Session.dispatch w v := fun w hw => by cases hw
  have h := plains_plain ho hd (.create h1) h3
  have h' := plains_onward ho hd .stay h5
  exact ⟨s', t, h, h', h6.1, h6.2.1, fun m u => C97_stack_partial h connects t h' m u connects rfl⟩

end Stack

end Uscada.Ua
