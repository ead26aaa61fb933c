import Verif.UaLoadProps
import Verif.UaStackRuns
/-!
# C73: requests are lost under load

32 clients, as many as the server accepts, are connected, and each sends three requests without waiting for the answers.  The reactor
is fair: between two turns of the mailbox it serves each connection once, and at its turn the mailbox hands out all messages it holds at
that moment (Reactor.cpp:140-163 reads the number of messages and handles so many).
-/

namespace Uscada.Ua.Stack

open Transport (Down TEv chunk about)
open Session (bytesOf)

/-- Connection `k` is accepted, says hello, and opens channel `k` with token 77. -/
def joins (k : Nat) : List (Env × Ev) := [(calm, .net .accept), (reads helloFrame, .net (.linkData k)),
  (reads (chunk .opn 0x46 0 Channel.openReq), .net (.linkData k)), (calm, .deliver), (calm, .deliver)]

/-- A well formed get endpoints request on connection `k` and channel `k`. -/
def asksOn (k : Nat) (seq id : UInt32) : Env × Ev :=
  (reads (chunk .msg 0x46 (UInt32.ofNat k) (Channel.msg seq id (bytesOf (.getEndpoints Ua.init)))), .net (.linkData k))

/-- The connections. -/
def clients : List Nat := (List.range 32).map (· + 1)

/-- Each client sends one request. -/
def volley (seq id : UInt32) : List (Env × Ev) := clients.map fun k => asksOn k seq id

/-- The mailbox hands out `n` messages. -/
def turn (n : Nat) : List (Env × Ev) := List.replicate n (calm, .deliver)

/-- All clients connect; then each sends three requests; then nothing happens outside any more. -/
def flood : List (List (Env × Ev)) :=
  [clients.flatMap joins, volley 52 10, turn 32, volley 53 11, turn 64, volley 54 12, turn 64, turn 64, turn 32]

/-- The number of messages in the mailbox before each part of a history. -/
def parts (s : Stack) : List (List (Env × Ev)) → Exec (List Nat × Stack)
  | [] => .ok ([s.box.length], s)
  | p :: ps => do
    let s' ← runs s p
    let r ← parts s' ps
    pure (s.box.length :: r.1, r.2)

theorem parts_reach {m : Nat → Mem} {u : Nat → UInt32 × UInt32} {pre : List (Env × Ev)} {s s' : Stack} {ps : List (List (Env × Ev))}
    {ns : List Nat} (h : Reach m u pre s) (hr : parts s ps = .ok (ns, s')) : Reach m u (pre ++ ps.flatten) s' := by
  induction ps generalizing pre s ns with
  | nil =>
    injection hr with hr
    injection hr with _ hr
    rw [List.flatten_nil, List.append_nil, ← hr]
    exact h
  | cons p ps ih =>
    obtain ⟨s1, h1, h2⟩ := Exec.bind_eq_ok.mp hr
    obtain ⟨r, h3, h4⟩ := Exec.bind_eq_ok.mp h2
    injection h4 with h4
    injection h4 with _ h4
    have := ih (ns := r.1) (runs_reach h h1) (by rw [h3, ← h4])
    rwa [List.flatten_cons, ← List.append_assoc]

/-- Requests and answers of a connection, by request id, and whether it is still connected. -/
def talked (s : Stack) (k : Nat) : List UInt32 × List UInt32 × TSt :=
  ((s.srv.conns k).log.filterMap (asked .msg), (s.srv.conns k).log.filterMap (answered .msg), (s.srv.conns k).st)

/-- After a history, what was said on all connections; then client 1 sends one more request. -/
def watch (ps : List (List (Env × Ev))) : Exec ((List Nat × List (List UInt32 × List UInt32 × TSt)) × List UInt32 × List UInt32 × TSt) := do
  let s ← create (fun _ => garbage) Channel.unset
  let r ← parts s ps
  let s' ← runs r.2 (asksOn 1 55 13 :: turn 2)
  pure ((r.1, clients.map (talked r.2)), talked s' 1)

set_option synthInstance.maxSize 1000 in
set_option synthInstance.maxHeartbeats 200000 in
theorem flood_runs : watch flood = .ok (([0, 0, 32, 32, 64, 64, 64, 64, 32, 0],
    clients.map fun _ => ([10, 11, 12], [10, 11], .connected)), [10, 11, 12, 13], [10, 11], .init) := by
  decide +kernel

theorem watch_reach {ps : List (List (Env × Ev))} {ns : List Nat} {ts : List (List UInt32 × List UInt32 × TSt)} {t : List UInt32 × List UInt32 × TSt}
    (h : watch ps = .ok ((ns, ts), t)) :
    ∃ s0 s s', create (fun _ => garbage) Channel.unset = .ok s0 ∧ parts s0 ps = .ok (ns, s) ∧ Reach (fun _ => garbage) Channel.unset ps.flatten s ∧
      clients.map (talked s) = ts ∧ Reach (fun _ => garbage) Channel.unset (ps.flatten ++ asksOn 1 55 13 :: turn 2) s' ∧ talked s' 1 = t := by
  obtain ⟨s0, h1, h2⟩ := Exec.bind_eq_ok.mp h
  obtain ⟨r, h3, h4⟩ := Exec.bind_eq_ok.mp h2
  obtain ⟨s', h5, h6⟩ := Exec.bind_eq_ok.mp h4
  injection h6 with h6
  injection h6 with h6 h7
  injection h6 with h8 h9
  have h3 : parts s0 ps = .ok (ns, r.2) := by rw [h3, ← h8]
  have h10 : Reach (fun _ => garbage) Channel.unset ps.flatten r.2 := by simpa using parts_reach (.create h1) h3
  exact ⟨s0, r.2, s', h1, h3, h10, h9, runs_reach h10 h5, h7⟩

theorem parts_last {s s' : Stack} {ps : List (List (Env × Ev))} {ns : List Nat} (h : parts s ps = .ok (ns, s')) :
    ns.getLast? = some s'.box.length := by
  induction ps generalizing s ns with
  | nil =>
    injection h with h
    injection h with h1 h2
    rw [← h1, ← h2]
    rfl
  | cons p ps ih =>
    obtain ⟨s1, h1, h2⟩ := Exec.bind_eq_ok.mp h
    obtain ⟨r, h3, h4⟩ := Exec.bind_eq_ok.mp h2
    injection h4 with h4
    injection h4 with h5 h4
    have := ih (ns := r.1) (by rw [h3, ← h4])
    rw [← h5, List.getLast?_cons, this]
    rfl

/-- C73 is violated: with 32 clients that send three requests each without waiting, the mailbox is full when the third requests come, and
all of them are dropped.  When the mailbox is empty again, all clients are still connected, and none of them ever gets the third answer.
The next request of such a client, sound as it is, is not answered either: its sequence number does not follow the last one that the
channel has seen, and the connection is ended. -/
theorem C73_pipelined_violated : ∃ s s', Reach (fun _ => garbage) Channel.unset flood.flatten s ∧ s.box = [] ∧
    (∀ k ∈ clients, (s.srv.conns k).st = .connected ∧ (s.srv.conns k).log.filterMap (asked .msg) = [10, 11, 12] ∧
      (s.srv.conns k).log.filterMap (answered .msg) = [10, 11]) ∧
    Reach (fun _ => garbage) Channel.unset (flood.flatten ++ asksOn 1 55 13 :: turn 2) s' ∧ (s'.srv.conns 1).st = .init ∧
    (s'.srv.conns 1).log.filterMap (asked .msg) = [10, 11, 12, 13] ∧ (s'.srv.conns 1).log.filterMap (answered .msg) = [10, 11] := by
  obtain ⟨s0, s, s', _, h2, h3, h4, h5, h6⟩ := watch_reach flood_runs
  refine ⟨s, s', h3, ?_, fun k hk => ?_, h5, congrArg (fun x => x.2.2) h6, congrArg (fun x => x.1) h6, congrArg (fun x => x.2.1) h6⟩
  · have := parts_last h2
    exact List.length_eq_zero_iff.mp (Option.some.inj this).symm
  · have := List.map_inj_left.mp h4 k hk
    exact ⟨congrArg (fun x => x.2.2) this, congrArg (fun x => x.1) this, congrArg (fun x => x.2.1) this⟩

/-! ## Examples -/

/-- `Patient`, decided. -/
def patient (e : Env) (s : Stack) : Ev → Bool
  | .deliver => e.others == 0
  | .net t => e.others == 0 && match about t with
    | some k => s.box.all fun x => connOf x != UInt32.ofNat k
    | none => true

theorem patient_iff {e : Env} {s : Stack} {v : Ev} (h : patient e s v = true) : Patient e s v := by
  cases v with
  | deliver => exact ⟨beq_iff_eq.mp h, fun _ _ h => nomatch h⟩
  | net t =>
    unfold patient at h
    rw [Bool.and_eq_true] at h
    refine ⟨beq_iff_eq.mp h.1, fun t' k ht hk x hx => ?_⟩
    injection ht with ht
    have h2 := h.2
    rw [ht, hk] at h2
    exact bne_iff_ne.mp (List.all_eq_true.mp h2 x hx)

/-- A patient history. -/
def waits (s : Stack) : List (Env × Ev) → Exec Stack
  | [] => .ok s
  | (e, v) :: l => if Possible s v ∧ patient e s v = true then step s e v >>= fun s' => waits s' l else .throws

theorem waits_path {s0 s s' : Stack} {pre l : List (Env × Ev)} (h : Path Patient s0 pre s) (hr : waits s l = .ok s') :
    Path Patient s0 (pre ++ l) s' := by
  induction l generalizing pre s with
  | nil =>
    injection hr with hr
    rw [List.append_nil, ← hr]
    exact h
  | cons x l ih =>
    obtain ⟨e, v⟩ := x
    unfold waits at hr
    split at hr
    · rename_i hp
      obtain ⟨s1, h1, h2⟩ := Exec.bind_eq_ok.mp hr
      have := ih (h.snoc hp.1 (patient_iff hp.2) h1) h2
      rwa [List.append_assoc] at this
    · cases hr

/-- Two clients connect and each sends a request; the session component has handled both, and the answers are under way. -/
def twice : List (Env × Ev) := joins 1 ++ joins 2 ++ [asksOn 1 52 10, asksOn 2 52 10] ++ turn 4

def watchTwice : Exec (Nat × Nat × Nat × Nat × List UInt32) := do
  let s ← create (fun _ => garbage) Channel.unset
  let s1 ← waits s twice
  let s2 ← waits s1 (turn 1)
  let s3 ← waits s2 (turn 3)
  pure (s.box.length, s1.box.length, s2.box.length, s3.box.length, (s3.srv.conns 2).log.filterMap (answered .msg))

theorem twice_runs : watchTwice = .ok (0, 2, 2, 0, [10]) := by decide +kernel

/-- The theorems apply to this history: 8 events of links, 8 messages handled, 2 in the mailbox. -/
example : ∃ s s1 s2, s.box = [] ∧ Path Patient s twice s1 ∧ s1.box.length = 2 ∧ step s1 calm .deliver = .ok s2 ∧ Kept s1 s2 .deliver ∧
    deliveries twice + s1.box.length ≤ 6 * nets twice ∧ nets twice = 8 ∧ deliveries twice = 8 := by
  obtain ⟨s, _, h⟩ := Exec.bind_eq_ok.mp twice_runs
  obtain ⟨s1, h1, h⟩ := Exec.bind_eq_ok.mp h
  obtain ⟨s2, h2, h⟩ := Exec.bind_eq_ok.mp h
  obtain ⟨s3, _, h⟩ := Exec.bind_eq_ok.mp h
  injection h with h
  injection h with h3 h
  injection h with h4 h
  have hb : s.box = [] := List.length_eq_zero_iff.mp h3
  have hp := waits_path .nil h1
  unfold turn waits at h2
  simp only [List.replicate] at h2
  split at h2
  · rename_i hq
    obtain ⟨s2', h5, h6⟩ := Exec.bind_eq_ok.mp h2
    exact ⟨s, s1, s2', hb, hp, h4, h5, C73_patient_partial hb hp hq.1 (patient_iff hq.2) h5, C73_work hb hp, by decide, by decide⟩
  · cases h2

/-- Few enough events: the hypothesis of `C73_few_partial` holds for the same history with room for more. -/
example : 2 * nets (twice ++ [(calm, .deliver)]) + calm.others = 16 := by decide

end Uscada.Ua.Stack
