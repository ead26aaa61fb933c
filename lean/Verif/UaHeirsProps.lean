import Verif.UaHeirs
import Verif.UaLoadRuns
/-!
# C94: an answer reaches the client that asked

C65 speaks of a connection of the server, that is of one of 32 identifiers, and several clients have the same identifier one after the
other.  Here the answers to one client are compared with the requests of this client.
-/

namespace Uscada.Ua.Stack

open Transport (TEv chunk)
open Session (bytesOf)

variable {m : Nat → Mem} {u : Nat → UInt32 × UInt32} {evs : List (Env × Ev)} {s s' : Stack} {K : Kind} {a : Nat}

/-! ## Since a moment of the history -/

theorem path_reach {P : Env → Stack → Ev → Prop} {l : List (Env × Ev)} (h : Reach m u evs s) (hp : Path P s l s') : Reach m u (evs ++ l) s' := by
  induction hp with
  | nil => rw [List.append_nil]; exact h
  | snoc _ hp _ hn ih => rw [← List.append_assoc]; exact .step ih hp hn

theorem longUps_path {P : Env → Stack → Ev → Prop} {l : List (Env × Ev)} (h : Path P s l s') (hl : LongUps s'.srv) : LongUps s.srv := by
  induction h with
  | nil => exact hl
  | snoc _ hp _ hn ih => exact ih (hl.back (step_moves hp hn))

/-- From a moment on, what a connection answers and what is in flight for it in the end was in flight for it at that moment or has been
asked since. -/
theorem flight_since {P : Env → Stack → Ev → Prop} {l : List (Env × Ev)} (h : Reach m u evs s) (hp : Path P s l s')
    (hl : K = .msg → LongUps s'.srv) {k : Nat} (hk : k ≤ 32) : ∃ new, (s'.srv.conns k).log = (s.srv.conns k).log ++ new ∧
      (new.filterMap (answered K) ++ flight K k s'.box).Sublist (flight K k s.box ++ new.filterMap (asked K)) := by
  induction hp with
  | nil => exact ⟨[], (List.append_nil _).symm, by simp⟩
  | snoc hpath hp _ hn ih =>
    have hmv := step_moves hp hn
    obtain ⟨new, h1, h2⟩ := ih fun a => (hl a).back hmv
    obtain ⟨_, _, _, _, _, _, hbox⟩ := reach_parts (path_reach h hpath)
    obtain ⟨new', h3, h4⟩ := flight_step hmv (fun a => (hbox ((hl a).back hmv)).2) hk
    refine ⟨new ++ new', by rw [h3, h1, List.append_assoc], ?_⟩
    rw [List.filterMap_append, List.filterMap_append, List.append_assoc, ← List.append_assoc (flight K k _)]
    refine ((List.Sublist.refl _).append h4).trans ?_
    rw [← List.append_assoc]
    exact h2.append (List.Sublist.refl _)

/-- A message under way that names connection `k` and is, or can lead to, an answer. -/
def Names (k : Nat) : Mail → Prop
  | .tcp j _ => j = k
  | .chan (.open c _) => c = UInt32.ofNat k
  | .chan (.close c _ _) => c = UInt32.ofNat k
  | .chan (.message c _ _) => c = UInt32.ofNat k
  | .chan (.send h _) => h.connectionId = UInt32.ofNat k
  | .sess h _ => h.connectionId = UInt32.ofNat k
  | _ => False

theorem rank_zero {k : Nat} {x : Mail} (h : ¬ Names k x) : rank K k x = 0 := by
  cases x with
  | tcp j d =>
    have h : ¬ j = k := h
    simp [rank, tcpId, sendId, sessId, chanId, h]
  | chan y =>
    cases y with
    | «open» c d => have h : ¬ c = UInt32.ofNat k := h; simp [rank, tcpId, sendId, sessId, chanId, h]
    | close c ch d => have h : ¬ c = UInt32.ofNat k := h; simp [rank, tcpId, sendId, sessId, chanId, h]
    | message c ch d => have h : ¬ c = UInt32.ofNat k := h; simp [rank, tcpId, sendId, sessId, chanId, h]
    | send hdr d => have h : ¬ hdr.connectionId = UInt32.ofNat k := h; simp [rank, tcpId, sendId, sessId, chanId, h]
    | _ => simp [rank, tcpId, sendId, sessId, chanId]
  | sess hdr d =>
    have h : ¬ hdr.connectionId = UInt32.ofNat k := h
    simp [rank, tcpId, sendId, sessId, chanId, h]

/-- The part of C94 that holds for every history: from the moment on at which a client is accepted, the answers written to this connection
are, in this order, among what was under way for the identifier at that moment and what was asked since.  (Missing: that nothing was
under way.) -/
theorem C94_since_partial {P : Env → Stack → Ev → Prop} {l : List (Env × Ev)} (h : Reach m u evs s) (hp : Path P s l s')
    (hl : K = .msg → LongUps s'.srv) {k : Nat} (hk : k ≤ 32) {new : List TAct} (hnew : (s'.srv.conns k).log = (s.srv.conns k).log ++ new) :
    (new.filterMap (answered K)).Sublist (flight K k s.box ++ new.filterMap (asked K)) := by
  obtain ⟨new', h1, h2⟩ := flight_since h hp hl hk
  rw [hnew] at h1
  rw [List.append_cancel_left h1]
  exact (List.sublist_append_left _ _).trans h2

/-- C94 for a client that was accepted while no message named its identifier: what is written to it answers what it asked. -/
theorem C94_idle_partial {P : Env → Stack → Ev → Prop} {l : List (Env × Ev)} (h : Reach m u evs s) (hp : Path P s l s')
    (hl : K = .msg → LongUps s'.srv) {k : Nat} (hk : k ≤ 32) (hbox : ∀ x ∈ s.box, ¬ Names k x) {new : List TAct}
    (hnew : (s'.srv.conns k).log = (s.srv.conns k).log ++ new) : (new.filterMap (answered K)).Sublist (new.filterMap (asked K)) := by
  have := C94_since_partial h hp hl hk hnew
  rwa [flight_nil fun x hx => rank_zero (hbox x hx)] at this

/-! ## Enough free identifiers -/

/-- A history in turns.  `n` messages of the current turn are still to be handed out, and `c` clients have been accepted since the last
turn.  Reactor.cpp:140-163 reads how many messages there are and hands out so many; the descriptors have their events in between, the
acceptor at most `a` times from one turn to the next.  At all times `4 * a` identifiers of connections are free. -/
inductive Turns (a : Nat) (m : Nat → Mem) (u : Nat → UInt32 × UInt32) : Nat → Nat → List (Env × Ev) → Stack → Prop
  | create {s : Stack} (h : create m u = .ok s) (hfree : 4 * a ≤ s.srv.ids.len) : Turns a m u 0 0 [] s
  | net {c : Nat} {evs : List (Env × Ev)} {s s' : Stack} {e : Env} {v : TEv} (h : Turns a m u c 0 evs s) (hp : Possible s (.net v)) (hv : v ≠ .accept)
      (hn : step s e (.net v) = .ok s') (hfree : 4 * a ≤ s'.srv.ids.len) : Turns a m u c 0 (evs ++ [(e, .net v)]) s'
  | accept {c : Nat} {evs : List (Env × Ev)} {s s' : Stack} {e : Env} (h : Turns a m u c 0 evs s) (hc : c < a)
      (hn : step s e (.net .accept) = .ok s') (hfree : 4 * a ≤ s'.srv.ids.len) : Turns a m u (c + 1) 0 (evs ++ [(e, .net .accept)]) s'
  | turn {c : Nat} {evs : List (Env × Ev)} {s : Stack} (h : Turns a m u c 0 evs s) : Turns a m u 0 s.box.length evs s
  | deliver {n : Nat} {evs : List (Env × Ev)} {s s' : Stack} {e : Env} (h : Turns a m u 0 (n + 1) evs s) (hp : s.box ≠ [])
      (hn : step s e .deliver = .ok s') (hfree : 4 * a ≤ s'.srv.ids.len) : Turns a m u 0 n (evs ++ [(e, .deliver)]) s'

theorem Turns.reach {c n : Nat} (h : Turns a m u c n evs s) : Reach m u evs s := by
  induction h with
  | create h _ => exact .create h
  | net _ hp _ hn _ ih => exact .step ih hp hn
  | accept _ _ hn _ ih => exact .step ih ⟨rfl, trivial⟩ hn
  | turn _ ih => exact ih
  | deliver _ hp hn _ ih => exact .step ih hp hn

theorem Turns.free {c n : Nat} (h : Turns a m u c n evs s) : 4 * a ≤ s.srv.ids.len := by
  induction h <;> assumption

theorem free_list (h : Reach m u evs s) : ∃ l, Pool.Free s.srv.ids l := by
  obtain ⟨tevs, _, _, ht, _⟩ := reach_parts h
  obtain ⟨l, h1, _⟩ := Transport.reach_inv (L := True) (A := False) (fun _ _ => ⟨fun _ => trivial, fun h => h.elim⟩) ht
  exact ⟨l, h1⟩

/-- One event of a descriptor. -/
theorem net_within {e : Env} {v : TEv} (hr : Reach m u evs s) (hp : Possible s (.net v)) (hn : step s e (.net v) = .ok s')
    (hroom : 4 * a ≤ s.srv.ids.len) {l : List Nat} (hl : Pool.Free s.srv.ids l) {l' : List Nat} (hl' : Pool.Free s'.srv.ids l') {b : Nat}
    (hw : Within a K l b s.box) : Within a K l' (b + if v = .accept then 1 else 0) s'.box := by
  obtain ⟨tevs, _, _, ht, _⟩ := reach_parts hr
  obtain ⟨h1, _, _, h4⟩ := onTcp_ok hn
  obtain ⟨ms, h5, h6⟩ := post_ok h4
  rw [hl.holds.hlen] at hroom
  rw [h6]
  refine Within.append ?_ ((sent_within ht hp.2 h1 hl hl' hroom).sub fun y hy => h5.subset hy)
  rcases Transport.next_order ht hp.2 h1 hl hl' with ⟨hv, ⟨he, _⟩ | ⟨i, hi, _⟩⟩ | ⟨hv, ho, _⟩
  · rw [he]
    exact hw.mono (by omega)
  · rw [if_pos hv]
    exact hw.popped hi
  · rw [if_neg hv]
    exact hw.pushed ho hroom

/-- One message is handed out. -/
theorem deliver_within {e : Env} {x : Mail} {rest : List Mail} (hr : Reach m u evs s) (hlong : K = .msg → LongUps s.srv) (hb : s.box = x :: rest)
    (hn : step s e .deliver = .ok s') (hroom : 4 * a ≤ s.srv.ids.len) {l : List Nat} (hl : Pool.Free s.srv.ids l) {l' : List Nat}
    (hl' : Pool.Free s'.srv.ids l') (hx : Within a K l a [x]) : ∃ ms, s'.box = rest ++ ms ∧ Within a K l' 0 ms ∧
      ∀ b xs, Within a K l b xs → Within a K l' b xs := by
  obtain ⟨tevs, _, _, ht, _, _, hbx⟩ := reach_parts hr
  rw [hl.holds.hlen] at hroom
  have nearer : ∀ {ms : List Mail}, (∀ k, k < 33 → ∀ y ∈ ms, rank K k y < rank K k x ∨ rank K k y = 0) → Within a K l 0 ms := by
    intro ms h p k hp y hy
    have hk : k < 33 := by have := hl.ids k (List.mem_of_getElem? hp); unfold Pool.valid poolCap at this; omega
    rcases h k hk y hy with h | h
    · have h1 := Nat.mul_le_mul_left a (show rank K k y + 1 ≤ rank K k x by omega)
      have h2 := hx p k hp x (List.mem_singleton.mpr rfl)
      rw [Nat.mul_add] at h1
      omega
    · rw [h]
      omega
  have hn : deliver 4096 s e = .ok s' := hn
  unfold deliver at hn
  rw [hb] at hn
  cases x with
  | chan y =>
    obtain ⟨h1, h2, _, h4⟩ := onChan_ok hn
    obtain ⟨ms, h5, h6⟩ := post_ok h4
    have : l' = l := Transport.free_unique hl' (by rw [h2]; exact hl)
    subst this
    refine ⟨ms, h6, nearer fun k hk z hz => ?_, fun _ _ h => h⟩
    exact chan_rank hk (fun a => (hbx (hlong a)).2 y (by rw [hb]; exact List.mem_cons_self)) h1 z (h5.subset hz)
  | tcp j d =>
    obtain ⟨h1, _, _, h4⟩ := onTcp_ok hn
    obtain ⟨ms, h5, h6⟩ := post_ok h4
    refine ⟨ms, h6, (sent_within ht (v := .down j d) trivial h1 hl hl' hroom).sub fun y hy => h5.subset hy, fun b xs hw => ?_⟩
    rcases Transport.next_order ht (v := .down j d) trivial h1 hl hl' with ⟨hv, _⟩ | ⟨_, ho, _⟩
    · cases hv
    · exact hw.pushed ho hroom
  | sess hdr d =>
    obtain ⟨h1, h2, _, h4⟩ := onSess_ok hn
    obtain ⟨ms, h5, h6⟩ := post_ok h4
    have : l' = l := Transport.free_unique hl' (by rw [h2]; exact hl)
    subst this
    exact ⟨ms, h6, nearer fun k _ z hz => sess_rank h1 z (h5.subset hz), fun _ _ h => h⟩

/-- The invariant of a history in turns. -/
theorem turns_within {c n : Nat} (h : Turns a m u c n evs s) (hlong : K = .msg → LongUps s.srv) {l : List Nat} (hl : Pool.Free s.srv.ids l) :
    n ≤ s.box.length ∧ c ≤ a ∧ Within a K l a (s.box.take n) ∧ Within a K l c (s.box.drop n) := by
  induction h generalizing l with
  | create h _ =>
    obtain ⟨srv, h1, h⟩ := Exec.bind_eq_ok.mp h
    obtain ⟨chans, h2, h⟩ := Exec.bind_eq_ok.mp h
    obtain ⟨sess, h3, h⟩ := Exec.bind_eq_ok.mp h
    injection h with h
    subst h
    exact ⟨Nat.le_refl _, Nat.zero_le _, (fun _ _ _ _ hx => by simp at hx), fun _ _ _ _ hx => by simp at hx⟩
  | net h hp hv hn _ ih =>
    obtain ⟨l0, h0⟩ := free_list h.reach
    obtain ⟨_, h2, _, h4⟩ := ih (fun a => (hlong a).back (step_moves hp hn)) h0
    have := net_within h.reach hp hn h.free h0 hl h4
    rw [if_neg hv] at this
    exact ⟨Nat.zero_le _, h2, (fun _ _ _ _ hx => by simp at hx), this⟩
  | @accept c evs s s' e h hc hn _ ih =>
    have hp : Possible s (.net .accept) := ⟨rfl, trivial⟩
    obtain ⟨l0, h0⟩ := free_list h.reach
    obtain ⟨_, h2, _, h4⟩ := ih (fun a => (hlong a).back (step_moves hp hn)) h0
    have := net_within h.reach hp hn h.free h0 hl h4
    exact ⟨Nat.zero_le _, hc, (fun _ _ _ _ hx => by simp at hx), this⟩
  | turn h ih =>
    obtain ⟨_, h2, _, h4⟩ := ih hlong hl
    refine ⟨Nat.le_refl _, Nat.zero_le _, ?_, fun _ _ _ _ hx => by simp at hx⟩
    rw [List.take_length]
    exact h4.mono h2
  | @deliver n evs s s' e h hp hn _ ih =>
    have hback := fun a => (hlong a).back (step_moves (v := .deliver) hp hn)
    obtain ⟨l0, h0⟩ := free_list h.reach
    obtain ⟨h1, _, h3, h4⟩ := ih hback h0
    cases hb : s.box with
    | nil => exact absurd hb hp
    | cons x rest =>
      rw [hb] at h1 h3 h4
      obtain ⟨ms, g1, g2, g3⟩ := deliver_within h.reach hback hb hn h.free h0 hl (h3.sub fun y hy => by
        rw [List.mem_singleton.mp hy]; exact List.mem_cons_self)
      have hlen : n ≤ rest.length := by simpa using h1
      rw [g1, List.take_append_of_le_length hlen, List.drop_append_of_le_length hlen]
      refine ⟨by rw [List.length_append]; omega, Nat.zero_le _, g3 _ _ (h3.sub fun y hy => List.mem_cons_of_mem _ hy), (g3 _ _ h4).append g2⟩

/-- C94 when identifiers are free: if the reactor hands out the waiting messages at least once for every `a` clients that it accepts, and
`4 * a` identifiers are free at all times, then everything that is written to a client after it was accepted answers what this client
asked.  (Missing: a crowded server, see `C94_heir_violated`.) -/
theorem C94_turns_partial {c : Nat} (h : Turns a m u c 0 evs s) (hc : c < a) {e : Env} {s1 : Stack} (hn : step s e (.net .accept) = .ok s1)
    {k : Nat} (hk : (s1.srv.conns k).log ≠ (s.srv.conns k).log) {P : Env → Stack → Ev → Prop} {l : List (Env × Ev)} (hp : Path P s1 l s')
    (hl : K = .msg → LongUps s'.srv) {new : List TAct} (hnew : (s'.srv.conns k).log = (s.srv.conns k).log ++ new) :
    (new.filterMap (answered K)).Sublist (new.filterMap (asked K)) := by
  have hpos : Possible s (.net .accept) := ⟨rfl, trivial⟩
  have h1 : Reach m u _ s1 := .step h.reach hpos hn
  have hlong := fun a => (longUps_path hp (hl a)).back (step_moves hpos hn)
  obtain ⟨fl, h0⟩ := free_list h.reach
  obtain ⟨fl', h0'⟩ := free_list h1
  obtain ⟨_, _, _, hw⟩ := turns_within h hlong h0
  obtain ⟨tevs, _, _, ht, _, _, hbx⟩ := reach_parts h.reach
  rcases Transport.next_order ht hpos.2 (onTcp_ok hn).1 h0 h0' with ⟨_, ⟨_, hq⟩ | ⟨i, hi, hq⟩⟩ | ⟨hv, _⟩
  · exact absurd (hq k) hk
  · have hki : k = i := Classical.byContradiction fun hne => hk (hq k hne)
    subst hki
    have hval := h0.ids k (by rw [hi]; exact List.mem_cons_self)
    have hempty : flight K k s.box = [] := flight_nil fun x hx => by
      have := hw 0 k (by rw [hi]; rfl) x hx
      cases hrk : rank K k x with
      | zero => rfl
      | succ n =>
        rw [hrk, Nat.mul_add] at this
        omega
    obtain ⟨first, g1, g2⟩ := flight_step (step_moves hpos hn) (fun a => (hbx (hlong a)).2) (k := k) hval.2
    obtain ⟨rest, g3, g4⟩ := flight_since h1 hp hl (k := k) hval.2
    rw [hnew, g1, List.append_assoc] at g3
    rw [List.append_cancel_left g3, List.filterMap_append, List.filterMap_append]
    rw [hempty, List.nil_append] at g2
    refine ((List.Sublist.refl _).append ((List.sublist_append_left _ _).trans g4)).trans ?_
    rw [← List.append_assoc]
    exact g2.append (List.Sublist.refl _)
  · exact absurd rfl hv

/-! ## A crowded server -/

/-- Connection 32 sends a request over channel 32. -/
def asksLast (seq id : UInt32) (r : SReq) : Env × Ev := (reads (chunk .msg 0x46 32 (Channel.msg seq id (bytesOf r))), .net (.linkData 32))

/-- The peer of connection 32 has gone. -/
def goes : Env × Ev := ({ calm with tcp := { Transport.calm with rx := .error } }, .net (.linkData 32))

/-- A client says hello on connection 32 and opens a channel. -/
def greets : List (Env × Ev) := [(reads helloFrame, .net (.linkData 32)), (reads (chunk .opn 0x46 0 Channel.openReq), .net (.linkData 32))]

/-- The body of a MSG chunk that was written. -/
def wrote : TAct → Option (List UInt8)
  | .sent b => if b.take 3 = [0x4D, 0x53, 0x47] then some (b.drop 24) else none
  | _ => none

/-- What was asked and answered on connection 32 since `s`, the answers themselves, and the session its channel is bound to. -/
def story (s s' : Stack) : List UInt32 × List UInt32 × List (List UInt8) × Option UInt32 :=
  let new := (s'.srv.conns 32).log.drop (s.srv.conns 32).log.length
  (new.filterMap (asked .msg), new.filterMap (answered .msg), new.filterMap wrote, Channel.bound (s'.chans.objs 32).log)

/-- 32 clients connect and `before` happens; a client is accepted; then `after` happens. -/
def heir (before after : List (Env × Ev)) : Exec (List UInt32 × List UInt32 × List (List UInt8) × Option UInt32) := do
  let s ← create (fun _ => garbage) Channel.unset
  let s ← runs s (clients.flatMap joins ++ before)
  let s1 ← runs s [(calm, .net .accept)]
  let s2 ← runs s1 after
  pure (story s s2)

theorem runs_path {l : List (Env × Ev)} (h : runs s l = .ok s') : Path (fun _ _ _ => True) s l s' := by
  suffices ∀ (l : List (Env × Ev)) (s0 s : Stack) (pre : List (Env × Ev)), Path (fun _ _ _ => True) s0 pre s → runs s l = .ok s' →
      Path (fun _ _ _ => True) s0 (pre ++ l) s' from this l s s [] .nil h
  intro l
  induction l with
  | nil =>
    intro s0 s pre hp h
    injection h with h
    rw [List.append_nil, ← h]
    exact hp
  | cons x l ih =>
    intro s0 s pre hp h
    unfold runs at h
    split at h
    · rename_i hpos
      obtain ⟨s1, h1, h2⟩ := Exec.bind_eq_ok.mp h
      have := ih s0 s1 (pre ++ [x]) (.snoc hp hpos trivial h1) h2
      rwa [List.append_assoc] at this
    · cases h

theorem runs_one {e : Env} {v : Ev} (h : runs s [(e, v)] = .ok s') : step s e v = .ok s' := by
  unfold runs at h
  split at h
  · obtain ⟨s1, h1, h2⟩ := Exec.bind_eq_ok.mp h
    injection h2 with h2
    rw [h1, h2]
  · cases h

/-- The story of connection 32 from the moment at which a client is accepted. -/
theorem heir_story {before after : List (Env × Ev)} {x : List UInt32 × List UInt32 × List (List UInt8) × Option UInt32} (h : heir before after = .ok x) :
    ∃ s s1 s2 new, Reach (fun _ => garbage) Channel.unset (clients.flatMap joins ++ before) s ∧ step s calm (.net .accept) = .ok s1 ∧
      Path (fun _ _ _ => True) s1 after s2 ∧ (s2.srv.conns 32).log = (s.srv.conns 32).log ++ new ∧ new.filterMap (asked .msg) = x.1 ∧
      new.filterMap (answered .msg) = x.2.1 ∧ new.filterMap wrote = x.2.2.1 ∧ Channel.bound (s2.chans.objs 32).log = x.2.2.2 := by
  obtain ⟨s0, h1, h⟩ := Exec.bind_eq_ok.mp h
  obtain ⟨s, h2, h⟩ := Exec.bind_eq_ok.mp h
  obtain ⟨s1, h3, h⟩ := Exec.bind_eq_ok.mp h
  obtain ⟨s2, h4, h⟩ := Exec.bind_eq_ok.mp h
  injection h with h
  have hr : Reach (fun _ => garbage) Channel.unset (clients.flatMap joins ++ before) s := by simpa using runs_reach (.create h1) h2
  have hp1 := runs_path h3
  have hp2 := runs_path h4
  obtain ⟨n1, g1, _⟩ := flight_since (K := .opn) hr hp1 (fun a => by cases a) (k := 32) (Nat.le_refl _)
  obtain ⟨n2, g2, _⟩ := flight_since (K := .opn) (path_reach hr hp1) hp2 (fun a => by cases a) (k := 32) (Nat.le_refl _)
  have hlog : (s2.srv.conns 32).log = (s.srv.conns 32).log ++ (n1 ++ n2) := by rw [g2, g1, List.append_assoc]
  have hdrop : (s2.srv.conns 32).log.drop (s.srv.conns 32).log.length = n1 ++ n2 := by rw [hlog, List.drop_left]
  unfold story at h
  rw [hdrop] at h
  subst h
  exact ⟨s, s1, s2, n1 ++ n2, hr, runs_one h3, hp2, hlog, rfl, rfl, rfl, rfl⟩

theorem heir_runs : heir [asksLast 52 9 Session.createReq, goes] (greets ++ turn 7) =
    .ok ([], [9], [Session.reply Session.env 1 Session.createReq], none) := by decide +kernel

/-- C94 is violated on a server with 32 clients, one of which leaves with a request under way: the next client gets the same connection
and the same channel, and the answer to this request is written to it.  Here the request is a create session request: the client that was
accepted at `s` has asked for nothing and is told the token of the session of the client before it. -/
theorem C94_heir_violated : ∃ s s1 s2 new, Reach (fun _ => garbage) Channel.unset
      (clients.flatMap joins ++ [asksLast 52 9 Session.createReq, goes]) s ∧ step s calm (.net .accept) = .ok s1 ∧
    Path (fun _ _ _ => True) s1 (greets ++ turn 7) s2 ∧ (s2.srv.conns 32).log = (s.srv.conns 32).log ++ new ∧
    new.filterMap (asked .msg) = [] ∧ new.filterMap (answered .msg) = [9] ∧
    new.filterMap wrote = [Session.reply Session.env 1 Session.createReq] := by
  obtain ⟨s, s1, s2, new, h1, h2, h3, h4, h5, h6, h7, _⟩ := heir_story heir_runs
  exact ⟨s, s1, s2, new, h1, h2, h3, h4, h5, h6, h7⟩

theorem heir_reads : heir ([asksLast 52 9 Session.createReq] ++ turn 4 ++ [asksLast 53 10 (Session.activateReq 1), goes])
      (greets ++ turn 8 ++ [asksLast 52 7 Session.readReq] ++ turn 4) =
    .ok ([7], [10, 7], [Session.reply Session.env 1 (Session.activateReq 1), Session.reply Session.env 1 Session.readReq], some 1) := by decide +kernel

/-- C94 is violated for sessions, too: when the request under way is an activate request, the channel of the next client is bound to the
session of the client before it, and the read request of the next client, which has neither created nor activated a session, is served. -/
theorem C94_session_violated : ∃ s s1 s2 new, Reach (fun _ => garbage) Channel.unset
      (clients.flatMap joins ++ ([asksLast 52 9 Session.createReq] ++ turn 4 ++ [asksLast 53 10 (Session.activateReq 1), goes])) s ∧
    step s calm (.net .accept) = .ok s1 ∧ Path (fun _ _ _ => True) s1 (greets ++ turn 8 ++ [asksLast 52 7 Session.readReq] ++ turn 4) s2 ∧
    (s2.srv.conns 32).log = (s.srv.conns 32).log ++ new ∧ new.filterMap (asked .msg) = [7] ∧ new.filterMap (answered .msg) = [10, 7] ∧
    new.filterMap wrote = [Session.reply Session.env 1 (Session.activateReq 1), Session.reply Session.env 1 Session.readReq] ∧
    Channel.bound (s2.chans.objs 32).log = some 1 := heir_story heir_reads

/-! ## Examples -/

/-- An event, or `none` for the beginning of a turn, if it is allowed in a history in turns. -/
def obeys (a : Nat) (x : Nat × Nat × Stack) : Option (Env × Ev) → Exec (Nat × Nat × Stack)
  | none => if x.2.1 = 0 then .ok (0, x.2.2.box.length, x.2.2) else .throws
  | some (e, .deliver) => match x with
    | (0, n + 1, s) => if s.box ≠ [] then do
        let s' ← step s e .deliver
        if 4 * a ≤ s'.srv.ids.len then pure (0, n, s') else .throws
      else .throws
    | _ => .throws
  | some (e, .net .accept) => match x with
    | (c, 0, s) => if c < a then do
        let s' ← step s e (.net .accept)
        if 4 * a ≤ s'.srv.ids.len then pure (c + 1, 0, s') else .throws
      else .throws
    | _ => .throws
  | some (e, .net v) => match x with
    | (c, 0, s) => if Possible s (.net v) then do
        let s' ← step s e (.net v)
        if 4 * a ≤ s'.srv.ids.len then pure (c, 0, s') else .throws
      else .throws
    | _ => .throws

def obey (a : Nat) (x : Nat × Nat × Stack) : List (Option (Env × Ev)) → Exec (Nat × Nat × Stack)
  | [] => .ok x
  | v :: l => obeys a x v >>= fun y => obey a y l

theorem guard_ok {α : Type} {p : Prop} [Decidable p] {x : Exec α} {y : α} (h : (if p then x else .throws) = .ok y) : p ∧ x = .ok y := by
  split at h
  · exact ⟨‹_›, h⟩
  · cases h

theorem obeys_turns {x y : Nat × Nat × Stack} {v : Option (Env × Ev)} (h : Turns a m u x.1 x.2.1 evs x.2.2) (hx : obeys a x v = .ok y) :
    ∃ evs', Turns a m u y.1 y.2.1 evs' y.2.2 := by
  obtain ⟨c, n, s⟩ := x
  match v with
  | none =>
    obtain ⟨h1, h2⟩ := guard_ok hx
    have h1 : n = 0 := h1
    subst h1
    injection h2 with h2
    subst h2
    exact ⟨_, .turn h⟩
  | some (e, .deliver) =>
    match c, n with
    | 0, n + 1 =>
      obtain ⟨h1, h2⟩ := guard_ok hx
      obtain ⟨s', h3, h4⟩ := Exec.bind_eq_ok.mp h2
      obtain ⟨h5, h6⟩ := guard_ok h4
      injection h6 with h6
      subst h6
      exact ⟨_, .deliver h h1 h3 h5⟩
    | 0, 0 => cases hx
    | c + 1, n => cases hx
  | some (e, .net v) =>
    match n with
    | n + 1 => cases v <;> cases hx
    | 0 =>
      by_cases hv : v = .accept
      · subst hv
        obtain ⟨h1, h2⟩ := guard_ok hx
        obtain ⟨s', h3, h4⟩ := Exec.bind_eq_ok.mp h2
        obtain ⟨h5, h6⟩ := guard_ok h4
        injection h6 with h6
        subst h6
        exact ⟨_, .accept h h1 h3 h5⟩
      · have hx : (if Possible s (.net v) then (do
            let s' ← step s e (.net v)
            if 4 * a ≤ s'.srv.ids.len then pure (c, 0, s') else .throws) else .throws) = .ok y := by
          cases v <;> first | exact absurd rfl hv | exact hx
        obtain ⟨h1, h2⟩ := guard_ok hx
        obtain ⟨s', h3, h4⟩ := Exec.bind_eq_ok.mp h2
        obtain ⟨h5, h6⟩ := guard_ok h4
        injection h6 with h6
        subst h6
        exact ⟨_, .net h h1 hv h3 h5⟩

theorem obey_turns {l : List (Option (Env × Ev))} {x y : Nat × Nat × Stack} (h : Turns a m u x.1 x.2.1 evs x.2.2) (hx : obey a x l = .ok y) :
    ∃ evs', Turns a m u y.1 y.2.1 evs' y.2.2 := by
  induction l generalizing x evs with
  | nil =>
    injection hx with hx
    subst hx
    exact ⟨_, h⟩
  | cons v l ih =>
    obtain ⟨z, h1, h2⟩ := Exec.bind_eq_ok.mp hx
    obtain ⟨_, h3⟩ := obeys_turns h h1
    exact ih h3 h2

/-- A client connects, asks for the endpoints and leaves while the request is under way. -/
def visitor : List (Option (Env × Ev)) := [some (calm, .net .accept), some (reads helloFrame, .net (.linkData 1)),
  some (reads (chunk .opn 0x46 0 Channel.openReq), .net (.linkData 1)), none, some (calm, .deliver), none, some (calm, .deliver),
  some (asksOn 1 52 10), some ({ calm with tcp := { Transport.calm with rx := .error } }, .net (.linkData 1))]

/-- The next client. -/
def follower : List (Env × Ev) := [(reads helloFrame, .net (.linkData 2)), (reads (chunk .opn 0x46 0 Channel.openReq), .net (.linkData 2)),
  (calm, .deliver), (calm, .deliver), (calm, .deliver), (calm, .deliver), (calm, .deliver), (calm, .deliver),
  (reads (chunk .msg 0x46 2 (Channel.msg 52 11 (bytesOf (.getEndpoints Ua.init)))), .net (.linkData 2)),
  (calm, .deliver), (calm, .deliver), (calm, .deliver), (calm, .deliver)]

def opened (s : Stack) : Exec (Nat × Nat × Stack) := if 4 * 2 ≤ s.srv.ids.len then obey 2 (0, 0, s) visitor else .throws

/-- What is left of both: the state of the turns and the messages under way when the next client comes, what was logged for its connection
before and at its arrival, whether all chunks were long enough, and the requests and answers on its connection. -/
def followed : Exec ((Nat × Nat × Nat) × (Nat × Bool) × Bool × List UInt32 × List UInt32) := do
  let s0 ← create (fun _ => garbage) Channel.unset
  let x ← opened s0
  let s1 ← runs x.2.2 [(calm, .net .accept)]
  let s2 ← runs s1 follower
  pure ((x.1, x.2.1, x.2.2.box.length), ((x.2.2.srv.conns 2).log.length, decide ((s1.srv.conns 2).log.length = 0)), longUps s2.srv,
    (s2.srv.conns 2).log.filterMap (asked .msg), (s2.srv.conns 2).log.filterMap (answered .msg))

theorem followed_runs : followed = .ok ((0, 0, 2), (0, false), true, [11], [11]) := by decide +kernel

/-- The hypotheses of `C94_turns_partial` are met while two messages of the client before are under way, and the next client is answered. -/
example : ∃ evs s s1 s2 new, Turns 2 (fun _ => garbage) Channel.unset 0 0 evs s ∧ s.box.length = 2 ∧ step s calm (.net .accept) = .ok s1 ∧
    (s1.srv.conns 2).log ≠ (s.srv.conns 2).log ∧ Path (fun _ _ _ => True) s1 follower s2 ∧ LongUps s2.srv ∧
    (s2.srv.conns 2).log = (s.srv.conns 2).log ++ new ∧ new.filterMap (asked .msg) = [11] ∧ new.filterMap (answered .msg) = [11] := by
  obtain ⟨s0, h1, h⟩ := Exec.bind_eq_ok.mp followed_runs
  obtain ⟨x, h2, h⟩ := Exec.bind_eq_ok.mp h
  obtain ⟨s1, h3, h⟩ := Exec.bind_eq_ok.mp h
  obtain ⟨s2, h4, h⟩ := Exec.bind_eq_ok.mp h
  obtain ⟨h5, h2⟩ := guard_ok h2
  obtain ⟨evs, ht⟩ := obey_turns (.create h1 h5) h2
  injection h with h
  simp only [Prod.mk.injEq] at h
  obtain ⟨⟨e1, e2, e3⟩, ⟨e4, e5⟩, e6, e7, e8⟩ := h
  rw [e1, e2] at ht
  have e4 := List.length_eq_zero_iff.mp e4
  refine ⟨evs, x.2.2, s1, s2, (s2.srv.conns 2).log, ht, e3, runs_one h3, fun hc => ?_, runs_path h4, longUps_iff e6, ?_, e7, e8⟩
  · rw [hc, e4] at e5
    simp at e5
  · rw [e4, List.nil_append]

end Uscada.Ua.Stack
