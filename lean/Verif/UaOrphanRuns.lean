import Verif.UaOrphans
import Verif.UaBlindProps

/-!
# C99: histories in which channels are left behind
-/

namespace Uscada.Ua.Stack

open Transport (chunk)
open Channel (bound)
open Session (bytesOf isOpen holder)

variable {m : Nat → Mem} {u : Nat → UInt32 × UInt32} {evs : List (Env × Ev)} {s s' : Stack}

/-- What the histories below are asked for: connection 1, the free channels, the channels of the connections, and which channels are open. -/
structure Census where
  view : View
  free : Nat
  taken : List (Nat × UInt32)
  open_ : List (Nat × UInt32)
deriving DecidableEq, Repr

def census (s : Stack) : Census where
  view := Stack.view s
  free := s.chans.ids.len
  taken := (List.range 33).filterMap fun k => (Transport.owner (s.srv.conns k).log).map fun c => (k, c)
  open_ := (List.range 33).filterMap fun c => (Channel.owner (s.chans.objs c).log).map fun k => (c, k)

def countsOf (l : List (Env × Ev)) : Exec (Bool × Census) := do
  let s ← create (fun _ => garbage) Channel.unset
  let s' ← runs s l
  pure (longUps s'.srv, census s')

theorem countsOf_reach {x : Census} (h : countsOf evs = .ok (true, x)) :
    ∃ s, Reach (fun _ => garbage) Channel.unset evs s ∧ LongUps s.srv ∧ census s = x := by
  obtain ⟨s, h1, h2⟩ := Exec.bind_eq_ok.mp h
  obtain ⟨s', h3, h4⟩ := Exec.bind_eq_ok.mp h2
  injection h4 with h4
  injection h4 with h4 h5
  exact ⟨s', runs_reach (.create h1) h3, longUps_iff h4, h5⟩

def opn : Env × Ev := (reads (chunk .opn 0x46 0 Channel.openReq), .net (.linkData 1))

theorem opn_says : ∃ sec seq req, Channel.SaysOpen sec seq req Channel.openReq := ⟨_, _, _, openReq_says⟩

theorem census_orphan {c : UInt32} (hv : Pool.valid c.toNat) (hb : s.box = []) {x : Census} (h : census s = x) (ho : (c.toNat, 1) ∈ x.open_)
    (ht : ∀ y ∈ x.taken, y.2 ≠ c) : Orphan s c := by
  subst h
  refine ⟨hv, ?_, ?_, by rw [hb]; simp⟩
  · obtain ⟨j, _, hj⟩ := List.mem_filterMap.mp ho
    obtain ⟨k, hk, he⟩ := Option.map_eq_some_iff.mp hj
    injection he with he _
    rw [← he, hk]
    simp
  · intro k hk hx
    exact ht (k, c) (List.mem_filterMap.mpr ⟨k, List.mem_range.mpr (by omega), by rw [hx]; rfl⟩) rfl

theorem connects_counts : countsOf connects = .ok (true, ⟨⟨.connected, true, some 1, (0, 0), some ⟨1, 77, 51, false⟩, none, false, none, [], [], []⟩, 31, [(1, 1)], [(1, 1)]⟩) := by
  decide +kernel

/-- The client of `connects`. -/
theorem connects_alone : ∃ s, Reach (fun _ => garbage) Channel.unset connects s ∧ Ready s 1 1 ⟨1, 77, 51, false⟩ ∧ Blank s 1 ∧ Strangers s 1 1 ∧ s.chans.ids.len = 31 := by
  obtain ⟨s, h1, h2, h0⟩ := countsOf_reach connects_counts
  have h3 := congrArg Census.view h0
  have hrx := congrArg View.rx h3
  refine ⟨s, h1, ⟨by decide, congrArg View.st h3, congrArg View.opened h3, congrArg View.assoc h3, by decide, knows_of h1 h2 (by decide) (congrArg View.window h3), rfl,
    congrArg View.box h3⟩, ⟨congrArg Prod.fst hrx, congrArg Prod.snd hrx⟩, ?_, congrArg Census.free h0⟩
  intro j hj hjk c hc
  have hm : (j, c) ∈ (census s).taken := List.mem_filterMap.mpr ⟨j, List.mem_range.mpr (by omega), by rw [hc]; rfl⟩
  rw [congrArg Census.taken h0] at hm
  simp only [List.mem_singleton, Prod.mk.injEq] at hm
  exact absurd hm.1 hjk

/-- C99: the client of `connects` renews its channel once. -/
example : ∃ s s' ch', Reach (fun _ => garbage) Channel.unset connects s ∧ run s [opn, (calm, .deliver), (calm, .deliver)] = .ok s' ∧ ch' ≠ 1 ∧
    (s'.srv.conns 1).assoc = some ch' ∧ Orphan s' 1 ∧ s'.chans.ids.len = 30 := by
  obtain ⟨s, h1, h2, h3, h4, h5⟩ := connects_alone
  obtain ⟨s', ch', w', g1, _, g3, g4, _, g5, g6, _⟩ := C99_renewal_violated h1 (by omega) h2 (fun j hj hjk hx => (h4 j hj hjk _ hx).1 rfl)
    (reads_calm (chunk .opn 0x46 0 Channel.openReq)) calm_calm calm_calm _ _ _ openReq_says (by decide +kernel)
    (brings_whole h2.opened h3.1 h3.2 (by decide +kernel) rfl)
  exact ⟨s, s', ch', h1, g1, g3, g4.assoc, g5, by omega⟩

/-- Against C99: one client that renews its channel 31 times assigns all 32, and whatever happens then, at most one channel is free from then on: its own last one,
if it leaves. -/
theorem C99_denied_violated : ∃ s l t, Reach (fun _ => garbage) Channel.unset connects s ∧ Sequel s l t ∧ (∀ x ∈ l, x.2 = .net (.linkData 1) ∨ x.2 = .deliver) ∧
    t.chans.ids.len = 0 ∧ ∀ later s', Sequel t later s' → s'.chans.ids.len ≤ 1 := by
  obtain ⟨s, h1, h2, h3, h4, h5⟩ := connects_alone
  obtain ⟨t, l, _, _, os, g1, g2, _, g4, g5, g6, g7⟩ := C99_exhausted_violated h1 h2 h3 h4 _ _ _ openReq_says (by decide +kernel)
    (reads_calm (chunk .opn 0x46 1 Channel.openReq)) rfl 31 (by omega)
  refine ⟨s, l, t, h1, g1, g2, by omega, fun later s' hp => ?_⟩
  have := (C99_forever_violated (g1.reach h1) g5 g7 hp).2
  omega

/-- A client opens a channel and leaves before the answer comes. -/
def hurries : List (Env × Ev) := connects.take 2 ++ [opn, (calm, .deliver), (calm, .net (.timer 1)), (calm, .deliver)]

theorem hurries_counts : countsOf hurries = .ok (true, ⟨⟨.init, false, none, (0, 0), some ⟨1, 77, 51, false⟩, none, false, none, [], [], []⟩, 31, [], [(1, 1)]⟩) := by
  decide +kernel

/-- Against C99: a client whose connection ends between its open request and the answer leaves its channel behind for good. -/
theorem C99_early_violated : ∃ s, Reach (fun _ => garbage) Channel.unset hurries s ∧ (∀ k, k ≤ 32 → Transport.owner (s.srv.conns k).log = none) ∧
    (s.srv.conns 1).st = .init ∧ ∀ later s', Sequel s later s' → Orphan s' 1 := by
  obtain ⟨s, h1, _, h0⟩ := countsOf_reach hurries_counts
  have h3 := congrArg Census.view h0
  have ho : Orphan s 1 := census_orphan (by decide) (congrArg View.box h3) h0 (by decide) (by simp)
  refine ⟨s, h1, ?_, congrArg View.st h3, fun later s' hp => (C99_forever_violated h1 (l := [1]) (by simp) (by simpa using ho) hp).1 1 (by simp)⟩
  intro k hk
  cases hx : Transport.owner (s.srv.conns k).log with
  | none => rfl
  | some c =>
    have hm : (k, c) ∈ (census s).taken := List.mem_filterMap.mpr ⟨k, List.mem_range.mpr (by omega), by rw [hx]; rfl⟩
    rw [congrArg Census.taken h0] at hm
    cases hm

/-- The client of `opens`, which has activated session 1, renews its channel and reads on the new one. -/
def renews : List (Env × Ev) := opens ++ [opn, (calm, .deliver), (calm, .deliver),
  (reads (chunk .msg 0x46 2 (Channel.msg 52 12 (bytesOf Session.readReq))), .net (.linkData 1)), (calm, .deliver), (calm, .deliver)]

theorem renews_counts : countsOf renews = .ok (true, ⟨⟨.connected, true, some 2, (0, 0), some ⟨1, 77, 53, false⟩, some 1, true, some 1, [], [10, 11, 12], [10, 11]⟩,
    30, [(1, 2)], [(1, 1), (2, 1)]⟩) := by
  decide +kernel

/-- Against C99: the session stays with the channel that is left behind.  The session is open and the system at rest, but request 12 of the client has no answer. -/
theorem C99_session_violated : ∃ s, Reach (fun _ => garbage) Channel.unset renews s ∧ Orphan s 1 ∧ (s.srv.conns 1).assoc = some 2 ∧ s.box = [] ∧
    bound (s.chans.objs 1).log = some 1 ∧ isOpen (s.sess.objs 1).log = true ∧ holder (s.sess.objs 1).log = some 1 ∧
    (s.srv.conns 1).log.filterMap (asked .msg) = [10, 11, 12] ∧ (s.srv.conns 1).log.filterMap (answered .msg) = [10, 11] := by
  obtain ⟨s, h1, _, h0⟩ := countsOf_reach renews_counts
  have h3 := congrArg Census.view h0
  exact ⟨s, h1, census_orphan (by decide) (congrArg View.box h3) h0 (by decide) (by decide), congrArg View.assoc h3, congrArg View.box h3, congrArg View.bound h3,
    congrArg View.isOpen h3, congrArg View.holder h3, congrArg View.asked h3, congrArg View.answered h3⟩

end Uscada.Ua.Stack
