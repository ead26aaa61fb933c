import Verif.ModbusNetProps
/-!
# C84: theorems and histories
-/

namespace Uscada.Masters

open Uscada.Modbus Uscada.Controller
open Uscada.Modbus.Standard (Request onLink)

/-! ## Runs -/

theorem Stage.pending {v i : Nat} {x : Scene} {m : Nat} {p : List (FwdReq × List UInt8)} (h : Stage v i x m p) :
    p.length ≤ 1 ∧ p.map (·.1.view) = (x.plan.take p.length).map fun j => j.req.view j.tid j.unit := by
  cases h with
  | told h0 _ _ h3 _ _ _ _ _ _ =>
    rw [h0]
    refine ⟨Nat.le_refl _, ?_⟩
    exact congrArg (fun x => [x]) h3
  | _ => exact ⟨Nat.zero_le _, rfl⟩

theorem run_stays {rnd : Nat → UInt8} {v i : Nat} {x y : Scene} {as : List Deed} (h : Goes rnd v i x as y) :
    ∀ {m : Nat} {p : List (FwdReq × List UInt8)}, Stays rnd v i x m p →
      ∃ m' p', Stays rnd v i y m' p' ∧ x.heard.length ≤ y.heard.length ∧ (x.heard.length = y.heard.length → m ≤ m') := by
  induction h with
  | nil x => intro m p hs; exact ⟨m, p, hs, Nat.le_refl _, fun _ => Nat.le_refl _⟩
  | @cons x z y a as hm hst _ ih =>
    intro m p hs
    obtain ⟨m1, p1, h1, h2⟩ := scene_step hs hm hst
    obtain ⟨m2, p2, h3, h4, h5⟩ := ih h1
    refine ⟨m2, p2, h3, ?_⟩
    cases h2 with
    | on hmm hh _ _ =>
      rw [hh] at h4 h5
      refine ⟨h4, fun e => ?_⟩
      have := h5 e
      omega
    | served hh _ _ =>
      rw [hh] at h4 h5
      exact ⟨h4, fun e => by have := h5 e; omega⟩
    | heard _ _ _ hh _ =>
      rw [hh, List.length_append] at h4
      simp only [List.length_cons, List.length_nil] at h4
      exact ⟨by omega, fun e => by omega⟩

/-- What the master hears of what its session has been told. -/
theorem run_hears {rnd : Nat → UInt8} {v i : Nat} {x y : Scene} {as : List Deed} (h : Goes rnd v i x as y) :
    ∀ {m : Nat} {p : List (FwdReq × List UInt8)}, Stays rnd v i x m p →
      ∃ T k, told rnd v i y.net.log = told rnd v i x.net.log ++ T ∧ k ≤ (p ++ T).length ∧ (p ++ T).length ≤ k + 1 ∧
        (p ++ T).map (·.1.view) = (x.plan.take (p ++ T).length).map (fun j => j.req.view j.tid j.unit) ∧
        y.heard = x.heard ++ List.zipWith Job.answer (x.plan.take k) ((p ++ T).map (·.2)) ∧ y.plan = x.plan.drop k := by
  induction h with
  | nil x =>
    intro m p hs
    obtain ⟨a, b⟩ := hs.stage.pending
    exact ⟨[], 0, by simp, by simp, by simpa using a, by simpa using b, by simp, by simp⟩
  | @cons x z y a as hm hst _ ih =>
    intro m p hs
    obtain ⟨m1, p1, h1, h2⟩ := scene_step hs hm hst
    obtain ⟨T, k, g1, g2, g3, g4, g5, g6⟩ := ih h1
    cases h2 with
    | on _ e1 e2 e3 =>
      rw [e1, e2] at g5
      rw [e2] at g4 g6
      rw [e3] at g1
      exact ⟨T, k, g1, g2, g3, g4, g5, g6⟩
    | @served q d e1 e2 e3 =>
      rw [e1, e2] at g5
      rw [e2] at g4 g6
      rw [e3] at g1
      refine ⟨(q, d) :: T, k, by rw [g1, List.append_assoc]; rfl, g2, g3, g4, g5, g6⟩
    | @heard j js q d e0 e4 e2 e1 e3 =>
      rw [e1, e2] at g5
      rw [e2] at g4 g6
      rw [e3] at g1
      simp only [List.nil_append] at g2 g3 g4 g5
      refine ⟨T, k + 1, g1, ?_, ?_, ?_, ?_, ?_⟩
      · simp only [List.length_append, List.length_cons, List.length_nil]; omega
      · simp only [List.length_append, List.length_cons, List.length_nil]; omega
      · rw [e0]
        show q.view :: T.map (·.1.view) = _
        rw [e4, g4, show ([(q, d)] ++ T).length = T.length + 1 by simp]
        rfl
      · rw [g5, e0, List.append_assoc]
        rfl
      · rw [e0]
        exact g6

theorem step_wire {rnd : Nat → UInt8} {v i : Nat} {x y : Scene} {a : Deed} (hs : x.sent = true) (h : x.step rnd v i a = .ok y) :
    (∃ n, a = .read n ∧ y.wire = x.wire.drop (n + 1)) ∨ (∀ n, a ≠ .read n) ∧ y.wire = x.wire := by
  cases a with
  | talk =>
    simp only [Scene.step, hs] at h
    cases h
    exact .inr ⟨by simp, rfl⟩
  | read n =>
    refine .inl ⟨n, rfl, ?_⟩
    simp only [Scene.step] at h
    split at h
    · rename_i hw
      cases h
      rw [hw]
      rfl
    · rw [Exec.bind_eq_ok] at h
      obtain ⟨⟨m, o⟩, _, h2⟩ := h
      cases h2
      rfl
  | net e =>
    simp only [Scene.step] at h
    rw [Exec.bind_eq_ok] at h
    obtain ⟨⟨m, o⟩, _, h2⟩ := h
    cases h2
    exact .inr ⟨by simp, rfl⟩

def isRead : Deed → Bool
  | .read _ => true
  | _ => false

def isServe : Deed → Bool
  | .net (.serve _) => true
  | _ => false

def isAnswer : Deed → Bool
  | .net (.answer _) => true
  | _ => false

theorem net_queues {rnd : Nat → UInt8} {n n' : Net} {e : Ev} {o : List Dispatcher.Out} (h : n.step rnd e = .ok (n', o)) :
    (isServe (.net e) = true ∧ n'.asks = n.asks.tail ∨ isServe (.net e) = false ∧ ∃ k, n'.asks = n.asks ++ k) ∧
    (isAnswer (.net e) = true ∧ n'.says = n.says.tail ∨ isAnswer (.net e) = false ∧ ∃ k, n'.says = n.says ++ k) := by
  cases e with
  | modbus e room =>
    by_cases ha : ∃ a b r k, e = .aduRsp a b r k
    · obtain ⟨a, b, r, k, rfl⟩ := ha
      cases h
      exact ⟨.inr ⟨rfl, [], by simp⟩, .inr ⟨rfl, [], by simp⟩⟩
    have h' : (do
        let (d, o) ← n.modbus.step e
        pure ({ n with modbus := d, asks := n.asks ++ if room then asksOf o else [] }, o)) = Exec.ok (n', o) := by
      cases e <;> first | exact h | exact absurd ⟨_, _, _, _, rfl⟩ ha
    rw [Exec.bind_eq_ok] at h'
    obtain ⟨⟨d, o'⟩, g1, g2⟩ := h'
    cases g2
    exact ⟨.inr ⟨rfl, _, rfl⟩, .inr ⟨rfl, [], by simp⟩⟩
  | ctl e =>
    by_cases ha : ∃ a b q, e = .modbusAduReq a b q
    · obtain ⟨a, b, q, rfl⟩ := ha
      cases h
      exact ⟨.inr ⟨rfl, [], by simp⟩, .inr ⟨rfl, [], by simp⟩⟩
    have h' : (do
        let (c, o) ← n.ctl.step rnd e
        pure ({ n with ctl := c, log := n.log ++ .rcv e :: o.map .snd }, [])) = Exec.ok (n', o) := by
      cases e <;> first | exact h | exact absurd ⟨_, _, _, rfl⟩ ha
    rw [Exec.bind_eq_ok] at h'
    obtain ⟨⟨c, o'⟩, g1, g2⟩ := h'
    cases g2
    exact ⟨.inr ⟨rfl, [], by simp⟩, .inr ⟨rfl, [], by simp⟩⟩
  | serve room =>
    simp only [Net.step] at h
    cases hq : n.asks with
    | nil =>
      rw [hq] at h
      cases h
      exact ⟨.inl ⟨rfl, by rw [hq]; rfl⟩, .inr ⟨rfl, [], by simp⟩⟩
    | cons m as =>
      obtain ⟨v', i', q⟩ := m
      rw [hq] at h
      dsimp only at h
      rw [Exec.bind_eq_ok] at h
      obtain ⟨⟨c, o'⟩, g1, g2⟩ := h
      cases g2
      exact ⟨.inl ⟨rfl, rfl⟩, .inr ⟨rfl, _, rfl⟩⟩
  | answer ok =>
    simp only [Net.step] at h
    cases hq : n.says with
    | nil =>
      rw [hq] at h
      cases h
      exact ⟨.inr ⟨rfl, [], by simp⟩, .inl ⟨rfl, by rw [hq]; rfl⟩⟩
    | cons m ss =>
      obtain ⟨v', i', r⟩ := m
      rw [hq] at h
      dsimp only at h
      rw [Exec.bind_eq_ok] at h
      obtain ⟨⟨d, o'⟩, g1, g2⟩ := h
      cases g2
      exact ⟨.inr ⟨rfl, [], by simp⟩, .inl ⟨rfl, rfl⟩⟩

theorem step_queues {rnd : Nat → UInt8} {v i : Nat} {x y : Scene} {a : Deed} (h : x.step rnd v i a = .ok y) :
    (isServe a = true ∧ y.net.asks = x.net.asks.tail ∨ isServe a = false ∧ ∃ k, y.net.asks = x.net.asks ++ k) ∧
    (isAnswer a = true ∧ y.net.says = x.net.says.tail ∨ isAnswer a = false ∧ ∃ k, y.net.says = x.net.says ++ k) := by
  have same : y.net = x.net → isServe a = false → isAnswer a = false → (isServe a = true ∧ y.net.asks = x.net.asks.tail ∨ isServe a = false ∧ ∃ k, y.net.asks = x.net.asks ++ k) ∧
    (isAnswer a = true ∧ y.net.says = x.net.says.tail ∨ isAnswer a = false ∧ ∃ k, y.net.says = x.net.says ++ k) := by
    intro e h1 h2
    rw [e]
    exact ⟨.inr ⟨h1, [], by simp⟩, .inr ⟨h2, [], by simp⟩⟩
  cases a with
  | talk =>
    simp only [Scene.step] at h
    split at h <;> (cases h; exact same rfl rfl rfl)
  | read n =>
    simp only [Scene.step] at h
    split at h
    · cases h
      exact same rfl rfl rfl
    · rw [Exec.bind_eq_ok] at h
      obtain ⟨⟨m, o⟩, h1, h2⟩ := h
      cases h2
      exact net_queues h1
  | net e =>
    simp only [Scene.step] at h
    rw [Exec.bind_eq_ok] at h
    obtain ⟨⟨m, o⟩, h1, h2⟩ := h
    cases h2
    exact net_queues h1

/-- The whole request is read. -/
theorem run_reads {rnd : Nat → UInt8} {v i : Nat} {x y : Scene} {as : List Deed} (h : Goes rnd v i x as y) :
    ∀ {m : Nat} {p : List (FwdReq × List UInt8)}, Stays rnd v i x m p → 1 ≤ m → x.wire.length ≤ as.countP isRead →
      x.heard.length < y.heard.length ∨ x.heard.length = y.heard.length ∧ ∃ m' p', Stays rnd v i y m' p' ∧ 2 ≤ m' := by
  induction h with
  | nil x =>
    intro m p hs h1 h2
    refine .inr ⟨rfl, m, p, hs, ?_⟩
    obtain ⟨_, _, hst⟩ := hs
    cases hst with
    | idle => omega
    | reading _ _ _ _ hw _ _ _ => exact absurd (List.eq_nil_of_length_eq_zero (Nat.le_zero.1 h2)) hw
    | asked => omega
    | told => omega
  | @cons x z y a as hm hst hgo ih =>
    intro m p hs h1 h2
    obtain ⟨m1, p1, k1, k2⟩ := scene_step hs hm hst
    have far : 2 ≤ m1 → x.heard.length = z.heard.length →
        x.heard.length < y.heard.length ∨ x.heard.length = y.heard.length ∧ ∃ m' p', Stays rnd v i y m' p' ∧ 2 ≤ m' := by
      intro hm1 e
      obtain ⟨m2, p2, g1, g2, g3⟩ := run_stays hgo k1
      by_cases hc : z.heard.length = y.heard.length
      · exact .inr ⟨by omega, m2, p2, g1, by have := g3 hc; omega⟩
      · exact .inl (by omega)
    cases k2 with
    | on e1 e2 _ _ =>
      by_cases hm1 : 2 ≤ m1
      · exact far hm1 (by rw [e2])
      · have hm0 : m = 1 := by omega
        subst hm0
        have hw : x.wire ≠ [] ∧ x.sent = true := by
          obtain ⟨_, _, hstage⟩ := hs
          cases hstage with
          | reading _ _ _ _ hw _ _ hs => exact ⟨hw, hs⟩
        have hl := List.length_pos_iff.2 hw.1
        have key : z.wire.length ≤ as.countP isRead := by
          rcases step_wire hw.2 hst with ⟨n, rfl, hz⟩ | ⟨hn, hz⟩
          · rw [List.countP_cons_of_pos rfl] at h2
            rw [hz, List.length_drop]
            omega
          · have : isRead a = false := by
              cases a <;> first | rfl | exact absurd rfl (hn _)
            rw [List.countP_cons_of_neg (by simp [this])] at h2
            rw [hz]
            exact h2
        have := ih k1 (by omega) key
        rw [← e2]
        exact this
    | served e2 _ _ => exact far (by omega) (by rw [e2])
    | heard _ _ _ e2 _ =>
      obtain ⟨_, _, _, g2, _⟩ := run_stays hgo k1
      rw [e2, List.length_append] at g2
      simp only [List.length_cons, List.length_nil] at g2
      exact .inl (by omega)

/-- The position of a session's message. -/
theorem own_split {α : Type} {v i : Nat} {q : α} : ∀ {l : List (Nat × Nat × α)}, own v i l = [q] →
    ∃ pre post, l = pre ++ (v, i, q) :: post ∧ own v i pre = [] ∧ own v i post = []
  | [], h => by cases h
  | (v', i', q') :: l, h => by
    by_cases e : v' = v ∧ i' = i
    · obtain ⟨rfl, rfl⟩ := e
      rw [own_cons_self] at h
      injection h with h1 h2
      subst h1
      exact ⟨[], l, rfl, rfl, h2⟩
    · rw [own_cons_other e] at h
      obtain ⟨pre, post, h1, h2, h3⟩ := own_split h
      exact ⟨(v', i', q') :: pre, post, by rw [h1]; rfl, by rw [own_cons_other e]; exact h2, h3⟩

/-- The request is served when the controller has taken the messages before it. -/
theorem run_serves {rnd : Nat → UInt8} {v i : Nat} {x y : Scene} {as : List Deed} (h : Goes rnd v i x as y) :
    ∀ {m : Nat} {p : List (FwdReq × List UInt8)}, Stays rnd v i x m p → 2 ≤ m →
      (m = 2 → ∃ pre q post, x.net.asks = pre ++ (v, i, q) :: post ∧ own v i post = [] ∧ pre.length < as.countP isServe) →
      x.heard.length < y.heard.length ∨ x.heard.length = y.heard.length ∧ ∃ m' p', Stays rnd v i y m' p' ∧ 3 ≤ m' := by
  induction h with
  | nil x =>
    intro m p hs h1 h2
    refine .inr ⟨rfl, m, p, hs, ?_⟩
    by_cases hm : m = 2
    · obtain ⟨pre, q, post, _, _, hc⟩ := h2 hm
      exact absurd hc (Nat.not_lt_zero _)
    · omega
  | @cons x z y a as hm hst hgo ih =>
    intro m p hs h1 h2
    obtain ⟨m1, p1, k1, k2⟩ := scene_step hs hm hst
    have far : 3 ≤ m1 → x.heard.length = z.heard.length →
        x.heard.length < y.heard.length ∨ x.heard.length = y.heard.length ∧ ∃ m' p', Stays rnd v i y m' p' ∧ 3 ≤ m' := by
      intro hm1 e
      obtain ⟨m2, p2, g1, g2, g3⟩ := run_stays hgo k1
      by_cases hc : z.heard.length = y.heard.length
      · exact .inr ⟨by omega, m2, p2, g1, by have := g3 hc; omega⟩
      · exact .inl (by omega)
    cases k2 with
    | on e1 e2 _ _ =>
      by_cases hm1 : 3 ≤ m1
      · exact far hm1 (by rw [e2])
      · have hm0 : m = 2 := by omega
        have hm2 : m1 = 2 := by omega
        subst hm2
        obtain ⟨pre, q, post, g1, g2, g3⟩ := h2 hm0
        have := ih k1 (Nat.le_refl _) fun _ => by
          rcases (step_queues hst).1 with ⟨b1, b2⟩ | ⟨b1, k, b2⟩
          · rw [List.countP_cons_of_pos b1] at g3
            cases pre with
            | nil =>
              exfalso
              rw [g1] at b2
              obtain ⟨_, _, hstage⟩ := k1
              cases hstage with
              | asked _ _ _ _ _ ho _ _ =>
                rw [b2] at ho
                have : own v i post = _ := ho
                rw [g2] at this
                cases this
            | cons b pre =>
              rw [g1] at b2
              exact ⟨pre, q, post, b2, g2, by simp only [List.length_cons] at g3; omega⟩
          · rw [List.countP_cons_of_neg (by simp [b1])] at g3
            rw [g1] at b2
            obtain ⟨_, _, hstage⟩ := k1
            have hk : own v i (post ++ k) = [] := by
              cases hstage with
              | asked _ _ _ _ _ ho _ _ =>
                rw [b2, List.append_assoc, own_append, List.cons_append, own_cons_self] at ho
                cases hpre : own v i pre with
                | nil =>
                  rw [hpre] at ho
                  injection ho
                | cons _ _ =>
                  rw [hpre] at ho
                  injection ho with _ ho
                  simp at ho
            exact ⟨pre, q, post ++ k, by rw [b2]; simp, hk, g3⟩
        rw [← e2]
        exact this
    | served e2 _ _ => exact far (by omega) (by rw [e2])
    | heard _ _ _ e2 _ =>
      obtain ⟨_, _, _, g2, _⟩ := run_stays hgo k1
      rw [e2, List.length_append] at g2
      simp only [List.length_cons, List.length_nil] at g2
      exact .inl (by omega)

/-- The answer is heard when the component has taken the messages before it. -/
theorem run_answers {rnd : Nat → UInt8} {v i : Nat} {x y : Scene} {as : List Deed} (h : Goes rnd v i x as y) :
    ∀ {m : Nat} {p : List (FwdReq × List UInt8)}, Stays rnd v i x m p → 3 ≤ m →
      (∃ pre q post, x.net.says = pre ++ (v, i, q) :: post ∧ own v i post = [] ∧ pre.length < as.countP isAnswer) →
      x.heard.length < y.heard.length := by
  induction h with
  | nil x =>
    intro m p hs h1 h2
    obtain ⟨pre, q, post, _, _, hc⟩ := h2
    exact absurd hc (Nat.not_lt_zero _)
  | @cons x z y a as hm hst hgo ih =>
    intro m p hs h1 h2
    obtain ⟨m1, p1, k1, k2⟩ := scene_step hs hm hst
    cases k2 with
    | on e1 e2 _ _ =>
      obtain ⟨pre, q, post, g1, g2, g3⟩ := h2
      have := ih k1 (by omega) (by
          rcases (step_queues hst).2 with ⟨b1, b2⟩ | ⟨b1, k, b2⟩
          · rw [List.countP_cons_of_pos b1] at g3
            cases pre with
            | nil =>
              exfalso
              rw [g1] at b2
              obtain ⟨_, _, hstage⟩ := k1
              cases hstage with
              | told _ _ _ _ _ _ _ _ ho _ =>
                rw [b2] at ho
                have : own v i post = _ := ho
                rw [g2] at this
                cases this
              | _ => omega
            | cons b pre =>
              rw [g1] at b2
              exact ⟨pre, q, post, b2, g2, by simp only [List.length_cons] at g3; omega⟩
          · rw [List.countP_cons_of_neg (by simp [b1])] at g3
            rw [g1] at b2
            obtain ⟨_, _, hstage⟩ := k1
            have hk : own v i (post ++ k) = [] := by
              cases hstage with
              | told _ _ _ _ _ _ _ _ ho _ =>
                rw [b2, List.append_assoc, own_append, List.cons_append, own_cons_self] at ho
                cases hpre : own v i pre with
                | nil =>
                  rw [hpre] at ho
                  injection ho
                | cons _ _ =>
                  rw [hpre] at ho
                  injection ho with _ ho
                  simp at ho
              | _ => omega
            exact ⟨pre, q, post ++ k, by rw [b2]; simp, hk, g3⟩)
      rw [← e2]
      exact this
    | served e2 _ _ => omega
    | heard _ _ _ e2 _ =>
      obtain ⟨_, _, _, g2, _⟩ := run_stays hgo k1
      rw [e2, List.length_append] at g2
      simp only [List.length_cons, List.length_nil] at g2
      omega

/-! ## C84 -/

/-- C84: a master that connects while the server has a session identifier, a timer and a link left, and while no messages of an earlier holder of the
session are on their way, is connected and apart from the others. -/
theorem C84_connects {rnd : Nat → UInt8} {n : Net} (h : Reach rnd n) {v i : Nat} {S : Server} {fr : List Nat} (hS : n.modbus.servers v = some S)
    (hf : S.free = i :: fr) (ht : 0 < S.timers) (hl : 0 < S.links) (ha : own v i n.asks = []) (hs : own v i n.says = []) (room : Bool) :
    ∃ n', n.step rnd (.modbus (.server v (.accept true)) room) = .ok (n', []) ∧
      ∀ plan, (∀ j ∈ plan, j.Ok) → Apart rnd v i { plan := plan, wire := [], sent := false, heard := [], net := n' } := by
  obtain ⟨hfine, _⟩ := reach_inv h
  obtain ⟨hv, hgood⟩ := hfine v S hS
  have hacc := Server.accept_ok hf hgood.1 ht hl
  have hstep : n.step rnd (.modbus (.server v (.accept true)) room) =
      .ok ({ n with modbus := { n.modbus with servers := Dispatcher.upd n.modbus.servers v (Server.accepted S i fr) } }, []) := by
    simp only [Net.step, Dispatcher.step, hS, Dispatcher.isOwnSessionEvent, if_true, hacc, Exec.ok_bind, Exec.pure_eq, List.map_nil, asksOf, List.filterMap_nil,
      ite_self, List.append_nil]
  refine ⟨_, hstep, ?_⟩
  intro plan hp
  have hnd := hgood.1.nodup
  rw [hf] at hnd
  refine ⟨?_, ⟨_, upd_same _ _ _, (List.nodup_cons.1 hnd).1, hgood.1.range i (by rw [hf]; simp), ?_⟩, ha, hs, hp, rfl, rfl⟩
  · obtain ⟨a, b, es, h1, h2⟩ := h
    refine ⟨a, b, es ++ [.modbus (.server v (.accept true)) room], ?_, ?_⟩
    · intro e he
      rcases List.mem_append.1 he with he | he
      · exact h1 e he
      · rw [List.mem_singleton.1 he]
        trivial
    · have snoc : ∀ (es : List Ev) (m : Net), m.run rnd es = .ok n → m.run rnd (es ++ [.modbus (.server v (.accept true)) room]) =
          .ok { n with modbus := { n.modbus with servers := Dispatcher.upd n.modbus.servers v (Server.accepted S i fr) } } := by
        intro es
        induction es with
        | nil =>
          intro m hm
          cases hm
          simp only [List.nil_append, Net.run, hstep, Exec.ok_bind]
        | cons e es ih =>
          intro m hm
          simp only [Net.run] at hm
          rw [Exec.bind_eq_ok] at hm
          obtain ⟨⟨m1, o⟩, g1, g2⟩ := hm
          simp only [List.cons_append, Net.run, g1, Exec.ok_bind]
          exact ih m1 g2
      exact snoc es _ h2
  · show (Server.set S.sess i _ i).Fresh
    rw [Server.set_same]
    exact ⟨rfl, rfl, rfl, rfl, rfl, rfl, rfl, (hgood.2 i).1, (hgood.2 i).2⟩

/-- C84: a master that is connected sends one request after the other, and its session reads them in pieces of any size.  Whatever other masters, configurations,
batches and the controller's own test do in between, in any order, each request of the master is answered at most once, in order; the answer is that of the standard
for the content that one memory has at one moment between request and answer, and this memory is changed by the requests of all sessions, one after the other
in the order in which the controller answers. -/
theorem C84_one_memory {rnd : Nat → UInt8} {v i : Nat} {x y : Scene} {as : List Deed} (h : Apart rnd v i x) (hg : Goes rnd v i x as y) :
    ∃ T k, told rnd v i y.net.log = told rnd v i x.net.log ++ T ∧ k ≤ T.length ∧ T.length ≤ k + 1 ∧
      T.map (·.1.view) = (x.plan.take T.length).map (fun j => j.req.view j.tid j.unit) ∧
      y.heard = x.heard ++ List.zipWith Job.answer (x.plan.take k) (T.map (·.2)) ∧ y.plan = x.plan.drop k :=
  run_hears hg h.stays

/-- C84: the request is answered as soon as the session has read its bytes, the controller has taken the requests that wait, and the Modbus component has taken the
answers that wait; nobody can hold it up otherwise. -/
theorem C84_answered {rnd : Nat → UInt8} {v i : Nat} {x0 x x1 x2 y : Scene} {as b1 b2 b3 : List Deed} (h : Apart rnd v i x0) (h0 : Goes rnd v i x0 as x)
    (hs : x.sent = true) (h1 : Goes rnd v i x b1 x1) (n1 : x.wire.length ≤ b1.countP isRead) (h2 : Goes rnd v i x1 b2 x2) (n2 : x1.net.asks.length ≤ b2.countP isServe)
    (h3 : Goes rnd v i x2 b3 y) (n3 : x2.net.says.length ≤ b3.countP isAnswer) : x.heard.length < y.heard.length := by
  obtain ⟨m, p, k1, _⟩ := run_stays h0 h.stays
  have hm : 1 ≤ m := by
    obtain ⟨_, _, hstage⟩ := k1
    cases hstage with
    | idle _ _ _ _ _ hn => rw [hs] at hn; cases hn
    | _ => omega
  have mono2 : ∀ {m : Nat} {p : List (FwdReq × List UInt8)}, Stays rnd v i x1 m p → x1.heard.length ≤ y.heard.length := by
    intro m p hx
    obtain ⟨m2, p2, g1, g2, _⟩ := run_stays h2 hx
    obtain ⟨_, _, _, g3, _⟩ := run_stays h3 g1
    omega
  have mono3 : ∀ {m : Nat} {p : List (FwdReq × List UInt8)}, Stays rnd v i x2 m p → x2.heard.length ≤ y.heard.length := by
    intro m p hx
    obtain ⟨_, _, _, g3, _⟩ := run_stays h3 hx
    exact g3
  obtain ⟨_, _, q1, _, _⟩ := run_stays h1 k1
  obtain ⟨_, _, q2, _, _⟩ := run_stays h2 q1
  rcases run_reads h1 k1 hm n1 with hlt | ⟨he, m1, p1, k2, hm1⟩
  · exact Nat.lt_of_lt_of_le hlt (mono2 q1)
  rcases run_serves h2 k2 hm1 (by
      intro e
      subst e
      obtain ⟨_, _, hstage⟩ := k2
      cases hstage with
      | asked _ _ _ _ _ ho _ _ =>
        obtain ⟨pre, post, g1, _, g3⟩ := own_split ho
        refine ⟨pre, _, post, g1, g3, ?_⟩
        rw [g1, List.length_append, List.length_cons] at n2
        omega) with hlt | ⟨he2, m2, p2, k3, hm2⟩
  · have := mono3 q2
    omega
  · have := run_answers h3 k3 hm2 (by
      obtain ⟨_, _, hstage⟩ := k3
      cases hstage with
      | told _ _ _ _ _ _ _ _ ho _ =>
        obtain ⟨pre, post, g1, _, g3⟩ := own_split ho
        refine ⟨pre, _, post, g1, g3, ?_⟩
        rw [g1, List.length_append, List.length_cons] at n3
        omega
      | _ => omega)
    omega

/-- C84: nothing that the master sends, and neither the reading, the serving nor the answering of its requests, ends the process or leaves the defined behaviour of
the code. -/
theorem C84_safe {rnd : Nat → UInt8} {v i : Nat} {x y : Scene} {as : List Deed} {a : Deed} (h : Apart rnd v i x) (hg : Goes rnd v i x as y)
    (ha : Mine v i y a) (hm : ∀ e, a = .net e → Meanwhile v i y.net e) : ∃ z, y.step rnd v i a = .ok z := by
  obtain ⟨m, p, k, _⟩ := run_stays hg h.stays
  obtain ⟨z, _, _, g, _⟩ := mine_step k ha hm
  exact ⟨z, g⟩

/-! ## Histories -/

/-- Decides whether the controller is running. -/
def runningB (log : List Act) : Bool := log.any (fun a => match a with | .rcv (.start true) => true | _ => false) && log.all fun a => !isStop a

theorem running_of {log : List Act} (h : runningB log = true) : Running log := by
  simp only [runningB, Bool.and_eq_true, List.any_eq_true, List.all_eq_true, Bool.not_eq_true'] at h
  obtain ⟨⟨a, ha, he⟩, hs⟩ := h
  split at he
  · obtain ⟨x, y, e⟩ := List.append_of_mem ha
    exact ⟨x, y, e, fun b hb => hs b (by rw [e]; simp [hb])⟩
  · cases he

instance (s : List Act) : Decidable (Configured s) := inferInstanceAs (Decidable (_ ∧ _))
instance (log : List Act) : Decidable (Testing log) := inferInstanceAs (Decidable (_ ∧ _))

/-- Decides `Meanwhile` for events other than configurations. -/
def meanB (v i : Nat) (n : Net) : Ev → Bool
  | .modbus (.server v' (.sess i' _)) _ => !(v' == v && i' == i)
  | .modbus (.config _) _ => false
  | .modbus _ _ => true
  | .ctl _ => true
  | .serve room => match n.asks with
    | (v', i', _) :: _ => !(v' == v && i' == i) || room && runningB n.log && decide (Testing n.log)
    | [] => true
  | .answer ok => ok

theorem meanwhile_of {v i : Nat} {n : Net} {e : Ev} (h : meanB v i n e = true) : Meanwhile v i n e := by
  cases e with
  | modbus e room =>
    cases e with
    | server v' e =>
      cases e with
      | sess i' e =>
        rintro rfl rfl
        simp [meanB] at h
      | accept ok => trivial
    | config its => cases h
    | _ => trivial
  | ctl e => trivial
  | serve room =>
    intro q as hq
    simp only [meanB, hq, beq_self_eq_true, Bool.and_self, Bool.not_true, Bool.false_or, Bool.and_eq_true, decide_eq_true_eq] at h
    exact ⟨h.1.1, running_of h.1.2, h.2⟩
  | answer ok => exact fun _ _ _ => h

/-- Decides `Meanwhile` for the steps of a scene. -/
def deedB (v i : Nat) (x : Scene) : Deed → Bool
  | .net e => meanB v i x.net e
  | _ => true

/-- Follows a history. -/
def follow (rnd : Nat → UInt8) (v i : Nat) (x : Scene) : List Deed → Option Scene
  | [] => some x
  | a :: as =>
    if deedB v i x a then
      match x.step rnd v i a with
      | .ok y => follow rnd v i y as
      | _ => none
    else none

theorem goes_of {rnd : Nat → UInt8} {v i : Nat} (as : List Deed) : ∀ {x y : Scene}, follow rnd v i x as = some y → Goes rnd v i x as y := by
  induction as with
  | nil =>
    intro x y h
    cases h
    exact .nil x
  | cons a as ih =>
    intro x y h
    simp only [follow] at h
    split at h
    · rename_i hm
      split at h
      · rename_i z hz
        refine .cons ?_ hz (ih h)
        rintro e rfl
        exact meanwhile_of hm
      · cases h
    · cases h

/-- The program after the events; for histories that do not end it. -/
def netOf (rnd : Nat → UInt8) (n : Net) (es : List Ev) : Net :=
  match n.run rnd es with
  | .ok n => n
  | _ => n

def fine (rnd : Nat → UInt8) (n : Net) (es : List Ev) : Bool :=
  match n.run rnd es with
  | .ok _ => true
  | _ => false

theorem run_of_fine {rnd : Nat → UInt8} {n : Net} {es : List Ev} (h : fine rnd n es = true) : n.run rnd es = .ok (netOf rnd n es) := by
  unfold fine at h
  unfold netOf
  split at h
  · rename_i m hm
    rw [hm]
  · cases h

/-- A server with 32 links and timers. -/
def server0 : Server := Server.create (fun _ => Session.create (fun _ => 0) ⟨0, 0, 0, 0, 0, 0, 0, fun _ => 0, 0⟩) 32 32

/-- The component is configured with one server, and the controller awaits the answers to its own test. -/
def begun : List Ev :=
  [.modbus (.config [⟨0, .inr server0, .ok⟩]) true, .ctl (.start true), .ctl .modbusInitRsp, .ctl .modbusConfigRsp]

theorem begun_new : ∀ e ∈ begun, NewServers e := by
  intro e he
  simp only [begun, List.mem_cons, List.not_mem_nil, or_false] at he
  rcases he with rfl | rfl | rfl | rfl
  · intro it hit S hS
    rw [List.mem_singleton.1 hit] at hS
    cases hS
    exact ⟨_, 32, 32, fun _ => ⟨_, _, rfl⟩, rfl⟩
  all_goals trivial

def net0 : Net := Net.create (Dispatcher.create 1 0)

/-- Bytes arrive at session `i` of the server. -/
def arrive (i : Nat) (w : List UInt8) : Ev := .modbus (.server 0 (.sess i (.data (.ok w)))) true

/-- The master reads registers 10 and 11 under number 3 and then writes register 11. -/
def jobs : List Job := [⟨3, 9, .readHolding 10 2⟩, ⟨3, 9, .writeRegister 11 7⟩]

/-- Another master is connected before the master. -/
def before : Net := netOf UInt8.ofNat net0 (begun ++ [.modbus (.server 0 (.accept true)) true])

/-- The master has connected. -/
def ready : Scene := { plan := jobs, wire := [], sent := false, heard := [], net := netOf UInt8.ofNat before [.modbus (.server 0 (.accept true)) true] }

/-- The master's first request is read byte by byte, and the other master's write of register 10 under the same number overtakes it; the second request is read at once. -/
def course : List Deed :=
  [.talk, .read 4, .net (arrive 0 (onLink 3 1 (Request.writeRegister 10 0x1234).pdu)), .read 0, .read 100, .net (.serve true), .net (.answer true),
   .net (.serve true), .net (.answer true), .talk, .read 100, .net (.serve true), .net (.answer true)]

/-- What the master hears: the other master's value 0x1234 in register 10, the first content of register 11, and the confirmation of its write. -/
def hears : List (List UInt8) :=
  [[0, 3, 0, 0, 0, 7, 9, 3, 4, 0x12, 0x34, 23, 22], [0, 3, 0, 0, 0, 6, 9, 6, 0, 11, 0, 7]]

theorem ready_apart : Apart UInt8.ofNat 0 1 ready := by
  have hf : fine UInt8.ofNat net0 (begun ++ [.modbus (.server 0 (.accept true)) true]) = true := by decide +kernel
  have hr : Reach UInt8.ofNat before := ⟨1, 0, _, by
    intro e he
    rcases List.mem_append.1 he with he | he
    · exact begun_new e he
    · rw [List.mem_singleton.1 he]
      trivial, run_of_fine hf⟩
  have hb : (match before.modbus.servers 0 with
      | some S => decide (S.free = 1 :: (List.range 256).drop 2 ∧ 0 < S.timers ∧ 0 < S.links) && decide (own 0 1 before.asks = [] ∧ own 0 1 before.says = [])
      | none => false) = true := by decide +kernel
  split at hb
  · rename_i S hS
    simp only [Bool.and_eq_true, decide_eq_true_eq] at hb
    obtain ⟨⟨h1, h2, h3⟩, h4, h5⟩ := hb
    obtain ⟨n', g1, g2⟩ := C84_connects hr hS h1 h2 h3 h4 h5 true
    have e : netOf UInt8.ofNat before [.modbus (.server 0 (.accept true)) true] = n' := by
      simp only [netOf, Net.run, g1, Exec.ok_bind]
    unfold ready
    rw [e]
    refine g2 jobs ?_
    intro j hj
    simp only [jobs, List.mem_cons, List.not_mem_nil, or_false] at hj
    rcases hj with rfl | rfl
    · exact ⟨by decide, by decide, by simp [Request.Valid], by simp⟩
    · exact ⟨by decide, by decide, by simp [Request.Valid], by simp⟩
  · cases hb

/-- Non-vacuity: the master reads what another master wrote while its own request was on the way. -/
example : ∃ y, Apart UInt8.ofNat 0 1 ready ∧ Goes UInt8.ofNat 0 1 ready course y ∧ y.heard = hears ∧ y.plan = [] := by
  have h : (match follow UInt8.ofNat 0 1 ready course with
      | some y => decide (y.heard = hears) && y.plan.isEmpty
      | none => false) = true := by decide +kernel
  split at h
  · rename_i y hy
    simp only [Bool.and_eq_true, decide_eq_true_eq, List.isEmpty_iff] at h
    exact ⟨y, ready_apart, goes_of _ hy, h.1, h.2⟩
  · cases h

/-- Non-vacuity of `C84_answered`: the request is sent and read byte by byte, the other master's request waits before it at the controller and the answer to
it before the answer to the master. -/
example : ∃ x x1 x2 y, Goes UInt8.ofNat 0 1 ready [.talk] x ∧ x.sent = true ∧
    Goes UInt8.ofNat 0 1 x (.net (arrive 0 (onLink 3 1 (Request.writeRegister 10 0x1234).pdu)) :: List.replicate 12 (.read 0)) x1 ∧ x.wire.length = 12 ∧
    Goes UInt8.ofNat 0 1 x1 [.net (.serve true), .net (.serve true)] x2 ∧ x1.net.asks.length = 2 ∧
    Goes UInt8.ofNat 0 1 x2 [.net (.answer true), .net (.answer true)] y ∧ x2.net.says.length = 2 ∧ y.heard = hears.take 1 := by
  have h : (match follow UInt8.ofNat 0 1 ready [.talk] with
      | some x => match follow UInt8.ofNat 0 1 x (.net (arrive 0 (onLink 3 1 (Request.writeRegister 10 0x1234).pdu)) :: List.replicate 12 (.read 0)) with
        | some x1 => match follow UInt8.ofNat 0 1 x1 [.net (.serve true), .net (.serve true)] with
          | some x2 => match follow UInt8.ofNat 0 1 x2 [.net (.answer true), .net (.answer true)] with
            | some y => decide (x.sent = true ∧ x.wire.length = 12 ∧ x1.net.asks.length = 2 ∧ x2.net.says.length = 2 ∧ y.heard = hears.take 1)
            | none => false
          | none => false
        | none => false
      | none => false) = true := by decide +kernel
  split at h
  · rename_i x hx
    split at h
    · rename_i x1 hx1
      split at h
      · rename_i x2 hx2
        split at h
        · rename_i y hy
          have h := of_decide_eq_true h
          exact ⟨x, x1, x2, y, goes_of _ hx, h.1, goes_of _ hx1, h.2.1, goes_of _ hx2, h.2.2.1, goes_of _ hy, h.2.2.2.1, h.2.2.2.2⟩
        · cases h
      · cases h
    · cases h
  · cases h

/-- A master reads two registers and leaves; others come and go until the identifier of its session is used again. -/
def crossing : List Ev :=
  begun ++ [.modbus (.server 0 (.accept true)) true, arrive 0 (onLink 3 9 (Request.readHolding 10 2).pdu), .modbus (.server 0 (.sess 0 (.data .error))) true] ++
  ((List.range 255).flatMap fun k => [.modbus (.server 0 (.accept true)) true, .modbus (.server 0 (.sess (k + 1) (.data .error))) true]) ++
  [.serve true, .modbus (.server 0 (.accept true)) true, arrive 0 (onLink 3 9 (Request.readHolding 500 2).pdu)]

/-- Violation of C84: messages to a session carry only the number of the session.  A master that connects later, is given the number of a session whose answer
is still on its way and uses the same transaction number is sent the registers that the earlier master asked for: registers 10 and 11 instead of 500
and 501. -/
theorem C84_crossed_violated :
    (match net0.run UInt8.ofNat crossing with
      | .ok n => (match n.step UInt8.ofNat (.answer true) with
        | .ok (_, o) => some (n.asks.map (·.2.2.startItem), framesTo 0 0 o)
        | _ => none)
      | _ => none) = some ([500], [[0, 3, 0, 0, 0, 7, 9, 3, 4, 21, 20, 23, 22]]) ∧
    (⟨3, 9, .readHolding 500 2⟩ : Job).answer (Files.read (fun _ => UInt8.ofNat) 3 500 2) = [0, 3, 0, 0, 0, 7, 9, 3, 4, 0xe9, 0xe8, 0xeb, 0xea] := by
  refine ⟨by decide +kernel, by decide +kernel⟩

end Uscada.Masters
