import Verif.Program
/-!
# C83: the program comes up and goes down completely
-/

namespace Uscada.Program

open Uscada.Modbus Uscada.Controller
open Routing (MsgType Comp)

/-! ## Specification -/

/-- Histories of the program from its deployment to the state `p`, in which every event satisfies `ok`. -/
inductive Reach (rnd : Nat → UInt8) (ok : Ev → Prop) : Prog → Prop
  | boot : Reach rnd ok boot
  | step {p q : Prog} {e : Ev} (h : Reach rnd ok p) (he : ok e) (hs : p.step rnd e = .ok q) : Reach rnd ok q

/-- The environment lets the program start: there is a timer, the addresses can be listened on, and the Modbus client and server
can be created. -/
def Good : Ev → Prop
  | .take _ l => l.timerFree = true ∧ l.listen = .ok ∧ l.clientRes = .ok ∧ l.serverRes = .ok
  | _ => True

/-- Any event. -/
def Any : Ev → Prop := fun _ => True

/-- The messages that start, configure, stop or release something, and the answers on which somebody acts. Not among them: the requests
and answers of the self test, and the answers to releases and to configurations of the OPC UA components, on which nobody acts. -/
def Acting : Msg → Bool
  | .out (.modbusClientAduReq _) | .out (.modbusAduRsp _ _ _) | .modbusClientAduRsp _ | .modbusAduReq _ _ _ => false
  | .modbusReleaseRsp | .ua .transportReleaseRsp | .ua .secureChannelReleaseRsp | .ua .serviceReleaseRsp => false
  | .ua .transportConfigRsp | .ua .secureChannelConfigRsp | .ua .serviceConfigRsp => false
  | _ => true

/-- Everything that starts or stops something has been taken. -/
def Settled (p : Prog) : Prop := ∀ r, ∀ m ∈ p.box r, Acting m = false

/-- The OPC UA server is up: its three components have their entities, and it listens. -/
def UaUp (p : Prog) : Prop := p.chan = some () ∧ p.service = some () ∧ p.transport = some .hearing

/-- The OPC UA server is gone. -/
def UaDown (p : Prog) : Prop := p.chan = none ∧ p.service = none ∧ p.transport = none

/-- The self test is up: there are a Modbus client and a Modbus server that listens, and the test runs or pauses. -/
def ModbusUp (p : Prog) : Prop :=
  (∃ d, p.mod = some d ∧ d.numServers = 1 ∧ d.numClients = 1 ∧ (d.servers 0).isSome = true ∧ (d.clients 0).isSome = true ∧
    d.deaf 0 = false) ∧
  ∃ t, p.ctl.modbus = some t ∧ (t.st = .run ∨ t.st = .setup)

/-! ## What matters of a state: one OPC UA component -/

/-- Messages for one component. -/
inductive K where
  | start | stop | init | config | release | rsp
deriving DecidableEq, Repr

inductive Part where
  | transport | channel | service
deriving DecidableEq, Repr

def Part.k2 : Part → Msg → Option K
  | .transport, .out .uaTransportInitReq => some .init
  | .transport, .out (.uaTransportConfigReq _) => some .config
  | .transport, .out .uaTransportReleaseReq => some .release
  | .channel, .out .uaSecureChannelInitReq => some .init
  | .channel, .out .uaSecureChannelConfigReq => some .config
  | .channel, .out .uaSecureChannelReleaseReq => some .release
  | .channel, .ua .secureChannelInitRsp => some .rsp
  | .service, .out .uaServiceInitReq => some .init
  | .service, .out .uaServiceConfigReq => some .config
  | .service, .out .uaServiceReleaseReq => some .release
  | .service, .ua .serviceInitRsp => some .rsp
  | _, _ => none

def Part.k3 : Part → Msg → Option K
  | _, .startReq => some .start
  | _, .stopReq => some .stop
  | .transport, .ua .transportInitRsp => some .rsp
  | .channel, .ua .secureChannelInitRsp => some .rsp
  | .service, .ua .serviceInitRsp => some .rsp
  | _, _ => none

def Part.ear : Part → Prog → Option Ear
  | .transport, p => p.transport
  | .channel, p => p.chan.map fun _ => .none
  | .service, p => p.service.map fun _ => .none

structure VU where
  sent : Nat
  ua : Option USt
  ear : Option Ear
  p2 : List K
  p3 : List K
deriving DecidableEq, Repr

def Part.view (c : Part) (p : Prog) : VU :=
  { sent := p.sent, ua := p.ctl.ua, ear := c.ear p, p2 := (p.box 2).filterMap c.k2, p3 := (p.box 3).filterMap c.k3 }

namespace VU

def main (v : VU) : List VU :=
  match v.sent with
  | 0 => [{ v with sent := 1, p3 := v.p3 ++ [.start] }]
  | 1 => [{ v with sent := 2, p3 := v.p3 ++ [.stop] }]
  | _ => []

def pop3 (good : Bool) (v : VU) : List VU :=
  match v.p3 with
  | [] => []
  | k :: r =>
    let v := { v with p3 := r }
    match k with
    | .start => { v with ua := some .inited, p2 := v.p2 ++ [.init] } :: (if good then [] else [v])
    | .stop =>
      match v.ua with
      | none => []
      | some .init => [{ v with ua := none }]
      | some .inited => [{ v with ua := none, p2 := v.p2 ++ [.release] }]
    | .rsp =>
      match v.ua with
      | some .inited => [{ v with p2 := v.p2 ++ [.config] }]
      | _ => [v]
    | _ => [v]

def pop2 (good : Bool) (c : Part) (v : VU) : List VU :=
  match v.p2 with
  | [] => []
  | k :: r =>
    let v := { v with p2 := r }
    match k with
    | .init =>
      if v.ear = some .deaf then []
      else if c = .transport then [{ v with ear := some .none, p3 := v.p3 ++ [.rsp] }]
      else [{ v with ear := some .none, p2 := v.p2 ++ [.rsp] }]
    | .config =>
      match v.ear with
      | none => [v]
      | some e =>
        if c = .transport then
          (if good then [] else [v]) ++
          (if e = .deaf then [] else { v with ear := some .hearing } :: (if good then [] else [{ v with ear := some .deaf }]))
        else [v]
    | .release => if v.ear = some .deaf then [] else [{ v with ear := none }]
    | _ => [v]

def succ (good : Bool) (c : Part) (v : VU) : List VU := v.main ++ v.pop3 good ++ v.pop2 good c

def boot : VU := ⟨0, none, none, [], []⟩

/-- All that can be reached in `n` rounds. -/
def grow (good : Bool) (c : Part) : Nat → List VU → List VU → List VU
  | 0, seen, _ => seen
  | n + 1, seen, fresh =>
    let next := ((fresh.flatMap (succ good c)).filter fun v => !seen.contains v).eraseDups
    grow good c n (seen ++ next) next

def all (good : Bool) (c : Part) : List VU := grow good c 20 [boot] [boot]

end VU

theorem VU.closed (good : Bool) (c : Part) : boot ∈ all good c ∧ ∀ v ∈ all good c, ∀ w ∈ v.succ good c, w ∈ all good c := by
  cases good <;> cases c <;> decide +kernel

/-! ## What matters of a state: the Modbus component -/

/-- Messages for the Modbus component and its answers. -/
inductive KM where
  | start | stop | init (servers clients : Nat) | config (items : List CfgReq) | release | initRsp | configRsp
deriving DecidableEq, Repr

def k1 : Msg → Option KM
  | .out (.modbusInitReq s c) => some (.init s c)
  | .out (.modbusConfigReq items) => some (.config items)
  | .out .modbusReleaseReq => some .release
  | _ => none

def k3 : Msg → Option KM
  | .startReq => some .start
  | .stopReq => some .stop
  | .modbusInitRsp => some .initRsp
  | .modbusConfigRsp => some .configRsp
  | _ => none

/-- What matters of the Modbus entity. -/
structure Cls where
  servers : Nat
  clients : Nat
  server : Bool
  client : Bool
  deaf : Bool
deriving DecidableEq, Repr

def cls (d : Dispatcher) : Cls := ⟨d.numServers, d.numClients, (d.servers 0).isSome, (d.clients 0).isSome, d.deaf 0⟩

structure VM where
  sent : Nat
  test : Option TSt
  ent : Option Cls
  p1 : List KM
  p3 : List KM
deriving DecidableEq, Repr

def mview (p : Prog) : VM :=
  { sent := p.sent, test := p.ctl.modbus.map (·.st), ent := p.mod.map cls, p1 := (p.box 1).filterMap k1,
    p3 := (p.box 3).filterMap k3 }

def cfgs : List CfgReq := [⟨0, false, modbusAddr⟩, ⟨0, true, modbusAddr⟩]

namespace VM

def main (v : VM) : List VM :=
  match v.sent with
  | 0 => [{ v with sent := 1, p3 := v.p3 ++ [.start] }]
  | 1 => [{ v with sent := 2, p3 := v.p3 ++ [.stop] }]
  | _ => []

/-- The self test goes on. -/
def drift (v : VM) : List VM :=
  match v.test with
  | some .run => [{ v with test := some .setup }, { v with test := some .init, p1 := v.p1 ++ [.release] }]
  | some .setup => [{ v with test := some .run }]
  | _ => []

def pop3 (good : Bool) (v : VM) : List VM :=
  match v.p3 with
  | [] => []
  | k :: r =>
    let v := { v with p3 := r }
    match k with
    | .start => { v with test := some .init, p1 := v.p1 ++ [.init 1 1] } :: (if good then [] else [v])
    | .stop =>
      match v.test with
      | none => []
      | some .configure => [{ v with test := none }]
      | some _ => [{ v with test := none, p1 := v.p1 ++ [.release] }]
    | .initRsp =>
      match v.test with
      | some .init => [{ v with test := some .configure, p1 := v.p1 ++ [.config cfgs] }]
      | _ => [v]
    | .configRsp =>
      match v.test with
      | some .configure => [{ v with test := some .run }]
      | _ => [v]
    | _ => [v]

def pop1 (good : Bool) (v : VM) : List VM :=
  match v.p1 with
  | [] => []
  | k :: r =>
    let v := { v with p1 := r }
    match k with
    | .init s c =>
      match v.ent with
      | some ⟨_, _, _, _, true⟩ => []
      | _ => [{ v with ent := some ⟨s, c, false, false, false⟩, p3 := v.p3 ++ [.initRsp] }]
    | .config _ =>
      match v.ent with
      | none => [v]
      | some x =>
        (if x.deaf then [] else [{ v with ent := some { x with server := true, client := true }, p3 := v.p3 ++ [.configRsp] }]) ++
        (if good then [] else
          [v, { v with ent := some { x with client := true } },
            { v with ent := some { x with server := true, client := true } },
            { v with ent := some { x with server := true, client := true, deaf := true } }])
    | .release =>
      match v.ent with
      | some ⟨_, _, _, _, true⟩ => []
      | _ => [{ v with ent := none }]
    | _ => [v]

def succ (good : Bool) (v : VM) : List VM := v.main ++ v.drift ++ v.pop3 good ++ v.pop1 good

def boot : VM := ⟨0, none, none, [], []⟩

/-- All that can be reached in `n` rounds. -/
def grow (good : Bool) : Nat → List VM → List VM → List VM
  | 0, seen, _ => seen
  | n + 1, seen, fresh =>
    let next := ((fresh.flatMap (succ good)).filter fun v => !seen.contains v).eraseDups
    grow good n (seen ++ next) next

def all (good : Bool) : List VM := grow good 24 [boot] [boot]

end VM

theorem VM.closed (good : Bool) : boot ∈ all good ∧ ∀ v ∈ all good, ∀ w ∈ v.succ good, w ∈ all good := by
  cases good <;> decide +kernel

/-- The entity is the one the controller asked for, and so are the requests. -/
theorem VM.sizes (good : Bool) : ∀ v ∈ all good, (∀ x ∈ v.ent, x.servers = 1 ∧ x.clients = 1) ∧
    ∀ k ∈ v.p1, k = .init 1 1 ∨ k = .config cfgs ∨ k = .release := by
  cases good <;> decide +kernel

/-! ## The state and what matters of it -/

theorem post_eq (p : Prog) (m : Msg) : p.post m =
    { p with box := fun x => p.box x ++ [m].filter fun m => place m.type == some x } := by
  unfold Prog.post
  cases h : place m.type with
  | none => simp [h]
  | some r =>
    have : (fun x => if x = r then p.box x ++ [m] else p.box x) =
        fun x => p.box x ++ [m].filter fun m => place m.type == some x := by
      funext x
      by_cases hx : x = r
      · subst hx; simp [h]
      · simp [h, hx, Ne.symm hx]
    simp only [this]

theorem posts_eq (p : Prog) (ms : List Msg) : p.posts ms =
    { p with box := fun x => p.box x ++ ms.filter fun m => place m.type == some x } := by
  induction ms generalizing p with
  | nil => simp [Prog.posts]
  | cons m ms ih =>
    have : p.posts (m :: ms) = (p.post m).posts ms := rfl
    rw [this, ih, post_eq]
    simp only [Prog.mk.injEq, true_and, List.append_assoc, ← List.filter_append, List.singleton_append]

theorem place_k2 (c : Part) (m : Msg) (h : c.k2 m ≠ none) : place m.type = some 2 := by
  cases c <;> cases m with
  | out o => cases o <;> first | rfl | exact absurd rfl h
  | ua u => cases u <;> first | rfl | exact absurd rfl h
  | _ => exact absurd rfl h

theorem place_k1 (m : Msg) (h : k1 m ≠ none) : place m.type = some 1 := by
  cases m with
  | out o => cases o <;> first | rfl | exact absurd rfl h
  | _ => exact absurd rfl h

theorem place_k3 (m : Msg) (h : k3 m ≠ none) : place m.type = some 3 := by
  cases m with
  | out o => cases o <;> exact absurd rfl h
  | ua u => exact absurd rfl h
  | _ => first | rfl | exact absurd rfl h

theorem filter_k {α : Type} (f : Msg → Option α) (r : Nat) (hf : ∀ m, f m ≠ none → place m.type = some r) (ms : List Msg) :
    (ms.filter fun m => place m.type == some r).filterMap f = ms.filterMap f := by
  rw [List.filterMap_filter]
  congr 1
  funext m
  by_cases h : f m = none
  · simp [h]
  · simp [hf m h]

theorem view_posts (c : Part) (p : Prog) (ms : List Msg) : c.view (p.posts ms) =
    { c.view p with p2 := (c.view p).p2 ++ ms.filterMap c.k2,
                    p3 := (c.view p).p3 ++ (ms.filter fun m => place m.type == some 3).filterMap c.k3 } := by
  simp only [posts_eq, Part.view, List.filterMap_append, filter_k _ 2 (place_k2 c)]
  cases c <;> rfl

theorem mview_posts (p : Prog) (ms : List Msg) : mview (p.posts ms) =
    { mview p with p1 := (mview p).p1 ++ ms.filterMap k1, p3 := (mview p).p3 ++ ms.filterMap k3 } := by
  simp only [posts_eq, mview, List.filterMap_append, filter_k _ 1 place_k1, filter_k _ 3 place_k3]

/-- The controller sends nothing to itself. -/
theorem outs_p3 (c : Part) (o : List Controller.Out) :
    ((o.map Msg.out).filter fun m => place m.type == some 3).filterMap c.k3 = [] := by
  rw [List.filterMap_filter, List.filterMap_eq_nil_iff]
  intro m hm
  obtain ⟨x, _, rfl⟩ := List.mem_map.1 hm
  cases c <;> cases x <;> rfl

theorem outs_k3 (o : List Controller.Out) : (o.map Msg.out).filterMap k3 = [] := by
  rw [List.filterMap_eq_nil_iff]
  intro m hm
  obtain ⟨x, _, rfl⟩ := List.mem_map.1 hm
  cases x <;> rfl

/-- What the Modbus component sends is no message of the OPC UA components. -/
theorem modOut_u (c : Part) (o : List (Components.Out Dispatcher.Out)) :
    (o.flatMap modOut).filterMap c.k2 = [] ∧
      ((o.flatMap modOut).filter fun m => place m.type == some 3).filterMap c.k3 = [] := by
  have hm : ∀ m ∈ o.flatMap modOut, c.k2 m = none ∧ c.k3 m = none := by
    intro m hm
    obtain ⟨x, _, hx⟩ := List.mem_flatMap.1 hm
    unfold modOut at hx
    split at hx <;> simp at hx <;> subst hx <;> cases c <;> exact ⟨rfl, rfl⟩
  constructor
  · exact List.filterMap_eq_nil_iff.2 fun m h => (hm m h).1
  · exact List.filterMap_eq_nil_iff.2 fun m h => (hm m (List.mem_filter.1 h).1).2

theorem modOut_k1 (o : List (Components.Out Dispatcher.Out)) : (o.flatMap modOut).filterMap k1 = [] := by
  refine List.filterMap_eq_nil_iff.2 fun m hm => ?_
  obtain ⟨x, _, hx⟩ := List.mem_flatMap.1 hm
  unfold modOut at hx
  split at hx <;> simp at hx <;> subst hx <;> rfl

/-! ## The controller -/

theorem transit_out (t : Test) (s : TSt) : (t.transit s).2 = if s = t.st then [] else
    match s with
    | .init => [.modbusReleaseReq]
    | .configure => [.modbusConfigReq cfgs]
    | .run => [.modbusClientAduReq (batch t.cases)]
    | .setup => [] := by
  unfold Test.transit
  split
  · rfl
  · cases s <;> simp only [Test.enter] <;> try rfl
    simp only [Test.exit]
    cases t.st <;> rfl

theorem transit_st (t : Test) (s : TSt) : (t.transit s).1.st = s := by
  unfold Test.transit
  split
  · next h => exact h.symm
  · cases s <;> rfl

/-- How the self test goes on with an answer. -/
theorem answer_moves {t t' : Test} {r : CRsp} {o : List Controller.Out} (h : t.onClientAduRsp r = .ok (t', o)) :
    (t'.st = t.st ∧ o = []) ∨ (t.st = .run ∧ t'.st = .setup ∧ o = []) ∨
      (t.st = .run ∧ t'.st = .init ∧ o = [.modbusReleaseReq]) := by
  unfold Test.onClientAduRsp at h
  split at h
  · next hst =>
    obtain ⟨⟨t1, v⟩, h1, h2⟩ := Exec.bind_eq_ok.1 h
    have hc : t1.st = t.st := by
      unfold Test.check at h1
      simp only at h1
      split at h1
      · exact nomatch h1
      · split at h1
        · injection h1 with h1; injection h1 with h1; rw [← h1]
        · split at h1
          · injection h1 with h1; injection h1 with h1; rw [← h1]
          · split at h1
            · injection h1 with h1; injection h1 with h1; rw [← h1]
            · obtain ⟨g, _, h3⟩ := Exec.bind_eq_ok.1 h1
              split at h3 <;> (injection h3 with h3; injection h3 with h3; rw [← h3])
    cases v with
    | noerror =>
      simp only [Exec.pure_eq, Exec.ok.injEq, Prod.mk.injEq] at h2
      exact .inl ⟨by rw [← h2.1, hc], h2.2.symm⟩
    | done =>
      simp only [Exec.pure_eq, Exec.ok.injEq] at h2
      have h3 := transit_st t1 .setup
      have h4 := transit_out t1 .setup
      rw [h2] at h3 h4
      rw [hc, hst] at h4
      exact .inr (.inl ⟨hst, h3, by simpa using h4⟩)
    | error =>
      simp only [Exec.pure_eq, Exec.ok.injEq] at h2
      have h3 := transit_st t1 .init
      have h4 := transit_out t1 .init
      rw [h2] at h3 h4
      rw [hc, hst] at h4
      exact .inr (.inr ⟨hst, h3, by simpa using h4⟩)
  · injection h with h
    injection h with h1 h2
    exact .inl ⟨by rw [← h1], h2.symm⟩

/-- Answering a forwarded request. -/
theorem serve_moves {t t' : Test} {v s : Nat} {q : FwdReq} {o : List Controller.Out} (h : t.onAduReq v s q = .ok (t', o)) :
    t'.st = t.st ∧ (o = [] ∨ ∃ r, o = [.modbusAduRsp v s r]) := by
  unfold Test.onAduReq at h
  split at h
  · unfold Test.serve at h
    split at h
    · exact nomatch h
    · simp only at h
      split at h
      · obtain ⟨d, _, h⟩ := Exec.bind_eq_ok.1 h
        injection h with h; injection h with h1 h2
        exact ⟨by rw [← h1], .inr ⟨_, h2.symm⟩⟩
      · split at h
        · obtain ⟨d, _, h⟩ := Exec.bind_eq_ok.1 h
          injection h with h; injection h with h1 h2
          exact ⟨by rw [← h1], .inr ⟨_, h2.symm⟩⟩
        · split at h
          · obtain ⟨d, _, h⟩ := Exec.bind_eq_ok.1 h
            injection h with h; injection h with h1 h2
            exact ⟨by rw [← h1], .inr ⟨_, h2.symm⟩⟩
          · injection h with h; injection h with h1 h2
            exact ⟨by rw [← h1], .inr ⟨_, h2.symm⟩⟩
  · injection h with h; injection h with h1 h2
    exact ⟨by rw [← h1], .inl h2.symm⟩

/-- The timer. -/
theorem timer_moves (t : Test) : (t.onTimer.1.st = t.st ∧ t.onTimer.2 = []) ∨
    (t.st = .setup ∧ t.onTimer.1.st = .run ∧ ∃ b, t.onTimer.2 = [.modbusClientAduReq b]) := by
  unfold Test.onTimer
  split
  · simp only
    split
    · next h =>
      refine .inr ⟨h, transit_st _ _, batch t.cases, ?_⟩
      rw [transit_out]
      simp [h]
    · exact .inl ⟨rfl, rfl⟩
  · exact .inl ⟨rfl, rfl⟩

/-- Events of the controller that belong to the self test: its outputs, and the state of the test. -/
theorem ctl_test {rnd : Nat → UInt8} {c c' : Ctl} {e : Controller.Ev} {o : List Controller.Out} (h : c.step rnd e = .ok (c', o))
    (he : ∀ b, e ≠ .start b) (he' : e ≠ .stop) (hu : ∀ m, e ≠ .ua m) (hi : e ≠ .modbusInitRsp) (hc : e ≠ .modbusConfigRsp) :
    c'.ua = c.ua ∧
    ((c'.modbus.map (·.st) = c.modbus.map (·.st) ∧ (∀ m ∈ o, k1 (.out m) = none ∧ ∀ x : Part, x.k2 (.out m) = none)) ∨
     (c.modbus.map (·.st) = some .run ∧ c'.modbus.map (·.st) = some .setup ∧ o = []) ∨
     (c.modbus.map (·.st) = some .run ∧ c'.modbus.map (·.st) = some .init ∧ o = [.modbusReleaseReq]) ∨
     (c.modbus.map (·.st) = some .setup ∧ c'.modbus.map (·.st) = some .run ∧ ∃ b, o = [.modbusClientAduReq b])) := by
  cases e with
  | start b => exact absurd rfl (he b)
  | stop => exact absurd rfl he'
  | ua m => exact absurd rfl (hu m)
  | modbusInitRsp => exact absurd rfl hi
  | modbusConfigRsp => exact absurd rfl hc
  | modbusReleaseRsp =>
    simp only [Ctl.step, Exec.ok.injEq, Prod.mk.injEq] at h
    obtain ⟨rfl, rfl⟩ := h
    exact ⟨rfl, .inl ⟨rfl, by simp⟩⟩
  | modbusClientAduRsp r =>
    simp only [Ctl.step, Ctl.onTestE] at h
    cases hm : c.modbus with
    | none =>
      simp only [hm, Exec.ok.injEq, Prod.mk.injEq] at h
      obtain ⟨rfl, rfl⟩ := h
      exact ⟨rfl, .inl ⟨by rw [hm], by simp⟩⟩
    | some t =>
      simp only [hm] at h
      obtain ⟨⟨t', o'⟩, h1, h2⟩ := Exec.bind_eq_ok.1 h
      simp only [Exec.pure_eq, Exec.ok.injEq, Prod.mk.injEq] at h2
      obtain ⟨rfl, rfl⟩ := h2
      refine ⟨rfl, ?_⟩
      rcases answer_moves h1 with ⟨a, b⟩ | ⟨a, b, d⟩ | ⟨a, b, d⟩
      · exact .inl ⟨by simp [a], by simp [b]⟩
      · exact .inr (.inl ⟨by simp [a], by simp [b], d⟩)
      · exact .inr (.inr (.inl ⟨by simp [a], by simp [b], d⟩))
  | modbusAduReq v s q =>
    simp only [Ctl.step, Ctl.onTestE] at h
    cases hm : c.modbus with
    | none =>
      simp only [hm, Exec.ok.injEq, Prod.mk.injEq] at h
      obtain ⟨rfl, rfl⟩ := h
      exact ⟨rfl, .inl ⟨by rw [hm], by simp⟩⟩
    | some t =>
      simp only [hm] at h
      obtain ⟨⟨t', o'⟩, h1, h2⟩ := Exec.bind_eq_ok.1 h
      simp only [Exec.pure_eq, Exec.ok.injEq, Prod.mk.injEq] at h2
      obtain ⟨rfl, rfl⟩ := h2
      refine ⟨rfl, .inl ?_⟩
      obtain ⟨a, b⟩ := serve_moves h1
      refine ⟨by simp [a], ?_⟩
      rcases b with b | ⟨r, b⟩ <;> subst b
      · simp
      · intro m hm
        simp only [List.mem_singleton] at hm
        subst hm
        exact ⟨rfl, fun x => by cases x <;> rfl⟩
  | timer =>
    simp only [Ctl.step, Ctl.onTest] at h
    cases hm : c.modbus with
    | none =>
      simp only [hm, Exec.ok.injEq, Prod.mk.injEq] at h
      obtain ⟨rfl, rfl⟩ := h
      exact ⟨rfl, .inl ⟨by rw [hm], by simp⟩⟩
    | some t =>
      simp only [hm, Exec.ok.injEq, Prod.mk.injEq] at h
      obtain ⟨rfl, rfl⟩ := h
      refine ⟨rfl, ?_⟩
      rcases timer_moves t with ⟨a, b⟩ | ⟨a, b, d⟩
      · exact .inl ⟨by simp [a], by simp [b]⟩
      · exact .inr (.inr (.inr ⟨by simp [a], by simp [b], d⟩))

/-! ## Handlers -/

theorem handle3 (rnd : Nat → UInt8) (p : Prog) (l : Luck) (m : Msg) : p.handle rnd 3 l m =
    match ctlEv l m with
    | some e => p.onCtl rnd e
    | none => .ok p := by
  cases m with
  | out o => cases o <;> rfl
  | ua u => cases u <;> rfl
  | _ => rfl

theorem handle1 (rnd : Nat → UInt8) (p : Prog) (l : Luck) (m : Msg) : p.handle rnd 1 l m =
    match modMsg l m with
    | some k => p.onMod k
    | none => .ok p := by
  cases m with
  | out o => cases o <;> rfl
  | ua u => cases u <;> rfl
  | _ => rfl

theorem handle0 (rnd : Nat → UInt8) (p : Prog) (l : Luck) (m : Msg) (r : Nat) (h1 : r ≠ 1) (h2 : r ≠ 2) (h3 : r ≠ 3) :
    p.handle rnd r l m = .ok p := by
  match r with
  | 0 =>
    cases m with
    | out o => cases o <;> rfl
    | ua u => cases u <;> rfl
    | _ => rfl
  | 1 => exact absurd rfl h1
  | 2 => exact absurd rfl h2
  | 3 => exact absurd rfl h3
  | r + 4 => rfl

theorem uaOut_u (i r : UaMsg) (o : List (Components.Out Empty)) : ∀ m ∈ o.flatMap (uaOut i r), m = .ua i ∨ m = .ua r := by
  intro m hm
  obtain ⟨x, _, hx⟩ := List.mem_flatMap.1 hm
  cases x with
  | initRsp => simp [uaOut] at hx; exact .inl hx
  | releaseRsp => simp [uaOut] at hx; exact .inr hx
  | entity e => exact nomatch e

/-- The state when the oldest message of reactor `r` has been taken. -/
abbrev taken (p : Prog) (r : Nat) (ms : List Msg) : Prog := { p with box := fun x => if x = r then ms else p.box x }

theorem ctl_k2 (c : Part) {o : List Controller.Out} (h : ∀ m ∈ o, c.k2 (.out m) = none) : (o.map Msg.out).filterMap c.k2 = [] := by
  refine List.filterMap_eq_nil_iff.2 fun m hm => ?_
  obtain ⟨x, hx, rfl⟩ := List.mem_map.1 hm
  exact h x hx

/-- What an event of the controller changes for an OPC UA component. -/
def CtlU (c : Part) (p q : Prog) : Controller.Ev → Prop
  | .start true => c.view q = { c.view p with ua := some .inited, p2 := (c.view p).p2 ++ [.init] }
  | .start false => c.view q = c.view p
  | .stop => (p.ctl.ua = some .init ∧ c.view q = { c.view p with ua := none }) ∨
      (p.ctl.ua = some .inited ∧ c.view q = { c.view p with ua := none, p2 := (c.view p).p2 ++ [.release] })
  | .ua m => if p.ctl.ua = some .inited ∧ c.k3 (.ua m) = some .rsp then
      c.view q = { c.view p with p2 := (c.view p).p2 ++ [.config] } else c.view q = c.view p
  | _ => c.view q = c.view p

theorem onCtl_u (c : Part) {rnd : Nat → UInt8} {p q : Prog} {e : Controller.Ev} (h : p.onCtl rnd e = .ok q) : CtlU c p q e := by
  unfold CtlU
  obtain ⟨⟨ctl, o⟩, h1, h2⟩ := Exec.bind_eq_ok.1 h
  simp only [Exec.pure_eq, Exec.ok.injEq] at h2
  have hv : c.view q = { c.view p with ua := ctl.ua, p2 := (c.view p).p2 ++ (o.map Msg.out).filterMap c.k2 } := by
    rw [← h2, view_posts, outs_p3, List.append_nil]
    cases c <;> rfl
  rw [hv]
  clear hv h2 h
  have gen : (∀ b, e ≠ .start b) → e ≠ .stop → (∀ m, e ≠ .ua m) → e ≠ .modbusInitRsp → e ≠ .modbusConfigRsp →
      { c.view p with ua := ctl.ua, p2 := (c.view p).p2 ++ (o.map Msg.out).filterMap c.k2 } = c.view p := by
    intro a1 a2 a3 a4 a5
    obtain ⟨b1, b2⟩ := ctl_test h1 a1 a2 a3 a4 a5
    have b3 : (o.map Msg.out).filterMap c.k2 = [] := by
      apply ctl_k2
      rcases b2 with b | b | b | b
      · exact fun m hm => (b.2 m hm).2 c
      · rw [b.2.2]; simp
      · rw [b.2.2]; simp; cases c <;> rfl
      · obtain ⟨x, hx⟩ := b.2.2
        rw [hx]; simp; cases c <;> rfl
    rw [b3, b1, List.append_nil]
    rfl
  cases e with
  | start b =>
    cases b with
    | true =>
      simp only [Ctl.step, if_true, Exec.ok.injEq, Prod.mk.injEq] at h1
      obtain ⟨rfl, rfl⟩ := h1
      cases c <;> rfl
    | false =>
      simp only [Ctl.step, Bool.false_eq_true, if_false, Exec.ok.injEq, Prod.mk.injEq] at h1
      obtain ⟨rfl, rfl⟩ := h1
      simp only [List.map_nil, List.filterMap_nil, List.append_nil]
      rfl
  | stop =>
    simp only [Ctl.step] at h1
    cases hm : p.ctl.modbus with
    | none => simp [hm] at h1
    | some t =>
      cases hu : p.ctl.ua with
      | none => simp [hm, hu] at h1
      | some u =>
        simp only [hm, hu, Exec.ok.injEq, Prod.mk.injEq] at h1
        obtain ⟨rfl, rfl⟩ := h1
        have ht : (t.onStop.2.map Msg.out).filterMap c.k2 = [] := by
          apply ctl_k2
          unfold Test.onStop
          cases hst : t.st with
          | init => simp; cases c <;> rfl
          | configure => simp
          | run => simp only [transit_out, hst]; simp; cases c <;> rfl
          | setup => simp only [transit_out, hst]; simp; cases c <;> rfl
        cases u with
        | init =>
          refine .inl ⟨rfl, ?_⟩
          simp only [List.map_append, List.filterMap_append, ht, List.nil_append]
          simp [USt.onStop]
        | inited =>
          refine .inr ⟨rfl, ?_⟩
          simp only [List.map_append, List.filterMap_append, ht, List.nil_append]
          cases c <;> rfl
  | ua m =>
    simp only [Ctl.step] at h1
    cases hu : p.ctl.ua with
    | none =>
      simp only [hu, Exec.ok.injEq, Prod.mk.injEq] at h1
      obtain ⟨rfl, rfl⟩ := h1
      simp [Part.view]
    | some u =>
      simp only [hu, Exec.ok.injEq, Prod.mk.injEq] at h1
      obtain ⟨rfl, rfl⟩ := h1
      cases u with
      | init => cases m <;> simp [Part.view, USt.onMsg]
      | inited => cases c <;> cases m <;> simp [Part.view, USt.onMsg, Part.k3, Part.k2, hu]
  | modbusInitRsp =>
    simp only [Ctl.step, Ctl.onTest, Exec.ok.injEq] at h1
    cases hm : p.ctl.modbus with
    | none =>
      simp only [hm, Prod.mk.injEq] at h1
      obtain ⟨rfl, rfl⟩ := h1
      simp [Part.view]
    | some t =>
      simp only [hm, Prod.mk.injEq] at h1
      obtain ⟨rfl, rfl⟩ := h1
      have : (t.onInitRsp.2.map Msg.out).filterMap c.k2 = [] := by
        apply ctl_k2
        unfold Test.onInitRsp
        cases hst : t.st with
        | init => simp only [transit_out, hst]; simp; cases c <;> rfl
        | _ => simp
      simp [this, Part.view]
  | modbusConfigRsp =>
    simp only [Ctl.step, Ctl.onTest, Exec.ok.injEq] at h1
    cases hm : p.ctl.modbus with
    | none =>
      simp only [hm, Prod.mk.injEq] at h1
      obtain ⟨rfl, rfl⟩ := h1
      simp [Part.view]
    | some t =>
      simp only [hm, Prod.mk.injEq] at h1
      obtain ⟨rfl, rfl⟩ := h1
      have : (t.onConfigRsp.2.map Msg.out).filterMap c.k2 = [] := by
        apply ctl_k2
        unfold Test.onConfigRsp
        cases hst : t.st with
        | configure => simp only [transit_out, hst]; simp; cases c <;> rfl
        | _ => simp
      simp [this, Part.view]
  | modbusReleaseRsp => exact gen (by simp) (by simp) (by simp) (by simp) (by simp)
  | modbusClientAduRsp r => exact gen (by simp) (by simp) (by simp) (by simp) (by simp)
  | modbusAduReq v s q => exact gen (by simp) (by simp) (by simp) (by simp) (by simp)
  | timer => exact gen (by simp) (by simp) (by simp) (by simp) (by simp)

/-- The controller takes a message. -/
theorem take3_u (c : Part) {rnd : Nat → UInt8} {p q : Prog} {l : Luck} {m : Msg} {ms : List Msg} (hb : p.box 3 = m :: ms)
    (h : p.step rnd (.take 3 l) = .ok q) (good : Bool) (hg : good = true → l.timerFree = true) :
    (c.k3 m ≠ none → c.view q ∈ (c.view p).pop3 good) ∧ (c.k3 m = none → c.view q = c.view p) := by
  simp only [Prog.step, hb, handle3] at h
  have h3 : (c.view p).p3 = (m :: ms).filterMap c.k3 := by rw [← hb]; rfl
  have h3' : (c.view (taken p 3 ms)) = { c.view p with p3 := ms.filterMap c.k3 } := by cases c <;> rfl
  have hsame : c.k3 m = none → c.view (taken p 3 ms) = c.view p := by
    intro hk
    rw [h3', ← show (c.view p).p3 = ms.filterMap c.k3 by rw [h3]; simp [hk]]
  have hdrop : ∀ k, c.k3 m = some k → (c.view p).p3 = k :: ms.filterMap c.k3 := by
    intro k hk
    rw [h3]; simp [hk]
  cases m with
  | out o =>
    simp only [ctlEv, Exec.ok.injEq] at h
    subst h
    have : c.k3 (.out o) = none := by cases c <;> rfl
    exact ⟨fun h => absurd this h, hsame⟩
  | startReq =>
    refine ⟨fun _ => ?_, fun h => by cases c <;> exact nomatch h⟩
    have hd := hdrop .start (by cases c <;> rfl)
    have := onCtl_u c h
    unfold CtlU at this
    simp only [VU.pop3, hd]
    cases hl : l.timerFree with
    | true =>
      rw [hl] at this
      simp only at this
      rw [this, h3']
      exact List.mem_cons_self ..
    | false =>
      rw [hl] at this
      simp only at this
      rw [this, h3']
      cases good with
      | true => simp [hl] at hg
      | false => simp
  | stopReq =>
    refine ⟨fun _ => ?_, fun h => by cases c <;> exact nomatch h⟩
    have hd := hdrop .stop (by cases c <;> rfl)
    have := onCtl_u c h
    unfold CtlU at this
    simp only [VU.pop3, hd]
    have hu : (c.view p).ua = p.ctl.ua := rfl
    rcases this with ⟨a, b⟩ | ⟨a, b⟩
    · rw [hu, show p.ctl.ua = some .init from a, b, h3']; simp
    · rw [hu, show p.ctl.ua = some .inited from a, b, h3']; simp
  | ua u =>
    have := onCtl_u c h
    unfold CtlU at this
    have hu : (c.view p).ua = p.ctl.ua := rfl
    simp only at this
    refine ⟨fun hk => ?_, fun hk => ?_⟩
    · have hk' : c.k3 (.ua u) = some .rsp := by cases c <;> cases u <;> first | rfl | exact absurd rfl hk
      have hd := hdrop .rsp hk'
      simp only [VU.pop3, hd, hu]
      split
      · next hi => rw [if_pos ⟨hi, hk'⟩] at this; rw [this, h3']; simp [hu]
      · next hi =>
        rw [if_neg (fun h => hi h.1)] at this
        rw [this, h3']; simp [hu]
    · rw [if_neg (by simp [hk])] at this
      rw [this]; exact hsame hk
  | _ =>
    have := onCtl_u c h
    unfold CtlU at this
    simp only at this
    refine ⟨fun hk => absurd (by cases c <;> rfl) hk, fun hk => ?_⟩
    rw [this]; exact hsame hk

theorem handleT (rnd : Nat → UInt8) (p : Prog) (l : Luck) (m : Msg) (h : Routing.handlerOn (Routing.cpu3.getD 2 []) m.type = some .uaTransport) :
    p.handle rnd 2 l m = match transportMsg l m with
      | some k => do
        let (s, o) ← Components.transportStep transportEntity p.transport k
        pure ({ p with transport := s }.posts (o.flatMap (uaOut .transportInitRsp .transportReleaseRsp)))
      | none => .ok p := by
  unfold Prog.handle
  rw [h]
  rfl

theorem handleC (rnd : Nat → UInt8) (p : Prog) (l : Luck) (m : Msg) (h : Routing.handlerOn (Routing.cpu3.getD 2 []) m.type = some .uaSecChannel) :
    p.handle rnd 2 l m = match channelMsg m with
      | some k => do
        let (s, o) ← Components.channelStep plainEntity p.chan k
        pure ({ p with chan := s }.posts (o.flatMap (uaOut .secureChannelInitRsp .secureChannelReleaseRsp)))
      | none => .ok p := by
  unfold Prog.handle
  rw [h]
  rfl

theorem handleS (rnd : Nat → UInt8) (p : Prog) (l : Luck) (m : Msg) (h : Routing.handlerOn (Routing.cpu3.getD 2 []) m.type = some .uaService) :
    p.handle rnd 2 l m = match serviceMsg m with
      | some k => do
        let (s, o) ← Components.serviceStep plainEntity p.service k
        pure ({ p with service := s }.posts (o.flatMap (uaOut .serviceInitRsp .serviceReleaseRsp)))
      | none => .ok p := by
  unfold Prog.handle
  rw [h]
  rfl

theorem transport_init (rnd : Nat → UInt8) (p : Prog) (l : Luck) : p.handle rnd 2 l (.out .uaTransportInitReq) =
    if p.transport = some .deaf then .abort else .ok ({ p with transport := some .none }.posts [.ua .transportInitRsp]) := by
  rw [handleT rnd p l _ rfl]
  obtain ⟨sent, ctl, mod, chan, transport, service, box⟩ := p
  cases transport with
  | none => simp [transportMsg, Components.transportStep, Components.replace, transportEntity, uaOut]
  | some e => cases e <;> simp [transportMsg, Components.transportStep, Components.replace, transportEntity, uaOut]

theorem transport_release (rnd : Nat → UInt8) (p : Prog) (l : Luck) : p.handle rnd 2 l (.out .uaTransportReleaseReq) =
    if p.transport = some .deaf then .abort else .ok ({ p with transport := none }.posts [.ua .transportReleaseRsp]) := by
  rw [handleT rnd p l _ rfl]
  obtain ⟨sent, ctl, mod, chan, transport, service, box⟩ := p
  cases transport with
  | none => simp [transportMsg, Components.transportStep, Components.reset, transportEntity, uaOut]
  | some e => cases e <;> simp [transportMsg, Components.transportStep, Components.reset, transportEntity, uaOut]

theorem transport_config (rnd : Nat → UInt8) (p : Prog) (l : Luck) (a : List UInt8) :
    p.handle rnd 2 l (.out (.uaTransportConfigReq a)) =
    match p.transport, l.listen with
    | none, _ => .ok p
    | some _, .noAcceptor => .ok p
    | some .deaf, _ => .abort
    | some _, .refused => .ok { p with transport := some .deaf }
    | some _, .ok => .ok { p with transport := some .hearing } := by
  rw [handleT rnd p l _ rfl]
  obtain ⟨sent, ctl, mod, chan, transport, service, box⟩ := p
  cases transport with
  | none =>
    simp [transportMsg, Components.transportStep, Components.guarded, Prog.posts]
  | some e =>
    cases hl : l.listen <;> cases e <;>
    simp [transportMsg, Components.transportStep, Components.guarded, transportEntity, hl, Prog.posts]

theorem channel_init (rnd : Nat → UInt8) (p : Prog) (l : Luck) : p.handle rnd 2 l (.out .uaSecureChannelInitReq) =
    .ok ({ p with chan := some () }.posts [.ua .secureChannelInitRsp]) := by
  rw [handleC rnd p l _ rfl]
  obtain ⟨sent, ctl, mod, chan, transport, service, box⟩ := p
  cases chan <;> simp [channelMsg, Components.channelStep, Components.replace, plainEntity, uaOut]

theorem channel_release (rnd : Nat → UInt8) (p : Prog) (l : Luck) : p.handle rnd 2 l (.out .uaSecureChannelReleaseReq) =
    .ok ({ p with chan := none }.posts [.ua .secureChannelReleaseRsp]) := by
  rw [handleC rnd p l _ rfl]
  obtain ⟨sent, ctl, mod, chan, transport, service, box⟩ := p
  cases chan <;> simp [channelMsg, Components.channelStep, Components.reset, plainEntity, uaOut]

theorem channel_config (rnd : Nat → UInt8) (p : Prog) (l : Luck) : p.handle rnd 2 l (.out .uaSecureChannelConfigReq) = .ok p := by
  rw [handleC rnd p l _ rfl]
  obtain ⟨sent, ctl, mod, chan, transport, service, box⟩ := p
  cases chan <;>
  simp [channelMsg, Components.channelStep, Components.guarded, plainEntity, Prog.posts]

theorem service_init (rnd : Nat → UInt8) (p : Prog) (l : Luck) : p.handle rnd 2 l (.out .uaServiceInitReq) =
    .ok ({ p with service := some () }.posts [.ua .serviceInitRsp]) := by
  rw [handleS rnd p l _ rfl]
  obtain ⟨sent, ctl, mod, chan, transport, service, box⟩ := p
  cases service <;> simp [serviceMsg, Components.serviceStep, Components.replace, plainEntity, uaOut]

theorem service_release (rnd : Nat → UInt8) (p : Prog) (l : Luck) : p.handle rnd 2 l (.out .uaServiceReleaseReq) =
    .ok ({ p with service := none }.posts [.ua .serviceReleaseRsp]) := by
  rw [handleS rnd p l _ rfl]
  obtain ⟨sent, ctl, mod, chan, transport, service, box⟩ := p
  cases service <;> simp [serviceMsg, Components.serviceStep, Components.reset, plainEntity, uaOut]

theorem service_config (rnd : Nat → UInt8) (p : Prog) (l : Luck) : p.handle rnd 2 l (.out .uaServiceConfigReq) = .ok p := by
  rw [handleS rnd p l _ rfl]
  obtain ⟨sent, ctl, mod, chan, transport, service, box⟩ := p
  cases service <;>
  simp [serviceMsg, Components.serviceStep, Components.guarded, plainEntity, Prog.posts]

/-- An OPC UA component takes a message. -/
theorem take2_u (c : Part) {rnd : Nat → UInt8} {p q : Prog} {l : Luck} {m : Msg} {ms : List Msg} (hb : p.box 2 = m :: ms)
    (h : p.step rnd (.take 2 l) = .ok q) (good : Bool) (hg : good = true → l.listen = .ok) :
    (c.k2 m ≠ none → c.view q ∈ (c.view p).pop2 good c) ∧ (c.k2 m = none → c.view q = c.view p) := by
  simp only [Prog.step, hb] at h
  have h2 : (c.view p).p2 = (m :: ms).filterMap c.k2 := by rw [← hb]; rfl
  have h2' : c.view (taken p 2 ms) = { c.view p with p2 := ms.filterMap c.k2 } := by cases c <;> rfl
  have hsame : c.k2 m = none → c.view (taken p 2 ms) = c.view p := by
    intro hk
    rw [h2', ← show (c.view p).p2 = ms.filterMap c.k2 by rw [h2]; simp [hk]]
  have hdrop : ∀ k, c.k2 m = some k → (c.view p).p2 = k :: ms.filterMap c.k2 := by
    intro k hk
    rw [h2]; simp [hk]
  have hu : ∀ (x : Prog) (u : UaMsg), c.view (x.posts [.ua u]) =
      { c.view x with p2 := (c.view x).p2 ++ (c.k2 (.ua u)).toList,
                      p3 := (c.view x).p3 ++ if place (uaType u) = some 3 then (c.k3 (.ua u)).toList else [] } := by
    intro x u
    rw [view_posts]
    cases c <;> cases u <;> rfl
  have keep : q = taken p 2 ms → c.k2 m = none → c.view q = c.view p := fun hq hk => by rw [hq]; exact hsame hk
  cases m with
  | out o =>
    cases o with
    | uaTransportInitReq =>
      rw [transport_init] at h
      split at h
      · exact nomatch h
      · next hd =>
        injection h with h
        subst h
        rw [hu]
        cases c with
        | transport =>
          refine ⟨fun _ => ?_, fun h => absurd h (by simp [Part.k2])⟩
          have hd : (Part.transport.view p).ear ≠ some .deaf := hd
          simp only [VU.pop2, hdrop .init rfl]
          rw [if_neg hd]
          simp [Part.k2, Part.k3, Part.view, Part.ear, show place (uaType .transportInitRsp) = some 3 from rfl]
        | channel =>
          refine ⟨fun h => absurd rfl h, fun h => ?_⟩
          rw [← hsame h]
          simp [Part.k2, Part.k3, Part.view, Part.ear]
        | service =>
          refine ⟨fun h => absurd rfl h, fun h => ?_⟩
          rw [← hsame h]
          simp [Part.k2, Part.k3, Part.view, Part.ear]
    | uaTransportReleaseReq =>
      rw [transport_release] at h
      split at h
      · exact nomatch h
      · next hd =>
        injection h with h
        subst h
        rw [hu]
        cases c with
        | transport =>
          refine ⟨fun _ => ?_, fun h => absurd h (by simp [Part.k2])⟩
          have hd : (Part.transport.view p).ear ≠ some .deaf := hd
          simp only [VU.pop2, hdrop .release rfl]
          rw [if_neg hd]
          simp [Part.k2, Part.k3, Part.view, Part.ear]
        | channel =>
          refine ⟨fun h => absurd rfl h, fun h => ?_⟩
          rw [← hsame h]
          simp [Part.k2, Part.k3, Part.view, Part.ear]
        | service =>
          refine ⟨fun h => absurd rfl h, fun h => ?_⟩
          rw [← hsame h]
          simp [Part.k2, Part.k3, Part.view, Part.ear]
    | uaTransportConfigReq a =>
      rw [transport_config] at h
      cases c with
      | transport =>
        refine ⟨fun _ => ?_, fun h => absurd h (by simp [Part.k2])⟩
        have he : (Part.transport.view p).ear = p.transport := rfl
        simp only [VU.pop2, hdrop .config rfl, he]
        cases ht : p.transport with
        | none =>
          simp only [ht, Exec.ok.injEq] at h
          subst h
          simp [Part.view, Part.ear, ht]
        | some e =>
          cases hl : l.listen with
          | noAcceptor =>
            simp only [ht, hl, Exec.ok.injEq] at h
            subst h
            cases good with
            | true => simp [hl] at hg
            | false => simp [Part.view, Part.ear, ht]
          | refused =>
            cases good with
            | true => simp [hl] at hg
            | false =>
              cases e <;> simp only [ht, hl, Exec.ok.injEq] at h
              · subst h; simp [Part.view, Part.ear]
              · exact nomatch h
              · subst h; simp [Part.view, Part.ear]
          | ok =>
            cases e <;> simp only [ht, hl, Exec.ok.injEq] at h
            · subst h; simp [Part.view, Part.ear]
            · exact nomatch h
            · subst h; simp [Part.view, Part.ear]
      | channel =>
        refine ⟨fun h => absurd rfl h, fun hk => ?_⟩
        rw [← hsame hk]
        split at h <;> first | (cases h; done) | (cases h; rfl)
      | service =>
        refine ⟨fun h => absurd rfl h, fun hk => ?_⟩
        rw [← hsame hk]
        split at h <;> first | (cases h; done) | (cases h; rfl)
    | uaSecureChannelInitReq =>
      rw [channel_init] at h
      injection h with h
      subst h
      rw [hu]
      cases c with
      | channel =>
        refine ⟨fun _ => ?_, fun h => absurd h (by simp [Part.k2])⟩
        simp only [VU.pop2, hdrop .init rfl]
        have : (Part.channel.view p).ear ≠ some .deaf := by cases hp : p.chan <;> simp [Part.view, Part.ear, hp]
        rw [if_neg this]
        simp [Part.k2, Part.k3, Part.view, Part.ear, show place (uaType .secureChannelInitRsp) = some 2 from rfl]
      | transport =>
        refine ⟨fun h => absurd rfl h, fun h => ?_⟩
        rw [← hsame h]
        simp [Part.k2, Part.k3, Part.view, Part.ear]
      | service =>
        refine ⟨fun h => absurd rfl h, fun h => ?_⟩
        rw [← hsame h]
        simp [Part.k2, Part.k3, Part.view, Part.ear]
    | uaSecureChannelReleaseReq =>
      rw [channel_release] at h
      injection h with h
      subst h
      rw [hu]
      cases c with
      | channel =>
        refine ⟨fun _ => ?_, fun h => absurd h (by simp [Part.k2])⟩
        simp only [VU.pop2, hdrop .release rfl]
        have : (Part.channel.view p).ear ≠ some .deaf := by cases hp : p.chan <;> simp [Part.view, Part.ear, hp]
        rw [if_neg this]
        simp [Part.k2, Part.k3, Part.view, Part.ear]
      | transport =>
        refine ⟨fun h => absurd rfl h, fun h => ?_⟩
        rw [← hsame h]
        simp [Part.k2, Part.k3, Part.view, Part.ear]
      | service =>
        refine ⟨fun h => absurd rfl h, fun h => ?_⟩
        rw [← hsame h]
        simp [Part.k2, Part.k3, Part.view, Part.ear]
    | uaSecureChannelConfigReq =>
      rw [channel_config] at h
      injection h with h
      subst h
      cases c with
      | channel =>
        refine ⟨fun _ => ?_, fun h => absurd h (by simp [Part.k2])⟩
        simp only [VU.pop2, hdrop .config rfl]
        cases hp : p.chan <;> simp [Part.view, Part.ear, hp]
      | transport => exact ⟨fun h => absurd rfl h, keep rfl⟩
      | service => exact ⟨fun h => absurd rfl h, keep rfl⟩
    | uaServiceInitReq =>
      rw [service_init] at h
      injection h with h
      subst h
      rw [hu]
      cases c with
      | service =>
        refine ⟨fun _ => ?_, fun h => absurd h (by simp [Part.k2])⟩
        simp only [VU.pop2, hdrop .init rfl]
        have : (Part.service.view p).ear ≠ some .deaf := by cases hp : p.service <;> simp [Part.view, Part.ear, hp]
        rw [if_neg this]
        simp [Part.k2, Part.k3, Part.view, Part.ear, show place (uaType .serviceInitRsp) = some 2 from rfl]
      | transport =>
        refine ⟨fun h => absurd rfl h, fun h => ?_⟩
        rw [← hsame h]
        simp [Part.k2, Part.k3, Part.view, Part.ear]
      | channel =>
        refine ⟨fun h => absurd rfl h, fun h => ?_⟩
        rw [← hsame h]
        simp [Part.k2, Part.k3, Part.view, Part.ear]
    | uaServiceReleaseReq =>
      rw [service_release] at h
      injection h with h
      subst h
      rw [hu]
      cases c with
      | service =>
        refine ⟨fun _ => ?_, fun h => absurd h (by simp [Part.k2])⟩
        simp only [VU.pop2, hdrop .release rfl]
        have : (Part.service.view p).ear ≠ some .deaf := by cases hp : p.service <;> simp [Part.view, Part.ear, hp]
        rw [if_neg this]
        simp [Part.k2, Part.k3, Part.view, Part.ear]
      | transport =>
        refine ⟨fun h => absurd rfl h, fun h => ?_⟩
        rw [← hsame h]
        simp [Part.k2, Part.k3, Part.view, Part.ear]
      | channel =>
        refine ⟨fun h => absurd rfl h, fun h => ?_⟩
        rw [← hsame h]
        simp [Part.k2, Part.k3, Part.view, Part.ear]
    | uaServiceConfigReq =>
      rw [service_config] at h
      injection h with h
      subst h
      cases c with
      | service =>
        refine ⟨fun _ => ?_, fun h => absurd h (by simp [Part.k2])⟩
        simp only [VU.pop2, hdrop .config rfl]
        cases hp : p.service <;> simp [Part.view, Part.ear, hp]
      | transport => exact ⟨fun h => absurd rfl h, keep rfl⟩
      | channel => exact ⟨fun h => absurd rfl h, keep rfl⟩
    | _ =>
      injection h with h
      subst h
      exact ⟨fun h => absurd (by cases c <;> rfl) h, keep rfl⟩
  | ua u =>
    have hh : (taken p 2 ms).handle rnd 2 l (.ua u) = .ok (taken p 2 ms) := by cases u <;> rfl
    rw [hh] at h
    injection h with h
    subst h
    refine ⟨fun hk => ?_, keep rfl⟩
    have hk' : c.k2 (.ua u) = some .rsp := by cases c <;> cases u <;> first | rfl | exact absurd rfl hk
    simp [VU.pop2, hdrop _ hk', h2']
  | _ =>
    injection h with h
    subst h
    refine ⟨fun h => ?_, keep rfl⟩
    cases c <;> exact absurd rfl h

/-- The Modbus component and its links and timers do not touch the OPC UA components. -/
theorem onMod_u (c : Part) {p q : Prog} {k : Components.ModbusMsg (Nat × Nat) Dispatcher.Ev} (h : p.onMod k = .ok q) :
    c.view q = c.view p := by
  obtain ⟨⟨d, o⟩, _, h2⟩ := Exec.bind_eq_ok.1 h
  injection h2 with h2
  subst h2
  rw [view_posts, (modOut_u c o).1, (modOut_u c o).2]
  simp [Part.view]
  cases c <;> rfl

theorem onLink_u (c : Part) {p q : Prog} {k : Dispatcher.Ev} (h : p.onLink k = .ok q) : c.view q = c.view p := by
  unfold Prog.onLink at h
  split at h
  · injection h with h; rw [h]
  · obtain ⟨⟨d, o⟩, _, h2⟩ := Exec.bind_eq_ok.1 h
    injection h2 with h2
    subst h2
    have he : (o.flatMap fun x => modOut (.entity x)) = (o.map Components.Out.entity).flatMap modOut := by
      rw [List.flatMap_map]
    rw [view_posts, he, (modOut_u c _).1, (modOut_u c _).2]
    simp [Part.view]
    cases c <;> rfl

/-! ## The Modbus component -/

/-- What an event of the controller changes for the Modbus component. -/
def CtlM (p q : Prog) : Controller.Ev → Prop
  | .start true => mview q = { mview p with test := some .init, p1 := (mview p).p1 ++ [.init 1 1] }
  | .start false => mview q = mview p
  | .stop => ((mview p).test = some .configure ∧ mview q = { mview p with test := none }) ∨
      ((mview p).test ≠ none ∧ (mview p).test ≠ some .configure ∧
        mview q = { mview p with test := none, p1 := (mview p).p1 ++ [.release] })
  | .modbusInitRsp => if (mview p).test = some .init then
      mview q = { mview p with test := some .configure, p1 := (mview p).p1 ++ [.config cfgs] } else mview q = mview p
  | .modbusConfigRsp => if (mview p).test = some .configure then
      mview q = { mview p with test := some .run } else mview q = mview p
  | .ua _ => mview q = mview p
  | _ => mview q = mview p ∨ mview q ∈ (mview p).drift

theorem onCtl_m {rnd : Nat → UInt8} {p q : Prog} {e : Controller.Ev} (h : p.onCtl rnd e = .ok q) : CtlM p q e := by
  obtain ⟨⟨ctl, o⟩, h1, h2⟩ := Exec.bind_eq_ok.1 h
  simp only [Exec.pure_eq, Exec.ok.injEq] at h2
  have hv : mview q = { mview p with test := ctl.modbus.map (·.st), p1 := (mview p).p1 ++ (o.map Msg.out).filterMap k1 } := by
    rw [← h2, mview_posts, outs_k3, List.append_nil]
    rfl
  have ht : (mview p).test = p.ctl.modbus.map (·.st) := rfl
  clear h2 h
  have gen : (∀ b, e ≠ .start b) → e ≠ .stop → (∀ m, e ≠ .ua m) → e ≠ .modbusInitRsp → e ≠ .modbusConfigRsp →
      mview q = mview p ∨ mview q ∈ (mview p).drift := by
    intro a1 a2 a3 a4 a5
    rw [hv]
    obtain ⟨_, b2⟩ := ctl_test h1 a1 a2 a3 a4 a5
    rcases b2 with ⟨b, b'⟩ | ⟨b, b', rfl⟩ | ⟨b, b', rfl⟩ | ⟨b, b', x, rfl⟩
    · left
      have : (o.map Msg.out).filterMap k1 = [] := by
        refine List.filterMap_eq_nil_iff.2 fun m hm => ?_
        obtain ⟨x, hx, rfl⟩ := List.mem_map.1 hm
        exact (b' x hx).1
      rw [this, b, List.append_nil, ← ht]
    · right
      simp [VM.drift, ht, b, b']
    · right
      simp [VM.drift, ht, b, b', k1]
    · right
      simp [VM.drift, ht, b, b', k1]
  unfold CtlM
  cases e with
  | start b =>
    cases b with
    | true =>
      simp only [Ctl.step, if_true, Exec.ok.injEq, Prod.mk.injEq] at h1
      obtain ⟨rfl, rfl⟩ := h1
      rw [hv]
      rfl
    | false =>
      simp only [Ctl.step, Bool.false_eq_true, if_false, Exec.ok.injEq, Prod.mk.injEq] at h1
      obtain ⟨rfl, rfl⟩ := h1
      rw [hv]
      simp [ht]
      rfl
  | stop =>
    simp only [Ctl.step] at h1
    cases hm : p.ctl.modbus with
    | none => simp [hm] at h1
    | some t =>
      cases hu : p.ctl.ua with
      | none => simp [hm, hu] at h1
      | some u =>
        simp only [hm, hu, Exec.ok.injEq, Prod.mk.injEq] at h1
        obtain ⟨rfl, rfl⟩ := h1
        have hs : (u.onStop.2.map Msg.out).filterMap k1 = [] := by cases u <;> rfl
        rw [hm] at ht
        simp only [hv, ht, List.map_append, List.filterMap_append, hs, List.append_nil, Test.onStop]
        cases hst : t.st <;> simp [transit_out, hst, k1]
  | ua m =>
    simp only [Ctl.step] at h1
    cases hu : p.ctl.ua with
    | none =>
      simp only [hu, Exec.ok.injEq, Prod.mk.injEq] at h1
      obtain ⟨rfl, rfl⟩ := h1
      rw [hv]
      simp [← ht]
    | some u =>
      simp only [hu, Exec.ok.injEq, Prod.mk.injEq] at h1
      obtain ⟨rfl, rfl⟩ := h1
      rw [hv]
      have : ((u.onMsg m).map Msg.out).filterMap k1 = [] := by cases u <;> cases m <;> rfl
      simp [← ht, this]
  | modbusInitRsp =>
    simp only [Ctl.step, Ctl.onTest, Exec.ok.injEq] at h1
    cases hm : p.ctl.modbus with
    | none =>
      simp only [hm, Prod.mk.injEq] at h1
      obtain ⟨rfl, rfl⟩ := h1
      rw [hm] at ht
      simp [hv, ht, hm]
      rw [show (none : Option TSt) = (mview p).test from ht.symm]
    | some t =>
      simp only [hm, Prod.mk.injEq] at h1
      obtain ⟨rfl, rfl⟩ := h1
      rw [hm] at ht
      simp only [hv, ht, Test.onInitRsp]
      cases hst : t.st with
      | init => simp [transit_st, transit_out, hst, k1]
      | _ =>
        simp [hst]
        rw [← hst, show some t.st = (mview p).test by rw [ht]; rfl]
  | modbusConfigRsp =>
    simp only [Ctl.step, Ctl.onTest, Exec.ok.injEq] at h1
    cases hm : p.ctl.modbus with
    | none =>
      simp only [hm, Prod.mk.injEq] at h1
      obtain ⟨rfl, rfl⟩ := h1
      rw [hm] at ht
      simp [hv, ht, hm]
      rw [show (none : Option TSt) = (mview p).test from ht.symm]
    | some t =>
      simp only [hm, Prod.mk.injEq] at h1
      obtain ⟨rfl, rfl⟩ := h1
      rw [hm] at ht
      simp only [hv, ht, Test.onConfigRsp]
      cases hst : t.st with
      | configure => simp [transit_st, transit_out, hst, k1]
      | _ =>
        simp [hst]
        rw [← hst, show some t.st = (mview p).test by rw [ht]; rfl]
  | modbusReleaseRsp => exact gen (by simp) (by simp) (by simp) (by simp) (by simp)
  | modbusClientAduRsp r => exact gen (by simp) (by simp) (by simp) (by simp) (by simp)
  | modbusAduReq v s q => exact gen (by simp) (by simp) (by simp) (by simp) (by simp)
  | timer => exact gen (by simp) (by simp) (by simp) (by simp) (by simp)

/-- The controller takes a message. -/
theorem take3_m {rnd : Nat → UInt8} {p q : Prog} {l : Luck} {m : Msg} {ms : List Msg} (hb : p.box 3 = m :: ms)
    (h : p.step rnd (.take 3 l) = .ok q) (good : Bool) (hg : good = true → l.timerFree = true) :
    (k3 m ≠ none → mview q ∈ (mview p).pop3 good) ∧ (k3 m = none → mview q = mview p ∨ mview q ∈ (mview p).drift) := by
  simp only [Prog.step, hb, handle3] at h
  have h3 : (mview p).p3 = (m :: ms).filterMap k3 := by rw [← hb]; rfl
  have h3' : mview (taken p 3 ms) = { mview p with p3 := ms.filterMap k3 } := rfl
  have hsame : k3 m = none → mview (taken p 3 ms) = mview p := by
    intro hk
    rw [h3', ← show (mview p).p3 = ms.filterMap k3 by rw [h3]; simp [hk]]
  have hdrop : ∀ k, k3 m = some k → (mview p).p3 = k :: ms.filterMap k3 := by
    intro k hk
    rw [h3]; simp [hk]
  have ht : (mview (taken p 3 ms)).test = (mview p).test := rfl
  cases m with
  | out o =>
    simp only [ctlEv, Exec.ok.injEq] at h
    subst h
    exact ⟨fun h => absurd rfl h, fun h => .inl (hsame h)⟩
  | startReq =>
    refine ⟨fun _ => ?_, fun h => nomatch h⟩
    have hd := hdrop .start rfl
    have := onCtl_m h
    unfold CtlM at this
    simp only [VM.pop3, hd]
    cases hl : l.timerFree with
    | true =>
      rw [hl] at this
      simp only at this
      rw [this, h3']
      exact List.mem_cons_self ..
    | false =>
      rw [hl] at this
      simp only at this
      rw [this, h3']
      cases good with
      | true => simp [hl] at hg
      | false => simp
  | stopReq =>
    refine ⟨fun _ => ?_, fun h => nomatch h⟩
    have hd := hdrop .stop rfl
    have := onCtl_m h
    unfold CtlM at this
    simp only [ht] at this
    simp only [VM.pop3, hd]
    rcases this with ⟨a, b⟩ | ⟨a, a', b⟩
    · rw [a, b, h3']; simp
    · rw [b, h3']
      split
      · next h => exact absurd h a
      · next h => exact absurd h a'
      · simp
  | modbusInitRsp =>
    refine ⟨fun _ => ?_, fun h => nomatch h⟩
    have hd := hdrop .initRsp rfl
    have := onCtl_m h
    unfold CtlM at this
    simp only [ht] at this
    simp only [VM.pop3, hd]
    split
    · next h => rw [if_pos h] at this; rw [this, h3']; simp
    · next h => rw [if_neg h] at this; rw [this, h3']; simp
  | modbusConfigRsp =>
    refine ⟨fun _ => ?_, fun h => nomatch h⟩
    have hd := hdrop .configRsp rfl
    have := onCtl_m h
    unfold CtlM at this
    simp only [ht] at this
    simp only [VM.pop3, hd]
    split
    · next h => rw [if_pos h] at this; rw [this, h3']; simp
    · next h => rw [if_neg h] at this; rw [this, h3']; simp
  | ua u =>
    have := onCtl_m h
    unfold CtlM at this
    exact ⟨fun h => absurd rfl h, fun hk => .inl (by rw [this]; exact hsame hk)⟩
  | modbusReleaseRsp =>
    have := onCtl_m h
    unfold CtlM at this
    refine ⟨fun h => absurd rfl h, fun hk => ?_⟩
    rw [← hsame hk]; exact this
  | modbusClientAduRsp r =>
    have := onCtl_m h
    unfold CtlM at this
    refine ⟨fun h => absurd rfl h, fun hk => ?_⟩
    rw [← hsame hk]; exact this
  | modbusAduReq v s q =>
    have := onCtl_m h
    unfold CtlM at this
    refine ⟨fun h => absurd rfl h, fun hk => ?_⟩
    rw [← hsame hk]; exact this

theorem upd_isSome {α : Type} (f : Nat → Option α) (i j : Nat) (v : α) (h : (f i).isSome = true) :
    (Dispatcher.upd f i v j).isSome = (f j).isSome := by
  unfold Dispatcher.upd
  split
  · next hj => subst hj; rw [h]; rfl
  · rfl

/-- No event but a configuration changes what matters, or answers a configuration. -/
theorem item_cls {d d' : Dispatcher} {r : CallerReq} {o : List Dispatcher.Out} (h : d.item r = .ok (d', o)) :
    cls d' = cls d ∧ ∀ x ∈ o, ∀ its, x ≠ .cfgRsp its := by
  unfold Dispatcher.item at h
  simp only at h
  split at h
  · cases h; simp
  · split at h
    · cases h; simp
    · next c hc =>
      obtain ⟨⟨c', o'⟩, _, h⟩ := Exec.bind_eq_ok.1 h
      cases h
      refine ⟨?_, by simp⟩
      simp only [cls, upd_isSome d.clients r.clientId 0 c' (by rw [hc]; rfl)]

theorem batch_cls {d d' : Dispatcher} {rs : List CallerReq} {o : List Dispatcher.Out} (h : d.batch rs = .ok (d', o)) :
    cls d' = cls d ∧ ∀ x ∈ o, ∀ its, x ≠ .cfgRsp its := by
  induction rs generalizing d o with
  | nil => cases h; simp
  | cons r rs ih =>
    simp only [Dispatcher.batch] at h
    obtain ⟨⟨d1, o1⟩, h1, h⟩ := Exec.bind_eq_ok.1 h
    obtain ⟨⟨d2, o2⟩, h2, h⟩ := Exec.bind_eq_ok.1 h
    cases h
    obtain ⟨a, b⟩ := item_cls h1
    obtain ⟨a', b'⟩ := ih h2
    refine ⟨a'.trans a, fun x hx => ?_⟩
    rcases List.mem_append.1 hx with hx | hx
    · exact b x hx
    · exact b' x hx

theorem step_cls {d d' : Dispatcher} {e : Dispatcher.Ev} {o : List Dispatcher.Out} (h : d.step e = .ok (d', o))
    (he : ∀ its, e ≠ .config its) : cls d' = cls d ∧ ∀ x ∈ o, ∀ its, x ≠ .cfgRsp its := by
  cases e with
  | config its => exact absurd rfl (he its)
  | batch rs => exact batch_cls h
  | aduRsp v s r ok =>
    simp only [Dispatcher.step, Dispatcher.aduRsp] at h
    split at h
    · cases h; simp
    · split at h
      · cases h; simp
      · next w hw =>
        obtain ⟨⟨w', o'⟩, _, h⟩ := Exec.bind_eq_ok.1 h
        cases h
        refine ⟨?_, by simp +contextual [eq_comm]⟩
        simp only [cls, upd_isSome d.servers v 0 w' (by rw [hw]; rfl)]
  | client i e =>
    simp only [Dispatcher.step] at h
    split at h
    · cases h; simp
    · next c hc =>
      split at h
      · obtain ⟨⟨c', o'⟩, _, h⟩ := Exec.bind_eq_ok.1 h
        cases h
        refine ⟨?_, by simp⟩
        simp only [cls, upd_isSome d.clients i 0 c' (by rw [hc]; rfl)]
      · cases h; simp
  | server i e =>
    simp only [Dispatcher.step] at h
    split at h
    · cases h; simp
    · next w hw =>
      split at h
      · obtain ⟨⟨w', o'⟩, _, h⟩ := Exec.bind_eq_ok.1 h
        cases h
        refine ⟨?_, by simp +contextual [eq_comm]⟩
        simp only [cls, upd_isSome d.servers i 0 w' (by rw [hw]; rfl)]
      · cases h; simp

theorem modOut_k3 (o : List Dispatcher.Out) (h : ∀ x ∈ o, ∀ its, x ≠ .cfgRsp its) :
    ((o.map Components.Out.entity).flatMap modOut).filterMap k3 = [] := by
  refine List.filterMap_eq_nil_iff.2 fun m hm => ?_
  obtain ⟨x, hx, hm⟩ := List.mem_flatMap.1 hm
  obtain ⟨y, hy, rfl⟩ := List.mem_map.1 hx
  unfold modOut at hm
  split at hm <;> simp at hm <;> subst hm <;> try (first | rfl | (rename_i heq; cases heq; done))
  · rename_i heq; injection heq with heq; exact absurd heq (h y hy _)

theorem onLink_m {p q : Prog} {e : Dispatcher.Ev} (he : ∀ its, e ≠ .config its) (h : p.onLink e = .ok q) : mview q = mview p := by
  unfold Prog.onLink at h
  split at h
  · cases h; rfl
  · next d hd =>
    obtain ⟨⟨d', o⟩, h1, h2⟩ := Exec.bind_eq_ok.1 h
    cases h2
    obtain ⟨a, b⟩ := step_cls h1 he
    have hf : (o.flatMap fun x => modOut (.entity x)) = (o.map Components.Out.entity).flatMap modOut := by
      rw [List.flatMap_map]
    rw [mview_posts, hf, modOut_k1, modOut_k3 o b]
    simp [mview, hd, a]

theorem guarded_m {p q : Prog} {e : Dispatcher.Ev} (he : ∀ its, e ≠ .config its)
    {k : Components.ModbusMsg (Nat × Nat) Dispatcher.Ev}
    (hk : ∀ s, Components.modbusStep Components.modbusEntity s k = Components.guarded Components.modbusEntity s e)
    (h : p.onMod k = .ok q) : mview q = mview p := by
  obtain ⟨⟨s, o⟩, h1, h2⟩ := Exec.bind_eq_ok.1 h
  cases h2
  rw [hk] at h1
  unfold Components.guarded at h1
  cases hd : p.mod with
  | none =>
    rw [hd] at h1
    cases h1
    rw [mview_posts]
    simp [mview, hd]
  | some d =>
    rw [hd] at h1
    obtain ⟨⟨d', o'⟩, h3, h4⟩ := Exec.bind_eq_ok.1 h1
    cases h4
    obtain ⟨a, b⟩ := step_cls h3 he
    rw [mview_posts, modOut_k1, modOut_k3 o' b]
    simp [mview, hd, a]

theorem destroy_one {d : Dispatcher} (h : d.numServers = 1) : d.destroy = if d.deaf 0 then .abort else .ok () := by
  unfold Dispatcher.destroy
  rw [h]
  simp [List.range_succ]

/-- How the configuration of the self test ends. -/
theorem config_cls {d d' : Dispatcher} {l : Luck} {o : List Dispatcher.Out} (h1 : d.numServers = 1) (h2 : d.numClients = 1)
    (h : d.config (cfgs.map l.item) = .ok (d', o)) :
    ((cls d).deaf = false ∧ cls d' = { cls d with server := true, client := true } ∧
      ((o.map Components.Out.entity).flatMap modOut).filterMap k3 = [.configRsp]) ∨
    (¬ (l.clientRes = .ok ∧ l.serverRes = .ok) ∧ ((o.map Components.Out.entity).flatMap modOut).filterMap k3 = [] ∧
      (cls d' = cls d ∨ cls d' = { cls d with client := true } ∨ cls d' = { cls d with server := true, client := true } ∨
        cls d' = { cls d with server := true, client := true, deaf := true })) := by
  have hi : cfgs.map l.item = [⟨0, .inl l.mem, l.clientRes⟩, ⟨0, .inr l.server, l.serverRes⟩] := rfl
  rw [hi] at h
  have hc : ∀ b, ∃ c, (Client.create l.mem).step (.start b) = .ok (c, []) := fun b => ⟨_, rfl⟩
  obtain ⟨c1, hc1⟩ := hc true
  obtain ⟨c2, hc2⟩ := hc false
  simp only [Dispatcher.config, Dispatcher.configLoop, Dispatcher.configItem, h1, h2, ge_iff_le, Nat.le_zero_eq, Nat.one_ne_zero,
    if_false, hc1, hc2, Exec.ok_bind, Exec.pure_eq] at h
  cases hcr : l.clientRes with
  | ctorThrows =>
    simp [hcr] at h
    obtain ⟨rfl, rfl⟩ := h
    exact .inr ⟨by simp, rfl, .inl rfl⟩
  | startThrows =>
    simp [hcr] at h
    obtain ⟨rfl, rfl⟩ := h
    exact .inr ⟨by simp, rfl, .inr (.inl (by simp [cls, Dispatcher.upd, h1, h2]))⟩
  | listenThrows =>
    simp [hcr] at h
    obtain ⟨rfl, rfl⟩ := h
    exact .inr ⟨by simp, rfl, .inr (.inl (by simp [cls, Dispatcher.upd, h1, h2]))⟩
  | ok =>
    simp only [hcr, List.map_nil, Exec.ok_bind, Exec.pure_eq, Bool.false_eq_true, if_false] at h
    cases hd : d.deaf 0 with
    | true =>
      cases hsr : l.serverRes with
      | ctorThrows =>
        simp [hsr] at h
        obtain ⟨rfl, rfl⟩ := h
        exact .inr ⟨by simp, rfl, .inr (.inl (by simp [cls, Dispatcher.upd, h1, h2]))⟩
      | _ => simp [hsr, hd] at h
    | false =>
      cases hsr : l.serverRes with
      | ctorThrows =>
        simp [hsr] at h
        obtain ⟨rfl, rfl⟩ := h
        exact .inr ⟨by simp, rfl, .inr (.inl (by simp [cls, Dispatcher.upd, h1, h2]))⟩
      | startThrows =>
        simp [hsr, hd] at h
        obtain ⟨rfl, rfl⟩ := h
        exact .inr ⟨by simp, rfl, .inr (.inr (.inl (by simp [cls, Dispatcher.upd, h1, h2, hd])))⟩
      | listenThrows =>
        simp [hsr, hd] at h
        obtain ⟨rfl, rfl⟩ := h
        exact .inr ⟨by simp, rfl, .inr (.inr (.inr (by simp [cls, Dispatcher.upd, h1, h2])))⟩
      | ok =>
        simp [hsr, hd] at h
        obtain ⟨rfl, rfl⟩ := h
        exact .inl ⟨hd, by simp [cls, Dispatcher.upd, h1, h2, hd], rfl⟩

/-- The Modbus component takes a message. -/
theorem take1_m {rnd : Nat → UInt8} {p q : Prog} {l : Luck} {m : Msg} {ms : List Msg} (hb : p.box 1 = m :: ms)
    (h : p.step rnd (.take 1 l) = .ok q) (good : Bool) (hg : good = true → l.clientRes = .ok ∧ l.serverRes = .ok)
    (hp : ∀ x ∈ (mview p).ent, x.servers = 1 ∧ x.clients = 1)
    (hk : ∀ k ∈ (mview p).p1, k = .init 1 1 ∨ k = .config cfgs ∨ k = .release) :
    (k1 m ≠ none → mview q ∈ (mview p).pop1 good) ∧ (k1 m = none → mview q = mview p) := by
  simp only [Prog.step, hb, handle1] at h
  have h1 : (mview p).p1 = (m :: ms).filterMap k1 := by rw [← hb]; rfl
  have h1' : mview (taken p 1 ms) = { mview p with p1 := ms.filterMap k1 } := rfl
  have hsame : k1 m = none → mview (taken p 1 ms) = mview p := by
    intro hk
    rw [h1', ← show (mview p).p1 = ms.filterMap k1 by rw [h1]; simp [hk]]
  have hdrop : ∀ k, k1 m = some k → (mview p).p1 = k :: ms.filterMap k1 := by
    intro k hk
    rw [h1]; simp [hk]
  have hent : (mview p).ent = p.mod.map cls := rfl
  cases m with
  | out o =>
    cases o with
    | modbusInitReq s c =>
      refine ⟨fun _ => ?_, fun h => nomatch h⟩
      simp only [VM.pop1, hdrop _ rfl, hent]
      simp only [modMsg, Prog.onMod, Components.modbusStep, Components.replace, Components.modbusEntity, Exec.ok_bind] at h
      cases hd : p.mod with
      | none =>
        simp only [hd, Exec.ok_bind, Exec.pure_eq, Exec.ok.injEq] at h
        subst h
        rw [mview_posts]
        simp [mview, modOut, k1, k3, cls, Dispatcher.create]
      | some d =>
        have hn := (hp (cls d) (by rw [hent, hd]; rfl)).1
        simp only [hd, destroy_one hn] at h
        cases hf : d.deaf 0 with
        | true => simp [hf] at h
        | false =>
          simp only [hf, Bool.false_eq_true, if_false, Exec.ok_bind, Exec.pure_eq, Exec.ok.injEq] at h
          subst h
          rw [mview_posts]
          simp [mview, modOut, k1, k3, cls, Dispatcher.create, hf]
    | modbusReleaseReq =>
      refine ⟨fun _ => ?_, fun h => nomatch h⟩
      simp only [VM.pop1, hdrop _ rfl, hent]
      simp only [modMsg, Prog.onMod, Components.modbusStep, Components.reset, Components.modbusEntity] at h
      cases hd : p.mod with
      | none =>
        simp only [hd, Exec.ok_bind, Exec.pure_eq, Exec.ok.injEq] at h
        subst h
        rw [mview_posts]
        simp [mview, modOut, k1, k3]
      | some d =>
        have hn := (hp (cls d) (by rw [hent, hd]; rfl)).1
        simp only [hd, destroy_one hn] at h
        cases hf : d.deaf 0 with
        | true => simp [hf] at h
        | false =>
          simp only [hf, Bool.false_eq_true, if_false, Exec.ok_bind, Exec.pure_eq, Exec.ok.injEq] at h
          subst h
          rw [mview_posts]
          simp [mview, modOut, k1, k3, cls, hf]
    | modbusConfigReq items =>
      refine ⟨fun _ => ?_, fun h => nomatch h⟩
      have hi : items = cfgs := by
        have := hk (.config items) (by rw [hdrop _ rfl]; simp)
        simpa using this
      subst hi
      simp only [VM.pop1, hdrop _ rfl, hent]
      simp only [modMsg, Prog.onMod, Components.modbusStep, Components.guarded, Components.modbusEntity] at h
      cases hd : p.mod with
      | none =>
        simp only [hd, Exec.ok_bind, Exec.pure_eq, Exec.ok.injEq] at h
        subst h
        rw [mview_posts]
        simp [mview]
      | some d =>
        have hn := hp (cls d) (by rw [hent, hd]; rfl)
        simp only [hd, Dispatcher.step] at h
        obtain ⟨⟨s', o'⟩, h3, h4⟩ := Exec.bind_eq_ok.1 h
        obtain ⟨⟨d', o⟩, h5, h6⟩ := Exec.bind_eq_ok.1 h3
        cases h6
        cases h4
        rcases config_cls hn.1 hn.2 h5 with ⟨a, b, e⟩ | ⟨a, e, b⟩
        · rw [mview_posts, modOut_k1, e]
          simp [mview, a, b]
        · rw [mview_posts, modOut_k1, e]
          cases good with
          | true => exact absurd (hg rfl) a
          | false => rcases b with b | b | b | b <;> simp [mview, b]
    | modbusClientAduReq items =>
      refine ⟨fun h => absurd rfl h, fun hk => ?_⟩
      rw [← hsame hk]
      exact guarded_m (e := .batch (items.map SelfTest.callerOf)) (by simp) (fun _ => rfl) h
    | modbusAduRsp v s r =>
      refine ⟨fun h => absurd rfl h, fun hk => ?_⟩
      rw [← hsame hk]
      exact guarded_m (e := .aduRsp v s r l.linkOk) (by simp) (fun _ => rfl) h
    | _ =>
      cases h
      exact ⟨fun h => absurd rfl h, hsame⟩
  | _ =>
    cases h
    exact ⟨fun h => absurd rfl h, hsame⟩

/-- The OPC UA components do not touch the Modbus component and the self test. -/
theorem take2_m {rnd : Nat → UInt8} {p q : Prog} {l : Luck} {m : Msg} {ms : List Msg} (hb : p.box 2 = m :: ms)
    (h : p.step rnd (.take 2 l) = .ok q) : mview q = mview p := by
  simp only [Prog.step, hb] at h
  have hm : mview (taken p 2 ms) = mview p := rfl
  have hu : ∀ (x : Prog) (u : UaMsg), mview (x.posts [.ua u]) = mview x := by
    intro x u
    have h1 : List.filterMap k1 [Msg.ua u] = [] := rfl
    have h3 : List.filterMap k3 [Msg.ua u] = [] := rfl
    rw [mview_posts, h1, h3, List.append_nil, List.append_nil]
  cases m with
  | out o =>
    cases o with
    | uaTransportInitReq =>
      rw [transport_init] at h
      split at h
      · cases h
      · injection h with h; subst h; rw [hu]; exact hm
    | uaTransportReleaseReq =>
      rw [transport_release] at h
      split at h
      · cases h
      · injection h with h; subst h; rw [hu]; exact hm
    | uaTransportConfigReq a =>
      rw [transport_config] at h
      split at h <;> first | cases h; done | (injection h with h; subst h; exact hm)
    | uaSecureChannelInitReq => rw [channel_init] at h; injection h with h; subst h; rw [hu]; exact hm
    | uaSecureChannelReleaseReq => rw [channel_release] at h; injection h with h; subst h; rw [hu]; exact hm
    | uaSecureChannelConfigReq => rw [channel_config] at h; injection h with h; subst h; exact hm
    | uaServiceInitReq => rw [service_init] at h; injection h with h; subst h; rw [hu]; exact hm
    | uaServiceReleaseReq => rw [service_release] at h; injection h with h; subst h; rw [hu]; exact hm
    | uaServiceConfigReq => rw [service_config] at h; injection h with h; subst h; exact hm
    | _ => injection h with h; subst h; exact hm
  | ua u =>
    have hh : (taken p 2 ms).handle rnd 2 l (.ua u) = .ok (taken p 2 ms) := by cases u <;> rfl
    rw [hh] at h
    injection h with h
    subst h
    exact hm
  | _ => injection h with h; subst h; exact hm

/-- The Modbus component does not touch the OPC UA components. -/
theorem take1_u (c : Part) {rnd : Nat → UInt8} {p q : Prog} {l : Luck} {m : Msg} {ms : List Msg} (hb : p.box 1 = m :: ms)
    (h : p.step rnd (.take 1 l) = .ok q) : c.view q = c.view p := by
  simp only [Prog.step, hb, handle1] at h
  have hm : c.view (taken p 1 ms) = c.view p := by cases c <;> rfl
  split at h
  · rw [onMod_u c h]; exact hm
  · injection h with h; subst h; exact hm

/-- Other reactors have no handlers. -/
theorem take0 {rnd : Nat → UInt8} {p q : Prog} {l : Luck} {m : Msg} {ms : List Msg} {r : Nat} (h1 : r ≠ 1) (h2 : r ≠ 2) (h3 : r ≠ 3)
    (hb : p.box r = m :: ms) (h : p.step rnd (.take r l) = .ok q) : q = taken p r ms := by
  simp only [Prog.step, hb, handle0 _ _ _ _ _ h1 h2 h3] at h
  injection h with h
  exact h.symm

theorem main_u (c : Part) {rnd : Nat → UInt8} {p q : Prog} (h : p.step rnd .main = .ok q) :
    c.view q = c.view p ∨ c.view q ∈ (c.view p).main := by
  have hp : ∀ (x : Prog) (m : Msg), x.post m = x.posts [m] := fun _ _ => rfl
  have hs : (c.view p).sent = p.sent := by cases c <;> rfl
  simp only [Prog.step, hp] at h
  split at h
  · injection h with h
    subst h
    right
    rw [view_posts]
    cases c <;> simp_all [VU.main, Part.view, Part.k2, Part.k3, Part.ear, place, Routing.deploy]
    all_goals decide
  · injection h with h
    subst h
    right
    rw [view_posts]
    cases c <;> simp_all [VU.main, Part.view, Part.k2, Part.k3, Part.ear]
    all_goals decide
  · injection h with h
    subst h
    exact .inl rfl

theorem main_m {rnd : Nat → UInt8} {p q : Prog} (h : p.step rnd .main = .ok q) :
    mview q = mview p ∨ mview q ∈ (mview p).main := by
  have hp : ∀ (x : Prog) (m : Msg), x.post m = x.posts [m] := fun _ _ => rfl
  simp only [Prog.step, hp] at h
  split at h
  · injection h with h
    subst h
    right
    rw [mview_posts]
    simp_all [VM.main, mview, k1, k3]
  · injection h with h
    subst h
    right
    rw [mview_posts]
    simp_all [VM.main, mview, k1, k3]
  · injection h with h
    subst h
    exact .inl rfl

/-- Each OPC UA component moves along its view. -/
theorem sim_u (c : Part) {rnd : Nat → UInt8} {p q : Prog} {e : Ev} (h : p.step rnd e = .ok q) (good : Bool)
    (hg : good = true → Good e) : c.view q = c.view p ∨ c.view q ∈ (c.view p).succ good c := by
  cases e with
  | main =>
    rcases main_u c h with a | a
    · exact .inl a
    · exact .inr (by simp [VU.succ, a])
  | timer =>
    have := onCtl_u c h
    exact .inl this
  | client i e => exact .inl (onLink_u c h)
  | server i e => exact .inl (onLink_u c h)
  | take r l =>
    cases hb : p.box r with
    | nil => simp [Prog.step, hb] at h; exact .inl (by rw [h])
    | cons m ms =>
      by_cases h3 : r = 3
      · subst h3
        obtain ⟨a, b⟩ := take3_u c hb h good fun g => (hg g).1
        by_cases hk : c.k3 m = none
        · exact .inl (b hk)
        · exact .inr (by simp [VU.succ, a hk])
      by_cases h2 : r = 2
      · subst h2
        obtain ⟨a, b⟩ := take2_u c hb h good fun g => (hg g).2.1
        by_cases hk : c.k2 m = none
        · exact .inl (b hk)
        · exact .inr (by simp [VU.succ, a hk])
      by_cases h1 : r = 1
      · subst h1; exact .inl (take1_u c hb h)
      · rw [take0 h1 h2 h3 hb h]
        left
        simp only [Part.view, taken, if_neg (Ne.symm h2), if_neg (Ne.symm h3)]
        cases c <;> rfl

/-- The Modbus component and the self test move along their view. -/
theorem sim_m {rnd : Nat → UInt8} {p q : Prog} {e : Ev} (h : p.step rnd e = .ok q) (good : Bool) (hg : good = true → Good e)
    (hp : mview p ∈ VM.all good) : mview q = mview p ∨ mview q ∈ (mview p).succ good := by
  obtain ⟨s1, s2⟩ := VM.sizes good _ hp
  cases e with
  | main =>
    rcases main_m h with a | a
    · exact .inl a
    · exact .inr (by simp [VM.succ, a])
  | timer =>
    rcases onCtl_m h with a | a
    · exact .inl a
    · exact .inr (by simp [VM.succ, a])
  | client i e => exact .inl (onLink_m (by simp) h)
  | server i e => exact .inl (onLink_m (by simp) h)
  | take r l =>
    cases hb : p.box r with
    | nil => simp [Prog.step, hb] at h; exact .inl (by rw [h])
    | cons m ms =>
      by_cases h3 : r = 3
      · subst h3
        obtain ⟨a, b⟩ := take3_m hb h good fun g => (hg g).1
        by_cases hk : k3 m = none
        · rcases b hk with b | b
          · exact .inl b
          · exact .inr (by simp [VM.succ, b])
        · exact .inr (by simp [VM.succ, a hk])
      by_cases h2 : r = 2
      · subst h2; exact .inl (take2_m hb h)
      by_cases h1 : r = 1
      · subst h1
        obtain ⟨a, b⟩ := take1_m hb h good (fun g => (hg g).2.2) s1 s2
        by_cases hk : k1 m = none
        · exact .inl (b hk)
        · exact .inr (by simp [VM.succ, a hk])
      · rw [take0 h1 h2 h3 hb h]
        left
        simp only [mview, taken, if_neg (Ne.symm h1), if_neg (Ne.symm h3)]

theorem reach_good {rnd : Nat → UInt8} {p : Prog} (h : Reach rnd Good p) :
    (∀ c : Part, c.view p ∈ VU.all true c) ∧ mview p ∈ VM.all true := by
  induction h with
  | boot => exact ⟨fun c => by cases c <;> exact (VU.closed true _).1, (VM.closed true).1⟩
  | step h he hs ih =>
    constructor
    · intro c
      rcases sim_u c hs true (fun _ => he) with a | a
      · rw [a]; exact ih.1 c
      · exact (VU.closed true c).2 _ (ih.1 c) _ a
    · rcases sim_m hs true (fun _ => he) ih.2 with a | a
      · rw [a]; exact ih.2
      · exact (VM.closed true).2 _ ih.2 _ a

theorem reach_any {rnd : Nat → UInt8} {p : Prog} (h : Reach rnd Any p) :
    (∀ c : Part, c.view p ∈ VU.all false c) ∧ mview p ∈ VM.all false := by
  induction h with
  | boot => exact ⟨fun c => by cases c <;> exact (VU.closed false _).1, (VM.closed false).1⟩
  | step h he hs ih =>
    constructor
    · intro c
      rcases sim_u c hs false (fun g => nomatch g) with a | a
      · rw [a]; exact ih.1 c
      · exact (VU.closed false c).2 _ (ih.1 c) _ a
    · rcases sim_m hs false (fun g => nomatch g) ih.2 with a | a
      · rw [a]; exact ih.2
      · exact (VM.closed false).2 _ ih.2 _ a

/-! ## Mailboxes -/

theorem handle_box {rnd : Nat → UInt8} {p q : Prog} {r : Nat} {l : Luck} {m : Msg} (h : p.handle rnd r l m = .ok q) :
    ∃ ms : List Msg, ∀ x, q.box x = p.box x ++ ms.filter fun m => place m.type == some x := by
  have hid : ∃ ms : List Msg, ∀ x, p.box x = p.box x ++ ms.filter fun m => place m.type == some x := ⟨[], fun x => by simp⟩
  unfold Prog.handle at h
  split at h
  · split at h
    · obtain ⟨⟨c, o⟩, _, h2⟩ := Exec.bind_eq_ok.1 h
      injection h2 with h2
      subst h2
      exact ⟨_, fun x => by rw [posts_eq]⟩
    · injection h with h; subst h; exact hid
  · split at h
    · obtain ⟨⟨c, o⟩, _, h2⟩ := Exec.bind_eq_ok.1 h
      injection h2 with h2
      subst h2
      exact ⟨_, fun x => by rw [posts_eq]⟩
    · injection h with h; subst h; exact hid
  · split at h
    · obtain ⟨⟨c, o⟩, _, h2⟩ := Exec.bind_eq_ok.1 h
      injection h2 with h2
      subst h2
      exact ⟨_, fun x => by rw [posts_eq]⟩
    · injection h with h; subst h; exact hid
  · split at h
    · obtain ⟨⟨c, o⟩, _, h2⟩ := Exec.bind_eq_ok.1 h
      injection h2 with h2
      subst h2
      exact ⟨_, fun x => by rw [posts_eq]⟩
    · injection h with h; subst h; exact hid
  · split at h
    · obtain ⟨⟨c, o⟩, _, h2⟩ := Exec.bind_eq_ok.1 h
      injection h2 with h2
      subst h2
      exact ⟨_, fun x => by rw [posts_eq]⟩
    · injection h with h; subst h; exact hid
  · injection h with h; subst h; exact hid

/-- The event takes from the mailbox of reactor `r`. -/
def takes (r : Nat) : Ev → Bool
  | .take x _ => x == r
  | _ => false

/-- Mailboxes are queues: an event takes the oldest message of one mailbox and appends to the mailboxes. -/
theorem box_step {rnd : Nat → UInt8} {p q : Prog} {e : Ev} (h : p.step rnd e = .ok q) : ∃ ms : List Msg, ∀ r,
    q.box r = (if takes r e then (p.box r).tail else p.box r) ++ ms.filter fun m => place m.type == some r := by
  have hp : ∀ (x : Prog) (m : Msg), x.post m = x.posts [m] := fun _ _ => rfl
  cases e with
  | main =>
    simp only [Prog.step, hp] at h
    split at h
    · injection h with h; subst h; exact ⟨_, fun r => by rw [posts_eq]; rfl⟩
    · injection h with h; subst h; exact ⟨_, fun r => by rw [posts_eq]; rfl⟩
    · injection h with h; subst h; exact ⟨[], fun r => by simp [takes]⟩
  | timer =>
    obtain ⟨⟨c, o⟩, _, h2⟩ := Exec.bind_eq_ok.1 h
    injection h2 with h2
    subst h2
    exact ⟨_, fun x => by rw [posts_eq]; rfl⟩
  | client i e =>
    simp only [Prog.step, Prog.onLink] at h
    split at h
    · injection h with h; subst h; exact ⟨[], fun r => by simp [takes]⟩
    · obtain ⟨⟨c, o⟩, _, h2⟩ := Exec.bind_eq_ok.1 h
      injection h2 with h2
      subst h2
      exact ⟨_, fun x => by rw [posts_eq]; rfl⟩
  | server i e =>
    simp only [Prog.step, Prog.onLink] at h
    split at h
    · injection h with h; subst h; exact ⟨[], fun r => by simp [takes]⟩
    · obtain ⟨⟨c, o⟩, _, h2⟩ := Exec.bind_eq_ok.1 h
      injection h2 with h2
      subst h2
      exact ⟨_, fun x => by rw [posts_eq]; rfl⟩
  | take r l =>
    cases hb : p.box r with
    | nil =>
      simp [Prog.step, hb] at h
      subst h
      refine ⟨[], fun x => ?_⟩
      by_cases hx : r = x
      · subst hx; simp [takes, hb]
      · simp [takes, hx]
    | cons m ms =>
      simp only [Prog.step, hb] at h
      obtain ⟨ns, hn⟩ := handle_box h
      refine ⟨ns, fun x => ?_⟩
      rw [hn]
      by_cases hx : r = x
      · subst hx; simp [takes, hb]
      · simp [takes, hx, Ne.symm hx]

/-- A message is in the mailbox of the reactor that it is for. -/
theorem placed {rnd : Nat → UInt8} {ok : Ev → Prop} {p : Prog} (h : Reach rnd ok p) : ∀ r, ∀ m ∈ p.box r, place m.type = some r := by
  induction h with
  | boot => intro r m hm; exact nomatch hm
  | step h he hs ih =>
    obtain ⟨ms, hb⟩ := box_step hs
    intro r m hm
    rw [hb] at hm
    rcases List.mem_append.1 hm with hm | hm
    · split at hm
      · exact ih r m (List.mem_of_mem_tail hm)
      · exact ih r m hm
    · simpa using (List.mem_filter.1 hm).2

/-- A message on which somebody acts is seen in a view. -/
theorem acting_seen {m : Msg} {r : Nat} (h : Acting m = true) (hr : place m.type = some r) :
    (r = 3 ∧ ((∃ c : Part, c.k3 m ≠ none) ∨ k3 m ≠ none)) ∨ (r = 2 ∧ ∃ c : Part, c.k2 m ≠ none) ∨ (r = 1 ∧ k1 m ≠ none) := by
  have key : ∀ m' : Msg, place m'.type = some r → ∀ x, place m'.type = some x → r = x := by
    intro m' h1 x h2
    rw [h1] at h2
    injection h2
  cases m with
  | startReq => exact .inl ⟨key _ hr 3 rfl, .inr (fun h => nomatch h)⟩
  | stopReq => exact .inl ⟨key _ hr 3 rfl, .inr (fun h => nomatch h)⟩
  | modbusInitRsp => exact .inl ⟨key _ hr 3 rfl, .inr (fun h => nomatch h)⟩
  | modbusConfigRsp => exact .inl ⟨key _ hr 3 rfl, .inr (fun h => nomatch h)⟩
  | modbusReleaseRsp => exact nomatch h
  | modbusClientAduRsp _ => exact nomatch h
  | modbusAduReq _ _ _ => exact nomatch h
  | ua u =>
    cases u with
    | transportInitRsp => exact .inl ⟨key _ hr 3 rfl, .inl ⟨.transport, fun h => nomatch h⟩⟩
    | secureChannelInitRsp => exact .inr (.inl ⟨key _ hr 2 rfl, .channel, fun h => nomatch h⟩)
    | serviceInitRsp => exact .inr (.inl ⟨key _ hr 2 rfl, .service, fun h => nomatch h⟩)
    | _ => exact nomatch h
  | out o =>
    cases o with
    | modbusInitReq s c => exact .inr (.inr ⟨key _ hr 1 rfl, fun h => nomatch h⟩)
    | modbusReleaseReq => exact .inr (.inr ⟨key _ hr 1 rfl, fun h => nomatch h⟩)
    | modbusConfigReq _ => exact .inr (.inr ⟨key _ hr 1 rfl, fun h => nomatch h⟩)
    | modbusClientAduReq _ => exact nomatch h
    | modbusAduRsp _ _ _ => exact nomatch h
    | uaTransportInitReq => exact .inr (.inl ⟨key _ hr 2 rfl, .transport, fun h => nomatch h⟩)
    | uaTransportReleaseReq => exact .inr (.inl ⟨key _ hr 2 rfl, .transport, fun h => nomatch h⟩)
    | uaTransportConfigReq _ => exact .inr (.inl ⟨key _ hr 2 rfl, .transport, fun h => nomatch h⟩)
    | uaSecureChannelInitReq => exact .inr (.inl ⟨key _ hr 2 rfl, .channel, fun h => nomatch h⟩)
    | uaSecureChannelReleaseReq => exact .inr (.inl ⟨key _ hr 2 rfl, .channel, fun h => nomatch h⟩)
    | uaSecureChannelConfigReq => exact .inr (.inl ⟨key _ hr 2 rfl, .channel, fun h => nomatch h⟩)
    | uaServiceInitReq => exact .inr (.inl ⟨key _ hr 2 rfl, .service, fun h => nomatch h⟩)
    | uaServiceReleaseReq => exact .inr (.inl ⟨key _ hr 2 rfl, .service, fun h => nomatch h⟩)
    | uaServiceConfigReq => exact .inr (.inl ⟨key _ hr 2 rfl, .service, fun h => nomatch h⟩)

/-- When nothing is pending the views are empty. -/
theorem settled_u (c : Part) {p : Prog} (h : Settled p) : (c.view p).p2 = [] ∧ (c.view p).p3 = [] := by
  have k2s : ∀ m, Acting m = false → c.k2 m = none := by
    intro m hm
    cases m with
    | out o => cases o <;> first | (cases hm; done) | (cases c <;> rfl)
    | ua u => cases u <;> first | (cases hm; done) | (cases c <;> rfl)
    | _ => first | (cases hm; done) | (cases c <;> rfl)
  have k3s : ∀ m, Acting m = false → c.k3 m = none := by
    intro m hm
    cases m with
    | out o => cases o <;> first | (cases hm; done) | (cases c <;> rfl)
    | ua u => cases u <;> first | (cases hm; done) | (cases c <;> rfl)
    | _ => first | (cases hm; done) | (cases c <;> rfl)
  exact ⟨List.filterMap_eq_nil_iff.2 fun m hm => k2s m (h 2 m hm), List.filterMap_eq_nil_iff.2 fun m hm => k3s m (h 3 m hm)⟩

theorem settled_m {p : Prog} (h : Settled p) : (mview p).p1 = [] ∧ (mview p).p3 = [] := by
  have k1s : ∀ m, Acting m = false → k1 m = none := by
    intro m hm
    cases m with
    | out o => cases o <;> first | (cases hm; done) | rfl
    | _ => first | (cases hm; done) | rfl
  have k3s : ∀ m, Acting m = false → k3 m = none := by
    intro m hm
    cases m with
    | out o => cases o <;> first | (cases hm; done) | rfl
    | _ => first | (cases hm; done) | rfl
  exact ⟨List.filterMap_eq_nil_iff.2 fun m hm => k1s m (h 1 m hm), List.filterMap_eq_nil_iff.2 fun m hm => k3s m (h 3 m hm)⟩

/-! ## Ranks -/

namespace VU

/-- How many messages can still be taken. -/
def rank (c : Part) : Nat → VU → Nat
  | 0, _ => 0
  | n + 1, v => ((v.pop3 true ++ v.pop2 true c).map fun w => rank c n w + 1).foldl max 0

end VU

namespace VM

/-- Running or paused is the same here. -/
def norm (v : VM) : VM := if v.test = some .setup then { v with test := some .run } else v

/-- How many messages can still be taken. -/
def rank : Nat → VM → Nat
  | 0, _ => 0
  | n + 1, v =>
    let v : VM := v.norm
    ((v.pop3 true ++ v.pop1 true ++
      (if v.test = some .run then [({ v with test := some .init, p1 := v.p1 ++ [.release] } : VM)] else [])).map fun w => rank n w + 1).foldl max 0

end VM

theorem VU.ranked (c : Part) : ∀ v ∈ all true c, v.sent ≤ 2 ∧ (∀ w ∈ v.main, v.sent < w.sent) ∧
    ∀ w ∈ v.pop3 true ++ v.pop2 true c, w.sent = v.sent ∧ rank c 24 w < rank c 24 v := by
  cases c <;> decide +kernel

theorem VM.ranked : ∀ v ∈ all true, v.sent ≤ 2 ∧ (∀ w ∈ v.main, v.sent < w.sent) ∧
    (∀ w ∈ v.pop3 true ++ v.pop1 true, w.sent = v.sent ∧ rank 24 w < rank 24 v) ∧
    ∀ w ∈ v.drift, w.sent = v.sent ∧ rank 24 w ≤ rank 24 v := by
  decide +kernel

/-! ## What the views say about settled states -/

theorem VU.up (c : Part) : ∀ v ∈ all true c, v.sent = 1 → v.p2 = [] → v.p3 = [] →
    v.ua = some .inited ∧ v.ear = some (if c = .transport then .hearing else .none) := by
  cases c <;> decide +kernel

theorem VU.down (c : Part) : ∀ v ∈ all false c, v.sent = 2 → v.p2 = [] → v.p3 = [] → v.ua = none ∧ v.ear = none := by
  cases c <;> decide +kernel

theorem VM.up : ∀ v ∈ all true, v.sent = 1 → v.p1 = [] → v.p3 = [] →
    (v.ent = some ⟨1, 1, true, true, false⟩ ∧ (v.test = some .run ∨ v.test = some .setup)) ∨ (v.ent = none ∧ v.test = some .init) := by
  decide +kernel

theorem VM.down : ∀ v ∈ all false, v.sent = 2 → v.p1 = [] → v.p3 = [] → v.test = none := by
  decide +kernel

namespace VM

/-- What can follow once everything has settled after the start. -/
def later : List VM :=
  let i := (all true).filter fun v => v.sent == 1 && v.p1.isEmpty && v.p3.isEmpty
  grow true 24 i i

end VM

theorem VM.later_closed : (∀ v ∈ all true, v.sent = 1 → v.p1 = [] → v.p3 = [] → v ∈ later) ∧
    (∀ v ∈ later, ∀ w ∈ v.succ true, w ∈ later) ∧ (∀ v ∈ later, v ∈ all true) ∧
    ∀ v ∈ later, v.sent = 2 → v.p1 = [] → v.p3 = [] → v.ent = none := by
  decide +kernel

theorem VU.stuck : ∀ v ∈ all false .transport, v.ear = some .deaf →
    (∀ w ∈ v.succ false .transport, w.ear = some .deaf) ∧ (v.sent = 2 → v.p2 ≠ [] ∨ v.p3 ≠ []) := by
  decide +kernel

theorem VU.lucky (c : Part) : ∀ v ∈ all true c, v.ear ≠ some .deaf ∧ (v.p3.head? = some .stop → v.ua ≠ none) := by
  cases c <;> decide +kernel

theorem VM.lucky : ∀ v ∈ all true, (∀ x ∈ v.ent, x.deaf = false) ∧ (v.p3.head? = some .stop → v.test ≠ none) := by
  decide +kernel

/-! ## C83 -/

/-- Once the start request has been sent and nothing that starts something is pending, the OPC UA server listens and the self test has
its client and its listening server, or has failed and released them. -/
theorem C83_up {rnd : Nat → UInt8} {p : Prog} (h : Reach rnd Good p) (hs : p.sent = 1) (hq : Settled p) :
    UaUp p ∧ p.ctl.ua = some .inited ∧ (ModbusUp p ∨ (p.mod = none ∧ ∃ t, p.ctl.modbus = some t ∧ t.st = .init)) := by
  obtain ⟨hu, hm⟩ := reach_good h
  have u := fun c => VU.up c _ (hu c) hs (settled_u c hq).1 (settled_u c hq).2
  have m := VM.up _ hm hs (settled_m hq).1 (settled_m hq).2
  refine ⟨⟨?_, ?_, (u .transport).2⟩, (u .transport).1, ?_⟩
  · have := (u .channel).2
    simp only [Part.view, Part.ear] at this
    cases hc : p.chan with
    | none => simp [hc] at this
    | some x => rfl
  · have := (u .service).2
    simp only [Part.view, Part.ear] at this
    cases hc : p.service with
    | none => simp [hc] at this
    | some x => rfl
  · have ht : ∀ s, (mview p).test = some s → ∃ t, p.ctl.modbus = some t ∧ t.st = s := by
      intro s hs
      simpa [mview] using hs
    rcases m with ⟨a, b⟩ | ⟨a, b⟩
    · left
      obtain ⟨d, hd, hc⟩ : ∃ d, p.mod = some d ∧ cls d = ⟨1, 1, true, true, false⟩ := by simpa [mview] using a
      simp only [cls, Cls.mk.injEq] at hc
      refine ⟨⟨d, hd, hc⟩, ?_⟩
      rcases b with b | b
      · obtain ⟨t, h1, h2⟩ := ht _ b; exact ⟨t, h1, .inl h2⟩
      · obtain ⟨t, h1, h2⟩ := ht _ b; exact ⟨t, h1, .inr h2⟩
    · exact .inr ⟨by simpa [mview] using a, ht _ b⟩

/-- Once the stop request has been sent and nothing that stops something is pending, the OPC UA server is gone, and the controller
has dropped both its parts. -/
theorem C83_down {rnd : Nat → UInt8} {p : Prog} (h : Reach rnd Any p) (hs : p.sent = 2) (hq : Settled p) :
    UaDown p ∧ p.ctl.ua = none ∧ p.ctl.modbus = none := by
  obtain ⟨hu, hm⟩ := reach_any h
  have u := fun c => VU.down c _ (hu c) hs (settled_u c hq).1 (settled_u c hq).2
  have m := VM.down _ hm hs (settled_m hq).1 (settled_m hq).2
  refine ⟨⟨?_, ?_, (u .transport).2⟩, (u .transport).1, ?_⟩
  · simpa [Part.view, Part.ear] using (u .channel).2
  · simpa [Part.view, Part.ear] using (u .service).2
  · simpa [mview] using m

/-- Histories from one state to another, in which every event satisfies `ok`. -/
inductive Path (rnd : Nat → UInt8) (ok : Ev → Prop) (p : Prog) : Prog → Prop
  | here : Path rnd ok p p
  | step {q r : Prog} {e : Ev} (h : Path rnd ok p q) (he : ok e) (hs : q.step rnd e = .ok r) : Path rnd ok p r

theorem Path.reach {rnd : Nat → UInt8} {ok : Ev → Prop} {p q : Prog} (h : Path rnd ok p q) (hp : Reach rnd ok p) : Reach rnd ok q := by
  induction h with
  | here => exact hp
  | step _ he hs ih => exact .step ih he hs

/-- If the stop request is sent when the start has settled, the Modbus client and server are gone as well in the end. -/
theorem C83_down_modbus_partial {rnd : Nat → UInt8} {p q : Prog} (h : Reach rnd Good p) (hs : p.sent = 1) (hq : Settled p)
    (hp : Path rnd Good p q) (hs' : q.sent = 2) (hq' : Settled q) : q.mod = none := by
  obtain ⟨l1, l2, l3, l4⟩ := VM.later_closed
  have hi : mview q ∈ VM.later := by
    clear hs' hq'
    induction hp with
    | here => exact l1 _ (reach_good h).2 hs (settled_m hq).1 (settled_m hq).2
    | step _ he hs ih =>
      rcases sim_m hs true (fun _ => he) (l3 _ ih) with a | a
      · rw [a]; exact ih
      · exact l2 _ ih _ a
  have := l4 _ hi hs' (settled_m hq').1 (settled_m hq').2
  simpa [mview] using this

/-- If the port of the OPC UA server is taken, the program cannot stop: no continuation ends with everything released, and the
release of the transport, when it is taken, ends the process. -/
theorem C83_port_taken_violated {rnd : Nat → UInt8} {p q : Prog} (h : Reach rnd Any p) (hd : p.transport = some .deaf)
    (hp : Path rnd Any p q) : ¬ (q.sent = 2 ∧ Settled q) ∧
      ∀ l ms, q.box 2 = .out .uaTransportReleaseReq :: ms → q.step rnd (.take 2 l) = .abort := by
  have hq : q.transport = some .deaf := by
    induction hp with
    | here => exact hd
    | step hp' he hs ih =>
      have hr := (reach_any (hp'.reach h)).1 .transport
      rcases sim_u .transport hs false (fun g => nomatch g) with a | a
      · have : (Part.transport.view _).ear = (Part.transport.view _).ear := congrArg VU.ear a
        exact Eq.trans this ih
      · exact (VU.stuck _ hr ih).1 _ a
  have hr := (reach_any (hp.reach h)).1 .transport
  refine ⟨fun ⟨h2, hs⟩ => ?_, fun l ms hb => ?_⟩
  · rcases (VU.stuck _ hr hq).2 h2 with a | a
    · exact a (settled_u .transport hs).1
    · exact a (settled_u .transport hs).2
  · simp only [Prog.step, hb, transport_release, hq, if_true]

/-- With good luck, no message that starts or stops something ends in undefined behaviour, an exception or the end of the process. -/
theorem C83_safe {rnd : Nat → UInt8} {p : Prog} (h : Reach rnd Good p) {r : Nat} {l : Luck} (hl : Good (.take r l)) {m : Msg}
    {ms : List Msg} (hb : p.box r = m :: ms) (hm : Acting m = true) : ∃ q, p.step rnd (.take r l) = .ok q := by
  obtain ⟨hu, hv⟩ := reach_good h
  obtain ⟨v1, v2⟩ := VM.lucky _ hv
  obtain ⟨z1, z2⟩ := VM.sizes true _ hv
  have hdeaf : p.transport ≠ some .deaf := (VU.lucky _ _ (hu .transport)).1
  obtain ⟨g1, g2, g3, g4⟩ := hl
  have hpl := placed h r m (by rw [hb]; simp)
  simp only [Prog.step, hb]
  cases m with
  | startReq =>
    have : r = 3 := by injection hpl.symm
    subst this
    rw [handle3]
    simp only [ctlEv, g1, Prog.onCtl, Ctl.step, if_true, Exec.ok_bind, Exec.pure_eq]
    exact ⟨_, rfl⟩
  | stopReq =>
    have : r = 3 := by injection hpl.symm
    subst this
    rw [handle3]
    have h1 : p.ctl.ua ≠ none := (VU.lucky _ _ (hu .transport)).2 (by simp [Part.view, hb, Part.k3])
    have h2 : (mview p).test ≠ none := v2 (by simp [mview, hb, k3])
    have h3 : p.ctl.modbus ≠ none := by
      intro h
      exact h2 (by simp [mview, h])
    obtain ⟨u, hu⟩ := Option.ne_none_iff_exists'.1 h1
    obtain ⟨t, ht⟩ := Option.ne_none_iff_exists'.1 h3
    simp only [ctlEv, Prog.onCtl, Ctl.step, hu, ht, Exec.ok_bind, Exec.pure_eq]
    exact ⟨_, rfl⟩
  | modbusInitRsp =>
    have : r = 3 := by injection hpl.symm
    subst this
    rw [handle3]
    exact ⟨_, rfl⟩
  | modbusConfigRsp =>
    have : r = 3 := by injection hpl.symm
    subst this
    rw [handle3]
    exact ⟨_, rfl⟩
  | modbusReleaseRsp => exact nomatch hm
  | modbusClientAduRsp _ => exact nomatch hm
  | modbusAduReq _ _ _ => exact nomatch hm
  | ua u =>
    have : r = 2 ∨ r = 3 := by cases u <;> first | (left; injection hpl.symm; done) | (right; injection hpl.symm; done)
    rcases this with rfl | rfl
    · cases u <;> exact ⟨_, rfl⟩
    · rw [handle3]
      cases hc : p.ctl.ua with
      | none => simp only [ctlEv, Prog.onCtl, Ctl.step, hc, Exec.ok_bind, Exec.pure_eq]; exact ⟨_, rfl⟩
      | some x => simp only [ctlEv, Prog.onCtl, Ctl.step, hc, Exec.ok_bind, Exec.pure_eq]; exact ⟨_, rfl⟩
  | out o =>
    have hmod : ∀ d, p.mod = some d → d.numServers = 1 ∧ d.numClients = 1 ∧ d.deaf 0 = false := by
      intro d hd
      have he : (mview p).ent = some (cls d) := by simp [mview, hd]
      exact ⟨(z1 _ (by rw [he]; rfl)).1, (z1 _ (by rw [he]; rfl)).2, v1 (cls d) (by rw [he]; rfl)⟩
    cases o with
    | modbusInitReq s c =>
      have : r = 1 := by injection hpl.symm
      subst this
      rw [handle1]
      simp only [modMsg, Prog.onMod, Components.modbusStep, Components.replace, Components.modbusEntity, Exec.ok_bind]
      cases hd : p.mod with
      | none => exact ⟨_, rfl⟩
      | some d =>
        obtain ⟨a, b, e⟩ := hmod d hd
        simp only [destroy_one a, e]
        exact ⟨_, rfl⟩
    | modbusReleaseReq =>
      have : r = 1 := by injection hpl.symm
      subst this
      rw [handle1]
      simp only [modMsg, Prog.onMod, Components.modbusStep, Components.reset, Components.modbusEntity]
      cases hd : p.mod with
      | none => exact ⟨_, rfl⟩
      | some d =>
        obtain ⟨a, b, e⟩ := hmod d hd
        simp only [destroy_one a, e]
        exact ⟨_, rfl⟩
    | modbusConfigReq items =>
      have : r = 1 := by injection hpl.symm
      subst this
      have hi : items = cfgs := by
        have := z2 (.config items) (by simp [mview, hb, k1])
        simpa using this
      subst hi
      rw [handle1]
      simp only [modMsg, Prog.onMod, Components.modbusStep, Components.guarded, Components.modbusEntity]
      cases hd : p.mod with
      | none => exact ⟨_, rfl⟩
      | some d =>
        obtain ⟨a, b, e⟩ := hmod d hd
        have hi : cfgs.map l.item = [⟨0, .inl l.mem, l.clientRes⟩, ⟨0, .inr l.server, l.serverRes⟩] := rfl
        obtain ⟨c, hc⟩ : ∃ c, (Client.create l.mem).step (.start true) = .ok (c, []) := ⟨_, rfl⟩
        simp [hi, Dispatcher.step, Dispatcher.config, Dispatcher.configLoop, Dispatcher.configItem, a, b, e, g3, g4, hc]
    | modbusClientAduReq _ => exact nomatch hm
    | modbusAduRsp _ _ _ => exact nomatch hm
    | uaTransportInitReq =>
      have : r = 2 := by injection hpl.symm
      subst this
      rw [transport_init, if_neg hdeaf]
      exact ⟨_, rfl⟩
    | uaTransportReleaseReq =>
      have : r = 2 := by injection hpl.symm
      subst this
      rw [transport_release, if_neg hdeaf]
      exact ⟨_, rfl⟩
    | uaTransportConfigReq a =>
      have : r = 2 := by injection hpl.symm
      subst this
      rw [transport_config]
      simp only [g2]
      cases ht : p.transport with
      | none => exact ⟨_, rfl⟩
      | some e => cases e <;> first | exact ⟨_, rfl⟩ | exact absurd ht hdeaf
    | uaSecureChannelInitReq =>
      have : r = 2 := by injection hpl.symm
      subst this
      rw [channel_init]; exact ⟨_, rfl⟩
    | uaSecureChannelReleaseReq =>
      have : r = 2 := by injection hpl.symm
      subst this
      rw [channel_release]; exact ⟨_, rfl⟩
    | uaSecureChannelConfigReq =>
      have : r = 2 := by injection hpl.symm
      subst this
      rw [channel_config]; exact ⟨_, rfl⟩
    | uaServiceInitReq =>
      have : r = 2 := by injection hpl.symm
      subst this
      rw [service_init]; exact ⟨_, rfl⟩
    | uaServiceReleaseReq =>
      have : r = 2 := by injection hpl.symm
      subst this
      rw [service_release]; exact ⟨_, rfl⟩
    | uaServiceConfigReq =>
      have : r = 2 := by injection hpl.symm
      subst this
      rw [service_config]; exact ⟨_, rfl⟩

/-! ## Every fair history settles -/

/-- An infinite history, in which every event satisfies `ok` and the threads of the reactors take messages again and again. -/
structure Fair (rnd : Nat → UInt8) (ok : Ev → Prop) (s : Nat → Prog) (ev : Nat → Ev) : Prop where
  init : s 0 = Program.boot
  good : ∀ n, ok (ev n)
  step : ∀ n, (s n).step rnd (ev n) = .ok (s (n + 1))
  fair : ∀ r, r < 4 → ∀ n, ∃ m, n ≤ m ∧ ∃ l, ev m = .take r l

theorem Fair.reach {rnd : Nat → UInt8} {ok : Ev → Prop} {s : Nat → Prog} {ev : Nat → Ev} (h : Fair rnd ok s ev) (n : Nat) :
    Reach rnd ok (s n) := by
  induction n with
  | zero => rw [h.init]; exact .boot
  | succ n ih => exact .step ih (h.good n) (h.step n)

/-- A falling sequence comes to rest. -/
theorem rests (f : Nat → Nat) (n0 : Nat) (h : ∀ n, n0 ≤ n → f (n + 1) ≤ f n) : ∃ n, n0 ≤ n ∧ ∀ m, n ≤ m → f m = f n := by
  generalize hk : f n0 = k
  induction k using Nat.strongRecOn generalizing n0 with
  | ind k ih =>
    by_cases hc : ∃ m, n0 ≤ m ∧ f m < k
    · obtain ⟨m, hm, hlt⟩ := hc
      obtain ⟨n, h1, h2⟩ := ih _ hlt m (fun n hn => h n (by omega)) rfl
      exact ⟨n, by omega, h2⟩
    · refine ⟨n0, Nat.le_refl _, fun m hm => ?_⟩
      have hle : f m ≤ f n0 := by
        clear hc
        induction m with
        | zero => have : n0 = 0 := by omega
                  rw [this]; exact Nat.le_refl _
        | succ m ihm =>
          by_cases he : n0 = m + 1
          · rw [he]; exact Nat.le_refl _
          · exact Nat.le_trans (h m (by omega)) (ihm (by omega))
      have : ¬ f m < k := fun hlt => hc ⟨m, hm, hlt⟩
      omega

/-- All that can still be taken. -/
def total (p : Prog) : Nat :=
  VU.rank .transport 24 (Part.transport.view p) + VU.rank .channel 24 (Part.channel.view p) +
    VU.rank .service 24 (Part.service.view p) + VM.rank 24 (mview p)

theorem step_rank {rnd : Nat → UInt8} {p q : Prog} {e : Ev} (hr : Reach rnd Good p) (he : Good e) (hs : p.step rnd e = .ok q) :
    p.sent ≤ q.sent ∧ q.sent ≤ 2 ∧ (p.sent = q.sent →
      (∀ c : Part, VU.rank c 24 (c.view q) ≤ VU.rank c 24 (c.view p)) ∧ VM.rank 24 (mview q) ≤ VM.rank 24 (mview p)) := by
  obtain ⟨hu, hm⟩ := reach_good hr
  obtain ⟨hu', hm'⟩ := reach_good (.step hr he hs)
  have u : ∀ c : Part, p.sent ≤ q.sent ∧ (p.sent = q.sent → VU.rank c 24 (c.view q) ≤ VU.rank c 24 (c.view p)) := by
    intro c
    obtain ⟨_, r2, r3⟩ := VU.ranked c _ (hu c)
    have e1 : (c.view p).sent = p.sent := rfl
    have e2 : (c.view q).sent = q.sent := rfl
    rcases sim_u c hs true (fun _ => he) with a | a
    · exact ⟨by rw [← e1, ← e2, a]; exact Nat.le_refl _, fun _ => by rw [a]; exact Nat.le_refl _⟩
    · simp only [VU.succ, List.append_assoc] at a
      rcases List.mem_append.1 a with a | a
      · have := r2 _ a
        exact ⟨by omega, fun h => by omega⟩
      · have := r3 _ a
        exact ⟨by omega, fun _ => by omega⟩
  refine ⟨(u .transport).1, (VM.ranked _ hm').1, fun hq => ⟨fun c => (u c).2 hq, ?_⟩⟩
  obtain ⟨_, r2, r3, r4⟩ := VM.ranked _ hm
  have e1 : (mview p).sent = p.sent := rfl
  have e2 : (mview q).sent = q.sent := rfl
  rcases sim_m hs true (fun _ => he) hm with a | a
  · rw [a]; exact Nat.le_refl _
  · simp only [VM.succ, List.append_assoc] at a
    rcases List.mem_append.1 a with a | a
    · have := r2 _ a; omega
    · rcases List.mem_append.1 a with a | a
      · exact (r4 _ a).2
      · exact Nat.le_of_lt (r3 _ a).2

/-- Taking a message on which somebody acts brings the program forward. -/
theorem take_rank {rnd : Nat → UInt8} {p q : Prog} {r : Nat} {l : Luck} {m : Msg} {ms : List Msg} (hr : Reach rnd Good p)
    (he : Good (.take r l)) (hs : p.step rnd (.take r l) = .ok q) (hb : p.box r = m :: ms) (hm : Acting m = true)
    (hq : p.sent = q.sent) : total q < total p := by
  obtain ⟨hu, hv⟩ := reach_good hr
  obtain ⟨s1, s2⟩ := VM.sizes true _ hv
  obtain ⟨_, _, h3⟩ := step_rank hr he hs
  obtain ⟨ru, rm⟩ := h3 hq
  have fu : (∃ c : Part, VU.rank c 24 (c.view q) < VU.rank c 24 (c.view p)) → total q < total p := by
    intro ⟨c, hc⟩
    have := ru .transport
    have := ru .channel
    have := ru .service
    unfold total
    cases c <;> omega
  have fm : VM.rank 24 (mview q) < VM.rank 24 (mview p) → total q < total p := by
    intro hc
    have := ru .transport
    have := ru .channel
    have := ru .service
    unfold total
    omega
  rcases acting_seen hm (placed hr r m (by rw [hb]; simp)) with ⟨rfl, ⟨c, hc⟩ | hc⟩ | ⟨rfl, c, hc⟩ | ⟨rfl, hc⟩
  · exact fu ⟨c, ((VU.ranked c _ (hu c)).2.2 _ (List.mem_append_left _ ((take3_u c hb hs true (fun _ => he.1)).1 hc))).2⟩
  · exact fm ((VM.ranked _ hv).2.2.1 _ (List.mem_append_left _ ((take3_m hb hs true (fun _ => he.1)).1 hc))).2
  · exact fu ⟨c, ((VU.ranked c _ (hu c)).2.2 _ (List.mem_append_right _ ((take2_u c hb hs true (fun _ => he.2.1)).1 hc))).2⟩
  · exact fm ((VM.ranked _ hv).2.2.1 _ (List.mem_append_right _ ((take1_m hb hs true (fun _ => he.2.2) s1 s2).1 hc))).2

/-- A message comes to the head of its mailbox and is taken. -/
theorem comes_up {rnd : Nat → UInt8} {s : Nat → Prog} {ev : Nat → Ev} (h : Fair rnd Good s ev) {r : Nat} (hr : r < 4) (m : Msg) :
    ∀ (pre : List Msg) (n : Nat) (post : List Msg), (s n).box r = pre ++ m :: post →
      ∃ k l ms, n ≤ k ∧ ev k = .take r l ∧ (s k).box r = m :: ms := by
  intro pre
  -- the next taking from this mailbox
  have next : ∀ n, ∃ k l, n ≤ k ∧ ev k = .take r l ∧ ∃ new, (s k).box r = (s n).box r ++ new := by
    intro n
    obtain ⟨k, hk, l, hl⟩ := h.fair r hr n
    have : ∀ d n, n + d = k → ∃ k l, n ≤ k ∧ ev k = .take r l ∧ ∃ new, (s k).box r = (s n).box r ++ new := by
      intro d
      induction d with
      | zero => intro n hn; rw [Nat.add_zero] at hn; subst hn; exact ⟨n, l, Nat.le_refl _, hl, [], by simp⟩
      | succ d ih =>
        intro n hn
        by_cases ht : takes r (ev n) = true
        · cases he : ev n with
          | take x l' =>
            rw [he] at ht
            have : x = r := by simpa [takes] using ht
            exact ⟨n, l', Nat.le_refl _, by rw [he, this], [], by simp⟩
          | _ => rw [he] at ht; exact nomatch ht
        · obtain ⟨k', l', h1, h2, new, h3⟩ := ih (n + 1) (by omega)
          obtain ⟨ms, hb⟩ := box_step (h.step n)
          rw [hb r, if_neg ht, List.append_assoc] at h3
          exact ⟨k', l', by omega, h2, _, h3⟩
    obtain ⟨d, hd⟩ := Nat.exists_eq_add_of_le hk
    exact this d n hd.symm
  induction pre with
  | nil =>
    intro n post hb
    obtain ⟨k, l, h1, h2, new, h3⟩ := next n
    exact ⟨k, l, _, h1, h2, by rw [h3, hb]; rfl⟩
  | cons x pre ih =>
    intro n post hb
    obtain ⟨k, l, h1, h2, new, h3⟩ := next n
    obtain ⟨ms, hb'⟩ := box_step (h.step k)
    have := hb' r
    rw [h2, h3, hb] at this
    simp only [takes, beq_self_eq_true, if_true, List.cons_append, List.tail_cons, List.append_assoc] at this
    obtain ⟨k', l', ms', a, b, c⟩ := ih (k + 1) _ this
    exact ⟨k', l', ms', by omega, b, c⟩

/-- In every fair history with good luck there is a time after which nothing is pending that starts or stops something. -/
theorem C83_settles {rnd : Nat → UInt8} {s : Nat → Prog} {ev : Nat → Ev} (h : Fair rnd Good s ev) :
    ∃ n, ∀ m, n ≤ m → Settled (s m) ∧ (s m).sent = (s n).sent := by
  have st := fun n => step_rank (h.reach n) (h.good n) (h.step n)
  obtain ⟨n0, _, h0⟩ := rests (fun n => 2 - (s n).sent) 0 (fun n _ => by have := (st n).1; show 2 - _ ≤ 2 - _; omega)
  have hsent : ∀ m, n0 ≤ m → (s m).sent = (s n0).sent := by
    intro m hm
    have e : 2 - (s m).sent = 2 - (s n0).sent := h0 m hm
    have bound : ∀ k, (s k).sent ≤ 2 := by
      intro k
      cases k with
      | zero => rw [h.init]; exact Nat.zero_le _
      | succ k => exact (st k).2.1
    have := bound m
    have := bound n0
    omega
  obtain ⟨n1, hn, h1⟩ := rests (fun n => total (s n)) n0 (fun n hn => by
    obtain ⟨a, b⟩ := (st n).2.2 (by rw [hsent n hn, hsent (n + 1) (by omega)])
    have := a .transport
    have := a .channel
    have := a .service
    show total _ ≤ total _
    unfold total
    omega)
  refine ⟨n1, fun m hm => ⟨fun r x hx => ?_, by rw [hsent m (by omega), hsent n1 hn]⟩⟩
  refine Bool.eq_false_iff.2 fun ha => ?_
  have hpl := placed (h.reach m) r x hx
  have hr : r < 4 := by
    rcases acting_seen ha hpl with a | a | a <;> have := a.1 <;> omega
  obtain ⟨pre, post, hb⟩ := List.append_of_mem hx
  obtain ⟨k, l, ms, a, b, c⟩ := comes_up h hr x pre m post hb
  have hst := h.step k
  have hg := h.good k
  rw [b] at hst hg
  have := take_rank (h.reach k) hg hst c ha (by rw [hsent k (by omega), hsent (k + 1) (by omega)])
  have e1 : total (s k) = total (s n1) := h1 k (by omega)
  have e2 : total (s (k + 1)) = total (s n1) := h1 (k + 1) (by omega)
  omega

/-- A fair history with good luck in which `main` starts the program, and does not stop it, comes to a time after which the OPC UA
server is up for ever. -/
theorem C83_comes_up {rnd : Nat → UInt8} {s : Nat → Prog} {ev : Nat → Ev} (h : Fair rnd Good s ev) (h1 : ∃ n, (s n).sent = 1)
    (h2 : ∀ n, (s n).sent ≠ 2) :
    ∃ n, ∀ m, n ≤ m → UaUp (s m) ∧ (ModbusUp (s m) ∨ ((s m).mod = none ∧ ∃ t, (s m).ctl.modbus = some t ∧ t.st = .init)) := by
  obtain ⟨n, hn⟩ := C83_settles h
  have st := fun n => step_rank (h.reach n) (h.good n) (h.step n)
  obtain ⟨k, hk⟩ := h1
  have up : ∀ d, 1 ≤ (s (k + d)).sent := by
    intro d
    induction d with
    | zero => rw [Nat.add_zero, hk]; exact Nat.le_refl _
    | succ d ih => have := (st (k + d)).1; rw [← Nat.add_assoc]; omega
  refine ⟨n + k, fun m hm => ?_⟩
  obtain ⟨d, hd⟩ := Nat.exists_eq_add_of_le (show k ≤ m by omega)
  have h1 : (s m).sent = 1 := by
    have a := up d
    rw [← hd] at a
    have b : (s m).sent ≤ 2 := by
      cases m with
      | zero => rw [h.init]; exact Nat.zero_le _
      | succ m => exact (st m).2.1
    have := h2 m
    omega
  obtain ⟨a, _, b⟩ := C83_up (h.reach m) h1 (hn m (by omega)).1
  exact ⟨a, b⟩

theorem Reach.any {rnd : Nat → UInt8} {ok : Ev → Prop} {p : Prog} (h : Reach rnd ok p) : Reach rnd Any p := by
  induction h with
  | boot => exact .boot
  | step _ _ hs ih => exact .step ih trivial hs

/-- A fair history with good luck in which `main` has sent both messages comes to a time after which everything of OPC UA is gone for
ever, and both parts of the controller. -/
theorem C83_goes_down {rnd : Nat → UInt8} {s : Nat → Prog} {ev : Nat → Ev} (h : Fair rnd Good s ev) (h2 : ∃ n, (s n).sent = 2) :
    ∃ n, ∀ m, n ≤ m → UaDown (s m) ∧ (s m).ctl.ua = none ∧ (s m).ctl.modbus = none := by
  obtain ⟨n, hn⟩ := C83_settles h
  have st := fun n => step_rank (h.reach n) (h.good n) (h.step n)
  obtain ⟨k, hk⟩ := h2
  have up : ∀ d, (s (k + d)).sent = 2 := by
    intro d
    induction d with
    | zero => exact hk
    | succ d ih => have := (st (k + d)).1; have := (st (k + d)).2.1; rw [← Nat.add_assoc]; omega
  refine ⟨n + k, fun m hm => ?_⟩
  obtain ⟨d, hd⟩ := Nat.exists_eq_add_of_le (show k ≤ m by omega)
  exact C83_down (h.reach m).any (by rw [hd]; exact up d) (hn m (by omega)).1

/-! ## What goes wrong -/

namespace VM

/-- What follows when the stop request comes while the test is being configured. -/
def early : List VM :=
  let i := ((all true).filter fun v => v.p3.head? == some .stop && v.test == some .configure).flatMap (pop3 true)
  grow true 24 i i

end VM

theorem VM.early_closed :
    (∀ v ∈ all true, v.p3.head? = some .stop → v.test = some .configure → ∀ w ∈ v.pop3 true, w ∈ early) ∧
    (∀ v ∈ early, ∀ w ∈ v.succ true, w ∈ early) ∧ (∀ v ∈ early, v ∈ all true) ∧
    ∀ v ∈ early, v.sent = 2 ∧ v.test = none ∧ (v.p1 = [] → v.ent = some ⟨1, 1, true, true, false⟩) := by
  decide +kernel

/-- If the stop request is taken while the self test waits for its configuration, then the controller drops its parts, but the Modbus
client and the listening server stay for ever. -/
theorem C83_stop_early_violated {rnd : Nat → UInt8} {p q r : Prog} {l : Luck} {ms : List Msg} {t : Test} (h : Reach rnd Good p)
    (hl : Good (.take 3 l)) (hb : p.box 3 = .stopReq :: ms) (ht : p.ctl.modbus = some t) (hc : t.st = .configure)
    (hs : p.step rnd (.take 3 l) = .ok q) (hp : Path rnd Good q r) :
    r.ctl.modbus = none ∧ (Settled r → ∃ d, r.mod = some d ∧ (d.servers 0).isSome = true ∧ (d.clients 0).isSome = true ∧
      d.deaf 0 = false) := by
  obtain ⟨l1, l2, l3, l4⟩ := VM.early_closed
  have hq : mview q ∈ VM.early :=
    l1 _ (reach_good h).2 (by simp [mview, hb, k3]) (by simp [mview, ht, hc]) _
      ((take3_m hb hs true (fun _ => hl.1)).1 (fun h => nomatch h))
  have hi : mview r ∈ VM.early := by
    induction hp with
    | here => exact hq
    | step _ he hs ih =>
      rcases sim_m hs true (fun _ => he) (l3 _ ih) with a | a
      · rw [a]; exact ih
      · exact l2 _ ih _ a
  obtain ⟨_, a2, a3⟩ := l4 _ hi
  refine ⟨by simpa [mview] using a2, fun hset => ?_⟩
  obtain ⟨d, hd, hx⟩ : ∃ d, r.mod = some d ∧ cls d = ⟨1, 1, true, true, false⟩ := by simpa [mview] using a3 (settled_m hset).1
  simp only [cls, Cls.mk.injEq] at hx
  exact ⟨d, hd, hx.2.2⟩

theorem VU.unconfigured : (∀ v ∈ all false .channel, K.config ∉ v.p2) ∧ ∀ v ∈ all false .service, K.config ∉ v.p2 := by
  decide +kernel

/-- The secure channel and the service never get their configuration request: the answers to their init requests are addressed to
the wrong component (`C05_answers_violated`). -/
theorem C83_config_lost_violated {rnd : Nat → UInt8} {p : Prog} (h : Reach rnd Any p) :
    .out .uaSecureChannelConfigReq ∉ p.box 2 ∧ .out .uaServiceConfigReq ∉ p.box 2 := by
  have hu := (reach_any h).1
  constructor
  · intro hm
    exact VU.unconfigured.1 _ (hu .channel) (List.mem_filterMap.2 ⟨_, hm, rfl⟩)
  · intro hm
    exact VU.unconfigured.2 _ (hu .service) (List.mem_filterMap.2 ⟨_, hm, rfl⟩)

/-! ## Examples -/

theorem reach_run {rnd : Nat → UInt8} {ok : Ev → Prop} {es : List Ev} {p q : Prog} (hp : Reach rnd ok p) (he : ∀ e ∈ es, ok e)
    (h : run rnd p es = .ok q) : Reach rnd ok q := by
  induction es generalizing p with
  | nil => injection h with h; subst h; exact hp
  | cons e es ih =>
    obtain ⟨p', h1, h2⟩ := Exec.bind_eq_ok.1 h
    exact ih (.step hp (he e (by simp)) h1) (fun e' h' => he e' (List.mem_cons_of_mem _ h')) h2

theorem settled_of {rnd : Nat → UInt8} {ok : Ev → Prop} {p : Prog} (h : Reach rnd ok p)
    (hb : ∀ r < 4, (p.box r).all (fun m => !Acting m) = true) : Settled p := by
  intro r m hm
  refine Bool.eq_false_iff.2 fun ha => ?_
  have hr : r < 4 := by
    rcases acting_seen ha (placed h r m hm) with a | a | a <;> have := a.1 <;> omega
  have := List.all_eq_true.1 (hb r hr) m hm
  simp [ha] at this

theorem run_append {rnd : Nat → UInt8} {p : Prog} (es fs : List Ev) : run rnd p (es ++ fs) = (do
    let q ← run rnd p es
    run rnd q fs) := by
  induction es generalizing p with
  | nil => rfl
  | cons e es ih =>
    show (do let q ← p.step rnd e; run rnd q (es ++ fs)) = (do let q ← (do let q ← p.step rnd e; run rnd q es); run rnd q fs)
    cases p.step rnd e with
    | ok q => exact ih
    | _ => rfl

/-- A history that ends with empty mailboxes goes on for ever, with threads that find nothing. -/
theorem fair_of_run {rnd : Nat → UInt8} {es : List Ev} {p : Prog} (h : run rnd Program.boot es = .ok p) (he : ∀ e ∈ es, Good e)
    (hb : ∀ r < 4, p.box r = []) (l : Luck) (hl : ∀ r, Good (.take r l)) :
    ∃ s ev, Fair rnd Good s ev ∧ ∀ n, es.length ≤ n → s n = p := by
  let s : Nat → Prog := fun n => match run rnd Program.boot (es.take n) with
    | .ok q => q
    | _ => Program.boot
  let ev : Nat → Ev := fun n => if hn : n < es.length then es[n] else .take (n % 4) l
  have hs : ∀ n, run rnd Program.boot (es.take n) = .ok (s n) := by
    intro n
    have := h
    rw [← List.take_append_drop n es, run_append] at this
    obtain ⟨q, h1, _⟩ := Exec.bind_eq_ok.1 this
    show _ = Exec.ok (match run rnd Program.boot (es.take n) with | .ok q => q | _ => Program.boot)
    rw [h1]
  have hlast : ∀ n, es.length ≤ n → s n = p := by
    intro n hn
    have := hs n
    rw [List.take_of_length_le hn, h] at this
    injection this with this
    exact this.symm
  refine ⟨s, ev, ⟨rfl, ?_, ?_, ?_⟩, hlast⟩
  · intro n
    by_cases hn : n < es.length
    · simp only [ev, hn, dif_pos]; exact he _ (List.getElem_mem hn)
    · simp only [ev, hn, dif_neg, not_false_eq_true]; exact hl _
  · intro n
    by_cases hn : n < es.length
    · simp only [ev, hn, dif_pos]
      have := hs (n + 1)
      rw [List.take_succ_eq_append_getElem hn, run_append, hs n] at this
      obtain ⟨q, h1, h2⟩ := Exec.bind_eq_ok.1 this
      injection h1 with h1
      subst h1
      obtain ⟨q, h3, h4⟩ := Exec.bind_eq_ok.1 h2
      injection h4 with h4
      subst h4
      exact h3
    · simp only [ev, hn, dif_neg, not_false_eq_true]
      rw [hlast n (by omega), hlast (n + 1) (by omega)]
      simp [Prog.step, hb (n % 4) (Nat.mod_lt _ (by omega))]
  · intro r hr n
    refine ⟨es.length * 4 + n * 4 + r, by omega, l, ?_⟩
    have : ¬ es.length * 4 + n * 4 + r < es.length := by omega
    simp only [ev, this, dif_neg, not_false_eq_true]
    congr 1
    omega

/-- Good luck. -/
def lucky (m : Mem) (s : Server) : Luck := ⟨true, .ok, m, s, .ok, .ok, true⟩

/-- The start: `main` sends its first message, and all mailboxes are emptied, except for the requests of the test. -/
def startUp (l : Luck) : List Ev :=
  [.main, .take 3 l, .take 1 l, .take 3 l, .take 1 l, .take 3 l, .take 2 l, .take 2 l, .take 2 l, .take 2 l, .take 2 l, .take 3 l,
    .take 2 l]

/-- The stop: `main` sends its second message, and all mailboxes are emptied. -/
def tearDown (l : Luck) : List Ev :=
  [.main, .take 3 l, .take 1 l, .take 1 l, .take 3 l, .take 2 l, .take 2 l, .take 2 l, .take 2 l, .take 2 l, .take 3 l]

/-- A stop while the test waits for its configuration. -/
def hasty (l : Luck) : List Ev :=
  [.main, .take 3 l, .take 1 l, .take 3 l, .main, .take 3 l, .take 1 l, .take 3 l] ++ List.replicate 8 (.take 2 l) ++
    [.take 3 l, .take 3 l, .take 3 l]

theorem lucky_good (m : Mem) (s : Server) (r : Nat) : Good (.take r (lucky m s)) := ⟨rfl, rfl, rfl, rfl⟩

/-- A Modbus server with sessions that have received nothing. -/
def freshServer : Server := Server.create (fun _ => Session.create (fun _ => 0) ⟨0, 0, 0, 0, 0, 0, 0, fun _ => 0, 0⟩) 31 31

def l0 : Luck := lucky (fun _ => 0) freshServer

def noise : Nat → UInt8 := fun n => n.toUInt8

/-- What a history ends in. -/
def ends (es : List Ev) (f : Prog → Bool) : Bool :=
  match run noise Program.boot es with
  | .ok p => f p
  | _ => false

theorem ends_ok {es : List Ev} {f : Prog → Bool} (h : ends es f = true) : ∃ p, run noise Program.boot es = .ok p ∧ f p = true := by
  unfold ends at h
  split at h
  · exact ⟨_, by assumption, h⟩
  · exact nomatch h

def quiet (p : Prog) : Bool := (List.range 4).all fun r => (p.box r).all fun m => !Acting m

theorem quiet_settled {rnd : Nat → UInt8} {ok : Ev → Prop} {p : Prog} (h : Reach rnd ok p) (hq : quiet p = true) : Settled p :=
  settled_of h fun r hr => List.all_eq_true.1 hq r (List.mem_range.2 hr)

theorem good_all {es : List Ev} (h : ∀ e ∈ es, e = .main ∨ ∃ r, e = .take r l0) : ∀ e ∈ es, Good e := by
  intro e he
  rcases h e he with rfl | ⟨r, rfl⟩
  · trivial
  · exact lucky_good _ _ r

/-- `C83_up` at work: after the start everything is there. -/
example : ∃ p, Reach noise Good p ∧ p.sent = 1 ∧ Settled p ∧ UaUp p ∧ p.ctl.ua = some .inited ∧ ModbusUp p := by
  obtain ⟨p, h1, h2⟩ := ends_ok (es := startUp l0) (f := fun p => p.sent == 1 && quiet p && p.mod.isSome) (by decide +kernel)
  simp only [Bool.and_eq_true, beq_iff_eq] at h2
  have hr := reach_run .boot (good_all (by simp [startUp])) h1
  have hs := quiet_settled hr h2.1.2
  obtain ⟨a, b, c | ⟨c, _⟩⟩ := C83_up hr h2.1.1 hs
  · exact ⟨p, hr, h2.1.1, hs, a, b, c⟩
  · rw [c] at h2; exact absurd h2.2 (by simp)

/-- `C83_down` and `C83_down_modbus_partial` at work. -/
example : ∃ p q, Reach noise Good p ∧ p.sent = 1 ∧ Settled p ∧ Path noise Good p q ∧ q.sent = 2 ∧ Settled q ∧ UaDown q ∧ q.mod = none := by
  obtain ⟨q, h1, h2⟩ := ends_ok (es := startUp l0 ++ tearDown l0) (f := fun p => p.sent == 2 && quiet p) (by decide +kernel)
  obtain ⟨p, h3, h4⟩ := ends_ok (es := startUp l0) (f := fun p => p.sent == 1 && quiet p) (by decide +kernel)
  simp only [Bool.and_eq_true, beq_iff_eq] at h2 h4
  have hr := reach_run .boot (good_all (by simp [startUp])) h3
  rw [run_append, h3] at h1
  have path : ∀ (es : List Ev) (a b : Prog), (∀ e ∈ es, Good e) → run noise a es = .ok b → Path noise Good p a → Path noise Good p b := by
    intro es
    induction es with
    | nil => intro a b _ h hp; injection h with h; subst h; exact hp
    | cons e es ih =>
      intro a b hg h hp
      obtain ⟨a', x, y⟩ := Exec.bind_eq_ok.1 h
      exact ih a' b (fun e he => hg e (List.mem_cons_of_mem _ he)) y (.step hp (hg e (by simp)) x)
  have hp := path (tearDown l0) p q (good_all (by simp [tearDown])) h1 .here
  have hq := quiet_settled (hp.reach hr) h2.2
  have hs := quiet_settled hr h4.2
  exact ⟨p, q, hr, h4.1, hs, hp, h2.1, hq, (C83_down (hp.reach hr).any h2.1 hq).1, C83_down_modbus_partial hr h4.1 hs hp h2.1 hq⟩

/-- The hasty stop leaves the Modbus client and the server. -/
example : ∃ p, Reach noise Good p ∧ p.sent = 2 ∧ Settled p ∧ UaDown p ∧ p.ctl.modbus = none ∧ p.mod ≠ none := by
  obtain ⟨p, h1, h2⟩ := ends_ok (es := hasty l0) (f := fun p => p.sent == 2 && quiet p && p.mod.isSome) (by decide +kernel)
  simp only [Bool.and_eq_true, beq_iff_eq] at h2
  have hr := reach_run .boot (good_all (by simp [hasty])) h1
  have hs := quiet_settled hr h2.1.2
  obtain ⟨a, _, b⟩ := C83_down hr.any h2.1.1 hs
  refine ⟨p, hr, h2.1.1, hs, a, b, fun h => ?_⟩
  rw [h] at h2
  exact absurd h2.2 (by simp)

/-- The port of the OPC UA server is taken: the stop ends the process. -/
example : ∃ p, Reach noise Any p ∧ p.transport = some .deaf ∧ p.step noise (.take 2 l0) = .abort := by
  let bad : Luck := { l0 with listen := .refused }
  obtain ⟨p, h1, h2⟩ := ends_ok
    (es := [.main, .take 3 l0, .take 2 l0, .take 2 l0, .take 2 l0, .take 2 l0, .take 2 l0, .take 3 l0, .take 2 bad, .main, .take 3 l0,
      .take 2 l0])
    (f := fun p => p.sent == 2 && decide (p.transport = some .deaf) && match p.step noise (.take 2 l0) with
      | .abort => true
      | _ => false) (by decide +kernel)
  simp only [Bool.and_eq_true, beq_iff_eq, decide_eq_true_eq] at h2
  refine ⟨p, reach_run .boot (fun _ _ => trivial) h1, h2.1.2, ?_⟩
  have := h2.2
  split at this
  · assumption
  · exact nomatch this

/-- A fair history that comes up and stays up. -/
example : ∃ s ev, Fair noise Good s ev ∧ (∃ n, (s n).sent = 1) ∧ ∃ n, ∀ m, n ≤ m → UaUp (s m) := by
  let es := startUp l0 ++ [.take 1 l0] ++ List.replicate 16 (.take 3 l0) ++ [.take 1 l0, .take 3 l0] ++ List.replicate 8 (.take 2 l0)
  obtain ⟨p, h1, h2⟩ := ends_ok (es := es) (f := fun p => p.sent == 1 && (List.range 4).all fun r => (p.box r).isEmpty) (by decide +kernel)
  simp only [Bool.and_eq_true, beq_iff_eq] at h2
  obtain ⟨s, ev, hf, hl⟩ := fair_of_run h1 (good_all (by simp [es, startUp]))
    (fun r hr => List.isEmpty_iff.1 (List.all_eq_true.1 h2.2 r (List.mem_range.2 hr))) l0 (lucky_good _ _)
  have h1' : ∃ n, (s n).sent = 1 := ⟨es.length, by rw [hl _ (Nat.le_refl _)]; exact h2.1⟩
  have st := fun n => step_rank (hf.reach n) (hf.good n) (hf.step n)
  have up : ∀ d k, (s k).sent ≤ (s (k + d)).sent := by
    intro d
    induction d with
    | zero => intro k; exact Nat.le_refl _
    | succ d ih => intro k; exact Nat.le_trans (ih k) (st (k + d)).1
  obtain ⟨n, hn⟩ := C83_comes_up hf h1' (fun n h => by
    have a := up es.length n
    have b := hl (n + es.length) (by omega)
    rw [b, h, h2.1] at a
    omega)
  exact ⟨s, ev, hf, h1', n, fun m hm => (hn m hm).1⟩

/-- A fair history that goes down. -/
example : ∃ s ev, Fair noise Good s ev ∧ (∃ n, (s n).sent = 2) ∧ ∃ n, ∀ m, n ≤ m → UaDown (s m) := by
  let es := startUp l0 ++ tearDown l0 ++ List.replicate 16 (.take 3 l0) ++ List.replicate 8 (.take 2 l0)
  obtain ⟨p, h1, h2⟩ := ends_ok (es := es) (f := fun p => p.sent == 2 && (List.range 4).all fun r => (p.box r).isEmpty) (by decide +kernel)
  simp only [Bool.and_eq_true, beq_iff_eq] at h2
  obtain ⟨s, ev, hf, hl⟩ := fair_of_run h1 (good_all (by simp [es, startUp, tearDown]))
    (fun r hr => List.isEmpty_iff.1 (List.all_eq_true.1 h2.2 r (List.mem_range.2 hr))) l0 (lucky_good _ _)
  have h2' : ∃ n, (s n).sent = 2 := ⟨es.length, by rw [hl _ (Nat.le_refl _)]; exact h2.1⟩
  obtain ⟨n, hn⟩ := C83_goes_down hf h2'
  exact ⟨s, ev, hf, h2', n, fun m hm => (hn m hm).1⟩

end Uscada.Program
