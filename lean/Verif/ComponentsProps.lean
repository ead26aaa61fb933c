import Verif.Components
import Verif.ModbusDispatchProps
/-!
# C21: component life cycle
-/

namespace Uscada.Components

variable {E I M O : Type}

/-! ## Specification -/

/-- What a message means for the life cycle. -/
inductive Role where
  | init
  | release
  | other
deriving DecidableEq

def ModbusMsg.role : ModbusMsg I M → Role
  | .initReq _ => .init
  | .releaseReq => .release
  | _ => .other

def TransportMsg.role : TransportMsg I M → Role
  | .initReq _ => .init
  | .releaseReq => .release
  | _ => .other

def ChannelMsg.role : ChannelMsg I M → Role
  | .initReq _ => .init
  | .releaseReq => .release
  | _ => .other

def ServiceMsg.role : ServiceMsg I M → Role
  | .initReq _ => .init
  | .releaseReq => .release
  | _ => .other

/-- The last life-cycle request of a sequence of messages is an init request. -/
def active {K : Type} (role : K → Role) (ks : List K) : Bool :=
  match (ks.map role).reverse.find? (· ≠ .other) with
  | some .init => true
  | _ => false

/-- The component's own responses among some effects. -/
def isOwn : Out O → Bool
  | .entity _ => false
  | _ => true

/-- The history of a component is as the property demands: at every position, an init request has one
init response as its only effect, a release request one release response, and any other message no
response of the component and no effect at all unless the component is active. -/
def Proper {K : Type} (role : K → Role) (tr : List (K × List (Out O))) : Prop :=
  ∀ pre k o post, tr = pre ++ (k, o) :: post →
    match role k with
    | .init => o = [.initRsp]
    | .release => o = [.releaseRsp]
    | .other => o.filter isOwn = [] ∧ (active role (pre.map (·.1)) = false → o = [])

/-! ## Lemmas -/

/-- What each component has to satisfy at one message. -/
def Local {K : Type} (role : K → Role) (step : Option E → K → Exec (Option E × List (Out O))) : Prop :=
  ∀ s k s' o, step s k = .ok (s', o) →
    match role k with
    | .init => o = [.initRsp] ∧ s'.isSome
    | .release => o = [.releaseRsp] ∧ s' = none
    | .other => o.filter isOwn = [] ∧ s'.isSome = s.isSome ∧ (s = none → o = [])

theorem active_append {K : Type} (role : K → Role) (ks : List K) (k : K) :
    active role (ks ++ [k]) = match role k with
      | .init => true
      | .release => false
      | .other => active role ks := by
  unfold active
  cases h : role k <;> simp [h]

theorem proper_of_local {K : Type} {role : K → Role}
    {step : Option E → K → Exec (Option E × List (Out O))} (hl : Local role step) :
    ∀ (ks before : List K) (s s' : Option E) (tr : List (K × List (Out O))),
      s.isSome = active role before → run step s ks = .ok (s', tr) →
      (s'.isSome = active role (before ++ ks) ∧ tr.map (·.1) = ks) ∧
      ∀ pre k o post, tr = pre ++ (k, o) :: post →
        match role k with
        | .init => o = [.initRsp]
        | .release => o = [.releaseRsp]
        | .other => o.filter isOwn = [] ∧ (active role (before ++ pre.map (·.1)) = false → o = []) := by
  intro ks
  induction ks with
  | nil =>
    intro before s s' tr hs h
    cases h
    exact ⟨⟨by simpa using hs, rfl⟩, fun pre k o post h => by simp at h⟩
  | cons k ks ih =>
    intro before s s' tr hs h
    obtain ⟨⟨s1, o1⟩, h1, h⟩ := Exec.bind_eq_ok.1 h
    obtain ⟨⟨s2, o2⟩, h2, h⟩ := Exec.bind_eq_ok.1 h
    cases h
    have hk := hl s k s1 o1 h1
    have hact : s1.isSome = active role (before ++ [k]) := by
      rw [active_append]
      cases hr : role k <;> simp only [hr] at hk ⊢
      · exact hk.2
      · simp [hk.2]
      · rw [hk.2.1, hs]
    obtain ⟨⟨k1, k2⟩, k3⟩ := ih (before ++ [k]) s1 s' o2 hact h2
    refine ⟨⟨by simpa using k1, by simp [k2]⟩, ?_⟩
    intro pre k' o post he
    cases pre with
    | nil =>
      simp only [List.nil_append, List.cons.injEq, Prod.mk.injEq] at he
      obtain ⟨⟨rfl, rfl⟩, _⟩ := he
      cases hr : role k <;> simp only [hr] at hk ⊢
      · exact hk.1
      · exact hk.1
      · refine ⟨hk.1, fun ha => hk.2.2 ?_⟩
        rw [List.map_nil, List.append_nil, ← hs] at ha
        simpa using ha
    | cons x pre =>
      simp only [List.cons_append, List.cons.injEq] at he
      obtain ⟨rfl, he⟩ := he
      have := k3 pre k' o post he
      simpa using this

theorem replace_some {en : Entity E I M O} {s s' : Option E} {i : I} (h : replace en s i = .ok s') :
    s'.isSome := by
  unfold replace at h
  obtain ⟨e, _, h⟩ := Exec.bind_eq_ok.1 h
  split at h
  · cases h; rfl
  · obtain ⟨_, _, h⟩ := Exec.bind_eq_ok.1 h
    cases h; rfl

theorem reset_none {en : Entity E I M O} {s s' : Option E} (h : reset en s = .ok s') : s' = none := by
  unfold reset at h
  split at h
  · cases h; rfl
  · obtain ⟨_, _, h⟩ := Exec.bind_eq_ok.1 h
    cases h; rfl

theorem guarded_spec {en : Entity E I M O} {s s' : Option E} {m : M} {o : List (Out O)}
    (h : guarded en s m = .ok (s', o)) :
    o.filter isOwn = [] ∧ s'.isSome = s.isSome ∧ (s = none → o = []) := by
  unfold guarded at h
  split at h
  · cases h; simp
  · obtain ⟨⟨e, o'⟩, _, h⟩ := Exec.bind_eq_ok.1 h
    cases h
    refine ⟨?_, rfl, by simp⟩
    simp [List.filter_eq_nil_iff, isOwn]

theorem init_spec {en : Entity E I M O} {s s' : Option E} {i : I} {o : List (Out O)}
    (h : (do let s ← replace en s i; pure (s, [Out.initRsp])) = Exec.ok (s', o)) :
    o = [.initRsp] ∧ s'.isSome := by
  obtain ⟨s1, h1, h⟩ := Exec.bind_eq_ok.1 h
  cases h
  exact ⟨rfl, replace_some h1⟩

theorem release_spec {en : Entity E I M O} {s s' : Option E} {o : List (Out O)}
    (h : (do let s ← reset en s; pure (s, [Out.releaseRsp])) = Exec.ok (s', o)) :
    o = [.releaseRsp] ∧ s' = none := by
  obtain ⟨s1, h1, h⟩ := Exec.bind_eq_ok.1 h
  cases h
  exact ⟨rfl, reset_none h1⟩

/-! ## C21 -/

/-- C21 for the Modbus component (partial: for histories in which no constructor throws and nothing
terminates the process, see `C21_release_terminates_violated`).  For every entity behaviour and every
sequence of messages, every init and release request is answered by exactly one response of its kind
and nothing else, the entity exists exactly after an init without later release, and all other
messages received while it does not exist have no effect. -/
theorem C21_modbus_partial (en : Entity E I M O) (ks : List (ModbusMsg I M)) (s : Option E)
    (tr : List (ModbusMsg I M × List (Out O))) (h : run (modbusStep en) none ks = .ok (s, tr)) :
    tr.map (·.1) = ks ∧ s.isSome = active ModbusMsg.role ks ∧ Proper ModbusMsg.role tr := by
  have hl : Local ModbusMsg.role (modbusStep en) := by
    intro s k s' o h
    cases k with
    | initReq i => exact init_spec h
    | releaseReq => exact release_spec h
    | _ => exact guarded_spec h
  have := proper_of_local hl ks [] none s tr rfl h
  exact ⟨this.1.2, this.1.1, this.2⟩

/-- C21 for the OPC UA transport component; see `C21_modbus_partial`. -/
theorem C21_transport_partial (en : Entity E I M O) (ks : List (TransportMsg I M)) (s : Option E)
    (tr : List (TransportMsg I M × List (Out O))) (h : run (transportStep en) none ks = .ok (s, tr)) :
    tr.map (·.1) = ks ∧ s.isSome = active TransportMsg.role ks ∧ Proper TransportMsg.role tr := by
  have hl : Local TransportMsg.role (transportStep en) := by
    intro s k s' o h
    cases k with
    | initReq i => exact init_spec h
    | releaseReq => exact release_spec h
    | _ => exact guarded_spec h
  have := proper_of_local hl ks [] none s tr rfl h
  exact ⟨this.1.2, this.1.1, this.2⟩

/-- C21 for the OPC UA secure channel component; see `C21_modbus_partial`. -/
theorem C21_channel_partial (en : Entity E I M O) (ks : List (ChannelMsg I M)) (s : Option E)
    (tr : List (ChannelMsg I M × List (Out O))) (h : run (channelStep en) none ks = .ok (s, tr)) :
    tr.map (·.1) = ks ∧ s.isSome = active ChannelMsg.role ks ∧ Proper ChannelMsg.role tr := by
  have hl : Local ChannelMsg.role (channelStep en) := by
    intro s k s' o h
    cases k with
    | initReq i => exact init_spec h
    | releaseReq => exact release_spec h
    | _ => exact guarded_spec h
  have := proper_of_local hl ks [] none s tr rfl h
  exact ⟨this.1.2, this.1.1, this.2⟩

/-- C21 for the OPC UA service component; see `C21_modbus_partial`. -/
theorem C21_service_partial (en : Entity E I M O) (ks : List (ServiceMsg I M)) (s : Option E)
    (tr : List (ServiceMsg I M × List (Out O))) (h : run (serviceStep en) none ks = .ok (s, tr)) :
    tr.map (·.1) = ks ∧ s.isSome = active ServiceMsg.role ks ∧ Proper ServiceMsg.role tr := by
  have hl : Local ServiceMsg.role (serviceStep en) := by
    intro s k s' o h
    cases k with
    | initReq i => exact init_spec h
    | releaseReq => exact release_spec h
    | _ => exact guarded_spec h
  have := proper_of_local hl ks [] none s tr rfl h
  exact ⟨this.1.2, this.1.1, this.2⟩

/-! ## Examples and violations -/

open Modbus.Dispatcher (cfgClient req errorFor cfgDeaf)

/-- Per message: init responses, release responses, answers with an error. -/
def observe (ks : List (ModbusMsg (Nat × Nat) Modbus.Dispatcher.Ev)) : Option (List (List Nat)) :=
  match run (modbusStep modbusEntity) none ks with
  | .ok (_, tr) => some (tr.map fun x => x.2.map fun
      | .initRsp => 0
      | .releaseRsp => 1
      | .entity (.reject _) => 2
      | .entity (.cfgRsp _) => 3
      | .entity _ => 4)
  | _ => none

/-- Non-vacuity: requests before the first init and after the release are ignored, in between they are
answered. -/
example : observe [.clientAduReq (.batch [req 1 1]), .initReq (1, 2), .configReq (.config [cfgClient 1]),
      .clientAduReq (.batch [req 0 5]), .releaseReq, .clientAduReq (.batch [req 0 6]), .releaseReq] =
    some [[], [0], [3], [2], [1], [], [1]] := by
  decide +kernel

/-- Violation of C21: after a failed attempt to configure a server, the release request terminates the
process instead of being answered. -/
theorem C21_release_terminates_violated :
    (run (modbusStep modbusEntity) none [.initReq (1, 2), .configReq (.config [cfgDeaf]), .releaseReq]
      matches .abort) = true := by
  decide +kernel

end Uscada.Components
