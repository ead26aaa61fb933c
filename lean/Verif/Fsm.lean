/-!
# State machine transitions

`FsmBase::transit` (common/utils/FsmBase.hpp:22-35) and the identical
`ModbusClientFsm::transit` (modbus/client/ModbusClientFsm.hpp:29-42).

The entry and exit actions are arbitrary programs over the owner's data that may themselves call
`transit` (an entry action notifies the owner, who may close the connection at once) or throw.
-/

namespace Uscada.Fsm

/-- Code of an entry or exit action: it works on the entity data `E`, may call `transit` and continue
depending on the data afterwards, and ends normally or by an exception. -/
inductive Prog (S E : Type) where
  | done (e : E)
  | throw (e : E)
  | transit (e : E) (target : S) (k : E → Prog S E)

/-- Entry and exit actions of every state. -/
structure Machine (S E : Type) where
  onEnter : S → E → Prog S E
  onExit : S → E → Prog S E

/-- What an observer of the actions sees. -/
inductive Event (S : Type) where
  | exit (s : S)
  | enter (s : S)
deriving DecidableEq, Repr

/-- The owner: current state and entity data. -/
structure Cfg (S E : Type) where
  state : S
  data : E

variable {S E : Type}

mutual

/-- Big-step semantics of `transit<target>()`: configuration before, events, configuration after and
whether an exception leaves the call. -/
inductive Transit (M : Machine S E) : Cfg S E → S → List (Event S) → Cfg S E → Bool → Prop where
  /-- FsmBase.hpp:26-30 -/
  | same (c : Cfg S E) : Transit M c c.state [] c false
  /-- FsmBase.hpp:32-34, both actions return -/
  | go {c : Cfg S E} {t : S} {c1 c2 : Cfg S E} {tr1 tr2 : List (Event S)} {x : Bool} :
      t ≠ c.state →
      Run M c (M.onExit c.state c.data) tr1 c1 false →
      Run M ⟨t, c1.data⟩ (M.onEnter t c1.data) tr2 c2 x →
      Transit M c t (.exit c.state :: tr1 ++ .enter t :: tr2) c2 x
  /-- FsmBase.hpp:32, the exit action throws: the state is not changed by this call -/
  | exitThrows {c : Cfg S E} {t : S} {c1 : Cfg S E} {tr1 : List (Event S)} :
      t ≠ c.state →
      Run M c (M.onExit c.state c.data) tr1 c1 true →
      Transit M c t (.exit c.state :: tr1) c1 true

/-- Big-step semantics of an action. -/
inductive Run (M : Machine S E) : Cfg S E → Prog S E → List (Event S) → Cfg S E → Bool → Prop where
  | done (c : Cfg S E) (e : E) : Run M c (.done e) [] ⟨c.state, e⟩ false
  | throw (c : Cfg S E) (e : E) : Run M c (.throw e) [] ⟨c.state, e⟩ true
  | call {c : Cfg S E} {e : E} {t : S} {k : E → Prog S E} {c1 c2 : Cfg S E}
      {tr1 tr2 : List (Event S)} {x : Bool} :
      Transit M ⟨c.state, e⟩ t tr1 c1 false →
      Run M c1 (k c1.data) tr2 c2 x →
      Run M c (.transit e t k) (tr1 ++ tr2) c2 x
  | callThrows {c : Cfg S E} {e : E} {t : S} {k : E → Prog S E} {c1 : Cfg S E}
      {tr1 : List (Event S)} :
      Transit M ⟨c.state, e⟩ t tr1 c1 true →
      Run M c (.transit e t k) tr1 c1 true

end

/-- An action that does not call `transit` and does not throw: holds for the exit actions of every
state in the project (they only stop timers and drop the front request). -/
def Prog.Plain : Prog S E → Prop
  | .done _ => True
  | _ => False

end Uscada.Fsm
