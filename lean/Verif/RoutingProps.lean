import Verif.Routing
/-!
# C05: messages reach the component they are addressed to, and requesters get their answers
-/

namespace Uscada.Routing

/-- C05 (routing).  For every set of registered components and every message: the message is appended
to the mailbox of the reactor of the component it is addressed to, and no other mailbox and no
registration changes; if that component is not registered nothing changes at all. -/
theorem C05_send_routes {α : Type} (m : Manager α) (t : MsgType) (a : α) :
    (m.send t a).reactorOf = m.reactorOf ∧
    (∀ r, m.reactorOf (dest t) = some r →
      (m.send t a).mailbox r = m.mailbox r ++ [(t, a)] ∧
      ∀ r', r' ≠ r → (m.send t a).mailbox r' = m.mailbox r') ∧
    (m.reactorOf (dest t) = none → (m.send t a).mailbox = m.mailbox) := by
  refine ⟨?_, ?_, ?_⟩
  · unfold Manager.send; split <;> rfl
  · intro r hr
    simp only [Manager.send, hr]
    exact ⟨by simp, fun r' h => by simp [h]⟩
  · intro hn
    simp only [Manager.send, hn]

/-- C05 (registration).  Components registered in any order: the reactor of a component is the one it
was first registered with; a later registration under the same identifier changes nothing. -/
theorem C05_first_registration_wins {α : Type} (regs : List (Comp × Nat)) (m : Manager α) (c : Comp) :
    ((regs.foldl (fun m p => m.addComponent p.1 p.2) m).reactorOf c) =
      ((m.reactorOf c).or ((regs.find? (fun p => p.1 == c)).map Prod.snd)) := by
  induction regs generalizing m with
  | nil => cases h : m.reactorOf c <;> simp [h]
  | cons p regs ih =>
    obtain ⟨c', r⟩ := p
    simp only [List.foldl_cons]
    rw [ih]
    by_cases hc : c' = c
    · subst hc
      cases h : m.reactorOf c' <;> simp [Manager.addComponent, h]
    · have h1 : (m.addComponent c' r).reactorOf c = m.reactorOf c := by
        unfold Manager.addComponent
        split
        · rfl
        · simp [Ne.symm hc]
      have h2 : (c' == c) = false := by simpa using hc
      rw [h1]
      simp [List.find?, h2]

/-- The response types of the two OPC UA layers that are addressed to the wrong component. -/
def misaddressed : List MsgType :=
  [.uaSecureChannelInitRsp, .uaSecureChannelConfigRsp, .uaSecureChannelReleaseRsp,
   .uaServiceInitRsp, .uaServiceConfigRsp, .uaServiceReleaseRsp]

/-- Types no component of the `cpu3` deployment has a handler for. -/
def unhandled : List MsgType := [.connectorInitRsp, .detectorInitReq, .detectorInitRsp]

/-- C05 (delivery, partial).  In the deployment used by `main` every message type except the six
misaddressed responses and the three unused types is handled by a component that registered it and to
which it is addressed. -/
theorem C05_delivery_partial (t : MsgType) (h1 : t ∉ misaddressed) (h2 : t ∉ unhandled) :
    handledBy cpu3 t = some (dest t) ∧ t ∈ registers (dest t) := by
  cases t <;> first
    | exact absurd (by decide) h1
    | exact absurd (by decide) h2
    | decide

/-- Request, response and requester of every request/response exchange between components. -/
def exchanges : List (MsgType × MsgType × Comp) :=
  [(.modbusInitReq, .modbusInitRsp, .controller), (.modbusReleaseReq, .modbusReleaseRsp, .controller),
   (.modbusConfigReq, .modbusConfigRsp, .controller),
   (.modbusClientAduReq, .modbusClientAduRsp, .controller), (.modbusAduReq, .modbusAduRsp, .modbus),
   (.uaTransportInitReq, .uaTransportInitRsp, .controller),
   (.uaTransportReleaseReq, .uaTransportReleaseRsp, .controller),
   (.uaTransportConfigReq, .uaTransportConfigRsp, .controller),
   (.uaSecureChannelInitReq, .uaSecureChannelInitRsp, .controller),
   (.uaSecureChannelReleaseReq, .uaSecureChannelReleaseRsp, .controller),
   (.uaSecureChannelConfigReq, .uaSecureChannelConfigRsp, .controller),
   (.uaServiceInitReq, .uaServiceInitRsp, .controller),
   (.uaServiceReleaseReq, .uaServiceReleaseRsp, .controller),
   (.uaServiceConfigReq, .uaServiceConfigRsp, .controller),
   (.uaOpenSecureChannelReq, .uaOpenSecureChannelRsp, .uaTransport),
   (.uaCloseSecureChannelReq, .uaCloseSecureChannelRsp, .uaTransport)]

/-- C05 (answers, partial).  Every response other than the misaddressed ones is delivered to the
requester. -/
theorem C05_answers_partial (e : MsgType × MsgType × Comp) (he : e ∈ exchanges)
    (h : e.2.1 ∉ misaddressed) : handledBy cpu3 e.2.1 = some e.2.2 := by
  revert h
  revert e
  decide

/-- Violation: each misaddressed response is expected by the controller (it registers a handler) but is
routed to the secure channel component's reactor, where no handler exists, and dropped. -/
theorem C05_answers_violated (t : MsgType) (h : t ∈ misaddressed) :
    t ∈ registers .controller ∧ dest t = .uaSecChannel ∧ handledBy cpu3 t = none := by
  revert h
  revert t
  decide

/-- Non-vacuity: a delivered message type and an exchange that works. -/
example : MsgType.uaSecuredMessageReceiveInd ∉ misaddressed ∧
    MsgType.uaSecuredMessageReceiveInd ∉ unhandled ∧
    (MsgType.modbusAduReq, MsgType.modbusAduRsp, Comp.modbus) ∈ exchanges ∧
    (deploy cpu3 : Manager Unit).reactorOf .uaService = some 2 := by decide

end Uscada.Routing
