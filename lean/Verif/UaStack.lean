import Verif.UaTransport
import Verif.UaSession
/-!
# The OPC UA components together (one reactor with `UaTransport`, `UaSecureChannel`, `UaService`)

Deployer.cpp:31-38 (`cpu3`, the deployment main.cpp:18 asks for) puts the three components on one reactor with one thread,
so they share one mailbox and run one after the other.

* A component sends a message by copying it into the mailbox (Reactor.cpp:109-118); the reactor takes the oldest and calls the
  handler of its component (Reactor.cpp:140-163).  Events of links and timers come at any time between two messages.
* What a component sends is read off the ghost logs: `diff` is what the logs grew by.
* `others` is the number of slots of the mailbox that hold messages of other components (from the controller: init,
  configuration and release requests, which are not part of this model: it starts behind the init requests and ends before
  the release requests).
* A message that does not fit its slot overwrites the length of the next one, or what is stored there next overwrites its end
  (`C03_oversize_message_violated`).  The model ends with `ub` at such a message.
* A handler that throws has sent what it sent before (`SM.settle`).  That the messages behind it wait for the next wake-up
  (`C04_throwing_handler_violated`) is not visible here: the delivery of the oldest message may happen at any time or never.
-/

namespace Uscada.Ua

open Transport (Down TEv)

/-- A message in the mailbox, with the component it is for. -/
inductive Mail where
  | chan (m : CIn)
  | tcp (k : Nat) (m : Down)
  | sess (hdr : MsgHdr) (data : List UInt8)
deriving DecidableEq, Repr

namespace Mail

/-- `size()`: MsgUaOpenSecureChannelReq.hpp, MsgUaCloseSecureChannelReq.hpp, MsgUaSecuredMessageReceiveInd.hpp,
MsgUaOpenSecureChannelRsp.hpp, MsgUaCloseSecureChannelRsp.hpp, MsgUaSecuredMessageSendReq.hpp (24 bytes and the data);
MsgUaEncodedMessageSendReq.hpp, MsgUaEncodedMessageReceiveInd.hpp (`sizeof` is 32 because of the alignment of the virtual table
pointer, although the data begins at 28); MsgUaAssociateSecureChannelReq.hpp (24), MsgUaConnectionReleaseInd.hpp and
MsgUaConnectionReleaseReq.hpp (16). -/
def size : Mail → Nat
  | .chan (.open _ d) => 24 + d.length
  | .chan (.close _ _ d) => 24 + d.length
  | .chan (.message _ _ d) => 24 + d.length
  | .chan (.released _ _) => 16
  | .chan (.associate _) => 24
  | .chan (.send _ d) => 32 + d.length
  | .tcp _ (.openRsp _ _ d) => 24 + d.length
  | .tcp _ (.closeRsp _ _ d) => 24 + d.length
  | .tcp _ (.sendReq _ _ d) => 24 + d.length
  | .tcp _ .releaseReq => 16
  | .sess _ d => 32 + d.length

end Mail

/-- The three components and the mailbox, oldest message first. -/
structure Stack where
  srv : Srv
  chans : Chans
  sess : Sessions
  box : List Mail

namespace Stack

/-- UaTcpConnection.cpp:23-34, 309-347: messages of connection `k` for the secure channel component. -/
def ofTcp (k : Nat) : TAct → Option Mail
  | .up (.open _ _ d) => some (.chan (.open (UInt32.ofNat k) d))
  | .up (.message c _ d) => some (.chan (.message (UInt32.ofNat k) c d))
  | .up (.close c _ d) => some (.chan (.close (UInt32.ofNat k) c d))
  | .up (.released c) => some (.chan (.released (UInt32.ofNat k) c))
  | _ => none

/-- UaServerSecureChannel.cpp:31-37, 80-90, 145-155, 202-213, 244-254: messages of a channel for the transport and the service
component; the chunk type is `F`. -/
def ofChan : CAct → Option Mail
  | .openRsp c ch d => some (.tcp c.toNat (.openRsp ch 0x46 d))
  | .closeRsp c ch d => some (.tcp c.toNat (.closeRsp ch 0x46 d))
  | .sendReq c ch d => some (.tcp c.toNat (.sendReq ch 0x46 d))
  | .releaseReq c => some (.tcp c.toNat .releaseReq)
  | .up h d => some (.sess h d)
  | _ => none

/-- UaSession.cpp:49-55, 66-71, 77-84, 97-103, UaGetEndpoints.cpp:39-44, UaAttributeService.cpp:36-41: messages of a session for the
secure channel component. -/
def ofSess : SAct → Option Mail
  | .answer h d => some (.chan (.send h d))
  | .associate h => some (.chan (.associate h))
  | _ => none

/-- What 33 logs grew by. -/
def diff {α : Type} (old new : Nat → List α) : List α := (List.range 33).flatMap fun k => (new k).drop (old k).length

def sentTcp (s s' : Srv) : List Mail := (List.range 33).flatMap fun k =>
  (((s'.conns k).log).drop (s.conns k).log.length).filterMap (ofTcp k)

def sentChan (s s' : Chans) : List Mail := (diff (fun k => (s.objs k).log) (fun k => (s'.objs k).log)).filterMap ofChan

def sentSess (s s' : Sessions) : List Mail := (diff (fun k => (s.objs k).log) (fun k => (s'.objs k).log)).filterMap ofSess

/-- Reactor.cpp:109-118 with MsgMemStorage.cpp:31-46: 64 slots (Reactor.cpp:23) of `slot` bytes, 8 of which hold the length.  A
message that finds no free slot is dropped. -/
def post (slot others : Nat) (box : List Mail) : List Mail → Exec (List Mail)
  | [] => .ok box
  | m :: ms =>
    if box.length + others < 64 then
      if m.size + 8 ≤ slot then post slot others (box ++ [m]) ms else .ub
    else post slot others box ms

/-- What is undetermined during one step. -/
structure Env where
  others : Nat
  tcp : TEnv
  chan : CEnv
  sess : SEnv

inductive Ev where
  /-- an event of a link or a timer, or a connection to accept -/
  | net (v : TEv)
  /-- the oldest message of the mailbox is delivered -/
  | deliver

def isDown : TEv → Bool
  | .down _ _ => true
  | _ => false

/-- Only links and timers that exist raise events; a message is delivered only if there is one. -/
def Possible (s : Stack) : Ev → Prop
  | .net v => isDown v = false ∧ Transport.Possible s.srv v
  | .deliver => s.box ≠ []

/-- A handler of the transport component runs. -/
def onTcp (slot : Nat) (s : Stack) (e : Env) (v : TEv) : Exec Stack := do
  let srv ← Transport.next s.srv e.tcp v
  let box ← post slot e.others s.box (sentTcp s.srv srv)
  pure { s with srv, box }

/-- A handler of the secure channel component runs. -/
def onChan (slot : Nat) (s : Stack) (e : Env) (m : CIn) : Exec Stack := do
  let chans ← Channel.next s.chans e.chan m
  let box ← post slot e.others s.box (sentChan s.chans chans)
  pure { s with chans, box }

/-- A handler of the service component runs. -/
def onSess (slot : Nat) (s : Stack) (e : Env) (hdr : MsgHdr) (data : List UInt8) : Exec Stack := do
  let sess ← Session.next s.sess ⟨e.sess, hdr, data⟩
  let box ← post slot e.others s.box (sentSess s.sess sess)
  pure { s with sess, box }

/-- Reactor.cpp:140-163 for one message: it is taken out of the mailbox before its handler runs. -/
def deliver (slot : Nat) (s : Stack) (e : Env) : Exec Stack :=
  match s.box with
  | [] => .ok s
  | m :: box =>
    let s := { s with box }
    match m with
    | .chan m => onChan slot s e m
    | .tcp k m => onTcp slot s e (.down k m)
    | .sess hdr data => onSess slot s e hdr data

def stepIn (slot : Nat) (s : Stack) (e : Env) : Ev → Exec Stack
  | .net v => onTcp slot s e v
  | .deliver => deliver slot s e

/-- One event; MaxMsgSize.hpp:6: slots have 4096 bytes. -/
def step (s : Stack) (e : Env) (v : Ev) : Exec Stack := stepIn 4096 s e v

/-- Constructors of the components: UaTransport.cpp:7-10, UaSecureChannel.cpp, UaService.cpp; `m` and `u` are uninitialised memory. -/
def create (m : Nat → Mem) (u : Nat → UInt32 × UInt32) : Exec Stack := do
  let srv ← Srv.create m
  let chans ← Ent.create fun k => Chan.create (u k).1 (u k).2
  let sess ← Ent.create fun _ => Sess.create
  pure { srv, chans, sess, box := [] }

/-- The components after a history. -/
inductive Reach (m : Nat → Mem) (u : Nat → UInt32 × UInt32) : List (Env × Ev) → Stack → Prop
  | create {s : Stack} (h : create m u = .ok s) : Reach m u [] s
  | step {evs : List (Env × Ev)} {s s' : Stack} {e : Env} {v : Ev} (h : Reach m u evs s) (hp : Possible s v)
      (hn : step s e v = .ok s') : Reach m u (evs ++ [(e, v)]) s'

end Stack

end Uscada.Ua
