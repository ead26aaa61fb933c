import Verif.ModbusCodecLemmas
import Verif.AduStorage
/-!
# The Modbus client (modbus/client/ModbusClient*.cpp)

One client entity with its state machine.  The pending-request store is represented by the list of
pending requests; `Verif.AduStorageProps` proves that the store behaves like that list.  The link and
the timer are represented by "open" and "armed"; what the operating system does (bytes that arrive,
results of `connect` and `write`, timer expirations) is chosen by the events.

An exception thrown by `Link::connect` is caught by the reactor loop (Reactor.cpp:165-178), which goes
on with the state left behind; `connect` is the last action of the handlers that call it, so the
state left behind is the state after the handler with a closed link.
-/

namespace Uscada.Modbus

open AduStorage (Pending pendingOf)

/-- The classes derived from `ModbusClientState` (modbus/client/ModbusClientState.hpp). -/
inductive CSt where
  | init
  | connect
  | connected
  | send
  | receive
  | backoff
deriving DecidableEq, Repr

/-- `Status`, modbus/client/ModbusClient.hpp:20-26 -/
inductive Status where
  | noerror
  | done
  | error
  | codecError
deriving DecidableEq, Repr

/-- `LinkResult` of `Link::receive` (Link.cpp:115-133); `ok []` is end of stream. -/
inductive Rx where
  | ok (bytes : List UInt8)
  | na
  | error
deriving DecidableEq, Repr

/-- `MsgModbusClientAduRsp`, common/msg/MsgModbusClientAduRsp.hpp:15-22 -/
structure CRsp where
  clientId : Nat
  transactId : Nat
  success : Bool
  error : Nat
  data : List UInt8
deriving DecidableEq, Repr

/-- Observable effects of a client. -/
inductive COut where
  /-- message to the component that issued the request -/
  | rsp (r : CRsp)
  /-- bytes handed to the link -/
  | frame (w : List UInt8)
deriving DecidableEq, Repr

/-- modbus/client/ModbusClient.hpp:80-86 -/
structure Client where
  st : CSt
  pending : List Pending
  pdu : PduBuf
  timer : Bool
  opened : Bool

namespace Client

/-- ModbusClient.cpp:14-22, ModbusClientFsm.cpp:8-12.  The buffer array is uninitialised. -/
def create (m : Mem) : Client :=
  { st := .init, pending := [], pdu := PduBuf.fresh m, timer := false, opened := false }

/-- The request structure `aduStorage.front()` refers to; reading past the stored bytes is not
allowed. -/
def reqOfPending (p : Pending) : AduReq :=
  { clientId := p.clientId, transactId := p.transactId, func := p.func, addr := p.addr,
    startItem := p.startItem, numItems := p.numItems, numBytes := p.numBytes,
    data := fun i => p.data.getD i 0, dataCap := p.data.length }

/-- ModbusClient.cpp:198-208 -/
def rspError (clientId transactId : Nat) : COut :=
  .rsp { clientId, transactId, success := false, error := 0, data := [] }

/-- ModbusClient.cpp:220-230 -/
def rspModbusError (clientId transactId err : Nat) : COut :=
  .rsp { clientId, transactId, success := true, error := err, data := [] }

/-- ModbusClient.cpp:175-183 -/
def rspSuccess (clientId transactId : Nat) (d : List UInt8) : COut :=
  .rsp { clientId, transactId, success := true, error := 0, data := d }

/-- ModbusClient.cpp:232-239 -/
def drain (c : Client) : Client × List COut :=
  ({ c with pending := [] }, c.pending.map fun p => rspError p.clientId p.transactId)

/-- A freshly created `AduRespond` (client/AduRespond.hpp:14-24) with zeros in the fields without initialiser; `C92_local` says that they are
never read before they are assigned. -/
def blankRsp : AduRsp :=
  { transactId := 0, func := 0, addr := 0, error := 0, startItem := 0, numItems := 0, numBytes := 0,
    data := fun _ => 0 }

/-- ModbusClient.cpp:49-75.  `sendOk` is the result of `Link::send` on an open link; `m` is what the local buffer contains. -/
def sendIn (m : Mem) (c : Client) (sendOk : Bool) : Exec (Client × List COut × Status) :=
  match c.pending with
  | [] => .ok (c, [], .noerror)
  | p :: ps => do
    let (buf, ok) ← encodeReq (PduBuf.fresh m) (reqOfPending p)
    if ok = false then
      pure ({ c with pending := ps }, [rspError p.clientId p.transactId], .codecError)
    else if c.opened ∧ sendOk then pure (c, [.frame buf.content], .done)
    else pure (c, [], .error)

/-- ModbusClient.cpp:49-75 with zeros in the local buffer; `C92_local` says that its content does not matter. -/
def send (c : Client) (sendOk : Bool) : Exec (Client × List COut × Status) := sendIn (fun _ => 0) c sendOk

theorem send_body (c : Client) (sendOk : Bool) : c.send sendOk =
    (match c.pending with
    | [] => .ok (c, [], .noerror)
    | p :: ps => do
      let (buf, ok) ← encodeReq (PduBuf.fresh fun _ => 0) (reqOfPending p)
      if ok = false then
        pure ({ c with pending := ps }, [rspError p.clientId p.transactId], .codecError)
      else if c.opened ∧ sendOk then pure (c, [.frame buf.content], .done)
      else pure (c, [], .error)) := rfl

/-- ModbusClient.cpp:104-186: the buffer already contains the newly read bytes.  `a0` is what the local response contains. -/
def evaluateIn (a0 : AduRsp) (c : Client) (p : Pending) : Exec (Client × List COut × Status) :=
  if isAduHdrReceived c.pdu = false then .ok (c, [], .noerror)
  else if isAduDataLenValid c.pdu = false then .ok (c, [], .done)
  else if isAduReceived c.pdu = false then .ok (c, [], .noerror)
  else if isAduValid c.pdu = false then .ok (c, [rspError p.clientId p.transactId], .done)
  else do
    let (b, a, ok) ← decodeRsp c.pdu a0
    let c := { c with pdu := b }
    if ok = false then pure (c, [rspError p.clientId p.transactId], .done)
    else if p.transactId ≠ a.transactId then pure (c, [rspError p.clientId p.transactId], .done)
    else if p.addr ≠ a.addr then pure (c, [rspError p.clientId p.transactId], .done)
    else if a.func = fError then
      pure (c, [rspModbusError p.clientId p.transactId a.error], .done)
    else if p.func ≠ a.func then pure (c, [rspError p.clientId p.transactId], .done)
    else
      pure (c, [rspSuccess p.clientId a.transactId (memRead a.data 0 a.numBytes)], .done)

/-- ModbusClient.cpp:104-186 with zeros in the local response. -/
def evaluate (c : Client) (p : Pending) : Exec (Client × List COut × Status) := evaluateIn blankRsp c p

/-- ModbusClient.cpp:82-186.  `rx` is what `read(2)` yields on an open link, at most `capacity()`
bytes. -/
def receive (c : Client) (rx : Rx) : Exec (Client × List COut × Status) :=
  if c.pdu.len > maxAduLen then .ok (c, [], .done)
  else if c.opened = false then .ok (c, [], .error)
  else match rx with
    | .na => .ok (c, [], .noerror)
    | .error => .ok (c, [], .error)
    | .ok bytes =>
      let bytes := bytes.take c.pdu.capacity
      match c.pending with
      | [] => .ok ({ c with pdu := { c.pdu with buf := memWrite c.pdu.buf c.pdu.len bytes } }, [], .done)
      | p :: _ => evaluate { c with pdu := c.pdu.received bytes } p

/-- `onExit` of the states: ModbusClientConnect.cpp:38-41, ModbusClientSend.cpp:68-71,
ModbusClientReceive.cpp:55-59 with ModbusClient.cpp:188-196, ModbusClientBackoff.cpp:25-28. -/
def exit (c : Client) : Client :=
  match c.st with
  | .init | .connected => c
  | .connect | .send | .backoff => { c with timer := false }
  | .receive => { c with timer := false, pending := c.pending.tail }

/-- `onEnter` of the states: ModbusClientConnect.cpp:11-15, ModbusClientSend.cpp:12-15,
ModbusClientReceive.cpp:11-15, ModbusClientBackoff.cpp:10-13.  `connectOk` is whether `Link::connect`
returns; it throws when the link is already open. -/
def enter (c : Client) (connectOk : Bool) : Client :=
  match c.st with
  | .init | .connected => c
  | .connect => { c with timer := true, opened := c.opened || connectOk }
  | .send | .backoff => { c with timer := true }
  | .receive => { c with timer := true, pdu := c.pdu.reset }

/-- ModbusClientFsm.hpp:29-42 -/
def transit (c : Client) (s : CSt) (connectOk : Bool := false) : Client :=
  if c.st = s then c else enter { exit c with st := s } connectOk

/-- The error branches of the data and timer handlers: `provideRspError(); close();
transit<ModbusClientBackoff>()` (ModbusClientConnected.cpp:20-25, ModbusClientSend.cpp:24-29 and 48-53,
ModbusClientReceive.cpp:24-29). -/
def fail (c : Client) : Client × List COut :=
  let (c, o) := c.drain
  (transit { c with opened := false } .backoff, o)

/-- Events reaching a client. -/
inductive Ev where
  /-- `start()`, from the configuration request -/
  | start (connectOk : Bool)
  /-- a request item, from the batched client request -/
  | req (r : CallerReq)
  /-- link events, Link.cpp:140-175 -/
  | connected
  | data (rx : Rx)
  | linkError
  /-- timer expiration; `sendOk`, `connectOk` are the results of the system calls it may lead to -/
  | timer (sendOk connectOk : Bool)
deriving Repr

/-- `onReceiveTransactionReq` of the states: ModbusClientInit.cpp:15-18, ModbusClientConnect.cpp:17-20,
ModbusClientBackoff.cpp:15-18, ModbusClientConnected.cpp:11-14, ModbusClientSend.cpp:17-18, ModbusClientReceive.cpp:17-18. -/
def onReq (c : Client) : Client × List COut :=
  match c.st with
  | .init | .connect | .backoff => c.drain
  | .connected => (c.transit .send, [])
  | .send | .receive => (c, [])

/-- `onConnected` of the states (ModbusClientConnect.cpp:22-25). -/
def onConnected (c : Client) : Client :=
  match c.st with
  | .connect => c.transit .connected
  | _ => c

/-- `onError` of the states (only `ModbusClientConnect` overrides it, ModbusClientConnect.cpp:27-30). -/
def onError (c : Client) : Client :=
  match c.st with
  | .connect => c.transit .backoff
  | _ => c

/-- `onDataReceived` of the states: ModbusClientConnected.cpp:16-26, ModbusClientSend.cpp:20-37,
ModbusClientReceive.cpp:20-46. -/
def onData (c : Client) (rx : Rx) : Exec (Client × List COut) :=
  match c.st with
  | .init | .connect | .backoff => .ok (c, [])
  | .connected | .send => do
    let (c, o, s) ← c.receive rx
    match s with
    | .error => let (c, o') := c.fail; pure (c, o ++ o')
    | _ => pure (c, o)
  | .receive => do
    let (c, o, s) ← c.receive rx
    match s with
    | .error => let (c, o') := c.fail; pure (c, o ++ o')
    | .done => pure (c.transit .send, o)
    | _ => pure (c, o)

/-- `onTimer` of the states (ModbusClientConnect.cpp:32-36, ModbusClientSend.cpp:39-66, ModbusClientReceive.cpp:48-53,
ModbusClientBackoff.cpp:20-23); the expired one-shot timer is no longer armed (Timer.cpp:71-89). -/
def onTimer (c : Client) (sendOk connectOk : Bool) : Exec (Client × List COut) :=
  match c.st with
  | .init | .connected => .ok (c, [])
  | .connect => .ok (transit { c with opened := false } .backoff, [])
  | .send => do
    let (c, o, s) ← c.send sendOk
    match s with
    | .codecError => pure ({ c with timer := true }, o)
    | .error => let (c, o') := c.fail; pure (c, o ++ o')
    | .noerror => pure (c.transit .connected, o)
    | .done => pure (c.transit .receive, o)
  | .receive =>
    let o := match c.pending with
      | [] => []
      | p :: _ => [rspError p.clientId p.transactId]
    .ok (c.transit .send, o)
  | .backoff => .ok (c.transit .connect connectOk, [])

/-- `AduStorage::push` on the list of pending requests. -/
def storePush (l : List Pending) (r : CallerReq) : Exec (List Pending × Bool) :=
  if l.length < AduStorage.capacity ∧ r.numBytes ≤ maxAduLen then
    match r.data with
    | some d => if r.numBytes ≤ d.length then .ok (l ++ [pendingOf r], true) else .ub
    | none => .ok (l ++ [pendingOf r], true)
  else .ok (l, false)

/-- One event: ModbusClient.cpp:241-289; the start is taken in the first state only (ModbusClientInit.cpp:10-13). -/
def step (c : Client) : Ev → Exec (Client × List COut)
  | .start ok =>
    match c.st with
    | .init => .ok (c.transit .connect ok, [])
    | _ => .ok (c, [])
  | .req r => do
    let (l, ok) ← storePush c.pending r
    if ok then pure (onReq { c with pending := l })
    else pure (c, [rspError r.clientId r.transactId])
  | .connected =>
    if c.opened then .ok (c.onConnected, [])
    else .ok (c.onError, [])
  | .data rx => c.onData rx
  | .linkError => .ok (onError { c with opened := false }, [])
  | .timer sendOk connectOk =>
    if c.timer then onTimer { c with timer := false } sendOk connectOk
    else .ok (c, [])

/-- A history: the effects of each event. -/
def run (c : Client) : List Ev → Exec (Client × List (Ev × List COut))
  | [] => .ok (c, [])
  | e :: es => do
    let (c1, o) ← c.step e
    let (c2, os) ← run c1 es
    pure (c2, (e, o) :: os)

end Client

end Uscada.Modbus
