import Verif.Base
import Verif.ModbusCodec
/-!
# Log lines (common/logger/Logger.hpp, common/logger/Logger.cpp:59-81, modbus/PduBuffer.hpp:92-100)

A log line is formatted with `sprintf` into an array of 1024 characters on the stack when the level of the line is at least the
level of its task.  Too long a line, or an argument that does not have the type of its conversion, is undefined behaviour.

The conversions `%u`, `%d`, `%zu` and `%s` are modelled, without flags and widths, which no line has.  A `uint16_t` or a
`uint8_t` converted to `int` that is printed with `%u` counts as `unsigned`: it is not negative, and this is allowed.  The
output of the line by `Logger::dispatch` (time, file name and `printf` under a mutex) is not modelled.
-/

namespace Uscada.Log

/-- The characters of a string constant; `chars! "ab"` stands for `['a', 'b']`. -/
macro "chars!" s:str : term => do
  let cs := s.getString.toList.map fun c => Lean.Syntax.mkCharLit c
  `([$(cs.toArray),*])

/-- Logger.hpp:11-22 -/
inductive Task where
  | GEN | CTRL | MODBUS | UATL | UASC | UASRV | UA
deriving DecidableEq, Repr

/-- Logger.hpp:24-31 -/
inductive Level where
  | LD | LI | LW | LE | NA
deriving DecidableEq, Repr

/-- The value of the enumerator (Logger.hpp:24-31). -/
def Level.num : Level → Nat
  | .LD => 0
  | .LI => 1
  | .LW => 2
  | .LE => 3
  | .NA => 4

/-- `Logger::logLevels` -/
abbrev Levels := Task → Level

/-- Logger.cpp:73-76 -/
def Levels.set (l : Levels) (t : Task) (v : Level) : Levels := fun t' => if t' = t then v else l t'

/-- `Logger::Logger` (Logger.cpp:59-65); nothing else in the program sets a level. -/
def initial : Levels := Levels.set (Levels.set (fun _ => .LD) .MODBUS .NA) .CTRL .NA

/-- An argument of `sprintf`. -/
inductive Value where
  /-- `unsigned` -/
  | uint (n : Nat)
  /-- `int` -/
  | int (z : Int)
  /-- `std::size_t` -/
  | size (n : Nat)
  /-- `char const*`, with the characters up to the NUL -/
  | str (s : List Char)
deriving Repr

/-- The decimal digits of `%u` and `%zu`. -/
def decimal (n : Nat) : List Char := Nat.toDigits 10 n

/-- The output of `%d`. -/
def signed (z : Int) : List Char := if z < 0 then '-' :: decimal z.natAbs else decimal z.natAbs

/-- `sprintf` without the terminating NUL: undefined if an argument is missing or of another type; arguments left over are
ignored. -/
def sprintf : List Char → List Value → Exec (List Char)
  | [], _ => .ok []
  | '%' :: 'u' :: f, .uint n :: vs => do return decimal n ++ (← sprintf f vs)
  | '%' :: 'd' :: f, .int z :: vs => do return signed z ++ (← sprintf f vs)
  | '%' :: 'z' :: 'u' :: f, .size n :: vs => do return decimal n ++ (← sprintf f vs)
  | '%' :: 's' :: f, .str s :: vs => do return s ++ (← sprintf f vs)
  | '%' :: _, _ => .ub
  | c :: f, vs => do return c :: (← sprintf f vs)

/-- The characters of the array of a line (Logger.hpp:37). -/
def lineCap : Nat := 1024

/-- The types and possible values of an argument. -/
inductive Kind where
  | uint
  | int
  | size
  /-- one of the strings of a table -/
  | name (table : List (List Char))
  /-- the bytes of a Modbus frame (`PduBuffer::toString`) -/
  | frame
deriving Repr

/-- A use of `LM`. -/
structure Site where
  file : String
  line : Nat
  task : Task
  level : Level
  format : List Char
  args : List Kind
deriving Repr

/-- The macro `LM` (Logger.hpp:33-41): the line handed to `dispatch`, if any. -/
def log (levels : Levels) (s : Site) (vs : List Value) : Exec (Option (List Char)) :=
  if s.level.num ≥ (levels s.task).num then do
    let text ← sprintf s.format vs
    if text.length + 1 ≤ lineCap then return some text else .ub
  else .ok none

/-- A digit of `std::hex`. -/
def hexDigit (n : Nat) : Char := ['0', '1', '2', '3', '4', '5', '6', '7', '8', '9', 'a', 'b', 'c', 'd', 'e', 'f'].getD n '0'

/-- `PduBuffer::toString` (PduBuffer.hpp:92-100) for the received or written bytes: a colon and two digits for each. -/
def frameText (bytes : List UInt8) : List Char :=
  bytes.flatMap fun b => [':', hexDigit (b.toNat / 16), hexDigit (b.toNat % 16)]

/-- The names of the state machines: first arguments of `FsmBase` (UaServerSecureChannel.cpp:12, UaSession.cpp:13,
UaTcpConnection.cpp:12, OpcUaServerSecureChannel.cpp:11, OpcUaClientSecureChannel.cpp:10, ServerConnection.cpp:13,
ClientConnection.cpp:12, UaController.cpp:10). -/
def fsmNames : List (List Char) := [
  chars! "UaServerSecureChannel", chars! "UaSession", chars! "UaTcpConnection", chars! "OpcUaServerSecureChannel",
  chars! "OpcUaClientSecureChannel", chars! "ServerConnection", chars! "OpcUaClientConnection", chars! "UaController"]

/-- The names of the pools (Reactor.cpp:26-28, UaSecureChannel.cpp:9, UaSessionService.cpp:11, UaTcpServer.cpp:10). -/
def poolNames : List (List Char) := [
  chars! "acceptor", chars! "link", chars! "timer", chars! "UaServerSecureChannel", chars! "session",
  chars! "UaTcpConnection"]

/-- `toString(ModbusFunction)` (ModbusFunction.hpp:25-39) -/
def functionNames : List (List Char) := [
  chars! "readCoilStatus", chars! "readDiscreteInputs", chars! "readHoldingRegisters", chars! "readInputRegisters",
  chars! "forceSingleCoil", chars! "presetSingleRegister", chars! "presetMultipleRegisters", chars! "modbusError",
  chars! "Unexpected"]

/-- `toString(ModbusError)` (ModbusError.hpp:42-60) -/
def errorNames : List (List Char) := [
  chars! "noerror", chars! "illegalFunction", chars! "illegalDataAddress", chars! "illegalDataValue",
  chars! "serverDeviceFailure", chars! "acknowledge", chars! "serverDeviceBusy", chars! "negativeAcknowledge",
  chars! "memoryParityError", chars! "gatewayPathUnavailable", chars! "gatewayTargetDeviceFailed", chars! "unexpected"]

/-- `toString(UaSecMsgType)` (UaSecMsgType.hpp:16-26) -/
def secMsgNames : List (List Char) := [
  chars! "opn", chars! "clo", chars! "msg", chars! "invalid"]

/-- What the functions `name` of the states return (one line in the header of each state). -/
def stateNames : List (List Char) := [
  chars! "ClientConnectionConnected", chars! "ClientConnectionConnecting", chars! "ClientConnectionInit",
  chars! "ClientConnectionReceiveAck", chars! "ModbusClientBackoff", chars! "ModbusClientConnect",
  chars! "ModbusClientConnected", chars! "ModbusClientInit", chars! "ModbusClientReceive", chars! "ModbusClientSend",
  chars! "ModbusSessionConnected", chars! "ModbusSessionInit", chars! "ModbusSessionWaitModbusAduRsp",
  chars! "ModbusTestConfigure", chars! "ModbusTestInit", chars! "ModbusTestRun", chars! "ModbusTestSetup",
  chars! "OpcUaClientSecureChannelConnecting", chars! "OpcUaClientSecureChannelEstablished",
  chars! "OpcUaClientSecureChannelInit", chars! "OpcUaClientSecureChannelReceiveOpenRsp",
  chars! "OpcUaServerSecureChannelConnecting", chars! "OpcUaServerSecureChannelEstablished",
  chars! "OpcUaServerSecureChannelInit", chars! "OpcUaServerSecureChannelReceiveOpenReq",
  chars! "ServerConnectionConnected", chars! "ServerConnectionConnecting", chars! "ServerConnectionInit",
  chars! "ServerConnectionReceiveHello", chars! "UaControllerInit", chars! "UaControllerInited",
  chars! "UaServerSecureChannelEstablished", chars! "UaServerSecureChannelInit", chars! "UaSessionActivated",
  chars! "UaSessionCreated", chars! "UaSessionInit", chars! "UaTcpConnectionConnected", chars! "UaTcpConnectionInit",
  chars! "UaTcpConnectionReceiveHello"]

end Uscada.Log
