import Verif.UaStackRuns

/-!
# C65: chunks without a request id

UaTcpConnection.cpp:281-356, UaServerSecureChannel.cpp:173-214.  A MSG chunk of less than 12 bytes is accepted by the transport, which reads
the rest of its header from what the chunk before left in the buffer and hands up fewer than 12 bytes, taken from there as well; the channel
reads what is missing of the request id from uninitialised memory.  The answer carries a request id that no client has sent.
-/

namespace Uscada.Ua.Stack

open Transport (chunk)
open Session (bytesOf)

/-- An open request whose sequence number is one less than the letters `http` read as a number, with which the policy of its security
header begins. -/
def forged : List UInt8 := wire ({ (Ua.init : UaSecurityHeader) with securityPolicyUri := ⟨Channel.policyNone⟩ } : UaSecurityHeader) ++
  (wire (⟨0x70747467, 9⟩ : UaSequenceHeader) ++ wire (Cont.make 446 { (Ua.init : UaOpenSecureChannelReq) with
    requestHdr := { (Ua.init : UaRequestHeader) with requestHandle := 4 }, requestLifetime := 3600000 }))

/-- A MSG chunk of 11 bytes. -/
def stub : List UInt8 := [0x4D, 0x53, 0x47, 0x46, 11, 0, 0, 0, 1, 0, 0]

/-- A buffer that an earlier request to create a session, with the request id 0xDDCCBBAA, has left behind. -/
def used : Mem := fun i => ((Channel.msg 0 0xDDCCBBAA (bytesOf Session.createReq))).getD i 0

/-- The same behind the headers. -/
def usedBody : Mem := fun i => (bytesOf Session.createReq).getD i 0

/-- The client connects and opens a channel; the token of the server happens to be 47, the length of the policy.  Then it sends the stub. -/
def forges : List (Env × Ev) := [(calm, .net .accept), (reads helloFrame, .net (.linkData 1)),
  (reads (chunk .opn 0x46 0 forged), .net (.linkData 1)), ({ calm with chan := { calm.chan with token := 47 } }, .deliver), (calm, .deliver),
  (reads stub, .net (.linkData 1)), ({ calm with chan := { calm.chan with mem := used } }, .deliver),
  ({ calm with sess := { calm.sess with mem := usedBody } }, .deliver), (calm, .deliver), (calm, .deliver)]

def forgesLog : Exec (List UInt32 × List UInt32) := do
  let s ← create (fun _ => garbage) Channel.unset
  let s' ← runs s forges
  pure ((s'.srv.conns 1).log.filterMap (asked .msg), (s'.srv.conns 1).log.filterMap (answered .msg))

/-- Against C65, for MSG chunks that are too short: the request id of the answer is not that of a chunk that came. -/
theorem C65_short_violated : ∃ s, Reach (fun _ => garbage) Channel.unset forges s ∧ (s.srv.conns 1).log.filterMap (asked .msg) = [0x2F2F3A] ∧
    (s.srv.conns 1).log.filterMap (answered .msg) = [0xDD2F2F3A] ∧
    ¬((s.srv.conns 1).log.filterMap (answered .msg)).Sublist ((s.srv.conns 1).log.filterMap (asked .msg)) := by
  have h : forgesLog = .ok ([0x2F2F3A], [0xDD2F2F3A]) := by decide +kernel
  obtain ⟨s, h1, h2⟩ := Exec.bind_eq_ok.mp h
  obtain ⟨s', h3, h4⟩ := Exec.bind_eq_ok.mp h2
  injection h4 with h4
  injection h4 with a1 a2
  refine ⟨s', runs_reach (pre := []) (.create h1) h3, a1, a2, ?_⟩
  rw [a1, a2]
  decide

/-- The hypothesis of `C65_answers_partial` fails in this history. -/
example : ∃ s, Reach (fun _ => garbage) Channel.unset forges s ∧ ¬LongUps s.srv := by
  obtain ⟨s, h, -, -, hn⟩ := C65_short_violated
  exact ⟨s, h, fun hl => hn (C65_answers_partial h (fun _ => hl) (by decide))⟩

end Uscada.Ua.Stack
