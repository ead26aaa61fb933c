import Verif.UaServiceCases
import Verif.UaDialogue

/-!
# C102: the lifetime of a security token

UaServerSecureChannel.cpp:46-90, 126-170.  The answer to an open request grants the token a lifetime (OPC 10000-4, 5.5.2); messages with a
token whose lifetime is over are to be refused, and a channel that was not renewed is to be closed.
-/

namespace Uscada.Ua.Stack

open Transport (chunk)
open Session (isOpen)

variable {m : Nat → Mem} {u : Nat → UInt32 × UInt32} {evs : List (Env × Ev)} {s s' : Stack}

/-- The lifetime of a token that was created at `t` (in units of 100 ns) with `l` milliseconds is over at `now`. -/
def Expired (t : DateTime) (l : UInt32) (now : DateTime) : Prop := t.val.toInt + 10000 * (l.toNat : Int) < now.val.toInt

instance (t : DateTime) (l : UInt32) (now : DateTime) : Decidable (Expired t l now) := inferInstanceAs (Decidable (_ < _))

/-- What a client knows that has just opened a channel. -/
def stranger (n : Nat) : Know := ⟨[], [], none, n⟩

/-- Against C102: the lifetime that is granted means nothing.  A client opens a channel and asks for whatever lifetime; the answer grants it.  Then
each plan that keeps to the rules is carried out with this token to its end, however long it is, although every reading of the clock is
later than the end of the lifetime, which began when the open request was served (`e2.chan.now2`). -/
theorem C102_expired_violated (h : Reach m u evs s) (hfree : s.chans.ids.len ≠ 0) {k : Nat} (hk : Pool.valid k) (hst : (s.srv.conns k).st = .connected)
    (hop : (s.srv.conns k).opened = true) (hbox : s.box = []) {e1 e2 e3 : Env} (h1 : Calm e1) (h2 : Calm e2) (h3 : Calm e3)
    (sec : UaSecurityHeader) (seq : UaSequenceHeader) (req : Cont UaOpenSecureChannelReq 446) {pl : List UInt8} (hsays : Channel.SaysOpen sec seq req pl)
    (hlen : pl.length ≤ 4052) (hb : Brings s e1 k (chunk .opn 0x46 0 pl)) {n : Nat} (hn : n ≤ s.sess.ids.len) {p : Plan} (hp : Sound (stranger n) p)
    {env : Nat → Env} (he : ∀ i, Calm (env i))
    (_hlate : ∀ i, Expired e2.chan.now2 req.msg.requestLifetime (env i).chan.now ∧ Expired e2.chan.now2 req.msg.requestLifetime (env i).chan.now2) :
    ∃ s1 ch ans tx x, run s [(e1, .net (.linkData k)), (e2, .deliver), (e3, .deliver)] = .ok s1 ∧
      Channel.AnswersOpen ans ch e2.chan.token tx seq.requestId req.msg.requestHdr.requestHandle req.msg.requestLifetime ∧
      (s1.srv.conns k).log = (s.srv.conns k).log ++ [.up (.open 0 0x46 (pl ++ x)), .assigned ch, .sent (chunk .opn 0x46 ch ans)] ∧
      ∃ xs s', play env k ch p 0 ⟨UInt32.ofNat k, e2.chan.token, seq.sequenceNumber, false⟩ tx s1 = .ok (some (xs, s')) ∧ Completes p xs := by
  obtain ⟨s1, ch, ans, tx, x, g1, g2, _, g4, g5, g6, g7, g8, _, g10, _⟩ := C66_open h hfree hk hst hop hbox h1 h2 h3 sec seq req hsays hlen hb
  obtain ⟨xs, s', _, _, p1, p2, _⟩ := C79_dialogue g2 g6 g7 g10 (K := stranger n)
    ⟨fun _ h => (by cases h), fun _ h => (by cases h), fun _ h => (by cases h), by rw [g8]; exact hn⟩ hp he 0
  exact ⟨s1, ch, ans, tx, x, g1, g4, g5, xs, s', p1, p2⟩

/-! ## Example -/

/-- The clock is set to a late time. -/
def late : Env := { calm with chan := { calm.chan with now := ⟨9000000000000000000⟩, now2 := ⟨9000000000000000000⟩ } }

/-- C102: the client opens a channel and carries out `visit n` after the end of its token. -/
example (n : Nat) : ∃ s s1 ch ans tx xs s', Reach (fun _ => garbage) Channel.unset (connects.take 2) s ∧
    run s [(reads (chunk .opn 0x46 0 Channel.openReq), .net (.linkData 1)), (calm, .deliver), (calm, .deliver)] = .ok s1 ∧
    (∃ c t r q h l, Channel.AnswersOpen ans c t r q h l ∧ Expired calm.chan.now2 l late.chan.now) ∧
    play (fun _ => late) 1 ch (visit n) 0 ⟨1, calm.chan.token, 51, false⟩ tx s1 = .ok (some (xs, s')) ∧ Completes (visit n) xs := by
  obtain ⟨s, h1, h2⟩ := Exec.bind_eq_ok.mp greeted_runs
  obtain ⟨s', h3, h4⟩ := Exec.bind_eq_ok.mp h2
  injection h4 with h4
  injection h4 with h4 h5
  have hr := runs_reach (.create h1) h3
  have hfree : 1 ≤ s'.sess.ids.len := by
    obtain ⟨_, _, sevs, _, _, hs, _⟩ := reach_parts hr
    obtain ⟨l, g1, g2⟩ := Session.C40_no_leak hs
    have : 1 ∈ l := (g2 1 (by decide)).mpr (congrArg View.isOpen h4)
    rw [g1.holds.hlen]
    exact List.length_pos_of_mem this
  obtain ⟨t, ch, ans, tx, x, g1, g2, g3, xs, t', g4, g5⟩ := C102_expired_violated hr (k := 1) (by rw [h5]; decide) (by decide) (congrArg View.st h4) (congrArg View.opened h4)
    (congrArg View.box h4) (reads_calm (chunk .opn 0x46 0 Channel.openReq)) calm_calm calm_calm _ _ _ openReq_says (by decide +kernel)
    (brings_whole (congrArg View.opened h4) (congrArg (fun v => v.rx.1) h4) (congrArg (fun v => v.rx.2) h4) (by decide +kernel) rfl)
    hfree (visit_sound n) (env := fun _ => late) (fun _ => ⟨by decide, rfl, rfl⟩) (fun _ => by decide +kernel)
  exact ⟨s', t, ch, ans, tx, xs, t', hr, g1, ⟨_, _, _, _, _, _, g2, by decide +kernel⟩, g4, g5⟩

end Uscada.Ua.Stack
