import Verif.UaFault
import Verif.UaBlindProps

/-!
# C106 for the whole server

A request that the service component refuses (`UaFault.lean`), followed through the transport, the channel and the service component: no byte
is written, to no connection, and no message is left that could make the server write one later.
-/

namespace Uscada.Ua.Stack

open SM
open Transport (chunk)
open Channel (bound Window)
open Session (bytesOf isOpen holder CanBe InPool)

variable {m : Nat → Mem} {u : Nat → UInt32 × UInt32} {evs : List (Env × Ev)} {s s' : Stack}

/-- The request and the two deliveries that it causes. -/
def three (k : Nat) (e1 e2 e3 : Env) : List (Env × Ev) := [(e1, .net (.linkData k)), (e2, .deliver), (e3, .deliver)]

/-- Nothing came of the request of connection `k` on channel `ch` but that it was received. -/
structure Ignored (m : Nat → Mem) (u : Nat → UInt32 × UInt32) (evs : List (Env × Ev)) (s s' : Stack) (k : Nat) (ch : UInt32) (w : Window) (flag : UInt8)
    (id : UInt32) (body : List UInt8) : Prop where
  reach : Reach m u evs s'
  /-- the request, followed by 12 bytes (`C46_transport_partial`), is all that is noted on the connection: nothing is written -/
  log : ∃ x, x.length = 12 ∧ (s'.srv.conns k).log = (s.srv.conns k).log ++ [.up (.message ch flag (request w id body ++ x))]
  /-- no message is pending; the next request can follow -/
  ready : Ready s' k ch (Window.next w)
  /-- the channel stays bound to its session, and has sent nothing -/
  bound : bound (s'.chans.objs ch.toNat).log = bound (s.chans.objs ch.toNat).log
  sent : Channel.lastTx (s'.chans.objs ch.toNat).log = Channel.lastTx (s.chans.objs ch.toNat).log
  ids : s'.chans.ids = s.chans.ids
  /-- all other connections and channels are left alone -/
  beside : Beside k ch s s'

/-- Against C106: each well formed request of a connected client that cannot be carried out is taken and forgotten. -/
theorem C106_stack_violated (h : Reach m u evs s) {k : Nat} {ch : UInt32} {w : Window} (hr : Ready s k ch w) {e1 e2 e3 : Env}
    (h1 : Calm e1) (h2 : Calm e2) (h3 : Calm e3) {flag : UInt8} {id : UInt32} (r : SReq) (hp : InPool (header s k ch id) r)
    (hc : ¬ CanBe s.sess (header s k ch id) r) {body : List UInt8} (hq : Session.Says r body) (hlen : body.length ≤ 4032)
    (hb : Brings s e1 k (chunk .msg flag ch (request w id body))) : ∃ s', run s (three k e1 e2 e3) = .ok s' ∧
      Ignored m u (evs ++ three k e1 e2 e3) s s' k ch w flag id body ∧
      ∀ j, (s'.sess.objs j).log = (s.sess.objs j).log ∨ (s'.sess.objs j).log = (s.sess.objs j).log ++ [.got (header s k ch id) r] := by
  obtain ⟨_, _, sevs, _, _, hs, _⟩ := reach_parts h
  obtain ⟨s2, x, y, hx, hy, hrun2, hre2, hlog2, hst2, hop2, has2, hw2, hbd2, hse2, hbox2, hbe2, htx2, hbl2, hci2, -⟩ := comes_in h hr h1 h2 hlen hb
  obtain ⟨c, j, l, hj, hn3, hg3, hl⟩ := Session.refuses hs e3.sess (header s k ch id) r hp hc hq (x := x ++ y) (by simp only [List.length_append]; omega)
  have hsent : sentSess s2.sess c = [] := by
    rw [hse2, sentSess_eq hj hg3]
    rcases hl with rfl | rfl <;> rfl
  have hn3' : Session.next s2.sess ⟨e3.sess, header s k ch id, body ++ x ++ y⟩ = .ok c := by
    rw [hse2, List.append_assoc]
    exact hn3
  have hs3 := step_sess (s := s2) (e := e3) (c := c) hbox2 hn3' (by rw [hsent]; intro z hz; cases hz) (by
    rw [hsent]; have := h3.others; simp only [List.length_nil]; omega)
  rw [hsent, List.nil_append] at hs3
  have hre3 := hre2.step (e := e3) (v := .deliver) (by rw [Possible, hbox2]; simp) hs3
  refine ⟨{ s2 with sess := c, box := [] }, ?_, ⟨?_, ⟨x, hx, hlog2⟩, ⟨hr.conn, hst2, hop2, has2, hr.chan, hw2, hr.owner, rfl⟩, hbd2, htx2, hci2, hbe2⟩, ?_⟩
  · rw [show three k e1 e2 e3 = [(e1, .net (.linkData k)), (e2, .deliver)] ++ [(e3, .deliver)] from rfl, run_append hrun2, run_cons hs3]
    rfl
  · simpa only [three, List.append_assoc, List.cons_append, List.nil_append] using hre3
  · intro i
    by_cases hi : i = j
    · subst hi
      rcases hl with rfl | rfl
      · exact .inl (hg3.1.trans (List.append_nil _))
      · exact .inr hg3.1
    · exact .inl (congrArg Sess.log (hg3.2 i hi))

/-- The client of `connects` has opened a channel but has no session: its read request is ignored. -/
example : ∃ s s', Reach (fun _ => garbage) Channel.unset connects s ∧
    run s (three 1 (reads (chunk .msg 0x46 1 (request ⟨1, 77, 51, false⟩ 10 (bytesOf Session.readReq)))) calm calm) = .ok s' ∧
    ∃ x, (s'.srv.conns 1).log = (s.srv.conns 1).log ++ [.up (.message 1 0x46 (request ⟨1, 77, 51, false⟩ 10 (bytesOf Session.readReq) ++ x))] := by
  obtain ⟨s, h1, h2, h0⟩ := observe_reach connects_runs
  have hrx := congrArg View.rx h0
  have h3 : Ready s 1 1 ⟨1, 77, 51, false⟩ := ⟨by decide, congrArg View.st h0, congrArg View.opened h0, congrArg View.assoc h0, by decide,
    knows_of h1 h2 (by decide) (congrArg View.window h0), rfl, congrArg View.box h0⟩
  have hbd : bound (s.chans.objs (1 : UInt32).toNat).log = none := congrArg View.bound h0
  have hhdr : (header s 1 1 10).sessionId = invalidSuid := by
    show (bound (s.chans.objs (1 : UInt32).toNat).log).getD invalidSuid = _
    rw [hbd]; rfl
  obtain ⟨s', g1, g2, -⟩ := C106_stack_violated h1 h3 (reads_calm _) calm_calm calm_calm (flag := 0x46) (id := 10) Session.readReq (.inl hhdr)
    (by
      rintro ⟨j, hj, hs, -⟩
      rw [hhdr] at hs
      have := congrArg UInt32.toNat hs
      rw [Session.toNat_ofNat hj] at this
      rw [← this] at hj
      exact absurd hj (by decide))
    Session.readReq_ok.says (by decide +kernel)
    (brings_whole (congrArg View.opened h0) (congrArg Prod.fst hrx) (congrArg Prod.snd hrx) (by rw [request_length]; decide +kernel) rfl)
  obtain ⟨x, -, hx⟩ := g2.log
  exact ⟨s, s', h1, g1, x, hx⟩

end Uscada.Ua.Stack
