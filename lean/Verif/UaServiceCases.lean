import Verif.UaBlindProps

/-!
# C66: the theorems at work

For each of the theorems of `UaStackService` that has no example elsewhere (`UaStackRuns` has one for reading, `UaStdProps` one for the
endpoints) a history that meets its hypotheses.
-/

namespace Uscada.Ua.Stack

open Transport (chunk)
open Channel (bound)
open Session (bytesOf Fits isOpen holder)

/-- C66_open: a client that has said hello opens a channel and is ready from then on. -/
example : ∃ s s' ch, Reach (fun _ => garbage) Channel.unset (connects.take 2) s ∧
    run s [(reads (chunk .opn 0x46 0 Channel.openReq), .net (.linkData 1)), (calm, .deliver), (calm, .deliver)] = .ok s' ∧
    Channel.owner (s.chans.objs ch.toNat).log = none ∧ Ready s' 1 ch ⟨1, calm.chan.token, 51, false⟩ := by
  obtain ⟨s, h1, h2⟩ := Exec.bind_eq_ok.mp greeted_runs
  obtain ⟨s', h3, h4⟩ := Exec.bind_eq_ok.mp h2
  injection h4 with h4
  injection h4 with h4 h5
  have hr := runs_reach (.create h1) h3
  obtain ⟨t, ch, _, _, _, g1, _, g2, _, _, g3, _⟩ := C66_open hr (k := 1) (by rw [h5]; decide) (by decide) (congrArg View.st h4) (congrArg View.opened h4)
    (congrArg View.box h4) (reads_calm (chunk .opn 0x46 0 Channel.openReq)) calm_calm calm_calm _ _ _ openReq_says (by decide +kernel)
    (brings_whole (congrArg View.opened h4) (congrArg (fun v => v.rx.1) h4) (congrArg (fun v => v.rx.2) h4) (by decide +kernel) rfl)
  exact ⟨s', t, ch, hr, g1, g2, g3⟩

/-- C66_create: the client of `connects` creates a session, which did not exist before. -/
example : ∃ s s' ans uid, Reach (fun _ => garbage) Channel.unset connects s ∧
    run s (five 1 (reads (chunk .msg 0x46 1 (request ⟨1, 77, 51, false⟩ 10 (bytesOf Session.createReq)))) calm calm calm calm) = .ok s' ∧
    isOpen (s.sess.objs uid).log = false ∧ isOpen (s'.sess.objs uid).log = true ∧ Fits uid Session.createReq ans := by
  obtain ⟨s, h1, h2, h0⟩ := observe_reach connects_runs
  have hrx := congrArg View.rx h0
  have h3 : Ready s 1 1 ⟨1, 77, 51, false⟩ := ⟨by decide, congrArg View.st h0, congrArg View.opened h0, congrArg View.assoc h0, by decide,
    knows_of h1 h2 (by decide) (congrArg View.window h0), rfl, congrArg View.box h0⟩
  have h4 : ∀ ty flag c p, p.length ≤ 4084 → Brings s (reads (chunk ty flag c p)) 1 (chunk ty flag c p) :=
    fun ty flag c p hp => brings_whole (congrArg View.opened h0) (congrArg Prod.fst hrx) (congrArg Prod.snd hrx) hp rfl
  have hf : s.sess.ids.len ≠ 0 := by
    obtain ⟨_, _, sevs, _, _, hs, _⟩ := reach_parts h1
    obtain ⟨l, g1, g2⟩ := Session.C40_no_leak hs
    have : 1 ∈ l := (g2 1 (by decide)).mpr (congrArg View.isOpen h0)
    rw [g1.holds.hlen]
    exact Nat.ne_of_gt (List.length_pos_of_mem this)
  obtain ⟨s', ans, g1, _, _, uid, _, g2, g3, g4, _⟩ := C66_create h1 hf h3 (reads_calm _) calm_calm calm_calm calm_calm calm_calm (flag := 0x46) (id := 10)
    { (Ua.init : UaCreateSessionReq) with requestHdr := Session.reqHdr 0 21, maxResponseMessageSize := 9000 } Session.createReq_ok.says (by decide +kernel)
    (h4 .msg 0x46 1 _ (by rw [request_length]; decide +kernel))
  exact ⟨s, s', ans, uid, h1, g1, g2, g3, g4⟩

/-- C66_activate: the client of `opens` activates session 1 once more; its channel stays bound to it. -/
example : ∃ s s' ans, Reach (fun _ => garbage) Channel.unset opens s ∧
    run s (five 1 (reads (chunk .msg 0x46 1 (request ⟨1, 77, 53, false⟩ 12 (bytesOf (Session.activateReq 1))))) calm calm calm calm ++ [(calm, .deliver)]) = .ok s' ∧
    Fits 1 (Session.activateReq 1) ans ∧ bound (s'.chans.objs 1).log = some 1 ∧ holder (s'.sess.objs 1).log = some 1 := by
  obtain ⟨s, h1, h2, h3, h4, h5, h6, h7⟩ := opens_ready
  obtain ⟨s', ans, g1, g2, g3, g4, g5, g6, _⟩ := C66_activate h1 h3 (reads_calm _) calm_calm calm_calm calm_calm calm_calm calm_calm (flag := 0x46) (id := 12) (uid := 1)
    (by decide) h5 { (Ua.init : UaActivateSessionReq) with requestHdr := Session.reqHdr 1 22 } (Session.activateReq_ok 1).says rfl (by decide +kernel)
    (h7 .msg 0x46 1 _ (by rw [request_length]; decide +kernel))
  exact ⟨s, s', ans, h1, g1, g4, g3, g6⟩

/-- C66_close: it closes the session. -/
example : ∃ s s' ans, Reach (fun _ => garbage) Channel.unset opens s ∧
    run s (five 1 (reads (chunk .msg 0x46 1 (request ⟨1, 77, 53, false⟩ 12 (bytesOf (Session.closeReq 1))))) calm calm calm calm) = .ok s' ∧
    Fits 1 (Session.closeReq 1) ans ∧ isOpen (s.sess.objs 1).log = true ∧ isOpen (s'.sess.objs 1).log = false := by
  obtain ⟨s, h1, h2, h3, h4, h5, h6, h7⟩ := opens_ready
  obtain ⟨s', ans, g1, g2, g3, g4, g5, _⟩ := C66_close h1 h3 (reads_calm _) calm_calm calm_calm calm_calm calm_calm (flag := 0x46) (id := 12) (uid := 1)
    (by decide) h5 { (Ua.init : UaCloseSessionReq) with requestHdr := Session.reqHdr 1 23 } (Session.closeReq_ok 1).says rfl (by decide +kernel)
    (h7 .msg 0x46 1 _ (by rw [request_length]; decide +kernel))
  exact ⟨s, s', ans, h1, g1, g4, h5, g5⟩

end Uscada.Ua.Stack
