import Verif.UaStackService
/-!
# C55, C64 across the components, and runs of the whole server

What a client can bring about with chunks that the server accepts; the concrete runs show that the hypotheses of C64, C65 and C66
are met by reachable states.
-/

namespace Uscada.Ua

open SM

namespace Stack

open Transport (Down TEv tlogs chunk HoldsChunk upOf)
open Channel (clogs Window window bound)
open Session (slogs bytesOf Fits isOpen holder)

variable {m : Nat → Mem} {u : Nat → UInt32 × UInt32} {evs : List (Env × Ev)} {s s' : Stack}

theorem isChunk_chunk (ty : Transport.SecType) (flag : UInt8) (c : UInt32) {p : List UInt8} (hp : p.length ≤ 4084) : IsChunk (chunk ty flag c p) := by
  have hl := Transport.chunk_length ty flag c p
  refine ⟨by omega, ?_⟩
  rw [hl]
  unfold chunk sizeField
  simp only [leBytes, List.cons_append, List.nil_append, List.getD_cons_succ, List.getD_cons_zero]
  simp only [UInt8.toNat_ofNat']
  omega

/-- A whole chunk in one read completes the reception. -/
theorem brings_whole {e : Env} {k : Nat} (ho : (s.srv.conns k).opened = true) (ht : (s.srv.conns k).rx.tail = 0)
    (hh : (s.srv.conns k).rx.head = 0) {ty : Transport.SecType} {flag : UInt8} {c : UInt32} {p : List UInt8} (hp : p.length ≤ 4084)
    (hrx : e.tcp.rx = .ok (chunk ty flag c p)) : Brings s e k (chunk ty flag c p) := by
  have hlen := Transport.chunk_length ty flag c p
  have hmem := memRead_append (s.srv.conns k).rx [] (chunk ty flag c p) (by rw [hh]; rfl)
  refine ⟨(s.srv.conns k).rx.append (chunk ty flag c p), ?_, ht, hmem⟩
  rw [ho, hrx]
  exact receive_ok (by omega) (by omega) (evaluate_prefix ((s.srv.conns k).rx.append (chunk ty flag c p)) (chunk ty flag c p) [] ht
    hmem (by rw [List.append_nil]; exact isChunk_chunk ty flag c hp))

/-! ## C64 -/

/-- Against C64: an OPN chunk of 4065 to 4072 bytes makes the transport component send a message that does not fit its slot, although
the acknowledge message of the server allows chunks of 65536 bytes (`C45_acknowledge`). -/
theorem C64_open_chunk_violated (h : Reach m u evs s) {k : Nat} (hk : Pool.valid k) (hst : (s.srv.conns k).st = .connected) (hbox : s.box = [])
    {e : Env} (he : Calm e) {flag : UInt8} {c : UInt32} {p : List UInt8} (h1 : 4053 ≤ p.length) (h2 : p.length ≤ 4060)
    (hb : Brings s e k (chunk .opn flag c p)) :
    (∃ t x, Transport.next s.srv e.tcp (.linkData k) = .ok t ∧ sentTcp s.srv t = [x] ∧ 4096 < x.size + 8) ∧
      step s e (.net (.linkData k)) = .ub := by
  obtain ⟨b, hrx, hold⟩ := hb
  obtain ⟨tevs, _, _, ht, _⟩ := reach_parts h
  obtain ⟨t, hn, htk, hto⟩ := Transport.chunk_run m tevs s.srv ht k hk hst e.tcp he.starts b .opn flag c p h2 hrx hold (.inl rfl)
  have hsent : sentTcp s.srv t = [.chan (.open (UInt32.ofNat k) (p ++ memRead b.packet b.head 12))] := by
    rw [sentTcp_eq hk (by rw [htk]) hto]
    rfl
  have hx : (memRead b.packet b.head 12).length = 12 := MsgStorage.length_memRead _ _ _
  refine ⟨⟨t, _, hn, hsent, ?_⟩, ?_⟩
  · simp only [Mail.size, List.length_append]
    omega
  · have ho := he.others
    show onTcp 4096 s e _ = _
    unfold onTcp
    rw [hn, Exec.ok_bind, hsent, hbox]
    unfold post
    rw [if_pos (by simp only [List.length_nil]; omega), if_neg (by simp only [Mail.size, List.length_append]; omega)]
    rfl

/-- Against C64: a MSG chunk of 4057 to 4064 bytes passes the transport component, and then makes the secure channel component send a
message that does not fit its slot. -/
theorem C64_message_violated (h : Reach m u evs s) {k : Nat} {ch : UInt32} {w : Window} (hr : Ready s k ch w)
    {e1 e2 : Env} (he1 : Calm e1) (he2 : Calm e2) {flag : UInt8} {id : UInt32} {body : List UInt8} (h1 : 4033 ≤ body.length) (h2 : body.length ≤ 4040)
    (hb : Brings s e1 k (chunk .msg flag ch (request w id body))) : ∃ s1 c x d, step s e1 (.net (.linkData k)) = .ok s1 ∧
      s1.box = [.chan (.message (UInt32.ofNat k) ch d)] ∧ Channel.next s1.chans e2.chan (.message (UInt32.ofNat k) ch d) = .ok c ∧
      sentChan s1.chans c = [x] ∧ 4096 < x.size + 8 ∧ step s1 e2 .deliver = .ub := by
  obtain ⟨b, hrx, hold⟩ := hb
  obtain ⟨tevs, cevs, sevs, ht, hc, hs, hlong⟩ := reach_parts h
  obtain ⟨t, hn, htk, hto⟩ := Transport.chunk_run m tevs s.srv ht k hr.conn hr.st e1.tcp he1.starts b .msg flag ch (request w id body)
    (by rw [request_length]; omega) hrx hold (.inr ⟨by simp, hr.assoc⟩)
  let x := memRead b.packet b.head 12
  have hx : x.length = 12 := MsgStorage.length_memRead _ _ _
  have hsent : sentTcp s.srv t = [.chan (.message (UInt32.ofNat k) ch (request w id body ++ x))] := by
    rw [sentTcp_eq hr.conn (by rw [htk]) hto]
    rfl
  have hdl : (request w id body ++ x).length ≤ 4064 := by
    rw [List.length_append, request_length]
    omega
  have hs1 := step_net (s := s) (e := e1) hn (by rw [hsent]; intro y hy; rw [List.mem_singleton.mp hy]; simp only [Mail.size]; omega) (by
    rw [hr.box, hsent]; have := he1.others; simp only [List.length_cons, List.length_nil]; omega)
  rw [hsent, hr.box, List.nil_append] at hs1
  have hown : UInt32.ofNat k = w.owner := hr.owner.symm
  have hd : request w id body ++ x = request w id (body ++ x) := request_append _ _ _ _
  obtain ⟨c, hcn, hcg, _⟩ := Channel.accepted_run hc hr.chan hr.knows e2.chan id (body ++ x) (request w id body ++ x) hd (by omega)
  rw [← hown] at hcn
  let y := memRead e2.chan.mem (12 + (body ++ x).length) 12
  have hy : y.length = 12 := MsgStorage.length_memRead _ _ _
  have hcs : sentChan s.chans c = [.sess ⟨UInt32.ofNat k, ch, id, (bound (s.chans.objs ch.toNat).log).getD invalidSuid⟩ (body ++ x ++ y)] := by
    rw [sentChan_eq hr.chan hcg, hown]
    rfl
  have hbig : 4096 < (Mail.sess ⟨UInt32.ofNat k, ch, id, (bound (s.chans.objs ch.toNat).log).getD invalidSuid⟩ (body ++ x ++ y)).size + 8 := by
    simp only [Mail.size, List.length_append]
    omega
  refine ⟨_, c, _, _, hs1, rfl, hcn, hcs, hbig, ?_⟩
  have ho := he2.others
  show onChan 4096 { s with srv := t, box := [] } e2 _ = _
  unfold onChan
  rw [show Channel.next ({ s with srv := t, box := [] } : Stack).chans e2.chan _ = _ from hcn, Exec.ok_bind]
  show (post 4096 e2.others [] (sentChan s.chans c) >>= _) = _
  rw [hcs]
  unfold post
  rw [if_pos (by simp only [List.length_nil]; omega), if_neg (by omega)]
  rfl

/-! ## C55 from outside -/

theorem sess_ub {e : Env} {hdr : MsgHdr} {d : List UInt8} {rest : List Mail} (hb : s.box = .sess hdr d :: rest)
    (hn : Session.next s.sess ⟨e.sess, hdr, d⟩ = .ub) : step s e .deliver = .ub := by
  show deliver 4096 s e = _
  unfold deliver
  rw [hb]
  show onSess 4096 { s with box := rest } e _ _ = _
  unfold onSess
  rw [hn]
  rfl

/-- Against C55: every connected client can bring the server into undefined behaviour with one well formed activate request: the token
need only be outside 1 to 32. -/
theorem C55_activate_remote_violated (h : Reach m u evs s) {k : Nat} {ch : UInt32} {w : Window} (hr : Ready s k ch w)
    {e1 e2 e3 : Env} (h1 : Calm e1) (h2 : Calm e2) {flag : UInt8} {id uid : UInt32} (hv : ¬ Pool.valid uid.toNat)
    (q : UaActivateSessionReq) {body : List UInt8} (hq : Session.Says (.activate q) body) (ht : q.requestHdr.authentificationToken.value = .numeric uid)
    (hlen : body.length ≤ 4032) (hb : Brings s e1 k (chunk .msg flag ch (request w id body))) :
    run s [(e1, .net (.linkData k)), (e2, .deliver), (e3, .deliver)] = .ub := by
  obtain ⟨s2, x, y, hx, hy, hrun2, hre2, _, _, _, _, _, _, _, hbox2, _⟩ := comes_in h hr h1 h2 hlen hb
  rw [show ∀ a b c : Env × Ev, [a, b, c] = [a, b] ++ [c] from fun _ _ _ => rfl, run_append hrun2]
  have hub := sess_ub (e := e3) hbox2 (by
    rw [List.append_assoc]
    exact Session.C55_activate_token_violated _ _ _ q hq ht hv (by simp only [List.length_append]; omega))
  unfold run
  rw [hub]
  rfl

/-- Against C55: so does a close session request. -/
theorem C55_close_remote_violated (h : Reach m u evs s) {k : Nat} {ch : UInt32} {w : Window} (hr : Ready s k ch w)
    {e1 e2 e3 : Env} (h1 : Calm e1) (h2 : Calm e2) {flag : UInt8} {id uid : UInt32} (hv : ¬ Pool.valid uid.toNat)
    (q : UaCloseSessionReq) {body : List UInt8} (hq : Session.Says (.close q) body) (ht : q.requestHdr.authentificationToken.value = .numeric uid)
    (hlen : body.length ≤ 4032) (hb : Brings s e1 k (chunk .msg flag ch (request w id body))) :
    run s [(e1, .net (.linkData k)), (e2, .deliver), (e3, .deliver)] = .ub := by
  obtain ⟨s2, x, y, hx, hy, hrun2, hre2, _, _, _, _, _, _, _, hbox2, _⟩ := comes_in h hr h1 h2 hlen hb
  rw [show ∀ a b c : Env × Ev, [a, b, c] = [a, b] ++ [c] from fun _ _ _ => rfl, run_append hrun2]
  have hub := sess_ub (e := e3) hbox2 (by
    rw [List.append_assoc]
    exact Session.C55_close_token_violated _ _ _ q hq ht hv (by simp only [List.length_append]; omega))
  unfold run
  rw [hub]
  rfl

/-! ## Runs -/

instance (s : Stack) (v : Ev) : Decidable (Possible s v) := by
  cases v with
  | net v => exact inferInstanceAs (Decidable (_ ∧ _))
  | deliver => exact inferInstanceAs (Decidable (_ ≠ _))

/-- A history of events that can happen. -/
def runs (s : Stack) : List (Env × Ev) → Exec Stack
  | [] => .ok s
  | (e, v) :: l => if Possible s v then step s e v >>= fun s' => runs s' l else .throws

theorem runs_reach {pre evs : List (Env × Ev)} (h : Reach m u pre s) (hr : runs s evs = .ok s') : Reach m u (pre ++ evs) s' := by
  induction evs generalizing pre s with
  | nil =>
    injection hr with hr
    rw [List.append_nil, ← hr]
    exact h
  | cons x l ih =>
    obtain ⟨e, v⟩ := x
    unfold runs at hr
    split at hr
    · rename_i hp
      obtain ⟨s1, h1, h2⟩ := Exec.bind_eq_ok.mp hr
      have := ih (h.step hp h1) h2
      rwa [List.append_assoc] at this
    · cases hr

def calm : Env := { others := 0, tcp := Transport.calm, chan := Channel.env, sess := Session.env }

theorem calm_calm : Calm calm := ⟨by decide, rfl, rfl⟩

/-- These bytes are read. -/
def reads (f : List UInt8) : Env := { calm with tcp := { Transport.calm with rx := .ok f } }

theorem reads_calm (f : List UInt8) : Calm (reads f) := ⟨calm_calm.others, rfl, rfl⟩

/-- A client connects, says hello, and opens channel 1 with token 77. -/
def connects : List (Env × Ev) := [(calm, .net .accept), (reads helloFrame, .net (.linkData 1)),
  (reads (chunk .opn 0x46 0 Channel.openReq), .net (.linkData 1)), (calm, .deliver), (calm, .deliver)]

/-- A request on channel 1 and `n` deliveries. -/
def asks (seq id : UInt32) (r : SReq) (n : Nat) : List (Env × Ev) :=
  (reads (chunk .msg 0x46 1 (Channel.msg seq id (bytesOf r))), .net (.linkData 1)) :: List.replicate n (calm, .deliver)

/-- It creates and activates a session. -/
def opens : List (Env × Ev) := connects ++ (asks 52 10 Session.createReq 4 ++ asks 53 11 (Session.activateReq 1) 5)

/-- It reads, and closes the session. -/
def talk : List (Env × Ev) := opens ++ (asks 54 12 Session.readReq 4 ++ asks 55 13 (Session.closeReq 1) 4)

/-- What is decided below: connection 1, channel 1, session 1. -/
structure View where
  st : TSt
  opened : Bool
  assoc : Option UInt32
  rx : Nat × Nat
  window : Option Window
  bound : Option UInt32
  isOpen : Bool
  holder : Option UInt32
  box : List Mail
  asked : List UInt32
  answered : List UInt32
deriving DecidableEq, Repr

def view (s : Stack) : View where
  st := (s.srv.conns 1).st
  opened := (s.srv.conns 1).opened
  assoc := (s.srv.conns 1).assoc
  rx := ((s.srv.conns 1).rx.tail, (s.srv.conns 1).rx.head)
  window := window (s.chans.objs 1).log
  bound := bound (s.chans.objs 1).log
  isOpen := isOpen (s.sess.objs 1).log
  holder := holder (s.sess.objs 1).log
  box := s.box
  asked := (s.srv.conns 1).log.filterMap (asked .msg)
  answered := (s.srv.conns 1).log.filterMap (answered .msg)

def longUp : TAct → Bool
  | .up (.message _ _ d) => 12 ≤ d.length
  | .up (.close _ _ d) => 12 ≤ d.length
  | _ => true

def longUps (s : Srv) : Bool := (List.range 33).all fun k => (s.conns k).log.all longUp

theorem longUps_iff {s : Srv} (h : longUps s = true) : LongUps s := by
  intro k hk a ha
  have h1 := List.all_eq_true.mp h k (List.mem_range.mpr (by omega))
  have h2 := List.all_eq_true.mp h1 a ha
  unfold longUp at h2
  split at h2 <;> simp_all

def observe (l : List (Env × Ev)) : Exec (Bool × View) := do
  let s ← create (fun _ => garbage) Channel.unset
  let s' ← runs s l
  pure (longUps s'.srv, view s')

theorem observe_reach {evs : List (Env × Ev)} {x : View} (h : observe evs = .ok (true, x)) :
    ∃ s, Reach (fun _ => garbage) Channel.unset evs s ∧ LongUps s.srv ∧ view s = x := by
  obtain ⟨s, h1, h2⟩ := Exec.bind_eq_ok.mp h
  obtain ⟨s', h3, h4⟩ := Exec.bind_eq_ok.mp h2
  injection h4 with h4
  injection h4 with h4 h5
  exact ⟨s', runs_reach (.create h1) h3, longUps_iff h4, h5⟩

theorem knows_of (h : Reach m u evs s) (hl : LongUps s.srv) {ch : UInt32} (hv : Pool.valid ch.toNat) {w : Window}
    (hw : window (s.chans.objs ch.toNat).log = some w) : Channel.Knows s.chans ch w := by
  obtain ⟨_, _, _, _, hc, _, hlong⟩ := reach_parts h
  exact Channel.knows_of hc (hlong hl).1 hv hw

theorem connects_runs : observe connects = .ok (true, ⟨.connected, true, some 1, (0, 0), some ⟨1, 77, 51, false⟩, none, false, none, [], [], []⟩) := by
  decide +kernel

theorem opens_runs : observe opens = .ok (true, ⟨.connected, true, some 1, (0, 0), some ⟨1, 77, 53, false⟩, some 1, true, some 1, [],
    [10, 11], [10, 11]⟩) := by
  decide +kernel

theorem talk_runs : observe talk = .ok (true, ⟨.connected, true, some 1, (0, 0), some ⟨1, 77, 55, false⟩, some 1, false, none, [],
    [10, 11, 12, 13], [10, 11, 12, 13]⟩) := by
  decide +kernel

/-- The client of `connects` is `Ready`, and each of its chunks is received. -/
theorem connects_ready : ∃ s, Reach (fun _ => garbage) Channel.unset connects s ∧ LongUps s.srv ∧ Ready s 1 1 ⟨1, 77, 51, false⟩ ∧
    ∀ ty flag c p, p.length ≤ 4084 → Brings s (reads (chunk ty flag c p)) 1 (chunk ty flag c p) := by
  obtain ⟨s, h1, h2, h3⟩ := observe_reach connects_runs
  have hrx := congrArg View.rx h3
  refine ⟨s, h1, h2, ⟨by decide, congrArg View.st h3, congrArg View.opened h3, congrArg View.assoc h3, by decide, knows_of h1 h2 (by decide) (congrArg View.window h3), rfl,
    congrArg View.box h3⟩, fun ty flag c p hp => brings_whole (congrArg View.opened h3) (congrArg Prod.fst hrx) (congrArg Prod.snd hrx) hp rfl⟩

/-- So is the client of `opens`, whose channel is bound to session 1, which it holds. -/
theorem opens_ready : ∃ s, Reach (fun _ => garbage) Channel.unset opens s ∧ LongUps s.srv ∧ Ready s 1 1 ⟨1, 77, 53, false⟩ ∧
    bound (s.chans.objs 1).log = some 1 ∧ isOpen (s.sess.objs 1).log = true ∧ holder (s.sess.objs 1).log = some 1 ∧
    ∀ ty flag c p, p.length ≤ 4084 → Brings s (reads (chunk ty flag c p)) 1 (chunk ty flag c p) := by
  obtain ⟨s, h1, h2, h3⟩ := observe_reach opens_runs
  have hrx := congrArg View.rx h3
  refine ⟨s, h1, h2, ⟨by decide, congrArg View.st h3, congrArg View.opened h3, congrArg View.assoc h3, by decide, knows_of h1 h2 (by decide) (congrArg View.window h3), rfl,
    congrArg View.box h3⟩, congrArg View.bound h3, congrArg View.isOpen h3, congrArg View.holder h3,
    fun ty flag c p hp => brings_whole (congrArg View.opened h3) (congrArg Prod.fst hrx) (congrArg Prod.snd hrx) hp rfl⟩

/-- C64: the chunk exists. -/
example : ∃ s, Reach (fun _ => garbage) Channel.unset connects s ∧
    step s (reads (chunk .opn 0x46 0 (List.replicate 4053 0))) (.net (.linkData 1)) = .ub := by
  obtain ⟨s, h1, _, h3, h4⟩ := connects_ready
  exact ⟨s, h1, (C64_open_chunk_violated h1 h3.conn h3.st h3.box (reads_calm _) (by rw [List.length_replicate]; omega)
    (by rw [List.length_replicate]; omega) (h4 .opn 0x46 0 _ (by rw [List.length_replicate]; omega))).2⟩

/-- C64: so does the message. -/
example : ∃ s s1, Reach (fun _ => garbage) Channel.unset connects s ∧
    step s (reads (chunk .msg 0x46 1 (request ⟨1, 77, 51, false⟩ 10 (List.replicate 4033 0)))) (.net (.linkData 1)) = .ok s1 ∧
      step s1 calm .deliver = .ub := by
  obtain ⟨s, h1, h2, h3, h4⟩ := connects_ready
  obtain ⟨s1, _, _, _, h5, _, _, _, _, h6⟩ := C64_message_violated h1 h3 (reads_calm _) calm_calm (flag := 0x46) (id := 10)
    (body := List.replicate 4033 0) (by rw [List.length_replicate]; omega) (by rw [List.length_replicate]; omega)
    (h4 .msg 0x46 1 _ (by rw [request_length, List.length_replicate]; omega))
  exact ⟨s, s1, h1, h5, h6⟩

/-- C64: the chunks of `talk` are short, and `talk` runs in slots of 4096 bytes. -/
example : ∃ s, Reach (fun _ => garbage) Channel.unset talk s := by
  obtain ⟨s, h, _⟩ := observe_reach talk_runs
  exact ⟨s, h⟩

/-- C65: the four requests of `talk` are answered, in this order. -/
example : ∃ s, Reach (fun _ => garbage) Channel.unset talk s ∧ LongUps s.srv ∧ (s.srv.conns 1).log.filterMap (asked .msg) = [10, 11, 12, 13] ∧
    (s.srv.conns 1).log.filterMap (answered .msg) = [10, 11, 12, 13] := by
  obtain ⟨s, h1, h2, h3⟩ := observe_reach talk_runs
  exact ⟨s, h1, h2, congrArg View.asked h3, congrArg View.answered h3⟩

theorem readReq_ok : Session.Sendable Session.readReq :=
  ⟨Session.reqHdr_ok _ _, trivial, trivial, by decide, fun x hx => by
    rw [List.mem_singleton.mp hx]
    exact ⟨trivial, trivial, Session.str_ok _ (by decide), Session.str_ok _ (by decide)⟩⟩

/-- C66: the client of `opens` reads. -/
example : ∃ s s' ans, Reach (fun _ => garbage) Channel.unset opens s ∧
    run s (five 1 (reads (chunk .msg 0x46 1 (request ⟨1, 77, 53, false⟩ 12 (bytesOf Session.readReq)))) calm calm calm calm) = .ok s' ∧
    Fits 1 Session.readReq ans ∧ Ready s' 1 1 ⟨1, 77, 54, false⟩ := by
  obtain ⟨s, h1, h2, h3, h4, h5, h6, h7⟩ := opens_ready
  obtain ⟨s', ans, g1, g2, _, g4, _⟩ := C66_read h1 h3 (reads_calm _) calm_calm calm_calm calm_calm calm_calm (flag := 0x46) (id := 12) (uid := 1)
    (by decide) h4 h6 { (Ua.init : UaReadReq) with requestHdr := Session.reqHdr 1 24, nodesToRead := [Ua.init] } readReq_ok.says (by decide +kernel)
    (h7 .msg 0x46 1 _ (by rw [request_length]; decide +kernel))
  exact ⟨s, s', ans, h1, g1, g4, g2.ready⟩

/-- C55: the client of `connects` ends the server. -/
example : ∃ s, Reach (fun _ => garbage) Channel.unset connects s ∧
    run s [(reads (chunk .msg 0x46 1 (request ⟨1, 77, 51, false⟩ 10 (bytesOf (Session.activateReq 33)))), .net (.linkData 1)), (calm, .deliver),
      (calm, .deliver)] = .ub := by
  obtain ⟨s, h1, h2, h3, h4⟩ := connects_ready
  exact ⟨s, h1, C55_activate_remote_violated h1 h3 (reads_calm _) calm_calm (flag := 0x46) (id := 10) (uid := 33) (by decide) _ (Session.activateReq_ok 33).says rfl
    (by decide +kernel) (h4 .msg 0x46 1 _ (by rw [request_length]; decide +kernel))⟩

end Stack

end Uscada.Ua
