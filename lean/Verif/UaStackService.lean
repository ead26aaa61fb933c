import Verif.UaStackProps
/-!
# C66: requests of a client are answered

From every reachable state with an empty mailbox, a well formed request of a connected client runs through the transport, channel and
service components and back, and exactly one answer is written to the connection it came from.
-/

namespace Uscada.Ua

open SM

namespace Stack

open Transport (Down TEv tlogs chunk HoldsChunk upOf)
open Channel (clogs Window window bound)
open Session (slogs bytesOf Fits isOpen holder)

variable {m : Nat → Mem} {u : Nat → UInt32 × UInt32} {evs : List (Env × Ev)} {s s' : Stack}

/-! ## Specification -/

/-- What a history of steps leads to. -/
def run (s : Stack) : List (Env × Ev) → Exec Stack
  | [] => .ok s
  | (e, v) :: l => do
    let s' ← step s e v
    run s' l

/-- A client is connected over connection `k` and channel `ch`, whose window is `w`, and no message is pending. -/
structure Ready (s : Stack) (k : Nat) (ch : UInt32) (w : Window) : Prop where
  conn : Pool.valid k
  st : (s.srv.conns k).st = .connected
  opened : (s.srv.conns k).opened = true
  assoc : (s.srv.conns k).assoc = some ch
  chan : Pool.valid ch.toNat
  knows : Channel.Knows s.chans ch w
  owner : w.owner = UInt32.ofNat k
  box : s.box = []

/-- Nothing goes wrong outside: there are free slots, the timer starts and the link takes the bytes. -/
structure Calm (e : Env) : Prop where
  others : e.others ≤ 60
  starts : e.tcp.starts = true
  writes : e.tcp.writes = true

/-- The bytes of a request: token, sequence number, request id, body. -/
def request (w : Window) (id : UInt32) (body : List UInt8) : List UInt8 :=
  Wire.wire (⟨w.token⟩ : UaSecurityTokenHeader) ++ (Wire.wire (⟨w.seq + 1, id⟩ : UaSequenceHeader) ++ body)

/-- The bytes of an answer: token, sequence number, request id, body. -/
def answer (w : Window) (tx id : UInt32) (body : List UInt8) : List UInt8 :=
  Wire.wire (⟨w.token⟩ : UaSecurityTokenHeader) ++ (Wire.wire (⟨tx, id⟩ : UaSequenceHeader) ++ body)

/-- The reception of `e` completes this chunk on connection `k`. -/
def Brings (s : Stack) (e : Env) (k : Nat) (f : List UInt8) : Prop :=
  ∃ b, Uscada.Ua.receive (s.srv.conns k).opened e.tcp.rx (s.srv.conns k).rx = .ok (.done, b) ∧ HoldsChunk b f

/-- The window behind a served request. -/
def Window.next (w : Window) : Window := { w with seq := w.seq + 1 }

/-- No byte of a further chunk has been read from connection `k`. -/
def Blank (s : Stack) (k : Nat) : Prop := (s.srv.conns k).rx.tail = 0 ∧ (s.srv.conns k).rx.head = 0

/-- Only connection `k` and channel `ch` are touched. -/
def Beside (k : Nat) (ch : UInt32) (s s' : Stack) : Prop :=
  (∀ j, j ≠ k → s'.srv.conns j = s.srv.conns j) ∧ ∀ j, j ≠ ch.toNat → s'.chans.objs j = s.chans.objs j

/-! ## Single steps -/

theorem post_room {slot others : Nat} {box ms : List Mail} (hf : ∀ x ∈ ms, x.size + 8 ≤ slot) (hr : box.length + ms.length + others ≤ 64) :
    post slot others box ms = .ok (box ++ ms) := by
  induction ms generalizing box with
  | nil => rw [List.append_nil]; rfl
  | cons x ms ih =>
    simp only [List.length_cons] at hr
    unfold post
    rw [if_pos (by omega), if_pos (hf x List.mem_cons_self), ih (fun y hy => hf y (List.mem_cons_of_mem _ hy)) (by
      simp only [List.length_append, List.length_cons, List.length_nil]; omega), List.append_assoc]
    rfl

theorem sentTcp_eq {t t' : Srv} {k : Nat} (hk : Pool.valid k) {new : List TAct} (hl : (t'.conns k).log = (t.conns k).log ++ new)
    (ho : ∀ j, j ≠ k → t'.conns j = t.conns j) : sentTcp t t' = new.filterMap (ofTcp k) := by
  rw [sentTcp_adds (k := k) (new := new) ⟨hl, fun j hj => by show (t'.conns j).log = _; rw [ho j hj]; rfl⟩, if_pos]
  have := hk.2
  simp only [poolCap] at this
  omega

theorem sentChan_eq {c c' : Chans} {k : Nat} (hk : Pool.valid k) {new : List CAct} (hg : Channel.Grows k new c c') :
    sentChan c c' = new.filterMap ofChan := by
  have := diff_adds (logs := clogs) (s := c) (s' := c') (k := k) (new := new) ⟨hg.1, fun j hj => by
    show (c'.objs j).log = _; rw [hg.2 j hj]; rfl⟩
  rw [if_pos (by have := hk.2; simp only [poolCap] at this; omega)] at this
  show (diff (clogs c) (clogs c')).filterMap ofChan = _
  rw [this]

theorem sentSess_eq {c c' : Sessions} {k : Nat} (hk : k < 33) {new : List SAct} (hg : Session.Grows k new c c') :
    sentSess c c' = new.filterMap ofSess := by
  have := diff_adds (logs := slogs) (s := c) (s' := c') (k := k) (new := new) ⟨hg.1, fun j hj => by
    show (c'.objs j).log = _; rw [hg.2 j hj]; rfl⟩
  rw [if_pos hk] at this
  show (diff (slogs c) (slogs c')).filterMap ofSess = _
  rw [this]

theorem step_net {e : Env} {v : TEv} {t : Srv} (hn : Transport.next s.srv e.tcp v = .ok t)
    (hf : ∀ x ∈ sentTcp s.srv t, x.size + 8 ≤ 4096) (hr : s.box.length + (sentTcp s.srv t).length + e.others ≤ 64) :
    step s e (.net v) = .ok { s with srv := t, box := s.box ++ sentTcp s.srv t } := by
  show onTcp 4096 s e v = _
  unfold onTcp
  rw [hn, Exec.ok_bind, post_room hf hr]
  rfl

theorem step_tcp {e : Env} {k : Nat} {d : Down} {rest : List Mail} (hb : s.box = .tcp k d :: rest) {t : Srv}
    (hn : Transport.next s.srv e.tcp (.down k d) = .ok t) (hf : ∀ x ∈ sentTcp s.srv t, x.size + 8 ≤ 4096)
    (hr : rest.length + (sentTcp s.srv t).length + e.others ≤ 64) :
    step s e .deliver = .ok { s with srv := t, box := rest ++ sentTcp s.srv t } := by
  show deliver 4096 s e = _
  unfold deliver
  rw [hb]
  show onTcp 4096 { s with box := rest } e _ = _
  unfold onTcp
  rw [hn, Exec.ok_bind, post_room hf hr]
  rfl

theorem step_chan {e : Env} {x : CIn} {rest : List Mail} (hb : s.box = .chan x :: rest) {c : Chans}
    (hn : Channel.next s.chans e.chan x = .ok c) (hf : ∀ x ∈ sentChan s.chans c, x.size + 8 ≤ 4096)
    (hr : rest.length + (sentChan s.chans c).length + e.others ≤ 64) :
    step s e .deliver = .ok { s with chans := c, box := rest ++ sentChan s.chans c } := by
  show deliver 4096 s e = _
  unfold deliver
  rw [hb]
  show onChan 4096 { s with box := rest } e _ = _
  unfold onChan
  rw [hn, Exec.ok_bind, post_room hf hr]
  rfl

theorem step_sess {e : Env} {hdr : MsgHdr} {d : List UInt8} {rest : List Mail} (hb : s.box = .sess hdr d :: rest) {c : Sessions}
    (hn : Session.next s.sess ⟨e.sess, hdr, d⟩ = .ok c) (hf : ∀ x ∈ sentSess s.sess c, x.size + 8 ≤ 4096)
    (hr : rest.length + (sentSess s.sess c).length + e.others ≤ 64) :
    step s e .deliver = .ok { s with sess := c, box := rest ++ sentSess s.sess c } := by
  show deliver 4096 s e = _
  unfold deliver
  rw [hb]
  show onSess 4096 { s with box := rest } e hdr d = _
  unfold onSess
  rw [hn, Exec.ok_bind, post_room hf hr]
  rfl

theorem run_cons {e : Env} {v : Ev} {l : List (Env × Ev)} (h : step s e v = .ok s') : run s ((e, v) :: l) = run s' l := by
  show (step s e v >>= fun s' => run s' l) = _
  rw [h, Exec.ok_bind]

/-! ## The way in -/

theorem request_length (w : Window) (id : UInt32) (body : List UInt8) : (request w id body).length = 12 + body.length := by
  show (leBytes 4 _ ++ (leBytes 4 _ ++ leBytes 4 _ ++ body)).length = _
  simp only [List.length_append, MsgStorage.length_leBytes]
  omega

theorem request_append (w : Window) (id : UInt32) (body x : List UInt8) : request w id body ++ x = request w id (body ++ x) := by
  simp only [request, List.append_assoc]

theorem request_words (w : Window) (id : UInt32) (body : List UInt8) : Channel.word (request w id body) 0 = w.token ∧
    Channel.word (request w id body) 4 = w.seq + 1 ∧ Channel.word (request w id body) 8 = id := by
  have h : request w id body = leBytes 4 w.token.toNat ++ (leBytes 4 (w.seq + 1).toNat ++ (leBytes 4 id.toNat ++ body)) := by
    show leBytes 4 _ ++ (leBytes 4 _ ++ leBytes 4 _ ++ _) = _
    rw [List.append_assoc]
  obtain ⟨h12, h0, h4, h8⟩ := Channel.mword0 garbage w.token (w.seq + 1) id body h
  rw [Channel.mword_eq (by omega)] at h0 h4 h8
  exact ⟨h0, h4, h8⟩

/-- The window is moved by the request and not by the answer. -/
theorem window_request {l : List CAct} {w : Window} (hw : window l = some w) (ch id : UInt32) (body : List UInt8) (hdr : MsgHdr) (d : List UInt8) :
    window (l ++ [.got (.message w.owner ch (request w id body)), .up hdr d]) = some { w with seq := w.seq + 1, accepted := true } := by
  rw [show l ++ [.got (.message w.owner ch (request w id body)), .up hdr d] = l ++ [.got (.message w.owner ch (request w id body))] ++ [.up hdr d] by simp,
    Channel.window_snoc, Channel.window_snoc, hw]
  obtain ⟨h0, h4, _⟩ := request_words w id body
  simp only [Window.step, Option.map_some, Window.sees, h0, h4, and_self, if_true]

theorem LongUps.step {t t' : Srv} (hl : LongUps t) {k : Nat} {new : List TAct} (h : (t'.conns k).log = (t.conns k).log ++ new)
    (ho : ∀ j, j ≠ k → t'.conns j = t.conns j) (hn : ∀ a ∈ new, match a with
      | .up (.message _ _ d) => 12 ≤ d.length
      | .up (.close _ _ d) => 12 ≤ d.length
      | _ => True) : LongUps t' := by
  intro j hj32 a ha
  by_cases hj : j = k
  · subst hj
    rw [h] at ha
    rcases List.mem_append.mp ha with ha | ha
    · exact hl j hj32 a ha
    · exact hn a ha
  · rw [ho j hj] at ha
    exact hl j hj32 a ha

theorem lastTx_keeps {l : List CAct} {x : CIn} {a : CAct} (h : Channel.txOf a = none) (h1 : ∀ c t q, a ≠ .opened c t q) (h2 : a ≠ .released) :
    Channel.lastTx (l ++ [.got x, a]) = Channel.lastTx l := by
  rw [show l ++ [.got x, a] = l ++ [.got x] ++ [a] by simp, Channel.lastTx_snoc]
  cases a <;> simp_all [Channel.lastTx_snoc, Channel.txOf]

/-- The 12 bytes that the transport component adds to the body of a message are those behind it in the receive buffer, the 12 bytes that the channel component
adds are those behind that in its decode buffer. -/
def Stale (s : Stack) (e1 e2 : Env) (k : Nat) (body x y : List UInt8) : Prop :=
  (∃ b, Uscada.Ua.receive (s.srv.conns k).opened e1.tcp.rx (s.srv.conns k).rx = .ok (.done, b) ∧ x = memRead b.packet b.head 12) ∧
    y = memRead e2.chan.mem (12 + (body ++ x).length) 12

/-- A request comes in and is handed to the service component. -/
theorem comes_in (h : Reach m u evs s) {k : Nat} {ch : UInt32} {w : Window} (hr : Ready s k ch w) {e1 e2 : Env}
    (h1 : Calm e1) (h2 : Calm e2) {flag : UInt8} {id : UInt32} {body : List UInt8} (hlen : body.length ≤ 4032)
    (hb : Brings s e1 k (chunk .msg flag ch (request w id body))) : ∃ s2 x y, x.length = 12 ∧ y.length = 12 ∧
      run s [(e1, .net (.linkData k)), (e2, .deliver)] = .ok s2 ∧
      Reach m u (evs ++ [(e1, .net (.linkData k))] ++ [(e2, .deliver)]) s2 ∧
      (s2.srv.conns k).log = (s.srv.conns k).log ++ [.up (.message ch flag (request w id body ++ x))] ∧
      (s2.srv.conns k).st = .connected ∧ (s2.srv.conns k).opened = true ∧ (s2.srv.conns k).assoc = some ch ∧
      Channel.Knows s2.chans ch { w with seq := w.seq + 1 } ∧
      bound (s2.chans.objs ch.toNat).log = bound (s.chans.objs ch.toNat).log ∧ s2.sess = s.sess ∧
      s2.box = [.sess ⟨UInt32.ofNat k, ch, id, (bound (s.chans.objs ch.toNat).log).getD invalidSuid⟩ (body ++ x ++ y)] ∧ Beside k ch s s2 ∧
      Channel.lastTx (s2.chans.objs ch.toNat).log = Channel.lastTx (s.chans.objs ch.toNat).log ∧ Blank s2 k ∧ s2.chans.ids = s.chans.ids ∧ Stale s e1 e2 k body x y := by
  obtain ⟨b, hrx, hold⟩ := hb
  obtain ⟨tevs, cevs, sevs, ht, hc, hs, hlong⟩ := reach_parts h
  obtain ⟨t, hn, htk, hto⟩ := Transport.chunk_run m tevs s.srv ht k hr.conn hr.st e1.tcp h1.starts b .msg flag ch (request w id body)
    (by rw [request_length]; omega) hrx hold (.inr ⟨by simp, hr.assoc⟩)
  let x := memRead b.packet b.head 12
  have hx : x.length = 12 := MsgStorage.length_memRead _ _ _
  have hsent : sentTcp s.srv t = [.chan (.message (UInt32.ofNat k) ch (request w id body ++ x))] := by
    rw [sentTcp_eq hr.conn (by rw [htk]) hto]
    rfl
  have hdl : (request w id body ++ x).length ≤ 4056 := by
    rw [List.length_append, request_length]
    omega
  have hs1 := step_net (s := s) (e := e1) hn (by rw [hsent]; intro y hy; rw [List.mem_singleton.mp hy]; simp only [Mail.size]; omega) (by
    rw [hr.box, hsent]; have := h1.others; simp only [List.length_cons, List.length_nil]; omega)
  rw [hsent, hr.box, List.nil_append] at hs1
  have hreach1 : Reach m u (evs ++ [(e1, .net (.linkData k))])
      { s with srv := t, box := [.chan (.message (UInt32.ofNat k) ch (request w id body ++ x))] } :=
    h.step ⟨rfl, hr.conn, (Transport.reach_live ht hr.conn (by rw [hr.st]; simp)).choose_spec.2.2.2.2.link⟩ hs1
  have hown : UInt32.ofNat k = w.owner := hr.owner.symm
  have hd : request w id body ++ x = request w id (body ++ x) := request_append _ _ _ _
  obtain ⟨c, hcn, hcg, hck, hci⟩ := Channel.accepted_run hc hr.chan hr.knows e2.chan id (body ++ x) (request w id body ++ x) hd (by omega)
  let y := memRead e2.chan.mem (12 + (body ++ x).length) 12
  have hy : y.length = 12 := MsgStorage.length_memRead _ _ _
  have hcs := sentChan_eq hr.chan hcg
  have hcs' : sentChan s.chans c = [.sess ⟨UInt32.ofNat k, ch, id, (bound (s.chans.objs ch.toNat).log).getD invalidSuid⟩ (body ++ x ++ y)] := by
    rw [hcs, hown]
    rfl
  have hyl : (body ++ x ++ y).length ≤ 4056 := by
    simp only [List.length_append]
    omega
  have hs2 := step_chan (s := { s with srv := t, box := [.chan (.message (UInt32.ofNat k) ch (request w id body ++ x))] }) (e := e2) (rest := [])
    (x := .message (UInt32.ofNat k) ch (request w id body ++ x)) (c := c) rfl (by rw [hown]; exact hcn)
    (by show ∀ z ∈ sentChan s.chans c, _; rw [hcs']; intro z hz; rw [List.mem_singleton.mp hz]; simp only [Mail.size]; omega)
    (by show 0 + (sentChan s.chans c).length + _ ≤ _; rw [hcs']; have := h2.others; simp only [List.length_cons, List.length_nil]; omega)
  refine ⟨_, x, y, hx, hy, ?_, hreach1.step (by simp [Possible]) hs2, ?_, ?_, ?_, ?_, hck, ?_, rfl, ?_, ⟨hto, hcg.2⟩, ?_, ?_, hci, ⟨b, hrx, rfl⟩, rfl⟩
  · rw [run_cons hs1, run_cons hs2]
    rfl
  · show (t.conns k).log = _
    rw [htk]
    rfl
  · show (t.conns k).st = _
    rw [htk]
    exact hr.st
  · show (t.conns k).opened = _
    rw [htk]
    exact hr.opened
  · show (t.conns k).assoc = _
    rw [htk]
    exact hr.assoc
  · show bound (c.objs ch.toNat).log = _
    rw [hcg.1]
    rw [show ∀ (l : List CAct) (a b : CAct), l ++ [a, b] = l ++ [a] ++ [b] by simp, Channel.bound_snoc, Channel.bound_snoc]
  · show [] ++ sentChan s.chans c = _
    rw [hcs']
    rfl
  · show Channel.lastTx (c.objs ch.toNat).log = _
    rw [hcg.1]
    exact lastTx_keeps rfl (by simp) (by simp)
  · show (t.conns k).rx.tail = 0 ∧ (t.conns k).rx.head = 0
    rw [htk]
    exact ⟨rfl, rfl⟩

/-! ## The way out -/

/-- An answer of the service component is written to the connection of the channel. -/
theorem goes_out (h : Reach m u evs s) {k : Nat} (hk : Pool.valid k) {ch : UInt32} (hch : Pool.valid ch.toNat) {w : Window}
    (hst : (s.srv.conns k).st = .connected) (hop : (s.srv.conns k).opened = true) (has : (s.srv.conns k).assoc = some ch)
    (hw : Channel.Knows s.chans ch w) (hown : w.owner = UInt32.ofNat k) {id x : UInt32} {ans : List UInt8} (hans : ans.length ≤ 264)
    (hbd : ∀ y, bound (s.chans.objs ch.toNat).log = some y → x = y) {e1 e2 : Env}
    (h1 : Calm e1) (h2 : Calm e2) (hb : s.box = [.chan (.send ⟨UInt32.ofNat k, ch, id, x⟩ ans)]) :
    ∃ s2 n, run s [(e1, .deliver), (e2, .deliver)] = .ok s2 ∧ Reach m u (evs ++ [(e1, .deliver)] ++ [(e2, .deliver)]) s2 ∧
      Channel.lastTx (s.chans.objs ch.toNat).log = some n ∧
      (s2.srv.conns k).log = (s.srv.conns k).log ++ [.sent (chunk .msg 0x46 ch (answer w (n + 1) id ans))] ∧
      bound (s2.chans.objs ch.toNat).log = bound (s.chans.objs ch.toNat).log ∧ s2.sess = s.sess ∧
      Ready s2 k ch w ∧ Beside k ch s s2 ∧ (s2.srv.conns k).rx = (s.srv.conns k).rx ∧
      Channel.lastTx (s2.chans.objs ch.toNat).log = some (n + 1) ∧ s2.chans.ids = s.chans.ids := by
  obtain ⟨tevs, cevs, sevs, ht, hc, hs, hlong⟩ := reach_parts h
  obtain ⟨c, n, n', hcn, hlast, hn', hcg, hck, hci⟩ := Channel.answer_run hc (hdr := ⟨UInt32.ofNat k, ch, id, x⟩) hch hw hown.symm hbd e1.chan ans (by omega)
  subst hn'
  have hk33 : k < 33 := by have := hk.2; simp only [poolCap] at this; omega
  have hcs : sentChan s.chans c = [.tcp k (.sendReq ch 0x46 (answer w (n + 1) id ans))] := by
    rw [sentChan_eq hch hcg]
    show [Mail.tcp w.owner.toNat _] = _
    rw [hown, (toNat_eq hk33).mpr rfl]
    rfl
  have hal : (answer w (n + 1) id ans).length = 12 + ans.length := by
    show (leBytes 4 _ ++ (leBytes 4 _ ++ leBytes 4 _ ++ ans)).length = _
    simp only [List.length_append, MsgStorage.length_leBytes]
    omega
  have hs1 := step_chan (s := s) (e := e1) (c := c) hb hcn
    (by rw [hcs]; intro z hz; rw [List.mem_singleton.mp hz]; simp only [Mail.size]; omega)
    (by rw [hcs]; have := h1.others; simp only [List.length_cons, List.length_nil]; omega)
  rw [hcs, List.nil_append] at hs1
  have hr1 : Reach m u (evs ++ [(e1, .deliver)]) _ := h.step (by rw [Possible, hb]; simp) hs1
  obtain ⟨t, htn, htk, hto⟩ := Transport.send_run m tevs s.srv ht k hk hst hop e2.tcp h2.writes 0x46 ch has (answer w (n + 1) id ans) (by omega)
  have hts : sentTcp s.srv t = [] := by
    rw [sentTcp_eq hk (by rw [htk]) hto]
    rfl
  have hs2 := step_tcp (s := { s with chans := c, box := [.tcp k (.sendReq ch 0x46 (answer w (n + 1) id ans))] }) (e := e2) (rest := []) (t := t) rfl htn
    (by show ∀ z ∈ sentTcp s.srv t, _; rw [hts]; intro z hz; cases hz)
    (by show 0 + (sentTcp s.srv t).length + _ ≤ _; rw [hts]; have := h2.others; simp only [List.length_nil]; omega)
  refine ⟨_, n, ?_, hr1.step (by simp [Possible]) hs2, hlast, ?_, ?_, rfl, ⟨hk, ?_, ?_, ?_, hch, hck, hown, ?_⟩, ⟨hto, hcg.2⟩, ?_, ?_, hci⟩
  · rw [run_cons hs1, run_cons hs2]
    rfl
  · show (t.conns k).log = _
    rw [htk]
  · show bound (c.objs ch.toNat).log = _
    rw [hcg.1]
    rw [show ∀ (l : List CAct) (a b : CAct), l ++ [a, b] = l ++ [a] ++ [b] by simp, Channel.bound_snoc, Channel.bound_snoc]
  · show (t.conns k).st = _
    rw [htk]
    exact hst
  · show (t.conns k).opened = _
    rw [htk]
    exact hop
  · show (t.conns k).assoc = _
    rw [htk]
    exact has
  · show [] ++ sentTcp s.srv t = _
    rw [hts]
    rfl
  · show (t.conns k).rx = _
    rw [htk]
  · show Channel.lastTx (c.objs ch.toNat).log = _
    rw [hcg.1]
    rw [show ∀ (l : List CAct) (a b : CAct), l ++ [a, b] = l ++ [a] ++ [b] by simp, Channel.lastTx_snoc]
    simp only [Channel.txOf]
    exact congrArg some (Channel.word4 w.token (n + 1) (leBytes 4 id.toNat ++ ans))

/-- A channel is bound to the session that its owner activated. -/
theorem associate_run {cevs : List (CEnv × CIn)} {c : Chans} (h : Channel.Reach u cevs c) {hdr : MsgHdr} (hv : Pool.valid hdr.secureChannelId.toNat)
    (ho : Channel.owner (c.objs hdr.secureChannelId.toNat).log = some hdr.connectionId) (e : CEnv) : ∃ c', Channel.next c e (.associate hdr) = .ok c' ∧
      Channel.Grows hdr.secureChannelId.toNat [.got (.associate hdr), .associated hdr.sessionId] c c' ∧
      (c'.objs hdr.secureChannelId.toNat).token = (c.objs hdr.secureChannelId.toNat).token ∧
      (c'.objs hdr.secureChannelId.toNat).rxSeq = (c.objs hdr.secureChannelId.toNat).rxSeq ∧ c'.ids = c.ids := by
  obtain ⟨-, hlive⟩ := Channel.live_of (A := False) h False.elim hv ho
  have hstate : (Channel.delivered c hdr.secureChannelId.toNat (.associate hdr)).objs hdr.secureChannelId.toNat =
      { c.objs hdr.secureChannelId.toNat with log := (c.objs hdr.secureChannelId.toNat).log ++ [.got (.associate hdr)] } := Ent.set_at _ _ _
  refine ⟨c.set hdr.secureChannelId.toNat { c.objs hdr.secureChannelId.toNat with
      session := some hdr.sessionId
      log := (c.objs hdr.secureChannelId.toNat).log ++ [.got (.associate hdr)] ++ [.associated hdr.sessionId] },
    Channel.next_ok rfl hv ?_, ⟨?_, fun j hj => Ent.set_other _ _ hj⟩, by rw [Ent.set_at], by rw [Ent.set_at], rfl⟩
  · rw [Channel.received hlive.st]
    show Channel.receiveAssociate hdr.secureChannelId.toNat hdr (Channel.delivered c hdr.secureChannelId.toNat (.associate hdr)) = _
    unfold Channel.receiveAssociate
    rw [bind_ok (Ent.self_run _ _), hstate, if_pos (show (c.objs hdr.secureChannelId.toNat).conn = _ from hlive.conn), bind_ok (Ent.obj_run _ _ _),
      Channel.note, Ent.obj_run]
    simp only [Channel.delivered, Ent.set_at, Ent.set_set]
  · rw [Ent.set_at]
    simp only [List.append_assoc, List.cons_append, List.nil_append]

theorem run_append {l l' : List (Env × Ev)} (h : run s l = .ok s') : run s (l ++ l') = run s' l' := by
  induction l generalizing s with
  | nil => injection h with h; rw [h]; rfl
  | cons x l ih =>
    obtain ⟨e, v⟩ := x
    obtain ⟨s1, h1, h2⟩ := Exec.bind_eq_ok.mp h
    rw [List.cons_append, run_cons h1]
    exact ih h2

theorem Beside.trans {k : Nat} {ch : UInt32} {a b c : Stack} (h1 : Beside k ch a b) (h2 : Beside k ch b c) : Beside k ch a c :=
  ⟨fun j hj => (h2.1 j hj).trans (h1.1 j hj), fun j hj => (h2.2 j hj).trans (h1.2 j hj)⟩

/-- The header of what is handed to the service component. -/
def header (s : Stack) (k : Nat) (ch id : UInt32) : MsgHdr := ⟨UInt32.ofNat k, ch, id, (bound (s.chans.objs ch.toNat).log).getD invalidSuid⟩

theorem blank_of {s t : Stack} {k : Nat} (h : (t.srv.conns k).rx = (s.srv.conns k).rx) (hs : Blank s k) : Blank t k := by
  unfold Blank
  rw [h]
  exact hs

/-- What is known after a request was served. -/
structure Served (m : Nat → Mem) (u : Nat → UInt32 × UInt32) (evs : List (Env × Ev)) (s s' : Stack) (k : Nat) (ch : UInt32) (w : Window) (flag : UInt8) (id : UInt32)
    (body ans : List UInt8) : Prop where
  /-- the new state is reachable -/
  reach : Reach m u evs s'
  /-- the request, followed by 12 bytes (`C46_transport_partial`), and the answer are all that is noted on the connection; the answer has the token, the next sequence number of the channel, and
  the request id -/
  log : ∃ x n, x.length = 12 ∧ Channel.lastTx (s.chans.objs ch.toNat).log = some n ∧
    Channel.lastTx (s'.chans.objs ch.toNat).log = some (n + 1) ∧ (s'.srv.conns k).log = (s.srv.conns k).log ++ [.up (.message ch flag (request w id body ++ x)), .sent (chunk .msg 0x46 ch (answer w (n + 1) id ans))]
  /-- the next request can follow, with the next sequence number -/
  ready : Ready s' k ch (Window.next w)
  /-- no byte of it has been read -/
  blank : Blank s' k
  small : ans.length ≤ 264
  /-- no channel is opened or closed -/
  ids : s'.chans.ids = s.chans.ids
  beside : Beside k ch s s'

/-- A request that the service component answers with one message. -/
theorem serves (h : Reach m u evs s) {k : Nat} {ch : UInt32} {w : Window} (hr : Ready s k ch w) {e1 e2 e3 e4 e5 : Env}
    (h1 : Calm e1) (h2 : Calm e2) (h3 : Calm e3) (h4 : Calm e4) (h5 : Calm e5) {flag : UInt8} {id : UInt32} {body : List UInt8} (hlen : body.length ≤ 4032)
    (hb : Brings s e1 k (chunk .msg flag ch (request w id body))) {P : Sessions → List UInt8 → Prop}
    (hserve : ∀ x, (body ++ x).length ≤ 4096 → (∃ y z, y.length = 12 ∧ z.length = 12 ∧ x = y ++ z ∧ Stale s e1 e2 k body y z) →
      ∃ c ans j new, j < 33 ∧ Session.next s.sess ⟨e3.sess, header s k ch id, body ++ x⟩ = .ok c ∧ Session.Grows j new s.sess c ∧
      new.filterMap ofSess = [.chan (.send (header s k ch id) ans)] ∧ P c ans) :
    ∃ s' ans, run s [(e1, .net (.linkData k)), (e2, .deliver), (e3, .deliver), (e4, .deliver), (e5, .deliver)] = .ok s' ∧
      Served m u (evs ++ [(e1, .net (.linkData k)), (e2, .deliver), (e3, .deliver), (e4, .deliver), (e5, .deliver)]) s s' k ch w flag id body ans ∧
      bound (s'.chans.objs ch.toNat).log = bound (s.chans.objs ch.toNat).log ∧ P s'.sess ans := by
  obtain ⟨s2, x, y, hx, hy, hrun2, hre2, hlog2, hst2, hop2, has2, hw2, hbd2, hse2, hbox2, hbe2, htx2, hbl2, hci2, hstale⟩ := comes_in h hr h1 h2 hlen hb
  obtain ⟨c, ans, j, new, hj, hn3, hg3, hf3, hP⟩ := hserve (x ++ y) (by simp only [List.length_append]; omega) ⟨x, y, hx, hy, rfl, hstale⟩
  have hsent : sentSess s2.sess c = [.chan (.send (header s k ch id) ans)] := by
    rw [hse2, sentSess_eq hj hg3, hf3]
  have hn3' : Session.next s2.sess ⟨e3.sess, header s k ch id, body ++ x ++ y⟩ = .ok c := by
    rw [hse2, List.append_assoc]
    exact hn3
  have hans : ans.length ≤ 264 := small_sess (n := 0) hn3' (.chan (.send (header s k ch id) ans)) (by rw [hsent]; exact List.mem_cons_self)
  have hs3 := step_sess (s := s2) (e := e3) (c := c) hbox2 hn3' (by
    rw [hsent]; intro z hz; rw [List.mem_singleton.mp hz]; simp only [Mail.size]; omega) (by
    rw [hsent]; have := h3.others; simp only [List.length_cons, List.length_nil]; omega)
  rw [hsent, List.nil_append] at hs3
  have hre3 := hre2.step (e := e3) (v := .deliver) (by rw [Possible, hbox2]; simp) hs3
  obtain ⟨s5, n, hrun5, hre5, hlast, hlog5, hbd5, hse5, hready, hbe5, hrx5, htx5, hci5⟩ := goes_out hre3 hr.conn hr.chan hst2 hop2 has2 hw2 hr.owner hans
    (x := (header s k ch id).sessionId) (id := id) (by
      intro z hz
      have hz : bound (s2.chans.objs ch.toNat).log = some z := hz
      rw [hbd2] at hz
      show (bound (s.chans.objs ch.toNat).log).getD invalidSuid = z
      rw [hz]
      rfl) h4 h5 rfl
  refine ⟨s5, ans, ?_, ⟨?_, ⟨x, n, hx, ?_, ?_, ?_⟩, hready, blank_of hrx5 hbl2, hans, hci5.trans hci2, hbe2.trans hbe5⟩, hbd5.trans hbd2, hse5 ▸ hP⟩
  · rw [show ∀ a b c d f : Env × Ev, [a, b, c, d, f] = [a, b] ++ ([c] ++ [d, f]) from fun _ _ _ _ _ => rfl, run_append hrun2, List.singleton_append, run_cons hs3]
    exact hrun5
  · simpa only [List.append_assoc, List.cons_append, List.nil_append] using hre5
  · exact htx2 ▸ hlast
  · exact htx5
  · rw [hlog5]
    show (s2.srv.conns k).log ++ _ = _
    rw [hlog2]
    simp only [List.append_assoc, List.cons_append, List.nil_append]
    rfl

/-- An activate request: the channel is bound to the session before the answer is sent. -/
theorem serves_activate (h : Reach m u evs s) {k : Nat} {ch : UInt32} {w : Window} (hr : Ready s k ch w) {e1 e2 e3 e4 e5 e6 : Env}
    (h1 : Calm e1) (h2 : Calm e2) (h3 : Calm e3) (h4 : Calm e4) (h5 : Calm e5) (h6 : Calm e6) {flag : UInt8} {id : UInt32} {body : List UInt8} (hlen : body.length ≤ 4032)
    (hb : Brings s e1 k (chunk .msg flag ch (request w id body))) {uid : UInt32} {P : Sessions → List UInt8 → Prop}
    (hserve : ∀ x, (body ++ x).length ≤ 4096 → ∃ c ans j new, j < 33 ∧ Session.next s.sess ⟨e3.sess, header s k ch id, body ++ x⟩ = .ok c ∧ Session.Grows j new s.sess c ∧
      new.filterMap ofSess = [.chan (.associate { header s k ch id with sessionId := uid }), .chan (.send { header s k ch id with sessionId := uid } ans)] ∧ P c ans) :
    ∃ s' ans, run s [(e1, .net (.linkData k)), (e2, .deliver), (e3, .deliver), (e4, .deliver), (e5, .deliver), (e6, .deliver)] = .ok s' ∧
      Served m u (evs ++ [(e1, .net (.linkData k)), (e2, .deliver), (e3, .deliver), (e4, .deliver), (e5, .deliver), (e6, .deliver)]) s s' k ch w flag id body ans ∧
      bound (s'.chans.objs ch.toNat).log = some uid ∧ P s'.sess ans := by
  obtain ⟨s2, x, y, hx, hy, hrun2, hre2, hlog2, hst2, hop2, has2, hw2, hbd2, hse2, hbox2, hbe2, htx2, hbl2, hci2, _⟩ := comes_in h hr h1 h2 hlen hb
  obtain ⟨c, ans, j, new, hj, hn3, hg3, hf3, hP⟩ := hserve (x ++ y) (by simp only [List.length_append]; omega)
  have hsent : sentSess s2.sess c = [.chan (.associate { header s k ch id with sessionId := uid }), .chan (.send { header s k ch id with sessionId := uid } ans)] := by
    rw [hse2, sentSess_eq hj hg3, hf3]
  have hn3' : Session.next s2.sess ⟨e3.sess, header s k ch id, body ++ x ++ y⟩ = .ok c := by
    rw [hse2, List.append_assoc]
    exact hn3
  have hans : ans.length ≤ 264 := small_sess (n := 0) hn3' (.chan (.send { header s k ch id with sessionId := uid } ans)) (by
    rw [hsent]; exact List.mem_cons_of_mem _ List.mem_cons_self)
  have hs3 := step_sess (s := s2) (e := e3) (c := c) hbox2 hn3' (by
    rw [hsent]
    intro z hz
    rcases List.mem_cons.mp hz with hz | hz
    · rw [hz]; simp only [Mail.size]; omega
    · rw [List.mem_singleton.mp hz]; simp only [Mail.size]; omega) (by
    rw [hsent]; have := h3.others; simp only [List.length_cons, List.length_nil]; omega)
  rw [hsent, List.nil_append] at hs3
  have hre3 := hre2.step (e := e3) (v := .deliver) (by rw [Possible, hbox2]; simp) hs3
  obtain ⟨_, cevs, _, _, hc3, _⟩ := reach_parts hre3
  have hown3 : Channel.owner (s2.chans.objs ch.toNat).log = some (UInt32.ofNat k) := hw2.owner.trans (congrArg some hr.owner)
  obtain ⟨c4, hn4, hg4, htok4, hseq4, hci4⟩ := associate_run hc3 (hdr := { header s k ch id with sessionId := uid }) hr.chan hown3 e4.chan
  have hsent4 : sentChan s2.chans c4 = [] := by
    rw [sentChan_eq hr.chan hg4]
    rfl
  have hs4 := step_chan (s := { s2 with
    sess := c
    box := [.chan (.associate { header s k ch id with sessionId := uid }), .chan (.send { header s k ch id with sessionId := uid } ans)] })
    (e := e4) (c := c4) rfl hn4 (by show ∀ z ∈ sentChan s2.chans c4, _; rw [hsent4]; intro z hz; cases hz) (by
      show 1 + (sentChan s2.chans c4).length + _ ≤ _; rw [hsent4]; have := h4.others; simp only [List.length_nil]; omega)
  have hre4 := hre3.step (e := e4) (v := .deliver) (by simp [Possible]) hs4
  have hg4' : (c4.objs ch.toNat).log = (s2.chans.objs ch.toNat).log ++ [.got (.associate { header s k ch id with sessionId := uid }), .associated uid] := hg4.1
  have hsplit : ∀ (l : List CAct) (a b : CAct), l ++ [a, b] = l ++ [a] ++ [b] := by simp
  have hbd4 : bound (c4.objs ch.toNat).log = some uid := by
    rw [hg4', hsplit, Channel.bound_snoc]
  have hw4 : Channel.Knows c4 ch (Window.next w) := by
    refine ⟨?_, htok4.trans hw2.token, hseq4.trans hw2.seq⟩
    rw [hg4', hsplit, Channel.owner_snoc, Channel.owner_snoc]
    exact hw2.owner
  have htx4 : Channel.lastTx (c4.objs ch.toNat).log = Channel.lastTx (s2.chans.objs ch.toNat).log := by
    rw [hg4']
    exact lastTx_keeps rfl (by simp) (by simp)
  obtain ⟨s6, n, hrun6, hre6, hlast, hlog6, hbd6, hse6, hready, hbe6, hrx6, htx6, hci6⟩ := goes_out hre4 hr.conn hr.chan hst2 hop2 has2 hw4 hr.owner hans
    (x := uid) (id := id) (by
      intro z hz
      have hz : bound (c4.objs ch.toNat).log = some z := hz
      rw [hbd4] at hz
      exact Option.some.inj hz) h5 h6 (by show [_] ++ sentChan s2.chans c4 = _; rw [hsent4]; rfl)
  refine ⟨s6, ans, ?_, ⟨?_, ⟨x, n, hx, ?_, ?_, ?_⟩, hready, blank_of hrx6 hbl2, hans, hci6.trans (hci4.trans hci2), (Beside.trans hbe2 (b := s2) ⟨fun j hj => hbe6.1 j hj, fun j hj => (hbe6.2 j hj).trans (hg4.2 j hj)⟩)⟩,
    hbd6.trans hbd4, hse6 ▸ hP⟩
  · rw [show ∀ a b c d f g : Env × Ev, [a, b, c, d, f, g] = [a, b] ++ ([c] ++ ([d] ++ [f, g])) from fun _ _ _ _ _ _ => rfl, run_append hrun2,
      List.singleton_append, run_cons hs3, List.singleton_append, run_cons hs4]
    exact hrun6
  · simpa only [List.append_assoc, List.cons_append, List.nil_append] using hre6
  · have hlast : Channel.lastTx (c4.objs ch.toNat).log = some n := hlast
    rw [← hlast, htx4, htx2]
  · exact htx6
  · rw [hlog6]
    show (s2.srv.conns k).log ++ _ = _
    rw [hlog2]
    simp only [List.append_assoc, List.cons_append, List.nil_append]
    rfl

/-! ## C66 -/

/-- The request and five deliveries. -/
def five (k : Nat) (e1 e2 e3 e4 e5 : Env) : List (Env × Ev) :=
  [(e1, .net (.linkData k)), (e2, .deliver), (e3, .deliver), (e4, .deliver), (e5, .deliver)]

theorem lt33 {k : Nat} (h : Pool.valid k) : k < 33 := by
  have := h.2
  simp only [poolCap] at this
  omega

/-- C66: a well formed get endpoints request of a connected client is answered, and nothing else changes. -/
theorem C66_endpoints (h : Reach m u evs s) {k : Nat} {ch : UInt32} {w : Window} (hr : Ready s k ch w) {e1 e2 e3 e4 e5 : Env}
    (h1 : Calm e1) (h2 : Calm e2) (h3 : Calm e3) (h4 : Calm e4) (h5 : Calm e5) {flag : UInt8} {id : UInt32} (q : UaGetEndpointsReq)
    {body : List UInt8} (hq : Session.Says (.getEndpoints q) body)
    (hlen : body.length ≤ 4032) (hb : Brings s e1 k (chunk .msg flag ch (request w id body))) :
    ∃ s' ans, run s (five k e1 e2 e3 e4 e5) = .ok s' ∧
      Served m u (evs ++ five k e1 e2 e3 e4 e5) s s' k ch w flag id body ans ∧
      bound (s'.chans.objs ch.toNat).log = bound (s.chans.objs ch.toNat).log ∧
      Fits 0 (.getEndpoints q) ans ∧ ∀ j, j ≠ 0 → s'.sess.objs j = s.sess.objs j :=
  serves h hr h1 h2 h3 h4 h5 hlen hb (P := fun c ans => Fits 0 (.getEndpoints q) ans ∧ ∀ j, j ≠ 0 → c.objs j = s.sess.objs j) fun x hx _ => by
    obtain ⟨c, ans, g1, g2, g3⟩ := Session.C50_endpoints s.sess e3.sess (header s k ch id) q hq hx
    exact ⟨c, ans, 0, _, by omega, g1, g2, rfl, g3, g2.2⟩

/-- C66: a well formed create request of a connected client is answered, if a session is free, with an identifier and a token that no open session has; the session exists
from then on. -/
theorem C66_create (h : Reach m u evs s) (hfree : s.sess.ids.len ≠ 0) {k : Nat} {ch : UInt32} {w : Window} (hr : Ready s k ch w) {e1 e2 e3 e4 e5 : Env}
    (h1 : Calm e1) (h2 : Calm e2) (h3 : Calm e3) (h4 : Calm e4) (h5 : Calm e5) {flag : UInt8} {id : UInt32} (q : UaCreateSessionReq)
    {body : List UInt8} (hq : Session.Says (.create q) body)
    (hlen : body.length ≤ 4032) (hb : Brings s e1 k (chunk .msg flag ch (request w id body))) :
    ∃ s' ans, run s (five k e1 e2 e3 e4 e5) = .ok s' ∧
      Served m u (evs ++ five k e1 e2 e3 e4 e5) s s' k ch w flag id body ans ∧
      bound (s'.chans.objs ch.toNat).log = bound (s.chans.objs ch.toNat).log ∧
      ∃ uid, Pool.valid uid ∧ isOpen (s.sess.objs uid).log = false ∧ isOpen (s'.sess.objs uid).log = true ∧ Fits uid (.create q) ans ∧
        ∀ j, j ≠ uid → s'.sess.objs j = s.sess.objs j := by
  obtain ⟨_, _, sevs, _, _, hs, _⟩ := reach_parts h
  exact serves h hr h1 h2 h3 h4 h5 hlen hb (P := fun c ans => ∃ uid, Pool.valid uid ∧ isOpen (s.sess.objs uid).log = false ∧ isOpen (c.objs uid).log = true ∧
      Fits uid (.create q) ans ∧ ∀ j, j ≠ uid → c.objs j = s.sess.objs j) fun x hx _ => by
    obtain ⟨uid, c, rsp, g0, g1, g2, g3, g4, g5, _⟩ := Session.C40_create hs hfree e3.sess (header s k ch id) q hq hx
    exact ⟨c, _, uid, _, lt33 g0, g2, g3, rfl, uid, g0, g1, g5, g4, g3.2⟩

/-- C66: a well formed activate request of a connected client with the token of an open session is answered; the session is held by the channel from then on, and the
channel bound to the session. -/
theorem C66_activate (h : Reach m u evs s) {k : Nat} {ch : UInt32} {w : Window} (hr : Ready s k ch w) {e1 e2 e3 e4 e5 e6 : Env}
    (h1 : Calm e1) (h2 : Calm e2) (h3 : Calm e3) (h4 : Calm e4) (h5 : Calm e5) (h6 : Calm e6) {flag : UInt8} {id : UInt32} {uid : UInt32} (hv : Pool.valid uid.toNat)
    (ho : isOpen (s.sess.objs uid.toNat).log = true) (q : UaActivateSessionReq)
    {body : List UInt8} (hq : Session.Says (.activate q) body)
    (ht : q.requestHdr.authentificationToken.value = .numeric uid)
    (hlen : body.length ≤ 4032) (hb : Brings s e1 k (chunk .msg flag ch (request w id body))) :
    ∃ s' ans, run s (five k e1 e2 e3 e4 e5 ++ [(e6, .deliver)]) = .ok s' ∧
      Served m u (evs ++ (five k e1 e2 e3 e4 e5 ++ [(e6, .deliver)])) s s' k ch w flag id body ans ∧
      bound (s'.chans.objs ch.toNat).log = some uid ∧ Fits uid.toNat (.activate q) ans ∧ isOpen (s'.sess.objs uid.toNat).log = true ∧
      holder (s'.sess.objs uid.toNat).log = some ch ∧ ∀ j, j ≠ uid.toNat → s'.sess.objs j = s.sess.objs j := by
  obtain ⟨_, _, sevs, _, _, hs, _⟩ := reach_parts h
  exact serves_activate h hr h1 h2 h3 h4 h5 h6 hlen hb (uid := uid) (P := fun c ans => Fits uid.toNat (.activate q) ans ∧ isOpen (c.objs uid.toNat).log = true ∧
      holder (c.objs uid.toNat).log = some ch ∧ ∀ j, j ≠ uid.toNat → c.objs j = s.sess.objs j) fun x hx => by
    obtain ⟨c, ans, g1, g2, g3⟩ := Session.C50_activate hs e3.sess (header s k ch id) hv ho q hq ht hx
    refine ⟨c, ans, uid.toNat, _, lt33 hv, g1, g2, rfl, g3, ?_, ?_, g2.2⟩
    · rw [g2.1]
      rw [show ∀ (l : List SAct) (a b c : SAct), l ++ [a, b, c] = l ++ [a] ++ [b] ++ [c] by simp, Session.isOpen_snoc, Session.isOpen_snoc, Session.isOpen_snoc]
      exact ho
    · rw [g2.1]
      rw [show ∀ (l : List SAct) (a b c : SAct), l ++ [a, b, c] = l ++ [a] ++ [b] ++ [c] by simp, Session.holder_snoc, Session.holder_snoc]
      rfl

/-- C66: a well formed read request on the channel that holds the session it is bound to is answered. -/
theorem C66_read (h : Reach m u evs s) {k : Nat} {ch : UInt32} {w : Window} (hr : Ready s k ch w) {e1 e2 e3 e4 e5 : Env}
    (h1 : Calm e1) (h2 : Calm e2) (h3 : Calm e3) (h4 : Calm e4) (h5 : Calm e5) {flag : UInt8} {id : UInt32} {uid : UInt32} (hv : Pool.valid uid.toNat)
    (hbd : bound (s.chans.objs ch.toNat).log = some uid) (hh : holder (s.sess.objs uid.toNat).log = some ch) (q : UaReadReq)
    {body : List UInt8} (hq : Session.Says (.read q) body)
    (hlen : body.length ≤ 4032) (hb : Brings s e1 k (chunk .msg flag ch (request w id body))) :
    ∃ s' ans, run s (five k e1 e2 e3 e4 e5) = .ok s' ∧
      Served m u (evs ++ five k e1 e2 e3 e4 e5) s s' k ch w flag id body ans ∧
      bound (s'.chans.objs ch.toNat).log = bound (s.chans.objs ch.toNat).log ∧ Fits uid.toNat (.read q) ans ∧
      holder (s'.sess.objs uid.toNat).log = some ch ∧ ∀ j, j ≠ uid.toNat → s'.sess.objs j = s.sess.objs j := by
  obtain ⟨_, _, sevs, _, _, hs, _⟩ := reach_parts h
  have hhdr : header s k ch id = ⟨UInt32.ofNat k, ch, id, uid⟩ := by
    unfold header
    rw [hbd]
    rfl
  exact serves h hr h1 h2 h3 h4 h5 hlen hb (P := fun c ans => Fits uid.toNat (.read q) ans ∧
      holder (c.objs uid.toNat).log = some ch ∧ ∀ j, j ≠ uid.toNat → c.objs j = s.sess.objs j) fun x hx _ => by
    rw [hhdr]
    obtain ⟨c, ans, g1, g2, g3⟩ := Session.C39_answers hs e3.sess ⟨UInt32.ofNat k, ch, id, uid⟩ hv hh q hq hx
    refine ⟨c, ans, uid.toNat, _, lt33 hv, g1, g2, rfl, g3, ?_, g2.2⟩
    rw [g2.1]
    rw [show ∀ (l : List SAct) (a b c : SAct), l ++ [a, b, c] = l ++ [a] ++ [b] ++ [c] by simp, Session.holder_snoc, Session.holder_snoc, Session.holder_snoc]
    exact hh

/-- C66: a well formed close session request of a connected client with the token of an open session is answered, and the session ends. -/
theorem C66_close (h : Reach m u evs s) {k : Nat} {ch : UInt32} {w : Window} (hr : Ready s k ch w) {e1 e2 e3 e4 e5 : Env}
    (h1 : Calm e1) (h2 : Calm e2) (h3 : Calm e3) (h4 : Calm e4) (h5 : Calm e5) {flag : UInt8} {id : UInt32} {uid : UInt32} (hv : Pool.valid uid.toNat)
    (ho : isOpen (s.sess.objs uid.toNat).log = true) (q : UaCloseSessionReq)
    {body : List UInt8} (hq : Session.Says (.close q) body)
    (ht : q.requestHdr.authentificationToken.value = .numeric uid)
    (hlen : body.length ≤ 4032) (hb : Brings s e1 k (chunk .msg flag ch (request w id body))) :
    ∃ s' ans, run s (five k e1 e2 e3 e4 e5) = .ok s' ∧
      Served m u (evs ++ five k e1 e2 e3 e4 e5) s s' k ch w flag id body ans ∧
      bound (s'.chans.objs ch.toNat).log = bound (s.chans.objs ch.toNat).log ∧ Fits uid.toNat (.close q) ans ∧
      isOpen (s'.sess.objs uid.toNat).log = false ∧ ∀ j, j ≠ uid.toNat → s'.sess.objs j = s.sess.objs j := by
  obtain ⟨_, _, sevs, _, _, hs, _⟩ := reach_parts h
  exact serves h hr h1 h2 h3 h4 h5 hlen hb (P := fun c ans => Fits uid.toNat (.close q) ans ∧
      isOpen (c.objs uid.toNat).log = false ∧ ∀ j, j ≠ uid.toNat → c.objs j = s.sess.objs j) fun x hx _ => by
    obtain ⟨c, ans, g1, g2, g3, _⟩ := Session.C40_close hs e3.sess (header s k ch id) hv ho q hq ht hx
    refine ⟨c, ans, uid.toNat, _, lt33 hv, g1, g2, rfl, g3, ?_, g2.2⟩
    rw [g2.1]
    rw [show ∀ (l : List SAct) (a b c : SAct), l ++ [a, b, c] = l ++ [a] ++ [b] ++ [c] by simp, Session.isOpen_snoc]

/-- C66: a well formed open request of a connected client is answered, if a channel is free, with the identifier of a channel that was closed and the token drawn for it;
from then on the client is `Ready` on this channel. -/
theorem C66_open (h : Reach m u evs s) (hfree : s.chans.ids.len ≠ 0) {k : Nat} (hk : Pool.valid k) (hst : (s.srv.conns k).st = .connected)
    (hop : (s.srv.conns k).opened = true) (hbox : s.box = []) {e1 e2 e3 : Env} (h1 : Calm e1) (h2 : Calm e2) (h3 : Calm e3) {flag : UInt8} {c0 : UInt32}
    (sec : UaSecurityHeader) (seq : UaSequenceHeader) (req : Cont UaOpenSecureChannelReq 446) {pl : List UInt8} (hsays : Channel.SaysOpen sec seq req pl)
    (hlen : pl.length ≤ 4052) (hb : Brings s e1 k (chunk .opn flag c0 pl)) : ∃ s' ch ans tx x,
      run s [(e1, .net (.linkData k)), (e2, .deliver), (e3, .deliver)] = .ok s' ∧
      Reach m u (evs ++ [(e1, .net (.linkData k)), (e2, .deliver), (e3, .deliver)]) s' ∧
      Channel.owner (s.chans.objs ch.toNat).log = none ∧
      Channel.AnswersOpen ans ch e2.chan.token tx seq.requestId req.msg.requestHdr.requestHandle req.msg.requestLifetime ∧
      (s'.srv.conns k).log = (s.srv.conns k).log ++ [.up (.open c0 flag (pl ++ x)), .assigned ch, .sent (chunk .opn 0x46 ch ans)] ∧
      Ready s' k ch ⟨UInt32.ofNat k, e2.chan.token, seq.sequenceNumber, false⟩ ∧ Blank s' k ∧ s'.sess = s.sess ∧ Beside k ch s s' ∧
      Channel.lastTx (s'.chans.objs ch.toNat).log = some tx ∧ s.chans.ids.len = s'.chans.ids.len + 1 := by
  obtain ⟨b, hrx, hold⟩ := hb
  obtain ⟨tevs, cevs, sevs, ht, hc, hs, hlong⟩ := reach_parts h
  obtain ⟨t, hn, htk, hto⟩ := Transport.chunk_run m tevs s.srv ht k hk hst e1.tcp h1.starts b .opn flag c0 pl
    (by omega) hrx hold (.inl rfl)
  let x := memRead b.packet b.head 12
  have hx : x.length = 12 := MsgStorage.length_memRead _ _ _
  have hsent : sentTcp s.srv t = [.chan (.open (UInt32.ofNat k) (pl ++ x))] := by
    rw [sentTcp_eq hk (by rw [htk]) hto]
    rfl
  have hdl : (pl ++ x).length ≤ 4064 := by
    rw [List.length_append]
    omega
  have hs1 := step_net (s := s) (e := e1) hn (by rw [hsent]; intro y hy; rw [List.mem_singleton.mp hy]; simp only [Mail.size]; omega) (by
    rw [hbox, hsent]; have := h1.others; simp only [List.length_cons, List.length_nil]; omega)
  rw [hsent, hbox, List.nil_append] at hs1
  have hreach1 : Reach m u (evs ++ [(e1, .net (.linkData k))]) { s with srv := t, box := [.chan (.open (UInt32.ofNat k) (pl ++ x))] } :=
    h.step ⟨rfl, hk, (Transport.reach_live ht hk (by rw [hst]; simp)).choose_spec.2.2.2.2.link⟩ hs1
  obtain ⟨j, c, ans, tx, hj, hjo, hcn, hcg, hans, hctok, hcseq, hctx, hcl⟩ := Channel.open_run hc hfree e2.chan (UInt32.ofNat k) sec seq req hsays (pl ++ x) x rfl (by omega)
  have hjn : (UInt32.ofNat j).toNat = j := (toNat_eq (lt33 hj)).mpr rfl
  have hcs : sentChan s.chans c = [.tcp k (.openRsp (UInt32.ofNat j) 0x46 ans)] := by
    rw [sentChan_eq hj hcg]
    show [Mail.tcp (UInt32.ofNat k).toNat _] = _
    rw [(toNat_eq (lt33 hk)).mpr rfl]
  have hal : ans.length ≤ 276 := small_chan (n := 4064) hcn hdl (.tcp k (.openRsp (UInt32.ofNat j) 0x46 ans)) (by rw [hcs]; exact List.mem_cons_self)
  have hs2 := step_chan (s := { s with srv := t, box := [.chan (.open (UInt32.ofNat k) (pl ++ x))] }) (e := e2) (rest := []) (c := c) rfl hcn
    (by show ∀ z ∈ sentChan s.chans c, _; rw [hcs]; intro z hz; rw [List.mem_singleton.mp hz]; simp only [Mail.size]; omega)
    (by show 0 + (sentChan s.chans c).length + _ ≤ _; rw [hcs]; have := h2.others; simp only [List.length_cons, List.length_nil]; omega)
  have hreach2 := hreach1.step (by simp [Possible]) hs2
  obtain ⟨tevs2, _, _, ht2, _⟩ := reach_parts hreach2
  obtain ⟨t3, hn3, ht3k, ht3o⟩ := Transport.open_run m tevs2 t ht2 k hk (by rw [htk]; exact hst) (by rw [htk]; exact hop) e3.tcp h3.writes 0x46
    (UInt32.ofNat j) ans (by omega)
  have ht3s : sentTcp t t3 = [] := by
    rw [sentTcp_eq hk (by rw [ht3k]) ht3o]
    rfl
  have hs3 := step_tcp (s := { s with srv := t, chans := c, box := [] ++ sentChan s.chans c }) (e := e3) (rest := []) (t := t3) (by
      show [] ++ sentChan s.chans c = _; rw [hcs]; rfl) hn3
    (by show ∀ z ∈ sentTcp t t3, _; rw [ht3s]; intro z hz; cases hz)
    (by show 0 + (sentTcp t t3).length + _ ≤ _; rw [ht3s]; have := h3.others; simp only [List.length_nil]; omega)
  have hbx : (s.box = []) := hbox
  have hreach3 := hreach2.step (e := e3) (v := .deliver) (by show [] ++ sentChan s.chans c ≠ []; rw [hcs]; simp) hs3
  refine ⟨{ s with srv := t3, chans := c, box := [] ++ sentTcp t t3 }, UInt32.ofNat j, ans, tx, x, ?_, ?_, ?_, hans, ?_, ⟨hk, ?_, ?_, ?_, by rw [hjn]; exact hj, ?_, rfl, ?_⟩, ?_, rfl, ⟨fun i hi => ?_, fun i hi => ?_⟩, by rw [hjn]; exact hctx, hcl⟩
  · rw [run_cons hs1, run_cons hs2, run_cons hs3]
    rfl
  · simpa only [List.append_assoc, List.cons_append, List.nil_append] using hreach3
  · rw [hjn]
    exact hjo
  · show (t3.conns k).log = _
    rw [ht3k, htk]
    simp only [List.append_assoc, List.cons_append, List.nil_append]
    rfl
  · show (t3.conns k).st = _
    rw [ht3k, htk]
    exact hst
  · show (t3.conns k).opened = _
    rw [ht3k, htk]
    exact hop
  · show (t3.conns k).assoc = _
    rw [ht3k]
  · refine ⟨?_, ?_, ?_⟩ <;> show _ = _
    · show Channel.owner (c.objs (UInt32.ofNat j).toNat).log = _
      rw [hjn, hcg.1]
      rw [show ∀ (l : List CAct) (a b c : CAct), l ++ [a, b, c] = l ++ [a] ++ [b] ++ [c] by simp, Channel.owner_snoc, Channel.owner_snoc]
    · show (c.objs (UInt32.ofNat j).toNat).token = _
      rw [hjn]
      exact hctok
    · show (c.objs (UInt32.ofNat j).toNat).rxSeq = _
      rw [hjn]
      exact hcseq
  · show [] ++ sentTcp t t3 = _
    rw [ht3s]
    rfl
  · show (t3.conns k).rx.tail = 0 ∧ (t3.conns k).rx.head = 0
    rw [ht3k, htk]
    exact ⟨rfl, rfl⟩
  · show t3.conns i = _
    rw [ht3o i hi, hto i hi]
  · rw [hjn] at hi
    exact hcg.2 i hi

end Stack

end Uscada.Ua
