import Verif.UaDialogue
/-!
# C80: several clients at once

Any number of clients, each with its own connection, channel and sessions, carry out their plans (C79) at the same time.  The requests of
one are served in between those of the others: whenever a client has something to ask it may do so, while the messages of the others are
still in the mailbox, and the messages of all are delivered in the order in which they were sent.
-/

namespace Uscada.Ua

open SM

namespace Stack

open Transport (Down TEv tlogs chunk HoldsChunk upOf)
open Channel (clogs Window window bound word)
open Session (slogs bytesOf Fits isOpen holder Says)

variable {m : Nat → Mem} {u : Nat → UInt32 × UInt32} {evs : List (Env × Ev)} {s s' : Stack}

/-! ## Specification: the clients -/

/-- The request that comes first. -/
def Plan.id : Plan → UInt32
  | .done => 0
  | .ask id _ _ _ => id

def Plan.body : Plan → List UInt8
  | .done => []
  | .ask _ _ body _ => body

def Plan.isDone : Plan → Bool
  | .done => true
  | .ask _ _ _ _ => false

/-- A client: its connection, channel, window and the sequence number it heard last, what it still wants to do, whether it waits for the
answer to the first request of that, and what it asked and was answered so far. -/
structure Client where
  conn : Nat
  chan : UInt32
  win : Window
  tx : UInt32
  plan : Plan
  waiting : Bool
  heard : List (SReq × List UInt8)

/-- It may send a request. -/
def Client.wishes (c : Client) : Bool := !c.waiting && !c.plan.isDone

/-- The request it sends. -/
def Client.says (c : Client) : List UInt8 := chunk .msg 0x46 c.chan (request c.win c.plan.id c.plan.body)

/-- These chunks come from the server: none, or the answer it waits for. -/
def Client.hears (c : Client) : List (List UInt8) → Option Client
  | [] => some c
  | [f] =>
    match c.waiting, c.plan with
    | true, .ask id r _ next =>
      (understood c.chan c.win.token (c.tx + 1) id f).map fun ans =>
        { c with win := Window.next c.win, tx := c.tx + 1, plan := next ans, waiting := false, heard := c.heard ++ [(r, ans)] }
    | _, _ => none
  | _ => none

/-- A client sends its request, or the oldest message is delivered. -/
inductive Move where
  | talk (i : Nat)
  | deliver

def upd {α : Type} (f : Nat → α) (i : Nat) (x : α) : Nat → α := fun j => if j = i then x else f j

/-- All clients and the server. -/
structure World where
  clients : Nat → Client
  stack : Stack

/-- What was written to the connections of the first `n` clients is heard. -/
def hearAll (n : Nat) (s s' : Stack) (cs : Nat → Client) : Option World :=
  if ∀ i, i < n → ((cs i).hears (written s s' (cs i).conn)).isSome then
    some ⟨fun i => ((cs i).hears (written s s' (cs i).conn)).getD (cs i), s'⟩
  else none

/-- One move.  A client that waits or is done stays silent; without a message there is nothing to deliver.  The result is `none` if a client hears something that
is not the answer it waits for. -/
def makes (n : Nat) (x : World) (e : Env) : Move → Exec (Option World)
  | .talk i =>
    if i < n ∧ (x.clients i).wishes then do
      let s' ← step x.stack (e.brings (x.clients i).says) (.net (.linkData (x.clients i).conn))
      pure (hearAll n x.stack s' (upd x.clients i { x.clients i with waiting := true }))
    else .ok (some x)
  | .deliver => do
    let s' ← step x.stack e .deliver
    pure (hearAll n x.stack s' x.clients)

/-- A list of moves. -/
def together (n : Nat) (x : World) : List (Env × Move) → Exec (Option World)
  | [] => .ok (some x)
  | (e, v) :: l => do
    match ← makes n x e v with
    | some y => together n y l
    | none => .ok none

/-- The requests and answers lead from one plan to what is left of it; each answer fits its request. -/
def Follows : Plan → List (SReq × List UInt8) → Plan → Prop
  | p, [], q => p = q
  | p, (r, ans) :: l, q => ∃ id body next, p = .ask id r body next ∧ (∃ x, Fits x r ans) ∧ Follows (next ans) l q

/-- The sum of the first `n` numbers. -/
def total (f : Nat → Nat) : Nat → Nat
  | 0 => 0
  | n + 1 => total f n + f n

/-- The clients are connected, no message is pending, and the clients are apart: each has its own connection, channel and sessions, and there are free sessions for what all
of them may create. -/
structure Apart (n : Nat) (s : Stack) (cs : Nat → Client) (K : Nat → Know) : Prop where
  ready : ∀ i, i < n → Ready s (cs i).conn (cs i).chan (cs i).win
  blank : ∀ i, i < n → Blank s (cs i).conn
  tx : ∀ i, i < n → Channel.lastTx (s.chans.objs (cs i).chan.toNat).log = some (cs i).tx
  idle : ∀ i, i < n → (cs i).waiting = false
  holds : ∀ i, i < n → Holds (K i) s (cs i).chan
  sound : ∀ i, i < n → Sound (K i) (cs i).plan
  conns : ∀ i j, i < n → j < n → i ≠ j → (cs i).conn ≠ (cs j).conn
  chans : ∀ i j, i < n → j < n → i ≠ j → (cs i).chan ≠ (cs j).chan
  sessions : ∀ i j, i < n → j < n → i ≠ j → ∀ x ∈ (K i).opened, x ∉ (K j).opened
  free : total (fun i => (K i).free) n ≤ s.sess.ids.len
  box : s.box = []

/-- Nothing goes wrong outside: there are two slots for each client, the timer starts and the link takes the bytes. -/
structure Roomy (n : Nat) (e : Env) : Prop where
  others : e.others + 2 * n ≤ 64
  starts : e.tcp.starts = true
  writes : e.tcp.writes = true

/-! ## Sums -/

theorem upd_same {α : Type} (f : Nat → α) (i : Nat) (x : α) : upd f i x i = x := if_pos rfl

theorem upd_other {α : Type} (f : Nat → α) {i j : Nat} (x : α) (h : j ≠ i) : upd f i x j = f j := if_neg h

theorem total_congr {f g : Nat → Nat} {n : Nat} (h : ∀ i, i < n → f i = g i) : total f n = total g n := by
  induction n with
  | zero => rfl
  | succ n ih =>
    simp only [total]
    rw [ih fun i hi => h i (by omega), h n (by omega)]

theorem total_upd {f : Nat → Nat} {n i : Nat} (hi : i < n) (x : Nat) : total (upd f i x) n + f i = total f n + x := by
  induction n with
  | zero => omega
  | succ n ih =>
    simp only [total]
    by_cases h : i = n
    · subst h
      rw [upd_same, total_congr (g := f) fun j hj => upd_other f x (by omega)]
      omega
    · rw [upd_other f x (show n ≠ i by omega)]
      have := ih (by omega)
      omega

theorem le_total {f : Nat → Nat} {n i : Nat} (hi : i < n) : f i ≤ total f n := by
  have := total_upd (f := f) hi 0
  omega

theorem total_le {f : Nat → Nat} {n b : Nat} (h : ∀ i, i < n → f i ≤ b) : total f n ≤ b * n := by
  induction n with
  | zero => exact Nat.zero_le _
  | succ n ih =>
    have := ih fun i hi => h i (by omega)
    have := h n (by omega)
    simp only [total, Nat.mul_succ]
    omega

/-! ## The service component -/

def isActivate : SReq → Bool
  | .activate _ => true
  | _ => false

/-- The messages by which a request is answered. -/
def replies (hdr : MsgHdr) (x : UInt32) (r : SReq) (ans : List UInt8) : List Mail :=
  if isActivate r then [.chan (.associate { hdr with sessionId := x }), .chan (.send { hdr with sessionId := x } ans)] else [.chan (.send hdr ans)]

/-- A request that may be sent is answered. -/
theorem serve_any {sevs : List Session.SIn} {t : Sessions} (h : Session.Reach sevs t) {K : Know} {ch : UInt32}
    (hop : ∀ x ∈ K.opened, Pool.valid x.toNat ∧ isOpen (t.objs x.toNat).log = true)
    (hac : ∀ x ∈ K.active, x ∈ K.opened ∧ holder (t.objs x.toNat).log = some ch) {hdr : MsgHdr} (hch : hdr.secureChannelId = ch)
    (hlast : ∀ x, K.last = some x → hdr.sessionId = x) (hfree : 0 < K.free → t.ids.len ≠ 0) (e : SEnv) {r : SReq} {body z : List UInt8} (hq : Says r body)
    (hz : (body ++ z).length ≤ 4096) {x : UInt32} (hm : K.May x r) : ∃ c ans x',
      Session.next t ⟨e, hdr, body ++ z⟩ = .ok c ∧ sentSess t c = replies hdr x' r ans ∧ Fits x'.toNat r ans ∧
      (∀ y ∈ (K.after x' r).opened, Pool.valid y.toNat ∧ isOpen (c.objs y.toNat).log = true) ∧
      (∀ y ∈ (K.after x' r).active, y ∈ (K.after x' r).opened ∧ holder (c.objs y.toNat).log = some ch) ∧
      (K.after x' r).free + t.ids.len = c.ids.len + K.free ∧
      (∀ j, Pool.valid j → isOpen (t.objs j).log = true → (∀ y ∈ K.opened, y.toNat ≠ j) → c.objs j = t.objs j ∧ ∀ y ∈ (K.after x' r).opened, y.toNat ≠ j) ∧
      (if isCreate r then Pool.valid x'.toNat ∧ x' ∉ K.opened else x' = x) ∧
      (K.after x' r).last = if isActivate r then some x' else K.last := by
  have hreach : ∀ {c}, Session.next t ⟨e, hdr, body ++ z⟩ = .ok c → Session.Reach (sevs ++ [⟨e, hdr, body ++ z⟩]) c := fun hn => h.step hn
  have three : ∀ (l : List SAct) (a b c : SAct), l ++ [a, b, c] = l ++ [a] ++ [b] ++ [c] := by simp
  cases r with
  | getEndpoints q =>
    obtain ⟨c, ans, g1, g2, g3⟩ := Session.C50_endpoints t e hdr q hq hz
    have hv0 : ∀ {j}, Pool.valid j → j ≠ 0 := fun hj => by have := hj.1; omega
    refine ⟨c, ans, x, g1, (sentSess_eq (by omega) g2).trans rfl, g3, fun y hy => ?_, fun y hy => ?_, ?_, fun j hj _ hn => ⟨g2.2 j (hv0 hj), hn⟩, rfl, rfl⟩
    · have := hop y hy
      exact ⟨this.1, by rw [g2.2 _ (hv0 this.1)]; exact this.2⟩
    · have := hac y hy
      exact ⟨this.1, by rw [g2.2 _ (hv0 (hop y this.1).1)]; exact this.2⟩
    · rw [len_same h (hreach g1) fun j hj => by rw [g2.2 j (hv0 hj)]]
      exact Nat.add_comm _ _
  | create q =>
    obtain ⟨n, c, rsp, g4, g5, g1, g2, g3, g6, -⟩ := Session.C40_create h (hfree hm) e hdr q hq hz
    have hn : (UInt32.ofNat n).toNat = n := (toNat_eq (lt33 g4)).mpr rfl
    have hne : ∀ {j : Nat}, isOpen (t.objs j).log = true → j ≠ n := fun ho he => by
      rw [he, g5] at ho
      cases ho
    refine ⟨c, _, UInt32.ofNat n, g1, (sentSess_eq (lt33 g4) g2).trans rfl, by rw [hn]; exact g3, fun y hy => ?_, fun y hy => ?_, ?_, fun j hj ho hnm => ⟨g2.2 j (hne ho), fun y hy => ?_⟩,
      ⟨by rw [hn]; exact g4, fun hy => ?_⟩, rfl⟩
    · rcases List.mem_cons.mp hy with rfl | hy
      · rw [hn]
        exact ⟨g4, g6⟩
      · have := hop y hy
        exact ⟨this.1, by rw [g2.2 _ (hne this.2)]; exact this.2⟩
    · have := hac y hy
      exact ⟨List.mem_cons_of_mem _ this.1, by rw [g2.2 _ (hne (hop y this.1).2)]; exact this.2⟩
    · have := len_opens h (hreach g1) g4 g5 g6 fun j hj => by rw [g2.2 j hj]
      have : 0 < K.free := hm
      show K.free - 1 + _ = _
      omega
    · rcases List.mem_cons.mp hy with rfl | hy
      · rw [hn]
        exact (hne ho).symm
      · exact hnm y hy
    · exact hne (hop _ hy).2 hn
  | activate q =>
    obtain ⟨hx, ht⟩ := hm
    obtain ⟨hv, ho⟩ := hop x hx
    obtain ⟨c, ans, g1, g2, g3⟩ := Session.C50_activate h e hdr hv ho q hq ht hz
    have g5 : isOpen (c.objs x.toNat).log = true := by
      rw [g2.1, three, Session.isOpen_snoc, Session.isOpen_snoc, Session.isOpen_snoc]
      exact ho
    have g6 : holder (c.objs x.toNat).log = some ch := by
      rw [g2.1, three, Session.holder_snoc, Session.holder_snoc]
      exact congrArg some hch
    refine ⟨c, ans, x, g1, (sentSess_eq (lt33 hv) g2).trans rfl, g3, fun y hy => ?_, fun y hy => ?_, ?_, fun j hj _ hnm => ⟨g2.2 j fun he => hnm x hx he.symm, hnm⟩, rfl, rfl⟩
    · have := hop y hy
      by_cases hyx : y.toNat = x.toNat
      · exact ⟨this.1, by rw [hyx]; exact g5⟩
      · exact ⟨this.1, by rw [g2.2 _ hyx]; exact this.2⟩
    · rcases List.mem_cons.mp hy with rfl | hy
      · exact ⟨hx, g6⟩
      · have := hac y hy
        by_cases hyx : y.toNat = x.toNat
        · exact ⟨this.1, by rw [hyx]; exact g6⟩
        · exact ⟨this.1, by rw [g2.2 _ hyx]; exact this.2⟩
    · rw [len_same h (hreach g1) fun j hj => ?_]
      · exact Nat.add_comm _ _
      · by_cases hjx : j = x.toNat
        · rw [hjx, g5, ho]
        · rw [g2.2 j hjx]
  | read q =>
    obtain ⟨hl, hx⟩ := hm
    obtain ⟨hxo, hh⟩ := hac x hx
    obtain ⟨hv, ho⟩ := hop x hxo
    have hs := hlast x hl
    subst hs
    obtain ⟨c, ans, g1, g2, g3⟩ := Session.C39_answers h e hdr hv (hh.trans (congrArg some hch.symm)) q hq hz
    have g5 : isOpen (c.objs hdr.sessionId.toNat).log = true := by
      rw [g2.1, three, Session.isOpen_snoc, Session.isOpen_snoc, Session.isOpen_snoc]
      exact ho
    have g6 : holder (c.objs hdr.sessionId.toNat).log = some ch := by
      rw [g2.1, three, Session.holder_snoc, Session.holder_snoc, Session.holder_snoc]
      exact hh
    refine ⟨c, ans, hdr.sessionId, g1, (sentSess_eq (lt33 hv) g2).trans rfl, g3, fun y hy => ?_, fun y hy => ?_, ?_, fun j hj _ hnm => ⟨g2.2 j fun he => hnm _ hxo he.symm, hnm⟩, rfl, rfl⟩
    · have := hop y hy
      by_cases hyx : y.toNat = hdr.sessionId.toNat
      · exact ⟨this.1, by rw [hyx]; exact g5⟩
      · exact ⟨this.1, by rw [g2.2 _ hyx]; exact this.2⟩
    · have := hac y hy
      by_cases hyx : y.toNat = hdr.sessionId.toNat
      · exact ⟨this.1, by rw [hyx]; exact g6⟩
      · exact ⟨this.1, by rw [g2.2 _ hyx]; exact this.2⟩
    · rw [len_same h (hreach g1) fun j hj => ?_]
      · exact Nat.add_comm _ _
      · by_cases hjx : j = hdr.sessionId.toNat
        · rw [hjx, g5, ho]
        · rw [g2.2 j hjx]
  | close q =>
    obtain ⟨hx, ht⟩ := hm
    obtain ⟨hv, ho⟩ := hop x hx
    obtain ⟨c, ans, g1, g2, g3, g4⟩ := Session.C40_close h e hdr hv ho q hq ht hz
    have hne : ∀ {y : UInt32} {l : List UInt32}, y ∈ l.filter (· != x) → y ∈ l ∧ y.toNat ≠ x.toNat := fun hy => by
      obtain ⟨h1, h2⟩ := List.mem_filter.mp hy
      exact ⟨h1, fun hx => by rw [UInt32.toNat_inj.mp hx] at h2; simp at h2⟩
    refine ⟨c, ans, x, g1, (sentSess_eq (lt33 hv) g2).trans rfl, g3, fun y hy => ?_, fun y hy => ?_, ?_,
      fun j hj _ hnm => ⟨g2.2 j fun he => hnm x hx he.symm, fun y hy => hnm y (hne hy).1⟩, rfl, rfl⟩
    · obtain ⟨hy, hyx⟩ := hne hy
      have := hop y hy
      exact ⟨this.1, by rw [g2.2 _ hyx]; exact this.2⟩
    · obtain ⟨hy, hyx⟩ := hne hy
      have := hac y hy
      exact ⟨List.mem_filter.mpr ⟨this.1, by simp only [bne_iff_ne]; exact fun he => hyx (by rw [he])⟩, by rw [g2.2 _ hyx]; exact this.2⟩
    · show K.free + 1 + _ = _
      omega

/-! ## Where a request is -/

/-- Nowhere, or in a message that waits for a component. -/
inductive Phase where
  | idle
  | chan (x : List UInt8)
  | sess (sid : UInt32) (z : List UInt8)
  | bind (sid : UInt32) (ans : List UInt8)
  | send (sid : UInt32) (ans : List UInt8)
  | tcp (ans : List UInt8)

namespace Phase

/-- The messages. -/
def mails (c : Client) : Phase → List Mail
  | idle => []
  | chan x => [.chan (.message (UInt32.ofNat c.conn) c.chan (request c.win c.plan.id c.plan.body ++ x))]
  | sess sid z => [.sess ⟨UInt32.ofNat c.conn, c.chan, c.plan.id, sid⟩ (c.plan.body ++ z)]
  | bind sid ans => [.chan (.associate ⟨UInt32.ofNat c.conn, c.chan, c.plan.id, sid⟩), .chan (.send ⟨UInt32.ofNat c.conn, c.chan, c.plan.id, sid⟩ ans)]
  | send sid ans => [.chan (.send ⟨UInt32.ofNat c.conn, c.chan, c.plan.id, sid⟩ ans)]
  | tcp ans => [.tcp c.conn (.sendReq c.chan 0x46 (answer (Window.next c.win) (c.tx + 1) c.plan.id ans))]

/-- The window of the channel. -/
def win (c : Client) : Phase → Window
  | idle => c.win
  | chan _ => c.win
  | _ => Window.next c.win

/-- The number of the chunk sent last. -/
def tx (c : Client) : Phase → UInt32
  | tcp _ => c.tx + 1
  | _ => c.tx

/-- The session the channel is bound to. -/
def binding (b : Option UInt32) (K : Know) : Phase → Prop
  | sess sid _ => (∀ x, K.last = some x → b = some x) ∧ ∀ y, b = some y → sid = y
  | send sid _ => (∀ x, K.last = some x → b = some x) ∧ ∀ y, b = some y → sid = y
  | bind sid _ => K.last = some sid
  | _ => ∀ x, K.last = some x → b = some x

/-- An answer, and what follows on it. -/
def Answered (c : Client) (K : Know) (ans : List UInt8) : Prop :=
  ans.length ≤ 264 ∧ ∃ id r body next, c.plan = .ask id r body next ∧ (∃ x, Fits x r ans) ∧ Sound K (next ans)

/-- What is still to come. -/
def future (c : Client) (K : Know) : Phase → Prop
  | idle => c.waiting = false ∧ Sound K c.plan
  | chan x => c.waiting = true ∧ x.length = 12 ∧ c.plan.isDone = false ∧ Sound K c.plan
  | sess _ z => c.waiting = true ∧ z.length = 24 ∧ c.plan.isDone = false ∧ Sound K c.plan
  | bind _ ans => c.waiting = true ∧ Answered c K ans
  | send _ ans => c.waiting = true ∧ Answered c K ans
  | tcp ans => c.waiting = true ∧ Answered c K ans

end Phase

/-- What holds of a client. -/
structure Stage (s : Stack) (c : Client) (K : Know) (ph : Phase) : Prop where
  conn : Pool.valid c.conn
  st : (s.srv.conns c.conn).st = .connected
  opened : (s.srv.conns c.conn).opened = true
  assoc : (s.srv.conns c.conn).assoc = some c.chan
  chan : Pool.valid c.chan.toNat
  owner : c.win.owner = UInt32.ofNat c.conn
  blank : Blank s c.conn
  knows : Channel.Knows s.chans c.chan (ph.win c)
  tx : Channel.lastTx (s.chans.objs c.chan.toNat).log = some (ph.tx c)
  binding : ph.binding (bound (s.chans.objs c.chan.toNat).log) K
  future : ph.future c K
  open_ : ∀ x ∈ K.opened, Pool.valid x.toNat ∧ isOpen (s.sess.objs x.toNat).log = true
  active : ∀ x ∈ K.active, x ∈ K.opened ∧ holder (s.sess.objs x.toNat).log = some c.chan

theorem Stage.frame {c : Client} {K : Know} {ph : Phase} (h : Stage s c K ph) (h1 : s'.srv.conns c.conn = s.srv.conns c.conn)
    (h2 : s'.chans.objs c.chan.toNat = s.chans.objs c.chan.toNat) (h3 : ∀ x ∈ K.opened, s'.sess.objs x.toNat = s.sess.objs x.toNat) : Stage s' c K ph := by
  refine ⟨h.conn, ?_, ?_, ?_, h.chan, h.owner, ?_, ⟨?_, ?_, ?_⟩, ?_, ?_, h.future, fun x hx => ?_, fun x hx => ?_⟩
  · rw [h1]; exact h.st
  · rw [h1]; exact h.opened
  · rw [h1]; exact h.assoc
  · unfold Blank; rw [h1]; exact h.blank
  · rw [h2]; exact h.knows.owner
  · rw [h2]; exact h.knows.token
  · rw [h2]; exact h.knows.seq
  · rw [h2]; exact h.tx
  · rw [h2]; exact h.binding
  · rw [h3 x hx]; exact h.open_ x hx
  · rw [h3 x (h.active x hx).1]; exact h.active x hx

/-- What a step for client `c` may change. -/
structure Goes (s s' : Stack) (c : Client) (K K' : Know) : Prop where
  conns : ∀ j, j ≠ c.conn → s'.srv.conns j = s.srv.conns j
  chans : ∀ j, j ≠ c.chan.toNat → s'.chans.objs j = s.chans.objs j
  sess : ∀ j, Pool.valid j → isOpen (s.sess.objs j).log = true → (∀ y ∈ K.opened, y.toNat ≠ j) →
    s'.sess.objs j = s.sess.objs j ∧ ∀ y ∈ K'.opened, y.toNat ≠ j
  free : K'.free + s.sess.ids.len = s'.sess.ids.len + K.free

theorem splits (l : List CAct) (a b : CAct) : l ++ [a, b] = l ++ [a] ++ [b] := by simp

/-- A request arrives. -/
theorem goes_talk (h : Reach m u evs s) {c : Client} {K : Know} (hs : Stage s c K .idle) (hw : c.wishes = true) {e : Env} (he : e.tcp.starts = true)
    (hr : s.box.length + 1 + e.others ≤ 64) : ∃ s' x, step s (e.brings c.says) (.net (.linkData c.conn)) = .ok s' ∧
      Reach m u (evs ++ [(e.brings c.says, .net (.linkData c.conn))]) s' ∧ Stage s' { c with waiting := true } K (.chan x) ∧ Goes s s' c K K ∧
      s'.box = s.box ++ (Phase.chan x).mails c ∧ written s s' c.conn = [] := by
  have hd : c.plan.isDone = false := by
    unfold Client.wishes at hw
    revert hw
    cases c.plan.isDone <;> simp
  have hlen : c.plan.body.length ≤ 4032 := by
    have := hs.future.2
    revert this hd
    cases c.plan with
    | done => exact fun h => nomatch h
    | ask id r body next => exact fun _ h => h.2.1
  have hb : Brings s (e.brings c.says) c.conn c.says := brings_whole hs.opened hs.blank.1 hs.blank.2 (by rw [request_length]; omega) rfl
  obtain ⟨b, hrx, hold⟩ := hb
  obtain ⟨tevs, cevs, sevs, ht, hc, hss, hlong⟩ := reach_parts h
  obtain ⟨t, hn, htk, hto⟩ := Transport.chunk_run m tevs s.srv ht c.conn hs.conn hs.st (e.brings c.says).tcp he b .msg 0x46 c.chan (request c.win c.plan.id c.plan.body)
    (by rw [request_length]; omega) hrx hold (.inr ⟨by simp, hs.assoc⟩)
  have hsent : sentTcp s.srv t = [.chan (.message (UInt32.ofNat c.conn) c.chan (request c.win c.plan.id c.plan.body ++ memRead b.packet b.head 12))] := by
    rw [sentTcp_eq hs.conn (by rw [htk]) hto]
    rfl
  have hx : (memRead b.packet b.head 12).length = 12 := MsgStorage.length_memRead _ _ _
  have hs1 := step_net (s := s) (e := e.brings c.says) hn
    (by
      rw [hsent]
      intro y hy
      rw [List.mem_singleton.mp hy]
      simp only [Mail.size, List.length_append, request_length]
      omega)
    (by rw [hsent]; exact hr)
  rw [hsent] at hs1
  refine ⟨_, memRead b.packet b.head 12, hs1, h.step ⟨rfl, hs.conn, (Transport.reach_live ht hs.conn (by rw [hs.st]; simp)).choose_spec.2.2.2.2.link⟩ hs1,
    ⟨hs.conn, ?_, ?_, ?_, hs.chan, hs.owner, ?_, hs.knows, hs.tx, hs.binding, ⟨rfl, hx, hd, hs.future.2⟩, hs.open_, hs.active⟩,
    ⟨hto, fun _ _ => rfl, fun _ _ _ hn => ⟨rfl, hn⟩, Nat.add_comm _ _⟩, rfl, ?_⟩
  · show (t.conns c.conn).st = _
    rw [htk]
    exact hs.st
  · show (t.conns c.conn).opened = _
    rw [htk]
    exact hs.opened
  · show (t.conns c.conn).assoc = _
    rw [htk]
    exact hs.assoc
  · show (t.conns c.conn).rx.tail = 0 ∧ (t.conns c.conn).rx.head = 0
    rw [htk]
    exact ⟨rfl, rfl⟩
  · show ((t.conns c.conn).log.drop (s.srv.conns c.conn).log.length).filterMap _ = _
    rw [htk]
    show (((s.srv.conns c.conn).log ++ _).drop (s.srv.conns c.conn).log.length).filterMap _ = _
    rw [List.drop_left]
    rfl

/-- Nothing is written to a connection that stays as it is. -/
theorem written_same {k : Nat} (h : s'.srv.conns k = s.srv.conns k) : written s s' k = [] := by
  unfold written
  rw [h, List.drop_length]
  rfl

/-- The channel accepts the request. -/
theorem goes_chan (h : Reach m u evs s) {c : Client} {K : Know} {x : List UInt8} (hs : Stage s c K (.chan x)) {e : Env} {rest : List Mail}
    (hb : s.box = (Phase.chan x).mails c ++ rest) (hr : rest.length + 1 + e.others ≤ 64) : ∃ s' sid z, step s e .deliver = .ok s' ∧
      Reach m u (evs ++ [(e, .deliver)]) s' ∧ Stage s' c K (.sess sid z) ∧ Goes s s' c K K ∧ s'.box = rest ++ (Phase.sess sid z).mails c ∧
      written s s' c.conn = [] := by
  obtain ⟨hwt, hx, hd, hsound⟩ := hs.future
  have hlen : c.plan.body.length ≤ 4032 := by
    revert hsound hd
    cases c.plan with
    | done => exact fun h => nomatch h
    | ask id r body next => exact fun _ h => h.2.1
  obtain ⟨tevs, cevs, sevs, ht, hc, hss, hlong⟩ := reach_parts h
  have hkn : Channel.Knows s.chans c.chan c.win := hs.knows
  obtain ⟨c', hcn, hcg, hck, _⟩ := Channel.accepted_run hc hs.chan hkn e.chan c.plan.id (c.plan.body ++ x) (request c.win c.plan.id c.plan.body ++ x)
    (request_append _ _ _ _) (by rw [List.length_append, request_length]; omega)
  let y := memRead e.chan.mem (12 + (c.plan.body ++ x).length) 12
  have hy : y.length = 12 := MsgStorage.length_memRead _ _ _
  let sid := (bound (s.chans.objs c.chan.toNat).log).getD invalidSuid
  have hsent : sentChan s.chans c' = (Phase.sess sid (x ++ y)).mails c := by
    rw [sentChan_eq hs.chan hcg]
    show [Mail.sess ⟨c.win.owner, _, _, _⟩ (c.plan.body ++ x ++ y)] = _
    rw [hs.owner, List.append_assoc]
    rfl
  have hs1 := step_chan (s := s) (e := e) (rest := rest) (x := .message (UInt32.ofNat c.conn) c.chan (request c.win c.plan.id c.plan.body ++ x)) (c := c') hb
    (by rw [← hs.owner]; exact hcn)
    (by
      rw [hsent]
      intro w hw
      rw [List.mem_singleton.mp hw]
      simp only [Mail.size, List.length_append]
      omega)
    (by rw [hsent]; exact hr)
  rw [hsent] at hs1
  have hbd : bound (c'.objs c.chan.toNat).log = bound (s.chans.objs c.chan.toNat).log := by
    rw [hcg.1, splits, Channel.bound_snoc, Channel.bound_snoc]
  refine ⟨_, sid, x ++ y, hs1, h.step (by rw [Possible, hb]; simp [Phase.mails]) hs1, ⟨hs.conn, hs.st, hs.opened, hs.assoc, hs.chan, hs.owner, hs.blank, hck, ?_, ⟨?_, fun w hw => ?_⟩,
    ⟨hwt, ?_, hd, hsound⟩, hs.open_, hs.active⟩, ⟨fun _ _ => rfl, hcg.2, fun _ _ _ hn => ⟨rfl, hn⟩, Nat.add_comm _ _⟩, rfl, written_same rfl⟩
  · show Channel.lastTx (c'.objs c.chan.toNat).log = _
    rw [hcg.1, lastTx_keeps rfl (by simp) (by simp)]
    exact hs.tx
  · rw [hbd]
    exact hs.binding
  · have hw : bound (c'.objs c.chan.toNat).log = some w := hw
    rw [hbd] at hw
    show (bound (s.chans.objs c.chan.toNat).log).getD invalidSuid = w
    rw [hw]
    rfl
  · rw [List.length_append]
    omega

/-- The service component answers. -/
theorem goes_sess (h : Reach m u evs s) {c : Client} {K : Know} {sid : UInt32} {z : List UInt8} (hs : Stage s c K (.sess sid z)) (hfree : 0 < K.free → s.sess.ids.len ≠ 0)
    {e : Env} {rest : List Mail} (hb : s.box = (Phase.sess sid z).mails c ++ rest) (hr : rest.length + 2 + e.others ≤ 64) : ∃ s' K' ph,
      (∃ x ans, ph = .bind x ans ∨ ph = .send x ans) ∧ step s e .deliver = .ok s' ∧
      Reach m u (evs ++ [(e, .deliver)]) s' ∧ Stage s' c K' ph ∧ Goes s s' c K K' ∧ s'.box = rest ++ ph.mails c ∧ written s s' c.conn = [] := by
  obtain ⟨hwt, hz, hd, hsound⟩ := hs.future
  obtain ⟨hb1, hb2⟩ := hs.binding
  obtain ⟨tevs, cevs, sevs, ht, hc, hss, hlong⟩ := reach_parts h
  cases hp : c.plan with
  | done => rw [hp] at hd; cases hd
  | ask id r body next =>
    rw [hp] at hsound
    obtain ⟨hq, hlen, hsound⟩ := hsound
    obtain ⟨x, hm, hnext⟩ : ∃ x, K.May x r ∧ ∀ x' ans, (if isCreate r then Pool.valid x'.toNat ∧ x' ∉ K.opened else x' = x) → Fits x'.toNat r ans →
        ans.length ≤ 264 → Sound (K.after x' r) (next ans) := by
      by_cases hcr : isCreate r = true
      · rw [if_pos hcr] at hsound
        refine ⟨0, hsound.1, fun x' ans hx hf hl => ?_⟩
        rw [if_pos hcr] at hx
        exact hsound.2 x' ans hx.1 hx.2 hf hl
      · rw [if_neg hcr] at hsound
        obtain ⟨x, h1, h2⟩ := hsound
        refine ⟨x, h1, fun x' ans hx hf hl => ?_⟩
        rw [if_neg hcr] at hx
        subst hx
        exact h2 ans hf hl
    obtain ⟨c', ans, x', g1, g2, g3, g4, g5, g6, g7, g8, g9⟩ := serve_any hss hs.open_ hs.active (hdr := ⟨UInt32.ofNat c.conn, c.chan, id, sid⟩) rfl
      (fun w hw => hb2 w (hb1 w hw)) hfree e.sess hq (z := z) (by rw [List.length_append]; omega) hm
    have hb' : s.box = .sess ⟨UInt32.ofNat c.conn, c.chan, id, sid⟩ (body ++ z) :: rest := by
      rw [hb]
      simp only [Phase.mails, hp, Plan.id, Plan.body]
      rfl
    have hans : ans.length ≤ 264 := by
      have hsm := small_sess (n := 0) g1
      rw [g2] at hsm
      unfold replies at hsm
      split at hsm
      · exact hsm _ (List.mem_cons_of_mem _ List.mem_cons_self)
      · exact hsm _ List.mem_cons_self
    have hfut : Phase.Answered c (K.after x' r) ans := ⟨hans, id, r, body, next, hp, ⟨_, g3⟩, hnext x' ans g8 g3 hans⟩
    have hone : ∀ ph : Phase, sentSess s.sess c' = ph.mails c → (∃ x ans, ph = .bind x ans ∨ ph = .send x ans) → ph.binding (bound (s.chans.objs c.chan.toNat).log) (K.after x' r) →
        (∀ y ∈ ph.mails c, y.size + 8 ≤ 4096) → (ph.mails c).length ≤ 2 → ph.future c (K.after x' r) →
        ∃ s' K' ph, (∃ x ans, ph = .bind x ans ∨ ph = .send x ans) ∧ step s e .deliver = .ok s' ∧
          Reach m u (evs ++ [(e, .deliver)]) s' ∧ Stage s' c K' ph ∧ Goes s s' c K K' ∧ s'.box = rest ++ ph.mails c ∧ written s s' c.conn = [] := by
      intro ph h1 h2 h3 h4 h5 h6
      have hs1 := step_sess (s := s) (e := e) (c := c') hb' g1 (by rw [h1]; exact h4) (by rw [h1]; omega)
      rw [h1] at hs1
      refine ⟨_, K.after x' r, ph, h2, hs1, h.step (by rw [Possible, hb']; simp) hs1, ⟨hs.conn, hs.st, hs.opened, hs.assoc, hs.chan, hs.owner, hs.blank, ?_, ?_, h3, h6, g4, g5⟩,
        ⟨fun _ _ => rfl, fun _ _ => rfl, g7, g6⟩, rfl, written_same rfl⟩
      · obtain ⟨_, _, rfl | rfl⟩ := h2 <;> exact hs.knows
      · obtain ⟨_, _, rfl | rfl⟩ := h2 <;> exact hs.tx
    by_cases hact : isActivate r = true
    · refine hone (.bind x' ans) ?_ ⟨_, _, .inl rfl⟩ ?_ ?_ (Nat.le_refl _) ⟨hwt, hfut⟩
      · rw [g2, replies, if_pos hact]
        simp only [Phase.mails, hp, Plan.id]
      · show _ = some x'
        rw [g9, if_pos hact]
      · intro y hy
        rcases List.mem_cons.mp hy with hy | hy
        · rw [hy]; simp only [Mail.size]; omega
        · rw [List.mem_singleton.mp hy]; simp only [Mail.size]; omega
    · refine hone (.send sid ans) ?_ ⟨_, _, .inr rfl⟩ ⟨?_, hb2⟩ ?_ (by simp [Phase.mails]) ⟨hwt, hfut⟩
      · rw [g2, replies, if_neg hact]
        simp only [Phase.mails, hp, Plan.id]
      · rw [g9, if_neg hact]
        exact hb1
      · intro y hy
        rw [List.mem_singleton.mp hy]
        simp only [Mail.size]
        omega

/-- The channel is bound to the session. -/
theorem goes_bind (h : Reach m u evs s) {c : Client} {K : Know} {sid : UInt32} {ans : List UInt8} (hs : Stage s c K (.bind sid ans)) {e : Env} {rest : List Mail}
    (hb : s.box = .chan (.associate ⟨UInt32.ofNat c.conn, c.chan, c.plan.id, sid⟩) :: rest) (hr : rest.length + 1 + e.others ≤ 64) : ∃ s', step s e .deliver = .ok s' ∧
      Reach m u (evs ++ [(e, .deliver)]) s' ∧ Stage s' c K (.send sid ans) ∧ Goes s s' c K K ∧ s'.box = rest ∧ written s s' c.conn = [] := by
  obtain ⟨tevs, cevs, sevs, ht, hc, hss, hlong⟩ := reach_parts h
  have hkn : Channel.Knows s.chans c.chan (Window.next c.win) := hs.knows
  have hlast : K.last = some sid := hs.binding
  obtain ⟨c', hn, hg, htok, hseq, _⟩ := associate_run hc (hdr := ⟨UInt32.ofNat c.conn, c.chan, c.plan.id, sid⟩) hs.chan (hkn.owner.trans (congrArg some hs.owner)) e.chan
  have hg : Channel.Grows c.chan.toNat [.got (.associate ⟨UInt32.ofNat c.conn, c.chan, c.plan.id, sid⟩), .associated sid] s.chans c' := hg
  have hsent : sentChan s.chans c' = [] := by
    rw [sentChan_eq hs.chan hg]
    rfl
  have hs1 := step_chan (s := s) (e := e) (c := c') hb hn (by rw [hsent]; intro z hz; cases hz) (by rw [hsent]; simp only [List.length_nil]; omega)
  rw [hsent, List.append_nil] at hs1
  have hbd : bound (c'.objs c.chan.toNat).log = some sid := by
    rw [hg.1, splits, Channel.bound_snoc]
  refine ⟨_, hs1, h.step (by rw [Possible, hb]; simp) hs1, ⟨hs.conn, hs.st, hs.opened, hs.assoc, hs.chan, hs.owner, hs.blank, ⟨?_, htok.trans hkn.token, hseq.trans hkn.seq⟩, ?_, ⟨fun x hx => ?_, fun x hx => ?_⟩,
    hs.future, hs.open_, hs.active⟩, ⟨fun _ _ => rfl, hg.2, fun _ _ _ hn => ⟨rfl, hn⟩, Nat.add_comm _ _⟩, rfl, written_same rfl⟩
  · show Channel.owner (c'.objs c.chan.toNat).log = _
    rw [hg.1, splits, Channel.owner_snoc, Channel.owner_snoc]
    exact hkn.owner
  · show Channel.lastTx (c'.objs c.chan.toNat).log = _
    rw [hg.1, lastTx_keeps rfl (by simp) (by simp)]
    exact hs.tx
  · exact hbd.trans (hlast.symm.trans hx)
  · exact Option.some.inj (hbd.symm.trans hx)

theorem answer_length (w : Window) (tx id : UInt32) (ans : List UInt8) : (answer w tx id ans).length = 12 + ans.length := by
  show (leBytes 4 _ ++ (leBytes 4 _ ++ leBytes 4 _ ++ ans)).length = _
  simp only [List.length_append, MsgStorage.length_leBytes]
  omega

/-- The channel sends the answer. -/
theorem goes_send (h : Reach m u evs s) {c : Client} {K : Know} {sid : UInt32} {ans : List UInt8} (hs : Stage s c K (.send sid ans)) {e : Env} {rest : List Mail}
    (hb : s.box = (Phase.send sid ans).mails c ++ rest) (hr : rest.length + 1 + e.others ≤ 64) : ∃ s', step s e .deliver = .ok s' ∧
      Reach m u (evs ++ [(e, .deliver)]) s' ∧ Stage s' c K (.tcp ans) ∧ Goes s s' c K K ∧ s'.box = rest ++ (Phase.tcp ans).mails c ∧ written s s' c.conn = [] := by
  obtain ⟨tevs, cevs, sevs, ht, hc, hss, hlong⟩ := reach_parts h
  have hkn : Channel.Knows s.chans c.chan (Window.next c.win) := hs.knows
  obtain ⟨hb1, hb2⟩ := hs.binding
  have hans := hs.future.2.1
  obtain ⟨c', n, n', hn, hl, hn', hg, hk, _⟩ := Channel.answer_run hc (hdr := ⟨UInt32.ofNat c.conn, c.chan, c.plan.id, sid⟩) hs.chan hkn hs.owner.symm hb2 e.chan ans (by omega)
  have hnt : n = c.tx := Option.some.inj (hl.symm.trans hs.tx)
  subst hn' hnt
  have hg : Channel.Grows c.chan.toNat [.got (.send ⟨UInt32.ofNat c.conn, c.chan, c.plan.id, sid⟩ ans),
    .sendReq (Window.next c.win).owner c.chan (answer (Window.next c.win) (c.tx + 1) c.plan.id ans)] s.chans c' := hg
  have hsent : sentChan s.chans c' = (Phase.tcp ans).mails c := by
    rw [sentChan_eq hs.chan hg]
    show [Mail.tcp c.win.owner.toNat _] = _
    rw [hs.owner, (toNat_eq (lt33 hs.conn)).mpr rfl]
    rfl
  have hs1 := step_chan (s := s) (e := e) (c := c') (rest := rest) hb hn
    (by
      rw [hsent]
      intro z hz
      rw [List.mem_singleton.mp hz]
      simp only [Mail.size, answer_length]
      omega)
    (by rw [hsent]; exact hr)
  rw [hsent] at hs1
  have hbd : bound (c'.objs c.chan.toNat).log = bound (s.chans.objs c.chan.toNat).log := by
    rw [hg.1, splits, Channel.bound_snoc, Channel.bound_snoc]
  refine ⟨_, hs1, h.step (by rw [Possible, hb]; simp [Phase.mails]) hs1, ⟨hs.conn, hs.st, hs.opened, hs.assoc, hs.chan, hs.owner, hs.blank, hk, ?_, ?_, hs.future, hs.open_, hs.active⟩,
    ⟨fun _ _ => rfl, hg.2, fun _ _ _ hn => ⟨rfl, hn⟩, Nat.add_comm _ _⟩, rfl, written_same rfl⟩
  · show Channel.lastTx (c'.objs c.chan.toNat).log = _
    rw [hg.1, splits, Channel.lastTx_snoc]
    simp only [Channel.txOf]
    exact congrArg some (Channel.word4 (Window.next c.win).token (c.tx + 1) (leBytes 4 c.plan.id.toNat ++ ans))
  · show ∀ x, K.last = some x → bound (c'.objs c.chan.toNat).log = some x
    rw [hbd]
    exact hb1

/-- The client behind the answer. -/
def Client.behind (c : Client) (ans : List UInt8) : Client :=
  match c.plan with
  | .done => c
  | .ask _ r _ next => { c with win := Window.next c.win, tx := c.tx + 1, plan := next ans, waiting := false, heard := c.heard ++ [(r, ans)] }

/-- The answer is written. -/
theorem goes_tcp (h : Reach m u evs s) {c : Client} {K : Know} {ans : List UInt8} (hs : Stage s c K (.tcp ans)) {e : Env} (he : e.tcp.writes = true) {rest : List Mail}
    (hb : s.box = (Phase.tcp ans).mails c ++ rest) (hr : rest.length + 1 + e.others ≤ 64) : ∃ s', step s e .deliver = .ok s' ∧
      Reach m u (evs ++ [(e, .deliver)]) s' ∧ Stage s' (c.behind ans) K .idle ∧ Goes s s' c K K ∧ s'.box = rest ∧
      c.hears (written s s' c.conn) = some (c.behind ans) := by
  obtain ⟨tevs, cevs, sevs, ht, hc, hss, hlong⟩ := reach_parts h
  obtain ⟨hwt, hans, id, r, body, next, hp, -, hsound⟩ := hs.future
  obtain ⟨t, hn, htk, hto⟩ := Transport.send_run m tevs s.srv ht c.conn hs.conn hs.st hs.opened e.tcp he 0x46 c.chan hs.assoc
    (answer (Window.next c.win) (c.tx + 1) c.plan.id ans) (by rw [answer_length]; omega)
  have hsent : sentTcp s.srv t = [] := by
    rw [sentTcp_eq hs.conn (by rw [htk]) hto]
    rfl
  have hs1 := step_tcp (s := s) (e := e) (rest := rest) (t := t) hb hn (by rw [hsent]; intro z hz; cases hz) (by rw [hsent]; simp only [List.length_nil]; omega)
  rw [hsent, List.append_nil] at hs1
  have hbehind : c.behind ans = { c with win := Window.next c.win, tx := c.tx + 1, plan := next ans, waiting := false, heard := c.heard ++ [(r, ans)] } := by
    unfold Client.behind
    rw [hp]
  refine ⟨_, hs1, h.step (by rw [Possible, hb]; simp [Phase.mails]) hs1, ?_, ⟨hto, fun _ _ => rfl, fun _ _ _ hn => ⟨rfl, hn⟩, Nat.add_comm _ _⟩, rfl, ?_⟩
  · rw [hbehind]
    refine ⟨hs.conn, ?_, ?_, ?_, hs.chan, hs.owner, ?_, hs.knows, hs.tx, hs.binding, ⟨rfl, hsound⟩, hs.open_, hs.active⟩
    · show (t.conns c.conn).st = _
      rw [htk]
      exact hs.st
    · show (t.conns c.conn).opened = _
      rw [htk]
      exact hs.opened
    · show (t.conns c.conn).assoc = _
      rw [htk]
      exact hs.assoc
    · show (t.conns c.conn).rx.tail = 0 ∧ (t.conns c.conn).rx.head = 0
      rw [htk]
      exact hs.blank
  · have hwr : written s { s with srv := t, box := rest } c.conn = [chunk .msg 0x46 c.chan (answer (Window.next c.win) (c.tx + 1) c.plan.id ans)] := by
      show ((t.conns c.conn).log.drop (s.srv.conns c.conn).log.length).filterMap _ = _
      rw [htk]
      show (((s.srv.conns c.conn).log ++ _).drop (s.srv.conns c.conn).log.length).filterMap _ = _
      rw [List.drop_left]
      rfl
    have hund := understood_answer c.chan (Window.next c.win) (c.tx + 1) id ans
    rw [show (Window.next c.win).token = c.win.token from rfl] at hund
    rw [hwr, hbehind]
    unfold Client.hears
    rw [hwt, hp]
    simp only [Plan.id]
    rw [hund]
    rfl

/-! ## All clients -/

/-- The connection a message is about. -/
def who : Mail → Nat
  | .chan (.open c _) => c.toNat
  | .chan (.close c _ _) => c.toNat
  | .chan (.message c _ _) => c.toNat
  | .chan (.released c _) => c.toNat
  | .chan (.associate h) => h.connectionId.toNat
  | .chan (.send h _) => h.connectionId.toNat
  | .tcp k _ => k
  | .sess h _ => h.connectionId.toNat

theorem mails_who {c : Client} (hc : Pool.valid c.conn) (ph : Phase) : ∀ y ∈ ph.mails c, who y = c.conn := by
  have hn : (UInt32.ofNat c.conn).toNat = c.conn := (toNat_eq (lt33 hc)).mpr rfl
  intro y hy
  cases ph with
  | idle => cases hy
  | bind sid ans =>
    rcases List.mem_cons.mp hy with rfl | hy
    · exact hn
    · rw [List.mem_singleton.mp hy]
      exact hn
  | tcp ans => rw [List.mem_singleton.mp hy]; rfl
  | _ => rw [List.mem_singleton.mp hy]; exact hn

theorem mails_len (c : Client) (ph : Phase) : (ph.mails c).length ≤ 2 := by cases ph <;> simp [Phase.mails]

/-- The messages about connection `k`. -/
def about (k : Nat) (l : List Mail) : List Mail := l.filter fun y => who y == k

theorem about_append (k : Nat) (l l' : List Mail) : about k (l ++ l') = about k l ++ about k l' := List.filter_append ..

theorem about_cons_same {k : Nat} {y : Mail} (h : who y = k) (l : List Mail) : about k (y :: l) = y :: about k l :=
  List.filter_cons_of_pos (by simpa using h)

theorem about_cons_other {k : Nat} {y : Mail} (h : who y ≠ k) (l : List Mail) : about k (y :: l) = about k l :=
  List.filter_cons_of_neg (by simpa using h)

theorem about_all {k : Nat} {l : List Mail} (h : ∀ y ∈ l, who y = k) : about k l = l :=
  List.filter_eq_self.mpr fun y hy => by simpa using h y hy

theorem about_none {k j : Nat} {l : List Mail} (h : ∀ y ∈ l, who y = j) (hk : j ≠ k) : about k l = [] :=
  List.filter_eq_nil_iff.mpr fun y hy => by simpa [h y hy] using hk

/-- What holds of all. -/
structure Inv (m : Nat → Mem) (u : Nat → UInt32 × UInt32) (n : Nat) (x : World) (K : Nat → Know) (ph : Nat → Phase) : Prop where
  reach : ∃ evs, Reach m u evs x.stack
  stage : ∀ i, i < n → Stage x.stack (x.clients i) (K i) (ph i)
  conns : ∀ i j, i < n → j < n → i ≠ j → (x.clients i).conn ≠ (x.clients j).conn
  chans : ∀ i j, i < n → j < n → i ≠ j → (x.clients i).chan.toNat ≠ (x.clients j).chan.toNat
  sessions : ∀ i j, i < n → j < n → i ≠ j → ∀ a ∈ (K i).opened, ∀ b ∈ (K j).opened, a.toNat ≠ b.toNat
  free : total (fun i => (K i).free) n ≤ x.stack.sess.ids.len
  mine : ∀ i, i < n → about (x.clients i).conn x.stack.box = (ph i).mails (x.clients i)
  known : ∀ y ∈ x.stack.box, ∃ i, i < n ∧ who y = (x.clients i).conn

theorem box_total {n : Nat} {k : Nat → Nat} {l : List Mail} (h : ∀ y ∈ l, ∃ i, i < n ∧ who y = k i) : l.length ≤ total (fun i => (about (k i) l).length) n := by
  induction l with
  | nil => exact Nat.zero_le _
  | cons y l ih =>
    have := ih fun z hz => h z (List.mem_cons_of_mem _ hz)
    obtain ⟨i, hi, hy⟩ := h y List.mem_cons_self
    have h1 := total_upd (f := fun i => (about (k i) l).length) hi ((about (k i) l).length + 1)
    have h2 : ∀ j, upd (fun i => (about (k i) l).length) i ((about (k i) l).length + 1) j ≤ (about (k j) (y :: l)).length := by
      intro j
      by_cases hj : j = i
      · subst hj
        rw [upd_same, about_cons_same hy]
        exact Nat.le_refl _
      · rw [upd_other _ _ hj]
        by_cases hyj : who y = k j
        · rw [about_cons_same hyj]
          exact Nat.le_succ _
        · rw [about_cons_other hyj]
          exact Nat.le_refl _
    have h3 : ∀ (f g : Nat → Nat) n, (∀ j, f j ≤ g j) → total f n ≤ total g n := by
      intro f g n hfg
      induction n with
      | zero => exact Nat.le_refl _
      | succ n ih =>
        have := hfg n
        simp only [total]
        omega
    have := h3 _ _ n h2
    simp only [List.length_cons]
    omega

section

variable {n : Nat} {x : World} {K : Nat → Know} {ph : Nat → Phase}

theorem Inv.room (h : Inv m u n x K ph) {i : Nat} (hi : i < n) : x.stack.box.length + 2 ≤ 2 * n + ((ph i).mails (x.clients i)).length := by
  have h1 := box_total h.known
  have h2 := total_upd (f := fun i => (about (x.clients i).conn x.stack.box).length) hi 2
  have h3 : total (upd (fun i => (about (x.clients i).conn x.stack.box).length) i 2) n ≤ 2 * n := total_le fun j hj => by
    by_cases hji : j = i
    · rw [hji, upd_same]
      exact Nat.le_refl _
    · rw [upd_other _ _ hji, h.mine j hj]
      exact mails_len _ _
  rw [h.mine i hi] at h2
  omega

theorem Inv.len (h : Inv m u n x K ph) : x.stack.box.length ≤ 2 * n :=
  Nat.le_trans (box_total h.known) (total_le fun j hj => by rw [h.mine j hj]; exact mails_len _ _)

/-- One client goes on, the others stay. -/
theorem Inv.advance (h : Inv m u n x K ph) {i : Nat} (hi : i < n) {y : World} {K' : Know} {ph' : Phase} {evs : List (Env × Ev)} (hr : Reach m u evs y.stack)
    (hs : Stage y.stack (y.clients i) K' ph') (hg : Goes x.stack y.stack (x.clients i) (K i) K') (hc1 : (y.clients i).conn = (x.clients i).conn)
    (hc2 : (y.clients i).chan = (x.clients i).chan) (ho : ∀ j, j < n → j ≠ i → y.clients j = x.clients j)
    (hm1 : about (x.clients i).conn y.stack.box = ph'.mails (y.clients i))
    (hm2 : ∀ k, k ≠ (x.clients i).conn → about k y.stack.box = about k x.stack.box)
    (hm3 : ∀ z ∈ y.stack.box, z ∈ x.stack.box ∨ who z = (x.clients i).conn) : Inv m u n y (upd K i K') (upd ph i ph') := by
  have conn : ∀ j, j < n → (y.clients j).conn = (x.clients j).conn := fun j hj => by
    by_cases hji : j = i
    · rw [hji, hc1]
    · rw [ho j hj hji]
  have chan : ∀ j, j < n → (y.clients j).chan = (x.clients j).chan := fun j hj => by
    by_cases hji : j = i
    · rw [hji, hc2]
    · rw [ho j hj hji]
  have hsess : ∀ j, j < n → j ≠ i → ∀ a ∈ (K j).opened, y.stack.sess.objs a.toNat = x.stack.sess.objs a.toNat ∧ ∀ b ∈ K'.opened, b.toNat ≠ a.toNat := by
    intro j hj hji a ha
    have := (h.stage j hj).open_ a ha
    exact hg.sess a.toNat this.1 this.2 fun b hb => h.sessions i j hi hj (Ne.symm hji) b hb a ha
  refine ⟨⟨_, hr⟩, fun j hj => ?_, fun a b ha hb hab => ?_, fun a b ha hb hab => ?_, fun a b ha hb hab v hv w hw => ?_, ?_, fun j hj => ?_, fun z hz => ?_⟩
  · by_cases hji : j = i
    · subst hji
      rw [upd_same, upd_same]
      exact hs
    · rw [upd_other _ _ hji, upd_other _ _ hji, ho j hj hji]
      exact (h.stage j hj).frame (hg.conns _ (h.conns j i hj hi hji)) (hg.chans _ (h.chans j i hj hi hji)) fun a ha => (hsess j hj hji a ha).1
  · rw [conn a ha, conn b hb]
    exact h.conns a b ha hb hab
  · rw [chan a ha, chan b hb]
    exact h.chans a b ha hb hab
  · by_cases hai : a = i
    · subst hai
      rw [upd_same] at hv
      rw [upd_other _ _ (Ne.symm hab)] at hw
      exact (hsess b hb (Ne.symm hab) w hw).2 v hv
    · rw [upd_other _ _ hai] at hv
      by_cases hbi : b = i
      · subst hbi
        rw [upd_same] at hw
        exact Ne.symm ((hsess a ha hab v hv).2 w hw)
      · rw [upd_other _ _ hbi] at hw
        exact h.sessions a b ha hb hab v hv w hw
  · have h1 := total_upd (f := fun j => (K j).free) hi K'.free
    have h2 : total (fun j => (upd K i K' j).free) n = total (upd (fun j => (K j).free) i K'.free) n := total_congr fun j hj => by
      by_cases hji : j = i
      · rw [hji, upd_same, upd_same]
      · rw [upd_other _ _ hji, upd_other _ _ hji]
    have h3 := h.free
    have h4 := hg.free
    omega
  · by_cases hji : j = i
    · subst hji
      rw [hc1, upd_same]
      exact hm1
    · rw [ho j hj hji, upd_other _ _ hji, hm2 _ (h.conns j i hj hi hji)]
      exact h.mine j hj
  · rcases hm3 z hz with hz | hz
    · obtain ⟨j, hj, hw⟩ := h.known z hz
      exact ⟨j, hj, by rw [conn j hj]; exact hw⟩
    · exact ⟨i, hi, by rw [hc1]; exact hz⟩

/-! ## How long it takes -/

/-- The number of deliveries that a request or its answer still needs. -/
def hops : Mail → Nat
  | .chan (.message _ _ _) => 5
  | .sess _ _ => 4
  | .chan (.associate _) => 3
  | .chan (.send _ _) => 2
  | .tcp _ _ => 1
  | _ => 0

/-- A bound on the number of deliveries until the answer is written. -/
def remaining (n k : Nat) : List Mail → Nat
  | [] => 0
  | y :: l => if who y = k then 2 * n * (hops y - 1) + 1 else remaining n k l + 1

theorem remaining_append {n k : Nat} {l : List Mail} (h : about k l ≠ []) (l' : List Mail) : remaining n k (l ++ l') = remaining n k l := by
  induction l with
  | nil => exact absurd rfl h
  | cons y l ih =>
    simp only [List.cons_append, remaining]
    by_cases hy : who y = k
    · rw [if_pos hy, if_pos hy]
    · rw [if_neg hy, if_neg hy, ih (by rwa [about_cons_other hy] at h)]

theorem remaining_lt {n k : Nat} {l t : List Mail} {y : Mail} (h : about k l = y :: t) : remaining n k l < l.length + (2 * n * (hops y - 1) + 1) := by
  induction l with
  | nil => cases h
  | cons z l ih =>
    simp only [remaining, List.length_cons]
    by_cases hz : who z = k
    · rw [about_cons_same hz] at h
      injection h with h1 h2
      subst h1
      rw [if_pos hz]
      omega
    · rw [about_cons_other hz] at h
      rw [if_neg hz]
      have := ih h
      omega

theorem remaining_head {n k : Nat} {l : List Mail} {y : Mail} (h : who y = k) : remaining n k (y :: l) = 2 * n * (hops y - 1) + 1 := if_pos h

/-- What a move does to a client. -/
inductive Prog (n : Nat) (x y : World) (v : Move) (i : Nat) : Prop
  | stays (h : y.clients i = x.clients i) (ht : v = .talk i → (x.clients i).wishes = false)
      (hw : (x.clients i).waiting = true → remaining n (x.clients i).conn y.stack.box ≤ remaining n (x.clients i).conn x.stack.box ∧
        (v = .deliver → remaining n (x.clients i).conn y.stack.box < remaining n (x.clients i).conn x.stack.box))
  | talks (h : y.clients i = { x.clients i with waiting := true }) (hw : (x.clients i).wishes = true)
      (hr : remaining n (x.clients i).conn y.stack.box ≤ 10 * n)
  | hears (ans : List UInt8) (hw : (x.clients i).waiting = true) (h : y.clients i = (x.clients i).behind ans) (id : UInt32) (r : SReq) (body : List UInt8)
      (next : List UInt8 → Plan) (hp : (x.clients i).plan = .ask id r body next) (hf : ∃ k, Fits k r ans)

theorem stage_waits {c : Client} {K : Know} {ph : Phase} (h : Stage s c K ph) (hw : c.waiting = true) : ph.mails c ≠ [] := by
  cases ph with
  | idle => rw [h.future.1] at hw; cases hw
  | _ => simp [Phase.mails]

theorem stage_idle {c : Client} {K : Know} {ph : Phase} (h : Stage s c K ph) (hw : c.waiting = false) : ph = .idle := by
  cases ph with
  | idle => rfl
  | _ => rw [h.future.1] at hw; cases hw

theorem hearAll_ok {n : Nat} {s s' : Stack} {cs : Nat → Client} {i : Nat} {c' : Client} (hi : (cs i).hears (written s s' (cs i).conn) = some c')
    (ho : ∀ j, j < n → j ≠ i → written s s' (cs j).conn = []) : ∃ y : World, hearAll n s s' cs = some y ∧ y.stack = s' ∧ y.clients i = c' ∧ ∀ j, j < n → j ≠ i → y.clients j = cs j := by
  refine ⟨_, if_pos fun j hj => ?_, rfl, ?_, fun j hj hji => ?_⟩
  · by_cases hji : j = i
    · rw [hji, hi]
      rfl
    · rw [ho j hj hji]
      rfl
  · show ((cs i).hears _).getD _ = _
    rw [hi]
    rfl
  · show ((cs j).hears _).getD _ = _
    rw [ho j hj hji]
    rfl

/-- A client may talk. -/
theorem play_talk (h : Inv m u n x K ph) {e : Env} (he : Roomy n e) {i : Nat} (hi : i < n) (hw : (x.clients i).wishes = true) :
    ∃ y K' ph', makes n x e (.talk i) = .ok (some y) ∧ Inv m u n y K' ph' ∧ ∀ j, j < n → Prog n x y (.talk i) j := by
  have hwt : (x.clients i).waiting = false := by
    unfold Client.wishes at hw
    revert hw
    cases (x.clients i).waiting <;> simp
  have hst := h.stage i hi
  have hroom := h.room hi
  have hph := stage_idle hst hwt
  rw [hph] at hst hroom
  obtain ⟨evs, hr⟩ := h.reach
  have hother := he.others
  obtain ⟨s', z, g1, g2, g3, g4, g5, g6⟩ := goes_talk hr hst hw he.starts (by simp only [Phase.mails, List.length_nil] at hroom; omega)
  have hne : ∀ j, j < n → j ≠ i → (x.clients j).conn ≠ (x.clients i).conn := fun j hj hji => h.conns j i hj hi hji
  obtain ⟨y, y1, y2, y3, y4⟩ := hearAll_ok (n := n) (s := x.stack) (s' := s') (cs := upd x.clients i { x.clients i with waiting := true }) (i := i) (c' := { x.clients i with waiting := true })
    (by rw [upd_same]; show Client.hears _ (written _ _ (x.clients i).conn) = _; rw [g6]; rfl)
    (fun j hj hji => by rw [upd_other _ _ hji]; exact written_same (g4.conns _ (hne j hj hji)))
  have hy : ∀ j, j < n → j ≠ i → y.clients j = x.clients j := fun j hj hji => (y4 j hj hji).trans (upd_other _ _ hji)
  have hmine := h.mine i hi
  rw [hph] at hmine
  have hwho : ∀ v ∈ (Phase.chan z).mails (x.clients i), who v = (x.clients i).conn := mails_who hst.conn _
  have hab : about (x.clients i).conn s'.box = (Phase.chan z).mails (x.clients i) := by
    rw [g5, about_append, hmine, about_all hwho]
    rfl
  have hinv : Inv m u n y (upd K i (K i)) (upd ph i (.chan z)) := h.advance hi (evs := _) (y2 ▸ g2) (by rw [y2, y3]; exact g3) (y2 ▸ g4) (by rw [y3]) (by rw [y3]) hy
    (by rw [y2, y3]; exact hab) (fun k hk => by rw [y2, g5, about_append, about_none hwho (Ne.symm hk), List.append_nil])
    (fun v hv => by
      rw [y2, g5] at hv
      exact (List.mem_append.mp hv).imp id (hwho v))
  refine ⟨y, _, _, ?_, hinv, fun j hj => ?_⟩
  · simp only [makes]
    rw [if_pos ⟨hi, hw⟩, g1, Exec.ok_bind]
    exact congrArg Exec.ok y1
  · by_cases hji : j = i
    · subst hji
      refine .talks y3 hw ?_
      have h1 := remaining_lt (n := n) (by rw [y2]; exact hab : about (x.clients j).conn y.stack.box = _ :: [])
      have h2 := hinv.len
      simp only [hops] at h1
      omega
    · refine .stays (hy j hj hji) (fun h => absurd (by injection h with h; exact h.symm) hji) fun hwj => ?_
      have : about (x.clients j).conn x.stack.box ≠ [] := by
        rw [h.mine j hj]
        exact stage_waits (h.stage j hj) hwj
      rw [y2, g5, remaining_append this]
      exact ⟨Nat.le_refl _, fun h => nomatch h⟩

/-- The oldest message is delivered, for client `i`. -/
theorem play_one (h : Inv m u n x K ph) {e : Env} {i : Nat} (hi : i < n) {z : Mail} {rest : List Mail} (hb : x.stack.box = z :: rest)
    (hz : who z = (x.clients i).conn) {s' : Stack} {K' : Know} {ph' : Phase} {c' : Client} {evs : List (Env × Ev)} (g1 : step x.stack e .deliver = .ok s') (g2 : Reach m u evs s') (g3 : Stage s' c' K' ph')
    (g4 : Goes x.stack s' (x.clients i) (K i) K') {new : List Mail} (g5 : s'.box = rest ++ new) (g6 : (x.clients i).hears (written x.stack s' (x.clients i).conn) = some c')
    (hc1 : c'.conn = (x.clients i).conn) (hc2 : c'.chan = (x.clients i).chan) (hnew : ∀ v ∈ new, who v = (x.clients i).conn)
    (hm : about (x.clients i).conn rest ++ new = ph'.mails c')
    (hprog : (c' = x.clients i ∧ ∃ v t, ph'.mails c' = v :: t ∧ hops v < hops z ∧ 0 < hops v) ∨
      ∃ ans id r body next, (x.clients i).waiting = true ∧ c' = (x.clients i).behind ans ∧ (x.clients i).plan = .ask id r body next ∧ ∃ k, Fits k r ans) :
    ∃ y K' ph', makes n x e .deliver = .ok (some y) ∧ Inv m u n y K' ph' ∧ ∀ j, j < n → Prog n x y .deliver j := by
  have hne : ∀ j, j < n → j ≠ i → (x.clients j).conn ≠ (x.clients i).conn := fun j hj hji => h.conns j i hj hi hji
  obtain ⟨y, y1, y2, y3, y4⟩ := hearAll_ok (n := n) (s := x.stack) (s' := s') (cs := x.clients) (i := i) (c' := c') g6
    (fun j hj hji => written_same (g4.conns _ (hne j hj hji)))
  have hab : about (x.clients i).conn s'.box = ph'.mails c' := by
    rw [g5, about_append, about_all hnew, hm]
  have hinv : Inv m u n y (upd K i K') (upd ph i ph') := h.advance hi (evs := _) (y2 ▸ g2) (by rw [y2, y3]; exact g3) (y2 ▸ g4) (by rw [y3, hc1]) (by rw [y3, hc2]) y4
    (by rw [y2, y3]; exact hab) (fun k hk => by rw [y2, g5, hb, about_append, about_none hnew (Ne.symm hk), List.append_nil, about_cons_other (by rw [hz]; exact Ne.symm hk)])
    (fun v hv => by
      rw [y2, g5] at hv
      exact (List.mem_append.mp hv).imp (fun hv => by rw [hb]; exact List.mem_cons_of_mem _ hv) (hnew v))
  refine ⟨y, _, _, ?_, hinv, fun j hj => ?_⟩
  · unfold makes
    rw [g1, Exec.ok_bind, y1]
    rfl
  · by_cases hji : j = i
    · subst hji
      rcases hprog with ⟨he, v, t, h1, h2, h3⟩ | ⟨ans, id, r, body, next, h1, h2, h3, h4⟩
      · refine .stays (y3.trans he) (fun h => nomatch h) fun _ => ?_
        have h4 := remaining_lt (n := n) (by rw [y2, hab]; exact h1 : about (x.clients j).conn y.stack.box = _)
        have h5 := hinv.len
        rw [hb, remaining_head hz]
        have h6 : 2 * n + 2 * n * (hops v - 1) ≤ 2 * n * (hops z - 1) := by
          have : 2 * n + 2 * n * (hops v - 1) = 2 * n * (1 + (hops v - 1)) := by rw [Nat.mul_add, Nat.mul_one]
          rw [this]
          exact Nat.mul_le_mul_left _ (by omega)
        exact ⟨by omega, fun _ => by omega⟩
      · exact .hears ans h1 (y3.trans h2) id r body next h3 h4
    · refine .stays (y4 j hj hji) (fun h => nomatch h) fun hwj => ?_
      have hzj : who z ≠ (x.clients j).conn := by rw [hz]; exact Ne.symm (hne j hj hji)
      have : about (x.clients j).conn rest ≠ [] := by
        have := stage_waits (h.stage j hj) hwj
        rwa [← h.mine j hj, hb, about_cons_other hzj] at this
      rw [y2, g5, hb, remaining_append this]
      simp only [remaining, if_neg hzj]
      exact ⟨by omega, fun _ => by omega⟩

/-- Every move goes well. -/
theorem play_ok (h : Inv m u n x K ph) {e : Env} (he : Roomy n e) (v : Move) :
    ∃ y K' ph', makes n x e v = .ok (some y) ∧ Inv m u n y K' ph' ∧ ∀ j, j < n → Prog n x y v j := by
  have hother := he.others
  cases v with
  | talk i =>
    by_cases hc : i < n ∧ (x.clients i).wishes = true
    · exact play_talk h he hc.1 hc.2
    · refine ⟨x, K, ph, if_neg hc, h, fun j hj => .stays rfl (fun hv => ?_) fun _ => ⟨Nat.le_refl _, fun h => nomatch h⟩⟩
      injection hv with hv
      subst hv
      cases hwi : (x.clients i).wishes with
      | false => rfl
      | true => exact absurd ⟨hj, hwi⟩ hc
  | deliver =>
    cases hb : x.stack.box with
    | nil =>
      have hs : step x.stack e .deliver = .ok x.stack := by
        show deliver 4096 x.stack e = _
        unfold deliver
        rw [hb]
      have hy : hearAll n x.stack x.stack x.clients = some x := by
        have hear : ∀ j, (x.clients j).hears (written x.stack x.stack (x.clients j).conn) = some (x.clients j) := fun j => by
          rw [written_same rfl]
          rfl
        unfold hearAll
        rw [if_pos fun j _ => by rw [hear]; rfl]
        simp only [hear]
        rfl
      refine ⟨x, K, ph, ?_, h, fun j hj => .stays rfl (fun h => nomatch h) fun hw => ?_⟩
      · unfold makes
        rw [hs, Exec.ok_bind, hy]
        rfl
      · have := stage_waits (h.stage j hj) hw
        rw [← h.mine j hj, hb] at this
        exact absurd rfl this
    | cons z rest =>
      obtain ⟨i, hi, hz⟩ := h.known z (by rw [hb]; exact List.mem_cons_self)
      have hst := h.stage i hi
      have hmine := h.mine i hi
      have hroom := h.room hi
      rw [hb, about_cons_same hz] at hmine
      rw [hb, List.length_cons] at hroom
      obtain ⟨evs, hr⟩ := h.reach
      have hhear : ∀ {s'}, written x.stack s' (x.clients i).conn = [] → (x.clients i).hears (written x.stack s' (x.clients i).conn) = some (x.clients i) := fun hw => by
        rw [hw]
        rfl
      have hlen := mails_len (x.clients i) (ph i)
      cases hph : ph i with
      | idle => rw [hph] at hmine; cases hmine
      | chan d =>
        rw [hph] at hst hmine hroom
        injection hmine with hm1 hm2
        obtain ⟨s', sid, w, g1, g2, g3, g4, g5, g6⟩ := goes_chan hr hst (e := e) (rest := rest) (by rw [hb, hm1]; rfl) (by simp [Phase.mails] at hroom; omega)
        exact play_one h hi hb hz g1 g2 g3 g4 g5 (hhear g6) rfl rfl (mails_who hst.conn _) (by rw [hm2]; rfl) (.inl ⟨rfl, _, _, rfl, by rw [hm1]; simp [hops], by simp [hops]⟩)
      | sess sid w =>
        rw [hph] at hst hmine hroom
        injection hmine with hm1 hm2
        obtain ⟨s', K', ph', g0, g1, g2, g3, g4, g5, g6⟩ := goes_sess hr hst (e := e) (rest := rest) (fun hf => by
            have := le_total (f := fun i => (K i).free) hi
            have := h.free
            omega) (by rw [hb, hm1]; rfl) (by simp [Phase.mails] at hroom; omega)
        refine play_one h hi hb hz g1 g2 g3 g4 g5 (hhear g6) rfl rfl (mails_who hst.conn _) (by rw [hm2]; rfl) (.inl ⟨rfl, ?_⟩)
        obtain ⟨_, _, rfl | rfl⟩ := g0
        · exact ⟨_, _, rfl, by rw [hm1]; simp [hops], by simp [hops]⟩
        · exact ⟨_, _, rfl, by rw [hm1]; simp [hops], by simp [hops]⟩
      | bind sid ans =>
        rw [hph] at hst hmine hroom
        injection hmine with hm1 hm2
        obtain ⟨s', g1, g2, g3, g4, g5, g6⟩ := goes_bind hr hst (e := e) (rest := rest) (by rw [hb, hm1]) (by simp [Phase.mails] at hroom; omega)
        exact play_one h hi hb hz g1 g2 g3 g4 (new := []) (by rw [g5, List.append_nil]) (hhear g6) rfl rfl (fun _ h => nomatch h) (by rw [hm2]; rfl)
          (.inl ⟨rfl, _, _, rfl, by rw [hm1]; simp [hops], by simp [hops]⟩)
      | send sid ans =>
        rw [hph] at hst hmine hroom
        injection hmine with hm1 hm2
        obtain ⟨s', g1, g2, g3, g4, g5, g6⟩ := goes_send hr hst (e := e) (rest := rest) (by rw [hb, hm1]; rfl) (by simp [Phase.mails] at hroom; omega)
        exact play_one h hi hb hz g1 g2 g3 g4 g5 (hhear g6) rfl rfl (mails_who hst.conn _) (by rw [hm2]; rfl) (.inl ⟨rfl, _, _, rfl, by rw [hm1]; simp [hops], by simp [hops]⟩)
      | tcp ans =>
        rw [hph] at hst hmine hroom
        injection hmine with hm1 hm2
        obtain ⟨s', g1, g2, g3, g4, g5, g6⟩ := goes_tcp hr hst (e := e) he.writes (rest := rest) (by rw [hb, hm1]; rfl) (by simp [Phase.mails] at hroom; omega)
        obtain ⟨hwt, -, id, r, body, next, hp, hf, -⟩ := hst.future
        have hbc : ((x.clients i).behind ans).conn = (x.clients i).conn ∧ ((x.clients i).behind ans).chan = (x.clients i).chan := by
          unfold Client.behind
          rw [hp]
          exact ⟨rfl, rfl⟩
        exact play_one h hi hb hz g1 g2 g3 g4 (new := []) (by rw [g5, List.append_nil]) g6 hbc.1 hbc.2 (fun _ h => nomatch h) (by rw [hm2]; rfl)
          (.inr ⟨ans, id, r, body, next, hwt, rfl, hp, hf⟩)

end

/-! ## Lists of moves -/

theorem Follows.append {p q r : Plan} {a b : List (SReq × List UInt8)} (h1 : Follows p a q) (h2 : Follows q b r) : Follows p (a ++ b) r := by
  induction a generalizing p with
  | nil =>
    have : p = q := h1
    rw [this]
    exact h2
  | cons x a ih =>
    obtain ⟨id, body, next, hp, hf, hl⟩ := h1
    exact ⟨id, body, next, hp, hf, ih hl⟩

theorem Follows.completes {p q : Plan} {l : List (SReq × List UInt8)} (h : Follows p l q) (hq : q.isDone = true) : Completes p l := by
  induction l generalizing p with
  | nil =>
    have : p = q := h
    rw [this]
    cases q with
    | done => rfl
    | ask => cases hq
  | cons x l ih =>
    obtain ⟨id, body, next, hp, hf, hl⟩ := h
    rw [hp]
    exact ⟨x.2, l, rfl, hf, ih hl⟩

/-- What client `i` heard meanwhile. -/
def Heard (i : Nat) (x y : World) : Prop := ∃ xs, (y.clients i).heard = (x.clients i).heard ++ xs ∧ Follows (x.clients i).plan xs (y.clients i).plan

theorem Heard.trans {i : Nat} {x y z : World} (h1 : Heard i x y) (h2 : Heard i y z) : Heard i x z := by
  obtain ⟨a, h1, h3⟩ := h1
  obtain ⟨b, h2, h4⟩ := h2
  exact ⟨a ++ b, by rw [h2, h1, List.append_assoc], h3.append h4⟩

section

variable {n : Nat} {x y z : World} {K : Nat → Know} {ph : Nat → Phase} {i : Nat} {v : Move}

theorem Prog.heard (h : Prog n x y v i) : Heard i x y := by
  cases h with
  | stays h =>
    refine ⟨[], ?_, ?_⟩
    · rw [h, List.append_nil]
    · rw [h]
      rfl
  | talks h =>
    refine ⟨[], ?_, ?_⟩
    · rw [h, List.append_nil]
    · rw [h]
      rfl
  | hears ans hw h id r body next hp hf =>
    refine ⟨[(r, ans)], ?_, ?_⟩
    · rw [h, Client.behind, hp]
    · rw [h, Client.behind, hp]
      exact ⟨id, body, next, rfl, hf, rfl⟩

/-- All is well. -/
def Well (m : Nat → Mem) (u : Nat → UInt32 × UInt32) (n : Nat) (x : World) : Prop := ∃ K ph, Inv m u n x K ph

theorem together_append {l l' : List (Env × Move)} (h : together n x l = .ok (some y)) : together n x (l ++ l') = together n y l' := by
  induction l generalizing x with
  | nil =>
    injection h with h
    injection h with h
    rw [h]
    rfl
  | cons a l ih =>
    obtain ⟨e, v⟩ := a
    obtain ⟨o, h1, h2⟩ := Exec.bind_eq_ok.mp h
    show (makes n x e v >>= _) = _
    rw [h1, Exec.ok_bind]
    cases o with
    | none =>
      injection h2 with h2
      cases h2
    | some w => exact ih h2

theorem Well.play (h : Well m u n x) {e : Env} (he : Roomy n e) (v : Move) : ∃ y, makes n x e v = .ok (some y) ∧ Well m u n y ∧ ∀ j, j < n → Prog n x y v j := by
  obtain ⟨K, ph, h⟩ := h
  obtain ⟨y, K', ph', h1, h2, h3⟩ := play_ok h he v
  exact ⟨y, h1, ⟨_, _, h2⟩, h3⟩

theorem Well.together (h : Well m u n x) {l : List (Env × Move)} (hl : ∀ a ∈ l, Roomy n a.1) : ∃ y, together n x l = .ok (some y) ∧ Well m u n y ∧ ∀ j, j < n → Heard j x y := by
  induction l generalizing x with
  | nil => exact ⟨x, rfl, h, fun j _ => ⟨[], (List.append_nil _).symm, rfl⟩⟩
  | cons a l ih =>
    obtain ⟨e, v⟩ := a
    obtain ⟨y, h1, h2, h3⟩ := h.play (hl (e, v) List.mem_cons_self) v
    obtain ⟨z, h4, h5, h6⟩ := ih h2 fun b hb => hl b (List.mem_cons_of_mem _ hb)
    refine ⟨z, ?_, h5, fun j hj => (h3 j hj).heard.trans (h6 j hj)⟩
    show (Stack.makes n x e v >>= _) = _
    rw [h1, Exec.ok_bind]
    exact h4

theorem Well.waits (h : Well m u n x) (hi : i < n) (hw : (x.clients i).waiting = true) : x.stack.box ≠ [] ∧ 0 < remaining n (x.clients i).conn x.stack.box := by
  obtain ⟨K, ph, h⟩ := h
  have := stage_waits (h.stage i hi) hw
  rw [← h.mine i hi] at this
  cases hb : x.stack.box with
  | nil => rw [hb] at this; exact absurd rfl this
  | cons z l =>
    refine ⟨by simp, ?_⟩
    unfold remaining
    split <;> omega

theorem Apart.inv (h : Reach m u evs s) {cs : Nat → Client} (ha : Apart n s cs K) : Inv m u n ⟨cs, s⟩ K (fun _ => .idle) := by
  refine ⟨⟨_, h⟩, fun i hi => ?_, ha.conns, fun i j hi hj hij he => ha.chans i j hi hj hij (UInt32.toNat_inj.mp he), fun i j hi hj hij a ha' b hb he => ?_, ha.free,
    fun i hi => ?_, fun y hy => ?_⟩
  · have hr := ha.ready i hi
    have hh := ha.holds i hi
    exact ⟨hr.conn, hr.st, hr.opened, hr.assoc, hr.chan, hr.owner, ha.blank i hi, hr.knows, ha.tx i hi, hh.last, ⟨ha.idle i hi, ha.sound i hi⟩, hh.opened, hh.active⟩
  · exact ha.sessions i j hi hj hij a ha' (UInt32.toNat_inj.mp he ▸ hb)
  · show about _ s.box = _
    rw [ha.box]
    rfl
  · have hy : y ∈ s.box := hy
    rw [ha.box] at hy
    cases hy

/-- The number of deliveries. -/
def handed : List (Env × Move) → Nat
  | [] => 0
  | (_, .deliver) :: l => handed l + 1
  | (_, .talk _) :: l => handed l

/-- A client that waits hears its answer, or goes on waiting for a shorter time. -/
theorem Well.soon (h : Well m u n x) {l : List (Env × Move)} (hl : ∀ a ∈ l, Roomy n a.1) (hz : Stack.together n x l = .ok (some z)) (hi : i < n) (hw : (x.clients i).waiting = true) :
    (x.clients i).heard.length < (z.clients i).heard.length ∨
      z.clients i = x.clients i ∧ remaining n (x.clients i).conn z.stack.box + handed l ≤ remaining n (x.clients i).conn x.stack.box := by
  induction l generalizing x with
  | nil =>
    injection hz with hz
    injection hz with hz
    subst hz
    exact .inr ⟨rfl, Nat.le_refl _⟩
  | cons a l ih =>
    obtain ⟨e, v⟩ := a
    have hl' : ∀ b ∈ l, Roomy n b.1 := fun b hb => hl b (List.mem_cons_of_mem _ hb)
    obtain ⟨y, h1, h2, h3⟩ := h.play (hl (e, v) List.mem_cons_self) v
    have hz' : Stack.together n y l = .ok (some z) := by
      have hz : (Stack.makes n x e v >>= _) = _ := hz
      rw [h1, Exec.ok_bind] at hz
      exact hz
    obtain ⟨w, h4, -, h6⟩ := h2.together hl'
    have hwz : w = z := by
      rw [h4] at hz'
      injection hz' with hz'
      injection hz'
    subst hwz
    have hgrow : (y.clients i).heard.length ≤ (w.clients i).heard.length := by
      obtain ⟨xs, hxs, -⟩ := h6 i hi
      rw [hxs, List.length_append]
      omega
    cases h3 i hi with
    | stays g1 g2 g3 =>
      rcases ih h2 hl' hz' (by rw [g1]; exact hw) with h | ⟨h, h'⟩
      · rw [g1] at h
        exact .inl h
      · refine .inr ⟨h.trans g1, ?_⟩
        rw [g1] at h'
        have := g3 hw
        cases v with
        | talk j =>
          have := this.1
          simp only [handed]
          omega
        | deliver =>
          have := this.2 rfl
          simp only [handed]
          omega
    | talks g1 g2 =>
      unfold Client.wishes at g2
      rw [hw] at g2
      cases g2
    | hears ans g1 g2 id r body next hp hf =>
      left
      have : (y.clients i).heard.length = (x.clients i).heard.length + 1 := by
        rw [g2, Client.behind, hp]
        simp
      omega

/-- However long a client has waited, what is to come is bounded. -/
theorem Well.bound (h : Well m u n x) (hi : i < n) (hw : (x.clients i).waiting = true) : remaining n (x.clients i).conn x.stack.box ≤ 10 * n := by
  obtain ⟨K, ph, h⟩ := h
  have hst := h.stage i hi
  have hmine := h.mine i hi
  have hlen := h.len
  cases hm : (ph i).mails (x.clients i) with
  | nil => exact absurd hm (stage_waits hst hw)
  | cons y t =>
    have h1 := remaining_lt (n := n) (hmine.trans hm)
    have h2 : hops y ≤ 5 := by
      unfold hops
      split <;> omega
    have h3 : 2 * n * (hops y - 1) ≤ 2 * n * 4 := Nat.mul_le_mul_left _ (by omega)
    omega

/-! ## C80 -/

/-- C80: clients that are apart may send their requests at any time (each one its next when the last was answered), and messages are delivered at any time: what each
hears are the answers to its own requests, one for each, in the order of its plan, and each fits.  When no message is left, nobody waits. -/
theorem C80_together (h : Reach m u evs s) {cs : Nat → Client} (ha : Apart n s cs K) {l : List (Env × Move)} (hl : ∀ a ∈ l, Roomy n a.1) :
    ∃ y, together n ⟨cs, s⟩ l = .ok (some y) ∧ (∃ more, Reach m u more y.stack) ∧ ∀ i, i < n → (∃ xs, (y.clients i).heard = (cs i).heard ++ xs ∧ Follows (cs i).plan xs (y.clients i).plan) ∧
      (y.stack.box = [] → (y.clients i).waiting = false) := by
  obtain ⟨y, h1, h2, h3⟩ := Well.together ⟨_, _, ha.inv h⟩ hl
  refine ⟨y, h1, h2.choose_spec.choose_spec.reach, fun i hi => ⟨h3 i hi, fun hb => ?_⟩⟩
  cases hw : (y.clients i).waiting with
  | false => rfl
  | true => exact absurd hb (h2.waits hi hw).1

/-- C80: a client that waits has its answer at most `10 * n` deliveries later, whatever the others ask meanwhile. -/
theorem C80_answered (h : Reach m u evs s) {cs : Nat → Client} (ha : Apart n s cs K) {l l' : List (Env × Move)} (hl : ∀ a ∈ l, Roomy n a.1) (hl' : ∀ a ∈ l', Roomy n a.1)
    (hd : 10 * n ≤ handed l') : ∃ y z, together n ⟨cs, s⟩ l = .ok (some y) ∧ together n ⟨cs, s⟩ (l ++ l') = .ok (some z) ∧
      ∀ i, i < n → (y.clients i).waiting = true → (y.clients i).heard.length < (z.clients i).heard.length := by
  obtain ⟨y, h1, h2, h3⟩ := Well.together ⟨_, _, ha.inv h⟩ hl
  obtain ⟨z, h4, h5, h6⟩ := h2.together hl'
  refine ⟨y, z, h1, (together_append h1).trans h4, fun i hi hw => ?_⟩
  rcases h2.soon hl' h4 hi hw with h | ⟨hz, h⟩
  · exact h
  · have := h2.bound hi hw
    have := (h5.waits hi (by rw [hz]; exact hw)).2
    rw [hz] at this
    omega

end

/-! ## Moves without end -/

section

variable {n : Nat} {x : World} {i : Nat}

/-- The moves before `t`. -/
def before (σ : Nat → Env × Move) (t : Nat) : List (Env × Move) := (List.range t).map σ

theorem before_succ (σ : Nat → Env × Move) (t : Nat) : before σ (t + 1) = before σ t ++ [σ t] := by
  unfold before
  rw [List.range_succ, List.map_append]
  rfl

/-- The states of all times. -/
theorem traj (h : Well m u n x) {σ : Nat → Env × Move} (hσ : ∀ t, Roomy n (σ t).1) : ∃ w : Nat → World, w 0 = x ∧ ∀ t, together n x (before σ t) = .ok (some (w t)) ∧
    Well m u n (w t) ∧ ∀ j, j < n → Prog n (w t) (w (t + 1)) (σ t).2 j ∧ Heard j x (w t) := by
  have hl : ∀ t, ∀ a ∈ before σ t, Roomy n a.1 := fun t a ha => by
    obtain ⟨b, -, rfl⟩ := List.mem_map.mp ha
    exact hσ b
  have hex : ∀ t, ∃ y, together n x (before σ t) = .ok (some y) ∧ Well m u n y ∧ ∀ j, j < n → Heard j x y := fun t => h.together (hl t)
  refine ⟨fun t => (hex t).choose, ?_, fun t => ⟨(hex t).choose_spec.1, (hex t).choose_spec.2.1, fun j hj => ⟨?_, (hex t).choose_spec.2.2 j hj⟩⟩⟩
  · have := (hex 0).choose_spec.1
    injection this with this
    injection this with this
    exact this.symm
  · obtain ⟨y, h1, -, h3⟩ := (hex t).choose_spec.2.1.play (hσ t) (σ t).2
    have h4 : ∀ c, together n x (before σ (t + 1)) = .ok (some c) → c = y := by
      intro c hc
      rw [before_succ, together_append (hex t).choose_spec.1] at hc
      have h5 : together n (hex t).choose [σ t] = .ok (some y) := by
        show (makes n _ (σ t).1 (σ t).2 >>= _) = _
        rw [h1, Exec.ok_bind]
        rfl
      rw [h5] at hc
      injection hc with hc
      injection hc with hc
      exact hc.symm
    show Prog n _ (hex (t + 1)).choose _ _
    rw [h4 _ (hex (t + 1)).choose_spec.1]
    exact h3 j hj

/-- A client that waits is answered at some time. -/
theorem hears_later {w : Nat → World} {σ : Nat → Env × Move} (hp : ∀ t, Prog n (w t) (w (t + 1)) (σ t).2 i) (hd : ∀ t, ∃ d, (σ (t + d)).2 = .deliver) (r : Nat) (d : Nat) :
    ∀ t, (σ (t + d)).2 = .deliver → remaining n ((w t).clients i).conn (w t).stack.box ≤ r → ((w t).clients i).waiting = true →
      ∃ t' ans id q body next, t ≤ t' ∧ ((w t).clients i).plan = .ask id q body next ∧ ((w (t' + 1)).clients i).plan = next ans ∧ ((w (t' + 1)).clients i).waiting = false := by
  induction r using Nat.strongRecOn generalizing d with
  | _ r ihr =>
    induction d with
    | zero =>
      intro t ht hr hw
      cases hp t with
      | stays g1 g2 g3 =>
        have hlt := (g3 hw).2 ht
        obtain ⟨d', hd'⟩ := hd (t + 1)
        rw [← g1] at hw
        obtain ⟨t', ans, id, q, body, next, h1, h2, h3⟩ := ihr (remaining n ((w t).clients i).conn (w (t + 1)).stack.box) (by omega) d' (t + 1) hd' (by rw [g1]; exact Nat.le_refl _) hw
        exact ⟨t', ans, id, q, body, next, by omega, by rw [← g1]; exact h2, h3⟩
      | talks g1 g2 =>
        unfold Client.wishes at g2
        rw [hw] at g2
        cases g2
      | hears ans g1 g2 id q body next hp hf =>
        refine ⟨t, ans, id, q, body, next, Nat.le_refl _, hp, ?_⟩
        rw [g2, Client.behind, hp]
        exact ⟨rfl, rfl⟩
    | succ d ihd =>
      intro t ht hr hw
      cases hp t with
      | stays g1 g2 g3 =>
        have hle := (g3 hw).1
        rw [← g1] at hw
        obtain ⟨t', ans, id, q, body, next, h1, h2, h3⟩ := ihd (t + 1) (by rw [show t + 1 + d = t + (d + 1) by omega]; exact ht) (by rw [g1]; omega) hw
        exact ⟨t', ans, id, q, body, next, by omega, by rw [← g1]; exact h2, h3⟩
      | talks g1 g2 =>
        unfold Client.wishes at g2
        rw [hw] at g2
        cases g2
      | hears ans g1 g2 id q body next hp hf =>
        refine ⟨t, ans, id, q, body, next, Nat.le_refl _, hp, ?_⟩
        rw [g2, Client.behind, hp]
        exact ⟨rfl, rfl⟩

/-- A client that may talk does so at some time. -/
theorem talks_later {w : Nat → World} {σ : Nat → Env × Move} (hp : ∀ t, Prog n (w t) (w (t + 1)) (σ t).2 i) (d : Nat) :
    ∀ t, (σ (t + d)).2 = .talk i → ((w t).clients i).wishes = true → ∃ t', t ≤ t' ∧ ((w t').clients i).waiting = true ∧ ((w t').clients i).plan = ((w t).clients i).plan := by
  induction d with
  | zero =>
    intro t ht hw
    cases hp t with
    | stays g1 g2 g3 =>
      rw [g2 ht] at hw
      cases hw
    | talks g1 g2 => exact ⟨t + 1, by omega, by rw [g1], by rw [g1]⟩
    | hears ans g1 =>
      unfold Client.wishes at hw
      rw [g1] at hw
      cases hw
  | succ d ih =>
    intro t ht hw
    cases hp t with
    | stays g1 g2 g3 =>
      rw [← g1] at hw
      obtain ⟨t', h1, h2, h3⟩ := ih (t + 1) (by rw [show t + 1 + d = t + (d + 1) by omega]; exact ht) hw
      exact ⟨t', by omega, h2, by rw [h3, g1]⟩
    | talks g1 g2 => exact ⟨t + 1, by omega, by rw [g1], by rw [g1]⟩
    | hears ans g1 =>
      unfold Client.wishes at hw
      rw [g1] at hw
      cases hw

/-- A client gets to the end of its plan. -/
theorem ends {w : Nat → World} {σ : Nat → Env × Move} (hp : ∀ t, Prog n (w t) (w (t + 1)) (σ t).2 i) (hd : ∀ t, ∃ d, (σ (t + d)).2 = .deliver) (ht : ∀ t, ∃ d, (σ (t + d)).2 = .talk i)
    (p : Plan) : ∀ t, ((w t).clients i).plan = p → ∃ t', t ≤ t' ∧ ((w t').clients i).plan.isDone = true := by
  induction p with
  | done => exact fun t hp => ⟨t, Nat.le_refl _, by rw [hp]; rfl⟩
  | ask id r body next ih =>
    intro t hpl
    have hwait : ∃ t1, t ≤ t1 ∧ ((w t1).clients i).waiting = true ∧ ((w t1).clients i).plan = .ask id r body next := by
      cases hwt : ((w t).clients i).waiting with
      | true => exact ⟨t, Nat.le_refl _, hwt, hpl⟩
      | false =>
        obtain ⟨d, hd⟩ := ht t
        obtain ⟨t1, h1, h2, h3⟩ := talks_later hp d t hd (by unfold Client.wishes; rw [hwt, hpl]; rfl)
        exact ⟨t1, h1, h2, h3.trans hpl⟩
    obtain ⟨t1, h1, h2, h3⟩ := hwait
    obtain ⟨d, hd'⟩ := hd t1
    obtain ⟨t2, ans, id', r', body', next', h4, h5, h6, -⟩ := hears_later hp hd _ d t1 hd' (Nat.le_refl _) h2
    rw [h3] at h5
    injection h5 with _ _ _ h5
    subst h5
    obtain ⟨t3, h7, h8⟩ := ih ans (t2 + 1) h6
    exact ⟨t3, by omega, h8⟩

/-- A plan at its end stays there. -/
theorem ends_stay {w : Nat → World} {σ : Nat → Env × Move} (hp : ∀ t, Prog n (w t) (w (t + 1)) (σ t).2 i) {t : Nat} (h : ((w t).clients i).plan.isDone = true) (d : Nat) :
    ((w (t + d)).clients i).plan.isDone = true := by
  induction d with
  | zero => exact h
  | succ d ih =>
    cases hp (t + d) with
    | stays g1 => rw [show t + (d + 1) = t + d + 1 by omega, g1]; exact ih
    | talks g1 => rw [show t + (d + 1) = t + d + 1 by omega, g1]; exact ih
    | hears ans g1 g2 id r body next hp hf =>
      rw [hp] at ih
      cases ih

/-- C80: if every client is given the chance to talk again and again, and messages are delivered again and again, all clients come to the end of their plans. -/
theorem C80_complete {K : Nat → Know} (h : Reach m u evs s) {cs : Nat → Client} (ha : Apart n s cs K) {σ : Nat → Env × Move} (hσ : ∀ t, Roomy n (σ t).1)
    (hd : ∀ t, ∃ d, (σ (t + d)).2 = .deliver) (ht : ∀ i, i < n → ∀ t, ∃ d, (σ (t + d)).2 = .talk i) : ∃ t y, together n ⟨cs, s⟩ (before σ t) = .ok (some y) ∧
      ∀ i, i < n → ∃ xs, (y.clients i).heard = (cs i).heard ++ xs ∧ Completes (cs i).plan xs := by
  obtain ⟨w, h0, hw⟩ := traj ⟨_, _, ha.inv h⟩ hσ
  have hp : ∀ i, i < n → ∀ t, Prog n (w t) (w (t + 1)) (σ t).2 i := fun i hi t => ((hw t).2.2 i hi).1
  have hall : ∀ k, k ≤ n → ∃ t, ∀ i, i < k → ((w t).clients i).plan.isDone = true := by
    intro k
    induction k with
    | zero => exact fun _ => ⟨0, fun i hi => absurd hi (Nat.not_lt_zero i)⟩
    | succ k ih =>
      intro hk
      obtain ⟨t, h1⟩ := ih (by omega)
      obtain ⟨t', h2, h3⟩ := ends (hp k (by omega)) hd (ht k (by omega)) _ t rfl
      refine ⟨t', fun i hi => ?_⟩
      by_cases hik : i = k
      · rw [hik]
        exact h3
      · have := ends_stay (hp i (by omega)) (h1 i (by omega)) (t' - t)
        rwa [show t + (t' - t) = t' by omega] at this
  obtain ⟨t, hall⟩ := hall n (Nat.le_refl n)
  refine ⟨t, w t, (hw t).1, fun i hi => ?_⟩
  obtain ⟨xs, h1, h2⟩ := ((hw t).2.2 i hi).2
  exact ⟨xs, h1, h2.completes (hall i hi)⟩

end

/-! ## Examples -/

/-- Two clients connect. -/
def connectTwo : List (Env × Ev) := connects ++ [(calm, .net .accept), (reads helloFrame, .net (.linkData 2)),
  (reads (chunk .opn 0x46 0 Channel.openReq), .net (.linkData 2)), (calm, .deliver), (calm, .deliver)]

/-- What is decided below: a connection, the channel with the same number, the free sessions and the mailbox. -/
structure Sight where
  st : TSt
  opened : Bool
  assoc : Option UInt32
  rx : Nat × Nat
  window : Option Window
  tx : Option UInt32
  free : Nat
  box : List Mail
deriving DecidableEq, Repr

def sight (k : Nat) (s : Stack) : Sight where
  st := (s.srv.conns k).st
  opened := (s.srv.conns k).opened
  assoc := (s.srv.conns k).assoc
  rx := ((s.srv.conns k).rx.tail, (s.srv.conns k).rx.head)
  window := window (s.chans.objs k).log
  tx := Channel.lastTx (s.chans.objs k).log
  free := s.sess.ids.len
  box := s.box

def sightTwo : Exec (Bool × Sight × Sight) := do
  let s ← create (fun _ => garbage) Channel.unset
  let s' ← runs s connectTwo
  pure (longUps s'.srv, sight 1 s', sight 2 s')

theorem sightTwo_eq : sightTwo = .ok (true, ⟨.connected, true, some 1, (0, 0), some ⟨1, 77, 51, false⟩, some 1, 32, []⟩,
    ⟨.connected, true, some 2, (0, 0), some ⟨2, 77, 51, false⟩, some 1, 32, []⟩) := by decide +kernel

/-- Both want to create a session, activate it, read and close it. -/
def guests (a b : Nat) : Nat → Client
  | 0 => ⟨1, 1, ⟨1, 77, 51, false⟩, 1, visit a, false, []⟩
  | _ => ⟨2, 2, ⟨2, 77, 51, false⟩, 1, visit b, false, []⟩

theorem guests_apart (a b : Nat) : ∃ s, Reach (fun _ => garbage) Channel.unset connectTwo s ∧ Apart 2 s (guests a b) fun _ => ⟨[], [], none, 1⟩ := by
  obtain ⟨s0, h1, h2⟩ := Exec.bind_eq_ok.mp sightTwo_eq
  obtain ⟨s, h3, h4⟩ := Exec.bind_eq_ok.mp h2
  injection h4 with h4
  injection h4 with h4 h5
  injection h5 with h5 h6
  have hr := runs_reach (.create h1) h3
  have hl := longUps_iff h4
  have hk1 := knows_of (ch := 1) hr hl (by decide) (congrArg Sight.window h5)
  have hk2 := knows_of (ch := 2) hr hl (by decide) (congrArg Sight.window h6)
  have hfree : s.sess.ids.len = 32 := congrArg Sight.free h5
  have hbox : s.box = [] := congrArg Sight.box h5
  have hK : ∀ ch, Holds ⟨[], [], none, 1⟩ s ch := fun ch => ⟨fun _ h => (nomatch h), fun _ h => (nomatch h), fun _ h => (nomatch h), by rw [hfree]; decide⟩
  have two : ∀ {P : Nat → Prop}, P 0 → P 1 → ∀ i, i < 2 → P i := fun h0 h1 i hi => by
    match i, hi with
    | 0, _ => exact h0
    | 1, _ => exact h1
  have diff : ∀ {P : Nat → Nat → Prop}, P 0 1 → P 1 0 → ∀ i j, i < 2 → j < 2 → i ≠ j → P i j := fun h0 h1 i j hi hj hij => by
    match i, j, hi, hj with
    | 0, 0, _, _ => exact absurd rfl hij
    | 0, 1, _, _ => exact h0
    | 1, 0, _, _ => exact h1
    | 1, 1, _, _ => exact absurd rfl hij
  refine ⟨s, hr, two ?_ ?_, two ?_ ?_, two ?_ ?_, two rfl rfl, two (hK _) (hK _), two (visit_sound a) (visit_sound b), diff (show (1 : Nat) ≠ 2 by decide) (show (2 : Nat) ≠ 1 by decide), diff (show (1 : UInt32) ≠ 2 by decide) (show (2 : UInt32) ≠ 1 by decide),
    fun _ _ _ _ _ _ h => (nomatch h), by rw [hfree]; decide, hbox⟩
  · exact ⟨show Pool.valid 1 by decide, congrArg Sight.st h5, congrArg Sight.opened h5, congrArg Sight.assoc h5, show Pool.valid (1 : UInt32).toNat by decide, hk1, rfl, hbox⟩
  · exact ⟨show Pool.valid 2 by decide, congrArg Sight.st h6, congrArg Sight.opened h6, congrArg Sight.assoc h6, show Pool.valid (2 : UInt32).toNat by decide, hk2, rfl, hbox⟩
  · exact ⟨congrArg Prod.fst (congrArg Sight.rx h5), congrArg Prod.snd (congrArg Sight.rx h5)⟩
  · exact ⟨congrArg Prod.fst (congrArg Sight.rx h6), congrArg Prod.snd (congrArg Sight.rx h6)⟩
  · exact congrArg Sight.tx h5
  · exact congrArg Sight.tx h6

theorem calm_roomy {n : Nat} (h : n ≤ 32) : Roomy n calm := ⟨by show 0 + _ ≤ _; omega, rfl, rfl⟩

/-- Both ask, a message is delivered, and so on. -/
def inTurn (t : Nat) : Env × Move := (calm, if t % 3 = 0 then .talk 0 else if t % 3 = 1 then .talk 1 else .deliver)

/-- C80: both visits come to their ends. -/
example (a b : Nat) : ∃ s, Reach (fun _ => garbage) Channel.unset connectTwo s ∧ ∃ t y, together 2 ⟨guests a b, s⟩ (before inTurn t) = .ok (some y) ∧
    Completes (visit a) (y.clients 0).heard ∧ Completes (visit b) (y.clients 1).heard := by
  obtain ⟨s, h1, h2⟩ := guests_apart a b
  have hd : ∀ t, ∃ d, (inTurn (t + d)).2 = .deliver := fun t => ⟨2 - t % 3, by
    have : (t + (2 - t % 3)) % 3 = 2 := by omega
    simp only [inTurn, this]
    rfl⟩
  have ht : ∀ i, i < 2 → ∀ t, ∃ d, (inTurn (t + d)).2 = .talk i := fun i hi t => by
    match i, hi with
    | 0, _ =>
      refine ⟨(3 - t % 3) % 3, ?_⟩
      have : (t + (3 - t % 3) % 3) % 3 = 0 := by omega
      simp only [inTurn, this]
      rfl
    | 1, _ =>
      refine ⟨(4 - t % 3) % 3, ?_⟩
      have : (t + (4 - t % 3) % 3) % 3 = 1 := by omega
      simp only [inTurn, this]
      rfl
  obtain ⟨t, y, h3, h4⟩ := C80_complete h1 h2 (fun _ => calm_roomy (by decide)) hd ht
  obtain ⟨xs, h5, h6⟩ := h4 0 (by decide)
  obtain ⟨ys, h7, h8⟩ := h4 1 (by decide)
  refine ⟨s, h1, t, y, h3, ?_, ?_⟩
  · rw [h5]
    exact h6
  · rw [h7]
    exact h8

/-- Who waits, and how many answers each of the two has, after these moves. -/
def demo (l : List Move) : Exec (Option (List (Bool × Nat))) := do
  let s ← create (fun _ => garbage) Channel.unset
  let s' ← runs s connectTwo
  let o ← together 2 ⟨guests 0 1, s'⟩ (l.map fun v => (calm, v))
  pure (o.map fun y => [0, 1].map fun i => ((y.clients i).waiting, (y.clients i).heard.length))

/-- C80: both ask at once and wait; the answers come after 7 and 8 deliveries. -/
example : demo [.talk 0, .talk 1] = .ok (some [(true, 0), (true, 0)]) ∧ demo ([.talk 0, .talk 1] ++ List.replicate 7 .deliver) = .ok (some [(false, 1), (true, 0)]) ∧
    demo ([.talk 0, .talk 1] ++ List.replicate 8 .deliver) = .ok (some [(false, 1), (false, 1)]) := by decide +kernel

end Stack

end Uscada.Ua
