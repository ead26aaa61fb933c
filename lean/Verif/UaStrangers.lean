import Verif.UaClients
import Verif.UaFoot
/-!
# C82: a client among strangers

One client carries out its plan (C79) while the others do what they like: connections come and go, send any bytes in any pieces, break off, time
out, open and lose channels, create sessions and leave them behind.  Nothing is assumed of them but what the server does not defend itself against:
they do not end the process (C55, C64, ...), they do not fill the mailbox or take the last session just when the client needs a slot or a session, and they do
not activate or close the session of the client (C52).
-/

namespace Uscada.Ua

open SM

namespace Stack

open Transport (Down TEv tlogs chunk)
open Channel (clogs Window window bound word)
open Session (slogs bytesOf Fits isOpen holder Says)

variable {m : Nat → Mem} {u : Nat → UInt32 × UInt32} {evs : List (Env × Ev)} {s s' : Stack}

/-! ## Specification -/

/-- The channel a message names. -/
def names : Mail → Option UInt32
  | .chan (.open _ _) => none
  | .chan (.close _ ch _) => some ch
  | .chan (.message _ ch _) => some ch
  | .chan (.released _ ch) => some ch
  | .chan (.associate h) => some h.secureChannelId
  | .chan (.send h _) => some h.secureChannelId
  | .tcp _ (.openRsp ch _ _) => some ch
  | .tcp _ (.closeRsp ch _ _) => some ch
  | .tcp _ (.sendReq ch _ _) => some ch
  | .tcp _ .releaseReq => none
  | .sess h _ => some h.secureChannelId

/-- Who created a session. -/
def creator (l : List SAct) : Option MsgHdr := l.foldl (fun o a => match a with
  | .got h (.create _) => some h
  | _ => o) none

/-- The session was created through this connection and channel. -/
def Made (k : Nat) (ch : UInt32) (l : List SAct) : Prop := ∃ h, creator l = some h ∧ h.connectionId = UInt32.ofNat k ∧ h.secureChannelId = ch

/-- A request that takes a session over or ends it. -/
def Seizes : SAct → Prop
  | .got _ (.activate _) => True
  | .got _ (.close _) => True
  | _ => False

/-- Meanwhile nobody takes over or ends a session that was created through this connection and channel. -/
def Spares (k : Nat) (ch : UInt32) (s s' : Stack) : Prop := ∀ x, Pool.valid x → isOpen (s.sess.objs x).log = true → Made k ch (s.sess.objs x).log →
  ∀ a ∈ (s'.sess.objs x).log.drop (s.sess.objs x).log.length, ¬ Seizes a

/-- The client and the server with all the others. -/
structure Scene where
  client : Client
  stack : Stack

inductive Act where
  /-- the client sends its next request -/
  | talk
  /-- something happens to the link or timer of another connection, or there is a new one -/
  | net (v : TEv)
  /-- the oldest message is delivered -/
  | deliver

def Act.isDeliver : Act → Bool
  | .deliver => true
  | _ => false

def Scene.ev (x : Scene) : Act → Ev
  | .talk => .net (.linkData x.client.conn)
  | .net v => .net v
  | .deliver => .deliver

def Scene.env (x : Scene) (e : Env) : Act → Env
  | .talk => e.brings x.client.says
  | _ => e

def Scene.told (x : Scene) : Act → Client
  | .talk => { x.client with waiting := true }
  | _ => x.client

/-- What the client makes of what was written to its connection. -/
def Scene.hear (x : Scene) (v : Act) (s' : Stack) : Option Client := (x.told v).hears (written x.stack s' x.client.conn)

/-- What may happen.  The client sends when the answer to its last request has come.  Messages about its connection are delivered while there are two free slots in the mailbox,
the service component gets its request while a session is free, and the link takes the bytes.  Other messages are delivered at any time, and anything happens to other
connections, but nobody takes over or ends its sessions. -/
def Allowed (x : Scene) (e : Env) (s' : Stack) : Act → Prop
  | .talk => x.client.wishes = true ∧ e.tcp.starts = true ∧ x.stack.box.length + 1 + e.others ≤ 64
  | .net v => isDown v = false ∧ Transport.Possible x.stack.srv v ∧ Transport.subject v ≠ some x.client.conn
  | .deliver => ∃ z rest, x.stack.box = z :: rest ∧ (who z = x.client.conn → e.tcp.writes = true ∧ rest.length + 2 + e.others ≤ 64 ∧
      ((∃ h d, z = .sess h d) → x.stack.sess.ids.len ≠ 0)) ∧ (who z ≠ x.client.conn → Spares x.client.conn x.client.chan x.stack s')

/-- A history in which the process survives: it leads to a scene, or to nothing when the client hears what is not the answer it waits for. -/
inductive Happens : Scene → List (Env × Act) → Option Scene → Prop
  | nil {x : Scene} : Happens x [] (some x)
  | more {x : Scene} {e : Env} {v : Act} {s' : Stack} {c : Client} {l : List (Env × Act)} {r : Option Scene} (hs : step x.stack (x.env e v) (x.ev v) = .ok s')
      (ha : Allowed x e s' v) (hc : x.hear v s' = some c) (h : Happens ⟨c, s'⟩ l r) : Happens x ((e, v) :: l) r
  | lost {x : Scene} {e : Env} {v : Act} {s' : Stack} {l : List (Env × Act)} (hs : step x.stack (x.env e v) (x.ev v) = .ok s')
      (ha : Allowed x e s' v) (hc : x.hear v s' = none) : Happens x ((e, v) :: l) none

/-- The client is connected and has sent nothing; no message of another connection names its channel, no other connection belongs to it, no message
about the connection of the client is under way, and the sessions the client knows of were created by it. -/
structure Among (s : Stack) (c : Client) (K : Know) : Prop where
  conn : Pool.valid c.conn
  st : (s.srv.conns c.conn).st = .connected
  opened : (s.srv.conns c.conn).opened = true
  assoc : (s.srv.conns c.conn).assoc = some c.chan
  blank : Blank s c.conn
  chan : Pool.valid c.chan.toNat
  knows : Channel.Knows s.chans c.chan c.win
  owner : c.win.owner = UInt32.ofNat c.conn
  tx : Channel.lastTx (s.chans.objs c.chan.toNat).log = some c.tx
  idle : c.waiting = false
  sessions : ∀ x ∈ K.opened, Pool.valid x.toNat ∧ isOpen (s.sess.objs x.toNat).log = true ∧ Made c.conn c.chan (s.sess.objs x.toNat).log
  active : ∀ x ∈ K.active, x ∈ K.opened ∧ holder (s.sess.objs x.toNat).log = some c.chan
  last : ∀ x, K.last = some x → bound (s.chans.objs c.chan.toNat).log = some x
  sound : Sound K c.plan
  box : ∀ y ∈ s.box, who y ≠ c.conn ∧ names y ≠ some c.chan
  apart : ∀ j, Pool.valid j → j ≠ c.conn → (s.srv.conns j).assoc ≠ some c.chan

/-- The number of deliveries. -/
def delivered : List (Env × Act) → Nat
  | [] => 0
  | (_, v) :: l => (if v.isDeliver then 1 else 0) + delivered l

/-! ## Sessions -/

theorem creator_snoc (l : List SAct) (a : SAct) : creator (l ++ [a]) = match a with
    | .got h (.create _) => some h
    | _ => creator l := by
  unfold creator
  rw [List.foldl_append]
  rfl

/-- A request to an open session leaves it to its creator; a session that is created belongs to the one who asks. -/
theorem creator_react {k : Nat} {e : SEnv} {h : MsgHdr} {r : SReq} {t : Sess} (ho : isOpen (Session.react k e h r t).log = true) (hr : ∀ q, r = .create q → isOpen t.log = false) :
    (isOpen t.log = true → creator (Session.react k e h r t).log = creator t.log) ∧ (isOpen t.log = false → creator (Session.react k e h r t).log = some h) := by
  constructor
  · intro hb
    have hr : ∀ q, r ≠ .create q := fun q he => by rw [hr q he] at hb; cases hb
    cases hs : t.st <;> cases r <;> simp only [Session.react, hs, creator_snoc] <;> try exact absurd rfl (hr _)
    split <;> simp only [creator_snoc]
  · intro hb
    cases hs : t.st <;> cases r <;> simp only [Session.react, hs, Session.isOpen_snoc, hb, creator_snoc] at ho ⊢ <;> try cases ho
    split at ho <;> simp only [Session.isOpen_snoc, hb] at ho <;> cases ho

theorem creator_step {i : Session.SIn} {t t' : Sessions} (h : Session.Foot i t t') {x : Nat} (hx : x ≠ 0) (ho : isOpen (t'.objs x).log = true) :
    (isOpen (t.objs x).log = true → creator (t'.objs x).log = creator (t.objs x).log) ∧ (isOpen (t.objs x).log = false → creator (t'.objs x).log = some i.hdr) := by
  obtain ⟨k, h1, -, h3⟩ := h
  by_cases hk : x = k
  · subst hk
    rcases h3 with h3 | ⟨r, h3, h4⟩
    · exact absurd h3 hx
    · rw [h3] at ho ⊢
      exact creator_react ho h4
  · rw [h1 x hk] at ho ⊢
    exact ⟨fun _ => rfl, fun hf => by rw [ho] at hf; cases hf⟩

/-- A request that does not take an open session over or end it changes neither its end nor its holder. -/
theorem spared_react {k : Nat} {e : SEnv} {h : MsgHdr} {r : SReq} {t : Sess} (hb : isOpen t.log = true) (hr : ∀ q, r = .create q → isOpen t.log = false)
    (hs : ¬ Seizes (.got h r)) : isOpen (Session.react k e h r t).log = true ∧ holder (Session.react k e h r t).log = holder t.log ∧
      creator (Session.react k e h r t).log = creator t.log := by
  have key : isOpen (Session.react k e h r t).log = true ∧ holder (Session.react k e h r t).log = holder t.log := by
    cases hst : t.st <;> cases r <;> simp only [Session.react, hst, Session.isOpen_snoc, Session.holder_snoc, hb, and_self] <;>
      first | exact absurd trivial hs | (exfalso; have := hr _ rfl; rw [hb] at this; cases this) | skip
    split <;> simp only [Session.isOpen_snoc, Session.holder_snoc, hb, and_self]
  exact ⟨key.1, key.2, (creator_react key.1 hr).1 hb⟩

theorem spared_step {i : Session.SIn} {t t' : Sessions} (h : Session.Foot i t t') {x : Nat} (hx : x ≠ 0) (hb : isOpen (t.objs x).log = true)
    (hs : ∀ a ∈ (t'.objs x).log.drop (t.objs x).log.length, ¬ Seizes a) : isOpen (t'.objs x).log = true ∧ holder (t'.objs x).log = holder (t.objs x).log ∧
      creator (t'.objs x).log = creator (t.objs x).log := by
  obtain ⟨k, h1, -, h3⟩ := h
  by_cases hk : x = k
  · subst hk
    rcases h3 with h3 | ⟨r, h3, h4⟩
    · exact absurd h3 hx
    · obtain ⟨new, h5, -⟩ := Session.react_back x i.env i.hdr r (t.objs x)
      rw [h3, h5, List.drop_left] at hs
      rw [h3]
      exact spared_react hb h4 (hs _ List.mem_cons_self)
  · rw [h1 x hk]
    exact ⟨hb, rfl, rfl⟩

/-! ## What the others send -/

theorem mem_sentTcp {a b : Srv} {k : Nat} {ch : UInt32} (h : Transport.Foot k ch a b) (ha : (a.conns k).assoc ≠ some ch) {j : Nat} (hj : j ≠ k) {y : Mail} (hy : y ∈ sentTcp a b) :
    who y ≠ j ∧ names y ≠ some ch := by
  obtain ⟨i, hi, hy⟩ := List.mem_flatMap.mp hy
  have hi : i < 33 := List.mem_range.mp hi
  obtain ⟨t, ht, hy⟩ := List.mem_filterMap.mp hy
  by_cases hik : i = k
  · subst hik
    obtain ⟨new, hn, hc⟩ := (h.2 ha).2
    rw [hn, List.drop_left] at ht
    have hc := hc t ht
    have hin : (UInt32.ofNat i).toNat = i := (toNat_eq hi).mpr rfl
    have hne : i ≠ j := fun h => hj h.symm
    unfold ofTcp at hy
    split at hy
    · injection hy with hy; subst hy; exact ⟨by simp only [who, hin]; exact hne, by simp [names]⟩
    · injection hy with hy; subst hy; exact ⟨by simp only [who, hin]; exact hne, fun h => hc (Option.some.inj h)⟩
    · injection hy with hy; subst hy; exact ⟨by simp only [who, hin]; exact hne, fun h => hc (Option.some.inj h)⟩
    · injection hy with hy; subst hy; exact ⟨by simp only [who, hin]; exact hne, fun h => hc (Option.some.inj h)⟩
    · cases hy
  · rw [h.1 i hik, List.drop_length] at ht
    cases ht

theorem mem_diff {α : Type} {old new : Nat → List α} {k : Nat} (h : ∀ j, j ≠ k → new j = old j) {l : List α} (hl : new k = old k ++ l) {a : α} (ha : a ∈ diff old new) : k < 33 ∧ a ∈ l := by
  obtain ⟨i, hi, ha⟩ := List.mem_flatMap.mp ha
  by_cases hik : i = k
  · subst hik
    rw [hl, List.drop_left] at ha
    exact ⟨List.mem_range.mp hi, ha⟩
  · rw [h i hik, List.drop_length] at ha
    cases ha

theorem mem_sentChan {a b : Chans} {k : Nat} {c : UInt32} (h : Channel.Foot k c a b) {y : Mail} (hy : y ∈ sentChan a b) :
    who y = c.toNat ∧ k < 33 ∧ ∀ ch, names y = some ch → ch.toNat = k := by
  obtain ⟨t, ht, hy⟩ := List.mem_filterMap.mp hy
  obtain ⟨h1, new, hn, hc⟩ := h
  obtain ⟨hk, ht⟩ := mem_diff (k := k) (fun j hj => by rw [h1 j hj]) hn ht
  have hc := hc t ht
  have hin : (UInt32.ofNat k).toNat = k := (toNat_eq hk).mpr rfl
  have hname : ∀ {ch ch' : UInt32}, ch' = UInt32.ofNat k → some ch' = some ch → ch.toNat = k := fun h1 h2 => by rw [← Option.some.inj h2, h1, hin]
  unfold ofChan at hy
  split at hy
  · injection hy with hy; subst hy; exact ⟨by rw [who, hc.1], hk, fun _ => hname hc.2⟩
  · injection hy with hy; subst hy; exact ⟨by rw [who, hc.1], hk, fun _ => hname hc.2⟩
  · injection hy with hy; subst hy; exact ⟨by rw [who, hc.1], hk, fun _ => hname hc.2⟩
  · injection hy with hy
    subst hy
    have hc : _ = c := hc
    exact ⟨by rw [who, hc], hk, fun _ h => nomatch h⟩
  · injection hy with hy; subst hy; exact ⟨by rw [who, hc.1], hk, fun _ => hname hc.2⟩
  · cases hy

theorem mem_sentSess {i : Session.SIn} {a b : Sessions} (h : Session.Foot i a b) {y : Mail} (hy : y ∈ sentSess a b) :
    who y = i.hdr.connectionId.toNat ∧ names y = some i.hdr.secureChannelId := by
  obtain ⟨t, ht, hy⟩ := List.mem_filterMap.mp hy
  obtain ⟨k, h1, ⟨new, hn, hc⟩, -⟩ := h
  obtain ⟨hk, ht⟩ := mem_diff (k := k) (fun j hj => by rw [h1 j hj]) hn ht
  have hc := hc t ht
  unfold ofSess at hy
  split at hy
  · injection hy with hy; subst hy; exact ⟨by rw [who, hc.1], by rw [names, hc.2]⟩
  · injection hy with hy; subst hy; exact ⟨by rw [who, hc.1], by rw [names, hc.2]⟩
  · cases hy

/-! ## A step of the others -/

theorem Stage.frame' {c : Client} {K : Know} {ph : Phase} (h : Stage s c K ph) (h1 : s'.srv.conns c.conn = s.srv.conns c.conn)
    (h2 : s'.chans.objs c.chan.toNat = s.chans.objs c.chan.toNat)
    (h3 : ∀ x ∈ K.opened, isOpen (s'.sess.objs x.toNat).log = true ∧ holder (s'.sess.objs x.toNat).log = holder (s.sess.objs x.toNat).log) : Stage s' c K ph := by
  refine ⟨h.conn, ?_, ?_, ?_, h.chan, h.owner, ?_, ⟨?_, ?_, ?_⟩, ?_, ?_, h.future, fun x hx => ?_, fun x hx => ?_⟩
  · rw [h1]; exact h.st
  · rw [h1]; exact h.opened
  · rw [h1]; exact h.assoc
  · unfold Blank; rw [h1]; exact h.blank
  · rw [h2]; exact h.knows.owner
  · rw [h2]; exact h.knows.token
  · rw [h2]; exact h.knows.seq
  · rw [h2]; exact h.tx
  · rw [h2]; exact h.binding
  · exact ⟨(h.open_ x hx).1, (h3 x hx).1⟩
  · exact ⟨(h.active x hx).1, (h3 x (h.active x hx).1).2.trans (h.active x hx).2⟩

/-- What holds of the client among strangers. -/
structure Amid (m : Nat → Mem) (u : Nat → UInt32 × UInt32) (x : Scene) (K : Know) (ph : Phase) : Prop where
  reach : ∃ evs, Reach m u evs x.stack
  stage : Stage x.stack x.client K ph
  mine : about x.client.conn x.stack.box = ph.mails x.client
  others : ∀ y ∈ x.stack.box, who y ≠ x.client.conn → names y ≠ some x.client.chan
  apart : ∀ j, Pool.valid j → j ≠ x.client.conn → (x.stack.srv.conns j).assoc ≠ some x.client.chan
  made : ∀ y ∈ K.opened, Made x.client.conn x.client.chan (x.stack.sess.objs y.toNat).log

/-- An event of another connection, or a message about another connection. -/
theorem strange {x : Scene} {K : Know} {ph : Phase} (h : Amid m u x K ph) {e : Env} {s' : Stack} {v : Ev} (hp : Possible x.stack v) (hn : step x.stack e v = .ok s')
    (hv : match v with
      | .net v => Transport.subject v ≠ some x.client.conn
      | .deliver => ∀ z rest, x.stack.box = z :: rest → who z ≠ x.client.conn ∧ Spares x.client.conn x.client.chan x.stack s') :
    Amid m u ⟨x.client, s'⟩ K ph ∧ written x.stack s' x.client.conn = [] ∧ ∃ rest new, s'.box = rest ++ new ∧
      (match v with
        | .net _ => x.stack.box = rest
        | .deliver => ∃ z, who z ≠ x.client.conn ∧ x.stack.box = z :: rest) := by
  obtain ⟨evs, hr⟩ := h.reach
  have hst := h.stage
  obtain ⟨tevs, cevs, sevs, ht, hc, hss, hlong⟩ := reach_parts hr
  have hreach : ∃ evs, Reach m u evs s' := ⟨_, hr.step hp hn⟩
  -- how it goes on
  have wrap : ∀ rest ms, s'.srv.conns x.client.conn = x.stack.srv.conns x.client.conn → s'.chans.objs x.client.chan.toNat = x.stack.chans.objs x.client.chan.toNat →
      (∀ y ∈ K.opened, isOpen (s'.sess.objs y.toNat).log = true ∧ holder (s'.sess.objs y.toNat).log = holder (x.stack.sess.objs y.toNat).log ∧
        creator (s'.sess.objs y.toNat).log = creator (x.stack.sess.objs y.toNat).log) →
      (∀ j, Pool.valid j → j ≠ x.client.conn → (s'.srv.conns j).assoc ≠ some x.client.chan) → about x.client.conn rest = about x.client.conn x.stack.box → (∀ y ∈ rest, y ∈ x.stack.box) →
      (∀ y ∈ ms, who y ≠ x.client.conn ∧ names y ≠ some x.client.chan) → s'.box = rest ++ ms → Amid m u ⟨x.client, s'⟩ K ph := by
    intro rest ms h1 h2 h3 h4 h5 h6 h7 h8
    refine ⟨hreach, hst.frame' h1 h2 fun y hy => ⟨(h3 y hy).1, (h3 y hy).2.1⟩, ?_, fun y hy hw => ?_, h4, fun y hy => ?_⟩
    · show about _ s'.box = _
      have : about x.client.conn ms = [] := List.filter_eq_nil_iff.mpr fun y hy => by simpa using (h7 y hy).1
      rw [h8, about_append, h5, this, List.append_nil]
      exact h.mine
    · have hy : y ∈ s'.box := hy
      rw [h8] at hy
      exact (List.mem_append.mp hy).elim (fun hy => h.others y (h6 y hy) hw) fun hy => (h7 y hy).2
    · obtain ⟨g, hg, hg'⟩ := h.made y hy
      exact ⟨g, (h3 y hy).2.2.trans hg, hg'⟩
  have hstay : ∀ y ∈ K.opened, isOpen (x.stack.sess.objs y.toNat).log = true ∧ holder (x.stack.sess.objs y.toNat).log = holder (x.stack.sess.objs y.toNat).log ∧
      creator (x.stack.sess.objs y.toNat).log = creator (x.stack.sess.objs y.toNat).log := fun y hy => ⟨(hst.open_ y hy).2, rfl, rfl⟩
  have hconn : ∀ {v' : TEv}, Transport.Possible x.stack.srv v' → Transport.subject v' ≠ some x.client.conn → (∀ j f d, v' ≠ .down j (.openRsp x.client.chan f d)) → Transport.next x.stack.srv e.tcp v' = .ok s'.srv →
      s'.srv.conns x.client.conn = x.stack.srv.conns x.client.conn ∧ (∀ j, Pool.valid j → j ≠ x.client.conn → (s'.srv.conns j).assoc ≠ some x.client.chan) ∧
      ∀ y ∈ sentTcp x.stack.srv s'.srv, who y ≠ x.client.conn ∧ names y ≠ some x.client.chan := by
    intro v' h0 h1 h2 h3
    obtain ⟨j, hj, hjv | hsame, hf⟩ := Transport.next_foot ht hst.conn (by rw [hst.st]; simp) h0 h1 h2 h3
    · have ha := h.apart j hjv hj
      refine ⟨hf.1 _ (Ne.symm hj), fun i hiv hi => ?_, fun y hy => mem_sentTcp hf ha (Ne.symm hj) hy⟩
      by_cases hij : i = j
      · rw [hij]
        exact (hf.2 ha).1
      · rw [hf.1 i hij]
        exact h.apart i hiv hi
    · refine ⟨by rw [hsame], by rw [hsame]; exact h.apart, fun y hy => ?_⟩
      obtain ⟨i, -, hy⟩ := List.mem_flatMap.mp hy
      rw [hsame, List.drop_length] at hy
      cases hy
  have hbox : ∀ {z rest}, x.stack.box = z :: rest → who z ≠ x.client.conn → about x.client.conn rest = about x.client.conn x.stack.box ∧ (∀ y ∈ rest, y ∈ x.stack.box) :=
    fun hb hz => ⟨by rw [hb, about_cons_other hz], fun y hy => by rw [hb]; exact List.mem_cons_of_mem _ hy⟩
  have hfirst : ∀ {z rest}, x.stack.box = z :: rest → who z ≠ x.client.conn → names z ≠ some x.client.chan :=
    fun hb hz => h.others _ (by rw [hb]; exact List.mem_cons_self) hz
  have hsub : ∀ {ms l : List Mail}, ms.Sublist l → (∀ y ∈ l, who y ≠ x.client.conn ∧ names y ≠ some x.client.chan) → ∀ y ∈ ms, who y ≠ x.client.conn ∧ names y ≠ some x.client.chan :=
    fun h1 h2 y hy => h2 y (h1.subset hy)
  cases v with
  | net v =>
    obtain ⟨h1, h2, h3, h4⟩ := onTcp_ok hn
    obtain ⟨ms, h5, h6⟩ := post_ok h4
    obtain ⟨g1, g2, g3⟩ := hconn hp.2 hv (fun j f d he => by have := hp.1; rw [he] at this; cases this) h1
    exact ⟨wrap x.stack.box ms g1 (by rw [h2]) (by rw [h3]; exact hstay) g2 rfl (fun _ hy => hy) (hsub h5 g3) h6, written_same g1, _, _, h6, rfl⟩
  | deliver =>
    have hn : deliver 4096 x.stack e = .ok s' := hn
    unfold deliver at hn
    obtain ⟨z, rest, hb⟩ := List.exists_cons_of_ne_nil hp
    obtain ⟨hz, hsp⟩ := hv z rest hb
    obtain ⟨hb1, hb2⟩ := hbox hb hz
    have hz' := hfirst hb hz
    rw [hb] at hn
    cases z with
    | tcp k d =>
      obtain ⟨h1, h2, h3, h4⟩ := onTcp_ok hn
      obtain ⟨ms, h5, h6⟩ := post_ok h4
      obtain ⟨g1, g2, g3⟩ := hconn (v' := .down k d) trivial (fun he => hz (Option.some.inj he))
        (fun j f d' he => by injection he with he1 he2; subst he2; exact hz' rfl) h1
      exact ⟨wrap rest ms g1 (by rw [h2]) (by rw [h3]; exact hstay) g2 hb1 hb2 (hsub h5 g3) h6, written_same g1, _, _, h6, _, hz, hb⟩
    | chan y =>
      obtain ⟨h1, h2, h3, h4⟩ := onChan_ok hn
      obtain ⟨ms, h5, h6⟩ := post_ok h4
      have htar : ∀ ch, Channel.target y = some ch → ch.toNat ≠ x.client.chan.toNat := fun ch hch he => by
        refine hz' ?_
        have : names (.chan y) = Channel.target y := by cases y <;> rfl
        rw [this, hch, UInt32.toNat_inj.mp he]
      have hwho : who (.chan y) = (Channel.origin y).toNat := by cases y <;> rfl
      obtain ⟨j, hj, hf⟩ := Channel.next_foot hc hst.chan (by rw [hst.knows.owner]; simp) htar h1
      have g3 : ∀ y' ∈ sentChan x.stack.chans s'.chans, who y' ≠ x.client.conn ∧ names y' ≠ some x.client.chan := fun y' hy' => by
        obtain ⟨h7, h8, h9⟩ := mem_sentChan hf hy'
        exact ⟨by rw [h7, ← hwho]; exact hz, fun he => hj (h9 _ he).symm⟩
      exact ⟨wrap rest ms (by rw [h2]) (hf.1 _ (Ne.symm hj)) (by rw [h3]; exact hstay) (by rw [h2]; exact h.apart) hb1 hb2 (hsub h5 g3) h6, written_same (by rw [h2]),
        _, _, h6, _, hz, hb⟩
    | sess hdr d =>
      obtain ⟨h1, h2, h3, h4⟩ := onSess_ok hn
      obtain ⟨ms, h5, h6⟩ := post_ok h4
      have hf := Session.next_foot hss h1
      have g3 : ∀ y' ∈ sentSess x.stack.sess s'.sess, who y' ≠ x.client.conn ∧ names y' ≠ some x.client.chan := fun y' hy' => by
        obtain ⟨h7, h8⟩ := mem_sentSess hf hy'
        exact ⟨by rw [h7]; exact hz, by rw [h8]; exact hz'⟩
      refine ⟨wrap rest ms (by rw [h2]) (by rw [h3]) (fun y hy => ?_) (by rw [h2]; exact h.apart) hb1 hb2 (hsub h5 g3) h6, written_same (by rw [h2]), _, _, h6, _, hz, hb⟩
      obtain ⟨hv, ho⟩ := hst.open_ y hy
      exact spared_step hf (by have := hv.1; omega) ho (hsp _ hv ho (h.made y hy))

/-! ## A step of the client -/

theorem post_len {slot o : Nat} {box ms box' : List Mail} (hb : box.length ≤ 64) (h : post slot o box ms = .ok box') : box'.length ≤ 64 := by
  induction ms generalizing box with
  | nil =>
    injection h with h
    rw [← h]
    exact hb
  | cons y ms ih =>
    unfold post at h
    split at h
    · split at h
      · exact ih (by rw [List.length_append]; simp only [List.length_cons, List.length_nil]; omega) h
      · cases h
    · exact ih hb h

/-- There are never more than 64 messages. -/
theorem box_len (h : Reach m u evs s) : s.box.length ≤ 64 := by
  induction h with
  | create h =>
    obtain ⟨_, -, h⟩ := Exec.bind_eq_ok.mp h
    obtain ⟨_, -, h⟩ := Exec.bind_eq_ok.mp h
    obtain ⟨_, -, h⟩ := Exec.bind_eq_ok.mp h
    injection h with h
    rw [← h]
    exact Nat.zero_le _
  | @step evs s s' e v hr hp hn ih =>
    cases v with
    | net v => exact post_len ih (onTcp_ok hn).2.2.2
    | deliver =>
      have hn : deliver 4096 s e = .ok s' := hn
      unfold deliver at hn
      obtain ⟨z, rest, hb⟩ := List.exists_cons_of_ne_nil hp
      rw [hb] at hn ih
      have hl : rest.length ≤ 64 := by
        simp only [List.length_cons] at ih
        omega
      cases z with
      | tcp k d => exact post_len hl (onTcp_ok hn).2.2.2
      | chan y => exact post_len hl (onChan_ok hn).2.2.2
      | sess hdr d => exact post_len hl (onSess_ok hn).2.2.2

/-- The sessions the client knows of remain its own. -/
theorem made_goes (hr : Reach m u evs s) {c c' : Client} {K K' : Know} {ph' : Phase} (hs' : Stage s' c' K' ph') (hg : Goes s s' c K K') {e : Env} {z : Mail}
    {rest : List Mail} (hb : s.box = z :: rest) (hz : ∀ h d, z = .sess h d → h.connectionId = UInt32.ofNat c.conn ∧ h.secureChannelId = c.chan)
    (hn : step s e .deliver = .ok s') (hm : ∀ y ∈ K.opened, Made c.conn c.chan (s.sess.objs y.toNat).log) : ∀ y ∈ K'.opened, Made c.conn c.chan (s'.sess.objs y.toNat).log := by
  obtain ⟨tevs, cevs, sevs, ht, hc, hss, hlong⟩ := reach_parts hr
  have hf : s'.sess = s.sess ∨ ∃ i, Session.Foot i s.sess s'.sess ∧ i.hdr.connectionId = UInt32.ofNat c.conn ∧ i.hdr.secureChannelId = c.chan := by
    have hn : deliver 4096 s e = .ok s' := hn
    unfold deliver at hn
    rw [hb] at hn
    cases z with
    | tcp k d => exact .inl (onTcp_ok hn).2.2.1
    | chan y => exact .inl (onChan_ok hn).2.2.1
    | sess hdr d => exact .inr ⟨_, Session.next_foot hss (onSess_ok hn).1, hz _ _ rfl⟩
  intro y hy
  obtain ⟨hv, ho⟩ := hs'.open_ y hy
  have hy0 : y.toNat ≠ 0 := by
    have := hv.1
    omega
  cases hb' : isOpen (s.sess.objs y.toNat).log with
  | true =>
    have hyK : y ∈ K.opened := Classical.byContradiction fun hyK =>
      (hg.sess y.toNat hv hb' fun w hw he => hyK (UInt32.toNat_inj.mp he ▸ hw)).2 y hy rfl
    rcases hf with hf | ⟨i, hf, -⟩
    · rw [hf]
      exact hm y hyK
    · obtain ⟨g, hg1, hg2⟩ := hm y hyK
      exact ⟨g, ((creator_step hf hy0 ho).1 hb').trans hg1, hg2⟩
  | false =>
    rcases hf with hf | ⟨i, hf, hi⟩
    · rw [hf, hb'] at ho
      cases ho
    · exact ⟨i.hdr, (creator_step hf hy0 ho).2 hb', hi⟩

/-- What a step does to the client. -/
inductive Onward (x y : Scene) (v : Act) : Prop
  | stays (h : y.client = x.client) (hv : v = .talk → False)
      (hw : x.client.waiting = true → remaining 32 x.client.conn y.stack.box ≤ remaining 32 x.client.conn x.stack.box ∧
        (v = .deliver → remaining 32 x.client.conn y.stack.box < remaining 32 x.client.conn x.stack.box))
  | talks (h : y.client = { x.client with waiting := true }) (hw : x.client.wishes = true)
  | hears (ans : List UInt8) (hw : x.client.waiting = true) (h : y.client = x.client.behind ans) (id : UInt32) (r : SReq) (body : List UInt8)
      (next : List UInt8 → Plan) (hp : x.client.plan = .ask id r body next) (hf : ∃ k, Fits k r ans)

section

variable {x : Scene} {K : Know} {ph : Phase}

/-- The client sends its next request. -/
theorem own_talk (h : Amid m u x K ph) {e : Env} (hw : x.client.wishes = true) (he : e.tcp.starts = true) (hr : x.stack.box.length + 1 + e.others ≤ 64) :
    ∃ s' ph', step x.stack (x.env e .talk) (x.ev .talk) = .ok s' ∧ x.hear .talk s' = some { x.client with waiting := true } ∧
      Amid m u ⟨{ x.client with waiting := true }, s'⟩ K ph' := by
  have hwt : x.client.waiting = false := by
    unfold Client.wishes at hw
    revert hw
    cases x.client.waiting <;> simp
  have hst := h.stage
  have hmine := h.mine
  have hph := stage_idle hst hwt
  rw [hph] at hst hmine
  obtain ⟨evs, hreach⟩ := h.reach
  obtain ⟨s', z, g1, g2, g3, g4, g5, g6⟩ := goes_talk hreach hst hw he hr
  have hwho := mails_who hst.conn (.chan z)
  have hsess : s'.sess = x.stack.sess := (onTcp_ok g1).2.2.1
  refine ⟨s', .chan z, g1, ?_, ⟨⟨_, g2⟩, g3, ?_, fun y hy hy' => ?_, fun j hv hj => ?_, fun y hy => ?_⟩⟩
  · unfold Scene.hear
    rw [g6]
    rfl
  · show about x.client.conn s'.box = _
    rw [g5, about_append, hmine, about_all hwho]
    rfl
  · have hy : y ∈ s'.box := hy
    rw [g5] at hy
    exact (List.mem_append.mp hy).elim (fun hy => h.others y hy hy') fun hy => absurd (hwho y hy) hy'
  · show (s'.srv.conns j).assoc ≠ _
    rw [g4.conns j hj]
    exact h.apart j hv hj
  · show Made _ _ (s'.sess.objs y.toNat).log
    rw [hsess]
    exact h.made y hy

/-- A message about its connection is delivered. -/
theorem own_one (h : Amid m u x K ph) {e : Env} {z : Mail} {rest : List Mail} (hb : x.stack.box = z :: rest) (hz : who z = x.client.conn)
    (hz' : ∀ h d, z = .sess h d → h.connectionId = UInt32.ofNat x.client.conn ∧ h.secureChannelId = x.client.chan)
    {s' : Stack} {K' : Know} {ph' : Phase} {c' : Client} {evs : List (Env × Ev)} (g1 : step x.stack e .deliver = .ok s') (g2 : Reach m u evs s') (g3 : Stage s' c' K' ph')
    (g4 : Goes x.stack s' x.client K K') {new : List Mail} (g5 : s'.box = rest ++ new) (g6 : x.client.hears (written x.stack s' x.client.conn) = some c')
    (hc1 : c'.conn = x.client.conn) (hc2 : c'.chan = x.client.chan) (hnew : ∀ v ∈ new, who v = x.client.conn)
    (hm : about x.client.conn rest ++ new = ph'.mails c')
    (hprog : (c' = x.client ∧ ∃ v t, ph'.mails c' = v :: t ∧ hops v < hops z ∧ 0 < hops v) ∨
      ∃ ans id r body next, x.client.waiting = true ∧ c' = x.client.behind ans ∧ x.client.plan = .ask id r body next ∧ ∃ k, Fits k r ans) :
    ∃ s' c' K' ph', step x.stack e .deliver = .ok s' ∧ x.hear .deliver s' = some c' ∧ Amid m u ⟨c', s'⟩ K' ph' ∧ Onward x ⟨c', s'⟩ .deliver := by
  have hab : about x.client.conn s'.box = ph'.mails c' := by
    rw [g5, about_append, about_all hnew, hm]
  refine ⟨s', c', K', ph', g1, g6, ⟨⟨_, g2⟩, g3, ?_, fun y hy hy' => ?_, fun j hv hj => ?_, ?_⟩, ?_⟩
  · show about c'.conn s'.box = _
    rw [hc1]
    exact hab
  · have hy : y ∈ s'.box := hy
    rw [g5] at hy
    have hy' : who y ≠ c'.conn := hy'
    rw [hc1] at hy'
    show names y ≠ some c'.chan
    rw [hc2]
    exact (List.mem_append.mp hy).elim (fun hy => h.others y (by rw [hb]; exact List.mem_cons_of_mem _ hy) hy') fun hy => absurd (hnew y hy) hy'
  · have hj : j ≠ c'.conn := hj
    rw [hc1] at hj
    show (s'.srv.conns j).assoc ≠ some c'.chan
    rw [g4.conns j hj, hc2]
    exact h.apart j hv hj
  · show ∀ y ∈ K'.opened, Made c'.conn c'.chan _
    rw [hc1, hc2]
    exact made_goes h.reach.choose_spec g3 g4 hb hz' g1 h.made
  · rcases hprog with ⟨he, v, t, h1, h2, h3⟩ | ⟨ans, id, r, body, next, h1, h2, h3, h4⟩
    · refine .stays he (fun h => nomatch h) fun _ => ?_
      have h4 := remaining_lt (n := 32) (hab.trans h1)
      have h5 := box_len g2
      rw [hb, remaining_head hz]
      show remaining 32 _ s'.box ≤ _ ∧ (_ → remaining 32 _ s'.box < _)
      have h6 : 2 * 32 + 2 * 32 * (hops v - 1) ≤ 2 * 32 * (hops z - 1) := by omega
      exact ⟨by omega, fun _ => by omega⟩
    · exact .hears ans h1 h2 id r body next h3 h4

/-- Messages about its connection never fail. -/
theorem own_deliver (h : Amid m u x K ph) {e : Env} {z : Mail} {rest : List Mail} (hb : x.stack.box = z :: rest) (hz : who z = x.client.conn) (he : e.tcp.writes = true)
    (hroom : rest.length + 2 + e.others ≤ 64) (hfree : (∃ h d, z = .sess h d) → x.stack.sess.ids.len ≠ 0) :
    ∃ s' c' K' ph', step x.stack e .deliver = .ok s' ∧ x.hear .deliver s' = some c' ∧ Amid m u ⟨c', s'⟩ K' ph' ∧ Onward x ⟨c', s'⟩ .deliver := by
  have hst := h.stage
  have hmine := h.mine
  rw [hb, about_cons_same hz] at hmine
  obtain ⟨evs, hr⟩ := h.reach
  have hhear : ∀ {s'}, written x.stack s' x.client.conn = [] → x.client.hears (written x.stack s' x.client.conn) = some x.client := fun hw => by
    rw [hw]
    rfl
  cases ph with
  | idle => cases hmine
  | chan d =>
    injection hmine with hm1 hm2
    obtain ⟨s', sid, w, g1, g2, g3, g4, g5, g6⟩ := goes_chan hr hst (e := e) (rest := rest) (by rw [hb, hm1]; rfl) (by omega)
    exact own_one h hb hz (fun _ _ h => by rw [hm1] at h; cases h) g1 g2 g3 g4 g5 (hhear g6) rfl rfl (mails_who hst.conn _) (by rw [hm2]; rfl)
      (.inl ⟨rfl, _, _, rfl, by rw [hm1]; simp [hops], by simp [hops]⟩)
  | sess sid w =>
    injection hmine with hm1 hm2
    obtain ⟨s', K', ph', g0, g1, g2, g3, g4, g5, g6⟩ := goes_sess hr hst (e := e) (rest := rest) (fun _ => hfree ⟨_, _, hm1⟩) (by rw [hb, hm1]; rfl) hroom
    refine own_one h hb hz (fun _ _ h => by rw [hm1] at h; injection h with h; rw [← h]; exact ⟨rfl, rfl⟩) g1 g2 g3 g4 g5 (hhear g6) rfl rfl (mails_who hst.conn _) (by rw [hm2]; rfl)
      (.inl ⟨rfl, ?_⟩)
    obtain ⟨_, _, rfl | rfl⟩ := g0
    · exact ⟨_, _, rfl, by rw [hm1]; simp [hops], by simp [hops]⟩
    · exact ⟨_, _, rfl, by rw [hm1]; simp [hops], by simp [hops]⟩
  | bind sid ans =>
    injection hmine with hm1 hm2
    obtain ⟨s', g1, g2, g3, g4, g5, g6⟩ := goes_bind hr hst (e := e) (rest := rest) (by rw [hb, hm1]) (by omega)
    exact own_one h hb hz (fun _ _ h => by rw [hm1] at h; cases h) g1 g2 g3 g4 (new := []) (by rw [g5, List.append_nil]) (hhear g6) rfl rfl (fun _ h => nomatch h) (by rw [hm2]; rfl)
      (.inl ⟨rfl, _, _, rfl, by rw [hm1]; simp [hops], by simp [hops]⟩)
  | send sid ans =>
    injection hmine with hm1 hm2
    obtain ⟨s', g1, g2, g3, g4, g5, g6⟩ := goes_send hr hst (e := e) (rest := rest) (by rw [hb, hm1]; rfl) (by omega)
    exact own_one h hb hz (fun _ _ h => by rw [hm1] at h; cases h) g1 g2 g3 g4 g5 (hhear g6) rfl rfl (mails_who hst.conn _) (by rw [hm2]; rfl)
      (.inl ⟨rfl, _, _, rfl, by rw [hm1]; simp [hops], by simp [hops]⟩)
  | tcp ans =>
    injection hmine with hm1 hm2
    obtain ⟨s', g1, g2, g3, g4, g5, g6⟩ := goes_tcp hr hst (e := e) he (rest := rest) (by rw [hb, hm1]; rfl) (by omega)
    obtain ⟨hwt, -, id, r, body, next, hp, hf, -⟩ := hst.future
    have hbc : (x.client.behind ans).conn = x.client.conn ∧ (x.client.behind ans).chan = x.client.chan := by
      unfold Client.behind
      rw [hp]
      exact ⟨rfl, rfl⟩
    exact own_one h hb hz (fun _ _ h => by rw [hm1] at h; cases h) g1 g2 g3 g4 (new := []) (by rw [g5, List.append_nil]) g6 hbc.1 hbc.2 (fun _ h => nomatch h) (by rw [hm2]; rfl)
      (.inr ⟨ans, id, r, body, next, hwt, rfl, hp, hf⟩)

/-- Whatever happens, the client goes on. -/
theorem Amid.step (h : Amid m u x K ph) {e : Env} {v : Act} {s' : Stack} (hs : Stack.step x.stack (x.env e v) (x.ev v) = .ok s') (ha : Allowed x e s' v) :
    ∃ c K' ph', x.hear v s' = some c ∧ Amid m u ⟨c, s'⟩ K' ph' ∧ Onward x ⟨c, s'⟩ v := by
  have ok : ∀ {t}, Stack.step x.stack (x.env e v) (x.ev v) = .ok t → t = s' := fun ht => by
    rw [hs] at ht
    injection ht with ht
    exact ht.symm
  have waits : x.client.waiting = true → about x.client.conn x.stack.box ≠ [] := fun hw => by
    rw [h.mine]
    exact stage_waits h.stage hw
  cases v with
  | talk =>
    obtain ⟨h1, h2, h3⟩ := ha
    obtain ⟨t, ph', g1, g2, g3⟩ := own_talk h h1 h2 h3
    rw [ok g1] at g2 g3
    exact ⟨_, _, _, g2, g3, .talks rfl h1⟩
  | net v =>
    obtain ⟨h1, h2, h3⟩ := ha
    obtain ⟨g1, g2, rest, new, g3, g4⟩ := strange h (v := .net v) ⟨h1, h2⟩ hs h3
    refine ⟨x.client, K, ph, ?_, g1, .stays rfl (fun h => nomatch h) fun hw => ?_⟩
    · unfold Scene.hear
      rw [g2]
      rfl
    · show remaining 32 _ s'.box ≤ _ ∧ _
      have g4 : x.stack.box = rest := g4
      rw [g3, ← g4, remaining_append (waits hw)]
      exact ⟨Nat.le_refl _, fun h => nomatch h⟩
  | deliver =>
    obtain ⟨z, rest, hb, h1, h2⟩ := ha
    by_cases hz : who z = x.client.conn
    · obtain ⟨he, hroom, hfree⟩ := h1 hz
      obtain ⟨t, c', K', ph', g1, g2, g3, g4⟩ := own_deliver h hb hz he hroom hfree
      have := ok g1
      subst this
      exact ⟨c', K', ph', g2, g3, g4⟩
    · obtain ⟨g1, g2, rest', new, g3, z', hz', hb'⟩ := strange h (v := .deliver) (by show x.stack.box ≠ []; rw [hb]; simp) hs (fun z' rest' hb' => by
        rw [hb] at hb'
        injection hb' with hb' _
        rw [← hb']
        exact ⟨hz, h2 hz⟩)
      refine ⟨x.client, K, ph, ?_, g1, .stays rfl (fun h => nomatch h) fun hw => ?_⟩
      · unfold Scene.hear
        rw [g2]
        rfl
      · have hne : about x.client.conn rest' ≠ [] := by
          have := waits hw
          rwa [hb', about_cons_other hz'] at this
        show remaining 32 _ s'.box ≤ _ ∧ (_ → remaining 32 _ s'.box < _)
        rw [g3, hb', remaining_append hne]
        simp only [remaining, if_neg hz']
        exact ⟨by omega, fun _ => by omega⟩

end

/-! ## Histories -/

/-- What the client heard meanwhile. -/
def Learnt (x y : Scene) : Prop := ∃ xs, y.client.heard = x.client.heard ++ xs ∧ Follows x.client.plan xs y.client.plan

theorem Learnt.trans {x y z : Scene} (h1 : Learnt x y) (h2 : Learnt y z) : Learnt x z := by
  obtain ⟨a, h1, h3⟩ := h1
  obtain ⟨b, h2, h4⟩ := h2
  exact ⟨a ++ b, by rw [h2, h1, List.append_assoc], h3.append h4⟩

theorem Onward.learnt {x y : Scene} {v : Act} (h : Onward x y v) : Learnt x y := by
  cases h with
  | stays h => exact ⟨[], by rw [h, List.append_nil], by rw [h]; rfl⟩
  | talks h => exact ⟨[], by rw [h, List.append_nil], by rw [h]; rfl⟩
  | hears ans hw h id r body next hp hf =>
    refine ⟨[(r, ans)], ?_, ?_⟩
    · rw [h, Client.behind, hp]
    · rw [h, Client.behind, hp]
      exact ⟨id, body, next, rfl, hf, rfl⟩

/-- All is well with the client. -/
def Fine (m : Nat → Mem) (u : Nat → UInt32 × UInt32) (x : Scene) : Prop := ∃ K ph, Amid m u x K ph

theorem Fine.waits {x : Scene} (h : Fine m u x) (hw : x.client.waiting = true) : x.stack.box ≠ [] ∧ 0 < remaining 32 x.client.conn x.stack.box ∧
    remaining 32 x.client.conn x.stack.box ≤ 320 := by
  obtain ⟨K, ph, h⟩ := h
  have hne := stage_waits h.stage hw
  have hlen := box_len h.reach.choose_spec
  refine ⟨fun hb => ?_, ?_, ?_⟩
  · rw [← h.mine, hb] at hne
    exact hne rfl
  · rw [← h.mine] at hne
    cases hb : x.stack.box with
    | nil => rw [hb] at hne; exact absurd rfl hne
    | cons z l => unfold remaining; split <;> omega
  · cases hm : ph.mails x.client with
    | nil => exact absurd hm hne
    | cons y t =>
      have h1 := remaining_lt (n := 32) (h.mine.trans hm)
      have h2 : hops y ≤ 5 := by
        unfold hops
        split <;> omega
      omega

theorem Fine.run {x : Scene} (h : Fine m u x) {l : List (Env × Act)} {r : Option Scene} (hl : Happens x l r) : ∃ y, r = some y ∧ Fine m u y ∧ Learnt x y ∧
    (x.client.waiting = true → x.client.heard.length < y.client.heard.length ∨
      y.client = x.client ∧ remaining 32 x.client.conn y.stack.box + delivered l ≤ remaining 32 x.client.conn x.stack.box) := by
  induction hl with
  | nil => exact ⟨_, rfl, h, ⟨[], (List.append_nil _).symm, rfl⟩, fun _ => .inr ⟨rfl, Nat.le_refl _⟩⟩
  | @more x e v s' c l r hs ha hc hl ih =>
    obtain ⟨K, ph, h⟩ := h
    obtain ⟨c', K', ph', h1, h2, h3⟩ := h.step hs ha
    rw [hc] at h1
    injection h1 with h1
    subst h1
    obtain ⟨y, g1, g2, g3, g4⟩ := ih ⟨_, _, h2⟩
    refine ⟨y, g1, g2, h3.learnt.trans g3, fun hw => ?_⟩
    have hgrow : c.heard.length ≤ y.client.heard.length := by
      obtain ⟨xs, hxs, -⟩ := g3
      rw [hxs, List.length_append]
      exact Nat.le_add_right _ _
    cases h3 with
    | stays k1 k2 k3 =>
      have k1 : c = x.client := k1
      subst k1
      rcases g4 hw with g4 | ⟨g4, g5⟩
      · exact .inl g4
      · refine .inr ⟨g4, ?_⟩
        obtain ⟨k4, k5⟩ := k3 hw
        have g5 : remaining 32 x.client.conn y.stack.box + delivered l ≤ remaining 32 x.client.conn s'.box := g5
        cases v with
        | deliver =>
          have : remaining 32 x.client.conn s'.box < _ := k5 rfl
          simp only [delivered, Act.isDeliver, if_true]
          omega
        | _ =>
          have : remaining 32 x.client.conn s'.box ≤ _ := k4
          simp only [delivered, Act.isDeliver, Bool.false_eq_true, if_false]
          omega
    | talks k1 k2 =>
      unfold Client.wishes at k2
      rw [hw] at k2
      cases k2
    | hears ans k1 k2 id r body next hp hf =>
      left
      have : c.heard.length = x.client.heard.length + 1 := by
        have k2 : c = _ := k2
        rw [k2, Client.behind, hp]
        simp
      omega
  | lost hs ha hc =>
    obtain ⟨K, ph, h⟩ := h
    obtain ⟨c', K', ph', h1, -, -⟩ := h.step hs ha
    rw [hc] at h1
    cases h1

theorem Among.fine (h : Reach m u evs s) {c : Client} {K : Know} (ha : Among s c K) : Fine m u ⟨c, s⟩ := by
  refine ⟨K, .idle, ⟨_, h⟩, ⟨ha.conn, ha.st, ha.opened, ha.assoc, ha.chan, ha.owner, ha.blank, ha.knows, ha.tx, ha.last, ⟨ha.idle, ha.sound⟩,
    fun x hx => ⟨(ha.sessions x hx).1, (ha.sessions x hx).2.1⟩, ha.active⟩, ?_, fun y hy _ => (ha.box y hy).2, ha.apart, fun y hy => (ha.sessions y hy).2.2⟩
  exact List.filter_eq_nil_iff.mpr fun y hy => by simpa using (ha.box y hy).1

/-! ## C82 -/

/-- C82: whatever other connections do, as long as the process survives it: the client never hears anything but the answers to its own requests, one for each, in the order of its
plan, and each fits.  When no message is left, it does not wait. -/
theorem C82_undisturbed (h : Reach m u evs s) {c : Client} {K : Know} (ha : Among s c K) {l : List (Env × Act)} {r : Option Scene} (hl : Happens ⟨c, s⟩ l r) :
    ∃ y, r = some y ∧ (∃ more, Reach m u more y.stack) ∧ (∃ xs, y.client.heard = c.heard ++ xs ∧ Follows c.plan xs y.client.plan) ∧
      (y.stack.box = [] → y.client.waiting = false) := by
  obtain ⟨y, h1, h2, h3, -⟩ := (ha.fine h).run hl
  refine ⟨y, h1, h2.choose_spec.choose_spec.reach, h3, fun hb => ?_⟩
  cases hw : y.client.waiting with
  | false => rfl
  | true => exact absurd hb (h2.waits hw).1

theorem Happens.append {x y : Scene} {l l' : List (Env × Act)} {r : Option Scene} (h : Happens x l (some y)) (h' : Happens y l' r) : Happens x (l ++ l') r := by
  generalize ho : some y = o at h
  induction h with
  | nil =>
    injection ho with ho
    rw [← ho]
    exact h'
  | more hs ha hc _ ih => exact .more hs ha hc (ih ho)
  | lost => cases ho

/-- C82: when the client waits it has its answer at most 320 deliveries later, whatever the others do meanwhile. -/
theorem C82_answered (h : Reach m u evs s) {c : Client} {K : Know} (ha : Among s c K) {l l' : List (Env × Act)} {y z : Scene} (hl : Happens ⟨c, s⟩ l (some y)) (hl' : Happens y l' (some z))
    (hw : y.client.waiting = true) (hd : 320 ≤ delivered l') : y.client.heard.length < z.client.heard.length := by
  obtain ⟨y', h1, h2, -, -⟩ := (ha.fine h).run hl
  injection h1 with h1
  subst h1
  obtain ⟨z', h3, h4, -, h5⟩ := h2.run hl'
  injection h3 with h3
  subst h3
  rcases h5 hw with h5 | ⟨h6, h5⟩
  · exact h5
  · have := (h2.waits hw).2.2
    have := (h4.waits (by rw [h6]; exact hw)).2.1
    rw [h6] at this
    omega

/-- C82: the client itself never ends the process: its requests, and all messages about its connection, are handled to their end. -/
theorem C82_safe (h : Reach m u evs s) {c : Client} {K : Know} (ha : Among s c K) {l : List (Env × Act)} {y : Scene} (hl : Happens ⟨c, s⟩ l (some y)) (e : Env) :
    (y.client.wishes = true → e.tcp.starts = true → y.stack.box.length + 1 + e.others ≤ 64 → ∃ s', step y.stack (y.env e .talk) (y.ev .talk) = .ok s') ∧
    ∀ z rest, y.stack.box = z :: rest → who z = y.client.conn → e.tcp.writes = true → rest.length + 2 + e.others ≤ 64 → ((∃ h d, z = .sess h d) → y.stack.sess.ids.len ≠ 0) →
      ∃ s', step y.stack e .deliver = .ok s' := by
  obtain ⟨y', h1, ⟨K', ph, h2⟩, -, -⟩ := (ha.fine h).run hl
  injection h1 with h1
  subst h1
  constructor
  · intro h3 h4 h5
    obtain ⟨s', _, h6, -⟩ := own_talk h2 h3 h4 h5
    exact ⟨s', h6⟩
  · intro z rest hb hz h3 h4 h5
    obtain ⟨s', _, _, _, h6, -⟩ := own_deliver h2 hb hz h3 h4 h5
    exact ⟨s', h6⟩

/-! ## Examples -/

/-- Bytes on another connection. -/
def from2 (f : List UInt8) : Env × Act := (reads f, .net (.linkData 2))

def made (k : Nat) (ch : UInt32) (l : List SAct) : Bool := match creator l with
  | some h => h.connectionId == UInt32.ofNat k && h.secureChannelId == ch
  | none => false

theorem made_iff {k : Nat} {ch : UInt32} {l : List SAct} (h : Made k ch l) : made k ch l = true := by
  obtain ⟨g, h1, h2, h3⟩ := h
  unfold made
  rw [h1]
  simp [h2, h3]

def seizes : SAct → Bool
  | .got _ (.activate _) => true
  | .got _ (.close _) => true
  | _ => false

def spares (k : Nat) (ch : UInt32) (s s' : Stack) : Bool := (List.range 33).all fun x => !isOpen (s.sess.objs x).log || !made k ch (s.sess.objs x).log ||
  ((s'.sess.objs x).log.drop (s.sess.objs x).log.length).all fun a => !seizes a

theorem spares_iff {k : Nat} {ch : UInt32} (h : spares k ch s s' = true) : Spares k ch s s' := by
  intro x hx ho hm a ha hs
  have h1 := List.all_eq_true.mp h x (List.mem_range.mpr (lt33 hx))
  rw [ho, made_iff hm] at h1
  have h2 := List.all_eq_true.mp h1 a ha
  unfold Seizes at hs
  unfold seizes at h2
  split at hs <;> first | cases h2 | cases hs

def allowed (x : Scene) (e : Env) (s' : Stack) : Act → Bool
  | .talk => x.client.wishes && e.tcp.starts && decide (x.stack.box.length + 1 + e.others ≤ 64)
  | .net v => decide (Possible x.stack (.net v)) && decide (Transport.subject v ≠ some x.client.conn)
  | .deliver => match x.stack.box with
    | [] => false
    | z :: rest => if who z = x.client.conn then e.tcp.writes && decide (rest.length + 2 + e.others ≤ 64) && decide (x.stack.sess.ids.len ≠ 0)
      else spares x.client.conn x.client.chan x.stack s'

theorem allowed_iff {x : Scene} {e : Env} {v : Act} (h : allowed x e s' v = true) : Allowed x e s' v := by
  cases v with
  | talk =>
    simp only [allowed, Bool.and_eq_true, decide_eq_true_eq] at h
    exact ⟨h.1.1, h.1.2, h.2⟩
  | net v =>
    simp only [allowed, Bool.and_eq_true, decide_eq_true_eq] at h
    exact ⟨h.1.1, h.1.2, h.2⟩
  | deliver =>
    simp only [allowed] at h
    cases hb : x.stack.box with
    | nil => rw [hb] at h; cases h
    | cons z rest =>
      rw [hb] at h
      refine ⟨z, rest, hb, fun hz => ?_, fun hz => ?_⟩
      · simp only at h
        rw [if_pos hz] at h
        simp only [Bool.and_eq_true, decide_eq_true_eq] at h
        exact ⟨h.1.1, h.1.2, fun _ => h.2⟩
      · simp only at h
        rw [if_neg hz] at h
        exact spares_iff h

/-- A history, step by step. -/
def tries (x : Scene) : List (Env × Act) → Exec (Option Scene)
  | [] => .ok (some x)
  | (e, v) :: l => do
    let s' ← step x.stack (x.env e v) (x.ev v)
    if allowed x e s' v then
      match x.hear v s' with
      | some c => tries ⟨c, s'⟩ l
      | none => .ok none
    else .throws

theorem tries_happens {x : Scene} {l : List (Env × Act)} {r : Option Scene} (h : tries x l = .ok r) : Happens x l r := by
  induction l generalizing x with
  | nil =>
    injection h with h
    rw [← h]
    exact .nil
  | cons a l ih =>
    obtain ⟨e, v⟩ := a
    obtain ⟨s', h1, h2⟩ := Exec.bind_eq_ok.mp h
    split at h2
    · next ha =>
      split at h2
      · next c hc => exact .more h1 (allowed_iff ha) hc (ih h2)
      · next hc =>
        injection h2 with h2
        rw [← h2]
        exact .lost h1 (allowed_iff ha) hc
    · cases h2

/-- The client of connection 1. -/
def lone : Client := ⟨1, 1, ⟨1, 77, 51, false⟩, 1, visit 1, false, []⟩

theorem lone_among : ∃ s0 s, create (fun _ => garbage) Channel.unset = .ok s0 ∧ runs s0 connectTwo = .ok s ∧ Reach (fun _ => garbage) Channel.unset connectTwo s ∧
    Among s lone ⟨[], [], none, 1⟩ := by
  have hk : ∃ r, (do
      let s ← create (fun _ => garbage) Channel.unset
      let s' ← runs s connectTwo
      pure (longUps s'.srv, sight 1 s', (List.range 33).all fun j => j == 1 || !((s'.srv.conns j).assoc == some 1)) : Exec (Bool × Sight × Bool)) = .ok r ∧
      r = (true, ⟨.connected, true, some 1, (0, 0), some ⟨1, 77, 51, false⟩, some 1, 32, []⟩, true) := ⟨_, by decide +kernel, rfl⟩
  obtain ⟨r, hk, hr⟩ := hk
  rw [hr] at hk
  obtain ⟨s0, h1, h2⟩ := Exec.bind_eq_ok.mp hk
  obtain ⟨s, h3, h4⟩ := Exec.bind_eq_ok.mp h2
  injection h4 with h4
  injection h4 with h4 h5
  injection h5 with h5 h6
  have hr := runs_reach (.create h1) h3
  have hbox : s.box = [] := congrArg Sight.box h5
  refine ⟨s0, s, h1, h3, hr, show Pool.valid 1 by decide, congrArg Sight.st h5, congrArg Sight.opened h5, congrArg Sight.assoc h5,
    ⟨congrArg Prod.fst (congrArg Sight.rx h5), congrArg Prod.snd (congrArg Sight.rx h5)⟩, show Pool.valid (1 : UInt32).toNat by decide,
    knows_of (ch := 1) hr (longUps_iff h4) (by decide) (congrArg Sight.window h5), rfl, congrArg Sight.tx h5, rfl, fun _ h => (nomatch h), fun _ h => (nomatch h), fun _ h => (nomatch h),
    visit_sound 1, fun y hy => ?_, fun j hv hj he => ?_⟩
  · rw [hbox] at hy
    cases hy
  · have := List.all_eq_true.mp h6 j (List.mem_range.mpr (lt33 hv))
    have hj : j ≠ 1 := hj
    have hj : (j == 1) = false := by simpa using hj
    have he : ((s.srv.conns j).assoc == some 1) = true := by rw [he]; rfl
    rw [hj, he] at this
    cases this

/-- The client asks for a session; meanwhile connection 2 does so too, then names the channel of the client and is thrown out; a third connection comes and says hello byte by byte. -/
def crowd : List (Env × Act) := [(calm, .talk), from2 (chunk .msg 0x46 2 (Channel.msg 52 9 (bytesOf Session.createReq))), (calm, .deliver), (calm, .net .accept), (calm, .deliver),
  (calm, .deliver), (reads (helloFrame.take 3), .net (.linkData 3)), (calm, .deliver), (calm, .deliver), (calm, .deliver), from2 (chunk .msg 0x46 1 (Channel.msg 52 9 (bytesOf Session.readReq))),
  (calm, .deliver), (calm, .deliver), (calm, .talk), (calm, .deliver), (calm, .deliver), (calm, .net (.timer 3)), (calm, .deliver), (calm, .deliver), (calm, .deliver),
  (calm, .deliver)]

/-- Whether the client waits, the number of answers it has, the states of the other two connections, and the number of free sessions. -/
def crowded (l : List (Env × Act)) : Exec (Option (Bool × Nat × TSt × TSt × Nat)) := do
  let s ← create (fun _ => garbage) Channel.unset
  let s' ← runs s connectTwo
  let o ← tries ⟨lone, s'⟩ l
  pure (o.map fun y => (y.client.waiting, y.client.heard.length, (y.stack.srv.conns 2).st, (y.stack.srv.conns 3).st, y.stack.sess.ids.len))

/-- C82: the client hears two answers while connection 2 takes a session and is thrown out and connection 3 comes and goes. -/
theorem crowded_eq : crowded crowd = .ok (some (false, 2, .init, .init, 30)) := by decide +kernel

example : ∃ s y, Reach (fun _ => garbage) Channel.unset connectTwo s ∧ Among s lone ⟨[], [], none, 1⟩ ∧ Happens ⟨lone, s⟩ crowd (some y) ∧ y.client.waiting = false ∧
    y.client.heard.length = 2 ∧ (∃ xs, y.client.heard = xs ∧ Follows (visit 1) xs y.client.plan) ∧ (y.stack.srv.conns 2).st = .init ∧ y.stack.sess.ids.len = 30 := by
  obtain ⟨s0, s, h1, h2, hr, ha⟩ := lone_among
  have h := crowded_eq
  unfold crowded at h
  rw [h1, Exec.ok_bind, h2, Exec.ok_bind] at h
  obtain ⟨o, h3, h4⟩ := Exec.bind_eq_ok.mp h
  injection h4 with h4
  cases o with
  | none => cases h4
  | some y =>
    injection h4 with h4
    injection h4 with h4 h5
    injection h5 with h5 h6
    injection h6 with h6 h7
    injection h7 with h7 h8
    have hh := tries_happens h3
    obtain ⟨y', g1, -, ⟨xs, g2, g3⟩, -⟩ := C82_undisturbed hr ha hh
    injection g1 with g1
    subst g1
    exact ⟨s, y, hr, ha, hh, h4, h5, ⟨xs, g2, g3⟩, h6, h8⟩

end Stack

end Uscada.Ua
