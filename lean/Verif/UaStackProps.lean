import Verif.UaStackEmits
/-!
# Properties of the OPC UA components together: C64, C65
-/

namespace Uscada.Ua

open SM

namespace Stack

open Transport (Down TEv tlogs)
open Channel (clogs)
open Session (slogs)

/-! ## Specification -/

/-- The chunks a client sends and gets; `num` are the MSG chunks without their ids. -/
inductive Kind where
  | opn
  | msg
  | clo
  | num
deriving DecidableEq, Repr

/-- A request of this kind that the connection passed on: for a MSG chunk the request id, which stands behind the token and the
sequence number. -/
def asked : Kind → TAct → Option UInt32
  | .msg, .up (.message _ _ d) => some (Channel.word d 8)
  | .opn, .up (.open _ _ _) => some 0
  | .clo, .up (.close _ _ _) => some 0
  | .num, .up (.message _ _ _) => some 0
  | _, _ => none

/-- An answer of this kind that was written to the peer: for a MSG chunk the request id, at offset 20. -/
def answered : Kind → TAct → Option UInt32
  | .msg, .sent b => if b.take 3 = [0x4D, 0x53, 0x47] then some (Channel.word b 20) else none
  | .opn, .sent b => if b.take 3 = [0x4F, 0x50, 0x4E] then some 0 else none
  | .clo, .sent b => if b.take 3 = [0x43, 0x4C, 0x4F] then some 0 else none
  | .num, .sent b => if b.take 3 = [0x4D, 0x53, 0x47] then some 0 else none
  | _, _ => none

/-- Every MSG and CLO chunk passed on holds at least token, sequence number and request id. -/
def LongUps (s : Srv) : Prop := ∀ k, k ≤ 32 → ∀ a ∈ (s.conns k).log, match a with
  | .up (.message _ _ d) => 12 ≤ d.length
  | .up (.close _ _ d) => 12 ≤ d.length
  | _ => True

/-- No chunk passed on was longer than `n` bytes. -/
def ShortUps (n : Nat) (s : Srv) : Prop := ∀ k, k ≤ 32 → ∀ a ∈ (s.conns k).log, match a with
  | .up (.message _ _ d) => d.length ≤ n
  | .up (.close _ _ d) => d.length ≤ n
  | .up (.open _ _ d) => d.length ≤ n
  | _ => True

/-! ## Steps -/

theorem flatMap_single {α : Type} (g : Nat → List α) (k n : Nat) (h : ∀ j, j ≠ k → g j = []) :
    (List.range n).flatMap g = if k < n then g k else [] := by
  induction n with
  | zero => simp
  | succ n ih =>
    rw [List.range_succ, List.flatMap_append, ih]
    by_cases h1 : k < n
    · rw [if_pos h1, if_pos (by omega)]
      simp [h n (by omega)]
    · by_cases h2 : k = n
      · subst h2
        simp
      · rw [if_neg h1, if_neg (by omega)]
        simp [h n (by omega)]

theorem sentTcp_adds {s s' : Srv} {k : Nat} {new : List TAct} (h : Adds tlogs k new s s') :
    sentTcp s s' = if k < 33 then new.filterMap (ofTcp k) else [] := by
  unfold sentTcp
  rw [flatMap_single _ k 33]
  · have : (s'.conns k).log = (s.conns k).log ++ new := h.1
    rw [this, List.drop_left]
  · intro j hj
    have : (s'.conns j).log = (s.conns j).log := h.2 j hj
    rw [this]
    simp

theorem diff_adds {σ α : Type} {logs : σ → Nat → List α} {s s' : σ} {k : Nat} {new : List α} (h : Adds logs k new s s') :
    diff (logs s) (logs s') = if k < 33 then new else [] := by
  unfold diff
  rw [flatMap_single _ k 33]
  · rw [h.1, List.drop_left]
  · intro j hj
    rw [h.2 j hj]
    simp

theorem diff_sub {σ α ι : Type} {logs : σ → Nat → List α} {s s' : σ} {f : α → Option ι} {l : List ι}
    (h : ∃ k, Small logs f k l s s') : ((diff (logs s) (logs s')).filterMap f).Sublist l := by
  obtain ⟨k, new, ha, hs⟩ := h
  rw [diff_adds ha]
  split
  · exact hs
  · exact List.nil_sublist _

theorem sentChan_sub {ι : Type} {s s' : Chans} {g : Mail → Option ι} {l : List ι}
    (h : ∃ k, Small clogs (fun a => (ofChan a).bind g) k l s s') : ((sentChan s s').filterMap g).Sublist l := by
  have := diff_sub h
  rw [← List.filterMap_filterMap] at this
  exact this

theorem sentSess_sub {ι : Type} {s s' : Sessions} {g : Mail → Option ι} {l : List ι}
    (h : ∃ k, Small slogs (fun a => (ofSess a).bind g) k l s s') : ((sentSess s s').filterMap g).Sublist l := by
  have := diff_sub h
  rw [← List.filterMap_filterMap] at this
  exact this

theorem post_ok {slot others : Nat} {box box' ms : List Mail} (h : post slot others box ms = .ok box') :
    ∃ ms', ms'.Sublist ms ∧ box' = box ++ ms' := by
  induction ms generalizing box with
  | nil =>
    injection h with h
    exact ⟨[], List.Sublist.refl _, by simp [h]⟩
  | cons m ms ih =>
    unfold post at h
    split at h
    · split at h
      · obtain ⟨ms', h1, h2⟩ := ih h
        exact ⟨m :: ms', h1.cons_cons m, by rw [h2]; simp⟩
      · cases h
    · obtain ⟨ms', h1, h2⟩ := ih h
      exact ⟨ms', h1.cons m, h2⟩

/-- What a step does: one component handles one message or event, and some of what it sends is stored. -/
inductive Moves (s s' : Stack) (e : Env) : Prop
  | tcp (v : TEv) (rest : List Mail) (hb : (Stack.isDown v = false ∧ rest = s.box) ∨ ∃ k m, v = .down k m ∧ s.box = .tcp k m :: rest)
      (hn : Transport.next s.srv e.tcp v = .ok s'.srv) (hp : Transport.Possible s.srv v) (hc : s'.chans = s.chans) (hs : s'.sess = s.sess)
      (ms : List Mail) (hms : ms.Sublist (sentTcp s.srv s'.srv)) (hbox : s'.box = rest ++ ms)
  | chan (m : CIn) (rest : List Mail) (hb : s.box = .chan m :: rest)
      (hn : Channel.next s.chans e.chan m = .ok s'.chans) (hc : s'.srv = s.srv) (hs : s'.sess = s.sess)
      (ms : List Mail) (hms : ms.Sublist (sentChan s.chans s'.chans)) (hbox : s'.box = rest ++ ms)
  | sess (hdr : MsgHdr) (data : List UInt8) (rest : List Mail) (hb : s.box = .sess hdr data :: rest)
      (hn : Session.next s.sess ⟨e.sess, hdr, data⟩ = .ok s'.sess) (hc : s'.srv = s.srv) (hs : s'.chans = s.chans)
      (ms : List Mail) (hms : ms.Sublist (sentSess s.sess s'.sess)) (hbox : s'.box = rest ++ ms)

theorem onTcp_ok {slot : Nat} {s s' : Stack} {e : Env} {v : TEv} (h : onTcp slot s e v = .ok s') :
    Transport.next s.srv e.tcp v = .ok s'.srv ∧ s'.chans = s.chans ∧ s'.sess = s.sess ∧
      post slot e.others s.box (sentTcp s.srv s'.srv) = .ok s'.box := by
  obtain ⟨srv, h1, h2⟩ := Exec.bind_eq_ok.mp h
  obtain ⟨box, h3, h4⟩ := Exec.bind_eq_ok.mp h2
  injection h4 with h4
  subst h4
  exact ⟨h1, rfl, rfl, h3⟩

theorem onChan_ok {slot : Nat} {s s' : Stack} {e : Env} {m : CIn} (h : onChan slot s e m = .ok s') :
    Channel.next s.chans e.chan m = .ok s'.chans ∧ s'.srv = s.srv ∧ s'.sess = s.sess ∧
      post slot e.others s.box (sentChan s.chans s'.chans) = .ok s'.box := by
  obtain ⟨srv, h1, h2⟩ := Exec.bind_eq_ok.mp h
  obtain ⟨box, h3, h4⟩ := Exec.bind_eq_ok.mp h2
  injection h4 with h4
  subst h4
  exact ⟨h1, rfl, rfl, h3⟩

theorem onSess_ok {slot : Nat} {s s' : Stack} {e : Env} {hdr : MsgHdr} {d : List UInt8} (h : onSess slot s e hdr d = .ok s') :
    Session.next s.sess ⟨e.sess, hdr, d⟩ = .ok s'.sess ∧ s'.srv = s.srv ∧ s'.chans = s.chans ∧
      post slot e.others s.box (sentSess s.sess s'.sess) = .ok s'.box := by
  obtain ⟨srv, h1, h2⟩ := Exec.bind_eq_ok.mp h
  obtain ⟨box, h3, h4⟩ := Exec.bind_eq_ok.mp h2
  injection h4 with h4
  subst h4
  exact ⟨h1, rfl, rfl, h3⟩

theorem step_moves {slot : Nat} {s s' : Stack} {e : Env} {v : Ev} (hp : Possible s v) (h : stepIn slot s e v = .ok s') : Moves s s' e := by
  cases v with
  | net v =>
    obtain ⟨h1, h2, h3, h4⟩ := onTcp_ok h
    obtain ⟨ms, h5, h6⟩ := post_ok h4
    exact .tcp v s.box (.inl ⟨hp.1, rfl⟩) h1 hp.2 h2 h3 ms h5 h6
  | deliver =>
    unfold stepIn deliver at h
    cases hb : s.box with
    | nil => exact absurd hb hp
    | cons m rest =>
      rw [hb] at h
      cases m with
      | chan m =>
        obtain ⟨h1, h2, h3, h4⟩ := onChan_ok h
        obtain ⟨ms, h5, h6⟩ := post_ok h4
        exact .chan m rest hb h1 h2 h3 ms h5 h6
      | tcp k m =>
        obtain ⟨h1, h2, h3, h4⟩ := onTcp_ok h
        obtain ⟨ms, h5, h6⟩ := post_ok h4
        exact .tcp (.down k m) rest (.inr ⟨k, m, rfl, hb⟩) h1 trivial h2 h3 ms h5 h6
      | sess hdr d =>
        obtain ⟨h1, h2, h3, h4⟩ := onSess_ok h
        obtain ⟨ms, h5, h6⟩ := post_ok h4
        exact .sess hdr d rest hb h1 h2 h3 ms h5 h6

theorem next_adds {s s' : Srv} {e : TEnv} {v : TEv} (h : Transport.next s e v = .ok s') : ∃ k new, Adds tlogs k new s s' := by
  obtain ⟨k, ⟨new, h1, _⟩, _⟩ := Transport.next_emits (f := fun _ : TAct => (none : Option Unit)) ⟨rfl, fun _ => rfl, rfl, rfl, fun _ => rfl⟩
    rfl (fun _ => rfl) h
  exact ⟨k, new, h1⟩

/-- Logs only grow. -/
theorem next_grows {s s' : Srv} {e : TEnv} {v : TEv} (h : Transport.next s e v = .ok s') {k : Nat} {a : TAct}
    (ha : a ∈ (s.conns k).log) : a ∈ (s'.conns k).log := by
  obtain ⟨j, new, h1, h2⟩ := next_adds h
  by_cases e : k = j
  · subst e
    have : (s'.conns k).log = (s.conns k).log ++ new := h1
    rw [this]
    exact List.mem_append_left _ ha
  · have : (s'.conns k).log = (s.conns k).log := h2 k e
    rw [this]
    exact ha

/-- What the transport component sends is in its logs. -/
theorem sentTcp_mem {s s' : Srv} {e : TEnv} {v : TEv} (h : Transport.next s e v = .ok s') {x : Mail} (hx : x ∈ sentTcp s s') :
    ∃ k a, k ≤ 32 ∧ a ∈ (s'.conns k).log ∧ ofTcp k a = some x := by
  obtain ⟨k, new, ha⟩ := next_adds h
  rw [sentTcp_adds ha] at hx
  split at hx
  · rename_i hk
    obtain ⟨a, h1, h2⟩ := List.mem_filterMap.mp hx
    refine ⟨k, a, by omega, ?_, h2⟩
    have : (s'.conns k).log = (s.conns k).log ++ new := ha.1
    rw [this]
    exact List.mem_append_right _ h1
  · cases hx

variable {m : Nat → Mem} {u : Nat → UInt32 × UInt32} {evs : List (Env × Ev)} {s s' : Stack}

/-! ## The components of a reachable stack are reachable -/

/-- Messages in the mailbox hold at least 12 bytes. -/
def LongBox (box : List Mail) : Prop := ∀ x, .chan x ∈ box → Channel.Long x

theorem sentTcp_long {s s' : Srv} {e : TEnv} {v : TEv} (h : Transport.next s e v = .ok s') (hl : LongUps s') :
    LongBox (sentTcp s s') := by
  intro x hx
  obtain ⟨k, a, h0, h1, h2⟩ := sentTcp_mem h hx
  have := hl k h0 a h1
  intro c d hb
  cases a with
  | up y =>
    cases y with
    | «open» ch f d' => injection h2 with h2; injection h2 with h2; subst h2; cases hb
    | message ch f d' => injection h2 with h2; injection h2 with h2; subst h2; injection hb with hb; injection hb with _ hb; exact hb ▸ this
    | close ch f d' => injection h2 with h2; injection h2 with h2; subst h2; injection hb with hb; injection hb with _ hb; exact hb ▸ this
    | released ch => injection h2 with h2; injection h2 with h2; subst h2; cases hb
  | _ => cases h2

theorem ofChan_not {a : CAct} {x : CIn} : ofChan a ≠ some (.chan x) := by
  intro h
  cases a <;> cases h

theorem ofSess_long {a : SAct} {x : CIn} (h : ofSess a = some (.chan x)) : Channel.Long x := by
  cases a <;> cases h <;> (intro c d hb; cases hb)

theorem LongUps.back (h : LongUps s'.srv) {e : Env} (hm : Moves s s' e) : LongUps s.srv := by
  cases hm with
  | tcp v rest hb hn => exact fun k hk a ha => h k hk a (next_grows hn ha)
  | chan x rest hb hn hc => rwa [hc] at h
  | sess hdr d rest hb hn hc => rwa [hc] at h

theorem reach_parts (h : Reach m u evs s) : ∃ tevs cevs sevs, Srv.Reach m tevs s.srv ∧ Channel.Reach u cevs s.chans ∧
    Session.Reach sevs s.sess ∧ (LongUps s.srv → (∀ x ∈ cevs, Channel.Long x.2) ∧ LongBox s.box) := by
  induction h with
  | create h =>
    obtain ⟨srv, h1, h⟩ := Exec.bind_eq_ok.mp h
    obtain ⟨chans, h2, h⟩ := Exec.bind_eq_ok.mp h
    obtain ⟨sess, h3, h⟩ := Exec.bind_eq_ok.mp h
    injection h with h
    subst h
    exact ⟨[], [], [], .create h1, .create h2, .create h3, fun _ => ⟨by simp, fun x hx => by cases hx⟩⟩
  | step h hp hn ih =>
    rename_i s s' e v
    obtain ⟨tevs, cevs, sevs, i1, i2, i3, i4⟩ := ih
    have hmv := step_moves hp hn
    have hback := fun hl : LongUps s'.srv => i4 (hl.back hmv)
    cases hmv with
    | tcp v rest hb hn hp hc hs ms hms hbox =>
      refine ⟨_, cevs, sevs, i1.step hp hn, hc ▸ i2, hs ▸ i3, fun hl => ⟨(hback hl).1, ?_⟩⟩
      intro x hx
      rw [hbox] at hx
      rcases List.mem_append.mp hx with hx | hx
      · refine (hback hl).2 x ?_
        rcases hb with ⟨_, hb⟩ | ⟨k, m, _, hb⟩
        · rwa [hb] at hx
        · rw [hb]; exact List.mem_cons_of_mem _ hx
      · exact sentTcp_long hn hl x (hms.subset hx)
    | chan y rest hb hn hc hs ms hms hbox =>
      refine ⟨tevs, _, sevs, hc ▸ i1, i2.step hn, hs ▸ i3, fun hl => ?_⟩
      obtain ⟨j1, j2⟩ := hback hl
      refine ⟨fun x hx => ?_, fun x hx => ?_⟩
      · rcases List.mem_append.mp hx with hx | hx
        · exact j1 x hx
        · rw [List.mem_singleton.mp hx]
          exact j2 y (by rw [hb]; exact List.mem_cons_self)
      · rw [hbox] at hx
        rcases List.mem_append.mp hx with hx | hx
        · exact j2 x (by rw [hb]; exact List.mem_cons_of_mem _ hx)
        · obtain ⟨a, _, ha⟩ := List.mem_filterMap.mp (hms.subset hx)
          exact absurd ha ofChan_not
    | sess hdr d rest hb hn hc hs ms hms hbox =>
      refine ⟨tevs, cevs, _, hc ▸ i1, hs ▸ i2, i3.step hn, fun hl => ⟨(hback hl).1, fun x hx => ?_⟩⟩
      rw [hbox] at hx
      rcases List.mem_append.mp hx with hx | hx
      · exact (hback hl).2 x (by rw [hb]; exact List.mem_cons_of_mem _ hx)
      · obtain ⟨a, _, ha⟩ := List.mem_filterMap.mp (hms.subset hx)
        exact ofSess_long ha

/-! ## Answers in flight -/

def Kind.isMsg : Kind → Prop
  | .msg | .num => True
  | _ => False

instance (K : Kind) : Decidable K.isMsg := by cases K <;> unfold Kind.isMsg <;> infer_instance

/-- What is known of a request id. -/
def Kind.id (K : Kind) (x : UInt32) : UInt32 := if K = .num then 0 else x

/-- The id of an answer on its way to the connection. -/
def tcpId (K : Kind) (k : Nat) : Mail → Option UInt32
  | .tcp j d => if j = k then Transport.seen (answered K) d else none
  | _ => none

/-- The id of an answer on its way to the secure channel. -/
def sendId (K : Kind) (k : Nat) : Mail → Option UInt32
  | .chan (.send h _) => if K.isMsg ∧ h.connectionId = UInt32.ofNat k then some (K.id h.requestId) else none
  | _ => none

/-- The id of a request on its way to the service. -/
def sessId (K : Kind) (k : Nat) : Mail → Option UInt32
  | .sess h _ => if K.isMsg ∧ h.connectionId = UInt32.ofNat k then some (K.id h.requestId) else none
  | _ => none

/-- The id of a request on its way to the secure channel. -/
def chanId (K : Kind) (k : Nat) : Mail → Option UInt32
  | .chan (.message c _ d) => if K.isMsg ∧ c = UInt32.ofNat k then some (K.id (Channel.word d 8)) else none
  | .chan (.open c _) => if K = .opn ∧ c = UInt32.ofNat k then some 0 else none
  | .chan (.close c _ _) => if K = .clo ∧ c = UInt32.ofNat k then some 0 else none
  | _ => none

/-- Everything in flight, the oldest first. -/
def flight (K : Kind) (k : Nat) (box : List Mail) : List UInt32 :=
  box.filterMap (tcpId K k) ++ (box.filterMap (sendId K k) ++ (box.filterMap (sessId K k) ++ box.filterMap (chanId K k)))

theorem ofNat_inj {a b : Nat} (ha : a < 33) (hb : b < 33) (h : UInt32.ofNat a = UInt32.ofNat b) : a = b := by
  have := congrArg UInt32.toNat h
  simp only [UInt32.toNat_ofNat'] at this
  omega

theorem chanId_ofTcp (K : Kind) (k : Nat) (a : TAct) : (ofTcp k a).bind (chanId K k) = asked K a := by
  cases a with
  | up x => cases x <;> cases K <;> simp [ofTcp, chanId, asked, Kind.isMsg, Kind.id]
  | _ => cases K <;> rfl

theorem chanId_other (K : Kind) {k j : Nat} (hk : k < 33) (hj : j < 33) (h : j ≠ k) (a : TAct) : (ofTcp j a).bind (chanId K k) = none := by
  have : UInt32.ofNat j ≠ UInt32.ofNat k := fun e => h (ofNat_inj hj hk e)
  cases a with
  | up x => cases x <;> simp [ofTcp, chanId, this]
  | _ => rfl

theorem filterMap_none {α β : Type} {f : α → Option β} {l : List α} (h : ∀ a ∈ l, f a = none) : l.filterMap f = [] :=
  List.filterMap_eq_nil_iff.mpr h

/-- Only the transport component sends requests to the channel, and it sends nothing else. -/
theorem ofTcp_kind {k : Nat} {a : TAct} {x : Mail} (h : ofTcp k a = some x) (K : Kind) (j : Nat) :
    tcpId K j x = none ∧ sendId K j x = none ∧ sessId K j x = none := by
  cases a with
  | up y => cases y <;> (injection h with h; subst h; exact ⟨rfl, rfl, rfl⟩)
  | _ => cases h

theorem ofChan_kind {a : CAct} {x : Mail} (h : ofChan a = some x) (K : Kind) (j : Nat) : sendId K j x = none ∧ chanId K j x = none := by
  cases a <;> first | (cases h; done) | (injection h with h; subst h; exact ⟨rfl, rfl⟩)

theorem ofSess_kind {a : SAct} {x : Mail} (h : ofSess a = some x) (K : Kind) (j : Nat) :
    tcpId K j x = none ∧ sessId K j x = none ∧ chanId K j x = none := by
  cases a <;> first | (cases h; done) | (injection h with h; subst h; exact ⟨rfl, rfl, rfl⟩)

theorem answered_coarse (K : Kind) : Transport.Coarse (answered K) := by
  cases K <;> exact ⟨rfl, fun _ => rfl, rfl, rfl, fun _ => rfl⟩

theorem chunk_take (ty : Transport.SecType) (b : UInt8) (c : UInt32) (d : List UInt8) :
    (Transport.chunk ty b c d).take 3 = [(Transport.letters ty).1, (Transport.letters ty).2.1, (Transport.letters ty).2.2] := rfl

theorem chunk_word (ty : Transport.SecType) (b : UInt8) (c : UInt32) (d : List UInt8) :
    Channel.word (Transport.chunk ty b c d) 20 = Channel.word d 8 := by
  unfold Channel.word
  have : (Transport.chunk ty b c d).drop 20 = d.drop 8 := by
    have h : Transport.chunk ty b c d = ([(Transport.letters ty).1, (Transport.letters ty).2.1, (Transport.letters ty).2.2, b] ++
        leBytes 4 (d.length + 12) ++ leBytes 4 c.toNat) ++ d := rfl
    rw [h, show (20 : Nat) = ([(Transport.letters ty).1, (Transport.letters ty).2.1, (Transport.letters ty).2.2, b] ++
        leBytes 4 (d.length + 12) ++ leBytes 4 c.toNat).length + 8 from rfl, List.drop_length_add_append]
  rw [this]

theorem seen_openRsp (K : Kind) (c : UInt32) (b : UInt8) (d : List UInt8) :
    Transport.seen (answered K) (.openRsp c b d) = if K = .opn then some 0 else none := by
  cases K <;> rfl

theorem seen_closeRsp (K : Kind) (c : UInt32) (b : UInt8) (d : List UInt8) :
    Transport.seen (answered K) (.closeRsp c b d) = if K = .clo then some 0 else none := by
  cases K <;> rfl

theorem seen_sendReq (K : Kind) (c : UInt32) (b : UInt8) (d : List UInt8) :
    Transport.seen (answered K) (.sendReq c b d) = if K.isMsg then some (K.id (Channel.word d 8)) else none := by
  cases K
  · rfl
  · exact (congrArg some (chunk_word .msg b c d) :)
  · rfl
  · rfl

theorem toNat_eq {c : UInt32} {k : Nat} (hk : k < 33) : c.toNat = k ↔ c = UInt32.ofNat k := by
  constructor
  · intro h
    subst h
    simp
  · intro h
    subst h
    simp only [UInt32.toNat_ofNat']
    omega

theorem tcpBack_coarse (K : Kind) (k : Nat) : Channel.Coarse (fun a => (ofChan a).bind (tcpId K k)) := by
  refine ⟨fun _ => rfl, fun _ _ _ => rfl, fun c => ?_, fun _ => rfl, rfl⟩
  simp [ofChan, tcpId, Transport.seen]

theorem sessBack_coarse (K : Kind) (k : Nat) : Channel.Coarse (fun a => (ofChan a).bind (sessId K k)) :=
  ⟨fun _ => rfl, fun _ _ _ => rfl, fun _ => rfl, fun _ => rfl, rfl⟩

theorem sendBack_coarse (K : Kind) (k : Nat) : Session.Coarse (fun a => (ofSess a).bind (sendId K k)) :=
  ⟨fun _ _ => rfl, fun _ => rfl, fun _ => rfl, rfl, rfl⟩

/-- The channel component passes on at most what came in. -/
theorem chan_tcp {K : Kind} {k : Nat} (hk : k < 33) {c c' : Chans} {e : CEnv} {x : CIn} (hn : Channel.next c e x = .ok c') :
    ((sentChan c c').filterMap (tcpId K k)).Sublist
      ((sendId K k (.chan x)).toList ++ if K.isMsg then [] else (chanId K k (.chan x)).toList) := by
  refine sentChan_sub (Channel.next_emits (tcpBack_coarse K k) (fun j => ?_) hn)
  cases x with
  | «open» a d =>
    intro d' _
    by_cases h : a = UInt32.ofNat k <;> cases K <;> simp [ofChan, tcpId, sendId, chanId, seen_openRsp, toNat_eq hk, h, Kind.isMsg, (by omega : k < 4294967296)]
  | close a b d =>
    intro d' _
    by_cases h : a = UInt32.ofNat k <;> cases K <;> simp [ofChan, tcpId, sendId, chanId, seen_closeRsp, toNat_eq hk, h, Kind.isMsg, (by omega : k < 4294967296)]
  | message a b d =>
    intro x d' _ _
    exact List.nil_sublist _
  | send h d =>
    intro d' _ hw
    by_cases h : h.connectionId = UInt32.ofNat k <;> cases K <;> simp [ofChan, tcpId, sendId, chanId, seen_sendReq, toNat_eq hk, h, Kind.isMsg, Kind.id, hw, (by omega : k < 4294967296)]
  | _ => trivial

theorem chan_sess {K : Kind} {k : Nat} {c c' : Chans} {e : CEnv} {x : CIn} (hl : K = .msg → Channel.Long x)
    (hn : Channel.next c e x = .ok c') : ((sentChan c c').filterMap (sessId K k)).Sublist
      (if K.isMsg then (chanId K k (.chan x)).toList else []) := by
  refine sentChan_sub (Channel.next_emits (sessBack_coarse K k) (fun j => ?_) hn)
  cases x with
  | «open» a d =>
    intro d' _
    exact List.nil_sublist _
  | close a b d =>
    intro d' _
    exact List.nil_sublist _
  | message a b d =>
    intro x d' _ _
    by_cases hK : K.isMsg
    · by_cases hn : K = .num
      · subst hn
        by_cases h : a = UInt32.ofNat k <;> simp [ofChan, sessId, chanId, h, Kind.isMsg, Kind.id]
      · have hm : K = .msg := by cases K <;> simp_all [Kind.isMsg]
        have := hl hm a d rfl
        rw [Channel.mword_eq (by omega)]
        subst hm
        by_cases h : a = UInt32.ofNat k <;> simp [ofChan, sessId, chanId, h, Kind.isMsg, Kind.id]
    · simp [ofChan, sessId, hK]
  | send h d =>
    intro d' _ hw
    exact List.nil_sublist _
  | _ => trivial

theorem sess_send {K : Kind} {k : Nat} {c c' : Sessions} {i : Session.SIn} (hn : Session.next c i = .ok c') :
    ((sentSess c c').filterMap (sendId K k)).Sublist (sessId K k (.sess i.hdr i.data)).toList := by
  refine sentSess_sub (Session.next_emits (sendBack_coarse K k) (fun x d _ => ?_) hn)
  by_cases h : K.isMsg ∧ i.hdr.connectionId = UInt32.ofNat k <;> simp [ofSess, sendId, sessId, h]

theorem flight_append (K : Kind) (k : Nat) (a b : List Mail) : flight K k (a ++ b) =
    (a.filterMap (tcpId K k) ++ b.filterMap (tcpId K k)) ++ ((a.filterMap (sendId K k) ++ b.filterMap (sendId K k)) ++
      ((a.filterMap (sessId K k) ++ b.filterMap (sessId K k)) ++ (a.filterMap (chanId K k) ++ b.filterMap (chanId K k)))) := by
  simp only [flight, List.filterMap_append]

theorem filterMap_cons' {α β : Type} (f : α → Option β) (a : α) (l : List α) : (a :: l).filterMap f = (f a).toList ++ l.filterMap f := by
  rw [List.filterMap_cons]
  cases f a <;> rfl

theorem flight_off {K : Kind} (k : Nat) (h : ¬ K.isMsg) (a : List Mail) : flight K k a = a.filterMap (tcpId K k) ++ a.filterMap (chanId K k) := by
  have h1 : a.filterMap (sendId K k) = [] := filterMap_none fun x _ => by
    cases x with
    | chan y => cases y <;> simp [sendId, h]
    | _ => rfl
  have h2 : a.filterMap (sessId K k) = [] := filterMap_none fun x _ => by
    cases x <;> simp [sessId, h]
  simp [flight, h1, h2]

/-- What one step does with requests and answers: what it answers and what is in flight afterwards was in flight before or is asked now. -/
theorem flight_step {K : Kind} {e : Env} (hmv : Moves s s' e) (hlb : K = .msg → LongBox s.box) {k : Nat} (hk : k ≤ 32) :
    ∃ new, (s'.srv.conns k).log = (s.srv.conns k).log ++ new ∧
      (new.filterMap (answered K) ++ flight K k s'.box).Sublist (flight K k s.box ++ new.filterMap (asked K)) := by
  have hk33 : k < 33 := by omega
  cases hmv with
  | tcp v rest hb hn hp hc hs ms hms hbox =>
    obtain ⟨j, ⟨new, ha, hnew⟩, hj⟩ := Transport.next_emits (answered_coarse K) (by cases K <;> rfl) (fun u => by cases K <;> rfl) hn
    have hsub : (ms.filterMap (chanId K k)).Sublist (if j = k then new.filterMap (asked K) else []) := by
      refine (hms.filterMap _).trans ?_
      rw [sentTcp_adds ha]
      split
      · rename_i hj33
        rw [List.filterMap_filterMap]
        split
        · rename_i hjk
          subst hjk
          rw [show (fun x => (ofTcp j x).bind (chanId K j)) = asked K from funext (chanId_ofTcp K j)]
          exact List.Sublist.refl _
        · rename_i hjk
          rw [filterMap_none fun a _ => chanId_other K hk33 hj33 hjk a]
          exact List.Sublist.refl _
      · exact List.nil_sublist _
    have hno : ms.filterMap (tcpId K k) = [] ∧ ms.filterMap (sendId K k) = [] ∧ ms.filterMap (sessId K k) = [] := by
      have : ∀ x ∈ ms, tcpId K k x = none ∧ sendId K k x = none ∧ sessId K k x = none := by
        intro x hx
        have hx := hms.subset hx
        rw [sentTcp_adds ha] at hx
        split at hx
        · obtain ⟨a, _, h2⟩ := List.mem_filterMap.mp hx
          exact ofTcp_kind h2 K k
        · cases hx
      exact ⟨filterMap_none fun x hx => (this x hx).1, filterMap_none fun x hx => (this x hx).2.1,
        filterMap_none fun x hx => (this x hx).2.2⟩
    have hold : ((if j = k then new.filterMap (answered K) else []) ++ flight K k rest).Sublist (flight K k s.box) := by
      rcases hb with ⟨hd, hb⟩ | ⟨i, d, hv, hb⟩
      · subst hb
        have : new.filterMap (answered K) = [] := by
          cases v <;> first | exact List.sublist_nil.mp hnew | cases hd
        rw [this]
        simp
      · subst hv
        have hji := hj i d rfl
        subst hji
        rw [hb]
        unfold flight
        simp only [filterMap_cons' _ (Mail.tcp j d), List.append_assoc]
        show List.Sublist _ ((if j = k then Transport.seen (answered K) d else none).toList ++ (_ ++ (_ ++ (_ ++ _))))
        refine List.Sublist.append ?_ (List.Sublist.refl _)
        split
        · exact hnew
        · exact List.nil_sublist _
    refine ⟨if j = k then new else [], ?_, ?_⟩
    · by_cases hjk : j = k
      · subst hjk
        rw [if_pos rfl]
        exact ha.1
      · rw [if_neg hjk, List.append_nil]
        exact ha.2 k (fun e => hjk e.symm)
    · have hif : ∀ {β : Type} (f : TAct → Option β), (if j = k then new else []).filterMap f = if j = k then new.filterMap f else [] := by
        intro β f
        split <;> rfl
      rw [hbox, flight_append, hno.1, hno.2.1, hno.2.2, hif, hif]
      have := hold.append hsub
      simpa only [flight, List.append_assoc, List.append_nil] using this
  | chan x rest hb hn hc hs ms hms hbox =>
    refine ⟨[], by rw [hc, List.append_nil], ?_⟩
    rw [List.filterMap_nil, List.filterMap_nil, List.nil_append, List.append_nil]
    have h1 := (hms.filterMap (tcpId K k)).trans (chan_tcp hk33 hn)
    have h2 := (hms.filterMap (sessId K k)).trans (chan_sess (fun a => hlb a x (by rw [hb]; exact List.mem_cons_self)) hn)
    have hno : ms.filterMap (sendId K k) = [] ∧ ms.filterMap (chanId K k) = [] := by
      have : ∀ x ∈ ms, sendId K k x = none ∧ chanId K k x = none := by
        intro x hx
        obtain ⟨a, _, h2⟩ := List.mem_filterMap.mp (hms.subset hx)
        exact ofChan_kind h2 K k
      exact ⟨filterMap_none fun x hx => (this x hx).1, filterMap_none fun x hx => (this x hx).2⟩
    by_cases hK : K.isMsg
    · rw [if_pos hK] at h1 h2
      rw [List.append_nil] at h1
      rw [hbox, flight_append, hno.1, hno.2, hb]
      unfold flight
      simp only [filterMap_cons' _ (Mail.chan x), List.append_assoc, List.append_nil]
      show List.Sublist _ ([] ++ (_ ++ (_ ++ (_ ++ ([] ++ (_ ++ (_ ++ _)))))))
      simp only [List.nil_append]
      exact (List.Sublist.refl _).append (h1.append ((List.Sublist.refl _).append ((List.Sublist.refl _).append
        (h2.append (List.Sublist.refl _)))))
    · rw [if_neg hK] at h1 h2
      rw [hbox, hb, flight_off k hK, flight_off k hK, List.filterMap_append, List.filterMap_append, hno.2]
      simp only [filterMap_cons' _ (Mail.chan x), List.append_assoc, List.append_nil]
      show List.Sublist _ ([] ++ (_ ++ (_ ++ _)))
      have : sendId K k (.chan x) = none := by
        cases x <;> simp [sendId, hK]
      rw [this] at h1
      exact (List.Sublist.refl _).append (h1.append (List.Sublist.refl _))
  | sess hdr d rest hb hn hc hs ms hms hbox =>
    refine ⟨[], by rw [hc, List.append_nil], ?_⟩
    rw [List.filterMap_nil, List.filterMap_nil, List.nil_append, List.append_nil]
    have h1 := (hms.filterMap (sendId K k)).trans (sess_send hn)
    have hno : ms.filterMap (tcpId K k) = [] ∧ ms.filterMap (sessId K k) = [] ∧ ms.filterMap (chanId K k) = [] := by
      have : ∀ x ∈ ms, tcpId K k x = none ∧ sessId K k x = none ∧ chanId K k x = none := by
        intro x hx
        obtain ⟨a, _, h2⟩ := List.mem_filterMap.mp (hms.subset hx)
        exact ofSess_kind h2 K k
      exact ⟨filterMap_none fun x hx => (this x hx).1, filterMap_none fun x hx => (this x hx).2.1, filterMap_none fun x hx => (this x hx).2.2⟩
    rw [hbox, flight_append, hno.1, hno.2.1, hno.2.2, hb]
    unfold flight
    simp only [filterMap_cons' _ (Mail.sess hdr d), List.append_assoc, List.append_nil]
    show List.Sublist _ ([] ++ (_ ++ ([] ++ (_ ++ (_ ++ (_ ++ ([] ++ _)))))))
    simp only [List.nil_append]
    exact (List.Sublist.refl _).append ((List.Sublist.refl _).append (h1.append (List.Sublist.refl _)))

/-- C65, the invariant: what was answered and what is in flight is part of what was asked, in this order. -/
theorem flight_keeps {K : Kind} (h : Reach m u evs s) (hl : K = .msg → LongUps s.srv) {k : Nat} (hk : k ≤ 32) :
    ((s.srv.conns k).log.filterMap (answered K) ++ flight K k s.box).Sublist ((s.srv.conns k).log.filterMap (asked K)) := by
  induction h with
  | create h =>
    obtain ⟨srv, h1, h⟩ := Exec.bind_eq_ok.mp h
    obtain ⟨chans, h2, h⟩ := Exec.bind_eq_ok.mp h
    obtain ⟨sess, h3, h⟩ := Exec.bind_eq_ok.mp h
    injection h with h
    subst h
    obtain ⟨q, g1, g2⟩ := Exec.bind_eq_ok.mp h1
    injection g2 with g2
    subst g2
    exact List.Sublist.refl _
  | step hr hp hn ih =>
    have hmv := step_moves hp hn
    have hback := fun a => (hl a).back hmv
    obtain ⟨_, _, _, _, _, _, hbox⟩ := reach_parts hr
    obtain ⟨new, h1, h2⟩ := flight_step hmv (fun a => (hbox (hback a)).2) hk
    rw [h1, List.filterMap_append, List.filterMap_append, List.append_assoc]
    refine ((List.Sublist.refl _).append h2).trans ?_
    rw [← List.append_assoc]
    exact (ih hback).append (List.Sublist.refl _)

/-- C65: in every reachable state of the components and for every connection, the request ids of the MSG answers written to the
peer, in this order, are a part of the request ids of the MSG chunks that came from this peer: no answer without a request, no
second answer to a request, no answer before that of an earlier request.  The same holds for the numbers of OPN and CLO answers.
For MSG chunks it is assumed that each held at least 12 bytes behind the channel id, see `C65_numbers`. -/
theorem C65_answers_partial {K : Kind} (h : Reach m u evs s) (hl : K = .msg → LongUps s.srv) {k : Nat} (hk : k ≤ 32) :
    ((s.srv.conns k).log.filterMap (answered K)).Sublist ((s.srv.conns k).log.filterMap (asked K)) :=
  (List.sublist_append_left _ _).trans (flight_keeps h hl hk)

/-- C65 without an assumption: never more OPN, CLO or MSG answers than requests. -/
theorem C65_numbers (K : Kind) (hK : K ≠ .msg) (h : Reach m u evs s) {k : Nat} (hk : k ≤ 32) :
    ((s.srv.conns k).log.filterMap (answered K)).length ≤ ((s.srv.conns k).log.filterMap (asked K)).length :=
  (C65_answers_partial h (fun a => absurd a hK) hk).length_le

/-! ## C64: sizes -/

/-- Sizes of messages in the mailbox if no chunk is longer than `n` bytes. -/
def SmallMail (n : Nat) : Mail → Prop
  | .chan (.open _ d) => d.length ≤ n
  | .chan (.close _ _ d) => d.length ≤ n
  | .chan (.message _ _ d) => d.length ≤ n
  | .chan (.send _ d) => d.length ≤ 264
  | .tcp _ (.openRsp _ _ d) => d.length ≤ 276
  | .tcp _ (.closeRsp _ _ d) => d.length ≤ 276
  | .tcp _ (.sendReq _ _ d) => d.length ≤ 276
  | .sess _ d => d.length ≤ n
  | _ => True

theorem SmallMail.fits {n : Nat} (hn : n ≤ 4056) {x : Mail} (h : SmallMail n x) : x.size + 8 ≤ 4096 := by
  cases x with
  | chan y => cases y <;> simp only [SmallMail] at h <;> simp only [Mail.size] <;> omega
  | tcp k y => cases y <;> simp only [SmallMail] at h <;> simp only [Mail.size] <;> omega
  | sess a b => simp only [SmallMail] at h; simp only [Mail.size]; omega

theorem ShortUps.back {n : Nat} (h : ShortUps n s'.srv) {e : Env} (hm : Moves s s' e) : ShortUps n s.srv := by
  cases hm with
  | tcp v rest hb hn => exact fun k hk a ha => h k hk a (next_grows hn ha)
  | chan x rest hb hn hc => rwa [hc] at h
  | sess hdr d rest hb hn hc => rwa [hc] at h

/-- Marks what is too long. -/
noncomputable def big (n : Nat) (x : Mail) : Option Unit := by
  classical exact if SmallMail n x then none else some ()

theorem big_none {n : Nat} {x : Mail} : big n x = none ↔ SmallMail n x := by
  unfold big
  split <;> simp_all

theorem big_all {n : Nat} {l : List Mail} (h : (l.filterMap (big n)).Sublist []) : ∀ x ∈ l, SmallMail n x := by
  intro x hx
  exact big_none.mp (List.filterMap_eq_nil_iff.mp (List.sublist_nil.mp h) x hx)

theorem big_sub {n : Nat} {x : Mail} (h : SmallMail n x) : (big n x).toList.Sublist [] := by
  rw [big_none.mpr h]
  exact List.Sublist.refl _

theorem small_tcp {n : Nat} {t t' : Srv} {e : TEnv} {v : TEv} (hn : Transport.next t e v = .ok t') (hs : ShortUps n t') :
    ∀ x ∈ sentTcp t t', SmallMail n x := by
  intro x hx
  obtain ⟨k, a, h0, h1, h2⟩ := sentTcp_mem hn hx
  have := hs k h0 a h1
  cases a with
  | up y => cases y <;> (injection h2 with h2; subst h2; exact this)
  | _ => cases h2

theorem small_chan {n : Nat} {c c' : Chans} {e : CEnv} {x : CIn} (hn : Channel.next c e x = .ok c') (hx : SmallMail n (.chan x)) :
    ∀ y ∈ sentChan c c', SmallMail n y := by
  refine big_all (sentChan_sub (Channel.next_emits (f := fun a => (ofChan a).bind (big n)) (l := []) ?_ (fun j => ?_) hn))
  · exact ⟨fun _ => rfl, fun _ _ _ => rfl, fun c => by simp [ofChan, big_none, SmallMail], fun _ => rfl, rfl⟩
  · cases x with
    | «open» a d =>
      intro d' hd
      exact big_sub (x := .tcp a.toNat (.openRsp (UInt32.ofNat j) 0x46 d')) (by show d'.length ≤ 276; omega)
    | close a b d =>
      intro d' hd
      exact big_sub (x := .tcp a.toNat (.closeRsp (UInt32.ofNat j) 0x46 d')) (by show d'.length ≤ 276; omega)
    | message a b d =>
      intro y d' hd _
      exact big_sub (x := .sess ⟨a, UInt32.ofNat j, Channel.mword e.mem d 8, y⟩ d')
        (by have hx : d.length ≤ n := hx; show d'.length ≤ n; omega)
    | send h d =>
      intro d' hd _
      exact big_sub (x := .tcp h.connectionId.toNat (.sendReq (UInt32.ofNat j) 0x46 d'))
        (by have hx : d.length ≤ 264 := hx; show d'.length ≤ 276; omega)
    | _ => trivial

theorem small_sess {n : Nat} {c c' : Sessions} {i : Session.SIn} (hn : Session.next c i = .ok c') :
    ∀ y ∈ sentSess c c', SmallMail n y := by
  refine big_all (sentSess_sub (Session.next_emits (f := fun a => (ofSess a).bind (big n)) (l := []) ?_ (fun y d hd => ?_) hn))
  · exact ⟨fun _ _ => rfl, fun _ => by simp [ofSess, big_none, SmallMail], fun _ => rfl, rfl, rfl⟩
  · exact big_sub (x := .chan (.send { i.hdr with sessionId := y } d)) hd

/-- All messages are small if all chunks were. -/
theorem small_box {n : Nat} (h : Reach m u evs s) (hs : ShortUps n s.srv) : ∀ x ∈ s.box, SmallMail n x := by
  induction h with
  | create h =>
    obtain ⟨srv, h1, h⟩ := Exec.bind_eq_ok.mp h
    obtain ⟨chans, h2, h⟩ := Exec.bind_eq_ok.mp h
    obtain ⟨sess, h3, h⟩ := Exec.bind_eq_ok.mp h
    injection h with h
    subst h
    intro x hx
    cases hx
  | step hr hp hn ih =>
    rename_i s s' e v
    have hmv := step_moves hp hn
    have ih := ih (hs.back hmv)
    cases hmv with
    | tcp v rest hb hn hp hc hs' ms hms hbox =>
      intro x hx
      rw [hbox] at hx
      rcases List.mem_append.mp hx with hx | hx
      · refine ih x ?_
        rcases hb with ⟨_, hb⟩ | ⟨k, m, _, hb⟩
        · rwa [hb] at hx
        · rw [hb]; exact List.mem_cons_of_mem _ hx
      · exact small_tcp hn hs x (hms.subset hx)
    | chan y rest hb hn hc hs' ms hms hbox =>
      intro x hx
      rw [hbox] at hx
      rcases List.mem_append.mp hx with hx | hx
      · exact ih x (by rw [hb]; exact List.mem_cons_of_mem _ hx)
      · exact small_chan hn (ih _ (by rw [hb]; exact List.mem_cons_self)) x (hms.subset hx)
    | sess hdr d rest hb hn hc hs' ms hms hbox =>
      intro x hx
      rw [hbox] at hx
      rcases List.mem_append.mp hx with hx | hx
      · exact ih x (by rw [hb]; exact List.mem_cons_of_mem _ hx)
      · exact small_sess hn x (hms.subset hx)

theorem post_slot {slot slot' others : Nat} {box box' ms : List Mail} (hf : ∀ x ∈ ms, x.size + 8 ≤ slot')
    (h : post slot others box ms = .ok box') : post slot' others box ms = .ok box' := by
  induction ms generalizing box with
  | nil => exact h
  | cons x ms ih =>
    have ih := fun {b} => ih (box := b) fun y hy => hf y (List.mem_cons_of_mem _ hy)
    unfold post at h ⊢
    split at h
    · rename_i h1
      rw [if_pos h1, if_pos (hf x List.mem_cons_self)]
      split at h
      · exact ih h
      · cases h
    · rename_i h1
      rw [if_neg h1]
      exact ih h

/-- C64: as long as no chunk passed on was longer than 4056 bytes, the size of the slots makes no difference: whatever a step does
with slots of any size, even unlimited, it does with the slots of 4096 bytes that the reactor has.  So no message of the
components is written over the end of its slot. -/
theorem C64_slots_partial (slot : Nat) (h : Reach m u evs s) {e : Env} {v : Ev} (hp : Possible s v) (hn : stepIn slot s e v = .ok s')
    (hs : ShortUps 4056 s'.srv) : step s e v = .ok s' := by
  have hsm := small_box h (hs.back (step_moves hp hn))
  have hfit : ∀ {l : List Mail}, (∀ x ∈ l, SmallMail 4056 x) → ∀ x ∈ l, x.size + 8 ≤ 4096 :=
    fun hl x hx => (hl x hx).fits (Nat.le_refl _)
  cases v with
  | net v =>
    obtain ⟨h1, h2, h3, h4⟩ := onTcp_ok hn
    show onTcp 4096 s e v = _
    unfold onTcp
    rw [h1, Exec.ok_bind, post_slot (hfit (small_tcp h1 hs)) h4, Exec.ok_bind]
    cases s'; cases h2; cases h3; rfl
  | deliver =>
    unfold stepIn deliver at hn
    show deliver 4096 s e = _
    unfold deliver
    cases hb : s.box with
    | nil => exact absurd hb hp
    | cons x rest =>
      rw [hb] at hn
      rw [hb] at hsm
      cases x with
      | chan y =>
        obtain ⟨h1, h2, h3, h4⟩ := onChan_ok hn
        show onChan 4096 _ e y = _
        unfold onChan
        rw [h1, Exec.ok_bind, post_slot (hfit (small_chan h1 (hsm _ List.mem_cons_self))) h4, Exec.ok_bind]
        cases s'; cases h2; cases h3; rfl
      | tcp k y =>
        obtain ⟨h1, h2, h3, h4⟩ := onTcp_ok hn
        show onTcp 4096 _ e _ = _
        unfold onTcp
        rw [h1, Exec.ok_bind, post_slot (hfit (small_tcp h1 hs)) h4, Exec.ok_bind]
        cases s'; cases h2; cases h3; rfl
      | sess hdr d =>
        obtain ⟨h1, h2, h3, h4⟩ := onSess_ok hn
        show onSess 4096 _ e hdr d = _
        unfold onSess
        rw [h1, Exec.ok_bind, post_slot (hfit (small_sess h1)) h4, Exec.ok_bind]
        cases s'; cases h2; cases h3; rfl

end Stack

end Uscada.Ua
