import Verif.UaGreeting

/-!
# C100, C101: limits of the greeting, and reasons

UaTcpDefs.hpp:8-12, UaTcpConnection.cpp:176-279.  Client and server tell each other in Hello and Acknowledge how long their chunks may be
(OPC 10000-6, 7.1.2.3 and 7.1.2.4); a server that ends a connection writes an Error message before (7.1.5).
-/

namespace Uscada.Ua.Transport

open SM

/-! ## Specification -/

/-- An Acknowledge message with the limits `a`. -/
def acknowledge (a : AcknowledgeMessage) : List UInt8 := lettered [0x41, 0x43, 0x4B, 0x46] (Wire.wire a)

/-- A Hello message. -/
def hello (body : List UInt8) : List UInt8 := lettered [0x48, 0x45, 0x4C, 0x46] body

/-- The buffer sizes of Acknowledge are not larger than what the Hello asks for (OPC 10000-6, table 56). -/
def Agreed (v : HelloMessage) (a : AcknowledgeMessage) : Prop := a.receiveBufferSize ≤ v.sendBufferSize ∧ a.sendBufferSize ≤ v.receiveBufferSize

instance (v : HelloMessage) (a : AcknowledgeMessage) : Decidable (Agreed v a) := inferInstanceAs (Decidable (_ ∧ _))

/-- An Error message. -/
def IsError (d : List UInt8) : Prop := d.take 3 = [0x45, 0x52, 0x52]

instance (d : List UInt8) : Decidable (IsError d) := inferInstanceAs (Decidable (_ = _))

/-- The link reads `d`. -/
def _root_.Uscada.Ua.TEnv.reads (e : TEnv) (d : List UInt8) : TEnv := { e with rx := .ok d }

/-! ## What is written -/

theorem Greet.run_sent {d : List UInt8} {l : List TAct} {p q : Greet} (h : Greet.run p l = some q) (hd : .sent d ∈ l) : d = ackFrame ∨ OneChunk d := by
  induction l generalizing p with
  | nil => cases hd
  | cons a l ih =>
    unfold Greet.run at h
    cases hn : p.next a with
    | none => rw [hn] at h; cases h
    | some r =>
      rw [hn] at h
      rcases List.mem_cons.mp hd with rfl | hd
      · cases p with
        | away => cases hn
        | silent =>
          left
          apply Classical.byContradiction
          intro hne
          simp only [Greet.next, if_neg hne] at hn
          cases hn
        | served =>
          right
          apply Classical.byContradiction
          intro hne
          simp only [Greet.next, if_neg hne] at hn
          cases hn
      · exact ih h hd

variable {m : Nat → Mem} {evs : List (TEnv × TEv)} {s : Srv}

/-- C100 (sending): whatever happens, what the server writes to a peer is one whole chunk of at most 4096 bytes, for which each peer has room
(the least buffer that a Hello may announce is one of 8192 bytes). -/
theorem C100_sent_partial (h : Srv.Reach m evs s) (k : Nat) {d : List UInt8} (hd : .sent d ∈ (s.conns k).log) : IsChunk d ∧ d.length ≤ 4096 := by
  rcases Greet.run_sent (C98_order h k) hd with rfl | h
  · decide
  · exact h.2

/-- Against C101: in no history is an Error message ever written, to whatever peer, for whatever reason its connection ends. -/
theorem C101_never_violated (h : Srv.Reach m evs s) (k : Nat) {d : List UInt8} (hd : .sent d ∈ (s.conns k).log) : ¬ IsError d := by
  intro he
  rcases Greet.run_sent (C98_order h k) hd with rfl | h
  · revert he; decide
  · unfold IsError at he
    rcases h.1 with h | h | h <;> rw [he] at h <;> revert h <;> decide

/-! ## The buffer sizes -/

/-- The limits that the server announces. -/
def announced : AcknowledgeMessage :=
  { protocolVersion := 0, receiveBufferSize := 65536, sendBufferSize := 65536, maxMessageSize := 327680000, maxChunkCount := 5000 }

theorem ackFrame_eq : ackFrame = acknowledge announced := by decide +kernel

/-- Each Hello is answered with the same Acknowledge. -/
theorem hello_answer (h : Srv.Reach m evs s) {k : Nat} (hk : Pool.valid k) (hst : (s.conns k).st = .hello) (ho : (s.conns k).opened = true)
    (hz : (s.conns k).rx.tail = 0) (hh : (s.conns k).rx.head = 0) {e : TEnv} (h1 : e.starts = true) (h2 : e.writes = true) {v : HelloMessage}
    {body : List UInt8} (hs : std false v body) (hn : body.length ≤ 4088) :
    ∃ s', next s (e.reads (hello body)) (.linkData k) = .ok s' ∧ (s'.conns k).st = .connected ∧
      (s'.conns k).log = (s.conns k).log ++ [.sent (acknowledge announced)] := by
  rw [← ackFrame_eq]
  exact C98_letters_violated h hk hst ho hz hh (e := e.reads (hello body)) h1 h2 rfl hs hn rfl

/-- C100 (agreement): a Hello whose buffers have at least 65536 bytes is answered with limits that it allows. -/
theorem C100_agree_partial (h : Srv.Reach m evs s) {k : Nat} (hk : Pool.valid k) (hst : (s.conns k).st = .hello) (ho : (s.conns k).opened = true)
    (hz : (s.conns k).rx.tail = 0) (hh : (s.conns k).rx.head = 0) {e : TEnv} (h1 : e.starts = true) (h2 : e.writes = true) {v : HelloMessage}
    {body : List UInt8} (hs : std false v body) (hn : body.length ≤ 4088) (hr : 65536 ≤ v.receiveBufferSize) (hw : 65536 ≤ v.sendBufferSize) :
    ∃ s' a, next s (e.reads (hello body)) (.linkData k) = .ok s' ∧ (s'.conns k).st = .connected ∧
      (s'.conns k).log = (s.conns k).log ++ [.sent (acknowledge a)] ∧ Agreed v a := by
  obtain ⟨s', h3, h4, h5⟩ := hello_answer h hk hst ho hz hh h1 h2 hs hn
  exact ⟨s', announced, h3, h4, h5, hw, hr⟩

/-- Against C100: the server does not look at the limits of the Hello.  Each Hello that announces a smaller buffer in either direction
(8192 bytes are enough by the standard) is answered with limits that it does not allow, and the peer is served. -/
theorem C100_agree_violated (h : Srv.Reach m evs s) {k : Nat} (hk : Pool.valid k) (hst : (s.conns k).st = .hello) (ho : (s.conns k).opened = true)
    (hz : (s.conns k).rx.tail = 0) (hh : (s.conns k).rx.head = 0) {e : TEnv} (h1 : e.starts = true) (h2 : e.writes = true) {v : HelloMessage}
    {body : List UInt8} (hs : std false v body) (hn : body.length ≤ 4088) (hr : v.receiveBufferSize < 65536 ∨ v.sendBufferSize < 65536) :
    ∃ s' a, next s (e.reads (hello body)) (.linkData k) = .ok s' ∧ (s'.conns k).st = .connected ∧
      (s'.conns k).log = (s.conns k).log ++ [.sent (acknowledge a)] ∧ ¬ Agreed v a := by
  obtain ⟨s', h3, h4, h5⟩ := hello_answer h hk hst ho hz hh h1 h2 hs hn
  refine ⟨s', announced, h3, h4, h5, ?_⟩
  rintro ⟨h6, h7⟩
  have h6 : (65536 : UInt32) ≤ v.sendBufferSize := h6
  have h7 : (65536 : UInt32) ≤ v.receiveBufferSize := h7
  rw [UInt32.le_iff_toNat_le] at h6 h7
  rw [UInt32.lt_iff_toNat_lt, UInt32.lt_iff_toNat_lt] at hr
  omega

/-! ## Chunks that the server has announced room for -/

/-- Connection `k` is connected and has the bytes `p` of an incomplete chunk. -/
structure Holding (s : Srv) (k : Nat) (p : List UInt8) : Prop where
  st : (s.conns k).st = .connected
  opened : (s.conns k).opened = true
  tail : (s.conns k).rx.tail = 0
  bytes : memRead (s.conns k).rx.packet 0 (s.conns k).rx.head = p

/-- Connection `k` was ended without a word to its peer; only its channel was told. -/
def Dropped (s s' : Srv) (k : Nat) : Prop :=
  (s'.conns k).st = .init ∧ (s'.conns k).link = false ∧ (s'.conns k).log = (s.conns k).log ++ farewell (s.conns k).assoc ++ [.released]

/-- A piece that does not complete a chunk is stored as long as not more than 1024 bytes are there. -/
theorem piece_kept (h : Srv.Reach m evs s) {k : Nat} (hk : Pool.valid k) {e : TEnv} {p d r : List UInt8} (hp : Holding s k p) (hl : p.length ≤ 1024)
    (hd : d.length ≤ 3072) (hc : IsChunk (p ++ d ++ r)) (hr : r ≠ []) :
    ∃ s', next s (e.reads d) (.linkData k) = .ok s' ∧ Holding s' k (p ++ d) ∧ (s'.conns k).log = (s.conns k).log ∧ (s'.conns k).assoc = (s.conns k).assoc := by
  have hlive := (reach_live h hk (by rw [hp.st]; simp)).choose_spec.2.2.2.2
  have hlen : (s.conns k).rx.head = p.length := by rw [← hp.bytes, MsgStorage.length_memRead]
  have hb := memRead_append (s.conns k).rx p d hp.bytes
  have hv : receive true (.ok d) (s.conns k).rx = .ok (.noerror, (s.conns k).rx.append d) := by
    refine receive_ok (by omega) (by omega) ?_
    rw [evaluate_prefix ((s.conns k).rx.append d) (p ++ d) r hp.tail hb hc, if_neg hr]
  refine ⟨s.set k { (s.conns k) with rx := (s.conns k).rx.append d }, ?_, ⟨by simp [Srv.set, hp.st], by simp [Srv.set, hp.opened], by simp [Srv.set, Buf.append, hp.tail],
    by simpa [Srv.set] using hb⟩, by simp [Srv.set], by simp [Srv.set]⟩
  have : onData k (e.reads d) s = (.ok (), s.set k { (s.conns k) with rx := (s.conns k).rx.append d }) := by
    simp only [onData, bind_run, self, andThen, hp.st, receiveSecuredMessage, receiveRx, hlive.link, if_true, hp.opened, TEnv.reads, hv, lift, conn, SM.modify, pure_run]
  show settle (onData k (e.reads d) s) = _
  rw [this]
  rfl

/-- The next piece after more than 1024 bytes ends the connection. -/
theorem piece_drops (h : Srv.Reach m evs s) {k : Nat} (hk : Pool.valid k) {e : TEnv} {p : List UInt8} (hp : Holding s k p) (hl : 1024 < p.length) :
    ∃ s', next s e (.linkData k) = .ok s' ∧ Dropped s s' k := by
  have har := reach_live h hk (by rw [hp.st]; simp)
  have hlive := har.choose_spec.2.2.2.2
  have hlen : (s.conns k).rx.head = p.length := by rw [← hp.bytes, MsgStorage.length_memRead]
  have hv : receive true e.rx (s.conns k).rx = .ok (.error, (s.conns k).rx) := by
    unfold receive
    rw [if_pos (by simp only [Buf.size]; omega)]
  have hset : ∀ b, b = (s.conns k).rx → s.set k { (s.conns k) with rx := b } = s := by
    rintro b rfl
    unfold Srv.set
    congr 1
    funext i
    by_cases hi : i = k <;> simp [hi]
  obtain ⟨s', hf, ho, -⟩ := fail_run har
  refine ⟨s', ?_, ?_⟩
  · have : receiveRx k e s = (.ok .error, s) := by
      have := hset _ rfl
      simp only [receiveRx, bind_run, self, andThen, hlive.link, if_true, hp.opened, hv, lift, conn, SM.modify, pure_run]
      exact congrArg (Prod.mk _) (by simpa only [hlive.link, hp.opened] using this)
    have : onData k e s = fail k s := by
      simp only [onData, bind_run, self, andThen, hp.st, receiveSecuredMessage, this, pure_run]
    show settle (onData k e s) = _
    rw [this, hf]
    rfl
  · unfold Dropped
    rw [ho]
    exact ⟨rfl, rfl, rfl⟩

theorem pieces (h : Srv.Reach m evs s) {k : Nat} (hk : Pool.valid k) {es : List (TEnv × List UInt8)} {p r : List UInt8} (hp : Holding s k p) (hpl : p.length ≤ 4096)
    (hc : IsChunk (p ++ (es.map (·.2)).flatten ++ r)) (hd : ∀ x ∈ es, x.2.length ≤ 3072) (hl : 4096 < (p ++ (es.map (·.2)).flatten).length) :
    ∃ n s', n ≤ es.length ∧ run s ((es.take n).map fun x => (x.1.reads x.2, .linkData k)) = .ok s' ∧ Dropped s s' k := by
  induction es generalizing s p evs with
  | nil =>
    simp only [List.map_nil, List.flatten_nil, List.append_nil] at hl
    omega
  | cons x es ih =>
    have hpos : Possible s (.linkData k) := ⟨hk, (reach_live h hk (by rw [hp.st]; simp)).choose_spec.2.2.2.2.link⟩
    by_cases hs : p.length ≤ 1024
    · have hx := hd x (List.mem_cons_self ..)
      have hpx : (p ++ x.2).length ≤ 4096 := by rw [List.length_append]; omega
      simp only [List.map_cons, List.flatten_cons, ← List.append_assoc] at hc hl
      have hne : (es.map (·.2)).flatten ++ r ≠ [] := by
        intro hn
        have := (List.append_eq_nil_iff.mp hn).1
        rw [this, List.append_nil] at hl
        omega
      obtain ⟨s1, h1, h2, h3, h4⟩ := piece_kept h hk (e := x.1) hp hs hx (r := (es.map (·.2)).flatten ++ r) (by simpa only [List.append_assoc] using hc) hne
      obtain ⟨n, s', h5, h6, h7⟩ := ih (.step h hpos h1) h2 hpx (by simpa only [List.append_assoc] using hc) (fun y hy => hd y (List.mem_cons_of_mem _ hy)) hl
      refine ⟨n + 1, s', by simp only [List.length_cons]; omega, ?_, ?_⟩
      · simp only [List.take_succ_cons, List.map_cons, run, if_pos hpos, h1, Exec.ok_bind]
        exact h6
      · obtain ⟨a, b, c⟩ := h7
        exact ⟨a, b, by rw [c, h3, h4]⟩
    · obtain ⟨s', h1, h2⟩ := piece_drops h hk (e := x.1.reads x.2) hp (by omega)
      refine ⟨1, s', by simp only [List.length_cons]; omega, ?_, h2⟩
      simp only [List.take_succ_cons, List.take_zero, List.map_cons, List.map_nil, run, if_pos hpos, h1, Exec.ok_bind]

/-- Against C100: no chunk of more than 4096 bytes is accepted, although Acknowledge promises room for 65536.  Whatever the chunk says, and in
whatever pieces of at most 3072 bytes it comes, the connection ends before its last piece is stored: nothing of the chunk is handed up, and
nothing is written to the peer. -/
theorem C100_large_violated (h : Srv.Reach m evs s) {k : Nat} (hk : Pool.valid k) (hst : (s.conns k).st = .connected) (ho : (s.conns k).opened = true)
    (hz : (s.conns k).rx.tail = 0) (hh : (s.conns k).rx.head = 0) {es : List (TEnv × List UInt8)} (hc : IsChunk (es.map (·.2)).flatten)
    (h1 : 4096 < (es.map (·.2)).flatten.length) (_h2 : (es.map (·.2)).flatten.length ≤ announced.receiveBufferSize.toNat) (hd : ∀ x ∈ es, x.2.length ≤ 3072) :
    ∃ n s', n ≤ es.length ∧ run s ((es.take n).map fun x => (x.1.reads x.2, .linkData k)) = .ok s' ∧ Dropped s s' k :=
  pieces h hk (p := []) (r := []) ⟨hst, ho, hz, by rw [hh]; rfl⟩ (by simp) (by simpa using hc) hd (by simpa using h1)

/-! ## A message of unknown type -/

/-- Against C101: a chunk with letters that are none of a secure channel ends the connection without a word. -/
theorem C101_letters_violated (h : Srv.Reach m evs s) {k : Nat} (hk : Pool.valid k) (hst : (s.conns k).st = .connected) (ho : (s.conns k).opened = true)
    (hz : (s.conns k).rx.tail = 0) (hh : (s.conns k).rx.head = 0) {e : TEnv} {d : List UInt8} (hc : IsChunk d) (hn : d.length ≤ 4096) (hx : ¬ Lettered d) :
    ∃ s', next s (e.reads d) (.linkData k) = .ok s' ∧ Dropped s s' k := by
  have hmem := memRead_append (s.conns k).rx [] d (by rw [hh]; rfl)
  have hhd : ((s.conns k).rx.append d).head = d.length := by simp [Buf.append, hh]
  have hr : receive (s.conns k).opened (e.reads d).rx (s.conns k).rx = .ok (.done, (s.conns k).rx.append d) := by
    rw [ho]
    exact receive_ok (by omega) (by omega) (evaluate_prefix ((s.conns k).rx.append d) d [] hz hmem (by rw [List.append_nil]; exact hc))
  obtain ⟨hdr, hd⟩ := Takes.secHeader (Ua.init : UaMessageHeader) ((s.conns k).rx.append d) (by show (s.conns k).rx.tail + 12 ≤ 4096; omega)
  have hty : secType ((s.conns k).rx.append d) = .invalid := by
    have hb : ∀ i x, i < 8 → byteIs ((s.conns k).rx.append d) i x = (d.getD i 0 == x) := by
      intro i x hi
      have := getD_memRead ((s.conns k).rx.append d).packet 0 ((s.conns k).rx.append d).head i (by have := hc.1; omega)
      rw [hmem, List.nil_append, Nat.zero_add] at this
      unfold byteIs
      rw [show ((s.conns k).rx.append d).tail = 0 from hz, Nat.zero_add, ← this]
    unfold secType
    rw [hb _ _ (by decide), hb _ _ (by decide), hb _ _ (by decide), hb _ _ (by decide), hb _ _ (by decide), hb _ _ (by decide), hb _ _ (by decide),
      hb _ _ (by decide), hb _ _ (by decide)]
    match d, hc.1, hx with
    | x :: y :: z :: l, _, hx =>
      simp only [Lettered, List.take_succ_cons, List.take_zero, List.cons.injEq, and_true, not_or] at hx
      simp only [List.getD_cons_zero, List.getD_cons_succ, Bool.and_eq_true, beq_iff_eq, and_assoc, hx.1, hx.2.1, hx.2.2, if_false]
  obtain ⟨s', h1, h2, h3, h4, -⟩ := C35_foreign_chunk_ends m evs s h k hk hst (e.reads d) _ _ hdr hr hd (by rw [hty]; simp) (fun hn => absurd hty hn)
  exact ⟨s', h1, h2, h3, h4⟩

/-! ## Examples -/

/-- A Hello with the least buffers that the standard allows, and one with large ones. -/
def modest : HelloMessage := { Stack.guestHello with receiveBufferSize := 8192, sendBufferSize := 8192 }
def lavish : HelloMessage := { Stack.guestHello with receiveBufferSize := 100000, sendBufferSize := 65536 }

theorem modest_std : std false modest (Wire.wire modest) := Accepts.canon modest ⟨trivial, trivial, trivial, trivial, trivial, Session.str_ok _ (by decide)⟩
theorem lavish_std : std false lavish (Wire.wire lavish) := Accepts.canon lavish ⟨trivial, trivial, trivial, trivial, trivial, Session.str_ok _ (by decide)⟩

/-- C100: the limits are agreed with the one, and not with the other; what is sent is a chunk of 28 bytes. -/
example : ∃ s s' a, Srv.Reach (fun _ => garbage) (talk.take 1) s ∧ next s (calm.reads (hello (Wire.wire lavish))) (.linkData 1) = .ok s' ∧
    (s'.conns 1).log = (s.conns 1).log ++ [.sent (acknowledge a)] ∧ Agreed lavish a ∧ IsChunk (acknowledge a) ∧ ¬ IsError (acknowledge a) := by
  obtain ⟨s, h, h1, h2, h3, h4⟩ := awaits_runs
  have hp : Possible s (.linkData 1) := ⟨by decide, (reach_live h (by decide) (by rw [h1]; simp)).choose_spec.2.2.2.2.link⟩
  obtain ⟨s', a, hn, -, hl, ha⟩ := C100_agree_partial h (k := 1) (by decide) h1 h2 h3 h4 (e := calm) rfl rfl lavish_std (by decide +kernel) (by decide) (by decide)
  have hm : TAct.sent (acknowledge a) ∈ (s'.conns 1).log := by rw [hl]; simp
  exact ⟨s, s', a, h, hn, hl, ha, (C100_sent_partial (.step h hp hn) 1 hm).1, C101_never_violated (.step h hp hn) 1 hm⟩

example : ∃ s s' a, Srv.Reach (fun _ => garbage) (talk.take 1) s ∧ next s (calm.reads (hello (Wire.wire modest))) (.linkData 1) = .ok s' ∧
    (s'.conns 1).log = (s.conns 1).log ++ [.sent (acknowledge a)] ∧ ¬ Agreed modest a := by
  obtain ⟨s, h, h1, h2, h3, h4⟩ := awaits_runs
  obtain ⟨s', a, hn, -, hl, ha⟩ := C100_agree_violated h (k := 1) (by decide) h1 h2 h3 h4 (e := calm) rfl rfl modest_std (by decide +kernel) (by decide)
  exact ⟨s, s', a, h, hn, hl, ha⟩

/-- `talk` up to the greeting. -/
def greeted : Exec (View × Bool × Nat × Nat) := do
  let s ← Srv.create fun _ => garbage
  let s' ← run s (talk.take 2)
  pure (view s' 1, (s'.conns 1).opened, (s'.conns 1).rx.tail, (s'.conns 1).rx.head)

theorem greeted_runs : ∃ s, Srv.Reach (fun _ => garbage) (talk.take 2) s ∧ (s.conns 1).st = .connected ∧ (s.conns 1).opened = true ∧ (s.conns 1).rx.tail = 0 ∧
    (s.conns 1).rx.head = 0 ∧ (s.conns 1).assoc = none ∧ (s.conns 1).log = [.accepted, .sent ackFrame] := by
  have h : greeted = .ok (⟨.connected, true, true, none, [.accepted, .sent ackFrame], 31⟩, true, 0, 0) := by decide +kernel
  obtain ⟨s, h1, h2⟩ := Exec.bind_eq_ok.mp h
  obtain ⟨s', h3, h4⟩ := Exec.bind_eq_ok.mp h2
  injection h4 with h4
  refine ⟨s', run_reach (.create h1) h3, ?_⟩
  injection h4 with a1 h4
  injection h4 with a2 h4
  injection h4 with a3 a4
  exact ⟨congrArg View.st a1, a2, a3, a4, congrArg View.assoc a1, congrArg View.log a1⟩

/-- A chunk of 5000 bytes in five pieces. -/
def bulk : List (TEnv × List UInt8) :=
  (calm, [79, 80, 78, 70, 0x88, 0x13, 0, 0] ++ List.replicate 992 7) :: List.replicate 4 (calm, List.replicate 1000 8)

/-- C100: the peer with the large chunk is gone, and has heard nothing but Acknowledge. -/
example : ∃ s s' n, Srv.Reach (fun _ => garbage) (talk.take 2) s ∧ n ≤ 5 ∧ run s ((bulk.take n).map fun x => (x.1.reads x.2, .linkData 1)) = .ok s' ∧
    (s'.conns 1).st = .init ∧ (s'.conns 1).log = [.accepted, .sent ackFrame, .released] := by
  obtain ⟨s, h, h1, h2, h3, h4, h5, h6⟩ := greeted_runs
  obtain ⟨n, s', hn, hr, hd⟩ := C100_large_violated h (k := 1) (by decide) h1 h2 h3 h4 (es := bulk) (by decide +kernel) (by decide +kernel) (by decide +kernel)
    (by decide +kernel)
  exact ⟨s, s', n, h, hn, hr, hd.1, by rw [hd.2.2, h5, h6]; rfl⟩

/-- C101: an empty message of the type `XYZ`. -/
example : ∃ s s', Srv.Reach (fun _ => garbage) (talk.take 2) s ∧ next s (calm.reads [88, 89, 90, 70, 8, 0, 0, 0]) (.linkData 1) = .ok s' ∧
    (s'.conns 1).st = .init ∧ (s'.conns 1).log = [.accepted, .sent ackFrame, .released] := by
  obtain ⟨s, h, h1, h2, h3, h4, h5, h6⟩ := greeted_runs
  obtain ⟨s', hn, hd⟩ := C101_letters_violated h (k := 1) (by decide) h1 h2 h3 h4 (e := calm) (d := [88, 89, 90, 70, 8, 0, 0, 0]) (by decide) (by decide) (by decide)
  exact ⟨s, s', h, hn, hd.1, by rw [hd.2.2, h5, h6]; rfl⟩

end Uscada.Ua.Transport
