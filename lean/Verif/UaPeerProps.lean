import Verif.UaPeer
import Verif.UaChannelProps
import Verif.UaConnectionProps
/-!
# C33, C34, C44, C56, C57 for `common/ua/protocols/secure` (server)

The claims are about the log of a channel, as in `Verif.UaChannelProps`.
-/

namespace Uscada.Ua.Peer

open SM
open Channel (word openAnswer)

/-! ## Specification -/

/-- Message types. -/
def opn : List UInt8 := [0x4F, 0x50, 0x4E]
def clo : List UInt8 := [0x43, 0x4C, 0x4F]
def msg : List UInt8 := [0x4D, 0x53, 0x47]

/-- The chunk delivered last. -/
def lastGot (l : List PAct) : Option (List UInt8) := l.foldl (fun o a => match a with
  | .got d => some d
  | _ => o) none

/-- The identifier chosen last. -/
def chanId (l : List PAct) : Option UInt32 := l.foldl (fun o a => match a with
  | .opening i => some i
  | _ => o) none

/-- The number of chunks given to the link. -/
def count (l : List PAct) : Nat := l.foldl (fun n a => match a with
  | .sent _ _ => n + 1
  | _ => n) 0

/-- A call of `open` was accepted and no end was reported since. -/
def live (l : List PAct) : Bool := l.foldl (fun b a => match a with
  | .opening _ => true
  | .note .closed => false
  | .note .error => false
  | _ => b) false

/-- The token issued last, the sequence number and the request identifier accepted last, and whether the chunk delivered
last was accepted. -/
structure Window where
  token : Option UInt32
  seq : UInt32
  req : UInt32
  accepted : Bool
deriving DecidableEq, Repr

/-- A message is accepted if it carries the token and the next sequence number; it then moves the window.  A close request
is accepted under the same conditions and moves nothing. -/
def Window.sees (w : Window) (d : List UInt8) : Window :=
  if w.token = some (word d 12) ∧ word d 16 = w.seq + 1 then
    if d.take 3 = msg then { w with seq := w.seq + 1, req := word d 20, accepted := true }
    else { w with accepted := decide (d.take 3 = clo) }
  else { w with accepted := false }

def Window.step (o : Option Window) (a : PAct) : Option Window :=
  match a with
  | .opening _ => none
  | .got d => o.map (·.sees d)
  | .moved s r => some ⟨o.bind (·.token), s, r, false⟩
  | .issued t => o.map ({ · with token := some t })
  | _ => o

def window (l : List PAct) : Option Window := l.foldl Window.step none

/-- C33: the user is told of a request only if the chunk delivered last is a message and was accepted, and gets what stands
behind its sequence header. -/
def Fresh (pre : List PAct) (a : PAct) : Prop :=
  match a with
  | .note (.request p) => ∃ w d, window pre = some w ∧ w.accepted = true ∧ lastGot pre = some d ∧ d.take 3 = msg ∧
      p.take (d.length - 24) = d.drop 24
  | _ => True

/-- A chunk: type, final, size, channel identifier, body (OPC 10000-6, 6.7.2.2). -/
def chunk (ty : List UInt8) (id : UInt32) (body : List UInt8) : List UInt8 :=
  ty ++ 0x46 :: (leBytes 4 (body.length + 12) ++ (leBytes 4 id.toNat ++ body))

/-- The sequence number of a chunk the server sends: behind the security header of an answer to an open request, or behind
the token. -/
def txOf (d : List UInt8) : UInt32 := if d.take 3 = opn then word d 71 else word d 16

/-- C34: the chunks are numbered 1, 2, 3, ... -/
def Numbered (pre : List PAct) (a : PAct) : Prop :=
  match a with
  | .sent d _ => txOf d = UInt32.ofNat (count pre + 1)
  | _ => True

/-- C57: what a chunk says while the channel is in use: the channel identifier, the token, and the identifier of the
request accepted last. -/
def Addressed (pre : List PAct) (a : PAct) : Prop :=
  match a with
  | .sent d _ => ∀ w t, live pre = true → window pre = some w → w.token = some t → ∃ id n, chanId pre = some id ∧
      ((∃ data, d = chunk msg id (leBytes 4 t.toNat ++ (leBytes 4 n ++ (leBytes 4 w.req.toNat ++ data)))) ∨
       (∃ sec rsp, d = chunk opn id (wire sec ++ (leBytes 4 n ++ (leBytes 4 w.req.toNat ++
          wire (Cont.make 449 (rsp : UaOpenSecureChannelRsp))))) ∧ (sec : UaSecurityHeader).securityPolicyUri = ⟨Channel.policyNone⟩ ∧
          rsp.securityToken.secureChannelId = id ∧ rsp.securityToken.tokenId = t))
  | _ => True

/-- Every chunk delivered holds a token and a sequence header. -/
def Longs (l : List PAct) : Prop := ∀ d, PAct.got d ∈ l → 24 ≤ d.length

/-! ## Logs -/

section snoc

variable {l : List PAct} {a : PAct}

theorem lastGot_snoc : lastGot (l ++ [a]) = match a with
    | .got d => some d
    | _ => lastGot l := by
  simp [lastGot, List.foldl_append]

theorem chanId_snoc : chanId (l ++ [a]) = match a with
    | .opening i => some i
    | _ => chanId l := by
  simp [chanId, List.foldl_append]

theorem count_snoc : count (l ++ [a]) = match a with
    | .sent _ _ => count l + 1
    | _ => count l := by
  simp [count, List.foldl_append]

theorem live_snoc : live (l ++ [a]) = match a with
    | .opening _ => true
    | .note .closed => false
    | .note .error => false
    | _ => live l := by
  simp [live, List.foldl_append]

theorem window_snoc : window (l ++ [a]) = Window.step (window l) a := by
  simp [window, List.foldl_append]

theorem Longs.left (h : Longs (l ++ [a])) : Longs l := fun d hd => h d (by simp [hd])

theorem Longs.snoc (h : Longs l) (ha : ∀ d, a ≠ .got d) : Longs (l ++ [a]) := by
  intro d hd
  rcases List.mem_append.mp hd with hd | hd
  · exact h d hd
  · simp only [List.mem_singleton] at hd
    exact absurd hd.symm (ha d)

end snoc

/-! ## Decoding -/

/-- A decoder that reads outside the buffer if less than `n` bytes are left. -/
def Needs {α : Type} (n : Nat) (d : Codec α) : Prop := ∀ b : Buf, 4096 < b.tail + n → d b = .ub

theorem Needs.read : Needs 1 read := fun b h => if_neg (by show ¬ b.tail < 4096; omega)

theorem Needs.bind {α β : Type} {n k : Nat} {d : Codec α} {f : α → Codec β} (h0 : Takes n d) (h1 : Needs n d)
    (h2 : ∀ a, Needs k (f a)) : Needs (n + k) (d >>= f) := by
  intro b h
  by_cases hb : b.tail + n ≤ 4096
  · exact Takes.then_ub h0 hb fun a => h2 a _ (by show 4096 < b.tail + n + k; omega)
  · exact Codec.ub_then (h1 b (by omega))

theorem Needs.last {α β : Type} {n : Nat} {d : Codec α} {f : α → Codec β} (h1 : Needs n d) : Needs n (d >>= f) :=
  fun b h => Codec.ub_then (h1 b h)

theorem Needs.u32 (old : UInt32) : Needs 4 (dec old) :=
  Needs.bind (n := 1) (k := 3) Takes.read Needs.read fun _ => Needs.bind (n := 1) (k := 2) Takes.read Needs.read fun _ =>
    Needs.bind (n := 1) (k := 1) Takes.read Needs.read fun _ => Needs.last Needs.read

theorem Takes.bytes3 (old : Bytes3) : Takes 3 (dec old) :=
  Takes.bind (n := 1) (k := 2) (Takes.u8 _) fun _ => Takes.bind (n := 2) (k := 0)
    (Takes.bind (n := 1) (k := 1) (Takes.u8 _) fun _ => Takes.bind (n := 1) (k := 0) (Takes.u8 _) fun _ => Takes.pure _)
    fun _ => Takes.pure _

theorem Needs.bytes3 (old : Bytes3) : Needs 3 (dec old) :=
  Needs.bind (n := 1) (k := 2) (Takes.u8 _) Needs.read fun _ => Needs.last
    (Needs.bind (n := 1) (k := 1) (Takes.u8 _) Needs.read fun _ => Needs.last Needs.read)

theorem Takes.messageHeader (old : UaMessageHeader) : Takes 12 (dec old) :=
  Takes.bind (n := 3) (k := 9) (Takes.bytes3 _) fun _ => Takes.bind (n := 1) (k := 8) (Takes.u8 _) fun _ =>
    Takes.bind (n := 4) (k := 4) (Takes.u32 _) fun _ => Takes.bind (n := 4) (k := 0) (Takes.u32 _) fun _ => Takes.pure _

theorem Needs.messageHeader (old : UaMessageHeader) : Needs 12 (dec old) :=
  Needs.bind (n := 3) (k := 9) (Takes.bytes3 _) (Needs.bytes3 _) fun _ => Needs.bind (n := 1) (k := 8) (Takes.u8 _) Needs.read fun _ =>
    Needs.bind (n := 4) (k := 4) (Takes.u32 _) (Needs.u32 _) fun _ => Needs.last (Needs.u32 _)

theorem Needs.token (old : UaSecurityTokenHeader) : Needs 4 (dec old) := Needs.last (Needs.u32 _)

theorem Needs.seq (old : UaSequenceHeader) : Needs 8 (dec old) :=
  Needs.bind (n := 4) (k := 4) (Takes.u32 _) (Needs.u32 _) fun _ => Needs.last (Needs.u32 _)

/-- The number at offset `i` from the read position. -/
def wordAt (b : Buf) (i : Nat) : UInt32 := word (memRead b.packet (b.tail + i) 4) 0

theorem wordAt_eq {b : Buf} {i : Nat} (h : i + 4 ≤ b.size) : wordAt b i = word b.bytes i := by
  unfold wordAt word Buf.bytes
  congr 2
  rw [List.drop_zero]
  have e : b.size = i + (4 + (b.size - i - 4)) := by omega
  rw [e, memRead_split, List.drop_append, List.drop_eq_nil_of_le (by rw [MsgStorage.length_memRead]; omega), List.nil_append,
    MsgStorage.length_memRead, Nat.sub_self, List.drop_zero, memRead_split,
    List.take_append_of_le_length (by rw [MsgStorage.length_memRead]; omega)]

/-- What stands behind the first `n` bytes. -/
theorem bytes_skip {b : Buf} {n : Nat} (h : n ≤ b.size) : (b.skip n).bytes.take (b.bytes.length - n) = b.bytes.drop n := by
  unfold Buf.bytes
  have hl : (memRead b.packet b.tail b.size).length = b.size := MsgStorage.length_memRead ..
  rw [hl]
  show (memRead b.packet (b.tail + n) b.size).take _ = _
  have e1 : b.size = (b.size - n) + n := by omega
  have e2 : b.size = n + (b.size - n) := by omega
  conv => lhs; arg 2; rw [e1]
  conv => rhs; rw [e2]
  rw [memRead_split, memRead_split, List.take_append_of_le_length (by rw [MsgStorage.length_memRead]; omega),
    List.take_of_length_le (by rw [MsgStorage.length_memRead]; omega), List.drop_append,
    List.drop_eq_nil_of_le (by rw [MsgStorage.length_memRead]; omega), List.nil_append, MsgStorage.length_memRead, Nat.sub_self,
    List.drop_zero]

theorem decode_ok {α : Type} {e : PEnv} {d : Codec α} {p : Peer} {a : α} {b : Buf} (h : d p.conn.rx = .ok (a, b)) :
    decode e d p = (.ok a, { p with conn := { p.conn with rx := b } }) := by
  unfold decode
  rw [h]

theorem decode_ub {α β : Type} {e : PEnv} {d : Codec α} {f : α → SM Peer β} {p : Peer} (h : d p.conn.rx = .ub) :
    (decode e d >>= f) p = (.ub, p) := by
  rw [bind_run]
  unfold decode
  rw [h]
  rfl

/-- The channel with another receive buffer. -/
def withRx (p : Peer) (b : Buf) : Peer := { p with conn := { p.conn with rx := b } }

/-- The check of token and sequence number. -/
theorem guarded_run (e : PEnv) (p : Peer) : receiveGuarded e p = (
    if wordAt p.conn.rx 12 = p.token ∧ wordAt p.conn.rx 16 = p.rxSeq + 1 then
      (.ok (some ⟨wordAt p.conn.rx 16, wordAt p.conn.rx 20⟩), withRx p (p.conn.rx.skip 24))
    else if wordAt p.conn.rx 12 = p.token then (.ok none, withRx p (p.conn.rx.skip 24))
    else (.ok none, withRx p (p.conn.rx.skip 16))) ∨ ((receiveGuarded e p).1 = .ub ∧ 4096 < p.conn.rx.tail + 24) := by
  unfold receiveGuarded
  by_cases h12 : p.conn.rx.tail + 12 ≤ 4096
  · obtain ⟨v, hv⟩ := Takes.messageHeader (Ua.init) p.conn.rx h12
    rw [bind_ok (decode_ok hv)]
    by_cases h16 : p.conn.rx.tail + 16 ≤ 4096
    · rw [bind_ok (decode_ok (Channel.token_run _ (by show p.conn.rx.tail + 12 + 4 ≤ 4096; omega)))]
      show (if wordAt p.conn.rx 12 = p.token then _ else _ : SM Peer (Option UaSequenceHeader)) _ = _ ∨ (Prod.fst
        ((if wordAt p.conn.rx 12 = p.token then _ else _ : SM Peer (Option UaSequenceHeader)) _) = _ ∧ _)
      by_cases ht : wordAt p.conn.rx 12 = p.token
      · rw [if_pos ht]
        by_cases h24 : p.conn.rx.tail + 24 ≤ 4096
        · rw [bind_ok (decode_ok (Channel.seq_run _ (by show p.conn.rx.tail + 12 + 4 + 8 ≤ 4096; omega)))]
          refine .inl ?_
          show (if wordAt p.conn.rx 16 = p.rxSeq + 1 then _ else _ : SM Peer (Option UaSequenceHeader)) _ = _
          by_cases hs : wordAt p.conn.rx 16 = p.rxSeq + 1
          · rw [if_pos hs, if_pos ⟨ht, hs⟩]
            rfl
          · rw [if_neg hs, if_neg (fun h => hs h.2), if_pos ht]
            rfl
        · refine .inr ⟨?_, by omega⟩
          rw [decode_ub (Needs.seq _ _ (by show 4096 < p.conn.rx.tail + 12 + 4 + 8; omega))]
      · rw [if_neg ht]
        refine .inl ?_
        rw [if_neg (fun h => ht h.1), if_neg ht]
        rfl
    · refine .inr ⟨?_, by omega⟩
      rw [decode_ub (Needs.token _ _ (by show 4096 < p.conn.rx.tail + 12 + 4; omega))]
  · refine .inr ⟨?_, by omega⟩
    rw [decode_ub (Needs.messageHeader _ _ (by omega))]

/-! ## Encoding -/

theorem header_zero (x y z : UInt8) (id : UInt32) : wire (⟨(x, y, z), 0x46, 0, id⟩ : UaMessageHeader) =
    [x, y, z, 0x46, 0, 0, 0, 0] ++ leBytes 4 id.toNat := by
  show (wire x ++ (wire y ++ wire z)) ++ (wire (0x46 : UInt8) ++ (leBytes 4 0 ++ leBytes 4 id.toNat)) = _
  rw [wire_u8, wire_u8, wire_u8, wire_u8]
  rfl

theorem header_length (x y z : UInt8) (id : UInt32) (body : List UInt8) :
    (([x, y, z, 0x46, 0, 0, 0, 0] ++ leBytes 4 id.toNat) ++ body).length = body.length + 12 := by
  simp only [List.length_append, List.length_cons, List.length_nil, MsgStorage.length_leBytes]
  omega

theorem frame_fits {c : Codec Unit} {x y z : UInt8} {id : UInt32} {body : List UInt8}
    (hw : Writes c (wire (⟨(x, y, z), 0x46, 0, id⟩ : UaMessageHeader) ++ body)) (h : body.length + 12 ≤ 4096) :
    frame garbage c = .ok (chunk [x, y, z] id body) := by
  rw [header_zero] at hw
  have hl := header_length x y z id body
  rw [frame_eq hw (by omega) (by omega), hl]
  have hsb : sizeBytes (body.length + 12) = leBytes 4 (body.length + 12) := by
    simp only [sizeBytes, leBytes, Nat.shiftRight_eq_div_pow, Nat.div_div_eq_div_mul]
  rw [hsb]
  simp [leBytes, chunk]

theorem frame_chunk {c : Codec Unit} {x y z : UInt8} {id : UInt32} {body : List UInt8}
    (hw : Writes c (wire (⟨(x, y, z), 0x46, 0, id⟩ : UaMessageHeader) ++ body)) :
    (frame garbage c = .ok (chunk [x, y, z] id body) ∧ body.length + 12 ≤ 4096) ∨ frame garbage c = .ub := by
  by_cases h : body.length + 12 ≤ 4096
  · exact .inl ⟨frame_fits hw h, h⟩
  · refine .inr ?_
    rw [header_zero] at hw
    have hl := header_length x y z id body
    have h1 := hw (Buf.create garbage) (by simp [Buf.create])
    rw [if_neg (by rw [hl]; simp only [Buf.create, maxPacketLen]; omega)] at h1
    unfold frame
    rw [h1]
    rfl

theorem send_writes (id token tx req : UInt32) (data : List UInt8) : Writes (sendEnc id token tx req data)
    (wire (⟨(0x4D, 0x53, 0x47), 0x46, 0, id⟩ : UaMessageHeader) ++
      (leBytes 4 token.toNat ++ (leBytes 4 tx.toNat ++ leBytes 4 req.toNat ++ data))) :=
  Writes.bind (Lawful.writes (⟨(0x4D, 0x53, 0x47), 0x46, 0, id⟩ : UaMessageHeader)
    ⟨⟨trivial, trivial, trivial⟩, trivial, trivial, trivial⟩) (Channel.send_writes token tx req data)

/-- The clock, in the form of the other channel model. -/
def cenv (e : PEnv) : CEnv := ⟨garbage, e.token, e.now, e.now2⟩

theorem open_writes (e : PEnv) (id token tx req lifetime : UInt32) : Writes (openRspEnc e id token tx req lifetime)
    (wire (⟨(0x4F, 0x50, 0x4E), 0x46, 0, id⟩ : UaMessageHeader) ++ openAnswer (cenv e) id token tx req 0 lifetime) :=
  Writes.bind (Lawful.writes (⟨(0x4F, 0x50, 0x4E), 0x46, 0, id⟩ : UaMessageHeader)
    ⟨⟨trivial, trivial, trivial⟩, trivial, trivial, trivial⟩) (Channel.open_writes (cenv e) id token tx req 0 lifetime)

theorem word_chunk (x y z : UInt8) (id : UInt32) (body : List UInt8) (i : Nat) :
    word (chunk [x, y, z] id body) (12 + i) = word body i := by
  have : chunk [x, y, z] id body = ([x, y, z, 0x46] ++ leBytes 4 (body.length + 12) ++ leBytes 4 id.toNat) ++ body := by
    simp [chunk]
  rw [this]
  exact Channel.word_skip _ _ 12 i rfl

theorem txOf_send (id token tx req : UInt32) (data : List UInt8) :
    txOf (chunk msg id (leBytes 4 token.toNat ++ (leBytes 4 tx.toNat ++ leBytes 4 req.toNat ++ data))) = tx := by
  have h : (chunk msg id (leBytes 4 token.toNat ++ (leBytes 4 tx.toNat ++ leBytes 4 req.toNat ++ data))).take 3 ≠ opn := by
    show msg ≠ opn
    decide
  unfold txOf
  rw [if_neg h]
  show word (chunk [0x4D, 0x53, 0x47] id _) (12 + 4) = _
  rw [word_chunk, List.append_assoc, Channel.word4]

theorem txOf_open (e : PEnv) (id token tx req lifetime : UInt32) :
    txOf (chunk opn id (openAnswer (cenv e) id token tx req 0 lifetime)) = tx := by
  have h : (chunk opn id (openAnswer (cenv e) id token tx req 0 lifetime)).take 3 = opn := rfl
  unfold txOf
  rw [if_pos h]
  show word (chunk [0x4F, 0x50, 0x4E] id _) (12 + 59) = _
  rw [word_chunk, Channel.openAnswer_tx]

/-- What the answer to an open request says. -/
theorem open_content (e : PEnv) (id token tx req lifetime : UInt32) : ∃ (sec : UaSecurityHeader) (rsp : UaOpenSecureChannelRsp),
    chunk opn id (openAnswer (cenv e) id token tx req 0 lifetime) = chunk opn id (wire sec ++ (leBytes 4 tx.toNat ++
      (leBytes 4 req.toNat ++ wire (Cont.make 449 rsp)))) ∧ sec.securityPolicyUri = ⟨Channel.policyNone⟩ ∧
      rsp.securityToken.secureChannelId = id ∧ rsp.securityToken.tokenId = token := by
  refine ⟨{ (Ua.init : UaSecurityHeader) with securityPolicyUri := ⟨Channel.policyNone⟩ },
    Channel.openRsp (cenv e) id token 0 lifetime, ?_, rfl, rfl, rfl⟩
  unfold openAnswer
  rw [List.append_assoc]

/-! ## Invariant -/

attribute [local irreducible] Channel.openAnswer frame openRspEnc sendEnc chunk

/-- Everything the log allows. -/
def Right (pre : List PAct) (a : PAct) : Prop :=
  Numbered pre a ∧ (Longs pre → Fresh pre a) ∧ (Longs pre → Addressed pre a)

theorem right_quiet {pre : List PAct} {a : PAct} (h : match a with
    | .sent _ _ => False
    | .note (.request _) => False
    | _ => True) : Right pre a := by
  cases a with
  | sent _ _ => exact h.elim
  | note n =>
    cases n with
    | request _ => exact h.elim
    | _ => exact ⟨trivial, fun _ => trivial, fun _ => trivial⟩
  | _ => exact ⟨trivial, fun _ => trivial, fun _ => trivial⟩

structure Base (p : Peer) : Prop where
  num : p.tx = UInt32.ofNat (count p.log + 1)
  id : live p.log = true → chanId p.log = some p.id
  ok : AllOk (Right) p.log

/-- The channel expects what the window says. -/
def Sync (p : Peer) : Prop := Longs p.log → ∃ b, window p.log = some ⟨some p.token, p.rxSeq, p.reqId, b⟩

/-- No token was issued. -/
def Blank (p : Peer) : Prop := Longs p.log → live p.log = true → ∀ w, window p.log = some w → w.token = none

structure PInv (p : Peer) : Prop where
  base : Base p
  win : p.st = .established → Sync p
  tame : p.st ≠ .established → Blank p

theorem Base.conn {p : Peer} (h : Base p) (c : Conn) : Base { p with conn := c } := ⟨h.num, h.id, h.ok⟩

theorem PInv.conn {p : Peer} (h : PInv p) (c : Conn) : PInv { p with conn := c } := ⟨h.base.conn c, h.win, h.tame⟩

/-- Acts that say nothing about the window. -/
theorem PInv.quiet {p : Peer} (h : PInv p) {a : PAct} (ha : match a with
    | .note .closed => True
    | .note .error => True
    | _ => False) : PInv { p with log := p.log ++ [a] } ∧ live (p.log ++ [a]) = false := by
  cases a with
  | note n =>
    cases n with
    | request _ => exact ha.elim
    | closed =>
      refine ⟨⟨⟨?_, ?_, h.base.ok.snoc (right_quiet trivial)⟩, ?_, ?_⟩, by rw [live_snoc]⟩
      · have := h.base.num; rw [count_snoc]; exact this
      · intro hl; rw [live_snoc] at hl; cases hl
      · intro hs hl; rw [window_snoc]; exact h.win hs hl.left
      · intro _ _ hl; rw [live_snoc] at hl; cases hl
    | error =>
      refine ⟨⟨⟨?_, ?_, h.base.ok.snoc (right_quiet trivial)⟩, ?_, ?_⟩, by rw [live_snoc]⟩
      · have := h.base.num; rw [count_snoc]; exact this
      · intro hl; rw [live_snoc] at hl; cases hl
      · intro hs hl; rw [window_snoc]; exact h.win hs hl.left
      · intro _ _ hl; rw [live_snoc] at hl; cases hl
  | _ => exact ha.elim

/-- A chunk was sent. -/
theorem sent_window {p : Peer} {d : List UInt8} {ok : Bool} : window (p.log ++ [.sent d ok]) = window p.log := by
  rw [window_snoc]; rfl

theorem sent_live {p : Peer} {d : List UInt8} {ok : Bool} : live (p.log ++ [.sent d ok]) = live p.log := by
  rw [live_snoc]

theorem Base.sent {p : Peer} (h : Base p) {d : List UInt8} {ok : Bool} (hn : txOf d = p.tx)
    (ha : Longs p.log → Addressed p.log (.sent d ok)) : Base { p with tx := p.tx + 1, log := p.log ++ [.sent d ok] } where
  num := by
    rw [count_snoc]
    show p.tx + 1 = UInt32.ofNat (count p.log + 1 + 1)
    rw [h.num]
    apply UInt32.toNat_inj.mp
    simp [UInt32.toNat_add]
  id hl := by
    rw [live_snoc] at hl
    rw [chanId_snoc]
    exact h.id hl
  ok := h.ok.snoc ⟨by show txOf d = _; rw [hn, h.num], fun _ => trivial, ha⟩

theorem PInv.sent {p : Peer} (h : PInv p) {d : List UInt8} {ok : Bool} (hn : txOf d = p.tx)
    (ha : Longs p.log → Addressed p.log (.sent d ok)) : PInv { p with tx := p.tx + 1, log := p.log ++ [.sent d ok] } where
  base := h.base.sent hn ha
  win hs hl := by
    rw [sent_window]
    exact h.win hs hl.left
  tame hs hl hv w hw := by
    rw [sent_live] at hv
    rw [sent_window] at hw
    exact h.tame hs hl.left hv w hw

/-! ## Operations -/

/-- What the connection does is not looked at. -/
def Free (P : Peer → Prop) : Prop := ∀ p c, P p → P { p with conn := c }

theorem tri_conn {α : Type} {T P : Peer → Prop} {m : CM α} (hp : Free P) (ht : ∀ p, P p → T p) :
    STri T P (onConn m) (fun _ => P) := by
  intro p h
  have h1 := hp p (m p.conn).2 h
  unfold onConn
  rcases hm : (m p.conn).1 with a | _ | _ | _
  · exact h1
  · exact ht _ h1
  · trivial
  · trivial

theorem tri_decode {α : Type} {T P : Peer → Prop} {e : PEnv} {d : Codec α} (hp : Free P) (ht : ∀ p, P p → T p) :
    STri T P (decode e d) (fun _ => P) := by
  intro p h
  unfold decode
  rcases hm : d p.conn.rx with a | _ | _ | _
  · exact hp p _ h
  · exact ht _ (hp p _ h)
  · trivial
  · trivial

theorem free_inv : Free (PInv) := fun _ c h => h.conn c

theorem transmit_run (e : PEnv) (d : List UInt8) (p : Peer) : (∃ c r, transmit e d p =
    (.ok r, { p with conn := c, log := p.log ++ [.sent d (r == .done)] })) ∨ (transmit e d p).1 = .ub := by
  unfold transmit
  rw [bind_run]
  unfold onConn
  by_cases hl : p.conn.link = true
  · refine .inl ?_
    by_cases hw : (p.conn.opened && e.env.writes) = true
    · have : Uscada.Ua.send e.env d p.conn = (.ok .done, { p.conn with log := p.conn.log ++ [.sent d] }) := by
        unfold Uscada.Ua.send
        rw [if_pos hl, if_pos hw]
      rw [this]
      exact ⟨_, _, rfl⟩
    · have : Uscada.Ua.send e.env d p.conn = (.ok .error, p.conn) := by
        unfold Uscada.Ua.send
        rw [if_pos hl, if_neg hw]
      rw [this]
      exact ⟨_, _, rfl⟩
  · have : Uscada.Ua.send e.env d p.conn = (.ub, p.conn) := by
      unfold Uscada.Ua.send
      rw [if_neg hl]
    rw [this]
    exact .inr rfl

theorem spost_ub {α : Type} {T : Peer → Prop} {Q : α → Peer → Prop} {r : Exec α × Peer} (h : r.1 = .ub) : SPost T Q r := by
  obtain ⟨x, y⟩ := r
  simp only at h
  subst h
  trivial

/-- A call of `send`. -/
theorem userSend_run (e : PEnv) (data : List UInt8) (p : Peer) : (∃ c ok, userSend e data p = (.ok (), { p with
      conn := c, tx := p.tx + 1, log := p.log ++ [.sent (chunk msg p.id (leBytes 4 p.token.toNat ++
        (leBytes 4 p.tx.toNat ++ leBytes 4 p.reqId.toNat ++ data))) ok] })) ∨ (userSend e data p).1 = .ub := by
  unfold userSend
  show (∃ c ok, (SM.get >>= _) p = _) ∨ Prod.fst ((SM.get >>= _) p) = _
  rw [bind_ok (show SM.get p = (.ok p, p) from rfl), bind_ok (show SM.modify _ p = (.ok (), { p with tx := p.tx + 1 }) from rfl)]
  rcases frame_chunk (send_writes p.id p.token p.tx p.reqId data) with ⟨hf, _⟩ | hf
  · rw [bind_ok (lift_ok hf _)]
    rcases transmit_run e (chunk msg p.id (leBytes 4 p.token.toNat ++
        (leBytes 4 p.tx.toNat ++ leBytes 4 p.reqId.toNat ++ data))) { p with tx := p.tx + 1 } with ⟨c, r, hr⟩ | hr
    · refine .inl ⟨c, r == .done, ?_⟩
      show (transmit e (chunk msg p.id _) >>= _) _ = _
      rw [bind_ok hr]
      rfl
    · refine .inr ?_
      show Prod.fst ((transmit e (chunk msg p.id _) >>= _) _) = _
      rw [bind_run]
      rcases hx : transmit e (chunk msg p.id (leBytes 4 p.token.toNat ++
        (leBytes 4 p.tx.toNat ++ leBytes 4 p.reqId.toNat ++ data))) { p with tx := p.tx + 1 } with ⟨x, y⟩
      rw [hx] at hr
      simp only at hr
      subst hr
      rfl
  · refine .inr ?_
    rw [bind_run, hf]
    rfl

theorem PInv.addressed {p : Peer} (h : PInv p) (data : List UInt8) (ok : Bool) (hl : Longs p.log) :
    Addressed p.log (.sent (chunk msg p.id (leBytes 4 p.token.toNat ++ (leBytes 4 p.tx.toNat ++ leBytes 4 p.reqId.toNat ++ data)))
      ok) := by
  intro w t hv hw ht
  by_cases hs : p.st = .established
  · obtain ⟨b, hb⟩ := h.win hs hl
    rw [hb] at hw
    injection hw with hw
    subst hw
    injection ht with ht
    subst ht
    refine ⟨p.id, p.tx.toNat, h.base.id hv, .inl ⟨data, ?_⟩⟩
    rw [List.append_assoc]
  · rw [h.tame hs hl hv w hw] at ht
    cases ht

/-! ## Calls of the user -/

theorem tri_send (e : PEnv) (data : List UInt8) {T : Peer → Prop} {P : Peer → Prop} (hp : ∀ p c d ok, P p → P { p with
    conn := c, tx := p.tx + 1, log := p.log ++ [.sent d ok] }) : STri T (fun p => PInv p ∧ P p) (userSend e data)
    (fun _ p => PInv p ∧ P p) := by
  intro p h
  rcases userSend_run e data p with ⟨c, ok, hr⟩ | hr
  · rw [hr]
    exact ⟨(h.1.sent (txOf_send ..) (fun hl => h.1.addressed data ok hl)).conn c, hp p c _ ok h.2⟩
  · exact spost_ub hr

/-- `open` on an idle channel. -/
theorem PInv.opening {p : Peer} (h : PInv p) (i : UInt32) (hs : p.st = .init) :
    PInv { p with id := i, log := p.log ++ [.opening i] } where
  base := by
    refine ⟨?_, ?_, h.base.ok.snoc (right_quiet trivial)⟩
    · have := h.base.num; rw [count_snoc]; exact this
    · intro _; rw [chanId_snoc]
  win h1 := by
    have h1 : p.st = .established := h1
    rw [hs] at h1
    cases h1
  tame _ _ _ w hw := by
    rw [window_snoc] at hw
    cases hw

theorem tri_open (e : PEnv) : STri (PInv) (PInv) (userOpen e) (fun _ => PInv) := by
  refine STri.get fun p hp => ?_
  cases hs : p.st with
  | init =>
    have h1 := hp.opening e.id hs
    have h2 : STri (PInv) (fun p => PInv p ∧ p.st = .init) (onConn (userAccept e.env) >>= fun _ =>
        SM.modify fun p => { p with st := .connecting }) (fun _ => PInv) := by
      refine STri.bind (R := fun _ p => PInv p ∧ p.st = .init) (tri_conn (fun p c h => ⟨h.1.conn c, h.2⟩) fun _ h => h.1) fun _ => ?_
      refine STri.modify fun p h => ⟨⟨h.1.base.num, h.1.base.id, h.1.base.ok⟩, (fun h1 => by cases h1), fun _ => ?_⟩
      exact h.1.tame (by rw [h.2]; simp)
    exact h2 { p with id := e.id, log := p.log ++ [.opening e.id] } ⟨h1, hs⟩
  | _ => exact hp

/-- The channel is about to end. -/
def Ending (p : Peer) : Prop := PInv p ∧ (live p.log = false ∧ p.st ≠ .init)

theorem tri_call (e : PEnv) (x : PCall) : STri (PInv) (PInv) (call e x) (fun _ => PInv) := by
  cases x with
  | «open» => exact tri_open e
  | send data => exact (tri_send e data (P := fun _ => True) fun _ _ _ _ _ => trivial).weaken (fun _ h => ⟨h, trivial⟩) fun _ _ h => h.1
  | consume n => exact tri_conn free_inv fun _ h => h
  | fail => exact STri.throws fun _ h => h

theorem tri_call_ending (e : PEnv) (x : PCall) : STri (PInv) (Ending) (call e x) (fun _ => Ending) := by
  cases x with
  | «open» =>
    refine STri.get fun p hp => ?_
    cases hs : p.st with
    | init => exact absurd hs hp.2.2
    | _ => exact hp
  | send data =>
    refine tri_send e data (P := fun p => live p.log = false ∧ p.st ≠ .init) fun p c d ok h => ⟨?_, h.2⟩
    rw [live_snoc]
    exact h.1
  | consume n => exact tri_conn (fun p c h => ⟨h.1.conn c, h.2⟩) fun _ h => h.1
  | fail => exact STri.throws fun _ h => h.1

theorem tri_calls (e : PEnv) (xs : List PCall) : STri (PInv) (PInv) (calls e xs) (fun _ => PInv) := by
  induction xs with
  | nil => exact STri.ret fun _ h => h
  | cons x xs ih => exact STri.bind (tri_call e x) fun _ => ih

theorem tri_calls_ending (e : PEnv) (xs : List PCall) : STri (PInv) (Ending) (calls e xs) (fun _ => Ending) := by
  induction xs with
  | nil => exact STri.ret fun _ h => h
  | cons x xs ih => exact STri.bind (tri_call_ending e x) fun _ => ih

theorem tri_toInit {T : Peer → Prop} : STri T (Ending) toInit (fun _ => PInv) :=
  STri.modify fun p h => ⟨⟨h.1.base.num, h.1.base.id, h.1.base.ok⟩, (fun h1 => by cases h1), fun _ _ hl => by
    have h2 := h.2.1
    have hl : live p.log = true := hl
    rw [h2] at hl
    cases hl⟩

/-- The two notifications that end a channel. -/
def Final (n : PNote) : Prop := n = .closed ∨ n = .error

theorem tri_notify_end (e : PEnv) {n : PNote} (hn : Final n) : STri (PInv) (fun p => PInv p ∧ p.st ≠ .init) (notify e n)
    (fun _ => Ending) := by
  refine STri.bind (R := fun _ => Ending) (STri.modify fun p h => ?_) fun _ => tri_calls_ending e _
  rcases hn with hn | hn
  · subst hn
    have := h.1.quiet (a := .note .closed) trivial
    exact ⟨this.1, this.2, h.2⟩
  · subst hn
    have := h.1.quiet (a := .note .error) trivial
    exact ⟨this.1, this.2, h.2⟩

theorem tri_finish (e : PEnv) {n : PNote} (hn : Final n) : STri (PInv) (fun p => PInv p ∧ p.st ≠ .init) (finish e n)
    (fun _ => PInv) := by
  refine STri.bind (tri_notify_end e hn) fun _ => ?_
  refine STri.bind (R := fun _ => Ending) (tri_conn (fun p c h => ⟨h.1.conn c, h.2⟩) fun _ h => h.1) fun _ => tri_toInit

theorem tri_handleEnd (e : PEnv) {n : PNote} (hn : Final n) : STri (PInv) (PInv) (handleEnd e n) (fun _ => PInv) := by
  refine STri.get fun p hp => ?_
  have h : STri (PInv) (fun p => PInv p ∧ p.st ≠ .init) (notify e n >>= fun _ => toInit) (fun _ => PInv) :=
    STri.bind (tri_notify_end e hn) fun _ => tri_toInit
  cases hs : p.st with
  | init => exact hp
  | _ => exact h p ⟨hp, by rw [hs]; simp⟩

theorem tri_handleConnected : STri (PInv) (PInv) handleConnected (fun _ => PInv) := by
  refine STri.get fun p hp => ?_
  cases hs : p.st with
  | connecting =>
    exact ⟨⟨hp.base.num, hp.base.id, hp.base.ok⟩, (fun h1 => by cases h1), fun _ => hp.tame (by rw [hs]; simp)⟩
  | _ => exact hp

/-! ## Messages -/

theorem typeIs_take {b : Buf} {x y z : UInt8} (h : 3 ≤ b.size) : typeIs b x y z = decide (b.bytes.take 3 = [x, y, z]) := by
  have e : b.size = 3 + (b.size - 3) := by omega
  have : b.bytes.take 3 = [b.packet b.tail, b.packet (b.tail + 1), b.packet (b.tail + 2)] := by
    unfold Buf.bytes
    rw [e, memRead_split, List.take_append_of_le_length (by rw [MsgStorage.length_memRead]; omega)]
    rfl
  rw [this]
  unfold typeIs byteIs
  simp only [Nat.add_zero, List.cons.injEq, and_true, Bool.decide_and]
  rw [Bool.and_assoc]
  rfl

theorem sees_token (w : Window) (d : List UInt8) : (w.sees d).token = w.token := by
  unfold Window.sees
  split
  · split <;> rfl
  · rfl

theorem sees_other {w : Window} {d : List UInt8} (h : d.take 3 ≠ msg) : ∃ b, w.sees d = { w with accepted := b } := by
  unfold Window.sees
  by_cases h1 : w.token = some (word d 12) ∧ word d 16 = w.seq + 1
  · rw [if_pos h1, if_neg h]
    exact ⟨_, rfl⟩
  · rw [if_neg h1]
    exact ⟨_, rfl⟩

theorem Base.got {p : Peer} (h : Base p) (d : List UInt8) : Base { p with log := p.log ++ [.got d] } := by
  refine ⟨?_, ?_, h.ok.snoc (right_quiet trivial)⟩
  · have := h.num; rw [count_snoc]; exact this
  · intro hl; rw [live_snoc] at hl; rw [chanId_snoc]; exact h.id hl

theorem PInv.got {p : Peer} (h : PInv p) {d : List UInt8} (hd : p.st = .established → Longs (p.log ++ [.got d]) →
    d.take 3 ≠ msg) : PInv { p with log := p.log ++ [.got d] } where
  base := h.base.got d
  win hs hl := by
    obtain ⟨b, hb⟩ := h.win hs hl.left
    obtain ⟨b', hb'⟩ := sees_other (w := ⟨some p.token, p.rxSeq, p.reqId, b⟩) (hd hs hl)
    refine ⟨b', ?_⟩
    rw [window_snoc, hb]
    exact congrArg some hb'
  tame hs hl hv w hw := by
    rw [live_snoc] at hv
    rw [window_snoc] at hw
    have hw : (window p.log).map (·.sees d) = some w := hw
    rcases ho : window p.log with _ | w0
    · rw [ho] at hw; cases hw
    · rw [ho] at hw
      injection hw with hw
      rw [← hw, sees_token]
      exact h.tame hs hl.left hv w0 ho

/-- What an open request leaves behind. -/
def Moved (p : Peer) : Prop :=
  PInv p ∧ p.st ≠ .init ∧ ∃ t b, window p.log = some ⟨t, p.rxSeq, p.reqId, b⟩

theorem tri_receiveOpen (e : PEnv) : STri (PInv) (fun p => PInv p ∧ p.st ≠ .init) (receiveOpen e) (fun _ => Moved) := by
  have hfree : Free (fun p => PInv p ∧ p.st ≠ .init) := fun p c h => ⟨h.1.conn c, h.2⟩
  have ht : ∀ p, (PInv p ∧ p.st ≠ .init) → PInv p := fun _ h => h.1
  refine STri.bind (tri_decode hfree ht) fun _ => ?_
  refine STri.bind (tri_decode hfree ht) fun _ => ?_
  refine STri.bind (tri_decode hfree ht) fun q => ?_
  have hmoved : STri (PInv) (fun p => PInv p ∧ p.st ≠ .init) (do
      SM.modify fun p => { p with rxSeq := q.sequenceNumber, reqId := q.requestId }
      act (.moved q.sequenceNumber q.requestId)) (fun _ => Moved) := by
    rintro p ⟨h, hs⟩
    have hw : window (p.log ++ [.moved q.sequenceNumber q.requestId]) =
      some ⟨(window p.log).bind (·.token), q.sequenceNumber, q.requestId, false⟩ := by rw [window_snoc]; rfl
    refine ⟨⟨⟨?_, ?_, h.base.ok.snoc (right_quiet trivial)⟩, ?_, ?_⟩, hs, _, _, hw⟩
    · have := h.base.num; rw [count_snoc]; exact this
    · intro hl; rw [live_snoc] at hl; rw [chanId_snoc]; exact h.base.id hl
    · intro h1 hl
      obtain ⟨b, hb⟩ := h.win h1 hl.left
      refine ⟨false, ?_⟩
      rw [hw, hb]
      rfl
    · intro h1 hl hv w hw'
      rw [live_snoc] at hv
      rw [hw] at hw'
      injection hw' with hw'
      subst hw'
      show (window p.log).bind (·.token) = none
      rcases ho : window p.log with _ | w0
      · rfl
      · exact h.tame h1 hl.left hv w0 ho
  have hrest : STri (PInv) (Moved) (decode e (dec (Ua.init : Cont UaOpenSecureChannelReq 446)) >>= fun r =>
      SM.modify fun p => { p with lifetime := r.msg.requestLifetime }) (fun _ => Moved) := by
    refine STri.bind (R := fun _ => Moved) (tri_decode (fun p c h => ⟨h.1.conn c, h.2⟩) fun _ h => h.1) fun r => ?_
    exact STri.modify fun p h => ⟨⟨⟨h.1.base.num, h.1.base.id, h.1.base.ok⟩, h.1.win, h.1.tame⟩, h.2⟩
  rw [← SM.assoc]
  exact STri.bind hmoved fun _ => hrest

/-- A token was issued and the answer is sent. -/
theorem tri_sendOpenRsp (e : PEnv) {T : Peer → Prop} : STri T (Moved) (sendOpenRsp e)
    (fun _ p => Base p ∧ Sync p ∧ p.st ≠ .init) := by
  rintro p ⟨h, hs, t, b, hw⟩
  unfold sendOpenRsp
  rw [bind_ok (show SM.modify _ p = (.ok (), { p with token := e.token }) from rfl),
    bind_ok (show act _ _ = (.ok (), { p with token := e.token, log := p.log ++ [.issued e.token] }) from rfl),
    bind_ok (show SM.get _ = (.ok _, _) from rfl), bind_ok (show SM.modify _ _ = (.ok (), _) from rfl)]
  have hw1 : window (p.log ++ [.issued e.token]) = some ⟨some e.token, p.rxSeq, p.reqId, b⟩ := by
    rw [window_snoc, hw]; rfl
  have hbase : Base { p with token := e.token, log := p.log ++ [.issued e.token] } := by
    refine ⟨?_, ?_, h.base.ok.snoc (right_quiet trivial)⟩
    · have := h.base.num; rw [count_snoc]; exact this
    · intro hl; rw [live_snoc] at hl; rw [chanId_snoc]; exact h.base.id hl
  show SPost T _ ((lift (frame garbage (openRspEnc e p.id e.token p.tx p.reqId p.lifetime)) >>= _) _)
  rcases frame_chunk (open_writes e p.id e.token p.tx p.reqId p.lifetime) with ⟨hf, _⟩ | hf
  · rw [bind_ok (lift_ok hf _)]
    rcases transmit_run e (chunk opn p.id (openAnswer (cenv e) p.id e.token p.tx p.reqId 0 p.lifetime))
      { p with token := e.token, log := p.log ++ [.issued e.token], tx := p.tx + 1 } with ⟨c, r, hr⟩ | hr
    · have hgoal : Base { p with token := e.token, conn := c, tx := p.tx + 1, log := p.log ++ [.issued e.token] ++
            [.sent (chunk opn p.id (openAnswer (cenv e) p.id e.token p.tx p.reqId 0 p.lifetime)) (r == .done)] } ∧
          Sync { p with token := e.token, conn := c, tx := p.tx + 1, log := p.log ++ [.issued e.token] ++
            [.sent (chunk opn p.id (openAnswer (cenv e) p.id e.token p.tx p.reqId 0 p.lifetime)) (r == .done)] } ∧
          p.st ≠ .init := by
        refine ⟨(hbase.sent (ok := r == .done) (txOf_open ..) ?_).conn c, ?_, hs⟩
        · intro _ w t hv hw' ht
          have hw' : window (p.log ++ [.issued e.token]) = some w := hw'
          rw [hw1] at hw'
          injection hw' with hw'
          subst hw'
          injection ht with ht
          subst ht
          exact ⟨p.id, p.tx.toNat, hbase.id hv, .inr (open_content e p.id e.token p.tx p.reqId p.lifetime)⟩
        · intro _
          refine ⟨b, ?_⟩
          show window (p.log ++ [.issued e.token] ++ [.sent _ _]) = _
          rw [window_snoc, hw1]
          rfl
      show SPost T _ ((transmit e (chunk opn p.id _) >>= _) _)
      rw [bind_ok hr]
      cases r <;> exact hgoal
    · show SPost T _ ((transmit e (chunk opn p.id _) >>= _) _)
      refine spost_ub ?_
      rw [bind_run]
      rcases hx : transmit e (chunk opn p.id (openAnswer (cenv e) p.id e.token p.tx p.reqId 0 p.lifetime))
        { p with token := e.token, log := p.log ++ [.issued e.token], tx := p.tx + 1 } with ⟨x, y⟩
      rw [hx] at hr
      simp only at hr
      subst hr
      rfl
  · refine spost_ub ?_
    rw [bind_run, hf]
    rfl

/-- The channel was not told of a token it issued, because the answer could not be sent; it ends now. -/
theorem tri_finish_open (e : PEnv) : STri (PInv) (fun p => Base p ∧ Sync p ∧ p.st ≠ .init) (finish e .error)
    (fun _ => PInv) := by
  have h1 : STri (PInv) (fun p => Base p ∧ Sync p ∧ p.st ≠ .init) (notify e .error) (fun _ => Ending) := by
    refine STri.bind (R := fun _ => Ending) (STri.modify ?_) fun _ => tri_calls_ending e _
    rintro p ⟨hb, hy, hs⟩
    refine ⟨⟨⟨?_, ?_, hb.ok.snoc (right_quiet trivial)⟩, ?_, ?_⟩, by rw [live_snoc], hs⟩
    · have := hb.num; rw [count_snoc]; exact this
    · intro hl; rw [live_snoc] at hl; cases hl
    · intro _ hl; rw [window_snoc]; exact hy hl.left
    · intro _ _ hl; rw [live_snoc] at hl; cases hl
  refine STri.bind h1 fun _ => ?_
  exact STri.bind (R := fun _ => Ending) (tri_conn (fun p c h => ⟨h.1.conn c, h.2⟩) fun _ h => h.1) fun _ => tri_toInit

theorem tri_onOpenReq (e : PEnv) : STri (PInv) (fun p => PInv p ∧ p.st ≠ .init) (onOpenReq e) (fun _ => PInv) := by
  unfold onOpenReq
  refine STri.bind (R := fun _ => Moved) (tri_receiveOpen e) fun _ => ?_
  refine STri.bind (R := fun _ p => Base p ∧ Sync p ∧ p.st ≠ .init) (tri_sendOpenRsp e) fun ok => ?_
  by_cases h : ok = true
  · rw [if_pos h]
    exact STri.modify fun p h => ⟨⟨h.1.num, h.1.id, h.1.ok⟩, fun _ => h.2.1, fun h1 => absurd rfl h1⟩
  · rw [if_neg h]
    exact tri_finish_open e

theorem tri_onCloseReq (e : PEnv) : STri (PInv) (fun p => PInv p ∧ p.st ≠ .init) (onCloseReq e) (fun _ => PInv) := by
  have hfree : Free (fun p => PInv p ∧ p.st ≠ .init) := fun p c h => ⟨h.1.conn c, h.2⟩
  have hg : STri (PInv) (fun p => PInv p ∧ p.st ≠ .init) (receiveGuarded e) (fun _ p => PInv p ∧ p.st ≠ .init) := by
    intro p hp
    rcases guarded_run e p with h | h
    · rw [h]
      split
      · exact hfree p _ hp
      · split
        · exact hfree p _ hp
        · exact hfree p _ hp
    · exact spost_ub h.1
  refine STri.bind hg fun g => ?_
  cases g with
  | none => exact tri_finish e (.inr rfl)
  | some q => exact tri_finish e (.inl rfl)

/-- A message was accepted. -/
theorem PInv.accept {p : Peer} (h : PInv p) (hs : p.st = .established) (c : Conn) {q : UaSequenceHeader}
    (hq : q = ⟨wordAt p.conn.rx 16, wordAt p.conn.rx 20⟩) (hm : Longs (p.log ++ [.got p.conn.rx.bytes]) →
      p.conn.rx.bytes.take 3 = msg) (h1 : wordAt p.conn.rx 12 = p.token) (h2 : wordAt p.conn.rx 16 = p.rxSeq + 1) :
    PInv { p with conn := c, rxSeq := q.sequenceNumber, reqId := q.requestId, log := p.log ++ [.got p.conn.rx.bytes] } ∧
      (Longs (p.log ++ [.got p.conn.rx.bytes]) → ∃ w, window (p.log ++ [.got p.conn.rx.bytes]) = some w ∧ w.accepted = true) := by
  subst hq
  have hw : Longs (p.log ++ [.got p.conn.rx.bytes]) → window (p.log ++ [.got p.conn.rx.bytes]) =
      some ⟨some p.token, wordAt p.conn.rx 16, wordAt p.conn.rx 20, true⟩ := by
    intro hl
    obtain ⟨b, hb⟩ := h.win hs hl.left
    have hsz : 24 ≤ p.conn.rx.size := by
      have h3 := hl p.conn.rx.bytes (by simp)
      unfold Buf.bytes at h3
      rwa [MsgStorage.length_memRead] at h3
    rw [wordAt_eq (by omega)] at h1
    rw [wordAt_eq (by omega)] at h2
    rw [window_snoc, hb, wordAt_eq (by omega), wordAt_eq (by omega)]
    show some (Window.sees _ _) = _
    unfold Window.sees
    rw [if_pos ⟨by rw [h1], h2⟩, if_pos (hm hl), h2]
  refine ⟨⟨⟨(h.base.got _).num, (h.base.got _).id, (h.base.got _).ok⟩, fun _ hl => ⟨true, hw hl⟩, fun h1 => absurd hs h1⟩,
    fun hl => ⟨_, hw hl, rfl⟩⟩

/-- A message was not accepted. -/
theorem PInv.reject {p : Peer} (h : PInv p) (hs : p.st = .established) (c : Conn)
    (h1 : ¬ (wordAt p.conn.rx 12 = p.token ∧ wordAt p.conn.rx 16 = p.rxSeq + 1)) :
    PInv { p with conn := c, log := p.log ++ [.got p.conn.rx.bytes] } := by
  refine ⟨⟨(h.base.got _).num, (h.base.got _).id, (h.base.got _).ok⟩, fun _ hl => ?_, fun h1 => absurd hs h1⟩
  obtain ⟨b, hb⟩ := h.win hs (Longs.left hl)
  have hsz : 24 ≤ p.conn.rx.size := by
    have h3 := hl p.conn.rx.bytes (by simp)
    unfold Buf.bytes at h3
    rwa [MsgStorage.length_memRead] at h3
  rw [wordAt_eq (by omega), wordAt_eq (by omega)] at h1
  refine ⟨false, ?_⟩
  show window (p.log ++ [.got p.conn.rx.bytes]) = _
  rw [window_snoc, hb]
  show some (Window.sees _ _) = _
  unfold Window.sees
  rw [if_neg]
  rintro ⟨h3, h4⟩
  injection h3 with h3
  exact h1 ⟨h3.symm, h4⟩

theorem tri_onMessage (e : PEnv) {p : Peer} (hp : PInv p) (hs : p.st = .established)
    (hm : Longs (p.log ++ [.got p.conn.rx.bytes]) → p.conn.rx.bytes.take 3 = msg) :
    SPost (PInv) (fun _ => PInv) (onMessage e { p with log := p.log ++ [.got p.conn.rx.bytes] }) := by
  unfold onMessage
  rcases guarded_run e { p with log := p.log ++ [.got p.conn.rx.bytes] } with h | h
  · by_cases hc : wordAt p.conn.rx 12 = p.token ∧ wordAt p.conn.rx 16 = p.rxSeq + 1
    · rw [if_pos hc] at h
      rw [bind_ok h]
      obtain ⟨h1, h2⟩ := hp.accept hs { p.conn with rx := p.conn.rx.skip 24 } (q := ⟨_, _⟩) rfl hm hc.1 hc.2
      show SPost _ _ ((SM.modify _ >>= _) _)
      rw [bind_ok (show SM.modify _ _ = (.ok (), { p with
          conn := { p.conn with rx := p.conn.rx.skip 24 }, rxSeq := wordAt p.conn.rx 16, reqId := wordAt p.conn.rx 20,
          log := p.log ++ [.got p.conn.rx.bytes] }) from rfl),
        bind_ok (show SM.get _ = (.ok _, _) from rfl)]
      show SPost _ _ ((act _ >>= _) _)
      rw [bind_ok (show act _ _ = (.ok (), _) from rfl)]
      refine tri_calls e e.react _ ?_
      refine ⟨⟨?_, ?_, h1.base.ok.snoc ⟨trivial, fun hl => ?_, fun _ => trivial⟩⟩, fun hx hl => ?_, fun hx => absurd hs hx⟩
      · have := h1.base.num; rw [count_snoc]; exact this
      · intro hl; rw [live_snoc] at hl; rw [chanId_snoc]; exact h1.base.id hl
      · obtain ⟨w, hw, ha⟩ := h2 hl
        refine ⟨w, p.conn.rx.bytes, hw, ha, by rw [lastGot_snoc], hm hl, ?_⟩
        refine bytes_skip ?_
        have h3 := hl p.conn.rx.bytes (by simp)
        unfold Buf.bytes at h3
        rwa [MsgStorage.length_memRead] at h3
      · rw [window_snoc]
        exact h1.win hx hl.left
    · rw [if_neg hc] at h
      have hx : ∃ b, receiveGuarded e { p with log := p.log ++ [.got p.conn.rx.bytes] } =
          (.ok none, withRx { p with log := p.log ++ [.got p.conn.rx.bytes] } b) := by
        by_cases hc1 : wordAt p.conn.rx 12 = p.token
        · rw [if_pos hc1] at h
          exact ⟨_, h⟩
        · rw [if_neg hc1] at h
          exact ⟨_, h⟩
      obtain ⟨b, hb⟩ := hx
      rw [bind_ok hb]
      exact tri_finish e (.inr rfl) _ ⟨hp.reject hs { p.conn with rx := b } hc, by show p.st ≠ .init; rw [hs]; simp⟩
  · refine spost_ub ?_
    rw [bind_run]
    rcases hx : receiveGuarded e { p with log := p.log ++ [.got p.conn.rx.bytes] } with ⟨x, y⟩
    have h := h.1
    rw [hx] at h
    simp only at h
    subst h
    rfl

theorem tri_handleData (e : PEnv) : STri (PInv) (PInv) (handleData e) (fun _ => PInv) := by
  refine STri.get fun p hp => ?_
  show SPost _ _ ((act (.got p.conn.rx.bytes) >>= _) p)
  rw [bind_ok (show act _ p = (.ok (), { p with log := p.log ++ [.got p.conn.rx.bytes] }) from rfl)]
  have hsz : Longs (p.log ++ [.got p.conn.rx.bytes]) → 3 ≤ p.conn.rx.size := by
    intro hl
    have h3 := hl p.conn.rx.bytes (by simp)
    unfold Buf.bytes at h3
    rw [MsgStorage.length_memRead] at h3
    omega
  have hne : typeIs p.conn.rx 0x4D 0x53 0x47 = false → PInv { p with log := p.log ++ [.got p.conn.rx.bytes] } := by
    intro ht
    refine hp.got fun _ hl => ?_
    rw [typeIs_take (hsz hl)] at ht
    exact of_decide_eq_false ht
  have hother : p.st ≠ .established → PInv { p with log := p.log ++ [.got p.conn.rx.bytes] } :=
    fun hs => hp.got fun h => absurd h hs
  by_cases ho : typeIs p.conn.rx 0x4F 0x50 0x4E = true
  · have h1 := hne (by
      simp only [typeIs, byteIs, Bool.and_eq_true, beq_iff_eq] at ho
      simp only [typeIs, byteIs, ho.1.1]
      rfl)
    rw [if_pos ho]
    cases hs : p.st with
    | waiting => rw [hs] at h1; exact tri_onOpenReq e _ ⟨h1, by simp⟩
    | established => rw [hs] at h1; exact tri_onOpenReq e _ ⟨h1, by simp⟩
    | init => rw [hs] at h1; exact h1
    | connecting => rw [hs] at h1; exact h1
  · rw [if_neg ho]
    by_cases hc : typeIs p.conn.rx 0x43 0x4C 0x4F = true
    · have h1 := hne (by
        simp only [typeIs, byteIs, Bool.and_eq_true, beq_iff_eq] at hc
        simp only [typeIs, byteIs, hc.1.1]
        rfl)
      rw [if_pos hc]
      cases hs : p.st with
      | established => rw [hs] at h1; exact tri_onCloseReq e _ ⟨h1, by simp⟩
      | _ => rw [hs] at h1; exact h1
    · rw [if_neg hc]
      by_cases hm : typeIs p.conn.rx 0x4D 0x53 0x47 = true
      · rw [if_pos hm]
        cases hs : p.st with
        | established =>
          have h1 := tri_onMessage e hp hs fun hl => by
            rw [typeIs_take (hsz hl)] at hm
            exact of_decide_eq_true hm
          rw [hs] at h1
          exact h1
        | _ => have h1 := hother (by rw [hs]; simp); rw [hs] at h1; exact h1
      · rw [if_neg hm]
        exact hne (by simpa using hm)

/-! ## Events -/

theorem tri_toConnected (e : PEnv) : STri (PInv) (PInv) (toConnected e) (fun _ => PInv) := by
  have hc : ∀ {α : Type} (m : CM α), STri (PInv) (PInv) (onConn m) (fun _ => PInv) := fun m => tri_conn free_inv fun _ h => h
  refine STri.get fun p hp => ?_
  by_cases hs : p.conn.st = .connected
  · rw [if_pos hs]
    exact hp
  · rw [if_neg hs]
    refine STri.bind (hc _) (fun _ => STri.bind (hc _) fun _ => STri.bind (hc _) fun _ => STri.bind tri_handleConnected
      fun _ => STri.bind (hc _) fun _ => hc _) p hp

theorem tri_closeAndReport (e : PEnv) : STri (PInv) (PInv) (closeAndReport e) (fun _ => PInv) := by
  have hc : ∀ {α : Type} (m : CM α), STri (PInv) (PInv) (onConn m) (fun _ => PInv) := fun m => tri_conn free_inv fun _ h => h
  exact STri.bind (hc _) fun _ => STri.bind (hc _) fun _ => STri.bind (tri_handleEnd e (.inr rfl)) fun _ => hc _

theorem tri_event (e : PEnv) (v : Ev) : STri (PInv) (PInv) (event e v) (fun _ => PInv) := by
  have hc : ∀ {α : Type} (m : CM α), STri (PInv) (PInv) (onConn m) (fun _ => PInv) := fun m => tri_conn free_inv fun _ h => h
  cases v with
  | user c => exact tri_call e c
  | linkError => exact hc _
  | linkData =>
    refine STri.get fun p hp => ?_
    cases hs : p.conn.st with
    | handshake =>
      refine STri.bind (hc _) (fun x => ?_) p hp
      cases x with
      | noerror => exact STri.ret fun _ h => h
      | error => exact tri_closeAndReport e
      | done =>
        refine STri.bind (hc _) fun y => ?_
        cases y with
        | noerror => exact STri.ret fun _ h => h
        | error => exact tri_closeAndReport e
        | done => exact tri_toConnected e
    | connected =>
      refine STri.bind (hc _) (fun x => ?_) p hp
      cases x with
      | noerror => exact STri.ret fun _ h => h
      | error => exact tri_closeAndReport e
      | done => exact STri.bind (hc _) fun _ => STri.bind (tri_handleData e) fun _ => hc _
    | _ => exact hp
  | timer =>
    refine STri.bind (hc _) fun _ => STri.get fun p hp => ?_
    cases hs : p.conn.st with
    | handshake => exact tri_closeAndReport e p hp
    | connected =>
      exact STri.bind (hc _) (fun _ => STri.bind (hc _) fun _ => STri.bind (tri_handleEnd e (.inl rfl)) fun _ => hc _) p hp
    | _ => exact hp

/-! ## Histories -/

/-- `p` is the state of a channel after some history, whatever the constructor left in its members. -/
def From (es : List (PEnv × Ev)) (p : Peer) : Prop :=
  ∃ m id rxSeq reqId lifetime token, (Peer.create m id rxSeq reqId lifetime token).run es = .ok p

theorem create_pinv (m : Mem) (id rxSeq reqId lifetime token : UInt32) :
    PInv (Peer.create m id rxSeq reqId lifetime token) :=
  ⟨⟨rfl, (fun h => by cases h), AllOk.nil⟩, (fun h => by cases h), (fun _ _ h => by cases h)⟩

theorem run_keeps {P : Peer → Prop} {G : PEnv → Prop} (h : ∀ e v, G e → STri P P (event e v) (fun _ => P)) {es : List (PEnv × Ev)}
    (hg : ∀ x ∈ es, G x.1) {p p' : Peer} (hp : P p) (hr : p.run es = .ok p') : P p' := by
  induction es generalizing p with
  | nil => cases hr; exact hp
  | cons x xs ih =>
    obtain ⟨e, v⟩ := x
    obtain ⟨q, h1, h2⟩ := Exec.bind_eq_ok.1 hr
    refine ih (fun y hy => hg y (List.mem_cons_of_mem _ hy)) ?_ h2
    rcases settle_ok (h e v (hg _ List.mem_cons_self) p hp) h1 with h3 | ⟨_, h3⟩
    · exact h3
    · exact h3

theorem from_pinv {es : List (PEnv × Ev)} {p : Peer} (h : From es p) : PInv p := by
  obtain ⟨m, id, rxSeq, reqId, lifetime, token, hr⟩ := h
  exact run_keeps (G := fun _ => True) (fun e v _ => tri_event e v) (fun _ _ => trivial) (create_pinv ..) hr

theorem AllOk.prefix {P Q : List PAct → PAct → Prop} {l : List PAct} (h : AllOk P l) (hl : Longs l)
    (hpq : ∀ pre a, Longs pre → P pre a → Q pre a) : AllOk Q l := by
  intro pre a post e
  refine hpq _ _ (fun d hd => hl d ?_) (h pre a post e)
  rw [e]
  exact List.mem_append_left _ hd

variable {es : List (PEnv × Ev)} {p : Peer}

/-- C33: the user of the channel is told of a request only if the chunk delivered last is a message that carries the token
issued last and the number after the one accepted last, and is given what stands behind the header.  `_partial`: all chunks
delivered hold at least the header (`C33_library_short_violated`), and the number accepted last may come from an open request
that was not answered (`C33_library_replay_violated`). -/
theorem C33_library_partial (h : From es p) (hl : Longs p.log) : AllOk Fresh p.log :=
  AllOk.prefix (from_pinv h).base.ok hl fun _ _ h1 h2 => h2.2.1 h1

/-- C34: the chunks the channel sends are numbered 1, 2, 3, ... (modulo 2^32), for ever and in every history. -/
theorem C34_library (h : From es p) : AllOk Numbered p.log :=
  (from_pinv h).base.ok.mono fun _ _ h => h.1

/-- C57: what a channel sends after its first answer, while it is in use, carries the channel identifier chosen when it was
opened, the token issued last, and the identifier of the request accepted last; an answer to an open request also repeats
identifier and token in its body.  `_partial`: all chunks delivered hold at least the header. -/
theorem C57_addressed_partial (h : From es p) (hl : Longs p.log) : AllOk Addressed p.log :=
  AllOk.prefix (from_pinv h).base.ok hl fun _ _ h1 h2 => h2.2.2 h1

end Uscada.Ua.Peer
