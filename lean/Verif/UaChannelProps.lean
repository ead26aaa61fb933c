import Verif.History
import Verif.UaStdLaws
import Verif.UaChannel
import Verif.UaFramingProps
import Verif.UaMessagesProps
/-!
# C33, C34, C37, C38, C44, C46, C48, C49 for `ua/securechannel`

The claims are about the log of a channel: `AllOk P log` says that every act of the log was allowed by `P`, which sees
the acts before it.  What `P` looks at (the owner, the last message delivered, the last accepted sequence number, ...) is
computed from the log alone.
-/

namespace Uscada.Ua.Channel

open SM Ent

/-! ## Specification -/

/-- The 32-bit number at offset `i`, least significant byte first. -/
def word (d : List UInt8) (i : Nat) : UInt32 := UInt32.ofNat (leValue ((d.drop i).take 4))

/-- The message delivered last. -/
def lastGot (l : List CAct) : Option CIn := l.foldl (fun o a => match a with
  | .got m => some m
  | _ => o) none

/-- The connection that opened the channel, until the channel ends. -/
def owner (l : List CAct) : Option UInt32 := l.foldl (fun o a => match a with
  | .opened c _ _ => some c
  | .released => none
  | _ => o) none

/-- The session the channel is bound to. -/
def bound (l : List CAct) : Option UInt32 := l.foldl (fun o a => match a with
  | .associated s => some s
  | .released => none
  | _ => o) none

/-- Token, last accepted sequence number, and whether the message delivered last was accepted. -/
structure Window where
  owner : UInt32
  token : UInt32
  seq : UInt32
  accepted : Bool
deriving DecidableEq, Repr

/-- A message is accepted if it comes from the owner, carries the token, and has the next sequence number. -/
def Window.sees (w : Window) (c : UInt32) (d : List UInt8) : Window :=
  if c = w.owner ∧ word d 0 = w.token ∧ word d 4 = w.seq + 1 then { w with seq := w.seq + 1, accepted := true }
  else { w with accepted := false }

def Window.step (o : Option Window) (a : CAct) : Option Window :=
  match a with
  | .opened c t s => some ⟨c, t, s, false⟩
  | .released => none
  | .got (.message c _ d) => o.map (·.sees c d)
  | .got (.close c _ d) => o.map (·.sees c d)
  | .got _ => o.map ({ · with accepted := false })
  | _ => o

def window (l : List CAct) : Option Window := l.foldl Window.step none

/-- The sequence number of a sent message.  In the answer to an open request it stands behind the security header of 59
bytes. -/
def txOf : CAct → Option UInt32
  | .openRsp _ _ d => some (word d 59)
  | .closeRsp _ _ d => some (word d 4)
  | .sendReq _ _ d => some (word d 4)
  | _ => none

/-- The sequence number sent last since the channel was opened. -/
def lastTx (l : List CAct) : Option UInt32 := l.foldl (fun o a => match a with
  | .opened _ _ _ => none
  | .released => none
  | a => match txOf a with
    | some n => some n
    | none => o) none

/-- C37: what a channel passes on. -/
def Serves (k : Nat) (pre : List CAct) (a : CAct) : Prop :=
  match a with
  | .up h _ => owner pre = some h.connectionId ∧ h.secureChannelId = UInt32.ofNat k ∧
      ∃ d, lastGot pre = some (.message h.connectionId (UInt32.ofNat k) d)
  | .openRsp c ch _ => owner pre = some c ∧ ch = UInt32.ofNat k ∧ ∃ d, lastGot pre = some (.open c d)
  | .closeRsp c ch _ => owner pre = some c ∧ ch = UInt32.ofNat k ∧ ∃ d, lastGot pre = some (.close c ch d)
  | .sendReq c ch _ => owner pre = some c ∧ ch = UInt32.ofNat k ∧
      ∃ h d, lastGot pre = some (.send h d) ∧ h.connectionId = c ∧ h.secureChannelId = ch
  | .associated s => ∃ h, lastGot pre = some (.associate h) ∧ owner pre = some h.connectionId ∧
      h.secureChannelId = UInt32.ofNat k ∧ h.sessionId = s
  | _ => True

/-- C33: only accepted messages are passed on or answered, with the request id and the payload of the message. -/
def Fresh (pre : List CAct) (a : CAct) : Prop :=
  match a with
  | .up h p => ∃ w c ch d, window pre = some w ∧ w.accepted = true ∧ lastGot pre = some (.message c ch d) ∧
      word d 8 = h.requestId ∧ p.take (d.length - 12) = d.drop 12
  | .closeRsp _ _ _ => ∃ w, window pre = some w ∧ w.accepted = true
  | _ => True

/-- C34: consecutive numbers. -/
def Consecutive (pre : List CAct) (a : CAct) : Prop := ∀ m n, lastTx pre = some m → txOf a = some n → n = m + 1

/-- C34: the first number of a channel. -/
def First (pre : List CAct) (a : CAct) : Prop := ∀ n, lastTx pre = none → txOf a = some n →
  n = if CAct.released ∈ pre then 0 else 1

/-- C49: the session in the header of what is passed up, and of the answers that are sent. -/
def Bound (pre : List CAct) (a : CAct) : Prop :=
  match a with
  | .up h _ => h.sessionId = (bound pre).getD 0x7FFFFFFF
  | .sendReq _ _ _ => ∀ s, bound pre = some s → ∃ h d, lastGot pre = some (.send h d) ∧ h.sessionId = s
  | _ => True

/-- C38: the messages at which a channel ends. -/
def Ends (pre : List CAct) (a : CAct) : Prop :=
  match a with
  | .released => ∃ m, lastGot pre = some m ∧ match m with
    | .close _ _ _ => True
    | .released _ _ => True
    | .message _ _ _ => True
    | _ => False
  | _ => True

/-- C38: a message ends a channel only if it is not accepted. -/
def Rejected (pre : List CAct) (a : CAct) : Prop :=
  match a with
  | .released => ∀ c ch d, lastGot pre = some (.message c ch d) → ∃ w, window pre = some w ∧ w.accepted = false
  | _ => True

/-- C48: an identifier is given back only by an open channel, and taken only by a closed one. -/
def Paired (pre : List CAct) (a : CAct) : Prop :=
  match a with
  | .opened _ _ _ => owner pre = none
  | .released => owner pre ≠ none
  | _ => True

/-- Everything a log must satisfy; `A` switches on the claims that need messages of at least 12 bytes. -/
def Right (A : Prop) (k : Nat) (pre : List CAct) (a : CAct) : Prop :=
  Serves k pre a ∧ (A → Fresh pre a ∧ Rejected pre a) ∧ Consecutive pre a ∧ First pre a ∧ Bound pre a ∧ Ends pre a ∧ Paired pre a

section snoc

variable (l : List CAct) (a : CAct)

theorem lastGot_snoc : lastGot (l ++ [a]) = match a with
    | .got m => some m
    | _ => lastGot l := by
  simp [lastGot, List.foldl_append]

theorem owner_snoc : owner (l ++ [a]) = match a with
    | .opened c _ _ => some c
    | .released => none
    | _ => owner l := by
  simp [owner, List.foldl_append]

theorem bound_snoc : bound (l ++ [a]) = match a with
    | .associated s => some s
    | .released => none
    | _ => bound l := by
  simp [bound, List.foldl_append]

theorem window_snoc : window (l ++ [a]) = Window.step (window l) a := by
  simp [window, List.foldl_append]

theorem lastTx_snoc : lastTx (l ++ [a]) = match a with
    | .opened _ _ _ => none
    | .released => none
    | a => match txOf a with
      | some n => some n
      | none => lastTx l := by
  simp [lastTx, List.foldl_append]

end snoc

/-! ## Decoding and encoding -/

theorem u32_run (old : UInt32) (b : Buf) (h : b.tail + 4 ≤ 4096) :
    dec old b = .ok (word (memRead b.packet b.tail 4) 0, b.skip 4) := by
  have e : (dec old : Codec UInt32) b = .ok ((b.packet (b.tail + 3)).toUInt32 <<< 24 ||| (b.packet (b.tail + 2)).toUInt32 <<< 16
      ||| (b.packet (b.tail + 1)).toUInt32 <<< 8 ||| (b.packet b.tail).toUInt32, b.skip 4) := by
    show (do let a ← read; let b ← read; let c ← read; let d ← read; pure (d.toUInt32 <<< 24 ||| c.toUInt32 <<< 16 |||
      b.toUInt32 <<< 8 ||| a.toUInt32) : Codec UInt32) b = _
    have hr : ∀ x : Buf, x.tail < 4096 → read x = .ok (x.packet x.tail, x.skip 1) := fun x hx => if_pos hx
    rw [Codec.bind_run, hr b (by omega), Exec.ok_bind, Codec.bind_run, hr (b.skip 1) (by simp only [Buf.skip]; omega),
      Exec.ok_bind, Codec.bind_run, hr ((b.skip 1).skip 1) (by simp only [Buf.skip]; omega), Exec.ok_bind, Codec.bind_run,
      hr (((b.skip 1).skip 1).skip 1) (by simp only [Buf.skip]; omega), Exec.ok_bind]
    rfl
  rw [e]
  congr 2
  apply UInt32.toNat_inj.mp
  rw [comb_u32]
  simp only [word, List.drop_zero]
  have : (memRead b.packet b.tail 4).take 4 = [b.packet b.tail, b.packet (b.tail + 1), b.packet (b.tail + 2), b.packet (b.tail + 3)] := rfl
  rw [this, UInt32.toNat_ofNat', Nat.mod_eq_of_lt]
  have h0 := (b.packet b.tail).toNat_lt
  have h1 := (b.packet (b.tail + 1)).toNat_lt
  have h2 := (b.packet (b.tail + 2)).toNat_lt
  have h3 := (b.packet (b.tail + 3)).toNat_lt
  simp only [leValue]
  omega

theorem word_leBytes (n : UInt32) (d : List UInt8) : word (leBytes 4 n.toNat ++ d) 0 = n := by
  have : ((leBytes 4 n.toNat ++ d).drop 0).take 4 = leBytes 4 n.toNat := rfl
  unfold word
  rw [this, MsgStorage.leValue_leBytes 4 _ (by have := n.toNat_lt; omega)]
  simp

theorem word_skip (l d : List UInt8) (i j : Nat) (h : l.length = i) : word (l ++ d) (i + j) = word d j := by
  unfold word
  rw [← h, List.drop_append, List.drop_eq_nil_of_le (by omega), List.nil_append, Nat.add_sub_cancel_left]

theorem encoded_ok {c : Codec Unit} {w : List UInt8} (hw : Writes c w) (h : w.length ≤ 4072) : encoded c = .ok w := by
  have h1 := hw (Buf.create garbage) (by simp [Buf.create])
  rw [if_pos (by simp only [Buf.create, maxPacketLen]; omega)] at h1
  unfold encoded
  rw [h1, Exec.ok_bind, if_pos (by simp only [Buf.size, Buf.append, Buf.create]; omega)]
  simp only [Exec.pure_eq, Exec.ok.injEq, Buf.bytes, Buf.size, Buf.append, Buf.create, Nat.zero_add]
  apply memRead_ext rfl
  intro i hi
  simp only [memWrite, Nat.zero_add]
  rw [if_pos (by omega), Nat.sub_zero]

theorem encoded_cases {c : Codec Unit} {w : List UInt8} (hw : Writes c w) : encoded c = .ok w ∨ encoded c = .ub := by
  by_cases h : w.length ≤ 4072
  · exact .inl (encoded_ok hw h)
  · refine .inr ?_
    have h1 := hw (Buf.create garbage) (by simp [Buf.create])
    unfold encoded
    rw [h1]
    by_cases h2 : (Buf.create garbage).head + w.length ≤ maxPacketLen
    · rw [if_pos h2, Exec.ok_bind, if_neg (by simp only [Buf.size, Buf.append, Buf.create]; omega)]
    · rw [if_neg h2]
      rfl

theorem send_writes (token tx request : UInt32) (data : List UInt8) : Writes (sendEnc token tx request data)
    (leBytes 4 token.toNat ++ (leBytes 4 tx.toNat ++ leBytes 4 request.toNat ++ data)) :=
  Writes.bind (Lawful.writes (⟨token⟩ : UaSecurityTokenHeader) trivial)
    (Writes.bind (Lawful.writes (⟨tx, request⟩ : UaSequenceHeader) ⟨trivial, trivial⟩) (writes_raw data))

theorem rspHdr_ok (t : DateTime) (handle : UInt32) :
    Wire.ok ({ (Ua.init : UaResponseHeader) with timestamp := t, requestHandle := handle } : UaResponseHeader) := by
  refine ⟨trivial, trivial, trivial, ?_, ?_, ?_⟩
  · show DiagnosticInfo.Ok (Ua.init : DiagnosticInfo)
    exact trivial
  · refine ⟨?_, ?_⟩ <;> simp [Ua.init]
  · refine ⟨?_, ?_, ?_⟩
    · exact trivial
    · exact trivial
    · simp [Ua.init]

/-- The answer to an open request (OPC 10000-6, 6.7.2.3, 6.7.2.4; OPC 10000-4, 5.5.2.2). -/
def openAnswer (e : CEnv) (channel token tx request handle lifetime : UInt32) : List UInt8 :=
  wire ({ (Ua.init : UaSecurityHeader) with securityPolicyUri := ⟨policyNone⟩ } : UaSecurityHeader) ++
    (leBytes 4 tx.toNat ++ leBytes 4 request.toNat ++ wire (Cont.make 449 (openRsp e channel token handle lifetime)))

theorem open_writes (e : CEnv) (channel token tx request handle lifetime : UInt32) :
    Writes (openRspEnc e channel token tx request handle lifetime)
      (openAnswer e channel token tx request handle lifetime) := by
  refine Writes.bind (Lawful.writes (α := UaSecurityHeader) _ ?_) (Writes.bind (Lawful.writes (⟨tx, request⟩ : UaSequenceHeader)
    ⟨trivial, trivial⟩) (Lawful.writes (Cont.make 449 (openRsp e channel token handle lifetime)) ?_))
  · refine ⟨?_, ?_, ?_⟩
    · show policyNone.length < 2 ^ 31
      decide
    · show (Ua.init : ByteString).bytes.length < 2 ^ 31
      decide
    · show (Ua.init : ByteString).bytes.length < 2 ^ 31
      decide
  · refine ⟨⟨trivial, rfl, rfl⟩, rspHdr_ok _ _, trivial, ⟨trivial, trivial, trivial, trivial⟩, ?_⟩
    show (Ua.init : ByteString).bytes.length < 2 ^ 31
    decide

theorem openAnswer_length (e : CEnv) (channel token tx request handle lifetime : UInt32) :
    (openAnswer e channel token tx request handle lifetime).length = 123 := rfl

theorem openAnswer_tx (e : CEnv) (channel token tx request handle lifetime : UInt32) :
    word (openAnswer e channel token tx request handle lifetime) 59 = tx := by
  unfold openAnswer
  rw [word_skip (i := 59) (j := 0) _ _ rfl, List.append_assoc, word_leBytes]

/-- The answer to a close request. -/
def closeAnswer (e : CEnv) (token tx request handle : UInt32) : List UInt8 :=
  leBytes 4 token.toNat ++ (leBytes 4 tx.toNat ++ leBytes 4 request.toNat ++ wire (Cont.make 455
    (⟨{ (Ua.init : UaResponseHeader) with timestamp := e.now, requestHandle := handle }⟩ : UaCloseSecureChannelRsp)))

theorem close_writes (e : CEnv) (token tx request handle : UInt32) :
    Writes (closeRspEnc e token tx request handle) (closeAnswer e token tx request handle) :=
  Writes.bind (Lawful.writes (⟨token⟩ : UaSecurityTokenHeader) trivial)
    (Writes.bind (Lawful.writes (⟨tx, request⟩ : UaSequenceHeader) ⟨trivial, trivial⟩)
      (Lawful.writes (Cont.make 455 (⟨{ (Ua.init : UaResponseHeader) with timestamp := e.now, requestHandle := handle }⟩ :
        UaCloseSecureChannelRsp)) ⟨⟨trivial, rfl, rfl⟩, rspHdr_ok _ _⟩))

theorem closeAnswer_length (e : CEnv) (token tx request handle : UInt32) :
    (closeAnswer e token tx request handle).length = 40 := rfl

theorem word4 (a b : UInt32) (d : List UInt8) : word (leBytes 4 a.toNat ++ (leBytes 4 b.toNat ++ d)) 4 = b := by
  rw [word_skip (i := 4) (j := 0) _ _ rfl, word_leBytes]

theorem word8 (a b c : UInt32) (d : List UInt8) :
    word (leBytes 4 a.toNat ++ (leBytes 4 b.toNat ++ (leBytes 4 c.toNat ++ d))) 8 = c := by
  rw [word_skip (i := 4) (j := 4) _ _ rfl, word4]

theorem closeAnswer_tx (e : CEnv) (token tx request handle : UInt32) :
    word (closeAnswer e token tx request handle) 4 = tx := by
  unfold closeAnswer
  rw [List.append_assoc, word4]

/-! ## Exact runs -/

/-- A received message in the buffer. -/
theorem load_ok (m : Mem) (d : List UInt8) (h : d.length ≤ 4096) : load m d = .ok ((Buf.create m).append d) := if_pos h

theorem load_packet (m : Mem) (d : List UInt8) : memRead ((Buf.create m).append d).packet 0 d.length = d := by
  apply memRead_ext rfl
  intro i hi
  simp only [Buf.append, Buf.create, memWrite, Nat.zero_add]
  rw [if_pos (by omega), Nat.sub_zero]

/-- The number at offset `i` of the buffer behind which `d` was copied. -/
def mword (m : Mem) (d : List UInt8) (i : Nat) : UInt32 := word (memRead ((Buf.create m).append d).packet i 4) 0

theorem mword_eq {m : Mem} {d : List UInt8} {i : Nat} (h : i + 4 ≤ d.length) : mword m d i = word d i := by
  unfold mword word
  congr 2
  rw [List.drop_zero]
  have hp := load_packet m d
  have e : d.length = i + (4 + (d.length - i - 4)) := by omega
  have h2 : memRead ((Buf.create m).append d).packet 0 d.length = memRead ((Buf.create m).append d).packet 0 i ++
      (memRead ((Buf.create m).append d).packet (0 + i) 4 ++
        memRead ((Buf.create m).append d).packet (0 + i + 4) (d.length - i - 4)) := by
    conv => lhs; rw [e]
    rw [memRead_split, memRead_split]
  rw [hp] at h2
  have h3 : d.drop i = memRead ((Buf.create m).append d).packet (0 + i) 4 ++
        memRead ((Buf.create m).append d).packet (0 + i + 4) (d.length - i - 4) := by
    conv => lhs; rw [h2]
    rw [List.drop_append, List.drop_eq_nil_of_le (by rw [MsgStorage.length_memRead]; omega), List.nil_append,
      MsgStorage.length_memRead, Nat.sub_self, List.drop_zero]
  rw [h3, List.take_append_of_le_length (by rw [MsgStorage.length_memRead]; omega), Nat.zero_add]

theorem token_run (b : Buf) (h : b.tail + 4 ≤ 4096) : dec (Ua.init : UaSecurityTokenHeader) b =
    .ok (⟨word (memRead b.packet b.tail 4) 0⟩, b.skip 4) := by
  show (dec (Ua.init : UInt32) >>= fun t => pure (⟨t⟩ : UaSecurityTokenHeader) : Codec _) b = _
  rw [Codec.bind_run, u32_run _ _ h]
  rfl

theorem seq_run (b : Buf) (h : b.tail + 8 ≤ 4096) : dec (Ua.init : UaSequenceHeader) b =
    .ok (⟨word (memRead b.packet b.tail 4) 0, word (memRead b.packet (b.tail + 4) 4) 0⟩, b.skip 8) := by
  show (dec (Ua.init : UInt32) >>= fun s => dec (Ua.init : UInt32) >>= fun r => pure (⟨s, r⟩ : UaSequenceHeader) : Codec _) b = _
  rw [Codec.bind_run, u32_run _ _ (by omega), Exec.ok_bind]
  show (dec (Ua.init : UInt32) >>= fun r => pure (⟨_, r⟩ : UaSequenceHeader) : Codec _) (b.skip 4) = _
  rw [Codec.bind_run, u32_run _ (b.skip 4) (by simp only [Buf.skip]; omega), Exec.ok_bind]
  rfl

/-- The check of token and sequence number. -/
theorem guarded_run (k : Nat) (e : CEnv) (d : List UInt8) (s : Chans) (h : d.length ≤ 4096) : guarded k e d s =
    if mword e.mem d 0 = (s.objs k).token ∧ mword e.mem d 4 = (s.objs k).rxSeq + 1 then
      (.ok (some (mword e.mem d 8, ((Buf.create e.mem).append d).skip 12)),
        s.set k { (s.objs k) with rxSeq := mword e.mem d 4 })
    else (.ok none, s) := by
  unfold guarded
  have ht : ((Buf.create e.mem).append d).tail = 0 := rfl
  rw [bind_ok (lift_ok (load_ok _ _ h) s), bind_ok (lift_ok (token_run _ (by rw [ht]; omega)) s), bind_ok (self_run s k)]
  show (if mword e.mem d 0 = (s.objs k).token then _ else _ : SM Chans (Option (UInt32 × Buf))) s = _
  by_cases h1 : mword e.mem d 0 = (s.objs k).token
  · rw [if_pos h1]
    rw [bind_ok (lift_ok (seq_run (((Buf.create e.mem).append d).skip 4) (by simp only [Buf.skip, ht]; omega)) s)]
    show (if mword e.mem d 4 = (s.objs k).rxSeq + 1 then _ else _ : SM Chans (Option (UInt32 × Buf))) s = _
    by_cases h2 : mword e.mem d 4 = (s.objs k).rxSeq + 1
    · rw [if_pos h2, if_pos ⟨h1, h2⟩]
      rfl
    · rw [if_neg h2, if_neg (fun h => h2 h.2)]
      rfl
  · rw [if_neg h1, if_neg (fun h => h1 h.1)]
    rfl

/-! ## Invariant -/

/-- A channel in its initial state. -/
structure Idle (A : Prop) (k : Nat) (t : Chan) : Prop where
  st : t.st = .init
  conn : t.conn = none
  session : t.session = none
  tx : t.tx = if CAct.released ∈ t.log then 0 else 1
  owner : owner t.log = none
  bound : bound t.log = none
  lastTx : lastTx t.log = none
  window : window t.log = none
  ok : AllOk (Right A k) t.log

/-- An established channel of connection `c`. -/
structure Live (A : Prop) (k : Nat) (c : UInt32) (t : Chan) : Prop where
  st : t.st = .established
  conn : t.conn = some c
  owner : owner t.log = some c
  bound : bound t.log = t.session
  lastTx : ∃ m, lastTx t.log = some m ∧ t.tx = m + 1
  window : A → ∃ b, window t.log = some ⟨c, t.token, t.rxSeq, b⟩
  ok : AllOk (Right A k) t.log

/-- A channel in use: established, or left behind in the initial state by an open request that could not be decoded. -/
def Busy (A : Prop) (k : Nat) (t : Chan) : Prop := (∃ c, Live A k c t) ∨ Idle A k t

abbrev ChInv (A : Prop) (s : Chans) : Prop := Ent.Inv (Idle A) (Busy A) s

abbrev ChAround (A : Prop) (k : Nat) (P : Chan → Prop) (s : Chans) : Prop := Ent.Around (Idle A) (Busy A) k P s

variable {A : Prop} {k : Nat}

theorem right_quiet {pre : List CAct} {a : CAct} (h : match a with
    | .got _ => True
    | .releaseReq _ => True
    | _ => False) : Right A k pre a := by
  cases a <;> first | exact h.elim | skip
  all_goals exact ⟨trivial, fun _ => ⟨trivial, trivial⟩, (fun _ _ _ h => by cases h), (fun _ _ h => by cases h), trivial, trivial, trivial⟩

theorem Idle.got {t : Chan} (h : Idle A k t) (m : CIn) : Idle A k { t with log := t.log ++ [.got m] } where
  st := h.st
  conn := h.conn
  session := h.session
  tx := by have := h.tx; simpa using this
  owner := by rw [owner_snoc]; exact h.owner
  bound := by rw [bound_snoc]; exact h.bound
  lastTx := by rw [lastTx_snoc]; exact h.lastTx
  window := by rw [window_snoc, h.window]; cases m <;> rfl
  ok := h.ok.snoc (right_quiet trivial)

/-- The content of messages and close requests. -/
def body : CIn → Option (UInt32 × List UInt8)
  | .message c _ d => some (c, d)
  | .close c _ d => some (c, d)
  | _ => none

theorem step_body {m : CIn} {w : Window} : Window.step (some w) (.got m) = match body m with
    | some (c, d) => some (w.sees c d)
    | none => some { w with accepted := false } := by
  cases m <;> rfl

/-- A message that is not accepted. -/
theorem Live.got {c : UInt32} {t : Chan} (h : Live A k c t) {m : CIn} (hm : A → ∀ c' d, body m = some (c', d) →
    ¬ (c' = c ∧ word d 0 = t.token ∧ word d 4 = t.rxSeq + 1)) : Live A k c { t with log := t.log ++ [.got m] } where
  st := h.st
  conn := h.conn
  owner := by rw [owner_snoc]; exact h.owner
  bound := by rw [bound_snoc]; exact h.bound
  lastTx := by rw [lastTx_snoc]; exact h.lastTx
  window a := by
    obtain ⟨b, hw⟩ := h.window a
    refine ⟨false, ?_⟩
    rw [window_snoc, hw, step_body]
    cases hb : body m with
    | none => rfl
    | some x =>
      obtain ⟨c', d⟩ := x
      simp only [Window.sees]
      rw [if_neg (hm a c' d hb)]
  ok := h.ok.snoc (right_quiet trivial)

/-- An accepted message. -/
theorem Live.accept {c : UInt32} {t : Chan} (h : Live A k c t) {m : CIn} {d : List UInt8} {n : UInt32} (hm : body m = some (c, d))
    (h1 : A → word d 0 = t.token) (h2 : A → word d 4 = n) (h3 : n = t.rxSeq + 1) :
    Live A k c { t with log := t.log ++ [.got m], rxSeq := n } ∧
      (A → ∃ w, Channel.window (t.log ++ [.got m]) = some w ∧ w.accepted = true) := by
  have hw : A → Channel.window (t.log ++ [.got m]) = some ⟨c, t.token, n, true⟩ := by
    intro a
    obtain ⟨b, hw⟩ := h.window a
    rw [window_snoc, hw, step_body, hm]
    simp only [Window.sees]
    rw [if_pos ⟨trivial, h1 a, by rw [h2 a, h3]⟩, h3]
  refine ⟨⟨h.st, h.conn, by rw [owner_snoc]; exact h.owner, by rw [bound_snoc]; exact h.bound,
    by rw [lastTx_snoc]; exact h.lastTx, fun a => ⟨true, hw a⟩, h.ok.snoc (right_quiet trivial)⟩, fun a => ⟨_, hw a, rfl⟩⟩

/-- Acts other than deliveries that change nothing the invariant looks at. -/
theorem Live.quiet {c : UInt32} {t : Chan} {a : CAct} (h : Live A k c t) (ha : match a with
    | .up _ _ => True
    | .releaseReq _ => True
    | _ => False) (hr : Right A k t.log a) : Live A k c { t with log := t.log ++ [a] } := by
  cases a <;> first | exact ha.elim | skip
  all_goals exact ⟨h.st, h.conn, by rw [owner_snoc]; exact h.owner, by rw [bound_snoc]; exact h.bound,
    by rw [lastTx_snoc]; exact h.lastTx, fun a => by rw [window_snoc]; exact h.window a, h.ok.snoc hr⟩

/-- A sent answer. -/
theorem Live.sent {c : UInt32} {t : Chan} {a : CAct} (h : Live A k c t) (ha : match a with
    | .sendReq _ _ _ => True
    | .closeRsp _ _ _ => True
    | _ => False) (hn : txOf a = some t.tx) (hs : Serves k t.log a) (hf : A → Fresh t.log a) (hb : Bound t.log a) :
    Live A k c { t with tx := t.tx + 1, log := t.log ++ [a] } := by
  obtain ⟨m, hm, htx⟩ := h.lastTx
  have hc : Consecutive t.log a := by
    intro m' n h1 h2
    rw [hm] at h1
    rw [hn] at h2
    injection h1 with h1
    injection h2 with h2
    rw [← h1, ← h2, htx]
  have hfi : First t.log a := by
    intro n h1 _
    rw [hm] at h1
    cases h1
  cases a <;> first | exact ha.elim | skip
  all_goals exact ⟨h.st, h.conn, by rw [owner_snoc]; exact h.owner, by rw [bound_snoc]; exact h.bound,
    ⟨_, by rw [lastTx_snoc]; simp only [hn], rfl⟩, fun a => by rw [window_snoc]; exact h.window a,
    h.ok.snoc ⟨hs, (fun a => ⟨hf a, trivial⟩), hc, hfi, hb, trivial, trivial⟩⟩

/-- Binding to a session. -/
theorem Live.bind {c : UInt32} {t : Chan} {x : UInt32} (h : Live A k c t) (hs : Serves k t.log (.associated x)) :
    Live A k c { t with session := some x, log := t.log ++ [.associated x] } :=
  ⟨h.st, h.conn, by rw [owner_snoc]; exact h.owner, by rw [bound_snoc], by rw [lastTx_snoc]; exact h.lastTx,
    fun a => by rw [window_snoc]; exact h.window a,
    h.ok.snoc ⟨hs, fun _ => ⟨trivial, trivial⟩, (fun _ _ _ h => by cases h), (fun _ _ h => by cases h), trivial, trivial, trivial⟩⟩

/-- The end. -/
def ended (t : Chan) : Chan :=
  { t with st := .init, tx := 0, conn := none, session := none, log := t.log ++ [.released] }

theorem Live.ended {c : UInt32} {t : Chan} (h : Live A k c t) (he : Ends t.log .released)
    (hr : A → Rejected t.log .released) : Idle A k (ended t) where
  st := rfl
  conn := rfl
  session := rfl
  tx := by simp [Channel.ended]
  owner := by simp only [Channel.ended, owner_snoc]
  bound := by simp only [Channel.ended, bound_snoc]
  lastTx := by simp only [Channel.ended, lastTx_snoc]
  window := by simp only [Channel.ended, window_snoc, Window.step]
  ok := h.ok.snoc ⟨trivial, fun a => ⟨trivial, hr a⟩, (fun _ _ _ h => by cases h), (fun _ _ h => by cases h), trivial, he,
    (by rw [Paired, h.owner]; simp)⟩

/-- A channel after a successful open request. -/
def opened (k : Nat) (e : CEnv) (c : UInt32) (d : List UInt8) (seq request handle lifetime : UInt32) (t : Chan) : Chan :=
  { t with
    st := .established, conn := some c, rxSeq := seq, token := e.token, tx := t.tx + 1
    log := t.log ++ [.got (.open c d)] ++ [.opened c e.token seq] ++
      [.openRsp c (UInt32.ofNat k) (openAnswer e (UInt32.ofNat k) e.token t.tx request handle lifetime)] }

theorem Idle.opened {t : Chan} (h : Idle A k t) (e : CEnv) (c : UInt32) (d : List UInt8) (seq request handle lifetime : UInt32) :
    Live A k c (opened k e c d seq request handle lifetime t) := by
  have h0 := h.got (.open c d)
  have h1 : AllOk (Right A k) (t.log ++ [.got (.open c d)] ++ [.opened c e.token seq]) :=
    h0.ok.snoc ⟨trivial, fun _ => ⟨trivial, trivial⟩, (fun _ _ _ h => by cases h), (fun _ _ h => by cases h), trivial, trivial, h0.owner⟩
  have hl : Channel.lastTx (t.log ++ [.got (.open c d)] ++ [.opened c e.token seq]) = none := by rw [lastTx_snoc]
  have ho : Channel.owner (t.log ++ [.got (.open c d)] ++ [.opened c e.token seq]) = some c := by rw [owner_snoc]
  refine ⟨rfl, rfl, by simp only [Channel.opened, owner_snoc], ?_, ⟨t.tx, ?_, rfl⟩, ?_, ?_⟩
  · simp only [Channel.opened, bound_snoc, h.bound, h.session]
  · simp only [Channel.opened, lastTx_snoc, txOf, openAnswer_tx]
  · intro _
    exact ⟨false, by simp only [Channel.opened, window_snoc, Window.step]⟩
  · refine h1.snoc ⟨⟨ho, rfl, d, by simp only [lastGot_snoc]⟩, fun _ => ⟨trivial, trivial⟩, ?_, ?_, trivial, trivial, trivial⟩
    · intro m n h2 _
      rw [hl] at h2
      cases h2
    · intro n _ h3
      simp only [txOf, openAnswer_tx, Option.some.injEq] at h3
      rw [← h3, h.tx]
      simp

/-! ## Handlers -/

/-- An established channel that may end now. -/
def Dying (A : Prop) (k : Nat) (t : Chan) : Prop :=
  ∃ c, Live A k c t ∧ Ends t.log .released ∧ (A → Rejected t.log .released)

theorem tri_toInit {T : Chans → Prop} : STri T (ChAround A k (Dying A k)) (toInit k) (fun _ => ChInv A) := by
  refine STri.bind (R := fun _ => ChAround A k (fun t => ∃ t0, t = { t0 with st := .init } ∧ Dying A k t0))
    (tri_obj fun t ht => ⟨t, rfl, ht⟩) fun _ => ?_
  refine STri.bind (R := fun _ => ChAround A k (fun t => ∃ t0, t = { t0 with st := .init, tx := 0, conn := none, session := none } ∧
    Dying A k t0)) (tri_obj ?_) fun _ => ?_
  · rintro t ⟨t0, e, h⟩
    subst e
    exact ⟨t0, rfl, h⟩
  refine STri.bind (R := fun _ => ChAround A k (Idle A k)) (tri_obj ?_) fun _ => tri_release fun _ h => h
  rintro t ⟨t0, e, c, h1, h2, h3⟩
  subst e
  exact h1.ended h2 h3

theorem spost_ok {α : Type} {T : Chans → Prop} {Q : α → Chans → Prop} {a : α} {s : Chans} (h : Q a s) :
    SPost T Q (.ok a, s) := h

theorem tri_guarded {T : Chans → Prop} {t : Chan} {e : CEnv} {d : List UInt8} : STri T (ChAround A k (· = t)) (guarded k e d)
    (fun r => ChAround A k (fun t' => d.length ≤ 4096 ∧
      ((r = none ∧ ¬(mword e.mem d 0 = t.token ∧ mword e.mem d 4 = t.rxSeq + 1) ∧ t' = t) ∨
      (r = some (mword e.mem d 8, ((Buf.create e.mem).append d).skip 12) ∧
        (mword e.mem d 0 = t.token ∧ mword e.mem d 4 = t.rxSeq + 1) ∧ t' = { t with rxSeq := mword e.mem d 4 })))) := by
  intro s hs
  by_cases h : d.length ≤ 4096
  · rw [guarded_run k e d s h]
    have he : s.objs k = t := hs.at
    split
    · rename_i hc
      rw [he] at hc
      refine spost_ok (Around.set hs ?_)
      exact ⟨h, .inr ⟨rfl, hc, by rw [he]⟩⟩
    · rename_i hc
      rw [he] at hc
      refine spost_ok (Around.mono (s := s) hs fun t' ht => ?_)
      exact ⟨h, .inl ⟨rfl, hc, ht⟩⟩
  · have : guarded k e d s = (.ub, s) := by
      unfold guarded
      rw [bind_run]
      have : load e.mem d = .ub := if_neg h
      rw [this]
      rfl
    rw [this]
    trivial

theorem tri_encoded {α : Type} {T P : Chans → Prop} {c : Codec Unit} {w : List UInt8} {f : List UInt8 → SM Chans α}
    {Q : α → Chans → Prop} (hw : Writes c w) (h : STri T P (f w) Q) : STri T P (lift (encoded c) >>= f) Q := by
  intro s hs
  rcases encoded_cases hw with he | he
  · rw [bind_ok (lift_ok he s)]
    exact h s hs
  · rw [bind_run, he]
    trivial

theorem tri_obj_eq {T : Chans → Prop} {t : Chan} {f : Chan → Chan} :
    STri T (ChAround A k (· = t)) (obj k f) (fun _ => ChAround A k (· = f t)) := tri_obj fun _ h => by rw [h]

theorem tri_note_eq {T : Chans → Prop} {t : Chan} {a : CAct} :
    STri T (ChAround A k (· = t)) (note k a) (fun _ => ChAround A k (· = { t with log := t.log ++ [a] })) := tri_obj_eq

/-- The identifier of the channel a message is for. -/
def target : CIn → Option UInt32
  | .open _ _ => none
  | .close _ ch _ => some ch
  | .message _ ch _ => some ch
  | .released _ ch => some ch
  | .associate h => some h.secureChannelId
  | .send h _ => some h.secureChannelId

/-- Messages carry the token, the sequence number and the request identifier. -/
def Long (m : CIn) : Prop := ∀ c d, body m = some (c, d) → 12 ≤ d.length

theorem busy_inv {s : Chans} {t : Chan} (h : ChAround A k (· = t) s) (ht : Busy A k t) : ChInv A s :=
  (Around.mono h fun _ e => by rw [e]; exact ht).inv

/-- UaServerSecureChannel.cpp:54-90 and the change of state, as part of `receiveOpen`. -/
def answerOpen (k : Nat) (e : CEnv) (c seq request handle lifetime : UInt32) : SM Chans Unit := do
  obj k fun t => { t with conn := some c, rxSeq := seq, token := e.token }
  note k (.opened c e.token seq)
  let t ← self k
  obj k fun t => { t with tx := t.tx + 1 }
  let d ← lift (encoded (openRspEnc e (UInt32.ofNat k) e.token t.tx request handle lifetime))
  note k (.openRsp c (UInt32.ofNat k) d)

theorem receiveOpen_eq (k : Nat) (e : CEnv) (c : UInt32) (d : List UInt8) : receiveOpen k e c d = (do
    let b ← lift (load e.mem d)
    let r ← lift (openReqDec b)
    answerOpen k e c r.1.1.sequenceNumber r.1.1.requestId r.1.2.requestHdr.requestHandle r.1.2.requestLifetime) := rfl

theorem answerOpen_run (k : Nat) (e : CEnv) (c seq request handle lifetime : UInt32) (s : Chans) :
    answerOpen k e c seq request handle lifetime s = (.ok (), s.set k { s.objs k with
      conn := some c, rxSeq := seq, token := e.token, tx := (s.objs k).tx + 1
      log := (s.objs k).log ++ [.opened c e.token seq] ++
        [.openRsp c (UInt32.ofNat k) (openAnswer e (UInt32.ofNat k) e.token (s.objs k).tx request handle lifetime)] }) := by
  unfold answerOpen note
  rw [bind_ok (obj_run _ _ _), bind_ok (obj_run _ _ _), bind_ok (self_run _ _), bind_ok (obj_run _ _ _),
    bind_ok (lift_ok (encoded_ok (open_writes _ _ _ _ _ _ _) (by rw [openAnswer_length]; omega)) _), obj_run]
  simp only [set_at, set_set]

theorem tri_open {t : Chan} (ht : Idle A k t) (e : CEnv) (c : UInt32) (d : List UInt8) :
    STri (ChInv A) (ChAround A k (· = { t with log := t.log ++ [.got (.open c d)] }))
      (receiveOpen k e c d >>= fun _ => obj k fun t => { t with st := .established }) (fun _ => ChInv A) := by
  have hb : ∀ t', t' = ({ t with log := t.log ++ [.got (.open c d)] } : Chan) → Busy A k t' := by
    intro t' h
    rw [h]
    exact .inr (ht.got _)
  rw [receiveOpen_eq, SM.assoc]
  refine STri.bind (R := fun _ => ChAround A k (· = { t with log := t.log ++ [.got (.open c d)] }))
    (tri_lift (fun _ _ _ h => h) hb) fun b => ?_
  rw [SM.assoc]
  refine STri.bind (R := fun _ => ChAround A k (· = { t with log := t.log ++ [.got (.open c d)] }))
    (tri_lift (fun _ _ _ h => h) hb) fun r => ?_
  generalize r.1.1.sequenceNumber = seq, r.1.1.requestId = request, r.1.2.requestHdr.requestHandle = handle,
    r.1.2.requestLifetime = lifetime
  intro s hs
  rw [bind_ok (answerOpen_run _ _ _ _ _ _ _ _), obj_run, set_at, set_set]
  have he : s.objs k = _ := hs.at
  refine spost_ok (busy_inv (t := opened k e c d seq request handle lifetime t) (Around.set hs ?_)
    (.inl ⟨c, ht.opened e c d seq request handle lifetime⟩))
  rw [he]
  rfl

/-- UaServerSecureChannel.cpp:128-155, as part of `receiveClose`. -/
def answerClose (k : Nat) (e : CEnv) (c request handle : UInt32) : SM Chans Unit := do
  let t ← self k
  obj k fun t => { t with tx := t.tx + 1 }
  let d ← lift (encoded (closeRspEnc e t.token t.tx request handle))
  note k (.closeRsp c (UInt32.ofNat k) d)

theorem receiveClose_eq (k : Nat) (e : CEnv) (c : UInt32) (d : List UInt8) : receiveClose k e c d = (do
    let t ← self k
    if t.conn = some c then do
      let g ← guarded k e d
      match g with
      | none => pure ()
      | some (request, b) => do
        let r ← lift (dec (Ua.init : Cont UaCloseSecureChannelReq 452) b)
        answerClose k e c request r.1.msg.requestHdr.requestHandle
    else pure ()) := rfl

theorem answerClose_run (k : Nat) (e : CEnv) (c request handle : UInt32) (s : Chans) :
    answerClose k e c request handle s = (.ok (), s.set k { s.objs k with
      tx := (s.objs k).tx + 1
      log := (s.objs k).log ++
        [.closeRsp c (UInt32.ofNat k) (closeAnswer e (s.objs k).token (s.objs k).tx request handle)] }) := by
  unfold answerClose note
  rw [bind_ok (self_run _ _), bind_ok (obj_run _ _ _),
    bind_ok (lift_ok (encoded_ok (close_writes _ _ _ _ _) (by rw [closeAnswer_length]; omega)) _), obj_run]
  simp only [set_at, set_set]

/-- Established, and the message delivered last is `m`. -/
def After (A : Prop) (k : Nat) (m : CIn) (t : Chan) : Prop := (∃ c, Live A k c t) ∧ lastGot t.log = some m

theorem notAccepted {c c0 : UInt32} {t : Chan} {e : CEnv} {d : List UInt8} {m : CIn} (hbody : body m = some (c, d)) (hl : A → Long m)
    (h : ¬ (c = c0 ∧ mword e.mem d 0 = t.token ∧ mword e.mem d 4 = t.rxSeq + 1)) : A → ∀ c' d', body m = some (c', d') →
    ¬ (c' = c0 ∧ word d' 0 = t.token ∧ word d' 4 = t.rxSeq + 1) := by
  intro a c' d' hb
  rw [hbody] at hb
  injection hb with hb
  injection hb with h1 h2
  subst h1 h2
  have := hl a c d hbody
  rwa [mword_eq (by omega), mword_eq (by omega)] at h

theorem tri_close {t : Chan} {c0 : UInt32} (ht : Live A k c0 t) (e : CEnv) (c ch : UInt32) (d : List UInt8) (hch : ch = UInt32.ofNat k)
    (hl : A → Long (.close c ch d)) :
    STri (ChInv A) (ChAround A k (· = { t with log := t.log ++ [.got (.close c ch d)] }))
      (receiveClose k e c d) (fun _ => ChAround A k (After A k (.close c ch d))) := by
  rw [receiveClose_eq]
  refine tri_self fun t1 ht1 => ?_
  have hc1 : t1.conn = some c0 := by rw [ht1]; exact ht.conn
  have hlg : lastGot t1.log = some (.close c ch d) := by rw [ht1, lastGot_snoc]
  by_cases hc : c0 = c
  · subst hc
    rw [if_pos hc1]
    refine STri.bind tri_guarded fun g => ?_
    cases g with
    | none =>
      refine tri_ret fun t' ⟨hd, h⟩ => ?_
      rcases h with ⟨_, hn, rfl⟩ | ⟨h, _⟩
      · subst ht1
        exact ⟨⟨c0, ht.got (notAccepted (e := e) rfl hl fun h => hn h.2)⟩, hlg⟩
      · cases h
    | some g =>
      refine tri_point fun t2 ⟨hd, h⟩ => ?_
      rcases h with ⟨h, _⟩ | ⟨hg, hn, ht2⟩
      · cases h
      have hacc := ht.accept (m := .close c0 ch d) (d := d) (n := mword e.mem d 4) rfl (fun a => by
        rw [← mword_eq (m := e.mem) (by have := hl a c0 d rfl; omega), hn.1, ht1]) (fun a => by
        rw [← mword_eq (m := e.mem) (by have := hl a c0 d rfl; omega)]) (by rw [hn.2, ht1])
      have hlive : Live A k c0 t2 := by rw [ht2, ht1]; exact hacc.1
      refine STri.bind (R := fun _ => ChAround A k (· = t2)) (tri_lift (fun _ _ _ h => h) fun t' h => .inl ⟨c0, h ▸ hlive⟩) fun r => ?_
      generalize r.1.msg.requestHdr.requestHandle = handle
      intro s hs
      have he : s.objs k = t2 := hs.at
      rw [answerClose_run]
      refine spost_ok (Around.set hs ?_)
      rw [he]
      have hlog : t2.log = t.log ++ [.got (.close c0 ch d)] := by rw [ht2, ht1]
      refine ⟨⟨c0, hlive.sent (a := .closeRsp c0 (UInt32.ofNat k) _) trivial (by rw [txOf, closeAnswer_tx])
        ⟨hlive.owner, rfl, d, by rw [hlog, lastGot_snoc, hch]⟩ (fun a => ?_) trivial⟩, ?_⟩
      · rw [hlog]
        exact hacc.2 a
      · rw [lastGot_snoc, hlog, lastGot_snoc]
  · rw [if_neg (by rw [hc1]; simpa using hc)]
    refine tri_ret fun t' ht' => ?_
    subst ht' ht1
    exact ⟨⟨c0, ht.got (notAccepted (e := e) rfl hl fun h => hc h.1.symm)⟩, hlg⟩

/-! ### Messages -/

theorem handUp_ok {m : Mem} {d x : List UInt8} (h : handUp (((Buf.create m).append d).skip 12) = .ok x) :
    d.length ≤ 4068 ∧ x = memRead ((Buf.create m).append d).packet 12 d.length := by
  unfold handUp at h
  split at h
  · rename_i hc
    injection h with h
    refine ⟨?_, h.symm.trans ?_⟩
    · have : (((Buf.create m).append d).skip 12).size = d.length := by
        simp [Buf.size, Buf.skip, Buf.append, Buf.create]
      omega
    · simp [Buf.bytes, Buf.size, Buf.skip, Buf.append, Buf.create]
  · cases h

theorem payload {m : Mem} {d : List UInt8} (h : 12 ≤ d.length) :
    (memRead ((Buf.create m).append d).packet 12 d.length).take (d.length - 12) = d.drop 12 := by
  have h1 : memRead ((Buf.create m).append d).packet 12 d.length =
      memRead ((Buf.create m).append d).packet 12 (d.length - 12) ++
        memRead ((Buf.create m).append d).packet (12 + (d.length - 12)) 12 := by
    conv => lhs; rw [show d.length = d.length - 12 + 12 from by omega]
    rw [memRead_split]
  have h2 := load_packet m d
  rw [show d.length = 12 + (d.length - 12) from by omega, memRead_split, Nat.zero_add] at h2
  rw [h1, List.take_append_of_le_length (by rw [MsgStorage.length_memRead]; omega),
    List.take_of_length_le (by rw [MsgStorage.length_memRead]; omega)]
  have h3 := congrArg (List.drop 12) h2
  rw [List.drop_left' (MsgStorage.length_memRead _ _ _)] at h3
  exact h3

theorem tri_message {t : Chan} {c0 : UInt32} (ht : Live A k c0 t) (e : CEnv) (c ch : UInt32) (d : List UInt8) (hch : ch = UInt32.ofNat k)
    (hl : A → Long (.message c ch d)) :
    STri (ChInv A) (ChAround A k (· = { t with log := t.log ++ [.got (.message c ch d)] }))
      (receiveMessage k e c d) (fun ok => ChAround A k fun t => if ok then Busy A k t else After A k (.message c ch d) t ∧
        (A → Rejected t.log .released)) := by
  refine tri_self fun t1 ht1 => ?_
  have hc1 : t1.conn = some c0 := by rw [ht1]; exact ht.conn
  have hlg : lastGot t1.log = some (.message c ch d) := by rw [ht1, lastGot_snoc]
  have reject : ¬ (c = c0 ∧ mword e.mem d 0 = t.token ∧ mword e.mem d 4 = t.rxSeq + 1) →
      After A k (.message c ch d) t1 ∧ (A → Rejected t1.log .released) := by
    intro h
    refine ⟨⟨⟨c0, ?_⟩, hlg⟩, fun a c' ch' d' _ => ?_⟩
    · subst ht1
      exact ht.got (notAccepted (e := e) rfl hl h)
    · obtain ⟨b, hw⟩ := ht.window a
      subst ht1
      refine ⟨⟨c0, t.token, t.rxSeq, false⟩, ?_, rfl⟩
      rw [window_snoc, hw]
      show some (Window.sees _ c d) = _
      unfold Window.sees
      rw [if_neg (notAccepted (e := e) (m := .message c ch d) rfl hl h a c d rfl)]
  by_cases hc : c0 = c
  · subst hc
    rw [if_pos hc1]
    refine STri.bind tri_guarded fun g => ?_
    cases g with
    | none =>
      refine STri.ret fun s hs => Around.mono hs fun t' ⟨hd, h⟩ => ?_
      rcases h with ⟨_, hn, rfl⟩ | ⟨h, _⟩
      · exact reject fun h => hn (by rw [ht1]; exact h.2)
      · cases h
    | some g =>
      refine tri_point fun t2 ⟨hd, h⟩ => ?_
      rcases h with ⟨h, _⟩ | ⟨hg, hn, ht2⟩
      · cases h
      have hacc := ht.accept (m := .message c0 ch d) (d := d) (n := mword e.mem d 4) rfl (fun a => by
        rw [← mword_eq (m := e.mem) (by have := hl a c0 d rfl; omega), hn.1, ht1]) (fun a => by
        rw [← mword_eq (m := e.mem) (by have := hl a c0 d rfl; omega)]) (by rw [hn.2, ht1])
      have hlive : Live A k c0 t2 := by rw [ht2, ht1]; exact hacc.1
      injection hg with hg
      subst hg
      refine STri.bind (R := fun x => ChAround A k (fun t => t = t2 ∧ handUp (((Buf.create e.mem).append d).skip 12) = .ok x))
        (tri_lift (fun _ _ h h' => ⟨h', h⟩) fun t' h => .inl ⟨c0, h ▸ hlive⟩) fun x => ?_
      have hlog : t2.log = t.log ++ [.got (.message c0 ch d)] := by rw [ht2, ht1]
      have hses : t1.session = t2.session := by rw [ht2]
      refine STri.bind (R := fun _ => ChAround A k (Busy A k)) (tri_obj ?_) fun _ =>
        STri.ret fun s hs => Around.mono hs fun t' h => by simpa using h
      rintro t' ⟨rfl, hx⟩
      obtain ⟨_, hx⟩ := handUp_ok hx
      refine .inl ⟨c0, hlive.quiet (a := .up _ _) trivial ⟨⟨hlive.owner, rfl, d, by rw [hlog, lastGot_snoc, hch]⟩, fun a => ⟨?_, trivial⟩,
        (fun _ _ _ h => by cases h), (fun _ _ h => by cases h), ?_, trivial, trivial⟩⟩
      · obtain ⟨w, hw, hwa⟩ := hacc.2 a
        have h12 := hl a c0 d rfl
        refine ⟨w, c0, ch, d, by rw [hlog]; exact hw, hwa, by rw [hlog, lastGot_snoc], ?_, ?_⟩
        · rw [← mword_eq (m := e.mem) (by omega)]
        · rw [hx, payload h12]
      · show _ = (Channel.bound t'.log).getD _
        rw [hlive.bound, hses]
        rfl
  · rw [if_neg (by rw [hc1]; simpa using hc)]
    refine STri.ret fun s hs => Around.mono hs fun t' ht' => ?_
    subst ht'
    exact reject fun h => hc h.1.symm

theorem tri_associate {t : Chan} {c0 : UInt32} (ht : Live A k c0 t) (h : MsgHdr) (hch : h.secureChannelId = UInt32.ofNat k) :
    STri (ChInv A) (ChAround A k (· = { t with log := t.log ++ [.got (.associate h)] })) (receiveAssociate k h) (fun _ => ChInv A) := by
  have hlive : Live A k c0 { t with log := t.log ++ [.got (.associate h)] } := ht.got fun _ _ _ hb => by cases hb
  refine tri_self fun t1 ht1 => ?_
  split
  · rename_i hc
    intro s hs
    have he : s.objs k = t1 := hs.at
    rw [note, bind_ok (obj_run _ _ _), obj_run, set_at, set_set, he]
    refine spost_ok (busy_inv (Around.set hs rfl) (.inl ⟨c0, ?_⟩))
    rw [← ht1] at hlive
    refine hlive.bind ⟨h, by rw [ht1, lastGot_snoc], ?_, hch, rfl⟩
    rw [hlive.owner, ← hlive.conn, hc]
  · exact STri.ret fun s hs => busy_inv hs (.inl ⟨c0, ht1 ▸ hlive⟩)

theorem tri_send {t : Chan} {c0 : UInt32} (ht : Live A k c0 t) (h : MsgHdr) (d : List UInt8) (hch : h.secureChannelId = UInt32.ofNat k) :
    STri (ChInv A) (ChAround A k (· = { t with log := t.log ++ [.got (.send h d)] })) (receiveSend k h d) (fun _ => ChInv A) := by
  have hlive : Live A k c0 { t with log := t.log ++ [.got (.send h d)] } := ht.got fun _ _ _ hb => by cases hb
  refine tri_self fun t1 ht1 => ?_
  rw [← ht1] at hlive
  by_cases hc : t1.conn = some h.connectionId
  · rw [if_pos hc]
    by_cases hs : t1.session = none ∨ t1.session = some h.sessionId
    · rw [if_pos hs]
      refine STri.bind tri_obj_eq fun _ => ?_
      refine tri_encoded (send_writes _ _ _ _) ?_
      refine STri.weaken (tri_note_eq) (fun _ h => h) fun _ s hs' => busy_inv hs' (.inl ⟨c0, ?_⟩)
      have hlg : lastGot t1.log = some (.send h d) := by rw [ht1, lastGot_snoc]
      refine hlive.sent (a := .sendReq _ _ _) trivial ?_ ⟨?_, rfl, h, d, hlg, rfl, hch⟩ (fun _ => trivial) ?_
      · rw [txOf, List.append_assoc, word4]
      · rw [hlive.owner, ← hlive.conn, hc]
      · intro x hx
        rw [hlive.bound] at hx
        rcases hs with hs | hs
        · rw [hs] at hx; cases hx
        · rw [hs] at hx
          injection hx with hx
          exact ⟨h, d, hlg, hx⟩
    · rw [if_neg hs]
      exact STri.ret fun s hs => busy_inv hs (.inl ⟨c0, hlive⟩)
  · rw [if_neg hc]
    exact STri.ret fun s hs => busy_inv hs (.inl ⟨c0, hlive⟩)

theorem after_releaseReq {m : CIn} {c : UInt32} (h : match m with
    | .close _ _ _ => True
    | .released _ _ => True
    | .message _ _ _ => True
    | _ => False) {t : Chan} (ht : After A k m t) (hr : A → Rejected t.log .released) :
    Dying A k { t with log := t.log ++ [.releaseReq c] } := by
  obtain ⟨⟨c0, hl⟩, hg⟩ := ht
  refine ⟨c0, hl.quiet (a := .releaseReq c) trivial (right_quiet trivial), ⟨m, by rw [lastGot_snoc]; exact hg, h⟩, fun a => ?_⟩
  intro c' ch' d' h1
  obtain ⟨w, h2, h3⟩ := hr a c' ch' d' (by rw [lastGot_snoc] at h1; exact h1)
  exact ⟨w, by rw [window_snoc]; exact h2, h3⟩

theorem tri_onReceive {e : CEnv} {m : CIn} (hch : ∀ ch, target m = some ch → ch = UInt32.ofNat k) (hl : A → Long m) :
    STri (ChInv A) (ChAround A k (Busy A k)) (onReceive k e m) (fun _ => ChInv A) := by
  refine tri_point fun t0 hb => ?_
  refine STri.bind tri_note_eq fun _ => ?_
  refine tri_self fun t1 ht1 => ?_
  rcases hb with ⟨c0, h0⟩ | h0
  · have hst : t1.st = .established := by rw [ht1]; exact h0.st
    rw [hst]
    cases m with
    | «open» c d =>
      exact STri.ret fun s hs => busy_inv hs (.inl ⟨c0, by rw [ht1]; exact h0.got fun _ _ _ hb => by cases hb⟩)
    | close c ch d =>
      rw [ht1]
      refine STri.bind (tri_close h0 e c ch d (hch ch rfl) hl) fun _ => ?_
      refine STri.bind (R := fun _ => ChAround A k (Dying A k)) (tri_obj fun t ht => after_releaseReq trivial ht fun _ => ?_) fun _ => tri_toInit
      intro c' ch' d' h1
      rw [ht.2] at h1
      cases h1
    | message c ch d =>
      rw [ht1]
      refine STri.bind (tri_message h0 e c ch d (hch ch rfl) hl) fun ok => ?_
      cases ok with
      | true => exact STri.ret fun s hs => (Around.mono hs fun t ht => by simpa using ht).inv
      | false =>
        refine STri.bind (R := fun _ => ChAround A k (Dying A k)) (tri_obj fun t ht => ?_) fun _ => tri_toInit
        simp only [Bool.false_eq_true, if_false] at ht
        exact after_releaseReq trivial ht.1 ht.2
    | released c ch =>
      refine tri_pre tri_toInit fun t ht => ?_
      have hlive : Live A k c0 t := by
        rw [ht, ht1]
        exact h0.got fun _ _ _ hb => by cases hb
      have hg : lastGot t.log = some (.released c ch) := by rw [ht, ht1, lastGot_snoc]
      refine ⟨c0, hlive, ⟨_, hg, trivial⟩, fun _ c' ch' d' h1 => ?_⟩
      rw [hg] at h1
      cases h1
    | associate h => rw [ht1]; exact tri_associate h0 h (hch _ rfl)
    | send h d => rw [ht1]; exact tri_send h0 h d (hch _ rfl)
  · have hst : t1.st = .init := by rw [ht1]; exact h0.st
    rw [hst]
    have quiet : STri (ChInv A) (ChAround A k (· = t1)) (pure () : SM Chans Unit) (fun _ => ChInv A) :=
      STri.ret fun s hs => busy_inv hs (.inr (by rw [ht1]; exact h0.got m))
    cases m with
    | «open» c d => rw [ht1]; exact tri_open h0 e c d
    | close c ch d => exact quiet
    | message c ch d => exact quiet
    | released c ch => exact quiet
    | associate h => exact quiet
    | send h d => exact quiet

/-- A message for a channel that is not in use only leaves its trace. -/
theorem idle_onReceive {e : CEnv} {m : CIn} {s : Chans} (ht : target m ≠ none) (h : (s.objs k).st = .init) :
    onReceive k e m s = (.ok (), s.set k { s.objs k with log := (s.objs k).log ++ [.got m] }) := by
  unfold onReceive note
  rw [bind_ok (obj_run _ _ _), bind_ok (self_run _ _), set_at]
  have : ({ s.objs k with log := (s.objs k).log ++ [.got m] } : Chan).st = .init := h
  simp only [h]
  cases m with
  | «open» c d => exact absurd rfl ht
  | _ => rfl

theorem tri_get {e : CEnv} {m : CIn} {ch : UInt32} (hm : target m = some ch) (hl : A → Long m) :
    STri (ChInv A) (ChInv A) (get ch.toNat (onReceive ch.toNat e m)) (fun _ => ChInv A) := by
  intro s hs
  unfold Ent.get
  by_cases hv : Pool.valid ch.toNat
  · rw [if_pos hv]
    have hch : ∀ c, target m = some c → c = UInt32.ofNat ch.toNat := by
      intro c hc
      rw [hm] at hc
      injection hc with hc
      subst hc
      simp
    rcases hs.around hv with ha | ⟨l, h1, h2, h3⟩
    · exact tri_onReceive hch hl s ha
    · have hi := (h3 _ hv).1 h2
      rw [idle_onReceive (by rw [hm]; simp) hi.st]
      exact spost_ok (Inv.set_idle h1 h2 h3 (hi.got m))
  · rw [if_neg hv]
    trivial

theorem tri_event {e : CEnv} {m : CIn} (hl : A → Long m) : STri (ChInv A) (ChInv A) (event e m) (fun _ => ChInv A) := by
  cases m with
  | «open» c d =>
    refine tri_alloc (fun k => ?_) (STri.ret fun _ h => h)
    exact tri_pre (tri_onReceive (fun ch h => by cases h) hl) fun t h => .inr h
  | close c ch d => exact tri_get rfl hl
  | message c ch d => exact tri_get rfl hl
  | released c ch => exact tri_get rfl hl
  | associate h => exact tri_get rfl hl
  | send h d => exact tri_get rfl hl

theorem idle_create (r t : UInt32) : Idle A k (Chan.create r t) :=
  ⟨rfl, rfl, rfl, by simp [Chan.create], rfl, rfl, rfl, rfl, AllOk.nil⟩

theorem reach_inv {u : Nat → UInt32 × UInt32} {evs : List (CEnv × CIn)} {s : Chans} (h : Reach u evs s)
    (hl : A → ∀ x ∈ evs, Long x.2) : ChInv A s := by
  induction h with
  | create h => exact (create_inv h fun k _ => idle_create _ _).1
  | step h hn ih =>
    have h1 := ih fun a x hx => hl a x (by simp [hx])
    rename_i e m
    rcases settle_ok (tri_event (e := e) (m := m) (fun a => hl a (e, m) (by simp)) _ h1) hn with h2 | ⟨_, h2⟩ <;> exact h2

theorem log_ok {u : Nat → UInt32 × UInt32} {evs : List (CEnv × CIn)} {s : Chans} (h : Reach u evs s)
    (hl : A → ∀ x ∈ evs, Long x.2) (hk : Pool.valid k) : AllOk (Right A k) (s.objs k).log := by
  rcases (reach_inv h hl).around hk with ha | ⟨l, h1, h2, h3⟩
  · rcases ha.at with ⟨c, hc⟩ | hc
    · exact hc.ok
    · exact hc.ok
  · exact ((h3 k hk).1 h2).ok

/-- What an established channel looks like. -/
theorem live_of {u : Nat → UInt32 × UInt32} {evs : List (CEnv × CIn)} {s : Chans} (h : Reach u evs s)
    (hl : A → ∀ x ∈ evs, Long x.2) (hk : Pool.valid k) {c : UInt32} (ho : owner (s.objs k).log = some c) :
    ChAround A k (fun t => t = s.objs k) s ∧ Live A k c (s.objs k) := by
  rcases (reach_inv h hl).around hk with ha | ⟨l, h1, h2, h3⟩
  · rcases ha.at with ⟨c', hc⟩ | hc
    · have := hc.owner
      rw [ho] at this
      injection this with this
      subst this
      obtain ⟨l, h1, h2, h3, h4, _⟩ := ha
      exact ⟨⟨l, h1, h2, h3, h4, rfl⟩, hc⟩
    · rw [hc.owner] at ho
      cases ho
  · rw [((h3 k hk).1 h2).owner] at ho
    cases ho

variable {u : Nat → UInt32 × UInt32} {evs : List (CEnv × CIn)} {s : Chans}

/-- The two views of the owner agree. -/
theorem owner_of_window (h : Reach u evs s) (hl : ∀ x ∈ evs, Long x.2) (hk : Pool.valid k) {w : Window}
    (hw : window (s.objs k).log = some w) : owner (s.objs k).log = some w.owner := by
  have idle : Idle True k (s.objs k) → owner (s.objs k).log = some w.owner := by
    intro hi
    rw [hi.window] at hw
    cases hw
  rcases (reach_inv (A := True) h (fun _ => hl)).around hk with ha | ⟨l, h1, h2, h3⟩
  · rcases ha.at with ⟨c, hc⟩ | hc
    · obtain ⟨b, hb⟩ := hc.window trivial
      rw [hb] at hw
      injection hw with hw
      rw [← hw]
      exact hc.owner
    · exact idle hc
  · exact idle ((h3 k hk).1 h2)

/-! ## C33 -/

/-- C33: whatever the peers send, a message is passed up (and a close request answered) only if it came from the owner
with the token of the channel and the sequence number one above that of the last accepted message; the request id and the
payload passed up are those of the message.  Messages are taken to carry the 12 bytes of token, sequence number and
request id: `C46_transport_partial` shows that the transport layer hands over at least these. -/
theorem C33_fresh (h : Reach u evs s) (hl : ∀ x ∈ evs, Long x.2) (hk : Pool.valid k) : AllOk Fresh (s.objs k).log :=
  fun pre a post e => ((log_ok (A := True) h (fun _ => hl) hk pre a post e).2.1 trivial).1

/-! ## C34 -/

/-- C34: consecutive sequence numbers. -/
theorem C34_consecutive (h : Reach u evs s) (hk : Pool.valid k) : AllOk Consecutive (s.objs k).log :=
  fun pre a post e => (log_ok (A := False) h False.elim hk pre a post e).2.2.1

/-- C34: the first number of a channel is 1 the first time an identifier is used and 0 afterwards (see
`C34_first_violated`). -/
theorem C34_first_partial (h : Reach u evs s) (hk : Pool.valid k) : AllOk First (s.objs k).log :=
  fun pre a post e => (log_ok (A := False) h False.elim hk pre a post e).2.2.2.1

/-! ## C37 -/

/-- C37: everything a channel passes on, up or down, is for the connection that opened it, and caused by a message of
this connection that named this channel. -/
theorem C37_serves (h : Reach u evs s) (hk : Pool.valid k) : AllOk (Serves k) (s.objs k).log :=
  fun pre a post e => (log_ok (A := False) h False.elim hk pre a post e).1

/-! ## C38 -/

/-- C38: a channel ends only at a close request, at the end of a connection, or at a message; associations and answers
do not end it. -/
theorem C38_ends_partial (h : Reach u evs s) (hk : Pool.valid k) : AllOk Ends (s.objs k).log :=
  fun pre a post e => (log_ok (A := False) h False.elim hk pre a post e).2.2.2.2.2.1

/-- C38: accepted messages do not end the channel. -/
theorem C38_accepted_partial (h : Reach u evs s) (hl : ∀ x ∈ evs, Long x.2) (hk : Pool.valid k) : AllOk Rejected (s.objs k).log :=
  fun pre a post e => ((log_ok (A := True) h (fun _ => hl) hk pre a post e).2.1 trivial).2

theorem toInit_run {P : Chan → Prop} (h : ChAround A k P s) : ∃ s', toInit k s = (.ok (), s') ∧ s'.objs k = ended (s.objs k) ∧
    (∀ j, j ≠ k → s'.objs j = s.objs j) ∧ s'.ids.len = s.ids.len + 1 := by
  have hrun : toInit k s = releaseId k (s.set k (ended (s.objs k))) := by
    unfold toInit release note
    rw [bind_ok (obj_run _ _ _), bind_ok (obj_run _ _ _), bind_ok (obj_run _ _ _)]
    simp only [set_at, set_set]
    rfl
  have ha := Around.set (Q := fun _ => True) (t := ended (s.objs k)) h trivial
  obtain ⟨q, hq0, hq⟩ := releaseId_run (k := k) ha
  rw [hrun, hq]
  exact ⟨_, rfl, by simp, fun j hj => by simp only [set_other _ _ hj], release_len ha hq0⟩

/-- The log of `k` grows by `l`, all other channels are left alone. -/
def Grows (k : Nat) (l : List CAct) (s s' : Chans) : Prop := (s'.objs k).log = (s.objs k).log ++ l ∧
  ∀ j, j ≠ k → s'.objs j = s.objs j

theorem next_get {e : CEnv} {m : CIn} {ch : UInt32} (hm : target m = some ch) (hv : Pool.valid ch.toNat) :
    next s e m = settle (onReceive ch.toNat e m s) := by
  unfold next event
  cases m <;> first | (injection hm with hm; subst hm; simp only [Ent.get]; rw [if_pos hv]) | cases hm

/-- Delivery to an established channel. -/
theorem received (h : (s.objs k).st = .established) (e : CEnv) (m : CIn) : onReceive k e m s =
    (match m with
    | .open _ _ => pure ()
    | .close c _ d => do
      receiveClose k e c d
      note k (.releaseReq c)
      toInit k
    | .message c _ d => do
      let ok ← receiveMessage k e c d
      if ok then pure ()
      else do
        note k (.releaseReq c)
        toInit k
    | .released _ _ => toInit k
    | .associate h => receiveAssociate k h
    | .send h d => receiveSend k h d : SM Chans Unit) (s.set k { s.objs k with log := (s.objs k).log ++ [.got m] }) := by
  unfold onReceive
  rw [note, bind_ok (obj_run _ _ _), bind_ok (self_run _ _), set_at]
  simp only [h]
  cases m <;> rfl

/-- A rejected message or close request: release request, end. -/
theorem dies (h : ChAround A k (· = s.objs k) s) (c : UInt32) : ∃ s', (note k (.releaseReq c) >>= fun _ => toInit k) s = (.ok (), s') ∧
    Grows k [.releaseReq c, .released] s s' ∧ s'.ids.len = s.ids.len + 1 := by
  unfold note
  rw [bind_ok (obj_run _ _ _)]
  have h1 := Around.set (Q := fun _ => True) (t := { s.objs k with log := (s.objs k).log ++ [.releaseReq c] }) h trivial
  obtain ⟨s', h2, h3, h4, h5⟩ := toInit_run h1
  refine ⟨s', h2, ⟨?_, fun j hj => by rw [h4 j hj, set_other _ _ hj]⟩, h5⟩
  rw [h3, set_at]
  simp [ended]

theorem next_ok {e : CEnv} {m : CIn} {s' : Chans} {ch : UInt32} (hm : target m = some ch) (hv : Pool.valid ch.toNat)
    (h : onReceive ch.toNat e m s = (.ok (), s')) : next s e m = .ok s' := by
  rw [next_get hm hv, h]
  rfl

/-- Against C38: a close request of any other connection ends the channel, without an answer, and the channel layer asks the
transport layer to release that other connection. -/
theorem C38_foreign_close_violated (h : Reach u evs s) {ch : UInt32} (hv : Pool.valid ch.toNat) {c c' : UInt32}
    (ho : owner (s.objs ch.toNat).log = some c) (hne : c' ≠ c) (e : CEnv) (d : List UInt8) :
    ∃ s', next s e (.close c' ch d) = .ok s' ∧ Grows ch.toNat [.got (.close c' ch d), .releaseReq c', .released] s s' := by
  obtain ⟨ha, hl⟩ := live_of (A := False) h False.elim hv ho
  have h1 := Around.set (Q := (· = { s.objs ch.toNat with log := (s.objs ch.toNat).log ++ [.got (.close c' ch d)] }))
    (t := { s.objs ch.toNat with log := (s.objs ch.toNat).log ++ [.got (.close c' ch d)] }) ha rfl
  obtain ⟨s', h2, ⟨h3, h4⟩, _⟩ := dies (A := False) (k := ch.toNat) (Around.mono h1 fun t ht => by rw [ht, set_at]) c'
  refine ⟨s', next_ok rfl hv ?_, ?_, fun j hj => by rw [h4 j hj, set_other _ _ hj]⟩
  · rw [received hl.st]
    have : receiveClose ch.toNat e c' d (s.set ch.toNat { s.objs ch.toNat with log := (s.objs ch.toNat).log ++ [.got (.close c' ch d)] }) =
        (.ok (), s.set ch.toNat { s.objs ch.toNat with log := (s.objs ch.toNat).log ++ [.got (.close c' ch d)] }) := by
      unfold receiveClose
      rw [bind_ok (self_run _ _), set_at, if_neg]
      · rfl
      · show ¬ (s.objs ch.toNat).conn = _
        rw [hl.conn]
        simpa using hne.symm
    show (receiveClose ch.toNat e c' d >>= _) _ = _
    rw [bind_ok this]
    exact h2
  · rw [h3, set_at]
    simp

/-- Against C38: so does a message of any other connection. -/
theorem C38_foreign_message_violated (h : Reach u evs s) {ch : UInt32} (hv : Pool.valid ch.toNat) {c c' : UInt32}
    (ho : owner (s.objs ch.toNat).log = some c) (hne : c' ≠ c) (e : CEnv) (d : List UInt8) :
    ∃ s', next s e (.message c' ch d) = .ok s' ∧ Grows ch.toNat [.got (.message c' ch d), .releaseReq c', .released] s s' := by
  obtain ⟨ha, hl⟩ := live_of (A := False) h False.elim hv ho
  have h1 := Around.set (Q := (· = { s.objs ch.toNat with log := (s.objs ch.toNat).log ++ [.got (.message c' ch d)] }))
    (t := { s.objs ch.toNat with log := (s.objs ch.toNat).log ++ [.got (.message c' ch d)] }) ha rfl
  obtain ⟨s', h2, ⟨h3, h4⟩, _⟩ := dies (A := False) (k := ch.toNat) (Around.mono h1 fun t ht => by rw [ht, set_at]) c'
  refine ⟨s', next_ok rfl hv ?_, ?_, fun j hj => by rw [h4 j hj, set_other _ _ hj]⟩
  · rw [received hl.st]
    have : receiveMessage ch.toNat e c' d (s.set ch.toNat { s.objs ch.toNat with log := (s.objs ch.toNat).log ++ [.got (.message c' ch d)] }) =
        (.ok false, s.set ch.toNat { s.objs ch.toNat with log := (s.objs ch.toNat).log ++ [.got (.message c' ch d)] }) := by
      unfold receiveMessage
      rw [bind_ok (self_run _ _), set_at, if_neg]
      · rfl
      · show ¬ (s.objs ch.toNat).conn = _
        rw [hl.conn]
        simpa using hne.symm
    show (receiveMessage ch.toNat e c' d >>= _) _ = _
    rw [bind_ok this]
    exact h2
  · rw [h3, set_at]
    simp

/-- The end of a connection ends the channel. -/
theorem release_run (h : Reach u evs s) {ch : UInt32} (hv : Pool.valid ch.toNat) {c c' : UInt32}
    (ho : owner (s.objs ch.toNat).log = some c) (e : CEnv) :
    ∃ s', next s e (.released c' ch) = .ok s' ∧ Grows ch.toNat [.got (.released c' ch), .released] s s' ∧ s'.ids.len = s.ids.len + 1 := by
  obtain ⟨ha, hl⟩ := live_of (A := False) h False.elim hv ho
  have h1 := Around.set (Q := fun _ => True)
    (t := { s.objs ch.toNat with log := (s.objs ch.toNat).log ++ [.got (.released c' ch)] }) ha trivial
  obtain ⟨s', h2, h3, h4, h5⟩ := toInit_run h1
  refine ⟨s', next_ok rfl hv ?_, ⟨?_, fun j hj => by rw [h4 j hj, set_other _ _ hj]⟩, h5⟩
  · rw [received hl.st]
    exact h2
  · rw [h3, set_at]
    simp [ended]

/-- Against C38: and so does the end of any other connection. -/
theorem C38_foreign_release_violated (h : Reach u evs s) {ch : UInt32} (hv : Pool.valid ch.toNat) {c c' : UInt32}
    (ho : owner (s.objs ch.toNat).log = some c) (e : CEnv) :
    ∃ s', next s e (.released c' ch) = .ok s' ∧ Grows ch.toNat [.got (.released c' ch), .released] s s' := by
  obtain ⟨s', h1, h2, -⟩ := release_run h hv (c' := c') ho e
  exact ⟨s', h1, h2⟩

/-! ## C44 -/

/-- A positive answer without diagnostics, strings or additional header. -/
structure Plain (h : UaResponseHeader) : Prop where
  result : h.serviceResult = ⟨0⟩
  diagnostics : h.serviceDiagnostics = .leaf ⟨none, none, none, none, none, none⟩
  strings : h.stringTable = []
  additional : h.additionalHeader = ⟨⟨0, .numeric 0⟩, none⟩

/-- An answer to an open request: it carries `request`, the handle, the channel and the token, and no certificates. -/
def AnswersOpen (ans : List UInt8) (channel token tx request handle lifetime : UInt32) : Prop :=
  ∃ (sec : UaSecurityHeader) (rsp : UaOpenSecureChannelRsp), ans = wire sec ++ (wire (⟨tx, request⟩ : UaSequenceHeader) ++
      wire (Cont.make 449 rsp)) ∧ sec = ⟨⟨policyNone⟩, ⟨[]⟩, ⟨[]⟩⟩ ∧ rsp.responseHdr.requestHandle = handle ∧
    Plain rsp.responseHdr ∧ rsp.serverNonce = ⟨[]⟩ ∧ rsp.securityToken.secureChannelId = channel ∧
    rsp.securityToken.tokenId = token ∧ rsp.securityToken.revisedLifetime = lifetime

/-- An answer to a close request. -/
def AnswersClose (ans : List UInt8) (token tx request handle : UInt32) : Prop :=
  ∃ (rsp : UaCloseSecureChannelRsp), ans = wire (⟨token⟩ : UaSecurityTokenHeader) ++ (wire (⟨tx, request⟩ : UaSequenceHeader) ++
      wire (Cont.make 455 rsp)) ∧ rsp.responseHdr.requestHandle = handle ∧ rsp.responseHdr.serviceResult = ⟨0⟩

/-- The bytes are an encoding, that the standard allows and without null arrays, of an open request with its headers. -/
def SaysOpen (sec : UaSecurityHeader) (seq : UaSequenceHeader) (req : Cont UaOpenSecureChannelReq 446) : List UInt8 → Prop :=
  std false sec ⋄ (std false seq ⋄ std false req)

theorem says_open {sec : UaSecurityHeader} {seq : UaSequenceHeader} {req : Cont UaOpenSecureChannelReq 446} (h1 : Wire.ok sec) (h2 : Wire.ok req) :
    SaysOpen sec seq req (wire sec ++ (wire seq ++ wire req)) :=
  ⟨_, _, Accepts.canon sec h1, ⟨_, _, Accepts.canon seq ⟨trivial, trivial⟩, Accepts.canon req h2, rfl⟩, rfl⟩

theorem open_reads (sec : UaSecurityHeader) (seq : UaSequenceHeader) (req : Cont UaOpenSecureChannelReq 446) {w : List UInt8}
    (h : SaysOpen sec seq req w) : Reads openReqDec w (seq, req.msg) := by
  obtain ⟨a, _, h1, ⟨b, c, h2, h3, rfl⟩, rfl⟩ := h
  have : Reads openReqDec (a ++ (b ++ (c ++ []))) (seq, req.msg) := Reads.bind (Accepts.acc sec a h1) (Reads.bind (Accepts.acc seq b h2) (Reads.bind (Accepts.acc req c h3) (Reads.pure (seq, req.msg))))
  rw [List.append_nil] at this
  exact this

/-- Reading a message from the buffer it was received in; `x` stands behind it. -/
theorem Reads.front {α : Type} {c : Codec α} {w d x : List UInt8} {v : α} (h : Reads c w v) (hd : d = w ++ x) (hl : d.length ≤ 4096)
    (m : Mem) : c ((Buf.create m).append d) = .ok (v, ((Buf.create m).append d).skip w.length) := by
  have hdl : d.length = w.length + x.length := by rw [hd, List.length_append]
  refine h _ ?_ ?_
  · show 0 + w.length ≤ maxPacketLen
    simp only [maxPacketLen]
    omega
  · have hp := load_packet m d
    rw [hdl, memRead_split] at hp
    have hp2 := congrArg (List.take w.length) hp
    rw [List.take_left' (MsgStorage.length_memRead _ _ _), hd, List.take_left' rfl] at hp2
    rw [hd]
    exact hp2

theorem Reads.loaded {α : Type} {c : Codec α} {w d : List UInt8} {v : α} (h : Reads c w v) (hd : d = w) (hl : d.length ≤ 4096)
    (m : Mem) : c ((Buf.create m).append d) = .ok (v, ((Buf.create m).append d).skip w.length) :=
  Reads.front h (x := []) (by rw [hd, List.append_nil]) hl m

/-- An open request, in full. -/
theorem open_run (h : Reach u evs s) (hf : s.ids.len ≠ 0) (e : CEnv) (c : UInt32) (sec : UaSecurityHeader) (seq : UaSequenceHeader)
    (req : Cont UaOpenSecureChannelReq 446) {w : List UInt8} (h1 : SaysOpen sec seq req w) (d x : List UInt8)
    (hd : d = w ++ x) (hl : d.length ≤ 4096) : ∃ k s' ans tx, Pool.valid k ∧
      owner (s.objs k).log = none ∧ next s e (.open c d) = .ok s' ∧
      Grows k [.got (.open c d), .opened c e.token seq.sequenceNumber, .openRsp c (UInt32.ofNat k) ans] s s' ∧
      AnswersOpen ans (UInt32.ofNat k) e.token tx seq.requestId req.msg.requestHdr.requestHandle req.msg.requestLifetime ∧
      (s'.objs k).token = e.token ∧ (s'.objs k).rxSeq = seq.sequenceNumber ∧ lastTx (s'.objs k).log = some tx ∧ s.ids.len = s'.ids.len + 1 := by
  obtain ⟨l, hfree, hgood⟩ := reach_inv (A := False) h False.elim
  have hlen := hfree.holds.hlen
  cases l with
  | nil => exact absurd hlen hf
  | cons k l =>
    have hk := hfree.ids k (by simp)
    have hidle := (hgood k hk).1 (by simp)
    obtain ⟨q, hq, ha⟩ := alloc_run hfree
    refine ⟨k, ({ s with ids := q } : Chans).set k (opened k e c d seq.sequenceNumber seq.requestId
      req.msg.requestHdr.requestHandle req.msg.requestLifetime (s.objs k)), openAnswer e (UInt32.ofNat k) e.token (s.objs k).tx seq.requestId req.msg.requestHdr.requestHandle
      req.msg.requestLifetime, (s.objs k).tx, hk, hidle.owner, ?_, ?_, ?_, by rw [set_at]; rfl, by rw [set_at]; rfl,
      by rw [set_at]; simp only [opened, lastTx_snoc, txOf, openAnswer_tx], by show _ = q.len + 1; rw [hq.holds.hlen]; exact hlen⟩
    rotate_left
    · refine ⟨?_, fun j hj => by rw [set_other _ _ hj]⟩
      rw [set_at]
      simp [opened]
    · exact ⟨_, _, rfl, rfl, rfl, ⟨rfl, rfl, rfl, rfl⟩, rfl, rfl, rfl, rfl⟩
    · have hr := Reads.front (open_reads sec seq req h1) (d := d) (x := x) hd hl e.mem
      show settle ((allocId >>= _) s) = _
      rw [bind_ok ha]
      show settle (onReceive k e (.open c d) { s with ids := q }) = _
      unfold onReceive
      rw [note, bind_ok (obj_run _ _ _), bind_ok (self_run _ _), set_at]
      simp only [hidle.st]
      rw [receiveOpen_eq, SM.assoc, bind_ok (lift_ok (load_ok _ _ hl) _), SM.assoc, bind_ok (lift_ok hr _),
        bind_ok (answerOpen_run _ _ _ _ _ _ _ _), obj_run]
      simp only [set_at, set_set]
      rfl

/-- C44: every well formed open request is answered, if a channel is free and whatever stands behind the request (the transport
layer adds 12 bytes, `C46_transport_partial`): with the request id, the request handle, the
requested life time, the channel id of a channel that was closed, and the token that was drawn for it.  From then on
the channel belongs to the connection and expects this token (`C33_fresh`). -/
theorem C44_open (h : Reach u evs s) (hf : s.ids.len ≠ 0) (e : CEnv) (c : UInt32) (sec : UaSecurityHeader) (seq : UaSequenceHeader)
    (req : Cont UaOpenSecureChannelReq 446) {w : List UInt8} (h1 : SaysOpen sec seq req w) (d x : List UInt8)
    (hd : d = w ++ x) (hl : d.length ≤ 4096) : ∃ k s' ans tx, Pool.valid k ∧
      owner (s.objs k).log = none ∧ next s e (.open c d) = .ok s' ∧
      Grows k [.got (.open c d), .opened c e.token seq.sequenceNumber, .openRsp c (UInt32.ofNat k) ans] s s' ∧
      AnswersOpen ans (UInt32.ofNat k) e.token tx seq.requestId req.msg.requestHdr.requestHandle req.msg.requestLifetime := by
  obtain ⟨k, s', ans, tx, h3, h4, h5, h6, h7, _⟩ := open_run h hf e c sec seq req h1 d x hd hl
  exact ⟨k, s', ans, tx, h3, h4, h5, h6, h7⟩

/-- The state of a channel after a delivery. -/
def delivered (s : Chans) (k : Nat) (m : CIn) : Chans := s.set k { s.objs k with log := (s.objs k).log ++ [.got m] }

theorem mword0 (m : Mem) (a b c : UInt32) (x : List UInt8) {d : List UInt8}
    (hd : d = leBytes 4 a.toNat ++ (leBytes 4 b.toNat ++ (leBytes 4 c.toNat ++ x))) :
    12 ≤ d.length ∧ mword m d 0 = a ∧ mword m d 4 = b ∧ mword m d 8 = c := by
  have hl : d.length = 12 + x.length := by
    rw [hd]
    simp only [List.length_append, MsgStorage.length_leBytes]
    omega
  rw [mword_eq (by omega), mword_eq (by omega), mword_eq (by omega), hd, word_leBytes, word4, word8]
  exact ⟨by rw [← hd]; omega, rfl, rfl, rfl⟩

/-- What an established channel remembers of its client. -/
structure Knows (s : Chans) (ch : UInt32) (w : Window) : Prop where
  owner : Channel.owner (s.objs ch.toNat).log = some w.owner
  token : (s.objs ch.toNat).token = w.token
  seq : (s.objs ch.toNat).rxSeq = w.seq

/-- It is what the history says. -/
theorem knows_of (h : Reach u evs s) (hlong : ∀ x ∈ evs, Long x.2) {ch : UInt32} (hv : Pool.valid ch.toNat) {w : Window}
    (hw : window (s.objs ch.toNat).log = some w) : Knows s ch w := by
  have ho := owner_of_window h hlong hv hw
  obtain ⟨ha, hlive⟩ := live_of (A := True) h (fun _ => hlong) hv ho
  obtain ⟨b, hwin⟩ := hlive.window trivial
  rw [hw] at hwin
  injection hwin with hwin
  have htok : (s.objs ch.toNat).token = w.token := by rw [hwin]
  have hseq : (s.objs ch.toNat).rxSeq = w.seq := by rw [hwin]
  exact ⟨ho, htok, hseq⟩

/-- A close request, in full. -/
theorem close_run (h : Reach u evs s) {ch : UInt32} (hv : Pool.valid ch.toNat) {w : Window} (hw : Knows s ch w) (e : CEnv) (request : UInt32)
    (req : Cont UaCloseSecureChannelReq 452) {body : List UInt8} (h2 : std false req body) (d x : List UInt8)
    (hd : d = wire (⟨w.token⟩ : UaSecurityTokenHeader) ++ (wire (⟨w.seq + 1, request⟩ : UaSequenceHeader) ++ (body ++ x)))
    (hl : d.length ≤ 4096) : ∃ s' ans tx, next s e (.close w.owner ch d) = .ok s' ∧
      Grows ch.toNat [.got (.close w.owner ch d), .closeRsp w.owner ch ans, .releaseReq w.owner, .released] s s' ∧
      AnswersClose ans w.token tx request req.msg.requestHdr.requestHandle ∧ s'.ids.len = s.ids.len + 1 ∧
      ∃ n, lastTx (s.objs ch.toNat).log = some n ∧ tx = n + 1 := by
  obtain ⟨ha, hlive⟩ := live_of (A := False) h False.elim hv hw.owner
  have htok := hw.token
  have hseq := hw.seq
  have hch : UInt32.ofNat ch.toNat = ch := by simp
  obtain ⟨h12, hm0, hm4, hm8⟩ := mword0 e.mem w.token (w.seq + 1) request (body ++ x) (d := d) (by
    rw [hd]
    show leBytes 4 _ ++ (leBytes 4 _ ++ leBytes 4 _ ++ _) = _
    rw [List.append_assoc])
  have hdlen : d.length = 12 + (body.length + x.length) := by
    rw [hd]
    show (leBytes 4 _ ++ (leBytes 4 _ ++ leBytes 4 _ ++ (body ++ x))).length = _
    simp only [List.length_append, MsgStorage.length_leBytes]
    omega
  have hrd : dec (Ua.init : Cont UaCloseSecureChannelReq 452) (((Buf.create e.mem).append d).skip 12) =
      .ok (req, (((Buf.create e.mem).append d).skip 12).skip body.length) := by
    refine Accepts.acc req body h2 _ ?_ ?_
    · show 0 + 12 + _ ≤ maxPacketLen
      simp only [maxPacketLen]
      omega
    · have hp := load_packet e.mem d
      rw [hdlen, memRead_split, memRead_split] at hp
      have hp2 := congrArg (fun l => (List.drop 12 l).take body.length) hp
      rw [List.drop_left' (MsgStorage.length_memRead _ _ _), List.take_left' (MsgStorage.length_memRead _ _ _)] at hp2
      refine Eq.trans ?_ (hp2.trans ?_)
      · rfl
      · rw [hd]
        show (List.drop 12 (leBytes 4 _ ++ (leBytes 4 _ ++ leBytes 4 _ ++ (body ++ x)))).take _ = _
        have hx : ∀ (i j l : Nat) (y : List UInt8), List.drop 12 (leBytes 4 i ++ (leBytes 4 j ++ leBytes 4 l ++ y)) = y := fun i j l y => by
          rw [← List.append_assoc, ← List.append_assoc, List.drop_left' (by simp only [List.length_append, MsgStorage.length_leBytes])]
        rw [hx, List.take_left' rfl]
  have hstate : (delivered s ch.toNat (.close w.owner ch d)).objs ch.toNat =
      { s.objs ch.toNat with log := (s.objs ch.toNat).log ++ [.got (.close w.owner ch d)] } := set_at _ _ _
  have hrun : receiveClose ch.toNat e w.owner d (delivered s ch.toNat (.close w.owner ch d)) = (.ok (), s.set ch.toNat
      { s.objs ch.toNat with
        rxSeq := w.seq + 1, tx := (s.objs ch.toNat).tx + 1
        log := (s.objs ch.toNat).log ++ [.got (.close w.owner ch d)] ++ [.closeRsp w.owner ch (closeAnswer e w.token
          (s.objs ch.toNat).tx request req.msg.requestHdr.requestHandle)] }) := by
    rw [receiveClose_eq, bind_ok (self_run _ _), hstate, if_pos (show (s.objs ch.toNat).conn = _ from hlive.conn),
      bind_ok (by rw [guarded_run _ _ _ _ hl, hstate, if_pos ⟨hm0.trans htok.symm, by rw [hm4]; exact congrArg (· + 1) hseq.symm⟩])]
    show (lift _ >>= _) _ = _
    rw [bind_ok (lift_ok hrd _), answerClose_run]
    simp only [delivered, set_at, set_set, htok, hm4, hm8, hch]
  have h1 := Around.set (Q := (· = { s.objs ch.toNat with
        rxSeq := w.seq + 1, tx := (s.objs ch.toNat).tx + 1
        log := (s.objs ch.toNat).log ++ [.got (.close w.owner ch d)] ++ [.closeRsp w.owner ch (closeAnswer e w.token
          (s.objs ch.toNat).tx request req.msg.requestHdr.requestHandle)] })) (t := { s.objs ch.toNat with
        rxSeq := w.seq + 1, tx := (s.objs ch.toNat).tx + 1
        log := (s.objs ch.toNat).log ++ [.got (.close w.owner ch d)] ++ [.closeRsp w.owner ch (closeAnswer e w.token
          (s.objs ch.toNat).tx request req.msg.requestHdr.requestHandle)] }) ha rfl
  obtain ⟨s', hs1, ⟨hs2, hs3⟩, hs4⟩ := dies (A := False) (k := ch.toNat) (Around.mono h1 fun t ht => by rw [ht, set_at]) w.owner
  refine ⟨s', closeAnswer e w.token (s.objs ch.toNat).tx request req.msg.requestHdr.requestHandle, (s.objs ch.toNat).tx,
    next_ok rfl hv ?_, ⟨?_, fun j hj => by rw [hs3 j hj, set_other _ _ hj]⟩, ⟨⟨{ (Ua.init : UaResponseHeader) with
      timestamp := e.now, requestHandle := req.msg.requestHdr.requestHandle }⟩, rfl, rfl, rfl⟩, hs4, hlive.lastTx⟩
  · rw [received hlive.st]
    show (receiveClose ch.toNat e w.owner d >>= _) (delivered s ch.toNat (.close w.owner ch d)) = _
    rw [bind_ok hrun]
    exact hs1
  · rw [hs2, set_at]
    simp only [List.append_assoc, List.cons_append, List.nil_append]

/-- C44: a close request with the right token and sequence number is answered: the answer carries the token, the request
id and the request handle, whatever stands behind the request.  The channel ends. -/
theorem C44_close (h : Reach u evs s) (hlong : ∀ x ∈ evs, Long x.2) {ch : UInt32} (hv : Pool.valid ch.toNat) {w : Window}
    (hw : window (s.objs ch.toNat).log = some w) (e : CEnv) (request : UInt32)
    (req : Cont UaCloseSecureChannelReq 452) {body : List UInt8} (h2 : std false req body) (d x : List UInt8)
    (hd : d = wire (⟨w.token⟩ : UaSecurityTokenHeader) ++ (wire (⟨w.seq + 1, request⟩ : UaSequenceHeader) ++ (body ++ x)))
    (hl : d.length ≤ 4096) : ∃ s' ans tx, next s e (.close w.owner ch d) = .ok s' ∧
      Grows ch.toNat [.got (.close w.owner ch d), .closeRsp w.owner ch ans, .releaseReq w.owner, .released] s s' ∧
      AnswersClose ans w.token tx request req.msg.requestHdr.requestHandle := by
  obtain ⟨s', ans, tx, h3, h4, h5, _⟩ := close_run h hv (knows_of h hlong hv hw) e request req h2 d x hd hl
  exact ⟨s', ans, tx, h3, h4, h5⟩

/-- An accepted message, in full. -/
theorem accepted_run (h : Reach u evs s) {ch : UInt32} (hv : Pool.valid ch.toNat) {w : Window} (hw : Knows s ch w) (e : CEnv) (request : UInt32)
    (p d : List UInt8)
    (hd : d = wire (⟨w.token⟩ : UaSecurityTokenHeader) ++ (wire (⟨w.seq + 1, request⟩ : UaSequenceHeader) ++ p))
    (hl : d.length ≤ 4068) : ∃ s', next s e (.message w.owner ch d) = .ok s' ∧
      Grows ch.toNat [.got (.message w.owner ch d), .up ⟨w.owner, ch, request, (bound (s.objs ch.toNat).log).getD invalidSuid⟩
        (p ++ memRead e.mem (12 + p.length) 12)] s s' ∧ Knows s' ch { w with seq := w.seq + 1 } ∧ s'.ids = s.ids := by
  obtain ⟨ha, hlive⟩ := live_of (A := False) h False.elim hv hw.owner
  have htok := hw.token
  have hseq := hw.seq
  have hch : UInt32.ofNat ch.toNat = ch := by simp
  have hd' : d = leBytes 4 w.token.toNat ++ (leBytes 4 (w.seq + 1).toNat ++ (leBytes 4 request.toNat ++ p)) := by
    rw [hd]
    show leBytes 4 _ ++ (leBytes 4 _ ++ leBytes 4 _ ++ _) = _
    rw [List.append_assoc]
  obtain ⟨h12, hm0, hm4, hm8⟩ := mword0 e.mem w.token (w.seq + 1) request p (d := d) hd'
  have hdlen : d.length = 12 + p.length := by
    rw [hd']
    simp only [List.length_append, MsgStorage.length_leBytes]
    omega
  have hup : handUp (((Buf.create e.mem).append d).skip 12) = .ok (p ++ memRead e.mem (12 + p.length) 12) := by
    have hsz : (((Buf.create e.mem).append d).skip 12).size = d.length := by
      simp [Buf.size, Buf.skip, Buf.append, Buf.create]
    have htl : (((Buf.create e.mem).append d).skip 12).tail = 12 := rfl
    unfold handUp
    rw [if_pos ⟨by rw [hsz, htl, maxPacketLen]; omega, by rw [hsz]; omega⟩]
    refine congrArg Exec.ok ?_
    show memRead ((Buf.create e.mem).append d).packet 12 (0 + d.length) = _
    have h1 := payload (m := e.mem) h12
    have h3 : memRead ((Buf.create e.mem).append d).packet 12 (0 + d.length) =
        memRead ((Buf.create e.mem).append d).packet 12 p.length ++
          memRead ((Buf.create e.mem).append d).packet (12 + p.length) 12 := by
      rw [show 0 + d.length = p.length + 12 from by omega, memRead_split]
    have h4 : memRead ((Buf.create e.mem).append d).packet 12 p.length = p := by
      have : d.drop 12 = p := by
        rw [hd', ← List.append_assoc, ← List.append_assoc,
          List.drop_left' (by simp only [List.length_append, MsgStorage.length_leBytes])]
      rw [← Nat.zero_add d.length, h3, List.take_append_of_le_length (by rw [MsgStorage.length_memRead]; omega),
        List.take_of_length_le (by rw [MsgStorage.length_memRead]; omega), this] at h1
      exact h1
    rw [h3, h4]
    congr 1
    refine memRead_ext (MsgStorage.length_memRead _ _ _) fun i hi => ?_
    rw [getD_memRead _ _ _ _ hi]
    show memWrite e.mem 0 d _ = _
    simp only [memWrite]
    rw [if_neg (by omega)]
  have hstate : (delivered s ch.toNat (.message w.owner ch d)).objs ch.toNat =
      { s.objs ch.toNat with log := (s.objs ch.toNat).log ++ [.got (.message w.owner ch d)] } := set_at _ _ _
  refine ⟨s.set ch.toNat { s.objs ch.toNat with
        rxSeq := w.seq + 1
        log := (s.objs ch.toNat).log ++ [.got (.message w.owner ch d)] ++
          [.up ⟨w.owner, ch, request, (bound (s.objs ch.toNat).log).getD invalidSuid⟩ (p ++ memRead e.mem (12 + p.length) 12)] },
    next_ok rfl hv ?_, ⟨?_, fun j hj => set_other _ _ hj⟩, ⟨?_, ?_, ?_⟩, rfl⟩
  · rw [received hlive.st]
    show (receiveMessage ch.toNat e w.owner d >>= _) (delivered s ch.toNat (.message w.owner ch d)) = _
    have hrun : receiveMessage ch.toNat e w.owner d (delivered s ch.toNat (.message w.owner ch d)) = (.ok true, s.set ch.toNat
        { s.objs ch.toNat with
          rxSeq := w.seq + 1
          log := (s.objs ch.toNat).log ++ [.got (.message w.owner ch d)] ++
            [.up ⟨w.owner, ch, request, (bound (s.objs ch.toNat).log).getD invalidSuid⟩ (p ++ memRead e.mem (12 + p.length) 12)] }) := by
      unfold receiveMessage
      rw [bind_ok (self_run _ _), hstate, if_pos (show (s.objs ch.toNat).conn = _ from hlive.conn),
        bind_ok (by rw [guarded_run _ _ _ _ (by omega), hstate, if_pos ⟨hm0.trans htok.symm, by rw [hm4]; exact congrArg (· + 1) hseq.symm⟩])]
      show (lift _ >>= _) _ = _
      rw [bind_ok (lift_ok hup _), note, bind_ok (obj_run _ _ _)]
      simp only [delivered, set_at, set_set, hm4, hm8, hch, hlive.bound]
      rfl
    rw [bind_ok hrun]
    rfl
  · rw [set_at]
    simp only [List.append_assoc, List.cons_append, List.nil_append]
  · rw [set_at]
    show Channel.owner (_ ++ [_] ++ [_]) = _
    rw [owner_snoc, owner_snoc]
    exact hw.owner
  · rw [set_at]
    exact htok
  · rw [set_at]

/-- C33, the other direction: a message of the owner with the token and the next sequence number is passed up, whatever its
payload (up to the size of the messages between the layers), with its request id. -/
theorem C33_accepts (h : Reach u evs s) (hlong : ∀ x ∈ evs, Long x.2) {ch : UInt32} (hv : Pool.valid ch.toNat) {w : Window}
    (hw : window (s.objs ch.toNat).log = some w) (e : CEnv) (request : UInt32)
    (p d : List UInt8)
    (hd : d = wire (⟨w.token⟩ : UaSecurityTokenHeader) ++ (wire (⟨w.seq + 1, request⟩ : UaSequenceHeader) ++ p))
    (hl : d.length ≤ 4068) : ∃ s' extra hdr, next s e (.message w.owner ch d) = .ok s' ∧
      Grows ch.toNat [.got (.message w.owner ch d), .up hdr (p ++ extra)] s s' ∧ hdr.requestId = request ∧
      hdr.connectionId = w.owner ∧ hdr.secureChannelId = ch := by
  obtain ⟨s', h1, h2, _⟩ := accepted_run h hv (knows_of h hlong hv hw) e request p d hd hl
  exact ⟨s', _, _, h1, h2, rfl, rfl, rfl⟩

/-! ## C46 -/

/-- C46 for the channel layer: the payload is handed up followed by twelve more bytes: what stood on the stack, 12 bytes from
the end of the message on. -/
theorem C46_channel_partial (h : Reach u evs s) (hlong : ∀ x ∈ evs, Long x.2) {ch : UInt32} (hv : Pool.valid ch.toNat) {w : Window}
    (hw : window (s.objs ch.toNat).log = some w) (e : CEnv) (request : UInt32)
    (p d : List UInt8)
    (hd : d = wire (⟨w.token⟩ : UaSecurityTokenHeader) ++ (wire (⟨w.seq + 1, request⟩ : UaSequenceHeader) ++ p))
    (hl : d.length ≤ 4068) : ∃ s' hdr, next s e (.message w.owner ch d) = .ok s' ∧
      Grows ch.toNat [.got (.message w.owner ch d), .up hdr (p ++ memRead e.mem (12 + p.length) 12)] s s' := by
  obtain ⟨s', h1, h2, _⟩ := accepted_run h hv (knows_of h hlong hv hw) e request p d hd hl
  exact ⟨s', _, h1, h2⟩

/-! ## C48 -/

/-- C48: a channel is opened only while closed and given back only while open, so no identifier is given back twice. -/
theorem C48_paired_partial (h : Reach u evs s) (hk : Pool.valid k) : AllOk Paired (s.objs k).log :=
  fun pre a post e => (log_ok (A := False) h False.elim hk pre a post e).2.2.2.2.2.2

/-- C48: an open channel is never handed out: its identifier is not among the free ones. -/
theorem C48_open_not_free (h : Reach u evs s) (hk : Pool.valid k) (ho : owner (s.objs k).log ≠ none) :
    ∃ l, Queue.Holds s.ids l ∧ l.Nodup ∧ k ∉ l := by
  obtain ⟨l, hf, hg⟩ := reach_inv (A := False) h False.elim
  exact ⟨l, hf.holds, hf.nodup, fun hm => ho ((hg k hk).1 hm).owner⟩

/-- Against C48: an open request that cannot be decoded takes an identifier that no later event gives back: the channel is
left in its initial state, where nothing is released. -/
theorem C48_malformed_violated (h : Reach u evs s) (hf : s.ids.len ≠ 0) (e : CEnv) (c : UInt32) (d : List UInt8) (hl : d.length ≤ 4096)
    (hd : openReqDec ((Buf.create e.mem).append d) = .throws) : ∃ k s', next s e (.open c d) = .ok s' ∧
      Grows k [.got (.open c d)] s s' ∧ owner (s'.objs k).log = none ∧ s'.ids.len + 1 = s.ids.len := by
  obtain ⟨l, hfree, hgood⟩ := reach_inv (A := False) h False.elim
  have hlen := hfree.holds.hlen
  cases l with
  | nil => exact absurd hlen hf
  | cons k l =>
    have hk := hfree.ids k (by simp)
    have hidle := (hgood k hk).1 (by simp)
    obtain ⟨q, hq, ha⟩ := alloc_run hfree
    refine ⟨k, ({ s with ids := q } : Chans).set k { s.objs k with log := (s.objs k).log ++ [.got (.open c d)] }, ?_, ⟨?_, ?_⟩, ?_, ?_⟩
    · show settle ((allocId >>= _) s) = _
      rw [bind_ok ha]
      show settle (onReceive k e (.open c d) { s with ids := q }) = _
      unfold onReceive
      rw [note, bind_ok (obj_run _ _ _), bind_ok (self_run _ _), set_at]
      simp only [hidle.st]
      rw [receiveOpen_eq, SM.assoc, bind_ok (lift_ok (load_ok _ _ hl) _), SM.assoc, bind_run, hd]
      rfl
    · rw [set_at]
    · intro j hj
      rw [set_other _ _ hj]
    · rw [set_at, owner_snoc]
      exact hidle.owner
    · show q.len + 1 = _
      rw [hq.holds.hlen, hlen]
      rfl

/-! ## C49 -/

/-- C49: what a channel passes up names the session it is bound to (or none), and once a channel is bound, only answers
of this session are sent. -/
theorem C49_bound (h : Reach u evs s) (hk : Pool.valid k) : AllOk Bound (s.objs k).log :=
  fun pre a post e => (log_ok (A := False) h False.elim hk pre a post e).2.2.2.2.1

/-- An answer, in full. -/
theorem answer_run (h : Reach u evs s) {hdr : MsgHdr} (hv : Pool.valid hdr.secureChannelId.toNat)
    {w : Window} (hw : Knows s hdr.secureChannelId w) (hc : hdr.connectionId = w.owner)
    (hb : ∀ x, bound (s.objs hdr.secureChannelId.toNat).log = some x → hdr.sessionId = x) (e : CEnv) (d : List UInt8)
    (hl : d.length ≤ 4060) : ∃ s' n m, next s e (.send hdr d) = .ok s' ∧
      lastTx (s.objs hdr.secureChannelId.toNat).log = some n ∧ m = n + 1 ∧
      Grows hdr.secureChannelId.toNat [.got (.send hdr d), .sendReq w.owner hdr.secureChannelId
        (wire (⟨w.token⟩ : UaSecurityTokenHeader) ++ (wire (⟨m, hdr.requestId⟩ : UaSequenceHeader) ++ d))] s s' ∧
      Knows s' hdr.secureChannelId w ∧ s'.ids = s.ids := by
  obtain ⟨ha, hlive⟩ := live_of (A := False) h False.elim hv hw.owner
  have htok := hw.token
  have hch : UInt32.ofNat hdr.secureChannelId.toNat = hdr.secureChannelId := by simp
  obtain ⟨n, hn, htx⟩ := hlive.lastTx
  have hstate : (delivered s hdr.secureChannelId.toNat (.send hdr d)).objs hdr.secureChannelId.toNat =
      { s.objs hdr.secureChannelId.toNat with log := (s.objs hdr.secureChannelId.toNat).log ++ [.got (.send hdr d)] } := set_at _ _ _
  refine ⟨s.set hdr.secureChannelId.toNat { s.objs hdr.secureChannelId.toNat with
      tx := (s.objs hdr.secureChannelId.toNat).tx + 1
      log := (s.objs hdr.secureChannelId.toNat).log ++ [.got (.send hdr d)] ++ [.sendReq w.owner hdr.secureChannelId
        (wire (⟨w.token⟩ : UaSecurityTokenHeader) ++ (wire (⟨n + 1, hdr.requestId⟩ : UaSequenceHeader) ++ d))] }, n, n + 1,
    next_ok rfl hv ?_, hn, rfl, ⟨?_, fun j hj => set_other _ _ hj⟩, ⟨?_, ?_, ?_⟩, rfl⟩
  · rw [received hlive.st]
    show receiveSend hdr.secureChannelId.toNat hdr d (delivered s hdr.secureChannelId.toNat (.send hdr d)) = _
    unfold receiveSend
    have hc1 : (s.objs hdr.secureChannelId.toNat).conn = some hdr.connectionId := by rw [hlive.conn, hc]
    have hs1 : (s.objs hdr.secureChannelId.toNat).session = none ∨
        (s.objs hdr.secureChannelId.toNat).session = some hdr.sessionId := by
      rw [← hlive.bound]
      cases hbb : bound (s.objs hdr.secureChannelId.toNat).log with
      | none => exact .inl rfl
      | some x => exact .inr (by rw [hb x hbb])
    rw [bind_ok (self_run _ _), hstate, if_pos hc1, if_pos hs1, bind_ok (obj_run _ _ _),
      bind_ok (lift_ok (encoded_ok (send_writes _ _ _ _) (by
        simp only [List.length_append, MsgStorage.length_leBytes]; omega)) _), note, obj_run]
    simp only [delivered, set_at, set_set, htok, htx, hch, hc]
    rfl
  · rw [set_at]
    simp only [List.append_assoc, List.cons_append, List.nil_append]
  · rw [set_at]
    show Channel.owner (_ ++ [_] ++ [_]) = _
    rw [owner_snoc, owner_snoc]
    exact hw.owner
  · rw [set_at]
    exact htok
  · rw [set_at]
    exact hw.seq

/-- C37, the other direction: an answer that names the owner, the channel and the bound session is sent: token, next sequence
number, request id of the answer, and exactly the bytes of the answer. -/
theorem C37_answers (h : Reach u evs s) (hlong : ∀ x ∈ evs, Long x.2) {hdr : MsgHdr} (hv : Pool.valid hdr.secureChannelId.toNat)
    {w : Window} (hw : window (s.objs hdr.secureChannelId.toNat).log = some w) (hc : hdr.connectionId = w.owner)
    (hb : ∀ x, bound (s.objs hdr.secureChannelId.toNat).log = some x → hdr.sessionId = x) (e : CEnv) (d : List UInt8)
    (hl : d.length ≤ 4060) : ∃ s' n m, next s e (.send hdr d) = .ok s' ∧
      lastTx (s.objs hdr.secureChannelId.toNat).log = some n ∧ m = n + 1 ∧
      Grows hdr.secureChannelId.toNat [.got (.send hdr d), .sendReq w.owner hdr.secureChannelId
        (wire (⟨w.token⟩ : UaSecurityTokenHeader) ++ (wire (⟨m, hdr.requestId⟩ : UaSequenceHeader) ++ d))] s s' := by
  obtain ⟨s', n, m, h1, h2, h3, h4, _⟩ := answer_run h hv (knows_of h hlong hv hw) hc hb e d hl
  exact ⟨s', n, m, h1, h2, h3, h4⟩

/-! ## Runs -/

def run (s : Chans) : List (CEnv × CIn) → Exec Chans
  | [] => .ok s
  | (e, m) :: evs => do
    let s' ← next s e m
    run s' evs

theorem run_reach {evs evs' : List (CEnv × CIn)} {s s' : Chans} (h : Reach u evs s) (hr : run s evs' = .ok s') :
    Reach u (evs ++ evs') s' := by
  induction evs' generalizing evs s with
  | nil =>
    injection hr with hr
    subst hr
    rwa [List.append_nil]
  | cons x evs' ih =>
    obtain ⟨s1, h1, h2⟩ := Exec.bind_eq_ok.mp hr
    have := ih (.step h h1) h2
    rwa [List.append_assoc] at this

structure View where
  st : ChSt
  log : List CAct
  free : Nat
deriving DecidableEq, Repr

def view (s : Chans) (k : Nat) : View := ⟨(s.objs k).st, (s.objs k).log, s.ids.len⟩

/-- The members that the constructor leaves alone. -/
def unset (_ : Nat) : UInt32 × UInt32 := (0xCDCDCDCD, 0xCDCDCDCD)

def observe (k : Nat) (evs : List (CEnv × CIn)) : Exec View := do
  let s ← Ent.create fun k => Chan.create (unset k).1 (unset k).2
  let s' ← run s evs
  pure (view s' k)

theorem observe_reach {k : Nat} {evs : List (CEnv × CIn)} {x : View} (h : observe k evs = .ok x) :
    ∃ s, Reach unset evs s ∧ view s k = x := by
  obtain ⟨s, h1, h2⟩ := Exec.bind_eq_ok.mp h
  obtain ⟨s', h3, h4⟩ := Exec.bind_eq_ok.mp h2
  injection h4 with h4
  exact ⟨s', run_reach (.create h1) h3, h4⟩

def env : CEnv := { mem := garbage, token := 77, now := ⟨5⟩, now2 := ⟨6⟩ }

/-- An open request: sequence number 51, request id 9, request handle 4, life time 3600000. -/
def openReq : List UInt8 := wire ({ (Ua.init : UaSecurityHeader) with securityPolicyUri := ⟨policyNone⟩ } : UaSecurityHeader) ++
  (wire (⟨51, 9⟩ : UaSequenceHeader) ++ wire (Cont.make 446 { (Ua.init : UaOpenSecureChannelReq) with
    requestHdr := { (Ua.init : UaRequestHeader) with requestHandle := 4 }, requestLifetime := 3600000 }))

/-- A message with the token 77. -/
def msg (seq request : UInt32) (p : List UInt8) : List UInt8 :=
  wire (⟨77⟩ : UaSecurityTokenHeader) ++ (wire (⟨seq, request⟩ : UaSequenceHeader) ++ p)

def closeReq (seq : UInt32) : List UInt8 := msg seq 11 (wire (Cont.make 452 (⟨{ (Ua.init : UaRequestHeader) with requestHandle := 8 }⟩ :
  UaCloseSecureChannelReq)))

/-- The answer to `openReq` for channel `ch`, sequence number `tx`. -/
def openAns (ch tx : UInt32) : List UInt8 := openAnswer env ch 77 tx 9 4 3600000

/-- Connection 3 opens channel 1, sends a request, and gets an answer. -/
def talk : List (CEnv × CIn) := [(env, .open 3 openReq), (env, .message 3 1 (msg 52 10 [1, 2, 3])),
  (env, .send ⟨3, 1, 10, 0x7FFFFFFF⟩ [4, 5])]

def talkLog : List CAct := [.got (.open 3 openReq), .opened 3 77 51, .openRsp 3 1 (openAns 1 1),
  .got (.message 3 1 (msg 52 10 [1, 2, 3])), .up ⟨3, 1, 10, 0x7FFFFFFF⟩ ([1, 2, 3] ++ List.replicate 12 0xCD),
  .got (.send ⟨3, 1, 10, 0x7FFFFFFF⟩ [4, 5]), .sendReq 3 1 (msg 2 10 [4, 5])]

theorem talk_runs : observe 1 talk = .ok ⟨.established, talkLog, 31⟩ := by decide +kernel

theorem talk_reach : ∃ s, Reach unset talk s ∧ (s.objs 1).log = talkLog := by
  obtain ⟨s, h, hv⟩ := observe_reach talk_runs
  exact ⟨s, h, congrArg View.log hv⟩

theorem talk_long : ∀ x ∈ talk, Long x.2 := by
  intro x hx c d hb
  simp only [talk, List.mem_cons, List.not_mem_nil, or_false] at hx
  rcases hx with e | e | e <;> subst e
  · cases hb
  · simp only [body, Option.some.injEq, Prod.mk.injEq] at hb
    rw [← hb.2]
    decide
  · cases hb

/-- The hypotheses of the theorems above can be met: channel 1 belongs to connection 3 and expects number 53. -/
example : ∃ s, Reach unset talk s ∧ window (s.objs 1).log = some ⟨3, 77, 52, false⟩ ∧ owner (s.objs 1).log = some 3 := by
  obtain ⟨s, h, hv⟩ := talk_reach
  exact ⟨s, h, by rw [hv]; decide +kernel, by rw [hv]; decide +kernel⟩

/-- Replayed, skipped, foreign and wrongly marked messages end the channel without being passed up. -/
example : observe 1 (talk ++ [(env, .message 3 1 (msg 52 10 [1, 2, 3]))]) = .ok ⟨.init, talkLog ++
    [.got (.message 3 1 (msg 52 10 [1, 2, 3])), .releaseReq 3, .released], 32⟩ := by decide +kernel

example : observe 1 (talk ++ [(env, .message 3 1 (msg 54 10 [1]))]) = .ok ⟨.init, talkLog ++
    [.got (.message 3 1 (msg 54 10 [1])), .releaseReq 3, .released], 32⟩ := by decide +kernel

example : observe 1 (talk ++ [(env, .message 3 1 (78 :: (msg 53 10 [1]).drop 1))]) = .ok ⟨.init, talkLog ++
    [.got (.message 3 1 (78 :: (msg 53 10 [1]).drop 1)), .releaseReq 3, .released], 32⟩ := by decide +kernel

example : observe 1 (talk ++ [(env, .message 4 1 (msg 53 10 [1]))]) = .ok ⟨.init, talkLog ++
    [.got (.message 4 1 (msg 53 10 [1])), .releaseReq 4, .released], 32⟩ := by decide +kernel

/-- A close request is answered. -/
example : observe 1 (talk ++ [(env, .close 3 1 (closeReq 53))]) = .ok ⟨.init, talkLog ++ [.got (.close 3 1 (closeReq 53)),
    .closeRsp 3 1 (closeAnswer env 77 3 11 8), .releaseReq 3, .released], 32⟩ := by decide +kernel

/-- Binding to session 6: answers of session 7 and of connection 4 are dropped, those of session 6 are sent. -/
example : observe 1 (talk ++ [(env, .associate ⟨3, 1, 0, 6⟩), (env, .send ⟨3, 1, 10, 7⟩ [1]), (env, .send ⟨4, 1, 10, 6⟩ [1]),
      (env, .associate ⟨4, 1, 0, 9⟩), (env, .send ⟨3, 1, 10, 6⟩ [1]), (env, .message 3 1 (msg 53 12 []))]) =
    .ok ⟨.established, talkLog ++ [.got (.associate ⟨3, 1, 0, 6⟩), .associated 6, .got (.send ⟨3, 1, 10, 7⟩ [1]),
      .got (.send ⟨4, 1, 10, 6⟩ [1]), .got (.associate ⟨4, 1, 0, 9⟩), .got (.send ⟨3, 1, 10, 6⟩ [1]), .sendReq 3 1 (msg 3 10 [1]),
      .got (.message 3 1 (msg 53 12 [])), .up ⟨3, 1, 12, 6⟩ (List.replicate 12 0xCD)], 31⟩ := by decide +kernel

/-- Connection 9 closes the channel of connection 3. -/
example : ∃ s s', Reach unset talk s ∧ next s env (.close 9 1 []) = .ok s' ∧
    (s'.objs 1).log = talkLog ++ [.got (.close 9 1 []), .releaseReq 9, .released] := by
  obtain ⟨s, h, hv⟩ := talk_reach
  obtain ⟨s', h1, h2, _⟩ := C38_foreign_close_violated (ch := 1) (c := 3) h (by decide) (by
    rw [show (1 : UInt32).toNat = 1 from rfl, hv]; decide +kernel) (show (9 : UInt32) ≠ 3 by decide) env []
  refine ⟨s, s', h, h1, ?_⟩
  have h3 : (s'.objs 1).log = (s.objs 1).log ++ _ := h2
  rw [h3, hv]

/-- Against C33: a message shorter than its header is judged by what stood on the stack: here an empty message is passed up,
because the stack holds the last message but one with the number of the next. -/
theorem C33_short_violated : observe 1 [(env, .open 3 openReq), ({ env with mem := memWrite garbage 0 (msg 52 10 []) }, .message 3 1 [])] =
    .ok ⟨.established, [.got (.open 3 openReq), .opened 3 77 51, .openRsp 3 1 (openAns 1 1), .got (.message 3 1 []),
      .up ⟨3, 1, 10, 0x7FFFFFFF⟩ []], 31⟩ := by decide +kernel

/-- 31 open requests that cannot be decoded. -/
def broken : List (CEnv × CIn) := List.replicate 31 (env, .open 4 [])

/-- Against C34: the first number is 1 when channel 1 is opened for the first time, and 0 for the second time. -/
theorem C34_first_violated : observe 1 ([(env, .open 3 openReq), (env, .released 3 1)] ++ broken ++ [(env, .open 5 openReq)]) =
    .ok ⟨.established, [.got (.open 3 openReq), .opened 3 77 51, .openRsp 3 1 (openAns 1 1), .got (.released 3 1), .released,
      .got (.open 5 openReq), .opened 5 77 51, .openRsp 5 1 (openAns 1 0)], 0⟩ := by decide +kernel

/-- Against C46: three bytes of payload, fifteen bytes handed up. -/
theorem C46_channel_violated : ∃ s, Reach unset talk s ∧ .got (.message 3 1 (msg 52 10 [1, 2, 3])) ∈ (s.objs 1).log ∧
    .up ⟨3, 1, 10, 0x7FFFFFFF⟩ ([1, 2, 3] ++ List.replicate 12 0xCD) ∈ (s.objs 1).log := by
  obtain ⟨s, h, hv⟩ := talk_reach
  exact ⟨s, h, by rw [hv]; decide +kernel, by rw [hv]; decide +kernel⟩

/-- Against C48: after 32 open requests that cannot be decoded no channel can be opened any more. -/
theorem C48_exhausted_violated : ∃ s s', Reach unset (broken ++ [(env, .open 4 [])]) s ∧ s.ids.len = 0 ∧
    (∀ e c, next s e (.open c openReq) = .ok s') ∧ s' = s := by
  have ho : observe 1 (broken ++ [(env, .open 4 [])]) = .ok ⟨.init, [.got (.open 4 [])], 0⟩ := by decide +kernel
  obtain ⟨s, h, hv⟩ := observe_reach ho
  have hlen : s.ids.len = 0 := congrArg View.free hv
  refine ⟨s, s, h, hlen, fun e c => ?_, rfl⟩
  obtain ⟨l, hfree, _⟩ := reach_inv (A := False) h False.elim
  have hl := hfree.holds.hlen
  rw [hlen] at hl
  cases l with
  | cons _ _ => cases hl
  | nil =>
    have ha : allocId s = (.ok none, s) := by simp only [allocId, hfree.alloc_nil]
    show settle ((allocId >>= _) s) = _
    rw [bind_ok ha]
    rfl

/-! ### The theorems at concrete states -/

/-- What C33, C34, C37, C38, C48 and C49 say about every history, for the history `talk`. -/
example : ∃ s, Reach unset talk s ∧ (s.objs 1).log = talkLog ∧ AllOk Fresh talkLog ∧ AllOk Consecutive talkLog ∧ AllOk First talkLog ∧
    AllOk (Serves 1) talkLog ∧ AllOk Ends talkLog ∧ AllOk Rejected talkLog ∧ AllOk Paired talkLog ∧ AllOk Bound talkLog := by
  obtain ⟨s, h, hv⟩ := talk_reach
  have hk : Pool.valid 1 := by decide
  rw [← hv]
  exact ⟨s, h, rfl, C33_fresh h talk_long hk, C34_consecutive h hk, C34_first_partial h hk, C37_serves h hk, C38_ends_partial h hk,
    C38_accepted_partial h talk_long hk, C48_paired_partial h hk, C49_bound h hk⟩

/-- Channel 1 is open after `talk`, so it is not free. -/
example : ∃ s l, Reach unset talk s ∧ Queue.Holds s.ids l ∧ 1 ∉ l := by
  obtain ⟨s, h, hv⟩ := talk_reach
  obtain ⟨l, hl, _, hn⟩ := C48_open_not_free (k := 1) h (by decide) (by rw [hv]; decide +kernel)
  exact ⟨s, l, h, hl, hn⟩

/-- The next message of connection 3 after `talk` is passed up, with twelve bytes of the stack behind it. -/
example : ∃ s s' hdr, Reach unset talk s ∧ next s env (.message 3 1 (msg 53 12 [7])) = .ok s' ∧
    (s'.objs 1).log = talkLog ++ [.got (.message 3 1 (msg 53 12 [7])), .up hdr ([7] ++ List.replicate 12 0xCD)] := by
  obtain ⟨s, h, hv⟩ := talk_reach
  have hw : window (s.objs (1 : UInt32).toNat).log = some ⟨3, 77, 52, false⟩ := by
    rw [show (1 : UInt32).toNat = 1 from rfl, hv]; decide +kernel
  obtain ⟨_, _, _, _, _, _⟩ := C33_accepts h talk_long (ch := 1) (by decide) hw env 12 [7] _ rfl (by decide +kernel)
  obtain ⟨s', hdr, h1, h2⟩ := C46_channel_partial h talk_long (ch := 1) (by decide) hw env 12 [7] (msg 53 12 [7]) (by decide +kernel) (by decide +kernel)
  have h3 : (s'.objs 1).log = (s.objs 1).log ++ _ := h2.1
  exact ⟨s, s', hdr, h, h1, by rw [h3, hv]; rfl⟩

/-- A second client opens a channel after `talk`. -/
example : ∃ s k s' ans, Reach unset talk s ∧ next s env (.open 5 (openReq ++ [1, 2])) = .ok s' ∧
    (s'.objs k).log = (s.objs k).log ++ [.got (.open 5 (openReq ++ [1, 2])), .opened 5 77 51, .openRsp 5 (UInt32.ofNat k) ans] := by
  obtain ⟨s, h, hv⟩ := observe_reach talk_runs
  obtain ⟨k, s', ans, _, _, _, h1, h2, _⟩ := C44_open h (by rw [show s.ids.len = 31 from congrArg View.free hv]; decide) env 5 _ ⟨51, 9⟩ _
    (says_open (sec := { (Ua.init : UaSecurityHeader) with securityPolicyUri := ⟨policyNone⟩ }) (req := Cont.make 446
      { (Ua.init : UaOpenSecureChannelReq) with requestHdr := { (Ua.init : UaRequestHeader) with requestHandle := 4 }, requestLifetime := 3600000 })
      ⟨by show policyNone.length < 2 ^ 31; decide, by show 0 < 2 ^ 31; decide, by show 0 < 2 ^ 31; decide⟩
      ⟨⟨trivial, rfl, rfl⟩, ⟨trivial, trivial, trivial, trivial, by show 0 < 2 ^ 31; decide, trivial, trivial, trivial, by intro h; cases h⟩, trivial, trivial, trivial,
        by show 0 < 2 ^ 31; decide, trivial⟩) (openReq ++ [1, 2]) [1, 2] rfl (by decide +kernel)
  exact ⟨s, k, s', ans, h, h1, h2.1⟩

/-- Connection 3 closes channel 1 after `talk`. -/
example : ∃ s s' ans, Reach unset talk s ∧ next s env (.close 3 1 (closeReq 53)) = .ok s' ∧
    (s'.objs 1).log = talkLog ++ [.got (.close 3 1 (closeReq 53)), .closeRsp 3 1 ans, .releaseReq 3, .released] := by
  obtain ⟨s, h, hv⟩ := talk_reach
  have hw : window (s.objs (1 : UInt32).toNat).log = some ⟨3, 77, 52, false⟩ := by
    rw [show (1 : UInt32).toNat = 1 from rfl, hv]; decide +kernel
  obtain ⟨s', ans, _, h1, h2, _⟩ := C44_close h talk_long (ch := 1) (by decide) hw env 11 _
    (Accepts.canon (Cont.make 452 (⟨{ (Ua.init : UaRequestHeader) with requestHandle := 8 }⟩ : UaCloseSecureChannelReq))
      ⟨⟨trivial, rfl, rfl⟩, trivial, trivial, trivial, trivial, by show 0 < 2 ^ 31; decide, trivial, trivial, trivial, by intro h; cases h⟩)
    (closeReq 53) [] (by decide +kernel) (by decide +kernel)
  have h3 : (s'.objs 1).log = (s.objs 1).log ++ _ := h2.1
  exact ⟨s, s', ans, h, h1, by rw [h3, hv]⟩

/-- The answer [6] to request 10 is sent with number 3. -/
example : ∃ s s', Reach unset talk s ∧ next s env (.send ⟨3, 1, 10, 5⟩ [6]) = .ok s' ∧
    (s'.objs 1).log = talkLog ++ [.got (.send ⟨3, 1, 10, 5⟩ [6]), .sendReq 3 1 (msg 3 10 [6])] := by
  obtain ⟨s, h, hv⟩ := talk_reach
  have hw : window (s.objs (1 : UInt32).toNat).log = some ⟨3, 77, 52, false⟩ := by
    rw [show (1 : UInt32).toNat = 1 from rfl, hv]; decide +kernel
  have hb : bound (s.objs (1 : UInt32).toNat).log = none := by rw [show (1 : UInt32).toNat = 1 from rfl, hv]; decide +kernel
  obtain ⟨s', n, m, h1, h2, h3, h4⟩ := C37_answers h talk_long (hdr := ⟨3, 1, 10, 5⟩) (by decide) hw rfl (by rw [hb]; intro x hx; cases hx) env [6] (by decide)
  have h5 : (s'.objs 1).log = (s.objs 1).log ++ _ := h4.1
  have h6 : lastTx (s.objs 1).log = some n := h2
  rw [hv, show lastTx talkLog = some 2 by decide +kernel] at h6
  cases h6
  subst h3
  exact ⟨s, s', h, h1, by rw [h5, hv]; rfl⟩

end Uscada.Ua.Channel
