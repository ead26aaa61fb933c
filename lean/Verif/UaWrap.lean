import Verif.UaChannelProps

/-!
# C103: sequence numbers that wrap

UaServerSecureChannel.cpp:116-123, 185-192.  The numbers of the chunks of a secure channel grow by one; behind 4294966271 (1024 below the end of
the range) the sender begins again with any number below 1024 (OPC 10000-6, 6.7.2.4).
-/

namespace Uscada.Ua.Channel

open SM Ent Wire

/-- The number `n` may follow `m`. -/
def MayFollow (m n : UInt32) : Prop := n.toNat = m.toNat + 1 ∨ 4294966271 < m.toNat ∧ n.toNat < 1024

instance (m n : UInt32) : Decidable (MayFollow m n) := inferInstanceAs (Decidable (_ ∨ _))

/-- The numbers sent on a channel follow each other. -/
def Follows (pre : List CAct) (a : CAct) : Prop := ∀ m n, lastTx pre = some m → txOf a = some n → MayFollow m n

theorem mayFollow_succ (m : UInt32) : MayFollow m (m + 1) := by
  unfold MayFollow
  have h : (m + 1).toNat = (m.toNat + 1) % 2 ^ 32 := UInt32.toNat_add m 1
  have := m.toNat_lt
  omega

variable {u : Nat → UInt32 × UInt32} {evs : List (CEnv × CIn)} {s : Chans} {k : Nat}

/-- C103 (sending): in every history the numbers that a channel sends follow each other as the standard allows, also at the end of the
range. -/
theorem C103_sent_partial (h : Reach u evs s) (hk : Pool.valid k) : AllOk Follows (s.objs k).log := by
  intro pre a post e m n hm hn
  rw [C34_consecutive h hk pre a post e m n hm hn]
  exact mayFollow_succ m

/-- A message of the owner with the token and any number but the next one ends the channel and the connection. -/
theorem refused_run (h : Reach u evs s) {ch : UInt32} (hv : Pool.valid ch.toNat) {w : Window} (hw : Knows s ch w) (e : CEnv) {n : UInt32} (hn : n ≠ w.seq + 1)
    (request : UInt32) (p d : List UInt8) (hd : d = wire (⟨w.token⟩ : UaSecurityTokenHeader) ++ (wire (⟨n, request⟩ : UaSequenceHeader) ++ p)) (hl : d.length ≤ 4096) :
    ∃ s', next s e (.message w.owner ch d) = .ok s' ∧ Grows ch.toNat [.got (.message w.owner ch d), .releaseReq w.owner, .released] s s' := by
  obtain ⟨ha, hlive⟩ := live_of (A := False) h False.elim hv hw.owner
  have hd' : d = leBytes 4 w.token.toNat ++ (leBytes 4 n.toNat ++ (leBytes 4 request.toNat ++ p)) := by
    rw [hd]
    show leBytes 4 _ ++ (leBytes 4 _ ++ leBytes 4 _ ++ _) = _
    rw [List.append_assoc]
  obtain ⟨-, -, hm4, -⟩ := mword0 e.mem w.token n request p (d := d) hd'
  have h1 := Around.set (Q := (· = { s.objs ch.toNat with log := (s.objs ch.toNat).log ++ [.got (.message w.owner ch d)] }))
    (t := { s.objs ch.toNat with log := (s.objs ch.toNat).log ++ [.got (.message w.owner ch d)] }) ha rfl
  obtain ⟨s', h2, ⟨h3, h4⟩, _⟩ := dies (A := False) (k := ch.toNat) (Around.mono h1 fun t ht => by rw [ht, set_at]) w.owner
  refine ⟨s', next_ok rfl hv ?_, ?_, fun j hj => by rw [h4 j hj, set_other _ _ hj]⟩
  · rw [received hlive.st]
    have : receiveMessage ch.toNat e w.owner d (s.set ch.toNat { s.objs ch.toNat with log := (s.objs ch.toNat).log ++ [.got (.message w.owner ch d)] }) =
        (.ok false, s.set ch.toNat { s.objs ch.toNat with log := (s.objs ch.toNat).log ++ [.got (.message w.owner ch d)] }) := by
      unfold receiveMessage
      rw [bind_ok (self_run _ _), set_at, if_pos (show (s.objs ch.toNat).conn = _ from hlive.conn), bind_ok (by
        rw [guarded_run _ _ _ _ hl, set_at, if_neg]
        rintro ⟨-, hx⟩
        rw [hm4] at hx
        exact hn (hx.trans (congrArg (· + 1) hw.seq)))]
      rfl
    show (receiveMessage ch.toNat e w.owner d >>= _) _ = _
    rw [bind_ok this]
    exact h2
  · rw [h3, set_at]
    simp

/-- Against C103: a client that begins again, as it may (and has to, within the next 1024 messages), is thrown out with everything it has: each message
whose number may follow but is not the next one of 32 bits ends the channel and the connection. -/
theorem C103_wrap_violated (h : Reach u evs s) (hlong : ∀ x ∈ evs, Long x.2) {ch : UInt32} (hv : Pool.valid ch.toNat) {w : Window}
    (hw : window (s.objs ch.toNat).log = some w) (e : CEnv) {n : UInt32} (hm : MayFollow w.seq n) (hn : n ≠ w.seq + 1)
    (request : UInt32) (p d : List UInt8) (hd : d = wire (⟨w.token⟩ : UaSecurityTokenHeader) ++ (wire (⟨n, request⟩ : UaSequenceHeader) ++ p)) (hl : d.length ≤ 4068) :
    4294966271 < w.seq.toNat ∧ n.toNat < 1024 ∧ ∃ s', next s e (.message w.owner ch d) = .ok s' ∧
      Grows ch.toNat [.got (.message w.owner ch d), .releaseReq w.owner, .released] s s' := by
  rcases hm with hm | hm
  · refine absurd (UInt32.toNat_inj.mp ?_) hn
    have h : (w.seq + 1).toNat = (w.seq.toNat + 1) % 2 ^ 32 := UInt32.toNat_add w.seq 1
    have := n.toNat_lt
    omega
  · exact ⟨hm.1, hm.2, refused_run h hv (knows_of h hlong hv hw) e hn request p d hd (by omega)⟩

/-- C103 (receiving): elsewhere in the range the next number is accepted (`_partial`: not behind 4294966271, where other numbers may follow,
see `C103_wrap_violated`). -/
theorem C103_next_partial (h : Reach u evs s) (hlong : ∀ x ∈ evs, Long x.2) {ch : UInt32} (hv : Pool.valid ch.toNat) {w : Window}
    (hw : window (s.objs ch.toNat).log = some w) (hs : w.seq.toNat ≤ 4294966271) (e : CEnv) {n : UInt32} (hm : MayFollow w.seq n)
    (request : UInt32) (p d : List UInt8) (hd : d = wire (⟨w.token⟩ : UaSecurityTokenHeader) ++ (wire (⟨n, request⟩ : UaSequenceHeader) ++ p)) (hl : d.length ≤ 4068) :
    ∃ s' extra hdr, next s e (.message w.owner ch d) = .ok s' ∧
      Grows ch.toNat [.got (.message w.owner ch d), .up hdr (p ++ extra)] s s' ∧ hdr.requestId = request := by
  have hn : n = w.seq + 1 := by
    rcases hm with hm | hm
    · refine UInt32.toNat_inj.mp ?_
      have h : (w.seq + 1).toNat = (w.seq.toNat + 1) % 2 ^ 32 := UInt32.toNat_add w.seq 1
      omega
    · omega
  subst hn
  obtain ⟨s', x, hdr, h1, h2, h3, -⟩ := C33_accepts h hlong hv hw e request p d hd hl
  exact ⟨s', x, hdr, h1, h2, h3⟩

/-! ## Examples -/

/-- An open request with the sequence number 4294966272. -/
def oldReq : List UInt8 := wire ({ (Ua.init : UaSecurityHeader) with securityPolicyUri := ⟨policyNone⟩ } : UaSecurityHeader) ++
  (wire (⟨4294966272, 9⟩ : UaSequenceHeader) ++ wire (Cont.make 446 { (Ua.init : UaOpenSecureChannelReq) with
    requestHdr := { (Ua.init : UaRequestHeader) with requestHandle := 4 }, requestLifetime := 3600000 }))

theorem old_runs : observe 1 [(env, .open 3 oldReq)] = .ok ⟨.established, [.got (.open 3 oldReq), .opened 3 77 4294966272, .openRsp 3 1 (openAns 1 1)], 31⟩ := by
  decide +kernel

/-- C103: a client at 4294966272 goes on with 1. -/
example : ∃ s s', Reach unset [(env, .open 3 oldReq)] s ∧ MayFollow 4294966272 1 ∧ next s env (.message 3 1 (msg 1 10 [1, 2, 3])) = .ok s' ∧
    Grows 1 [.got (.message 3 1 (msg 1 10 [1, 2, 3])), .releaseReq 3, .released] s s' := by
  obtain ⟨s, h, hv⟩ := observe_reach old_runs
  obtain ⟨-, -, s', h1, h2⟩ := C103_wrap_violated h (by intro x hx c d hb; rw [List.mem_singleton.mp hx] at hb; cases hb) (ch := 1) (by decide) (w := ⟨3, 77, 4294966272, false⟩)
    (by show window (s.objs 1).log = _; rw [show (s.objs 1).log = _ from congrArg View.log hv]; decide +kernel) env (n := 1) (by decide) (by decide) 10 [1, 2, 3] (msg 1 10 [1, 2, 3]) rfl (by decide +kernel)
  exact ⟨s, s', h, by decide, h1, h2⟩

/-- C103: the client of `talk` goes on with 53, and what was sent to it bears the numbers 1 and 2. -/
example : ∃ s s' x hdr, Reach unset talk s ∧ AllOk Follows (s.objs 1).log ∧ next s env (.message 3 1 (msg 53 11 [7])) = .ok s' ∧
    Grows 1 [.got (.message 3 1 (msg 53 11 [7])), .up hdr ([7] ++ x)] s s' ∧ hdr.requestId = 11 := by
  obtain ⟨s, h, hv⟩ := talk_reach
  obtain ⟨s', x, hdr, h1, h2, h3⟩ := C103_next_partial h talk_long (ch := 1) (by decide) (w := ⟨3, 77, 52, false⟩)
    (by show window (s.objs 1).log = _; rw [hv]; decide +kernel) (by decide) env (n := 53) (by decide) 11 [7] (msg 53 11 [7]) rfl (by decide +kernel)
  exact ⟨s, s', x, hdr, h, C103_sent_partial h (by decide), h1, h2, h3⟩

end Uscada.Ua.Channel
