import Verif.UaStackService
/-!
# C73: how many messages the OPC UA components send each other

A handler has a budget.  `Spends logs c k n r m`: the operation `m` appends to log `k` only; what it appends costs at most `n`, and of
this `r a` is left when it returns `a`.

`Law W d`: a price list for messages such that each message is worth what its handler may send, and `d` more.
-/

namespace Uscada.Ua

open SM

variable {σ α β γ : Type}

/-- Log `k` grows by something that costs `n` at most. -/
def Paid (logs : σ → Nat → List α) (c : α → Nat) (k n : Nat) (s s' : σ) : Prop :=
  ∃ new, Adds logs k new s s' ∧ (new.map c).sum ≤ n

structure Spends (logs : σ → Nat → List α) (c : α → Nat) (k n : Nat) (r : β → Nat) (m : SM σ β) : Prop where
  post : ∀ s, SPost (Paid logs c k n s) (fun a s' => ∃ new, Adds logs k new s s' ∧ (new.map c).sum + r a ≤ n) (m s)

namespace Spends

variable {logs : σ → Nat → List α} {c : α → Nat} {k n : Nat} {r : β → Nat} {r' : γ → Nat}

theorem bind {m : SM σ β} {g : β → SM σ γ} (h1 : Spends logs c k n r m) (h2 : ∀ a, Spends logs c k (r a) r' (g a)) :
    Spends logs c k n r' (m >>= g) := by
  refine ⟨fun s => ?_⟩
  have h := h1.post s
  rw [bind_run]
  match hm : m s with
  | (.ok a, s') =>
    rw [hm] at h
    obtain ⟨n1, ha1, hs1⟩ := h
    have h' := (h2 a).post s'
    match hg : g a s' with
    | (.ok b, s'') =>
      rw [hg] at h'
      obtain ⟨n2, ha2, hs2⟩ := h'
      simp only [andThen, hg]
      exact ⟨n1 ++ n2, ha1.trans ha2, by rw [List.map_append, List.sum_append]; omega⟩
    | (.throws, s'') =>
      rw [hg] at h'
      obtain ⟨n2, ha2, hs2⟩ := h'
      simp only [andThen, hg]
      exact ⟨n1 ++ n2, ha1.trans ha2, by rw [List.map_append, List.sum_append]; omega⟩
    | (.abort, s'') => simp only [andThen, hg]; trivial
    | (.ub, s'') => simp only [andThen, hg]; trivial
  | (.throws, s') => rw [hm] at h; exact h
  | (.abort, s') => trivial
  | (.ub, s') => trivial

/-- The operation leaves the logs alone. -/
theorem same {m : SM σ β} (h : ∀ s, SPost (fun s' => logs s' = logs s) (fun _ s' => logs s' = logs s) (m s)) (hr : ∀ a, r a ≤ n) :
    Spends logs c k n r m := by
  refine ⟨fun s => ?_⟩
  have hs := h s
  have key : ∀ s', logs s' = logs s → Adds logs k [] s s' := fun s' e => ⟨by rw [e, List.append_nil], fun j _ => by rw [e]⟩
  match hm : m s with
  | (.ok a, s') => rw [hm] at hs; exact ⟨[], key s' hs, by simpa using hr a⟩
  | (.throws, s') => rw [hm] at hs; exact ⟨[], key s' hs, by simp⟩
  | (.abort, s') => trivial
  | (.ub, s') => trivial

theorem ret {a : β} (h : r a ≤ n) : Spends logs c k n r (pure a : SM σ β) :=
  ⟨fun s => ⟨[], ⟨(List.append_nil _).symm, fun _ _ => rfl⟩, by simpa using h⟩⟩

theorem undefined : Spends logs c k n r (SM.undefined : SM σ β) := ⟨fun _ => trivial⟩

theorem throws : Spends logs c k n r (SM.throws : SM σ β) := ⟨fun _ => ⟨[], ⟨(List.append_nil _).symm, fun _ _ => rfl⟩, by simp⟩⟩

theorem lift {e : Exec β} (h : ∀ a, r a ≤ n) : Spends logs c k n r (SM.lift e) := by
  refine same (fun s => ?_) h
  cases e <;> first | trivial | rfl

theorem weaken {r₂ : β → Nat} {m : SM σ β} (h : Spends logs c k n r m) (hr : ∀ a, r₂ a ≤ r a) : Spends logs c k n r₂ m := by
  refine ⟨fun s => ?_⟩
  have hs := h.post s
  match hm : m s with
  | (.ok a, s') =>
    rw [hm] at hs
    obtain ⟨new, h1, h2⟩ := hs
    exact ⟨new, h1, by have := hr a; omega⟩
  | (.throws, s') => rw [hm] at hs; exact hs
  | (.abort, s') => trivial
  | (.ub, s') => trivial

theorem settled {m : SM σ β} {s s' : σ} (h : Spends logs c k n r m) (hs : settle (m s) = .ok s') : Paid logs c k n s s' := by
  rcases settle_ok (h.post s) hs with h | ⟨_, new, h1, h2⟩
  · exact h
  · exact ⟨new, h1, by omega⟩

end Spends

/-! ## The price of messages -/

/-- Each message is worth what its handler may send, and `d` more.  All messages of one exchange are about one connection. -/
structure Law (W : Mail → Nat) (d : Nat) : Prop where
  openRsp : ∀ k c f b x, W (.chan (.released (UInt32.ofNat k) x)) + d ≤ W (.tcp k (.openRsp c f b))
  closeRsp : ∀ k c f b x, W (.chan (.released (UInt32.ofNat k) x)) + d ≤ W (.tcp k (.closeRsp c f b))
  sendReq : ∀ k c f b x, W (.chan (.released (UInt32.ofNat k) x)) + d ≤ W (.tcp k (.sendReq c f b))
  releaseReq : ∀ k, d ≤ W (.tcp k .releaseReq)
  opens : ∀ c b x f b', W (.tcp c.toNat (.openRsp x f b')) + d ≤ W (.chan (.open c b))
  closes : ∀ c ch b x f b', W (.tcp c.toNat (.closeRsp x f b')) + W (.tcp c.toNat .releaseReq) + d ≤ W (.chan (.close c ch b))
  message : ∀ c ch b h b', h.connectionId = c → W (.sess h b') + d ≤ W (.chan (.message c ch b))
  refused : ∀ c ch b, W (.tcp c.toNat .releaseReq) + d ≤ W (.chan (.message c ch b))
  released : ∀ c ch, d ≤ W (.chan (.released c ch))
  associate : ∀ h, d ≤ W (.chan (.associate h))
  send : ∀ h b x f b', W (.tcp h.connectionId.toNat (.sendReq x f b')) + d ≤ W (.chan (.send h b))
  session : ∀ h b x y b', W (.chan (.associate { h with sessionId := x })) + W (.chan (.send { h with sessionId := y } b')) + d ≤ W (.sess h b)

/-- The price of a message that may be none. -/
def price (W : Mail → Nat) : Option Mail → Nat
  | none => 0
  | some x => W x

theorem price_sum {α : Type} (W : Mail → Nat) (f : α → Option Mail) (l : List α) :
    ((l.filterMap f).map W).sum = (l.map fun a => price W (f a)).sum := by
  induction l with
  | nil => rfl
  | cons a l ih =>
    rw [List.filterMap_cons]
    cases h : f a with
    | none => simp [h, price, ih]
    | some x => simp [h, price, ih]

variable {W : Mail → Nat} {d : Nat}

/-! ## Transport -/

namespace Transport

open Stack (ofTcp)

variable {k n : Nat}

abbrev TSpends (W : Mail → Nat) (k n : Nat) (r : β → Nat) (m : SM Srv β) : Prop := Spends tlogs (fun a => price W (ofTcp k a)) k n r m

theorem sp_self {r : Tcp → Nat} (h : ∀ t, r t ≤ n) : TSpends W k n r (self k) := Spends.same (fun _ => rfl) h

theorem sp_conn {r : Unit → Nat} {g : Tcp → Tcp} (h : ∀ t, (g t).log = t.log) (hr : r () ≤ n) : TSpends W k n r (conn k g) := by
  refine Spends.same (fun s => ?_) fun _ => hr
  show tlogs (s.set k (g (s.conns k))) = tlogs s
  funext j
  simp only [tlogs, Srv.set]
  split
  · subst_vars; exact h _
  · rfl

theorem sp_note {r : Unit → Nat} {a : TAct} (h : price W (ofTcp k a) + r () ≤ n) : TSpends W k n r (note k a) := by
  refine ⟨fun s => ?_⟩
  refine ⟨[a], ⟨?_, fun j hj => ?_⟩, by simpa using h⟩
  · simp [tlogs, Srv.set]
  · simp [tlogs, Srv.set, hj]

theorem sp_releaseId : TSpends W k n (fun _ => n) (releaseId k) := by
  refine Spends.same (fun s => ?_) fun _ => Nat.le_refl _
  unfold releaseId
  split <;> first | trivial | rfl

theorem sp_stopTimer : TSpends W k n (fun _ => n) (stopTimer k) := by
  refine (sp_self fun _ => Nat.le_refl n).bind fun t => ?_
  split
  · exact sp_conn (fun _ => by rfl) (Nat.le_refl _)
  · exact .undefined

theorem sp_startTimer {e : TEnv} : TSpends W k n (fun _ => n) (startTimer k e) := by
  refine (sp_self fun _ => Nat.le_refl n).bind fun t => ?_
  split
  · split
    · exact sp_conn (fun _ => by rfl) (Nat.le_refl _)
    · exact .throws
  · exact .undefined

theorem sp_exit {st : TSt} : TSpends W k n (fun _ => n) (exit k st) := by
  cases st
  · exact .ret (Nat.le_refl _)
  · exact sp_stopTimer
  · exact sp_stopTimer

theorem sp_transit {target : TSt} {m : SM Srv Unit} (h : TSpends W k n (fun _ => n) m) : TSpends W k n (fun _ => n) (transit k target m) := by
  refine (sp_self fun _ => Nat.le_refl n).bind fun t => ?_
  split
  · exact .ret (Nat.le_refl _)
  · exact sp_exit.bind fun _ => (sp_conn (r := fun _ => n) (fun _ => by rfl) (Nat.le_refl _)).bind fun _ => h

theorem sp_toInit : TSpends W k n (fun _ => n) (toInit k) :=
  sp_transit ((sp_conn (r := fun _ => n) (fun _ => by rfl) (Nat.le_refl _)).bind fun _ =>
    (sp_note (r := fun _ => n) (by simp [ofTcp, price])).bind fun _ => sp_releaseId)

theorem sp_enter {e : TEnv} : TSpends W k n (fun _ => n) (startTimer k e >>= fun _ => receivePreaction k) :=
  sp_startTimer.bind fun _ => sp_conn (fun _ => by rfl) (Nat.le_refl _)

theorem sp_fail (h : ∀ c, W (.chan (.released (UInt32.ofNat k) c)) ≤ n) : TSpends W k n (fun _ => 0) (fail k) := by
  refine Spends.bind (r := fun _ => 0) ?_ fun _ => sp_toInit
  refine (sp_self fun _ => Nat.le_refl n).bind fun t => ?_
  split
  · exact .ret (Nat.zero_le _)
  · exact sp_note (by simpa [ofTcp, price] using h _)

theorem sp_linkSend {e : TEnv} {bytes : List UInt8} : TSpends W k n (fun _ => n) (linkSend k e bytes) := by
  refine (sp_self fun _ => Nat.le_refl n).bind fun t => ?_
  split
  · split
    · exact (sp_note (r := fun _ => n) (by simp [ofTcp, price])).bind fun _ => .ret (Nat.le_refl _)
    · exact .ret (Nat.le_refl _)
  · exact .undefined

theorem sp_sendSecured {e : TEnv} {a b c chunk : UInt8} {channel : UInt32} {data : List UInt8} :
    TSpends W k n (fun _ => n) (sendSecured k e a b c chunk channel data) :=
  (Spends.lift (r := fun _ => n) fun _ => Nat.le_refl n).bind fun _ => sp_linkSend

theorem sp_answered {x : Res} (h : ∀ c, W (.chan (.released (UInt32.ofNat k) c)) ≤ n) : TSpends W k n (fun _ => 0) (answered k x) := by
  cases x
  · exact sp_fail h
  · exact .ret (Nat.zero_le _)
  · exact sp_fail h

/-- A message of the secure channel component leads to one message at most. -/
theorem sp_onReceive (hW : Law W d) {e : TEnv} {m : Down} : TSpends W k (W (.tcp k m) - d) (fun _ => 0) (onReceive k e m) := by
  refine (sp_self fun _ => Nat.le_refl _).bind fun t => ?_
  split
  · cases m with
    | openRsp c f b =>
      refine Spends.bind (r := fun _ => W (.tcp k (.openRsp c f b)) - d) ?_ fun x => sp_answered fun y => ?_
      · exact (sp_conn (r := fun _ => _) (fun _ => by rfl) (Nat.le_refl _)).bind fun _ =>
          (sp_note (r := fun _ => W (.tcp k (.openRsp c f b)) - d) (by simp [ofTcp, price])).bind fun _ => sp_sendSecured
      · have := hW.openRsp k c f b y
        omega
    | closeRsp c f b =>
      refine Spends.bind (r := fun _ => W (.tcp k (.closeRsp c f b)) - d) ?_ fun x => sp_answered fun y => ?_
      · refine (sp_self fun _ => Nat.le_refl _).bind fun t => ?_
        split
        · exact sp_sendSecured
        · exact .ret (Nat.le_refl _)
      · have := hW.closeRsp k c f b y
        omega
    | sendReq c f b =>
      refine Spends.bind (r := fun _ => W (.tcp k (.sendReq c f b)) - d) ?_ fun x => sp_answered fun y => ?_
      · refine (sp_self fun _ => Nat.le_refl _).bind fun t => ?_
        split
        · exact sp_sendSecured
        · exact .ret (Nat.le_refl _)
      · have := hW.sendReq k c f b y
        omega
    | releaseReq =>
      exact (sp_note (r := fun _ => 0) (by simp [ofTcp, price])).bind fun _ => sp_toInit
  · exact .ret (Nat.zero_le _)

/-- Everything the transport component may send because of an event of connection `k`. -/
structure Bound (W : Mail → Nat) (k n : Nat) : Prop where
  opens : ∀ b, W (.chan (.open (UInt32.ofNat k) b)) ≤ n
  message : ∀ c b, W (.chan (.message (UInt32.ofNat k) c b)) ≤ n
  close : ∀ c b, W (.chan (.close (UInt32.ofNat k) c b)) ≤ n
  released : ∀ c, W (.chan (.released (UInt32.ofNat k) c)) ≤ n

theorem sp_receiveRx {e : TEnv} : TSpends W k n (fun _ => n) (receiveRx k e) := by
  refine (sp_self fun _ => Nat.le_refl n).bind fun t => ?_
  split
  · exact (Spends.lift (r := fun _ => n) fun _ => Nat.le_refl n).bind fun _ =>
      (sp_conn (r := fun _ => n) (fun _ => by rfl) (Nat.le_refl _)).bind fun _ => .ret (Nat.le_refl _)
  · split
    · exact .ret (Nat.le_refl _)
    · exact .undefined

/-- What is left of the budget: nothing after a chunk was handed up. -/
def left (n : Nat) : Res → Nat
  | .done => 0
  | .noerror => n
  | .error => n

theorem sp_forward (hb : Bound W k n) {ty : SecType} {h : UaMessageHeader} : TSpends W k n (left n) (forward k ty h) := by
  refine (sp_self fun _ => Nat.le_refl n).bind fun t => ?_
  cases ty with
  | msg =>
    show TSpends W k n (left n) (if _ then _ else _)
    split
    · exact (Spends.lift (r := fun _ => n) fun _ => Nat.le_refl n).bind fun _ =>
        (sp_note (r := fun _ => 0) (by simpa [ofTcp, price] using hb.message _ _)).bind fun _ => .ret (Nat.le_refl _)
    · exact .ret (Nat.le_refl _)
  | opn =>
    exact (Spends.lift (r := fun _ => n) fun _ => Nat.le_refl n).bind fun _ =>
        (sp_note (r := fun _ => 0) (by simpa [ofTcp, price] using hb.opens _)).bind fun _ => .ret (Nat.le_refl _)
  | clo =>
    show TSpends W k n (left n) (if _ then _ else _)
    split
    · exact (Spends.lift (r := fun _ => n) fun _ => Nat.le_refl n).bind fun _ =>
        (sp_note (r := fun _ => 0) (by simpa [ofTcp, price] using hb.close _ _)).bind fun _ => .ret (Nat.le_refl _)
    · exact .ret (Nat.le_refl _)
  | invalid => exact .ret (Nat.le_refl _)

theorem sp_receiveHello {e : TEnv} : TSpends W k n (fun _ => n) (receiveHello k e) := by
  refine sp_receiveRx.bind fun x => ?_
  split
  · exact .ret (Nat.le_refl _)
  · exact .ret (Nat.le_refl _)
  · refine Spends.bind (r := fun _ => n) ?_ fun _ => (Spends.lift (r := fun _ => n) fun _ => Nat.le_refl n).bind fun _ => sp_linkSend
    refine (sp_self fun _ => Nat.le_refl n).bind fun t => ?_
    split
    · exact sp_conn (fun _ => by rfl) (Nat.le_refl _)
    · exact (sp_conn (r := fun _ => n) (fun _ => by rfl) (Nat.le_refl _)).bind fun _ => .throws
    · exact .lift fun _ => Nat.le_refl _
    · exact .undefined

theorem sp_onData (hb : Bound W k n) {e : TEnv} : TSpends W k n (fun _ => 0) (onData k e) := by
  refine (sp_self fun _ => Nat.le_refl n).bind fun t => ?_
  split
  · exact .ret (Nat.zero_le _)
  · refine sp_receiveHello.bind fun x => ?_
    split
    · exact .ret (Nat.zero_le _)
    · exact (sp_transit sp_enter).weaken fun _ => Nat.zero_le _
    · exact sp_toInit.weaken fun _ => Nat.zero_le _
  · refine Spends.bind (r := left n) ?_ fun x => ?_
    · refine sp_receiveRx.bind fun x => ?_
      split
      · exact .ret (Nat.le_refl _)
      · exact .ret (Nat.le_refl _)
      · exact (sp_self fun _ => Nat.le_refl n).bind fun t => (Spends.lift (r := fun _ => n) fun _ => Nat.le_refl n).bind fun r =>
          (sp_conn (r := fun _ => n) (fun _ => by rfl) (Nat.le_refl _)).bind fun _ => sp_forward hb
    · split
      · exact .ret (Nat.zero_le _)
      · exact sp_enter
      · exact sp_fail hb.released

theorem sp_onAcceptLink {e : TEnv} : TSpends W k 0 (fun _ => 0) (onAcceptLink k e) := by
  refine (sp_self fun _ => Nat.le_refl 0).bind fun t => ?_
  split
  · refine (sp_conn (r := fun _ => 0) (fun _ => by rfl) (Nat.le_refl _)).bind fun _ => ?_
    refine Spends.bind (r := fun _ => 0) ?_ fun _ =>
      (sp_note (r := fun _ => 0) (by simp [ofTcp, price])).bind fun _ => sp_transit sp_enter
    unfold allocTimer
    split
    · exact sp_conn (fun _ => by rfl) (Nat.le_refl _)
    · exact .throws
  · exact .ret (Nat.le_refl _)

theorem sp_onTimer (hb : Bound W k n) : TSpends W k n (fun _ => 0) (onTimer k) := by
  refine (sp_conn (r := fun _ => n) (fun _ => by rfl) (Nat.le_refl _)).bind fun _ => (sp_self fun _ => Nat.le_refl n).bind fun t => ?_
  split
  · exact .ret (Nat.zero_le _)
  · exact sp_toInit.weaken fun _ => Nat.zero_le _
  · exact sp_fail hb.released

/-- The connection an event that is no message is about; accepting sends nothing. -/
def about : TEv → Option Nat
  | .linkData k => some k
  | .linkError k => some k
  | .timer k => some k
  | _ => none

theorem paid_stay {s : Srv} : Paid tlogs (fun a => price W (ofTcp 0 a)) 0 n s s := ⟨[], ⟨(List.append_nil _).symm, fun _ _ => rfl⟩, by simp⟩

theorem next_paid (hW : Law W d) {B : Nat → Nat} (hB : ∀ k, Bound W k (B k)) {s s' : Srv} {e : TEnv} {v : TEv} (h : next s e v = .ok s') :
    ∃ k, Paid tlogs (fun a => price W (ofTcp k a)) k (match v with
      | .down k m => W (.tcp k m) - d
      | v => match about v with
        | some k => B k
        | none => 0) s s' := by
  cases v with
  | accept =>
    have h : settle ((takeLink e >>= fun _ => allocId >>= fun r => match r with
      | none => pure ()
      | some k => onAcceptLink k e) s) = .ok s' := h
    rw [bind_run] at h
    unfold takeLink at h
    split at h
    · simp only [pure_run, andThen] at h
      rw [bind_run] at h
      unfold allocId at h
      split at h
      · rename_i r q hq
        simp only [andThen] at h
        cases r with
        | none =>
          injection h with h
          subst h
          exact ⟨0, ⟨[], ⟨(List.append_nil _).symm, fun _ _ => rfl⟩, by simp⟩⟩
        | some k => exact ⟨k, sp_onAcceptLink.settled (s := { s with ids := q }) h⟩
      · injection h with h
        subst h
        exact ⟨0, paid_stay⟩
      · cases h
      · cases h
    · injection h with h
      subst h
      exact ⟨0, paid_stay⟩
  | linkData k => exact ⟨k, (sp_onData (hB k)).settled h⟩
  | linkError k => exact ⟨k, (sp_conn (r := fun _ => 0) (fun _ => by rfl) (Nat.zero_le _) : TSpends W k (B k) (fun _ => 0) (onError k)).settled h⟩
  | timer k => exact ⟨k, (sp_onTimer (hB k)).settled h⟩
  | down k m =>
    have h : settle ((if Pool.valid k then onReceive k e m else undefined : SM Srv Unit) s) = .ok s' := h
    split at h
    · exact ⟨k, (sp_onReceive hW).settled h⟩
    · cases h

end Transport

/-! ## Secure channel -/

namespace Channel

open Ent Stack

variable {k n : Nat}

abbrev CSpends (W : Mail → Nat) (k n : Nat) (r : β → Nat) (m : SM Chans β) : Prop := Spends clogs (fun a => price W (ofChan a)) k n r m

theorem sp_self {r : Chan → Nat} (h : ∀ t, r t ≤ n) : CSpends W k n r (Ent.self k) := Spends.same (fun _ => rfl) h

theorem sp_obj {r : Unit → Nat} {g : Chan → Chan} (h : ∀ t, (g t).log = t.log) (hr : r () ≤ n) : CSpends W k n r (obj k g) := by
  refine Spends.same (fun s => ?_) fun _ => hr
  show clogs (s.set k (g (s.objs k))) = clogs s
  funext j
  by_cases e : j = k
  · subst e; simp only [clogs, set_at]; exact h _
  · simp only [clogs, set_other _ _ e]

theorem sp_note {r : Unit → Nat} {a : CAct} (h : price W (ofChan a) + r () ≤ n) : CSpends W k n r (note k a) := by
  refine ⟨fun s => ?_⟩
  refine ⟨[a], ⟨?_, fun j hj => ?_⟩, by simpa using h⟩
  · simp [clogs]
  · simp [clogs, set_other _ _ hj]

theorem sp_releaseId : CSpends W k n (fun _ => n) (Ent.releaseId k) := by
  refine Spends.same (fun s => ?_) fun _ => Nat.le_refl _
  unfold Ent.releaseId
  split <;> first | trivial | rfl

theorem sp_toInit : CSpends W k n (fun _ => n) (toInit k) :=
  (sp_obj (r := fun _ => n) (fun _ => by rfl) (Nat.le_refl _)).bind fun _ =>
    (sp_obj (r := fun _ => n) (fun _ => by rfl) (Nat.le_refl _)).bind fun _ =>
      (sp_note (r := fun _ => n) (by simp [ofChan, price])).bind fun _ => sp_releaseId

theorem sp_ask {c : UInt32} (h : W (.tcp c.toNat .releaseReq) ≤ n) : CSpends W k n (fun _ => 0) (note k (.releaseReq c) >>= fun _ => toInit k) :=
  (sp_note (r := fun _ => 0) (by simpa [ofChan, price] using h)).bind fun _ => sp_toInit

theorem sp_guarded {e : CEnv} {b : List UInt8} : CSpends W k n (fun _ => n) (guarded k e b) := by
  refine (Spends.lift (r := fun _ => n) fun _ => Nat.le_refl n).bind fun _ =>
    (Spends.lift (r := fun _ => n) fun _ => Nat.le_refl n).bind fun h => (sp_self fun _ => Nat.le_refl n).bind fun t => ?_
  split
  · refine (Spends.lift (r := fun _ => n) fun _ => Nat.le_refl n).bind fun q => ?_
    split
    · exact (sp_obj (r := fun _ => n) (fun _ => by rfl) (Nat.le_refl _)).bind fun _ => .ret (Nat.le_refl _)
    · exact .ret (Nat.le_refl _)
  · exact .ret (Nat.le_refl _)

theorem sp_receiveOpen {e : CEnv} {c : UInt32} {b : List UInt8} (h : ∀ x b', W (.tcp c.toNat (.openRsp x 0x46 b')) ≤ n) :
    CSpends W k n (fun _ => 0) (receiveOpen k e c b) := by
  refine receiveOpen_ind (CSpends W k n fun _ => 0) (fun seq request handle lifetime => ⟨fun s => ?_⟩) fun _ _ _ h =>
    (Spends.lift (r := fun _ => n) fun _ => Nat.le_refl n).bind h
  rw [answerOpen_run]
  refine ⟨[.opened c e.token seq, .openRsp c (UInt32.ofNat k) (openAnswer e (UInt32.ofNat k) e.token (s.objs k).tx request handle lifetime)],
    ⟨by simp [clogs], fun j hj => by simp only [clogs, set_other _ _ hj]⟩, ?_⟩
  simpa [ofChan, price] using h _ _

theorem sp_receiveClose {e : CEnv} {c : UInt32} {b : List UInt8} {n' : Nat} (h : ∀ x b', W (.tcp c.toNat (.closeRsp x 0x46 b')) + n' ≤ n) (hn : n' ≤ n) :
    CSpends W k n (fun _ => n') (receiveClose k e c b) := by
  rw [receiveClose_eq]
  refine (sp_self fun _ => Nat.le_refl n).bind fun t => ?_
  split
  · refine sp_guarded.bind fun g => ?_
    split
    · exact .ret hn
    · refine (Spends.lift (r := fun _ => n) fun _ => Nat.le_refl n).bind fun r => ⟨fun s => ?_⟩
      rw [answerClose_run]
      refine ⟨[.closeRsp c (UInt32.ofNat k) (closeAnswer e (s.objs k).token (s.objs k).tx _ _)],
        ⟨by simp only [clogs, set_at]; rfl, fun j hj => by simp only [clogs, set_other _ _ hj]⟩, ?_⟩
      simpa [ofChan, price] using h _ _
  · exact .ret hn

/-- What is left: nothing after a message was handed up. -/
def left (n : Nat) (ok : Bool) : Nat := if ok then 0 else n

theorem sp_receiveMessage {e : CEnv} {c : UInt32} {b : List UInt8} (h : ∀ hd b', hd.connectionId = c → W (.sess hd b') ≤ n) :
    CSpends W k n (left n) (receiveMessage k e c b) := by
  unfold receiveMessage
  refine (sp_self fun _ => Nat.le_refl n).bind fun t => ?_
  split
  · refine sp_guarded.bind fun g => ?_
    split
    · exact .ret (Nat.le_refl _)
    · exact (Spends.lift (r := fun _ => n) fun _ => Nat.le_refl n).bind fun r =>
        (sp_note (r := fun _ => 0) (by simpa [ofChan, price] using h _ _ rfl)).bind fun _ => .ret (Nat.le_refl _)
  · exact .ret (Nat.le_refl _)

theorem sp_receiveSend {h : MsgHdr} {b : List UInt8} (hn : ∀ x b', W (.tcp h.connectionId.toNat (.sendReq x 0x46 b')) ≤ n) :
    CSpends W k n (fun _ => 0) (receiveSend k h b) := by
  unfold receiveSend
  refine (sp_self fun _ => Nat.le_refl n).bind fun t => ?_
  split
  · split
    · exact (sp_obj (r := fun _ => n) (fun _ => by rfl) (Nat.le_refl _)).bind fun _ =>
        (Spends.lift (r := fun _ => n) fun _ => Nat.le_refl n).bind fun r => sp_note (by simpa [ofChan, price] using hn _ _)
    · exact .ret (Nat.zero_le _)
  · exact .ret (Nat.zero_le _)

theorem sp_onReceive (hW : Law W d) {e : CEnv} {m : CIn} : CSpends W k (W (.chan m) - d) (fun _ => 0) (onReceive k e m) := by
  unfold onReceive
  refine (sp_note (r := fun _ => W (.chan m) - d) (by simp [ofChan, price])).bind fun _ => (sp_self fun _ => Nat.le_refl _).bind fun t => ?_
  split
  · rename_i c b _
    refine (sp_receiveOpen fun x b' => ?_).bind fun _ => sp_obj (fun _ => by rfl) (Nat.le_refl _)
    have := hW.opens c b x 0x46 b'
    omega
  · rename_i c ch b _
    have hr : ∀ x b', W (.tcp c.toNat (.closeRsp x 0x46 b')) + W (.tcp c.toNat .releaseReq) + d ≤ W (.chan (.close c ch b)) :=
      fun x b' => hW.closes c ch b x 0x46 b'
    refine (sp_receiveClose (n' := W (.tcp c.toNat .releaseReq)) (fun x b' => ?_) ?_).bind fun _ => sp_ask (Nat.le_refl _)
    · have := hr x b'
      omega
    · have := hr 0 []
      omega
  · rename_i c ch b _
    refine Spends.bind (r := left (W (.chan (.message c ch b)) - d)) (sp_receiveMessage fun hd b' hc => ?_) fun ok => ?_
    · have := hW.message c ch b hd b' hc
      omega
    · cases ok
      · refine sp_ask ?_
        show _ ≤ W (.chan (.message c ch b)) - d
        have := hW.refused c ch b
        omega
      · exact .ret (Nat.zero_le _)
  · exact sp_toInit.weaken fun _ => Nat.zero_le _
  · unfold receiveAssociate
    refine (sp_self fun _ => Nat.le_refl _).bind fun t => ?_
    split
    · exact (sp_obj (r := fun _ => 0) (fun _ => by rfl) (Nat.zero_le _)).bind fun _ => sp_note (by simp [ofChan, price])
    · exact .ret (Nat.zero_le _)
  · rename_i h b _
    refine sp_receiveSend fun x b' => ?_
    have := hW.send h b x 0x46 b'
    omega
  · exact .ret (Nat.zero_le _)

theorem next_paid (hW : Law W d) {s s' : Chans} {e : CEnv} {m : CIn} (hn : next s e m = .ok s') :
    ∃ k, Paid clogs (fun a => price W (ofChan a)) k (W (.chan m) - d) s s' := by
  have hget : ∀ ch : UInt32, settle (Ent.get ch.toNat (onReceive ch.toNat e m) s) = .ok s' →
      ∃ k, Paid clogs (fun a => price W (ofChan a)) k (W (.chan m) - d) s s' := by
    intro ch hc
    unfold Ent.get at hc
    split at hc
    · exact ⟨_, (sp_onReceive hW).settled hc⟩
    · cases hc
  cases m with
  | «open» c b =>
    unfold next event at hn
    simp only [] at hn
    rw [bind_run] at hn
    unfold Ent.allocId at hn
    split at hn
    · rename_i r q hq
      simp only [andThen] at hn
      cases r with
      | none =>
        injection hn with hn
        subst hn
        exact ⟨0, ⟨[], ⟨(List.append_nil _).symm, fun _ _ => rfl⟩, by simp⟩⟩
      | some k => exact ⟨k, (sp_onReceive hW).settled (s := { s with ids := q }) hn⟩
    · injection hn with hn
      subst hn
      exact ⟨0, ⟨[], ⟨(List.append_nil _).symm, fun _ _ => rfl⟩, by simp⟩⟩
    · cases hn
    · cases hn
  | close c ch b => exact hget ch hn
  | message c ch b => exact hget ch hn
  | released c ch => exact hget ch hn
  | associate h => exact hget _ hn
  | send h b => exact hget _ hn

end Channel

/-! ## Sessions -/

namespace Session

open Ent Stack

variable {k : Nat}

theorem react_paid (hW : Law W d) {e : SEnv} {h : MsgHdr} {b : List UInt8} {r : SReq} (t : Sess) :
    ∃ new, (react k e h r t).log = t.log ++ new ∧ (new.map fun a => price W (ofSess a)).sum ≤ W (.sess h b) - d := by
  have h1 : ∀ b', W (.chan (.send h b')) + d ≤ W (.sess h b) := fun b' => by
    have : _ + W (.chan (.send h b')) + d ≤ W (.sess h b) := hW.session h b 0 h.sessionId b'
    omega
  have three : ∀ (p : List SAct) a b c, p ++ [a] ++ [b] ++ [c] = p ++ [a, b, c] := by
    intro p a b c
    simp
  unfold react
  split
  · refine ⟨_, three _ _ _ _, ?_⟩
    simp only [List.map_cons, List.map_nil, List.sum_cons, List.sum_nil, ofSess, price, Nat.zero_add, Nat.add_zero]
    exact Nat.le_sub_of_add_le (h1 _)
  · exact ⟨_, rfl, by simp [ofSess, price]⟩
  · refine ⟨_, three _ _ _ _, ?_⟩
    simp only [List.map_cons, List.map_nil, List.sum_cons, List.sum_nil, ofSess, price, Nat.zero_add, Nat.add_zero]
    exact Nat.le_sub_of_add_le (hW.session h b _ _ _)
  · refine ⟨_, three _ _ _ _, ?_⟩
    simp only [List.map_cons, List.map_nil, List.sum_cons, List.sum_nil, ofSess, price, Nat.zero_add, Nat.add_zero]
    exact Nat.le_sub_of_add_le (h1 _)
  · split
    · refine ⟨_, three _ _ _ _, ?_⟩
      simp only [List.map_cons, List.map_nil, List.sum_cons, List.sum_nil, ofSess, price, Nat.zero_add, Nat.add_zero]
      exact Nat.le_sub_of_add_le (h1 _)
    · exact ⟨_, rfl, by simp [ofSess, price]⟩
  · exact ⟨_, rfl, by simp [ofSess, price]⟩

abbrev Cheap (W : Mail → Nat) (d : Nat) (m : SIn) (s s' : Sessions) : Prop :=
  ∃ k, Paid slogs (fun a => price W (ofSess a)) k (W (.sess m.hdr m.data) - d) s s'

theorem sp_onReceive (hW : Law W d) {e : SEnv} {h : MsgHdr} {b : List UInt8} {r : SReq} :
    Spends slogs (fun a => price W (ofSess a)) k (W (.sess h b) - d) (fun _ => 0) (onReceive k e h r) := by
  refine ⟨fun s => ?_⟩
  obtain ⟨new, h1, h2⟩ := react_paid (k := k) (e := e) (h := h) (b := b) (r := r) hW (s.objs k)
  have hset : Adds slogs k new s (s.set k (react k e h r (s.objs k))) :=
    ⟨by simp only [slogs, set_at]; exact h1, fun j hj => by simp only [slogs, set_other _ _ hj]⟩
  rw [onReceive_run]
  split
  · unfold Ent.releaseId
    split
    · exact ⟨new, hset, h2⟩
    · exact ⟨new, hset, h2⟩
    · trivial
    · trivial
  · exact ⟨new, hset, h2⟩

theorem next_paid (hW : Law W d) {s s' : Sessions} {m : SIn} (hn : next s m = .ok s') : Cheap W d m s s' := by
  have stay : Cheap W d m s s := ⟨0, ⟨[], ⟨(List.append_nil _).symm, fun _ _ => rfl⟩, by simp⟩⟩
  have hget : ∀ (n : Nat) (r : SReq), settle (Ent.get n (onReceive n m.env m.hdr r) s) = .ok s' → Cheap W d m s s' := by
    intro n r hc
    unfold Ent.get at hc
    split at hc
    · exact ⟨_, (sp_onReceive hW).settled hc⟩
    · cases hc
  have htok : ∀ (n : NodeId) (r : SReq), settle (byToken n (fun k => onReceive k m.env m.hdr r) s) = .ok s' → Cheap W d m s s' := by
    intro n r hc
    unfold byToken at hc
    cases hv : n.value with
    | numeric uid => simp only [hv] at hc; exact hget _ _ hc
    | _ => simp only [hv] at hc; injection hc with hc; exact hc ▸ stay
  unfold next event at hn
  cases hload : Channel.load m.env.mem m.data with
  | ok b =>
    rw [bind_ok (lift_ok hload _)] at hn
    cases hdis : dispatch b with
    | ok r =>
      rw [bind_ok (lift_ok hdis _)] at hn
      cases hr : r.1 with
      | none =>
        rw [hr] at hn
        injection hn with hn
        exact hn ▸ stay
      | some q =>
        rw [hr] at hn
        cases q with
        | getEndpoints q =>
          have hn : settle (handle m.env m.hdr (.getEndpoints q) s) = .ok s' := hn
          rw [endpoints_run] at hn
          injection hn with hn
          subst hn
          refine ⟨0, [.got m.hdr (.getEndpoints q), .answer m.hdr (reply m.env 0 (.getEndpoints q))],
            ⟨by simp [slogs], fun j hj => by simp only [slogs, set_other _ _ hj]⟩, ?_⟩
          have : _ + W (.chan (.send m.hdr (reply m.env 0 (.getEndpoints q)))) + d ≤ W (.sess m.hdr m.data) :=
            hW.session m.hdr m.data 0 m.hdr.sessionId (reply m.env 0 (.getEndpoints q))
          simp only [List.map_cons, List.map_nil, List.sum_cons, List.sum_nil, ofSess, price]
          omega
        | create q =>
          have hn : settle ((Ent.allocId >>= fun uid => match uid with
            | none => pure ()
            | some k => onReceive k m.env m.hdr (.create q)) s) = .ok s' := hn
          rw [bind_run] at hn
          unfold Ent.allocId at hn
          split at hn
          · rename_i r q hq
            simp only [andThen] at hn
            cases r with
            | none =>
              injection hn with hn
              subst hn
              exact ⟨0, ⟨[], ⟨(List.append_nil _).symm, fun _ _ => rfl⟩, by simp⟩⟩
            | some k => exact ⟨k, (sp_onReceive hW).settled (s := { s with ids := q }) hn⟩
          · injection hn with hn
            exact hn ▸ stay
          · cases hn
          · cases hn
        | activate q => exact htok _ _ hn
        | close q => exact htok _ _ hn
        | read q =>
          have hn : settle ((if m.hdr.sessionId = invalidSuid then pure ()
            else Ent.get m.hdr.sessionId.toNat (onReceive m.hdr.sessionId.toNat m.env m.hdr (.read q)) : SM Sessions Unit) s) = .ok s' := hn
          split at hn
          · injection hn with hn
            exact hn ▸ stay
          · exact hget _ _ hn
    | throws => rw [bind_run, hdis] at hn; injection hn with hn; exact hn ▸ stay
    | abort => rw [bind_run, hdis] at hn; cases hn
    | ub => rw [bind_run, hdis] at hn; cases hn
  | throws => rw [bind_run, hload] at hn; injection hn with hn; exact hn ▸ stay
  | abort => rw [bind_run, hload] at hn; cases hn
  | ub => rw [bind_run, hload] at hn; cases hn

end Session

end Uscada.Ua
