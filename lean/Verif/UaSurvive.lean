import Verif.UaStackProps
/-!
# C89: what OPC UA peers cannot do to the process

`Tot T P m Q`: started in a state satisfying `P`, the operation `m` is defined and does not terminate the process; it returns in `Q`
or throws in `T`.
-/

namespace Uscada.SM

variable {σ α β : Type}

def TPost (T : σ → Prop) (Q : α → σ → Prop) : Exec α × σ → Prop
  | (.ok a, c) => Q a c
  | (.throws, c) => T c
  | (.abort, _) => False
  | (.ub, _) => False

def Tot (T P : σ → Prop) (m : SM σ α) (Q : α → σ → Prop) : Prop := ∀ c, P c → TPost T Q (m c)

namespace Tot

variable {T P : σ → Prop}

theorem bind {m : SM σ α} {f : α → SM σ β} {R : α → σ → Prop} {Q : β → σ → Prop}
    (h1 : Tot T P m R) (h2 : ∀ a, Tot T (R a) (f a) Q) : Tot T P (m >>= f) Q := by
  intro c hc
  have h := h1 c hc
  rw [bind_run]
  match hm : m c with
  | (.ok a, c') => rw [hm] at h; exact h2 a c' h
  | (.throws, c') => rw [hm] at h; exact h
  | (.abort, c') => rw [hm] at h; exact h
  | (.ub, c') => rw [hm] at h; exact h

theorem ret {Q : α → σ → Prop} {a : α} (h : ∀ c, P c → Q a c) : Tot T P (pure a : SM σ α) Q := h

theorem weaken {P' T' : σ → Prop} {m : SM σ α} {Q Q' : α → σ → Prop} (h : Tot T P m Q) (hp : ∀ c, P' c → P c)
    (hq : ∀ a c, Q a c → Q' a c) (ht : ∀ c, T c → T' c) : Tot T' P' m Q' := by
  intro c hc
  have h := h c (hp c hc)
  match hm : m c with
  | (.ok a, c') => rw [hm] at h; exact hq a c' h
  | (.throws, c') => rw [hm] at h; exact ht c' h
  | (.abort, c') => rw [hm] at h; exact h
  | (.ub, c') => rw [hm] at h; exact h

theorem run {m : SM σ α} {Q : α → σ → Prop} {g : σ → α} {f : σ → σ} (hm : ∀ c, P c → m c = (.ok (g c), f c))
    (h : ∀ c, P c → Q (g c) (f c)) : Tot T P m Q := by
  intro c hc
  rw [hm c hc]
  exact h c hc

theorem settled {m : SM σ α} {Q : α → σ → Prop} (h : Tot T P m Q) {c : σ} (hc : P c) :
    ∃ c', settle (m c) = .ok c' ∧ (T c' ∨ ∃ a, Q a c') := by
  have h := h c hc
  match hm : m c with
  | (.ok a, c') => rw [hm] at h; exact ⟨c', rfl, .inr ⟨a, h⟩⟩
  | (.throws, c') => rw [hm] at h; exact ⟨c', rfl, .inl h⟩
  | (.abort, c') => rw [hm] at h; exact h.elim
  | (.ub, c') => rw [hm] at h; exact h.elim

end Tot

end Uscada.SM

namespace Uscada.Ua

open SM

/-! ## Decoding a Hello -/

theorem readN_inside (n : Nat) (b : Buf) (h : b.tail + n ≤ 4096) : ∃ v, readN n b = .ok (v, { b with tail := b.tail + n }) := by
  induction n generalizing b with
  | zero => exact ⟨[], rfl⟩
  | succ n ih =>
    obtain ⟨v, hv⟩ := ih { b with tail := b.tail + 1 } (by show b.tail + 1 + n ≤ 4096; omega)
    refine ⟨b.packet b.tail :: v, ?_⟩
    have : read b = .ok (b.packet b.tail, { b with tail := b.tail + 1 }) := if_pos (by show b.tail < 4096; omega)
    simp only [readN]
    rw [Codec.bind_run, this, Exec.ok_bind, Codec.bind_run, hv, Exec.ok_bind]
    show Exec.ok _ = _
    simp only [Nat.add_assoc, Nat.add_comm 1]

theorem leBytes_leValue (l : List UInt8) : leBytes l.length (leValue l) = l := by
  induction l with
  | nil => rfl
  | cons b l ih =>
    have hb := b.toNat_lt
    simp only [List.length_cons, leBytes, leValue]
    rw [show (b.toNat + 256 * leValue l) / 256 = leValue l by omega, ih]
    congr 1
    apply UInt8.toNat_inj.mp
    rw [UInt8.toNat_ofNat']
    omega

theorem memRead_leBytes (m : Mem) (i : Nat) : memRead m i 4 = leBytes 4 (leValue (memRead m i 4)) :=
  (leBytes_leValue (memRead m i 4)).symm

/-- How many bytes a string takes whose length field holds `n`. -/
def strSpan (n : Nat) : Nat := if n = 0xFFFFFFFF then 4 else 4 + n

/-- A string whose length leaves it in the array, or whose length is -1, is decoded. -/
theorem str_inside (old : Str) (b : Buf) (h : b.tail + 4 ≤ 4096)
    (hn : b.tail + 4 + leValue (memRead b.packet b.tail 4) ≤ 4096 ∨ leValue (memRead b.packet b.tail 4) = 0xFFFFFFFF) :
    ∃ v, dec old b = .ok (v, { b with tail := b.tail + strSpan (leValue (memRead b.packet b.tail 4)) }) := by
  have hb := memRead_leBytes b.packet b.tail
  generalize leValue (memRead b.packet b.tail 4) = n at hb hn
  rcases hn with hn | hn
  · have hl := i32_len (n := n) (by omega)
    have hw := wire_len (n := n) (by omega)
    have hr := Lawful.reads (Int32.ofNat n) trivial b
      (by rw [hw, MsgStorage.length_leBytes]; exact h)
      (by rw [hw, MsgStorage.length_leBytes]; exact hb)
    have hr : dec (0 : Int32) b = .ok (Int32.ofNat n, { b with tail := b.tail + 4 }) := by
      rw [hw] at hr
      exact hr
    obtain ⟨v, hv⟩ := readN_inside n { b with tail := b.tail + 4 } hn
    refine ⟨⟨v⟩, ?_⟩
    rw [strSpan, if_neg (by omega), ← Nat.add_assoc]
    show (do
        let len ← dec (0 : Int32)
        if len = -1 then Pure.pure old else do
          let bytes ← Ua.readChars len
          Pure.pure (⟨bytes⟩ : Str) : Codec Str) b = _
    rw [Codec.bind_run, hr]
    simp only [Exec.ok_bind]
    rw [if_neg hl.2.2.2.2, Codec.bind_run]
    have : Ua.readChars (Int32.ofNat n) { b with tail := b.tail + 4 } = .ok (v, { b with tail := b.tail + 4 + n }) := by
      simp only [Ua.readChars]
      rw [if_neg hl.2.2.1, hl.2.1]
      exact hv
    rw [this]
    rfl
  · subst hn
    have hr := Lawful.reads (-1 : Int32) trivial b h hb
    refine ⟨old, ?_⟩
    rw [strSpan, if_pos rfl]
    show (do
        let len ← dec (0 : Int32)
        if len = -1 then Pure.pure old else do
          let bytes ← Ua.readChars len
          Pure.pure (⟨bytes⟩ : Str) : Codec Str) b = _
    have hr : dec (0 : Int32) b = .ok (-1, { b with tail := b.tail + 4 }) := hr
    rw [Codec.bind_run, hr]
    rfl

theorem Takes.then_ok {α β : Type} {n : Nat} {d : Codec α} {f : α → Codec β} (h : Takes n d) {b b' : Buf} (hb : b.tail + n ≤ 4096)
    (hf : ∀ v, ∃ w, f v { b with tail := b.tail + n } = .ok (w, b')) : ∃ w, (d >>= f) b = .ok (w, b') := by
  obtain ⟨v, hv⟩ := h b hb
  rw [Codec.bind_run, hv, Exec.ok_bind]
  exact hf v

/-- A Hello at the start of the buffer whose url ends in the buffer, or has length -1, is decoded. -/
theorem hello_inside (b : Buf) (ht : b.tail = 0)
    (hn : leValue (memRead b.packet 28 4) ≤ 4064 ∨ leValue (memRead b.packet 28 4) = 0xFFFFFFFF) :
    handshakeDec .server b = .ok ((), { b with tail := 28 + strSpan (leValue (memRead b.packet 28 4)) }) := by
  suffices ∃ w, handshakeDec .server b = .ok (w, { b with tail := 28 + strSpan (leValue (memRead b.packet 28 4)) }) by
    obtain ⟨w, h⟩ := this
    exact h
  refine Takes.then_ok (Takes.header _) (by omega) fun _ => ?_
  suffices ∀ old : HelloMessage, ∃ w, dec old { b with tail := b.tail + 8 } =
      .ok (w, { b with tail := 28 + strSpan (leValue (memRead b.packet 28 4)) }) by
    obtain ⟨w, h⟩ := this Ua.init
    refine ⟨(), ?_⟩
    rw [Codec.bind_run, h]
    rfl
  intro old
  refine Takes.then_ok (Takes.u32 _) (by show b.tail + 8 + 4 ≤ 4096; omega) fun _ => ?_
  refine Takes.then_ok (Takes.u32 _) (by show b.tail + 8 + 4 + 4 ≤ 4096; omega) fun _ => ?_
  refine Takes.then_ok (Takes.u32 _) (by show b.tail + 8 + 4 + 4 + 4 ≤ 4096; omega) fun _ => ?_
  refine Takes.then_ok (Takes.u32 _) (by show b.tail + 8 + 4 + 4 + 4 + 4 ≤ 4096; omega) fun _ => ?_
  refine Takes.then_ok (Takes.u32 _) (by show b.tail + 8 + 4 + 4 + 4 + 4 + 4 ≤ 4096; omega) fun _ => ?_
  obtain ⟨w, h⟩ := str_inside old.endpointUrl { b with tail := b.tail + 8 + 4 + 4 + 4 + 4 + 4 }
    (by show b.tail + 8 + 4 + 4 + 4 + 4 + 4 + 4 ≤ 4096; omega) (by
      simp only [ht, Nat.zero_add, Nat.reduceAdd]
      rcases hn with hn | hn
      · exact .inl (by omega)
      · exact .inr hn)
  rw [Codec.bind_run, h]
  simp only [ht, Nat.zero_add, Nat.reduceAdd]
  exact ⟨_, rfl⟩

end Uscada.Ua

namespace Uscada.Ua.Transport

open SM

/-! ## Connections -/

/-- What a connection may tell the channel component. -/
def Fit : TAct → Prop
  | .up (.open _ _ d) => d.length ≤ 4056
  | .up (.message c _ d) => Pool.valid c.toNat ∧ d.length ≤ 4056
  | .up (.close c _ d) => Pool.valid c.toNat ∧ d.length ≤ 4056
  | .up (.released c) => Pool.valid c.toNat
  | _ => True

structure Mild (t : Tcp) : Prop where
  log : ∀ a ∈ t.log, Fit a
  assoc : ∀ c, t.assoc = some c → Pool.valid c.toNat

structure Firm (t : Tcp) : Prop extends Mild t where
  tail : t.st ≠ .init → t.rx.tail = 0

/-- Serving, with what it needs. -/
structure Serving (t : Tcp) : Prop where
  st : t.st ≠ .init
  link : t.link = true
  timer : t.timer = true

theorem Mild.note {t : Tcp} (h : Mild t) {a : TAct} (ha : Fit a) : Mild { t with log := t.log ++ [a] } where
  log b hb := by
    rcases List.mem_append.mp hb with hb | hb
    · exact h.log b hb
    · rw [List.mem_singleton.mp hb]
      exact ha
  assoc := h.assoc

/-- Identifier `k` is in use, connection `k` satisfies `P`, and the others are as given. -/
def At (o : Nat → Tcp) (k : Nat) (P : Tcp → Prop) (s : Srv) : Prop :=
  (∃ l, Pool.Free s.ids l ∧ Pool.valid k ∧ k ∉ l) ∧ (∀ j, j ≠ k → s.conns j = o j) ∧ P (s.conns k)

/-- What is left of it at the end. -/
def End (o : Nat → Tcp) (k : Nat) (s : Srv) : Prop := (∀ j, j ≠ k → s.conns j = o j) ∧ Firm (s.conns k)

section rules

variable {o : Nat → Tcp} {k : Nat} {α : Type} {T : Srv → Prop}

theorem At.mono {P Q : Tcp → Prop} {s : Srv} (h : At o k P s) (hpq : ∀ t, P t → Q t) : At o k Q s := ⟨h.1, h.2.1, hpq _ h.2.2⟩

theorem At.end {s : Srv} (h : At o k Firm s) : End o k s := h.2

theorem to_conn {P Q : Tcp → Prop} {f : Tcp → Tcp} (h : ∀ t, P t → Q (f t)) : Tot T (At o k P) (conn k f) (fun _ => At o k Q) := by
  rintro s ⟨h1, h2, h3⟩
  refine ⟨h1, fun j hj => ?_, ?_⟩
  · simp only [Srv.set, if_neg hj]
    exact h2 j hj
  · simp only [Srv.set, if_pos]
    exact h _ h3

theorem to_self {P : Tcp → Prop} {f : Tcp → SM Srv α} {Q : α → Srv → Prop}
    (h : ∀ t, P t → Tot T (At o k (· = t)) (f t) Q) : Tot T (At o k P) (self k >>= f) Q := by
  rintro s ⟨h1, h2, h3⟩
  exact h _ h3 s ⟨h1, h2, rfl⟩

theorem to_pre {P P' : Tcp → Prop} {m : SM Srv α} {Q : α → Srv → Prop} (h : Tot T (At o k P) m Q)
    (hp : ∀ t, P' t → P t) : Tot T (At o k P') m Q := h.weaken (fun _ hc => hc.mono hp) (fun _ _ h => h) (fun _ h => h)

theorem to_ret {P Q : Tcp → Prop} {a : α} (h : ∀ t, P t → Q t) :
    Tot T (At o k P) (pure a : SM Srv α) (fun _ => At o k Q) := Tot.ret fun _ hs => hs.mono h

theorem to_val {P : Tcp → Prop} {Q : α → Tcp → Prop} {a : α} (h : ∀ t, P t → Q a t) :
    Tot T (At o k P) (pure a : SM Srv α) (fun b => At o k (Q b)) := Tot.ret fun _ hs => hs.mono h

theorem to_note {P Q : Tcp → Prop} {a : TAct} (h : ∀ t, P t → Q { t with log := t.log ++ [a] }) :
    Tot T (At o k P) (note k a) (fun _ => At o k Q) := to_conn h

theorem to_lift {e : Exec α} {a : α} {P : Tcp → Prop} (h : e = .ok a) :
    Tot T (At o k P) (lift e) (fun b => At o k fun t => b = a ∧ P t) := by
  subst h
  intro s hs
  exact At.mono (Q := fun t => a = a ∧ P t) hs fun t ht => ⟨rfl, ht⟩

/-- For operations whose outcome is known under an assumption about the connection. -/
theorem to_of {P : Tcp → Prop} {p : Prop} {m : SM Srv α} {Q : α → Srv → Prop} (h : p → Tot T (At o k P) m Q) :
    Tot T (At o k fun t => p ∧ P t) m Q := fun s hs => h hs.2.2.1 s (hs.mono fun _ h => h.2)

theorem to_release : Tot T (At o k fun t => Mild t ∧ t.st = .init) (release k) (fun _ => End o k) := by
  unfold release
  refine Tot.bind (R := fun _ => At o k fun t => Mild t ∧ t.st = .init)
    (to_conn fun t ht => ⟨⟨ht.1.log, fun c hc => by cases hc⟩, ht.2⟩) fun _ => ?_
  refine Tot.bind (R := fun _ => At o k fun t => Mild t ∧ t.st = .init) (to_note fun t ht => ⟨ht.1.note trivial, ht.2⟩) fun _ => ?_
  rintro s ⟨⟨l, h1, h2, h3⟩, h4, h5, h6⟩
  obtain ⟨q, hq, -⟩ := h1.release h2 h3
  simp only [releaseId, hq]
  exact ⟨h4, h5, fun h => absurd h6 h⟩

theorem to_stop {P : Tcp → Prop} (h : ∀ t, P t → t.timer = true) (hp : ∀ t, P t → P { t with armed := false }) :
    Tot T (At o k P) (stopTimer k) (fun _ => At o k P) := by
  unfold stopTimer
  refine to_self fun t ht => ?_
  rw [if_pos (h t ht)]
  exact to_conn fun t' e => by rw [e]; exact hp t ht

theorem to_start {e : TEnv} (he : e.starts = true) {P : Tcp → Prop} (h : ∀ t, P t → t.timer = true)
    (hp : ∀ t, P t → P { t with armed := true }) : Tot T (At o k P) (startTimer k e) (fun _ => At o k P) := by
  unfold startTimer
  refine to_self fun t ht => ?_
  rw [if_pos (h t ht), if_pos he]
  exact to_conn fun t' e => by rw [e]; exact hp t ht

theorem to_exit {P : Tcp → Prop} {st : TSt} (h : ∀ t, P t → t.timer = true ∨ st = .init)
    (hp : ∀ t, P t → P { t with armed := false }) : Tot T (At o k P) (exit k st) (fun _ => At o k P) := by
  unfold exit
  cases st with
  | init => exact Tot.ret fun _ h => h
  | hello => exact to_stop (fun t ht => (h t ht).resolve_right (by simp)) hp
  | connected => exact to_stop (fun t ht => (h t ht).resolve_right (by simp)) hp

theorem to_toInit : Tot T (At o k fun t => Mild t ∧ Serving t) (toInit k) (fun _ => End o k) := by
  unfold toInit transit
  refine to_self fun t ht => ?_
  rw [if_neg ht.2.st]
  refine Tot.bind (R := fun _ => At o k fun t => Mild t ∧ Serving t)
    (to_pre (to_exit (fun t h => .inl h.2.timer) fun t h => ⟨⟨h.1.log, h.1.assoc⟩, ⟨h.2.st, h.2.link, h.2.timer⟩⟩)
      fun t' e => e ▸ ht) fun _ => ?_
  exact Tot.bind (to_conn fun t h => ⟨⟨h.1.log, h.1.assoc⟩, rfl⟩) fun _ => to_release

theorem to_reset {P : Tcp → Prop} (h : ∀ t, P t → Mild t) : Tot T (At o k P) (receivePreaction k) (fun _ => End o k) := by
  refine (to_conn (Q := Firm) fun t ht => ?_).weaken (fun _ h => h) (fun _ _ h => h.2) (fun _ h => h)
  exact ⟨⟨(h t ht).log, (h t ht).assoc⟩, fun _ => rfl⟩

theorem to_toConnected {e : TEnv} (he : e.starts = true) :
    Tot T (At o k fun t => Mild t ∧ Serving t ∧ t.st = .hello) (toConnected k e) (fun _ => End o k) := by
  unfold toConnected transit
  refine to_self fun t ht => ?_
  rw [if_neg (by rw [ht.2.2]; simp)]
  refine Tot.bind (R := fun _ => At o k fun t => Mild t ∧ t.timer = true)
    (to_pre (to_exit (fun t h => .inl h.2) fun t h => ⟨⟨h.1.log, h.1.assoc⟩, h.2⟩)
      fun t' e => e ▸ ⟨ht.1, ht.2.1.timer⟩) fun _ => ?_
  refine Tot.bind (R := fun _ => At o k fun t => Mild t ∧ t.timer = true) (to_conn fun t h => ⟨⟨h.1.log, h.1.assoc⟩, h.2⟩) fun _ => ?_
  exact Tot.bind (to_start he (fun t h => h.2) fun t h => ⟨⟨h.1.log, h.1.assoc⟩, h.2⟩) fun _ => to_reset fun t h => h.1

theorem to_toHello {e : TEnv} (he : e.starts = true) :
    Tot T (At o k fun t => Mild t ∧ t.st = .init ∧ t.timer = true) (toHello k e) (fun _ => End o k) := by
  unfold toHello transit
  refine to_self fun t ht => ?_
  rw [if_neg (by rw [ht.2.1]; simp), ht.2.1]
  refine Tot.bind (R := fun _ => At o k fun t => Mild t ∧ t.timer = true)
    (to_ret fun t' e => e ▸ ⟨ht.1, ht.2.2⟩) fun _ => ?_
  refine Tot.bind (R := fun _ => At o k fun t => Mild t ∧ t.timer = true) (to_conn fun t h => ⟨⟨h.1.log, h.1.assoc⟩, h.2⟩) fun _ => ?_
  exact Tot.bind (to_start he (fun t h => h.2) fun t h => ⟨⟨h.1.log, h.1.assoc⟩, h.2⟩) fun _ => to_reset fun t h => h.1

theorem to_fail : Tot T (At o k fun t => Mild t ∧ Serving t) (fail k) (fun _ => End o k) := by
  unfold fail sendReleaseInd
  refine Tot.bind (R := fun _ => At o k fun t => Mild t ∧ Serving t) ?_ fun _ => to_toInit
  refine to_self fun t ht => ?_
  split
  · exact to_ret fun t' e => e ▸ ht
  · rename_i c hc
    refine to_note fun t' e => ?_
    subst e
    exact ⟨ht.1.note (ht.1.assoc c hc), ⟨ht.2.st, ht.2.link, ht.2.timer⟩⟩

theorem to_linkSend {e : TEnv} {bytes : List UInt8} {P : Tcp → Prop} (h : ∀ t, P t → t.link = true)
    (hp : ∀ t, P t → P { t with log := t.log ++ [.sent bytes] }) : Tot T (At o k P) (linkSend k e bytes)
      (fun r => At o k fun t => r ≠ .noerror ∧ P t) := by
  unfold linkSend
  refine to_self fun t ht => ?_
  rw [if_pos (h t ht)]
  split
  · exact Tot.bind (R := fun _ => At o k P) (to_note fun t' e => by rw [e]; exact hp t ht) fun _ =>
      to_val (Q := fun (r : Res) t => r ≠ .noerror ∧ P t) fun _ h => ⟨by simp, h⟩
  · exact to_val (Q := fun (r : Res) t => r ≠ .noerror ∧ P t) fun t' e => e ▸ ⟨by simp, ht⟩

/-! ### Data -/

/-- What is done with a complete chunk does not hurt: the url of a Hello ends in the receive buffer or has length -1; a secured
message has at most 4056 bytes. -/
def Polite (t : Tcp) (x : Modbus.Rx) : Prop :=
  ∀ b, receive t.opened x t.rx = .ok (.done, b) →
    (t.st = .hello → leValue (memRead b.packet 28 4) ≤ 4064 ∨ leValue (memRead b.packet 28 4) = 0xFFFFFFFF) ∧
    (t.st = .connected → b.head ≤ 4056)

theorem receive_tail {op : Bool} {x : Modbus.Rx} {b b' : Buf} {r : Res} (h : receive op x b = .ok (r, b')) : b'.tail = b.tail := by
  unfold receive at h
  split at h
  · injection h with h; injection h with _ h; rw [← h]
  · split at h
    · cases x with
      | na => injection h with h; injection h with _ h; rw [← h]
      | error => injection h with h; injection h with _ h; rw [← h]
      | ok bytes =>
        obtain ⟨y, _, h⟩ := Exec.bind_eq_ok.mp h
        injection h with h; injection h with _ h; rw [← h]; rfl
    · injection h with h; injection h with _ h; rw [← h]

theorem to_receiveRx {t : Tcp} (hs : Firm t) (hu : Serving t) {e : TEnv} :
    Tot T (At o k (· = t)) (receiveRx k e) (fun r => At o k fun t' => ∃ b, receive t.opened e.rx t.rx = .ok (r, b) ∧ b.tail = 0 ∧
      t' = { t with rx := b }) := by
  unfold receiveRx
  refine to_self fun t' ht => ?_
  subst ht
  rw [if_pos hu.link]
  obtain ⟨⟨r, b⟩, hr⟩ := C47_framing t'.opened e.rx t'.rx (hs.tail hu.st)
  refine Tot.bind (to_lift hr) fun x => to_of fun hx => ?_
  subst hx
  refine Tot.bind (R := fun _ => At o k (· = { t' with rx := b })) (to_conn fun t'' e => by rw [e]) fun _ => ?_
  refine to_val (Q := fun r t'' => ∃ b, receive t'.opened e.rx t'.rx = .ok (r, b) ∧ b.tail = 0 ∧ t'' = { t' with rx := b }) fun t'' ht => ?_
  exact ⟨b, hr, (receive_tail hr).trans (hs.tail hu.st), ht⟩

theorem to_onHello {t : Tcp} (hs : Firm t) (hu : Serving t) (hst : t.st = .hello) {e : TEnv} (he : e.starts = true) (hp : Polite t e.rx) :
    Tot T (At o k (· = t)) (onData k e) (fun _ => End o k) := by
  unfold onData
  refine to_self fun t' ht => ?_
  subst ht
  rw [hst]
  show Tot T _ (receiveHello k e >>= _) _
  refine Tot.bind (R := fun r => At o k fun t => Mild t ∧ Serving t ∧ t.st = .hello ∧ (r = .noerror → Firm t)) ?_ fun r => ?_
  · unfold receiveHello
    refine Tot.bind (to_receiveRx hs hu) fun r => ?_
    cases r with
    | noerror =>
      refine to_val (Q := fun (r : Res) t => Mild t ∧ Serving t ∧ t.st = .hello ∧ (r = .noerror → Firm t)) fun t ht => ?_
      obtain ⟨b, h1, h2, rfl⟩ := ht
      exact ⟨⟨hs.log, hs.assoc⟩, ⟨hu.st, hu.link, hu.timer⟩, hst, fun _ => ⟨⟨hs.log, hs.assoc⟩, fun _ => h2⟩⟩
    | error =>
      refine to_val (Q := fun (r : Res) t => Mild t ∧ Serving t ∧ t.st = .hello ∧ (r = .noerror → Firm t)) fun t ht => ?_
      obtain ⟨b, h1, h2, rfl⟩ := ht
      exact ⟨⟨hs.log, hs.assoc⟩, ⟨hu.st, hu.link, hu.timer⟩, hst, fun h => by cases h⟩
    | done =>
      rintro s ⟨h1, h2, b, hr, hb, h3⟩
      have hb' := hello_inside b hb ((hp b hr).1 hst)
      have hd : Tot T (At o k (· = { t' with rx := b })) (decodeHello k) fun _ => At o k fun t => ∃ c, t = { t' with rx := c } := by
        unfold decodeHello
        refine to_self fun t ht => ?_
        subst ht
        rw [hb']
        exact to_conn fun t e => by subst e; exact ⟨_, rfl⟩
      refine Tot.bind hd (fun _ => ?_) s ⟨h1, h2, h3⟩
      unfold sendAcknowledge
      refine Tot.bind (to_lift (C45_acknowledge garbage)) fun f => to_of fun _ => ?_
      refine (to_linkSend (P := fun t => Mild t ∧ Serving t ∧ t.st = .hello) (fun t h => h.2.1.link)
        fun t h => ⟨h.1.note trivial, ⟨h.2.1.st, h.2.1.link, h.2.1.timer⟩, h.2.2⟩).weaken
        (fun c hc => hc.mono ?_) (fun r c hc => ?_) (fun _ h => h)
      · rintro t ⟨c, rfl⟩
        exact ⟨⟨hs.log, hs.assoc⟩, ⟨hu.st, hu.link, hu.timer⟩, hst⟩
      · exact hc.mono fun t h => ⟨h.2.1, h.2.2.1, h.2.2.2, fun e => absurd e h.1⟩
  · cases r with
    | noerror => exact Tot.ret fun s h => h.2.1 |> fun _ => ⟨h.2.1, h.2.2.2.2.2 rfl⟩
    | done => exact to_pre (to_toConnected he) fun t h => ⟨h.1, h.2.1, h.2.2.1⟩
    | error => exact to_pre to_toInit fun t h => ⟨h.1, h.2.1⟩

theorem handUp_inside {b : Buf} (ht : b.tail = 12) (hh : b.head ≤ 4056) : ∃ d, handUp b = .ok d ∧ d.length ≤ 4056 := by
  refine ⟨b.bytes, if_pos ⟨?_, ?_⟩, by rw [Buf.bytes, MsgStorage.length_memRead]; exact hh⟩
  · show b.tail + b.head ≤ 4096
    omega
  · show b.head ≤ 4072
    omega

theorem to_forward {t : Tcp} (hs : Mild t) (hu : Serving t) (ht : t.rx.tail = 12) (hh : t.rx.head ≤ 4056) (ty : SecType)
    (h : UaMessageHeader) : Tot T (At o k (· = t)) (forward k ty h) (fun r => At o k fun t => r ≠ .noerror ∧ Mild t ∧ Serving t) := by
  obtain ⟨d, hd, hl⟩ := handUp_inside ht hh
  have hup : ∀ m, Fit (.up m) → Tot T (At o k (· = t)) (do
      let _ ← lift (handUp t.rx)
      note k (.up m)
      pure Res.done) (fun r => At o k fun t => r ≠ .noerror ∧ Mild t ∧ Serving t) := by
    intro m hm
    refine Tot.bind (to_lift hd) fun d' => to_of fun _ => ?_
    refine Tot.bind (R := fun _ => At o k fun t => Mild t ∧ Serving t) (to_note fun t' e => ?_) fun _ => ?_
    · subst e
      exact ⟨hs.note hm, ⟨hu.st, hu.link, hu.timer⟩⟩
    · exact to_val (Q := fun (r : Res) t => r ≠ .noerror ∧ Mild t ∧ Serving t) fun t ht => ⟨by simp, ht⟩
  have herr : Tot T (At o k (· = t)) (pure Res.error) (fun r => At o k fun t => r ≠ .noerror ∧ Mild t ∧ Serving t) :=
    to_val (Q := fun (r : Res) t => r ≠ .noerror ∧ Mild t ∧ Serving t) fun t' e => e ▸ ⟨by simp, hs, hu⟩
  have hgive : ∀ m : List UInt8 → Up, Fit (.up (m d)) → Tot T (At o k (· = t)) (do
      let d ← lift (handUp t.rx)
      note k (.up (m d))
      pure Res.done) (fun r => At o k fun t => r ≠ .noerror ∧ Mild t ∧ Serving t) := by
    intro m hm
    rw [hd]
    rw [hd] at hup
    exact hup (m d) hm
  unfold forward
  refine to_self fun t' e => ?_
  subst e
  cases ty with
  | msg =>
    show Tot T _ (if _ then _ else _) _
    split
    · rename_i ha
      exact hgive (.message h.secureChannelId h.isFinal) ⟨hs.assoc _ ha, hl⟩
    · exact herr
  | opn => exact hgive (.open h.secureChannelId h.isFinal) hl
  | clo =>
    show Tot T _ (if _ then _ else _) _
    split
    · rename_i ha
      exact hgive (.close h.secureChannelId h.isFinal) ⟨hs.assoc _ ha, hl⟩
    · exact herr
  | invalid => exact herr

theorem to_onSecured {t : Tcp} (hs : Firm t) (hu : Serving t) (hst : t.st = .connected) {e : TEnv} (he : e.starts = true)
    (hp : Polite t e.rx) : Tot T (At o k (· = t)) (onData k e) (fun _ => End o k) := by
  unfold onData
  refine to_self fun t' ht => ?_
  subst ht
  rw [hst]
  show Tot T _ (receiveSecuredMessage k e >>= _) _
  refine Tot.bind (R := fun r => At o k fun t => Mild t ∧ Serving t ∧ (r = .noerror → Firm t)) ?_ fun r => ?_
  · unfold receiveSecuredMessage
    refine Tot.bind (to_receiveRx hs hu) fun r => ?_
    cases r with
    | noerror =>
      refine to_val (Q := fun (r : Res) t => Mild t ∧ Serving t ∧ (r = .noerror → Firm t)) fun t ht => ?_
      obtain ⟨b, h1, h2, rfl⟩ := ht
      exact ⟨⟨hs.log, hs.assoc⟩, ⟨hu.st, hu.link, hu.timer⟩, fun _ => ⟨⟨hs.log, hs.assoc⟩, fun _ => h2⟩⟩
    | error =>
      refine to_val (Q := fun (r : Res) t => Mild t ∧ Serving t ∧ (r = .noerror → Firm t)) fun t ht => ?_
      obtain ⟨b, h1, h2, rfl⟩ := ht
      exact ⟨⟨hs.log, hs.assoc⟩, ⟨hu.st, hu.link, hu.timer⟩, fun h => by cases h⟩
    | done =>
      rintro s ⟨h1, h2, b, hr, hb, h3⟩
      obtain ⟨v, hv⟩ := Takes.secHeader (Ua.init : UaMessageHeader) b (by omega)
      have hd : Tot T (At o k (· = { t' with rx := b })) (do
          let t ← self k
          let r ← lift (dec (Ua.init : UaMessageHeader) t.rx)
          conn k fun t => { t with rx := r.2 }
          forward k (secType t.rx) r.1) (fun r => At o k fun t => r ≠ .noerror ∧ Mild t ∧ Serving t) := by
        refine to_self fun t ht => ?_
        subst ht
        refine Tot.bind (to_lift hv) fun x => to_of fun hx => ?_
        subst hx
        refine Tot.bind (R := fun _ => At o k (· = { t' with rx := { b with tail := b.tail + 12 } })) (to_conn fun t e => by rw [e])
          fun _ => ?_
        exact to_forward (t := { t' with rx := { b with tail := b.tail + 12 } }) ⟨hs.log, hs.assoc⟩ ⟨hu.st, hu.link, hu.timer⟩ (by show b.tail + 12 = 12; omega) ((hp b hr).2 hst) _ _
      refine (hd.weaken (fun _ h => h) (fun r c hc => ?_) (fun _ h => h)) s ⟨h1, h2, h3⟩
      exact hc.mono fun t h => ⟨h.2.1, h.2.2, fun e => absurd e h.1⟩
  · cases r with
    | noerror => exact Tot.ret fun s h => ⟨h.2.1, h.2.2.2.2 rfl⟩
    | done =>
      exact Tot.bind (R := fun _ => At o k fun t => Mild t ∧ Serving t) (to_pre (to_start he (fun t h => h.2.timer)
        fun t h => ⟨⟨h.1.log, h.1.assoc⟩, ⟨h.2.st, h.2.link, h.2.timer⟩⟩) fun t h => ⟨h.1, h.2.1⟩) fun _ => to_reset fun t h => h.1
    | error => exact to_pre to_fail fun t h => ⟨h.1, h.2.1⟩

/-! ### Messages from the channel component -/

/-- What the channel component may tell a connection. -/
def Named : Down → Prop
  | .openRsp c _ d => Pool.valid c.toNat ∧ d.length ≤ 276
  | .closeRsp _ _ d => d.length ≤ 276
  | .sendReq _ _ d => d.length ≤ 276
  | .releaseReq => True

theorem to_secured {a b c chunk : UInt8} {e : TEnv} {channel : UInt32} {data : List UInt8} (hd : data.length ≤ 276) :
    Tot T (At o k fun t => Firm t ∧ Serving t) (sendSecured k e a b c chunk channel data) (fun _ => At o k fun t => Firm t ∧ Serving t) := by
  unfold sendSecured
  refine Tot.bind (to_lift (C45_secured garbage a b c chunk channel data (by omega))) fun f => to_of fun _ => ?_
  refine (to_linkSend (fun t h => h.2.link) fun t h => ?_).weaken (fun _ h => h) (fun r c hc => hc.mono fun t h => h.2) (fun _ h => h)
  exact ⟨⟨h.1.toMild.note trivial, h.1.tail⟩, ⟨h.2.st, h.2.link, h.2.timer⟩⟩

theorem to_answered (r : Res) : Tot T (At o k fun t => Firm t ∧ Serving t) (answered k r) (fun _ => End o k) := by
  have hf : Tot T (At o k fun t => Firm t ∧ Serving t) (fail k) (fun _ => End o k) := to_pre to_fail fun t h => ⟨h.1.toMild, h.2⟩
  cases r with
  | done => exact Tot.ret fun s h => ⟨h.2.1, h.2.2.1⟩
  | noerror => exact hf
  | error => exact hf

theorem to_onReceive {t : Tcp} (hs : Firm t) (hu : Serving t) (hst : t.st = .connected) {e : TEnv} {m : Down} (hm : Named m) :
    Tot T (At o k (· = t)) (onReceive k e m) (fun _ => End o k) := by
  unfold onReceive
  refine to_self fun t' ht => ?_
  subst ht
  rw [hst]
  have herr : Tot T (At o k (· = t')) (pure Res.error) (fun _ => At o k fun t => Firm t ∧ Serving t) :=
    to_ret fun t e => e ▸ ⟨hs, hu⟩
  cases m with
  | openRsp c f d =>
    refine Tot.bind (R := fun _ => At o k fun t => Firm t ∧ Serving t) ?_ to_answered
    unfold receiveOpenRsp
    refine Tot.bind (R := fun _ => At o k fun t => Firm t ∧ Serving t) (to_conn fun t e => ?_) fun _ => ?_
    · subst e
      exact ⟨⟨⟨hs.log, fun x hx => by injection hx with hx; exact hx ▸ hm.1⟩, hs.tail⟩, ⟨hu.st, hu.link, hu.timer⟩⟩
    · exact Tot.bind (R := fun _ => At o k fun t => Firm t ∧ Serving t) (to_note fun t h =>
        ⟨⟨h.1.toMild.note trivial, h.1.tail⟩, ⟨h.2.st, h.2.link, h.2.timer⟩⟩) fun _ => to_secured hm.2
  | closeRsp c f d =>
    refine Tot.bind (R := fun _ => At o k fun t => Firm t ∧ Serving t) ?_ to_answered
    unfold receiveCloseRsp
    refine to_self fun t e => ?_
    subst e
    split
    · exact to_pre (to_secured hm) fun t e => e ▸ ⟨hs, hu⟩
    · exact herr
  | sendReq c f d =>
    refine Tot.bind (R := fun _ => At o k fun t => Firm t ∧ Serving t) ?_ to_answered
    unfold receiveSendReq
    refine to_self fun t e => ?_
    subst e
    split
    · exact to_pre (to_secured hm) fun t e => e ▸ ⟨hs, hu⟩
    · exact herr
  | releaseReq =>
    refine Tot.bind (R := fun _ => At o k fun t => Mild t ∧ Serving t) (to_note fun t e => ?_) fun _ => to_toInit
    subst e
    exact ⟨hs.toMild.note trivial, ⟨hu.st, hu.link, hu.timer⟩⟩

theorem to_onAcceptLink {t : Tcp} (hs : Firm t) (hst : t.st = .init) {e : TEnv} (he : e.starts = true) :
    Tot (End o k) (At o k (· = t)) (onAcceptLink k e) (fun _ => End o k) := by
  unfold onAcceptLink
  refine to_self fun t' ht => ?_
  subst ht
  rw [hst]
  refine Tot.bind (R := fun _ => At o k fun t => Mild t ∧ t.st = .init) (to_conn fun t e => e ▸ ⟨⟨hs.log, hs.assoc⟩, hst⟩) fun _ => ?_
  refine Tot.bind (R := fun _ => At o k fun t => Mild t ∧ t.st = .init ∧ t.timer = true) ?_ fun _ => ?_
  · unfold allocTimer
    split
    · exact to_conn fun t h => ⟨⟨h.1.log, h.1.assoc⟩, h.2, rfl⟩
    · exact fun s h => ⟨h.2.1, h.2.2.1, fun hn => absurd h.2.2.2 hn⟩
  · exact Tot.bind (R := fun _ => At o k fun t => Mild t ∧ t.st = .init ∧ t.timer = true)
      (to_note fun t h => ⟨h.1.note trivial, h.2⟩) fun _ => to_toHello he

end rules

/-- What holds of all connections. -/
def _root_.Uscada.Ua.Srv.Firm (s : Srv) : Prop := ∀ k, Transport.Firm (s.conns k) ∧ (¬ Pool.valid k → (s.conns k).log = [])

theorem End.sound {o : Srv} {k : Nat} {s : Srv} (h : End o.conns k s) (hk : Pool.valid k) (ho : o.Firm) : s.Firm := by
  intro j
  by_cases hj : j = k
  · subst hj
    exact ⟨h.2, fun hn => absurd hk hn⟩
  · rw [h.1 j hj]
    exact ho j

/-- The environment does not hurt: timers can be started, and data is polite. -/
def Harmless (s : Srv) (e : TEnv) : TEv → Prop
  | .accept => e.starts = true
  | .linkData k => e.starts = true ∧ Polite (s.conns k) e.rx
  | .down k m => Pool.valid k ∧ Named m
  | _ => True

theorem used_of {s : Srv} {k : Nat} {P : Tcp → Prop} (h : Around True False k P s) : ∃ l, Pool.Free s.ids l ∧ Pool.valid k ∧ k ∉ l := by
  obtain ⟨l, h1, h2, h3, -⟩ := h
  exact ⟨l, h1, h2, h3⟩

theorem up_of {m : Nat → Mem} {evs : List (TEnv × TEv)} {s : Srv} (h : Srv.Reach m evs s) {k : Nat} (hk : Pool.valid k)
    (hst : (s.conns k).st ≠ .init) : At s.conns k (· = s.conns k) s ∧ Serving (s.conns k) := by
  have ha := reach_live h hk hst
  refine ⟨⟨used_of ha, fun _ _ => rfl, rfl⟩, ?_⟩
  obtain ⟨_, _, _, _, _, hl⟩ := ha
  exact ⟨hl.st, hl.link, hl.timer⟩

/-- Whatever harmless happens to the server is defined. -/
theorem next_defined {m : Nat → Mem} {evs : List (TEnv × TEv)} {s : Srv} (h : Srv.Reach m evs s) (hs : s.Firm) {e : TEnv} {v : TEv}
    (hp : Possible s v) (hh : Harmless s e v) : ∃ s', next s e v = .ok s' ∧ s'.Firm := by
  have same : ∀ {m : SM Srv Unit}, m s = (.ok (), s) → ∃ s', settle (m s) = .ok s' ∧ s'.Firm :=
    fun hm => ⟨s, by rw [hm]; rfl, hs⟩
  have done : ∀ {m : SM Srv Unit} {k : Nat}, Pool.valid k → (s.conns k).st ≠ .init →
      Tot (End s.conns k) (At s.conns k (· = s.conns k)) m (fun _ => End s.conns k) → ∃ s', settle (m s) = .ok s' ∧ s'.Firm := by
    intro m k hk hst hm
    obtain ⟨s', h1, h2⟩ := hm.settled (up_of h hk hst).1
    exact ⟨s', h1, (h2.elim id fun ⟨_, h⟩ => h).sound hk hs⟩
  cases v with
  | accept =>
    show ∃ s', settle ((takeLink e >>= fun _ => allocId >>= fun r => match r with
      | none => pure ()
      | some k => onAcceptLink k e) s) = .ok s' ∧ _
    unfold takeLink
    split
    · rw [bind_ok (pure_run () s)]
      obtain ⟨l, hfree, hgood⟩ : s.Inv True False := reach_inv (fun _ _ => ⟨fun _ => trivial, False.elim⟩) h
      cases l with
      | nil =>
        have : allocId s = (.ok none, s) := by simp only [allocId, hfree.alloc_nil]
        rw [bind_ok this]
        exact ⟨s, rfl, hs⟩
      | cons j l =>
        obtain ⟨q, hq, hf⟩ := hfree.alloc_cons
        have : allocId s = (.ok (some j), { s with ids := q }) := by simp only [allocId, hq]
        rw [bind_ok this]
        have hj : Pool.valid j := hfree.ids j (by simp)
        have hidle := (hgood j hj).1 (by simp)
        have hnd := hfree.nodup
        obtain ⟨s', h1, h2⟩ := (to_onAcceptLink (o := s.conns) (k := j) (hs j).1 hidle.st (e := e) hh).settled
          (c := { s with ids := q }) ⟨⟨l, hf, hj, (List.nodup_cons.mp hnd).1⟩, fun _ _ => rfl, rfl⟩
        exact ⟨s', h1, (h2.elim id fun ⟨_, h⟩ => h).sound hj hs⟩
    · exact ⟨s, rfl, hs⟩
  | linkData k =>
    cases hst : (s.conns k).st with
    | init =>
      refine same (m := onData k e) ?_
      simp only [onData, bind_run, self, andThen, hst, pure_run]
    | hello =>
      exact done (m := onData k e) hp.1 (by rw [hst]; simp)
        (to_onHello (hs k).1 (up_of h hp.1 (by rw [hst]; simp)).2 hst hh.1 hh.2)
    | connected =>
      exact done (m := onData k e) hp.1 (by rw [hst]; simp)
        (to_onSecured (hs k).1 (up_of h hp.1 (by rw [hst]; simp)).2 hst hh.1 hh.2)
  | linkError k =>
    refine ⟨_, rfl, ?_⟩
    refine End.sound (k := k) ⟨fun j hj => ?_, ?_⟩ hp.1 hs
    · simp only [Srv.set, if_neg hj]
    · simp only [Srv.set, if_pos]
      exact ⟨⟨(hs k).1.log, (hs k).1.assoc⟩, (hs k).1.tail⟩
  | timer k =>
    have hst : (s.conns k).st ≠ .init := by
      have hi : s.Inv True False := reach_inv (fun _ _ => ⟨fun _ => trivial, False.elim⟩) h
      rcases inv_around hi hp.1 with ⟨_, _, _, _, _, h' | h'⟩ | h'
      · exact h'.st
      · exact absurd hp.2 (by rw [h'.2.armed]; simp)
      · exact absurd hp.2 (by rw [h'.armed]; simp)
    have hu := (up_of h hp.1 hst).2
    refine done (m := onTimer k) hp.1 hst ?_
    unfold onTimer
    refine Tot.bind (R := fun _ => At s.conns k fun t => Mild t ∧ Serving t) (to_conn fun t e => ?_) fun _ => ?_
    · subst e
      exact ⟨⟨(hs k).1.log, (hs k).1.assoc⟩, ⟨hu.st, hu.link, hu.timer⟩⟩
    · refine to_self fun t ht => ?_
      split
      · rename_i he
        exact absurd he ht.2.st
      · exact to_pre to_toInit fun t' e => e ▸ ht
      · exact to_pre to_fail fun t' e => e ▸ ht
  | down k x =>
    show ∃ s', settle ((if Pool.valid k then onReceive k e x else undefined) s) = .ok s' ∧ _
    rw [if_pos hh.1]
    cases hst : (s.conns k).st with
    | init =>
      refine same (m := onReceive k e x) ?_
      simp only [onReceive, bind_run, self, andThen, hst, pure_run]
    | hello =>
      refine same (m := onReceive k e x) ?_
      simp only [onReceive, bind_run, self, andThen, hst, pure_run]
    | connected =>
      exact done (m := onReceive k e x) hh.1 (by rw [hst]; simp)
        (to_onReceive (hs k).1 (up_of h hh.1 (by rw [hst]; simp)).2 hst hh.2)

end Uscada.Ua.Transport

namespace Uscada.Ua

/-- A computation that neither is undefined nor terminates the process. -/
def Survives {α : Type} (x : Exec α) : Prop := x ≠ .ub ∧ x ≠ .abort

theorem Survives.cases {α : Type} {x : Exec α} (h : Survives x) : (∃ a, x = .ok a) ∨ x = .throws := by
  cases x with
  | ok a => exact .inl ⟨a, rfl⟩
  | throws => exact .inr rfl
  | abort => exact absurd rfl h.2
  | ub => exact absurd rfl h.1

theorem valid_ofNat {k : Nat} (h : Pool.valid k) : Pool.valid (UInt32.ofNat k).toNat := by
  have : k ≤ 32 := h.2
  rw [UInt32.toNat_ofNat', Nat.mod_eq_of_lt (by omega)]
  exact h

end Uscada.Ua

namespace Uscada.Ua.Channel

open SM Ent

/-! ## Channels -/

/-- The identifiers of a header are identifiers of the pools. -/
def PoolHdr (h : MsgHdr) : Prop := Pool.valid h.connectionId.toNat ∧ Pool.valid h.secureChannelId.toNat

/-- The identifiers a channel names are identifiers of the pools. -/
def Fit : CAct → Prop
  | .openRsp c ch _ => Pool.valid c.toNat ∧ Pool.valid ch.toNat
  | .closeRsp c _ _ => Pool.valid c.toNat
  | .sendReq c _ _ => Pool.valid c.toNat
  | .releaseReq c => Pool.valid c.toNat
  | .up h _ => PoolHdr h ∧ (h.sessionId = invalidSuid ∨ Pool.valid h.sessionId.toNat)
  | _ => True

structure Firm (t : Chan) : Prop where
  log : ∀ a ∈ t.log, Fit a
  session : ∀ x, t.session = some x → Pool.valid x.toNat

theorem Firm.note {t : Chan} (h : Firm t) {a : CAct} (ha : Fit a) : Firm { t with log := t.log ++ [a] } where
  log b hb := by
    rcases List.mem_append.mp hb with hb | hb
    · exact h.log b hb
    · rw [List.mem_singleton.mp hb]
      exact ha
  session := h.session

/-- The identifiers a message to the channel component names are identifiers of the pools, and it is small. -/
def Named : CIn → Prop
  | .open c d => Pool.valid c.toNat ∧ d.length ≤ 4056
  | .close c ch d => Pool.valid c.toNat ∧ Pool.valid ch.toNat ∧ d.length ≤ 4056
  | .message c ch d => Pool.valid c.toNat ∧ Pool.valid ch.toNat ∧ d.length ≤ 4056
  | .released c ch => Pool.valid c.toNat ∧ Pool.valid ch.toNat
  | .associate h => PoolHdr h ∧ Pool.valid h.sessionId.toNat
  | .send h d => PoolHdr h ∧ d.length ≤ 264

/-- Decoding the message does not hurt. -/
def Harmless (e : CEnv) : CIn → Prop
  | .open _ d => Survives (openReqDec ((Buf.create e.mem).append d))
  | .close _ _ d => Survives (dec (Ua.init : Cont UaCloseSecureChannelReq 452) (((Buf.create e.mem).append d).skip 12))
  | _ => True

/-- Identifier `k` is in use, channel `k` satisfies `P`, and the others are as given. -/
def At (o : Nat → Chan) (k : Nat) (P : Chan → Prop) (s : Chans) : Prop :=
  (∃ l, Pool.Free s.ids l ∧ Pool.valid k ∧ k ∉ l) ∧ (∀ j, j ≠ k → s.objs j = o j) ∧ P (s.objs k)

def End (o : Nat → Chan) (k : Nat) (s : Chans) : Prop := (∀ j, j ≠ k → s.objs j = o j) ∧ Firm (s.objs k)

section rules

variable {o : Nat → Chan} {k : Nat} {α : Type} {T : Chans → Prop}

theorem At.mono {P Q : Chan → Prop} {s : Chans} (h : At o k P s) (hpq : ∀ t, P t → Q t) : At o k Q s := ⟨h.1, h.2.1, hpq _ h.2.2⟩

theorem At.set {P Q : Chan → Prop} {s : Chans} (h : At o k P s) {t : Chan} (ht : Q t) : At o k Q (s.set k t) := by
  refine ⟨h.1, fun j hj => ?_, ?_⟩
  · rw [set_other _ _ hj]
    exact h.2.1 j hj
  · rw [set_at]
    exact ht

theorem to_obj {P Q : Chan → Prop} {f : Chan → Chan} (h : ∀ t, P t → Q (f t)) : Tot T (At o k P) (obj k f) (fun _ => At o k Q) :=
  fun _ hs => hs.set (h _ hs.2.2)

theorem to_note {P Q : Chan → Prop} {a : CAct} (h : ∀ t, P t → Q { t with log := t.log ++ [a] }) :
    Tot T (At o k P) (note k a) (fun _ => At o k Q) := to_obj h

theorem to_self {P : Chan → Prop} {f : Chan → SM Chans α} {Q : α → Chans → Prop}
    (h : ∀ t, P t → Tot T (At o k (· = t)) (f t) Q) : Tot T (At o k P) (Ent.self k >>= f) Q := by
  rintro s ⟨h1, h2, h3⟩
  exact h _ h3 s ⟨h1, h2, rfl⟩

theorem to_pre {P P' : Chan → Prop} {m : SM Chans α} {Q : α → Chans → Prop} (h : Tot T (At o k P) m Q)
    (hp : ∀ t, P' t → P t) : Tot T (At o k P') m Q := h.weaken (fun _ hc => hc.mono hp) (fun _ _ h => h) (fun _ h => h)

theorem to_ret {P Q : Chan → Prop} {a : α} (h : ∀ t, P t → Q t) :
    Tot T (At o k P) (pure a : SM Chans α) (fun _ => At o k Q) := Tot.ret fun _ hs => hs.mono h

/-- A decoder that may throw. -/
theorem to_lift {e : Exec α} (he : Survives e) {P : Chan → Prop} (hp : ∀ t, P t → Firm t) :
    Tot (End o k) (At o k P) (lift e) (fun _ => At o k P) := by
  rcases he.cases with ⟨a, rfl⟩ | rfl
  · exact fun s hs => hs
  · exact fun s hs => ⟨hs.2.1, hp _ hs.2.2⟩

theorem to_toInit : Tot T (At o k Firm) (toInit k) (fun _ => End o k) := by
  unfold toInit release
  refine Tot.bind (R := fun _ => At o k Firm) (to_obj fun t h => ⟨h.log, h.session⟩) fun _ => ?_
  refine Tot.bind (R := fun _ => At o k Firm) (to_obj fun t h => ⟨h.log, fun x hx => by cases hx⟩) fun _ => ?_
  refine Tot.bind (R := fun _ => At o k Firm) (to_note fun t h => h.note trivial) fun _ => ?_
  rintro s ⟨⟨l, h1, h2, h3⟩, h4, h5⟩
  obtain ⟨q, hq, -⟩ := h1.release h2 h3
  simp only [releaseId, hq]
  exact ⟨h4, h5⟩

theorem to_receiveOpen {e : CEnv} {c : UInt32} {d : List UInt8} (hk : Pool.valid k) (hc : Pool.valid c.toNat) (hd : d.length ≤ 4056)
    (hh : Survives (openReqDec ((Buf.create e.mem).append d))) :
    Tot (End o k) (At o k Firm) (receiveOpen k e c d) (fun _ => At o k Firm) := by
  rw [receiveOpen_eq, load_ok _ _ (by omega)]
  refine Tot.bind (R := fun b s => b = (Buf.create e.mem).append d ∧ At o k Firm s) (fun s hs => ⟨rfl, hs⟩) fun b => ?_
  rintro s ⟨rfl, hs⟩
  refine Tot.bind (to_lift hh fun t h => h) (fun r => ?_) s hs
  intro s hs
  rw [answerOpen_run]
  refine hs.set ?_
  exact ⟨(((hs.2.2.note (a := .opened c e.token r.1.1.sequenceNumber) trivial).note
    (a := .openRsp c (UInt32.ofNat k) (openAnswer e (UInt32.ofNat k) e.token (s.objs k).tx r.1.1.requestId
      r.1.2.requestHdr.requestHandle r.1.2.requestLifetime)) ⟨hc, valid_ofNat hk⟩)).log, hs.2.2.session⟩

/-- Token and sequence number are looked at. -/
theorem to_guarded {e : CEnv} {d : List UInt8} (hd : d.length ≤ 4056) :
    Tot T (At o k Firm) (guarded k e d) (fun g s => At o k Firm s ∧ ∀ x, g = some x → x.2 = ((Buf.create e.mem).append d).skip 12) := by
  intro s hs
  rw [guarded_run _ _ _ _ (by omega)]
  split
  · exact ⟨hs.set ⟨hs.2.2.log, hs.2.2.session⟩, fun x hx => by injection hx with hx; rw [← hx]⟩
  · exact ⟨hs, fun x hx => by cases hx⟩

theorem to_receiveClose {e : CEnv} {c : UInt32} {d : List UInt8} (hc : Pool.valid c.toNat) (hd : d.length ≤ 4056)
    (hh : Survives (dec (Ua.init : Cont UaCloseSecureChannelReq 452) (((Buf.create e.mem).append d).skip 12))) :
    Tot (End o k) (At o k Firm) (receiveClose k e c d) (fun _ => At o k Firm) := by
  rw [receiveClose_eq]
  refine to_self fun t ht => ?_
  have hpre : ∀ t', t' = t → Firm t' := fun t' e => e ▸ ht
  split
  · refine Tot.bind (to_pre (to_guarded hd) hpre) fun g => ?_
    rintro s ⟨hs, hg⟩
    split
    · exact hs
    · rename_i req b
      have hb : b = _ := hg _ rfl
      subst hb
      refine Tot.bind (to_lift hh fun t h => h) (fun r => ?_) s hs
      intro s hs
      rw [answerClose_run]
      refine hs.set ?_
      exact ⟨(hs.2.2.note (a := .closeRsp c (UInt32.ofNat k) _) hc).log, hs.2.2.session⟩
  · exact to_ret hpre

theorem handUp_inside {m : Mem} {d : List UInt8} (hd : d.length ≤ 4056) : ∃ x, handUp (((Buf.create m).append d).skip 12) = .ok x := by
  refine ⟨_, if_pos ⟨?_, ?_⟩⟩
  · show 0 + 12 + (0 + d.length) ≤ 4096
    omega
  · show 0 + d.length ≤ 4068
    omega

theorem to_receiveMessage {e : CEnv} {c : UInt32} {d : List UInt8} (hk : Pool.valid k) (hc : Pool.valid c.toNat) (hd : d.length ≤ 4056) :
    Tot T (At o k Firm) (receiveMessage k e c d) (fun _ => At o k Firm) := by
  unfold receiveMessage
  refine to_self fun t ht => ?_
  have hpre : ∀ t', t' = t → Firm t' := fun t' e => e ▸ ht
  split
  · refine Tot.bind (to_pre (to_guarded hd) hpre) fun g => ?_
    rintro s ⟨hs, hg⟩
    split
    · exact hs
    · rename_i req b
      have hb : b = _ := hg _ rfl
      subst hb
      obtain ⟨x, hx⟩ := handUp_inside (m := e.mem) hd
      rw [hx]
      refine Tot.bind (R := fun _ => At o k Firm) (fun s hs => hs) (fun y => ?_) s hs
      refine Tot.bind (R := fun _ => At o k Firm) (to_note fun t' h => h.note ⟨⟨hc, valid_ofNat hk⟩, ?_⟩) fun _ => to_ret fun _ h => h
      cases hsess : t.session with
      | none => exact .inl rfl
      | some x => exact .inr (ht.session x hsess)
  · exact to_ret hpre

theorem to_receiveSend {h : MsgHdr} {d : List UInt8} (hg : PoolHdr h) (hd : d.length ≤ 264) :
    Tot T (At o k Firm) (receiveSend k h d) (fun _ => At o k Firm) := by
  unfold receiveSend
  refine to_self fun t ht => ?_
  have hpre : ∀ t', t' = t → Firm t' := fun t' e => e ▸ ht
  split
  · split
    · refine Tot.bind (R := fun _ => At o k Firm) (to_obj fun t' e => e ▸ ⟨ht.log, ht.session⟩) fun _ => ?_
      rw [encoded_ok (send_writes t.token t.tx h.requestId d) (by
        simp only [List.length_append, MsgStorage.length_leBytes]
        omega)]
      exact Tot.bind (R := fun _ => At o k Firm) (fun s hs => hs) fun y => to_note fun t' h' => h'.note hg.1
    · exact to_ret hpre
  · exact to_ret hpre

theorem to_receiveAssociate {h : MsgHdr} (hg : Pool.valid h.sessionId.toNat) :
    Tot T (At o k Firm) (receiveAssociate k h) (fun _ => At o k Firm) := by
  unfold receiveAssociate
  refine to_self fun t ht => ?_
  split
  · refine Tot.bind (R := fun _ => At o k Firm) (to_obj fun t' e => ?_) fun _ => to_note fun t' h' => h'.note trivial
    subst e
    exact ⟨ht.log, fun x hx => by injection hx with hx; exact hx ▸ hg⟩
  · exact to_ret fun t' e => e ▸ ht

theorem to_onReceive {e : CEnv} {m : CIn} (hk : Pool.valid k) (hm : Named m) (hh : Harmless e m) :
    Tot (End o k) (At o k Firm) (onReceive k e m) (fun _ => End o k) := by
  have hend : ∀ {α : Type} {m : SM Chans α}, Tot (End o k) (At o k Firm) m (fun _ => At o k Firm) →
      Tot (End o k) (At o k Firm) m (fun _ => End o k) := fun h => h.weaken (fun _ h => h) (fun _ _ h => h.2) (fun _ h => h)
  unfold onReceive
  refine Tot.bind (R := fun _ => At o k Firm) (to_note fun t h => h.note trivial) fun _ => ?_
  refine to_self fun t ht => ?_
  refine to_pre (P := Firm) ?_ fun t' e => e ▸ ht
  split
  · exact Tot.bind (to_receiveOpen hk hm.1 hm.2 hh) fun _ => hend (to_obj fun t h => ⟨h.log, h.session⟩)
  · exact Tot.bind (to_receiveClose hm.1 hm.2.2 hh) fun _ =>
      Tot.bind (R := fun _ => At o k Firm) (to_note fun t h => h.note hm.1) fun _ => to_toInit
  · refine Tot.bind (to_receiveMessage hk hm.1 hm.2.2) fun ok => ?_
    split
    · exact hend (to_ret fun _ h => h)
    · exact Tot.bind (R := fun _ => At o k Firm) (to_note fun t h => h.note hm.1) fun _ => to_toInit
  · exact to_toInit
  · exact hend (to_receiveAssociate hm.2)
  · exact hend (to_receiveSend hm.1 hm.2)
  · exact hend (to_ret fun _ h => h)

end rules

/-- A channel that is not in use takes note of the message only. -/
theorem idle_run {k : Nat} {e : CEnv} {m : CIn} {s : Chans} (hst : (s.objs k).st = .init) (hm : ∀ c d, m ≠ .open c d) :
    onReceive k e m s = (.ok (), s.set k { s.objs k with log := (s.objs k).log ++ [.got m] }) := by
  unfold onReceive note
  rw [bind_ok (obj_run _ _ _), bind_ok (self_run _ _), set_at]
  cases m with
  | «open» c d => exact absurd rfl (hm c d)
  | _ => simp only [hst, pure_run]

def AllSound (s : Chans) : Prop := ∀ k, Firm (s.objs k)

theorem End.sound {o : Chans} {k : Nat} {s : Chans} (h : End o.objs k s) (ho : AllSound o) : AllSound s := by
  intro j
  by_cases hj : j = k
  · subst hj
    exact h.2
  · rw [h.1 j hj]
    exact ho j

/-- Whatever harmless message the channel component gets is handled. -/
theorem next_defined {u : Nat → UInt32 × UInt32} {evs : List (CEnv × CIn)} {s : Chans} (h : Reach u evs s) (hs : AllSound s)
    {e : CEnv} {m : CIn} (hm : Named m) (hh : Harmless e m) : ∃ s', next s e m = .ok s' ∧ AllSound s' := by
  obtain ⟨l, hfree, hgood⟩ : ChInv False s := reach_inv h False.elim
  have used : ∀ k, Pool.valid k → (∀ c d, m ≠ .open c d) → ∃ s', settle (Ent.get k (onReceive k e m) s) = .ok s' ∧ AllSound s' := by
    intro k hk ho
    unfold Ent.get
    rw [if_pos hk]
    by_cases hl : k ∈ l
    · have hidle := (hgood k hk).1 hl
      rw [idle_run hidle.st ho]
      refine ⟨_, rfl, End.sound (o := s) (k := k) ⟨fun j hj => set_other _ _ hj, ?_⟩ hs⟩
      rw [set_at]
      exact (hs k).note trivial
    · obtain ⟨s', h1, h2⟩ := (to_onReceive (o := s.objs) hk hm hh).settled (c := s) ⟨⟨l, hfree, hk, hl⟩, fun _ _ => rfl, hs k⟩
      exact ⟨s', h1, (h2.elim id fun ⟨_, h⟩ => h).sound hs⟩
  unfold next event
  cases m with
  | «open» c d =>
    show ∃ s', settle ((allocId >>= fun r => match r with
      | none => pure ()
      | some k => onReceive k e (.open c d)) s) = .ok s' ∧ _
    cases l with
    | nil =>
      have : allocId s = (.ok none, s) := by simp only [allocId, hfree.alloc_nil]
      rw [bind_ok this]
      exact ⟨s, rfl, hs⟩
    | cons j l =>
      obtain ⟨q, hf, hal⟩ := alloc_run hfree
      rw [bind_ok hal]
      have hj : Pool.valid j := hfree.ids j (by simp)
      obtain ⟨s', h1, h2⟩ := (to_onReceive (o := s.objs) hj hm hh).settled (c := { s with ids := q })
        ⟨⟨l, hf, hj, (List.nodup_cons.mp hfree.nodup).1⟩, fun _ _ => rfl, hs j⟩
      exact ⟨s', h1, (h2.elim id fun ⟨_, h⟩ => h).sound hs⟩
  | close c ch d => exact used _ hm.2.1 (by simp)
  | message c ch d => exact used _ hm.2.1 (by simp)
  | released c ch => exact used _ hm.2 (by simp)
  | associate h => exact used _ hm.1.2 (by simp)
  | send h d => exact used _ hm.1.2 (by simp)

end Uscada.Ua.Channel

namespace Uscada.Ua.Session

open SM Ent
open Channel (PoolHdr)

/-! ## Sessions -/

/-- The identifiers a session names are identifiers of the pools. -/
def Fit : SAct → Prop
  | .answer h _ => PoolHdr h
  | .associate h => PoolHdr h ∧ Pool.valid h.sessionId.toNat
  | _ => True

def AllSound (s : Sessions) : Prop := ∀ k, ∀ a ∈ (s.objs k).log, Fit a

/-- The token of a request, if it is a number, names a session of the pool. -/
def KnownToken : SReq → Prop
  | .activate q => ∀ uid, q.requestHdr.authentificationToken.value = .numeric uid → Pool.valid uid.toNat
  | .close q => ∀ uid, q.requestHdr.authentificationToken.value = .numeric uid → Pool.valid uid.toNat
  | _ => True

/-- Decoding the request does not hurt, and its token is known. -/
def Harmless (m : SIn) : Prop :=
  Survives (dispatch ((Buf.create m.env.mem).append m.data)) ∧
    ∀ r b, dispatch ((Buf.create m.env.mem).append m.data) = .ok (some r, b) → KnownToken r

theorem react_fit {k : Nat} {e : SEnv} {h : MsgHdr} {r : SReq} {t : Sess} (hk : Pool.valid k) (hg : PoolHdr h)
    (ht : ∀ a ∈ t.log, Fit a) : ∀ a ∈ (react k e h r t).log, Fit a := by
  have hk' := valid_ofNat hk
  have key : ∀ l : List SAct, (∀ a ∈ l, Fit a) → ∀ a ∈ t.log ++ l, Fit a := fun l hl a ha =>
    (List.mem_append.mp ha).elim (ht a) (hl a)
  unfold react
  split
  · simp only [List.append_assoc]
    refine key _ ?_
    simp only [List.cons_append, List.nil_append, List.mem_cons, List.not_mem_nil, or_false]
    rintro a (rfl | rfl | rfl)
    · trivial
    · exact hg
    · trivial
  · exact key _ fun a ha => by rw [List.mem_singleton.mp ha]; trivial
  · simp only [List.append_assoc]
    refine key _ ?_
    simp only [List.cons_append, List.nil_append, List.mem_cons, List.not_mem_nil, or_false]
    rintro a (rfl | rfl | rfl)
    · trivial
    · exact ⟨hg, hk'⟩
    · exact hg
  · simp only [List.append_assoc]
    refine key _ ?_
    simp only [List.cons_append, List.nil_append, List.mem_cons, List.not_mem_nil, or_false]
    rintro a (rfl | rfl | rfl)
    · trivial
    · exact hg
    · trivial
  · split
    · simp only [List.append_assoc]
      refine key _ ?_
      simp only [List.cons_append, List.nil_append, List.mem_cons, List.not_mem_nil, or_false]
      rintro a (rfl | rfl | rfl)
      · trivial
      · trivial
      · exact hg
    · exact key _ fun a ha => by rw [List.mem_singleton.mp ha]; trivial
  · exact key _ fun a ha => by rw [List.mem_singleton.mp ha]; trivial

theorem AllSound.set {s : Sessions} (h : AllSound s) {k : Nat} {t : Sess} (ht : ∀ a ∈ t.log, Fit a) : AllSound (s.set k t) := by
  intro j
  by_cases hj : j = k
  · subst hj
    rw [set_at]
    exact ht
  · rw [set_other _ _ hj]
    exact h j

theorem onReceive_sound {k : Nat} {e : SEnv} {h : MsgHdr} {r : SReq} {s s' : Sessions} (hk : Pool.valid k) (hg : PoolHdr h)
    (hs : AllSound s) (hr : onReceive k e h r s = (.ok (), s')) : AllSound s' := by
  rw [onReceive_run] at hr
  have h1 : AllSound (s.set k (react k e h r (s.objs k))) := hs.set (react_fit hk hg (hs k))
  split at hr
  · unfold releaseId at hr
    split at hr
    · injection hr with _ hr
      rw [← hr]
      exact h1
    · cases hr
    · cases hr
    · cases hr
  · injection hr with _ hr
    rw [← hr]
    exact h1

theorem handle_sound {evs : List SIn} {e : SEnv} {h : MsgHdr} {r : SReq} {s s' : Sessions} (hreach : Reach evs s) (hg : PoolHdr h)
    (hs : AllSound s) (hp : InPool h r) (hr : handle e h r s = (.ok (), s')) : AllSound s' := by
  have hget : ∀ k, Pool.valid k → Ent.get k (onReceive k e h r) s = (.ok (), s') → AllSound s' := by
    intro k hk hr
    unfold Ent.get at hr
    rw [if_pos hk] at hr
    exact onReceive_sound hk hg hs hr
  have htok : ∀ n : NodeId, (∀ uid, n.value = .numeric uid → Pool.valid uid.toNat) →
      byToken n (fun k => onReceive k e h r) s = (.ok (), s') → AllSound s' := by
    rintro ⟨ns, v⟩ hn hr
    cases v with
    | numeric uid => exact hget _ (hn uid rfl) hr
    | string _ => injection hr with _ hr; exact hr ▸ hs
    | guid _ => injection hr with _ hr; exact hr ▸ hs
    | «opaque» _ => injection hr with _ hr; exact hr ▸ hs
  cases r with
  | getEndpoints q =>
    rw [endpoints_run] at hr
    injection hr with _ hr
    rw [← hr]
    refine hs.set fun a ha => ?_
    simp only [List.append_assoc, List.cons_append, List.nil_append] at ha
    rcases List.mem_append.mp ha with ha | ha
    · exact hs 0 a ha
    · simp only [List.mem_cons, List.not_mem_nil, or_false] at ha
      rcases ha with rfl | rfl
      · trivial
      · exact hg
  | create q =>
    change (allocId >>= fun uid => match uid with
      | none => pure ()
      | some k => onReceive k e h (.create q)) s = (.ok (), s') at hr
    obtain ⟨l, hfree, hgood⟩ := reach_inv hreach
    cases l with
    | nil =>
      have : allocId s = (.ok none, s) := by simp only [allocId, hfree.alloc_nil]
      rw [bind_ok this] at hr
      injection hr with _ hr
      exact hr ▸ hs
    | cons j l =>
      obtain ⟨ids, -, hal⟩ := alloc_run hfree
      rw [bind_ok hal] at hr
      exact onReceive_sound (s := { s with ids }) (hfree.ids j (by simp)) hg hs hr
  | activate q => exact htok _ hp hr
  | close q => exact htok _ hp hr
  | read q =>
    change (if h.sessionId = invalidSuid then pure () else Ent.get _ _ : SM Sessions Unit) s = (.ok (), s') at hr
    by_cases hi : h.sessionId = invalidSuid
    · rw [if_pos hi] at hr
      injection hr with _ hr
      exact hr ▸ hs
    · rw [if_neg hi] at hr
      exact hget _ (hp.resolve_left hi) hr

/-- Whatever harmless message the service component gets is handled. -/
theorem next_defined {evs : List SIn} {s : Sessions} (h : Reach evs s) (hs : AllSound s) {m : SIn} (hg : PoolHdr m.hdr)
    (hi : m.hdr.sessionId = invalidSuid ∨ Pool.valid m.hdr.sessionId.toNat) (hl : m.data.length ≤ 4056) (hh : Harmless m) :
    ∃ s', next s m = .ok s' ∧ AllSound s' := by
  unfold next event
  rw [bind_ok (lift_ok (Channel.load_ok _ _ (by omega)) s)]
  rcases hh.1.cases with ⟨⟨r, b⟩, hr⟩ | hr
  · rw [bind_ok (lift_ok hr s)]
    cases r with
    | none => exact ⟨s, rfl, hs⟩
    | some q =>
      have hp : InPool m.hdr q := by
        have := hh.2 q b hr
        cases q with
        | read _ => exact hi
        | activate _ => exact this
        | close _ => exact this
        | _ => trivial
      obtain ⟨s', h'⟩ := C55_defined_partial h m.env m.hdr q hp
      refine ⟨s', ?_, handle_sound h hg hs hp h'⟩
      show settle (handle m.env m.hdr q s) = _
      rw [h']
      rfl
  · rw [hr]
    exact ⟨s, rfl, hs⟩

end Uscada.Ua.Session

namespace Uscada.Ua.Stack

open Transport (TEv Down)

/-! ## The components together -/

/-- The identifiers a message names are identifiers of the pools, and it is small. -/
def Sane : Mail → Prop
  | .chan m => Channel.Named m
  | .tcp k m => Pool.valid k ∧ Transport.Named m
  | .sess h d => Channel.PoolHdr h ∧ (h.sessionId = invalidSuid ∨ Pool.valid h.sessionId.toNat) ∧ d.length ≤ 4056

/-- What the network and the messages on their way bring does not hurt. -/
def Harmless (s : Stack) (e : Env) : Ev → Prop
  | .net .accept => e.tcp.starts = true
  | .net (.linkData k) => e.tcp.starts = true ∧ Transport.Polite (s.srv.conns k) e.tcp.rx
  | .net _ => True
  | .deliver => match s.box with
    | .chan m :: _ => Channel.Harmless e.chan m
    | .sess h d :: _ => Session.Harmless ⟨e.sess, h, d⟩
    | _ => True

/-- The components after a history in which nothing hurt. -/
inductive Tame (m : Nat → Mem) (u : Nat → UInt32 × UInt32) : List (Env × Ev) → Stack → Prop
  | create {s : Stack} (h : create m u = .ok s) : Tame m u [] s
  | step {evs : List (Env × Ev)} {s s' : Stack} {e : Env} {v : Ev} (h : Tame m u evs s) (hp : Possible s v) (hh : Harmless s e v)
      (hn : step s e v = .ok s') : Tame m u (evs ++ [(e, v)]) s'

structure Solid (s : Stack) : Prop where
  srv : s.srv.Firm
  chans : Channel.AllSound s.chans
  sess : Session.AllSound s.sess
  box : ∀ x ∈ s.box, Sane x

theorem Sane.fits {x : Mail} (h : Sane x) : x.size + 8 ≤ 4096 := by
  cases x with
  | chan y =>
    cases y <;> simp only [Sane, Channel.Named] at h <;> simp only [Mail.size] <;> omega
  | tcp k y => cases y <;> simp only [Sane, Transport.Named] at h <;> simp only [Mail.size] <;> omega
  | sess a b => simp only [Sane] at h; simp only [Mail.size]; omega

theorem post_fits (others : Nat) (box ms : List Mail) (h : ∀ x ∈ ms, x.size + 8 ≤ 4096) : ∃ box', post 4096 others box ms = .ok box' := by
  induction ms generalizing box with
  | nil => exact ⟨box, rfl⟩
  | cons m ms ih =>
    have ih := fun b => ih b fun x hx => h x (List.mem_cons_of_mem _ hx)
    unfold post
    split
    · rw [if_pos (h m List.mem_cons_self)]
      exact ih _
    · exact ih _

theorem post_sane {others : Nat} {box ms : List Mail} (hb : ∀ x ∈ box, Sane x) (hm : ∀ x ∈ ms, Sane x) :
    ∃ box', post 4096 others box ms = .ok box' ∧ ∀ x ∈ box', Sane x := by
  obtain ⟨box', h⟩ := post_fits others box ms fun x hx => (hm x hx).fits
  refine ⟨box', h, fun x hx => ?_⟩
  obtain ⟨ms', h1, rfl⟩ := post_ok h
  rcases List.mem_append.mp hx with hx | hx
  · exact hb x hx
  · exact hm x (h1.subset hx)

theorem sane_tcp {s s' : Srv} {e : TEnv} {v : TEv} (hn : Transport.next s e v = .ok s') (hs : s'.Firm) : ∀ x ∈ sentTcp s s', Sane x := by
  intro x hx
  obtain ⟨k, a, h0, h1, h2⟩ := sentTcp_mem hn hx
  have hk : Pool.valid k := by
    apply Classical.byContradiction
    intro hk
    rw [(hs k).2 hk] at h1
    cases h1
  have hf := (hs k).1.log a h1
  have hk' := valid_ofNat hk
  cases a with
  | up y =>
    cases y with
    | «open» c f d => injection h2 with h2; subst h2; exact ⟨hk', hf⟩
    | message c f d => injection h2 with h2; subst h2; exact ⟨hk', hf.1, hf.2⟩
    | close c f d => injection h2 with h2; subst h2; exact ⟨hk', hf.1, hf.2⟩
    | released c => injection h2 with h2; subst h2; exact ⟨hk', hf⟩
  | _ => cases h2

theorem diff_mem {α : Type} {old new : Nat → List α} {a : α} (h : a ∈ diff old new) : ∃ k, a ∈ new k := by
  obtain ⟨k, _, h⟩ := List.mem_flatMap.mp h
  exact ⟨k, List.mem_of_mem_drop h⟩

theorem sane_chan {s s' : Chans} {e : CEnv} {m : CIn} (hn : Channel.next s e m = .ok s') (hm : Channel.Named m)
    (hs : Channel.AllSound s') : ∀ x ∈ sentChan s s', Sane x := by
  intro x hx
  have hsm : SmallMail 4056 (.chan m) := by
    cases m <;> simp only [Channel.Named] at hm <;> simp only [SmallMail] <;> omega
  have hsmall := small_chan hn hsm x hx
  obtain ⟨a, h1, h2⟩ := List.mem_filterMap.mp hx
  obtain ⟨k, h1⟩ := diff_mem h1
  have hf := (hs k).log a h1
  cases a with
  | openRsp c ch d => injection h2 with h2; subst h2; exact ⟨hf.1, hf.2, hsmall⟩
  | closeRsp c ch d => injection h2 with h2; subst h2; exact ⟨hf, hsmall⟩
  | sendReq c ch d => injection h2 with h2; subst h2; exact ⟨hf, hsmall⟩
  | releaseReq c => injection h2 with h2; subst h2; exact ⟨hf, trivial⟩
  | up h d => injection h2 with h2; subst h2; exact ⟨hf.1, hf.2, hsmall⟩
  | _ => cases h2

theorem sane_sess {s s' : Sessions} {m : Session.SIn} (hn : Session.next s m = .ok s') (hs : Session.AllSound s') :
    ∀ x ∈ sentSess s s', Sane x := by
  intro x hx
  have hsmall := small_sess (n := 0) hn x hx
  obtain ⟨a, h1, h2⟩ := List.mem_filterMap.mp hx
  obtain ⟨k, h1⟩ := diff_mem h1
  have hf := hs k a h1
  cases a with
  | answer h d => injection h2 with h2; subst h2; exact ⟨hf, hsmall⟩
  | associate h => injection h2 with h2; subst h2; exact hf
  | _ => cases h2

variable {m : Nat → Mem} {u : Nat → UInt32 × UInt32} {evs : List (Env × Ev)} {s : Stack}

theorem step_solid (h : Reach m u evs s) (hs : Solid s) {e : Env} {v : Ev} (hp : Possible s v) (hh : Harmless s e v) :
    ∃ s', step s e v = .ok s' ∧ Solid s' := by
  obtain ⟨tevs, cevs, sevs, h1, h2, h3, -⟩ := reach_parts h
  have htcp : ∀ (box : List Mail) (v : TEv), (∀ x ∈ box, Sane x) → Transport.Possible s.srv v → Transport.Harmless s.srv e.tcp v →
      ∃ s', onTcp 4096 { s with box } e v = .ok s' ∧ Solid s' := by
    intro box v hb hp hh
    obtain ⟨srv, h4, h5⟩ := Transport.next_defined h1 hs.srv hp hh
    obtain ⟨box', h6, h7⟩ := post_sane (others := e.others) hb (sane_tcp h4 h5)
    refine ⟨{ s with srv, box := box' }, ?_, ⟨h5, hs.chans, hs.sess, h7⟩⟩
    unfold onTcp
    rw [h4, Exec.ok_bind, h6]
    rfl
  cases v with
  | net v =>
    refine htcp s.box v hs.box hp.2 ?_
    cases v with
    | accept => exact hh
    | linkData k => exact hh
    | linkError k => trivial
    | timer k => trivial
    | down k x => exact absurd hp.1 (by simp [isDown])
  | deliver =>
    show ∃ s', deliver 4096 s e = .ok s' ∧ _
    unfold deliver
    cases hb : s.box with
    | nil => exact absurd hb hp
    | cons x box =>
      have hx : Sane x := hs.box x (by simp [hb])
      have hbox : ∀ y ∈ box, Sane y := fun y hy => hs.box y (by simp [hb, hy])
      simp only [Harmless, hb] at hh
      cases x with
      | chan y =>
        obtain ⟨chans, h4, h5⟩ := Channel.next_defined h2 hs.chans hx hh
        obtain ⟨box', h6, h7⟩ := post_sane (others := e.others) hbox (sane_chan h4 hx h5)
        refine ⟨{ s with chans, box := box' }, ?_, ⟨hs.srv, h5, hs.sess, h7⟩⟩
        show onChan 4096 { s with box } e y = _
        unfold onChan
        rw [h4, Exec.ok_bind, h6]
        rfl
      | tcp k y => exact htcp box (.down k y) hbox trivial hx
      | sess hdr d =>
        obtain ⟨sess, h4, h5⟩ := Session.next_defined h3 hs.sess hx.1 hx.2.1 hx.2.2 hh
        obtain ⟨box', h6, h7⟩ := post_sane (others := e.others) hbox (sane_sess h4 h5)
        refine ⟨{ s with sess, box := box' }, ?_, ⟨hs.srv, hs.chans, h5, h7⟩⟩
        show onSess 4096 { s with box } e hdr d = _
        unfold onSess
        rw [h4, Exec.ok_bind, h6]
        rfl

theorem create_solid (h : create m u = .ok s) : Solid s := by
  obtain ⟨srv, h1, h⟩ := Exec.bind_eq_ok.mp h
  obtain ⟨chans, h2, h⟩ := Exec.bind_eq_ok.mp h
  obtain ⟨sess, h3, h⟩ := Exec.bind_eq_ok.mp h
  injection h with h
  subst h
  obtain ⟨ids, _, h1⟩ := Exec.bind_eq_ok.mp h1
  obtain ⟨ids2, _, h2⟩ := Exec.bind_eq_ok.mp h2
  obtain ⟨ids3, _, h3⟩ := Exec.bind_eq_ok.mp h3
  injection h1 with h1
  injection h2 with h2
  injection h3 with h3
  subst h1 h2 h3
  exact ⟨fun k => ⟨⟨⟨fun a ha => (by cases ha), fun c hc => (by cases hc)⟩, fun hn => absurd rfl hn⟩, fun _ => rfl⟩,
    fun k => ⟨fun a ha => (by cases ha), fun x hx => (by cases hx)⟩, fun k a ha => (by cases ha), fun x hx => (by cases hx)⟩

theorem Tame.reach (h : Tame m u evs s) : Reach m u evs s := by
  induction h with
  | create h => exact .create h
  | step _ hp _ hn ih => exact .step ih hp hn

theorem Tame.solid (h : Tame m u evs s) : Solid s := by
  induction h with
  | create h => exact create_solid h
  | step h hp hh hn ih =>
    obtain ⟨s', h1, h2⟩ := step_solid h.reach ih hp hh
    rw [h1] at hn
    injection hn with hn
    exact hn ▸ h2

/-- C89, for histories in which nothing hurts: every event and every delivery that does not hurt is defined, and none terminates the
process.  Missing: the code does not refuse what hurts (`Harmless`). -/
theorem C89_survived_partial (h : Tame m u evs s) (e : Env) (v : Ev) (hp : Possible s v) (hh : Harmless s e v) :
    ∃ s', step s e v = .ok s' := by
  obtain ⟨s', h1, -⟩ := step_solid h.reach h.solid hp hh
  exact ⟨s', h1⟩

end Uscada.Ua.Stack
