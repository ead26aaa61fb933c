import Verif.UaStackProps
/-!
# C94: the order of the connection identifiers, and what is under way for a connection that is free

The identifiers of the connections are handed out in the order in which they were given back (UaEntityPool.hpp:35-51).  An answer is
addressed by the identifier of a connection and the identifier of a channel only, so it can reach another client than the one that
asked when an identifier is handed out again while messages that name it are under way.
-/

namespace Uscada.Ua

open SM

namespace Transport

variable {s s' : Srv} {β γ : Type} {k : Nat}

/-! ## The identifiers during one event -/

/-- The operation leaves the free identifiers alone. -/
def Still (m : SM Srv β) : Prop := ∀ s, (m s).2.ids = s.ids

/-- The operation gives back at most one identifier and takes none. -/
def Once (m : SM Srv β) : Prop := ∀ s, (m s).2.ids = s.ids ∨ ∃ u, Pool.release s.ids u = .ok (m s).2.ids

theorem Still.bind {m : SM Srv β} {g : β → SM Srv γ} (h1 : Still m) (h2 : ∀ a, Still (g a)) : Still (m >>= g) := by
  intro s
  have h := h1 s
  rw [bind_run]
  match hm : m s with
  | (.ok a, s') => rw [hm] at h; simp only [andThen]; rw [h2 a s', h]
  | (.throws, s') => rw [hm] at h; exact h
  | (.abort, s') => rw [hm] at h; exact h
  | (.ub, s') => rw [hm] at h; exact h

theorem Still.once {m : SM Srv β} (h : Still m) : Once m := fun s => .inl (h s)

theorem Once.bind {m : SM Srv β} {g : β → SM Srv γ} (h1 : Still m) (h2 : ∀ a, Once (g a)) : Once (m >>= g) := by
  intro s
  have h := h1 s
  rw [bind_run]
  match hm : m s with
  | (.ok a, s') =>
    rw [hm] at h
    simp only [andThen]
    have h' := h2 a s'
    have h : s'.ids = s.ids := h
    rw [h] at h'
    exact h'
  | (.throws, s') => rw [hm] at h; exact .inl h
  | (.abort, s') => rw [hm] at h; exact .inl h
  | (.ub, s') => rw [hm] at h; exact .inl h

theorem Still.pure {a : β} : Still (Pure.pure a) := fun _ => rfl
theorem Still.throws : Still (SM.throws : SM Srv β) := fun _ => rfl
theorem Still.undefined : Still (SM.undefined : SM Srv β) := fun _ => rfl
theorem Still.lift {x : Exec β} : Still (SM.lift x) := by
  intro s
  cases x <;> rfl
theorem Still.conn {f : Tcp → Tcp} : Still (conn k f) := fun _ => rfl
theorem Still.self : Still (self k) := fun _ => rfl
theorem Still.note {a : TAct} : Still (note k a) := fun _ => rfl

theorem Still.stopTimer : Still (stopTimer k) := Still.self.bind fun t => by
  split
  · exact .conn
  · exact .undefined

theorem Still.startTimer {e : TEnv} : Still (startTimer k e) := Still.self.bind fun t => by
  split
  · split
    · exact .conn
    · exact .throws
  · exact .undefined

theorem Still.exit {st : TSt} : Still (exit k st) := by
  cases st
  · exact .pure
  · exact .stopTimer
  · exact .stopTimer

theorem Still.transit {target : TSt} {m : SM Srv Unit} (h : Still m) : Still (transit k target m) := Still.self.bind fun t => by
  split
  · exact .pure
  · exact Still.exit.bind fun _ => Still.conn.bind fun _ => h

theorem Once.transit {target : TSt} {m : SM Srv Unit} (h : Once m) : Once (transit k target m) := Once.bind .self fun t => by
  split
  · exact Still.pure.once
  · exact Once.bind .exit fun _ => Once.bind .conn fun _ => h

theorem Once.release : Once (release k) := Once.bind .conn fun _ => Once.bind .note fun _ => by
  intro s
  unfold releaseId
  split
  · rename_i q hq
    exact .inr ⟨k, hq⟩
  · exact .inl rfl
  · exact .inl rfl
  · exact .inl rfl

theorem Once.toInit : Once (toInit k) := Once.transit .release

theorem Still.receivePreaction : Still (receivePreaction k) := .conn

theorem Still.toHello {e : TEnv} : Still (toHello k e) := Still.transit (Still.startTimer.bind fun _ => .receivePreaction)

theorem Still.toConnected {e : TEnv} : Still (toConnected k e) := Still.transit (Still.startTimer.bind fun _ => .receivePreaction)

theorem Still.sendReleaseInd : Still (sendReleaseInd k) := Still.self.bind fun t => by
  split
  · exact .pure
  · exact .note

theorem Once.fail : Once (fail k) := Once.bind .sendReleaseInd fun _ => .toInit

theorem Still.linkSend {e : TEnv} {bytes : List UInt8} : Still (linkSend k e bytes) := Still.self.bind fun t => by
  split
  · split
    · exact Still.note.bind fun _ => .pure
    · exact .pure
  · exact .undefined

theorem Still.sendSecured {e : TEnv} {a b c flag : UInt8} {channel : UInt32} {data : List UInt8} :
    Still (sendSecured k e a b c flag channel data) := Still.lift.bind fun _ => .linkSend

theorem Still.receiveRx {e : TEnv} : Still (receiveRx k e) := Still.self.bind fun t => by
  split
  · exact Still.lift.bind fun _ => Still.conn.bind fun _ => .pure
  · split
    · exact .pure
    · exact .undefined

theorem Still.decodeHello : Still (decodeHello k) := Still.self.bind fun t => by
  split
  · exact .conn
  · exact Still.conn.bind fun _ => .throws
  · exact .lift
  · exact .undefined

theorem Still.receiveHello {e : TEnv} : Still (receiveHello k e) := Still.receiveRx.bind fun x => by
  split
  · exact .pure
  · exact .pure
  · exact Still.decodeHello.bind fun _ => Still.lift.bind fun _ => .linkSend

theorem Still.forward {ty : SecType} {h : UaMessageHeader} : Still (forward k ty h) := Still.self.bind fun t => by
  cases ty with
  | msg =>
    show Still (if _ then _ else _)
    split
    · exact Still.lift.bind fun _ => Still.note.bind fun _ => .pure
    · exact .pure
  | opn => exact Still.lift.bind fun _ => Still.note.bind fun _ => .pure
  | clo =>
    show Still (if _ then _ else _)
    split
    · exact Still.lift.bind fun _ => Still.note.bind fun _ => .pure
    · exact .pure
  | invalid => exact .pure

theorem Still.receiveSecuredMessage {e : TEnv} : Still (receiveSecuredMessage k e) := Still.receiveRx.bind fun x => by
  split
  · exact .pure
  · exact .pure
  · exact Still.self.bind fun _ => Still.lift.bind fun _ => Still.conn.bind fun _ => .forward

theorem Once.onData {e : TEnv} : Once (onData k e) := Once.bind .self fun t => by
  split
  · exact Still.pure.once
  · exact Once.bind .receiveHello fun x => by
      split
      · exact Still.pure.once
      · exact Still.toConnected.once
      · exact .toInit
  · exact Once.bind .receiveSecuredMessage fun x => by
      split
      · exact Still.pure.once
      · exact (Still.startTimer.bind fun _ => .receivePreaction).once
      · exact .fail

theorem Once.answered {r : Res} : Once (answered k r) := by
  cases r
  · exact .fail
  · exact Still.pure.once
  · exact .fail

theorem Once.onReceive {e : TEnv} {m : Down} : Once (onReceive k e m) := Once.bind .self fun t => by
  split
  · cases m with
    | openRsp c f d => exact Once.bind (Still.conn.bind fun _ => Still.note.bind fun _ => .sendSecured) fun _ => .answered
    | closeRsp c f d =>
      refine Once.bind (Still.self.bind fun t => ?_) fun _ => .answered
      split
      · exact .sendSecured
      · exact .pure
    | sendReq c f d =>
      refine Once.bind (Still.self.bind fun t => ?_) fun _ => .answered
      split
      · exact .sendSecured
      · exact .pure
    | releaseReq => exact Once.bind .note fun _ => .toInit
  · exact Still.pure.once

theorem Once.onTimer : Once (onTimer k) := Once.bind .conn fun _ => Once.bind .self fun t => by
  split
  · exact Still.pure.once
  · exact .toInit
  · exact .fail

theorem Still.onAcceptLink {e : TEnv} : Still (onAcceptLink k e) := Still.self.bind fun t => by
  split
  · refine Still.conn.bind fun _ => Still.bind ?_ fun _ => Still.note.bind fun _ => .toHello
    unfold allocTimer
    split
    · exact .conn
    · exact .throws
  · exact .pure

theorem settle_state {α : Type} {r : Exec α × Srv} (h : settle r = .ok s') : r.2 = s' := by
  match r with
  | (.ok a, c) => injection h
  | (.throws, c) => injection h
  | (.abort, c) => cases h
  | (.ub, c) => cases h

theorem free_unique {q : Queue Nat} {l l' : List Nat} (h : Pool.Free q l) (h' : Pool.Free q l') : l = l' := by
  have hlen : l.length = l'.length := h.holds.hlen.symm.trans h'.holds.hlen
  refine List.ext_getElem hlen fun i h1 h2 => ?_
  exact Option.some.inj ((h.holds.hcells i h1).symm.trans (h'.holds.hcells i h2))

/-- One more free identifier stands behind the others. -/
theorem free_pushed {q q' : Queue Nat} {l l' : List Nat} {u : Nat} (h : Pool.Free q l) (h' : Pool.Free q' l') (hp : Pool.release q u = .ok q') :
    l' = l ++ [u] := by
  by_cases hlt : l.length < q.cap
  · obtain ⟨q'', h1, h2, h3⟩ := h.holds.push hlt u
    have h1 : Pool.release q u = .ok q'' := h1
    rw [hp] at h1
    injection h1 with h1
    subst h1
    have hlen : l'.length = (l ++ [u]).length := h'.holds.hlen.symm.trans h2.hlen
    refine List.ext_getElem hlen fun i h4 h5 => ?_
    exact Option.some.inj ((h'.holds.hcells i h4).symm.trans (h2.hcells i h5))
  · exfalso
    have h1 := h.holds.hlen
    have h2 := h'.holds.hlen
    have h3 := h'.holds.fits
    have h4 := h.holds.fits
    have h5 := h.cap
    have h6 := h'.cap
    unfold Pool.release Queue.push at hp
    split at hp
    · injection hp with hp
      rw [← hp] at h2
      simp only [poolCap, Queue.szMod] at *
      omega
    · cases hp

/-- Every event keeps the order of the free identifiers: the one that is taken stands in front, the one that is given back is put behind
the others.  The log of a connection that is free before and after the event does not change. -/
theorem next_order {m : Nat → Mem} {evs : List (TEnv × TEv)} {e : TEnv} {v : TEv} (hr : Srv.Reach m evs s) (hp : Possible s v)
    (hn : next s e v = .ok s') {l l' : List Nat} (hl : Pool.Free s.ids l) (hl' : Pool.Free s'.ids l') :
    (v = .accept ∧ ((l' = l ∧ ∀ k, (s'.conns k).log = (s.conns k).log) ∨ ∃ i, l = i :: l' ∧ ∀ k, k ≠ i → (s'.conns k).log = (s.conns k).log)) ∨
    (v ≠ .accept ∧ (l' = l ∨ ∃ u, l' = l ++ [u]) ∧ ∀ k ∈ l, (s'.conns k).log = (s.conns k).log) := by
  let f : TAct → Option Unit := fun _ => none
  have hf : Coarse f := ⟨rfl, fun _ => rfl, rfl, rfl, fun _ => rfl⟩
  have idle : ∀ k ∈ l, Idle (s.conns k) := by
    intro k hk
    obtain ⟨l0, h1, h2⟩ := reach_inv (L := True) (A := False) (fun _ _ => ⟨fun _ => trivial, fun h => h.elim⟩) hr
    rw [free_unique hl h1] at hk
    exact (h2 k (h1.ids k hk)).1 hk
  have step : ∀ {w : SM Srv Unit}, Once w → settle (w s) = .ok s' → l' = l ∨ ∃ u, l' = l ++ [u] := by
    intro w hw hs
    have hs := settle_state hs
    rcases hw s with h | ⟨u, h⟩
    · rw [hs] at h
      exact .inl (free_unique hl' (h ▸ hl))
    · rw [hs] at h
      exact .inr ⟨u, free_pushed hl hl' h⟩
  have other : ∀ {j : Nat} {x : List Unit}, Small tlogs f j x s s' → j ∉ l → ∀ k ∈ l, (s'.conns k).log = (s.conns k).log := by
    rintro j x ⟨new, ha, _⟩ hj k hk
    exact ha.2 k fun h => hj (h ▸ hk)
  cases v with
  | accept =>
    refine .inl ⟨rfl, ?_⟩
    have hn : settle ((takeLink e >>= fun _ => allocId >>= fun r => match r with
      | none => pure ()
      | some k => onAcceptLink k e) s) = .ok s' := hn
    rw [bind_run] at hn
    unfold takeLink at hn
    split at hn
    · simp only [pure_run, andThen] at hn
      rw [bind_run] at hn
      unfold allocId at hn
      cases l with
      | nil =>
        simp only [hl.alloc_nil, andThen] at hn
        injection hn with hn
        subst hn
        exact .inl ⟨free_unique hl' hl, fun _ => rfl⟩
      | cons i t =>
        obtain ⟨q, hq, hfq⟩ := hl.alloc_cons
        simp only [hq, andThen] at hn
        have hs := settle_state hn
        have hi := Still.onAcceptLink (k := i) (e := e) { s with ids := q }
        rw [hs] at hi
        have : l' = t := free_unique hl' (hi ▸ hfq)
        subst this
        obtain ⟨new, ha, _⟩ := (em_onAcceptLink (l := []) hf).settled (s := { s with ids := q }) hn
        exact .inr ⟨i, rfl, fun k hk => ha.2 k hk⟩
    · injection hn with hn
      subst hn
      exact .inl ⟨free_unique hl' hl, fun _ => rfl⟩
  | linkData j =>
    have hj : j ∉ l := fun h => by have := hp.2; rw [(idle j h).link] at this; cases this
    exact .inr ⟨by simp, step .onData hn, other ((em_onData hf rfl fun _ => rfl).settled hn) hj⟩
  | linkError j =>
    have hj : j ∉ l := fun h => by have := hp.2; rw [(idle j h).link] at this; cases this
    exact .inr ⟨by simp, step (w := onError j) Still.conn.once hn,
      other ((em_conn fun _ => by rfl : TEmits f j [] (onError j)).settled hn) hj⟩
  | timer j =>
    have hj : j ∉ l := fun h => by have := hp.2; rw [(idle j h).armed] at this; cases this
    exact .inr ⟨by simp, step .onTimer hn, other ((em_onTimer (l := []) hf).settled hn) hj⟩
  | down j d =>
    refine .inr ⟨by simp, ?_⟩
    have hn : settle ((if Pool.valid j then onReceive j e d else undefined : SM Srv Unit) s) = .ok s' := hn
    split at hn
    · refine ⟨step .onReceive hn, ?_⟩
      by_cases hj : j ∈ l
      · rw [conn_idle_st (idle j hj)] at hn
        injection hn with hn
        subst hn
        exact fun _ _ => rfl
      · exact other ((em_onReceive hf).settled hn) hj
    · cases hn

end Transport

namespace Stack

open Transport (TEv)

variable {m : Nat → Mem} {u : Nat → UInt32 × UInt32} {evs : List (Env × Ev)} {s s' : Stack} {K : Kind} {a : Nat}

/-! ## How far a request is from its answer -/

/-- The number of handlers that a request or an answer of connection `k` still has to pass: the secure channel, the service, the secure
channel again and the connection.  Messages that can lead to no answer for this connection count as 0. -/
def rank (K : Kind) (k : Nat) (x : Mail) : Nat :=
  if (chanId K k x).isSome then 4 else if (sessId K k x).isSome then 3 else if (sendId K k x).isSome then 2
  else if (tcpId K k x).isSome then 1 else 0

theorem rank_le (K : Kind) (k : Nat) (x : Mail) : rank K k x ≤ 4 := by
  unfold rank
  repeat' split
  all_goals omega

theorem flight_nil {k : Nat} {box : List Mail} (h : ∀ x ∈ box, rank K k x = 0) : flight K k box = [] := by
  have key : ∀ x ∈ box, tcpId K k x = none ∧ sendId K k x = none ∧ sessId K k x = none ∧ chanId K k x = none := by
    intro x hx
    have := h x hx
    unfold rank at this
    repeat' split at this
    all_goals first | omega | (simp_all; done)
  unfold flight
  rw [filterMap_none fun x hx => (key x hx).1, filterMap_none fun x hx => (key x hx).2.1, filterMap_none fun x hx => (key x hx).2.2.1,
    filterMap_none fun x hx => (key x hx).2.2.2]
  rfl

theorem some_of_sub {f : Mail → Option UInt32} {ms : List Mail} {y : Mail} {l : List UInt32} (h : (ms.filterMap f).Sublist l) (hy : y ∈ ms)
    (hs : (f y).isSome) : l ≠ [] := by
  obtain ⟨v, hv⟩ := Option.isSome_iff_exists.mp hs
  have := h.subset (List.mem_filterMap.mpr ⟨y, hy, hv⟩)
  exact List.ne_nil_of_mem this

theorem some_of_toList {x : Option UInt32} (h : x.toList ≠ []) : x.isSome := by
  cases x <;> simp_all

/-- What the secure channel sends is nearer to the answer than what it got. -/
theorem chan_rank {k : Nat} (hk : k < 33) {c c' : Chans} {e : CEnv} {x : CIn} (hl : K = .msg → Channel.Long x) (hn : Channel.next c e x = .ok c') :
    ∀ y ∈ sentChan c c', rank K k y < rank K k (.chan x) ∨ rank K k y = 0 := by
  intro y hy
  obtain ⟨z, _, hz⟩ := List.mem_filterMap.mp hy
  have hkind := ofChan_kind hz K k
  have h1 := chan_tcp (K := K) hk hn
  have h2 := chan_sess (k := k) hl hn
  by_cases hs : (sessId K k y).isSome
  · have := some_of_sub h2 hy hs
    split at this
    · have := some_of_toList this
      refine .inl ?_
      unfold rank
      rw [if_neg (by rw [hkind.2]; simp), if_pos hs, if_pos this]
      omega
    · exact absurd rfl this
  · by_cases ht : (tcpId K k y).isSome
    · have := some_of_sub h1 hy ht
      have : (sendId K k (.chan x)).isSome ∨ (chanId K k (.chan x)).isSome := by
        cases hsd : sendId K k (.chan x) with
        | some v => exact .inl rfl
        | none =>
          rw [hsd] at this
          split at this
          · exact absurd rfl this
          · exact .inr (some_of_toList this)
      refine .inl ?_
      unfold rank
      rw [if_neg (by rw [hkind.2]; simp), if_neg hs, if_neg (by rw [hkind.1]; simp), if_pos ht]
      rcases this with h | h
      · rw [if_pos h]
        repeat' split
        all_goals omega
      · rw [if_pos h]
        omega
    · refine .inr ?_
      unfold rank
      rw [if_neg (by rw [hkind.2]; simp), if_neg hs, if_neg (by rw [hkind.1]; simp), if_neg ht]

/-- What the service sends is nearer to the answer than what it got. -/
theorem sess_rank {k : Nat} {c c' : Sessions} {i : Session.SIn} (hn : Session.next c i = .ok c') :
    ∀ y ∈ sentSess c c', rank K k y < rank K k (.sess i.hdr i.data) ∨ rank K k y = 0 := by
  intro y hy
  obtain ⟨z, _, hz⟩ := List.mem_filterMap.mp hy
  have hkind := ofSess_kind hz K k
  have h1 := sess_send (K := K) (k := k) hn
  by_cases hs : (sendId K k y).isSome
  · have := some_of_toList (some_of_sub h1 hy hs)
    refine .inl ?_
    unfold rank
    rw [if_neg (by rw [hkind.2.2]; simp), if_neg (by rw [hkind.2.1]; simp), if_pos hs, if_pos this]
    split <;> omega
  · refine .inr ?_
    unfold rank
    rw [if_neg (by rw [hkind.2.2]; simp), if_neg (by rw [hkind.2.1]; simp), if_neg hs, if_neg (by rw [hkind.1]; simp)]

/-- A connection whose log stays as it is hands up nothing. -/
theorem tcp_rank {k : Nat} (hk : k < 33) {t t' : Srv} {e : TEnv} {v : TEv} (hn : Transport.next t e v = .ok t')
    (hlog : (t'.conns k).log = (t.conns k).log) : ∀ y ∈ sentTcp t t', rank K k y = 0 := by
  intro y hy
  let f : TAct → Option Unit := fun _ => none
  obtain ⟨j, ⟨new, ha, _⟩, _⟩ := Transport.next_emits (f := f) ⟨rfl, fun _ => rfl, rfl, rfl, fun _ => rfl⟩ rfl (fun _ => rfl) hn
  rw [sentTcp_adds ha] at hy
  split at hy
  · rename_i hj
    obtain ⟨z, hz1, hz2⟩ := List.mem_filterMap.mp hy
    have hkind := ofTcp_kind hz2 K k
    have hjk : j ≠ k := by
      intro h
      subst h
      have h1 : (t'.conns j).log = (t.conns j).log ++ new := ha.1
      rw [hlog] at h1
      have : new = [] := List.append_right_eq_self.mp h1.symm
      rw [this] at hz1
      cases hz1
    have : chanId K k y = none := by
      have := chanId_other K hk hj hjk z
      rw [hz2] at this
      exact this
    unfold rank
    rw [this, hkind.1, hkind.2.1, hkind.2.2]
    rfl
  · cases hy

/-! ## Free identifiers and what is under way for them -/

/-- The further in front an identifier stands among the free ones, the nearer to their end are the messages that name it: `a` times the
number of handlers they have to pass is at most its place, up to `b`. -/
def Within (a : Nat) (K : Kind) (l : List Nat) (b : Nat) (xs : List Mail) : Prop :=
  ∀ p k, l[p]? = some k → ∀ x ∈ xs, a * rank K k x ≤ p + b

theorem Within.mono {l : List Nat} {b b' : Nat} {xs : List Mail} (h : Within a K l b xs) (hb : b ≤ b') : Within a K l b' xs :=
  fun p k hp x hx => by have := h p k hp x hx; omega

theorem Within.sub {l : List Nat} {b : Nat} {xs ys : List Mail} (h : Within a K l b xs) (hs : ∀ y ∈ ys, y ∈ xs) : Within a K l b ys :=
  fun p k hp x hx => h p k hp x (hs x hx)

theorem Within.append {l : List Nat} {b : Nat} {xs ys : List Mail} (h : Within a K l b xs) (h' : Within a K l b ys) : Within a K l b (xs ++ ys) :=
  fun p k hp x hx => (List.mem_append.mp hx).elim (h p k hp x) (h' p k hp x)

theorem Within.pushed {l l' : List Nat} {b : Nat} {xs : List Mail} (h : Within a K l b xs) (hl : l' = l ∨ ∃ v, l' = l ++ [v]) (hroom : 4 * a ≤ l.length) :
    Within a K l' b xs := by
  rcases hl with hl | ⟨v, hl⟩
  · rw [hl]; exact h
  · intro p k hp x hx
    rw [hl] at hp
    by_cases hlt : p < l.length
    · rw [List.getElem?_append_left hlt] at hp
      exact h p k hp x hx
    · have := Nat.mul_le_mul_left a (rank_le K k x)
      omega

theorem Within.popped {l l' : List Nat} {i b : Nat} {xs : List Mail} (h : Within a K l b xs) (hl : l = i :: l') : Within a K l' (b + 1) xs := by
  intro p k hp x hx
  have := h (p + 1) k (by rw [hl]; exact hp) x hx
  omega

/-- What the transport component sends. -/
theorem sent_within {tevs : List (TEnv × TEv)} {t t' : Srv} {e : TEnv} {v : TEv} (hr : Srv.Reach m tevs t) (hp : Transport.Possible t v)
    (hn : Transport.next t e v = .ok t') {l l' : List Nat} (hl : Pool.Free t.ids l) (hl' : Pool.Free t'.ids l') (hroom : 4 * a ≤ l.length) {b : Nat} :
    Within a K l' b (sentTcp t t') := by
  intro p k hpk x hx
  have hk : k < 33 := by have := hl'.ids k (List.mem_of_getElem? hpk); unfold Pool.valid poolCap at this; omega
  have quiet : (t'.conns k).log = (t.conns k).log → a * rank K k x ≤ p + b := fun h => by
    rw [tcp_rank hk hn h x hx]
    omega
  rcases Transport.next_order hr hp hn hl hl' with ⟨_, ⟨_, h⟩ | ⟨i, hi, h⟩⟩ | ⟨_, ho, h⟩
  · exact quiet (h k)
  · have hnd := hl.nodup
    rw [hi] at hnd
    refine quiet (h k fun e => ?_)
    exact (List.nodup_cons.mp hnd).1 (e ▸ List.mem_of_getElem? hpk)
  · by_cases hm : k ∈ l
    · exact quiet (h k hm)
    · rcases ho with ho | ⟨w, ho⟩
      · exact absurd (ho ▸ List.mem_of_getElem? hpk) hm
      · have hge : l.length ≤ p := by
          refine Nat.le_of_not_lt fun hlt => hm ?_
          rw [ho, List.getElem?_append_left hlt] at hpk
          exact List.mem_of_getElem? hpk
        have := Nat.mul_le_mul_left a (rank_le K k x)
        omega

end Stack
end Uscada.Ua
