import Verif.ModbusDispatch
import Verif.ModbusClientProps
/-!
# C20: dispatching of batched requests
-/

namespace Uscada.Modbus.Dispatcher

open Client (pid ids rid CallerOk OrderlyEv)

/-! ## Specification -/

/-- The client a request item names, if it is configured. -/
def named (d : Dispatcher) (i : Nat) : Option Client :=
  if i < d.numClients then d.clients i else none

/-- The answer to an item that names no configured client. -/
def errorFor (r : CallerReq) : CRsp :=
  { clientId := r.clientId, transactId := r.transactId, success := false, error := 0, data := [] }

/-- Effects that come from client `i`. -/
def ofClient (i : Nat) : List Out → List COut
  | [] => []
  | .client j o :: os => if j = i then o :: ofClient i os else ofClient i os
  | _ :: os => ofClient i os

/-- Answers given by the dispatcher itself. -/
def rejected : List Out → List CRsp
  | [] => []
  | .reject r :: os => r :: rejected os
  | _ :: os => rejected os

/-- Identifiers (client and transaction) of all answers among some effects. -/
def answers : List Out → List (Nat × Nat)
  | [] => []
  | .client _ (.rsp r) :: os => (r.clientId, r.transactId) :: answers os
  | .reject r :: os => (r.clientId, r.transactId) :: answers os
  | _ :: os => answers os

/-- Identifiers of the items of a batch. -/
def requested : Ev → List (Nat × Nat)
  | .batch rs => rs.map rid
  | _ => []

/-- Identifiers of the requests waiting at client `i`. -/
def waiting (d : Dispatcher) (i : Nat) : List (Nat × Nat) :=
  match d.clients i with
  | none => []
  | some c => c.pending.map pid

/-- All answers and all requests of a history. -/
def allAnswers (tr : List (Ev × List Out)) : List (Nat × Nat) := tr.flatMap fun x => answers x.2
def allRequests (tr : List (Ev × List Out)) : List (Nat × Nat) := tr.flatMap fun x => requested x.1

/-- Request items carry the bytes they announce. -/
def EvOk : Ev → Prop
  | .batch rs => ∀ r ∈ rs, CallerOk r
  | _ => True

/-- Client identifiers named by configuration items. -/
def cfgClients : List CfgItem → List Nat
  | [] => []
  | it :: its => match it.entity with
    | .inl _ => it.id :: cfgClients its
    | .inr _ => cfgClients its

/-- The assumptions of the exactly-once claim at one event: the peers behave as in
`C14_exactly_once_partial`, and no client is configured twice. -/
def SteadyEv (d : Dispatcher) : Ev → Prop
  | .client i e => ∀ c, d.clients i = some c → OrderlyEv c e
  | .config its => (cfgClients its).Nodup ∧ ∀ i ∈ cfgClients its, d.clients i = none
  | _ => True

def Steady (d : Dispatcher) : List Ev → Prop
  | [] => True
  | e :: es => SteadyEv d e ∧
    match d.step e with
    | .ok (d1, _) => Steady d1 es
    | _ => True

/-! ## Lemmas -/

theorem answers_append (a b : List Out) : answers (a ++ b) = answers a ++ answers b := by
  induction a with
  | nil => rfl
  | cons x a ih =>
    cases x with
    | client i o => cases o <;> simp_all [answers]
    | _ => simp_all [answers]

theorem answers_client (i : Nat) (o : List COut) : answers (o.map (.client i)) = ids o := by
  induction o with
  | nil => rfl
  | cons x o ih => cases x <;> simp_all [answers, ids]

theorem answers_session (l : List (Nat × SOut)) (i : Nat) :
    answers (l.map fun x => .session i x.1 x.2) = [] := by
  induction l with
  | nil => rfl
  | cons x o ih => simp_all [answers]

theorem rejected_append (a b : List Out) : rejected (a ++ b) = rejected a ++ rejected b := by
  induction a with
  | nil => rfl
  | cons x a ih => cases x <;> simp_all [rejected]

theorem rejected_client (i : Nat) (o : List COut) : rejected (o.map (.client i)) = [] := by
  induction o with
  | nil => rfl
  | cons x o ih => simp_all [rejected]

theorem ofClient_append (i : Nat) (a b : List Out) : ofClient i (a ++ b) = ofClient i a ++ ofClient i b := by
  induction a with
  | nil => rfl
  | cons x a ih => cases x <;> simp_all [ofClient]; split <;> simp_all

theorem ofClient_client (i j : Nat) (o : List COut) :
    ofClient i (o.map (.client j)) = if j = i then o else [] := by
  induction o with
  | nil => simp [ofClient]
  | cons x o ih => simp only [List.map_cons, ofClient, ih]; split <;> simp_all

/-- The invariant of the component. -/
structure Inv (d : Dispatcher) : Prop where
  bound : ∀ i, d.numClients ≤ i → d.clients i = none
  ok : ∀ i c, d.clients i = some c → Client.Inv c
  own : ∀ i c, d.clients i = some c → ∀ p ∈ c.pending, p.clientId = i

theorem inv_create (a b : Nat) : Inv (create a b) := ⟨by simp [create], by simp [create], by simp [create]⟩

/-- What one event of a client does. -/
theorem client_step {i : Nat} {c c' : Client} {e : Client.Ev} {o : List COut} (hi : Client.Inv c)
    (ho : ∀ p ∈ c.pending, p.clientId = i) (he : Client.EvOk e)
    (hr : ∀ r, e = .req r → r.clientId = i) (h : c.step e = .ok (c', o)) :
    Client.Inv c' ∧ (∀ p ∈ c'.pending, p.clientId = i) ∧ (∀ y ∈ ids o, y.1 = i) ∧
    (OrderlyEv c e → ∀ x, (c.pending.map pid).count x +
        (match e with | .req r => [rid r].count x | _ => 0) =
      (ids o).count x + (c'.pending.map pid).count x) := by
  obtain ⟨h1, h2⟩ := Client.step_spec hi he h
  have key : (∀ y ∈ ids o ++ c'.pending.map pid, y.1 = i) →
      (∀ p ∈ c'.pending, p.clientId = i) ∧ (∀ y ∈ ids o, y.1 = i) := by
    intro h
    refine ⟨fun p hp => ?_, fun y hy => h y (by simp [hy])⟩
    exact h (pid p) (List.mem_append_right _ (List.mem_map_of_mem hp))
  have pend : ∀ y ∈ c.pending.map pid, y.1 = i := by
    intro y hy
    obtain ⟨p, hp, rfl⟩ := List.mem_map.1 hy
    exact ho p hp
  cases e with
  | req r =>
    have hri := hr r rfl
    simp only [Client.Account] at h2
    split at h2
    · have hk := key (by
        rw [← h2]; intro y hy
        rcases List.mem_append.1 hy with hy | hy
        · exact pend y hy
        · simp only [List.mem_singleton] at hy; subst hy; exact hri)
      refine ⟨h1, hk.1, hk.2, fun _ x => ?_⟩
      have := congrArg (List.count x) h2
      simpa [List.count_append, rid] using this
    · refine ⟨h1, by rw [h2.2]; exact ho, by rw [h2.1]; simp [hri], fun _ x => ?_⟩
      rw [h2.1, h2.2, Nat.add_comm]
      rfl
  | data rx =>
    refine ⟨h1, ?_⟩
    have hk : (∀ p ∈ c'.pending, p.clientId = i) ∧ (∀ y ∈ ids o, y.1 = i) := by
      rcases h2 with h2 | ⟨_, p, ps, h3, h4, h5⟩ | ⟨_, h3, h4⟩
      · exact key (by rw [h2]; exact pend)
      · refine ⟨by rw [h5]; exact ho, ?_⟩
        rw [h4]; intro y hy
        simp only [List.mem_singleton] at hy
        subst hy; exact ho p (by simp [h3])
      · exact ⟨by rw [h4]; exact fun p hp => ho p (List.mem_of_mem_tail hp), by rw [h3]; simp⟩
    refine ⟨hk.1, hk.2, fun hord x => ?_⟩
    have := congrArg (List.count x) (Client.orderly_account hi hord h)
    simpa [List.count_append] using this.symm
  | start b | connected | linkError | timer a b =>
    simp only [Client.Account] at h2
    have hk := key (by rw [h2]; exact pend)
    refine ⟨h1, hk.1, hk.2, fun _ x => ?_⟩
    have := congrArg (List.count x) h2
    simpa [List.count_append] using this.symm

theorem inv_upd {d : Dispatcher} (hd : Inv d) {i : Nat} {c : Client} (hi : i < d.numClients)
    (h1 : Client.Inv c) (h2 : ∀ p ∈ c.pending, p.clientId = i) :
    Inv { d with clients := upd d.clients i c } := by
  obtain ⟨b, k, w⟩ := hd
  refine ⟨fun j hj => ?_, fun j c' h => ?_, fun j c' h => ?_⟩
  · simp only [upd]; rw [if_neg (by simp only at hj; omega)]; exact b j hj
  · simp only [upd] at h; split at h
    · cases h; exact h1
    · exact k j c' h
  · simp only [upd] at h; split at h
    · rename_i hji; cases h; subst hji; exact h2
    · exact w j c' h

theorem lt_of_some {d : Dispatcher} (hd : Inv d) {i : Nat} {c : Client} (h : d.clients i = some c) :
    i < d.numClients := by
  apply Classical.byContradiction
  intro hn
  have := hd.bound i (by omega)
  rw [this] at h; cases h

theorem waiting_upd (d : Dispatcher) (i j : Nat) (c : Client) :
    waiting { d with clients := upd d.clients i c } j =
      if j = i then c.pending.map pid else waiting d j := by
  simp only [waiting, upd]
  by_cases h : j = i <;> simp [h]

theorem count_ids_other {o : List COut} {i : Nat} (h : ∀ y ∈ ids o, y.1 = i) {x : Nat × Nat} (hx : x.1 ≠ i) :
    (ids o).count x = 0 := by
  rw [List.count_eq_zero]
  intro hm
  exact hx (h x hm)

/-- Handling one item. -/
theorem item_spec {d d' : Dispatcher} {r : CallerReq} {o : List Out} (hd : Inv d) (hr : CallerOk r)
    (h : d.item r = .ok (d', o)) :
    Inv d' ∧ d'.servers = d.servers ∧ d'.numClients = d.numClients ∧
      (∀ x, (waiting d x.1).count x + [rid r].count x = (answers o).count x + (waiting d' x.1).count x) := by
  unfold item at h
  have hrej : ∀ {d' : Dispatcher} {o : List Out},
      (Exec.ok (d, [Out.reject (errorFor r)]) : Exec (Dispatcher × List Out)) = .ok (d', o) →
      Inv d' ∧ d'.servers = d.servers ∧ d'.numClients = d.numClients ∧ (∀ x, (waiting d x.1).count x + [rid r].count x =
        (answers o).count x + (waiting d' x.1).count x) := by
    intro d' o h
    cases h
    refine ⟨hd, rfl, rfl, fun x => ?_⟩
    simp only [answers, errorFor, rid]
    omega
  simp only at h
  split at h
  · exact hrej h
  · split at h
    · exact hrej h
    · rename_i hlt c hc
      obtain ⟨⟨c', o'⟩, h1, h2⟩ := Exec.bind_eq_ok.1 h
      cases h2
      obtain ⟨k1, k2, k3, k4⟩ := client_step (e := .req r) (hd.ok _ _ hc) (hd.own _ _ hc) hr
        (by intro r' h; cases h; rfl) h1
      refine ⟨inv_upd hd (by omega) k1 k2, rfl, rfl, fun x => ?_⟩
      rw [waiting_upd, answers_client]
      have k4 := k4 trivial x
      split
      · rename_i hx
        simp only [waiting]
        rw [hx, hc]
        exact k4
      · rename_i hx
        rw [count_ids_other k3 hx]
        have : [rid r].count x = 0 := by
          rw [List.count_eq_zero]; intro hm
          simp only [List.mem_singleton] at hm
          subst hm; exact hx rfl
        omega

theorem batch_spec {d d' : Dispatcher} {rs : List CallerReq} {o : List Out} (hd : Inv d)
    (hr : ∀ r ∈ rs, CallerOk r) (h : d.batch rs = .ok (d', o)) :
    Inv d' ∧ ∀ x, (waiting d x.1).count x + (rs.map rid).count x =
      (answers o).count x + (waiting d' x.1).count x := by
  induction rs generalizing d o with
  | nil => cases h; exact ⟨hd, by simp [answers]⟩
  | cons r rs ih =>
    obtain ⟨⟨d1, o1⟩, h1, h⟩ := Exec.bind_eq_ok.1 h
    obtain ⟨⟨d2, o2⟩, h2, h⟩ := Exec.bind_eq_ok.1 h
    cases h
    obtain ⟨k1, _, _, k2⟩ := item_spec hd (hr r (by simp)) h1
    obtain ⟨j1, j2⟩ := ih k1 (fun r' h => hr r' (by simp [h])) h2
    refine ⟨j1, fun x => ?_⟩
    have := k2 x
    have := j2 x
    rw [answers_append, List.count_append, List.map_cons,
      show rid r :: rs.map rid = [rid r] ++ rs.map rid from rfl, List.count_append]
    omega

theorem start_spec (m : Mem) (b : Bool) {c : Client} {o : List COut}
    (h : (Client.create m).step (.start b) = .ok (c, o)) :
    Client.Inv c ∧ c.pending = [] ∧ o = [] := by
  have := Client.step_spec (Client.inv_create m) (e := .start b) trivial h
  refine ⟨this.1, ?_, ?_⟩
  · have := this.2
    simp only [Client.Account, Client.create, List.map_nil, List.append_eq_nil_iff, List.map_eq_nil_iff] at this
    exact this.2
  · simp only [Client.step, Client.create] at h
    cases h; rfl

/-- One configuration item. -/
theorem configItem_spec {d d' : Dispatcher} {it : CfgItem} {o : List Out} {t : Bool} (hd : Inv d)
    (h : d.configItem it = .ok (d', o, t)) :
    Inv d' ∧ answers o = [] ∧ d'.numClients = d.numClients ∧ d'.numServers = d.numServers ∧
    (∀ i, i ∉ cfgClients [it] → d'.clients i = d.clients i) ∧
    (∀ i, d.clients i = none → waiting d' i = []) ∧
    (t = false → ∀ m, it.entity = .inl m → it.id < d.numClients → (d'.clients it.id).isSome) ∧
    (t = false → ∀ s, it.entity = .inr s → it.id < d.numServers → (d'.servers it.id).isSome) ∧
    (∀ i, (d.clients i).isSome → (d'.clients i).isSome) ∧
    (∀ i, (d.servers i).isSome → (d'.servers i).isSome) := by
  unfold configItem at h
  have hw : ∀ i, d.clients i = none → waiting d i = [] := by intro i hi; simp [waiting, hi]
  have hs : ∀ (m : Mem) (b t' : Bool) (_ : it.id < d.numClients) (_ : it.entity = .inl m)
      (_ : (do let (c, o) ← (Client.create m).step (.start b)
               pure (({ d with clients := upd d.clients it.id c } : Dispatcher),
                 o.map (Out.client it.id), t')) = Exec.ok (d', o, t)),
      Inv d' ∧ answers o = [] ∧ d'.numClients = d.numClients ∧ d'.numServers = d.numServers ∧
      (∀ i, i ∉ cfgClients [it] → d'.clients i = d.clients i) ∧
      (∀ i, d.clients i = none → waiting d' i = []) ∧
      (t = false → ∀ m, it.entity = .inl m → it.id < d.numClients → (d'.clients it.id).isSome) ∧
      (t = false → ∀ s, it.entity = .inr s → it.id < d.numServers → (d'.servers it.id).isSome) ∧
      (∀ i, (d.clients i).isSome → (d'.clients i).isSome) ∧
      (∀ i, (d.servers i).isSome → (d'.servers i).isSome) := by
    intro m b t' hlt hm hh
    obtain ⟨⟨c, o1⟩, h1, h2⟩ := Exec.bind_eq_ok.1 hh
    cases h2
    obtain ⟨k1, k2, k3⟩ := start_spec m b h1
    refine ⟨inv_upd hd hlt k1 (by simp [k2]), by rw [answers_client, k3]; rfl, rfl, rfl, ?_, ?_, ?_, ?_, ?_, ?_⟩
    · intro i hi
      simp only [cfgClients, hm, List.mem_singleton] at hi
      simp [upd, hi]
    · intro i hi
      rw [waiting_upd]
      split
      · simp [k2]
      · exact hw i hi
    · intro _ _ _ _; simp [upd]
    · intro _ s hs; rw [hm] at hs; cases hs
    · intro i hi; simp only [upd]; split <;> simp_all
    · intro i hi; exact hi
  split at h
  · rename_i s hm
    have hc : cfgClients [it] = [] := by simp [cfgClients, hm]
    split at h
    · cases h
      refine ⟨hd, rfl, rfl, rfl, fun _ _ => rfl, hw, ?_, ?_, fun _ h => h, fun _ h => h⟩
      · intro _ m' hm'; rw [hm] at hm'; cases hm'
      · intro _ _ _ hlt; omega
    · split at h
      · cases h
        exact ⟨hd, rfl, rfl, rfl, fun _ _ => rfl, hw, by simp, by simp, fun _ h => h, fun _ h => h⟩
      · split at h
        · cases h
        · cases h
          refine ⟨⟨hd.bound, hd.ok, hd.own⟩, rfl, rfl, rfl, fun _ _ => rfl, hw, ?_, ?_, fun _ h => h,
            fun i hi => by simp only [upd]; split <;> simp_all⟩
          · intro _ m' hm'; rw [hm] at hm'; cases hm'
          · intro _ _ _ _; simp [upd]
  · rename_i m hm
    split at h
    · cases h
      refine ⟨hd, rfl, rfl, rfl, fun _ _ => rfl, hw, ?_, ?_, fun _ h => h, fun _ h => h⟩
      · intro _ _ _ hlt; omega
      · intro _ s hs; rw [hm] at hs; cases hs
    · split at h
      · cases h
        exact ⟨hd, rfl, rfl, rfl, fun _ _ => rfl, hw, by simp, by simp, fun _ h => h, fun _ h => h⟩
      · exact hs m false true (by omega) hm h
      · exact hs m false true (by omega) hm h
      · exact hs m true false (by omega) hm h

theorem mem_cfgClients_cons {it : CfgItem} {its : List CfgItem} {i : Nat} :
    i ∈ cfgClients (it :: its) ↔ i ∈ cfgClients [it] ∨ i ∈ cfgClients its := by
  simp only [cfgClients]
  split <;> simp

theorem configLoop_spec {d d' : Dispatcher} {its : List CfgItem} {o : List Out} {t : Bool} (hd : Inv d)
    (h : d.configLoop its = .ok (d', o, t)) :
    Inv d' ∧ answers o = [] ∧ d'.numClients = d.numClients ∧ d'.numServers = d.numServers ∧
    ((cfgClients its).Nodup → (∀ i ∈ cfgClients its, d.clients i = none) →
      ∀ i, waiting d' i = waiting d i) ∧
    (t = false → ∀ it ∈ its, (∀ m, it.entity = .inl m → it.id < d.numClients → (d'.clients it.id).isSome) ∧
      (∀ s, it.entity = .inr s → it.id < d.numServers → (d'.servers it.id).isSome)) ∧
    (∀ i, (d.clients i).isSome → (d'.clients i).isSome) ∧
    (∀ i, (d.servers i).isSome → (d'.servers i).isSome) := by
  induction its generalizing d o with
  | nil => cases h; exact ⟨hd, rfl, rfl, rfl, by simp, by simp, fun _ h => h, fun _ h => h⟩
  | cons it its ih =>
    obtain ⟨⟨d1, o1, t1⟩, h1, h⟩ := Exec.bind_eq_ok.1 h
    obtain ⟨k1, k2, k3, k4, k5, k6, k7, k8, k9, k10⟩ := configItem_spec hd h1
    have hwait : (∀ i ∈ cfgClients [it], d.clients i = none) → ∀ i, waiting d1 i = waiting d i := by
      intro hn i
      by_cases hi : i ∈ cfgClients [it]
      · rw [k6 i (hn i hi)]; simp [waiting, hn i hi]
      · simp [waiting, k5 i hi]
    simp only at h
    split at h
    · rename_i ht
      cases h
      refine ⟨k1, k2, k3, k4, fun _ hn => hwait fun i hi => hn i (mem_cfgClients_cons.2 (.inl hi)), by simp, k9, k10⟩
    · rename_i ht
      obtain ⟨⟨d2, o2, t2⟩, h2, h⟩ := Exec.bind_eq_ok.1 h
      cases h
      obtain ⟨j1, j2, j3, j4, j5, j6, j7, j8⟩ := ih k1 h2
      refine ⟨j1, by rw [answers_append, k2, j2]; rfl, by rw [j3, k3], by rw [j4, k4], ?_, ?_,
        fun i h => j7 i (k9 i h), fun i h => j8 i (k10 i h)⟩
      · intro hnd hn i
        have hnd2 : (cfgClients its).Nodup ∧ ∀ i ∈ cfgClients its, i ∉ cfgClients [it] := by
          simp only [cfgClients] at hnd ⊢
          split at hnd
          · rw [List.nodup_cons] at hnd
            refine ⟨hnd.2, fun i hi hc => ?_⟩
            simp only [List.mem_singleton] at hc
            subst hc; exact hnd.1 hi
          · exact ⟨hnd, fun _ _ hc => by simp at hc⟩
        rw [j5 hnd2.1 (fun i hi => by
          rw [k5 i (hnd2.2 i hi)]; exact hn i (mem_cfgClients_cons.2 (.inr hi))) i]
        exact hwait (fun i hi => hn i (mem_cfgClients_cons.2 (.inl hi))) i
      · intro ht2 it' hit
        rcases List.mem_cons.1 hit with rfl | hit
        · have ht1 : t1 = false := by simpa using ht
          exact ⟨fun m hm hlt => j7 _ (k7 ht1 m hm hlt), fun s hs hlt => j8 _ (k8 ht1 s hs hlt)⟩
        · have := j6 ht2 it' hit
          rw [k3, k4] at this
          exact this

/-- One event. -/
theorem step_spec {d d' : Dispatcher} {e : Ev} {o : List Out} (hd : Inv d) (he : EvOk e)
    (h : d.step e = .ok (d', o)) :
    Inv d' ∧ (SteadyEv d e → ∀ x, (waiting d x.1).count x + (requested e).count x =
      (answers o).count x + (waiting d' x.1).count x) := by
  cases e with
  | config its =>
    simp only [step, config] at h
    obtain ⟨⟨d1, o1, t⟩, h1, h⟩ := Exec.bind_eq_ok.1 h
    obtain ⟨k1, k2, _, _, k5, _⟩ := configLoop_spec hd h1
    have hfin : d' = d1 ∧ answers o = [] := by
      simp only at h
      split at h <;> cases h
      · exact ⟨rfl, k2⟩
      · exact ⟨rfl, by rw [answers_append, k2]; rfl⟩
    rw [hfin.1, hfin.2]
    refine ⟨k1, fun hs x => ?_⟩
    rw [k5 hs.1 hs.2 x.1]
    simp [requested]
  | batch rs =>
    obtain ⟨k1, k2⟩ := batch_spec hd he h
    exact ⟨k1, fun _ => k2⟩
  | aduRsp v s r ok =>
    simp only [step, aduRsp] at h
    split at h
    · cases h; exact ⟨hd, by simp [requested, answers]⟩
    · split at h
      · cases h; exact ⟨hd, by simp [requested, answers]⟩
      · obtain ⟨⟨s', o'⟩, h1, h⟩ := Exec.bind_eq_ok.1 h
        cases h
        refine ⟨⟨hd.bound, hd.ok, hd.own⟩, fun _ x => ?_⟩
        rw [answers_session]
        simp [requested, waiting]
  | client i e =>
    simp only [step] at h
    split at h
    · cases h; exact ⟨hd, by simp [requested, answers]⟩
    · rename_i c hc
      split at h
      · rename_i hown
        obtain ⟨⟨c', o'⟩, h1, h⟩ := Exec.bind_eq_ok.1 h
        cases h
        have hnr : ∀ r, e ≠ .req r := by intro r hr; subst hr; simp [isOwnEvent] at hown
        obtain ⟨k1, k2, k3, k4⟩ := client_step (i := i) (hd.ok _ _ hc) (hd.own _ _ hc)
          (by cases e <;> simp_all [Client.EvOk]) (fun r hr => absurd hr (hnr r)) h1
        refine ⟨inv_upd hd (lt_of_some hd hc) k1 k2, fun hs x => ?_⟩
        have k4 := k4 (hs c hc) x
        rw [waiting_upd, answers_client]
        simp only [requested, List.count_nil, Nat.add_zero]
        split
        · rename_i hx
          simp only [waiting, hx, hc]
          cases e with
          | req r => exact absurd rfl (hnr r)
          | _ => simpa using k4
        · rename_i hx
          rw [count_ids_other k3 hx]
          simp
      · cases h; exact ⟨hd, by simp [requested, answers]⟩
  | server i e =>
    simp only [step] at h
    split at h
    · cases h; exact ⟨hd, by simp [requested, answers]⟩
    · split at h
      · obtain ⟨⟨s', o'⟩, h1, h⟩ := Exec.bind_eq_ok.1 h
        cases h
        refine ⟨⟨hd.bound, hd.ok, hd.own⟩, fun _ x => ?_⟩
        rw [answers_session]
        simp [requested, waiting]
      · cases h; exact ⟨hd, by simp [requested, answers]⟩

theorem run_inv {d d' : Dispatcher} {es : List Ev} {tr : List (Ev × List Out)} (hd : Inv d)
    (he : ∀ e ∈ es, EvOk e) (h : d.run es = .ok (d', tr)) : Inv d' := by
  induction es generalizing d tr with
  | nil => cases h; exact hd
  | cons e es ih =>
    obtain ⟨⟨d1, o1⟩, h1, h⟩ := Exec.bind_eq_ok.1 h
    obtain ⟨⟨d2, o2⟩, h2, h⟩ := Exec.bind_eq_ok.1 h
    cases h
    exact ih (step_spec hd (he e (by simp)) h1).1 (fun x hx => he x (by simp [hx])) h2

/-! ## C20 -/

/-- The items handed to client `i`. -/
def itemsFor (i : Nat) (rs : List CallerReq) : List CallerReq := rs.filter fun r => r.clientId = i

theorem batch_handed {d : Dispatcher} (hd : Inv d) {rs : List CallerReq} (hr : ∀ r ∈ rs, CallerOk r) :
    ∃ d' o, d.batch rs = .ok (d', o) ∧ d'.servers = d.servers ∧ d'.numClients = d.numClients ∧
      (∀ i, named d i = none → named d' i = none ∧ ofClient i o = []) ∧
      (∀ i c, named d i = some c → ∃ c' tr, c.run ((itemsFor i rs).map .req) = .ok (c', tr) ∧
        named d' i = some c' ∧ ofClient i o = tr.flatMap (·.2)) ∧
      rejected o = (rs.filter fun r => (named d r.clientId).isNone).map errorFor := by
  induction rs generalizing d with
  | nil =>
    exact ⟨d, [], rfl, rfl, rfl, fun i h => ⟨h, rfl⟩, fun i c h => ⟨c, [], rfl, h, rfl⟩, rfl⟩
  | cons r rs ih =>
    have hrest : ∀ r' ∈ rs, CallerOk r' := fun r' h => hr r' (by simp [h])
    by_cases hn : named d r.clientId = none
    · have h1 : d.item r = .ok (d, [.reject (errorFor r)]) := by
        unfold named at hn
        unfold item
        simp only
        split
        · rfl
        · rename_i hlt
          rw [if_pos (by omega)] at hn
          rw [hn]; rfl
      obtain ⟨d', o, h2, h3, h4, h5, h6, h7⟩ := ih hd hrest
      refine ⟨d', .reject (errorFor r) :: o, by simp [batch, h1, h2], h3, h4, ?_, ?_, ?_⟩
      · intro i hi; exact ⟨(h5 i hi).1, by simpa [ofClient] using (h5 i hi).2⟩
      · intro i c hc
        have hne : r.clientId ≠ i := by intro h; subst h; rw [hn] at hc; cases hc
        obtain ⟨c', tr, k1, k2, k3⟩ := h6 i c hc
        exact ⟨c', tr, by simpa [itemsFor, hne] using k1, k2, by simpa [ofClient] using k3⟩
      · simp [rejected, h7, hn]
    · obtain ⟨c, hc⟩ := Option.ne_none_iff_exists'.1 hn
      have hlt : r.clientId < d.numClients := by
        apply Classical.byContradiction; intro h; simp [named, h] at hc
      have hc' : d.clients r.clientId = some c := by simpa [named, hlt] using hc
      have ho : OrderlyEv c (.req r) := trivial
      obtain ⟨c1, o1, hs⟩ := Client.step_safe (e := .req r) (hd.ok _ _ hc') (hr r (by simp)) ho
      have h1 : d.item r = .ok ({ d with clients := upd d.clients r.clientId c1 },
          o1.map (.client r.clientId)) := by
        unfold item
        simp only
        rw [if_neg (by omega)]
        simp [hc', hs]
      have hd1 := (item_spec hd (hr r (by simp)) h1).1
      obtain ⟨d', o, h2, h3, h4, h5, h6, h7⟩ := ih hd1 hrest
      have hnamed : ∀ i, named { d with clients := upd d.clients r.clientId c1 } i =
          if i = r.clientId then some c1 else named d i := by
        intro i
        simp only [named, upd]
        split <;> split <;> simp_all
      refine ⟨d', o1.map (.client r.clientId) ++ o, by simp [batch, h1, h2], h3, h4, ?_, ?_, ?_⟩
      · intro i hi
        have hne : i ≠ r.clientId := by intro h; subst h; exact hn hi
        obtain ⟨k1, k2⟩ := h5 i (by rw [hnamed, if_neg hne]; exact hi)
        refine ⟨k1, ?_⟩
        rw [ofClient_append, ofClient_client, if_neg (Ne.symm hne), k2]; rfl
      · intro i c0 hc0
        by_cases hi : i = r.clientId
        · subst hi
          rw [hc] at hc0; cases hc0
          obtain ⟨c', tr, k1, k2, k3⟩ := h6 r.clientId c1 (by rw [hnamed]; simp)
          refine ⟨c', (.req r, o1) :: tr, ?_, k2, ?_⟩
          · simp only [itemsFor] at k1
            simp [itemsFor, Client.run, hs, k1]
          · rw [ofClient_append, ofClient_client, if_pos rfl, k3]; rfl
        · obtain ⟨c', tr, k1, k2, k3⟩ := h6 i c0 (by rw [hnamed, if_neg hi]; exact hc0)
          refine ⟨c', tr, by simpa [itemsFor, Ne.symm hi] using k1, k2, ?_⟩
          rw [ofClient_append, ofClient_client, if_neg (Ne.symm hi), k3]; rfl
      · rw [rejected_append, rejected_client, h7]
        have hf : (fun r' : CallerReq => (named { d with clients := upd d.clients r.clientId c1 } r'.clientId).isNone) =
            fun r' => (named d r'.clientId).isNone := by
          funext r'
          rw [hnamed]
          split
          · rename_i he; rw [he, hc]; rfl
          · rfl
        rw [hf]
        simp [hc]

/-- C20, batches.  In every state reached by any history, every batch is handled to its end: each
configured client receives exactly the items that name it, in their order, and produces exactly the
effects it produces for these requests; each item naming no configured client is answered, in order,
with an error status carrying its client and transaction id; servers are not involved, and no other
client comes into being. -/
theorem C20_batch_dispatched (ns nc : Nat) (es : List Ev) (he : ∀ e ∈ es, EvOk e) (d : Dispatcher)
    (tr : List (Ev × List Out)) (h : (create ns nc).run es = .ok (d, tr)) (rs : List CallerReq)
    (hr : ∀ r ∈ rs, CallerOk r) :
    ∃ d' o, d.step (.batch rs) = .ok (d', o) ∧ d'.servers = d.servers ∧ d'.numClients = d.numClients ∧
      (∀ i, named d i = none → named d' i = none ∧ ofClient i o = []) ∧
      (∀ i c, named d i = some c → ∃ c' tr, c.run ((itemsFor i rs).map .req) = .ok (c', tr) ∧
        named d' i = some c' ∧ ofClient i o = tr.flatMap (·.2)) ∧
      rejected o = (rs.filter fun r => (named d r.clientId).isNone).map errorFor :=
  batch_handed (run_inv (inv_create ns nc) he h) hr

/-- C20, whole component (partial: same assumption on the peers as `C14_exactly_once_partial`, and no
client is configured a second time).  Over any history, for every client and transaction id, the
requests carrying it are as many as the answers carrying it plus the requests still waiting at the
client of that number. -/
theorem C20_exactly_once_partial (ns nc : Nat) (es : List Ev) (he : ∀ e ∈ es, EvOk e) (d : Dispatcher)
    (tr : List (Ev × List Out)) (h : (create ns nc).run es = .ok (d, tr))
    (hs : Steady (create ns nc) es) (x : Nat × Nat) :
    (allRequests tr).count x = (allAnswers tr).count x + (waiting d x.1).count x := by
  have key : ∀ (d0 d : Dispatcher) (tr : List (Ev × List Out)), Inv d0 → (∀ e ∈ es, EvOk e) →
      Steady d0 es → d0.run es = .ok (d, tr) →
      (waiting d0 x.1).count x + (allRequests tr).count x =
        (allAnswers tr).count x + (waiting d x.1).count x := by
    clear h hs he
    induction es with
    | nil => intro d0 d tr hd _ _ h; cases h; simp [allRequests, allAnswers]
    | cons e es ih =>
      intro d0 d tr hd he hs h
      obtain ⟨⟨d1, o1⟩, h1, h⟩ := Exec.bind_eq_ok.1 h
      obtain ⟨⟨d2, o2⟩, h2, h⟩ := Exec.bind_eq_ok.1 h
      cases h
      have hs' := hs.2
      rw [h1] at hs'
      obtain ⟨k1, k2⟩ := step_spec hd (he e (by simp)) h1
      have k2 := k2 hs.1 x
      have k3 := ih d1 d o2 k1 (fun x hx => he x (by simp [hx])) hs' h2
      simp only [allRequests, allAnswers, List.flatMap_cons, List.count_append] at k3 ⊢
      omega
  have := key _ d tr (inv_create ns nc) he hs h
  simpa [waiting, create] using this

/-- C20, configuration (partial: all identifiers in range).  After any history, if a configuration
request is answered, the answer names the requested identifiers in order with status success, and
each of them is configured then, as a client or a server as requested. -/
theorem C20_config_answer_partial (ns nc : Nat) (es : List Ev) (he : ∀ e ∈ es, EvOk e) (d : Dispatcher)
    (tr : List (Ev × List Out)) (h : (create ns nc).run es = .ok (d, tr)) (its : List CfgItem)
    (hid : ∀ it ∈ its, match it.entity with
      | .inl _ => it.id < d.numClients
      | .inr _ => it.id < d.numServers)
    (d' : Dispatcher) (o : List Out) (hc : d.step (.config its) = .ok (d', o)) (a : List (Nat × Bool))
    (ha : .cfgRsp a ∈ o) :
    a = its.map (fun it => (it.id, true)) ∧
    ∀ it ∈ its, match it.entity with
      | .inl _ => (d'.clients it.id).isSome
      | .inr _ => (d'.servers it.id).isSome := by
  have hd := run_inv (inv_create ns nc) he h
  simp only [step, config] at hc
  obtain ⟨⟨d1, o1, t⟩, h1, h2⟩ := Exec.bind_eq_ok.1 hc
  have hno : ∀ {its : List CfgItem} {d d1 : Dispatcher} {o1 : List Out} {t : Bool},
      d.configLoop its = .ok (d1, o1, t) → .cfgRsp a ∉ o1 := by
    intro its
    induction its with
    | nil => intro d d1 o1 t h; cases h; simp
    | cons it its ih =>
      intro d d1 o1 t h
      obtain ⟨⟨d2, o2, t2⟩, h1, h⟩ := Exec.bind_eq_ok.1 h
      have : .cfgRsp a ∉ o2 := by
        unfold configItem at h1
        split at h1
        · split at h1
          · cases h1; simp
          · split at h1
            · cases h1; simp
            · split at h1 <;> cases h1
              simp
        · split at h1
          · cases h1; simp
          · split at h1
            · cases h1; simp
            · obtain ⟨⟨c, oc⟩, _, h1⟩ := Exec.bind_eq_ok.1 h1
              cases h1; simp
            · obtain ⟨⟨c, oc⟩, _, h1⟩ := Exec.bind_eq_ok.1 h1
              cases h1; simp
            · obtain ⟨⟨c, oc⟩, _, h1⟩ := Exec.bind_eq_ok.1 h1
              cases h1; simp
      simp only at h
      split at h
      · cases h; exact this
      · obtain ⟨⟨d3, o3, t3⟩, h3, h⟩ := Exec.bind_eq_ok.1 h
        cases h
        simp [this, ih h3]
  simp only at h2
  split at h2
  · cases h2; exact absurd ha (hno h1)
  · rename_i ht
    cases h2
    rcases List.mem_append.1 ha with ha | ha
    · exact absurd ha (hno h1)
    · simp only [List.mem_singleton, Out.cfgRsp.injEq] at ha
      refine ⟨ha, fun it hit => ?_⟩
      obtain ⟨_, _, _, _, _, k, _⟩ := configLoop_spec hd h1
      have k := k (by simpa using ht) it hit
      have hid := hid it hit
      split
      · rename_i m hm; rw [hm] at hid; exact k.1 m hm hid
      · rename_i s hm; rw [hm] at hid; exact k.2 s hm hid

/-! ## Examples and violations -/

def zeros : Mem := fun _ => 0

/-- A client configuration item that succeeds. -/
def cfgClient (i : Nat) : CfgItem := { id := i, entity := .inl zeros, res := .ok }

/-- Answers to the controller, configuration answers (as identifiers) and the numbers of waiting
requests at clients 0 and 1 of a history of a component with two clients. -/
def observe (es : List Ev) : Option (List CRsp × List (List (Nat × Bool)) × List Nat) :=
  match (create 1 2).run es with
  | .ok (d, tr) => some
      (tr.flatMap fun x => x.2.filterMap fun
        | .client _ (.rsp r) => some r
        | .reject r => some r
        | _ => none,
       tr.flatMap fun x => x.2.filterMap fun
        | .cfgRsp a => some a
        | _ => none,
       [(waiting d 0).length, (waiting d 1).length])
  | _ => none

/-- A request item. -/
def req (i t : Nat) : CallerReq :=
  { clientId := i, transactId := t, func := fReadHolding, addr := 9, startItem := 7, numItems := 2,
    numBytes := 0, data := some [] }

/-- A history in which client 1 is configured and connected and a batch of three items names a
configured client, an unconfigured one and one out of range. -/
def sampleBatch : List Ev :=
  [.config [cfgClient 1], .client 1 .connected, .batch [req 1 5, req 0 6, req 7 8, req 1 9]]

/-- Non-vacuity: two items wait at client 1, the two others are answered with an error. -/
example : observe sampleBatch = some ([errorFor (req 0 6), errorFor (req 7 8)], [[(1, true)]], [0, 2]) := by
  decide +kernel

/-- Non-vacuity of the exactly-once claim: after the answer to the first and a timeout of the second
request everything is answered. -/
example : observe (sampleBatch ++ [.client 1 (.timer true true), .client 1 (.data (.ok (Client.sampleAnswer 5))),
      .client 1 (.timer true true), .client 1 (.timer true true)]) =
    some ([errorFor (req 0 6), errorFor (req 7 8),
      { clientId := 1, transactId := 5, success := true, error := 0, data := [2, 1, 4, 3] },
      errorFor (req 1 9)], [[(1, true)]], [0, 0]) := by
  decide +kernel

/-- Non-vacuity of the assumptions of `C20_exactly_once_partial`. -/
example : (∀ e ∈ sampleBatch, EvOk e) ∧ Steady (create 1 2) sampleBatch := by
  refine ⟨?_, ⟨by decide, by simp [create]⟩, ⟨fun _ _ => trivial, ⟨trivial, ?_⟩⟩⟩
  · intro e he
    simp only [sampleBatch, List.mem_cons, List.not_mem_nil, or_false] at he
    rcases he with rfl | rfl | rfl <;> simp [EvOk, CallerOk, req]
  · split <;> trivial

/-- Violation of C20: the configuration answer reports success for a client that is out of range and
does not exist afterwards; a request to it is rejected. -/
theorem C20_config_status_violated :
    observe [.config [cfgClient 5], .batch [req 5 1]] =
      some ([errorFor (req 5 1)], [[(5, true)]], [0, 0]) := by
  decide +kernel

/-- Violation of C20: when an entity cannot be started, no configuration answer is sent at all, although
the entities before it have been configured. -/
theorem C20_config_answer_missing_violated :
    observe [.config [cfgClient 1, { cfgClient 0 with res := .ctorThrows }]] = some ([], [], [0, 0]) := by
  decide +kernel

/-- Violation of C20 (and of the exactly-once claim): configuring a client again destroys its waiting
requests; they are never answered. -/
theorem C20_reconfigured_client_loses_requests_violated :
    observe (sampleBatch ++ [.config [cfgClient 1]]) =
      some ([errorFor (req 0 6), errorFor (req 7 8)], [[(1, true)], [(1, true)]], [0, 0]) := by
  decide +kernel

/-- A server configuration item whose `listen` fails (port in use, say). -/
def cfgDeaf : CfgItem :=
  { id := 0, entity := .inr (Server.create (fun _ => Session.create zeros (Client.reqOfPending (AduStorage.pendingOf (req 0 0)))) 1 1), res := .listenThrows }

/-- Violation of C20: after a failed attempt to configure a server, trying again terminates the
process. -/
theorem C20_retry_terminates_violated :
    ((create 1 1).run [.config [cfgDeaf], .config [{ cfgDeaf with res := .ok }]] matches .abort) = true := by
  decide +kernel

end Uscada.Modbus.Dispatcher
