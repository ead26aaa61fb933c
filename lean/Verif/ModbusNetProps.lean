import Verif.ModbusNet
/-!
# C84: Modbus masters at the same time

A master that is connected to the server hears the answers to its requests, each computed from one memory on which the requests of all masters take effect one after the
other, whatever the other connections do.
-/

namespace Uscada.Masters

open Uscada.Modbus Uscada.Controller
open Uscada.Modbus.Standard (Request onLink)
open Uscada.Modbus.Client (wordAt byteAt)
open Server (set_same set_other)

/-! ## Messages -/

theorem own_append {α : Type} (v i : Nat) (l k : List (Nat × Nat × α)) : own v i (l ++ k) = own v i l ++ own v i k := List.filterMap_append

theorem asksOf_append (o p : List Dispatcher.Out) : asksOf (o ++ p) = asksOf o ++ asksOf p := List.filterMap_append

theorem framesTo_append (v i : Nat) (o p : List Dispatcher.Out) : framesTo v i (o ++ p) = framesTo v i o ++ framesTo v i p := List.filterMap_append

/-- Effects that are none of a session's. -/
def Foreign (v i : Nat) (o : List Dispatcher.Out) : Prop := ∀ x, .session v i x ∉ o

theorem foreign_nil (v i : Nat) : Foreign v i [] := fun x h => by simp at h

theorem foreign_append {v i : Nat} {o p : List Dispatcher.Out} (h : Foreign v i o) (k : Foreign v i p) : Foreign v i (o ++ p) := by
  intro x hx
  rcases List.mem_append.1 hx with hx | hx
  · exact h x hx
  · exact k x hx

theorem foreign_frames {v i : Nat} {o : List Dispatcher.Out} (h : Foreign v i o) : framesTo v i o = [] := by
  rw [framesTo, List.filterMap_eq_nil_iff]
  intro a ha
  split
  · rename_i v' i' w
    split
    · rename_i e
      exact absurd (e.1 ▸ e.2 ▸ ha) (h _)
    · rfl
  · rfl

theorem foreign_asks {v i : Nat} {o : List Dispatcher.Out} (h : Foreign v i o) : own v i (asksOf o) = [] := by
  rw [own, List.filterMap_eq_nil_iff]
  intro a ha
  obtain ⟨x, hx, he⟩ := List.mem_filterMap.1 ha
  split
  · rename_i e
    split at he
    · rename_i v' i' q
      injection he with he
      subst he
      obtain ⟨e1, e2⟩ := e
      dsimp only at e1 e2
      subst e1
      subst e2
      exact absurd hx (h _)
    · cases he
  · rfl

theorem foreign_client (v i k : Nat) (o : List COut) : Foreign v i (o.map (.client k)) := by
  intro x hx
  obtain ⟨_, _, e⟩ := List.mem_map.1 hx
  cases e

/-! ## What the others do to a server -/

/-- An event that is not the master's leaves its session alone. -/
theorem server_foreign {S S' : Server} {i : Nat} {e : Server.Ev} {o : List (Nat × SOut)} (hi : i ∉ S.free) (he : ∀ k, e ≠ .sess i k)
    (h : S.step e = .ok (S', o)) : S'.sess i = S.sess i ∧ i ∉ S'.free ∧ ∀ x ∈ o, x.1 ≠ i := by
  have absorbed : ∀ (T : Server) (j : Nat) (s : Session) (o : List SOut), j ≠ i → T.sess i = S.sess i → i ∉ T.free →
      (Server.absorb T j s o).sess i = S.sess i ∧ i ∉ (Server.absorb T j s o).free := by
    intro T j s o hj h1 h2
    unfold Server.absorb
    split
    · refine ⟨(set_other _ _ (Ne.symm hj)).trans h1, ?_⟩
      simp only [List.mem_append, List.mem_replicate, not_or]
      exact ⟨h2, fun hc => hj hc.2.symm⟩
    · exact ⟨(set_other _ _ (Ne.symm hj)).trans h1, h2⟩
  cases e with
  | accept ok =>
    cases hf : S.free with
    | nil =>
      simp only [Server.step, hf] at h
      cases h
      rw [hf]
      exact ⟨rfl, by simp, by simp⟩
    | cons j fr =>
      have hj : j ≠ i := by rintro rfl; exact hi (by rw [hf]; simp)
      have hfr : i ∉ fr := fun hm => hi (by rw [hf]; simp [hm])
      simp only [Server.step, hf] at h
      generalize hp : Server.prepare { S with free := fr } j ok = p at h
      obtain ⟨T, good⟩ := p
      have hT : T.sess i = S.sess i ∧ i ∉ T.free := by
        unfold Server.prepare at hp
        split at hp
        · injection hp with hp _
          rw [← hp]
          exact ⟨rfl, hfr⟩
        dsimp only at hp
        split at hp
        · injection hp with hp _
          rw [← hp]
          exact ⟨set_other _ _ (Ne.symm hj), hfr⟩
        · injection hp with hp _
          rw [← hp]
          exact ⟨(set_other _ _ (Ne.symm hj)).trans (set_other _ _ (Ne.symm hj)), hfr⟩
      dsimp only at h
      split at h
      · cases h
        exact ⟨hT.1, hT.2, by simp⟩
      · rw [Exec.bind_eq_ok] at h
        obtain ⟨⟨s, o'⟩, h1, h2⟩ := h
        cases h2
        have := absorbed T j s o' hj hT.1 hT.2
        exact ⟨this.1, this.2, by simp [hj]⟩
  | sess j e =>
    have hj : j ≠ i := by rintro rfl; exact he e rfl
    by_cases hs : e = .start
    · subst hs
      simp only [Server.step] at h
      cases h
      exact ⟨rfl, hi, by simp⟩
    have hstep : S.step (.sess j e) = (if j ≥ Server.maxNumSession then .ub else do
        let (s, o) ← (S.sess j).step e
        pure (Server.absorb S j s o, o.map fun x => (j, x))) := by
      cases e <;> first | exact absurd rfl hs | rfl
    rw [hstep] at h
    split at h
    · cases h
    rw [Exec.bind_eq_ok] at h
    obtain ⟨⟨s, o'⟩, h1, h2⟩ := h
    cases h2
    have := absorbed S j s o' hj rfl hi
    exact ⟨this.1, this.2, by simp [hj]⟩

/-- An event of the master's own session that does not end it. -/
theorem server_own {S : Server} {i : Nat} {e : Session.Ev} {s : Session} {o : List SOut} (hi : i < 256) (he : e ≠ .start)
    (h : (S.sess i).step e = .ok (s, o)) (ho : .released ∉ o) :
    S.step (.sess i e) = .ok ({ S with sess := Server.set S.sess i s }, o.map fun x => (i, x)) := by
  have hstep : S.step (.sess i e) = (if i ≥ Server.maxNumSession then .ub else do
      let (s, o) ← (S.sess i).step e
      pure (Server.absorb S i s o, o.map fun x => (i, x))) := by
    cases e <;> first | exact absurd rfl he | rfl
  rw [hstep, if_neg (by show ¬ (256 ≤ i); omega), h]
  simp only [Exec.ok_bind, Exec.pure_eq, Server.absorb, if_neg ho]

/-! ## What the others do to the component -/

/-- Session `i` of server `v` is in state `s` and not free. -/
structure Sits (d : Dispatcher) (v i : Nat) (s : Session) : Prop where
  vlt : v < d.numServers
  ilt : i < 256
  here : ∃ S, d.servers v = some S ∧ i ∉ S.free ∧ S.sess i = s

theorem upd_other {α : Type} (f : Nat → Option α) {i j : Nat} (a : α) (h : j ≠ i) : Dispatcher.upd f i a j = f j := if_neg h
theorem upd_same {α : Type} (f : Nat → Option α) (i : Nat) (a : α) : Dispatcher.upd f i a i = some a := if_pos rfl

theorem sits_same {d d' : Dispatcher} {v i : Nat} {s : Session} (h : Sits d v i s) (h1 : d'.numServers = d.numServers) (h2 : d'.servers v = d.servers v) :
    Sits d' v i s := ⟨h1 ▸ h.vlt, h.ilt, h2 ▸ h.here⟩

theorem item_foreign {d d' : Dispatcher} {r : CallerReq} {o : List Dispatcher.Out} (h : d.item r = .ok (d', o)) (v i : Nat) :
    d'.numServers = d.numServers ∧ d'.servers = d.servers ∧ Foreign v i o := by
  unfold Dispatcher.item at h
  dsimp only at h
  have hrej : ∀ c : CRsp, Foreign v i [.reject c] := by
    intro c x hx
    simp at hx
  split at h
  · cases h
    exact ⟨rfl, rfl, hrej _⟩
  split at h
  · cases h
    exact ⟨rfl, rfl, hrej _⟩
  · rw [Exec.bind_eq_ok] at h
    obtain ⟨⟨c, o'⟩, _, h2⟩ := h
    cases h2
    exact ⟨rfl, rfl, foreign_client _ _ _ _⟩

theorem batch_foreign (v i : Nat) (rs : List CallerReq) : ∀ {d d' : Dispatcher} {o : List Dispatcher.Out}, d.batch rs = .ok (d', o) →
    d'.numServers = d.numServers ∧ d'.servers = d.servers ∧ Foreign v i o := by
  induction rs with
  | nil =>
    intro d d' o h
    cases h
    exact ⟨rfl, rfl, foreign_nil _ _⟩
  | cons r rs ih =>
    intro d d' o h
    simp only [Dispatcher.batch] at h
    rw [Exec.bind_eq_ok] at h
    obtain ⟨⟨d1, o1⟩, h1, h⟩ := h
    rw [Exec.bind_eq_ok] at h
    obtain ⟨⟨d2, o2⟩, h2, h⟩ := h
    cases h
    have a := item_foreign h1 v i
    have b := ih h2
    exact ⟨b.1.trans a.1, b.2.1.trans a.2.1, foreign_append a.2.2 b.2.2⟩

theorem configItem_foreign {d d' : Dispatcher} {it : Dispatcher.CfgItem} {o : List Dispatcher.Out} {t : Bool} (h : d.configItem it = .ok (d', o, t)) (v i : Nat)
    (hv : it.id = v → ∃ m, it.entity = .inl m) : d'.numServers = d.numServers ∧ d'.servers v = d.servers v ∧ Foreign v i o := by
  unfold Dispatcher.configItem at h
  split at h
  · rename_i S hS
    have hne : v ≠ it.id := by
      intro e
      obtain ⟨m, hm⟩ := hv e.symm
      rw [hS] at hm
      cases hm
    split at h
    · cases h; exact ⟨rfl, rfl, foreign_nil _ _⟩
    split at h
    · cases h; exact ⟨rfl, rfl, foreign_nil _ _⟩
    split at h
    · cases h
    · cases h
      exact ⟨rfl, upd_other _ _ hne, foreign_nil _ _⟩
  · split at h
    · cases h; exact ⟨rfl, rfl, foreign_nil _ _⟩
    split at h
    · cases h; exact ⟨rfl, rfl, foreign_nil _ _⟩
    all_goals
      rw [Exec.bind_eq_ok] at h
      obtain ⟨⟨c, o'⟩, _, h2⟩ := h
      cases h2
      exact ⟨rfl, rfl, foreign_client _ _ _ _⟩

theorem configLoop_foreign (v i : Nat) (its : List Dispatcher.CfgItem) : (∀ it ∈ its, it.id = v → ∃ m, it.entity = .inl m) →
    ∀ {d d' : Dispatcher} {o : List Dispatcher.Out} {t : Bool}, d.configLoop its = .ok (d', o, t) →
    d'.numServers = d.numServers ∧ d'.servers v = d.servers v ∧ Foreign v i o := by
  induction its with
  | nil =>
    intro _ d d' o t h
    cases h
    exact ⟨rfl, rfl, foreign_nil _ _⟩
  | cons it its ih =>
    intro hv d d' o t h
    simp only [Dispatcher.configLoop] at h
    rw [Exec.bind_eq_ok] at h
    obtain ⟨⟨d1, o1, t1⟩, h1, h⟩ := h
    have a := configItem_foreign h1 v i (hv it (by simp))
    dsimp only at h
    split at h
    · cases h
      exact a
    · rw [Exec.bind_eq_ok] at h
      obtain ⟨⟨d2, o2, t2⟩, h2, h⟩ := h
      cases h
      have b := ih (fun x hx => hv x (by simp [hx])) h2
      exact ⟨b.1.trans a.1, b.2.1.trans a.2.1, foreign_append a.2.2 b.2.2⟩

/-- An event of the component that is not the master's. -/
def Others (v i : Nat) : Dispatcher.Ev → Prop
  | .config its => ∀ it ∈ its, it.id = v → ∃ m, it.entity = .inl m
  | .aduRsp v' i' _ _ => ¬ (v' = v ∧ i' = i)
  | .server v' (.sess i' _) => ¬ (v' = v ∧ i' = i)
  | _ => True

theorem map_foreign {v i v' : Nat} {o : List (Nat × SOut)} (h : v' = v → ∀ x ∈ o, x.1 ≠ i) :
    Foreign v i (o.map fun x => .session v' x.1 x.2) := by
  intro x hx
  obtain ⟨y, hy, e⟩ := List.mem_map.1 hx
  injection e with e1 e2 _
  exact h e1 y hy e2

theorem sits_upd {d : Dispatcher} {v i v' : Nat} {s : Session} {S S' : Server} {e : Server.Ev} {o : List (Nat × SOut)} (h : Sits d v i s) (hS : d.servers v' = some S)
    (he : v' = v → ∀ k, e ≠ .sess i k) (hs : S.step e = .ok (S', o)) :
    Sits { d with servers := Dispatcher.upd d.servers v' S' } v i s ∧ Foreign v i (o.map fun x => .session v' x.1 x.2) := by
  by_cases hv : v' = v
  · subst hv
    obtain ⟨T, hT, hf, hT'⟩ := h.here
    rw [hS] at hT
    cases hT
    obtain ⟨a1, a2, a3⟩ := server_foreign hf (he rfl) hs
    exact ⟨⟨h.vlt, h.ilt, S', upd_same _ _ _, a2, a1.trans hT'⟩, map_foreign fun _ => a3⟩
  · exact ⟨sits_same h rfl (upd_other _ _ (Ne.symm hv)), map_foreign fun e => absurd e hv⟩

theorem dispatcher_foreign {d d' : Dispatcher} {v i : Nat} {s : Session} {e : Dispatcher.Ev} {o : List Dispatcher.Out} (hs : Sits d v i s) (he : Others v i e)
    (h : d.step e = .ok (d', o)) : Sits d' v i s ∧ Foreign v i o := by
  cases e with
  | config its =>
    simp only [Dispatcher.step, Dispatcher.config] at h
    rw [Exec.bind_eq_ok] at h
    obtain ⟨⟨d1, o1, t1⟩, h1, h⟩ := h
    have a := configLoop_foreign v i its he h1
    dsimp only at h
    split at h
    · cases h
      exact ⟨sits_same hs a.1 a.2.1, a.2.2⟩
    · cases h
      refine ⟨sits_same hs a.1 a.2.1, foreign_append a.2.2 ?_⟩
      intro x hx
      simp at hx
  | batch rs =>
    have a := batch_foreign v i rs h
    exact ⟨sits_same hs a.1 (congrFun a.2.1 v), a.2.2⟩
  | aduRsp v' i' r ok =>
    simp only [Dispatcher.step, Dispatcher.aduRsp] at h
    split at h
    · cases h; exact ⟨hs, foreign_nil _ _⟩
    split at h
    · cases h; exact ⟨hs, foreign_nil _ _⟩
    · rename_i S hS
      rw [Exec.bind_eq_ok] at h
      obtain ⟨⟨S', o'⟩, h1, h2⟩ := h
      cases h2
      refine sits_upd hs hS ?_ h1
      intro hv k e
      injection e with e1 _
      exact he ⟨hv, e1⟩
  | client k e =>
    simp only [Dispatcher.step] at h
    split at h
    · cases h; exact ⟨hs, foreign_nil _ _⟩
    · split at h
      · rw [Exec.bind_eq_ok] at h
        obtain ⟨⟨c, o'⟩, _, h2⟩ := h
        cases h2
        exact ⟨sits_same hs rfl rfl, foreign_client _ _ _ _⟩
      · cases h; exact ⟨hs, foreign_nil _ _⟩
  | server v' e =>
    simp only [Dispatcher.step] at h
    split at h
    · cases h; exact ⟨hs, foreign_nil _ _⟩
    · rename_i S hS
      split at h
      · rw [Exec.bind_eq_ok] at h
        obtain ⟨⟨S', o'⟩, h1, h2⟩ := h
        cases h2
        refine sits_upd hs hS ?_ h1
        intro hv k e'
        subst e'
        exact he ⟨hv, rfl⟩
      · cases h; exact ⟨hs, foreign_nil _ _⟩

/-- An event of the master's own session. -/
theorem dispatcher_own {d : Dispatcher} {v i : Nat} {s s' : Session} {e : Session.Ev} {o : List SOut} (hs : Sits d v i s) (he : e ≠ .start)
    (h : s.step e = .ok (s', o)) (ho : .released ∉ o) (hr : ∀ r k, e ≠ .rsp r k) :
    ∃ d', d.step (.server v (.sess i e)) = .ok (d', o.map (.session v i)) ∧ Sits d' v i s' := by
  obtain ⟨S, h1, h2, h3⟩ := hs.here
  rw [← h3] at h
  have hown : Dispatcher.isOwnSessionEvent (.sess i e) = true := by
    cases e <;> first | rfl | exact absurd rfl (hr _ _)
  refine ⟨{ d with servers := Dispatcher.upd d.servers v { S with sess := Server.set S.sess i s' } }, ?_, hs.vlt, hs.ilt, _, upd_same _ _ _, h2, set_same _ _ _⟩
  simp only [Dispatcher.step, h1, hown, if_true]
  rw [server_own hs.ilt he h ho]
  simp only [Exec.ok_bind, Exec.pure_eq, List.map_map]
  rfl

/-- An answer for the master's own session. -/
theorem dispatcher_answer {d : Dispatcher} {v i : Nat} {s s' : Session} {r : AppRsp} {k : Bool} {o : List SOut} (hs : Sits d v i s)
    (h : s.step (.rsp r k) = .ok (s', o)) (ho : .released ∉ o) :
    ∃ d', d.step (.aduRsp v i r k) = .ok (d', o.map (.session v i)) ∧ Sits d' v i s' := by
  obtain ⟨S, h1, h2, h3⟩ := hs.here
  rw [← h3] at h
  refine ⟨{ d with servers := Dispatcher.upd d.servers v { S with sess := Server.set S.sess i s' } }, ?_, hs.vlt, hs.ilt, _, upd_same _ _ _, h2, set_same _ _ _⟩
  simp only [Dispatcher.step, Dispatcher.aduRsp, if_neg (Nat.not_le.2 hs.vlt), h1]
  rw [server_own hs.ilt (by simp) h ho]
  simp only [Exec.ok_bind, Exec.pure_eq, List.map_map]
  rfl

/-! ## The controller -/

/-- The controller of the program is one of C61. -/
def Kept (rnd : Nat → UInt8) (n : Net) : Prop := ∃ es, Controller.run rnd Ctl.create [] es = .ok (n.ctl, n.log)

theorem run_snoc {rnd : Nat → UInt8} (es : List Controller.Ev) : ∀ {c c1 c2 : Ctl} {l l1 : List Act} {e : Controller.Ev} {o : List Controller.Out},
    Controller.run rnd c l es = .ok (c1, l1) → c1.step rnd e = .ok (c2, o) → Controller.run rnd c l (es ++ [e]) = .ok (c2, l1 ++ .rcv e :: o.map .snd) := by
  induction es with
  | nil =>
    intro c c1 c2 l l1 e o h1 h2
    cases h1
    simp only [List.nil_append, Controller.run, h2, Exec.ok_bind]
  | cons a es ih =>
    intro c c1 c2 l l1 e o h1 h2
    simp only [Controller.run] at h1
    rw [Exec.bind_eq_ok] at h1
    obtain ⟨⟨c', o'⟩, h3, h4⟩ := h1
    simp only [List.cons_append, Controller.run, h3, Exec.ok_bind]
    exact ih h4 h2

theorem tell_fst (rnd : Nat → UInt8) (v i : Nat) (log : List Act) : ∀ s l, (log.foldl (told1 rnd v i) (s, l)).1 = log.foldl (replay1 rnd) s := by
  induction log with
  | nil => intro s l; rfl
  | cons a log ih =>
    intro s l
    obtain ⟨F, p⟩ := s
    simp only [List.foldl_cons]
    have e : told1 rnd v i ((F, p), l) a = (replay1 rnd (F, p) a, (told1 rnd v i ((F, p), l) a).2) := by
      cases a with
      | rcv e => cases p <;> rfl
      | snd o =>
        cases p with
        | none => rfl
        | some q => cases o <;> rfl
    rw [e]
    exact ih _ _

theorem tell_snds (rnd : Nat → UInt8) (v i : Nat) (o : List Controller.Out) (ho : ∀ x ∈ o, isAduRsp x = false) :
    ∀ s l, ((o.map Act.snd).foldl (told1 rnd v i) (s, l)).2 = l := by
  induction o with
  | nil => intro s l; rfl
  | cons x o ih =>
    intro s l
    have hx := ho x (by simp)
    obtain ⟨F, p⟩ := s
    have e : told1 rnd v i ((F, p), l) (.snd x) = (replay1 rnd (F, p) (.snd x), l) := by
      cases x <;> cases p <;> first | rfl | cases hx
    simp only [List.map_cons, List.foldl_cons, e]
    exact ih (fun y hy => ho y (by simp [hy])) _ _

theorem tell_rcv (rnd : Nat → UInt8) (v i : Nat) (s : Files × Option FwdReq) (l : List (FwdReq × List UInt8)) (e : Controller.Ev) :
    told1 rnd v i (s, l) (.rcv e) = (replay1 rnd s (.rcv e), l) := by
  obtain ⟨F, p⟩ := s
  cases p <;> rfl

theorem told_quiet (rnd : Nat → UInt8) (v i : Nat) (log : List Act) (e : Controller.Ev) (o : List Controller.Out) (ho : ∀ x ∈ o, isAduRsp x = false) :
    told rnd v i (log ++ .rcv e :: o.map .snd) = told rnd v i log := by
  unfold told
  rw [List.foldl_append, List.foldl_cons]
  generalize log.foldl (told1 rnd v i) ((fun _ => rnd, none), []) = x
  obtain ⟨s, l⟩ := x
  rw [tell_rcv, tell_snds rnd v i o ho]

theorem told_served (rnd : Nat → UInt8) (v i : Nat) (log : List Act) (a b : Nat) (q : FwdReq) (v' i' : Nat) (r : AppRsp) :
    told rnd v i (log ++ .rcv (.modbusAduReq a b q) :: [Controller.Out.modbusAduRsp v' i' r].map .snd) =
      told rnd v i log ++ if v' = v ∧ i' = i then [(q, reply (replay rnd log) q)] else [] := by
  have hf := tell_fst rnd v i log (fun _ => rnd, none) []
  unfold told
  rw [List.foldl_append]
  unfold replay
  rw [← hf]
  generalize log.foldl (told1 rnd v i) ((fun _ => rnd, none), []) = x
  obtain ⟨⟨F, p⟩, l⟩ := x
  have e : told1 rnd v i ((F, p), l) (.rcv (.modbusAduReq a b q)) = ((F, some q), l) := by
    rw [tell_rcv]
    cases p <;> rfl
  rw [List.map_cons, List.map_nil, List.foldl_cons, List.foldl_cons, List.foldl_nil, e]
  show (if v' = v ∧ i' = i then l ++ [(q, reply F q)] else l) = _
  split
  · rfl
  · simp

/-- What the controller does with a forwarded request. -/
theorem adu_cases {rnd : Nat → UInt8} {c c' : Ctl} {v i : Nat} {q : FwdReq} {o : List Controller.Out} (h : c.step rnd (.modbusAduReq v i q) = .ok (c', o)) :
    o = [] ∨ ∃ r, o = [.modbusAduRsp v i r] := by
  simp only [Ctl.step, Ctl.onTestE] at h
  split at h
  · cases h
    exact .inl rfl
  · rename_i t _
    rw [Exec.bind_eq_ok] at h
    obtain ⟨⟨t', o'⟩, h1, h2⟩ := h
    cases h2
    unfold Test.onAduReq at h1
    split at h1
    · obtain ⟨⟨r, hr, _⟩, _⟩ := serve_cases h1
      exact .inr ⟨r, hr⟩
    · cases h1
      exact .inl rfl

theorem ctl_quiet {rnd : Nat → UInt8} {c c' : Ctl} {e : Controller.Ev} {o : List Controller.Out} (h : c.step rnd e = .ok (c', o)) (he : ∀ v i q, e ≠ .modbusAduReq v i q) :
    ∀ x ∈ o, isAduRsp x = false := by
  by_cases h1 : e = .start true
  · subst h1
    simp only [Ctl.step, if_true] at h
    cases h
    intro x hx
    simp [Test.onStart, Test.create, USt.onStart] at hx
    rcases hx with rfl | rfl | rfl | rfl <;> rfl
  · exact (step_keeps h h1 he).1

/-! ## Steps of the program that are not the master's -/

theorem own_cons_other {α : Type} {v i v' i' : Nat} {m : α} {l : List (Nat × Nat × α)} (h : ¬ (v' = v ∧ i' = i)) : own v i ((v', i', m) :: l) = own v i l := by
  rw [own, List.filterMap_cons_none (by simp [h])]
  rfl

theorem own_cons_self {α : Type} {v i : Nat} {m : α} {l : List (Nat × Nat × α)} : own v i ((v, i, m) :: l) = m :: own v i l := by
  rw [own, List.filterMap_cons_some (b := m) (by simp)]
  rfl

theorem own_nil {α : Type} (v i : Nat) : own v i ([] : List (Nat × Nat × α)) = [] := rfl

/-- Whether the event passes on a message of the master. -/
def Passes (v i : Nat) (n : Net) : Ev → Prop
  | .serve _ => ∃ q as, n.asks = (v, i, q) :: as
  | .answer _ => ∃ r ss, n.says = (v, i, r) :: ss
  | .modbus (.server v' (.sess i' _)) _ => v' = v ∧ i' = i
  | _ => False

/-- Nothing changes for the master. -/
structure Keeps (rnd : Nat → UInt8) (v i : Nat) (n n' : Net) (s : Session) (o : List Dispatcher.Out) : Prop where
  sits : Sits n'.modbus v i s
  foreign : Foreign v i o
  asks : own v i n'.asks = own v i n.asks
  says : own v i n'.says = own v i n.says
  told : told rnd v i n'.log = told rnd v i n.log
  kept : Kept rnd n'

theorem net_foreign {rnd : Nat → UInt8} {v i : Nat} {n n' : Net} {e : Ev} {o : List Dispatcher.Out} {s : Session} (hs : Sits n.modbus v i s) (hk : Kept rnd n)
    (hm : Meanwhile v i n e) (hp : ¬ Passes v i n e) (h : n.step rnd e = .ok (n', o)) : Keeps rnd v i n n' s o := by
  have nothing : ∀ {n' : Net} {o : List Dispatcher.Out}, (Exec.ok (n, []) : Exec (Net × List Dispatcher.Out)) = .ok (n', o) → Keeps rnd v i n n' s o := by
    intro n' o h
    cases h
    exact ⟨hs, foreign_nil _ _, rfl, rfl, rfl, hk⟩
  cases e with
  | modbus e room =>
    by_cases ha : ∃ a b r k, e = .aduRsp a b r k
    · obtain ⟨a, b, r, k, rfl⟩ := ha
      exact nothing h
    have h' : (do
        let (d, o) ← n.modbus.step e
        pure ({ n with modbus := d, asks := n.asks ++ if room then asksOf o else [] }, o)) = Exec.ok (n', o) := by
      cases e <;> first | exact h | exact absurd ⟨_, _, _, _, rfl⟩ ha
    rw [Exec.bind_eq_ok] at h'
    obtain ⟨⟨d, o'⟩, h1, h2⟩ := h'
    cases h2
    have ho : Others v i e := by
      cases e with
      | config its => exact hm
      | batch => trivial
      | aduRsp a b r k => exact absurd ⟨_, _, _, _, rfl⟩ ha
      | client => trivial
      | server v' e =>
        cases e with
        | accept => trivial
        | sess i' e => exact hp
    obtain ⟨g1, g2⟩ := dispatcher_foreign hs ho h1
    refine ⟨g1, g2, ?_, rfl, rfl, hk⟩
    show own v i (n.asks ++ if room then asksOf o else []) = _
    rw [own_append]
    cases room
    · simp [own_nil]
    · simp [foreign_asks g2]
  | ctl e =>
    by_cases ha : ∃ a b q, e = .modbusAduReq a b q
    · obtain ⟨a, b, q, rfl⟩ := ha
      exact nothing h
    have h' : (do
        let (c, o) ← n.ctl.step rnd e
        pure ({ n with ctl := c, log := n.log ++ .rcv e :: o.map .snd }, [])) = Exec.ok (n', o) := by
      cases e <;> first | exact h | exact absurd ⟨_, _, _, rfl⟩ ha
    rw [Exec.bind_eq_ok] at h'
    obtain ⟨⟨c, o'⟩, h1, h2⟩ := h'
    cases h2
    obtain ⟨es, hes⟩ := hk
    exact ⟨hs, foreign_nil _ _, rfl, rfl, told_quiet rnd v i _ _ _ (ctl_quiet h1 fun a b q e => ha ⟨a, b, q, e⟩), _, run_snoc es hes h1⟩
  | serve room =>
    simp only [Net.step] at h
    cases hq : n.asks with
    | nil =>
      rw [hq] at h
      exact nothing h
    | cons m as =>
      obtain ⟨v', i', q⟩ := m
      rw [hq] at h
      dsimp only at h
      rw [Exec.bind_eq_ok] at h
      obtain ⟨⟨c, o'⟩, h1, h2⟩ := h
      cases h2
      have hne : ¬ (v' = v ∧ i' = i) := by
        rintro ⟨rfl, rfl⟩
        exact hp ⟨q, as, hq⟩
      obtain ⟨es, hes⟩ := hk
      have hrun := run_snoc es hes h1
      rcases adu_cases h1 with rfl | ⟨r, rfl⟩
      · refine ⟨hs, foreign_nil _ _, ?_, ?_, told_quiet rnd v i _ _ [] (by simp), _, hrun⟩
        · rw [hq, own_cons_other hne]
        · cases room <;> simp [saysOf]
      · refine ⟨hs, foreign_nil _ _, ?_, ?_, ?_, _, hrun⟩
        · rw [hq, own_cons_other hne]
        · show own v i (n.says ++ if room then saysOf [.modbusAduRsp v' i' r] else []) = _
          rw [own_append]
          have : own v i (saysOf [.modbusAduRsp v' i' r]) = [] := own_cons_other hne
          cases room
          · simp [own_nil]
          · simp [this]
        · show told rnd v i (n.log ++ .rcv (.modbusAduReq v' i' q) :: [Controller.Out.modbusAduRsp v' i' r].map .snd) = _
          rw [told_served, if_neg hne, List.append_nil]
  | answer ok =>
    simp only [Net.step] at h
    cases hq : n.says with
    | nil =>
      rw [hq] at h
      exact nothing h
    | cons m ss =>
      obtain ⟨v', i', r⟩ := m
      rw [hq] at h
      dsimp only at h
      rw [Exec.bind_eq_ok] at h
      obtain ⟨⟨d, o'⟩, h1, h2⟩ := h
      cases h2
      have hne : ¬ (v' = v ∧ i' = i) := by
        rintro ⟨rfl, rfl⟩
        exact hp ⟨r, ss, hq⟩
      obtain ⟨g1, g2⟩ := dispatcher_foreign (e := .aduRsp v' i' r ok) hs hne h1
      refine ⟨g1, g2, rfl, ?_, rfl, hk⟩
      rw [hq, own_cons_other hne]

/-! ## The master's own requests -/

theorem Job.Ok.lt {j : Job} (h : j.Ok) : j.tid < 16 ∧ j.tid ∉ failed ∧ j.tid ≠ excepted := by
  have := h.tid
  simp only [List.mem_cons, List.not_mem_nil, or_false] at this
  rcases this with e | e | e | e | e | e | e <;> rw [e] <;> decide

theorem Job.Ok.plain {j : Job} (h : j.Ok) : j.req.bits = false ∧ j.req.coilOn = false := by
  have := h.regs
  obtain ⟨t, u, r⟩ := j
  cases r <;> first | exact ⟨rfl, rfl⟩ | cases this

theorem Job.Ok.framed {j : Job} (h : j.Ok) : Framed j.bytes ∧ j.bytes ≠ [] := by
  have hsz := h.valid.near.size
  have h1 := h.lt.1
  have h2 := h.unit
  exact ⟨Standard.framed_onLink (by omega) (by omega) (by rw [Request.pdu_length]; omega), by simp [Job.bytes, onLink, Standard.word]⟩

theorem host_bytes (a b : UInt8) : Standard.host (b.toNat * 256 + a.toNat) = [a, b] := by
  have ha := a.toNat_lt
  have hb := b.toNat_lt
  have h1 : (b.toNat * 256 + a.toNat) / 256 = b.toNat := by omega
  have h2 : (b.toNat * 256 + a.toNat) % 256 = a.toNat := by omega
  simp [Standard.host, h1, h2]

theorem hosts_regsOf : ∀ (n : Nat) (l : List UInt8), l.length = 2 * n →
    (regsOf l).flatMap Standard.host = l ∧ (regsOf l).length = n ∧ ∀ v ∈ regsOf l, v < 65536
  | 0, l, h => by
    have : l = [] := List.eq_nil_of_length_eq_zero (by omega)
    subst this
    simp [regsOf]
  | n + 1, [], h => by simp at h
  | n + 1, [_], h => by simp at h; omega
  | n + 1, a :: b :: l, h => by
    obtain ⟨h1, h2, h3⟩ := hosts_regsOf n l (by simp at h; omega)
    have ha := a.toNat_lt
    have hb := b.toNat_lt
    refine ⟨?_, by simp [regsOf, h2], ?_⟩
    · simp only [regsOf, List.flatMap_cons, host_bytes, h1]
      rfl
    · intro v hv
      simp only [regsOf, List.mem_cons] at hv
      rcases hv with hv | hv
      · omega
      · exact h3 v hv

theorem read_length (F : Files) (i s n : Nat) : (F.read i s n).length = 2 * n := by simp [Files.read]

/-- The request that reaches the controller is in range, and the content of the register files is what the answer of the standard needs. -/
theorem Job.Ok.served {j : Job} (h : j.Ok) {q : FwdReq} (hv : q.view = j.req.view j.tid j.unit) (F : Files) :
    InRegs q ∧ q.transactId = j.tid ∧ reply F q = j.req.reply (regsOf (reply F q)) ∧ j.req.Fits (regsOf (reply F q)) := by
  have hlt := h.lt.1
  have hr := h.regs
  have hval := h.valid
  obtain ⟨tid, unit, r⟩ := j
  dsimp only at *
  have f1 : q.transactId = tid := congrArg ReqView.transactId hv
  have f2 : q.func = r.code := congrArg ReqView.func hv
  have f3 : q.startItem = (r.view tid unit).startItem := congrArg ReqView.startItem hv
  have f4 : (if isSingleFunc q.func then none else some q.numItems) = (r.view tid unit).numItems := congrArg ReqView.numItems hv
  have f5 : (if isReadFunc q.func then none else some q.data) = (r.view tid unit).data := congrArg ReqView.data hv
  cases r with
  | readCoils s n => cases hr
  | readDiscrete s n => cases hr
  | writeCoil a on => cases hr
  | readHolding s n =>
    have g2 : q.func = 3 := f2
    have g3 : q.startItem = s := f3
    rw [g2, if_neg (by decide)] at f4
    have g4 : q.numItems = n := by injection f4
    have e : reply F q = F.read q.transactId q.startItem q.numItems := by rw [reply, if_pos (by omega)]
    obtain ⟨a1, a2, a3⟩ := hosts_regsOf n (reply F q) (by rw [e, read_length, g4])
    refine ⟨⟨by omega, fun _ => ?_, fun hc => by omega⟩, f1, a1.symm, a2, a3⟩
    have := hval.2.1
    dsimp only at hr
    omega
  | readInput s n =>
    have g2 : q.func = 4 := f2
    have g3 : q.startItem = s := f3
    rw [g2, if_neg (by decide)] at f4
    have g4 : q.numItems = n := by injection f4
    have e : reply F q = F.read q.transactId q.startItem q.numItems := by rw [reply, if_pos (by omega)]
    obtain ⟨a1, a2, a3⟩ := hosts_regsOf n (reply F q) (by rw [e, read_length, g4])
    refine ⟨⟨by omega, fun _ => ?_, fun hc => by omega⟩, f1, a1.symm, a2, a3⟩
    have := hval.2.1
    dsimp only at hr
    omega
  | writeRegister a w =>
    have g2 : q.func = 6 := f2
    have g3 : q.startItem = a := f3
    rw [g2, if_neg (by decide)] at f5
    have g5 : q.data = Standard.host w := by injection f5
    have e : reply F q = q.data := by rw [reply, if_neg (by omega), if_pos g2]
    refine ⟨⟨by omega, fun hc => by omega, fun _ => ?_⟩, f1, by rw [e, g5]; rfl, trivial⟩
    rw [g5, Standard.length_host]
    dsimp only at hr
    omega
  | writeRegisters a ws =>
    have g2 : q.func = 16 := f2
    have g3 : q.startItem = a := f3
    rw [g2, if_neg (by decide)] at f5
    have g5 : q.data = ws.flatMap Standard.host := by injection f5
    have e : reply F q = [] := by rw [reply, if_neg (by omega), if_neg (by omega)]
    refine ⟨⟨by omega, fun hc => by omega, fun _ => ?_⟩, f1, by rw [e]; rfl, trivial⟩
    rw [g5, Standard.length_hosts]
    have := hval.2.1
    dsimp only at hr
    omega

/-! ## The stages of a request -/

/-- Where the master is (0: it has not sent its request; 1: not all of it has been read; 2: the request waits at the controller; 3: the answer waits), and what the session
has been told that the master has not heard. -/
inductive Stage (v i : Nat) (x : Scene) : Nat → List (FwdReq × List UInt8) → Prop
  | idle {s : Session} : Sits x.net.modbus v i s → s.Fresh → own v i x.net.asks = [] → own v i x.net.says = [] → x.wire = [] → x.sent = false → Stage v i x 0 []
  | reading {s : Session} {j : Job} {js : List Job} {q : List UInt8} : x.plan = j :: js → Sits x.net.modbus v i (s.at' (wordAt j.bytes 4) q) → s.Fresh →
      j.bytes = q ++ x.wire → x.wire ≠ [] → own v i x.net.asks = [] → own v i x.net.says = [] → x.sent = true → Stage v i x 1 []
  | asked {s : Session} {j : Job} {js : List Job} {q : FwdReq} : x.plan = j :: js → Sits x.net.modbus v i s → Standard.Heard s j.tid j.unit j.req →
      q.view = j.req.view j.tid j.unit → x.wire = [] → own v i x.net.asks = [q] → own v i x.net.says = [] → x.sent = true → Stage v i x 2 []
  | told {s : Session} {j : Job} {js : List Job} {q : FwdReq} {d : List UInt8} : x.plan = j :: js → Sits x.net.modbus v i s → Standard.Heard s j.tid j.unit j.req →
      q.view = j.req.view j.tid j.unit → d = j.req.reply (regsOf d) → j.req.Fits (regsOf d) → x.wire = [] → own v i x.net.asks = [] →
      own v i x.net.says = [⟨j.tid, 0, true, d⟩] → x.sent = true → Stage v i x 3 [(q, d)]

/-- The master in its stage. -/
structure Stays (rnd : Nat → UInt8) (v i : Nat) (x : Scene) (m : Nat) (p : List (FwdReq × List UInt8)) : Prop where
  kept : Kept rnd x.net
  plan : ∀ j ∈ x.plan, j.Ok
  stage : Stage v i x m p

/-- How a stage goes on. -/
inductive Moves (rnd : Nat → UInt8) (v i : Nat) (x y : Scene) : Nat → List (FwdReq × List UInt8) → Nat → List (FwdReq × List UInt8) → Prop
  | on {m m' : Nat} {p : List (FwdReq × List UInt8)} : (m' = m ∨ m' = m + 1) → y.heard = x.heard → y.plan = x.plan →
      told rnd v i y.net.log = told rnd v i x.net.log → Moves rnd v i x y m p m' p
  | served {q : FwdReq} {d : List UInt8} : y.heard = x.heard → y.plan = x.plan → told rnd v i y.net.log = told rnd v i x.net.log ++ [(q, d)] →
      Moves rnd v i x y 2 [] 3 [(q, d)]
  | heard {j : Job} {js : List Job} {q : FwdReq} {d : List UInt8} : x.plan = j :: js → q.view = j.req.view j.tid j.unit → y.plan = js →
      y.heard = x.heard ++ [j.answer d] → told rnd v i y.net.log = told rnd v i x.net.log → Moves rnd v i x y 3 [(q, d)] 0 []

/-- A step that is the master's. -/
def Mine (v i : Nat) (x : Scene) : Deed → Prop
  | .talk | .read _ => True
  | .net e => Passes v i x.net e

theorem hear_nil (x : Scene) (n : Net) : x.hear n [] = { x with net := n } := by simp [Scene.hear]

theorem step_na {s : Session} (h1 : s.link = true) (h2 : s.opened = true) (h3 : s.st = .wait ∨ s.st = .connected ∧ s.pdu.len ≤ 260) :
    s.step (.data .na) = .ok (s, []) := by
  have hA : maxAduLen = 260 := rfl
  rcases h3 with h3 | ⟨h3, h4⟩
  · simp only [Session.step, h1, if_true, Session.onData, h3, Session.receive]
    by_cases hl : s.pdu.len > maxAduLen
    · simp [hl]
    · simp [hl, h2]
  · simp only [Session.step, h1, if_true, Session.onData, h3, Session.receive, if_neg (show ¬ (s.pdu.len > maxAduLen) by omega)]
    simp [h2]

/-- Nothing new on the link in any stage. -/
theorem stage_na {v i : Nat} {x : Scene} {m : Nat} {p : List (FwdReq × List UInt8)} (hp : ∀ j ∈ x.plan, j.Ok) (h : Stage v i x m p) :
    ∃ s, Sits x.net.modbus v i s ∧ s.step (.data .na) = .ok (s, []) := by
  cases h with
  | idle h1 h2 _ _ _ _ =>
    exact ⟨_, h1, step_na h2.link h2.opened (.inr ⟨h2.st, by rw [h2.len]; omega⟩)⟩
  | @reading s j js q h0 h1 h2 h3 _ _ _ _ =>
    refine ⟨_, h1, step_na h2.link h2.opened ?_⟩
    have hF := (hp j (by rw [h0]; simp)).framed.1
    have hl : q.length ≤ 260 := by
      have := hF.2
      rw [h3, List.length_append] at this
      omega
    have hlen : (s.at' (wordAt j.bytes 4) q).pdu.len = q.length := by
      show (s.pdu.received q).len = _
      simp [PduBuf.received, h2.len]
    have hst : (s.at' (wordAt j.bytes 4) q).st = .wait ∨ (s.at' (wordAt j.bytes 4) q).st = .connected := by
      show Session.stOf _ _ = _ ∨ Session.stOf _ _ = _
      unfold Session.stOf
      split
      · exact .inr rfl
      · exact .inl rfl
    rcases hst with e | e
    · exact .inl e
    · exact .inr ⟨e, by rw [hlen]; exact hl⟩
  | asked _ h1 h2 _ _ _ _ _ => exact ⟨_, h1, step_na h2.link h2.opened (.inl h2.st)⟩
  | told _ h1 h2 _ _ _ _ _ _ _ => exact ⟨_, h1, step_na h2.link h2.opened (.inl h2.st)⟩

/-- Stages survive what does not concern the session. -/
theorem Stage.keep {rnd : Nat → UInt8} {v i : Nat} {x : Scene} {m : Nat} {p : List (FwdReq × List UInt8)} {n : Net} (h : Stage v i x m p)
    (hk : ∀ s, Sits x.net.modbus v i s → ∃ o, Keeps rnd v i x.net n s o) : Stage v i { x with net := n } m p := by
  cases h with
  | idle h1 h2 h3 h4 h5 h6 =>
    obtain ⟨o, k⟩ := hk _ h1
    exact .idle k.sits h2 (k.asks.trans h3) (k.says.trans h4) h5 h6
  | reading h0 h1 h2 h3 h4 h5 h6 h7 =>
    obtain ⟨o, k⟩ := hk _ h1
    exact .reading h0 k.sits h2 h3 h4 (k.asks.trans h5) (k.says.trans h6) h7
  | asked h0 h1 h2 h3 h4 h5 h6 h7 =>
    obtain ⟨o, k⟩ := hk _ h1
    exact .asked h0 k.sits h2 h3 h4 (k.asks.trans h5) (k.says.trans h6) h7
  | told h0 h1 h2 h3 h4 h5 h6 h7 h8 h9 =>
    obtain ⟨o, k⟩ := hk _ h1
    exact .told h0 k.sits h2 h3 h4 h5 h6 (k.asks.trans h7) (k.says.trans h8) h9

theorem Stage.sits {v i : Nat} {x : Scene} {m : Nat} {p : List (FwdReq × List UInt8)} (h : Stage v i x m p) : ∃ s, Sits x.net.modbus v i s := by
  cases h <;> exact ⟨_, by assumption⟩

/-- What the others do. -/
theorem others_step {rnd : Nat → UInt8} {v i : Nat} {x y : Scene} {m : Nat} {p : List (FwdReq × List UInt8)} {e : Ev} (h : Stays rnd v i x m p)
    (hm : Meanwhile v i x.net e) (hp : ¬ Passes v i x.net e) (hs : x.step rnd v i (.net e) = .ok y) :
    Stays rnd v i y m p ∧ Moves rnd v i x y m p m p := by
  simp only [Scene.step] at hs
  rw [Exec.bind_eq_ok] at hs
  obtain ⟨⟨n, o⟩, h1, h2⟩ := hs
  cases h2
  obtain ⟨s, hsit⟩ := h.stage.sits
  have k := net_foreign hsit h.kept hm hp h1
  rw [foreign_frames k.foreign, hear_nil]
  exact ⟨⟨k.kept, h.plan, h.stage.keep (rnd := rnd) fun s hs => ⟨o, net_foreign hs h.kept hm hp h1⟩⟩, .on (.inl rfl) rfl rfl k.told⟩

/-- The whole request has been read. -/
theorem final_ok {s : Session} (h : s.Fresh) {j : Job} (hj : j.Ok) :
    ∃ f, s.finalOut j.bytes = [.fwd f] ∧ f.view = j.req.view j.tid j.unit ∧ Standard.Heard (s.final j.bytes) j.tid j.unit j.req := by
  have hlt := hj.lt.1
  obtain ⟨hF, hne⟩ := hj.framed
  obtain ⟨a1, a2⟩ := Request.acceptable hj.valid.near (tid := j.tid) (by omega) hj.unit
  obtain ⟨os, g1, g2, _⟩ := Standard.session_hears h hF [j.bytes] (by simp) (by simpa using hne)
  obtain ⟨g3, f, g4, g5⟩ := g2 a1
  have g0 := Session.seg_last (w := j.bytes) (p := []) (c := j.bytes) h (by simp) hF
  rw [Session.at_nil h] at g0
  simp only [Session.pieces, List.map_cons, List.map_nil, Session.run, g0, Exec.ok_bind, Exec.pure_eq, Exec.ok.injEq, Prod.mk.injEq,
    true_and] at g1
  subst g1
  simp only [Session.outs, List.flatMap_cons, List.flatMap_nil, List.append_nil] at g4
  exact ⟨f, g4, g5.trans a2, Standard.heard_final h (g3.trans a2)⟩

/-- The master sends. -/
theorem talk_step {rnd : Nat → UInt8} {v i : Nat} {x : Scene} {m : Nat} {p : List (FwdReq × List UInt8)} (h : Stays rnd v i x m p) :
    ∃ y m' p', x.step rnd v i .talk = .ok y ∧ Stays rnd v i y m' p' ∧ Moves rnd v i x y m p m' p' := by
  have same : x.sent = true → ∃ y m' p', x.step rnd v i .talk = .ok y ∧ Stays rnd v i y m' p' ∧ Moves rnd v i x y m p m' p' := by
    intro hs
    refine ⟨x, m, p, ?_, h, .on (.inl rfl) rfl rfl rfl⟩
    simp only [Scene.step, hs]
  obtain ⟨hk, hp, hst⟩ := h
  cases hst with
  | idle h1 h2 h3 h4 h5 h6 =>
    cases hpl : x.plan with
    | nil =>
      refine ⟨x, 0, [], ?_, ⟨hk, hp, .idle h1 h2 h3 h4 h5 h6⟩, .on (.inl rfl) rfl rfl rfl⟩
      simp only [Scene.step, h6, hpl]
    | cons j js =>
      refine ⟨{ x with sent := true, wire := x.wire ++ j.bytes }, 1, [], ?_, ⟨hk, hp, .reading hpl (q := []) ?_ h2 ?_ ?_ h3 h4 rfl⟩, .on (.inr rfl) rfl rfl rfl⟩
      · simp only [Scene.step, h6, hpl]
      · rw [Session.at_nil h2]
        exact h1
      · simp [h5]
      · simp [h5, (hp j (by rw [hpl]; simp)).framed.2]
  | reading _ _ _ _ _ _ _ h7 => exact same h7
  | asked _ _ _ _ _ _ _ h7 => exact same h7
  | told _ _ _ _ _ _ _ _ _ h9 => exact same h9

/-- The session reads. -/
theorem read_step {rnd : Nat → UInt8} {v i : Nat} {x : Scene} {m : Nat} {p : List (FwdReq × List UInt8)} (h : Stays rnd v i x m p) (n : Nat) :
    ∃ y m' p', x.step rnd v i (.read n) = .ok y ∧ Stays rnd v i y m' p' ∧ Moves rnd v i x y m p m' p' := by
  have same : x.wire = [] → ∃ y m' p', x.step rnd v i (.read n) = .ok y ∧ Stays rnd v i y m' p' ∧ Moves rnd v i x y m p m' p' := by
    intro hs
    refine ⟨x, m, p, ?_, h, .on (.inl rfl) rfl rfl rfl⟩
    simp only [Scene.step, hs, if_true]
  obtain ⟨hk, hp, hst⟩ := h
  cases hst with
  | idle _ _ _ _ h5 _ => exact same h5
  | asked _ _ _ _ h4 _ _ _ => exact same h4
  | told _ _ _ _ _ _ h6 _ _ _ => exact same h6
  | @reading s j js q h0 h1 h2 h3 h4 h5 h6 h7 =>
    have hj := hp j (by rw [h0]; simp)
    obtain ⟨hF, _⟩ := hj.framed
    have hcut : x.wire.take (n + 1) ++ x.wire.drop (n + 1) = x.wire := List.take_append_drop _ _
    by_cases hr : x.wire.drop (n + 1) = []
    · rw [hr, List.append_nil] at hcut
      obtain ⟨f, g1, g2, g3⟩ := final_ok h2 hj
      have hs := Session.seg_last (w := j.bytes) (p := q) (c := x.wire.take (n + 1)) h2 (by rw [hcut]; exact h3) hF
      rw [g1] at hs
      obtain ⟨d', hd, hd'⟩ := dispatcher_own h1 (by simp) hs (by simp) (by simp)
      refine ⟨{ x with wire := x.wire.drop (n + 1), net := { x.net with modbus := d', asks := x.net.asks ++ [(v, i, f)] } }, 2, [], ?_, ⟨?_, ?_, .asked (q := f) (js := js) ?_ ?_ g3 g2 ?_ ?_ ?_ ?_⟩, .on (.inr rfl) ?_ ?_ ?_⟩
      · simp only [Scene.step, if_neg h4, Net.step, hd, Exec.ok_bind, Exec.pure_eq, framesTo, List.map_cons, List.map_nil, List.filterMap_cons, List.filterMap_nil]
        rw [hear_nil]
        rfl
      · exact hk
      · exact hp
      · exact h0
      · exact hd'
      · exact hr
      · show own v i (x.net.asks ++ [(v, i, f)]) = [f]
        rw [own_append, h5, own_cons_self]
        rfl
      · exact h6
      · exact h7
      · rfl
      · rfl
      · rfl
    · have hs := Session.seg_step (w := j.bytes) (p := q) (c := x.wire.take (n + 1)) (rest := x.wire.drop (n + 1)) h2 (by rw [List.append_assoc, hcut]; exact h3) hr hF
      obtain ⟨d', hd, hd'⟩ := dispatcher_own h1 (by simp) hs (by simp) (by simp)
      refine ⟨{ x with wire := x.wire.drop (n + 1), net := { x.net with modbus := d' } }, 1, [], ?_, ⟨?_, ?_, .reading (j := j) (js := js) (q := q ++ x.wire.take (n + 1)) ?_ ?_ h2 ?_ ?_ ?_ ?_ ?_⟩, .on (.inl rfl) ?_ ?_ ?_⟩
      · simp only [Scene.step, if_neg h4, Net.step, hd, Exec.ok_bind, Exec.pure_eq, framesTo, asksOf, List.map_nil, List.filterMap_nil, ite_self, List.append_nil]
        rw [hear_nil]
      · exact hk
      · exact hp
      · exact h0
      · exact hd'
      · rw [List.append_assoc, hcut]
        exact h3
      · exact hr
      · exact h5
      · exact h6
      · exact h7
      · rfl
      · rfl
      · rfl

/-- Nothing new on the link. -/
theorem na_step {rnd : Nat → UInt8} {v i : Nat} {x : Scene} {m : Nat} {p : List (FwdReq × List UInt8)} (h : Stays rnd v i x m p) (room : Bool) :
    ∃ y, x.step rnd v i (.net (.modbus (.server v (.sess i (.data .na))) room)) = .ok y ∧ Stays rnd v i y m p ∧ Moves rnd v i x y m p m p := by
  obtain ⟨s, h1, h2⟩ := stage_na h.plan h.stage
  obtain ⟨d', hd, hd'⟩ := dispatcher_own h1 (by simp) h2 (by simp) (by simp)
  refine ⟨{ x with net := { x.net with modbus := d' } }, ?_, ⟨h.kept, h.plan, ?_⟩, .on (.inl rfl) rfl rfl rfl⟩
  · simp only [Scene.step, Net.step, hd, Exec.ok_bind, Exec.pure_eq, framesTo, List.map_nil, List.filterMap_nil, asksOf, ite_self, List.append_nil]
    rw [hear_nil]
  · refine h.stage.keep (rnd := rnd) fun s' hs' => ⟨[], ?_, foreign_nil _ _, rfl, rfl, rfl, h.kept⟩
    obtain ⟨S, a1, _, a2⟩ := h1.here
    obtain ⟨S', b1, _, b2⟩ := hs'.here
    rw [a1] at b1
    cases b1
    rw [← b2, a2]
    exact hd'

/-- The controller takes the request. -/
theorem serve_step {rnd : Nat → UInt8} {v i : Nat} {x : Scene} {m : Nat} {p : List (FwdReq × List UInt8)} (h : Stays rnd v i x m p) {q : FwdReq}
    {as : List (Nat × Nat × FwdReq)} (hq : x.net.asks = (v, i, q) :: as) (hr : Running x.net.log) (ht : Testing x.net.log) :
    ∃ y m' p', x.step rnd v i (.net (.serve true)) = .ok y ∧ Stays rnd v i y m' p' ∧ Moves rnd v i x y m p m' p' := by
  obtain ⟨hk, hp, hst⟩ := h
  have hown : own v i x.net.asks = q :: own v i as := by rw [hq, own_cons_self]
  cases hst with
  | idle _ _ h3 _ _ _ => rw [h3] at hown; cases hown
  | reading _ _ _ _ _ h5 _ _ => rw [h5] at hown; cases hown
  | told _ _ _ _ _ _ _ h7 _ _ => rw [h7] at hown; cases hown
  | @asked s j js q' h0 h1 h2 h3 h4 h5 h6 h7 =>
    rw [h5] at hown
    injection hown with e1 e2
    subst e1
    have hj := hp j (by rw [h0]; simp)
    obtain ⟨b1, b2, b3, b4⟩ := hj.served h3 (replay rnd x.net.log)
    obtain ⟨es, hes⟩ := hk
    obtain ⟨c', hc⟩ := (C61_served_partial rnd es _ _ hes v i q' b1).1 ⟨hr, ht⟩
    have hl := hj.lt
    rw [b2, if_neg hl.2.2, decide_eq_true hl.2.1] at hc
    refine ⟨{ x with net := { x.net with
        ctl := c'
        log := x.net.log ++ .rcv (.modbusAduReq v i q') :: [Controller.Out.modbusAduRsp v i ⟨j.tid, 0, true, reply (replay rnd x.net.log) q'⟩].map .snd
        asks := as
        says := x.net.says ++ saysOf [.modbusAduRsp v i ⟨j.tid, 0, true, reply (replay rnd x.net.log) q'⟩] } },
      3, [(q', reply (replay rnd x.net.log) q')], ?_, ⟨⟨_, run_snoc es hes hc⟩, ?_, .told (js := js) ?_ h1 h2 h3 b3 b4 ?_ ?_ ?_ ?_⟩, .served ?_ ?_ ?_⟩
    · simp only [Scene.step, Net.step, hq, hc, Exec.ok_bind, Exec.pure_eq, framesTo, List.filterMap_nil, if_true]
      rw [hear_nil]
    · exact hp
    · exact h0
    · exact h4
    · exact e2.symm
    · show own v i (x.net.says ++ saysOf [.modbusAduRsp v i ⟨j.tid, 0, true, _⟩]) = _
      rw [own_append, h6]
      exact own_cons_self
    · exact h7
    · rfl
    · rfl
    · show told rnd v i (x.net.log ++ .rcv (.modbusAduReq v i q') :: [Controller.Out.modbusAduRsp v i _].map .snd) = _
      rw [told_served, if_pos ⟨rfl, rfl⟩]

/-- The session takes the answer. -/
theorem answer_step {rnd : Nat → UInt8} {v i : Nat} {x : Scene} {m : Nat} {p : List (FwdReq × List UInt8)} (h : Stays rnd v i x m p) {r : AppRsp}
    {ss : List (Nat × Nat × AppRsp)} (hq : x.net.says = (v, i, r) :: ss) :
    ∃ y m' p', x.step rnd v i (.net (.answer true)) = .ok y ∧ Stays rnd v i y m' p' ∧ Moves rnd v i x y m p m' p' := by
  obtain ⟨hk, hp, hst⟩ := h
  have hown : own v i x.net.says = r :: own v i ss := by rw [hq, own_cons_self]
  cases hst with
  | idle _ _ _ h4 _ _ => rw [h4] at hown; cases hown
  | reading _ _ _ _ _ _ h6 _ => rw [h6] at hown; cases hown
  | asked _ _ _ _ _ _ h6 _ => rw [h6] at hown; cases hown
  | @told s j js q d h0 h1 h2 h3 h4 h5 h6 h7 h8 h9 =>
    rw [h8] at hown
    injection hown with e1 e2
    subst e1
    have hj := hp j (by rw [h0]; simp)
    have hs := Standard.answers h2 hj.valid.near h5 hj.plain.1 hj.plain.2
    rw [← h4] at hs
    obtain ⟨d', hd, hd'⟩ := dispatcher_answer h1 hs (by simp)
    have hf : framesTo v i ([SOut.frame (onLink j.tid j.unit (j.req.answer (regsOf d)))].map (.session v i)) = [j.answer d] := by
      simp [framesTo, Job.answer]
    refine ⟨x.hear { x.net with modbus := d', says := ss } [j.answer d], 0, [], ?_, ⟨?_, ?_, .idle ?_ h2.fresh ?_ ?_ ?_ ?_⟩, .heard h0 h3 ?_ ?_ ?_⟩
    · simp only [Scene.step, Net.step, hq, hd, Exec.ok_bind, Exec.pure_eq, hf]
    · exact hk
    · intro j' hj'
      exact hp j' (List.mem_of_mem_drop hj')
    · exact hd'
    · exact h7
    · exact e2.symm
    · exact h6
    · simp [Scene.hear]
    · show x.plan.drop 1 = js
      rw [h0]
      rfl
    · rfl
    · rfl

/-- The steps that are the master's. -/
theorem mine_step {rnd : Nat → UInt8} {v i : Nat} {x : Scene} {m : Nat} {p : List (FwdReq × List UInt8)} {a : Deed} (h : Stays rnd v i x m p) (ha : Mine v i x a)
    (hm : ∀ e, a = .net e → Meanwhile v i x.net e) : ∃ y m' p', x.step rnd v i a = .ok y ∧ Stays rnd v i y m' p' ∧ Moves rnd v i x y m p m' p' := by
  cases a with
  | talk => exact talk_step h
  | read n => exact read_step h n
  | net e =>
    have hm := hm e rfl
    cases e with
    | modbus e room =>
      cases e with
      | server v' e =>
        cases e with
        | sess i' e =>
          obtain ⟨rfl, rfl⟩ := ha
          have := hm rfl rfl
          subst this
          obtain ⟨y, g1, g2, g3⟩ := na_step h room
          exact ⟨y, m, p, g1, g2, g3⟩
        | accept ok => exact absurd ha (fun h => h)
      | _ => exact absurd ha (fun h => h)
    | ctl e => exact absurd ha (fun h => h)
    | serve room =>
      obtain ⟨q, as, hq⟩ := ha
      obtain ⟨rfl, h1, h2⟩ := hm q as hq
      exact serve_step h hq h1 h2
    | answer ok =>
      obtain ⟨r, ss, hq⟩ := ha
      have := hm r ss hq
      subst this
      exact answer_step h hq

theorem scene_step {rnd : Nat → UInt8} {v i : Nat} {x y : Scene} {m : Nat} {p : List (FwdReq × List UInt8)} {a : Deed} (h : Stays rnd v i x m p)
    (hm : ∀ e, a = .net e → Meanwhile v i x.net e) (hs : x.step rnd v i a = .ok y) : ∃ m' p', Stays rnd v i y m' p' ∧ Moves rnd v i x y m p m' p' := by
  by_cases ha : Mine v i x a
  · obtain ⟨y', m', p', g1, g2, g3⟩ := mine_step h ha hm
    rw [g1] at hs
    cases hs
    exact ⟨m', p', g2, g3⟩
  · cases a with
    | talk => exact absurd trivial ha
    | read n => exact absurd trivial ha
    | net e => exact ⟨m, p, others_step h (hm e rfl) ha hs⟩

/-! ## Reachable states -/

/-- The buffers of the stored request. -/
def Sized (s : Session) : Prop := s.adu.dataCap = 260 ∧ s.adu.numBytes ≤ 255

theorem sized_adu {s t : Session} (h : Sized s) (e : t.adu = s.adu) : Sized t := by
  unfold Sized
  rw [e]
  exact h

theorem setTimer_adu {s t : Session} {b : Bool} (h : s.setTimer b = .ok t) : t.adu = s.adu := by
  unfold Session.setTimer at h
  split at h
  · cases h; rfl
  · cases h

theorem transit_adu {s t : Session} {k : SSt} {o : List SOut} (h : s.transit k = .ok (t, o)) : t.adu = s.adu := by
  unfold Session.transit at h
  split at h
  · cases h; rfl
  rw [Exec.bind_eq_ok] at h
  obtain ⟨s1, h1, h2⟩ := h
  have e1 : s1.adu = s.adu := by
    unfold Session.exit at h1
    split at h1
    · cases h1; rfl
    · exact setTimer_adu h1
    · exact setTimer_adu h1
  rw [← e1]
  unfold Session.enter at h2
  split at h2
  · cases h2; rfl
  all_goals
    rw [Exec.bind_eq_ok] at h2
    obtain ⟨s2, h3, h4⟩ := h2
    cases h4
    exact (setTimer_adu h3 :)

theorem read_lt {b b' : PduBuf} {n : Nat} (h : b.read = .ok (n, b')) : n ≤ 255 := by
  unfold PduBuf.read at h
  split at h
  · have := (b.buf b.pos).toNat_lt
    cases h
    omega
  · cases h

theorem decodeReq_sized {b b' : PduBuf} {a a' : AduReq} {k : Bool} (h1 : a.dataCap = 260) (h2 : a.numBytes ≤ 255) (h : decodeReq b a = .ok (b', a', k)) :
    a'.dataCap = 260 ∧ a'.numBytes ≤ 255 := by
  unfold decodeReq at h
  rw [Exec.bind_eq_ok] at h
  obtain ⟨⟨t, b1⟩, _, h⟩ := h
  rw [Exec.bind_eq_ok] at h
  obtain ⟨⟨pr, b2⟩, _, h⟩ := h
  dsimp only at h
  split at h
  · cases h; exact ⟨h1, h2⟩
  rw [Exec.bind_eq_ok] at h
  obtain ⟨⟨l, b3⟩, _, h⟩ := h
  rw [Exec.bind_eq_ok] at h
  obtain ⟨⟨ad, b4⟩, _, h⟩ := h
  dsimp only at h
  split at h
  · cases h; exact ⟨h1, h2⟩
  rw [Exec.bind_eq_ok] at h
  obtain ⟨⟨f, b5⟩, _, h⟩ := h
  dsimp only at h
  split at h
  · split at h
    · cases h; exact ⟨h1, h2⟩
    rw [Exec.bind_eq_ok] at h
    obtain ⟨⟨s, b6⟩, _, h⟩ := h
    rw [Exec.bind_eq_ok] at h
    obtain ⟨⟨n, b7⟩, _, h⟩ := h
    dsimp only at h
    split at h <;> (cases h; exact ⟨h1, h2⟩)
  split at h
  · split at h
    · cases h; exact ⟨h1, h2⟩
    rw [Exec.bind_eq_ok] at h
    obtain ⟨⟨s, b6⟩, _, h⟩ := h
    rw [Exec.bind_eq_ok] at h
    obtain ⟨⟨b7, d⟩, _, h⟩ := h
    cases h
    exact ⟨h1, by simp⟩
  split at h
  · rw [Exec.bind_eq_ok] at h
    obtain ⟨⟨s, b6⟩, _, h⟩ := h
    rw [Exec.bind_eq_ok] at h
    obtain ⟨⟨n, b7⟩, _, h⟩ := h
    rw [Exec.bind_eq_ok] at h
    obtain ⟨⟨nb, b8⟩, hn, h⟩ := h
    have := read_lt hn
    dsimp only at h
    split at h
    · cases h; exact ⟨h1, this⟩
    split at h
    · cases h; exact ⟨h1, this⟩
    rw [Exec.bind_eq_ok] at h
    obtain ⟨⟨b9, d⟩, _, h⟩ := h
    cases h
    exact ⟨h1, this⟩
  · cases h; exact ⟨h1, h2⟩

theorem receive_sized {s t : Session} {rx : Rx} {o : List SOut} {r : Status} (hs : Sized s) (h : s.receive rx = .ok (t, o, r)) : Sized t := by
  unfold Session.receive at h
  split at h
  · cases h; exact hs
  split at h
  · cases h
  split at h
  · cases h; exact hs
  cases rx with
  | na => cases h; exact hs
  | error => cases h; exact hs
  | ok bs =>
    dsimp only at h
    unfold Session.evaluate at h
    split at h
    · cases h; exact hs
    split at h
    · cases h; exact hs
    split at h
    · cases h; exact hs
    split at h
    · cases h; exact hs
    rw [Exec.bind_eq_ok] at h
    obtain ⟨⟨b, a, k⟩, h1, h2⟩ := h
    have := decodeReq_sized hs.1 hs.2 h1
    dsimp only at h2
    split at h2
    · cases h2; exact this
    split at h2
    · cases h2
    · cases h2; exact this

theorem session_sized {s t : Session} {e : Session.Ev} {o : List SOut} (hs : Sized s) (h : s.step e = .ok (t, o)) : Sized t := by
  cases e with
  | start =>
    simp only [Session.step, Session.onStart] at h
    split at h
    · exact sized_adu hs ((transit_adu h).trans rfl)
    · cases h; exact hs
  | linkError => cases h; exact hs
  | timer =>
    simp only [Session.step] at h
    split at h
    · unfold Session.onTimer at h
      split at h
      · cases h; exact hs
      · exact sized_adu hs ((transit_adu h).trans rfl)
      · exact sized_adu hs ((transit_adu h).trans rfl)
    · cases h; exact hs
  | rsp r k =>
    simp only [Session.step, Session.onRsp] at h
    split at h
    · cases h; exact hs
    · cases h; exact hs
    · rw [Exec.bind_eq_ok] at h
      obtain ⟨⟨o1, res⟩, _, h⟩ := h
      dsimp only at h
      split at h
      · rw [Exec.bind_eq_ok] at h
        obtain ⟨⟨s2, o2⟩, h1, h2⟩ := h
        cases h2
        exact sized_adu hs (transit_adu h1)
      · rw [Exec.bind_eq_ok] at h
        obtain ⟨⟨s2, o2⟩, h1, h2⟩ := h
        cases h2
        exact sized_adu hs (transit_adu h1)
      · cases h; exact hs
  | data rx =>
    simp only [Session.step] at h
    split at h
    · unfold Session.onData at h
      split at h
      · cases h; exact hs
      all_goals
        rw [Exec.bind_eq_ok] at h
        obtain ⟨⟨s1, o1, res⟩, h0, h⟩ := h
        have k := receive_sized hs h0
        dsimp only at h
        split at h
        all_goals first
          | (cases h; exact k)
          | (rw [Exec.bind_eq_ok] at h
             obtain ⟨⟨s2, o2⟩, h1, h2⟩ := h
             cases h2
             exact sized_adu k (transit_adu h1))
    · cases h; exact hs

theorem server_sized {S S' : Server} {e : Server.Ev} {o : List (Nat × SOut)} (hs : ∀ i, Sized (S.sess i)) (h : S.step e = .ok (S', o)) : ∀ i, Sized (S'.sess i) := by
  have set_sized : ∀ {f : Nat → Session} {j : Nat} {s : Session}, (∀ i, Sized (f i)) → Sized s → ∀ i, Sized (Server.set f j s i) := by
    intro f j s hf hs i
    unfold Server.set
    split
    · exact hs
    · exact hf i
  have absorbed : ∀ (T : Server) (j : Nat) (s : Session) (o : List SOut), (∀ i, Sized (T.sess i)) → Sized s → ∀ i, Sized ((Server.absorb T j s o).sess i) := by
    intro T j s o h1 h2
    unfold Server.absorb
    split
    · exact set_sized h1 h2
    · exact set_sized h1 h2
  cases e with
  | accept ok =>
    cases hf : S.free with
    | nil =>
      simp only [Server.step, hf] at h
      cases h
      exact hs
    | cons j fr =>
      simp only [Server.step, hf] at h
      generalize hp : Server.prepare { S with free := fr } j ok = p at h
      obtain ⟨T, good⟩ := p
      have hT : ∀ i, Sized (T.sess i) := by
        unfold Server.prepare at hp
        split at hp
        · injection hp with hp _
          rw [← hp]
          exact hs
        dsimp only at hp
        split at hp
        · injection hp with hp _
          rw [← hp]
          exact set_sized hs (sized_adu (hs j) rfl)
        · injection hp with hp _
          rw [← hp]
          refine set_sized (set_sized hs (sized_adu (hs j) rfl)) ?_
          rw [set_same]
          exact sized_adu (hs j) rfl
      dsimp only at h
      split at h
      · cases h
        exact hT
      · rw [Exec.bind_eq_ok] at h
        obtain ⟨⟨s, o'⟩, h1, h2⟩ := h
        cases h2
        exact absorbed T j s o' hT (session_sized (hT j) h1)
  | sess j e =>
    by_cases he : e = .start
    · subst he
      simp only [Server.step] at h
      cases h
      exact hs
    have hstep : S.step (.sess j e) = (if j ≥ Server.maxNumSession then .ub else do
        let (s, o) ← (S.sess j).step e
        pure (Server.absorb S j s o, o.map fun x => (j, x))) := by
      cases e <;> first | exact absurd rfl he | rfl
    rw [hstep] at h
    split at h
    · cases h
    rw [Exec.bind_eq_ok] at h
    obtain ⟨⟨s, o'⟩, h1, h2⟩ := h
    cases h2
    exact absorbed S j s o' hs (session_sized (hs j) h1)

/-- What holds of a server. -/
def Good (S : Server) : Prop := S.Safe ∧ ∀ i, Sized (S.sess i)

theorem good_step {S S' : Server} {e : Server.Ev} {o : List (Nat × SOut)} (h : Good S) (hs : S.step e = .ok (S', o)) : Good S' :=
  ⟨Server.safe_step h.1 hs, server_sized h.2 hs⟩

theorem good_create {f : Nat → Session} (h : Server.NewSessions f) (t l : Nat) : Good (Server.create f t l) := by
  refine ⟨Server.safe_create h t l, ?_⟩
  intro i
  obtain ⟨m, a, e⟩ := h i
  show Sized (f i)
  rw [e]
  exact ⟨rfl, by simp [Session.create]⟩

/-- What holds of the component. -/
def Fine (d : Dispatcher) : Prop := ∀ v S, d.servers v = some S → v < d.numServers ∧ Good S

theorem fine_upd {d : Dispatcher} {v : Nat} {S : Server} (h : Fine d) (hv : v < d.numServers) (hS : Good S) (f : Nat → Bool) :
    Fine { d with servers := Dispatcher.upd d.servers v S, deaf := f } := by
  intro w T hT
  by_cases hw : w = v
  · subst hw
    have e := (upd_same d.servers w S).symm.trans hT
    cases e
    exact ⟨hv, hS⟩
  · exact h w T ((upd_other _ _ hw).symm.trans hT)

theorem fine_same {d d' : Dispatcher} (h : Fine d) (h1 : d'.numServers = d.numServers) (h2 : d'.servers = d.servers) : Fine d' := by
  intro v S hS
  rw [h1]
  rw [h2] at hS
  exact h v S hS

theorem fine_configLoop (its : List Dispatcher.CfgItem) : (∀ it ∈ its, ∀ S, it.entity = .inr S → Good S) →
    ∀ {d d' : Dispatcher} {o : List Dispatcher.Out} {t : Bool}, Fine d → d.configLoop its = .ok (d', o, t) → Fine d' := by
  induction its with
  | nil =>
    intro _ d d' o t hd h
    cases h
    exact hd
  | cons it its ih =>
    intro hg d d' o t hd h
    simp only [Dispatcher.configLoop] at h
    rw [Exec.bind_eq_ok] at h
    obtain ⟨⟨d1, o1, t1⟩, h1, h⟩ := h
    have hd1 : Fine d1 := by
      unfold Dispatcher.configItem at h1
      split at h1
      · rename_i S hS
        split at h1
        · cases h1; exact hd
        split at h1
        · cases h1; exact hd
        split at h1
        · cases h1
        · rename_i hlt _ _
          cases h1
          exact fine_upd hd (by omega) (hg it (by simp) S hS) _
      · split at h1
        · cases h1; exact hd
        split at h1
        · cases h1; exact hd
        all_goals
          rw [Exec.bind_eq_ok] at h1
          obtain ⟨⟨c, o'⟩, _, h2⟩ := h1
          cases h2
          exact fine_same hd rfl rfl
    dsimp only at h
    split at h
    · cases h
      exact hd1
    · rw [Exec.bind_eq_ok] at h
      obtain ⟨⟨d2, o2, t2⟩, h2, h⟩ := h
      cases h
      exact ih (fun x hx => hg x (by simp [hx])) hd1 h2

theorem fine_step {d d' : Dispatcher} {e : Dispatcher.Ev} {o : List Dispatcher.Out} (hd : Fine d)
    (he : ∀ its, e = .config its → ∀ it ∈ its, ∀ S, it.entity = .inr S → Good S) (h : d.step e = .ok (d', o)) : Fine d' := by
  have upd : ∀ {v : Nat} {S S' : Server} {e : Server.Ev} {o : List (Nat × SOut)}, d.servers v = some S → S.step e = .ok (S', o) →
      Fine { d with servers := Dispatcher.upd d.servers v S' } := by
    intro v S S' e o h1 h2
    exact fine_upd hd (hd v S h1).1 (good_step (hd v S h1).2 h2) d.deaf
  cases e with
  | config its =>
    simp only [Dispatcher.step, Dispatcher.config] at h
    rw [Exec.bind_eq_ok] at h
    obtain ⟨⟨d1, o1, t1⟩, h1, h⟩ := h
    have a := fine_configLoop its (he its rfl) hd h1
    dsimp only at h
    split at h <;> (cases h; exact a)
  | batch rs =>
    have a := batch_foreign 0 0 rs h
    exact fine_same hd a.1 a.2.1
  | aduRsp v' i' r ok =>
    simp only [Dispatcher.step, Dispatcher.aduRsp] at h
    split at h
    · cases h; exact hd
    split at h
    · cases h; exact hd
    · rename_i S hS
      rw [Exec.bind_eq_ok] at h
      obtain ⟨⟨S', o'⟩, h1, h2⟩ := h
      cases h2
      exact upd hS h1
  | client k e =>
    simp only [Dispatcher.step] at h
    split at h
    · cases h; exact hd
    · split at h
      · rw [Exec.bind_eq_ok] at h
        obtain ⟨⟨c, o'⟩, _, h2⟩ := h
        cases h2
        exact fine_same hd rfl rfl
      · cases h; exact hd
  | server v' e =>
    simp only [Dispatcher.step] at h
    split at h
    · cases h; exact hd
    · rename_i S hS
      split at h
      · rw [Exec.bind_eq_ok] at h
        obtain ⟨⟨S', o'⟩, h1, h2⟩ := h
        cases h2
        exact upd hS h1
      · cases h; exact hd

theorem net_inv {rnd : Nat → UInt8} {n n' : Net} {e : Ev} {o : List Dispatcher.Out} (h1 : Fine n.modbus) (h2 : Kept rnd n) (he : NewServers e)
    (h : n.step rnd e = .ok (n', o)) : Fine n'.modbus ∧ Kept rnd n' := by
  have nothing : ∀ {n' : Net} {o : List Dispatcher.Out}, (Exec.ok (n, []) : Exec (Net × List Dispatcher.Out)) = .ok (n', o) → Fine n'.modbus ∧ Kept rnd n' := by
    intro n' o h
    cases h
    exact ⟨h1, h2⟩
  cases e with
  | modbus e room =>
    by_cases ha : ∃ a b r k, e = .aduRsp a b r k
    · obtain ⟨a, b, r, k, rfl⟩ := ha
      exact nothing h
    have h' : (do
        let (d, o) ← n.modbus.step e
        pure ({ n with modbus := d, asks := n.asks ++ if room then asksOf o else [] }, o)) = Exec.ok (n', o) := by
      cases e <;> first | exact h | exact absurd ⟨_, _, _, _, rfl⟩ ha
    rw [Exec.bind_eq_ok] at h'
    obtain ⟨⟨d, o'⟩, g1, g2⟩ := h'
    cases g2
    refine ⟨fine_step h1 ?_ g1, h2⟩
    rintro its rfl it hit S hS
    obtain ⟨f, t, l, g, rfl⟩ := he it hit S hS
    exact good_create g t l
  | ctl e =>
    by_cases ha : ∃ a b q, e = .modbusAduReq a b q
    · obtain ⟨a, b, q, rfl⟩ := ha
      exact nothing h
    have h' : (do
        let (c, o) ← n.ctl.step rnd e
        pure ({ n with ctl := c, log := n.log ++ .rcv e :: o.map .snd }, [])) = Exec.ok (n', o) := by
      cases e <;> first | exact h | exact absurd ⟨_, _, _, rfl⟩ ha
    rw [Exec.bind_eq_ok] at h'
    obtain ⟨⟨c, o'⟩, g1, g2⟩ := h'
    cases g2
    obtain ⟨es, hes⟩ := h2
    exact ⟨h1, _, run_snoc es hes g1⟩
  | serve room =>
    simp only [Net.step] at h
    cases hq : n.asks with
    | nil =>
      rw [hq] at h
      exact nothing h
    | cons m as =>
      obtain ⟨v', i', q⟩ := m
      rw [hq] at h
      dsimp only at h
      rw [Exec.bind_eq_ok] at h
      obtain ⟨⟨c, o'⟩, g1, g2⟩ := h
      cases g2
      obtain ⟨es, hes⟩ := h2
      exact ⟨h1, _, run_snoc es hes g1⟩
  | answer ok =>
    simp only [Net.step] at h
    cases hq : n.says with
    | nil =>
      rw [hq] at h
      exact nothing h
    | cons m ss =>
      obtain ⟨v', i', r⟩ := m
      rw [hq] at h
      dsimp only at h
      rw [Exec.bind_eq_ok] at h
      obtain ⟨⟨d, o'⟩, g1, g2⟩ := h
      cases g2
      exact ⟨fine_step h1 (by intro its e; cases e) g1, h2⟩

theorem run_inv {rnd : Nat → UInt8} (es : List Ev) : (∀ e ∈ es, NewServers e) → ∀ {n n' : Net}, Fine n.modbus → Kept rnd n → n.run rnd es = .ok n' →
    Fine n'.modbus ∧ Kept rnd n' := by
  induction es with
  | nil =>
    intro _ n n' h1 h2 h
    cases h
    exact ⟨h1, h2⟩
  | cons e es ih =>
    intro he n n' h1 h2 h
    simp only [Net.run] at h
    rw [Exec.bind_eq_ok] at h
    obtain ⟨⟨n1, o⟩, g1, g2⟩ := h
    obtain ⟨a, b⟩ := net_inv h1 h2 (he e (by simp)) g1
    exact ih (fun x hx => he x (by simp [hx])) a b g2

theorem reach_inv {rnd : Nat → UInt8} {n : Net} (h : Reach rnd n) : Fine n.modbus ∧ Kept rnd n := by
  obtain ⟨a, b, es, h1, h2⟩ := h
  refine run_inv es h1 ?_ ⟨[], rfl⟩ h2
  intro v S hS
  cases hS

theorem Apart.stays {rnd : Nat → UInt8} {v i : Nat} {x : Scene} (h : Apart rnd v i x) : Stays rnd v i x 0 [] := by
  obtain ⟨h1, h2⟩ := reach_inv h.reach
  obtain ⟨S, g1, g2, g3, g4⟩ := h.server
  exact ⟨h2, h.plan, .idle ⟨(h1 v S g1).1, g3, S, g1, g2, rfl⟩ g4 h.asks h.says h.wire h.sent⟩

end Uscada.Masters
