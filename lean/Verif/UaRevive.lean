import Verif.UaSurviveProps
import Verif.UaHeld
import Verif.UaVisits
import Verif.UaAdmission
/-!
# Property C114: the OPC UA server comes back

Specification: whatever clients have done, when nothing arrives any more the timers of the connections end all that is left.  Every silence
is over after at most 64 steps, in whatever order timers expire and messages are delivered; then every connection is released with link and
timer, all 32 identifiers are free, and every channel that a connection had is closed.
-/

namespace Uscada.Ua

open SM

namespace Channel

open Ent

variable {u : Nat → UInt32 × UInt32} {evs : List (CEnv × CIn)} {s : Chans}

/-- The notice that a connection has ended, at any channel. -/
theorem notice_run (h : Reach u evs s) {ch : UInt32} (hv : Pool.valid ch.toNat) (c : UInt32) (e : CEnv) :
    ∃ s' new, next s e (.released c ch) = .ok s' ∧ Grows ch.toNat new s s' ∧ new.filterMap Stack.ofChan = [] ∧ owner (s'.objs ch.toNat).log = none ∧
      s'.ids.len = s.ids.len + (if owner (s.objs ch.toNat).log = none then 0 else 1) := by
  cases ho : owner (s.objs ch.toNat).log with
  | some x =>
    obtain ⟨s', h1, h2, h3⟩ := release_run h hv (c' := c) ho e
    refine ⟨s', _, h1, h2, rfl, ?_, by rw [h3]; simp⟩
    rw [h2.1, show ∀ (l : List CAct) (a b : CAct), l ++ [a, b] = l ++ [a] ++ [b] by simp, owner_snoc]
  | none =>
    have hst : (s.objs ch.toNat).st = .init := by
      rcases (reach_inv (A := False) h False.elim).around hv with ha | ⟨l, h1, h2, h3⟩
      · rcases ha.at with ⟨x, hc⟩ | hc
        · rw [hc.owner] at ho; cases ho
        · exact hc.st
      · exact ((h3 _ hv).1 h2).st
    refine ⟨s.set ch.toNat { s.objs ch.toNat with log := (s.objs ch.toNat).log ++ [.got (.released c ch)] }, [.got (.released c ch)],
      next_ok rfl hv ?_, ⟨by rw [set_at], fun j hj => set_other _ _ hj⟩, rfl, ?_, by simp [Ent.set]⟩
    · unfold onReceive
      rw [note, bind_ok (obj_run _ _ _), bind_ok (self_run _ _), set_at]
      simp only [hst]
      rfl
    · rw [set_at, owner_snoc]
      exact ho

end Channel

namespace Stack

open Transport (Idle Live Busy)

variable {m : Nat → Mem} {u : Nat → UInt32 × UInt32} {evs : List (Env × Ev)} {s s' t : Stack}

/-- Specification: nothing happens but that timers expire and messages are delivered; the mailbox has room (`others`: slots of other components). -/
def Hush (e : Env) (_ : Stack) (v : Ev) : Prop := e.others ≤ 32 ∧ (v = .deliver ∨ ∃ k, v = .net (.timer k))

/-- Specification: nothing can happen any more. -/
def Still (s : Stack) : Prop := s.box = [] ∧ ∀ k, Pool.valid k → (s.srv.conns k).armed = false

/-- The number of timers that run. -/
def watched (s : Stack) : Nat := ((List.range' 1 32).map fun k => if (s.srv.conns k).armed then 1 else 0).sum

theorem watched_le (s : Stack) : watched s ≤ 32 := by
  have : ∀ l : List Nat, (l.map fun k => if (s.srv.conns k).armed then 1 else 0).sum ≤ l.length := by
    intro l
    induction l with
    | nil => simp
    | cons a l ih => simp only [List.map_cons, List.sum_cons, List.length_cons]; split <;> omega
  have h := this (List.range' 1 32)
  rw [List.length_range'] at h
  exact h

/-- What the transport component keeps, it keeps in the stack. -/
theorem stack_inv {L A : Prop} (h : Reach m u evs s) (he : ∀ x ∈ evs, Transport.EnvOk L A x.1.tcp) : s.srv.Inv L A := by
  induction h with
  | create h =>
    obtain ⟨srv, h1, h⟩ := Exec.bind_eq_ok.mp h
    obtain ⟨chans, h2, h⟩ := Exec.bind_eq_ok.mp h
    obtain ⟨sess, h3, h⟩ := Exec.bind_eq_ok.mp h
    injection h with h
    subst h
    exact Transport.create_keeps h1
  | @step evs s s' e v _ hp hn ih =>
    have hi := ih fun x hx => he x (List.mem_append_left _ hx)
    have ho : Transport.EnvOk L A e.tcp := he (e, v) (by simp)
    cases v with
    | net v => exact Transport.next_keeps ho hi hp.2 (onTcp_ok (slot := 4096) hn).1
    | deliver =>
      have hn : deliver 4096 s e = .ok s' := hn
      unfold deliver at hn
      cases hb : s.box with
      | nil => exact absurd hb hp
      | cons x box =>
        rw [hb] at hn
        cases x with
        | chan y => rw [(onChan_ok hn).2.1]; exact hi
        | tcp k y => exact Transport.next_keeps (v := .down k y) ho hi trivial (onTcp_ok hn).1
        | sess hdr d => rw [(onSess_ok hn).2.1]; exact hi

/-- What silence has left of `s`. -/
structure Fading (m : Nat → Mem) (u : Nat → UInt32 × UInt32) (s t : Stack) : Prop where
  tame : ∃ evs, Tame m u evs t
  inv : t.srv.Inv False True
  conn : ∀ k, Pool.valid k → t.srv.conns k = s.srv.conns k ∨ Idle (t.srv.conns k)
  told : ∀ k, Pool.valid k → ∀ c, (s.srv.conns k).assoc = some c → Idle (t.srv.conns k) →
    (∃ x, .chan (.released x c) ∈ t.box) ∨ Channel.owner (t.chans.objs c.toNat).log = none
  box : ∀ x ∈ t.box, ∃ y c, x = .chan (.released y c) ∧ Pool.valid c.toNat
  chans : ∀ j, t.chans.objs j = s.chans.objs j ∨ Channel.owner (t.chans.objs j).log = none
  len : s.chans.ids.len ≤ t.chans.ids.len
  gain : ∀ j, Pool.valid j → Channel.owner (s.chans.objs j).log ≠ none → Channel.owner (t.chans.objs j).log = none → s.chans.ids.len < t.chans.ids.len
  sess : t.sess = s.sess
  count : watched t + t.box.length ≤ watched s

theorem idle_of {k : Nat} (hi : s.srv.Inv False True) (hk : Pool.valid k) (h : (s.srv.conns k).st = .init) : Idle (s.srv.conns k) := by
  obtain ⟨l, h1, h2⟩ := hi
  by_cases hm : k ∈ l
  · exact (h2 k hk).1 hm
  · rcases (h2 k hk).2 hm with g | g
    · exact absurd h g.st
    · exact g.1.elim

/-- The expiration of a timer. -/
theorem fading_timer (h : Fading m u s t) {k : Nat} (hk : Pool.valid k) (ha : (t.srv.conns k).armed = true) {e : Env} (he : e.others ≤ 32) :
    ∃ t', step t e (.net (.timer k)) = .ok t' ∧ Fading m u s t' ∧ 2 * watched t' + t'.box.length + 1 ≤ 2 * watched t + t.box.length := by
  obtain ⟨evs, htame⟩ := h.tame
  obtain ⟨tevs, cevs, sevs, ht, hc, hs, -⟩ := reach_parts htame.reach
  obtain ⟨v, hn, g1, -, -, g4, g5⟩ := Transport.C36_timeout_ends m tevs t.srv ht k hk ha e.tcp
  have hsent : sentTcp t.srv v = (Transport.farewell (t.srv.conns k).assoc ++ [TAct.released]).filterMap (ofTcp k) :=
    sentTcp_eq hk (by rw [g4, List.append_assoc]) g5
  have hmail : sentTcp t.srv v = [] ∧ (t.srv.conns k).assoc = none ∨
      ∃ c, (t.srv.conns k).assoc = some c ∧ sentTcp t.srv v = [.chan (.released (UInt32.ofNat k) c)] := by
    cases hq : (t.srv.conns k).assoc with
    | none => exact .inl ⟨by rw [hsent, hq]; rfl, rfl⟩
    | some c => exact .inr ⟨c, rfl, by rw [hsent, hq]; rfl⟩
  have hlen : (sentTcp t.srv v).length ≤ 1 := by
    rcases hmail with ⟨h1, -⟩ | ⟨c, -, h1⟩ <;> rw [h1] <;> simp
  have hinv : v.Inv False True := Transport.next_keeps (e := Transport.calm) (v := .timer k) ⟨nofun, fun _ => rfl⟩ h.inv ⟨hk, ha⟩ hn
  have hidle : Idle (v.conns k) := idle_of (s := { t with srv := v }) hinv hk g1
  have hw : watched t = watched { t with srv := v } + 1 := by
    have := Transport.sum_add_one (List.range' 1 32) (fun j => if (v.conns j).armed then 1 else 0) (fun j => if (t.srv.conns j).armed then 1 else 0) k
      List.nodup_range' (by simp only [ha, hidle.armed]; rfl) (fun j hj => by rw [g5 j hj])
    rw [if_pos (List.mem_range'_1.2 ⟨hk.1, by have := hk.2; unfold poolCap at *; omega⟩)] at this
    exact this
  have hcnt := h.count
  have h32 := watched_le s
  have hst := step_net (s := t) (e := e) hn
    (by
      rcases hmail with ⟨h1, -⟩ | ⟨c, -, h1⟩
      · rw [h1]; intro x hx; cases hx
      · rw [h1]; intro x hx; rw [List.mem_singleton.mp hx]; simp only [Mail.size]; omega)
    (by omega)
  have hne : ¬ Idle (t.srv.conns k) := fun hi => by rw [hi.armed] at ha; cases ha
  have heq : t.srv.conns k = s.srv.conns k := (h.conn k hk).resolve_right hne
  refine ⟨_, hst, ⟨⟨_, htame.step (v := .net (.timer k)) ⟨rfl, hk, ha⟩ trivial hst⟩, hinv, ?_, ?_, ?_, h.chans, h.len, h.gain, h.sess, ?_⟩, ?_⟩
  · intro j hj
    by_cases hjk : j = k
    · rw [hjk]; exact .inr hidle
    · show v.conns j = _ ∨ Idle (v.conns j)
      rw [g5 j hjk]
      exact h.conn j hj
  · intro j hj c hc hi
    by_cases hjk : j = k
    · subst hjk
      rcases hmail with ⟨-, h1⟩ | ⟨c', h1, h2⟩
      · rw [heq, hc] at h1; cases h1
      · rw [heq, hc] at h1
        injection h1 with h1
        exact .inl ⟨_, List.mem_append_right _ (by rw [h2, h1]; exact List.mem_singleton_self _)⟩
    · have hi : Idle (v.conns j) := hi
      rw [g5 j hjk] at hi
      rcases h.told j hj c hc hi with ⟨x, g⟩ | g
      · exact .inl ⟨x, List.mem_append_left _ g⟩
      · exact .inr g
  · intro x hx
    rcases List.mem_append.mp hx with hx | hx
    · exact h.box x hx
    · rcases hmail with ⟨h1, -⟩ | ⟨c, h1, h2⟩
      · rw [h1] at hx; cases hx
      · rw [h2] at hx
        exact ⟨_, c, List.mem_singleton.mp hx, (htame.solid.srv k).1.assoc c h1⟩
  · show watched { t with srv := v } + (t.box ++ sentTcp t.srv v).length ≤ _
    rw [List.length_append]
    omega
  · show 2 * watched { t with srv := v } + (t.box ++ sentTcp t.srv v).length + 1 ≤ _
    rw [List.length_append]
    omega

/-- The delivery of a message. -/
theorem fading_deliver (h : Fading m u s t) (hb : t.box ≠ []) {e : Env} (he : e.others ≤ 32) :
    ∃ t', step t e .deliver = .ok t' ∧ Fading m u s t' ∧ 2 * watched t' + t'.box.length + 1 ≤ 2 * watched t + t.box.length := by
  obtain ⟨evs, htame⟩ := h.tame
  obtain ⟨tevs, cevs, sevs, ht, hc, hs, -⟩ := reach_parts htame.reach
  cases hbox : t.box with
  | nil => exact absurd hbox hb
  | cons x rest =>
    obtain ⟨y, c, hx, hv⟩ := h.box x (by simp [hbox])
    subst hx
    obtain ⟨q, new, hn, g1, g2, g3, g4⟩ := Channel.notice_run hc hv y e.chan
    have hsent : sentChan t.chans q = [] := by rw [sentChan_eq hv g1]; exact g2
    have hcnt := h.count
    have h32 := watched_le s
    rw [hbox, List.length_cons] at hcnt
    have hst := step_chan (s := t) (e := e) hbox hn (by rw [hsent]; intro z hz; cases hz) (by rw [hsent, List.length_nil]; omega)
    rw [hsent, List.append_nil] at hst
    have howner : ∀ j, Channel.owner (t.chans.objs j).log = none → Channel.owner (q.objs j).log = none := by
      intro j hj
      by_cases hjc : j = c.toNat
      · rw [hjc]; exact g3
      · rw [g1.2 j hjc]; exact hj
    refine ⟨_, hst, ⟨⟨_, htame.step (v := .deliver) hb (by simp only [Harmless, hbox]; trivial) hst⟩, h.inv, h.conn, ?_, ?_, ?_, ?_, ?_, h.sess, ?_⟩, ?_⟩
    · intro k hk d hd hi
      rcases h.told k hk d hd hi with ⟨z, g⟩ | g
      · rw [hbox] at g
        rcases List.mem_cons.mp g with g | g
        · injection g with g
          injection g with _ g
          rw [g]
          exact .inr g3
        · exact .inl ⟨z, g⟩
      · exact .inr (howner _ g)
    · intro z hz
      exact h.box z (by rw [hbox]; exact List.mem_cons_of_mem _ hz)
    · intro j
      by_cases hjc : j = c.toNat
      · rw [hjc]; exact .inr g3
      · show q.objs j = _ ∨ Channel.owner (q.objs j).log = _
        rw [g1.2 j hjc]
        exact h.chans j
    · show _ ≤ q.ids.len
      have := h.len
      omega
    · intro j hj h1 h2
      show _ < q.ids.len
      have hl := h.len
      by_cases ho : Channel.owner (t.chans.objs c.toNat).log = none
      · refine Nat.lt_of_lt_of_le (h.gain j hj h1 ?_) (by omega)
        by_cases hjc : j = c.toNat
        · rw [hjc]; exact ho
        · have h2 : Channel.owner (q.objs j).log = none := h2
          rw [g1.2 j hjc] at h2
          exact h2
      · rw [if_neg ho] at g4
        omega
    · show watched t + rest.length ≤ _
      omega
    · show 2 * watched t + rest.length + 1 ≤ 2 * watched t + (rest.length + 1)
      omega

theorem fading_start (h : Tame m u evs s) (hb : s.box = []) (he : ∀ x ∈ evs, x.1.tcp.timerFree = true ∧ x.1.tcp.starts = true) : Fading m u s s where
  tame := ⟨_, h⟩
  inv := stack_inv h.reach fun x hx => ⟨fun hf => (by rw [(he x hx).1] at hf; cases hf), fun _ => (he x hx).2⟩
  conn _ _ := .inl rfl
  told k _ c hc hi := by rw [hi.assoc] at hc; cases hc
  box x hx := by rw [hb] at hx; cases hx
  chans _ := .inl rfl
  len := Nat.le_refl _
  gain _ _ h1 h2 := absurd h2 h1
  sess := rfl
  count := by rw [hb]; simp

theorem fading_path (h : Fading m u s s) (hb : s.box = []) {l : List (Env × Ev)} (hp : Path Hush s l t) : Fading m u s t ∧ 2 * watched t + t.box.length + l.length ≤ 2 * watched s := by
  induction hp with
  | nil => exact ⟨h, by rw [hb]; simp⟩
  | @snoc s1 t l e v hpath hposs hq hn ih =>
    obtain ⟨g1, g2⟩ := ih
    obtain ⟨h1, h2 | ⟨k, h2⟩⟩ := hq
    · subst h2
      obtain ⟨t', k1, k2, k3⟩ := fading_deliver g1 hposs h1
      rw [k1] at hn
      injection hn with hn
      subst hn
      exact ⟨k2, by rw [List.length_append, List.length_singleton]; omega⟩
    · subst h2
      obtain ⟨t', k1, k2, k3⟩ := fading_timer g1 hposs.2.1 hposs.2.2 h1
      rw [k1] at hn
      injection hn with hn
      subst hn
      exact ⟨k2, by rw [List.length_append, List.length_singleton]; omega⟩

/-! ## C114 -/

/-- C114: silence goes on as long as a timer runs or a message waits, each of its steps is defined, and it is over after at most 64 steps. -/
theorem C114_silence_ends_partial (h : Tame m u evs s) (hb : s.box = []) (he : ∀ x ∈ evs, x.1.tcp.timerFree = true ∧ x.1.tcp.starts = true)
    {l : List (Env × Ev)} (hp : Path Hush s l t) : l.length ≤ 64 ∧ (Still t ∨ ∃ v, Possible t v ∧ (v = .deliver ∨ ∃ k, v = .net (.timer k))) ∧
      ∀ e v, Possible t v → Hush e t v → ∃ t', step t e v = .ok t' := by
  obtain ⟨g1, g2⟩ := fading_path (fading_start h hb he) hb hp
  refine ⟨by have := watched_le s; omega, ?_, ?_⟩
  · by_cases hbox : t.box = []
    · by_cases ha : ∀ k, Pool.valid k → (t.srv.conns k).armed = false
      · exact .inl ⟨hbox, ha⟩
      · obtain ⟨k, hk⟩ := Classical.not_forall.mp ha
        obtain ⟨hk, hn⟩ := Classical.not_imp.mp hk
        exact .inr ⟨.net (.timer k), ⟨rfl, hk, by simpa using hn⟩, .inr ⟨k, rfl⟩⟩
    · exact .inr ⟨.deliver, hbox, .inl rfl⟩
  · rintro e v hposs ⟨h1, h2 | ⟨k, h2⟩⟩
    · subst h2
      obtain ⟨t', k1, -⟩ := fading_deliver g1 hposs h1
      exact ⟨t', k1⟩
    · subst h2
      obtain ⟨t', k1, -⟩ := fading_timer g1 hposs.2.1 hposs.2.2 h1
      exact ⟨t', k1⟩

/-- C114: behind the silence every connection is released with its link and timer, all 32 identifiers are free, every channel that a
connection had is closed, and no identifier of a channel is lost. -/
theorem C114_comes_back_partial (h : Tame m u evs s) (hb : s.box = []) (he : ∀ x ∈ evs, x.1.tcp.timerFree = true ∧ x.1.tcp.starts = true)
    {l : List (Env × Ev)} (hp : Path Hush s l t) (hs : Still t) :
    (∃ free, Queue.Holds t.srv.ids free ∧ free.Nodup ∧ free.length = 32 ∧ ∀ k, Pool.valid k → k ∈ free ∧ (t.srv.conns k).st = .init ∧
      (t.srv.conns k).link = false ∧ (t.srv.conns k).timer = false ∧ (t.srv.conns k).assoc = none) ∧
    (∀ k, Pool.valid k → ∀ c, (s.srv.conns k).assoc = some c → Channel.owner (t.chans.objs c.toNat).log = none) ∧
    s.chans.ids.len ≤ t.chans.ids.len := by
  obtain ⟨g1, -⟩ := fading_path (fading_start h hb he) hb hp
  have hidle : ∀ k, Pool.valid k → Idle (t.srv.conns k) := by
    intro k hk
    rcases Transport.inv_around g1.inv hk with ⟨_, _, _, _, _, h' | h'⟩ | h'
    · have := h'.armed trivial
      rw [hs.2 k hk] at this
      cases this
    · exact h'.1.elim
    · exact h'
  obtain ⟨free, h1, h2⟩ := g1.inv
  have hall : ∀ k, Pool.valid k → k ∈ free := by
    intro k hk
    refine Classical.byContradiction fun hn => ?_
    rcases (h2 k hk).2 hn with g | g
    · exact g.st (hidle k hk).st
    · exact g.1.elim
  refine ⟨⟨free, h1.holds, h1.nodup, ?_, fun k hk => ⟨hall k hk, (hidle k hk).st, (hidle k hk).link, (hidle k hk).timer, (hidle k hk).assoc⟩⟩, ?_, g1.len⟩
  · have : free.Perm (List.range' 1 32) := (List.perm_ext_iff_of_nodup h1.nodup List.nodup_range').mpr fun j => by
      rw [List.mem_range'_1]
      refine ⟨fun hj => ?_, fun hj => hall j ⟨hj.1, by unfold poolCap; omega⟩⟩
      have := h1.ids j hj
      exact ⟨this.1, by have := this.2; unfold poolCap at this; omega⟩
    rw [this.length_eq, List.length_range']
  · intro k hk c hc
    rcases g1.told k hk c hc (hidle k hk) with ⟨x, g⟩ | g
    · rw [hs.1] at g; cases g
    · exact g

/-- C114: if the history was orderly (C99), no channel is open behind the silence. -/
theorem C114_channels_closed_partial {s0 : Stack} (h0 : create m u = .ok s0) (ho : Path Orderly s0 evs s) (h : Tame m u evs s) (hb : s.box = [])
    (he : ∀ x ∈ evs, x.1.tcp.timerFree = true ∧ x.1.tcp.starts = true) {l : List (Env × Ev)} (hp : Path Hush s l t) (hs : Still t) {c : UInt32}
    (hc : Pool.valid c.toNat) : Channel.owner (t.chans.objs c.toNat).log = none := by
  obtain ⟨g1, -⟩ := fading_path (fading_start h hb he) hb hp
  rcases g1.chans c.toNat with g | g
  · cases hx : Channel.owner (s.chans.objs c.toNat).log with
    | none => rw [g]; exact hx
    | some x =>
      obtain ⟨k1, k2, -⟩ := C99_rest_partial h0 ho hb hc hx
      exact (C114_comes_back_partial h hb he hp hs).2.1 x.toNat k1 c k2
  · exact g

/-- C114: the next client is served: every visit (C81) that keeps to the rules and needs no more sessions than are free takes place to its end,
if a channel was free or a connection had one. -/
theorem C114_serves_again_partial (h : Tame m u evs s) (hb : s.box = []) (he : ∀ x ∈ evs, x.1.tcp.timerFree = true ∧ x.1.tcp.starts = true)
    {l : List (Env × Ev)} (hp : Path Hush s l t) (hs : Still t)
    (hc : s.chans.ids.len ≠ 0 ∨ ∃ k c, Pool.valid k ∧ Pool.valid c.toNat ∧ (s.srv.conns k).assoc = some c ∧ Channel.owner (s.chans.objs c.toNat).log ≠ none)
    {n : Nat} (hn : n ≤ s.sess.ids.len) {v : Visit} (hv : v.Fine n) {env : Nat → Env} (hf : ∀ i, Fair (env i)) :
    ∃ xs t', Attended env v t xs t' ∧ t'.box = [] ∧ t'.srv.ids.len = 32 := by
  obtain ⟨g1, -⟩ := fading_path (fading_start h hb he) hb hp
  obtain ⟨⟨free, k1, k2, k3, -⟩, k5, k6⟩ := C114_comes_back_partial h hb he hp hs
  have hlen : t.srv.ids.len = 32 := k1.hlen.trans k3
  obtain ⟨evs', ht⟩ := g1.tame
  have hch : t.chans.ids.len ≠ 0 := by
    rcases hc with hc | ⟨k, c, h1, h2, h3, h4⟩
    · omega
    · have := g1.gain c.toNat h2 h4 (k5 k h1 c h3)
      omega
  obtain ⟨xs, t', more, r1, r2, r3, r4, -⟩ := C81_visit ht.reach hs.1 (by omega) hch (n := n) (by rw [g1.sess]; exact hn) hv hf
  exact ⟨xs, t', r1, r3, by rw [r4]; exact hlen⟩

/-- Against C114: silence ends no session, however long it is: the sessions of clients that have gone stay, and so does the lack of free ones. -/
theorem C114_sessions_violated (h : Tame m u evs s) (hb : s.box = []) (he : ∀ x ∈ evs, x.1.tcp.timerFree = true ∧ x.1.tcp.starts = true)
    {l : List (Env × Ev)} (hp : Path Hush s l t) : t.sess = s.sess :=
  (fading_path (fading_start h hb he) hb hp).1.sess

/-! ## A run -/

/-- A history of possible, harmless and orderly steps. -/
def ambles (s : Stack) : List (Env × Ev) → Exec Stack
  | [] => .ok s
  | (e, v) :: l => if Possible s v ∧ Harmless s e v ∧ orderly e s v = true then step s e v >>= fun s' => ambles s' l else .throws

theorem ambles_both {pre l : List (Env × Ev)} {s0 : Stack} (h : Path Orderly s0 pre s) (ht : Tame m u pre s) (hr : ambles s l = .ok s') :
    Path Orderly s0 (pre ++ l) s' ∧ Tame m u (pre ++ l) s' := by
  induction l generalizing pre s with
  | nil =>
    injection hr with hr
    rw [List.append_nil, ← hr]
    exact ⟨h, ht⟩
  | cons x l ih =>
    obtain ⟨e, v⟩ := x
    unfold ambles at hr
    split at hr
    · rename_i hp
      obtain ⟨s1, h1, h2⟩ := Exec.bind_eq_ok.mp hr
      rw [List.append_cons]
      exact ih (h.snoc hp.1 (orderly_iff hp.2.2) h1) (ht.step hp.1 hp.2.1 h1) h2
    · cases hr

def isHush : Ev → Bool
  | .net (.timer _) => true
  | .deliver => true
  | _ => false

/-- Silence, step by step. -/
def sleeps (s : Stack) : List (Env × Ev) → Exec Stack
  | [] => .ok s
  | (e, v) :: l => if Possible s v ∧ e.others ≤ 32 ∧ isHush v = true then
      step s e v >>= fun s' => sleeps s' l else .throws

theorem sleeps_path {pre l : List (Env × Ev)} {s0 : Stack} (h : Path Hush s0 pre s) (hr : sleeps s l = .ok s') : Path Hush s0 (pre ++ l) s' := by
  induction l generalizing pre s with
  | nil =>
    injection hr with hr
    rw [List.append_nil, ← hr]
    exact h
  | cons x l ih =>
    obtain ⟨e, v⟩ := x
    unfold sleeps at hr
    split at hr
    · rename_i hp
      obtain ⟨s1, h1, h2⟩ := Exec.bind_eq_ok.mp hr
      rw [List.append_cons]
      refine ih (h.snoc hp.1 ⟨hp.2.1, ?_⟩ h1) h2
      have := hp.2.2
      unfold isHush at this
      split at this
      · exact .inr ⟨_, rfl⟩
      · exact .inl rfl
      · cases this
    · cases hr

/-- A client has a channel and a session, another one has only connected; both say nothing any more. -/
def abandoned : List (Env × Ev) := opens ++ [(calm, .net .accept)]

/-- The timers expire. -/
def sleep : List (Env × Ev) := [(calm, .net (.timer 2)), (calm, .net (.timer 1)), (calm, .deliver)]

def armedList (s : Stack) : List Bool := (List.range' 1 32).map fun k => (s.srv.conns k).armed

theorem sleep_runs : (do
    let s0 ← create (fun _ => garbage) Channel.unset
    let s ← ambles s0 abandoned
    let t ← sleeps s sleep
    pure (s.box ++ t.box, [(s.srv.conns 1).assoc, Channel.owner (s.chans.objs 1).log], armedList s, armedList t, s.sess.ids.len)) =
      .ok ([], [some 1, some 1], [true, true] ++ List.replicate 30 false, List.replicate 32 false, 31) := by
  decide +kernel

theorem abandoned_env : ∀ x ∈ abandoned, x.1.tcp.timerFree = true ∧ x.1.tcp.starts = true := by decide +kernel

/-- C114: at the end of `abandoned` two connections and a channel are in use; `sleep` is a silence behind which all is free; the next client is served.
The session of the client stays. -/
example : ∃ s0 s t, create (fun _ => garbage) Channel.unset = .ok s0 ∧ Path Orderly s0 abandoned s ∧ Path Hush s sleep t ∧ Still t ∧
    (s.srv.conns 1).assoc = some 1 ∧ Channel.owner (s.chans.objs 1).log = some 1 ∧ Channel.owner (t.chans.objs 1).log = none ∧ t.srv.ids.len = 32 ∧
    (∃ xs t', Attended (fun _ => calm) (guest 3) t xs t' ∧ t'.box = []) ∧ t.sess.ids.len = 31 := by
  obtain ⟨s0, h1, h2⟩ := Exec.bind_eq_ok.mp sleep_runs
  obtain ⟨s, h3, h4⟩ := Exec.bind_eq_ok.mp h2
  obtain ⟨t, h5, h6⟩ := Exec.bind_eq_ok.mp h4
  injection h6 with h6
  simp only [Prod.mk.injEq] at h6
  obtain ⟨q1, q2, -, q4, q5⟩ := h6
  obtain ⟨hb1, hb2⟩ := List.append_eq_nil_iff.mp q1
  injection q2 with q2 q3
  injection q3 with q3 _
  obtain ⟨ho, htm⟩ := ambles_both (pre := []) .nil (.create h1) h3
  have hp := sleeps_path (pre := []) .nil h5
  have hst : Still t := ⟨hb2, fun k hk => by
    have : (t.srv.conns k).armed ∈ armedList t := List.mem_map.mpr ⟨k, List.mem_range'_1.2 ⟨hk.1, by have := hk.2; unfold poolCap at *; omega⟩, rfl⟩
    rw [q4] at this
    exact List.eq_of_mem_replicate this⟩
  obtain ⟨⟨free, k1, k2, k3, -⟩, -, -⟩ := C114_comes_back_partial htm hb1 abandoned_env hp hst
  obtain ⟨xs, t', r1, r2, -⟩ := C114_serves_again_partial htm hb1 abandoned_env hp hst
    (.inr ⟨1, 1, by decide, by decide, q2, by show Channel.owner (s.chans.objs 1).log ≠ none; rw [q3]; simp⟩) (n := 1) (by omega) (guest_fine 3)
    (env := fun _ => calm) (fun _ => ⟨calm_calm, rfl, rfl, rfl⟩)
  exact ⟨s0, s, t, h1, ho, hp, hst, q2, q3, C114_channels_closed_partial h1 ho htm hb1 abandoned_env hp hst (c := 1) (by decide), k1.hlen.trans k3,
    ⟨xs, t', r1, r2⟩, by rw [C114_sessions_violated htm hb1 abandoned_env hp]; exact q5⟩

/-- C114: the silence behind `abandoned` is over after at most 64 steps, whatever its order. -/
example : ∃ s, Tame (fun _ => garbage) Channel.unset abandoned s ∧ ∀ l t, Path Hush s l t → l.length ≤ 64 := by
  obtain ⟨s0, h1, h2⟩ := Exec.bind_eq_ok.mp sleep_runs
  obtain ⟨s, h3, h4⟩ := Exec.bind_eq_ok.mp h2
  obtain ⟨t, h5, h6⟩ := Exec.bind_eq_ok.mp h4
  injection h6 with h6
  simp only [Prod.mk.injEq] at h6
  obtain ⟨hb1, -⟩ := List.append_eq_nil_iff.mp h6.1
  obtain ⟨-, htm⟩ := ambles_both (pre := []) .nil (.create h1) h3
  exact ⟨s, htm, fun l t hp => (C114_silence_ends_partial htm hb1 abandoned_env hp).1⟩

end Stack

end Uscada.Ua
