import Verif.Race
/-!
# Property C72: threads share memory without races
-/

namespace Uscada.Race
open Uscada.Routing

/-! ## Happens before -/

theorem get_append {α : Type} {l : List α} {i : Nat} {x : α} (m : List α) (h : l[i]? = some x) : (l ++ m)[i]? = some x := by
  rw [List.getElem?_append_left (List.getElem?_eq_some_iff.1 h).1]; exact h

theorem get_snoc {α : Type} {l : List α} {i : Nat} {x y : α} (h : (l ++ [y])[i]? = some x) :
    l[i]? = some x ∨ (i = l.length ∧ x = y) := by
  rcases Nat.lt_trichotomy i l.length with hi | hi | hi
  · rw [List.getElem?_append_left hi] at h; exact .inl h
  · subst hi; simp at h; exact .inr ⟨rfl, h.symm⟩
  · rw [List.getElem?_eq_none (by simp; omega)] at h; exact absurd h (by simp)

theorem get_last {α : Type} (l : List α) (y : α) : (l ++ [y])[l.length]? = some y := by simp

theorem get_lt {α : Type} {l : List α} {i : Nat} {x : α} (h : l[i]? = some x) : i < l.length :=
  (List.getElem?_eq_some_iff.1 h).1

theorem edge_append {tr : List (Tid × Ev)} {i j : Nat} (m : List (Tid × Ev)) (h : Edge tr i j) : Edge (tr ++ m) i j := by
  cases h with
  | order t e f hi hj => exact .order t e f (get_append m hi) (get_append m hj)
  | mutex t u x hi hj => exact .mutex t u x (get_append m hi) (get_append m hj)
  | fork t u e hi hj => exact .fork t u e (get_append m hi) (get_append m hj)
  | join t u e hi hj => exact .join t u e (get_append m hi) (get_append m hj)
  | flag t u r hi hj => exact .flag t u r (get_append m hi) (get_append m hj)
  | once t u hi hj => exact .once t u (get_append m hi) (get_append m hj)

theorem before_append {tr : List (Tid × Ev)} {i j : Nat} (m : List (Tid × Ev)) (h : Before tr i j) : Before (tr ++ m) i j := by
  induction h with
  | edge hl he => exact .edge hl (edge_append m he)
  | trans _ _ ih1 ih2 => exact .trans ih1 ih2

/-- A set that is closed under the edges is closed under happens before. -/
theorem before_closed {tr : List (Tid × Ev)} {S : Nat → Prop} (hS : ∀ i j, i < j → Edge tr i j → S i → S j) {i j : Nat}
    (h : Before tr i j) : S i → S j := by
  induction h with
  | edge hl he => exact hS _ _ hl he
  | trans _ _ ih1 ih2 => exact fun h => ih2 (ih1 h)

/-- Event `i` is known to thread `t`: it is one of its events or happens before one. -/
def Known (tr : List (Tid × Ev)) (t : Tid) (i : Nat) : Prop := ∃ k e, tr[k]? = some (t, e) ∧ (i = k ∨ Before tr i k)

/-- Event `i` is known to whoever locks `m` next. -/
def Left (tr : List (Tid × Ev)) (m : Mutex) (i : Nat) : Prop :=
  ∃ k u, tr[k]? = some (u, .unlock m) ∧ (i = k ∨ Before tr i k)

theorem known_append {tr : List (Tid × Ev)} {t : Tid} {i : Nat} (m : List (Tid × Ev)) : Known tr t i → Known (tr ++ m) t i := by
  rintro ⟨k, e, hk, h⟩
  exact ⟨k, e, get_append m hk, h.imp id (before_append m)⟩

theorem left_append {tr : List (Tid × Ev)} {x : Mutex} {i : Nat} (m : List (Tid × Ev)) : Left tr x i → Left (tr ++ m) x i := by
  rintro ⟨k, e, hk, h⟩
  exact ⟨k, e, get_append m hk, h.imp id (before_append m)⟩

theorem known_before {tr : List (Tid × Ev)} {t : Tid} {i : Nat} {e : Ev} (h : Known tr t i) :
    Before (tr ++ [(t, e)]) i tr.length := by
  obtain ⟨k, f, hk, h⟩ := h
  have hl := get_lt hk
  have he : Before (tr ++ [(t, e)]) k tr.length := .edge hl (.order t f e (get_append _ hk) (get_last _ _))
  rcases h with rfl | h
  · exact he
  · exact .trans (before_append _ h) he

theorem known_last (tr : List (Tid × Ev)) (t : Tid) (e : Ev) : Known (tr ++ [(t, e)]) t tr.length :=
  ⟨tr.length, e, get_last _ _, .inl rfl⟩

theorem known_of_before {tr : List (Tid × Ev)} {t : Tid} {e : Ev} {i : Nat} (h : Before (tr ++ [(t, e)]) i tr.length) :
    Known (tr ++ [(t, e)]) t i := ⟨tr.length, e, get_last _ _, .inr h⟩

/-! ## The discipline -/

/-- An access that is neither a destruction nor a synchronisation. -/
def Ev.plain : Ev → Option (Loc × Bool)
  | .rd l => some (l, false)
  | .wr l => some (l, true)
  | _ => none

/-- The mutex that guards an object. -/
def guard : Loc → Option Mutex
  | .clock => some .log
  | .mailbox r => some (.mailbox r)
  | _ => none

/-- Which accesses thread `t`, holding `h`, may make while the threads run; `p`: it has passed the construction of the logger. -/
def Allowed (d : Depl) (t : Tid) (h : Option Mutex) (p : Bool) (l : Loc) (w : Bool) : Prop :=
  match l with
  | .components => w = false
  | .pointers _ => w = false
  | .levels => w = false ∧ p = true
  | .clock => h = some .log
  | .mailbox r => h = some (.mailbox r)
  | .handlers r => t = .worker r 0
  | .pools r => t = .worker r 0
  | .comp c => ∃ r, d.home c = some r ∧ t = .worker r 0
  | .tid _ _ => t = .main

/-- A check of the code of thread `t`.  `e`: no thread is created yet; `h`: the mutex it holds; `p`: it has passed the construction of
the logger; `K`: keys of the map of components. -/
def Chk (d : Depl) (t : Tid) : Bool → Option Mutex → Bool → List Comp → List Instr → Prop
  | _, h, _, _, [] => h = none
  | e, h, _, K, .once :: k => Chk d t e h true K k
  | e, h, p, K, .find c :: k => (e = true ∨ d.home c ≠ none) ∧ Chk d t e h p (c :: K) k
  | e, h, p, K, .ev (.rd l) :: k => ((e = true ∧ l ≠ .levels) ∨ Allowed d t h p l false) ∧ Chk d t e h p K k
  | e, h, p, K, .ev (.wr l) :: k => ((e = true ∧ l ≠ .levels) ∨ Allowed d t h p l true) ∧ Chk d t e h p K k
  | e, h, p, K, .ev (.lock m) :: k => h = none ∧ Chk d t e (some m) p K k
  | e, h, p, K, .ev (.unlock m) :: k => h = some m ∧ Chk d t e none p K k
  | _, h, p, K, .ev (.fork t') :: k =>
    t = .main ∧ (∃ r, t' = .worker r 0) ∧ h = none ∧ .ev (.fork t') ∉ k ∧ (∀ c, d.home c ≠ none → c ∈ K) ∧ Chk d t false h p K k
  | e, h, p, K, .ev (.join _) :: k => h = none ∧ Chk d t e h p K k
  | e, h, p, K, .ev .publish :: k => False ∧ Chk d t e h p K k
  | e, h, p, K, .ev .pass :: k => False ∧ Chk d t e h p K k
  | e, h, p, K, .ev (.del _) :: k => Chk d t e h p K k
  | e, h, p, K, .ev (.store _) :: k => Chk d t e h p K k
  | e, h, p, K, .ev (.load _) :: k => Chk d t e h p K k

theorem allowed_mono {d : Depl} {t : Tid} {h : Option Mutex} {p q : Bool} {l : Loc} {w : Bool} (hpq : p = true → q = true) :
    Allowed d t h p l w → Allowed d t h q l w := by
  cases l <;> simp only [Allowed] <;> grind

theorem chk_mono {d : Depl} {t : Tid} {k : List Instr} : ∀ {e : Bool} {h : Option Mutex} {p q : Bool} {K L : List Comp},
    (p = true → q = true) → (∀ c ∈ K, c ∈ L) → Chk d t e h p K k → Chk d t e h q L k := by
  induction k with
  | nil => intro e h p q K L _ _ hc; exact hc
  | cons i k ih =>
    intro e h p q K L hp hK hc
    cases i with
    | once => exact ih (fun _ => rfl) hK hc
    | find c => exact ⟨hc.1, ih hp (by grind) hc.2⟩
    | ev x =>
      cases x with
      | rd l => exact ⟨hc.1.imp id (allowed_mono hp), ih hp hK hc.2⟩
      | wr l => exact ⟨hc.1.imp id (allowed_mono hp), ih hp hK hc.2⟩
      | lock m => exact ⟨hc.1, ih hp hK hc.2⟩
      | unlock m => exact ⟨hc.1, ih hp hK hc.2⟩
      | fork t' =>
        obtain ⟨h1, h2, h3, h4, h5, h6⟩ := hc
        exact ⟨h1, h2, h3, h4, fun c hc => hK c (h5 c hc), ih hp hK h6⟩
      | join t' => exact ⟨hc.1, ih hp hK hc.2⟩
      | publish => exact hc.1.elim
      | pass => exact hc.1.elim
      | del l => exact ih hp hK hc
      | store r => exact ih hp hK hc
      | load r => exact ih hp hK hc

/-! ## The trace -/

/-- No thread is created yet. -/
def NoFork (tr : List (Tid × Ev)) : Prop := ∀ (f : Nat) (u t : Tid), tr[f]? ≠ some (u, Ev.fork t)

/-- Event `i` is one of the main thread before it created any thread. -/
def Early (tr : List (Tid × Ev)) (i : Nat) (t : Tid) : Prop := t = .main ∧ ∀ (f : Nat) (u v : Tid), tr[f]? = some (u, Ev.fork v) → i < f

/-- How an access `i` while threads run is ordered with later ones. -/
def Late (d : Depl) (tr : List (Tid × Ev)) (locks : Mutex → Option Tid) (i : Nat) (t : Tid) (l : Loc) (w : Bool) : Prop :=
  match l with
  | .components => w = false
  | .pointers _ => w = false
  | .levels => True
  | .clock => (∀ u, locks .log = some u → Known tr u i) ∧ (locks .log = none → Left tr .log i)
  | .mailbox r => (∀ u, locks (.mailbox r) = some u → Known tr u i) ∧ (locks (.mailbox r) = none → Left tr (.mailbox r) i)
  | .handlers r => t = .worker r 0
  | .pools r => t = .worker r 0
  | .comp c => ∃ r, d.home c = some r ∧ t = .worker r 0
  | .tid _ _ => t = .main

/-- The invariant of the trace. -/
structure TI (d : Depl) (tr : List (Tid × Ev)) (locks : Mutex → Option Tid) (inited : Bool) : Prop where
  ordered : ∀ (i j : Nat) (t u : Tid) (e f : Ev) (l : Loc) (v w : Bool), i < j → tr[i]? = some (t, e) → tr[j]? = some (u, f) → t ≠ u → e.plain = some (l, v) →
    f.plain = some (l, w) → (v || w) = true → Before tr i j
  disc : ∀ (i : Nat) (t : Tid) (e : Ev) (l : Loc) (w : Bool), tr[i]? = some (t, e) → e.plain = some (l, w) → Early tr i t ∨ Late d tr locks i t l w
  levels : ∀ (i : Nat) (t : Tid) (e : Ev) (w : Bool), tr[i]? = some (t, e) → e.plain = some (.levels, w) → inited = true
  forks : ∀ (f : Nat) (u t : Tid), tr[f]? = some (u, Ev.fork t) → u = .main ∧ ∃ r, t = .worker r 0
  born : ∀ (i r k : Nat) (e : Ev), tr[i]? = some (Tid.worker r k, e) → ∃ f : Nat, tr[f]? = some (Tid.main, Ev.fork (.worker r k))

theorem early_append {tr : List (Tid × Ev)} {i : Nat} {t : Tid} {x : Tid × Ev} (hi : i < tr.length) :
    Early tr i t → Early (tr ++ [x]) i t := by
  rintro ⟨rfl, h⟩
  refine ⟨rfl, fun f u v hf => ?_⟩
  rcases get_snoc hf with hf | ⟨rfl, -⟩
  · exact h f u v hf
  · exact hi

/-- How a thread changes the mutexes. -/
inductive Locks (t : Tid) : Ev → (Mutex → Option Tid) → (Mutex → Option Tid) → Prop where
  | lock (m : Mutex) (l : Mutex → Option Tid) (h : l m = none) : Locks t (.lock m) l (upd l m (some t))
  | unlock (m : Mutex) (l : Mutex → Option Tid) (h : l m = some t) : Locks t (.unlock m) l (upd l m none)
  | same (e : Ev) (l : Mutex → Option Tid) (h : ∀ m, e ≠ .lock m ∧ e ≠ .unlock m) : Locks t e l l

theorem guarded_step {tr : List (Tid × Ev)} {locks locks' : Mutex → Option Tid} {t : Tid} {e : Ev} {i : Nat} (m : Mutex)
    (hl : Locks t e locks locks')
    (h : (∀ u, locks m = some u → Known tr u i) ∧ (locks m = none → Left tr m i)) :
    (∀ u, locks' m = some u → Known (tr ++ [(t, e)]) u i) ∧ (locks' m = none → Left (tr ++ [(t, e)]) m i) := by
  cases hl with
  | lock x _ hx =>
    by_cases hm : m = x
    · subst hm
      refine ⟨fun u hu => ?_, fun hn => ?_⟩
      · simp only [upd, if_true, Option.some.injEq] at hu
        subst hu
        obtain ⟨k, u, hk, hb⟩ := h.2 hx
        have he : Before (tr ++ [(t, .lock m)]) k tr.length :=
          .edge (get_lt hk) (.mutex u t m (get_append _ hk) (get_last _ _))
        rcases hb with rfl | hb
        · exact known_of_before he
        · exact known_of_before (.trans (before_append _ hb) he)
      · simp [upd] at hn
    · simp only [upd, if_neg hm]
      exact ⟨fun u hu => known_append _ (h.1 u hu), fun hn => left_append _ (h.2 hn)⟩
  | unlock x _ hx =>
    by_cases hm : m = x
    · subst hm
      refine ⟨fun u hu => ?_, fun _ => ?_⟩
      · simp [upd] at hu
      · exact ⟨tr.length, t, get_last _ _, .inr (known_before (h.1 t hx))⟩
    · simp only [upd, if_neg hm]
      exact ⟨fun u hu => known_append _ (h.1 u hu), fun hn => left_append _ (h.2 hn)⟩
  | same _ _ _ => exact ⟨fun u hu => known_append _ (h.1 u hu), fun hn => left_append _ (h.2 hn)⟩

theorem late_step {d : Depl} {tr : List (Tid × Ev)} {locks locks' : Mutex → Option Tid} {t u : Tid} {e : Ev} {i : Nat} {l : Loc}
    {w : Bool} (hl : Locks t e locks locks') (h : Late d tr locks i u l w) : Late d (tr ++ [(t, e)]) locks' i u l w := by
  cases l <;> simp only [Late] at h ⊢
  all_goals first
    | exact h
    | exact guarded_step _ hl h

/-- A thread exists. -/
def Born (tr : List (Tid × Ev)) (t : Tid) : Prop := t = .main ∨ ∃ f : Nat, tr[f]? = some (Tid.main, Ev.fork t)

theorem early_before {tr : List (Tid × Ev)} {t u : Tid} {e x : Ev} {i : Nat} (hi : tr[i]? = some (u, x)) (h : Early tr i u)
    (hb : Born tr t) : Before (tr ++ [(t, e)]) i tr.length := by
  obtain ⟨rfl, h⟩ := h
  rcases hb with rfl | ⟨f, hf⟩
  · exact known_before ⟨i, x, hi, .inl rfl⟩
  · exact .trans (.edge (h f _ _ hf) (.order .main _ _ (get_append _ hi) (get_append _ hf)))
      (.edge (get_lt hf) (.fork .main t e (get_append _ hf) (get_last _ _)))

/-- One more event of thread `t` that obeys the discipline. -/
theorem ti_push {d : Depl} {tr : List (Tid × Ev)} {locks locks' : Mutex → Option Tid} {inited inited' : Bool} {t : Tid} {e : Ev}
    (hi : TI d tr locks inited) (hb : Born tr t) (hlk : Locks t e locks locks') (hin : inited = true → inited' = true)
    (hfk : ∀ v, e = .fork v → t = .main ∧ ∃ r, v = .worker r 0)
    (hacc : ∀ l w, e.plain = some (l, w) → l ≠ .levels →
      (t = .main ∧ NoFork tr) ∨ ∃ h, (∀ m, h = some m → locks m = some t) ∧ Allowed d t h false l w)
    (hlev : ∀ w, e.plain = some (.levels, w) → inited' = true ∧
      ((w = true ∧ inited = false) ∨ (w = false ∧ ∀ (i : Nat) (u : Tid), tr[i]? = some (u, Ev.wr .levels) → Known tr t i))) :
    TI d (tr ++ [(t, e)]) locks' inited' := by
  have hold : ∀ (i : Nat) (u : Tid) (x : Ev) (l : Loc) (v w : Bool), tr[i]? = some (u, x) → u ≠ t → x.plain = some (l, v) → e.plain = some (l, w) → (v || w) = true →
      Before (tr ++ [(t, e)]) i tr.length := by
    intro i u x l v w hx hut hp hq hvw
    by_cases hl : l = .levels
    · subst hl
      rcases (hlev w hq).2 with ⟨-, hn⟩ | ⟨rfl, hk⟩
      · have := hi.levels i u x v hx hp; simp [hn] at this
      · have : x = .wr .levels := by
          simp only [Bool.or_false] at hvw; subst hvw
          cases x <;> simp [Ev.plain] at hp; subst hp; rfl
        subst this
        exact known_before (hk i u hx)
    · rcases hi.disc i u x l v hx hp with he | hlate
      · exact early_before hx he hb
      · rcases hacc l w hq hl with ⟨rfl, hnf⟩ | ⟨h, hh, ha⟩
        · cases u with
          | main => exact absurd rfl hut
          | worker r k =>
            obtain ⟨f, hf⟩ := hi.born i r k x hx
            exact absurd hf (hnf f _ _)
        · cases l <;> simp only [Allowed, Late] at ha hlate
          · subst ha; subst hlate; simp at hvw
          · exact absurd rfl hl
          · exact known_before (hlate.1 t (hh _ ha))
          · exact known_before (hlate.1 t (hh _ ha))
          · exact absurd (hlate.trans ha.symm) hut
          · exact absurd (hlate.trans ha.symm) hut
          · obtain ⟨r, h1, rfl⟩ := ha; obtain ⟨r', h2, rfl⟩ := hlate
            rw [h1] at h2; cases h2; exact absurd rfl hut
          · subst ha; subst hlate; simp at hvw
          · exact absurd (hlate.trans ha.symm) hut
  constructor
  · intro i j u v x y l a b hij hx hy huv hp hq hab
    rcases get_snoc hy with hy | ⟨rfl, hyn⟩
    · rcases get_snoc hx with hx | ⟨rfl, -⟩
      · exact before_append _ (hi.ordered i j u v x y l a b hij hx hy huv hp hq hab)
      · have := get_lt hy; omega
    · cases hyn
      rcases get_snoc hx with hx | ⟨rfl, -⟩
      · exact hold i u x l a b hx huv hp hq hab
      · omega
  · intro i u x l w hx hp
    rcases get_snoc hx with hx | ⟨rfl, hxn⟩
    · exact (hi.disc i u x l w hx hp).imp (early_append (get_lt hx)) (late_step hlk)
    · cases hxn
      by_cases hl : l = .levels
      · subst hl; exact .inr trivial
      · have hs : locks' = locks := by
          cases hlk with
          | lock => simp [Ev.plain] at hp
          | unlock => simp [Ev.plain] at hp
          | same => rfl
        subst hs
        rcases hacc l w hp hl with ⟨rfl, hnf⟩ | ⟨h, hh, ha⟩
        · left
          refine ⟨rfl, fun f u v hf => ?_⟩
          rcases get_snoc hf with hf | ⟨-, hf⟩
          · exact absurd hf (hnf f u v)
          · cases hf; simp [Ev.plain] at hp
        · right
          cases l <;> simp only [Allowed, Late] at ha ⊢
          · exact ha
          · have := hh _ ha
            refine ⟨fun v hv => ?_, fun hn => ?_⟩
            · rw [this] at hv; cases hv; exact known_last _ _ _
            · rw [this] at hn; cases hn
          · have := hh _ ha
            refine ⟨fun v hv => ?_, fun hn => ?_⟩
            · rw [this] at hv; cases hv; exact known_last _ _ _
            · rw [this] at hn; cases hn
          all_goals exact ha
  · intro i u x w hx hp
    rcases get_snoc hx with hx | ⟨rfl, hxn⟩
    · exact hin (hi.levels i u x w hx hp)
    · cases hxn; exact (hlev w hp).1
  · intro f u v hf
    rcases get_snoc hf with hf | ⟨rfl, hfn⟩
    · exact hi.forks f u v hf
    · cases hfn; exact hfk v rfl
  · intro i r k x hx
    rcases get_snoc hx with hx | ⟨rfl, hxn⟩
    · obtain ⟨f, hf⟩ := hi.born i r k x hx
      exact ⟨f, get_append _ hf⟩
    · cases hxn
      rcases hb with h | ⟨f, hf⟩
      · cases h
      · exact ⟨f, get_append _ hf⟩

/-! ## The invariant -/

/-- The code of a thread that runs passes the check. -/
def Thr (d : Depl) (s : St) (t : Tid) (k : List Instr) : Prop :=
  ∃ (e : Bool) (h : Option Mutex) (p : Bool) (K : List Comp), (e = true → t = .main ∧ NoFork s.trace) ∧
    (∀ m, s.locks m = some t ↔ h = some m) ∧
    (p = true → s.inited = true ∧ ∀ (i : Nat) (u : Tid), s.trace[i]? = some (u, Ev.wr .levels) → Known s.trace t i) ∧
    (∀ c ∈ K, c ∈ s.keys) ∧ Chk d t e h p K k

structure Inv (d : Depl) (s : St) : Prop where
  ti : TI d s.trace s.locks s.inited
  pub : ∀ (i : Nat) (u : Tid), s.trace[i]? = some (u, Ev.wr .levels) → ∃ k, i < k ∧ s.trace[k]? = some (u, .publish)
  thr : ∀ t k, s.code t = some k → Thr d s t k
  born : ∀ t k, s.code t = some k → Born s.trace t
  idle : ∀ t, s.code t = none → ∀ m, s.locks m ≠ some t
  fresh : ∀ t k v, s.code t = some k → .ev (.fork v) ∈ k → t = .main ∧ s.code v = none
  keys : ∀ (f : Nat) (u v : Tid), s.trace[f]? = some (u, Ev.fork v) → ∀ c, d.home c ≠ none → c ∈ s.keys

theorem get_map {tr : List (Tid × Ev)} {t u : Tid} {es : List Ev} {i : Nat} {x : Ev}
    (h : (tr ++ es.map (t, ·))[i]? = some (u, x)) : tr[i]? = some (u, x) ∨ (u = t ∧ x ∈ es) := by
  by_cases hi : i < tr.length
  · rw [List.getElem?_append_left hi] at h; exact .inl h
  · rw [List.getElem?_append_right (by omega)] at h
    simp only [List.getElem?_map, Option.map_eq_some_iff, Prod.mk.injEq] at h
    obtain ⟨y, hy, rfl, rfl⟩ := h
    exact .inr ⟨rfl, List.mem_of_getElem? hy⟩

/-- A step of thread `t` that creates no thread. -/
theorem inv_next {d : Depl} {s s' : St} {t : Tid} {es : List Ev} {i : Instr} {k : List Instr} (hi : Inv d s)
    (hc : s.code t = some (i :: k)) (htr : s'.trace = s.trace ++ es.map (t, ·)) (hcode : s'.code = upd s.code t (some k))
    (hti : TI d s'.trace s'.locks s'.inited)
    (hpub : ∀ (i : Nat) (u : Tid), s'.trace[i]? = some (u, Ev.wr .levels) → ∃ k, i < k ∧ s'.trace[k]? = some (u, .publish))
    (hthr : Thr d s' t k) (hfork : ∀ v, Ev.fork v ∉ es) (hlev : Ev.wr .levels ∈ es → s.inited = false)
    (hin : s.inited = true → s'.inited = true) (hlocks : ∀ m u, u ≠ t → (s'.locks m = some u ↔ s.locks m = some u))
    (hkeys : ∀ c ∈ s.keys, c ∈ s'.keys) : Inv d s' := by
  have hforks : ∀ (f : Nat) (u v : Tid), s'.trace[f]? = some (u, Ev.fork v) → s.trace[f]? = some (u, .fork v) := by
    intro f u v hf
    rw [htr] at hf
    rcases get_map hf with hf | ⟨-, hf⟩
    · exact hf
    · exact absurd hf (hfork v)
  refine ⟨hti, hpub, ?_, ?_, ?_, ?_, ?_⟩
  · intro u k' hu
    by_cases hut : u = t
    · subst hut
      rw [hcode] at hu
      simp only [upd, if_true, Option.some.injEq] at hu
      subst hu
      exact hthr
    · rw [hcode] at hu
      simp only [upd, if_neg hut] at hu
      obtain ⟨e, h, p, K, h1, h2, h3, h4, h5⟩ := hi.thr u k' hu
      refine ⟨e, h, p, K, fun he => ⟨(h1 he).1, fun f v w hf => (h1 he).2 f v w (hforks f v w hf)⟩,
        fun m => (hlocks m u hut).trans (h2 m), fun hp => ⟨hin (h3 hp).1, fun i v hv => ?_⟩, fun c hc => hkeys c (h4 c hc), h5⟩
      rw [htr] at hv ⊢
      rcases get_map hv with hv | ⟨-, hv⟩
      · exact known_append _ ((h3 hp).2 i v hv)
      · have := hlev hv; rw [(h3 hp).1] at this; cases this
  · intro u k' hu
    have hb : Born s.trace u := by
      by_cases hut : u = t
      · subst hut; exact hi.born u _ hc
      · rw [hcode] at hu; simp only [upd, if_neg hut] at hu; exact hi.born u k' hu
    rw [htr]
    exact hb.imp id fun ⟨f, hf⟩ => ⟨f, get_append _ hf⟩
  · intro u hu m
    have hut : u ≠ t := by rintro rfl; rw [hcode] at hu; simp [upd] at hu
    rw [hcode] at hu; simp only [upd, if_neg hut] at hu
    exact fun hm => hi.idle u hu m ((hlocks m u hut).1 hm)
  · intro u k' v hu hv
    have key : u = .main ∧ s.code v = none := by
      by_cases hut : u = t
      · subst hut
        rw [hcode] at hu
        simp only [upd, if_true, Option.some.injEq] at hu
        subst hu
        exact hi.fresh u _ v hc (List.mem_cons_of_mem _ hv)
      · rw [hcode] at hu; simp only [upd, if_neg hut] at hu; exact hi.fresh u k' v hu hv
    have hvt : v ≠ t := by rintro rfl; rw [hc] at key; cases key.2
    rw [hcode]; simpa only [upd, if_neg hvt] using key
  · intro f u v hf c hc
    exact hkeys c (hi.keys f u v (hforks f u v hf) c hc)

theorem pub_append {tr : List (Tid × Ev)} {t : Tid} {es : List Ev} (hno : Ev.wr .levels ∉ es)
    (h : ∀ (i : Nat) (u : Tid), tr[i]? = some (u, Ev.wr .levels) → ∃ k, i < k ∧ tr[k]? = some (u, .publish)) :
    ∀ (i : Nat) (u : Tid), (tr ++ es.map (t, ·))[i]? = some (u, Ev.wr .levels) →
      ∃ k, i < k ∧ (tr ++ es.map (t, ·))[k]? = some (u, .publish) := by
  intro i u hx
  rcases get_map hx with hx | ⟨-, hx⟩
  · obtain ⟨k, h1, h2⟩ := h i u hx
    exact ⟨k, h1, get_append _ h2⟩
  · exact absurd hx hno

theorem known_levels {tr : List (Tid × Ev)} {t v : Tid} {es : List Ev} (hno : Ev.wr .levels ∉ es)
    (h : ∀ (i : Nat) (u : Tid), tr[i]? = some (u, Ev.wr .levels) → Known tr v i) :
    ∀ (i : Nat) (u : Tid), (tr ++ es.map (t, ·))[i]? = some (u, Ev.wr .levels) → Known (tr ++ es.map (t, ·)) v i := by
  intro i u hx
  rcases get_map hx with hx | ⟨-, hx⟩
  · exact known_append _ (h i u hx)
  · exact absurd hx hno

theorem nofork_append {tr : List (Tid × Ev)} {t : Tid} {es : List Ev} (hno : ∀ v, Ev.fork v ∉ es) (h : NoFork tr) :
    NoFork (tr ++ es.map (t, ·)) := by
  intro f u v hf
  rcases get_map hf with hf | ⟨-, hf⟩
  · exact h f u v hf
  · exact hno v hf

/-- One event that changes neither mutexes, nor the logger, nor the keys. -/
theorem inv_event {d : Depl} {s : St} {t : Tid} {x : Ev} {k : List Instr} {i : Instr} (hi : Inv d s)
    (hc : s.code t = some (i :: k)) (hl : ∀ m, x ≠ .lock m ∧ x ≠ .unlock m) (hf : ∀ v, x ≠ .fork v) (hw : x ≠ .wr .levels)
    {e : Bool} {h : Option Mutex} {p : Bool} {K : List Comp} (h1 : e = true → t = .main ∧ NoFork s.trace)
    (h2 : ∀ m, s.locks m = some t ↔ h = some m)
    (h3 : p = true → s.inited = true ∧ ∀ (i : Nat) (u : Tid), s.trace[i]? = some (u, Ev.wr .levels) → Known s.trace t i)
    (h4 : ∀ c ∈ K, c ∈ s.keys)
    (hx : ∀ l w, x.plain = some (l, w) → (e = true ∧ l ≠ .levels) ∨ Allowed d t h p l w)
    (hk : Chk d t e h p K k) : Inv d (s.next t [x] k) := by
  have hl' : Locks t x s.locks s.locks := .same x _ hl
  refine inv_next (es := [x]) hi hc rfl rfl ?_ (pub_append (by simpa using hw.symm) hi.pub) ?_ (by simp; exact fun v => (hf v).symm)
    (by simp; exact fun h => absurd h.symm hw) id (fun _ _ _ => Iff.rfl) (fun _ h => h)
  · refine ti_push hi.ti (hi.born t _ hc) hl' id (fun v hv => absurd hv (hf v)) ?_ ?_
    · intro l w hp hlv
      rcases hx l w hp with ⟨he, -⟩ | ha
      · exact .inl (h1 he)
      · refine .inr ⟨h, fun m hm => (h2 m).2 hm, ?_⟩
        cases l <;> simp only [Allowed] at ha ⊢ <;> first | exact absurd rfl hlv | exact ha
    · intro w hp
      rcases hx _ w hp with ⟨-, hn⟩ | ⟨rfl, hp'⟩
      · exact absurd rfl hn
      · exact ⟨(h3 hp').1, .inr ⟨rfl, (h3 hp').2⟩⟩
  · exact ⟨e, h, p, K, fun he => ⟨(h1 he).1, nofork_append (by simp; exact fun v => (hf v).symm) (h1 he).2⟩, h2,
      fun hp => ⟨(h3 hp).1, known_levels (by simpa using hw.symm) (h3 hp).2⟩, h4, hk⟩

theorem upd_same {α β : Type} [DecidableEq α] (f : α → β) (a : α) (b : β) : upd f a b a = b := by simp [upd]

theorem upd_other {α β : Type} [DecidableEq α] (f : α → β) {a x : α} (b : β) (h : x ≠ a) : upd f a b x = f x := by simp [upd, h]

theorem inv_lock {d : Depl} {s : St} {t : Tid} {m : Mutex} {k : List Instr} (hi : Inv d s)
    (hc : s.code t = some (.ev (.lock m) :: k)) (hm : s.locks m = none) :
    Inv d { s.next t [.lock m] k with locks := upd s.locks m (some t) } := by
  obtain ⟨e, h, p, K, h1, h2, h3, h4, h5, h6⟩ := hi.thr t _ hc
  subst h5
  refine inv_next (es := [.lock m]) hi hc rfl rfl ?_ (pub_append (by simp) hi.pub) ?_ (by simp) (by simp) id ?_ (fun _ h => h)
  · exact ti_push hi.ti (hi.born t _ hc) (.lock m _ hm) id (fun v hv => by cases hv) (fun l w hp => by simp [Ev.plain] at hp)
      (fun w hp => by simp [Ev.plain] at hp)
  · refine ⟨e, some m, p, K, fun he => ⟨(h1 he).1, nofork_append (by simp) (h1 he).2⟩, fun x => ?_,
      fun hp => ⟨(h3 hp).1, known_levels (by simp) (h3 hp).2⟩, h4, h6⟩
    by_cases hx : x = m
    · subst hx; simp [upd]
    · have := h2 x
      simp only [upd, if_neg hx, Option.some.injEq]
      simp at this
      grind
  · intro x u hu
    by_cases hx : x = m
    · subst hx; simp [upd, hm]; exact fun h => hu h.symm
    · simp [upd, hx]

theorem inv_unlock {d : Depl} {s : St} {t : Tid} {m : Mutex} {k : List Instr} (hi : Inv d s)
    (hc : s.code t = some (.ev (.unlock m) :: k)) : Inv d { s.next t [.unlock m] k with locks := upd s.locks m none } := by
  obtain ⟨e, h, p, K, h1, h2, h3, h4, h5, h6⟩ := hi.thr t _ hc
  subst h5
  have hm : s.locks m = some t := (h2 m).2 rfl
  refine inv_next (es := [.unlock m]) hi hc rfl rfl ?_ (pub_append (by simp) hi.pub) ?_ (by simp) (by simp) id ?_ (fun _ h => h)
  · exact ti_push hi.ti (hi.born t _ hc) (.unlock m _ hm) id (fun v hv => by cases hv) (fun l w hp => by simp [Ev.plain] at hp)
      (fun w hp => by simp [Ev.plain] at hp)
  · refine ⟨e, none, p, K, fun he => ⟨(h1 he).1, nofork_append (by simp) (h1 he).2⟩, fun x => ?_,
      fun hp => ⟨(h3 hp).1, known_levels (by simp) (h3 hp).2⟩, h4, h6⟩
    by_cases hx : x = m
    · subst hx; simp [upd]
    · have := h2 x
      simp only [upd, if_neg hx]
      simp at this ⊢
      grind
  · intro x u hu
    by_cases hx : x = m
    · subst hx; simp [upd, hm]; exact fun h => hu h.symm
    · simp [upd, hx]

theorem inv_once {d : Depl} {s : St} {t : Tid} {k : List Instr} (hi : Inv d s) (hc : s.code t = some (.once :: k))
    (hn : s.inited = false) : Inv d { s.next t [.wr .levels, .publish] k with inited := true } := by
  obtain ⟨e, h, p, K, h1, h2, h3, h4, h5⟩ := hi.thr t _ hc
  have hnone : ∀ (i : Nat) (u : Tid), s.trace[i]? ≠ some (u, .wr .levels) := fun i u hu => by
    have := hi.ti.levels i u _ _ hu rfl; simp [hn] at this
  have heq : s.trace ++ [Ev.wr .levels, Ev.publish].map (t, ·) = s.trace ++ [(t, Ev.wr .levels)] ++ [(t, Ev.publish)] := by simp
  have honly : ∀ (i : Nat) (u : Tid), (s.trace ++ [(t, Ev.wr .levels)] ++ [(t, Ev.publish)])[i]? = some (u, Ev.wr .levels) →
      i = s.trace.length ∧ u = t := by
    intro i u hu
    rcases get_snoc hu with hu | ⟨-, hu⟩
    · rcases get_snoc hu with hu | ⟨rfl, hu'⟩
      · exact absurd hu (hnone i u)
      · cases hu'; exact ⟨rfl, rfl⟩
    · cases hu
  refine inv_next (es := [.wr .levels, .publish]) hi hc rfl rfl ?_ ?_ ?_ (by simp) (fun _ => hn) (fun _ => rfl)
    (fun _ _ _ => Iff.rfl) (fun _ h => h)
  · show TI d (s.trace ++ [Ev.wr .levels, Ev.publish].map (t, ·)) s.locks true
    rw [heq]
    have hb := hi.born t _ hc
    refine ti_push (inited := true) (ti_push hi.ti hb (.same _ _ (by simp)) (fun _ => rfl) (fun v hv => by cases hv) ?_ ?_)
      (hb.imp id fun ⟨f, hf⟩ => ⟨f, get_append _ hf⟩) (.same _ _ (by simp)) id (fun v hv => by cases hv)
      (fun l w hp => by simp [Ev.plain] at hp) (fun w hp => by simp [Ev.plain] at hp)
    · intro l w hp hl
      simp [Ev.plain] at hp
      exact absurd hp.1.symm hl
    · intro w hp
      simp [Ev.plain] at hp
      exact ⟨rfl, .inl ⟨hp, hn⟩⟩
  · show ∀ (i : Nat) (u : Tid), (s.trace ++ [Ev.wr .levels, Ev.publish].map (t, ·))[i]? = some (u, Ev.wr .levels) →
      ∃ k, i < k ∧ (s.trace ++ [Ev.wr .levels, Ev.publish].map (t, ·))[k]? = some (u, .publish)
    rw [heq]
    intro i u hu
    obtain ⟨rfl, rfl⟩ := honly i u hu
    exact ⟨s.trace.length + 1, by omega, by simp⟩
  · refine ⟨e, h, true, K, fun he => ⟨(h1 he).1, nofork_append (by simp) (h1 he).2⟩, h2, fun _ => ⟨rfl, ?_⟩, h4, h5⟩
    show ∀ (i : Nat) (u : Tid), (s.trace ++ [Ev.wr .levels, Ev.publish].map (t, ·))[i]? = some (u, Ev.wr .levels) →
      Known (s.trace ++ [Ev.wr .levels, Ev.publish].map (t, ·)) t i
    rw [heq]
    intro i u hu
    obtain ⟨rfl, rfl⟩ := honly i u hu
    exact known_append _ (known_last _ _ _)

theorem inv_pass {d : Depl} {s : St} {t : Tid} {k : List Instr} (hi : Inv d s) (hc : s.code t = some (.once :: k))
    (hn : s.inited = true) : Inv d (s.next t [.pass] k) := by
  obtain ⟨e, h, p, K, h1, h2, h3, h4, h5⟩ := hi.thr t _ hc
  refine inv_next (es := [.pass]) hi hc rfl rfl ?_ (pub_append (by simp) hi.pub) ?_ (by simp) (by simp) id
    (fun _ _ _ => Iff.rfl) (fun _ h => h)
  · exact ti_push hi.ti (hi.born t _ hc) (.same _ _ (by simp)) id (fun v hv => by cases hv) (fun l w hp => by simp [Ev.plain] at hp)
      (fun w hp => by simp [Ev.plain] at hp)
  · refine ⟨e, h, true, K, fun he => ⟨(h1 he).1, nofork_append (by simp) (h1 he).2⟩, h2, fun _ => ⟨hn, ?_⟩, h4, h5⟩
    intro i u hu
    rcases get_snoc hu with hu | ⟨-, hu⟩
    · obtain ⟨k, hk, hp⟩ := hi.pub i u hu
      have hb : Before (s.trace ++ [(t, Ev.pass)]) i s.trace.length :=
        .trans (.edge hk (.order u _ _ (get_append _ hu) (get_append _ hp)))
          (.edge (get_lt hp) (.once u t (get_append _ hp) (get_last _ _)))
      exact known_of_before hb
    · cases hu

theorem inv_insert {d : Depl} {s : St} {t : Tid} {c : Comp} {k : List Instr} (hi : Inv d s) (hc : s.code t = some (.find c :: k))
    (hn : c ∉ s.keys) : Inv d { s.next t [.rd .components, .wr .components] k with keys := c :: s.keys } := by
  obtain ⟨e, h, p, K, h1, h2, h3, h4, h5, h6⟩ := hi.thr t _ hc
  have he : e = true ∨ (t = .main ∧ NoFork s.trace) := by
    rcases h5 with he | hh
    · exact .inl he
    · refine .inr ?_
      have hno : NoFork s.trace := fun f u v hf => hn (hi.keys f u v hf c hh)
      refine ⟨?_, hno⟩
      rcases hi.born t _ hc with ht | ⟨f, hf⟩
      · exact ht
      · exact absurd hf (hno f _ _)
  have hm : t = .main ∧ NoFork s.trace := he.elim h1 id
  have heq : s.trace ++ [Ev.rd .components, Ev.wr .components].map (t, ·) =
      s.trace ++ [(t, Ev.rd .components)] ++ [(t, Ev.wr .components)] := by simp
  refine inv_next (es := [.rd .components, .wr .components]) hi hc rfl rfl ?_ (pub_append (by simp) hi.pub) ?_ (by simp) (by simp) id
    (fun _ _ _ => Iff.rfl) (fun _ h => List.mem_cons_of_mem _ h)
  · show TI d (s.trace ++ [Ev.rd .components, Ev.wr .components].map (t, ·)) s.locks s.inited
    rw [heq]
    have hb := hi.born t _ hc
    refine ti_push (ti_push hi.ti hb (.same _ _ (by simp)) id (fun v hv => by cases hv) (fun _ _ _ _ => .inl hm)
      (fun w hp => by simp [Ev.plain] at hp)) (hb.imp id fun ⟨f, hf⟩ => ⟨f, get_append _ hf⟩) (.same _ _ (by simp)) id
      (fun v hv => by cases hv) (fun _ _ _ _ => .inl ⟨hm.1, ?_⟩) (fun w hp => by simp [Ev.plain] at hp)
    intro f u v hf
    rcases get_snoc hf with hf | ⟨-, hf⟩
    · exact hm.2 f u v hf
    · cases hf
  · exact ⟨e, h, p, c :: K, fun he => ⟨(h1 he).1, nofork_append (by simp) (h1 he).2⟩, h2,
      fun hp => ⟨(h3 hp).1, known_levels (by simp) (h3 hp).2⟩, fun x hx => by
        rcases List.mem_cons.1 hx with rfl | hx
        · exact List.mem_cons_self
        · exact List.mem_cons_of_mem _ (h4 x hx), h6⟩

theorem inv_fork {d : Depl} {s : St} {t v : Tid} {k : List Instr} (hi : Inv d s) (hc : s.code t = some (.ev (.fork v) :: k)) :
    Inv d { s.next t [.fork v] k with code := upd (s.next t [.fork v] k).code v (some []) } := by
  obtain ⟨e, h, p, K, h1, h2, h3, h4, rfl, h6, h7, h8, h9, h10⟩ := hi.thr t _ hc
  have hv : s.code v = none := (hi.fresh _ _ v hc (List.mem_cons_self)).2
  have hti : TI d (s.trace ++ [(Tid.main, Ev.fork v)]) s.locks s.inited :=
    ti_push hi.ti (.inl rfl) (.same _ _ (by simp)) id (fun w hw => by cases hw; exact ⟨rfl, h6⟩)
      (fun l w hp => by simp [Ev.plain] at hp) (fun w hp => by simp [Ev.plain] at hp)
  refine ⟨hti, pub_append (es := [.fork v]) (by simp) hi.pub, ?_, ?_, ?_, ?_, ?_⟩
  · intro u k' hu
    by_cases huv : u = v
    · subst huv
      replace hu : upd (s.next .main [.fork u] k).code u (some []) u = some k' := hu
      rw [upd_same] at hu
      cases hu
      exact ⟨false, none, false, [], by simp, fun m => by simp; exact hi.idle u hv m, by simp, by simp, rfl⟩
    · simp only [upd_other _ _ huv] at hu
      by_cases hum : u = .main
      · subst hum
        simp only [St.next, upd_same, Option.some.injEq] at hu
        subst hu
        exact ⟨false, h, p, K, by simp, h2, fun hp => ⟨(h3 hp).1, known_levels (es := [.fork v]) (by simp) (h3 hp).2⟩, h4, h10⟩
      · simp only [St.next, upd_other _ _ hum] at hu
        obtain ⟨e', h', p', K', g1, g2, g3, g4, g5⟩ := hi.thr u k' hu
        exact ⟨e', h', p', K', fun he => absurd (g1 he).1 hum, g2,
          fun hp => ⟨(g3 hp).1, known_levels (es := [.fork v]) (by simp) (g3 hp).2⟩, g4, g5⟩
  · intro u k' hu
    by_cases huv : u = v
    · subst huv; exact .inr ⟨s.trace.length, by simp [St.next]⟩
    · simp only [upd_other _ _ huv] at hu
      have hb : Born s.trace u := by
        by_cases hum : u = .main
        · exact .inl hum
        · simp only [St.next, upd_other _ _ hum] at hu; exact hi.born u k' hu
      exact hb.imp id fun ⟨f, hf⟩ => ⟨f, get_append _ hf⟩
  · intro u hu m
    have huv : u ≠ v := by rintro rfl; simp [upd_same] at hu
    simp only [upd_other _ _ huv] at hu
    have hum : u ≠ .main := by rintro rfl; simp [St.next, upd_same] at hu
    simp only [St.next, upd_other _ _ hum] at hu
    exact hi.idle u hu m
  · intro u k' w hu hw
    by_cases huv : u = v
    · subst huv
      replace hu : upd (s.next .main [.fork u] k).code u (some []) u = some k' := hu
      rw [upd_same] at hu
      cases hu; cases hw
    · simp only [upd_other _ _ huv] at hu
      have key : u = .main ∧ s.code w = none ∧ w ≠ v := by
        by_cases hum : u = .main
        · subst hum
          simp only [St.next, upd_same, Option.some.injEq] at hu
          subst hu
          exact ⟨rfl, (hi.fresh _ _ w hc (List.mem_cons_of_mem _ hw)).2, by rintro rfl; exact h8 hw⟩
        · simp only [St.next, upd_other _ _ hum] at hu
          exact absurd (hi.fresh u k' w hu hw).1 hum
      have hwm : w ≠ .main := by rintro rfl; rw [hc] at key; cases key.2.1
      refine ⟨key.1, ?_⟩
      simp only [upd_other _ _ key.2.2, St.next, upd_other _ _ hwm]
      exact key.2.1
  · intro f u w hf c hcc
    exact h4 c (h9 c hcc)

/-! ## The code passes the check -/

/-- A deployment whose threads keep to their own objects: one thread for each reactor, no component twice, and messages only to
components that are there. -/
structure Sound (d : Depl) : Prop where
  one : d.threads ≤ 1
  nodup : d.comps.flatten.Nodup
  sent : ∀ t ∈ d.sent, d.home (dest t) ≠ none
  controller : d.home .controller ≠ none

/-- A piece of code that holds no mutex at its ends, and leaves the components `A` in the map. -/
def Piece (d : Depl) (t : Tid) (e : Bool) (a : List Instr) (A : List Comp) : Prop :=
  ∀ p K k, (∀ q L, (∀ c ∈ K, c ∈ L) → (∀ c ∈ A, c ∈ L) → Chk d t e none q L k) → Chk d t e none p K (a ++ k)

theorem piece_nil (d : Depl) (t : Tid) (e : Bool) : Piece d t e [] [] :=
  fun p K _ h => h p K (fun _ h => h) (by simp)

theorem piece_append {d : Depl} {t : Tid} {e : Bool} {a b : List Instr} {A B : List Comp} (ha : Piece d t e a A)
    (hb : Piece d t e b B) : Piece d t e (a ++ b) (A ++ B) := by
  intro p K k h
  rw [List.append_assoc]
  refine ha p K _ fun q L hL hA => hb q L k fun q' L' hL' hB => h q' L' (fun c hc => hL' c (hL c hc)) fun c hc => ?_
  rcases List.mem_append.1 hc with hc | hc
  · exact hL' c (hA c hc)
  · exact hB c hc

theorem piece_weaken {d : Depl} {t : Tid} {e : Bool} {a : List Instr} {A B : List Comp} (h : Piece d t e a A)
    (hs : ∀ c ∈ B, c ∈ A) : Piece d t e a B :=
  fun p K k hk => h p K k fun q L hL hA => hk q L hL fun c hc => hA c (hs c hc)

theorem piece_flatMap {α : Type} {d : Depl} {t : Tid} {e : Bool} {f : α → List Instr} {g : α → List Comp} {xs : List α}
    (h : ∀ x ∈ xs, Piece d t e (f x) (g x)) : Piece d t e (xs.flatMap f) (xs.flatMap g) := by
  induction xs with
  | nil => exact piece_nil d t e
  | cons x xs ih =>
    simp only [List.flatMap_cons]
    exact piece_append (h x List.mem_cons_self) (ih fun y hy => h y (List.mem_cons_of_mem _ hy))

theorem piece_flatMap_nil {α : Type} {d : Depl} {t : Tid} {e : Bool} {f : α → List Instr} {xs : List α}
    (h : ∀ x ∈ xs, Piece d t e (f x) []) : Piece d t e (xs.flatMap f) [] :=
  piece_weaken (piece_flatMap (g := fun _ => []) h) (by simp)

theorem piece_lm (d : Depl) (t : Tid) (e on : Bool) : Piece d t e (lm on) [] := by
  intro p K k h
  have hk := h true K (fun _ h => h) (by simp)
  cases on
  · exact ⟨.inr ⟨rfl, rfl⟩, hk⟩
  · exact ⟨.inr ⟨rfl, rfl⟩, rfl, .inr rfl, rfl, hk⟩

theorem piece_storage (d : Depl) (t : Tid) (e : Bool) (r : Nat) : Piece d t e (storage r) [] :=
  fun p K _ h => ⟨rfl, .inr rfl, rfl, h p K (fun _ h => h) (by simp)⟩

theorem piece_send {d : Depl} {x : MsgType} (t : Tid) (e full on : Bool) (h : d.home (dest x) ≠ none) :
    Piece d t e (managerSend d x full on) [] := by
  have hrest : Piece d t e (match d.home (dest x) with | some r => reactorSend r full on | none => lm on) [] := by
    cases d.home (dest x) with
    | none => exact piece_lm d t e on
    | some r =>
      cases full
      · simpa [reactorSend] using piece_storage d t e r
      · exact piece_append (piece_storage d t e r) (piece_lm d t e on)
  intro p K k hk
  exact ⟨.inr h, hrest p _ k fun q L hL hA => hk q L (fun c hc => hL c (List.mem_cons_of_mem _ hc)) hA⟩

theorem home_of_mem {d : Depl} (hs : Sound d) {r : Nat} {c : Comp} (hc : (d.comps.getD r []).contains c = true)
    (hk : known c = true) : d.home c = some r := by
  have hr : r < d.comps.length := by
    by_cases h : r < d.comps.length
    · exact h
    · simp [List.getD, List.getElem?_eq_none (Nat.le_of_not_lt h)] at hc
  have hc' : d.comps[r].contains c = true := by simpa [List.getD, List.getElem?_eq_getElem hr] using hc
  simp only [Depl.home, hk, if_true]
  rw [List.findIdx?_eq_some_iff_getElem]
  refine ⟨hr, hc', fun j hj => ?_⟩
  intro hcj
  have hjl : j < d.comps.length := by omega
  have := (List.pairwise_flatten.1 hs.nodup).2
  have := List.pairwise_iff_getElem.1 this j r hjl hr hj
  exact this c (by simpa using hcj) c (by simpa using hc') rfl

theorem piece_op {d : Depl} (hs : Sound d) {r : Nat} {c : Comp} (hc : d.home c = some r) {o : Op} (ho : o.fits d = true) :
    Piece d (.worker r 0) false (o.code d r c) [] := by
  cases o with
  | log on => exact piece_lm _ _ _ on
  | own w =>
    intro p K k h
    have hk := h p K (fun _ h => h) (by simp)
    cases w
    · exact ⟨.inr ⟨r, hc, rfl⟩, hk⟩
    · exact ⟨.inr ⟨r, hc, rfl⟩, hk⟩
  | pool w =>
    intro p K k h
    have hk := h p K (fun _ h => h) (by simp)
    cases w
    · exact ⟨.inr rfl, hk⟩
    · exact ⟨.inr rfl, hk⟩
  | pointer => exact fun p K k h => ⟨.inr rfl, h p K (fun _ h => h) (by simp)⟩
  | send t full on => exact piece_send _ _ _ _ (hs.sent t (by simpa [Op.fits] using ho))

theorem piece_handle {d : Depl} (hs : Sound d) {r : Nat} {on : Bool} {m : Option (Comp × List Op)}
    (hm : ∀ c ops, m = some (c, ops) → d.home c = some r ∧ ops.all (Op.fits d) = true) :
    Piece d (.worker r 0) false (handle d r on m) [] := by
  cases m with
  | none =>
    refine piece_append (A := []) (B := []) (piece_append (A := []) (B := []) (piece_storage _ _ _ r) ?_) (piece_lm _ _ _ on)
    exact fun p K k h => ⟨.inr rfl, .inr rfl, h p K (fun _ h => h) (by simp)⟩
  | some x =>
    obtain ⟨c, ops⟩ := x
    obtain ⟨h1, h2⟩ := hm c ops rfl
    refine piece_append (A := []) (B := []) (piece_append (A := []) (B := []) (piece_storage _ _ _ r) ?_) ?_
    · exact fun p K k h => ⟨.inr rfl, h p K (fun _ h => h) (by simp)⟩
    · exact piece_flatMap_nil fun o ho => piece_op hs h1 (List.all_eq_true.1 h2 o ho)

theorem piece_block {d : Depl} (hs : Sound d) {r : Nat} {b : Block} (hb : b.fits d r = true) :
    Piece d (.worker r 0) false (b.code d r) [] := by
  cases b with
  | messages ms empty on =>
    refine piece_append (A := []) (B := []) (piece_append (A := []) (B := []) ?_ ?_) ?_
    · exact fun p K k h => h p K (fun _ h => h) (by simp)
    · refine piece_flatMap_nil fun m hm => piece_handle hs ?_
      rintro c ops rfl
      have := List.all_eq_true.1 hb _ hm
      simp only [Bool.and_eq_true] at this
      exact ⟨home_of_mem hs this.1.1 this.1.2, this.2⟩
    · cases empty
      · exact piece_nil _ _ _
      · exact piece_append (A := []) (B := []) (piece_storage _ _ _ r) (piece_lm _ _ _ on)
  | fd c ops =>
    simp only [Block.fits, Bool.and_eq_true] at hb
    refine piece_append (A := []) (B := []) ?_ ?_
    · exact fun p K k h => ⟨.inr rfl, h p K (fun _ h => h) (by simp)⟩
    · exact piece_flatMap_nil fun o ho => piece_op hs (home_of_mem hs hb.1.1 hb.1.2) (List.all_eq_true.1 hb.2 o ho)
  | nothing error on =>
    cases error
    · exact fun p K k h => h p K (fun _ h => h) (by simp)
    · exact fun p K k h => piece_lm _ _ _ on p K k h

theorem piece_add (d : Depl) (r : Nat) (on : Bool) (c : Comp) :
    Piece d .main true (add r on c) (if known c then [c] else []) := by
  unfold add
  split
  · intro p K k h
    exact ⟨.inl ⟨rfl, by simp⟩, .inl ⟨rfl, by simp⟩, .inl ⟨rfl, by simp⟩, .inl rfl, .inl ⟨rfl, by simp⟩,
      h p (c :: K) (fun _ h => List.mem_cons_of_mem _ h) (by simp)⟩
  · exact piece_lm _ _ _ on

theorem piece_construct (d : Depl) (on : Bool) (cs : List Comp) (r : Nat) :
    Piece d .main true (construct on cs r) (cs.filter known) := by
  refine piece_weaken (piece_append (A := []) (B := cs.flatMap fun c => if known c then [c] else []) ?_
    (piece_flatMap fun c _ => piece_add d r on c)) ?_
  · exact fun p K k h => ⟨.inl ⟨rfl, by simp⟩, .inl ⟨rfl, by simp⟩, .inl ⟨rfl, by simp⟩, h p K (fun _ h => h) (by simp)⟩
  · intro c hc
    simp only [List.nil_append, List.mem_flatMap]
    rw [List.mem_filter] at hc
    exact ⟨c, hc.1, by simp [hc.2]⟩

theorem piece_setup (d : Depl) (on : Bool) : Piece d .main true (setup d on) (d.reactors.flatMap fun r => (d.comps.getD r []).filter known) :=
  piece_flatMap fun r _ => piece_construct d on _ r

theorem home_in_setup {d : Depl} {c : Comp} (h : d.home c ≠ none) :
    c ∈ d.reactors.flatMap fun r => (d.comps.getD r []).filter known := by
  simp only [Depl.home] at h
  split at h
  · rename_i hk
    cases hf : d.comps.findIdx? (·.contains c) with
    | none => exact absurd hf h
    | some r =>
      rw [List.findIdx?_eq_some_iff_getElem] at hf
      obtain ⟨hr, hc, -⟩ := hf
      rw [List.mem_flatMap]
      refine ⟨r, by simpa [Depl.reactors] using hr, ?_⟩
      rw [List.mem_filter]
      exact ⟨by simpa [List.getD, List.getElem?_eq_getElem hr] using hc, hk⟩
  · exact absurd rfl h

/-- The rest of `main`. -/
theorem chk_rest {d : Depl} (hs : Sound d) (full on : Bool) (p e : Bool) (K : List Comp) :
    Chk d .main e none p K (serve d full on ++ teardown d) := by
  have hst : ∀ (rs : List Nat) (p : Bool) (K : List Comp) (k : List Instr), Chk d .main e none p K k →
      Chk d .main e none p K (rs.map (fun r => Instr.ev (.store r)) ++ k) := by
    intro rs
    induction rs with
    | nil => exact fun _ _ _ h => h
    | cons r rs ih => exact fun p K k h => ih p K k h
  have hdel : ∀ (cs : List Comp) (p : Bool) (K : List Comp) (k : List Instr), Chk d .main e none p K k →
      Chk d .main e none p K (cs.map (fun c => Instr.ev (.del (.comp c))) ++ k) := by
    intro cs
    induction cs with
    | nil => exact fun _ _ _ h => h
    | cons c cs ih => exact fun p K k h => ih p K k h
  have hjoin : ∀ (r : Nat) (is : List Nat) (p : Bool) (K : List Comp) (k : List Instr), Chk d .main e none p K k →
      Chk d .main e none p K (is.map (fun i => Instr.ev (.join (.worker r i))) ++ k) := by
    intro r is
    induction is with
    | nil => exact fun _ _ _ h => h
    | cons i is ih => exact fun p K k h => ⟨rfl, ih p K k h⟩
  have hdes : ∀ (rs : List Nat) (p : Bool) (K : List Comp), Chk d .main e none p K (rs.flatMap (destroy d.threads)) := by
    intro rs
    induction rs with
    | nil => exact fun _ _ => rfl
    | cons r rs ih =>
      intro p K
      simp only [List.flatMap_cons, destroy, List.append_assoc]
      exact hjoin r _ p K _ (ih p K)
  have htd : ∀ (p : Bool) (K : List Comp), Chk d .main e none p K (teardown d) := by
    intro p K
    simp only [teardown, List.append_assoc]
    exact hdel _ p K _ (hdes _ p K)
  unfold serve
  rw [List.append_assoc]
  refine piece_append (A := []) (B := []) (piece_send .main e full on hs.controller) (piece_send .main e full on hs.controller) p K _ ?_
  intro q L _ _
  exact hst _ q L _ (htd q L)

/-- The threads that code creates, in order. -/
def forksOf (k : List Instr) : List Tid := k.filterMap fun | .ev (.fork t) => some t | _ => none

theorem mem_forksOf {k : List Instr} {t : Tid} : Instr.ev (.fork t) ∈ k ↔ t ∈ forksOf k := by
  simp only [forksOf, List.mem_filterMap]
  constructor
  · exact fun h => ⟨_, h, rfl⟩
  · rintro ⟨x, hx, h⟩
    split at h <;> simp at h
    subst h; exact hx

theorem forksOf_append (a b : List Instr) : forksOf (a ++ b) = forksOf a ++ forksOf b := by simp [forksOf]

theorem forksOf_lm (on : Bool) : forksOf (lm on) = [] := by cases on <;> rfl

theorem forksOf_send (d : Depl) (t : MsgType) (full on : Bool) : forksOf (managerSend d t full on) = [] := by
  unfold managerSend
  cases d.home (dest t) with
  | none => simpa [forksOf] using forksOf_lm on
  | some r => cases full <;> cases on <;> rfl

theorem forksOf_flatMap_nil {α : Type} {f : α → List Instr} {xs : List α} (h : ∀ x ∈ xs, forksOf (f x) = []) :
    forksOf (xs.flatMap f) = [] := by
  induction xs with
  | nil => rfl
  | cons x xs ih =>
    rw [List.flatMap_cons, forksOf_append, h x List.mem_cons_self, ih fun y hy => h y (List.mem_cons_of_mem _ hy)]; rfl

theorem forksOf_map_nil {α : Type} {f : α → Ev} {xs : List α} (h : ∀ x t, f x ≠ .fork t) :
    forksOf (xs.map fun x => Instr.ev (f x)) = [] := by
  induction xs with
  | nil => rfl
  | cons x xs ih =>
    simp only [forksOf, List.map_cons] at ih ⊢
    rw [List.filterMap_cons]
    split
    · exact ih
    · rename_i t heq
      split at heq
      · rename_i h'
        simp only [Instr.ev.injEq] at h'
        exact absurd h' (h x _)
      · cases heq

theorem forksOf_op (d : Depl) (r : Nat) (c : Comp) (o : Op) : forksOf (o.code d r c) = [] := by
  cases o with
  | log on => exact forksOf_lm on
  | own w => cases w <;> rfl
  | pool w => cases w <;> rfl
  | pointer => rfl
  | send t full on => exact forksOf_send d t full on

theorem forksOf_block (d : Depl) (r : Nat) (b : Block) : forksOf (b.code d r) = [] := by
  cases b with
  | messages ms empty on =>
    simp only [Block.code, forksOf_append]
    rw [forksOf_flatMap_nil]
    · cases empty
      · rfl
      · simpa [forksOf_append, storage, forksOf] using forksOf_lm on
    · intro m _
      cases m with
      | none => simpa [handle, forksOf_append, storage, forksOf] using forksOf_lm on
      | some x =>
        obtain ⟨c, ops⟩ := x
        simp only [handle, forksOf_append]
        rw [forksOf_flatMap_nil fun o _ => forksOf_op d r c o]
        rfl
  | fd c ops =>
    simp only [Block.code, forksOf_append]
    rw [forksOf_flatMap_nil fun o _ => forksOf_op d r c o]
    rfl
  | nothing error on =>
    cases error
    · rfl
    · simpa [Block.code, forksOf] using forksOf_lm on

theorem forksOf_rest (d : Depl) (full on : Bool) : forksOf (serve d full on ++ teardown d) = [] := by
  simp only [serve, teardown, forksOf_append, forksOf_send]
  rw [forksOf_map_nil (by simp), forksOf_map_nil (by simp), forksOf_flatMap_nil]
  · rfl
  · intro r _
    simp only [destroy, forksOf_append]
    rw [forksOf_map_nil (by simp)]
    rfl

theorem chk_starts {d : Depl} (hs : Sound d) {p : Bool} {k : List Instr} {K : List Comp} (hK : ∀ c, d.home c ≠ none → c ∈ K)
    (hf : forksOf k = []) (hk : ∀ e q, Chk d .main e none q K k) : ∀ (rs : List Nat), rs.Nodup → ∀ e, 
    Chk d .main e none p K ((rs.flatMap fun r => (List.range d.threads).flatMap fun i => start r i) ++ k) := by
  have h01 : d.threads = 0 ∨ d.threads = 1 := by have := hs.one; omega
  intro rs
  induction rs with
  | nil => exact fun _ e => hk e p
  | cons r rs ih =>
    intro hn e
    have hn' := List.nodup_cons.1 hn
    rcases h01 with h | h
    · simp only [h, List.range_zero, List.flatMap_nil, List.flatMap_cons, List.nil_append] at ih ⊢
      exact ih hn'.2 e
    · simp only [h, List.flatMap_cons, show List.range 1 = [0] from rfl, List.flatMap_nil, List.append_nil, List.append_assoc] at ih ⊢
      refine ⟨.inr rfl, rfl, ⟨r, rfl⟩, rfl, ?_, hK, .inr rfl, ih hn'.2 false⟩
      rw [mem_forksOf]
      have : forksOf ((rs.flatMap fun r => start r 0) ++ k) = rs.map fun r => Tid.worker r 0 := by
        rw [forksOf_append, hf, List.append_nil]
        clear ih hn hn'
        induction rs with
        | nil => rfl
        | cons r rs ih => rw [List.flatMap_cons, forksOf_append, ih]; rfl
      intro hm
      have hm' : Tid.worker r 0 ∈ forksOf ((rs.flatMap fun r => start r 0) ++ k) := by
        simpa [forksOf] using hm
      rw [this, List.mem_map] at hm'
      obtain ⟨x, hx, hxr⟩ := hm'
      cases hxr
      exact hn'.1 hx

theorem chk_main {d : Depl} (hs : Sound d) (full on : Bool) : Chk d .main true none false [] (mainCode d full on) := by
  unfold mainCode
  rw [List.append_assoc, List.append_assoc]
  refine piece_setup d on false [] _ fun q L _ hA => ?_
  exact chk_starts hs (fun c hc => hA c (home_in_setup hc)) (forksOf_rest d full on) (fun e q => chk_rest hs full on q e L)
    d.reactors List.nodup_range true

/-! ## Executions keep the invariant -/

theorem inv_init {d : Depl} (hs : Sound d) (full on : Bool) : Inv d (init d full on) := by
  have hcode : ∀ t k, (init d full on).code t = some k → t = .main ∧ k = mainCode d full on := by
    intro t k h
    simp only [init] at h
    split at h
    · rename_i ht; cases h; exact ⟨ht, rfl⟩
    · cases h
  have hempty : ∀ (i : Nat) (x : Tid × Ev), (init d full on).trace[i]? ≠ some x := by simp [init]
  refine ⟨⟨?_, ?_, ?_, ?_, ?_⟩, ?_, ?_, ?_, ?_, ?_, ?_⟩
  · intro i j t u e f l v w _ hi; exact absurd hi (hempty _ _)
  · intro i t e l w hi; exact absurd hi (hempty _ _)
  · intro i t e w hi; exact absurd hi (hempty _ _)
  · intro f u t hi; exact absurd hi (hempty _ _)
  · intro i r k e hi; exact absurd hi (hempty _ _)
  · intro i u hi; exact absurd hi (hempty _ _)
  · intro t k h
    obtain ⟨rfl, rfl⟩ := hcode t k h
    exact ⟨true, none, false, [], fun _ => ⟨rfl, fun f u v => hempty _ _⟩, by simp [init], by simp, by simp, chk_main hs full on⟩
  · intro t k h; exact .inl (hcode t k h).1
  · intro t _ m; simp [init]
  · intro t k v h hv
    obtain ⟨rfl, rfl⟩ := hcode t k h
    refine ⟨rfl, ?_⟩
    simp only [init]
    split
    · rename_i hm
      subst hm
      have := chk_main hs full on
      exfalso
      rw [mem_forksOf] at hv
      have hall : ∀ v ∈ forksOf (mainCode d full on), v ≠ .main := by
        simp only [mainCode, List.append_assoc]
        rw [forksOf_append, forksOf_append, forksOf_rest, List.append_nil]
        have h0 : forksOf (setup d on) = [] := by
          refine forksOf_flatMap_nil fun r _ => ?_
          simp only [construct, forksOf_append]
          rw [forksOf_flatMap_nil]
          · rfl
          · intro c _
            unfold add
            split
            · rfl
            · exact forksOf_lm on
        rw [h0, List.nil_append]
        intro v hv
        rw [← mem_forksOf] at hv
        simp only [starts, List.mem_flatMap, start] at hv
        obtain ⟨r, _, i, _, hv⟩ := hv
        simp at hv
        subst hv; simp
      exact hall _ hv rfl
    · rfl
  · intro f u v hi; exact absurd hi (hempty _ _)

theorem inv_round {d : Depl} (hs : Sound d) {s : St} {r i : Nat} {b : Block} (hi : Inv d s)
    (hc : s.code (.worker r i) = some []) (hb : b.fits d r = true) :
    Inv d { s with code := upd s.code (.worker r i) (some (b.code d r)) } := by
  have hi0 : i = 0 := by
    rcases hi.born _ _ hc with h | ⟨f, hf⟩
    · cases h
    · obtain ⟨-, r', h⟩ := hi.ti.forks f _ _ hf
      cases h; rfl
  subst hi0
  refine ⟨hi.ti, hi.pub, ?_, ?_, ?_, ?_, hi.keys⟩
  · intro u k hu
    by_cases hut : u = .worker r 0
    · subst hut
      simp only [upd_same, Option.some.injEq] at hu
      subst hu
      obtain ⟨e, h, p, K, -, h2, -, -, h5⟩ := hi.thr _ _ hc
      cases h5
      refine ⟨false, none, false, [], by simp, h2, by simp, by simp, ?_⟩
      have := piece_block hs hb false [] [] fun q L _ _ => rfl
      rwa [List.append_nil] at this
    · simp only [upd_other _ _ hut] at hu
      exact hi.thr u k hu
  · intro u k hu
    by_cases hut : u = .worker r 0
    · subst hut; exact hi.born _ _ hc
    · simp only [upd_other _ _ hut] at hu
      exact hi.born u k hu
  · intro u hu
    by_cases hut : u = .worker r 0
    · subst hut; simp [upd_same] at hu
    · simp only [upd_other _ _ hut] at hu
      exact hi.idle u hu
  · intro u k v hu hv
    by_cases hut : u = .worker r 0
    · subst hut
      simp only [upd_same, Option.some.injEq] at hu
      subst hu
      rw [mem_forksOf, forksOf_block] at hv
      cases hv
    · simp only [upd_other _ _ hut] at hu
      obtain ⟨h1, h2⟩ := hi.fresh u k v hu hv
      refine ⟨h1, ?_⟩
      have : v ≠ .worker r 0 := by rintro rfl; rw [hc] at h2; cases h2
      simpa only [upd_other _ _ this] using h2

theorem inv_exit {d : Depl} {s : St} {t : Tid} (hi : Inv d s) (hc : s.code t = some []) :
    Inv d { s with code := upd s.code t none, ended := upd s.ended t true } := by
  refine ⟨hi.ti, hi.pub, ?_, ?_, ?_, ?_, hi.keys⟩
  · intro u k hu
    by_cases hut : u = t
    · subst hut; simp [upd_same] at hu
    · simp only [upd_other _ _ hut] at hu
      exact hi.thr u k hu
  · intro u k hu
    by_cases hut : u = t
    · subst hut; simp [upd_same] at hu
    · simp only [upd_other _ _ hut] at hu
      exact hi.born u k hu
  · intro u hu m
    by_cases hut : u = t
    · subst hut
      obtain ⟨e, h, p, K, -, h2, -, -, h5⟩ := hi.thr _ _ hc
      cases h5
      exact fun hm => by simpa using (h2 m).1 hm
    · simp only [upd_other _ _ hut] at hu
      exact hi.idle u hu m
  · intro u k v hu hv
    by_cases hut : u = t
    · subst hut; simp [upd_same] at hu
    · simp only [upd_other _ _ hut] at hu
      obtain ⟨h1, h2⟩ := hi.fresh u k v hu hv
      refine ⟨h1, ?_⟩
      by_cases hvt : v = t
      · subst hvt; simp [upd_same]
      · simpa only [upd_other _ _ hvt] using h2

theorem inv_step {d : Depl} (hs : Sound d) {s s' : St} {a : Act} (hi : Inv d s) (h : step d s a = some s') : Inv d s' := by
  cases a with
  | round r i b =>
    simp only [step] at h
    split at h
    · rename_i hc
      split at h
      · rename_i hb
        cases h
        exact inv_round hs hi hc hb
      · cases h
    · cases h
  | exit t =>
    simp only [step] at h
    split at h
    · rename_i hc
      cases h
      exact inv_exit hi hc
    · cases h
  | run t =>
    simp only [step] at h
    split at h
    · rename_i m k hc
      split at h
      · rename_i hm
        cases h
        exact inv_lock hi hc hm
      · cases h
    · rename_i m k hc
      cases h
      exact inv_unlock hi hc
    · rename_i v k hc
      cases h
      exact inv_fork hi hc
    · rename_i v k hc
      split at h
      · cases h
        obtain ⟨e, h, p, K, h1, h2, h3, h4, h5, h6⟩ := hi.thr t _ hc
        exact inv_event hi hc (by simp) (by simp) (by simp) h1 h2 h3 h4 (by simp [Ev.plain]) h6
      · cases h
    · rename_i x k n1 n2 n3 n4 hc
      cases h
      obtain ⟨e, h, p, K, h1, h2, h3, h4, h5⟩ := hi.thr t _ hc
      cases x with
      | rd l =>
        exact inv_event hi hc (by simp) (by simp) (by simp) h1 h2 h3 h4
          (fun l' w hp => by simp only [Ev.plain, Option.some.injEq, Prod.mk.injEq] at hp; obtain ⟨rfl, rfl⟩ := hp; exact h5.1) h5.2
      | wr l =>
        refine inv_event hi hc (by simp) (by simp) ?_ h1 h2 h3 h4
          (fun l' w hp => by simp only [Ev.plain, Option.some.injEq, Prod.mk.injEq] at hp; obtain ⟨rfl, rfl⟩ := hp; exact h5.1) h5.2
        rintro ⟨rfl⟩
        rcases h5.1 with h | h
        · exact h.2 rfl
        · cases h.1
      | lock m => exact absurd rfl (n1 m)
      | unlock m => exact absurd rfl (n2 m)
      | fork v => exact absurd rfl (n3 v)
      | join v => exact absurd rfl (n4 v)
      | publish => exact h5.1.elim
      | pass => exact h5.1.elim
      | del l => exact inv_event hi hc (by simp) (by simp) (by simp) h1 h2 h3 h4 (by simp [Ev.plain]) h5
      | store r => exact inv_event hi hc (by simp) (by simp) (by simp) h1 h2 h3 h4 (by simp [Ev.plain]) h5
      | load r => exact inv_event hi hc (by simp) (by simp) (by simp) h1 h2 h3 h4 (by simp [Ev.plain]) h5
    · rename_i k hc
      split at h
      · rename_i hn
        cases h
        exact inv_pass hi hc hn
      · rename_i hn
        cases h
        exact inv_once hi hc (by simpa using hn)
    · rename_i c k hc
      split at h
      · cases h
        obtain ⟨e, h, p, K, h1, h2, h3, h4, h5, h6⟩ := hi.thr t _ hc
        exact inv_event hi hc (by simp) (by simp) (by simp) h1 h2 h3 (K := c :: K)
          (fun x hx => by rcases List.mem_cons.1 hx with rfl | hx; assumption; exact h4 x hx)
          (fun l' w hp => by simp only [Ev.plain, Option.some.injEq, Prod.mk.injEq] at hp; obtain ⟨rfl, rfl⟩ := hp; exact .inr rfl) h6
      · rename_i hn
        cases h
        exact inv_insert hi hc hn
    · cases h

theorem inv_exec {d : Depl} (hs : Sound d) {s s' : St} {as : List Act} (hi : Inv d s) (h : exec d s as = some s') : Inv d s' := by
  induction as generalizing s with
  | nil => cases h; exact hi
  | cons a as ih =>
    simp only [exec, Option.bind_eq_some_iff] at h
    obtain ⟨s1, h1, h2⟩ := h
    exact ih (inv_step hs hi h1) h2

/-! ## Property C72 -/

/-- The messages that are sent at all: every type but `MsgDetectorInitReq`, which nothing in src/app sends. -/
def sentTypes : List MsgType :=
  [.controllerStartReq, .controllerStopReq, .connectorInitReq, .connectorInitRsp, .detectorInitRsp, .modbusInitReq,
   .modbusInitRsp, .modbusReleaseReq, .modbusReleaseRsp, .modbusConfigReq, .modbusConfigRsp, .modbusClientAduReq,
   .modbusClientAduRsp, .modbusAduReq, .modbusAduRsp, .uaTransportInitReq, .uaTransportInitRsp, .uaTransportReleaseReq,
   .uaTransportReleaseRsp, .uaTransportConfigReq, .uaTransportConfigRsp, .uaSecuredMessageSendReq,
   .uaSecuredMessageReceiveInd, .uaConnectionReleaseReq, .uaConnectionReleaseInd, .uaSecureChannelInitReq,
   .uaSecureChannelInitRsp, .uaSecureChannelReleaseReq, .uaSecureChannelReleaseRsp, .uaSecureChannelConfigReq,
   .uaSecureChannelConfigRsp, .uaOpenSecureChannelReq, .uaOpenSecureChannelRsp, .uaCloseSecureChannelReq,
   .uaCloseSecureChannelRsp, .uaAssociateSecureChannelReq, .uaServiceInitReq, .uaServiceInitRsp, .uaServiceReleaseReq,
   .uaServiceReleaseRsp, .uaServiceConfigReq, .uaServiceConfigRsp, .uaEncodedMessageSendReq, .uaEncodedMessageReceiveInd]

/-- The deployment of `main` (main.cpp:16, Deployer.cpp:31-38) -/
def cpu3 : Depl := ⟨Routing.cpu3, 1, sentTypes⟩

/-- The other deployment (Deployer.cpp:26-30) -/
def default : Depl := ⟨[[.connector, .detector, .controller]], 1, sentTypes⟩

/-- The first deployment with two threads for each reactor, which `Container` allows (Container.hpp:10-15). -/
def cpu3Twice : Depl := ⟨Routing.cpu3, 2, sentTypes⟩

theorem sound_cpu3 : Sound cpu3 := ⟨by decide, by decide, by decide, by decide⟩

/-- **C72.** Threads share memory without races, up to the end of the program: in every execution of a deployment with one thread for
each reactor, no component twice, and messages only to components that are there, any two conflicting accesses are ordered by happens
before, unless one of them is the destruction of the object.  Missing: the destructions, see `C72_destruction_violated`. -/
theorem C72_no_race_partial {d : Depl} (hs : Sound d) (full on : Bool) (as : List Act) (s : St)
    (hr : exec d (init d full on) as = some s) (i j : Nat) (h : Races s.trace i j) :
    ∃ l t, s.trace[i]? = some (t, .del l) ∨ s.trace[j]? = some (t, .del l) := by
  obtain ⟨hij, ⟨⟨t, e⟩, ⟨u, f⟩, hi, hj, htu, l, v, w, hv, hw, hvw⟩, hnb⟩ := h
  have hti := (inv_exec hs (inv_init hs full on) hr).ti
  simp only at htu hv hw
  cases e <;> simp only [Ev.access, Option.some.injEq, Prod.mk.injEq, reduceCtorEq] at hv
  case del l => exact ⟨l, t, .inl hi⟩
  all_goals
    cases f <;> simp only [Ev.access, Option.some.injEq, Prod.mk.injEq, reduceCtorEq] at hw
    case del l => exact ⟨l, u, .inr hj⟩
    all_goals
      obtain ⟨rfl, rfl⟩ := hv
      obtain ⟨rfl, rfl⟩ := hw
      first
        | simp at hvw; done
        | exact absurd (hti.ordered i j t u _ _ _ _ _ hij hi hj htu rfl rfl hvw) hnb

/-- **C72.** The deployment `main` uses is such a deployment. -/
theorem C72_deployed (full on : Bool) (as : List Act) (s : St) (hr : exec cpu3 (init cpu3 full on) as = some s) (i j : Nat)
    (h : Races s.trace i j) : ∃ l t, s.trace[i]? = some (t, .del l) ∨ s.trace[j]? = some (t, .del l) :=
  C72_no_race_partial sound_cpu3 full on as s hr i j h

/-- **C72.** No deadlock by mutexes: who holds a mutex another thread waits for can always go on, and holds no other one. -/
theorem C72_no_deadlock {d : Depl} (hs : Sound d) (full on : Bool) (as : List Act) (s : St)
    (hr : exec d (init d full on) as = some s) (t u : Tid) (m : Mutex) (k : List Instr)
    (ht : s.code t = some (.ev (.lock m) :: k)) (hm : s.locks m = some u) :
    u ≠ t ∧ (step d s (.run u)).isSome = true ∧ ∀ m', s.locks m' = some u → m' = m := by
  have hi := inv_exec hs (inv_init hs full on) hr
  have hut : u ≠ t := by
    rintro rfl
    obtain ⟨e, h, p, K, -, h2, -, -, h5, -⟩ := hi.thr u _ ht
    have := (h2 m).1 hm
    rw [h5] at this; cases this
  cases hc : s.code u with
  | none => exact absurd hm (hi.idle u hc m)
  | some k' =>
    obtain ⟨e, h, p, K, -, h2, -, -, h5⟩ := hi.thr u _ hc
    have hh := (h2 m).1 hm
    subst hh
    refine ⟨hut, ?_, fun m' hm' => by have := (h2 m').1 hm'; cases this; rfl⟩
    cases k' with
    | nil => cases h5
    | cons x k' =>
      simp only [step, hc]
      cases x with
      | once => simp only; split <;> rfl
      | find c => simp only; split <;> rfl
      | ev y =>
        cases y with
        | lock m' => exact absurd h5.1 (by simp)
        | join v => exact absurd h5.1 (by simp)
        | _ => rfl

/-! ## Violations -/

/-- A step of happens before, decided. -/
def edgeB (x y : Tid × Ev) : Bool :=
  x.1 == y.1 || match x.2, y.2 with
    | .unlock m, .lock m' => m == m'
    | .store r, .load r' => r == r'
    | .publish, .pass => true
    | .fork u, .join v => u == y.1 || x.1 == v
    | .fork u, _ => u == y.1
    | _, .join v => x.1 == v
    | _, _ => false

theorem edgeB_of_edge {tr : List (Tid × Ev)} {i j : Nat} (h : Edge tr i j) :
    ∃ x y, tr[i]? = some x ∧ tr[j]? = some y ∧ edgeB x y = true := by
  cases h with
  | order t e f hi hj => exact ⟨_, _, hi, hj, by simp [edgeB]⟩
  | mutex t u m hi hj => exact ⟨_, _, hi, hj, by simp [edgeB]⟩
  | fork t u e hi hj => exact ⟨_, _, hi, hj, by cases e <;> simp [edgeB]⟩
  | join t u e hi hj => exact ⟨_, _, hi, hj, by cases e <;> simp [edgeB]⟩
  | flag t u r hi hj => exact ⟨_, _, hi, hj, by simp [edgeB]⟩
  | once t u hi hj => exact ⟨_, _, hi, hj, by simp [edgeB]⟩

/-- Events `i` and `j` race if a set of events that has `i` and not `j` is closed under the steps of happens before. -/
def racesB (tr : List (Tid × Ev)) (i j : Nat) (S : Nat → Bool) : Bool :=
  decide (i < j) && S i && !(S j) &&
  (match tr[i]?, tr[j]? with
    | some x, some y => x.1 != y.1 && match x.2.access, y.2.access with
      | some (l, v), some (l', w) => l == l' && (v || w)
      | _, _ => false
    | _, _ => false) &&
  (List.range tr.length).all fun a => !(S a) || (List.range tr.length).all fun b => S b || !(decide (a < b)) ||
    match tr[a]?, tr[b]? with
      | some x, some y => !(edgeB x y)
      | _, _ => true

theorem races_of {tr : List (Tid × Ev)} {i j : Nat} {S : Nat → Bool} (h : racesB tr i j S = true) : Races tr i j := by
  simp only [racesB, Bool.and_eq_true, decide_eq_true_eq, Bool.not_eq_true'] at h
  obtain ⟨⟨⟨⟨hij, hSi⟩, hSj⟩, hc⟩, hcl⟩ := h
  refine ⟨hij, ?_, fun hb => ?_⟩
  · split at hc
    · rename_i x y hx hy
      simp only [Bool.and_eq_true, bne_iff_ne] at hc
      refine ⟨x, y, hx, hy, hc.1, ?_⟩
      have hc := hc.2
      split at hc
      · rename_i l v l' w hl hl'
        simp only [Bool.and_eq_true, beq_iff_eq] at hc
        obtain ⟨rfl, hvw⟩ := hc
        exact ⟨l, v, w, hl, hl', hvw⟩
      · cases hc
    · cases hc
  · have hclosed : ∀ a b, a < b → Edge tr a b → S a = true → S b = true := by
      intro a b hab he hSa
      obtain ⟨x, y, hx, hy, hxy⟩ := edgeB_of_edge he
      have h1 := List.all_eq_true.1 hcl a (List.mem_range.2 (get_lt hx))
      simp only [hSa, Bool.not_true, Bool.false_or] at h1
      have h2 := List.all_eq_true.1 h1 b (List.mem_range.2 (get_lt hy))
      simpa [hx, hy, hab, hxy] using h2
    have := before_closed (S := fun n => S n = true) hclosed hb hSi
    rw [hSj] at this; cases this

/-- The main thread takes `n` steps. -/
def mains (n : Nat) : List Act := List.replicate n (.run .main)

/-- A worker takes `n` steps. -/
def workers (r i n : Nat) : List Act := List.replicate n (.run (.worker r i))

/-- An execution with a race between the events `i` and `j`, which are `x` and `y`. -/
def witness (d : Depl) (as : List Act) (i j : Nat) (S : Nat → Bool) (x y : Tid × Ev) (ok : St → Bool) : Bool :=
  match exec d (init d false false) as with
  | some s => racesB s.trace i j S && s.trace[i]? == some x && s.trace[j]? == some y && ok s
  | none => false

theorem of_witness {d : Depl} {as : List Act} {i j : Nat} {S : Nat → Bool} {x y : Tid × Ev} {ok : St → Bool}
    (h : witness d as i j S x y ok = true) : ∃ s, exec d (init d false false) as = some s ∧ Races s.trace i j ∧
      s.trace[i]? = some x ∧ s.trace[j]? = some y ∧ ok s = true := by
  unfold witness at h
  split at h
  · rename_i s hs
    simp only [Bool.and_eq_true, beq_iff_eq] at h
    exact ⟨s, hs, races_of h.1.1.1, h.1.1.2, h.1.2, h.2⟩
  · cases h

/-- Two threads log at the same time: the thread of `modbus` constructs the logger and holds its mutex, the one of the controller
finds it constructed and waits. -/
def logging : List Act :=
  mains 54 ++ [.round 1 0 (.fd .modbus [.log true]), .round 3 0 (.fd .controller [.log true])] ++ workers 1 0 6 ++ workers 3 0 5

/-- The conflicts of `logging` are there: the construction of the logger (event 62) and the other thread's use of it (event 70), which
is ordered after it.  The thread of the controller waits for the mutex the thread of `modbus` holds. -/
example : ∃ s, exec cpu3 (init cpu3 false false) logging = some s ∧ s.trace[62]? = some (.worker 1 0, .wr .levels) ∧
    s.trace[70]? = some (.worker 3 0, .rd .levels) ∧ Before s.trace 62 70 ∧
    s.code (.worker 3 0) = some [.ev (.lock .log), .ev (.wr .clock), .ev (.unlock .log)] ∧
    s.locks .log = some (.worker 1 0) := by
  have h : (match exec cpu3 (init cpu3 false false) logging with
    | some s => s.trace[62]? == some (.worker 1 0, .wr .levels) && s.trace[70]? == some (.worker 3 0, .rd .levels) &&
        s.trace[63]? == some (.worker 1 0, .publish) && s.trace[69]? == some (.worker 3 0, .pass) &&
        s.code (.worker 3 0) == some [.ev (.lock .log), .ev (.wr .clock), .ev (.unlock .log)] &&
        s.locks .log == some (.worker 1 0)
    | none => false) = true := by decide +kernel
  split at h
  · rename_i s hs
    simp only [Bool.and_eq_true, beq_iff_eq] at h
    obtain ⟨⟨⟨⟨⟨h1, h2⟩, h3⟩, h4⟩, h5⟩, h6⟩ := h
    exact ⟨s, hs, h1, h2, .trans (.edge (by decide) (.order _ _ _ h1 h3)) (.trans (.edge (by decide) (.once _ _ h3 h4))
      (.edge (by decide) (.order _ _ _ h4 h2))), h5, h6⟩
  · cases h

/-- An orderly end: all threads run, both messages are sent, the controller's thread handles them, the reactors are stopped, all
threads see it and end, and only then the controller is destroyed. -/
def orderly : List Act :=
  mains 62 ++ [.round 3 0 (.messages [some (.controller, [.own true]), some (.controller, [.own true])] false false)] ++
    workers 3 0 12 ++ mains 4 ++
    [.round 0 0 (.nothing false false), .round 1 0 (.nothing false false), .round 2 0 (.nothing false false),
     .round 3 0 (.nothing false false), .run (.worker 0 0), .run (.worker 1 0), .run (.worker 2 0), .run (.worker 3 0),
     .exit (.worker 0 0), .exit (.worker 1 0), .exit (.worker 2 0), .exit (.worker 3 0)] ++
    mains 6

/-- **C72 is violated** by the end of the program: the components are destroyed before the threads are joined (ReactorManager.hpp:34-35),
so even if all threads have ended by then nothing orders the last use of a component before its destruction. -/
theorem C72_destruction_violated : ∃ s, exec cpu3 (init cpu3 false false) orderly = some s ∧ Races s.trace 79 93 ∧
    s.trace[79]? = some (.worker 3 0, .wr (.comp .controller)) ∧ s.trace[93]? = some (.main, .del (.comp .controller)) ∧
    (List.range 4).all (fun r => s.ended (.worker r 0)) = true :=
  of_witness (S := fun n => n == 79 || n == 87) (by decide +kernel)

/-- The controller of the other deployment handles its start by a message to the component `modbus`, which is not there, while the
main thread sends the second message. -/
def missing : List Act :=
  mains 22 ++ [.round 0 0 (.messages [some (.controller, [.send .modbusInitReq false false])] false false)] ++ workers 0 0 7 ++ mains 1

/-- **C72 is violated** by the other deployment: a message to a component that is not there inserts its key into the map all threads
read (ReactorManager.cpp:25). -/
theorem C72_missing_component_violated : ∃ s, exec default (init default false false) missing = some s ∧ Races s.trace 32 33 ∧
    s.trace[32]? = some (.worker 0 0, .wr .components) ∧ s.trace[33]? = some (.main, .rd .components) :=
  have ⟨s, h1, h2, h3, h4, _⟩ := of_witness (ok := fun _ => true) (S := fun n => n == 32) (by decide +kernel)
  ⟨s, h1, h2, h3, h4⟩

/-- Two threads of one reactor handle two timers of a component. -/
def twice : List Act :=
  mains 66 ++ [.round 3 0 (.fd .controller [.own true]), .round 3 1 (.fd .controller [.own true])] ++ workers 3 0 3 ++ workers 3 1 3

/-- **C72 is violated** by reactors with two threads: both run handlers of the same components at the same time. -/
theorem C72_two_threads_violated : ∃ s, exec cpu3Twice (init cpu3Twice false false) twice = some s ∧ Races s.trace 74 77 ∧
    s.trace[74]? = some (.worker 3 0, .wr (.comp .controller)) ∧ s.trace[77]? = some (.worker 3 1, .wr (.comp .controller)) :=
  have ⟨s, h1, h2, h3, h4, _⟩ := of_witness (ok := fun _ => true) (S := fun n => n == 74) (by decide +kernel)
  ⟨s, h1, h2, h3, h4⟩

end Uscada.Race
