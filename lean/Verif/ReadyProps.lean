import Verif.Ready
import Verif.UaPool
/-!
# C93: who is heard, and who is not

While no exception leaves a handler, every descriptor that is ready is handled within ten turns (`C93_served_partial`).  An exception
makes the loop forget the rest of the batch, for good (`C93_forgotten_violated`).  An acceptor whose handler throws without taking the
connection is reported again in front of everything that arrives later, so nothing is handled any more (`C93_deaf_violated`).
-/

namespace Uscada.Heard

variable {σ ε : Type} {h : Handlers σ ε}

/-! ## The ready list -/

theorem scan_at {bl : Src → Nat} {x : Src} (hx : x.level = true → 0 < bl x) {post : List Src} : ∀ (pre : List Src) (n : Nat),
    x ∈ (scan bl n (pre ++ x :: post)).reported ∨
      ∃ pre', (scan bl n (pre ++ x :: post)).rest = pre' ++ x :: post ∧ pre'.length + n ≤ pre.length
  | pre, 0 => .inr ⟨pre, by cases pre <;> rfl, by omega⟩
  | [], n + 1 => by
    refine .inl ?_
    show x ∈ (scan bl (n + 1) (x :: post)).reported
    rw [scan]
    split
    · rename_i hl
      rw [if_neg (by have := hx hl; omega)]
      exact List.mem_cons_self
    · exact List.mem_cons_self
  | y :: pre, n + 1 => by
    show x ∈ (scan bl (n + 1) (y :: (pre ++ x :: post))).reported ∨
      ∃ pre', (scan bl (n + 1) (y :: (pre ++ x :: post))).rest = pre' ++ x :: post ∧ pre'.length + (n + 1) ≤ (y :: pre).length
    rw [scan]
    have h1 := scan_at hx (post := post) pre (n + 1)
    have h2 := scan_at hx (post := post) pre n
    have hlen : (y :: pre).length = pre.length + 1 := rfl
    split
    · split
      · rcases h1 with h1 | ⟨p, h1, h3⟩
        · exact .inl h1
        · exact .inr ⟨p, h1, by omega⟩
      · rcases h2 with h2 | ⟨p, h2, h3⟩
        · exact .inl (List.mem_cons_of_mem _ h2)
        · exact .inr ⟨p, h2, by omega⟩
    · rcases h2 with h2 | ⟨p, h2, h3⟩
      · exact .inl (List.mem_cons_of_mem _ h2)
      · exact .inr ⟨p, h2, by omega⟩

/-- Somebody did not return as he should. -/
def Trouble (ns : List Note) : Prop := ∃ y, .threw y ∈ ns ∨ .ended y ∈ ns

theorem dispatch_hears {e : Src → ε} {x : Src} : ∀ (b : List Src) (s : σ), x ∈ b →
    .handled x ∈ (dispatch h e s b).notes ∨ Trouble (dispatch h e s b).notes
  | y :: b, s, hx => by
    rw [dispatch]
    split
    · rename_i a s' heq
      rcases List.mem_cons.mp hx with rfl | hx
      · exact .inl (by simp)
      · rcases dispatch_hears (e := e) b s' hx with h1 | ⟨z, h1⟩
        · exact .inl (by simp [h1])
        · refine .inr ⟨z, ?_⟩
          rcases h1 with h1 | h1
          · exact .inl (by simp [h1])
          · exact .inr (by simp [h1])
    · exact .inr ⟨y, .inl (by simp)⟩
    · exact .inr ⟨y, .inr (by simp)⟩

theorem mem_tookNote {b : Bool} {x y : Src} (hm : .took x ∈ tookNote b y) : x = y := by
  cases b
  · cases hm
  · have := List.mem_singleton.mp hm
    cases this
    rfl

theorem dispatch_took {e : Src → ε} {x : Src} : ∀ (b : List Src) (s : σ), .took x ∈ (dispatch h e s b).notes →
    .handled x ∈ (dispatch h e s b).notes ∨ Trouble (dispatch h e s b).notes
  | [], s, hx => by cases hx
  | y :: b, s, hx => by
    revert hx
    rw [dispatch]
    split
    · rename_i a s' heq
      intro hx
      rcases List.mem_append.mp hx with hx | hx
      · cases mem_tookNote hx
        exact .inl (by simp)
      · rcases dispatch_took (e := e) b s' (by simpa using hx) with h1 | ⟨z, h1⟩
        · exact .inl (by simp [h1])
        · refine .inr ⟨z, ?_⟩
          rcases h1 with h1 | h1
          · exact .inl (by simp [h1])
          · exact .inr (by simp [h1])
    · intro _
      exact .inr ⟨y, .inl (by simp)⟩
    · intro _
      exact .inr ⟨y, .inr (by simp)⟩

theorem dispatch_ended {e : Src → ε} : ∀ (b : List Src) (s : σ), (dispatch h e s b).ended = true → Trouble (dispatch h e s b).notes
  | [], s, hx => by cases hx
  | y :: b, s, hx => by
    revert hx
    rw [dispatch]
    split
    · rename_i a s' heq
      intro hx
      obtain ⟨z, h1⟩ := dispatch_ended (e := e) b s' hx
      refine ⟨z, ?_⟩
      rcases h1 with h1 | h1
      · exact .inl (by simp [h1])
      · exact .inr (by simp [h1])
    · intro hx
      cases hx
    · intro _
      exact ⟨y, .inr (by simp)⟩

/-- One turn: a ready descriptor is handled, or ten others in front of it are gone. -/
theorem turn_hears {l : Loop σ} {t : Turn ε} {x : Src} {pre post : List Src} (hl : l.ended = false) (hq : l.ready = pre ++ x :: post)
    (hx : x.level = true → 0 < l.backlog x) (hg : x ∉ t.gone) :
    (.handled x ∈ (turn h l t).2 ∨ Trouble (turn h l t).2) ∨
      ((turn h l t).1.ended = false ∧ (x.level = true → 0 < (turn h l t).1.backlog x) ∧
        ∃ pre' post', (turn h l t).1.ready = pre' ++ x :: post' ∧ pre'.length + 10 ≤ pre.length) := by
  unfold turn
  rw [hl, if_neg (by decide)]
  dsimp only
  have hs := scan_at hx (post := post) pre 10
  rw [← hq] at hs
  rcases hs with hs | ⟨p, hs, hlen⟩
  · exact .inl (dispatch_hears _ _ hs)
  · by_cases hn : .handled x ∈ (dispatch h t.env l.st (scan l.backlog 10 l.ready).reported).notes ∨
        Trouble (dispatch h t.env l.st (scan l.backlog 10 l.ready).reported).notes
    · exact .inl hn
    · refine .inr ⟨?_, ?_, ?_⟩
      · cases he : (dispatch h t.env l.st (scan l.backlog 10 l.ready).reported).ended
        · rfl
        · exact absurd (.inr (dispatch_ended _ _ he)) hn
      · intro hlev
        have h0 : (dispatch h t.env l.st (scan l.backlog 10 l.ready).reported).notes.count (.took x) = 0 :=
          List.count_eq_zero.mpr fun hm => hn (dispatch_took _ _ hm)
        have := hx hlev
        omega
      · unfold requeue
        rw [hs]
        have hsplit : ∀ a b : List Src, ((p ++ x :: post) ++ a ++ b).filter (· ∉ t.gone) =
            p.filter (· ∉ t.gone) ++ x :: (post ++ a ++ b).filter (· ∉ t.gone) := by
          intro a b
          simp [List.filter_append, hg]
        rw [hsplit]
        refine ⟨p.filter (· ∉ t.gone), _, by rw [List.append_assoc, List.cons_append], ?_⟩
        have := List.length_filter_le (· ∉ t.gone) p
        omega

theorem run_hears {x : Src} : ∀ (ts : List (Turn ε)) (l : Loop σ) (pre post : List Src), l.ended = false → l.ready = pre ++ x :: post →
    (x.level = true → 0 < l.backlog x) → (∀ t ∈ ts, x ∉ t.gone) → pre.length < 10 * ts.length →
    .handled x ∈ (run h l ts).2 ∨ Trouble (run h l ts).2
  | [], l, pre, post, _, _, _, _, hlen => by simp at hlen
  | t :: ts, l, pre, post, hl, hq, hx, hg, hlen => by
    have hlen' : pre.length < 10 * (ts.length + 1) := hlen
    show .handled x ∈ (turn h l t).2 ++ (run h (turn h l t).1 ts).2 ∨ Trouble ((turn h l t).2 ++ (run h (turn h l t).1 ts).2)
    have lift : ∀ {a b : List Note}, (.handled x ∈ a ∨ Trouble a) ∨ (.handled x ∈ b ∨ Trouble b) → .handled x ∈ a ++ b ∨ Trouble (a ++ b) := by
      intro a b hab
      simp only [Trouble, List.mem_append] at hab ⊢
      rcases hab with (hab | ⟨y, hab | hab⟩) | (hab | ⟨y, hab | hab⟩)
      · exact .inl (.inl hab)
      · exact .inr ⟨y, .inl (.inl hab)⟩
      · exact .inr ⟨y, .inr (.inl hab)⟩
      · exact .inl (.inr hab)
      · exact .inr ⟨y, .inl (.inr hab)⟩
      · exact .inr ⟨y, .inr (.inr hab)⟩
    rcases turn_hears (h := h) hl hq hx (hg t List.mem_cons_self) with h1 | ⟨h1, h2, p, q, h3, h4⟩
    · exact lift (.inl h1)
    · exact lift (.inr (run_hears ts _ p q h1 h3 h2 (fun t ht => hg t (List.mem_cons_of_mem _ ht)) (by omega)))

/-! ## No descriptor is twice in the list -/

theorem mem_fresh {x : Src} : ∀ {xs seen : List Src}, x ∈ fresh seen xs → x ∈ xs ∧ x ∉ seen
  | [], _, hx => by cases hx
  | y :: xs, seen, hx => by
    rw [fresh] at hx
    split at hx
    · exact ⟨List.mem_cons_of_mem _ (mem_fresh hx).1, (mem_fresh hx).2⟩
    · rename_i hy
      rcases List.mem_cons.mp hx with rfl | hx
      · exact ⟨List.mem_cons_self, hy⟩
      · obtain ⟨h1, h2⟩ := mem_fresh hx
        exact ⟨List.mem_cons_of_mem _ h1, fun hm => h2 (List.mem_cons_of_mem _ hm)⟩

theorem fresh_nodup : ∀ (xs seen : List Src), (fresh seen xs).Nodup
  | [], _ => List.nodup_nil
  | y :: xs, seen => by
    rw [fresh]
    split
    · exact fresh_nodup xs seen
    · refine List.nodup_cons.mpr ⟨fun hm => (mem_fresh hm).2 List.mem_cons_self, fresh_nodup xs (y :: seen)⟩

theorem scan_mem {bl : Src → Nat} {x : Src} : ∀ {q : List Src} {n : Nat}, x ∈ (scan bl n q).again ∨ x ∈ (scan bl n q).rest ∨ x ∈ (scan bl n q).reported → x ∈ q
  | q, 0, hx => by
    cases q
    · simp [scan] at hx
    · simpa [scan] using hx
  | [], n + 1, hx => by simp [scan] at hx
  | y :: q, n + 1, hx => by
    have h1 := @scan_mem bl x q (n + 1)
    have h2 := @scan_mem bl x q n
    rw [scan] at hx
    split at hx
    · split at hx
      · exact List.mem_cons_of_mem _ (h1 hx)
      · rcases hx with hx | hx | hx
        · rcases List.mem_cons.mp hx with rfl | hx
          · exact List.mem_cons_self
          · exact List.mem_cons_of_mem _ (h2 (.inl hx))
        · exact List.mem_cons_of_mem _ (h2 (.inr (.inl hx)))
        · rcases List.mem_cons.mp hx with rfl | hx
          · exact List.mem_cons_self
          · exact List.mem_cons_of_mem _ (h2 (.inr (.inr hx)))
    · rcases hx with hx | hx | hx
      · exact List.mem_cons_of_mem _ (h2 (.inl hx))
      · exact List.mem_cons_of_mem _ (h2 (.inr (.inl hx)))
      · rcases List.mem_cons.mp hx with rfl | hx
        · exact List.mem_cons_self
        · exact List.mem_cons_of_mem _ (h2 (.inr (.inr hx)))

theorem scan_nodup {bl : Src → Nat} : ∀ {q : List Src} {n : Nat}, q.Nodup → (scan bl n q).again.Nodup ∧ (scan bl n q).rest.Nodup ∧
    ∀ x ∈ (scan bl n q).rest, x ∉ (scan bl n q).again
  | q, 0, hq => by
    cases q
    · simp [scan]
    · simpa [scan] using hq
  | [], n + 1, hq => by simp [scan]
  | y :: q, n + 1, hq => by
    obtain ⟨hy, hq⟩ := List.nodup_cons.mp hq
    have h1 := @scan_nodup bl q (n + 1) hq
    have h2 := @scan_nodup bl q n hq
    rw [scan]
    split
    · split
      · exact h1
      · refine ⟨List.nodup_cons.mpr ⟨fun hm => hy (scan_mem (.inl hm)), h2.1⟩, h2.2.1, fun x hx hm => ?_⟩
        rcases List.mem_cons.mp hm with rfl | hm
        · exact hy (scan_mem (.inr (.inl hx)))
        · exact h2.2.2 x hx hm
    · exact h2

theorem requeue_nodup {r : Scan} {early late gone : List Src} (h1 : r.again.Nodup) (h2 : r.rest.Nodup) (h3 : ∀ x ∈ r.rest, x ∉ r.again) :
    (requeue r early late gone).Nodup := by
  unfold requeue
  have h4 : (r.rest ++ fresh (r.rest ++ r.again) early ++ r.again).Nodup := by
    rw [List.nodup_append]
    refine ⟨?_, h1, ?_⟩
    · rw [List.nodup_append]
      refine ⟨h2, fresh_nodup _ _, fun a ha b hb => ?_⟩
      rintro rfl
      exact (mem_fresh hb).2 (List.mem_append_left _ ha)
    · intro a ha b hb
      rintro rfl
      rcases List.mem_append.mp ha with ha | ha
      · exact h3 a ha hb
      · exact (mem_fresh ha).2 (List.mem_append_right _ hb)
  have h5 := h4.filter (· ∉ gone)
  rw [List.nodup_append]
  refine ⟨h5, fresh_nodup _ _, fun a ha b hb => ?_⟩
  rintro rfl
  exact (mem_fresh hb).2 ha

theorem turn_nodup {l : Loop σ} (t : Turn ε) (hl : l.ready.Nodup) : (turn h l t).1.ready.Nodup := by
  unfold turn
  split
  · exact hl
  · obtain ⟨h1, h2, h3⟩ := scan_nodup (bl := l.backlog) (n := 10) hl
    exact requeue_nodup h1 h2 h3

theorem run_nodup : ∀ (ts : List (Turn ε)) {l : Loop σ}, l.ready.Nodup → (run h l ts).1.ready.Nodup
  | [], _, hl => hl
  | t :: ts, _, hl => run_nodup ts (turn_nodup t hl)

/-- A number for each descriptor. -/
def Src.code : Src → Nat
  | .acceptor i => i.val + 1
  | .link i => i.val + 33
  | .timer i => i.val + 65
  | .mailbox => 97

theorem code_inj {x y : Src} (hc : x.code = y.code) : x = y := by
  cases x <;> cases y <;> simp only [Src.code] at hc <;> first | rfl | (exfalso; omega) | (congr 1; omega)

theorem ready_length {q : List Src} (hq : q.Nodup) : q.length ≤ 97 := by
  have h1 : (q.map Src.code).Nodup := by
    rw [List.nodup_iff_pairwise_ne, List.pairwise_map]
    exact hq.imp fun hab hc => hab (code_inj hc)
  have h2 := Ua.Pool.length_le_of_nodup (n := 97) h1 (by
    intro i hi
    obtain ⟨x, -, rfl⟩ := List.mem_map.mp hi
    cases x <;> simp only [Src.code] <;> omega)
  simpa using h2

/-! ## The theorems -/

/-- The part of C93 that holds: in every history of a reactor, a descriptor that is ready (edge-triggered, or an acceptor at which a
connection waits) and is not closed is handled within the next ten turns, whatever else arrives, unless an exception leaves one of the
handlers that run in these turns, or one of them ends the process. -/
theorem C93_served_partial (h : Handlers σ ε) (s : σ) (before ts : List (Turn ε)) (x : Src)
    (hend : (run h (start s) before).1.ended = false) (hx : x ∈ (run h (start s) before).1.ready)
    (hw : x.level = true → 0 < (run h (start s) before).1.backlog x) (hg : ∀ t ∈ ts, x ∉ t.gone) (hlen : ts.length = 10) :
    .handled x ∈ (run h (run h (start s) before).1 ts).2 ∨
      ∃ y, .threw y ∈ (run h (run h (start s) before).1 ts).2 ∨ .ended y ∈ (run h (run h (start s) before).1 ts).2 := by
  have hn : (run h (start s) before).1.ready.Nodup := run_nodup before List.nodup_nil
  obtain ⟨pre, post, hq⟩ := List.append_of_mem hx
  refine run_hears ts _ pre post hend hq hw hg ?_
  have := ready_length hn
  rw [hq] at this
  simp only [List.length_append, List.length_cons] at this
  omega

/-! ## What an exception does -/

theorem dispatch_named {e : Src → ε} {x : Src} : ∀ (b : List Src) (s : σ), .handled x ∈ (dispatch h e s b).notes → x ∈ b
  | [], s, hx => by cases hx
  | y :: b, s, hx => by
    have hno : ∀ c, .handled x ∉ tookNote c y := fun c hm => by cases c <;> simp [tookNote] at hm
    revert hx
    rw [dispatch]
    split
    · rename_i a s' heq
      intro hx
      simp only [List.mem_append, List.mem_cons, hno, false_or] at hx
      rcases hx with hx | hx
      · cases hx
        exact List.mem_cons_self
      · exact List.mem_cons_of_mem _ (dispatch_named (e := e) b s' hx)
    · intro hx
      simp [hno] at hx
    · intro hx
      simp [hno] at hx

theorem dispatch_loses {e : Src → ε} {x y : Src} : ∀ (b1 b2 : List Src) (s : σ), y ∉ b1 → .threw y ∈ (dispatch h e s (b1 ++ y :: b2)).notes → y ∉ b2 →
    x ∈ b2 → .lost x ∈ (dispatch h e s (b1 ++ y :: b2)).notes
  | [], b2, s, _, hy, hy2, hx => by
    have hno : ∀ c z, .threw y ∉ tookNote c z := fun c z hm => by cases c <;> simp [tookNote] at hm
    have hsub : ∀ (b : List Src) (s : σ), y ∉ b → .threw y ∉ (dispatch h e s b).notes := by
      intro b
      induction b with
      | nil => intro s _ hm; cases hm
      | cons z b ih =>
        intro s hb
        have hb' : y ≠ z ∧ y ∉ b := ⟨fun he => hb (he ▸ List.mem_cons_self), fun hm => hb (List.mem_cons_of_mem _ hm)⟩
        rw [dispatch]
        split
        · simpa [hno] using ih _ hb'.2
        · simpa [hno] using hb'.1
        · simp [hno]
    revert hy
    show .threw y ∈ (dispatch h e s (y :: b2)).notes → .lost x ∈ (dispatch h e s (y :: b2)).notes
    rw [dispatch]
    split
    · intro hy
      simp only [List.mem_append, List.mem_cons, hno, false_or] at hy
      rcases hy with hy | hy
      · cases hy
      · exact absurd hy (hsub _ _ hy2)
    · intro _
      simp [hx]
    · intro hy
      simp [hno] at hy
  | z :: b1, b2, s, h1, hy, hy2, hx => by
    have hno : ∀ c z, .threw y ∉ tookNote c z := fun c z hm => by cases c <;> simp [tookNote] at hm
    have hz : y ≠ z := fun he => h1 (he ▸ List.mem_cons_self)
    have h1 : y ∉ b1 := fun hm => h1 (List.mem_cons_of_mem _ hm)
    revert hy
    show .threw y ∈ (dispatch h e s (z :: (b1 ++ y :: b2))).notes → .lost x ∈ (dispatch h e s (z :: (b1 ++ y :: b2))).notes
    rw [dispatch]
    split
    · rename_i a s' heq
      intro hy
      simp only [List.mem_append, List.mem_cons, hno, false_or] at hy
      rcases hy with hy | hy
      · cases hy
      · have := dispatch_loses (e := e) (x := x) b1 b2 s' h1 hy hy2 hx
        simp [this]
    · intro hy
      simp only [List.mem_append, List.mem_cons, hno, false_or, Note.threw.injEq, List.mem_map, reduceCtorEq, and_false, exists_false,
        or_false] at hy
      exact absurd hy hz
    · intro hy
      simp [hno] at hy

/-- An edge-triggered descriptor that is reported is out of the list. -/
theorem reported_out {bl : Src → Nat} {x : Src} (hx : x.level = false) : ∀ {q : List Src} {n : Nat}, q.Nodup →
    x ∈ (scan bl n q).reported → x ∉ (scan bl n q).rest
  | q, 0, _, hm => by
    cases q <;> simp [scan] at hm
  | [], n + 1, _, hm => by simp [scan] at hm
  | y :: q, n + 1, hq, hm => by
    obtain ⟨hy, hq⟩ := List.nodup_cons.mp hq
    have h1 := @reported_out bl x hx q (n + 1) hq
    have h2 := @reported_out bl x hx q n hq
    have h3 := @scan_mem bl x q n
    rw [scan] at hm ⊢
    split
    · rename_i hl
      rw [if_pos hl] at hm
      split
      · rename_i hz
        rw [if_pos hz] at hm
        exact h1 hm
      · rename_i hz
        rw [if_neg hz] at hm
        rcases List.mem_cons.mp hm with rfl | hm
        · rw [hx] at hl
          cases hl
        · exact h2 hm
    · rename_i hl
      rw [if_neg hl] at hm
      rcases List.mem_cons.mp hm with rfl | hm
      · exact fun hr => hy (h3 (.inr (.inl hr)))
      · exact h2 hm

theorem again_level {bl : Src → Nat} {x : Src} (hx : x.level = false) : ∀ {q : List Src} {n : Nat}, x ∉ (scan bl n q).again
  | q, 0 => by cases q <;> simp [scan]
  | [], n + 1 => by simp [scan]
  | y :: q, n + 1 => by
    have h1 := @again_level bl x hx q (n + 1)
    have h2 := @again_level bl x hx q n
    rw [scan]
    split
    · rename_i hl
      split
      · exact h1
      · intro hm
        rcases List.mem_cons.mp hm with rfl | hm
        · rw [hx] at hl
          cases hl
        · exact h2 hm
    · exact h2

theorem requeue_mem {r : Scan} {early late gone : List Src} {x : Src} (hx : x ∈ requeue r early late gone) :
    x ∈ r.rest ∨ x ∈ r.again ∨ x ∈ early ∨ x ∈ late := by
  unfold requeue at hx
  rcases List.mem_append.mp hx with hx | hx
  · have := (List.mem_filter.mp hx).1
    simp only [List.mem_append] at this
    rcases this with (h1 | h1) | h1
    · exact .inl h1
    · exact .inr (.inr (.inl (mem_fresh h1).1))
    · exact .inr (.inl h1)
  · exact .inr (.inr (.inr (mem_fresh hx).1))

theorem quiet_turn {l : Loop σ} {t : Turn ε} {x : Src} (hx : x ∉ l.ready) (h1 : x ∉ t.early) (h2 : x ∉ t.late) :
    x ∉ (turn h l t).1.ready ∧ .handled x ∉ (turn h l t).2 := by
  unfold turn
  split
  · exact ⟨hx, List.not_mem_nil⟩
  · refine ⟨fun hm => ?_, fun hm => hx (scan_mem (.inr (.inr (dispatch_named _ _ hm))))⟩
    rcases requeue_mem hm with hm | hm | hm | hm
    · exact hx (scan_mem (.inr (.inl hm)))
    · exact hx (scan_mem (.inl hm))
    · exact h1 hm
    · exact h2 hm

theorem quiet_run {x : Src} : ∀ (ts : List (Turn ε)) (l : Loop σ), x ∉ l.ready → (∀ t ∈ ts, x ∉ t.early ∧ x ∉ t.late) → .handled x ∉ (run h l ts).2
  | [], _, _, _ => List.not_mem_nil
  | t :: ts, l, hx, hts => by
    obtain ⟨h1, h2⟩ := hts t List.mem_cons_self
    obtain ⟨h3, h4⟩ := quiet_turn (h := h) hx h1 h2
    intro hm
    rcases List.mem_append.mp hm with hm | hm
    · exact h4 hm
    · exact quiet_run ts _ h3 (fun t ht => hts t (List.mem_cons_of_mem _ ht)) hm

theorem scan_reported_nodup {bl : Src → Nat} : ∀ {q : List Src} {n : Nat}, q.Nodup → (scan bl n q).reported.Nodup
  | q, 0, _ => by cases q <;> simp [scan]
  | [], n + 1, _ => by simp [scan]
  | y :: q, n + 1, hq => by
    obtain ⟨hy, hq⟩ := List.nodup_cons.mp hq
    have h1 := @scan_reported_nodup bl q (n + 1) hq
    have h2 := @scan_reported_nodup bl q n hq
    have h3 : y ∉ (scan bl n q).reported := fun hm => hy (scan_mem (.inr (.inr hm)))
    rw [scan]
    split
    · split
      · exact h1
      · exact List.nodup_cons.mpr ⟨h3, h2⟩
    · exact List.nodup_cons.mpr ⟨h3, h2⟩

/-- Violation of C93: when an exception leaves the handler of a descriptor `y`, every descriptor reported behind it is forgotten, and an
edge-triggered one is not handled in any later turn either, until something new arrives for it. -/
theorem C93_forgotten_violated (h : Handlers σ ε) (s : σ) (before : List (Turn ε)) (t : Turn ε) (b1 b2 : List Src) (x y : Src)
    (hb : (scan (run h (start s) before).1.backlog 10 (run h (start s) before).1.ready).reported = b1 ++ y :: b2)
    (hy : .threw y ∈ (turn h (run h (start s) before).1 t).2) (hx : x ∈ b2) :
    .lost x ∈ (turn h (run h (start s) before).1 t).2 ∧
      (x.level = false → x ∉ t.early → x ∉ t.late → ∀ ts : List (Turn ε), (∀ t' ∈ ts, x ∉ t'.early ∧ x ∉ t'.late) →
        .handled x ∉ (run h (turn h (run h (start s) before).1 t).1 ts).2) := by
  have hn : (run h (start s) before).1.ready.Nodup := run_nodup before List.nodup_nil
  have hr := scan_reported_nodup (bl := (run h (start s) before).1.backlog) (n := 10) hn
  generalize (run h (start s) before).1 = l at hb hy hn hr ⊢
  have hr' := hr
  rw [hb] at hr'
  obtain ⟨-, h2, h3⟩ := List.nodup_append.mp hr'
  obtain ⟨h4, -⟩ := List.nodup_cons.mp h2
  have h5 : y ∉ b1 := fun hm => h3 y hm y List.mem_cons_self rfl
  unfold turn at hy ⊢
  split at hy
  · cases hy
  · rename_i he
    rw [if_neg he]
    dsimp only at hy ⊢
    refine ⟨?_, fun hlev h6 h7 ts hts => quiet_run ts _ (fun hm => ?_) hts⟩
    · rw [hb] at hy ⊢
      exact dispatch_loses b1 b2 _ h5 hy h4 hx
    · rcases requeue_mem hm with hm | hm | hm | hm
      · exact reported_out hlev hn (by rw [hb]; exact List.mem_append_right _ (List.mem_cons_of_mem _ hx)) hm
      · exact again_level hlev hm
      · exact h6 hm
      · exact h7 hm

/-! ## A connection that cannot be taken -/

theorem scan_front {bl : Src → Nat} {a : Src} (ha : a.level = true) (hb : 0 < bl a) {q : List Src} (hq : ∀ x ∈ q, x.level = false)
    (hlen : q.length ≤ 9) : scan bl 10 (a :: q) = ⟨a :: q, [a], []⟩ := by
  have hrec : ∀ (q : List Src) (n : Nat), q.length ≤ n → (∀ x ∈ q, x.level = false) → scan bl n q = ⟨q, [], []⟩ := by
    intro q
    induction q with
    | nil => intro n _ _; cases n <;> rfl
    | cons x q ih =>
      intro n hn hx
      cases n with
      | zero => simp at hn
      | succ n =>
        rw [scan, hx x List.mem_cons_self]
        simp only [Bool.false_eq_true, if_false]
        rw [ih n (by simpa using hn) fun y hy => hx y (List.mem_cons_of_mem _ hy)]
  rw [scan, if_pos ha, if_neg (by omega), hrec q 9 hlen hq]

/-- A turn in which nothing comes while the kernel copies the events, at most nine descriptors become ready, and the acceptor `a` stays open;
more connections may come to it. -/
def Usual (a : Src) (t : Turn ε) : Prop := t.early = [] ∧ t.late.length ≤ 9 ∧ (∀ x ∈ t.late, x.level = false ∨ x = a) ∧ a ∉ t.gone

/-- The acceptor stands first, a connection waits there, and at most nine others stand behind. -/
structure Stuck (a : Src) (l : Loop σ) : Prop where
  level : a.level = true
  live : l.ended = false
  waits : 0 < l.backlog a
  first : ∃ q, l.ready = a :: q ∧ q.length ≤ 9 ∧ ∀ x ∈ q, x.level = false

theorem fresh_length : ∀ (xs seen : List Src), (fresh seen xs).length ≤ xs.length
  | [], _ => Nat.le_refl _
  | y :: xs, seen => by
    rw [fresh]
    have h1 := fresh_length xs seen
    have h2 := fresh_length xs (y :: seen)
    split <;> simp only [List.length_cons] <;> omega

theorem stuck_turn {a : Src} {l : Loop σ} {s : σ} {t : Turn ε} (hl : Stuck a l) (ht : Usual a t)
    (hthrow : h.react l.st a (t.env a) = (.throws, s) ∧ h.takes l.st a (t.env a) = false) :
    Stuck a (turn h l t).1 ∧ (turn h l t).1.st = s ∧ (turn h l t).1.ready = a :: fresh [a] t.late ∧
      (turn h l t).2 = .threw a :: l.ready.tail.map .lost := by
  obtain ⟨q, hq, hlen, hedge⟩ := hl.first
  obtain ⟨h1, h2, h3, h4⟩ := ht
  have hs : scan l.backlog 10 l.ready = ⟨a :: q, [a], []⟩ := by rw [hq]; exact scan_front hl.level hl.waits hedge hlen
  have hd : dispatch h t.env l.st (a :: q) = ⟨s, false, .threw a :: q.map .lost⟩ := by
    rw [dispatch, hthrow.1]
    simp [hthrow.2, tookNote]
  have hr : requeue ⟨a :: q, [a], []⟩ t.early t.late t.gone = a :: fresh [a] t.late := by
    unfold requeue
    rw [h1]
    simp [fresh, h4]
  have hcount : (Note.threw a :: q.map Note.lost).count (.took a) = 0 := by
    refine List.count_eq_zero.mpr fun hm => ?_
    simp at hm
  unfold turn
  rw [hl.live, if_neg (by decide)]
  dsimp only
  rw [hs]
  dsimp only
  rw [hd, hr]
  refine ⟨⟨hl.level, rfl, ?_, fresh [a] t.late, rfl, ?_, ?_⟩, rfl, rfl, by rw [hq]; rfl⟩
  · have := hl.waits
    show 0 < l.backlog a - (Note.threw a :: q.map Note.lost).count (.took a) + _
    omega
  · have := fresh_length t.late [a]
    omega
  · intro x hx
    obtain ⟨h5, h6⟩ := mem_fresh hx
    rcases h3 x h5 with h7 | h7
    · exact h7
    · exact absurd (by rw [h7]; exact List.mem_cons_self) h6

/-- Violation of C93: when the handler of an acceptor throws without taking the connection, and would do so again, it does so in every turn from now
on.  No other handler is called any more, whatever arrives (data, timers, messages), and nothing changes. -/
theorem C93_deaf_violated (h : Handlers σ ε) (a : Src) : ∀ (ts : List (Turn ε)) (l : Loop σ), Stuck a l → (∀ t ∈ ts, Usual a t) →
    (∀ e, h.react l.st a e = (.throws, l.st) ∧ h.takes l.st a e = false) →
    Stuck a (run h l ts).1 ∧ (run h l ts).1.st = l.st ∧ (∀ x, .handled x ∉ (run h l ts).2) ∧ (run h l ts).2.count (.threw a) = ts.length
  | [], l, hl, _, _ => ⟨hl, rfl, fun _ => List.not_mem_nil, rfl⟩
  | t :: ts, l, hl, hts, hthrow => by
    obtain ⟨h1, h2, -, h4⟩ := stuck_turn (h := h) hl (hts t List.mem_cons_self) (hthrow _)
    obtain ⟨h5, h6, h7, h8⟩ := C93_deaf_violated h a ts (turn h l t).1 h1 (fun t ht => hts t (List.mem_cons_of_mem _ ht)) (by rw [h2]; exact hthrow)
    refine ⟨h5, h6.trans h2, fun x hm => ?_, ?_⟩
    · rcases List.mem_append.mp hm with hm | hm
      · rw [h4] at hm
        rcases List.mem_cons.mp hm with hm | hm
        · cases hm
        · obtain ⟨_, -, hm⟩ := List.mem_map.mp hm
          cases hm
      · exact h7 x hm
    · show ((turn h l t).2 ++ (run h (turn h l t).1 ts).2).count (.threw a) = ts.length + 1
      rw [List.count_append, h8, h4, List.count_cons_self]
      have : (l.ready.tail.map Note.lost).count (.threw a) = 0 := List.count_eq_zero.mpr fun hm => by
        obtain ⟨_, -, hm⟩ := List.mem_map.mp hm
        cases hm
      omega

/-- What arrives in one of these turns is lost in the next. -/
theorem C93_arrivals_lost_violated (h : Handlers σ ε) (a : Src) (l : Loop σ) (t t' : Turn ε) (hl : Stuck a l) (ht : Usual a t) (ht' : Usual a t')
    (hthrow : ∀ e, h.react l.st a e = (.throws, l.st) ∧ h.takes l.st a e = false) (x : Src) (hx : x ∈ t.late) (hxa : x ≠ a) :
    .lost x ∈ (turn h (turn h l t).1 t').2 := by
  obtain ⟨h1, h2, h3, -⟩ := stuck_turn (h := h) hl ht (hthrow _)
  obtain ⟨-, -, -, h4⟩ := stuck_turn (h := h) h1 ht' (by rw [h2]; exact hthrow _)
  rw [h4, h3]
  have hmem : ∀ (xs seen : List Src), x ∈ xs → x ∉ seen → x ∈ fresh seen xs := by
    intro xs
    induction xs with
    | nil => intro _ hm; cases hm
    | cons y xs ih =>
      intro seen hm hs
      rw [fresh]
      rcases List.mem_cons.mp hm with rfl | hm
      · rw [if_neg hs]
        exact List.mem_cons_self
      · split
        · exact ih seen hm hs
        · by_cases hxy : x = y
          · subst hxy
            exact List.mem_cons_self
          · exact List.mem_cons_of_mem _ (ih _ hm (by simp [hxy, hs]))
  simp [hmem t.late [a] hx (by simp [hxa])]

/-! ## Examples -/

/-- A reactor that counts the events it handles; the handler of link 7 throws. -/
def counting : Handlers Nat Unit := ⟨fun n x _ => if x = .link 7 then (.throws, n) else (.ok (), n + 1), fun _ x _ => x.level⟩

/-- A turn with arrivals. -/
def arrive (xs : List Src) : Turn Unit := { env := fun _ => (), early := [], late := xs, gone := [] }

/-- Twelve links become ready; the eleventh is heard in the second turn. -/
def twelve : List Src := [.link 0, .link 1, .link 2, .link 3, .link 4, .link 5, .link 6, .mailbox, .acceptor 0, .timer 9, .link 10, .link 11]

example : (run counting (start 0) [arrive twelve]).1.ready = twelve ∧
    (run counting (start 0) [arrive twelve, arrive []]).1.ready = [.link 10, .link 11, .acceptor 0] ∧
    (run counting (start 0) [arrive twelve, arrive []]).1.st = 10 ∧
    .handled (.link 10) ∈ (run counting (start 0) [arrive twelve, arrive [], arrive []]).2 ∧
    (run counting (start 0) [arrive twelve, arrive [], arrive []]).1.ready = [] := by
  decide

/-- The hypotheses of `C93_served_partial` are met by link 10. -/
example : .handled (.link 10) ∈ (run counting (run counting (start 0) [arrive twelve]).1 (List.replicate 10 (arrive []))).2 := by
  rcases C93_served_partial counting 0 [arrive twelve] (List.replicate 10 (arrive [])) (.link 10) (by decide) (by decide) (by decide)
    (by decide) (by decide) with h1 | ⟨y, h1⟩
  · exact h1
  · have h2 : (run counting (run counting (start 0) [arrive twelve]).1 (List.replicate 10 (arrive []))).2 =
        (twelve.take 8).map .handled ++ .took (.acceptor 0) :: (twelve.drop 8).map .handled := by decide +kernel
    rw [h2] at h1
    simp [twelve] at h1

/-- Link 7 throws and link 8 is forgotten, although the loop goes on and hears link 8 when new data arrive. -/
example : (run counting (start 0) [arrive [.link 7, .link 8], arrive [], arrive [.link 9], arrive [.link 8], arrive []]).2 =
    [.threw (.link 7), .lost (.link 8), .handled (.link 9), .handled (.link 8)] := by
  decide

end Uscada.Heard
