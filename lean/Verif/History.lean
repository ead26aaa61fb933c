/-!
# Claims about histories

`AllOk P l` says that every entry of the log `l` was allowed by `P`, which sees the entries before it.
-/

namespace Uscada

variable {α : Type}

def AllOk (P : List α → α → Prop) (l : List α) : Prop := ∀ pre a post, l = pre ++ a :: post → P pre a

theorem AllOk.nil {P : List α → α → Prop} : AllOk P [] := by
  intro pre a post h
  simp at h

theorem AllOk.snoc {P : List α → α → Prop} {l : List α} {a : α} (h : AllOk P l) (ha : P l a) : AllOk P (l ++ [a]) := by
  intro pre b post e
  rcases List.eq_nil_or_concat post with hp | ⟨post', c, hp⟩
  · subst hp
    obtain ⟨e1, e2⟩ := List.append_inj' e (by simp)
    injection e2 with e2 _
    rw [← e1, ← e2]
    exact ha
  · subst hp
    apply h pre b post'
    rw [List.concat_eq_append, ← List.cons_append, ← List.append_assoc] at e
    exact (List.append_inj' e (by simp)).1

theorem AllOk.mono {P Q : List α → α → Prop} {l : List α} (h : AllOk P l) (hpq : ∀ pre a, P pre a → Q pre a) : AllOk Q l :=
  fun pre a post e => hpq _ _ (h pre a post e)

end Uscada
