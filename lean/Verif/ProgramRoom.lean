import Verif.ProgramProps
/-!
# Property C83, the room that starting and stopping needs

The mailboxes of `Verif.Program` have no bound.  The messages that start, configure, stop or release something, and the answers on which
somebody acts, never need more than two slots of the mailbox of the Modbus reactor, six of the OPC UA reactor and four of the
controller's, in every history, whatever the luck and the interleaving.
-/

namespace Uscada.Program

set_option linter.unusedSimpArgs false

theorem VU.short (c : Part) : ∀ v ∈ all false c, v.p2.length ≤ 2 ∧ v.p3.length ≤ 2 := by
  cases c <;> decide +kernel

theorem VM.short : ∀ v ∈ all false, v.p1.length ≤ 2 ∧ v.p3.length ≤ 2 := by decide +kernel

theorem acting1 (m : Msg) (h : place m.type = some 1) (ha : Acting m = true) : (k1 m).isSome = true := by
  cases m with
  | out o => cases o <;> first | rfl | (simp only [Msg.type, outType, uaType] at h; exact absurd h (by decide +kernel)) | cases ha
  | ua u => cases u <;> first | (simp only [Msg.type, outType, uaType] at h; exact absurd h (by decide +kernel)) | cases ha
  | _ => first | (simp only [Msg.type, outType, uaType] at h; exact absurd h (by decide +kernel)) | cases ha

theorem acting2 (m : Msg) (h : place m.type = some 2) (ha : Acting m = true) :
    (Part.transport.k2 m).isSome = true ∨ (Part.channel.k2 m).isSome = true ∨ (Part.service.k2 m).isSome = true := by
  cases m with
  | out o => cases o <;> first | exact .inl rfl | exact .inr (.inl rfl) | exact .inr (.inr rfl) | (simp only [Msg.type, outType, uaType] at h; exact absurd h (by decide +kernel)) | cases ha
  | ua u => cases u <;> first | exact .inl rfl | exact .inr (.inl rfl) | exact .inr (.inr rfl) | (simp only [Msg.type, outType, uaType] at h; exact absurd h (by decide +kernel)) | cases ha
  | _ => first | (simp only [Msg.type, outType, uaType] at h; exact absurd h (by decide +kernel)) | cases ha

theorem acting3 (m : Msg) (h : place m.type = some 3) (ha : Acting m = true) : (Part.transport.k3 m).isSome = true ∨ (k3 m).isSome = true := by
  cases m with
  | out o => cases o <;> first | (simp only [Msg.type, outType, uaType] at h; exact absurd h (by decide +kernel)) | cases ha
  | ua u => cases u <;> first | exact .inl rfl | exact .inr rfl | (simp only [Msg.type, outType, uaType] at h; exact absurd h (by decide +kernel)) | cases ha
  | _ => first | exact .inl rfl | exact .inr rfl | (simp only [Msg.type, outType, uaType] at h; exact absurd h (by decide +kernel)) | cases ha

theorem msg_place (m : Msg) {r : Nat} (h : place m.type = some r) : r = 1 ∨ r = 2 ∨ r = 3 := by
  have key : place m.type = none ∨ place m.type = some 1 ∨ place m.type = some 2 ∨ place m.type = some 3 := by
    cases m with
    | out o => cases o <;> simp only [Msg.type, outType] <;> decide +kernel
    | ua u => cases u <;> simp only [Msg.type, uaType] <;> decide +kernel
    | _ => simp only [Msg.type] <;> decide +kernel
  rcases key with k | k | k | k <;> rw [k] at h
  · cases h
  all_goals injection h with h; omega

theorem length_filterMap {α β : Type} (f : α → Option β) (l : List α) : (l.filterMap f).length = l.countP fun x => (f x).isSome := by
  induction l with
  | nil => rfl
  | cons x l ih =>
    rw [List.filterMap_cons, List.countP_cons]
    cases h : f x <;> simp [ih]

theorem count_le_two {α : Type} {P Q R : α → Bool} {l : List α} (h : ∀ x ∈ l, P x = true → Q x = true ∨ R x = true) : l.countP P ≤ l.countP Q + l.countP R := by
  induction l with
  | nil => simp
  | cons x l ih =>
    have h1 := h x (by simp)
    have h2 := ih fun y hy => h y (by simp [hy])
    simp only [List.countP_cons]
    cases hp : P x <;> cases hq : Q x <;> cases hr : R x <;> simp_all <;> omega

/-- C83: in every history, at every moment, the messages that start or stop something take at most two slots of the mailbox of the Modbus
reactor, six of the OPC UA reactor, four of the controller's and none of any other. -/
theorem C83_room {rnd : Nat → UInt8} {p : Prog} (h : Reach rnd Any p) : (p.box 1).countP Acting ≤ 2 ∧ (p.box 2).countP Acting ≤ 6 ∧ (p.box 3).countP Acting ≤ 4 ∧
    ∀ r, r ≠ 1 → r ≠ 2 → r ≠ 3 → (p.box r).countP Acting = 0 := by
  obtain ⟨hu, hm⟩ := reach_any h
  have hp := placed h
  have ht := VU.short _ _ (hu .transport)
  have hc := VU.short _ _ (hu .channel)
  have hs := VU.short _ _ (hu .service)
  have hk := VM.short _ hm
  simp only [Part.view, mview, length_filterMap] at ht hc hs hk
  refine ⟨?_, ?_, ?_, fun r h1 h2 h3 => ?_⟩
  · refine Nat.le_trans (List.countP_mono_left fun m hm ha => ?_) hk.1
    exact acting1 m (hp 1 m hm) ha
  · have a1 := count_le_two (l := p.box 2) (P := Acting) (Q := fun m => (Part.transport.k2 m).isSome)
      (R := fun m => (Part.channel.k2 m).isSome || (Part.service.k2 m).isSome) fun m hm ha => by
        rw [Bool.or_eq_true]; exact acting2 m (hp 2 m hm) ha
    have a2 := count_le_two (l := p.box 2) (P := fun m => (Part.channel.k2 m).isSome || (Part.service.k2 m).isSome) (Q := fun m => (Part.channel.k2 m).isSome)
      (R := fun m => (Part.service.k2 m).isSome) fun m _ ha => by rwa [Bool.or_eq_true] at ha
    omega
  · have a1 := count_le_two (l := p.box 3) (P := Acting) (Q := fun m => (Part.transport.k3 m).isSome) (R := fun m => (k3 m).isSome)
      fun m hm ha => acting3 m (hp 3 m hm) ha
    omega
  · rw [List.countP_eq_zero]
    intro m hm _
    rcases msg_place m (hp r m hm) with k | k | k
    · exact h1 k
    · exact h2 k
    · exact h3 k

/-- The first two bounds are met: `main` sends both messages before the controller takes them, and the other reactors have not begun. -/
example : ∃ p, Reach noise Any p ∧ (p.box 1).countP Acting = 2 ∧ (p.box 2).countP Acting = 6 := by
  obtain ⟨p, h1, h2⟩ := ends_ok (es := [.main, .main, .take 3 l0, .take 3 l0]) (f := fun p => (p.box 1).countP Acting == 2 && (p.box 2).countP Acting == 6) (by decide +kernel)
  simp only [Bool.and_eq_true, beq_iff_eq] at h2
  exact ⟨p, reach_run .boot (fun _ _ => trivial) h1, h2.1, h2.2⟩

end Uscada.Program
