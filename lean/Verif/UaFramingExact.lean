import Verif.UaFramingProps
/-!
# C30: which segmentations of a chunk are received
-/

namespace Uscada.Ua

open Modbus (Rx)

theorem exact_gen (ps : List (List UInt8)) : ∀ (b : Buf) (p : List UInt8), b.tail = 0 → memRead b.packet 0 b.head = p → IsChunk (p ++ ps.flatten) →
    (∀ x ∈ ps, x ≠ []) → ∃ rs b', feed (ps.map .ok) b = .ok (rs, b') ∧
      (.done ∈ rs ↔ ps ≠ [] ∧ (p ++ ps.dropLast.flatten).length ≤ 1024 ∧ (p ++ ps.flatten).length ≤ 4096) := by
  induction ps with
  | nil => intro b p _ _ _ _; exact ⟨[], b, rfl, by simp⟩
  | cons x xs ih =>
    intro b p ht hp hc hne
    have hl : p.length = b.head := by rw [← hp, MsgStorage.length_memRead]
    have hpl : maxPacketLen = 4096 := rfl
    by_cases h1 : 1024 < b.head
    · refine ⟨_, b, feed_full _ b h1, ?_⟩
      constructor
      · intro h
        exact absurd (List.eq_of_mem_replicate h) (by simp)
      · rintro ⟨_, h, _⟩
        simp only [List.length_append] at h
        omega
    by_cases h2 : b.head + x.length ≤ 4096
    · have hm := memRead_append b p x hp
      have hc' : IsChunk ((p ++ x) ++ xs.flatten) := by simpa only [List.flatten_cons, List.append_assoc] using hc
      have he := evaluate_prefix (b.append x) (p ++ x) xs.flatten ht hm hc'
      obtain ⟨rs, b', g1, g2⟩ := ih (b.append x) (p ++ x) ht hm hc' fun y hy => hne y (by simp [hy])
      refine ⟨(if xs.flatten = [] then .done else .noerror) :: rs, b', ?_, ?_⟩
      · simp only [List.map_cons, feed]
        rw [receive_ok (by omega) h2 he]
        simp only [Exec.ok_bind, Exec.pure_eq, g1]
      · by_cases hx : xs = []
        · subst hx
          simp
          omega
        · have hfl : xs.flatten ≠ [] := by
            intro h0
            rw [List.flatten_eq_nil_iff] at h0
            cases xs with
            | nil => exact hx rfl
            | cons d xs => exact hne d (by simp) (h0 d (by simp))
          rw [if_neg hfl, List.mem_cons, g2, List.dropLast_cons_of_ne_nil hx]
          simp [hx]
    · have hcap : (x.take b.capacity).length = 4096 - b.head := by
        rw [List.length_take]
        simp only [Buf.capacity, hpl]
        omega
      have hm := memRead_append b p (x.take b.capacity) hp
      have hrec : b.received x = b.append (x.take b.capacity) := rfl
      have hdr : 0 < (x.drop b.capacity).length := by
        rw [List.length_drop]
        simp only [Buf.capacity, hpl]
        omega
      have hc' : IsChunk ((p ++ x.take b.capacity) ++ (x.drop b.capacity ++ xs.flatten)) := by
        have : (p ++ x.take b.capacity) ++ (x.drop b.capacity ++ xs.flatten) = p ++ (x :: xs).flatten := by
          rw [List.flatten_cons, List.append_assoc, ← List.append_assoc (x.take _), List.take_append_drop]
        rw [this]
        exact hc
      have he := evaluate_prefix (b.append (x.take b.capacity)) _ _ ht hm hc'
      rw [if_neg (by intro h; rw [(List.append_eq_nil_iff.1 h).1] at hdr; simp at hdr)] at he
      have hf := feed_full (xs.map .ok) (b.append (x.take b.capacity)) (by simp only [Buf.append, hcap]; omega)
      refine ⟨.noerror :: List.replicate (xs.map Rx.ok).length .error, b.append (x.take b.capacity), ?_, ?_⟩
      · have hr : receive true (.ok x) b = .ok (.noerror, b.append (x.take b.capacity)) := by
          unfold receive
          rw [if_neg (by simp only [Buf.size]; omega), if_pos rfl]
          simp only [hrec, he, Exec.ok_bind, Exec.pure_eq]
        simp only [List.map_cons, feed, hr, Exec.ok_bind, hf, Exec.pure_eq]
      · constructor
        · intro h
          rcases List.mem_cons.1 h with h | h
          · cases h
          · exact absurd (List.eq_of_mem_replicate h) (by simp)
        · rintro ⟨_, _, h⟩
          simp only [List.length_append, List.flatten_cons] at h
          omega

/-- C30, exactly: a chunk that arrives in the pieces `ps` at an empty buffer is received iff no more than 1024 bytes arrive before the last piece and the whole
is no longer than the buffer.  Missing from the property: all the other pieces, for which this says that the chunk is never received. -/
theorem C30_exact_partial (b : Buf) (ps : List (List UInt8)) (ht : b.tail = 0) (hh : b.head = 0) (hc : IsChunk ps.flatten) (hne : ∀ x ∈ ps, x ≠ []) :
    ∃ rs b', feed (ps.map .ok) b = .ok (rs, b') ∧ (.done ∈ rs ↔ ps.dropLast.flatten.length ≤ 1024 ∧ ps.flatten.length ≤ 4096) := by
  have h0 : memRead b.packet 0 b.head = [] := by rw [hh]; rfl
  obtain ⟨rs, b', h1, h2⟩ := exact_gen ps b [] ht h0 (by simpa using hc) hne
  refine ⟨rs, b', h1, h2.trans ?_⟩
  have : ps ≠ [] := by
    rintro rfl
    have := hc.1
    simp at this
  simp [this]

/-- Non-vacuity: twelve bytes in two pieces, and 1100 bytes in two pieces with more than 1024 before the second. -/
example : IsChunk ([[0x4D, 0x53, 0x47, 0x46, 12, 0], [0, 0, 1, 2, 3, 4]] : List (List UInt8)).flatten ∧
    IsChunk ([[0x4D, 0x53, 0x47, 0x46, 0x4C, 0x04, 0, 0] ++ List.replicate 1042 0, List.replicate 50 0] : List (List UInt8)).flatten := by
  unfold IsChunk
  decide +kernel

end Uscada.Ua
