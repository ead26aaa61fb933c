import Verif.AduLayout
/-!
# C07: batched Modbus client request items never overlap
-/

namespace Uscada.AduLayout

/-- C07 (alignment, disjointness, size), for every memory content and hence every combination of data
lengths: item `i` starts at a multiple of 16 from the first item, its data ends at or before the start
of item `i + 1`, and for every `i < n` the item and its data lie within the `size()` bytes of the
message with `n` items. -/
theorem C07_items_disjoint (m : Mem) (i : Nat) :
    itemPtr m i % 16 = 0 ∧
    itemPtr m i + dataOff + readNumBytes m (itemPtr m i) ≤ itemPtr m (i + 1) ∧
    ∀ n, i < n → itemsOff + itemPtr m i + dataOff + readNumBytes m (itemPtr m i) ≤ size m n := by
  refine ⟨?_, itemPtr_succ_ge m i, ?_⟩
  · induction i with
    | zero => rfl
    | succ i ih => simp only [itemPtr, stride_eq]; omega
  · intro n hn
    have h1 := itemPtr_succ_ge m i
    have h2 := itemPtr_mono m (show i + 1 ≤ n from hn)
    have h3 : itemsOff = 12 := rfl
    have h4 : msgSizeof = 16 := rfl
    simp only [size, sizeLoop_eq]
    omega

/-- Generalised form for the induction: items below `i` are not touched by filling from `i` on. -/
theorem fill_spec (its : List Item) (hlen : ∀ it ∈ its, it.data.length < 65536) :
    ∀ (m : Mem) (i : Nat),
      (∀ j, j ≤ i → itemPtr (fill m i its) j = itemPtr m j) ∧
      (∀ j, j < i → readItem (fill m i its) (itemPtr m j) = readItem m (itemPtr m j)) ∧
      (∀ k, (h : k < its.length) →
        readItem (fill m i its) (itemPtr (fill m i its) (i + k)) = its[k]) := by
  induction its with
  | nil => intro m i; exact ⟨fun _ _ => rfl, fun _ _ => rfl, fun k h => absurd h (by simp)⟩
  | cons it its ih =>
    intro m i
    have hit := hlen it (by simp)
    obtain ⟨h1, h2, h3⟩ := ih (fun x hx => hlen x (by simp [hx])) (writeItem m (itemPtr m i) it) (i + 1)
    have hptr : ∀ j, j ≤ i → itemPtr (writeItem m (itemPtr m i) it) j = itemPtr m j :=
      itemPtr_agree m _ i (fun q n hq => writeItem_agree m _ q n it (Or.inl hq))
    have hread : ∀ j, j < i →
        readItem (writeItem m (itemPtr m i) it) (itemPtr m j) = readItem m (itemPtr m j) := by
      intro j hj
      apply (readItem_agree m _ _ _).1
      intro q n hq hqn
      apply writeItem_agree
      have := itemPtr_succ_ge m j
      have := itemPtr_mono m (show j + 1 ≤ i from hj)
      exact Or.inl (by omega)
    refine ⟨?_, ?_, ?_⟩
    · intro j hj
      simp only [fill]
      rw [h1 j (by omega), hptr j hj]
    · intro j hj
      simp only [fill]
      have := h2 j (by omega)
      rw [hptr j (by omega)] at this
      rw [this, hread j hj]
    · intro k hk
      cases k with
      | zero =>
        simp only [fill, Nat.add_zero, List.getElem_cons_zero]
        have := h2 i (by omega)
        rw [h1 i (by omega)]
        rw [this, hptr i (by omega), readItem_writeItem _ _ _ hit]
      | succ k =>
        simp only [fill, List.getElem_cons_succ]
        have := h3 k (by simpa using hk)
        rw [show i + (k + 1) = i + 1 + k by omega]
        exact this

/-- C07 (filling keeps earlier items).  Whatever the buffer contained: after filling any list of items
in order, each located with `item(i)`, reading back any item through `item(k)` gives exactly what was
written for it, all fields and data. -/
theorem C07_fill_read_back (m : Mem) (its : List Item)
    (hlen : ∀ it ∈ its, it.data.length < 65536) (k : Nat) (hk : k < its.length) :
    readItem (fill m 0 its) (itemPtr (fill m 0 its) k) = its[k] := by
  have := (fill_spec its hlen m 0).2.2 k hk
  simpa using this

/-- Non-vacuity: three items with different data lengths, in a buffer full of `0xFF`. -/
example :
    let its : List Item := [⟨1, 70000, 0x10, 2, 3, 2, [9, 8, 7, 6]⟩, ⟨1, 70001, 3, 2, 3, 1, []⟩,
      ⟨2, 5, 6, 2, 3, 0, [1, 2]⟩]
    let m := fill (fun _ => 0xFF) 0 its
    (∀ it ∈ its, it.data.length < 65536) ∧
    (List.range 4).map (itemPtr m) = [0, 32, 64, 96] ∧ size m 3 = 112 ∧
    (readItem m (itemPtr m 1)).transactId = 70001 ∧ (readItem m (itemPtr m 0)).data = [9, 8, 7, 6] := by
  decide +kernel

end Uscada.AduLayout
