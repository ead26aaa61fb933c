import Verif.UaCodecLaws
/-!
# Decoders depend only on the bytes they consume
-/

namespace Uscada.Ua

open LocalDec (loc)

instance : LocalDec UInt8 := ⟨fun _ => Local.read⟩
instance : LocalDec Bool := ⟨fun _ => Local.bind Local.read fun _ => Local.pure _⟩
instance : LocalDec Int8 := ⟨fun _ => Local.bind Local.read fun _ => Local.pure _⟩
instance : LocalDec UInt16 :=
  ⟨fun _ => Local.bind Local.read fun _ => Local.bind Local.read fun _ => Local.pure _⟩
instance : LocalDec Int16 :=
  ⟨fun _ => Local.bind Local.read fun _ => Local.bind Local.read fun _ => Local.pure _⟩

theorem Local.four {α : Type} {k : UInt8 → UInt8 → UInt8 → UInt8 → α} :
    Local (do let a ← Ua.read; let b ← Ua.read; let c ← Ua.read; let d ← Ua.read
              Pure.pure (k a b c d)) :=
  Local.bind Local.read fun _ => Local.bind Local.read fun _ => Local.bind Local.read fun _ =>
    Local.bind Local.read fun _ => Local.pure _

theorem Local.eight {α : Type}
    {k : UInt8 → UInt8 → UInt8 → UInt8 → UInt8 → UInt8 → UInt8 → UInt8 → α} :
    Local (do let a ← Ua.read; let b ← Ua.read; let c ← Ua.read; let d ← Ua.read
              let e ← Ua.read; let f ← Ua.read; let g ← Ua.read; let h ← Ua.read
              Pure.pure (k a b c d e f g h)) :=
  Local.bind Local.read fun _ => Local.bind Local.read fun _ => Local.bind Local.read fun _ =>
    Local.bind Local.read fun _ => Local.bind Local.read fun _ => Local.bind Local.read fun _ =>
      Local.bind Local.read fun _ => Local.bind Local.read fun _ => Local.pure _

instance : LocalDec UInt32 := ⟨fun _ => Local.four⟩
instance : LocalDec Int32 := ⟨fun _ => Local.four⟩
instance : LocalDec F32 := ⟨fun _ => Local.four⟩
instance : LocalDec UInt64 := ⟨fun _ => Local.eight⟩
instance : LocalDec Int64 := ⟨fun _ => Local.eight⟩
instance : LocalDec F64 := ⟨fun _ => Local.eight⟩
instance : LocalDec DateTime := ⟨fun _ => Local.bind (loc _) fun _ => Local.pure _⟩
instance : LocalDec StatusCode := ⟨fun _ => Local.bind (loc _) fun _ => Local.pure _⟩
instance : LocalDec XmlElement := ⟨fun _ => Local.pure _⟩
instance {α β : Type} [Ua α] [Ua β] [LocalDec α] [LocalDec β] : LocalDec (α × β) :=
  ⟨fun _ => Local.bind (loc _) fun _ => Local.bind (loc _) fun _ => Local.pure _⟩
instance : LocalDec Guid :=
  ⟨fun _ => Local.bind (loc _) fun _ => Local.bind (loc _) fun _ => Local.bind (loc _) fun _ =>
    Local.bind (loc _) fun _ => Local.pure _⟩

theorem Local.readChars (len : Int32) : Local (readChars len) :=
  Local.ite Local.throws (Local.readN _)

instance : LocalDec Str :=
  ⟨fun _ => Local.bind (loc _) fun _ => Local.ite (Local.pure _)
    (Local.bind (Local.readChars _) fun _ => Local.pure _)⟩
instance : LocalDec ByteString :=
  ⟨fun _ => Local.bind (loc _) fun _ => Local.ite (Local.pure _)
    (Local.bind (Local.readChars _) fun _ => Local.pure _)⟩
instance {α : Type} [Ua α] [LocalDec α] : LocalDec (Option α) :=
  ⟨fun _ => Local.bind (loc _) fun _ => Local.pure _⟩

theorem Local.elems {α : Type} [Ua α] [LocalDec α] (l : List α) : Local (decElems l) := by
  induction l with
  | nil => exact Local.pure _
  | cons x xs ih => exact Local.bind (loc x) fun _ => Local.bind ih fun _ => Local.pure _

instance {α : Type} [Ua α] [LocalDec α] : LocalDec (List α) :=
  ⟨fun _ => Local.bind (loc _) fun _ => Local.ite Local.throws (Local.elems _)⟩

theorem NodeId.local_body (old : NodeId) (x : Nat) : Local (NodeId.decodeBody old x) := by
  unfold NodeId.decodeBody
  split
  · exact Local.bind (loc _) fun _ => Local.pure _
  · exact Local.bind (loc _) fun _ => Local.bind (loc _) fun _ => Local.pure _
  · exact Local.bind (loc _) fun _ => Local.bind (loc _) fun _ => Local.pure _
  · exact Local.bind (loc _) fun _ => Local.bind (loc _) fun _ => Local.pure _
  · exact Local.bind (loc _) fun _ => Local.bind (loc _) fun _ => Local.pure _
  · exact Local.bind (loc _) fun _ => Local.bind (loc _) fun _ => Local.pure _
  · exact Local.terminate

instance : LocalDec NodeId where
  loc old := by
    show Local (NodeId.decode old)
    exact Local.bind (loc (0 : UInt8)) fun _ => NodeId.local_body old _

/-- Decoding a node id consumes at least its encoding byte. -/
theorem NodeId.consumes (old : NodeId) (b b' : Buf) (v : NodeId) (h : dec old b = .ok (v, b')) :
    b.tail < b'.tail := by
  have h : (dec (0 : UInt8) b >>= fun p => _) = _ := h
  rw [Exec.bind_eq_ok] at h
  obtain ⟨⟨x, b1⟩, h1, h2⟩ := h
  have t := (NodeId.local_body old _ b1 v b' h2).1.2.2.1
  have h1 : read b = .ok (x, b1) := h1
  simp only [read] at h1
  split at h1
  · simp only [Exec.ok.injEq, Prod.mk.injEq] at h1
    obtain ⟨_, rfl⟩ := h1
    simp only at t
    omega
  · cases h1

theorem Local.decIf {α : Type} [Ua α] [LocalDec α] (c : Bool) (old : α) : Local (decIf c old) :=
  Local.ite (loc old) (Local.pure _)

instance : LocalDec ExpandedNodeId where
  loc old := by
    intro b v b' h
    have h : ExpandedNodeId.decode old b = _ := h
    simp only [ExpandedNodeId.decode, Codec.bind_run] at h
    rw [Exec.bind_eq_ok] at h
    obtain ⟨⟨x, b0⟩, hp, h⟩ := h
    have hlt : b.tail < maxPacketLen := by
      simp only [peek] at hp
      split at hp
      · assumption
      · cases hp
    have hb0 : x = b.packet b.tail ∧ b0 = b := by
      simp only [peek, if_pos hlt, Exec.ok.injEq, Prod.mk.injEq] at hp
      exact ⟨hp.1.symm, hp.2.symm⟩
    obtain ⟨rfl, rfl⟩ := hb0
    have hrest : Local (do
        let nodeId ← dec old.nodeId
        let namespaceUri ← Ua.decIf (bit (b0.packet b0.tail) 0x80) old.namespaceUri
        let serverIndex ← Ua.decIf (bit (b0.packet b0.tail) 0x40) old.serverIndex
        Pure.pure (⟨nodeId, namespaceUri, serverIndex⟩ : ExpandedNodeId)) :=
      Local.bind (loc _) fun _ => Local.bind (Local.decIf _ _) fun _ =>
        Local.bind (Local.decIf _ _) fun _ => Local.pure _
    obtain ⟨k1, k2⟩ := hrest b0 v b' h
    refine ⟨k1, ?_⟩
    intro c hc hpk
    have hgt : b0.tail < b'.tail := by
      simp only at h
      rw [Exec.bind_eq_ok] at h
      obtain ⟨⟨n, b1⟩, h1, h2⟩ := h
      have := NodeId.consumes _ _ _ _ h1
      have t : Local (do
        let namespaceUri ← Ua.decIf (bit (b0.packet b0.tail) 0x80) old.namespaceUri
        let serverIndex ← Ua.decIf (bit (b0.packet b0.tail) 0x40) old.serverIndex
        Pure.pure (⟨n, namespaceUri, serverIndex⟩ : ExpandedNodeId)) :=
        Local.bind (Local.decIf _ _) fun _ => Local.bind (Local.decIf _ _) fun _ => Local.pure _
      have := (t b1 v b' h2).1.2.2.1
      omega
    have hx := hpk b0.tail (Nat.le_refl _) hgt
    have hpc : peek c = .ok (b0.packet b0.tail, c) := by
      simp only [peek, hc, if_pos hlt, hx]
    show ExpandedNodeId.decode old c = _
    simp only [ExpandedNodeId.decode]
    rw [Codec.bind_run, hpc]
    exact k2 c hc hpk

instance : LocalDec QualifiedName :=
  ⟨fun _ => Local.bind (loc _) fun _ => Local.bind (loc _) fun _ => Local.pure _⟩
instance : LocalDec LocalizedText :=
  ⟨fun _ => Local.bind (loc _) fun _ => Local.bind (Local.decIf _ _) fun _ =>
    Local.bind (Local.decIf _ _) fun _ => Local.pure _⟩
instance : LocalDec ExtensionObject :=
  ⟨fun _ => Local.bind (loc _) fun _ => Local.bind (loc _) fun _ =>
    Local.bind (Local.decIf _ _) fun _ => Local.pure _⟩

theorem DiagFields.local_decode (old : DiagFields) : Local old.decode :=
  Local.bind (loc _) fun _ => Local.bind (Local.decIf _ _) fun _ =>
    Local.bind (Local.decIf _ _) fun _ => Local.bind (Local.decIf _ _) fun _ =>
      Local.bind (Local.decIf _ _) fun _ => Local.bind (Local.decIf _ _) fun _ =>
        Local.bind (Local.decIf _ _) fun _ => Local.pure _

theorem DiagnosticInfo.local_decode (n : Nat) (old : DiagnosticInfo) :
    Local (DiagnosticInfo.decode n old) := by
  induction n generalizing old with
  | zero =>
    intro b v b' h
    cases h
  | succ n ih =>
    exact Local.bind (DiagFields.local_decode _) fun _ =>
      Local.ite (Local.bind (ih _) fun _ => Local.pure _) (Local.pure _)

instance : LocalDec DiagnosticInfo := ⟨DiagnosticInfo.local_decode _⟩

theorem Local.fresh {α : Type} [Ua α] [LocalDec α] : Local (fresh : Codec α) := loc _

theorem VArray.local_decode (t : Nat) : Local (VArray.decode t) := by
  unfold VArray.decode
  split
  all_goals first
    | exact Local.terminate
    | exact Local.bind Local.fresh fun _ => Local.pure _

theorem Scalar.local_decode (t : Nat) : Local (Scalar.decode t) := by
  unfold Scalar.decode
  split
  all_goals first
    | exact Local.pure _
    | exact Local.bind Local.fresh fun _ => Local.pure _

instance : LocalDec Variant where
  loc old := by
    show Local (Variant.decode old)
    refine Local.bind (loc (0 : UInt8)) fun _ => Local.ite (Local.pure _)
      (Local.ite (Local.bind (VArray.local_decode _) fun _ => Local.pure _) ?_)
    refine Local.bind (Scalar.local_decode _) ?_
    intro x
    cases x
    · exact Local.pure _
    · exact Local.pure _

instance : LocalDec DataValue :=
  ⟨fun _ => Local.bind (loc _) fun _ => Local.bind (Local.decIf _ _) fun _ =>
    Local.bind (Local.decIf _ _) fun _ => Local.bind (Local.decIf _ _) fun _ =>
      Local.bind (Local.decIf _ _) fun _ => Local.bind (Local.decIf _ _) fun _ =>
        Local.bind (Local.decIf _ _) fun _ => Local.pure _⟩

end Uscada.Ua
