import Verif.UaStdLaws
/-!
# What the decoder does with null arrays

An encoding of a request that the standard allows either has no null array, and is understood (`UaStdLaws`), or it has one, and
decoding it throws.
-/

namespace Uscada.Ua

open Lawful (reads)
open Accepts (acc)

/-- When `w` is at the read position the operation throws. -/
def Chokes {α : Type} (d : Codec α) (w : List UInt8) : Prop :=
  ∀ b : Buf, b.tail + w.length ≤ maxPacketLen → memRead b.packet b.tail w.length = w → d b = .throws

theorem Chokes.later {α β : Type} {d : Codec α} {f : α → Codec β} {w1 w2 : List UInt8} {v : α} (h1 : Reads d w1 v) (h2 : Chokes (f v) w2) :
    Chokes (d >>= f) (w1 ++ w2) := by
  intro b hl hb
  have := memRead_app hb
  rw [List.length_append] at hl
  rw [Codec.bind_run, h1 b (by omega) this.1]
  simp only [Exec.ok_bind]
  exact h2 (b.skip w1.length) (by simp only [Buf.skip]; omega) this.2

theorem Chokes.first {α β : Type} {d : Codec α} {f : α → Codec β} {w1 : List UInt8} (w2 : List UInt8) (h : Chokes d w1) :
    Chokes (d >>= f) (w1 ++ w2) := by
  intro b hl hb
  have := memRead_app hb
  rw [List.length_append] at hl
  rw [Codec.bind_run, h b (by omega) this.1]
  rfl

theorem Chokes.only {α β : Type} {d : Codec α} {f : α → Codec β} {w : List UInt8} (h : Chokes d w) : Chokes (d >>= f) w := by
  have := Chokes.first (f := f) [] h
  rwa [List.append_nil] at this

/-! ## Types without arrays -/

/-- There are no arrays in the type. -/
class Flat (α : Type) [Std α] : Prop where
  flat : ∀ (v : α) (w : List UInt8), std true v w → std false v w

open Flat (flat)

instance : Flat Bool := ⟨fun _ _ h => h⟩
instance : Flat UInt8 := ⟨fun _ _ h => h⟩
instance : Flat UInt16 := ⟨fun _ _ h => h⟩
instance : Flat UInt32 := ⟨fun _ _ h => h⟩
instance : Flat Int32 := ⟨fun _ _ h => h⟩
instance : Flat F64 := ⟨fun _ _ h => h⟩
instance : Flat DateTime := ⟨fun _ _ h => h⟩
instance : Flat Str := ⟨fun _ _ h => h⟩
instance : Flat ByteString := ⟨fun _ _ h => h⟩
instance : Flat NodeId := ⟨fun _ _ h => h⟩

theorem flat_opt {α : Type} [Std α] [Flat α] (o : Option α) {w : List UInt8} (h : stdOpt true o w) : stdOpt false o w := by
  cases o with
  | none => exact h
  | some x => exact flat x w h

theorem flat_elems {α : Type} [Std α] [Flat α] (l : List α) {w : List UInt8} (h : stdElems true l w) : stdElems false l w := by
  induction l generalizing w with
  | nil => exact h
  | cons x xs ih =>
    obtain ⟨a, b, h1, h2, rfl⟩ := h
    exact ⟨a, b, flat x a h1, ih h2, rfl⟩

instance : Flat ExpandedNodeId where
  flat v w h := by
    obtain ⟨x, xs, a, h1, ⟨b, c, h2, h3, rfl⟩, h4⟩ := h
    exact ⟨x, xs, _, h1, ⟨b, c, flat_opt _ h2, flat_opt _ h3, rfl⟩, h4⟩

instance : Flat QualifiedName where
  flat v w h := by
    obtain ⟨a, b, h1, h2, rfl⟩ := h
    exact ⟨a, b, flat _ _ h1, flat _ _ h2, rfl⟩

instance : Flat LocalizedText where
  flat v w h := by
    obtain ⟨m, b, hm, ⟨c, d, h1, h2, rfl⟩, rfl⟩ := h
    exact ⟨m, _, hm, ⟨c, d, flat_opt _ h1, flat_opt _ h2, rfl⟩, rfl⟩

instance : Flat ExtensionObject where
  flat v w h := by
    obtain ⟨nid, bs⟩ := v
    obtain ⟨a, b, h1, h2, rfl⟩ := h
    refine ⟨a, b, flat nid a h1, ?_, rfl⟩
    cases bs with
    | none => exact h2
    | some s => exact h2

instance : Flat UaRequestHeader where
  flat v w h := by
    obtain ⟨a1, b1, h1, ⟨a2, b2, h2, ⟨a3, b3, h3, ⟨a4, b4, h4, ⟨a5, b5, h5, ⟨a6, b6, h6, h7, rfl⟩, rfl⟩, rfl⟩, rfl⟩, rfl⟩, rfl⟩ := h
    exact ⟨_, _, flat _ _ h1, ⟨_, _, flat _ _ h2, ⟨_, _, flat _ _ h3, ⟨_, _, flat _ _ h4, ⟨_, _, flat _ _ h5, ⟨_, _, flat _ _ h6, flat _ _
      h7, rfl⟩, rfl⟩, rfl⟩, rfl⟩, rfl⟩, rfl⟩

instance : Flat UaSignatureData where
  flat v w h := by
    obtain ⟨a1, b1, h1, h2, rfl⟩ := h
    exact ⟨_, _, flat _ _ h1, flat _ _ h2, rfl⟩

instance : Flat UaCloseSessionReq where
  flat v w h := by
    obtain ⟨a1, b1, h1, h2, rfl⟩ := h
    exact ⟨_, _, flat _ _ h1, flat _ _ h2, rfl⟩

instance : Flat ReadValueId where
  flat v w h := by
    obtain ⟨a1, b1, h1, ⟨a2, b2, h2, ⟨a3, b3, h3, h4, rfl⟩, rfl⟩, rfl⟩ := h
    exact ⟨_, _, flat _ _ h1, ⟨_, _, flat _ _ h2, ⟨_, _, flat _ _ h3, flat _ _ h4, rfl⟩, rfl⟩, rfl⟩

/-! ## Arrays and what contains them -/

/-- An encoding without null arrays, or one that cannot be decoded. -/
class Splits (α : Type) [Ua α] [Std α] : Prop where
  split : ∀ (v : α) (w : List UInt8), std true v w → std false v w ∨ Chokes (dec (Ua.init : α)) w

open Splits (split)

instance {α : Type} [Ua α] [Std α] [Flat α] : Splits (List α) where
  split v w h := by
    obtain ⟨hl, ⟨a, b, h1, h2, rfl⟩ | ⟨_, hv, hw⟩⟩ := h
    · exact .inl ⟨hl, .inl ⟨a, b, h1, flat_elems v h2, rfl⟩⟩
    · right
      have e : w = wire (-1 : Int32) := by
        rw [hw]
        decide
      rw [e]
      intro b hlen hb
      show (do
        let n ← dec (0 : Int32)
        if n < 0 then Codec.throws else decElems (resizeTo ([] : List α) n.toInt.toNat)) b = _
      rw [Codec.bind_run, show dec (0 : Int32) b = _ from reads (-1 : Int32) trivial b hlen hb]
      simp only [Exec.ok_bind]
      rw [if_pos (by decide)]
      rfl

instance : Splits UaGetEndpointsReq where
  split v w h := by
    obtain ⟨a1, b1, h1, ⟨a2, b2, h2, ⟨a3, b3, h3, h4, rfl⟩, rfl⟩, rfl⟩ := h
    have h1 := flat _ _ h1
    have h2 := flat _ _ h2
    rcases split _ _ h3 with h3 | c
    rotate_left
    · exact .inr (Chokes.later (acc _ _ h1) (Chokes.later (acc _ _ h2) (Chokes.first _ c)))
    rcases split _ _ h4 with h4 | c
    rotate_left
    · exact .inr (Chokes.later (acc _ _ h1) (Chokes.later (acc _ _ h2) (Chokes.later (acc _ _ h3) (Chokes.only c))))
    exact .inl ⟨_, _, h1, ⟨_, _, h2, ⟨_, _, h3, h4, rfl⟩, rfl⟩, rfl⟩

instance : Splits UaApplicationDescription where
  split v w h := by
    obtain ⟨a1, b1, h1, ⟨a2, b2, h2, ⟨a3, b3, h3, ⟨a4, b4, h4, ⟨a5, b5, h5, ⟨a6, b6, h6, h7, rfl⟩, rfl⟩, rfl⟩, rfl⟩, rfl⟩, rfl⟩ := h
    have h1 := flat _ _ h1
    have h2 := flat _ _ h2
    have h3 := flat _ _ h3
    have h4 := flat _ _ h4
    have h5 := flat _ _ h5
    have h6 := flat _ _ h6
    rcases split _ _ h7 with h7 | c
    rotate_left
    · exact .inr (Chokes.later (acc _ _ h1) (Chokes.later (acc _ _ h2) (Chokes.later (acc _ _ h3) (Chokes.later (acc _ _ h4) (Chokes.later
      (acc _ _ h5) (Chokes.later (acc _ _ h6) (Chokes.only c)))))))
    exact .inl ⟨_, _, h1, ⟨_, _, h2, ⟨_, _, h3, ⟨_, _, h4, ⟨_, _, h5, ⟨_, _, h6, h7, rfl⟩, rfl⟩, rfl⟩, rfl⟩, rfl⟩, rfl⟩

instance : Splits UaCreateSessionReq where
  split v w h := by
    obtain ⟨a1, b1, h1, ⟨a2, b2, h2, ⟨a3, b3, h3, ⟨a4, b4, h4, ⟨a5, b5, h5, ⟨a6, b6, h6, ⟨a7, b7, h7, ⟨a8, b8, h8, h9, rfl⟩, rfl⟩, rfl⟩, rfl⟩, rfl⟩, rfl⟩, rfl⟩, rfl⟩ := h
    have h1 := flat _ _ h1
    have h3 := flat _ _ h3
    have h4 := flat _ _ h4
    have h5 := flat _ _ h5
    have h6 := flat _ _ h6
    have h7 := flat _ _ h7
    have h8 := flat _ _ h8
    have h9 := flat _ _ h9
    rcases split _ _ h2 with h2 | c
    rotate_left
    · exact .inr (Chokes.later (acc _ _ h1) (Chokes.first _ c))
    exact .inl ⟨_, _, h1, ⟨_, _, h2, ⟨_, _, h3, ⟨_, _, h4, ⟨_, _, h5, ⟨_, _, h6, ⟨_, _, h7, ⟨_, _, h8, h9, rfl⟩, rfl⟩, rfl⟩, rfl⟩, rfl⟩,
      rfl⟩, rfl⟩, rfl⟩

instance : Splits UaActivateSessionReq where
  split v w h := by
    obtain ⟨a1, b1, h1, ⟨a2, b2, h2, ⟨a3, b3, h3, ⟨a4, b4, h4, ⟨a5, b5, h5, h6, rfl⟩, rfl⟩, rfl⟩, rfl⟩, rfl⟩ := h
    have h1 := flat _ _ h1
    have h2 := flat _ _ h2
    have h5 := flat _ _ h5
    have h6 := flat _ _ h6
    rcases split _ _ h3 with h3 | c
    rotate_left
    · exact .inr (Chokes.later (acc _ _ h1) (Chokes.later (acc _ _ h2) (Chokes.first _ c)))
    rcases split _ _ h4 with h4 | c
    rotate_left
    · exact .inr (Chokes.later (acc _ _ h1) (Chokes.later (acc _ _ h2) (Chokes.later (acc _ _ h3) (Chokes.first _ c))))
    exact .inl ⟨_, _, h1, ⟨_, _, h2, ⟨_, _, h3, ⟨_, _, h4, ⟨_, _, h5, h6, rfl⟩, rfl⟩, rfl⟩, rfl⟩, rfl⟩

instance : Splits UaReadReq where
  split v w h := by
    obtain ⟨a1, b1, h1, ⟨a2, b2, h2, ⟨a3, b3, h3, h4, rfl⟩, rfl⟩, rfl⟩ := h
    have h1 := flat _ _ h1
    have h2 := flat _ _ h2
    have h3 := flat _ _ h3
    rcases split _ _ h4 with h4 | c
    rotate_left
    · exact .inr (Chokes.later (acc _ _ h1) (Chokes.later (acc _ _ h2) (Chokes.later (acc _ _ h3) (Chokes.only c))))
    exact .inl ⟨_, _, h1, ⟨_, _, h2, ⟨_, _, h3, h4, rfl⟩, rfl⟩, rfl⟩

instance : Splits UaCloseSessionReq := ⟨fun v w h => .inl (flat v w h)⟩

end Uscada.Ua
