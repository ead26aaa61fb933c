import Verif.UaFraming
/-!
# The memory that decoding asks for

`std::string::resize` and `std::vector::resize` in the decoders of String, ByteString and `DynamicArray`
(OpcUaBinaryCodec.cpp:254-270, 321-338, OpcUaBinaryCodec.hpp:239-250) and `std::make_unique` in that of `Ptr`
(OpcUaBinaryCodec.hpp:208-214) are the places where decoding asks for memory in an amount that depends on the message.
`Verif.UaCodec` lets every request succeed.  Here the decoders are written once more with these requests visible: `decM` is
`dec` with a counter of the requested elements and with an allocator that may refuse a request, which throws
(`std::bad_alloc`).  `Metered.same` proves, type by type, that an allocator that refuses nothing gives the decoder of
`Verif.UaCodec`.

Simplifications: an element counts 1 whatever its size is; `resize` of a container that has room already counts as well
(targets are fresh objects in all callers); the constant amounts asked for by copying, logging and `std::function` are not
counted.
-/

namespace Uscada.Ua

/-! ## Decoders with an allocator -/

/-- A decoder run with an allocator (`grant n`: a request for `n` elements succeeds): the number of elements asked for, and
the outcome. -/
def Meter (α : Type) : Type := (Nat → Bool) → Buf → Nat × Exec (α × Buf)

namespace Meter

/-- What follows a decoder, if it returns. -/
def next {α β : Type} (n : Nat) (f : α → Buf → Nat × Exec (β × Buf)) : Exec (α × Buf) → Nat × Exec (β × Buf)
  | .ok p => (n + (f p.1 p.2).1, (f p.1 p.2).2)
  | .throws => (n, .throws)
  | .abort => (n, .abort)
  | .ub => (n, .ub)

instance : Monad Meter where
  pure a := fun _ b => (0, .ok (a, b))
  bind m f := fun g b => next (m g b).1 (fun a => f a g) (m g b).2

/-- A request for `n` elements. -/
def ask (n : Nat) : Meter Unit := fun g b => (n, if g n then .ok ((), b) else .throws)

/-- A decoder that asks for nothing. -/
def lift {α : Type} (c : Codec α) : Meter α := fun _ b => (0, c b)

/-- The allocator that refuses nothing. -/
def all : Nat → Bool := fun _ => true

/-- The outcome when no request is refused. -/
def erase {α : Type} (m : Meter α) : Codec α := fun b => (m all b).2

/-- The number of elements asked for when no request is refused. -/
def demand {α : Type} (m : Meter α) (b : Buf) : Nat := (m all b).1

theorem erase_pure {α : Type} (a : α) : erase (pure a) = pure a := rfl

theorem erase_lift {α : Type} (c : Codec α) : erase (lift c) = c := rfl

theorem erase_ask (n : Nat) : erase (ask n) = pure () := by
  funext b
  simp [erase, ask, all]

theorem erase_bind {α β : Type} (m : Meter α) (f : α → Meter β) :
    erase (m >>= f) = (erase m >>= fun a => erase (f a)) := by
  funext b
  show (next (m all b).1 (fun a => f a all) (m all b).2).2 = ((m all b).2 >>= fun p => (f p.1 all p.2).2)
  cases (m all b).2 <;> rfl

theorem erase_ite {α : Type} {c : Prop} [Decidable c] (m m' : Meter α) :
    erase (if c then m else m') = if c then erase m else erase m' := by
  split <;> rfl

/-- The three things that hold of every decoder: a decoder that returns has read `k` bytes more than the elements it asked
for; a refused request can only make it throw; and an allocator that grants what is asked for makes no difference. -/
structure Fair {α : Type} (k : Nat) (m : Meter α) : Prop where
  paid : ∀ g b v b', (m g b).2 = .ok (v, b') → (m g b).1 + k + b.tail ≤ b'.tail
  mild : ∀ g b, (m g b).2 = .throws ∨ m g b = m all b
  kept : ∀ g b, (∀ n, n ≤ (m all b).1 → g n = true) → m g b = m all b

theorem Fair.pure {α : Type} (a : α) : Fair 0 (Pure.pure a : Meter α) where
  paid g b v b' h := by
    have h : Exec.ok (a, b) = Exec.ok (v, b') := h
    simp only [Exec.ok.injEq, Prod.mk.injEq] at h
    show 0 + 0 + b.tail ≤ b'.tail
    rw [h.2]
    omega
  mild g b := Or.inr rfl
  kept g b _ := rfl

theorem Fair.ofLift {α : Type} {k : Nat} {c : Codec α} (h : ∀ b v b', c b = .ok (v, b') → k + b.tail ≤ b'.tail) :
    Fair k (lift c) where
  paid g b v b' hc := by
    have := h b v b' hc
    show 0 + k + b.tail ≤ b'.tail
    omega
  mild g b := Or.inr rfl
  kept g b _ := rfl

theorem Fair.weaken {α : Type} {k l : Nat} {m : Meter α} (h : Fair k m) (hl : l ≤ k) : Fair l m where
  paid g b v b' hm := by
    have := h.paid g b v b' hm
    omega
  mild := h.mild
  kept := h.kept

theorem Fair.bind {α β : Type} {k l : Nat} {m : Meter α} {f : α → Meter β} (hm : Fair k m) (hf : ∀ a, Fair l (f a)) :
    Fair (k + l) (m >>= f) where
  paid g b v b' h := by
    have h : (next (m g b).1 (fun a => f a g) (m g b).2).2 = .ok (v, b') := h
    show (next (m g b).1 (fun a => f a g) (m g b).2).1 + (k + l) + b.tail ≤ b'.tail
    cases hr : (m g b).2 with
    | ok p =>
      rw [hr] at h
      have h1 := hm.paid g b p.1 p.2 hr
      have h2 := (hf p.1).paid g p.2 v b' h
      show (m g b).1 + (f p.1 g p.2).1 + (k + l) + b.tail ≤ b'.tail
      omega
    | throws => rw [hr] at h; exact absurd h (by simp [next])
    | abort => rw [hr] at h; exact absurd h (by simp [next])
    | ub => rw [hr] at h; exact absurd h (by simp [next])
  mild g b := by
    show (next (m g b).1 (fun a => f a g) (m g b).2).2 = .throws ∨
      next (m g b).1 (fun a => f a g) (m g b).2 = next (m all b).1 (fun a => f a all) (m all b).2
    rcases hm.mild g b with h | h
    · left
      rw [h]
      rfl
    · rw [h]
      cases (m all b).2 with
      | ok p =>
        rcases (hf p.1).mild g p.2 with h' | h'
        · exact Or.inl h'
        · right
          show ((m all b).1 + (f p.1 g p.2).1, (f p.1 g p.2).2) = ((m all b).1 + (f p.1 all p.2).1, (f p.1 all p.2).2)
          rw [h']
      | throws => exact Or.inl rfl
      | abort => exact Or.inr rfl
      | ub => exact Or.inr rfl
  kept g b h := by
    have h : ∀ n, n ≤ (next (m all b).1 (fun a => f a all) (m all b).2).1 → g n = true := h
    show next (m g b).1 (fun a => f a g) (m g b).2 = next (m all b).1 (fun a => f a all) (m all b).2
    have hle : (m all b).1 ≤ (next (m all b).1 (fun a => f a all) (m all b).2).1 := by
      cases (m all b).2 with
      | ok p => exact Nat.le_add_right _ _
      | throws => exact Nat.le_refl _
      | abort => exact Nat.le_refl _
      | ub => exact Nat.le_refl _
    rw [hm.kept g b fun n hn => h n (Nat.le_trans hn hle)]
    cases hr : (m all b).2 with
    | ok p =>
      rw [hr] at h
      have : f p.1 g p.2 = f p.1 all p.2 :=
        (hf p.1).kept g p.2 fun n hn => h n (Nat.le_trans hn (Nat.le_add_left _ _))
      show ((m all b).1 + (f p.1 g p.2).1, (f p.1 g p.2).2) = ((m all b).1 + (f p.1 all p.2).1, (f p.1 all p.2).2)
      rw [this]
    | throws => rfl
    | abort => rfl
    | ub => rfl

theorem Fair.first {α β : Type} {m : Meter α} {f : α → Meter β} (hm : Fair 1 m) (hf : ∀ a, Fair 0 (f a)) :
    Fair 1 (m >>= f) := hm.bind hf

theorem Fair.rest {α β : Type} {k : Nat} {m : Meter α} {f : α → Meter β} (hm : Fair k m) (hf : ∀ a, Fair 0 (f a)) :
    Fair 0 (m >>= f) := ((hm.weaken (Nat.zero_le k)).bind hf)

theorem Fair.throws {α : Type} {k : Nat} : Fair k (lift (Codec.throws : Codec α)) :=
  Fair.ofLift fun _ _ _ h => absurd h (by simp [Codec.throws])

theorem Fair.terminate {α : Type} {k : Nat} : Fair k (lift (Codec.terminate : Codec α)) :=
  Fair.ofLift fun _ _ _ h => absurd h (by simp [Codec.terminate])

theorem Fair.read : Fair 1 (lift Ua.read) :=
  Fair.ofLift fun b v b' h => by
    unfold Ua.read at h
    split at h
    · simp only [Exec.ok.injEq, Prod.mk.injEq] at h
      rw [← h.2]
      show 1 + b.tail ≤ b.tail + 1
      omega
    · exact absurd h (by simp)

/-- A request followed by a decoder that reads a byte for each of the elements. -/
theorem Fair.asked {α : Type} {n k : Nat} {m : Meter α} (h : Fair (n + k) m) : Fair k (ask n >>= fun _ => m) where
  paid g b v b' hm := by
    have hm : (next n (fun _ => m g) (if g n then .ok ((), b) else .throws)).2 = .ok (v, b') := hm
    show (next n (fun _ => m g) (if g n then .ok ((), b) else .throws)).1 + k + b.tail ≤ b'.tail
    cases hg : g n
    · rw [hg] at hm
      exact absurd hm (by simp [next])
    · rw [hg] at hm
      have := h.paid g b v b' hm
      show n + (m g b).1 + k + b.tail ≤ b'.tail
      omega
  mild g b := by
    show (next n (fun _ => m g) (if g n then .ok ((), b) else .throws)).2 = .throws ∨
      next n (fun _ => m g) (if g n then .ok ((), b) else .throws) = next n (fun _ => m all) (.ok ((), b))
    cases hg : g n
    · exact Or.inl rfl
    · rcases h.mild g b with h' | h'
      · exact Or.inl h'
      · right
        show (n + (m g b).1, (m g b).2) = (n + (m all b).1, (m all b).2)
        rw [h']
  kept g b hn := by
    have hn : ∀ x, x ≤ n + (m all b).1 → g x = true := hn
    show next n (fun _ => m g) (if g n then .ok ((), b) else .throws) = next n (fun _ => m all) (.ok ((), b))
    rw [hn n (Nat.le_add_right _ _)]
    show (n + (m g b).1, (m g b).2) = (n + (m all b).1, (m all b).2)
    rw [h.kept g b fun x hx => hn x (Nat.le_trans hx (Nat.le_add_left _ _))]

theorem Fair.ite {α : Type} {k : Nat} {c : Prop} [Decidable c] {m m' : Meter α} (h : Fair k m) (h' : Fair k m') :
    Fair k (if c then m else m') := by
  split
  · exact h
  · exact h'

end Meter

open Meter (ask lift erase Fair erase_bind erase_pure erase_lift erase_ask erase_ite)

/-- The `operator>>` of a type with its requests visible. -/
class Metered (α : Type) [Ua α] where
  decM : α → Meter α
  same : ∀ old, erase (decM old) = dec old
  fair : ∀ old, Fair 1 (decM old)

open Metered (decM same fair)

/-! ## Fixed size types -/

theorem lift_bind {α β : Type} (m : Codec α) (f : α → Codec β) : lift (m >>= f) = (lift m >>= fun a => lift (f a)) := by
  funext g b
  show (0, (m b >>= fun p => f p.1 p.2)) = Meter.next 0 (fun a b => (0, f a b)) (m b)
  cases m b <;> rfl

theorem lift_pure {α : Type} (a : α) : lift (pure a : Codec α) = pure a := rfl

/-- The fixed size types ask for nothing. -/
macro "plain" : tactic => `(tactic| (
  simp only [lift_bind, lift_pure]
  refine Fair.first Fair.read fun _ => ?_
  repeat (refine Fair.rest Fair.read fun _ => ?_)
  exact Fair.pure _))

theorem Fair.four {α : Type} {k : UInt8 → UInt8 → UInt8 → UInt8 → α} :
    Fair 1 (lift (do let a ← Ua.read; let b ← Ua.read; let c ← Ua.read; let d ← Ua.read
                     Pure.pure (k a b c d))) := by
  plain

theorem Fair.eight {α : Type} {k : UInt8 → UInt8 → UInt8 → UInt8 → UInt8 → UInt8 → UInt8 → UInt8 → α} :
    Fair 1 (lift (do let a ← Ua.read; let b ← Ua.read; let c ← Ua.read; let d ← Ua.read
                     let e ← Ua.read; let f ← Ua.read; let g ← Ua.read; let h ← Ua.read
                     Pure.pure (k a b c d e f g h))) := by
  plain

instance : Metered Bool where
  decM old := lift (dec old)
  same _ := rfl
  fair old := by
    show Fair 1 (lift (do
      let x ← read
      pure (x != 0)))
    plain

instance : Metered Int8 where
  decM old := lift (dec old)
  same _ := rfl
  fair old := by
    show Fair 1 (lift (do
      let x ← read
      pure x.toInt8))
    plain

instance : Metered Int16 where
  decM old := lift (dec old)
  same _ := rfl
  fair old := by
    show Fair 1 (lift (do
      let ll ← read
      let hh ← read
      pure (hh.toUInt16 <<< 8 ||| ll.toUInt16).toInt16))
    plain

instance : Metered UInt16 where
  decM old := lift (dec old)
  same _ := rfl
  fair old := by
    show Fair 1 (lift (do
      let ll ← read
      let hh ← read
      pure (hh.toUInt16 <<< 8 ||| ll.toUInt16)))
    plain

instance : Metered Int32 where
  decM old := lift (dec old)
  same _ := rfl
  fair old := by
    show Fair 1 (lift (do
      let a ← read
      let b ← read
      let c ← read
      let d ← read
      pure (d.toUInt32 <<< 24 ||| c.toUInt32 <<< 16 ||| b.toUInt32 <<< 8 ||| a.toUInt32).toInt32))
    plain

instance : Metered UInt32 where
  decM old := lift (dec old)
  same _ := rfl
  fair old := by
    show Fair 1 (lift (do
      let a ← read
      let b ← read
      let c ← read
      let d ← read
      pure (d.toUInt32 <<< 24 ||| c.toUInt32 <<< 16 ||| b.toUInt32 <<< 8 ||| a.toUInt32)))
    plain

instance : Metered Int64 where
  decM old := lift (dec old)
  same _ := rfl
  fair _ := Fair.eight

instance : Metered UInt64 where
  decM old := lift (dec old)
  same _ := rfl
  fair _ := Fair.eight

instance : Metered F32 where
  decM old := lift (dec old)
  same _ := rfl
  fair _ := Fair.four

instance : Metered F64 where
  decM old := lift (dec old)
  same _ := rfl
  fair _ := Fair.eight

instance : Metered UInt8 where
  decM old := lift (dec old)
  same _ := rfl
  fair _ := Fair.read

/-- `if (mask & bit) s >> field;` -/
def decMIf {α : Type} [Ua α] [Metered α] (c : Bool) (old : α) : Meter α := if c then decM old else pure old

theorem erase_decMIf {α : Type} [Ua α] [Metered α] (c : Bool) (old : α) : erase (decMIf c old) = decIf c old := by
  unfold decMIf decIf
  rw [erase_ite, same, erase_pure]

theorem Fair.opt {α : Type} [Ua α] [Metered α] (c : Bool) (old : α) : Fair 0 (decMIf c old) :=
  Fair.ite ((fair old).weaken (Nat.zero_le 1)) (Fair.pure _)

instance : Metered DateTime where
  decM _ := do
    let t ← decM (0 : Int64)
    pure ⟨t⟩
  same old := by
    simp only [erase_bind, erase_pure, same]
    rfl
  fair old := by
    refine Fair.first (fair _) fun _ => ?_
    repeat (first | refine Fair.rest (fair _) fun _ => ?_ | refine Fair.rest (Fair.opt _ _) fun _ => ?_)
    exact Fair.pure _

instance : Metered StatusCode where
  decM _ := do
    let t ← decM (0 : UInt32)
    pure ⟨t⟩
  same old := by
    simp only [erase_bind, erase_pure, same]
    rfl
  fair old := by
    refine Fair.first (fair _) fun _ => ?_
    repeat (first | refine Fair.rest (fair _) fun _ => ?_ | refine Fair.rest (Fair.opt _ _) fun _ => ?_)
    exact Fair.pure _

instance {α β : Type} [Ua α] [Ua β] [Metered α] [Metered β] : Metered (α × β) where
  decM old := do
    let a ← decM old.1
    let b ← decM old.2
    pure (a, b)
  same old := by
    simp only [erase_bind, erase_pure, same]
    rfl
  fair old := by
    refine Fair.first (fair _) fun _ => ?_
    repeat (first | refine Fair.rest (fair _) fun _ => ?_ | refine Fair.rest (Fair.opt _ _) fun _ => ?_)
    exact Fair.pure _

instance : Metered Guid where
  decM old := do
    let data1 ← decM old.data1
    let data2 ← decM old.data2
    let data3 ← decM old.data3
    let data4 ← decM old.data4
    pure { data1, data2, data3, data4 }
  same old := by
    simp only [erase_bind, erase_pure, same]
    rfl
  fair old := by
    refine Fair.first (fair _) fun _ => ?_
    repeat (first | refine Fair.rest (fair _) fun _ => ?_ | refine Fair.rest (Fair.opt _ _) fun _ => ?_)
    exact Fair.pure _

/-! ## Strings, optional values, arrays -/

theorem Fair.readN : ∀ n, Fair n (lift (readN n))
  | 0 => Fair.pure _
  | n + 1 => by
    show Fair (n + 1) (lift (do let x ← read; let xs ← Ua.readN n; pure (x :: xs)))
    simp only [lift_bind, lift_pure]
    have := Fair.read.bind fun x => (Fair.readN n).bind fun xs => Fair.pure (x :: xs)
    exact this.weaken (by omega)

/-- `resize` and the loop of `read` calls, OpcUaBinaryCodec.cpp:264-268 and 332-336: a negative length throws
(`std::length_error`) without a request. -/
def readCharsM (len : Int32) : Meter (List UInt8) :=
  if len < 0 then lift Codec.throws
  else do
    ask len.toInt.toNat
    lift (readN len.toInt.toNat)

theorem erase_readCharsM (len : Int32) : erase (readCharsM len) = readChars len := by
  unfold readCharsM readChars
  rw [erase_ite, erase_bind, erase_ask]
  rfl

theorem Fair.readCharsM (len : Int32) : Fair 0 (readCharsM len) :=
  Fair.ite Fair.throws (Fair.asked (Fair.readN _))

/-- String, OpcUaBinaryCodec.cpp:254-270. -/
instance : Metered Str where
  decM old := do
    let len ← decM (0 : Int32)
    if len = -1 then pure old
    else do
      let bytes ← readCharsM len
      pure ⟨bytes⟩
  same old := by
    simp only [erase_bind, erase_pure, same, erase_ite, erase_readCharsM]
    rfl
  fair old := Fair.first (fair _) fun _ => Fair.ite (Fair.pure _) (Fair.rest (Fair.readCharsM _) fun _ => Fair.pure _)

/-- ByteString, OpcUaBinaryCodec.cpp:321-338. -/
instance : Metered ByteString where
  decM _ := do
    let len ← decM (0 : Int32)
    if len = -1 then pure ⟨[]⟩
    else do
      let bytes ← readCharsM len
      pure ⟨bytes⟩
  same old := by
    simp only [erase_bind, erase_pure, same, erase_ite, erase_readCharsM]
    rfl
  fair old := Fair.first (fair _) fun _ => Fair.ite (Fair.pure _) (Fair.rest (Fair.readCharsM _) fun _ => Fair.pure _)

/-- `Opt<T>`, OpcUaBinaryCodec.hpp:195-201: the value lives in place. -/
instance {α : Type} [Ua α] [Metered α] : Metered (Option α) where
  decM _ := do
    let x ← decM (Ua.init : α)
    pure (some x)
  same old := by
    simp only [erase_bind, erase_pure, same]
    rfl
  fair old := Fair.first (fair _) fun _ => Fair.pure _

/-- The loop over the elements, OpcUaBinaryCodec.hpp:245-248. -/
def decElemsM {α : Type} [Ua α] [Metered α] : List α → Meter (List α)
  | [] => pure []
  | x :: xs => do
    let y ← decM x
    let ys ← decElemsM xs
    pure (y :: ys)

theorem erase_decElemsM {α : Type} [Ua α] [Metered α] : ∀ l : List α, erase (decElemsM l) = decElems l
  | [] => rfl
  | x :: xs => by
    simp only [decElemsM, decElems, erase_bind, erase_pure, same, erase_decElemsM xs]

theorem Fair.decElemsM {α : Type} [Ua α] [Metered α] : ∀ l : List α, Fair l.length (decElemsM l)
  | [] => Fair.pure _
  | x :: xs => by
    have := (fair x).bind fun y => (Fair.decElemsM xs).bind fun ys => Fair.pure (y :: ys)
    exact this.weaken (by simp; omega)

theorem resizeTo_length {α : Type} [Ua α] (old : List α) (n : Nat) : (resizeTo old n).length = n := by
  simp [resizeTo]
  omega

/-- `DynamicArray<T>`, OpcUaBinaryCodec.hpp:239-250. -/
instance {α : Type} [Ua α] [Metered α] : Metered (List α) where
  decM old := do
    let arrayLength ← decM (0 : Int32)
    if arrayLength < 0 then lift Codec.throws
    else do
      ask arrayLength.toInt.toNat
      decElemsM (resizeTo old arrayLength.toInt.toNat)
  same old := by
    simp only [erase_bind, same, erase_ite, erase_ask, erase_lift, erase_decElemsM]
    rfl
  fair old := by
    refine Fair.first (fair _) fun n => Fair.ite Fair.throws (Fair.asked ?_)
    have := Fair.decElemsM (resizeTo old n.toInt.toNat)
    rw [resizeTo_length] at this
    exact this

/-! ## The other built-in types -/

/-- The switch of the NodeId decoder, OpcUaBinaryCodec.cpp:360-400. -/
def NodeId.decodeBodyM (old : NodeId) (form : Nat) : Meter NodeId :=
  match form with
  | 0 => do
    let identifier ← decM (0 : UInt8)
    pure { old with value := .numeric identifier.toUInt32 }
  | 1 => do
    let ns ← decM (0 : UInt8)
    let identifier ← decM (0 : UInt16)
    pure { namespaceIndex := ns.toUInt16, value := .numeric identifier.toUInt32 }
  | 2 => do
    let ns ← decM old.namespaceIndex
    let identifier ← decM (Ua.init : UInt32)
    pure { namespaceIndex := ns, value := .numeric identifier }
  | 3 => do
    let ns ← decM old.namespaceIndex
    let s ← decM (Ua.init : Str)
    pure { namespaceIndex := ns, value := .string s }
  | 4 => do
    let ns ← decM old.namespaceIndex
    let g ← decM (Ua.init : Guid)
    pure { namespaceIndex := ns, value := .guid g }
  | 5 => do
    let ns ← decM old.namespaceIndex
    let o ← decM (Ua.init : ByteString)
    pure { namespaceIndex := ns, value := .opaque o }
  | _ => lift Codec.terminate

theorem NodeId.erase_bodyM (old : NodeId) (form : Nat) : erase (NodeId.decodeBodyM old form) = NodeId.decodeBody old form := by
  unfold NodeId.decodeBodyM NodeId.decodeBody
  split <;> simp only [erase_bind, erase_pure, same, erase_lift]

theorem NodeId.fair_bodyM (old : NodeId) (form : Nat) : Fair 0 (NodeId.decodeBodyM old form) := by
  unfold NodeId.decodeBodyM
  split
  case h_7 => exact Fair.terminate
  all_goals
    repeat (refine Fair.rest (fair _) fun _ => ?_)
    exact Fair.pure _

/-- NodeId, OpcUaBinaryCodec.cpp:356-402. -/
instance : Metered NodeId where
  decM old := do
    let encByte ← decM (0 : UInt8)
    NodeId.decodeBodyM old (encByte &&& 0xF).toNat
  same old := by
    simp only [erase_bind, same, NodeId.erase_bodyM]
    rfl
  fair old := Fair.first (fair _) fun _ => NodeId.fair_bodyM _ _

theorem Fair.peek : Fair 0 (lift peek) :=
  Fair.ofLift fun b v b' h => by
    unfold Ua.peek at h
    split at h
    · simp only [Exec.ok.injEq, Prod.mk.injEq] at h
      rw [← h.2]
      omega
    · exact absurd h (by simp)

/-- ExpandedNodeId, OpcUaBinaryCodec.cpp:590-603. -/
instance : Metered ExpandedNodeId where
  decM old := do
    let encodingMask ← lift peek
    let nodeId ← decM old.nodeId
    let namespaceUri ← decMIf (bit encodingMask 0x80) old.namespaceUri
    let serverIndex ← decMIf (bit encodingMask 0x40) old.serverIndex
    pure { nodeId, namespaceUri, serverIndex }
  same old := by
    simp only [erase_bind, erase_pure, erase_lift, same, erase_decMIf]
    rfl
  fair old := by
    refine Fair.bind (k := 0) Fair.peek fun _ => Fair.first (fair _) fun _ => ?_
    repeat (refine Fair.rest (Fair.opt _ _) fun _ => ?_)
    exact Fair.pure _

instance : Metered QualifiedName where
  decM old := do
    let namespaceIndex ← decM old.namespaceIndex
    let name ← decM old.name
    pure { namespaceIndex, name }
  same old := by
    simp only [erase_bind, erase_pure, same]
    rfl
  fair old := by
    refine Fair.first (fair _) fun _ => ?_
    repeat (first | refine Fair.rest (fair _) fun _ => ?_ | refine Fair.rest (Fair.opt _ _) fun _ => ?_)
    exact Fair.pure _

instance : Metered LocalizedText where
  decM old := do
    let encodingMask ← decM (0 : UInt8)
    let locale ← decMIf (bit encodingMask 0x1) old.locale
    let text ← decMIf (bit encodingMask 0x2) old.text
    pure { locale, text }
  same old := by
    simp only [erase_bind, erase_pure, same, erase_decMIf]
    rfl
  fair old := by
    refine Fair.first (fair _) fun _ => ?_
    repeat (first | refine Fair.rest (fair _) fun _ => ?_ | refine Fair.rest (Fair.opt _ _) fun _ => ?_)
    exact Fair.pure _

instance : Metered ExtensionObject where
  decM old := do
    let nodeId ← decM old.nodeId
    let encodingMask ← decM (0 : UInt8)
    let byteString ← decMIf (encodingMask == 1 || encodingMask == 2) old.byteString
    pure { nodeId, byteString }
  same old := by
    simp only [erase_bind, erase_pure, same, erase_decMIf]
    rfl
  fair old := by
    refine Fair.first (fair _) fun _ => ?_
    repeat (first | refine Fair.rest (fair _) fun _ => ?_ | refine Fair.rest (Fair.opt _ _) fun _ => ?_)
    exact Fair.pure _

/-- The plain fields of a DiagnosticInfo, OpcUaBinaryCodec.cpp:471-494. -/
def DiagFields.decodeM (old : DiagFields) : Meter (UInt8 × DiagFields) := do
  let encodingMask ← decM (0 : UInt8)
  let symbolicId ← decMIf (bit encodingMask 0x1) old.symbolicId
  let namespaceUri ← decMIf (bit encodingMask 0x2) old.namespaceUri
  let locale ← decMIf (bit encodingMask 0x4) old.locale
  let localizedText ← decMIf (bit encodingMask 0x8) old.localizedText
  let additionalInfo ← decMIf (bit encodingMask 0x10) old.additionalInfo
  let innerStatusCode ← decMIf (bit encodingMask 0x20) old.innerStatusCode
  pure (encodingMask,
    { symbolicId, namespaceUri, locale, localizedText, additionalInfo, innerStatusCode })

theorem DiagFields.erase_decodeM (old : DiagFields) : erase old.decodeM = old.decode := by
  simp only [DiagFields.decodeM, erase_bind, erase_pure, same, erase_decMIf]
  rfl

theorem DiagFields.fair_decodeM (old : DiagFields) : Fair 1 old.decodeM := by
  refine Fair.first (fair _) fun _ => ?_
  repeat (refine Fair.rest (Fair.opt _ _) fun _ => ?_)
  exact Fair.pure _

/-- DiagnosticInfo, OpcUaBinaryCodec.cpp:467-500; the inner one is a new object (OpcUaBinaryCodec.hpp:208-214). -/
def DiagnosticInfo.decodeM : Nat → DiagnosticInfo → Meter DiagnosticInfo
  | 0, _ => lift fun _ => .ub
  | n + 1, old => do
    let (encodingMask, f) ← old.fields.decodeM
    if bit encodingMask 0x40 then do
      ask 1
      let inner ← DiagnosticInfo.decodeM n (.leaf DiagFields.init)
      pure (.nest f inner)
    else pure (old.withFields f)

theorem DiagnosticInfo.erase_decodeM : ∀ n old, erase (DiagnosticInfo.decodeM n old) = DiagnosticInfo.decode n old
  | 0, _ => rfl
  | n + 1, old => by
    simp only [DiagnosticInfo.decodeM, DiagnosticInfo.decode, erase_bind, erase_pure, erase_ite, erase_ask,
      DiagFields.erase_decodeM, DiagnosticInfo.erase_decodeM n]
    rfl

theorem DiagnosticInfo.fair_decodeM : ∀ n old, Fair 1 (DiagnosticInfo.decodeM n old)
  | 0, _ => Fair.ofLift fun _ _ _ h => absurd h (by simp)
  | n + 1, old => by
    refine Fair.first (DiagFields.fair_decodeM _) fun r => Fair.ite (Fair.asked ?_) (Fair.pure _)
    exact Fair.first (DiagnosticInfo.fair_decodeM n _) fun _ => Fair.pure _

instance : Metered DiagnosticInfo where
  decM := DiagnosticInfo.decodeM (maxPacketLen + 1)
  same old := DiagnosticInfo.erase_decodeM _ old
  fair old := DiagnosticInfo.fair_decodeM _ old

/-! ## Variants and data values -/

/-- Decode into a freshly emplaced alternative, types/Variant.hpp:104-109. -/
def freshM {α : Type} [Ua α] [Metered α] : Meter α := decM Ua.init

theorem erase_freshM {α : Type} [Ua α] [Metered α] : erase (freshM : Meter α) = fresh := same _

/-- Arrays, OpcUaBinaryCodec.cpp:734-776. -/
def VArray.decodeM (typeId : Nat) : Meter VArray :=
  match typeId with
  | 1 => do let x ← freshM; pure (.boolean x)
  | 2 => do let x ← freshM; pure (.sbyte x)
  | 3 => do let x ← freshM; pure (.byte x)
  | 4 => do let x ← freshM; pure (.int16 x)
  | 5 => do let x ← freshM; pure (.uint16 x)
  | 6 => do let x ← freshM; pure (.int32 x)
  | 7 => do let x ← freshM; pure (.uint32 x)
  | _ => lift Codec.terminate

theorem VArray.erase_decodeM (typeId : Nat) : erase (VArray.decodeM typeId) = VArray.decode typeId := by
  unfold VArray.decodeM VArray.decode
  split <;> simp only [erase_bind, erase_pure, erase_freshM, erase_lift]

theorem VArray.fair_decodeM (typeId : Nat) : Fair 0 (VArray.decodeM typeId) := by
  unfold VArray.decodeM
  split
  case h_8 => exact Fair.terminate
  all_goals exact Fair.rest (fair _) fun _ => Fair.pure _

/-- Scalars, OpcUaBinaryCodec.cpp:780-895; an XmlElement reads nothing. -/
def Scalar.decodeM (typeId : Nat) : Meter (Option Scalar) :=
  match typeId with
  | 1 => do let x ← freshM; pure (some (.boolean x))
  | 2 => do let x ← freshM; pure (some (.sbyte x))
  | 3 => do let x ← freshM; pure (some (.byte x))
  | 4 => do let x ← freshM; pure (some (.int16 x))
  | 5 => do let x ← freshM; pure (some (.uint16 x))
  | 6 => do let x ← freshM; pure (some (.int32 x))
  | 7 => do let x ← freshM; pure (some (.uint32 x))
  | 8 => do let x ← freshM; pure (some (.int64 x))
  | 9 => do let x ← freshM; pure (some (.uint64 x))
  | 10 => do let x ← freshM; pure (some (.float x))
  | 11 => do let x ← freshM; pure (some (.double x))
  | 12 => do let x ← freshM; pure (some (.string x))
  | 13 => do let x ← freshM; pure (some (.dateTime x))
  | 14 => do let x ← freshM; pure (some (.guid x))
  | 15 => do let x ← freshM; pure (some (.byteString x))
  | 16 => do let x ← lift fresh; pure (some (.xmlElement x))
  | 17 => do let x ← freshM; pure (some (.nodeId x))
  | 18 => do let x ← freshM; pure (some (.expandedNodeId x))
  | 19 => do let x ← freshM; pure (some (.statusCode x))
  | 20 => do let x ← freshM; pure (some (.qualifiedName x))
  | 21 => do let x ← freshM; pure (some (.localizedText x))
  | 22 => do let x ← freshM; pure (some (.extensionObject x))
  | _ => pure none

theorem Scalar.erase_decodeM (typeId : Nat) : erase (Scalar.decodeM typeId) = Scalar.decode typeId := by
  unfold Scalar.decodeM Scalar.decode
  split <;> simp only [erase_bind, erase_pure, erase_freshM, erase_lift]

theorem Scalar.fair_decodeM (typeId : Nat) : Fair 0 (Scalar.decodeM typeId) := by
  unfold Scalar.decodeM
  split
  case h_16 => exact Fair.rest (k := 0) (Fair.pure _) fun _ => Fair.pure _
  case h_23 => exact Fair.pure _
  all_goals exact Fair.rest (fair _) fun _ => Fair.pure _

/-- Variant, OpcUaBinaryCodec.cpp:726-897. -/
instance : Metered Variant where
  decM old := do
    let encodingMask ← decM (0 : UInt8)
    if encodingMask = 0 then pure old
    else if bit encodingMask 0x80 then do
      let x ← VArray.decodeM (encodingMask &&& 0x3f).toNat
      pure { old with value := some (.array x) }
    else do
      let x ← Scalar.decodeM (encodingMask &&& 0x3f).toNat
      match x with
      | some x => pure { old with value := some (.scalar x) }
      | none => pure old
  same old := by
    show _ = Variant.decode old
    simp only [Variant.decode, erase_bind, erase_pure, erase_ite, same, VArray.erase_decodeM, Scalar.erase_decodeM]
    congr 1
    funext m
    congr 1
    congr 1
    congr 1
    funext x
    cases x <;> rfl
  fair old := by
    refine Fair.first (fair _) fun _ => Fair.ite (Fair.pure _) (Fair.ite ?_ ?_)
    · exact Fair.rest (VArray.fair_decodeM _) fun _ => Fair.pure _
    · refine Fair.rest (Scalar.fair_decodeM _) fun x => ?_
      cases x
      · exact Fair.pure _
      · exact Fair.pure _

instance : Metered DataValue where
  decM old := do
    let encodingMask ← decM (0 : UInt8)
    let value ← decMIf (bit encodingMask 0x1) old.value
    let status ← decMIf (bit encodingMask 0x2) old.status
    let sourceTimestampt ← decMIf (bit encodingMask 0x4) old.sourceTimestampt
    let sourcePicoSeconds ← decMIf (bit encodingMask 0x8) old.sourcePicoSeconds
    let serverTimeStampt ← decMIf (bit encodingMask 0x10) old.serverTimeStampt
    let serverPicoSeconds ← decMIf (bit encodingMask 0x20) old.serverPicoSeconds
    pure { value, status, sourceTimestampt, sourcePicoSeconds, serverTimeStampt,
           serverPicoSeconds }
  same old := by
    simp only [erase_bind, erase_pure, same, erase_decMIf]
    rfl
  fair old := by
    refine Fair.first (fair _) fun _ => ?_
    repeat (first | refine Fair.rest (fair _) fun _ => ?_ | refine Fair.rest (Fair.opt _ _) fun _ => ?_)
    exact Fair.pure _

/-! ## Messages -/

instance : Metered MessageHeader where
  decM old := do
    let messageType ← decM old.messageType
    let isFinal ← decM old.isFinal
    let messageSize ← decM old.messageSize
    pure { messageType, isFinal, messageSize }
  same old := by
    simp only [erase_bind, erase_pure, same]
    rfl
  fair old := by
    refine Fair.first (fair _) fun _ => ?_
    repeat (first | refine Fair.rest (fair _) fun _ => ?_ | refine Fair.rest (Fair.opt _ _) fun _ => ?_)
    exact Fair.pure _

instance : Metered HelloMessage where
  decM old := do
    let protocolVersion ← decM old.protocolVersion
    let receiveBufferSize ← decM old.receiveBufferSize
    let sendBufferSize ← decM old.sendBufferSize
    let maxMessageSize ← decM old.maxMessageSize
    let maxChunkCount ← decM old.maxChunkCount
    let endpointUrl ← decM old.endpointUrl
    pure { protocolVersion, receiveBufferSize, sendBufferSize, maxMessageSize, maxChunkCount, endpointUrl }
  same old := by
    simp only [erase_bind, erase_pure, same]
    rfl
  fair old := by
    refine Fair.first (fair _) fun _ => ?_
    repeat (first | refine Fair.rest (fair _) fun _ => ?_ | refine Fair.rest (Fair.opt _ _) fun _ => ?_)
    exact Fair.pure _

instance : Metered AcknowledgeMessage where
  decM old := do
    let protocolVersion ← decM old.protocolVersion
    let receiveBufferSize ← decM old.receiveBufferSize
    let sendBufferSize ← decM old.sendBufferSize
    let maxMessageSize ← decM old.maxMessageSize
    let maxChunkCount ← decM old.maxChunkCount
    pure { protocolVersion, receiveBufferSize, sendBufferSize, maxMessageSize, maxChunkCount }
  same old := by
    simp only [erase_bind, erase_pure, same]
    rfl
  fair old := by
    refine Fair.first (fair _) fun _ => ?_
    repeat (first | refine Fair.rest (fair _) fun _ => ?_ | refine Fair.rest (Fair.opt _ _) fun _ => ?_)
    exact Fair.pure _

instance : Metered ErrorMessage where
  decM old := do
    let error ← decM old.error
    let reason ← decM old.reason
    pure { error, reason }
  same old := by
    simp only [erase_bind, erase_pure, same]
    rfl
  fair old := by
    refine Fair.first (fair _) fun _ => ?_
    repeat (first | refine Fair.rest (fair _) fun _ => ?_ | refine Fair.rest (Fair.opt _ _) fun _ => ?_)
    exact Fair.pure _

instance : Metered ReverseHelloMessage where
  decM old := do
    let serverUri ← decM old.serverUri
    let endpointUrl ← decM old.endpointUrl
    pure { serverUri, endpointUrl }
  same old := by
    simp only [erase_bind, erase_pure, same]
    rfl
  fair old := by
    refine Fair.first (fair _) fun _ => ?_
    repeat (first | refine Fair.rest (fair _) fun _ => ?_ | refine Fair.rest (Fair.opt _ _) fun _ => ?_)
    exact Fair.pure _

instance : Metered UaMessageHeader where
  decM old := do
    let messageType ← decM old.messageType
    let isFinal ← decM old.isFinal
    let messageSize ← decM old.messageSize
    let secureChannelId ← decM old.secureChannelId
    pure { messageType, isFinal, messageSize, secureChannelId }
  same old := by
    simp only [erase_bind, erase_pure, same]
    rfl
  fair old := by
    refine Fair.first (fair _) fun _ => ?_
    repeat (first | refine Fair.rest (fair _) fun _ => ?_ | refine Fair.rest (Fair.opt _ _) fun _ => ?_)
    exact Fair.pure _

instance : Metered UaSecurityHeader where
  decM old := do
    let securityPolicyUri ← decM old.securityPolicyUri
    let senderCertificate ← decM old.senderCertificate
    let receiverCertificateThumbprint ← decM old.receiverCertificateThumbprint
    pure { securityPolicyUri, senderCertificate, receiverCertificateThumbprint }
  same old := by
    simp only [erase_bind, erase_pure, same]
    rfl
  fair old := by
    refine Fair.first (fair _) fun _ => ?_
    repeat (first | refine Fair.rest (fair _) fun _ => ?_ | refine Fair.rest (Fair.opt _ _) fun _ => ?_)
    exact Fair.pure _

instance : Metered UaSecurityTokenHeader where
  decM old := do
    let tokenId ← decM old.tokenId
    pure { tokenId }
  same old := by
    simp only [erase_bind, erase_pure, same]
    rfl
  fair old := by
    refine Fair.first (fair _) fun _ => ?_
    repeat (first | refine Fair.rest (fair _) fun _ => ?_ | refine Fair.rest (Fair.opt _ _) fun _ => ?_)
    exact Fair.pure _

instance : Metered UaSequenceHeader where
  decM old := do
    let sequenceNumber ← decM old.sequenceNumber
    let requestId ← decM old.requestId
    pure { sequenceNumber, requestId }
  same old := by
    simp only [erase_bind, erase_pure, same]
    rfl
  fair old := by
    refine Fair.first (fair _) fun _ => ?_
    repeat (first | refine Fair.rest (fair _) fun _ => ?_ | refine Fair.rest (Fair.opt _ _) fun _ => ?_)
    exact Fair.pure _

instance : Metered UaRequestHeader where
  decM old := do
    let authentificationToken ← decM old.authentificationToken
    let timestamp ← decM old.timestamp
    let requestHandle ← decM old.requestHandle
    let returnDignostics ← decM old.returnDignostics
    let auditEntityId ← decM old.auditEntityId
    let timeoutHint ← decM old.timeoutHint
    let additionalHeader ← decM old.additionalHeader
    pure { authentificationToken, timestamp, requestHandle, returnDignostics, auditEntityId, timeoutHint, additionalHeader }
  same old := by
    simp only [erase_bind, erase_pure, same]
    rfl
  fair old := by
    refine Fair.first (fair _) fun _ => ?_
    repeat (first | refine Fair.rest (fair _) fun _ => ?_ | refine Fair.rest (Fair.opt _ _) fun _ => ?_)
    exact Fair.pure _

instance : Metered UaResponseHeader where
  decM old := do
    let timestamp ← decM old.timestamp
    let requestHandle ← decM old.requestHandle
    let serviceResult ← decM old.serviceResult
    let serviceDiagnostics ← decM old.serviceDiagnostics
    let stringTable ← decM old.stringTable
    let additionalHeader ← decM old.additionalHeader
    pure { timestamp, requestHandle, serviceResult, serviceDiagnostics, stringTable, additionalHeader }
  same old := by
    simp only [erase_bind, erase_pure, same]
    rfl
  fair old := by
    refine Fair.first (fair _) fun _ => ?_
    repeat (first | refine Fair.rest (fair _) fun _ => ?_ | refine Fair.rest (Fair.opt _ _) fun _ => ?_)
    exact Fair.pure _

instance : Metered UaOpenSecureChannelReq where
  decM old := do
    let requestHdr ← decM old.requestHdr
    let clientProtocolVer ← decM old.clientProtocolVer
    let securityTokenRequestType ← decM old.securityTokenRequestType
    let securityMode ← decM old.securityMode
    let clientNonce ← decM old.clientNonce
    let requestLifetime ← decM old.requestLifetime
    pure { requestHdr, clientProtocolVer, securityTokenRequestType, securityMode, clientNonce, requestLifetime }
  same old := by
    simp only [erase_bind, erase_pure, same]
    rfl
  fair old := by
    refine Fair.first (fair _) fun _ => ?_
    repeat (first | refine Fair.rest (fair _) fun _ => ?_ | refine Fair.rest (Fair.opt _ _) fun _ => ?_)
    exact Fair.pure _

instance : Metered UaCloseSecureChannelReq where
  decM old := do
    let requestHdr ← decM old.requestHdr
    pure { requestHdr }
  same old := by
    simp only [erase_bind, erase_pure, same]
    rfl
  fair old := by
    refine Fair.first (fair _) fun _ => ?_
    repeat (first | refine Fair.rest (fair _) fun _ => ?_ | refine Fair.rest (Fair.opt _ _) fun _ => ?_)
    exact Fair.pure _

instance : Metered UaCloseSecureChannelRsp where
  decM old := do
    let responseHdr ← decM old.responseHdr
    pure { responseHdr }
  same old := by
    simp only [erase_bind, erase_pure, same]
    rfl
  fair old := by
    refine Fair.first (fair _) fun _ => ?_
    repeat (first | refine Fair.rest (fair _) fun _ => ?_ | refine Fair.rest (Fair.opt _ _) fun _ => ?_)
    exact Fair.pure _

instance : Metered UaChannelSecurityToken where
  decM old := do
    let secureChannelId ← decM old.secureChannelId
    let tokenId ← decM old.tokenId
    let createdAt ← decM old.createdAt
    let revisedLifetime ← decM old.revisedLifetime
    pure { secureChannelId, tokenId, createdAt, revisedLifetime }
  same old := by
    simp only [erase_bind, erase_pure, same]
    rfl
  fair old := by
    refine Fair.first (fair _) fun _ => ?_
    repeat (first | refine Fair.rest (fair _) fun _ => ?_ | refine Fair.rest (Fair.opt _ _) fun _ => ?_)
    exact Fair.pure _

instance : Metered UaOpenSecureChannelRsp where
  decM old := do
    let responseHdr ← decM old.responseHdr
    let serverProtocolVer ← decM old.serverProtocolVer
    let securityToken ← decM old.securityToken
    let serverNonce ← decM old.serverNonce
    pure { responseHdr, serverProtocolVer, securityToken, serverNonce }
  same old := by
    simp only [erase_bind, erase_pure, same]
    rfl
  fair old := by
    refine Fair.first (fair _) fun _ => ?_
    repeat (first | refine Fair.rest (fair _) fun _ => ?_ | refine Fair.rest (Fair.opt _ _) fun _ => ?_)
    exact Fair.pure _

instance : Metered UaGetEndpointsReq where
  decM old := do
    let requestHdr ← decM old.requestHdr
    let endpointUrl ← decM old.endpointUrl
    let localeIds ← decM old.localeIds
    let profileUris ← decM old.profileUris
    pure { requestHdr, endpointUrl, localeIds, profileUris }
  same old := by
    simp only [erase_bind, erase_pure, same]
    rfl
  fair old := by
    refine Fair.first (fair _) fun _ => ?_
    repeat (first | refine Fair.rest (fair _) fun _ => ?_ | refine Fair.rest (Fair.opt _ _) fun _ => ?_)
    exact Fair.pure _

instance : Metered UaUserTokenPolicy where
  decM old := do
    let policyId ← decM old.policyId
    let tokenType ← decM old.tokenType
    let issuedTokenType ← decM old.issuedTokenType
    let issuerEndpointUrl ← decM old.issuerEndpointUrl
    let securityPolicyUri ← decM old.securityPolicyUri
    pure { policyId, tokenType, issuedTokenType, issuerEndpointUrl, securityPolicyUri }
  same old := by
    simp only [erase_bind, erase_pure, same]
    rfl
  fair old := by
    refine Fair.first (fair _) fun _ => ?_
    repeat (first | refine Fair.rest (fair _) fun _ => ?_ | refine Fair.rest (Fair.opt _ _) fun _ => ?_)
    exact Fair.pure _

instance : Metered UaApplicationDescription where
  decM old := do
    let applicationUri ← decM old.applicationUri
    let productUri ← decM old.productUri
    let applicationName ← decM old.applicationName
    let applicationType ← decM old.applicationType
    let gatewayServerUri ← decM old.gatewayServerUri
    let discoveryProfileUri ← decM old.discoveryProfileUri
    let discoveryUrls ← decM old.discoveryUrls
    pure { applicationUri, productUri, applicationName, applicationType, gatewayServerUri, discoveryProfileUri,
           discoveryUrls }
  same old := by
    simp only [erase_bind, erase_pure, same]
    rfl
  fair old := by
    refine Fair.first (fair _) fun _ => ?_
    repeat (first | refine Fair.rest (fair _) fun _ => ?_ | refine Fair.rest (Fair.opt _ _) fun _ => ?_)
    exact Fair.pure _

instance : Metered UaEndpointDescription where
  decM old := do
    let endpointUrl ← decM old.endpointUrl
    let server ← decM old.server
    let serverCertificate ← decM old.serverCertificate
    let securityMode ← decM old.securityMode
    let securityPolicyUri ← decM old.securityPolicyUri
    let userIdentityTokens ← decM old.userIdentityTokens
    let transportProfileUri ← decM old.transportProfileUri
    let securityLevel ← decM old.securityLevel
    pure { endpointUrl, server, serverCertificate, securityMode, securityPolicyUri, userIdentityTokens,
           transportProfileUri, securityLevel }
  same old := by
    simp only [erase_bind, erase_pure, same]
    rfl
  fair old := by
    refine Fair.first (fair _) fun _ => ?_
    repeat (first | refine Fair.rest (fair _) fun _ => ?_ | refine Fair.rest (Fair.opt _ _) fun _ => ?_)
    exact Fair.pure _

instance : Metered UaGetEndpointsRsp where
  decM old := do
    let responseHdr ← decM old.responseHdr
    let endpointDescription ← decM old.endpointDescription
    pure { responseHdr, endpointDescription }
  same old := by
    simp only [erase_bind, erase_pure, same]
    rfl
  fair old := by
    refine Fair.first (fair _) fun _ => ?_
    repeat (first | refine Fair.rest (fair _) fun _ => ?_ | refine Fair.rest (Fair.opt _ _) fun _ => ?_)
    exact Fair.pure _

instance : Metered UaCreateSessionReq where
  decM old := do
    let requestHdr ← decM old.requestHdr
    let clientDescription ← decM old.clientDescription
    let serverUri ← decM old.serverUri
    let endpointUrl ← decM old.endpointUrl
    let sessionName ← decM old.sessionName
    let clientNonce ← decM old.clientNonce
    let clientCertificate ← decM old.clientCertificate
    let requestedSessionTimeout ← decM old.requestedSessionTimeout
    let maxResponseMessageSize ← decM old.maxResponseMessageSize
    pure { requestHdr, clientDescription, serverUri, endpointUrl, sessionName, clientNonce, clientCertificate,
           requestedSessionTimeout, maxResponseMessageSize }
  same old := by
    simp only [erase_bind, erase_pure, same]
    rfl
  fair old := by
    refine Fair.first (fair _) fun _ => ?_
    repeat (first | refine Fair.rest (fair _) fun _ => ?_ | refine Fair.rest (Fair.opt _ _) fun _ => ?_)
    exact Fair.pure _

instance : Metered UaSignatureData where
  decM old := do
    let algorithm ← decM old.algorithm
    let signature ← decM old.signature
    pure { algorithm, signature }
  same old := by
    simp only [erase_bind, erase_pure, same]
    rfl
  fair old := by
    refine Fair.first (fair _) fun _ => ?_
    repeat (first | refine Fair.rest (fair _) fun _ => ?_ | refine Fair.rest (Fair.opt _ _) fun _ => ?_)
    exact Fair.pure _

instance : Metered UaCreateSessionRsp where
  decM old := do
    let responseHdr ← decM old.responseHdr
    let sessionId ← decM old.sessionId
    let authenticationToken ← decM old.authenticationToken
    let revisedSessionTimeout ← decM old.revisedSessionTimeout
    let serverNonce ← decM old.serverNonce
    let serverCertificate ← decM old.serverCertificate
    let serverEndpoints ← decM old.serverEndpoints
    let signedSoftwareCertificate ← decM old.signedSoftwareCertificate
    let serverSignature ← decM old.serverSignature
    let maxRequestMessageSize ← decM old.maxRequestMessageSize
    pure { responseHdr, sessionId, authenticationToken, revisedSessionTimeout, serverNonce, serverCertificate,
           serverEndpoints, signedSoftwareCertificate, serverSignature, maxRequestMessageSize }
  same old := by
    simp only [erase_bind, erase_pure, same]
    rfl
  fair old := by
    refine Fair.first (fair _) fun _ => ?_
    repeat (first | refine Fair.rest (fair _) fun _ => ?_ | refine Fair.rest (Fair.opt _ _) fun _ => ?_)
    exact Fair.pure _

instance : Metered UaCloseSessionReq where
  decM old := do
    let requestHdr ← decM old.requestHdr
    let deleteSubscriptions ← decM old.deleteSubscriptions
    pure { requestHdr, deleteSubscriptions }
  same old := by
    simp only [erase_bind, erase_pure, same]
    rfl
  fair old := by
    refine Fair.first (fair _) fun _ => ?_
    repeat (first | refine Fair.rest (fair _) fun _ => ?_ | refine Fair.rest (Fair.opt _ _) fun _ => ?_)
    exact Fair.pure _

instance : Metered UaCloseSessionRsp where
  decM old := do
    let responseHdr ← decM old.responseHdr
    pure { responseHdr }
  same old := by
    simp only [erase_bind, erase_pure, same]
    rfl
  fair old := by
    refine Fair.first (fair _) fun _ => ?_
    repeat (first | refine Fair.rest (fair _) fun _ => ?_ | refine Fair.rest (Fair.opt _ _) fun _ => ?_)
    exact Fair.pure _

instance : Metered UaActivateSessionReq where
  decM old := do
    let requestHdr ← decM old.requestHdr
    let clientSignature ← decM old.clientSignature
    let clientSoftwareCertificates ← decM old.clientSoftwareCertificates
    let localeIds ← decM old.localeIds
    let userIdentityToken ← decM old.userIdentityToken
    let userTokenSignature ← decM old.userTokenSignature
    pure { requestHdr, clientSignature, clientSoftwareCertificates, localeIds, userIdentityToken, userTokenSignature }
  same old := by
    simp only [erase_bind, erase_pure, same]
    rfl
  fair old := by
    refine Fair.first (fair _) fun _ => ?_
    repeat (first | refine Fair.rest (fair _) fun _ => ?_ | refine Fair.rest (Fair.opt _ _) fun _ => ?_)
    exact Fair.pure _

instance : Metered UaActivateSessionRsp where
  decM old := do
    let responseHdr ← decM old.responseHdr
    let serverNonce ← decM old.serverNonce
    let results ← decM old.results
    let diagnosticInfos ← decM old.diagnosticInfos
    pure { responseHdr, serverNonce, results, diagnosticInfos }
  same old := by
    simp only [erase_bind, erase_pure, same]
    rfl
  fair old := by
    refine Fair.first (fair _) fun _ => ?_
    repeat (first | refine Fair.rest (fair _) fun _ => ?_ | refine Fair.rest (Fair.opt _ _) fun _ => ?_)
    exact Fair.pure _

instance : Metered ReadValueId where
  decM old := do
    let nodeId ← decM old.nodeId
    let attributeId ← decM old.attributeId
    let indexRange ← decM old.indexRange
    let dataEncoding ← decM old.dataEncoding
    pure { nodeId, attributeId, indexRange, dataEncoding }
  same old := by
    simp only [erase_bind, erase_pure, same]
    rfl
  fair old := by
    refine Fair.first (fair _) fun _ => ?_
    repeat (first | refine Fair.rest (fair _) fun _ => ?_ | refine Fair.rest (Fair.opt _ _) fun _ => ?_)
    exact Fair.pure _

instance : Metered UaReadReq where
  decM old := do
    let requestHdr ← decM old.requestHdr
    let maxAge ← decM old.maxAge
    let timestampsToReturn ← decM old.timestampsToReturn
    let nodesToRead ← decM old.nodesToRead
    pure { requestHdr, maxAge, timestampsToReturn, nodesToRead }
  same old := by
    simp only [erase_bind, erase_pure, same]
    rfl
  fair old := by
    refine Fair.first (fair _) fun _ => ?_
    repeat (first | refine Fair.rest (fair _) fun _ => ?_ | refine Fair.rest (Fair.opt _ _) fun _ => ?_)
    exact Fair.pure _

instance : Metered UaReadRsp where
  decM old := do
    let responseHdr ← decM old.responseHdr
    let results ← decM old.results
    let diagnosticInfos ← decM old.diagnosticInfos
    pure { responseHdr, results, diagnosticInfos }
  same old := by
    simp only [erase_bind, erase_pure, same]
    rfl
  fair old := by
    refine Fair.first (fair _) fun _ => ?_
    repeat (first | refine Fair.rest (fair _) fun _ => ?_ | refine Fair.rest (Fair.opt _ _) fun _ => ?_)
    exact Fair.pure _

/-- OpcUaBinaryCodec.hpp:274-280. -/
instance {α : Type} [Ua α] [Metered α] {id : UInt32} : Metered (Cont α id) where
  decM old := do
    let eNodeId ← decM old.eNodeId
    let msg ← decM old.msg
    pure { eNodeId, msg }
  same old := by
    simp only [erase_bind, erase_pure, same]
    rfl
  fair old := by
    refine Fair.first (fair _) fun _ => ?_
    repeat (first | refine Fair.rest (fair _) fun _ => ?_ | refine Fair.rest (Fair.opt _ _) fun _ => ?_)
    exact Fair.pure _

end Uscada.Ua
