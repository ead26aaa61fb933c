import Verif.Base
/-!
# Operations on a state that survives exceptions

`SM σ α` is a C++ member function: it changes the object (or the group of objects) `σ` and returns, throws, terminates
or is undefined.  After an exception the object stays as it was at the throw, because `Reactor::run`
(common/reactor/Reactor.cpp:165-178) catches and goes on.
-/

namespace Uscada

deriving instance DecidableEq for Exec

def SM (σ α : Type) : Type := σ → Exec α × σ

namespace SM

variable {σ α β : Type}

/-- continue with the next operation or pass the abnormal outcome on -/
def andThen (r : Exec α × σ) (f : α → SM σ β) : Exec β × σ :=
  match r with
  | (.ok a, c) => f a c
  | (.throws, c) => (.throws, c)
  | (.abort, c) => (.abort, c)
  | (.ub, c) => (.ub, c)

instance : Monad (SM σ) where
  pure a := fun c => (.ok a, c)
  bind m f := fun c => andThen (m c) f

theorem pure_run (a : α) (c : σ) : (pure a : SM σ α) c = (.ok a, c) := rfl
theorem bind_run (m : SM σ α) (f : α → SM σ β) (c : σ) : (m >>= f) c = andThen (m c) f := rfl

theorem bind_ok {m : SM σ α} {f : α → SM σ β} {c c' : σ} {a : α} (h : m c = (.ok a, c')) : (m >>= f) c = f a c' := by
  rw [bind_run, h]
  rfl

theorem assoc {γ : Type} (m : SM σ α) (f : α → SM σ β) (g : β → SM σ γ) :
    (m >>= f) >>= g = m >>= fun a => f a >>= g := by
  funext c
  simp only [bind_run]
  rcases h : m c with ⟨r, c'⟩
  cases r <;> rfl

/-- undefined behaviour -/
def undefined : SM σ α := fun c => (.ub, c)

def throws : SM σ α := fun c => (.throws, c)

def modify (f : σ → σ) : SM σ Unit := fun c => (.ok (), f c)

def get : SM σ σ := fun c => (.ok c, c)

/-- a plain computation -/
def lift (e : Exec α) : SM σ α := fun c =>
  match e with
  | .ok a => (.ok a, c)
  | .throws => (.throws, c)
  | .abort => (.abort, c)
  | .ub => (.ub, c)

theorem lift_ok {e : Exec α} {a : α} (h : e = .ok a) (c : σ) : lift e c = (.ok a, c) := by
  subst h
  rfl

/-- What the reactor makes of the outcome of a handler: exceptions are logged and dropped. -/
def settle (r : Exec α × σ) : Exec σ :=
  match r with
  | (.ok _, c) => .ok c
  | (.throws, c) => .ok c
  | (.abort, _) => .abort
  | (.ub, _) => .ub

/-- What holds after an operation: `Q` after a normal return, `T` after an exception.  Termination and undefined
behaviour are excluded by the histories the theorems speak about. -/
def SPost (T : σ → Prop) (Q : α → σ → Prop) : Exec α × σ → Prop
  | (.ok a, c) => Q a c
  | (.throws, c) => T c
  | (.abort, _) => True
  | (.ub, _) => True

/-- `m`, started in a state satisfying `P`, ends normally in `Q` or throws in `T`. -/
def STri (T P : σ → Prop) (m : SM σ α) (Q : α → σ → Prop) : Prop := ∀ c, P c → SPost T Q (m c)

namespace STri

variable {T P : σ → Prop}

theorem bind {m : SM σ α} {f : α → SM σ β} {R : α → σ → Prop} {Q : β → σ → Prop}
    (h1 : STri T P m R) (h2 : ∀ a, STri T (R a) (f a) Q) : STri T P (m >>= f) Q := by
  intro c hc
  have h := h1 c hc
  rw [bind_run]
  match hm : m c with
  | (.ok a, c') => rw [hm] at h; exact h2 a c' h
  | (.throws, c') => rw [hm] at h; exact h
  | (.abort, c') => exact trivial
  | (.ub, c') => exact trivial

theorem ret {Q : α → σ → Prop} {a : α} (h : ∀ c, P c → Q a c) : STri T P (pure a : SM σ α) Q := h

theorem modify {f : σ → σ} {Q : Unit → σ → Prop} (h : ∀ c, P c → Q () (f c)) : STri T P (SM.modify f) Q := h

theorem undefined {Q : α → σ → Prop} : STri T P (SM.undefined : SM σ α) Q := fun _ _ => trivial

theorem throws {Q : α → σ → Prop} (h : ∀ c, P c → T c) : STri T P (SM.throws : SM σ α) Q := h

theorem weaken {P' : σ → Prop} {m : SM σ α} {Q Q' : α → σ → Prop} (h : STri T P m Q) (hp : ∀ c, P' c → P c)
    (hq : ∀ a c, Q a c → Q' a c) : STri T P' m Q' := by
  intro c hc
  have h := h c (hp c hc)
  match hm : m c with
  | (.ok a, c') => rw [hm] at h; exact hq a c' h
  | (.throws, c') => rw [hm] at h; exact h
  | (.abort, c') => exact trivial
  | (.ub, c') => exact trivial

/-- use the current state -/
theorem get {f : σ → SM σ β} {Q : β → σ → Prop} (h : ∀ c, P c → SPost T Q (f c c)) : STri T P (SM.get >>= f) Q := by
  intro c hc
  exact h c hc

theorem lift {e : Exec α} {Q : α → σ → Prop} (hq : ∀ a c, e = .ok a → P c → Q a c)
    (ht : ∀ c, e = .throws → P c → T c) : STri T P (SM.lift e) Q := by
  intro c hc
  unfold SM.lift
  cases e with
  | ok a => exact hq a c rfl hc
  | throws => exact ht c rfl hc
  | abort => exact trivial
  | ub => exact trivial

/-- a triple holds as soon as it holds from each single state -/
theorem pointwise {m : SM σ α} {Q : α → σ → Prop} (h : ∀ c, P c → STri T (fun c' => c' = c) m Q) : STri T P m Q :=
  fun c hc => h c hc c rfl

end STri

theorem settle_ok {T : σ → Prop} {Q : α → σ → Prop} {r : Exec α × σ} {c' : σ} (h : SPost T Q r) (hs : settle r = .ok c') :
    T c' ∨ ∃ a, Q a c' := by
  match r, h, hs with
  | (.ok a, c), h, hs => simp only [settle, Exec.ok.injEq] at hs; exact .inr ⟨a, hs ▸ h⟩
  | (.throws, c), h, hs => simp only [settle, Exec.ok.injEq] at hs; exact .inl (hs ▸ h)
  | (.abort, c), _, hs => cases hs
  | (.ub, c), _, hs => cases hs

end SM

end Uscada
