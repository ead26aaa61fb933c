import Verif.UaCodec

/-!
# C104: nodes of the address space carry the attributes of their class

common/ua/common/Attribute.hpp, NodeClassBase.hpp, NodeClassObject.hpp, NodeClassObjectType.hpp, NodeClassVariable.hpp,
NodeClassReferenceType.hpp, NodeClassDataType.hpp.  No other file of the program makes a node yet.
-/

namespace Uscada.Ua.Nodes

/-! ## The classes -/

/-- The classes of nodes that are written down (NodeClassObject.hpp:10, NodeClassVariable.hpp:9, NodeClassObjectType.hpp:10,
NodeClassReferenceType.hpp:12, NodeClassDataType.hpp:9). -/
inductive Kind | object | variable | objectType | referenceType | dataType
  deriving DecidableEq, Repr

/-- The types of attributes (second argument of `Attribute`, Attribute.hpp:41). -/
inductive Ty | nodeId | nodeClass | name | text | mask | roles | boolean | byte
  deriving DecidableEq, Repr

/-- Values of attributes.  `roles` is types/RolePermissionType.hpp:10-14; a `NodeClass` (types/NodeClass.hpp:6-17) is its number. -/
inductive Val
  | nodeId (x : NodeId) | nodeClass (n : Nat) | name (x : QualifiedName) | text (x : LocalizedText) | mask (x : UInt32)
  | roles (role : NodeId) (permissions : UInt32) | boolean (x : Bool) | byte (x : UInt8)

/-- Type of a value. -/
def Val.ty : Val → Ty
  | .nodeId _ => .nodeId
  | .nodeClass _ => .nodeClass
  | .name _ => .name
  | .text _ => .text
  | .mask _ => .mask
  | .roles _ _ => .roles
  | .boolean _ => .boolean
  | .byte _ => .byte

/-- A member `Attribute<Id, T>` or `AttributeOpt<Id, T>` (Attribute.hpp:41-57); ids as in Attribute.hpp:10-39. -/
structure Decl where
  id : Nat
  ty : Ty
  optional : Bool
  deriving DecidableEq, Repr

/-- The members of `NodeClassBase` in their order (NodeClassBase.hpp:25-33). -/
def base : List Decl :=
  [⟨1, .nodeId, false⟩, ⟨2, .nodeClass, false⟩, ⟨3, .name, false⟩, ⟨4, .text, false⟩, ⟨5, .text, true⟩,
   ⟨6, .mask, true⟩, ⟨7, .mask, true⟩, ⟨24, .roles, true⟩, ⟨25, .roles, true⟩]

/-- The members that the classes add (NodeClassObject.hpp:16, NodeClassVariable.hpp:15-16, NodeClassObjectType.hpp:16,
NodeClassReferenceType.hpp:18-20, NodeClassDataType.hpp:15). -/
def own : Kind → List Decl
  | .object => [⟨12, .byte, false⟩]
  | .variable => [⟨1, .nodeId, false⟩, ⟨1, .nodeId, false⟩]
  | .objectType => [⟨8, .boolean, false⟩]
  | .referenceType => [⟨8, .boolean, false⟩, ⟨9, .boolean, false⟩, ⟨10, .text, true⟩]
  | .dataType => [⟨8, .boolean, false⟩]

/-- All members of a class. -/
def decls (k : Kind) : List Decl := base ++ own k

/-! ## Objects -/

/-- What `Attribute::val` holds (Attribute.hpp:53): a value, an empty `std::optional`, or memory that nobody has written. -/
inductive Cell | value (v : Val) | absent | indeterminate

/-- The value that the default constructor leaves (`Attribute() = default`, Attribute.hpp:46).  `NodeClass` is a plain enumeration and is left
as the memory was; numbers are zero (DataType.hpp:86), the other structures are empty.  Only optional members have the type `roles`. -/
def blank : Ty → Cell
  | .nodeId => .value (.nodeId ⟨0, .numeric 0⟩)
  | .nodeClass => .indeterminate
  | .name => .value (.name ⟨0, ⟨[]⟩⟩)
  | .text => .value (.text ⟨none, none⟩)
  | .mask => .value (.mask 0)
  | .roles => .indeterminate
  | .boolean => .value (.boolean false)
  | .byte => .value (.byte 0)

/-- A member after construction: an optional one is empty (Attribute.hpp:44, 46). -/
def Decl.fresh (d : Decl) : Cell := if d.optional then .absent else blank d.ty

/-- A node: its members, and for objects the type definition and the components (NodeClassObject.hpp:22-23).  Pointers are numbers, `none` is
the null pointer; `components` lists the entries of the `std::map` in any order. -/
structure Node where
  kind : Kind
  cells : Nat → Cell
  typeDef : Option Nat
  components : List (String × Option Nat)

/-- The constructors (NodeClassBase.hpp:22 and those of the classes): no constructor writes a member. -/
def Node.create (k : Kind) : Node :=
  { kind := k, cells := fun i => match (decls k)[i]? with | some d => d.fresh | none => .absent, typeDef := none, components := [] }

/-- `attribute.read()` of the member with the index `i` (Attribute.hpp:49). -/
def Node.read (n : Node) (i : Nat) : Cell := n.cells i

/-- `attribute.write(v)` of the member with the index `i` (Attribute.hpp:50); values of other types do not compile and change nothing here. -/
def Node.write (n : Node) (i : Nat) (v : Val) : Node :=
  match (decls n.kind)[i]? with
  | some d => if d.ty = v.ty then { n with cells := fun j => if j = i then .value v else n.cells j } else n
  | none => n

/-- The entry of a name in the map. -/
def entry (l : List (String × Option Nat)) (name : String) : Option (Option Nat) := (l.find? (·.1 = name)).map (·.2)

/-- `HasComponent(name)` (NodeClassObject.hpp:18): `components[name]` makes an entry with a null pointer if there is none, and gives the pointer. -/
def Node.component (n : Node) (name : String) : Option Nat × Node :=
  match entry n.components name with
  | some p => (p, n)
  | none => (none, { n with components := n.components ++ [(name, none)] })

/-- `HasComponent(name) = p` (NodeClassObject.hpp:18). -/
def Node.attach (n : Node) (name : String) (p : Option Nat) : Node :=
  let m := (n.component name).2
  { m with components := m.components.map fun x => if x.1 = name then (name, p) else x }

/-- `HasTypeDefinition() = p` (NodeClassObject.hpp:19). -/
def Node.define (n : Node) (p : Option Nat) : Node := { n with typeDef := p }

/-- What the owner of a node can do. -/
inductive Op
  | write (i : Nat) (v : Val) | component (name : String) | attach (name : String) (p : Option Nat) | define (p : Option Nat)

/-- One operation. -/
def Node.step (n : Node) : Op → Node
  | .write i v => n.write i v
  | .component name => (n.component name).2
  | .attach name p => n.attach name p
  | .define p => n.define p

/-- Several operations on a new node. -/
def after (k : Kind) (ops : List Op) : Node := ops.foldl Node.step (Node.create k)

/-! ## Specification (OPC 10000-3, 5.2 to 5.8 and OPC 10000-6, A.1) -/

/-- Attributes that a node of the class must have. -/
def mandatory : Kind → List Nat
  | .object => [1, 2, 3, 4, 12]
  | .variable => [1, 2, 3, 4, 13, 14, 15, 17, 18, 20]
  | .objectType => [1, 2, 3, 4, 8]
  | .referenceType => [1, 2, 3, 4, 8, 9]
  | .dataType => [1, 2, 3, 4, 8]

/-- Attributes that a node of the class may have besides. -/
def allowed : Kind → List Nat
  | .object => [5, 6, 7, 24, 25, 26]
  | .variable => [5, 6, 7, 24, 25, 26, 16, 19, 27]
  | .objectType => [5, 6, 7, 24, 25, 26]
  | .referenceType => [5, 6, 7, 24, 25, 26, 10]
  | .dataType => [5, 6, 7, 24, 25, 26, 23]

/-- The class has each mandatory attribute once and always, and besides only optional ones, each at most once. -/
structure Conforms (k : Kind) : Prop where
  must : ∀ a ∈ mandatory k, ∃ d ∈ decls k, d.id = a ∧ d.optional = false
  may : ∀ d ∈ decls k, d.id ∈ mandatory k ∧ d.optional = false ∨ d.id ∈ allowed k ∧ d.optional = true
  once : ((decls k).map (·.id)).Nodup

/-- The operation writes the member `i`. -/
def Op.writes (k : Kind) (i : Nat) : Op → Option Val
  | .write j v => if j = i ∧ ((decls k)[i]?).map (·.ty) = some v.ty then some v else none
  | _ => none

/-- The last value written to the member `i`. -/
def last (k : Kind) (i : Nat) (ops : List Op) : Option Val := (ops.filterMap (Op.writes k i)).getLast?

/-- The last pointer that was assigned to a component. -/
def assigned (name : String) (ops : List Op) : Option Nat :=
  ((ops.filterMap fun o => match o with | .attach x p => if x = name then some p else none | _ => none).getLast?).join

/-! ## Theorems -/

theorem step_kind (n : Node) (o : Op) : (n.step o).kind = n.kind := by
  cases o with
  | write i v => simp only [Node.step, Node.write]; split <;> (try split) <;> rfl
  | component x => simp only [Node.step, Node.component]; split <;> rfl
  | attach x p => simp only [Node.step, Node.attach, Node.component]; split <;> rfl
  | define p => rfl

theorem step_cells (n : Node) (o : Op) (i : Nat) :
    (n.step o).cells i = match o.writes n.kind i with | some v => .value v | none => n.cells i := by
  cases o with
  | write j v =>
    simp only [Node.step, Node.write, Op.writes]
    by_cases h : j = i
    · subst h
      cases hd : (decls n.kind)[j]? with
      | none => simp
      | some d => by_cases ht : d.ty = v.ty <;> simp [ht]
    · have hi : ¬ i = j := fun e => h e.symm
      simp only [h, false_and, if_false]
      split
      · split
        · simp [hi]
        · rfl
      · rfl
  | component x => simp only [Node.step, Node.component, Op.writes]; split <;> rfl
  | attach x p => simp only [Node.step, Node.attach, Node.component, Op.writes]; split <;> rfl
  | define p => rfl

theorem foldl_kind (ops : List Op) (n : Node) : (ops.foldl Node.step n).kind = n.kind := by
  induction ops generalizing n with
  | nil => rfl
  | cons o t ih => rw [List.foldl_cons, ih, step_kind]

theorem foldl_cells (ops : List Op) (n : Node) (i : Nat) :
    (ops.foldl Node.step n).cells i = match last n.kind i ops with | some v => .value v | none => n.cells i := by
  induction ops generalizing n with
  | nil => rfl
  | cons o t ih =>
    rw [List.foldl_cons, ih, step_kind, step_cells]
    unfold last
    cases h : o.writes n.kind i with
    | none => simp [h]
    | some v =>
      simp only [List.filterMap_cons_some h]
      rw [List.getLast?_cons]
      cases (t.filterMap (Op.writes n.kind i)).getLast? <;> rfl

/-- C104 (values): whatever happens to a node, each attribute reads as the value last written to it; attributes that nobody has written are empty
if they are optional and have their first value otherwise; writing one attribute changes no other. -/
theorem C104_reads (k : Kind) (ops : List Op) {i : Nat} {d : Decl} (hd : (decls k)[i]? = some d) :
    (after k ops).read i = match last k i ops with
      | some v => .value v
      | none => if d.optional then .absent else blank d.ty := by
  show (ops.foldl Node.step (Node.create k)).cells i = _
  rw [foldl_cells]
  have : (Node.create k).cells i = if d.optional then .absent else blank d.ty := by
    show (match (decls k)[i]? with | some d => d.fresh | none => .absent) = _
    rw [hd]; rfl
  rw [this]
  rfl

/-- C104 (classes): all classes but one have the attributes of the standard (`_partial`: not variables, see `C104_variable_violated`). -/
theorem C104_conforms_partial {k : Kind} (h : k ≠ .variable) : Conforms k := by
  cases k <;> first | exact absurd rfl h | exact ⟨by decide, by decide, by decide⟩

/-- Against C104: in a variable three members bear the number of the attribute NodeId, among them `value` and `dataType`; no member bears the numbers of
Value, DataType or any other attribute that only variables have; and `value` takes nothing but node identifiers: whatever has happened to the node, it
reads as one. -/
theorem C104_variable_violated : ((decls .variable).filter (·.id = 1)).length = 3 ∧
    (∀ a ∈ mandatory .variable, (∀ d ∈ decls .variable, d.id ≠ a) ↔ 4 < a) ∧ ¬ Conforms .variable ∧
    ∀ ops : List Op, ∃ x, (after .variable ops).read 9 = .value (.nodeId x) := by
  refine ⟨by decide, by decide, fun h => absurd h.once (by decide), fun ops => ?_⟩
  rw [C104_reads .variable ops (i := 9) (d := ⟨1, .nodeId, false⟩) rfl]
  cases h : last .variable 9 ops with
  | none => exact ⟨_, rfl⟩
  | some v =>
    obtain ⟨o, -, ho⟩ := List.mem_filterMap.mp (List.mem_of_getLast? h)
    cases o with
    | write j w =>
      simp only [Op.writes] at ho
      split at ho
      · rename_i hc
        cases ho
        have ht : Ty.nodeId = v.ty := by
          have := hc.2
          simp only [show (decls .variable)[9]? = some ⟨1, .nodeId, false⟩ from rfl, Option.map_some, Option.some.injEq] at this
          exact this
        cases v <;> first | exact ⟨_, rfl⟩ | cases ht
      · cases ho
    | _ => cases ho

/-- Against C104: no node knows its class: until somebody writes the attribute NodeClass of a node of any class, it is memory that nobody has written,
whatever else is done. -/
theorem C104_class_violated (k : Kind) (ops : List Op) (h : ∀ n, .write 1 (.nodeClass n) ∉ ops) : (after k ops).read 1 = .indeterminate := by
  have hd : (decls k)[1]? = some ⟨2, .nodeClass, false⟩ := by cases k <;> rfl
  rw [C104_reads k ops hd]
  cases hl : last k 1 ops with
  | none => rfl
  | some v =>
    obtain ⟨o, hm, ho⟩ := List.mem_filterMap.mp (List.mem_of_getLast? hl)
    cases o with
    | write j w =>
      simp only [Op.writes] at ho
      split at ho
      · rename_i hc
        cases ho
        have ht : Ty.nodeClass = v.ty := by
          have := hc.2
          rw [hd] at this
          exact Option.some.inj this
        obtain ⟨rfl, -⟩ := hc
        cases v <;> first | cases ht | skip
        exact absurd hm (h _)
      · cases ho
    | _ => cases ho

theorem entry_append (l : List (String × Option Nat)) (a : String) (p : Option Nat) (x : String) (h : entry l a = none) :
    entry (l ++ [(a, p)]) x = if x = a then some p else entry l x := by
  unfold entry at *
  rw [List.find?_append]
  by_cases hx : x = a
  · subst hx
    rw [Option.map_eq_none_iff] at h
    simp [h]
  · have : ¬ a = x := fun e => hx e.symm
    simp [hx, this]

theorem entry_map (l : List (String × Option Nat)) (a : String) (p : Option Nat) (x : String) :
    entry (l.map fun y => if y.1 = a then (a, p) else y) x = if x = a then (entry l x).map fun _ => p else entry l x := by
  unfold entry
  induction l with
  | nil => simp
  | cons y t ih =>
    rw [List.map_cons, List.find?_cons, List.find?_cons]
    by_cases ha : y.1 = a
    · by_cases hx : x = a
      · subst hx; simp [ha]
      · have h1 : ¬ a = x := fun e => hx e.symm
        have h2 : ¬ y.1 = x := fun e => hx (e.symm.trans ha)
        simp only [ha, if_true, h1, decide_false, hx, if_false] at ih ⊢
        exact ih
    · by_cases hx : y.1 = x
      · have h1 : ¬ x = a := fun e => ha (hx.trans e)
        simp [hx, h1]
      · simp only [ha, if_false, hx, decide_false]
        exact ih

theorem component_entry (n : Node) (a x : String) :
    entry (n.component a).2.components x = if x = a then some (n.component a).1 else entry n.components x := by
  unfold Node.component
  cases h : entry n.components a with
  | some p =>
    by_cases hx : x = a
    · subst hx; simp [h]
    · simp [hx]
  | none => exact entry_append _ _ _ _ h

theorem component_fst (n : Node) (a : String) : (n.component a).1 = (entry n.components a).join := by
  unfold Node.component
  cases entry n.components a <;> rfl

theorem step_entry (n : Node) (o : Op) (x : String) :
    (entry (n.step o).components x).join = match o with
      | .attach a p => if a = x then p else (entry n.components x).join
      | _ => (entry n.components x).join := by
  cases o with
  | write i v => simp only [Node.step, Node.write]; split <;> (try split) <;> rfl
  | define p => rfl
  | component a =>
    simp only [Node.step]
    rw [component_entry]
    split
    · rename_i h; subst h; rw [component_fst]; rfl
    · rfl
  | attach a p =>
    simp only [Node.step, Node.attach]
    rw [entry_map, component_entry]
    by_cases h : x = a
    · subst h; simp
    · have : ¬ a = x := fun e => h e.symm
      simp [h, this]

theorem foldl_entry (ops : List Op) (n : Node) (x : String) (init : List (Option Nat)) (h : (entry n.components x).join = init.getLast?.join) :
    (entry (ops.foldl Node.step n).components x).join =
      ((init ++ ops.filterMap fun o => match o with | .attach y p => if y = x then some p else none | _ => none).getLast?).join := by
  induction ops generalizing n init with
  | nil => simpa using h
  | cons o t ih =>
    rw [List.foldl_cons]
    have hs := step_entry n o x
    cases o with
    | attach a p =>
      by_cases ha : a = x
      · rw [ih _ (init ++ [p]) (by rw [hs]; simp [ha])]
        simp [ha]
      · rw [ih _ init (by rw [hs]; simp [ha, h])]
        simp [ha]
    | _ => rw [ih _ init (by rw [hs]; exact h)]; rfl

/-- C104 (components): a component reads as the pointer last assigned to its name, and as null if there was none, whatever has been done besides. -/
theorem C104_components (k : Kind) (ops : List Op) (name : String) : ((after k ops).component name).1 = assigned name ops := by
  rw [component_fst]
  exact foldl_entry ops (Node.create k) name [] rfl

theorem step_length (n : Node) (o : Op) : n.components.length ≤ (n.step o).components.length := by
  cases o with
  | write i v => simp only [Node.step, Node.write]; split <;> (try split) <;> exact Nat.le_refl _
  | define p => exact Nat.le_refl _
  | component a => simp only [Node.step, Node.component]; split <;> simp
  | attach a p => simp only [Node.step, Node.attach, Node.component]; split <;> simp

/-- Against C104: asking a node for a component that it does not have gives it one: an entry of that name with a null pointer, which nothing removes. -/
theorem C104_lookup_violated (n : Node) (name : String) (h : entry n.components name = none) :
    (n.component name).2.components = n.components ++ [(name, none)] ∧
    ∀ ops : List Op, n.components.length < (ops.foldl Node.step (n.component name).2).components.length := by
  have he : (n.component name).2.components = n.components ++ [(name, none)] := by unfold Node.component; rw [h]
  refine ⟨he, fun ops => ?_⟩
  have : ∀ (ops : List Op) (m : Node), m.components.length ≤ (ops.foldl Node.step m).components.length := by
    intro ops
    induction ops with
    | nil => exact fun m => Nat.le_refl _
    | cons o t ih => exact fun m => Nat.le_trans (step_length m o) (ih _)
  refine Nat.lt_of_lt_of_le ?_ (this ops _)
  rw [he]
  simp

/-! ## Examples -/

/-- Some work with an object. -/
def work : List Op :=
  [.write 0 (.nodeId ⟨0, .numeric 85⟩), .write 9 (.byte 1), .attach "Server" (some 7), .write 9 (.byte 5), .component "Types", .write 5 (.mask 3)]

/-- C104: after `work` the attributes are those written last, Description is empty, and the class is unknown. -/
example : (after .object work).read 0 = .value (.nodeId ⟨0, .numeric 85⟩) ∧ (after .object work).read 9 = .value (.byte 5) ∧
    (after .object work).read 4 = .absent ∧ (after .object work).read 1 = .indeterminate ∧ ((after .object work).component "Server").1 = some 7 :=
  ⟨C104_reads .object work (d := ⟨1, .nodeId, false⟩) rfl, C104_reads .object work (d := ⟨12, .byte, false⟩) rfl,
   C104_reads .object work (d := ⟨5, .text, true⟩) rfl, C104_class_violated .object work (fun n h => by simp [work] at h), C104_components .object work "Server"⟩

/-- C104: objects conform; the lookup of `Types` in `work` has left an entry. -/
example : Conforms .object ∧ (after .object work).components = [("Server", some 7), ("Types", none)] :=
  ⟨C104_conforms_partial (by decide), by decide +kernel⟩

end Uscada.Ua.Nodes
