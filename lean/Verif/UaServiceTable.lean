import Verif.UaSessionProps
/-!
# The table of services

`UaSession.lean` looks a request up by its type with a `match` (`requestDec`).  The code keeps a `std::map` that is filled
by the constructor and asked with `operator[]`, which enters a null pointer for every key it does not find
(ua/service/UaService.cpp, ua/service/UaService.hpp:33).  This file models the map, shows that the component with the map
does what the component with the `match` does, and shows what the map keeps of requests nobody serves.
-/

namespace Uscada.Ua.Session

open SM Channel

/-- The classes behind `UaServiceInterface` (UaServiceInterface.hpp:10-16). -/
inductive Kind where
  | getEndpoints
  | create
  | close
  | activate
  | read
deriving DecidableEq

/-- `std::map<DataTypeId, UaServiceInterfacePtr>` (UaService.hpp:33): the entries, in the order in which they were made
(the code never walks through them); `none` is the null pointer. -/
abbrev Table : Type := List (UInt16 × Option Kind)

/-- `services[id]` read: an entry with a null pointer is made when there is none (UaService.cpp:25,52). -/
def Table.at (t : Table) (id : UInt16) : Option Kind × Table :=
  match t.lookup id with
  | some v => (v, t)
  | none => (none, t ++ [(id, none)])

/-- UaService.cpp:23-26. -/
def Table.subscribeService (t : Table) (id : UInt16) (k : Kind) : Table :=
  (t.at id).2.map fun x => if x.1 = id then (id, some k) else x

/-- UaDiscoveryService.cpp:16-19. -/
def discoverySubscribe (t : Table) : Table := t.subscribeService 428 .getEndpoints

/-- UaSessionService.cpp:20-25. -/
def sessionSubscribe (t : Table) : Table :=
  ((t.subscribeService 461 .create).subscribeService 473 .close).subscribeService 467 .activate

/-- UaAttributeService.cpp:21-24. -/
def attributeSubscribe (t : Table) : Table := t.subscribeService 631 .read

/-- UaService.cpp:11-17. -/
def Table.create : Table := attributeSubscribe (sessionSubscribe (discoverySubscribe []))

/-- The first lines of the virtual `receive`: UaGetEndpoints.cpp:21-23, UaCreateSession.cpp:19-21, UaCloseSession.cpp:19-21,
UaActivateSession.cpp:19-21, UaRead.cpp:22-24. -/
def Kind.decode : Kind → Codec SReq
  | .getEndpoints => do let r ← dec (Ua.init : UaGetEndpointsReq); pure (.getEndpoints r)
  | .create => do let r ← dec (Ua.init : UaCreateSessionReq); pure (.create r)
  | .close => do let r ← dec (Ua.init : UaCloseSessionReq); pure (.close r)
  | .activate => do let r ← dec (Ua.init : UaActivateSessionReq); pure (.activate r)
  | .read => do let r ← dec (Ua.init : UaReadReq); pure (.read r)

/-- The members of `UaService` (UaService.hpp:30-33); discovery and attributes have no state. -/
structure Service where
  sess : Sessions
  table : Table

/-- a member function of the session service -/
def onSess {α : Type} (m : SM Sessions α) : SM Service α := fun s =>
  match m s.sess with
  | (r, c) => (r, { s with sess := c })

/-- UaService.cpp:52. -/
def ask (id : UInt16) : SM Service (Option Kind) := fun s =>
  match s.table.at id with
  | (k, t) => (.ok k, { s with table := t })

/-- UaService.cpp:53-59 and the rest of the virtual `receive`. -/
def pass (e : SEnv) (hdr : MsgHdr) (b : Buf) (serv : Option Kind) : SM Service Unit :=
  match serv with
  | none => pure ()
  | some k => do
    let r ← lift (k.decode b)
    onSess (handle e hdr r.1)

/-- UaService.cpp:52-59. -/
def forward (e : SEnv) (hdr : MsgHdr) (b : Buf) (id : UInt16) : SM Service Unit := do
  let serv ← ask id
  pass e hdr b serv

/-- UaService.cpp:32-60. -/
def serve (e : SEnv) (hdr : MsgHdr) (data : List UInt8) : SM Service Unit := do
  let b ← lift (load e.mem data)
  let n ← lift (dec (Ua.init : ExpandedNodeId) b)
  match n.1.nodeId.value with
  | .numeric id => forward e hdr n.2 id.toUInt16
  | _ => pure ()

/-- One message. -/
def turn (s : Service) (m : SIn) : Exec Service := settle (serve m.env m.hdr m.data s)

/-- The component after a history of messages. -/
inductive Served : List SIn → Service → Prop
  | create {s : Sessions} (h : Ent.create (fun _ => Sess.create) = .ok s) : Served [] ⟨s, Table.create⟩
  | step {evs : List SIn} {s s' : Service} {m : SIn} (h : Served evs s) (hn : turn s m = .ok s') : Served (evs ++ [m]) s'

/-! ## The table -/

/-- The services of the constructor, by the identifiers of OPC 10000-6. -/
def Known : List (UInt16 × Kind) := [(428, .getEndpoints), (461, .create), (473, .close), (467, .activate), (631, .read)]

/-- The table always holds the five services first, then one null pointer for each other type asked for. -/
structure Sane (t : Table) : Prop where
  split : ∃ ids : List UInt16, t = Known.map (fun x => (x.1, some x.2)) ++ ids.map fun i => (i, none)
  nodup : (t.map Prod.fst).Nodup

theorem create_sane : Sane Table.create := ⟨⟨[], by decide +kernel⟩, by decide +kernel⟩

theorem lookup_none_iff {t : Table} {id : UInt16} : t.lookup id = none ↔ id ∉ t.map Prod.fst := by
  induction t with
  | nil => simp
  | cons x t ih =>
    obtain ⟨a, v⟩ := x
    by_cases h : id = a
    · subst h
      simp
    · have hb : (id == a) = false := by simpa using h
      rw [List.lookup_cons, hb]
      simp only [List.map_cons, List.mem_cons, h, false_or]
      exact ih

theorem at_prefix (t : Table) (id : UInt16) : t <+: (t.at id).2 := by
  unfold Table.at
  split
  · exact List.prefix_refl _
  · exact List.prefix_append _ _

theorem at_sane {t : Table} (h : Sane t) (id : UInt16) : Sane (t.at id).2 := by
  unfold Table.at
  split
  · exact h
  · rename_i hn
    obtain ⟨ids, hi⟩ := h.split
    refine ⟨⟨ids ++ [id], ?_⟩, ?_⟩
    · rw [hi]
      simp
    · have := lookup_none_iff.mp hn
      show ((t ++ [(id, none)]).map Prod.fst).Nodup
      rw [List.map_append, List.nodup_append]
      refine ⟨h.nodup, by simp, ?_⟩
      rintro a ha b hb rfl
      have hb : a = id := by simpa using hb
      exact this (hb ▸ ha)

theorem lookup_null (ids : List UInt16) (id : UInt16) :
    (ids.map fun i => (i, (none : Option Kind))).lookup id = none ∨ (ids.map fun i => (i, (none : Option Kind))).lookup id = some none := by
  induction ids with
  | nil => exact .inl rfl
  | cons a ids ih =>
    rw [List.map_cons, List.lookup_cons]
    cases id == a
    · exact ih
    · exact .inr rfl

/-- What `operator[]` returns does not depend on what was asked before. -/
theorem at_known {t : Table} (h : Sane t) (id : UInt16) : (t.at id).1 = Known.lookup id := by
  obtain ⟨ids, rfl⟩ := h.split
  have hn := lookup_null ids id
  unfold Table.at
  simp only [Known, List.map_cons, List.map_nil, List.cons_append, List.nil_append, List.lookup_cons]
  cases id == 428
  case true => rfl
  cases id == 461
  case true => rfl
  cases id == 473
  case true => rfl
  cases id == 467
  case true => rfl
  cases id == 631
  case true => rfl
  rcases hn with hn | hn <;> rw [hn] <;> rfl

/-- A list of different 16 bit numbers has at most 65536 members. -/
theorem nodup_bound {l : List UInt16} (h : l.Nodup) : l.length ≤ 65536 := by
  have h1 : (l.map UInt16.toNat).Nodup := by
    rw [List.nodup_iff_pairwise_ne, List.pairwise_map]
    exact (List.nodup_iff_pairwise_ne.mp h).imp fun h he => h (UInt16.toNat_inj.mp he)
  have h2 : (l.map UInt16.toNat) ⊆ List.range 65536 := by
    intro x hx
    obtain ⟨a, _, rfl⟩ := List.mem_map.mp hx
    exact List.mem_range.mpr a.toNat_lt
  have h3 := h1.length_le_of_subset h2
  simpa using h3

/-! ## The component with the table and the component with the `match` -/

/-- The decoder of a request, after the table was asked. -/
def decoded (k : Option Kind) (b : Buf) : Exec (Option SReq × Buf) :=
  match k with
  | none => .ok (none, b)
  | some k => do
    let r ← k.decode b
    pure (some r.1, r.2)

theorem map_decode {α : Type} [Ua α] (f : α → SReq) (b : Buf) :
    (do let r ← dec (Ua.init : α); pure (some (f r)) : Codec (Option SReq)) b =
      (do let r ← (do let r ← dec (Ua.init : α); pure (f r) : Codec SReq) b; pure (some r.1, r.2)) := by
  simp only [Codec.bind_run]
  cases dec (Ua.init : α) b <;> rfl

theorem requestDec_known (id : UInt32) : requestDec id = fun b => decoded (Known.lookup id.toUInt16) b := by
  unfold requestDec
  split
  · rename_i h; rw [h]; funext b; exact map_decode _ b
  · rename_i h; rw [h]; funext b; exact map_decode _ b
  · rename_i h; rw [h]; funext b; exact map_decode _ b
  · rename_i h; rw [h]; funext b; exact map_decode _ b
  · rename_i h; rw [h]; funext b; exact map_decode _ b
  · rename_i h1 h2 h3 h4 h5
    have : Known.lookup id.toUInt16 = none := by
      simp only [Known, List.lookup_cons]
      rw [beq_false_of_ne h1, beq_false_of_ne h2, beq_false_of_ne h3, beq_false_of_ne h4, beq_false_of_ne h5]
      rfl
    rw [this]
    rfl

/-- What is left of an outcome when only the sessions are looked at. -/
def seen (r : Exec Unit × Service) : Exec Unit × Sessions := (r.1, r.2.sess)

theorem serve_event {s : Service} (h : Sane s.table) (e : SEnv) (hdr : MsgHdr) (data : List UInt8) :
    seen (serve e hdr data s) = event e hdr data s.sess := by
  unfold serve event
  rw [SM.bind_run, SM.bind_run]
  cases load e.mem data with
  | throws => rfl
  | abort => rfl
  | ub => rfl
  | ok b =>
    show seen (andThen (lift (dec (Ua.init : ExpandedNodeId) b) s) _) = andThen (lift (dispatch b) s.sess) _
    unfold dispatch
    rw [Codec.bind_run]
    cases dec (Ua.init : ExpandedNodeId) b with
    | throws => rfl
    | abort => rfl
    | ub => rfl
    | ok n =>
      obtain ⟨⟨⟨ns, v⟩, u, i⟩, b1⟩ := n
      cases v with
      | string _ => rfl
      | guid _ => rfl
      | «opaque» _ => rfl
      | numeric id =>
        show seen (forward e hdr b1 id.toUInt16 s) = andThen (lift (requestDec id b1) s.sess) _
        rw [requestDec_known, ← at_known h]
        show seen (pass e hdr b1 (s.table.at id.toUInt16).1 { s with table := (s.table.at id.toUInt16).2 }) = _
        cases (s.table.at id.toUInt16).1 with
        | none => rfl
        | some k =>
          unfold pass decoded
          dsimp only
          rw [SM.bind_run]
          cases k.decode b1 with
          | throws => rfl
          | abort => rfl
          | ub => rfl
          | ok r => rfl

/-- What a message does to the sessions does not depend on the table. -/
theorem turn_next {s : Service} (h : Sane s.table) (m : SIn) :
    (do let s' ← turn s m; pure s'.sess) = next s.sess m := by
  unfold turn next
  rw [← serve_event h]
  rcases serve m.env m.hdr m.data s with ⟨r, c⟩
  cases r <;> rfl

/-- The table changes by `operator[]` only. -/
theorem serve_table (e : SEnv) (hdr : MsgHdr) (data : List UInt8) (s : Service) :
    (serve e hdr data s).2.table = s.table ∨ ∃ id, (serve e hdr data s).2.table = (s.table.at id).2 := by
  unfold serve
  rw [SM.bind_run]
  cases load e.mem data with
  | throws => exact .inl rfl
  | abort => exact .inl rfl
  | ub => exact .inl rfl
  | ok b =>
    show (andThen (lift (dec (Ua.init : ExpandedNodeId) b) s) _).2.table = _ ∨ ∃ id, (andThen (lift (dec (Ua.init : ExpandedNodeId) b) s) _).2.table = _
    cases dec (Ua.init : ExpandedNodeId) b with
    | throws => exact .inl rfl
    | abort => exact .inl rfl
    | ub => exact .inl rfl
    | ok n =>
      obtain ⟨⟨⟨ns, v⟩, u, i⟩, b1⟩ := n
      cases v with
      | string _ => exact .inl rfl
      | guid _ => exact .inl rfl
      | «opaque» _ => exact .inl rfl
      | numeric id =>
        refine .inr ⟨id.toUInt16, ?_⟩
        show (pass e hdr b1 (s.table.at id.toUInt16).1 { s with table := (s.table.at id.toUInt16).2 }).2.table = _
        cases (s.table.at id.toUInt16).1 with
        | none => rfl
        | some k =>
          unfold pass
          dsimp only
          rw [SM.bind_run]
          cases k.decode b1 with
          | throws => rfl
          | abort => rfl
          | ub => rfl
          | ok r => rfl

theorem settle_ok {α σ : Type} {r : Exec α × σ} {s : σ} (h : settle r = .ok s) : r.2 = s := by
  rcases r with ⟨r, c⟩
  cases r <;> cases h <;> rfl

theorem turn_table {s s' : Service} {m : SIn} (h : turn s m = .ok s') : s'.table = s.table ∨ ∃ id, s'.table = (s.table.at id).2 := by
  have := settle_ok h
  rw [← this]
  exact serve_table _ _ _ _

theorem served_sane {evs : List SIn} {s : Service} (h : Served evs s) : Sane s.table := by
  induction h with
  | create _ => exact create_sane
  | step _ hn ih =>
    rcases turn_table hn with h | ⟨id, h⟩ <;> rw [h]
    · exact ih
    · exact at_sane ih id

/-! ## C85 -/

/-- C85: the component with the table behaves as the component that looks the type up: whatever arrived before, each
message does to the sessions (answers included) what `Session.next` says, and goes wrong when `Session.next` does. -/
theorem C85_dispatch {evs : List SIn} {s : Service} (h : Served evs s) (m : SIn) :
    Reach evs s.sess ∧ (do let s' ← turn s m; pure s'.sess) = next s.sess m := by
  refine ⟨?_, turn_next (served_sane h) m⟩
  induction h with
  | create hc => exact .create hc
  | step hs hn ih =>
    have h1 := turn_next (served_sane hs) (by assumption)
    rw [hn] at h1
    exact .step ih h1.symm

/-- C85: every history of the component that looks the type up is a history of the component with the table. -/
theorem C85_covers {evs : List SIn} {c : Sessions} (h : Reach evs c) : ∃ s, Served evs s ∧ s.sess = c := by
  induction h with
  | create hc => exact ⟨_, .create hc, rfl⟩
  | step _ hn ih =>
    obtain ⟨s, hs, rfl⟩ := ih
    rw [← turn_next (served_sane hs)] at hn
    obtain ⟨s', h1, h2⟩ := Exec.bind_eq_ok.mp hn
    injection h2 with h2
    exact ⟨s', .step hs h1, h2⟩

/-- C85: the table never has more than one entry for a type, never more than 65536 entries, and exactly five services. -/
theorem C85_bounded {evs : List SIn} {s : Service} (h : Served evs s) :
    (s.table.map Prod.fst).Nodup ∧ s.table.length ≤ 65536 ∧ s.table.filterMap (fun x => x.2.map fun k => (x.1, k)) = Known := by
  have hs := served_sane h
  refine ⟨hs.nodup, ?_, ?_⟩
  · simpa using nodup_bound hs.nodup
  · obtain ⟨ids, hi⟩ := hs.split
    rw [hi, List.filterMap_append, List.filterMap_map, List.filterMap_map]
    have : ∀ ids : List UInt16, List.filterMap ((fun x : UInt16 × Option Kind => x.2.map fun k => (x.1, k)) ∘ fun i => (i, none)) ids = [] := by
      intro ids
      induction ids with
      | nil => rfl
      | cons a ids ih => rw [List.filterMap_cons]; exact ih
    rw [this, List.append_nil]
    rfl

/-- A request of type `id` in namespace `ns`, with any body. -/
def request (ns : UInt16) (id : UInt32) (body : List UInt8) : List UInt8 :=
  wire (⟨⟨ns, .numeric id⟩, none, none⟩ : ExpandedNodeId) ++ body

theorem turn_unknown (s : Service) (e : SEnv) (hdr : MsgHdr) (ns : UInt16) {id : UInt32} (hk : Known.lookup id.toUInt16 = none)
    (hs : Sane s.table) {body : List UInt8} (hl : (request ns id body).length ≤ 4096) :
    turn s ⟨e, hdr, request ns id body⟩ = .ok { s with table := (s.table.at id.toUInt16).2 } := by
  have h1 := loaded (Reads.expanded (⟨⟨ns, .numeric id⟩, none, none⟩ : ExpandedNodeId) trivial trivial) body hl e.mem
  have h2 : (s.table.at id.toUInt16).1 = none := by rw [at_known hs, hk]
  unfold turn serve
  unfold request at hl ⊢
  rw [bind_ok (lift_ok (Channel.load_ok _ _ hl) _), bind_ok (lift_ok h1 _)]
  show settle (pass e hdr _ (s.table.at id.toUInt16).1 { s with table := (s.table.at id.toUInt16).2 }) = _
  rw [h2]
  rfl

theorem known_none {id : UInt32} (h : ∀ r : SReq, id.toNat % 65536 ≠ typeId r) : Known.lookup id.toUInt16 = none := by
  have h0 : ∀ (n : UInt16) (r : SReq), typeId r = n.toNat → (id.toUInt16 == n) = false := by
    intro n r hr
    apply beq_false_of_ne
    rintro rfl
    exact h r (by rw [hr]; simp)
  simp only [Known, List.lookup_cons]
  rw [h0 428 (.getEndpoints Ua.init) rfl, h0 461 (.create Ua.init) rfl, h0 473 (.close Ua.init) rfl, h0 467 (.activate Ua.init) rfl,
    h0 631 (.read Ua.init) rfl]
  rfl

theorem at_new {t : Table} {id : UInt16} (h : id ∉ t.map Prod.fst) : (t.at id).2 = t ++ [(id, none)] := by
  unfold Table.at
  rw [lookup_none_iff.mpr h]

/-- Against C85: every request of a type that nobody serves and that was not asked for before makes the table one entry
longer, though the sessions stay as they are and nothing is answered. -/
theorem C85_trace_violated {evs : List SIn} {s : Service} (h : Served evs s) (e : SEnv) (hdr : MsgHdr) (ns : UInt16) {id : UInt32}
    (hk : ∀ r : SReq, id.toNat % 65536 ≠ typeId r) (hn : id.toUInt16 ∉ s.table.map Prod.fst) {body : List UInt8}
    (hl : (request ns id body).length ≤ 4096) :
    ∃ s', turn s ⟨e, hdr, request ns id body⟩ = .ok s' ∧ s'.sess = s.sess ∧ s'.table.length = s.table.length + 1 := by
  refine ⟨_, turn_unknown s e hdr ns (known_none hk) (served_sane h) hl, rfl, ?_⟩
  show (s.table.at id.toUInt16).2.length = _
  rw [at_new hn]
  simp

/-- Against C85: and no entry ever goes away. -/
theorem C85_keeps_violated {evs : List SIn} {s s' : Service} {m : SIn} (_h : Served evs s) (hn : turn s m = .ok s') : s.table <+: s'.table := by
  rcases turn_table hn with h | ⟨id, h⟩ <;> rw [h]
  · exact List.prefix_refl _
  · exact at_prefix _ _

/-- A table that is not full misses some type. -/
theorem missing {t : Table} (h : t.length < 65536) : ∃ id : UInt16, id ∉ t.map Prod.fst := by
  apply Classical.byContradiction
  intro hc
  have hall : ∀ id : UInt16, id ∈ t.map Prod.fst := fun id => Classical.byContradiction fun h => hc ⟨id, h⟩
  have h1 : (List.range 65536) ⊆ (t.map Prod.fst).map UInt16.toNat := by
    intro x hx
    refine List.mem_map.mpr ⟨UInt16.ofNat x, hall _, ?_⟩
    have := List.mem_range.mp hx
    rw [UInt16.toNat_ofNat']
    omega
  have h2 := List.nodup_range.length_le_of_subset h1
  rw [List.length_range, List.length_map, List.length_map] at h2
  omega

theorem request_short (id : UInt16) : (request 0 id.toUInt32 []).length ≤ 4 := by
  unfold request
  rw [ExpandedNodeId.wire_plain _ rfl rfl, List.append_nil]
  have h1 : id.toUInt32.toNat < 65536 := by simpa using id.toNat_lt
  show (wire (⟨0, .numeric id.toUInt32⟩ : NodeId)).length ≤ 4
  simp only [wire]
  split
  · simp [leBytes]
  · rw [if_pos ⟨by decide, h1⟩]
    simp [leBytes]

/-- Against C85: messages of at most four bytes, none of which is answered, fill the table up to any size: after `n` of them
it has `5 + n` entries, and 65531 of them are possible. -/
theorem C85_fills_violated (e : SEnv) (hdr : MsgHdr) {c : Sessions} (hc : Ent.create (fun _ => Sess.create) = .ok c) {n : Nat}
    (hn : n ≤ 65531) : ∃ (evs : List SIn) (s : Service), Served evs s ∧ evs.length = n ∧ (∀ m ∈ evs, m.env = e ∧ m.hdr = hdr ∧ m.data.length ≤ 4) ∧
      s.sess = c ∧ s.table.length = 5 + n := by
  induction n with
  | zero => exact ⟨[], _, .create hc, rfl, fun _ h => (by cases h), rfl, (by decide +kernel : Table.create.length = 5 + 0)⟩
  | succ n ih =>
    obtain ⟨evs, s, h1, h2, h3, h4, h5⟩ := ih (by omega)
    obtain ⟨id, hid⟩ := missing (t := s.table) (by omega)
    have hsane := served_sane h1
    have hu : id.toUInt32.toUInt16 = id := by
      apply UInt16.toNat_inj.mp
      simp
    have hk : Known.lookup id.toUInt32.toUInt16 = none := by
      rw [hu]
      obtain ⟨ids, hi⟩ := hsane.split
      rw [← at_known hsane]
      unfold Table.at
      rw [lookup_none_iff.mpr hid]
    have ht := turn_unknown s e hdr 0 hk hsane (body := []) (by have := request_short id; omega)
    refine ⟨evs ++ [⟨e, hdr, request 0 id.toUInt32 []⟩], ⟨s.sess, (s.table.at id.toUInt32.toUInt16).2⟩, .step h1 ht, by simp [h2], ?_, h4, ?_⟩
    · intro m hm
      rcases List.mem_append.mp hm with hm | hm
      · exact h3 m hm
      · rw [List.mem_singleton.mp hm]
        exact ⟨rfl, rfl, request_short id⟩
    · show (s.table.at id.toUInt32.toUInt16).2.length = _
      rw [hu, at_new hid, List.length_append, h5]
      rfl

/-! ## A run -/

/-- The history `evs` on a new component: what `Session.view` shows of session `k`, and the types in the table. -/
def tableAfter (k : Nat) (evs : List SIn) : Exec (View × List UInt16) := do
  let c ← Ent.create (fun _ => Sess.create)
  let s ← evs.foldlM turn (⟨c, Table.create⟩ : Service)
  pure (view s.sess k, s.table.map Prod.fst)

/-- A session is made between requests of the unknown types 1000 and 300 (twice); the latter stay in the table. -/
example : tableAfter 1 [⟨env, ⟨3, 4, 9, invalidSuid⟩, request 0 1000 [7]⟩, on 4 invalidSuid createReq, ⟨env, ⟨3, 4, 9, invalidSuid⟩, request 2 300 []⟩,
      ⟨env, ⟨3, 4, 9, invalidSuid⟩, request 0 65836 []⟩] =
    .ok (⟨.created, [.got ⟨3, 4, 9, invalidSuid⟩ createReq, .answer ⟨3, 4, 9, invalidSuid⟩ (reply env 1 createReq), .created], 31⟩,
      [428, 461, 473, 467, 631, 1000, 300]) := by decide +kernel

/-- The bound of `C85_fills_violated` on a new component. -/
example : ∃ c, Ent.create (fun _ => Sess.create) = .ok c ∧ ∃ (evs : List SIn) (s : Service), Served evs s ∧ evs.length = 65531 ∧
    s.sess = c ∧ s.table.length = 65536 := by
  obtain ⟨c, hc, _⟩ := Exec.bind_eq_ok.mp talk_runs
  obtain ⟨evs, s, h1, h2, _, h4, h5⟩ := C85_fills_violated env ⟨3, 4, 9, invalidSuid⟩ hc (n := 65531) (by decide)
  exact ⟨c, hc, evs, s, h1, h2, h4, h5⟩

end Uscada.Ua.Session
