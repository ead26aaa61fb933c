import Verif.UaStackRuns
/-!
# C99: secure channels that nobody can use, close or give back

A secure channel ends when its connection sends a close request or a message that is not accepted, or reports its own end
(UaServerSecureChannelEstablished.cpp:8-37).  All of these name the channel that the connection was assigned last
(UaTcpConnection.cpp:23-34, 309-347).  A channel that is no connection's channel any more therefore stays open for ever.
-/

namespace Uscada.Ua

open SM

/-! ## Who is assigned a channel -/

namespace Transport

variable {c : UInt32} {k : Nat} {l : List Unit}

/-- Channel `c` is assigned. -/
def assigns (c : UInt32) : TAct → Option Unit
  | .assigned c' => if c' = c then some () else none
  | _ => none

theorem tk_sendReleaseInd : TEmits (assigns c) k l (sendReleaseInd k) := by
  refine em_self.quiet fun t => ?_
  split
  · exact .ret
  · exact em_note_none rfl

theorem tk_release : TEmits (assigns c) k l (release k) :=
  (em_conn fun _ => by rfl).quiet fun _ => (em_note_none rfl).quiet fun _ => em_releaseId

theorem tk_toInit : TEmits (assigns c) k l (toInit k) := em_transit tk_release

theorem tk_fail : TEmits (assigns c) k l (fail k) := tk_sendReleaseInd.quiet fun _ => tk_toInit

theorem tk_onAcceptLink {e : TEnv} : TEmits (assigns c) k l (onAcceptLink k e) := by
  refine em_self.quiet fun t => ?_
  split
  · refine (em_conn fun _ => by rfl).quiet fun _ => ?_
    refine Emits.quiet ?_ fun _ => (em_note_none rfl).quiet fun _ => em_toHello
    unfold allocTimer
    split
    · exact em_conn fun _ => by rfl
    · exact .throws
  · exact .ret

theorem tk_onTimer : TEmits (assigns c) k l (onTimer k) := by
  refine (em_conn fun _ => by rfl).quiet fun _ => em_self.quiet fun t => ?_
  split
  · exact .ret
  · exact tk_toInit
  · exact tk_fail

theorem tk_answered {r : Res} : TEmits (assigns c) k l (answered k r) := by
  cases r
  · exact tk_fail
  · exact .ret
  · exact tk_fail

theorem tk_onReceive {e : TEnv} {m : Down} (hm : ∀ f d, m ≠ .openRsp c f d) : TEmits (assigns c) k [] (onReceive k e m) := by
  refine em_self.quiet fun t => ?_
  split
  · cases m with
    | openRsp c' b d =>
      have hc : c' ≠ c := fun h => hm b d (by rw [h])
      refine Emits.quiet (l := []) ?_ fun x => tk_answered
      exact (em_conn fun _ => by rfl).quiet fun _ => (em_note_none (by simp [assigns, hc])).quiet fun _ => em_sendSecured (f := assigns c) (ty := .opn)
    | closeRsp c b d =>
      refine Emits.quiet (l := []) ?_ fun x => tk_answered
      refine em_self.quiet fun t => ?_
      split
      · exact em_sendSecured (f := assigns _) (ty := .clo)
      · exact .ret
    | sendReq c b d =>
      refine Emits.quiet (l := []) ?_ fun x => tk_answered
      refine em_self.quiet fun t => ?_
      split
      · exact em_sendSecured (f := assigns _) (ty := .msg)
      · exact .ret
    | releaseReq => exact (em_note_none rfl).quiet fun _ => tk_toInit
  · exact .ret

theorem tk_onData {e : TEnv} : TEmits (assigns c) k [] (onData k e) := by
  refine em_self.quiet fun t => ?_
  split
  · exact .ret
  · refine (em_receiveHello rfl).quiet fun x => ?_
    split
    · exact .ret
    · exact em_toConnected
    · exact tk_toInit
  · refine Emits.quiet (l := []) ?_ fun x => ?_
    · refine em_receiveRx.quiet fun x => ?_
      split
      · exact .ret
      · exact .ret
      · exact em_self.quiet fun t => Emits.lift.quiet fun r => (em_conn fun _ => by rfl).quiet fun _ => em_forward fun _ => rfl
    · split
      · exact .ret
      · exact em_startTimer.quiet fun _ => em_receivePreaction
      · exact tk_fail

/-- Channel `c` is assigned only at the answer that names it. -/
theorem next_takes {m : Nat → Mem} {evs : List (TEnv × TEv)} {s s' : Srv} {e : TEnv} {v : TEv} (hr : Srv.Reach m evs s) (hp : Possible s v)
    (hv : ∀ k f d, v ≠ .down k (.openRsp c f d)) (h : next s e v = .ok s') :
    ∃ k new, Adds tlogs k new s s' ∧ .assigned c ∉ new ∧ Pool.valid k := by
  have key : ∀ k, Small tlogs (assigns c) k [] s s' → Pool.valid k → ∃ k new, Adds tlogs k new s s' ∧ .assigned c ∉ new ∧ Pool.valid k := by
    rintro k ⟨new, h1, h2⟩ hk
    refine ⟨k, new, h1, fun hm => ?_, hk⟩
    have := h2.subset (List.mem_filterMap.mpr ⟨_, hm, (by simp [assigns] : assigns c (.assigned c) = some ())⟩)
    cases this
  have one : Pool.valid 1 := by decide
  have none_added : Small tlogs (assigns c) 1 [] s s := ⟨[], .refl, .refl _⟩
  obtain ⟨l, hl, _⟩ : s.Inv True False := reach_inv (fun _ _ => ⟨fun _ => trivial, False.elim⟩) hr
  cases v with
  | accept =>
    have h : settle ((takeLink e >>= fun _ => allocId >>= fun r => match r with
      | none => pure ()
      | some k => onAcceptLink k e) s) = .ok s' := h
    rw [bind_run] at h
    unfold takeLink at h
    split at h
    · simp only [pure_run, andThen] at h
      rw [bind_run] at h
      unfold allocId at h
      split at h
      · rename_i r q hq
        simp only [andThen] at h
        cases r with
        | none =>
          injection h with h
          subst h
          exact key 1 ⟨[], ⟨(List.append_nil _).symm, fun _ _ => rfl⟩, by simp⟩ one
        | some k =>
          have hk : k ∈ l := by
            cases l with
            | nil => rw [hl.alloc_nil] at hq; cases hq
            | cons i l =>
              obtain ⟨q', hq', -⟩ := hl.alloc_cons
              rw [hq'] at hq
              cases hq
              simp
          exact key k (tk_onAcceptLink.settled (s := { s with ids := q }) h) (hl.ids k hk)
      · injection h with h
        subst h
        exact key 1 none_added one
      · cases h
      · cases h
    · injection h with h
      subst h
      exact key 1 none_added one
  | linkData k => exact key k (tk_onData.settled h) hp.1
  | linkError k => exact key k ((em_conn fun _ => by rfl : TEmits (assigns c) k [] (onError k)).settled h) hp.1
  | timer k => exact key k (tk_onTimer.settled h) hp.1
  | down k m =>
    have h : settle ((if Pool.valid k then onReceive k e m else undefined : SM Srv Unit) s) = .ok s' := h
    split at h
    · rename_i hk
      exact key k ((tk_onReceive fun f d hm => hv k f d (by rw [hm])).settled h) hk
    · cases h

/-- A connection gets no channel by what is not an assignment. -/
theorem owner_spared {l new : List TAct} (h : owner l ≠ some c) (hn : .assigned c ∉ new) : owner (l ++ new) ≠ some c := by
  induction new generalizing l with
  | nil => simpa using h
  | cons a new ih =>
    rw [show l ++ a :: new = (l ++ [a]) ++ new by simp]
    refine ih ?_ fun hm => hn (List.mem_cons_of_mem _ hm)
    rw [owner_append]
    cases a with
    | assigned c' => exact fun h => hn (by simp only [Option.some.injEq] at h; simp [h])
    | released => simp
    | _ => exact h

end Transport

/-! ## What ends a channel -/

namespace Channel

open Ent

variable {c : UInt32} {k : Nat} {l : List Unit}

/-- The channel ends or answers an open request. -/
def stirs : CAct → Option Unit
  | .released => some ()
  | .openRsp _ _ _ => some ()
  | _ => none

theorem st_associate {e : CEnv} {h : MsgHdr} : CEmits stirs k [] (onReceive k e (.associate h)) := by
  unfold onReceive
  refine (em_note_none rfl).quiet fun _ => em_self.quiet fun t => ?_
  cases t.st
  · exact .ret
  · exact em_receiveAssociate rfl

theorem st_send {e : CEnv} {h : MsgHdr} {d : List UInt8} : CEmits stirs k [] (onReceive k e (.send h d)) := by
  unfold onReceive
  refine (em_note_none rfl).quiet fun _ => em_self.quiet fun t => ?_
  cases t.st
  · exact .ret
  · exact em_receiveSend fun _ _ _ => List.Sublist.refl _

/-- Any message leads to an entry in one log only. -/
theorem em_any {e : CEnv} {m : CIn} : CEmits (fun _ => (none : Option Unit)) k [] (onReceive k e m) :=
  em_onReceive ⟨fun _ => rfl, fun _ _ _ => rfl, fun _ => rfl, fun _ => rfl, rfl⟩ (by
    cases m with
    | «open» c d => exact fun _ _ => List.Sublist.refl _
    | close c x d => exact fun _ _ => List.Sublist.refl _
    | message c x d => exact fun _ _ _ _ => List.Sublist.refl _
    | send h d => exact fun _ _ _ => List.Sublist.refl _
    | _ => trivial)

/-- The messages that may end channel `c`. -/
def Harms (c : UInt32) : CIn → Prop
  | .close _ ch _ => ch = c
  | .message _ ch _ => ch = c
  | .released _ ch => ch = c
  | _ => False

theorem u32_toNat {a b : UInt32} (h : a.toNat = b.toNat) : a = b := UInt32.toNat_inj.mp h

/-- Every other message leaves channel `c`, once open, open, and opens no channel with this identifier. -/
theorem next_spares {u : Nat → UInt32 × UInt32} {evs : List (CEnv × CIn)} {s s' : Chans} {e : CEnv} {m : CIn} (hr : Reach u evs s)
    (ho : owner (s.objs c.toNat).log ≠ none) (hm : ¬ Harms c m) (h : next s e m = .ok s') :
    ∃ j new, Adds clogs j new s s' ∧ (j = c.toNat → .released ∉ new ∧ ∀ x y d, .openRsp x y d ∉ new) ∧ Pool.valid j := by
  have other : ∀ {j}, Pool.valid j → j ≠ c.toNat → Small clogs (fun _ => (none : Option Unit)) j [] s s' →
      ∃ j new, Adds clogs j new s s' ∧ (j = c.toNat → .released ∉ new ∧ ∀ x y d, .openRsp x y d ∉ new) ∧ Pool.valid j :=
    fun hv hj ⟨new, h1, _⟩ => ⟨_, new, h1, fun h => absurd h hj, hv⟩
  have same : ∀ {j}, Pool.valid j → Small clogs stirs j [] s s' →
      ∃ j new, Adds clogs j new s s' ∧ (j = c.toNat → .released ∉ new ∧ ∀ x y d, .openRsp x y d ∉ new) ∧ Pool.valid j := by
    rintro j hv ⟨new, h1, h2⟩
    refine ⟨j, new, h1, fun _ => ⟨fun hx => ?_, fun x y d hx => ?_⟩, hv⟩
    · cases h2.subset (List.mem_filterMap.mpr ⟨_, hx, rfl⟩)
    · cases h2.subset (List.mem_filterMap.mpr ⟨_, hx, rfl⟩)
  have far : ∀ ch : UInt32, ch ≠ c → settle (Ent.get ch.toNat (onReceive ch.toNat e m) s) = .ok s' →
      ∃ j new, Adds clogs j new s s' ∧ (j = c.toNat → .released ∉ new ∧ ∀ x y d, .openRsp x y d ∉ new) ∧ Pool.valid j := by
    intro ch hc hn
    unfold Ent.get at hn
    split at hn
    · rename_i hv
      exact other hv (fun hx => hc (u32_toNat hx)) (em_any.settled hn)
    · cases hn
  cases m with
  | «open» x d =>
    obtain ⟨l, hl, hg⟩ := reach_inv (A := False) hr False.elim
    unfold next event at h
    simp only [] at h
    rw [bind_run] at h
    unfold Ent.allocId at h
    split at h
    · rename_i r q hq
      simp only [andThen] at h
      cases r with
      | none =>
        injection h with h
        subst h
        exact ⟨1, [], ⟨(List.append_nil _).symm, fun _ _ => rfl⟩, fun _ => ⟨by simp, by simp⟩, by decide⟩
      | some k =>
        have hk : k ∈ l := by
          cases l with
          | nil => rw [hl.alloc_nil] at hq; cases hq
          | cons i l =>
            obtain ⟨q', hq', -⟩ := hl.alloc_cons
            rw [hq'] at hq
            cases hq
            simp
        have hne : k ≠ c.toNat := fun hx => ho (by rw [← hx]; exact ((hg k (hl.ids k hk)).1 hk).owner)
        exact other (hl.ids k hk) hne (em_any.settled (s := { s with ids := q }) h)
    · injection h with h
      subst h
      exact ⟨1, [], .refl, fun _ => ⟨by simp, by simp⟩, by decide⟩
    · cases h
    · cases h
  | close x ch d => exact far ch (fun hx => hm hx) h
  | message x ch d => exact far ch (fun hx => hm hx) h
  | released x ch => exact far ch (fun hx => hm hx) h
  | associate hd =>
    have h : settle (Ent.get hd.secureChannelId.toNat (onReceive hd.secureChannelId.toNat e (.associate hd)) s) = .ok s' := h
    unfold Ent.get at h
    split at h
    · rename_i hv
      exact same hv (st_associate.settled h)
    · cases h
  | send hd d =>
    have h : settle (Ent.get hd.secureChannelId.toNat (onReceive hd.secureChannelId.toNat e (.send hd d)) s) = .ok s' := h
    unfold Ent.get at h
    split at h
    · rename_i hv
      exact same hv (st_send.settled h)
    · cases h

theorem owner_kept {l new : List CAct} (h : owner l ≠ none) (hn : .released ∉ new) : owner (l ++ new) ≠ none := by
  induction new generalizing l with
  | nil => simpa using h
  | cons a new ih =>
    rw [show l ++ a :: new = (l ++ [a]) ++ new by simp]
    refine ih ?_ fun hm => hn (List.mem_cons_of_mem _ hm)
    rw [owner_snoc]
    cases a with
    | opened c t q => simp
    | released => exact absurd (List.mem_cons_self) hn
    | _ => exact h

end Channel

/-! ## Orphans -/

namespace Stack

open Transport (Down TEv tlogs chunk HoldsChunk)
open Channel (clogs Window window bound)

variable {m : Nat → Mem} {u : Nat → UInt32 × UInt32} {evs : List (Env × Ev)} {s s' : Stack} {c : UInt32}

/-- A message by which a connection gets channel `c` or by which the channel may end. -/
def Touches (c : UInt32) : Mail → Prop
  | .chan m => Channel.Harms c m
  | .tcp _ (.openRsp ch _ _) => ch = c
  | _ => False

/-- Channel `c` is open, but it is no connection's channel, and nothing is under way that changes this. -/
structure Orphan (s : Stack) (c : UInt32) : Prop where
  valid : Pool.valid c.toNat
  isOpen : Channel.owner (s.chans.objs c.toNat).log ≠ none
  alone : ∀ k, k ≤ 32 → Transport.owner (s.srv.conns k).log ≠ some c
  quiet : ∀ x ∈ s.box, ¬ Touches c x

theorem sub_quiet {ms sent rest : List Mail} (hr : ∀ x ∈ rest, ¬ Touches c x) (hs : ms.Sublist sent) (ht : ∀ x ∈ sent, ¬ Touches c x) :
    ∀ x ∈ rest ++ ms, ¬ Touches c x := fun x hx => (List.mem_append.mp hx).elim (hr x) fun h => ht x (hs.subset h)

theorem orphan_step (h : Reach m u evs s) {e : Env} {v : Ev} (hp : Possible s v) (hn : step s e v = .ok s') (ho : Orphan s c) : Orphan s' c := by
  obtain ⟨tevs, cevs, sevs, ht, hc, _, _⟩ := reach_parts (.step h hp hn)
  obtain ⟨_, cevs0, _, ht0, hc0, _, _⟩ := reach_parts h
  obtain ⟨h1, h2, h3, h4⟩ := ho
  cases step_moves (slot := 4096) hp hn with
  | tcp v rest hb hn hpt hch _ ms hms hbox =>
    have hrest : ∀ x ∈ rest, ¬ Touches c x := by
      rcases hb with ⟨_, hb⟩ | ⟨k, d, _, hb⟩
      · rw [hb]; exact h4
      · exact fun x hx => h4 x (by rw [hb]; exact List.mem_cons_of_mem _ hx)
    have hv : ∀ k f d, v ≠ .down k (.openRsp c f d) := by
      rintro k f d rfl
      rcases hb with ⟨hb, _⟩ | ⟨k', d', he, hb⟩
      · cases hb
      · cases he
        exact h4 (.tcp k (.openRsp c f d)) (by rw [hb]; exact List.mem_cons_self) rfl
    obtain ⟨k, new, ha, hnew, hk⟩ := Transport.next_takes ht0 hpt hv hn
    have halone : ∀ k, k ≤ 32 → Transport.owner (s'.srv.conns k).log ≠ some c := by
      intro j hj
      by_cases hjk : j = k
      · subst hjk
        rw [show (s'.srv.conns j).log = (s.srv.conns j).log ++ new from ha.1]
        exact Transport.owner_spared (h3 j hj) hnew
      · rw [show (s'.srv.conns j).log = (s.srv.conns j).log from ha.2 j hjk]
        exact h3 j hj
    refine ⟨h1, by rw [hch]; exact h2, halone, ?_⟩
    rw [hbox]
    refine sub_quiet hrest hms fun x hx => ?_
    rw [sentTcp_adds ha] at hx
    split at hx
    · obtain ⟨a, hm, hx⟩ := List.mem_filterMap.mp hx
      obtain ⟨pre, post, hsplit⟩ := List.append_of_mem hm
      have hown : Transport.owner ((s.srv.conns k).log ++ pre) ≠ some c :=
        Transport.owner_spared (h3 k (Nat.le_of_lt_succ (lt33 hk))) fun hx => hnew (by rw [hsplit]; exact List.mem_append_left _ hx)
      have hal := Transport.C35_own_traffic _ _ _ ht k hk ((s.srv.conns k).log ++ pre) post a (by
        rw [show (s'.srv.conns k).log = (s.srv.conns k).log ++ new from ha.1, hsplit, List.append_assoc])
      cases a with
      | up y =>
        cases y with
        | «open» x f d =>
          cases hx
          exact id
        | _ =>
          cases hx
          rintro rfl
          exact hown hal
      | _ => cases hx
    · cases hx
  | chan x rest hb hn hsrv _ ms hms hbox =>
    have hx : ¬ Channel.Harms c x := h4 (.chan x) (by rw [hb]; exact List.mem_cons_self)
    obtain ⟨j, new, ha, hnew, hj⟩ := Channel.next_spares hc0 h2 hx hn
    refine ⟨h1, ?_, by rw [hsrv]; exact h3, ?_⟩
    · by_cases hjc : c.toNat = j
      · rw [show (s'.chans.objs c.toNat).log = (s.chans.objs c.toNat).log ++ new by subst hjc; exact ha.1]
        exact Channel.owner_kept h2 (hnew hjc.symm).1
      · rw [show (s'.chans.objs c.toNat).log = (s.chans.objs c.toNat).log from ha.2 _ hjc]
        exact h2
    · rw [hbox]
      refine sub_quiet (fun y hy => h4 y (by rw [hb]; exact List.mem_cons_of_mem _ hy)) hms fun y hy => ?_
      have hd : diff (fun k => (s.chans.objs k).log) (fun k => (s'.chans.objs k).log) = if j < 33 then new else [] := diff_adds (logs := clogs) ha
      unfold sentChan at hy
      rw [hd, if_pos (lt33 hj)] at hy
      obtain ⟨a, hm, hy⟩ := List.mem_filterMap.mp hy
      cases a with
      | openRsp x ch d =>
        cases hy
        rintro rfl
        obtain ⟨pre, post, hsplit⟩ := List.append_of_mem hm
        have := Channel.C37_serves hc hj ((s.chans.objs j).log ++ pre) (.openRsp x ch d) post (by
          rw [show (s'.chans.objs j).log = (s.chans.objs j).log ++ new from ha.1, hsplit, List.append_assoc])
        refine (hnew ?_).2 _ _ _ hm
        rw [this.2.1, UInt32.toNat_ofNat_of_lt' (Nat.lt_trans (lt33 hj) (by decide))]
      | _ => first | cases hy; done | (cases hy; exact id)
  | sess hdr data rest hb hn hsrv hch ms hms hbox =>
    refine ⟨h1, by rw [hch]; exact h2, by rw [hsrv]; exact h3, ?_⟩
    rw [hbox]
    refine sub_quiet (fun y hy => h4 y (by rw [hb]; exact List.mem_cons_of_mem _ hy)) hms fun y hy => ?_
    obtain ⟨a, _, ha⟩ := List.mem_filterMap.mp hy
    cases a <;> simp only [ofSess, Option.some.injEq, reduceCtorEq] at ha
    all_goals subst ha; exact id

/-- Any number of further steps. -/
inductive Sequel : Stack → List (Env × Ev) → Stack → Prop
  | nil {s : Stack} : Sequel s [] s
  | cons {s s1 s' : Stack} {e : Env} {v : Ev} {l : List (Env × Ev)} (hp : Possible s v) (hn : step s e v = .ok s1) (h : Sequel s1 l s') :
      Sequel s ((e, v) :: l) s'

theorem Sequel.reach {l : List (Env × Ev)} (h : Sequel s l s') (hr : Reach m u evs s) : Reach m u (evs ++ l) s' := by
  induction h generalizing evs with
  | nil => simpa using hr
  | cons hp hn _ ih => rw [List.append_cons]; exact ih (.step hr hp hn)

/-- The free identifiers and the orphans are different channels. -/
theorem orphans_free (h : Reach m u evs s) {l : List UInt32} (hd : l.Nodup) (hl : ∀ c ∈ l, Orphan s c) : s.chans.ids.len + l.length ≤ 32 := by
  obtain ⟨_, _, _, _, hc, _, _⟩ := reach_parts h
  obtain ⟨free, hf, hg⟩ := Channel.reach_inv (A := False) hc False.elim
  have hnd : (free ++ l.map UInt32.toNat).Nodup := by
    refine List.nodup_append.mpr ⟨hf.nodup, ?_, ?_⟩
    · exact List.pairwise_map.mpr (hd.imp fun hne h => hne (UInt32.toNat_inj.mp h))
    · intro a ha b hb hab
      obtain ⟨c, hc, rfl⟩ := List.mem_map.mp hb
      subst hab
      exact (hl c hc).isOpen ((hg _ (hl c hc).valid).1 ha).owner
  have hb : ∀ a ∈ free ++ l.map UInt32.toNat, 1 ≤ a ∧ a ≤ 32 := by
    intro a ha
    have hv : Pool.valid a := by
      rcases List.mem_append.mp ha with ha | ha
      · exact hf.ids a ha
      · obtain ⟨c, hc, rfl⟩ := List.mem_map.mp ha
        exact (hl c hc).valid
    exact ⟨hv.1, Nat.le_of_lt_succ (lt33 hv)⟩
  have := Pool.length_le_of_nodup hnd hb
  rw [List.length_append, List.length_map] at this
  rw [hf.holds.hlen]
  exact this

/-- Against C99: once no connection has the channel any more, it stays open whatever happens, and its identifier is never handed out again. -/
theorem C99_forever_violated (h : Reach m u evs s) {l : List UInt32} (hd : l.Nodup) (hl : ∀ c ∈ l, Orphan s c) {later : List (Env × Ev)} (hp : Sequel s later s') :
    (∀ c ∈ l, Orphan s' c) ∧ s'.chans.ids.len + l.length ≤ 32 := by
  have key : ∀ c ∈ l, Orphan s' c := by
    clear hd
    induction hp generalizing evs with
    | nil => exact hl
    | cons hp hn _ ih => exact ih (.step h hp hn) fun c hc => orphan_step h hp hn (hl c hc)
  exact ⟨key, orphans_free (hp.reach h) hd key⟩

/-- Against C99: a client that opens a channel while it has one, as the standard asks for from time to time in order to renew the channel, gets another channel.  The
first one is an orphan. -/
theorem C99_renewal_violated (h : Reach m u evs s) (hfree : s.chans.ids.len ≠ 0) {k : Nat} {ch : UInt32} {w : Window} (hr : Ready s k ch w)
    (hothers : ∀ j, j ≤ 32 → j ≠ k → Transport.owner (s.srv.conns j).log ≠ some ch) {e1 e2 e3 : Env} (h1 : Calm e1) (h2 : Calm e2) (h3 : Calm e3) {flag : UInt8} {c0 : UInt32}
    (sec : UaSecurityHeader) (seq : UaSequenceHeader) (req : Cont UaOpenSecureChannelReq 446) {pl : List UInt8} (hsays : Channel.SaysOpen sec seq req pl)
    (hlen : pl.length ≤ 4052) (hb : Brings s e1 k (chunk .opn flag c0 pl)) : ∃ s' ch' w',
      run s [(e1, .net (.linkData k)), (e2, .deliver), (e3, .deliver)] = .ok s' ∧
      Reach m u (evs ++ [(e1, .net (.linkData k)), (e2, .deliver), (e3, .deliver)]) s' ∧
      ch' ≠ ch ∧ Ready s' k ch' w' ∧ Blank s' k ∧ Orphan s' ch ∧ s.chans.ids.len = s'.chans.ids.len + 1 ∧
      Channel.owner (s.chans.objs ch'.toNat).log = none ∧ Beside k ch' s s' := by
  obtain ⟨s', ch', ans, tx, x, g1, g2, g3, g4, g5, g6, g7, g8, g9, g10, g11⟩ := C66_open h hfree hr.conn hr.st hr.opened hr.box h1 h2 h3 sec seq req hsays hlen hb
  have ho : Channel.owner (s.chans.objs ch.toNat).log = some w.owner := hr.knows.owner
  have hne : ch' ≠ ch := by
    rintro rfl
    rw [ho] at g3
    cases g3
  have hne' : ch.toNat ≠ ch'.toNat := fun hx => hne (Channel.u32_toNat hx).symm
  refine ⟨s', ch', _, g1, g2, hne, g6, g7, ⟨hr.chan, ?_, ?_, ?_⟩, g11, g3, g9⟩
  · rw [g9.2 _ hne', ho]
    simp
  · intro j hj
    by_cases hjk : j = k
    · subst hjk
      rw [g5, show ∀ l : List TAct, ∀ x y z, l ++ [x, y, z] = ((l ++ [x]) ++ [y]) ++ [z] by simp, Transport.owner_append, Transport.owner_append]
      simpa using hne
    · rw [g9.1 j hjk]
      exact hothers j hj hjk
  · rw [g6.box]
    exact fun _ h => nomatch h

/-- The deliveries of a run are possible, or change nothing. -/
theorem run_path {l : List (Env × Ev)} (hl : ∀ x ∈ l, x.2 = .deliver) (h : run s l = .ok s') : ∃ l', Sequel s l' s' ∧ ∀ x ∈ l', x.2 = .deliver := by
  induction l generalizing s with
  | nil =>
    injection h with h
    subst h
    exact ⟨[], .nil, fun _ h => nomatch h⟩
  | cons x l ih =>
    obtain ⟨e, v⟩ := x
    obtain rfl : v = .deliver := hl _ List.mem_cons_self
    obtain ⟨s1, h1, h2⟩ := Exec.bind_eq_ok.mp h
    obtain ⟨l', h3, h4⟩ := ih (fun y hy => hl y (List.mem_cons_of_mem _ hy)) h2
    by_cases hb : s.box = []
    · have : step s e .deliver = .ok s := by
        show deliver 4096 s e = _
        unfold deliver
        rw [hb]
      rw [this] at h1
      injection h1 with h1
      subst h1
      exact ⟨l', h3, h4⟩
    · exact ⟨(e, .deliver) :: l', .cons hb h1 h3, fun y hy => (List.mem_cons.mp hy).elim (fun h => by rw [h]) (h4 y)⟩

theorem Sequel.trans {a b : Stack} {l l' : List (Env × Ev)} (h : Sequel s l a) (h' : Sequel a l' b) : Sequel s (l ++ l') b := by
  induction h with
  | nil => exact h'
  | cons hp hn _ ih => exact .cons hp hn (ih h')

/-- The channels of the other connections are open, and none of them is `ch`. -/
def Strangers (s : Stack) (k : Nat) (ch : UInt32) : Prop :=
  ∀ j, j ≤ 32 → j ≠ k → ∀ c, Transport.owner (s.srv.conns j).log = some c → c ≠ ch ∧ Channel.owner (s.chans.objs c.toNat).log ≠ none

/-- Against C99: one client that renews its channel `n` times leaves `n` orphans. -/
theorem C99_exhausted_violated (h : Reach m u evs s) {k : Nat} {ch : UInt32} {w : Window} (hr : Ready s k ch w) (hbl : Blank s k) (ha : Strangers s k ch)
    (sec : UaSecurityHeader) (seq : UaSequenceHeader) (req : Cont UaOpenSecureChannelReq 446) {pl : List UInt8} (hsays : Channel.SaysOpen sec seq req pl)
    (hlen : pl.length ≤ 4052) {e : Env} (he : Calm e) (hrx : e.tcp.rx = .ok (chunk .opn 0x46 ch pl)) (n : Nat) (hn : n ≤ s.chans.ids.len) :
    ∃ s' later ch' w', ∃ l : List UInt32, Sequel s later s' ∧ (∀ x ∈ later, x.2 = .net (.linkData k) ∨ x.2 = .deliver) ∧ Ready s' k ch' w' ∧
      s.chans.ids.len = s'.chans.ids.len + n ∧ l.Nodup ∧ l.length = n ∧ ∀ c ∈ l, Orphan s' c := by
  suffices ∃ s' later ch' w', ∃ l : List UInt32, Sequel s later s' ∧ (∀ x ∈ later, x.2 = .net (.linkData k) ∨ x.2 = .deliver) ∧ Ready s' k ch' w' ∧ Blank s' k ∧ Strangers s' k ch' ∧
      s.chans.ids.len = s'.chans.ids.len + n ∧ l.Nodup ∧ l.length = n ∧ ∀ c ∈ l, Orphan s' c ∧ c ≠ ch' by
    obtain ⟨s', later, ch', w', l, h1, h2, h3, _, _, h4, h5, h6, h7⟩ := this
    exact ⟨s', later, ch', w', l, h1, h2, h3, h4, h5, h6, fun c hc => (h7 c hc).1⟩
  induction n with
  | zero => exact ⟨s, [], ch, w, [], .nil, by simp, hr, hbl, ha, rfl, List.nodup_nil, rfl, by simp⟩
  | succ n ih =>
    obtain ⟨t, later, ch1, w1, l, g1, g2, g3, g4, g5, g6, g7, g8, g9⟩ := ih (by omega)
    have ht := g1.reach h
    obtain ⟨s', ch', w', k1, k2, k3, k4, k5, k6, k7, k8, k9⟩ := C99_renewal_violated ht (by omega) g3 (fun j hj hjk hx => (g5 j hj hjk _ hx).1 rfl) he he he sec seq req hsays hlen
      (brings_whole g3.opened g4.1 g4.2 (by omega) hrx)
    obtain ⟨s1, q1, q2⟩ := Exec.bind_eq_ok.mp k1
    obtain ⟨later', q3, q4⟩ := run_path (l := [(e, .deliver), (e, .deliver)]) (by simp) q2
    have hposs : Possible t (.net (.linkData k)) := by
      obtain ⟨_, _, _, hts, _⟩ := reach_parts ht
      exact ⟨rfl, g3.conn, (Transport.reach_live hts g3.conn (by rw [g3.st]; simp)).choose_spec.2.2.2.2.link⟩
    have hpath : Sequel t ((e, .net (.linkData k)) :: later') s' := .cons hposs q1 q3
    have hkeep := (C99_forever_violated ht g7 (fun c hc => (g9 c hc).1) hpath).1
    have hold : ∀ c, Orphan t c → c ≠ ch' := by
      rintro c hc rfl
      exact hc.isOpen k8
    refine ⟨s', later ++ (e, .net (.linkData k)) :: later', ch', w', ch1 :: l, g1.trans hpath, ?_, k4, k5, ?_, by omega, ?_, by simp [g8], ?_⟩
    · intro x hx
      rcases List.mem_append.mp hx with hx | hx
      · exact g2 x hx
      · rcases List.mem_cons.mp hx with hx | hx
        · exact .inl (by rw [hx])
        · exact .inr (q4 x hx)
    · intro j hj hjk c hc
      rw [k9.1 j hjk] at hc
      obtain ⟨r1, r2⟩ := g5 j hj hjk c hc
      have hne : c ≠ ch' := by
        rintro rfl
        exact r2 k8
      exact ⟨hne, by rw [k9.2 _ fun hx => hne (Channel.u32_toNat hx)]; exact r2⟩
    · exact List.nodup_cons.mpr ⟨fun hm => (g9 _ hm).2 rfl, g7⟩
    · intro c hc
      rcases List.mem_cons.mp hc with rfl | hc
      · exact ⟨k6, Ne.symm k3⟩
      · exact ⟨hkeep c hc, hold c (g9 c hc).1⟩

end Stack

end Uscada.Ua
