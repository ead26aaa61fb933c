import Verif.UaStackRuns
/-!
# C78, C79: the chunk type, and dialogues

The server looks at no chunk type (C78).  Every orderly dialogue of a client is answered to its end (C79).

A client sends one request after the other; which one comes next may depend on all answers so far.  As long as each request is one that
the client may send (it creates a session only if one is free, names a session it created and has not closed, and reads only in a session
that it activated), all requests of the dialogue are answered, however long it is.
-/

namespace Uscada.Ua

open SM

namespace Stack

open Transport (Down TEv tlogs chunk HoldsChunk upOf)
open Channel (clogs Window window bound word)
open Session (slogs bytesOf Fits isOpen holder Says)

variable {m : Nat → Mem} {u : Nat → UInt32 × UInt32} {evs : List (Env × Ev)} {s s' : Stack}

/-! ## Specification: the client -/

/-- What a client does: nothing more, or a request with its identifier, its body, and what follows on each answer. -/
inductive Plan where
  | done
  | ask (id : UInt32) (r : SReq) (body : List UInt8) (next : List UInt8 → Plan)

/-- What a client knows: the sessions it created and has not closed, those it activated, the session it activated last, and a number of
sessions that are free. -/
structure Know where
  opened : List UInt32
  active : List UInt32
  last : Option UInt32
  free : Nat

/-- The request may be sent, about session `x`. -/
def Know.May (K : Know) (x : UInt32) : SReq → Prop
  | .getEndpoints _ => True
  | .create _ => 0 < K.free
  | .activate q => x ∈ K.opened ∧ q.requestHdr.authentificationToken.value = .numeric x
  | .read _ => K.last = some x ∧ x ∈ K.active
  | .close q => x ∈ K.opened ∧ q.requestHdr.authentificationToken.value = .numeric x

/-- What the client knows behind the answer. -/
def Know.after (K : Know) (x : UInt32) : SReq → Know
  | .getEndpoints _ => K
  | .create _ => { K with opened := x :: K.opened, free := K.free - 1 }
  | .activate _ => { K with active := x :: K.active, last := some x }
  | .read _ => K
  | .close _ => { K with opened := K.opened.filter (· != x), active := K.active.filter (· != x), free := K.free + 1 }

def isCreate : SReq → Bool
  | .create _ => true
  | _ => false

/-- A plan that keeps to the rules whatever is answered.  The server chooses the session that is created: any that the client does not
have.  An answer has at most 264 bytes.  A request has one of the encodings that the program reads (`Says`, C74) and fits in a message (C64). -/
def Sound (K : Know) : Plan → Prop
  | .done => True
  | .ask _ r body next => Says r body ∧ body.length ≤ 4032 ∧
    if isCreate r then K.May 0 r ∧ ∀ x ans, Pool.valid x.toNat → x ∉ K.opened → Fits x.toNat r ans → ans.length ≤ 264 →
        Sound (K.after x r) (next ans)
    else ∃ x, K.May x r ∧ ∀ ans, Fits x.toNat r ans → ans.length ≤ 264 → Sound (K.after x r) (next ans)

/-- A client takes a chunk as the answer to request `id` if it is a final message chunk of its length, with the channel, the token, and
the next sequence number. -/
def understood (ch token tx id : UInt32) (f : List UInt8) : Option (List UInt8) :=
  if f.take 4 = [0x4D, 0x53, 0x47, 0x46] ∧ word f 4 = UInt32.ofNat f.length ∧ word f 8 = ch ∧ word f 12 = token ∧ word f 16 = tx ∧ word f 20 = id then
    some (f.drop 24)
  else none

/-- The chunks written to connection `k` meanwhile. -/
def written (s s' : Stack) (k : Nat) : List (List UInt8) := ((s'.srv.conns k).log.drop (s.srv.conns k).log.length).filterMap fun
  | .sent f => some f
  | _ => none

/-- These bytes can be read. -/
def Env.brings (e : Env) (f : List UInt8) : Env := { e with tcp := { e.tcp with rx := .ok f } }

/-- The chunk arrives, and five messages are delivered. -/
def six (env : Nat → Env) (k i : Nat) (f : List UInt8) : List (Env × Ev) :=
  ((env i).brings f, .net (.linkData k)) :: [1, 2, 3, 4, 5].map fun j => (env (i + j), .deliver)

/-- The client carries out its plan: it writes each request when the answer to the one before has come.  The result is `none` if
a request does not get exactly one chunk that is understood as its answer. -/
def play (env : Nat → Env) (k : Nat) (ch : UInt32) : Plan → Nat → Window → UInt32 → Stack → Exec (Option (List (SReq × List UInt8) × Stack))
  | .done, _, _, _, s => .ok (some ([], s))
  | .ask id r body next, i, w, tx, s => do
    let s' ← run s (six env k i (chunk .msg 0x46 ch (request w id body)))
    match written s s' k with
    | [f] =>
      match understood ch w.token (tx + 1) id f with
      | some ans => do
        let x ← play env k ch (next ans) (i + 6) (Window.next w) (tx + 1) s'
        pure (x.map fun x => ((r, ans) :: x.1, x.2))
      | none => .ok none
    | _ => .ok none

/-- The requests are those of the plan, to its end, and each answer fits. -/
def Completes : Plan → List (SReq × List UInt8) → Prop
  | .done, l => l = []
  | .ask _ r _ next, l => ∃ ans t, l = (r, ans) :: t ∧ (∃ x, Fits x r ans) ∧ Completes (next ans) t

/-- The state is as the client knows. -/
structure Holds (K : Know) (s : Stack) (ch : UInt32) : Prop where
  opened : ∀ x ∈ K.opened, Pool.valid x.toNat ∧ isOpen (s.sess.objs x.toNat).log = true
  active : ∀ x ∈ K.active, x ∈ K.opened ∧ holder (s.sess.objs x.toNat).log = some ch
  last : ∀ x, K.last = some x → bound (s.chans.objs ch.toNat).log = some x
  free : K.free ≤ s.sess.ids.len

/-! ## Free sessions -/

theorem len_same {a b : List Session.SIn} {s t : Sessions} (h : Session.Reach a s) (h' : Session.Reach b t)
    (ho : ∀ j, Pool.valid j → isOpen (t.objs j).log = isOpen (s.objs j).log) : t.ids.len = s.ids.len := by
  obtain ⟨l, h1, h2⟩ := Session.C40_no_leak h
  obtain ⟨l', h3, h4⟩ := Session.C40_no_leak h'
  rw [h1.holds.hlen, h3.holds.hlen]
  refine ((List.perm_ext_iff_of_nodup h3.nodup h1.nodup).mpr fun j => ?_).length_eq
  constructor
  · intro hj
    have hv := h3.ids j hj
    exact (h2 j hv).mpr ((ho j hv).symm.trans ((h4 j hv).mp hj))
  · intro hj
    have hv := h1.ids j hj
    exact (h4 j hv).mpr ((ho j hv).trans ((h2 j hv).mp hj))

theorem len_opens {a b : List Session.SIn} {s t : Sessions} (h : Session.Reach a s) (h' : Session.Reach b t) {x : Nat} (hx : Pool.valid x)
    (h0 : isOpen (s.objs x).log = false) (hx' : isOpen (t.objs x).log = true)
    (ho : ∀ j, j ≠ x → isOpen (t.objs j).log = isOpen (s.objs j).log) : s.ids.len = t.ids.len + 1 := by
  obtain ⟨l, h1, h2⟩ := Session.C40_no_leak h
  obtain ⟨l', h3, h4⟩ := Session.C40_no_leak h'
  rw [h1.holds.hlen, h3.holds.hlen]
  have hn : x ∉ l' := fun hm => by
    rw [(h4 x hx).mp hm] at hx'
    cases hx'
  refine ((List.perm_ext_iff_of_nodup h1.nodup (List.nodup_cons.mpr ⟨hn, h3.nodup⟩)).mpr fun j => ?_).length_eq
  rw [List.mem_cons]
  by_cases hj : j = x
  · subst hj
    exact ⟨fun _ => .inl rfl, fun _ => (h2 j hx).mpr h0⟩
  · constructor
    · intro hm
      have hv := h1.ids j hm
      exact .inr ((h4 j hv).mpr ((ho j hj).trans ((h2 j hv).mp hm)))
    · rintro (hm | hm)
      · exact absurd hm hj
      · have hv := h3.ids j hm
        exact (h2 j hv).mpr ((ho j hj).symm.trans ((h4 j hv).mp hm))

/-! ## One exchange -/

theorem word_ofNat (n : Nat) (d : List UInt8) : word (leBytes 4 n ++ d) 0 = UInt32.ofNat n := by
  have : leBytes 4 n = leBytes 4 (UInt32.ofNat n).toNat := by
    simp only [leBytes, UInt32.toNat_ofNat']
    congr 1
    · apply UInt8.toNat_inj.mp
      simp only [UInt8.toNat_ofNat']
      omega
    congr 1
    · apply UInt8.toNat_inj.mp
      simp only [UInt8.toNat_ofNat']
      omega
    congr 1
    · apply UInt8.toNat_inj.mp
      simp only [UInt8.toNat_ofNat']
      omega
    congr 1
    apply UInt8.toNat_inj.mp
    simp only [UInt8.toNat_ofNat']
    omega
  rw [this, Channel.word_leBytes]

theorem understood_answer (ch : UInt32) (w : Window) (tx id : UInt32) (ans : List UInt8) :
    understood ch w.token tx id (chunk .msg 0x46 ch (answer w tx id ans)) = some ans := by
  have hl := Transport.chunk_length .msg 0x46 ch (answer w tx id ans)
  have he : chunk .msg 0x46 ch (answer w tx id ans) = [0x4D, 0x53, 0x47, 0x46] ++ (leBytes 4 ((answer w tx id ans).length + 12) ++ (leBytes 4 ch.toNat ++
      (leBytes 4 w.token.toNat ++ (leBytes 4 tx.toNat ++ (leBytes 4 id.toNat ++ ans))))) := by
    unfold chunk
    rw [List.append_assoc, List.append_assoc]
    rfl
  unfold understood
  rw [hl]
  generalize (answer w tx id ans).length = n at *
  rw [he, if_pos]
  · rfl
  · refine ⟨rfl, ?_, ?_, ?_, ?_, ?_⟩
    · exact (Channel.word_skip [0x4D, 0x53, 0x47, 0x46] _ 4 0 rfl).trans (word_ofNat _ _)
    all_goals
      rw [← List.append_assoc]
    · exact (Channel.word_skip ([0x4D, 0x53, 0x47, 0x46] ++ leBytes 4 (n + 12)) _ 8 0 rfl).trans (Channel.word_leBytes _ _)
    · exact (Channel.word_skip ([0x4D, 0x53, 0x47, 0x46] ++ leBytes 4 (n + 12)) _ 8 4 rfl).trans (Channel.word4 _ _ _)
    · exact (Channel.word_skip ([0x4D, 0x53, 0x47, 0x46] ++ leBytes 4 (n + 12)) _ 8 8 rfl).trans (Channel.word8 _ _ _ _)
    · exact (Channel.word_skip ([0x4D, 0x53, 0x47, 0x46] ++ leBytes 4 (n + 12)) _ 8 12 rfl).trans
        ((Channel.word_skip (leBytes 4 ch.toNat) _ 4 8 rfl).trans (Channel.word8 _ _ _ _))

theorem served_written {k : Nat} {ch : UInt32} {w : Window} {flag : UInt8} {id : UInt32} {body ans : List UInt8} {evs : List (Env × Ev)}
    (h : Served m u evs s s' k ch w flag id body ans) : ∃ n, Channel.lastTx (s.chans.objs ch.toNat).log = some n ∧
      Channel.lastTx (s'.chans.objs ch.toNat).log = some (n + 1) ∧ written s s' k = [chunk .msg 0x46 ch (answer w (n + 1) id ans)] := by
  obtain ⟨x, n, -, h1, h2, h3⟩ := h.log
  refine ⟨n, h1, h2, ?_⟩
  unfold written
  rw [h3, List.drop_left]
  rfl

/-- With an empty mailbox a further delivery changes nothing. -/
theorem deliver_nil (h : s.box = []) (e : Env) : run s [(e, .deliver)] = .ok s := by
  show (step s e .deliver >>= _) = _
  have : step s e .deliver = .ok s := by
    show deliver 4096 s e = _
    unfold deliver
    rw [h]
  rw [this]
  rfl

theorem six_five {env : Nat → Env} {k i : Nat} {f : List UInt8} (h : run s (five k ((env i).brings f) (env (i + 1)) (env (i + 2)) (env (i + 3)) (env (i + 4))) = .ok s')
    (hb : s'.box = []) : run s (six env k i f) = .ok s' := by
  show run s (five k _ _ _ _ _ ++ [(env (i + 5), .deliver)]) = _
  rw [run_append h]
  exact deliver_nil hb _

theorem calm_brings {e : Env} (h : Calm e) (f : List UInt8) : Calm (e.brings f) := ⟨h.others, h.starts, h.writes⟩

theorem holder_open {a : List Session.SIn} {s : Sessions} (h : Session.Reach a s) {x : Nat} (hx : Pool.valid x) {c : UInt32} (hh : holder (s.objs x).log = some c) :
    isOpen (s.objs x).log = true := by
  rcases (Session.reach_inv h).around hx with ha | ⟨l, h1, h2, h3⟩
  · exact ha.at.isOpen
  · rw [((h3 _ hx).1 h2).holder] at hh
    cases hh

/-- One exchange: the request may be sent, and is answered. -/
theorem exchange (h : Reach m u evs s) {k : Nat} {ch : UInt32} {w : Window} (hr : Ready s k ch w) (hbl : Blank s k) {K : Know} (hK : Holds K s ch)
    {env : Nat → Env} (he : ∀ i, Calm (env i)) (i : Nat) (flag : UInt8) (id : UInt32) {r : SReq} {body : List UInt8} (hq : Says r body) (hlen : body.length ≤ 4032)
    {x : UInt32} (hm : K.May x r) : ∃ s' ans x' more,
      run s (six env k i (chunk .msg flag ch (request w id body))) = .ok s' ∧
      Served m u (evs ++ more) s s' k ch w flag id body ans ∧ Fits x'.toNat r ans ∧ Holds (K.after x' r) s' ch ∧
      (∀ j, Pool.valid j → isOpen (s.sess.objs j).log = true → (∀ y ∈ K.opened, y.toNat ≠ j) → s'.sess.objs j = s.sess.objs j ∧ ∀ y ∈ (K.after x' r).opened, y.toNat ≠ j) ∧
      (if isCreate r then Pool.valid x'.toNat ∧ x' ∉ K.opened else x' = x) ∧
      ∀ j, Pool.valid j → isOpen (s'.sess.objs j).log = true →
        (∃ y ∈ (K.after x' r).opened, y.toNat = j) ∨ (isOpen (s.sess.objs j).log = true ∧ ∀ y ∈ K.opened, y.toNat ≠ j) := by
  have hb : Brings s ((env i).brings (chunk .msg flag ch (request w id body))) k (chunk .msg flag ch (request w id body)) :=
    brings_whole hr.opened hbl.1 hbl.2 (by rw [request_length]; omega) rfl
  have hc := calm_brings (he i) (chunk .msg flag ch (request w id body))
  obtain ⟨_, _, sevs, _, _, hs, _⟩ := reach_parts h
  have hmine : ∀ {j : Nat} {b : Bool}, b = true → (∃ y ∈ K.opened, y.toNat = j) ∨ (b = true ∧ ∀ y ∈ K.opened, y.toNat ≠ j) := fun {j b} hj => by
    by_cases he : ∃ y ∈ K.opened, y.toNat = j
    · exact .inl he
    · exact .inr ⟨hj, fun y hy hyj => he ⟨y, hy, hyj⟩⟩
  cases r with
  | getEndpoints q =>
    obtain ⟨s', ans, g1, g2, g3, g4, g5⟩ := C66_endpoints h hr hc (he (i + 1)) (he (i + 2)) (he (i + 3)) (he (i + 4)) q hq hlen hb
    have hv0 : ∀ {j}, Pool.valid j → j ≠ 0 := fun hj => by have := hj.1; omega
    obtain ⟨_, _, _, _, _, hs', _⟩ := reach_parts g2.reach
    refine ⟨s', ans, x, _, six_five g1 g2.ready.box, g2, g4, ⟨fun y hy => ?_, fun y hy => ?_, fun y hy => ?_, ?_⟩, fun j hj _ hn => ⟨g5 j (hv0 hj), hn⟩, rfl,
      fun j hj ho => by rw [g5 j (hv0 hj)] at ho; exact hmine ho⟩
    · have := hK.opened y hy
      exact ⟨this.1, by rw [g5 _ (hv0 this.1)]; exact this.2⟩
    · have := hK.active y hy
      exact ⟨this.1, by rw [g5 _ (hv0 (hK.opened y this.1).1)]; exact this.2⟩
    · exact g3.trans (hK.last y hy)
    · show K.free ≤ _
      rw [len_same hs hs' fun j hj => by rw [g5 j (hv0 hj)]]
      exact hK.free
  | create q =>
    have hf : s.sess.ids.len ≠ 0 := by
      have := hK.free
      have : 0 < K.free := hm
      omega
    obtain ⟨s', ans, g1, g2, g3, n, g4, g5, g6, g7, g8⟩ := C66_create h hf hr hc (he (i + 1)) (he (i + 2)) (he (i + 3)) (he (i + 4)) q hq hlen hb
    have hn : (UInt32.ofNat n).toNat = n := (toNat_eq (lt33 g4)).mpr rfl
    obtain ⟨_, _, _, _, _, hs', _⟩ := reach_parts g2.reach
    have hne : ∀ {y : UInt32}, isOpen (s.sess.objs y.toNat).log = true → y.toNat ≠ n := fun ho he => by
      rw [he, g5] at ho
      cases ho
    refine ⟨s', ans, UInt32.ofNat n, _, six_five g1 g2.ready.box, g2, by rw [hn]; exact g7, ⟨fun y hy => ?_, fun y hy => ?_, fun y hy => ?_, ?_⟩, fun j hj ho hnm => ⟨?_, ?_⟩,
      ⟨by rw [hn]; exact g4, fun hy => ?_⟩, fun j hj ho => ?_⟩
    · rcases List.mem_cons.mp hy with rfl | hy
      · rw [hn]
        exact ⟨g4, g6⟩
      · have := hK.opened y hy
        exact ⟨this.1, by rw [g8 _ (hne this.2)]; exact this.2⟩
    · have := hK.active y hy
      exact ⟨List.mem_cons_of_mem _ this.1, by rw [g8 _ (hne (hK.opened y this.1).2)]; exact this.2⟩
    · exact g3.trans (hK.last y hy)
    · have := len_opens hs hs' g4 g5 g6 fun j hj => by rw [g8 j hj]
      have := hK.free
      show K.free - 1 ≤ _
      omega
    · refine g8 j ?_
      rintro rfl
      rw [g5] at ho
      cases ho
    · intro y hy
      rcases List.mem_cons.mp hy with rfl | hy
      · rw [hn]
        rintro rfl
        rw [g5] at ho
        cases ho
      · exact hnm y hy
    · exact hne (hK.opened _ hy).2 hn
    · by_cases hjn : j = n
      · exact .inl ⟨UInt32.ofNat n, List.mem_cons_self, hn.trans hjn.symm⟩
      · rw [g8 j hjn] at ho
        rcases hmine (j := j) ho with ⟨y, hy, hyj⟩ | hy
        · exact .inl ⟨y, List.mem_cons_of_mem _ hy, hyj⟩
        · exact .inr ⟨ho, hy.2⟩
  | activate q =>
    obtain ⟨hx, ht⟩ := hm
    obtain ⟨hv, ho⟩ := hK.opened x hx
    obtain ⟨s', ans, g1, g2, g3, g4, g5, g6, g7⟩ := C66_activate h hr hc (he (i + 1)) (he (i + 2)) (he (i + 3)) (he (i + 4)) (he (i + 5)) hv ho q hq ht hlen hb
    obtain ⟨_, _, _, _, _, hs', _⟩ := reach_parts g2.reach
    refine ⟨s', ans, x, _, g1, g2, g4, ⟨fun y hy => ?_, fun y hy => ?_, fun y hy => ?_, ?_⟩, fun j hj ho' hnm => ⟨g7 j fun he => hnm x hx he.symm, hnm⟩, rfl,
      fun j hj ho' => ?_⟩
    rotate_right
    · by_cases hjx : j = x.toNat
      · exact .inl ⟨x, hx, hjx.symm⟩
      · rw [g7 j hjx] at ho'
        exact hmine ho'
    · have := hK.opened y hy
      by_cases hyx : y.toNat = x.toNat
      · exact ⟨this.1, by rw [hyx]; exact g5⟩
      · exact ⟨this.1, by rw [g7 _ hyx]; exact this.2⟩
    · rcases List.mem_cons.mp hy with rfl | hy
      · exact ⟨hx, g6⟩
      · have := hK.active y hy
        by_cases hyx : y.toNat = x.toNat
        · exact ⟨this.1, by rw [hyx]; exact g6⟩
        · exact ⟨this.1, by rw [g7 _ hyx]; exact this.2⟩
    · exact g3.trans hy
    · show K.free ≤ _
      rw [len_same hs hs' fun j hj => ?_]
      · exact hK.free
      · by_cases hjx : j = x.toNat
        · rw [hjx, g5, ho]
        · rw [g7 j hjx]
  | read q =>
    obtain ⟨hl, hx⟩ := hm
    obtain ⟨hxo, hh⟩ := hK.active x hx
    obtain ⟨hv, ho⟩ := hK.opened x hxo
    obtain ⟨s', ans, g1, g2, g3, g4, g6, g7⟩ := C66_read h hr hc (he (i + 1)) (he (i + 2)) (he (i + 3)) (he (i + 4)) hv (hK.last x hl) hh q hq hlen hb
    obtain ⟨_, _, _, _, _, hs', _⟩ := reach_parts g2.reach
    have g5 := holder_open hs' hv g6
    refine ⟨s', ans, x, _, six_five g1 g2.ready.box, g2, g4, ⟨fun y hy => ?_, fun y hy => ?_, fun y hy => ?_, ?_⟩, fun j hj ho' hnm => ⟨g7 j fun he => hnm x hxo he.symm, hnm⟩, rfl,
      fun j hj ho' => ?_⟩
    rotate_right
    · by_cases hjx : j = x.toNat
      · exact .inl ⟨x, hxo, hjx.symm⟩
      · rw [g7 j hjx] at ho'
        exact hmine ho'
    · have := hK.opened y hy
      by_cases hyx : y.toNat = x.toNat
      · exact ⟨this.1, by rw [hyx]; exact g5⟩
      · exact ⟨this.1, by rw [g7 _ hyx]; exact this.2⟩
    · have := hK.active y hy
      by_cases hyx : y.toNat = x.toNat
      · exact ⟨this.1, by rw [hyx]; exact g6⟩
      · exact ⟨this.1, by rw [g7 _ hyx]; exact this.2⟩
    · exact g3.trans (hK.last y hy)
    · show K.free ≤ _
      rw [len_same hs hs' fun j hj => ?_]
      · exact hK.free
      · by_cases hjx : j = x.toNat
        · rw [hjx, g5, ho]
        · rw [g7 j hjx]
  | close q =>
    obtain ⟨hx, ht⟩ := hm
    obtain ⟨hv, ho⟩ := hK.opened x hx
    obtain ⟨s', ans, g1, g2, g3, g4, g5, g7⟩ := C66_close h hr hc (he (i + 1)) (he (i + 2)) (he (i + 3)) (he (i + 4)) hv ho q hq ht hlen hb
    obtain ⟨_, _, _, _, _, hs', _⟩ := reach_parts g2.reach
    have hne : ∀ {y : UInt32} {l : List UInt32}, y ∈ l.filter (· != x) → y ∈ l ∧ y.toNat ≠ x.toNat := fun hy => by
      obtain ⟨h1, h2⟩ := List.mem_filter.mp hy
      exact ⟨h1, fun hx => by rw [UInt32.toNat_inj.mp hx] at h2; simp at h2⟩
    refine ⟨s', ans, x, _, six_five g1 g2.ready.box, g2, g4, ⟨fun y hy => ?_, fun y hy => ?_, fun y hy => ?_, ?_⟩,
      fun j hj ho' hnm => ⟨g7 j fun he => hnm x hx he.symm, fun y hy => hnm y (hne hy).1⟩, rfl, fun j hj ho' => ?_⟩
    rotate_right
    · by_cases hjx : j = x.toNat
      · rw [hjx, g5] at ho'
        cases ho'
      · rw [g7 j hjx] at ho'
        rcases hmine (j := j) ho' with ⟨y, hy, hyj⟩ | hy
        · exact .inl ⟨y, List.mem_filter.mpr ⟨hy, by simp only [bne_iff_ne]; exact fun he => hjx (by rw [← hyj, he])⟩, hyj⟩
        · exact .inr ⟨ho', hy.2⟩
    · obtain ⟨hy, hyx⟩ := hne hy
      have := hK.opened y hy
      exact ⟨this.1, by rw [g7 _ hyx]; exact this.2⟩
    · obtain ⟨hy, hyx⟩ := hne hy
      have := hK.active y hy
      exact ⟨List.mem_filter.mpr ⟨this.1, by simp only [bne_iff_ne]; exact fun he => hyx (by rw [he])⟩, by rw [g7 _ hyx]; exact this.2⟩
    · exact g3.trans (hK.last y hy)
    · have := len_opens hs' hs hv g5 ho fun j hj => by rw [g7 j hj]
      have := hK.free
      show K.free + 1 ≤ _
      omega

/-! ## C78: the chunk type -/

/-- The messages that chunks with these types and bodies carry (OPC 10000-6, 6.7.2): an intermediate chunk `C` is a part of the message, `F` is its last part, and `A` aborts it. -/
def assemble (sofar : List UInt8) : List (UInt8 × List UInt8) → List (List UInt8)
  | [] => []
  | (flag, body) :: l =>
    if flag = 0x43 then assemble (sofar ++ body) l
    else if flag = 0x46 then (sofar ++ body) :: assemble [] l
    else assemble [] l

/-- The server executes this: it writes one answer that fits, and the sessions are those behind the request. -/
def Executes (env : Nat → Env) (k i : Nat) (ch : UInt32) (w : Window) (K : Know) (s : Stack) (flag : UInt8) (id : UInt32) (r : SReq) (body : List UInt8) : Prop :=
  ∃ s' x ans tx, run s (six env k i (chunk .msg flag ch (request w id body))) = .ok s' ∧
    written s s' k = [chunk .msg 0x46 ch (answer w tx id ans)] ∧ Fits x r ans ∧ Holds (K.after (UInt32.ofNat x) r) s' ch

theorem executes (h : Reach m u evs s) {k : Nat} {ch : UInt32} {w : Window} (hr : Ready s k ch w) (hbl : Blank s k) {K : Know} (hK : Holds K s ch)
    {env : Nat → Env} (he : ∀ i, Calm (env i)) (i : Nat) (flag : UInt8) (id : UInt32) {r : SReq} {body : List UInt8} (hq : Says r body) (hlen : body.length ≤ 4032)
    {x : UInt32} (hm : K.May x r) : Executes env k i ch w K s flag id r body := by
  obtain ⟨s', ans, x', _, g1, g2, g3, g4, _⟩ := exchange h hr hbl hK he i flag id hq hlen hm
  obtain ⟨n, -, -, t3⟩ := served_written g2
  exact ⟨s', x'.toNat, ans, n + 1, g1, t3, g3, by rw [UInt32.ofNat_toNat]; exact g4⟩

/-- C78 (`_partial`: final chunks only): a message in one final chunk is executed. -/
theorem C78_final_partial (h : Reach m u evs s) {k : Nat} {ch : UInt32} {w : Window} (hr : Ready s k ch w) (hbl : Blank s k) {K : Know} (hK : Holds K s ch)
    {env : Nat → Env} (he : ∀ i, Calm (env i)) (i : Nat) (id : UInt32) {r : SReq} {body : List UInt8} (hq : Says r body) (hlen : body.length ≤ 4032)
    {x : UInt32} (hm : K.May x r) : assemble [] [(0x46, body)] = [body] ∧ Executes env k i ch w K s 0x46 id r body :=
  ⟨rfl, executes h hr hbl hK he i 0x46 id hq hlen hm⟩

/-- C78 does not hold: a part of a message that is not its last, and a part that aborts the message, are executed as if they were the message. -/
theorem C78_parts_violated (h : Reach m u evs s) {k : Nat} {ch : UInt32} {w : Window} (hr : Ready s k ch w) (hbl : Blank s k) {K : Know} (hK : Holds K s ch)
    {env : Nat → Env} (he : ∀ i, Calm (env i)) (i : Nat) (id : UInt32) {r : SReq} {body : List UInt8} (hq : Says r body) (hlen : body.length ≤ 4032)
    {x : UInt32} (hm : K.May x r) {flag : UInt8} (hf : flag ≠ 0x46) : assemble [] [(flag, body)] = [] ∧ Executes env k i ch w K s flag id r body := by
  refine ⟨?_, executes h hr hbl hK he i flag id hq hlen hm⟩
  simp only [assemble]
  split <;> simp_all

/-! ## C79 -/

/-- C79: from every reachable state, a connected client carries out every plan that keeps to the rules, to its end: each request gets exactly one answer, which fits,
and the next one can follow.  Other connections, other channels, and the open sessions that the client does not have are left alone.  (Nothing else happens meanwhile, there
are slots for the messages, and the link takes the bytes.) -/
theorem C79_dialogue (h : Reach m u evs s) {k : Nat} {ch : UInt32} {w : Window} (hr : Ready s k ch w) (hbl : Blank s k) {tx : UInt32}
    (htx : Channel.lastTx (s.chans.objs ch.toNat).log = some tx) {K : Know} (hK : Holds K s ch) {p : Plan} (hp : Sound K p) {env : Nat → Env} (he : ∀ i, Calm (env i))
    (i : Nat) : ∃ xs s' w' more, play env k ch p i w tx s = .ok (some (xs, s')) ∧ Completes p xs ∧
      Reach m u (evs ++ more) s' ∧ Ready s' k ch w' ∧ Blank s' k ∧ Beside k ch s s' ∧
      ∀ j, Pool.valid j → isOpen (s.sess.objs j).log = true → (∀ y ∈ K.opened, y.toNat ≠ j) → s'.sess.objs j = s.sess.objs j := by
  induction p generalizing evs s w tx K i with
  | done => exact ⟨[], s, w, [], rfl, rfl, by simpa using h, hr, hbl, ⟨fun _ _ => rfl, fun _ _ => rfl⟩, fun _ _ _ _ => rfl⟩
  | ask id r body next ih =>
    obtain ⟨hq, hlen, hp⟩ := hp
    obtain ⟨x, hm, hnext⟩ : ∃ x, K.May x r ∧ ∀ x' ans, (if isCreate r then Pool.valid x'.toNat ∧ x' ∉ K.opened else x' = x) → Fits x'.toNat r ans →
        ans.length ≤ 264 → Sound (K.after x' r) (next ans) := by
      by_cases hc : isCreate r = true
      · rw [if_pos hc] at hp
        refine ⟨0, hp.1, fun x' ans hx hf hl => ?_⟩
        rw [if_pos hc] at hx
        exact hp.2 x' ans hx.1 hx.2 hf hl
      · rw [if_neg hc] at hp
        obtain ⟨x, h1, h2⟩ := hp
        refine ⟨x, h1, fun x' ans hx hf hl => ?_⟩
        rw [if_neg hc] at hx
        subst hx
        exact h2 ans hf hl
    obtain ⟨s1, ans, x', more, g1, g2, g3, g4, g5, g6, _⟩ := exchange h hr hbl hK he i 0x46 id hq hlen hm
    obtain ⟨n, t1, t2, t3⟩ := served_written g2
    have hn : tx = n := Option.some.inj (htx.symm.trans t1)
    subst hn
    obtain ⟨xs, s', w', more', p1, p2, p3, p4, p5, p6, p7⟩ := ih ans g2.reach g2.ready g2.blank t2 g4 (hnext x' ans g6 g3 g2.small) (i + 6)
    refine ⟨(r, ans) :: xs, s', w', more ++ more', ?_, ⟨ans, xs, rfl, ⟨_, g3⟩, p2⟩, by rw [← List.append_assoc]; exact p3, p4, p5, g2.beside.trans p6, fun j hj ho hnm => ?_⟩
    · simp only [play]
      rw [g1, Exec.ok_bind, t3]
      simp only [understood_answer, p1, Exec.ok_bind]
      rfl
    · obtain ⟨q1, q2⟩ := g5 j hj ho hnm
      rw [← q1]
      exact p7 j hj (by rw [q1]; exact ho) q2

/-! ## Examples -/

/-- The token in the answer to a create request, as a client decodes it. -/
def tokenOf (ans : List UInt8) : UInt32 :=
  match dec (Ua.init : Cont UaCreateSessionRsp 464) ((Buf.create garbage).append ans) with
  | .ok (c, _) => match c.msg.authenticationToken.value with
    | .numeric x => x
    | _ => 0
  | _ => 0

theorem tokenOf_eq {x : UInt32} {q : UaCreateSessionReq} {ans : List UInt8} (h : Fits x.toNat (.create q) ans) (hl : ans.length ≤ 264) : tokenOf ans = x := by
  obtain ⟨rsp, hok, rfl, -, -, ht, -⟩ := h
  have hcont : Wire.ok (Cont.make 464 rsp) := ⟨⟨trivial, rfl, rfl⟩, hok⟩
  have hr := Lawful.reads (Cont.make 464 rsp) hcont ((Buf.create garbage).append (Wire.wire (Cont.make 464 rsp)))
    (by show 0 + _ ≤ 4096; omega) (by
      have := memRead_append (Buf.create garbage) [] (Wire.wire (Cont.make 464 rsp)) rfl
      rw [List.nil_append] at this
      rw [show (Buf.append (Buf.create garbage) (Wire.wire (Cont.make 464 rsp))).head = (Wire.wire (Cont.make 464 rsp)).length from Nat.zero_add _] at this
      exact this)
  unfold tokenOf
  rw [hr]
  show (match rsp.authenticationToken.value with | .numeric x => x | _ => 0) = x
  rw [ht]
  simp

/-- `n` read requests, then the session is closed. -/
def readsOf (x : UInt32) : Nat → Plan
  | 0 => .ask 7 (Session.closeReq x) (bytesOf (Session.closeReq x)) fun _ => .done
  | n + 1 => .ask (UInt32.ofNat n) Session.readReq (bytesOf Session.readReq) fun _ => readsOf x n

/-- A session is created, activated with the token from the answer, read from `n` times, and closed. -/
def visit (n : Nat) : Plan := .ask 5 Session.createReq (bytesOf Session.createReq) fun ans =>
  .ask 6 (Session.activateReq (tokenOf ans)) (bytesOf (Session.activateReq (tokenOf ans))) fun _ => readsOf (tokenOf ans) n

/-- The client of `opens` holds session 1. -/
theorem opens_holds : ∃ s, Reach (fun _ => garbage) Channel.unset opens s ∧ Ready s 1 1 ⟨1, 77, 53, false⟩ ∧ Blank s 1 ∧ Holds ⟨[1], [1], some 1, 0⟩ s 1 := by
  obtain ⟨s, h1, h2, h3⟩ := observe_reach opens_runs
  have hrx := congrArg View.rx h3
  refine ⟨s, h1, ⟨by decide, congrArg View.st h3, congrArg View.opened h3, congrArg View.assoc h3, by decide, knows_of h1 h2 (by decide) (congrArg View.window h3), rfl,
    congrArg View.box h3⟩, ⟨congrArg Prod.fst hrx, congrArg Prod.snd hrx⟩, fun x hx => ?_, fun x hx => ?_, fun x hx => ?_, Nat.zero_le _⟩
  · rw [List.mem_singleton.mp hx]
    exact ⟨by decide, congrArg View.isOpen h3⟩
  · rw [List.mem_singleton.mp hx]
    exact ⟨by decide, congrArg View.holder h3⟩
  · rw [← Option.some.inj hx]
    exact congrArg View.bound h3

/-- C78: it sends a close request and aborts it; the session is closed. -/
example : ∃ s, Reach (fun _ => garbage) Channel.unset opens s ∧ assemble [] [(0x41, bytesOf (Session.closeReq 1))] = [] ∧
    Executes (fun _ => calm) 1 0 1 ⟨1, 77, 53, false⟩ ⟨[1], [1], some 1, 0⟩ s 0x41 12 (Session.closeReq 1) (bytesOf (Session.closeReq 1)) := by
  obtain ⟨s, h1, h2, h3, h4⟩ := opens_holds
  exact ⟨s, h1, C78_parts_violated h1 h2 h3 h4 (fun _ => calm_calm) 0 12 (Session.closeReq_ok 1).says (by decide +kernel) (x := 1) ⟨by decide, rfl⟩ (by decide)⟩

/-- C78: a message in three parts, an aborted one, and one in one part. -/
example : assemble [] [(0x43, [1, 2]), (0x43, [3]), (0x46, [4]), (0x43, [5]), (0x41, [6]), (0x46, [7])] = [[1, 2, 3, 4], [7]] := by decide

theorem activateReq_short : ∀ x : Fin 33, (bytesOf (Session.activateReq (UInt32.ofNat x))).length ≤ 4032 := by decide +kernel

theorem closeReq_short : ∀ x : Fin 33, (bytesOf (Session.closeReq (UInt32.ofNat x))).length ≤ 4032 := by decide +kernel

theorem short_of {f : UInt32 → SReq} (h : ∀ x : Fin 33, (bytesOf (f (UInt32.ofNat x))).length ≤ 4032) {x : UInt32} (hx : Pool.valid x.toNat) :
    (bytesOf (f x)).length ≤ 4032 := by
  have := h ⟨x.toNat, lt33 hx⟩
  simpa using this

theorem readsOf_sound {x : UInt32} (hx : Pool.valid x.toNat) (n : Nat) {K : Know} (h1 : x ∈ K.opened) (h2 : x ∈ K.active) (h3 : K.last = some x) :
    Sound K (readsOf x n) := by
  induction n with
  | zero => exact ⟨(Session.closeReq_ok x).says, short_of closeReq_short hx, x, ⟨h1, rfl⟩, fun _ _ _ => trivial⟩
  | succ n ih => exact ⟨readReq_ok.says, by decide +kernel, x, ⟨h3, h2⟩, fun _ _ _ => ih⟩

theorem visit_sound (n : Nat) : Sound ⟨[], [], none, 1⟩ (visit n) := by
  refine ⟨Session.createReq_ok.says, by decide +kernel, Nat.one_pos, fun x ans hx _ hf hl => ?_⟩
  simp only [tokenOf_eq hf hl]
  exact ⟨(Session.activateReq_ok x).says, short_of activateReq_short hx, x, ⟨List.mem_singleton.mpr rfl, rfl⟩,
    fun _ _ _ => readsOf_sound hx n (List.mem_singleton.mpr rfl) (List.mem_singleton.mpr rfl) rfl⟩

/-- C79: the client of `connects` can carry out each of these plans. -/
example (n : Nat) : ∃ s xs s' tx, Reach (fun _ => garbage) Channel.unset connects s ∧
    play (fun _ => calm) 1 1 (visit n) 0 ⟨1, 77, 51, false⟩ tx s = .ok (some (xs, s')) ∧ Completes (visit n) xs := by
  obtain ⟨s, h1, h2, h3⟩ := observe_reach connects_runs
  have hrx := congrArg View.rx h3
  have hr : Ready s 1 1 ⟨1, 77, 51, false⟩ := ⟨by decide, congrArg View.st h3, congrArg View.opened h3, congrArg View.assoc h3, by decide,
    knows_of h1 h2 (by decide) (congrArg View.window h3), rfl, congrArg View.box h3⟩
  obtain ⟨_, cevs, sevs, _, hc, hs, _⟩ := reach_parts h1
  obtain ⟨-, hlive⟩ := Channel.live_of (A := False) hc False.elim (k := 1) (by decide) hr.knows.owner
  obtain ⟨tx, htx, -⟩ := hlive.lastTx
  have hfree : 1 ≤ s.sess.ids.len := by
    obtain ⟨l, g1, g2⟩ := Session.C40_no_leak hs
    have : 1 ∈ l := (g2 1 (by decide)).mpr (congrArg View.isOpen h3)
    rw [g1.holds.hlen]
    exact List.length_pos_of_mem this
  obtain ⟨xs, s', _, _, p1, p2, _⟩ := C79_dialogue h1 hr ⟨congrArg Prod.fst hrx, congrArg Prod.snd hrx⟩ (tx := tx) htx (K := ⟨[], [], none, 1⟩)
    ⟨fun _ h => (by cases h), fun _ h => (by cases h), fun _ h => (by cases h), hfree⟩ (visit_sound n) (env := fun _ => calm) (fun _ => calm_calm) 0
  exact ⟨s, xs, s', tx, h1, p1, p2⟩

end Stack

end Uscada.Ua
