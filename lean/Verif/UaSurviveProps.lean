import Verif.UaSurvive
import Verif.UaStackRuns
/-!
# C89: which chunks the OPC UA server survives

The messages of a proper client meet the hypotheses of `C89_survived_partial`, and each of the conditions that a client can break
has a theorem that says what it then brings about: the url of the Hello and the node ids here, the size of the chunks in C64, the
tokens in C55.
-/

namespace Uscada.Ua

open SM

theorem Codec.throws_then {α β : Type} {d : Codec α} {f : α → Codec β} {b : Buf} (h : d b = .throws) : (d >>= f) b = .throws := by
  rw [Codec.bind_run, h]
  rfl

theorem Codec.abort_then {α β : Type} {d : Codec α} {f : α → Codec β} {b : Buf} (h : d b = .abort) : (d >>= f) b = .abort := by
  rw [Codec.bind_run, h]
  rfl

theorem Takes.then_eq {α β : Type} {n : Nat} {d : Codec α} {f : α → Codec β} (h : Takes n d) {b : Buf} (hb : b.tail + n ≤ 4096)
    {x : Exec (β × Buf)} (hf : ∀ v, f v { b with tail := b.tail + n } = x) : (d >>= f) b = x := by
  obtain ⟨v, hv⟩ := h b hb
  rw [Codec.bind_run, hv, Exec.ok_bind]
  exact hf v

/-- A negative length other than -1 throws. -/
theorem str_negative (old : Str) (b : Buf) (n : Nat) (h : b.tail + 4 ≤ 4096) (hb : memRead b.packet b.tail 4 = leBytes 4 n)
    (h1 : 2 ^ 31 ≤ n) (h2 : n < 0xFFFFFFFF) : dec old b = .throws := by
  have hto : (UInt32.ofNat n).toNat = n := by rw [UInt32.toNat_ofNat']; omega
  have hw : wire (UInt32.ofNat n).toInt32 = leBytes 4 n := by
    show leBytes 4 (UInt32.ofNat n).toInt32.toUInt32.toNat = _
    rw [UInt32.toUInt32_toInt32, hto]
  have hr := Lawful.reads (UInt32.ofNat n).toInt32 trivial b (by rw [hw, MsgStorage.length_leBytes]; exact h)
    (by rw [hw, MsgStorage.length_leBytes]; exact hb)
  have hi : (UInt32.ofNat n).toInt32.toInt = (n : Int) - 2 ^ 32 := by
    show (UInt32.ofNat n).toInt32.toBitVec.toInt = _
    rw [UInt32.toBitVec_toInt32, BitVec.toInt_eq_toNat_cond]
    have : (UInt32.ofNat n).toBitVec.toNat = n := hto
    rw [this]
    split <;> omega
  have hr : dec (0 : Int32) b = .ok ((UInt32.ofNat n).toInt32, { b with tail := b.tail + 4 }) := by
    rw [hw] at hr
    exact hr
  show (do
      let len ← dec (0 : Int32)
      if len = -1 then Pure.pure old else do
        let bytes ← Ua.readChars len
        Pure.pure (⟨bytes⟩ : Str) : Codec Str) b = _
  rw [Codec.bind_run, hr]
  simp only [Exec.ok_bind]
  rw [if_neg (fun hx => by
    have := congrArg Int32.toInt hx
    rw [hi, show (-1 : Int32).toInt = -1 from rfl] at this
    omega)]
  refine Codec.throws_then ?_
  unfold Ua.readChars
  rw [if_pos (Int32.lt_iff_toInt_lt.mpr (by rw [hi, show (0 : Int32).toInt = 0 from rfl]; omega))]
  rfl

theorem abort_bind {σ α β : Type} {x : Exec α} {f : α → SM σ β} {c : σ} (h : x = .abort) : (lift x >>= f) c = (.abort, c) := by
  rw [h]
  rfl

/-- The fields of a Hello in front of the url. -/
theorem hello_to_url (b : Buf) (ht : b.tail + 32 ≤ 4096) (x : Exec (Str × Buf)) (hx : ∀ v, x ≠ .ok v)
    (h : ∀ old : Str, dec old { b with tail := b.tail + 28 } = x) :
    handshakeDec .server b = x >>= fun _ => .throws := by
  refine Takes.then_eq (Takes.header _) (by omega) fun _ => ?_
  have : ∀ old : HelloMessage, dec old { b with tail := b.tail + 8 } = x >>= fun _ => .throws := by
    intro old
    refine Takes.then_eq (Takes.u32 _) (by show b.tail + 8 + 4 ≤ 4096; omega) fun _ => ?_
    refine Takes.then_eq (Takes.u32 _) (by show b.tail + 8 + 4 + 4 ≤ 4096; omega) fun _ => ?_
    refine Takes.then_eq (Takes.u32 _) (by show b.tail + 8 + 4 + 4 + 4 ≤ 4096; omega) fun _ => ?_
    refine Takes.then_eq (Takes.u32 _) (by show b.tail + 8 + 4 + 4 + 4 + 4 ≤ 4096; omega) fun _ => ?_
    refine Takes.then_eq (Takes.u32 _) (by show b.tail + 8 + 4 + 4 + 4 + 4 + 4 ≤ 4096; omega) fun _ => ?_
    rw [Codec.bind_run, show dec _ _ = x from h _]
    cases x with
    | ok v => exact absurd rfl (hx v)
    | throws => rfl
    | abort => rfl
    | ub => rfl
  rw [Codec.bind_run, this]
  cases x with
  | ok v => exact absurd rfl (hx v)
  | throws => rfl
  | abort => rfl
  | ub => rfl

theorem hello_outside (b : Buf) (n : Nat) (ht : b.tail + 32 ≤ 4096) (hb : memRead b.packet (b.tail + 28) 4 = leBytes 4 n)
    (h1 : 4096 < b.tail + 32 + n) (h2 : n < 2 ^ 31) : handshakeDec .server b = .ub :=
  hello_to_url b ht .ub (fun _ h => by cases h) fun old =>
    C29_outside_array_violated old _ n h2 hb (by show b.tail + 28 + 4 ≤ 4096; omega) (by show 4096 < b.tail + 28 + 4 + n; omega)

theorem hello_negative (b : Buf) (n : Nat) (ht : b.tail + 32 ≤ 4096) (hb : memRead b.packet (b.tail + 28) 4 = leBytes 4 n)
    (h1 : 2 ^ 31 ≤ n) (h2 : n < 0xFFFFFFFF) : handshakeDec .server b = .throws :=
  hello_to_url b ht .throws (fun _ h => by cases h) fun old => str_negative old _ n (by show b.tail + 28 + 4 ≤ 4096; omega) hb h1 h2

/-! ## Proper messages -/

/-- A part of the bytes that were stored. -/
theorem part_read {m : Mem} {d pre w post : List UInt8} (hb : memRead m 0 d.length = d) (hd : d = pre ++ (w ++ post)) :
    memRead m pre.length w.length = w := by
  have hlen : d.length = pre.length + (w.length + post.length) := by rw [hd]; simp
  rw [hlen, memRead_split, memRead_split, hd] at hb
  have h1 := (List.append_inj hb (MsgStorage.length_memRead ..)).2
  have h2 := (List.append_inj h1 (MsgStorage.length_memRead ..)).1
  rw [Nat.zero_add] at h2
  exact h2

theorem Reads.survives {α : Type} {c : Codec α} {w x : List UInt8} {v : α} (h : Reads c w v) (hl : (w ++ x).length ≤ 4096) (m : Mem) :
    Survives (c ((Buf.create m).append (w ++ x))) := by
  rw [Channel.Reads.front h rfl hl m]
  exact ⟨(fun h => by cases h), (fun h => by cases h)⟩

/-- C89: the open request of a proper client hurts nobody, whatever stands behind it. -/
theorem C89_proper_open {e : CEnv} {c : UInt32} {sec : UaSecurityHeader} {seq : UaSequenceHeader} {req : Cont UaOpenSecureChannelReq 446}
    {w x : List UInt8} (h : Channel.SaysOpen sec seq req w) (hl : (w ++ x).length ≤ 4096) : Channel.Harmless e (.open c (w ++ x)) :=
  (Channel.open_reads sec seq req h).survives hl e.mem

/-- C89: so does the close request, behind the token and the sequence header. -/
theorem C89_proper_close {e : CEnv} {c ch : UInt32} {req : Cont UaCloseSecureChannelReq 452} {a w x : List UInt8}
    (ha : a.length = 12) (h : std false req w) (hl : (a ++ (w ++ x)).length ≤ 4096) : Channel.Harmless e (.close c ch (a ++ (w ++ x))) := by
  have hr : Reads (dec (Ua.init : Cont UaCloseSecureChannelReq 452)) w req := Accepts.acc req w h
  have hal : a.length + (w.length + x.length) ≤ 4096 := by simpa only [List.length_append] using hl
  show Survives (dec (Ua.init : Cont UaCloseSecureChannelReq 452) (((Buf.create e.mem).append (a ++ (w ++ x))).skip 12))
  rw [hr _ (by show 0 + 12 + w.length ≤ 4096; omega) (by
    have hm := part_read (Channel.load_packet e.mem (a ++ (w ++ x))) rfl
    rw [ha] at hm
    exact hm)]
  exact ⟨(fun h => by cases h), (fun h => by cases h)⟩

/-- C89: so does each service request whose token, if it is an activate or a close request, lies in the pool. -/
theorem C89_proper_request {e : SEnv} {h : MsgHdr} {r : SReq} {w x : List UInt8} (hs : Session.Says r w) (hk : Session.KnownToken r)
    (hl : (w ++ x).length ≤ 4096) : Session.Harmless ⟨e, h, w ++ x⟩ := by
  have hr := Session.dispatch_reads r hs
  refine ⟨hr.survives hl e.mem, fun r' b hd => ?_⟩
  rw [show Session.dispatch ((Buf.create e.mem).append (w ++ x)) = _ from Channel.Reads.front hr rfl hl e.mem] at hd
  injection hd with hd
  injection hd with hd
  injection hd with hd
  rw [← hd]
  exact hk

namespace Stack

open Transport (Down TEv tlogs chunk HoldsChunk upOf)

variable {m : Nat → Mem} {u : Nat → UInt32 × UInt32} {evs : List (Env × Ev)} {s s' : Stack}

/-! ## What the others bring about -/

theorem net_ub {e : Env} {v : TEv} (h : Transport.next s.srv e.tcp v = .ub) : step s e (.net v) = .ub := by
  show onTcp 4096 s e v = _
  unfold onTcp
  rw [h]
  rfl

theorem hello_run {k : Nat} {e : TEnv} {s : Srv} {b : Buf} (hst : (s.conns k).st = .hello)
    (hl : (s.conns k).link = true) (hr : receive (s.conns k).opened e.rx (s.conns k).rx = .ok (.done, b)) :
    (handshakeDec .server b = .ub → Transport.onData k e s = (.ub, s.set k { (s.conns k) with rx := b })) ∧
      (handshakeDec .server b = .throws → Transport.onData k e s = (.throws, s.set k { (s.conns k) with rx := b.skip 32 })) := by
  constructor <;> intro hd
  · simp only [Transport.onData, bind_run, self, andThen, hst, Transport.receiveHello, Transport.receiveRx, hl, if_true, hr, lift,
      conn, SM.modify, pure_run, Srv.set, Transport.decodeHello, hd]
    rfl
  · simp only [Transport.onData, bind_run, self, andThen, hst, Transport.receiveHello, Transport.receiveRx, hl, if_true, hr, lift,
      conn, SM.modify, pure_run, Srv.set, Transport.decodeHello, hd, SM.throws]
    congr 2
    funext j
    split <;> rfl

/-- Against C89: every peer can bring the server into undefined behaviour with its first 32 bytes: a Hello whose url is said to be
longer than 4064 bytes. -/
theorem C89_hello_violated (h : Reach m u evs s) {k : Nat} (hk : Pool.valid k) (hst : (s.srv.conns k).st = .hello)
    (ho : (s.srv.conns k).opened = true) (ht : (s.srv.conns k).rx.tail = 0) (hh : (s.srv.conns k).rx.head = 0) {e : Env}
    {f : List UInt8} (hrx : e.tcp.rx = .ok f) (hf : IsChunk f) (hl : f.length = 32) {n : Nat} (hn : f.drop 28 = leBytes 4 n)
    (h1 : 4064 < n) (h2 : n < 2 ^ 31) : step s e (.net (.linkData k)) = .ub := by
  obtain ⟨tevs, _, _, htr, _⟩ := reach_parts h
  have hlink := (Transport.reach_live htr hk (by rw [hst]; simp)).choose_spec.2.2.2.2.link
  have hmem := memRead_append (s.srv.conns k).rx [] f (by rw [hh]; rfl)
  have hr : receive (s.srv.conns k).opened e.tcp.rx (s.srv.conns k).rx = .ok (.done, (s.srv.conns k).rx.append f) := by
    rw [ho, hrx]
    exact receive_ok (by omega) (by omega) (evaluate_prefix _ f [] ht hmem (by rw [List.append_nil]; exact hf))
  refine net_ub ?_
  show settle (Transport.onData k e.tcp s.srv) = _
  rw [(hello_run hst hlink hr).1 (C47_hello_violated _ n ht ?_ h1 h2)]
  · rfl
  · have hp := part_read (m := ((s.srv.conns k).rx.append f).packet) (d := f) (pre := f.take 28) (w := f.drop 28) (post := [])
      (by
        have : ((s.srv.conns k).rx.append f).head = f.length := by
          show (s.srv.conns k).rx.head + f.length = _
          omega
        rw [this] at hmem
        exact hmem) (by simp)
    rw [List.length_take, List.length_drop, hl] at hp
    rw [← hn]
    exact hp

/-- Against C89, why negative lengths other than -1 are excluded: such a Hello is refused by an exception that leaves the read position
at 32, so in the next 32 bytes the url of 4033 to 4064 bytes, which the buffer would hold, is looked for behind it. -/
theorem C89_second_hello_violated (h : Reach m u evs s) {k : Nat} (hk : Pool.valid k) (hst : (s.srv.conns k).st = .hello)
    (ho : (s.srv.conns k).opened = true) (ht : (s.srv.conns k).rx.tail = 0) (hh : (s.srv.conns k).rx.head = 0) (hbox : s.box = [])
    {e1 e2 : Env} (he : e1.others ≤ 64) {f g : List UInt8}
    (hrx1 : e1.tcp.rx = .ok f) (hf : IsChunk f) (hfl : f.length = 32) {i : Nat} (hi : f.drop 28 = leBytes 4 i) (hi1 : 2 ^ 31 ≤ i) (hi2 : i < 0xFFFFFFFF)
    (hrx2 : e2.tcp.rx = .ok g) (hg : sizeField g = 64) (hgl : g.length = 32) {n : Nat} (hn : g.drop 28 = leBytes 4 n) (h1 : 4032 < n) (h2 : n ≤ 4064) :
    ∃ s1, step s e1 (.net (.linkData k)) = .ok s1 ∧ s1.box = [] ∧ (s1.srv.conns k).st = .hello ∧ step s1 e2 (.net (.linkData k)) = .ub := by
  obtain ⟨tevs, _, _, htr, _⟩ := reach_parts h
  have hlink := (Transport.reach_live htr hk (by rw [hst]; simp)).choose_spec.2.2.2.2.link
  have hmem := memRead_append (s.srv.conns k).rx [] f (by rw [hh]; rfl)
  have hhead : ((s.srv.conns k).rx.append f).head = 32 := by
    show (s.srv.conns k).rx.head + f.length = _
    omega
  have hr : receive (s.srv.conns k).opened e1.tcp.rx (s.srv.conns k).rx = .ok (.done, (s.srv.conns k).rx.append f) := by
    rw [ho, hrx1]
    exact receive_ok (by omega) (by omega) (evaluate_prefix _ f [] ht hmem (by rw [List.append_nil]; exact hf))
  have hmf : memRead ((s.srv.conns k).rx.append f).packet 28 4 = leBytes 4 i := by
    have hp := part_read (m := ((s.srv.conns k).rx.append f).packet) (d := f) (pre := f.take 28) (w := f.drop 28) (post := [])
      (by rw [hhead] at hmem; rw [hfl]; exact hmem) (by simp)
    rw [List.length_take, List.length_drop, hfl] at hp
    rw [← hi]
    exact hp
  have hthrow := (hello_run hst hlink hr).2 (hello_negative _ i (by show (s.srv.conns k).rx.tail + 32 ≤ 4096; omega)
    (by show memRead _ ((s.srv.conns k).rx.tail + 28) 4 = _; rw [ht]; exact hmf) hi1 hi2)
  let t : Srv := s.srv.set k { (s.srv.conns k) with rx := ((s.srv.conns k).rx.append f).skip 32 }
  have hnext : Transport.next s.srv e1.tcp (.linkData k) = .ok t := by
    show settle (Transport.onData k e1.tcp s.srv) = _
    rw [hthrow]
    rfl
  have htk : t.conns k = { (s.srv.conns k) with rx := ((s.srv.conns k).rx.append f).skip 32 } := if_pos rfl
  have hsent : sentTcp s.srv t = [] := by
    rw [sentTcp_eq (new := []) hk (by rw [htk, List.append_nil]) (fun j hj => if_neg hj)]
    rfl
  have hs1 := step_net (s := s) (e := e1) hnext (by rw [hsent]; intro y hy; cases hy) (by rw [hsent, hbox]; simpa using he)
  rw [hsent, hbox, List.append_nil] at hs1
  refine ⟨_, hs1, rfl, by show (t.conns k).st = _; rw [htk]; exact hst, net_ub ?_⟩
  show Transport.next t e2.tcp (.linkData k) = _
  generalize hb : ((s.srv.conns k).rx.append f).skip 32 = b at htk
  have hbt : b.tail = 32 := by rw [← hb]; show (s.srv.conns k).rx.tail + 32 = _; omega
  have hbh : b.head = 32 := by rw [← hb]; exact hhead
  have hmg := memRead_append b (memRead b.packet 0 b.head) g rfl
  have hgh : (b.append g).head = 64 := by show b.head + g.length = _; omega
  have hgm : memRead (b.append g).packet 32 32 = g := by
    rw [hgh, show (64 : Nat) = 32 + 32 from rfl, memRead_split, hbh] at hmg
    exact (List.append_inj hmg (by rw [MsgStorage.length_memRead, MsgStorage.length_memRead])).2
  have heval : evaluate (b.append g) = .ok .done := by
    have hsz : (b.append g).size = 64 := hgh
    have hms : msgSize (b.append g) = 64 := by
      rw [msgSize_eq, ← hg]
      show sizeField (memRead (b.append g).packet b.tail 8) = _
      rw [hbt]
      rw [show sizeField g = sizeField (memRead (b.append g).packet 32 32) by rw [hgm]]
      unfold sizeField
      simp only [getD_memRead _ _ _ _ (show 4 < 8 by decide), getD_memRead _ _ _ _ (show 5 < 8 by decide),
        getD_memRead _ _ _ _ (show 6 < 8 by decide), getD_memRead _ _ _ _ (show 7 < 8 by decide),
        getD_memRead _ _ _ _ (show 4 < 32 by decide), getD_memRead _ _ _ _ (show 5 < 32 by decide),
        getD_memRead _ _ _ _ (show 6 < 32 by decide), getD_memRead _ _ _ _ (show 7 < 32 by decide)]
    unfold evaluate
    rw [hsz, hms, if_neg (by decide), if_neg (by show ¬ 4096 < b.tail + 8; omega), if_neg (by decide), if_neg (by decide)]
  have hr2 : receive (t.conns k).opened e2.tcp.rx (t.conns k).rx = .ok (.done, b.append g) := by
    rw [htk, hrx2]
    show receive (s.srv.conns k).opened _ b = _
    rw [ho]
    exact receive_ok (by omega) (by omega) heval
  have hmn : memRead (b.append g).packet (b.tail + 28) 4 = leBytes 4 n := by
    rw [hbt, show (32 : Nat) = 28 + 4 from rfl]
    rw [show (32 : Nat) = 28 + 4 from rfl, memRead_split] at hgm
    rw [← hn]
    have hs : g = g.take 28 ++ g.drop 28 := by simp
    have := (List.append_inj (hgm.trans hs) (by rw [MsgStorage.length_memRead, List.length_take]; omega)).2
    exact this
  have hub := (hello_run (s := t) (e := e2.tcp) (by rw [htk]; exact hst) (by rw [htk]; exact hlink) hr2).1
    (hello_outside _ n (by show b.tail + 32 ≤ 4096; omega) hmn (by show 4096 < b.tail + 32 + n; omega) (by omega))
  show settle (Transport.onData k e2.tcp t) = _
  rw [hub]
  rfl

/-- Decoding an identifier whose first byte names no encoding ends the process. -/
theorem expanded_abort (b : Buf) (h : b.tail < 4096) (hx : 6 ≤ (b.packet b.tail &&& 0xF).toNat) (old : ExpandedNodeId) : dec old b = .abort := by
  show ExpandedNodeId.decode old b = _
  unfold ExpandedNodeId.decode
  have hp : peek b = .ok (b.packet b.tail, b) := if_pos h
  rw [Codec.bind_run, hp, Exec.ok_bind]
  exact Codec.abort_then (C24_unknown_encoding_violated b h hx _)

/-- Against C89: a connected client ends the process with an open request whose type begins with a byte that names no encoding of node ids. -/
theorem C89_open_violated (h : Reach m u evs s) {k : Nat} (hk : Pool.valid k) (hst : (s.srv.conns k).st = .connected) (hbox : s.box = [])
    (hfree : s.chans.ids.len ≠ 0) {e1 e2 : Env} (he : Calm e1) {flag : UInt8} {c : UInt32} {sec : UaSecurityHeader} (hsec : Wire.ok sec)
    {seq : UaSequenceHeader} {x : UInt8} (hx : 6 ≤ (x &&& 0xF).toNat) (hl : (wire sec).length ≤ 4000)
    (hb : Brings s e1 k (chunk .opn flag c (wire sec ++ (wire seq ++ [x])))) :
    run s [(e1, .net (.linkData k)), (e2, .deliver)] = .abort := by
  obtain ⟨b, hrx, hold⟩ := hb
  obtain ⟨tevs, cevs, _, ht, hc, _⟩ := reach_parts h
  have hsl : (wire seq).length = 8 := rfl
  obtain ⟨t, hn, htk, hto⟩ := Transport.chunk_run m tevs s.srv ht k hk hst e1.tcp he.starts b .opn flag c (wire sec ++ (wire seq ++ [x]))
    (by simp only [List.length_append, hsl, List.length_singleton]; omega) hrx hold (.inl rfl)
  generalize hy : memRead b.packet b.head 12 = y at htk
  have hyl : y.length = 12 := by rw [← hy]; exact MsgStorage.length_memRead _ _ _
  generalize hd : wire sec ++ (wire seq ++ [x]) ++ y = d at htk
  have hdl : d.length ≤ 4056 := by
    rw [← hd]
    simp only [List.length_append, hsl, List.length_singleton]
    omega
  have hsent : sentTcp s.srv t = [.chan (.open (UInt32.ofNat k) d)] := by
    rw [sentTcp_eq hk (by rw [htk]) hto]
    rfl
  have ho := he.others
  have hs1 := step_net (s := s) (e := e1) hn (by rw [hsent]; intro y hy; rw [List.mem_singleton.mp hy]; simp only [Mail.size]; omega) (by
    rw [hbox, hsent]; simp only [List.length_cons, List.length_nil]; omega)
  rw [hsent, hbox, List.nil_append] at hs1
  have hdec : Channel.openReqDec ((Buf.create e2.chan.mem).append d) = .abort := by
    have hpk := Channel.load_packet e2.chan.mem d
    have hr1 : Reads (dec (Ua.init : UaSecurityHeader)) (wire sec) sec := Accepts.acc sec _ (Accepts.canon sec hsec)
    have hr2 : Reads (dec (Ua.init : UaSequenceHeader)) (wire seq) seq := Accepts.acc seq _ (Accepts.canon seq ⟨trivial, trivial⟩)
    have hx1 := hr1 ((Buf.create e2.chan.mem).append d) (by show 0 + _ ≤ 4096; omega) (part_read (pre := []) hpk (post := wire seq ++ [x] ++ y)
      (by rw [← hd]; simp))
    have hx2 := hr2 (((Buf.create e2.chan.mem).append d).skip (wire sec).length) (by show 0 + _ + 8 ≤ 4096; omega) (by
      show memRead _ (0 + _) _ = _
      rw [Nat.zero_add]
      exact part_read (pre := wire sec) hpk (post := [x] ++ y) (by rw [← hd]; simp))
    unfold Channel.openReqDec
    rw [Codec.bind_run, hx1, Exec.ok_bind, Codec.bind_run, hx2, Exec.ok_bind]
    refine Codec.abort_then (Codec.abort_then (expanded_abort _ (by show 0 + _ + 8 < 4096; omega) ?_ _))
    have hx3 := part_read (pre := wire sec ++ wire seq) (w := [x]) (post := y) hpk (by rw [← hd]; simp)
    rw [List.length_append] at hx3
    have hx4 : ((Buf.create e2.chan.mem).append d).packet ((wire sec).length + 8) = x := by
      have := congrArg (fun l => l.getD 0 0) hx3
      rw [hsl] at this
      exact (getD_memRead _ _ 1 0 (by decide)).symm.trans this
    show 6 ≤ (((Buf.create e2.chan.mem).append d).packet (0 + (wire sec).length + 8) &&& 0xF).toNat
    rw [Nat.zero_add, hx4]
    exact hx
  have hab : Channel.next s.chans e2.chan (.open (UInt32.ofNat k) d) = .abort := by
    obtain ⟨l, hfr, hgood⟩ := Channel.reach_inv (A := False) hc False.elim
    have hlen := hfr.holds.hlen
    cases l with
    | nil => exact absurd hlen hfree
    | cons j l =>
      have hj := hfr.ids j (by simp)
      have hidle := (hgood j hj).1 (by simp)
      obtain ⟨q, hq, ha⟩ := Ent.alloc_run hfr
      show settle ((Ent.allocId >>= _) s.chans) = _
      rw [bind_ok ha]
      show settle (Channel.onReceive j e2.chan (.open (UInt32.ofNat k) d) { s.chans with ids := q }) = _
      unfold Channel.onReceive
      rw [Channel.note, bind_ok (Ent.obj_run _ _ _), bind_ok (Ent.self_run _ _), Ent.set_at]
      simp only [hidle.st]
      rw [Channel.receiveOpen_eq, SM.assoc, bind_ok (lift_ok (Channel.load_ok _ _ (by omega)) _), SM.assoc, abort_bind hdec]
      rfl
  unfold run
  rw [hs1, Exec.ok_bind]
  unfold run
  show (onChan 4096 { s with srv := t, box := [] } e2 _ >>= _) = _
  unfold onChan
  rw [show Channel.next ({ s with srv := t, box := [] } : Stack).chans e2.chan _ = _ from hab]
  rfl

theorem sess_abort {e : Env} {hdr : MsgHdr} {d : List UInt8} {rest : List Mail} (hb : s.box = .sess hdr d :: rest)
    (hn : Session.next s.sess ⟨e.sess, hdr, d⟩ = .abort) : step s e .deliver = .abort := by
  show deliver 4096 s e = _
  unfold deliver
  rw [hb]
  show onSess 4096 { s with box := rest } e _ _ = _
  unfold onSess
  rw [hn]
  rfl

/-- Against C89: so does a client with an open channel, with one byte in the place of a request. -/
theorem C89_request_violated (h : Reach m u evs s) {k : Nat} {ch : UInt32} {w : Channel.Window} (hr : Ready s k ch w)
    {e1 e2 e3 : Env} (h1 : Calm e1) (h2 : Calm e2) {flag : UInt8} {id : UInt32} {x : UInt8} (hx : 6 ≤ (x &&& 0xF).toNat)
    (hb : Brings s e1 k (chunk .msg flag ch (request w id [x]))) :
    run s [(e1, .net (.linkData k)), (e2, .deliver), (e3, .deliver)] = .abort := by
  obtain ⟨s2, y, z, hy, hz, hrun2, hre2, _, _, _, _, _, _, _, hbox2, _⟩ := comes_in h hr h1 h2 (by simp) hb
  rw [show ∀ a b c : Env × Ev, [a, b, c] = [a, b] ++ [c] from fun _ _ _ => rfl, run_append hrun2]
  have hab := sess_abort (e := e3) hbox2 (by
    generalize hd : [x] ++ y ++ z = d
    have hdl : d.length = 25 := by
      rw [← hd]
      simp only [List.length_append, List.length_singleton]
      omega
    have hpk := Channel.load_packet e3.sess.mem d
    have hx1 := part_read (pre := []) (w := [x]) (post := y ++ z) hpk (by rw [← hd]; simp)
    have hx2 : ((Buf.create e3.sess.mem).append d).packet 0 = x := by
      have := congrArg (fun l => l.getD 0 0) hx1
      exact (getD_memRead _ _ 1 0 (by decide)).symm.trans this
    have hdec : Session.dispatch ((Buf.create e3.sess.mem).append d) = .abort :=
      Codec.abort_then (expanded_abort _ (by show 0 < 4096; omega) (by
        show 6 ≤ (((Buf.create e3.sess.mem).append d).packet 0 &&& 0xF).toNat
        rw [hx2]
        exact hx) _)
    show settle (Session.event e3.sess _ d s2.sess) = _
    unfold Session.event
    rw [bind_ok (lift_ok (Channel.load_ok _ _ (by omega)) _), abort_bind hdec]
    rfl)
  unfold run
  rw [hab]
  rfl

/-! ## A visit that hurts nobody -/

instance {α : Type} (x : Exec α) : Decidable (Survives x) :=
  match x with
  | .ok _ => isTrue ⟨(fun h => by cases h), (fun h => by cases h)⟩
  | .throws => isTrue ⟨(fun h => by cases h), (fun h => by cases h)⟩
  | .abort => isFalse fun h => h.2 rfl
  | .ub => isFalse fun h => h.1 rfl

instance (t : Tcp) (x : Modbus.Rx) : Decidable (Transport.Polite t x) :=
  match h : receive t.opened x t.rx with
  | .ok (.done, b) => decidable_of_iff ((t.st = .hello → leValue (memRead b.packet 28 4) ≤ 4064 ∨ leValue (memRead b.packet 28 4) = 0xFFFFFFFF) ∧
      (t.st = .connected → b.head ≤ 4056)) (by
    unfold Transport.Polite
    rw [h]
    constructor
    · intro hx b' hb
      injection hb with hb
      injection hb with _ hb
      rw [← hb]
      exact hx
    · intro hx
      exact hx b rfl)
  | .ok (.noerror, b) => isTrue fun b' hb => by rw [h] at hb; cases hb
  | .ok (.error, b) => isTrue fun b' hb => by rw [h] at hb; cases hb
  | .throws => isTrue fun b' hb => by rw [h] at hb; cases hb
  | .abort => isTrue fun b' hb => by rw [h] at hb; cases hb
  | .ub => isTrue fun b' hb => by rw [h] at hb; cases hb

instance (r : SReq) : Decidable (Session.KnownToken r) :=
  let f (n : NodeId) : Decidable (∀ uid, n.value = .numeric uid → Pool.valid uid.toNat) :=
    match h : n.value with
    | .numeric v => decidable_of_iff (Pool.valid v.toNat) ⟨(fun hv uid hu => by injection hu with hu; rw [← hu]; exact hv), (fun hv => hv v rfl)⟩
    | .string _ => isTrue fun _ hu => by cases hu
    | .guid _ => isTrue fun _ hu => by cases hu
    | .opaque _ => isTrue fun _ hu => by cases hu
  match r with
  | .activate q => f q.requestHdr.authentificationToken
  | .close q => f q.requestHdr.authentificationToken
  | .getEndpoints _ => isTrue trivial
  | .create _ => isTrue trivial
  | .read _ => isTrue trivial

instance (m : Session.SIn) : Decidable (Session.Harmless m) :=
  match h : Session.dispatch ((Buf.create m.env.mem).append m.data) with
  | .ok (some r, b) => decidable_of_iff (Session.KnownToken r) (by
      unfold Session.Harmless
      rw [h]
      constructor
      · intro hk
        refine ⟨⟨(fun h => by cases h), (fun h => by cases h)⟩, fun r' b' hb => ?_⟩
        injection hb with hb
        injection hb with hb
        injection hb with hb
        rw [← hb]
        exact hk
      · intro hk
        exact hk.2 r b rfl)
  | .ok (none, b) => isTrue (by unfold Session.Harmless; rw [h]; exact ⟨⟨(fun h => by cases h), (fun h => by cases h)⟩, fun _ _ hb => by cases hb⟩)
  | .throws => isTrue (by unfold Session.Harmless; rw [h]; exact ⟨⟨(fun h => by cases h), (fun h => by cases h)⟩, fun _ _ hb => by cases hb⟩)
  | .abort => isFalse (by unfold Session.Harmless; rw [h]; exact fun hx => hx.1.2 rfl)
  | .ub => isFalse (by unfold Session.Harmless; rw [h]; exact fun hx => hx.1.1 rfl)

instance (e : CEnv) (c : CIn) : Decidable (Channel.Harmless e c) := by
  cases c <;> unfold Channel.Harmless <;> infer_instance

instance (s : Stack) (e : Env) (v : Ev) : Decidable (Harmless s e v) := by
  unfold Harmless
  split
  all_goals first
    | infer_instance
    | (split <;> infer_instance)

/-- A history of events that can happen and hurt nobody. -/
def tames (s : Stack) : List (Env × Ev) → Exec Stack
  | [] => .ok s
  | (e, v) :: l => if Possible s v ∧ Harmless s e v then step s e v >>= fun s' => tames s' l else .throws

theorem tames_tame {pre evs : List (Env × Ev)} (h : Tame m u pre s) (hr : tames s evs = .ok s') : Tame m u (pre ++ evs) s' := by
  induction evs generalizing pre s with
  | nil =>
    injection hr with hr
    rw [List.append_nil, ← hr]
    exact h
  | cons x l ih =>
    obtain ⟨e, v⟩ := x
    unfold tames at hr
    split at hr
    · rename_i hp
      obtain ⟨s1, h1, h2⟩ := Exec.bind_eq_ok.mp hr
      have := ih (h.step hp.1 hp.2 h1) h2
      rwa [List.append_assoc] at this
    · cases hr

def witness (l : List (Env × Ev)) : Exec View := do
  let s ← create (fun _ => garbage) Channel.unset
  let s' ← tames s l
  pure (view s')

theorem witness_tame {evs : List (Env × Ev)} {x : View} (h : witness evs = .ok x) :
    ∃ s, Tame (fun _ => garbage) Channel.unset evs s ∧ view s = x := by
  obtain ⟨s, h1, h2⟩ := Exec.bind_eq_ok.mp h
  obtain ⟨s', h3, h4⟩ := Exec.bind_eq_ok.mp h2
  injection h4 with h4
  exact ⟨s', tames_tame (.create h1) h3, h4⟩

/-- The client of `talk`, which opens a channel, creates and activates a session, reads and closes the session, hurts nobody. -/
theorem talk_tame : witness talk = .ok ⟨.connected, true, some 1, (0, 0), some ⟨1, 77, 55, false⟩, some 1, false, none, [],
    [10, 11, 12, 13], [10, 11, 12, 13]⟩ := by
  decide +kernel

/-- A completed reception adds what was read. -/
theorem receive_grows {op : Bool} {f : List UInt8} {b b' : Buf} (h : receive op (.ok f) b = .ok (.done, b')) : b'.head ≤ b.head + f.length := by
  unfold receive at h
  split at h
  · cases h
  · split at h
    · obtain ⟨r, _, h2⟩ := Exec.bind_eq_ok.mp h
      injection h2 with h2
      injection h2 with _ h2
      rw [← h2]
      show b.head + (f.take _).length ≤ _
      rw [List.length_take]
      omega
    · cases h

/-- C89: whatever at most 4056 bytes come next, the transport component survives them. -/
example : ∃ s, Tame (fun _ => garbage) Channel.unset talk s ∧ ∀ f : List UInt8, f.length ≤ 4056 → ∃ s', step s (reads f) (.net (.linkData 1)) = .ok s' := by
  obtain ⟨s, h1, h2⟩ := witness_tame talk_tame
  have hst : (s.srv.conns 1).st = .connected := congrArg View.st h2
  have hh : (s.srv.conns 1).rx.head = 0 := congrArg (fun v => v.rx.2) h2
  obtain ⟨tevs, _, _, htr, _⟩ := reach_parts h1.reach
  have hlink := (Transport.reach_live htr (k := 1) (by decide) (by rw [hst]; simp)).choose_spec.2.2.2.2.link
  refine ⟨s, h1, fun f hf => C89_survived_partial h1 _ _ ⟨rfl, by decide, hlink⟩ ⟨rfl, fun b hb => ⟨fun hx => ?_, fun _ => ?_⟩⟩⟩
  · rw [hst] at hx
    cases hx
  · have := receive_grows hb
    omega

/-- Only accepted. -/
theorem accepted_runs : observe [(calm, .net .accept)] = .ok (true, ⟨.hello, true, none, (0, 0), none, none, false, none, [], [], []⟩) := by
  decide +kernel

/-- C89: the Hello that hurts. -/
example : ∃ s, Reach (fun _ => garbage) Channel.unset [(calm, .net .accept)] s ∧
    step s (reads (helloFrame.take 28 ++ [0, 0x20, 0, 0])) (.net (.linkData 1)) = .ub := by
  obtain ⟨s, h1, _, h3⟩ := observe_reach accepted_runs
  exact ⟨s, h1, C89_hello_violated h1 (by decide) (congrArg View.st h3) (congrArg View.opened h3) (congrArg (fun v => v.rx.1) h3)
    (congrArg (fun v => v.rx.2) h3) rfl (by decide) (by decide) (n := 0x2000) (by decide) (by decide) (by decide)⟩

/-- C89: the two Hellos that hurt, with lengths -2 and 4064. -/
example : ∃ s s1, Reach (fun _ => garbage) Channel.unset [(calm, .net .accept)] s ∧
    step s (reads (helloFrame.take 28 ++ [0xFE, 0xFF, 0xFF, 0xFF])) (.net (.linkData 1)) = .ok s1 ∧
    step s1 (reads (helloFrame.take 4 ++ [64, 0, 0, 0] ++ (helloFrame.take 28).drop 8 ++ [0xE0, 0x0F, 0, 0])) (.net (.linkData 1)) = .ub := by
  obtain ⟨s, h1, _, h3⟩ := observe_reach accepted_runs
  obtain ⟨s1, h4, _, _, h5⟩ := C89_second_hello_violated h1 (k := 1) (by decide) (congrArg View.st h3) (congrArg View.opened h3) (congrArg (fun v => v.rx.1) h3)
    (congrArg (fun v => v.rx.2) h3) (congrArg View.box h3) (e1 := reads (helloFrame.take 28 ++ [0xFE, 0xFF, 0xFF, 0xFF]))
    (e2 := reads (helloFrame.take 4 ++ [64, 0, 0, 0] ++ (helloFrame.take 28).drop 8 ++ [0xE0, 0x0F, 0, 0])) (by decide)
    rfl (by decide) (by decide) (i := 0xFFFFFFFE) (by decide) (by decide) (by decide)
    rfl (by decide) (by decide) (n := 4064) (by decide) (by decide) (by decide)
  exact ⟨s, s1, h1, h4, h5⟩

theorem greeted_runs : (do
    let s ← create (fun _ => garbage) Channel.unset
    let s' ← runs s (connects.take 2)
    pure (view s', s'.chans.ids.len)) = .ok (⟨.connected, true, none, (0, 0), none, none, false, none, [], [], []⟩, 32) := by
  decide +kernel

/-- C89: an open request that ends the process. -/
example : ∃ s, Reach (fun _ => garbage) Channel.unset (connects.take 2) s ∧
    run s [(reads (chunk .opn 0x46 0 (wire (Ua.init : UaSecurityHeader) ++ (wire (⟨51, 9⟩ : UaSequenceHeader) ++ [6]))), .net (.linkData 1)),
      (calm, .deliver)] = .abort := by
  obtain ⟨s, h1, h2⟩ := Exec.bind_eq_ok.mp greeted_runs
  obtain ⟨s', h3, h4⟩ := Exec.bind_eq_ok.mp h2
  injection h4 with h4
  injection h4 with h4 h5
  have hr := runs_reach (.create h1) h3
  exact ⟨s', hr, C89_open_violated hr (by decide) (congrArg View.st h4) (congrArg View.box h4) (by rw [h5]; decide) (reads_calm _)
    ⟨Session.str_ok _ (by decide), Session.bytes_ok, Session.bytes_ok⟩ (by decide) (by decide)
    (brings_whole (congrArg View.opened h4) (congrArg (fun v => v.rx.1) h4) (congrArg (fun v => v.rx.2) h4) (by decide) rfl)⟩

/-- C89: one byte that ends the process. -/
example : ∃ s, Reach (fun _ => garbage) Channel.unset connects s ∧
    run s [(reads (chunk .msg 0x46 1 (request ⟨1, 77, 51, false⟩ 10 [6])), .net (.linkData 1)), (calm, .deliver), (calm, .deliver)] = .abort := by
  obtain ⟨s, h1, h2, h3, h4⟩ := connects_ready
  exact ⟨s, h1, C89_request_violated h1 h3 (reads_calm _) calm_calm (by decide) (h4 .msg 0x46 1 _ (by decide))⟩

/-- C89: the open request, a close request and the activate request of a proper client, with something behind them. -/
example : Channel.Harmless Channel.env (.open 1 (Channel.openReq ++ [1, 2, 3])) :=
  C89_proper_open (w := Channel.openReq) (Channel.says_open (sec := { (Ua.init : UaSecurityHeader) with securityPolicyUri := ⟨Channel.policyNone⟩ })
    (seq := ⟨51, 9⟩) (req := Cont.make 446 { (Ua.init : UaOpenSecureChannelReq) with requestHdr := { (Ua.init : UaRequestHeader) with requestHandle := 4 }, requestLifetime := 3600000 })
    ⟨Session.str_ok _ (by decide +kernel), Session.bytes_ok, Session.bytes_ok⟩ ⟨⟨trivial, rfl, rfl⟩,
      ⟨trivial, trivial, trivial, trivial, Session.str_ok _ (by decide), trivial, Session.ext_ok⟩, trivial, trivial, trivial, Session.bytes_ok, trivial⟩) (by decide +kernel)

example : Channel.Harmless Channel.env (.close 1 1 (List.replicate 12 7 ++ (wire (Cont.make 452 (Ua.init : UaCloseSecureChannelReq)) ++ [1, 2, 3]))) :=
  C89_proper_close rfl (Accepts.canon _ ⟨⟨trivial, rfl, rfl⟩, ⟨trivial, trivial, trivial, trivial, Session.str_ok _ (by decide), trivial, Session.ext_ok⟩⟩) (by decide +kernel)

example : Session.Harmless ⟨Session.env, ⟨1, 1, 10, 1⟩, Session.bytesOf (Session.activateReq 1) ++ [7, 7]⟩ :=
  C89_proper_request (Session.activateReq_ok 1).says (fun uid hu => by injection hu with hu; rw [← hu]; decide) (by decide +kernel)

end Stack

end Uscada.Ua
