import Verif.UaLoad
/-!
# C73: messages between the OPC UA components are neither lost nor multiply

The mailbox has 64 slots; `Reactor::send` (Reactor.cpp:109-118) drops a message that finds no free one.
-/

namespace Uscada.Ua

namespace Stack

open Transport (Down TEv tlogs about Bound)
open Channel (clogs)
open Session (slogs)

variable {s s' s1 s2 : Stack} {e : Env} {v : Ev}

/-! ## Specification -/

/-- The messages that the components sent during a step. -/
def sent (s s' : Stack) : List Mail := sentTcp s.srv s'.srv ++ (sentChan s.chans s'.chans ++ sentSess s.sess s'.sess)

/-- The mailbox without the message that is handled. -/
def rest (s : Stack) : Ev → List Mail
  | .net _ => s.box
  | .deliver => s.box.tail

/-- No message is lost in a step: the mailbox holds what it held, without the message that was handled, and all that was sent. -/
def Kept (s s' : Stack) (v : Ev) : Prop := s'.box = rest s v ++ sent s s'

/-- A history of possible steps, each under the condition `P`. -/
inductive Path (P : Env → Stack → Ev → Prop) : Stack → List (Env × Ev) → Stack → Prop
  | nil {s : Stack} : Path P s [] s
  | snoc {s s1 s2 : Stack} {l : List (Env × Ev)} {e : Env} {v : Ev} (h : Path P s l s1) (hp : Possible s1 v) (hP : P e s1 v)
      (hn : step s1 e v = .ok s2) : Path P s (l ++ [(e, v)]) s2

def isNet : Env × Ev → Bool
  | (_, .net _) => true
  | _ => false

/-- The number of events of links and timers. -/
def nets (l : List (Env × Ev)) : Nat := l.countP isNet

/-- The number of messages that were handled. -/
def deliveries (l : List (Env × Ev)) : Nat := l.countP fun x => !isNet x

/-- The connection a message is about. -/
def connOf : Mail → UInt32
  | .chan (.open c _) => c
  | .chan (.close c _ _) => c
  | .chan (.message c _ _) => c
  | .chan (.released c _) => c
  | .chan (.associate h) => h.connectionId
  | .chan (.send h _) => h.connectionId
  | .tcp k _ => UInt32.ofNat k
  | .sess h _ => h.connectionId

/-- Nothing happens on a connection while messages about it are under way, and the mailbox holds no messages of other components. -/
def Patient (e : Env) (s : Stack) (v : Ev) : Prop := e.others = 0 ∧ ∀ t k, v = .net t → about t = some k → ∀ x ∈ s.box, connOf x ≠ UInt32.ofNat k

/-! ## Steps -/

theorem diff_self {α : Type} (f : Nat → List α) : diff f f = [] := by
  unfold diff
  rw [List.flatMap_eq_nil_iff]
  intro k _
  rw [List.drop_length]

theorem sentTcp_self (t : Srv) : sentTcp t t = [] := by
  unfold sentTcp
  rw [List.flatMap_eq_nil_iff]
  intro k _
  rw [List.drop_length]
  rfl

theorem sentChan_self (t : Chans) : sentChan t t = [] := by
  unfold sentChan
  rw [diff_self]
  rfl

theorem sentSess_self (t : Sessions) : sentSess t t = [] := by
  unfold sentSess
  rw [diff_self]
  rfl

/-- What is sent, by price. -/
theorem sentTcp_paid {W : Mail → Nat} {t t' : Srv} {n : Nat} (h : ∃ k, Paid tlogs (fun a => price W (ofTcp k a)) k n t t') :
    ((sentTcp t t').map W).sum ≤ n := by
  obtain ⟨k, new, h1, h2⟩ := h
  rw [sentTcp_adds h1]
  split
  · rwa [price_sum]
  · exact Nat.zero_le _

theorem sentChan_paid {W : Mail → Nat} {t t' : Chans} {n : Nat} (h : ∃ k, Paid clogs (fun a => price W (ofChan a)) k n t t') :
    ((sentChan t t').map W).sum ≤ n := by
  obtain ⟨k, new, h1, h2⟩ := h
  show (((diff (clogs t) (clogs t')).filterMap ofChan).map W).sum ≤ n
  rw [diff_adds h1]
  split
  · rwa [price_sum]
  · exact Nat.zero_le _

theorem sentSess_paid {W : Mail → Nat} {t t' : Sessions} {n : Nat} (h : ∃ k, Paid slogs (fun a => price W (ofSess a)) k n t t') :
    ((sentSess t t').map W).sum ≤ n := by
  obtain ⟨k, new, h1, h2⟩ := h
  show (((diff (slogs t) (slogs t')).filterMap ofSess).map W).sum ≤ n
  rw [diff_adds h1]
  split
  · rwa [price_sum]
  · exact Nat.zero_le _

theorem _root_.Uscada.Ua.Law.pays {W : Mail → Nat} {d : Nat} (h : Law W d) (x : Mail) : d ≤ W x := by
  cases x with
  | chan m =>
    cases m with
    | «open» c b => have := h.opens c b 0 0 []; omega
    | close c ch b => have := h.closes c ch b 0 0 []; omega
    | message c ch b => have := h.refused c ch b; omega
    | released c ch => exact h.released c ch
    | associate hd => exact h.associate hd
    | send hd b => have := h.send hd b 0 0 []; omega
  | tcp k m =>
    cases m with
    | openRsp c f b => have := h.openRsp k c f b 0; omega
    | closeRsp c f b => have := h.closeRsp k c f b 0; omega
    | sendReq c f b => have := h.sendReq k c f b 0; omega
    | releaseReq => exact h.releaseReq k
  | sess hd b => have := h.session hd b 0 0 []; omega

/-- What the transport component may add in an event. -/
def allowance (B : Nat → Nat) : Ev → Nat
  | .net t => match about t with
    | some k => B k
    | none => 0
  | .deliver => 0

/-- The messages of a step are stored as far as there is room, and paid by the message that is handled or by the event. -/
theorem step_paid {W : Mail → Nat} {d : Nat} (hW : Law W d) {B : Nat → Nat} (hB : ∀ k, Bound W k (B k)) (hp : Possible s v)
    (hn : step s e v = .ok s') : post 4096 e.others (rest s v) (sent s s') = .ok s'.box ∧
      ((rest s v ++ sent s s').map W).sum + (if isNet (e, v) then 0 else d) ≤ (s.box.map W).sum + allowance B v := by
  cases v with
  | net t =>
    obtain ⟨h1, h2, h3, h4⟩ := onTcp_ok hn
    have hs : sent s s' = sentTcp s.srv s'.srv := by
      unfold sent
      rw [h2, h3, sentChan_self, sentSess_self, List.append_nil, List.append_nil]
    rw [hs]
    refine ⟨h4, ?_⟩
    have := sentTcp_paid (Transport.next_paid hW hB h1)
    have hd := hp.1
    rw [List.map_append, List.sum_append]
    show (s.box.map W).sum + _ + 0 ≤ _
    cases t with
    | down k x => cases hd
    | _ => simp only [allowance, about] at this ⊢; omega
  | deliver =>
    have hn : deliver 4096 s e = .ok s' := hn
    unfold deliver at hn
    cases hb : s.box with
    | nil => exact absurd hb hp
    | cons x box =>
      rw [hb] at hn
      have hr : rest s .deliver = box := by
        show s.box.tail = _
        rw [hb]
        rfl
      have hx := hW.pays x
      rw [hr, List.map_append, List.sum_append, List.map_cons, List.sum_cons]
      show _ ∧ _ + _ + d ≤ _ + 0
      cases x with
      | chan x =>
        obtain ⟨h1, h2, h3, h4⟩ := onChan_ok hn
        have hs : sent s s' = sentChan s.chans s'.chans := by
          unfold sent
          rw [show s'.srv = s.srv from h2, show s'.sess = s.sess from h3, sentTcp_self, sentSess_self, List.append_nil, List.nil_append]
        rw [hs]
        have : ((sentChan s.chans s'.chans).map W).sum ≤ W (.chan x) - d := sentChan_paid (Channel.next_paid hW h1)
        exact ⟨h4, by omega⟩
      | tcp k x =>
        obtain ⟨h1, h2, h3, h4⟩ := onTcp_ok hn
        have hs : sent s s' = sentTcp s.srv s'.srv := by
          unfold sent
          rw [show s'.chans = s.chans from h2, show s'.sess = s.sess from h3, sentChan_self, sentSess_self, List.append_nil, List.append_nil]
        rw [hs]
        have : ((sentTcp s.srv s'.srv).map W).sum ≤ W (.tcp k x) - d := sentTcp_paid (Transport.next_paid hW hB h1)
        exact ⟨h4, by omega⟩
      | sess hd b =>
        obtain ⟨h1, h2, h3, h4⟩ := onSess_ok hn
        have hs : sent s s' = sentSess s.sess s'.sess := by
          unfold sent
          rw [show s'.srv = s.srv from h2, show s'.chans = s.chans from h3, sentTcp_self, sentChan_self, List.nil_append, List.nil_append]
        rw [hs]
        have : ((sentSess s.sess s'.sess).map W).sum ≤ W (.sess hd b) - d := sentSess_paid (Session.next_paid hW h1)
        exact ⟨h4, by omega⟩

theorem sum_sublist {l l' : List Mail} (W : Mail → Nat) (h : l.Sublist l') : (l.map W).sum ≤ (l'.map W).sum := by
  induction h with
  | slnil => exact Nat.le_refl _
  | cons a _ ih => rw [List.map_cons, List.sum_cons]; omega
  | cons_cons a _ ih => rw [List.map_cons, List.sum_cons, List.map_cons, List.sum_cons]; omega

/-- What is stored is part of what was there and what was sent. -/
theorem post_sub {slot others : Nat} {box box' ms : List Mail} (h : post slot others box ms = .ok box') : box'.Sublist (box ++ ms) := by
  obtain ⟨ms', h1, h2⟩ := post_ok h
  rw [h2]
  exact (List.Sublist.refl _).append h1

/-- With enough room everything is stored. -/
theorem post_all {slot others : Nat} {box box' ms : List Mail} (h : post slot others box ms = .ok box')
    (hr : (box ++ ms).length + others ≤ 64) : box' = box ++ ms := by
  induction ms generalizing box with
  | nil =>
    injection h with h
    rw [List.append_nil, h]
  | cons x ms ih =>
    simp only [List.length_append, List.length_cons] at hr
    unfold post at h
    rw [if_pos (by omega)] at h
    split at h
    · rw [ih h (by simp only [List.length_append, List.length_cons, List.length_nil]; omega), List.append_assoc]
      rfl
    · cases h

/-! ## Prices -/

/-- How many messages can be under way at the same time because of this one. -/
def width : Mail → Nat
  | .chan (.close _ _ _) => 2
  | .chan (.message _ _ _) => 2
  | .sess _ _ => 2
  | _ => 1

/-- How many messages are handled because of this one, itself included. -/
def work : Mail → Nat
  | .chan (.open _ _) => 3
  | .chan (.close _ _ _) => 4
  | .chan (.message _ _ _) => 6
  | .chan (.released _ _) => 1
  | .chan (.associate _) => 1
  | .chan (.send _ _) => 3
  | .tcp _ .releaseReq => 1
  | .tcp _ _ => 2
  | .sess _ _ => 5

theorem width_law : Law width 0 := by
  constructor <;> intros <;> simp [width]

theorem width_bound (k : Nat) : Bound width k 2 := by
  constructor <;> intros <;> simp [width]

theorem work_law : Law work 1 := by
  constructor <;> intros <;> simp [work]

theorem work_bound (k : Nat) : Bound work k 6 := by
  constructor <;> intros <;> simp [work]

/-- `n` for connection `c`. -/
def pick (c c' : UInt32) (n : Nat) : Nat := if c' = c then n else 0

/-- `width` of the messages about one connection. -/
def widthOf (c : UInt32) (x : Mail) : Nat := pick c (connOf x) (width x)

theorem widthOf_law (c : UInt32) : Law (widthOf c) 0 := by
  constructor <;> intros <;> simp_all only [widthOf, connOf, width, UInt32.ofNat_toNat, Nat.add_zero, Nat.zero_le, Nat.le_refl] <;>
    (unfold pick; split <;> omega)

theorem widthOf_bound (c : UInt32) (k : Nat) : Bound (widthOf c) k (if UInt32.ofNat k = c then 2 else 0) := by
  constructor <;> intros <;> simp only [widthOf, connOf, width] <;> (unfold pick; split <;> omega)

theorem length_le {W : Mail → Nat} (h : ∀ x, 1 ≤ W x) (l : List Mail) : l.length ≤ (l.map W).sum := by
  induction l with
  | nil => exact Nat.le_refl _
  | cons x l ih => have := h x; rw [List.length_cons, List.map_cons, List.sum_cons]; omega

theorem le_length {W : Mail → Nat} {n : Nat} (h : ∀ x, W x ≤ n) (l : List Mail) : (l.map W).sum ≤ n * l.length := by
  induction l with
  | nil => exact Nat.zero_le _
  | cons x l ih => have := h x; rw [List.length_cons, List.map_cons, List.sum_cons, Nat.mul_add]; omega

theorem width_pos (x : Mail) : 1 ≤ width x := by
  unfold width
  split <;> omega

theorem work_pos (x : Mail) : 1 ≤ work x := work_law.pays x

theorem work_le (x : Mail) : work x ≤ 6 := by
  unfold work
  split <;> omega

theorem nets_snoc (l : List (Env × Ev)) (x : Env × Ev) : nets (l ++ [x]) = nets l + if isNet x then 1 else 0 := by
  unfold nets
  rw [List.countP_append, List.countP_singleton]

theorem deliveries_snoc (l : List (Env × Ev)) (x : Env × Ev) : deliveries (l ++ [x]) = deliveries l + if isNet x then 0 else 1 := by
  unfold deliveries
  rw [List.countP_append, List.countP_singleton]
  cases isNet x <;> rfl

theorem allowance_le (n : Nat) (e : Env) (v : Ev) : allowance (fun _ => n) v ≤ n * if isNet (e, v) then 1 else 0 := by
  cases v with
  | net t =>
    show _ ≤ n * 1
    unfold allowance
    simp only []
    split <;> omega
  | deliver => exact Nat.zero_le _

variable {P : Env → Stack → Ev → Prop} {l : List (Env × Ev)}

/-- The balance of a history. -/
theorem balance {W : Mail → Nat} {d n : Nat} (hW : Law W d) (hB : ∀ k, Bound W k n) (h : Path P s l s') :
    (s'.box.map W).sum + d * deliveries l ≤ (s.box.map W).sum + n * nets l := by
  induction h with
  | nil => exact Nat.le_refl _
  | snoc h hp hP hn ih =>
    rename_i l e v
    obtain ⟨h1, h2⟩ := step_paid hW hB hp hn
    have h3 := sum_sublist W (post_sub h1)
    have h4 := allowance_le n e v
    rw [deliveries_snoc, nets_snoc, Nat.mul_add, Nat.mul_add]
    cases hx : isNet (e, v) <;> rw [hx] at h2 h4 <;> simp only [Bool.false_eq_true, ↓reduceIte, Nat.mul_one, Nat.mul_zero, Nat.add_zero] at h2 h4 ⊢ <;> omega

/-! ## C73 -/

/-- C73: components do not keep each other busy.  However the events come, at most six messages are handled for each event of a link or a
timer, those still in the mailbox included. -/
theorem C73_work (hb : s.box = []) (h : Path P s l s') : deliveries l + s'.box.length ≤ 6 * nets l := by
  have := balance work_law work_bound h
  have hl := length_le work_pos s'.box
  rw [hb] at this
  simp only [List.map_nil, List.sum_nil] at this
  omega

/-- C73: when nothing happens outside, the mailbox is empty after at most six times as many messages as it holds. -/
theorem C73_drains (h : Path P s l s') (hn : nets l = 0) : deliveries l + s'.box.length ≤ 6 * s.box.length := by
  have := balance work_law work_bound h
  have hl := length_le work_pos s'.box
  have hm := le_length work_le s.box
  omega

/-- C73: no message is lost as long as, since the mailbox was empty, there were so few events that each could have put two messages into
the free slots. -/
theorem C73_few_partial (hb : s.box = []) (h : Path P s l s1) (hp : Possible s1 v) (hn : step s1 e v = .ok s2)
    (hr : 2 * nets (l ++ [(e, v)]) + e.others ≤ 64) : Kept s1 s2 v := by
  obtain ⟨h1, h2⟩ := step_paid width_law width_bound hp hn
  have h3 := balance width_law width_bound h
  have h4 := allowance_le 2 e v
  have h5 := length_le width_pos (rest s1 v ++ sent s1 s2)
  rw [hb] at h3
  rw [nets_snoc, Nat.mul_add] at hr
  simp only [List.map_nil, List.sum_nil] at h3
  exact post_all h1 (by cases hx : isNet (e, v) <;> rw [hx] at h2 h4 hr <;> simp only [Bool.false_eq_true, ↓reduceIte, Nat.mul_one, Nat.mul_zero, Nat.add_zero] at h2 h4 hr <;> omega)

/-! ### Patient clients -/

/-- At most two messages about each of the 32 connections, and none about others. -/
structure Calmed (box : List Mail) : Prop where
  few : ∀ c, (box.map (widthOf c)).sum ≤ 2
  none : ∀ c : UInt32, ¬ Pool.valid c.toNat → (box.map (widthOf c)).sum = 0

theorem sum_range (n : Nat) (f : Nat → Nat) (h : ∀ k, k < n → f k ≤ 2) (h0 : f 0 = 0) : ((List.range n).map f).sum ≤ 2 * (n - 1) := by
  induction n with
  | zero => exact Nat.le_refl _
  | succ n ih =>
    rw [List.range_succ, List.map_append, List.sum_append]
    have h1 := ih fun k hk => h k (by omega)
    have h2 := h n (by omega)
    simp only [List.map_cons, List.map_nil, List.sum_cons, List.sum_nil]
    cases n with
    | zero => simp [h0]
    | succ n => omega

theorem sum_add {α : Type} (l : List α) (f g : α → Nat) : (l.map fun a => f a + g a).sum = (l.map f).sum + (l.map g).sum := by
  induction l with
  | nil => rfl
  | cons a l ih => simp only [List.map_cons, List.sum_cons, ih]; omega

theorem le_sum {α : Type} {l : List α} {a : α} (h : a ∈ l) (f : α → Nat) : f a ≤ (l.map f).sum := by
  induction l with
  | nil => cases h
  | cons b l ih =>
    rw [List.map_cons, List.sum_cons]
    rcases List.mem_cons.mp h with h | h
    · rw [h]; omega
    · have := ih h; omega

theorem length_conns (box : List Mail) (h : ∀ x ∈ box, (connOf x).toNat < 33) :
    box.length ≤ ((List.range 33).map fun k => (box.map (widthOf (UInt32.ofNat k))).sum).sum := by
  induction box with
  | nil => exact Nat.zero_le _
  | cons x box ih =>
    have hx := h x List.mem_cons_self
    have h1 := ih fun y hy => h y (List.mem_cons_of_mem _ hy)
    have h2 := le_sum (List.mem_range.mpr hx) fun k => widthOf (UInt32.ofNat k) x
    have h3 : 1 ≤ widthOf (UInt32.ofNat (connOf x).toNat) x := by
      rw [UInt32.ofNat_toNat, widthOf, pick, if_pos rfl]
      exact width_pos x
    simp only [List.map_cons, List.sum_cons, List.length_cons]
    rw [sum_add]
    omega

theorem Calmed.length {box : List Mail} (h : Calmed box) : box.length ≤ 64 := by
  have hv : ∀ x ∈ box, Pool.valid (connOf x).toNat := by
    intro x hx
    refine Classical.byContradiction fun hn => ?_
    have h1 := h.none _ hn
    have h2 := le_sum hx (widthOf (connOf x))
    have h3 := width_pos x
    rw [widthOf, pick, if_pos rfl] at h2
    omega
  have h1 := length_conns box fun x hx => lt33 (hv x hx)
  have h2 := sum_range 33 (fun k => (box.map (widthOf (UInt32.ofNat k))).sum) (fun k _ => h.few _) (h.none _ (by decide))
  omega

theorem Calmed.sub {box box' : List Mail} (h : Calmed box) (hs : box'.Sublist box) : Calmed box' := by
  refine ⟨fun c => ?_, fun c hc => ?_⟩
  · have := sum_sublist (widthOf c) hs
    have := h.few c
    omega
  · have := sum_sublist (widthOf c) hs
    have := h.none c hc
    omega

theorem about_valid {t : TEv} {k : Nat} (hp : Transport.Possible s.srv t) (ha : about t = some k) : Pool.valid k := by
  cases t with
  | accept => cases ha
  | linkData j => injection ha with ha; exact ha ▸ hp.1
  | linkError j => injection ha with ha; exact ha ▸ hp.1
  | timer j => injection ha with ha; exact ha ▸ hp.1
  | down j x => cases ha

theorem calmed_step (h : Calmed s.box) (hp : Possible s v) (hP : Patient e s v) (hn : step s e v = .ok s') :
    Calmed (rest s v ++ sent s s') ∧ post 4096 e.others (rest s v) (sent s s') = .ok s'.box := by
  refine ⟨⟨fun c => ?_, fun c hc => ?_⟩, (step_paid width_law width_bound hp hn).1⟩
  · have h1 := (step_paid (widthOf_law c) (widthOf_bound c) hp hn).2
    have h2 := h.few c
    cases v with
    | deliver => simp only [allowance, Nat.add_zero] at h1; omega
    | net t =>
      unfold allowance at h1
      simp only [] at h1
      cases ha : about t with
      | none => rw [ha] at h1; simp only [] at h1; omega
      | some k =>
        rw [ha] at h1
        simp only [] at h1
        by_cases hk : UInt32.ofNat k = c
        · have h3 : (s.box.map (widthOf c)).sum = 0 := by
            rw [List.sum_eq_zero_iff_forall_eq_nat]
            intro n hn
            obtain ⟨x, hx, rfl⟩ := List.mem_map.mp hn
            rw [widthOf, pick, if_neg (hk ▸ hP.2 t k rfl ha x hx)]
          rw [if_pos hk] at h1
          omega
        · rw [if_neg hk] at h1
          omega
  · have h1 := (step_paid (widthOf_law c) (widthOf_bound c) hp hn).2
    have h2 := h.none c hc
    cases v with
    | deliver => simp only [allowance, Nat.add_zero] at h1; omega
    | net t =>
      unfold allowance at h1
      simp only [] at h1
      cases ha : about t with
      | none => rw [ha] at h1; simp only [] at h1; omega
      | some k =>
        rw [ha] at h1
        simp only [] at h1
        have hv := about_valid hp.2 ha
        have hk : UInt32.ofNat k ≠ c := by
          intro hk
          rw [← hk, (toNat_eq (lt33 hv)).mpr rfl] at hc
          exact hc hv
        rw [if_neg hk] at h1
        omega

theorem calmed_path (hb : s.box = []) (h : Path Patient s l s') : Calmed s'.box := by
  induction h with
  | nil => rw [hb]; exact ⟨fun _ => Nat.zero_le _, fun _ _ => rfl⟩
  | snoc h hp hP hn ih =>
    obtain ⟨h1, h2⟩ := calmed_step ih hp hP hn
    exact h1.sub (post_sub h2)

/-- C73: no message is lost as long as clients are patient, that is nothing happens on a connection while messages about it are under
way: 32 connections with at most two messages each fit into the mailbox. -/
theorem C73_patient_partial (hb : s.box = []) (h : Path Patient s l s1) (hp : Possible s1 v) (hP : Patient e s1 v)
    (hn : step s1 e v = .ok s2) : Kept s1 s2 v := by
  obtain ⟨h1, h2⟩ := calmed_step (calmed_path hb h) hp hP hn
  exact post_all h2 (by rw [hP.1]; exact h1.length)

end Stack

end Uscada.Ua
