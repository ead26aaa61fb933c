import Verif.SelfTest
/-!
# The sixteen test cases on their way through the components
-/

namespace Uscada.SelfTest

open Uscada.Modbus Uscada.Controller Uscada.Modbus.Exchange
open AduStorage (Pending)

/-- What becomes of a test case: it is answered by the controller over the connection; the client refuses to encode it; the
dispatcher knows no such client; the controller does not let the session answer. -/
inductive Kind where
  | answered
  | refused
  | foreign
  | silent
deriving DecidableEq, Repr

def kind : Nat → Kind
  | 0 | 2 | 3 | 4 | 7 | 8 | 10 | 11 => .answered
  | 12 => .foreign
  | 15 => .silent
  | _ => .refused

def kase (rnd : Nat → UInt8) (i : Nat) : Case := (testCases rnd).getD i default

/-- The request of a test case as the dispatcher sees it. -/
def creq (rnd : Nat → UInt8) (i : Nat) : CallerReq := callerOf (batchItem i (kase rnd i))

/-- The same request in the store of the client. -/
def pend (rnd : Nat → UInt8) (i : Nat) : Pending := AduStorage.pendingOf (creq rnd i)

/-- A test case after its request was served: functions 6 and 16 wrote the data into its registers. -/
def served (c : Case) : Case :=
  if c.func = 6 ∨ c.func = 16 then
    { c with regs := c.regs.take (c.startItem * 2) ++ c.data ++ c.regs.drop (c.startItem * 2 + c.data.length) }
  else c

/-- The test cases when those in `wr` have been served. -/
def casesAt (rnd : Nat → UInt8) (wr : Nat → Bool) : List Case :=
  (List.range 16).map fun i => if wr i then served (kase rnd i) else kase rnd i

/-- The answer of the controller to the request of a test case. -/
def app (rnd : Nat → UInt8) (i : Nat) : AppRsp where
  transactId := i
  error := (kase rnd i).error
  success := (kase rnd i).success
  data :=
    if (kase rnd i).func = 3 ∨ (kase rnd i).func = 4 then
      ((kase rnd i).regs.drop ((kase rnd i).startItem * 2)).take ((kase rnd i).numItems * 2)
    else if (kase rnd i).func = 6 then (kase rnd i).data else []

/-- What the controller is told about a test case in the end. -/
def ans (rnd : Nat → UInt8) (i : Nat) : CRsp :=
  if kind i = .answered then told (pend rnd i) (app rnd i) else ⟨(kase rnd i).clientId, i, false, 0, []⟩

theorem sixteen {i : Nat} (h : i < 16) : i = 0 ∨ i = 1 ∨ i = 2 ∨ i = 3 ∨ i = 4 ∨ i = 5 ∨ i = 6 ∨ i = 7 ∨ i = 8 ∨ i = 9 ∨ i = 10 ∨
    i = 11 ∨ i = 12 ∨ i = 13 ∨ i = 14 ∨ i = 15 := by omega

@[simp] theorem randVector_length (rnd : Nat → UInt8) (n : Nat) : (randVector rnd n).length = n := by simp [randVector]

theorem kase_get (rnd : Nat → UInt8) {i : Nat} (h : i < 16) : (testCases rnd)[i]? = some (kase rnd i) := by
  rcases sixteen h with h | h | h | h | h | h | h | h | h | h | h | h | h | h | h | h <;> (subst h; rfl)

theorem testCases_eq (rnd : Nat → UInt8) : testCases rnd = (List.range 16).map (kase rnd) := by
  apply List.ext_getElem?
  intro i
  by_cases h : i < 16
  · rw [kase_get rnd h]; simp [h]
  · rw [List.getElem?_eq_none (by simp [testCases]; omega), List.getElem?_eq_none (by simp; omega)]

theorem casesAt_none (rnd : Nat → UInt8) : casesAt rnd (fun _ => false) = testCases rnd := by
  rw [testCases_eq]; simp [casesAt]

@[simp] theorem casesAt_length (rnd : Nat → UInt8) (wr : Nat → Bool) : (casesAt rnd wr).length = 16 := by simp [casesAt]

theorem casesAt_get (rnd : Nat → UInt8) (wr : Nat → Bool) {i : Nat} (h : i < 16) :
    (casesAt rnd wr)[i]? = some (if wr i then served (kase rnd i) else kase rnd i) := by
  simp [casesAt, h]

/-- Facts about the fields that are the same for all test cases. -/
theorem kase_bounds (rnd : Nat → UInt8) {i : Nat} (h : i < 16) :
    (kase rnd i).regs.length = 2048 ∧ (kase rnd i).data.length ≤ 240 ∧ (kase rnd i).clientId ≤ 99 ∧ (kase rnd i).addr ≤ 248 ∧
    (kase rnd i).func < 256 ∧ (kase rnd i).startItem ≤ 890 ∧ (kase rnd i).numItems ≤ 126 ∧
    (kase rnd i).startItem * 2 + (kase rnd i).numItems * 2 ≤ 2048 := by
  rcases sixteen h with h | h | h | h | h | h | h | h | h | h | h | h | h | h | h | h <;>
    (subst h; simp [kase, testCases])

theorem pend_eq (rnd : Nat → UInt8) {i : Nat} (h : i < 16) :
    pend rnd i = ⟨(kase rnd i).clientId, i, (kase rnd i).func, (kase rnd i).addr, (kase rnd i).startItem, (kase rnd i).numItems,
      (kase rnd i).data.length, (kase rnd i).data⟩ := by
  obtain ⟨_, h1, h2, h3, h4, h5, h6, _⟩ := kase_bounds rnd h
  unfold pend creq callerOf batchItem AduStorage.pendingOf
  simp only [UInt32.toNat_ofNat', UInt8.toNat_ofNat', UInt16.toNat_ofNat', List.take_length]
  rw [Nat.mod_eq_of_lt (by omega), Nat.mod_eq_of_lt (by omega), Nat.mod_eq_of_lt (by omega), Nat.mod_eq_of_lt (by omega),
    Nat.mod_eq_of_lt (by omega), Nat.mod_eq_of_lt (by omega)]

theorem sendable (rnd : Nat → UInt8) {i : Nat} (h : i < 16) (hk : kind i = .answered ∨ kind i = .silent) :
    Sendable (pend rnd i) := by
  rw [pend_eq rnd h]
  rcases sixteen h with h | h | h | h | h | h | h | h | h | h | h | h | h | h | h | h <;> subst h <;>
    first
    | (exfalso; revert hk; decide)
    | (constructor <;> simp [kase, testCases])

theorem refused (rnd : Nat → UInt8) {i : Nat} (h : i < 16) (hk : kind i = .refused) :
    ¬ ReqOk (Client.reqOfPending (pend rnd i)) := by
  rw [pend_eq rnd h]
  rcases sixteen h with h | h | h | h | h | h | h | h | h | h | h | h | h | h | h | h <;> subst h <;>
    first
    | (exfalso; revert hk; decide)
    | (simp [kase, testCases, ReqOk, Client.reqOfPending, isReadFunc, isSingleFunc, fReadCoil, fReadDiscrete, fReadHolding,
        fReadInput, fForceCoil, fPresetSingle, fPresetMulti, pduLen])

theorem suits (rnd : Nat → UInt8) {i : Nat} (h : i < 16) (hk : kind i = .answered) : Suits (pend rnd i).func (app rnd i) := by
  rw [pend_eq rnd h]
  have hd : ∀ e ∈ [0, 4], e ∈ declaredErrors := by decide
  rcases sixteen h with h | h | h | h | h | h | h | h | h | h | h | h | h | h | h | h <;> subst h <;>
    first
    | (exfalso; revert hk; decide)
    | (constructor <;> first | exact hd _ (by simp [app, kase, testCases]) | simp [app, kase, testCases])

theorem silent_fails (rnd : Nat → UInt8) {i : Nat} (h : i < 16) (hk : kind i = .silent) : (app rnd i).success = false := by
  rcases sixteen h with h | h | h | h | h | h | h | h | h | h | h | h | h | h | h | h <;> subst h <;>
    first
    | (exfalso; revert hk; decide)
    | rfl

theorem foreign_client (rnd : Nat → UInt8) {i : Nat} (h : i < 16) : (creq rnd i).clientId ≥ 1 ↔ kind i = .foreign := by
  rcases sixteen h with h | h | h | h | h | h | h | h | h | h | h | h | h | h | h | h <;> subst h <;>
    simp [creq, callerOf, batchItem, kase, testCases, kind]

/-! ## Serving -/

theorem served_length {c : Case} (hl : c.regs.length = 2048) (hd : c.startItem * 2 + c.data.length ≤ 2048) :
    (served c).regs.length = 2048 := by
  unfold served
  split
  · simp; omega
  · exact hl

/-- Writing the same bytes again changes nothing. -/
theorem splice_again (v b : List UInt8) (off : Nat) (h : off + b.length ≤ v.length) :
    (v.take off ++ b ++ v.drop (off + b.length)).take off ++ b ++ (v.take off ++ b ++ v.drop (off + b.length)).drop (off + b.length) =
      v.take off ++ b ++ v.drop (off + b.length) := by
  have h1 : (v.take off).length = off := by simp; omega
  congr 1
  · rw [List.append_assoc, List.take_append_of_le_length (by omega), List.take_of_length_le (by omega)]
  · rw [List.drop_append_of_le_length (by simp; omega), List.drop_of_length_le (by simp; omega)]
    simp

/-- The bytes written are the bytes there. -/
theorem splice_slice (v b : List UInt8) (off : Nat) (h : off + b.length ≤ v.length) :
    ((v.take off ++ b ++ v.drop (off + b.length)).drop off).take b.length = b := by
  have h1 : (v.take off).length = off := by simp; omega
  rw [List.append_assoc, List.drop_append_of_le_length (by omega), List.drop_of_length_le (by omega)]
  simp

theorem kase_writes (rnd : Nat → UInt8) {i : Nat} (h : i < 16) (hk : kind i = .answered ∨ kind i = .silent) :
    (kase rnd i).startItem * 2 + (kase rnd i).data.length ≤ 2048 ∧
    ((kase rnd i).func = 3 ∨ (kase rnd i).func = 4 ∨ (kase rnd i).func = 6 ∨ (kase rnd i).func = 16) := by
  rcases sixteen h with h | h | h | h | h | h | h | h | h | h | h | h | h | h | h | h <;> subst h <;>
    first
    | (exfalso; revert hk; decide)
    | simp [kase, testCases]

def also (wr : Nat → Bool) (i : Nat) : Nat → Bool := fun j => j == i || wr j

theorem casesAt_set (rnd : Nat → UInt8) (wr : Nat → Bool) {i : Nat} (h : i < 16) :
    (casesAt rnd wr).set i (served (kase rnd i)) = casesAt rnd (also wr i) := by
  apply List.ext_getElem?
  intro j
  rw [List.getElem?_set]
  by_cases hj : j < 16
  · rw [casesAt_get rnd (also wr i) hj]
    split
    · rename_i e
      subst e
      simp only [casesAt_length, h, if_true, also, BEq.rfl, Bool.true_or]
    · rename_i e
      rw [casesAt_get rnd _ hj]
      have : (j == i) = false := by simp; omega
      simp [also, this]
  · rw [List.getElem?_eq_none (l := casesAt rnd (also wr i)) (by simp; omega), if_neg (by omega),
      List.getElem?_eq_none (by simp; omega)]

/-- The controller serves the request of a test case. -/
theorem serve_case {rnd : Nat → UInt8} {wr : Nat → Bool} {t : Test} (ht : t.cases = casesAt rnd wr) {i : Nat} (h : i < 16)
    (hk : kind i = .answered ∨ kind i = .silent) {f : FwdReq} (hf : f.view = meaning (pend rnd i)) (sid ses : Nat) :
    t.serve sid ses f = .ok ({ t with cases := casesAt rnd (also wr i) }, [.modbusAduRsp sid ses (app rnd i)]) := by
  obtain ⟨hl, b1, b2, b3, b4, b5, b6, b7⟩ := kase_bounds rnd h
  obtain ⟨w1, w2⟩ := kase_writes rnd h hk
  rw [pend_eq rnd h] at hf
  have f1 : f.transactId = i := congrArg ReqView.transactId hf
  have f2 : f.func = (kase rnd i).func := congrArg ReqView.func hf
  have f3 : f.startItem = (kase rnd i).startItem := congrArg ReqView.startItem hf
  have f4 := congrArg ReqView.numItems hf
  have f5 := congrArg ReqView.data hf
  simp only [FwdReq.view, meaning, f2] at f4 f5
  have c1 : t.cases[f.transactId]? = some (if wr i then served (kase rnd i) else kase rnd i) := by
    rw [ht, f1, casesAt_get rnd _ h]
  generalize hg : (if wr i then served (kase rnd i) else kase rnd i) = g at c1
  have e1 : g.error = (kase rnd i).error := by
    rw [← hg]; unfold served; split <;> (try split) <;> rfl
  have e2 : g.success = (kase rnd i).success := by
    rw [← hg]; unfold served; split <;> (try split) <;> rfl
  unfold Test.serve
  rw [c1]
  dsimp only
  rw [f1, f2, f3]
  have k3 : fReadHolding = 3 := rfl
  have k4 : fReadInput = 4 := rfl
  have k6 : fPresetSingle = 6 := rfl
  have k16 : fPresetMulti = 16 := rfl
  rw [k3, k4, k6, k16]
  by_cases hr : (kase rnd i).func = 3 ∨ (kase rnd i).func = 4
  · have hs : served (kase rnd i) = kase rnd i := by unfold served; rw [if_neg (by omega)]
    rw [if_neg (by omega), if_neg (by omega)] at f4
    have f4 := Option.some.inj f4
    have hg' : g = kase rnd i := by rw [← hg, hs]; split <;> rfl
    subst hg'
    have hc : casesAt rnd (also wr i) = t.cases := by
      rw [ht, ← casesAt_set rnd wr h, hs]
      apply List.ext_getElem?
      intro j
      rw [List.getElem?_set]
      split
      · rename_i e
        subst e
        rw [casesAt_get rnd _ h]
        simp [hs, h]
      · rfl
    rw [if_pos hr, f4, hc, Nat.mod_eq_of_lt (by omega)]
    unfold slice
    rw [if_pos (by omega)]
    simp only [Exec.ok_bind, Exec.pure_eq]
    unfold app
    rw [if_pos hr]
  · have hw : (kase rnd i).func = 6 ∨ (kase rnd i).func = 16 := by omega
    rw [if_neg (by omega), if_neg (by omega)] at f5
    have f5 := Option.some.inj f5
    have hp : patch g.regs ((kase rnd i).startItem * 2) f.data = .ok (served (kase rnd i)).regs := by
      unfold patch
      rw [f5]
      have hlen : g.regs.length = 2048 := by
        rw [← hg]
        split
        · exact served_length hl w1
        · exact hl
      rw [if_pos (by omega), ← hg]
      congr 1
      split
      · unfold served
        rw [if_pos hw]
        exact splice_again _ _ _ (by omega)
      · unfold served
        rw [if_pos hw]
    have hset : ({ g with regs := (served (kase rnd i)).regs } : Case) = served (kase rnd i) := by
      rw [← hg]
      split
      · rfl
      · unfold served; rw [if_pos hw]
    rw [if_neg hr]
    have hfin : ∀ d, (Exec.ok ({ t with cases := t.cases.set i { g with regs := (served (kase rnd i)).regs } },
        [Controller.Out.modbusAduRsp sid ses ⟨i, g.error, g.success, d⟩]) : Exec (Test × List Controller.Out)) =
        .ok ({ t with cases := casesAt rnd (also wr i) },
          [.modbusAduRsp sid ses ⟨i, (kase rnd i).error, (kase rnd i).success, d⟩]) := by
      intro d
      rw [hset, ht, casesAt_set rnd wr h, e1, e2]
    rcases hw with hw | hw
    · rw [if_pos hw, hp]
      refine (hfin f.data).trans ?_
      unfold app
      rw [if_neg hr, if_pos hw, f5]
    · have hn : ¬ (kase rnd i).func = 6 := by omega
      rw [if_neg hn, if_pos hw, hp]
      refine (hfin []).trans ?_
      unfold app
      rw [if_neg hr, if_neg hn]

/-! ## Judging -/

theorem data_nonempty (rnd : Nat → UInt8) {i : Nat} (h : i < 16) (hk : kind i = .answered)
    (hw : (kase rnd i).func = 6 ∨ (kase rnd i).func = 16) : 0 < (kase rnd i).data.length ∧
      ((kase rnd i).func = 6 → (kase rnd i).data.length = 2) := by
  rcases sixteen h with h | h | h | h | h | h | h | h | h | h | h | h | h | h | h | h <;> subst h <;>
    first
    | (exfalso; revert hk; decide)
    | (exfalso; revert hw; simp [kase, testCases]; done)
    | simp [kase, testCases]

theorem answered_success (rnd : Nat → UInt8) {i : Nat} (h : i < 16) :
    (kase rnd i).success = decide (kind i = .answered) ∧ (kind i ≠ .answered → (kase rnd i).error = 0) := by
  rcases sixteen h with h | h | h | h | h | h | h | h | h | h | h | h | h | h | h | h <;> subst h <;>
    simp [kase, testCases, kind]

/-- The answer to a test case is judged right; a write must have been served before. -/
theorem check_case {rnd : Nat → UInt8} {wr : Nat → Bool} {t : Test} (ht : t.cases = casesAt rnd wr) {i : Nat} (h : i < 16)
    (hw : kind i = .answered → wr i = true) :
    t.check (ans rnd i) = .ok ({ t with counter := t.counter + 1 }, if t.counter + 1 = 16 then .done else .noerror) := by
  obtain ⟨hl, b1, b2, b3, b4, b5, b6, b7⟩ := kase_bounds rnd h
  obtain ⟨s1, s2⟩ := answered_success rnd h
  have e1 : ∀ c, (served c).clientId = c.clientId := fun c => by unfold served; split <;> rfl
  have e2 : ∀ c, (served c).success = c.success := fun c => by unfold served; split <;> rfl
  have e3 : ∀ c, (served c).error = c.error := fun c => by unfold served; split <;> rfl
  have e4 : ∀ c, (served c).func = c.func := fun c => by unfold served; split <;> rfl
  have e5 : ∀ c, (served c).numItems = c.numItems := fun c => by unfold served; split <;> rfl
  have e6 : ∀ c, (served c).startItem = c.startItem := fun c => by unfold served; split <;> rfl
  have e7 : ∀ c, (served c).data = c.data := fun c => by unfold served; split <;> rfl
  by_cases hk : kind i = .answered
  · have ha : ans rnd i = told (pend rnd i) (app rnd i) := by unfold ans; rw [if_pos hk]
    have c1 : t.cases[(ans rnd i).transactId]? = some (served (kase rnd i)) := by
      rw [ha, ht]
      show (casesAt rnd wr)[(pend rnd i).transactId]? = _
      rw [pend_eq rnd h, casesAt_get rnd _ h, hw hk, if_pos rfl]
    have hcont : Test.content (served (kase rnd i)) (ans rnd i) = .ok true := by
      unfold Test.content
      split
      · rename_i hr
        have he : (app rnd i).error = 0 := by rw [ha] at hr; exact hr.2
        obtain ⟨w1, w2⟩ := kase_writes rnd h (.inl hk)
        unfold Test.compare
        rw [e4, e5, e6, e7, ha]
        have hdata : (told (pend rnd i) (app rnd i)).data = if (kase rnd i).func = 16 then [] else (app rnd i).data := by
          unfold told
          rw [pend_eq rnd h]
          simp [he]
        rw [hdata]
        have k3 : fReadHolding = 3 := rfl
        have k4 : fReadInput = 4 := rfl
        have k6 : fPresetSingle = 6 := rfl
        have k16 : fPresetMulti = 16 := rfl
        rw [k3, k4, k6, k16]
        by_cases hr : (kase rnd i).func = 3 ∨ (kase rnd i).func = 4
        · rw [if_pos hr, if_neg (show ¬ (kase rnd i).func = 16 by omega)]
          have hs : served (kase rnd i) = kase rnd i := by unfold served; rw [if_neg (by omega)]
          have hd : (app rnd i).data = ((kase rnd i).regs.drop ((kase rnd i).startItem * 2)).take ((kase rnd i).numItems * 2) := by
            unfold app
            simp only [if_pos hr]
          rw [hs, hd]
          rw [if_neg (by simp; omega)]
          unfold slice
          rw [if_pos (by omega)]
          simp
        · have hwf : (kase rnd i).func = 6 ∨ (kase rnd i).func = 16 := by omega
          obtain ⟨d1, d2⟩ := data_nonempty rnd h hk hwf
          have hreg : (served (kase rnd i)).regs = (kase rnd i).regs.take ((kase rnd i).startItem * 2) ++ (kase rnd i).data ++
              (kase rnd i).regs.drop ((kase rnd i).startItem * 2 + (kase rnd i).data.length) := by
            unfold served; rw [if_pos hwf]
          have hsl : slice (served (kase rnd i)).regs ((kase rnd i).startItem * 2) (kase rnd i).data.length = .ok (kase rnd i).data := by
            unfold slice
            rw [served_length hl w1, if_pos (by omega), hreg, splice_slice _ _ _ (by omega)]
          have hsd : slice (kase rnd i).data 0 (kase rnd i).data.length = .ok (kase rnd i).data := by
            unfold slice
            rw [if_pos (by omega)]
            simp
          rw [if_neg hr, hsl, hsd]
          rcases hwf with hwf | hwf
          · have hd : (app rnd i).data = (kase rnd i).data := by
              unfold app
              simp only [if_neg hr, if_pos hwf]
            rw [if_pos hwf, if_neg (show ¬ (kase rnd i).func = 16 by omega), hd, if_neg (by rw [d2 hwf]; simp)]
            simp
          · rw [if_neg (by omega), if_pos hwf, if_pos hwf]
            simp
      · rfl
    unfold Test.check
    simp only [c1]
    rw [if_neg (by rw [e1, ha]; show ¬ (kase rnd i).clientId ≠ (pend rnd i).clientId; rw [pend_eq rnd h]; simp),
      if_neg (by rw [e2, ha, s1]; simp [told, hk]),
      if_neg (by rw [e3, ha]; simp [told, app]), hcont]
    simp [ht]
  · have ha : ans rnd i = ⟨(kase rnd i).clientId, i, false, 0, []⟩ := by unfold ans; rw [if_neg hk]
    have c1 : t.cases[(ans rnd i).transactId]? = some (if wr i then served (kase rnd i) else kase rnd i) := by
      rw [ha, ht, casesAt_get rnd _ h]
    generalize hg : (if wr i then served (kase rnd i) else kase rnd i) = g at c1
    have g1 : g.clientId = (kase rnd i).clientId := by rw [← hg]; split <;> simp [e1]
    have g2 : g.success = (kase rnd i).success := by rw [← hg]; split <;> simp [e2]
    have g3 : g.error = (kase rnd i).error := by rw [← hg]; split <;> simp [e3]
    have hcont : Test.content g (ans rnd i) = .ok true := by
      unfold Test.content
      rw [if_neg (by rw [ha]; simp)]
    unfold Test.check
    simp only [c1]
    rw [if_neg (by rw [g1, ha]; simp), if_neg (by rw [g2, ha, s1]; simp [hk]), if_neg (by rw [g3, ha, s2 hk]; simp), hcont]
    simp [ht]

/-! ## The batch -/

theorem batch_casesAt (rnd : Nat → UInt8) (wr : Nat → Bool) : batch (casesAt rnd wr) = batch (testCases rnd) := by
  rw [batch_fixed, batch_fixed (testCases rnd)]
  congr 1
  rw [testCases_eq, casesAt, List.map_map, List.map_map]
  apply List.map_congr_left
  intro i _
  simp only [Function.comp_apply]
  split
  · unfold served; split <;> rfl
  · rfl

theorem batch_eq (rnd : Nat → UInt8) : (batch (testCases rnd)).map callerOf = (List.range 16).map (creq rnd) := rfl

end Uscada.SelfTest
