import Verif.LogSites
import Verif.ModbusCodecLemmas
/-!
# C70: every log line is formatted within its array
-/

namespace Uscada.Log

/-- The values an argument of a kind may have. -/
inductive Fits : Kind → Value → Prop where
  | uint {n} : n < 4294967296 → Fits .uint (.uint n)
  | int {z} : -2147483648 ≤ z → z < 2147483648 → Fits .int (.int z)
  | size {n} : n < 18446744073709551616 → Fits .size (.size n)
  | name {x table} : x ∈ table → Fits (.name table) (.str x)
  /-- no frame printed has more than 260 bytes: `C70_frames` -/
  | frame {bytes} : bytes.length ≤ 260 → Fits .frame (.str (frameText bytes))

/-- Arguments of the given kinds. -/
inductive AllFit : List Kind → List Value → Prop where
  | nil : AllFit [] []
  | cons {k ks v vs} : Fits k v → AllFit ks vs → AllFit (k :: ks) (v :: vs)

/-- The most characters an argument can take. -/
def Kind.most : Kind → Nat
  | .uint => 10
  | .int => 11
  | .size => 20
  | .name t => (t.map List.length).foldr max 0
  | .frame => 780

/-- The most characters of a line, `none` if a conversion does not match its argument. -/
def bound : List Char → List Kind → Option Nat
  | [], [] => some 0
  | [], _ :: _ => none
  | '%' :: 'u' :: f, .uint :: ks => (bound f ks).map (Kind.uint.most + ·)
  | '%' :: 'd' :: f, .int :: ks => (bound f ks).map (Kind.int.most + ·)
  | '%' :: 'z' :: 'u' :: f, .size :: ks => (bound f ks).map (Kind.size.most + ·)
  | '%' :: 's' :: f, .name t :: ks => (bound f ks).map ((Kind.name t).most + ·)
  | '%' :: 's' :: f, .frame :: ks => (bound f ks).map (Kind.frame.most + ·)
  | '%' :: _, _ => none
  | _ :: f, ks => (bound f ks).map (1 + ·)

theorem decimal_length {n k : Nat} (hk : 0 < k) (h : n < 10 ^ k) : (decimal n).length ≤ k :=
  (Nat.length_toDigits_le_iff (by omega) hk).2 h

theorem signed_length {z : Int} (h1 : -2147483648 ≤ z) (h2 : z < 2147483648) : (signed z).length ≤ 11 := by
  have : (decimal z.natAbs).length ≤ 10 := decimal_length (by omega) (by omega)
  unfold signed
  split
  · simp only [List.length_cons]; omega
  · omega

theorem le_most (f : List Char → Nat) : ∀ (t : List (List Char)) (x : List Char), x ∈ t → f x ≤ (t.map f).foldr max 0 := by
  intro t
  induction t with
  | nil => intro x h; cases h
  | cons a t ih =>
    intro x h
    simp only [List.map_cons, List.foldr_cons]
    cases h with
    | head => omega
    | tail _ h => have := ih x h; omega

theorem frameText_length (bytes : List UInt8) : (frameText bytes).length = 3 * bytes.length := by
  induction bytes with
  | nil => rfl
  | cons b t ih =>
    simp only [frameText, List.flatMap_cons, List.length_append, List.length_cons, List.length_nil] at ih ⊢
    omega

theorem sprintf_bound (f : List Char) (ks : List Kind) : ∀ (vs : List Value) (n : Nat), AllFit ks vs → bound f ks = some n →
    ∃ s, sprintf f vs = .ok s ∧ s.length ≤ n := by
  fun_induction bound f ks with
  | case1 => intro vs n h hb; cases h; exact ⟨[], rfl, Nat.zero_le _⟩
  | case2 => intro vs n h hb; cases hb
  | case3 f ks ih =>
    intro vs n h hb
    cases h with | cons h1 h2 => cases h1 with | uint hn =>
    obtain ⟨m, hm, rfl⟩ := Option.map_eq_some_iff.1 hb
    obtain ⟨s, e, hs⟩ := ih _ m h2 hm
    refine ⟨_, by simp only [sprintf, e]; rfl, ?_⟩
    have := decimal_length (k := 10) (by omega) (Nat.lt_trans hn (by decide))
    simp only [List.length_append, Kind.most]; omega
  | case4 f ks ih =>
    intro vs n h hb
    cases h with | cons h1 h2 => cases h1 with | int hn hn' =>
    obtain ⟨m, hm, rfl⟩ := Option.map_eq_some_iff.1 hb
    obtain ⟨s, e, hs⟩ := ih _ m h2 hm
    refine ⟨_, by simp only [sprintf, e]; rfl, ?_⟩
    have := signed_length hn hn'
    simp only [List.length_append, Kind.most]; omega
  | case5 f ks ih =>
    intro vs n h hb
    cases h with | cons h1 h2 => cases h1 with | size hn =>
    obtain ⟨m, hm, rfl⟩ := Option.map_eq_some_iff.1 hb
    obtain ⟨s, e, hs⟩ := ih _ m h2 hm
    refine ⟨_, by simp only [sprintf, e]; rfl, ?_⟩
    have := decimal_length (k := 20) (by omega) (Nat.lt_trans hn (by decide))
    simp only [List.length_append, Kind.most]; omega
  | case6 f t ks ih =>
    intro vs n h hb
    cases h with | cons h1 h2 => cases h1 with | name hn =>
    obtain ⟨m, hm, rfl⟩ := Option.map_eq_some_iff.1 hb
    obtain ⟨s, e, hs⟩ := ih _ m h2 hm
    refine ⟨_, by simp only [sprintf, e]; rfl, ?_⟩
    have := le_most List.length _ _ hn
    simp only [List.length_append, Kind.most]; omega
  | case7 f ks ih =>
    intro vs n h hb
    cases h with | cons h1 h2 => cases h1 with | frame hn =>
    obtain ⟨m, hm, rfl⟩ := Option.map_eq_some_iff.1 hb
    obtain ⟨s, e, hs⟩ := ih _ m h2 hm
    refine ⟨_, by simp only [sprintf, e]; rfl, ?_⟩
    simp only [List.length_append, Kind.most, frameText_length]; omega
  | case8 => intro vs n h hb; cases hb
  | case9 c f ks h1 h2 h3 h4 h5 h6 ih =>
    intro vs n h hb
    obtain ⟨m, hm, rfl⟩ := Option.map_eq_some_iff.1 hb
    obtain ⟨s, e, hs⟩ := ih _ m h hm
    refine ⟨c :: s, ?_, by simp only [List.length_cons]; omega⟩
    have : sprintf (c :: f) vs = (do return c :: (← sprintf f vs)) := by
      rw [sprintf]
      all_goals first | exact h6 | (intros; exact h6 (by assumption))
    rw [this, e]; rfl

/-- Every line of the table has matching conversions, and within the array. -/
theorem sites_bound : sites.all (fun s => (bound s.format s.args).any (· < lineCap)) = true := by decide +kernel

/-- C70: whatever the levels and the arguments, every line of the program is formatted without undefined behaviour: each
conversion has an argument of its type, and the characters with the terminating NUL fit into the array.  The line is handed on
exactly if its level reaches the one of its task. -/
theorem C70_fits (levels : Levels) (s : Site) (hs : s ∈ sites) (vs : List Value) (hv : AllFit s.args vs) :
    ∃ r, log levels s vs = .ok r ∧ (r.isSome ↔ (levels s.task).num ≤ s.level.num) ∧ ∀ text, r = some text → text.length < 1024 := by
  have hb := List.all_eq_true.1 sites_bound s hs
  cases e : bound s.format s.args with
  | none => rw [e] at hb; cases hb
  | some n =>
    rw [e] at hb
    have hn : n < lineCap := by simpa using hb
    have hcap : lineCap = 1024 := rfl
    obtain ⟨text, he, hl⟩ := sprintf_bound s.format s.args vs n hv e
    by_cases hc : s.level.num ≥ (levels s.task).num
    · refine ⟨some text, ?_, by simpa using hc, ?_⟩
      · unfold log
        rw [if_pos hc, he]
        show (if text.length + 1 ≤ lineCap then (pure (some text) : Exec _) else .ub) = _
        rw [if_pos (by omega)]; rfl
      · intro t ht; cases ht; omega
    · refine ⟨none, ?_, by simpa using hc, fun _ h => by cases h⟩
      unfold log
      rw [if_neg hc]

/-- C70: the frames that are printed have at most 260 bytes: received ones are checked before (ModbusSession.cpp:123-130,
ModbusClient.cpp:130-137), sent ones are what an encoder accepted (ModbusClient.cpp:56-66, ModbusSession.cpp:184-198). -/
theorem C70_frames :
    (∀ b, Modbus.isAduValid b = true → b.content.length ≤ 260) ∧
    (∀ m a b, a.numBytes ≤ a.dataCap → a.numBytes ≤ 260 → Modbus.encodeReq (Modbus.PduBuf.fresh m) a = .ok (b, true) →
      b.content.length ≤ 260) ∧
    (∀ m a b, a.numBytes ≤ 260 → Modbus.encodeRsp (Modbus.PduBuf.fresh m) a = .ok (b, true) → b.content.length ≤ 260) := by
  have hlen : ∀ b : Modbus.PduBuf, b.content.length = b.len := by
    intro b; simp [Modbus.PduBuf.content, memRead]
  refine ⟨?_, ?_, ?_⟩
  · intro b h
    rw [hlen]
    simp only [Modbus.isAduValid, Bool.and_eq_true] at h
    have := of_decide_eq_true h.1
    have hA : Modbus.maxAduLen = 260 := rfl
    omega
  · intro m a b h1 h2 h
    obtain ⟨b', ok, e, _, _, h3⟩ := Modbus.encodeReq_eq m a h1 h2
    rw [e] at h; cases h
    have := h3 rfl
    rw [hlen, this.1.2.1]; exact this.2
  · intro m a b h2 h
    obtain ⟨b', ok, e, _, _, h3⟩ := Modbus.encodeRsp_eq m a h2
    rw [e] at h; cases h
    have := h3 rfl
    rw [hlen, this.1.2.1]; exact this.2

/-- C70: with the levels the program sets, exactly the lines of the Modbus component and of the controller are not printed. -/
theorem C70_default (s : Site) (hs : s ∈ sites) (vs : List Value) (hv : AllFit s.args vs) :
    log initial s vs = .ok none ↔ s.task = .MODBUS ∨ s.task = .CTRL := by
  obtain ⟨r, e, h, _⟩ := C70_fits initial s hs vs hv
  have hl : s.level.num < 4 := by
    have := List.all_eq_true.1 (show sites.all (fun s => decide (s.level.num < 4)) = true by decide +kernel) s hs
    simpa using this
  rw [e]
  have hi : (initial s.task).num = if s.task = .MODBUS ∨ s.task = .CTRL then 4 else 0 := by
    cases s.task <;> rfl
  rw [hi] at h
  constructor
  · intro hr
    cases hr
    by_cases hc : s.task = .MODBUS ∨ s.task = .CTRL
    · exact hc
    · rw [if_neg hc] at h
      exact absurd (h.2 (Nat.zero_le _)) (by simp)
  · intro hc
    rw [if_pos hc] at h
    cases r with
    | none => rfl
    | some t => exact absurd (h.1 rfl) (by omega)

/-- A received frame is printed. -/
example : log (fun _ => .LD) ⟨"modbus/server/session/ModbusSession.cpp", 130, .MODBUS, .LD, chars! "Session-%u, RX PDU %s", [.uint, .frame]⟩
    [.uint 7, .str (frameText [0, 1, 0xaf])] = .ok (some (chars! "Session-7, RX PDU :00:01:af")) := by decide +kernel

/-- A frame of 512 bytes, the size of the buffer, would not fit. -/
example : ∃ bytes : List UInt8, bytes.length = 512 ∧
    log (fun _ => .LD) ⟨"", 0, .MODBUS, .LD, chars! "Session-%u, RX PDU %s", [.uint, .frame]⟩ [.uint 7, .str (frameText bytes)] = .ub :=
  ⟨List.replicate 512 0, List.length_replicate, by decide +kernel⟩

example : sites.length = 372 := by decide +kernel

end Uscada.Log
