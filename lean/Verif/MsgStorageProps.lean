import Verif.MsgStorage
/-!
# C03: the mailbox returns messages byte for byte, in order
-/

namespace Uscada.MsgStorage

/-- One call on the mailbox. -/
inductive Op where
  | push (m : List UInt8)
  | pop
deriving DecidableEq, Repr

/-- What the caller observes. -/
inductive Out where
  | accepted
  | refused
  | message (m : List UInt8)
  | nothing
deriving DecidableEq, Repr

/-- Observations of a sequence of calls on the modelled mailbox. -/
def run (d : Nat) (s : MsgStorage) : List Op → Exec (List Out)
  | [] => .ok []
  | .push m :: ops => do
    let (s', r) ← s.push m
    let os ← run d s' ops
    pure ((if r then .accepted else .refused) :: os)
  | .pop :: ops => do
    let (s', r) ← s.pop d
    let os ← run d s' ops
    pure ((match r with | some m => .message m | none => .nothing) :: os)

/-- Specification: a bounded FIFO of at most `n` messages. -/
def mailbox (n : Nat) : List (List UInt8) → List Op → List Out
  | _, [] => []
  | l, .push m :: ops =>
    if l.length < n then .accepted :: mailbox n (l ++ [m]) ops else .refused :: mailbox n l ops
  | [], .pop :: ops => .nothing :: mailbox n [] ops
  | m :: l, .pop :: ops => .message m :: mailbox n l ops

/-- Every message fits its slot together with the 8-byte length. -/
def fits (c : Nat) : Op → Prop
  | .push m => m.length + 8 ≤ c
  | .pop => True

instance (c : Nat) (op : Op) : Decidable (fits c op) := by
  cases op <;> unfold fits <;> infer_instance

private theorem run_of_rep {c n d : Nat} (hc : c < 2 ^ 64) (hd : c ≤ d + 8) (ops : List Op) :
    ∀ s l, Rep c n s l → (∀ op ∈ ops, fits c op) → run d s ops = .ok (mailbox n l ops) := by
  induction ops with
  | nil => intro s l _ _; cases l <;> rfl
  | cons op ops ih =>
    intro s l h hf
    have hf' : ∀ op ∈ ops, fits c op := fun o ho => hf o (by simp [ho])
    cases op with
    | push m =>
      have hm : m.length + 8 ≤ c := hf (.push m) (by simp)
      have hmb : mailbox n l (.push m :: ops) =
          if l.length < n then .accepted :: mailbox n (l ++ [m]) ops
          else .refused :: mailbox n l ops := by cases l <;> rfl
      rw [hmb]
      by_cases hl : l.length < n
      · obtain ⟨s', h1, h2⟩ := h.push hl m hm hc
        simp [run, h1, ih s' _ h2 hf', hl]
      · have := h.length_le
        simp [run, h.push_full (by omega) m, ih s _ h hf', hl]
    | pop =>
      cases l with
      | nil => simp [run, h.pop_empty d, ih s _ h hf', mailbox]
      | cons m l =>
        obtain ⟨s', h1, h2⟩ := h.pop hd
        simp [run, h1, ih s' _ h2 hf', mailbox]

/-- C03 (partial: messages that fit their slot together with its 8-byte length, i.e. at most
`chunkSize - 8` bytes).  For every slot size, number of slots, initial memory content and sequence of
calls, the observations are exactly those of a bounded FIFO of messages: a message is accepted exactly
when fewer than `numChunks` wait, and every accepted message comes out once, unmodified, in order. -/
theorem C03_mailbox_fifo_partial (chunkSize numChunks slack d : Nat) (mem : Mem)
    (h0 : 0 < numChunks) (h1 : numChunks < Queue.szMod) (hc : chunkSize < 2 ^ 64)
    (hd : chunkSize ≤ d + 8) (ops : List Op) (hf : ∀ op ∈ ops, fits chunkSize op) :
    (create chunkSize numChunks slack mem >>= fun s => run d s ops)
      = .ok (mailbox numChunks [] ops) := by
  obtain ⟨s, h2, h3⟩ := rep_create (chunkSize := chunkSize) h0 h1 slack mem
  simp [h2, run_of_rep hc hd ops s [] h3 hf]

/-- The parameters used by every reactor (Reactor.cpp:23: 64 slots of `maxMsgSize` = 4096 bytes,
local buffer of 4096 bytes) meet the theorem for messages of at most 4088 bytes. -/
theorem C03_reactor_mailbox_partial (slack : Nat) (mem : Mem) (ops : List Op)
    (hf : ∀ op ∈ ops, fits 4096 op) :
    (create 4096 64 slack mem >>= fun s => run 4096 s ops) = .ok (mailbox 64 [] ops) :=
  C03_mailbox_fifo_partial 4096 64 slack 4096 mem (by decide) (by decide) (by decide) (by decide)
    ops hf

/-- Non-vacuity: slots are reused and the mailbox is full once. -/
example : (∀ op ∈ [Op.push [1, 2], .push [], .push [3], .pop, .push [4, 5, 6], .pop, .pop, .pop],
      fits 16 op) ∧
    mailbox 2 [] [Op.push [1, 2], .push [], .push [3], .pop, .push [4, 5, 6], .pop, .pop, .pop]
      = [.accepted, .accepted, .refused, .message [1, 2], .accepted, .message [], .message [4, 5, 6],
         .nothing] := by decide

/-- What is missing in C03: with the parameters of the real reactors, a message of 4096 bytes (which
the message buffer and the size assertion permit) overwrites the length of the next slot.  Sixty-four
empty messages are stored, one is taken, a 4096-byte message is stored; taking the next message is
undefined behaviour (a copy of 2^64-1 bytes). -/
theorem C03_oversize_message_violated :
    (create 4096 64 15 (fun _ => 0) >>= fun s =>
      run 4096 s (List.replicate 64 (.push []) ++
        [.pop, .push (List.replicate 4096 255), .pop])) = .ub := by
  decide +kernel

end Uscada.MsgStorage
