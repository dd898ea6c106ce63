import Verif.Runtime.Model

/-
The WebAssembly runtime: the channel (C168), sleeping (C169) and join handles (C170).
-/

namespace Verif.Runtime

variable {T : Type}

/-! ### C168: the channel -/

/-- The values accepted by `send`, in order: those whose call returned `Ok`.
(Specification: no counterpart in the code.) -/
def accepted : List (Op T) → List (Ret T) → List T
  | .send v :: os, .sent :: rs => v :: accepted os rs
  | _ :: os, _ :: rs => accepted os rs
  | _, _ => []

/-- The values handed out by `recv`, in order. (Specification: no counterpart in the code.) -/
def received : List (Ret T) → List T
  | .got (some v) :: rs => v :: received rs
  | _ :: rs => received rs
  | [] => []

theorem call_closed (c : Chan T) (o : Op T) (h : c.closed = false) : (call c o).1.closed = false := by
  cases o with
  | send v => simp [call, send, h]
  | recv => simp only [call, recv]; cases c.queue <;> exact h

theorem calls_fifo (c : Chan T) (os : List (Op T)) (h : c.closed = false) :
    c.queue ++ accepted os (calls c os).2 = received (calls c os).2 ++ (calls c os).1.queue := by
  induction os generalizing c with
  | nil => simp [calls, accepted, received]
  | cons o os ih =>
    have h2 := ih (call c o).1 (call_closed c o h)
    cases o with
    | send v =>
      simp only [call, send, h, Bool.false_eq_true, if_false] at h2
      simp only [calls, call, send, h, Bool.false_eq_true, if_false, accepted, received]
      rw [← h2]; simp
    | recv =>
      simp only [calls, call, recv] at h2 ⊢
      cases hq : c.queue with
      | nil =>
        simp only [hq] at h2 ⊢
        simp only [accepted, received]
        exact h2
      | cons v q =>
        simp only [hq] at h2 ⊢
        simp only [accepted, received, List.cons_append]
        rw [h2]

/-- C168: whatever the calls, the values received followed by those still waiting are the values sent, in order:
none is lost, repeated or overtaken. -/
theorem C168_fifo (buffer : Nat) (os : List (Op T)) :
    accepted os (calls (channel T buffer) os).2 =
      received (calls (channel T buffer) os).2 ++ (calls (channel T buffer) os).1.queue := by
  have := calls_fifo (channel T buffer) os rfl
  simpa [channel] using this

theorem calls_never_rejects (c : Chan T) (os : List (Op T)) (h : c.closed = false) :
    ∀ v, Ret.rejected v ∉ (calls c os).2 := by
  induction os generalizing c with
  | nil => simp [calls]
  | cons o os ih =>
    intro v hv
    simp only [calls, List.mem_cons] at hv
    rcases hv with hv | hv
    · cases o with
      | send w => simp [call, send, h] at hv
      | recv => simp [call] at hv
    · exact ih _ (call_closed c o h) v hv

/-- C168 fails: sending never fails and never waits, whatever the buffer size: `n` calls of `send` put `n` values
into the queue of a channel made for any number of them. -/
theorem C168_unbounded (buffer : Nat) (vs : List T) :
    (calls (channel T buffer) (vs.map .send)).1.queue = vs ∧
    ∀ v, Ret.rejected v ∉ (calls (channel T buffer) (vs.map .send)).2 := by
  refine ⟨?_, calls_never_rejects _ _ rfl⟩
  have key : ∀ (vs : List T) (c : Chan T), c.closed = false → (calls c (vs.map .send)).1.queue = c.queue ++ vs := by
    intro vs
    induction vs with
    | nil => intro c _; simp [calls]
    | cons v vs ih =>
      intro c h
      simp only [List.map_cons, calls]
      rw [ih _ (call_closed c _ h)]
      simp [call, send, h]
  simpa [channel] using key vs (channel T buffer) rfl

/-- C168, exactly: `recv` returns `None` when nothing is waiting at that moment.  The property asked for, that it
waits for the next value and returns `None` only when no sender is left, fails whenever the receiver looks before a
value is there. -/
theorem C168_recv_partial (c : Chan T) : (recv c).2 = none ↔ c.queue = [] := by
  unfold recv
  cases c.queue <;> simp

/-- The values handled by a receiver that stops at the first `None`: specification by counting.  `n` values wait;
`sizes` are the numbers of values sent before each look. -/
def looks : Nat → List Nat → Nat
  | _, [] => 0
  | n, s :: ss => if n + s = 0 then 0 else 1 + looks (n + s - 1) ss

theorem foldl_send (c : Chan T) (b : List T) (h : c.closed = false) :
    (b.foldl (fun c v => (send c v).1) c).queue = c.queue ++ b ∧
    (b.foldl (fun c v => (send c v).1) c).closed = false := by
  induction b generalizing c with
  | nil => exact ⟨(List.append_nil _).symm, h⟩
  | cons v b ih =>
    have := ih (send c v).1 (by simp [send, h])
    refine ⟨?_, this.2⟩
    rw [List.foldl_cons, this.1]
    simp [send, h]

theorem consume_eq (c : Chan T) (bs : List (List T)) (h : c.closed = false) :
    consume c bs = (c.queue ++ bs.flatten).take (looks c.queue.length (bs.map List.length)) := by
  induction bs generalizing c with
  | nil => simp [consume, looks]
  | cons b bs ih =>
    obtain ⟨hq, hc⟩ := foldl_send c b h
    simp only [consume, List.map_cons, looks, List.flatten_cons]
    unfold recv
    cases hl : (b.foldl (fun c v => (send c v).1) c).queue with
    | nil =>
      rw [hq] at hl
      have hz : c.queue.length + b.length = 0 := by rw [← List.length_append, hl]; rfl
      simp [hz]
    | cons v q =>
      simp only
      rw [hq] at hl
      have hz : ¬ c.queue.length + b.length = 0 := by rw [← List.length_append, hl]; simp
      have hlen : q.length = c.queue.length + b.length - 1 := by rw [← List.length_append, hl]; simp
      rw [if_neg hz, ih ⟨q, _, _⟩ hc]
      simp only [hlen]
      rw [← List.append_assoc, hl, Nat.add_comm 1, List.cons_append, List.take_succ_cons]

/-- C168, exactly: a receiving loop handles the values in order up to its first look at an empty queue, and never
those sent later. -/
theorem C168_loop_partial (buffer : Nat) (bs : List (List T)) :
    consume (channel T buffer) bs = bs.flatten.take (looks 0 (bs.map List.length)) := by
  simpa [channel] using consume_eq (channel T buffer) bs rfl

/-- C168 fails: a receiving loop started before the first value is sent handles nothing, whatever is sent later. -/
theorem C168_loop_ends (buffer : Nat) (bs : List (List T)) : consume (channel T buffer) ([] :: bs) = [] := rfl

/-- `C168_fifo`: three values through a channel for one. -/
example : (calls (channel Nat 1) [.send 1, .send 2, .recv, .send 3, .recv, .recv, .recv]).2 =
    [.sent, .sent, .got (some 1), .sent, .got (some 2), .got (some 3), .got none] := rfl

/-- `C168_loop_partial`: a loop that handles two values and misses the third. -/
example : consume (channel Nat 4) [[1, 2], [], [], [3]] = [1, 2] := rfl

/-! ### C169: sleeping -/

/-- C169, exactly: `sleep` waits at least as long as asked if and only if the duration is a whole number of
milliseconds below 2^31.  The property asked for, that it does for all durations, fails for the others. -/
theorem C169_sleep_partial (nanos : Nat) :
    nanos ≤ sleepsFor nanos ↔ nanos % 1000000 = 0 ∧ nanos / 1000000 < 2147483648 := by
  unfold sleepsFor millis
  simp only
  by_cases h : nanos / 1000000 % 4294967296 < 2147483648
  · rw [if_pos h, Int.toNat_natCast]
    omega
  · rw [if_neg h]
    have : ((nanos / 1000000 % 4294967296 : Nat) : Int) - 4294967296 < 0 := by omega
    rw [Int.toNat_of_nonpos (by omega)]
    omega

/-- C169: it never waits for more milliseconds than asked for. -/
theorem C169_not_longer (nanos : Nat) : sleepsFor nanos ≤ nanos := by
  unfold sleepsFor millis
  simp only
  by_cases h : nanos / 1000000 % 4294967296 < 2147483648
  · rw [if_pos h, Int.toNat_natCast]
    omega
  · rw [if_neg h, Int.toNat_of_nonpos (by omega)]
    omega

/-- C169 fails: a sleep of between 2^31 and 2^32 milliseconds (25 to 49 days) does not wait at all. -/
theorem C169_no_wait (nanos : Nat) (h1 : 2147483648 ≤ nanos / 1000000) (h2 : nanos / 1000000 < 4294967296) :
    sleepsFor nanos = 0 := by
  unfold sleepsFor millis
  simp only
  rw [if_neg (by omega), Int.toNat_of_nonpos (by omega)]

/-- `C169_sleep_partial`: a second and a half is waited for, half a millisecond is not. -/
example : sleepsFor 1500000000 = 1500000000 ∧ sleepsFor 500000 = 0 := by decide

/-- `C169_no_wait`: thirty days. -/
example : 2147483648 ≤ 2592000000000000 / 1000000 ∧ 2592000000000000 / 1000000 < 4294967296 := by decide

/-! ### C170: join handles -/

/-- The results of awaiting a handle `n` times (through `&mut`). (Specification: no counterpart in the code.) -/
def awaits {R : Type} : Nat → Option R → List (Option R)
  | 0, _ => []
  | n + 1, h => (pollHandle h).2 :: awaits n (pollHandle h).1

/-- C170: the first await of the handle of `spawn_blocking(f)` gives the result of `f`; every later one reports an
error rather than the result again. -/
theorem C170_once {R : Type} (f : Unit → R) (n : Nat) :
    awaits (n + 1) (spawnBlocking f) = some (f ()) :: List.replicate n none := by
  have key : ∀ n, awaits n (none : Option R) = List.replicate n none := by
    intro n
    induction n with
    | zero => rfl
    | succ n ih => simp [awaits, pollHandle, ih, List.replicate_succ]
  simp [awaits, pollHandle, spawnBlocking, key]

/-- `C170_once`: three awaits. -/
example : awaits 3 (spawnBlocking (fun _ => 42)) = [some 42, none, none] := rfl

/-! ### C168 and C169, in detail -/

/-- C168: no receiver is ever waiting to be woken, whatever was called, and a call of `send` on an open channel
leaves none waiting. -/
theorem C168_waker (buffer : Nat) (os : List (Op T)) :
    (calls (channel T buffer) os).1.waker = false ∧
    ∀ (c : Chan T) (v : T), c.closed = false → (send c v).1.waker = false := by
  refine ⟨?_, fun c v h => by simp [send, h]⟩
  have key : ∀ (os : List (Op T)) (c : Chan T), c.waker = false → (calls c os).1.waker = false := by
    intro os
    induction os with
    | nil => exact fun c h => h
    | cons o os ih =>
      intro c h
      refine ih _ ?_
      cases o with
      | send v =>
        simp only [call, send]
        by_cases hc : c.closed <;> simp [hc, h]
      | recv =>
        simp only [call, recv]
        cases c.queue <;> exact h
  exact key os _ rfl

/-- C169: the milliseconds given to `setTimeout` are those asked for up to multiples of 2^32, as a 32 bit integer. -/
theorem C169_millis (nanos : Nat) :
    -2147483648 ≤ millis nanos ∧ millis nanos < 2147483648 ∧
    ∃ k : Int, millis nanos + 4294967296 * k = (nanos / 1000000 : Nat) := by
  unfold millis
  simp only
  have h := Nat.mod_add_div (nanos / 1000000) 4294967296
  split
  · refine ⟨by omega, by omega, (nanos / 1000000 / 4294967296 : Nat), by omega⟩
  · refine ⟨by omega, by omega, (nanos / 1000000 / 4294967296 : Nat) + 1, by omega⟩

/-- `C169_millis`: thirty days. -/
example : millis 2592000000000000 = 2592000000 - 4294967296 := by decide

end Verif.Runtime
