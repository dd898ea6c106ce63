import Verif.Common.AMap

/-
Model of `MessageDebouncer`, `/repo/src/utils/batching.rs` L235-463.

`add` runs four sections: insert into `pending`, remove and abort the old timer task, spawn the new
one, store its handle.  The timer task sleeps, takes the notification out of `pending`, sends it and
removes its key from `timers`.  `flush` aborts all timers and then drains `pending`.  Each section is
one step and every interleaving is an execution.

Time is abstracted: a sleeping task may wake at any moment (the wait times of
/repo/src/utils/batching.rs L329-334 only restrict which interleavings are likely).  An aborted task
dies at the next point where it is suspended; it may still proceed until then.  A send is suspended
only while the channel is full.
-/

namespace Verif.Debouncer

variable {K N : Type} [DecidableEq K] [DecidableEq N]

/-- Where a timer task is, /repo/src/utils/batching.rs L357-373. -/
inductive Phase (N : Type) where
  /-- before `pending.lock().await` (L358-362) -/
  | sleeping
  /-- holds the notification taken out of `pending` and awaits `tx.send` (L365-368) -/
  | sending (n : N)
  /-- before `timers.remove` (L370-372) -/
  | cleaning
  deriving DecidableEq

/-- A timer task, /repo/src/utils/batching.rs L357. -/
structure Task (K N : Type) where
  id : Nat
  key : K
  phase : Phase N
  aborted : Bool
  deriving DecidableEq

/-- Where a call of `add` is: after the insertion (/repo/src/utils/batching.rs L337-340), after the
abort (L343-348), or after the spawn with the id of the task (L357). -/
inductive AddPhase where
  | inserted
  | cancelled
  | spawned (task : Nat)
  deriving DecidableEq

/-- A running call of `add`. /repo/src/utils/batching.rs L326-382. -/
structure Adder (K : Type) where
  id : Nat
  key : K
  phase : AddPhase
  deriving DecidableEq

/-- The debouncer, /repo/src/utils/batching.rs L235-242: `pending`, `timers`, the channel; with the live
tasks, the running calls, the number of `flush` calls between their two sections, what `receive` and
`flush` returned. -/
structure State (K N : Type) where
  pending : AMap K N := []
  timers : AMap K Nat := []
  tasks : List (Task K N) := []
  adders : List (Adder K) := []
  flushing : Nat := 0
  next : Nat := 0
  chan : List N := []
  received : List N := []
  flushed : List N := []
  deriving DecidableEq

/-- Capacity of the channel, /repo/src/utils/batching.rs L282. -/
def cap : Nat := 100

/-- Steps.  The key of the task is part of the `wake` step. /repo/src/utils/batching.rs L326-463. -/
inductive Op (K N : Type) where
  | insert (a : Nat) (k : K) (n : N)
  | cancel (a : Nat)
  | spawn (a : Nat)
  | store (a : Nat)
  | wake (t : Nat) (k : K)
  | sent (t : Nat)
  | clean (t : Nat)
  | die (t : Nat)
  | recv
  | flushTimers
  | flushPending
  deriving DecidableEq

/-- The running call `a`. (/repo/src/utils/batching.rs L326-382.) -/
def adder (s : State K N) (a : Nat) : Option (Adder K) := s.adders.find? (fun x => decide (x.id = a))

/-- The live task `t`. (/repo/src/utils/batching.rs L326-382.) -/
def task (s : State K N) (t : Nat) : Option (Task K N) := s.tasks.find? (fun x => decide (x.id = t))

/-- Change the phase of call `a`. (/repo/src/utils/batching.rs L326-382.) -/
def setAdder (s : State K N) (a : Nat) (p : AddPhase) : List (Adder K) :=
  s.adders.map (fun x => if x.id = a then { x with phase := p } else x)

/-- Change the phase of task `t`. (/repo/src/utils/batching.rs L326-382.) -/
def setTask (s : State K N) (t : Nat) (p : Phase N) : List (Task K N) :=
  s.tasks.map (fun x => if x.id = t then { x with phase := p } else x)

/-- `handle.abort()` on the tasks with these ids. (/repo/src/utils/batching.rs L326-382.) -/
def abortAll (tasks : List (Task K N)) (ids : List Nat) : List (Task K N) :=
  tasks.map (fun x => if x.id ∈ ids then { x with aborted := true } else x)

/-- Remove task `t` (finished or dead). (/repo/src/utils/batching.rs L326-382.) -/
def endTask (s : State K N) (t : Nat) : List (Task K N) :=
  s.tasks.filter (fun x => !decide (x.id = t))

/-- The task is suspended at an await point where an abort takes effect: while sleeping or waiting for a
lock, and while sending only if the channel is full. (/repo/src/utils/batching.rs L326-382.) -/
def suspended (s : State K N) (x : Task K N) : Bool :=
  match x.phase with
  | .sending _ => decide (cap ≤ s.chan.length)
  | _ => true

/-- One step. /repo/src/utils/batching.rs L326-463. -/
def step (s : State K N) : Op K N → Option (State K N)
  -- /repo/src/utils/batching.rs L337-340
  | .insert a k n =>
    match adder s a with
    | some _ => none
    | none => some { s with
        pending := AMap.insert s.pending k n
        adders := s.adders ++ [⟨a, k, .inserted⟩] }
  -- /repo/src/utils/batching.rs L343-348
  | .cancel a =>
    match adder s a with
    | some ⟨_, k, .inserted⟩ =>
      match AMap.get s.timers k with
      | none => some { s with adders := setAdder s a .cancelled }
      | some t => some { s with
          timers := AMap.remove s.timers k
          tasks := abortAll s.tasks [t]
          adders := setAdder s a .cancelled }
    | _ => none
  -- /repo/src/utils/batching.rs L351-373
  | .spawn a =>
    match adder s a with
    | some ⟨_, k, .cancelled⟩ => some { s with
        tasks := s.tasks ++ [⟨s.next, k, .sleeping, false⟩]
        adders := setAdder s a (.spawned s.next)
        next := s.next + 1 }
    | _ => none
  -- /repo/src/utils/batching.rs L376-379 (the old handle, if any, is dropped, which detaches its task)
  | .store a =>
    match adder s a with
    | some ⟨_, k, .spawned t⟩ => some { s with
        timers := AMap.insert s.timers k t
        adders := s.adders.filter (fun x => !decide (x.id = a)) }
    | _ => none
  -- /repo/src/utils/batching.rs L358-364
  | .wake t k =>
    match task s t with
    | some ⟨_, k', .sleeping, _⟩ =>
      if k' = k then
        match AMap.get s.pending k with
        | some n => some { s with
            pending := AMap.remove s.pending k
            tasks := setTask s t (.sending n) }
        | none => some { s with tasks := setTask s t .cleaning }
      else none
    | _ => none
  -- /repo/src/utils/batching.rs L365-368
  | .sent t =>
    match task s t with
    | some ⟨_, _, .sending n, _⟩ =>
      if s.chan.length < cap then
        some { s with chan := s.chan ++ [n], tasks := setTask s t .cleaning }
      else none
    | _ => none
  -- /repo/src/utils/batching.rs L370-372
  | .clean t =>
    match task s t with
    | some ⟨_, k, .cleaning, _⟩ => some { s with
        timers := AMap.remove s.timers k
        tasks := endTask s t }
    | _ => none
  -- an aborted task is dropped where it is suspended; a notification it holds is dropped with it
  | .die t =>
    match task s t with
    | some x => if x.aborted ∧ suspended s x then some { s with tasks := endTask s t } else none
    | none => none
  -- /repo/src/utils/batching.rs L408-410
  | .recv =>
    match s.chan with
    | [] => none
    | n :: rest => some { s with chan := rest, received := s.received ++ [n] }
  -- /repo/src/utils/batching.rs L452-457
  | .flushTimers => some { s with
      timers := []
      tasks := abortAll s.tasks (s.timers.map Prod.snd)
      flushing := s.flushing + 1 }
  -- /repo/src/utils/batching.rs L460-461
  | .flushPending =>
    if s.flushing = 0 then none
    else some { s with
      pending := []
      flushed := s.flushed ++ s.pending.map Prod.snd
      flushing := s.flushing - 1 }

/-- An execution. (Any interleaving of the sections of /repo/src/utils/batching.rs L326-463.) -/
def run (s : State K N) : List (Op K N) → Option (State K N)
  | [] => some s
  | op :: rest =>
    match step s op with
    | none => none
    | some s' => run s' rest

end Verif.Debouncer
