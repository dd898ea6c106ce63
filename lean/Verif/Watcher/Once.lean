import Verif.Watcher.AgainProps

/-
C220: a watcher started once is the watcher of C55; and one processor at a time empties the channel.
-/

namespace Verif.Watcher.Again

open Verif

variable {P G R U : Type} [DecidableEq P] [DecidableEq U]

/-! ### Started once -/

/-- The place of the processor. (Specification: no counterpart in the code.) -/
def place : Watcher.Proc P → Proc P
  | .idle => .idle
  | .drained => .drained
  | .sending ps => .sending ps

/-- A watcher that was started once, as one that may be started again. (Specification: no counterpart in the code.) -/
def embed (s : Watcher.State P U) : State P U :=
  { fwds := [{ raw := s.raw, paths := s.paths, held := s.held, stopped := s.stopped, ended := s.ended }]
    procs := [place s.proc], queue := s.queue, pending := s.pending, resources := s.resources }

/-- The steps that make up a step of a watcher that was started once: the processor empties the channel, in which there
are `n` events, one by one. (Specification: no counterpart in the code.) -/
def steps (n : Nat) : Watcher.Op P U → List (Op P U)
  | .os k ps => [.os 0 k ps]
  | .take => [.take 0]
  | .stamp now => [.stamp 0 now]
  | .push => [.push 0]
  | .finish => [.finish 0]
  | .drain => .lock 0 :: (List.replicate n (.recv 0) ++ [.unlock 0])
  | .tick now => [.tick 0 now]
  | .emit => [.emit 0]
  | .add u => [.add u]
  | .remove u => [.remove u]
  | .stop => [.stop]

/-- What is seen then: of the emptying of the channel, each event in it. (Specification: no counterpart in the code.) -/
def shown (q : List (Ev P)) : Watcher.Out P U → List (Out P U)
  | .arrived e => [.arrived e]
  | .drained => q.map .seen
  | .round now due => [.round now due]
  | .notified u => [.notified u]

theorem run_one (cfg : Config P G R U) (s : State P U) (op : Op P U) : run cfg s [op] = step cfg s op := by
  simp only [run]
  cases step cfg s op with
  | none => rfl
  | some x => simp

theorem recvs (cfg : Config P G R U) (q : List (Ev P)) (s : State P U) (hq : s.queue = q)
    (hp : s.procs = [.draining]) :
    run cfg s (List.replicate q.length (.recv 0) ++ [.unlock 0]) = some ({ s with
      queue := [], pending := q.foldl (fun m e => AMap.insert m e.path e) s.pending, procs := [.drained] },
      q.map .seen) := by
  induction q generalizing s with
  | nil => simp [run, step, hq, hp]
  | cons e q ih =>
    have h1 : step cfg s (.recv 0) =
        some ({ s with queue := q, pending := AMap.insert s.pending e.path e }, [.seen e]) := by
      simp [step, hp, hq]
    simp only [List.length_cons, List.replicate_succ, List.cons_append, run, h1]
    rw [ih { s with queue := q, pending := AMap.insert s.pending e.path e } rfl hp]
    simp

/-- **C220**. A watcher that was started once is the watcher of C55: each of its steps is, step by step, possible here
exactly if it is there, and leads to the same state with the same things seen. -/
theorem C220_once_step (cfg : Config P G R U) (s : Watcher.State P U) (op : Watcher.Op P U) :
    run cfg (embed s) (steps s.queue.length op) =
      (Watcher.step cfg s op).map (fun r => (embed r.1, r.2.flatMap (shown s.queue))) := by
  cases op with
  | drain =>
    cases hp : s.proc with
    | idle =>
      have h1 : step cfg (embed s) (.lock 0) = some ({ embed s with procs := [.draining] }, []) := by
        simp [step, embed, hp, place, locked]
      simp only [steps, run, h1]
      rw [recvs cfg s.queue { embed s with procs := [.draining] } rfl rfl]
      simp [Watcher.step, hp, embed, place, shown]
    | drained => simp [steps, run, step, embed, hp, place, Watcher.step]
    | sending ps => simp [steps, run, step, embed, hp, place, Watcher.step]
  | os k ps =>
    simp only [steps, run_one, step, Watcher.step, embed, List.getElem?_cons_zero]
    split <;> rfl
  | take =>
    simp only [steps, run_one, step, Watcher.step, embed, List.getElem?_cons_zero]
    split <;> first | rfl | (split <;> simp_all)
  | stamp now =>
    simp only [steps, run_one, step, Watcher.step, embed, List.getElem?_cons_zero]
    cases hh : s.held <;> cases hp : s.paths <;> simp
    split <;> rfl
  | push =>
    simp only [steps, run_one, step, Watcher.step, embed, List.getElem?_cons_zero, List.length_cons, List.length_nil]
    cases hh : s.held <;> simp
    split <;> simp [shown]
  | finish =>
    simp only [steps, run_one, step, Watcher.step, embed, List.getElem?_cons_zero]
    cases s.stopped <;> cases s.ended <;> cases s.held <;> cases s.paths <;> simp
  | tick now =>
    simp only [steps, run_one, step, Watcher.step, embed, List.getElem?_cons_zero]
    cases s.proc <;> simp [place, shown]
  | emit =>
    simp only [steps, run_one, step, Watcher.step, embed, List.getElem?_cons_zero]
    cases hp : s.proc with
    | idle => simp [place]
    | drained => simp [place]
    | sending ps =>
      cases ps with
      | nil => simp [place]
      | cons p ps => simp only [place]; split <;> simp [shown, place]
  | add u =>
    simp only [steps, run_one, step, Watcher.step, embed]
    split <;> simp
  | remove u => simp [steps, run_one, step, Watcher.step, embed]
  | stop => simp [steps, run_one, step, Watcher.step, embed]

/-- The notifications among what is seen. (Specification: no counterpart in the code.) -/
def notes (tr : List (Out P U)) : List U := tr.filterMap (fun | .notified u => some u | _ => none)

/-- **C220**. Every execution of the watcher of C55 is one of this watcher after one `start`, with the same
notifications in the same order. -/
theorem C220_once (cfg : Config P G R U) (l : List (Watcher.Op P U)) (s : Watcher.State P U) (tr : List (Watcher.Out P U))
    (h : Watcher.run cfg Watcher.init l = some (s, tr)) :
    ∃ k tr', run cfg {} (.start :: k) = some (embed s, tr') ∧ notes tr' = notifications tr ∧ starts k = 0 := by
  have main : ∀ (l : List (Watcher.Op P U)) (s0 s : Watcher.State P U) (tr : List (Watcher.Out P U)),
      Watcher.run cfg s0 l = some (s, tr) →
      ∃ k tr', run cfg (embed s0) k = some (embed s, tr') ∧ notes tr' = notifications tr ∧ starts k = 0 := by
    intro l
    induction l with
    | nil => intro s0 s tr h; cases h; exact ⟨[], [], rfl, rfl, rfl⟩
    | cons op l ih =>
      intro s0 s tr h
      simp only [Watcher.run] at h
      split at h
      · cases h
      · next s1 o hs =>
        split at h
        · cases h
        · next s2 o2 hr =>
          simp only [Option.some.injEq, Prod.mk.injEq] at h
          obtain ⟨rfl, rfl⟩ := h
          obtain ⟨k, tr', h1, h2, h3⟩ := ih s1 s2 o2 hr
          have hstep := C220_once_step cfg s0 op
          rw [hs] at hstep
          refine ⟨steps s0.queue.length op ++ k, o.flatMap (shown s0.queue) ++ tr', ?_, ?_, ?_⟩
          · rw [run_append, hstep]
            simp [h1]
          · have hq : ∀ q : List (Ev P), notes (q.map Out.seen : List (Out P U)) = [] := by
              intro q; induction q with
              | nil => rfl
              | cons e q ih => simpa [notes] using ih
            have ho : ∀ o : List (Watcher.Out P U), notes (o.flatMap (shown s0.queue)) = notifications o := by
              intro o
              induction o with
              | nil => rfl
              | cons x o ih =>
                have ha : ∀ a b : List (Out P U), notes (a ++ b) = notes a ++ notes b := fun a b => by
                  simp [notes, List.filterMap_append]
                rw [List.flatMap_cons, ha, ih]
                cases x <;> simp [shown, notes, notifications] <;> simpa [notes] using hq s0.queue
            have ha : ∀ a b : List (Out P U), notes (a ++ b) = notes a ++ notes b := fun a b => by
              simp [notes, List.filterMap_append]
            rw [ha, ho, h2]
            simp [notifications, List.filterMap_append]
          · have hk : starts (steps s0.queue.length op) = 0 := by
              cases op <;> simp [steps, starts]
            simp only [starts, List.countP_append] at hk h3 ⊢
            omega
  obtain ⟨k, tr', h1, h2, h3⟩ := main l Watcher.init s tr h
  refine ⟨k, tr', ?_, h2, h3⟩
  have : step cfg ({} : State P U) .start = some (embed Watcher.init, []) := by
    simp [step, locked, embed, Watcher.init, place]
  simp only [run, this, h1]
  simp

/-! ### One processor at a time -/

/-- Processors emptying the channel. (Specification: no counterpart in the code.) -/
def emptying (ps : List (Proc P)) : Nat := ps.countP (fun p => decide (p = .draining))

theorem locked_iff (s : State P U) : locked s = true ↔ 0 < emptying s.procs := by
  simp only [locked, emptying, List.any_eq_true, List.countP_pos_iff]

theorem emptying_set (ps : List (Proc P)) (j : Nat) (x y : Proc P) (h : ps[j]? = some x) :
    emptying (ps.set j y) + (if x = .draining then 1 else 0) = emptying ps + (if y = .draining then 1 else 0) := by
  induction ps generalizing j with
  | nil => simp at h
  | cons p ps ih =>
    cases j with
    | zero =>
      simp only [List.getElem?_cons_zero, Option.some.injEq] at h
      subst h
      simp only [emptying, List.set_cons_zero, List.countP_cons, decide_eq_true_eq]
      omega
    | succ j =>
      have := ih j (by simpa using h)
      simp only [emptying, List.set_cons_succ, List.countP_cons, decide_eq_true_eq] at this ⊢
      omega

/-- **C220**. However often the watcher is started, at most one processor at a time takes events from the channel, and
the watcher cannot be started while one does. -/
theorem C220_one_at_a_time (cfg : Config P G R U) (l : List (Op P U)) (s : State P U) (tr : List (Out P U))
    (h : run cfg {} l = some (s, tr)) :
    emptying s.procs ≤ 1 ∧ (step cfg s .start = none ↔ emptying s.procs = 1) := by
  have main : emptying s.procs ≤ 1 := by
    induction l using snocInduction generalizing s tr with
    | nil => cases h; simp [emptying]
    | append_singleton l op ih =>
      obtain ⟨s1, tr1, o, h1, h2, rfl⟩ := run_snoc h
      have i := ih s1 tr1 h1
      cases op with
      | start =>
        simp only [step] at h2
        split at h2
        · cases h2
        · cases h2; simpa [emptying, List.countP_append] using i
      | stop => simp only [step] at h2; cases h2; exact i
      | add u => simp only [step] at h2; split at h2 <;> cases h2 <;> exact i
      | remove u => simp only [step] at h2; cases h2; exact i
      | lock j =>
        simp only [step] at h2
        split at h2
        · next hj =>
          split at h2
          · cases h2
          · next hl =>
            cases h2
            have := emptying_set s1.procs j .idle .draining hj
            have hz : ¬ 0 < emptying s1.procs := fun h => hl ((locked_iff s1).mpr h)
            simp at this ⊢
            omega
        · cases h2
      | unlock j =>
        simp only [step] at h2
        split at h2
        · next hj _ =>
          cases h2
          have := emptying_set s1.procs j .draining .drained hj
          simp at this ⊢
          omega
        · cases h2
      | tick j now =>
        simp only [step] at h2
        split at h2
        · next hj =>
          cases h2
          have := emptying_set s1.procs j .drained
            (.sending ((s1.pending.filter (isDue cfg now)).map Prod.fst)) hj
          simp at this ⊢
          omega
        · cases h2
      | emit j =>
        simp only [step] at h2
        split at h2
        · next hj =>
          cases h2
          have := emptying_set s1.procs j (.sending []) .idle hj
          simp at this ⊢
          omega
        · next p ps hj =>
          cases h2
          have := emptying_set s1.procs j (.sending (p :: ps)) (.sending ps) hj
          simp at this ⊢
          omega
        · cases h2
      | recv j =>
        simp only [step] at h2
        split at h2
        · cases h2; exact i
        · cases h2
      | os i' k ps => simp only [step] at h2; repeat' split at h2
                      all_goals (cases h2; try exact i)
      | take i' => simp only [step] at h2; repeat' split at h2
                   all_goals (cases h2; try exact i)
      | stamp i' now => simp only [step] at h2; repeat' split at h2
                        all_goals (cases h2; try exact i)
      | push i' => simp only [step] at h2; repeat' split at h2
                   all_goals (cases h2; try exact i)
      | finish i' => simp only [step] at h2; repeat' split at h2
                     all_goals (cases h2; try exact i)
  refine ⟨main, ?_⟩
  have := locked_iff s
  by_cases hl : locked s = true
  · have := this.mp hl
    simp only [step, hl, if_true, true_iff]; omega
  · have h0 : ¬ 0 < emptying s.procs := fun h => hl (this.mpr h)
    simp only [step, if_neg hl]
    simp; omega

/-! ### Old forwarders -/

/-- **C220**. Whoever calls `start` or `stop` makes every forwarder there is end: a forwarder that was told to stop ends
as soon as it has nothing in hand, and from then on it takes no more reports. -/
theorem C220_forwarders_end (cfg : Config P G R U) (s s' : State P U) (o : List (Out P U)) (op : Op P U)
    (hop : op = .start ∨ op = .stop) (h : step cfg s op = some (s', o)) (i : Nat) (f : Fwd P) (hi : s.fwds[i]? = some f) :
    ∃ f', s'.fwds[i]? = some f' ∧ f'.stopped = true ∧ f'.raw = f.raw ∧ f'.paths = f.paths ∧ f'.held = f.held ∧
      (f.ended = false → f.held = none → f.paths = [] →
        ∃ s2 f2, step cfg s' (.finish i) = some (s2, []) ∧ s2.fwds[i]? = some f2 ∧ f2.ended = true ∧
          ∀ k ps, step cfg s2 (.os i k ps) = some (s2, []) ∧ step cfg s2 (.take i) = none) := by
  have hlt : i < s.fwds.length := (List.getElem?_eq_some_iff.mp hi).1
  have hget : s'.fwds[i]? = some { f with stopped := true } := by
    rcases hop with rfl | rfl
    · simp only [step] at h
      split at h
      · cases h
      · cases h
        rw [List.getElem?_append_left (by simpa using hlt)]
        simp [hi]
    · simp only [step] at h
      cases h
      simp [hi]
  have hlt' : i < s'.fwds.length := (List.getElem?_eq_some_iff.mp hget).1
  refine ⟨_, hget, rfl, rfl, rfl, rfl, fun he hh hp => ?_⟩
  refine ⟨{ s' with fwds := s'.fwds.set i { f with stopped := true, ended := true, raw := [] } },
    { f with stopped := true, ended := true, raw := [] }, ?_, ?_, rfl, fun k ps => ?_⟩
  · simp [step, hget, he, hh, hp]
  · simp [hlt']
  · simp [step, hlt']

/-! ### Concrete cases -/

/-- A watcher started once: a change of 4 is reported once it has rested. -/
example : ∃ s k tr', run exampleConfig {} (.start :: k) = some (embed s, tr') ∧ notes tr' = [1004] ∧ starts k = 0 := by
  obtain ⟨k, tr', h1, h2, h3⟩ := C220_once exampleConfig
    [.add 1004, .os .modified [4], .take, .stamp 0, .push, .drain, .tick 100, .emit] _ _ rfl
  exact ⟨_, k, tr', h1, h2, h3⟩

/-- Two processors; the first is emptying the channel, so the second waits. -/
example : (run exampleConfig ({} : State Nat Nat) [.start, .start, .lock 0]).any
    (fun r => decide (emptying r.1.procs = 1) && (step exampleConfig r.1 (.lock 1)).isNone &&
      (step exampleConfig r.1 .start).isNone) = true := by decide

/-- The first forwarder, idle, is told to stop by the second `start`. -/
example : ∃ s s', run exampleConfig ({} : State Nat Nat) [.start] = some (s, []) ∧
    step exampleConfig s .start = some (s', []) ∧ s.fwds[0]? = some ({} : Fwd Nat) :=
  ⟨_, _, rfl, rfl, rfl⟩

end Verif.Watcher.Again
