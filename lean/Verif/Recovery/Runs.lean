import Verif.Recovery.Props

/-
C224: one executor used again and again. `execute_with_recovery` (/repo/src/error/recovery.rs L458-521) is run for a
sequence of operations, one after the other; the breakers it creates stay (L418-421, L640-653).
-/

namespace Verif.Recovery

open Verif

/-- One use of the executor: the operation's id, what its calls return, the times of the check of the breaker and of
the recording. (/repo/src/error/recovery.rs L458-466.) -/
structure Exec where
  op : Nat
  out : Nat → Res
  t₁ : Nat
  t₂ : Nat

/-- The executor used for each of a list of operations in turn: its breakers, and the uses with their outcomes.
(/repo/src/error/recovery.rs L458-521.) -/
def runs (x : Executor) (l : List Exec) : Breakers × List (Exec × Outcome) :=
  l.foldl (fun s e => ((execute x s.1 e.op e.out e.t₁ e.t₂).1, s.2 ++ [(e, (execute x s.1 e.op e.out e.t₁ e.t₂).2)]))
    ([], [])

theorem runs_snoc (x : Executor) (l : List Exec) (e : Exec) :
    runs x (l ++ [e]) = ((execute x (runs x l).1 e.op e.out e.t₁ e.t₂).1,
      (runs x l).2 ++ [(e, (execute x (runs x l).1 e.op e.out e.t₁ e.t₂).2)]) := by
  simp [runs, List.foldl_append]

/-- The thresholds and the time of the breaker the policy names for the first failure of a use, if it names one.
(Specification: no counterpart in the code.) -/
def consults (x : Executor) (e : Exec) : Option Config :=
  match e.out 0 with
  | .ok _ => none
  | .error er =>
    match (AMap.get x.strategies (codeOf er)).getD x.default with
    | .breaker c => some c
    | _ => none

/-- What a use tells the breaker of its operation, judged by how often the operation was called: a success at the first
call is told if there is a breaker; a first failure is followed by the question whether to go on, and, if the operation
was called again, by the outcome of that call. (Specification: no counterpart in the code.) -/
def told (x : Executor) (known : Bool) (e : Exec) (o : Outcome) : List Ev :=
  match e.out 0 with
  | .ok _ => if known then [.success] else []
  | .error _ =>
    if (consults x e).isSome then
      .allow e.t₁ :: (if o.calls = 2 then [match e.out 1 with | .ok _ => .success | .error _ => .failure e.t₂] else [])
    else []

/-- The breaker an operation has after some uses: the thresholds of the first use that consulted one, and all it was
told. (Specification: no counterpart in the code.) -/
def history (x : Executor) (op : Nat) (h : List (Exec × Outcome)) : Option Config × List Ev :=
  h.foldl (fun s p => if p.1.op = op then (s.1.or (consults x p.1), s.2 ++ told x s.1.isSome p.1 p.2) else s) (none, [])

theorem history_snoc (x : Executor) (op : Nat) (h : List (Exec × Outcome)) (p : Exec × Outcome) :
    history x op (h ++ [p]) = if p.1.op = op then
      ((history x op h).1.or (consults x p.1), (history x op h).2 ++ told x (history x op h).1.isSome p.1 p.2)
      else history x op h := by
  simp [history, List.foldl_append]

theorem history_none (x : Executor) (op : Nat) (h : List (Exec × Outcome)) (hn : (history x op h).1 = none) :
    (history x op h).2 = [] := by
  induction h using Verif.snocInduction with
  | nil => rfl
  | append_singleton h p ih =>
    rw [history_snoc] at hn ⊢
    by_cases ho : p.1.op = op
    · rw [if_pos ho] at hn ⊢
      have h1 : (history x op h).1 = none := by
        cases hc : (history x op h).1 with
        | none => rfl
        | some c => simp [hc] at hn
      have h2 : consults x p.1 = none := by simpa [h1] using hn
      simp only [ih h1, h1, List.nil_append, told, h2]
      cases p.1.out 0 <;> simp
    · rw [if_neg ho] at hn ⊢; exact ih hn

theorem allowed_no_config (x : Executor) (bs : Breakers) (e : Exec) (h : consults x e = none) (hok : ∀ v, e.out 0 ≠ .ok v) :
    (execute x bs e.op e.out e.t₁ e.t₂).1 = bs := by
  cases h0 : e.out 0 with
  | ok v => exact absurd h0 (hok v)
  | error er =>
    simp only [consults, h0] at h
    simp only [execute, h0, getStrategy]
    cases hs : (AMap.get x.strategies (codeOf er)).getD x.default with
    | breaker c => simp [hs] at h
    | fallback => simp only; split <;> rfl
    | _ => rfl

/-- **C224**. At any moment, every operation's breaker is the one a history of non-overlapping calls makes, where the
history is what the uses of that operation told it: so all that was proved of breakers (C38) holds of the executor's.
There is a breaker exactly if a use has consulted one, and its thresholds are those named then for good. -/
theorem C224_history (x : Executor) (l : List Exec) (op : Nat) :
    AMap.get (runs x l).1 op = (history x op (runs x l).2).1.map
      (fun c => (c, after c (history x op (runs x l).2).2)) := by
  induction l using Verif.snocInduction with
  | nil => rfl
  | append_singleton l e ih =>
    rw [runs_snoc]
    simp only [history_snoc]
    by_cases ho : e.op = op
    · rw [if_pos ho]
      subst ho
      generalize hH : history x e.op (runs x l).2 = H at ih ⊢
      obtain ⟨k, evs⟩ := H
      have hk : k = none → evs = [] := by
        intro h
        have := history_none x e.op (runs x l).2 (by rw [hH]; exact h)
        rw [hH] at this; exact this
      simp only at ih ⊢
      cases h0 : e.out 0 with
      | ok v =>
        have hc : consults x e = none := by simp [consults, h0]
        cases k with
        | none => simp [execute, h0, ih, hc]
        | some c =>
          simp only [execute, h0, ih, hc, Option.map_some, Option.or, told, Option.isSome_some, if_true,
            AMap.get_insert_self, after_snoc]
          rfl
      | error er =>
        cases hc : consults x e with
        | none =>
          rw [allowed_no_config x _ e hc (by simp [h0]), ih]
          cases k with
          | none => simp
          | some c => simp [told, h0, hc]
        | some c =>
          have hs : getStrategy x.strategies x.default (codeOf er) = .breaker c := by
            simp only [consults, h0] at hc
            unfold getStrategy
            cases hx : (AMap.get x.strategies (codeOf er)).getD x.default <;> rw [hx] at hc <;> simp at hc
            rw [hc]
          have hg : (AMap.get (runs x l).1 e.op).getD (c, {}) = (k.getD c, after (k.getD c) evs) := by
            cases k with
            | none => simp [ih, hk rfl, after]
            | some c' => simp [ih]
          have hor : k.or (some c) = some (k.getD c) := by cases k <;> rfl
          rw [C39_recorded x _ e.op e.out e.t₁ e.t₂ er c _ _ h0 hs hg, hor, Option.map_some]
          have hex := C39_exact x (runs x l).1 e.op e.out e.t₁ e.t₂
          by_cases ha : allowed (k.getD c) (after (k.getD c) evs) e.t₁ = true
          · have hcalls := (hex.2.1 er c _ _ h0 hs hg ha).1
            rw [if_pos ha]
            simp only [told, h0, hc, Option.isSome_some, if_true, hcalls]
            have hsplit : ∀ v : Ev, evs ++ [Ev.allow e.t₁, v] = (evs ++ [Ev.allow e.t₁]) ++ [v] := by simp
            cases h1 : e.out 1 <;> simp only [hsplit, after_snoc]
          · have ha' : allowed (k.getD c) (after (k.getD c) evs) e.t₁ = false := by simpa using ha
            have hcalls := (hex.2.2.1 er c _ _ h0 hs hg ha').1
            rw [if_neg ha]
            simp [told, h0, hc, hcalls, after_snoc]
    · rw [if_neg ho]
      rw [(C39_exact x (runs x l).1 e.op e.out e.t₁ e.t₂).2.2.2 op (Ne.symm ho)]
      exact ih

/-- **C224**. What the thresholds for closing and the time of an open breaker are worth: a use that succeeds at its
first call closes the operation's breaker unless it is half-open and short of successes. So one success closes an open
breaker at once. Missing from the property: that only successes after the time has passed count. -/
theorem C224_closes_partial (x : Executor) (bs : Breakers) (e : Exec) (v : Nat) (c : Config) (b : Breaker)
    (h0 : e.out 0 = .ok v) (hb : AMap.get bs e.op = some (c, b)) :
    ∃ b', AMap.get (execute x bs e.op e.out e.t₁ e.t₂).1 e.op = some (c, b') ∧
      (b'.state = .closed ↔ b.state ≠ .halfOpen ∨ c.successThreshold ≤ b.successes + 1) ∧
      (b'.state = .closed → b'.failures = 0) ∧ b'.state ≠ .opened := by
  refine ⟨successAct c b b.state, by simp [execute, h0, hb], ?_⟩
  cases hs : b.state with
  | closed => simp [successAct, hs]
  | opened => simp [successAct]
  | halfOpen =>
    by_cases ht : b.successes + 1 ≥ c.successThreshold
    · simp [successAct, ht]
    · simp only [successAct, if_neg ht]
      simp [hs]; omega

/-- **C224**. A failure with an error whose strategy is not a breaker neither asks nor tells any breaker. -/
theorem C224_other_errors (x : Executor) (bs : Breakers) (e : Exec) (er : Err) (h0 : e.out 0 = .error er)
    (hc : consults x e = none) :
    (execute x bs e.op e.out e.t₁ e.t₂).1 = bs ∧
    (execute x bs e.op e.out e.t₁ e.t₂).2 = (execute x [] e.op e.out e.t₁ e.t₂).2 := by
  refine ⟨allowed_no_config x bs e hc (by simp [h0]), ?_⟩
  simp only [consults, h0] at hc
  simp only [execute, h0, getStrategy]
  cases hs : (AMap.get x.strategies (codeOf er)).getD x.default with
  | breaker c => simp [hs] at hc
  | fallback => simp only; split <;> rfl
  | _ => rfl

/-- Uses of one operation whose two calls fail, with errors the policy sends to a breaker with these thresholds.
(Specification: no counterpart in the code.) -/
def Failing (x : Executor) (op : Nat) (c : Config) (e : Exec) : Prop :=
  e.op = op ∧ consults x e = some c ∧ ∃ er, e.out 1 = .error er

/-- Each use begins after the one before it was recorded, and before the time of the breaker has passed since then.
(Specification: no counterpart in the code.) -/
def Soon (c : Config) (a b : Exec) : Prop := a.t₂ ≤ b.t₁ ∧ b.t₁ < a.t₂ + c.timeout

/-- The failures it takes to open a breaker: its threshold, but at least one.
(Specification: no counterpart in the code.) -/
def enough (c : Config) : Nat := max 1 c.failureThreshold

/-- All calls of the operations. (Specification: no counterpart in the code.) -/
def totalCalls (h : List (Exec × Outcome)) : Nat := (h.map (fun p => p.2.calls)).foldl (· + ·) 0

theorem totalCalls_snoc (h : List (Exec × Outcome)) (p : Exec × Outcome) :
    totalCalls (h ++ [p]) = totalCalls h + p.2.calls := by
  simp [totalCalls, List.foldl_append]

theorem consults_error (x : Executor) (e : Exec) (c : Config) (h : consults x e = some c) :
    ∃ er, e.out 0 = .error er ∧ getStrategy x.strategies x.default (codeOf er) = .breaker c := by
  cases h0 : e.out 0 with
  | ok v => simp [consults, h0] at h
  | error er =>
    refine ⟨er, rfl, ?_⟩
    simp only [consults, h0] at h
    unfold getStrategy
    cases hx : (AMap.get x.strategies (codeOf er)).getD x.default <;> rw [hx] at h <;> simp at h
    rw [h]

theorem failing_state (x : Executor) (op : Nat) (c : Config) (l : List Exec) (hl : ∀ e ∈ l, Failing x op c e)
    (hp : l.Pairwise (Soon c)) :
    (∃ b, (AMap.get (runs x l).1 op).getD (c, {}) = (c, b) ∧
      (l.length < enough c → b.state = .closed ∧ b.failures = l.length) ∧
      (enough c ≤ l.length → b.state = .opened ∧ ∃ a ∈ l, b.lastFailure = some a.t₂)) ∧
    totalCalls (runs x l).2 = l.length + min l.length (enough c) ∧
    ∀ i (h : i < (runs x l).2.length), enough c ≤ i →
      ((runs x l).2[i]).2.calls = 1 ∧ ((runs x l).2[i]).2.result = some (.error .circuitOpen) := by
  have hlen : ∀ l : List Exec, (runs x l).2.length = l.length := by
    intro l
    induction l using Verif.snocInduction with
    | nil => rfl
    | append_singleton l e ih => rw [runs_snoc]; simp [ih]
  induction l using Verif.snocInduction with
  | nil =>
    refine ⟨⟨{}, rfl, fun _ => ⟨rfl, rfl⟩, fun h => ?_⟩, by simp [totalCalls, runs], fun i h => by simp [runs] at h⟩
    simp [enough] at h
  | append_singleton l e ih =>
    obtain ⟨⟨b, hb, hclosed, hopen⟩, htot, hres⟩ := ih (fun e he => hl e (by simp [he])) (List.pairwise_append.mp hp).1
    obtain ⟨hop, hc, er1, h1⟩ := hl e (by simp)
    obtain ⟨er, h0, hs⟩ := consults_error x e c hc
    subst hop
    have hrec := C39_recorded x (runs x l).1 e.op e.out e.t₁ e.t₂ er c c b h0 hs hb
    have hex := C39_exact x (runs x l).1 e.op e.out e.t₁ e.t₂
    rw [runs_snoc, totalCalls_snoc, htot]
    simp only [List.length_append, List.length_cons, List.length_nil, Nat.zero_add]
    by_cases hn : l.length < enough c
    · obtain ⟨hst, hfl⟩ := hclosed hn
      have ha : allowed c b e.t₁ = true := by simp [allowed, allowAct, hst]
      have hca : call c b (.allow e.t₁) = b := by simp [call, allowAct, hst]
      have hcalls := (hex.2.1 er c c b h0 hs hb ha).1
      rw [if_pos ha, hca, h1] at hrec
      refine ⟨?_, ?_, ?_⟩
      · rw [hrec]
        by_cases ht : b.failures + 1 ≥ c.failureThreshold
        · refine ⟨_, rfl, fun h => ?_, fun h => ?_⟩
          · exfalso; simp only [enough] at h hn; omega
          · simp only [call, failureAct, hst, if_pos ht]
            exact ⟨trivial, e, by simp, rfl⟩
        · refine ⟨_, rfl, fun h => ?_, fun h => ?_⟩
          · simp only [call, failureAct, hst, if_neg ht]
            exact ⟨trivial, by omega⟩
          · exfalso; simp only [enough] at h hn; omega
      · rw [hcalls]; omega
      · intro i h hi
        simp only [List.length_append, List.length_cons, List.length_nil, hlen] at h
        exfalso; omega
    · obtain ⟨hst, a, ha, hlast⟩ := hopen (by omega)
      have hsoon := (List.pairwise_append.mp hp).2.2 a ha e (by simp)
      have hno : ¬ (e.t₁ - a.t₂ ≥ c.timeout) := by have := hsoon.1; have := hsoon.2; omega
      have hal : allowed c b e.t₁ = false := by simp [allowed, allowAct, hst, hlast, hno]
      have hca : call c b (.allow e.t₁) = b := by simp [call, allowAct, hst, hlast, hno]
      have hcalls := hex.2.2.1 er c c b h0 hs hb hal
      rw [hal, if_neg (by simp), hca] at hrec
      refine ⟨⟨b, by rw [hrec]; rfl, fun h => by omega, fun _ => ⟨hst, a, by simp [ha], hlast⟩⟩, ?_, ?_⟩
      · rw [hcalls.1]; omega
      · intro i h hi
        by_cases hil : i < (runs x l).2.length
        · rw [List.getElem_append_left hil]; exact hres i hil hi
        · rw [List.getElem_append_right (by omega)]
          simp only [List.getElem_singleton]
          exact hcalls

/-- **C224**. An operation that always fails, used `n` times within the time of its breaker by a fresh executor: its
breaker opens with the use that makes the failures enough, later uses report the open circuit, and still the operation is
called once in every use, twice until then: `n + min n enough` times, where a breaker that guards the operation would let
`min n enough` calls through. -/
theorem C224_always_failing (x : Executor) (op : Nat) (c : Config) (l : List Exec) (hl : ∀ e ∈ l, Failing x op c e)
    (hp : l.Pairwise (Soon c)) :
    totalCalls (runs x l).2 = l.length + min l.length (enough c) ∧
    (∀ i (h : i < (runs x l).2.length), enough c ≤ i →
      ((runs x l).2[i]).2.calls = 1 ∧ ((runs x l).2[i]).2.result = some (.error .circuitOpen)) ∧
    (l ≠ [] → ∃ b, AMap.get (runs x l).1 op = some (c, b) ∧ (b.state = .opened ↔ enough c ≤ l.length)) := by
  obtain ⟨⟨b, hb, hcl, hop⟩, ht, hr⟩ := failing_state x op c l hl hp
  refine ⟨ht, hr, fun hne => ?_⟩
  have hk : ∃ q, AMap.get (runs x l).1 op = some q := by
    obtain ⟨l', e, rfl⟩ : ∃ l' e, l = l' ++ [e] := ⟨l.dropLast, l.getLast hne, (List.dropLast_concat_getLast hne).symm⟩
    obtain ⟨h1, h2, h3⟩ := hl e (by simp)
    obtain ⟨er, h0, hs⟩ := consults_error x e c h2
    subst h1
    rw [runs_snoc]
    exact ⟨_, C39_recorded x (runs x l').1 e.op e.out e.t₁ e.t₂ er c _ _ h0 hs rfl⟩
  obtain ⟨q, hq⟩ := hk
  rw [hq, Option.getD_some] at hb
  refine ⟨b, by rw [hq, hb], fun h => ?_, fun h => (hop h).1⟩
  rcases Nat.lt_or_ge l.length (enough c) with h' | h'
  · rw [(hcl h').1] at h; cases h
  · exact h'

/-! ### Concrete cases -/

/-- A use at a time whose calls all fail. (Specification: no counterpart in the code.) -/
def failsAt (t : Nat) : Exec := ⟨7, fun n => .error (.other n), t, t + 1⟩

/-- A use at a time whose first call succeeds. (Specification: no counterpart in the code.) -/
def succeedsAt (t : Nat) : Exec := ⟨7, fun n => .ok n, t, t + 1⟩

/-- An executor that sends every error to a breaker: two failures, three successes, 60 s.
(Specification: no counterpart in the code.) -/
def guarded : Executor := { default := .breaker ⟨2, 3, 60⟩ }

/-- Five failing uses make seven calls; the last three report the open circuit. -/
example : totalCalls (runs guarded [failsAt 0, failsAt 10, failsAt 20, failsAt 30, failsAt 40]).2 = 7 :=
  (C224_always_failing guarded 7 ⟨2, 3, 60⟩ _
    (by intro e he; simp at he; rcases he with rfl | rfl | rfl | rfl | rfl <;> exact ⟨rfl, rfl, _, rfl⟩)
    (by simp [Soon, failsAt])).1

/-- **C224, refuted**: the breaker of an operation, opened at 11 for 60 s, is closed at 20 by one success. -/
theorem C224_one_success_closes :
    ((AMap.get (runs guarded [failsAt 0, failsAt 10]).1 7).map (fun p => p.2.state)) = some .opened ∧
    ((AMap.get (runs guarded [failsAt 0, failsAt 10, succeedsAt 20]).1 7).map (fun p => p.2.state)) = some .closed := by
  decide

example : (history guarded 7 (runs guarded [failsAt 0, failsAt 10, succeedsAt 20]).2) =
    (some ⟨2, 3, 60⟩, [.allow 0, .failure 1, .allow 10, .failure 11, .success]) := by decide

/-- An executor with a breaker for one code only. (Specification: no counterpart in the code.) -/
def guardedFor : Executor := { strategies := [(-32001, .breaker ⟨1, 1, 60⟩)] }

/-- A failure with another code is returned as it is, though the breaker is open. -/
example : consults guardedFor (failsAt 5) = none ∧
    (runs guardedFor [⟨7, fun n => .error (.protocol (-32001) n), 0, 1⟩, failsAt 5]).2.map (fun p => p.2.calls) = [2, 1] ∧
    (runs guardedFor [⟨7, fun n => .error (.protocol (-32001) n), 0, 1⟩, failsAt 5]).2.map (fun p => p.2.result) =
      [some (.error (.protocol (-32001) 1)), some (.error (.other 0))] := ⟨rfl, rfl, rfl⟩

end Verif.Recovery
