import Verif.Batch.Model
import Verif.Common.ListExtra

namespace Verif.Batch

/-- Which future a step belongs to. (Specification: no counterpart in the code.) -/
def Step.index : Step → Nat
  | .start i => i
  | .answer i _ => i
  | .timeout i => i

theorem runFrom_append (cfg : Config) (s : State) (a b : List Step) :
    runFrom cfg s (a ++ b) = (runFrom cfg s a).bind (fun s' => runFrom cfg s' b) := by
  induction a generalizing s with
  | nil => rfl
  | cons x xs ih =>
    simp only [List.cons_append, runFrom]
    cases step cfg s x with
    | none => rfl
    | some s' => exact ih s'

theorem runFrom_snoc (cfg : Config) (s : State) (a : List Step) (x : Step) :
    runFrom cfg s (a ++ [x]) = (runFrom cfg s a).bind (fun s' => step cfg s' x) := by
  rw [runFrom_append]
  congr 1
  funext s'
  simp only [runFrom]
  cases step cfg s' x <;> rfl

theorem taskAt_setTask (s : State) (i j : Nat) (t : Task) (p : Nat) :
    taskAt ⟨setTask s i t, p⟩ j = if i = j then (taskAt s j).map (fun _ => t) else taskAt s j := by
  unfold taskAt setTask
  simp only [List.getElem?_modify]
  by_cases h : i = j
  · simp only [h, if_true]
    cases s.tasks[j]? <;> rfl
  · simp only [h, if_false]
    cases s.tasks[j]? <;> rfl

theorem step_cases {cfg : Config} {s s' : State} {x : Step} (h : step cfg s x = some s') :
    (∃ i, x = .start i ∧ taskAt s i = some .waiting ∧ 0 < s.permits ∧
      s' = ⟨setTask s i .running, s.permits - 1⟩) ∨
    (∃ i r, x = .answer i r ∧ taskAt s i = some .running ∧
      s' = ⟨setTask s i (.done r), s.permits + 1⟩) ∨
    (∃ i, x = .timeout i ∧ taskAt s i = some .running ∧ cfg.timeout = true ∧
      s' = ⟨setTask s i (.done timeoutResp), s.permits + 1⟩) := by
  cases x with
  | start i =>
    simp only [step] at h
    split at h
    · rename_i hc
      cases h
      exact Or.inl ⟨i, rfl, hc.1, hc.2, rfl⟩
    · cases h
  | answer i r =>
    simp only [step] at h
    split at h
    · rename_i hc
      cases h
      exact Or.inr (Or.inl ⟨i, r, rfl, hc, rfl⟩)
    · cases h
  | timeout i =>
    simp only [step] at h
    split at h
    · rename_i hc
      cases h
      exact Or.inr (Or.inr ⟨i, rfl, hc.1, hc.2, rfl⟩)
    · cases h

/-- Index and request columns. (Specification: no counterpart in the code.) -/
def cols (s : State) : List (Nat × Req) := s.tasks.map (fun x => (x.1, x.2.1))

theorem map_modify_same (l : List (Nat × Req × Task)) (i : Nat) (t : Task) :
    (l.modify i (fun x => (x.1, x.2.1, t))).map (fun x => (x.1, x.2.1)) =
      l.map (fun x => (x.1, x.2.1)) := by
  apply List.ext_getElem?
  intro j
  simp only [List.getElem?_map, List.getElem?_modify]
  by_cases h : i = j
  · simp only [h, if_true]; cases l[j]? <;> rfl
  · simp only [h, if_false]; cases l[j]? <;> rfl

theorem cols_step {cfg : Config} {s s' : State} {x : Step} (h : step cfg s x = some s') :
    cols s' = cols s := by
  rcases step_cases h with ⟨i, _, _, _, rfl⟩ | ⟨i, r, _, _, rfl⟩ | ⟨i, _, _, _, rfl⟩ <;>
    exact map_modify_same _ _ _

theorem cols_run {cfg : Config} {sched : List Step} {s s' : State}
    (h : runFrom cfg s sched = some s') : cols s' = cols s := by
  induction sched generalizing s with
  | nil => cases h; rfl
  | cons x xs ih =>
    simp only [runFrom] at h
    cases hs : step cfg s x with
    | none => rw [hs] at h; cases h
    | some s1 =>
      rw [hs] at h
      rw [ih h, cols_step hs]

theorem cols_init (cfg : Config) (reqs : List Req) :
    cols (init cfg reqs) = reqs.zipIdx.map (fun p => (p.2, p.1)) := by
  simp [cols, init, Function.comp_def]

/-- What the schedule says about one future, given its state. (Specification: no counterpart in the code.) -/
def Explains (i : Nat) (sched : List Step) : Task → Prop
  | .waiting => sched.filter (fun x => decide (x.index = i)) = []
  | .running => sched.filter (fun x => decide (x.index = i)) = [.start i]
  | .done r => sched.filter (fun x => decide (x.index = i)) = [.start i, .answer i r] ∨
      (r = timeoutResp ∧ sched.filter (fun x => decide (x.index = i)) = [.start i, .timeout i])

theorem explains (cfg : Config) (reqs : List Req) (sched : List Step) (s : State)
    (h : runFrom cfg (init cfg reqs) sched = some s) (i : Nat) (t : Task)
    (ht : taskAt s i = some t) : Explains i sched t := by
  induction sched using snocInduction generalizing s t with
  | nil =>
    cases h
    have : t = .waiting := by
      unfold taskAt init at ht
      simp only [List.getElem?_map] at ht
      cases hz : reqs.zipIdx[i]? with
      | none => rw [hz] at ht; cases ht
      | some p => rw [hz] at ht; cases ht; rfl
    subst this
    rfl
  | append_singleton sched x ih =>
    rw [runFrom_snoc] at h
    cases hs : runFrom cfg (init cfg reqs) sched with
    | none => rw [hs] at h; cases h
    | some s0 =>
      rw [hs, Option.bind_some] at h
      have hother : x.index ≠ i → Explains i sched t → Explains i (sched ++ [x]) t := by
        intro hne he
        have : (sched ++ [x]).filter (fun x => decide (x.index = i)) =
            sched.filter (fun x => decide (x.index = i)) := by
          rw [List.filter_append]; simp [hne]
        unfold Explains at he ⊢
        rw [this]; exact he
      have hsame : x.index = i → (sched ++ [x]).filter (fun x => decide (x.index = i)) =
            sched.filter (fun x => decide (x.index = i)) ++ [x] := by
        intro he
        rw [List.filter_append]; simp [he]
      rcases step_cases h with ⟨j, rfl, h1, _, rfl⟩ | ⟨j, r, rfl, h1, rfl⟩ | ⟨j, rfl, h1, _, rfl⟩
      all_goals
        rw [taskAt_setTask] at ht
        by_cases hj : j = i
        · subst hj
          rw [if_pos rfl, h1] at ht
          cases ht
          have he := ih s0 hs _ h1
          unfold Explains at he ⊢
          simp only at he ⊢
          rw [hsame rfl, he]
          simp
        · rw [if_neg hj] at ht
          exact hother hj (ih s0 hs _ ht)

theorem joined_map {l : List (Nat × Req × Task)} {o : List (Nat × Resp)} (h : joined l = some o) :
    o.map (·.1) = l.map (·.1) ∧ ∀ i : Nat, (l[i]?).map (·.2.2) = (o[i]?).map (fun x => Task.done x.2) := by
  induction l generalizing o with
  | nil => cases h; exact ⟨rfl, fun i => rfl⟩
  | cons x xs ih =>
    obtain ⟨k, q, t⟩ := x
    cases t with
    | waiting => cases h
    | running => cases h
    | done r =>
      simp only [joined] at h
      cases hx : joined xs with
      | none => rw [hx] at h; cases h
      | some o' =>
        rw [hx] at h
        cases h
        obtain ⟨h1, h2⟩ := ih hx
        refine ⟨by simp [h1], fun i => ?_⟩
        cases i with
        | zero => rfl
        | succ i => exact h2 i

theorem insert_sorted (x : Nat × Resp) (l : List (Nat × Resp)) (h : ∀ y ∈ l, x.1 ≤ y.1) :
    insertByIndex x l = x :: l := by
  cases l with
  | nil => rfl
  | cons y ys => simp only [insertByIndex, if_pos (h y List.mem_cons_self)]

theorem sort_sorted (l : List (Nat × Resp)) (h : l.Pairwise (fun a b => a.1 ≤ b.1)) :
    sortByIndex l = l := by
  induction l with
  | nil => rfl
  | cons x xs ih =>
    rw [List.pairwise_cons] at h
    rw [sortByIndex, ih h.2, insert_sorted x xs h.1]

theorem zipIdx_sorted (reqs : List Req) (k : Nat) :
    (reqs.zipIdx k).map (·.2) = List.range' k reqs.length := by
  induction reqs generalizing k with
  | nil => rfl
  | cons q qs ih => simp [List.zipIdx_cons, ih, List.range'_succ]

/-- The result of a finished batch, position by position. -/
theorem collect_spec {cfg : Config} {reqs : List Req} {sched : List Step} {s : State}
    {out : List Resp} (h : runFrom cfg (init cfg reqs) sched = some s) (hc : collect s = some out) :
    out.length = reqs.length ∧ ∀ i : Nat, taskAt s i = (out[i]?).map Task.done := by
  have hcols := cols_run h
  rw [cols_init] at hcols
  have hidx : s.tasks.map (·.1) = List.range' 0 reqs.length := by
    have := congrArg (List.map (·.1)) hcols
    unfold cols at this
    rw [List.map_map, List.map_map] at this
    rw [← zipIdx_sorted reqs 0]
    exact this
  unfold collect at hc
  cases hj : joined s.tasks with
  | none => rw [hj] at hc; cases hc
  | some o =>
    rw [hj] at hc
    obtain ⟨h1, h2⟩ := joined_map hj
    rw [hidx] at h1
    have hsorted : o.Pairwise (fun a b => a.1 ≤ b.1) := by
      have hp : (o.map (·.1)).Pairwise (· ≤ ·) := by
        rw [h1]
        exact (List.pairwise_lt_range' (s := 0) (n := reqs.length)).imp (fun h => Nat.le_of_lt h)
      exact (List.pairwise_map.mp hp)
    simp only [Option.map_some, Option.some.injEq] at hc
    rw [sort_sorted o hsorted] at hc
    subst hc
    refine ⟨?_, fun i => ?_⟩
    · have := congrArg List.length h1
      simpa using this
    · unfold taskAt
      rw [h2 i, List.getElem?_map]
      cases o[i]? <;> rfl

/-! ### counting -/

/-- Number of tasks in a state satisfying `p`. (Specification: no counterpart in the code.) -/
def countT (p : Task → Bool) (l : List (Nat × Req × Task)) : Nat :=
  (l.filter (fun x => p x.2.2)).length

theorem countT_modify (p : Task → Bool) (l : List (Nat × Req × Task)) (i : Nat) (t u : Task)
    (h : (l[i]?).map (·.2.2) = some u) :
    countT p (l.modify i (fun x => (x.1, x.2.1, t))) + (if p u then 1 else 0) =
      countT p l + (if p t then 1 else 0) := by
  induction l generalizing i with
  | nil => simp at h
  | cons x xs ih =>
    cases i with
    | zero =>
      simp only [List.getElem?_cons_zero, Option.map_some, Option.some.injEq] at h
      simp only [List.modify_zero_cons, countT, List.filter_cons, h]
      by_cases h1 : p t <;> by_cases h2 : p u <;> simp [h1, h2]
    | succ i =>
      simp only [List.getElem?_cons_succ] at h
      have := ih i h
      simp only [List.modify_succ_cons, countT, List.filter_cons] at this ⊢
      by_cases h1 : p x.2.2 <;> simp only [h1, if_true, List.length_cons] at this ⊢ <;>
        first | omega | (simp at this ⊢; omega)

theorem countT_init (cfg : Config) (reqs : List Req) (p : Task → Bool) :
    countT p (init cfg reqs).tasks = if p .waiting then reqs.length else 0 := by
  unfold init countT
  simp only
  rw [List.filter_map]
  by_cases h : p .waiting
  · have : ∀ l : List (Req × Nat), l.filter (fun _ => true) = l := by
      intro l; exact List.filter_eq_self.mpr (fun _ _ => rfl)
    simp [Function.comp_def, h, this]
  · simp [Function.comp_def, h]

end Verif.Batch
