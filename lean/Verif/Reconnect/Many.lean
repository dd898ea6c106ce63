import Verif.Reconnect.Races

/-
How many attempts calls of `reconnect_with` on one manager make at most: the bound of C200 is reached.

About /repo/src/shared/reconnect.rs L361-394.
-/

namespace Verif.Reconnect.Races

open Verif.Reconnect

/-- A call that fails and checks again, `k` times. (Specification: no counterpart in the code.) -/
def failing : Nat → List Event
  | 0 => []
  | k + 1 => failing k ++ [.check 0 0, .begin 0, .result 0 false 0, .recheck 0 0]

/-- The first `n` calls check. (Specification: no counterpart in the code.) -/
def checks : Nat → List Event
  | 0 => []
  | k + 1 => checks k ++ [.check k 0]

/-- The first `n` calls begin. (Specification: no counterpart in the code.) -/
def begins : Nat → List Event
  | 0 => []
  | k + 1 => begins k ++ [.begin k]

/-- The manager may be asked for another attempt. (Specification: no counterpart in the code.) -/
def Asks (cfg : Config) (s : State) : Prop :=
  s.enabled = true ∧ (s.st = .disconnected ∨ s.st = .waitingRetry) ∧ ∀ m, cfg.maxRetries = some m → s.retry < m

theorem should_asks (cfg : Config) (s : State) (h : Asks cfg s) (now : Nat) :
    (shouldReconnect cfg s now).1 = s ∧ (shouldReconnect cfg s now).2.1 = true := by
  obtain ⟨h1, h2, h3⟩ := h
  unfold shouldReconnect
  rcases h2 with h2 | h2 <;> simp only [h1, h2, Bool.not_true, Bool.false_eq_true, if_false]
  all_goals
    cases hm : cfg.maxRetries with
    | none => simp
    | some m => have := h3 m hm; simp [this]

theorem replicate_split {α : Type} (k : Nat) (a b : α) (l : List α) :
    (List.replicate k a ++ b :: l).set k a = List.replicate (k + 1) a ++ l := by
  rw [List.set_append_right _ _ (by simp), List.length_replicate, Nat.sub_self, List.set_cons_zero,
    List.replicate_succ', List.append_assoc]
  rfl

theorem run_checks (cfg : Config) (s : State) (h : Asks cfg s) (k j : Nat) :
    (checks k).foldl (step cfg) ⟨s, List.replicate (k + j) .top⟩ =
      ⟨s, List.replicate k .allowed ++ List.replicate j .top⟩ := by
  induction k generalizing j with
  | zero => simp [checks]
  | succ k ih =>
    have e : k + 1 + j = k + (j + 1) := by omega
    simp only [checks, List.foldl_append, e, ih (j + 1), List.foldl_cons, List.foldl_nil, step]
    rw [if_pos (by simp), (should_asks cfg s h 0).1, (should_asks cfg s h 0).2, if_pos rfl, List.replicate_succ,
      replicate_split]

theorem run_begins (cfg : Config) (s : State) (k j : Nat) :
    ∃ s', (begins k).foldl (step cfg) ⟨s, List.replicate (k + j) .allowed⟩ =
      ⟨s', List.replicate k .attempting ++ List.replicate j .allowed⟩ ∧ s'.attempts = s.attempts + k := by
  induction k generalizing j with
  | zero => exact ⟨s, by simp [begins], rfl⟩
  | succ k ih =>
    have e : k + 1 + j = k + (j + 1) := by omega
    obtain ⟨s', h1, h2⟩ := ih (j + 1)
    refine ⟨(onConnecting s').1, ?_, ?_⟩
    · simp only [begins, List.foldl_append, e, h1, List.foldl_cons, List.foldl_nil, step]
      rw [if_pos (by simp), List.replicate_succ, replicate_split]
    · simp only [onConnecting, h2]; omega

theorem run_failing (cfg : Config) (m : Nat) (hm : cfg.maxRetries = some m) (ht : cfg.threshold = none) (n k : Nat)
    (hk : k < m) (hn : 0 < n) :
    ∃ s, run cfg n (failing k) = ⟨s, List.replicate n .top⟩ ∧ s.attempts = k ∧ s.retry = k ∧ s.enabled = true ∧
      (s.st = .disconnected ∨ s.st = .waitingRetry) := by
  induction k with
  | zero => exact ⟨{}, rfl, rfl, rfl, rfl, .inl rfl⟩
  | succ k ih =>
    obtain ⟨s, h1, h2, h3, h4, h5⟩ := ih (by omega)
    have ha : Asks cfg s := ⟨h4, h5, fun m' h => by rw [hm] at h; injection h with h; omega⟩
    have hs : (onFailed cfg (onConnecting s).1 0).1 =
        { (onConnecting s).1 with retry := s.retry + 1, failures := s.failures + 1, st := .waitingRetry } := by
      simp [onFailed, onConnecting, reaches, ht]
    have ha' : Asks cfg (onFailed cfg (onConnecting s).1 0).1 := by
      rw [hs]
      exact ⟨h4, .inr rfl, fun m' h => by rw [hm] at h; injection h with h; simp only; omega⟩
    obtain ⟨n, rfl⟩ : ∃ n', n = n' + 1 := ⟨n - 1, by omega⟩
    refine ⟨(onFailed cfg (onConnecting s).1 0).1, ?_, ?_, ?_, ?_, ?_⟩
    · simp only [run] at h1
      simp only [run, failing, List.foldl_append, h1]
      simp only [List.foldl_cons, List.foldl_nil, step, List.replicate_succ,
        List.getElem?_cons_zero, if_true, List.set_cons_zero, (should_asks cfg s ha 0).1, (should_asks cfg s ha 0).2,
        (should_asks cfg _ ha' 0).1, (should_asks cfg _ ha' 0).2, Bool.false_eq_true, if_false]
    · rw [hs]; simp [onConnecting, h2]
    · rw [hs]; simp [h3]
    · rw [hs]; simp [onConnecting, h4]
    · rw [hs]; simp

/-- **C200**: any number of calls connect at the same time: all check before the first begins. -/
theorem C200_any_number (cfg : Config) (hm : ∀ m, cfg.maxRetries = some m → 0 < m) (n : Nat) :
    attempts (run cfg n (checks n ++ begins n)) = n := by
  have ha : Asks cfg {} := ⟨rfl, .inl rfl, hm⟩
  have h1 := run_checks cfg {} ha n 0
  simp only [Nat.add_zero, List.replicate_zero, List.append_nil] at h1
  obtain ⟨s', h2, -⟩ := run_begins cfg {} n 0
  simp only [Nat.add_zero, List.replicate_zero, List.append_nil] at h2
  simp only [run, List.foldl_append, h1, h2, attempts, List.countP_replicate]
  simp

/-- Three calls. -/
example : attempts (run ⟨some 1, true, 60, some 1, 60⟩ 3
    [.check 0 0, .check 1 0, .check 2 0, .begin 0, .begin 1, .begin 2]) = 3 := by decide

/-- **C200**: the bound of `C200_limit_partial` is the best possible. For every limit and every number of calls there is a
schedule in which they make `max_retries + n - 1` attempts. -/
theorem C200_limit_reached (cfg : Config) (m n : Nat) (hm : cfg.maxRetries = some m) (ht : cfg.threshold = none)
    (h1 : 0 < m) (h2 : 0 < n) : ∃ es, (run cfg n es).mgr.attempts = m + (n - 1) := by
  obtain ⟨s, e1, e2, e3, e4, e5⟩ := run_failing cfg m hm ht n (m - 1) (by omega) h2
  have ha : Asks cfg s := ⟨e4, e5, fun m' h => by rw [hm] at h; injection h with h; omega⟩
  have h3 := run_checks cfg s ha n 0
  simp only [Nat.add_zero, List.replicate_zero, List.append_nil] at h3
  obtain ⟨s', h4, h5⟩ := run_begins cfg s n 0
  simp only [Nat.add_zero, List.replicate_zero, List.append_nil] at h4
  refine ⟨failing (m - 1) ++ (checks n ++ begins n), ?_⟩
  simp only [run] at e1
  simp only [run, List.foldl_append, e1, h3, h4, h5, e2]
  omega

/-- A limit of two attempts, and two calls: three attempts. -/
example : (run ⟨some 2, false, 60, none, 60⟩ 2 (failing 1 ++ (checks 2 ++ begins 2))).mgr.attempts = 3 := by decide

end Verif.Reconnect.Races
