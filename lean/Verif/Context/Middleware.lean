import Verif.Context.Model

/-
The middleware chain (C51). Hooks are arbitrary functions on the message and on everything else they can change, so
equality of the outcome covers which hooks ran, in which order, and what they saw.
-/

namespace Verif.Context

variable {W M E : Type}

/-- **C51**: a chain without failure is the composition of its parts, in the order of registration: the later part
starts from the message and the world the earlier part left. -/
theorem C51_order (a b : List (Hook W M E)) (w w1 : W) (m m1 : M) (h : process a w m = (w1, m1, .ok ())) :
    process (a ++ b) w m = process b w1 m1 := by
  induction a generalizing w m with
  | nil => cases h; rfl
  | cons f r ih =>
    simp only [List.cons_append, process] at h ⊢
    split at h
    · next w2 m2 he => exact ih _ _ h
    · cases h

/-- **C51**: at the first failure the chain stops: message and world are as the failing hook left them, whatever
comes after it. -/
theorem C51_stops (a b : List (Hook W M E)) (f : Hook W M E) (w w1 w2 : W) (m m1 m2 : M) (e : E)
    (h : process a w m = (w1, m1, .ok ())) (hf : f w1 m1 = (w2, m2, .error e)) :
    process (a ++ f :: b) w m = (w2, m2, .error e) := by
  rw [C51_order a (f :: b) w w1 m m1 h]
  simp only [process, hf]

/-- **C51**: the two cases are all: a chain succeeds with every hook having succeeded, or some hook failed after
all before it succeeded. -/
theorem C51_cases (l : List (Hook W M E)) (w : W) (m : M) :
    (∃ w' m', process l w m = (w', m', .ok ()) ∧
      ∀ a f b, l = a ++ f :: b → ∃ w1 m1 w2 m2, process a w m = (w1, m1, .ok ()) ∧ f w1 m1 = (w2, m2, .ok ())) ∨
    (∃ a f b w1 m1 w2 m2 e, l = a ++ f :: b ∧ process a w m = (w1, m1, .ok ()) ∧ f w1 m1 = (w2, m2, .error e) ∧
      process l w m = (w2, m2, .error e)) := by
  induction l generalizing w m with
  | nil =>
    left
    refine ⟨w, m, rfl, fun a f b h => ?_⟩
    cases a <;> cases h
  | cons g r ih =>
    rcases hg : g w m with ⟨w', m', o⟩
    cases o with
    | error e => right; exact ⟨[], g, r, w, m, w', m', e, rfl, rfl, hg, by simp only [process, hg]⟩
    | ok u =>
      cases u
      have hp : process (g :: r) w m = process r w' m' := by simp only [process, hg]
      rcases ih w' m' with ⟨w2, m2, h1, h2⟩ | ⟨a, f, b, w1, m1, w2, m2, e, rfl, h1, h2, h3⟩
      · left
        refine ⟨w2, m2, by rw [hp, h1], fun a f b hl => ?_⟩
        cases a with
        | nil => cases hl; exact ⟨w, m, w', m', rfl, hg⟩
        | cons x a =>
          simp only [List.cons_append, List.cons.injEq] at hl
          obtain ⟨rfl, hl⟩ := hl
          obtain ⟨a1, a2, a3, a4, g1, g2⟩ := h2 a f b hl
          exact ⟨a1, a2, a3, a4, by simp only [process, hg]; exact g1, g2⟩
      · right
        exact ⟨g :: a, f, b, w1, m1, w2, m2, e, rfl, by simp only [process, hg]; exact h1, h2, by rw [hp, h3]⟩

/-- A hook that writes down its number and the message it saw, changes the message, and may fail.
(Specification: no counterpart in the code.) -/
def logging (i : Nat) (change : Nat → Nat) (fails : Bool) : Hook (List (Nat × Nat)) Nat String :=
  fun log m => (log ++ [(i, m)], change m, if fails then .error "stop" else .ok ())

/-- The second hook sees what the first made of the message, the third is not called. -/
example : process [logging 0 (· + 1) false, logging 1 (· * 2) true, logging 2 id false] [] 5 =
    ([(0, 5), (1, 6)], 12, .error "stop") := by rfl

/-- **C51**, log of calls: the hooks called are those up to the first failing one, in order. -/
theorem C51_log (l : List (Nat × (Nat → Nat) × Bool)) (log : List (Nat × Nat)) (m : Nat) :
    let called := l.take ((l.takeWhile (fun x => !x.2.2)).length + 1)
    ((process (l.map (fun x => logging x.1 x.2.1 x.2.2)) log m).1).map Prod.fst =
      log.map Prod.fst ++ called.map Prod.fst := by
  induction l generalizing log m with
  | nil => simp [process]
  | cons x l ih =>
    rcases x with ⟨i, c, b⟩
    cases b with
    | true => simp [process, logging]
    | false =>
      have := ih (log ++ [(i, m)]) (c m)
      simp only [List.map_cons, process, logging, Bool.false_eq_true, if_false] at this ⊢
      rw [this]
      simp

/-- Three hooks, the second of which fails: the third is not called. -/
example := C51_log [(0, (· + 1), false), (1, id, true), (2, id, false)] [] 5

/-- **C51**, hooks that cannot change the message (`on_send`, `on_receive`): all see the same message; order and
stopping are the same. -/
theorem C51_observe (l : List (View W M E)) (w : W) (m : M) :
    process (l.map (fun f => (fun w m => ((f w m).1, m, (f w m).2) : Hook W M E))) w m =
      ((observe l w m).1, m, (observe l w m).2) := by
  induction l generalizing w with
  | nil => rfl
  | cons f r ih =>
    simp only [List.map_cons, process, observe]
    rcases hf : f w m with ⟨w', o⟩
    cases o with
    | error e => rfl
    | ok u => cases u; exact ih w'

end Verif.Context
