import Verif.Stdio.Props

/-
Exactly when a receive closes the transport: C10.
-/

namespace Verif.Stdio

open Verif

variable {Msg : Type}

/-- The lines of a text, each with its newline; the last one may lack it. (Specification: no counterpart in the code.) -/
def linesOf : List Nat → List (List Nat)
  | [] => []
  | b :: r => if b = 10 then [b] :: linesOf r else match linesOf r with
    | [] => [[b]]
    | l :: ls => (b :: l) :: ls

theorem linesOf_readLine (l : List Nat) (h : l ≠ []) : linesOf l = (readLine l).1 :: linesOf (readLine l).2 := by
  induction l with
  | nil => exact absurd rfl h
  | cons b r ih =>
    simp only [linesOf, readLine]
    split
    · rfl
    · by_cases hr : r = []
      · subst hr; rfl
      · rw [ih hr]

theorem readHeaders_closed (n : Nat) : ∀ (input : List Nat) (len : Option Nat), input.length ≤ n →
    ((readHeaders input len).1 = .closed ↔ ∀ l ∈ linesOf input, ∃ t, Utf8.decode l = some t ∧ Str.trim t ≠ []) := by
  induction n with
  | zero =>
    intro input len hn
    have : input = [] := List.length_eq_zero_iff.mp (by omega)
    subst this
    unfold readHeaders
    simp [linesOf]
  | succ n ih =>
    intro input len hn
    unfold readHeaders
    split
    · next e => subst e; simp [linesOf]
    · next e =>
      rw [linesOf_readLine input e]
      cases hd : Utf8.decode (readLine input).1 with
      | none => simp [hd]
      | some t =>
        simp only [List.mem_cons, forall_eq_or_imp, hd, Option.some.injEq, exists_eq_left']
        by_cases ht : Str.trim t = []
        · rw [if_pos ht]
          cases len <;> simp [ht]
        · rw [if_neg ht, ih _ _ (by have := readLine_length e; omega)]
          simp [ht]

/-- **C10**, exactly: a receive closes an open transport if and only if the rest of the input has no blank line, that is
no end of headers, and no line that is not UTF-8. -/
theorem C10_closes_iff (parse : List Nat → Option Msg) (s : State) (h : s.closed = false) :
    (step parse s .receive).1.closed = true ↔
      ∀ l ∈ linesOf s.input, ∃ t, Utf8.decode l = some t ∧ Str.trim t ≠ [] := by
  rw [← readHeaders_closed _ s.input none (Nat.le_refl _)]
  simp only [step, receive, h, Bool.false_eq_true, if_false]
  rcases hr : readHeaders s.input none with ⟨r, rest⟩
  cases r with
  | ok n =>
    simp only
    unfold readBody
    by_cases h1 : n > maxAlloc
    · simp [h1, h]
    · by_cases h2 : rest.length < n
      · simp [h1, h2, h]
      · simp only [h1, h2, if_false]
        cases hp : parse (rest.take n) <;> simp [h]
  | closed => simp
  | io => simp [h]
  | missingLength => simp [h]
  | invalid => simp [h]
  | panic => simp [h]

-- A header line cut by the end of the input closes; a message cut inside of its body does not.
example : (step (Msg := List Nat) some (init [67, 111]) .receive).1.closed = true :=
  (C10_closes_iff some _ rfl).mpr (fun l hl => by
    have : l = [67, 111] := by simpa [init, linesOf] using hl
    subst this
    exact ⟨['C', 'o'], by decide +kernel, by decide +kernel⟩)

example : (step (Msg := List Nat) some (init [97, 10, 13, 10, 49]) .receive).1.closed ≠ true := by
  intro h
  rw [C10_closes_iff some _ rfl] at h
  obtain ⟨t, h1, h2⟩ := h [13, 10] (by decide)
  have : Utf8.decode [13, 10] = some ['\r', '\n'] := by decide +kernel
  rw [this] at h1; cases h1
  exact h2 (by decide +kernel)

end Verif.Stdio
