import Verif.HttpServer.Sessions
import Verif.Common.ListExtra

/-
Overlapping DELETEs of one session: exactly how often its end is reported (C138).

About /repo/src/server/streamable_http_server.rs L798-833.
-/

namespace Verif.HttpServer

/-- The table after a schedule of its accesses. (Any order of the sections of
/repo/src/server/streamable_http_server.rs L288-352, L798-833.) -/
def trun (t : Table) (h : List TOp) : Table := h.foldl tstep t

/-- The DELETEs of the session whose check finds it. (Specification: no counterpart in the code.) -/
def finders (sid : Text) : Table → List TOp → Nat
  | _, [] => 0
  | t, op :: h => (if op = .check sid ∧ sid ∈ t.live then 1 else 0) + finders sid (tstep t op) h

theorem count_erased (l : List Text) (i : Nat) (x : Text) (h : l[i]? = some x) (y : Text) :
    (l.eraseIdx i).count y + (if x = y then 1 else 0) = l.count y := by
  induction l generalizing i with
  | nil => simp at h
  | cons a l ih =>
    cases i with
    | zero =>
      simp only [List.getElem?_cons_zero, Option.some.injEq] at h
      subst h
      simp [List.count_cons]
    | succ i =>
      simp only [List.getElem?_cons_succ] at h
      have := ih i h
      simp only [List.eraseIdx_cons_succ, List.count_cons]
      omega

theorem reports_step (sid : Text) (t : Table) (op : TOp) :
    (tstep t op).closed.count sid + (tstep t op).waiting.count sid =
      t.closed.count sid + t.waiting.count sid + (if op = .check sid ∧ sid ∈ t.live then 1 else 0) := by
  cases op with
  | create x => simp [tstep]
  | check x =>
    by_cases hx : x ∈ t.live
    · simp only [tstep, hx, if_true, List.count_append, List.count_singleton, TOp.check.injEq]
      by_cases he : x = sid
      · subst he; simp [hx]; omega
      · simp [he]
    · simp only [tstep, hx, if_false, TOp.check.injEq]
      by_cases he : x = sid
      · subst he; simp [hx]
      · simp [he]
  | finish i =>
    simp only [tstep]
    cases hw : t.waiting[i]? with
    | none => simp
    | some x =>
      have := count_erased _ _ _ hw sid
      simp only [List.count_append, List.count_singleton, reduceCtorEq, false_and, if_false, beq_iff_eq]
      omega

/-- **C138, exactly.** Under every schedule, the reports of the end of a session, with those still to come, are as many as
the DELETEs that found the session. -/
theorem C138_reports (sid : Text) (h : List TOp) :
    (trun {} h).closed.count sid + (trun {} h).waiting.count sid = finders sid {} h := by
  have key : ∀ (h : List TOp) (t : Table), (trun t h).closed.count sid + (trun t h).waiting.count sid =
      t.closed.count sid + t.waiting.count sid + finders sid t h := by
    intro h
    induction h with
    | nil => intro t; rfl
    | cons op h ih =>
      intro t
      have h1 := ih (tstep t op)
      have h2 := reports_step sid t op
      simp only [finders]
      show (trun (tstep t op) h).closed.count sid + (trun (tstep t op) h).waiting.count sid = _
      omega
  simpa using key h {}

/-- Two DELETEs find the session, the third comes too late. -/
example : finders ['s'] {} [.create ['s'], .check ['s'], .check ['s'], .finish 1, .check ['s'], .finish 0] = 2 := by decide

/-- The session is created at most once. (Specification: no counterpart in the code.) -/
def CreatedOnce (sid : Text) (h : List TOp) : Prop := h.count (.create sid) ≤ 1

theorem trun_snoc (t : Table) (h : List TOp) (op : TOp) : trun t (h ++ [op]) = tstep (trun t h) op := by
  simp [trun, List.foldl_append]

theorem finders_append (sid : Text) (t : Table) (a b : List TOp) :
    finders sid t (a ++ b) = finders sid t a + finders sid (trun t a) b := by
  induction a generalizing t with
  | nil => simp [finders, trun]
  | cons op a ih =>
    have := ih (tstep t op)
    simp only [List.cons_append, finders]
    show _ + finders sid (tstep t op) (a ++ b) = _ + finders sid (trun (tstep t op) a) b
    omega

/-- What is known of a session created at most once. -/
theorem once_inv (sid : Text) (h : List TOp) (ho : CreatedOnce sid h) :
    (0 < (trun {} h).closed.count sid → sid ∉ (trun {} h).live) ∧
    (h.count (.create sid) = 0 → sid ∉ (trun {} h).live ∧ (trun {} h).waiting.count sid = 0 ∧
      (trun {} h).closed.count sid = 0) := by
  induction h using snocInduction with
  | nil => simp [trun]
  | append_singleton h op ih =>
    unfold CreatedOnce at ho ih
    rw [List.count_append] at ho
    obtain ⟨h1, h2⟩ := ih (by omega)
    rw [trun_snoc, List.count_append]
    generalize trun {} h = t at h1 h2
    cases op with
    | create x =>
      simp only [tstep, List.count_singleton, beq_iff_eq, TOp.create.injEq] at ho ⊢
      by_cases hx : x = sid
      · subst hx
        simp only [if_true] at ho ⊢
        refine ⟨fun hc => ?_, fun h => by omega⟩
        obtain ⟨-, -, h5⟩ := h2 (by omega)
        omega
      · simp only [hx, if_false, List.mem_cons, Nat.add_zero, Ne.symm hx, false_or] at ho ⊢
        exact ⟨h1, h2⟩
    | check x =>
      simp only [List.count_singleton, beq_iff_eq, reduceCtorEq, if_false, Nat.add_zero, tstep]
      split
      · next hx =>
        refine ⟨h1, fun h => ?_⟩
        obtain ⟨h3, h4, h5⟩ := h2 h
        refine ⟨h3, ?_, h5⟩
        rw [List.count_append, h4, List.count_singleton]
        simp only [Nat.zero_add, beq_iff_eq, ite_eq_right_iff, Nat.one_ne_zero, imp_false]
        intro e; subst e; exact h3 hx
      · exact ⟨h1, h2⟩
    | finish i =>
      simp only [List.count_singleton, beq_iff_eq, reduceCtorEq, if_false, Nat.add_zero, tstep]
      cases hw : t.waiting[i]? with
      | none => exact ⟨h1, h2⟩
      | some x =>
        simp only [List.count_append, List.count_singleton, beq_iff_eq, List.mem_filter, decide_eq_true_eq]
        refine ⟨fun hc hm => ?_, fun h => ?_⟩
        · rw [if_neg (Ne.symm hm.2)] at hc
          exact h1 (by omega) hm.1
        · obtain ⟨h3, h4, h5⟩ := h2 h
          have hmem := List.mem_of_getElem? hw
          have hne : x ≠ sid := by
            intro e; subst e
            exact absurd (List.count_pos_iff.mpr hmem) (by omega)
          have := count_erased _ _ _ hw sid
          rw [if_neg hne] at this ⊢
          exact ⟨fun hm => h3 hm.1, by omega, by omega⟩

/-- **C138, exactly.** The end of a session created once is reported more than once, or will be, if and only if at some
time two DELETEs of it had both found it and neither had removed it. -/
theorem C138_twice_iff (sid : Text) (h : List TOp) (ho : CreatedOnce sid h) :
    2 ≤ (trun {} h).closed.count sid + (trun {} h).waiting.count sid ↔
      ∃ k, 2 ≤ (trun {} (h.take k)).waiting.count sid := by
  constructor
  · intro h2
    refine Classical.byContradiction fun hno => ?_
    have key : ∀ (h : List TOp), CreatedOnce sid h → (∀ k, (trun {} (h.take k)).waiting.count sid < 2) →
        (trun {} h).closed.count sid + (trun {} h).waiting.count sid ≤ 1 := by
      intro h
      induction h using snocInduction with
      | nil => intro _ _; simp [trun]
      | append_singleton h op ih =>
        intro ho hk
        have ho' : CreatedOnce sid h := by
          unfold CreatedOnce at ho ⊢
          rw [List.count_append] at ho
          omega
        have hall := hk (h ++ [op]).length
        rw [List.take_length, trun_snoc] at hall
        have hb := ih ho' (fun k => by
          by_cases hkl : k ≤ h.length
          · have := hk k
            rwa [List.take_append_of_le_length hkl] at this
          · have := hk h.length
            rw [List.take_append_of_le_length (Nat.le_refl _)] at this
            rwa [List.take_of_length_le (by omega), ← List.take_length (l := h)])
        obtain ⟨hi, -⟩ := once_inv sid h ho'
        rw [trun_snoc]
        generalize trun {} h = t at *
        have hs := reports_step sid t op
        split at hs
        · next hc =>
          obtain ⟨rfl, hlive⟩ := hc
          have h0 : t.closed.count sid = 0 := by
            cases hz : t.closed.count sid with
            | zero => rfl
            | succ n => exact absurd hlive (hi (by omega))
          have : (tstep t (.check sid)).closed = t.closed := by simp [tstep, hlive]
          rw [this, h0] at hs ⊢
          omega
        · omega
    have := key h ho (fun k => Nat.not_le.mp (fun hk => hno ⟨k, hk⟩))
    omega
  · rintro ⟨k, hk⟩
    have h1 := C138_reports sid (h.take k)
    have h2 := C138_reports sid h
    have h3 := finders_append sid {} (h.take k) (h.drop k)
    rw [List.take_append_drop] at h3
    omega

/-- Overlapping DELETEs, and one after the other. -/
example : CreatedOnce ['s'] [.create ['s'], .check ['s'], .check ['s'], .finish 0, .finish 0] ∧
    (trun {} ([.create ['s'], .check ['s'], .check ['s'], .finish 0, .finish 0].take 3)).waiting.count ['s'] = 2 ∧
    (trun {} [.create ['s'], .check ['s'], .finish 0, .check ['s'], .finish 0]).closed = [['s']] := by
  unfold CreatedOnce; decide

/-- **C138**: any number of DELETEs that overlap report the end of the session that often. -/
theorem C138_any_number (sid : Text) (n : Nat) :
    (trun {} (.create sid :: (List.replicate n (.check sid) ++ List.replicate n (.finish 0)))).closed =
      List.replicate n sid := by
  have hc : ∀ n w, trun ⟨[sid], w, []⟩ (List.replicate n (.check sid)) = ⟨[sid], w ++ List.replicate n sid, []⟩ := by
    intro n
    induction n with
    | zero => intro w; simp [trun]
    | succ n ih =>
      intro w
      rw [List.replicate_succ]
      show trun (tstep ⟨[sid], w, []⟩ (.check sid)) _ = _
      rw [show tstep ⟨[sid], w, []⟩ (.check sid) = ⟨[sid], w ++ [sid], []⟩ by simp [tstep], ih, List.append_assoc,
        List.replicate_succ]
      rfl
  have hf : ∀ n l c, (trun ⟨l, List.replicate n sid, c⟩ (List.replicate n (.finish 0))).closed =
      c ++ List.replicate n sid := by
    intro n
    induction n with
    | zero => intro l c; simp [trun]
    | succ n ih =>
      intro l c
      rw [List.replicate_succ, List.replicate_succ]
      show (trun (tstep ⟨l, sid :: List.replicate n sid, c⟩ (.finish 0)) _).closed = _
      rw [show tstep ⟨l, sid :: List.replicate n sid, c⟩ (.finish 0) =
        ⟨l.filter (· ≠ sid), List.replicate n sid, c ++ [sid]⟩ by simp [tstep], ih, List.append_assoc]
      rfl
  show (trun (tstep {} (.create sid)) _).closed = _
  unfold trun at hc hf ⊢
  rw [List.foldl_append, show tstep {} (.create sid) = ⟨[sid], [], []⟩ by simp [tstep], hc, List.nil_append, hf]
  rfl

/-- Three. -/
example : (trun {} [.create ['s'], .check ['s'], .check ['s'], .check ['s'], .finish 0, .finish 0, .finish 0]).closed =
    [['s'], ['s'], ['s']] := by decide

end Verif.HttpServer
