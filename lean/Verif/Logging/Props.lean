import Verif.Logging.Model

/-
Log entries and the context they are written under (C163, C164), the content of entries (C165), the subscriber
(C166) and correlated loggers (C167).
-/

namespace Verif.Logging

open Verif Verif.Context

section Tasks

variable {C E : Type}

/-! ### Specification -/

/-- The entries the code of a task writes, each with the context of the innermost `run` around it in that code
(`t` is the one around the whole).  Code handed to `spawn` belongs to another task.
(Specification: no counterpart in the code.) -/
def text : Option C → Fut C E → List (E × Option C)
  | _, .done => []
  | t, .emit e k => (e, t) :: text t k
  | t, .pause k => text t k
  | t, .spawn _ k => text t k
  | t, .scope s b k => text s b ++ text t k

/-- What is left to be written by a task. (Specification: no counterpart in the code.) -/
def left : Task C E → List (E × Option C)
  | .running f => text none f
  | .finished => []
  | .aborted => []

/-- The entries of one task, in the order in which they were written. (Specification: no counterpart in the code.) -/
def byTask (i : Nat) (log : List (Nat × E × Option C)) : List (E × Option C) :=
  (log.filter (fun p => p.1 == i)).map (·.2)

/-! ### Polls -/

theorem poll_tls (t : Option C) (f : Fut C E) : (poll t f).tls = t := by
  induction f generalizing t with
  | done => rfl
  | emit e k ih => exact ih t
  | pause k ih => rfl
  | spawn b k _ ih => exact ih t
  | scope s b k _ ih =>
    unfold poll
    cases h : (poll s b).rest with
    | some b' => simp [h]
    | none => simp [h]; exact ih t

theorem poll_text (t : Option C) (f : Fut C E) :
    text t f = (poll t f).out ++ (match (poll t f).rest with | some f' => text t f' | none => []) := by
  induction f generalizing t with
  | done => simp [text, poll]
  | emit e k ih => simp only [text, poll, List.cons_append]; rw [← ih t]
  | pause k ih => simp [text, poll]
  | spawn b k _ ih => simp only [text, poll]; exact ih t
  | scope s b k ihb ihk =>
    have hb := ihb s
    have hk := ihk t
    simp only [text, poll]
    cases h : (poll s b).rest with
    | some b' =>
      simp only [h] at hb ⊢
      rw [hb]
      simp [text, poll_tls]
    | none =>
      simp only [h, List.append_nil] at hb ⊢
      rw [hb, List.append_assoc, ← hk]

theorem byTask_append (i : Nat) (a b : List (Nat × E × Option C)) : byTask i (a ++ b) = byTask i a ++ byTask i b := by
  simp [byTask]

theorem byTask_own (i : Nat) (l : List (E × Option C)) : byTask i (l.map (fun p => (i, p))) = l := by
  induction l with
  | nil => rfl
  | cons a l ih => simp only [byTask, List.map_cons] at ih ⊢; simp [ih]

theorem byTask_other {i j : Nat} (h : j ≠ i) (l : List (E × Option C)) : byTask i (l.map (fun p => (j, p))) = [] := by
  induction l with
  | nil => rfl
  | cons a l ih => simp only [byTask, List.map_cons] at ih ⊢; simp [h, ih]

/-- The task a move is about. (Specification: no counterpart in the code.) -/
def target : Move → Nat
  | .poll _ i => i
  | .abort i => i

/-- A move that finds no running task does nothing. -/
theorem move_idle (x : Exec C E) (m : Move) (h : ∀ f : Fut C E, x.tasks[target m]? ≠ some (.running f)) :
    move x m = x := by
  cases m with
  | poll v j =>
    simp only [move]
    split
    · next f hf => exact absurd hf (h f)
    · rfl
  | abort j =>
    simp only [move]
    split
    · next f hf => exact absurd hf (h f)
    · rfl

theorem move_poll (x : Exec C E) (v j : Nat) (f : Fut C E) (h : x.tasks[j]? = some (.running f)) :
    move x (.poll v j) =
      { threads := fun w => if w = v then (poll (x.threads v) f).tls else x.threads w
        tasks := x.tasks.set j (match (poll (x.threads v) f).rest with
          | some f' => Task.running f'
          | none => Task.finished) ++ (poll (x.threads v) f).spawned.map Task.running
        log := x.log ++ (poll (x.threads v) f).out.map (fun p => (j, p)) } := by
  simp only [move, h]
  rfl

theorem move_abort (x : Exec C E) (j : Nat) (f : Fut C E) (h : x.tasks[j]? = some (.running f)) :
    move x (.abort j) = { x with tasks := x.tasks.set j .aborted } := by
  simp only [move, h]

/-- The context of the caller is back on every thread after any schedule: no context is left behind. -/
theorem move_threads (x : Exec C E) (m : Move) (h : ∀ w, x.threads w = none) : ∀ w, (move x m).threads w = none := by
  intro w
  cases m with
  | poll v i =>
    by_cases hr : ∃ f, x.tasks[i]? = some (.running f)
    · obtain ⟨f, hf⟩ := hr
      rw [move_poll x v i f hf]
      simp only [poll_tls]
      split
      · exact h v
      · exact h w
    · rw [move_idle x (.poll v i) (fun f hf => hr ⟨f, hf⟩)]; exact h w
  | abort i =>
    by_cases hr : ∃ f, x.tasks[i]? = some (.running f)
    · obtain ⟨f, hf⟩ := hr
      rw [move_abort x i f hf]; exact h w
    · rw [move_idle x (.abort i) (fun f hf => hr ⟨f, hf⟩)]; exact h w

theorem moves_threads (x : Exec C E) (ms : List Move) (h : ∀ w, x.threads w = none) :
    ∀ w, (moves x ms).threads w = none := by
  induction ms generalizing x with
  | nil => exact h
  | cons m ms ih => exact ih (move x m) (move_threads x m h)

/-- One move: what task `i` writes, followed by what it has left, is what it had left before, unless the move
aborts it. -/
theorem move_text (x : Exec C E) (m : Move) (h : ∀ w, x.threads w = none) (i : Nat) (a : Task C E)
    (ha : x.tasks[i]? = some a) :
    ∃ b new, (move x m).tasks[i]? = some b ∧ byTask i (move x m).log = byTask i x.log ++ new ∧
      (new ++ left b = left a ∨ (b = .aborted ∧ new = [])) ∧ (a = .aborted → b = .aborted) := by
  have hlt : i < x.tasks.length := (List.getElem?_eq_some_iff.mp ha).1
  cases m with
  | poll v j =>
    by_cases hr : ∃ f, x.tasks[j]? = some (.running f)
    · obtain ⟨f, hf⟩ := hr
      rw [move_poll x v j f hf]
      by_cases e : j = i
      · subst e
        rw [hf] at ha; cases ha
        have hp := poll_text (none : Option C) f
        rw [h v]
        refine ⟨_, (poll none f).out, by rw [List.getElem?_append_left (by simpa using hlt), List.getElem?_set_self hlt],
          by rw [byTask_append, byTask_own], .inl ?_, by simp⟩
        rw [show left (Task.running f) = text none f from rfl, hp]
        cases (poll none f).rest <;> rfl
      · refine ⟨a, [], ?_, ?_, .inl rfl, fun h => h⟩
        · rw [List.getElem?_append_left (by simpa using hlt), List.getElem?_set_ne e]; exact ha
        · rw [byTask_append, byTask_other e]
    · rw [move_idle x (.poll v j) (fun f hf => hr ⟨f, hf⟩)]
      exact ⟨a, [], ha, by simp, .inl rfl, fun h => h⟩
  | abort j =>
    by_cases hr : ∃ f, x.tasks[j]? = some (.running f)
    · obtain ⟨f, hf⟩ := hr
      rw [move_abort x j f hf]
      by_cases e : j = i
      · subst e
        exact ⟨.aborted, [], by simp [hlt], by simp, .inr ⟨rfl, rfl⟩, fun _ => rfl⟩
      · refine ⟨a, [], ?_, by simp, .inl rfl, fun h => h⟩
        show (x.tasks.set j .aborted)[i]? = some a
        rw [List.getElem?_set_ne e]; exact ha
    · rw [move_idle x (.abort j) (fun f hf => hr ⟨f, hf⟩)]
      exact ⟨a, [], ha, by simp, .inl rfl, fun h => h⟩

/-! ### C163 -/

theorem moves_text (x : Exec C E) (ms : List Move) (h : ∀ w, x.threads w = none) (i : Nat) (a : Task C E)
    (ha : x.tasks[i]? = some a) :
    ∃ b new, (moves x ms).tasks[i]? = some b ∧ byTask i (moves x ms).log = byTask i x.log ++ new ∧
      new <+: left a ∧ (b ≠ .aborted → new ++ left b = left a) ∧ (a = .aborted → b = .aborted) := by
  induction ms generalizing x a with
  | nil => exact ⟨a, [], ha, by simp [moves], List.nil_prefix, fun _ => by simp, fun h => h⟩
  | cons m ms ih =>
    obtain ⟨b, n1, hb, hl, hor, hab⟩ := move_text x m h i a ha
    obtain ⟨c, n2, hc, hl2, hpre, hfull, hbc⟩ := ih (move x m) (move_threads x m h) b hb
    refine ⟨c, n1 ++ n2, hc, ?_, ?_, ?_, fun h => hbc (hab h)⟩
    · show byTask i (moves (move x m) ms).log = _
      rw [hl2, hl, List.append_assoc]
    · rcases hor with e | ⟨rfl, rfl⟩
      · rw [← e]
        exact (List.prefix_append_right_inj n1).mpr hpre
      · simp only [left, List.prefix_nil] at hpre
        simp [hpre]
    · intro hn
      rcases hor with e | ⟨rfl, rfl⟩
      · rw [← e, ← hfull hn, List.append_assoc]
      · exact absurd (hbc rfl) hn

/-- C163: whatever the tasks, the worker threads and the schedule, the entries a task writes are those of its own
code in order, each under the context of the innermost `run` around it; a task that finished wrote them all. -/
theorem C163_own_context (fs : List (Fut C E)) (ms : List Move) (i : Nat) (f : Fut C E) (hf : fs[i]? = some f) :
    byTask i (moves (start fs) ms).log <+: text none f ∧
    ((moves (start fs) ms).tasks[i]? = some .finished → byTask i (moves (start fs) ms).log = text none f) := by
  have ha : (start fs).tasks[i]? = some (.running f) := by simp [start, hf]
  obtain ⟨b, new, hb, hl, hpre, hfull, _⟩ := moves_text (start fs) ms (fun _ => rfl) i (.running f) ha
  have e : byTask i (moves (start fs) ms).log = new := by rw [hl]; rfl
  rw [e]
  refine ⟨hpre, fun hfin => ?_⟩
  rw [hb] at hfin
  cases hfin
  simpa [left] using hfull (by simp)

/-- C163: a task that was spawned while the program ran is treated alike: from the moment it exists, what it writes
is its own code under the `run`s of that code. -/
theorem C163_spawned (fs : List (Fut C E)) (ms ms' : List Move) (i : Nat) (f : Fut C E)
    (hf : (moves (start fs) ms).tasks[i]? = some (.running f)) :
    ∃ new, byTask i (moves (start fs) (ms ++ ms')).log = byTask i (moves (start fs) ms).log ++ new ∧
      new <+: text none f := by
  obtain ⟨b, new, _, hl, hpre, _, _⟩ :=
    moves_text (moves (start fs) ms) ms' (moves_threads (start fs) ms (fun _ => rfl)) i (.running f) hf
  refine ⟨new, ?_, hpre⟩
  rw [← hl]
  simp [moves]

/-- C163: between polls no worker thread has a context, so that code outside of any `run` never sees one. -/
theorem C163_nothing_left (fs : List (Fut C E)) (ms : List Move) (w : Nat) : (moves (start fs) ms).threads w = none :=
  moves_threads (start fs) ms (fun _ => rfl) w

/-- Two requests served by interleaved tasks on one thread, with a nested `run` in the first.
(Specification: no counterpart in the code.) -/
def exA : Fut Nat Char := under 1 (.emit 'a' (.pause (under 7 (.pause (.emit 'n' .done)) (.emit 'b' .done)))) (.emit 'z' .done)
/-- (Specification: no counterpart in the code.) -/
def exB : Fut Nat Char := under 2 (.emit 'p' (.pause (.emit 'q' .done))) .done

/-- `C163_own_context` on the two: the polls alternate and change threads. -/
example : (moves (start [exA, exB]) [.poll 0 0, .poll 0 1, .poll 1 0, .poll 0 1, .poll 0 0]).log =
    [(0, 'a', some 1), (1, 'p', some 2), (1, 'q', some 2), (0, 'n', some 7), (0, 'b', some 1), (0, 'z', none)] := by
  decide

example : text none exA = [('a', some 1), ('n', some 7), ('b', some 1), ('z', none)] := by decide

/-- `C163_own_context`: its hypothesis about finished tasks holds of this schedule. -/
example : (moves (start [exA, exB]) [.poll 0 0, .poll 0 1, .poll 1 0, .poll 0 1, .poll 0 0]).tasks[0]? =
    some .finished := rfl

/-- A request that logs from a task of its own. (Specification: no counterpart in the code.) -/
def exS : Fut Nat Char := under 1 (.spawn (under 3 (.emit 'x' .done) (.emit 'y' .done)) (.emit 'a' .done)) .done

/-- `C163_spawned`: the spawned task exists after the first poll. -/
example : (moves (start [exS]) [.poll 0 0]).tasks[1]? =
      some (.running (under 3 (.emit 'x' .done) (.emit 'y' .done))) ∧
    (moves (start [exS]) ([.poll 0 0] ++ [.poll 5 1])).log = [(0, 'a', some 1), (1, 'x', some 3), (1, 'y', none)] :=
  ⟨rfl, rfl⟩

/-! ### C164 -/

/-- C164 fails: an entry written inside `context.run(..)`, but in a task spawned there, carries no context. -/
theorem C164_lost (c : C) (e : E) : ∃ ms : List Move,
    (moves (start [under c (.spawn (.emit e .done) .done) .done]) ms).log = [(1, e, none)] :=
  ⟨[.poll 0 0, .poll 0 1], rfl⟩

/-- Code that enters no further `run`. (Specification: no counterpart in the code.) -/
def NoRun : Fut C E → Prop
  | .done => True
  | .emit _ k => NoRun k
  | .pause k => NoRun k
  | .spawn _ k => NoRun k
  | .scope _ _ _ => False

theorem text_noRun (t : Option C) (f : Fut C E) (h : NoRun f) : ∀ p ∈ text t f, p.2 = t := by
  induction f with
  | done => simp [text]
  | emit e k ih =>
    intro p hp
    simp only [text, List.mem_cons] at hp
    rcases hp with rfl | hp
    · rfl
    · exact ih h p hp
  | pause k ih => exact ih h
  | spawn b k _ ih => exact ih h
  | scope s b k => exact h.elim

/-- C164, what holds: a task spawned under the context itself, `spawn(context.run(body))`, logs with it from
whatever task and context it is spawned.  Missing: `spawn(body)` inside `context.run(..)`. -/
theorem C164_handed_over_partial (fs : List (Fut C E)) (ms ms' : List Move) (i : Nat) (c : C) (body : Fut C E)
    (hb : NoRun body) (hf : (moves (start fs) ms).tasks[i]? = some (.running (under c body .done))) :
    ∃ new, byTask i (moves (start fs) (ms ++ ms')).log = byTask i (moves (start fs) ms).log ++ new ∧
      ∀ p ∈ new, p.2 = some c := by
  obtain ⟨new, h1, h2⟩ := C163_spawned fs ms ms' i _ hf
  refine ⟨new, h1, fun p hp => ?_⟩
  have := h2.subset hp
  simp only [under, text, List.append_nil] at this
  exact text_noRun (some c) body hb p this

/-- `C164_handed_over_partial`: a handler under context 1 spawns work under context 3. -/
example : ∃ f : Fut Nat Char, NoRun f ∧
    (moves (start [under 1 (.spawn (under 3 (.emit 'x' (.pause (.emit 'y' .done))) .done) .done) .done]) [.poll 0 0]).tasks[1]? =
      some (.running (under 3 f .done)) :=
  ⟨.emit 'x' (.pause (.emit 'y' .done)), trivial, rfl⟩

end Tasks

/-! ### C165 -/

section Entries

variable {Info Meta J : Type}

/-- C165: an entry carries the level and message given, and the ids of the current context, or none. -/
theorem C165_ids (cur : Option (Ctx Info Meta)) (level message : Str) :
    (newEntry cur level message : Entry J).level = level ∧ (newEntry cur level message : Entry J).message = message ∧
    (newEntry cur level message : Entry J).requestId = cur.map (·.requestId) ∧
    (newEntry cur level message : Entry J).traceId = cur.map (·.traceId) ∧
    (newEntry cur level message : Entry J).spanId = cur.map (·.spanId) ∧
    (newEntry cur level message : Entry J).userId = cur.bind (·.userId) ∧
    (newEntry cur level message : Entry J).sessionId = cur.bind (·.sessionId) ∧
    (newEntry cur level message : Entry J).fields = [] ∧ (newEntry cur level message : Entry J).error = none := by
  cases cur <;> simp [newEntry]

theorem fold_fields (fs : List (Str × J)) (e : Entry J) (k : Str) :
    AMap.get (fs.foldl (fun e p => withField e p.1 p.2) e).fields k =
      match (fs.reverse.find? (fun p => p.1 == k)) with
      | some p => some p.2
      | none => AMap.get e.fields k := by
  induction fs generalizing e with
  | nil => rfl
  | cons a l ih =>
    simp only [List.foldl_cons, List.reverse_cons, List.find?_append]
    rw [ih]
    cases h : l.reverse.find? (fun p => p.1 == k) with
    | some p => simp [h]
    | none =>
      simp only [withField, AMap.get_insert, Option.none_or, List.find?_cons, List.find?_nil]
      by_cases e' : a.1 = k
      · simp [e']
      · have : ¬ k = a.1 := fun h => e' h.symm
        have hb : (a.1 == k) = false := by simpa using e'
        rw [hb]; simp [this]

theorem fold_rest (fs : List (Str × J)) (e : Entry J) :
    (fs.foldl (fun e p => withField e p.1 p.2) e) =
      { e with fields := (fs.foldl (fun e p => withField e p.1 p.2) e).fields } := by
  induction fs generalizing e with
  | nil => rfl
  | cons a l ih =>
    simp only [List.foldl_cons]
    rw [ih (withField e a.1 a.2)]
    rfl

/-- C165: of the fields given for a key the last one is in the entry, a key not given is not, and the fields do not
touch the rest. -/
theorem C165_fields (cur : Option (Ctx Info Meta)) (level message : Str) (fs : List (Str × J)) (k : Str) :
    AMap.get (correlated cur level message fs).fields k = (fs.reverse.find? (fun p => p.1 == k)).map (·.2) ∧
    correlated cur level message fs =
      { (newEntry cur level message : Entry J) with fields := (correlated cur level message fs).fields } := by
  refine ⟨?_, fold_rest fs _⟩
  unfold correlated
  rw [fold_fields]
  cases h : fs.reverse.find? (fun p => p.1 == k) with
  | some p => rfl
  | none => cases cur <;> rfl

/-- C165: the error given is in the entry, the last one if several are, and nothing else changes. -/
theorem C165_error (e : Entry J) (d d' : ErrorDetails) :
    (withError e d).error = some d ∧ withError (withError e d') d = withError e d ∧
    { withError e d with error := e.error } = e := by
  simp [withError]

/-- The five names. (Specification: no counterpart in the code.) -/
def sevName : Sev → Str
  | .trace => "trace".toList
  | .debug => "debug".toList
  | .info => "info".toList
  | .warn => "warn".toList
  | .error => "error".toList

/-- C165, exactly: an entry is issued at the severity it names, in whatever case; one that names none of the five is
issued as information.  The property asked for, that an entry is issued at the severity it names, fails for the
other names, `warning` and `critical` among them. -/
theorem C165_severity_partial (level : Str) (s : Sev) :
    logSev level = s ↔ level.map Char.toLower = sevName s ∨
      (s = .info ∧ ∀ s', level.map Char.toLower ≠ sevName s') := by
  unfold logSev
  generalize level.map Char.toLower = l
  by_cases h1 : l = "trace".toList
  · subst h1
    constructor
    · rintro rfl; exact .inl rfl
    · rintro (h | ⟨_, h⟩)
      · cases s <;> first | rfl | exact absurd h (by decide)
      · exact absurd rfl (h .trace)
  by_cases h2 : l = "debug".toList
  · subst h2
    constructor
    · rintro rfl; exact .inl rfl
    · rintro (h | ⟨_, h⟩)
      · cases s <;> first | rfl | exact absurd h (by decide)
      · exact absurd rfl (h .debug)
  by_cases h3 : l = "info".toList
  · subst h3
    constructor
    · rintro rfl; exact .inl rfl
    · rintro (h | ⟨_, h⟩)
      · cases s <;> first | rfl | exact absurd h (by decide)
      · exact absurd rfl (h .info)
  by_cases h4 : l = "warn".toList
  · subst h4
    constructor
    · rintro rfl; exact .inl rfl
    · rintro (h | ⟨_, h⟩)
      · cases s <;> first | rfl | exact absurd h (by decide)
      · exact absurd rfl (h .warn)
  by_cases h5 : l = "error".toList
  · subst h5
    constructor
    · rintro rfl; exact .inl rfl
    · rintro (h | ⟨_, h⟩)
      · cases s <;> first | rfl | exact absurd h (by decide)
      · exact absurd rfl (h .error)
  simp only [h1, h2, h3, h4, h5, if_false]
  constructor
  · rintro rfl
    refine .inr ⟨rfl, fun s' => ?_⟩
    cases s' <;> assumption
  · rintro (h | ⟨rfl, _⟩)
    · cases s <;> exact absurd h (by assumption)
    · rfl

/-- C165 fails: the severities of the protocol that are spelled otherwise are issued as information, so that a
subscriber set to warnings drops an entry of level `critical`. -/
theorem C165_critical_dropped (c : Config J) (h : c.level = .warn ∨ c.level = .error) (spans : List SpanFields)
    (target text : Str) :
    (∀ name ∈ ["notice", "warning", "critical", "alert", "emergency"],
      print (subscriber c) spans target (logSev name.toList) text = none) := by
  intro name hn
  have : logSev name.toList = .info := by
    simp only [List.mem_cons, List.not_mem_nil, or_false] at hn
    rcases hn with rfl | rfl | rfl | rfl | rfl <;> decide
  rw [this]
  rcases h with h | h <;> simp [print, passes, subscriber, h, rank]

/-- The context of the examples. (Specification: no counterpart in the code.) -/
def exCtx : Ctx Unit Unit := ⟨.num 7, "t".toList, none, "s".toList, some "u".toList, none, none, [], []⟩

/-- `C165_ids`, `C165_fields`: an entry under a context, with a field given twice. -/
example : let e := correlated (some exCtx) "warn".toList "m".toList [("k".toList, 1), ("j".toList, 2), ("k".toList, 3)]
    e.requestId = some (.num 7) ∧ e.userId = some "u".toList ∧ e.sessionId = none ∧
    AMap.get e.fields "k".toList = some 3 ∧ AMap.get e.fields "j".toList = some 2 := by decide

/-- `C165_severity_partial`: names in any case, and names it does not know. -/
example : logSev "WaRn".toList = .warn ∧ logSev "Error".toList = .error ∧ logSev "warning".toList = .info := by decide

/-- `C165_critical_dropped`: its hypothesis. -/
example : (⟨.warn, true, true, true, [], .pretty⟩ : Config Nat).level = .warn := rfl

/-! ### C166 -/

/-- C166: of the events written after `init_logging`, exactly those at least as severe as the configured level are
printed, once, with the text given; the target is printed exactly if `source_location` is set. -/
theorem C166_level (c : Config J) (spans : List SpanFields) (target : Str) (sev : Sev) (text : Str) (l : Line) :
    print (subscriber c) spans target sev text = some l →
      rank c.level ≤ rank sev ∧ l.sev = sev ∧ l.text = text ∧
      l.target = (if c.sourceLocation then some target else none) := by
  unfold print passes
  split
  · next h =>
    rintro ⟨⟩
    exact ⟨of_decide_eq_true h, rfl, rfl, rfl⟩
  · rintro ⟨⟩

theorem C166_level_exact (c : Config J) (spans : List SpanFields) (target : Str) (sev : Sev) (text : Str) :
    (print (subscriber c) spans target sev text).isSome = true ↔ rank c.level ≤ rank sev := by
  unfold print
  by_cases h : rank c.level ≤ rank sev
  · have : passes (subscriber c) sev = true := decide_eq_true h
    simp [this, h]
  · have : passes (subscriber c) sev = false := decide_eq_false h
    simp [this, h]

/-- C166 fails: no configuration prints JSON, the format `json` included. -/
theorem C166_never_json (c : Config J) (spans : List SpanFields) (target : Str) (sev : Sev) (text : Str) (l : Line)
    (h : print (subscriber c) spans target sev text = some l) : l.style ≠ .json := by
  unfold print at h
  split at h
  · cases h
    simp only [subscriber]
    cases c.format <;> decide
  · cases h

/-- C166 fails: the settings `timestamps`, `custom_fields` and `correlation_ids` change nothing that is printed, and
the time is printed whatever they are. -/
theorem C166_ignored (c c' : Config J) (h1 : c'.level = c.level) (h2 : c'.sourceLocation = c.sourceLocation)
    (h3 : c'.format = c.format) (spans : List SpanFields) (target : Str) (sev : Sev) (text : Str) :
    print (subscriber c') spans target sev text = print (subscriber c) spans target sev text ∧
    (subscriber c').time = true ∧ (subscriber c').extra = [] := by
  refine ⟨?_, rfl, rfl⟩
  have hp : ∀ s, passes (subscriber c') s = passes (subscriber c) s := fun s => by
    show decide (rank c'.level ≤ _) = decide (rank c.level ≤ _); rw [h1]
  have ht : (subscriber c').target = (subscriber c).target := h2
  have hs : (subscriber c').style = (subscriber c).style := by
    show (match c'.format with | .json => Style.full | .pretty => .pretty | .compact => .compact) = _
    rw [h3]; rfl
  unfold print
  rw [hp, hp, ht, hs]

/-- C166 fails: `init_logging` returns a `Result`, but called in a process that has a subscriber it panics; it never
returns an error. -/
theorem C166_twice (c : Config J) : initLogging true c = .panicked ∧ ∀ b, initLogging b c ≠ .failed := by
  refine ⟨rfl, fun b => ?_⟩
  cases b <;> simp [initLogging]

/-- C166: the first call installs the subscriber. -/
theorem C166_once_partial (c : Config J) : ∃ s, initLogging false c = .installed s ∧ s.filter = c.level ∧
    s.target = c.sourceLocation ∧ (s.style = .pretty ↔ c.format = .pretty) ∧
    (s.style = .compact ↔ c.format = .compact) := by
  refine ⟨subscriber c, rfl, rfl, rfl, ?_, ?_⟩ <;> simp only [subscriber] <;> cases c.format <;> decide

/-- `C166_level`, `C166_never_json`: a warning under the level `info` and the format `json`. -/
example : print (subscriber (⟨.info, false, true, true, [], .json⟩ : Config Nat)) [] "t".toList .warn "m".toList =
    some ⟨.warn, "m".toList, some "t".toList, [], .full⟩ := by decide

/-- `C166_ignored`: two configurations that differ in what is ignored. -/
example : print (subscriber (⟨.info, false, true, true, [("svc".toList, 1)], .json⟩ : Config Nat)) [] [] .warn [] =
    print (subscriber (⟨.info, true, true, false, [], .json⟩ : Config Nat)) [] [] .warn [] :=
  (C166_ignored _ _ rfl rfl rfl _ _ _ _).1

/-! ### C167 -/

/-- C167: the span of a logger names the operation and carries the ids of the context it was made from. -/
theorem C167_fields (op : Str) (c : Ctx Info Meta) :
    fromContext op c = ⟨op, some (showId c.requestId), some c.traceId, some c.spanId, c.userId, c.sessionId⟩ := by
  unfold fromContext
  cases c.userId <;> cases c.sessionId <;> rfl

/-- C167: a logger made without naming a context has that of the running code, or no ids at all. -/
theorem C167_current (op : Str) (cur : Option (Ctx Info Meta)) :
    newLogger op cur = match cur with
      | some c => fromContext op c
      | none => ⟨op, none, none, none, none, none⟩ := by
  cases cur <;> rfl

/-- C167, exactly: a line written in the scope of a logger carries the logger's ids if and only if the configured
level lets information through.  The property asked for, that every line written in its scope carries them, fails
for warnings and errors under the levels `warn` and `error`. -/
theorem C167_scope_partial (c : Config J) (f : SpanFields) (target : Str) (sev : Sev) (text : Str) (l : Line)
    (h : print (subscriber c) [f] target sev text = some l) :
    f ∈ l.spans ↔ (c.level = .trace ∨ c.level = .debug ∨ c.level = .info) := by
  unfold print at h
  split at h
  · cases h
    show (f ∈ if decide (rank c.level ≤ rank .info) = true then [f] else []) ↔ _
    simp only [decide_eq_true_eq]
    generalize c.level = v
    cases v <;> simp [rank]
  · cases h

/-- C167 fails: under the level `warn` an error written in the scope of a logger is printed without its ids. -/
theorem C167_scope_lost (c : Config J) (h : c.level = .warn) (f : SpanFields) (target text : Str) :
    ∃ l, print (subscriber c) [f] target .error text = some l ∧ l.spans = [] := by
  refine ⟨⟨.error, text, if c.sourceLocation then some target else none, [], (subscriber c).style⟩, ?_, rfl⟩
  simp [print, passes, subscriber, h, rank]

/-- `C167_fields`, `C167_scope_partial`: an error in the scope of a logger, under the level `info`. -/
example : fromContext "op".toList exCtx = ⟨"op".toList, some "7".toList, some "t".toList, some "s".toList, some "u".toList, none⟩ ∧
    print (subscriber (⟨.info, true, false, true, [], .compact⟩ : Config Nat)) [fromContext "op".toList exCtx] [] .error "m".toList =
      some ⟨.error, "m".toList, none, [fromContext "op".toList exCtx], .compact⟩ := by decide +kernel

/-- `C167_scope_lost`: its hypothesis. -/
example : (⟨.warn, true, true, true, [], .pretty⟩ : Config Nat).level = .warn := rfl

end Entries

/-! ### C166, in detail -/

/-- C166: the levels that a configured level lets through, of all five, in the usual order of severity. -/
theorem C166_levels (c : Config J) :
    [Sev.trace, .debug, .info, .warn, .error].filter (passes (subscriber c)) =
      match c.level with
      | .trace => [.trace, .debug, .info, .warn, .error]
      | .debug => [.debug, .info, .warn, .error]
      | .info => [.info, .warn, .error]
      | .warn => [.warn, .error]
      | .error => [.error] := by
  obtain ⟨l, a, b, d, e, f⟩ := c
  cases l <;> rfl

/-- C166: colours are switched off exactly for the format called JSON. -/
theorem C166_ansi (c : Config J) : (subscriber c).ansiOff = true ↔ c.format = .json := by
  obtain ⟨l, a, b, d, e, f⟩ := c
  cases f <;> simp [subscriber]

/-- `C166_levels`: a configuration for warnings. -/
example : [Sev.trace, .debug, .info, .warn, .error].filter
    (passes (subscriber (⟨.warn, true, true, true, [], .json⟩ : Config Nat))) = [.warn, .error] := rfl

end Verif.Logging
