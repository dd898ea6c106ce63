import Verif.Dynamic.Model
import Verif.Common.ListExtra

/-
Registration at runtime: C53, C104, C105.
-/

namespace Verif.Dynamic

open Verif

variable {N H P R S L X : Type} [DecidableEq N]

theorem run_append (srv : Server N H P X) (s : State N H P R S L X) (a b : List (Op N H P R S L)) :
    run srv s (a ++ b) = run srv (run srv s a) b := by
  induction a generalizing s with
  | nil => rfl
  | cons op r ih => exact ih _

/-! ### C53 -/

/-- What one event says about a tool, given what held before. (Specification: no counterpart in the code.) -/
def lastTool' (n : N) (cur : Option H) : Op N H P R S L → Option H
  | .addTool m h => if n = m then some h else cur
  | .removeTool m => if n = m then none else cur
  | .clearTools => none
  | _ => cur

theorem step_tools (srv : Server N H P X) (s : State N H P R S L X) (op : Op N H P R S L) (n : N) :
    AMap.get (step srv s op).1.tools n = lastTool' n (AMap.get s.tools n) op := by
  cases op with
  | addTool m h => simp only [step, lastTool', AMap.get_insert]
  | removeTool m =>
    simp only [step, lastTool']
    split
    · simp only [AMap.get_remove]
    · rename_i hc
      split
      · rename_i he
        subst he
        simp only [AMap.contains, Bool.not_eq_true, Option.isSome_eq_false_iff, Option.isNone_iff_eq_none] at hc
        exact hc
      · rfl
  | addPrompt m p => rfl
  | removePrompt m => simp only [step, lastTool']; split <;> rfl
  | setResources r => rfl
  | removeResources => rfl
  | setSampling x => rfl
  | removeSampling => rfl
  | addListener l => rfl
  | clearTools => rfl
  | clearPrompts => rfl
  | announce i => simp only [step, lastTool']; split <;> rfl

/-- The event decides about the tool. (Specification: no counterpart in the code.) -/
def touches (n : N) : Op N H P R S L → Bool
  | .addTool m _ => decide (m = n)
  | .removeTool m => decide (m = n)
  | .clearTools => true
  | _ => false

theorem untouched (n : N) (cur : Option H) (op : Op N H P R S L) (h : touches n op = false) : lastTool' n cur op = cur := by
  cases op with
  | addTool m x =>
    have : m ≠ n := by simpa [touches] using h
    simp [lastTool', this.symm]
  | removeTool m =>
    have : m ≠ n := by simpa [touches] using h
    simp [lastTool', this.symm]
  | clearTools => cases h
  | _ => rfl

/-- **C53**, tools: after any history the name resolves to the handler of its last addition if no removal or
reload came after it (the events after that addition do not touch the name). -/
theorem C53_resolves (srv : Server N H P X) (a b : List (Op N H P R S L)) (n : N) (h : H)
    (hb : ∀ op ∈ b, touches n op = false) :
    AMap.get (run srv init (a ++ .addTool n h :: b)).tools n = some h := by
  have key : ∀ (b : List (Op N H P R S L)) (s : State N H P R S L X), (∀ op ∈ b, touches n op = false) →
      AMap.get (run srv s b).tools n = AMap.get s.tools n := by
    intro b
    induction b with
    | nil => intro s _; rfl
    | cons op r ih =>
      intro s hr
      simp only [run]
      rw [ih _ (fun o ho => hr o (List.mem_cons_of_mem _ ho)), step_tools, untouched _ _ _ (hr op (List.mem_cons_self ..))]
  rw [run_append]
  simp only [run]
  rw [key b _ hb, step_tools]
  simp [lastTool']

/-- **C53**, tools: after a removal or a reload, until the name is added again, it does not resolve. -/
theorem C53_removed (srv : Server N H P X) (a b : List (Op N H P R S L)) (n : N) (op : Op N H P R S L)
    (hop : op = .removeTool n ∨ op = .clearTools) (hb : ∀ op ∈ b, touches n op = false) :
    AMap.get (run srv init (a ++ op :: b)).tools n = none := by
  have key : ∀ (b : List (Op N H P R S L)) (s : State N H P R S L X), (∀ op ∈ b, touches n op = false) →
      AMap.get (run srv s b).tools n = AMap.get s.tools n := by
    intro b
    induction b with
    | nil => intro s _; rfl
    | cons op r ih =>
      intro s hr
      simp only [run]
      rw [ih _ (fun o ho => hr o (List.mem_cons_of_mem _ ho)), step_tools, untouched _ _ _ (hr op (List.mem_cons_self ..))]
  rw [run_append]
  simp only [run]
  rw [key b _ hb, step_tools]
  rcases hop with rfl | rfl <;> simp [lastTool']

/-- **C53**, tools: a name never touched does not resolve. -/
theorem C53_never_added (srv : Server N H P X) (b : List (Op N H P R S L)) (n : N)
    (hb : ∀ op ∈ b, touches n op = false) :
    AMap.get (run srv (init : State N H P R S L X) b).tools n = none := by
  induction b using snocInduction with
  | nil => rfl
  | append_singleton l op ih =>
    rw [run_append]
    simp only [run]
    rw [step_tools, untouched _ _ _ (hb op (by simp)), ih (fun o ho => hb o (by simp [ho]))]

example : ∀ op ∈ ([.addTool 2 20, .removeTool 3] : List (Op Nat Nat Nat Nat Nat Nat)), touches 1 op = false := by decide

/-- **C53** (exact form), availability: `has_tool` is true exactly if the name resolves dynamically or the
server was built with it. Missing from the property: a removed name the server was built with stays available.
-/
theorem C53_available_partial (srv : Server N H P X) (l : List (Op N H P R S L)) (n : N) :
    hasTool srv (run srv (init : State N H P R S L X) l) n = true ↔
      (∃ h, AMap.get (run srv (init : State N H P R S L X) l).tools n = some h) ∨ (∃ h, AMap.get srv.tools n = some h) := by
  simp only [hasTool, AMap.contains, Bool.or_eq_true, Option.isSome_iff_exists]

/-- **C53** fails: a tool added over one the server was built with is still available after its removal. -/
theorem C53_static_stays (srv : Server N H P X) (a : List (Op N H P R S L)) (n : N) (h h' : H)
    (hs : AMap.get srv.tools n = some h') :
    hasTool srv (run srv (init : State N H P R S L X) (a ++ [.addTool n h, .removeTool n])) n = true :=
  (C53_available_partial srv _ n).mpr (.inr ⟨h', hs⟩)

example : AMap.get [(1, 10)] 1 = some 10 := by decide

/-- **C53**: a removal fails exactly if the name does not resolve, and then changes nothing. -/
theorem C53_remove (srv : Server N H P X) (s : State N H P R S L X) (n : N) :
    ((step srv s (.removeTool n)).2 = .notFound ↔ AMap.get s.tools n = none) ∧
      (AMap.get s.tools n = none → (step srv s (.removeTool n)).1 = s) := by
  cases h : AMap.get s.tools n with
  | none => simp [step, AMap.contains, h]
  | some h => simp [step, AMap.contains, h]

/-- **C53**: operations on one name leave all other names and all prompts alone. -/
theorem C53_frame (srv : Server N H P X) (s : State N H P R S L X) (n m : N) (h : H) (hm : m ≠ n) :
    AMap.get (step srv s (.addTool n h)).1.tools m = AMap.get s.tools m ∧
      AMap.get (step srv s (.removeTool n)).1.tools m = AMap.get s.tools m ∧
      (step srv s (.addTool n h)).1.prompts = s.prompts ∧ (step srv s (.removeTool n)).1.prompts = s.prompts := by
  refine ⟨?_, ?_, rfl, ?_⟩
  · rw [step_tools]; simp [lastTool', hm]
  · rw [step_tools]; simp [lastTool', hm]
  · simp only [step]; split <;> rfl

/-! The same for prompts. -/

/-- (Specification: no counterpart in the code.) -/
def lastPrompt' (n : N) (cur : Option P) : Op N H P R S L → Option P
  | .addPrompt m p => if n = m then some p else cur
  | .removePrompt m => if n = m then none else cur
  | .clearPrompts => none
  | _ => cur

/-- (Specification: no counterpart in the code.) -/
def touchesPrompt (n : N) : Op N H P R S L → Bool
  | .addPrompt m _ => decide (m = n)
  | .removePrompt m => decide (m = n)
  | .clearPrompts => true
  | _ => false

theorem step_prompts (srv : Server N H P X) (s : State N H P R S L X) (op : Op N H P R S L) (n : N) :
    AMap.get (step srv s op).1.prompts n = lastPrompt' n (AMap.get s.prompts n) op := by
  cases op with
  | addPrompt m h => simp only [step, lastPrompt', AMap.get_insert]
  | removePrompt m =>
    simp only [step, lastPrompt']
    split
    · simp only [AMap.get_remove]
    · rename_i hc
      split
      · rename_i he
        subst he
        simp only [AMap.contains, Bool.not_eq_true, Option.isSome_eq_false_iff, Option.isNone_iff_eq_none] at hc
        exact hc
      · rfl
  | addTool m p => rfl
  | removeTool m => simp only [step, lastPrompt']; split <;> rfl
  | setResources r => rfl
  | removeResources => rfl
  | setSampling x => rfl
  | removeSampling => rfl
  | addListener l => rfl
  | clearTools => rfl
  | clearPrompts => rfl
  | announce i => simp only [step, lastPrompt']; split <;> rfl

theorem untouchedPrompt (n : N) (cur : Option P) (op : Op N H P R S L) (h : touchesPrompt n op = false) :
    lastPrompt' n cur op = cur := by
  cases op with
  | addPrompt m x =>
    have : m ≠ n := by simpa [touchesPrompt] using h
    simp [lastPrompt', this.symm]
  | removePrompt m =>
    have : m ≠ n := by simpa [touchesPrompt] using h
    simp [lastPrompt', this.symm]
  | clearPrompts => cases h
  | _ => rfl

/-- **C53**, prompts: the last event that touches the name decides. -/
theorem C53_prompts (srv : Server N H P X) (a b : List (Op N H P R S L)) (n : N) (op : Op N H P R S L)
    (hb : ∀ op ∈ b, touchesPrompt n op = false) :
    (∀ p, op = .addPrompt n p → AMap.get (run srv (init : State N H P R S L X) (a ++ op :: b)).prompts n = some p) ∧
      (op = .removePrompt n ∨ op = .clearPrompts →
        AMap.get (run srv (init : State N H P R S L X) (a ++ op :: b)).prompts n = none) := by
  have key : ∀ (b : List (Op N H P R S L)) (s : State N H P R S L X), (∀ op ∈ b, touchesPrompt n op = false) →
      AMap.get (run srv s b).prompts n = AMap.get s.prompts n := by
    intro b
    induction b with
    | nil => intro s _; rfl
    | cons op r ih =>
      intro s hr
      simp only [run]
      rw [ih _ (fun o ho => hr o (List.mem_cons_of_mem _ ho)), step_prompts,
        untouchedPrompt _ _ _ (hr op (List.mem_cons_self ..))]
  rw [run_append]
  simp only [run]
  rw [key b _ hb, step_prompts]
  refine ⟨?_, ?_⟩
  · rintro p rfl; simp [lastPrompt']
  · rintro (rfl | rfl) <;> simp [lastPrompt']

/-- **C53**, prompts: `has_prompt` is true exactly if the name resolves dynamically or the server was built
with it. -/
theorem C53_prompt_available_partial (srv : Server N H P X) (l : List (Op N H P R S L)) (n : N) :
    hasPrompt srv (run srv (init : State N H P R S L X) l) n = true ↔
      (∃ p, AMap.get (run srv (init : State N H P R S L X) l).prompts n = some p) ∨ (∃ p, AMap.get srv.prompts n = some p) := by
  simp only [hasPrompt, AMap.contains, Bool.or_eq_true, Option.isSome_iff_exists]

/-! Resource and sampling handlers. -/

/-- The resource handler set last and not removed since. (Specification: no counterpart in the code.) -/
def lastResources : List (Op N H P R S L) → Option R → Option R
  | [], cur => cur
  | .setResources r :: l, _ => lastResources l (some r)
  | .removeResources :: l, _ => lastResources l none
  | _ :: l, cur => lastResources l cur

/-- The sampling handler set last and not removed since. (Specification: no counterpart in the code.) -/
def lastSampling : List (Op N H P R S L) → Option S → Option S
  | [], cur => cur
  | .setSampling r :: l, _ => lastSampling l (some r)
  | .removeSampling :: l, _ => lastSampling l none
  | _ :: l, cur => lastSampling l cur

/-- **C53**: the resource and the sampling handler are the ones set last, unless removed since; nothing else
touches them. -/
theorem C53_handlers (srv : Server N H P X) (l : List (Op N H P R S L)) :
    (run srv (init : State N H P R S L X) l).resources = lastResources l none ∧
      (run srv (init : State N H P R S L X) l).sampling = lastSampling l none := by
  suffices key : ∀ (l : List (Op N H P R S L)) (s : State N H P R S L X),
      (run srv s l).resources = lastResources l s.resources ∧ (run srv s l).sampling = lastSampling l s.sampling from
    key l init
  intro l
  induction l with
  | nil => intro s; exact ⟨rfl, rfl⟩
  | cons op l ih =>
    intro s
    simp only [run]
    rw [(ih _).1, (ih _).2]
    cases op <;> simp only [step, lastResources, lastSampling] <;> (try split) <;> simp only [and_self]

example : lastResources ([.setResources 4, .addTool 1 1, .setResources 5, .removeSampling] : List (Op Nat Nat Nat Nat Nat Nat))
    none = some 5 := rfl

/-! ### C53, announcements -/

/-- The step changed a registration (and so is to be announced). (Specification: no counterpart in the code.) -/
def changes (srv : Server N H P X) (s : State N H P R S L X) (op : Op N H P R S L) : Bool :=
  match op with
  | .announce _ => false
  | .addListener _ => false
  | .clearTools => false
  | .clearPrompts => false
  | _ => decide ((step srv s op).2 = .ok)

/-- **C53**, announcements: every successful change causes exactly one announcement, a failed removal none; an
announcement calls every listener registered at that time exactly once. Missing: the clearing by a reload is announced
by nothing. -/
theorem C53_announced_partial (srv : Server N H P X) (s : State N H P R S L X) (op : Op N H P R S L) :
    (∀ i, op ≠ .announce i) →
      (step srv s op).1.jobs.length = s.jobs.length + (if changes srv s op then 1 else 0) ∧
      (step srv s op).1.log = s.log := by
  intro hne
  cases op with
  | removeTool m => simp only [step, changes]; split <;> simp
  | removePrompt m => simp only [step, changes]; split <;> simp
  | announce i => exact absurd rfl (hne i)
  | _ => simp [step, changes]

theorem C53_announce (srv : Server N H P X) (s : State N H P R S L X) (i : Nat) (hi : i < s.jobs.length) :
    (step srv s (.announce i)).1.jobs.length + 1 = s.jobs.length ∧
      ((step srv s (.announce i)).1.log.map Prod.fst) = s.log.map Prod.fst ++ s.listeners := by
  simp only [step, List.getElem?_eq_getElem hi]
  refine ⟨?_, ?_⟩
  · rw [List.length_eraseIdx, if_pos hi]; omega
  · simp [announceTo, Function.comp_def]

/-! ### C104 -/

/-- What a client of the server ought to be told after a change, other changes apart: adding a tool or a prompt
makes the feature available with changes announced, setting a resource handler makes resources available with
subscriptions, removing a handler makes its feature unavailable, removing a tool or a prompt says nothing.
(Specification: no counterpart in the code.) -/
def says (op : Op N H P R S L) (c : Caps X) : Caps X :=
  match op with
  | .addTool _ _ => ⟨some (some true), c.prompts, c.resources, c.sampling, c.rest⟩
  | .addPrompt _ _ => ⟨c.tools, some (some true), c.resources, c.sampling, c.rest⟩
  | .setResources _ => ⟨c.tools, c.prompts, some (some true, some true), c.sampling, c.rest⟩
  | .removeResources => ⟨c.tools, c.prompts, none, c.sampling, c.rest⟩
  | .setSampling _ => ⟨c.tools, c.prompts, c.resources, some (), c.rest⟩
  | .removeSampling => ⟨c.tools, c.prompts, c.resources, none, c.rest⟩
  | _ => c

/-- **C104**: the announcement of a change tells every listener, in the order of registration, the capabilities the
server was built with and this change. Missing from the property: the effects of other changes (`C104_forgets`). -/
theorem C104_says_partial (srv : Server N H P X) (s : State N H P R S L X) (op : Op N H P R S L)
    (hc : changes srv s op = true) :
    (step srv (step srv s op).1 (.announce s.jobs.length)).1.log =
      s.log ++ s.listeners.map (fun l => (l, says op srv.caps)) := by
  cases op with
  | removeTool m =>
    simp only [changes, step] at hc
    split at hc
    · rename_i h; simp [step, h, announceTo, says, Upd.apply]
    · simp at hc
  | removePrompt m =>
    simp only [changes, step] at hc
    split at hc
    · rename_i h; simp [step, h, announceTo, says, Upd.apply]
    · simp at hc
  | announce i => cases hc
  | addListener l => cases hc
  | clearTools => cases hc
  | clearPrompts => cases hc
  | _ => simp [step, announceTo, says, Upd.apply]

example : changes (⟨[], [], ⟨none, none, none, none, ()⟩⟩ : Server Nat Nat Nat Unit)
    (init : State Nat Nat Nat Nat Nat Nat Unit) (.setResources 3) = true := rfl

/-- **C104** (exact form): what listeners are told is the capabilities the server was built with, except for the
part the announced change is about. Missing from the property: everything other changes did. -/
theorem C104_content_partial (srv : Server N H P X) (s : State N H P R S L X) (i : Nat) (u : Upd)
    (hi : s.jobs[i]? = some u) (l : L) (c : Caps X) :
    (l, c) ∈ ((step srv s (.announce i)).1.log.drop s.log.length) →
      c = u.apply srv.caps ∧ l ∈ s.listeners := by
  simp only [step, hi]
  rw [List.drop_append_of_le_length (Nat.le_refl _), List.drop_length, List.nil_append]
  intro h
  simp only [announceTo, List.mem_map, Prod.mk.injEq] at h
  obtain ⟨x, hx, rfl, rfl⟩ := h
  exact ⟨rfl, hx⟩

/-- **C104** fails: with a prompt added and then a tool, on a server built without prompts, the last
announcement says that there are no prompts. -/
theorem C104_forgets (srv : Server N H P X) (hp : srv.caps.prompts = none) (n m : N) (p : P) (h : H) (l : L) :
    let s := run srv (init : State N H P R S L X) [.addListener l, .addPrompt n p, .announce 0, .addTool m h, .announce 0]
    (AMap.get s.prompts n = some p) ∧ s.log.getLast? = some (l, Upd.tools.apply srv.caps) ∧
      (Upd.tools.apply srv.caps).prompts = none := by
  refine ⟨?_, ?_, ?_⟩
  · simp [run, step, init, announceTo]
  · simp [run, step, init, announceTo]
  · simp [Upd.apply, hp]

example : ({ tools := none, prompts := none, resources := none, sampling := none, rest := () } : Caps Unit).prompts =
    none := rfl

/-! ### C105 -/

/-- **C105** fails: what a client can call is what the server was built with, whatever is added at runtime. -/
theorem C105_not_callable (srv : Server N H P X) (l : List (Op N H P R S L)) (n : N) (h : H)
    (hs : AMap.get srv.tools n = none) :
    hasTool srv (run srv (init : State N H P R S L X) (l ++ [.addTool n h])) n = true ∧ serverTool srv n = none := by
  refine ⟨(C53_available_partial srv _ n).mpr (.inl ⟨h, ?_⟩), hs⟩
  exact C53_resolves srv l [] n h (by simp)

/-- **C105** (exact form): a name that is available is callable by a client exactly if the server was built with
it. Missing from the property: names added at runtime. -/
theorem C105_callable_partial (srv : Server N H P X) (l : List (Op N H P R S L)) (n : N)
    (ha : hasTool srv (run srv (init : State N H P R S L X) l) n = true) :
    (serverTool srv n).isSome = true ∨
      (serverTool srv n = none ∧ ∃ h, AMap.get (run srv (init : State N H P R S L X) l).tools n = some h) := by
  rcases (C53_available_partial srv l n).mp ha with h | ⟨h, hs⟩
  · cases hs : serverTool srv n with
    | none => exact .inr ⟨rfl, h⟩
    | some x => exact .inl rfl
  · exact .inl (by simp [serverTool, hs])

/-- A server built with the tool 0; the tool 1 is added later: it is available, but no client can call it. -/
example : let srv : Server Nat Nat Nat Unit := ⟨[(0, 5)], [], ⟨none, none, none, none, ()⟩⟩
    hasTool srv (run srv (init : State Nat Nat Nat Nat Nat Nat Unit) ([.removeTool 3] ++ [.addTool 1 6])) 1 = true ∧
      serverTool srv 1 = none := C105_not_callable _ [.removeTool 3] 1 6 rfl

end Verif.Dynamic
