import Verif.Dynamic.Props

/-
Replacing the configuration at runtime: C211.

Models /repo/src/server/dynamic.rs L288-313 and L346-471.
-/

namespace Verif.Dynamic

open Verif

variable {N H P R S L X : Type} [DecidableEq N]

/-- `DynamicConfig`; the infos of tools and prompts are not used by the manager and left out,
/repo/src/server/dynamic.rs L346-360. -/
structure Config (N H P R S : Type) where
  tools : AMap N H := []
  prompts : AMap N P := []
  resources : Option R := none
  sampling : Option S := none

/-- The methods of `DynamicConfigBuilder`, /repo/src/server/dynamic.rs L424-459. -/
inductive BuildOp (N H P R S : Type) where
  | tool (n : N) (h : H)
  | prompt (n : N) (p : P)
  | resources (r : R)
  | sampling (s : S)

/-- One method of `DynamicConfigBuilder`, /repo/src/server/dynamic.rs L424-459. -/
def buildStep (c : Config N H P R S) : BuildOp N H P R S → Config N H P R S
  | .tool n h => { c with tools := AMap.insert c.tools n h }
  | .prompt n p => { c with prompts := AMap.insert c.prompts n p }
  | .resources r => { c with resources := some r }
  | .sampling s => { c with sampling := some s }

/-- `DynamicConfigBuilder::new`, methods, `build`, /repo/src/server/dynamic.rs L417-464. -/
def build (l : List (BuildOp N H P R S)) : Config N H P R S := l.foldl buildStep {}

/-- The steps of `reload_configuration`, where the entries of the maps are visited in the orders `ts` and `ps`; the
announcements made in between are steps of their own. /repo/src/server/dynamic.rs L288-313. -/
def reload (c : Config N H P R S) (ts : List (N × H)) (ps : List (N × P)) : List (Op N H P R S L) :=
  [.clearTools, .clearPrompts] ++ ts.map (fun p => .addTool p.1 p.2) ++ ps.map (fun p => .addPrompt p.1 p.2) ++
    c.resources.toList.map .setResources ++ c.sampling.toList.map .setSampling

/-! ### C211 -/

/-- What the builder was told last. (Specification: no counterpart in the code.) -/
def lastOf {A B : Type} (f : A → Option B) (l : List A) : Option B := (l.filterMap f).getLast?

/-- The tool of that name in a method of the builder. (Specification: no counterpart in the code.) -/
def BuildOp.asTool (n : N) : BuildOp N H P R S → Option H
  | .tool m h => if m = n then some h else none
  | _ => none

/-- The prompt of that name in a method of the builder. (Specification: no counterpart in the code.) -/
def BuildOp.asPrompt (n : N) : BuildOp N H P R S → Option P
  | .prompt m p => if m = n then some p else none
  | _ => none

/-- The resource handler in a method of the builder. (Specification: no counterpart in the code.) -/
def BuildOp.asResources : BuildOp N H P R S → Option R
  | .resources r => some r
  | _ => none

/-- The sampling handler in a method of the builder. (Specification: no counterpart in the code.) -/
def BuildOp.asSampling : BuildOp N H P R S → Option S
  | .sampling s => some s
  | _ => none

theorem lastOf_snoc {A B : Type} (f : A → Option B) (l : List A) (a : A) :
    lastOf f (l ++ [a]) = (f a).or (lastOf f l) := by
  simp only [lastOf, List.filterMap_append, List.filterMap_cons, List.filterMap_nil]
  cases f a <;> simp

/-- C211: the builder keeps, for each name, what it was told last. -/
theorem C211_built (l : List (BuildOp N H P R S)) :
    (∀ n, AMap.get (build l).tools n = lastOf (·.asTool n) l) ∧
    (∀ n, AMap.get (build l).prompts n = lastOf (·.asPrompt n) l) ∧
    (build l).resources = lastOf (·.asResources) l ∧ (build l).sampling = lastOf (·.asSampling) l := by
  induction l using snocInduction with
  | nil => exact ⟨fun _ => rfl, fun _ => rfl, rfl, rfl⟩
  | append_singleton l op ih =>
    obtain ⟨h1, h2, h3, h4⟩ := ih
    have : build (l ++ [op]) = buildStep (build l) op := by simp [build]
    rw [this]
    simp only [lastOf_snoc]
    cases op with
    | tool m h =>
      refine ⟨fun n => ?_, h2, h3, h4⟩
      simp only [buildStep, AMap.get_insert, BuildOp.asTool, h1]
      by_cases e : n = m
      · subst e; simp
      · simp [e, Ne.symm e]
    | prompt m h =>
      refine ⟨h1, fun n => ?_, h3, h4⟩
      simp only [buildStep, AMap.get_insert, BuildOp.asPrompt, h2]
      by_cases e : n = m
      · subst e; simp
      · simp [e, Ne.symm e]
    | resources r => exact ⟨h1, h2, rfl, h4⟩
    | sampling r => exact ⟨h1, h2, h3, rfl⟩

theorem built_wf (l : List (BuildOp N H P R S)) : AMap.WF (build l).tools ∧ AMap.WF (build l).prompts := by
  induction l using snocInduction with
  | nil => exact ⟨AMap.wf_nil, AMap.wf_nil⟩
  | append_singleton l op ih =>
    have : build (l ++ [op]) = buildStep (build l) op := by simp [build]
    rw [this]
    cases op with
    | tool m h => exact ⟨AMap.wf_insert ih.1 m h, ih.2⟩
    | prompt m h => exact ⟨ih.1, AMap.wf_insert ih.2 m h⟩
    | resources r => exact ih
    | sampling r => exact ih

/-- The step changes registrations; the others are announcements and new listeners.
(Specification: no counterpart in the code.) -/
def Op.registers : Op N H P R S L → Bool
  | .announce _ => false
  | .addListener _ => false
  | _ => true

theorem run_tools (srv : Server N H P X) (l : List (Op N H P R S L)) (s : State N H P R S L X) (n : N) :
    AMap.get (run srv s l).tools n = l.foldl (lastTool' n) (AMap.get s.tools n) := by
  induction l generalizing s with
  | nil => rfl
  | cons op l ih => simp only [run, List.foldl_cons, ih, step_tools]

theorem run_prompts (srv : Server N H P X) (l : List (Op N H P R S L)) (s : State N H P R S L X) (n : N) :
    AMap.get (run srv s l).prompts n = l.foldl (lastPrompt' n) (AMap.get s.prompts n) := by
  induction l generalizing s with
  | nil => rfl
  | cons op l ih => simp only [run, List.foldl_cons, ih, step_prompts]

theorem run_handlers (srv : Server N H P X) (l : List (Op N H P R S L)) (s : State N H P R S L X) :
    (run srv s l).resources = lastResources l s.resources ∧ (run srv s l).sampling = lastSampling l s.sampling := by
  induction l generalizing s with
  | nil => exact ⟨rfl, rfl⟩
  | cons op l ih =>
    simp only [run]
    rw [(ih _).1, (ih _).2]
    cases op <;> simp only [step, lastResources, lastSampling] <;> (try split) <;> simp only [and_self]

theorem foldl_tools_filter (l : List (Op N H P R S L)) (n : N) (x : Option H) :
    l.foldl (lastTool' n) x = (l.filter Op.registers).foldl (lastTool' n) x := by
  induction l generalizing x with
  | nil => rfl
  | cons op l ih => cases op <;> simp [List.filter_cons, Op.registers, lastTool', ih]

theorem foldl_prompts_filter (l : List (Op N H P R S L)) (n : N) (x : Option P) :
    l.foldl (lastPrompt' n) x = (l.filter Op.registers).foldl (lastPrompt' n) x := by
  induction l generalizing x with
  | nil => rfl
  | cons op l ih => cases op <;> simp [List.filter_cons, Op.registers, lastPrompt', ih]

theorem handlers_filter (l : List (Op N H P R S L)) (x : Option R) (y : Option S) :
    lastResources l x = lastResources (l.filter Op.registers) x ∧
    lastSampling l y = lastSampling (l.filter Op.registers) y := by
  induction l generalizing x y with
  | nil => exact ⟨rfl, rfl⟩
  | cons op l ih => cases op <;> simp [List.filter_cons, Op.registers, lastResources, lastSampling] <;>
      first | exact ih _ _ | exact (ih x y).1 | exact (ih x y).2 | skip

theorem fold_addTools (n : N) (ts : List (N × H)) (h : AMap.WF ts) (x : Option H) :
    (ts.map (fun p => (Op.addTool p.1 p.2 : Op N H P R S L))).foldl (lastTool' n) x = (AMap.get ts n).or x := by
  induction ts generalizing x with
  | nil => rfl
  | cons p ts ih =>
    obtain ⟨m, v⟩ := p
    unfold AMap.WF AMap.keys at h ih
    simp only [List.map_cons, List.nodup_cons] at h
    simp only [List.map_cons, List.foldl_cons, lastTool', ih h.2, AMap.get_cons]
    by_cases e : m = n
    · subst e
      have : AMap.get ts m = none := by
        cases hg : AMap.get ts m with
        | none => rfl
        | some w => exact absurd (List.mem_map_of_mem (f := (·.1)) (AMap.mem_of_get hg)) h.1
      simp [this]
    · simp [e, Ne.symm e]

theorem fold_addPrompts (n : N) (ts : List (N × P)) (h : AMap.WF ts) (x : Option P) :
    (ts.map (fun p => (Op.addPrompt p.1 p.2 : Op N H P R S L))).foldl (lastPrompt' n) x = (AMap.get ts n).or x := by
  induction ts generalizing x with
  | nil => rfl
  | cons p ts ih =>
    obtain ⟨m, v⟩ := p
    unfold AMap.WF AMap.keys at h ih
    simp only [List.map_cons, List.nodup_cons] at h
    simp only [List.map_cons, List.foldl_cons, lastPrompt', ih h.2, AMap.get_cons]
    by_cases e : m = n
    · subst e
      have : AMap.get ts m = none := by
        cases hg : AMap.get ts m with
        | none => rfl
        | some w => exact absurd (List.mem_map_of_mem (f := (·.1)) (AMap.mem_of_get hg)) h.1
      simp [this]
    · simp [e, Ne.symm e]

theorem get_perm {V : Type} {a b : List (N × V)} (hp : a.Perm b) (h : AMap.WF b) (n : N) :
    AMap.WF a ∧ AMap.get a n = AMap.get b n := by
  have ha : AMap.WF a := (hp.map (fun p : N × V => p.1)).nodup_iff.mpr h
  refine ⟨ha, ?_⟩
  cases hg : AMap.get b n with
  | some v => exact AMap.get_of_mem ha (hp.mem_iff.mpr (AMap.mem_of_get hg))
  | none =>
    cases hg' : AMap.get a n with
    | none => rfl
    | some v =>
      rw [AMap.get_of_mem h (hp.mem_iff.mp (AMap.mem_of_get hg'))] at hg
      cases hg

theorem addTools_prompts (n : N) (ts : List (N × H)) (y : Option P) :
    (ts.map (fun p => (Op.addTool p.1 p.2 : Op N H P R S L))).foldl (lastPrompt' n) y = y := by
  induction ts with
  | nil => rfl
  | cons p ps ih => simpa only [List.map_cons, List.foldl_cons, lastPrompt'] using ih

theorem addPrompts_tools (n : N) (ps : List (N × P)) (x : Option H) :
    (ps.map (fun p => (Op.addPrompt p.1 p.2 : Op N H P R S L))).foldl (lastTool' n) x = x := by
  induction ps with
  | nil => rfl
  | cons p ps ih => simpa only [List.map_cons, List.foldl_cons, lastTool'] using ih

theorem handlers_adds (l : List (Op N H P R S L)) (ts : List (N × H)) (ps : List (N × P)) (z : Option R) (w : Option S) :
    lastResources (ts.map (fun p => (Op.addTool p.1 p.2 : Op N H P R S L)) ++
      (ps.map (fun p => (Op.addPrompt p.1 p.2 : Op N H P R S L)) ++ l)) z = lastResources l z ∧
    lastSampling (ts.map (fun p => (Op.addTool p.1 p.2 : Op N H P R S L)) ++
      (ps.map (fun p => (Op.addPrompt p.1 p.2 : Op N H P R S L)) ++ l)) w = lastSampling l w := by
  induction ts with
  | nil =>
    induction ps with
    | nil => exact ⟨rfl, rfl⟩
    | cons p ps ih => simpa only [List.map_cons, List.map_nil, List.nil_append, List.cons_append, lastResources, lastSampling] using ih
  | cons p ts ih => simpa only [List.map_cons, List.cons_append, lastResources, lastSampling] using ih

theorem reload_tools (c : Config N H P R S) (ts : List (N × H)) (ps : List (N × P)) (ht : AMap.WF ts) (n : N)
    (x : Option H) : (reload c ts ps : List (Op N H P R S L)).foldl (lastTool' n) x = AMap.get ts n := by
  simp only [reload, List.foldl_append, List.foldl_cons, List.foldl_nil, lastTool', fold_addTools n ts ht,
    addPrompts_tools, Option.or_none]
  cases c.resources <;> cases c.sampling <;> rfl

theorem reload_prompts (c : Config N H P R S) (ts : List (N × H)) (ps : List (N × P)) (hp : AMap.WF ps) (n : N)
    (x : Option P) : (reload c ts ps : List (Op N H P R S L)).foldl (lastPrompt' n) x = AMap.get ps n := by
  simp only [reload, List.foldl_append, List.foldl_cons, List.foldl_nil, lastPrompt', fold_addPrompts n ps hp,
    addTools_prompts, Option.or_none]
  cases c.resources <;> cases c.sampling <;> rfl

theorem reload_handlers (c : Config N H P R S) (ts : List (N × H)) (ps : List (N × P)) (z : Option R) (w : Option S) :
    lastResources (reload c ts ps : List (Op N H P R S L)) z = c.resources.or z ∧
    lastSampling (reload c ts ps : List (Op N H P R S L)) w = c.sampling.or w := by
  simp only [reload, List.cons_append, List.nil_append, List.append_assoc, lastResources, lastSampling,
    (handlers_adds _ ts ps z w).1, (handlers_adds _ ts ps z w).2]
  cases c.resources <;> cases c.sampling <;> exact ⟨rfl, rfl⟩

/-- C211: after a reload that no other registration interferes with, whatever was registered before and in whatever order
the maps are visited: exactly the tools and prompts of the new configuration resolve, each to what the builder was told
last. The handlers for resources and sampling are those of the new configuration if it has them.

Partial: if it has none, the old handlers stay (`C211_handler_stays`); meanwhile tools of both configurations are missing
(`C211_gap`); two reloads at the same time mix (`C211_mixed`). -/
theorem C211_reloaded_partial (srv : Server N H P X) (before l : List (Op N H P R S L)) (b : List (BuildOp N H P R S))
    (ts : List (N × H)) (ps : List (N × P)) (ht : ts.Perm (build b).tools) (hp : ps.Perm (build b).prompts)
    (hl : l.filter Op.registers = reload (build b) ts ps) :
    (∀ n, AMap.get (run srv (init : State N H P R S L X) (before ++ l)).tools n = lastOf (·.asTool n) b) ∧
    (∀ n, AMap.get (run srv (init : State N H P R S L X) (before ++ l)).prompts n = lastOf (·.asPrompt n) b) ∧
    (run srv (init : State N H P R S L X) (before ++ l)).resources =
      (lastOf (·.asResources) b).or (run srv (init : State N H P R S L X) before).resources ∧
    (run srv (init : State N H P R S L X) (before ++ l)).sampling =
      (lastOf (·.asSampling) b).or (run srv (init : State N H P R S L X) before).sampling := by
  obtain ⟨c1, c2, c3, c4⟩ := C211_built b
  obtain ⟨w1, w2⟩ := built_wf b
  rw [run_append]
  refine ⟨fun n => ?_, fun n => ?_, ?_, ?_⟩
  · obtain ⟨v1, v2⟩ := get_perm ht w1 n
    rw [run_tools, foldl_tools_filter, hl, reload_tools _ _ _ v1, v2, c1]
  · obtain ⟨v1, v2⟩ := get_perm hp w2 n
    rw [run_prompts, foldl_prompts_filter, hl, reload_prompts _ _ _ v1, v2, c2]
  · rw [(run_handlers srv l _).1, (handlers_filter l _ none).1, hl, ← c3]
    exact (reload_handlers _ _ _ _ none).1
  · rw [(run_handlers srv l _).2, (handlers_filter l none _).2, hl, ← c4]
    exact (reload_handlers _ _ _ none _).2

example : ([.clearTools, .clearPrompts, .addTool 2 20, .announce 0, .addTool 1 11, .announce 0] :
    List (Op Nat Nat Nat Nat Nat Nat)).filter Op.registers =
      reload (build [.tool 1 10, .tool 2 20, .tool 1 11]) [(2, 20), (1, 11)] [] := rfl

example : [(2, 20), (1, 11)].Perm (build ([.tool 1 10, .tool 2 20, .tool 1 11] : List (BuildOp Nat Nat Nat Nat Nat))).tools := by
  decide

/-- C211 fails: a configuration without a handler for resources leaves the old one in place, and the same for
sampling. -/
theorem C211_handler_stays (srv : Server N H P X) (before l : List (Op N H P R S L)) (b : List (BuildOp N H P R S))
    (ts : List (N × H)) (ps : List (N × P)) (ht : ts.Perm (build b).tools) (hp : ps.Perm (build b).prompts)
    (hl : l.filter Op.registers = reload (build b) ts ps) (r : R)
    (hr : (run srv (init : State N H P R S L X) before).resources = some r) (hb : ∀ x, BuildOp.resources x ∉ b) :
    (run srv (init : State N H P R S L X) (before ++ l)).resources = some r := by
  rw [(C211_reloaded_partial srv before l b ts ps ht hp hl).2.2.1, hr]
  have : lastOf (·.asResources) b = none := by
    have : b.filterMap (·.asResources) = [] := by
      rw [List.filterMap_eq_nil_iff]
      intro op hop
      cases op with
      | resources x => exact absurd hop (hb x)
      | _ => rfl
    simp [lastOf, this]
  rw [this]; rfl

example (srv : Server Nat Nat Nat Unit) :
    (run srv (init : State Nat Nat Nat Nat Nat Nat Unit) [.setResources 7]).resources = some 7 := rfl

/-- C211 fails: there is a moment in every reload in which no tool resolves, also those that are in both
configurations. -/
theorem C211_gap (srv : Server N H P X) (before : List (Op N H P R S L)) (c : Config N H P R S) (ts : List (N × H))
    (ps : List (N × P)) : ∃ rest, (reload c ts ps : List (Op N H P R S L)) = .clearTools :: .clearPrompts :: rest ∧
      ∀ n, AMap.get (run srv (init : State N H P R S L X) (before ++ [.clearTools, .clearPrompts])).tools n = none ∧
        AMap.get (run srv (init : State N H P R S L X) (before ++ [.clearTools, .clearPrompts])).prompts n = none := by
  refine ⟨_, rfl, fun n => ?_⟩
  rw [run_append]
  exact ⟨rfl, rfl⟩

/-- C211 fails: of two reloads at the same time neither may win; here the tools of both resolve. -/
theorem C211_mixed (srv : Server N H P X) (n m : N) (hnm : n ≠ m) (h k : H) :
    ∃ l : List (Op N H P R S L),
      l = [.clearTools, .clearTools, .clearPrompts, .clearPrompts, .addTool n h, .addTool m k] ∧
      (reload (build [.tool n h]) [(n, h)] [] : List (Op N H P R S L)) = [.clearTools, .clearPrompts, .addTool n h] ∧
      (reload (build [.tool m k]) [(m, k)] [] : List (Op N H P R S L)) = [.clearTools, .clearPrompts, .addTool m k] ∧
      AMap.get (run srv (init : State N H P R S L X) l).tools n = some h ∧
      AMap.get (run srv (init : State N H P R S L X) l).tools m = some k := by
  refine ⟨_, rfl, rfl, rfl, ?_, ?_⟩
  · simp [run_tools, lastTool', hnm]
  · simp [run_tools, lastTool']

/-- C211: however many reloads and additions interleave, once one of them has cleared the tools, every tool that resolves
is one that was added since. -/
theorem C211_only_new (srv : Server N H P X) (before l : List (Op N H P R S L)) (n : N) (h : H)
    (hg : AMap.get (run srv (init : State N H P R S L X) (before ++ .clearTools :: l)).tools n = some h) :
    Op.addTool n h ∈ l := by
  rw [run_append, run_tools] at hg
  simp only [List.foldl_cons, lastTool'] at hg
  induction l using snocInduction with
  | nil => cases hg
  | append_singleton l op ih =>
    rw [List.foldl_append] at hg
    simp only [List.foldl_cons, List.foldl_nil] at hg
    by_cases ht : touches n op = true
    · cases op with
      | addTool m x =>
        simp only [touches, decide_eq_true_eq] at ht
        subst ht
        simp only [lastTool', if_true, Option.some.injEq] at hg
        subst hg
        simp
      | removeTool m =>
        simp only [touches, decide_eq_true_eq] at ht
        subst ht
        simp [lastTool'] at hg
      | clearTools => cases hg
      | _ => cases ht
    · rw [untouched n _ op (by simpa using ht)] at hg
      exact List.mem_append_left _ (ih hg)

example (srv : Server Nat Nat Nat Unit) : AMap.get (run srv (init : State Nat Nat Nat Nat Nat Nat Unit)
    ([.addTool 1 1] ++ .clearTools :: [.clearTools, .addTool 2 5])).tools 2 = some 5 := rfl

end Verif.Dynamic
