import Verif.Wire.Props
import Verif.Common.ListExtra

/-
The builder of elicitation requests (/repo/src/types/elicitation.rs L227-396), C157.
-/

namespace Verif.Elicit.Builder

open Verif.Wire

/-- The calls on an `ElicitInputBuilder` (types/elicitation.rs L253-365). -/
inductive Call where
  | id (s : String)
  | description (s : String)
  | default (v : Json)
  | required
  | min (x : F64)
  | max (x : F64)
  | pattern (s : String)
  | options (l : List SelectOption)
  | metadata (k : String) (v : Json)

/-- `ElicitInputBuilder::new` (types/elicitation.rs L241-251); `uuid` is the random id. The builder has the
fields of the request it builds (L228-237), so it is represented by it, and `build` (L368-378) is the identity.
-/
def new (uuid : String) (t : InputType) (prompt : String) : ElicitRequest :=
  { elicitationId := uuid, inputType := t, prompt := prompt }

/-- Change the validation, beginning with a new one if there is none yet (the two branches of types/elicitation.rs
L272-287, L290-303, L306-319, L322-335, L338-351). -/
def validate (b : ElicitRequest) (fresh : InputValidation) (f : InputValidation → InputValidation) : ElicitRequest :=
  match b.validation with
  | none => { b with validation := some fresh }
  | some v => { b with validation := some (f v) }

/-- One call (types/elicitation.rs L253-365). -/
def apply (b : ElicitRequest) : Call → ElicitRequest
  | .id s => { b with elicitationId := s }
  | .description s => { b with description := some s }
  | .default v => { b with default := some v }
  | .required => validate b { required := true } (fun v => { v with required := true })
  | .min x => validate b { min := some x } (fun v => { v with min := some x })
  | .max x => validate b { max := some x } (fun v => { v with max := some x })
  | .pattern s => validate b { pattern := some s } (fun v => { v with pattern := some s })
  | .options l => validate b { options := some l } (fun v => { v with options := some l })
  | .metadata k v => { b with metadata := AMap.insert b.metadata k v }

/-- A chain of calls after `new`. (/repo/src/types/elicitation.rs L226-373.) -/
def build (uuid : String) (t : InputType) (prompt : String) (cs : List Call) : ElicitRequest :=
  cs.foldl apply (new uuid t prompt)

/-- `elicit_select` (types/elicitation.rs L389-391); the other helpers (L381-401) are `new` with an input type. -/
def elicitSelect (uuid : String) (prompt : String) (l : List SelectOption) (cs : List Call) : ElicitRequest :=
  cs.foldl apply (apply (new uuid .select prompt) (.options l))

/-! ### C157 -/

/-- The argument of the last call of a kind. (Specification: no counterpart in the code.) -/
def last {α : Type} (sel : Call → Option α) (cs : List Call) : Option α := cs.reverse.findSome? sel

/-- (Specification: no counterpart in the code.) -/
def idOf : Call → Option String | .id s => some s | _ => none
/-- (Specification: no counterpart in the code.) -/
def descriptionOf : Call → Option String | .description s => some s | _ => none
/-- (Specification: no counterpart in the code.) -/
def defaultOf : Call → Option Json | .default v => some v | _ => none
/-- (Specification: no counterpart in the code.) -/
def minOf : Call → Option F64 | .min x => some x | _ => none
/-- (Specification: no counterpart in the code.) -/
def maxOf : Call → Option F64 | .max x => some x | _ => none
/-- (Specification: no counterpart in the code.) -/
def patternOf : Call → Option String | .pattern s => some s | _ => none
/-- (Specification: no counterpart in the code.) -/
def optionsOf : Call → Option (List SelectOption) | .options l => some l | _ => none
/-- (Specification: no counterpart in the code.) -/
def metadataOf (k : String) : Call → Option Json | .metadata k' v => if k' = k then some v else none | _ => none
/-- Calls that ask for a validation. (Specification: no counterpart in the code.) -/
def IsRule : Call → Bool
  | .required | .min _ | .max _ | .pattern _ | .options _ => true
  | _ => false
/-- (Specification: no counterpart in the code.) -/
def IsRequired : Call → Bool | .required => true | _ => false

theorem last_snoc {α : Type} (sel : Call → Option α) (cs : List Call) (c : Call) :
    last sel (cs ++ [c]) = (sel c).or (last sel cs) := by
  simp only [last, List.reverse_append, List.reverse_cons, List.reverse_nil, List.nil_append, List.singleton_append,
    List.findSome?_cons]
  cases sel c <;> rfl

theorem last_none {α : Type} (sel : Call → Option α) (cs : List Call) (h : ∀ c ∈ cs, sel c = none) :
    last sel cs = none := by
  simp only [last, List.findSome?_eq_none_iff, List.mem_reverse]
  exact h

/-- **C157** (what is built). Whatever the chain of calls: each property of the built request is the argument of
the last call that sets it; there is a validation exactly if one of the validating calls was made, and it asks
exactly for what these calls ask. -/
theorem C157_built (uuid : String) (t : InputType) (prompt : String) (cs : List Call) :
    let b := build uuid t prompt cs
    b.elicitationId = (last idOf cs).getD uuid ∧ b.inputType = t ∧ b.prompt = prompt ∧
      b.description = last descriptionOf cs ∧ b.default = last defaultOf cs ∧
      (∀ k, AMap.get b.metadata k = last (metadataOf k) cs) ∧
      b.validation = if cs.any IsRule then
        some { required := cs.any IsRequired, min := last minOf cs, max := last maxOf cs,
               pattern := last patternOf cs, options := last optionsOf cs, message := none } else none := by
  intro b
  simp only [b]
  clear b
  induction cs using snocInduction with
  | nil => simp [build, new, last]
  | append_singleton cs c ih =>
    have hb : build uuid t prompt (cs ++ [c]) = apply (build uuid t prompt cs) c := by
      simp [build]
    obtain ⟨h1, h2, h3, h4, h5, h6, h7⟩ := ih
    rw [hb]
    simp only [last_snoc, List.any_append, List.any_cons, List.any_nil, Bool.or_false]
    generalize build uuid t prompt cs = b at *
    cases hr : cs.any IsRule
    · have hn : ∀ c ∈ cs, IsRule c = false := by simpa using hr
      have l1 : last minOf cs = none := last_none _ _ (fun c hc => by have := hn c hc; cases c <;> simp_all [IsRule, minOf])
      have l2 : last maxOf cs = none := last_none _ _ (fun c hc => by have := hn c hc; cases c <;> simp_all [IsRule, maxOf])
      have l3 : last patternOf cs = none :=
        last_none _ _ (fun c hc => by have := hn c hc; cases c <;> simp_all [IsRule, patternOf])
      have l4 : last optionsOf cs = none :=
        last_none _ _ (fun c hc => by have := hn c hc; cases c <;> simp_all [IsRule, optionsOf])
      have l5 : cs.any IsRequired = false := by
        rw [List.any_eq_false]; intro c hc; have := hn c hc; cases c <;> simp_all [IsRule, IsRequired]
      rw [hr] at h7
      simp only [Bool.false_eq_true, if_false] at h7
      cases c <;>
        simp [apply, validate, h1, h2, h3, h4, h5, h7, idOf, descriptionOf, defaultOf, minOf, maxOf, patternOf,
          optionsOf, metadataOf, IsRule, IsRequired, h6, l1, l2, l3, l4, l5]
      intro k; rw [AMap.get_insert]; split
      · next h => subst h; simp
      · next h => rw [if_neg (Ne.symm h)]; exact h6 k
    · rw [hr] at h7
      simp only [if_true] at h7
      cases c <;>
        simp [apply, validate, h1, h2, h3, h4, h5, h7, idOf, descriptionOf, defaultOf, minOf, maxOf, patternOf,
          optionsOf, metadataOf, IsRule, IsRequired, h6]
      intro k; rw [AMap.get_insert]; split
      · next h => subst h; simp
      · next h => rw [if_neg (Ne.symm h)]; exact h6 k

/-- `required` after `min` keeps the minimum; the second `min` wins; the id is the caller's. -/
example : let b := build "uuid" .number "Age?" [.min (.fin 0), .required, .min (.fin 18), .id "age"]
    b.elicitationId = "age" ∧ b.validation.map (·.required) = some true ∧
      b.validation.bind (·.min) = some (.fin 18) ∧ b.validation.bind (·.max) = none := by
  simp [build, new, apply, validate]

theorem metadata_wf (uuid : String) (t : InputType) (prompt : String) (cs : List Call) :
    ((build uuid t prompt cs).metadata.map (·.1)).Nodup := by
  induction cs using snocInduction with
  | nil => simp [build, new]
  | append_singleton cs c ih =>
    have hb : build uuid t prompt (cs ++ [c]) = apply (build uuid t prompt cs) c := by simp [build]
    rw [hb]
    cases c with
    | metadata k v => exact AMap.wf_insert ih k v
    | _ => simp only [apply, validate] <;> (try split) <;> exact ih

theorem metadata_keys (uuid : String) (t : InputType) (prompt : String) (cs : List Call) (k : String) :
    k ∈ (build uuid t prompt cs).metadata.map (·.1) ↔ ∃ v, Call.metadata k v ∈ cs := by
  have h6 := (C157_built uuid t prompt cs).2.2.2.2.2.1 k
  have : k ∈ (build uuid t prompt cs).metadata.map (·.1) ↔ AMap.get (build uuid t prompt cs).metadata k ≠ none := by
    rw [Ne, AMap.get_eq_none_iff, Classical.not_not]; rfl
  rw [this, h6, Ne, last, List.findSome?_eq_none_iff]
  simp only [List.mem_reverse, Classical.not_forall]
  constructor
  · rintro ⟨c, hc, hs⟩
    cases c <;> simp [metadataOf] at hs
    exact ⟨_, hs ▸ hc⟩
  · rintro ⟨v, hv⟩
    exact ⟨_, hv, by simp [metadataOf]⟩

/-- **C157** (on the wire, exact). A built request reaches the other side as it was built exactly if the default
last set is not `null`, the bounds last set are finite and no metadata has the name of a field of the request.
Missing from the property: these; the builder refuses none of them (`C157_name_taken`). -/
theorem C157_wire_partial (uuid : String) (t : InputType) (prompt : String) (cs : List Call) :
    ElicitRequest.dec (build uuid t prompt cs).enc = some (build uuid t prompt cs) ↔
      last defaultOf cs ≠ some .null ∧ (∀ x, last minOf cs = some x → x.finite) ∧
        (∀ x, last maxOf cs = some x → x.finite) ∧
        ∀ k v, Call.metadata k v ∈ cs →
          k ∉ ["elicitationId", "inputType", "prompt", "description", "default", "validation"] := by
  rw [ElicitRequest.rt_iff _ (metadata_wf ..)]
  obtain ⟨_, _, _, _, h5, _, h7⟩ := C157_built uuid t prompt cs
  unfold ElicitRequest.Ok
  rw [h5, h7]
  have hm : (∀ k ∈ (build uuid t prompt cs).metadata.map (·.1), k ∉ ElicitRequest.known) ↔
      ∀ k v, Call.metadata k v ∈ cs → k ∉ ElicitRequest.known := by
    simp only [metadata_keys]
    exact ⟨fun h k v hv => h k ⟨v, hv⟩, fun h k ⟨v, hv⟩ => h k v hv⟩
  rw [hm]
  have hv : (∀ v : InputValidation, (if cs.any IsRule then
        some { required := cs.any IsRequired, min := last minOf cs, max := last maxOf cs,
               pattern := last patternOf cs, options := last optionsOf cs, message := none } else none) = some v → v.Ok) ↔
      (∀ x, last minOf cs = some x → x.finite) ∧ (∀ x, last maxOf cs = some x → x.finite) := by
    cases hr : cs.any IsRule
    · have hn : ∀ c ∈ cs, IsRule c = false := by simpa using hr
      have l1 : last minOf cs = none := last_none _ _ (fun c hc => by have := hn c hc; cases c <;> simp_all [IsRule, minOf])
      have l2 : last maxOf cs = none := last_none _ _ (fun c hc => by have := hn c hc; cases c <;> simp_all [IsRule, maxOf])
      simp [l1, l2]
    · simp [InputValidation.Ok, okF]
  rw [hv]
  have := metadata_wf uuid t prompt cs
  simp only [ElicitRequest.known]
  constructor
  · rintro ⟨a, ⟨b, c⟩, _, d⟩; exact ⟨a, b, c, d⟩
  · rintro ⟨a, b, c, d⟩; exact ⟨a, ⟨b, c⟩, this, d⟩

/-- A request with its own id, bounds and metadata arrives. -/
example : ElicitRequest.dec (build "u" .number "Age?" [.min (.fin 0), .metadata "form" (.str "f1")]).enc =
    some (build "u" .number "Age?" [.min (.fin 0), .metadata "form" (.str "f1")]) := by
  rw [C157_wire_partial]
  simp [last, defaultOf, minOf, maxOf, F64.finite, List.findSome?_cons]

/-- **C157** (refutation). Metadata under the name `prompt` replaces the question the user is asked. -/
theorem C157_name_taken (uuid : String) (t : InputType) (prompt other : String) :
    (ElicitRequest.dec (build uuid t prompt [.metadata "prompt" (.str other)]).enc).map (·.prompt) = some other := by
  simp [build, new, apply, AMap.insert, AMap.remove, ElicitRequest.enc, ElicitRequest.fields, ob, flatten, insertEntry,
    AMap.get_cons, ElicitRequest.dec]

/-- **C157** (`elicit_select`). The options given to `elicit_select` are those of the request, unless
`options` is called. -/
theorem C157_select (uuid prompt : String) (l : List SelectOption) (cs : List Call) :
    (elicitSelect uuid prompt l cs).inputType = .select ∧
    (elicitSelect uuid prompt l cs).validation.bind (·.options) = some ((last optionsOf cs).getD l) := by
  have h : elicitSelect uuid prompt l cs = build uuid .select prompt (.options l :: cs) := rfl
  obtain ⟨_, h2, _, _, _, _, h7⟩ := C157_built uuid .select prompt (.options l :: cs)
  rw [h, h2, h7]
  refine ⟨rfl, ?_⟩
  simp only [List.any_cons, IsRule, Bool.true_or, if_true, Option.bind_some, last, List.reverse_cons,
    List.findSome?_append, List.findSome?_cons, optionsOf, List.findSome?_nil]
  cases cs.reverse.findSome? optionsOf <;> simp

example : (elicitSelect "u" "Pick" [⟨.null, "a", none, false⟩] [.required]).validation.map (·.required) = some true := by
  simp [elicitSelect, new, apply, validate]

end Verif.Elicit.Builder
