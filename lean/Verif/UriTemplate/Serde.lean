import Verif.UriTemplate.Props
import Verif.Wire.Json

/-
URI templates as JSON: C174.

Models /repo/src/shared/uri_template.rs L20-49, L119-127 and L552-556.
-/

namespace Verif.UriTemplate

open Verif.Wire (Json)

/-- `UriTemplate` (/repo/src/shared/uri_template.rs L21-28). -/
structure Template where
  template : List Char
  expressions : List Expression
deriving DecidableEq

/-- `UriTemplate::new` (/repo/src/shared/uri_template.rs L119-127); `none` is an error. -/
def Template.new (s : List Char) : Option Template := (parse s).map (fun e => ⟨s, e⟩)

/-- `Serialize` (/repo/src/shared/uri_template.rs L31-38). -/
def Template.serialize (t : Template) : Json := .str (String.ofList t.template)

/-- `Deserialize` (/repo/src/shared/uri_template.rs L41-49); `none` is an error. -/
def Template.deserialize : Json → Option Template
  | .str s => Template.new s.toList
  | _ => none

/-- `Display` (/repo/src/shared/uri_template.rs L552-556). -/
def Template.show (t : Template) : List Char := t.template

/-! ### C174 -/

/-- C174: a template that a program can have is, after a trip through JSON, the same. -/
theorem C174_round_trip (s : List Char) (t : Template) (h : Template.new s = some t) :
    Template.deserialize t.serialize = some t ∧ t.show = s := by
  unfold Template.new at h
  cases hp : parse s with
  | none => rw [hp] at h; cases h
  | some e =>
    rw [hp] at h; cases h
    simp [Template.deserialize, Template.serialize, Template.show, Template.new, hp]

/-- C174: exactly the JSON strings that are templates are read, as those templates. -/
theorem C174_read (j : Json) (t : Template) :
    Template.deserialize j = some t ↔ ∃ s : List Char, j = .str (String.ofList s) ∧ Template.new s = some t := by
  constructor
  · intro h
    cases j with
    | str x => exact ⟨x.toList, by simp, h⟩
    | _ => cases h
  · rintro ⟨s, rfl, h⟩
    simpa [Template.deserialize] using h

/-- C174: whatever was read can be expanded, matched and shown like the template made from the text: two templates
that a program can have are equal if and only if their texts, or their JSON, are. -/
theorem C174_equal (s s' : List Char) (t t' : Template) (h : Template.new s = some t) (h' : Template.new s' = some t') :
    (t = t' ↔ s = s') ∧ (t.serialize = t'.serialize ↔ s = s') := by
  have e := (C174_round_trip s t h).2
  have e' := (C174_round_trip s' t' h').2
  constructor
  · constructor
    · rintro rfl; rw [← e, ← e']
    · rintro rfl; rw [h] at h'; cases h'; rfl
  · simp only [Template.show] at e e'
    constructor
    · intro hj
      simp only [Template.serialize, Json.str.injEq] at hj
      rw [← e, ← e']
      have := congrArg String.toList hj
      simpa using this
    · rintro rfl; simp only [Template.serialize, e, e']

/-- C174: canonical templates are read; so are texts with an unclosed brace, as literals. -/
theorem C174_canonical (t : List Expression) (h : Canon t) :
    Template.deserialize (.str (String.ofList (t.flatMap showExpr))) = some ⟨t.flatMap showExpr, t⟩ := by
  simp [Template.deserialize, Template.new, C68_parse_roundtrip t h]

/-- `C174_round_trip`: a template with an expression; `C174_read`: what is no template is refused. -/
example : Template.new "/u/{x}".toList = some ⟨"/u/{x}".toList, [.literal "/u/".toList, .multiple .simple [⟨['x'], none⟩]]⟩ ∧
    Template.deserialize (.str "{1}") = none ∧ Template.deserialize .null = none := by
  refine ⟨by decide +kernel, ?_, rfl⟩
  show Template.new "{1}".toList = none
  decide +kernel

end Verif.UriTemplate
