import Verif.Sse.Lemmas

/-
Properties C04, C05, C06, C07: the SSE parser.
-/

namespace Verif.Sse

/-! ### C04, C05: chunking and panics -/

/-- Spec: feeding the text all at once, from the start of a stream. (Specification: no counterpart in the code.) -/
def fresh : Parser := {}

theorem feedAll_safe (cs : List Text) (p : Parser) (h : Safe (p.buffer ++ cs.flatten)) :
    ∃ q es, feedAll p cs = some (q, es) ∧ feedLoop { p with buffer := p.buffer ++ cs.flatten } = some (q, es)
      ∨ (cs = []) := by
  cases cs with
  | nil => exact ⟨p, [], Or.inr rfl⟩
  | cons c cs =>
    have key : ∀ (cs : List Text) (c : Text) (p : Parser), Safe (p.buffer ++ (c :: cs).flatten) →
        feedAll p (c :: cs) = feed p (c :: cs).flatten := by
      intro cs
      induction cs with
      | nil =>
        intro c p hs
        have hs' : Safe (p.buffer ++ c) := by simpa using hs
        simp only [feedAll, List.flatten_cons, List.flatten_nil, List.append_nil]
        rw [feed_safe p c hs']
        simp
      | cons d ds ih =>
        intro c p hs
        have hs1 : Safe (p.buffer ++ c) := by
          have : Safe ((p.buffer ++ c) ++ (d :: ds).flatten) := by simpa using hs
          exact safe_of_append_left this
        rw [feedAll, feed_safe p c hs1]
        simp only
        have hs2 : Safe ((cut (p.buffer ++ c)).2 ++ (d :: ds).flatten) := by
          obtain ⟨w, hw⟩ := cut_rest_suffix (p.buffer ++ c)
          have hs' : Safe (w ++ ((cut (p.buffer ++ c)).2 ++ (d :: ds).flatten)) := by
            rw [← List.append_assoc, hw]; simpa using hs
          exact safe_of_append_right hs'
        rw [ih d _ hs2, feed_safe _ _ hs2]
        have hs3 : Safe (p.buffer ++ (c :: d :: ds).flatten) := hs
        rw [feed_safe p _ hs3]
        have hcut : cut (p.buffer ++ (c :: d :: ds).flatten) =
            ((cut (p.buffer ++ c)).1 ++ (cut ((cut (p.buffer ++ c)).2 ++ (d :: ds).flatten)).1,
              (cut ((cut (p.buffer ++ c)).2 ++ (d :: ds).flatten)).2) := by
          rw [← cut_append]; simp
        rw [hcut]
        simp only [List.map_append, processLines_append, Option.map_some, processLines_buffer]
    have h1 := key cs c p h
    have h2 := feed_safe p (c :: cs).flatten h
    refine ⟨_, _, Or.inl ⟨by rw [h1, h2], ?_⟩⟩
    have : feedLoop { p with buffer := p.buffer ++ (c :: cs).flatten } = feed p (c :: cs).flatten := rfl
    rw [this, h2]

/-- **C04**, part that holds: for every stream that is pure ASCII or contains no carriage return, and
every way of cutting it into (one or more) chunks, the parser — in whatever state it starts — returns
the same events and ends in the same state as when fed the whole text at once. -/
theorem C04_chunking_partial (p : Parser) (chunks : List Text) (hne : chunks ≠ [])
    (h : Safe (p.buffer ++ chunks.flatten)) :
    feedAll p chunks = feed p chunks.flatten := by
  obtain ⟨q, es, ⟨h1, h2⟩ | h1⟩ := feedAll_safe chunks p h
  · rw [h1]; exact h2.symm
  · exact absurd h1 hne

/-- **C04** is false in general: with a non-ASCII character the result depends on the chunks (the
carriage return of the next line is taken for one of this line, losing a character). -/
theorem C04_chunk_dependent :
    (feedAll fresh ["éédata: a\n\r\n\n".toList]).map (·.2) ≠
    (feedAll fresh ["éédata: a\n".toList, "\r\n\n".toList]).map (·.2) ∨
    (feedAll fresh ["data: ééa\n\r\n".toList]).map (·.2) ≠
    (feedAll fresh ["data: ééa\n".toList, "\r\n".toList]).map (·.2) := by
  right
  decide +kernel

/-- What happens in the counterexample: the last character of the data is lost. -/
theorem C04_character_lost :
    (feedAll fresh ["data: ééa\n\r\n".toList]).map (fun r => r.2.map (·.data)) = some ["éé".toList] ∧
    (feedAll fresh ["data: ééa\n".toList, "\r\n".toList]).map (fun r => r.2.map (·.data))
      = some ["ééa".toList] := by
  decide +kernel

/-- **C05** is false in general: a line ending in a multi-byte character, followed by a carriage
return at the right place, makes the parser slice inside a character. -/
theorem C05_panics : feed fresh "éé\n\r".toList = none := by decide +kernel

/-- **C05**, part that holds: on every stream that is pure ASCII or contains no carriage return the
parser never panics, whatever its state. -/
theorem C05_no_panic_partial (p : Parser) (data : Text) (h : Safe (p.buffer ++ data)) :
    (feed p data).isSome = true := by
  rw [feed_safe p data h]; rfl

example : Safe ("data: héllo\n".toList ++ ["\ndata: x".toList, "\n\n".toList].flatten) ∧
    Safe ("".toList ++ ["data: a\r\n".toList, "\r\n".toList].flatten) := by
  constructor
  · right; decide
  · left; decide
example : feedAll fresh ["da".toList, "ta: x\r".toList, "\n\r".toList, "\n".toList] =
    feed fresh "data: x\r\n\r\n".toList :=
  C04_chunking_partial fresh _ (by simp) (by left; decide)

/-! ### C07: field processing -/

/-- Specification of `name: value` lines: the value of field `name` in a line, if the line is that
field.  One space after the colon is not part of the value; a line consisting of the name alone has
an empty value. -/
def valueOf (name line : Text) : Option Text :=
  if line = name then some []
  else (Str.stripPrefix (name ++ [':']) line).map
    (fun v => match v with
      | [] => []
      | c :: r => if c = ' ' then r else c :: r)

theorem head_of_splitOnce {l f v : Text} (h : Str.splitOnce ':' l = some (f, v)) :
    l.head? = some ':' ↔ f = [] := by
  obtain ⟨h1, h2⟩ := Str.splitOnce_some h
  cases f with
  | nil => simp [h1]
  | cons a f =>
    simp only [h1, List.cons_append, List.head?_cons, Option.some.injEq]
    constructor
    · intro e; exact absurd (by simp [e]) h2
    · intro e; cases e

/-- The code's splitting agrees with the specification for names without colon. -/
theorem valueOf_eq (name line : Text) (hn : ':' ∉ name) (hne : name ≠ []) (hl : line ≠ []) :
    valueOf name line =
      if line.head? = some ':' then none
      else if (fieldValue line).1 = name then some (fieldValue line).2 else none := by
  unfold valueOf fieldValue
  rcases hs : Str.splitOnce ':' line with _ | ⟨f, v⟩
  · have hnc := Str.splitOnce_eq_none.mp hs
    have hh : line.head? ≠ some ':' := fun e => hnc (List.mem_of_head? e)
    simp only [if_neg hh]
    by_cases e : line = name
    · simp [e]
    · have : Str.stripPrefix (name ++ [':']) line = none := by
        cases hp : Str.stripPrefix (name ++ [':']) line with
        | none => rfl
        | some t =>
          have := Str.stripPrefix_eq_some.mp hp
          exact absurd (by rw [this]; simp) hnc
      simp [e, this]
  · obtain ⟨h1, h2⟩ := Str.splitOnce_some hs
    have hh := head_of_splitOnce hs
    simp only
    by_cases hc : line.head? = some ':'
    · rw [if_pos hc]
      have hf : f = [] := hh.mp hc
      have hne' : line ≠ name := by
        intro e; apply hn; rw [← e, h1]; simp
      rw [if_neg hne']
      have : Str.stripPrefix (name ++ [':']) line = none := by
        cases hp : Str.stripPrefix (name ++ [':']) line with
        | none => rfl
        | some t =>
          have hp' := Str.stripPrefix_eq_some.mp hp
          cases name with
          | nil => exact absurd rfl hne
          | cons a name =>
            rw [hp'] at hc
            simp at hc
            exact absurd (by simp [hc]) hn
      rw [this]; rfl
    · rw [if_neg hc]
      have hne' : line ≠ name := by
        intro e; apply hn; rw [← e, h1]; simp
      rw [if_neg hne']
      by_cases e : f = name
      · subst e
        have : Str.stripPrefix (f ++ [':']) line = some v := by
          rw [Str.stripPrefix_eq_some, h1]; simp
        rw [this, if_pos rfl]; rfl
      · rw [if_neg e]
        have : Str.stripPrefix (name ++ [':']) line = none := by
          cases hp : Str.stripPrefix (name ++ [':']) line with
          | none => rfl
          | some t =>
            have hp' := Str.stripPrefix_eq_some.mp hp
            have : Str.splitOnce ':' line = some (name, t) := by
              rw [hp', List.append_assoc]; exact Str.splitOnce_append hn t
            rw [hs] at this
            cases this
            exact absurd rfl e
        rw [this]; rfl

/-- Values of a field in a block of lines, in order. (Specification: no counterpart in the code.) -/
def valuesOf (name : Text) (block : List Text) : List Text := block.filterMap (valueOf name)

/-- Last valid id of a block. (Specification: no counterpart in the code.) -/
def idOf (block : List Text) : Option Text :=
  ((valuesOf "id".toList block).filter (fun v => decide ('\x00' ∉ v))).getLast?

/-- Last event name of a block. (Specification: no counterpart in the code.) -/
def eventOf (block : List Text) : Option Text := (valuesOf "event".toList block).getLast?

/-- Last well-formed retry value of a block. (Specification: no counterpart in the code.) -/
def retryOf (block : List Text) : Option Nat :=
  ((valuesOf "retry".toList block).filterMap (Decimal.parseUnsigned (2 ^ 64))).getLast?

/-- Data of a block as the event-stream rules define it: the values joined by line feeds.
(Specification: no counterpart in the code.) -/
def dataOf (block : List Text) : Text := Str.join ['\n'] (valuesOf "data".toList block)

/-- Data of a block as the code computes it: leading empty values are lost.
(Specification: no counterpart in the code.) -/
def dataOfCode (block : List Text) : Text :=
  Str.join ['\n'] ((valuesOf "data".toList block).dropWhile (fun v => decide (v = [])))

/-- The events of a sequence of lines (no line feeds inside), given how a block's data is computed
and when a block counts as having data. (Specification: no counterpart in the code.) -/
def eventsOf (hasData : List Text → Bool) (data : List Text → Text) (last : Option Text)
    (block : List Text) : List Text → List Event
  | [] => []
  | l :: ls =>
    if l = [] then
      (if hasData block then [⟨(idOf block).or last, eventOf block, data block, retryOf block⟩] else [])
        ++ eventsOf hasData data ((idOf block).or last) [] ls
    else eventsOf hasData data last (block ++ [l]) ls

theorem getLast?_snoc {α : Type} (l : List α) (a : α) : (l ++ [a]).getLast? = some a := by simp

theorem join_snoc (sep : Text) (l : List Text) (a : Text) :
    Str.join sep (l ++ [a]) = if l = [] then a else Str.join sep l ++ sep ++ a := by
  induction l with
  | nil => rfl
  | cons x xs ih =>
    cases xs with
    | nil => simp [Str.join]
    | cons y ys =>
      simp only [List.cons_append, Str.join] at ih ⊢
      rw [ih]
      simp

theorem dropWhile_snoc {α : Type} (q : α → Bool) (l : List α) (a : α) :
    (l ++ [a]).dropWhile q =
      if l.dropWhile q = [] then [a].dropWhile q else l.dropWhile q ++ [a] := by
  induction l with
  | nil => simp
  | cons x xs ih =>
    by_cases h : q x
    · simp only [List.cons_append, List.dropWhile_cons, h, if_true, ih]
    · simp [List.dropWhile_cons, h]

theorem head_dropWhile {l : List Text} {x : Text} {xs : List Text}
    (h : l.dropWhile (fun v => decide (v = [])) = x :: xs) : x ≠ [] := by
  induction l with
  | nil => simp at h
  | cons a l ih =>
    rw [List.dropWhile_cons] at h
    split at h
    · exact ih h
    · rename_i ha
      cases h
      simpa using ha

theorem join_dropWhile_nil (l : List Text) :
    Str.join ['\n'] (l.dropWhile (fun v => decide (v = []))) = [] ↔
      l.dropWhile (fun v => decide (v = [])) = [] := by
  constructor
  · intro h
    cases hd : l.dropWhile (fun v => decide (v = [])) with
    | nil => rfl
    | cons x xs =>
      rw [hd] at h
      have := head_dropWhile hd
      cases xs with
      | nil => exact absurd h this
      | cons y ys => simp [Str.join] at h
  · intro h; rw [h]; rfl

/-- The builder after a block, in terms of the specification. -/
def builderOf (block : List Text) : Builder :=
  ⟨idOf block, eventOf block, dataOfCode block, retryOf block⟩

theorem valuesOf_snoc (name : Text) (block : List Text) (l : Text) :
    valuesOf name (block ++ [l]) = valuesOf name block ++ (valueOf name l).toList := by
  unfold valuesOf
  rw [List.filterMap_append]
  cases h : valueOf name l <;> simp [h]

theorem processLine_block (p : Parser) (block : List Text) (l : Text) (hl : l ≠ [])
    (last : Option Text) (hcur : p.cur = builderOf block) (hlast : p.lastId = (idOf block).or last) :
    (processLine p l).2 = none ∧ (processLine p l).1.cur = builderOf (block ++ [l]) ∧
      (processLine p l).1.lastId = (idOf (block ++ [l])).or last ∧
      (processLine p l).1.buffer = p.buffer := by
  have vE := valueOf_eq "event".toList l (by decide) (by decide) hl
  have vD := valueOf_eq "data".toList l (by decide) (by decide) hl
  have vI := valueOf_eq "id".toList l (by decide) (by decide) hl
  have vR := valueOf_eq "retry".toList l (by decide) (by decide) hl
  have hED : kEvent ≠ kData := by decide
  have hEI : kEvent ≠ kId := by decide
  have hER : kEvent ≠ kRetry := by decide
  have hDI : kData ≠ kId := by decide
  have hDR : kData ≠ kRetry := by decide
  have hIR : kId ≠ kRetry := by decide
  change valueOf kEvent l = if _ then none else if (fieldValue l).1 = kEvent then _ else _ at vE
  change valueOf kData l = if _ then none else if (fieldValue l).1 = kData then _ else _ at vD
  change valueOf kId l = if _ then none else if (fieldValue l).1 = kId then _ else _ at vI
  change valueOf kRetry l = if _ then none else if (fieldValue l).1 = kRetry then _ else _ at vR
  have hb : ∀ b, builderOf b = ⟨((valuesOf kId b).filter (fun v => decide ('\x00' ∉ v))).getLast?,
      (valuesOf kEvent b).getLast?,
      Str.join ['\n'] ((valuesOf kData b).dropWhile (fun v => decide (v = []))),
      ((valuesOf kRetry b).filterMap (Decimal.parseUnsigned (2 ^ 64))).getLast?⟩ := fun _ => rfl
  have hid : ∀ b, idOf b = ((valuesOf kId b).filter (fun v => decide ('\x00' ∉ v))).getLast? :=
    fun _ => rfl
  rw [hb] at hcur
  rw [hid] at hlast
  simp only [hb, hid, valuesOf_snoc]
  unfold processLine
  rw [if_neg hl]
  by_cases hh : l.head? = some ':'
  · rw [if_pos hh] at vE vD vI vR ⊢
    simp only [vE, vD, vI, vR, Option.toList_none, List.append_nil]
    exact ⟨trivial, hcur, hlast, trivial⟩
  · rw [if_neg hh] at vE vD vI vR ⊢
    simp only
    generalize (fieldValue l).1 = f at vE vD vI vR ⊢
    generalize (fieldValue l).2 = v at vE vD vI vR ⊢
    by_cases h1 : f = kEvent
    · subst h1
      rw [if_pos rfl] at vE
      rw [if_neg hED] at vD
      rw [if_neg hEI] at vI
      rw [if_neg hER] at vR
      simp only [if_true, vE, vD, vI, vR, Option.toList_none, Option.toList_some, List.append_nil,
        getLast?_snoc, hcur]
      exact ⟨trivial, trivial, hlast, trivial⟩
    · rw [if_neg h1] at vE ⊢
      by_cases h2 : f = kData
      · subst h2
        rw [if_pos rfl] at vD
        rw [if_neg hDI] at vI
        rw [if_neg hDR] at vR
        rw [if_pos rfl]
        simp only [vE, vD, vI, vR, Option.toList_none, Option.toList_some, List.append_nil]
        have hdata : p.cur.data =
            Str.join ['\n'] ((valuesOf kData block).dropWhile (fun v => decide (v = []))) := by
          rw [hcur]
        rw [dropWhile_snoc]
        by_cases h3 : p.cur.data = []
        · rw [if_pos h3]
          rw [hdata, join_dropWhile_nil] at h3
          rw [if_pos h3]
          refine ⟨rfl, ?_, hlast, rfl⟩
          rw [hcur]
          by_cases hv : v = []
          · simp [hv, Str.join]
          · simp [hv, Str.join]
        · rw [if_neg h3]
          have h4 := h3
          rw [hdata, join_dropWhile_nil] at h4
          rw [if_neg h4, join_snoc, if_neg h4]
          refine ⟨rfl, ?_, hlast, rfl⟩
          rw [hcur]
          simp
      · rw [if_neg h2] at vD ⊢
        by_cases h3 : f = kId
        · subst h3
          rw [if_pos rfl] at vI
          rw [if_neg hIR] at vR
          rw [if_pos rfl]
          simp only [vE, vD, vI, vR, Option.toList_none, Option.toList_some, List.append_nil,
            List.filter_append]
          by_cases h4 : '\x00' ∈ v
          · rw [if_pos h4]
            have : [v].filter (fun v => decide ('\x00' ∉ v)) = [] := by simp [h4]
            rw [this, List.append_nil]
            exact ⟨rfl, hcur, hlast, rfl⟩
          · rw [if_neg h4]
            have : [v].filter (fun v => decide ('\x00' ∉ v)) = [v] := by simp [h4]
            rw [this, getLast?_snoc]
            refine ⟨rfl, ?_, rfl, rfl⟩
            rw [hcur]
        · rw [if_neg h3] at vI ⊢
          by_cases h4 : f = kRetry
          · subst h4
            rw [if_pos rfl] at vR
            rw [if_pos rfl]
            simp only [vE, vD, vI, vR, Option.toList_none, Option.toList_some, List.append_nil,
              List.filterMap_append]
            cases hp : Decimal.parseUnsigned (2 ^ 64) v with
            | none =>
              have : [v].filterMap (Decimal.parseUnsigned (2 ^ 64)) = [] := by
                simp only [List.filterMap_cons, hp, List.filterMap_nil]
              rw [this, List.append_nil]
              exact ⟨rfl, hcur, hlast, rfl⟩
            | some n =>
              have : [v].filterMap (Decimal.parseUnsigned (2 ^ 64)) = [n] := by
                simp only [List.filterMap_cons, hp, List.filterMap_nil]
              rw [this, getLast?_snoc]
              refine ⟨rfl, ?_, hlast, rfl⟩
              simp only
              rw [hcur]
          · rw [if_neg h4] at vR ⊢
            simp only [vE, vD, vI, vR, Option.toList_none, List.append_nil]
            exact ⟨trivial, hcur, hlast, trivial⟩

theorem processLines_events (lines : List Text) (p : Parser) (block : List Text) (last : Option Text)
    (hcur : p.cur = builderOf block) (hlast : p.lastId = (idOf block).or last) :
    (processLines p lines).2 =
      eventsOf (fun b => !decide (dataOfCode b = [])) dataOfCode last block lines := by
  induction lines generalizing p block last with
  | nil => rfl
  | cons l ls ih =>
    unfold eventsOf
    simp only [processLines]
    by_cases hl : l = []
    · subst hl
      rw [if_pos rfl]
      have hp : processLine p [] = dispatch p := by simp [processLine]
      have hcd : p.cur.data = dataOfCode block := by rw [hcur]; rfl
      have hempty : builderOf [] = {} := rfl
      have hnext : ∀ q : Parser, q.cur = {} → q.lastId = (idOf block).or last →
          (processLines q ls).2 =
            eventsOf (fun b => !decide (dataOfCode b = [])) dataOfCode ((idOf block).or last) [] ls := by
        intro q hq1 hq2
        exact ih q [] _ (by rw [hq1, hempty]) (by rw [hq2]; rfl)
      rw [hp]
      unfold dispatch
      by_cases hd : dataOfCode block = []
      · rw [if_pos (by rw [hcd]; exact hd)]
        simp only [hd, Option.toList_none, List.nil_append]
        rw [hnext { p with cur := {} } rfl hlast]
        simp
      · rw [if_neg (by rw [hcd]; exact hd)]
        simp only [Option.toList_some]
        rw [hnext { p with cur := {} } rfl hlast]
        rw [if_pos (by simp [hd])]
        congr 1
        simp only [List.cons.injEq, and_true]
        rw [hcur, hlast]
        have : (builderOf block).id = idOf block := rfl
        rw [this]
        have hor : (idOf block).or ((idOf block).or last) = (idOf block).or last := by
          cases idOf block <;> rfl
        rw [hor]; rfl
    · rw [if_neg hl]
      obtain ⟨h1, h2, h3, _⟩ := processLine_block p block l hl last hcur hlast
      rw [h1]
      simp only [Option.toList_none, List.nil_append]
      exact ih _ _ _ h2 h3

/-- Lines of a text as the stream rules define them: terminated by a line feed, optionally preceded
by a carriage return. (Specification: no counterpart in the code.) -/
def textOf (lines : List Text) : Text := lines.flatMap (fun l => l ++ ['\n'])

theorem cut_textOf (lines : List Text) (h : ∀ l ∈ lines, '\n' ∉ l) : cut (textOf lines) = (lines, []) := by
  induction lines with
  | nil => rw [cut_eq]; rfl
  | cons l ls ih =>
    have hl := h l List.mem_cons_self
    have : textOf (l :: ls) = l ++ '\n' :: textOf ls := by simp [textOf]
    rw [this, cut_eq, Str.splitOnce_append hl]
    simp only [ih (fun x hx => h x (List.mem_cons_of_mem _ hx))]

/-- **C07** (exact).  For every sequence of lines (no line feed inside; the text is pure ASCII or has
no carriage return) a fresh parser emits, at each blank line, the event determined by the fields of
the block before it: last event name, last id without NUL (else the last id of the stream), last
numeric retry, and the data values joined by line feeds — where the code drops leading empty data
values, and emits nothing if no data is left.  Comments and unknown fields have no effect. -/
theorem C07_fields_exact (lines : List Text) (h : ∀ l ∈ lines, '\n' ∉ l)
    (hs : Safe (textOf lines)) :
    (feed fresh (textOf lines)).map (·.2) =
      some (eventsOf (fun b => !decide (dataOfCode b = [])) dataOfCode none []
        (lines.map stripCr)) := by
  have hs' : Safe (fresh.buffer ++ textOf lines) := hs
  rw [feed_safe fresh _ hs']
  have : fresh.buffer ++ textOf lines = textOf lines := rfl
  rw [this, cut_textOf lines h]
  simp only [Option.map_some]
  rw [processLines_events (lines.map stripCr) fresh [] none rfl rfl]

/-- Every block of the line sequence starts its data with a non-empty value (or has no data).
(Specification: no counterpart in the code.) -/
def DataStartsNonEmpty (block : List Text) : List Text → Prop
  | [] => True
  | l :: ls =>
    if l = [] then (∀ v, (valuesOf "data".toList block).head? = some v → v ≠ []) ∧ DataStartsNonEmpty [] ls
    else DataStartsNonEmpty (block ++ [l]) ls

theorem eventsOf_std (lines : List Text) (last : Option Text) (block : List Text)
    (h : DataStartsNonEmpty block lines) :
    eventsOf (fun b => !decide (dataOfCode b = [])) dataOfCode last block lines =
      eventsOf (fun b => !decide (valuesOf "data".toList b = [])) dataOf last block lines := by
  induction lines generalizing last block with
  | nil => rfl
  | cons l ls ih =>
    unfold eventsOf
    unfold DataStartsNonEmpty at h
    by_cases hl : l = []
    · rw [if_pos hl] at h ⊢
      rw [if_pos hl, ih _ _ h.2]
      have heq : dataOfCode block = dataOf block := by
        unfold dataOfCode dataOf
        cases hv : valuesOf "data".toList block with
        | nil => rfl
        | cons v vs =>
          have := h.1 v (by rw [hv]; rfl)
          rw [List.dropWhile_cons, if_neg (by simpa using this)]
      have hne : (dataOfCode block = []) ↔ valuesOf "data".toList block = [] := by
        rw [heq]
        unfold dataOf
        cases hv : valuesOf "data".toList block with
        | nil => simp [Str.join]
        | cons v vs =>
          have := h.1 v (by rw [hv]; rfl)
          cases vs with
          | nil => simpa [Str.join] using this
          | cons w ws => simp [Str.join]
      simp only [hne]
      rw [heq]
    · rw [if_neg hl] at h ⊢
      rw [if_neg hl, ih _ _ h]

/-- **C07**, part that holds as stated: if in every block the first data value is not empty, the
parser emits an event exactly at each blank line after at least one data field, with all data values
joined by line feeds. -/
theorem C07_fields_partial (lines : List Text) (h : ∀ l ∈ lines, '\n' ∉ l)
    (hs : Safe (textOf lines)) (hd : DataStartsNonEmpty [] (lines.map stripCr)) :
    (feed fresh (textOf lines)).map (·.2) =
      some (eventsOf (fun b => !decide (valuesOf "data".toList b = [])) dataOf none []
        (lines.map stripCr)) := by
  rw [C07_fields_exact lines h hs, eventsOf_std _ _ _ hd]

/-- **C07** is false for leading empty data values: `data:` followed by `data: x` must give a line
feed and `x`, but gives `x`; a block with one empty data field gives no event at all. -/
theorem C07_empty_data_lost :
    (feed fresh "data:\ndata: x\n\n".toList).map (fun r => r.2.map (·.data)) = some ["x".toList] ∧
    (eventsOf (fun b => !decide (valuesOf "data".toList b = [])) dataOf none []
      ["data:".toList, "data: x".toList, []]).map (·.data) = ["\nx".toList] ∧
    (feed fresh "data:\n\n".toList).map (fun r => r.2.map (·.data)) = some [] := by
  decide +kernel

-- comments, unknown fields, an id that persists, two events
example : (feed fresh (textOf [":c".toList, "id: 7".toList, "data: a".toList, "data: b".toList,
      "x: y".toList, [], "event: e".toList, "data:  c".toList, []])).map (·.2) =
    some [⟨some "7".toList, none, "a\nb".toList, none⟩,
          ⟨some "7".toList, some "e".toList, " c".toList, none⟩] := by decide +kernel
example : DataStartsNonEmpty [] [":c".toList, "id: 7".toList, "data: a".toList, [], []] := by
  refine ⟨?_, ?_, trivial⟩
  · intro v hv; simp [valuesOf, valueOf, Str.stripPrefix] at hv; subst hv; simp
  · intro v hv; simp [valuesOf] at hv

/-! ### C06: round trip -/

/-- Fields of an event that the wire format can carry: no line terminators in id and event name, no
NUL in the id, no carriage returns, retry fits `u64`; and (the part that goes beyond the format) the
data is not empty and neither starts nor ends with a line feed. (Specification: no counterpart in the code.) -/
structure Representable (e : Event) : Prop where
  id_ok : ∀ i, e.id = some i → '\n' ∉ i ∧ '\r' ∉ i ∧ '\x00' ∉ i
  event_ok : ∀ v, e.event = some v → '\n' ∉ v ∧ '\r' ∉ v
  retry_ok : ∀ n, e.retry = some n → n < 2 ^ 64
  data_cr : '\r' ∉ e.data
  data_first : ∃ c, e.data.head? = some c ∧ c ≠ '\n'
  data_last : e.data.getLast? ≠ some '\n'

/-- What a reader of the stream sees: an event without id carries the last id of the stream.
(Specification: no counterpart in the code.) -/
def withIds (last : Option Text) : List Event → List Event
  | [] => []
  | e :: es => { e with id := e.id.or last } :: withIds (e.id.or last) es

/-- A `name: value` line. (Specification: no counterpart in the code.) -/
def mkLine (k v : Text) : Text := k ++ ':' :: ' ' :: v

theorem valueOf_mkLine (name k v : Text) (hn : ':' ∉ name) (hk : ':' ∉ k)
    (hne : name ≠ []) (hke : k ≠ []) :
    valueOf name (mkLine k v) = if k = name then some v else none := by
  have hl : mkLine k v ≠ [] := by simp [mkLine]
  rw [valueOf_eq name _ hn hne hl]
  have hs : Str.splitOnce ':' (mkLine k v) = some (k, ' ' :: v) := Str.splitOnce_append hk _
  have hf : fieldValue (mkLine k v) = (k, v) := by
    unfold fieldValue; rw [hs]; simp
  have hh : ¬ (mkLine k v).head? = some ':' := by
    rw [head_of_splitOnce hs]; exact hke
  rw [if_neg hh, hf]

/-- The lines of an event's text, without the final blank line. (Specification: no counterpart in the code.) -/
def blockOf (e : Event) : List Text :=
  (e.id.map (mkLine kId)).toList ++ (e.event.map (mkLine kEvent)).toList ++
  (e.retry.map (fun n => mkLine kRetry (Decimal.showNat n))).toList ++
  (strLines e.data).map (mkLine kData)

theorem textOf_append (a b : List Text) : textOf (a ++ b) = textOf a ++ textOf b := by
  simp [textOf]

theorem display_eq (e : Event) : display e = textOf (blockOf e ++ [[]]) := by
  unfold display blockOf
  simp only [textOf_append]
  have h1 : ∀ l : Text, textOf [l] = l ++ ['\n'] := by intro l; simp [textOf]
  have hi : "id: ".toList = kId ++ [':', ' '] := by decide
  have he : "event: ".toList = kEvent ++ [':', ' '] := by decide
  have hr : "retry: ".toList = kRetry ++ [':', ' '] := by decide
  have hd : "data: ".toList = kData ++ [':', ' '] := by decide
  rw [hi, he, hr, hd]
  have hlast : textOf [[]] = ['\n'] := rfl
  have hdat : textOf ((strLines e.data).map (mkLine kData)) =
      (strLines e.data).flatMap (fun l => kData ++ [':', ' '] ++ l ++ ['\n']) := by
    unfold textOf
    rw [List.flatMap_map]
    congr 1
  rw [hdat, hlast]
  congr 1
  congr 1
  congr 1
  · congr 1
    · cases e.id with
      | none => rfl
      | some i => simp [textOf, mkLine]
    · cases e.event with
      | none => rfl
      | some i => simp [textOf, mkLine]
  · cases e.retry with
    | none => rfl
    | some n => simp [textOf, mkLine]

theorem strLines_eq (s : Text) (h : '\r' ∉ s) (hne : s ≠ []) (hl : s.getLast? ≠ some '\n') :
    strLines s ≠ [] ∧ Str.join ['\n'] (strLines s) = s ∧ (∀ l ∈ strLines s, '\n' ∉ l ∧ '\r' ∉ l) ∧
      (∀ c, s.head? = some c → c ≠ '\n' → (strLines s).head? ≠ some []) := by
  induction hn : s.length using Nat.strongRecOn generalizing s with
  | _ n ih =>
    subst hn
    have hdef : strLines s = match Str.splitOnce '\n' s with
        | none => if s = [] then [] else [s]
        | some (pre, post) =>
          (if pre.getLast? = some '\r' then pre.dropLast else pre) :: strLines post := by
      rw [strLines]; split <;> rename_i hh <;> simp only [hh]
    rcases hs : Str.splitOnce '\n' s with _ | ⟨pre, post⟩
    · rw [hs] at hdef
      simp only [if_neg hne] at hdef
      rw [hdef]
      refine ⟨by simp, rfl, ?_, ?_⟩
      · intro l hl'
        rw [List.mem_singleton] at hl'
        subst hl'
        exact ⟨Str.splitOnce_eq_none.mp hs, h⟩
      · intro c _ _; simpa using hne
    · rw [hs] at hdef
      obtain ⟨h1, h2⟩ := Str.splitOnce_some hs
      have hpre : '\r' ∉ pre := fun hm => h (by rw [h1]; simp [hm])
      have hpost : '\r' ∉ post := fun hm => h (by rw [h1]; simp [hm])
      have hpl : ¬ pre.getLast? = some '\r' := fun he => hpre (List.mem_of_getLast? he)
      simp only [if_neg hpl] at hdef
      have hpne : post ≠ [] := by
        rintro rfl; apply hl; rw [h1]; simp
      have hlast : post.getLast? ≠ some '\n' := by
        intro he; apply hl; rw [h1]
        obtain ⟨x, hx⟩ := Option.isSome_iff_exists.mp (by rw [he]; rfl : post.getLast?.isSome)
        rw [List.getLast?_append, List.getLast?_cons, he]; rfl
      obtain ⟨i1, i2, i3, _⟩ := ih post.length (splitOnce_length hs) post hpost hpne hlast rfl
      rw [hdef]
      refine ⟨by simp, ?_, ?_, ?_⟩
      · cases hp : strLines post with
        | nil => exact absurd hp i1
        | cons x xs =>
          rw [hp] at i2
          simp only [Str.join]
          rw [i2, h1]
          simp
      · intro l hm
        rcases List.mem_cons.mp hm with e | hm
        · subst e; exact ⟨h2, hpre⟩
        · exact i3 l hm
      · intro c hc hcn
        simp only [List.head?_cons, ne_eq, Option.some.injEq]
        rintro rfl
        rw [h1] at hc
        simp at hc
        exact hcn hc.symm

theorem valuesOf_append (name : Text) (a b : List Text) :
    valuesOf name (a ++ b) = valuesOf name a ++ valuesOf name b := by simp [valuesOf]

theorem valuesOf_map (name k : Text) (ds : List Text) (hn : ':' ∉ name) (hk : ':' ∉ k)
    (hne : name ≠ []) (hke : k ≠ []) :
    valuesOf name (ds.map (mkLine k)) = if k = name then ds else [] := by
  induction ds with
  | nil => split <;> rfl
  | cons d ds ih =>
    unfold valuesOf at ih ⊢
    rw [List.map_cons, List.filterMap_cons, valueOf_mkLine name k d hn hk hne hke]
    by_cases h : k = name
    · simp only [h, if_true] at ih ⊢; rw [ih]
    · simp only [h, if_false] at ih ⊢; exact ih

theorem valuesOf_opt (name k : Text) (o : Option Text) (hn : ':' ∉ name) (hk : ':' ∉ k)
    (hne : name ≠ []) (hke : k ≠ []) :
    valuesOf name (o.map (mkLine k)).toList = if k = name then o.toList else [] := by
  have := valuesOf_map name k o.toList hn hk hne hke
  cases o <;> exact this

theorem valuesOf_block (name : Text) (e : Event) (hn : ':' ∉ name) (hne : name ≠ []) :
    valuesOf name (blockOf e) =
      (if kId = name then e.id.toList else []) ++ (if kEvent = name then e.event.toList else []) ++
      (if kRetry = name then (e.retry.map Decimal.showNat).toList else []) ++
      (if kData = name then strLines e.data else []) := by
  unfold blockOf
  rw [valuesOf_append, valuesOf_append, valuesOf_append,
    valuesOf_opt name kId _ hn (by decide) hne (by decide),
    valuesOf_opt name kEvent _ hn (by decide) hne (by decide),
    valuesOf_map name kData _ hn (by decide) hne (by decide)]
  have : (e.retry.map (fun n => mkLine kRetry (Decimal.showNat n))) =
      (e.retry.map Decimal.showNat).map (mkLine kRetry) := by cases e.retry <;> rfl
  rw [this, valuesOf_opt name kRetry _ hn (by decide) hne (by decide)]

theorem block_event (e : Event) (h : Representable e) :
    idOf (blockOf e) = e.id ∧ eventOf (blockOf e) = e.event ∧ retryOf (blockOf e) = e.retry ∧
      dataOfCode (blockOf e) = e.data := by
  have dI : valuesOf kId (blockOf e) = e.id.toList := by
    rw [valuesOf_block kId e (by decide) (by decide), if_pos rfl, if_neg (by decide),
      if_neg (by decide), if_neg (by decide)]; simp
  have dE : valuesOf kEvent (blockOf e) = e.event.toList := by
    rw [valuesOf_block kEvent e (by decide) (by decide), if_neg (by decide), if_pos rfl,
      if_neg (by decide), if_neg (by decide)]; simp
  have dR : valuesOf kRetry (blockOf e) = (e.retry.map Decimal.showNat).toList := by
    rw [valuesOf_block kRetry e (by decide) (by decide), if_neg (by decide), if_neg (by decide),
      if_pos rfl, if_neg (by decide)]; simp
  have dD : valuesOf kData (blockOf e) = strLines e.data := by
    rw [valuesOf_block kData e (by decide) (by decide), if_neg (by decide), if_neg (by decide),
      if_neg (by decide), if_pos rfl]; simp
  obtain ⟨c, hc1, hc2⟩ := h.data_first
  have hne : e.data ≠ [] := by intro he; rw [he] at hc1; simp at hc1
  obtain ⟨_, s2, _, s4⟩ := strLines_eq e.data h.data_cr hne h.data_last
  refine ⟨?_, ?_, ?_, ?_⟩
  · show ((valuesOf kId (blockOf e)).filter _).getLast? = _
    rw [dI]
    cases hi : e.id with
    | none => rfl
    | some i => simp [(h.id_ok i hi).2.2]
  · show (valuesOf kEvent (blockOf e)).getLast? = _
    rw [dE]; cases e.event <;> rfl
  · show ((valuesOf kRetry (blockOf e)).filterMap _).getLast? = _
    rw [dR]
    cases hr : e.retry with
    | none => rfl
    | some n =>
      simp only [Option.map_some, Option.toList_some, List.filterMap_cons,
        Decimal.parseUnsigned_showNat (h.retry_ok n hr), List.filterMap_nil]
      rfl
  · show Str.join ['\n'] ((valuesOf kData (blockOf e)).dropWhile _) = _
    rw [dD]
    have : (strLines e.data).dropWhile (fun v => decide (v = [])) = strLines e.data := by
      have := s4 c hc1 hc2
      cases hs : strLines e.data with
      | nil => rfl
      | cons x xs =>
        rw [hs] at this
        rw [List.dropWhile_cons, if_neg (by simpa using this)]
    rw [this, s2]

theorem eventsOf_block (hasData : List Text → Bool) (data : List Text → Text) (last : Option Text)
    (pre b rest : List Text) (hb : ∀ l ∈ b, l ≠ []) :
    eventsOf hasData data last pre (b ++ [] :: rest) =
      (if hasData (pre ++ b) then [⟨(idOf (pre ++ b)).or last, eventOf (pre ++ b), data (pre ++ b),
        retryOf (pre ++ b)⟩] else []) ++
      eventsOf hasData data ((idOf (pre ++ b)).or last) [] rest := by
  induction b generalizing pre with
  | nil =>
    rw [List.nil_append, eventsOf, if_pos rfl, List.append_nil]
  | cons l ls ih =>
    rw [List.cons_append, eventsOf, if_neg (hb l List.mem_cons_self),
      ih _ (fun x hx => hb x (List.mem_cons_of_mem _ hx))]
    simp

theorem mem_mkLine {k v : Text} {c : Char} (h : c ∈ mkLine k v) (h1 : c ∉ k) (h2 : c ≠ ':')
    (h3 : c ≠ ' ') : c ∈ v := by
  unfold mkLine at h
  simp only [List.mem_append, List.mem_cons] at h
  rcases h with h | h | h | h
  · exact absurd h h1
  · exact absurd h h2
  · exact absurd h h3
  · exact h

theorem block_lines (e : Event) (h : Representable e) :
    ∀ l ∈ blockOf e, l ≠ [] ∧ '\n' ∉ l ∧ '\r' ∉ l := by
  have aux : ∀ k v : Text, '\n' ∉ k → '\r' ∉ k → '\n' ∉ v → '\r' ∉ v →
      mkLine k v ≠ [] ∧ '\n' ∉ mkLine k v ∧ '\r' ∉ mkLine k v := by
    intro k v h1 h2 h3 h4
    exact ⟨by simp [mkLine], fun hm => h3 (mem_mkLine hm h1 (by decide) (by decide)),
      fun hm => h4 (mem_mkLine hm h2 (by decide) (by decide))⟩
  intro l hl
  unfold blockOf at hl
  simp only [List.mem_append] at hl
  rcases hl with ((hl | hl) | hl) | hl
  · cases hi : e.id with
    | none => rw [hi] at hl; simp at hl
    | some i =>
      rw [hi] at hl; simp at hl; subst hl
      exact aux _ _ (by decide) (by decide) (h.id_ok i hi).1 (h.id_ok i hi).2.1
  · cases hi : e.event with
    | none => rw [hi] at hl; simp at hl
    | some i =>
      rw [hi] at hl; simp at hl; subst hl
      exact aux _ _ (by decide) (by decide) (h.event_ok i hi).1 (h.event_ok i hi).2
  · cases hi : e.retry with
    | none => rw [hi] at hl; simp at hl
    | some n =>
      rw [hi] at hl; simp at hl; subst hl
      have hd := Decimal.showNat_all_digits n
      refine aux _ _ (by decide) (by decide) (fun hm => ?_) (fun hm => ?_)
      · have := hd _ hm; simp at this
      · have := hd _ hm; simp at this
  · obtain ⟨d, hd, rfl⟩ := List.mem_map.mp hl
    obtain ⟨c, hc1, hc2⟩ := h.data_first
    have hne : e.data ≠ [] := by intro he; rw [he] at hc1; simp at hc1
    obtain ⟨_, _, s3, _⟩ := strLines_eq e.data h.data_cr hne h.data_last
    exact aux _ _ (by decide) (by decide) (s3 d hd).1 (s3 d hd).2

/-- All lines of a stream of events. (Specification: no counterpart in the code.) -/
def streamLines (es : List Event) : List Text := es.flatMap (fun e => blockOf e ++ [[]])

theorem streamLines_text (es : List Event) : es.flatMap display = textOf (streamLines es) := by
  induction es with
  | nil => rfl
  | cons e es ih =>
    rw [List.flatMap_cons, ih, display_eq]
    unfold streamLines
    simp only [List.flatMap_cons, textOf_append]

theorem streamLines_ok (es : List Event) (h : ∀ e ∈ es, Representable e) :
    ∀ l ∈ streamLines es, '\n' ∉ l ∧ '\r' ∉ l := by
  intro l hl
  obtain ⟨e, he, hl⟩ := List.mem_flatMap.mp hl
  rcases List.mem_append.mp hl with hl | hl
  · exact (block_lines e (h e he) l hl).2
  · rw [List.mem_singleton] at hl; subst hl; simp

theorem eventsOf_stream (es : List Event) (last : Option Text) (h : ∀ e ∈ es, Representable e) :
    eventsOf (fun b => !decide (dataOfCode b = [])) dataOfCode last [] (streamLines es) =
      withIds last es := by
  induction es generalizing last with
  | nil => rfl
  | cons e es ih =>
    have he := h e List.mem_cons_self
    have : streamLines (e :: es) = blockOf e ++ [] :: streamLines es := by
      unfold streamLines; simp
    rw [this, eventsOf_block _ _ _ _ _ _ (fun l hl => (block_lines e he l hl).1)]
    rw [List.nil_append]
    obtain ⟨b1, b2, b3, b4⟩ := block_event e he
    rw [b1, b2, b3, b4, ih _ (fun x hx => h x (List.mem_cons_of_mem _ hx))]
    obtain ⟨c, hc1, _⟩ := he.data_first
    have hne : e.data ≠ [] := by intro h0; rw [h0] at hc1; simp at hc1
    simp [hne, withIds]

/-- **C06**, part that holds, for whole streams (`SseStream::build` is the concatenation of the
events' texts): the text of any sequence of representable events parses back to exactly these events,
in order, events without id carrying the last id sent. -/
theorem C06_stream_round_trip_partial (es : List Event) (h : ∀ e ∈ es, Representable e) :
    (feed fresh (es.flatMap display)).map (·.2) = some (withIds none es) := by
  rw [streamLines_text]
  have hok := streamLines_ok es h
  have hs : Safe (textOf (streamLines es)) := by
    right
    intro hm
    obtain ⟨l, hl, hm⟩ := List.mem_flatMap.mp hm
    rcases List.mem_append.mp hm with hm | hm
    · exact (hok l hl).2 hm
    · simp at hm
  rw [C07_fields_exact _ (fun l hl => (hok l hl).1) hs]
  have : (streamLines es).map stripCr = streamLines es := by
    have : (streamLines es).map stripCr = (streamLines es).map id := by
      apply List.map_congr_left
      intro l hl
      unfold stripCr
      rw [if_neg (fun he => (hok l hl).2 (List.mem_of_getLast? he))]; rfl
    rw [this, List.map_id]
  rw [this, eventsOf_stream es none h]

/-- **C06**, part that holds, for one event: formatting then parsing gives the event back. -/
theorem C06_event_round_trip_partial (e : Event) (h : Representable e) :
    (feed fresh (display e)).map (·.2) = some [e] := by
  have := C06_stream_round_trip_partial [e] (by simpa using h)
  simp only [List.flatMap_cons, List.flatMap_nil, List.append_nil] at this
  rw [this]
  simp [withIds]

/-- **C06** is false for data beginning or ending with a line feed, and for empty data, although the
event-stream format can carry all three. -/
theorem C06_data_lost :
    (feed fresh (display ⟨none, none, "\nx".toList, none⟩)).map (fun r => r.2.map (·.data))
      = some ["x".toList] ∧
    (feed fresh (display ⟨none, none, "x\n".toList, none⟩)).map (fun r => r.2.map (·.data))
      = some ["x".toList] ∧
    (feed fresh (display ⟨none, none, [], none⟩)).map (fun r => r.2.map (·.data)) = some [] := by
  decide +kernel

/-- An event with every field, data of several lines with a blank line, a colon and a leading space.
(Specification: no counterpart in the code.) -/
def sampleEvent : Event :=
  ⟨some "é7".toList, some "message".toList, " a: b\n\nc".toList, some 5000⟩

example : Representable sampleEvent where
  id_ok := by intro i hi; cases hi; decide
  event_ok := by intro i hi; cases hi; decide
  retry_ok := by intro n hn; cases hn; decide
  data_cr := by decide
  data_first := ⟨' ', by decide, by decide⟩
  data_last := by decide
example : (feed fresh (display sampleEvent)).map (·.2) = some [sampleEvent] := by decide +kernel

end Verif.Sse
