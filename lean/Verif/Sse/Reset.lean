import Verif.Sse.Props

/-
Property C144: what the parser keeps of a stream: the last event id, across `reset`.
-/

namespace Verif.Sse

/-- An event without its id. (Specification: no counterpart in the code.) -/
def noId (e : Event) : Event := { e with id := none }

theorem processLine_same (p : Parser) (last : Option Text) (l : Text) :
    (processLine { p with lastId := last } l).1.cur = (processLine p l).1.cur ∧
    (processLine { p with lastId := last } l).2.map noId = (processLine p l).2.map noId := by
  unfold processLine
  by_cases h0 : l = []
  · simp only [h0, if_true]
    unfold dispatch
    by_cases hd : p.cur.data = []
    · simp [hd]
    · simp [hd, noId]
  · simp only [h0, if_false]
    by_cases h1 : l.head? = some ':'
    · simp [h1]
    · simp only [h1, if_false]
      repeat' split
      all_goals exact ⟨rfl, rfl⟩

theorem feedLoop_same (n : Nat) : ∀ (p : Parser) (last : Option Text), p.buffer.length ≤ n →
    (feedLoop { p with lastId := last }).map (fun r => r.2.map noId) =
      (feedLoop p).map (fun r => r.2.map noId) := by
  induction n with
  | zero =>
    intro p last hn
    rw [feedLoop.eq_def, feedLoop.eq_def]
    dsimp only
    cases hs : Str.splitOnce '\n' p.buffer with
    | none => simp
    | some ab => have := splitOnce_length (show _ = some (ab.1, ab.2) from hs); omega
  | succ n ih =>
    intro p last hn
    rw [feedLoop.eq_def, feedLoop.eq_def]
    dsimp only
    cases hs : Str.splitOnce '\n' p.buffer with
    | none => simp
    | some ab =>
      obtain ⟨pre, post⟩ := ab
      dsimp only
      cases hx : extractLine p.buffer pre with
      | none => simp
      | some line =>
        dsimp only
        obtain ⟨h1, h2⟩ := processLine_same { p with buffer := post } last line
        simp only at h1 h2
        have hlen := splitOnce_length hs
        generalize ha : processLine { p with buffer := post, lastId := last } line = a at h1 h2
        generalize hb : processLine { p with buffer := post } line = b at h1 h2
        have := ih { b.1 with buffer := post } a.1.lastId (by simp only; omega)
        simp only at this
        rw [← h1] at this
        have e1 : ({ a.1 with buffer := post } : Parser) =
            { buffer := post, cur := a.1.cur, lastId := a.1.lastId } := rfl
        have e2 : ({ b.1 with buffer := post } : Parser) =
            { buffer := post, cur := a.1.cur, lastId := b.1.lastId } := by rw [h1]
        rw [e1, e2, Option.map_map, Option.map_map]
        cases ha' : feedLoop { buffer := post, cur := a.1.cur, lastId := a.1.lastId } with
        | none =>
          cases hb' : feedLoop { buffer := post, cur := a.1.cur, lastId := b.1.lastId } with
          | none => rfl
          | some y => rw [ha', hb'] at this; cases this
        | some x =>
          cases hb' : feedLoop { buffer := post, cur := a.1.cur, lastId := b.1.lastId } with
          | none => rw [ha', hb'] at this; cases this
          | some y =>
            rw [ha', hb'] at this
            simp only [Option.map_some, Option.some.injEq] at this
            simp only [Option.map_some, Function.comp, Option.some.injEq, List.map_append, this]
            congr 1
            cases ho : a.2 <;> cases ho' : b.2 <;> rw [ho, ho'] at h2 <;> simp_all

/-- **C144.** After `reset`, whatever was read before and wherever the stream was cut: every text gives the
events a fresh parser would give (or the same panic), up to their ids. -/
theorem C144_reset (p : Parser) (data : Text) :
    (feed (reset p) data).map (fun r => r.2.map noId) = (feed fresh data).map (fun r => r.2.map noId) :=
  feedLoop_same _ { fresh with buffer := fresh.buffer ++ data } p.lastId (Nat.le_refl _)

example : ((feed fresh "id: 7\ndata: a\n\nevent: x\ndata: half".toList).map
      (fun r => (feed (reset r.1) "data: b\n\n".toList).map (·.2))) =
    some (some [⟨some "7".toList, none, "b".toList, none⟩]) := by decide +kernel

/-- The parser with an id of before behind its own. (Specification: no counterpart in the code.) -/
def behind (last : Option Text) (p : Parser) : Parser := { p with lastId := p.lastId.or last }

/-- The event with an id of before, if it has none. (Specification: no counterpart in the code.) -/
def idBehind (last : Option Text) (e : Event) : Event := { e with id := e.id.or last }

theorem processLine_behind (last : Option Text) (p : Parser) (l : Text) :
    processLine (behind last p) l = (behind last (processLine p l).1, (processLine p l).2.map (idBehind last)) := by
  unfold processLine
  by_cases h0 : l = []
  · simp only [h0, if_true]
    unfold dispatch
    by_cases hd : p.cur.data = []
    · simp [hd, behind]
    · simp [hd, behind, idBehind, Option.or_assoc]
  · simp only [h0, if_false]
    by_cases h1 : l.head? = some ':'
    · simp [h1]
    · simp only [h1, if_false]
      simp only [behind]
      repeat' split
      all_goals first | rfl | simp_all

theorem feedLoop_behind (last : Option Text) (n : Nat) : ∀ p : Parser, p.buffer.length ≤ n →
    feedLoop (behind last p) = (feedLoop p).map (fun r => (behind last r.1, r.2.map (idBehind last))) := by
  induction n with
  | zero =>
    intro p hn
    rw [feedLoop.eq_def, feedLoop.eq_def]
    dsimp only [behind]
    cases hs : Str.splitOnce '\n' p.buffer with
    | none => simp [behind]
    | some ab => have := splitOnce_length (show _ = some (ab.1, ab.2) from hs); omega
  | succ n ih =>
    intro p hn
    rw [feedLoop.eq_def, feedLoop.eq_def]
    dsimp only [behind]
    cases hs : Str.splitOnce '\n' p.buffer with
    | none => simp [behind]
    | some ab =>
      obtain ⟨pre, post⟩ := ab
      dsimp only
      cases hx : extractLine p.buffer pre with
      | none => simp
      | some line =>
        dsimp only
        have hp := processLine_behind last { p with buffer := post } line
        simp only [behind] at hp
        rw [hp]
        have hlen := splitOnce_length hs
        have := ih { (processLine { p with buffer := post } line).1 with buffer := post } (by simp only; omega)
        simp only [behind] at this
        simp only
        rw [this, Option.map_map, Option.map_map]
        congr 1
        funext r
        simp only [Function.comp, List.map_append]
        cases (processLine { p with buffer := post } line).2 <;> rfl

/-- **C144**, for every text. After `reset` every text gives what a fresh parser gives from it (or the same panic), with
one difference: an event, or the parser in the end, that would have no id has the last id seen before the `reset`. -/
theorem C144_any_text (p : Parser) (data : Text) :
    feed (reset p) data = (feed fresh data).map (fun r =>
      ({ r.1 with lastId := r.1.lastId.or p.lastId }, r.2.map (fun e => { e with id := e.id.or p.lastId }))) :=
  feedLoop_behind p.lastId _ { fresh with buffer := fresh.buffer ++ data } (Nat.le_refl _)

-- a text outside the guard of C05: the carriage return stays in the data, the id is that of before
example : ((feed (reset { fresh with lastId := some "1".toList }) "data: é\r\n\n".toList).map (·.2)) =
    some [⟨some "1".toList, none, "é\r".toList, none⟩] := by decide +kernel

/-- **C144.** The ids: exactly the events of the lines, with the last id seen before the `reset` as the id of
the events before the first id of the new stream. -/
theorem C144_reset_ids (p : Parser) (lines : List Text) (h : ∀ l ∈ lines, '\n' ∉ l) (hs : Safe (textOf lines)) :
    (feed (reset p) (textOf lines)).map (·.2) =
      some (eventsOf (fun b => !decide (dataOfCode b = [])) dataOfCode p.lastId [] (lines.map stripCr)) := by
  have hb : (reset p).buffer ++ textOf lines = textOf lines := rfl
  rw [feed_safe (reset p) _ (by rw [hb]; exact hs), hb, cut_textOf lines h]
  simp only [Option.map_some]
  rw [processLines_events (lines.map stripCr) (reset p) [] p.lastId rfl rfl]

theorem idOf_append (a b : List Text) : idOf (a ++ b) = (idOf b).or (idOf a) := by
  unfold idOf
  rw [valuesOf_append, List.filter_append, List.getLast?_append]

theorem idOf_nil : idOf [] = none := rfl

theorem idOf_blank : idOf [[]] = none := by decide

theorem processLine_last (p : Parser) (l : Text) :
    (processLine p l).1.lastId = (idOf [l]).or p.lastId := by
  by_cases hl : l = []
  · subst hl
    rw [idOf_blank]
    have hp : processLine p [] = dispatch p := by simp [processLine]
    rw [hp]
    unfold dispatch
    split <;> rfl
  · obtain ⟨_, _, h3, _⟩ := processLine_block { p with cur := {} } [] l hl p.lastId rfl rfl
    rw [List.nil_append] at h3
    rw [← h3]
    unfold processLine
    simp only [hl, if_false]
    by_cases h1 : l.head? = some ':'
    · simp [h1]
    · simp only [h1, if_false]
      repeat' split
      all_goals rfl

theorem processLines_last (lines : List Text) (p : Parser) :
    (processLines p lines).1.lastId = (idOf lines).or p.lastId := by
  induction lines generalizing p with
  | nil => rfl
  | cons l ls ih =>
    have : idOf (l :: ls) = (idOf ls).or (idOf [l]) := by
      rw [← idOf_append]; rfl
    simp only [processLines]
    rw [ih, processLine_last, this, Option.or_assoc]

/-- **C144.** `last_event_id` is the last id (without NUL) of everything read, whether or not its event was
complete, and survives `reset`. -/
theorem C144_last_id (p : Parser) (lines : List Text) (h : ∀ l ∈ lines, '\n' ∉ l) (hs : Safe (textOf lines)) :
    (feed (reset p) (textOf lines)).map (·.1.lastId) = some ((idOf (lines.map stripCr)).or p.lastId) := by
  have hb : (reset p).buffer ++ textOf lines = textOf lines := rfl
  rw [feed_safe (reset p) _ (by rw [hb]; exact hs), hb, cut_textOf lines h]
  simp only [Option.map_some]
  rw [processLines_last]
  rfl

-- the id of an event that never ended is the last id
example : (feed (reset { fresh with lastId := some "1".toList })
      (textOf ["id: 2".toList, "data: x".toList])).map (·.1.lastId) = some (some "2".toList) ∧
    idOf ["id: 2".toList, "data: x".toList] = some "2".toList := by decide +kernel

end Verif.Sse
