import Verif.Sse.Props

/-
Exactly which events and streams come back (C06), and the stream builder (C162).

Models `SseEvent::new` .. `with_retry` (/repo/src/shared/sse_parser.rs L35-90) and `SseStream` (L309-349).
-/

namespace Verif.Sse

/-! ### Every event a parser reports is clean -/

/-- No line feed and no NUL. (Specification: no counterpart in the code.) -/
def CleanId (o : Option Text) : Prop := ∀ i, o = some i → '\n' ∉ i ∧ '\x00' ∉ i

/-- What an event read from a stream looks like. (Specification: no counterpart in the code.) -/
structure Clean (e : Event) : Prop where
  id_ok : CleanId e.id
  event_ok : ∀ v, e.event = some v → '\n' ∉ v
  data_ne : e.data ≠ []
  data_first : e.data.head? ≠ some '\n'

/-- The invariant of a parser. (Specification: no counterpart in the code.) -/
structure Inv (p : Parser) : Prop where
  last : CleanId p.lastId
  id_ok : CleanId p.cur.id
  event_ok : ∀ v, p.cur.event = some v → '\n' ∉ v
  data_first : p.cur.data.head? ≠ some '\n'

theorem fieldValue_mem {l : Text} {c : Char} (h : c ∈ (fieldValue l).2) : c ∈ l := by
  unfold fieldValue at h
  cases hs : Str.splitOnce ':' l with
  | none => rw [hs] at h; cases h
  | some q =>
    obtain ⟨f, v⟩ := q
    rw [hs] at h
    obtain ⟨h1, _⟩ := Str.splitOnce_some hs
    rw [h1]
    simp only at h
    cases v with
    | nil => cases h
    | cons d r =>
      simp only at h
      split at h
      · simp [h]
      · exact List.mem_append_right _ (List.mem_cons_of_mem _ h)

theorem head?_append_ne {a b : Text} {c : Char} (h : a.head? ≠ some c) (ha : a ≠ []) : (a ++ b).head? ≠ some c := by
  cases a with
  | nil => exact absurd rfl ha
  | cons x a => simpa using h

theorem processLine_clean (p : Parser) (l : Text) (hl : '\n' ∉ l) (hp : Inv p) :
    Inv (processLine p l).1 ∧ ∀ e, (processLine p l).2 = some e → Clean e := by
  have hv : '\n' ∉ (fieldValue l).2 := fun h => hl (fieldValue_mem h)
  obtain ⟨h1, h2, h3, h4⟩ := hp
  unfold processLine
  split
  · unfold dispatch
    have hempty : Inv { p with cur := {} } := ⟨h1, by simp [CleanId], by simp, by simp⟩
    split
    · exact ⟨hempty, by simp⟩
    · next hd =>
      refine ⟨hempty, ?_⟩
      intro e he
      cases he
      refine ⟨?_, h3, hd, h4⟩
      intro i hi
      simp only at hi
      cases hc : p.cur.id with
      | some j => rw [hc] at hi; cases hi; exact h2 i hc
      | none => rw [hc] at hi; exact h1 i hi
  split
  · exact ⟨⟨h1, h2, h3, h4⟩, by simp⟩
  simp only
  split
  · exact ⟨⟨h1, h2, by intro v hv'; cases hv'; exact hv, h4⟩, by simp⟩
  split
  · split
    · refine ⟨⟨h1, h2, h3, ?_⟩, by simp⟩
      intro hh
      exact hv (List.mem_of_head? hh)
    · next hd => exact ⟨⟨h1, h2, h3, head?_append_ne h4 hd⟩, by simp⟩
  split
  · split
    · exact ⟨⟨h1, h2, h3, h4⟩, by simp⟩
    · next h0 =>
      exact ⟨⟨by intro i hi; cases hi; exact ⟨hv, h0⟩, by intro i hi; cases hi; exact ⟨hv, h0⟩, h3, h4⟩, by simp⟩
  split
  · split
    · exact ⟨⟨h1, h2, h3, h4⟩, by simp⟩
    · exact ⟨⟨h1, h2, h3, h4⟩, by simp⟩
  · exact ⟨⟨h1, h2, h3, h4⟩, by simp⟩

theorem processLines_clean (ls : List Text) (p : Parser) (hl : ∀ l ∈ ls, '\n' ∉ l) (hp : Inv p) :
    ∀ e ∈ (processLines p ls).2, Clean e := by
  induction ls generalizing p with
  | nil => intro e he; cases he
  | cons l ls ih =>
    obtain ⟨h1, h2⟩ := processLine_clean p l (hl l (by simp)) hp
    intro e he
    simp only [processLines, List.mem_append, Option.mem_toList] at he
    rcases he with he | he
    · exact h2 e he
    · exact ih _ (fun x hx => hl x (by simp [hx])) h1 e he

theorem cut_lines (s : Text) : ∀ l ∈ (cut s).1, '\n' ∉ l := by
  induction hn : s.length using Nat.strongRecOn generalizing s with
  | _ n ih =>
    rw [cut_eq]
    cases hs : Str.splitOnce '\n' s with
    | none => intro l hl; cases hl
    | some q =>
      obtain ⟨pre, post⟩ := q
      obtain ⟨_, h2⟩ := Str.splitOnce_some hs
      intro l hl
      simp only [List.mem_cons] at hl
      rcases hl with rfl | hl
      · exact h2
      · exact ih post.length (by rw [← hn]; exact splitOnce_length hs) post rfl l hl

/-- Every event a fresh parser reports is clean. -/
theorem feed_clean (s : Text) (hs : Safe s) (es : List Event) (h : (feed fresh s).map (·.2) = some es) :
    ∀ e ∈ es, Clean e := by
  have hs' : Safe (fresh.buffer ++ s) := hs
  rw [feed_safe fresh _ hs'] at h
  simp only [Option.map_some, Option.some.injEq] at h
  rw [← h]
  refine processLines_clean _ _ ?_ ⟨by simp [CleanId, fresh], by simp [CleanId, fresh], by simp [fresh], by simp [fresh]⟩
  intro l hl
  obtain ⟨x, hx, rfl⟩ := List.mem_map.mp hl
  have := cut_lines _ x hx
  unfold stripCr
  split
  · exact fun hm => this (List.dropLast_subset _ hm)
  · exact this

/-! ### Lines of any data -/

theorem strLines_def (s : Text) : strLines s = match Str.splitOnce '\n' s with
    | none => if s = [] then [] else [s]
    | some (pre, post) => (if pre.getLast? = some '\r' then pre.dropLast else pre) :: strLines post := by
  rw [strLines]; split <;> rename_i hh <;> simp only [hh]

theorem strLines_join (s : Text) (h : '\r' ∉ s) (hne : s ≠ []) :
    strLines s ≠ [] ∧
      Str.join ['\n'] (strLines s) = (if s.getLast? = some '\n' then s.dropLast else s) ∧
      (∀ l ∈ strLines s, '\n' ∉ l ∧ '\r' ∉ l) ∧ (s.head? ≠ some '\n' → (strLines s).head? ≠ some []) := by
  induction hn : s.length using Nat.strongRecOn generalizing s with
  | _ n ih =>
    subst hn
    have hdef := strLines_def s
    rcases hs : Str.splitOnce '\n' s with _ | ⟨pre, post⟩
    · rw [hs] at hdef
      simp only [if_neg hne] at hdef
      have hno := Str.splitOnce_eq_none.mp hs
      rw [hdef, if_neg (fun he => hno (List.mem_of_getLast? he))]
      refine ⟨by simp, rfl, ?_, ?_⟩
      · intro l hl
        rw [List.mem_singleton] at hl
        subst hl
        exact ⟨hno, h⟩
      · intro _; simpa using hne
    · rw [hs] at hdef
      obtain ⟨h1, h2⟩ := Str.splitOnce_some hs
      have hpre : '\r' ∉ pre := fun hm => h (by rw [h1]; simp [hm])
      have hpost : '\r' ∉ post := fun hm => h (by rw [h1]; simp [hm])
      have hpl : ¬ pre.getLast? = some '\r' := fun he => hpre (List.mem_of_getLast? he)
      simp only [if_neg hpl] at hdef
      have hhead : s.head? ≠ some '\n' → (strLines s).head? ≠ some [] := by
        intro hh hp
        rw [hdef] at hp
        simp only [List.head?_cons, Option.some.injEq] at hp
        apply hh
        rw [h1, hp]; rfl
      by_cases hp0 : post = []
      · subst hp0
        have hnil : strLines [] = [] := by rw [strLines_def]; rfl
        rw [hnil] at hdef
        refine ⟨by rw [hdef]; simp, ?_, ?_, hhead⟩
        · rw [hdef, h1]; simp [Str.join]
        · intro l hl
          rw [hdef, List.mem_singleton] at hl
          subst hl
          exact ⟨h2, hpre⟩
      · obtain ⟨i1, i2, i3, _⟩ := ih post.length (splitOnce_length hs) post hpost hp0 rfl
        refine ⟨by rw [hdef]; simp, ?_, ?_, hhead⟩
        · have hlast : s.getLast? = post.getLast? := by
            rw [h1, List.getLast?_append, List.getLast?_cons]
            cases hg : post.getLast? with
            | none => exact absurd (List.getLast?_eq_none_iff.mp hg) hp0
            | some x => rfl
          have hdrop : s.dropLast = pre ++ '\n' :: post.dropLast := by
            rw [h1, List.dropLast_append_of_ne_nil (by simp), List.dropLast_cons_of_ne_nil hp0]
          rw [hdef, hlast]
          cases hp : strLines post with
          | nil => exact absurd hp i1
          | cons x xs =>
            rw [hp] at i2
            have : Str.join ['\n'] (pre :: x :: xs) = pre ++ '\n' :: Str.join ['\n'] (x :: xs) := by simp [Str.join]
            rw [this, i2]
            split
            · exact hdrop.symm
            · exact h1.symm
        · intro l hm
          rw [hdef] at hm
          rcases List.mem_cons.mp hm with e | hm
          · subst e; exact ⟨h2, hpre⟩
          · exact i3 l hm

/-! ### C06: exactly which events come back -/

/-- No carriage return anywhere, and `retry` is a `u64`. (Specification: no counterpart in the code.) -/
structure Plain (e : Event) : Prop where
  id_ok : ∀ i, e.id = some i → '\r' ∉ i
  event_ok : ∀ v, e.event = some v → '\r' ∉ v
  data_ok : '\r' ∉ e.data
  retry_ok : ∀ n, e.retry = some n → n < 2 ^ 64

/-- What comes back of clean events: one final line feed of the data is lost.
(Specification: no counterpart in the code.) -/
def trimmed (e : Event) : Event := { e with data := if e.data.getLast? = some '\n' then e.data.dropLast else e.data }

theorem rep_x (e : Event) (h : Plain e) (hc : Clean e) : Representable { e with data := ['x'] } where
  id_ok := fun i hi => ⟨(hc.id_ok i hi).1, h.id_ok i hi, (hc.id_ok i hi).2⟩
  event_ok := fun v hv => ⟨hc.event_ok v hv, h.event_ok v hv⟩
  retry_ok := h.retry_ok
  data_cr := by simp
  data_first := ⟨'x', rfl, by decide⟩
  data_last := by simp

theorem block_event' (e : Event) (h : Plain e) (hc : Clean e) :
    idOf (blockOf e) = e.id ∧ eventOf (blockOf e) = e.event ∧ retryOf (blockOf e) = e.retry ∧
      dataOfCode (blockOf e) = (trimmed e).data := by
  obtain ⟨x1, x2, x3, _⟩ := block_event _ (rep_x e h hc)
  have key : ∀ name : Text, ':' ∉ name → name ≠ [] → kData ≠ name →
      valuesOf name (blockOf e) = valuesOf name (blockOf { e with data := ['x'] }) := by
    intro name h1 h2 h3
    rw [valuesOf_block name _ h1 h2, valuesOf_block name _ h1 h2, if_neg h3, if_neg h3]
  obtain ⟨_, s2, _, s4⟩ := strLines_join e.data h.data_ok hc.data_ne
  refine ⟨?_, ?_, ?_, ?_⟩
  · rw [← show _ = e.id from x1]
    show ((valuesOf kId (blockOf e)).filter _).getLast? = ((valuesOf kId _).filter _).getLast?
    rw [key kId (by decide) (by decide) (by decide)]
  · rw [← show _ = e.event from x2]
    show (valuesOf kEvent (blockOf e)).getLast? = (valuesOf kEvent _).getLast?
    rw [key kEvent (by decide) (by decide) (by decide)]
  · rw [← show _ = e.retry from x3]
    show ((valuesOf kRetry (blockOf e)).filterMap _).getLast? = ((valuesOf kRetry _).filterMap _).getLast?
    rw [key kRetry (by decide) (by decide) (by decide)]
  · have dD : valuesOf kData (blockOf e) = strLines e.data := by
      rw [valuesOf_block kData e (by decide) (by decide), if_neg (by decide), if_neg (by decide),
        if_neg (by decide), if_pos rfl]; simp
    show Str.join ['\n'] ((valuesOf kData (blockOf e)).dropWhile _) = _
    rw [dD]
    have : (strLines e.data).dropWhile (fun v => decide (v = [])) = strLines e.data := by
      have := s4 hc.data_first
      cases hs : strLines e.data with
      | nil => rfl
      | cons x xs =>
        rw [hs] at this
        rw [List.dropWhile_cons, if_neg (by simpa using this)]
    rw [this, s2]; rfl

theorem block_lines' (e : Event) (h : Plain e) (hc : Clean e) :
    ∀ l ∈ blockOf e, l ≠ [] ∧ '\n' ∉ l ∧ '\r' ∉ l := by
  intro l hl
  have hx := block_lines _ (rep_x e h hc)
  unfold blockOf at hl hx
  rcases List.mem_append.mp hl with hl | hl
  · exact hx l (List.mem_append_left _ hl)
  · obtain ⟨d, hd, rfl⟩ := List.mem_map.mp hl
    obtain ⟨_, _, s3, _⟩ := strLines_join e.data h.data_ok hc.data_ne
    exact ⟨by simp [mkLine], fun hm => (s3 d hd).1 (mem_mkLine hm (by decide) (by decide) (by decide)),
      fun hm => (s3 d hd).2 (mem_mkLine hm (by decide) (by decide) (by decide))⟩

theorem eventsOf_stream' (es : List Event) (last : Option Text) (h : ∀ e ∈ es, Plain e) (hc : ∀ e ∈ es, Clean e) :
    eventsOf (fun b => !decide (dataOfCode b = [])) dataOfCode last [] (streamLines es) =
      withIds last (es.map trimmed) := by
  induction es generalizing last with
  | nil => rfl
  | cons e es ih =>
    have he := h e List.mem_cons_self
    have hce := hc e List.mem_cons_self
    have : streamLines (e :: es) = blockOf e ++ [] :: streamLines es := by
      unfold streamLines; simp
    rw [this, eventsOf_block _ _ _ _ _ _ (fun l hl => (block_lines' e he hce l hl).1)]
    rw [List.nil_append]
    obtain ⟨b1, b2, b3, b4⟩ := block_event' e he hce
    rw [b1, b2, b3, b4, ih _ (fun x hx => h x (List.mem_cons_of_mem _ hx))
      (fun x hx => hc x (List.mem_cons_of_mem _ hx))]
    have hne : (trimmed e).data ≠ [] := by
      unfold trimmed
      have h1 := hce.data_ne
      have h2 := hce.data_first
      cases hd : e.data with
      | nil => exact absurd hd h1
      | cons x r =>
        rw [hd] at h2
        cases r with
        | nil =>
          dsimp only
          rw [List.getLast?_singleton, if_neg (show ¬ some x = some '\n' from h2)]
          simp
        | cons y r =>
          dsimp only
          by_cases hx : (x :: y :: r).getLast? = some '\n'
          · rw [if_pos hx]; simp
          · rw [if_neg hx]; simp
    rw [if_pos (by simp [hne])]
    rfl

theorem plain_safe (es : List Event) (h : ∀ e ∈ es, Plain e) : '\r' ∉ es.flatMap display := by
  intro hm
  obtain ⟨e, he, hm⟩ := List.mem_flatMap.mp hm
  obtain ⟨h1, h2, h3, _⟩ := h e he
  unfold display at hm
  simp only [List.mem_append] at hm
  rcases hm with ((((hm | hm) | hm) | hm) | hm)
  · cases hi : e.id with
    | none => rw [hi] at hm; cases hm
    | some i =>
      rw [hi] at hm
      simp only [List.mem_append] at hm
      rcases hm with (hm | hm) | hm
      · revert hm; decide
      · exact h1 i hi hm
      · revert hm; decide
  · cases hi : e.event with
    | none => rw [hi] at hm; cases hm
    | some i =>
      rw [hi] at hm
      simp only [List.mem_append] at hm
      rcases hm with (hm | hm) | hm
      · revert hm; decide
      · exact h2 i hi hm
      · revert hm; decide
  · cases hi : e.retry with
    | none => rw [hi] at hm; cases hm
    | some n =>
      rw [hi] at hm
      simp only [List.mem_append] at hm
      rcases hm with (hm | hm) | hm
      · revert hm; decide
      · have := Decimal.showNat_all_digits n _ hm; simp at this
      · revert hm; decide
  · obtain ⟨l, hl, hm⟩ := List.mem_flatMap.mp hm
    simp only [List.mem_append] at hm
    rcases hm with (hm | hm) | hm
    · revert hm; decide
    · by_cases hne : e.data = []
      · rw [hne, strLines_def] at hl; cases hl
      · exact ((strLines_join e.data h3 hne).2.2.1 l hl).2 hm
    · revert hm; decide
  · revert hm; decide

/-- For clean events: what comes back. -/
theorem stream_clean (es : List Event) (h : ∀ e ∈ es, Plain e) (hc : ∀ e ∈ es, Clean e) :
    (feed fresh (es.flatMap display)).map (·.2) = some (withIds none (es.map trimmed)) := by
  rw [streamLines_text]
  have hok : ∀ l ∈ streamLines es, '\n' ∉ l ∧ '\r' ∉ l := by
    intro l hl
    obtain ⟨e, he, hl⟩ := List.mem_flatMap.mp hl
    rcases List.mem_append.mp hl with hl | hl
    · exact (block_lines' e (h e he) (hc e he) l hl).2
    · rw [List.mem_singleton] at hl; subst hl; simp
  have hs : Safe (textOf (streamLines es)) := .inr (by rw [← streamLines_text]; exact plain_safe es h)
  rw [C07_fields_exact _ (fun l hl => (hok l hl).1) hs]
  have : (streamLines es).map stripCr = streamLines es := by
    have : (streamLines es).map stripCr = (streamLines es).map id := by
      apply List.map_congr_left
      intro l hl
      unfold stripCr
      rw [if_neg (fun he => (hok l hl).2 (List.mem_of_getLast? he))]; rfl
    rw [this, List.map_id]
  rw [this, eventsOf_stream' es none h hc]

theorem withIds_data (last : Option Text) (a b : List Event) (h : withIds last a = withIds last b) :
    a.map (·.data) = b.map (·.data) := by
  have key : ∀ (l : Option Text) (c : List Event), (withIds l c).map (·.data) = c.map (·.data) := by
    intro l c
    induction c generalizing l with
    | nil => rfl
    | cons e c ih => simp [withIds, ih]
  rw [← key last a, ← key last b, h]

theorem mem_withIds (e : Event) (es : List Event) (last : Option Text) (h : e ∈ es) :
    ∃ o, { e with id := e.id.or o } ∈ withIds last es := by
  induction es generalizing last with
  | nil => cases h
  | cons x es ih =>
    rcases List.mem_cons.mp h with rfl | h
    · exact ⟨last, by simp [withIds]⟩
    · obtain ⟨o, ho⟩ := ih (x.id.or last) h
      exact ⟨o, by simp only [withIds, List.mem_cons]; exact .inr ho⟩

/-- **C06**, exact for everything without carriage returns: the text of a sequence of events is read back as these
events (those without an id carrying the last one) iff no id and no event name has a line feed, no id a NUL, and the
data of each is not empty and neither begins nor ends with a line feed. -/
theorem C06_stream_exact_partial (es : List Event) (h : ∀ e ∈ es, Plain e) :
    (feed fresh (es.flatMap display)).map (·.2) = some (withIds none es) ↔
      ∀ e ∈ es, (∀ i, e.id = some i → '\n' ∉ i ∧ '\x00' ∉ i) ∧ (∀ v, e.event = some v → '\n' ∉ v) ∧
        e.data ≠ [] ∧ e.data.head? ≠ some '\n' ∧ e.data.getLast? ≠ some '\n' := by
  have hs : Safe (es.flatMap display) := .inr (plain_safe es h)
  constructor
  · intro hf
    have hcl := feed_clean _ hs _ hf
    have hc : ∀ e ∈ es, Clean e := by
      intro e he
      obtain ⟨o, ho⟩ := mem_withIds e es none he
      obtain ⟨c1, c2, c3, c4⟩ := hcl _ ho
      refine ⟨?_, c2, c3, c4⟩
      intro i hi
      exact c1 i (by simp [hi])
    rw [stream_clean es h hc] at hf
    have hd := withIds_data none _ _ (Option.some.inj hf)
    rw [List.map_map] at hd
    have hd' := List.map_inj_left.mp hd
    intro e he
    refine ⟨(hc e he).id_ok, (hc e he).event_ok, (hc e he).data_ne, (hc e he).data_first, ?_⟩
    intro hl
    have := hd' e he
    simp only [Function.comp, trimmed, hl, if_true] at this
    have hlen := congrArg List.length this
    rw [List.length_dropLast] at hlen
    have := List.length_pos_iff.mpr (hc e he).data_ne
    omega
  · intro hall
    refine C06_stream_round_trip_partial es ?_
    intro e he
    obtain ⟨a1, a2, a3, a4, a5⟩ := hall e he
    obtain ⟨p1, p2, p3, p4⟩ := h e he
    refine ⟨fun i hi => ⟨(a1 i hi).1, p1 i hi, (a1 i hi).2⟩, fun v hv => ⟨a2 v hv, p2 v hv⟩, p4, p3, ?_, a5⟩
    cases hd : e.data with
    | nil => exact absurd hd a3
    | cons c r => exact ⟨c, rfl, fun hc => a4 (by rw [hd, hc]; rfl)⟩

/-- Three events without carriage returns; the first is one the format cannot carry. -/
example : ∀ e ∈ [(⟨some "7".toList, some "a\nb".toList, "x".toList, none⟩ : Event), ⟨none, none, "y\nz".toList, some 5⟩,
    ⟨none, none, "é\n".toList, none⟩], Plain e := by
  intro e he
  simp only [List.mem_cons, List.not_mem_nil, or_false] at he
  rcases he with rfl | rfl | rfl
  all_goals refine ⟨?_, ?_, by decide, ?_⟩
  all_goals intro x hx
  all_goals first | cases hx | skip
  all_goals decide

/-- **C06**, forged events: a line feed in an event name (or an id) ends the field, and what follows is read as fields,
blank lines and further events. -/
theorem C06_injection :
    (feed fresh (display ⟨none, some "tick\ndata: forged\n\nevent: tock".toList, "real".toList, none⟩)).map (·.2) =
      some [⟨none, some "tick".toList, "forged".toList, none⟩, ⟨none, some "tock".toList, "real".toList, none⟩] := by
  decide +kernel

/-! ### C162: `SseStream` -/

/-- `SseEvent::new`, /repo/src/shared/sse_parser.rs L35-42. -/
def newEvent (data : Text) : Event := ⟨none, none, data, none⟩

/-- The methods of `SseStream`, /repo/src/shared/sse_parser.rs L320-340. -/
inductive Call where
  | event (e : Event)
  | data (d : Text)
  | typed (name d : Text)
  | comment (c : Text)

/-- One call on the events collected so far. `with_event` (L71-74) sets the name.
/repo/src/shared/sse_parser.rs L320-340. -/
def call (es : List Event) : Call → List Event
  | .event e => es ++ [e]
  | .data d => es ++ [newEvent d]
  | .typed name d => es ++ [{ newEvent d with event := some name }]
  | .comment _ => es

/-- `SseStream::new`, a chain of calls and `build`, /repo/src/shared/sse_parser.rs L315-348. -/
def build (calls : List Call) : Text := (calls.foldl call []).flatMap display

/-- Specification: the events a chain of calls is about. -/
def eventsAsked (calls : List Call) : List Event :=
  calls.filterMap (fun
    | .event e => some e
    | .data d => some ⟨none, none, d, none⟩
    | .typed n d => some ⟨none, some n, d, none⟩
    | .comment _ => none)

theorem collected (calls : List Call) (es : List Event) : calls.foldl call es = es ++ eventsAsked calls := by
  induction calls generalizing es with
  | nil => simp [eventsAsked]
  | cons c calls ih =>
    rw [List.foldl_cons, ih]
    cases c <;> simp [call, eventsAsked, newEvent]

/-- **C162.** A stream built with `SseStream` is read back as the events of the calls, in their order (those without an
id carrying the last one); exactly under the conditions of C06.

Partial: these conditions; comments are not written (`C162_no_comments`). -/
theorem C162_stream_partial (calls : List Call) (h : ∀ e ∈ eventsAsked calls, Plain e) :
    (feed fresh (build calls)).map (·.2) = some (withIds none (eventsAsked calls)) ↔
      ∀ e ∈ eventsAsked calls, (∀ i, e.id = some i → '\n' ∉ i ∧ '\x00' ∉ i) ∧ (∀ v, e.event = some v → '\n' ∉ v) ∧
        e.data ≠ [] ∧ e.data.head? ≠ some '\n' ∧ e.data.getLast? ≠ some '\n' := by
  unfold build
  rw [collected, List.nil_append]
  exact C06_stream_exact_partial _ h

/-- **C162, refuted for comments**: the text is that of the chain without them, so a stream of comments, meant to keep
a connection alive, is empty. -/
theorem C162_no_comments (calls : List Call) :
    build calls = build (calls.filter (fun | .comment _ => false | _ => true)) ∧
    ∀ cs : List Text, build (cs.map .comment) = [] := by
  constructor
  · unfold build
    rw [collected, collected]
    congr 1
    simp only [List.nil_append]
    induction calls with
    | nil => rfl
    | cons c calls ih => cases c <;> simp [eventsAsked] at ih ⊢ <;> exact ih
  · intro cs
    unfold build
    rw [collected]
    have : eventsAsked (cs.map .comment) = [] := by simp [eventsAsked]
    rw [this]; rfl

example : build [.comment "hi".toList, .data "a".toList, .typed "t".toList "b\nc".toList,
      .event ⟨some "1".toList, none, "d".toList, some 10⟩] =
    "data: a\n\nevent: t\ndata: b\ndata: c\n\nid: 1\nretry: 10\ndata: d\n\n".toList ∧
    (feed fresh (build [.comment "hi".toList, .data "a".toList, .typed "t".toList "b\nc".toList])).map (·.2) =
      some [⟨none, none, "a".toList, none⟩, ⟨none, some "t".toList, "b\nc".toList, none⟩] := by
  decide +kernel

end Verif.Sse
