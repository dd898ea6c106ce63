import Verif.Sse.Props

/-
C238: what the event-stream parser keeps.
-/

namespace Verif.Sse

open Verif

/-! ### Specifications -/

/-- Length of a text that may be missing. (Specification: no counterpart in the code.) -/
def len : Option Text → Nat
  | none => 0
  | some t => t.length

/-- What is kept of an unfinished event. (Specification: no counterpart in the code.) -/
def size (b : Builder) : Nat := b.data.length + len b.event + len b.id

/-- A line that ends an event. (Specification: no counterpart in the code.) -/
def Blank (l : Text) : Prop := l = [] ∨ l = ['\r']

instance (l : Text) : Decidable (Blank l) := inferInstanceAs (Decidable (_ ∨ _))

/-- The length, with line feeds, of the lines since the last blank one. (Specification: no counterpart in the code.) -/
def sinceBlank (lines : List Text) : Nat :=
  lines.foldl (fun n l => if Blank l then 0 else n + l.length + 1) 0

/-! ### Lemmas -/

/-- One line. (Specification: no counterpart in the code.) -/
def weigh (n : Nat) (l : Text) : Nat := if Blank l then 0 else n + l.length + 1

theorem weigh_mono {n m : Nat} (h : n ≤ m) (ls : List Text) : ls.foldl weigh n ≤ ls.foldl weigh m := by
  induction ls generalizing n m with
  | nil => exact h
  | cons l ls ih =>
    simp only [List.foldl_cons]
    apply ih
    unfold weigh
    split <;> omega

theorem byteLen_cons (c : Char) (s : Text) : byteLen (c :: s) = Utf8.charLen c + byteLen s := by
  simp [byteLen, Utf8.encode, Utf8.charLen]

theorem charLen_pos (c : Char) : 0 < Utf8.charLen c := List.length_pos_iff.mpr (Utf8.encodeNat_ne_nil _)

theorem sliceTo_prefix (pre post : Text) (k : Nat) (h : k ≤ byteLen pre) (line : Text)
    (hl : sliceTo (pre ++ post) k = some line) : line <+: pre ∧ byteLen line = k := by
  induction pre generalizing k line with
  | nil =>
    have : k = 0 := by simpa [byteLen, Utf8.encode] using h
    subst this
    cases hp : ([] ++ post : Text) <;> rw [hp] at hl <;> simp only [sliceTo, Option.some.injEq] at hl <;> subst hl <;>
      exact ⟨List.prefix_refl _, rfl⟩
  | cons c pre ih =>
    cases k with
    | zero => simp only [List.cons_append, sliceTo, Option.some.injEq] at hl; subst hl; exact ⟨List.nil_prefix, rfl⟩
    | succ k =>
      simp only [List.cons_append, sliceTo] at hl
      split at hl
      · next hc =>
        simp only [Option.map_eq_some_iff] at hl
        obtain ⟨t, ht, rfl⟩ := hl
        rw [byteLen_cons] at h
        obtain ⟨h1, h2⟩ := ih _ (by omega) t ht
        refine ⟨?_, by rw [byteLen_cons, h2]; omega⟩
        obtain ⟨u, rfl⟩ := h1
        exact ⟨u, rfl⟩
      · cases hl

/-- The line taken out of the buffer is a beginning of the text before the line feed, and empty exactly if that is blank. -/
theorem extract_prefix (pre post line : Text) (h : extractLine (pre ++ '\n' :: post) pre = some line) :
    line <+: pre ∧ (line = [] ↔ Blank pre) := by
  unfold extractLine at h
  simp only at h
  split at h
  · next hc =>
    obtain ⟨h1, h2⟩ := sliceTo_prefix pre _ _ (by omega) line h
    refine ⟨h1, ?_⟩
    constructor
    · rintro rfl
      have hb : byteLen pre = 1 := by
        have : byteLen [] = 0 := rfl
        rw [this] at h2; omega
      rw [hb] at hc
      cases pre with
      | nil => cases hb
      | cons c pre =>
        rw [byteLen_cons] at hb
        have := charLen_pos c
        cases pre with
        | nil => simp at hc; exact .inr (by rw [hc])
        | cons d pre => rw [byteLen_cons] at hb; have := charLen_pos d; omega
    · rintro (rfl | rfl)
      · exact List.prefix_nil.mp h1
      · have : byteLen ['\r'] = 1 := by decide
        rw [this] at h2
        cases line with
        | nil => rfl
        | cons c l => rw [byteLen_cons] at h2; have := charLen_pos c; omega
  · next hc =>
    simp only [Option.some.injEq] at h; subst h
    refine ⟨List.prefix_refl _, ?_⟩
    constructor
    · exact .inl
    · rintro (rfl | rfl)
      · rfl
      · have : byteLen ['\r'] = 1 := by decide
        refine absurd ⟨by rw [this]; exact Nat.one_pos, ?_⟩ hc
        rw [this]; rfl

theorem fieldValue_length (line : Text) : (fieldValue line).1.length + (fieldValue line).2.length ≤ line.length ∧
    ((fieldValue line).2 ≠ [] → (fieldValue line).1.length + (fieldValue line).2.length < line.length) := by
  unfold fieldValue
  cases hs : Str.splitOnce ':' line with
  | none => simp
  | some fv =>
    obtain ⟨f, v⟩ := fv
    obtain ⟨h1, -⟩ := Str.splitOnce_some hs
    subst h1
    cases v with
    | nil => simp
    | cons c r =>
      simp only
      split <;> simp <;> omega

/-- A line adds no more than its own length to the unfinished event. -/
theorem processLine_size (p : Parser) (line : Text) :
    size (processLine p line).1.cur ≤ if line = [] then 0 else size p.cur + line.length := by
  have hv := fieldValue_length line
  unfold processLine
  split
  · unfold dispatch
    split <;> exact Nat.le_refl _
  · next hne =>
    simp only [hne, ↓reduceIte]
    split
    · exact Nat.le_add_right _ _
    · split
      · simp only [size, len]; omega
      · split
        · next hd =>
          have : (fieldValue line).1.length = 4 := by rw [hd]; rfl
          split
          · next h0 => simp only [size, h0, List.length_nil]; omega
          · simp only [size, List.length_append, List.length_cons]; omega
        · split
          · split
            · exact Nat.le_add_right _ _
            · simp only [size, len]; omega
          · split
            · split
              · simp only [size]; omega
              · exact Nat.le_add_right _ _
            · exact Nat.le_add_right _ _

theorem feedLoop_keeps (p q : Parser) (es : List Event) (h : feedLoop p = some (q, es)) :
    q.buffer = (cut p.buffer).2 ∧ size q.cur ≤ (cut p.buffer).1.foldl weigh (size p.cur) := by
  induction hl : p.buffer.length using Nat.strongRecOn generalizing p es with
  | _ n ih =>
    rcases hs : Str.splitOnce '\n' p.buffer with _ | ⟨pre, post⟩
    · rw [feedLoop_eq, hs] at h
      rw [cut_eq, hs]
      simp only [Option.some.injEq, Prod.mk.injEq] at h
      obtain ⟨rfl, -⟩ := h
      exact ⟨rfl, Nat.le_refl _⟩
    · obtain ⟨h1, h2⟩ := Str.splitOnce_some hs
      rw [feedLoop_eq, hs] at h
      simp only at h
      cases he : extractLine p.buffer pre with
      | none => rw [he] at h; cases h
      | some line =>
        rw [he] at h
        simp only [Option.map_eq_some_iff] at h
        obtain ⟨⟨q', es'⟩, hq, heq⟩ := h
        simp only [Prod.mk.injEq] at heq
        obtain ⟨rfl, -⟩ := heq
        have hi := ih post.length (by rw [← hl]; exact splitOnce_length hs) _ es' hq rfl
        rw [cut_eq, hs]
        simp only [List.foldl_cons]
        refine ⟨hi.1, Nat.le_trans hi.2 (weigh_mono ?_ _)⟩
        have hz := processLine_size { p with buffer := post } line
        rw [h1] at he
        obtain ⟨hp, hb⟩ := extract_prefix pre post line he
        unfold weigh
        by_cases hbl : Blank pre
        · rw [if_pos (hb.mpr hbl)] at hz
          rw [if_pos hbl]; exact hz
        · rw [if_neg (fun h => hbl (hb.mp h))] at hz
          rw [if_neg hbl]
          have := hp.length_le
          simp only at hz ⊢
          omega

theorem feedAll_keeps (p q : Parser) (chunks : List Text) (es : List Event) (hb : (cut p.buffer) = ([], p.buffer))
    (h : feedAll p chunks = some (q, es)) :
    q.buffer = (cut (p.buffer ++ chunks.flatten)).2 ∧
      size q.cur ≤ (cut (p.buffer ++ chunks.flatten)).1.foldl weigh (size p.cur) := by
  induction chunks generalizing p es with
  | nil =>
    simp only [feedAll, Option.some.injEq, Prod.mk.injEq] at h
    obtain ⟨rfl, -⟩ := h
    rw [List.flatten_nil, List.append_nil, hb]
    exact ⟨rfl, Nat.le_refl _⟩
  | cons c cs ih =>
    simp only [feedAll] at h
    cases hf : feed p c with
    | none => rw [hf] at h; cases h
    | some r =>
      obtain ⟨p', e'⟩ := r
      rw [hf] at h
      simp only [Option.map_eq_some_iff] at h
      obtain ⟨⟨q', es'⟩, hq, heq⟩ := h
      simp only [Prod.mk.injEq] at heq
      obtain ⟨rfl, -⟩ := heq
      obtain ⟨h1, h2⟩ := feedLoop_keeps _ _ _ hf
      simp only at h1 h2
      have hcut : cut p'.buffer = ([], p'.buffer) := by
        have := cut_append (p.buffer ++ c) []
        rw [List.append_nil, ← h1, List.append_nil] at this
        have e1 := congrArg Prod.fst this
        have e2 := congrArg Prod.snd this
        simp only [h1] at e1 e2
        have e3 : (cut (cut (p.buffer ++ c)).2).1 = [] := by
          have := congrArg List.length e1
          rw [List.length_append] at this
          exact List.eq_nil_of_length_eq_zero (by omega)
        rw [h1]
        exact Prod.ext e3 e2.symm
      obtain ⟨i1, i2⟩ := ih p' es' hcut hq
      rw [List.flatten_cons, ← List.append_assoc, cut_append (p.buffer ++ c), ← h1]
      refine ⟨i1, ?_⟩
      simp only [List.foldl_append]
      exact Nat.le_trans i2 (weigh_mono h2 _)

/-! ### C238 -/

/-- **C238** (what is kept). Whatever is fed, in whatever pieces: the buffer of the parser is the unfinished last line, and
what is kept of the unfinished event is no longer than the lines since the last blank one. -/
theorem C238_kept (chunks : List Text) (q : Parser) (es : List Event) (h : feedAll fresh chunks = some (q, es)) :
    q.buffer = (cut chunks.flatten).2 ∧ size q.cur ≤ sinceBlank (cut chunks.flatten).1 :=
  feedAll_keeps fresh q chunks es (by rw [cut_eq]; rfl) h

/-- **C238** (nothing between events). After a blank line nothing is kept but the last event id. -/
theorem C238_between (chunks : List Text) (q : Parser) (es : List Event) (h : feedAll fresh chunks = some (q, es))
    (pre : List Text) (hc : cut chunks.flatten = (pre ++ [[]], []) ∨ cut chunks.flatten = (pre ++ [['\r']], [])) :
    q.buffer = [] ∧ size q.cur = 0 := by
  obtain ⟨h1, h2⟩ := C238_kept chunks q es h
  have hz : sinceBlank (cut chunks.flatten).1 = 0 := by
    rcases hc with hc | hc <;> rw [hc] <;> simp [sinceBlank, Blank]
  refine ⟨?_, by omega⟩
  rcases hc with hc | hc <;> rw [h1, hc]

/-- **C238** (refuted: no limit on a line). Text without a line feed is kept whole, however long, and no event comes of it:
whatever limit is configured, a longer line goes over it. -/
theorem C238_line_unbounded (t : Text) (h : '\n' ∉ t) : feed fresh t = some ({ fresh with buffer := t }, []) := by
  unfold feed
  rw [feedLoop_eq]
  simp only [fresh, List.nil_append, Str.splitOnce_none h]

theorem feed_data (p : Parser) (hb : p.buffer = []) (hd : p.cur.data ≠ []) :
    feed p "data: x\n".toList = some ({ p with cur := { p.cur with data := p.cur.data ++ ['\n', 'x'] } }, []) := by
  have hs : Safe (p.buffer ++ "data: x\n".toList) := by
    rw [hb]; left; decide
  rw [feed_safe p _ hs]
  have hc : cut (p.buffer ++ "data: x\n".toList) = ([['d', 'a', 't', 'a', ':', ' ', 'x']], []) := by
    rw [hb]; decide +kernel
  rw [hc]
  have e : fieldValue ['d', 'a', 't', 'a', ':', ' ', 'x'] = (kData, ['x']) := by decide
  have hl : stripCr ['d', 'a', 't', 'a', ':', ' ', 'x'] = ['d', 'a', 't', 'a', ':', ' ', 'x'] := by decide
  have hk : kData ≠ kEvent := by decide
  simp only [List.map_cons, List.map_nil, processLines, hl, processLine, e, hd, hk, ↓reduceIte]
  simp [hb]

/-- **C238** (refuted: no limit on an event). Any number of short lines with data, without a blank one, are kept as one
unfinished event. -/
theorem C238_event_unbounded (n : Nat) :
    ∃ q, feedAll fresh (List.replicate (n + 1) "data: x\n".toList) = some (q, []) ∧ q.buffer = [] ∧
      q.cur.data.length = 2 * n + 1 := by
  have key : ∀ (k : Nat) (p : Parser), p.buffer = [] → p.cur.data ≠ [] →
      ∃ q, feedAll p (List.replicate k "data: x\n".toList) = some (q, []) ∧ q.buffer = [] ∧
        q.cur.data.length = p.cur.data.length + 2 * k := by
    intro k
    induction k with
    | zero => exact fun p hb _ => ⟨p, rfl, hb, by omega⟩
    | succ k ih =>
      intro p hb hd
      obtain ⟨q, h1, h2, h3⟩ := ih { p with cur := { p.cur with data := p.cur.data ++ ['\n', 'x'] } } hb (by simp)
      refine ⟨q, ?_, h2, ?_⟩
      · simp only [List.replicate_succ, feedAll, feed_data p hb hd, h1, Option.map_some, List.append_nil]
      · rw [h3]; simp only [List.length_append, List.length_cons, List.length_nil]; omega
  have h0 : feed fresh "data: x\n".toList = some ({ fresh with cur := { data := ['x'] } }, []) := by decide +kernel
  obtain ⟨q, h1, h2, h3⟩ := key n { fresh with cur := { data := ['x'] } } rfl (by simp)
  refine ⟨q, ?_, h2, ?_⟩
  · simp only [List.replicate_succ, feedAll, h0, h1, Option.map_some, List.append_nil]
  · rw [h3]; simp only [List.length_cons, List.length_nil]; omega

/-- An event, half of the next one: what is kept. -/
example : (feedAll fresh ["data: a\n\nda".toList, "ta: bc\nid".toList]).map (fun r => (r.1.buffer, size r.1.cur)) =
    some ("id".toList, 2) ∧ sinceBlank (cut "data: a\n\ndata: bc\nid".toList).1 = 9 := by decide +kernel

example : (cut "data: a\n\n".toList) = (["data: a".toList] ++ [[]], []) := by decide +kernel

end Verif.Sse
