import Verif.Sse.Model
import Verif.Common.ListExtra

namespace Verif.Sse

/-! Clean line-by-line semantics, and when `feed` agrees with it. -/

/-- Remove one trailing carriage return. (Specification: no counterpart in the code.) -/
def stripCr (l : Text) : Text := if l.getLast? = some '\r' then l.dropLast else l

/-- Complete lines of a buffer (without line feed) and the unfinished rest.
(Specification: no counterpart in the code.) -/
def cut (s : Text) : List Text × Text :=
  match h : Str.splitOnce '\n' s with
  | none => ([], s)
  | some (pre, post) => (pre :: (cut post).1, (cut post).2)
termination_by s.length
decreasing_by all_goals exact splitOnce_length h

/-- Process lines in order. (Specification: no counterpart in the code.) -/
def processLines (p : Parser) : List Text → Parser × List Event
  | [] => (p, [])
  | l :: ls =>
    let r := processLine p l
    let q := processLines r.1 ls
    (q.1, r.2.toList ++ q.2)

theorem processLines_append (p : Parser) (a b : List Text) :
    processLines p (a ++ b) =
      ((processLines (processLines p a).1 b).1,
        (processLines p a).2 ++ (processLines (processLines p a).1 b).2) := by
  induction a generalizing p with
  | nil => simp [processLines]
  | cons l ls ih => simp [processLines, ih]

/-- The buffer plays no role in `processLine`. -/
theorem processLine_buffer (p : Parser) (b : Text) (l : Text) :
    processLine { p with buffer := b } l =
      ({ (processLine p l).1 with buffer := b }, (processLine p l).2) := by
  by_cases h1 : l = []
  · by_cases h2 : p.cur.data = [] <;> simp [processLine, dispatch, h1, h2]
  · by_cases h3 : l.head? = some ':'
    · simp [processLine, h1, h3]
    · simp only [processLine, h1, h3, if_false]
      by_cases h4 : (fieldValue l).1 = kEvent
      · simp only [h4, if_true]
      · simp only [h4, if_false]
        by_cases h5 : (fieldValue l).1 = kData
        · by_cases h6 : p.cur.data = [] <;> simp only [h5, h6, if_true, if_false]
        · simp only [h5, if_false]
          by_cases h6 : (fieldValue l).1 = kId
          · by_cases h7 : '\x00' ∈ (fieldValue l).2 <;> simp only [h6, h7, if_true, if_false]
          · simp only [h6, if_false]
            by_cases h7 : (fieldValue l).1 = kRetry
            · simp only [h7, if_true]
              cases Decimal.parseUnsigned (2 ^ 64) (fieldValue l).2 <;> rfl
            · simp only [h7, if_false]

theorem processLine_keeps_buffer (p : Parser) (l : Text) : (processLine p l).1.buffer = p.buffer := by
  unfold processLine dispatch
  simp only
  (repeat' split) <;> rfl

theorem processLines_keeps_buffer (p : Parser) (ls : List Text) :
    (processLines p ls).1.buffer = p.buffer := by
  induction ls generalizing p with
  | nil => rfl
  | cons l ls ih => simp [processLines, ih, processLine_keeps_buffer]

theorem processLines_buffer (p : Parser) (b : Text) (ls : List Text) :
    processLines { p with buffer := b } ls =
      ({ (processLines p ls).1 with buffer := b }, (processLines p ls).2) := by
  induction ls generalizing p with
  | nil => rfl
  | cons l ls ih =>
    simp only [processLines, processLine_buffer p b l]
    rw [ih]

theorem cut_eq (s : Text) : cut s = match Str.splitOnce '\n' s with
    | none => ([], s)
    | some (pre, post) => (pre :: (cut post).1, (cut post).2) := by
  rw [cut]
  split <;> rename_i h <;> simp [h]

theorem cut_append (a b : Text) :
    cut (a ++ b) = ((cut a).1 ++ (cut ((cut a).2 ++ b)).1, (cut ((cut a).2 ++ b)).2) := by
  induction hl : a.length using Nat.strongRecOn generalizing a with
  | _ n ih =>
    rcases hs : Str.splitOnce '\n' a with _ | ⟨pre, post⟩
    · rw [cut_eq a, hs]; simp
    · obtain ⟨h1, h2⟩ := Str.splitOnce_some hs
      have hab : Str.splitOnce '\n' (a ++ b) = some (pre, post ++ b) := by
        rw [h1, List.append_assoc, List.cons_append]
        exact Str.splitOnce_append h2 _
      rw [cut_eq (a ++ b), hab, cut_eq a, hs]
      simp only
      have := ih post.length (by rw [← hl]; exact splitOnce_length hs) post rfl
      rw [this]
      simp

/-- The text for which byte and character offsets do no harm: all ASCII, or no carriage return.
(Specification: no counterpart in the code.) -/
def Safe (s : Text) : Prop := (∀ c ∈ s, c.toNat < 128) ∨ '\r' ∉ s

theorem safe_of_append_left {a b : Text} (h : Safe (a ++ b)) : Safe a := by
  rcases h with h | h
  · left; intro c hc; exact h c (by simp [hc])
  · right; intro hc; exact h (by simp [hc])

theorem safe_of_append_right {a b : Text} (h : Safe (a ++ b)) : Safe b := by
  rcases h with h | h
  · left; intro c hc; exact h c (by simp [hc])
  · right; intro hc; exact h (by simp [hc])

theorem byteLen_ascii {s : Text} (h : ∀ c ∈ s, c.toNat < 128) : byteLen s = s.length := by
  unfold byteLen
  induction s with
  | nil => rfl
  | cons c s ih =>
    have h1 := Utf8.encodeChar_ascii (h c List.mem_cons_self)
    have h2 := ih (fun x hx => h x (List.mem_cons_of_mem _ hx))
    simp only [Utf8.encode, List.flatMap_cons, List.length_append, List.length_cons] at h2 ⊢
    rw [h1, h2]
    simp; omega

theorem byteLen_append (a b : Text) : byteLen (a ++ b) = byteLen a + byteLen b := by
  simp [byteLen, Utf8.encode_append]

theorem sliceTo_byteLen (a b : Text) : sliceTo (a ++ b) (byteLen a) = some a := by
  induction a with
  | nil => simp [sliceTo, byteLen, Utf8.encode]
  | cons c a ih =>
    have hpos : 0 < Utf8.charLen c :=
      List.length_pos_iff.mpr (Utf8.encodeNat_ne_nil _)
    have hb : byteLen (c :: a) = Utf8.charLen c + byteLen a := by
      simp [byteLen, Utf8.encode, Utf8.charLen]
    obtain ⟨k, hk⟩ : ∃ k, byteLen (c :: a) = k + 1 := ⟨byteLen (c :: a) - 1, by omega⟩
    rw [List.cons_append, hk]
    unfold sliceTo
    rw [if_pos (by omega)]
    have : k + 1 - Utf8.charLen c = byteLen a := by omega
    rw [this, ih]; rfl

/-- On safe buffers the extracted line is the text before the line feed without its carriage
return. -/
theorem extractLine_safe {pre post : Text} (h : Safe (pre ++ '\n' :: post)) :
    extractLine (pre ++ '\n' :: post) pre = some (stripCr pre) := by
  unfold extractLine stripCr
  rcases h with h | h
  · have hpre : ∀ c ∈ pre, c.toNat < 128 := fun c hc => h c (by simp [hc])
    rw [byteLen_ascii hpre]
    rcases List.eq_nil_or_concat pre with rfl | ⟨q, c, rfl⟩
    · simp
    · have hq : ∀ c ∈ q, c.toNat < 128 := fun x hx => hpre x (by simp [hx])
      simp only [List.concat_eq_append] at h hpre ⊢
      by_cases hc : c = '\r'
      · subst hc
        simp only [List.length_append, List.length_cons, List.length_nil, List.append_assoc]
        rw [if_pos ⟨by omega, by simp⟩, if_pos (by simp)]
        have : q.length + (0 + 1) - 1 = byteLen q := by rw [byteLen_ascii hq]; omega
        rw [this, sliceTo_byteLen]
        simp
      · rw [if_neg, if_neg]
        · simp; exact hc
        · intro hcon
          have h2 := hcon.2
          simp only [List.length_append, List.length_cons, List.length_nil, List.append_assoc] at h2
          rw [List.getElem?_append_right (by omega)] at h2
          simp at h2
          exact hc h2
  · rw [if_neg, if_neg]
    · intro hl
      exact h (List.mem_append_left _ (List.mem_of_getLast? hl))
    · rintro ⟨_, h2⟩
      exact h (List.mem_of_getElem? h2)

theorem feedLoop_eq (p : Parser) : feedLoop p = match Str.splitOnce '\n' p.buffer with
    | none => some (p, [])
    | some (pre, post) =>
      match extractLine p.buffer pre with
      | none => none
      | some line =>
        (feedLoop { (processLine { p with buffer := post } line).1 with buffer := post }).map
          (fun q => (q.1, (processLine { p with buffer := post } line).2.toList ++ q.2)) := by
  rw [feedLoop]
  split
  · rename_i h; simp only [h]
  · rename_i pre post h
    simp only [h]
    cases extractLine p.buffer pre <;> rfl

/-- On safe buffers `feed` is: cut into lines, process them, keep the rest. -/
theorem feedLoop_safe (p : Parser) (h : Safe p.buffer) :
    feedLoop p = some
      ({ (processLines p ((cut p.buffer).1.map stripCr)).1 with buffer := (cut p.buffer).2 },
        (processLines p ((cut p.buffer).1.map stripCr)).2) := by
  induction hl : p.buffer.length using Nat.strongRecOn generalizing p with
  | _ n ih =>
    rcases hs : Str.splitOnce '\n' p.buffer with _ | ⟨pre, post⟩
    · rw [feedLoop_eq, cut_eq, hs]
      simp [processLines]
    · obtain ⟨h1, h2⟩ := Str.splitOnce_some hs
      have hex : extractLine p.buffer pre = some (stripCr pre) := by
        rw [h1]; exact extractLine_safe (h1 ▸ h)
      have hpost : Safe post := by
        have : Safe ((pre ++ ['\n']) ++ post) := by rw [h1] at h; simpa using h
        exact safe_of_append_right this
      rw [feedLoop_eq, cut_eq, hs]
      simp only [hex]
      rw [processLine_buffer]
      have := ih post.length (by rw [← hl]; exact splitOnce_length hs)
        { (processLine p (stripCr pre)).1 with buffer := post } hpost rfl
      rw [this]
      simp only [Option.map_some, List.map_cons, processLines, processLines_buffer]

theorem feed_safe (p : Parser) (d : Text) (h : Safe (p.buffer ++ d)) :
    feed p d = some
      ({ (processLines p ((cut (p.buffer ++ d)).1.map stripCr)).1 with
          buffer := (cut (p.buffer ++ d)).2 },
        (processLines p ((cut (p.buffer ++ d)).1.map stripCr)).2) := by
  unfold feed
  rw [feedLoop_safe _ h]
  simp only [processLines_buffer]

theorem cut_rest_suffix (s : Text) : (cut s).2 <:+ s := by
  induction hl : s.length using Nat.strongRecOn generalizing s with
  | _ n ih =>
    rw [cut_eq]
    rcases hs : Str.splitOnce '\n' s with _ | ⟨pre, post⟩
    · exact List.suffix_refl _
    · obtain ⟨h1, _⟩ := Str.splitOnce_some hs
      have := ih post.length (by rw [← hl]; exact splitOnce_length hs) post rfl
      refine this.trans ?_
      rw [h1]
      exact ⟨pre ++ ['\n'], by simp⟩

end Verif.Sse
