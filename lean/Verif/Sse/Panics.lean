import Verif.Sse.Memory

/-
C05: exactly when the event-stream parser panics.
-/

namespace Verif.Sse

open Verif

/-- A line that ends with a character of several bytes, and that has a carriage return, counted in characters, where its
last byte is, counted in bytes (so in what follows the line). (Specification: no counterpart in the code.) -/
def BadLine (line post : Text) : Prop :=
  (∃ q c, line = q ++ [c] ∧ 128 ≤ c.toNat) ∧ (line ++ '\n' :: post)[byteLen line - 1]? = some '\r'

/-- A text one of whose lines is bad. (Specification: no counterpart in the code.) -/
def HasBadLine (s : Text) : Prop :=
  ∃ before line post, s = before ++ line ++ '\n' :: post ∧ (before = [] ∨ before.getLast? = some '\n') ∧ '\n' ∉ line ∧
    BadLine line post

theorem charLen_two (c : Char) : 2 ≤ Utf8.charLen c ↔ 128 ≤ c.toNat := by
  unfold Utf8.charLen Utf8.encodeChar Utf8.encodeNat
  split
  · simp; omega
  · split
    · simp; omega
    · split <;> simp <;> omega

theorem sliceTo_append (q s : Text) (k : Nat) : sliceTo (q ++ s) (byteLen q + k) = (sliceTo s k).map (q ++ ·) := by
  induction q with
  | nil =>
    have : byteLen [] = 0 := rfl
    rw [this, Nat.zero_add, List.nil_append]
    cases sliceTo s k <;> rfl
  | cons c q ih =>
    have hc := charLen_pos c
    rw [byteLen_cons]
    obtain ⟨n, hn⟩ : ∃ n, Utf8.charLen c + byteLen q + k = n + 1 := ⟨Utf8.charLen c + byteLen q + k - 1, by omega⟩
    rw [hn, List.cons_append, sliceTo, if_pos (by omega)]
    have : n + 1 - Utf8.charLen c = byteLen q + k := by omega
    rw [this, ih]
    cases sliceTo s k <;> rfl

theorem extract_none_iff (pre post : Text) : extractLine (pre ++ '\n' :: post) pre = none ↔ BadLine pre post := by
  unfold extractLine BadLine
  simp only
  rcases List.eq_nil_or_concat pre with rfl | ⟨q, c, rfl⟩
  · have : byteLen [] = 0 := rfl
    rw [this]
    simp
  · rw [List.concat_eq_append]
    have hb : byteLen (q ++ [c]) = byteLen q + Utf8.charLen c := by
      rw [byteLen_append, byteLen_cons]; rfl
    have hc := charLen_pos c
    rw [hb]
    have e : byteLen q + Utf8.charLen c - 1 = byteLen q + (Utf8.charLen c - 1) := by omega
    rw [e]
    have hs : sliceTo ((q ++ [c]) ++ '\n' :: post) (byteLen q + (Utf8.charLen c - 1)) = none ↔ 128 ≤ c.toNat := by
      rw [List.append_assoc, sliceTo_append, ← charLen_two, Option.map_eq_none_iff]
      cases hk : Utf8.charLen c - 1 with
      | zero => simp [sliceTo]; omega
      | succ k =>
        rw [List.singleton_append, sliceTo, if_neg (by omega)]
        simp; omega
    constructor
    · intro h
      split at h
      · next hcr => exact ⟨⟨q, c, rfl, hs.mp h⟩, hcr.2⟩
      · cases h
    · rintro ⟨⟨q', c', heq, hge⟩, hcr⟩
      have := List.append_inj' heq rfl
      obtain ⟨rfl, h2⟩ := this
      cases h2
      rw [if_pos ⟨by omega, hcr⟩]
      exact hs.mpr hge

theorem hasBadLine_iff (pre post : Text) (h : '\n' ∉ pre) :
    HasBadLine (pre ++ '\n' :: post) ↔ BadLine pre post ∨ HasBadLine post := by
  constructor
  · rintro ⟨before, line, post', heq, hb, hn, hbad⟩
    rcases hb with rfl | hb
    · left
      rw [List.nil_append] at heq
      have h1 := Str.splitOnce_append h post
      have h2 := Str.splitOnce_append hn post'
      rw [heq, h2] at h1
      cases h1
      exact hbad
    · right
      obtain ⟨b, rfl⟩ : ∃ b, before = b ++ ['\n'] := by
        rcases List.eq_nil_or_concat before with rfl | ⟨b, c, rfl⟩
        · cases hb
        · simp at hb; exact ⟨b, by simp [hb]⟩
      -- the first line is in front of `b`'s line feed
      have hlt : ∃ b', b ++ ['\n'] = pre ++ '\n' :: b' := by
        have key : ∀ (pre b x y : Text), '\n' ∉ pre → pre ++ '\n' :: x = b ++ '\n' :: y → ∃ b', b ++ ['\n'] = pre ++ '\n' :: b' := by
          intro pre
          induction pre with
          | nil =>
            intro b x y _ he
            cases b with
            | nil => exact ⟨[], rfl⟩
            | cons c b => simp at he; obtain ⟨rfl, -⟩ := he; exact ⟨b ++ ['\n'], rfl⟩
          | cons d pre ih =>
            intro b x y hn he
            simp only [List.mem_cons, not_or] at hn
            cases b with
            | nil => simp at he; exact absurd he.1.symm hn.1
            | cons c b =>
              simp only [List.cons_append, List.cons.injEq] at he
              obtain ⟨rfl, he⟩ := he
              obtain ⟨b', hb'⟩ := ih b x y hn.2 he
              exact ⟨b', by rw [List.cons_append, hb', List.cons_append]⟩
        exact key pre b post (line ++ '\n' :: post') h (by rw [heq]; simp)
      obtain ⟨b', hb'⟩ := hlt
      rw [hb'] at heq
      refine ⟨b', line, post', ?_, ?_, hn, hbad⟩
      · simp only [List.append_assoc, List.cons_append] at heq
        have := List.append_cancel_left heq
        simpa using (List.cons.inj this).2
      · rcases List.eq_nil_or_concat b' with rfl | ⟨b2, c, rfl⟩
        · exact .inl rfl
        · right
          have := congrArg List.getLast? hb'
          rw [List.concat_eq_append] at this
          simp only [List.getLast?_append, List.getLast?_cons] at this
          simpa using this.symm
  · rintro (hbad | ⟨before, line, post', rfl, hb, hn, hbad⟩)
    · exact ⟨[], pre, post, rfl, .inl rfl, h, hbad⟩
    · refine ⟨pre ++ '\n' :: before, line, post', by simp, .inr ?_, hn, hbad⟩
      rcases hb with rfl | hb
      · simp
      · simp [List.getLast?_append, List.getLast?_cons, hb]

/-- **C05, exactly**: feeding panics if and only if one of the lines completed ends with a character of several bytes and
has a carriage return, counted in characters, where its last byte is. -/
theorem C05_panics_iff (p : Parser) (data : Text) : feed p data = none ↔ HasBadLine (p.buffer ++ data) := by
  unfold feed
  have key : ∀ (n : Nat) (p : Parser), p.buffer.length = n → (feedLoop p = none ↔ HasBadLine p.buffer) := by
    intro n
    induction n using Nat.strongRecOn with
    | _ n ih =>
      intro p hp
      rw [feedLoop_eq]
      rcases hs : Str.splitOnce '\n' p.buffer with _ | ⟨pre, post⟩
      · have hn := Str.splitOnce_eq_none.mp hs
        simp only [reduceCtorEq, false_iff]
        rintro ⟨b, l, q, he, -⟩
        exact hn (by rw [he]; simp)
      · obtain ⟨h1, h2⟩ := Str.splitOnce_some hs
        simp only
        rw [h1, hasBadLine_iff pre post h2, ← extract_none_iff]
        cases he : extractLine (pre ++ '\n' :: post) pre with
        | none => simp
        | some line =>
          simp only [Option.map_eq_none_iff, reduceCtorEq, false_or]
          exact ih post.length (by rw [← hp, h1]; simp; omega) _ rfl
  exact key _ _ rfl

/-- Two characters of two bytes each, a line feed and a carriage return. -/
example : HasBadLine "éé\n\r".toList :=
  ⟨[], "éé".toList, ['\r'], by decide, .inl rfl, by decide, ⟨['é'], 'é', rfl, by decide⟩, by decide⟩

/-- After a line of its own, and with text behind. -/
example : feed fresh "data: x\néé\n\rabc".toList = none :=
  (C05_panics_iff _ _).mpr ⟨"data: x\n".toList, "éé".toList, "\rabc".toList, by decide, .inr rfl, by decide,
    ⟨['é'], 'é', rfl, by decide⟩, by decide⟩

end Verif.Sse
