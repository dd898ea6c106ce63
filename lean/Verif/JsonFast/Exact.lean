import Verif.JsonFast.Props

/-
Exactly when pretty printing keeps the document: C117.
-/

namespace Verif.JsonFast

open Verif Verif.Simd

theorem latins_ascii (c : List Nat) (h : latins c = c) : ∀ b ∈ c, b < 0x80 := by
  have hlen : ∀ c : List Nat, c.length ≤ (latins c).length := by
    intro c
    induction c with
    | nil => exact Nat.le_refl _
    | cons b c ih =>
      simp only [latins, List.flatMap_cons, List.length_append, List.length_cons] at ih ⊢
      have : 1 ≤ (latin b).length := by unfold latin; split <;> simp
      omega
  induction c with
  | nil => intro b hb; cases hb
  | cons a c ih =>
    have ha : a < 0x80 := by
      apply Classical.byContradiction
      intro hn
      have h1 := congrArg List.length h
      have h2 := hlen c
      simp only [latins, List.flatMap_cons, List.length_append, List.length_cons] at h1 h2
      have : (latin a).length = 2 := by unfold latin; rw [if_neg hn]; rfl
      omega
    have ht : latins c = c := by
      have : latin a = [a] := by unfold latin; rw [if_pos ha]
      simp only [latins, List.flatMap_cons, this, List.cons_append, List.nil_append, List.cons.injEq, true_and] at h
      exact h
    intro b hb
    rcases List.mem_cons.mp hb with rfl | hb
    · exact ha
    · exact ih ht b hb

theorem emit_fixed (cur : List Nat) (ts : List Tok) (h : (emit cur ts).map latinTok = emit cur ts) :
    (∀ b ∈ cur, b < 0x80) ∧ ts.map latinTok = ts := by
  unfold emit at h
  split at h
  · next e =>
    rw [List.isEmpty_iff] at e
    subst e
    exact ⟨by simp, h⟩
  · simp only [List.map_cons, latinTok, List.cons.injEq, Tok.atom.injEq] at h
    exact ⟨latins_ascii cur h.1, h.2⟩

/-- Every byte beyond ASCII is a byte of some token. -/
theorem lex_ascii (l : List Nat) :
    (∀ cur ts, lex (.out cur) l = some ts → ts.map latinTok = ts → (∀ b ∈ cur, b < 0x80) ∧ ∀ b ∈ l, b < 0x80) ∧
    (∀ raw e ts, lex (.str raw e) l = some ts → ts.map latinTok = ts → (∀ b ∈ raw, b < 0x80) ∧ ∀ b ∈ l, b < 0x80) := by
  induction l with
  | nil =>
    refine ⟨fun cur ts h hf => ?_, fun raw e ts h => by simp [lex] at h⟩
    simp only [lex, Option.some.injEq] at h
    subst h
    exact ⟨(emit_fixed cur [] hf).1, by simp⟩
  | cons b l ih =>
    obtain ⟨ih1, ih2⟩ := ih
    have both : ∀ {p : Prop}, p → b < 0x80 → (∀ x ∈ l, x < 0x80) → p ∧ ∀ x ∈ b :: l, x < 0x80 := by
      intro p hp hb hl
      refine ⟨hp, ?_⟩
      intro x hx
      rcases List.mem_cons.mp hx with rfl | hx
      · exact hb
      · exact hl x hx
    have last : ∀ (c : List Nat), (∀ x ∈ c ++ [b], x < 0x80) → (∀ x ∈ c, x < 0x80) ∧ b < 0x80 := fun c h =>
      ⟨fun x hx => h x (by simp [hx]), h b (by simp)⟩
    refine ⟨fun cur ts hl hf => ?_, fun raw e ts hl hf => ?_⟩
    · simp only [lex] at hl
      split at hl
      · next hw =>
        rw [Option.map_eq_some_iff] at hl
        obtain ⟨us, hu, rfl⟩ := hl
        obtain ⟨h1, h2⟩ := emit_fixed cur us hf
        refine both h1 ?_ (ih1 [] us hu h2).2
        simp only [isWs, Bool.or_eq_true, beq_iff_eq] at hw
        omega
      · split at hl
        · next hq =>
          rw [Option.map_eq_some_iff] at hl
          obtain ⟨us, hu, rfl⟩ := hl
          obtain ⟨h1, h2⟩ := emit_fixed cur us hf
          exact both h1 (by omega) (ih2 [] false us hu h2).2
        · split at hl
          · next hp =>
            rw [Option.map_eq_some_iff] at hl
            obtain ⟨us, hu, rfl⟩ := hl
            obtain ⟨h1, h2⟩ := emit_fixed cur _ hf
            simp only [List.map_cons, latinTok, List.cons.injEq, true_and] at h2
            refine both h1 ?_ (ih1 [] us hu h2).2
            simp only [isPunct, Bool.or_eq_true, beq_iff_eq] at hp
            omega
          · obtain ⟨h1, h2⟩ := ih1 _ ts hl hf
            exact both (last cur h1).1 (last cur h1).2 h2
    · cases e with
      | true =>
        simp only [lex] at hl
        obtain ⟨h1, h2⟩ := ih2 _ _ ts hl hf
        exact both (last raw h1).1 (last raw h1).2 h2
      | false =>
        simp only [lex] at hl
        split at hl
        · obtain ⟨h1, h2⟩ := ih2 _ _ ts hl hf
          exact both (last raw h1).1 (last raw h1).2 h2
        · split at hl
          · next hq =>
            rw [Option.map_eq_some_iff] at hl
            obtain ⟨us, hu, rfl⟩ := hl
            simp only [List.map_cons, latinTok, List.cons.injEq, Tok.str.injEq] at hf
            exact both (latins_ascii raw hf.1) (by omega) (ih1 [] us hu hf.2).2
          · obtain ⟨h1, h2⟩ := ih2 _ _ ts hl hf
            exact both (last raw h1).1 (last raw h1).2 h2

/-- **C117**, exactly: `pretty_print_fast` returns a text with the tokens of the compact one if and only if the compact
text is ASCII and none of its bytes number 31, 63, 95, .. is a quote or a backslash. -/
theorem C117_iff (compact : List Nat) (h256 : ∀ b ∈ compact, b < 256) (ts : List Tok)
    (hts : lex (.out []) compact = some ts) (hap : Apart ts) :
    (∃ fuel out, prettyFast fuel compact = some out ∧ lex (.out []) (Utf8.encode out) = some ts) ↔
      (∀ b ∈ compact, b < 0x80) ∧ ∀ i, i < compact.length → i % 32 = 31 →
        compact.getD i 0 ≠ 0x22 ∧ compact.getD i 0 ≠ 0x5C := by
  have hesc : ∀ b, isEsc b = false ↔ b ≠ 0x22 ∧ b ≠ 0x5C := by
    intro b
    simp [isEsc, and_comm]
  constructor
  · rintro ⟨fuel, out, h, hl⟩
    refine ⟨?_, ?_⟩
    · rw [C117_tokens_partial fuel compact h256 out h ts hts hap] at hl
      exact ((lex_ascii compact).1 [] ts hts (Option.some.inj hl)).2
    · intro i hi h31
      simp only [prettyFast] at h
      cases he : findEscapes fuel compact with
      | none => rw [he] at h; cases h
      | some es => exact (hesc _).mp (((escapes_exact compact es).mp ⟨fuel, he⟩).1 i hi h31)
  · rintro ⟨ha, hq⟩
    obtain ⟨fuel, he⟩ := (escapes_exact compact (positions isEsc compact)).mpr
      ⟨fun i hi h31 => (hesc _).mpr (hq i hi h31), rfl⟩
    have hp : ∃ out, prettyFast fuel compact = some out := by
      simp only [prettyFast, he]
      exact ⟨_, rfl⟩
    obtain ⟨out, hp⟩ := hp
    exact ⟨fuel, out, hp, C117_ascii fuel compact ha out hp ts hts hap⟩

-- `{"a":1}` is kept.
example : ∃ fuel out, prettyFast fuel objA = some out ∧ lex (.out []) (Utf8.encode out) =
    some [.punct 0x7B, .str [0x61], .punct 0x3A, .atom [0x31], .punct 0x7D] :=
  (C117_iff objA (by decide) _ (by decide) (by simp [Apart])).mpr ⟨by decide, fun i hi h => by
    have : i < 7 := hi
    omega⟩

end Verif.JsonFast
