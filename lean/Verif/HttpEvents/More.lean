import Verif.HttpEvents.Props

/-
What replaces bytes that are not UTF-8 (C132), and the `connected` flag of the HTTP transport (C133).
-/

namespace Verif.HttpEvents

open Verif Verif.Sse

/-! ### Replacement characters -/

/-- Specification: these bytes begin a character without completing it. -/
def Begins (p : List Nat) : Prop := ∃ (c : Char) (q : List Nat), q ≠ [] ∧ Utf8.encodeChar c = p ++ q

theorem begins_two (b0 b1 : Nat) : Begins [b0, b1] ↔ 0xE0 ≤ b0 ∧ b0 < 0xF5 ∧ okSecond b0 b1 = true := by
  constructor
  · rintro ⟨c, q, hq, he⟩
    have hs := Utf8.isScalar_char c
    simp only [Utf8.isScalar, Bool.or_eq_true, Bool.and_eq_true, decide_eq_true_eq] at hs
    simp only [Utf8.encodeChar, Utf8.encodeNat] at he
    split at he
    · simp at he
    · split at he
      · simp only [List.cons_append, List.nil_append, List.cons.injEq] at he
        exact absurd he.2.2.symm hq
      · split at he
        · simp only [List.cons_append, List.nil_append, List.cons.injEq] at he
          obtain ⟨h0, h1, -⟩ := he
          subst h0; subst h1
          refine ⟨by omega, by omega, ?_⟩
          unfold okSecond Utf8.isCont
          repeat' split
          all_goals simp only [decide_eq_true_eq, Bool.and_eq_true]
          all_goals omega
        · simp only [List.cons_append, List.nil_append, List.cons.injEq] at he
          obtain ⟨h0, h1, -⟩ := he
          subst h0; subst h1
          refine ⟨by omega, by omega, ?_⟩
          unfold okSecond Utf8.isCont
          repeat' split
          all_goals simp only [decide_eq_true_eq, Bool.and_eq_true]
          all_goals omega
  · rintro ⟨h0, h1, h2⟩
    have hc : 0x80 ≤ b1 ∧ b1 < 0xC0 ∧ (b0 = 0xE0 → 0xA0 ≤ b1) ∧ (b0 = 0xED → b1 < 0xA0) ∧ (b0 = 0xF0 → 0x90 ≤ b1) ∧
        (b0 = 0xF4 → b1 < 0x90) := by
      unfold okSecond Utf8.isCont at h2
      repeat' split at h2
      all_goals simp only [decide_eq_true_eq, Bool.and_eq_true] at h2
      all_goals omega
    by_cases h3 : b0 < 0xF0
    · let n := (b0 - 0xE0) * 0x1000 + (b1 - 0x80) * 0x40
      have hn : n = (b0 - 0xE0) * 0x1000 + (b1 - 0x80) * 0x40 := rfl
      have hs : Utf8.isScalar n = true := by
        simp only [Utf8.isScalar, Bool.or_eq_true, Bool.and_eq_true, decide_eq_true_eq]
        omega
      refine ⟨Char.ofNat n, [0x80], by simp, ?_⟩
      rw [Utf8.encodeChar, Utf8.ofNat_toNat hs, Utf8.encodeNat, if_neg (by omega), if_neg (by omega), if_pos (by omega)]
      simp only [List.cons_append, List.nil_append, List.cons.injEq, and_true]
      omega
    · let n := (b0 - 0xF0) * 0x40000 + (b1 - 0x80) * 0x1000
      have hn : n = (b0 - 0xF0) * 0x40000 + (b1 - 0x80) * 0x1000 := rfl
      have hs : Utf8.isScalar n = true := by
        simp only [Utf8.isScalar, Bool.or_eq_true, Bool.and_eq_true, decide_eq_true_eq]
        omega
      refine ⟨Char.ofNat n, [0x80, 0x80], by simp, ?_⟩
      rw [Utf8.encodeChar, Utf8.ofNat_toNat hs, Utf8.encodeNat, if_neg (by omega), if_neg (by omega), if_neg (by omega)]
      simp only [List.cons_append, List.nil_append, List.cons.injEq, and_true]
      omega

theorem begins_three (b0 b1 b2 : Nat) :
    Begins [b0, b1, b2] ↔ 0xF0 ≤ b0 ∧ b0 < 0xF5 ∧ okSecond b0 b1 = true ∧ Utf8.isCont b2 = true := by
  constructor
  · rintro ⟨c, q, hq, he⟩
    have h2 : Begins [b0, b1] := ⟨c, b2 :: q, by simp, by simpa using he⟩
    obtain ⟨h0, h1, h3⟩ := (begins_two b0 b1).mp h2
    refine ⟨?_, h1, h3, ?_⟩
    all_goals
      simp only [Utf8.encodeChar, Utf8.encodeNat] at he
      split at he
      · simp at he
      · split at he
        · simp at he
        · split at he
          · simp only [List.cons_append, List.nil_append, List.cons.injEq] at he
            exact absurd he.2.2.2.symm hq
          · simp only [List.cons_append, List.nil_append, List.cons.injEq] at he
            obtain ⟨e0, e1, e2, -⟩ := he
            subst e0; subst e1; subst e2
            first
              | omega
              | (simp only [Utf8.isCont, Bool.and_eq_true, decide_eq_true_eq]; omega)
  · rintro ⟨h0, h1, h2, h3⟩
    have hc : 0x80 ≤ b1 ∧ b1 < 0xC0 ∧ (b0 = 0xF0 → 0x90 ≤ b1) ∧ (b0 = 0xF4 → b1 < 0x90) := by
      unfold okSecond Utf8.isCont at h2
      repeat' split at h2
      all_goals simp only [decide_eq_true_eq, Bool.and_eq_true] at h2
      all_goals omega
    simp only [Utf8.isCont, Bool.and_eq_true, decide_eq_true_eq] at h3
    let n := (b0 - 0xF0) * 0x40000 + (b1 - 0x80) * 0x1000 + (b2 - 0x80) * 0x40
    have hn : n = (b0 - 0xF0) * 0x40000 + (b1 - 0x80) * 0x1000 + (b2 - 0x80) * 0x40 := rfl
    have hs : Utf8.isScalar n = true := by
      simp only [Utf8.isScalar, Bool.or_eq_true, Bool.and_eq_true, decide_eq_true_eq]
      omega
    refine ⟨Char.ofNat n, [0x80], by simp, ?_⟩
    rw [Utf8.encodeChar, Utf8.ofNat_toNat hs, Utf8.encodeNat, if_neg (by omega), if_neg (by omega), if_neg (by omega)]
    simp only [List.cons_append, List.nil_append, List.cons.injEq, and_true]
    omega

theorem begins_long (p : List Nat) (h : 4 ≤ p.length) : ¬ Begins p := by
  rintro ⟨c, q, hq, he⟩
  have hl := congrArg List.length he
  have h4 : (Utf8.encodeChar c).length ≤ 4 := by
    unfold Utf8.encodeChar Utf8.encodeNat
    repeat' split
    all_goals simp
  cases q with
  | nil => exact hq rfl
  | cons x q => simp at hl; omega

/-- **C132** (what is lost). Where the bytes of a frame are not UTF-8, one replacement character stands for the
longest run of bytes that begins a character, or for a single byte. -/
theorem C132_replacement (b : List Nat) (hb : b ≠ []) (hd : Utf8.decodeOne b = none) :
    ∃ n, 1 ≤ n ∧ n ≤ b.length ∧ lossy b = bad :: lossy (b.drop n) ∧ (n = 1 ∨ Begins (b.take n)) ∧
      ∀ m, n < m → m ≤ b.length → ¬ Begins (b.take m) := by
  have hl : lossy b = bad :: lossy (b.drop (badLen b)) := by
    cases b with
    | nil => exact absurd rfl hb
    | cons x xs =>
      rw [lossy]
      split
      · next n r h => rw [h] at hd; cases hd
      · rfl
  refine ⟨badLen b, badLen_pos b, ?_, hl, ?_, ?_⟩
  · match b, hb with
    | [x], _ => simp [badLen]
    | x :: y :: r, _ =>
      unfold badLen
      simp only [List.length_cons]
      repeat' split
      all_goals (try simp only [List.length_cons, List.length_nil])
      all_goals omega
  · match b, hb with
    | [x], _ => left; rfl
    | x :: y :: r, _ =>
      unfold badLen
      dsimp only
      split
      · next h3 =>
        split
        · next ho => right; exact (begins_two x y).mpr ⟨h3.1, by omega, ho⟩
        · left; rfl
      · split
        · next h4 =>
          split
          · next ho =>
            cases r with
            | nil => right; exact (begins_two x y).mpr ⟨by omega, h4.2, ho⟩
            | cons z r =>
              dsimp only
              split
              · next hz => right; exact (begins_three x y z).mpr ⟨h4.1, h4.2, ho, hz⟩
              · right; exact (begins_two x y).mpr ⟨by omega, h4.2, ho⟩
          · left; rfl
        · left; rfl
  · intro m hm hml hbeg
    have hm4 : m < 4 := by
      by_cases h : m < 4
      · exact h
      · exact absurd hbeg (begins_long _ (by rw [List.length_take]; omega))
    have hpos := badLen_pos b
    match b, hb with
    | [x], _ => simp only [List.length_cons, List.length_nil] at hml; omega
    | x :: y :: r, _ =>
      have h23 : m = 2 ∨ m = 3 := by omega
      rcases h23 with rfl | rfl
      · have hb2 := (begins_two x y).mp hbeg
        unfold badLen at hm
        dsimp only at hm
        rw [hb2.2.2] at hm
        simp only [if_true] at hm
        split at hm
        · omega
        · rw [if_pos (by omega)] at hm
          cases r with
          | nil => simp at hm
          | cons z r => dsimp only at hm; split at hm <;> omega
      · cases r with
        | nil => simp at hml
        | cons z r =>
          have hb3 := (begins_three x y z).mp hbeg
          unfold badLen at hm
          dsimp only at hm
          rw [if_neg (by omega), if_pos ⟨hb3.1, hb3.2.1⟩, if_pos hb3.2.2.1, if_pos hb3.2.2.2] at hm
          omega

example : lossy [0x61, 0xF0, 0x9F, 0x98, 0x62] = ['a', bad, 'b'] ∧ lossy [0xE2, 0x28, 0xA1] = [bad, '(', bad] ∧
    lossy [0xED, 0xA0, 0x80] = [bad, bad, bad] := by decide +kernel

/-! ### The flag -/

variable {M : Type}

/-- Connected according to the events (latest first). (Specification: no counterpart in the code.) -/
def upIn : List (Op M) → Bool
  | [] => false
  | .plain :: _ => true
  | .start _ :: _ => true
  | .finish _ :: _ => false
  | .close :: _ => false
  | _ :: l => upIn l

/-- **C133** (exactly when). `is_connected` follows the latest of: `connect_sse` without endpoint or a stream that
starts (connected), the end of any stream or `close` (not connected). -/
theorem C133_flag (parse : Text → Option M) (l : List (Op M)) (s : State M) (h : run parse {} l = some s) :
    s.connected = upIn l.reverse := by
  induction l using snocInduction generalizing s with
  | nil => simp only [run, Option.some.injEq] at h; subst h; rfl
  | append_singleton l op ih =>
    rw [run_append] at h
    cases h1 : run parse {} l with
    | none => rw [h1] at h; cases h
    | some t =>
      rw [h1] at h
      have ht := ih t h1
      rw [List.reverse_append]
      simp only [List.reverse_cons, List.reverse_nil, List.nil_append, List.singleton_append]
      simp only [Option.bind_some, run] at h
      cases hs : step parse t op with
      | none => rw [hs] at h; cases h
      | some u =>
        rw [hs] at h
        simp only [Option.some.injEq] at h
        subst h
        cases op <;> simp only [step] at hs <;> simp only [upIn]
        all_goals (repeat' split at hs)
        all_goals first
          | (simp only [Option.some.injEq] at hs; subst hs; first | rfl | exact ht)
          | cases hs

example : (run (M := Text) some {} [.openStream, .start 0, .openStream, .start 1, .finish 0]).map (·.connected) =
    some false := by decide +kernel

end Verif.HttpEvents
