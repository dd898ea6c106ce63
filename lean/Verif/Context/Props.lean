import Verif.Context.Model

/-
Trace contexts (C52).
-/

namespace Verif.Context

open Verif

variable {Info Meta : Type}

/-! ### Strings -/

/-- ASCII characters. (Specification: no counterpart in the code.) -/
def Ascii (s : Str) : Prop := ∀ c ∈ s, c.toNat < 128

theorem charLen_ascii {c : Char} (h : c.toNat < 128) : Utf8.charLen c = 1 := by
  simp [Utf8.charLen, Utf8.encodeChar, Utf8.encodeNat, h]

theorem splitBytes_ascii (n : Nat) (s : Str) (h : Ascii s) (hn : n ≤ s.length) :
    splitBytes n s = some (s.take n, s.drop n) := by
  induction s generalizing n with
  | nil =>
    have : n = 0 := by simpa using hn
    subst this; rfl
  | cons c s ih =>
    cases n with
    | zero => rfl
    | succ n =>
      have hc := charLen_ascii (h c (by simp))
      simp only [splitBytes, hc]
      rw [if_pos (by omega), show n + 1 - 1 = n by omega,
        ih n (fun x hx => h x (by simp [hx])) (by simpa using hn)]
      rfl

theorem byteLen_ascii (s : Str) (h : Ascii s) : byteLen s = s.length := by
  induction s with
  | nil => rfl
  | cons c s ih =>
    have hc := charLen_ascii (h c (by simp))
    have := ih (fun x hx => h x (by simp [hx]))
    simp only [byteLen, Utf8.encode, List.flatMap_cons, List.length_append, Utf8.charLen, List.length_cons] at *
    omega

theorem undash_ascii {s : Str} (h : Ascii s) : Ascii (undash s) := fun c hc => h c (List.mem_filter.mp hc).1

theorem undash_no_dash (s : Str) : '-' ∉ undash s := by
  intro h
  have := (List.mem_filter.mp h).2
  simp at this

theorem undash_of {s : Str} (h : '-' ∉ s) : undash s = s := by
  rw [undash, List.filter_eq_self]
  intro c hc
  have : c ≠ '-' := fun e => h (e ▸ hc)
  simpa using this

theorem take_ascii {s : Str} (h : Ascii s) (n : Nat) : Ascii (s.take n) := fun c hc => h c (List.mem_of_mem_take hc)
theorem drop_ascii {s : Str} (h : Ascii s) (n : Nat) : Ascii (s.drop n) := fun c hc => h c (List.mem_of_mem_drop hc)

/-- A UUID as text: groups of 8, 4, 4, 4 and 12 characters joined by dashes.
(Specification: no counterpart in the code.) -/
structure Canonical (s a b c d e : Str) : Prop where
  eq : s = a ++ ['-'] ++ b ++ ['-'] ++ c ++ ['-'] ++ d ++ ['-'] ++ e
  la : a.length = 8
  lb : b.length = 4
  lc : c.length = 4
  ld : d.length = 4
  le : e.length = 12
  na : '-' ∉ a
  nb : '-' ∉ b
  nc : '-' ∉ c
  nd : '-' ∉ d
  ne : '-' ∉ e
  aa : Ascii a
  ab : Ascii b
  ac : Ascii c
  ad : Ascii d
  ae : Ascii e

/-- (Specification: no counterpart in the code.) -/
def IsUuid (s : Str) : Prop := ∃ a b c d e, Canonical s a b c d e

theorem Canonical.undash {s a b c d e : Str} (h : Canonical s a b c d e) : undash s = a ++ b ++ c ++ d ++ e := by
  rw [h.eq]
  have e1 := undash_of h.na
  have e2 := undash_of h.nb
  have e3 := undash_of h.nc
  have e4 := undash_of h.nd
  have e5 := undash_of h.ne
  simp only [Context.undash] at *
  simp only [List.filter_append, e1, e2, e3, e4, e5]
  simp

theorem Canonical.ascii {s a b c d e : Str} (h : Canonical s a b c d e) : Ascii (a ++ b ++ c ++ d ++ e) := by
  intro x hx
  simp only [List.mem_append] at hx
  rcases hx with (((hx | hx) | hx) | hx) | hx
  · exact h.aa x hx
  · exact h.ab x hx
  · exact h.ac x hx
  · exact h.ad x hx
  · exact h.ae x hx

theorem uuidForm_of {a b c d e : Str} (la : a.length = 8) (lb : b.length = 4) (lc : c.length = 4) (ld : d.length = 4)
    (h : Ascii (a ++ b ++ c ++ d ++ e)) :
    uuidForm (a ++ b ++ c ++ d ++ e) = some (a ++ ['-'] ++ b ++ ['-'] ++ c ++ ['-'] ++ d ++ ['-'] ++ e) := by
  have step : ∀ (n : Nat) (x r : Str), x.length = n → Ascii (x ++ r) → splitBytes n (x ++ r) = some (x, r) := by
    intro n x r hx ha
    rw [splitBytes_ascii _ _ ha (by simp; omega)]
    subst hx; simp
  have sub : ∀ {x r : Str}, Ascii (x ++ r) → Ascii r := fun h c hc => h c (by simp [hc])
  simp only [List.append_assoc] at h ⊢
  simp only [uuidForm]
  rw [step 8 a _ la h]
  simp only
  rw [step 4 b _ lb (sub h)]
  simp only
  rw [step 4 c _ lc (sub (sub h))]
  simp only
  rw [step 4 d _ ld (sub (sub (sub h)))]
  simp

theorem restoreTrace_canonical {s a b c d e : Str} (h : Canonical s a b c d e) :
    restoreTrace (undash s) = some s := by
  rw [h.undash, restoreTrace, byteLen_ascii _ h.ascii]
  rw [if_pos (by simp [h.la, h.lb, h.lc, h.ld, h.le]), uuidForm_of h.la h.lb h.lc h.ld h.ascii, ← h.eq]

/-- Which trace ids (of ASCII characters) come back: UUIDs in canonical form, and ids without a dash that are
not 32 characters long. -/
theorem restoreTrace_iff (s : Str) (h : Ascii s) :
    restoreTrace (undash s) = some s ↔ IsUuid s ∨ ('-' ∉ s ∧ s.length ≠ 32) := by
  constructor
  · intro hr
    simp only [restoreTrace, byteLen_ascii _ (undash_ascii h)] at hr
    split at hr
    · rename_i hl
      left
      have hasc := undash_ascii h
      have hnd := undash_no_dash s
      generalize undash s = u at *
      have hu : u = u.take 8 ++ (u.drop 8).take 4 ++ (u.drop 12).take 4 ++ (u.drop 16).take 4 ++ u.drop 20 := by
        have e1 := List.take_append_drop 8 u
        have e2 := List.take_append_drop 4 (u.drop 8)
        have e3 := List.take_append_drop 4 (u.drop 12)
        have e4 := List.take_append_drop 4 (u.drop 16)
        simp only [List.drop_drop, Nat.reduceAdd] at e2 e3 e4
        simp only [List.append_assoc]
        rw [e4, e3, e2, e1]
      have hform := uuidForm_of (a := u.take 8) (b := (u.drop 8).take 4) (c := (u.drop 12).take 4)
        (d := (u.drop 16).take 4) (e := u.drop 20) (by simp; omega) (by simp; omega) (by simp; omega) (by simp; omega)
        (by rw [← hu]; exact hasc)
      rw [← hu, hr] at hform
      refine ⟨_, _, _, _, _, ⟨Option.some.inj hform, by simp; omega, by simp; omega, by simp; omega, by simp; omega,
        by simp; omega, fun hm => hnd (List.mem_of_mem_take hm),
        fun hm => hnd (List.mem_of_mem_drop (List.mem_of_mem_take hm)),
        fun hm => hnd (List.mem_of_mem_drop (List.mem_of_mem_take hm)),
        fun hm => hnd (List.mem_of_mem_drop (List.mem_of_mem_take hm)),
        fun hm => hnd (List.mem_of_mem_drop hm), take_ascii hasc _, take_ascii (drop_ascii hasc _) _,
        take_ascii (drop_ascii hasc _) _, take_ascii (drop_ascii hasc _) _, drop_ascii hasc _⟩⟩
    · rename_i hl
      right
      have he := Option.some.inj hr
      rw [he] at hl
      exact ⟨by rw [← he]; exact undash_no_dash s, hl⟩
  · rintro (⟨a, b, c, d, e, hc⟩ | ⟨h1, h2⟩)
    · exact restoreTrace_canonical hc
    · rw [undash_of h1, restoreTrace, byteLen_ascii _ h, if_neg h2]

/-- The span id as the next hop sees it: the first three groups, then zeros. -/
theorem restoreSpan_canonical {s a b c d e : Str} (h : Canonical s a b c d e) :
    splitBytes 16 (undash s) = some (a ++ b ++ c, d ++ e) ∧
      restoreSpan (a ++ b ++ c) = some (a ++ ['-'] ++ b ++ ['-'] ++ c ++ "-0000-000000000000".toList) := by
  have hasc := h.ascii
  have h3 : Ascii (a ++ b ++ c) := fun x hx => hasc x (by simp only [List.mem_append] at *; exact .inl (.inl hx))
  constructor
  · rw [h.undash, splitBytes_ascii _ _ hasc (by simp [h.la, h.lb, h.lc]; omega)]
    have : (a ++ b ++ c).length = 16 := by simp [h.la, h.lb, h.lc]
    rw [show a ++ b ++ c ++ d ++ e = (a ++ b ++ c) ++ (d ++ e) by simp, ← this, List.take_left, List.drop_left]
  · rw [restoreSpan, byteLen_ascii _ h3, if_pos (by simp [h.la, h.lb, h.lc])]
    have h3' : Ascii (a ++ (b ++ c)) := by simpa using h3
    rw [List.append_assoc, splitBytes_ascii 8 _ h3' (by simp [h.la])]
    have hla := h.la
    have hlb := h.lb
    simp only [show (a ++ (b ++ c)).take 8 = a by rw [← hla]; simp,
      show (a ++ (b ++ c)).drop 8 = b ++ c by rw [← hla]; simp]
    rw [splitBytes_ascii 4 _ (fun x hx => h3' x (List.mem_append_right _ hx)) (by simp [hlb])]
    simp only [show (b ++ c).take 4 = b by rw [← hlb]; simp, show (b ++ c).drop 4 = c by rw [← hlb]; simp]

/-! ### Headers -/

theorem fold_get_prefix (l : List (Str × Str)) (hw : AMap.WF l) (h : AMap Str Str) (k : Str) :
    AMap.get (l.foldl (fun h e => AMap.insert h (kBag ++ e.1) e.2) h) (kBag ++ k) =
      (AMap.get l k).or (AMap.get h (kBag ++ k)) := by
  induction l generalizing h with
  | nil => rfl
  | cons e l ih =>
    rcases e with ⟨a, v⟩
    have hw' : AMap.WF l := (List.nodup_cons.mp hw).2
    have hna : a ∉ AMap.keys l := (List.nodup_cons.mp hw).1
    simp only [List.foldl_cons]
    rw [ih hw', AMap.get_cons, AMap.get_insert]
    by_cases hk : a = k
    · subst hk
      rw [AMap.get_eq_none_iff.mpr hna]
      simp
    · have : kBag ++ k ≠ kBag ++ a := fun he => hk (List.append_cancel_left he).symm
      simp [hk, this]

theorem fold_get_other (l : List (Str × Str)) (h : AMap Str Str) (key : Str) (hk : Str.stripPrefix kBag key = none) :
    AMap.get (l.foldl (fun h e => AMap.insert h (kBag ++ e.1) e.2) h) key = AMap.get h key := by
  induction l generalizing h with
  | nil => rfl
  | cons e l ih =>
    simp only [List.foldl_cons]
    rw [ih, AMap.get_insert_ne]
    intro he
    rw [he, Str.stripPrefix_append] at hk
    cases hk

theorem fold_wf (l : List (Str × Str)) (h : AMap Str Str) (hw : AMap.WF h) :
    AMap.WF (l.foldl (fun h e => AMap.insert h (kBag ++ e.1) e.2) h) := by
  induction l generalizing h with
  | nil => exact hw
  | cons e l ih => exact ih _ (AMap.wf_insert hw _ _)

theorem restoreBaggage_get (h : AMap Str Str) (hw : AMap.WF h) (k : Str) :
    AMap.get (restoreBaggage h) k = AMap.get h (kBag ++ k) := by
  have gen : ∀ (l : List (Str × Str)) (b : AMap Str Str), AMap.WF l →
      AMap.get (l.foldl (fun b e => match Str.stripPrefix kBag e.1 with
        | none => b
        | some k => AMap.insert b k e.2) b) k = (AMap.get l (kBag ++ k)).or (AMap.get b k) := by
    intro l
    induction l with
    | nil => intro b _; rfl
    | cons e l ih =>
      intro b hwl
      rcases e with ⟨a, v⟩
      have hw' : AMap.WF l := (List.nodup_cons.mp hwl).2
      have hna : a ∉ AMap.keys l := (List.nodup_cons.mp hwl).1
      simp only [List.foldl_cons]
      rw [ih _ hw', AMap.get_cons]
      cases hp : Str.stripPrefix kBag a with
      | none =>
        have : a ≠ kBag ++ k := by
          intro he; rw [he, Str.stripPrefix_append] at hp; cases hp
        simp [this]
      | some k' =>
        have ha := Str.stripPrefix_eq_some.mp hp
        subst ha
        simp only [AMap.get_insert]
        by_cases hk : k = k'
        · subst hk
          rw [AMap.get_eq_none_iff.mpr hna]
          simp
        · have h1 : ¬ (kBag ++ k' = kBag ++ k) := fun he => hk (List.append_cancel_left he).symm
          simp [hk, h1]
  refine (gen h [] hw).trans ?_
  simp

theorem not_prefix : Str.stripPrefix kBag kTrace = none ∧ Str.stripPrefix kBag kReq = none ∧
    Str.stripPrefix kBag kUser = none ∧ Str.stripPrefix kBag kSess = none := by decide

theorem insertOpt_get (h : AMap Str Str) (k k' : Str) (v : Option Str) :
    AMap.get (insertOpt h k v) k' = if k' = k then v.or (AMap.get h k') else AMap.get h k' := by
  cases v with
  | none => simp [insertOpt]
  | some v => simp only [insertOpt, AMap.get_insert]; split <;> rfl

theorem insertOpt_wf (h : AMap Str Str) (hw : AMap.WF h) (k : Str) (v : Option Str) : AMap.WF (insertOpt h k v) := by
  cases v with
  | none => exact hw
  | some v => exact AMap.wf_insert hw _ _

theorem keys_ne : kTrace ≠ kReq ∧ kTrace ≠ kUser ∧ kTrace ≠ kSess ∧ kReq ≠ kUser ∧ kReq ≠ kSess ∧ kUser ≠ kSess := by
  decide

/-- What the headers hold. -/
theorem toHeaders_get {c : Ctx Info Meta} {hdr : AMap Str Str} (h : toHeaders c = some hdr) (hw : AMap.WF c.baggage) :
    ∃ span rest, splitBytes 16 (undash c.spanId) = some (span, rest) ∧ AMap.WF hdr ∧
      AMap.get hdr kTrace = some ("00-".toList ++ undash c.traceId ++ "-".toList ++ span ++ "-01".toList) ∧
      AMap.get hdr kReq = some (showId c.requestId) ∧ AMap.get hdr kUser = c.userId ∧
      AMap.get hdr kSess = c.sessionId ∧ ∀ k, AMap.get hdr (kBag ++ k) = AMap.get c.baggage k := by
  unfold toHeaders at h
  split at h
  · cases h
  · next span rest he =>
    obtain ⟨n1, n2, n3, n4⟩ := not_prefix
    obtain ⟨d1, d2, d3, d4, d5, d6⟩ := keys_ne
    simp only [Option.some.injEq] at h
    subst h
    refine ⟨span, rest, he, ?_, ?_, ?_, ?_, ?_, ?_⟩
    · exact fold_wf _ _ (insertOpt_wf _ (insertOpt_wf _ (AMap.wf_insert (AMap.wf_insert AMap.wf_nil _ _) _ _) _ _) _ _)
    · rw [fold_get_other _ _ _ n1, insertOpt_get, if_neg d3, insertOpt_get, if_neg d2, AMap.get_insert_ne _ _ d1,
        AMap.get_insert_self]
    · rw [fold_get_other _ _ _ n2, insertOpt_get, if_neg d5, insertOpt_get, if_neg d4, AMap.get_insert_self]
    · rw [fold_get_other _ _ _ n3, insertOpt_get, if_neg d6, insertOpt_get, if_pos rfl, AMap.get_insert_ne _ _ d4.symm,
        AMap.get_insert_ne _ _ d2.symm]
      simp
    · rw [fold_get_other _ _ _ n4, insertOpt_get, if_pos rfl, insertOpt_get, if_neg d6.symm,
        AMap.get_insert_ne _ _ d5.symm, AMap.get_insert_ne _ _ d3.symm]
      simp
    · intro k
      rw [fold_get_prefix _ hw, insertOpt_get, insertOpt_get]
      have ne : ∀ x, Str.stripPrefix kBag x = none → kBag ++ k ≠ x := by
        intro x hx he2; rw [← he2, Str.stripPrefix_append] at hx; cases hx
      rw [if_neg (ne _ n4), if_neg (ne _ n3), AMap.get_insert_ne _ _ (ne _ n2), AMap.get_insert_ne _ _ (ne _ n1)]
      simp

theorem splitBytes_mem {n : Nat} {s a b : Str} (h : splitBytes n s = some (a, b)) : ∀ c ∈ a, c ∈ s := by
  induction s generalizing n a b with
  | nil =>
    cases n with
    | zero => cases h; intro c hc; simp at hc
    | succ n => cases h
  | cons x s ih =>
    cases n with
    | zero => cases h; intro c hc; simp at hc
    | succ n =>
      simp only [splitBytes] at h
      split at h
      · cases hs : splitBytes (n + 1 - Utf8.charLen x) s with
        | none => rw [hs] at h; cases h
        | some p =>
          rw [hs] at h
          cases h
          intro c hc
          simp only [List.mem_cons] at hc ⊢
          rcases hc with hc | hc
          · exact .inl hc
          · exact .inr (ih (a := p.1) (b := p.2) hs c hc)
      · cases h

theorem split_traceparent (t span : Str) (h1 : '-' ∉ t) (h2 : '-' ∉ span) :
    Str.splitChar '-' ("00-".toList ++ t ++ "-".toList ++ span ++ "-01".toList) =
      ["00".toList, t, span, "01".toList] := by
  have e : "00-".toList ++ t ++ "-".toList ++ span ++ "-01".toList =
      "00".toList ++ '-' :: (t ++ '-' :: (span ++ '-' :: "01".toList)) := by simp
  rw [e, Str.splitChar_append (by decide), Str.splitChar_append h1, Str.splitChar_append h2,
    Str.splitChar_of_not_mem (by decide)]

/-! ### C52 -/

/-- **C52**, children: a child keeps request id, trace id, user, session and baggage, and names the span of its
parent as its parent. -/
theorem C52_child (c : Ctx Info Meta) (span : Str) : (child c span).traceId = c.traceId ∧
    (child c span).parentSpan = some c.spanId ∧ (child c span).requestId = c.requestId ∧
    (child c span).baggage = c.baggage ∧ (child c span).userId = c.userId ∧ (child c span).sessionId = c.sessionId ∧
    (child c span).spanId = span := ⟨rfl, rfl, rfl, rfl, rfl, rfl, rfl⟩

/-- **C52**, one hop. The context arrives, with user, session and every baggage item; the trace id is kept
exactly if it is a UUID in canonical form or a dashless id not 32 characters long, the request id exactly if it
is a number. Missing from the property: other trace ids, and string request ids. -/
theorem C52_hop_partial (c : Ctx Info Meta) (fresh : Fresh) (hdr : AMap Str Str) (hh : toHeaders c = some hdr)
    (hw : AMap.WF c.baggage) (ht : Ascii c.traceId) (hs : Ascii c.spanId)
    (hr : ∀ n, c.requestId = .num n → -(2 ^ 63) ≤ n ∧ n < 2 ^ 63) :
    ∃ c' : Ctx Info Meta, fromHeaders fresh hdr = some (some c') ∧ c'.userId = c.userId ∧
      c'.sessionId = c.sessionId ∧ (∀ k, AMap.get c'.baggage k = AMap.get c.baggage k) ∧
      (c'.traceId = c.traceId ↔ IsUuid c.traceId ∨ ('-' ∉ c.traceId ∧ c.traceId.length ≠ 32)) ∧
      (c'.requestId = c.requestId ↔ ∃ n, c.requestId = .num n) ∧ c'.spanId = fresh.span := by
  obtain ⟨span, rest, hsp, hwf, g1, g2, g3, g4, g5⟩ := toHeaders_get hh hw
  have hspan : '-' ∉ span := fun hm => undash_no_dash _ (splitBytes_mem hsp _ hm)
  have hspa : Ascii span := fun x hx => undash_ascii hs x (splitBytes_mem hsp x hx)
  obtain ⟨t, hrt⟩ : ∃ t, restoreTrace (undash c.traceId) = some t := by
    simp only [restoreTrace, byteLen_ascii _ (undash_ascii ht)]
    split
    · rename_i hl
      have hasc := undash_ascii ht
      generalize undash c.traceId = u at *
      simp only [uuidForm]
      rw [splitBytes_ascii 8 _ hasc (by omega)]
      simp only
      rw [splitBytes_ascii 4 _ (drop_ascii hasc _) (by simp; omega)]
      simp only
      rw [splitBytes_ascii 4 _ (drop_ascii (drop_ascii hasc _) _) (by simp; omega)]
      simp only
      rw [splitBytes_ascii 4 _ (drop_ascii (drop_ascii (drop_ascii hasc _) _) _) (by simp; omega)]
      exact ⟨_, rfl⟩
    · exact ⟨_, rfl⟩
  obtain ⟨p, hrp⟩ : ∃ p, restoreSpan span = some p := by
    simp only [restoreSpan, byteLen_ascii _ hspa]
    split
    · rw [splitBytes_ascii 8 _ hspa (by omega)]
      simp only
      rw [splitBytes_ascii 4 _ (drop_ascii hspa _) (by simp; omega)]
      exact ⟨_, rfl⟩
    · exact ⟨_, rfl⟩
  refine ⟨_, by
    simp only [fromHeaders, g1, split_traceparent _ _ (undash_no_dash _) hspan, hrt, hrp]; rfl, g3, g4, ?_, ?_, ?_, rfl⟩
  · intro k
    rw [restoreBaggage_get _ hwf]; exact g5 k
  · rw [← restoreTrace_iff _ ht, hrt, Option.some.injEq]
  · simp only [restoreId, g2]
    cases hid : c.requestId with
    | str s =>
      simp only [showId]
      constructor
      · intro he; split at he <;> cases he
      · rintro ⟨n, hn⟩; cases hn
    | num n =>
      obtain ⟨h1, h2⟩ := hr n hid
      simp [showId, Decimal.parseI64_showInt n h1 h2]

/-- **C52**, when a context can be sent at all: `to_headers` returns for every context whose span id is a UUID, and
panics for a span id with fewer than 16 characters besides dashes. -/
theorem C52_send (c : Ctx Info Meta) (h : IsUuid c.spanId) : (toHeaders c).isSome = true := by
  obtain ⟨a, b, d, e, f, hc⟩ := h
  simp [toHeaders, (restoreSpan_canonical hc).1]

theorem splitBytes_short (n : Nat) (s : Str) (h : Ascii s) (hn : s.length < n) : splitBytes n s = none := by
  induction s generalizing n with
  | nil => cases n with
    | zero => simp at hn
    | succ n => rfl
  | cons c s ih =>
    cases n with
    | zero => simp at hn
    | succ n =>
      simp only [splitBytes, charLen_ascii (h c (by simp))]
      rw [if_pos (by omega), show n + 1 - 1 = n by omega,
        ih n (fun x hx => h x (by simp [hx])) (by simpa using hn)]
      rfl

theorem charLen_pos (c : Char) : 0 < Utf8.charLen c :=
  List.length_pos_iff.mpr (Utf8.encodeNat_ne_nil c.toNat)

theorem byteLen_cons (c : Char) (s : Str) : byteLen (c :: s) = Utf8.charLen c + byteLen s := by
  simp [byteLen, Utf8.encode, Utf8.charLen]

theorem byteLen_append (a b : Str) : byteLen (a ++ b) = byteLen a + byteLen b := by
  simp [byteLen, Utf8.encode_append]

theorem byteLen_eq_zero (s : Str) (h : byteLen s = 0) : s = [] := by
  cases s with
  | nil => rfl
  | cons c s => have := charLen_pos c; rw [byteLen_cons] at h; omega

/-- Splitting succeeds exactly between characters. -/
theorem splitBytes_iff (n : Nat) (s a b : Str) : splitBytes n s = some (a, b) ↔ s = a ++ b ∧ byteLen a = n := by
  induction s generalizing n a with
  | nil =>
    cases n with
    | zero =>
      simp only [splitBytes, Option.some.injEq, Prod.mk.injEq]
      constructor
      · rintro ⟨rfl, rfl⟩; exact ⟨rfl, rfl⟩
      · rintro ⟨h, h2⟩; have := byteLen_eq_zero a h2; subst this; exact ⟨rfl, h⟩
    | succ n =>
      simp only [splitBytes]
      constructor
      · intro h; cases h
      · rintro ⟨h, h2⟩
        obtain ⟨rfl, rfl⟩ := List.append_eq_nil_iff.mp h.symm
        cases h2
  | cons c s ih =>
    cases n with
    | zero =>
      simp only [splitBytes, Option.some.injEq, Prod.mk.injEq]
      constructor
      · rintro ⟨rfl, rfl⟩; exact ⟨rfl, rfl⟩
      · rintro ⟨h, h2⟩; have := byteLen_eq_zero a h2; subst this; exact ⟨rfl, h⟩
    | succ n =>
      simp only [splitBytes]
      cases a with
      | nil =>
        constructor
        · split
          · cases splitBytes (n + 1 - Utf8.charLen c) s <;> simp
          · intro h; cases h
        · rintro ⟨_, h2⟩; cases h2
      | cons x a =>
        rw [byteLen_cons]
        constructor
        · split
          · rename_i hle
            intro h
            cases hr : splitBytes (n + 1 - Utf8.charLen c) s with
            | none => rw [hr] at h; cases h
            | some p =>
              rw [hr] at h
              simp only [Option.map_some, Option.some.injEq, Prod.mk.injEq, List.cons.injEq] at h
              obtain ⟨⟨rfl, rfl⟩, rfl⟩ := h
              obtain ⟨e1, e2⟩ := (ih _ _).mp hr
              exact ⟨by rw [List.cons_append, ← e1], by omega⟩
          · intro h; cases h
        · rintro ⟨h, h2⟩
          rw [List.cons_append] at h
          cases h
          rw [if_pos (by omega), (ih (n + 1 - Utf8.charLen c) a).mpr ⟨rfl, by omega⟩]
          rfl

/-- There is a boundary between characters after `n` bytes. (Specification: no counterpart in the code.) -/
def Cut (n : Nat) (s : Str) : Prop := ∃ a b, s = a ++ b ∧ byteLen a = n

theorem splitBytes_none (n : Nat) (s : Str) : splitBytes n s = none ↔ ¬ Cut n s := by
  constructor
  · rintro h ⟨a, b, hab⟩
    rw [(splitBytes_iff n s a b).mpr hab] at h; cases h
  · intro h
    cases hs : splitBytes n s with
    | none => rfl
    | some p => exact absurd ⟨p.1, p.2, (splitBytes_iff n s p.1 p.2).mp hs⟩ h

/-- A boundary later in the text is a boundary of the rest. -/
theorem cut_rest (n m : Nat) (a b : Str) (h : byteLen a = n) : Cut (n + m) (a ++ b) ↔ Cut m b := by
  constructor
  · rintro ⟨x, y, e, hx⟩
    rcases List.append_eq_append_iff.mp e with ⟨z, rfl, rfl⟩ | ⟨z, rfl, rfl⟩
    · rw [byteLen_append] at hx
      exact ⟨z, y, rfl, by omega⟩
    · rw [byteLen_append] at h
      have : byteLen z = 0 := by omega
      have hz := byteLen_eq_zero z this
      subst hz
      exact ⟨[], b, rfl, by have : byteLen ([] : Str) = 0 := rfl
                            rw [this]; omega⟩
  · rintro ⟨x, y, rfl, hx⟩
    exact ⟨a ++ x, y, by simp, by rw [byteLen_append]; omega⟩

/-- **C52**, when a context can be sent at all, exactly: `to_headers` returns if and only if the span id without
dashes has a boundary between characters after its sixteenth byte; otherwise it panics. -/
theorem C52_send_exact (c : Ctx Info Meta) : toHeaders c = none ↔ ¬ Cut 16 (undash c.spanId) := by
  rw [← splitBytes_none]
  unfold toHeaders
  cases splitBytes 16 (undash c.spanId) with
  | none => simp
  | some p => simp

example : Cut 16 (undash "11111111-2222-3333-4444-555555555555".toList) :=
  ⟨"1111111122223333".toList, "4444555555555555".toList, by decide +kernel, by decide +kernel⟩

theorem uuidForm_none (s : Str) : uuidForm s = none ↔ ¬ (Cut 8 s ∧ Cut 12 s ∧ Cut 16 s ∧ Cut 20 s) := by
  unfold uuidForm
  cases h1 : splitBytes 8 s with
  | none => simp [(splitBytes_none 8 s).mp h1]
  | some p1 =>
    obtain ⟨e1, l1⟩ := (splitBytes_iff _ _ p1.1 p1.2).mp h1
    have c1 : Cut 8 s := ⟨_, _, e1, l1⟩
    have q1 := cut_rest 8 4 p1.1 p1.2 l1
    rw [← e1] at q1
    dsimp only
    cases h2 : splitBytes 4 p1.2 with
    | none =>
      have := (splitBytes_none _ _).mp h2
      rw [← q1] at this
      simp [this]
    | some p2 =>
      obtain ⟨e2, l2⟩ := (splitBytes_iff _ _ p2.1 p2.2).mp h2
      have c2 : Cut 12 s := q1.mpr ⟨_, _, e2, l2⟩
      have q2 := cut_rest 12 4 (p1.1 ++ p2.1) p2.2 (by rw [byteLen_append]; omega)
      rw [List.append_assoc, ← e2, ← e1] at q2
      dsimp only
      cases h3 : splitBytes 4 p2.2 with
      | none =>
        have := (splitBytes_none _ _).mp h3
        rw [← q2] at this
        simp [this]
      | some p3 =>
        obtain ⟨e3, l3⟩ := (splitBytes_iff _ _ p3.1 p3.2).mp h3
        have c3 : Cut 16 s := q2.mpr ⟨_, _, e3, l3⟩
        have q3 := cut_rest 16 4 (p1.1 ++ p2.1 ++ p3.1) p3.2 (by rw [byteLen_append, byteLen_append]; omega)
        rw [List.append_assoc, List.append_assoc, ← e3, ← e2, ← e1] at q3
        dsimp only
        cases h4 : splitBytes 4 p3.2 with
        | none =>
          have := (splitBytes_none _ _).mp h4
          rw [← q3] at this
          simp [this]
        | some p4 =>
          obtain ⟨e4, l4⟩ := (splitBytes_iff _ _ p4.1 p4.2).mp h4
          have c4 : Cut 20 s := q3.mpr ⟨_, _, e4, l4⟩
          simp [c1, c2, c3, c4]

theorem restoreSpan_none (s : Str) : restoreSpan s = none ↔ byteLen s = 16 ∧ ¬ (Cut 8 s ∧ Cut 12 s) := by
  unfold restoreSpan
  by_cases hl : byteLen s = 16
  · rw [if_pos hl]
    cases h1 : splitBytes 8 s with
    | none => simp [hl, (splitBytes_none 8 s).mp h1]
    | some p1 =>
      obtain ⟨e1, l1⟩ := (splitBytes_iff _ _ p1.1 p1.2).mp h1
      have c1 : Cut 8 s := ⟨_, _, e1, l1⟩
      have q1 := cut_rest 8 4 p1.1 p1.2 l1
      rw [← e1] at q1
      dsimp only
      cases h2 : splitBytes 4 p1.2 with
      | none =>
        have := (splitBytes_none _ _).mp h2
        rw [← q1] at this
        simp [this, hl]
      | some p2 =>
        have c2 : Cut 12 s := q1.mpr ⟨_, _, (splitBytes_iff _ _ p2.1 p2.2).mp h2⟩
        simp [c1, c2]
  · rw [if_neg hl]; simp [hl]

/-- **C52**, when arriving headers can be read at all, exactly: `from_headers` panics if and only if
`traceparent` has four parts and its second part is 32 bytes long with a character across byte 8, 12, 16 or 20,
or its third part is 16 bytes long with a character across byte 8 or 12. The headers come from the other side.
-/
theorem C52_receive_exact (fresh : Fresh) (h : AMap Str Str) :
    (fromHeaders fresh h : Option (Option (Ctx Info Meta))) = none ↔
      ∃ v t p f r, (AMap.get h kTrace).map (Str.splitChar '-') = some (v :: t :: p :: f :: r) ∧
        ((byteLen t = 32 ∧ ¬ (Cut 8 t ∧ Cut 12 t ∧ Cut 16 t ∧ Cut 20 t)) ∨ (byteLen p = 16 ∧ ¬ (Cut 8 p ∧ Cut 12 p))) := by
  have ht : ∀ t, restoreTrace t = none ↔ byteLen t = 32 ∧ ¬ (Cut 8 t ∧ Cut 12 t ∧ Cut 16 t ∧ Cut 20 t) := by
    intro t
    unfold restoreTrace
    by_cases hl : byteLen t = 32
    · rw [if_pos hl, uuidForm_none]; simp [hl]
    · rw [if_neg hl]; simp [hl]
  simp only [← ht, ← restoreSpan_none]
  unfold fromHeaders
  cases AMap.get h kTrace with
  | none => simp
  | some tp =>
    simp only [Option.map_some, Option.some.injEq]
    split
    · rename_i v t p f r e
      rw [e]
      constructor
      · intro hn
        refine ⟨v, t, p, f, r, rfl, ?_⟩
        cases h1 : restoreTrace t with
        | none => exact .inl rfl
        | some x => cases h2 : restoreSpan p with
          | none => exact .inr rfl
          | some y => rw [h1, h2] at hn; cases hn
      · rintro ⟨v', t', p', f', r', e', ho⟩
        cases e'
        rcases ho with ho | ho
        · rw [ho]
        · rw [ho]; cases restoreTrace t <;> rfl
    · rename_i hne
      constructor
      · intro hn; cases hn
      · rintro ⟨v', t', p', f', r', e', _⟩
        exact absurd e' (hne v' t' p' f' r')

/-- Such headers: the 32 bytes of the trace id have `é` at bytes 7 and 8. -/
example : (fromHeaders ⟨[], 0⟩ [(kTrace, "00-1111111é11111111111111111111111-2222222222222222-01".toList)] :
    Option (Option (Ctx Unit Unit))) = none := by
  rw [C52_receive_exact]
  refine ⟨"00".toList, "1111111é11111111111111111111111".toList, "2222222222222222".toList, "01".toList, [], by decide +kernel,
    .inl ⟨by decide +kernel, fun hc => ?_⟩⟩
  exact absurd hc.1 ((splitBytes_none _ _).mp (by decide +kernel))

/-- `to_headers` panics on a short span id. -/
theorem C52_send_panics (c : Ctx Info Meta) (ha : Ascii c.spanId) (h : (undash c.spanId).length < 16) :
    toHeaders c = none := by
  simp [toHeaders, splitBytes_short 16 _ (undash_ascii ha) h]

/-- (Specification: no counterpart in the code.) -/
def exCtx : Ctx Unit Unit :=
  { requestId := .num 7, traceId := "0f1e2d3c-4b5a-6978-8796-a5b4c3d2e1f0".toList, parentSpan := none,
    spanId := "11111111-2222-3333-4444-555555555555".toList, userId := some "u".toList, sessionId := none,
    clientInfo := none, metadata := [], baggage := [("tenant".toList, "acme".toList)] }

instance (s : Str) : Decidable (Ascii s) := inferInstanceAs (Decidable (∀ c ∈ s, c.toNat < 128))

/-- **C52**, the headers as other programs see them: `traceparent` of the W3C trace context (version 00, sampled) with
the trace id and the beginning of the span id without dashes, and the headers of the library; for UUIDs the two ids have
the lengths 32 and 16 the W3C format asks for. -/
theorem C52_headers (c : Ctx Info Meta) (hdr : AMap Str Str) (hh : toHeaders c = some hdr) (hw : AMap.WF c.baggage) :
    (∃ span rest, c.spanId.filter (· != '-') = span ++ rest ∧ (Utf8.encode span).length = 16 ∧
      AMap.get hdr "traceparent".toList =
        some ("00-".toList ++ c.traceId.filter (· != '-') ++ "-".toList ++ span ++ "-01".toList)) ∧
    AMap.get hdr "x-request-id".toList =
      some (match c.requestId with | .str s => s | .num n => Decimal.showInt n) ∧
    AMap.get hdr "x-user-id".toList = c.userId ∧ AMap.get hdr "x-session-id".toList = c.sessionId ∧
    (∀ k, AMap.get hdr ("baggage-".toList ++ k) = AMap.get c.baggage k) ∧
    (IsUuid c.traceId → (c.traceId.filter (· != '-')).length = 32) := by
  obtain ⟨span, rest, hsp, _, g1, g2, g3, g4, g5⟩ := toHeaders_get hh hw
  refine ⟨⟨span, rest, ?_, ?_, g1⟩, ?_, g3, g4, g5, ?_⟩
  · exact ((splitBytes_iff _ _ _ _).mp hsp).1
  · exact ((splitBytes_iff _ _ _ _).mp hsp).2
  · refine Eq.trans g2 ?_
    unfold showId
    cases c.requestId <;> rfl
  · rintro ⟨a, b, x, d, e, h⟩
    have := h.undash
    unfold undash at this
    rw [this]
    have l1 := h.la; have l2 := h.lb; have l3 := h.lc; have l4 := h.ld; have l5 := h.le
    simp only [List.length_append]; omega

example : ∃ hdr, toHeaders exCtx = some hdr ∧ AMap.WF exCtx.baggage ∧ AMap.get hdr "traceparent".toList =
    some "00-0f1e2d3c4b5a69788796a5b4c3d2e1f0-1111111122223333-01".toList := by
  refine ⟨_, rfl, AMap.wf_insert AMap.wf_nil _ _, by decide +kernel⟩

example : Ascii exCtx.traceId ∧ Ascii exCtx.spanId ∧ (toHeaders exCtx).isSome = true := by decide +kernel

example : IsUuid exCtx.spanId :=
  ⟨"11111111".toList, "2222".toList, "3333".toList, "4444".toList, "555555555555".toList, ⟨by decide, by decide, by decide, by decide,
    by decide, by decide, by decide, by decide, by decide, by decide, by decide, by decide, by decide, by decide,
    by decide, by decide⟩⟩

/-- **C52**, the parent span after a hop: the first three groups of the sender's span id and then zeros, so that it
names the sender's span only if the rest of that id is zero. -/
theorem C52_parent_after_hop (c : Ctx Info Meta) (fresh : Fresh) (hdr : AMap Str Str) (hh : toHeaders c = some hdr)
    (hw : AMap.WF c.baggage) (ht : Ascii c.traceId) {a b x d e : Str} (hc : Canonical c.spanId a b x d e)
    (c' : Ctx Info Meta) (hf : fromHeaders fresh hdr = some (some c')) :
    c'.parentSpan = some (a ++ ['-'] ++ b ++ ['-'] ++ x ++ "-0000-000000000000".toList) ∧
      (c'.parentSpan = some c.spanId ↔ d = "0000".toList ∧ e = "000000000000".toList) := by
  obtain ⟨span, rest, hsp, hwf, g1, _⟩ := toHeaders_get hh hw
  obtain ⟨r1, r2⟩ := restoreSpan_canonical hc
  rw [r1] at hsp
  cases hsp
  have hspan : '-' ∉ a ++ b ++ x := by
    simp only [List.mem_append, not_or]
    exact ⟨⟨hc.na, hc.nb⟩, hc.nc⟩
  have hp : c'.parentSpan = some (a ++ ['-'] ++ b ++ ['-'] ++ x ++ "-0000-000000000000".toList) := by
    simp only [fromHeaders, g1, split_traceparent _ _ (undash_no_dash _) hspan] at hf
    split at hf
    · next t p hrt hrp =>
      rw [r2] at hrp
      cases hrp
      cases hf
      rfl
    · cases hf
  refine ⟨hp, ?_⟩
  rw [hp, Option.some.injEq, hc.eq]
  constructor
  · intro he
    have e2 : "-0000-000000000000".toList = ['-'] ++ d ++ ['-'] ++ e := by
      have : a ++ ['-'] ++ b ++ ['-'] ++ x ++ "-0000-000000000000".toList =
          (a ++ ['-'] ++ b ++ ['-'] ++ x) ++ (['-'] ++ d ++ ['-'] ++ e) := by rw [he]; simp
      exact List.append_cancel_left this
    have e3 : "0000".toList ++ ('-' :: "000000000000".toList) = d ++ ('-' :: e) := by
      have : '-' :: ("0000".toList ++ ('-' :: "000000000000".toList)) = '-' :: (d ++ ('-' :: e)) := by
        rw [show '-' :: ("0000".toList ++ ('-' :: "000000000000".toList)) = "-0000-000000000000".toList by decide, e2]
        simp
      exact List.tail_eq_of_cons_eq this
    obtain ⟨h1, h2⟩ := List.append_inj e3 (by rw [hc.ld]; decide)
    exact ⟨h1.symm, (List.tail_eq_of_cons_eq h2).symm⟩
  · rintro ⟨rfl, rfl⟩
    simp

/-- A step of propagation: a child in the same process, or the wire. (Specification: no counterpart in the code.) -/
inductive Hop where
  | child (span : Str)
  | wire (fresh : Fresh)

/-- (Specification: no counterpart in the code.) -/
def Hop.span : Hop → Str
  | .child s => s
  | .wire f => f.span

/-- The context after a step; `none` is a panic or a lost context. (Specification: no counterpart in the code.) -/
def Hop.apply (c : Ctx Info Meta) : Hop → Option (Ctx Info Meta)
  | .child s => some (Context.child c s)
  | .wire f => match toHeaders c with
    | none => none
    | some hdr => match (fromHeaders f hdr : Option (Option (Ctx Info Meta))) with
      | some (some c') => some c'
      | _ => none

/-- (Specification: no counterpart in the code.) -/
def hops (c : Ctx Info Meta) : List Hop → Option (Ctx Info Meta)
  | [] => some c
  | h :: r => match h.apply c with
    | none => none
    | some c' => hops c' r

theorem uuid_ascii {s : Str} (h : IsUuid s) : Ascii s := by
  obtain ⟨a, b, c, d, e, hc⟩ := h
  rw [hc.eq]
  intro x hx
  simp only [List.mem_append, List.mem_singleton] at hx
  rcases hx with (((((((hx | hx) | hx) | hx) | hx) | hx) | hx) | hx) | hx
  · exact hc.aa x hx
  · subst hx; decide
  · exact hc.ab x hx
  · subst hx; decide
  · exact hc.ac x hx
  · subst hx; decide
  · exact hc.ad x hx
  · subst hx; decide
  · exact hc.ae x hx

theorem foldl_insert_wf (l : List (Str × Str)) (b : AMap Str Str) (hw : AMap.WF b) :
    AMap.WF (l.foldl (fun b e => match Str.stripPrefix kBag e.1 with
      | none => b
      | some k => AMap.insert b k e.2) b) := by
  induction l generalizing b with
  | nil => exact hw
  | cons e l ih =>
    simp only [List.foldl_cons]
    cases Str.stripPrefix kBag e.1 with
    | none => exact ih b hw
    | some k => exact ih _ (AMap.wf_insert hw _ _)

/-- **C52**, chains: through any sequence of children and hops over the wire, with UUIDs as the ids drawn, a
context with a numeric request id keeps its trace id, request id, user, session and all baggage. -/
theorem C52_chain_partial (l : List Hop) (c : Ctx Info Meta) (hw : AMap.WF c.baggage) (ht : IsUuid c.traceId)
    (hs : IsUuid c.spanId) (n : Int) (hid : c.requestId = .num n) (h1 : -(2 ^ 63) ≤ n) (h2 : n < 2 ^ 63)
    (hl : ∀ h ∈ l, IsUuid h.span) :
    ∃ c', hops c l = some c' ∧ c'.traceId = c.traceId ∧ c'.requestId = c.requestId ∧ c'.userId = c.userId ∧
      c'.sessionId = c.sessionId ∧ ∀ k, AMap.get c'.baggage k = AMap.get c.baggage k := by
  induction l generalizing c with
  | nil => exact ⟨c, rfl, rfl, rfl, rfl, rfl, fun _ => rfl⟩
  | cons h r ih =>
    have hr := fun x hx => hl x (List.mem_cons_of_mem _ hx)
    have hsp := hl h (List.mem_cons_self ..)
    cases h with
    | child s =>
      obtain ⟨c', e1, e2, e3, e4, e5, e6⟩ := ih (Context.child c s) hw ht hsp hid hr
      exact ⟨c', e1, e2, e3, e4, e5, e6⟩
    | wire f =>
      obtain ⟨hdr, hh⟩ := Option.isSome_iff_exists.mp (C52_send c hs)
      obtain ⟨c1, f1, f2, f3, f4, f5, f6, f7⟩ := C52_hop_partial c f hdr hh hw (uuid_ascii ht) (uuid_ascii hs)
        (fun m hm => by rw [hid] at hm; cases hm; exact ⟨h1, h2⟩)
      have t1 := f5.mpr (.inl ht)
      have r1 := f6.mpr ⟨n, hid⟩
      have wf1 : AMap.WF c1.baggage := by
        obtain ⟨span, rest, hspl, hwf, g1, _⟩ := toHeaders_get hh hw
        simp only [fromHeaders, g1] at f1
        split at f1
        · split at f1
          · cases f1; exact foldl_insert_wf _ _ AMap.wf_nil
          · cases f1
        · cases f1
      obtain ⟨c', e1, e2, e3, e4, e5, e6⟩ := ih c1 wf1 (by rw [t1]; exact ht) (by rw [f7]; exact hsp)
        (by rw [r1]; exact hid) hr
      refine ⟨c', ?_, e2.trans t1, e3.trans r1, e4.trans f2, e5.trans f3, fun k => (e6 k).trans (f4 k)⟩
      simp only [hops, Hop.apply, hh, f1]
      exact e1

/-- **C52** fails: a string request id is replaced by a number on the first hop, whatever headers arrive. -/
theorem C52_string_id_lost (c : Ctx Info Meta) (fresh : Fresh) (hdr : AMap Str Str)
    (s : Str) (hid : c.requestId = .str s)
    (c' : Ctx Info Meta) (hf : fromHeaders fresh hdr = some (some c')) : c'.requestId ≠ c.requestId := by
  simp only [fromHeaders] at hf
  split at hf
  · cases hf
  · split at hf
    · split at hf
      · cases hf
        rw [hid]
        simp only [restoreId]
        intro he
        split at he
        · cases he
        · split at he <;> cases he
      · cases hf
    · cases hf

example : (hops { exCtx with requestId := .str "req-1".toList } [.wire ⟨exCtx.spanId, 5⟩]).map (·.requestId) =
    some (.num 5) := by decide +kernel

example : (hops exCtx [.child "99999999-2222-3333-4444-555555555555".toList, .wire ⟨exCtx.spanId, 5⟩]).map
    (fun c => (c.traceId, c.parentSpan)) =
    some (exCtx.traceId, some "99999999-2222-3333-0000-000000000000".toList) := by decide +kernel

end Verif.Context
