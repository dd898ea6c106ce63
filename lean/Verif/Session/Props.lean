import Verif.Session.Lemmas

/-
Properties C11, C12, C13, C76, C77, C78: sessions.
-/

namespace Verif.Session

variable {Id D A : Type} [DecidableEq Id]

/-! ### C11 -/

/-- **C11**.  After every history of calls the number of sessions is at most the limit. -/
theorem C11_limit (max : Nat) (timeout : Int) (h : List (Op Id D A)) :
    (run max timeout h).sessions.length ≤ max := by
  induction h using snocInduction with
  | nil => exact Nat.zero_le _
  | append_singleton h op ih =>
    have hw := wf_run max timeout h
    rw [run_snoc]
    generalize run max timeout h = s at ih hw
    cases op with
    | create id d now =>
      simp only [step, createSession]
      split
      · exact ih
      · rename_i hlt
        simp only
        cases hg : s.sessions.get id with
        | none => rw [AMap.length_insert_of_none hg]; omega
        | some x => rw [AMap.length_insert_of_some hw hg]; omega
    | get id now =>
      simp only [step, getSession]
      split
      · exact ih
      · rename_i x hg
        simp only
        rw [AMap.length_insert_of_some hw hg]; exact ih
    | validate id n₁ n₂ =>
      simp only [step, validate_eq]
      split
      · exact ih
      · rename_i x hg
        split
        · have := AMap.length_remove_le (s.sessions.insert id { x with lastActivity := n₁ }) id
          rw [AMap.length_insert_of_some hw hg] at this
          simp only
          omega
        · simp only
          rw [AMap.length_insert_of_some hw hg]; exact ih
    | update id f now =>
      simp only [step, updateSession]
      split
      · exact ih
      · rename_i x hg
        simp only
        rw [AMap.length_insert_of_some hw hg]; exact ih
    | authenticate id a now =>
      simp only [step, authenticateSession, updateSession]
      split
      · exact ih
      · rename_i x hg
        simp only
        rw [AMap.length_insert_of_some hw hg]; exact ih
    | destroy id =>
      simp only [step, destroySession]
      split
      · have := AMap.length_remove_le s.sessions id
        simp only
        omega
      · exact ih
    | cleanup now =>
      have := (foldl_expire_wf (expiredIds s now) s hw).2
      simp only [step, cleanupExpired]
      omega

/-- **C11**: `create_session` fails exactly when the limit is reached, and then nothing changes. -/
theorem C11_create_fails_iff (max : Nat) (timeout : Int) (s : State Id D A) (id : Id) (d : D)
    (now : Int) :
    ((step max timeout s (.create id d now)).2 = .limitReached ↔ max ≤ s.sessions.length) ∧
    (max ≤ s.sessions.length → (step max timeout s (.create id d now)).1 = s) := by
  simp only [step, createSession]
  split
  · rename_i h; exact ⟨⟨fun _ => h, fun _ => rfl⟩, fun _ => rfl⟩
  · rename_i h; exact ⟨⟨fun h' => by simp at h', fun h' => absurd h' h⟩, fun h' => absurd h' h⟩

/-- **C11**: below the limit a new id adds exactly one session, visible under its id, not
authenticated, expiring `timeout` after its creation; no other session changes. -/
theorem C11_create_succeeds (max : Nat) (timeout : Int) (s : State Id D A) (id : Id) (d : D)
    (now : Int) (hlt : s.sessions.length < max) (hnew : s.sessions.get id = none) :
    let r := step max timeout s (.create id d now)
    r.1.sessions.length = s.sessions.length + 1 ∧
    (∃ x, r.2 = .session x ∧ r.1.sessions.get id = some x ∧ x.id = id ∧ x.data = d ∧
      x.authenticated = false ∧ x.authInfo = none ∧ x.createdAt = now ∧
      x.expiresAt = now + timeout) ∧
    ∀ id', id' ≠ id → r.1.sessions.get id' = s.sessions.get id' := by
  have hn : ¬ s.sessions.length ≥ max := by omega
  simp only [step, createSession, if_neg hn]
  refine ⟨AMap.length_insert_of_none hnew, ⟨_, rfl, AMap.get_insert_self _ _ _, rfl, rfl, rfl, rfl,
    rfl, rfl⟩, fun id' h => AMap.get_insert_ne _ _ h⟩

/-- **C11** does not extend to concurrent callers: two tasks that both pass the length check before
either inserts end with two sessions under a limit of one. -/
theorem C11_concurrent_create_exceeds :
    (crun 1 10 (cinit : CState Nat Unit Unit)
      [.createCheck 1, .createCheck 2, .createInsert 1 100 () 0, .createInsert 2 200 () 0]
    ).sessions.length = 2 := by decide

/-- How many creations are past their length check, at most, during a schedule.
(Specification: no counterpart in the code.) -/
def Overlap (max : Nat) (timeout : Int) (h : List (Atom Id D A)) (k : Nat) : Prop :=
  ∀ pre, pre <+: h → (crun max timeout cinit pre).passed.length ≤ k

/-- No session is destroyed while a lookup of it is between its read and its write.
(Specification: no counterpart in the code.) -/
def CleanDestroy (max : Nat) (timeout : Int) (h : List (Atom Id D A)) : Prop :=
  ∀ pre id, pre ++ [.destroy id] <+: h → ∀ t x, (crun max timeout cinit pre).held.get t ≠ some (id, x)

/-- **C11**, part that holds for concurrent callers: if at most `k` creations are ever past their check
together and no lookup overlaps the destruction of its session, there are at most `max - 1 + k` sessions
(`max` when creations do not overlap). -/
theorem C11_concurrent_partial (max : Nat) (timeout : Int) (h : List (Atom Id D A)) (k : Nat)
    (hk : Overlap max timeout h k) (hd : CleanDestroy max timeout h) :
    (crun max timeout cinit h).sessions.length ≤ max - 1 + k := by
  have key : ∀ pre, pre <+: h →
      AMap.WF (crun max timeout cinit pre).sessions ∧
      (crun max timeout cinit pre).sessions.length + (crun max timeout cinit pre).passed.length ≤ max - 1 + k ∧
      ∀ t id x, (crun max timeout cinit pre).held.get t = some (id, x) →
        (crun max timeout cinit pre).sessions.get id ≠ none := by
    intro pre
    induction pre using snocInduction with
    | nil => intro _; exact ⟨AMap.wf_nil, Nat.zero_le _, fun t id x hh => nomatch hh⟩
    | append_singleton pre a ih =>
      intro hp
      obtain ⟨hw, hs, hh⟩ := ih ((List.prefix_append _ _).trans hp)
      have hk' := hk _ hp
      have he : crun max timeout cinit (pre ++ [a]) = cstep max timeout (crun max timeout cinit pre) a := by
        simp [crun]
      rw [he] at hk' ⊢
      generalize hgs : crun max timeout cinit pre = s at hw hs hh hk' ⊢
      cases a with
      | createCheck t =>
        simp only [cstep] at hk' ⊢
        split
        · exact ⟨hw, hs, hh⟩
        · rename_i hlt
          rw [if_neg hlt] at hk'
          simp only [List.length_cons] at hk' ⊢
          exact ⟨hw, by omega, hh⟩
      | createInsert t id d n =>
        simp only [cstep]
        split
        · rename_i hm
          refine ⟨AMap.wf_insert hw _ _, ?_, ?_⟩
          · have h1 := List.length_erase_of_mem hm
            have h2 : 0 < s.passed.length := List.length_pos_of_mem hm
            cases hg : s.sessions.get id with
            | none => rw [AMap.length_insert_of_none hg]; simp only; omega
            | some y => rw [AMap.length_insert_of_some hw hg]; simp only; omega
          · intro t' id' x hx
            rw [AMap.get_insert]
            split
            · simp
            · exact hh t' id' x hx
        · exact ⟨hw, hs, hh⟩
      | getRead t id n =>
        simp only [cstep]
        split
        · exact ⟨hw, hs, hh⟩
        · rename_i x hx
          refine ⟨hw, hs, ?_⟩
          intro t' id' y hy
          rw [AMap.get_insert] at hy
          split at hy
          · simp only [Option.some.injEq, Prod.mk.injEq] at hy
            rw [← hy.1, hx]; simp
          · exact hh t' id' y hy
      | getWrite t =>
        simp only [cstep]
        split
        · exact ⟨hw, hs, hh⟩
        · rename_i id x hx
          refine ⟨AMap.wf_insert hw _ _, ?_, ?_⟩
          · cases hg : s.sessions.get id with
            | none => exact absurd hg (hh t id x hx)
            | some y => rw [AMap.length_insert_of_some hw hg]; exact hs
          · intro t' id' y hy
            rw [AMap.get_remove] at hy
            split at hy
            · cases hy
            · rw [AMap.get_insert]
              split
              · simp
              · exact hh t' id' y hy
      | update id f n =>
        simp only [cstep]
        split
        · exact ⟨hw, hs, hh⟩
        · rename_i x hx
          refine ⟨AMap.wf_insert hw _ _, ?_, ?_⟩
          · rw [AMap.length_insert_of_some hw hx]; exact hs
          · intro t' id' y hy
            rw [AMap.get_insert]
            split
            · simp
            · exact hh t' id' y hy
      | destroy id =>
        refine ⟨AMap.wf_remove hw _, ?_, ?_⟩
        · have := AMap.length_remove_le s.sessions id
          simp only [cstep]; omega
        · intro t' id' y hy
          simp only [cstep] at hy ⊢
          rw [AMap.get_remove]
          split
          · rename_i e
            have := hd pre id hp t' y
            rw [hgs, ← e] at this
            exact absurd hy this
          · exact hh t' id' y hy
  obtain ⟨_, h2, _⟩ := key h (List.prefix_refl h)
  omega

/-- Two creations past their check together, a lookup, and the destruction of another session: four sessions are not
exceeded under a limit of three. -/
example : Overlap 3 10 ([.createCheck 1, .createCheck 2, .createInsert 1 100 () 0, .createInsert 2 200 () 0,
      .getRead 3 100 1, .destroy 200] : List (Atom Nat Unit Unit)) 2 ∧
    CleanDestroy 3 10 ([.createCheck 1, .createCheck 2, .createInsert 1 100 () 0, .createInsert 2 200 () 0,
      .getRead 3 100 1, .destroy 200] : List (Atom Nat Unit Unit)) := by
  constructor
  · intro pre hp
    have hl : pre.length < 7 := Nat.lt_succ_of_le hp.length_le
    rw [List.prefix_iff_eq_take.mp hp]
    revert hl
    generalize pre.length = n
    revert n
    decide
  · intro pre id hp t x
    have hl := hp.length_le
    have he := List.prefix_iff_eq_take.mp hp
    rw [List.length_append] at hl he
    simp only [List.length_cons, List.length_nil] at hl he
    have : pre.length = 5 := by
      match hn : pre.length, hl with
      | 0, _ => rw [hn] at he; rw [List.length_eq_zero_iff.mp hn] at he; simp at he
      | 5, _ => rfl
      | 1, _ | 2, _ | 3, _ | 4, _ =>
        rw [hn] at he
        have := congrArg List.getLast? he
        simp at this
      | n + 6, h => omega
    rw [this] at he
    have he : pre ++ [Atom.destroy id] = [.createCheck 1, .createCheck 2, .createInsert 1 100 () 0,
      .createInsert 2 200 () 0, .getRead 3 100 1] ++ [.destroy 200] := he
    obtain ⟨hp', hid⟩ := List.append_inj he this
    cases hid
    subst hp'
    have hh : ∀ (m : AMap Nat (Nat × Session Nat Unit Unit)) (y : Nat × Session Nat Unit Unit), m = [(3, y)] → y.1 = 100 →
        m.get t ≠ some (200, x) := by
      rintro m y rfl hy
      rw [AMap.get_cons]
      split
      · intro h; cases h; cases hy
      · simp
    exact hh _ _ rfl rfl

/-- **C11** with a limit of `max > 0`: `k` callers that all pass the check before any of them inserts end with
`k` sessions, whatever the limit: the bound of `C11_concurrent_partial` is reached when the limit is one, and
no limit holds for concurrent callers. -/
theorem C11_concurrent_unbounded (max : Nat) (timeout : Int) (hm : 0 < max) (k : Nat) :
    (crun max timeout (cinit : CState Nat Unit Unit)
      ((List.range k).map .createCheck ++ (List.range k).map (fun i => .createInsert i i () 0))).sessions.length =
        k := by
  have h1 : ∀ n, crun max timeout (cinit : CState Nat Unit Unit) ((List.range n).map .createCheck) =
      ⟨[], [], (List.range n).reverse⟩ := by
    intro n
    induction n with
    | zero => rfl
    | succ n ih =>
      rw [List.range_succ, List.map_append, crun, List.foldl_append]
      rw [crun] at ih
      rw [ih]
      simp only [List.map_cons, List.map_nil, List.foldl_cons, List.foldl_nil, cstep, List.length_nil]
      rw [if_neg (by omega)]
      simp
  have h2 : ∀ n, n ≤ k → ∃ m : AMap Nat (Session Nat Unit Unit), m.length = n ∧ (∀ i, n ≤ i → m.get i = none) ∧
      ∃ p : List Nat, (∀ i, n ≤ i → i < k → i ∈ p) ∧
      crun max timeout (⟨[], [], (List.range k).reverse⟩ : CState Nat Unit Unit)
        ((List.range n).map (fun i => .createInsert i i () 0)) = ⟨m, [], p⟩ := by
    intro n
    induction n with
    | zero => intro _; exact ⟨[], rfl, fun _ _ => rfl, _, fun i _ h => by simpa using h, rfl⟩
    | succ n ih =>
      intro hn
      obtain ⟨m, hm1, hm2, p, hp, he⟩ := ih (by omega)
      refine ⟨m.insert n (newSession timeout n () 0), ?_, ?_, p.erase n, ?_, ?_⟩
      · rw [AMap.length_insert_of_none (hm2 n (Nat.le_refl _)), hm1]
      · intro i hi
        rw [AMap.get_insert_ne _ _ (by omega)]
        exact hm2 i (by omega)
      · intro i hi hlt
        exact (List.mem_erase_of_ne (by omega)).mpr (hp i (by omega) hlt)
      · rw [List.range_succ, List.map_append, crun, List.foldl_append]
        rw [crun] at he
        rw [he]
        simp only [List.map_cons, List.map_nil, List.foldl_cons, List.foldl_nil, cstep]
        rw [if_pos (hp n (Nat.le_refl _) (by omega))]
  obtain ⟨m, hm1, _, p, _, he⟩ := h2 k (Nat.le_refl _)
  have h3 : ∀ a b, crun max timeout (cinit : CState Nat Unit Unit) (a ++ b) =
      crun max timeout (crun max timeout cinit a) b := by
    intro a b; simp [crun]
  rw [h3, h1 k, he]
  exact hm1

/-- **C11**: a lookup that overlaps the destruction of its session brings it back above the limit, without
overlapping creations. -/
theorem C11_lookup_exceeds :
    (crun 1 10 (cinit : CState Nat Unit Unit)
      [.createCheck 1, .createInsert 1 100 () 0, .getRead 2 100 1, .destroy 100, .createCheck 3,
       .createInsert 3 200 () 2, .getWrite 2]).sessions.length = 2 := by decide

-- three creations under a limit of two, one destruction in between
example : (run 2 10 ([.create 1 () 0, .create 2 () 0, .create 3 () 0, .destroy 1, .create 4 () 1] :
    List (Op Nat Unit Unit))).sessions.keys = [4, 2] := by decide
example : ((run 2 10 ([.create 1 () 0] : List (Op Nat Unit Unit))).sessions.length < 2) ∧
    (run 2 10 ([.create 1 () 0] : List (Op Nat Unit Unit))).sessions.get 5 = none := by decide

/-! ### C12 -/

/-- **C12**: `validate_session` succeeds exactly when the session exists and has not expired at the
time of the check. -/
theorem C12_validate_iff (max : Nat) (timeout : Int) (s : State Id D A) (id : Id) (n₁ t : Int) :
    (∃ x, (step max timeout s (.validate id n₁ t)).2 = .session x) ↔
      ∃ x, s.sessions.get id = some x ∧ t ≤ x.expiresAt := by
  simp only [step, validate_eq]
  rcases hg : s.sessions.get id with _ | x
  · simp
  · by_cases h : x.expiresAt < t
    · simp only [if_pos h]
      constructor
      · rintro ⟨y, hy⟩; cases hy
      · rintro ⟨y, hy, ht⟩; cases hy; omega
    · simp only [if_neg h]
      constructor
      · intro _; exact ⟨x, rfl, by omega⟩
      · intro _; exact ⟨_, rfl⟩

/-- **C12**: an expired session is removed by the failed validation. -/
theorem C12_expired_removed (max : Nat) (timeout : Int) (s : State Id D A) (id : Id) (n₁ t : Int)
    (x : Session Id D A) (hg : s.sessions.get id = some x) (ht : x.expiresAt < t) :
    (step max timeout s (.validate id n₁ t)).2 = .expired ∧
    (step max timeout s (.validate id n₁ t)).1.sessions.get id = none := by
  simp only [step, validate_eq, hg, if_pos ht]
  exact ⟨trivial, AMap.get_remove_self _ _⟩

/-- **C12**: a validation, get, update or destroy of one id does not touch other sessions. -/
theorem C12_other_untouched (max : Nat) (timeout : Int) (s : State Id D A) (id id' : Id)
    (hne : id' ≠ id) (n₁ t : Int) :
    (step max timeout s (.validate id n₁ t)).1.sessions.get id' = s.sessions.get id' ∧
    (step max timeout s (.get id n₁)).1.sessions.get id' = s.sessions.get id' ∧
    (∀ f, (step max timeout s (.update id f n₁)).1.sessions.get id' = s.sessions.get id') ∧
    (step max timeout s (.destroy id)).1.sessions.get id' = s.sessions.get id' := by
  refine ⟨?_, ?_, ?_, ?_⟩
  · simp only [step, validate_eq]
    split
    · rfl
    · split
      · simp only; rw [AMap.get_remove_ne _ hne, AMap.get_insert_ne _ _ hne]
      · simp only; rw [AMap.get_insert_ne _ _ hne]
  · simp only [step, getSession]
    split
    · rfl
    · simp only; rw [AMap.get_insert_ne _ _ hne]
  · intro f
    simp only [step, updateSession]
    split
    · rfl
    · simp only; rw [AMap.get_insert_ne _ _ hne]
  · simp only [step, destroySession]
    split
    · simp only; rw [AMap.get_remove_ne _ hne]
    · rfl

/-- **C12**: after every history, a sweep removes exactly the expired sessions. -/
theorem C12_cleanup_exact (max : Nat) (timeout : Int) (h : List (Op Id D A)) (now : Int) (id : Id) :
    (run max timeout (h ++ [.cleanup now])).sessions.get id =
      ((run max timeout h).sessions.get id).filter (fun x => decide (now ≤ x.expiresAt)) := by
  rw [run_snoc]
  exact cleanup_get (wf_run max timeout h) now id

/-- Absent ids stay absent without a creation. -/
theorem absent_step (max : Nat) (timeout : Int) (s : State Id D A) (hw : s.sessions.WF)
    (op : Op Id D A) (id : Id) (hop : ∀ d n, op ≠ .create id d n)
    (hg : s.sessions.get id = none) : (step max timeout s op).1.sessions.get id = none := by
  cases op with
  | create id' d now =>
    have hne : id ≠ id' := fun e => hop d now (by rw [e])
    simp only [step, createSession]
    split
    · exact hg
    · simp only; rw [AMap.get_insert_ne _ _ hne]; exact hg
  | get id' now =>
    simp only [step, getSession]
    split
    · exact hg
    · rename_i x hx
      have hne : id ≠ id' := by rintro rfl; rw [hg] at hx; cases hx
      simp only; rw [AMap.get_insert_ne _ _ hne]; exact hg
  | validate id' n₁ n₂ =>
    simp only [step, validate_eq]
    split
    · exact hg
    · rename_i x hx
      have hne : id ≠ id' := by rintro rfl; rw [hg] at hx; cases hx
      split
      · simp only; rw [AMap.get_remove_ne _ hne, AMap.get_insert_ne _ _ hne]; exact hg
      · simp only; rw [AMap.get_insert_ne _ _ hne]; exact hg
  | update id' f now =>
    simp only [step, updateSession]
    split
    · exact hg
    · rename_i x hx
      have hne : id ≠ id' := by rintro rfl; rw [hg] at hx; cases hx
      simp only; rw [AMap.get_insert_ne _ _ hne]; exact hg
  | authenticate id' a now =>
    simp only [step, authenticateSession, updateSession]
    split
    · exact hg
    · rename_i x hx
      have hne : id ≠ id' := by rintro rfl; rw [hg] at hx; cases hx
      simp only; rw [AMap.get_insert_ne _ _ hne]; exact hg
  | destroy id' =>
    simp only [step, destroySession]
    split
    · simp only; rw [AMap.get_remove, hg]; split <;> rfl
    · exact hg
  | cleanup now =>
    simp only [step]
    rw [cleanup_get hw, hg]; rfl

theorem absent_run (max : Nat) (timeout : Int) (h h' : List (Op Id D A)) (id : Id)
    (hop : ∀ op ∈ h', ∀ d n, op ≠ .create id d n)
    (hg : (run max timeout h).sessions.get id = none) :
    (run max timeout (h ++ h')).sessions.get id = none := by
  induction h' using snocInduction with
  | nil => simpa using hg
  | append_singleton h' op ih =>
    rw [← List.append_assoc, run_snoc]
    refine absent_step max timeout _ (wf_run _ _ _) op id ?_ ?_
    · exact hop op (by simp)
    · exact ih (fun o ho => hop o (by simp [ho]))

/-- **C12**: once a validation found a session expired, every later validation of this id fails,
whatever calls happen in between, unless a session with this id is created again. -/
theorem C12_stays_invalid (max : Nat) (timeout : Int) (h h' : List (Op Id D A)) (id : Id)
    (n₁ t n₂ t' : Int)
    (hexp : (step max timeout (run max timeout h) (.validate id n₁ t)).2 = .expired)
    (hop : ∀ op ∈ h', ∀ d n, op ≠ .create id d n) :
    (step max timeout (run max timeout (h ++ .validate id n₁ t :: h')) (.validate id n₂ t')).2 =
      .invalidId := by
  have hnone : (run max timeout (h ++ [.validate id n₁ t])).sessions.get id = none := by
    rw [run_snoc]
    simp only [step, validate_eq] at hexp ⊢
    rcases hg : (run max timeout h).sessions.get id with _ | x
    · simp [hg] at hexp
    · simp only [hg] at hexp ⊢
      split at hexp
      · rename_i hx; rw [if_pos hx]; exact AMap.get_remove_self _ _
      · cases hexp
  have := absent_run max timeout (h ++ [.validate id n₁ t]) h' id hop hnone
  rw [List.append_assoc] at this
  simp only [List.cons_append, List.nil_append] at this
  simp only [step, validate_eq, this]

/-- **C12** over whole histories: activity never extends a session.  A validation that succeeds
happens no later than creation plus timeout, for every history after the creation in which the
caller's own updater does not rewrite this session. -/
theorem C12_lifetime (max : Nat) (timeout : Int) (h h' : List (Op Id D A)) (id : Id) (d : D)
    (c n₁ t : Int) (hlt : (run max timeout h).sessions.length < max)
    (hop : ∀ op ∈ h', (∀ d n, op ≠ .create id d n) ∧ ∀ f n, op ≠ .update id f n)
    (x : Session Id D A)
    (hok : (step max timeout (run max timeout (h ++ .create id d c :: h'))
      (.validate id n₁ t)).2 = .session x) :
    t ≤ c + timeout ∧ x.createdAt = c ∧ x.data = d := by
  have key : ∀ y, (run max timeout (h ++ .create id d c :: h')).sessions.get id = some y →
      y.expiresAt = c + timeout ∧ y.createdAt = c ∧ y.data = d := by
    clear hok
    induction h' using snocInduction with
    | nil =>
      intro y hy
      rw [run_snoc] at hy
      have hn : ¬ (run max timeout h).sessions.length ≥ max := by omega
      simp only [step, createSession, if_neg hn, AMap.get_insert_self] at hy
      cases hy
      exact ⟨rfl, rfl, rfl⟩
    | append_singleton h' op ih =>
      have ih' := ih (fun o ho => hop o (by simp [ho]))
      have hthis := hop op (by simp)
      have happ : h ++ .create id d c :: (h' ++ [op]) = (h ++ .create id d c :: h') ++ [op] := by simp
      rw [happ, run_snoc]
      have hw := wf_run max timeout (h ++ .create id d c :: h')
      generalize run max timeout (h ++ .create id d c :: h') = s at ih' hw
      intro y hy
      cases op with
      | create id' d' now =>
        have hne : id ≠ id' := fun e => hthis.1 d' now (by rw [e])
        simp only [step, createSession] at hy
        split at hy
        · exact ih' y hy
        · rw [AMap.get_insert_ne _ _ hne] at hy; exact ih' y hy
      | get id' now =>
        simp only [step, getSession] at hy
        split at hy
        · exact ih' y hy
        · rename_i z hz
          simp only [AMap.get_insert] at hy
          split at hy
          · rename_i e; subst e; cases hy; exact ih' z hz
          · exact ih' y hy
      | validate id' m₁ m₂ =>
        simp only [step, validate_eq] at hy
        split at hy
        · exact ih' y hy
        · rename_i z hz
          split at hy
          · simp only [AMap.get_remove, AMap.get_insert] at hy
            split at hy
            · cases hy
            · exact ih' y hy
          · simp only [AMap.get_insert] at hy
            split at hy
            · rename_i e; subst e; cases hy; exact ih' z hz
            · exact ih' y hy
      | update id' f now =>
        have hne : id ≠ id' := fun e => hthis.2 f now (by rw [e])
        simp only [step, updateSession] at hy
        split at hy
        · exact ih' y hy
        · simp only [AMap.get_insert_ne _ _ hne] at hy; exact ih' y hy
      | authenticate id' a now =>
        simp only [step, authenticateSession, updateSession] at hy
        split at hy
        · exact ih' y hy
        · rename_i z hz
          simp only [AMap.get_insert] at hy
          split at hy
          · rename_i e; subst e; cases hy; exact ih' z hz
          · exact ih' y hy
      | destroy id' =>
        simp only [step, destroySession] at hy
        split at hy
        · simp only [AMap.get_remove] at hy
          split at hy
          · cases hy
          · exact ih' y hy
        · exact ih' y hy
      | cleanup now =>
        simp only [step, cleanup_get hw] at hy
        cases hg : s.sessions.get id with
        | none => rw [hg] at hy; simp at hy
        | some z =>
          rw [hg] at hy
          simp only [Option.filter] at hy
          split at hy
          · cases hy; exact ih' _ hg
          · cases hy
  simp only [step, validate_eq] at hok
  rcases hg : (run max timeout (h ++ .create id d c :: h')).sessions.get id with _ | y
  · simp [hg] at hok
  · simp only [hg] at hok
    obtain ⟨h1, h2, h3⟩ := key y hg
    split at hok
    · cases hok
    · simp only [Out.session.injEq] at hok
      subst hok
      exact ⟨by omega, h2, h3⟩

-- expiry at exactly the boundary, one after, and the later refusal
example : (∃ x, (step 2 10 (run 2 10 ([.create 1 () 0, .get 1 9] : List (Op Nat Unit Unit)))
      (.validate 1 10 10)).2 = .session x) ∧
    (step 2 10 (run 2 10 ([.create 1 () 0, .get 1 9] : List (Op Nat Unit Unit)))
      (.validate 1 10 11)).2 = .expired ∧
    (step 2 10 (run 2 10 ([.create 1 () 0, .validate 1 11 11, .create 2 () 12] :
      List (Op Nat Unit Unit))) (.validate 1 12 12)).2 = .invalidId := by
  refine ⟨⟨⟨1, 0, 10, 10, (), false, none⟩, by decide⟩, by decide, by decide⟩

/-! ### C13 -/

/-- **C13** is false for concurrent callers: a lookup that read the entry before the destruction
writes it back afterwards. -/
theorem C13_resurrected :
    ((crun 5 10 (cinit : CState Nat Unit Unit)
      [.createCheck 1, .createInsert 1 100 () 0, .getRead 2 100 1, .destroy 100, .getWrite 2]
    ).sessions.get 100).isSome = true := by decide

/-- **C13**, part that holds: under every schedule, if at the moment of the destruction no lookup of
this id is between its read and its write, the session is gone and stays gone until a session with
this id is created. -/
theorem C13_destroyed_stays_gone_partial (max : Nat) (timeout : Int) (s : CState Id D A) (id : Id)
    (h : List (Atom Id D A)) (hheld : ∀ t x, s.held.get t ≠ some (id, x))
    (hop : ∀ a ∈ h, ∀ t d n, a ≠ .createInsert t id d n) :
    (crun max timeout (cstep max timeout s (.destroy id)) h).sessions.get id = none := by
  have key : ∀ (h : List (Atom Id D A)) (s : CState Id D A),
      s.sessions.get id = none → (∀ t x, s.held.get t ≠ some (id, x)) →
      (∀ a ∈ h, ∀ t d n, a ≠ .createInsert t id d n) →
      (crun max timeout s h).sessions.get id = none := by
    intro h
    induction h with
    | nil => intro s hs _ _; exact hs
    | cons a h ih =>
      intro s hs hh hop
      refine ih (cstep max timeout s a) ?_ ?_ (fun o ho => hop o (List.mem_cons_of_mem _ ho))
      · cases a with
        | createCheck t => simp only [cstep]; split <;> exact hs
        | createInsert t id' d n =>
          have hne : id ≠ id' := fun e => hop _ List.mem_cons_self t d n (by rw [e])
          simp only [cstep]
          split
          · simp only; rw [AMap.get_insert_ne _ _ hne]; exact hs
          · exact hs
        | getRead t id' n => simp only [cstep]; split <;> exact hs
        | getWrite t =>
          simp only [cstep]
          split
          · exact hs
          · rename_i id' x hx
            have hne : id ≠ id' := by rintro rfl; exact hh t x hx
            simp only; rw [AMap.get_insert_ne _ _ hne]; exact hs
        | update id' f n =>
          simp only [cstep]
          split
          · exact hs
          · rename_i x hx
            have hne : id ≠ id' := by rintro rfl; rw [hs] at hx; cases hx
            simp only; rw [AMap.get_insert_ne _ _ hne]; exact hs
        | destroy id' =>
          simp only [cstep]; rw [AMap.get_remove, hs]; split <;> rfl
      · cases a with
        | createCheck t => simp only [cstep]; split <;> exact hh
        | createInsert t id' d n => simp only [cstep]; split <;> exact hh
        | getRead t id' n =>
          simp only [cstep]
          split
          · exact hh
          · rename_i x hx
            have hne : id' ≠ id := by rintro rfl; rw [hs] at hx; cases hx
            intro t' y hy
            simp only [AMap.get_insert] at hy
            split at hy
            · simp only [Option.some.injEq, Prod.mk.injEq] at hy; exact hne hy.1
            · exact hh t' y hy
        | getWrite t =>
          simp only [cstep]
          split
          · exact hh
          · intro t' y hy
            simp only [AMap.get_remove] at hy
            split at hy
            · cases hy
            · exact hh t' y hy
        | update id' f n => simp only [cstep]; split <;> exact hh
        | destroy id' => exact hh
  exact key h _ (AMap.get_remove_self _ _) hheld hop

/-- **C13** for calls made one after another: after `destroy_session`, the id is unknown to every
later call until it is created again. -/
theorem C13_sequential_partial (max : Nat) (timeout : Int) (h h' : List (Op Id D A)) (id : Id)
    (hop : ∀ op ∈ h', ∀ d n, op ≠ .create id d n) (now : Int) :
    (step max timeout (run max timeout (h ++ .destroy id :: h')) (.get id now)).2 = .none ∧
    (step max timeout (run max timeout (h ++ .destroy id :: h')) (.destroy id)).2 = .notFound := by
  have hd : (run max timeout (h ++ [.destroy id])).sessions.get id = none := by
    rw [run_snoc]
    simp only [step, destroySession]
    split
    · exact AMap.get_remove_self _ _
    · rename_i hg; exact hg
  have := absent_run max timeout (h ++ [.destroy id]) h' id hop hd
  rw [List.append_assoc] at this
  simp only [List.cons_append, List.nil_append] at this
  simp only [step, getSession, destroySession, this]
  exact ⟨trivial, trivial⟩

-- a destruction while another session's lookup is in flight
/-- (Specification: no counterpart in the code.) -/
def inFlight : CState Nat Unit Unit :=
  crun 5 10 cinit [.createCheck 1, .createInsert 1 100 () 0, .createCheck 1,
    .createInsert 1 200 () 0, .getRead 2 200 1]
example : inFlight.held.keys = [2] ∧ (inFlight.held.get 2).map (·.1) = some 200 ∧
    (inFlight.sessions.get 100).isSome ∧
    (crun 5 10 (cstep 5 10 inFlight (.destroy 100)) [.getWrite 2, .getRead 3 100 2, .getWrite 3]
      ).sessions.keys = [200] := by decide

/-! ### C76: life-cycle callbacks -/

/-- How often `e` was reported. (Specification: no counterpart in the code.) -/
def reported (e : Event Id) (tr : List (Event Id)) : Nat := tr.countP (fun x => decide (x = e))

/-- Ids used for successful creations are fresh in this history (UUIDs).
(Specification: no counterpart in the code.) -/
def FreshIds (h : List (Op Id D A)) : Prop :=
  (h.filterMap (fun op => match op with | .create id _ _ => some id | _ => none)).Nodup

theorem reported_snoc (e e' : Event Id) (tr : List (Event Id)) :
    reported e (tr ++ [e']) = reported e tr + (if e' = e then 1 else 0) := by
  unfold reported
  rw [List.countP_append]
  by_cases h : e' = e <;> simp [h]

/-- Balance of one id: creations = endings + (1 if live). (Specification: no counterpart in the code.) -/
def Balanced (s : State Id D A) (id : Id) : Prop :=
  reported (.created id) s.trace =
    reported (.destroyed id) s.trace + reported (.expired id) s.trace +
      (if (s.sessions.get id).isSome then 1 else 0)

theorem balanced_expireOne (s : State Id D A) (a id : Id) (h : Balanced s id) :
    Balanced (expireOne s a) id ∧
      reported (.created id) (expireOne s a).trace = reported (.created id) s.trace := by
  unfold expireOne
  rcases hg : s.sessions.get a with _ | x
  · exact ⟨h, rfl⟩
  · simp only [Balanced, reported_snoc, AMap.get_remove] at h ⊢
    by_cases e : id = a
    · subst e
      simp [hg] at h ⊢
      omega
    · have e' : ¬ a = id := fun x => e x.symm
      simp [e, e'] at h ⊢
      omega

theorem balanced_foldl (l : List Id) (s : State Id D A) (id : Id) (h : Balanced s id) :
    Balanced (l.foldl expireOne s) id ∧
      reported (.created id) (l.foldl expireOne s).trace = reported (.created id) s.trace := by
  induction l generalizing s with
  | nil => exact ⟨h, rfl⟩
  | cons a l ih =>
    obtain ⟨h1, h2⟩ := balanced_expireOne s a id h
    obtain ⟨h3, h4⟩ := ih _ h1
    exact ⟨h3, h4.trans h2⟩

/-- Effect of one call on the balance of `id`. -/
theorem balanced_step (max : Nat) (timeout : Int) (s : State Id D A) (op : Op Id D A) (id : Id)
    (h : Balanced s id)
    (hfresh : ∀ d n, op = .create id d n → reported (.created id) s.trace = 0) :
    Balanced (step max timeout s op).1 id ∧
    ((∀ d n, op ≠ .create id d n) →
      reported (.created id) (step max timeout s op).1.trace = reported (.created id) s.trace) ∧
    reported (.created id) (step max timeout s op).1.trace ≤ reported (.created id) s.trace + 1 := by
  cases op with
  | create id' d now =>
    simp only [step, createSession]
    split
    · exact ⟨h, fun _ => rfl, by simp⟩
    · by_cases e : id' = id
      · subst e
        have h0 := hfresh d now rfl
        simp only [Balanced, reported_snoc, AMap.get_insert_self] at h ⊢
        rw [h0] at h
        have hlive : (s.sessions.get id').isSome = false := by
          cases hs : (s.sessions.get id').isSome
          · rfl
          · simp [hs] at h
        simp [hlive] at h
        refine ⟨by simp; omega, fun hc => absurd rfl (hc d now), by simp⟩
      · have e' : id ≠ id' := fun x => e x.symm
        simp only [Balanced, reported_snoc, AMap.get_insert_ne _ _ e'] at h ⊢
        refine ⟨by simp [e]; omega, fun _ => by simp [e], by simp [e]⟩
  | get id' now =>
    simp only [step, getSession]
    rcases hg : s.sessions.get id' with _ | x
    · exact ⟨h, fun _ => rfl, by simp⟩
    · refine ⟨?_, fun _ => rfl, by simp⟩
      simp only [Balanced, AMap.get_insert] at h ⊢
      by_cases e : id = id'
      · subst e; simpa [hg] using h
      · simpa [e] using h
  | validate id' n₁ n₂ =>
    simp only [step, validate_eq]
    rcases hg : s.sessions.get id' with _ | x
    · exact ⟨h, fun _ => rfl, by simp⟩
    · by_cases hx : x.expiresAt < n₂
      · simp only [if_pos hx, Balanced, reported_snoc, AMap.get_remove, AMap.get_insert] at h ⊢
        by_cases e : id = id'
        · subst e
          simp [hg] at h ⊢
          omega
        · have e' : ¬ id' = id := fun x => e x.symm
          simp [e, e'] at h ⊢
          omega
      · simp only [if_neg hx, Balanced, AMap.get_insert] at h ⊢
        refine ⟨?_, fun _ => trivial, by simp⟩
        by_cases e : id = id'
        · subst e; simpa [hg] using h
        · simpa [e] using h
  | update id' f now =>
    simp only [step, updateSession]
    rcases hg : s.sessions.get id' with _ | x
    · exact ⟨h, fun _ => rfl, by simp⟩
    · refine ⟨?_, fun _ => rfl, by simp⟩
      simp only [Balanced, AMap.get_insert] at h ⊢
      by_cases e : id = id'
      · subst e; simpa [hg] using h
      · simpa [e] using h
  | authenticate id' a now =>
    simp only [step, authenticateSession, updateSession]
    rcases hg : s.sessions.get id' with _ | x
    · exact ⟨h, fun _ => rfl, by simp⟩
    · refine ⟨?_, fun _ => rfl, by simp⟩
      simp only [Balanced, AMap.get_insert] at h ⊢
      by_cases e : id = id'
      · subst e; simpa [hg] using h
      · simpa [e] using h
  | destroy id' =>
    simp only [step, destroySession]
    rcases hg : s.sessions.get id' with _ | x
    · exact ⟨h, fun _ => rfl, by simp⟩
    · simp only [Balanced, reported_snoc, AMap.get_remove] at h ⊢
      by_cases e : id = id'
      · subst e
        simp [hg] at h ⊢
        omega
      · have e' : ¬ id' = id := fun x => e x.symm
        simp [e, e'] at h ⊢
        omega
  | cleanup now =>
    obtain ⟨h1, h2⟩ := balanced_foldl (expiredIds s now) s id h
    exact ⟨h1, fun _ => h2, by simp only [step, cleanupExpired]; omega⟩

/-- **C76**.  For every history with fresh ids: every session's creation is reported at most once;
while the session lives neither its destruction nor its expiry has been reported; once it is gone
exactly one of them has been reported, exactly once. -/
theorem C76_lifecycle (max : Nat) (timeout : Int) (h : List (Op Id D A)) (hf : FreshIds h) (id : Id) :
    let s := run max timeout h
    reported (.created id) s.trace ≤ 1 ∧
    reported (.created id) s.trace =
      reported (.destroyed id) s.trace + reported (.expired id) s.trace +
        (if (s.sessions.get id).isSome then 1 else 0) := by
  have key : Balanced (run max timeout h) id ∧ reported (.created id) (run max timeout h).trace ≤ 1 ∧
      ((∀ d n, Op.create id d n ∉ h) → reported (.created id) (run max timeout h).trace = 0) := by
    induction h using snocInduction with
    | nil => refine ⟨?_, ?_, fun _ => ?_⟩ <;> simp [Balanced, run, init, reported]
    | append_singleton h op ih =>
      have hf' : FreshIds h := by
        unfold FreshIds at hf ⊢
        rw [List.filterMap_append, List.nodup_append] at hf
        exact hf.1
      obtain ⟨i1, i2, i3⟩ := ih hf'
      have hfresh : ∀ d n, op = .create id d n →
          reported (.created id) (run max timeout h).trace = 0 := by
        intro d n e
        apply i3
        intro d' n' hm
        subst e
        unfold FreshIds at hf
        rw [List.filterMap_append, List.nodup_append] at hf
        refine hf.2.2 id ?_ id (by simp) rfl
        rw [List.mem_filterMap]
        exact ⟨_, hm, rfl⟩
      obtain ⟨b1, b2, b3⟩ := balanced_step max timeout (run max timeout h) op id i1 hfresh
      rw [run_snoc]
      refine ⟨b1, ?_, ?_⟩
      · by_cases hc : ∃ d n, op = .create id d n
        · obtain ⟨d, n, e⟩ := hc
          have := hfresh d n e
          omega
        · rw [b2 (fun d n e => hc ⟨d, n, e⟩)]; exact i2
      · intro hno
        rw [b2 (fun d n e => hno d n (by simp [e]))]
        exact i3 (fun d n hm => hno d n (by simp [hm]))
  exact ⟨key.2.1, key.1⟩

-- one session destroyed, one expired by a sweep, one still live
example : (run 5 10 ([.create 1 () 0, .create 2 () 0, .destroy 1, .create 3 () 8, .cleanup 11] :
    List (Op Nat Unit Unit))).trace =
      [.created 1, .created 2, .destroyed 1, .created 3, .expired 2] := by decide
example : FreshIds ([.create 1 () 0, .create 2 () 0, .destroy 1] : List (Op Nat Unit Unit)) := by
  unfold FreshIds; decide

/-! ### C77: session lookup from HTTP headers -/

/-- Specification: a cookie jar as a browser sends it, `name=value` pairs separated by `"; "`. -/
def cookieHeader (jar : List (List Char × List Char)) : List Char :=
  Str.join "; ".toList (jar.map (fun p => p.1 ++ '=' :: p.2))

/-- Names and values allowed by RFC 6265: no `;`, no white space at the ends, no `=` in names,
no empty names or values. (Specification: no counterpart in the code.) -/
def CookieOk (p : List Char × List Char) : Prop :=
  ';' ∉ p.1 ∧ ';' ∉ p.2 ∧ '=' ∉ p.1 ∧ (∀ c ∈ p.1, Str.isWs c = false) ∧
  (∀ c ∈ p.2, Str.isWs c = false)

theorem cookieValue_ok (w : List Char) (hw : ∀ c ∈ w, Str.isWs c = true)
    (p : List Char × List Char) (h : CookieOk p) :
    cookieValue (w ++ (p.1 ++ '=' :: p.2)) =
      if p.1 = cookieName then some p.2 else none := by
  obtain ⟨n, v⟩ := p
  obtain ⟨_, _, h3, h4, h5⟩ := h
  simp only at *
  unfold cookieValue
  have ht : Str.trim (w ++ (n ++ '=' :: v)) = n ++ '=' :: v := by
    have := Str.trim_pad w (n ++ '=' :: v) [] hw (by simp)
    rw [List.append_nil] at this
    rw [this]
    have hall : ∀ c ∈ n ++ '=' :: v, Str.isWs c = false := by
      intro c hc
      simp only [List.mem_append, List.mem_cons] at hc
      rcases hc with hc | rfl | hc
      · exact h4 c hc
      · decide
      · exact h5 c hc
    apply Str.trim_of_ends
    · intro x hx; exact hall x (List.mem_of_head? hx)
    · intro x hx; exact hall x (List.mem_of_getLast? hx)
  rw [ht, Str.splitOnce_append h3]

/-- The value of the first `mcp-session-id` cookie of a jar. (Specification: no counterpart in the code.) -/
def jarSession (jar : List (List Char × List Char)) : Option (List Char) :=
  (jar.find? (fun p => decide (p.1 = "mcp-session-id".toList))).map (·.2)

theorem jarSession_eq (jar : List (List Char × List Char)) :
    jarSession jar = (jar.find? (fun p => decide (p.1 = cookieName))).map (·.2) := rfl

theorem firstCookie_header (w : List Char) (hw : ∀ c ∈ w, Str.isWs c = true) (hw' : ';' ∉ w)
    (jar : List (List Char × List Char)) (h : ∀ p ∈ jar, CookieOk p) (hne : jar ≠ []) :
    firstCookie (Str.splitChar ';' (w ++ cookieHeader jar)) = jarSession jar := by
  induction jar generalizing w with
  | nil => exact absurd rfl hne
  | cons p r ih =>
    have hp := h p List.mem_cons_self
    have hnot : ';' ∉ w ++ (p.1 ++ '=' :: p.2) := by
      simp only [List.mem_append, List.mem_cons, not_or]
      exact ⟨hw', hp.1, by decide, hp.2.1⟩
    have hv := cookieValue_ok w hw p hp
    cases r with
    | nil =>
      have : w ++ cookieHeader [p] = w ++ (p.1 ++ '=' :: p.2) := by simp [cookieHeader, Str.join]
      rw [this, Str.splitChar_of_not_mem hnot]
      simp only [firstCookie, hv, jarSession_eq, List.find?]
      by_cases e : p.1 = cookieName <;> simp [e]
    | cons q r =>
      have hsplit : w ++ cookieHeader (p :: q :: r) =
          (w ++ (p.1 ++ '=' :: p.2)) ++ ';' :: ([' '] ++ cookieHeader (q :: r)) := by
        simp [cookieHeader, Str.join]
      rw [hsplit, Str.splitChar_append hnot]
      simp only [firstCookie, hv]
      have hrec := ih [' '] (by decide) (by decide)
        (fun x hx => h x (List.mem_cons_of_mem _ hx)) (by simp)
      by_cases e : p.1 = cookieName
      · simp [e, jarSession_eq]
      · simp only [e, if_false, hrec]
        simp [jarSession_eq, e]

/-- **C77** (extraction).  For every cookie jar sent in the usual form, the session id is the value
of its first `mcp-session-id` cookie, whatever other cookies surround it; when there is none, the
`X-Session-ID` header decides. -/
theorem C77_extract_from_cookies (headers : AMap (List Char) (List Char))
    (jar : List (List Char × List Char)) (hne : jar ≠ []) (h : ∀ p ∈ jar, CookieOk p)
    (hh : headers.get "cookie".toList = some (cookieHeader jar) ∨
      (headers.get "cookie".toList = none ∧ headers.get "Cookie".toList = some (cookieHeader jar))) :
    extractSessionId headers =
      match jarSession jar with
      | some v => some v
      | none => (headers.get "X-Session-ID".toList).or (headers.get "x-session-id".toList) := by
  have hc : (headers.get "cookie".toList).or (headers.get "Cookie".toList) =
      some (cookieHeader jar) := by
    rcases hh with hh | ⟨h1, h2⟩
    · rw [hh]; rfl
    · rw [h1, h2]; rfl
  have hf := firstCookie_header [] (by simp) (by simp) jar h hne
  rw [List.nil_append] at hf
  unfold extractSessionId
  simp only [hc, hf]
  cases jarSession jar <;> rfl

/-- **C77** (acceptance) is false: the middleware looks sessions up without checking their expiry,
so an expired session reaches the handler. -/
theorem C77_middleware_accepts_expired :
    let s := run 5 10 ([.create "abc".toList () 0] : List (Op (List Char) Unit Unit))
    ((middlewareSession s [("X-Session-ID".toList, "abc".toList)] 1000).2.map (·.expiresAt))
      = some 10 := by decide

/-- **C77**, part that holds: the session handed to the handler is the one stored under the
extracted id, so before its expiry the middleware and `validate_session` agree. -/
theorem C77_middleware_session_partial (s : State (List Char) D A)
    (headers : AMap (List Char) (List Char)) (now : Int) (x : Session (List Char) D A)
    (hx : (middlewareSession s headers now).2 = some x) :
    ∃ id y, extractSessionId headers = some id ∧ s.sessions.get id = some y ∧
      x = { y with lastActivity := now } ∧
      (now ≤ y.expiresAt → ∀ max timeout, (step max timeout s (.validate id now now)).2 = .session x) := by
  unfold middlewareSession at hx
  rcases he : extractSessionId headers with _ | id
  · simp [he] at hx
  · simp only [he, getSession_eq] at hx
    rcases hg : s.sessions.get id with _ | y
    · simp [hg] at hx
    · simp only [hg, Option.some.injEq] at hx
      refine ⟨id, y, rfl, hg, hx.symm, ?_⟩
      intro hle max timeout
      simp only [step, validate_eq, hg]
      rw [if_neg (by omega), hx]

/-- **C77** (exactly). The handler is given no session precisely if no id is extracted or none is stored under it; and
for a stored one the middleware and `validate_session` agree precisely if it has not expired. -/
theorem C77_middleware_iff (s : State (List Char) D A) (headers : AMap (List Char) (List Char)) (now : Int)
    (id : List Char) (hid : extractSessionId headers = some id) (max : Nat) (timeout : Int) :
    ((middlewareSession s headers now).2 = Option.none ↔ s.sessions.get id = Option.none) ∧
    ∀ y, s.sessions.get id = some y →
      ((∃ x, (middlewareSession s headers now).2 = some x ∧
        (step max timeout s (.validate id now now)).2 = .session x) ↔ now ≤ y.expiresAt) := by
  have hm : (middlewareSession s headers now).2 = (s.sessions.get id).map (fun y => { y with lastActivity := now }) := by
    unfold middlewareSession
    simp only [hid, getSession_eq]
    cases s.sessions.get id <;> rfl
  refine ⟨by rw [hm]; simp, ?_⟩
  intro y hy
  constructor
  · rintro ⟨x, _, hx⟩
    obtain ⟨z, hz, hle⟩ := (C12_validate_iff max timeout s id now now).mp ⟨x, hx⟩
    rw [hy] at hz; cases hz; exact hle
  · intro hle
    obtain ⟨id', y', h1, h2, h3, h4⟩ := C77_middleware_session_partial s headers now { y with lastActivity := now }
      (by rw [hm, hy]; rfl)
    rw [hid] at h1; cases h1
    rw [hy] at h2; cases h2
    exact ⟨_, by rw [hm, hy]; rfl, h4 hle max timeout⟩

-- a session cookie between two others
example : cookieHeader [("theme".toList, "dark".toList), ("mcp-session-id".toList, "a=b".toList),
      ("x".toList, "1".toList)] = "theme=dark; mcp-session-id=a=b; x=1".toList ∧
    extractSessionId [("cookie".toList, "theme=dark; mcp-session-id=a=b; x=1".toList)]
      = some "a=b".toList := by decide
example : CookieOk ("mcp-session-id".toList, "a=b".toList) := by
  refine ⟨by decide, by decide, by decide, by decide, by decide⟩

/-! ### C78: updates are not lost -/

/-- Two sessions differ at most in the time of the last activity. (Specification: no counterpart in the code.) -/
def SameButActivity (x y : Session Id D A) : Prop :=
  { x with lastActivity := 0 } = { y with lastActivity := 0 }

/-- **C78** is false for concurrent callers: a lookup that read the session before
`authenticate_session` writes the unauthenticated copy back. -/
theorem C78_authentication_lost :
    ((crun 5 10 (cinit : CState Nat Unit Unit)
      [.createCheck 1, .createInsert 1 100 () 0, .getRead 2 100 1,
       .update 100 (fun x => { x with authenticated := true, authInfo := some () }) 2,
       .getWrite 2]).sessions.get 100).map (·.authenticated) = some false := by decide

/-- **C78**, the general form of the loss: whatever happens to the table between the read and the write of a
lookup, the write restores the session as it was read, with the time of the lookup as its last activity. -/
theorem C78_lookup_restores (max : Nat) (timeout : Int) (s : CState Id D A) (t : Nat) (id : Id) (now : Int)
    (x : Session Id D A) (hg : s.sessions.get id = some x) (h : List (Atom Id D A))
    (hop : ∀ a ∈ h, (∀ id' n, a ≠ .getRead t id' n) ∧ a ≠ .getWrite t) :
    (crun max timeout (cstep max timeout s (.getRead t id now)) (h ++ [.getWrite t])).sessions.get id =
      some { x with lastActivity := now } := by
  have key : ∀ (h : List (Atom Id D A)) (s : CState Id D A) (y : Id × Session Id D A),
      s.held.get t = some y → (∀ a ∈ h, (∀ id' n, a ≠ .getRead t id' n) ∧ a ≠ .getWrite t) →
      (crun max timeout s h).held.get t = some y := by
    intro h
    induction h with
    | nil => intro s y hs _; exact hs
    | cons a h ih =>
      intro s y hs hop
      refine ih (cstep max timeout s a) y ?_ (fun o ho => hop o (List.mem_cons_of_mem _ ho))
      have ha := hop a List.mem_cons_self
      cases a with
      | createCheck t' => simp only [cstep]; split <;> exact hs
      | createInsert t' id' d n => simp only [cstep]; split <;> exact hs
      | getRead t' id' n =>
        have hne : t ≠ t' := fun e => ha.1 id' n (by rw [e])
        simp only [cstep]
        split
        · exact hs
        · simp only; rw [AMap.get_insert_ne _ _ hne]; exact hs
      | getWrite t' =>
        have hne : t ≠ t' := fun e => ha.2 (by rw [e])
        simp only [cstep]
        split
        · exact hs
        · simp only [AMap.get_remove, if_neg hne]; exact hs
      | update id' f n => simp only [cstep]; split <;> exact hs
      | destroy id' => exact hs
  have h0 : (cstep max timeout s (.getRead t id now)).held.get t = some (id, { x with lastActivity := now }) := by
    simp only [cstep, hg, AMap.get_insert_self]
  have h1 := key h _ _ h0 hop
  generalize cstep max timeout s (.getRead t id now) = s' at h1 ⊢
  have h2 : crun max timeout s' (h ++ [.getWrite t]) = cstep max timeout (crun max timeout s' h) (.getWrite t) := by
    simp [crun]
  rw [h2]
  simp only [cstep, h1, AMap.get_insert_self]

/-- **C78**, part that holds: if no lookup of this id is between its read and its write when the
update runs, then under every schedule without further updates or creations of this id, the session
— as long as it exists — carries the update; only the activity time changes. -/
theorem C78_update_kept_partial (max : Nat) (timeout : Int) (s : CState Id D A) (id : Id)
    (f : Session Id D A → Session Id D A) (now : Int) (x : Session Id D A)
    (hg : s.sessions.get id = some x)
    (hheld : ∀ t y, s.held.get t ≠ some (id, y)) (h : List (Atom Id D A))
    (hop : ∀ a ∈ h, (∀ t d n, a ≠ .createInsert t id d n) ∧ ∀ g n, a ≠ .update id g n)
    (y : Session Id D A)
    (hy : (crun max timeout (cstep max timeout s (.update id f now)) h).sessions.get id = some y) :
    SameButActivity y (f x) := by
  have key : ∀ (h : List (Atom Id D A)) (s : CState Id D A),
      (∀ z, s.sessions.get id = some z → SameButActivity z (f x)) →
      (∀ t z, s.held.get t = some (id, z) → SameButActivity z (f x)) →
      (∀ a ∈ h, (∀ t d n, a ≠ .createInsert t id d n) ∧ ∀ g n, a ≠ .update id g n) →
      ∀ z, (crun max timeout s h).sessions.get id = some z → SameButActivity z (f x) := by
    intro h
    induction h with
    | nil => intro s hs _ _; exact hs
    | cons a h ih =>
      intro s hs hh hop
      refine ih (cstep max timeout s a) ?_ ?_ (fun o ho => hop o (List.mem_cons_of_mem _ ho))
      · intro z hz
        cases a with
        | createCheck t => simp only [cstep] at hz; split at hz <;> exact hs z hz
        | createInsert t id' d n =>
          have hne : id ≠ id' := fun e => (hop _ List.mem_cons_self).1 t d n (by rw [e])
          simp only [cstep] at hz
          split at hz
          · simp only [AMap.get_insert_ne _ _ hne] at hz; exact hs z hz
          · exact hs z hz
        | getRead t id' n => simp only [cstep] at hz; split at hz <;> exact hs z hz
        | getWrite t =>
          simp only [cstep] at hz
          split at hz
          · exact hs z hz
          · rename_i id' w hw
            simp only [AMap.get_insert] at hz
            split at hz
            · rename_i e; subst e; cases hz; exact hh t _ hw
            · exact hs z hz
        | update id' g n =>
          have hne : id ≠ id' := fun e => (hop _ List.mem_cons_self).2 g n (by rw [e])
          simp only [cstep] at hz
          split at hz
          · exact hs z hz
          · simp only [AMap.get_insert_ne _ _ hne] at hz; exact hs z hz
        | destroy id' =>
          simp only [cstep, AMap.get_remove] at hz
          split at hz
          · cases hz
          · exact hs z hz
      · intro t' z hz
        cases a with
        | createCheck t => simp only [cstep] at hz; split at hz <;> exact hh t' z hz
        | createInsert t id' d n => simp only [cstep] at hz; split at hz <;> exact hh t' z hz
        | getRead t id' n =>
          simp only [cstep] at hz
          split at hz
          · exact hh t' z hz
          · rename_i w hw
            simp only [AMap.get_insert] at hz
            split at hz
            · simp only [Option.some.injEq, Prod.mk.injEq] at hz
              obtain ⟨e, rfl⟩ := hz
              subst e
              exact hs w hw
            · exact hh t' z hz
        | getWrite t =>
          simp only [cstep] at hz
          split at hz
          · exact hh t' z hz
          · simp only [AMap.get_remove] at hz
            split at hz
            · cases hz
            · exact hh t' z hz
        | update id' g n => simp only [cstep] at hz; split at hz <;> exact hh t' z hz
        | destroy id' => exact hh t' z hz
  refine key h _ ?_ ?_ hop y hy
  · intro z hz
    simp only [cstep, hg, AMap.get_insert_self] at hz
    cases hz
    rfl
  · intro t z hz
    simp only [cstep, hg] at hz
    exact absurd hz (hheld t z)

/-- **C78** for calls made one after another: reading and validating a session never changes
anything in it but the time of the last activity. -/
theorem C78_reads_keep_partial (max : Nat) (timeout : Int) (s : State Id D A) (id : Id)
    (x : Session Id D A) (hg : s.sessions.get id = some x) (n₁ t : Int) (ht : t ≤ x.expiresAt) :
    (step max timeout s (.get id n₁)).1.sessions.get id = some { x with lastActivity := n₁ } ∧
    (step max timeout s (.get id n₁)).2 = .session { x with lastActivity := n₁ } ∧
    (step max timeout s (.validate id n₁ t)).1.sessions.get id = some { x with lastActivity := n₁ } := by
  have hn : ¬ x.expiresAt < t := by omega
  simp only [step, getSession, validate_eq, hg, if_neg hn, AMap.get_insert_self]
  exact ⟨trivial, trivial, trivial⟩

/-- **C78**: `authenticate_session` marks exactly the named session. -/
theorem C78_authenticate (max : Nat) (timeout : Int) (s : State Id D A) (id : Id) (a : A) (now : Int)
    (x : Session Id D A) (hg : s.sessions.get id = some x) :
    (step max timeout s (.authenticate id a now)).1.sessions.get id =
      some { x with authenticated := true, authInfo := some a, lastActivity := now } ∧
    ∀ id', id' ≠ id →
      (step max timeout s (.authenticate id a now)).1.sessions.get id' = s.sessions.get id' := by
  simp only [step, authenticateSession, updateSession, hg, AMap.get_insert_self]
  exact ⟨trivial, fun id' h => AMap.get_insert_ne _ _ h⟩

/-- **C78**: an update or authentication tells the caller that it was done exactly if the session is kept, expired or not;
otherwise it tells that there is no such session, and nothing changes. -/
theorem C78_answer (max : Nat) (timeout : Int) (s : State Id D A) (id : Id) (op : Op Id D A)
    (ho : (∃ f now, op = .update id f now) ∨ ∃ a now, op = .authenticate id a now) :
    ((step max timeout s op).2 = .ok ↔ (s.sessions.get id).isSome) ∧
    ((step max timeout s op).2 = .invalidId ↔ s.sessions.get id = none) ∧
    (s.sessions.get id = none → (step max timeout s op).1 = s) := by
  rcases ho with ⟨f, now, rfl⟩ | ⟨a, now, rfl⟩ <;> simp only [step, authenticateSession, updateSession] <;>
    cases s.sessions.get id <;> simp

example : ((step 5 10 (run 5 10 [.create 100 () 0] : State Nat Unit Unit) (.authenticate 100 () 1000)).1.sessions.get 100).map
    (fun x => (x.authenticated, decide (x.expiresAt < 1000))) = some (true, true) := by decide

-- an authentication with no lookup in flight survives later lookups
example : ((crun 5 10 (cinit : CState Nat Unit Unit)
      [.createCheck 1, .createInsert 1 100 () 0,
       .update 100 (fun x => { x with authenticated := true, authInfo := some () }) 2,
       .getRead 2 100 3, .getRead 3 100 4, .getWrite 3, .getWrite 2]).sessions.get 100).map
        (·.authenticated) = some true := by decide

end Verif.Session
