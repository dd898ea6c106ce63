import Verif.NotifDebounce.Model
import Verif.Common.ListExtra

/-
Properties C31, C84, C86: the notification debouncer.
-/

namespace Verif.NotifDebounce

/-! ### Specification -/

/-- What a notification is about: its kind, and the token or uri it concerns.
(Specification: no counterpart in the code.) -/
inductive Subject where
  | progress (t : Token)
  | tools
  | prompts
  | resources
  | roots
  | updated (uri : Text)
  | log
  deriving DecidableEq

/-- The subject of a notification. (Specification: no counterpart in the code.) -/
def subject : Notif → Subject
  | .progress t _ => .progress t
  | .tools => .tools
  | .prompts => .prompts
  | .resources => .resources
  | .roots => .roots
  | .updated u => .updated u
  | .log _ => .log

/-- Notifications submitted in a history. (Specification: no counterpart in the code.) -/
def submitted : List Op → List Notif
  | [] => []
  | .submit _ n :: h => n :: submitted h
  | _ :: h => submitted h

/-- Copies waiting to be sent. (Specification: no counterpart in the code.) -/
def waiting (s : State) : List Notif := s.pending.flatMap (fun e => sends e.2)

theorem submitted_append (l1 l2 : List Op) : submitted (l1 ++ l2) = submitted l1 ++ submitted l2 := by
  induction l1 with
  | nil => rfl
  | cons x l ih => cases x <;> simp [submitted, ih]

/-! ### Keys -/

theorem debugToken_head_str (esc : Text → Text) (s : Text) :
    (debugToken esc (.str s)).head? = some 'S' := rfl

theorem debugToken_head_num (esc : Text → Text) (i : Int) :
    (debugToken esc (.num i)).head? = some 'N' := rfl

theorem debugToken_injective (esc : Text → Text) (he : ∀ a b, esc a = esc b → a = b) (a b : Token)
    (h : debugToken esc a = debugToken esc b) : a = b := by
  cases a with
  | str s =>
    cases b with
    | str t =>
      have h1 : esc s ++ kStrEnd = esc t ++ kStrEnd := List.append_cancel_left h
      rw [he _ _ (List.append_cancel_right h1)]
    | num j =>
      have h1 := congrArg List.head? h
      rw [debugToken_head_str, debugToken_head_num] at h1
      cases h1
  | num i =>
    cases b with
    | str t =>
      have h1 := congrArg List.head? h
      rw [debugToken_head_str, debugToken_head_num] at h1
      cases h1
    | num j =>
      have h1 : Decimal.showInt i ++ kNumEnd = Decimal.showInt j ++ kNumEnd := List.append_cancel_left h
      rw [Decimal.showInt_injective (List.append_cancel_right h1)]

/-- Three characters that tell most kinds of keys apart. (Specification: no counterpart in the code.) -/
def mark (t : Text) : Option Char × Option Char × Option Char := (t.head?, t[4]?, t[8]?)

theorem mark_progress (x : Text) : mark (kProgress ++ x) = (some 'p', some 'r', some ':') := rfl
theorem mark_updated (x : Text) : mark (kUpdated ++ x) = (some 'r', some 'u', some '_') := rfl

/-- The tenth character distinguishes the two keys beginning with `resource_`. -/
theorem updated_ne_resources (x : Text) : kUpdated ++ x ≠ kResources := by
  intro h
  have := congrArg (fun t : Text => t[9]?) h
  have e1 : (kUpdated ++ x)[9]? = some 'u' := rfl
  have e2 : kResources[9]? = some 'l' := rfl
  simp only [e1, e2] at this
  cases this

/-- **C31 (keys).** Two notifications share a key exactly when they are about the same thing, unless
they are a roots change and a log message.  `esc` is the escaping of `Debug` for strings, which is
injective. -/
theorem C31_key_iff_subject_partial (esc : Text → Text) (he : ∀ a b, esc a = esc b → a = b) (a b : Notif)
    (h1 : ¬ (subject a = .roots ∧ subject b = .log)) (h2 : ¬ (subject a = .log ∧ subject b = .roots)) :
    key esc a = key esc b ↔ subject a = subject b := by
  have hm : ∀ {x y : Text}, x = y → mark x = mark y := fun h => h ▸ rfl
  constructor
  · intro h
    cases a with
    | progress t m =>
      cases b with
      | progress t' m' =>
        have := debugToken_injective esc he _ _ (List.append_cancel_left h)
        simp [subject, this]
      | tools => exact absurd (hm h) (by simp only [key]; rw [mark_progress]; decide)
      | prompts => exact absurd (hm h) (by simp only [key]; rw [mark_progress]; decide)
      | resources => exact absurd (hm h) (by simp only [key]; rw [mark_progress]; decide)
      | roots => exact absurd (hm h) (by simp only [key]; rw [mark_progress]; decide)
      | updated u => exact absurd (hm h) (by simp only [key]; rw [mark_progress, mark_updated]; decide)
      | log m' => exact absurd (hm h) (by simp only [key]; rw [mark_progress]; decide)
    | updated u =>
      cases b with
      | progress t' m' =>
        exact absurd (hm h) (by simp only [key]; rw [mark_progress, mark_updated]; decide)
      | tools => exact absurd (hm h) (by simp only [key]; rw [mark_updated]; decide)
      | prompts => exact absurd (hm h) (by simp only [key]; rw [mark_updated]; decide)
      | resources => exact absurd h (updated_ne_resources u)
      | roots => exact absurd (hm h) (by simp only [key]; rw [mark_updated]; decide)
      | updated u' =>
        have : u = u' := List.append_cancel_left h
        simp [subject, this]
      | log m' => exact absurd (hm h) (by simp only [key]; rw [mark_updated]; decide)
    | tools =>
      cases b with
      | progress t' m' => exact absurd (hm h) (by simp only [key]; rw [mark_progress]; decide)
      | updated u => exact absurd (hm h) (by simp only [key]; rw [mark_updated]; decide)
      | tools => rfl
      | prompts => exact absurd (hm h) (by simp only [key]; decide)
      | resources => exact absurd (hm h) (by simp only [key]; decide)
      | roots => exact absurd (hm h) (by simp only [key]; decide)
      | log m' => exact absurd (hm h) (by simp only [key]; decide)
    | prompts =>
      cases b with
      | progress t' m' => exact absurd (hm h) (by simp only [key]; rw [mark_progress]; decide)
      | updated u => exact absurd (hm h) (by simp only [key]; rw [mark_updated]; decide)
      | tools => exact absurd (hm h) (by simp only [key]; decide)
      | prompts => rfl
      | resources => exact absurd (hm h) (by simp only [key]; decide)
      | roots => exact absurd (hm h) (by simp only [key]; decide)
      | log m' => exact absurd (hm h) (by simp only [key]; decide)
    | resources =>
      cases b with
      | progress t' m' => exact absurd (hm h) (by simp only [key]; rw [mark_progress]; decide)
      | updated u => exact absurd h.symm (updated_ne_resources u)
      | tools => exact absurd (hm h) (by simp only [key]; decide)
      | prompts => exact absurd (hm h) (by simp only [key]; decide)
      | resources => rfl
      | roots => exact absurd (hm h) (by simp only [key]; decide)
      | log m' => exact absurd (hm h) (by simp only [key]; decide)
    | roots =>
      cases b with
      | progress t' m' => exact absurd (hm h) (by simp only [key]; rw [mark_progress]; decide)
      | updated u => exact absurd (hm h) (by simp only [key]; rw [mark_updated]; decide)
      | tools => exact absurd (hm h) (by simp only [key]; decide)
      | prompts => exact absurd (hm h) (by simp only [key]; decide)
      | resources => exact absurd (hm h) (by simp only [key]; decide)
      | roots => rfl
      | log m' => exact absurd ⟨rfl, rfl⟩ h1
    | log m =>
      cases b with
      | progress t' m' => exact absurd (hm h) (by simp only [key]; rw [mark_progress]; decide)
      | updated u => exact absurd (hm h) (by simp only [key]; rw [mark_updated]; decide)
      | tools => exact absurd (hm h) (by simp only [key]; decide)
      | prompts => exact absurd (hm h) (by simp only [key]; decide)
      | resources => exact absurd (hm h) (by simp only [key]; decide)
      | roots => exact absurd ⟨rfl, rfl⟩ h2
      | log m' => rfl
  · intro h
    cases a <;> cases b <;> simp_all [subject, key]

example : key id (.progress (.str "1".toList) 3) ≠ key id (.progress (.num 1) 3) := by decide

/-- **C31 refuted (kinds).** A roots change and a log message share a key, whatever the escaping. -/
theorem C31_kinds_refuted (esc : Text → Text) (m : Nat) :
    key esc .roots = key esc (.log m) ∧ subject .roots ≠ subject (.log m) := ⟨rfl, by simp [subject]⟩

/-! ### Exactly once -/

theorem wf_step (esc : Text → Text) (c : Config) (s : State) (op : Op) (h : AMap.WF s.pending) :
    AMap.WF (step esc c s op).pending := by
  cases op with
  | submit now n =>
    simp only [step, submit]
    split <;> exact AMap.wf_insert h _ _
  | tick now => exact List.Nodup.sublist (List.Sublist.map _ List.filter_sublist) h
  | flush => exact h

theorem wf_run (esc : Text → Text) (c : Config) (h : List Op) :
    AMap.WF (run esc c {} h).pending := by
  induction h using snocInduction with
  | nil => exact AMap.wf_nil
  | append_singleton l a ih =>
    rw [run, List.foldl_append]
    exact wf_step esc c _ a ih

theorem flatMap_remove_count {m : AMap Text Pending} (hw : AMap.WF m) {k : Text} {p : Pending}
    (h : AMap.get m k = some p) (n : Notif) :
    (m.flatMap (fun e => sends e.2)).count n =
      (sends p).count n + ((AMap.remove m k).flatMap (fun e => sends e.2)).count n := by
  induction m with
  | nil => simp at h
  | cons e m ih =>
    obtain ⟨a, v⟩ := e
    have hw' : a ∉ AMap.keys m ∧ AMap.WF m := by
      unfold AMap.WF AMap.keys at *
      simpa using hw
    rw [AMap.get_cons] at h
    by_cases hk : a = k
    · subst hk
      simp only [if_true, Option.some.injEq] at h
      subst h
      have hr := AMap.remove_of_get_none (AMap.get_eq_none_iff.mpr hw'.1)
      have : AMap.remove ((a, v) :: m) a = AMap.remove m a := by
        unfold AMap.remove; rw [List.filter_cons]; simp
      rw [this, hr, List.flatMap_cons, List.count_append]
    · rw [if_neg hk] at h
      have : AMap.remove ((a, v) :: m) k = (a, v) :: AMap.remove m k := by
        unfold AMap.remove; rw [List.filter_cons]; simp [hk]
      rw [this, List.flatMap_cons, List.flatMap_cons, List.count_append, List.count_append, ih hw'.2 h]
      omega

theorem tick_count (c : Config) (now : Nat) (m : AMap Text Pending) (n : Notif) :
    ((m.filter (fun e => due c now e.1 e.2)).flatMap (fun e => sends e.2)).count n +
      ((m.filter (fun e => !due c now e.1 e.2)).flatMap (fun e => sends e.2)).count n =
      (m.flatMap (fun e => sends e.2)).count n := by
  induction m with
  | nil => rfl
  | cons e m ih =>
    rw [List.filter_cons, List.filter_cons, List.flatMap_cons, List.count_append]
    cases hd : due c now e.1 e.2
    · simp only [Bool.false_eq_true, if_false, Bool.not_false, if_true, List.flatMap_cons,
        List.count_append]
      omega
    · simp only [if_true, Bool.not_true, Bool.false_eq_true, if_false, List.flatMap_cons,
        List.count_append]
      omega

theorem submit_count_le (esc : Text → Text) (c : Config) (s : State) (hw : AMap.WF s.pending)
    (now : Nat) (n m : Notif) :
    (waiting (submit esc c s now n)).count m ≤ (waiting s).count m + [n].count m := by
  unfold submit waiting
  cases hg : AMap.get s.pending (key esc n) with
  | none =>
    simp only [AMap.insert, List.flatMap_cons, List.count_append, AMap.remove_of_get_none hg, sends]
    omega
  | some p =>
    have h1 := flatMap_remove_count hw hg m
    simp only [AMap.insert, List.flatMap_cons, List.count_append]
    have h2 : (sends (update c p now n)).count m ≤ (sends p).count m + [n].count m := by
      simp only [update, sends]
      by_cases hm : c.merging
      · rw [if_pos hm]
        by_cases hl : p.mergeable.length < c.maxBatch
        · rw [if_pos hl]
          rw [← List.cons_append, List.count_append]
          exact Nat.le_refl _
        · rw [if_neg hl]
          exact Nat.le_add_right _ _
      · rw [if_neg hm]
        simp only [List.count_cons, List.count_nil]
        omega
    omega

/-- **C31 (no duplicates without flush).** In every history without `flush`, a notification is sent at
most as often as it was submitted.  Missing for the full statement: histories with `flush`, see
`C31_flush_refuted`. -/
theorem C31_no_duplicates_partial (esc : Text → Text) (c : Config) (h : List Op) (hf : Op.flush ∉ h)
    (n : Notif) :
    (run esc c {} h).out.count n ≤ (submitted h).count n := by
  suffices hs : (run esc c {} h).out.count n + (waiting (run esc c {} h)).count n ≤
      (submitted h).count n by omega
  induction h using snocInduction with
  | nil => simp [run, submitted, waiting]
  | append_singleton l a ih =>
    have ih := ih (fun hm => hf (List.mem_append.mpr (.inl hm)))
    have hsub := submitted_append l [a]
    rw [hsub, List.count_append]
    have hr : run esc c {} (l ++ [a]) = step esc c (run esc c {} l) a := by
      rw [run, List.foldl_append]; rfl
    rw [hr]
    cases a with
    | submit now m =>
      have h1 := submit_count_le esc c _ (wf_run esc c l) now m n
      have h2 : (step esc c (run esc c {} l) (.submit now m)).out = (run esc c {} l).out := by
        simp only [step, submit]; split <;> rfl
      rw [h2]
      simp only [step, submitted] at h1 ⊢
      omega
    | tick now =>
      have h1 := tick_count c now (run esc c {} l).pending n
      simp only [step, tick, waiting, submitted, List.count_append, List.count_nil] at ih ⊢
      omega
    | flush => exact absurd (List.mem_append.mpr (.inr (List.mem_singleton.mpr rfl))) hf

/-- Within the batch bound: no key ever has more than `max_batch_size` merged notifications.
(Specification: no counterpart in the code.) -/
def WithinBatch (esc : Text → Text) (c : Config) (h : List Op) : Prop :=
  ∀ pre post, h = pre ++ post → ∀ k p, AMap.get (run esc c {} pre).pending k = some p →
    p.count ≤ c.maxBatch + 1

theorem mergeable_count (esc : Text → Text) (c : Config) (hm : c.merging = true) (h : List Op)
    (k : Text) (p : Pending) (hg : AMap.get (run esc c {} h).pending k = some p) :
    p.mergeable.length + 1 ≤ p.count := by
  induction h using snocInduction generalizing k p with
  | nil => cases hg
  | append_singleton l a ih =>
    have hr : run esc c {} (l ++ [a]) = step esc c (run esc c {} l) a := by
      rw [run, List.foldl_append]; rfl
    rw [hr] at hg
    cases a with
    | submit now n =>
      simp only [step, submit] at hg
      split at hg
      · rename_i q hq
        simp only [AMap.get_insert] at hg
        split at hg
        · have := ih _ _ hq
          simp only [Option.some.injEq] at hg
          subst hg
          simp only [update, hm, if_true]
          split <;> simp <;> omega
        · exact ih _ _ hg
      · simp only [AMap.get_insert] at hg
        split at hg
        · simp only [Option.some.injEq] at hg
          subst hg; simp
        · exact ih _ _ hg
    | tick now =>
      have hmem := AMap.mem_of_get hg
      simp only [step, tick] at hmem
      exact ih _ _ (AMap.get_of_mem (wf_run esc c l) (List.mem_filter.mp hmem).1)
    | flush => exact ih _ _ hg

/-- **C31 (exactly once, merging).** With merging enabled, no `flush`, and no key ever collecting more
than `max_batch_size` merged notifications, every submitted notification is sent or waiting exactly as
often as it was submitted: nothing is lost and nothing duplicated. -/
theorem C31_exactly_once_merging_partial (esc : Text → Text) (c : Config) (hm : c.merging = true)
    (h : List Op) (hf : Op.flush ∉ h) (hb : WithinBatch esc c h) (n : Notif) :
    (run esc c {} h).out.count n + (waiting (run esc c {} h)).count n = (submitted h).count n := by
  induction h using snocInduction with
  | nil => simp [run, submitted, waiting]
  | append_singleton l a ih =>
    have ih := ih (fun hm => hf (List.mem_append.mpr (.inl hm)))
      (fun pre post e => hb pre (post ++ [a]) (by rw [e]; simp))
    have hsub := submitted_append l [a]
    rw [hsub, List.count_append]
    have hr : run esc c {} (l ++ [a]) = step esc c (run esc c {} l) a := by
      rw [run, List.foldl_append]; rfl
    have hbl := hb (l ++ [a]) [] (by simp)
    rw [hr] at hbl
    rw [hr]
    cases a with
    | submit now m =>
      have h2 : (step esc c (run esc c {} l) (.submit now m)).out = (run esc c {} l).out := by
        simp only [step, submit]; split <;> rfl
      rw [h2]
      suffices hw : (waiting (step esc c (run esc c {} l) (.submit now m))).count n =
          (waiting (run esc c {} l)).count n + [m].count n by
        rw [hw]
        simp only [submitted]
        omega
      cases hg : AMap.get (run esc c {} l).pending (key esc m) with
      | none =>
        simp only [step, submit, hg, waiting, AMap.insert, List.flatMap_cons, List.count_append,
          AMap.remove_of_get_none hg, sends]
        omega
      | some p =>
        have hcnt : (update c p now m).count ≤ c.maxBatch + 1 := by
          refine hbl (key esc m) _ ?_
          simp only [step, submit, hg, AMap.get_insert_self]
        have hl : p.mergeable.length < c.maxBatch := by
          have h3 := mergeable_count esc c hm l _ _ hg
          simp only [update, hm, if_true] at hcnt
          split at hcnt
          · assumption
          · simp only at hcnt; omega
        have h1 := flatMap_remove_count (wf_run esc c l) hg n
        simp only [step, submit, hg, waiting, AMap.insert, List.flatMap_cons, List.count_append,
          update, hm, if_true, hl, sends, List.count_cons, List.count_nil] at h1 ⊢
        omega
    | tick now =>
      have h1 := tick_count c now (run esc c {} l).pending n
      simp only [step, tick, waiting, submitted, List.count_append, List.count_nil] at ih ⊢
      omega
    | flush => exact absurd (List.mem_append.mpr (.inr (List.mem_singleton.mpr rfl))) hf

/-- A history of the kind the theorem speaks of: three submissions for two keys and a round. -/
example : run id Config.default {} [.submit 0 (.log 1), .submit 10 (.log 2), .submit 20 .tools, .tick 265] =
    { pending := [(kTools, ⟨.tools, 20, 20, 1, []⟩)], out := [.log 1, .log 2] } := by decide

/-- **C31 (exactly once, no merging).** With merging disabled and no `flush`: the latest notification of
a key is sent or waiting, whatever the timer does. -/
theorem C31_latest_kept_no_merging_partial (esc : Text → Text) (c : Config) (hm : c.merging = false)
    (pre post : List Op) (now : Nat) (n : Notif)
    (hlast : ∀ t m, Op.submit t m ∈ post → key esc m ≠ key esc n) :
    n ∈ (run esc c {} (pre ++ .submit now n :: post)).out ∨
    ∃ p, AMap.get (run esc c {} (pre ++ .submit now n :: post)).pending (key esc n) = some p ∧
      p.notif = n := by
  induction post using snocInduction with
  | nil =>
    rw [run, List.foldl_append]
    refine .inr ?_
    simp only [List.foldl_cons, List.foldl_nil, step, submit]
    split
    · rename_i p hp
      exact ⟨_, AMap.get_insert_self _ _ _, by simp [update, hm]⟩
    · exact ⟨_, AMap.get_insert_self _ _ _, rfl⟩
  | append_singleton l a ih =>
    have ih := ih (fun t m hx => hlast t m (List.mem_append.mpr (.inl hx)))
    have hr : run esc c {} (pre ++ .submit now n :: (l ++ [a])) =
        step esc c (run esc c {} (pre ++ .submit now n :: l)) a := by
      rw [show pre ++ Op.submit now n :: (l ++ [a]) = (pre ++ Op.submit now n :: l) ++ [a] by simp, run,
        List.foldl_append]; rfl
    rw [hr]
    generalize hs : run esc c {} (pre ++ .submit now n :: l) = s at ih
    cases a with
    | submit t m =>
      have hne := hlast t m (List.mem_append.mpr (.inr (List.mem_singleton.mpr rfl)))
      have hout : (step esc c s (.submit t m)).out = s.out := by
        simp only [step, submit]; split <;> rfl
      have hget : AMap.get (step esc c s (.submit t m)).pending (key esc n) =
          AMap.get s.pending (key esc n) := by
        simp only [step, submit]; split <;> exact AMap.get_insert_ne _ _ (Ne.symm hne)
      rw [hout, hget]; exact ih
    | tick t =>
      rcases ih with ih | ⟨p, hp, hn⟩
      · exact .inl (List.mem_append.mpr (.inl ih))
      · have hmem := AMap.mem_of_get hp
        have hwf : AMap.WF s.pending := by rw [← hs]; exact wf_run esc c _
        by_cases hd : due c t (key esc n) p = true
        · refine .inl (List.mem_append.mpr (.inr (List.mem_flatMap.mpr
            ⟨(key esc n, p), List.mem_filter.mpr ⟨hmem, hd⟩, ?_⟩)))
          simp [sends, hn]
        · refine .inr ⟨p, ?_, hn⟩
          have hwf' : AMap.WF (step esc c s (.tick t)).pending := wf_step esc c s _ hwf
          refine AMap.get_of_mem hwf' (List.mem_filter.mpr ⟨hmem, ?_⟩)
          simpa using hd
    | flush =>
      rcases ih with ih | ih
      · exact .inl (List.mem_append.mpr (.inl ih))
      · exact .inr ih

example : run id { Config.default with merging := false } {}
    [.submit 0 (.log 1), .submit 10 (.log 2), .tick 260] = { out := [.log 2] } := by decide

/-! ### Flush and overflow -/

/-- **C31 (flush duplicates).** `flush` sends everything that is waiting and keeps it waiting: a later
round that finds an entry due sends it again.  For every state. -/
theorem C31_flush_sends_twice (c : Config) (s : State) (now : Nat)
    (hdue : ∀ e ∈ s.pending, due c now e.1 e.2 = true) (n : Notif) :
    (tick c (flush s) now).out.count n = s.out.count n + 2 * (waiting s).count n := by
  have h1 : s.pending.filter (fun e => due c now e.1 e.2) = s.pending := by
    rw [List.filter_eq_self]; exact hdue
  simp only [tick, flush, waiting, h1, List.count_append]
  omega

example : due Config.default 300 kTools ⟨.tools, 0, 0, 1, []⟩ = true := by decide

/-- **C31 refuted (flush).** One submission, one flush, one round: two copies are sent. -/
theorem C31_flush_refuted : ¬ ∀ (h : List Op) (n : Notif),
    (run id Config.default {} h).out.count n ≤ (submitted h).count n := by
  intro h
  have := h [.submit 0 .tools, .flush, .tick 250] .tools
  revert this
  decide

/-- **C31 refuted (overflow).** With merging, a notification beyond `max_batch_size` is dropped although
nothing supersedes it: the latest state of a progress is lost. -/
theorem C31_overflow_refuted : ¬ ∀ (c : Config) (pre post : List Op) (now : Nat) (n : Notif),
    (∀ t m, Op.submit t m ∈ post → key id m ≠ key id n) →
    n ∈ (run id c {} (pre ++ .submit now n :: post)).out ∨
    n ∈ waiting (run id c {} (pre ++ .submit now n :: post)) := by
  intro h
  have := h { Config.default with maxBatch := 1 }
    [.submit 0 (.progress (.num 1) 10), .submit 1 (.progress (.num 1) 50)] [.tick 300] 2
    (.progress (.num 1) 100) (by simp)
  revert this
  decide +kernel

/-! ### C86: bounded delay -/

/-- All times in the history are at most `t`. (Specification: no counterpart in the code.) -/
def Before (t : Nat) : List Op → Prop
  | [] => True
  | .submit now _ :: h => now ≤ t ∧ Before t h
  | _ :: h => Before t h

theorem before_append {t : Nat} {l : List Op} {a : Op} (h : Before t (l ++ [a])) :
    Before t l ∧ Before t [a] := by
  induction l with
  | nil => exact ⟨trivial, h⟩
  | cons x l ih =>
    cases x with
    | submit now n => exact ⟨⟨h.1, (ih h.2).1⟩, (ih h.2).2⟩
    | tick now => exact ih h
    | flush => exact ih h

/-- Entries are stored under the key of their notification, and were first seen in the past. -/
theorem entry_facts (esc : Text → Text) (c : Config) (h : List Op) (t : Nat) (hb : Before t h) (k : Text)
    (p : Pending) (hg : AMap.get (run esc c {} h).pending k = some p) :
    key esc p.notif = k ∧ p.first ≤ t ∧ p.last ≤ t := by
  induction h using snocInduction generalizing k p with
  | nil => cases hg
  | append_singleton l a ih =>
    obtain ⟨hb1, hb2⟩ := before_append hb
    have ih := fun k p => ih hb1 k p
    have hr : run esc c {} (l ++ [a]) = step esc c (run esc c {} l) a := by
      rw [run, List.foldl_append]; rfl
    rw [hr] at hg
    cases a with
    | submit now n =>
      simp only [step, submit] at hg
      split at hg
      · rename_i q hq
        simp only [AMap.get_insert] at hg
        split at hg
        · rename_i hk
          obtain ⟨h1, h2, h3⟩ := ih _ _ hq
          simp only [Option.some.injEq] at hg
          subst hg
          refine ⟨?_, ?_, ?_⟩
          · simp only [update]
            split
            · split <;> exact h1.trans hk.symm
            · exact hk.symm
          · simp only [update]
            split
            · split <;> exact h2
            · exact h2
          · simp only [update]
            split
            · split <;> exact hb2.1
            · exact hb2.1
        · exact ih _ _ hg
      · simp only [AMap.get_insert] at hg
        split at hg
        · rename_i hk
          simp only [Option.some.injEq] at hg
          subst hg
          exact ⟨hk.symm, hb2.1, hb2.1⟩
        · exact ih _ _ hg
    | tick now =>
      have hmem := AMap.mem_of_get hg
      simp only [step, tick] at hmem
      exact ih _ _ (AMap.get_of_mem (wf_run esc c l) (List.mem_filter.mp hmem).1)
    | flush => exact ih _ _ hg

theorem run_snoc (esc : Text → Text) (c : Config) (l : List Op) (a : Op) :
    run esc c {} (l ++ [a]) = step esc c (run esc c {} l) a := by
  rw [run, List.foldl_append]; rfl

/-- After a submission at time `t`, either the key has been sent again or its entry was first seen at `t`
at the latest. -/
theorem pending_since (esc : Text → Text) (c : Config) (pre post : List Op) (t : Nat) (n : Notif)
    (hb : Before t pre) :
    ∃ new, (run esc c {} (pre ++ .submit t n :: post)).out = (run esc c {} pre).out ++ new ∧
      ((∃ m ∈ new, key esc m = key esc n) ∨
       ∃ p, AMap.get (run esc c {} (pre ++ .submit t n :: post)).pending (key esc n) = some p ∧
        p.first ≤ t ∧ key esc p.notif = key esc n) := by
  induction post using snocInduction with
  | nil =>
    refine ⟨[], ?_, .inr ?_⟩
    · rw [run_snoc]; simp only [step, submit]; split <;> simp
    · rw [run_snoc]
      simp only [step, submit]
      split
      · rename_i p hp
        obtain ⟨h1, h2, _⟩ := entry_facts esc c pre t hb _ _ hp
        refine ⟨_, AMap.get_insert_self _ _ _, ?_, ?_⟩
        · simp only [update]
          split
          · split <;> exact h2
          · exact h2
        · simp only [update]
          split
          · split <;> exact h1
          · rfl
      · exact ⟨_, AMap.get_insert_self _ _ _, Nat.le_refl _, rfl⟩
  | append_singleton l a ih =>
    obtain ⟨new, hout, ih⟩ := ih
    rw [show pre ++ Op.submit t n :: (l ++ [a]) = (pre ++ Op.submit t n :: l) ++ [a] by simp, run_snoc]
    have hwf := wf_run esc c (pre ++ .submit t n :: l)
    generalize hs : run esc c {} (pre ++ .submit t n :: l) = s at ih hout hwf
    cases a with
    | submit t' m =>
      refine ⟨new, ?_, ?_⟩
      · simp only [step, submit]; split <;> exact hout
      · rcases ih with ih | ⟨p, hp, h1, h2⟩
        · exact .inl ih
        · refine .inr ?_
          simp only [step, submit]
          by_cases hk : key esc n = key esc m
          · rw [← hk, hp]
            refine ⟨_, AMap.get_insert_self _ _ _, ?_, ?_⟩
            · simp only [update]
              split
              · split <;> exact h1
              · exact h1
            · simp only [update]
              split
              · split <;> exact h2
              · exact hk.symm
          · split
            · exact ⟨p, by simp only [AMap.get_insert_ne _ _ hk]; exact hp, h1, h2⟩
            · exact ⟨p, by simp only [AMap.get_insert_ne _ _ hk]; exact hp, h1, h2⟩
    | tick t' =>
      refine ⟨new ++ (s.pending.filter (fun e => due c t' e.1 e.2)).flatMap (fun e => sends e.2), ?_, ?_⟩
      · simp only [step, tick, hout, List.append_assoc]
      · rcases ih with ⟨m, hm, h1⟩ | ⟨p, hp, h1, h2⟩
        · exact .inl ⟨m, List.mem_append.mpr (.inl hm), h1⟩
        · have hmem := AMap.mem_of_get hp
          by_cases hd : due c t' (key esc n) p = true
          · refine .inl ⟨p.notif, List.mem_append.mpr (.inr (List.mem_flatMap.mpr
              ⟨(key esc n, p), List.mem_filter.mpr ⟨hmem, hd⟩, by simp [sends]⟩)), h2⟩
          · refine .inr ⟨p, ?_, h1, h2⟩
            refine AMap.get_of_mem (wf_step esc c s (.tick t') hwf) (List.mem_filter.mpr ⟨hmem, ?_⟩)
            simpa using hd
    | flush =>
      refine ⟨new ++ s.pending.flatMap (fun e => sends e.2), ?_, ?_⟩
      · simp only [step, flush, hout, List.append_assoc]
      · rcases ih with ⟨m, hm, h1⟩ | ih
        · exact .inl ⟨m, List.mem_append.mpr (.inl hm), h1⟩
        · exact .inr ih

/-- **C86 (no starvation).** After a submission at time `t`, a round of the flush task at `t` plus
`max_wait_time` or later has sent a notification of its key after that submission, whatever was
submitted, flushed or ticked in between. -/
theorem C86_max_wait (esc : Text → Text) (c : Config) (pre post : List Op) (t now : Nat) (n : Notif)
    (hb : Before t pre) (hnow : t + c.maxWait ≤ now) :
    ∃ new, (run esc c {} (pre ++ .submit t n :: (post ++ [.tick now]))).out =
        (run esc c {} pre).out ++ new ∧
      ∃ m ∈ new, key esc m = key esc n := by
  obtain ⟨new, hout, h⟩ := pending_since esc c pre post t n hb
  rw [show pre ++ Op.submit t n :: (post ++ [.tick now]) = (pre ++ Op.submit t n :: post) ++ [.tick now]
    by simp, run_snoc]
  refine ⟨new ++ ((run esc c {} (pre ++ .submit t n :: post)).pending.filter
    (fun e => due c now e.1 e.2)).flatMap (fun e => sends e.2), ?_, ?_⟩
  · simp only [step, tick, hout, List.append_assoc]
  · rcases h with ⟨m, hm, h1⟩ | ⟨p, hp, h1, h2⟩
    · exact ⟨m, List.mem_append.mpr (.inl hm), h1⟩
    · refine ⟨p.notif, List.mem_append.mpr (.inr (List.mem_flatMap.mpr
        ⟨(key esc n, p), List.mem_filter.mpr ⟨AMap.mem_of_get hp, ?_⟩, by simp [sends]⟩)), h2⟩
      simp only [due, Bool.or_eq_true, decide_eq_true_eq]
      exact .inr (by omega)

example : Before 5 [.submit 3 .tools, .tick 4] := ⟨by omega, trivial⟩

/-- The entry of a key that is not submitted again keeps its time. -/
theorem pending_last (esc : Text → Text) (c : Config) (pre post : List Op) (t : Nat) (n : Notif)
    (hlast : ∀ t' m, Op.submit t' m ∈ post → key esc m ≠ key esc n) :
    AMap.get (run esc c {} (pre ++ .submit t n :: post)).pending (key esc n) = none ∨
    ∃ p, AMap.get (run esc c {} (pre ++ .submit t n :: post)).pending (key esc n) = some p ∧
      p.last = t := by
  induction post using snocInduction with
  | nil =>
    refine .inr ?_
    rw [run_snoc]
    simp only [step, submit]
    split
    · refine ⟨_, AMap.get_insert_self _ _ _, ?_⟩
      simp only [update]
      split
      · split <;> rfl
      · rfl
    · exact ⟨_, AMap.get_insert_self _ _ _, rfl⟩
  | append_singleton l a ih =>
    have ih := ih (fun t m hx => hlast t m (List.mem_append.mpr (.inl hx)))
    rw [show pre ++ Op.submit t n :: (l ++ [a]) = (pre ++ Op.submit t n :: l) ++ [a] by simp, run_snoc]
    have hwf := wf_run esc c (pre ++ .submit t n :: l)
    generalize hs : run esc c {} (pre ++ .submit t n :: l) = s at ih hwf
    cases a with
    | submit t' m =>
      have hne := hlast t' m (List.mem_append.mpr (.inr (List.mem_singleton.mpr rfl)))
      have hget : AMap.get (step esc c s (.submit t' m)).pending (key esc n) =
          AMap.get s.pending (key esc n) := by
        simp only [step, submit]; split <;> exact AMap.get_insert_ne _ _ (Ne.symm hne)
      rw [hget]; exact ih
    | tick t' =>
      cases hg : AMap.get (step esc c s (.tick t')).pending (key esc n) with
      | none => exact .inl rfl
      | some q =>
        have hq := AMap.get_of_mem hwf (List.mem_filter.mp (AMap.mem_of_get hg)).1
        rcases ih with ih | ⟨p, hp, h1⟩
        · rw [ih] at hq; cases hq
        · rw [hp] at hq
          simp only [Option.some.injEq] at hq
          exact .inr ⟨q, rfl, hq ▸ h1⟩
    | flush => exact ih

/-- **C86 (interval).** A round at least the interval of the key after its last submission leaves
nothing of that key waiting. -/
theorem C86_interval (esc : Text → Text) (c : Config) (pre post : List Op) (t now : Nat) (n : Notif)
    (hlast : ∀ t' m, Op.submit t' m ∈ post → key esc m ≠ key esc n)
    (hnow : t + interval c (key esc n) ≤ now) :
    AMap.get (run esc c {} (pre ++ .submit t n :: (post ++ [.tick now]))).pending (key esc n) = none := by
  rw [show pre ++ Op.submit t n :: (post ++ [.tick now]) = (pre ++ Op.submit t n :: post) ++ [.tick now]
    by simp, run_snoc]
  have h := pending_last esc c pre post t n hlast
  have hwf := wf_run esc c (pre ++ .submit t n :: post)
  generalize run esc c {} (pre ++ .submit t n :: post) = s at h hwf
  cases hg : AMap.get (step esc c s (.tick now)).pending (key esc n) with
  | none => rfl
  | some q =>
    have hm := List.mem_filter.mp (AMap.mem_of_get hg)
    have hq := AMap.get_of_mem hwf hm.1
    rcases h with h | ⟨p, hp, h1⟩
    · rw [h] at hq; cases hq
    · rw [hp] at hq
      simp only [Option.some.injEq] at hq
      subst hq
      have hd : due c now (key esc n) p = true := by
        simp only [due, Bool.or_eq_true, decide_eq_true_eq]
        exact .inl (by omega)
      have := hm.2
      simp only [hd] at this
      cases this

example : run id Config.default {} [.submit 5 .tools, .tick 255] = { out := [.tools] } := by decide

/-! ### C84: configured intervals -/

/-- **C84 refuted.** Under the default configuration none of the configured per-type intervals is ever
used: every notification gets the default interval, because the names in the table are not the keys. -/
theorem C84_refuted (esc : Text → Text) (n : Notif) : interval Config.default (key esc n) = 250 := by
  have h1 : ∀ k : Text, k ≠ nResources → k ≠ nProgress → k ≠ nLog → interval Config.default k = 250 := by
    intro k a b d
    simp only [interval, Config.default, AMap.get, if_neg (Ne.symm a), if_neg (Ne.symm b),
      if_neg (Ne.symm d)]
    rfl
  have hm : ∀ {x y : Text}, mark x ≠ mark y → x ≠ y := fun h e => h (e ▸ rfl)
  cases n with
  | progress t m =>
    apply h1
    · exact hm (by simp only [key]; rw [mark_progress]; decide)
    · exact hm (by simp only [key]; rw [mark_progress]; decide)
    · exact hm (by simp only [key]; rw [mark_progress]; decide)
  | updated u =>
    apply h1
    · exact hm (by simp only [key]; rw [mark_updated]; decide)
    · exact hm (by simp only [key]; rw [mark_updated]; decide)
    · exact hm (by simp only [key]; rw [mark_updated]; decide)
  | tools => apply h1 <;> simp only [key] <;> decide
  | prompts => apply h1 <;> simp only [key] <;> decide
  | resources => apply h1 <;> simp only [key] <;> decide
  | roots => apply h1 <;> simp only [key] <;> decide
  | log m => apply h1 <;> simp only [key] <;> decide

/-- The name under which an interval must be configured to apply to a notification.  `esc` escapes as `{:?}`.
(Specification: no counterpart in the code.) -/
def intervalName (esc : Text → Text) : Notif → Text
  | .progress (.str s) _ => "progress:String(\"".toList ++ (esc s ++ "\")".toList)
  | .progress (.num i) _ => "progress:Number(".toList ++ (Decimal.showInt i ++ ")".toList)
  | .updated uri => "resource_updated:".toList ++ uri
  | .resources => "resource_list_changed".toList
  | .tools => "tool_list_changed".toList
  | .prompts => "prompt_list_changed".toList
  | .roots | .log _ => "unknown".toList

theorem key_str : "progress:String(\"".toList = kProgress ++ kStr := by decide
theorem key_num : "progress:Number(".toList = kProgress ++ kNum := by decide

theorem intervalName_eq (esc : Text → Text) (n : Notif) : intervalName esc n = key esc n := by
  cases n with
  | progress t b =>
    cases t with
    | str s =>
      unfold intervalName key debugToken
      dsimp only
      rw [key_str, List.append_assoc]
      rfl
    | num i =>
      unfold intervalName key debugToken
      dsimp only
      rw [key_num, List.append_assoc]
      rfl
  | _ => rfl

/-- **C84 (what holds).** An interval configured under the internal key of a notification is respected:
with `iv` configured for the key, no round before `t + iv` and before `t + max_wait_time` sends it.
Missing for the full statement: intervals configured under the documented type names. -/
theorem C84_not_before_interval_partial (esc : Text → Text) (c : Config) (n : Notif) (iv : Nat)
    (hc : AMap.get c.typeIntervals (intervalName esc n) = some iv) (pre post : List Op) (t : Nat)
    (hfresh : AMap.get (run esc c {} pre).pending (key esc n) = none)
    (hpost : ∀ op ∈ post, ∃ now, op = .tick now ∧ t ≤ now ∧ now < t + iv ∧ now < t + c.maxWait) :
    AMap.get (run esc c {} (pre ++ .submit t n :: post)).pending (key esc n) =
      some ⟨n, t, t, 1, []⟩ := by
  rw [intervalName_eq] at hc
  induction post using snocInduction with
  | nil =>
    rw [run_snoc]
    simp only [step, submit, hfresh, AMap.get_insert_self]
  | append_singleton l a ih =>
    have ih := ih (fun op ho => hpost op (List.mem_append.mpr (.inl ho)))
    obtain ⟨now, rfl, h0, h1, h2⟩ := hpost a (List.mem_append.mpr (.inr (List.mem_singleton.mpr rfl)))
    rw [show pre ++ Op.submit t n :: (l ++ [.tick now]) = (pre ++ Op.submit t n :: l) ++ [.tick now]
      by simp, run_snoc]
    have hwf := wf_run esc c (pre ++ .submit t n :: l)
    refine AMap.get_of_mem (wf_step esc c _ (.tick now) hwf)
      (List.mem_filter.mpr ⟨AMap.mem_of_get ih, ?_⟩)
    simp only [due, interval, hc, Option.getD_some, Bool.not_eq_true', Bool.or_eq_false_iff,
      decide_eq_false_iff_not]
    omega

example : AMap.get ({ Config.default with typeIntervals := [(kTools, 500)] } : Config).typeIntervals
    (intervalName id .tools) = some 500 := by decide

/-! ### C139: statistics -/

/-- The times of the submissions for a key. (Specification: no counterpart in the code.) -/
def times (esc : Text → Text) (k : Text) : List Op → List Nat
  | [] => []
  | .submit t n :: h => if key esc n = k then t :: times esc k h else times esc k h
  | _ :: h => times esc k h

theorem times_append (esc : Text → Text) (k : Text) (a b : List Op) :
    times esc k (a ++ b) = times esc k a ++ times esc k b := by
  induction a with
  | nil => rfl
  | cons x a ih =>
    cases x with
    | submit t n =>
      simp only [List.cons_append, times]
      split <;> simp [ih]
    | tick t => exact ih
    | flush => exact ih

/-- **C139 (entry).** The statistics of a key describe exactly the submissions since the key was last
absent: their number, the time of the first and the time of the last. -/
theorem C139_entry (esc : Text → Text) (c : Config) (h : List Op) (k : Text) (p : Pending)
    (hg : AMap.get (run esc c {} h).pending k = some p) :
    ∃ pre recent, h = pre ++ recent ∧ AMap.get (run esc c {} pre).pending k = none ∧
      (∀ a b, recent = a ++ b → a ≠ [] → AMap.get (run esc c {} (pre ++ a)).pending k ≠ none) ∧
      p.count = (times esc k recent).length ∧ (times esc k recent).head? = some p.first ∧
      (times esc k recent).getLast? = some p.last := by
  induction h using snocInduction generalizing p with
  | nil => cases hg
  | append_singleton l a ih =>
    have hgrow : ∀ pre recent, l = pre ++ recent →
        (∀ a b, recent = a ++ b → a ≠ [] → AMap.get (run esc c {} (pre ++ a)).pending k ≠ none) →
        (∀ x b, recent ++ [a] = x ++ b → x ≠ [] → AMap.get (run esc c {} (pre ++ x)).pending k ≠ none) := by
      intro pre recent hl hall x b e hx
      rcases List.append_eq_append_iff.mp e with ⟨z, hz, hz2⟩ | ⟨z, hz, hz2⟩
      · cases z with
        | nil =>
          simp only [List.append_nil] at hz
          subst hz
          exact hall _ [] (List.append_nil _).symm hx
        | cons y z =>
          simp only [List.cons_append, List.cons.injEq] at hz2
          have : z = [] := by
            have := hz2.2; simp at this; exact this.1
          subst this
          rw [hz, ← hz2.1, ← List.append_assoc, ← hl, hg]
          simp
      · exact hall x z hz hx
    rw [run_snoc] at hg
    have keep : AMap.get (run esc c {} l).pending k = some p → times esc k [a] = [] →
        ∃ pre recent, l ++ [a] = pre ++ recent ∧ AMap.get (run esc c {} pre).pending k = none ∧
        (∀ a b, recent = a ++ b → a ≠ [] → AMap.get (run esc c {} (pre ++ a)).pending k ≠ none) ∧
        p.count = (times esc k recent).length ∧ (times esc k recent).head? = some p.first ∧
        (times esc k recent).getLast? = some p.last := by
      intro hp ht
      obtain ⟨pre, recent, h1, h2, h3, h4, h5, h6⟩ := ih p hp
      refine ⟨pre, recent ++ [a], by rw [h1, List.append_assoc], h2,
        hgrow pre recent h1 h3, ?_, ?_, ?_⟩ <;> rw [times_append, ht, List.append_nil] <;> assumption
    cases a with
    | submit t n =>
      by_cases hk : key esc n = k
      · subst hk
        simp only [step, submit] at hg
        split at hg
        · rename_i q hq
          simp only [AMap.get_insert_self, Option.some.injEq] at hg
          obtain ⟨pre, recent, h1, h2, h3, h4, h5, h6⟩ := ih q hq
          have ht : times esc (key esc n) [.submit t n] = [t] := by simp [times]
          have hu : p.count = q.count + 1 ∧ p.first = q.first ∧ p.last = t := by
            rw [← hg]; simp only [update]
            split
            · split <;> exact ⟨rfl, rfl, rfl⟩
            · exact ⟨rfl, rfl, rfl⟩
          refine ⟨pre, recent ++ [.submit t n], by rw [h1, List.append_assoc], h2,
            hgrow pre recent h1 h3, ?_, ?_, ?_⟩ <;> rw [times_append, ht]
          · simp [hu.1, h4]
          · rw [List.head?_append, h5, hu.2.1]; rfl
          · simp [hu.2.2]
        · rename_i hq
          simp only [AMap.get_insert_self, Option.some.injEq] at hg
          refine ⟨l, [.submit t n], rfl, hq, ?_, ?_, ?_, ?_⟩
          · intro a b e ha
            cases a with
            | nil => exact absurd rfl ha
            | cons y a =>
              simp only [List.cons_append, List.cons.injEq] at e
              have : a = [] := by have := e.2.symm; simp at this; exact this.1
              subst this
              rw [← e.1, run_snoc]
              simp only [step, submit, hq, AMap.get_insert_self]
              simp
          all_goals simp [times, ← hg]
      · apply keep
        · simp only [step, submit] at hg
          split at hg <;> simpa only [AMap.get_insert, if_neg (Ne.symm hk)] using hg
        · simp [times, hk]
    | tick t =>
      apply keep _ rfl
      have hmem := AMap.mem_of_get hg
      simp only [step, tick] at hmem
      exact AMap.get_of_mem (wf_run esc c l) (List.mem_filter.mp hmem).1
    | flush => exact keep hg rfl

example : AMap.get (run id Config.default {}
    [.submit 0 .tools, .tick 300, .submit 310 .tools, .submit 320 .roots, .submit 330 .tools]).pending kTools =
    some ⟨.tools, 310, 330, 2, [.tools]⟩ := by decide

/-- **C139 (statistics).** `stats` counts the keys for which something is waiting, and the submissions
since each of them was last absent; its age is that of the oldest entry. -/
theorem C139_stats (s : State) (now : Nat) :
    (stats s now).1 = (AMap.keys s.pending).length ∧
    (stats s now).2.1 = (s.pending.map (fun e => e.2.count)).sum ∧
    (∀ e ∈ s.pending, now - e.2.first ≤ (stats s now).2.2) ∧
    ((stats s now).2.2 = 0 ∨ ∃ e ∈ s.pending, (stats s now).2.2 = now - e.2.first) := by
  have hmax : ∀ (l : List Nat) (a : Nat), (∀ x ∈ l, x ≤ l.foldl max a) ∧ a ≤ l.foldl max a ∧
      (l.foldl max a = a ∨ l.foldl max a ∈ l) := by
    intro l
    induction l with
    | nil => intro a; simp
    | cons x l ih =>
      intro a
      obtain ⟨h1, h2, h3⟩ := ih (max a x)
      simp only [List.foldl_cons]
      refine ⟨?_, by omega, ?_⟩
      · intro y hy
        rcases List.mem_cons.mp hy with rfl | hy
        · omega
        · exact h1 y hy
      · rcases h3 with h3 | h3
        · by_cases hax : x ≤ a
          · exact .inl (h3.trans (by omega))
          · exact .inr (List.mem_cons.mpr (.inl (h3.trans (by omega))))
        · exact .inr (List.mem_cons.mpr (.inr h3))
  obtain ⟨h1, _, h3⟩ := hmax (s.pending.map (fun e => now - e.2.first)) 0
  refine ⟨by simp [stats, AMap.keys], rfl, ?_, ?_⟩
  · intro e he
    exact h1 _ (List.mem_map.mpr ⟨e, he, rfl⟩)
  · rcases h3 with h3 | h3
    · exact .inl h3
    · obtain ⟨e, he, h⟩ := List.mem_map.mp h3
      exact .inr ⟨e, he, h.symm⟩

example : stats (run id Config.default {} [.submit 0 .tools, .submit 10 .roots, .submit 20 .tools]) 100 =
    (2, 3, 100) := by decide

/-! ### The default configuration -/

theorem count_le_times (esc : Text → Text) (c : Config) (h : List Op) (k : Text) (p : Pending)
    (hg : AMap.get (run esc c {} h).pending k = some p) : p.count ≤ (times esc k h).length := by
  obtain ⟨pre, recent, rfl, _, _, h4, _, _⟩ := C139_entry esc c h k p hg
  rw [h4, times_append]
  simp

/-- **C31 (default configuration).** Without `flush`, and with no more than 101 submissions for any key,
every notification is sent or waiting exactly as often as it was submitted. -/
theorem C31_default_partial (esc : Text → Text) (h : List Op) (hf : Op.flush ∉ h)
    (hb : ∀ k, (times esc k h).length ≤ 101) (n : Notif) :
    (run esc Config.default {} h).out.count n + (waiting (run esc Config.default {} h)).count n =
      (submitted h).count n := by
  apply C31_exactly_once_merging_partial esc Config.default rfl h hf
  intro pre post e k p hg
  have h1 := count_le_times esc Config.default pre k p hg
  have h2 := hb k
  rw [e, times_append, List.length_append] at h2
  show p.count ≤ 100 + 1
  omega

/-- **C31 (default configuration, bound).** With 102 submissions for a key the last is lost. -/
theorem C31_default_bound (esc : Text → Text) : ∃ h : List Op, Op.flush ∉ h ∧
    (∀ k, (times esc k h).length ≤ 102) ∧
    (run esc Config.default {} h).out.count .tools + (waiting (run esc Config.default {} h)).count .tools <
      (submitted h).count .tools := by
  have hk : key esc .tools = kTools := rfl
  have ht : ∀ k m, (times esc k (List.replicate m (Op.submit 0 .tools))).length ≤ m := by
    intro k m
    induction m with
    | zero => simp [times]
    | succ m ih =>
      rw [List.replicate_succ]
      simp only [times]
      split
      · rw [List.length_cons]; omega
      · omega
  have hs : ∀ m, submitted (List.replicate m (Op.submit 0 .tools)) = List.replicate m .tools := by
    intro m
    induction m with
    | zero => rfl
    | succ m ih => rw [List.replicate_succ, List.replicate_succ]; simp only [submitted, ih]
  have hr : ∀ m, run esc Config.default {} (List.replicate (m + 1) (Op.submit 0 .tools)) =
      { pending := [(kTools, ⟨.tools, 0, 0, m + 1, List.replicate (min m 100) .tools⟩)] } := by
    intro m
    induction m with
    | zero => rfl
    | succ m ih =>
      rw [List.replicate_succ', run_snoc, ih]
      have hg : ∀ v : Pending, AMap.get [(kTools, v)] kTools = some v := by
        intro v; simp [AMap.get]
      have hi : ∀ v w : Pending, AMap.insert [(kTools, v)] kTools w = [(kTools, w)] := by
        intro v w; simp [AMap.insert, AMap.remove]
      simp only [step, submit, hk, hg, hi, update]
      rw [if_pos (show Config.default.merging = true from rfl)]
      simp only [List.length_replicate]
      by_cases hm : m < 100
      · rw [if_pos (show min m 100 < Config.default.maxBatch by simp only [Config.default]; omega)]
        rw [show min (m + 1) 100 = min m 100 + 1 by omega, List.replicate_succ']
      · rw [if_neg (show ¬ min m 100 < Config.default.maxBatch by simp only [Config.default]; omega)]
        rw [show min (m + 1) 100 = min m 100 by omega]
  refine ⟨List.replicate 102 (.submit 0 .tools), ?_, fun k => ht k 102, ?_⟩
  · intro hm; cases List.eq_of_mem_replicate hm
  · rw [hr 101, hs]
    simp [waiting, sends]

/-- **C86 (default configuration).** Something of the key has been sent by the first round 5 seconds
after a submission, whatever happened in between. -/
theorem C86_default (esc : Text → Text) (pre post : List Op) (t now : Nat) (n : Notif)
    (hb : Before t pre) (hnow : t + 5000 ≤ now) :
    ∃ new, (run esc Config.default {} (pre ++ .submit t n :: (post ++ [.tick now]))).out =
        (run esc Config.default {} pre).out ++ new ∧
      ∃ m ∈ new, key esc m = key esc n := C86_max_wait esc Config.default pre post t now n hb hnow

example : Before 5 [.submit 3 .tools, .tick 4] ∧ 5 + 5000 ≤ 5005 ∧
    .roots ∈ (run id Config.default {} ([.submit 3 .tools, .tick 4] ++ .submit 5 .roots :: ([.submit 5000 .roots] ++
      [.tick 5005]))).out := ⟨⟨by omega, trivial⟩, by omega, by decide +kernel⟩

/-- **C84 (default configuration).** The configured intervals: resource list changes, progress, log. -/
theorem C84_configured : AMap.get Config.default.typeIntervals "resources/list_changed".toList = some 500 ∧
    AMap.get Config.default.typeIntervals "progress".toList = some 100 ∧
    AMap.get Config.default.typeIntervals "log".toList = some 50 ∧ Config.default.defaultInterval = 250 ∧
    Config.default.maxBatch = 100 ∧ Config.default.merging = true ∧ Config.default.maxWait = 5000 := by
  decide

end Verif.NotifDebounce
