import Verif.Watcher.Model
import Verif.Common.ListExtra

/-
The resource watcher: C55.
-/

namespace Verif.Watcher

open Verif

variable {P G R U : Type} [DecidableEq P] [DecidableEq U]

theorem run_append (cfg : Config P G R U) (s : State P U) (a b : List (Op P U)) :
    run cfg s (a ++ b) = (run cfg s a).bind (fun x => (run cfg x.1 b).map (fun y => (y.1, x.2 ++ y.2))) := by
  induction a generalizing s with
  | nil =>
    simp only [List.nil_append, run, Option.bind_some]
    cases run cfg s b with
    | none => rfl
    | some y => simp
  | cons op r ih =>
    simp only [List.cons_append, run]
    cases step cfg s op with
    | none => rfl
    | some x =>
      rcases x with ⟨s1, o⟩
      simp only [ih]
      cases run cfg s1 r with
      | none => rfl
      | some y =>
        rcases y with ⟨s2, o2⟩
        simp only [Option.bind_some]
        cases run cfg s2 b with
        | none => rfl
        | some z => simp

theorem run_snoc {cfg : Config P G R U} {l : List (Op P U)} {op : Op P U} {s : State P U} {tr : List (Out P U)}
    (h : run cfg init (l ++ [op]) = some (s, tr)) :
    ∃ s1 tr1 o, run cfg init l = some (s1, tr1) ∧ step cfg s1 op = some (s, o) ∧ tr = tr1 ++ o := by
  rw [run_append] at h
  cases h1 : run cfg init l with
  | none => rw [h1] at h; cases h
  | some x =>
    rcases x with ⟨s1, tr1⟩
    rw [h1] at h
    simp only [Option.bind_some, run] at h
    cases h2 : step cfg s1 op with
    | none => rw [h2] at h; cases h
    | some y =>
      rcases y with ⟨s2, o⟩
      rw [h2] at h
      simp only [List.append_nil, Option.map_some, Option.some.injEq, Prod.mk.injEq] at h
      obtain ⟨rfl, rfl⟩ := h
      exact ⟨s1, tr1, o, rfl, h2, rfl⟩

theorem run_snoc_intro {cfg : Config P G R U} {l : List (Op P U)} {op : Op P U} {s s1 : State P U} {tr1 o : List (Out P U)}
    (h1 : run cfg init l = some (s1, tr1)) (h2 : step cfg s1 op = some (s, o)) :
    run cfg init (l ++ [op]) = some (s, tr1 ++ o) := by
  rw [run_append, h1]
  simp [run, h2]

/-! ### Specification: the changes of one path not yet reported -/

/-- The changes of `p` seen by the processor and not yet found due, and those that wait in the event channel.
(Specification: no counterpart in the code.) -/
def freshStep (p : P) (a : List (Ev P) × List (Ev P)) : Out P U → List (Ev P) × List (Ev P)
  | .arrived e => if e.path = p then (a.1, a.2 ++ [e]) else a
  | .drained => (a.1 ++ a.2, [])
  | .round _ due => if p ∈ due then ([], a.2) else a
  | .notified _ => a

/-- (Specification: no counterpart in the code.) -/
def fresh (p : P) (tr : List (Out P U)) : List (Ev P) × List (Ev P) := tr.foldl (freshStep p) ([], [])

/-- The times at which the forwarder looked at the clock. (Specification: no counterpart in the code.) -/
def stamps (l : List (Op P U)) : List Nat := l.filterMap fun
  | .stamp t => some t
  | _ => none

/-- All events that arrived in the event channel. (Specification: no counterpart in the code.) -/
def arrivals (tr : List (Out P U)) : List (Ev P) := tr.filterMap fun
  | .arrived e => some e
  | _ => none

theorem fresh_append (p : P) (a b : List (Out P U)) : fresh p (a ++ b) = b.foldl (freshStep p) (fresh p a) :=
  List.foldl_append

theorem stamps_append (a b : List (Op P U)) : stamps (a ++ b) = stamps a ++ stamps b := List.filterMap_append
theorem arrivals_append (a b : List (Out P U)) : arrivals (a ++ b) = arrivals a ++ arrivals b := List.filterMap_append

theorem fresh_sublist (p : P) (tr : List (Out P U)) : ((fresh p tr).1 ++ (fresh p tr).2).Sublist (arrivals tr) := by
  induction tr using snocInduction with
  | nil => exact List.nil_sublist _
  | append_singleton tr o ih =>
    rw [fresh_append, arrivals_append]
    cases o with
    | arrived e =>
      simp only [List.foldl_cons, List.foldl_nil, freshStep, arrivals, List.filterMap_cons_some, List.filterMap_nil]
      split
      · rw [← List.append_assoc]; exact ih.append (List.Sublist.refl _)
      · exact ih.trans (List.sublist_append_left _ _)
    | drained => simpa [freshStep, arrivals] using ih
    | round now due =>
      simp only [List.foldl_cons, List.foldl_nil, freshStep, arrivals, List.filterMap_cons_none, List.filterMap_nil,
        List.append_nil]
      split
      · exact (List.sublist_append_right _ _).trans ih
      · exact ih
    | notified u => simpa [freshStep, arrivals] using ih

/-! ### Invariant -/

theorem foldl_insert_get (q : List (Ev P)) (m : AMap P (Ev P)) (p : P) :
    AMap.get (q.foldl (fun m e => AMap.insert m e.path e) m) p =
      ((q.filter (fun e => decide (e.path = p))).getLast?).or (AMap.get m p) := by
  induction q using snocInduction with
  | nil => rfl
  | append_singleton q e ih =>
    rw [List.foldl_append, List.filter_append]
    simp only [List.foldl_cons, List.foldl_nil, AMap.get_insert, List.filter_cons, List.filter_nil]
    by_cases h : e.path = p
    · simp [h]
    · have : p ≠ e.path := fun h' => h h'.symm
      simp [h, this, ih]

theorem foldl_insert_wf (q : List (Ev P)) (m : AMap P (Ev P)) (h : AMap.WF m) :
    AMap.WF (q.foldl (fun m e => AMap.insert m e.path e) m) := by
  induction q generalizing m with
  | nil => exact h
  | cons e q ih => exact ih _ (AMap.wf_insert h _ _)

theorem wf_filter {m : AMap P (Ev P)} (h : AMap.WF m) (f : P × Ev P → Bool) : AMap.WF (List.filter f m) := by
  simp only [AMap.WF, AMap.keys] at h ⊢
  exact h.sublist (List.filter_sublist.map _)

/-- (Specification: no counterpart in the code.) -/
structure Inv (cfg : Config P G R U) (l : List (Op P U)) (s : State P U) (tr : List (Out P U)) : Prop where
  wf : AMap.WF s.pending
  queue : ∀ p, s.queue.filter (fun e => decide (e.path = p)) = (fresh p tr).2
  pending : ∀ p, AMap.get s.pending p = (fresh p tr).1.getLast?
  stamps : ((arrivals tr ++ s.held.toList).map Ev.ts).Sublist (stamps l)

theorem filter_get {m : AMap P (Ev P)} (h : AMap.WF m) (f : P × Ev P → Bool) (p : P) :
    AMap.get (List.filter f m) p = match AMap.get m p with
      | some e => if f (p, e) then some e else none
      | none => none := by
  have hw := wf_filter h f
  cases hg : AMap.get m p with
  | none =>
    cases hg2 : AMap.get (List.filter f m) p with
    | none => rfl
    | some e =>
      have := (List.mem_filter.mp (AMap.mem_of_get hg2)).1
      rw [AMap.get_of_mem h this] at hg
      cases hg
  | some e =>
    have hm := AMap.mem_of_get hg
    by_cases hf : f (p, e) = true
    · simp only [hf, if_true]
      exact AMap.get_of_mem hw (List.mem_filter.mpr ⟨hm, hf⟩)
    · simp only [hf]
      cases hg2 : AMap.get (List.filter f m) p with
      | none => rfl
      | some e2 =>
        obtain ⟨h1, h2⟩ := List.mem_filter.mp (AMap.mem_of_get hg2)
        rw [AMap.get_of_mem h h1] at hg
        cases hg
        exact absurd h2 hf

theorem mem_due {m : AMap P (Ev P)} (h : AMap.WF m) (f : P × Ev P → Bool) (p : P) :
    p ∈ (List.filter f m).map Prod.fst ↔ ∃ e, AMap.get m p = some e ∧ f (p, e) = true := by
  simp only [List.mem_map, List.mem_filter]
  constructor
  · rintro ⟨⟨q, e⟩, ⟨h1, h2⟩, rfl⟩
    exact ⟨e, AMap.get_of_mem h h1, h2⟩
  · rintro ⟨e, h1, h2⟩
    exact ⟨(p, e), ⟨AMap.mem_of_get h1, h2⟩, rfl⟩

theorem inv_run (cfg : Config P G R U) (l : List (Op P U)) (s : State P U) (tr : List (Out P U))
    (hr : run cfg init l = some (s, tr)) : Inv cfg l s tr := by
  induction l using snocInduction generalizing s tr with
  | nil =>
    cases hr
    exact ⟨AMap.wf_nil, fun _ => rfl, fun _ => rfl, List.nil_sublist _⟩
  | append_singleton l op ih =>
    obtain ⟨s1, tr1, o, h1, h2, rfl⟩ := run_snoc hr
    have i := ih s1 tr1 h1
    clear ih hr
    -- steps that do not concern events
    have same : ∀ s' : State P U, s'.pending = s1.pending → s'.queue = s1.queue → s'.held = s1.held →
        Inv cfg (l ++ [op]) s' (tr1 ++ []) := by
      intro s' e1 e2 e3
      rw [List.append_nil]
      refine ⟨e1 ▸ i.wf, ?_, ?_, ?_⟩
      · rw [e2]; exact i.queue
      · rw [e1]; exact i.pending
      · rw [e3, stamps_append]; exact i.stamps.trans (List.sublist_append_left _ _)
    cases op with
    | os k ps =>
      simp only [step] at h2
      split at h2 <;> (cases h2; exact same _ rfl rfl rfl)
    | take =>
      simp only [step] at h2
      split at h2
      · cases h2; exact same _ rfl rfl rfl
      · cases h2; exact same _ rfl rfl rfl
      · cases h2
    | stamp now =>
      simp only [step] at h2
      split at h2
      · rename_i hh _
        split at h2
        · cases h2
          refine ⟨i.wf, ?_, ?_, ?_⟩
          · rw [List.append_nil]; exact i.queue
          · rw [List.append_nil]; exact i.pending
          · have := i.stamps
            rw [hh] at this
            simp only [Option.toList_none, List.append_nil] at this
            rw [List.append_nil, stamps_append]
            simpa [stamps] using this.append (List.Sublist.refl [now])
        · cases h2; exact same _ rfl rfl rfl
      · cases h2
    | push =>
      simp only [step] at h2
      split at h2
      · rename_i e hh
        split at h2
        · cases h2
          refine ⟨i.wf, ?_, ?_, ?_⟩
          · intro p
            rw [fresh_append, List.filter_append, i.queue p]
            simp only [List.foldl_cons, List.foldl_nil, freshStep, List.filter_cons, List.filter_nil]
            by_cases h : e.path = p <;> simp [h]
          · intro p
            rw [fresh_append, i.pending p]
            simp only [List.foldl_cons, List.foldl_nil, freshStep]
            split <;> rfl
          · have := i.stamps
            rw [hh] at this
            rw [arrivals_append, stamps_append]
            simpa [arrivals, stamps] using this
        · cases h2
      · cases h2
    | finish =>
      simp only [step] at h2
      split at h2
      · cases h2; exact same _ rfl rfl rfl
      · cases h2
    | drain =>
      simp only [step] at h2
      split at h2
      · cases h2
        refine ⟨foldl_insert_wf _ _ i.wf, ?_, ?_, ?_⟩
        · intro p; rw [fresh_append]; rfl
        · intro p
          rw [foldl_insert_get, i.queue p, i.pending p, fresh_append]
          simp only [List.foldl_cons, List.foldl_nil, freshStep]
          rw [List.getLast?_append]
        · rw [arrivals_append, stamps_append]
          simpa [arrivals, stamps] using i.stamps
      · cases h2
    | tick now =>
      simp only [step] at h2
      split at h2
      · cases h2
        refine ⟨wf_filter i.wf _, ?_, ?_, ?_⟩
        · intro p
          rw [fresh_append]
          simp only [List.foldl_cons, List.foldl_nil, freshStep]
          rw [i.queue p]
          split <;> rfl
        · intro p
          rw [fresh_append, filter_get i.wf]
          simp only [List.foldl_cons, List.foldl_nil, freshStep, mem_due i.wf]
          cases hg : AMap.get s1.pending p with
          | none =>
            rw [i.pending p] at hg
            rw [if_neg (by simp)]
            exact hg.symm
          | some e =>
            by_cases hd : isDue cfg now (p, e) = true
            · simp [hd]
            · rw [i.pending p] at hg
              simp [hd, hg]
        · rw [arrivals_append, stamps_append]
          simpa [arrivals, stamps] using i.stamps
      · cases h2
    | emit =>
      simp only [step] at h2
      split at h2
      · cases h2; exact same _ rfl rfl rfl
      · cases h2
        split
        · have := same { s1 with proc := .idle } rfl rfl rfl
          rw [List.append_nil] at this
          refine ⟨this.wf, ?_, ?_, ?_⟩
          · intro p; rw [fresh_append]; exact this.queue p
          · intro p; rw [fresh_append]; exact this.pending p
          · rw [arrivals_append]; simpa [arrivals] using this.stamps
        · exact same _ rfl rfl rfl
      · cases h2
    | add u =>
      simp only [step] at h2
      split at h2 <;> (cases h2; exact same _ rfl rfl rfl)
    | remove u => cases h2; exact same _ rfl rfl rfl
    | stop => cases h2; exact same _ rfl rfl rfl

/-! ### C55 -/

/-- A path is found due in a round exactly if the processor saw changes of it since it was last due, and all of
them are at least the debounce time old; and it is found due once.  Hypothesis: the clock of the forwarder does
not go backwards. -/
theorem C55_due (cfg : Config P G R U) (l : List (Op P U)) (s s' : State P U) (tr o : List (Out P U)) (now : Nat)
    (hr : run cfg init l = some (s, tr)) (hc : (stamps l).Pairwise (· ≤ ·)) (hs : step cfg s (.tick now) = some (s', o)) :
    ∃ due, o = [.round now due] ∧ s'.proc = .sending due ∧ due.Nodup ∧
      ∀ p, p ∈ due ↔ (fresh p tr).1 ≠ [] ∧ ∀ e ∈ (fresh p tr).1, cfg.debounce ≤ now - e.ts := by
  have i := inv_run cfg l s tr hr
  simp only [step] at hs
  split at hs
  · cases hs
    refine ⟨_, rfl, rfl, wf_filter i.wf _, ?_⟩
    intro p
    have hsort : ((fresh p tr).1.map Ev.ts).Pairwise (· ≤ ·) := by
      refine hc.sublist (List.Sublist.trans ?_ i.stamps)
      refine List.Sublist.map _ ?_
      exact (List.sublist_append_left _ _).trans ((fresh_sublist p tr).trans (List.sublist_append_left _ _))
    rw [mem_due i.wf, i.pending p]
    simp only [isDue, decide_eq_true_eq]
    generalize (fresh p tr).1 = q at hsort
    cases q using snocInduction with
    | nil => simp
    | append_singleton q e _ =>
      simp only [List.getLast?_append, List.getLast?_singleton, Option.some_or, Option.some.injEq, exists_eq_left',
        ne_eq, List.append_eq_nil_iff, List.cons_ne_self, and_false, not_false_eq_true, true_and, List.mem_append,
        List.mem_singleton]
      constructor
      · rintro h e' (h' | rfl)
        · have : e'.ts ≤ e.ts := by
            rw [List.map_append, List.pairwise_append] at hsort
            exact hsort.2.2 _ (List.mem_map_of_mem h') _ (by simp)
          omega
        · exact h
      · intro h; exact h e (.inr rfl)
  · cases hs

/-- The notifications of a trace. (Specification: no counterpart in the code.) -/
def notifications (tr : List (Out P U)) : List U := tr.filterMap fun
  | .notified u => some u
  | _ => none

theorem notifications_append (a b : List (Out P U)) : notifications (a ++ b) = notifications a ++ notifications b :=
  List.filterMap_append

/-- The paths found due in a round are reported in that order, each once if tracked and not otherwise, when the
processor is through with the round and the tracked resources stay the same meanwhile. -/
theorem C55_reported (cfg : Config P G R U) (k : List (Op P U)) (s s' : State P U) (tr : List (Out P U)) (due : List P)
    (hs : s.proc = .sending due) (hr : run cfg s k = some (s', tr)) (hk : ∀ u, .add u ∉ k ∧ .remove u ∉ k)
    (hd : .drain ∉ k) (he : s'.proc = .idle) :
    notifications tr = (due.map cfg.uri).filter (fun u => decide (u ∈ s.resources)) := by
  -- an idle processor stays idle
  have idle : ∀ (k : List (Op P U)) (s s' : State P U) (tr : List (Out P U)), s.proc = .idle → run cfg s k = some (s', tr) →
      .drain ∉ k → notifications tr = [] := by
    intro k
    induction k with
    | nil => intro s s' tr _ hr _; cases hr; rfl
    | cons op k ih =>
      intro s s' tr hi hr hd
      simp only [run] at hr
      split at hr
      · cases hr
      · rename_i s1 o h1
        split at hr
        · cases hr
        · rename_i s2 o2 h2
          cases hr
          rw [notifications_append]
          have hd' : .drain ∉ k := fun h => hd (List.mem_cons_of_mem _ h)
          have : s1.proc = .idle ∧ notifications o = [] := by
            cases op with
            | drain => exact absurd (List.mem_cons_self) hd
            | tick now => simp [step, hi] at h1
            | emit => simp [step, hi] at h1
            | push =>
              simp only [step] at h1
              split at h1
              · split at h1
                · cases h1; exact ⟨hi, rfl⟩
                · cases h1
              · cases h1
            | os k ps => simp only [step] at h1; split at h1 <;> (cases h1; exact ⟨hi, rfl⟩)
            | take =>
              simp only [step] at h1
              split at h1
              · cases h1; exact ⟨hi, rfl⟩
              · cases h1; exact ⟨hi, rfl⟩
              · cases h1
            | stamp now =>
              simp only [step] at h1
              split at h1
              · split at h1 <;> (cases h1; exact ⟨hi, rfl⟩)
              · cases h1
            | finish =>
              simp only [step] at h1
              split at h1
              · cases h1; exact ⟨hi, rfl⟩
              · cases h1
            | add u => simp only [step] at h1; split at h1 <;> (cases h1; exact ⟨hi, rfl⟩)
            | remove u => cases h1; exact ⟨hi, rfl⟩
            | stop => cases h1; exact ⟨hi, rfl⟩
          rw [this.2, ih s1 _ o2 this.1 h2 hd']
          rfl
  induction k generalizing s tr due with
  | nil => cases hr; rw [he] at hs; cases hs
  | cons op k ih =>
    simp only [run] at hr
    split at hr
    · cases hr
    · rename_i s1 o h1
      split at hr
      · cases hr
      · rename_i s2 o2 h2
        cases hr
        rw [notifications_append]
        have hd' : .drain ∉ k := fun h => hd (List.mem_cons_of_mem _ h)
        have hk' : ∀ u, .add u ∉ k ∧ .remove u ∉ k := fun u =>
          ⟨fun h => (hk u).1 (List.mem_cons_of_mem _ h), fun h => (hk u).2 (List.mem_cons_of_mem _ h)⟩
        have go : s1.proc = .sending due → s1.resources = s.resources → notifications o = [] →
            notifications o ++ notifications o2 = (due.map cfg.uri).filter (fun u => decide (u ∈ s.resources)) := by
          intro e1 e2 e3
          rw [e3, ← e2]
          exact ih s1 o2 due e1 h2 hk' hd'
        cases op with
        | drain => exact absurd (List.mem_cons_self) hd
        | tick now => simp [step, hs] at h1
        | emit =>
          simp only [step, hs] at h1
          cases due with
          | nil =>
            cases h1
            rw [idle k _ _ _ rfl h2 hd']
            rfl
          | cons p due =>
            cases h1
            rw [ih _ o2 due rfl h2 hk' hd']
            simp only [List.map_cons, List.filter_cons, decide_eq_true_eq]
            split <;> rfl
        | push =>
          simp only [step] at h1
          split at h1
          · split at h1
            · cases h1; exact go hs rfl rfl
            · cases h1
          · cases h1
        | os k ps => simp only [step] at h1; split at h1 <;> (cases h1; exact go hs rfl rfl)
        | take =>
          simp only [step] at h1
          split at h1
          · cases h1; exact go hs rfl rfl
          · cases h1; exact go hs rfl rfl
          · cases h1
        | stamp now =>
          simp only [step] at h1
          split at h1
          · split at h1 <;> (cases h1; exact go hs rfl rfl)
          · cases h1
        | finish =>
          simp only [step] at h1
          split at h1
          · cases h1; exact go hs rfl rfl
          · cases h1
        | add u => exact absurd (List.mem_cons_self) (hk u).1
        | remove u => exact absurd (List.mem_cons_self) (hk u).2
        | stop => cases h1; exact go hs rfl rfl

/-- The operating system reported a change of the path. (Specification: no counterpart in the code.) -/
def changed (p : P) (l : List (Op P U)) : Prop := ∃ k ps, .os k ps ∈ l ∧ k ≠ .other ∧ p ∈ ps

/-- Every notification is about a resource that is tracked when it is sent, whose path is below the base directory,
matches a pattern and no ignore pattern, and was reported by the operating system. -/
theorem C55_sound (cfg : Config P G R U) (l : List (Op P U)) (s s' : State P U) (tr o : List (Out P U)) (op : Op P U) (u : U)
    (hr : run cfg init l = some (s, tr)) (hs : step cfg s op = some (s', o)) (hu : .notified u ∈ o) :
    u ∈ s.resources ∧ ∃ p r, u = cfg.uri p ∧ cfg.strip p = some r ∧ (∀ g ∈ cfg.ignored, cfg.glob g r = false) ∧
      (∃ g ∈ cfg.patterns, cfg.glob g r = true) ∧ changed p l := by
  have main : ∀ (l : List (Op P U)) (s : State P U) (tr : List (Out P U)), run cfg init l = some (s, tr) →
      (∀ e ∈ s.raw, e.1 ≠ .other → ∀ p ∈ e.2, changed p l) ∧ (∀ p ∈ s.paths, changed p l) ∧
      (∀ e, s.held = some e → cfg.accepts e.path = true ∧ changed e.path l) ∧
      (∀ e ∈ s.queue, cfg.accepts e.path = true ∧ changed e.path l) ∧
      (∀ e ∈ s.pending, cfg.accepts e.1 = true ∧ changed e.1 l) ∧
      (∀ ps, s.proc = .sending ps → ∀ p ∈ ps, cfg.accepts p = true ∧ changed p l) := by
    intro l
    induction l using snocInduction with
    | nil =>
      intro s tr hr
      cases hr
      simp [init]
    | append_singleton l op ih =>
      intro s tr hr
      obtain ⟨s1, tr1, o, h1, h2, rfl⟩ := run_snoc hr
      obtain ⟨a1, a2, a3, a4, a5, a6⟩ := ih s1 tr1 h1
      have mono : ∀ p, changed p l → changed p (l ++ [op]) := by
        rintro p ⟨k, ps, h1, h2, h3⟩
        exact ⟨k, ps, List.mem_append_left _ h1, h2, h3⟩
      have b1 : ∀ e ∈ s1.raw, e.1 ≠ .other → ∀ p ∈ e.2, changed p (l ++ [op]) := fun e h h' p hp => mono p (a1 e h h' p hp)
      have b2 : ∀ p ∈ s1.paths, changed p (l ++ [op]) := fun p h => mono p (a2 p h)
      have b3 : ∀ e, s1.held = some e → cfg.accepts e.path = true ∧ changed e.path (l ++ [op]) := fun e h =>
        ⟨(a3 e h).1, mono _ (a3 e h).2⟩
      have b4 : ∀ e ∈ s1.queue, cfg.accepts e.path = true ∧ changed e.path (l ++ [op]) := fun e h =>
        ⟨(a4 e h).1, mono _ (a4 e h).2⟩
      have b5 : ∀ e ∈ s1.pending, cfg.accepts e.1 = true ∧ changed e.1 (l ++ [op]) := fun e h =>
        ⟨(a5 e h).1, mono _ (a5 e h).2⟩
      have b6 : ∀ ps, s1.proc = .sending ps → ∀ p ∈ ps, cfg.accepts p = true ∧ changed p (l ++ [op]) := fun ps h p hp =>
        ⟨(a6 ps h p hp).1, mono _ (a6 ps h p hp).2⟩
      cases op with
      | os k ps =>
        simp only [step] at h2
        split at h2
        · cases h2
          refine ⟨?_, b2, b3, b4, b5, b6⟩
          intro e he hk p hp
          simp only [List.mem_append, List.mem_singleton] at he
          rcases he with he | rfl
          · exact b1 e he hk p hp
          · exact ⟨k, ps, by simp, hk, hp⟩
        · cases h2; exact ⟨b1, b2, b3, b4, b5, b6⟩
      | take =>
        simp only [step] at h2
        split at h2
        · rename_i hraw
          cases h2
          exact ⟨fun e he => b1 e (by rw [hraw]; exact List.mem_cons_of_mem _ he), b2, b3, b4, b5, b6⟩
        · rename_i k ps r hk _ _ _ hraw
          cases h2
          refine ⟨fun e he => b1 e (by rw [hraw]; exact List.mem_cons_of_mem _ he), ?_, b3, b4, b5, b6⟩
          intro p hp
          refine b1 _ (by rw [hraw]; exact List.mem_cons_self) ?_ p hp
          intro hkk
          simp_all
        · cases h2
      | stamp now =>
        simp only [step] at h2
        split at h2
        · rename_i p ps hh hp
          split at h2
          · rename_i hacc
            cases h2
            refine ⟨b1, fun q hq => b2 q (by rw [hp]; exact List.mem_cons_of_mem _ hq), ?_, b4, b5, b6⟩
            intro e he
            cases he
            exact ⟨hacc, b2 p (by rw [hp]; exact List.mem_cons_self)⟩
          · cases h2
            exact ⟨b1, fun q hq => b2 q (by rw [hp]; exact List.mem_cons_of_mem _ hq), b3, b4, b5, b6⟩
        · cases h2
      | push =>
        simp only [step] at h2
        split at h2
        · rename_i e hh
          split at h2
          · cases h2
            refine ⟨b1, b2, fun _ h => by simp at h, ?_, b5, b6⟩
            intro e' he'
            simp only [List.mem_append, List.mem_singleton] at he'
            rcases he' with he' | rfl
            · exact b4 e' he'
            · exact b3 _ hh
          · cases h2
        · cases h2
      | finish =>
        simp only [step] at h2
        split at h2
        · cases h2; exact ⟨fun e he => by simp at he, b2, b3, b4, b5, b6⟩
        · cases h2
      | drain =>
        simp only [step] at h2
        split at h2
        · cases h2
          refine ⟨b1, b2, b3, fun e he => by simp at he, ?_, fun ps h => by simp at h⟩
          clear b6 a6 hr h1 ih a4 a5
          have : ∀ (q : List (Ev P)) (m : AMap P (Ev P)), (∀ e ∈ q, cfg.accepts e.path = true ∧ changed e.path (l ++ [.drain])) →
              (∀ e ∈ m, cfg.accepts e.1 = true ∧ changed e.1 (l ++ [.drain])) →
              ∀ e ∈ q.foldl (fun m e => AMap.insert m e.path e) m, cfg.accepts e.1 = true ∧ changed e.1 (l ++ [.drain]) := by
            intro q
            induction q with
            | nil => intro m _ h; exact h
            | cons e q ih =>
              intro m hq hm
              refine ih _ (fun e' he' => hq e' (List.mem_cons_of_mem _ he')) ?_
              intro x hx
              simp only [AMap.insert, List.mem_cons] at hx
              rcases hx with rfl | hx
              · exact hq e List.mem_cons_self
              · exact hm x (AMap.mem_remove.mp hx).1
          exact this _ _ b4 b5
        · cases h2
      | tick now =>
        simp only [step] at h2
        split at h2
        · cases h2
          refine ⟨b1, b2, b3, b4, fun e he => b5 e (List.mem_filter.mp he).1, ?_⟩
          intro ps hps p hp
          cases hps
          obtain ⟨x, hx, rfl⟩ := List.mem_map.mp hp
          exact b5 x (List.mem_filter.mp hx).1
        · cases h2
      | emit =>
        simp only [step] at h2
        split at h2
        · cases h2; exact ⟨b1, b2, b3, b4, b5, fun ps h => by simp at h⟩
        · rename_i p ps hp
          cases h2
          refine ⟨b1, b2, b3, b4, b5, ?_⟩
          intro ps' h q hq
          cases h
          exact b6 _ hp q (List.mem_cons_of_mem _ hq)
        · cases h2
      | add u =>
        simp only [step] at h2
        split at h2 <;> (cases h2; exact ⟨b1, b2, b3, b4, b5, b6⟩)
      | remove u => cases h2; exact ⟨b1, b2, b3, b4, b5, b6⟩
      | stop => cases h2; exact ⟨b1, b2, b3, b4, b5, b6⟩
  obtain ⟨_, _, _, _, _, a6⟩ := main l s tr hr
  cases op with
  | emit =>
    simp only [step] at hs
    split at hs
    · cases hs; cases hu
    · rename_i p ps hp
      cases hs
      split at hu
      · rename_i hm
        simp only [List.mem_singleton, Out.notified.injEq] at hu
        subst hu
        refine ⟨hm, ?_⟩
        obtain ⟨hacc, hch⟩ := a6 _ hp p List.mem_cons_self
        simp only [Config.accepts] at hacc
        split at hacc
        · cases hacc
        · rename_i r hst
          simp only [Bool.and_eq_true, Bool.not_eq_true', List.any_eq_false, List.any_eq_true] at hacc
          exact ⟨p, r, rfl, hst, fun g hg => by simpa using hacc.1 g hg, hacc.2, hch⟩
      · cases hu
    · cases hs
  | os k ps => simp only [step] at hs; split at hs <;> (cases hs; cases hu)
  | take =>
    simp only [step] at hs
    split at hs <;> cases hs <;> cases hu
  | stamp now =>
    simp only [step] at hs
    split at hs
    · split at hs <;> (cases hs; cases hu)
    · cases hs
  | push =>
    simp only [step] at hs
    split at hs
    · split at hs
      · cases hs; simp at hu
      · cases hs
    · cases hs
  | finish => simp only [step] at hs; split at hs <;> cases hs; cases hu
  | drain => simp only [step] at hs; split at hs <;> cases hs; simp at hu
  | tick now => simp only [step] at hs; split at hs <;> cases hs; simp at hu
  | add u => simp only [step] at hs; split at hs <;> (cases hs; cases hu)
  | remove u => cases hs; cases hu
  | stop => cases hs; cases hu

/-- The same for everything notified so far. -/
theorem C55_sound_trace (cfg : Config P G R U) (l : List (Op P U)) (s : State P U) (tr : List (Out P U)) (u : U)
    (hr : run cfg init l = some (s, tr)) (hu : .notified u ∈ tr) :
    ∃ p r, u = cfg.uri p ∧ cfg.strip p = some r ∧ (∀ g ∈ cfg.ignored, cfg.glob g r = false) ∧
      (∃ g ∈ cfg.patterns, cfg.glob g r = true) ∧ changed p l := by
  induction l using snocInduction generalizing s tr with
  | nil => cases hr; cases hu
  | append_singleton l op ih =>
    obtain ⟨s1, tr1, o, h1, h2, rfl⟩ := run_snoc hr
    have mono : ∀ p, changed p l → changed p (l ++ [op]) := by
      rintro p ⟨k, ps, h1, h2, h3⟩
      exact ⟨k, ps, List.mem_append_left _ h1, h2, h3⟩
    rcases List.mem_append.mp hu with hu | hu
    · obtain ⟨p, r, e1, e2, e3, e4, e5⟩ := ih s1 tr1 h1 hu
      exact ⟨p, r, e1, e2, e3, e4, mono p e5⟩
    · obtain ⟨_, p, r, e1, e2, e3, e4, e5⟩ := C55_sound cfg l s1 s tr1 o op u h1 h2 hu
      exact ⟨p, r, e1, e2, e3, e4, mono p e5⟩

/-- What is tracked: a resource that was added with room left and not removed since is tracked, and nothing
else. -/
theorem C55_tracked (cfg : Config P G R U) (l : List (Op P U)) (s : State P U) (tr : List (Out P U)) (u : U)
    (hr : run cfg init l = some (s, tr)) :
    u ∈ s.resources ↔ ∃ a b s1 tr1, l = a ++ .add u :: b ∧ .remove u ∉ b ∧ run cfg init a = some (s1, tr1) ∧
      s1.resources.length < cfg.maxResources := by
  induction l using snocInduction generalizing s tr with
  | nil =>
    cases hr
    simp only [init, List.not_mem_nil, false_iff]
    rintro ⟨a, b, s1, tr1, h, _⟩
    cases a <;> cases h
  | append_singleton l op ih =>
    obtain ⟨s1, tr1, o, h1, h2, rfl⟩ := run_snoc hr
    have ih := ih s1 tr1 h1
    -- the last event does not touch `u`
    have skip : op ≠ .remove u → (op = .add u → cfg.maxResources ≤ s1.resources.length) →
        (u ∈ s.resources ↔ u ∈ s1.resources) →
        (u ∈ s.resources ↔ ∃ a b s1 tr1, l ++ [op] = a ++ .add u :: b ∧ .remove u ∉ b ∧
          run cfg init a = some (s1, tr1) ∧ s1.resources.length < cfg.maxResources) := by
      intro hn hf he
      rw [he, ih]
      constructor
      · rintro ⟨a, b, s2, tr2, rfl, hb, ha, hm⟩
        refine ⟨a, b ++ [op], s2, tr2, by simp, ?_, ha, hm⟩
        simp only [List.mem_append, List.mem_singleton, not_or]
        exact ⟨hb, fun h => hn h.symm⟩
      · rintro ⟨a, b, s2, tr2, e, hb, ha, hm⟩
        cases b using snocInduction with
        | nil =>
          obtain ⟨e1, e2⟩ := List.append_inj' e rfl
          cases e2
          subst e1
          rw [h1] at ha
          cases ha
          exact absurd (hf rfl) (by omega)
        | append_singleton b x _ =>
          rw [← List.cons_append, ← List.append_assoc] at e
          obtain ⟨e1, _⟩ := List.append_inj' e rfl
          exact ⟨a, b, s2, tr2, e1, fun h => hb (List.mem_append_left _ h), ha, hm⟩
    cases op with
    | add v =>
      simp only [step] at h2
      split at h2
      · rename_i hm
        cases h2
        exact skip (by simp) (fun _ => hm) Iff.rfl
      · rename_i hm
        cases h2
        by_cases hv : v = u
        · subst hv
          simp only [ASet.mem_insert, true_or, true_iff]
          exact ⟨l, [], s1, tr1, rfl, by simp, h1, by omega⟩
        · refine skip (by simp) (fun h => by cases h; exact absurd rfl hv) ?_
          simp only [ASet.mem_insert]
          constructor
          · rintro (h | h)
            · exact absurd h.symm hv
            · exact h
          · exact .inr
    | remove v =>
      cases h2
      by_cases hv : v = u
      · subst hv
        simp only [ASet.mem_remove, ne_eq, not_true_eq_false, and_false, false_iff]
        rintro ⟨a, b, s2, tr2, e, hb, ha, hm⟩
        cases b using snocInduction with
        | nil =>
          obtain ⟨e1, e2⟩ := List.append_inj' e rfl
          cases e2
        | append_singleton b x _ =>
          rw [← List.cons_append, ← List.append_assoc] at e
          obtain ⟨_, e2⟩ := List.append_inj' e rfl
          cases e2
          simp at hb
      · refine skip (fun h => hv (by cases h; rfl)) (fun h => by cases h) ?_
        simp only [ASet.mem_remove]
        exact ⟨fun h => h.1, fun h => ⟨h, fun h' => hv h'.symm⟩⟩
    | os k ps => refine skip (by simp) (by simp) ?_; simp only [step] at h2; split at h2 <;> cases h2 <;> exact Iff.rfl
    | take => refine skip (by simp) (by simp) ?_; simp only [step] at h2; split at h2 <;> cases h2 <;> exact Iff.rfl
    | stamp now =>
      refine skip (by simp) (by simp) ?_
      simp only [step] at h2
      split at h2
      · split at h2 <;> cases h2 <;> exact Iff.rfl
      · cases h2
    | push =>
      refine skip (by simp) (by simp) ?_
      simp only [step] at h2
      split at h2
      · split at h2 <;> cases h2; exact Iff.rfl
      · cases h2
    | finish => refine skip (by simp) (by simp) ?_; simp only [step] at h2; split at h2 <;> cases h2; exact Iff.rfl
    | drain => refine skip (by simp) (by simp) ?_; simp only [step] at h2; split at h2 <;> cases h2; exact Iff.rfl
    | tick now => refine skip (by simp) (by simp) ?_; simp only [step] at h2; split at h2 <;> cases h2; exact Iff.rfl
    | emit => refine skip (by simp) (by simp) ?_; simp only [step] at h2; split at h2 <;> cases h2 <;> exact Iff.rfl
    | stop => refine skip (by simp) (by simp) ?_; cases h2; exact Iff.rfl

/-- The processor never gets stuck: whatever it is doing, it can finish its round and do another one at any
time, so that a change that arrived is found due once it is old enough.  What may fail is its way from the
operating system to the event channel, see `C55_burst_lost`. -/
theorem C55_progress (cfg : Config P G R U) (s : State P U) :
    ∃ k s1 tr1, run cfg s k = some (s1, tr1) ∧ s1.proc = .idle ∧ s1.queue = s.queue ∧
      ∀ now, ∃ s2 s3 o2 o3, step cfg s1 .drain = some (s2, o2) ∧ step cfg s2 (.tick now) = some (s3, o3) := by
  have idle : ∀ s : State P U, s.proc = .idle → ∀ now, ∃ s2 s3 o2 o3, step cfg s .drain = some (s2, o2) ∧
      step cfg s2 (.tick now) = some (s3, o3) := by
    intro s h now
    simp [step, h]
  have sending : ∀ (ps : List P) (s : State P U), s.proc = .sending ps → ∃ k s1 tr1, run cfg s k = some (s1, tr1) ∧
      s1.proc = .idle ∧ s1.queue = s.queue := by
    intro ps
    induction ps with
    | nil => intro s h; exact ⟨[.emit], { s with proc := .idle }, [], by simp [run, step, h], rfl, rfl⟩
    | cons p ps ih =>
      intro s h
      obtain ⟨k, s1, tr1, h1, h2, h3⟩ := ih { s with proc := .sending ps } rfl
      exact ⟨.emit :: k, s1, _, by simp only [run, step, h, h1]; rfl, h2, h3⟩
  cases h : s.proc with
  | idle => exact ⟨[], s, [], rfl, h, rfl, idle s h⟩
  | drained =>
    obtain ⟨k, s1, tr1, h1, h2, h3⟩ := sending ((s.pending.filter (isDue cfg 0)).map Prod.fst)
      { s with pending := s.pending.filter (fun e => !isDue cfg 0 e),
               proc := .sending ((s.pending.filter (isDue cfg 0)).map Prod.fst) } rfl
    exact ⟨.tick 0 :: k, s1, _, by simp only [run, step, h, h1]; rfl, h2, h3, idle s1 h2⟩
  | sending ps =>
    obtain ⟨k, s1, tr1, h1, h2, h3⟩ := sending ps s h
    exact ⟨k, s1, tr1, h1, h2, h3, idle s1 h2⟩

/-! ### Witnesses -/

/-- A change that the operating system reports while a thousand earlier ones wait is lost: the path is never
notified unless it changes again, whatever happens and however long one waits. -/
theorem C55_burst_lost (cfg : Config P G R U) (p q : P) (hpq : p ≠ q) (k : List (Op P U)) (s : State P U)
    (tr : List (Out P U)) (hk : ¬ changed p k)
    (hr : run cfg init (List.replicate 1000 (.os .modified [q]) ++ .os .modified [p] :: k) = some (s, tr)) (u : U)
    (hu : .notified u ∈ tr) : ∃ p', u = cfg.uri p' ∧ p' ≠ p := by
  have hcap : (1000 : Nat) = capacity := rfl
  rw [hcap] at hr
  have full : ∀ n, n ≤ capacity → run cfg init (List.replicate n (.os .modified [q])) =
      some ({ (init : State P U) with raw := List.replicate n (.modified, [q]) }, []) := by
    intro n
    induction n with
    | zero => intro _; rfl
    | succ n ih =>
      intro hn
      rw [List.replicate_succ']
      refine run_snoc_intro (ih (by omega)) ?_
      have : n < capacity := by omega
      simp [step, init, this, List.replicate_succ']
  have e : run cfg init (List.replicate capacity (.os .modified [q]) ++ .os .modified [p] :: k) =
      run cfg init (List.replicate capacity (.os .modified [q]) ++ k) := by
    rw [run_append, run_append, full capacity (Nat.le_refl _)]
    simp only [Option.bind_some, run]
    have : step cfg { (init : State P U) with raw := List.replicate capacity (.modified, [q]) } (.os .modified [p]) =
        some ({ (init : State P U) with raw := List.replicate capacity (.modified, [q]) }, []) := by
      simp [step]
    rw [this]
    simp only
    cases run cfg { (init : State P U) with raw := List.replicate capacity (.modified, [q]) } k with
    | none => rfl
    | some x => rfl
  rw [e] at hr
  obtain ⟨p', r, h1, _, _, _, k', ps, h2, h3, h4⟩ := C55_sound_trace cfg _ s tr u hr hu
  refine ⟨p', h1, ?_⟩
  rintro rfl
  rcases List.mem_append.mp h2 with h2 | h2
  · have := List.eq_of_mem_replicate h2
    cases this
    simp at h4
    exact hpq h4
  · exact hk ⟨k', ps, h2, h3, h4⟩

/-- Only then: while fewer than a thousand events wait and the watcher was not stopped, every reported change
enters the channel of the forwarder.  Missing: a full channel, see `C55_burst_lost`. -/
theorem C55_accepted_partial (cfg : Config P G R U) (s : State P U) (k : Kind) (ps : List P) (hs : s.ended = false)
    (hn : s.raw.length < 1000) :
    step cfg s (.os k ps) = some ({ s with raw := s.raw ++ [(k, ps)] }, []) := by
  simp [step, hs, capacity, hn]

/-- Both channels hold at most 1000 events, and events are forwarded until `stop` is called. -/
theorem C55_bounds (cfg : Config P G R U) (l : List (Op P U)) (s : State P U) (tr : List (Out P U))
    (hr : run cfg init l = some (s, tr)) :
    s.raw.length ≤ 1000 ∧ s.queue.length ≤ 1000 ∧ (s.ended = true → .stop ∈ l) := by
  have main : s.raw.length ≤ 1000 ∧ s.queue.length ≤ 1000 ∧ (s.ended = true → s.stopped = true) ∧
      (s.stopped = true → .stop ∈ l) := by
    induction l using snocInduction generalizing s tr with
    | nil => cases hr; exact ⟨Nat.zero_le _, Nat.zero_le _, (fun h => nomatch h), (fun h => nomatch h)⟩
    | append_singleton l op ih =>
      obtain ⟨s1, tr1, o, h1, h2, rfl⟩ := run_snoc hr
      obtain ⟨i1, i2, i3, i4⟩ := ih s1 tr1 h1
      have i4' : s1.stopped = true → .stop ∈ l ++ [op] := fun h => List.mem_append_left _ (i4 h)
      cases op with
      | os k ps =>
        simp only [step] at h2
        split at h2
        · next hc =>
          cases h2
          simp only [capacity] at hc
          exact ⟨by simp only [List.length_append, List.length_singleton]; omega, i2, i3, i4'⟩
        · cases h2; exact ⟨i1, i2, i3, i4'⟩
      | take =>
        simp only [step] at h2
        split at h2
        · next hraw => rw [hraw] at i1; cases h2; simp only [List.length_cons] at i1; exact ⟨by dsimp only; omega, i2, i3, i4'⟩
        · next hraw => rw [hraw] at i1; cases h2; simp only [List.length_cons] at i1; exact ⟨by dsimp only; omega, i2, i3, i4'⟩
        · cases h2
      | stamp now =>
        simp only [step] at h2
        split at h2
        · split at h2 <;> cases h2 <;> exact ⟨i1, i2, i3, i4'⟩
        · cases h2
      | push =>
        simp only [step] at h2
        split at h2
        · split at h2
          · next hc =>
            cases h2
            simp only [capacity] at hc
            exact ⟨i1, by simp only [List.length_append, List.length_singleton]; omega, i3, i4'⟩
          · cases h2
        · cases h2
      | finish =>
        simp only [step] at h2
        split at h2
        · next hs _ _ _ => cases h2; exact ⟨by simp, i2, fun _ => hs, i4'⟩
        · cases h2
      | drain =>
        simp only [step] at h2
        split at h2
        · cases h2; exact ⟨i1, by simp, i3, i4'⟩
        · cases h2
      | tick now =>
        simp only [step] at h2
        split at h2
        · cases h2; exact ⟨i1, i2, i3, i4'⟩
        · cases h2
      | emit =>
        simp only [step] at h2
        split at h2
        · cases h2; exact ⟨i1, i2, i3, i4'⟩
        · cases h2; exact ⟨i1, i2, i3, i4'⟩
        · cases h2
      | add u =>
        simp only [step] at h2
        split at h2 <;> cases h2 <;> exact ⟨i1, i2, i3, i4'⟩
      | remove u => cases h2; exact ⟨i1, i2, i3, i4'⟩
      | stop => cases h2; exact ⟨i1, i2, fun _ => rfl, fun _ => by simp⟩
  exact ⟨main.1, main.2.1, fun h => main.2.2.2 (main.2.2.1 h)⟩

/-- Adding a resource beyond the limit succeeds without tracking it. -/
theorem C55_limit_silent (cfg : Config P G R U) (s : State P U) (u : U) (h : cfg.maxResources ≤ s.resources.length) :
    step cfg s (.add u) = some (s, []) := by
  simp [step, h]

/-- A change seen before `stop` is notified after it, even after the forwarder has ended. -/
theorem C55_notified_after_stop (cfg : Config P G R U) (p : P) (hp : cfg.accepts p = true) (hm : 0 < cfg.maxResources) :
    ∃ s tr, run cfg init [.add (cfg.uri p), .os .modified [p], .take, .stamp 0, .push, .stop, .finish, .drain,
        .tick cfg.debounce, .emit] = some (s, tr) ∧ s.ended = true ∧ .notified (cfg.uri p) ∈ tr := by
  have hm' : ¬ cfg.maxResources = 0 := by omega
  simp [run, step, init, hm', hp, capacity, ASet.insert, AMap.insert, AMap.remove, isDue]
  exact ⟨_, _, ⟨rfl, rfl⟩, rfl, by simp⟩

/-! ### Examples -/

/-- A configuration: paths and URIs are numbers; even paths are below the base directory, multiples of six
ignored. (Specification: no counterpart in the code.) -/
def exampleConfig : Config Nat Nat Nat Nat :=
  { debounce := 50, patterns := [1], ignored := [3], maxResources := 2,
    strip := fun p => if p % 2 = 0 then some (p / 2) else none
    glob := fun g r => r % g = 0
    uri := fun p => p + 1000 }

/-- Two changes of 4 within the debounce time, one of the ignored 6, one of the untracked 8.
(Specification: no counterpart in the code.) -/
def exampleRun : List (Op Nat Nat) :=
  [.add 1004, .add 1006, .os .created [4, 6], .take, .stamp 10, .push, .stamp 10, .drain, .tick 30, .emit, .os .modified [4, 8],
   .take, .stamp 40, .push, .stamp 40, .push, .drain, .tick 80, .emit, .drain, .tick 90, .emit, .emit, .emit]

/-- One notification, when the later change of 4 is old enough; the hypotheses of `C55_due` and `C55_sound`
hold. -/
example : (run exampleConfig init exampleRun).map (fun x => notifications x.2) = some [1004] ∧
    (stamps exampleRun).Pairwise (· ≤ ·) := by decide

example : (run exampleConfig init (exampleRun.take 17)).map (fun x => (fresh 4 x.2).1) =
    some [⟨4, 10⟩, ⟨4, 40⟩] := by decide

/-- The hypotheses of `C55_reported` hold. -/
example : ∃ s s' tr, run exampleConfig init (exampleRun.take 21) = some (s, tr) ∧ s.proc = .sending [8, 4] ∧
    ∃ tr', run exampleConfig s [.emit, .emit, .emit] = some (s', tr') ∧ s'.proc = .idle := by
  refine ⟨_, _, _, rfl, by decide, _, rfl, by decide⟩

end Verif.Watcher
