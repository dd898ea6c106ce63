import Verif.Watcher.Again

/-
C220: starting and stopping the resource watcher again.
-/

namespace Verif.Watcher.Again

open Verif

variable {P G R U : Type} [DecidableEq P] [DecidableEq U]

theorem run_append (cfg : Config P G R U) (s : State P U) (a b : List (Op P U)) :
    run cfg s (a ++ b) = (run cfg s a).bind (fun x => (run cfg x.1 b).map (fun y => (y.1, x.2 ++ y.2))) := by
  induction a generalizing s with
  | nil =>
    simp only [List.nil_append, run, Option.bind_some]
    cases run cfg s b with
    | none => rfl
    | some y => simp
  | cons op r ih =>
    simp only [List.cons_append, run]
    cases step cfg s op with
    | none => rfl
    | some x =>
      rcases x with ⟨s1, o⟩
      simp only [ih]
      cases run cfg s1 r with
      | none => rfl
      | some y =>
        rcases y with ⟨s2, o2⟩
        simp only [Option.bind_some]
        cases run cfg s2 b with
        | none => rfl
        | some z => simp

theorem run_snoc {cfg : Config P G R U} {l : List (Op P U)} {op : Op P U} {s0 s : State P U} {tr : List (Out P U)}
    (h : run cfg s0 (l ++ [op]) = some (s, tr)) :
    ∃ s1 tr1 o, run cfg s0 l = some (s1, tr1) ∧ step cfg s1 op = some (s, o) ∧ tr = tr1 ++ o := by
  rw [run_append] at h
  cases h1 : run cfg s0 l with
  | none => rw [h1] at h; cases h
  | some x =>
    rcases x with ⟨s1, tr1⟩
    rw [h1] at h
    simp only [Option.bind_some, run] at h
    cases h2 : step cfg s1 op with
    | none => rw [h2] at h; cases h
    | some y =>
      rcases y with ⟨s2, o⟩
      rw [h2] at h
      simp only [List.append_nil, Option.map_some, Option.some.injEq, Prod.mk.injEq] at h
      obtain ⟨rfl, rfl⟩ := h
      exact ⟨s1, tr1, o, rfl, h2, rfl⟩

/-! ### Each change once -/

/-- The last change of `p` a processor took from the channel since `p` was last found due, after one more thing
seen. (Specification: no counterpart in the code.) -/
def lastStep (p : P) (acc : Option (Ev P)) : Out P U → Option (Ev P)
  | .seen e => if e.path = p then some e else acc
  | .round _ due => if p ∈ due then none else acc
  | _ => acc

/-- The same for everything seen. (Specification: no counterpart in the code.) -/
def last (p : P) (tr : List (Out P U)) : Option (Ev P) := tr.foldl (lastStep p) none

theorem last_append (p : P) (a b : List (Out P U)) : last p (a ++ b) = b.foldl (lastStep p) (last p a) := by
  simp [last]

/-- (Specification: no counterpart in the code.) -/
structure Inv (s : State P U) (tr : List (Out P U)) : Prop where
  wf : AMap.WF s.pending
  pending : ∀ p, AMap.get s.pending p = last p tr

theorem inv_step (cfg : Config P G R U) (s s' : State P U) (tr o : List (Out P U)) (op : Op P U) (i : Inv s tr)
    (h : step cfg s op = some (s', o)) : Inv s' (tr ++ o) := by
  have same : ∀ s2 : State P U, s2.pending = s.pending → ∀ o2 : List (Out P U),
      (∀ p acc, o2.foldl (lastStep p) acc = acc) → Inv s2 (tr ++ o2) := by
    intro s2 hp o2 ho
    exact ⟨by rw [hp]; exact i.wf, fun p => by rw [hp, last_append, ho]; exact i.pending p⟩
  cases op with
  | start => simp only [step] at h; split at h <;> cases h; exact (by apply same <;> intros <;> rfl)
  | stop => cases h; exact (by apply same <;> intros <;> rfl)
  | os j k ps =>
    simp only [step] at h
    repeat' split at h
    all_goals first
      | (cases h; exact (by apply same <;> intros <;> rfl))
      | cases h
  | take j =>
    simp only [step] at h
    repeat' split at h
    all_goals first
      | (cases h; exact (by apply same <;> intros <;> rfl))
      | cases h
  | stamp j now =>
    simp only [step] at h
    repeat' split at h
    all_goals first
      | (cases h; exact (by apply same <;> intros <;> rfl))
      | cases h
  | push j =>
    simp only [step] at h
    repeat' split at h
    all_goals first
      | (cases h; exact (by apply same <;> intros <;> rfl))
      | cases h
  | finish j =>
    simp only [step] at h
    repeat' split at h
    all_goals first
      | (cases h; exact (by apply same <;> intros <;> rfl))
      | cases h
  | lock j =>
    simp only [step] at h
    repeat' split at h
    all_goals first
      | (cases h; exact (by apply same <;> intros <;> rfl))
      | cases h
  | recv j =>
    simp only [step] at h
    split at h
    · next e q _ _ =>
      cases h
      refine ⟨AMap.wf_insert i.wf _ _, fun p => ?_⟩
      rw [last_append, AMap.get_insert]
      simp only [List.foldl_cons, List.foldl_nil, lastStep]
      by_cases hp : p = e.path
      · subst hp; simp
      · rw [if_neg hp, if_neg (fun h => hp h.symm)]; exact i.pending p
    · cases h
  | unlock j =>
    simp only [step] at h
    repeat' split at h
    all_goals first
      | (cases h; exact (by apply same <;> intros <;> rfl))
      | cases h
  | tick j now =>
    simp only [step] at h
    split at h
    · cases h
      refine ⟨wf_filter i.wf _, fun p => ?_⟩
      rw [last_append, filter_get i.wf]
      simp only [List.foldl_cons, List.foldl_nil, lastStep]
      have hm := mem_due i.wf (isDue cfg now) p
      rw [← i.pending p]
      cases hg : AMap.get s.pending p with
      | none => simp
      | some e =>
        rw [hg] at hm
        simp only [Option.some.injEq, exists_eq_left'] at hm
        by_cases hd : isDue cfg now (p, e) = true
        · rw [if_pos (hm.mpr hd)]; simp [hd]
        · rw [if_neg (fun h => hd (hm.mp h))]; simp [hd]
    · cases h
  | emit j =>
    simp only [step] at h
    split at h
    · cases h; exact (by apply same <;> intros <;> rfl)
    · cases h
      apply same
      · rfl
      · intro p acc
        split <;> rfl
    · cases h
  | add u => simp only [step] at h; split at h <;> (cases h; exact (by apply same <;> intros <;> rfl))
  | remove u => cases h; exact (by apply same <;> intros <;> rfl)

theorem inv_run (cfg : Config P G R U) (l : List (Op P U)) (s : State P U) (tr : List (Out P U))
    (h : run cfg {} l = some (s, tr)) : Inv s tr := by
  induction l using snocInduction generalizing s tr with
  | nil => cases h; exact ⟨AMap.wf_nil, fun _ => rfl⟩
  | append_singleton l op ih =>
    obtain ⟨s1, tr1, o, h1, h2, rfl⟩ := run_snoc h
    exact inv_step cfg s1 s tr1 o op (ih s1 tr1 h1) h2

/-- **C220**. However often the watcher was started and stopped and however its tasks interleave, a processor finds a
path due exactly if some processor took a change of it from the channel since any processor found it due, and the last
of these is at least the debounce time old: no two processors report the same change. -/
theorem C220_due (cfg : Config P G R U) (l : List (Op P U)) (s s' : State P U) (tr o : List (Out P U)) (j now : Nat)
    (hr : run cfg {} l = some (s, tr)) (hs : step cfg s (.tick j now) = some (s', o)) :
    ∃ due, o = [.round now due] ∧ s'.procs[j]? = some (.sending due) ∧ due.Nodup ∧
      ∀ p, p ∈ due ↔ ∃ e, last p tr = some e ∧ cfg.debounce ≤ now - e.ts := by
  have i := inv_run cfg l s tr hr
  simp only [step] at hs
  split at hs
  · next hj =>
    cases hs
    refine ⟨_, rfl, ?_, wf_filter i.wf _, fun p => ?_⟩
    · simp [List.getElem?_set_self (List.getElem?_eq_some_iff.mp hj).1]
    · rw [mem_due i.wf, i.pending p]
      simp only [isDue, decide_eq_true_eq]
  · cases hs

/-! ### The processors -/

/-- Calls of `start`. (Specification: no counterpart in the code.) -/
def starts (l : List (Op P U)) : Nat := l.countP (fun | .start => true | _ => false)

theorem procs_step (cfg : Config P G R U) (s s' : State P U) (o : List (Out P U)) (op : Op P U)
    (h : step cfg s op = some (s', o)) :
    s'.procs.length = s.procs.length + starts [op] ∧ s'.fwds.length = s.fwds.length + starts [op] := by
  cases op <;> simp only [step] at h <;> (repeat' split at h) <;> cases h <;> simp [starts]

/-- **C220**. Every `start` adds a processor, and none ever ends: after any history there are as many as there were
calls of `start`, whether or not the watcher was stopped in between, or is stopped now. -/
theorem C220_processors_stay (cfg : Config P G R U) (l : List (Op P U)) (s : State P U) (tr : List (Out P U))
    (h : run cfg {} l = some (s, tr)) : s.procs.length = starts l := by
  induction l using snocInduction generalizing s tr with
  | nil => cases h; rfl
  | append_singleton l op ih =>
    obtain ⟨s1, tr1, o, h1, h2, rfl⟩ := run_snoc h
    rw [(procs_step cfg s1 s o op h2).1, ih s1 tr1 h1]
    simp [starts, List.countP_append]

/-! ### Restarting loses changes -/

/-- No processor has taken a change of `p` it has not reported. (Specification: no counterpart in the code.) -/
structure Untaken (p : P) (s : State P U) : Prop where
  pending : p ∉ AMap.keys s.pending
  sending : ∀ ps, .sending ps ∈ s.procs → p ∉ ps

/-- No task has `p` in hand, except perhaps the first `n` forwarders, which are not the last.
(Specification: no counterpart in the code.) -/
structure Clear (p : P) (n : Nat) (s : State P U) : Prop where
  old : n < s.fwds.length
  raw : ∀ i f, s.fwds[i]? = some f → n ≤ i → ∀ e ∈ f.raw, p ∉ e.2
  paths : ∀ i f, s.fwds[i]? = some f → n ≤ i → p ∉ f.paths
  held : ∀ i f, s.fwds[i]? = some f → n ≤ i → ∀ e, f.held = some e → e.path ≠ p
  pending : p ∉ AMap.keys s.pending
  sending : ∀ ps, .sending ps ∈ s.procs → p ∉ ps

/-- The operating system does not report `p` to the forwarders started after the first `n`.
(Specification: no counterpart in the code.) -/
def Unreported (p : P) (n : Nat) : Op P U → Prop
  | .os i _ ps => n ≤ i → p ∉ ps
  | _ => True

/-- Nothing is seen of `p`. (Specification: no counterpart in the code.) -/
def Unseen (cfg : Config P G R U) (p : P) : Out P U → Prop
  | .round _ due => p ∉ due
  | .notified u => u ≠ cfg.uri p
  | _ => True

theorem clear_set (p : P) (n : Nat) (s : State P U) (h : Clear p n s) (i : Nat) (f : Fwd P) (q : List (Ev P))
    (h1 : n ≤ i → ∀ e ∈ f.raw, p ∉ e.2) (h2 : n ≤ i → p ∉ f.paths)
    (h3 : n ≤ i → ∀ e, f.held = some e → e.path ≠ p) :
    Clear p n { s with fwds := s.fwds.set i f, queue := q } := by
  refine ⟨by simpa using h.old, ?_, ?_, ?_, h.pending, h.sending⟩
  all_goals
    intro j g hg
    simp only [List.getElem?_set] at hg
    split at hg
    · next hij =>
      subst hij
      split at hg <;> cases hg
      first | exact h1 | exact h2 | exact h3
    · first | exact h.raw j g hg | exact h.paths j g hg | exact h.held j g hg

theorem clear_procs (p : P) (n : Nat) (s : State P U) (h : Clear p n s) (j : Nat) (x : Proc P)
    (hx : ∀ ps, x = .sending ps → p ∉ ps) : Clear p n { s with procs := s.procs.set j x } := by
  refine ⟨h.old, h.raw, h.paths, h.held, h.pending, ?_⟩
  intro ps hps
  rcases List.mem_or_eq_of_mem_set hps with hps | hps
  · exact h.sending ps hps
  · exact hx ps hps.symm

theorem stopped_get (fs : List (Fwd P)) (i : Nat) (f : Fwd P)
    (h : (fs.map (fun f => { f with stopped := true }))[i]? = some f) :
    ∃ g, fs[i]? = some g ∧ f = { g with stopped := true } := by
  rw [List.getElem?_map] at h
  cases hg : fs[i]? with
  | none => rw [hg] at h; cases h
  | some g => rw [hg] at h; cases h; exact ⟨g, rfl, rfl⟩

theorem started_get (fs : List (Fwd P)) (i : Nat) (f : Fwd P)
    (h : (fs.map (fun f => { f with stopped := true }) ++ [({} : Fwd P)])[i]? = some f) :
    (∃ g, fs[i]? = some g ∧ f = { g with stopped := true }) ∨ (i = fs.length ∧ f = {}) := by
  rw [List.getElem?_append] at h
  split at h
  · exact .inl (stopped_get fs i f h)
  · next hi =>
    simp only [List.length_map] at hi h
    rw [List.getElem?_singleton] at h
    split at h
    · cases h; exact .inr ⟨by omega, rfl⟩
    · cases h

theorem clear_step (cfg : Config P G R U) (p : P) (n : Nat) (hu : ∀ q, cfg.uri q = cfg.uri p → q = p)
    (s s' : State P U) (o : List (Out P U)) (op : Op P U) (hc : Clear p n s) (hq : ∀ e ∈ s.queue, e.path ≠ p)
    (ho : Unreported p n op) (h : step cfg s op = some (s', o)) :
    Clear p n s' ∧ (∀ e ∈ s'.queue, e.path ≠ p) ∧ ∀ x ∈ o, Unseen cfg p x := by
  have key : AMap.get s.pending p = none := AMap.get_eq_none_iff.mpr hc.pending
  cases op with
  | start =>
    simp only [step] at h
    split at h
    · cases h
    · cases h
      refine ⟨⟨by have := hc.old; simp; omega, ?_, ?_, ?_, hc.pending, ?_⟩, by simp, by simp⟩
      · intro i f hf hn
        rcases started_get _ i f hf with ⟨g, hg, rfl⟩ | ⟨_, rfl⟩
        · exact hc.raw i g hg hn
        · simp
      · intro i f hf hn
        rcases started_get _ i f hf with ⟨g, hg, rfl⟩ | ⟨_, rfl⟩
        · exact hc.paths i g hg hn
        · simp
      · intro i f hf hn
        rcases started_get _ i f hf with ⟨g, hg, rfl⟩ | ⟨_, rfl⟩
        · exact hc.held i g hg hn
        · simp
      · intro ps hps
        simp only [List.mem_append, List.mem_singleton, reduceCtorEq, or_false] at hps
        exact hc.sending ps hps
  | stop =>
    cases h
    refine ⟨⟨by simpa using hc.old, ?_, ?_, ?_, hc.pending, hc.sending⟩, hq, by simp⟩
    · intro i f hf hn
      obtain ⟨g, hg, rfl⟩ := stopped_get _ i f hf
      exact hc.raw i g hg hn
    · intro i f hf hn
      obtain ⟨g, hg, rfl⟩ := stopped_get _ i f hf
      exact hc.paths i g hg hn
    · intro i f hf hn
      obtain ⟨g, hg, rfl⟩ := stopped_get _ i f hf
      exact hc.held i g hg hn
  | os i k ps =>
    simp only [step] at h
    split at h
    · next f hf =>
      split at h
      · cases h
        refine ⟨clear_set p n s hc i _ s.queue ?_ (hc.paths i f hf) (hc.held i f hf), hq, by simp⟩
        intro hn e he
        rcases List.mem_append.mp he with he | he
        · exact hc.raw i f hf hn e he
        · rw [List.mem_singleton.mp he]; exact ho hn
      · cases h; exact ⟨hc, hq, by simp⟩
    · cases h
  | take i =>
    simp only [step] at h
    split at h
    · next f hf =>
      split at h
      · next r he hh hp hr =>
        cases h
        exact ⟨clear_set p n s hc i _ s.queue (fun hn e he => hc.raw i f hf hn e (by rw [hr]; simp [he]))
          (hc.paths i f hf) (hc.held i f hf), hq, by simp⟩
      · next kk ps r he hh hp hpp hr =>
        cases h
        exact ⟨clear_set p n s hc i _ s.queue (fun hn e he => hc.raw i f hf hn e (by rw [hr]; simp [he]))
          (fun hn => hc.raw i f hf hn (kk, ps) (by rw [hr]; simp)) (hc.held i f hf), hq, by simp⟩
      · cases h
    · cases h
  | stamp i now =>
    simp only [step] at h
    split at h
    · next f hf =>
      split at h
      · next x ps hh hp =>
        have h2 : n ≤ i → p ∉ ps := fun hn hx => hc.paths i f hf hn (by rw [hp]; simp [hx])
        split at h
        · cases h
          refine ⟨clear_set p n s hc i _ s.queue (hc.raw i f hf) h2 ?_, hq, by simp⟩
          intro hn e he
          simp only [Option.some.injEq] at he
          subst he
          intro hx
          exact hc.paths i f hf hn (by rw [hp, ← hx]; simp)
        · cases h
          exact ⟨clear_set p n s hc i _ s.queue (hc.raw i f hf) h2 (hc.held i f hf), hq, by simp⟩
      · cases h
    · cases h
  | push i =>
    simp only [step] at h
    split at h
    · next f hf =>
      split at h
      · next e he =>
        split at h
        · next hlast =>
          split at h
          · cases h
            refine ⟨clear_set p n s hc i _ _ (hc.raw i f hf) (hc.paths i f hf) (by simp), ?_, by simp [Unseen]⟩
            intro e' he'
            rcases List.mem_append.mp he' with he' | he'
            · exact hq e' he'
            · rw [List.mem_singleton.mp he']
              exact hc.held i f hf (by have := hc.old; omega) e he
          · cases h
        · cases h
          exact ⟨clear_set p n s hc i _ s.queue (hc.raw i f hf) (hc.paths i f hf) (by simp), hq, by simp [Unseen]⟩
      · cases h
    · cases h
  | finish i =>
    simp only [step] at h
    split at h
    · next f hf =>
      split at h
      · cases h
        exact ⟨clear_set p n s hc i _ s.queue (by simp) (hc.paths i f hf) (hc.held i f hf), hq, by simp⟩
      · cases h
    · cases h
  | lock j =>
    simp only [step] at h
    split at h
    · split at h
      · cases h
      · cases h; exact ⟨clear_procs p n s hc j _ (by intro ps h; cases h), hq, by simp⟩
    · cases h
  | recv j =>
    simp only [step] at h
    split at h
    · next e q _ hqq =>
      cases h
      refine ⟨⟨hc.old, hc.raw, hc.paths, hc.held, ?_, hc.sending⟩, fun e' he' => hq e' (by rw [hqq]; simp [he']),
        by simp [Unseen]⟩
      have hne : p ≠ e.path := fun hx => hq e (by rw [hqq]; simp) hx.symm
      rw [← AMap.get_eq_none_iff, AMap.get_insert, if_neg hne]
      exact key
    · cases h
  | unlock j =>
    simp only [step] at h
    split at h
    · cases h; exact ⟨clear_procs p n s hc j _ (by intro ps h; cases h), hq, by simp⟩
    · cases h
  | tick j now =>
    simp only [step] at h
    split at h
    · cases h
      have hnd : p ∉ (s.pending.filter (isDue cfg now)).map Prod.fst := by
        intro hx
        obtain ⟨e, he, h2⟩ := List.mem_map.mp hx
        exact hc.pending (List.mem_map.mpr ⟨e, (List.mem_filter.mp he).1, h2⟩)
      refine ⟨⟨hc.old, hc.raw, hc.paths, hc.held, ?_, ?_⟩, hq, ?_⟩
      · intro hx
        obtain ⟨e, he, h2⟩ := List.mem_map.mp hx
        exact hc.pending (List.mem_map.mpr ⟨e, (List.mem_filter.mp he).1, h2⟩)
      · intro ps hps
        rcases List.mem_or_eq_of_mem_set hps with hps | hps
        · exact hc.sending ps hps
        · cases hps; exact hnd
      · intro x hx
        rw [List.mem_singleton.mp hx]; exact hnd
    · cases h
  | emit j =>
    simp only [step] at h
    split at h
    · cases h; exact ⟨clear_procs p n s hc j _ (by intro ps h; cases h), hq, by simp⟩
    · next x ps hj =>
      have hx := hc.sending _ (List.mem_of_getElem? hj)
      simp only [List.mem_cons, not_or] at hx
      cases h
      refine ⟨clear_procs p n s hc j _ (by intro ps' h; cases h; exact hx.2), hq, ?_⟩
      intro y hy
      split at hy
      · rw [List.mem_singleton.mp hy]
        intro he
        exact hx.1 (hu x he).symm
      · cases hy
    · cases h
  | add u =>
    simp only [step] at h
    split at h <;> (cases h; exact ⟨⟨hc.old, hc.raw, hc.paths, hc.held, hc.pending, hc.sending⟩, hq, by simp⟩)
  | remove u => cases h; exact ⟨⟨hc.old, hc.raw, hc.paths, hc.held, hc.pending, hc.sending⟩, hq, by simp⟩

/-- **C220** fails: when `start` is called again, every change that no processor has taken from the channel yet is
lost, be it in the channel (where it can have been for a tenth of a second) or with the forwarder of the `start`
before. Its path is not reported, whatever happens and however long one waits, unless the operating system reports it
to the watcher started now or later. -/
theorem C220_restart_loses (cfg : Config P G R U) (p : P) (hu : ∀ q, cfg.uri q = cfg.uri p → q = p)
    (s s' : State P U) (hc : Untaken p s) (k : List (Op P U)) (hk : ∀ op ∈ k, Unreported p s.fwds.length op)
    (tr : List (Out P U)) (h : run cfg s (.start :: k) = some (s', tr)) : ∀ x ∈ tr, Unseen cfg p x := by
  have main : ∀ (n : Nat) (k : List (Op P U)) (s1 s' : State P U) (tr : List (Out P U)), Clear p n s1 →
      (∀ e ∈ s1.queue, e.path ≠ p) → (∀ op ∈ k, Unreported p n op) → run cfg s1 k = some (s', tr) →
      ∀ x ∈ tr, Unseen cfg p x := by
    intro n k
    induction k with
    | nil => intro s1 s' tr _ _ _ h; cases h; simp
    | cons op k ih =>
      intro s1 s' tr h1 h2 h3 h
      simp only [run] at h
      split at h
      · cases h
      · next s2 o hs =>
        obtain ⟨c1, c2, c3⟩ := clear_step cfg p n hu s1 s2 o op h1 h2 (h3 op (by simp)) hs
        split at h
        · cases h
        · next s3 o2 hr =>
          simp only [Option.some.injEq, Prod.mk.injEq] at h
          obtain ⟨rfl, rfl⟩ := h
          intro x hx
          rcases List.mem_append.mp hx with hx | hx
          · exact c3 x hx
          · exact ih s2 _ o2 c1 c2 (fun o ho => h3 o (by simp [ho])) hr x hx
  simp only [run] at h
  split at h
  · cases h
  · next s2 o hs =>
    simp only [step] at hs
    split at hs
    · cases hs
    · next hl =>
      simp only [Option.some.injEq, Prod.mk.injEq] at hs
      obtain ⟨hs2, ho⟩ := hs
      have hcl : Clear p s.fwds.length s2 := by
        subst hs2
        have new : ∀ i f, (s.fwds.map (fun f => { f with stopped := true }) ++ [({} : Fwd P)])[i]? = some f →
            s.fwds.length ≤ i → f = {} := by
          intro i f hf hn
          rcases started_get _ i f hf with ⟨g, hg, _⟩ | ⟨_, rfl⟩
          · have := (List.getElem?_eq_some_iff.mp hg).1
            omega
          · rfl
        refine ⟨by simp, ?_, ?_, ?_, hc.pending, ?_⟩
        · intro i f hf hn; rw [new i f hf hn]; simp
        · intro i f hf hn; rw [new i f hf hn]; simp
        · intro i f hf hn; rw [new i f hf hn]; simp
        · intro ps hps
          simp only [List.mem_append, List.mem_singleton, reduceCtorEq, or_false] at hps
          exact hc.sending ps hps
      split at h
      · cases h
      · next s3 o2 hr =>
        simp only [Option.some.injEq, Prod.mk.injEq] at h
        obtain ⟨rfl, rfl⟩ := h
        subst ho
        simpa using main s.fwds.length k s2 _ o2 hcl (by simp [← hs2]) hk hr

/-! ### Otherwise nothing is lost -/

/-- Steps of processor `j` only. (Specification: no counterpart in the code.) -/
def ByProc (j : Nat) : Op P U → Prop
  | .lock i => i = j
  | .recv i => i = j
  | .unlock i => i = j
  | .tick i _ => i = j
  | .emit i => i = j
  | _ => False

theorem emits (cfg : Config P G R U) (j : Nat) (ps : List P) (s : State P U) (h : s.procs[j]? = some (.sending ps)) :
    ∃ tr, run cfg s (List.replicate (ps.length + 1) (.emit j)) =
      some ({ s with procs := s.procs.set j .idle }, tr) := by
  induction ps generalizing s with
  | nil => exact ⟨[], by simp [run, step, h]⟩
  | cons p ps ih =>
    have hl := (List.getElem?_eq_some_iff.mp h).1
    obtain ⟨tr, ht⟩ := ih { s with procs := s.procs.set j (.sending ps) } (by simp [hl])
    rw [List.replicate_succ]
    simp only [run, step, h]
    rw [List.length_cons, ht]
    exact ⟨_, by simp; rfl⟩

theorem drains (cfg : Config P G R U) (j : Nat) (q : List (Ev P)) (s : State P U) (hq : s.queue = q)
    (h : s.procs[j]? = some .draining) :
    ∃ tr, run cfg s (List.replicate q.length (.recv j) ++ [.unlock j]) =
      some ({ s with queue := [], pending := q.foldl (fun m e => AMap.insert m e.path e) s.pending,
                     procs := s.procs.set j .drained }, tr) := by
  induction q generalizing s with
  | nil =>
    refine ⟨[], ?_⟩
    simp [run, step, h, hq]
  | cons e q ih =>
    obtain ⟨tr, ht⟩ := ih { s with queue := q, pending := AMap.insert s.pending e.path e } rfl h
    rw [List.length_cons, List.replicate_succ, List.cons_append]
    simp only [run, step, h, hq]
    rw [ht]
    exact ⟨_, rfl⟩

theorem insert_all (q : List (Ev P)) (m : AMap P (Ev P)) (hw : AMap.WF m) :
    AMap.WF (q.foldl (fun m e => AMap.insert m e.path e) m) ∧
    ∀ e ∈ q, ∃ e' ∈ q, e'.path = e.path ∧
      AMap.get (q.foldl (fun m e => AMap.insert m e.path e) m) e.path = some e' := by
  induction q using snocInduction with
  | nil => exact ⟨hw, by simp⟩
  | append_singleton q x ih =>
    obtain ⟨h1, h2⟩ := ih
    simp only [List.foldl_append, List.foldl_cons, List.foldl_nil]
    refine ⟨AMap.wf_insert h1 _ _, fun e he => ?_⟩
    by_cases hp : e.path = x.path
    · exact ⟨x, by simp, hp.symm, by rw [hp, AMap.get_insert_self]⟩
    · rcases List.mem_append.mp he with he | he
      · obtain ⟨e', g1, g2, g3⟩ := h2 e he
        exact ⟨e', by simp [g1], g2, by rw [AMap.get_insert, if_neg hp]; exact g3⟩
      · rw [List.mem_singleton.mp he] at hp; exact absurd rfl hp

theorem from_draining (cfg : Config P G R U) (s : State P U) (hw : AMap.WF s.pending) (j now : Nat)
    (h : s.procs[j]? = some .draining) (hn : ∀ e ∈ s.queue, e.ts + cfg.debounce ≤ now) :
    ∃ k s' tr, (∀ op ∈ k, ByProc j op) ∧ run cfg s k = some (s', tr) ∧ s'.queue = [] ∧
      ∃ due, .round now due ∈ tr ∧ ∀ e ∈ s.queue, e.path ∈ due := by
  obtain ⟨tr, ht⟩ := drains cfg j s.queue s rfl h
  have hl := (List.getElem?_eq_some_iff.mp h).1
  obtain ⟨w1, w2⟩ := insert_all s.queue s.pending hw
  generalize hm : s.queue.foldl (fun m e => AMap.insert m e.path e) s.pending = m at ht w1 w2
  have hrun : run cfg s ((List.replicate s.queue.length (.recv j) ++ [.unlock j]) ++ [.tick j now]) =
      some ({ s with queue := [], pending := m.filter (fun e => !isDue cfg now e),
                     procs := (s.procs.set j .drained).set j (.sending ((m.filter (isDue cfg now)).map Prod.fst)) },
        tr ++ [.round now ((m.filter (isDue cfg now)).map Prod.fst)]) := by
    rw [run_append, ht]
    simp only [Option.bind_some, run, step, List.getElem?_set_self hl, Option.map_some, List.append_nil]
  refine ⟨_, _, _, ?_, hrun, rfl, _, by simp; exact .inr rfl, fun e he => ?_⟩
  · intro op hop
    simp only [List.mem_append, List.mem_replicate, List.mem_singleton] at hop
    rcases hop with (⟨_, rfl⟩ | rfl) | rfl <;> rfl
  · obtain ⟨e', g1, g2, g3⟩ := w2 e he
    rw [mem_due w1]
    refine ⟨e', g3, ?_⟩
    have := hn e' g1
    simp only [isDue, decide_eq_true_eq]
    omega

/-- **C220**, part that holds: in every state that can be reached, with the watcher started at least once and perhaps
stopped, there is a processor that by its own steps finds due every path with a change in the channel, once these are
old enough. Missing: changes no processor has taken when `start` is called (`C220_restart_loses`). -/
theorem C220_reported_partial (cfg : Config P G R U) (l : List (Op P U)) (s : State P U) (tr : List (Out P U))
    (hr : run cfg {} l = some (s, tr)) (hst : .start ∈ l) (now : Nat)
    (hn : ∀ e ∈ s.queue, e.ts + cfg.debounce ≤ now) :
    ∃ j k s' tr', (∀ op ∈ k, ByProc j op) ∧ run cfg s k = some (s', tr') ∧ s'.queue = [] ∧
      ∃ due, .round now due ∈ tr' ∧ ∀ e ∈ s.queue, e.path ∈ due := by
  have hw := (inv_run cfg l s tr hr).wf
  by_cases hl : locked s = true
  · simp only [locked, List.any_eq_true, decide_eq_true_eq] at hl
    obtain ⟨x, hx, rfl⟩ := hl
    obtain ⟨j, hj⟩ := List.mem_iff_getElem?.mp hx
    exact ⟨j, from_draining cfg s hw j now hj hn⟩
  · have hpos : 0 < s.procs.length := by
      rw [C220_processors_stay cfg l s tr hr]
      exact List.countP_pos_iff.mpr ⟨.start, hst, rfl⟩
    have hpos' : ∀ x, 0 < (s.procs.set 0 x).length := by intro x; simpa using hpos
    -- the first processor finishes what it is doing
    have idle : ∀ (s : State P U), AMap.WF s.pending → 0 < s.procs.length → locked s = false →
        (∀ e ∈ s.queue, e.ts + cfg.debounce ≤ now) → s.procs[0]? = some .idle →
        ∃ k s' tr', (∀ op ∈ k, ByProc 0 op) ∧ run cfg s k = some (s', tr') ∧ s'.queue = [] ∧
          ∃ due, .round now due ∈ tr' ∧ ∀ e ∈ s.queue, e.path ∈ due := by
      intro s hw hpos hl hn hi
      obtain ⟨k, s', tr', g1, g2, g3, due, g4, g5⟩ :=
        from_draining cfg { s with procs := s.procs.set 0 .draining } hw 0 now (by simp [hpos]) hn
      refine ⟨.lock 0 :: k, s', tr', ?_, ?_, g3, due, g4, g5⟩
      · intro op hop
        rcases List.mem_cons.mp hop with rfl | hop
        · rfl
        · exact g1 op hop
      · simp only [run, step, hi, hl, Bool.false_eq_true, if_false]
        rw [g2]
        rfl
    have nolock : ∀ (ps : List (Proc P)) (x : Proc P), x ≠ .draining →
        (ps.any (fun p => decide (p = .draining))) = false →
        ((ps.set 0 x).any (fun p => decide (p = .draining))) = false := by
      intro ps x hx h
      rw [List.any_eq_false] at h ⊢
      intro y hy
      rcases List.mem_or_eq_of_mem_set hy with hy | rfl
      · exact h y hy
      · simpa using hx
    have hl' : locked s = false := by simpa using hl
    have sending : ∀ (s : State P U) (ps : List P), AMap.WF s.pending → 0 < s.procs.length → locked s = false →
        (∀ e ∈ s.queue, e.ts + cfg.debounce ≤ now) → s.procs[0]? = some (.sending ps) →
        ∃ k s' tr', (∀ op ∈ k, ByProc 0 op) ∧ run cfg s k = some (s', tr') ∧ s'.queue = [] ∧
          ∃ due, .round now due ∈ tr' ∧ ∀ e ∈ s.queue, e.path ∈ due := by
      intro s ps hw hpos hl hn hi
      obtain ⟨tr1, h1⟩ := emits cfg 0 ps s hi
      obtain ⟨k, s', tr', g1, g2, g3, due, g4, g5⟩ := idle { s with procs := s.procs.set 0 .idle } hw
        (by simpa using hpos) (nolock s.procs .idle (by simp) hl) hn (by simp [hpos])
      refine ⟨List.replicate (ps.length + 1) (.emit 0) ++ k, s', tr1 ++ tr', ?_, ?_, g3, due, by simp [g4], g5⟩
      · intro op hop
        rcases List.mem_append.mp hop with hop | hop
        · rw [(List.mem_replicate.mp hop).2]; rfl
        · exact g1 op hop
      · rw [run_append, h1]
        simp [g2]
    refine ⟨0, ?_⟩
    obtain ⟨x, hx⟩ : ∃ x, s.procs[0]? = some x := ⟨s.procs[0], by simp [hpos]⟩
    cases x with
    | idle => exact idle s hw hpos hl' hn hx
    | draining =>
      exact absurd hl' (by
        simp only [locked, Bool.not_eq_false]
        rw [List.any_eq_true]
        exact ⟨_, List.mem_of_getElem? hx, by simp⟩)
    | drained =>
      obtain ⟨k, s', tr', g1, g2, g3, due, g4, g5⟩ := sending
        { s with pending := s.pending.filter (fun e => !isDue cfg now e),
                 procs := s.procs.set 0 (.sending ((s.pending.filter (isDue cfg now)).map Prod.fst)) }
        ((s.pending.filter (isDue cfg now)).map Prod.fst) (wf_filter hw _) (by simpa using hpos)
        (nolock s.procs _ (by simp) hl') hn (by simp [hpos])
      refine ⟨.tick 0 now :: k, s', [.round now ((s.pending.filter (isDue cfg now)).map Prod.fst)] ++ tr', ?_, ?_, g3,
        due, List.mem_append.mpr (.inr g4), g5⟩
      rotate_left
      · simp only [run, step, hx]
        rw [g2]
      · intro op hop
        rcases List.mem_cons.mp hop with rfl | hop
        · rfl
        · exact g1 op hop
    | sending ps => exact sending s ps hw hpos hl' hn hx

/-! ### Concrete cases -/

/-- Started, a change of 4 seen by the first processor, stopped and started again; both processors look, the second
finds the change due; the first then finds nothing. (Specification: no counterpart in the code.) -/
def exampleAgain : List (Op Nat Nat) :=
  [.add 1004, .start, .os 0 .modified [4], .take 0, .stamp 0 10, .push 0, .lock 0, .recv 0, .unlock 0, .stop, .start,
   .lock 1, .unlock 1, .tick 1 70]

/-- The hypotheses of `C220_due` and `C220_processors_stay` hold. -/
example : (run exampleConfig {} (exampleAgain ++ [.tick 0 80, .emit 1, .emit 1])).any (fun x =>
    decide (x.2 = [.arrived ⟨4, 10⟩, .seen ⟨4, 10⟩, .round 70 [4], .round 80 [], .notified 1004]) &&
    x.1.procs.length == 2) = true := by decide

/-- The same, but no processor looked before the watcher was started again.
(Specification: no counterpart in the code.) -/
def exampleLost : List (Op Nat Nat) :=
  [.add 1004, .start, .os 0 .modified [4], .take 0, .stamp 0 10, .push 0]

/-- The hypotheses of `C220_restart_loses` hold: one change of 4 is in the channel and one with the forwarder, `start`
is called, and a processor looks much later. -/
example : ∃ s s' tr tr', run exampleConfig {} (exampleLost ++ [.os 0 .modified [4]]) = some (s, tr) ∧
    s.queue = [⟨4, 10⟩] ∧ Untaken 4 s ∧
    run exampleConfig s [.start, .take 0, .stamp 0 30, .push 0, .finish 0, .lock 0, .unlock 0, .tick 0 5000, .emit 0] =
      some (s', tr') ∧
    tr' = [.failed ⟨4, 30⟩, .round 5000 []] := by
  refine ⟨_, _, _, _, rfl, rfl, ⟨?_, ?_⟩, rfl, rfl⟩
  · intro h; cases h
  · intro ps h; cases List.mem_singleton.mp h

/-- The hypotheses of `C220_reported_partial` hold, and without `start` the change is reported. -/
example : .start ∈ exampleLost ∧ (run exampleConfig {} (exampleLost ++
    [.stop, .lock 0, .recv 0, .unlock 0, .tick 0 60, .emit 0])).any
    (fun x => decide (x.2 = [.arrived ⟨4, 10⟩, .seen ⟨4, 10⟩, .round 60 [4], .notified 1004])) = true := by
  constructor
  · simp [exampleLost]
  · decide

end Verif.Watcher.Again
