import Verif.Roots.Sender

/-
Property C246: a root whose unregister function has been called is not listed any more.

Models /repo/src/server/roots.rs L93-143 once more, in its parts: `register_root` puts the root into the list under the
lock (L111-114), tells (L117) and returns the function (L124-142); the function only starts a task (L129) and returns; the
task removes the root under the lock (L130-133) and tells (L136-139). The manager has its sender from the beginning
(`set_notification_sender` takes `&mut self`, L72; which sender is told when it changes is property C176).
-/

namespace Verif.Roots

/-- How far a registration is: in the list but not told, returned, its function called, removed but that not told, all
over. /repo/src/server/roots.rs L93-143. -/
inductive Stage where
  | registering
  | ready
  | called
  | removed
  | over
  deriving DecidableEq

/-- The manager, the registrations in progress, and on the other side the number of notifications and the list as read
at the last of them by a listener that reads it each time. /repo/src/server/roots.rs L36-41, L93-148. -/
structure Tasks where
  base : State := {}
  stages : List Stage := []
  notes : Nat := 0
  seen : List Root := []
  deriving DecidableEq

/-- What happens: `register_root` up to L114, the rest of it, a call of the function, the task up to L133, the rest of it.
/repo/src/server/roots.rs L93-143. -/
inductive Event where
  | register (uri : Text) (name : Option Text)
  | registered (k : Nat)
  | call (k : Nat)
  | task (k : Nat)
  | told (k : Nat)
  deriving DecidableEq

/-- One step; `none` if it is not possible. The task of a function that finds no root tells nobody (L131).
/repo/src/server/roots.rs L93-143. -/
def part (x : Tasks) : Event → Option Tasks
  | .register uri name =>
    match step x.base (.register uri name) with
    | (s, .handle _) => some { x with base := s, stages := x.stages ++ [.registering] }
    | (s, _) => some { x with base := s }
  | .registered k =>
    if x.stages[k]? = some .registering then
      some { x with stages := x.stages.set k .ready, notes := x.notes + 1, seen := getRoots x.base }
    else none
  | .call k => if x.stages[k]? = some .ready then some { x with stages := x.stages.set k .called } else none
  | .task k =>
    if x.stages[k]? = some .called then
      match step x.base (.unregister k) with
      | (s, .removed) => some { x with base := s, stages := x.stages.set k .removed }
      | (s, _) => some { x with base := s, stages := x.stages.set k .over }
    else none
  | .told k =>
    if x.stages[k]? = some .removed then
      some { x with stages := x.stages.set k .over, notes := x.notes + 1, seen := getRoots x.base }
    else none

/-- An execution. (Any interleaving of the sections of /repo/src/server/roots.rs L93-143.) -/
def parts (x : Tasks) : List Event → Option Tasks
  | [] => some x
  | e :: l => (part x e).bind (fun y => parts y l)

/-- The calls with a task where it removes the root. (Specification: no counterpart in the code.) -/
def changesOf (l : List Event) : List Op :=
  l.filterMap (fun
    | .register u n => some (.register u n)
    | .task k => some (.unregister k)
    | _ => none)

/-- The registration is in the list as far as it is concerned. (Specification: no counterpart in the code.) -/
def present : Stage → Bool
  | .registering | .ready | .called => true
  | _ => false

/-- A notification is still to be sent. (Specification: no counterpart in the code.) -/
def owing : Stage → Bool
  | .registering | .removed => true
  | _ => false

theorem parts_snoc (l : List Event) (e : Event) (x : Tasks) : parts x (l ++ [e]) = (parts x l).bind (fun y => part y e) := by
  induction l generalizing x with
  | nil => simp only [List.nil_append, parts, Option.bind_some]; cases part x e <;> rfl
  | cons o l ih =>
    simp only [List.cons_append, parts]
    cases part x o with
    | none => rfl
    | some y => exact ih y

/-- What holds in every execution. (Specification: no counterpart in the code.) -/
structure Mid (l : List Event) (x : Tasks) : Prop where
  base : x.base = run (changesOf l)
  len : x.stages.length = x.base.handles.length
  open_iff : ∀ k : Nat, (∃ u, x.base.handles[k]? = some (u, false)) ↔ ∃ s, x.stages[k]? = some s ∧ present s = true

theorem live_open (l : List Event) (x : Tasks) (hm : Mid l x) (k : Nat) (u : Text)
    (h : x.base.handles[k]? = some (u, false)) : ∃ r, (k, r) ∈ (Spec.run (changesOf l)).live ∧ r.uri = u := by
  have hi := inv_run (changesOf l)
  rw [hm.base] at h
  exact (hi.open_iff k u).mp h

theorem set_open (x : Tasks) (k : Nat) (s s' : Stage) (h : x.stages[k]? = some s) (hp : present s = present s') (j : Nat) :
    (∃ a, (x.stages.set k s')[j]? = some a ∧ present a = true) ↔ ∃ a, x.stages[j]? = some a ∧ present a = true := by
  simp only [List.getElem?_set]
  split
  · next e =>
    subst e
    have : k < x.stages.length := (List.getElem?_eq_some_iff.mp h).1
    rw [if_pos this, h]
    constructor
    · rintro ⟨a, ha, hq⟩; cases ha; exact ⟨s, rfl, hp.trans hq⟩
    · rintro ⟨a, ha, hq⟩; cases ha; exact ⟨s', rfl, hp.symm.trans hq⟩
  · rfl

/-- A task whose function was called finds a root. -/
theorem task_removes (l : List Event) (x : Tasks) (hm : Mid l x) (k : Nat) (hk : x.stages[k]? = some .called) :
    ∃ u, x.base.handles[k]? = some (u, false) ∧
      step x.base (.unregister k) = (⟨removeFirst u x.base.roots, x.base.handles.set k (u, true)⟩, .removed) := by
  obtain ⟨u, hu⟩ := (hm.open_iff k).mpr ⟨_, hk, rfl⟩
  obtain ⟨r, hr, -⟩ := live_open l x hm k u hu
  have h1 := ((C28_notified (changesOf l) k).1 ⟨r, hr⟩).1
  rw [← hm.base] at h1
  exact ⟨u, hu, Prod.ext (step_unregister_open _ hu) h1⟩

theorem mid_parts (l : List Event) (x : Tasks) (h : parts {} l = some x) : Mid l x := by
  induction l using snocInduction generalizing x with
  | nil =>
    simp only [parts, Option.some.injEq] at h; subst h
    exact ⟨rfl, rfl, by simp⟩
  | append_singleton l e ih =>
    rw [parts_snoc, Option.bind_eq_some_iff] at h
    obtain ⟨y, h1, h2⟩ := h
    have hm := ih y h1
    cases e with
    | register u n =>
      have hops : changesOf (l ++ [.register u n]) = changesOf l ++ [.register u n] := by simp [changesOf]
      by_cases ha : Accepted u
      · simp only [part, step_register_ok _ n ha, Option.some.injEq] at h2
        subst h2
        refine ⟨?_, by simp [hm.len], ?_⟩
        · rw [hops, run_snoc, ← hm.base, step_register_ok _ n ha]
        · intro k
          simp only [List.getElem?_append, hm.len]
          split
          · exact hm.open_iff k
          · rw [List.getElem?_singleton, List.getElem?_singleton]
            split
            · exact ⟨fun _ => ⟨_, rfl, rfl⟩, fun _ => ⟨u, rfl⟩⟩
            · simp
      · simp only [part, step_register_bad _ n ha, Option.some.injEq] at h2
        subst h2
        refine ⟨?_, hm.len, hm.open_iff⟩
        rw [hops, run_snoc, ← hm.base, step_register_bad _ n ha]
    | registered k =>
      have hops : changesOf (l ++ [.registered k]) = changesOf l := by simp [changesOf]
      simp only [part] at h2
      split at h2
      · next hk =>
        cases h2
        exact ⟨by rw [hops]; exact hm.base, by simpa using hm.len,
          fun j => (hm.open_iff j).trans (set_open y k _ .ready hk rfl j).symm⟩
      · cases h2
    | call k =>
      have hops : changesOf (l ++ [.call k]) = changesOf l := by simp [changesOf]
      simp only [part] at h2
      split at h2
      · next hk =>
        cases h2
        exact ⟨by rw [hops]; exact hm.base, by simpa using hm.len,
          fun j => (hm.open_iff j).trans (set_open y k _ .called hk rfl j).symm⟩
      · cases h2
    | told k =>
      have hops : changesOf (l ++ [.told k]) = changesOf l := by simp [changesOf]
      simp only [part] at h2
      split at h2
      · next hk =>
        cases h2
        exact ⟨by rw [hops]; exact hm.base, by simpa using hm.len,
          fun j => (hm.open_iff j).trans (set_open y k _ .over hk rfl j).symm⟩
      · cases h2
    | task k =>
      have hops : changesOf (l ++ [.task k]) = changesOf l ++ [.unregister k] := by simp [changesOf]
      simp only [part] at h2
      split at h2
      · next hk =>
        obtain ⟨u, hu, hs⟩ := task_removes l y hm k hk
        simp only [hs, Option.some.injEq] at h2
        subst h2
        refine ⟨?_, by simpa using hm.len, ?_⟩
        · rw [hops, run_snoc, ← hm.base, hs]
        · intro j
          simp only [List.getElem?_set]
          split
          · next e =>
            subst e
            rw [if_pos (List.getElem?_eq_some_iff.mp hu).1, if_pos (List.getElem?_eq_some_iff.mp hk).1]
            simp [present]
          · exact hm.open_iff j
      · cases h2

/-- **C246** (what stays true). In every execution the list is as if the roots were unregistered where the tasks run, so
that all of C28 holds of it. -/
theorem C246_as_if_atomic (l : List Event) (x : Tasks) (h : parts {} l = some x) :
    getRoots x.base = getRoots (run (changesOf l)) := by rw [(mid_parts l x h).base]

/-- **C246** (exactly). In every execution an address is listed precisely while there is a registration of it whose task
has not run: the call of the function makes no difference. -/
theorem C246_listed_iff (l : List Event) (x : Tasks) (h : parts {} l = some x) (u : Text) :
    (∃ r ∈ getRoots x.base, r.uri = u) ↔
      ∃ (k : Nat) (s : Stage), x.base.handles[k]?.map (·.1) = some u ∧ x.stages[k]? = some s ∧
        (s = .registering ∨ s = .ready ∨ s = .called) := by
  have hm := mid_parts l x h
  have hi := inv_run (changesOf l)
  have hc := C28_uri_counts (changesOf l) u
  rw [← hm.base] at hc
  have e1 : (∃ r ∈ getRoots x.base, r.uri = u) ↔ 0 < ((getRoots x.base).filter (fun r => decide (r.uri = u))).length := by
    rw [List.length_pos_iff_exists_mem]
    simp
  have e2 : 0 < liveCount (Spec.run (changesOf l)) u ↔ ∃ p ∈ (Spec.run (changesOf l)).live, p.2.uri = u := by
    rw [liveCount, List.length_pos_iff_exists_mem]
    simp
  rw [e1, hc, e2]
  constructor
  · rintro ⟨⟨k, r⟩, hp, hu⟩
    have ho : x.base.handles[k]? = some (u, false) := by rw [hm.base]; exact (hi.open_iff k u).mpr ⟨r, hp, hu⟩
    obtain ⟨s, hs, hq⟩ := (hm.open_iff k).mp ⟨u, ho⟩
    refine ⟨k, s, by rw [ho]; rfl, hs, ?_⟩
    cases s <;> simp_all [present]
  · rintro ⟨k, s, hu, hs, hq⟩
    obtain ⟨u', ho⟩ := (hm.open_iff k).mpr ⟨s, hs, by rcases hq with rfl | rfl | rfl <;> rfl⟩
    rw [ho] at hu
    simp only [Option.map_some, Option.some.injEq] at hu
    subst hu
    obtain ⟨r, hr, hru⟩ := live_open l x hm k u' ho
    exact ⟨(k, r), hr, hru⟩

example : (parts {} [.register "file:///a".toList none, .registered 0, .call 0]).map
    (fun x => ((getRoots x.base).length, x.stages)) = some (1, [.called]) := by decide +kernel

/-- **C246** (refuted). After the function has been called, and has returned, the root is still listed, whatever else
happens, until the task runs. -/
theorem C246_still_listed (l m : List Event) (k : Nat) (u : Text) (x y : Tasks) (hx : parts {} (l ++ [.call k]) = some x)
    (hu : x.base.handles[k]?.map (·.1) = some u) (hm : .task k ∉ m) (hy : parts x m = some y) :
    ∃ r ∈ getRoots y.base, r.uri = u := by
  have hk : x.stages[k]? = some .called := by
    rw [parts_snoc, Option.bind_eq_some_iff] at hx
    obtain ⟨z, -, h2⟩ := hx
    simp only [part] at h2
    split at h2
    · next hk =>
      cases h2
      simp only [List.getElem?_set, if_true]
      rw [if_pos (List.getElem?_eq_some_iff.mp hk).1]
    · cases h2
  suffices hs : ∀ (m l : List Event) (x : Tasks), parts {} l = some x → x.stages[k]? = some .called →
      x.base.handles[k]?.map (·.1) = some u → .task k ∉ m → parts x m = some y → ∃ r ∈ getRoots y.base, r.uri = u from
    hs m _ x hx hk hu hm hy
  intro m
  induction m with
  | nil =>
    intro l x hx hk hu _ hy
    simp only [parts, Option.some.injEq] at hy
    subst hy
    exact (C246_listed_iff l x hx u).mpr ⟨k, _, hu, hk, .inr (.inr rfl)⟩
  | cons e m ih =>
    intro l x hx hk hu hm hy
    simp only [parts, Option.bind_eq_some_iff] at hy
    obtain ⟨z, h1, h2⟩ := hy
    have hz : parts {} (l ++ [e]) = some z := by rw [parts_snoc, hx]; exact h1
    have hset : ∀ (j : Nat) (s s' : Stage), x.stages[j]? = some s → s ≠ .called → (x.stages.set j s')[k]? = some .called := by
      intro j s s' hj hne
      rw [List.getElem?_set_ne, hk]
      rintro rfl
      rw [hj] at hk
      exact hne (Option.some.inj hk)
    suffices hq : z.stages[k]? = some .called ∧ z.base.handles[k]?.map (·.1) = some u from
      ih _ z hz hq.1 hq.2 (fun hn => hm (List.mem_cons_of_mem _ hn)) h2
    have hlt : k < x.stages.length := (List.getElem?_eq_some_iff.mp hk).1
    have hmid := mid_parts l x hx
    cases e with
    | register u' n =>
      by_cases ha : Accepted u'
      · simp only [part, step_register_ok _ n ha, Option.some.injEq] at h1
        subst h1
        exact ⟨by rw [List.getElem?_append_left hlt]; exact hk,
          by rw [List.getElem?_append_left (by rw [← hmid.len]; exact hlt)]; exact hu⟩
      · simp only [part, step_register_bad _ n ha, Option.some.injEq] at h1
        subst h1
        exact ⟨hk, hu⟩
    | registered j =>
      simp only [part] at h1
      split at h1
      · next hj => cases h1; exact ⟨hset j _ _ hj (by simp), hu⟩
      · cases h1
    | call j =>
      simp only [part] at h1
      split at h1
      · next hj => cases h1; exact ⟨hset j _ _ hj (by simp), hu⟩
      · cases h1
    | told j =>
      simp only [part] at h1
      split at h1
      · next hj => cases h1; exact ⟨hset j _ _ hj (by simp), hu⟩
      · cases h1
    | task j =>
      have hne : j ≠ k := by rintro rfl; exact hm List.mem_cons_self
      simp only [part] at h1
      split at h1
      · next hj =>
        obtain ⟨u', hu', hs⟩ := task_removes l x hmid j hj
        simp only [hs, Option.some.injEq] at h1
        subst h1
        exact ⟨by rw [List.getElem?_set_ne hne]; exact hk, by rw [List.getElem?_set_ne hne]; exact hu⟩
      · cases h1

example : ∃ x, parts {} ([.register "file:///a".toList none, .registered 0] ++ [.call 0]) = some x ∧
    x.base.handles[0]?.map (·.1) = some "file:///a".toList ∧
    (parts x [.register "file:///b".toList none, .registered 1]).isSome := by
  refine ⟨(parts {} ([.register "file:///a".toList none, .registered 0] ++ [.call 0])).get (by decide +kernel), ?_⟩
  decide +kernel

/-- **C246** (listeners). In every execution, when no notification is owed any more, a listener that reads the list at each
notification has the list as it is. -/
theorem C246_listener (l : List Event) (x : Tasks) (h : parts {} l = some x)
    (hq : ∀ s ∈ x.stages, s ≠ .registering ∧ s ≠ .removed) : x.seen = getRoots x.base := by
  have gen : ∀ (l : List Event) (x : Tasks), parts {} l = some x →
      x.seen = getRoots x.base ∨ ∃ s ∈ x.stages, owing s = true := by
    intro l
    induction l using snocInduction with
    | nil => intro x h; simp only [parts, Option.some.injEq] at h; subst h; exact .inl rfl
    | append_singleton l e ih =>
      intro x h
      rw [parts_snoc, Option.bind_eq_some_iff] at h
      obtain ⟨y, h1, h2⟩ := h
      have hm := mid_parts l y h1
      cases e with
      | register u n =>
        by_cases ha : Accepted u
        · simp only [part, step_register_ok _ n ha, Option.some.injEq] at h2
          subst h2
          exact .inr ⟨.registering, by simp, rfl⟩
        · simp only [part, step_register_bad _ n ha, Option.some.injEq] at h2
          subst h2
          exact ih y h1
      | registered k =>
        simp only [part] at h2
        split at h2
        · cases h2; exact .inl rfl
        · cases h2
      | told k =>
        simp only [part] at h2
        split at h2
        · cases h2; exact .inl rfl
        · cases h2
      | call k =>
        simp only [part] at h2
        split at h2
        · next hk =>
          cases h2
          rcases ih y h1 with he | ⟨s, hs, ho⟩
          · exact .inl he
          · refine .inr ⟨s, ?_, ho⟩
            obtain ⟨j, hj⟩ := List.mem_iff_getElem?.mp hs
            refine List.mem_of_getElem? (i := j) ?_
            rw [List.getElem?_set_ne, hj]
            rintro rfl
            rw [hk] at hj
            cases hj
            cases ho
        · cases h2
      | task k =>
        simp only [part] at h2
        split at h2
        · next hk =>
          obtain ⟨u, -, hs⟩ := task_removes l y hm k hk
          simp only [hs, Option.some.injEq] at h2
          subst h2
          refine .inr ⟨.removed, List.mem_of_getElem? (i := k) ?_, rfl⟩
          rw [List.getElem?_set_self]
          exact (List.getElem?_eq_some_iff.mp hk).1
        · cases h2
  rcases gen l x h with he | ⟨s, hs, ho⟩
  · exact he
  · obtain ⟨h1, h2⟩ := hq s hs
    cases s <;> simp_all [owing]

/-- Two registrations and a removal overlap; at the end nothing is owed and the listener has the list. -/
example : (parts {} [.register "file:///a".toList none, .register "file:///b".toList none, .registered 0, .call 0, .task 0,
    .registered 1, .told 0]).map (fun x => (x.stages, x.seen.map (·.uri), x.notes)) =
    some ([.over, .ready], ["file:///b".toList], 3) := by decide +kernel

theorem countP_setStage (p : Stage → Bool) (l : List Stage) (k : Nat) (a b : Stage) (h : l[k]? = some a) :
    (l.set k b).countP p + (if p a then 1 else 0) = l.countP p + (if p b then 1 else 0) := by
  induction l generalizing k with
  | nil => simp at h
  | cons c l ih =>
    cases k with
    | zero =>
      simp only [List.getElem?_cons_zero, Option.some.injEq] at h
      subst h
      simp only [List.set_cons_zero, List.countP_cons]
      omega
    | succ k =>
      simp only [List.getElem?_cons_succ] at h
      have := ih k h
      simp only [List.set_cons_succ, List.countP_cons]
      omega

/-- The list changes: a root accepted, a task run. (Specification: no counterpart in the code.) -/
def changed : Event → Bool
  | .register u _ => decide (Accepted u)
  | .task _ => true
  | _ => false

/-- **C246** (one each). In every execution the notifications sent and those still owed are as many as the changes of the
list: every root accepted and every task that ran, for none of them finds nothing to remove. -/
theorem C246_one_each (l : List Event) (x : Tasks) (h : parts {} l = some x) :
    x.notes + x.stages.countP (fun s => decide (s = .registering ∨ s = .removed)) = l.countP changed := by
  induction l using snocInduction generalizing x with
  | nil => simp only [parts, Option.some.injEq] at h; subst h; rfl
  | append_singleton l e ih =>
    rw [parts_snoc, Option.bind_eq_some_iff] at h
    obtain ⟨y, h1, h2⟩ := h
    have hm := mid_parts l y h1
    have hy := ih y h1
    rw [List.countP_append, List.countP_singleton, ← hy]
    cases e with
    | register u n =>
      by_cases ha : Accepted u
      · simp only [part, step_register_ok _ n ha, Option.some.injEq] at h2
        subst h2
        simp [List.countP_append, changed, ha]; omega
      · simp only [part, step_register_bad _ n ha, Option.some.injEq] at h2
        subst h2
        simp [changed, ha]
    | registered k =>
      simp only [part] at h2
      split at h2
      · next hk =>
        cases h2
        have := countP_setStage (fun s => decide (s = .registering ∨ s = .removed)) y.stages k _ .ready hk
        simp at this
        simp [changed]; omega
      · cases h2
    | told k =>
      simp only [part] at h2
      split at h2
      · next hk =>
        cases h2
        have := countP_setStage (fun s => decide (s = .registering ∨ s = .removed)) y.stages k _ .over hk
        simp at this
        simp [changed]; omega
      · cases h2
    | call k =>
      simp only [part] at h2
      split at h2
      · next hk =>
        cases h2
        have := countP_setStage (fun s => decide (s = .registering ∨ s = .removed)) y.stages k _ .called hk
        simp at this
        simp [changed]; omega
      · cases h2
    | task k =>
      simp only [part] at h2
      split at h2
      · next hk =>
        obtain ⟨u, -, hs⟩ := task_removes l y hm k hk
        simp only [hs, Option.some.injEq] at h2
        subst h2
        have := countP_setStage (fun s => decide (s = .registering ∨ s = .removed)) y.stages k _ .removed hk
        simp at this
        simp [changed]; omega
      · cases h2

end Verif.Roots
