import Verif.Session.Props

/-
Session operations of any number of tasks, interleaved: C197.

Models /repo/src/shared/session.rs L141-271 with the atomic map operations of `DashMap` as steps, including the
validation and the sweep, and the callbacks.
-/

namespace Verif.Session.Races

open Verif Verif.Session

variable {Id D A : Type} [DecidableEq Id]

/-- Where a task is inside a call (/repo/src/shared/session.rs L141-271). -/
inductive Task (Id D A : Type) where
  /-- `create_session` past the length check, L143. -/
  | creating
  /-- `get_session` between the clone and the insert, L179-184; `validate` tells who called it. -/
  | reading (id : Id) (x : Session Id D A) (validate : Bool)
  /-- `validate_session` with the session it got, L197. -/
  | judging (id : Id) (x : Session Id D A)
  /-- `validate_session` about to destroy, L198. -/
  | expiring (id : Id)
  /-- `cleanup_expired` with the time it read and the ids collected so far, L254-262. -/
  | sweeping (now : Int) (ids : List Id)

/-- What can be observed: callbacks, and the verdicts of `validate_session` (/repo/src/shared/session.rs L164-167,
L191-206, L238-241, L264-267). -/
inductive Obs (Id : Type) where
  | created (id : Id)
  | destroyed (id : Id)
  | expired (id : Id) (now : Int)
  | accepted (id : Id) (now : Int)
  | refused (id : Id) (now : Int)
  deriving DecidableEq

/-- The table, the tasks and what was observed (/repo/src/shared/session.rs L83-92). -/
structure RState (Id D A : Type) where
  sessions : AMap Id (Session Id D A)
  tasks : AMap Nat (Task Id D A)
  trace : List (Obs Id)

/-- `SessionManager::new`, /repo/src/shared/session.rs L132-138. -/
def rinit : RState Id D A := ⟨[], [], []⟩

/-- Atomic operations; `t` names the task (/repo/src/shared/session.rs L141-271).  The iteration of `cleanup_expired`
locks the shards of the map one after another, so each entry is looked at on its own, at any moment. -/
inductive RAtom (Id D A : Type) where
  | createCheck (t : Nat)
  | createInsert (t : Nat) (id : Id) (d : D) (now : Int)
  | read (t : Nat) (id : Id) (now : Int) (validate : Bool)
  | write (t : Nat)
  | judge (t : Nat) (now : Int)
  | expire (t : Nat)
  | update (id : Id) (f : Session Id D A → Session Id D A) (now : Int)
  | destroy (id : Id)
  | sweepStart (t : Nat) (now : Int)
  | look (t : Nat) (id : Id)
  | sweepOne (t : Nat)

/-- `destroy_session`, /repo/src/shared/session.rs L233-250. -/
def drop (s : RState Id D A) (id : Id) : RState Id D A :=
  match s.sessions.get id with
  | some _ => { s with sessions := s.sessions.remove id, trace := s.trace ++ [.destroyed id] }
  | none => s

/-- One atomic operation; one that its task is not at is skipped (/repo/src/shared/session.rs L141-271). -/
def rstep (max : Nat) (timeout : Int) (s : RState Id D A) : RAtom Id D A → RState Id D A
  | .createCheck t =>
    if s.sessions.length ≥ max then s else { s with tasks := s.tasks.insert t .creating }
  | .createInsert t id d now =>
    match s.tasks.get t with
    | some .creating =>
      { sessions := s.sessions.insert id (newSession timeout id d now), tasks := s.tasks.remove t,
        trace := s.trace ++ [.created id] }
    | _ => s
  | .read t id now v =>
    match s.sessions.get id with
    | none => s
    | some x => { s with tasks := s.tasks.insert t (.reading id { x with lastActivity := now } v) }
  | .write t =>
    match s.tasks.get t with
    | some (.reading id x v) =>
      { s with sessions := s.sessions.insert id x,
               tasks := if v then s.tasks.insert t (.judging id x) else s.tasks.remove t }
    | _ => s
  | .judge t now =>
    match s.tasks.get t with
    | some (.judging id x) =>
      if x.expiresAt < now then
        { s with tasks := s.tasks.insert t (.expiring id), trace := s.trace ++ [.refused id now] }
      else { s with tasks := s.tasks.remove t, trace := s.trace ++ [.accepted id now] }
    | _ => s
  | .expire t =>
    match s.tasks.get t with
    | some (.expiring id) => drop { s with tasks := s.tasks.remove t } id
    | _ => s
  | .update id f now =>
    match s.sessions.get id with
    | none => s
    | some x => { s with sessions := s.sessions.insert id { f x with lastActivity := now } }
  | .destroy id => drop s id
  | .sweepStart t now => { s with tasks := s.tasks.insert t (.sweeping now []) }
  | .look t id =>
    match s.tasks.get t, s.sessions.get id with
    | some (.sweeping now ids), some x =>
      if x.expiresAt < now then { s with tasks := s.tasks.insert t (.sweeping now (ids ++ [id])) } else s
    | _, _ => s
  | .sweepOne t =>
    match s.tasks.get t with
    | some (.sweeping now (id :: ids)) =>
      match s.sessions.get id with
      | some _ => { sessions := s.sessions.remove id, tasks := s.tasks.insert t (.sweeping now ids),
                    trace := s.trace ++ [.expired id now] }
      | none => { s with tasks := s.tasks.insert t (.sweeping now ids) }
    | _ => s

/-- Any schedule (/repo/src/shared/session.rs L141-271). -/
def rrun (max : Nat) (timeout : Int) (s : RState Id D A) (h : List (RAtom Id D A)) : RState Id D A :=
  h.foldl (rstep max timeout) s

theorem rrun_snoc (max : Nat) (timeout : Int) (s : RState Id D A) (h : List (RAtom Id D A)) (a : RAtom Id D A) :
    rrun max timeout s (h ++ [a]) = rstep max timeout (rrun max timeout s h) a := by
  simp [rrun, List.foldl_append]

/-! ### Expiry -/

/-- Every copy of session `id` expires at `e`, and verdicts are in accord.
(Specification: no counterpart in the code.) -/
structure Fixed (s : RState Id D A) (id : Id) (e : Int) : Prop where
  table : ∀ x, s.sessions.get id = some x → x.expiresAt = e
  reading : ∀ t x v, s.tasks.get t = some (.reading id x v) → x.expiresAt = e
  judging : ∀ t x, s.tasks.get t = some (.judging id x) → x.expiresAt = e
  sweeping : ∀ t now ids, s.tasks.get t = some (.sweeping now ids) → id ∈ ids → e < now
  accepted : ∀ now, Obs.accepted id now ∈ s.trace → now ≤ e
  refused : ∀ now, Obs.refused id now ∈ s.trace → e < now
  expired : ∀ now, Obs.expired id now ∈ s.trace → e < now

theorem fixed_drop {s : RState Id D A} {id : Id} {e : Int} (h : Fixed s id e) (j : Id) : Fixed (drop s j) id e := by
  unfold drop
  split
  · refine ⟨fun x hx => ?_, h.reading, h.judging, h.sweeping, ?_, ?_, ?_⟩
    · simp only [AMap.get_remove] at hx
      split at hx
      · cases hx
      · exact h.table x hx
    · intro now hn; simp only [List.mem_append, List.mem_singleton, reduceCtorEq, or_false] at hn; exact h.accepted now hn
    · intro now hn; simp only [List.mem_append, List.mem_singleton, reduceCtorEq, or_false] at hn; exact h.refused now hn
    · intro now hn; simp only [List.mem_append, List.mem_singleton, reduceCtorEq, or_false] at hn; exact h.expired now hn
  · exact h

/-- Replacing the place of one task. -/
theorem fixed_task {s : RState Id D A} {id : Id} {e : Int} (h : Fixed s id e) (t : Nat) (k : Task Id D A)
    (h1 : ∀ x v, k = .reading id x v → x.expiresAt = e) (h2 : ∀ x, k = .judging id x → x.expiresAt = e)
    (h3 : ∀ now ids, k = .sweeping now ids → id ∈ ids → e < now) :
    Fixed { s with tasks := s.tasks.insert t k } id e := by
  refine ⟨h.table, ?_, ?_, ?_, h.accepted, h.refused, h.expired⟩
  · intro u x v hu
    simp only [AMap.get_insert] at hu
    split at hu
    · exact h1 x v (Option.some.inj hu)
    · exact h.reading u x v hu
  · intro u x hu
    simp only [AMap.get_insert] at hu
    split at hu
    · exact h2 x (Option.some.inj hu)
    · exact h.judging u x hu
  · intro u now ids hu
    simp only [AMap.get_insert] at hu
    split at hu
    · exact h3 now ids (Option.some.inj hu)
    · exact h.sweeping u now ids hu

theorem fixed_untask {s : RState Id D A} {id : Id} {e : Int} (h : Fixed s id e) (t : Nat) :
    Fixed { s with tasks := s.tasks.remove t } id e := by
  refine ⟨h.table, ?_, ?_, ?_, h.accepted, h.refused, h.expired⟩
  · intro u x v hu
    simp only [AMap.get_remove] at hu
    split at hu
    · cases hu
    · exact h.reading u x v hu
  · intro u x hu
    simp only [AMap.get_remove] at hu
    split at hu
    · cases hu
    · exact h.judging u x hu
  · intro u now ids hu
    simp only [AMap.get_remove] at hu
    split at hu
    · cases hu
    · exact h.sweeping u now ids hu

theorem fixed_insert {s : RState Id D A} {id : Id} {e : Int} (h : Fixed s id e) (j : Id) (x : Session Id D A)
    (hx : j = id → x.expiresAt = e) : Fixed { s with sessions := s.sessions.insert j x } id e := by
  refine ⟨fun y hy => ?_, h.reading, h.judging, h.sweeping, h.accepted, h.refused, h.expired⟩
  simp only [AMap.get_insert] at hy
  split at hy
  · next hj => cases hy; exact hx hj.symm
  · exact h.table y hy

theorem fixed_trace {s : RState Id D A} {id : Id} {e : Int} (h : Fixed s id e) (o : Obs Id)
    (h1 : ∀ now, o = .accepted id now → now ≤ e) (h2 : ∀ now, o = .refused id now → e < now)
    (h3 : ∀ now, o = .expired id now → e < now) : Fixed { s with trace := s.trace ++ [o] } id e := by
  refine ⟨h.table, h.reading, h.judging, h.sweeping, ?_, ?_, ?_⟩ <;> intro now hn <;>
    simp only [List.mem_append, List.mem_singleton] at hn <;> rcases hn with hn | hn
  · exact h.accepted now hn
  · exact h1 now hn.symm
  · exact h.refused now hn
  · exact h2 now hn.symm
  · exact h.expired now hn
  · exact h3 now hn.symm

theorem fixed_step (max : Nat) (timeout : Int) {s : RState Id D A} {id : Id} {c : Int} (h : Fixed s id (c + timeout))
    (a : RAtom Id D A) (hc : ∀ t d n, a = .createInsert t id d n → n = c) (hu : ∀ f n, a ≠ .update id f n) :
    Fixed (rstep max timeout s a) id (c + timeout) := by
  cases a with
  | createCheck t =>
    simp only [rstep]
    split
    · exact h
    · exact fixed_task h t _ (fun _ _ hk => nomatch hk) (fun _ hk => nomatch hk) (fun _ _ hk => nomatch hk)
  | createInsert t j d now =>
    simp only [rstep]
    split
    · have := fixed_trace (fixed_insert (fixed_untask h t) j (newSession timeout j d now) (by
        rintro rfl; rw [hc t d now rfl]; rfl)) (.created j) (fun _ hk => nomatch hk) (fun _ hk => nomatch hk)
        (fun _ hk => nomatch hk)
      exact this
    · exact h
  | read t j now v =>
    simp only [rstep]
    split
    · exact h
    · next x hx =>
      refine fixed_task h t _ ?_ (fun _ hk => nomatch hk) (fun _ _ hk => nomatch hk)
      intro y w hk
      simp only [Task.reading.injEq] at hk
      obtain ⟨rfl, rfl, rfl⟩ := hk
      exact h.table x hx
  | write t =>
    simp only [rstep]
    split
    · next j x v hx =>
      have h1 : Fixed { s with sessions := s.sessions.insert j x } id (c + timeout) :=
        fixed_insert h j x (by rintro rfl; exact h.reading t x v hx)
      cases v with
      | false => exact fixed_untask h1 t
      | true =>
        refine fixed_task h1 t _ (fun _ _ hk => nomatch hk) ?_ (fun _ _ hk => nomatch hk)
        intro y hk
        simp only [Task.judging.injEq] at hk
        obtain ⟨rfl, rfl⟩ := hk
        exact h.reading t x true hx
    · exact h
  | judge t now =>
    simp only [rstep]
    split
    · next j x hx =>
      split
      · next hlt =>
        have := fixed_trace (fixed_task h t (.expiring j) (fun _ _ hk => nomatch hk) (fun _ hk => nomatch hk)
          (fun _ _ hk => nomatch hk)) (.refused j now) (fun _ hk => nomatch hk) (by
            intro n hk; cases hk; rw [← h.judging t x hx]; exact hlt) (fun _ hk => nomatch hk)
        exact this
      · next hlt =>
        have := fixed_trace (fixed_untask h t) (.accepted j now) (by
            intro n hk; cases hk; rw [← h.judging t x hx]; omega) (fun _ hk => nomatch hk) (fun _ hk => nomatch hk)
        exact this
    · exact h
  | expire t =>
    simp only [rstep]
    split
    · exact fixed_drop (fixed_untask h t) _
    · exact h
  | update j f now =>
    simp only [rstep]
    split
    · exact h
    · exact fixed_insert h j _ (by rintro rfl; exact absurd rfl (hu f now))
  | destroy j => exact fixed_drop h j
  | sweepStart t now =>
    exact fixed_task h t _ (fun _ _ hk => nomatch hk) (fun _ hk => nomatch hk) (by
      intro n ids hk; cases hk; intro hm; cases hm)
  | look t j =>
    simp only [rstep]
    split
    · next now ids x ht hx =>
      split
      · next hlt =>
        refine fixed_task h t _ (fun _ _ hk => nomatch hk) (fun _ hk => nomatch hk) ?_
        intro n l hk hm
        simp only [Task.sweeping.injEq] at hk
        obtain ⟨rfl, rfl⟩ := hk
        simp only [List.mem_append, List.mem_singleton] at hm
        rcases hm with hm | rfl
        · exact h.sweeping t now ids ht hm
        · rw [← h.table x hx]; exact hlt
      · exact h
    · exact h
  | sweepOne t =>
    simp only [rstep]
    split
    · next now j ids ht =>
      have h0 : Fixed { s with tasks := s.tasks.insert t (.sweeping now ids) } id (c + timeout) :=
        fixed_task h t _ (fun _ _ hk => nomatch hk) (fun _ hk => nomatch hk) (by
          intro n l hk hm
          simp only [Task.sweeping.injEq] at hk
          obtain ⟨rfl, rfl⟩ := hk
          exact h.sweeping t now _ ht (List.mem_cons_of_mem _ hm))
      split
      · have h1 := fixed_trace h0 (.expired j now) (fun _ hk => nomatch hk) (fun _ hk => nomatch hk) (by
          intro n hk; cases hk; exact h.sweeping t now _ ht (List.mem_cons_self ..))
        refine ⟨fun x hx => ?_, h1.reading, h1.judging, h1.sweeping, h1.accepted, h1.refused, h1.expired⟩
        simp only [AMap.get_remove] at hx
        split at hx
        · cases hx
        · exact h.table x hx
      · exact h0
    · exact h

/-- **C197**, expiry under concurrency. Under every schedule of any number of tasks in which nobody's updater rewrites
the session, a session created at `c` is accepted by `validate_session` only up to `c + timeout`, and is refused as
expired or reported as expired only after that. Missing from the property: sessions an updater renews. -/
theorem C197_expiry_partial (max : Nat) (timeout : Int) (h : List (RAtom Id D A)) (id : Id) (c : Int)
    (hc : ∀ t d n, RAtom.createInsert t id d n ∈ h → n = c) (hu : ∀ f n, RAtom.update id f n ∉ h) (now : Int) :
    (Obs.accepted id now ∈ (rrun max timeout rinit h).trace → now ≤ c + timeout) ∧
    (Obs.refused id now ∈ (rrun max timeout rinit h).trace → c + timeout < now) ∧
    (Obs.expired id now ∈ (rrun max timeout rinit h).trace → c + timeout < now) := by
  have key : Fixed (rrun max timeout rinit h) id (c + timeout) := by
    induction h using snocInduction with
    | nil => constructor <;> simp [rrun, rinit]
    | append_singleton h a ih =>
      rw [rrun_snoc]
      refine fixed_step max timeout (ih ?_ ?_) a ?_ ?_
      · exact fun t d n hm => hc t d n (List.mem_append_left _ hm)
      · exact fun f n hm => hu f n (List.mem_append_left _ hm)
      · rintro t d n rfl; exact hc t d n (by simp)
      · rintro f n rfl; exact hu f n (by simp)
  exact ⟨key.accepted now, key.refused now, key.expired now⟩

/-- A session of 10 made at 0: accepted at 10, swept at 11 by a task that started its sweep in between. -/
example : (rrun 5 10 (rinit : RState Nat Unit Unit) [.createCheck 1, .createInsert 1 100 () 0, .read 2 100 9 true,
    .write 2, .sweepStart 3 11, .judge 2 10, .look 3 100, .sweepOne 3]).trace =
      [.created 100, .accepted 100 10, .expired 100 11] := by decide

/-- **C197** fails if an updater renews a session between the look of the sweep and its removal: the session is removed
and reported as expired although it is valid. -/
theorem C197_renewed_removed :
    (rrun 5 10 (rinit : RState Nat Unit Unit) [.createCheck 1, .createInsert 1 100 () 0, .sweepStart 2 11, .look 2 100,
      .update 100 (fun x => { x with expiresAt := 1000 }) 11, .read 3 100 12 true, .write 3, .judge 3 12, .sweepOne 2]) =
    { sessions := [], tasks := [(2, .sweeping 11 [])], trace := [.created 100, .accepted 100 12, .expired 100 11] } := by
  rfl

/-! ### Balance of the callbacks -/

/-- How often what satisfies `p` was observed. (Specification: no counterpart in the code.) -/
def count (p : Obs Id → Bool) (tr : List (Obs Id)) : Nat := tr.countP p

/-- The end of a session, as reported by the callbacks. (Specification: no counterpart in the code.) -/
def ended (id : Id) : Obs Id → Bool
  | .destroyed j => decide (j = id)
  | .expired j _ => decide (j = id)
  | _ => false

/-- The beginning of a session, as reported. (Specification: no counterpart in the code.) -/
def begun (id : Id) : Obs Id → Bool
  | .created j => decide (j = id)
  | _ => false

/-- The step brings back a session that is not in the table: the write of a lookup whose session was removed since the
read. (Specification: no counterpart in the code.) -/
def revives (s : RState Id D A) (id : Id) : RAtom Id D A → Bool
  | .write t => match s.tasks.get t with
    | some (.reading j _ _) => decide (j = id) && (s.sessions.get id).isNone
    | _ => false
  | _ => false

/-- How often a schedule does that. (Specification: no counterpart in the code.) -/
def revivals (max : Nat) (timeout : Int) (id : Id) : RState Id D A → List (RAtom Id D A) → Nat
  | _, [] => 0
  | s, a :: h => (revives s id a).toNat + revivals max timeout id (rstep max timeout s a) h

theorem revivals_snoc (max : Nat) (timeout : Int) (id : Id) (h : List (RAtom Id D A)) (a : RAtom Id D A)
    (s : RState Id D A) : revivals max timeout id s (h ++ [a]) =
      revivals max timeout id s h + (revives (rrun max timeout s h) id a).toNat := by
  induction h generalizing s with
  | nil => simp only [List.nil_append, revivals, Nat.add_zero, Nat.zero_add]; rfl
  | cons b h ih =>
    simp only [List.cons_append, revivals, ih]
    have : rrun max timeout s (b :: h) = rrun max timeout (rstep max timeout s b) h := rfl
    rw [this]; omega

/-- The ids a schedule creates. (Specification: no counterpart in the code.) -/
def creations : List (RAtom Id D A) → List Id
  | [] => []
  | .createInsert _ id _ _ :: h => id :: creations h
  | _ :: h => creations h

theorem creations_append (h k : List (RAtom Id D A)) : creations (h ++ k) = creations h ++ creations k := by
  induction h with
  | nil => rfl
  | cons a h ih => cases a <;> simp [creations, ih]

/-- Whatever is in the table or held by a lookup was created. (Specification: no counterpart in the code.) -/
structure Known (s : RState Id D A) (l : List Id) : Prop where
  table : ∀ id x, s.sessions.get id = some x → id ∈ l
  held : ∀ t id x v, s.tasks.get t = some (.reading id x v) → id ∈ l

theorem known_task {s : RState Id D A} {l : List Id} (h : Known s l) (t : Nat) (k : Task Id D A)
    (hk : ∀ id x v, k = .reading id x v → id ∈ l) : Known { s with tasks := s.tasks.insert t k } l := by
  refine ⟨h.table, fun u id x v hu => ?_⟩
  simp only [AMap.get_insert] at hu
  split at hu
  · exact hk id x v (Option.some.inj hu)
  · exact h.held u id x v hu

theorem known_untask {s : RState Id D A} {l : List Id} (h : Known s l) (t : Nat) :
    Known { s with tasks := s.tasks.remove t } l := by
  refine ⟨h.table, fun u id x v hu => ?_⟩
  simp only [AMap.get_remove] at hu
  split at hu
  · cases hu
  · exact h.held u id x v hu

theorem known_remove {s : RState Id D A} {l : List Id} (h : Known s l) (j : Id) (tr : List (Obs Id)) :
    Known { s with sessions := s.sessions.remove j, trace := tr } l := by
  refine ⟨fun id x hx => ?_, h.held⟩
  simp only [AMap.get_remove] at hx
  split at hx
  · cases hx
  · exact h.table id x hx

theorem known_insert {s : RState Id D A} {l : List Id} (h : Known s l) (j : Id) (y : Session Id D A) (hj : j ∈ l) :
    Known { s with sessions := s.sessions.insert j y } l := by
  refine ⟨fun id x hx => ?_, h.held⟩
  simp only [AMap.get_insert] at hx
  split at hx
  · next he => rw [he]; exact hj
  · exact h.table id x hx

theorem known_drop {s : RState Id D A} {l : List Id} (h : Known s l) (j : Id) : Known (drop s j) l := by
  unfold drop
  split
  · exact known_remove h j _
  · exact h

theorem known_mono {s : RState Id D A} {l : List Id} (h : Known s l) (k : List Id) : Known s (l ++ k) :=
  ⟨fun id x hx => List.mem_append_left _ (h.table id x hx), fun t id x v ht => List.mem_append_left _ (h.held t id x v ht)⟩

theorem known_step (max : Nat) (timeout : Int) {s : RState Id D A} {l : List Id} (h : Known s l) (a : RAtom Id D A) :
    Known (rstep max timeout s a) (l ++ creations [a]) := by
  cases a <;> simp only [creations, List.append_nil, rstep]
  case createCheck t =>
    split
    · exact h
    · exact known_task h t _ (fun _ _ _ hk => nomatch hk)
  case createInsert t j d now =>
    split
    · have := known_insert (known_untask (known_mono h [j]) t) j (newSession timeout j d now) (by simp)
      exact ⟨this.table, this.held⟩
    · exact known_mono h _
  case read t j now v =>
    split
    · exact h
    · next x hx =>
      refine known_task h t _ ?_
      intro id y w hk
      simp only [Task.reading.injEq] at hk
      obtain ⟨rfl, -, -⟩ := hk
      exact h.table j x hx
  case write t =>
    split
    · next j x v hx =>
      have h1 := known_insert h j x (h.held t j x v hx)
      cases v with
      | false => exact known_untask h1 t
      | true => exact known_task h1 t _ (fun _ _ _ hk => nomatch hk)
    · exact h
  case judge t now =>
    split
    · next j x ht =>
      split
      · have := known_task h t (.expiring j) (fun _ _ _ hk => nomatch hk)
        exact ⟨this.table, this.held⟩
      · have := known_untask h t
        exact ⟨this.table, this.held⟩
    · exact h
  case expire t =>
    split
    · exact known_drop (known_untask h t) _
    · exact h
  case update j f now =>
    split
    · exact h
    · next x hx => exact known_insert h j _ (h.table j x hx)
  case destroy j => exact known_drop h j
  case sweepStart t now => exact known_task h t _ (fun _ _ _ hk => nomatch hk)
  case look t j =>
    split
    · split
      · exact known_task h t _ (fun _ _ _ hk => nomatch hk)
      · exact h
    · exact h
  case sweepOne t =>
    split
    · next now j ids ht =>
      split
      · have := known_remove (known_task h t (.sweeping now ids) (fun _ _ _ hk => nomatch hk)) j (s.trace ++ [.expired j now])
        exact this
      · exact known_task h t _ (fun _ _ _ hk => nomatch hk)
    · exact h

/-- Is the session in the table. (Specification: no counterpart in the code.) -/
def present (s : RState Id D A) (id : Id) : Nat := if (s.sessions.get id).isSome then 1 else 0

theorem present_drop (s : RState Id D A) (id j : Id) :
    count (begun id) (drop s j).trace = count (begun id) s.trace ∧
    count (ended id) (drop s j).trace + present (drop s j) id = count (ended id) s.trace + present s id := by
  unfold drop
  split
  · next x hx =>
    by_cases hj : j = id
    · subst hj
      simp [count, List.countP_append, List.countP_cons, begun, ended, present, AMap.get_remove_self, hx]
    · simp [count, List.countP_append, List.countP_cons, begun, ended, present, AMap.get_remove_ne _ (Ne.symm hj), hj]
  · exact ⟨rfl, rfl⟩

theorem balance_step (max : Nat) (timeout : Int) (s : RState Id D A) (id : Id) (a : RAtom Id D A)
    (hf : ∀ t d n, a = .createInsert t id d n → s.sessions.get id = none) :
    count (begun id) (rstep max timeout s a).trace + (revives s id a).toNat +
        count (ended id) s.trace + present s id =
      count (begun id) s.trace + count (ended id) (rstep max timeout s a).trace + present (rstep max timeout s a) id := by
  cases a with
  | createCheck t => simp only [rstep]; split <;> simp [revives, present] <;> omega
  | createInsert t j d now =>
    simp only [rstep]
    split
    · by_cases hj : j = id
      · subst hj
        have := hf t d now rfl
        simp [revives, count, List.countP_append, List.countP_cons, begun, ended, present, this] <;> omega
      · simp [revives, count, List.countP_append, List.countP_cons, begun, ended, present, hj,
          AMap.get_insert_ne _ _ (Ne.symm hj)] <;> omega
    · simp [revives] <;> omega
  | read t j now v => simp only [rstep]; split <;> simp [revives, present] <;> omega
  | write t =>
    simp only [rstep, revives]
    cases ht : s.tasks.get t with
    | none => simp only [Bool.toNat_false] <;> omega
    | some k =>
      cases k with
      | reading j x v =>
        simp only
        by_cases hj : j = id
        · subst hj
          cases hg : s.sessions.get j <;> simp [present, hg] <;> omega
        · simp [present, hj, AMap.get_insert_ne _ _ (Ne.symm hj)] <;> omega
      | creating => simp only [Bool.toNat_false] <;> omega
      | judging j x => simp only [Bool.toNat_false] <;> omega
      | expiring j => simp only [Bool.toNat_false] <;> omega
      | sweeping n l => simp only [Bool.toNat_false] <;> omega
  | judge t now =>
    simp only [rstep]
    split
    · split <;> simp [revives, count, List.countP_append, List.countP_cons, begun, ended, present] <;> omega
    · simp [revives] <;> omega
  | expire t =>
    simp only [rstep]
    split
    · next j hj =>
      have := present_drop { s with tasks := s.tasks.remove t } id j
      simp only [revives, Bool.toNat_false]
      have e : present { s with tasks := s.tasks.remove t } id = present s id := rfl
      rw [e] at this
      simp only at this
      omega
    · simp [revives] <;> omega
  | update j f now =>
    simp only [rstep]
    split
    · simp [revives] <;> omega
    · next x hx =>
      by_cases hj : j = id
      · subst hj; simp [revives, present, hx] <;> omega
      · simp [revives, present, AMap.get_insert_ne _ _ (Ne.symm hj)] <;> omega
  | destroy j =>
    have := present_drop s id j
    simp only [rstep, revives, Bool.toNat_false]
    omega
  | sweepStart t now => simp only [rstep, revives, Bool.toNat_false]; simp only [present]; omega
  | look t j =>
    simp only [rstep]
    split
    · split <;> simp [revives, present] <;> omega
    · simp [revives] <;> omega
  | sweepOne t =>
    simp only [rstep]
    split
    · next now j ids ht =>
      split
      · next x hx =>
        by_cases hj : j = id
        · subst hj
          simp [revives, count, List.countP_append, List.countP_cons, begun, ended, present, AMap.get_remove_self, hx] <;> omega
        · simp [revives, count, List.countP_append, List.countP_cons, begun, ended, present, hj,
            AMap.get_remove_ne _ (Ne.symm hj)] <;> omega
      · simp [revives, present] <;> omega
    · simp [revives] <;> omega

theorem known_run (max : Nat) (timeout : Int) (h : List (RAtom Id D A)) :
    Known (rrun max timeout rinit h) (creations h) := by
  induction h using snocInduction with
  | nil => constructor <;> simp [rrun, rinit]
  | append_singleton h a ih => rw [rrun_snoc, creations_append]; exact known_step max timeout ih a

/-- **C197**, callbacks under concurrency (exact form). Under every schedule with fresh ids, the reported ends of a
session are its reported creation plus the number of times a lookup brought it back, less one while it is in the table.
So each end is reported exactly once if and only if no lookup brings the session back. -/
theorem C197_balance_partial (max : Nat) (timeout : Int) (h : List (RAtom Id D A)) (hf : (creations h).Nodup) (id : Id) :
    count (begun id) (rrun max timeout rinit h).trace + revivals max timeout id rinit h =
      count (ended id) (rrun max timeout rinit h).trace + present (rrun max timeout rinit h) id := by
  induction h using snocInduction with
  | nil => simp [rrun, rinit, revivals, count, present]
  | append_singleton h a ih =>
    rw [creations_append] at hf
    have h1 := ih (List.nodup_append.mp hf).1
    rw [rrun_snoc, revivals_snoc]
    have h2 := balance_step max timeout (rrun max timeout rinit h) id a (by
      rintro t d n rfl
      cases hg : (rrun max timeout rinit h).sessions.get id with
      | none => rfl
      | some x =>
        exact absurd rfl ((List.nodup_append.mp hf).2.2 id ((known_run max timeout h).table id x hg) id (by simp [creations])))
    omega

/-- A session that was destroyed and brought back by a lookup is destroyed, and reported, a second time. -/
theorem C197_reported_twice :
    (rrun 5 10 (rinit : RState Nat Unit Unit) [.createCheck 1, .createInsert 1 100 () 0, .read 2 100 1 false, .destroy 100,
      .write 2, .destroy 100]).trace = [.created 100, .destroyed 100, .destroyed 100] := by decide

/-- `C197_balance_partial`: two sessions, three tasks, no session brought back. -/
example : (creations ([.createCheck 1, .createInsert 1 100 () 0, .createCheck 1, .createInsert 1 200 () 1, .read 2 100 3 true,
      .write 2, .destroy 100, .sweepStart 3 12, .look 3 200, .sweepOne 3] : List (RAtom Nat Unit Unit))).Nodup ∧
    revivals 5 10 100 (rinit : RState Nat Unit Unit) [.createCheck 1, .createInsert 1 100 () 0, .createCheck 1,
      .createInsert 1 200 () 1, .read 2 100 3 true, .write 2, .destroy 100, .sweepStart 3 12, .look 3 200, .sweepOne 3] = 0 ∧
    (rrun 5 10 (rinit : RState Nat Unit Unit) [.createCheck 1, .createInsert 1 100 () 0, .createCheck 1,
      .createInsert 1 200 () 1, .read 2 100 3 true, .write 2, .destroy 100, .sweepStart 3 12, .look 3 200, .sweepOne 3]).trace =
      [.created 100, .created 200, .destroyed 100, .expired 200 12] := by decide

/-- **C197.** A call that is not interrupted does to the table what the call by itself does (C11, C12, C78): creating,
looking up, validating, updating and destroying. -/
theorem C197_uninterrupted (max : Nat) (timeout : Int) (s : RState Id D A) (t : Nat) (ht : s.tasks.get t = none) (id : Id)
    (d : D) (f : Session Id D A → Session Id D A) (now n₂ : Int) (tr : List (Event Id)) :
    (rrun max timeout s [.createCheck t, .createInsert t id d now]).sessions =
      (createSession max timeout ⟨s.sessions, tr⟩ id d now).1.sessions ∧
    (rrun max timeout s [.read t id now false, .write t]).sessions = (getSession ⟨s.sessions, tr⟩ id now).1.sessions ∧
    (rrun max timeout s [.read t id now true, .write t, .judge t n₂, .expire t]).sessions =
      (validateSession ⟨s.sessions, tr⟩ id now n₂).1.sessions ∧
    (rrun max timeout s [.update id f now]).sessions = (updateSession ⟨s.sessions, tr⟩ id f now).1.sessions ∧
    (rrun max timeout s [.destroy id]).sessions = (destroySession ⟨s.sessions, tr⟩ id).1.sessions := by
  refine ⟨?_, ?_, ?_, ?_, ?_⟩
  · simp only [rrun, List.foldl_cons, List.foldl_nil, rstep, createSession]
    by_cases hm : s.sessions.length ≥ max
    · simp only [if_pos hm, ht]
    · simp [if_neg hm, AMap.get_insert]
  · simp only [rrun, List.foldl_cons, List.foldl_nil, rstep, getSession]
    cases hg : s.sessions.get id with
    | none => simp only [ht]
    | some x => simp [AMap.get_insert]
  · simp only [rrun, List.foldl_cons, List.foldl_nil, validateSession, getSession]
    cases hg : s.sessions.get id with
    | none => simp only [rstep, hg, ht]
    | some x =>
      simp only [rstep, hg, AMap.get_insert, if_true]
      by_cases hx : x.expiresAt < n₂
      · simp [hx, drop, destroySession, AMap.get_insert]
      · simp [hx, AMap.get_remove]
  · simp only [rrun, List.foldl_cons, List.foldl_nil, rstep, updateSession]
    cases hg : s.sessions.get id <;> rfl
  · simp only [rrun, List.foldl_cons, List.foldl_nil, rstep, destroySession, drop]
    cases hg : s.sessions.get id <;> rfl

/-- `C197_uninterrupted`: a second session where only one is allowed. -/
example : (rrun 1 10 (rinit : RState Nat Unit Unit) [.createCheck 1, .createInsert 1 100 () 0, .createCheck 2,
    .createInsert 2 200 () 1]).sessions.length = 1 := by decide

end Verif.Session.Races
