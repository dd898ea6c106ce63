import Verif.Roots.Model
import Verif.Common.ListExtra

/-
Property C28: roots.
-/

namespace Verif.Roots

/-- Specification of the live registrations after a history: registration number (counting successful
registrations only) and root, in registration order. -/
structure Spec where
  next : Nat := 0
  live : List (Nat × Root) := []

/-- A uri is accepted iff it begins with the `file://` scheme. (Specification: no counterpart in the code.) -/
def Accepted (uri : Text) : Prop := ∃ rest, uri = "file://".toList ++ rest

instance (uri : Text) : Decidable (Accepted uri) :=
  decidable_of_iff (uri.take 7 = "file://".toList) (by
    constructor
    · intro h; exact ⟨uri.drop 7, by rw [← h]; exact (List.take_append_drop 7 uri).symm⟩
    · rintro ⟨rest, rfl⟩; rfl)

/-- Specification step. -/
def Spec.step (s : Spec) : Op → Spec
  | .register uri name =>
    if Accepted uri then ⟨s.next + 1, s.live ++ [(s.next, ⟨uri, name⟩)]⟩ else s
  | .unregister k => ⟨s.next, s.live.filter (fun p => decide (p.1 ≠ k))⟩

/-- Live registrations after a history. (Specification: no counterpart in the code.) -/
def Spec.run (h : List Op) : Spec := h.foldl Spec.step {}

/-- Number of live registrations of a uri. (Specification: no counterpart in the code.) -/
def liveCount (s : Spec) (uri : Text) : Nat := (s.live.filter (fun p => decide (p.2.uri = uri))).length

theorem accepted_iff (uri : Text) : uri.take scheme.length = scheme ↔ Accepted uri := by
  constructor
  · intro h
    exact ⟨uri.drop scheme.length, by
      have := List.take_append_drop scheme.length uri
      rw [h] at this; exact this.symm⟩
  · rintro ⟨rest, rfl⟩
    rfl

theorem step_register_ok (s : State) {uri : Text} (name : Option Text) (h : Accepted uri) :
    step s (.register uri name) =
      (⟨s.roots ++ [⟨uri, name⟩], s.handles ++ [(uri, false)]⟩, .handle s.handles.length) := by
  simp only [step]; rw [if_pos ((accepted_iff uri).mpr h)]

theorem step_register_bad (s : State) {uri : Text} (name : Option Text) (h : ¬ Accepted uri) :
    step s (.register uri name) = (s, .invalid) := by
  simp only [step]; rw [if_neg (fun e => h ((accepted_iff uri).mp e))]

theorem step_unregister_open (s : State) {k : Nat} {uri : Text} (h : s.handles[k]? = some (uri, false)) :
    (step s (.unregister k)).1 = ⟨removeFirst uri s.roots, s.handles.set k (uri, true)⟩ := by
  simp only [step, h]

theorem step_unregister_closed (s : State) {k : Nat} (h : ∀ u, s.handles[k]? ≠ some (u, false)) :
    (step s (.unregister k)).1 = s := by
  cases hk : s.handles[k]? with
  | none => simp only [step, hk]
  | some q =>
    obtain ⟨u, b⟩ := q
    cases b with
    | true => simp only [step, hk]
    | false => exact absurd hk (h u)

theorem spec_register_ok (p : Spec) {uri : Text} (name : Option Text) (h : Accepted uri) :
    p.step (.register uri name) = ⟨p.next + 1, p.live ++ [(p.next, ⟨uri, name⟩)]⟩ := by
  simp only [Spec.step]; rw [if_pos h]

theorem spec_register_bad (p : Spec) {uri : Text} (name : Option Text) (h : ¬ Accepted uri) :
    p.step (.register uri name) = p := by
  simp only [Spec.step]; rw [if_neg h]

theorem removeFirst_none {uri : Text} {l : List Root} (h : ∀ r ∈ l, r.uri ≠ uri) :
    removeFirst uri l = l := by
  induction l with
  | nil => rfl
  | cons r rs ih =>
    rw [removeFirst, if_neg (h r List.mem_cons_self), ih (fun x hx => h x (List.mem_cons_of_mem _ hx))]

theorem removeFirst_count (uri u : Text) (l : List Root) :
    ((removeFirst uri l).filter (fun r => decide (r.uri = u))).length =
      (l.filter (fun r => decide (r.uri = u))).length -
        (if u = uri then 1 else 0) := by
  induction l with
  | nil => simp [removeFirst]
  | cons r rs ih =>
    unfold removeFirst
    by_cases h : r.uri = uri
    · rw [if_pos h, List.filter_cons]
      by_cases hu : u = uri
      · simp [hu, h]
      · have : ¬ r.uri = u := fun e => hu (by rw [← e, h])
        simp [hu, this]
    · rw [if_neg h, List.filter_cons, List.filter_cons]
      by_cases hu : r.uri = u
      · have : u ≠ uri := fun e => h (by rw [hu, e])
        simp [hu, this, ih]
      · simp only [hu, decide_false, Bool.false_eq_true, if_false]
        exact ih

/-- Relation between the manager and the specification that holds for all histories. -/
structure Inv (s : State) (p : Spec) : Prop where
  next : s.handles.length = p.next
  ids : ∀ x ∈ p.live, x.1 < p.next
  nodup : (p.live.map (·.1)).Nodup
  open_iff : ∀ k u, s.handles[k]? = some (u, false) ↔ ∃ r, (k, r) ∈ p.live ∧ r.uri = u
  counts : ∀ u, (s.roots.filter (fun r => decide (r.uri = u))).length = liveCount p u

theorem filter_remove_count (l : List (Nat × Root)) (k : Nat) (r : Root) (h : (k, r) ∈ l)
    (hn : (l.map (·.1)).Nodup) (u : Text) :
    ((l.filter (fun p => decide (p.1 ≠ k))).filter (fun p => decide (p.2.uri = u))).length =
      (l.filter (fun p => decide (p.2.uri = u))).length - (if u = r.uri then 1 else 0) := by
  induction l with
  | nil => cases h
  | cons x xs ih =>
    simp only [List.map_cons, List.nodup_cons] at hn
    rcases List.mem_cons.mp h with e | hm
    · subst e
      have hxs : xs.filter (fun p => decide (p.1 ≠ k)) = xs := by
        apply List.filter_eq_self.mpr
        intro y hy
        have : y.1 ≠ k := fun e => hn.1 (by rw [← e]; exact List.mem_map_of_mem (f := (·.1)) hy)
        simpa using this
      rw [List.filter_cons_of_neg (by simp), hxs, List.filter_cons]
      by_cases hu : u = r.uri
      · subst hu; simp
      · have : ¬ r.uri = u := fun e => hu e.symm
        simp [hu, this]
    · have hxk : x.1 ≠ k := by
        intro e; apply hn.1; rw [e]; exact List.mem_map_of_mem (f := (·.1)) hm
      rw [List.filter_cons_of_pos (by simpa using hxk), List.filter_cons, List.filter_cons]
      have i := ih hm hn.2
      by_cases hu : x.2.uri = u
      · simp only [hu, decide_true, if_true, List.length_cons]
        have hpos : u = r.uri → 0 < (xs.filter (fun p => decide (p.2.uri = u))).length := by
          intro e
          apply List.length_pos_of_mem (a := (k, r))
          exact List.mem_filter.mpr ⟨hm, by simp [e]⟩
        rw [i]
        by_cases hur : u = r.uri
        · have := hpos hur; rw [if_pos hur]; omega
        · rw [if_neg hur]; omega
      · simp only [hu, decide_false, Bool.false_eq_true, if_false]
        exact i

theorem inv_step {s : State} {p : Spec} (h : Inv s p) (op : Op) : Inv (step s op).1 (p.step op) := by
  cases op with
  | register uri name =>
    by_cases ha : Accepted uri
    · rw [step_register_ok s name ha, spec_register_ok p name ha]
      refine ⟨?_, ?_, ?_, ?_, ?_⟩
      · simp [h.next]
      · intro x hx
        rcases List.mem_append.mp hx with hx | hx
        · have := h.ids x hx
          show x.1 < p.next + 1
          omega
        · rw [List.mem_singleton] at hx; subst hx; exact Nat.lt_succ_self _
      · simp only [List.map_append, List.map_cons, List.map_nil]
        rw [List.nodup_append]
        refine ⟨h.nodup, by simp, ?_⟩
        intro a hm b hb e
        rw [List.mem_singleton] at hb
        rw [e, hb] at hm
        obtain ⟨y, hy, hy2⟩ := List.mem_map.mp hm
        have := h.ids y hy; omega
      · intro k u
        simp only
        by_cases hk : k < s.handles.length
        · rw [List.getElem?_append_left hk, h.open_iff]
          constructor
          · rintro ⟨r, hr, hu⟩; exact ⟨r, List.mem_append_left _ hr, hu⟩
          · rintro ⟨r, hr, hu⟩
            rcases List.mem_append.mp hr with hr | hr
            · exact ⟨r, hr, hu⟩
            · rw [List.mem_singleton] at hr
              cases hr
              rw [h.next] at hk; omega
        · by_cases hk2 : k = s.handles.length
          · subst hk2
            rw [List.getElem?_append_right (Nat.le_refl _), Nat.sub_self]
            simp only [List.getElem?_cons_zero, Option.some.injEq, Prod.mk.injEq, and_true]
            constructor
            · rintro rfl
              exact ⟨⟨uri, name⟩, by rw [h.next]; simp, rfl⟩
            · rintro ⟨r, hr, hu⟩
              rcases List.mem_append.mp hr with hr | hr
              · have := h.ids _ hr; rw [h.next] at this; simp at this
              · rw [List.mem_singleton] at hr
                rw [← hu, (Prod.mk.inj hr).2]
          · rw [List.getElem?_eq_none (by simp; omega)]
            constructor
            · intro e; cases e
            · rintro ⟨r, hr, hu⟩
              rcases List.mem_append.mp hr with hr | hr
              · have := h.ids _ hr; simp only at this; rw [h.next] at hk; omega
              · rw [List.mem_singleton] at hr
                cases hr
                rw [h.next] at hk2; exact absurd rfl hk2
      · intro u
        have := h.counts u
        unfold liveCount at this ⊢
        simp only [List.filter_append, List.length_append, this]
        by_cases hu : uri = u <;> simp [hu]
    · rw [step_register_bad s name ha, spec_register_bad p name ha]
      exact h
  | unregister k =>
    have hsp : p.step (.unregister k) = ⟨p.next, p.live.filter (fun q => decide (q.1 ≠ k))⟩ := rfl
    rw [hsp]
    have hnone : (∀ u, s.handles[k]? ≠ some (u, false)) →
        p.live.filter (fun q => decide (q.1 ≠ k)) = p.live := by
      intro hk
      apply List.filter_eq_self.mpr
      intro x hx
      have : x.1 ≠ k := by
        intro e
        exact hk x.2.uri ((h.open_iff k x.2.uri).mpr ⟨x.2, by rw [← e]; exact hx, rfl⟩)
      simpa using this
    by_cases hk : ∃ u, s.handles[k]? = some (u, false)
    · obtain ⟨uri, hk⟩ := hk
      rw [step_unregister_open s hk]
      obtain ⟨r, hr, hru⟩ := (h.open_iff k uri).mp hk
      have hklt : k < s.handles.length := by
        rw [List.getElem?_eq_some_iff] at hk; exact hk.1
      refine ⟨?_, ?_, ?_, ?_, ?_⟩
      · simp [h.next]
      · intro x hx; exact h.ids x ((List.mem_filter.mp hx).1)
      · exact h.nodup.sublist (List.Sublist.map _ List.filter_sublist)
      · intro k' u
        simp only [List.getElem?_set]
        by_cases e : k = k'
        · subst e
          rw [if_pos rfl, if_pos hklt]
          constructor
          · intro e; cases e
          · rintro ⟨r', hr', _⟩
            have := (List.mem_filter.mp hr').2
            simp at this
        · rw [if_neg e, h.open_iff]
          constructor
          · rintro ⟨r', hr', hu⟩
            refine ⟨r', List.mem_filter.mpr ⟨hr', ?_⟩, hu⟩
            have : k' ≠ k := fun e' => e e'.symm
            simpa using this
          · rintro ⟨r', hr', hu⟩; exact ⟨r', (List.mem_filter.mp hr').1, hu⟩
      · intro u
        have := h.counts u
        unfold liveCount at this ⊢
        rw [removeFirst_count, this, filter_remove_count p.live k r hr h.nodup u, hru]

    · have hk' : ∀ u, s.handles[k]? ≠ some (u, false) := fun u e => hk ⟨u, e⟩
      rw [step_unregister_closed s hk', hnone hk']
      exact h

theorem inv_run (h : List Op) : Inv (run h) (Spec.run h) := by
  unfold run Spec.run
  induction h using snocInduction with
  | nil => exact ⟨rfl, (fun x hx => by cases hx), List.nodup_nil, (fun k u => by simp), fun u => rfl⟩
  | append_singleton h op ih =>
    rw [List.foldl_append, List.foldl_append]
    exact inv_step ih op

/-- **C28**, for all histories including repeated uris: the listing contains each uri exactly as often
as it is registered and not unregistered. -/
theorem C28_uri_counts (h : List Op) (uri : Text) :
    ((getRoots (run h)).filter (fun r => decide (r.uri = uri))).length = liveCount (Spec.run h) uri :=
  (inv_run h).counts uri

/-- Histories in which a uri is registered only while it is not registered.
(Specification: no counterpart in the code.) -/
def NoRepeat (h : List Op) : Prop :=
  ∀ pre uri name post, h = pre ++ .register uri name :: post →
    ∀ x ∈ (Spec.run pre).live, x.2.uri ≠ uri

theorem live_uri_nodup (h : List Op) (hn : NoRepeat h) :
    ((Spec.run h).live.map (·.2.uri)).Nodup := by
  induction h using snocInduction with
  | nil => simp [Spec.run]
  | append_singleton h op ih =>
    have ih := ih (by
      intro pre uri name post e
      exact hn pre uri name (post ++ [op]) (by rw [e]; simp))
    have hr : Spec.run (h ++ [op]) = (Spec.run h).step op := by simp [Spec.run]
    rw [hr]
    cases op with
    | register uri name =>
      unfold Spec.step
      simp only
      split
      · simp only [List.map_append, List.map_cons, List.map_nil]
        rw [List.nodup_append]
        refine ⟨ih, by simp, ?_⟩
        intro a hm b hb e
        rw [List.mem_singleton] at hb
        rw [e, hb] at hm
        obtain ⟨y, hy, hy2⟩ := List.mem_map.mp hm
        exact hn h uri name [] (by simp) y hy hy2
      · exact ih
    | unregister k =>
      unfold Spec.step
      exact ih.sublist (List.Sublist.map _ List.filter_sublist)

theorem removeFirst_eq (l : List (Nat × Root)) (k : Nat) (r : Root) (h : (k, r) ∈ l)
    (hn : (l.map (·.1)).Nodup) (hu : (l.map (·.2.uri)).Nodup) :
    removeFirst r.uri (l.map (·.2)) = (l.filter (fun p => decide (p.1 ≠ k))).map (·.2) := by
  induction l with
  | nil => cases h
  | cons x xs ih =>
    simp only [List.map_cons, List.nodup_cons] at hn hu
    rcases List.mem_cons.mp h with e | hm
    · subst e
      have hxs : xs.filter (fun p => decide (p.1 ≠ k)) = xs := by
        apply List.filter_eq_self.mpr
        intro y hy
        have : y.1 ≠ k := fun e => hn.1 (by rw [← e]; exact List.mem_map_of_mem (f := (·.1)) hy)
        simpa using this
      rw [List.filter_cons_of_neg (by simp), hxs]
      simp [removeFirst]
    · have hxk : x.1 ≠ k := by
        intro e; apply hn.1; rw [e]; exact List.mem_map_of_mem (f := (·.1)) hm
      have hxu : x.2.uri ≠ r.uri := by
        intro e; apply hu.1; rw [e]; exact List.mem_map_of_mem (f := fun p => p.2.uri) hm
      rw [List.filter_cons_of_pos (by simpa using hxk)]
      simp only [List.map_cons]
      rw [removeFirst, if_neg hxu, ih hm hn.2 hu.2]

/-- **C28**, part that holds: if no uri is registered while it is already registered, the listing is
exactly the live registrations, with their names, in registration order; each handle removes its own
root only. -/
theorem C28_listing_exact_partial (h : List Op) (hn : NoRepeat h) :
    getRoots (run h) = (Spec.run h).live.map (·.2) := by
  induction h using snocInduction with
  | nil => rfl
  | append_singleton h op ih =>
    have hn' : NoRepeat h := by
      intro pre uri name post e
      exact hn pre uri name (post ++ [op]) (by rw [e]; simp)
    have ih := ih hn'
    have hi := inv_run h
    have hu := live_uri_nodup h hn'
    have h1 : run (h ++ [op]) = (step (run h) op).1 := by simp [run]
    have h2 : Spec.run (h ++ [op]) = (Spec.run h).step op := by simp [Spec.run]
    rw [h1, h2]
    unfold getRoots at ih ⊢
    cases op with
    | register uri name =>
      by_cases ha : Accepted uri
      · rw [step_register_ok _ name ha, spec_register_ok _ name ha]
        simp [ih]
      · rw [step_register_bad _ name ha, spec_register_bad _ name ha]
        exact ih
    | unregister k =>
      have hsp : (Spec.run h).step (.unregister k) =
          ⟨(Spec.run h).next, (Spec.run h).live.filter (fun q => decide (q.1 ≠ k))⟩ := rfl
      rw [hsp]
      have hnone : (∀ u, (run h).handles[k]? ≠ some (u, false)) →
          (Spec.run h).live.filter (fun q => decide (q.1 ≠ k)) = (Spec.run h).live := by
        intro hk
        apply List.filter_eq_self.mpr
        intro x hx
        have : x.1 ≠ k := by
          intro e
          exact hk x.2.uri ((hi.open_iff k x.2.uri).mpr ⟨x.2, by rw [← e]; exact hx, rfl⟩)
        simpa using this
      by_cases hk : ∃ u, (run h).handles[k]? = some (u, false)
      · obtain ⟨uri, hk⟩ := hk
        obtain ⟨r, hr, hru⟩ := (hi.open_iff k uri).mp hk
        rw [step_unregister_open _ hk]
        simp only
        rw [ih, ← hru, removeFirst_eq _ k r hr hi.nodup hu]
      · have hk' : ∀ u, (run h).handles[k]? ≠ some (u, false) := fun u e => hk ⟨u, e⟩
        rw [step_unregister_closed _ hk', hnone hk']
        exact ih

/-- **C28**, rejection: a uri without the `file://` scheme is rejected and changes nothing; any other is
accepted and appended with a fresh handle. -/
theorem C28_rejection (h : List Op) (uri : Text) (name : Option Text) :
    (¬ Accepted uri → step (run h) (.register uri name) = (run h, .invalid)) ∧
    (Accepted uri → getRoots (step (run h) (.register uri name)).1 = getRoots (run h) ++ [⟨uri, name⟩] ∧
      (step (run h) (.register uri name)).2 = .handle (Spec.run h).next) := by
  constructor
  · intro ha; exact step_register_bad _ name ha
  · intro ha
    rw [step_register_ok _ name ha]
    exact ⟨rfl, by rw [(inv_run h).next]⟩

/-- **C28**: `has_roots` is true iff some registration is live. -/
theorem C28_has_roots (h : List Op) : hasRoots (run h) = true ↔ (Spec.run h).live ≠ [] := by
  have hi := inv_run h
  unfold hasRoots
  constructor
  · intro hr e
    have : (run h).roots ≠ [] := by
      intro e; rw [e] at hr; simp at hr
    obtain ⟨r, rs, hrs⟩ := List.exists_cons_of_ne_nil this
    have := hi.counts r.uri
    rw [hrs] at this
    simp [liveCount, e] at this
  · intro hl
    obtain ⟨x, xs, hx⟩ := List.exists_cons_of_ne_nil hl
    have := hi.counts x.2.uri
    cases hr : (run h).roots with
    | nil => rw [hr] at this; simp [liveCount, hx] at this
    | cons a as => rfl

/-- **C28**: a handle answers with a list-changed notification exactly when its registration is live, and
then the listing has one root less; otherwise the listing is unchanged. -/
theorem C28_notified (h : List Op) (k : Nat) :
    ((∃ r, (k, r) ∈ (Spec.run h).live) →
      (step (run h) (.unregister k)).2 = .removed ∧
      (getRoots (step (run h) (.unregister k)).1).length + 1 = (getRoots (run h)).length) ∧
    ((∀ r, (k, r) ∉ (Spec.run h).live) →
      (step (run h) (.unregister k)).2 = .nothing ∧
      getRoots (step (run h) (.unregister k)).1 = getRoots (run h)) := by
  have hi := inv_run h
  constructor
  · rintro ⟨r, hr⟩
    have hk := (hi.open_iff k r.uri).mpr ⟨r, hr, rfl⟩
    have hc := hi.counts r.uri
    have hpos : 0 < liveCount (Spec.run h) r.uri := by
      unfold liveCount
      exact List.length_pos_of_mem (List.mem_filter.mpr ⟨hr, by simp⟩)
    have hex : ∃ x ∈ (run h).roots, x.uri = r.uri := by
      rw [← hc] at hpos
      obtain ⟨x, hx⟩ := List.exists_mem_of_length_pos hpos
      exact ⟨x, (List.mem_filter.mp hx).1, by simpa using (List.mem_filter.mp hx).2⟩
    have hany : (run h).roots.any (fun x => decide (x.uri = r.uri)) = true := by
      rw [List.any_eq_true]
      obtain ⟨x, hx, e⟩ := hex
      exact ⟨x, hx, by simpa using e⟩
    refine ⟨?_, ?_⟩
    · simp only [step, hk, hany, if_true]
    · rw [step_unregister_open _ hk]
      have len : ∀ l : List Root, (∃ x ∈ l, x.uri = r.uri) → (removeFirst r.uri l).length + 1 = l.length := by
        intro l
        induction l with
        | nil => rintro ⟨x, hx, _⟩; cases hx
        | cons y ys ih =>
          rintro ⟨x, hx, e⟩
          unfold removeFirst
          split
          · rfl
          · rename_i hne
            rcases List.mem_cons.mp hx with hx | hx
            · subst hx; exact absurd e hne
            · simp only [List.length_cons]; rw [ih ⟨x, hx, e⟩]
      exact len _ hex
  · intro hno
    have hk : ∀ u, (run h).handles[k]? ≠ some (u, false) := by
      intro u e
      obtain ⟨r, hr, _⟩ := (hi.open_iff k u).mp e
      exact hno r hr
    rw [step_unregister_closed _ hk]
    refine ⟨?_, rfl⟩
    unfold step
    simp only

example : (step (run [.register "file:///a".toList none, .register "file:///b".toList none, .unregister 0])
      (.unregister 1)).2 = .removed ∧
    (step (run [.register "file:///a".toList none, .register "file:///b".toList none, .unregister 0])
      (.unregister 0)).2 = .nothing := by decide

/-- **C28** is false with repeated uris: calling the second handle removes the first root. -/
theorem C28_wrong_root_removed :
    getRoots (run [.register "file:///a".toList (some "one".toList),
      .register "file:///a".toList (some "two".toList), .unregister 1]) =
        [⟨"file:///a".toList, some "two".toList⟩] ∧
    (Spec.run [.register "file:///a".toList (some "one".toList),
      .register "file:///a".toList (some "two".toList), .unregister 1]).live.map (·.2) =
        [⟨"file:///a".toList, some "one".toList⟩] := by decide

/-- A history with a rejected registration, a removal and a re-registration.
(Specification: no counterpart in the code.) -/
def sampleHistory : List Op :=
  [.register "file:///a".toList none, .register "http://b".toList none, .register "file:///c".toList none,
   .unregister 0, .register "file:///a".toList (some "again".toList), .unregister 0]

example : getRoots (run sampleHistory) =
    [⟨"file:///c".toList, none⟩, ⟨"file:///a".toList, some "again".toList⟩] := by decide
example : NoRepeat sampleHistory := by
  intro pre uri name post e x hx
  match pre, e with
  | [], _ => cases hx
  | [a], e => cases e; revert x; decide
  | [a, b], e => cases e; revert x; decide
  | [a, b, c], e => cases e
  | [a, b, c, d], e => cases e; revert x; decide
  | [a, b, c, d, f], e => cases e
  | a :: b :: c :: d :: f :: g :: pre, e =>
    simp [sampleHistory] at e

end Verif.Roots
