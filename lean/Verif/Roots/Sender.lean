import Verif.Roots.Props

/-
Who is told that the list of roots changed: C176.

Models /repo/src/server/roots.rs L36-41, L70-77, L93-143, L176-181 and, for the server,
/repo/src/server/mod.rs L383-397, L816-831, L1412-1414.
-/

namespace Verif.Roots

/-- `RootsManager` (/repo/src/server/roots.rs L36-41): the roots, the sender (callbacks are numbered), and for each
handle the sender it holds (/repo/src/server/roots.rs L121). -/
structure Manager where
  roots : State := {}
  sender : Option Nat := none
  captured : List (Option Nat) := []
deriving DecidableEq

/-- Calls of the manager (/repo/src/server/roots.rs L70-143). -/
inductive Call where
  | setSender (j : Nat)
  | op (o : Op)
deriving DecidableEq

/-- One call (/repo/src/server/roots.rs L70-143, L176-181), with the sender that gets a list-changed notification
by it.  A registration tells the present sender, a handle the one it holds. -/
def Manager.step (m : Manager) : Call → Manager × Option Nat
  | .setSender j => ({ m with sender := some j }, none)
  | .op (.register uri name) =>
    match Roots.step m.roots (.register uri name) with
    | (s, .handle _) => (⟨s, m.sender, m.captured ++ [m.sender]⟩, m.sender)
    | (s, _) => ({ m with roots := s }, none)
  | .op (.unregister k) =>
    match Roots.step m.roots (.unregister k) with
    | (s, .removed) => ({ m with roots := s }, m.captured[k]?.join)
    | (s, _) => ({ m with roots := s }, none)

/-- The manager after a history (/repo/src/server/roots.rs L61-143). -/
def Manager.run (h : List Call) : Manager := h.foldl (fun m c => (m.step c).1) {}

/-- The server, as far as roots are concerned (/repo/src/server/mod.rs L119-123): its manager, whether it has a
channel for notifications (callback 0 puts them there), and whether the program still has the server. -/
structure Srv where
  manager : Manager := {}
  tx : Bool := false
  owned : Bool := true
deriving DecidableEq

/-- What a program can do: register a root, call a handle, or `run` the server (/repo/src/server/mod.rs L383-397,
L816-831). -/
inductive SrvCall where
  | register (uri : Text) (name : Option Text)
  | unregister (k : Nat)
  | run
deriving DecidableEq

/-- One step of a program (/repo/src/server/mod.rs L383-397, L816-831), with whether a notification is put into the
channel.  `run` takes the server (`mut self`), after which only handles can be called; other calls are not
possible. -/
def Srv.step (s : Srv) : SrvCall → Srv × Bool
  | .register uri name =>
    if s.owned then
      let m := if s.tx then (s.manager.step (.setSender 0)).1 else s.manager
      ({ s with manager := (m.step (.op (.register uri name))).1 }, (m.step (.op (.register uri name))).2.isSome)
    else (s, false)
  | .unregister k =>
    ({ s with manager := (s.manager.step (.op (.unregister k))).1 }, (s.manager.step (.op (.unregister k))).2.isSome)
  | .run => if s.owned then ({ s with tx := true, owned := false }, false) else (s, false)

/-- The server after a history (/repo/src/server/mod.rs L383-397, L816-831). -/
def Srv.after (h : List SrvCall) : Srv := h.foldl (fun s c => (s.step c).1) {}

/-! ### C176 -/

/-- The calls that concern roots. (Specification: no counterpart in the code.) -/
def ops (h : List Call) : List Op := h.filterMap (fun | .op o => some o | .setSender _ => none)

/-- The sender set last. (Specification: no counterpart in the code.) -/
def senderAt (h : List Call) : Option Nat := (h.filterMap (fun | .setSender j => some j | .op _ => none)).getLast?

theorem manager_snoc (h : List Call) (c : Call) : Manager.run (h ++ [c]) = ((Manager.run h).step c).1 := by
  simp [Manager.run]

theorem run_snoc (h : List Op) (o : Op) : Roots.run (h ++ [o]) = (Roots.step (Roots.run h) o).1 := by
  simp [Roots.run]

theorem step_roots (m : Manager) (o : Op) : (m.step (.op o)).1.roots = (Roots.step m.roots o).1 ∧
    (m.step (.op o)).1.sender = m.sender := by
  cases o with
  | register u n =>
    unfold Manager.step
    dsimp only
    split <;> simp_all
  | unregister k =>
    unfold Manager.step
    dsimp only
    split <;> simp_all

/-- The roots do not depend on the senders. -/
theorem manager_roots (h : List Call) : (Manager.run h).roots = Roots.run (ops h) ∧ (Manager.run h).sender = senderAt h := by
  induction h using snocInduction with
  | nil => exact ⟨rfl, rfl⟩
  | append_singleton h c ih =>
    rw [manager_snoc]
    cases c with
    | setSender j => exact ⟨by simp [ops, Manager.step, ih.1], by simp [senderAt, Manager.step]⟩
    | op o =>
      refine ⟨?_, ?_⟩
      · rw [(step_roots _ o).1, ih.1]
        simp only [ops, List.filterMap_append, List.filterMap_cons, List.filterMap_nil]
        rw [run_snoc]
      · rw [(step_roots _ o).2, ih.2]
        simp [senderAt]

/-- Each handle holds the sender that was set when it was made. -/
theorem captured_spec (h : List Call) : (Manager.run h).captured.length = (Spec.run (ops h)).next ∧
    ∀ pre u n post, h = pre ++ .op (.register u n) :: post → Accepted u →
      (Manager.run h).captured[(Spec.run (ops pre)).next]? = some (senderAt pre) := by
  induction h using snocInduction with
  | nil =>
    refine ⟨rfl, fun pre u n post h _ => ?_⟩
    cases pre <;> cases h
  | append_singleton h c ih =>
    have hr := manager_roots h
    have hi := inv_run (ops h)
    -- what the last call does to the list
    have hcap : (Manager.run (h ++ [c])).captured = (Manager.run h).captured ++
        (match c with
          | .op (.register u _) => if Accepted u then [senderAt h] else []
          | _ => []) := by
      rw [manager_snoc]
      cases c with
      | setSender j => simp [Manager.step]
      | op o =>
        cases o with
        | register u n =>
          by_cases ha : Accepted u
          · simp only [Manager.step, step_register_ok _ n ha, if_pos ha, hr.2]
          · simp only [Manager.step, step_register_bad _ n ha, if_neg ha, List.append_nil]
        | unregister k =>
          simp only [Manager.step, List.append_nil]
          split <;> rfl
    have hnext : (Spec.run (ops (h ++ [c]))).next = (Spec.run (ops h)).next +
        (match c with
          | .op (.register u _) => if Accepted u then 1 else 0
          | _ => 0) := by
      cases c with
      | setSender j => simp [ops]
      | op o =>
        simp only [ops, List.filterMap_append, List.filterMap_cons, List.filterMap_nil, Spec.run, List.foldl_append,
          List.foldl_cons, List.foldl_nil]
        cases o with
        | register u n =>
          by_cases ha : Accepted u
          · rw [spec_register_ok _ n ha]; simp [ha]
          · rw [spec_register_bad _ n ha]; simp [ha]
        | unregister k => rfl
    constructor
    · rw [hcap, hnext, List.length_append, ih.1]
      cases c with
      | setSender j => rfl
      | op o =>
        cases o with
        | register u n => by_cases ha : Accepted u <;> simp [ha]
        | unregister k => rfl
    · intro pre u n post he ha
      rw [hcap]
      cases post using snocInduction with
      | nil =>
        have h2 := List.append_inj' he rfl
        obtain ⟨rfl, h3⟩ := h2
        simp only [List.cons.injEq, and_true] at h3
        subst h3
        simp only [if_pos ha]
        rw [List.getElem?_append_right (by rw [ih.1]; exact Nat.le_refl _), ih.1, Nat.sub_self]
        rfl
      | append_singleton post x _ =>
        have h2 : h ++ [c] = (pre ++ .op (.register u n) :: post) ++ [x] := by simpa using he
        have h3 := (List.append_inj' h2 rfl).1
        have h4 := ih.2 pre u n post h3 ha
        rw [List.getElem?_append_left, h4]
        exact (List.getElem?_eq_some_iff.mp h4).1

/-- Every live registration was made by some call. -/
theorem live_made (h : List Call) (k : Nat) (r : Root) (hl : (k, r) ∈ (Spec.run (ops h)).live) :
    ∃ pre post, h = pre ++ .op (.register r.uri r.name) :: post ∧ Accepted r.uri ∧ (Spec.run (ops pre)).next = k := by
  induction h using snocInduction with
  | nil => cases hl
  | append_singleton h c ih =>
    have lift : (k, r) ∈ (Spec.run (ops h)).live → ∃ pre post, h ++ [c] = pre ++ .op (.register r.uri r.name) :: post ∧
        Accepted r.uri ∧ (Spec.run (ops pre)).next = k := by
      intro hm
      obtain ⟨pre, post, rfl, ha, hk⟩ := ih hm
      exact ⟨pre, post ++ [c], by simp, ha, hk⟩
    cases c with
    | setSender j => exact lift (by simpa [ops] using hl)
    | op o =>
      simp only [ops, List.filterMap_append, List.filterMap_cons, List.filterMap_nil, Spec.run, List.foldl_append,
        List.foldl_cons, List.foldl_nil] at hl
      cases o with
      | register u n =>
        by_cases ha : Accepted u
        · rw [spec_register_ok _ n ha] at hl
          simp only [List.mem_append, List.mem_singleton, Prod.mk.injEq] at hl
          rcases hl with hl | ⟨rfl, rfl⟩
          · exact lift hl
          · exact ⟨h, [], rfl, ha, rfl⟩
        · rw [spec_register_bad _ n ha] at hl
          exact lift hl
      | unregister k' =>
        simp only [Spec.step, List.mem_filter] at hl
        exact lift hl.1

/-- C176: after every history, registering a root tells the sender set last, if the address is accepted, and else
nobody. -/
theorem C176_registered (h : List Call) (uri : Text) (name : Option Text) :
    ((Manager.run h).step (.op (.register uri name))).2 =
      if Accepted uri then (h.filterMap (fun | .setSender j => some j | .op _ => none)).getLast? else none := by
  by_cases ha : Accepted uri
  · simp only [Manager.step, step_register_ok _ name ha, if_pos ha, (manager_roots h).2]
    rfl
  · simp only [Manager.step, step_register_bad _ name ha, if_neg ha]

/-- C176, exactly: calling a handle whose root is still registered tells the sender that was set when the root was
registered; calling another handle tells nobody.  The property asked for, that the sender set last is told, fails
when the sender was set in between. -/
theorem C176_unregistered_partial (h : List Call) (k : Nat) :
    (∀ r, (k, r) ∈ (Spec.run (ops h)).live → ∃ pre post, h = pre ++ .op (.register r.uri r.name) :: post ∧
      Accepted r.uri ∧ (Spec.run (ops pre)).next = k ∧
      ((Manager.run h).step (.op (.unregister k))).2 = senderAt pre ∧
      (((Manager.run h).step (.op (.unregister k))).2 = senderAt h ↔ senderAt pre = senderAt h)) ∧
    ((∀ r, (k, r) ∉ (Spec.run (ops h)).live) → ((Manager.run h).step (.op (.unregister k))).2 = none) := by
  have hr := manager_roots h
  have hn := C28_notified (ops h) k
  constructor
  · intro r hl
    obtain ⟨pre, post, he, ha, hk⟩ := live_made h k r hl
    have hc := (captured_spec h).2 pre _ _ post he ha
    have h1 := (hn.1 ⟨r, hl⟩).1
    have hs : ((Manager.run h).step (.op (.unregister k))).2 = senderAt pre := by
      simp only [Manager.step, hr.1]
      split
      · rw [← hk, hc]; rfl
      · rename_i hne heq
        rw [heq] at h1
        exact absurd h1 hne
    exact ⟨pre, post, he, ha, hk, hs, by rw [hs]⟩
  · intro hl
    have h1 := (hn.2 hl).1
    simp only [Manager.step, hr.1]
    split
    · rename_i heq
      rw [heq] at h1; cases h1
    · rfl

/-- C176 fails: of a root registered before a sender was set, the sender is not told that it is gone. -/
theorem C176_late_sender : ∃ h : List Call, senderAt h = some 0 ∧
    (getRoots (Manager.run h).roots).length = 1 ∧
    getRoots ((Manager.run h).step (.op (.unregister 0))).1.roots = [] ∧
    ((Manager.run h).step (.op (.unregister 0))).2 = none :=
  ⟨[.op (.register "file:///a".toList none), .setSender 0], by decide +kernel⟩

theorem srv_inv (h : List SrvCall) : ((Srv.after h).owned = true → (Srv.after h).tx = false) ∧
    (Srv.after h).manager.sender = none ∧ ∀ x ∈ (Srv.after h).manager.captured, x = none := by
  induction h using snocInduction with
  | nil => exact ⟨fun _ => rfl, rfl, fun x hx => by cases hx⟩
  | append_singleton h c ih =>
    have hs : Srv.after (h ++ [c]) = ((Srv.after h).step c).1 := by simp [Srv.after]
    rw [hs]
    generalize Srv.after h = s at ih
    obtain ⟨h1, h2, h3⟩ := ih
    have keep : ∀ o, ((s.manager.step (.op o)).1.sender = none) ∧ ∀ x ∈ (s.manager.step (.op o)).1.captured, x = none := by
      intro o
      refine ⟨by rw [(step_roots _ o).2, h2], ?_⟩
      cases o with
      | register u n =>
        by_cases ha : Accepted u
        · simp only [Manager.step, step_register_ok _ n ha, h2, List.mem_append, List.mem_singleton]
          rintro x (hx | rfl)
          · exact h3 x hx
          · rfl
        · simp only [Manager.step, step_register_bad _ n ha]; exact h3
      | unregister k =>
        unfold Manager.step
        dsimp only
        split <;> exact h3
    cases c with
    | register u n =>
      simp only [Srv.step]
      by_cases ho : s.owned = true
      · rw [if_pos ho, h1 ho]
        exact ⟨fun _ => rfl, keep _⟩
      · rw [if_neg ho]
        exact ⟨h1, h2, h3⟩
    | unregister k => exact ⟨h1, keep _⟩
    | run =>
      simp only [Srv.step]
      split
      · exact ⟨fun h => by simp at h, h2, h3⟩
      · exact ⟨h1, h2, h3⟩

/-- C176 fails for the server: in every history of a program, none of its steps puts a notification into the
channel, whatever roots it registers and unregisters, before or while the server runs. -/
theorem C176_server_silent (h : List SrvCall) (c : SrvCall) : ((Srv.after h).step c).2 = false := by
  obtain ⟨h1, h2, h3⟩ := srv_inv h
  generalize Srv.after h = s at h1 h2 h3
  cases c with
  | register u n =>
    simp only [Srv.step]
    by_cases ho : s.owned = true
    · rw [if_pos ho, h1 ho]
      by_cases ha : Accepted u
      · simp [Manager.step, step_register_ok _ n ha, h2]
      · simp [Manager.step, step_register_bad _ n ha]
    · rw [if_neg ho]
  | unregister k =>
    simp only [Srv.step, Manager.step]
    split
    · cases hk : s.manager.captured[k]? with
      | none => rfl
      | some x => rw [h3 x (List.mem_of_getElem? hk)]; rfl
    · rfl
  | run => simp only [Srv.step]; split <;> rfl

/-- `C176_unregistered_partial`: a root registered with one sender, unregistered with another. -/
example : (0, ⟨"file:///a".toList, none⟩) ∈
      (Spec.run (ops [.setSender 3, .op (.register "file:///a".toList none), .setSender 4])).live ∧
    ((Manager.run [.setSender 3, .op (.register "file:///a".toList none), .setSender 4]).step (.op (.unregister 0))).2 = some 3 := by
  decide +kernel

/-- `C176_server_silent`: the root is registered before `run`, and gone after its handle was called. -/
example : (getRoots (Srv.after [.register "file:///a".toList none, .run]).manager.roots).length = 1 ∧
    getRoots (Srv.after [.register "file:///a".toList none, .run, .unregister 0]).manager.roots = [] := by decide +kernel

/-- C176: the server has a channel for notifications, and is out of the hands of the program, from its `run` on: never
before, so that no root can be registered while there is a channel. -/
theorem C176_run (h : List SrvCall) :
    ((Srv.after h).tx = true ↔ SrvCall.run ∈ h) ∧ ((Srv.after h).owned = false ↔ SrvCall.run ∈ h) := by
  induction h using snocInduction with
  | nil => simp [Srv.after]
  | append_singleton h c ih =>
    have hs : Srv.after (h ++ [c]) = ((Srv.after h).step c).1 := by simp [Srv.after]
    rw [hs, List.mem_append, List.mem_singleton]
    generalize Srv.after h = s at ih
    obtain ⟨h1, h2⟩ := ih
    cases c with
    | register u n =>
      simp only [Srv.step, reduceCtorEq, or_false]
      split <;> exact ⟨h1, h2⟩
    | unregister k => simpa [Srv.step] using ⟨h1, h2⟩
    | run =>
      simp only [Srv.step, or_true, iff_true]
      by_cases ho : s.owned = true
      · simp [ho]
      · have hf : s.owned = false := by simpa using ho
        rw [if_neg ho]
        exact ⟨h1.mpr (h2.mp hf), hf⟩

example : (Srv.after [.register "file:///a".toList none, .run]).tx = true := by decide +kernel

end Verif.Roots
