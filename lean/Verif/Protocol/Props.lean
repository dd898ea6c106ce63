import Verif.Protocol.Lemmas

/-
Properties C01, C02, C03: request/response correlation of `shared/protocol.rs`.
-/

namespace Verif.Protocol

variable {Id T R : Type} [DecidableEq Id] [DecidableEq T]

/-! ### Specification

What the caller who registered `id` on transport `own` should receive, given the calls that
follow the registration: the first response for `id` that comes in on the right transport, unless
the id is cancelled or registered anew before.  Nothing here refers to the table of the model. -/

/-- The response a registration of `id` should receive from the calls that follow it.
(Specification: no counterpart in the code.) -/
def answer (own : T) (id : Id) : List (Op Id T R) → Option R
  | [] => none
  | .register j :: rest => if j = id then none else answer own id rest
  | .complete j r :: rest => if j = id then some r else answer own id rest
  | .completeFor j r t :: rest =>
    if j = id ∧ t = own then some r else answer own id rest
  | .cancel j :: rest => if j = id then none else answer own id rest

/-- Which id a call is about. (Specification: no counterpart in the code.) -/
def Op.about : Op Id T R → Id
  | .register j => j
  | .complete j _ => j
  | .completeFor j _ _ => j
  | .cancel j => j

/-- Is `id` outstanding after a history: its last deciding call is a registration.  Read
backwards in time, i.e. the list is given newest call first. (Specification: no counterpart in the code.) -/
def outstanding (own : T) (id : Id) : List (Op Id T R) → Bool
  | [] => false
  | .register j :: older => if j = id then true else outstanding own id older
  | .complete j _ :: older => if j = id then false else outstanding own id older
  | .completeFor j _ t :: older =>
    if j = id ∧ t = own then false else outstanding own id older
  | .cancel j :: older => if j = id then false else outstanding own id older

/-! ### C01 -/

theorem inbox_pending {s : State Id T R} (h : Inv s) {id : Id} {ctx : Ctx T}
    (hg : s.pending.get id = some ctx) (ops : List (Op Id T R)) :
    inbox (run s ops) ctx.chan = (answer s.own id ops).toList := by
  induction ops generalizing s with
  | nil =>
    rw [run, inbox_eq_nil (h.undel id ctx hg)]; rfl
  | cons op ops ih =>
    have hi := inv_step h op
    have ho := step_own s op
    cases op with
    | register j =>
      by_cases hj : j = id
      · subst hj
        simp only [run, answer, if_true]
        rw [inbox_dead hi ctx.chan]
        · have : inbox (step s (.register j)).1 ctx.chan = inbox s ctx.chan := rfl
          rw [this, inbox_eq_nil (h.undel j ctx hg)]; rfl
        · have := h.lt j ctx hg
          simp only [step, registerRequest]; omega
        · intro k x hx
          simp only [step, registerRequest] at hx
          rw [AMap.get_insert] at hx
          split at hx
          · cases hx
            have := h.lt j ctx hg
            simp only; omega
          · rename_i hne
            intro he
            exact hne (h.inj k j x ctx hx hg he)
      · have hg' : (step s (.register j)).1.pending.get id = some ctx := by
          simp only [step, registerRequest]
          rw [AMap.get_insert_ne _ _ (Ne.symm hj)]; exact hg
        simp only [run, answer, hj, if_false]
        rw [ih hi hg', ho]
    | complete j r =>
      by_cases hj : j = id
      · subst hj
        simp only [run, answer, if_true]
        have hst : (step s (.complete j r)).1 =
            { s with pending := s.pending.remove j,
                     delivered := s.delivered ++ [(ctx.chan, r)] } := by
          simp [step, completeRequest, hg, h.own j ctx hg]
        rw [inbox_dead hi ctx.chan]
        · rw [hst]
          have := inbox_append s (s.pending.remove j) s.nextChan ctx.chan ctx.chan r
          rw [inbox_eq_nil (h.undel j ctx hg)] at this
          simpa using this
        · rw [hst]; exact h.lt j ctx hg
        · intro k x hx
          rw [hst] at hx
          simp only at hx
          rw [AMap.get_remove] at hx
          split at hx
          · cases hx
          · rename_i hne
            intro he
            exact hne (h.inj k j x ctx hx hg he)
      · have hg' : (step s (.complete j r)).1.pending.get id = some ctx := by
          simp only [step, completeRequest]
          split
          · rename_i c hc
            rw [if_pos (h.own j c hc)]
            simp only
            rw [AMap.get_remove_ne _ (Ne.symm hj)]; exact hg
          · exact hg
        simp only [run, answer, hj, if_false]
        rw [ih hi hg', ho]
    | completeFor j r t =>
      by_cases hjt : j = id ∧ t = s.own
      · obtain ⟨hj, ht⟩ := hjt
        subst hj
        simp only [run, answer, ht, and_self, if_true]
        have hst : (step s (.completeFor j r s.own)).1 =
            { s with pending := s.pending.remove j,
                     delivered := s.delivered ++ [(ctx.chan, r)] } := by
          simp [step, completeRequestFor, hg, h.own j ctx hg]
        subst ht
        rw [inbox_dead hi ctx.chan]
        · rw [hst]
          have := inbox_append s (s.pending.remove j) s.nextChan ctx.chan ctx.chan r
          rw [inbox_eq_nil (h.undel j ctx hg)] at this
          simpa using this
        · rw [hst]; exact h.lt j ctx hg
        · intro k x hx
          rw [hst] at hx
          simp only at hx
          rw [AMap.get_remove] at hx
          split at hx
          · cases hx
          · rename_i hne
            intro he
            exact hne (h.inj k j x ctx hx hg he)
      · have hg' : (step s (.completeFor j r t)).1.pending.get id = some ctx := by
          simp only [step, completeRequestFor]
          split
          · rename_i c hc
            split
            · rename_i hct
              have hj : id ≠ j := by
                intro he
                subst he
                apply hjt
                refine ⟨rfl, ?_⟩
                rw [← hct]; exact h.own id c hc
              simp only
              rw [AMap.get_remove_ne _ hj]; exact hg
            · exact hg
          · exact hg
        simp only [run, answer, hjt, if_false]
        rw [ih hi hg', ho]
    | cancel j =>
      by_cases hj : j = id
      · subst hj
        simp only [run, answer, if_true]
        rw [inbox_dead hi ctx.chan]
        · have : inbox (step s (.cancel j)).1 ctx.chan = inbox s ctx.chan := rfl
          rw [this, inbox_eq_nil (h.undel j ctx hg)]; rfl
        · exact h.lt j ctx hg
        · intro k x hx
          simp only [step, cancelRequest] at hx
          rw [AMap.get_remove] at hx
          split at hx
          · cases hx
          · rename_i hne
            intro he
            exact hne (h.inj k j x ctx hx hg he)
      · have hg' : (step s (.cancel j)).1.pending.get id = some ctx := by
          simp only [step, cancelRequest]
          rw [AMap.get_remove_ne _ (Ne.symm hj)]; exact hg
        simp only [run, answer, hj, if_false]
        rw [ih hi hg', ho]

/-- **C01**.  Take any history `before`, then a registration of `id`, then any calls `after`.  The
receiver returned by that registration is sent exactly the response demanded by the specification
`answer` (in particular at most one: `Option.toList`), and nothing else, ever. -/
theorem C01_registration_gets_first_response_only (own : T) (before after : List (Op Id T R))
    (id : Id) :
    ∃ c, (step (run (init own) before) (.register id)).2 = .receiver c ∧
      inbox (run (init own) (before ++ .register id :: after)) c
        = (answer own id after).toList := by
  refine ⟨_, rfl, ?_⟩
  rw [run_append]
  have hi := inv_run (inv_init (Id := Id) (R := R) own) before
  have ho := run_own (init own : State Id T R) before
  have := inbox_pending (inv_step hi (.register id)) (id := id)
    (ctx := ⟨(run (init own) before).own, (run (init own) before).nextChan⟩)
    (by simp [step, registerRequest]) after
  rw [step_own, ho] at this
  simpa [run, init] using this

/-- **C01** (corollary spelled out): at most one response per registration. -/
theorem C01_at_most_one_response (own : T) (before after : List (Op Id T R)) (id : Id) (c : Nat)
    (hc : (step (run (init own) before) (.register id)).2 = .receiver c) :
    (inbox (run (init own) (before ++ .register id :: after)) c).length ≤ 1 := by
  obtain ⟨c', h', hin⟩ := C01_registration_gets_first_response_only own before after id
  rw [h'] at hc
  cases hc
  rw [hin]
  cases answer own id after <;> simp

/-- Distinct registrations (at different points of a history) return distinct receivers, so a
response is never shared between two callers. -/
theorem C01_receivers_distinct (own : T) (a b : List (Op Id T R)) (i j : Id) (c d : Nat)
    (hc : (step (run (init own) a) (.register i)).2 = .receiver c)
    (hd : (step (run (init own) (a ++ .register i :: b)) (.register j)).2 = .receiver d) :
    c ≠ d := by
  have mono : ∀ (ops : List (Op Id T R)) (s : State Id T R),
      s.nextChan ≤ (run s ops).nextChan := by
    intro ops
    induction ops with
    | nil => intro s; exact Nat.le_refl _
    | cons op ops ih =>
      intro s
      refine Nat.le_trans ?_ (ih _)
      cases op with
      | register id => simp [step, registerRequest]
      | complete id r => simp only [step, completeRequest]; (repeat' split) <;> exact Nat.le_refl _
      | completeFor id r t =>
        simp only [step, completeRequestFor]; (repeat' split) <;> exact Nat.le_refl _
      | cancel id => exact Nat.le_refl _
  simp only [step, registerRequest, Out.receiver.injEq] at hc hd
  rw [run_append] at hd
  have := mono b (step (run (init own) a) (.register i)).1
  simp only [run] at hd
  rw [hd] at this
  simp only [step, registerRequest] at this
  omega

example : (answer (Id := Nat) (R := String) "t" 7
    [.completeFor 7 "foreign" "u", .complete 8 "other", .complete 7 "first", .complete 7 "second"])
    = some "first" := by decide

example : inbox (run (init "t")
    ([.register 8, .complete 9 "x"] ++ Op.register (7 : Nat) ::
     [.completeFor 7 "foreign" "u", .complete 8 "other", .complete 7 "first",
      .complete 7 "second"])) 1 = ["first"] := by decide

/-! ### C02 -/

/-- **C02**.  In every reachable state a response that comes in on another transport is answered
`false`, delivers nothing and changes nothing. -/
theorem C02_foreign_transport_no_effect (own t : T) (h : List (Op Id T R)) (id : Id) (r : R)
    (ht : t ≠ own) :
    step (run (init own) h) (.completeFor id r t) = (run (init own) h, .done false) := by
  have hi := inv_run (inv_init (Id := Id) (R := R) own) h
  have ho := run_own (init own : State Id T R) h
  simp only [step, completeRequestFor]
  split
  · rename_i ctx hg
    have := hi.own id ctx hg
    rw [ho] at this
    rw [if_neg]
    intro he
    exact ht (by rw [← he, this]; rfl)
  · rfl

/-- **C02** (liveness half).  However many foreign responses arrive first, a later response on the
right transport is delivered, and the call reports success. -/
theorem C02_right_transport_still_delivered (own : T) (before : List (Op Id T R)) (id : Id)
    (foreign : List (R × T)) (hf : ∀ x ∈ foreign, x.2 ≠ own) (r : R) :
    let mid := before ++ Op.register id :: foreign.map (fun x => .completeFor id x.1 x.2)
    (step (run (init own) mid) (.completeFor id r own)).2 = .done true ∧
    ∃ c, (step (run (init own) before) (.register id)).2 = .receiver c ∧
      inbox (run (init own) (mid ++ [.completeFor id r own])) c = [r] := by
  have key : ∀ (l : List (R × T)) (hl : ∀ x ∈ l, x.2 ≠ own) (p : List (Op Id T R)),
      run (init own) (p ++ l.map (fun x => Op.completeFor id x.1 x.2)) = run (init own) p := by
    intro l
    induction l with
    | nil => intro _ p; simp
    | cons x l ih =>
      intro hl p
      have h1 : p ++ (x :: l).map (fun x => Op.completeFor id x.1 x.2)
          = (p ++ [.completeFor id x.1 x.2]) ++ l.map (fun x => .completeFor id x.1 x.2) := by
        simp
      rw [h1, ih (fun y hy => hl y (List.mem_cons_of_mem _ hy)), run_append]
      simp only [run]
      rw [C02_foreign_transport_no_effect own x.2 p id x.1 (hl x List.mem_cons_self)]
  intro mid
  have hmid : run (init own) mid = run (init own) (before ++ [.register id]) := by
    have : mid = (before ++ [.register id]) ++ foreign.map (fun x => .completeFor id x.1 x.2) := by
      simp [mid]
    rw [this, key foreign hf]
  constructor
  · rw [hmid, run_append]
    have ho := run_own (init own : State Id T R) before
    have : (run (init own : State Id T R) before).own = own := by rw [ho]; rfl
    simp [run, step, registerRequest, completeRequestFor, this]
  · obtain ⟨c, hc, hin⟩ := C01_registration_gets_first_response_only own before
      (foreign.map (fun x => .completeFor id x.1 x.2) ++ [.completeFor id r own]) id
    refine ⟨c, hc, ?_⟩
    have : mid ++ [.completeFor id r own] =
        before ++ .register id :: (foreign.map (fun x => .completeFor id x.1 x.2)
          ++ [.completeFor id r own]) := by simp [mid]
    rw [this, hin]
    have hans : answer own id (foreign.map (fun x => Op.completeFor id x.1 x.2)
        ++ [.completeFor id r own]) = some r := by
      clear hin hc this hmid key mid
      induction foreign with
      | nil => simp [answer]
      | cons x l ih =>
        have hx := hf x List.mem_cons_self
        simp only [List.map_cons, List.cons_append, answer, hx, and_false, if_false]
        exact ih (fun y hy => hf y (List.mem_cons_of_mem _ hy))
    rw [hans]; rfl

/-- **C02**: the call reports `true` exactly when the request was outstanding and the transport is
the registering one; only then is something delivered. -/
theorem C02_reports_true_iff (own t : T) (h : List (Op Id T R)) (id : Id) (r : R) :
    (step (run (init own) h) (.completeFor id r t)).2 =
      .done (isPending (run (init own) h) id && decide (t = own)) := by
  have hi := inv_run (inv_init (Id := Id) (R := R) own) h
  have ho := run_own (init own : State Id T R) h
  simp only [step, completeRequestFor, isPending, AMap.contains]
  cases hg : (run (init own) h).pending.get id with
  | none => simp
  | some ctx =>
    have := hi.own id ctx hg
    rw [ho] at this
    have hc : ctx.transport = own := this
    by_cases ht : t = own
    · simp [hc, ht]
    · have : ¬ (own = t) := fun e => ht e.symm
      simp [hc, ht, this]

example : (step (run (init "t") [Op.register (7 : Nat)]) (.completeFor 7 "x" "u")).2
    = .done false := by decide
example : (step (run (init "t") [Op.register (7 : Nat), .completeFor 7 "x" "u"])
    (.completeFor 7 "y" "t")).2 = .done true := by decide

/-! ### C03 -/

theorem pending_eq_outstanding (own : T) (h : List (Op Id T R)) (id : Id) :
    isPending (run (init own) h) id = outstanding own id h.reverse := by
  have gen : ∀ (hr : List (Op Id T R)),
      isPending (run (init own) hr.reverse) id = outstanding own id hr := by
    intro hr
    induction hr with
    | nil => rfl
    | cons op older ih =>
      rw [List.reverse_cons, run_append]
      have hi := inv_run (inv_init (Id := Id) (R := R) own) older.reverse
      have ho : (run (init own) older.reverse).own = own :=
        run_own (init own : State Id T R) older.reverse
      generalize run (init own) older.reverse = s at ih hi ho
      subst ho
      unfold isPending AMap.contains at ih ⊢
      cases op with
      | register j =>
        simp only [run, step, registerRequest, outstanding, AMap.get_insert]
        by_cases hj : j = id
        · subst hj; simp
        · simp [hj, Ne.symm hj, ih]
      | complete j r =>
        simp only [run, step, completeRequest, outstanding]
        by_cases hj : j = id
        · subst hj
          cases hg : s.pending.get j with
          | none => simp [hg]
          | some ctx => simp [hi.own j ctx hg, AMap.get_remove_self]
        · simp only [hj, if_false]
          rw [← ih]
          cases hg : s.pending.get j with
          | none => rfl
          | some ctx => simp [hi.own j ctx hg, AMap.get_remove_ne _ (Ne.symm hj)]
      | completeFor j r t =>
        simp only [run, step, completeRequestFor, outstanding]
        by_cases hjt : j = id ∧ t = s.own
        · obtain ⟨hj, ht⟩ := hjt
          subst hj
          cases hg : s.pending.get j with
          | none => simp [hg, ht]
          | some ctx => simp [hi.own j ctx hg, ht, AMap.get_remove_self]
        · simp only [hjt, if_false]
          rw [← ih]
          cases hg : s.pending.get j with
          | none => rfl
          | some ctx =>
            simp only
            split
            · rename_i hct
              have hj : id ≠ j := by
                intro he
                apply hjt
                refine ⟨he.symm, ?_⟩
                rw [← hct]; exact hi.own j ctx hg
              simp [AMap.get_remove_ne _ hj]
            · rfl
      | cancel j =>
        simp only [run, step, cancelRequest, outstanding, AMap.get_remove]
        by_cases hj : j = id
        · subst hj; simp
        · simp [hj, Ne.symm hj, ih]
  have := gen h.reverse
  simpa using this

/-- **C03** (status): an id is pending iff the last call that decides about it was its
registration. -/
theorem C03_pending_iff_outstanding (own : T) (h : List (Op Id T R)) (id : Id) :
    isPending (run (init own) h) id = outstanding own id h.reverse :=
  pending_eq_outstanding own h id

/-- **C03** (non-interference, status): calls about other ids are irrelevant to whether `id` is
pending. -/
theorem C03_status_independent_of_other_ids (own : T) (h : List (Op Id T R)) (id : Id) :
    isPending (run (init own) h) id =
      isPending (run (init own) (h.filter (fun op => decide (op.about = id)))) id := by
  rw [pending_eq_outstanding, pending_eq_outstanding, ← List.filter_reverse]
  generalize h.reverse = l
  induction l with
  | nil => rfl
  | cons op l ih =>
    by_cases hab : op.about = id
    · rw [List.filter_cons_of_pos (by simpa using hab)]
      cases op <;> simp only [outstanding] <;> (try split) <;> simp_all
    · rw [List.filter_cons_of_neg (by simpa using hab), ← ih]
      cases op <;> simp only [Op.about] at hab <;> simp [outstanding, hab]

/-- **C03** (non-interference, delivery): what a registration of `id` receives is the same whether
or not calls about other ids happen before or after it. -/
theorem C03_delivery_independent_of_other_ids (own : T) (before after : List (Op Id T R))
    (id : Id) (c c' : Nat)
    (hc : (step (run (init own) before) (.register id)).2 = .receiver c)
    (hc' : (step (init own : State Id T R) (.register id)).2 = .receiver c') :
    inbox (run (init own) (before ++ .register id :: after)) c =
      inbox (run (init own) (.register id :: after.filter (fun op => decide (op.about = id)))) c' := by
  obtain ⟨d, hd, hin⟩ := C01_registration_gets_first_response_only own before after id
  obtain ⟨d', hd', hin'⟩ := C01_registration_gets_first_response_only own []
    (after.filter (fun op => decide (op.about = id))) id
  rw [hd] at hc; cases hc
  have : d' = c' := by
    have h2 : (step (init own : State Id T R) (.register id)).2 = .receiver d' := hd'
    rw [h2] at hc'; cases hc'; rfl
  subst this
  rw [hin]
  have h3 : ([] : List (Op Id T R)) ++ .register id ::
      after.filter (fun op => decide (op.about = id))
      = .register id :: after.filter (fun op => decide (op.about = id)) := rfl
  rw [h3] at hin'
  rw [hin']
  congr 1
  clear hin hin' hd hd' hc' h3
  induction after with
  | nil => rfl
  | cons op l ih =>
    by_cases hab : op.about = id
    · rw [List.filter_cons_of_pos (by simpa using hab)]
      cases op <;> simp only [answer] <;> (try split) <;> simp_all
    · rw [List.filter_cons_of_neg (by simpa using hab), ← ih]
      cases op <;> simp only [Op.about] at hab <;> simp [answer, hab]

/-- **C03** (cancellation): once cancelled, a registration never receives anything more. -/
theorem C03_cancelled_never_delivered (own : T) (before mid after : List (Op Id T R)) (id : Id)
    (c : Nat) (hc : (step (run (init own) before) (.register id)).2 = .receiver c) :
    inbox (run (init own) (before ++ .register id :: (mid ++ .cancel id :: after))) c =
      inbox (run (init own) (before ++ .register id :: mid)) c := by
  obtain ⟨d, hd, hin⟩ := C01_registration_gets_first_response_only own before
    (mid ++ .cancel id :: after) id
  obtain ⟨d', hd', hin'⟩ := C01_registration_gets_first_response_only own before mid id
  rw [hd] at hc; cases hc
  rw [hd] at hd'; cases hd'
  rw [hin, hin']
  congr 1
  clear hin hin' hd
  induction mid with
  | nil => simp [answer]
  | cons op l ih =>
    cases op <;> (simp only [List.cons_append, answer]; split <;> simp_all)

example : isPending (run (init "t") [Op.register (1 : Nat), .register 2, .cancel 1,
    .complete 2 "r", .register 3]) 3 = true := by decide
example : inbox (run (init "t") ([Op.register (2 : Nat)] ++ .register 1 ::
    ([Op.complete 2 "r2"] ++ .cancel 1 :: [.complete 1 "late"]))) 1 = [] := by decide

end Verif.Protocol
