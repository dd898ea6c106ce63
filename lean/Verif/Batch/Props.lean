import Verif.Batch.Lemmas

/-
Properties C24, C25, C26, C27, C80, C81, C82: batches.
-/

namespace Verif.Batch

open Verif.Ids

/-! ### C24: one answer per request, in order -/

/-- **C24**: for every batch, every configuration and every schedule: if the call returns, it returns
one response per request; request `i` was handed to the handler exactly once, the handler answered (or
timed out) exactly once, and the `i`-th response is that answer (or the timeout response). -/
theorem C24_every_schedule (cfg : Config) (reqs : List Req) (sched : List Step) (out : List Resp)
    (h : processParallel cfg reqs sched = some out) (hne : reqs ≠ []) :
    out.length = reqs.length ∧
    ∀ i (hi : i < out.length),
      sched.filter (fun x => decide (x.index = i)) = [.start i, .answer i out[i]] ∨
      (out[i] = timeoutResp ∧ cfg.timeout = true ∧
        sched.filter (fun x => decide (x.index = i)) = [.start i, .timeout i]) := by
  unfold processParallel at h
  rw [if_neg hne] at h
  cases hr : runFrom cfg (init cfg reqs) sched with
  | none => rw [hr] at h; cases h
  | some s =>
    rw [hr, Option.bind_some] at h
    obtain ⟨h1, h2⟩ := collect_spec hr h
    refine ⟨h1, fun i hi => ?_⟩
    have ht : taskAt s i = some (.done out[i]) := by
      rw [h2 i, List.getElem?_eq_getElem hi]; rfl
    rcases explains cfg reqs sched s hr i _ ht with he | ⟨he1, he2⟩
    · exact Or.inl he
    · refine Or.inr ⟨he1, ?_, he2⟩
      have hmem : Step.timeout i ∈ sched := by
        have : Step.timeout i ∈ sched.filter (fun x => decide (x.index = i)) := by rw [he2]; simp
        exact (List.mem_filter.mp this).1
      -- a timeout step is possible only if a timeout is configured
      clear he2 ht h2 h1 h
      have gen : ∀ (sched : List Step) (s0 s : State), runFrom cfg s0 sched = some s →
          Step.timeout i ∈ sched → cfg.timeout = true := by
        intro sched
        induction sched with
        | nil => intro _ _ _ hm; cases hm
        | cons x xs ih =>
          intro s0 s hrun hm
          simp only [runFrom] at hrun
          cases hx : step cfg s0 x with
          | none => rw [hx] at hrun; cases hrun
          | some s1 =>
            rw [hx] at hrun
            rcases List.mem_cons.mp hm with e | hm
            · subst e
              rcases step_cases hx with ⟨_, e, _⟩ | ⟨_, _, e, _⟩ | ⟨_, e, _, ht, _⟩
              · cases e
              · cases e
              · exact ht
            · exact ih s1 s hrun hm
      exact gen sched _ s hr hmem

/-- **C24** for a handler that is a function of the request: whatever the order in which the handlers
finish, and whatever the concurrency limit, the output is the list of the handler's answers in request
order. -/
theorem C24_order_independent (cfg : Config) (reqs : List Req) (sched : List Step) (out : List Resp)
    (handler : Req → Resp)
    (hans : ∀ i r, Step.answer i r ∈ sched → ∃ q, reqs[i]? = some q ∧ r = handler q)
    (hto : ∀ i, Step.timeout i ∉ sched)
    (h : processParallel cfg reqs sched = some out) : out = reqs.map handler := by
  by_cases hne : reqs = []
  · subst hne
    simp only [processParallel, if_true, Option.some.injEq] at h
    rw [← h]; rfl
  · obtain ⟨h1, h2⟩ := C24_every_schedule cfg reqs sched out h hne
    apply List.ext_getElem?
    intro i
    rw [List.getElem?_map]
    by_cases hi : i < out.length
    · rw [List.getElem?_eq_getElem hi]
      rcases h2 i hi with e | ⟨_, _, e⟩
      · have hm : Step.answer i out[i] ∈ sched := by
          have : Step.answer i out[i] ∈ sched.filter (fun x => decide (x.index = i)) := by rw [e]; simp
          exact (List.mem_filter.mp this).1
        obtain ⟨q, hq1, hq2⟩ := hans i _ hm
        rw [hq1, hq2]; rfl
      · have hm : Step.timeout i ∈ sched := by
          have : Step.timeout i ∈ sched.filter (fun x => decide (x.index = i)) := by rw [e]; simp
          exact (List.mem_filter.mp this).1
        exact absurd hm (hto i)
    · rw [List.getElem?_eq_none (by omega), List.getElem?_eq_none (by omega)]; rfl

theorem fromResponses_responses (rs : List Resp) : (fromResponses rs).responses = rs := by
  match rs with
  | [] => rfl
  | [_] => rfl
  | _ :: _ :: _ => rfl

/-- **C24** for `process_batch_request`: the same for whole batches, including single requests and
empty batches. -/
theorem C24_batch_request (b : BatchRequest) (handler : Req → Resp) (sched : List Step)
    (resp : BatchResponse)
    (hans : ∀ i r, Step.answer i r ∈ sched → ∃ q, b.requests[i]? = some q ∧ r = handler q)
    (hto : ∀ i, Step.timeout i ∉ sched)
    (h : processBatch b handler sched = some resp) : resp.responses = b.requests.map handler := by
  unfold processBatch at h
  match hb : b.requests with
  | [] => rw [hb] at h; cases h; rfl
  | [r] => rw [hb] at h; cases h; rfl
  | r :: r' :: rs =>
    rw [hb] at h hans
    simp only at h
    cases hp : processParallel defaultConfig (r :: r' :: rs) sched with
    | none => rw [hp] at h; cases h
    | some out =>
      rw [hp] at h
      cases h
      rw [fromResponses_responses]
      exact C24_order_independent _ _ sched out handler hans hto hp

/-- Three requests. (Specification: no counterpart in the code.) -/
def reqA : Req := ⟨.num 1, "a".toList, 0⟩
/-- (Specification: no counterpart in the code.) -/
@[inherit_doc reqA] def reqB : Req := ⟨.str "x".toList, "b".toList, 1⟩
@[inherit_doc reqA] def reqC : Req := ⟨.num 3, "c".toList, 2⟩
/-- A handler echoing the id. (Specification: no counterpart in the code.) -/
def echo (r : Req) : Resp := ⟨r.id, .result r.params⟩

-- the third request finishes first, the first one last
example : processParallel ⟨2, true⟩ [reqA, reqB, reqC]
    [.start 0, .start 2, .answer 2 (echo reqC), .start 1, .answer 1 (echo reqB), .answer 0 (echo reqA)]
      = some [echo reqA, echo reqB, echo reqC] := by decide
example : processParallel ⟨2, true⟩ [reqA, reqB]
    [.start 1, .start 0, .timeout 0, .answer 1 (echo reqB)] = some [timeoutResp, echo reqB] := by decide

/-! ### C25: bounded concurrency and progress -/

/-- Handlers in progress. (Specification: no counterpart in the code.) -/
def running (s : State) : Nat := countT (fun t => decide (t = .running)) s.tasks

/-- Handlers in progress according to the schedule: started and neither answered nor timed out.
(Specification: no counterpart in the code.) -/
def inProgress (sched : List Step) : Int :=
  (sched.map (fun x => match x with | .start _ => (1 : Int) | _ => -1)).sum

theorem permits_inv (cfg : Config) (reqs : List Req) (sched : List Step) (s : State)
    (h : runFrom cfg (init cfg reqs) sched = some s) :
    running s + s.permits = cfg.maxConcurrency ∧ inProgress sched = running s := by
  induction sched using snocInduction generalizing s with
  | nil =>
    cases h
    constructor
    · rw [running, countT_init]; simp [init]
    · simp [running, countT_init, inProgress]
  | append_singleton sched x ih =>
    rw [runFrom_snoc] at h
    cases hs : runFrom cfg (init cfg reqs) sched with
    | none => rw [hs] at h; cases h
    | some s0 =>
      rw [hs, Option.bind_some] at h
      obtain ⟨ih1, ih2⟩ := ih s0 hs
      have hp : inProgress (sched ++ [x]) = inProgress sched + inProgress [x] := by
        simp [inProgress]
      rw [hp, ih2]
      rcases step_cases h with ⟨j, rfl, h1, h2, rfl⟩ | ⟨j, r, rfl, h1, rfl⟩ | ⟨j, rfl, h1, _, rfl⟩
      · have := countT_modify (fun t => decide (t = .running)) s0.tasks j .running .waiting h1
        simp at this
        unfold running setTask at *
        simp only [inProgress, List.map_cons, List.map_nil, List.sum_cons, List.sum_nil]
        omega
      · have := countT_modify (fun t => decide (t = .running)) s0.tasks j (.done r) .running h1
        simp at this
        unfold running setTask at *
        simp only [inProgress, List.map_cons, List.map_nil, List.sum_cons, List.sum_nil]
        omega
      · have := countT_modify (fun t => decide (t = .running)) s0.tasks j (.done timeoutResp) .running h1
        simp at this
        unfold running setTask at *
        simp only [inProgress, List.map_cons, List.map_nil, List.sum_cons, List.sum_nil]
        omega

/-- **C25**, bound: at every moment of every schedule the number of handler calls in progress (started
and not yet answered or timed out) is at most `max_concurrency`. -/
theorem C25_bounded (cfg : Config) (reqs : List Req) (sched rest : List Step) (s : State)
    (h : runFrom cfg (init cfg reqs) (sched ++ rest) = some s) :
    inProgress sched ≤ cfg.maxConcurrency := by
  rw [runFrom_append] at h
  cases hs : runFrom cfg (init cfg reqs) sched with
  | none => rw [hs] at h; cases h
  | some s0 =>
    obtain ⟨h1, h2⟩ := permits_inv cfg reqs sched s0 hs
    omega

-- three requests, two at a time; the prefix is looked at while two are in progress
example : inProgress [.start 0, .start 2] ≤ 2 ∧ inProgress [.start 0, .start 2] = 2 :=
  ⟨C25_bounded ⟨2, true⟩ [reqA, reqB, reqC] [.start 0, .start 2] [.answer 2 (echo reqC), .start 1] _ rfl, by decide⟩

/-- **C25** for `BatchRequest`s, which use the default limit: never more than ten at a time. -/
theorem C25_default_bound (reqs : List Req) (sched rest : List Step) (s : State)
    (h : runFrom defaultConfig (init defaultConfig reqs) (sched ++ rest) = some s) : inProgress sched ≤ 10 :=
  C25_bounded defaultConfig reqs sched rest s h

example : (runFrom defaultConfig (init defaultConfig [reqA, reqB, reqC])
    ([.start 0, .start 1, .start 2] ++ [.answer 1 (echo reqB)])).isSome = true := by decide

theorem joined_none {l : List (Nat × Req × Task)} (h : joined l = none) :
    ∃ i : Nat, (l[i]?).map (·.2.2) = some .waiting ∨ (l[i]?).map (·.2.2) = some .running := by
  induction l with
  | nil => cases h
  | cons x xs ih =>
    obtain ⟨k, q, t⟩ := x
    cases t with
    | waiting => exact ⟨0, Or.inl rfl⟩
    | running => exact ⟨0, Or.inr rfl⟩
    | done r =>
      simp only [joined] at h
      cases hj : joined xs with
      | none =>
        obtain ⟨i, hi⟩ := ih hj
        exact ⟨i + 1, hi⟩
      | some o => rw [hj] at h; cases h

theorem countT_pos {p : Task → Bool} {l : List (Nat × Req × Task)} (h : 0 < countT p l) :
    ∃ (i : Nat) (t : Task), (l[i]?).map (·.2.2) = some t ∧ p t = true := by
  induction l with
  | nil => simp [countT] at h
  | cons x xs ih =>
    by_cases hp : p x.2.2
    · exact ⟨0, _, rfl, hp⟩
    · have : 0 < countT p xs := by simpa [countT, List.filter_cons, hp] using h
      obtain ⟨i, t, h1, h2⟩ := ih this
      exact ⟨i + 1, t, h1, h2⟩

/-- **C25**, progress: with a limit of at least one, after every schedule either all responses are
there, or some handler is in progress (and may answer), or a waiting request can be started.  So the
batch never gets stuck as long as the handlers answer. -/
theorem C25_progress (cfg : Config) (hc : 1 ≤ cfg.maxConcurrency) (reqs : List Req)
    (sched : List Step) (s : State) (h : runFrom cfg (init cfg reqs) sched = some s) :
    (∃ out, collect s = some out) ∨ (∃ i, ∀ r, (step cfg s (.answer i r)).isSome = true) ∨
      (∃ i, (step cfg s (.start i)).isSome = true) := by
  cases hj : joined s.tasks with
  | some o => left; exact ⟨_, by unfold collect; rw [hj]; rfl⟩
  | none =>
    right
    obtain ⟨i, hi | hi⟩ := joined_none hj
    · by_cases hp : 0 < s.permits
      · right
        refine ⟨i, ?_⟩
        have : taskAt s i = some .waiting := hi
        simp [step, this, hp]
      · left
        obtain ⟨h1, _⟩ := permits_inv cfg reqs sched s h
        have hr : 0 < running s := by omega
        obtain ⟨k, t, hk, ht⟩ := countT_pos hr
        refine ⟨k, fun r => ?_⟩
        have : taskAt s k = some .running := by
          unfold taskAt; rw [hk]; simpa using ht
        simp [step, this]
    · left
      refine ⟨i, fun r => ?_⟩
      have : taskAt s i = some .running := hi
      simp [step, this]

/-- Work left: two steps for a waiting request, one for a running one. (Specification: no counterpart in the code.) -/
def work (s : State) : Nat :=
  countT (fun t => decide (t = .waiting)) s.tasks * 2 + running s

theorem work_step {cfg : Config} {s s' : State} {x : Step} (h : step cfg s x = some s') :
    work s' + 1 = work s := by
  rcases step_cases h with ⟨j, rfl, h1, h2, rfl⟩ | ⟨j, r, rfl, h1, rfl⟩ | ⟨j, rfl, h1, _, rfl⟩
  · have a := countT_modify (fun t => decide (t = .running)) s.tasks j .running .waiting h1
    have b := countT_modify (fun t => decide (t = .waiting)) s.tasks j .running .waiting h1
    simp at a b
    unfold work running setTask at *
    simp only
    omega
  · have a := countT_modify (fun t => decide (t = .running)) s.tasks j (.done r) .running h1
    have b := countT_modify (fun t => decide (t = .waiting)) s.tasks j (.done r) .running h1
    simp at a b
    unfold work running setTask at *
    simp only
    omega
  · have a := countT_modify (fun t => decide (t = .running)) s.tasks j (.done timeoutResp) .running h1
    have b := countT_modify (fun t => decide (t = .waiting)) s.tasks j (.done timeoutResp) .running h1
    simp at a b
    unfold work running setTask at *
    simp only
    omega

theorem work_run {cfg : Config} {sched : List Step} {s s' : State}
    (h : runFrom cfg s sched = some s') : work s' + sched.length = work s := by
  induction sched generalizing s with
  | nil => cases h; rfl
  | cons x xs ih =>
    simp only [runFrom] at h
    cases hs : step cfg s x with
    | none => rw [hs] at h; cases h
    | some s1 =>
      rw [hs] at h
      have h1 := ih h
      have h2 := work_step hs
      simp only [List.length_cons]
      omega

/-- **C25**, termination: every schedule of a batch of `n` requests has at most `2 n` steps; together
with `C25_progress` every batch whose handlers answer is finished after finitely many steps. -/
theorem C25_terminates (cfg : Config) (reqs : List Req) (sched : List Step) (s : State)
    (h : runFrom cfg (init cfg reqs) sched = some s) : sched.length ≤ 2 * reqs.length := by
  have h1 := work_run h
  have h2 : work (init cfg reqs) = reqs.length * 2 := by
    unfold work running
    rw [countT_init, countT_init]
    simp
  omega

/-- **C25**: a limit of zero is accepted but the batch never makes a step. -/
theorem C25_zero_limit_stuck (timeout : Bool) (reqs : List Req) (sched : List Step) (s : State)
    (h : runFrom ⟨0, timeout⟩ (init ⟨0, timeout⟩ reqs) sched = some s) : sched = [] := by
  cases sched with
  | nil => rfl
  | cons x xs =>
    simp only [runFrom] at h
    cases hs : step ⟨0, timeout⟩ (init ⟨0, timeout⟩ reqs) x with
    | none => rw [hs] at h; cases h
    | some s1 =>
      have hp : (init ⟨0, timeout⟩ reqs).permits = 0 := rfl
      have hw : ∀ i t, taskAt (init ⟨0, timeout⟩ reqs) i = some t → t = .waiting := by
        intro i t ht
        unfold taskAt init at ht
        simp only [List.getElem?_map] at ht
        cases hz : reqs.zipIdx[i]? with
        | none => rw [hz] at ht; cases ht
        | some p => rw [hz] at ht; cases ht; rfl
      rcases step_cases hs with ⟨j, _, _, h2, _⟩ | ⟨j, r, _, h1, _⟩ | ⟨j, _, h1, _⟩
      · omega
      · exact absurd (hw j _ h1) (by simp)
      · exact absurd (hw j _ h1) (by simp)

example : (runFrom ⟨2, false⟩ (init ⟨2, false⟩ [reqA, reqB, reqC]) [.start 0, .start 2]).isSome = true ∧
    (runFrom ⟨2, false⟩ (init ⟨2, false⟩ [reqA, reqB, reqC]) [.start 0, .start 2, .start 1]).isSome = false := by
  decide

/-! ### C26: response ids -/

/-- **C26**, part that holds: if the handler answers every request under its own id and no request
times out, the responses carry the ids of the requests, position by position. -/
theorem C26_ids_partial (cfg : Config) (reqs : List Req) (sched : List Step) (out : List Resp)
    (hans : ∀ i r, Step.answer i r ∈ sched → ∃ q, reqs[i]? = some q ∧ r.id = q.id)
    (hto : ∀ i, Step.timeout i ∉ sched)
    (h : processParallel cfg reqs sched = some out) : out.map (·.id) = reqs.map (·.id) := by
  by_cases hne : reqs = []
  · subst hne
    simp only [processParallel, if_true, Option.some.injEq] at h
    rw [← h]; rfl
  · obtain ⟨h1, h2⟩ := C24_every_schedule cfg reqs sched out h hne
    apply List.ext_getElem?
    intro i
    rw [List.getElem?_map, List.getElem?_map]
    by_cases hi : i < out.length
    · rw [List.getElem?_eq_getElem hi]
      rcases h2 i hi with e | ⟨_, _, e⟩
      · have hm : Step.answer i out[i] ∈ sched := by
          have : Step.answer i out[i] ∈ sched.filter (fun x => decide (x.index = i)) := by rw [e]; simp
          exact (List.mem_filter.mp this).1
        obtain ⟨q, hq1, hq2⟩ := hans i _ hm
        rw [hq1]; simp [hq2]
      · have hm : Step.timeout i ∈ sched := by
          have : Step.timeout i ∈ sched.filter (fun x => decide (x.index = i)) := by rw [e]; simp
          exact (List.mem_filter.mp this).1
        exact absurd hm (hto i)
    · rw [List.getElem?_eq_none (by omega), List.getElem?_eq_none (by omega)]; rfl

/-- **C26**: exactly which responses have a foreign id: with timeouts, response `i` carries the id of
request `i` unless request `i` timed out, and then it carries the string id `null`. -/
theorem C26_ids_with_timeouts (cfg : Config) (reqs : List Req) (sched : List Step) (out : List Resp)
    (hans : ∀ i r, Step.answer i r ∈ sched → ∃ q, reqs[i]? = some q ∧ r.id = q.id)
    (h : processParallel cfg reqs sched = some out) (hne : reqs ≠ []) (i : Nat)
    (hi : i < out.length) :
    (reqs[i]?).map (·.id) = some out[i].id ∨
      (Step.timeout i ∈ sched ∧ out[i] = ⟨.str "null".toList, .error (-32603) "Request timeout".toList⟩) := by
  obtain ⟨_, h2⟩ := C24_every_schedule cfg reqs sched out h hne
  rcases h2 i hi with e | ⟨e0, _, e⟩
  · have hm : Step.answer i out[i] ∈ sched := by
      have : Step.answer i out[i] ∈ sched.filter (fun x => decide (x.index = i)) := by rw [e]; simp
      exact (List.mem_filter.mp this).1
    obtain ⟨q, hq1, hq2⟩ := hans i _ hm
    left; rw [hq1, hq2]; rfl
  · have hm : Step.timeout i ∈ sched := by
      have : Step.timeout i ∈ sched.filter (fun x => decide (x.index = i)) := by rw [e]; simp
      exact (List.mem_filter.mp this).1
    right; exact ⟨hm, by rw [e0]; rfl⟩

/-- **C26** is false with timeouts: the response of a timed-out request carries another id. -/
theorem C26_timeout_loses_id :
    (processParallel defaultConfig [reqA, reqB]
      [.start 0, .start 1, .answer 1 (echo reqB), .timeout 0]).map (fun o => o.map (·.id))
        = some [.str "null".toList, .str "x".toList] := by decide

/-- **C26** for the server: the server's handler answers every request, parseable or not, under its
id, provided `handle_request` does; an unparseable one with the JSON-RPC parse error. -/
theorem C26_server_handler (parse : Req → Except (List Char) Nat) (handle : RequestId → Nat → Resp)
    (hh : ∀ id x, (handle id x).id = id) (r : Req) : (serverHandler parse handle r).id = r.id ∧
      (∀ x, parse r = .ok x → serverHandler parse handle r = handle r.id x) ∧
      (∀ e, parse r = .error e →
        serverHandler parse handle r = ⟨r.id, .error (-32700) ("Parse error: ".toList ++ e)⟩) := by
  unfold serverHandler
  cases parse r with
  | ok x => exact ⟨hh _ _, fun y h => by cases h; rfl, nofun⟩
  | error e => exact ⟨rfl, nofun, fun y h => by cases h; rfl⟩

example : (serverHandler (fun _ => .error "bad".toList) (fun id x => ⟨id, .result x⟩) reqB) =
    ⟨.str "x".toList, .error (-32700) "Parse error: bad".toList⟩ := by decide

/-! ### C80: shape of the answer -/

/-- **C80**, part that holds: an array of zero or at least two requests is answered with an array, a
single request with a single response. -/
theorem C80_shape_partial (b : BatchRequest) (handler : Req → Resp) (sched : List Step)
    (resp : BatchResponse) (h : processBatch b handler sched = some resp)
    (hne : ∀ r, b ≠ .batch [r]) :
    (∃ r, b = .single r) ↔ (∃ r, resp = .single r) := by
  cases b with
  | single r =>
    simp only [processBatch, BatchRequest.requests, fromResponses] at h
    cases h
    exact ⟨fun _ => ⟨_, rfl⟩, fun _ => ⟨_, rfl⟩⟩
  | batch rs =>
    match rs, hne, h with
    | [], _, h =>
      simp only [processBatch, BatchRequest.requests] at h
      cases h
      exact ⟨(fun ⟨_, h⟩ => by cases h), (fun ⟨_, h⟩ => by cases h)⟩
    | [r], hne, _ => exact absurd rfl (hne r)
    | a :: b :: rs, _, h =>
      simp only [processBatch, BatchRequest.requests] at h
      cases hp : processParallel defaultConfig (a :: b :: rs) sched with
      | none => rw [hp] at h; cases h
      | some out =>
        rw [hp] at h
        cases h
        have hl := (C24_every_schedule _ _ _ _ hp (by simp)).1
        refine ⟨(fun ⟨_, h⟩ => by cases h), fun ⟨r, hr⟩ => ?_⟩
        match out, hl, hr with
        | [], hl, _ => simp at hl
        | [_], hl, _ => simp at hl
        | _ :: _ :: _, _, hr => cases hr

/-- **C80, exactly.** The answer is an array if and only if the message was an array that does not hold exactly one
request. -/
theorem C80_array_iff (b : BatchRequest) (handler : Req → Resp) (sched : List Step) (resp : BatchResponse)
    (h : processBatch b handler sched = some resp) :
    (∃ rs, resp = .batch rs) ↔ ∃ rs, b = .batch rs ∧ rs.length ≠ 1 := by
  by_cases hone : ∃ r, b = .batch [r]
  · obtain ⟨r, rfl⟩ := hone
    have : resp = .single (handler r) := by
      have h' : some (BatchResponse.single (handler r)) = some resp := h
      injection h' with h'; exact h'.symm
    subst this
    constructor
    · rintro ⟨rs, h⟩; cases h
    · rintro ⟨rs, h, hl⟩
      injection h with h
      subst h
      exact absurd rfl hl
  · have hs := C80_shape_partial b handler sched resp h (fun r hr => hone ⟨r, hr⟩)
    cases b with
    | single r =>
      obtain ⟨r', rfl⟩ := hs.mp ⟨r, rfl⟩
      exact ⟨(fun ⟨_, h⟩ => by cases h), (fun ⟨_, h, _⟩ => by cases h)⟩
    | batch rs =>
      cases resp with
      | single r => obtain ⟨r', h⟩ := hs.mpr ⟨r, rfl⟩; cases h
      | batch out =>
        refine ⟨fun _ => ⟨rs, rfl, fun hl => ?_⟩, fun _ => ⟨out, rfl⟩⟩
        obtain ⟨r, rfl⟩ := List.length_eq_one_iff.mp hl
        exact hone ⟨r, rfl⟩

/-- **C80** is false for arrays of one request: they are answered with a bare response. -/
theorem C80_one_element_array (handler : Req → Resp) (r : Req) (sched : List Step) :
    processBatch (.batch [r]) handler sched = some (.single (handler r)) := rfl

example : ∃ resp, processBatch (.batch [reqA, reqB]) echo
    [.start 0, .start 1, .answer 1 (echo reqB), .answer 0 (echo reqA)] = some resp ∧
    resp = .batch [echo reqA, echo reqB] := ⟨_, rfl, by decide⟩

/-! ### C27: metrics -/

/-- Requests processed since the last reset, from the history. (Specification: no counterpart in the code.) -/
def processedSince (h : List MOp) : Nat :=
  h.foldl (fun n op => match op with | .processed k _ _ => n + k | .reset => 0) 0

/-- Calls whose batch was answered completely (as `C24_every_schedule` guarantees).
(Specification: no counterpart in the code.) -/
def Complete : MOp → Prop
  | .processed n rs _ => rs.length = n
  | .reset => True

theorem countOne_sum (m : Metrics) (r : Resp) :
    (countOne m r).success + (countOne m r).errors + (countOne m r).timeouts =
      m.success + m.errors + m.timeouts + 1 ∧ (countOne m r).total = m.total := by
  unfold countOne
  cases r.payload with
  | result v => simp only; exact ⟨by omega, trivial⟩
  | error c msg =>
    simp only
    split
    · exact ⟨by simp only; omega, rfl⟩
    · exact ⟨by simp only; omega, rfl⟩

theorem countAll_sum (rs : List Resp) (m : Metrics) :
    (rs.foldl countOne m).success + (rs.foldl countOne m).errors + (rs.foldl countOne m).timeouts =
      m.success + m.errors + m.timeouts + rs.length ∧ (rs.foldl countOne m).total = m.total := by
  induction rs generalizing m with
  | nil => exact ⟨rfl, rfl⟩
  | cons r rs ih =>
    obtain ⟨h1, h2⟩ := ih (countOne m r)
    obtain ⟨h3, h4⟩ := countOne_sum m r
    simp only [List.foldl_cons, List.length_cons]
    exact ⟨by omega, by omega⟩

/-- **C27**: after any history of batches and resets, the total equals the number of requests processed
since the last reset, and equals successes plus errors plus timeouts. -/
theorem C27_metrics_add_up (h : List MOp) (hc : ∀ op ∈ h, Complete op) :
    (h.foldl mstep {}).total = processedSince h ∧
    (h.foldl mstep {}).success + (h.foldl mstep {}).errors + (h.foldl mstep {}).timeouts =
      (h.foldl mstep {}).total := by
  induction h using snocInduction with
  | nil => exact ⟨rfl, rfl⟩
  | append_singleton h op ih =>
    obtain ⟨ih1, ih2⟩ := ih (fun o ho => hc o (List.mem_append_left _ ho))
    have hop := hc op (by simp)
    simp only [processedSince, List.foldl_append, List.foldl_cons, List.foldl_nil] at ih1 ⊢
    cases op with
    | reset => exact ⟨rfl, rfl⟩
    | processed n rs ms =>
      simp only [mstep, record]
      obtain ⟨h1, h2⟩ := countAll_sum rs
        { h.foldl mstep {} with total := (h.foldl mstep {}).total + n
                                maxTime := max (h.foldl mstep {}).maxTime ms }
      have hlen : rs.length = n := hop
      simp only at h1 h2
      exact ⟨by omega, by omega⟩

/-- **C27**, classification: a response is counted as success exactly if it is a result; an error is
counted as a timeout exactly if its text contains `timeout` — so the batch's own timeouts are. -/
theorem C27_classification (m : Metrics) (r : Resp) :
    ((countOne m r).success = m.success + 1 ↔ ∃ v, r.payload = .result v) ∧
    ((countOne m r).timeouts = m.timeouts + 1 ↔
      ∃ c msg, r.payload = .error c msg ∧ hasSub "timeout".toList msg = true) := by
  unfold countOne
  cases hp : r.payload with
  | result v => simp
  | error c msg =>
    simp only
    split
    · rename_i h
      refine ⟨by simp, fun _ => ⟨c, msg, rfl, h⟩, fun _ => rfl⟩
    · rename_i h
      refine ⟨by simp, fun h' => absurd h' (by simp), ?_⟩
      rintro ⟨c', msg', e, h'⟩
      cases e
      exact absurd h' h

/-- The batch's own timeout responses are counted as timeouts. -/
theorem C27_own_timeouts (m : Metrics) : (countOne m timeoutResp).timeouts = m.timeouts + 1 := by
  unfold countOne timeoutResp
  simp only
  rw [if_pos (by decide)]

example : Complete (.processed 2 [echo reqA, timeoutResp] 5) ∧
    ([MOp.processed 2 [echo reqA, timeoutResp] 5, .reset, .processed 1 [echo reqB] 1].foldl mstep {}).total = 1 :=
  ⟨rfl, by decide +kernel⟩

/-! ### C82: the average -/

/-- **C82** is false: if the first batch after creation (or after a reset) is empty, the average is not
a number, and it stays that way whatever batches follow (until a reset). -/
theorem C82_empty_batch_poisons_average (n : Nat) (rs : List Resp) (ms : Nat) :
    (record {} 0 [] 0).avg = .nan ∧
    ∀ m : Metrics, m.avg = .nan → (record m n rs ms).avg = .nan := by
  refine ⟨by decide +kernel, ?_⟩
  intro m hm
  have hfold : ∀ (rs : List Resp) (m : Metrics), m.avg = .nan → (rs.foldl countOne m).avg = .nan := by
    intro rs
    induction rs with
    | nil => intro m h; exact h
    | cons r rs ih =>
      intro m h
      refine ih _ ?_
      unfold countOne
      cases r.payload with
      | result v => exact h
      | error c msg => simp only; split <;> exact h
  unfold record
  simp only
  rw [hfold rs _ (by exact hm)]
  rfl

/-- **C82**, part that holds: a non-empty batch keeps a finite average finite as long as the products
stay in the range of `f64`. -/
theorem C82_average_finite_partial (m : Metrics) (q : Rat) (hq : m.avg = .fin q) (n : Nat)
    (hn : 0 < n) (rs : List Resp) (ms : Nat)
    (hr1 : q * (m.total : Rat) < Reconnect.overflow)
    (hr2 : q * (m.total : Rat) + (ms : Rat) < Reconnect.overflow) :
    (record m n rs ms).avg = .fin ((q * (m.total : Rat) + ms) / ((m.total + n : Nat) : Rat)) := by
  have hfold : ∀ (rs : List Resp) (m : Metrics), (rs.foldl countOne m).avg = m.avg := by
    intro rs
    induction rs with
    | nil => intro m; rfl
    | cons r rs ih =>
      intro m
      rw [List.foldl_cons, ih]
      unfold countOne
      cases r.payload with
      | result v => rfl
      | error c msg => simp only; split <;> rfl
  unfold record
  simp only
  have ht := (countAll_sum rs { m with total := m.total + n, maxTime := max m.maxTime ms }).2
  simp only at ht
  rw [hfold, ht]
  simp only [hq, Nat.add_sub_cancel]
  simp only [Reconnect.F.mul, Reconnect.F.ofRat, if_pos hr1, fadd, if_pos hr2]
  cases h : m.total + n with
  | zero => omega
  | succ k => rfl

example : (record {} 2 [echo reqA, echo reqB] 10).avg = .fin 5 := by decide +kernel

/-- **C82**: an average that has left the range of `f64` stays infinite, whatever comes. -/
theorem C82_average_infinite (m : Metrics) (hm : m.avg = .inf) (ht : 0 < m.total) (n : Nat) (rs : List Resp) (ms : Nat) :
    (record m n rs ms).avg = .inf := by
  have hfold : ∀ (rs : List Resp) (m : Metrics), (rs.foldl countOne m).avg = m.avg := by
    intro rs
    induction rs with
    | nil => intro m; rfl
    | cons r rs ih =>
      intro m
      rw [List.foldl_cons, ih]
      unfold countOne
      cases r.payload with
      | result v => rfl
      | error c msg => simp only; split <;> rfl
  have hs := (countAll_sum rs { m with total := m.total + n, maxTime := max m.maxTime ms }).2
  simp only at hs
  have hz : ((m.total : Nat) : Rat) ≠ 0 := by
    intro h
    have : m.total = 0 := by exact_mod_cast h
    omega
  unfold record
  simp only
  rw [hfold, hs]
  simp only [hm, Nat.add_sub_cancel, Reconnect.F.mul, if_neg hz, fadd, fdivNat]

example : (record { total := 1, avg := .inf } 2 [echo reqA, echo reqB] 10).avg = .inf := by decide +kernel

/-! ### C81: rate limiting -/

/-- `k` requests at each time from `t` for `w` units. (Specification: no counterpart in the code.) -/
def burst (k t : Nat) : Nat → List Nat
  | 0 => []
  | w + 1 => List.replicate k t ++ burst k (t + 1) w

theorem burst_filter_lt (k t w a : Nat) (h : a < t) :
    (burst k t w).filter (fun x => decide (x = a)) = [] := by
  induction w generalizing t with
  | zero => rfl
  | succ w ih =>
    simp only [burst, List.filter_append, ih (t + 1) (by omega), List.append_nil]
    rw [List.filter_eq_nil_iff]
    intro x hx
    have := List.eq_of_mem_replicate hx
    simp; omega

theorem burst_filter (k t w a : Nat) :
    ((burst k t w).filter (fun x => decide (x = a))).length ≤ k := by
  induction w generalizing t with
  | zero => simp [burst]
  | succ w ih =>
    simp only [burst, List.filter_append, List.length_append]
    by_cases h : t = a
    · subst h
      rw [burst_filter_lt k (t + 1) w t (by omega)]
      have := List.length_filter_le (fun x => decide (x = t)) (List.replicate k t)
      simp at this ⊢
    · have : (List.replicate k t).filter (fun x => decide (x = a)) = [] := by
        rw [List.filter_eq_nil_iff]
        intro x hx
        have := List.eq_of_mem_replicate hx
        simp; omega
      rw [this]
      have := ih (t + 1)
      simpa using this

theorem burst_length (k t w : Nat) : (burst k t w).length = k * w := by
  induction w generalizing t with
  | zero => rfl
  | succ w ih => simp [burst, ih, Nat.mul_add, Nat.add_comm]

theorem burst_mem (k t w a : Nat) (h : a ∈ burst k t w) : t ≤ a ∧ a < t + w := by
  induction w generalizing t with
  | zero => cases h
  | succ w ih =>
    rcases List.mem_append.mp h with h | h
    · have := List.eq_of_mem_replicate h; omega
    · have := ih (t + 1) h; omega

/-- **C81** is false: with a limit of `n` requests per second (time unit `1/n` s, so one second is `n`
units) `n * n` requests can be released within one second. -/
theorem C81_rate_exceeded (n : Nat) :
    ∃ acquired, rateOk n acquired ∧ releasedIn acquired 1 n = n * n := by
  refine ⟨burst n 0 n, ?_, ?_⟩
  · intro t
    have : (burst n 0 n).filter (fun a => decide (a ≤ t ∧ t < a + 1)) =
        (burst n 0 n).filter (fun a => decide (a = t)) := by
      apply List.filter_congr
      intro x _
      simp only [decide_eq_decide]
      omega
    rw [this]
    exact burst_filter n 0 n t
  · unfold releasedIn
    have : (burst n 0 n).filter (fun a => decide (1 ≤ a + 1 ∧ a + 1 < 1 + n)) = burst n 0 n := by
      apply List.filter_eq_self.mpr
      intro a ha
      have := burst_mem n 0 n a ha
      simp; omega
    rw [this, burst_length]

theorem filter_split (P Q R : Nat → Bool) (l : List Nat)
    (h : ∀ x, (P x).toNat = (Q x).toNat + (R x).toNat) :
    (l.filter P).length = (l.filter Q).length + (l.filter R).length := by
  induction l with
  | nil => rfl
  | cons a as ih =>
    have ha := h a
    simp only [List.filter_cons]
    cases hP : P a <;> cases hQ : Q a <;> cases hR : R a <;>
      simp only [hP, hQ, hR, Bool.toNat_true, Bool.toNat_false] at ha <;> simp <;> omega

theorem count_window (n : Nat) (acquired : List Nat) (h : rateOk n acquired) (t w : Nat) :
    (acquired.filter (fun a => decide (t ≤ a ∧ a < t + w))).length ≤ n * w := by
  induction w with
  | zero =>
    have : acquired.filter (fun a => decide (t ≤ a ∧ a < t + 0)) = [] := by
      rw [List.filter_eq_nil_iff]; intro x _; simp only [decide_eq_true_eq]; omega
    rw [this]; simp
  | succ w ih =>
    have hs : (acquired.filter (fun a => decide (t ≤ a ∧ a < t + (w + 1)))).length =
        (acquired.filter (fun a => decide (t ≤ a ∧ a < t + w))).length +
        (acquired.filter (fun a => decide (a ≤ t + w ∧ t + w < a + 1))).length := by
      apply filter_split
      intro x
      by_cases h1 : t ≤ x ∧ x < t + w
      · have h2 : t ≤ x ∧ x < t + (w + 1) := by omega
        have h3 : ¬ (x ≤ t + w ∧ t + w < x + 1) := by omega
        simp only [decide_eq_true h1, decide_eq_true h2, decide_eq_false h3]; rfl
      · by_cases h3 : x ≤ t + w ∧ t + w < x + 1
        · have h2 : t ≤ x ∧ x < t + (w + 1) := by omega
          simp only [decide_eq_false h1, decide_eq_true h2, decide_eq_true h3]; rfl
        · have h2 : ¬ (t ≤ x ∧ x < t + (w + 1)) := by omega
          simp only [decide_eq_false h1, decide_eq_false h2, decide_eq_false h3]; rfl
    have := h (t + w)
    rw [hs, Nat.mul_add, Nat.mul_one]
    omega

/-- **C81**, what is guaranteed instead: at most `n * n` requests in any window of one second. -/
theorem C81_rate_bound_partial (n : Nat) (acquired : List Nat) (h : rateOk n acquired) (t : Nat) :
    releasedIn acquired (t + 1) n ≤ n * n := by
  have := count_window n acquired h t n
  unfold releasedIn
  have e : acquired.filter (fun a => decide (t + 1 ≤ a + 1 ∧ a + 1 < t + 1 + n)) =
      acquired.filter (fun a => decide (t ≤ a ∧ a < t + n)) := by
    apply List.filter_congr
    intro x _
    simp only [decide_eq_decide]
    omega
  rw [e]
  exact this

example : rateOk 2 [0, 0, 1, 1] ∧ releasedIn [0, 0, 1, 1] 1 2 = 4 := by
  refine ⟨?_, by decide⟩
  have := burst_filter 2 0 2
  intro t
  have e : [0, 0, 1, 1].filter (fun a => decide (a ≤ t ∧ t < a + 1)) =
      (burst 2 0 2).filter (fun a => decide (a = t)) := by
    have : burst 2 0 2 = [0, 0, 1, 1] := by decide
    rw [this]
    apply List.filter_congr
    intro x _
    simp only [decide_eq_decide]
    omega
  rw [e]
  exact this t

end Verif.Batch
