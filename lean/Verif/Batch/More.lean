import Verif.Batch.Props

/-
Properties C155 and C156: the meaning of the processing times, and what a rate-limited processor does with requests.
-/

namespace Verif.Batch

open Verif.Ids

/-! ### C155: processing times -/

/-- The batches processed since the last reset: number of requests and milliseconds.
(Specification: no counterpart in the code.) -/
def recent (h : List MOp) : List (Nat × Nat) :=
  h.foldl (fun l op => match op with | .processed n _ ms => l ++ [(n, ms)] | .reset => []) []

/-- Requests and milliseconds of batches. (Specification: no counterpart in the code.) -/
def requests (l : List (Nat × Nat)) : Nat := (l.map (·.1)).sum
/-- (Specification: no counterpart in the code.) -/
def millis (l : List (Nat × Nat)) : Nat := (l.map (·.2)).sum

theorem recent_snoc (h : List MOp) (op : MOp) : recent (h ++ [op]) =
    match op with | .processed n _ ms => recent h ++ [(n, ms)] | .reset => [] := by
  simp only [recent, List.foldl_append, List.foldl_cons, List.foldl_nil]

theorem total_recent (h : List MOp) : (h.foldl mstep {}).total = requests (recent h) := by
  induction h using snocInduction with
  | nil => rfl
  | append_singleton h op ih =>
    rw [recent_snoc, List.foldl_append, List.foldl_cons, List.foldl_nil]
    cases op with
    | reset => rfl
    | processed n rs ms =>
      simp only [mstep, record]
      have := (countAll_sum rs { h.foldl mstep {} with total := (h.foldl mstep {}).total + n
                                                       maxTime := max (h.foldl mstep {}).maxTime ms }).2
      simp only at this
      rw [this, ih]
      simp [requests]

/-- **C155** (exact form), the average. As long as no batch since the last reset was empty, the reported average
is the time of all batches divided by the number of all requests (rounding apart). -/
theorem C155_average (h : List MOp) (hne : ∀ p ∈ recent h, 0 < p.1)
    (hb : ((millis (recent h) : Nat) : Rat) < Reconnect.overflow) :
    (h.foldl mstep {}).avg = .fin ((millis (recent h) : Rat) / (requests (recent h) : Rat)) := by
  induction h using snocInduction with
  | nil => decide +kernel
  | append_singleton h op ih =>
    have ht := total_recent h
    rw [recent_snoc] at hne hb ⊢
    rw [List.foldl_append, List.foldl_cons, List.foldl_nil]
    cases op with
    | reset =>
      show Reconnect.F.fin 0 = .fin (((millis [] : Nat) : Rat) / ((requests [] : Nat) : Rat))
      decide +kernel
    | processed n rs ms =>
      simp only at hne hb ⊢
      have hms : millis (recent h ++ [(n, ms)]) = millis (recent h) + ms := by simp [millis]
      have hrq : requests (recent h ++ [(n, ms)]) = requests (recent h) + n := by simp [requests]
      rw [hms] at hb
      have hle : ((millis (recent h) : Nat) : Rat) ≤ ((millis (recent h) + ms : Nat) : Rat) := by
        exact_mod_cast Nat.le_add_right _ _
      have ih' := ih (fun p hp => hne p (by simp [hp])) (Std.lt_of_le_of_lt hle hb)
      have hmul : (millis (recent h) : Rat) / (requests (recent h) : Rat) * ((h.foldl mstep {}).total : Rat) =
          (millis (recent h) : Rat) := by
        rw [ht]
        by_cases h0 : requests (recent h) = 0
        · have : millis (recent h) = 0 := by
            cases hr : recent h with
            | nil => rfl
            | cons p l =>
              have hp := hne p (by simp [hr])
              rw [hr] at h0
              simp [requests] at h0
              omega
          rw [h0, this]; decide +kernel
        · have : (requests (recent h) : Rat) ≠ 0 := by exact_mod_cast h0
          exact Rat.div_mul_cancel this
      have hn := hne (n, ms) (by simp)
      rw [mstep, C82_average_finite_partial _ _ ih' n hn rs ms, hmul, hms, hrq, ht]
      · simp
      · rw [hmul]; exact Std.lt_of_le_of_lt hle hb
      · rw [hmul]; exact_mod_cast hb

example : recent [.processed 4 [] 100, .reset, .processed 2 [] 10, .processed 3 [] 20] = [(2, 10), (3, 20)] := rfl

theorem millis_le_max (l : List (Nat × Nat)) (h : ∀ p ∈ l, 0 < p.1) (m : Nat) (hm : ∀ p ∈ l, p.2 ≤ m) :
    millis l ≤ m * requests l := by
  induction l with
  | nil => simp [millis, requests]
  | cons p l ih =>
    have h1 := ih (fun q hq => h q (by simp [hq])) (fun q hq => hm q (by simp [hq]))
    have h2 := h p (by simp)
    have h3 := hm p (by simp)
    simp only [millis, requests, List.map_cons, List.sum_cons, Nat.mul_add] at h1 ⊢
    have : m ≤ m * p.1 := Nat.le_mul_of_pos_right m h2
    omega

/-- **C155**, the maximum: the longest batch since the last reset. -/
theorem C155_maximum (h : List MOp) :
    (∀ p ∈ recent h, p.2 ≤ (h.foldl mstep {}).maxTime) ∧
      ((h.foldl mstep {}).maxTime = 0 ∨ ∃ p ∈ recent h, p.2 = (h.foldl mstep {}).maxTime) := by
  have hfold : ∀ (rs : List Resp) (m : Metrics), (rs.foldl countOne m).maxTime = m.maxTime := by
    intro rs
    induction rs with
    | nil => intro m; rfl
    | cons r rs ih =>
      intro m
      rw [List.foldl_cons, ih]
      unfold countOne
      cases r.payload with
      | result v => rfl
      | error c msg => simp only; split <;> rfl
  induction h using snocInduction with
  | nil => exact ⟨fun p hp => (by cases hp), .inl rfl⟩
  | append_singleton h op ih =>
    rw [recent_snoc, List.foldl_append, List.foldl_cons, List.foldl_nil]
    cases op with
    | reset => exact ⟨fun p hp => (by cases hp), .inl rfl⟩
    | processed n rs ms =>
      simp only [mstep, record, hfold]
      obtain ⟨h1, h2⟩ := ih
      constructor
      · intro p hp
        rcases List.mem_append.mp hp with hp | hp
        · have := h1 p hp; omega
        · simp at hp; subst hp; simp only; omega
      · by_cases hm : (h.foldl mstep {}).maxTime ≤ ms
        · exact .inr ⟨(n, ms), by simp, by simp only; omega⟩
        · rcases h2 with h2 | ⟨p, hp, h2⟩
          · omega
          · exact .inr ⟨p, by simp [hp], by omega⟩

/-- **C155**, the average never exceeds the maximum. -/
theorem C155_average_le_maximum (h : List MOp) (hne : ∀ p ∈ recent h, 0 < p.1)
    (hb : ((millis (recent h) : Nat) : Rat) < Reconnect.overflow) :
    ∃ q : Rat, (h.foldl mstep {}).avg = .fin q ∧ q ≤ ((h.foldl mstep {}).maxTime : Rat) := by
  refine ⟨_, C155_average h hne hb, ?_⟩
  have hm := millis_le_max (recent h) hne _ (C155_maximum h).1
  by_cases h0 : requests (recent h) = 0
  · rw [h0]
    have : ((millis (recent h) : Nat) : Rat) / ((0 : Nat) : Rat) = 0 := by
      show _ / (0 : Rat) = 0
      simp [Rat.div_def]
    rw [this]
    exact_mod_cast Nat.zero_le _
  · have hpos : (0 : Rat) < (requests (recent h) : Rat) := by exact_mod_cast Nat.pos_of_ne_zero h0
    refine Rat.le_of_mul_le_mul_right ?_ hpos
    rw [Rat.div_mul_cancel (by intro hc; rw [hc] at hpos; exact absurd hpos (by decide +kernel))]
    exact_mod_cast hm

theorem requests_ge (l : List (Nat × Nat)) (h : ∀ p ∈ l, 0 < p.1) :
    l.length ≤ requests l ∧ (requests l = l.length ↔ ∀ p ∈ l, p.1 = 1) := by
  induction l with
  | nil => simp [requests]
  | cons p l ih =>
    obtain ⟨h1, h2⟩ := ih (fun q hq => h q (by simp [hq]))
    have h3 := h p (by simp)
    simp only [requests, List.map_cons, List.sum_cons, List.length_cons, List.mem_cons, forall_eq_or_imp] at h1 h2 ⊢
    refine ⟨by omega, ?_⟩
    rw [← h2]
    omega

/-- **C155** (exact form), the mean. The reported average is the mean time of a batch only if every batch
consisted of one request (or took no time). Missing from the property: in all other cases it is smaller, since
the time of a batch is counted once and divided by all its requests, although they ran in parallel. -/
theorem C155_mean_partial (h : List MOp) (hne : ∀ p ∈ recent h, 0 < p.1) (h1 : recent h ≠ [])
    (hb : ((millis (recent h) : Nat) : Rat) < Reconnect.overflow) :
    (h.foldl mstep {}).avg = .fin ((millis (recent h) : Rat) / ((recent h).length : Rat)) ↔
      millis (recent h) = 0 ∨ ∀ p ∈ recent h, p.1 = 1 := by
  rw [C155_average h hne hb]
  obtain ⟨hge, hiff⟩ := requests_ge (recent h) hne
  have hl : 0 < (recent h).length := List.length_pos_iff.mpr h1
  have hr0 : (requests (recent h) : Rat) ≠ 0 := by
    have : requests (recent h) ≠ 0 := by omega
    exact_mod_cast this
  have hl0 : ((recent h).length : Rat) ≠ 0 := by
    have : (recent h).length ≠ 0 := by omega
    exact_mod_cast this
  rw [← hiff]
  constructor
  · intro he
    have he' : (millis (recent h) : Rat) / (requests (recent h) : Rat) =
        (millis (recent h) : Rat) / ((recent h).length : Rat) := Reconnect.F.fin.inj he
    have h2 : (millis (recent h) : Rat) * ((recent h).length : Rat) =
        (millis (recent h) : Rat) * (requests (recent h) : Rat) := by
      have h3 : (millis (recent h) : Rat) = (millis (recent h) : Rat) / ((recent h).length : Rat) * (requests (recent h) : Rat) := by
        rw [← he', Rat.div_mul_cancel hr0]
      calc (millis (recent h) : Rat) * ((recent h).length : Rat)
          = (millis (recent h) : Rat) / ((recent h).length : Rat) * (requests (recent h) : Rat) * ((recent h).length : Rat) := by
            rw [← h3]
        _ = (millis (recent h) : Rat) / ((recent h).length : Rat) * ((recent h).length : Rat) * (requests (recent h) : Rat) := by
            rw [Rat.mul_assoc, Rat.mul_comm (requests (recent h) : Rat), ← Rat.mul_assoc]
        _ = _ := by rw [Rat.div_mul_cancel hl0]
    have h4 : millis (recent h) * (recent h).length = millis (recent h) * requests (recent h) := by
      exact_mod_cast h2
    rcases Nat.eq_zero_or_pos (millis (recent h)) with h5 | h5
    · exact .inl h5
    · exact .inr (Nat.eq_of_mul_eq_mul_left h5 h4).symm
  · rintro (h2 | h2)
    · rw [h2]
      show Reconnect.F.fin ((0 : Rat) / _) = .fin ((0 : Rat) / _)
      simp [Rat.div_def]
    · rw [h2]

example : ([MOp.processed 10 [] 100].foldl mstep {}).avg = .fin 10 ∧ ([MOp.processed 10 [] 100].foldl mstep {}).maxTime = 100 := by
  decide +kernel

/-! ### C156: the rate-limited processor -/

/-- The interval of `rate_limited_processor` in nanoseconds, /repo/src/utils/parallel_batch.rs L494-495:
`Duration::from_secs(1) / max_requests_per_second as u32`; `none` is the panic of a division by zero, or of
`Semaphore::new` with more than 2^61 - 1 permits. -/
def rateInterval (n : Nat) : Option Nat :=
  if 2 ^ 61 ≤ n then none else if n % 2 ^ 32 = 0 then none else some (10 ^ 9 / (n % 2 ^ 32))

/-- **C156**, creation. Creating the processor panics exactly for the limits that are multiples of 2^32, among
them 0, and those of 2^61 and more; otherwise the limit times the interval is at most a second for every limit
below 2^32, and short of it by less than one nanosecond per request. -/
theorem C156_interval_partial (n : Nat) :
    (rateInterval n = none ↔ n % 2 ^ 32 = 0 ∨ 2 ^ 61 ≤ n) ∧
      ∀ i, n < 2 ^ 32 → rateInterval n = some i → i * n ≤ 10 ^ 9 ∧ 10 ^ 9 < (i + 1) * n := by
  constructor
  · unfold rateInterval
    split
    · simp_all
    · split <;> simp_all
  · intro i hn hi
    unfold rateInterval at hi
    rw [Nat.mod_eq_of_lt hn, if_neg (by omega)] at hi
    split at hi
    · cases hi
    · next h0 =>
      cases hi
      exact ⟨Nat.div_mul_le_self _ _, by rw [Nat.add_mul, Nat.one_mul]; exact Nat.lt_div_mul_add (by omega)⟩

example : rateInterval 0 = none ∧ rateInterval 100 = some 10000000 ∧ rateInterval 4294967296 = none := by decide

/-- A rate-limited batch, /repo/src/utils/parallel_batch.rs L498-535: `join_all` waits for the permits of all
requests, then all of them are processed in parallel with the built-in handler. A schedule: the time of each
handler call is the time at which the last request was released. -/
def handlerTimes (acquired : List Nat) : List Nat := acquired.map (fun _ => acquired.foldl max 0 + 1)

/-- **C156**, spacing. No handler starts before all requests of the batch have waited, and then all start at
that one moment (as far as the concurrency limit allows): the requests reach the handler as one burst, whatever
the rate. -/
theorem C156_one_burst (acquired : List Nat) :
    (∀ t ∈ handlerTimes acquired, (∀ a ∈ acquired, a + 1 ≤ t) ∧ ∃ a ∈ acquired, t = a + 1) ∧
      (∀ t ∈ handlerTimes acquired, ∀ t' ∈ handlerTimes acquired, t = t') ∧
      (handlerTimes acquired).length = acquired.length := by
  have hm : ∀ (l : List Nat) (m : Nat), m ≤ l.foldl max m ∧ ∀ a ∈ l, a ≤ l.foldl max m := by
    intro l
    induction l with
    | nil => intro m; exact ⟨Nat.le_refl _, fun a ha => by cases ha⟩
    | cons x l ih =>
      intro m
      obtain ⟨h1, h2⟩ := ih (max m x)
      refine ⟨by simp only [List.foldl_cons]; omega, ?_⟩
      intro a ha
      simp only [List.foldl_cons]
      rcases List.mem_cons.mp ha with rfl | ha
      · omega
      · exact h2 a ha
  have hx : ∀ (l : List Nat) (m : Nat), l.foldl max m = m ∨ l.foldl max m ∈ l := by
    intro l
    induction l with
    | nil => intro m; exact .inl rfl
    | cons x l ih =>
      intro m
      simp only [List.foldl_cons]
      rcases ih (max m x) with h | h
      · rw [h]
        rcases Nat.le_total m x with h' | h'
        · rw [Nat.max_eq_right h']; exact .inr List.mem_cons_self
        · rw [Nat.max_eq_left h']; exact .inl rfl
      · exact .inr (List.mem_cons_of_mem _ h)
  refine ⟨?_, ?_, by simp [handlerTimes]⟩
  · intro t ht
    simp only [handlerTimes, List.mem_map] at ht
    obtain ⟨b, hb, rfl⟩ := ht
    refine ⟨fun a ha => ?_, ?_⟩
    · have := (hm acquired 0).2 a ha
      omega
    · rcases hx acquired 0 with h | h
      · refine ⟨b, hb, ?_⟩
        have := (hm acquired 0).2 b hb
        omega
      · exact ⟨_, h, rfl⟩
  · intro t ht t' ht'
    simp only [handlerTimes, List.mem_map] at ht ht'
    obtain ⟨_, _, rfl⟩ := ht
    obtain ⟨_, _, rfl⟩ := ht'
    rfl

example : handlerTimes [0, 0, 1] = [2, 2, 2] := rfl

/-- The handler of `rate_limited_processor`, /repo/src/utils/parallel_batch.rs L518-527; `null` is the value
`Null`. -/
def placeholder (null : Nat) (r : Req) : Resp := ⟨r.id, .result null⟩

/-- A schedule in which every answer is the handler's. (Specification: no counterpart in the code.) -/
def AnsweredBy (handler : Req → Resp) (reqs : List Req) (sched : List Step) : Prop :=
  ∀ i r, Step.answer i r ∈ sched → ∃ q, reqs[i]? = some q ∧ r = handler q

/-- **C156**, answers. Whatever was asked, a request that does not time out is answered with its id and `Null`. -/
theorem C156_answers (null : Nat) (cfg : Config) (reqs : List Req) (sched : List Step) (out : List Resp)
    (h : processParallel cfg reqs sched = some out) (ha : AnsweredBy (placeholder null) reqs sched)
    (i : Nat) (hi : i < out.length) :
    out[i] = timeoutResp ∧ cfg.timeout = true ∨ ∃ q, reqs[i]? = some q ∧ out[i] = ⟨q.id, .result null⟩ := by
  have hne : reqs ≠ [] := by
    rintro rfl
    simp only [processParallel, if_pos] at h
    cases h
    simp at hi
  obtain ⟨_, h2⟩ := C24_every_schedule cfg reqs sched out h hne
  rcases h2 i hi with h3 | ⟨h3, h4, _⟩
  · right
    refine ha i out[i] ?_
    have : Step.answer i out[i] ∈ sched.filter (fun x => decide (x.index = i)) := by rw [h3]; simp
    exact (List.mem_filter.mp this).1
  · exact .inl ⟨h3, h4⟩

example : AnsweredBy (placeholder 7) [reqA, reqB] [.start 0, .start 1, .answer 1 ⟨reqB.id, .result 7⟩, .answer 0 ⟨reqA.id, .result 7⟩] ∧
    processParallel defaultConfig [reqA, reqB]
      [.start 0, .start 1, .answer 1 ⟨reqB.id, .result 7⟩, .answer 0 ⟨reqA.id, .result 7⟩] =
        some [⟨reqA.id, .result 7⟩, ⟨reqB.id, .result 7⟩] := by
  refine ⟨?_, by decide⟩
  intro i r h
  simp only [List.mem_cons, reduceCtorEq, Step.answer.injEq, false_or, List.not_mem_nil, or_false] at h
  rcases h with ⟨rfl, rfl⟩ | ⟨rfl, rfl⟩
  · exact ⟨reqB, rfl, rfl⟩
  · exact ⟨reqA, rfl, rfl⟩

end Verif.Batch
