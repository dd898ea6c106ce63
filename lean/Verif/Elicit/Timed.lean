import Verif.Elicit.Lemmas

/-
How long `elicit_input` takes: C232.

Models /repo/src/server/elicitation.rs L53-104 with time and with the channel to the client. The sections are those of
`Verif.Elicit.step`. Time passes only when no call can go on.
-/

namespace Verif.Elicit

open Verif

variable {I V : Type} [DecidableEq I]

/-- The manager at a time: the number of requests in the channel that nobody took yet, whether its receiver is gone,
when each call began, and when the timeout of each call ends (set at L82, after the request was sent).
/repo/src/server/elicitation.rs L13-20, L53-82. -/
structure Timed (I V : Type) where
  base : State I V := { pending := [], calls := [] }
  now : Nat := 0
  queue : Nat := 0
  gone : Bool := false
  begun : List Nat := []
  deadline : List (Option Nat) := []

/-- What happens: a section of the manager, the receiver of the channel takes a request, it is dropped, a unit of time
passes. /repo/src/server/elicitation.rs L53-171. -/
inductive TOp (I V : Type) where
  | op (o : Op I V)
  | take
  | close
  | tick

/-- What a call can do now, if anything: the channel has room or is closed (L70), there is a response (L82), the time is
over (L82), the entry is to be removed (L72, L97). /repo/src/server/elicitation.rs L70-104. -/
def todo (cap : Nat) (s : Timed I V) (n : Nat) : Option (Op I V) :=
  match s.base.calls[n]? with
  | none => none
  | some c => match c.phase with
    | .sending => if s.gone then some (.sendFail n) else if s.queue < cap then some (.sent n) else none
    | .waiting => match c.slot with
      | .empty => match s.deadline[n]? with
        | some (some d) => if d ≤ s.now then some (.timeout n) else none
        | _ => none
      | _ => some (.receive n)
    | .timedOut => some (.cleanup n)
    | .sendFailed => some (.cleanup n)
    | _ => none

/-- Whether the channel and the clock allow the section now. /repo/src/server/elicitation.rs L70, L82. -/
def allowed (cap : Nat) (s : Timed I V) : Op I V → Bool
  | .sent _ => !s.gone && decide (s.queue < cap)
  | .sendFail _ => s.gone
  | .timeout n => match s.deadline[n]? with
    | some (some d) => decide (d ≤ s.now)
    | _ => false
  | _ => true

/-- One step; `T` is `timeout_duration`, `cap` the capacity of the channel. /repo/src/server/elicitation.rs L53-171. -/
def tstep (cap T : Nat) (s : Timed I V) : TOp I V → Option (Timed I V)
  | .op o =>
    if allowed cap s o then
      (step s.base o).map (fun r => match o with
        | .start _ => { s with base := r.1, begun := s.begun ++ [s.now], deadline := s.deadline ++ [none] }
        | .sent n => { s with base := r.1, queue := s.queue + 1, deadline := s.deadline.set n (some (s.now + T)) }
        | _ => { s with base := r.1 })
    else none
  | .take => if s.gone || s.queue == 0 then none else some { s with queue := s.queue - 1 }
  | .close => if s.gone then none else some { s with gone := true, queue := 0 }
  | .tick =>
    if (List.range s.base.calls.length).all (fun n => (todo cap s n).isNone) then some { s with now := s.now + 1 }
    else none

/-- An execution. (Any interleaving of the sections of /repo/src/server/elicitation.rs L53-171.) -/
def trun (cap T : Nat) (s : Timed I V) : List (TOp I V) → Option (Timed I V)
  | [] => some s
  | o :: l => (tstep cap T s o).bind (fun s' => trun cap T s' l)

/-! ### Phases -/

/-- How far the calls are. (Specification: no counterpart in the code.) -/
def phases (s : State I V) : List (Phase I V) := s.calls.map (·.phase)

theorem phases_modify (cs : List (Call I V)) (n : Nat) (p : Phase I V) :
    (modifyCall cs n (fun c => { c with phase := p })).map (·.phase) = (cs.map (·.phase)).set n p := by
  apply List.ext_getElem?
  intro m
  simp only [List.getElem?_map, get_modify, List.getElem?_set, List.length_map]
  by_cases h : n = m
  · subst h
    simp only [if_true]
    cases hc : cs[n]? with
    | none => rw [if_neg]; · rfl
              rw [List.getElem?_eq_none_iff] at hc; omega
    | some c => rw [if_pos]; · rfl
                exact (List.getElem?_eq_some_iff.mp hc).1
  · simp [h]

theorem phases_same (cs : List (Call I V)) (n : Nat) (f : Call I V → Call I V) (hf : ∀ c, (f c).phase = c.phase) :
    (modifyCall cs n f).map (·.phase) = cs.map (·.phase) := by
  apply List.ext_getElem?
  intro m
  simp only [List.getElem?_map, get_modify]
  split
  · simp only [Option.map_map]; congr 1; funext c; exact hf c
  · rfl

theorem phases_drop (cs : List (Call I V)) (o : Option Nat) : (dropSender cs o).map (·.phase) = cs.map (·.phase) := by
  cases o with
  | none => rfl
  | some n => exact phases_same cs n _ (fun c => by cases c.slot <;> rfl)

theorem phases_fill (cs : List (Call I V)) (n : Nat) (r : Response I V) :
    (fill cs n r).map (·.phase) = cs.map (·.phase) := phases_same cs n _ (fun _ => rfl)

/-- What a section does to the phases. (Specification: no counterpart in the code.) -/
def PhaseStep (o : Op I V) (p p' : List (Phase I V)) : Prop :=
  match o with
  | .start _ => p' = p ++ [.sending]
  | .sent n => p[n]? = some .sending ∧ p' = p.set n .waiting
  | .sendFail n => p[n]? = some .sending ∧ p' = p.set n .sendFailed
  | .receive n => p[n]? = some .waiting ∧ ∃ r, p' = p.set n (.done r)
  | .timeout n => p[n]? = some .waiting ∧ p' = p.set n .timedOut
  | .cleanup n => (p[n]? = some .timedOut ∨ p[n]? = some .sendFailed) ∧ ∃ r, p' = p.set n (.done r)
  | .abandon n => p' = p.set n .abandoned
  | _ => p' = p

theorem phase_step (s s' : State I V) (o : Op I V) (res : Res) (h : step s o = some (s', res)) :
    PhaseStep o (phases s) (phases s') := by
  have hg : ∀ (n : Nat) (c : Call I V), s.calls[n]? = some c → (phases s)[n]? = some c.phase := by
    intro n c hc; simp [phases, hc]
  cases o with
  | start id =>
    cases h
    simp [PhaseStep, phases, phases_drop]
  | sent n =>
    simp only [step] at h
    split at h
    · next c hc =>
      split at h
      · next hp => cases h; exact ⟨by rw [hg n c hc, hp], phases_modify _ _ _⟩
      · cases h
    · cases h
  | sendFail n =>
    simp only [step] at h
    split at h
    · next c hc =>
      split at h
      · next hp => cases h; exact ⟨by rw [hg n c hc, hp], phases_modify _ _ _⟩
      · cases h
    · cases h
  | receive n =>
    simp only [step] at h
    split at h
    · next c hc =>
      split at h
      · next hp _ => cases h; exact ⟨by rw [hg n c hc, hp], _, phases_modify _ _ _⟩
      · next hp _ => cases h; exact ⟨by rw [hg n c hc, hp], _, phases_modify _ _ _⟩
      · cases h
    · cases h
  | timeout n =>
    simp only [step] at h
    split at h
    · next c hc =>
      split at h
      · next hp _ => cases h; exact ⟨by rw [hg n c hc, hp], phases_modify _ _ _⟩
      · cases h
    · cases h
  | cleanup n =>
    simp only [step] at h
    split at h
    · next c hc =>
      split at h
      · next hp =>
        cases h
        exact ⟨.inl (by rw [hg n c hc, hp]), _,
          (phases_modify _ _ _).trans (congrArg (fun l => List.set l n _) (phases_drop _ _))⟩
      · next hp =>
        cases h
        exact ⟨.inr (by rw [hg n c hc, hp]), _,
          (phases_modify _ _ _).trans (congrArg (fun l => List.set l n _) (phases_drop _ _))⟩
      · cases h
    · cases h
  | abandon n =>
    simp only [step] at h
    split at h
    · split at h
      · cases h
      · cases h
      · cases h; exact phases_modify _ _ _
    · cases h
  | respond r =>
    simp only [step] at h
    split at h <;> cases h
    · exact phases_fill _ _ _
    · rfl
  | cancel r =>
    simp only [step] at h
    split at h <;> cases h
    · exact phases_fill _ _ _
    · rfl
  | cancelAll body =>
    cases h
    simp only [PhaseStep, phases]
    generalize s.pending = l
    generalize s.calls = cs
    induction l generalizing cs with
    | nil => rfl
    | cons e l ih => rw [List.foldl_cons, ih, phases_fill]

/-! ### C232 -/

/-- The call is over: it returned, or was dropped. (Specification: no counterpart in the code.) -/
def Over : Phase I V → Prop
  | .done _ => True
  | .abandoned => True
  | _ => False

/-- What holds of a call that began at `b` and has deadline `d`. (Specification: no counterpart in the code.) -/
def InTime (T now : Nat) (p : Phase I V) (b : Nat) (d : Option Nat) : Prop :=
  b ≤ now ∧ match d with
    | none => p = .sending ∨ p = .sendFailed ∨ Over p
    | some e => b + T ≤ e ∧ ((p = .waiting ∨ p = .timedOut) ∧ now ≤ e ∨ Over p)

/-- Every call is in time. (Specification: no counterpart in the code.) -/
structure TInv (T : Nat) (s : Timed I V) : Prop where
  len1 : s.begun.length = (phases s.base).length
  len2 : s.deadline.length = (phases s.base).length
  intime : ∀ (n : Nat) p b d, (phases s.base)[n]? = some p → s.begun[n]? = some b → s.deadline[n]? = some d →
    InTime T s.now p b d

theorem inTime_over (T now : Nat) (p p' : Phase I V) (b : Nat) (d : Option Nat) (h : InTime T now p b d) (ho : Over p') :
    InTime T now p' b d := by
  refine ⟨h.1, ?_⟩
  cases d with
  | none => exact .inr (.inr ho)
  | some e => exact ⟨h.2.1, .inr ho⟩

theorem tinv_set (T : Nat) (s : Timed I V) (base' : State I V) (hI : TInv T s) (n : Nat) (p' : Phase I V)
    (hp : phases base' = (phases s.base).set n p')
    (hn : ∀ p b d, (phases s.base)[n]? = some p → s.begun[n]? = some b → s.deadline[n]? = some d → InTime T s.now p b d →
      InTime T s.now p' b d) : TInv T { s with base := base' } := by
  refine ⟨by simp only [hp, List.length_set]; exact hI.len1, by simp only [hp, List.length_set]; exact hI.len2, ?_⟩
  intro m p b d h1 h2 h3
  simp only [hp, List.getElem?_set] at h1
  by_cases hm : n = m
  · subst hm
    simp only [if_true] at h1
    split at h1
    · next hlt =>
      simp only [Option.some.injEq] at h1
      subst h1
      have hq : (phases s.base)[n]? = some (phases s.base)[n] := List.getElem?_eq_getElem hlt
      exact hn _ b d hq h2 h3 (hI.intime n _ b d hq h2 h3)
    · cases h1
  · rw [if_neg hm] at h1
    exact hI.intime m p b d h1 h2 h3

theorem tinv_step (cap T : Nat) (s s' : Timed I V) (o : TOp I V) (hI : TInv T s) (h : tstep cap T s o = some s') :
    TInv T s' := by
  cases o with
  | take =>
    simp only [tstep] at h
    split at h
    · cases h
    · cases h; exact ⟨hI.len1, hI.len2, hI.intime⟩
  | close =>
    simp only [tstep] at h
    split at h
    · cases h
    · cases h; exact ⟨hI.len1, hI.len2, hI.intime⟩
  | tick =>
    simp only [tstep] at h
    split at h
    · next hall =>
      cases h
      refine ⟨hI.len1, hI.len2, ?_⟩
      intro n p b d h1 h2 h3
      have h0 := hI.intime n p b d h1 h2 h3
      simp only [phases, List.getElem?_map, Option.map_eq_some_iff] at h1
      obtain ⟨c, hc, rfl⟩ := h1
      have hlt : n < s.base.calls.length := (List.getElem?_eq_some_iff.mp hc).1
      have ht := List.all_eq_true.mp hall n (List.mem_range.mpr hlt)
      simp only [Option.isNone_iff_eq_none, todo, hc] at ht
      refine ⟨Nat.le_succ_of_le h0.1, ?_⟩
      cases d with
      | none => exact h0.2
      | some e =>
        refine ⟨h0.2.1, ?_⟩
        rcases h0.2.2 with ⟨hp | hp, hle⟩ | hp
        · rw [hp] at ht
          simp only at ht
          split at ht
          · rw [h3] at ht
            simp only at ht
            split at ht
            · cases ht
            · exact .inl ⟨.inl hp, by simp only; omega⟩
          · cases ht
        · rw [hp] at ht; cases ht
        · exact .inr hp
    · cases h
  | op o =>
    simp only [tstep] at h
    split at h
    · next ha =>
      rw [Option.map_eq_some_iff] at h
      obtain ⟨⟨base', res⟩, hs, h⟩ := h
      have hp := phase_step s.base base' o res hs
      cases o with
      | start id =>
        cases h
        simp only [PhaseStep] at hp
        refine ⟨by simp [hp, hI.len1], by simp [hp, hI.len2], ?_⟩
        intro n p b d h1 h2 h3
        simp only [hp, List.getElem?_append, hI.len1, hI.len2] at h1 h2 h3
        by_cases hn : n < (phases s.base).length
        · rw [if_pos hn] at h1 h2 h3
          exact hI.intime n p b d h1 h2 h3
        · rw [if_neg hn] at h1 h2 h3
          cases hk : n - (phases s.base).length with
          | zero =>
            rw [hk] at h1 h2 h3
            cases h1; cases h2; cases h3
            exact ⟨Nat.le_refl _, .inl rfl⟩
          | succ j => rw [hk] at h1; simp at h1
      | sent n =>
        cases h
        simp only [PhaseStep] at hp
        obtain ⟨hq, hp⟩ := hp
        refine ⟨by simp [hp, hI.len1], by simp [hp, hI.len2], ?_⟩
        intro m p b d h1 h2 h3
        simp only [hp, List.getElem?_set] at h1 h3
        by_cases hm : n = m
        · subst hm
          simp only [if_true] at h1 h3
          split at h1
          · split at h3
            · next hlt =>
              cases h1; cases h3
              have hd : s.deadline[n]? = some s.deadline[n] := List.getElem?_eq_getElem hlt
              have := (hI.intime n _ b _ hq h2 hd).1
              exact ⟨this, by omega, .inl ⟨.inl rfl, by simp only; omega⟩⟩
            · cases h3
          · cases h1
        · rw [if_neg hm] at h1 h3
          exact hI.intime m p b d h1 h2 h3
      | sendFail n =>
        cases h
        obtain ⟨hq, hp⟩ := hp
        refine tinv_set T s base' hI n _ hp (fun p b d h1 _ _ h0 => ⟨h0.1, ?_⟩)
        rw [hq] at h1; cases h1
        cases d with
        | none => exact .inr (.inl rfl)
        | some e =>
          rcases h0.2.2 with ⟨h | h, _⟩ | h
          · cases h
          · cases h
          · exact h.elim
      | receive n =>
        cases h
        obtain ⟨hq, r, hp⟩ := hp
        exact tinv_set T s base' hI n _ hp (fun p b d _ _ _ h0 => inTime_over T s.now p _ b d h0 trivial)
      | timeout n =>
        cases h
        obtain ⟨hq, hp⟩ := hp
        refine tinv_set T s base' hI n _ hp (fun p b d h1 _ _ h0 => ⟨h0.1, ?_⟩)
        rw [hq] at h1; cases h1
        cases d with
        | none =>
          rcases h0.2 with h | h | h
          · cases h
          · cases h
          · exact h.elim
        | some e =>
          refine ⟨h0.2.1, ?_⟩
          rcases h0.2.2 with ⟨_, hle⟩ | h
          · exact .inl ⟨.inr rfl, hle⟩
          · exact h.elim
      | cleanup n =>
        cases h
        obtain ⟨-, r, hp⟩ := hp
        exact tinv_set T s base' hI n _ hp (fun p b d _ _ _ h0 => inTime_over T s.now p _ b d h0 trivial)
      | abandon n =>
        cases h
        exact tinv_set T s base' hI n _ hp (fun p b d _ _ _ h0 => inTime_over T s.now p _ b d h0 trivial)
      | respond r =>
        cases h
        simp only [PhaseStep] at hp
        exact ⟨by simp only [hp]; exact hI.len1, by simp only [hp]; exact hI.len2, by simp only [hp]; exact hI.intime⟩
      | cancel r =>
        cases h
        simp only [PhaseStep] at hp
        exact ⟨by simp only [hp]; exact hI.len1, by simp only [hp]; exact hI.len2, by simp only [hp]; exact hI.intime⟩
      | cancelAll body =>
        cases h
        simp only [PhaseStep] at hp
        exact ⟨by simp only [hp]; exact hI.len1, by simp only [hp]; exact hI.len2, by simp only [hp]; exact hI.intime⟩
    · cases h

theorem tinv_run (cap T : Nat) (l : List (TOp I V)) (s s' : Timed I V) (hI : TInv T s) (h : trun cap T s l = some s') :
    TInv T s' := by
  induction l generalizing s with
  | nil => simp only [trun, Option.some.injEq] at h; subst h; exact hI
  | cons o l ih =>
    simp only [trun, Option.bind_eq_some_iff] at h
    obtain ⟨s1, h1, h2⟩ := h
    exact ih s1 (tinv_step cap T s s1 o hI h1) h2

theorem tinv_init (T : Nat) : TInv T ({} : Timed I V) :=
  ⟨rfl, rfl, fun n p b d h => by simp [phases] at h⟩

/-- **C232** (exact guard). In every execution a call that began at `b` is over when `timeout_duration` is over, unless
its request is still not in the channel, or did not get into it at once (its deadline is later). Missing from the
property: the time the send takes, which nothing bounds (`C232_stuck`, `C232_any_time`). -/
theorem C232_in_time_partial (cap T : Nat) (l : List (TOp I V)) (s : Timed I V) (h : trun cap T {} l = some s) (n : Nat)
    (p : Phase I V) (b : Nat) (hp : (phases s.base)[n]? = some p) (hb : s.begun[n]? = some b) (hlate : b + T < s.now) :
    Over p ∨ ((p = .sending ∨ p = .sendFailed) ∧ s.deadline[n]? = some none) ∨
      ∃ e, s.deadline[n]? = some (some e) ∧ b + T < e ∧ s.now ≤ e := by
  have hI := tinv_run cap T l {} s (tinv_init T) h
  have hlt : n < s.deadline.length := by
    rw [hI.len2]; exact (List.getElem?_eq_some_iff.mp hp).1
  have hd : s.deadline[n]? = some s.deadline[n] := List.getElem?_eq_getElem hlt
  obtain ⟨-, h2⟩ := hI.intime n p b _ hp hb hd
  rw [hd]
  cases hdd : s.deadline[n] with
  | none =>
    rw [hdd] at h2
    rcases h2 with h2 | h2 | h2
    · exact .inr (.inl ⟨.inl h2, rfl⟩)
    · exact .inr (.inl ⟨.inr h2, rfl⟩)
    · exact .inl h2
  | some e =>
    rw [hdd] at h2
    rcases h2.2 with ⟨_, h2⟩ | h2
    · exact .inr (.inr ⟨e, rfl, by omega, h2⟩)
    · exact .inl h2

/-- **C232** (after the send). A call whose request got into the channel is over `timeout_duration` later. -/
theorem C232_after_send (cap T : Nat) (l : List (TOp I V)) (s : Timed I V) (h : trun cap T {} l = some s) (n : Nat)
    (p : Phase I V) (e : Nat) (hp : (phases s.base)[n]? = some p) (he : s.deadline[n]? = some (some e)) (hl : e < s.now) :
    Over p := by
  have hI := tinv_run cap T l {} s (tinv_init T) h
  have hlt : n < s.begun.length := by
    rw [hI.len1]; exact (List.getElem?_eq_some_iff.mp hp).1
  obtain ⟨-, -, h2⟩ := hI.intime n p _ _ hp (List.getElem?_eq_getElem hlt) he
  rcases h2 with ⟨_, h2⟩ | h2
  · omega
  · exact h2

/-- A call times out: with a timeout of 2 it is over when 3 units have passed. -/
example : ∃ s : Timed Nat Nat, trun 1 2 {} [.op (.start 7), .op (.sent 0), .tick, .tick, .op (.timeout 0), .op (.cleanup 0),
    .tick] = some s ∧ s.now = 3 ∧ s.begun = [0] ∧ s.deadline = [some 2] ∧ phases s.base = [.done .timeout] :=
  ⟨_, rfl, rfl, rfl, rfl, rfl⟩

/-- **C232** fails: while the channel is full and nobody takes from it, a call that has not sent its request stays
where it is, whatever else happens: also if it is answered, cancelled by id or cancelled with all others. -/
theorem C232_stuck (cap T : Nat) (l : List (TOp I V)) (s s' : Timed I V) (n : Nat)
    (hs : (phases s.base)[n]? = some .sending) (hg : s.gone = false) (hq : cap ≤ s.queue) (h1 : TOp.take ∉ l)
    (h2 : TOp.close ∉ l) (h3 : TOp.op (.abandon n) ∉ l) (h : trun cap T s l = some s') :
    (phases s'.base)[n]? = some .sending ∧ s'.gone = false ∧ cap ≤ s'.queue := by
  induction l generalizing s with
  | nil => simp only [trun, Option.some.injEq] at h; subst h; exact ⟨hs, hg, hq⟩
  | cons o l ih =>
    simp only [trun, Option.bind_eq_some_iff] at h
    obtain ⟨s1, hs1, h⟩ := h
    have key : (phases s1.base)[n]? = some .sending ∧ s1.gone = false ∧ cap ≤ s1.queue := by
      cases o with
      | take => simp at h1
      | close => simp at h2
      | tick =>
        simp only [tstep] at hs1
        split at hs1
        · cases hs1; exact ⟨hs, hg, hq⟩
        · cases hs1
      | op o =>
        simp only [tstep] at hs1
        split at hs1
        · next ha =>
          rw [Option.map_eq_some_iff] at hs1
          obtain ⟨⟨base', res⟩, hst, hs1⟩ := hs1
          have hp := phase_step s.base base' o res hst
          have hset : ∀ (m : Nat) (p q : Phase I V), (phases s.base)[m]? = some q → q ≠ .sending →
              ((phases s.base).set m p)[n]? = some .sending := by
            intro m p q hm hne
            rw [List.getElem?_set]
            by_cases hmn : m = n
            · subst hmn; rw [hs] at hm; cases hm; exact absurd rfl hne
            · rw [if_neg hmn]; exact hs
          cases o with
          | start id =>
            cases hs1
            refine ⟨?_, hg, hq⟩
            simp only [PhaseStep] at hp
            simp only [hp]
            rw [List.getElem?_append_left (List.getElem?_eq_some_iff.mp hs).1]
            exact hs
          | sent m =>
            simp only [allowed, Bool.and_eq_true, decide_eq_true_eq] at ha
            omega
          | sendFail m => simp only [allowed, hg] at ha; cases ha
          | receive m =>
            cases hs1
            obtain ⟨hm, r, hp⟩ := hp
            exact ⟨by simp only [hp]; exact hset m _ _ hm (by simp), hg, hq⟩
          | timeout m =>
            cases hs1
            obtain ⟨hm, hp⟩ := hp
            exact ⟨by simp only [hp]; exact hset m _ _ hm (by simp), hg, hq⟩
          | cleanup m =>
            cases hs1
            obtain ⟨hm, r, hp⟩ := hp
            refine ⟨?_, hg, hq⟩
            simp only [hp]
            rcases hm with hm | hm <;> exact hset m _ _ hm (by simp)
          | abandon m =>
            cases hs1
            simp only [PhaseStep] at hp
            refine ⟨?_, hg, hq⟩
            simp only [hp, List.getElem?_set]
            by_cases hmn : m = n
            · subst hmn; simp at h3
            · rw [if_neg hmn]; exact hs
          | respond r => cases hs1; simp only [PhaseStep] at hp; exact ⟨by simp only [hp]; exact hs, hg, hq⟩
          | cancel r => cases hs1; simp only [PhaseStep] at hp; exact ⟨by simp only [hp]; exact hs, hg, hq⟩
          | cancelAll b => cases hs1; simp only [PhaseStep] at hp; exact ⟨by simp only [hp]; exact hs, hg, hq⟩
        · cases hs1
    exact ih s1 key.1 key.2.1 key.2.2 (fun hc => h1 (List.mem_cons_of_mem _ hc)) (fun hc => h2 (List.mem_cons_of_mem _ hc))
      (fun hc => h3 (List.mem_cons_of_mem _ hc)) h

/-- The second of two calls, behind a channel of one place: the first timed out, the second is cancelled, and at time 9
it still has not returned, although its timeout was 2. -/
example : ∃ s : Timed Nat Nat, trun 1 2 {} ([.op (.start 7), .op (.sent 0), .op (.start 8), .tick, .tick, .op (.timeout 0),
    .op (.cleanup 0), .op (.cancel ⟨8, 0⟩)] ++ List.replicate 7 .tick) = some s ∧ s.now = 9 ∧ s.begun = [0, 0] ∧
    phases s.base = [.done .timeout, .sending] :=
  ⟨_, rfl, rfl, rfl, rfl⟩

/-! #### The channel -/

/-- The requests put into the channel in a history. (Specification: no counterpart in the code.) -/
def sends : List (TOp I V) → Nat
  | [] => 0
  | .op (.sent _) :: l => sends l + 1
  | _ :: l => sends l

/-- The requests taken from it. (Specification: no counterpart in the code.) -/
def takes : List (TOp I V) → Nat
  | [] => 0
  | .take :: l => takes l + 1
  | _ :: l => takes l

/-- Whether the receiver was dropped. (Specification: no counterpart in the code.) -/
def closes : List (TOp I V) → Bool
  | [] => false
  | .close :: _ => true
  | _ :: l => closes l

theorem channel_gen (cap T : Nat) (l : List (TOp I V)) (s s' : Timed I V) (h : trun cap T s l = some s')
    (hc : s.queue ≤ cap) :
    s'.queue ≤ cap ∧ (s.gone = false → s'.gone = closes l ∧ (closes l = false → s'.queue + takes l = s.queue + sends l)) ∧
      (s.gone = true → s'.gone = true) := by
  induction l generalizing s with
  | nil => simp only [trun, Option.some.injEq] at h; subst h; exact ⟨hc, fun h => ⟨h, fun _ => rfl⟩, id⟩
  | cons o l ih =>
    simp only [trun, Option.bind_eq_some_iff] at h
    obtain ⟨s1, h1, h2⟩ := h
    cases o with
    | take =>
      simp only [tstep] at h1
      split at h1
      · cases h1
      · next hn =>
        cases h1
        simp only [Bool.or_eq_true, beq_iff_eq, not_or, Bool.not_eq_true] at hn
        obtain ⟨k1, k2, k3⟩ := ih _ h2 (by simp only; omega)
        refine ⟨k1, fun hg => ⟨(k2 hg).1, fun hcl => ?_⟩, k3⟩
        have := (k2 hg).2 hcl
        simp only [takes, sends] at this ⊢
        omega
    | close =>
      simp only [tstep] at h1
      split at h1
      · cases h1
      · cases h1
        obtain ⟨k1, k2, k3⟩ := ih _ h2 (Nat.zero_le _)
        exact ⟨k1, fun _ => ⟨k3 rfl, fun hcl => by cases hcl⟩, fun _ => k3 rfl⟩
    | tick =>
      simp only [tstep] at h1
      split at h1
      · cases h1; have := ih _ h2 (by exact hc); exact this
      · cases h1
    | op o =>
      simp only [tstep] at h1
      split at h1
      · next ha =>
        rw [Option.map_eq_some_iff] at h1
        obtain ⟨⟨base', res⟩, -, h1⟩ := h1
        cases o with
        | sent n =>
          cases h1
          simp only [allowed, Bool.and_eq_true, decide_eq_true_eq] at ha
          obtain ⟨k1, k2, k3⟩ := ih _ h2 (by simp only; omega)
          refine ⟨k1, fun hg => ⟨(k2 hg).1, fun hcl => ?_⟩, k3⟩
          have := (k2 hg).2 hcl
          simp only [takes, sends] at this ⊢
          omega
        | _ => cases h1; have := ih _ h2 (by exact hc); exact this
      · cases h1

/-- **C232** (the channel). In every execution the channel holds what was sent and not taken, at most its capacity; a
request can be taken exactly if there is one, and the receiver can be dropped once. -/
theorem C232_channel (cap T : Nat) (l : List (TOp I V)) (s : Timed I V) (h : trun cap T {} l = some s) :
    s.queue ≤ cap ∧ s.gone = closes l ∧ (closes l = false → s.queue + takes l = sends l) ∧
      ((tstep cap T s .take).isSome ↔ closes l = false ∧ takes l < sends l) ∧
      ((tstep cap T s .close).isSome ↔ closes l = false) := by
  obtain ⟨k1, k2, -⟩ := channel_gen cap T l {} s h (Nat.zero_le _)
  obtain ⟨k2, k3⟩ := k2 rfl
  have k3' : closes l = false → s.queue + takes l = sends l := fun hc => by have := k3 hc; simpa using this
  refine ⟨k1, k2, k3', ?_, ?_⟩
  · simp only [tstep, k2]
    cases hc : closes l with
    | true => simp
    | false =>
      have := k3' hc
      by_cases hz : s.queue = 0
      · simp only [hz, beq_self_eq_true, Bool.or_true, if_true, Option.isSome_none, Bool.false_eq_true, false_iff,
          true_and]
        omega
      · rw [if_neg (by simpa using hz)]
        simp only [Option.isSome_some, true_and, true_iff]
        omega
  · simp only [tstep, k2]
    cases closes l <;> simp

/-- A channel of one place: after the first request there is no room, after it is taken there is. -/
example : (trun 1 2 ({} : Timed Nat Nat) [.op (.start 7), .op (.start 8), .op (.sent 0), .op (.sent 1)]).isNone ∧
    (trun 1 2 ({} : Timed Nat Nat) [.op (.start 7), .op (.start 8), .op (.sent 0), .take, .op (.sent 1)]).isSome := by
  decide

/-- **C232** (a channel that is closed). When the receiver of the channel is gone, a call that waits for room goes on at
once: no time passes before it is over. -/
theorem C232_closed (cap T : Nat) (l : List (TOp I V)) (s s' : Timed I V) (h : trun cap T {} l = some s)
    (hc : closes l = true) (ht : tstep cap T s .tick = some s') (n : Nat) : (phases s.base)[n]? ≠ some .sending := by
  intro hn
  have hg : s.gone = true := by rw [(C232_channel cap T l s h).2.1]; exact hc
  simp only [tstep] at ht
  split at ht
  · next hall =>
    simp only [phases, List.getElem?_map, Option.map_eq_some_iff] at hn
    obtain ⟨c, hcn, hp⟩ := hn
    have := List.all_eq_true.mp hall n (List.mem_range.mpr (List.getElem?_eq_some_iff.mp hcn).1)
    simp [todo, hcn, hp, hg] at this
  · cases ht

example : (trun 0 2 ({} : Timed Nat Nat) [.op (.start 7), .tick, .close, .op (.sendFail 0), .op (.cleanup 0), .tick]).map
    (fun s => (s.now, phases s.base)) = some (2, [.done .sendError]) := rfl

/-- **C232** (a channel that is closed). When the receiver of the channel is gone, no request enters it any more, and a
call that is about to send can fail at once; while the receiver is there, no send fails. -/
theorem C232_closed_refused (cap T : Nat) (l : List (TOp I V)) (s : Timed I V) (h : trun cap T {} l = some s) (n : Nat) :
    (closes l = true → tstep cap T s (.op (.sent n)) = none) ∧
      ((tstep cap T s (.op (.sendFail n))).isSome ↔ closes l = true ∧ (phases s.base)[n]? = some .sending) := by
  have hg := (C232_channel cap T l s h).2.1
  constructor
  · intro hc
    simp [tstep, allowed, hg, hc]
  · cases hc : closes l with
    | false => simp [tstep, allowed, hg, hc]
    | true =>
      simp only [tstep, allowed, hg, hc, if_true, Option.isSome_map, true_and, phases, List.getElem?_map]
      simp only [step]
      cases s.base.calls[n]? with
      | none => simp
      | some c => cases hp : c.phase <;> simp [hp]

/-- What is left of the calls that are past their send. (Specification: no counterpart in the code.) -/
def weight : Phase I V → Nat
  | .waiting => 2
  | .timedOut => 1
  | .sendFailed => 1
  | _ => 0

theorem weight_set (p : List (Phase I V)) (n : Nat) (q r : Phase I V) (hq : p[n]? = some q) (hw : weight r < weight q) :
    ((p.set n r).map weight).sum < (p.map weight).sum := by
  induction p generalizing n with
  | nil => simp at hq
  | cons a p ih =>
    cases n with
    | zero => simp only [List.getElem?_cons_zero, Option.some.injEq] at hq; subst hq; simp; exact hw
    | succ n => simp only [List.getElem?_cons_succ] at hq; simpa using ih n hq

/-- A call that can go on does, and one step less is left. -/
theorem todo_step (cap T : Nat) (s : Timed I V) (n : Nat) (o : Op I V) (hg : s.gone = false) (hq : cap ≤ s.queue)
    (h : todo cap s n = some o) : ∃ s', tstep cap T s (.op o) = some s' ∧ s'.now = s.now ∧ s'.gone = s.gone ∧
      s'.queue = s.queue ∧ ((phases s'.base).map weight).sum < ((phases s.base).map weight).sum ∧ o ≠ .abandon n ∧
      ∀ m, o ≠ .abandon m := by
  simp only [todo] at h
  split at h
  · cases h
  · next c hc =>
    have fin : ∀ (o : Op I V) base' res, step s.base o = some (base', res) → allowed cap s o = true →
        (∀ i, o ≠ .start i) → (∀ i, o ≠ .sent i) → tstep cap T s (.op o) = some { s with base := base' } := by
      intro o base' res hst ha h1 h2
      simp only [tstep, ha, if_true, hst, Option.map_some]
    have hph : (phases s.base)[n]? = some c.phase := by simp [phases, hc]
    split at h
    · next hp =>
      simp only [hg, Bool.false_eq_true, if_false] at h
      rw [if_neg (by omega)] at h; cases h
    · next hp =>
      rw [hp] at hph
      split at h
      · next hsl =>
        split at h
        · next d hd =>
          split at h
          · next hle =>
            cases h
            have hst : ∃ base', step s.base (.timeout n) = some (base', .ok) := by
              simp only [step, hc, hp, hsl]; exact ⟨_, rfl⟩
            obtain ⟨base', hst⟩ := hst
            obtain ⟨-, hps⟩ := phase_step _ _ _ _ hst
            refine ⟨_, fin _ _ _ hst (by simp [allowed, hd, hle]) (by simp) (by simp), rfl, rfl, rfl, ?_, by simp, by simp⟩
            simp only [hps]
            exact weight_set _ n _ _ hph (by simp [weight])
          · cases h
        · cases h
      · next hsl =>
        cases h
        have hst : ∃ base', step s.base (.receive n) = some (base', .ok) := by
          simp only [step, hc, hp]
          cases hs : c.slot with
          | empty => exact absurd hs hsl
          | full r => exact ⟨_, rfl⟩
          | closed => exact ⟨_, rfl⟩
        obtain ⟨base', hst⟩ := hst
        obtain ⟨-, r, hps⟩ := phase_step _ _ _ _ hst
        refine ⟨_, fin _ _ _ hst rfl (by simp) (by simp), rfl, rfl, rfl, ?_, by simp, by simp⟩
        simp only [hps]
        exact weight_set _ n _ _ hph (by simp [weight])
    · next hp =>
      rw [hp] at hph
      cases h
      have hst : ∃ base', step s.base (.cleanup n) = some (base', .ok) := by
        simp only [step, hc, hp]; exact ⟨_, rfl⟩
      obtain ⟨base', hst⟩ := hst
      obtain ⟨-, r, hps⟩ := phase_step _ _ _ _ hst
      refine ⟨_, fin _ _ _ hst rfl (by simp) (by simp), rfl, rfl, rfl, ?_, by simp, by simp⟩
      simp only [hps]
      exact weight_set _ n _ _ hph (by simp [weight])
    · next hp =>
      rw [hp] at hph
      cases h
      have hst : ∃ base', step s.base (.cleanup n) = some (base', .ok) := by
        simp only [step, hc, hp]; exact ⟨_, rfl⟩
      obtain ⟨base', hst⟩ := hst
      obtain ⟨-, r, hps⟩ := phase_step _ _ _ _ hst
      refine ⟨_, fin _ _ _ hst rfl (by simp) (by simp), rfl, rfl, rfl, ?_, by simp, by simp⟩
      simp only [hps]
      exact weight_set _ n _ _ hph (by simp [weight])
    · cases h

/-- Steps of calls and the passing of time, no call is dropped. (Specification: no counterpart in the code.) -/
def Waits (l : List (TOp I V)) : Prop := ∀ o ∈ l, o = .tick ∨ ∃ p, o = .op p ∧ ∀ m, p ≠ .abandon m

theorem trun_append (cap T : Nat) (s : Timed I V) (a b : List (TOp I V)) :
    trun cap T s (a ++ b) = (trun cap T s a).bind (fun s' => trun cap T s' b) := by
  induction a generalizing s with
  | nil => rfl
  | cons o l ih =>
    simp only [List.cons_append, trun]
    cases tstep cap T s o <;> simp [ih]

theorem rest (cap T : Nat) (w : Nat) (s : Timed I V) (hw : ((phases s.base).map weight).sum ≤ w) (hg : s.gone = false)
    (hq : cap ≤ s.queue) : ∃ l s', Waits l ∧ trun cap T s l = some s' ∧ s'.now = s.now ∧ s'.gone = false ∧ cap ≤ s'.queue ∧
      (List.range s'.base.calls.length).all (fun n => (todo cap s' n).isNone) = true := by
  induction w generalizing s with
  | zero =>
    refine ⟨[], s, (fun o ho => by cases ho), rfl, rfl, hg, hq, ?_⟩
    rw [List.all_eq_true]
    intro n _
    rw [Option.isNone_iff_eq_none]
    cases ht : todo cap s n with
    | none => rfl
    | some o => obtain ⟨s', -, -, -, -, h, -⟩ := todo_step cap T s n o hg hq ht; omega
  | succ w ih =>
    cases hall : (List.range s.base.calls.length).all (fun n => (todo cap s n).isNone) with
    | true => exact ⟨[], s, (fun o ho => by cases ho), rfl, rfl, hg, hq, hall⟩
    | false =>
      rw [List.all_eq_false] at hall
      obtain ⟨n, -, hn⟩ := hall
      cases ht : todo cap s n with
      | none => rw [ht] at hn; exact absurd rfl hn
      | some o =>
        obtain ⟨s1, g1, g2, g3, g4, g5, -, g6⟩ := todo_step cap T s n o hg hq ht
        obtain ⟨l, s', k1, k2, k3, k4, k5, k6⟩ := ih s1 (by omega) (by rw [g3]; exact hg) (by omega)
        refine ⟨.op o :: l, s', ?_, by simp [trun, g1, k2], by omega, k4, k5, k6⟩
        intro o' ho'
        rcases List.mem_cons.mp ho' with rfl | ho'
        · exact .inr ⟨o, rfl, g6⟩
        · exact k1 o' ho'

/-- **C232** (for any time). In every state with a full channel and a call that has not sent its request, time can go on
without end, with the call where it was: nothing but the receiver of the channel ends it. -/
theorem C232_any_time (cap T m : Nat) (s : Timed I V) (n : Nat) (hs : (phases s.base)[n]? = some .sending)
    (hg : s.gone = false) (hq : cap ≤ s.queue) :
    ∃ l s', trun cap T s l = some s' ∧ s'.now = s.now + m ∧ TOp.take ∉ l ∧ TOp.close ∉ l ∧
      (∀ k, TOp.op (.abandon k) ∉ l) ∧ (phases s'.base)[n]? = some .sending := by
  have main : ∃ l s', Waits l ∧ trun cap T s l = some s' ∧ s'.now = s.now + m := by
    clear hs
    induction m generalizing s with
    | zero => exact ⟨[], s, (fun o ho => by cases ho), rfl, rfl⟩
    | succ m ih =>
      obtain ⟨l, s1, h1, h2, h3, h4, h5, h6⟩ := rest cap T _ s (Nat.le_refl _) hg hq
      have ht : tstep cap T s1 .tick = some { s1 with now := s1.now + 1 } := by
        simp only [tstep]; exact if_pos h6
      obtain ⟨l', s', k1, k2, k3⟩ := ih { s1 with now := s1.now + 1 } h4 h5
      refine ⟨l ++ .tick :: l', s', ?_, by rw [trun_append, h2]; simp [trun, ht, k2], by rw [k3]; simp only; omega⟩
      intro o ho
      simp only [List.mem_append, List.mem_cons] at ho
      rcases ho with ho | rfl | ho
      · exact h1 o ho
      · exact .inl rfl
      · exact k1 o ho
  obtain ⟨l, s', h1, h2, h3⟩ := main
  have e1 : TOp.take ∉ l := by
    intro hc
    rcases h1 _ hc with h | ⟨p, h, -⟩ <;> cases h
  have e2 : TOp.close ∉ l := by
    intro hc
    rcases h1 _ hc with h | ⟨p, h, -⟩ <;> cases h
  have e3 : ∀ k, TOp.op (.abandon k) ∉ l := by
    intro k hc
    rcases h1 _ hc with h | ⟨p, h, hp⟩
    · cases h
    · cases h; exact hp k rfl
  exact ⟨l, s', h2, h3, e1, e2, e3, (C232_stuck cap T l s s' n hs hg hq e1 e2 (e3 n) h2).1⟩

end Verif.Elicit
