import Verif.Elicit.Lemmas

/-
Elicitation: C54.
-/

namespace Verif.Elicit

open Verif

variable {I V : Type} [DecidableEq I]

/-! ### How one step changes one caller -/

/-- The event carries the response `r` for the id `i`. (Specification: no counterpart in the code.) -/
def carries (i : I) (r : Response I V) (op : Op I V) : Prop :=
  r.id = i ∧ (op = .respond r ∨ op = .cancel r ∨ op = .cancelAll r.body)

/-- What a step may do to a caller. (Specification: no counterpart in the code.) -/
structure Evolve (op : Op I V) (c c' : Call I V) : Prop where
  id : c'.id = c.id
  slot : c.slot ≠ .empty → c'.slot = c.slot
  fin : ∀ o, c.phase = .done o → c'.phase = .done o
  full : ∀ r, c'.slot = .full r → c.slot = .full r ∨ carries c.id r op
  got : ∀ r, c'.phase = .done (.response r) → c.phase = .done (.response r) ∨ c.slot = .full r

theorem Evolve.refl (op : Op I V) (c : Call I V) : Evolve op c c :=
  ⟨rfl, fun _ => rfl, fun _ h => h, fun _ h => .inl h, fun _ h => .inl h⟩

/-- Only the phase changes, and not from `done`. -/
theorem Evolve.phase (op : Op I V) (c : Call I V) (p : Phase I V) (hd : ∀ o, c.phase ≠ .done o)
    (hp : ∀ r, p = .done (.response r) → c.slot = .full r) : Evolve op c { c with phase := p } :=
  ⟨rfl, fun _ => rfl, fun o h => absurd h (hd o), fun _ h => .inl h, fun r h => .inr (hp r h)⟩

/-- An empty channel is filled. -/
theorem Evolve.fill (op : Op I V) (c : Call I V) (r : Response I V) (he : c.slot = .empty) (hc : carries c.id r op) :
    Evolve op c { c with slot := if c.listening then .full r else .closed } := by
  refine ⟨rfl, fun h => absurd he h, fun _ h => h, ?_, fun _ h => .inl h⟩
  intro r' h
  simp only at h
  split at h
  · cases h; exact .inr hc
  · cases h

theorem dropSender_evolve (op : Op I V) (cs : List (Call I V)) (o : Option Nat) (n : Nat) (c : Call I V)
    (h : cs[n]? = some c) : ∃ c', (dropSender cs o)[n]? = some c' ∧ Evolve op c c' ∧ c'.phase = c.phase ∧
      (∀ r, c'.slot = .full r → c.slot = .full r) := by
  cases o with
  | none => exact ⟨c, h, Evolve.refl _ _, rfl, fun _ h => h⟩
  | some m =>
    simp only [dropSender, get_modify]
    split
    · rw [h]
      refine ⟨_, rfl, ?_⟩
      dsimp only
      split
      · rename_i he
        exact ⟨⟨rfl, fun h => absurd he h, fun _ h => h, fun _ h => by simp at h, fun _ h => .inl h⟩, rfl,
          fun _ h => by simp at h⟩
      · exact ⟨Evolve.refl _ _, rfl, fun _ h => h⟩
    · exact ⟨c, h, Evolve.refl _ _, rfl, fun _ h => h⟩

theorem modify_phase_evolve (op : Op I V) (cs : List (Call I V)) (n : Nat) (p : Phase I V) (m : Nat) (c : Call I V)
    (h : cs[m]? = some c) (hc : n = m → (∀ o, c.phase ≠ .done o) ∧ (∀ r, p = .done (.response r) → c.slot = .full r)) :
    ∃ c', (modifyCall cs n (fun c => { c with phase := p }))[m]? = some c' ∧ Evolve op c c' := by
  simp only [get_modify]
  split
  · rename_i he
    obtain ⟨h1, h2⟩ := hc he
    rw [h]
    exact ⟨_, rfl, Evolve.phase op c p h1 h2⟩
  · exact ⟨c, h, Evolve.refl _ _⟩

/-- What `cancel_all` does to one caller. -/
theorem drain_get (body : V) (l : AMap I Nat) (s : State I V) (h : Inv s) (hl : s.pending = l) (n : Nat) (c : Call I V)
    (hc : s.calls[n]? = some c) :
    (c.slot = .empty → (l.foldl (fun cs e => fill cs e.2 { id := e.1, body := body }) s.calls)[n]? =
      some { c with slot := if c.listening then .full { id := c.id, body := body } else .closed }) ∧
    (c.slot ≠ .empty → (l.foldl (fun cs e => fill cs e.2 { id := e.1, body := body }) s.calls)[n]? = some c) := by
  induction l generalizing s c with
  | nil =>
    refine ⟨?_, fun _ => hc⟩
    intro he
    have := h.complete n c hc he
    rw [hl] at this
    cases this
  | cons e l ih =>
    rcases e with ⟨i, m⟩
    have hg : AMap.get s.pending i = some m := by rw [hl, AMap.get_cons, if_pos rfl]
    have hrem : AMap.remove s.pending i = l := by
      have hw := h.wf
      rw [hl] at hw
      have hni : i ∉ AMap.keys l := (List.nodup_cons.mp hw).1
      rw [hl]
      have : AMap.get l i = none := AMap.get_eq_none_iff.mpr hni
      have h2 := AMap.remove_of_get_none this
      simp only [AMap.remove, List.filter_cons] at h2 ⊢
      simp [h2]
    have hinv := inv_fill h i m hg { id := i, body := body }
    rw [hrem] at hinv
    obtain ⟨c0, k1, k2, k3⟩ := h.sound i m hg
    simp only [List.foldl_cons]
    by_cases hm : m = n
    · subst hm
      rw [k1] at hc
      cases hc
      have := (ih _ hinv rfl { c with slot := if c.listening then .full { id := i, body := body } else .closed }
        (by simp only [fill, get_modify, if_pos, k1, Option.map_some])).2 (by simp only; split <;> simp)
      refine ⟨fun _ => ?_, fun h => absurd k3 h⟩
      rw [this]
      subst k2; rfl
    · exact ih _ hinv rfl c (by simp only [fill, get_modify, if_neg hm, hc])

theorem step_evolve {s s' : State I V} {op : Op I V} {res : Res} (h : Inv s) (hs : step s op = some (s', res)) (m : Nat)
    (c : Call I V) (hc : s.calls[m]? = some c) : ∃ c', s'.calls[m]? = some c' ∧ Evolve op c c' := by
  cases op with
  | start id =>
    cases hs
    obtain ⟨c', h1, h2, _⟩ := dropSender_evolve (.start id) s.calls (AMap.get s.pending id) m c hc
    refine ⟨c', ?_, h2⟩
    have hm : m < (dropSender s.calls (AMap.get s.pending id)).length := by
      rcases Nat.lt_or_ge m (dropSender s.calls (AMap.get s.pending id)).length with h | h
      · exact h
      · rw [List.getElem?_eq_none h] at h1; cases h1
    simp only [List.getElem?_append_left hm]
    exact h1
  | sent n =>
    simp only [step] at hs
    split at hs
    · rename_i c0 h0
      split at hs
      · rename_i hp
        cases hs
        refine modify_phase_evolve _ _ _ _ _ _ hc ?_
        rintro rfl
        rw [h0] at hc
        cases hc
        exact ⟨by simp [hp], by simp⟩
      · cases hs
    · cases hs
  | sendFail n =>
    simp only [step] at hs
    split at hs
    · rename_i c0 h0
      split at hs
      · rename_i hp
        cases hs
        refine modify_phase_evolve _ _ _ _ _ _ hc ?_
        rintro rfl
        rw [h0] at hc
        cases hc
        exact ⟨by simp [hp], by simp⟩
      · cases hs
    · cases hs
  | receive n =>
    simp only [step] at hs
    split at hs
    · rename_i c0 h0
      split at hs
      · rename_i hp hsl
        cases hs
        refine modify_phase_evolve _ _ _ _ _ _ hc ?_
        rintro rfl
        rw [h0] at hc
        cases hc
        refine ⟨by simp [hp], ?_⟩
        intro r' he
        cases he
        exact hsl
      · rename_i hp hsl
        cases hs
        refine modify_phase_evolve _ _ _ _ _ _ hc ?_
        rintro rfl
        rw [h0] at hc
        cases hc
        exact ⟨by simp [hp], by simp⟩
      · cases hs
    · cases hs
  | timeout n =>
    simp only [step] at hs
    split at hs
    · rename_i c0 h0
      split at hs
      · rename_i hp hsl
        cases hs
        refine modify_phase_evolve _ _ _ _ _ _ hc ?_
        rintro rfl
        rw [h0] at hc
        cases hc
        exact ⟨by simp [hp], by simp⟩
      · cases hs
    · cases hs
  | cleanup n =>
    simp only [step] at hs
    split at hs
    · rename_i c0 h0
      obtain ⟨c1, h1, h2, h3, h4⟩ := dropSender_evolve (.cleanup n) s.calls (AMap.get s.pending c0.id) m c hc
      have key : ∀ p : Phase I V, (∀ o, c0.phase ≠ .done o) → (∀ r, p ≠ .done (.response r)) →
          ∃ c', (modifyCall (dropSender s.calls (AMap.get s.pending c0.id)) n (fun c => { c with phase := p }))[m]? =
            some c' ∧ Evolve (.cleanup n) c c' := by
        intro p hp hr
        simp only [get_modify]
        split
        · rename_i he
          subst he
          rw [h0] at hc
          cases hc
          rw [h1]
          exact ⟨_, rfl, h2.id, h2.slot, fun o h => absurd h (hp o), h2.full, fun r h => absurd h (hr r)⟩
        · exact ⟨c1, h1, h2⟩
      split at hs
      · rename_i hp; cases hs; exact key _ (by simp [hp]) (by simp)
      · rename_i hp; cases hs; exact key _ (by simp [hp]) (by simp)
      · cases hs
    · cases hs
  | abandon n =>
    simp only [step] at hs
    split at hs
    · rename_i c0 h0
      split at hs
      · cases hs
      · cases hs
      · rename_i hp1 hp2
        cases hs
        refine modify_phase_evolve _ _ _ _ _ _ hc ?_
        rintro rfl
        rw [h0] at hc
        cases hc
        exact ⟨fun o ho => hp1 o ho, by simp⟩
    · cases hs
  | respond r =>
    simp only [step] at hs
    split at hs
    · rename_i n hg
      cases hs
      obtain ⟨c0, k1, k2, k3⟩ := h.sound _ _ hg
      simp only [fill, get_modify]
      split
      · rename_i he
        subst he
        rw [k1] at hc
        cases hc
        rw [k1]
        exact ⟨_, rfl, Evolve.fill _ _ _ k3 ⟨k2.symm, .inl rfl⟩⟩
      · exact ⟨c, hc, Evolve.refl _ _⟩
    · cases hs; exact ⟨c, hc, Evolve.refl _ _⟩
  | cancel r =>
    simp only [step] at hs
    split at hs
    · rename_i n hg
      cases hs
      obtain ⟨c0, k1, k2, k3⟩ := h.sound _ _ hg
      simp only [fill, get_modify]
      split
      · rename_i he
        subst he
        rw [k1] at hc
        cases hc
        rw [k1]
        exact ⟨_, rfl, Evolve.fill _ _ _ k3 ⟨k2.symm, .inr (.inl rfl)⟩⟩
      · exact ⟨c, hc, Evolve.refl _ _⟩
    · cases hs; exact ⟨c, hc, Evolve.refl _ _⟩
  | cancelAll body =>
    cases hs
    obtain ⟨h1, h2⟩ := drain_get body s.pending s h rfl m c hc
    by_cases he : c.slot = .empty
    · exact ⟨_, h1 he, Evolve.fill _ _ _ he ⟨rfl, .inr (.inr rfl)⟩⟩
    · exact ⟨c, h2 he, Evolve.refl _ _⟩

theorem step_length {s s' : State I V} {op : Op I V} {res : Res} (h : Inv s) (hs : step s op = some (s', res)) (m : Nat)
    (c' : Call I V) (hc : s'.calls[m]? = some c') (hn : s.calls[m]? = none) :
    ∃ id, op = .start id ∧ c' = { id := id, slot := .empty, phase := .sending } := by
  have len_fill : ∀ (cs : List (Call I V)) n r, (fill cs n r).length = cs.length := fun cs n r => length_modify cs n _
  have hge : s.calls.length ≤ m := by simpa using hn
  have hlt : m < s'.calls.length := by
    rcases Nat.lt_or_ge m s'.calls.length with h | h
    · exact h
    · rw [List.getElem?_eq_none h] at hc; cases hc
  have bad : s'.calls.length = s.calls.length → False := by omega
  cases op with
  | start id =>
    cases hs
    refine ⟨id, rfl, ?_⟩
    simp only [List.length_append, dropSender_length, List.length_cons, List.length_nil] at hlt
    have : m = s.calls.length := by omega
    subst this
    rw [List.getElem?_append_right (by rw [dropSender_length]; omega), dropSender_length] at hc
    simp at hc
    exact hc.symm
  | cancelAll body =>
    cases hs
    exfalso
    apply bad
    simp only
    clear bad hlt hc hge hn h
    generalize s.pending = l
    generalize s.calls = cs
    induction l generalizing cs with
    | nil => rfl
    | cons e l ih => rw [List.foldl_cons, ih, len_fill]
  | _ =>
    exfalso
    apply bad
    simp only [step] at hs
    repeat (first | (cases hs <;> simp only [length_modify, len_fill, dropSender_length]) | split at hs)

/-! ### C54 -/

/-- A response for an outstanding elicitation is accepted, is put into the channel of its waiter and into no other
channel. -/
theorem C54_delivered (l : List (Op I V)) (s : State I V) (hr : run init l = some s) (n : Nat) (c : Call I V)
    (hc : s.calls[n]? = some c) (hl : c.listening = true) (he : c.slot = .empty) (r : Response I V) (hi : r.id = c.id) :
    ∃ s', step s (.respond r) = some (s', .ok) ∧ s'.calls[n]? = some { c with slot := .full r } ∧
      ∀ m : Nat, m ≠ n → s'.calls[m]? = s.calls[m]? := by
  have hg := (inv_run inv_init hr).complete n c hc he
  simp only [step, hi, hg]
  refine ⟨_, rfl, ?_, ?_⟩
  · simp [fill, get_modify, hc, hl]
  · intro m hm
    simp [fill, get_modify, Ne.symm hm]

/-- The second of two callers, while the first is still sending. -/
example := C54_delivered (I := Nat) (V := Nat) [.start 1, .start 2, .sent 1] _ rfl 1 _ rfl rfl rfl ⟨2, 20⟩ rfl

/-- What is in the channel of a waiter is what it gets. -/
theorem C54_received (s : State I V) (n : Nat) (c : Call I V) (r : Response I V) (hc : s.calls[n]? = some c)
    (hp : c.phase = .waiting) (hs : c.slot = .full r) :
    step s (.timeout n) = none ∧
    ∃ s', step s (.receive n) = some (s', .ok) ∧ s'.calls[n]? = some { c with phase := .done (.response r) } := by
  constructor
  · simp [step, hc, hp, hs]
  · simp [step, hc, hp, hs, get_modify]

example : ∃ s : State Nat Nat, run init [.start 1, .start 2, .sent 0, .respond ⟨1, 7⟩] = some s ∧
    step s (.timeout 0) = none ∧ ∃ s' c, step s (.receive 0) = some (s', .ok) ∧ s'.calls[0]? = some c ∧
      c.phase = .done (.response ⟨1, 7⟩) :=
  ⟨_, rfl, (C54_received _ 0 _ ⟨1, 7⟩ rfl rfl rfl).1, _, _, rfl, rfl, rfl⟩

/-- A channel that got a value or lost its sender, and a call that ended, never change again. -/
theorem C54_once (l : List (Op I V)) (s : State I V) (hr : run init l = some s) (n : Nat) (c : Call I V)
    (hc : s.calls[n]? = some c) (k : List (Op I V)) (s' : State I V) (hk : run s k = some s') :
    ∃ c', s'.calls[n]? = some c' ∧ c'.id = c.id ∧ (c.slot ≠ .empty → c'.slot = c.slot) ∧
      ∀ o, c.phase = .done o → c'.phase = .done o := by
  have h := inv_run inv_init hr
  clear hr
  induction k generalizing s c with
  | nil => cases hk; exact ⟨c, hc, rfl, fun _ => rfl, fun _ h => h⟩
  | cons op k ih =>
    simp only [run] at hk
    split at hk
    · cases hk
    · rename_i s1 res hs
      obtain ⟨c1, h1, e1⟩ := step_evolve h hs n c hc
      obtain ⟨c', h2, h3, h4, h5⟩ := ih s1 c1 h1 hk (inv_step h hs)
      refine ⟨c', h2, h3.trans e1.id, ?_, fun o ho => h5 o (e1.fin o ho)⟩
      intro hne
      have := e1.slot hne
      rw [← this] at hne ⊢
      exact h4 hne

/-- A caller that was answered, and then others come and everything is cancelled. -/
example := C54_once (I := Nat) (V := Nat) [.start 1, .sent 0, .respond ⟨1, 7⟩, .receive 0] _ rfl 0 _ rfl
  [.start 1, .sent 1, .cancelAll 9, .receive 1] _ rfl

/-- A caller that got a response got one for its own id that somebody sent. -/
theorem C54_source (l : List (Op I V)) (s : State I V) (hr : run init l = some s) (n : Nat) (c : Call I V)
    (hc : s.calls[n]? = some c) (r : Response I V) (hp : c.phase = .done (.response r)) :
    ∃ op ∈ l, carries c.id r op := by
  have main : ∀ (l : List (Op I V)) (s : State I V), run init l = some s → ∀ (n : Nat) (c : Call I V),
      s.calls[n]? = some c → ∀ r, (c.slot = .full r ∨ c.phase = .done (.response r)) → ∃ op ∈ l, carries c.id r op := by
    intro l
    induction l using snocInduction with
    | nil => intro s hr n c hc; cases hr; simp [init] at hc
    | append_singleton l op ih =>
      intro s hr n c hc r hp
      rw [run_append] at hr
      cases h1 : run init l with
      | none => rw [h1] at hr; cases hr
      | some s1 =>
        rw [h1] at hr
        simp only [Option.bind_some, run] at hr
        split at hr
        · cases hr
        · rename_i s2 res hs
          cases hr
          have hinv := inv_run inv_init h1
          cases h2 : s1.calls[n]? with
          | none =>
            obtain ⟨id, _, rfl⟩ := step_length hinv hs n c hc h2
            rcases hp with hp | hp <;> cases hp
          | some c1 =>
            obtain ⟨c', h3, ev⟩ := step_evolve hinv hs n c1 h2
            rw [hc] at h3
            cases h3
            have old : (c1.slot = .full r ∨ c1.phase = .done (.response r)) → ∃ op' ∈ l ++ [op], carries c.id r op' := by
              intro ho
              obtain ⟨o, hm, hcar⟩ := ih s1 h1 n c1 h2 r ho
              exact ⟨o, List.mem_append_left _ hm, by rw [ev.id]; exact hcar⟩
            rcases hp with hp | hp
            · rcases ev.full r hp with h | h
              · exact old (.inl h)
              · exact ⟨op, by simp, by rw [ev.id]; exact h⟩
            · rcases ev.got r hp with h | h
              · exact old (.inr h)
              · exact old (.inl h)
  exact main l s hr n c hc r (.inr hp)

example := C54_source (I := Nat) (V := Nat) [.start 1, .start 2, .sent 0, .sent 1, .respond ⟨2, 8⟩, .cancelAll 9, .receive 0] _ rfl
  0 _ rfl ⟨1, 9⟩ rfl

/-- A response is refused exactly if no elicitation with its id is still to be answered, and then changes
nothing. -/
theorem C54_unknown (l : List (Op I V)) (s : State I V) (hr : run init l = some s) (r : Response I V) :
    ((∀ (n : Nat) (c : Call I V), s.calls[n]? = some c → c.id = r.id → c.slot ≠ .empty) →
      step s (.respond r) = some (s, .unknown) ∧ step s (.cancel r) = some (s, .unknown)) ∧
    ((∃ (n : Nat) (c : Call I V), s.calls[n]? = some c ∧ c.id = r.id ∧ c.slot = .empty) →
      (∃ s', step s (.respond r) = some (s', .ok)) ∧ (∃ s', step s (.cancel r) = some (s', .ok))) := by
  have h := inv_run inv_init hr
  constructor
  · intro hn
    have hg : AMap.get s.pending r.id = none := by
      cases hg : AMap.get s.pending r.id with
      | none => rfl
      | some n =>
        obtain ⟨c, h1, h2, h3⟩ := h.sound _ _ hg
        exact absurd h3 (hn n c h1 h2)
    simp [step, hg]
  · rintro ⟨n, c, h1, h2, h3⟩
    have hg := h.complete n c h1 h3
    rw [h2] at hg
    simp [step, hg]

/-- Both cases: id 1 has been answered, id 2 is waiting. -/
example : ∃ s : State Nat Nat, run init [.start 1, .start 2, .sent 0, .respond ⟨1, 7⟩] = some s ∧
    step s (.respond ⟨1, 8⟩) = some (s, .unknown) ∧ ∃ s', step s (.respond ⟨2, 8⟩) = some (s', .ok) :=
  ⟨_, rfl, rfl, ((C54_unknown [.start 1, .start 2, .sent 0, .respond ⟨1, 7⟩] _ rfl ⟨2, 8⟩).2 ⟨1, _, rfl, rfl, rfl⟩).1⟩

/-- A second response to the same elicitation is refused, whatever happened since, unless the id is used again. -/
theorem C54_second_refused (l : List (Op I V)) (s s1 s2 : State I V) (hr : run init l = some s) (r r' : Response I V)
    (h1 : step s (.respond r) = some (s1, .ok)) (hi : r'.id = r.id) (k : List (Op I V)) (hk : run s1 k = some s2)
    (hn : .start r.id ∉ k) : step s2 (.respond r') = some (s2, .unknown) := by
  have hg : AMap.get s1.pending r.id = none := by
    simp only [step] at h1
    split at h1
    · cases h1; simp [AMap.get_remove]
    · cases h1
  have main : ∀ (k : List (Op I V)) (s : State I V), run s k = some s2 → .start r.id ∉ k → AMap.get s.pending r.id = none →
      AMap.get s2.pending r.id = none := by
    intro k
    induction k with
    | nil => intro s hk _ hg; cases hk; exact hg
    | cons op k ih =>
      intro s hk hn hg
      simp only [run] at hk
      split at hk
      · cases hk
      · rename_i s1 res hs
        refine ih s1 hk (fun h => hn (List.mem_cons_of_mem _ h)) ?_
        have hne : op ≠ .start r.id := fun h => hn (by simp [h])
        cases op with
        | start id =>
          cases hs
          have : r.id ≠ id := fun h => hne (by rw [h])
          simp [AMap.get_insert, this, hg]
        | cancelAll b => cases hs; rfl
        | _ =>
          simp only [step] at hs
          repeat' (first | (cases hs; done) | (cases hs; simp [AMap.get_remove, hg]; done) | (cases hs; exact hg) | split at hs)
  have := main k s1 hk hn hg
  rw [← hi] at this
  simp [step, this]

/-- `cancel_all` answers every waiter, with its own id. -/
theorem C54_cancel_all (l : List (Op I V)) (s : State I V) (hr : run init l = some s) (body : V) :
    ∃ s', step s (.cancelAll body) = some (s', .ok) ∧ s'.pending = [] ∧
      ∀ (n : Nat) (c : Call I V), s.calls[n]? = some c →
        (c.slot = .empty → c.listening = true →
          s'.calls[n]? = some { c with slot := .full { id := c.id, body := body } }) ∧
        (c.slot ≠ .empty → s'.calls[n]? = some c) := by
  have h := inv_run inv_init hr
  refine ⟨_, rfl, rfl, ?_⟩
  intro n c hc
  obtain ⟨h1, h2⟩ := drain_get body s.pending s h rfl n c hc
  refine ⟨?_, h2⟩
  intro he hl
  have := h1 he
  simpa only [hl, if_true] using this

example := C54_cancel_all (I := Nat) (V := Nat) [.start 1, .start 2, .sent 0, .respond ⟨1, 7⟩] _ rfl 9

/-- What `pending` holds: exactly the elicitations that are still to be answered, and none of them has ended. -/
theorem C54_pending (l : List (Op I V)) (s : State I V) (hr : run init l = some s) (i : I) :
    (AMap.get s.pending i ≠ none ↔ ∃ (n : Nat) (c : Call I V), s.calls[n]? = some c ∧ c.id = i ∧ c.slot = .empty) ∧
    ∀ (n : Nat) (c : Call I V) o, s.calls[n]? = some c → c.phase = .done o → c.slot ≠ .empty := by
  have h := inv_run inv_init hr
  refine ⟨⟨?_, ?_⟩, h.done⟩
  · intro hg
    cases hg' : AMap.get s.pending i with
    | none => exact absurd hg' hg
    | some n => exact ⟨n, h.sound i n hg'⟩
  · rintro ⟨n, c, h1, rfl, h3⟩
    rw [h.complete n c h1 h3]
    simp

example := C54_pending (I := Nat) (V := Nat) [.start 1, .start 2, .sent 0, .respond ⟨1, 7⟩, .receive 0] _ rfl 2

/-- The ids of all elicitations started. (Specification: no counterpart in the code.) -/
def startIds (l : List (Op I V)) : List I := l.filterMap fun
  | .start i => some i
  | _ => none

theorem startIds_append (a b : List (Op I V)) : startIds (a ++ b) = startIds a ++ startIds b := List.filterMap_append

/-- Every caller's id is the one it was started with. -/
theorem ids_run (l : List (Op I V)) (s : State I V) (hr : run init l = some s) : s.calls.map Call.id = startIds l := by
  induction l using snocInduction generalizing s with
  | nil => cases hr; rfl
  | append_singleton l op ih =>
    rw [run_append] at hr
    cases h1 : run init l with
    | none => rw [h1] at hr; cases hr
    | some s1 =>
      rw [h1] at hr
      simp only [Option.bind_some, run] at hr
      split at hr
      · cases hr
      · rename_i s2 res hs
        cases hr
        rw [startIds_append, ← ih s1 h1]
        have hinv := inv_run inv_init h1
        have old : ∀ m : Nat, m < s1.calls.length → (s.calls.map Call.id)[m]? = (s1.calls.map Call.id)[m]? := by
          intro m hm
          obtain ⟨c', h2, e⟩ := step_evolve hinv hs m (s1.calls[m]) (by simp [hm])
          simp [h2, e.id, hm]
        apply List.ext_getElem?
        intro m
        rcases Nat.lt_or_ge m s1.calls.length with hm | hm
        · rw [old m hm, List.getElem?_append_left (by simpa using hm)]
        · rw [List.getElem?_append_right (by simpa using hm)]
          cases hc : s.calls[m]? with
          | none =>
            simp only [List.getElem?_map, hc, Option.map_none, List.length_map]
            symm
            rw [List.getElem?_eq_none]
            cases op with
            | start id =>
              cases hs
              simp [dropSender_length] at hc
              simp [startIds]
              omega
            | _ => simp [startIds]
          | some c =>
            obtain ⟨id, rfl, rfl⟩ := step_length hinv hs m c hc (by simpa using hm)
            have : m = s1.calls.length := by
              cases hs
              have : m < _ := (List.getElem?_eq_some_iff.mp hc).1
              simp [dropSender_length] at this
              omega
            subst this
            simp [startIds, hc]

/-- No id is used for two elicitations: then no waiter ever loses its channel, so a waiter ends with a response,
with its own timeout or with its own failed send.  Missing in general: an id in use again closes the channel of
the earlier waiter, see `C54_reused_id`. -/
theorem C54_never_closed_partial (l : List (Op I V)) (s : State I V) (hr : run init l = some s) (hd : (startIds l).Nodup)
    (n : Nat) (c : Call I V) (hc : s.calls[n]? = some c) :
    c.phase ≠ .done .closed ∧ (c.listening = true → c.slot ≠ .closed) := by
  induction l using snocInduction generalizing s n c with
  | nil => cases hr; simp [init] at hc
  | append_singleton l op ih =>
    have hids := ids_run _ s hr
    rw [run_append] at hr
    cases h1 : run init l with
    | none => rw [h1] at hr; cases hr
    | some s1 =>
      rw [h1] at hr
      simp only [Option.bind_some, run] at hr
      split at hr
      · cases hr
      · rename_i s2 res hs
        cases hr
        have hinv := inv_run inv_init h1
        have hd1 : (startIds l).Nodup := by
          rw [startIds_append] at hd
          exact (List.nodup_append.mp hd).1
        have ih1 := ih s1 h1 hd1
        have ids1 := ids_run l s1 h1
        -- no two callers have the same id
        have uniq : ∀ (a b : Nat) (x y : Call I V), s1.calls[a]? = some x → s1.calls[b]? = some y → x.id = y.id → a = b := by
          intro a b x y ha hb hxy
          rw [← ids1] at hd1
          have la := (List.getElem?_eq_some_iff.mp ha).1
          have lb := (List.getElem?_eq_some_iff.mp hb).1
          have hp := List.pairwise_iff_getElem.mp hd1
          have ha' := (List.getElem?_eq_some_iff.mp ha).2
          have hb' := (List.getElem?_eq_some_iff.mp hb).2
          rcases Nat.lt_trichotomy a b with h | h | h
          · exact absurd (by rw [List.getElem_map, List.getElem_map, ha', hb', hxy]) (hp a b (by simpa using la) (by simpa using lb) h)
          · exact h
          · exact absurd (by rw [List.getElem_map, List.getElem_map, ha', hb', hxy]) (hp b a (by simpa using lb) (by simpa using la) h)
        cases h2 : s1.calls[n]? with
        | none =>
          obtain ⟨id, _, rfl⟩ := step_length hinv hs n c hc h2
          simp
        | some c1 =>
          obtain ⟨p1, p2⟩ := ih1 n c1 h2
          have phase_case : ∀ (m : Nat) (p : Phase I V), p ≠ .done .closed →
              (m = n → (c1.listening = true ∨ (p ≠ .sending ∧ p ≠ .waiting))) →
              (modifyCall s1.calls m (fun c => { c with phase := p }))[n]? = some c →
              c.phase ≠ .done .closed ∧ (c.listening = true → c.slot ≠ .closed) := by
            intro m p hp hl hc
            simp only [get_modify] at hc
            split at hc
            · rename_i he
              rw [h2] at hc
              cases hc
              refine ⟨hp, ?_⟩
              intro hlis
              rcases hl he with h | ⟨h3, h4⟩
              · exact p2 h
              · exfalso
                simp [Call.listening, h3, h4] at hlis
            · rw [h2] at hc
              cases hc
              exact ⟨p1, p2⟩
          have fill_case : ∀ (m : Nat) (r : Response I V), (fill s1.calls m r)[n]? = some c →
              c.phase ≠ .done .closed ∧ (c.listening = true → c.slot ≠ .closed) := by
            intro m r hc
            simp only [fill, get_modify] at hc
            split at hc
            · rw [h2] at hc
              cases hc
              refine ⟨p1, ?_⟩
              intro hlis
              have : c1.listening = true := hlis
              simp [this]
            · rw [h2] at hc
              cases hc
              exact ⟨p1, p2⟩
          cases op with
          | start id =>
            cases hs
            have hnone : AMap.get s1.pending id = none := by
              cases hg : AMap.get s1.pending id with
              | none => rfl
              | some m =>
                exfalso
                obtain ⟨x, k1, k2, _⟩ := hinv.sound _ _ hg
                rw [startIds_append, ← ids1] at hd
                refine (List.nodup_append.mp hd).2.2 id ?_ id (by simp [startIds]) rfl
                rw [← k2]
                exact List.mem_map_of_mem (List.mem_of_getElem? k1)
            simp only [hnone, dropSender] at hc
            rw [List.getElem?_append_left (List.getElem?_eq_some_iff.mp h2).1, h2] at hc
            cases hc
            exact ⟨p1, p2⟩
          | sent m =>
            simp only [step] at hs
            split at hs
            · rename_i x hx
              split at hs
              · rename_i hph
                cases hs
                refine phase_case m _ (by simp) ?_ hc
                rintro rfl
                rw [h2] at hx
                cases hx
                left
                simp [Call.listening, hph]
              · cases hs
            · cases hs
          | sendFail m =>
            simp only [step] at hs
            split at hs
            · split at hs
              · cases hs; exact phase_case m _ (by simp) (fun _ => .inr (by simp)) hc
              · cases hs
            · cases hs
          | receive m =>
            simp only [step] at hs
            split at hs
            · rename_i x hx
              split at hs
              · cases hs; exact phase_case m _ (by simp) (fun _ => .inr (by simp)) hc
              · rename_i hph hsl
                exfalso
                exact (ih1 m x hx).2 (by simp [Call.listening, hph]) hsl
              · cases hs
            · cases hs
          | timeout m =>
            simp only [step] at hs
            split at hs
            · split at hs
              · cases hs; exact phase_case m _ (by simp) (fun _ => .inr (by simp)) hc
              · cases hs
            · cases hs
          | cleanup m =>
            simp only [step] at hs
            split at hs
            · rename_i x hx
              have key : ∀ p : Phase I V, p ≠ .done .closed → p ≠ .sending → p ≠ .waiting → 
                  (modifyCall (dropSender s1.calls (AMap.get s1.pending x.id)) m (fun c => { c with phase := p }))[n]? = some c →
                  c.phase ≠ .done .closed ∧ (c.listening = true → c.slot ≠ .closed) := by
                intro p q1 q2 q3 hc
                simp only [get_modify] at hc
                split at hc
                · obtain ⟨c2, k1, _⟩ := dropSender_evolve (.cleanup m) s1.calls (AMap.get s1.pending x.id) n c1 h2
                  rw [k1] at hc
                  cases hc
                  refine ⟨q1, ?_⟩
                  intro hlis
                  exfalso
                  simp [Call.listening, q2, q3] at hlis
                · rename_i hne
                  have : (dropSender s1.calls (AMap.get s1.pending x.id))[n]? = s1.calls[n]? := by
                    cases hg : AMap.get s1.pending x.id with
                    | none => rfl
                    | some a =>
                      obtain ⟨y, k1, k2, _⟩ := hinv.sound _ _ hg
                      have := uniq a m y x k1 hx k2
                      subst this
                      simp only [dropSender, get_modify, if_neg hne]
                  rw [this, h2] at hc
                  cases hc
                  exact ⟨p1, p2⟩
              split at hs
              · cases hs; exact key _ (by simp) (by simp) (by simp) hc
              · cases hs; exact key _ (by simp) (by simp) (by simp) hc
              · cases hs
            · cases hs
          | abandon m =>
            simp only [step] at hs
            split at hs
            · split at hs
              · cases hs
              · cases hs
              · cases hs; exact phase_case m _ (by simp) (fun _ => .inr (by simp)) hc
            · cases hs
          | respond r =>
            simp only [step] at hs
            split at hs
            · cases hs; exact fill_case _ r hc
            · cases hs; rw [h2] at hc; cases hc; exact ⟨p1, p2⟩
          | cancel r =>
            simp only [step] at hs
            split at hs
            · cases hs; exact fill_case _ r hc
            · cases hs; rw [h2] at hc; cases hc; exact ⟨p1, p2⟩
          | cancelAll body =>
            cases hs
            obtain ⟨d1, d2⟩ := drain_get body s1.pending s1 hinv rfl n c1 h2
            by_cases he : c1.slot = .empty
            · rw [d1 he] at hc
              cases hc
              refine ⟨p1, ?_⟩
              intro hlis
              have : c1.listening = true := hlis
              simp [this]
            · rw [d2 he] at hc
              cases hc
              exact ⟨p1, p2⟩

/-! ### Witnesses -/

/-- An id used again while the first elicitation waits: the first waiter is told its channel was closed although
nobody answered or cancelled it; the response goes to the second. -/
theorem C54_reused_id (i : I) (r : Response I V) (hi : r.id = i) :
    ∃ s, run init [.start i, .sent 0, .start i, .sent 1, .receive 0, .respond r, .receive 1] = some s ∧
      s.calls = [{ id := i, slot := .closed, phase := .done .closed },
        { id := i, slot := .full r, phase := .done (.response r) }] := by
  subst hi
  simp [run, step, init, modifyCall, dropSender, fill, AMap.get_insert, AMap.get, AMap.insert, AMap.remove, Call.listening]

example := C54_reused_id (V := Nat) 1 ⟨1, 7⟩ rfl

/-- An id used again while the first elicitation is between its timeout and its clean-up: the clean-up of the first
removes the second, which then gets no response; its response is refused. -/
theorem C54_timeout_removes_other (i : I) (r : Response I V) (hi : r.id = i) :
    ∃ s, run init [.start i, .sent 0, .timeout 0, .start i, .sent 1, .cleanup 0, .receive 1] = some s ∧
      s.calls = [{ id := i, slot := .closed, phase := .done .timeout }, { id := i, slot := .closed, phase := .done .closed }] ∧
      step s (.respond r) = some (s, .unknown) := by
  subst hi
  simp [run, step, init, modifyCall, dropSender, AMap.get, AMap.insert, AMap.remove]

example := C54_timeout_removes_other (V := Nat) 1 ⟨1, 7⟩ rfl

/-- A response that arrives between timeout and clean-up is accepted (`Ok`) and lost: the caller reports a
timeout. -/
theorem C54_accepted_and_lost (i : I) (r : Response I V) (hi : r.id = i) :
    ∃ s s' s'', run init [.start i, .sent 0, .timeout 0] = some s ∧ step s (.respond r) = some (s', .ok) ∧
      run s' [.cleanup 0] = some s'' ∧ s''.calls = [{ id := i, slot := .closed, phase := .done .timeout }] := by
  subst hi
  simp [run, step, init, modifyCall, dropSender, fill, AMap.get, AMap.insert, AMap.remove, Call.listening]

example := C54_accepted_and_lost (V := Nat) 1 ⟨1, 7⟩ rfl

/-- Abandoned elicitations stay in `pending`: after any number of them, all with different ids, that many
entries are there although nobody waits. (Specification: no counterpart in the code.) -/
def abandonAll (ids : List I) (k : Nat) : List (Op I V) := match ids with
  | [] => []
  | i :: r => .start i :: .abandon k :: abandonAll r (k + 1)

theorem C54_abandoned_leak (ids : List I) (hd : ids.Nodup) :
    ∃ s : State I V, run init (abandonAll ids 0) = some s ∧ s.pending.length = ids.length ∧
      ∀ c ∈ s.calls, c.phase = .abandoned := by
  have main : ∀ (ids : List I) (s : State I V), ids.Nodup → (∀ i ∈ ids, AMap.get s.pending i = none) →
      (∀ c ∈ s.calls, c.phase = .abandoned) →
      ∃ s', run s (abandonAll ids s.calls.length) = some s' ∧ s'.pending.length = s.pending.length + ids.length ∧
        ∀ c ∈ s'.calls, c.phase = .abandoned := by
    intro ids
    induction ids with
    | nil => intro s _ _ h; exact ⟨s, rfl, rfl, h⟩
    | cons i r ih =>
      intro s hd hn ha
      obtain ⟨hi, hd'⟩ := List.nodup_cons.mp hd
      have hg := hn i (by simp)
      let s1 : State I V := { pending := AMap.insert s.pending i s.calls.length,
                              calls := s.calls ++ [{ id := i, slot := .empty, phase := .abandoned }] }
      obtain ⟨s', h1, h2, h3⟩ := ih s1 hd' (by
        intro j hj
        have : j ≠ i := fun h => hi (h ▸ hj)
        simp only [s1, AMap.get_insert, if_neg this]
        exact hn j (by simp [hj])) (by
        intro c hc
        simp only [s1, List.mem_append, List.mem_singleton] at hc
        rcases hc with hc | rfl
        · exact ha c hc
        · rfl)
      refine ⟨s', ?_, ?_, h3⟩
      · have e : s1.calls.length = s.calls.length + 1 := by simp [s1]
        rw [e] at h1
        simp only [abandonAll, run, step, hg, dropSender, List.getElem?_append_right (Nat.le_refl _), Nat.sub_self,
          List.getElem?_cons_zero]
        have e2 : modifyCall (s.calls ++ [{ id := i, slot := .empty, phase := .sending }]) s.calls.length
            (fun c => { c with phase := .abandoned }) = s1.calls := by
          simp only [modifyCall, s1]
          apply List.ext_getElem?
          intro m
          rw [List.getElem?_modify]
          rcases Nat.lt_trichotomy m s.calls.length with h | h | h
          · simp [List.getElem?_append_left h, Nat.ne_of_gt h]
          · subst h; simp
          · simp [Nat.ne_of_lt h]
            rw [List.getElem?_eq_none (by simp; omega), List.getElem?_eq_none (by simp; omega)]
        rw [e2]
        exact h1
      · rw [h2]
        simp only [s1, AMap.length_insert_of_none hg, List.length_cons]
        omega
  obtain ⟨s, h1, h2, h3⟩ := main ids init hd (by simp [init]) (by simp [init])
  exact ⟨s, h1, by simpa [init] using h2, h3⟩

example := C54_abandoned_leak (V := Nat) [1, 2, 3] (by decide)

/-! ### Examples -/

/-- Two callers, answered in the opposite order: each gets its own. -/
example : ∃ s, run (I := Nat) (V := Nat) init [.start 1, .start 2, .sent 1, .sent 0, .respond ⟨2, 20⟩, .receive 1,
      .respond ⟨1, 10⟩, .receive 0] = some s ∧
    s.calls.map Call.phase = [.done (.response ⟨1, 10⟩), .done (.response ⟨2, 20⟩)] ∧ s.pending = [] := ⟨_, rfl, rfl, rfl⟩

/-- The hypotheses of `C54_delivered` hold with another waiter around. -/
example : ∃ s c, run (I := Nat) (V := Nat) init [.start 1, .start 2, .sent 1] = some s ∧ s.calls[1]? = some c ∧
    c.listening = true ∧ c.slot = .empty ∧ c.id = 2 := ⟨_, _, rfl, rfl, rfl, rfl, rfl⟩

/-- The hypotheses of `C54_never_closed_partial` hold for a history with a timeout and a cancellation. -/
example : ∃ s, run (I := Nat) (V := Nat) init [.start 1, .start 2, .sent 0, .timeout 0, .cleanup 0, .sent 1, .cancelAll 5,
      .receive 1] = some s ∧ (startIds (I := Nat) (V := Nat) [.start 1, .start 2, .sent 0, .timeout 0, .cleanup 0, .sent 1,
        .cancelAll 5, .receive 1]).Nodup ∧
      s.calls.map Call.phase = [.done .timeout, .done (.response ⟨2, 5⟩)] := ⟨_, rfl, by decide, rfl⟩

/-- The hypotheses of `C54_second_refused` hold with another elicitation answered in between. -/
example : ∃ s s1 s2, run (I := Nat) (V := Nat) init [.start 1, .start 2, .sent 0] = some s ∧
    step s (.respond ⟨1, 7⟩) = some (s1, .ok) ∧ run s1 [.receive 0, .respond ⟨2, 8⟩] = some s2 :=
  ⟨_, _, _, rfl, rfl, rfl⟩

end Verif.Elicit
