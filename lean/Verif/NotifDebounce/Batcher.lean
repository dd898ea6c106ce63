import Verif.NotifDebounce.Model
import Verif.Common.ListExtra

/-
Property C85: the notification batcher.
-/

namespace Verif.NotifDebounce

/-- Notifications added in a history. (Specification: no counterpart in the code.) -/
def badded : List BOp → List Notif
  | [] => []
  | .add n :: h => n :: badded h
  | _ :: h => badded h

/-- Everything the batcher holds or has sent. (Specification: no counterpart in the code.) -/
def bheld (s : BState) : List Notif :=
  s.out.flatten ++ s.inflight.flatten ++ (s.batches.map Prod.snd).flatten

/-- One key, not empty, within the bound. (Specification: no counterpart in the code.) -/
def GoodBatch (esc : Text → Text) (maxBatch : Nat) (b : List Notif) : Prop :=
  b ≠ [] ∧ b.length ≤ max maxBatch 1 ∧ ∃ k, ∀ n ∈ b, key esc n = k

/-- Invariant of the batcher. (Specification: no counterpart in the code.) -/
structure BInv (esc : Text → Text) (maxBatch : Nat) (s : BState) : Prop where
  wf : AMap.WF s.batches
  good : ∀ b ∈ s.out ++ s.inflight, GoodBatch esc maxBatch b
  buf : ∀ k b, (k, b) ∈ s.batches → b.length < max maxBatch 1 ∧ ∀ n ∈ b, key esc n = k

theorem binv_step (esc : Text → Text) (maxBatch : Nat) (s : BState) (op : BOp)
    (hI : BInv esc maxBatch s) : BInv esc maxBatch (bstep esc maxBatch s op) := by
  obtain ⟨hw, hg, hb⟩ := hI
  cases op with
  | add n =>
    have hbuf : ∀ b, b = (AMap.get s.batches (key esc n)).getD [] →
        b.length < max maxBatch 1 ∧ ∀ m ∈ b, key esc m = key esc n := by
      intro b e
      cases hgt : AMap.get s.batches (key esc n) with
      | none => rw [hgt] at e; subst e; exact ⟨by simp; omega, by simp⟩
      | some b' => rw [hgt] at e; subst e; exact hb _ _ (AMap.mem_of_get hgt)
    obtain ⟨h1, h2⟩ := hbuf _ rfl
    have h3 : ∀ m ∈ (AMap.get s.batches (key esc n)).getD [] ++ [n], key esc m = key esc n := by
      intro m hm
      rcases List.mem_append.mp hm with hm | hm
      · exact h2 m hm
      · rw [List.mem_singleton.mp hm]
    simp only [bstep]
    split
    · rename_i hl
      refine ⟨AMap.wf_insert hw _ _, ?_, ?_⟩
      · intro b hbm
        simp only [List.mem_append, List.mem_singleton] at hbm
        rcases hbm with hbm | hbm | hbm
        · exact hg b (List.mem_append.mpr (.inl hbm))
        · exact hg b (List.mem_append.mpr (.inr hbm))
        · subst hbm
          exact ⟨by simp, by simp; omega, _, h3⟩
      · intro k b hm
        rcases List.mem_cons.mp hm with e | e
        · cases e; exact ⟨by simp; omega, by simp⟩
        · exact hb k b (AMap.mem_remove.mp e).1
    · rename_i hl
      refine ⟨AMap.wf_insert hw _ _, hg, ?_⟩
      intro k b hm
      rcases List.mem_cons.mp hm with e | e
      · cases e; exact ⟨by omega, h3⟩
      · exact hb k b (AMap.mem_remove.mp e).1
  | sent i =>
    simp only [bstep]
    split
    · exact ⟨hw, hg, hb⟩
    · rename_i b hi
      refine ⟨hw, ?_, hb⟩
      intro x hx
      simp only [List.mem_append, List.mem_singleton] at hx
      rcases hx with (hx | hx) | hx
      · exact hg x (List.mem_append.mpr (.inl hx))
      · subst hx; exact hg x (List.mem_append.mpr (.inr (List.mem_of_getElem? hi)))
      · exact hg x (List.mem_append.mpr (.inr (List.mem_of_mem_eraseIdx hx)))
  | timeout k =>
    simp only [bstep]
    split
    · split
      · exact ⟨hw, hg, hb⟩
      · rename_i b hgt
        refine ⟨AMap.wf_remove hw _, ?_, fun k' b' hm => hb k' b' (AMap.mem_remove.mp hm).1⟩
        have hgood := hb _ _ (AMap.mem_of_get hgt)
        split
        · exact hg
        · rename_i he
          intro x hx
          simp only [List.mem_append, List.mem_singleton] at hx
          rcases hx with (hx | hx) | hx
          · exact hg x (List.mem_append.mpr (.inl hx))
          · subst hx; exact ⟨by simpa using he, by omega, _, hgood.2⟩
          · exact hg x (List.mem_append.mpr (.inr hx))
    · exact ⟨hw, hg, hb⟩
  | flush =>
    simp only [bstep]
    refine ⟨AMap.wf_nil, ?_, by simp⟩
    intro x hx
    simp only [List.mem_append, List.mem_filter, List.mem_map] at hx
    rcases hx with (hx | ⟨⟨e, he, rfl⟩, hx⟩) | hx
    · exact hg x (List.mem_append.mpr (.inl hx))
    · have := hb e.1 e.2 he
      exact ⟨by simpa using hx, by omega, _, this.2⟩
    · exact hg x (List.mem_append.mpr (.inr hx))

theorem binv_run (esc : Text → Text) (maxBatch : Nat) (h : List BOp) :
    BInv esc maxBatch (brun esc maxBatch {} h) := by
  induction h using snocInduction with
  | nil => exact ⟨AMap.wf_nil, by simp [brun], by simp [brun]⟩
  | append_singleton l a ih =>
    rw [brun, List.foldl_append]
    exact binv_step esc maxBatch _ a ih

theorem batches_remove_count {m : AMap Text (List Notif)} (hw : AMap.WF m) (k : Text) (n : Notif) :
    ((m.map Prod.snd).flatten).count n =
      ((AMap.get m k).getD []).count n + (((AMap.remove m k).map Prod.snd).flatten).count n := by
  induction m with
  | nil => rfl
  | cons e m ih =>
    obtain ⟨a, v⟩ := e
    have hw' : a ∉ AMap.keys m ∧ AMap.WF m := by
      unfold AMap.WF AMap.keys at *
      simpa using hw
    rw [AMap.get_cons]
    by_cases hk : a = k
    · subst hk
      have hr := AMap.remove_of_get_none (AMap.get_eq_none_iff.mpr hw'.1)
      have : AMap.remove ((a, v) :: m) a = AMap.remove m a := by
        unfold AMap.remove; rw [List.filter_cons]; simp
      rw [this, hr]
      simp
    · have : AMap.remove ((a, v) :: m) k = (a, v) :: AMap.remove m k := by
        unfold AMap.remove; rw [List.filter_cons]; simp [hk]
      rw [this, if_neg hk]
      simp only [List.map_cons, List.flatten_cons, List.count_append, ih hw'.2]
      omega

theorem eraseIdx_count (l : List (List Notif)) (i : Nat) (b : List Notif) (h : l[i]? = some b)
    (n : Notif) : l.flatten.count n = b.count n + (l.eraseIdx i).flatten.count n := by
  induction l generalizing i with
  | nil => simp at h
  | cons x l ih =>
    cases i with
    | zero =>
      simp only [List.getElem?_cons_zero, Option.some.injEq] at h
      subst h; simp
    | succ i =>
      simp only [List.getElem?_cons_succ] at h
      have := ih i h
      simp only [List.flatten_cons, List.eraseIdx_cons_succ, List.count_append, this]
      omega

theorem filter_nonempty_flatten (l : List (List Notif)) :
    (l.filter (fun b => !b.isEmpty)).flatten = l.flatten := by
  induction l with
  | nil => rfl
  | cons x l ih =>
    rw [List.filter_cons]
    cases x with
    | nil => simpa using ih
    | cons a x => simp [ih]

theorem badded_append (l1 l2 : List BOp) : badded (l1 ++ l2) = badded l1 ++ badded l2 := by
  induction l1 with
  | nil => rfl
  | cons a l ih => cases a <;> simp [badded, ih]

/-- **C85 (conservation).** In every interleaving of `add`, sends of full batches, timeouts and `flush`,
every notification is in exactly one place: sent, on its way or buffered, as often as it was added. -/
theorem C85_conservation (esc : Text → Text) (maxBatch : Nat) (h : List BOp) (n : Notif) :
    ((brun esc maxBatch {} h).out.flatten ++ (brun esc maxBatch {} h).inflight.flatten ++
      ((brun esc maxBatch {} h).batches.map Prod.snd).flatten).count n = (badded h).count n := by
  show (bheld _).count n = _
  induction h using snocInduction with
  | nil => rfl
  | append_singleton l a ih =>
    have hr : brun esc maxBatch {} (l ++ [a]) = bstep esc maxBatch (brun esc maxBatch {} l) a := by
      rw [brun, List.foldl_append]; rfl
    rw [hr, badded_append, List.count_append, ← ih]
    have hI := binv_run esc maxBatch l
    generalize brun esc maxBatch {} l = s at hI
    cases a with
    | add m =>
      have h1 := batches_remove_count hI.wf (key esc m) n
      simp only [bstep]
      split
      · simp only [bheld, AMap.insert, List.map_cons, List.flatten_cons, List.flatten_append,
          List.flatten_nil, List.count_append, List.count_nil, badded] at h1 ⊢
        omega
      · simp only [bheld, AMap.insert, List.map_cons, List.flatten_cons, List.count_append, badded]
          at h1 ⊢
        omega
    | sent i =>
      simp only [bstep]
      split
      · simp [badded]
      · rename_i b hb
        have h1 := eraseIdx_count _ _ _ hb n
        simp only [bheld, List.flatten_append, List.flatten_cons, List.flatten_nil, List.count_append,
          List.count_nil, badded] at h1 ⊢
        omega
    | timeout k =>
      simp only [bstep]
      split
      · split
        · simp [badded, bheld]
        · rename_i b hb
          have h1 := batches_remove_count hI.wf k n
          rw [hb] at h1
          simp only [Option.getD_some] at h1
          split
          · rename_i he
            have : b = [] := by simpa using he
            subst this
            simp only [bheld, List.count_append, List.count_nil, badded] at h1 ⊢
            omega
          · simp only [bheld, List.flatten_append, List.flatten_cons, List.flatten_nil,
              List.count_append, List.count_nil, badded] at h1 ⊢
            omega
      · simp [badded]
    | flush =>
      simp only [bstep, bheld, List.flatten_append, filter_nonempty_flatten, List.map_nil,
        List.flatten_nil, List.append_nil, List.count_append, badded, List.count_nil]
      omega

/-- **C85 (batches).** Every emitted batch is non-empty, at most `max_batch_size` long, and contains
notifications of one key only. -/
theorem C85_batches (esc : Text → Text) (maxBatch : Nat) (hmax : 1 ≤ maxBatch) (h : List BOp) :
    ∀ b ∈ (brun esc maxBatch {} h).out,
      b ≠ [] ∧ b.length ≤ maxBatch ∧ ∃ k, ∀ n ∈ b, key esc n = k := by
  intro b hb
  obtain ⟨h1, h2, h3⟩ := (binv_run esc maxBatch h).good b (List.mem_append.mpr (.inl hb))
  exact ⟨h1, by omega, h3⟩

example : brun id 2 {} [.add .tools, .add (.log 1), .add .tools, .timeout kUnknown, .sent 0, .add .tools,
    .flush] =
    { timeouts := [kTools, kTools], out := [[.log 1], [.tools, .tools], [.tools]] } := by decide

/-- **C85 (no pending batch is forgotten).** Whenever a key has a non-empty buffer, a timeout task for
it is running, so it will be sent. -/
theorem C85_timeout_running (esc : Text → Text) (maxBatch : Nat) (h : List BOp) (k : Text)
    (b : List Notif) (hg : AMap.get (brun esc maxBatch {} h).batches k = some b) (hb : b ≠ []) :
    k ∈ (brun esc maxBatch {} h).timeouts := by
  induction h using snocInduction generalizing b with
  | nil => cases hg
  | append_singleton l a ih =>
    have hr : brun esc maxBatch {} (l ++ [a]) = bstep esc maxBatch (brun esc maxBatch {} l) a := by
      rw [brun, List.foldl_append]; rfl
    rw [hr] at hg ⊢
    generalize brun esc maxBatch {} l = s at ih hg
    cases a with
    | add m =>
      simp only [bstep] at hg ⊢
      split at hg
      · rename_i hl
        rw [if_pos hl]
        simp only [AMap.get_insert] at hg
        split at hg
        · cases hg; exact absurd rfl hb
        · exact ih b hg hb
      · rename_i hl
        rw [if_neg hl]
        simp only [AMap.get_insert] at hg
        split at hg
        · rename_i hk
          rw [hk]; exact List.mem_append.mpr (.inr (List.mem_singleton.mpr rfl))
        · exact List.mem_append.mpr (.inl (ih b hg hb))
    | sent i =>
      simp only [bstep] at hg ⊢
      cases hi : s.inflight[i]? with
      | none => rw [hi] at hg; exact ih b hg hb
      | some x => rw [hi] at hg; exact ih b hg hb
    | timeout k' =>
      simp only [bstep] at hg ⊢
      by_cases hk' : k' ∈ s.timeouts
      · rw [if_pos hk'] at hg ⊢
        cases hq : AMap.get s.batches k' with
        | none =>
          rw [hq] at hg
          have hne : k ≠ k' := by intro e; subst e; rw [hq] at hg; cases hg
          exact (List.mem_erase_of_ne hne).mpr (ih b hg hb)
        | some b' =>
          rw [hq] at hg
          simp only [AMap.get_remove] at hg ⊢
          split at hg
          · cases hg
          · rename_i hne
            exact (List.mem_erase_of_ne hne).mpr (ih b hg hb)
      · rw [if_neg hk'] at hg ⊢
        exact ih b hg hb
    | flush => cases hg

example : AMap.get (brun id 2 {} [.add .tools]).batches kTools = some [.tools] := by decide

end Verif.NotifDebounce
