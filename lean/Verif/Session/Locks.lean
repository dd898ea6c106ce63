import Verif.Common.Locks

/-
Locks of the session manager, and code of the user that runs inside its methods: C247.

Models /repo/src/shared/session.rs L141-286 at the level of lock acquisitions. The sessions are kept in a `DashMap`,
which is a row of shards with a lock each; a session belongs to the shard its id hashes to. `DashMap` is a library and
is not part of /repo; what is used of it: `get` and `get_mut` lock the shard of the key for as long as the guard they
return lives, `insert` and `remove` lock it while they run, `len` locks the shards one after the other, and `iter` locks
the next shard before it lets go of the last one. Sessions are named by their shards only; whether a session is found
is given with the call.
-/

namespace Verif.Session.Locks

open Verif.Locks

/-- Code that uses the manager: the calls it makes, in order, with the code of the user that they run. The `Bool`s say
whether the session was found (`found`), the limit reached (`full`), the session expired (`expired`) and still there to
be removed (`removed`). A `cleanup_expired` is a `visit` followed by `expire`s. /repo/src/shared/session.rs L141-286. -/
inductive Code where
  | done
  | create (full : Bool) (k : Nat) (onCreate rest : Code)
  | get (k : Nat) (found : Bool) (rest : Code)
  | validate (k : Nat) (found expired removed : Bool) (onDestroy rest : Code)
  | update (k : Nat) (found : Bool) (updater rest : Code)
  | destroy (k : Nat) (removed : Bool) (onDestroy rest : Code)
  | visit (rest : Code)
  | expire (k : Nat) (removed : Bool) (onExpire rest : Code)
  | count (rest : Code)
  deriving Repr, DecidableEq

/-- A shard that is locked for one operation of the map. (For example /repo/src/shared/session.rs L162.) -/
def touch (k : Nat) (m : Mode) : List (Instr Nat) := [.acq k m, .rel k]

/-- `DashMap::len`, /repo/src/shared/session.rs L143, L284: the shards from number `n` on, `left` of them. -/
def len : Nat → Nat → List (Instr Nat)
  | _, 0 => []
  | n, left + 1 => touch n .read ++ len (n + 1) left

/-- `DashMap::iter` after the shard `n` was locked, /repo/src/shared/session.rs L253-258, L276-279. -/
def walk : Nat → Nat → List (Instr Nat)
  | n, 0 => [.rel n]
  | n, left + 1 => .acq (n + 1) .read :: .rel n :: walk (n + 1) left

/-- `DashMap::iter` run to its end, /repo/src/shared/session.rs L253-258, L276-279. -/
def iter : Nat → List (Instr Nat)
  | 0 => []
  | n + 1 => .acq 0 .read :: walk 0 n

/-- The lock operations of `get_session`, /repo/src/shared/session.rs L173-187: the guard is dropped before the
insertion. -/
def lookup (k : Nat) (found : Bool) : List (Instr Nat) :=
  touch k .read ++ (if found then touch k .write else [])

/-- The lock operations of code that uses a manager with `n` shards. /repo/src/shared/session.rs L141-170 (`create`),
L173-187 (`get`), L190-204 (`validate`), L207-222 (`update`; `authenticate_session`, L225-230, is an `update` whose
updater is `done`), L233-249 (`destroy`), L252-258 and L275-280 (`visit`), L260-269 (`expire`), L283-285 (`count`). -/
def program (n : Nat) : Code → List (Instr Nat)
  | .done => []
  | .create full k cb rest => len 0 n ++ (if full then [] else touch k .write ++ program n cb) ++ program n rest
  | .get k found rest => lookup k found ++ program n rest
  | .validate k found expired removed cb rest =>
    lookup k found ++
      (if found && expired then touch k .write ++ (if removed then program n cb else []) else []) ++ program n rest
  | .update k found body rest =>
    .acq k .write :: ((if found then program n body else []) ++ [.rel k]) ++ program n rest
  | .destroy k removed cb rest => touch k .write ++ (if removed then program n cb else []) ++ program n rest
  | .visit rest => iter n ++ program n rest
  | .expire k removed cb rest => touch k .write ++ (if removed then program n cb else []) ++ program n rest
  | .count rest => len 0 n ++ program n rest

/-! ### C247 -/

/-- The shards that are locked by updaters at work, each by the updater of a session of it, and what the code does
within: it uses only sessions of shards that are not locked, and asks for all sessions or their number only if no
shard is. Callbacks run where they are called. (Specification: no counterpart in the code.) -/
def Apart (n : Nat) (held : List Nat) : Code → Prop
  | .done => True
  | .create full k cb rest =>
    (∀ h ∈ held, n ≤ h) ∧ (full = false → k ∉ held ∧ Apart n held cb) ∧ Apart n held rest
  | .get k _ rest => k ∉ held ∧ Apart n held rest
  | .validate k found expired removed cb rest =>
    k ∉ held ∧ (found = true → expired = true → removed = true → Apart n held cb) ∧ Apart n held rest
  | .update k found body rest => k ∉ held ∧ (found = true → Apart n (k :: held) body) ∧ Apart n held rest
  | .destroy k removed cb rest => k ∉ held ∧ (removed = true → Apart n held cb) ∧ Apart n held rest
  | .visit rest => (∀ h ∈ held, n ≤ h) ∧ Apart n held rest
  | .expire k removed cb rest => k ∉ held ∧ (removed = true → Apart n held cb) ∧ Apart n held rest
  | .count rest => (∀ h ∈ held, n ≤ h) ∧ Apart n held rest

/-- As `Apart`, but the shards used within an updater come after the locked ones. (Specification: no counterpart in the
code.) -/
def Rising (n : Nat) (held : List Nat) : Code → Prop
  | .done => True
  | .create full k cb rest =>
    (held = [] ∨ n = 0) ∧ (full = false → (∀ h ∈ held, h < k) ∧ Rising n held cb) ∧ Rising n held rest
  | .get k _ rest => (∀ h ∈ held, h < k) ∧ Rising n held rest
  | .validate k found expired removed cb rest =>
    (∀ h ∈ held, h < k) ∧ (found = true → expired = true → removed = true → Rising n held cb) ∧ Rising n held rest
  | .update k found body rest =>
    (∀ h ∈ held, h < k) ∧ (found = true → Rising n (k :: held) body) ∧ Rising n held rest
  | .destroy k removed cb rest => (∀ h ∈ held, h < k) ∧ (removed = true → Rising n held cb) ∧ Rising n held rest
  | .visit rest => (held = [] ∨ n = 0) ∧ Rising n held rest
  | .expire k removed cb rest => (∀ h ∈ held, h < k) ∧ (removed = true → Rising n held cb) ∧ Rising n held rest
  | .count rest => (held = [] ∨ n = 0) ∧ Rising n held rest

/-- No updater uses the manager. (Specification: no counterpart in the code.) -/
def Plain : Code → Prop
  | .done => True
  | .create _ _ cb rest => Plain cb ∧ Plain rest
  | .get _ _ rest => Plain rest
  | .validate _ _ _ _ cb rest => Plain cb ∧ Plain rest
  | .update _ _ body rest => body = .done ∧ Plain rest
  | .destroy _ _ cb rest => Plain cb ∧ Plain rest
  | .visit rest => Plain rest
  | .expire _ _ cb rest => Plain cb ∧ Plain rest
  | .count rest => Plain rest

theorem plain_rising (n : Nat) (c : Code) (h : Plain c) : Rising n [] c := by
  induction c with
  | done => trivial
  | create f k cb r ih1 ih2 => exact ⟨.inl rfl, fun _ => ⟨by simp, ih1 h.1⟩, ih2 h.2⟩
  | get k f r ih => exact ⟨by simp, ih h⟩
  | validate k f e d cb r ih1 ih2 => exact ⟨by simp, fun _ _ _ => ih1 h.1, ih2 h.2⟩
  | update k f b r _ ih2 => obtain ⟨rfl, h⟩ := h; exact ⟨by simp, fun _ => trivial, ih2 h⟩
  | destroy k d cb r ih1 ih2 => exact ⟨by simp, fun _ => ih1 h.1, ih2 h.2⟩
  | visit r ih => exact ⟨.inl rfl, ih h⟩
  | expire k d cb r ih1 ih2 => exact ⟨by simp, fun _ => ih1 h.1, ih2 h.2⟩
  | count r ih => exact ⟨.inl rfl, ih h⟩

/-! #### Any number of tasks -/

theorem filter_self {l : List Nat} {k : Nat} (h : ∀ x ∈ l, x < k) : l.filter (fun x => x != k) = l := by
  rw [List.filter_eq_self]
  intro x hx
  have := h x hx
  simp only [bne_iff_ne, ne_eq]; omega

theorem ordered_touch (held : List Nat) (k : Nat) (m : Mode) (p : List (Instr Nat)) (h : ∀ x ∈ held, x < k) :
    ordered id held (touch k m ++ p) = ordered id held p := by
  have h1 : held.all (fun x => decide (id x < id k)) = true := by
    rw [List.all_eq_true]; intro x hx; simpa using h x hx
  simp only [touch, List.cons_append, List.nil_append, ordered, h1, Bool.true_and]
  rw [List.filter_cons_of_neg (by simp), filter_self h]

theorem ordered_len (m left : Nat) (p : List (Instr Nat)) : ordered id [] (len m left ++ p) = ordered id [] p := by
  induction left generalizing m with
  | zero => rfl
  | succ left ih => rw [len, List.append_assoc, ordered_touch _ _ _ _ (by simp), ih]

theorem ordered_walk (m left : Nat) (p : List (Instr Nat)) : ordered id [m] (walk m left ++ p) = ordered id [] p := by
  induction left generalizing m with
  | zero => simp [walk, ordered]
  | succ left ih =>
    have := ih (m + 1)
    simp [walk, ordered, this]

theorem ordered_iter (n : Nat) (p : List (Instr Nat)) : ordered id [] (iter n ++ p) = ordered id [] p := by
  cases n with
  | zero => rfl
  | succ n =>
    have := ordered_walk 0 n p
    simp [iter, ordered, this]

theorem ordered_lookup (held : List Nat) (k : Nat) (f : Bool) (p : List (Instr Nat)) (h : ∀ x ∈ held, x < k) :
    ordered id held (lookup k f ++ p) = ordered id held p := by
  cases f <;> simp [lookup, ordered_touch _ _ _ _ h]

theorem rising_ordered (n : Nat) (c : Code) (held : List Nat) (h : Rising n held c) (p : List (Instr Nat))
    (hp : ordered id held p = true) : ordered id held (program n c ++ p) = true := by
  induction c generalizing held p with
  | done => exact hp
  | create f k cb r ih1 ih2 =>
    obtain ⟨h0, h1, h2⟩ := h
    have hl : ∀ q, ordered id held q = true → ordered id held (len 0 n ++ q) = true := by
      intro q hq
      rcases h0 with rfl | rfl
      · rw [ordered_len]; exact hq
      · exact hq
    simp only [program, List.append_assoc]
    apply hl
    cases f with
    | true => exact ih2 held h2 p hp
    | false =>
      obtain ⟨h3, h4⟩ := h1 rfl
      simp only [Bool.false_eq_true, if_false, List.append_assoc]
      rw [ordered_touch _ _ _ _ h3]
      exact ih1 held h4 _ (ih2 held h2 p hp)
  | get k f r ih =>
    simp only [program, List.append_assoc]
    rw [ordered_lookup _ _ _ _ h.1]
    exact ih held h.2 p hp
  | validate k f e d cb r ih1 ih2 =>
    obtain ⟨h0, h1, h2⟩ := h
    simp only [program, List.append_assoc]
    rw [ordered_lookup _ _ _ _ h0]
    have h3 := ih2 held h2 p hp
    cases f <;> cases e <;> cases d <;> simp only [Bool.and_true, Bool.and_false, Bool.false_eq_true, if_false,
      if_true, List.nil_append, List.append_assoc] <;> try exact h3
    · rw [ordered_touch _ _ _ _ h0]; exact h3
    · rw [ordered_touch _ _ _ _ h0]; exact ih1 held (h1 rfl rfl rfl) _ h3
  | update k f b r ih1 ih2 =>
    obtain ⟨h0, h1, h2⟩ := h
    have h3 := ih2 held h2 p hp
    have h4 : held.all (fun x => decide (id x < id k)) = true := by
      rw [List.all_eq_true]; intro x hx; simpa using h0 x hx
    have h5 : ordered id (k :: held) (.rel k :: (program n r ++ p)) = true := by
      simp only [ordered]
      rw [List.filter_cons_of_neg (by simp), filter_self h0]; exact h3
    simp only [program, List.cons_append, List.append_assoc, List.nil_append, ordered, h4, Bool.true_and]
    cases f with
    | false => exact h5
    | true => exact ih1 (k :: held) (h1 rfl) _ h5
  | destroy k d cb r ih1 ih2 =>
    obtain ⟨h0, h1, h2⟩ := h
    simp only [program, List.append_assoc]
    rw [ordered_touch _ _ _ _ h0]
    cases d with
    | false => exact ih2 held h2 p hp
    | true => exact ih1 held (h1 rfl) _ (ih2 held h2 p hp)
  | visit r ih =>
    have h3 := ih held h.2 p hp
    simp only [program, List.append_assoc]
    rcases h.1 with rfl | rfl
    · rw [ordered_iter]; exact h3
    · exact h3
  | expire k d cb r ih1 ih2 =>
    obtain ⟨h0, h1, h2⟩ := h
    simp only [program, List.append_assoc]
    rw [ordered_touch _ _ _ _ h0]
    cases d with
    | false => exact ih2 held h2 p hp
    | true => exact ih1 held (h1 rfl) _ (ih2 held h2 p hp)
  | count r ih =>
    have h3 := ih held h.2 p hp
    simp only [program, List.append_assoc]
    rcases h.1 with rfl | rfl
    · rw [ordered_len]; exact h3
    · exact h3

/-- C247, with the guard that the code needs: any number of tasks use the manager at a time, with callbacks that use it
too; if every updater uses sessions of later shards only, then as long as one has not returned some can go on, and no
schedule goes on for ever. Missing: updaters that use the manager otherwise (`C247_alone_iff`, `C247_crossed`). -/
theorem C247_complete_partial (n : Nat) (cs : List Code) (hc : ∀ c ∈ cs, Rising n [] c) (is : List Nat) (s : Sys Nat)
    (hr : run (start (cs.map (program n))) is = some s) :
    (¬ Done s → ∃ i, (step s i).isSome = true) ∧ is.length ≤ total (start (cs.map (program n))) :=
  ordered_complete id _ (by
    intro p hp
    obtain ⟨c, hm, rfl⟩ := List.mem_map.mp hp
    have := rising_ordered n c [] (hc c hm) [] rfl
    simpa using this) is s hr

/-- C247 for callbacks: callbacks of creation, destruction and expiry may use the manager as they like, at any depth, if
only no updater does: every call returns. -/
theorem C247_callbacks_partial (n : Nat) (cs : List Code) (hc : ∀ c ∈ cs, Plain c) (is : List Nat) (s : Sys Nat)
    (hr : run (start (cs.map (program n))) is = some s) :
    (¬ Done s → ∃ i, (step s i).isSome = true) ∧ is.length ≤ total (start (cs.map (program n))) :=
  C247_complete_partial n cs (fun c hm => plain_rising n c (hc c hm)) is s hr

-- The callback of a destruction creates a session, whose callback lists all sessions, while another task updates one.
example : Plain (.destroy 1 true (.create false 0 (.visit .done) .done) .done) ∧ Plain (.update 0 true .done .done) :=
  ⟨⟨⟨trivial, trivial⟩, trivial⟩, rfl, trivial⟩

example : ∃ s, run (start ([.destroy 1 true (.create false 0 (.visit .done) .done) .done,
    .update 0 true .done .done].map (program 2))) [0, 0, 0, 1, 1, 0] = some s ∧ step s 0 = none ∧
    (step s 1).isSome = true := ⟨_, rfl, by decide, by decide⟩

/-! #### One task alone -/

/-- The lock operations can all be done by a task that is alone. (Specification: no counterpart in the code.) -/
def clear : List (Nat × Mode) → List (Instr Nat) → Bool
  | _, [] => true
  | held, .acq l m :: p => held.all (fun h => h.1 != l || !conflict m h.2) && clear ((l, m) :: held) p
  | held, .rel l :: p => clear (held.filter (fun h => h.1 != l)) p

theorem alone_step_acq (l : Nat) (m : Mode) (p : List (Instr Nat)) (held : List (Nat × Mode)) (c k : Nat) :
    step ⟨[⟨held, .acq l m :: p, some k⟩], c⟩ 0 =
      if held.all (fun h => h.1 != l || !conflict m h.2) then some ⟨[⟨(l, m) :: held, p, none⟩], c⟩ else none := by
  have h : permits l m k ⟨held, .acq l m :: p, some k⟩ = held.all (fun h => h.1 != l || !conflict m h.2) := by
    simp only [permits, waitsFor, if_pos, Nat.le_refl, decide_true, Bool.and_true]
  simp only [step, List.getElem?_cons_zero, List.all_cons, List.all_nil, Bool.and_true, h, List.set_cons_zero]

theorem alone_only (t : Verif.Locks.Task Nat) (c i : Nat) (s : Sys Nat) (h : step ⟨[t], c⟩ i = some s) : i = 0 := by
  cases i with
  | zero => rfl
  | succ i => simp [step] at h

theorem alone_iff (p : List (Instr Nat)) (held : List (Nat × Mode)) (c : Nat) :
    (∃ is s, run ⟨[⟨held, p, none⟩], c⟩ is = some s ∧ Done s) ↔ clear held p = true := by
  induction p generalizing held c with
  | nil => exact ⟨fun _ => rfl, fun _ => ⟨[], _, rfl, by simp [Done]⟩⟩
  | cons a p ih =>
    cases a with
    | rel l =>
      have hs : step ⟨[⟨held, .rel l :: p, none⟩], c⟩ 0 = some ⟨[⟨held.filter (fun h => h.1 != l), p, none⟩], c⟩ := rfl
      rw [clear, ← ih _ c]
      constructor
      · rintro ⟨is, s, hr, hd⟩
        cases is with
        | nil =>
          cases hr
          have := hd _ (List.mem_singleton.mpr rfl)
          cases this
        | cons i is =>
          simp only [run] at hr
          split at hr
          · cases hr
          · next s1 h1 =>
            obtain rfl := alone_only _ _ _ _ h1
            rw [hs] at h1; cases h1
            exact ⟨is, s, hr, hd⟩
      · rintro ⟨is, s, hr, hd⟩
        exact ⟨0 :: is, s, by simp only [run, hs]; exact hr, hd⟩
    | acq l m =>
      have hs : step ⟨[⟨held, .acq l m :: p, none⟩], c⟩ 0 = some ⟨[⟨held, .acq l m :: p, some c⟩], c + 1⟩ := rfl
      have hs' := alone_step_acq l m p held (c + 1) c
      rw [clear, Bool.and_eq_true, ← ih _ (c + 1)]
      constructor
      · rintro ⟨is, s, hr, hd⟩
        cases is with
        | nil =>
          cases hr
          have := hd _ (List.mem_singleton.mpr rfl)
          cases this
        | cons i is =>
          simp only [run] at hr
          split at hr
          · cases hr
          · next s1 h1 =>
            obtain rfl := alone_only _ _ _ _ h1
            rw [hs] at h1; cases h1
            cases is with
            | nil =>
              cases hr
              have := hd _ (List.mem_singleton.mpr rfl)
              cases this
            | cons i is =>
              simp only [run] at hr
              split at hr
              · cases hr
              · next s1 h1 =>
                obtain rfl := alone_only _ _ _ _ h1
                rw [hs'] at h1
                split at h1
                · next hc => cases h1; exact ⟨hc, is, s, hr, hd⟩
                · cases h1
      · rintro ⟨hc, is, s, hr, hd⟩
        rw [if_pos hc] at hs'
        exact ⟨0 :: 0 :: is, s, by simp only [run, hs, hs']; exact hr, hd⟩

/-- Locks held for writing. (Specification: no counterpart in the code.) -/
def writes (held : List Nat) : List (Nat × Mode) := held.map (fun k => (k, .write))

theorem writes_free (held : List Nat) (k : Nat) (m : Mode) :
    (writes held).all (fun h => h.1 != k || !conflict m h.2) = true ↔ k ∉ held := by
  simp only [writes, List.all_eq_true, List.mem_map, forall_exists_index, and_imp, forall_apply_eq_imp_iff₂]
  constructor
  · intro h hm
    have := h k hm
    cases m <;> simp [conflict] at this
  · intro h x hx
    have : x ≠ k := fun e => h (e ▸ hx)
    simp [this]

theorem writes_drop (held : List Nat) (k : Nat) (h : k ∉ held) (m : Mode) :
    ((k, m) :: writes held).filter (fun h => h.1 != k) = writes held := by
  rw [List.filter_cons_of_neg (by simp), List.filter_eq_self]
  intro x hx
  simp only [writes, List.mem_map] at hx
  obtain ⟨y, hy, rfl⟩ := hx
  have : y ≠ k := fun e => h (e ▸ hy)
  simp [this]

theorem clear_touch (held : List Nat) (k : Nat) (m : Mode) (p : List (Instr Nat)) :
    clear (writes held) (touch k m ++ p) = true ↔ k ∉ held ∧ clear (writes held) p = true := by
  simp only [touch, List.cons_append, List.nil_append, clear, Bool.and_eq_true, writes_free]
  constructor
  · rintro ⟨h1, h2⟩; rw [writes_drop _ _ h1] at h2; exact ⟨h1, h2⟩
  · rintro ⟨h1, h2⟩; rw [writes_drop _ _ h1]; exact ⟨h1, h2⟩

theorem clear_len (held : List Nat) (m left : Nat) (p : List (Instr Nat)) :
    clear (writes held) (len m left ++ p) = true ↔
      (∀ h ∈ held, h < m ∨ m + left ≤ h) ∧ clear (writes held) p = true := by
  induction left generalizing m with
  | zero =>
    simp only [len, List.nil_append, Nat.add_zero]
    exact ⟨fun h => ⟨fun x _ => by omega, h⟩, fun h => h.2⟩
  | succ left ih =>
    rw [len, List.append_assoc, clear_touch, ih]
    constructor
    · rintro ⟨h1, h2, h3⟩
      refine ⟨fun x hx => ?_, h3⟩
      have := h2 x hx
      have : x ≠ m := fun e => h1 (e ▸ hx)
      omega
    · rintro ⟨h1, h2⟩
      refine ⟨fun hm => ?_, fun x hx => ?_, h2⟩
      · have := h1 m hm; omega
      · have := h1 x hx; omega

theorem clear_walk (held : List Nat) (m left : Nat) (hm : m ∉ held) (p : List (Instr Nat)) :
    clear ((m, .read) :: writes held) (walk m left ++ p) = true ↔
      (∀ h ∈ held, h ≤ m ∨ m + left < h) ∧ clear (writes held) p = true := by
  induction left generalizing m with
  | zero =>
    simp only [walk, List.cons_append, List.nil_append, clear, writes_drop _ _ hm, Nat.add_zero]
    exact ⟨fun h => ⟨fun x _ => by omega, h⟩, fun h => h.2⟩
  | succ left ih =>
    have hd : ((m + 1, Mode.read) :: (m, Mode.read) :: writes held).filter (fun h => h.1 != m) =
        (m + 1, .read) :: writes held := by
      rw [List.filter_cons_of_pos (by simp), writes_drop _ _ hm]
    simp only [walk, List.cons_append, clear, Bool.and_eq_true, List.all_cons, writes_free, hd]
    constructor
    · rintro ⟨⟨_, h1⟩, h2⟩
      obtain ⟨h3, h4⟩ := (ih (m + 1) h1).mp h2
      refine ⟨fun x hx => ?_, h4⟩
      have := h3 x hx
      have : x ≠ m + 1 := fun e => h1 (e ▸ hx)
      omega
    · rintro ⟨h1, h2⟩
      have h3 : m + 1 ∉ held := fun hx => by have := h1 _ hx; omega
      refine ⟨⟨by simp, h3⟩, (ih (m + 1) h3).mpr ⟨fun x hx => ?_, h2⟩⟩
      have := h1 x hx
      omega

theorem clear_iter (held : List Nat) (n : Nat) (p : List (Instr Nat)) :
    clear (writes held) (iter n ++ p) = true ↔ (∀ h ∈ held, n ≤ h) ∧ clear (writes held) p = true := by
  cases n with
  | zero => simp [iter]
  | succ n =>
    simp only [iter, List.cons_append, clear, Bool.and_eq_true, writes_free]
    constructor
    · rintro ⟨h1, h2⟩
      obtain ⟨h3, h4⟩ := (clear_walk held 0 n h1 p).mp h2
      refine ⟨fun x hx => ?_, h4⟩
      have := h3 x hx
      have : x ≠ 0 := fun e => h1 (e ▸ hx)
      omega
    · rintro ⟨h1, h2⟩
      have h3 : 0 ∉ held := fun hx => by have := h1 _ hx; omega
      refine ⟨h3, (clear_walk held 0 n h3 p).mpr ⟨fun x hx => ?_, h2⟩⟩
      have := h1 x hx
      omega

theorem clear_lookup (held : List Nat) (k : Nat) (f : Bool) (p : List (Instr Nat)) :
    clear (writes held) (lookup k f ++ p) = true ↔ k ∉ held ∧ clear (writes held) p = true := by
  cases f with
  | false => simp only [lookup, Bool.false_eq_true, if_false, List.append_nil, clear_touch]
  | true =>
    simp only [lookup, if_true, List.append_assoc, clear_touch]
    exact ⟨fun h => h.2, fun h => ⟨h.1, h⟩⟩

theorem clear_iff (n : Nat) (c : Code) (held : List Nat) (p : List (Instr Nat)) :
    clear (writes held) (program n c ++ p) = true ↔ Apart n held c ∧ clear (writes held) p = true := by
  induction c generalizing held p with
  | done => simp [program, Apart]
  | create f k cb r ih1 ih2 =>
    simp only [program, Apart, List.append_assoc, clear_len, Nat.not_lt_zero, false_or, Nat.zero_add]
    cases f with
    | true => simp [ih2, and_assoc]
    | false => simp [ih1, ih2, clear_touch, and_assoc]
  | get k f r ih => simp only [program, Apart, List.append_assoc, clear_lookup, ih, and_assoc]
  | validate k f e d cb r ih1 ih2 =>
    simp only [program, Apart, List.append_assoc, clear_lookup]
    cases f <;> cases e <;> cases d <;> simp [ih1, ih2, clear_touch, and_assoc]
  | update k f b r ih1 ih2 =>
    have hr : k ∉ held → ∀ q, (clear ((k, .write) :: writes held) (.rel k :: q) = true ↔
        clear (writes held) q = true) := by
      intro hk q
      simp only [clear, writes_drop _ _ hk]
    simp only [program, Apart, List.append_assoc, List.cons_append, List.nil_append, clear, Bool.and_eq_true,
      writes_free]
    constructor
    · rintro ⟨h1, h2⟩
      cases f with
      | false =>
        rw [if_neg (by simp), List.nil_append, hr h1] at h2
        exact ⟨⟨h1, fun h => (by cases h), ((ih2 _ _).mp h2).1⟩, ((ih2 _ _).mp h2).2⟩
      | true =>
        rw [if_pos rfl] at h2
        obtain ⟨h3, h4⟩ := (ih1 (k :: held) _).mp h2
        have h4 := (hr h1 _).mp h4
        exact ⟨⟨h1, fun _ => h3, ((ih2 _ _).mp h4).1⟩, ((ih2 _ _).mp h4).2⟩
    · rintro ⟨⟨h1, h2, h3⟩, h4⟩
      have h5 := (ih2 _ _).mpr ⟨h3, h4⟩
      refine ⟨h1, ?_⟩
      cases f with
      | false => rw [if_neg (by simp), List.nil_append, hr h1]; exact h5
      | true => rw [if_pos rfl]; exact (ih1 (k :: held) _).mpr ⟨h2 rfl, (hr h1 _).mpr h5⟩
  | destroy k d cb r ih1 ih2 =>
    simp only [program, Apart, List.append_assoc, clear_touch]
    cases d <;> simp [ih1, ih2, and_assoc]
  | visit r ih => simp only [program, Apart, List.append_assoc, clear_iter, ih, and_assoc]
  | expire k d cb r ih1 ih2 =>
    simp only [program, Apart, List.append_assoc, clear_touch]
    cases d <;> simp [ih1, ih2, and_assoc]
  | count r ih =>
    simp only [program, Apart, List.append_assoc, clear_len, Nat.not_lt_zero, false_or, Nat.zero_add, ih, and_assoc]

/-- C247, exactly, for a task that is alone: its calls return if and only if no updater uses a session of a shard
that an updater around it has locked, nor all sessions or their number. -/
theorem C247_alone_iff (n : Nat) (c : Code) :
    (∃ is s, run (start [program n c]) is = some s ∧ Done s) ↔ Apart n [] c := by
  have h := clear_iff n c [] []
  rw [List.append_nil] at h
  have h2 : clear (writes []) ([] : List (Instr Nat)) = true := rfl
  rw [show (Apart n [] c ↔ Apart n [] c ∧ clear (writes []) [] = true) from by simp [h2], ← h]
  exact alone_iff (program n c) [] 0

/-- C247 is refuted: an updater that looks at its own session, or that counts, lists, creates or cleans up sessions,
never returns, even if nobody else uses the manager. -/
theorem C247_updater_stuck (n k : Nat) (hk : k < n) (found : Bool) (rest rest' : Code) :
    ¬ (∃ is s, run (start [program n (.update k true (.get k found rest) rest')]) is = some s ∧ Done s) ∧
    ¬ (∃ is s, run (start [program n (.update k true (.count rest) rest')]) is = some s ∧ Done s) ∧
    ¬ (∃ is s, run (start [program n (.update k true (.visit rest) rest')]) is = some s ∧ Done s) ∧
    (∀ full k' cb, ¬ (∃ is s, run (start [program n (.update k true (.create full k' cb rest) rest')]) is = some s ∧
      Done s)) := by
  refine ⟨?_, ?_, ?_, fun full k' cb => ?_⟩ <;> rw [C247_alone_iff]
  · rintro ⟨_, h, _⟩
    exact (h rfl).1 (by simp)
  · rintro ⟨_, h, _⟩
    have := (h rfl).1 k (by simp)
    omega
  · rintro ⟨_, h, _⟩
    have := (h rfl).1 k (by simp)
    omega
  · rintro ⟨_, h, _⟩
    have := (h rfl).1 k (by simp)
    omega

-- An updater may use a session of another shard if nobody else is there.
example : Apart 4 [] (.update 2 true (.get 1 true (.update 3 true .done .done)) (.count .done)) := by
  simp [Apart]

/-- C247 is refuted for two tasks whose updaters, each harmless alone, look at each other's session: neither returns. -/
theorem C247_crossed :
    Apart 2 [] (.update 0 true (.get 1 true .done) .done) ∧ Apart 2 [] (.update 1 true (.get 0 true .done) .done) ∧
    ∃ is s, run (start [program 2 (.update 0 true (.get 1 true .done) .done),
      program 2 (.update 1 true (.get 0 true .done) .done)]) is = some s ∧ Deadlock s := by
  refine ⟨by simp [Apart], by simp [Apart], [0, 0, 1, 1, 0, 1], _, rfl, deadlock_of _ (by decide) ?_⟩
  intro i hi
  match i, hi with
  | 0, _ => decide
  | 1, _ => decide

/-! #### Others -/

/-- A task waits for a lock that it holds itself. (Specification: no counterpart in the code.) -/
def SelfWait (t : Verif.Locks.Task Nat) (k : Nat) : Prop :=
  (k, .write) ∈ t.held ∧ t.ticket.isSome = true ∧ ∃ m p, t.prog = .acq k m :: p

theorem selfWait_step (s s' : Sys Nat) (i j : Nat) (t : Verif.Locks.Task Nat) (k : Nat) (ht : s.tasks[i]? = some t)
    (hw : SelfWait t k) (hs : step s j = some s') : s'.tasks[i]? = some t ∧ ∀ u, s.tasks[j]? = some u →
      (∃ m p, u.prog = .acq k m :: p) → u.ticket.isSome = true → False := by
  obtain ⟨hh, htk, m0, p0, hp0⟩ := hw
  have hblock : ∀ m c, s.tasks.all (permits k m c) = false := by
    intro m c
    cases hb : s.tasks.all (permits k m c) with
    | false => rfl
    | true =>
      rw [List.all_eq_true] at hb
      have := hb t (List.mem_of_getElem? ht)
      simp only [permits, Bool.and_eq_true, List.all_eq_true] at this
      have := this.1 _ hh
      cases m <;> simp [conflict] at this
  have hno : ∀ v, s.tasks[j]? = some v → (∃ m p, v.prog = .acq k m :: p) → v.ticket.isSome = true → False := by
    rintro v hv ⟨m, p, hp⟩ htv
    obtain ⟨c, hc⟩ := Option.isSome_iff_exists.mp htv
    unfold step at hs
    rw [hv] at hs
    simp only [hp, hc, hblock, Bool.false_eq_true, if_false] at hs
    cases hs
  refine ⟨?_, ?_⟩
  · have hij : j ≠ i := by
      rintro rfl
      exact hno t ht ⟨m0, p0, hp0⟩ htk
    unfold step at hs
    split at hs
    · cases hs
    · split at hs
      · cases hs
      · cases hs
        simp only [List.getElem?_set_ne hij, ht]
      · split at hs
        · cases hs
          simp only [List.getElem?_set_ne hij, ht]
        · split at hs
          · cases hs
            simp only [List.getElem?_set_ne hij, ht]
          · cases hs
  · exact hno

/-- C247: once an updater waits for its own shard it waits for ever, whatever the others do, and so does every other
task that waits for a session of that shard. -/
theorem C247_for_ever (s : Sys Nat) (i : Nat) (t : Verif.Locks.Task Nat) (k : Nat) (ht : s.tasks[i]? = some t)
    (hw : SelfWait t k) (is : List Nat) (s' : Sys Nat) (hr : run s is = some s') :
    s'.tasks[i]? = some t ∧
    ∀ (j : Nat) u, s.tasks[j]? = some u → (∃ m p, u.prog = .acq k m :: p) → u.ticket.isSome = true →
      s'.tasks[j]? = some u := by
  induction is generalizing s with
  | nil => cases hr; exact ⟨ht, fun _ _ hu _ _ => hu⟩
  | cons a is ih =>
    simp only [run] at hr
    split at hr
    · cases hr
    · next s1 h1 =>
      obtain ⟨h2, h3⟩ := selfWait_step s s1 i a t k ht hw h1
      obtain ⟨h4, h5⟩ := ih s1 h2 hr
      refine ⟨h4, fun j u hu hp htk => h5 j u ?_ hp htk⟩
      have haj : a ≠ j := by
        rintro rfl
        exact h3 u hu hp htk
      unfold step at h1
      split at h1
      · cases h1
      · split at h1
        · cases h1
        · cases h1
          simp only [List.getElem?_set_ne haj, hu]
        · split at h1
          · cases h1
            simp only [List.getElem?_set_ne haj, hu]
          · split at h1
            · cases h1
              simp only [List.getElem?_set_ne haj, hu]
            · cases h1

-- An updater looks at its own session; a lookup of another session of the shard arrives after.
example : ∃ s t, run (start [program 1 (.update 0 true (.get 0 true .done) .done), program 1 (.get 0 true .done)])
    [0, 0, 0, 1] = some s ∧ s.tasks[0]? = some t ∧ SelfWait t 0 :=
  ⟨_, _, rfl, rfl, by simp, rfl, _, _, rfl⟩

end Verif.Session.Locks
