import Verif.Client.Props

/-
Clones of a client (C201) and the options of a client (C202).

Models /repo/src/client/mod.rs L194-211, L1390-1453.
-/

namespace Verif.Client

open Verif Verif.Wire Verif.Server

/-- A client and its clones, which share the transport: what each of them knows, and what was written.
`Clone` copies what is known (/repo/src/client/mod.rs L1438-1453). -/
structure Group where
  handles : List Cl
  written : List TMsg

/-- What a program does with a client and its clones: clone one of them, or call a method of one of them.
/repo/src/client/mod.rs L244-1266, L1438-1453. -/
inductive GOp where
  | clone (i : Nat)
  | call (i : Nat) (env : Env) (c : Call)

/-- One step (on a clone that does not exist: nothing). /repo/src/client/mod.rs L244-1266, L1438-1453. -/
def gstep (g : Group) : GOp → Group
  | .clone i => match g.handles[i]? with
    | some c => { g with handles := g.handles ++ [c] }
    | none => g
  | .call i env k => match g.handles[i]? with
    | some c => ⟨g.handles.set i (call c env k).2.2, g.written ++ (call c env k).1⟩
    | none => g

/-- A history of a client and its clones. /repo/src/client/mod.rs L244-1266, L1438-1453. -/
def grun (info : Impl) (ops : List GOp) : Group := ops.foldl gstep ⟨[Cl.new info], []⟩

/-- `ProtocolOptions` as far as the builder of the client sets them, /repo/src/shared/protocol.rs L15-22. -/
structure Options where
  strict : Bool := false
  debounced : List String := []

/-- The methods of `ClientBuilder`, /repo/src/client/mod.rs L1413-1423. -/
inductive BuildStep where
  | strict (enforce : Bool)
  | debounced (methods : List String)

/-- What a method of the builder does to the options, /repo/src/client/mod.rs L1413-1423. -/
def buildStep (o : Options) : BuildStep → Options
  | .strict b => { o with strict := b }
  | .debounced ms => { o with debounced := ms }

/-- `ClientBuilder::new(..)` followed by the methods and `build`: the options, kept in the client's `protocol`, and the
client. `version` is that of the crate. /repo/src/client/mod.rs L194-211, L1404-1435. -/
def build (version : String) (steps : List BuildStep) : Options × Cl :=
  (steps.foldl buildStep {}, Cl.new ⟨"pmcp-client", version⟩)

/-! ### C201 -/

/-- What happened to each clone: the calls made on it, after those made on the one it was cloned from before that.
(Specification: no counterpart in the code.) -/
def lineages (ops : List GOp) : List (List (Env × Call)) :=
  ops.foldl (fun l op => match op with
    | .clone i => match l[i]? with
      | some h => l ++ [h]
      | none => l
    | .call i e k => match l[i]? with
      | some h => l.set i (h ++ [(e, k)])
      | none => l) [[]]

theorem calls_append (c : Cl) (a b : List (Env × Call)) : calls c (a ++ b) = calls (calls c a) b := by
  induction a generalizing c with
  | nil => rfl
  | cons x a ih => exact ih _

/-- C201, exactly: from the moment it is made a clone is a client of its own: it knows what follows from the calls made
on itself, after those made on the original before it was cloned.  The property asked for, that clones know the same,
fails if the connection is made after cloning. -/
theorem C201_exact_partial (info : Impl) (ops : List GOp) :
    (grun info ops).handles = (lineages ops).map (calls (Cl.new info)) := by
  induction ops using snocInduction with
  | nil => rfl
  | append_singleton ops op ih =>
    have e1 : grun info (ops ++ [op]) = gstep (grun info ops) op := by simp [grun, List.foldl_append]
    rw [e1]
    cases op with
    | clone i =>
      have e2 : lineages (ops ++ [.clone i]) = match (lineages ops)[i]? with
          | some h => lineages ops ++ [h]
          | none => lineages ops := by simp [lineages, List.foldl_append]
      rw [e2]
      simp only [gstep, ih, List.getElem?_map]
      cases (lineages ops)[i]? <;> simp [ih]
    | call i e k =>
      have e2 : lineages (ops ++ [.call i e k]) = match (lineages ops)[i]? with
          | some h => (lineages ops).set i (h ++ [(e, k)])
          | none => lineages ops := by simp [lineages, List.foldl_append]
      rw [e2]
      simp only [gstep, ih, List.getElem?_map]
      cases (lineages ops)[i]? with
      | none => simp [ih]
      | some h => simp [calls_append, calls, List.map_set]

example (info : Impl) (k : Call) (e : Env) :
    lineages [.call 0 e k, .clone 0, .call 1 e k, .clone 7] = [[(e, k)], [(e, k), (e, k)]] ∧
    (grun info [.call 0 e k, .clone 0, .call 1 e k, .clone 7]).handles.length = 2 := ⟨rfl, rfl⟩

/-- Once it is initialized a client does not change. -/
theorem call_initialized (c : Cl) (h : c.initialized = true) (e : Env) (k : Call) : (call c e k).2.2 = c := by
  cases k with
  | connect caps => simp [call, h]
  | request r =>
    simp only [call]
    repeat' split
    all_goals rfl
  | rootsChanged =>
    simp only [call]
    repeat' split
    all_goals rfl
  | cancel id => rfl
  | progress p => rfl

/-- C201: if the client is initialized before it is first cloned, all clones know the same, whatever is called on them
later: that they are initialized, and the server's capabilities, name and instructions. -/
theorem C201_agree_partial (info : Impl) (pre : List (Env × Call)) (h : (calls (Cl.new info) pre).initialized = true)
    (ops : List GOp) :
    ∀ c ∈ (grun info (pre.map (fun p => .call 0 p.1 p.2) ++ ops)).handles, c = calls (Cl.new info) pre := by
  have e0 : ∀ (pre : List (Env × Call)) (c : Cl) (w : List TMsg), ∃ w',
      (pre.map (fun p => GOp.call 0 p.1 p.2)).foldl gstep ⟨[c], w⟩ = ⟨[calls c pre], w'⟩ := by
    intro pre
    induction pre with
    | nil => exact fun c w => ⟨w, rfl⟩
    | cons p pre ih => exact fun c w => ih _ _
  have e1 : ∀ (ops : List GOp) (g : Group), (∀ c ∈ g.handles, c = calls (Cl.new info) pre) →
      ∀ c ∈ (ops.foldl gstep g).handles, c = calls (Cl.new info) pre := by
    intro ops
    induction ops with
    | nil => exact fun g hg => hg
    | cons op ops ih =>
      intro g hg
      refine ih _ ?_
      cases op with
      | clone i =>
        simp only [gstep]
        cases hi : g.handles[i]? with
        | none => exact hg
        | some c =>
          intro d hd
          simp only [List.mem_append, List.mem_singleton] at hd
          rcases hd with hd | rfl
          · exact hg d hd
          · exact hg d (List.mem_of_getElem? hi)
      | call i e k =>
        simp only [gstep]
        cases hi : g.handles[i]? with
        | none => exact hg
        | some c =>
          have hc := hg c (List.mem_of_getElem? hi)
          intro d hd
          rcases List.mem_or_eq_of_mem_set hd with hd | rfl
          · exact hg d hd
          · rw [call_initialized c (by rw [hc]; exact h)]; exact hc
  obtain ⟨w, hw⟩ := e0 pre (Cl.new info) []
  rw [grun, List.foldl_append, hw]
  exact e1 ops _ (by simp)

example (info : Impl) (ops : List GOp) :
    ∀ c ∈ (grun info ([(initEnv true, .connect {})].map (fun p => .call 0 p.1 p.2) ++ ops)).handles,
      c = calls (Cl.new info) [(initEnv true, .connect {})] :=
  C201_agree_partial info [(initEnv true, .connect {})] rfl ops

/-- C201 fails: of a client cloned before it connects, the clone does not know that there is a connection: its methods
fail without anything being sent, and its `initialize` sends a second initialize request over the same connection. -/
theorem C201_cloned_before (info : Impl) (caps : ClientCaps) (e : Env) (v : Json)
    (hok : (call (Cl.new info) e (.connect caps)).2.1 = .value v) (e' : Env) (r : ClientRequest) :
    ∃ a b, (grun info [.clone 0, .call 0 e (.connect caps)]).handles = [a, b] ∧ a.initialized = true ∧
      (call b e' (.request r)).1 = [] ∧ (∃ f, (call b e' (.request r)).2.1 = .fail f) ∧
      (e'.sendOk = true → TMsg.request e'.id (.client (.init ⟨latest, caps, info⟩)) ∈ (call b e' (.connect caps)).1) := by
  refine ⟨_, _, rfl, ?_, ?_, ?_, ?_⟩
  · simp only [call, Cl.new, Bool.false_eq_true, if_false] at hok ⊢
    cases hs : (sendRequest e (.init { protocolVersion := latest, capabilities := caps, clientInfo := info })).2 with
    | error f => rw [hs] at hok; cases hok
    | ok resp =>
      rw [hs] at hok
      simp only [connected] at hok ⊢
      cases hp : resp.payload with
      | error x => rw [hp] at hok; cases hok
      | result j =>
        rw [hp] at hok
        simp only at hok ⊢
        cases hd : InitResult.dec j with
        | none => rw [hd] at hok; cases hok
        | some ir =>
          rw [hd] at hok
          simp only at hok ⊢
          split at hok
          · rename_i hv; rw [if_pos hv]
          · cases hok
  · simp only [call, Cl.new]
    cases gate r <;> rfl
  · simp only [call, Cl.new]
    cases gate r <;> exact ⟨_, rfl⟩
  · intro hs
    simp only [call, Cl.new, sendRequest, hs, if_true, Bool.false_eq_true, if_false]
    split <;> simp

example (info : Impl) (r : ClientRequest) := C201_cloned_before info {} (initEnv true) _ rfl (initEnv true) r

/-! ### C202 -/

/-- The options as the program asked for them: the last setting of each. (Specification: no counterpart in the code.) -/
def asked (steps : List BuildStep) : Options :=
  ⟨((steps.filterMap (fun | .strict b => some b | _ => none)).getLast?).getD false,
    ((steps.filterMap (fun | .debounced m => some m | _ => none)).getLast?).getD []⟩

/-- C202: the builder keeps the options asked for. -/
theorem C202_kept (version : String) (steps : List BuildStep) : (build version steps).1 = asked steps := by
  induction steps using snocInduction with
  | nil => rfl
  | append_singleton steps s ih =>
    simp only [build, List.foldl_append, List.foldl_cons, List.foldl_nil] at ih ⊢
    rw [ih]
    cases s <;> simp [buildStep, asked]

example (v : String) : (build v [.strict true, .debounced ["a"], .strict false]).1 = ⟨false, ["a"]⟩ := rfl

/-- C202 fails: whatever the options, the client writes and returns the same: a request that the server did not announce
to understand is not sent, also if this was not asked for. -/
theorem C202_always_strict (version : String) (steps : List BuildStep) (h : List (Env × Call)) (e : Env)
    (r : ClientRequest) (hc : ∀ g sc, gate r = some g → (calls (build version steps).2 h).serverCaps = some sc → g sc = false) :
    (call (calls (build version steps).2 h) e (.request r)).1 = [] := by
  simp only [call]
  split
  · rfl
  · rename_i g hg
    split
    · split
      · rename_i sc hs
        rw [hc g sc hg hs]
        rfl
      · rfl
    · rfl

example (v : String) (p : ListParams) : (call (calls (build v [.strict false]).2 [(initEnv true, .connect {})]) (initEnv true)
    (.request (.listPrompts p))).1 = [] := rfl

/-- C202 fails: no notification is debounced, also if it was asked for: `n` reports of progress are `n` messages. -/
theorem C202_not_debounced (version : String) (steps : List BuildStep) (ps : List (Env × Progress))
    (hs : ∀ p ∈ ps, p.1.sendOk = true) :
    ((ps.map (fun p => GOp.call 0 p.1 (.progress p.2))).foldl gstep ⟨[(build version steps).2], []⟩).written =
      ps.map (fun p => TMsg.notification (.progress p.2)) := by
  have key : ∀ (ps : List (Env × Progress)), (∀ p ∈ ps, p.1.sendOk = true) → ∀ (c : Cl) (w : List TMsg),
      ((ps.map (fun p => GOp.call 0 p.1 (.progress p.2))).foldl gstep ⟨[c], w⟩).written =
        w ++ ps.map (fun p => TMsg.notification (.progress p.2)) := by
    intro ps
    induction ps with
    | nil => intro _ c w; simp
    | cons p ps ih =>
      intro hs c w
      simp only [List.map_cons, List.foldl_cons]
      have := ih (fun q hq => hs q (List.mem_cons_of_mem _ hq)) c (w ++ [TMsg.notification (.progress p.2)])
      have hp := hs p (List.mem_cons_self ..)
      simp only [gstep, List.getElem?_cons_zero, call, hp, if_true, List.set_cons_zero]
      rw [this]
      simp
  simpa using key ps hs (build version steps).2 []

example (v : String) (p : Progress) := C202_not_debounced v [.debounced ["notifications/progress"]]
  [(initEnv true, p), (initEnv true, p)] (by simp [initEnv])

/-- C202: a client that was built introduces itself as `pmcp-client` with the version of the crate, whatever the
options. -/
theorem C202_introduces (version : String) (steps : List BuildStep) (e : Env) (caps : ClientCaps) (hs : e.sendOk = true) :
    (call (build version steps).2 e (.connect caps)).1.head? =
      some (.request e.id (.client (.init { protocolVersion := "2025-06-18", capabilities := caps,
                                            clientInfo := ⟨"pmcp-client", version⟩ }))) := by
  simp only [call, build, Cl.new, sendRequest, hs, Bool.false_eq_true, if_false, if_true]
  split <;> rfl

example (v : String) (caps : ClientCaps) := C202_introduces v [.strict true] (initEnv true) caps rfl

end Verif.Client
