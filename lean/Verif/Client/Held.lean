import Verif.Client.Props

/-
Calls of a client that share the transport, with the lock of the transport: C210, and C65 in the order of arrival.

Models /repo/src/client/mod.rs L1212-1227, L1264-1267, L1315-1354: `self.transport.write().await.receive().await` keeps the
lock of the transport until a message has come. The lock is tokio's `RwLock`, granted in the order of arrival; a call that
has sent asks for the lock again at once (there is no suspension point in between), which on several threads assumes that
it is not overtaken there. Theorems on what is not written need no such assumption. Each step adds the lock to a step of
the model without it (`cstep`), so that what is proved of that (C65, C115) holds of this one (`C210_refines`).
-/

namespace Verif.Client

open Verif Verif.Wire Verif.Server

variable {M N : Type}

/-- Who waits for the lock of the transport, and for what, /repo/src/client/mod.rs L1334, L1338, L1353. -/
inductive Job (N : Type) where
  | send (n : Nat)
  | recv (n : Nat)
  | note (x : N)
  deriving DecidableEq

/-- What is written to the transport, /repo/src/client/mod.rs L1329-1334, L1352-1353. -/
inductive Out (N : Type) where
  | request (id : Id)
  | note (x : N)
  deriving DecidableEq

/-- The calls, those waiting for the lock in the order of arrival, the call that receives and so holds the lock, and
everything written. /repo/src/client/mod.rs L85-98, L1315-1354. -/
structure Held (M N : Type) where
  conn : Conn M := Conn.new
  queue : List (Job N) := []
  holder : Option Nat := none
  out : List (Out N) := []

/-- What happens: a request or a notification is begun (the latter by `cancel_request`, `send_progress` or others), the
lock is granted to the first who waits (and sending works or not), the holder gets a message or an error, a caller gives
up, a message arrives. /repo/src/client/mod.rs L1212-1227, L1264-1267, L1315-1354. -/
inductive HOp (M N : Type) where
  | start (id : Id)
  | notify (x : N)
  | grant (ok : Bool)
  | receive
  | receiveFail
  | drop (n : Nat)
  | arrive (m : M)

/-- The job is one of call `n`. (/repo/src/client/mod.rs L1334, L1338.) -/
def Job.ofCall (n : Nat) : Job N → Bool
  | .send k => k == n
  | .recv k => k == n
  | .note _ => false

/-- One step. /repo/src/client/mod.rs L1212-1227, L1264-1267, L1315-1354. -/
def hstep (s : Held M N) : HOp M N → Option (Held M N)
  | .start id => (cstep s.conn (.start id)).map
    (fun c => { s with conn := c, queue := s.queue ++ [.send s.conn.callers.length] })
  | .notify x => some { s with queue := s.queue ++ [.note x] }
  | .grant ok => match s.holder, s.queue with
    | none, .send n :: q =>
      if ok then (cstep s.conn (.send n)).map (fun c =>
        { s with conn := c, queue := q ++ [.recv n], out := s.out ++ (c.written.drop s.conn.written.length).map .request })
      else (cstep s.conn (.sendFail n)).map (fun c => { s with conn := c, queue := q })
    | none, .recv n :: q => some { s with queue := q, holder := some n }
    | none, .note x :: q => some { s with queue := q, out := if ok then s.out ++ [.note x] else s.out }
    | _, _ => none
  | .receive => match s.holder with
    | some n => (cstep s.conn (.receive n)).map (fun c => { s with conn := c, holder := none })
    | none => none
  | .receiveFail => match s.holder with
    | some n => (cstep s.conn (.receiveFail n)).map (fun c => { s with conn := c, holder := none })
    | none => none
  | .drop n => (cstep s.conn (.drop n)).map (fun c =>
    { s with conn := c, queue := s.queue.filter (fun j => !j.ofCall n)
             holder := if s.holder = some n then none else s.holder })
  | .arrive m => (cstep s.conn (.arrive m)).map (fun c => { s with conn := c })

/-- Any interleaving. /repo/src/client/mod.rs L1212-1227, L1264-1267, L1315-1354. -/
def hrun : Held M N → List (HOp M N) → Option (Held M N)
  | s, [] => some s
  | s, op :: l => match hstep s op with
    | none => none
    | some s' => hrun s' l

theorem hrun_append (s : Held M N) (a b : List (HOp M N)) :
    hrun s (a ++ b) = (hrun s a).bind (fun s' => hrun s' b) := by
  induction a generalizing s with
  | nil => rfl
  | cons op l ih =>
    simp only [List.cons_append, hrun]
    cases hstep s op <;> simp [ih]

/-- The step without the lock. (Specification: no counterpart in the code.) -/
def coarse (s : Held M N) : HOp M N → List (COp M)
  | .start id => [.start id]
  | .notify _ => []
  | .grant ok => match s.holder, s.queue with
    | none, .send n :: _ => [if ok then .send n else .sendFail n]
    | _, _ => []
  | .receive => s.holder.toList.map .receive
  | .receiveFail => s.holder.toList.map .receiveFail
  | .drop n => [.drop n]
  | .arrive m => [.arrive m]

theorem crun_one (s : Conn M) (op : COp M) : crun s [op] = cstep s op := by
  simp only [crun]; cases cstep s op <;> rfl

theorem coarse_step (s t : Held M N) (op : HOp M N) (h : hstep s op = some t) :
    crun s.conn (coarse s op) = some t.conn := by
  cases op with
  | start id =>
    simp only [hstep, Option.map_eq_some_iff] at h
    obtain ⟨c, hc, rfl⟩ := h
    simp [coarse, crun_one, hc]
  | notify x => simp only [hstep, Option.some.injEq] at h; subst h; rfl
  | grant ok =>
    simp only [hstep] at h
    split at h
    · next n q h1 h2 =>
      split at h
      · next hok =>
        simp only [Option.map_eq_some_iff] at h
        obtain ⟨c, hc, rfl⟩ := h
        simp [coarse, h1, h2, hok, crun_one, hc]
      · next hok =>
        simp only [Option.map_eq_some_iff] at h
        obtain ⟨c, hc, rfl⟩ := h
        simp [coarse, h1, h2, hok, crun_one, hc]
    · next n q h1 h2 => simp only [Option.some.injEq] at h; subst h; simp [coarse, h1, h2, crun]
    · next x q h1 h2 => simp only [Option.some.injEq] at h; subst h; simp [coarse, h1, h2, crun]
    · cases h
  | receive =>
    simp only [hstep] at h
    split at h
    · next n hn =>
      simp only [Option.map_eq_some_iff] at h
      obtain ⟨c, hc, rfl⟩ := h
      simp [coarse, hn, crun_one, hc]
    · cases h
  | receiveFail =>
    simp only [hstep] at h
    split at h
    · next n hn =>
      simp only [Option.map_eq_some_iff] at h
      obtain ⟨c, hc, rfl⟩ := h
      simp [coarse, hn, crun_one, hc]
    · cases h
  | drop n =>
    simp only [hstep, Option.map_eq_some_iff] at h
    obtain ⟨c, hc, rfl⟩ := h
    simp [coarse, crun_one, hc]
  | arrive m =>
    simp only [hstep, Option.map_eq_some_iff] at h
    obtain ⟨c, hc, rfl⟩ := h
    simp [coarse, crun_one, hc]

/-- The messages that arrived, in order. (Specification: no counterpart in the code.) -/
def harrived : List (HOp M N) → List M
  | [] => []
  | .arrive m :: l => m :: harrived l
  | _ :: l => harrived l

/-- The ids of the requests among what was written. (Specification: no counterpart in the code.) -/
def requestIds : List (Out N) → List Id
  | [] => []
  | .request id :: l => id :: requestIds l
  | .note _ :: l => requestIds l

theorem arrived_coarse (s : Held M N) (op : HOp M N) : arrived (coarse s op) = harrived [op] := by
  cases op with
  | grant ok =>
    simp only [coarse, harrived]
    split
    · cases ok <;> rfl
    · rfl
  | receive => simp only [coarse, harrived]; cases s.holder <;> rfl
  | receiveFail => simp only [coarse, harrived]; cases s.holder <;> rfl
  | _ => rfl

theorem harrived_append (a b : List (HOp M N)) : harrived (a ++ b) = harrived a ++ harrived b := by
  induction a with
  | nil => rfl
  | cons x l ih => cases x <;> simp [harrived, ih]

/-- C210: what happens with the lock can happen without it, with the same messages arriving, so that what is proved for
all interleavings without it (C65, C115) holds with it. -/
theorem C210_refines (l : List (HOp M N)) (t : Held M N) (h : hrun {} l = some t) :
    ∃ cl, crun Conn.new cl = some t.conn ∧ arrived cl = harrived l := by
  induction l using snocInduction generalizing t with
  | nil => simp only [hrun, Option.some.injEq] at h; subst h; exact ⟨[], rfl, rfl⟩
  | append_singleton l op ih =>
    rw [hrun_append] at h
    cases hs : hrun {} l with
    | none => rw [hs] at h; cases h
    | some s =>
      rw [hs] at h
      have h2 : hstep s op = some t := by
        simp only [Option.bind_some, hrun] at h
        cases hh : hstep s op with
        | none => rw [hh] at h; cases h
        | some u => rw [hh] at h; exact h
      obtain ⟨cl, h3, h4⟩ := ih s hs
      refine ⟨cl ++ coarse s op, ?_, ?_⟩
      · rw [crun_append, h3]; exact coarse_step s t op h2
      · rw [arrived_append, harrived_append, h4, arrived_coarse]

/-! ### Calls get messages in the order of their requests -/

theorem hrun_snoc (s : Held M N) (l : List (HOp M N)) (op : HOp M N) (t : Held M N) (h : hrun s (l ++ [op]) = some t) :
    ∃ u, hrun s l = some u ∧ hstep u op = some t := by
  rw [hrun_append] at h
  cases hs : hrun s l with
  | none => rw [hs] at h; cases h
  | some u =>
    rw [hs] at h
    refine ⟨u, rfl, ?_⟩
    simp only [Option.bind_some, hrun] at h
    cases hh : hstep u op with
    | none => rw [hh] at h; cases h
    | some v => rw [hh] at h; exact h

/-- The calls that sent, in order. (Specification: no counterpart in the code.) -/
def senders : List (COp M) → List Nat
  | [] => []
  | .send n :: l => n :: senders l
  | _ :: l => senders l

theorem senders_append (a b : List (COp M)) : senders (a ++ b) = senders a ++ senders b := by
  induction a with
  | nil => rfl
  | cons x l ih => cases x <;> simp [senders, ih]

/-- What was written are the ids of the calls that sent. -/
theorem written_senders (l : List (COp M)) (s : Conn M) (h : crun Conn.new l = some s) :
    (senders l).map (fun n => (started l)[n]?) = s.written.map some := by
  induction l using snocInduction generalizing s with
  | nil => simp only [crun, Option.some.injEq] at h; subst h; rfl
  | append_singleton l op ih =>
    rw [crun_append] at h
    cases h1 : crun Conn.new l with
    | none => rw [h1] at h; cases h
    | some t =>
      rw [h1] at h
      simp only [Option.bind_some, crun_one] at h
      have ht := ih t h1
      have hids := (cinv_run l t h1).ids
      have keep : ∀ x, (senders l).map (fun n => (started l ++ x)[n]?) = t.written.map some := by
        intro x
        rw [← ht]
        refine List.map_congr_left (fun n hn => ?_)
        have : (started l)[n]? ∈ t.written.map some := ht ▸ List.mem_map_of_mem (f := fun n => (started l)[n]?) hn
        obtain ⟨id, -, e⟩ := List.mem_map.mp this
        rw [List.getElem?_append_left (List.getElem?_eq_some_iff.mp e.symm).1]
      rw [senders_append, started_append, List.map_append, keep]
      cases op with
      | start id => simp only [cstep, Option.some.injEq] at h; subst h; simp [senders]
      | send n =>
        simp only [cstep] at h
        split at h
        · next id hn =>
          simp only [Option.some.injEq] at h
          subst h
          have : (started l)[n]? = some id := by rw [← hids]; simp [hn]
          simp [senders, started, this]
        · cases h
      | sendFail n =>
        simp only [cstep] at h
        split at h
        · simp only [Option.some.injEq] at h; subst h; simp [senders]
        · cases h
      | receive n =>
        simp only [cstep] at h
        split at h
        · simp only [Option.some.injEq] at h; subst h; simp [senders]
        · cases h
      | receiveFail n =>
        simp only [cstep] at h
        split at h
        · simp only [Option.some.injEq] at h; subst h; simp [senders]
        · cases h
      | drop n =>
        simp only [cstep] at h
        split at h
        · simp only [Option.some.injEq] at h; subst h; simp [senders]
        · simp only [Option.some.injEq] at h; subst h; simp [senders]
        · cases h
      | arrive m => simp only [cstep, Option.some.injEq] at h; subst h; simp [senders]

/-- Nothing fails and nobody gives up. (Specification: no counterpart in the code.) -/
def Smooth : HOp M N → Prop
  | .grant ok => ok = true
  | .receiveFail => False
  | .drop _ => False
  | _ => True

/-- The calls in the queue that have sent. (Specification: no counterpart in the code.) -/
def waiting : List (Job N) → List Nat
  | [] => []
  | .recv n :: l => n :: waiting l
  | _ :: l => waiting l

theorem waiting_append (a b : List (Job N)) : waiting (a ++ b) = waiting a ++ waiting b := by
  induction a with
  | nil => rfl
  | cons x l ih => cases x <;> simp [waiting, ih]

theorem requestIds_append (a b : List (Out N)) : requestIds (a ++ b) = requestIds a ++ requestIds b := by
  induction a with
  | nil => rfl
  | cons x l ih => cases x <;> simp [requestIds, ih]

theorem requestIds_map (l : List Id) : requestIds (l.map (Out.request (N := N))) = l := by
  induction l with
  | nil => rfl
  | cons x l ih => simp [requestIds, ih]

theorem cstep_written (s t : Conn M) (op : COp M) (h : cstep s op = some t) :
    t.written = s.written ++ t.written.drop s.written.length := by
  cases op <;> simp only [cstep] at h
  · simp only [Option.some.injEq] at h; subst h; simp
  · split at h
    · simp only [Option.some.injEq] at h; subst h; simp
    · cases h
  · split at h
    · simp only [Option.some.injEq] at h; subst h; simp
    · cases h
  · split at h
    · simp only [Option.some.injEq] at h; subst h; simp
    · cases h
  · split at h
    · simp only [Option.some.injEq] at h; subst h; simp
    · cases h
  · split at h
    · simp only [Option.some.injEq] at h; subst h; simp
    · simp only [Option.some.injEq] at h; subst h; simp
    · cases h
  · simp only [Option.some.injEq] at h; subst h; simp

theorem cstep_written_same (s t : Conn M) (op : COp M) (h : cstep s op = some t) (hn : ∀ n, op ≠ .send n) :
    t.written = s.written := by
  cases op <;> simp only [cstep] at h
  · simp only [Option.some.injEq] at h; subst h; rfl
  · exact absurd rfl (hn _)
  · split at h
    · simp only [Option.some.injEq] at h; subst h; rfl
    · cases h
  · split at h
    · simp only [Option.some.injEq] at h; subst h; rfl
    · cases h
  · split at h
    · simp only [Option.some.injEq] at h; subst h; rfl
    · cases h
  · split at h
    · simp only [Option.some.injEq] at h; subst h; rfl
    · simp only [Option.some.injEq] at h; subst h; rfl
    · cases h
  · simp only [Option.some.injEq] at h; subst h; rfl

/-- The requests among what was written are those of the calls. -/
theorem out_step (s t : Held M N) (op : HOp M N) (h : hstep s op = some t) (hs : requestIds s.out = s.conn.written) :
    requestIds t.out = t.conn.written := by
  cases op with
  | start id =>
    simp only [hstep, Option.map_eq_some_iff] at h
    obtain ⟨c, hc, rfl⟩ := h
    simp only [hs, cstep_written_same _ _ _ hc (by intro n hn; cases hn)]
  | notify x => simp only [hstep, Option.some.injEq] at h; subst h; exact hs
  | grant ok =>
    simp only [hstep] at h
    split at h
    · split at h
      · simp only [Option.map_eq_some_iff] at h
        obtain ⟨c, hc, rfl⟩ := h
        simp only [requestIds_append, requestIds_map, hs]
        exact (cstep_written _ _ _ hc).symm
      · simp only [Option.map_eq_some_iff] at h
        obtain ⟨c, hc, rfl⟩ := h
        simp only [hs, cstep_written_same _ _ _ hc (by intro n hn; cases hn)]
    · simp only [Option.some.injEq] at h; subst h; exact hs
    · simp only [Option.some.injEq] at h
      subst h
      cases ok <;> simp [requestIds_append, requestIds, hs]
    · cases h
  | receive =>
    simp only [hstep] at h
    split at h
    · simp only [Option.map_eq_some_iff] at h
      obtain ⟨c, hc, rfl⟩ := h
      simp only [hs, cstep_written_same _ _ _ hc (by intro n hn; cases hn)]
    · cases h
  | receiveFail =>
    simp only [hstep] at h
    split at h
    · simp only [Option.map_eq_some_iff] at h
      obtain ⟨c, hc, rfl⟩ := h
      simp only [hs, cstep_written_same _ _ _ hc (by intro n hn; cases hn)]
    · cases h
  | drop n =>
    simp only [hstep, Option.map_eq_some_iff] at h
    obtain ⟨c, hc, rfl⟩ := h
    simp only [hs, cstep_written_same _ _ _ hc (by intro n hn; cases hn)]
  | arrive m =>
    simp only [hstep, Option.map_eq_some_iff] at h
    obtain ⟨c, hc, rfl⟩ := h
    simp only [hs, cstep_written_same _ _ _ hc (by intro n hn; cases hn)]

theorem smooth_run (l : List (HOp M N)) (t : Held M N) (h : hrun {} l = some t) (hl : ∀ op ∈ l, Smooth op) :
    ∃ cl, crun Conn.new cl = some t.conn ∧ arrived cl = harrived l ∧ requestIds t.out = t.conn.written ∧
      senders cl = receivers cl ++ t.holder.toList ++ waiting t.queue := by
  induction l using snocInduction generalizing t with
  | nil => simp only [hrun, Option.some.injEq] at h; subst h; exact ⟨[], rfl, rfl, rfl, rfl⟩
  | append_singleton l op ih =>
    obtain ⟨s, hs, h2⟩ := hrun_snoc _ l op t h
    obtain ⟨cl, h3, h4, h5, h6⟩ := ih s hs (fun o ho => hl o (by simp [ho]))
    refine ⟨cl ++ coarse s op, ?_, ?_, out_step s t op h2 h5, ?_⟩
    · rw [crun_append, h3]; exact coarse_step s t op h2
    · rw [arrived_append, harrived_append, h4, arrived_coarse]
    · have hop := hl op (by simp)
      rw [senders_append, receivers_append, h6]
      cases op with
      | start id =>
        simp only [hstep, Option.map_eq_some_iff] at h2
        obtain ⟨c, hc, rfl⟩ := h2
        simp [coarse, senders, receivers, waiting_append, waiting]
      | notify x =>
        simp only [hstep, Option.some.injEq] at h2; subst h2
        simp [coarse, senders, receivers, waiting_append, waiting]
      | grant ok =>
        simp only [Smooth] at hop
        subst hop
        simp only [hstep] at h2
        split at h2
        · next n q e1 e2 =>
          simp only [if_true, Option.map_eq_some_iff] at h2
          obtain ⟨c, hc, rfl⟩ := h2
          simp [coarse, senders, receivers, waiting_append, waiting, e1, e2]
        · next n q e1 e2 =>
          simp only [Option.some.injEq] at h2; subst h2
          simp [coarse, senders, receivers, waiting, e1, e2]
        · next n q e1 e2 =>
          simp only [Option.some.injEq] at h2; subst h2
          simp [coarse, senders, receivers, waiting, e1, e2]
        · cases h2
      | receive =>
        simp only [hstep] at h2
        split at h2
        · next n hn =>
          simp only [Option.map_eq_some_iff] at h2
          obtain ⟨c, hc, rfl⟩ := h2
          simp [coarse, senders, receivers, hn]
        · cases h2
      | receiveFail => exact absurd hop id
      | drop n => exact absurd hop id
      | arrive m =>
        simp only [hstep, Option.map_eq_some_iff] at h2
        obtain ⟨c, hc, rfl⟩ := h2
        simp [coarse, senders, receivers]

/-- **C65**, for calls at the same time, as long as nothing fails and nobody gives up: the call whose request was written
as the `k`-th gets the message that arrives as the `k`-th.

Partial: that it is the answer to the call is up to the server (`C65_in_order_own`); it must answer in order and send
nothing else (`C65_out_of_order`). -/
theorem C65_in_order_partial (l : List (HOp M N)) (t : Held M N) (h : hrun {} l = some t) (hl : ∀ op ∈ l, Smooth op)
    (n : Nat) (id : Id) (m : M) (hd : t.conn.callers[n]? = some ⟨id, .done m⟩) :
    ∃ k : Nat, (requestIds t.out)[k]? = some id ∧ (harrived l)[k]? = some m := by
  obtain ⟨cl, h1, h2, h3, h4⟩ := smooth_run l t h hl
  obtain ⟨h5, k, h6, h7⟩ := (C65_exact_partial cl t.conn h1 n id m).mp hd
  refine ⟨k, ?_, h2 ▸ h7⟩
  have hk : (senders cl)[k]? = some n := by
    rw [h4, List.append_assoc, List.getElem?_append_left (List.getElem?_eq_some_iff.mp h6).1, h6]
  have := congrArg (fun l => l[k]?) (written_senders cl t.conn h1)
  simp only [List.getElem?_map, hk, Option.map_some, h5] at this
  rw [h3]
  cases hw : t.conn.written[k]? with
  | none => rw [hw] at this; cases this
  | some j => rw [hw] at this; simp at this; rw [this]

/-- **C65**: with a server that answers the requests in the order of their arrival and sends nothing else, every call
gets the answer to its own request, however many there are at the same time. -/
theorem C65_in_order_own (answer : Id → M) (l : List (HOp M N)) (t : Held M N) (h : hrun {} l = some t)
    (hl : ∀ op ∈ l, Smooth op) (ha : harrived l <+: (requestIds t.out).map answer)
    (n : Nat) (id : Id) (m : M) (hd : t.conn.callers[n]? = some ⟨id, .done m⟩) : m = answer id := by
  obtain ⟨k, h1, h2⟩ := C65_in_order_partial l t h hl n id m hd
  obtain ⟨r, hr⟩ := ha
  have : ((requestIds t.out).map answer)[k]? = some m := by
    rw [← hr, List.getElem?_append_left (List.getElem?_eq_some_iff.mp h2).1, h2]
  rw [List.getElem?_map, h1] at this
  simpa using this.symm

example : ∃ t : Held Nat Nat, hrun {} [.start (.str "a"), .start (.str "b"), .notify 5, .grant true, .grant true,
    .grant true, .arrive 1, .arrive 2, .grant true, .receive, .grant true, .receive] = some t ∧
    requestIds t.out = [.str "a", .str "b"] ∧ t.conn.callers[1]? = some ⟨.str "b", .done 2⟩ := ⟨_, rfl, rfl, rfl⟩

/-- **C65** fails: if two requests are on their way and the server answers the second one first, each call gets the
answer to the other. -/
theorem C65_out_of_order (a b : Id) (ma mb : M) : ∃ t : Held M N,
    hrun {} [.start a, .start b, .grant true, .grant true, .arrive mb, .arrive ma, .grant true, .receive, .grant true,
      .receive] = some t ∧ t.conn.callers[0]? = some ⟨a, .done mb⟩ ∧ t.conn.callers[1]? = some ⟨b, .done ma⟩ :=
  ⟨_, rfl, rfl, rfl⟩

/-! ### C210 -/

/-- The call is over: it got a message, failed, or its caller gave up. (Specification: no counterpart in the code.) -/
def Over : Phase M → Prop
  | .done _ => True
  | .failed => True
  | .dropped => True
  | _ => False

/-- The step ends the call that holds the lock. (Specification: no counterpart in the code.) -/
def Ends (n : Nat) : HOp M N → Prop
  | .receive => True
  | .receiveFail => True
  | .drop k => k = n
  | _ => False

theorem held_step (s t : Held M N) (op : HOp M N) (n : Nat) (hn : s.holder = some n) (h : hstep s op = some t)
    (he : ¬ Ends n op) : t.holder = some n ∧ t.out = s.out := by
  cases op with
  | start id =>
    simp only [hstep, Option.map_eq_some_iff] at h
    obtain ⟨c, hc, rfl⟩ := h
    exact ⟨hn, rfl⟩
  | notify x => simp only [hstep, Option.some.injEq] at h; subst h; exact ⟨hn, rfl⟩
  | grant ok => simp only [hstep, hn] at h; cases h
  | receive => exact absurd trivial he
  | receiveFail => exact absurd trivial he
  | drop k =>
    simp only [hstep, Option.map_eq_some_iff] at h
    obtain ⟨c, hc, rfl⟩ := h
    have : n ≠ k := fun e => he e.symm
    simp [hn, this]
  | arrive m =>
    simp only [hstep, Option.map_eq_some_iff] at h
    obtain ⟨c, hc, rfl⟩ := h
    exact ⟨hn, rfl⟩

theorem over_keep (s t : Conn M) (op : COp M) (n : Nat) (h : cstep s op = some t)
    (ho : ∃ c, s.callers[n]? = some c ∧ Over c.phase) : ∃ c, t.callers[n]? = some c ∧ Over c.phase := by
  obtain ⟨c, hc, ho⟩ := ho
  have key : ∀ k (c0 : Caller M) p, s.callers[k]? = some c0 → ¬ Over c0.phase →
      (setPhase s.callers k p)[n]? = some c := by
    intro k c0 p h0 h1
    rw [setPhase_get]
    split
    · next e => subst e; rw [hc] at h0; cases h0; exact absurd ho h1
    · exact hc
  cases op <;> simp only [cstep] at h
  · simp only [Option.some.injEq] at h; subst h
    exact ⟨c, by rw [List.getElem?_append_left (List.getElem?_eq_some_iff.mp hc).1, hc], ho⟩
  · split at h
    · next h0 => simp only [Option.some.injEq] at h; subst h; exact ⟨c, key _ _ _ h0 id, ho⟩
    · cases h
  · split at h
    · next h0 => simp only [Option.some.injEq] at h; subst h; exact ⟨c, key _ _ _ h0 id, ho⟩
    · cases h
  · split at h
    · next h0 _ => simp only [Option.some.injEq] at h; subst h; exact ⟨c, key _ _ _ h0 id, ho⟩
    · cases h
  · split at h
    · next h0 => simp only [Option.some.injEq] at h; subst h; exact ⟨c, key _ _ _ h0 id, ho⟩
    · cases h
  · split at h
    · next h0 => simp only [Option.some.injEq] at h; subst h; exact ⟨c, key _ _ _ h0 id, ho⟩
    · next h0 => simp only [Option.some.injEq] at h; subst h; exact ⟨c, key _ _ _ h0 id, ho⟩
    · cases h
  · simp only [Option.some.injEq] at h; subst h; exact ⟨c, hc, ho⟩

theorem over_run (s t : Conn M) (l : List (COp M)) (n : Nat) (h : crun s l = some t)
    (ho : ∃ c, s.callers[n]? = some c ∧ Over c.phase) : ∃ c, t.callers[n]? = some c ∧ Over c.phase := by
  induction l generalizing s with
  | nil => simp only [crun, Option.some.injEq] at h; subst h; exact ho
  | cons op l ih =>
    simp only [crun] at h
    split at h
    · cases h
    · next u hu => exact ih u h (over_keep s u op n hu ho)

theorem over_ends (s t : Held M N) (op : HOp M N) (n : Nat) (hn : s.holder = some n) (h : hstep s op = some t)
    (he : Ends n op) : ∃ c, t.conn.callers[n]? = some c ∧ Over c.phase := by
  cases op with
  | receive =>
    simp only [hstep, hn, Option.map_eq_some_iff] at h
    obtain ⟨c, hc, rfl⟩ := h
    simp only [cstep] at hc
    split at hc
    · next id m i h0 h1 =>
      simp only [Option.some.injEq] at hc; subst hc
      exact ⟨⟨id, .done m⟩, by simp [setPhase_get, h0], trivial⟩
    · cases hc
  | receiveFail =>
    simp only [hstep, hn, Option.map_eq_some_iff] at h
    obtain ⟨c, hc, rfl⟩ := h
    simp only [cstep] at hc
    split at hc
    · next id h0 =>
      simp only [Option.some.injEq] at hc; subst hc
      exact ⟨⟨id, .failed⟩, by simp [setPhase_get, h0], trivial⟩
    · cases hc
  | drop k =>
    simp only [Ends] at he
    subst he
    simp only [hstep, Option.map_eq_some_iff] at h
    obtain ⟨c, hc, rfl⟩ := h
    simp only [cstep] at hc
    split at hc
    · next id h0 =>
      simp only [Option.some.injEq] at hc; subst hc
      exact ⟨⟨id, .dropped⟩, by simp [setPhase_get, h0], trivial⟩
    · next id h0 =>
      simp only [Option.some.injEq] at hc; subst hc
      exact ⟨⟨id, .dropped⟩, by simp [setPhase_get, h0], trivial⟩
    · cases hc
  | _ => exact absurd he id

/-- C210 fails: while a call waits for its answer the client writes nothing at all, neither other requests nor
notifications, whatever is asked of it: when anything is written, the call is over. -/
theorem C210_nothing_written (s t : Held M N) (n : Nat) (hn : s.holder = some n) (l : List (HOp M N))
    (h : hrun s l = some t) (hw : t.out ≠ s.out) : ∃ c, t.conn.callers[n]? = some c ∧ Over c.phase := by
  induction l generalizing s with
  | nil => simp only [hrun, Option.some.injEq] at h; subst h; exact absurd rfl hw
  | cons op l ih =>
    simp only [hrun] at h
    split at h
    · cases h
    · next u hu =>
      by_cases he : Ends n op
      · have h1 := over_ends s u op n hn hu he
        have : ∀ (l : List (HOp M N)) (u : Held M N), hrun u l = some t →
            (∃ c, u.conn.callers[n]? = some c ∧ Over c.phase) → ∃ c, t.conn.callers[n]? = some c ∧ Over c.phase := by
          intro l
          induction l with
          | nil => intro u hu h1; simp only [hrun, Option.some.injEq] at hu; subst hu; exact h1
          | cons op l ih =>
            intro u hu h1
            simp only [hrun] at hu
            split at hu
            · cases hu
            · next v hv => exact ih v hu (over_run _ _ _ n (coarse_step u v op hv) h1)
        exact this l u h h1
      · obtain ⟨h1, h2⟩ := held_step s u op n hn hu he
        exact ih u h1 h (by rw [h2]; exact hw)

/-- C210 fails: a request that waits for its answer cannot be cancelled. Whatever else is done, the cancellation reaches
the server only when the call is over. -/
theorem C210_cancelled_too_late (s t : Held M N) (n : Nat) (hn : s.holder = some n) (cancel : N)
    (l : List (HOp M N)) (h : hrun s (.notify cancel :: l) = some t)
    (hs : Out.note cancel ∉ s.out) (hw : Out.note cancel ∈ t.out) : ∃ c, t.conn.callers[n]? = some c ∧ Over c.phase :=
  C210_nothing_written s t n hn _ h (fun e => hs (e ▸ hw))

example : ∃ s t : Held Nat Nat, hrun {} [.start (.str "a"), .grant true, .grant true] = some s ∧ s.holder = some 0 ∧
    hrun s (.notify 7 :: [.arrive 1, .receive, .grant true]) = some t ∧ Out.note 7 ∉ s.out ∧ Out.note 7 ∈ t.out :=
  ⟨_, _, rfl, rfl, rfl, by decide, by decide⟩

/-- C210 fails: if the server answers a call only after it has received something else from the client (another request,
progress, a cancellation), the call never returns and the client never sends anything again, unless the connection breaks
or the caller gives up. -/
theorem C210_wait_for_each_other (s t : Held M N) (n : Nat) (hn : s.holder = some n) (hi : s.conn.incoming = [])
    (l : List (HOp M N)) (h : hrun s l = some t) (hl : ∀ op ∈ l, op ≠ .receiveFail ∧ op ≠ .drop n)
    (server : ∀ p m, p ++ [.arrive m] <+: l → ∃ u, hrun s p = some u ∧ u.out ≠ s.out) :
    t.holder = some n ∧ t.out = s.out ∧ harrived l = [] := by
  suffices key : t.holder = some n ∧ t.out = s.out ∧ harrived l = [] ∧ t.conn.incoming = [] from
    ⟨key.1, key.2.1, key.2.2.1⟩
  induction l using snocInduction generalizing t with
  | nil => simp only [hrun, Option.some.injEq] at h; subst h; exact ⟨hn, rfl, rfl, hi⟩
  | append_singleton l op ih =>
    obtain ⟨u, h1, h2⟩ := hrun_snoc _ l op t h
    obtain ⟨i1, i2, i3, i4⟩ := ih u h1 (fun o ho => hl o (by simp [ho]))
      (fun p m hp => server p m (hp.trans (List.prefix_append l [op])))
    have hop := hl op (by simp)
    have he : ¬ Ends n op := by
      cases op with
      | receive =>
        simp only [hstep, i1, cstep, i4] at h2
        split at h2 <;> simp_all
      | receiveFail => exact fun _ => hop.1 rfl
      | drop k => exact fun e => hop.2 (by rw [show k = n from e])
      | _ => exact id
    obtain ⟨j1, j2⟩ := held_step u t op n i1 h2 he
    refine ⟨j1, j2.trans i2, ?_, ?_⟩
    · rw [harrived_append, i3]
      cases op with
      | arrive m =>
        obtain ⟨v, hv, hne⟩ := server l m (List.prefix_refl _)
        rw [h1] at hv
        cases hv
        exact absurd i2 hne
      | _ => rfl
    · cases op with
      | start id =>
        simp only [hstep, Option.map_eq_some_iff, cstep, Option.some.injEq] at h2
        obtain ⟨c, rfl, rfl⟩ := h2
        exact i4
      | notify x => simp only [hstep, Option.some.injEq] at h2; subst h2; exact i4
      | grant ok => simp only [hstep, i1] at h2; cases h2
      | receive => exact absurd trivial he
      | receiveFail => exact absurd rfl hop.1
      | drop k =>
        simp only [hstep, Option.map_eq_some_iff, cstep] at h2
        obtain ⟨c, hc, rfl⟩ := h2
        split at hc <;> simp_all <;> (subst hc; rfl)
      | arrive m =>
        obtain ⟨v, hv, hne⟩ := server l m (List.prefix_refl _)
        rw [h1] at hv
        cases hv
        exact absurd i2 hne

example : ∃ s t : Held Nat Nat, hrun {} [.start (.str "a"), .grant true, .grant true] = some s ∧ s.holder = some 0 ∧
    s.conn.incoming = [] ∧ hrun s [.start (.str "b"), .notify 7] = some t ∧ t.holder = some 0 :=
  ⟨_, _, rfl, rfl, rfl, rfl, rfl⟩

/-! ### C210: when the client stands still -/

/-- The job is that of a call. (Specification: no counterpart in the code.) -/
def Job.isCall : Job N → Bool
  | .note _ => false
  | _ => true

/-- Every call that is not over has its place. (Specification: no counterpart in the code.) -/
structure Places (s : Held M N) : Prop where
  nodup : (s.queue.filter Job.isCall).Nodup
  once : ∀ n, s.holder = some n → Job.recv n ∉ s.queue
  send : ∀ n, Job.send n ∈ s.queue ↔ ∃ id, s.conn.callers[n]? = some ⟨id, .sending⟩
  recv : ∀ n, (Job.recv n ∈ s.queue ∨ s.holder = some n) ↔ ∃ id, s.conn.callers[n]? = some ⟨id, .receiving⟩

theorem setPhase_iff (l : List (Caller M)) (n k : Nat) (p q : Phase M) (c : Caller M) (hc : l[n]? = some c) :
    (∃ id, (setPhase l n p)[k]? = some ⟨id, q⟩) ↔ if n = k then p = q else ∃ id, l[k]? = some ⟨id, q⟩ := by
  rw [setPhase_get]
  split
  · next e =>
    subst e
    simp only [hc, Option.map_some, Option.some.injEq, Caller.mk.injEq]
    exact ⟨fun ⟨_, _, h⟩ => h, fun h => ⟨_, rfl, h⟩⟩
  · rfl

theorem places_step (s t : Held M N) (op : HOp M N) (hp : Places s) (h : hstep s op = some t) : Places t := by
  obtain ⟨h1, h2, h3, h4⟩ := hp
  cases op with
  | start id =>
    simp only [hstep, cstep, Option.map_some, Option.some.injEq] at h
    subst h
    have hlt : ∀ n, (∃ p : Phase M, ∃ i, s.conn.callers[n]? = some ⟨i, p⟩) → n < s.conn.callers.length := by
      rintro n ⟨p, i, h⟩; exact (List.getElem?_eq_some_iff.mp h).1
    have hget : ∀ n (p : Phase M), (∃ i, (s.conn.callers ++ [⟨id, .sending⟩])[n]? = some ⟨i, p⟩) ↔
        (∃ i, s.conn.callers[n]? = some ⟨i, p⟩) ∨ (n = s.conn.callers.length ∧ p = .sending) := by
      intro n p
      rw [List.getElem?_append]
      split
      · next hl => simp; intro e; omega
      · next hl =>
        rw [List.getElem?_eq_none (by omega : s.conn.callers.length ≤ n)]
        by_cases e : n = s.conn.callers.length
        · subst e; simp; exact eq_comm
        · rw [List.getElem?_eq_none (by simp; omega)]; simp [e]
    refine ⟨?_, ?_, ?_, ?_⟩
    · simp only [List.filter_append, List.filter_cons, Job.isCall, if_true, List.filter_nil]
      refine List.nodup_append.mpr ⟨h1, by simp, ?_⟩
      intro a ha b hb e
      simp only [List.mem_singleton] at hb
      subst hb; subst e
      have := (h3 _).mp (List.mem_filter.mp ha).1
      have := hlt _ ⟨_, this⟩
      omega
    · intro n hn; simp; exact h2 n hn
    · intro n; simp only [hget, List.mem_append, List.mem_singleton, Job.send.injEq, h3, and_true]
    · intro n
      simp only [hget, List.mem_append, List.mem_singleton, reduceCtorEq, or_false, and_false]
      exact h4 n
  | notify x =>
    simp only [hstep, Option.some.injEq] at h
    subst h
    refine ⟨by simpa [List.filter_append, Job.isCall] using h1, fun n hn => by simpa using h2 n hn, fun n => ?_, fun n => ?_⟩
    · simpa using h3 n
    · simpa using h4 n
  | grant ok =>
    simp only [hstep] at h
    split at h
    · next n q e1 e2 =>
      rw [e2] at h1 h3 h4
      simp only [List.filter_cons, Job.isCall, if_true, List.nodup_cons] at h1
      obtain ⟨id, hid⟩ := (h3 n).mp (by simp)
      have hq : ∀ k, Job.send k ∈ q ↔ k ≠ n ∧ ∃ i, s.conn.callers[k]? = some ⟨i, .sending⟩ := by
        intro k
        rw [← h3 k]
        simp only [List.mem_cons, Job.send.injEq]
        constructor
        · intro hk
          refine ⟨?_, .inr hk⟩
          rintro rfl
          exact h1.1 (List.mem_filter.mpr ⟨hk, rfl⟩)
        · rintro ⟨a, b | b⟩
          · exact absurd b a
          · exact b
      have hr : Job.recv n ∉ q := by
        intro hk
        obtain ⟨i, hi⟩ := (h4 n).mp (.inl (by simp [hk]))
        rw [hid] at hi; cases hi
      have h4' : ∀ k, Job.recv k ∈ q ↔ ∃ i, s.conn.callers[k]? = some ⟨i, .receiving⟩ := by
        intro k; rw [← h4 k]; simp [e1]
      split at h
      · simp only [cstep, hid, Option.map_some, Option.some.injEq] at h
        subst h
        refine ⟨?_, fun k hk => ?_, fun k => ?_, fun k => ?_⟩
        · simp only [List.filter_append, List.filter_cons, Job.isCall, if_true, List.filter_nil]
          refine List.nodup_append.mpr ⟨h1.2, by simp, ?_⟩
          intro a ha b hb e
          simp only [List.mem_singleton] at hb
          subst hb; subst e
          exact hr (List.mem_filter.mp ha).1
        · simp only [e1] at hk; cases hk
        · simp only [List.mem_append, List.mem_singleton, reduceCtorEq, or_false, hq]
          rw [setPhase_iff _ _ _ _ _ _ hid]
          by_cases e : n = k
          · subst e; simp
          · simp [e, Ne.symm e]
        · simp only [e1, reduceCtorEq, or_false, List.mem_append, List.mem_singleton, Job.recv.injEq, h4']
          rw [setPhase_iff _ _ _ _ _ _ hid]
          by_cases e : n = k
          · subst e; simp
          · simp [e, Ne.symm e]
      · simp only [cstep, hid, Option.map_some, Option.some.injEq] at h
        subst h
        refine ⟨h1.2, fun k hk => ?_, fun k => ?_, fun k => ?_⟩
        · simp only [e1] at hk; cases hk
        · rw [setPhase_iff _ _ _ _ _ _ hid, hq]
          by_cases e : n = k
          · subst e; simp
          · simp [e, Ne.symm e]
        · simp only [e1, reduceCtorEq, or_false, h4']
          rw [setPhase_iff _ _ _ _ _ _ hid]
          by_cases e : n = k
          · subst e; simp [hid]
          · simp [e]
    · next n q e1 e2 =>
      rw [e2] at h1 h3 h4
      simp only [List.filter_cons, Job.isCall, if_true, List.nodup_cons] at h1
      simp only [Option.some.injEq] at h
      subst h
      refine ⟨h1.2, fun k hk => ?_, fun k => ?_, fun k => ?_⟩
      · simp only [Option.some.injEq] at hk
        subst hk
        exact fun hc => h1.1 (List.mem_filter.mpr ⟨hc, rfl⟩)
      · rw [← h3 k]; simp
      · rw [← h4 k]; simp [e1, or_comm, eq_comm]
    · next x q e1 e2 =>
      rw [e2] at h1 h3 h4
      simp only [Option.some.injEq] at h
      subst h
      refine ⟨by simpa [List.filter_cons, Job.isCall] using h1, fun k hk => ?_, fun k => ?_, fun k => ?_⟩
      · simp only [e1] at hk; cases hk
      · rw [← h3 k]; simp
      · rw [← h4 k]; simp
    · cases h
  | receive =>
    simp only [hstep] at h
    split at h
    · next n hn =>
      simp only [Option.map_eq_some_iff, cstep] at h
      obtain ⟨c, hc, rfl⟩ := h
      split at hc
      · next id m i hid hinc =>
        simp only [Option.some.injEq] at hc
        subst hc
        refine ⟨h1, fun k hk => by simp at hk, fun k => ?_, fun k => ?_⟩
        · simp only
          rw [setPhase_iff _ _ _ _ _ _ hid, h3]
          by_cases e : n = k
          · subst e; simp [hid]
          · simp [e]
        · simp only [reduceCtorEq, or_false]
          rw [setPhase_iff _ _ _ _ _ _ hid]
          by_cases e : n = k
          · subst e; simp [h2 n hn]
          · simp only [e, if_false]; rw [← h4 k]; simp [hn, e]
      · cases hc
    · cases h
  | receiveFail =>
    simp only [hstep] at h
    split at h
    · next n hn =>
      simp only [Option.map_eq_some_iff, cstep] at h
      obtain ⟨c, hc, rfl⟩ := h
      split at hc
      · next id hid =>
        simp only [Option.some.injEq] at hc
        subst hc
        refine ⟨h1, fun k hk => by simp at hk, fun k => ?_, fun k => ?_⟩
        · simp only
          rw [setPhase_iff _ _ _ _ _ _ hid, h3]
          by_cases e : n = k
          · subst e; simp [hid]
          · simp [e]
        · simp only [reduceCtorEq, or_false]
          rw [setPhase_iff _ _ _ _ _ _ hid]
          by_cases e : n = k
          · subst e; simp [h2 n hn]
          · simp only [e, if_false]; rw [← h4 k]; simp [hn, e]
      · cases hc
    · cases h
  | drop n =>
    simp only [hstep, Option.map_eq_some_iff] at h
    obtain ⟨c, hc, rfl⟩ := h
    have hc' : ∃ c0, s.conn.callers[n]? = some c0 ∧ c.callers = setPhase s.conn.callers n .dropped := by
      simp only [cstep] at hc
      split at hc
      · next h0 => simp only [Option.some.injEq] at hc; subst hc; exact ⟨_, h0, rfl⟩
      · next h0 => simp only [Option.some.injEq] at hc; subst hc; exact ⟨_, h0, rfl⟩
      · cases hc
    obtain ⟨c0, h0, hcc⟩ := hc'
    have hmem : ∀ k, (Job.recv k ∈ s.queue.filter (fun j => !j.ofCall n)) ↔ k ≠ n ∧ Job.recv k ∈ s.queue := by
      intro k; simp [List.mem_filter, Job.ofCall, and_comm]
    have hmem' : ∀ k, (Job.send k ∈ s.queue.filter (fun j => !j.ofCall n)) ↔ k ≠ n ∧ Job.send k ∈ s.queue := by
      intro k; simp [List.mem_filter, Job.ofCall, and_comm]
    refine ⟨?_, fun k hk => ?_, fun k => ?_, fun k => ?_⟩
    · simp only [List.filter_filter]
      have : (s.queue.filter (fun j => j.isCall && !j.ofCall n)) =
          (s.queue.filter Job.isCall).filter (fun j => !j.ofCall n) := by
        rw [List.filter_filter]; congr 1; funext j; exact Bool.and_comm _ _
      rw [this]
      exact h1.filter _
    · simp only at hk
      split at hk
      · cases hk
      · simp only [hmem]; exact fun h => h2 k hk h.2
    · simp only [hcc, hmem']
      rw [setPhase_iff _ _ _ _ _ _ h0, h3]
      by_cases e : n = k
      · subst e; simp
      · simp [e, Ne.symm e]
    · simp only [hcc, hmem]
      rw [setPhase_iff _ _ _ _ _ _ h0]
      by_cases e : n = k
      · subst e; simp
      · simp only [e, if_false, ← h4 k]
        by_cases e' : s.holder = some n
        · simp [e', e, Ne.symm e]
        · simp [e', Ne.symm e]
  | arrive m =>
    simp only [hstep, cstep, Option.map_some, Option.some.injEq] at h
    subst h
    exact ⟨h1, h2, h3, h4⟩

theorem places_run (l : List (HOp M N)) (t : Held M N) (h : hrun {} l = some t) : Places t := by
  induction l using snocInduction generalizing t with
  | nil =>
    simp only [hrun, Option.some.injEq] at h; subst h
    exact ⟨by simp, by simp, by simp [Conn.new], by simp [Conn.new]⟩
  | append_singleton l op ih =>
    obtain ⟨u, h1, h2⟩ := hrun_snoc _ l op t h
    exact places_step u t op (ih u h1) h2

/-- C210: the client stands still only if all calls are over and all notifications are written, or if the call that holds
the lock has no message; in any other case a call or a notification goes on.

Partial: in the second case everything else waits with that call (`C210_nothing_written`, `C210_cancelled_too_late`,
`C210_wait_for_each_other`). -/
theorem C210_goes_on_partial (l : List (HOp M N)) (t : Held M N) (h : hrun {} l = some t) :
    ((∃ u, hstep t (.grant true) = some u) ∨ ∃ u, hstep t .receive = some u) ∨
    ((∀ (n : Nat) (c : Caller M), t.conn.callers[n]? = some c → Over c.phase) ∧ t.queue = []) ∨
    (∃ n, t.holder = some n ∧ t.conn.incoming = []) := by
  obtain ⟨h1, h2, h3, h4⟩ := places_run l t h
  cases hh : t.holder with
  | some n =>
    cases hi : t.conn.incoming with
    | nil => exact .inr (.inr ⟨n, rfl, rfl⟩)
    | cons m i =>
      obtain ⟨id, hid⟩ := (h4 n).mp (.inr hh)
      exact .inl (.inr (by simp [hstep, hh, cstep, hid, hi]))
  | none =>
    cases hq : t.queue with
    | nil =>
      refine .inr (.inl ⟨fun n c hc => ?_, rfl⟩)
      obtain ⟨id, p⟩ := c
      have hs := h3 n
      have hr := h4 n
      rw [hq] at hs hr
      cases p with
      | sending => exact absurd (hs.mpr ⟨id, hc⟩) (by simp)
      | receiving => exact absurd (hr.mpr ⟨id, hc⟩) (by simp [hh])
      | _ => trivial
    | cons j q =>
      refine .inl (.inl ?_)
      cases j with
      | send n =>
        obtain ⟨id, hid⟩ := (h3 n).mp (by simp [hq])
        exact ⟨_, by simp [hstep, hh, hq, cstep, hid]; rfl⟩
      | recv n => exact ⟨_, by simp [hstep, hh, hq]; rfl⟩
      | note x => exact ⟨_, by simp [hstep, hh, hq]; rfl⟩

/-- The steps left for a job. (Specification: no counterpart in the code.) -/
def Job.work : Job N → Nat
  | .send _ => 3
  | .recv _ => 2
  | .note _ => 1

/-- The steps left. (Specification: no counterpart in the code.) -/
def Held.work (s : Held M N) : Nat := (s.queue.map Job.work).sum + s.holder.toList.length

theorem work_step (s t : Held M N) (op : HOp M N) (ho : (∃ ok, op = .grant ok) ∨ op = .receive ∨ op = .receiveFail)
    (h : hstep s op = some t) : t.work < s.work := by
  rcases ho with ⟨ok, rfl⟩ | rfl | rfl
  · simp only [hstep] at h
    split at h
    · next n q e1 e2 =>
      split at h <;>
      · simp only [Option.map_eq_some_iff] at h
        obtain ⟨c, hc, rfl⟩ := h
        simp only [Held.work, e1, e2, List.map_append, List.map_cons, List.map_nil, List.sum_append, List.sum_cons,
          List.sum_nil, Job.work, Option.toList, List.length_nil]
        omega
    · next n q e1 e2 =>
      simp only [Option.some.injEq] at h; subst h
      simp only [Held.work, e1, e2, List.map_cons, List.sum_cons, Job.work, Option.toList, List.length_nil,
        List.length_cons]
      omega
    · next n q e1 e2 =>
      simp only [Option.some.injEq] at h; subst h
      simp only [Held.work, e1, e2, List.map_cons, List.sum_cons, Job.work, Option.toList, List.length_nil]
      omega
    · cases h
  all_goals
    simp only [hstep] at h
    split at h
    · next n hn =>
      simp only [Option.map_eq_some_iff] at h
      obtain ⟨c, hc, rfl⟩ := h
      simp only [Held.work, hn, Option.toList, List.length_nil, List.length_cons]
      omega
    · cases h

/-- C210: what is begun takes at most three steps for each request and one for each notification. -/
theorem C210_bounded (s t : Held M N) (l : List (HOp M N)) (h : hrun s l = some t)
    (hl : ∀ op ∈ l, (∃ ok, op = .grant ok) ∨ op = .receive ∨ op = .receiveFail) : l.length + t.work ≤ s.work := by
  induction l generalizing s with
  | nil => simp only [hrun, Option.some.injEq] at h; subst h; simp
  | cons op l ih =>
    simp only [hrun] at h
    split at h
    · cases h
    · next u hu =>
      have := ih u h (fun o ho => hl o (by simp [ho]))
      have := work_step s u op (hl op (by simp)) hu
      simp only [List.length_cons]
      omega

example : ∃ s t : Held Nat Nat, hrun {} [.start (.str "a"), .notify 5, .arrive 1] = some s ∧
    hrun s [.grant true, .grant true, .grant true, .receive] = some t ∧ s.work = 4 ∧ t.queue = [] := ⟨_, _, rfl, rfl, rfl, rfl⟩

/-- The notifications begun. (Specification: no counterpart in the code.) -/
def begun (l : List (HOp M N)) : List N := l.filterMap fun | .notify x => some x | _ => none

/-- The notifications written. (Specification: no counterpart in the code.) -/
def notes (l : List (Out N)) : List N := l.filterMap fun | .note x => some x | _ => none

/-- The notifications that wait for the lock. (Specification: no counterpart in the code.) -/
def pendingNotes (l : List (Job N)) : List N := l.filterMap fun | .note x => some x | _ => none

theorem notes_requests (l : List Id) : notes (l.map (Out.request (N := N))) = [] := by
  induction l with
  | nil => rfl
  | cons a l ih => simpa [notes] using ih

theorem pendingNotes_filter (q : List (Job N)) (n : Nat) :
    pendingNotes (q.filter (fun j => !j.ofCall n)) = pendingNotes q := by
  induction q with
  | nil => rfl
  | cons j q ih =>
    cases j with
    | note x => simpa [pendingNotes, List.filter_cons, Job.ofCall] using ih
    | send k =>
      by_cases hk : k = n <;> simpa [pendingNotes, List.filter_cons, Job.ofCall, hk] using ih
    | recv k =>
      by_cases hk : k = n <;> simpa [pendingNotes, List.filter_cons, Job.ofCall, hk] using ih

theorem notes_step (s t : Held M N) (op : HOp M N) (h : hstep s op = some t) (ho : op ≠ .grant false) :
    notes t.out ++ pendingNotes t.queue = notes s.out ++ pendingNotes s.queue ++ begun [op] := by
  cases op with
  | start id =>
    simp only [hstep, Option.map_eq_some_iff] at h
    obtain ⟨c, hc, rfl⟩ := h
    simp [pendingNotes, begun]
  | notify x => simp only [hstep, Option.some.injEq] at h; subst h; simp [pendingNotes, begun]
  | grant ok =>
    have hok : ok = true := by cases ok with
      | true => rfl
      | false => exact absurd rfl ho
    subst hok
    simp only [hstep] at h
    split at h
    · next n q h1 h2 =>
      simp only [if_true, Option.map_eq_some_iff] at h
      obtain ⟨c, hc, rfl⟩ := h
      have e : ∀ a b : List (Out N), notes (a ++ b) = notes a ++ notes b := fun a b => by simp [notes]
      simp only [e, notes_requests]
      simp [pendingNotes, begun, h2]
    · next n q h1 h2 =>
      simp only [Option.some.injEq] at h; subst h; simp [pendingNotes, begun, h2]
    · next x q h1 h2 =>
      simp only [Option.some.injEq, if_true] at h; subst h; simp [notes, pendingNotes, begun, h2]
    · cases h
  | receive =>
    simp only [hstep] at h
    split at h
    · simp only [Option.map_eq_some_iff] at h
      obtain ⟨c, hc, rfl⟩ := h
      simp [begun]
    · cases h
  | receiveFail =>
    simp only [hstep] at h
    split at h
    · simp only [Option.map_eq_some_iff] at h
      obtain ⟨c, hc, rfl⟩ := h
      simp [begun]
    · cases h
  | drop n =>
    simp only [hstep, Option.map_eq_some_iff] at h
    obtain ⟨c, hc, rfl⟩ := h
    simp [begun, pendingNotes_filter]
  | arrive m =>
    simp only [hstep, Option.map_eq_some_iff] at h
    obtain ⟨c, hc, rfl⟩ := h
    simp [begun]

/-- C210: while sending works, the notifications written, followed by those that wait for the lock, are all those begun, in
the order in which they were begun; calls that are given up take none with them. -/
theorem C210_notes (l : List (HOp M N)) (t : Held M N) (h : hrun {} l = some t) (hl : .grant false ∉ l) :
    notes t.out ++ pendingNotes t.queue = begun l := by
  induction l using snocInduction generalizing t with
  | nil => simp only [hrun, Option.some.injEq] at h; subst h; rfl
  | append_singleton l op ih =>
    obtain ⟨s, h1, h2⟩ := hrun_snoc _ _ _ _ h
    have e := ih s h1 (fun hm => hl (List.mem_append_left _ hm))
    rw [notes_step s t op h2 (fun ho => hl (by simp [ho])), e]
    simp [begun]

example : ∃ t : Held Nat Nat, hrun {} [.start (.str "a"), .notify 5, .notify 6, .grant true, .grant true, .drop 0] = some t ∧
    notes t.out = [5] ∧ pendingNotes t.queue = [6] ∧ HOp.grant false ∉
      ([.start (.str "a"), .notify 5, .notify 6, .grant true, .grant true, .drop 0] : List (HOp Nat Nat)) :=
  ⟨_, rfl, by decide, by decide, by simp⟩

/-- C210: what is written or waits was begun, also if sending fails at times: nothing is written twice or out of order. -/
theorem C210_notes_failing (l : List (HOp M N)) (t : Held M N) (h : hrun {} l = some t) :
    (notes t.out ++ pendingNotes t.queue).Sublist (begun l) := by
  induction l using snocInduction generalizing t with
  | nil => simp only [hrun, Option.some.injEq] at h; subst h; exact List.Sublist.refl _
  | append_singleton l op ih =>
    obtain ⟨s, h1, h2⟩ := hrun_snoc _ _ _ _ h
    have e := ih s h1
    have eb : begun (l ++ [op]) = begun l ++ begun [op] := by simp [begun]
    by_cases ho : op = .grant false
    · subst ho
      rw [eb]
      refine List.Sublist.trans ?_ (List.Sublist.trans e (List.sublist_append_left _ _))
      simp only [hstep] at h2
      split at h2
      · next n q g1 g2 =>
        simp only [Bool.false_eq_true, if_false, Option.map_eq_some_iff] at h2
        obtain ⟨c, hc, rfl⟩ := h2
        simp [pendingNotes, g2]
      · next n q g1 g2 =>
        simp only [Option.some.injEq] at h2; subst h2; simp [pendingNotes, g2]
      · next x q g1 g2 =>
        simp only [Option.some.injEq, Bool.false_eq_true, if_false] at h2; subst h2
        simp only [g2, pendingNotes, List.filterMap_cons]
        exact List.Sublist.append (List.Sublist.refl _) (List.sublist_cons_self _ _)
      · cases h2
    · rw [notes_step s t op h2 ho, eb]
      exact List.Sublist.append e (List.Sublist.refl _)

example : ∃ t : Held Nat Nat, hrun {} [.notify 5, .notify 6, .grant false, .grant true] = some t ∧ notes t.out = [6] :=
  ⟨_, rfl, by decide⟩

end Verif.Client
