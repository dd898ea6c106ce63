import Verif.WsPair.Model
import Verif.Transports.More

/-!
# C242: what a WebSocket client and a WebSocket server of the crate tell each other
-/

namespace Verif.WsPair

open Verif.Transports

variable {M T : Type}

/-- The messages the client's `receive` returned. (Specification: no counterpart in the code.) -/
def clientGot (enc : M → T) (parse : T → Option M) (ser : M → Bool) (s : State M) : List (Op M T) → List M
  | [] => []
  | op :: ops => (match clientOut parse ser s op with
      | .message m => [m]
      | _ => []) ++ clientGot enc parse ser (step enc parse ser s op) ops

/-- The messages the server's `receive` returned, each with the connection it came on.
(Specification: no counterpart in the code.) -/
def serverGot (enc : M → T) (parse : T → Option M) (ser : M → Bool) (s : State M) : List (Op M T) → List (Nat × M)
  | [] => []
  | op :: ops => (match s.server.current, serverOut parse ser s op with
      | some k, .message m => [(k, m)]
      | _, _ => []) ++ serverGot enc parse ser (step enc parse ser s op) ops

/-- The messages for which the server's `send` returned `Ok`, each with the connection that was current.
(Specification: no counterpart in the code.) -/
def serverSent (enc : M → T) (parse : T → Option M) (ser : M → Bool) (s : State M) : List (Op M T) → List (Nat × M)
  | [] => []
  | op :: ops => (match op, s.server.current, serverOut parse ser s op with
      | .serverSend m, some k, .ok => [(k, m)]
      | _, _, _ => []) ++ serverSent enc parse ser (step enc parse ser s op) ops

/-- The entries of one connection. (Specification: no counterpart in the code.) -/
def onConn (k : Nat) (l : List (Nat × M)) : List M := (l.filter (·.1 == k)).map (·.2)

/-- What becomes of messages on the way: those that cannot be serialized are left out, the others are written and
read back. (Specification: no counterpart in the code.) -/
def carried (enc : M → T) (parse : T → Option M) (ser : M → Bool) (l : List M) : List M :=
  (l.filter ser).filterMap (fun m => parse (enc m))

/-- The client's reader of a connection of the server runs. (Specification: no counterpart in the code.) -/
def Reads (s : State M) (k : Nat) : Prop := ∃ j, s.peer k = some j ∧ j ∈ s.client.readers

theorem run_append (enc : M → T) (parse : T → Option M) (ser : M → Bool) (s : State M) (a b : List (Op M T)) :
    run enc parse ser s (a ++ b) = run enc parse ser (run enc parse ser s a) b := by
  induction a generalizing s with
  | nil => rfl
  | cons op a ih => exact ih _

theorem onConn_append (k : Nat) (a b : List (Nat × M)) : onConn k (a ++ b) = onConn k a ++ onConn k b := by
  simp [onConn]

theorem carried_append (enc : M → T) (parse : T → Option M) (ser : M → Bool) (a b : List M) :
    carried enc parse ser (a ++ b) = carried enc parse ser a ++ carried enc parse ser b := by
  simp [carried]

/-! ### From the client to the server -/

/-- What holds of every state: nothing but pings was written by the client, so nothing of it waits at the server.
(Specification: no counterpart in the code.) -/
structure Quiet (s : State M) : Prop where
  inv : WsServer.Inv s.server
  pings : ∀ e ∈ s.client.wire, e.2 = .ping
  old : ∀ k, s.server.accepted ≤ k → s.peer k = none
  none_in : ∀ k, s.peer k ≠ none → (s.server.conns k).incoming = []

theorem client_wire (parse : T → Option M) (ser : M → Bool) (s : Ws.State M) (ops : List (Ws.Op M T))
    (h : ∀ e ∈ s.wire, e.2 = .ping) : ∀ e ∈ (Ws.run parse ser s ops).wire, e.2 = .ping := by
  induction ops generalizing s with
  | nil => exact h
  | cons op ops ih =>
    refine ih _ ?_
    cases op with
    | ping k =>
      intro e he
      simp only [Ws.step, List.mem_append, List.mem_singleton] at he
      rcases he with he | rfl
      · exact h e he
      · rfl
    | connectDone ok => cases ok <;> exact h
    | frame k f =>
      simp only [Ws.step]
      repeat' split
      all_goals exact h
    | send m => simp only [Ws.step]; repeat' split
                all_goals exact h
    | receive => simp only [Ws.step]; split <;> exact h
    | connectStart => exact h
    | close => exact h

theorem incoming_step (parse : T → Option M) (ser : M → Bool) (s : WsServer.State M) (op : WsServer.Op M T) (k : Nat)
    (h : (s.conns k).incoming = []) (hop : ∀ t, op ≠ .frame k (.text t)) :
    ((WsServer.step parse ser s op).1.conns k).incoming = [] := by
  have hset : ∀ j c, (j = k → c.incoming = []) → ((s.set j c).conns k).incoming = [] := by
    intro j c hc
    by_cases hj : k = j
    · subst hj; rw [WsServer.set_same]; exact hc rfl
    · rw [WsServer.set_other _ _ _ _ hj]; exact h
  cases op with
  | accept => exact hset _ _ (fun _ => rfl)
  | send m =>
    simp only [WsServer.step]
    repeat' split
    · exact h
    · exact hset _ _ (fun e => by subst e; exact h)
    · exact h
  | write j ok =>
    simp only [WsServer.step]
    repeat' split
    all_goals first
      | exact h
      | exact hset _ _ (fun e => by subst e; exact h)
  | pong j ok =>
    simp only [WsServer.step]
    repeat' split
    all_goals first
      | exact h
      | exact hset _ _ (fun e => by subst e; exact h)
  | frame j f =>
    simp only [WsServer.step]
    split
    · cases f with
      | text t =>
        have hj : j ≠ k := fun e => hop t (by rw [e])
        simp only
        repeat' split
        all_goals first
          | exact h
          | exact hset _ _ (fun e => absurd e hj)
      | ping d =>
        simp only
        split <;> exact hset _ _ (fun e => by subst e; exact h)
      | other => exact h
      | close => exact hset _ _ (fun e => by subst e; exact h)
      | error => exact hset _ _ (fun e => by subst e; exact h)
    · exact h
  | receive =>
    simp only [WsServer.step]
    repeat' split
    · exact h
    · next j _ _ m q hq =>
      exact hset _ _ (fun e => by subst e; rw [h] at hq; cases hq)
    · exact h
    · exact h
  | close => exact h

/-- The server's part of a step is at most one operation. (Specification: no counterpart in the code.) -/
theorem serverOps_cases (enc : M → T) (s : State M) (op : Op M T) :
    serverOps enc s op = [] ∨ ∃ o, serverOps enc s op = [o] := by
  cases op <;> simp only [serverOps] <;> (repeat' split) <;> simp

theorem written_ping (c : Ws.State M) (h : ∀ e ∈ c.wire, e.2 = .ping) (j i : Nat) (x : Ws.Sent M)
    (hx : (written c j)[i]? = some x) : x = .ping := by
  have := List.mem_of_getElem? hx
  simp only [written, List.mem_map, List.mem_filter] at this
  obtain ⟨e, ⟨he, -⟩, rfl⟩ := this
  exact h e he

theorem serverOps_text (enc : M → T) (s : State M) (h : Quiet s) (op : Op M T) (k : Nat) (t : T)
    (ho : .frame k (.text t) ∈ serverOps enc s op) : s.peer k = none := by
  cases op with
  | strange j f =>
    simp only [serverOps] at ho
    split at ho
    · next hp => simp only [List.mem_singleton, WsServer.Op.frame.injEq] at ho; rw [ho.1]; exact hp
    · cases ho
  | up j =>
    simp only [serverOps] at ho
    split at ho
    · next i hi =>
      split at ho
      · next m hm => cases written_ping _ h.pings _ _ _ hm
      · simp at ho
      · cases ho
    · cases ho
  | cutServer j =>
    simp only [serverOps] at ho
    split at ho <;> simp at ho
  | _ => simp [serverOps] at ho

theorem accepted_step (enc : M → T) (parse : T → Option M) (ser : M → Bool) (s : State M) (op : Op M T) :
    s.server.accepted ≤ (step enc parse ser s op).server.accepted := by
  simp only [step]
  rcases serverOps_cases enc s op with h | ⟨o, h⟩
  · rw [h]; exact Nat.le_refl _
  · rw [h]; exact WsServer.accepted_mono parse ser s.server o

theorem quiet_step (enc : M → T) (parse : T → Option M) (ser : M → Bool) (s : State M) (h : Quiet s) (op : Op M T) :
    Quiet (step enc parse ser s op) := by
  have hinv : WsServer.Inv (step enc parse ser s op).server := by
    simp only [step]
    rcases serverOps_cases enc s op with h1 | ⟨o, h1⟩
    · rw [h1]; exact h.inv
    · rw [h1]; exact WsServer.inv_step parse ser s.server o h.inv
  have hacc := accepted_step enc parse ser s op
  have hpeer : ∀ k, (step enc parse ser s op).peer k ≠ none → s.peer k ≠ none ∨ (op = .handshake ∧ k = s.server.accepted) := by
    intro k hk
    cases op with
    | handshake =>
      simp only [step] at hk
      by_cases e : k = s.server.accepted
      · exact .inr ⟨rfl, e⟩
      · rw [if_neg e] at hk; exact .inl hk
    | _ => exact .inl hk
  refine ⟨hinv, client_wire parse ser _ _ h.pings, ?_, ?_⟩
  · intro k hk
    by_cases hn : (step enc parse ser s op).peer k = none
    · exact hn
    · rcases hpeer k hn with h1 | ⟨rfl, rfl⟩
      · exact absurd (h.old k (Nat.le_trans hacc hk)) h1
      · exact absurd hk (Nat.not_le_of_lt (Nat.lt_succ_self _))
  · intro k hk
    rcases hpeer k hk with h1 | ⟨rfl, rfl⟩
    · simp only [step]
      rcases serverOps_cases enc s op with h2 | ⟨o, h2⟩
      · rw [h2]; exact h.none_in k h1
      · rw [h2]
        refine incoming_step parse ser s.server o k (h.none_in k h1) ?_
        rintro t rfl
        exact h1 (serverOps_text enc s h op k t (by rw [h2]; simp))
    · simp only [step, serverOps, WsServer.run, WsServer.step]
      have := WsServer.set_same s.server s.server.accepted ({} : WsServer.Conn M)
      exact congrArg WsServer.Conn.incoming this

theorem quiet_run (enc : M → T) (parse : T → Option M) (ser : M → Bool) (s : State M) (h : Quiet s)
    (ops : List (Op M T)) : Quiet (run enc parse ser s ops) := by
  induction ops generalizing s with
  | nil => exact h
  | cons op ops ih => exact ih _ (quiet_step enc parse ser s h op)

theorem quiet_init : Quiet ({} : State M) :=
  ⟨WsServer.inv_init, (by intro e he; cases he), fun _ _ => rfl, fun k h => absurd rfl h⟩

/-- Whether the server's connection `k` is one of the client's, at the end of a history.
(Specification: no counterpart in the code.) -/
def Ours (enc : M → T) (parse : T → Option M) (ser : M → Bool) (ops : List (Op M T)) (k : Nat) : Prop :=
  (run enc parse ser {} ops).peer k ≠ none

theorem peer_keeps (enc : M → T) (parse : T → Option M) (ser : M → Bool) (s : State M) (h : Quiet s)
    (ops : List (Op M T)) (k : Nat) (hk : k < s.server.accepted) :
    (run enc parse ser s ops).peer k = s.peer k := by
  induction ops generalizing s with
  | nil => rfl
  | cons op ops ih =>
    simp only [run]
    rw [ih _ (quiet_step enc parse ser s h op) (Nat.lt_of_lt_of_le hk (accepted_step enc parse ser s op))]
    cases op with
    | handshake => simp only [step]; rw [if_neg (by omega)]
    | _ => rfl

/-- **C242** fails from the client to the server: whatever the two programs and the network do, no message of the
client ever reaches the server. Every message the server's `receive` returns came from another client. -/
theorem C242_nothing_arrives (enc : M → T) (parse : T → Option M) (ser : M → Bool) (ops : List (Op M T)) (k : Nat)
    (hk : Ours enc parse ser ops k) : onConn k (serverGot enc parse ser {} ops) = [] := by
  have key : ∀ (ops : List (Op M T)) (s : State M), Quiet s → (run enc parse ser s ops).peer k ≠ none →
      onConn k (serverGot enc parse ser s ops) = [] := by
    intro ops
    induction ops with
    | nil => intro s _ _; rfl
    | cons op ops ih =>
      intro s hq hp
      simp only [serverGot]
      rw [onConn_append, ih _ (quiet_step enc parse ser s hq op) hp, List.append_nil]
      split
      · next i m hc ho =>
        by_cases hi : i = k
        · subst hi
          exfalso
          have hpk : s.peer i ≠ none := by
            have := peer_keeps enc parse ser s hq (op :: ops) i (hq.inv.cur i hc)
            rw [this] at hp; exact hp
          cases op with
          | serverReceive =>
            simp only [serverOut, WsServer.step, hc, hq.none_in i hpk] at ho
            split at ho <;> cases ho
          | serverSend m' =>
            simp only [serverOut, WsServer.step, hc] at ho
            split at ho <;> cases ho
          | _ => cases ho
        · simp [onConn, hi]
      · rfl
  exact key ops {} quiet_init hk

/-- The client's `send` returns `Ok` all the same, exactly when the message can be serialized and the client
believes itself connected. -/
theorem C242_ok_iff (enc : M → T) (parse : T → Option M) (ser : M → Bool) (ops : List (Op M T)) (m : M) :
    let s := run enc parse ser {} ops
    (clientOut parse ser s (.clientSend m : Op M T) = .ok ↔ ser m = true ∧ Ws.isConnected s.client = true) := by
  intro s
  simp only [clientOut, Ws.step, Ws.isConnected, beq_iff_eq]
  cases hm : ser m <;> simp
  split <;> simp_all

/-! ### From the server to the client -/

/-- The server's operations in a history of the pair. (Specification: no counterpart in the code.) -/
def serverTrace (enc : M → T) (parse : T → Option M) (ser : M → Bool) (s : State M) :
    List (Op M T) → List (WsServer.Op M T)
  | [] => []
  | op :: ops => serverOps enc s op ++ serverTrace enc parse ser (step enc parse ser s op) ops

theorem server_run (enc : M → T) (parse : T → Option M) (ser : M → Bool) (s : State M) (ops : List (Op M T)) :
    (run enc parse ser s ops).server = WsServer.run parse ser s.server (serverTrace enc parse ser s ops) := by
  induction ops generalizing s with
  | nil => rfl
  | cons op ops ih => simp only [run, serverTrace]; rw [ih, WsServer.run_append]; rfl

theorem accepted_append (parse : T → Option M) (ser : M → Bool) (k : Nat) (s : WsServer.State M)
    (a b : List (WsServer.Op M T)) : WsServer.accepted_ parse ser k s (a ++ b) =
      WsServer.accepted_ parse ser k s a ++ WsServer.accepted_ parse ser k (WsServer.run parse ser s a) b := by
  induction a generalizing s with
  | nil => rfl
  | cons op a ih => simp only [List.cons_append, WsServer.accepted_, WsServer.run]; rw [ih, List.append_assoc]

theorem sent_now (enc : M → T) (parse : T → Option M) (ser : M → Bool) (k : Nat) (s : State M) (op : Op M T) :
    WsServer.accepted_ parse ser k s.server (serverOps enc s op) = onConn k (match op, s.server.current, serverOut parse ser s op with
      | .serverSend m, some k, .ok => [(k, m)]
      | _, _, _ => []) := by
  cases op with
  | serverSend m =>
    simp only [serverOps, WsServer.accepted_, List.append_nil, serverOut, WsServer.step]
    cases hc : s.server.current with
    | none => simp [onConn]
    | some j =>
      simp only [Option.some.injEq]
      by_cases hw : (s.server.conns j).writer = true
      · simp only [hw, if_true]
        by_cases hj : j = k
        · subst hj; simp [hw, onConn]
        · simp [hj, onConn]
      · simp only [hw]
        by_cases hj : j = k
        · subst hj; simp [hw, onConn]
        · simp [hj, onConn]
  | strange j f => simp only [serverOps]; split <;> rfl
  | up j => simp only [serverOps]; repeat' split
            all_goals rfl
  | cutServer j => simp only [serverOps]; split <;> rfl
  | _ => rfl

theorem sent_run (enc : M → T) (parse : T → Option M) (ser : M → Bool) (k : Nat) (s : State M) (ops : List (Op M T)) :
    WsServer.accepted_ parse ser k s.server (serverTrace enc parse ser s ops) = onConn k (serverSent enc parse ser s ops) := by
  induction ops generalizing s with
  | nil => rfl
  | cons op ops ih =>
    simp only [serverTrace, serverSent]
    rw [accepted_append, onConn_append, sent_now]
    congr 1
    exact ih (step enc parse ser s op)

/-- The message the client's reader queues in a step, with the server's connection it came on.
(Specification: no counterpart in the code.) -/
def logNow (enc : M → T) (parse : T → Option M) (s : State M) : Op M T → List (Nat × M)
  | .down k => match s.peer k, (s.server.conns k).wire[s.read k]? with
    | some j, some m => if j ∈ s.client.readers then (parse (enc m)).toList.map (k, ·) else []
    | _, _ => []
  | _ => []

/-- The messages the client's readers queue in a history. (Specification: no counterpart in the code.) -/
def log (enc : M → T) (parse : T → Option M) (ser : M → Bool) (s : State M) : List (Op M T) → List (Nat × M)
  | [] => []
  | op :: ops => logNow enc parse s op ++ log enc parse ser (step enc parse ser s op) ops

theorem queue_step (enc : M → T) (parse : T → Option M) (ser : M → Bool) (s : State M) (op : Op M T) :
    (match clientOut parse ser s op with
      | .message m => [m]
      | _ => []) ++ (step enc parse ser s op).client.queue = s.client.queue ++ (logNow enc parse s op).map (·.2) := by
  cases op with
  | down k =>
    simp only [clientOut, step, clientOps, logNow, List.nil_append]
    split
    · next j m hj hm =>
      simp only [Ws.run, Ws.step, hj, hm]
      split
      · cases hp : parse (enc m) <;> simp
      · simp
    · next hno =>
      split
      · next j m hj hm => exact absurd hm (hno j m hj)
      · simp [Ws.run]
  | downOther k =>
    simp only [clientOut, step, clientOps, logNow, List.nil_append]
    split
    · simp only [Ws.run, Ws.step]; split <;> simp
    · simp [Ws.run]
  | cutClient k =>
    simp only [clientOut, step, clientOps, logNow, List.nil_append]
    split
    · simp only [Ws.run, Ws.step]; split <;> simp
    · simp [Ws.run]
  | clientReceive =>
    simp only [clientOut, step, clientOps, logNow, Ws.run, Ws.step]
    cases hq : s.client.queue with
    | nil => simp [hq]
    | cons m q => simp
  | clientSend m =>
    simp only [clientOut, step, clientOps, logNow, Ws.run, Ws.step]
    repeat' split
    all_goals simp_all
  | _ => simp [clientOut, step, clientOps, logNow, Ws.run, Ws.step]

theorem queue_run (enc : M → T) (parse : T → Option M) (ser : M → Bool) (s : State M) (ops : List (Op M T)) :
    clientGot enc parse ser s ops ++ (run enc parse ser s ops).client.queue =
      s.client.queue ++ (log enc parse ser s ops).map (·.2) := by
  induction ops generalizing s with
  | nil => simp [clientGot, run, log]
  | cons op ops ih =>
    simp only [clientGot, run, log]
    rw [List.append_assoc, ih, ← List.append_assoc, queue_step, List.map_append, List.append_assoc]

theorem wire_step (parse : T → Option M) (ser : M → Bool) (s : WsServer.State M) (h : WsServer.Inv s)
    (op : WsServer.Op M T) (k : Nat) : (s.conns k).wire <+: ((WsServer.step parse ser s op).1.conns k).wire := by
  have hset : ∀ j c, (s.conns j).wire <+: c.wire → (s.conns k).wire <+: ((s.set j c).conns k).wire := by
    intro j c hc
    by_cases hj : k = j
    · subst hj; rw [WsServer.set_same]; exact hc
    · rw [WsServer.set_other _ _ _ _ hj]; exact List.prefix_refl _
  have hp := List.prefix_refl (s.conns k).wire
  cases op with
  | accept => exact hset _ _ (by rw [h.new _ (Nat.le_refl _)]; exact List.prefix_refl _)
  | send m => simp only [WsServer.step]; repeat' split
              all_goals first
                | exact hp
                | exact hset _ _ (List.prefix_refl _)
  | write j ok => simp only [WsServer.step]; repeat' split
                  all_goals first
                    | exact hp
                    | exact hset _ _ (List.prefix_refl _)
                    | exact hset _ _ (List.prefix_append _ _)
  | pong j ok => simp only [WsServer.step]; repeat' split
                 all_goals first
                   | exact hp
                   | exact hset _ _ (List.prefix_refl _)
  | frame j f =>
    simp only [WsServer.step]
    split
    · cases f <;> simp only <;> repeat' split
      all_goals first
        | exact hp
        | exact hset _ _ (List.prefix_refl _)
    · exact hp
  | receive => simp only [WsServer.step]; repeat' split
               all_goals first
                 | exact hp
                 | exact hset _ _ (List.prefix_refl _)
  | close => exact hp

/-- What holds of the two ends of every connection. (Specification: no counterpart in the code.) -/
structure Linked (s : State M) : Prop where
  quiet : Quiet s
  zero : ∀ k, s.peer k = none → s.read k = 0
  lt : ∀ k j, s.peer k = some j → j < s.client.opened

theorem linked_init : Linked ({} : State M) := ⟨quiet_init, fun _ _ => rfl, fun k j h => by cases h⟩

/-- The client's part of a step is at most one operation. (Specification: no counterpart in the code.) -/
theorem clientOps_cases (enc : M → T) (s : State M) (op : Op M T) :
    clientOps enc s op = [] ∨ ∃ o, clientOps enc s op = [o] := by
  cases op <;> simp only [clientOps] <;> (repeat' split) <;> simp

theorem client_step (parse : T → Option M) (ser : M → Bool) (c : Ws.State M) (o : Ws.Op M T) :
    c.opened ≤ (Ws.step parse ser c o).1.opened ∧
    ∀ j ∈ (Ws.step parse ser c o).1.readers, j ∈ c.readers ∨ (o = .connectDone true ∧ j = c.opened) := by
  cases o with
  | connectDone ok =>
    cases ok with
    | true =>
      refine ⟨Nat.le_succ _, ?_⟩
      intro j hj
      simp only [Ws.step, List.mem_append, List.mem_singleton] at hj
      rcases hj with hj | hj
      · exact .inl hj
      · exact .inr ⟨rfl, hj⟩
    | false => exact ⟨Nat.le_refl _, fun j hj => .inl hj⟩
  | frame k f =>
    simp only [Ws.step]
    repeat' split
    all_goals first
      | exact ⟨Nat.le_refl _, fun j hj => .inl hj⟩
      | exact ⟨Nat.le_refl _, fun j hj => .inl (List.mem_filter.mp hj).1⟩
  | send m => simp only [Ws.step]; repeat' split
              all_goals exact ⟨Nat.le_refl _, fun j hj => .inl hj⟩
  | receive => simp only [Ws.step]; split <;> exact ⟨Nat.le_refl _, fun j hj => .inl hj⟩
  | connectStart => exact ⟨Nat.le_refl _, fun j hj => .inl hj⟩
  | ping k => exact ⟨Nat.le_refl _, fun j hj => .inl hj⟩
  | close => exact ⟨Nat.le_refl _, fun j hj => .inl hj⟩

theorem clientOps_connect (enc : M → T) (s : State M) (op : Op M T)
    (h : clientOps enc s op = [.connectDone true]) : op = .handshake := by
  cases op with
  | handshake => rfl
  | down k => simp only [clientOps] at h; split at h <;> simp at h
  | downOther k => simp only [clientOps] at h; split at h <;> simp at h
  | cutClient k => simp only [clientOps] at h; split at h <;> simp at h
  | _ => simp [clientOps] at h

theorem linked_step (enc : M → T) (parse : T → Option M) (ser : M → Bool) (s : State M) (h : Linked s) (op : Op M T) :
    Linked (step enc parse ser s op) := by
  have hop : s.client.opened ≤ (step enc parse ser s op).client.opened := by
    simp only [step]
    rcases clientOps_cases enc s op with h1 | ⟨o, h1⟩
    · rw [h1]; exact Nat.le_refl _
    · rw [h1]; exact (client_step parse ser s.client o).1
  refine ⟨quiet_step enc parse ser s h.quiet op, ?_, ?_⟩
  · intro k hk
    cases op with
    | handshake =>
      simp only [step] at hk ⊢
      split at hk
      · cases hk
      · exact h.zero k hk
    | down i =>
      simp only [step] at hk ⊢
      split
      · next hi =>
        by_cases e : k = i
        · subst e; rw [hk] at hi; cases hi.1
        · simp only [if_neg e]; exact h.zero k hk
      · exact h.zero k hk
    | _ => exact h.zero k hk
  · intro k j hk
    cases op with
    | handshake =>
      simp only [step, clientOps, Ws.run, Ws.step] at hk ⊢
      split at hk
      · cases hk; exact Nat.lt_succ_self _
      · exact Nat.lt_succ_of_lt (h.lt k j hk)
    | _ => exact Nat.lt_of_lt_of_le (h.lt k j hk) hop

theorem reads_step (enc : M → T) (parse : T → Option M) (ser : M → Bool) (s : State M) (h : Linked s) (op : Op M T)
    (k : Nat) (hr : Reads (step enc parse ser s op) k) : Reads s k ∨ (op = .handshake ∧ k = s.server.accepted) := by
  obtain ⟨j, hj, hm⟩ := hr
  have hmem : j ∈ s.client.readers ∨ (op = .handshake ∧ j = s.client.opened) := by
    simp only [step] at hm
    rcases clientOps_cases enc s op with h1 | ⟨o, h1⟩
    · rw [h1] at hm; exact .inl hm
    · rw [h1] at hm
      rcases (client_step parse ser s.client o).2 j hm with h2 | ⟨rfl, h2⟩
      · exact .inl h2
      · exact .inr ⟨clientOps_connect enc s op h1, h2⟩
  cases op with
  | handshake =>
    simp only [step] at hj
    split at hj
    · next e => exact .inr ⟨rfl, e⟩
    · rcases hmem with h2 | ⟨-, rfl⟩
      · exact .inl ⟨j, hj, h2⟩
      · exact absurd (h.lt k _ hj) (Nat.lt_irrefl _)
  | _ =>
    rcases hmem with h2 | ⟨h2, -⟩
    · exact .inl ⟨j, hj, h2⟩
    · cases h2

/-- What the client has queued from connection `k` is what became of the first texts on its wire, and of all it has
read while its reader runs. (Specification: no counterpart in the code.) -/
def Taken (enc : M → T) (parse : T → Option M) (s : State M) (k : Nat) (l : List M) : Prop :=
  ∃ r, r ≤ (s.server.conns k).wire.length ∧
    l = ((s.server.conns k).wire.take r).filterMap (fun m => parse (enc m)) ∧ (Reads s k → r = s.read k)

theorem taken_step (enc : M → T) (parse : T → Option M) (ser : M → Bool) (s : State M) (h : Linked s) (op : Op M T)
    (k : Nat) (l : List M) (ht : Taken enc parse s k l) :
    Taken enc parse (step enc parse ser s op) k (l ++ onConn k (logNow enc parse s op)) := by
  obtain ⟨r, hle, hl, hr⟩ := ht
  have hpre : (s.server.conns k).wire <+: ((step enc parse ser s op).server.conns k).wire := by
    simp only [step]
    rcases serverOps_cases enc s op with h1 | ⟨o, h1⟩
    · rw [h1]; exact List.prefix_refl _
    · rw [h1]; exact wire_step parse ser s.server h.quiet.inv o k
  have htake : ∀ r, r ≤ (s.server.conns k).wire.length →
      ((step enc parse ser s op).server.conns k).wire.take r = (s.server.conns k).wire.take r := by
    intro r hr
    obtain ⟨x, hx⟩ := hpre
    rw [← hx, List.take_append_of_le_length hr]
  have hlen : (s.server.conns k).wire.length ≤ ((step enc parse ser s op).server.conns k).wire.length :=
    hpre.length_le
  -- a step that queues nothing and moves no cursor of `k`
  have same : onConn k (logNow enc parse s op) = [] → (Reads s k → (step enc parse ser s op).read k = s.read k) →
      (op = .handshake → k = s.server.accepted → (step enc parse ser s op).read k = 0) →
      Taken enc parse (step enc parse ser s op) k (l ++ onConn k (logNow enc parse s op)) := by
    intro h1 h2 h3
    rw [h1, List.append_nil]
    refine ⟨r, Nat.le_trans hle hlen, by rw [htake r hle]; exact hl, ?_⟩
    intro hR
    rcases reads_step enc parse ser s h op k hR with h4 | ⟨h4, h5⟩
    · rw [h2 h4, hr h4]
    · rw [h3 h4 h5]
      have : (s.server.conns k).wire = [] := by rw [h.quiet.inv.new k (by omega)]
      rw [this] at hle
      exact Nat.le_zero.mp hle
  cases op with
  | down i =>
    by_cases e : i = k
    · subst e
      simp only [logNow]
      cases hp : s.peer i with
      | none =>
        have := same (by simp [logNow, hp, onConn]) (fun _ => by simp [step, hp]) nofun
        simpa only [logNow, hp] using this
      | some j =>
        cases hw : (s.server.conns i).wire[s.read i]? with
        | none =>
          have hge := List.getElem?_eq_none_iff.mp hw
          have := same (by simp [logNow, hp, hw, onConn]) (fun _ => by simp [step, hp, Nat.not_lt_of_le hge]) nofun
          simpa only [logNow, hp, hw] using this
        | some m =>
          obtain ⟨hlt, hget⟩ := List.getElem?_eq_some_iff.mp hw
          simp only
          by_cases hj : j ∈ s.client.readers
          · rw [if_pos hj]
            have hR : Reads s i := ⟨j, hp, hj⟩
            have hr' := hr hR
            subst hr'
            refine ⟨s.read i + 1, Nat.le_trans hlt hlen, ?_, ?_⟩
            · rw [htake _ hlt, hl, List.take_add_one, hw, List.filterMap_append]
              cases hpe : parse (enc m) <;> simp [onConn, hpe]
            · intro _; simp [step, hp, hlt]
          · have hnr : ¬ Reads s i := by rintro ⟨j', hj', hm'⟩; rw [hp] at hj'; cases hj'; exact hj hm'
            have := same (by simp [logNow, hp, hw, hj, onConn]) (fun hR => absurd hR hnr) nofun
            simpa only [logNow, hp, hw, if_neg hj] using this
    · refine same ?_ ?_ nofun
      · simp only [logNow]
        split
        · split
          · cases parse (enc _) <;> simp [onConn, e]
          · rfl
        · rfl
      · intro _
        simp only [step]
        split
        · exact if_neg (fun h => e h.symm)
        · rfl
  | handshake =>
    refine same rfl (fun _ => rfl) ?_
    rintro - rfl
    exact h.zero _ (h.quiet.old _ (Nat.le_refl _))
  | _ => exact same rfl (fun _ => rfl) nofun

theorem taken_run (enc : M → T) (parse : T → Option M) (ser : M → Bool) (s : State M) (h : Linked s)
    (k : Nat) (l : List M) (ht : Taken enc parse s k l) (ops : List (Op M T)) :
    Taken enc parse (run enc parse ser s ops) k (l ++ onConn k (log enc parse ser s ops)) := by
  induction ops generalizing s l with
  | nil => simpa [run, log, onConn] using ht
  | cons op ops ih =>
    have := ih _ (linked_step enc parse ser s h op) _ (taken_step enc parse ser s h op k l ht)
    simp only [run, log]
    rwa [onConn_append, ← List.append_assoc]

theorem linked_run (enc : M → T) (parse : T → Option M) (ser : M → Bool) (s : State M) (h : Linked s)
    (ops : List (Op M T)) : Linked (run enc parse ser s ops) := by
  induction ops generalizing s with
  | nil => exact h
  | cons op ops ih => exact ih _ (linked_step enc parse ser s h op)

/-- **C242** from the server to the client (exact form). The messages the client's `receive` returned, followed by
those waiting in its queue, are an interleaving, one sequence for every connection, of the beginnings of what the
server sent with `Ok` on that connection: in order, nothing twice, nothing else. While the client's reader and the
server's writer of a connection run, what is missing of it is on the wire or waiting to be written. -/
theorem C242_down_partial (enc : M → T) (parse : T → Option M) (ser : M → Bool) (ops : List (Op M T)) :
    let s := run enc parse ser {} ops
    ∃ l : List (Nat × M), clientGot enc parse ser {} ops ++ s.client.queue = l.map (·.2) ∧
      ∀ k, onConn k l <+: carried enc parse ser (onConn k (serverSent enc parse ser {} ops)) ∧
        (Reads s k → (s.server.conns k).writer = true →
          onConn k l ++ ((s.server.conns k).wire.drop (s.read k)).filterMap (fun m => parse (enc m)) ++
            carried enc parse ser (s.server.conns k).outgoing =
          carried enc parse ser (onConn k (serverSent enc parse ser {} ops))) := by
  intro s
  refine ⟨log enc parse ser {} ops, queue_run enc parse ser {} ops, fun k => ?_⟩
  have ht := taken_run enc parse ser {} linked_init k [] ⟨0, Nat.zero_le _, by simp, fun _ => rfl⟩ ops
  rw [List.nil_append] at ht
  obtain ⟨r, hle, hl, hr⟩ := ht
  have hs : s.server = WsServer.run parse ser {} (serverTrace enc parse ser {} ops) := server_run enc parse ser {} ops
  have hc := WsServer.C130_order_partial parse ser k (serverTrace enc parse ser {} ops)
  simp only at hc
  rw [← hs] at hc
  have hsent := sent_run enc parse ser k {} ops
  rw [hsent] at hc
  constructor
  · rw [hl, carried]
    exact List.IsPrefix.filterMap _ ((List.take_prefix _ _).trans hc.1)
  · intro hR hw
    have hrr := hr hR
    rw [hl, hrr, carried, carried, ← hc.2 hw, List.filterMap_append, ← List.filterMap_append, List.take_append_drop]

theorem sent_append (enc : M → T) (parse : T → Option M) (ser : M → Bool) (s : State M) (a b : List (Op M T)) :
    serverSent enc parse ser s (a ++ b) =
      serverSent enc parse ser s a ++ serverSent enc parse ser (run enc parse ser s a) b := by
  induction a generalizing s with
  | nil => rfl
  | cons op a ih => simp only [List.cons_append, serverSent, run]; rw [ih, List.append_assoc]

theorem sent_quiet (enc : M → T) (parse : T → Option M) (ser : M → Bool) (s : State M) (k : Nat) (l : List (Op M T))
    (h : ∀ op ∈ l, op = .write k true ∨ op = .down k) : serverSent enc parse ser s l = [] := by
  induction l generalizing s with
  | nil => rfl
  | cons op l ih =>
    simp only [serverSent]
    rw [ih _ (fun o ho => h o (List.mem_cons_of_mem _ ho)), List.append_nil]
    rcases h op (by simp) with rfl | rfl <;> rfl

theorem drain (enc : M → T) (parse : T → Option M) (ser : M → Bool) (k : Nat) (n : Nat) (s : State M)
    (hn : (s.server.conns k).outgoing.length = n) (hR : Reads s k) (hw : (s.server.conns k).writer = true) :
    let s' := run enc parse ser s (List.replicate n (.write k true))
    (s'.server.conns k).outgoing = [] ∧ Reads s' k ∧ (s'.server.conns k).writer = true := by
  induction n generalizing s with
  | zero => exact ⟨List.eq_nil_of_length_eq_zero hn, hR, hw⟩
  | succ n ih =>
    simp only [List.replicate_succ, run]
    cases ho : (s.server.conns k).outgoing with
    | nil => rw [ho] at hn; cases hn
    | cons m q =>
      rw [ho] at hn
      have hR' : Reads (step enc parse ser s (.write k true)) k := hR
      refine ih _ ?_ hR' ?_
      · simp only [step, serverOps, WsServer.run, WsServer.step, hw, if_true, ho]
        split <;> simp only [WsServer.set_same] <;> simpa using hn
      · simp only [step, serverOps, WsServer.run, WsServer.step, hw, if_true, ho]
        split <;> simp only [WsServer.set_same] <;> exact hw

theorem readAll (enc : M → T) (parse : T → Option M) (ser : M → Bool) (k : Nat) (n : Nat) (s : State M)
    (hn : (s.server.conns k).wire.length - s.read k = n) (hR : Reads s k) (ho : (s.server.conns k).outgoing = [])
    (hw : (s.server.conns k).writer = true) :
    let s' := run enc parse ser s (List.replicate n (.down k))
    (s'.server.conns k).wire.length ≤ s'.read k ∧ (s'.server.conns k).outgoing = [] ∧ Reads s' k ∧
    (s'.server.conns k).writer = true := by
  induction n generalizing s with
  | zero => exact ⟨by simp only [List.replicate_zero, run]; omega, ho, hR, hw⟩
  | succ n ih =>
    simp only [List.replicate_succ, run]
    obtain ⟨j, hj, hm⟩ := hR
    have hlt : s.read k < (s.server.conns k).wire.length := by omega
    have hget := List.getElem?_eq_getElem hlt
    refine ih _ ?_ ?_ ho hw
    · have h1 : (step enc parse ser s (.down k)).read k = s.read k + 1 := by simp [step, hj, hlt]
      have h2 : (step enc parse ser s (.down k)).server = s.server := rfl
      rw [h1, h2]; omega
    · refine ⟨j, hj, ?_⟩
      simp only [step, clientOps, hj, hget, Ws.run, Ws.step]
      repeat' split
      all_goals exact hm

/-- **C242** (nothing is lost while a connection lives). From every state in which the client's reader and the
server's writer of a connection run, the writer and the reader alone can bring everything the server sent with `Ok` on
it to the client. -/
theorem C242_delivered (enc : M → T) (parse : T → Option M) (ser : M → Bool) (ops : List (Op M T)) (k : Nat)
    (hR : Reads (run enc parse ser {} ops) k)
    (hw : ((run enc parse ser {} ops).server.conns k).writer = true) :
    ∃ more : List (Op M T), (∀ op ∈ more, op = .write k true ∨ op = .down k) ∧
      ∃ l : List (Nat × M), clientGot enc parse ser {} (ops ++ more) ++
          (run enc parse ser {} (ops ++ more)).client.queue = l.map (·.2) ∧
        onConn k l = carried enc parse ser (onConn k (serverSent enc parse ser {} ops)) := by
  have h1 := drain enc parse ser k _ _ rfl hR hw
  simp only at h1
  generalize hwr : List.replicate ((run enc parse ser {} ops).server.conns k).outgoing.length (.write k true : Op M T)
    = writes at h1
  obtain ⟨ho1, hR1, hw1⟩ := h1
  have h2 := readAll enc parse ser k _ _ rfl hR1 ho1 hw1
  simp only at h2
  generalize hdn : List.replicate (((run enc parse ser (run enc parse ser {} ops) writes).server.conns k).wire.length -
    (run enc parse ser (run enc parse ser {} ops) writes).read k) (.down k : Op M T) = downs at h2
  rw [← run_append, ← run_append] at h2
  obtain ⟨hle, ho2, hR2, hw2⟩ := h2
  have hall : ∀ op ∈ writes ++ downs, op = .write k true ∨ op = .down k := by
    intro op hop
    rcases List.mem_append.mp hop with h | h
    · rw [← hwr] at h; exact .inl (List.eq_of_mem_replicate h)
    · rw [← hdn] at h; exact .inr (List.eq_of_mem_replicate h)
  refine ⟨writes ++ downs, hall, ?_⟩
  obtain ⟨l, hl, hk⟩ := C242_down_partial enc parse ser (ops ++ (writes ++ downs))
  refine ⟨l, hl, ?_⟩
  have h3 := (hk k).2 hR2 hw2
  rw [ho2, List.drop_eq_nil_of_le hle] at h3
  have h4 : serverSent enc parse ser {} (ops ++ (writes ++ downs)) = serverSent enc parse ser {} ops := by
    rw [sent_append, sent_quiet enc parse ser _ k _ hall, List.append_nil]
  rw [h4] at h3
  simpa [carried] using h3

theorem accepted_run (enc : M → T) (parse : T → Option M) (ser : M → Bool) (ops : List (Op M T)) (s : State M) :
    s.server.accepted ≤ (run enc parse ser s ops).server.accepted := by
  induction ops generalizing s with
  | nil => exact Nat.le_refl _
  | cons op ops ih => exact Nat.le_trans (accepted_step enc parse ser s op) (ih _)

theorem sent_lt (enc : M → T) (parse : T → Option M) (ser : M → Bool) (s : State M) (h : Quiet s) (ops : List (Op M T)) :
    ∀ e ∈ serverSent enc parse ser s ops, e.1 < (run enc parse ser s ops).server.accepted := by
  induction ops generalizing s with
  | nil => intro e he; cases he
  | cons op ops ih =>
    intro e he
    simp only [serverSent, List.mem_append] at he
    rcases he with he | he
    · split at he
      · next hc _ =>
        simp only [List.mem_singleton] at he
        subst he
        exact Nat.lt_of_lt_of_le (h.inv.cur _ hc) (accepted_run enc parse ser _ s)
      · cases he
    · exact ih _ (quiet_step enc parse ser s h op) e he

theorem only_zero (l : List (Nat × M)) (h : ∀ e ∈ l, e.1 = 0) : onConn 0 l = l.map (·.2) := by
  rw [onConn, List.filter_eq_self.mpr (fun e he => by simp [h e he])]

theorem onConn_empty (l : List (Nat × M)) (k : Nat) (h : onConn k l = []) : ∀ e ∈ l, e.1 ≠ k := by
  rintro e he rfl
  have : e.2 ∈ onConn e.1 l := by
    simp only [onConn, List.mem_map, List.mem_filter]
    exact ⟨e, ⟨he, by simp⟩, rfl⟩
  rw [h] at this
  cases this

/-- **C242** for a server that accepted one connection: what the client receives is the beginning of what the server
sent with `Ok`. -/
theorem C242_one_partial (enc : M → T) (parse : T → Option M) (ser : M → Bool) (ops : List (Op M T))
    (h1 : (run enc parse ser {} ops).server.accepted ≤ 1) :
    clientGot enc parse ser {} ops <+: carried enc parse ser ((serverSent enc parse ser {} ops).map (·.2)) := by
  obtain ⟨l, hl, hk⟩ := C242_down_partial enc parse ser ops
  have hz : ∀ e ∈ serverSent enc parse ser {} ops, e.1 = 0 := fun e he => by
    have := sent_lt enc parse ser {} quiet_init ops e he
    omega
  have hlz : ∀ e ∈ l, e.1 = 0 := by
    intro e he
    by_cases h0 : e.1 = 0
    · exact h0
    · have hn : onConn e.1 (serverSent enc parse ser {} ops) = [] := by
        rw [onConn, List.filter_eq_nil_iff.mpr (fun x hx => by simp [hz x hx]; exact fun h => h0 h.symm)]; rfl
      have := (hk e.1).1
      rw [hn] at this
      exact absurd rfl (onConn_empty l e.1 (List.prefix_nil.mp this) e he)
  have := (hk 0).1
  rw [only_zero _ hz, only_zero _ hlz, ← hl] at this
  exact (List.prefix_append _ _).trans this

/-- Messages of the client, if they arrived, would be answered by a server that answers; they do not arrive, so **no
exchange over this pair ever gets anywhere**: when no other client is there and the server sends no more messages than
it received, it sends none and the client receives none. In particular no `initialize` is ever answered. -/
theorem C242_silent (enc : M → T) (parse : T → Option M) (ser : M → Bool) (ops : List (Op M T))
    (hs : .stranger ∉ ops)
    (ha : (serverSent enc parse ser {} ops).length ≤ (serverGot enc parse ser {} ops).length) :
    serverGot enc parse ser {} ops = [] ∧ serverSent enc parse ser {} ops = [] ∧
    clientGot enc parse ser {} ops = [] := by
  have hours : ∀ (ops : List (Op M T)) (s : State M), Quiet s → .stranger ∉ ops →
      (∀ k, k < s.server.accepted → s.peer k ≠ none) →
      ∀ k, k < (run enc parse ser s ops).server.accepted → (run enc parse ser s ops).peer k ≠ none := by
    intro ops
    induction ops with
    | nil => intro s _ _ h; exact h
    | cons op ops ih =>
      intro s hq hn h
      refine ih _ (quiet_step enc parse ser s hq op) (fun h' => hn (List.mem_cons_of_mem _ h')) ?_
      have hsame : ∀ o, o ≠ .accept → (WsServer.step parse ser s.server o).1.accepted = s.server.accepted := by
        intro o ho
        cases o with
        | accept => exact absurd rfl ho
        | send m => simp only [WsServer.step]; repeat' split
                    all_goals rfl
        | write j ok => simp only [WsServer.step]; repeat' split
                        all_goals rfl
        | pong j ok => simp only [WsServer.step]; repeat' split
                       all_goals rfl
        | frame j f => simp only [WsServer.step]; repeat' split
                       all_goals rfl
        | receive => simp only [WsServer.step]; repeat' split
                     all_goals rfl
        | close => rfl
      have hrest : op ≠ .handshake → ∀ k, k < (step enc parse ser s op).server.accepted →
          (step enc parse ser s op).peer k ≠ none := by
        intro hne k hk
        have hp : (step enc parse ser s op).peer = s.peer := by cases op <;> first | rfl | exact absurd rfl hne
        rw [hp]
        refine h k ?_
        simp only [step] at hk
        rcases serverOps_cases enc s op with h1 | ⟨o, h1⟩
        · rw [h1] at hk; exact hk
        · rw [h1] at hk
          have ho : o ≠ .accept := by
            rintro rfl
            cases op with
            | handshake => exact hne rfl
            | stranger => exact hn (by simp)
            | strange j f => simp only [serverOps] at h1; split at h1 <;> simp at h1
            | up j => simp only [serverOps] at h1; (repeat' split at h1) <;> simp at h1
            | cutServer j => simp only [serverOps] at h1; split at h1 <;> simp at h1
            | _ => simp [serverOps] at h1
          simp only [WsServer.run] at hk
          rw [hsame o ho] at hk
          exact hk
      by_cases hh : op = .handshake
      · subst hh
        intro k hk
        simp only [step]
        split
        · exact nofun
        · next hne =>
          have : k < s.server.accepted + 1 := hk
          exact h k (by omega)
      · exact hrest hh
  have hlt : ∀ (ops : List (Op M T)) (s : State M), Quiet s →
      ∀ e ∈ serverGot enc parse ser s ops, e.1 < (run enc parse ser s ops).server.accepted := by
    intro ops
    induction ops with
    | nil => intro s _ e he; cases he
    | cons op ops ih =>
      intro s h e he
      simp only [serverGot, List.mem_append] at he
      rcases he with he | he
      · split at he
        · next hc _ =>
          simp only [List.mem_singleton] at he
          subst he
          exact Nat.lt_of_lt_of_le (h.inv.cur _ hc) (accepted_run enc parse ser (op :: ops) s)
        · cases he
      · exact ih _ (quiet_step enc parse ser s h op) e he
  have hgot : serverGot enc parse ser {} ops = [] := by
    cases hg : serverGot enc parse ser {} ops with
    | nil => rfl
    | cons e l =>
      exfalso
      have he : e ∈ serverGot enc parse ser {} ops := by rw [hg]; simp
      have h1 := hours ops {} quiet_init hs (fun k hk => absurd hk (Nat.not_lt_zero _)) e.1
        (hlt ops {} quiet_init e he)
      exact absurd rfl (onConn_empty _ e.1 (C242_nothing_arrives enc parse ser ops e.1 h1) e he)
  have hsent : serverSent enc parse ser {} ops = [] := by
    rw [hgot] at ha
    exact List.eq_nil_of_length_eq_zero (Nat.le_zero.mp ha)
  refine ⟨hgot, hsent, ?_⟩
  obtain ⟨l, hl, hk⟩ := C242_down_partial enc parse ser ops
  have hln : l = [] := by
    cases hg : l with
    | nil => rfl
    | cons e l' =>
      exfalso
      have he : e ∈ l := by rw [hg]; simp
      have := (hk e.1).1
      rw [hsent] at this
      exact absurd rfl (onConn_empty l e.1 (List.prefix_nil.mp this) e he)
  rw [hln] at hl
  exact (List.append_eq_nil_iff.mp hl).1

/-- A program's `close` of the client closes nothing: the server still sends, and the closed client still receives. -/
theorem C242_after_close (enc : M → T) (parse : T → Option M) (ser : M → Bool) (m m' : M) (hs : ser m = true)
    (hp : parse (enc m) = some m') :
    let ops : List (Op M T) := [.dial, .handshake, .clientClose, .serverSend m, .write 0 true, .down 0, .clientReceive]
    let s := run enc parse ser {} ops
    clientGot enc parse ser {} ops = [m'] ∧ Ws.isConnected s.client = false ∧ WsServer.isConnected s.server = true := by
  simp [clientGot, clientOut, run, step, clientOps, serverOps, Ws.run, Ws.step, WsServer.run, WsServer.step,
    WsServer.State.set, hs, hp, Ws.isConnected, WsServer.isConnected]

/-! ### Examples: three messages, one of which is cut off; the client's own message does not arrive -/

/-- A history of the examples. (Specification: no counterpart in the code.) -/
def exOps : List (Op Nat Nat) :=
  [.dial, .handshake, .clientSend 7, .ping 0, .up 0, .up 0, .serverReceive, .serverSend 1, .serverSend 2, .serverSend 3,
    .write 0 true, .write 0 true, .down 0, .clientReceive, .down 0, .clientReceive]

example : clientGot id some (fun _ => true) {} exOps = [1, 2] ∧ serverGot id some (fun _ => true) {} exOps = [] ∧
    serverSent id some (fun _ => true) {} exOps = [(0, 1), (0, 2), (0, 3)] := by decide

example : Ours id some (fun _ => true) exOps 0 ∧ (run id some (fun _ => true) {} exOps).server.accepted ≤ 1 ∧
    Reads (run id some (fun _ => true) {} exOps) 0 ∧
    ((run id some (fun _ => true) {} exOps).server.conns 0).writer = true ∧
    clientOut some (fun _ => true) (run id some (fun _ => true) {} [.dial, .handshake]) (.clientSend 7 : Op Nat Nat)
      = .ok := by
  refine ⟨by unfold Ours; decide, by decide, ⟨0, by decide, by decide⟩, by decide, by decide⟩

example : (.stranger : Op Nat Nat) ∉ ([.dial, .handshake, .clientSend 7, .serverReceive, .clientReceive] : List (Op Nat Nat)) ∧
    (serverSent id some (fun _ => true) {} ([.dial, .handshake, .clientSend 7, .serverReceive, .clientReceive] :
      List (Op Nat Nat))).length ≤ 0 := by
  refine ⟨by simp, by decide⟩

end Verif.WsPair
