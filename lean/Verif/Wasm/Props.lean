import Verif.Wasm.Model

/-
The WebSocket transport for WebAssembly: messages to itself (C151), messages to the other transports of the library
(C152) and its life (C153, C154).
-/

namespace Verif.Wasm

open Verif.Wire

/-! ### C151: messages to another transport of the same kind -/

/-- A notification sent as its bare parameters, without a method. (Specification: no counterpart in the code.) -/
def Bare : TMsg → Prop
  | .notification (.progress _) => True
  | .notification (.cancelled _) => True
  | _ => False

theorem request_enc_obj (r : Request) : ∃ m c, r.enc = encAdj m c := by
  cases r with
  | client r => cases r <;> exact ⟨_, _, rfl⟩
  | server r => cases r <;> exact ⟨_, _, rfl⟩

theorem decAdj_id {α : Type} (t : String → Option (Variant α)) (f : List (String × Json)) (v : Json) :
    decAdj t (.obj (AMap.insert f "id" v)) = decAdj t (.obj f) := by
  simp [decAdj, AMap.get_insert]

theorem parse_request (id : Id) (r : Request) :
    parse (serialize (.request id r)) = (Request.dec r.enc).map (.request id) := by
  obtain ⟨m, c, h⟩ := request_enc_obj r
  have h1 : Request.dec (setIndex (encAdj m c) "id" id.enc) = Request.dec (encAdj m c) := by
    simp only [Request.dec, ClientRequest.dec, ServerRequest.dec, setIndex, encAdj, decAdj_id]
  have h2 : vget (setIndex (encAdj m c) "id" id.enc) "method" = some (.str m) := by
    simp [vget, setIndex, encAdj, AMap.get_insert, get_ob_cons]
  have h3 : vget (setIndex (encAdj m c) "id" id.enc) "id" = some id.enc := by
    simp [vget, setIndex, encAdj, AMap.get_insert]
  simp [serialize, h, parse, h1, h2, h3]

theorem parse_adj (m : String) (c : Option Json) : parse (encAdj m c) = TMsg.dec (encAdj m c) := by
  have h3 : Progress.dec (encAdj m c) = none := decProgress_none _ (by simp [get_ob_cons])
  have h4 : Cancelled.dec (encAdj m c) = none := decCancelled_none _ (by simp [get_ob_cons])
  rw [tm_dec_adj]
  simp [parse, vget, encAdj, get_ob_cons, Notification.dec]
  simp only [encAdj] at h3 h4
  simp [h3, h4]

theorem parse_response (r : RpcResponse) : parse r.enc = (RpcResponse.dec r.enc).map .response := by
  obtain ⟨v, i, p⟩ := r
  cases p <;> simp [parse, RpcResponse.enc, vget, AMap.get_cons, Payload.entry]

/-- **C151** (exact form). A message comes back through the transport's own form exactly if it survives the
derived form of C97 and is no bare progress or cancellation notification. Missing from the property: those
(`C151_bare_lost`) and the exceptions of C97. -/
theorem C151_round_trip_partial (m : TMsg) (hw : m.WF) : parse (serialize m) = some m ↔ m.HttpSurvives ∧ ¬ Bare m := by
  cases m with
  | request id r =>
    rw [parse_request, ← request_dec_enc r hw id]
    cases Request.dec r.enc <;> simp [Bare]
  | response r =>
    rw [show serialize (.response r) = r.enc from rfl, parse_response, show TMsg.HttpSurvives (.response r) = r.Ok from rfl,
      ← RpcResponse.rt_iff]
    cases RpcResponse.dec r.enc <;> simp [Bare]
  | notification n =>
    have hx := C97_http_round_trip_partial (.notification n) trivial
    cases n with
    | client n =>
      have : parse (serialize (.notification (.client n))) = TMsg.dec (TMsg.enc (.notification (.client n))) := by
        cases n <;> exact parse_adj _ _
      rw [this, hx]; simp [Bare]
    | server n =>
      have : parse (serialize (.notification (.server n))) = TMsg.dec (TMsg.enc (.notification (.server n))) := by
        cases n <;> exact parse_adj _ _
      rw [this, hx]; simp [Bare]
    | progress p =>
      simp [Bare, serialize, Notification.enc, parse, vget, Progress.enc, get_ob_cons]
    | cancelled p =>
      simp [Bare, serialize, Notification.enc, parse, vget, Cancelled.enc, get_ob_cons]

example : TMsg.WF (.request (.str "1") (.client .ping)) ∧ TMsg.HttpSurvives (.request (.str "1") (.client .ping)) ∧
    ¬ Bare (.request (.str "1") (.client .ping)) := ⟨trivial, trivial, id⟩

/-- **C151** fails for every bare progress or cancellation notification: the receiver drops it. -/
theorem C151_bare_lost (m : TMsg) (h : Bare m) : parse (serialize m) = none := by
  cases m with
  | notification n =>
    cases n with
    | progress p => simp [serialize, Notification.enc, parse, vget, Progress.enc, get_ob_cons]
    | cancelled p => simp [serialize, Notification.enc, parse, vget, Cancelled.enc, get_ob_cons]
    | _ => exact h.elim
  | _ => exact h.elim

example : Bare (.notification (.cancelled ⟨.str "1", none⟩)) := trivial

/-! ### C152: messages to the other transports -/

/-- **C152** fails for every request and every notification: what this transport sends lacks the version member,
and the transports that read with `parse_message` (the library's WebSocket server among them) refuse it. -/
theorem C152_native_refuses (m : TMsg) (h : ∀ r, m ≠ .response r) : parseMessage (serialize m) = none := by
  have adj : ∀ (n : String) (c : Option Json), parseMessage (encAdj n c) = none := by
    intro n c
    simp [parseMessage, vget, encAdj, get_ob_cons, parseNotification, RpcNotification.dec]
  cases m with
  | request id r =>
    obtain ⟨n, c, hr⟩ := request_enc_obj r
    simp [serialize, hr, parseMessage, vget, encAdj, setIndex, AMap.get_insert, get_ob_cons, RpcRequest.dec]
  | response r => exact absurd rfl (h r)
  | notification n =>
    cases n with
    | client n => cases n <;> exact adj _ _
    | server n => cases n <;> exact adj _ _
    | progress p => simp [serialize, Notification.enc, parseMessage, vget, Progress.enc, get_ob_cons]
    | cancelled p => simp [serialize, Notification.enc, parseMessage, vget, Cancelled.enc, get_ob_cons]

example : ∀ r, TMsg.request (.str "1") (.client .ping) ≠ .response r := by intro r h; cases h

/-- **C152**, responses: understood on both sides, in both directions. Missing from the property: requests and
notifications to the other transports (`C152_native_refuses`). -/
theorem C152_responses_partial (r : RpcResponse) (h : r.Ok) :
    parseMessage (serialize (.response r)) = some (.response r) ∧ parse (serializeMessage (.response r)) = some (.response r) := by
  refine ⟨(C96_message_round_trip_partial (.response r)).mpr h, ?_⟩
  show parse r.enc = _
  rw [parse_response, (RpcResponse.rt_iff r).mpr h]
  rfl

example : RpcResponse.Ok ⟨"2.0", .str "1", .result .null⟩ := by intro e he; cases he

theorem parse_rpc_request (v : String) (id : Id) (m : String) (c : Option Json) :
    parse (RpcRequest.enc ⟨v, id, m, c⟩) = (Request.dec (encAdj m c)).map (.request id) := by
  have h1 : Request.dec (RpcRequest.enc ⟨v, id, m, c⟩) = Request.dec (encAdj m c) := by
    simp [Request.dec, ClientRequest.dec, ServerRequest.dec, decAdj, RpcRequest.enc, encAdj, get_ob_cons]
  rw [parse, h1]
  simp [vget, RpcRequest.enc, get_ob_cons]

/-- **C152** (exact form), requests from the other transports: a client request arrives exactly if it is
representable; the server's requests arrive except for sampling, which arrives as the client's, and elicitation,
whose method name this transport does not know. -/
theorem C152_from_native_partial (id : Id) (r : Request) (h : r.WF) :
    parse (serializeMessage (.request id r)) = some (.request id r) ↔
      TMsg.HttpSurvives (.request id r) ∧ ∀ p, r ≠ .server (.elicit p) := by
  have key : ∀ r' : Request, (∀ p, r' ≠ .server (.elicit p)) → serializeMessage (.request id r') =
      RpcRequest.enc ⟨"2.0", id, (createRequest id r').method, (createRequest id r').params⟩ ∧
      encAdj (createRequest id r').method (createRequest id r').params = r'.enc := by
    intro r' hr
    cases r' with
    | client r => cases r <;> exact ⟨rfl, rfl⟩
    | server r =>
      cases r with
      | elicit p => exact absurd rfl (hr p)
      | _ => exact ⟨rfl, rfl⟩
  by_cases he : ∀ p, r ≠ .server (.elicit p)
  · obtain ⟨h1, h2⟩ := key r he
    rw [h1, parse_rpc_request, h2, ← request_dec_enc r h id]
    constructor
    · intro hd
      refine ⟨?_, he⟩
      cases hq : Request.dec r.enc with
      | none => rw [hq] at hd; cases hd
      | some q => rw [hq] at hd; simpa using hd
    · rintro ⟨hd, _⟩
      rw [hd]; rfl
  · have : ∃ p, r = .server (.elicit p) := by
      cases r with
      | client r => exact absurd (fun p hp => by cases hp) he
      | server r =>
        cases r with
        | elicit p => exact ⟨p, rfl⟩
        | _ => exact absurd (fun p hp => by cases hp) he
    obtain ⟨p, rfl⟩ := this
    have hn : parse (serializeMessage (.request id (.server (.elicit p)))) = none := by
      show parse (RpcRequest.enc ⟨"2.0", id, "elicitation/input", some p.enc⟩) = none
      rw [parse_rpc_request]
      simp [Request.dec, ClientRequest.dec, ServerRequest.dec, decAdj_enc, ClientRequest.table, ServerRequest.table,
        AMap.get_cons]
    rw [hn]
    simp

/-! ### C153: the connection is waited for -/

theorem waitFrom_ok (state : Nat → Ready) (left : Nat) : ∀ a, waitFrom state a left = .ok ↔
    ∃ k, a ≤ k ∧ k ≤ a + left ∧ state k = .open_ ∧ ∀ i, a ≤ i → i < k → state i = .connecting := by
  induction left with
  | zero =>
    intro a
    simp only [waitFrom]
    constructor
    · intro h
      refine ⟨a, Nat.le_refl _, by omega, ?_, fun i _ _ => by omega⟩
      revert h; split <;> simp_all
    · rintro ⟨k, h1, h2, h3, _⟩
      obtain rfl : k = a := by omega
      simp [h3]
  | succ left ih =>
    intro a
    simp only [waitFrom]
    constructor
    · intro h
      cases hs : state a with
      | connecting =>
        rw [hs] at h
        obtain ⟨k, h1, h2, h3, h4⟩ := (ih (a + 1)).mp h
        refine ⟨k, by omega, by omega, h3, fun i hi hk => ?_⟩
        rcases Nat.eq_or_lt_of_le hi with rfl | hlt
        · exact hs
        · exact h4 i hlt hk
      | open_ => exact ⟨a, Nat.le_refl _, by omega, hs, fun i _ _ => by omega⟩
      | closing => rw [hs] at h; cases h
      | closed => rw [hs] at h; cases h
    · rintro ⟨k, h1, h2, h3, h4⟩
      rcases Nat.eq_or_lt_of_le h1 with rfl | hlt
      · simp [h3]
      · rw [h4 a (Nat.le_refl _) hlt]
        exact (ih (a + 1)).mpr ⟨k, hlt, by omega, h3, fun i hi hk => h4 i (by omega) hk⟩

theorem waitFrom_timeout (state : Nat → Ready) (left : Nat) : ∀ a, waitFrom state a left = .timeout ↔
    ∀ i, a ≤ i → i ≤ a + left → state i = .connecting := by
  induction left with
  | zero =>
    intro a
    simp only [waitFrom]
    constructor
    · intro h i h1 h2
      obtain rfl : i = a := by omega
      revert h; split <;> simp_all
    · intro h; rw [h a (Nat.le_refl _) (by omega)]
  | succ left ih =>
    intro a
    simp only [waitFrom]
    constructor
    · intro h
      cases hs : state a with
      | connecting =>
        rw [hs] at h
        intro i h1 h2
        rcases Nat.eq_or_lt_of_le h1 with rfl | hlt
        · exact hs
        · exact (ih (a + 1)).mp h i hlt (by omega)
      | open_ => rw [hs] at h; cases h
      | closing => rw [hs] at h; cases h
      | closed => rw [hs] at h; cases h
    · intro h
      rw [h a (Nat.le_refl _) (by omega)]
      exact (ih (a + 1)).mpr (fun i h1 h2 => h i (by omega) (by omega))

/-- **C153**. `connect` succeeds exactly if the socket is open at one of the first 101 looks, 100 ms apart, and was
connecting at every look before; it reports a timeout exactly if the socket is still connecting at all of them; in all
other cases, where the socket closes first, it fails. -/
theorem C153_wait (state : Nat → Ready) :
    (waitForOpen state = .ok ↔ ∃ k ≤ 100, state k = .open_ ∧ ∀ i < k, state i = .connecting) ∧
    (waitForOpen state = .timeout ↔ ∀ i ≤ 100, state i = .connecting) ∧
    (waitForOpen state = .failed ↔
      ∃ k ≤ 100, (state k = .closing ∨ state k = .closed) ∧ ∀ i < k, state i = .connecting) := by
  have h1 : waitForOpen state = .ok ↔ ∃ k ≤ 100, state k = .open_ ∧ ∀ i < k, state i = .connecting := by
    rw [waitForOpen, waitFrom_ok]
    constructor
    · rintro ⟨k, _, h2, h3, h4⟩; exact ⟨k, by omega, h3, fun i hi => h4 i (by omega) hi⟩
    · rintro ⟨k, h2, h3, h4⟩; exact ⟨k, by omega, by omega, h3, fun i _ hi => h4 i hi⟩
  have h2 : waitForOpen state = .timeout ↔ ∀ i ≤ 100, state i = .connecting := by
    rw [waitForOpen, waitFrom_timeout]
    exact ⟨fun h i hi => h i (by omega) (by omega), fun h i _ hi => h i (by omega)⟩
  refine ⟨h1, h2, ?_⟩
  constructor
  · intro h
    have n1 : ¬ ∀ i ≤ 100, state i = .connecting := fun hc => by rw [h2.mpr hc] at h; cases h
    -- the first look at which the socket is no longer connecting
    have hex : ∃ k ≤ 100, state k ≠ .connecting ∧ ∀ i < k, state i = .connecting := by
      have aux : ∀ n, (∃ k ≤ n, state k ≠ .connecting ∧ ∀ i < k, state i = .connecting) ∨
          ∀ i ≤ n, state i = .connecting := by
        intro n
        induction n with
        | zero =>
          by_cases h0 : state 0 = .connecting
          · exact .inr (fun i hi => by obtain rfl : i = 0 := by omega
                                       exact h0)
          · exact .inl ⟨0, Nat.le_refl _, h0, fun i hi => by omega⟩
        | succ n ih =>
          rcases ih with ⟨k, hk, a, b⟩ | ih
          · exact .inl ⟨k, by omega, a, b⟩
          · by_cases h0 : state (n + 1) = .connecting
            · exact .inr (fun i hi => by
                rcases Nat.eq_or_lt_of_le hi with rfl | hlt
                · exact h0
                · exact ih i (by omega))
            · exact .inl ⟨n + 1, Nat.le_refl _, h0, fun i hi => ih i (by omega)⟩
      exact (aux 100).resolve_right n1
    obtain ⟨k, hk, hne, hb⟩ := hex
    refine ⟨k, hk, ?_, hb⟩
    cases hs : state k with
    | connecting => exact absurd hs hne
    | open_ => rw [h1.mpr ⟨k, hk, hs, hb⟩] at h; cases h
    | closing => exact .inl rfl
    | closed => exact .inr rfl
  · rintro ⟨k, hk, hs, hb⟩
    cases hw : waitForOpen state with
    | failed => rfl
    | timeout => rw [h2.mp hw k hk] at hs; rcases hs with hs | hs <;> cases hs
    | ok =>
      obtain ⟨k', hk', hs', hb'⟩ := h1.mp hw
      rcases Nat.lt_trichotomy k k' with hlt | rfl | hlt
      · rw [hb' k hlt] at hs; rcases hs with hs | hs <;> cases hs
      · rw [hs'] at hs; rcases hs with hs | hs <;> cases hs
      · rw [hb k' hlt] at hs'; cases hs'

example : waitForOpen (fun k => if k < 100 then .connecting else .open_) = .ok ∧
    waitForOpen (fun k => if k < 101 then .connecting else .open_) = .timeout ∧
    waitForOpen (fun k => if k < 3 then .connecting else .closed) = .failed := by decide

/-! ### C154: what is received, and the end of the connection -/

/-- The messages among the frames of a history, in order of arrival. (Specification: no counterpart in the code.) -/
def arrived : List Event → List TMsg
  | [] => []
  | .text (some j) :: es => (match parse j with | some m => [m] | none => []) ++ arrived es
  | _ :: es => arrived es

/-- The messages `receive` returned, in order. (Specification: no counterpart in the code.) -/
def got : List Out → List TMsg
  | [] => []
  | .received m :: os => m :: got os
  | _ :: os => got os

/-- **C154**, order. In every history the messages returned so far followed by those waiting are the messages that
arrived, in order, whatever the ready state. -/
theorem C154_order (s : State) (es : List Event) :
    got (run s es).2 ++ (run s es).1.queue = s.queue ++ arrived es := by
  induction es generalizing s with
  | nil => simp [run, got, arrived]
  | cons e es ih =>
    have h := ih (step s e).1
    simp only [run]
    cases e with
    | ready r => simpa [step, got, arrived] using h
    | text j =>
      cases j with
      | none => simpa [step, got, arrived] using h
      | some j =>
        simp only [arrived]
        cases hp : parse j with
        | none => simpa [step, hp, got] using h
        | some m => simpa [step, hp, got] using h
    | binary => simpa [step, got, arrived] using h
    | send m =>
      simp only [step, arrived] at h ⊢
      split at h <;> simp_all [got]
    | receive =>
      cases hq : s.queue with
      | nil => simp only [step, hq, arrived] at h ⊢; simpa [got] using h
      | cons m q => simp only [step, hq, arrived] at h ⊢; simpa [got] using h
    | close => simpa [step, got, arrived] using h

/-- **C154**, no waiting: `receive` returns the first message not yet returned if one has arrived, at once and in
every ready state, and waits exactly if there is none. -/
theorem C154_next (s : State) (es : List Event) :
    (∀ m q, s.queue ++ arrived es = got (run s es).2 ++ m :: q →
      (step (run s es).1 .receive).2 = .received m ∧ (step (run s es).1 .receive).1.queue = q) ∧
      ((step (run s es).1 .receive).2 = .waits ↔ s.queue ++ arrived es = got (run s es).2) := by
  have ho := C154_order s es
  constructor
  · intro m q h
    rw [← ho] at h
    have hq := List.append_cancel_left h
    simp [step, hq]
  · rw [← ho]
    cases hq : (run s es).1.queue with
    | nil => simp [step, hq]
    | cons m q => simp [step, hq]

example (m : TMsg) : (step (run { ready := .closed, queue := [m] } [.binary]).1 .receive).2 = .received m :=
  ((C154_next { ready := .closed, queue := [m] } [.binary]).1 m [] rfl).1

/-- **C154** fails at the end: once the connection is closed and everything is read, `receive` waits, and goes on
waiting whatever the program does (a closed socket delivers no frames and never opens again). -/
theorem C154_never_ends (s : State) (h : s.queue = []) (es : List Event)
    (hq : ∀ e ∈ es, ∀ j, e ≠ .text j) : (step (run s es).1 .receive).2 = .waits := by
  have : (run s es).1.queue = [] := by
    have ho := C154_order s es
    have ha : arrived es = [] := by
      clear ho
      induction es with
      | nil => rfl
      | cons e es ih =>
        have := hq e (by simp)
        have ht := ih (fun x hx => hq x (by simp [hx]))
        cases e with
        | text j => exact absurd rfl (this j)
        | _ => exact ht
    rw [h, ha] at ho
    exact (List.append_eq_nil_iff.mp ho).2
  simp [step, this]

example : (step (run { ready := .open_ } [.close, .ready .closed]).1 .receive).2 = .waits :=
  C154_never_ends _ rfl _ (by intro e he j hj; subst hj; simp at he)

/-- The last ready state of a history that begins in state `r`; `close` makes it closing unless it
was closed. (Specification: no counterpart in the code.) -/
def lastReady (r : Ready) : List Event → Ready
  | [] => r
  | .ready r' :: es => lastReady r' es
  | .close :: es => lastReady (if r = .closed then .closed else .closing) es
  | _ :: es => lastReady r es

/-- **C154**, sending: a message is handed to the browser exactly if the socket is open at that moment, and then
as its serialized form behind all others. -/
theorem C154_send (s : State) (es : List Event) (m : TMsg) :
    let t := (run s es).1
    ((step t (.send m)).2 = .sent ∧ (step t (.send m)).1.sent = t.sent ++ [serialize m] ∧ lastReady s.ready es = .open_) ∨
      ((step t (.send m)).2 = .notConnected ∧ (step t (.send m)).1.sent = t.sent ∧ lastReady s.ready es ≠ .open_) := by
  have hr : (run s es).1.ready = lastReady s.ready es := by
    induction es generalizing s with
    | nil => rfl
    | cons e es ih =>
      simp only [run]
      rw [ih]
      cases e with
      | ready r => rfl
      | close => rfl
      | binary => rfl
      | text j => simp only [step, lastReady]; split <;> rfl
      | send m => simp only [step, lastReady]; split <;> rfl
      | receive => simp only [step, lastReady]; split <;> rfl
  intro t
  by_cases ho : t.ready = .open_
  · left; simp only [step, if_pos ho]; exact ⟨trivial, trivial, hr ▸ ho⟩
  · right; simp only [step, if_neg ho]; exact ⟨trivial, trivial, hr ▸ ho⟩

example (m : TMsg) : lastReady .open_ [.send m, .close] ≠ .open_ := by simp [lastReady]

end Verif.Wasm
