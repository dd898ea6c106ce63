import Verif.Conform.InResults
import Verif.Server.Session

/-
C239: a running server with any client that keeps to the published schema. The messages are arbitrary JSON, parsed by
the transport and taken by the loop of `Server/Loop`; the schedule is arbitrary.
-/

namespace Verif.Conform

open Verif Verif.Wire Verif.Server

variable {W : Type}

/-- What the loop gets of a message: `receive` of the stdio transport and `process_next_message`.
/repo/src/shared/stdio.rs L141-215 and L218-264, /repo/src/server/mod.rs L448-474. -/
def taken (j : Json) : In := match parseMessage j with
  | none => .bad
  | some m => received m

/-! ### Specifications -/

/-- A message a client may send: a request or notification of a client, or a response. (Specification: no counterpart
in the code.) -/
def FromClient (j : Json) : Prop :=
  request clientRequests j = true ∨ notification clientNotifications j = true ∨
  (response (fun _ => true) j = true ∧ member j "method" = none ∧ member j "error" = none) ∨
  (errorResponse j = true ∧ member j "method" = none ∧ member j "result" = none)

/-- The id of a request: of a message with a method and an id. (Specification: no counterpart in the code.) -/
def askedId (j : Json) : Option Json :=
  if (member j "method").isSome then member j "id" else none

/-- The messages before the first that is not understood. (Specification: no counterpart in the code.) -/
def before : List Json → List Json
  | [] => []
  | j :: l => match parseMessage j with
    | none => []
    | some _ => j :: before l

/-- No task's `send` of a response fails. (Specification: no counterpart in the code.) -/
def NoFail (l : List LOp) : Prop := ∀ op ∈ l, op ≠ .readerFail

/-- Messages before the first that cannot be read. (Specification: no counterpart in the code.) -/
def untilBad : List In → List In
  | [] => []
  | .bad :: _ => []
  | .other :: l => .other :: untilBad l
  | .request id r :: l => .request id r :: untilBad l

/-! ### The loop with messages that cannot be read -/

theorem untilBad_bad (a b : List In) (h : In.bad ∈ a) : untilBad (a ++ b) = untilBad a := by
  induction a with
  | nil => cases h
  | cons x l ih => cases x <;> simp_all [untilBad]

theorem untilBad_good (a b : List In) (h : In.bad ∉ a) : untilBad (a ++ b) = a ++ untilBad b := by
  induction a with
  | nil => rfl
  | cons x l ih => cases x <;> simp_all [untilBad]

theorem untilBad_self (a : List In) (h : In.bad ∉ a) : untilBad a = a := by
  have := untilBad_good a [] h
  rw [List.append_nil] at this
  rw [this]; simp [untilBad]

/-- Where the loop is: as long as it goes on, it has read a first part of what arrived, all of it readable, and has
answered all of it but the request in its hands; when it is over, a message could not be read, and everything before it
has been answered. (Specification: no counterpart in the code.) -/
def Place (arr : List In) (s : LState W) : Prop :=
  (s.reader ≠ .ended → ∃ done, arr = done ++ s.input ∧ In.bad ∉ done ∧
    responseIds s.out ++ current s.reader = requestIds done) ∧
  (s.reader = .ended → In.bad ∈ arr ∧ responseIds s.out = requestIds (untilBad arr))

theorem place_step (srv : Srv W) (hp : NoPanic srv) (arr : List In) (s s' : LState W) (op : LOp) (hf : op ≠ .readerFail)
    (h : Place arr s) (hs : lstep srv s op = some s') : Place (arr ++ arrivals [op]) s' := by
  obtain ⟨h1, h2⟩ := h
  cases op <;> simp only [lstep] at hs
  case arrive m =>
    cases hs
    refine ⟨fun he => ?_, fun he => ?_⟩
    · obtain ⟨d, rfl, hb, hr⟩ := h1 he
      exact ⟨d, by simp [arrivals], hb, hr⟩
    · obtain ⟨hb, hr⟩ := h2 he
      refine ⟨List.mem_append_left _ hb, ?_⟩
      rw [untilBad_bad _ _ hb]; exact hr
  case post => cases hs; simpa [arrivals] using ⟨h1, h2⟩
  case reader =>
    simp only [arrivals, List.append_nil]
    split at hs
    · next hr =>
      cases hs
      obtain ⟨d, e, hb, hd⟩ := h1 (by rw [hr]; simp)
      exact ⟨fun _ => ⟨d, e, hb, by simpa [current, hr] using hd⟩, fun he => by cases he⟩
    · next hr =>
      obtain ⟨d, e, hb, hd⟩ := h1 (by rw [hr]; simp)
      rw [hr] at hd
      simp only [current, List.append_nil] at hd
      split at hs
      · split at hs
        · cases hs
        · next i hi =>
          cases hs
          refine ⟨fun he => absurd rfl he, fun _ => ?_⟩
          rw [e, hi]
          refine ⟨by simp, ?_⟩
          rw [untilBad_good _ _ hb]
          simpa [untilBad] using hd
        · next i hi =>
          cases hs
          refine ⟨fun _ => ⟨d ++ [.other], by simp [e, hi], by simpa using hb, ?_⟩, fun he => by cases he⟩
          simpa [current, requestIds_append, requestIds] using hd
        · next id r i hi =>
          cases hs
          refine ⟨fun _ => ⟨d ++ [.request id r], by simp [e, hi], by simpa using hb, ?_⟩, fun he => by cases he⟩
          simpa [current, requestIds_append, requestIds] using hd
      · cases hs
    · next id r hr =>
      obtain ⟨d, e, hb, hd⟩ := h1 (by rw [hr]; simp)
      rw [hr] at hd
      split at hs
      · next st' hh =>
        have := C63_answered_partial srv hp s.st id r
        rw [hh] at this; cases this
      · next resp st' hh =>
        cases hs
        have hid := C63_id srv s.st id r resp (by rw [hh])
        refine ⟨fun _ => ⟨d, e, hb, ?_⟩, fun he => by cases he⟩
        simpa [current, hid] using hd
    · next resp hr =>
      obtain ⟨d, e, hb, hd⟩ := h1 (by rw [hr]; simp)
      rw [hr] at hd
      split at hs
      · cases hs
        refine ⟨fun _ => ⟨d, e, hb, ?_⟩, fun he => by cases he⟩
        simpa [current, responseIds_append, responseIds] using hd
      · cases hs
    · cases hs
  case readerFail => exact absurd rfl hf
  case notifier =>
    simp only [arrivals, List.append_nil]
    split at hs
    · split at hs
      · cases hs
      · cases hs; exact ⟨h1, h2⟩
    · split at hs
      · cases hs
        refine ⟨fun he => ?_, fun he => ?_⟩
        · simpa [responseIds_append, responseIds] using h1 he
        · simpa [responseIds_append, responseIds] using h2 he
      · cases hs
  case notifierFail =>
    simp only [arrivals, List.append_nil]
    split at hs
    · cases hs; exact ⟨h1, h2⟩
    · cases hs

theorem place_run (srv : Srv W) (hp : NoPanic srv) (l : List LOp) (s s' : LState W) (arr : List In) (hf : NoFail l)
    (h : Place arr s) (hs : lrun srv s l = some s') : Place (arr ++ arrivals l) s' := by
  induction l generalizing s arr with
  | nil => simp only [lrun, Option.some.injEq] at hs; subst hs; simpa [arrivals] using h
  | cons op l ih =>
    simp only [lrun] at hs
    cases h1 : lstep srv s op with
    | none => rw [h1] at hs; cases hs
    | some t =>
      rw [h1] at hs
      have := ih t (arr ++ arrivals [op]) (fun o ho => hf o (List.mem_cons_of_mem _ ho))
        (place_step srv hp arr s t op (hf op List.mem_cons_self) h h1) hs
      rw [List.append_assoc, ← arrivals_append] at this
      exact this

theorem place_start (st : St W) : Place [] (LState.start st) :=
  ⟨fun _ => ⟨[], rfl, by simp, rfl⟩, fun h => by cases h⟩

/-- At rest: everything up to the first message that cannot be read is answered. -/
theorem at_rest (srv : Srv W) (hp : NoPanic srv) (st : St W) (l : List LOp) (s : LState W) (hf : NoFail l)
    (h : lrun srv (LState.start st) l = some s) (hq : Quiet srv s) :
    responseIds s.out = requestIds (untilBad (arrivals l)) ∧ (s.reader = .ended ↔ In.bad ∈ arrivals l) := by
  obtain ⟨h1, h2⟩ := place_run srv hp l _ s [] hf (place_start st) h
  rw [List.nil_append] at h1 h2
  by_cases he : s.reader = .ended
  · exact ⟨(h2 he).2, fun _ => (h2 he).1, fun _ => he⟩
  · obtain ⟨hr, hi⟩ := quiet_reader srv st l s h hq he
    obtain ⟨d, e, hb, hd⟩ := h1 he
    rw [hi, List.append_nil] at e
    rw [hr] at hd
    subst e
    refine ⟨?_, fun h => absurd h he, fun h => absurd h hb⟩
    rw [untilBad_self _ hb]
    simpa [current] using hd

/-! ### From JSON -/

theorem mem_untilBad_taken (js : List Json) : untilBad (js.map taken) = (before js).map taken := by
  induction js with
  | nil => rfl
  | cons j js ih =>
    simp only [List.map_cons, before]
    cases h : parseMessage j with
    | none => simp [taken, h, untilBad]
    | some m =>
      have : taken j = received m := by simp [taken, h]
      simp only [List.map_cons, this]
      cases m <;> simp [received, untilBad, ih]

theorem bad_taken (js : List Json) : In.bad ∈ js.map taken ↔ ∃ j ∈ js, parseMessage j = none := by
  simp only [List.mem_map]
  refine exists_congr fun j => and_congr Iff.rfl ?_
  unfold taken
  cases parseMessage j with
  | none => simp
  | some m => cases m <;> simp [received]

/-- The id the loop sees is the one in the message. -/
theorem taken_id (j : Json) (h : FromClient j) (hs : (parseMessage j).isSome) :
    (requestIds [taken j]).map Id.enc = (askedId j).toList := by
  obtain ⟨m, hm⟩ := Option.isSome_iff_exists.mp hs
  have ht : taken j = received m := by simp [taken, hm]
  rw [ht]
  rcases h with h | h | ⟨h, h1, h2⟩ | ⟨h, h1, h2⟩
  · obtain ⟨f, rfl, -⟩ := (object_iff _ _).mp h
    obtain ⟨hv, ⟨i, hi, hr⟩, k, p, hk, -, -⟩ := valid_request _ f h
    cases hd : Id.dec i with
    | none => rw [parse_bad_id f k i hi hd hk] at hm; cases hm
    | some id =>
      have e := id_enc i id hr hd
      have : ∃ q, m = .request id q := by
        rw [parse_request f "2.0" k id i hv hi hd hk] at hm
        split at hm
        · cases hm; exact ⟨_, rfl⟩
        · simp only [Option.map_eq_some_iff] at hm
          obtain ⟨q, -, rfl⟩ := hm
          exact ⟨_, rfl⟩
      obtain ⟨q, rfl⟩ := this
      simp [received, requestIds, askedId, member, hk, hi, e]
  · obtain ⟨f, rfl, -⟩ := (object_iff _ _).mp h
    obtain ⟨hv, hi, k, p, hk, -, -⟩ := valid_notification _ f h
    have : ∃ n, m = .notification n := by
      unfold parseMessage at hm
      simp only [vget, hk, hi, Option.isSome_some, Option.isSome_none, if_true, Bool.false_eq_true, if_false,
        Option.map_eq_some_iff] at hm
      obtain ⟨n, -, rfl⟩ := hm
      exact ⟨n, rfl⟩
    obtain ⟨n, rfl⟩ := this
    simp [received, requestIds, askedId, member, hk, hi]
  all_goals
    obtain ⟨f, rfl, -⟩ := (object_iff _ _).mp h
    simp only [member] at h1 h2
    have : ∃ r, m = .response r := by
      have hv : ¬ (vget (.obj f) "method").isSome = true := by simp [vget, h1]
      unfold parseMessage at hm
      rw [if_neg hv] at hm
      by_cases hc : ((vget (.obj f) "result").isSome || (vget (.obj f) "error").isSome) = true
      · rw [if_pos hc, Option.map_eq_some_iff] at hm
        obtain ⟨r, -, rfl⟩ := hm
        exact ⟨r, rfl⟩
      · rw [if_neg hc] at hm; cases hm
    obtain ⟨r, rfl⟩ := this
    simp [received, requestIds, askedId, member, h1]

theorem before_parsed (js : List Json) : ∀ j ∈ before js, j ∈ js ∧ (parseMessage j).isSome := by
  induction js with
  | nil => intro j h; cases h
  | cons x js ih =>
    intro j h
    simp only [before] at h
    split at h
    · cases h
    · next m hm =>
      rcases List.mem_cons.mp h with rfl | h
      · exact ⟨List.mem_cons_self, by rw [hm]; rfl⟩
      · exact ⟨List.mem_cons_of_mem _ (ih j h).1, (ih j h).2⟩

theorem taken_ids (js : List Json) (h : ∀ j ∈ js, FromClient j ∧ (parseMessage j).isSome) :
    (requestIds (js.map taken)).map Id.enc = js.filterMap askedId := by
  induction js with
  | nil => rfl
  | cons j js ih =>
    have h1 := taken_id j (h j List.mem_cons_self).1 (h j List.mem_cons_self).2
    have h2 := ih (fun k hk => h k (List.mem_cons_of_mem _ hk))
    have e : (j :: js).map taken = [taken j] ++ js.map taken := rfl
    rw [e, requestIds_append, List.map_append, h1, h2]
    cases ha : askedId j <;> simp [ha]

theorem before_all (js : List Json) (h : ∀ j ∈ js, (parseMessage j).isSome) : before js = js := by
  induction js with
  | nil => rfl
  | cons j js ih =>
    obtain ⟨m, hm⟩ := Option.isSome_iff_exists.mp (h j List.mem_cons_self)
    simp only [before, hm, ih (fun k hk => h k (List.mem_cons_of_mem _ hk))]

theorem before_stop (pre post : List Json) (j : Json) (h : ∀ j ∈ pre, (parseMessage j).isSome) (hj : parseMessage j = none) :
    before (pre ++ j :: post) = pre := by
  induction pre with
  | nil => simp [before, hj]
  | cons k pre ih =>
    obtain ⟨m, hm⟩ := Option.isSome_iff_exists.mp (h k List.mem_cons_self)
    simp only [List.cons_append, before, hm, ih (fun k hk => h k (List.mem_cons_of_mem _ hk))]

/-- What the crate takes of the messages of a client. (Specification: no counterpart in the code.) -/
def Accepted (f : List (String × Json)) : Prop :=
  ((AMap.get f "id").isSome → IdFits f) ∧
  (AMap.get f "method" = some (.str "initialize") →
    ∀ p c, AMap.get f "params" = some (.obj p) → AMap.get p "capabilities" = some (.obj c) → PlainCaps c) ∧
  (AMap.get f "method" ≠ none → AMap.get f "method" ≠ some (.str "initialize") → AMap.get f "id" ≠ none → Understood f) ∧
  ((AMap.get f "method").isSome → AMap.get f "id" = none → NotifUnderstood f) ∧
  (AMap.get f "method" = none → ∀ e n, AMap.get f "error" = some (.obj e) → AMap.get e "code" = some (.num (.int n)) →
    -2 ^ 31 ≤ n ∧ n < 2 ^ 31)

theorem accepted_parsed (f : List (String × Json)) (h : FromClient (.obj f)) (ha : Accepted f) :
    (parseMessage (.obj f)).isSome := by
  obtain ⟨a1, a2, a2', a3, a4⟩ := ha
  rcases h with h | h | ⟨h, h1, h2⟩ | ⟨h, h1, h2⟩
  · obtain ⟨hv, ⟨i, hi, hr⟩, k, p, hk, hp, hck⟩ := valid_request _ f h
    by_cases hc : AMap.get f "method" = some (.str "initialize")
    · cases hc.symm.trans hk
      have hpe : p = .needed [must "protocolVersion" str, must "capabilities" clientCapabilities,
          must "clientInfo" implementation] := by
        rw [show AMap.get clientRequests "initialize" = some (.needed [must "protocolVersion" str,
          must "capabilities" clientCapabilities, must "clientInfo" implementation]) from rfl] at hp
        exact (Option.some.inj hp).symm
      subst hpe
      obtain ⟨g, hg, -, hl⟩ := (needed_iff _ f).mp hck
      obtain ⟨c, hcap, hcs⟩ := (must_iff _ _ _).mp (hl (must "capabilities" clientCapabilities) (by simp))
      obtain ⟨c, rfl, -⟩ := (object_iff _ _).mp hcs
      obtain ⟨id, q, n, hpm, -⟩ := C189_initialize_partial f g c h hc (a1 (by rw [hi]; rfl)) hg hcap (a2 hc g c hg hcap)
      rw [hpm]; rfl
    · exact (C189_requests_partial f h hc).mpr (a2' (by rw [hk]; simp) hc (by rw [hi]; simp))
  · obtain ⟨hv, hi, k, p, hk, -, -⟩ := valid_notification _ f h
    exact (C191_notifications_partial _ (.inl rfl) f h).mpr (a3 (by rw [hk]; rfl) hi)
  · simp only [member] at h1 h2
    have h' := h
    simp only [response, object_obj, List.all_cons, List.all_nil, Bool.and_true, Bool.and_eq_true, must_iff] at h'
    obtain ⟨-, ⟨i, hi, -⟩, -⟩ := h'
    exact (C192_responses_partial _ f h h1 h2).1.mpr (a1 (by rw [hi]; rfl))
  · simp only [member] at h1 h2
    have h' := h
    simp only [errorResponse, object_obj, List.all_cons, List.all_nil, Bool.and_true, Bool.and_eq_true, must_iff] at h'
    obtain ⟨-, ⟨i, hi, -⟩, e, he, hes⟩ := h'
    obtain ⟨e, rfl, -⟩ := (object_iff _ _).mp hes
    exact (C192_errors_partial f e h h1 h2 he).1.mpr ⟨a1 (by rw [hi]; rfl), fun n hn => a4 h1 e n he hn⟩

/-! ### C239 -/

/-- **C239** (exactly). Whatever messages a conforming client sends and in whatever schedule they are taken: at rest the
ids in the responses are those of the requests before the first message the crate does not understand, as they were
sent and in that order, and the loop goes on if and only if it understood all of them. -/
theorem C239_exact (srv : Srv W) (hp : NoPanic srv) (st : St W) (js : List Json) (l : List LOp) (s : LState W)
    (hf : NoFail l) (h : lrun srv (LState.start st) l = some s) (hq : Quiet srv s) (ha : arrivals l = js.map taken)
    (hc : ∀ j ∈ js, FromClient j) :
    (responseIds s.out).map Id.enc = (before js).filterMap askedId ∧
      (s.reader ≠ .ended ↔ ∀ j ∈ js, (parseMessage j).isSome) := by
  obtain ⟨h1, h2⟩ := at_rest srv hp st l s hf h hq
  rw [ha] at h1 h2
  refine ⟨?_, ?_⟩
  · rw [h1, mem_untilBad_taken]
    exact taken_ids _ (fun j hj => ⟨hc j (before_parsed js j hj).1, (before_parsed js j hj).2⟩)
  · rw [Ne, h2, bad_taken]
    constructor
    · intro hn j hj
      cases hm : parseMessage j with
      | none => exact absurd ⟨j, hj, hm⟩ hn
      | some m => rfl
    · rintro hn ⟨j, hj, hm⟩
      have := hn j hj
      rw [hm] at this; cases this

/-- **C239**. If the crate takes all messages of a conforming client, every request is answered once, in order, with the
id it was sent with, and the server goes on. Missing from the property: the messages `Accepted` excludes, the first of
which ends the server (`C239_bare_list`). -/
theorem C239_served_partial (srv : Srv W) (hp : NoPanic srv) (st : St W) (js : List (List (String × Json))) (l : List LOp)
    (s : LState W) (hf : NoFail l) (h : lrun srv (LState.start st) l = some s) (hq : Quiet srv s)
    (ha : arrivals l = (js.map Json.obj).map taken) (hc : ∀ f ∈ js, FromClient (.obj f) ∧ Accepted f) :
    (responseIds s.out).map Id.enc = (js.map Json.obj).filterMap askedId ∧ s.reader ≠ .ended := by
  have hall : ∀ j ∈ js.map Json.obj, (parseMessage j).isSome := by
    intro j hj
    obtain ⟨f, hf, rfl⟩ := List.mem_map.mp hj
    exact accepted_parsed f (hc f hf).1 (hc f hf).2
  obtain ⟨h1, h2⟩ := C239_exact srv hp st _ l s hf h hq ha (by
    intro j hj
    obtain ⟨f, hf, rfl⟩ := List.mem_map.mp hj
    exact (hc f hf).1)
  rw [before_all _ hall] at h1
  exact ⟨h1, h2.mpr hall⟩

/-- **C239, refuted**. A list request without `params` is valid; whatever was sent before it and whatever follows, the
server stops at it: it answers what came before and nothing else, ever. -/
theorem C239_bare_list (srv : Srv W) (hp : NoPanic srv) (st : St W) (pre post : List Json) (id : Id) (m : String)
    (hm : m ∈ listMethods) (l : List LOp) (s : LState W) (hf : NoFail l) (h : lrun srv (LState.start st) l = some s)
    (hq : Quiet srv s)
    (ha : arrivals l = (pre ++ .obj [("jsonrpc", .str "2.0"), ("id", id.enc), ("method", .str m)] :: post).map taken)
    (hpre : ∀ j ∈ pre, FromClient j ∧ (parseMessage j).isSome) (hpost : ∀ j ∈ post, FromClient j) :
    FromClient (.obj [("jsonrpc", .str "2.0"), ("id", id.enc), ("method", .str m)]) ∧
    (responseIds s.out).map Id.enc = pre.filterMap askedId ∧ s.reader = .ended := by
  obtain ⟨hv, hn⟩ := C189_bare_list id m hm
  have hfc : FromClient (.obj [("jsonrpc", .str "2.0"), ("id", id.enc), ("method", .str m)]) := .inl hv
  obtain ⟨h1, h2⟩ := C239_exact srv hp st _ l s hf h hq ha (by
    intro j hj
    rcases List.mem_append.mp hj with hj | hj
    · exact (hpre j hj).1
    · rcases List.mem_cons.mp hj with rfl | hj
      · exact hfc
      · exact hpost j hj)
  rw [before_stop _ _ _ (fun j hj => (hpre j hj).2) hn] at h1
  refine ⟨hfc, h1, ?_⟩
  cases hr : s.reader with
  | ended => rfl
  | _ =>
    have := h2.mp (by rw [hr]; simp) _ (List.mem_append_right _ List.mem_cons_self)
    rw [hn] at this; cases this

/-! ### A session -/

/-- (Specification: no counterpart in the code.) -/
def quietServer : Srv Nat := build ⟨"s", "1"⟩ (fun _ => "json") [.tool "echo" (fun v _ w => (.ok v, w + 1))]

theorem quietServer_noPanic : NoPanic quietServer := by
  refine ⟨?_, ?_, ?_, ?_, ?_⟩
  · intro n h hg a e w
    by_cases hn : n = "echo"
    · subst hn; cases hg; simp
    · have : AMap.get quietServer.tools n = none := by
        have h1 : quietServer.tools = AMap.insert [] "echo" (fun v _ w => (.ok v, w + 1)) := rfl
        rw [h1, AMap.get_insert, if_neg hn]; rfl
      rw [this] at hg; cases hg
  · intro n h hg; cases hg
  · intro h hg; cases hg
  · intro h hg; cases hg
  · intro h hg; cases hg

/-- The handshake. (Specification: no counterpart in the code.) -/
def helloMsg : List (String × Json) :=
  [("jsonrpc", .str "2.0"), ("id", .num (.int 0)), ("method", .str "initialize"), ("params", .obj
    [("protocolVersion", .str "2025-06-18"), ("capabilities", .obj []), ("clientInfo", .obj
      [("name", .str "c"), ("version", .str "1")])])]

/-- (Specification: no counterpart in the code.) -/
def readyMsg : List (String × Json) := [("jsonrpc", .str "2.0"), ("method", .str "notifications/initialized")]

/-- A call. (Specification: no counterpart in the code.) -/
def callMsg : List (String × Json) :=
  [("jsonrpc", .str "2.0"), ("id", .str "a"), ("method", .str "tools/call"), ("params", .obj
    [("name", .str "echo"), ("arguments", .obj [])])]

/-- A list request without `params`. (Specification: no counterpart in the code.) -/
def bareMsg : List (String × Json) :=
  [("jsonrpc", .str "2.0"), ("id", .num (.int 1)), ("method", .str "tools/list")]

theorem hello_from : FromClient (.obj helloMsg) := .inl (by decide +kernel)
theorem ready_from : FromClient (.obj readyMsg) := .inr (.inl (by decide +kernel))
theorem call_from : FromClient (.obj callMsg) := .inl (by decide +kernel)

/-- The messages arrive one by one, each taken in all the steps it needs. (Specification: no counterpart in the code.) -/
def sampleSession (js : List Json) : List LOp :=
  .reader :: js.flatMap (fun j => match taken j with
    | .request id r => [.arrive (.request id r), .reader, .reader, .reader, .reader]
    | .other => [.arrive .other, .reader, .reader]
    | .bad => [.arrive .bad, .reader])

/-- Handshake and call: both requests answered. -/
example : ∃ s, lrun quietServer (LState.start (St.init 0)) (sampleSession ([helloMsg, readyMsg, callMsg].map Json.obj)) =
    some s ∧ Quiet quietServer s ∧ arrivals (sampleSession ([helloMsg, readyMsg, callMsg].map Json.obj)) =
      ([helloMsg, readyMsg, callMsg].map Json.obj).map taken ∧
    (responseIds s.out).map Id.enc = [.num (.int 0), .str "a"] := ⟨_, rfl, ⟨rfl, rfl⟩, rfl, rfl⟩

/-- A list request without `params` in between: the call after it is not answered. -/
example : ∃ s, lrun quietServer (LState.start (St.init 0))
    (sampleSession ([helloMsg, readyMsg, bareMsg].map Json.obj) ++ [.arrive (taken (.obj callMsg))]) = some s ∧
    Quiet quietServer s ∧ (responseIds s.out).map Id.enc = [.num (.int 0)] ∧ s.reader = .ended :=
  ⟨_, rfl, ⟨rfl, rfl⟩, rfl, rfl⟩

example : Accepted callMsg := by
  refine ⟨fun _ n hn => (by cases hn), fun h => absurd h (by simp [callMsg, AMap.get_cons]), fun _ _ _ => ?_,
    fun _ h => (by cases h), fun h => (by cases h)⟩
  exact (C189_requests_partial callMsg (by decide +kernel) (by simp [callMsg, AMap.get_cons])).mp rfl

example : Accepted readyMsg := by
  refine ⟨fun h => (by cases h), fun h => absurd h (by simp [readyMsg, AMap.get_cons]), fun _ _ h => absurd rfl h,
    fun _ _ => ?_, fun h => (by cases h)⟩
  exact (C191_notifications_partial _ (.inl rfl) readyMsg (by decide +kernel)).mp rfl

end Verif.Conform
