import Verif.HttpEvents.Lemmas
import Verif.Common.ListExtra
import Verif.Sse.Chunks

/-
Properties of the event stream of the HTTP client: C132, C133, C134.
-/

namespace Verif.HttpEvents

open Verif Verif.Sse

variable {M : Type}

/-! ### Specification -/

/-- The frames stream `n` got. (Specification: no counterpart in the code.) -/
def frames (n : Nat) : List (Op M) → List (List Nat)
  | [] => []
  | .frame k b :: l => if k = n then b :: frames n l else frames n l
  | _ :: l => frames n l

/-- The messages of stream `n`, in order. (Specification: no counterpart in the code.) -/
def own (n : Nat) (q : List (Option Nat × M)) : List M := q.filterMap (fun x => if x.1 = some n then some x.2 else none)

/-- The answers to posts, in order. (Specification: no counterpart in the code.) -/
def answers : List (Op M) → List M
  | [] => []
  | .answer m :: l => m :: answers l
  | _ :: l => answers l

/-- The messages of events. (Specification: no counterpart in the code.) -/
def messages (parse : Text → Option M) (es : List Event) : List M := es.filterMap (fun e => parse e.data)

theorem frames_append (n : Nat) (a b : List (Op M)) : frames n (a ++ b) = frames n a ++ frames n b := by
  induction a with
  | nil => rfl
  | cons x a ih =>
    cases x <;> simp only [List.cons_append, frames, ih]
    split <;> simp

theorem answers_append (a b : List (Op M)) : answers (a ++ b) = answers a ++ answers b := by
  induction a with
  | nil => rfl
  | cons x a ih => cases x <;> simp [answers, ih]

theorem own_append (n : Nat) (a b : List (Option Nat × M)) : own n (a ++ b) = own n a ++ own n b := by
  simp [own]

theorem run_append (parse : Text → Option M) (s : State M) (a b : List (Op M)) :
    run parse s (a ++ b) = (run parse s a).bind (fun t => run parse t b) := by
  induction a generalizing s with
  | nil => rfl
  | cons op a ih =>
    simp only [List.cons_append, run]
    cases step parse s op with
    | none => rfl
    | some t => exact ih t

theorem feedAll_snoc (p : Parser) (cs : List Text) (c : Text) :
    feedAll p (cs ++ [c]) = (feedAll p cs).bind (fun q => (feed q.1 c).map (fun r => (r.1, q.2 ++ r.2))) := by
  induction cs generalizing p with
  | nil =>
    simp only [List.nil_append, feedAll, Option.bind_some]
    cases feed p c with
    | none => rfl
    | some q => simp
  | cons d cs ih =>
    simp only [List.cons_append, feedAll]
    cases feed p d with
    | none => rfl
    | some q =>
      obtain ⟨p', es⟩ := q
      simp only [ih]
      cases feedAll p' cs with
      | none => rfl
      | some r =>
        simp only [Option.bind_some, Option.map_some]
        cases feed r.1 c with
        | none => rfl
        | some t => simp

/-! ### The invariant -/

/-- What holds of reader `n` after the history `l`. (Specification: no counterpart in the code.) -/
def Good (parse : Text → Option M) (l : List (Op M)) (s : State M) (n : Nat) : Prop :=
  match s.readers[n]? with
  | none => frames n l = [] ∧ own n (s.taken ++ s.queue) = []
  | some r => match r.phase with
    | .dead => feedAll {} ((frames n l).map lossy) = none
    | _ => (r.phase = .spawned → frames n l = []) ∧
        ∃ es, feedAll {} ((frames n l).map lossy) = some (r.parser, es) ∧
          own n (s.taken ++ s.queue) ++ r.pending = messages parse es

/-- A step that leaves a reader and its messages alone keeps `Good`. -/
theorem good_same (parse : Text → Option M) (l : List (Op M)) (s t : State M) (op : Op M) (n : Nat)
    (h1 : t.readers[n]? = s.readers[n]?) (h2 : own n (t.taken ++ t.queue) = own n (s.taken ++ s.queue))
    (h3 : frames n [op] = []) (h : Good parse l s n) : Good parse (l ++ [op]) t n := by
  unfold Good at *
  rw [h1, h2, frames_append, h3, List.append_nil]
  exact h

theorem frames_one_ne (n k : Nat) (b : List Nat) (h : k ≠ n) : frames n [(Op.frame k b : Op M)] = [] := by
  simp [frames, h]

theorem set_get {α : Type} (l : List α) (n k : Nat) (a : α) (h : n ≠ k) : (l.set n a)[k]? = l[k]? := by
  simp [List.getElem?_set, h]

theorem set_get_self {α : Type} (l : List α) (n : Nat) (a b : α) (h : l[n]? = some b) : (l.set n a)[n]? = some a := by
  have := (List.getElem?_eq_some_iff.mp h).1
  simp [List.getElem?_set, this]

theorem good_step (parse : Text → Option M) (l : List (Op M)) (s t : State M) (op : Op M)
    (hst : step parse s op = some t) (h : ∀ n, Good parse l s n) : ∀ n, Good parse (l ++ [op]) t n := by
  intro n
  have hn := h n
  cases op with
  | plain => simp only [step, Option.some.injEq] at hst; subst hst; exact good_same _ _ _ _ _ _ rfl rfl rfl hn
  | close => simp only [step, Option.some.injEq] at hst; subst hst; exact good_same _ _ _ _ _ _ rfl rfl rfl hn
  | openStream =>
    simp only [step, Option.some.injEq] at hst; subst hst
    by_cases hl : n = s.readers.length
    · subst hl
      unfold Good at hn
      simp only [List.getElem?_eq_none (Nat.le_refl _)] at hn
      unfold Good
      simp only [List.getElem?_concat_length, frames_append, hn.1]
      refine ⟨fun _ => rfl, [], rfl, ?_⟩
      rw [hn.2]; rfl
    · refine good_same parse l s _ _ n ?_ rfl rfl hn
      simp only [List.getElem?_append]
      split
      · rfl
      · rw [List.getElem?_eq_none (l := s.readers) (by omega), List.getElem?_eq_none (by simp; omega)]
  | start k =>
    simp only [step] at hst
    split at hst
    · next p pl hr =>
      simp only [Option.some.injEq] at hst; subst hst
      by_cases hk : k = n
      · subst hk
        unfold Good at hn
        rw [hr] at hn
        unfold Good
        simp only [setReader, set_get_self _ _ _ _ hr, frames_append, frames, List.append_nil]
        exact ⟨(fun h => nomatch h), hn.2⟩
      · exact good_same _ _ _ _ _ _ (set_get _ _ _ _ hk) rfl rfl hn
    · cases hst
  | frame k b =>
    simp only [step] at hst
    split at hst
    · next p hr =>
      by_cases hk : k = n
      · subst hk
        unfold Good at hn
        rw [hr] at hn
        obtain ⟨-, es, hf, ho⟩ := hn
        have hfr : (frames k (l ++ [Op.frame k b])).map lossy = (frames k l).map lossy ++ [lossy b] := by
          simp [frames_append, frames]
        split at hst
        · next hd =>
          simp only [Option.some.injEq] at hst; subst hst
          unfold Good
          simp only [setReader, set_get_self _ _ _ _ hr, hfr, feedAll_snoc, hf, Option.bind_some, hd, Option.map_none]
        · next p' es' hd =>
          simp only [Option.some.injEq] at hst; subst hst
          unfold Good
          simp only [setReader, set_get_self _ _ _ _ hr, hfr, feedAll_snoc, hf, Option.bind_some, hd, Option.map_some]
          refine ⟨(fun h => nomatch h), es ++ es', rfl, ?_⟩
          rw [List.append_nil] at ho
          rw [ho]
          simp [messages]
      · split at hst
        · simp only [Option.some.injEq] at hst; subst hst
          exact good_same _ _ _ _ _ _ (set_get _ _ _ _ hk) rfl (frames_one_ne _ _ _ hk) hn
        · simp only [Option.some.injEq] at hst; subst hst
          exact good_same _ _ _ _ _ _ (set_get _ _ _ _ hk) rfl (frames_one_ne _ _ _ hk) hn
    · cases hst
  | push k =>
    simp only [step] at hst
    split at hst
    · next p m pl hr =>
      split at hst
      · simp only [Option.some.injEq] at hst; subst hst
        by_cases hk : k = n
        · subst hk
          unfold Good at hn
          rw [hr] at hn
          obtain ⟨-, es, hf, ho⟩ := hn
          unfold Good
          simp only [setReader, set_get_self _ _ _ _ hr, frames_append, frames, List.append_nil]
          refine ⟨(fun h => nomatch h), es, hf, ?_⟩
          rw [← ho, ← List.append_assoc, own_append]
          simp [own]
        · refine good_same _ _ _ _ _ _ (set_get _ _ _ _ hk) ?_ rfl hn
          have : ¬ (some k = some n) := by simpa using hk
          simp only [← List.append_assoc, own_append]
          simp [own, hk]
      · cases hst
    · cases hst
  | finish k =>
    simp only [step] at hst
    split at hst
    · next p hr =>
      simp only [Option.some.injEq] at hst; subst hst
      by_cases hk : k = n
      · subst hk
        unfold Good at hn
        rw [hr] at hn
        unfold Good
        simp only [setReader, set_get_self _ _ _ _ hr, frames_append, frames, List.append_nil]
        exact ⟨(fun h => nomatch h), by simpa using hn.2⟩
      · exact good_same _ _ _ _ _ _ (set_get _ _ _ _ hk) rfl rfl hn
    · cases hst
  | answer m =>
    simp only [step] at hst
    split at hst
    · simp only [Option.some.injEq] at hst; subst hst
      refine good_same parse l s _ _ n rfl ?_ rfl hn
      simp only [← List.append_assoc, own_append]
      simp [own]
    · cases hst
  | receive =>
    simp only [step] at hst
    split at hst
    · next x q hq =>
      simp only [Option.some.injEq] at hst; subst hst
      refine good_same parse l s _ _ n rfl ?_ rfl hn
      simp [hq]
    · cases hst

theorem good_run (parse : Text → Option M) (l : List (Op M)) (s : State M) (h : run parse {} l = some s) :
    ∀ n, Good parse l s n := by
  induction l using snocInduction generalizing s with
  | nil =>
    simp only [run, Option.some.injEq] at h; subst h
    intro n; unfold Good; simp [frames, own]
  | append_singleton l op ih =>
    rw [run_append] at h
    cases h1 : run parse {} l with
    | none => rw [h1] at h; cases h
    | some t =>
      rw [h1] at h
      simp only [Option.bind_some, run] at h
      cases h2 : step parse t op with
      | none => rw [h2] at h; cases h
      | some u =>
        rw [h2] at h
        simp only [Option.some.injEq] at h; subst h
        exact good_step parse l t u op h2 (ih t h1)

/-! ### C134: order and completeness of what is received -/

/-- **C134**. In every history, what `receive` returned and what waits from a stream whose task has not panicked,
followed by what the task still holds, is exactly what the frames of the stream contain, in order: nothing is lost,
repeated or reordered, whatever the posts and the other streams do. Missing from the property: tasks that panicked
(`C133_panic`). -/
theorem C134_in_order_partial (parse : Text → Option M) (l : List (Op M)) (s : State M) (h : run parse {} l = some s)
    (n : Nat) (r : Reader M) (hr : s.readers[n]? = some r) (hd : r.phase ≠ .dead) :
    ∃ p es, feedAll {} ((frames n l).map lossy) = some (p, es) ∧
      own n s.taken ++ own n s.queue ++ r.pending = messages parse es := by
  have hn := good_run parse l s h n
  unfold Good at hn
  rw [hr] at hn
  obtain ⟨ph, p, pl⟩ := r
  cases ph with
  | dead => exact absurd rfl hd
  | _ => obtain ⟨-, es, h1, h2⟩ := hn; exact ⟨p, es, h1, by rw [← own_append]; exact h2⟩

/-- **C134**. The answers to posts are received in the order in which they came, none lost or repeated. -/
theorem C134_answers (parse : Text → Option M) (l : List (Op M)) (s : State M) (h : run parse {} l = some s) :
    (s.taken ++ s.queue).filterMap (fun x => if x.1 = none then some x.2 else none) = answers l := by
  induction l using snocInduction generalizing s with
  | nil => simp only [run, Option.some.injEq] at h; subst h; rfl
  | append_singleton l op ih =>
    rw [run_append] at h
    cases h1 : run parse {} l with
    | none => rw [h1] at h; cases h
    | some t =>
      rw [h1] at h
      have ht := ih t h1
      have hs : step parse t op = some s := by
        simp only [Option.bind_some, run] at h
        cases h2 : step parse t op with
        | none => rw [h2] at h; cases h
        | some u => rw [h2] at h; exact h
      rw [answers_append, ← ht]
      cases op with
      | receive =>
        simp only [step] at hs
        split at hs
        · next x q hq => cases hs; simp [hq, answers]
        · cases hs
      | answer m =>
        simp only [step] at hs
        split at hs
        · cases hs; simp [answers]
        · cases hs
      | push n =>
        simp only [step] at hs
        repeat' split at hs
        all_goals first | cases hs; simp [answers] | cases hs
      | _ =>
        simp only [step] at hs
        repeat' split at hs
        all_goals (cases hs <;> simp [answers])

/-- **C134**. At most a hundred messages wait. -/
theorem C134_bound (parse : Text → Option M) (l : List (Op M)) (s : State M) (h : run parse {} l = some s) :
    s.queue.length ≤ 100 := by
  induction l using snocInduction generalizing s with
  | nil => simp only [run, Option.some.injEq] at h; subst h; simp
  | append_singleton l op ih =>
    rw [run_append] at h
    cases h1 : run parse {} l with
    | none => rw [h1] at h; cases h
    | some t =>
      rw [h1] at h
      have ht := ih t h1
      have hs : step parse t op = some s := by
        simp only [Option.bind_some, run] at h
        cases h2 : step parse t op with
        | none => rw [h2] at h; cases h
        | some u => rw [h2] at h; exact h
      cases op <;> simp only [step] at hs <;> (repeat' split at hs) <;>
        simp only [Option.some.injEq, reduceCtorEq] at hs <;> subst hs <;> simp_all [cap] <;> omega

/-! ### C132: the network's frames -/

/-- **C134** (when a message waits). An answer or a message of a stream waits exactly while a hundred messages are
unread; one `receive` makes room for it. -/
theorem C134_room (parse : Text → Option M) (s : State M) :
    (∀ m, (step parse s (.answer m)).isSome ↔ s.queue.length < 100) ∧
    (∀ n p m l, s.readers[n]? = some ⟨.reading, p, m :: l⟩ →
      ((step parse s (.push n)).isSome ↔ s.queue.length < 100)) ∧
    (s.queue.length = 100 → ∃ s', step parse s .receive = some s' ∧ s'.readers = s.readers ∧ s'.queue.length = 99) := by
  refine ⟨fun m => ?_, fun n p m l h => ?_, fun h => ?_⟩
  · simp only [step, cap]
    by_cases hq : s.queue.length < 100 <;> simp [hq]
  · simp only [step, h, cap]
    by_cases hq : s.queue.length < 100 <;> simp [hq]
  · cases hq : s.queue with
    | nil => rw [hq] at h; simp at h
    | cons x q =>
      rw [hq] at h
      exact ⟨{ s with queue := q, taken := s.taken ++ [x] }, by simp [step, hq], rfl, by simpa using h⟩

/-- A full queue: the next answer waits. -/
example : (step (M := Nat) (fun _ => none) { queue := List.replicate 100 (none, 7) } (.answer 8)).isNone ∧
    (step (M := Nat) (fun _ => none) { queue := List.replicate 99 (none, 7) } (.answer 8)).isSome := ⟨rfl, rfl⟩

/-- **C132**. If the body is cut into frames between characters, and has no stray carriage return (as all bodies without
one, and all of plain ASCII), the messages are those of the whole body, however it is cut; and the task does not panic.
Missing from the property: frames that end inside a character (`C132_cut`), and bodies with a stray carriage return, whose
lines depend on the cut (`C04_chunks_iff`). -/
theorem C132_frames_partial (parse : Text → Option M) (l : List (Op M)) (s : State M) (h : run parse {} l = some s)
    (n : Nat) (r : Reader M) (hr : s.readers[n]? = some r) (ts : List Text) (hf : frames n l = ts.map Utf8.encode)
    (hs : ¬ HasStray ts.flatten) :
    r.phase ≠ .dead ∧ ∃ p es, feed {} ts.flatten = some (p, es) ∧
      own n s.taken ++ own n s.queue ++ r.pending = messages parse es := by
  have hmap : (frames n l).map lossy = ts := by
    rw [hf, List.map_map]
    have : lossy ∘ Utf8.encode = id := by funext t; exact lossy_whole t
    rw [this, List.map_id]
  have hfeed : ∃ p es, feed {} ts.flatten = some (p, es) ∧ ∃ p', feedAll {} ts = some (p', es) := by
    have h1 := C04_no_stray_partial {} ts (by simp) (by simpa using hs)
    have h2 : feedAll {} [ts.flatten] = feed {} ts.flatten := by
      rw [feedAll]
      cases feed {} ts.flatten with
      | none => rfl
      | some q => simp [feedAll]
    have h3 : feed {} ts.flatten = some (interpret {} ((cut ts.flatten).1.map plainLine, (cut ts.flatten).2)) := by
      rw [feed_lines]
      show (takeLines ([] ++ ts.flatten)).map _ = _
      rw [List.nil_append, takeLines_plain _ hs]
      rfl
    exact ⟨_, _, h3, _, (h1.trans h2).trans h3⟩
  obtain ⟨p, es, h1, p', h2⟩ := hfeed
  have hd : r.phase ≠ .dead := by
    intro hd
    have hn := good_run parse l s h n
    unfold Good at hn
    rw [hr] at hn
    simp only [hd, hmap, h2] at hn
    cases hn
  obtain ⟨p'', es', h3, h4⟩ := C134_in_order_partial parse l s h n r hr hd
  rw [hmap, h2] at h3
  cases h3
  exact ⟨hd, p, es, h1, h4⟩

/-- The text of an event with one line of data. (Specification: no counterpart in the code.) -/
def eventText (d : Text) : Text := "data: ".toList ++ d ++ ['\n', '\n']

theorem multi_ne (c : Char) (h : 1 < (Utf8.encodeChar c).length) : c ≠ '\n' ∧ c ≠ '\r' := by
  constructor <;> rintro rfl <;> revert h <;> decide

theorem feed_event (d : Text) (h0 : d ≠ []) (h1 : '\n' ∉ d) (h2 : '\r' ∉ d) :
    (feed {} (eventText d)).map (·.2) = some [⟨none, none, d, none⟩] := by
  have hsplit : Str.splitOnce '\n' d = none := Str.splitOnce_none h1
  have hl : strLines d = [d] := by
    rw [strLines]
    split
    · simp [h0]
    · next h => rw [hsplit] at h; cases h
  have hd : display ⟨none, none, d, none⟩ = eventText d := by
    simp [display, hl, eventText]
  rw [← hd]
  refine C06_event_round_trip_partial _ ⟨?_, ?_, ?_, h2, ?_, ?_⟩
  · intro i h; cases h
  · intro i h; cases h
  · intro i h; cases h
  · cases d with
    | nil => exact absurd rfl h0
    | cons c d => exact ⟨c, rfl, fun e => h1 (by simp [e])⟩
  · intro h; exact h1 (List.mem_of_getLast? h)

theorem bad_ne : bad ≠ '\n' ∧ bad ≠ '\r' := by decide

/-- **C132** fails: let a frame end inside a character, after `k` of its bytes. For all surroundings `x`, `y` the
message received is not the one that was sent: the character has become `len - k + 1` replacement characters. In one
frame the same bytes give the message. -/
theorem C132_cut (x y : Text) (c : Char) (k : Nat) (hk : 0 < k) (hl : k < (Utf8.encodeChar c).length)
    (hx : '\n' ∉ x ∧ '\r' ∉ x) (hy : '\n' ∉ y ∧ '\r' ∉ y) :
    let b1 := Utf8.encode ("data: ".toList ++ x) ++ (Utf8.encodeChar c).take k
    let b2 := (Utf8.encodeChar c).drop k ++ Utf8.encode (y ++ ['\n', '\n'])
    b1 ++ b2 = Utf8.encode (eventText (x ++ c :: y)) ∧
    (run some {} [.openStream, .start 0, .frame 0 b1, .frame 0 b2, .push 0, .receive]).map (·.taken) =
      some [(some 0, x ++ List.replicate ((Utf8.encodeChar c).length - k + 1) bad ++ y)] ∧
    (run some {} [.openStream, .start 0, .frame 0 (b1 ++ b2), .push 0, .receive]).map (·.taken) =
      some [(some 0, x ++ c :: y)] := by
  intro b1 b2
  have hc := multi_ne c (by omega)
  have hb : b1 ++ b2 = Utf8.encode (eventText (x ++ c :: y)) := by
    have : (Utf8.encodeChar c).take k ++ (Utf8.encodeChar c).drop k = Utf8.encodeChar c := List.take_append_drop ..
    simp only [b1, b2, eventText, Utf8.encode, List.flatMap_append, List.flatMap_cons, List.append_assoc]
    rw [← List.append_assoc ((Utf8.encodeChar c).take k), this]
  have h1 : lossy b1 = "data: ".toList ++ x ++ [bad] := lossy_prefix_cut _ c k hk hl
  have h2 : lossy b2 = List.replicate ((Utf8.encodeChar c).length - k) bad ++ (y ++ ['\n', '\n']) :=
    lossy_suffix_cut _ c k hk
  have hrep : ∀ n, List.replicate (n + 1) bad = [bad] ++ List.replicate n bad := fun n => rfl
  have hmem : ∀ d : Char, d ∉ x → d ∉ y → d ≠ bad → ∀ n, d ∉ x ++ List.replicate n bad ++ y := by
    intro d h1 h2 h3 n h
    simp only [List.mem_append, List.mem_replicate] at h
    rcases h with (h | h) | h
    · exact h1 h
    · exact h3 h.2
    · exact h2 h
  refine ⟨hb, ?_, ?_⟩
  · have e := feed_event (x ++ List.replicate ((Utf8.encodeChar c).length - k + 1) bad ++ y) (by simp)
      (hmem _ hx.1 hy.1 bad_ne.1.symm _) (hmem _ hx.2 hy.2 bad_ne.2.symm _)
    have e1 : feedAll {} [lossy b1, lossy b2] =
        feed {} (eventText (x ++ List.replicate ((Utf8.encodeChar c).length - k + 1) bad ++ y)) := by
      have hflat : [lossy b1, lossy b2].flatten =
          eventText (x ++ List.replicate ((Utf8.encodeChar c).length - k + 1) bad ++ y) := by
        simp [h1, h2, eventText, hrep]
      rw [C04_chunking_partial {} [lossy b1, lossy b2] (by simp), hflat]
      right
      rw [hflat]
      simp only [eventText, List.nil_append]
      intro h
      simp only [List.mem_append, List.mem_cons, List.not_mem_nil, or_false] at h
      rcases h with (h | h) | h
      · revert h; decide
      · exact hmem _ hx.2 hy.2 bad_ne.2.symm ((Utf8.encodeChar c).length - k + 1) (by simpa [or_assoc] using h)
      · revert h; decide
    rw [← e1] at e
    simp only [feedAll] at e
    cases f1 : feed {} (lossy b1) with
    | none => rw [f1] at e; cases e
    | some q1 =>
      obtain ⟨p1, es1⟩ := q1
      rw [f1] at e
      simp only at e
      -- the first frame holds no line end, so no event ends in it
      have hn : feed {} (lossy b1) = some ({ buffer := lossy b1 }, []) := by
        unfold feed
        rw [feedLoop]
        have : Str.splitOnce '\n' (lossy b1) = none := by
          refine Str.splitOnce_none ?_
          rw [h1]
          intro h
          simp only [List.mem_append, List.mem_singleton] at h
          rcases h with (h | h) | h
          · revert h; decide
          · exact hx.1 h
          · exact bad_ne.1 h.symm
        split
        · rfl
        · next h => simp only [List.nil_append] at h; rw [this] at h; cases h
      rw [hn] at f1; cases f1
      cases f2 : feed { buffer := lossy b1 } (lossy b2) with
      | none => rw [f2] at e; cases e
      | some q2 =>
        rw [f2] at e
        simp only [Option.map_some, List.append_nil, List.nil_append, Option.some.injEq] at e
        simp [run, step, setReader, hn, f2, e, cap]
  · have e := feed_event (x ++ c :: y) (by simp)
      (by simp only [List.mem_append, List.mem_cons, not_or]; exact ⟨hx.1, hc.1.symm, hy.1⟩)
      (by simp only [List.mem_append, List.mem_cons, not_or]; exact ⟨hx.2, hc.2.symm, hy.2⟩)
    have hw : lossy (b1 ++ b2) = eventText (x ++ c :: y) := by rw [hb, lossy_whole]
    cases f : feed {} (eventText (x ++ c :: y)) with
    | none => rw [f] at e; cases e
    | some q =>
      rw [f] at e
      simp only [Option.map_some, Option.some.injEq] at e
      simp [run, step, setReader, hw, f, e, cap]

/-! ### C133: `is_connected` and `close` -/

/-- **C133**. With one stream, no `close` and no `connect_sse` without an endpoint, `is_connected` is true
exactly while the task of the stream reads, or after it panicked. Missing from the property: panics
(`C133_panic`), several streams (`C133_two_streams`), `close` (`C133_close_ignored`). -/
theorem C133_one_stream_partial (parse : Text → Option M) (l : List (Op M)) (s : State M)
    (h : run parse {} (.openStream :: l) = some s) (h1 : ∀ op ∈ l, op ≠ .openStream ∧ op ≠ .close ∧ op ≠ .plain) :
    ∃ r, s.readers = [r] ∧ (s.connected = true ↔ r.phase = .reading ∨ r.phase = .dead) := by
  have key : ∀ (l : List (Op M)) (t : State M), (∀ op ∈ l, op ≠ .openStream ∧ op ≠ .close ∧ op ≠ .plain) →
      (∃ r, t.readers = [r] ∧ (t.connected = true ↔ r.phase = .reading ∨ r.phase = .dead)) →
      run parse t l = some s → ∃ r, s.readers = [r] ∧ (s.connected = true ↔ r.phase = .reading ∨ r.phase = .dead) := by
    intro l
    induction l with
    | nil => intro t _ ht h; simp only [run, Option.some.injEq] at h; exact h ▸ ht
    | cons op l ih =>
      intro t ho ht h
      simp only [run] at h
      cases hs : step parse t op with
      | none => rw [hs] at h; cases h
      | some u =>
        rw [hs] at h
        refine ih u (fun o ho' => ho o (List.mem_cons_of_mem _ ho')) ?_ h
        have hop := ho op (List.mem_cons_self ..)
        obtain ⟨r, hr, hc⟩ := ht
        have idx : ∀ n r', t.readers[n]? = some r' → n = 0 ∧ r' = r := by
          intro n r' hn
          rw [hr] at hn
          cases n with
          | zero => simp at hn; exact ⟨rfl, hn.symm⟩
          | succ n => simp at hn
        cases op with
        | openStream => exact absurd rfl hop.1
        | close => exact absurd rfl hop.2.1
        | plain => exact absurd rfl hop.2.2
        | start n =>
          simp only [step] at hs
          split at hs
          · next hn => obtain ⟨rfl, rfl⟩ := idx _ _ hn; cases hs; exact ⟨_, by simp [setReader, hr]; rfl, by simp⟩
          · cases hs
        | frame n b =>
          simp only [step] at hs
          split at hs
          · next hn =>
            obtain ⟨rfl, rfl⟩ := idx _ _ hn
            split at hs
            · cases hs; exact ⟨_, by simp [setReader, hr]; rfl, by simpa using hc⟩
            · cases hs; exact ⟨_, by simp [setReader, hr]; rfl, by simpa using hc⟩
          · cases hs
        | push n =>
          simp only [step] at hs
          split at hs
          · next hn =>
            obtain ⟨rfl, rfl⟩ := idx _ _ hn
            split at hs
            · cases hs; exact ⟨_, by simp [setReader, hr]; rfl, by simpa using hc⟩
            · cases hs
          · cases hs
        | finish n =>
          simp only [step] at hs
          split at hs
          · next hn => obtain ⟨rfl, rfl⟩ := idx _ _ hn; cases hs; exact ⟨_, by simp [setReader, hr]; rfl, by simp⟩
          · cases hs
        | answer m =>
          simp only [step] at hs
          split at hs
          · cases hs; exact ⟨r, hr, hc⟩
          · cases hs
        | receive =>
          simp only [step] at hs
          split at hs
          · cases hs; exact ⟨r, hr, hc⟩
          · cases hs
  simp only [run, step] at h
  exact key l _ h1 ⟨⟨.spawned, {}, []⟩, rfl, by simp⟩ h

/-- **C133** fails with two streams: when one ends, `is_connected` is false although the other still delivers. -/
theorem C133_two_streams (parse : Text → Option M) (d : Text) (m : M) (h0 : d ≠ []) (h1 : '\n' ∉ d) (h2 : '\r' ∉ d)
    (hp : parse d = some m) :
    ∃ s, run parse {} [.openStream, .openStream, .start 0, .start 1, .finish 0,
        .frame 1 (Utf8.encode (eventText d)), .push 1, .receive] = some s ∧
      s.connected = false ∧ s.taken = [(some 1, m)] := by
  have e := feed_event d h0 h1 h2
  cases f : feed {} (eventText d) with
  | none => rw [f] at e; cases e
  | some q =>
    rw [f] at e
    simp only [Option.map_some, Option.some.injEq] at e
    simp [run, step, setReader, lossy_whole, f, e, hp, cap]

/-- What the users of the transport see, except `is_connected`. (Specification: no counterpart in the code.) -/
def seen (s : State M) : List (Reader M) × List (Option Nat × M) × List (Option Nat × M) := (s.readers, s.queue, s.taken)

/-- **C133** fails for `close`: it stops nothing. Whatever happens afterwards, streams are read and messages
received as if it had not been called. -/
theorem C133_close_ignored (parse : Text → Option M) (s : State M) (l : List (Op M)) :
    (run parse s (.close :: l)).map seen = (run parse s l).map seen := by
  have key : ∀ (l : List (Op M)) (s t : State M), seen s = seen t → (run parse s l).map seen = (run parse t l).map seen := by
    intro l
    induction l with
    | nil => intro s t h; simp [run, h]
    | cons op l ih =>
      intro s t h
      have hst : (step parse s op).map seen = (step parse t op).map seen := by
        obtain ⟨r, c, q, k⟩ := s
        obtain ⟨r', c', q', k'⟩ := t
        simp only [seen, Prod.mk.injEq] at h
        obtain ⟨rfl, rfl, rfl⟩ := h
        cases op <;> simp only [step] <;> (repeat' split) <;> rfl
      simp only [run]
      cases h1 : step parse s op with
      | none =>
        rw [h1] at hst
        cases h2 : step parse t op with
        | none => rfl
        | some u => rw [h2] at hst; cases hst
      | some v =>
        rw [h1] at hst
        cases h2 : step parse t op with
        | none => rw [h2] at hst; cases hst
        | some u => rw [h2] at hst; exact ih v u (by simpa using hst)
  exact key l { s with connected := false } s rfl

/-- The bytes of "éé", a line feed and a carriage return. (Specification: no counterpart in the code.) -/
def poison : List Nat := Utf8.encode "éé\n\r".toList

/-- **C133** fails after a panic: six bytes end the task; `is_connected` stays true, and no later frame is read. -/
theorem C133_panic (parse : Text → Option M) :
    ∃ s, run parse {} [.openStream, .start 0, .frame 0 poison] = some s ∧ s.connected = true ∧
      ∀ b, step parse s (.frame 0 b) = none := by
  have h : feed {} (lossy poison) = none := by rw [poison, lossy_whole]; exact C05_panics
  refine ⟨{ readers := [⟨.dead, {}, []⟩], connected := true }, ?_, rfl, fun b => rfl⟩
  simp [run, step, setReader, h]

/-! Cases meeting the hypotheses. -/

example : 0 < 1 ∧ 1 < (Utf8.encodeChar 'é').length ∧ '\n' ∉ "caf".toList := by decide +kernel

/-- Two frames and an answer to a post between them. (Specification: no counterpart in the code.) -/
def sampleOps : List (Op Nat) := [.openStream, .start 0, .frame 0 (Utf8.encode "data: a\n".toList), .answer 7,
  .frame 0 (Utf8.encode "\ndata: b\n\n".toList), .push 0, .receive, .push 0, .receive]

example : frames 0 sampleOps = ["data: a\n".toList, "\ndata: b\n\n".toList].map Utf8.encode ∧
    ¬ HasStray ["data: a\n".toList, "\ndata: b\n\n".toList].flatten :=
  ⟨rfl, safe_not_stray _ (Or.inl (by decide +kernel))⟩

/-- A body with accents and carriage returns. -/
example : ¬ HasStray ["data: é\r\n".toList, "\r\ndata: b\r\n\r\n".toList].flatten :=
  fun h => takeLines_stray _ h (by decide +kernel)

example : ∀ op ∈ sampleOps.tail, op ≠ .openStream ∧ op ≠ .close ∧ op ≠ .plain := by
  intro op h
  simp only [sampleOps, List.tail_cons, List.mem_cons, List.not_mem_nil, or_false] at h
  rcases h with rfl | rfl | rfl | rfl | rfl | rfl | rfl | rfl <;> simp

/-- Data that is one letter, as a message. (Specification: no counterpart in the code.) -/
def letter (t : Text) : Option Nat := match t with
  | [c] => some c.toNat
  | _ => none

/-- The history above is possible, and its reader is alive: the hypotheses of `C134_in_order_partial`, `C134_answers`,
`C134_bound`, `C132_frames_partial` and `C133_one_stream_partial`. -/
theorem sample_run : ∃ s, run letter {} sampleOps = some s ∧ s.taken = [(none, 7), (some 0, 97)] ∧
    s.queue = [(some 0, 98)] ∧ ∃ r, s.readers[0]? = some r ∧ r.phase ≠ .dead := by
  have e : ((run letter {} sampleOps).any (fun s => decide (s.taken = [(none, 7), (some 0, 97)]) &&
      decide (s.queue = [(some 0, 98)]) && s.readers[0]?.any (fun r => decide (r.phase ≠ .dead)))) = true := by decide +kernel
  cases hs : run letter {} sampleOps with
  | none => rw [hs] at e; cases e
  | some s =>
    rw [hs] at e
    simp only [Option.any_some, Bool.and_eq_true, decide_eq_true_eq] at e
    cases hr : s.readers[0]? with
    | none => rw [hr] at e; simp at e
    | some r => exact ⟨s, rfl, e.1.1, e.1.2, r, hr, by simpa [hr] using e.2⟩

example : ∃ s p es, run letter {} sampleOps = some s ∧ feedAll {} ((frames 0 sampleOps).map lossy) = some (p, es) ∧
    messages letter es = [97, 98] ∧ answers sampleOps = [7] := by
  obtain ⟨s, hs, ht, hq, r, hr, hd⟩ := sample_run
  obtain ⟨p, es, he, hm⟩ := C134_in_order_partial letter sampleOps s hs 0 r hr hd
  have ha := C134_answers letter sampleOps s hs
  rw [ht, hq] at ha
  have hp : r.pending = [] := by
    have := C134_bound letter sampleOps s hs
    have e : ((run letter {} sampleOps).bind (fun s => s.readers[0]?)).map Reader.pending = some [] := by decide +kernel
    rw [hs] at e
    simpa [hr] using e
  rw [ht, hq, hp] at hm
  exact ⟨s, p, es, hs, he, by rw [← hm]; rfl, by rw [← ha]; rfl⟩

example : ∃ s : State Nat, run (fun t => if t = ['a'] then some 1 else none) {} [.openStream, .openStream, .start 0, .start 1,
      .finish 0, .frame 1 (Utf8.encode (eventText ['a'])), .push 1, .receive] = some s ∧
    s.connected = false ∧ s.taken = [(some 1, 1)] :=
  C133_two_streams _ ['a'] 1 (by decide) (by decide) (by decide) rfl

end Verif.HttpEvents
