import Verif.HttpPair.Lost

/-
Cases of C219.
-/

namespace Verif.HttpPair

open Verif

/-- Messages are texts, answers unary numbers. (Specification: no counterpart in the code.) -/
def toy : Link Text where
  codec := ⟨fun t => some t, fun _ => none⟩
  body := fun t =>
    if t = ['i'] then .init 0 else if t = ['n'] then .notification 0 else if t = ['r'] then .response 0 else .request 1
  json := fun a => '+' :: List.replicate a '1'
  msg := fun a => '+' :: List.replicate a '1'

theorem toy_ok : toy.Ok := by
  refine ⟨fun _ => rfl, fun _ => rfl, fun m => ⟨by simp [toy], ?_, ?_⟩⟩ <;> simp [toy, List.mem_replicate]

theorem clean_x : Clean ['x'] := by unfold Clean; decide

/-- Another client initializes too, and is answered, and goes away. (Specification: no counterpart in the code.) -/
def others : List HttpServer.Op :=
  [.post (postOf toy (StreamClient.init none) ['i']) ['y'], .process 1 5 none ['e'], .delete (some (.text ['y']))]

theorem others_ok : ∀ o ∈ others, Stranger ['x'] o := by
  intro o ho
  simp only [others, List.mem_cons, List.not_mem_nil, or_false] at ho
  rcases ho with rfl | rfl | rfl
  · exact ⟨by decide, by decide⟩
  · trivial
  · show (_ : Option HttpServer.Hdr) ≠ _
    decide

/-- A request, answered, and a notification. (Specification: no counterpart in the code.) -/
def talk : List (Op Text) :=
  [.send ['q'] ['z'], .other (.post (postOf toy (StreamClient.init none) ['i']) ['w']),
    .answered 2 none ['2'], .send ['n'] ['z'], .arrive 0]

theorem start_ok : Start (M := Text) ['x'] { cl := StreamClient.init none } :=
  ⟨rfl, rfl, rfl, by simp, by simp, rfl⟩

/-- With answers as streams; `initialize` is answered in JSON. (Specification: no counterpart in the code.) -/
def whole : List (Op Text) :=
  .send ['i'] ['x'] :: others.map .other ++ [.answered 1 (some "2025-06-18".toList) ['1']] ++ talk

theorem whole_runs : ∃ s, run {} toy { cl := StreamClient.init none } whole = some s ∧
    s.cl.queue = [toy.msg 1, toy.msg 2] ∧ s.last = .ok := by
  have h : (run {} toy { cl := StreamClient.init none } whole).any
      (fun s => decide (s.cl.queue = [toy.msg 1, toy.msg 2] ∧ s.last = .ok)) = true := by decide +kernel
  cases hr : run {} toy { cl := StreamClient.init none } whole with
  | none => rw [hr] at h; cases h
  | some s => rw [hr] at h; exact ⟨s, rfl, by simpa using h⟩

theorem talk_ok : ∀ op ∈ talk, Polite ['x'] op := by
  intro op ho
  simp only [talk, List.mem_cons, List.not_mem_nil, or_false] at ho
  rcases ho with rfl | rfl | rfl | rfl | rfl
  · trivial
  · exact ⟨by decide, by decide⟩
  · exact ⟨by decide, by decide, by decide⟩
  · trivial
  · trivial

/-- The hypotheses of `C219_served_partial`. -/
example (s : Sys Text) (h : run {} toy { cl := StreamClient.init none } whole = some s) : s.cl.session = some ['x'] :=
  (C219_served_partial {} rfl toy toy_ok ['x'] clean_x _ s start_ok ['i'] 0 rfl others others_ok 1
    (some "2025-06-18".toList) ['1'] (by decide) talk talk_ok h).1

/-- `C219_headers_pass` where both sides work: the request is passed on. -/
example : (HttpServer.post {} {} (postOf toy (StreamClient.init none) ['i']) ['x']).2 = .goesOn := by decide +kernel

/-- `C219_lost_session`: the client kept its id, the server was started again. `initialize` succeeds, the next request
does not. (Specification: no counterpart in the code.) -/
def lostRun : List (Op Text) := [.send ['i'] ['z'], .answered 1 none ['1'], .arrive 0, .send ['q'] ['z']]

example : (run {} toy { cl := StreamClient.init (some ['x']) } lostRun).map (fun s => (s.cl.queue, s.last, s.srv.posts)) =
    some ([toy.msg 1], .status 404, []) := by decide +kernel

example (s : Sys Text) (h : run {} toy { cl := StreamClient.init (some ['x']) } lostRun = some s) :=
  C219_lost_session {} rfl toy toy_ok ['x'] clean_x _ s rfl rfl rfl lostRun
    (by intro op ho
        simp only [lostRun, List.mem_cons, List.not_mem_nil, or_false] at ho
        rcases ho with rfl | rfl | rfl | rfl <;> trivial) h

/-- `C219_stream_opens` and `C219_stream_silent`: the stream is opened, then a request is answered, and the client has
only the answer to `initialize`. (Specification: no counterpart in the code.) -/
def silentRun : List (Op Text) :=
  [.send ['i'] ['x'], .answered 1 none ['1'], .open none ['z'], .check, .opened]

example : (run {} toy { cl := StreamClient.init none } (silentRun ++ [.send ['q'] ['z'], .answered 2 none ['2'],
      .other (.deliver 0 ['2'])])).any (fun s => decide (s.cl.queue = [toy.msg 1]) && decide (s.last = .ok) &&
        s.bodies.isEmpty && decide (s.opened.length = 1) &&
        s.srv.streams.all (fun t => decide (t.delivered.map (·.2) = [2]))) = true := by decide +kernel

example (s s1 s' : Sys Text) (h1 : run {} toy { cl := StreamClient.init none } (silentRun.take 2) = some s)
    (hid : s.phase = .idle) (hb : s.bodies = []) (ho : s.opened = [])
    (h2 : run {} toy s [.open none ['z'], .check, .opened] = some s1)
    (h : run {} toy s1 [.send ['q'] ['z'], .answered 2 none ['2'], .other (.deliver 0 ['2'])] = some s') :
    s'.cl.queue = s1.cl.queue := by
  have hg := (start_good {} rfl toy toy_ok ['x'] clean_x _ s start_ok ['i'] 0 rfl [] (by simp) 1 none ['1'] (by decide)
    h1).1
  obtain ⟨s2, g1, _, g3, _⟩ := C219_stream_opens {} toy ['x'] _ clean_x _ s hg hid hb ho ['z']
  rw [h2] at g1
  cases g1
  have hq := g3.queue
  rw [← hq] at g3
  exact (C219_stream_silent {} rfl toy ['x'] clean_x _ s1 s' g3 _ (by
    intro op ho
    simp only [List.mem_cons, List.not_mem_nil, or_false] at ho
    rcases ho with rfl | rfl | rfl <;> trivial) h).1

/-- `C219_closed_lost`: the answer was sent on the stream, the stream ended, and nothing was received. -/
example : (run {} toy { cl := StreamClient.init none } (silentRun ++ [.send ['q'] ['z'], .answered 2 none ['2'],
      .other (.deliver 0 ['2']), .close, .ends 0])).map (fun s => (s.cl.queue, s.last, s.opened)) =
    some ([toy.msg 1], .ok, []) := by decide +kernel

example : (run {} toy { cl := StreamClient.init none } (silentRun ++ [.send ['q'] ['z'], .answered 2 none ['2'],
      .other (.deliver 0 ['2'])])).all (fun s => s.bodies.isEmpty && s.opened.all (fun o => s.cl.streams.all (fun t =>
        decide (t.key = o.2 → s.cl.handle = some o.2)))) = true := by decide +kernel

end Verif.HttpPair
