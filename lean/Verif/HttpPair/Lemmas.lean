import Verif.HttpPair.Model
import Verif.HttpServer.Sessions

/-
Lemmas on the client and the server joined (`Verif.HttpPair.Model`).
-/

namespace Verif.HttpPair

open Verif

variable {M : Type}

/-- A step of another client that neither names session `x` nor is given it as a new id.
(Specification: no counterpart in the code.) -/
def Stranger (x : Text) : HttpServer.Op → Prop
  | .post p n => p.sid ≠ some (.text x) ∧ n ≠ x
  | .getStart _ h _ n => h ≠ some (.text x) ∧ n ≠ x
  | .delete h => h ≠ some (.text x)
  | _ => True

theorem strOf_ne {h : Option HttpServer.Hdr} {x : Text} (hh : h ≠ some (.text x)) : HttpServer.strOf h ≠ some x := by
  intro he
  exact hh ((HttpServer.strOf_some_iff _ _).mp he)

/-- A POST: either nothing changes, or one request waits. -/
theorem post_shape (c : HttpServer.Config) (s : HttpServer.State) (p : HttpServer.Post) (n : Text) :
    (∃ code, HttpServer.post c s p n = (s, .status code)) ∨
    ∃ q, (HttpServer.post c s p n).2 = .goesOn ∧ (HttpServer.post c s p n).1.posts = s.posts ++ [q] ∧
      q.clientSid = HttpServer.strOf p.sid ∧
      (q.respSid = none ∨ q.respSid = HttpServer.strOf p.sid ∨ q.respSid = some n) := by
  rcases HttpServer.post_cases c s p n with ⟨code, h⟩ | ⟨req, r, h, hb⟩ | ⟨req, s', r, hp, hb, hv, h⟩
  · exact .inl ⟨code, h⟩
  · refine .inr ⟨⟨HttpServer.strOf p.sid, r, false, req⟩, by rw [h], by rw [h], rfl, ?_⟩
    have hh := h
    unfold HttpServer.post at hh
    cases hv : HttpServer.validatePost p.contentType p.accept with
    | some code => rw [hv] at hh; exact absurd (congrArg Prod.snd hh) (by simp)
    | none =>
      rw [hv, hb] at hh
      simp only at hh
      cases hn : HttpServer.validateNonInit c s (HttpServer.strOf p.sid) with
      | error code => rw [hn] at hh; exact absurd (congrArg Prod.snd hh) (by simp)
      | ok r' =>
        rw [hn] at hh
        simp only at hh
        cases hvv : HttpServer.validateVersion c s (HttpServer.strOf p.sid) (HttpServer.strOf p.version) with
        | some code => rw [hvv] at hh; exact absurd (congrArg Prod.snd hh) (by simp)
        | none =>
          rw [hvv] at hh
          simp only [Prod.mk.injEq, and_true] at hh
          have hr : r' = r := by simpa using congrArg HttpServer.State.posts hh
          subst hr
          unfold HttpServer.validateNonInit at hn
          cases hst : c.stateful with
          | false => simp [hst] at hn; exact .inl hn.symm
          | true =>
            cases hs : HttpServer.strOf p.sid with
            | none => rw [hst, hs] at hn; simp at hn
            | some t =>
              rw [hst, hs] at hn
              simp only [↓reduceIte] at hn
              split at hn
              · right; left; simpa using hn.symm
              · cases hn
  · refine .inr ⟨⟨HttpServer.strOf p.sid, r, true, req⟩, by rw [h], ?_, rfl, ?_⟩
    · rw [h]
      have := HttpServer.processInit_posts c s (HttpServer.strOf p.sid) (HttpServer.strOf p.version) n
      rw [hp] at this
      simp only at this
      simp only [this]
    · unfold HttpServer.processInit at hp
      cases hst : c.stateful with
      | false => simp [hst] at hp; exact .inl hp.2.symm
      | true =>
        cases hs : HttpServer.strOf p.sid with
        | none => simp [hst, hs] at hp; exact .inr (.inr hp.2.symm)
        | some t =>
          simp only [hst, hs, ↓reduceIte] at hp
          right; left
          split at hp
          · split at hp
            · cases hp
            · simpa using (congrArg Prod.snd hp).symm
          · simpa using (congrArg Prod.snd hp).symm

/-- Only the client's own requests at the server concern session `x`, and the session has no stream.
(Specification: no counterpart in the code.) -/
structure Quiet (x : Text) (s : Sys M) : Prop where
  posts : ∀ (j : Nat) (q : HttpServer.Pending), s.srv.posts[j]? = some q → s.phase ≠ .posting j → q.respSid ≠ some x
  gets : ∀ g ∈ s.srv.gets, g.sid ≠ x

theorem erase_shift {α : Type} (l : List α) (i j : Nat) (h : j ≠ i) (hi : i < l.length) :
    (l.eraseIdx j)[if j < i then i - 1 else i]? = l[i]? := by
  rw [List.getElem?_eraseIdx]
  split
  · next hji => split
                · omega
                · congr 1; omega
  · next hji => split
                · rfl
                · omega

theorem process_posts (c : HttpServer.Config) (s : HttpServer.State) (i : Nat) (r : HttpServer.Msg) (neg : Option Text)
    (ev : Text) (q : HttpServer.Pending) (h : s.posts[i]? = some q) :
    (HttpServer.process c s i r neg ev).1.posts = s.posts.eraseIdx i := by
  rw [HttpServer.process_eq c s i r neg ev q h]
  simp only [HttpServer.build_posts, HttpServer.before_posts]

theorem process_none (c : HttpServer.Config) (s : HttpServer.State) (i : Nat) (r : HttpServer.Msg) (neg : Option Text)
    (ev : Text) (h : s.posts[i]? = none) : HttpServer.process c s i r neg ev = (s, .nothing) := by
  unfold HttpServer.process; rw [h]

/-- The requests waiting at the server after a step of others: the client's is still there, under its new number. -/
theorem other_posts (c : HttpServer.Config) (s : HttpServer.State) (op : HttpServer.Op) (i : Nat)
    (q : HttpServer.Pending) (hi : s.posts[i]? = some q) (hm : notMine (.posting i) op = true) :
    (HttpServer.step c s op).1.posts[shiftPost i op]? = some q := by
  have hlt : i < s.posts.length := (List.getElem?_eq_some_iff.mp hi).1
  cases op with
  | post p n =>
    simp only [HttpServer.step, shiftPost]
    rcases post_shape c s p n with ⟨code, h⟩ | ⟨q', h1, h2, -, -⟩
    · rw [h]; exact hi
    · rw [h2, List.getElem?_append_left hlt]; exact hi
  | process j r neg ev =>
    simp only [HttpServer.step, shiftPost]
    have hj : j ≠ i := by
      rintro rfl
      simp [notMine] at hm
    cases hq : s.posts[j]? with
    | none =>
      rw [process_none c s j r neg ev hq]
      have : ¬ j < i := by
        intro hji
        rw [List.getElem?_eq_none_iff] at hq
        omega
      rw [if_neg this]; exact hi
    | some q' => rw [process_posts c s j r neg ev q' hq, erase_shift _ _ _ hj hlt]; exact hi
  | getStart a h l n =>
    simp only [HttpServer.step, shiftPost]
    rcases HttpServer.getStart_cases c s a h l n with ⟨code, hh⟩ | ⟨t, _, _, hh⟩ | ⟨_, _, _, hh⟩ <;> rw [hh] <;> exact hi
  | getCheck j => simp only [HttpServer.step, shiftPost, (HttpServer.getCheck_frame s j).2.2.1]; exact hi
  | getOpen j => simp only [HttpServer.step, shiftPost, (HttpServer.getOpen_frame c s j).2.1]; exact hi
  | delete h => simp only [HttpServer.step, shiftPost, (HttpServer.delete_frame c s h).2.1]; exact hi
  | disconnect k => simp only [HttpServer.step, shiftPost, (HttpServer.disconnect_frame s k).2.2.2.1]; exact hi
  | deliver k ev => simp only [HttpServer.step, shiftPost, (HttpServer.deliver_frame c s k ev).2.2.2.1]; exact hi

/-- A request waiting after a step of others was waiting before, or was just made. -/
theorem other_posts_from (c : HttpServer.Config) (s : HttpServer.State) (op : HttpServer.Op) (j : Nat)
    (q : HttpServer.Pending) (hj : (HttpServer.step c s op).1.posts[j]? = some q) :
    (∃ j', s.posts[j']? = some q ∧ (∀ i, notMine (.posting i) op = true → i < s.posts.length →
      shiftPost i op ≠ j → i ≠ j')) ∨
    ∃ p n, op = .post p n ∧ (q.respSid = none ∨ q.respSid = HttpServer.strOf p.sid ∨ q.respSid = some n) := by
  cases op with
  | post p n =>
    simp only [HttpServer.step] at hj
    rcases post_shape c s p n with ⟨code, h⟩ | ⟨q', h1, h2, h3, h4⟩
    · rw [h] at hj
      refine .inl ⟨j, hj, ?_⟩
      intro i _ _ h; simpa [shiftPost] using h
    · rw [h2] at hj
      by_cases hl : j < s.posts.length
      · rw [List.getElem?_append_left hl] at hj
        exact .inl ⟨j, hj, fun i _ _ h => by simpa [shiftPost] using h⟩
      · rw [List.getElem?_append_right (by omega)] at hj
        have : q = q' := by
          cases hk : j - s.posts.length with
          | zero => rw [hk] at hj; simpa using hj.symm
          | succ k => rw [hk] at hj; simp at hj
        subst this
        exact .inr ⟨p, n, rfl, h4⟩
  | process k r neg ev =>
    left
    simp only [HttpServer.step] at hj
    cases hq : s.posts[k]? with
    | none =>
      rw [process_none c s k r neg ev hq] at hj
      refine ⟨j, hj, ?_⟩
      intro i _ hi h
      rw [List.getElem?_eq_none_iff] at hq
      have : ¬ k < i := by omega
      simpa [shiftPost, this] using h
    | some q' =>
      rw [process_posts c s k r neg ev q' hq, List.getElem?_eraseIdx] at hj
      split at hj
      · refine ⟨j, hj, ?_⟩
        intro i hm _ h
        rintro rfl
        simp only [shiftPost] at h
        split at h
        · omega
        · exact h rfl
      · refine ⟨j + 1, hj, ?_⟩
        intro i hm _ h
        rintro rfl
        simp only [shiftPost] at h
        split at h
        · simp at h
        · have : k ≠ j + 1 := by rintro rfl; simp [notMine] at hm
          omega
  | getStart a h l n =>
    left
    simp only [HttpServer.step] at hj
    refine ⟨j, ?_, fun i _ _ h => by simpa [shiftPost] using h⟩
    rcases HttpServer.getStart_cases c s a h l n with ⟨code, hh⟩ | ⟨t, _, _, hh⟩ | ⟨_, _, _, hh⟩ <;> rw [hh] at hj <;>
      exact hj
  | getCheck k =>
    left
    simp only [HttpServer.step, (HttpServer.getCheck_frame s k).2.2.1] at hj
    exact ⟨j, hj, fun i _ _ h => by simpa [shiftPost] using h⟩
  | getOpen k =>
    left
    simp only [HttpServer.step, (HttpServer.getOpen_frame c s k).2.1] at hj
    exact ⟨j, hj, fun i _ _ h => by simpa [shiftPost] using h⟩
  | delete h =>
    left
    simp only [HttpServer.step, (HttpServer.delete_frame c s h).2.1] at hj
    exact ⟨j, hj, fun i _ _ h => by simpa [shiftPost] using h⟩
  | disconnect k =>
    left
    simp only [HttpServer.step, (HttpServer.disconnect_frame s k).2.2.2.1] at hj
    exact ⟨j, hj, fun i _ _ h => by simpa [shiftPost] using h⟩
  | deliver k ev =>
    left
    simp only [HttpServer.step, (HttpServer.deliver_frame c s k ev).2.2.2.1] at hj
    exact ⟨j, hj, fun i _ _ h => by simpa [shiftPost] using h⟩

/-- A stream request waiting after a step of others was waiting before for that session, or was just made. -/
theorem other_gets_from (c : HttpServer.Config) (s : HttpServer.State) (op : HttpServer.Op) (g : HttpServer.PendingGet)
    (hg : g ∈ (HttpServer.step c s op).1.gets) :
    (∃ g' ∈ s.gets, g'.sid = g.sid) ∨
    ∃ a h l n, op = .getStart a h l n ∧ (HttpServer.strOf h = some g.sid ∨ n = g.sid) := by
  cases op with
  | post p n => simp only [HttpServer.step, HttpServer.post_gets] at hg; exact .inl ⟨g, hg, rfl⟩
  | process k r neg ev => simp only [HttpServer.step, HttpServer.process_gets] at hg; exact .inl ⟨g, hg, rfl⟩
  | getStart a h l n =>
    simp only [HttpServer.step] at hg
    rcases HttpServer.getStart_cases c s a h l n with ⟨code, hh⟩ | ⟨t, h1, _, hh⟩ | ⟨_, _, _, hh⟩
    · rw [hh] at hg; exact .inl ⟨g, hg, rfl⟩
    · rw [hh] at hg
      simp only [List.mem_append, List.mem_singleton] at hg
      rcases hg with hg | rfl
      · exact .inl ⟨g, hg, rfl⟩
      · exact .inr ⟨a, h, l, n, rfl, .inl h1⟩
    · rw [hh] at hg
      simp only [List.mem_append, List.mem_singleton] at hg
      rcases hg with hg | rfl
      · exact .inl ⟨g, hg, rfl⟩
      · exact .inr ⟨a, h, l, n, rfl, .inr rfl⟩
  | getCheck k =>
    left
    simp only [HttpServer.step, HttpServer.getCheck] at hg
    split at hg
    · next sid last hk =>
      split at hg
      · exact ⟨g, List.mem_of_mem_eraseIdx hg, rfl⟩
      · rcases List.mem_or_eq_of_mem_set hg with hg | rfl
        · exact ⟨g, hg, rfl⟩
        · exact ⟨_, List.mem_of_getElem? hk, rfl⟩
    · exact ⟨g, hg, rfl⟩
  | getOpen k =>
    left
    simp only [HttpServer.step, HttpServer.getOpen] at hg
    split at hg
    · exact ⟨g, List.mem_of_mem_eraseIdx hg, rfl⟩
    · exact ⟨g, hg, rfl⟩
  | delete h => simp only [HttpServer.step, (HttpServer.delete_frame c s h).1] at hg; exact .inl ⟨g, hg, rfl⟩
  | disconnect k => simp only [HttpServer.step, (HttpServer.disconnect_frame s k).2.2.1] at hg; exact .inl ⟨g, hg, rfl⟩
  | deliver k ev => simp only [HttpServer.step, (HttpServer.deliver_frame c s k ev).2.2.1] at hg; exact .inl ⟨g, hg, rfl⟩

/-- The stream of session `x` after a step of others. -/
theorem other_senders (c : HttpServer.Config) (s : HttpServer.State) (op : HttpServer.Op) (x : Text)
    (hs : Stranger x op) (hg : ∀ g ∈ s.gets, g.sid = x → g.checked = false) :
    AMap.get (HttpServer.step c s op).1.senders x = AMap.get s.senders x := by
  cases op with
  | post p n => simp only [HttpServer.step, HttpServer.post_senders]
  | process k r neg ev => simp only [HttpServer.step, HttpServer.process_senders]
  | getStart a h l n =>
    simp only [HttpServer.step]
    rcases HttpServer.getStart_cases c s a h l n with ⟨code, hh⟩ | ⟨t, h1, _, hh⟩ | ⟨_, _, _, hh⟩ <;> rw [hh]
  | getCheck k => simp only [HttpServer.step, (HttpServer.getCheck_frame s k).2.1]
  | getOpen k =>
    simp only [HttpServer.step, HttpServer.getOpen]
    split
    · next sid last hk =>
      have : x ≠ sid := by
        rintro rfl
        have := hg _ (List.mem_of_getElem? hk) rfl
        simp at this
      simp only [AMap.get_insert, if_neg this]
    · rfl
  | delete h =>
    simp only [HttpServer.step, HttpServer.delete]
    cases hh : HttpServer.strOf h with
    | none => rfl
    | some t =>
      have : x ≠ t := by
        rintro rfl
        exact strOf_ne hs hh
      simp only
      split
      · rfl
      · simp only [AMap.get_remove, if_neg this]
  | disconnect k => simp only [HttpServer.step, (HttpServer.disconnect_frame s k).2.1]
  | deliver k ev => simp only [HttpServer.step, (HttpServer.deliver_frame c s k ev).2.1]

/-- A stranger does not create or delete the session. -/
theorem stranger_get (c : HttpServer.Config) (s : HttpServer.State) (op : HttpServer.Op) (x : Text)
    (hs : Stranger x op) (ha : ¬ HttpServer.AnswersInit s op x) :
    AMap.get (HttpServer.step c s op).1.sessions x = AMap.get s.sessions x := by
  apply HttpServer.step_get c s op x _ _ ha
  · rintro ⟨-, ⟨p, r, rfl, -⟩ | ⟨a, h, l, rfl, -⟩⟩
    · exact hs.2 rfl
    · exact hs.2 rfl
  · rintro rfl
    exact hs rfl

/-- A step of others leaves the client alone, and session `x` too. -/
theorem quiet_other (c : HttpServer.Config) (L : Link M) (x : Text) (s s' : Sys M) (op : HttpServer.Op)
    (hq : Quiet x s) (hs : Stranger x op) (hm : ∀ i, s.phase = .posting i → i < s.srv.posts.length)
    (h : step c L s (.other op) = some s') :
    Quiet x s' ∧ AMap.get s'.srv.sessions x = AMap.get s.srv.sessions x ∧
    AMap.get s'.srv.senders x = AMap.get s.srv.senders x ∧ s'.cl = s.cl ∧ s'.bodies = s.bodies ∧
    s'.opened = s.opened ∧ s'.last = s.last ∧ (s.phase = .idle → s'.phase = .idle) ∧
    ∀ i q, s.phase = .posting i → s.srv.posts[i]? = some q →
      ∃ i', s'.phase = .posting i' ∧ s'.srv.posts[i']? = some q := by
  simp only [step] at h
  split at h
  · next hn =>
    simp only [Option.some.injEq] at h
    subst h
    have hph : ∀ j, s.phase = .posting j → notMine (.posting j) op = true := by
      intro j hj; rw [hj] at hn; exact hn
    refine ⟨⟨?_, ?_⟩, ?_, ?_, rfl, rfl, rfl, rfl, ?_, ?_⟩
    · intro j q hj hne
      simp only at hj hne
      rcases other_posts_from c s.srv op j q hj with ⟨j', h1, h2⟩ | ⟨p, n, rfl, h3⟩
      · apply hq.posts j' q h1
        intro hp
        have := h2 j' (hph j' hp) (hm j' hp)
        rw [hp] at hne
        simp only [shift, ne_eq, Phase.posting.injEq] at hne
        exact this hne rfl
      · rcases h3 with h3 | h3 | h3
        · rw [h3]; simp
        · rw [h3]; exact strOf_ne hs.1
        · rw [h3]; simpa using hs.2
    · intro g hg
      simp only at hg
      rcases other_gets_from c s.srv op g hg with ⟨g', h1, h2⟩ | ⟨a, h, l, n, rfl, h3⟩
      · rw [← h2]; exact hq.gets g' h1
      · rcases h3 with h3 | h3
        · intro he; rw [he] at h3; exact strOf_ne hs.1 h3
        · rw [← h3]; exact hs.2
    · simp only
      apply stranger_get c s.srv op x hs
      rintro ⟨i, r, neg, ev, q, rfl, h1, h2, h3⟩
      apply hq.posts i q h1 _ h3
      intro hp
      have := hph i hp
      simp [notMine] at this
    · simp only
      apply other_senders c s.srv op x hs
      intro g hg hx
      exact absurd hx (hq.gets g hg)
    · intro hi; simp only [hi, shift]
    · intro i q hi hq'
      refine ⟨shiftPost i op, by simp only [hi, shift], other_posts c s.srv op i q hq' (hph i hi)⟩
  · cases h

end Verif.HttpPair
