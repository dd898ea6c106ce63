import Verif.Wire.Results
import Verif.Wire.Lemmas

/-
Exactly which results survive the trip to the client: C100.
-/

namespace Verif.Wire

theorem decList_iff {α : Type} (d : Json → Option α) (e : α → Json) (l : List α) :
    decList d (encList e l) = some l ↔ ∀ a ∈ l, d (e a) = some a := by
  refine ⟨?_, decList_enc d e l⟩
  unfold decList encList
  induction l with
  | nil => intro _ a ha; cases ha
  | cons b l ih =>
    intro h a ha
    simp only [List.map_cons, decAll] at h
    cases hb : d (e b) with
    | none => rw [hb] at h; cases h
    | some x =>
      rw [hb] at h
      simp only [Option.bind_some] at h
      cases hl : decAll d (l.map e) with
      | none => rw [hl] at h; cases h
      | some r =>
        rw [hl] at h
        simp only [Option.map_some, Option.some.injEq, List.cons.injEq] at h
        obtain ⟨rfl, rfl⟩ := h
        rcases List.mem_cons.mp ha with rfl | ha
        · exact hb
        · exact ih hl a ha

theorem insertEntry_keys (f : List (String × Json)) (k : String) (v : Json) (h : (f.map (·.1)).Nodup) :
    ((insertEntry f k v).map (·.1)).Nodup := by
  unfold insertEntry
  split
  · have : (f.map (fun p => if p.1 = k then (k, v) else p)).map (·.1) = f.map (·.1) := by
      rw [List.map_map]
      apply List.map_congr_left
      intro p _
      simp only [Function.comp]
      split
      · next e => exact e.symm
      · rfl
    rw [this]; exact h
  · next hn =>
    rw [List.map_append, List.nodup_append]
    refine ⟨h, by simp, ?_⟩
    intro a ha b hb
    simp only [List.map_cons, List.map_nil, List.mem_singleton] at hb
    subst hb
    rintro rfl
    apply hn
    clear h hn
    induction f with
    | nil => cases ha
    | cons p f ih =>
      rw [AMap.get_cons]
      split
      · rfl
      · next hp =>
        rcases List.mem_cons.mp ha with e | ha
        · exact absurd e.symm hp
        · exact ih ha

theorem flatten_keys (m f : List (String × Json)) (h : (f.map (·.1)).Nodup) : ((flatten f m).map (·.1)).Nodup := by
  unfold flatten
  induction m generalizing f with
  | nil => exact h
  | cons p m ih => exact ih _ (insertEntry_keys f p.1 p.2 h)

theorem CompletionConfig.rt_ok_iff (x : CompletionConfig) : CompletionConfig.dec x.enc = some x ↔ x.Ok := by
  refine ⟨fun h => ?_, CompletionConfig.rt x⟩
  simp only [enc, dec] at h
  cases hp : req Provider.dec (.obj (flatten (ob [("provider", some x.provider.enc)]) x.config)) "provider" 0 with
  | none => rw [hp] at h; cases h
  | some a =>
    rw [hp] at h
    have hc : rest ["provider"] (flatten (ob [("provider", some x.provider.enc)]) x.config) = x.config :=
      congrArg CompletionConfig.config (Option.some.inj h)
    have hk := flatten_keys x.config (ob [("provider", some x.provider.enc)]) (by simp [ob])
    refine ⟨?_, ?_⟩
    · rw [← hc]
      unfold rest
      exact List.Nodup.sublist (List.Sublist.map _ List.filter_sublist) hk
    · rw [← hc]
      intro hm
      obtain ⟨p, hp, he⟩ := List.mem_map.mp hm
      have := (List.mem_filter.mp hp).2
      simp only [he] at this
      simp at this

theorem PromptArg.rt_iff (x : PromptArg) : PromptArg.dec x.enc = some x ↔ x.Ok := by
  have hi := optObj_iff CompletionConfig.dec CompletionConfig.enc x.completion (by simp [CompletionConfig.enc])
  have : PromptArg.dec x.enc = (optOf CompletionConfig.dec (x.completion.map CompletionConfig.enc)).map
      (fun d => ⟨x.name, x.description, x.required, d⟩) := by
    simp only [enc, dec]
    simp
    cases optOf CompletionConfig.dec (x.completion.map CompletionConfig.enc) <;> rfl
  rw [this, Option.map_eq_some_iff]
  unfold PromptArg.Ok
  simp only [← CompletionConfig.rt_ok_iff]
  rw [← hi]
  constructor
  · rintro ⟨d, h, e⟩
    rw [h, ← congrArg PromptArg.completion e]
  · intro h
    exact ⟨_, h, rfl⟩

theorem PromptInfo.rt_iff (x : PromptInfo) : PromptInfo.dec x.enc = some x ↔ x.Ok := by
  have hi := optObj_iff (decList PromptArg.dec) (encList PromptArg.enc) x.arguments (by simp [encList])
  have : PromptInfo.dec x.enc = (optOf (decList PromptArg.dec) (x.arguments.map (encList PromptArg.enc))).map
      (fun d => ⟨x.name, x.description, d⟩) := by
    simp only [enc, dec]
    simp
    cases optOf (decList PromptArg.dec) (x.arguments.map (encList PromptArg.enc)) <;> rfl
  rw [this, Option.map_eq_some_iff]
  unfold PromptInfo.Ok
  simp only [decList_iff] at hi
  simp only [← PromptArg.rt_iff]
  rw [← hi]
  constructor
  · rintro ⟨d, h, e⟩
    rw [h, ← congrArg PromptInfo.arguments e]
  · intro h
    exact ⟨_, h, rfl⟩

/-- **C100**, exactly: a result arrives as it was sent if and only if it is not a list of prompts with an argument whose
completion settings use the key `provider` (settings being maps, no key twice). -/
theorem C100_iff (r : Res) : r.decLike r.enc = some r ↔ r.Ok := by
  refine ⟨?_, C100_results_partial r⟩
  cases r with
  | prompts r =>
    intro h p hp
    have : Page.dec "prompts" PromptInfo.dec (r.enc "prompts" PromptInfo.enc) =
        (decList PromptInfo.dec (encList PromptInfo.enc r.items)).map (fun l => ⟨l, r.nextCursor⟩) := by
      simp only [Page.enc, Page.dec]
      simp
      cases decList PromptInfo.dec (encList PromptInfo.enc r.items) <;> rfl
    simp only [Res.decLike, Res.enc, this, Option.map_map, Option.map_eq_some_iff, Function.comp] at h
    obtain ⟨l, hl, he⟩ := h
    have hi : l = r.items := congrArg Page.items (Res.prompts.inj he)
    rw [hi] at hl
    exact (PromptInfo.rt_iff p).mp ((decList_iff _ _ _).mp hl p hp)
  | _ => intro _; trivial

/-- A list of one prompt, whose settings name a provider of their own. (Specification: no counterpart in the code.) -/
def twoProviders : Res :=
  .prompts ⟨[⟨"p", none, some [⟨"a", none, true, some ⟨.static, [("provider", .str "x")]⟩⟩]⟩], none⟩

-- It does not arrive as it was sent.
example : twoProviders.decLike twoProviders.enc ≠ some twoProviders := by
  intro h
  have := (C100_iff _).mp h ⟨"p", none, some [⟨"a", none, true, some ⟨.static, [("provider", .str "x")]⟩⟩]⟩
    (List.mem_cons_self ..) _ rfl ⟨"a", none, true, some ⟨.static, [("provider", .str "x")]⟩⟩ (List.mem_cons_self ..) _ rfl
  exact this.2 (by simp)

end Verif.Wire
