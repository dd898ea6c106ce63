import Verif.Wire.Tolerance

/-
Exactly when the order of the members of a message matters: C101.
-/

namespace Verif.Wire

open Verif

/-- A response with both a result and an error, otherwise well formed: no method, a version and an id that can be read.
(Specification: no counterpart in the code.) -/
def TwoFaced (f : List (String × Json)) : Prop :=
  AMap.get f "method" = none ∧ (∃ v, AMap.get f "jsonrpc" = some (.str v)) ∧
    (∃ j i, AMap.get f "id" = some j ∧ Id.dec j = some i) ∧
    (∃ r, AMap.get f "result" = some r) ∧ ∃ e, AMap.get f "error" = some e

theorem member_first (f : List (String × Json)) (k : String) (x : Json) (h : AMap.get f k = some x) :
    ∃ r, f.Perm ((k, x) :: r) := by
  obtain ⟨a, b, rfl⟩ := List.append_of_mem (AMap.mem_of_get h)
  exact ⟨a ++ b, List.perm_middle⟩

/-- **C101**, exactly: some other order of the members makes another message of them if and only if they are those of a
response with both a result and an error. -/
theorem C101_order_iff (f : List (String × Json)) (hn : (f.map (·.1)).Nodup) :
    (∃ g, f.Perm g ∧ parseMessage (.obj g) ≠ parseMessage (.obj f)) ↔ TwoFaced f := by
  constructor
  · rintro ⟨g, hp, hne⟩
    have hk := get_perm f g hn hp
    have h1 : ¬ (AMap.get f "result" = none ∨ AMap.get f "error" = none) := fun h =>
      hne (C101_order_irrelevant_partial f g hn hp h).symm
    rw [not_or] at h1
    obtain ⟨hr, he⟩ := h1
    have hr := Option.ne_none_iff_exists'.mp hr
    have he := Option.ne_none_iff_exists'.mp he
    have hm : AMap.get f "method" = none := by
      cases hm : AMap.get f "method" with
      | none => rfl
      | some m =>
        exfalso
        apply hne
        have e1 : RpcRequest.dec (.obj g) = RpcRequest.dec (.obj f) := by
          simp only [RpcRequest.dec, src_obj, Option.bind_eq_bind, Option.bind_some, req_obj, opt_obj, hk]
        have e2 : RpcNotification.dec (.obj g) = RpcNotification.dec (.obj f) := by
          simp only [RpcNotification.dec, src_obj, Option.bind_eq_bind, Option.bind_some, req_obj, opt_obj, hk]
        simp only [parseMessage, vget, ← hk, hm, Option.isSome_some, if_true, e1, parseNotification, e2]
        rfl
    have hresp : ∀ x, (∀ k, AMap.get x k = AMap.get f k) →
        parseMessage (.obj x) = (RpcResponse.dec (.obj x)).map .response := by
      intro x hx
      obtain ⟨r, hr⟩ := hr
      simp [parseMessage, vget, hx, hm, hr]
    rw [hresp g (fun k => (hk k).symm), hresp f (fun _ => rfl)] at hne
    simp only [RpcResponse.dec, req_obj, ← hk] at hne
    refine ⟨hm, ?_, ?_, hr, he⟩
    · cases h : AMap.get f "jsonrpc" with
      | none => simp [h] at hne
      | some j =>
        cases j with
        | str v => exact ⟨v, rfl⟩
        | _ => simp [h, decStr] at hne
    · cases h : AMap.get f "id" with
      | none => cases hj : AMap.get f "jsonrpc" <;> simp [h, hj] at hne
      | some j =>
        cases hi : Id.dec j with
        | none => cases hj : AMap.get f "jsonrpc" <;> simp [h, hj, hi] at hne
        | some i => exact ⟨j, i, rfl, hi⟩
  · rintro ⟨hm, ⟨v, hv⟩, ⟨j, i, hj, hi⟩, ⟨r, hr⟩, ⟨e, he⟩⟩
    obtain ⟨a, ha⟩ := member_first f _ _ hr
    obtain ⟨b, hb⟩ := member_first f _ _ he
    have hread : ∀ x, f.Perm x → parseMessage (.obj x) = (Payload.dec x).map (fun p => .response ⟨v, i, p⟩) := by
      intro x hx
      have hk := get_perm f x hn hx
      simp only [parseMessage, vget, ← hk, hm, hr, RpcResponse.dec, req_obj, hv, hj]
      simp only [Option.isSome_none, Bool.false_eq_true, if_false, Option.isSome_some, Bool.true_or, if_true,
        Option.bind_eq_bind, Option.bind_some, decStr, hi]
      cases Payload.dec x <;> rfl
    have h1 := hread _ ha
    have h2 := hread _ hb
    have hd : parseMessage (.obj (("result", r) :: a)) ≠ parseMessage (.obj (("error", e) :: b)) := by
      rw [h1, h2]
      simp only [Payload.dec, if_true, if_neg (show ("error" : String) ≠ "result" by decide)]
      cases RpcError.dec e <;> simp
    by_cases h : parseMessage (.obj (("result", r) :: a)) = parseMessage (.obj f)
    · exact ⟨_, hb, fun h' => hd (h.trans h'.symm)⟩
    · exact ⟨_, ha, h⟩

example : TwoFaced [("jsonrpc", .str "2.0"), ("id", .str "1"), ("result", .null), ("error", .null)] :=
  ⟨rfl, ⟨_, rfl⟩, ⟨_, _, rfl, rfl⟩, ⟨_, rfl⟩, ⟨_, rfl⟩⟩

end Verif.Wire
