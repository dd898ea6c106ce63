import Verif.Wire.Messages

/-
Exact round-trip conditions of the parameter types that do not always survive, and decoding of tagged objects.
-/

namespace Verif.Wire

/-! ### Exact conditions -/

theorem optF64_iff (x : Option F64) : optOf decF64 (x.map encF64) = some x ↔ okF x := by
  refine ⟨fun h f hf => ?_, optF64 x⟩
  subst hf
  cases f <;> simp_all [optOf, decOpt, encF64, F64.finite]

theorem optVal_iff (x : Option Json) : optOf decVal x = some x ↔ x ≠ some .null := by
  refine ⟨fun h hx => ?_, optVal x⟩
  subst hx
  simp [optOf, decOpt] at h

theorem decF64_iff (x : F64) : decF64 (encF64 x) = some x ↔ x.finite = true := by
  refine ⟨fun h => ?_, decF64_enc x⟩
  cases x <;> simp_all [decF64, encF64, F64.finite]

theorem optObj_iff {α : Type} (d : Json → Option α) (e : α → Json) (x : Option α) (hn : ∀ a, e a ≠ .null) :
    optOf d (x.map e) = some x ↔ ∀ a, x = some a → d (e a) = some a := by
  cases x with
  | none => simp [optOf]
  | some a =>
    have : optOf d (some (e a)) = (d (e a)).map some := by
      have := hn a
      simp only [optOf]
      cases he : e a <;> simp_all [decOpt]
    simp [this]

theorem ModelPrefs.rt_iff (x : ModelPrefs) : ModelPrefs.dec x.enc = some x ↔ x.Ok := by
  refine ⟨fun h => ?_, ModelPrefs.rt x⟩
  simp only [dec, enc, src_obj, opt_obj, Option.bind_eq_bind, Option.bind_some, Option.bind_eq_some_iff] at h
  obtain ⟨a, _, b, hb, c, hc, d, hd, he⟩ := h
  cases he
  simp at hb hc hd
  exact ⟨(optF64_iff _).mp hb, (optF64_iff _).mp hc, (optF64_iff _).mp hd⟩

theorem CreateMessage.rt_iff (x : CreateMessage) : CreateMessage.dec x.enc = some x ↔ x.Ok := by
  refine ⟨fun h => ?_, CreateMessage.rt x⟩
  simp only [dec, enc, src_obj, opt_obj, Option.bind_eq_bind, Option.bind_some, Option.bind_eq_some_iff] at h
  obtain ⟨a, _, b, hb, c, _, d, _, e, he, f, _, g, _, k, hk, hx⟩ := h
  cases hx
  simp at hb he hk
  refine ⟨fun p hp => ?_, (optF64_iff _).mp he, (optVal_iff _).mp hk⟩
  exact (ModelPrefs.rt_iff p).mp ((optObj_iff _ _ _ (by simp [ModelPrefs.enc])).mp hb p hp)

theorem ElicitResponse.rt_iff (x : ElicitResponse) : ElicitResponse.dec x.enc = some x ↔ x.Ok := by
  refine ⟨fun h => ?_, ElicitResponse.rt x⟩
  simp only [dec, enc, src_obj, opt_obj, Option.bind_eq_bind, Option.bind_some, Option.bind_eq_some_iff] at h
  obtain ⟨a, _, b, hb, c, _, d, _, hx⟩ := h
  cases hx
  simp at hb
  exact (optVal_iff _).mp hb

theorem InputValidation.rt_iff (x : InputValidation) : InputValidation.dec x.enc = some x ↔ x.Ok := by
  refine ⟨fun h => ?_, InputValidation.rt x⟩
  simp only [dec, enc, src_obj, opt_obj, Option.bind_eq_bind, Option.bind_some, Option.bind_eq_some_iff] at h
  obtain ⟨a, _, b, hb, c, hc, d, _, e, _, f, _, hx⟩ := h
  cases hx
  simp at hb hc
  exact ⟨(optF64_iff _).mp hb, (optF64_iff _).mp hc⟩

theorem Progress.rt_iff (x : Progress) : Progress.dec x.enc = some x ↔ x.Ok := by
  refine ⟨fun h => ?_, Progress.rt x⟩
  simp only [dec, enc, src_obj, opt_obj, Option.bind_eq_bind, Option.bind_some, Option.bind_eq_some_iff] at h
  obtain ⟨a, _, b, hb, c, _, hx⟩ := h
  cases hx
  simp at hb
  exact (decF64_iff _).mp hb

theorem LogMessage.rt_iff (x : LogMessage) : LogMessage.dec x.enc = some x ↔ x.Ok := by
  refine ⟨fun h => ?_, LogMessage.rt x⟩
  simp only [dec, enc, src_obj, opt_obj, Option.bind_eq_bind, Option.bind_some, Option.bind_eq_some_iff] at h
  obtain ⟨a, _, b, _, c, _, d, hd, hx⟩ := h
  cases hx
  simp at hd
  exact (optVal_iff _).mp hd

theorem RpcError.rt_iff (x : RpcError) : RpcError.dec x.enc = some x ↔ x.Ok := by
  refine ⟨fun h => ?_, RpcError.rt x⟩
  simp only [dec, enc, src_obj, opt_obj, Option.bind_eq_bind, Option.bind_some, Option.bind_eq_some_iff] at h
  obtain ⟨a, _, b, _, c, hc, hx⟩ := h
  cases hx
  simp at hc
  exact (optVal_iff _).mp hc

theorem RpcResponse.rt_iff (x : RpcResponse) : RpcResponse.dec x.enc = some x ↔ x.Ok := by
  refine ⟨fun h => ?_, RpcResponse.rt x⟩
  intro e he
  obtain ⟨v, i, p⟩ := x
  simp only at he
  subst he
  rw [← RpcError.rt_iff]
  simp only [dec, enc, Payload.entry, req_obj, Option.bind_eq_bind, Option.bind_eq_some_iff] at h
  obtain ⟨_, _, _, _, p, hp, hx⟩ := h
  cases hx
  simp [Payload.dec] at hp
  exact hp

/-- A parameter with metadata entries survives exactly if no metadata key is one of the field names (given that the
metadata is a map). -/
theorem ElicitRequest.rt_iff (x : ElicitRequest) (hm : (x.metadata.map (·.1)).Nodup) :
    ElicitRequest.dec x.enc = some x ↔ x.Ok := by
  refine ⟨fun h => ?_, ElicitRequest.rt x⟩
  have h0 := h
  simp only [dec, enc, Option.bind_eq_bind, Option.bind_eq_some_iff] at h
  obtain ⟨a, _, b, _, c, _, d, _, e, he, g, hg, hx⟩ := h
  have hmeta : x.metadata = rest known (flatten (ob x.fields) x.metadata) := by
    have := congrArg (Option.map ElicitRequest.metadata) hx
    simpa using this.symm
  have hd : ∀ k ∈ x.metadata.map (·.1), k ∉ ElicitRequest.known := by
    intro k hk hc
    rw [hmeta, List.mem_map] at hk
    obtain ⟨p, hp, rfl⟩ := hk
    have := (List.mem_filter.mp hp).2
    simp [hc] at this
  have hkeys : ∀ k ∈ (ob x.fields).map (·.1), k ∈ ElicitRequest.known := by
    intro k hk
    have := ob_keys _ k hk
    simpa [fields, known] using this
  have hf : flatten (ob x.fields) x.metadata = ob x.fields ++ x.metadata :=
    flatten_eq _ _ hm (fun k hk hc => hd k hk (hkeys k hc))
  have hget : ∀ k ∈ ElicitRequest.known, AMap.get (ob x.fields ++ x.metadata) k = AMap.get (ob x.fields) k :=
    fun k hk => get_append_left _ _ k (fun hc => hd k hc hk)
  rw [hf, opt_obj, hget _ (by simp [known])] at he hg
  simp [fields] at he hg
  have he' : e = x.default := by
    have := congrArg (Option.map ElicitRequest.default) hx
    simpa using this
  have hg' : g = x.validation := by
    have := congrArg (Option.map ElicitRequest.validation) hx
    simpa using this
  subst he' hg'
  refine ⟨(optVal_iff _).mp he, fun v hv => ?_, hm, hd⟩
  exact (InputValidation.rt_iff v).mp ((optObj_iff _ _ _ (by simp [InputValidation.enc])).mp hg v hv)

/-! ### Tagged objects -/

theorem decAdj_enc {α : Type} (tbl : String → Option (Variant α)) (m : String) (c : Option Json) :
    decAdj tbl (encAdj m c) = (tbl m).bind (fun v => v.read c) := by
  simp only [decAdj, encAdj, get_ob_cons, ob_nil]
  cases c <;> simp [decEnum]

theorem decAdj_tag {α : Type} (tbl : String → Option (Variant α)) (m : String) (c : Json) :
    decAdj tbl (tagJson m c) = (tbl m).bind (fun v => v.read (some c)) := by
  simp [decAdj, tagJson, AMap.get_cons, decEnum]

theorem RpcRequest.dec_enc (x : RpcRequest) (h : x.params ≠ some .null) : RpcRequest.dec x.enc = some x := by
  simp [enc, dec, optVal _ h]

theorem RpcNotification.dec_enc (x : RpcNotification) (h : x.params ≠ some .null) :
    RpcNotification.dec x.enc = some x := by
  simp [enc, dec, optVal _ h]

theorem clientToRpc_params (r : ClientRequest) : (clientToRpc r).2 ≠ some .null := by
  cases r <;> simp [clientToRpc, InitParams.enc, ListParams.enc, CallTool.enc, GetPrompt.enc, UriParams.enc,
    Complete.enc, CreateMessage.enc, ElicitResponse.enc]

theorem serverToRpc_params (r : ServerRequest) : (serverToRpc r).2 ≠ some .null := by
  cases r <;> simp [serverToRpc, CreateMessage.enc, ElicitRequest.enc]

theorem createRequest_params (id : Id) (r : Request) : (createRequest id r).params ≠ some .null := by
  cases r with
  | client r => exact clientToRpc_params r
  | server r => exact serverToRpc_params r

theorem createNotification_params (n : Notification) : (createNotification n).params ≠ some .null := by
  cases n with
  | client n => cases n <;> simp [createNotification, clientNotifToRpc, Cancelled.enc, Progress.enc]
  | server n => cases n <;> simp [createNotification, serverNotifToRpc, Progress.enc, UriParams.enc, LogMessage.enc]
  | progress p => simp [createNotification, Progress.enc]
  | cancelled p => simp [createNotification, Cancelled.enc]

end Verif.Wire
