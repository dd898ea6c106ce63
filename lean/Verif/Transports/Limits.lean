/-
The limits of the WebSocket server: C172.

Models /repo/src/server/transport/websocket.rs L16-110 and L264-310: the configuration, its builder, and the call
`accept_async(tcp_stream)`, which uses the limits of the library's default configuration.
-/

namespace Verif.Transports.Limits

/-- `WebSocketServerConfig` (/repo/src/server/transport/websocket.rs L16-25); the address is left out. -/
structure Config where
  maxFrame : Option Nat
  maxMessage : Option Nat
  acceptUnmasked : Bool
deriving DecidableEq

/-- `WebSocketServerConfig::default` (/repo/src/server/transport/websocket.rs L27-36). -/
def defaultConfig : Config := ⟨some (64 * 1024 * 1024), some (64 * 1024 * 1024), false⟩

/-- The calls of `WebSocketServerBuilder` (/repo/src/server/transport/websocket.rs L276-297). -/
inductive Setting where
  | maxFrame (n : Nat)
  | maxMessage (n : Nat)
  | acceptUnmasked (b : Bool)

/-- One call (/repo/src/server/transport/websocket.rs L276-297). -/
def set (c : Config) : Setting → Config
  | .maxFrame n => { c with maxFrame := some n }
  | .maxMessage n => { c with maxMessage := some n }
  | .acceptUnmasked b => { c with acceptUnmasked := b }

/-- The configuration of a server made by the builder (/repo/src/server/transport/websocket.rs L269-302). -/
def built (l : List Setting) : Config := l.foldl set defaultConfig

/-- The limits in force on an accepted connection (/repo/src/server/transport/websocket.rs L96-98): `accept_async`
takes no configuration; the defaults of the library are frames of 16 MiB and messages of 64 MiB. -/
def inForce (_ : Config) : Config := ⟨some (16 * 1024 * 1024), some (64 * 1024 * 1024), false⟩

/-- A message on the wire (/repo/src/server/transport/websocket.rs L153-160): the sizes of its frames, and whether
the client masked them. -/
structure Msg where
  frames : List Nat
  masked : Bool

/-- `size ≤ limit`, for a limit that may be absent (/repo/src/server/transport/websocket.rs L16-25). -/
def within (size : Nat) : Option Nat → Bool
  | none => true
  | some m => decide (size ≤ m)

/-- The library's check of a message against limits (the reader at /repo/src/server/transport/websocket.rs
L153-160). -/
def allows (c : Config) (m : Msg) : Bool :=
  m.frames.all (within · c.maxFrame) && within m.frames.sum c.maxMessage && (m.masked || c.acceptUnmasked)

/-- Whether a server with this configuration takes a message (/repo/src/server/transport/websocket.rs L96-98,
L153-160). -/
def takes (c : Config) (m : Msg) : Bool := allows (inForce c) m

/-! ### C172 -/

/-- C172: the builder's last word on each limit is in the configuration. -/
theorem C172_built (l : List Setting) : built l =
    ⟨some ((l.filterMap (fun | .maxFrame n => some n | _ => none)).getLast?.getD 67108864),
     some ((l.filterMap (fun | .maxMessage n => some n | _ => none)).getLast?.getD 67108864),
     ((l.filterMap (fun | .acceptUnmasked b => some b | _ => none)).getLast?.getD false)⟩ := by
  have key : ∀ (l : List Setting) (c : Config), l.foldl set c =
      ⟨(l.filterMap (fun | .maxFrame n => some n | _ => none)).getLast?.or c.maxFrame,
       (l.filterMap (fun | .maxMessage n => some n | _ => none)).getLast?.or c.maxMessage,
       (l.filterMap (fun | .acceptUnmasked b => some b | _ => none)).getLast?.getD c.acceptUnmasked⟩ := by
    intro l
    induction l with
    | nil => intro c; rfl
    | cons x l ih =>
      intro c
      rw [List.foldl_cons, ih]
      cases x with
      | maxFrame n =>
        simp only [set, List.filterMap_cons, List.getLast?_cons]
        cases (l.filterMap (fun | Setting.maxFrame n => some n | _ => none)).getLast? <;> rfl
      | maxMessage n =>
        simp only [set, List.filterMap_cons, List.getLast?_cons]
        cases (l.filterMap (fun | Setting.maxMessage n => some n | _ => none)).getLast? <;> rfl
      | acceptUnmasked n =>
        simp only [set, List.filterMap_cons, List.getLast?_cons]
        cases (l.filterMap (fun | Setting.acceptUnmasked n => some n | _ => none)).getLast? <;> rfl
  unfold built
  rw [key]
  simp only [defaultConfig, Config.mk.injEq, and_true]
  constructor
  · cases (l.filterMap (fun | Setting.maxFrame n => some n | _ => none)).getLast? <;> rfl
  · cases (l.filterMap (fun | Setting.maxMessage n => some n | _ => none)).getLast? <;> rfl

/-- C172, exactly: whatever is configured, the server takes the messages of at most 64 MiB in masked frames of at
most 16 MiB. -/
theorem C172_taken (c : Config) (m : Msg) :
    takes c m = true ↔ (∀ f ∈ m.frames, f ≤ 16777216) ∧ m.frames.sum ≤ 67108864 ∧ m.masked = true := by
  simp [takes, allows, inForce, within, and_assoc]

theorem sum_ones (n : Nat) : (List.replicate n 1).sum = n := by
  induction n with
  | zero => rfl
  | succ n ih => rw [List.replicate_succ, List.sum_cons, ih]; omega

/-- C172, exactly: the configured limits are those in force on every message if and only if they are these very
ones.  The property asked for, that they always are, fails; in particular it fails for the default configuration,
whose frame limit is 64 MiB. -/
theorem C172_limits_partial (c : Config) :
    (∀ m, takes c m = allows c m) ↔ c = ⟨some 16777216, some 67108864, false⟩ := by
  constructor
  · intro h
    obtain ⟨f, s, u⟩ := c
    have hu : u = false := by
      have := h ⟨[], false⟩
      simp [takes, allows, inForce, within] at this
      cases s <;> simp_all [within]
    -- messages of one-byte frames
    have h1 : ∀ n, n ≤ 67108864 → within n s = true ∧ (0 < n → within 1 f = true) := by
      intro n hn
      have h2 := h ⟨List.replicate n 1, true⟩
      have h3 : takes ⟨f, s, u⟩ ⟨List.replicate n 1, true⟩ = true := by
        rw [C172_taken]
        refine ⟨fun x hx => ?_, by rw [sum_ones]; exact hn, rfl⟩
        rw [List.eq_of_mem_replicate hx]; decide
      rw [h3] at h2
      simp only [allows, Bool.true_or, Bool.and_true, sum_ones] at h2
      have h4 := h2.symm
      rw [Bool.and_eq_true] at h4
      refine ⟨h4.2, fun hp => ?_⟩
      have := (List.all_eq_true.mp h4.1) 1 (by simp; omega)
      exact this
    have hone := (h1 1 (by omega)).2 (by omega)
    have hs : s = some 67108864 := by
      cases s with
      | none =>
        exfalso
        have h2 := h ⟨List.replicate 67108865 1, true⟩
        have h3 : allows ⟨f, none, u⟩ ⟨List.replicate 67108865 1, true⟩ = true := by
          simp only [allows, Bool.true_or, Bool.and_true, Bool.and_eq_true, List.all_eq_true]
          exact ⟨fun x hx => by rw [List.eq_of_mem_replicate hx]; exact hone, rfl⟩
        rw [h3, C172_taken] at h2
        have := h2.2.1
        rw [sum_ones] at this
        omega
      | some k =>
        have hk := (h1 67108864 (by omega)).1
        simp only [within, decide_eq_true_eq] at hk
        by_cases hlt : k = 67108864
        · rw [hlt]
        · exfalso
          have h2 := h ⟨List.replicate 67108865 1, true⟩
          have h3 : allows ⟨f, some k, u⟩ ⟨List.replicate 67108865 1, true⟩ = true := by
            simp only [allows, Bool.true_or, Bool.and_true, Bool.and_eq_true, List.all_eq_true, sum_ones]
            exact ⟨fun x hx => by rw [List.eq_of_mem_replicate hx]; exact hone,
              by simp only [within, decide_eq_true_eq]; omega⟩
          rw [h3, C172_taken] at h2
          have := h2.2.1
          rw [sum_ones] at this
          omega
    subst hs
    have hf : f = some 16777216 := by
      have big := h ⟨[16777217], true⟩
      have fit := h ⟨[16777216], true⟩
      simp only [takes, allows, inForce, List.all_cons, List.all_nil, List.sum_cons, List.sum_nil, within] at big fit
      cases f with
      | none => simp [within] at big
      | some k =>
        simp [within] at big fit
        rw [show k = 16777216 by omega]
    rw [hf, hu]
  · rintro rfl m
    rfl

/-- C172 fails: a server limited to messages of a kilobyte takes one of 64 MiB; by default one frame of 20 MiB,
within the configured limits, is refused. -/
theorem C172_ignored : takes (built [.maxMessage 1024, .maxFrame 1024]) ⟨[16777216, 16777216, 16777216, 16777216], true⟩ = true ∧
    allows (built []) ⟨[20971520], true⟩ = true ∧ takes (built []) ⟨[20971520], true⟩ = false := by decide

/-- `C172_built`, `C172_limits_partial`: the builder can be given the limits that are in force. -/
example : built [.maxFrame 5, .maxFrame 16777216] = ⟨some 16777216, some 67108864, false⟩ := by decide

end Verif.Transports.Limits
