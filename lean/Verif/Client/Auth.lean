import Verif.Client.Clones
import Verif.Wire.Auth

/-
`Client::authenticate`: C209.

Models /repo/src/client/mod.rs L1153-1182.
-/

namespace Verif.Client

open Verif Verif.Wire Verif.Server

/-- Why `authenticate` fails, /repo/src/client/mod.rs L1153-1182. -/
inductive AuthFail where
  | notInitialized
  | tokenRequired
  | oauthRequired
  deriving Repr, DecidableEq

/-- `authenticate`: the messages written, what it returns, and the client afterwards (`&self`).
/repo/src/client/mod.rs L1153-1182. -/
def authenticate (c : Cl) (a : AuthInfo) : List TMsg × Except AuthFail Unit × Cl :=
  if c.initialized then
    match a.scheme with
    | .none => ([], .ok (), c)
    | .bearer => ([], if a.token.isNone then .error .tokenRequired else .ok (), c)
    | .oauth2 => ([], if a.oauth.isNone then .error .oauthRequired else .ok (), c)
    | .custom _ => ([], .ok (), c)
  else ([], .error .notInitialized, c)

/-- The methods of a client, `authenticate` among them. /repo/src/client/mod.rs L244-1266. -/
inductive ACall where
  | call (e : Env) (c : Call)
  | authenticate (a : AuthInfo)

/-- One method: the messages written and the client afterwards. /repo/src/client/mod.rs L244-1266. -/
def acall (s : List TMsg × Cl) : ACall → List TMsg × Cl
  | .call e k => (s.1 ++ (call s.2 e k).1, (call s.2 e k).2.2)
  | .authenticate a => (s.1 ++ (Client.authenticate s.2 a).1, (Client.authenticate s.2 a).2.2)

/-- A program that uses the client. /repo/src/client/mod.rs L244-1266. -/
def acalls (c : Cl) (l : List ACall) : List TMsg × Cl := l.foldl acall ([], c)

/-! ### C209 -/

/-- C209, exactly: when the call succeeds. -/
theorem C209_succeeds (c : Cl) (a : AuthInfo) : (authenticate c a).2.1 = .ok () ↔
    c.initialized = true ∧ (a.scheme = .bearer → a.token ≠ none) ∧ (a.scheme = .oauth2 → a.oauth ≠ none) := by
  obtain ⟨s, t, o, p⟩ := a
  cases hc : c.initialized <;> cases s <;> cases t <;> cases o <;> simp [authenticate, hc]

/-- C209: on a client that is not initialized it fails for that reason, and without the credentials the scheme needs it
fails for that one. -/
theorem C209_fails (c : Cl) (a : AuthInfo) (f : AuthFail) : (authenticate c a).2.1 = .error f ↔
    match f with
    | .notInitialized => c.initialized = false
    | .tokenRequired => c.initialized = true ∧ a.scheme = .bearer ∧ a.token = none
    | .oauthRequired => c.initialized = true ∧ a.scheme = .oauth2 ∧ a.oauth = none := by
  obtain ⟨s, t, o, p⟩ := a
  cases f <;> cases hc : c.initialized <;> cases s <;> cases t <;> cases o <;> simp [authenticate, hc]

/-- C209 fails: authenticating has no effect. In any program the calls to `authenticate` can be left out without a change
to what the server is sent, so that the server sees no credentials, and to what the client does later. -/
theorem C209_no_effect (c : Cl) (l : List ACall) :
    acalls c l = acalls c (l.filter (fun | .authenticate _ => false | .call _ _ => true)) := by
  have hs : ∀ (s : List TMsg × Cl) (a : AuthInfo), acall s (.authenticate a) = s := by
    intro s a
    obtain ⟨w, c⟩ := s
    simp only [acall, authenticate]
    split
    · split <;> simp
    · simp
  have key : ∀ (l : List ACall) (s : List TMsg × Cl),
      l.foldl acall s = (l.filter (fun | .authenticate _ => false | .call _ _ => true)).foldl acall s := by
    intro l
    induction l with
    | nil => intro s; rfl
    | cons x l ih =>
      intro s
      cases x with
      | call e k => simp only [List.foldl_cons, List.filter_cons_of_pos, ih]
      | authenticate a =>
        simp only [List.foldl_cons, hs, ih]
        rw [List.filter_cons_of_neg (by simp)]
  exact key l _

/-- C209 fails: two clients that differ in what they authenticated with, or whether they did, send the same. -/
theorem C209_any_token (c : Cl) (a b : AuthInfo) (l : List ACall) :
    acalls c (.authenticate a :: l) = acalls c (.authenticate b :: l) ∧ acalls c (.authenticate a :: l) = acalls c l := by
  rw [C209_no_effect c (.authenticate a :: l), C209_no_effect c (.authenticate b :: l), C209_no_effect c l]
  exact ⟨rfl, rfl⟩

example (v : String) (caps : ClientCaps) : ∃ w, (acalls (Cl.new ⟨"c", v⟩)
    [.call (initEnv true) (.connect caps), .authenticate (.ofToken "secret")]).1 = w ∧ w.length = 2 := ⟨_, rfl, by
  rw [C209_no_effect]; rfl⟩

end Verif.Client
