import Verif.Common.AMap
import Verif.Common.ASet

/-
Model of `/repo/src/server/subscriptions.rs`.
Resource uris `U` and subscriber ids `S` (both `String` in the code) are arbitrary types with
decidable equality.  Every method takes the lock once, so methods are atomic steps.
-/

namespace Verif.Subscriptions

variable {U S : Type} [DecidableEq U] [DecidableEq S]

/-- `SubscriptionManager`, /repo/src/server/subscriptions.rs L14-19.  `hasSender` says whether a
notification sender has been installed (L50-55); `sent` records the uris of the
`ResourceUpdated` notifications handed to it. -/
structure State (U S : Type) where
  subs : AMap U (ASet S)
  hasSender : Bool
  sent : List U

/-- `SubscriptionManager::new`, /repo/src/server/subscriptions.rs L40-45. -/
def init : State U S := ⟨[], false, []⟩

/-- `set_notification_sender`, /repo/src/server/subscriptions.rs L50-55. -/
def setSender (st : State U S) : State U S := { st with hasSender := true }

/-- `subscribe`, /repo/src/server/subscriptions.rs L63-71 (`entry(uri).or_default().insert(id)`). -/
def subscribe (st : State U S) (u : U) (s : S) : State U S :=
  { st with subs := st.subs.insert u (ASet.insert ((st.subs.get u).getD []) s) }

/-- `unsubscribe`, /repo/src/server/subscriptions.rs L79-89. -/
def unsubscribe (st : State U S) (u : U) (s : S) : State U S :=
  match st.subs.get u with
  | some set =>
    let set' := ASet.remove set s
    if set'.isEmpty then { st with subs := (st.subs.insert u set').remove u }
    else { st with subs := st.subs.insert u set' }
  | none => st

/-- `unsubscribe_all`, /repo/src/server/subscriptions.rs L98-116: one pass removing the subscriber
from every set and collecting the uris whose set became empty, then a pass removing these. -/
def unsubscribeAll (st : State U S) (s : S) : State U S :=
  let subs1 : AMap U (ASet S) := st.subs.map (fun e => (e.1, ASet.remove e.2 s))
  let emptyUris := (subs1.filter (fun e => e.2.isEmpty)).map Prod.fst
  { st with subs := emptyUris.foldl (fun m u => m.remove u) subs1 }

/-- `has_subscribers`, /repo/src/server/subscriptions.rs L123-126. -/
def hasSubscribers (st : State U S) (u : U) : Bool :=
  match st.subs.get u with
  | some set => !set.isEmpty
  | none => false

/-- `get_subscriptions`, /repo/src/server/subscriptions.rs L133-144. -/
def getSubscriptions (st : State U S) (s : S) : List U :=
  st.subs.filterMap (fun e => if s ∈ e.2 then some e.1 else none)

/-- `get_subscribers`, /repo/src/server/subscriptions.rs L151-156. -/
def getSubscribers (st : State U S) (u : U) : List S := (st.subs.get u).getD []

/-- `notify_resource_updated`, /repo/src/server/subscriptions.rs L167-187. -/
def notifyResourceUpdated (st : State U S) (u : U) : State U S × Nat :=
  match st.subs.get u with
  | some set =>
    if set.length > 0 then
      (if st.hasSender then { st with sent := st.sent ++ [u] } else st, set.length)
    else (st, 0)
  | none => (st, 0)

/-- `SubscriptionStats`, /repo/src/server/subscriptions.rs L221-230, without the average, which is
`Stats.perResource`. -/
structure Stats where
  totalResources : Nat
  totalSubscriptions : Nat
  uniqueSubscribers : Nat
  deriving DecidableEq

/-- `*subscriber_counts.entry(subscriber).or_insert(0) += 1`,
/repo/src/server/subscriptions.rs L195-200. -/
def countSubscriber (m : AMap S Nat) (s : S) : AMap S Nat := m.insert s ((m.get s).getD 0 + 1)

/-- `get_stats`, /repo/src/server/subscriptions.rs L190-216. -/
def getStats (st : State U S) : Stats :=
  let counts := st.subs.foldl (fun m e => e.2.foldl countSubscriber m) ([] : AMap S Nat)
  { totalResources := st.subs.length
    totalSubscriptions := (st.subs.map (fun e => e.2.length)).sum
    uniqueSubscribers := counts.length }

/-- `subscriptions_per_resource`, /repo/src/server/subscriptions.rs L207-214, as a fraction: the rounding of `f64` is left
out. -/
def Stats.perResource (x : Stats) : Rat :=
  if x.totalResources > 0 then (x.totalSubscriptions : Rat) / (x.totalResources : Rat) else 0

/-- The mutating calls. /repo/src/server/subscriptions.rs L63-121. -/
inductive Op (U S : Type) where
  | setSender
  | subscribe (u : U) (s : S)
  | unsubscribe (u : U) (s : S)
  | unsubscribeAll (s : S)
  | notify (u : U)
  deriving DecidableEq

/-- One call of the public interface, /repo/src/server/subscriptions.rs L50-187. -/
def step (st : State U S) : Op U S → State U S
  | .setSender => setSender st
  | .subscribe u s => subscribe st u s
  | .unsubscribe u s => unsubscribe st u s
  | .unsubscribeAll s => unsubscribeAll st s
  | .notify u => (notifyResourceUpdated st u).1

/-- A history of calls. (Calls of /repo/src/server/subscriptions.rs L63-121.) -/
def run (st : State U S) (h : List (Op U S)) : State U S := h.foldl step st

end Verif.Subscriptions
