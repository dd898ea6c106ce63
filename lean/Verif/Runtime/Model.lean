/-
The runtime abstraction on WebAssembly.

Models /repo/src/shared/runtime.rs: `sleep` (L32-56), `spawn_blocking` and `JoinHandle` (L92-139) and the channel
(L201-261), each in the branch for `target_arch = "wasm32"`.
-/

namespace Verif.Runtime

/-! ### The channel -/

/-- `ChannelState` (/repo/src/shared/runtime.rs L224-228); `waker` says whether a waker is stored. -/
structure Chan (T : Type) where
  queue : List T
  closed : Bool
  waker : Bool

/-- `channel(buffer)` (/repo/src/shared/runtime.rs L209-222); `VecDeque::with_capacity` only reserves space. -/
def channel (T : Type) (_buffer : Nat) : Chan T := ⟨[], false, false⟩

/-- `Sender::send` (/repo/src/shared/runtime.rs L235-245); the result is the error value. -/
def send {T : Type} (c : Chan T) (v : T) : Chan T × Except T Unit :=
  if c.closed then (c, .error v) else ({ c with queue := c.queue ++ [v], waker := false }, .ok ())

/-- `Receiver::recv` (/repo/src/shared/runtime.rs L253-257). -/
def recv {T : Type} (c : Chan T) : Chan T × Option T :=
  match c.queue with
  | [] => (c, none)
  | v :: q => ({ c with queue := q }, some v)

/-- Calls on the two ends of a channel. (/repo/src/shared/runtime.rs L235-257.) -/
inductive Op (T : Type) where
  | send (v : T)
  | recv

/-- What the calls returned. (/repo/src/shared/runtime.rs L235-257.) -/
inductive Ret (T : Type) where
  | sent
  | rejected (v : T)
  | got (v : Option T)

/-- One call. (/repo/src/shared/runtime.rs L235-257.) -/
def call {T : Type} (c : Chan T) : Op T → Chan T × Ret T
  | .send v => match send c v with
    | (c, .ok ()) => (c, .sent)
    | (c, .error v) => (c, .rejected v)
  | .recv => match recv c with
    | (c, v) => (c, .got v)

/-- A sequence of calls with their results. (/repo/src/shared/runtime.rs L235-257.) -/
def calls {T : Type} : Chan T → List (Op T) → Chan T × List (Ret T)
  | c, [] => (c, [])
  | c, o :: os =>
    let r := call c o
    let q := calls r.1 os
    (q.1, r.2 :: q.2)

/-- The loop `while let Some(v) = rx.recv().await { handle(v) }` while others send: `batches` are the values sent
before each of its looks at the channel; the values it handled.  (/repo/src/shared/runtime.rs L235-257.) -/
def consume {T : Type} : Chan T → List (List T) → List T
  | _, [] => []
  | c, b :: bs =>
    match recv (b.foldl (fun c v => (send c v).1) c) with
    | (_, none) => []
    | (c, some v) => v :: consume c bs

/-! ### Sleeping -/

/-- `duration.as_millis() as i32` for a duration in nanoseconds (/repo/src/shared/runtime.rs L40). -/
def millis (nanos : Nat) : Int :=
  let m : Nat := nanos / 1000000 % 4294967296
  if m < 2147483648 then (m : Int) else (m : Int) - 4294967296

/-- The nanoseconds after which `setTimeout(.., millis)` fires at the earliest: negative delays count as zero
(/repo/src/shared/runtime.rs L38-55). -/
def sleepsFor (nanos : Nat) : Nat := (millis nanos).toNat * 1000000

/-! ### Join handles -/

/-- `spawn_blocking` runs the function at once and keeps the result (/repo/src/shared/runtime.rs L92-108). -/
def spawnBlocking {R : Type} (f : Unit → R) : Option R := some (f ())

/-- `JoinHandle::poll` (/repo/src/shared/runtime.rs L122-139): always ready; `none` is the error "Already
consumed". -/
def pollHandle {R : Type} (h : Option R) : Option R × Option R := (none, h)

end Verif.Runtime
