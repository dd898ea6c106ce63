import Verif.Common.ListExtra

/-
A client and a server connected by two pipes (stdio transport): C233.

Models /repo/src/client/mod.rs L1315-1348 with /repo/src/shared/stdio.rs L63-101, L141-215 on the client's side, and
/repo/src/server/mod.rs L415-486 with the same transport on the server's side. Bytes are not looked at: a message is its
number of bytes, and the last one is marked with the call it belongs to (the framing of C08 tells where it ends). Each
pipe holds a bounded number of bytes; what `BufReader` reads ahead is counted as part of the pipe. A step moves one byte.
The calls share the lock of the transport, granted in the order of arrival (C210): the head of `queue` has it, while it
writes its request (`write_all` and `flush`, stdio.rs L141-163) and while it reads a response. The server is one task that
reads a message, handles it and writes the response (/repo/src/server/mod.rs L420-436); its notifications are left out: it sends none
(C227). Not modelled: a caller that gives up in the middle of a message (C148), failing writes.
-/

namespace Verif.Pipe

/-- Where a call is: it has not written all of its request (`rest` bytes are left after the next one), it has and wants to
read a response, it has read the response to call `m`, its caller gave up. /repo/src/client/mod.rs L1315-1348. -/
inductive Ph where
  | sending (rest : Nat)
  | receiving
  | done (m : Nat)
  | dropped
  deriving DecidableEq

/-- Where the server is: at `receive`, in the handler of call `n`, writing its response (`rest` bytes are left after the
next one). /repo/src/server/mod.rs L420-436, L473-486. -/
inductive Srv where
  | reading
  | handling (n : Nat)
  | writing (n rest : Nat)
  deriving DecidableEq

/-- The calls, those that want the lock of the client's transport or have it, whether the one that has it is inside a
message, the bytes in the pipes (`some n` is the last byte of a message of call `n`), the server.
/repo/src/client/mod.rs L85-98, /repo/src/server/mod.rs L415-437. -/
structure St where
  calls : List Ph := []
  queue : List Nat := []
  mid : Bool := false
  up : List (Option Nat) := []
  down : List (Option Nat) := []
  srv : Srv := .reading
  deriving DecidableEq

/-- The pipes' capacities, and the sizes of the request and the response of each call: one byte and so many more.
(/repo/src/shared/stdio.rs L141-163: never empty, there is a header.) -/
structure Cfg where
  capUp : Nat
  capDown : Nat
  req : Nat → Nat
  resp : Nat → Nat

/-- A call is made, the client goes on, the server goes on, a caller gives up. /repo/src/client/mod.rs L1315-1348. -/
inductive Op where
  | start
  | client
  | server
  | drop (n : Nat)
  deriving DecidableEq

/-- `send_request` begins and asks for the lock. /repo/src/client/mod.rs L1315-1333. -/
def start (c : Cfg) (s : St) : St :=
  { s with calls := s.calls ++ [.sending (c.req s.calls.length)], queue := s.queue ++ [s.calls.length] }

/-- The call that has the lock writes or reads a byte. After the request it gives the lock back and asks for it again
(/repo/src/client/mod.rs L1333, L1337); a response ends it (L1342-1347). -/
def client (c : Cfg) (s : St) : Option St :=
  match s.queue with
  | [] => none
  | n :: q => match s.calls[n]? with
    | some (.sending rest) =>
      if s.up.length < c.capUp then
        match rest with
        | 0 => some { s with calls := s.calls.set n .receiving, queue := q ++ [n], up := s.up ++ [some n] }
        | k + 1 => some { s with calls := s.calls.set n (.sending k), up := s.up ++ [none] }
      else none
    | some .receiving => match s.down with
      | [] => none
      | none :: d => some { s with down := d, mid := true }
      | some m :: d => some { s with down := d, mid := false, calls := s.calls.set n (.done m), queue := q }
    | _ => none

/-- The server reads a byte, runs a handler or writes a byte. /repo/src/server/mod.rs L420-436, L473-486. -/
def server (c : Cfg) (s : St) : Option St :=
  match s.srv with
  | .reading => match s.up with
    | [] => none
    | none :: u => some { s with up := u }
    | some n :: u => some { s with up := u, srv := .handling n }
  | .handling n => some { s with srv := .writing n (c.resp n) }
  | .writing n rest =>
    if s.down.length < c.capDown then
      match rest with
      | 0 => some { s with down := s.down ++ [some n], srv := .reading }
      | k + 1 => some { s with down := s.down ++ [none], srv := .writing n k }
    else none

/-- The caller gives up, outside of a message: the future of `send_request` is dropped, and with it its place in the
queue of the lock. /repo/src/client/mod.rs L1315-1348. -/
def drop (c : Cfg) (s : St) (n : Nat) : Option St :=
  match s.calls[n]? with
  | some (.sending rest) =>
    if rest = c.req n then some { s with calls := s.calls.set n .dropped, queue := s.queue.filter (· != n) } else none
  | some .receiving =>
    if s.mid && s.queue.head? == some n then none
    else some { s with calls := s.calls.set n .dropped, queue := s.queue.filter (· != n) }
  | _ => none

/-- One step. /repo/src/client/mod.rs L1315-1348, /repo/src/server/mod.rs L415-486. -/
def step (c : Cfg) (s : St) : Op → Option St
  | .start => some (start c s)
  | .client => client c s
  | .server => server c s
  | .drop n => drop c s n

/-- An execution. (Any interleaving of /repo/src/client/mod.rs L1315-1348 and /repo/src/server/mod.rs L415-486.) -/
def run (c : Cfg) (s : St) : List Op → Option St
  | [] => some s
  | o :: l => (step c s o).bind (fun s' => run c s' l)

end Verif.Pipe
