import Verif.Base
/-!
The addresses of unix servers on a host: `Server.create_socket`, `server_bind` and `shutdown` of
`_internal/uhttp.py`, for any number of processes.  One process, with all its services, is in `Model/Daemon`.
-/
namespace Imageio.UnixServers

/-- What is at a path: a directory, another file, or the socket of a server.  Removed in `uhttp.py:96-102`. -/
inductive Node
  | dir
  | file
  | socket (server : Nat)
deriving DecidableEq, Repr

/-- A server: its address, and whether it accepts requests (`serve_forever` runs).  `uhttp.py:46-53`. -/
structure Server where
  addr : List Char
  serving : Bool
deriving DecidableEq, Repr

/-- The host: the file system, the abstract addresses in use (`unix(7)`), and the servers of living processes.  The numbers
of the servers are those of the processes.  `uhttp.py:46-102`. -/
structure World where
  fs : List Char → Option Node
  abs : List Char → Option Nat
  servers : Nat → Option Server

/-- A function changed at one place; of this model, used for `uhttp.py:77`, `99`. -/
def put {α β : Type} [DecidableEq α] (f : α → β) (a : α) (b : β) : α → β := fun x => if x = a then b else f x

/-- `server_address[0] != "\0"`, `uhttp.py:73`, `92`. -/
def isPath (a : List Char) : Bool := a.head? ≠ some '\x00'

/-- `uhttp.py:55-66` `create_socket`: the address; without one a random abstract one. -/
def address (a uuid : List Char) : List Char := if a = [] then '\x00' :: uuid else a

/-- `uhttp.py:96-102` `_remove_socket`: the new file system, or an error; nothing at the path is no error.  `may` is whether
the process may remove the file. -/
def removeSocket (may : Bool) (a : List Char) (fs : List Char → Option Node) : Except String (List Char → Option Node) :=
  match fs a with
  | none => .ok fs
  | some .dir => .error "EISDIR"
  | some _ => if may then .ok (put fs a none) else .error "EACCES"

/-- The constructor of a server: `uhttp.py:68-81` `server_bind`, called from `http.py:92-98`.  `can` is whether a socket can be
made at a path where nothing is.  A process that has a server does not start another (a simplification). -/
def start (i : Nat) (a uuid : List Char) (may can : Bool) (w : World) : Except String Unit × World :=
  match w.servers i with
  | some _ => (.error "running", w)
  | none =>
    let a := address a uuid
    if isPath a then
      match removeSocket may a w.fs with
      | .error e => (.error e, w)
      | .ok fs =>
        if can then (.ok (), { w with fs := put fs a (some (.socket i)), servers := put w.servers i (some ⟨a, true⟩) })
        else (.error "bind", { w with fs := fs })
    else
      match w.abs a with
      | some _ => (.error "EADDRINUSE", w)
      | none => (.ok (), { w with abs := put w.abs a (some i), servers := put w.servers i (some ⟨a, true⟩) })

/-- `uhttp.py:91-94` `shutdown`: the path is removed, then the server stops serving.  The socket is not closed. -/
def stop (i : Nat) (may : Bool) (w : World) : Except String Unit × World :=
  match w.servers i with
  | none => (.error "not running", w)
  | some s =>
    if isPath s.addr then
      match removeSocket may s.addr w.fs with
      | .error e => (.error e, w)
      | .ok fs => (.ok (), { w with fs := fs, servers := put w.servers i (some { s with serving := false }) })
    else (.ok (), { w with servers := put w.servers i (some { s with serving := false }) })

/-- The end of a process, also when it is killed: the kernel releases abstract addresses, but not paths.  `unix(7)`; after
`server.py:52`. -/
def exit (i : Nat) (w : World) : World :=
  match w.servers i with
  | none => w
  | some s => { w with
      servers := put w.servers i none
      abs := if isPath s.addr then w.abs else put w.abs s.addr none }

/-- What happens on the host.  Simplified: other programs do not change the files.  `uhttp.py:46-102`. -/
inductive Event
  | start (i : Nat) (a uuid : List Char) (may can : Bool)
  | stop (i : Nat) (may : Bool)
  | exit (i : Nat)

/-- One event.  `uhttp.py:46-102`. -/
def step (w : World) : Event → World
  | .start i a uuid may can => (start i a uuid may can w).2
  | .stop i may => (stop i may w).2
  | .exit i => exit i w

/-- Any sequence of events, of any number of processes.  `uhttp.py:46-102`. -/
def run (w : World) (evs : List Event) : World := evs.foldl step w

/-- A host without servers, with any files.  `uhttp.py:46-102`. -/
def World.init (fs : List Char → Option Node) : World := ⟨fs, fun _ => none, fun _ => none⟩

/-- `connect(2)`: the living process that gets a connection to an address; `none` is refused.  `uhttp.py:41-43`. -/
def connect (a : List Char) (w : World) : Option Nat :=
  if isPath a then
    match w.fs a with
    | some (.socket i) => if (w.servers i).isSome then some i else none
    | _ => none
  else w.abs a

end Imageio.UnixServers
