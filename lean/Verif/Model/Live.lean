import Verif.Model.System
import Verif.Model.Concurrent

/-!
The whole server while operations are inside the storage: the tickets and the threads of `Model/Auth.lean`, and the
programs of `Model/Concurrent.lean` for the operations that change a disk.  Every system call (or request to the NBD
server) of every running operation is a step of its own, between any steps of the other threads: other operations,
new requests, expiring, extending and removing tickets.

Simplified: the request is given as the operation that the handler makes of it (`Conc.Job`, with the bytes that arrive),
the handlers are in `Model/System.lean` and `Model/Images.lean`.  The operation itself decides when it finds that it was canceled
(`Job.cancel`, any function), so the model has all the executions of the code and others.  Requests that do not change a disk
(downloads, extents, checksums, OPTIONS) take the steps of `Model/Auth.lean` only.
-/
namespace Imageio.Live
open Imageio.Conc

/-- The storage, the request bodies, the configuration of the authorizer, and a backend object when it was opened.
`handlers/images.py:25-27`, `backends/__init__.py:97-107`. -/
structure Env (σ Γ τ : Type) where
  M : Machine σ Γ
  PB : ProgBackend σ
  S : Source τ
  cfg : Auth.Config
  opened : σ
  B : Backend σ

/-- An operation that ended: the connection, the ticket object, the url of the image, the operation, and whether the client
gets a success.  Not part of the code: what can be seen from outside of `handlers/images.py:30-77`, `150-220`. -/
structure Done (τ : Type) where
  con : Nat
  ticket : Nat
  url : Http.Str
  job : Job τ
  ok : Bool

/-- The server: the tickets and the threads, the url of every ticket object (`auth.py:37-39`), the storage of every url,
the backend object of every context (`backends/__init__.py:106`), the change that every connection was asked for
(`handlers/images.py:72`, `196`, `217`), what its thread still has to do, and the operations that ended. -/
structure Live (σ Γ τ : Type) where
  auth : Auth.State
  url : Nat → Http.Str
  mem : Http.Str → Γ
  loc : Nat → σ
  pending : Nat → Option (Job τ)
  prog : Nat → Prog σ Unit
  ended : List (Done τ)

/-- `PATCH {"op": "flush"}` as an operation.  `handlers/images.py:203-220`, `ops.py:241-253`.  Simplified: zeroing no bytes and then flushing; the code does
not seek to 0 before it flushes, every operation seeks before it uses the position. -/
def flushJob {τ : Type} (src : τ) : Job τ :=
  { zero := true, offset := 0, size := 0, flush := true, cancel := fun _ => false, bufLen := 1, src }

/-- The server after its start; `mem` is the storage of the host.  `auth.py:388-392`. -/
def start {σ Γ τ : Type} (E : Env σ Γ τ) (mem : Http.Str → Γ) : Live σ Γ τ :=
  { auth := Auth.init, url := fun _ => [], mem, loc := fun _ => E.opened, pending := fun _ => none,
    prog := fun _ => .ret (.ok ()), ended := [] }

/-- The methods that `ops.Read` calls, `ops.py:90-110`. -/
inductive Query where
  | seek (n : Nat)
  | tell
  | readinto (n : Nat)

/-- The backend object after the call.  `backends/file.py:74-75`, `91-95`, `backends/nbd.py:95-109`, `132-142`. -/
def Query.after {σ : Type} (B : Backend σ) (s : σ) : Query → σ
  | .seek n => (B.seek s n).2
  | .tell => s
  | .readinto n => (B.readinto s n).2

/-- The steps.  `auth`: a step of a thread of `Model/Auth.lean` (not `addTicket`), `add`: a new ticket, `request`: a request to
change a disk, `call`: the next system call of a running operation, `look`: a system call of an operation that only reads (with the
programs of `Model/LiveRead.lean`).  Threads of `http.py:63`; the code of the steps is cited in `step`. -/
inductive Act (τ : Type) where
  | auth (a : Auth.Act)
  | add (attrs : Auth.Attrs) (url : Http.Str)
  | request (con : Nat) (id : String) (job : Job τ)
  | call (con : Nat)
  | look (con : Nat) (q : Query)

/-- A context that was opened in this step has a new backend object.  `backends/__init__.py:97-107`. -/
def open_ {σ Γ τ : Type} (E : Env σ Γ τ) (s : Live σ Γ τ) (t : Auth.State) : Live σ Γ τ :=
  { s with auth := t, loc := if t.nextCtx = s.auth.nextCtx then s.loc else Auth.upd s.loc s.auth.nextCtx E.opened }

/-- The thread has returned from the operation.  `auth.py:177-181`. -/
def returned {σ : Type} : Prog σ Unit → Bool
  | .ret _ => true
  | .step _ _ => false

/-- The operation returned without an error.  `auth.py:177`. -/
def succeeded {σ : Type} : Prog σ Unit → Bool
  | .ret (.ok ()) => true
  | _ => false

/-- What the step `a`, that changed the tickets and threads from `s.auth` to `t`, means for the change `j` that the connection
`c` was asked for.  `handlers/images.py:30-77`, `150-220`, `auth.py:171-181`. -/
def proceed {σ Γ τ : Type} (E : Env σ Γ τ) (s : Live σ Γ τ) (t : Auth.State) (c : Nat) (j : Job τ) (a : Auth.Act) :
    Option (Live σ Γ τ) :=
  let s' := open_ E s t
  let idle := { s' with pending := Auth.upd s.pending c none }
  match a, (s.auth.conns c).pc with
  /- `ticket.run`, `auth.py:175`, `193-199`, after the checks `handlers/images.py:57`, `182`, `validate.py:65-73`. -/
  | .startOp _ offset, .ready r _ =>
    if offset ≠ j.offset ∨ System.sizeOf s.auth r < j.offset + j.size then none
    else if (t.conns c).pc = .idle then some idle
    else some { s' with prog := Auth.upd s.prog c (j.prog E.PB E.S) }
  /- Looking at the cancel flag: the operation goes on, or it ended with this, `ops.py:120-121`, `194-195`, `233-234`. -/
  | .check _, .checking _ _ _ =>
    match (t.conns c).pc with
    | .ended _ _ _ => if returned (s.prog c) then some s' else none
    | _ => some s'
  /- The operation returned or raised, `auth.py:177-181`. -/
  | .endOp _, _ => if returned (s.prog c) then some s' else none
  /- `ticket.run` ends, `auth.py:178-181`, `201-222`; it raises if the ticket was canceled, `auth.py:219-220`. -/
  | .removeOp _, .ended r _ k =>
    some { idle with ended := s.ended ++ [⟨c, r, s.url (s.auth.ctxs k).ticket, j, succeeded (s.prog c) && (t.conns c).pc ≠ .idle⟩] }
  /- OPTIONS is another request, `handlers/images.py:222-260`. -/
  | .options _, _ => none
  /- The request was refused before the operation, `handlers/images.py:50-60`, or the thread goes on. -/
  | _, _ => if (t.conns c).pc = .idle then some idle else some s'

/-- The change that the connection that takes the step was asked for.  A thread for each connection, `http.py:63`. -/
def pendingOf {σ Γ τ : Type} (s : Live σ Γ τ) (a : Auth.Act) : Option (Nat × Job τ) :=
  match System.conOf a with
  | none => none
  | some c =>
    match s.pending c with
    | none => none
    | some j => some (c, j)

/-- The next system call of the thread: it sees the storage as it is now.  The calls that `ops.py:168-195`, `218-234`
make with the backend of the context; the backend was opened with the url of its ticket (`backends/__init__.py:97`). -/
def call {σ Γ τ : Type} (E : Env σ Γ τ) (s : Live σ Γ τ) (c k : Nat) (f : σ → σ) (next : σ → Prog σ Unit) : Live σ Γ τ :=
  let u := s.url (s.auth.ctxs k).ticket
  let v := E.M.view (s.loc k) (s.mem u)
  { s with mem := Auth.upd s.mem u (E.M.shared (f v)), loc := Auth.upd s.loc k (f v), prog := Auth.upd s.prog c (next v) }

/-- One step of the server, of a thread of `http.py:63`; `none` if this step cannot be taken now. -/
def step {σ Γ τ : Type} (E : Env σ Γ τ) (s : Live σ Γ τ) : Act τ → Option (Live σ Γ τ)
  /- A step of a thread, `http.py:63`. -/
  | .auth (.addTicket _) => none
  | .auth a =>
    match Auth.step E.cfg s.auth a with
    | none => none
    | some t =>
      match pendingOf s a with
      | none => some (open_ E s t)
      | some (c, j) => proceed E s t c j a
  /- `PUT /tickets/id`, `auth.py:394-401`, `auth.py:37-39`. -/
  | .add attrs url =>
    match Auth.step E.cfg s.auth (.addTicket attrs) with
    | none => none
    | some t => some { s with auth := t, url := Auth.upd s.url s.auth.nextTicket url }
  /- `self.auth.authorize`, `handlers/images.py:50-55`, `176-180`, `205-209`, `auth.py:427-451`. -/
  | .request c id j =>
    match Auth.step E.cfg s.auth (.request c id "write") with
    | none => none
    | some t =>
      if (t.conns c).pc = .idle then some { s with auth := t }
      else some { s with auth := t, pending := Auth.upd s.pending c (some j) }
  /- The next system call of `operation.run()`, `auth.py:177`. -/
  | .call c =>
    match s.pending c, (s.auth.conns c).pc, s.prog c with
    | some _, .running _ _ k, .step f next => some (call E s c k f next)
    | _, _, _ => none
  /- The next system call of `ops.Read`: the backend object changes (its position), the storage does not; `C84_backends_keep` in
  `Props/LiveRead.lean` shows this for the backends.  `ops.py:92-110`. -/
  | .look c q =>
    match s.pending c, (s.auth.conns c).pc with
    | none, .running _ _ k =>
      some { s with loc := Auth.upd s.loc k (q.after E.B (E.M.view (s.loc k) (s.mem (s.url (s.auth.ctxs k).ticket)))) }
    | _, _ => none

/-- The state after a list of steps: an interleaving of the threads of `http.py:63`. -/
def run {σ Γ τ : Type} (E : Env σ Γ τ) (s : Live σ Γ τ) : List (Act τ) → Option (Live σ Γ τ)
  | [] => some s
  | a :: as =>
    match step E s a with
    | none => none
    | some s' => run E s' as

end Imageio.Live
