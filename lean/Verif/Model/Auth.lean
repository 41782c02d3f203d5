import Verif.Model.Measure
/-!
Model of `ovirt_imageio/_internal/auth.py`, and of the threads that use it: one thread per
connection handling image requests (`handlers/images.py`, `handlers/checksum.py`,
`handlers/extents.py`, `backends/__init__.py`), and one thread per ticket removal
(`handlers/tickets.py`).

A step of the system is the code of one thread between two points where another thread can
interfere: a section under the ticket lock, one access to the dict of the authorizer, one
chunk of an operation.  All interleavings of the steps are executions of the model.
-/
namespace Imageio.Auth
open Imageio.Measure

/-- Function update.
A helper, not a function of the code: assignment to one key of a dict, such as `auth.py:152`, `401`. -/
def upd {α β : Type} [DecidableEq α] (f : α → β) (a : α) (b : β) : α → β := fun x => if x = a then b else f x

/-- An operation object (`ops.py:22-31`) as seen by the ticket. -/
structure Op where
  id : Nat
  offset : Nat
  done : Nat
  canceled : Bool
deriving DecidableEq, Repr

/-- What a ticket dict tells about a ticket, `auth.py:24-28`.  The fields that are only
reported (url, filename, transfer id...) are not modelled here. -/
structure Attrs where
  uuid : String
  size : Nat
  ops : List String
  timeout : Int
deriving DecidableEq, Repr

/-- A ticket object, `auth.py:19-77`. -/
structure Ticket where
  attrs : Attrs
  expires : Int
  access : Int
  ongoing : List Op
  completed : List Range
  canceled : Bool
  /-- Connection id and the identity of the context object. -/
  connections : List (Nat × Nat)
  unused : Bool
deriving DecidableEq, Repr

/-- `Ticket.__init__`, `auth.py:19-77`; `now` is `int(util.monotonic_time())`. -/
def Ticket.new (a : Attrs) (now : Int) : Ticket :=
  { attrs := a, expires := now + a.timeout, access := now, ongoing := [], completed := [],
    canceled := false, connections := [], unused := false }

/-- `Ticket.may`, `auth.py:244-249`. -/
def Ticket.may (t : Ticket) (op : String) : Bool :=
  if op = "read" then t.attrs.ops.contains "read" || t.attrs.ops.contains "write"
  else t.attrs.ops.contains op

/-- `Ticket.touch`, `auth.py:183-191`. -/
def Ticket.touch (t : Ticket) (now : Int) : Ticket :=
  { t with expires := now + t.attrs.timeout, access := now }

/-- `Ticket.extend`, `auth.py:276-278`. -/
def Ticket.extend (t : Ticket) (now timeout : Int) : Ticket := { t with expires := now + timeout }

/-- `Ticket._add_operation`, `auth.py:193-199`; `none` is `AuthorizationError`. -/
def Ticket.addOperation (t : Ticket) (op : Op) : Option Ticket :=
  if t.canceled then none else some { t with ongoing := op :: t.ongoing }

/-- The operation object in the ticket's set, with its current `done`.
The set is `self._ongoing`, `auth.py:199`, `201-206`. -/
def Ticket.getOp (t : Ticket) (id : Nat) : Option Op := t.ongoing.find? (·.id = id)

/-- `Ticket._remove_operation`, the section under the lock, `auth.py:201-220`.  The flag
tells if `AuthorizationError` was raised. -/
def Ticket.removeOperation (t : Ticket) (op : Op) : Bool × Ticket :=
  let t := { t with ongoing := t.ongoing.filter (·.id ≠ op.id) }
  if t.canceled then
    (true, if t.ongoing.isEmpty then { t with unused := true } else t)
  else if t.attrs.ops.length = 1 then
    (false, { t with completed := add t.completed ⟨op.offset, op.offset + op.done⟩ })
  else (false, t)

/-- `Ticket.transferred`, `auth.py:227-242`.  `none` for a read-write ticket. -/
def Ticket.transferred (t : Ticket) : Option (Except String Int) :=
  if t.attrs.ops.length > 1 then none
  else
    let ongoing := t.ongoing.map fun op => (⟨op.offset, op.offset + op.done⟩ : Range)
    some (sum (update t.completed ongoing))

/-- `Ticket.add_context`, `auth.py:144-152`; `none` is `AuthorizationError`. -/
def Ticket.addContext (t : Ticket) (con ctx : Nat) : Option Ticket :=
  if t.canceled then none
  else some { t with connections := (con, ctx) :: t.connections.filter (·.1 ≠ con) }

/-- `Ticket.get_context`, `auth.py:154-155`. -/
def Ticket.getContext (t : Ticket) (con : Nat) : Option Nat := t.connections.lookup con

/-- `Ticket.remove_context`, `auth.py:157-169`: the context to close, and the ticket.
Simplified: closing a context never fails. -/
def Ticket.removeContext (t : Ticket) (con : Nat) : Option Nat × Ticket :=
  match t.connections.lookup con with
  | none => (none, t)
  | some k => (some k, { t with connections := t.connections.filter (·.1 ≠ con) })

/-- A context object (`backends/__init__.py:27-37`): the connection and the ticket it was
created for, and whether it was closed. -/
structure Ctx where
  con : Nat
  ticket : Nat
  writable : Bool
  closed : Bool
deriving DecidableEq, Repr

/-- Where a connection thread is.
The program counter in the handlers, `handlers/images.py:50-76`, and in `Ticket.run`, `auth.py:171-181`. -/
inductive Pc where
  /-- Waiting for a request. -/
  | idle
  /-- `authorize` returned this ticket object. -/
  | authorized (ticket : Nat)
  /-- `backends.get` opened a backend, `backends/__init__.py:97-107`. -/
  | opened (ticket ctx : Nat)
  /-- `backends.get` returned a context. -/
  | ready (ticket ctx : Nat)
  /-- In `operation.run()`, `auth.py:175-177`; the operation object has this identity. -/
  | running (ticket op ctx : Nat)
  /-- After the I/O of a chunk, before looking at the cancel flag (for example
  `ops.py:194-195`). -/
  | checking (ticket op ctx : Nat)
  /-- `operation.run()` returned or raised, `auth.py:178-181`. -/
  | ended (ticket op ctx : Nat)
  /-- Before `self.touch()`, `auth.py:222`. -/
  | touching (ticket : Nat)
deriving DecidableEq, Repr

/-- A connection: its thread and the closers registered in its context
(`backends/__init__.py:122-124`): ticket uuid and ticket object. -/
structure Conn where
  pc : Pc
  registered : List (String × Nat)
  closed : Bool
deriving DecidableEq, Repr

/-- The answer to `DELETE /tickets/id`, `handlers/tickets.py:89-109`. -/
inductive Answer where
  /-- 204; the ticket object that was found by the request, if any. -/
  | ok (ticket : Option Nat)
  /-- 409, the ticket is still used. -/
  | conflict
  /-- 500, the dict does not have the key any more. -/
  | keyError
deriving DecidableEq, Repr

/-- Where a thread removing a ticket is.
The program counter in `Authorizer.remove` and `Ticket.cancel`, `auth.py:297-333`, `403-415`. -/
inductive Del where
  | none
  /-- `remove` found the ticket, `auth.py:405`. -/
  | found (id : String) (ticket : Nat)
  /-- In `self._unused.wait(timeout)`, `auth.py:323`. -/
  | waiting (id : String) (ticket : Nat)
  /-- Woken up, before closing the contexts, `auth.py:329`. -/
  | closing (id : String) (ticket : Nat)
  /-- `cancel` returned True, before `del`, `auth.py:415`. -/
  | erasing (id : String) (ticket : Nat)
  | answered (a : Answer)
deriving DecidableEq, Repr

/-- What can be observed from the outside.
A log, not part of the code; the events are the steps of `stepConn` and `stepDel` below that cite their lines. -/
inductive Event where
  /-- Bytes `[start, start + length)` of the image were read or written by an operation
  running with this ticket object. -/
  | io (ticket start length : Nat)
  /-- An operation of this ticket object started. -/
  | opStart (ticket : Nat)
  /-- An operation of this ticket object ended: refused by the ticket or not. -/
  | opEnd (ticket : Nat) (refused : Bool)
  /-- A context was closed. -/
  | ctxClosed (ctx : Nat)
  /-- A backend was opened for this connection and ticket object. -/
  | ctxOpened (con ticket ctx : Nat)
  /-- `DELETE` of this id was answered. -/
  | deleted (id : String) (a : Answer)
  /-- A request was refused with 403. -/
  | refused (con : Nat)
deriving DecidableEq, Repr

/-- The authorizer (`auth.py:388-451`), all the objects, the clock and the threads.
The clock counts fractions of a second. -/
structure State where
  now : Nat
  tickets : Nat → Option Ticket
  nextTicket : Nat
  store : String → Option Nat
  ctxs : Nat → Ctx
  nextCtx : Nat
  conns : Nat → Conn
  dels : Nat → Del
  nextOp : Nat
  log : List Event

/-- The state of a new server: no tickets (`auth.py:388-392`), no connections. -/
def init : State :=
  { now := 0, tickets := fun _ => none, nextTicket := 0, store := fun _ => none,
    ctxs := fun _ => ⟨0, 0, false, false⟩, nextCtx := 0, conns := fun _ => ⟨.idle, [], false⟩,
    dels := fun _ => .none, nextOp := 0, log := [] }

/-- The configuration: clock ticks per second and `control.remove_timeout`
(`auth.py:413`) in seconds. -/
structure Config where
  ticksPerSec : Nat
  removeTimeout : Nat

/-- `int(util.monotonic_time())`.  `auth.py:33`, `189`, `277`; `util.py:26-27`. -/
def seconds (cfg : Config) (s : State) : Int := (s.now / cfg.ticksPerSec : Nat)

/-- `Authorizer.authorize`, `auth.py:427-451`; `expires <= util.monotonic_time()` compares
seconds with a fraction. -/
def authorize (cfg : Config) (s : State) (id op : String) : Except String Nat :=
  match s.store id with
  | none => .error "No such ticket"
  | some r =>
    match s.tickets r with
    | none => .error "No such ticket"
    | some t =>
      if t.canceled then .error "canceled"
      else if t.expires * cfg.ticksPerSec ≤ s.now then .error "expired"
      else if !t.may op then .error "forbids"
      else .ok r

/-- The labels of the steps.  The code of each step is cited in `stepConn`, `stepDel` and `step`. -/
inductive Act where
  | tick (n : Nat)
  | addTicket (a : Attrs)
  | extend (id : String) (timeout : Nat)
  | clear
  | request (con : Nat) (id op : String)
  | getContext (con : Nat)
  | openFailed (con : Nat)
  | addContext (con : Nat)
  | abort (con : Nat)
  | options (con : Nat)
  | startOp (con offset : Nat)
  | io (con length : Nat)
  | check (con : Nat)
  | endOp (con : Nat)
  | removeOp (con : Nat)
  | touch (con : Nat)
  | closeContext (con : Nat)
  | delStart (d : Nat) (id : String)
  | delCancel (d : Nat)
  | delWake (d : Nat)
  | delTimeout (d : Nat)
  | delClose (d : Nat)
  | delErase (d : Nat)
deriving DecidableEq, Repr

/-- Change where a connection thread is.  A helper for the steps of `handlers/images.py:50-76`. -/
def State.goto (s : State) (c : Nat) (pc : Pc) : State :=
  { s with conns := upd s.conns c { s.conns c with pc := pc } }

/-- Change a ticket object: assignment to its attributes, such as `auth.py:199`, `278`, `302`. -/
def State.setTicket (s : State) (r : Nat) (t : Ticket) : State :=
  { s with tickets := upd s.tickets r (some t) }

/-- Change where a removing thread is, in `auth.py:297-333`, `403-415`. -/
def State.setDel (s : State) (d : Nat) (x : Del) : State := { s with dels := upd s.dels d x }

/-- Add to the log; not part of the code (`Event`). -/
def State.event (s : State) (e : Event) : State := { s with log := s.log ++ [e] }

/-- `Context.close`.  `backends/__init__.py:33-37`. -/
def State.closeCtx (s : State) (k : Nat) : State :=
  { s with ctxs := upd s.ctxs k { s.ctxs k with closed := true }, log := s.log ++ [.ctxClosed k] }

/-- `for ctx in self._connections.values(): ctx.close()`, `auth.py:307-308,330-331`. -/
def State.closeAll (s : State) (t : Ticket) : State :=
  t.connections.foldl (fun s p => s.closeCtx p.2) s

/-- Set the cancel flag of all ongoing operations, `auth.py:317-318`. -/
def Ticket.cancelOps (t : Ticket) : Ticket :=
  { t with ongoing := t.ongoing.map fun op => { op with canceled := true } }

/-- Change the progress of an operation.  `self._done += n`, `ops.py:118`, `188`, `232`. -/
def Ticket.advance (t : Ticket) (id n : Nat) : Ticket :=
  { t with ongoing := t.ongoing.map fun op => if op.id = id then { op with done := op.done + n } else op }

/-- The code of a connection thread.
`handlers/images.py:50-76` and the other handlers, `backends/__init__.py:73-126`, `auth.py:144-222`; each step cites its lines. -/
def stepConn (cfg : Config) (s : State) (c : Nat) : Act → Option State
  /- `authorize`, called by all the handlers, for example `images.py:50-55`. -/
  | .request _ id op =>
    if (s.conns c).closed then none
    else
      match (s.conns c).pc with
      | .idle =>
        match authorize cfg s id op with
        | .error _ => some (s.event (.refused c))
        | .ok r => some (s.goto c (.authorized r))
      | _ => none
  /- `backends.get`, `backends/__init__.py:83-107`. -/
  | .getContext _ =>
    match (s.conns c).pc with
    | .authorized r =>
      match s.tickets r with
      | none => none
      | some t =>
        match t.getContext c with
        | some k => some (s.goto c (.ready r k))
        | none =>
          let ctx : Ctx := ⟨c, r, t.attrs.ops.contains "write", false⟩
          some ({ s with ctxs := upd s.ctxs s.nextCtx ctx, nextCtx := s.nextCtx + 1,
                         log := s.log ++ [Event.ctxOpened c r s.nextCtx] }.goto c (.opened r s.nextCtx))
    | _ => none
  /- Opening the backend failed, `backends/__init__.py:97-103`. -/
  | .openFailed _ =>
    match (s.conns c).pc with
    | .authorized _ => some (s.goto c .idle)
    | _ => none
  /- `ticket.add_context` and registering the closer, `backends/__init__.py:111-126`. -/
  | .addContext _ =>
    match (s.conns c).pc with
    | .opened r k =>
      match s.tickets r with
      | none => none
      | some t =>
        match t.addContext c k with
        | none => some ((s.closeCtx k).goto c .idle)
        | some t' =>
          let s := s.setTicket r t'
          let con := s.conns c
          let reg := (t.attrs.uuid, r) :: con.registered.filter (·.1 ≠ t.attrs.uuid)
          some { s with conns := upd s.conns c { con with pc := .ready r k, registered := reg } }
    | _ => none
  /- The request is refused before the operation starts, or does not start an operation
  (`validate.py`, `handlers/extents.py`). -/
  | .abort _ =>
    match (s.conns c).pc with
    | .ready _ _ => some (s.goto c .idle)
    | _ => none
  /- `images.py:250`: OPTIONS touches the ticket. -/
  | .options _ =>
    match (s.conns c).pc with
    | .ready r _ => some (s.goto c (.touching r))
    | _ => none
  /- `Ticket.run`, `auth.py:175`. -/
  | .startOp _ offset =>
    match (s.conns c).pc with
    | .ready r k =>
      match s.tickets r with
      | none => none
      | some t =>
        match t.addOperation ⟨s.nextOp, offset, 0, false⟩ with
        | none => some ((s.event (.refused c)).goto c .idle)
        | some t' =>
          some (({ s.setTicket r t' with nextOp := s.nextOp + 1 }.event (.opStart r)).goto c
            (.running r s.nextOp k))
    | _ => none
  /- One chunk of an operation: the bytes after the ones already done. -/
  | .io _ n =>
    match (s.conns c).pc with
    | .running r i k =>
      match s.tickets r with
      | none => none
      | some t =>
        match t.getOp i with
        | none => none
        | some op =>
          some (((s.setTicket r (t.advance i n)).event (.io r (op.offset + op.done) n)).goto c (.checking r i k))
    | _ => none
  /- Looking at the cancel flag after a chunk, `ops.py:120-121,194-195,233-234`. -/
  | .check _ =>
    match (s.conns c).pc with
    | .checking r i k =>
      match s.tickets r with
      | none => none
      | some t =>
        match t.getOp i with
        | none => none
        | some op => some (s.goto c (if op.canceled then .ended r i k else .running r i k))
    | _ => none
  /- The operation ends: everything was done, or an error. -/
  | .endOp _ =>
    match (s.conns c).pc with
    | .running r i k => some (s.goto c (.ended r i k))
    | .checking r i k => some (s.goto c (.ended r i k))
    | _ => none
  /- `Ticket._remove_operation`, `auth.py:201-220`. -/
  | .removeOp _ =>
    match (s.conns c).pc with
    | .ended r i _ =>
      match s.tickets r with
      | none => none
      | some t =>
        match t.getOp i with
        | none => none
        | some op =>
          let (refused, t') := t.removeOperation op
          let s := (s.setTicket r t').event (.opEnd r refused)
          some (s.goto c (if refused then .idle else .touching r))
    | _ => none
  /- `self.touch()`, `auth.py:222`, outside of the lock. -/
  | .touch _ =>
    match (s.conns c).pc with
    | .touching r =>
      match s.tickets r with
      | none => none
      | some t => some ((s.setTicket r (t.touch (seconds cfg s))).goto c .idle)
    | _ => none
  /- Closing one item of the connection context when the connection ends, `http.py:195-197`,
  `http.py:605-611`, calling `Ticket.remove_context`. -/
  | .closeContext _ =>
    match (s.conns c).pc with
    | .idle =>
      match (s.conns c).registered with
      | [] => some { s with conns := upd s.conns c { s.conns c with closed := true } }
      | (_, r) :: rest =>
        let con := { s.conns c with registered := rest, closed := true }
        let s := { s with conns := upd s.conns c con }
        match s.tickets r with
        | none => none
        | some t =>
          match t.removeContext c with
          | (none, _) => some s
          | (some k, t') => some ((s.closeCtx k).setTicket r t')
    | _ => none
  | _ => none

/-- The code of a thread handling `DELETE /tickets/id`.
`handlers/tickets.py:81-109`, `auth.py:280-333`, `403-415`; each step cites its lines. -/
def stepDel (cfg : Config) (s : State) (d : Nat) : Act → Option State
  /- `Authorizer.remove`, `auth.py:403-408`.  Simplified: the handler looks the ticket up
  twice, `tickets.py:91,99`; the first time only for logging. -/
  | .delStart _ id =>
    match s.dels d with
    | .waiting _ _ => none
    | .found _ _ => none
    | .closing _ _ => none
    | .erasing _ _ => none
    | _ =>
      match s.store id with
      | none => some ((s.event (.deleted id (.ok none))).setDel d (.answered (.ok none)))
      | some r => some (s.setDel d (.found id r))
  /- `Ticket.cancel`, the section under the lock, `auth.py:299-318`. -/
  | .delCancel _ =>
    match s.dels d with
    | .found id r =>
      match s.tickets r with
      | none => none
      | some t =>
        if t.ongoing.isEmpty then
          some (((s.closeAll t).setTicket r { t with canceled := true }).setDel d (.erasing id r))
        else
          let s := s.setTicket r { t.cancelOps with canceled := true }
          if cfg.removeTimeout ≠ 0 then some (s.setDel d (.waiting id r))
          else some ((s.event (.deleted id (.ok (some r)))).setDel d (.answered (.ok (some r))))
    | _ => none
  /- `self._unused.wait(timeout)` returns True, `auth.py:323`. -/
  | .delWake _ =>
    match s.dels d with
    | .waiting id r =>
      match s.tickets r with
      | none => none
      | some t => if t.unused then some (s.setDel d (.closing id r)) else none
    | _ => none
  /- `self._unused.wait(timeout)` returns False after the timeout, `auth.py:323-324`.
  Simplified: the time that the thread waited is not modelled, it may be any time. -/
  | .delTimeout _ =>
    match s.dels d with
    | .waiting id r =>
      match s.tickets r with
      | none => none
      | some t =>
        if t.unused then none
        else some ((s.event (.deleted id .conflict)).setDel d (.answered .conflict))
    | _ => none
  /- `auth.py:329-331`. -/
  | .delClose _ =>
    match s.dels d with
    | .closing id r =>
      match s.tickets r with
      | none => none
      | some t => some ((s.closeAll t).setDel d (.erasing id r))
    | _ => none
  /- `del self._tickets[ticket_id]`, `auth.py:415`. -/
  | .delErase _ =>
    match s.dels d with
    | .erasing id r =>
      match s.store id with
      | none => some ((s.event (.deleted id .keyError)).setDel d (.answered .keyError))
      | some _ =>
        some (({ s with store := upd s.store id none }.event (.deleted id (.ok (some r)))).setDel d
          (.answered (.ok (some r))))
    | _ => none
  | _ => none

/-- One step of the system; `none` when the thread cannot take this step now.
Every thread runs its own code (`http.py:63`, a thread for each connection), so any thread may be the next. -/
def step (cfg : Config) (s : State) (a : Act) : Option State :=
  match a with
  | .tick n => some { s with now := s.now + n }
  /- `Authorizer.add`, `auth.py:394-401`. -/
  | .addTicket at_ =>
    some { s with tickets := upd s.tickets s.nextTicket (some (Ticket.new at_ (seconds cfg s))),
                  nextTicket := s.nextTicket + 1,
                  store := upd s.store at_.uuid (some s.nextTicket) }
  /- `handlers/tickets.py:57-79`. -/
  | .extend id timeout =>
    match s.store id with
    | none => some s
    | some r =>
      match s.tickets r with
      | none => none
      | some t => some (s.setTicket r (t.extend (seconds cfg s) timeout))
  /- `Authorizer.clear`, `auth.py:417-418`. -/
  | .clear => some { s with store := fun _ => none }
  | .request c _ _ => stepConn cfg s c a
  | .getContext c => stepConn cfg s c a
  | .openFailed c => stepConn cfg s c a
  | .addContext c => stepConn cfg s c a
  | .abort c => stepConn cfg s c a
  | .options c => stepConn cfg s c a
  | .startOp c _ => stepConn cfg s c a
  | .io c _ => stepConn cfg s c a
  | .check c => stepConn cfg s c a
  | .endOp c => stepConn cfg s c a
  | .removeOp c => stepConn cfg s c a
  | .touch c => stepConn cfg s c a
  | .closeContext c => stepConn cfg s c a
  | .delStart d _ => stepDel cfg s d a
  | .delCancel d => stepDel cfg s d a
  | .delWake d => stepDel cfg s d a
  | .delTimeout d => stepDel cfg s d a
  | .delClose d => stepDel cfg s d a
  | .delErase d => stepDel cfg s d a

/-- The state after a list of steps.  The interleavings of the threads of `http.py:63` are the lists of steps. -/
def run (cfg : Config) (s : State) : List Act → Option State
  | [] => some s
  | a :: as =>
    match step cfg s a with
    | none => none
    | some s' => run cfg s' as

/-- The states the server can be in.  The server starts with no tickets, `auth.py:388-392`. -/
def Reachable (cfg : Config) (s : State) : Prop := ∃ as, run cfg init as = some s

end Imageio.Auth
