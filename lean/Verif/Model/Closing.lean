import Verif.Base
/-!
Releasing the contexts of tickets when closing a backend can fail: `http.Context.close`,
`Ticket.remove_context`, `Ticket.cancel` and `Authorizer.remove`.  The interleavings of these
functions are in `Model/Auth`, where closing never fails; here each function is one step, as it is
under the lock of the ticket.
-/
namespace Imageio.Closing

/-- `backends/__init__.py:27-37` a context: whether the backend and the buffer are open, and
whether closing the backend will fail.  A backend that failed to close is closed all the same:
the file backend forgets the file (`backends/file.py:113-116`), the NBD client is in the state
`CLOSED` before it closes the socket (`nbd.py:925-926`, `931-932`), and `http.client` forgets the
socket before it closes it (`backends/http.py:342`).  So closing it again does not fail. -/
structure Ctx where
  backend : Bool
  buffer : Bool
  fails : Bool
deriving DecidableEq, Repr

/-- `backends/__init__.py:33-37` `Context.close`; the first item is whether it raised. -/
def Ctx.close (x : Ctx) : Bool × Ctx :=
  (x.backend && x.fails, { x with backend := false, buffer := false })

/-- `auth.py:24-63` the parts of a ticket used here: `_canceled`, whether there are ongoing
operations, and `_connections`, by the id of the connection. -/
structure Ticket where
  canceled : Bool
  ongoing : Bool
  connections : List (Nat × Ctx)
deriving DecidableEq, Repr

/-- `auth.py:157-169` `remove_context`; the first item is whether it raised. -/
def Ticket.removeContext (t : Ticket) (con : Nat) : Bool × Ticket :=
  match t.connections.find? (fun p => p.1 = con) with
  | none => (false, t)
  | some (_, x) =>
    match x.close with
    | (true, x') =>
      (true, { t with connections := t.connections.map fun p => if p.1 = con then (con, x') else p })
    | (false, _) => (false, { t with connections := t.connections.filter fun p => p.1 ≠ con })

/-- `auth.py:307-308`, `330-331` `for ctx in self._connections.values(): ctx.close()`: an error
ends the loop. -/
def closeAll : List (Nat × Ctx) → Bool × List (Nat × Ctx)
  | [] => (false, [])
  | (c, x) :: rest =>
    match x.close with
    | (true, x') => (true, (c, x') :: rest)
    | (false, x') =>
      match closeAll rest with
      | (raised, rest') => (raised, (c, x') :: rest')

/-- What `cancel` did: the ticket can be removed, it is still used, the wait ended with
`TransferCancelTimeout`, or closing a context raised.  `auth.py:280-339`. -/
inductive Canceled
  | removable | busy | timeout | raised
deriving DecidableEq, Repr

/-- `auth.py:280-339` `cancel`.  `waited` is the state of the ticket when the wait for the ongoing
operations ends, `none` for the timeout; `wait` is whether the timeout is not zero. -/
def Ticket.cancel (t : Ticket) (wait : Bool) (waited : Option Ticket) : Canceled × Ticket :=
  let t := { t with canceled := true }
  if t.ongoing = false then
    match closeAll t.connections with
    | (true, cs) => (.raised, { t with connections := cs })
    | (false, cs) => (.removable, { t with connections := cs })
  else if wait then
    match waited with
    | none => (.timeout, t)
    | some t =>
      match closeAll t.connections with
      | (true, cs) => (.raised, { t with connections := cs })
      | (false, cs) => (.removable, { t with connections := cs })
  else (.busy, t)

/-- `http.py:605-611` `Context.close` called by `finish` (`http.py:195-198`): every closer calls
`remove_context` of its ticket (`backends/__init__.py:123-124`), errors are logged.  `closers` are
the tickets of the connection. -/
def finish (con : Nat) : List Nat → (Nat → Ticket) → (Nat → Ticket)
  | [], s => s
  | r :: rest, s =>
    finish con rest (fun i => if i = r then ((s r).removeContext con).2 else s i)

/-- `auth.py:407-415` `Authorizer.remove` of a ticket without ongoing operations: the ticket and
whether it is still in the store.  Called by `handlers/tickets.py:99`, which lets other errors
than the timeout pass: the answer is 500. -/
def removeIdle (t : Ticket) (wait : Bool) : Canceled × Ticket × Bool :=
  match t.cancel wait none with
  | (.removable, t) => (.removable, t, false)
  | (r, t) => (r, t, true)

/-- A sequence of `DELETE` requests for one ticket without ongoing operations: the results and the
ticket at the end.  Of this model, the requests are those of a client that tries again after an
error, `handlers/tickets.py:85-87`. -/
def deletes (wait : Bool) : Nat → Ticket → List Canceled × Ticket
  | 0, t => ([], t)
  | n + 1, t =>
    match removeIdle t wait with
    | (r, t, true) => let (rs, t) := deletes wait n t; (r :: rs, t)
    | (r, t, false) => ([r], t)

end Imageio.Closing
