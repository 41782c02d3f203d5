import Verif.Model.Auth
import Verif.Model.Images

/-!
The whole server: the tickets and the threads of `Model/Auth.lean`, the handlers of
`Model/Images.lean`, and the disks behind the urls of the tickets.

A request of a connection goes through the steps of `Model/Auth.lean`; what it sees there (the
outcome of the authorization, whether its operation was refused, what every look at the cancel
flag found, whether the ticket was canceled when the operation ended) is what the handler gets as
`Images.Access`.  Simplified: the handler reads and changes the disk when its operation ends, in
one piece; the storage is not used by two operations at the same time (that is the subject of
`Model/Concurrent.lean`); a backend that was closed because its ticket was canceled can still be asked for its size before
`ticket.run` refuses the operation (`C06_counterexample_use_outside_operation`): here this is always answered as the
refusal.  All the contexts with the same url share one state of the backend (in the code each has its own
position and connection to the same storage).  All the other steps of all the threads interleave freely.
-/
namespace Imageio.System
open Imageio.Images

/-- The requests to `/images/ticket-id`, `handlers/images.py:30`, `80`, `150`. -/
inductive Job where
  | put (q : PutReq)
  | get (q : GetReq)
  | patch (ticketId : Http.Str)

/-- The ticket id in the url of the request, `handlers/images.py:30`, `80`, `150`. -/
def Job.ticketId : Job → String
  | .put q => String.ofList q.ticketId
  | .get q => String.ofList q.ticketId
  | .patch t => String.ofList t

/-- What the handler asks the authorizer for, `handlers/images.py:51`, `106`, `176`, `205`. -/
def Job.op : Job → String
  | .put _ => "write"
  | .get _ => "read"
  | .patch _ => "write"

/-- A request as it arrives: the Content-Length header, the bytes that follow, what the socket
does, whether the response is lost (`http.py:152-206`), and what the buffer of the connection
holds (`backends/__init__.py:106`). -/
structure Request where
  job : Job
  header : Option Http.Str
  rest : Bytes
  recvs : List Http.Recv := []
  writes : List Bool := []
  lost : Bool := false
  buf : Bytes

/-- The connection when the handler is called: a new request and a new response.
`http.py:283-298`, `468-475`. -/
def Request.conn (r : Request) : Http.Conn :=
  { req := { header := r.header }, rest := r.rest, recvs := r.recvs, writes := r.writes }

/-- The storage, `json.loads` and the configuration of the authorizer.
`handlers/images.py:25-27`, `157`. -/
structure Env (σ : Type) where
  B : Backend σ
  loads : Bytes → Option Json
  cfg : Auth.Config

/-- The handler of the request, `handlers/images.py:30-220`. -/
def handle {σ : Type} (E : Env σ) (a : Access) (r : Request) (s : σ) :
    Except Http.HErr Unit × σ × Http.Conn :=
  match r.job with
  | .put q => put E.B r.buf.length a q s r.conn
  | .get q => get E.B a q r.buf s r.conn
  | .patch t => patch E.B a E.loads t s r.conn

/-- The authorization, or opening the backend, raised.  `handlers/images.py:50-55`. -/
def denied (e : Err) : Access := ⟨some e, 0, false, fun _ => false, false, by simp⟩

/-- The ticket was canceled before `ticket.run`.  `handlers/images.py:72`, `auth.py:193-199`. -/
def refusedAccess (size : Int) : Access := ⟨none, size, true, fun _ => false, false, by simp⟩

/-- What an operation saw that ran: the ticket, what it found when it looked at the cancel flag,
and whether the ticket was canceled when it ended.  `none` if the flags do not fit together; this never
happens (`C79_fits`).  `auth.py:171-222`, `ops.py:194-195`. -/
def ranAccess (size : Int) (cancels : List Bool) (canceled : Bool) : Option Access :=
  if h : true ∈ cancels → canceled = true then
    some ⟨none, size, false, fun n => cancels.getD n false, canceled, fun n hn => h (by
      rw [List.getD_eq_getElem?_getD] at hn
      cases hx : cancels[n]? with
      | none => simp [hx] at hn
      | some b => simp only [hx, Option.getD_some] at hn; subst hn; exact List.mem_of_getElem? hx)⟩
  else none

/-- Whether the handler comes to the authorization: only then it can answer 403 when it is denied.
`handlers/images.py:31-50`, `81-105`, `151-175`, `203-204`. -/
def asks {σ : Type} (E : Env σ) (r : Request) (s : σ) : Bool :=
  match (handle E (denied (.authorization "")) r s).1 with
  | .error (.http 403) => true
  | _ => false

/-- Whether the handler comes to `ticket.run`, with an authorized ticket of this size: only then
it can answer 403 when the operation is refused.  `handlers/images.py:57-72`, `112-143`, `182-196`, `211-217`. -/
def runs {σ : Type} (E : Env σ) (r : Request) (size : Int) (s : σ) : Bool :=
  match (handle E (refusedAccess size) r s).1 with
  | .error (.http 403) => true
  | _ => false

/-- A request being handled, and what it saw when it looked at the cancel flag.
The local variables of the handlers, `handlers/images.py:30-77`, `80-148`, `150-220`, and of `ops.py:168-195`. -/
structure Pending where
  req : Request
  cancels : List Bool

/-- An answered request: the connection, the ticket object it was authorized with, whether its
operation was run, and the connection after the response.  Not part of the code: what can be seen from outside. -/
structure Answered where
  con : Nat
  ticket : Option Nat
  req : Request
  ran : Bool
  conn : Http.Conn

/-- The server: the tickets and the threads, the url of every ticket object (`auth.py:37-39`), the
disks, the requests being handled, and the requests answered. -/
structure Sys (σ : Type) where
  auth : Auth.State
  url : Nat → Http.Str
  disk : Http.Str → σ
  pending : Nat → Option Pending
  answered : List Answered

/-- The server after its start; `disk` is the storage of the host.  `auth.py:388-392`. -/
def start {σ : Type} (disk : Http.Str → σ) : Sys σ :=
  { auth := Auth.init, url := fun _ => [], disk, pending := fun _ => none, answered := [] }

/-- The steps.  `auth`: a step of a thread of `Model/Auth.lean` (not `addTicket`), `add`: a new ticket,
`early`: a request that does not come to the authorization, `request`: a request that does.
The code of the steps is cited in `step`. -/
inductive Act where
  | auth (a : Auth.Act)
  | add (attrs : Auth.Attrs) (url : Http.Str)
  | early (con : Nat) (r : Request)
  | request (con : Nat) (r : Request)

/-- The handler ends: with what it saw, it changed the disk (`url`) and answered.
`handlers/images.py:30-220`, `http.py:793-824`. -/
def finish {σ : Type} (E : Env σ) (s : Sys σ) (c : Nat) (ticket : Option Nat) (url : Http.Str) (ran : Bool)
    (a : Access) (r : Request) : Sys σ :=
  let x := serve r.lost (handle E a r (s.disk url))
  { s with disk := Auth.upd s.disk url x.1, pending := Auth.upd s.pending c none,
           answered := s.answered ++ [⟨c, ticket, r, ran, x.2⟩] }

/-- The size of a ticket, `auth.py:25`. -/
def sizeOf (s : Auth.State) (r : Nat) : Int :=
  match s.tickets r with
  | none => 0
  | some t => t.attrs.size

/-- What the step `a`, that changed the tickets and threads from `s.auth` to `t`, means for the
request `p` of the connection `c`.  The backend is the one of the context, that was opened with the url of the
ticket it belongs to (`backends/__init__.py:97`). -/
def proceed {σ : Type} (E : Env σ) (s : Sys σ) (t : Auth.State) (c : Nat) (p : Pending) (a : Auth.Act) :
    Option (Sys σ) :=
  let s' := { s with auth := t }
  match a, (s.auth.conns c).pc with
  /- `backends.get` raised when it opened the backend, `backends/__init__.py:97-103`; the
  error of the operating system is not caught by the handler. -/
  | .openFailed _, .authorized r => some (finish E s' c (some r) [] false (denied (.os "open")) p.req)
  /- `ticket.add_context` raised, `backends/__init__.py:111-117`, `handlers/images.py:53-55`. -/
  | .addContext _, .opened r _ =>
    if (t.conns c).pc = .idle then some (finish E s' c (some r) [] false (denied (.authorization "canceled")) p.req)
    else some s'
  /- The handler raised before `ticket.run`, `handlers/images.py:57`, `112-116`, `182`. -/
  | .abort _, .ready r k =>
    let url := s.url (s.auth.ctxs k).ticket
    if runs E p.req (sizeOf s.auth r) (s.disk url) then none
    else some (finish E s' c (some r) url false (refusedAccess (sizeOf s.auth r)) p.req)
  /- `ticket.run`, `auth.py:175`, `193-199`. -/
  | .startOp _ _, .ready r k =>
    let url := s.url (s.auth.ctxs k).ticket
    if runs E p.req (sizeOf s.auth r) (s.disk url) then
      if (t.conns c).pc = .idle then
        some (finish E s' c (some r) url false (refusedAccess (sizeOf s.auth r)) p.req)
      else some s'
    else none
  /- Looking at the cancel flag, `ops.py:120-121`, `194-195`, `233-234`. -/
  | .check _, .checking _ _ _ =>
    let flag := match (t.conns c).pc with
      | .ended _ _ _ => true
      | _ => false
    some { s' with pending := Auth.upd s.pending c (some { p with cancels := p.cancels ++ [flag] }) }
  /- `ticket.run` ends, `auth.py:178-181`, `201-222`. -/
  | .removeOp _, .ended r _ k =>
    match ranAccess (sizeOf s.auth r) p.cancels ((t.conns c).pc = .idle) with
    | none => none
    | some a => some (finish E s' c (some r) (s.url (s.auth.ctxs k).ticket) true a p.req)
  /- OPTIONS is another request, `handlers/images.py:222-260`. -/
  | .options _, _ => none
  | _, _ => some s'

/-- The connection that takes a step of `Model/Auth.lean`; `none` for the other threads.
A thread for each connection, `http.py:63`. -/
def conOf : Auth.Act → Option Nat
  | .request c _ _ => some c
  | .getContext c => some c
  | .openFailed c => some c
  | .addContext c => some c
  | .abort c => some c
  | .options c => some c
  | .startOp c _ => some c
  | .io c _ => some c
  | .check c => some c
  | .endOp c => some c
  | .removeOp c => some c
  | .touch c => some c
  | .closeContext c => some c
  | _ => none

/-- The request of the connection that takes the step, if it is one to `/images/ticket-id`; the
requests of the other handlers (`extents`, `checksum`, OPTIONS) use no disk here.
A thread for each connection, `http.py:63`. -/
def pendingOf {σ : Type} (s : Sys σ) (a : Auth.Act) : Option (Nat × Pending) :=
  match conOf a with
  | none => none
  | some c =>
    match s.pending c with
    | none => none
    | some p => some (c, p)

/-- One step of the server; `none` if this step cannot be taken now. -/
def step {σ : Type} (E : Env σ) (s : Sys σ) : Act → Option (Sys σ)
  /- A step of a thread, `http.py:63`. -/
  | .auth (.addTicket _) => none
  | .auth a =>
    match Auth.step E.cfg s.auth a with
    | none => none
    | some t =>
      match pendingOf s a with
      | none => some { s with auth := t }
      | some (c, p) => proceed E s t c p a
  /- `PUT /tickets/id`, `auth.py:394-401`, `auth.py:37-39`. -/
  | .add attrs url =>
    match Auth.step E.cfg s.auth (.addTicket attrs) with
    | none => none
    | some t => some { s with auth := t, url := Auth.upd s.url s.auth.nextTicket url }
  /- The handler raised before it asked the authorizer, `handlers/images.py:31-48`, `81-103`, `151-173`. -/
  | .early c r =>
    if (s.auth.conns c).closed || (s.auth.conns c).pc ≠ .idle || asks E r (s.disk []) then none
    else some (finish E s c none [] false (denied (.authorization "")) r)
  /- `self.auth.authorize`, `handlers/images.py:50-55`, `auth.py:427-451`. -/
  | .request c r =>
    if asks E r (s.disk []) then
      match Auth.step E.cfg s.auth (.request c r.job.ticketId r.job.op) with
      | none => none
      | some t =>
        if (t.conns c).pc = .idle then
          some (finish E { s with auth := t } c none [] false (denied (.authorization "")) r)
        else some { s with auth := t, pending := Auth.upd s.pending c (some ⟨r, []⟩) }
    else none

/-- The state after a list of steps: an interleaving of the threads of `http.py:63`. -/
def run {σ : Type} (E : Env σ) (s : Sys σ) : List Act → Option (Sys σ)
  | [] => some s
  | a :: as =>
    match step E s a with
    | none => none
    | some s' => run E s' as

end Imageio.System
