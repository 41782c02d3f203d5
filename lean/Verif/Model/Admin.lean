import Verif.Model.Tickets
import Verif.Model.Daemon
import Verif.Model.QemuNbd

/-!
The admin client (`admin/_api.py`, `admin/tool.py`) talking to the control service of the daemon
(`handlers/tickets.py`, `handlers/profile.py`).

The network is the environment: for every request it decides whether the request arrives, how much
of the body arrives, how the server reads and writes, and whether the response arrives.
Simplifications: one request is handled at a time (other threads using the same tickets are in
`Model/Auth.lean`); every request starts with a new state of the connection object of the server
(C19); `json.dumps`, `json.loads`, decoding of UTF-8 and `urlunparse` are parameters; the text of
error messages is not kept; the limit of 64 KiB on the request line is not modelled.
-/
namespace Imageio.Admin
open Http Images

/-! ## URLs -/

/-- The value of a hexadecimal digit, `_hextobyte` of `urllib/parse.py`; used by
`urllib.parse.unquote`, called in `http.py:292`. -/
def hexDigit (c : Char) : Option Nat :=
  if c.isDigit then some (c.toNat - '0'.toNat)
  else if 'a' ≤ c ∧ c ≤ 'f' then some (c.toNat - 'a'.toNat + 10)
  else if 'A' ≤ c ∧ c ≤ 'F' then some (c.toNat - 'A'.toNat + 10)
  else none

/-- `urllib.parse.unquote_to_bytes` of an ASCII text: `%` not followed by two hexadecimal digits
is kept.  Part of `urllib.parse.unquote`, called in `http.py:292`. -/
def unquoteToBytes : Str → Bytes
  | '%' :: a :: b :: r =>
    match hexDigit a, hexDigit b with
    | some x, some y => UInt8.ofNat (x * 16 + y) :: unquoteToBytes r
    | _, _ => UInt8.ofNat '%'.toNat :: unquoteToBytes (a :: b :: r)
  | c :: r => UInt8.ofNat c.toNat :: unquoteToBytes r
  | [] => []

/-- `urllib.parse.unquote` of an ASCII text; `decode` is `bytes.decode("utf-8", "replace")`.
Called in `http.py:292`. -/
def unquote (decode : Bytes → Str) (s : Str) : Str :=
  if '%' ∈ s then decode (unquoteToBytes s) else s

/-- `con.path.split("?", 1)`, `http.py:288-292`: the path (not decoded) and the query string. -/
def splitQuery (uri : Str) : Str × Str :=
  (uri.takeWhile (· != '?'), (uri.dropWhile (· != '?')).drop 1)

/-- `name_value.split('=', 1)` in `urllib.parse.parse_qsl`, with the replacement of `+`; called in
`http.py:365-366`. -/
def nameValue (decode : Bytes → Str) (s : Str) : Str × Str :=
  let plus := fun t : Str => unquote decode (t.map fun c => if c = '+' then ' ' else c)
  (plus (s.takeWhile (· != '=')), plus ((s.dropWhile (· != '=')).drop 1))

/-- `urllib.parse.parse_qsl(query, keep_blank_values=True)`, `http.py:365-366`. -/
def parseQsl (decode : Bytes → Str) (q : Str) : List (Str × Str) :=
  ((QemuNbd.splitOn '&' q).filter (· ≠ [])).map (nameValue decode)

/-- The URIs which `http.client` sends: `HTTPConnection._validate_path` refuses control characters
and spaces, and the request is encoded as ASCII.  Called in `admin/_api.py:136`. -/
def validUri (uri : Str) : Bool := uri.all fun c => 0x20 < c.toNat && c.toNat < 0x7f

/-! ## The control service -/

/-- A ticket in the authorizer, `auth.py:19-77`: what `Ticket.info` reports and `Ticket.cancel`
looks at.  Simplified: the ongoing operations are only a flag (`active`), the connections a
number, and the ranges the number of transferred bytes (see `Model/Auth.lean`, C01). -/
structure Ticket where
  fields : Tickets.Fields
  expires : Int
  access : Int
  active : Bool := false
  canceled : Bool := false
  connections : Nat := 0
  transferred : Nat := 0

/-- `Ticket.__init__`, `auth.py:33-77`; `now` is `int(util.monotonic_time())`. -/
def Ticket.new (f : Tickets.Fields) (now : Int) : Ticket :=
  { fields := f, expires := now + f.timeout, access := now }

/-- The authorizer (`auth.py:388-392`) and the profiler (`profile.py:7-16`): the type of the clock
of a running profiler. -/
structure Server where
  store : Str → Option Ticket
  profiler : Option Str
  /-- the profiles saved, with the clock that was used -/
  saved : List Str

/-- The environment of the server that never changes.  `auth.py:24-63`, `handlers/tickets.py:44`,
`profile.py:8-11`, `auth.py:413`. -/
structure Cfg where
  netlocOk : Str → Bool
  urlunparse : Url.Parsed → Str
  inactivity : Int
  dumps : Json → Bytes
  loads : Bytes → Option Json
  decode : Bytes → Str
  /-- `control.remove_timeout` -/
  removeTimeout : Nat
  /-- the profiler module is installed -/
  yappi : Bool

/-- What the environment does during one request, `admin/_api.py:134-141`. -/
structure Net where
  /-- `int(util.monotonic_time())` -/
  now : Int
  /-- the ongoing operations of the ticket end before the timeout of its removal -/
  released : Bool
  /-- nothing of the request arrives -/
  notSent : Bool
  /-- only this part of the body arrives, sending the rest fails -/
  cut : Option Nat
  recvs : List Recv
  writes : List Bool
  /-- the server sees that the connection was lost -/
  lost : Bool
  /-- the response does not arrive -/
  responseLost : Bool

/-- A request without any failure.  See `Net`, `admin/_api.py:134-141`. -/
def Net.perfect (now : Int) (released : Bool) : Net :=
  { now, released, notSent := false, cut := none, recvs := [], writes := [], lost := false,
    responseLost := false }

/-- `Ticket.info`, `auth.py:251-274`, with `idle_time` (`auth.py:122-129`) and the `None` of
`transferred` (`auth.py:231-233`). -/
def Ticket.info (cfg : Cfg) (now : Int) (t : Ticket) : Json :=
  .obj <|
    [(lit "active", .bool t.active),
     (lit "canceled", .bool t.canceled),
     (lit "connections", .int t.connections),
     (lit "expires", .int t.expires),
     (lit "idle_time", .int (if t.active then 0 else now - t.access)),
     (lit "inactivity_timeout", .int t.fields.inactivityTimeout),
     (lit "ops", .arr t.fields.ops),
     (lit "size", .int t.fields.size),
     (lit "sparse", .bool t.fields.sparse),
     (lit "dirty", .bool t.fields.dirty),
     (lit "timeout", .int t.fields.timeout),
     (lit "url", .str (cfg.urlunparse t.fields.url)),
     (lit "uuid", .str t.fields.uuid)] ++
    (if t.fields.transferId = [] then [] else [(lit "transfer_id", .str t.fields.transferId)]) ++
    (match t.fields.filename with
     | none | some [] => []
     | some f => [(lit "filename", .str f)]) ++
    (if t.fields.ops.length > 1 then [] else [(lit "transferred", .int t.transferred)])

/-- `self._tickets[key] = ticket`, `auth.py:401`. -/
def Server.set (s : Server) (id : Str) (t : Option Ticket) : Server :=
  { s with store := fun x => if x = id then t else s.store x }

/-- `http.py:521-532` `Response.send_json`. -/
def sendJson (cfg : Cfg) (j : Json) (c : Conn) : Except HErr Unit × Conn :=
  if c.started then (.error .other, c)
  else
    let body := cfg.dumps j ++ [10]
    Conn.write body { c with status := 200, hdrLength := body.length }

/-- `handlers/tickets.py:23-35` `Handler.get`. -/
def getTicket (cfg : Cfg) (net : Net) (id : Str) (s : Server) (c : Conn) :
    Except HErr Unit × Server × Conn :=
  if id = [] then (.error (.http 400), s, c)
  else
    match s.store id with
    | none => (.error (.http 404), s, c)
    | some t =>
      let (r, c) := sendJson cfg (t.info cfg net.now) c
      (r, s, c)

/-- `handlers/tickets.py:37-55` `Handler.put`, with `Authorizer.add` (`auth.py:394-401`): the
ticket is stored by its own uuid, not by the id in the URL. -/
def putTicket (cfg : Cfg) (net : Net) (id : Str) (s : Server) (c : Conn) :
    Except HErr Unit × Server × Conn :=
  if id = [] then (.error (.http 400), s, c)
  else
    match c.read none with
    | (.error e, c) => (.error e, s, c)
    | (.ok data, c) =>
      match cfg.loads data with
      | none => (.error (.http 400), s, c)
      | some msg =>
        match Tickets.parse cfg.netlocOk cfg.inactivity msg with
        | .error _ => (.error (.http 400), s, c)
        | .ok t => (.ok (), s.set t.uuid (some (.new t net.now)), c)

/-- `handlers/tickets.py:57-79` `Handler.patch`, with `Ticket.extend` (`auth.py:276-278`). -/
def patchTicket (cfg : Cfg) (net : Net) (id : Str) (s : Server) (c : Conn) :
    Except HErr Unit × Server × Conn :=
  if id = [] then (.error (.http 400), s, c)
  else
    match c.read none with
    | (.error e, c) => (.error e, s, c)
    | (.ok data, c) =>
      match cfg.loads data with
      | none => (.error (.http 400), s, c)
      | some msg =>
        match integer msg (lit "timeout") none with
        | .error e => (.error e, s, c)
        | .ok timeout =>
          match s.store id with
          | none => (.error (.http 404), s, c)
          | some t => (.ok (), s.set id (some { t with expires := net.now + timeout }), c)

/-- `Authorizer.remove` (`auth.py:403-415`) with `Ticket.cancel` (`auth.py:280-338`) of a ticket in
the store, without other threads removing it: the flag tells if `TransferCancelTimeout` was
raised.  When an ongoing operation ends the ticket is not active any more. -/
def remove (cfg : Cfg) (net : Net) (id : Str) (t : Ticket) (s : Server) : Bool × Server :=
  if !t.active then (false, s.set id none)
  else if cfg.removeTimeout = 0 then (false, s.set id (some { t with canceled := true }))
  else if net.released then (false, s.set id none)
  else (true, s.set id (some { t with canceled := true }))

/-- `handlers/tickets.py:81-109` `Handler.delete`; without an id all the tickets are removed
(`auth.py:417-418`). -/
def deleteTicket (cfg : Cfg) (net : Net) (id : Str) (s : Server) (c : Conn) :
    Except HErr Unit × Server × Conn :=
  if id = [] then (.ok (), { s with store := fun _ => none }, { c with status := 204 })
  else
    match s.store id with
    | none => (.ok (), s, { c with status := 204 })
    | some t =>
      let (timeout, s) := remove cfg net id t s
      if timeout then (.error (.http 409), s, c)
      else (.ok (), s, { c with status := 204 })

/-- `validate.py:7-22` `enum` for a query string, without default. -/
def enumRequired (q : List (Str × Str)) (name : Str) (values : List Str) : Except HErr Str :=
  match queryGet q name with
  | none => .error (.http 400)
  | some v => if v ∈ values then .ok v else .error (.http 400)

/-- `profile.py:28-41,50-71` `Handler.post` with `_start_profiling` and `_stop_profiling`.
Simplified: saving the profile never fails. -/
def postProfile (cfg : Cfg) (q : List (Str × Str)) (s : Server) (c : Conn) :
    Except HErr Unit × Server × Conn :=
  if !cfg.yappi then (.error (.http 404), s, c)
  else
    match enumRequired q (lit "run") [lit "y", lit "n"] with
    | .error e => (.error e, s, c)
    | .ok run =>
      if run = lit "y" then
        match enumQuery q (lit "clock") [lit "cpu", lit "wall"] (lit "cpu") with
        | .error e => (.error e, s, c)
        | .ok clock =>
          match s.profiler with
          | some _ => (.error (.http 400), s, c)
          | none => (.ok (), { s with profiler := some clock }, c)
      else
        match s.profiler with
        | none => (.error (.http 400), s, c)
        | some clock => (.ok (), { s with profiler := none, saved := s.saved ++ [clock] }, c)

/-- `profile.py:43-48` `Handler.get`. -/
def getProfile (cfg : Cfg) (s : Server) (c : Conn) : Except HErr Unit × Server × Conn :=
  if !cfg.yappi then (.error (.http 404), s, c)
  else
    let (r, c) := sendJson cfg (.obj [(lit "running", .bool s.profiler.isSome)]) c
    (r, s, c)

/-- `http.py:832-843` the first matching route of the control service (`services.py:170-173`). -/
def route (path : Str) : Option (Resource × List Str) :=
  controlPatterns.findSome? fun (p, r) => (p path).map fun g => (r, g)

/-- `http.py:826-843` `Router.dispatch` for the control service. -/
def handler (cfg : Cfg) (net : Net) (method uri : Str) (s : Server) (c : Conn) :
    Except HErr Unit × Server × Conn :=
  let (path, query) := splitQuery uri
  if method ∉ allowedMethods then (.error (.http 405), s, c)
  else
    match route (unquote cfg.decode path) with
    | some (.tickets, [id]) =>
      if method = lit "GET" then getTicket cfg net id s c
      else if method = lit "PUT" then putTicket cfg net id s c
      else if method = lit "PATCH" then patchTicket cfg net id s c
      else if method = lit "DELETE" then deleteTicket cfg net id s c
      else (.error (.http 405), s, c)
    | some (.profile, []) =>
      if method = lit "GET" then getProfile cfg s c
      else if method = lit "POST" then postProfile cfg (parseQsl cfg.decode query) s c
      else (.error (.http 405), s, c)
    | some _ => (.error (.http 405), s, c)
    | none => (.error (.http 404), s, c)

/-! ## The client -/

/-- The exceptions of the client: `ClientError` and `ServerError` (`admin/_api.py:14-38`), and the
exceptions which are not converted: `KeyError` or `TypeError` for a ticket without uuid
(`admin/_api.py:73`), and `ValueError` for a response that is not JSON (`admin/_api.py:88`). -/
inductive AErr where
  | client
  | server (code : Nat)
  | noUuid
  | notJson
deriving DecidableEq, Repr

/-- The server, and the client connection: `stuck` if a request was started but not sent, then
`http.client` raises `CannotSendRequest` for the following requests until the connection is
closed.  `admin/_api.py:56-60`, `136`. -/
structure World where
  srv : Server
  stuck : Bool

/-- The part of the body that arrives.  `admin/_api.py:136`. -/
def Net.arrived (n : Net) (body : Bytes) : Bytes :=
  match n.cut with
  | none => body
  | some k => body.take k

/-- The connection of the server when it starts to handle the request, `http.py:283-298`.
`http.client` adds a content-length header if there is a body, and for PATCH, POST and PUT. -/
def Net.conn (n : Net) (body : Option Bytes) : Conn :=
  { req := { header := body.map fun b => fmtNat b.length }, rest := n.arrived (body.getD []),
    recvs := n.recvs, writes := n.writes }

/-- `admin/_api.py:134-141` `Client._request`: the status and the body of the response. -/
def request (cfg : Cfg) (net : Net) (method uri : Str) (body : Option Bytes) (w : World) :
    Except AErr (Nat × Bytes) × World :=
  if w.stuck then (.error .client, w)
  else if !validUri uri then (.error .client, { w with stuck := true })
  else if net.notSent then (.error .client, w)
  else
    let (s, c) := serve net.lost (handler cfg net method uri w.srv (net.conn body))
    (if net.responseLost || (net.arrived (body.getD [])).length < (body.getD []).length then
        .error .client
      else
        match c.sent with
        | [] => .error .client
        | status :: _ => .ok (status, c.body),
      { w with srv := s })

/-- The check of the status, for example `admin/_api.py:75-76`. -/
def expect (code : Nat) (x : Except AErr (Nat × Bytes) × World) : Except AErr Bytes × World :=
  match x with
  | (.error e, w) => (.error e, w)
  | (.ok (status, body), w) => if status ≠ code then (.error (.server status), w) else (.ok body, w)

/-- `f"/tickets/{ticket_id}"`, `admin/_api.py:73`, `85`, `102`, `114`. -/
def ticketUri (id : Str) : Str := lit "/tickets/" ++ id

/-- `f"{ticket['uuid']}"`, `admin/_api.py:73`.  Simplified: values other than strings and integers
are formatted to an unspecified text that is not empty (`fmt`). -/
def uuidText (fmt : Json → Str) : Json → Option Str
  | .obj d =>
    match Tickets.find d "uuid" with
    | none => none
    | some (.str s) => some s
    | some (.int n) => some (fmtInt n)
    | some j => some (fmt j)
  | _ => none

/-- `admin/_api.py:64-76` `Client.add_ticket`. -/
def addTicket (cfg : Cfg) (fmt : Json → Str) (net : Net) (ticket : Json) (w : World) :
    Except AErr Unit × World :=
  match uuidText fmt ticket with
  | none => (.error .noUuid, w)
  | some id =>
    match expect 200 (request cfg net (lit "PUT") (ticketUri id) (some (cfg.dumps ticket)) w) with
    | (.ok _, w) => (.ok (), w)
    | (.error e, w) => (.error e, w)

/-- `admin/_api.py:78-88` `Client.get_ticket`. -/
def showTicket (cfg : Cfg) (net : Net) (id : Str) (w : World) : Except AErr Json × World :=
  match expect 200 (request cfg net (lit "GET") (ticketUri id) none w) with
  | (.error e, w) => (.error e, w)
  | (.ok body, w) =>
    match cfg.loads body with
    | none => (.error .notJson, w)
    | some j => (.ok j, w)

/-- `admin/_api.py:90-105` `Client.mod_ticket`. -/
def modTicket (cfg : Cfg) (net : Net) (id : Str) (changes : Json) (w : World) :
    Except AErr Unit × World :=
  match expect 200 (request cfg net (lit "PATCH") (ticketUri id) (some (cfg.dumps changes)) w) with
  | (.ok _, w) => (.ok (), w)
  | (.error e, w) => (.error e, w)

/-- `admin/_api.py:107-116` `Client.del_ticket`. -/
def delTicket (cfg : Cfg) (net : Net) (id : Str) (w : World) : Except AErr Unit × World :=
  match expect 204 (request cfg net (lit "DELETE") (ticketUri id) none w) with
  | (.ok _, w) => (.ok (), w)
  | (.error e, w) => (.error e, w)

/-- `admin/_api.py:118-126` `Client.start_profile` and `Client.stop_profile`.  `http.client` sends a
POST request without body with the content-length 0. -/
def profile (cfg : Cfg) (net : Net) (start : Bool) (w : World) : Except AErr Unit × World :=
  match expect 200 (request cfg net (lit "POST")
      (if start then lit "/profile/?run=y" else lit "/profile/?run=n") (some []) w) with
  | (.ok _, w) => (.ok (), w)
  | (.error e, w) => (.error e, w)

/-- `admin/_api.py:128-132` `Client.close`: a closed connection can be used again, it connects
again. -/
def close (w : World) : World := { w with stuck := false }

/-- Where the client connects, `admin/_api.py:54-62`. -/
inductive Peer where
  | tcp (host : Str) (port : Int)
  | unix (path : Str)
deriving DecidableEq, Repr

/-- `admin/_api.py:54-62` `Client.__init__`; `none` is `ValueError`. -/
def peer (c : Daemon.Cfg) : Option Peer :=
  if Daemon.lower c.controlTransport = "tcp".toList then some (.tcp "localhost".toList c.controlPort)
  else if Daemon.lower c.controlTransport = "unix".toList then some (.unix c.controlSocket)
  else none

/-! ## The calls and the tool -/

/-- The calls of the client, `admin/_api.py:64-126`. -/
inductive Call where
  | add (ticket : Json)
  | get (id : Str)
  | mod (id : Str) (changes : Json)
  | del (id : Str)
  | startProfile
  | stopProfile

/-- One call of the client and what it returns, `admin/_api.py:64-126`. -/
def call (cfg : Cfg) (fmt : Json → Str) (net : Net) (w : World) :
    Call → Except AErr (Option Json) × World
  | .add t => let (r, w) := addTicket cfg fmt net t w; (r.map fun _ => none, w)
  | .get id => let (r, w) := showTicket cfg net id w; (r.map some, w)
  | .mod id ch => let (r, w) := modTicket cfg net id ch w; (r.map fun _ => none, w)
  | .del id => let (r, w) := delTicket cfg net id w; (r.map fun _ => none, w)
  | .startProfile => let (r, w) := profile cfg net true w; (r.map fun _ => none, w)
  | .stopProfile => let (r, w) := profile cfg net false w; (r.map fun _ => none, w)

/-- The commands of `ovirt-imageioctl`, `admin/tool.py:17-77`; `addTicket` has the parsed content of
the file.  Parsing of the command line (`argparse`) is not modelled. -/
inductive Cmd where
  | addTicket (ticket : Json)
  | showTicket (id : Str)
  | modTicket (id : Str) (timeout : Option Int)
  | delTicket (id : Str)
  | startProfile
  | stopProfile

/-- `admin/tool.py:121` the changes sent by `mod-ticket`: without `--timeout` the value is
`None`. -/
def changes (timeout : Option Int) : Json :=
  .obj [(lit "timeout", match timeout with
    | none => .null
    | some t => .int t)]

/-- `admin/tool.py:102-140` the functions of the commands. -/
def Cmd.call : Cmd → Call
  | .addTicket t => .add t
  | .showTicket id => .get id
  | .modTicket id t => .mod id (changes t)
  | .delTicket id => .del id
  | .startProfile => .startProfile
  | .stopProfile => .stopProfile

/-- How `main` ends (`admin/tool.py:84-89`): with what was printed, with an error reported in one
line (`admin.Error`), or with a traceback. -/
inductive Exit where
  | ok (printed : Option Json)
  | error
  | traceback

/-- `admin/tool.py:84-89`; every command uses a new client (for example `admin/tool.py:107`). -/
def main (cfg : Cfg) (fmt : Json → Str) (net : Net) (cmd : Cmd) (s : Server) : Exit × Server :=
  match Admin.call cfg fmt net ⟨s, false⟩ cmd.call with
  | (.ok p, w) => (.ok p, w.srv)
  | (.error .client, w) => (.error, w.srv)
  | (.error (.server _), w) => (.error, w.srv)
  | (.error _, w) => (.traceback, w.srv)

/-- The exit code of the process, `admin/tool.py:89`; python exits with 1 after a traceback. -/
def Exit.code : Exit → Nat
  | .ok _ => 0
  | _ => 1

end Imageio.Admin
