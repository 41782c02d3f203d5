import Verif.Model.Tickets
import Verif.Model.Images

/-!
Opening, cloning and closing an HTTP backend, `backends/http.py:25-137,338-428,475-506` and
`527-546`, with the connection classes `backends/http.py:596-651` and the parts of `http.client`
that open and close sockets.

The environment decides how every attempt to connect ends, and how every request is answered.
The open sockets of the process are part of the state, so that a leak is visible.
-/
namespace Imageio.HttpConnect
open Imageio.Http Imageio.Images

/-- How TLS verifies the server, `backends/http.py:365-373`. -/
structure Tls where
  cafile : Option Str
  checkHostname : Bool
  certRequired : Bool
deriving DecidableEq, Repr

/-- The class of a connection: `HTTPConnection` and `HTTPSConnection` with the netloc, or
`UnixHTTPConnection` with its path (`none`: the path is not a string).
`backends/http.py:622-641`. -/
inductive Kind where
  | tcp (netloc : Str)
  | unix (path : Option Str)
deriving DecidableEq, Repr

/-- A socket of the process.  `timeout` is the value of `settimeout`, `isLocal` tells if both ends
have the same address (`backends/http.py:611`).  `backends/http.py:387-388`, `400-401`, `643-647`. -/
structure Sock where
  id : Nat
  kind : Kind
  tls : Option Tls
  timeout : Nat
  connected : Bool
  isLocal : Bool
deriving DecidableEq, Repr

/-- The outcome of `connect()`: refused, the TLS handshake fails, or connected (and if both ends
have the same address).  `backends/http.py:387`, `400`. -/
inductive Attempt where
  | refused
  | tlsFailed
  | ok (isLocal : Bool)
deriving DecidableEq, Repr

/-- The outcome of a request: an error (`closes`: a `ConnectionError`, on which `http.client` closes
the connection; for other errors, for example a timeout, it does not), or a response (`closes`: with
`Connection: close`).  `backends/http.py:476-478`. -/
inductive Answer where
  | lost (closes : Bool)
  | reply (status : Nat) (body : Bytes) (length : Nat) (closes : Bool)
deriving DecidableEq, Repr

/-- The sockets of the process, and what the environment does next.  `backends/http.py:50-593`. -/
structure World where
  opened : List Sock
  next : Nat
  attempts : List Attempt
  answers : List Answer

/-- A connection object of `http.client`.  `busy` is set when a request was sent but its response
was not read, then the next request raises `CannotSendRequest`.  `backends/http.py:375-406`. -/
structure Con where
  kind : Kind
  tls : Option Tls
  timeout : Nat
  sock : Option Sock
  busy : Bool
deriving DecidableEq, Repr

/-- `con.close()`, for example `backends/http.py:390`. -/
def Con.close (c : Con) (w : World) : Con × World :=
  match c.sock with
  | none => ({ c with busy := false }, w)
  | some s => ({ c with sock := none, busy := false }, { w with opened := w.opened.erase s })

/-- A new socket of a connection, `backends/http.py:387`, `644-646`. -/
def Con.newSock (c : Con) (w : World) (connected isLocal : Bool) : Sock :=
  { id := w.next, kind := c.kind, tls := if connected then c.tls else none, timeout := c.timeout,
    connected, isLocal }

/-- The socket of the connection is kept in the connection, `backends/http.py:644`. -/
def Con.attach (c : Con) (w : World) (s : Sock) : Con × World :=
  ({ c with sock := some s },
    { w with opened := w.opened ++ [s], next := w.next + 1, attempts := w.attempts.tail })

/-- `con.connect()` of a connection without socket, `backends/http.py:387`, `400`, `643-647`.
`socket.create_connection` closes its socket if it fails; `HTTPSConnection.connect` and
`UnixHTTPConnection.connect` leave it in the connection. -/
def Con.connect (c : Con) (w : World) : Except Err Unit × Con × World :=
  match c.kind with
  | .tcp _ =>
    match w.attempts.headD (.ok false) with
    | .refused => (.error (.os "ECONNREFUSED"), c, { w with attempts := w.attempts.tail })
    | .tlsFailed =>
      if c.tls.isSome then (.error (.os "SSLError"), c.attach w (c.newSock w false false))
      else (.ok (), c.attach w (c.newSock w true false))
    | .ok l => (.ok (), c.attach w (c.newSock w true l))
  | .unix none => (.error (.exception "TypeError"), c.attach w (c.newSock w false false))
  | .unix (some _) =>
    match w.attempts.headD (.ok false) with
    | .ok _ => (.ok (), c.attach w (c.newSock w true false))
    | _ => (.error (.os "ECONNREFUSED"), c.attach w (c.newSock w false false))

/-- `con.sock.settimeout(t)`, `backends/http.py:388`, `401`. -/
def Con.setTimeout (c : Con) (t : Nat) (w : World) : Con × World :=
  match c.sock with
  | none => (c, w)
  | some s =>
    ({ c with sock := some { s with timeout := t } },
      { w with opened := (w.opened.erase s) ++ [{ s with timeout := t }] })

/-- The url and the options of a backend, `backends/http.py:52-59`. -/
structure Opts where
  https : Bool
  netloc : Str
  cafile : Option Str
  secure : Bool
  connectTimeout : Nat
  readTimeout : Nat
  /-- `ssl.create_default_context` can load the CA certificates -/
  cafileOk : Bool
deriving DecidableEq, Repr

/-- `backends/http.py:365-373` `_create_ssl_context`; the default context checks certificates and
host names. -/
def sslContext (o : Opts) : Except Err Tls :=
  if !o.cafileOk then .error (.os "ENOENT")
  else
    let context : Tls := { cafile := o.cafile, checkHostname := true, certRequired := true }
    if !o.secure then .ok { context with checkHostname := false, certRequired := false }
    else .ok context

/-- `backends/http.py:386-391`, `399-404` connect a new connection, and close it if it fails. -/
def establish (o : Opts) (c : Con) (w : World) : Except Err Con × World :=
  match c.connect w with
  | (.error e, c, w) => (.error e, (c.close w).2)
  | (.ok (), c, w) =>
    let (c, w) := c.setTimeout o.readTimeout w
    (.ok c, w)

/-- `backends/http.py:375-393` `_create_tcp_connection`. -/
def createTcp (o : Opts) (context : Option Tls) (w : World) : Except Err Con × World :=
  establish o
    { kind := .tcp o.netloc, tls := context, timeout := o.connectTimeout, sock := none, busy := false }
    w

/-- `backends/http.py:395-406` `_create_unix_connection`. -/
def createUnix (o : Opts) (path : Option Str) (w : World) : Except Err Con × World :=
  establish o
    { kind := .unix path, tls := none, timeout := o.connectTimeout, sock := none, busy := false } w

/-- `con.request()` and `con.getresponse()`, with reading the response, for example
`backends/http.py:476-478`: the status, the body and the content-length.  A connection without a
socket is connected first. -/
def Con.request (c : Con) (w : World) : Except Err (Nat × Bytes × Nat) × Con × World :=
  if c.busy then (.error (.exception "CannotSendRequest"), c, w)
  else
    match (if c.sock.isNone then c.connect w else (.ok (), c, w)) with
    | (.error e, c, w) => (.error e, { c with busy := true }, w)
    | (.ok (), c, w) =>
      if (c.sock.map (·.connected)).getD false = false then
        (.error (.os "ENOTCONN"), { c with busy := true }, w)
      else
        let w' := { w with answers := w.answers.tail }
        match w.answers.headD (.lost true) with
        | .lost true => (.error (.os "ECONNRESET"), c.close w')
        | .lost false => (.error (.os "ETIMEDOUT"), { c with busy := true }, w')
        | .reply status body length closes =>
          if closes then (.ok (status, body, length), c.close w')
          else (.ok (status, body, length), c, w')

/-- `bool(value)` of a JSON value, `backends/http.py:121-123`, `413`.  Simplified: a float is true. -/
def truthy : Json → Bool
  | .null => false
  | .bool b => b
  | .int n => n ≠ 0
  | .float => true
  | .str s => s ≠ []
  | .arr l => !l.isEmpty
  | .obj l => !l.isEmpty

/-- `options.get(name, default)`, `backends/http.py:121-133`: the last of equal names wins. -/
def getOption (options : List (Str × Json)) (name : String) (default : Json) : Json :=
  ((options.reverse.find? fun f => f.1 = name.toList).map (·.2)).getD default

/-- `for feature in options.pop("features", [])`, `backends/http.py:503-504`: what is iterated; the
keys that are not strings are not looked up later (`none`), lists and objects are not hashable. -/
def iterate : Json → Except Err (List (Option Str))
  | .arr l => l.mapM fun x =>
    match x with
    | .str s => .ok (some s)
    | .arr _ | .obj _ => .error (.exception "TypeError")
    | _ => .ok none
  | .str s => .ok (s.map fun c => some [c])
  | .obj l => .ok (l.map fun f => some f.1)
  | _ => .error (.exception "TypeError")

/-- `backends/http.py:492-506` the options in the body of the response. -/
def parseOptions (loads : Bytes → Option Json) (body : Bytes) : Except Err (List (Str × Json)) :=
  match loads body with
  | none => .ok []
  | some (.obj fields) =>
    match iterate (getOption fields "features" (.arr [])) with
    | .error e => .error e
    | .ok names =>
      .ok (fields.filter (fun f => f.1 ≠ "features".toList) ++
        names.filterMap fun n => n.map fun n => (n, .bool true))
  | some (.arr _) => .error (.exception "TypeError")
  | some _ => .error (.exception "AttributeError")

/-- `backends/http.py:475-506` `_options`. -/
def Con.options (loads : Bytes → Option Json) (c : Con) (w : World) :
    Except Err (List (Str × Json)) × Con × World :=
  match c.request w with
  | (.error e, c, w) => (.error e, c, w)
  | (.ok (status, body, _), c, w) =>
    if status = 405 then (.ok [], c, w)
    else if status = 204 then (.ok [], c, w)
    else if status ≠ 200 then (.error (.exception "http.Error"), c, w)
    else (parseOptions loads body, c, w)

/-- `backends/http.py:601-611` `is_local`. -/
def Con.isLocal (c : Con) (w : World) : Except Err Bool × Con × World :=
  match (if c.sock.isNone then c.connect w else (.ok (), c, w)) with
  | (.error e, c, w) => (.error e, c, w)
  | (.ok (), c, w) => (.ok ((c.sock.map (·.isLocal)).getD false), c, w)

/-- The path of a unix socket, `backends/http.py:647`. -/
def pathOf : Json → Option Str
  | .str s => some s
  | _ => none

/-- `backends/http.py:408-422` `_optimize_connection`. -/
def Con.optimize (o : Opts) (unixSocket : Json) (c : Con) (w : World) :
    Except Err Unit × Con × World :=
  match c.isLocal w with
  | (.error e, c, w) => (.error e, c, w)
  | (.ok l, c, w) =>
    if !(l && truthy unixSocket) then (.ok (), c, w)
    else
      match createUnix o (pathOf unixSocket) w with
      | (.error _, w) => (.ok (), c, w)
      | (.ok con, w) =>
        let (_, w) := c.close w
        (.ok (), con, w)

/-- What the client knows about the server, `backends/http.py:68-72`. -/
structure Caps where
  canExtents : Json := .bool false
  canZero : Json := .bool false
  canFlush : Json := .bool false
  maxReaders : Json := .int 1
  maxWriters : Json := .int 1

/-- `backends/http.py:121-131` the capabilities from the options. -/
def capsOf (options : List (Str × Json)) : Caps :=
  { canExtents := getOption options "extents" (.bool false)
    canZero := getOption options "zero" (.bool false)
    canFlush := getOption options "flush" (.bool false)
    maxReaders := getOption options "max_readers" (.int 1)
    maxWriters := getOption options "max_writers" (.int 1) }

/-- The attributes of a backend, `backends/http.py:54-72`; `con` is `none` when it is `CLOSED`.
The extents are opaque here. -/
structure HttpBackend (ε : Type) where
  opts : Opts
  context : Option Tls
  con : Option Con
  caps : Caps
  position : Nat
  size : Option Nat
  extents : List (Str × ε)

/-- `backends/http.py:52-75` `Backend.__init__` with `connect=False`. -/
def HttpBackend.new (ε : Type) (o : Opts) : HttpBackend ε :=
  { opts := o, context := none, con := none, caps := {}, position := 0, size := none, extents := [] }

/-- `backends/http.py:118-133` what is done with a new connection. -/
def negotiate (o : Opts) (loads : Bytes → Option Json) (c : Con) (w : World) :
    Except Err Caps × Con × World :=
  match c.options loads w with
  | (.error e, c, w) => (.error e, c, w)
  | (.ok options, c, w) =>
    match c.optimize o (getOption options "unix_socket" .null) w with
    | (.error e, c, w) => (.error e, c, w)
    | (.ok (), c, w) => (.ok (capsOf options), c, w)

/-- `backends/http.py:25-47,74-75,114-137` `open` and `_connect`. -/
def openBackend (ε : Type) (o : Opts) (loads : Bytes → Option Json) (w : World) :
    Except Err (HttpBackend ε) × World :=
  match (if o.https then (sslContext o).map some else .ok none) with
  | .error e => (.error e, w)
  | .ok context =>
    match createTcp o context w with
    | (.error e, w) => (.error e, w)
    | (.ok c, w) =>
      match negotiate o loads c w with
      | (.error e, c, w) => (.error e, (c.close w).2)
      | (.ok caps, c, w) => (.ok { HttpBackend.new ε o with context, con := some c, caps }, w)

/-- `backends/http.py:424-428` `_clone_connection`. -/
def HttpBackend.cloneCon {ε : Type} (b : HttpBackend ε) (w : World) : Except Err Con × World :=
  match b.con.map (·.kind) with
  | some (Kind.unix path) => createUnix b.opts path w
  | _ => createTcp b.opts b.context w

/-- `backends/http.py:77-112` `clone`. -/
def HttpBackend.clone {ε : Type} (b : HttpBackend ε) (w : World) : Except Err (HttpBackend ε) × World :=
  match b.cloneCon w with
  | (.error e, w) => (.error e, w)
  | (.ok c, w) =>
    (.ok { HttpBackend.new ε b.opts with
      con := some c, context := b.context, caps := b.caps, size := b.size, extents := b.extents }, w)

/-- `backends/http.py:338-343` `close`. -/
def HttpBackend.close {ε : Type} (b : HttpBackend ε) (w : World) : HttpBackend ε × World :=
  match b.con with
  | none => (b, w)
  | some c => ({ b with con := none }, (c.close w).2)

/-- A request of a backend, for example `backends/http.py:463-473`; after `close` it raises
`ValueError` (`backends/common.py:6-10`). -/
def HttpBackend.request {ε : Type} (b : HttpBackend ε) (w : World) :
    Except Err (Nat × Bytes × Nat) × HttpBackend ε × World :=
  match b.con with
  | none => (.error (.exception "ValueError"), b, w)
  | some c =>
    let (r, c, w) := c.request w
    (r, { b with con := some c }, w)

/-- `backends/http.py:527-546` `_emulate_head`: get the size, and close the connection. -/
def HttpBackend.emulateHead {ε : Type} (b : HttpBackend ε) (w : World) :
    Except Err Nat × HttpBackend ε × World :=
  match b.con with
  | none => (.error (.exception "ValueError"), b, w)
  | some c =>
    match c.request w with
    | (.error e, c, w) => (.error e, { b with con := some c }, w)
    | (.ok (status, _, length), c, w) =>
      if status ≠ 200 then (.error (.exception "http.Error"), { b with con := some c }, w)
      else
        let (c, w) := c.close w
        (.ok length, { b with con := some c }, w)

/-- `isinstance(e, OSError)`, `client/_api.py:519`. -/
def isOSError : Err → Bool
  | .os _ => true
  | _ => false

/-- `client/_api.py:514-526` `_open_http`: the transfer url, and then the proxy url. -/
def openHttp (ε : Type) (transfer : Opts) (proxy : Option Opts) (loads : Bytes → Option Json)
    (w : World) : Except Err (HttpBackend ε) × World :=
  match openBackend ε transfer loads w with
  | (.ok b, w) => (.ok b, w)
  | (.error e, w) =>
    if !isOSError e then (.error e, w)
    else
      match proxy with
      | none => (.error e, w)
      | some p => openBackend ε p loads w

/-- `handlers/images.py:227-267` the document of the answer to OPTIONS (see `Tickets.options`). -/
def capabilitiesJson (c : Tickets.Capabilities) : Json :=
  .obj ((c.unixSocket.map fun s => (lit "unix_socket", Json.str s.toList)).toList ++
    (c.features.map fun fs => (lit "features", Json.arr (fs.map fun f => .str f.toList))).toList ++
    (match c.limits with
     | none => []
     | some (r, w) => [(lit "max_readers", .int r), (lit "max_writers", .int w)]))

end Imageio.HttpConnect
