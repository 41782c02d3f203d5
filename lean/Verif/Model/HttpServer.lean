import Verif.Model.HttpParse

/-!
The HTTP server: request bodies, responses, the router and the keep-alive loop.

A handler is an arbitrary program (`Prog`) that talks to the request and response
objects: it may read the body in any way, look at the content length, write, ask to
close the connection, catch or raise exceptions.  The socket is a parameter: any
fragmentation of the incoming data, and failures of any read or write.
-/
namespace Imageio.Http

/-- Exceptions of the server code.  `http.py:52-60`, `802-815`. -/
inductive HErr where
  /-- `http.Error(code)`, `http.py:52-60` -/
  | http (code : Nat)
  /-- `OSError` / `socket.error` from the connection -/
  | socket
  /-- any other exception -/
  | other
deriving DecidableEq, Repr

/-- What the socket does for one read.  A read that fails may have consumed some of the
requested bytes: `io.BufferedReader` drops the data that it received before the error.
The socket below `http.py:440`, `453`. -/
inductive Recv where
  /-- `readinto` gets at most `k + 1` bytes (at least one byte, unless the stream ended) -/
  | got (k : Nat)
  /-- the read raises after (at most) `k` of the requested bytes were consumed -/
  | fails (k : Nat)
deriving DecidableEq, Repr

/-- `con.rfile.read(n)`: `io.BufferedReader.read(n)` returns `n` bytes, less only at the
end of the stream.  Called in `http.py:440`. -/
def rfileRead (n : Nat) (o : Recv) (rest : Bytes) : Except HErr Bytes × Bytes :=
  match o with
  | .got _ => (.ok (rest.take n), rest.drop n)
  | .fails k => (.error .socket, rest.drop (min n k))

/-- `con.rfile.readinto(view)` with `len(view) = n`: may return less than `n` bytes, and
returns 0 only for an empty view or at the end of the stream.  Called in `http.py:453`. -/
def rfileReadinto (n : Nat) (o : Recv) (rest : Bytes) : Except HErr Bytes × Bytes :=
  match o with
  | .got k => (.ok (rest.take (min n (k + 1))), rest.drop (min n (k + 1)))
  | .fails k => (.error .socket, rest.drop (min n k))

/-- `http.Request`, `http.py:283-298`: the Content-Length header and the two lazy
attributes, `none` for `_UNKNOWN`. -/
structure Req where
  header : Option Str
  contentLength : Option (Option Nat) := none
  length : Option (Option Nat) := none
deriving DecidableEq, Repr

/-- `http.py:369-396` `Request.content_length`. -/
def Req.getContentLength (r : Req) : Except HErr (Option Nat) × Req :=
  match r.contentLength with
  | some v => (.ok v, r)
  | none =>
    match r.header with
    | none => (.ok none, { r with contentLength := some none })
    | some value =>
      match pyInt value with
      | none => (.error (.http 400), { r with contentLength := some none })
      | some v =>
        if v < 0 then (.error (.http 400), { r with contentLength := some none })
        else (.ok (some v.toNat), { r with contentLength := some (some v.toNat) })

/-- `http.py:398-406` `Request.length`. -/
def Req.getLength (r : Req) : Except HErr (Option Nat) × Req :=
  match r.length with
  | some v => (.ok v, r)
  | none =>
    match r.getContentLength with
    | (.ok v, r) => (.ok v, { r with length := some v })
    | (.error e, r) => (.error e, r)

/-- A connection while a request is handled.  `rest` are the bytes that the client sends
after the header of the current request.  `sent` are the status codes of the response
headers written to the connection.  `http.py:152-206`, `283-298`, `468-475`. -/
structure Conn where
  req : Req
  rest : Bytes
  status : Nat := 200
  /-- the value of the content-length header set by the handler -/
  hdrLength : Int := 0
  /-- the value of the content-range header set by the handler -/
  hdrRange : Option Str := none
  started : Bool := false
  closing : Bool := false
  sent : List Nat := []
  /-- the bytes written after the response header -/
  body : Bytes := []
  /-- what the socket does for the following reads; when the list is exhausted reads
  are complete -/
  recvs : List Recv := []
  /-- which of the following writes succeed; when the list is exhausted writes succeed -/
  writes : List Bool := []
deriving DecidableEq, Repr

/-- What the socket does for the next read, `http.py:440`, `453`. -/
def Conn.recv (c : Conn) (n : Nat) : Recv := c.recvs.headD (.got n)

/-- `http.py:437-438` the size of a read: everything, or at most the unread length. -/
def readSize (n : Option Nat) (length : Nat) : Nat :=
  match n with
  | none => length
  | some n => if n > length then length else n

/-- `http.py:432-443` `Request.read`.  Simplification: `n` is not negative (no caller
passes a size). -/
def Conn.read (n : Option Nat) (c : Conn) : Except HErr Bytes × Conn :=
  match c.req.getLength with
  | (.error e, req) => (.error e, { c with req })
  | (.ok none, req) => (.ok [], { c with req })
  | (.ok (some length), req) =>
    if length = 0 then (.ok [], { c with req })
    else
      let n := readSize n length
      match rfileRead n (c.recv n) c.rest with
      | (.ok data, rest) =>
        (.ok data, { c with req := { req with length := some (some (length - data.length)) },
                            rest, recvs := c.recvs.tail })
      | (.error e, rest) => (.error e, { c with req, rest, recvs := c.recvs.tail })

/-- `http.py:445-456` `Request.readinto` with a buffer of `n` bytes; returns the bytes
stored in the buffer. -/
def Conn.readinto (n : Nat) (c : Conn) : Except HErr Bytes × Conn :=
  match c.req.getLength with
  | (.error e, req) => (.error e, { c with req })
  | (.ok none, req) => (.ok [], { c with req })
  | (.ok (some length), req) =>
    if length = 0 then (.ok [], { c with req })
    else
      match rfileReadinto (min n length) (c.recv n) c.rest with
      | (.ok data, rest) =>
        (.ok data, { c with req := { req with length := some (some (length - data.length)) },
                            rest, recvs := c.recvs.tail })
      | (.error e, rest) => (.error e, { c with req, rest, recvs := c.recvs.tail })

/-- `http.py:534-539` `Response.close_connection`. -/
def Conn.close (c : Conn) : Conn := { c with closing := true }

/-- `http.py:541-564` `Response.write`: the first call sends the header with the current
status code.  Simplification: a failing write sends nothing. -/
def Conn.write (data : Bytes) (c : Conn) : Except HErr Unit × Conn :=
  let ok := c.writes.headD true
  let c' := { c with started := true, writes := c.writes.tail }
  if ok then
    (.ok (), { c' with sent := if c.started then c.sent else c.sent ++ [c.status],
                       body := c.body ++ data })
  else (.error .socket, c')

/-- `http.py:498-519` `Response.send_error`; the error text is not modelled. -/
def Conn.sendError (code : Nat) (c : Conn) : Except HErr Unit × Conn :=
  if c.started then (.error .other, c)
  else Conn.write [] { c with status := code }

/-- A request handler: any program using the request and response.  Reads deliver their
data or exception to the continuation, so handlers may catch exceptions.  The interface is `http.py:283-598`. -/
inductive Prog where
  | ret
  | raise (e : HErr)
  | contentLength (k : Except HErr (Option Nat) → Prog)
  | read (n : Option Nat) (k : Except HErr Bytes → Prog)
  | readinto (n : Nat) (k : Except HErr Bytes → Prog)
  | setStatus (code : Nat) (k : Prog)
  | write (data : Bytes) (k : Except HErr Unit → Prog)
  | close (k : Prog)

/-- Run a handler.  Called in `http.py:841`. -/
def Prog.run : Prog → Conn → Except HErr Unit × Conn
  | .ret, c => (.ok (), c)
  | .raise e, c => (.error e, c)
  | .contentLength k, c =>
    let (r, req) := c.req.getContentLength
    (k r).run { c with req }
  | .read n k, c => let (r, c) := c.read n; (k r).run c
  | .readinto n k, c => let (r, c) := c.readinto n; (k r).run c
  | .setStatus code k, c => k.run { c with status := code }
  | .write data k, c => let (r, c) := c.write data; (k r).run c
  | .close k, c => k.run c.close

/-- A route: the match of the pattern (the groups), and the methods of the handler.  `http.py:789-791`, `832-841`. -/
structure Route where
  pattern : Str → Option (List Str)
  handler : Str → Option (List Str → Prog)

/-- `http.py:786-787` `Router.ALLOWED_METHODS`. -/
def allowedMethods : List Str :=
  ["GET", "PUT", "PATCH", "POST", "DELETE", "OPTIONS", "HEAD"].map String.toList

/-- `http.py:831-843` the loop over the routes. -/
def findRoute (method path : Str) : List Route → Prog
  | [] => .raise (.http 404)
  | r :: rs =>
    match r.pattern path with
    | some groups =>
      match r.handler method with
      | none => .raise (.http 405)
      | some f => f groups
    | none => findRoute method path rs

/-- `http.py:826-843` `Router.dispatch`. -/
def dispatch (routes : List Route) (method path : Str) : Prog :=
  if method ∈ allowedMethods then findRoute method path routes
  else .raise (.http 405)

/-- `http.py:810-814` the status sent for an exception: internal errors are not exposed. -/
def errorCode : HErr → Nat
  | .http code => code
  | _ => 500

/-- `http.py:802-824` the error path of `Router.__call__`.  `lost` is the value of
`req.connection_lost()`.  The result is the exception escaping from the router. -/
def handleError (lost : Bool) (e : HErr) (c : Conn) : Except HErr Unit × Conn :=
  if e = .socket ∧ lost then (.ok (), c.close)
  else if c.started then (.ok (), c.close)
  else
    match c.req.getLength with
    | (.error e', req) => (.error e', { c with req })
    | (.ok len, req) =>
      let c := { c with req }
      let c := match len with
        | some n => if n > 0 then c.close else c
        | none => c
      c.sendError (errorCode e)

/-- `http.py:793-824` `Router.__call__`, after `dispatch` returned or raised `x`. -/
def routerEnd (lost : Bool) (x : Except HErr Unit × Conn) : Except HErr Unit × Conn :=
  match x with
  | (.ok (), c) =>
    if c.started then (.ok (), c)
    else
      match c.write [] with
      | (.ok (), c) => (.ok (), c)
      | (.error e, c) => handleError lost e c
  | (.error e, c) => handleError lost e c

/-- `http.py:235-245` the end of `Connection.handle_one_request`: an exception escaping
from the application closes the connection, either here or because it ends the
connection thread. -/
def finish (lost : Bool) (x : Except HErr Unit × Conn) : Conn :=
  match routerEnd lost x with
  | (.ok (), c) => c
  | (.error _, c) => c.close

/-- `http.py:208-245` `Connection.handle_one_request`, after the request was parsed, for
the handler `p`. -/
def handleRequest (lost : Bool) (p : Prog) (c : Conn) : Conn := finish lost (p.run c)

/-! ## The route tables -/

/-- Greedy `.*` followed by the literal `lit`, at the start of a string: the text matched
by `.*`.  The regular expression is not anchored at the end.  `http.py:790-791`, `services.py:78-85`. -/
def greedyUntil (lit : Str) : Str → Option Str
  | [] => if lit = [] then some [] else none
  | c :: cs =>
    match (if c = '\n' then none else greedyUntil lit cs) with
    | some p => some (c :: p)
    | none => if (dropLit lit (c :: cs)).isSome then some [] else none

/-- Match of `prefix(.*)suffix`.  `http.py:833`, `services.py:79-82`. -/
def matchAround (pre suf : String) (path : Str) : Option (List Str) :=
  match dropLit pre.toList path with
  | none => none
  | some r => (greedyUntil suf.toList r).map fun g => [g]

/-- Match of a literal pattern, no groups.  `http.py:833`, `services.py:83-84`. -/
def matchLit (pre : String) (path : Str) : Option (List Str) :=
  (dropLit pre.toList path).map fun _ => []

/-- The resources of the services.  `services.py:78-85`, `123-129`, `170-173`. -/
inductive Resource where
  | extents | algorithms | checksum | images | info | tickets | profile
deriving DecidableEq, Repr

/-- `services.py:78-85` the patterns of the remote service. -/
def remotePatterns : List ((Str → Option (List Str)) × Resource) :=
  [(matchAround "/images/" "/extents", .extents),
   (matchAround "/images/" "/checksum/algorithms", .algorithms),
   (matchAround "/images/" "/checksum", .checksum),
   (matchAround "/images/" "", .images),
   (matchLit "/info/", .info)]

/-- `services.py:123-129` the patterns of the local service. -/
def localPatterns : List ((Str → Option (List Str)) × Resource) :=
  [(matchAround "/images/" "/extents", .extents),
   (matchAround "/images/" "/checksum/algorithms", .algorithms),
   (matchAround "/images/" "/checksum", .checksum),
   (matchAround "/images/" "", .images)]

/-- `services.py:170-173` the patterns of the control service. -/
def controlPatterns : List ((Str → Option (List Str)) × Resource) :=
  [(matchAround "/tickets/" "", .tickets),
   (matchLit "/profile/", .profile)]

/-- The methods defined by the handler of each resource: `handlers/extents.py:23`,
`handlers/checksum.py:34,93`, `handlers/images.py:30,80,150,223`, `handlers/info.py:18`,
`handlers/tickets.py:23,37,57,81`, `handlers/profile.py:28,43`. -/
def resourceMethods : Resource → List String
  | .extents => ["GET"]
  | .algorithms => ["GET"]
  | .checksum => ["GET"]
  | .images => ["PUT", "GET", "PATCH", "OPTIONS"]
  | .info => ["GET"]
  | .tickets => ["GET", "PUT", "PATCH", "DELETE"]
  | .profile => ["GET", "POST"]

/-- The route table of a service, given the handlers.  `http.py:789-791`, `832-841`. -/
def routesOf (ps : List ((Str → Option (List Str)) × Resource))
    (h : Resource → Str → List Str → Prog) : List Route :=
  ps.map fun (p, r) =>
    { pattern := p
      handler := fun m =>
        if m ∈ (resourceMethods r).map String.toList then some (h r m) else none }

end Imageio.Http
