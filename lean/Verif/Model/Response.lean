import Verif.Model.Images

/-!
The bytes of responses: `http.Response`, `http.Headers`, the error path of the router, and the CORS
decorator.

A run of a handler is the list of what it does with the response (`Act`), and how it ends; the
requests, and the other things a handler does, are in `Model/HttpServer.lean` and
`Model/Images.lean`.  Writing to the socket may fail at any byte.
-/
namespace Imageio.Response
open Imageio.Http Imageio.Images

/-- The dict of `http.Headers`, in the order of insertion; the values are formatted when they are
written (`http.py:594`), here when they are set.  `http.py:614-625`. -/
abbrev Headers := List (Str × Str)

/-- `str.lower()`; simplification: for ASCII, all names in the code are ASCII.  `http.py:625`. -/
def lower (s : Str) : Str := s.map Char.toLower

/-- `dict.__setitem__`: a name keeps its position.  Called in `http.py:625`. -/
def Headers.put : Headers → Str → Str → Headers
  | [], n, v => [(n, v)]
  | (n', v') :: t, n, v => if n' = n then (n, v) :: t else (n', v') :: Headers.put t n v

/-- `http.py:619-625` `Headers.__setitem__`. -/
def Headers.set (h : Headers) (name value : Str) : Headers := h.put (lower name) value

/-- `str.encode("utf-8")`; a python string may have lone surrogates, which cannot be encoded, here not.
Called in `http.py:508`, `529`, `594`. -/
def encode (s : Str) : Bytes := s.flatMap String.utf8EncodeChar

/-- What the connection contributes to a response: the reason phrases, the version of the server and
the date, `http.py:571-586`.  They are encoded to latin-1; the same as `encode` for ASCII. -/
structure Env where
  reason : Nat → Option Str
  version : Str
  date : Str

/-- Exceptions of a handler, `http.py:52-60`: `http.Error`, `socket.error`, or another exception. -/
inductive Failure where
  | http (code : Nat) (message : Str) (contentRange : Option Str)
  | socket
  | other
deriving DecidableEq, Repr

/-- `http.Response`, `http.py:468-474`, and the connection: the bytes sent (`out`), `close_connection`,
and the outcome of the next writes: `some k` fails after at most `k` bytes were sent.  When the
list is exhausted writes succeed. -/
structure Resp where
  status : Nat := 200
  headers : Headers := [(lit "content-length", lit "0")]
  started : Bool := false
  closing : Bool := false
  out : Bytes := []
  writes : List (Option Nat) := []

/-- `con.wfile.write(data)`, `sendall` of the socket.  Called in `http.py:495`, `558-561`. -/
def Resp.send (data : Bytes) (r : Resp) : Except Failure Unit × Resp :=
  match r.writes.headD none with
  | none => (.ok (), { r with out := r.out ++ data, writes := r.writes.tail })
  | some k => (.error .socket, { r with out := r.out ++ data.take k, writes := r.writes.tail })

/-- The end of a line, `http.py:577-586`, `594`, `597`. -/
def crlf : Bytes := [13, 10]

/-- `http.py:588-594` one of the headers set by the handler. -/
def field (f : Str × Str) : Bytes := encode (f.1 ++ lit ": " ++ f.2) ++ crlf

/-- `http.py:566-597` `Response._write_header`. -/
def Resp.header (env : Env) (r : Resp) : Bytes :=
  encode (lit "HTTP/1.1 " ++ fmtNat r.status ++ lit " " ++ (env.reason r.status).getD []) ++ crlf ++
  (field (lit "server", env.version) ++ (field (lit "date", env.date) ++
  (r.headers.flatMap field ++ crlf)))

/-- `http.py:541-564` `Response.write`. -/
def Resp.write (env : Env) (data : Bytes) (r : Resp) : Except Failure Unit × Resp :=
  if r.started then r.send data
  else
    let r := { r with started := true }
    if data.length < 4096 then r.send (r.header env ++ data)
    else
      match r.send (r.header env) with
      | (.error e, r) => (.error e, r)
      | (.ok (), r) => r.send data

/-- `http.py:483-496` `Response.send_info`. -/
def Resp.sendInfo (env : Env) (code : Nat) (r : Resp) : Except Failure Unit × Resp :=
  if r.started then (.error .other, r)
  else
    match env.reason code with
    | none => (.error .other, r)
    | some msg => r.send (encode (lit "HTTP/1.1 " ++ fmtNat code ++ lit " " ++ msg) ++ (crlf ++ crlf))

/-- `http.py:534-539` `Response.close_connection`. -/
def Resp.close (r : Resp) : Resp :=
  { r with headers := r.headers.set (lit "connection") (lit "close"), closing := true }

/-- `http.py:498-519` `Response.send_error`. -/
def Resp.sendError (env : Env) (code : Nat) (message : Str) (contentRange : Option Str) (r : Resp) :
    Except Failure Unit × Resp :=
  if r.started then (.error .other, r)
  else
    let body := encode message ++ [10]
    let h := (r.headers.set (lit "content-type") (lit "text/plain; charset=UTF-8")).set
      (lit "content-length") (fmtNat body.length)
    let h := match contentRange with
      | none => h
      | some v => h.set (lit "content-range") v
    Resp.write env body { r with status := code, headers := h }

/-- `http.py:521-532` `Response.send_json`; `text` is the result of `json.dumps`. -/
def Resp.sendJson (env : Env) (text : Str) (r : Resp) : Except Failure Unit × Resp :=
  if r.started then (.error .other, r)
  else
    let body := encode text ++ [10]
    let h := (r.headers.set (lit "content-length") (fmtNat body.length)).set
      (lit "content-type") (lit "application/json")
    Resp.write env body { r with status := 200, headers := h }

/-- What a handler does with the response, `http.py:468-539`; no handler calls `send_info`. -/
inductive Act where
  | status (code : Nat)
  | header (name value : Str)
  | close
  | json (text : Str)
  | write (data : Bytes)
deriving DecidableEq, Repr

/-- One of the actions, `http.py:468-564`. -/
def Act.run (env : Env) (r : Resp) : Act → Except Failure Unit × Resp
  | .status code => (.ok (), { r with status := code })
  | .header name value => (.ok (), { r with headers := r.headers.set name value })
  | .close => (.ok (), r.close)
  | .json text => r.sendJson env text
  | .write data => r.write env data

/-- The actions until one raises.  Simplification: exceptions of the response are not caught; no
handler does, `handlers/images.py:29-267`.  Called in `http.py:841`. -/
def runActs (env : Env) : List Act → Resp → Except Failure Unit × Resp
  | [], r => (.ok (), r)
  | a :: as, r =>
    match a.run env r with
    | (.error e, r) => (.error e, r)
    | (.ok (), r) => runActs env as r

/-- `cors.py:42-80` the decorator `allow` with the default origin, headers and age, before it calls the
method; the arguments are the values of the three request headers. -/
def corsActs (allowMethods : Str) (origin headers method : Option Str) : List Act :=
  let given : Option Str → Bool := fun v => v.getD [] ≠ []
  (if given origin then [.header (lit "access-control-allow-origin") (lit "*")] else []) ++
  (if given headers then [.header (lit "access-control-allow-headers") (lit "*")] else []) ++
  (if given method then [.header (lit "access-control-allow-methods") allowMethods] else []) ++
  (if given origin || given headers || given method then
    [.header (lit "access-control-max-age") (fmtNat (24 * 3600))] else [])

/-- `images.py:84-87`, `122-133` what `Handler.get` does with the response before it reads the image, and
the `data` it writes then.  `total` is the size of the ticket. -/
def getActs (close : Bool) (filename : Str) (ranged : Bool) (offset : Nat) (size total : Int)
    (data : List Bytes) : List Act :=
  (if close then [.close] else []) ++
  [.header (lit "content-length") (fmtInt size),
   .header (lit "content-type") (lit "application/octet-stream"),
   .header (lit "content-disposition")
     (lit "attachment" ++ if filename = [] then [] else lit "; filename=" ++ filename)] ++
  (if ranged then [.status 206, .header (lit "content-range") (serverContentRange offset size total)]
    else []) ++ data.map .write

/-- A request: what its handler does, the exception it raises then, whether the client disconnected
(`req.connection_lost()`), whether the request has content that was not read (`none`: asking
raises), and the value of `close_connection` after parsing the request.  `http.py:793-824`. -/
structure Call where
  acts : List Act
  raises : Option Failure
  lost : Bool
  unread : Option Bool
  close : Bool

/-- `http.py:802-824` the error path of `Router.__call__`; the result is the exception that leaves it. -/
def handleFailure (env : Env) (c : Call) (e : Failure) (r : Resp) : Except Failure Unit × Resp :=
  if e = .socket ∧ c.lost then (.ok (), r.close)
  else if r.started then (.ok (), r.close)
  else
    match c.unread with
    | none => (.error (.http 400 [] none), r)
    | some unread =>
      let r := if unread then r.close else r
      match e with
      | .http code message contentRange => r.sendError env code message contentRange
      | _ => r.sendError env 500 (lit "Server failed to perform the request, check logs") none

/-- `http.py:793-824` `Router.__call__`. -/
def router (env : Env) (c : Call) (r : Resp) : Except Failure Unit × Resp :=
  match runActs env c.acts r with
  | (.error e, r) => handleFailure env c e r
  | (.ok (), r) =>
    match c.raises with
    | some e => handleFailure env c e r
    | none =>
      if r.started then (.ok (), r)
      else
        match r.write env [] with
        | (.ok (), r) => (.ok (), r)
        | (.error e, r) => handleFailure env c e r

/-- `http.py:235-245` the end of `handle_one_request`: an exception that leaves the router closes the
connection, here or by ending the connection thread. -/
def answer (env : Env) (c : Call) (r : Resp) : Resp :=
  match router env c r with
  | (.ok (), r) => r
  | (.error _, r) => { r with closing := true }

/-- The response object of the next request on the connection, `http.py:235`, `470-474`. -/
def fresh (close : Bool) (r : Resp) : Resp := { out := r.out, writes := r.writes, closing := close }

/-- The requests of a connection, until it is closed.  The loop is `BaseHTTPRequestHandler.handle`, which
calls `http.py:208-245`. -/
def connection (env : Env) : List Call → Resp → Resp
  | [], r => r
  | c :: cs, r =>
    let r := answer env c (fresh c.close r)
    if r.closing then r else connection env cs r

end Imageio.Response
