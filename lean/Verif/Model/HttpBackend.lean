import Verif.Model.Images

/-!
The HTTP backend of the client, `backends/http.py`, talking to the images handler of the server
(`Model/Images.lean`).

The network is the environment: for every request it decides how the server reads the body and
writes the response, whether the ticket is usable, how much of the body arrives, whether the
response arrives, and in which pieces.  Simplifications: every request starts with a new state of
the connection object of the server, so the requests and responses on one connection do not mix
(this is C19); parsing of the request line, the headers and the status line by `http.client` and
`http.server` is not modelled, the headers are values; connecting, TLS and the unix socket are
not modelled; `json.dumps` and `json.loads` are parameters.
-/
namespace Imageio.HttpBackend
open Http Images

/-- What the environment does during one request.
Everything outside `backends/http.py:157-593` and `handlers/images.py:26-255`. -/
structure Net where
  /-- the outcome of authorizing the request and opening the backend -/
  auth : Option Err
  refused : Bool
  cancel : Nat → Bool
  canceled : Bool
  canceled_of : ∀ n, cancel n = true → canceled = true
  /-- the server sees that the connection was lost -/
  lost : Bool
  recvs : List Recv
  writes : List Bool
  /-- only this part of the body arrives, sending the rest fails -/
  cut : Option Nat
  /-- a failing `send` raises another error than `BrokenPipeError` and `ConnectionResetError` -/
  cutRaises : Bool
  /-- the response does not arrive, or `http.client` refuses to send or to read it -/
  responseLost : Bool
  /-- the sizes of the pieces of the response -/
  pieces : List Nat

/-- A request without any failure.  See `Net`, `backends/http.py:157-593`. -/
def Net.perfect : Net :=
  { auth := none, refused := false, cancel := fun _ => false, canceled := false,
    canceled_of := by simp, lost := false, recvs := [], writes := [], cut := none,
    cutRaises := false, responseLost := false, pieces := [] }

/-- The constants of the served image: the backend, the buffer of the connection, the ticket, and
the JSON functions.  `handlers/images.py:20-24`, `backends/http.py:464`, `521`. -/
structure Server (σ : Type) where
  B : Backend σ
  buf : Bytes
  ticketId : Str
  ticketSize : Nat
  dumps : Json → Bytes
  loads : Bytes → Option Json
  /-- the answer to `GET /images/{ticket}/extents`, as pairs of start and length, see C20, C35 -/
  extents : σ → Except Err (List (Nat × Nat))

/-- The attributes of the client backend, `backends/http.py:52-72`. -/
structure Client where
  position : Nat
  size : Option Nat
  canExtents : Bool
  canZero : Bool
  canFlush : Bool
deriving DecidableEq, Repr

/-- The client, the served image, and the environment of the following requests; when the list is
exhausted nothing fails.  See `Net`, `backends/http.py:157-593`. -/
structure World (σ : Type) where
  client : Client
  srv : σ
  nets : List Net

/-- The environment of the next request.  See `Net`, `backends/http.py:157-593`. -/
def World.net {σ : Type} (w : World σ) : Net := w.nets.headD .perfect

/-- The access of a request to the ticket.  `handlers/images.py:34-39`. -/
def Net.access (n : Net) (ticketSize : Nat) : Access :=
  ⟨n.auth, ticketSize, n.refused, n.cancel, n.canceled, n.canceled_of⟩

/-- The part of the body that arrives.  `backends/http.py:179-184`, `250-255`. -/
def Net.arrived (n : Net) (body : Bytes) : Bytes :=
  match n.cut with
  | none => body
  | some k => body.take k

/-- Sending the body fails with an error that is not handled.  `backends/http.py:179-184`, `250-255`, `557-559`. -/
def Net.sendRaises (n : Net) (body : Bytes) : Bool :=
  n.cutRaises && (n.arrived body).length < body.length

/-- The connection of the server when it starts to handle the request.  `http.py:283-298`. -/
def Net.conn (n : Net) (contentLength : Option Nat) (body : Bytes) : Conn :=
  { req := { header := contentLength.map fmtNat }, rest := n.arrived body, recvs := n.recvs,
    writes := n.writes }

/-- The response seen by the client: the status, the content-length header and the body.
`backends/http.py:436-441`, `468-473`. -/
structure Response where
  status : Nat
  length : Int
  body : Bytes
deriving DecidableEq, Repr

/-- `con.getresponse()`.  `backends/http.py:187`, `257`, `436`, `468`, `561`. -/
def Net.response (n : Net) (c : Conn) : Except Err Response :=
  if n.responseLost then .error (.os "ECONNRESET")
  else
    match c.sent with
    | [] => .error (.exception "RemoteDisconnected")
    | status :: _ => .ok ⟨status, c.hdrLength, c.body⟩

/-- `_reraise`, `backends/http.py:581-593`. -/
def reraise : Err := .exception "http.Error"

/-- `backends/http.py:449-461` `_put_header` with the query, followed by `body` and
`getresponse()`. -/
def putRequest {σ : Type} (S : Server σ) (length : Nat) (body : Bytes) (w : World σ) :
    Except Err Response × World σ :=
  let net := w.net
  let q : PutReq :=
    { ticketId := S.ticketId
      query := if w.client.canFlush then [(lit "flush", lit "n")] else []
      contentRange := some (clientContentRange w.client.position length) }
  let (s, c) := serve net.lost
    (put S.B S.buf.length (net.access S.ticketSize) q w.srv (net.conn (some length) body))
  (if net.sendRaises body then .error (.os "EPIPE") else net.response c,
    { w with srv := s, nets := w.nets.tail })

/-- `backends/http.py:256-264,281-289` the end of `read_from`, `write` and `_emulate_zero`: check
the status, and move the position. -/
def putResult {σ : Type} (length : Nat) (x : Except Err Response × World σ) :
    Res (World σ) Nat :=
  match x with
  | (.error e, w) => (.error e, w)
  | (.ok r, w) =>
    if r.status ≠ 200 then (.error reraise, w)
    else (.ok length, { w with client := { w.client with position := w.client.position + length } })

/-- `backends/http.py:243-264` `write`. -/
def write {σ : Type} (S : Server σ) (w : World σ) (buf : Bytes) : Res (World σ) Nat :=
  putResult buf.length (putRequest S buf.length buf w)

/-- `backends/http.py:548-568` `_emulate_zero`: the pieces are sent one after the other. -/
def emulateBody (piece : Nat) (todo : Nat) : Bytes :=
  if _h : 0 < piece ∧ todo > piece then zeros piece ++ emulateBody piece (todo - piece)
  else zeros todo
termination_by todo

/-- `backends/http.py:548-568` `_emulate_zero`; `buf = bytearray(128 * KiB)`. -/
def emulateZero {σ : Type} (S : Server σ) (w : World σ) (length : Nat) : Res (World σ) Nat :=
  putResult length (putRequest S length (emulateBody (128 * 1024) length) w)

/-- `backends/http.py:463-473` `_patch`. -/
def patchRequest {σ : Type} (S : Server σ) (msg : Json) (w : World σ) : Res (World σ) Unit :=
  let net := w.net
  let body := S.dumps msg
  let (s, c) := serve net.lost
    (patch S.B (net.access S.ticketSize) S.loads S.ticketId w.srv
      (net.conn (some body.length) body))
  let w := { w with srv := s, nets := w.nets.tail }
  if net.sendRaises body then (.error (.os "EPIPE"), w)
  else
    match net.response c with
    | .error e => (.error e, w)
    | .ok r => if r.status ≠ 200 then (.error reraise, w) else (.ok (), w)

/-- `backends/http.py:273-278` the message of a zero request. -/
def zeroMessage (position length : Nat) (flush : Bool) : Json :=
  .obj [(lit "op", .str (lit "zero")), (lit "offset", .int position), (lit "size", .int length),
    (lit "flush", .bool flush)]

/-- `backends/http.py:289` the message of a flush request. -/
def flushMessage : Json := .obj [(lit "op", .str (lit "flush"))]

/-- `backends/http.py:266-282` `zero`. -/
def zero {σ : Type} (S : Server σ) (w : World σ) (length : Nat) : Res (World σ) Nat :=
  if !w.client.canZero then emulateZero S w length
  else
    match patchRequest S (zeroMessage w.client.position length (!w.client.canFlush)) w with
    | (.error e, w) => (.error e, w)
    | (.ok (), w) =>
      (.ok length, { w with client := { w.client with position := w.client.position + length } })

/-- `backends/http.py:284-289` `flush`. -/
def flush {σ : Type} (S : Server σ) (w : World σ) : Res (World σ) Unit :=
  if w.client.canFlush then patchRequest S flushMessage w else (.ok (), w)

/-- `backends/http.py:430-447` `_get` up to the response; `range` is the Range header. -/
def getRequest {σ : Type} (S : Server σ) (range : Option Str) (w : World σ) :
    Except Err Response × World σ :=
  let net := w.net
  let q : GetReq := { ticketId := S.ticketId, query := [], range }
  let (s, c) := serve net.lost
    (get S.B (net.access S.ticketSize) q S.buf w.srv (net.conn none []))
  (net.response c, { w with srv := s, nets := w.nets.tail })

/-- The check of the response in `_get`, `backends/http.py:438-447`. -/
def checkRange (length : Nat) (r : Response) : Except Err Bytes :=
  if r.status ≠ 206 then .error reraise
  else if r.length ≠ length then .error (.exception "RuntimeError")
  else .ok r.body

/-- `backends/http.py:570-579` `_read_all`: read `want` bytes of the response, in pieces. -/
def readAll (pieces : List Nat) (body : Bytes) (want : Nat) : Except Err Bytes :=
  if _h : want = 0 then .ok []
  else
    let k := min want (min body.length (pieces.headD want + 1))
    if _h : k = 0 then .error (.exception "RuntimeError")
    else
      match readAll pieces.tail (body.drop k) (want - k) with
      | .error e => .error e
      | .ok d => .ok (body.take k ++ d)
termination_by want
decreasing_by omega

/-- `backends/http.py:527-546` `_emulate_head`; the data of the response is dropped. -/
def emulateHead {σ : Type} (S : Server σ) (w : World σ) : Res (World σ) Nat :=
  match getRequest S none w with
  | (.error e, w) => (.error e, w)
  | (.ok r, w) => if r.status ≠ 200 then (.error reraise, w) else (.ok r.length.toNat, w)

/-- `backends/http.py:324-337` `size`, when the size is not known.  The cache of the extents is
not modelled.  `list(self.extents())[-1]` raises `IndexError` for an empty list. -/
def fetchSize {σ : Type} (S : Server σ) (w : World σ) : Res (World σ) Nat :=
  if w.client.canExtents then
    match S.extents w.srv with
    | .error e => (.error e, w)
    | .ok exts =>
      match exts.getLast? with
      | none => (.error (.exception "IndexError"), w)
      | some e => (.ok (e.1 + e.2), w)
  else emulateHead S w

/-- `backends/http.py:324-337` `size`. -/
def size {σ : Type} (S : Server σ) (w : World σ) : Res (World σ) Nat :=
  match w.client.size with
  | some n => (.ok n, w)
  | none =>
    match fetchSize S w with
    | (.error e, w) => (.error e, w)
    | (.ok n, w) => (.ok n, { w with client := { w.client with size := some n } })

/-- `_get(length)` and reading the response: `backends/http.py:235-241`. -/
def readRange {σ : Type} (S : Server σ) (length : Nat) (w : World σ) : Res (World σ) Bytes :=
  let pieces := w.net.pieces
  match getRequest S (some (clientRange w.client.position length)) w with
  | (.error e, w) => (.error e, w)
  | (.ok r, w) =>
    match checkRange length r with
    | .error e => (.error e, w)
    | .ok body =>
      match readAll pieces body length with
      | .error e => (.error e, w)
      | .ok d =>
        (.ok d, { w with client := { w.client with position := w.client.position + length } })

/-- `backends/http.py:225-241` `readinto` with a buffer of `n` bytes. -/
def readinto {σ : Type} (S : Server σ) (w : World σ) (n : Nat) : Res (World σ) Bytes :=
  match size S w with
  | (.error e, w) => (.error e, w)
  | (.ok size, w) =>
    let length := min n (size - w.client.position)
    if length = 0 then (.ok [], w) else readRange S length w

/-- `backends/http.py:313-320` `seek(n)`. -/
def seek {σ : Type} (w : World σ) (n : Nat) : Res (World σ) Unit :=
  (.ok (), { w with client := { w.client with position := n } })

/-- The HTTP backend, with the interface of the other backends.  `backends/http.py:50-593`. -/
def backend {σ : Type} (S : Server σ) : Backend (World σ) where
  blockSize := 1
  tell w := w.client.position
  seek := seek
  readinto := readinto S
  write w _ d := write S w d
  zero := zero S
  flush := flush S
  size w := w.client.size.getD 0

/-! ### Copying from and to another backend -/

/-- `backends/http.py:168-186` the loop of `read_from`: the bytes that are sent, and the error of
the reader, if any.  The server closing the connection early is a failing `send`. -/
def readerBody {τ : Type} (R : Backend τ) (step : Nat) (todo : Nat) (t : τ) :
    Except Err Unit × Bytes × τ :=
  if _h : todo = 0 then (.ok (), [], t)
  else
    match R.readinto t (min todo step) with
    | (.error e, t) => (.error e, [], t)
    | (.ok d, t) =>
      if _h : d.length = 0 then (.error (.exception "RuntimeError"), [], t)
      else
        match readerBody R step (todo - d.length) t with
        | (r, b, t) => (r, d ++ b, t)
termination_by todo
decreasing_by omega

/-- `backends/http.py:157-194` `read_from`; `step` is the size of the buffer.  If the reader fails
the client raises, and the server gets a part of the body.  Simplification: when the server closes
the connection early, the reader is still read to the end. -/
def readFrom {σ τ : Type} (S : Server σ) (R : Backend τ) (length step : Nat) (w : World σ) (t : τ) :
    Except Err Nat × World σ × τ :=
  match readerBody R step length t with
  | (.error e, body, t) =>
    let (_, w) := putRequest S length body w
    (.error e, w, t)
  | (.ok (), body, t) =>
    let (r, w) := putResult length (putRequest S length body w)
    (r, w, t)

/-- `backends/http.py:206-220` the loop of `write_to`; the result of `write` is not used. -/
def writerLoop {τ : Type} (D : Backend τ) (addr : Nat) (pieces : List Nat) (body : Bytes)
    (step todo : Nat) (t : τ) : Res τ Unit :=
  if _h : todo = 0 then (.ok (), t)
  else
    let k := min (min todo step) (min body.length (pieces.headD todo + 1))
    if _h : k = 0 then (.error (.exception "RuntimeError"), t)
    else
      match D.write t addr (body.take k) with
      | (.error e, t) => (.error e, t)
      | (.ok _, t) => writerLoop D addr pieces.tail (body.drop k) step (todo - k) t
termination_by todo
decreasing_by omega

/-- `backends/http.py:196-223` `write_to`. -/
def writeTo {σ τ : Type} (S : Server σ) (D : Backend τ) (addr length step : Nat) (w : World σ)
    (t : τ) : Except Err Nat × World σ × τ :=
  let pieces := w.net.pieces
  match getRequest S (some (clientRange w.client.position length)) w with
  | (.error e, w) => (.error e, w, t)
  | (.ok r, w) =>
    match checkRange length r with
    | .error e => (.error e, w, t)
    | .ok body =>
      match writerLoop D addr pieces body step length t with
      | (.error e, t) => (.error e, w, t)
      | (.ok (), t) =>
        (.ok length,
          { w with client := { w.client with position := w.client.position + length } }, t)

/-- `client/_io.py:280-286` `Handler.copy` to an HTTP backend: `seek` both, and `read_from`. -/
def copyTo {σ τ : Type} (S : Server σ) (R : Backend τ) (start length step : Nat) (w : World σ)
    (t : τ) : Except Err Nat × World σ × τ :=
  match R.seek t start with
  | (.error e, t) => (.error e, w, t)
  | (.ok (), t) => readFrom S R length step (seek w start).2 t

/-- `client/_io.py:280-288` `Handler.copy` from an HTTP backend to a backend without `read_from`:
`seek` both, and `write_to`. -/
def copyFrom {σ τ : Type} (S : Server σ) (D : Backend τ) (addr start length step : Nat) (w : World σ)
    (t : τ) : Except Err Nat × World σ × τ :=
  match D.seek t start with
  | (.error e, t) => (.error e, (seek w start).2, t)
  | (.ok (), t) => writeTo S D addr length step (seek w start).2 t

end Imageio.HttpBackend
