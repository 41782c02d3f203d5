import Verif.Model.HttpServer
import Verif.Model.Ops

/-!
The handlers of the `/images/ticket-id` resource: `handlers/images.py`, with `validate.py`.

A handler gets the request (the parts of it that it looks at), the outcome of the
authorization, the state of the backend and the connection; it returns the result (or the
exception leaving the handler), and the new states.  The CORS decorator
(`images.py:29,79`) only adds headers to the response and is not modelled here.
-/
namespace Imageio.Images
open Imageio.Http

/-- A python string literal.  For example `handlers/images.py:35`. -/
abbrev lit (s : String) : Str := s.toList

/-! ## Values and validation -/

/-- A JSON document as returned by `json.loads`; the values of the types that the server
never looks into are not kept.  `handlers/images.py:157`. -/
inductive Json where
  | null
  | bool (b : Bool)
  | int (n : Int)
  | float
  | str (s : Str)
  | arr (items : List Json)
  | obj (fields : List (Str × Json))

/-- `d[name]` on a parsed JSON document: `none` is `KeyError`; subscripting anything else
than an object with a string raises `TypeError`.  The last of equal names wins.  `validate.py:9`, `27`, `51`. -/
def Json.get (d : Json) (name : Str) : Except HErr (Option Json) :=
  match d with
  | .obj fields => .ok ((fields.reverse.find? fun f => f.1 = name).map (·.2))
  | _ => .error .other

/-- `validate.py:7-22` `enum` for a JSON message, without default. -/
def enumJson (d : Json) (name : Str) (values : List Str) : Except HErr Str :=
  match d.get name with
  | .error e => .error e
  | .ok none => .error (.http 400)
  | .ok (some (.str v)) => if v ∈ values then .ok v else .error (.http 400)
  | .ok (some _) => .error (.http 400)

/-- The query string as a dict, `http.py:353-367`: the last of equal names wins. -/
def queryGet (q : List (Str × Str)) (name : Str) : Option Str :=
  (q.reverse.find? fun f => f.1 = name).map (·.2)

/-- `validate.py:7-22` `enum` for a query string, with a default. -/
def enumQuery (q : List (Str × Str)) (name : Str) (values : List Str) (default : Str) :
    Except HErr Str :=
  match queryGet q name with
  | none => .ok default
  | some v => if v ∈ values then .ok v else .error (.http 400)

/-- `validate.py:25-46` `integer` with `minval=0`.  In python `bool` is a subtype of `int`,
so `true` and `false` are accepted as 1 and 0. -/
def integer (d : Json) (name : Str) (default : Option Nat) : Except HErr Nat :=
  match d.get name with
  | .error e => .error e
  | .ok none =>
    match default with
    | some v => .ok v
    | none => .error (.http 400)
  | .ok (some (.int v)) => if v < 0 then .error (.http 400) else .ok v.toNat
  | .ok (some (.bool b)) => .ok (if b then 1 else 0)
  | .ok (some _) => .error (.http 400)

/-- `validate.py:49-62` `boolean`. -/
def boolean (d : Json) (name : Str) (default : Bool) : Except HErr Bool :=
  match d.get name with
  | .error e => .error e
  | .ok none => .ok default
  | .ok (some (.bool b)) => .ok b
  | .ok (some _) => .error (.http 400)

/-! ## Authorization and running operations -/

/-- What a request gets from the ticket store; the ticket store itself is modelled in
`Model/Auth.lean`.

* `auth`: the outcome of `auth.authorize()` and `backends.get()`, `none` for success.
* `size`: `ticket.size`, any integer.
* `refused`: the ticket was canceled before `ticket.run(op)`.
* `cancel n`: the operation was canceled when it looked after chunk number `n`.
* `canceled`: the ticket was canceled when the operation ended.  A ticket is marked as
  canceled before its operations are canceled (`auth.py` `Ticket.cancel`).
`handlers/images.py:50-55`, `72`, `auth.py:171-181`. -/
structure Access where
  auth : Option Err
  size : Int
  refused : Bool
  cancel : Nat → Bool
  canceled : Bool
  canceled_of : ∀ n, cancel n = true → canceled = true

/-- `auth.py:171-181` `Ticket.run` with `_add_operation` and `_remove_operation`: a
canceled operation ends silently, but then the removal of the operation raises. -/
def ticketRun {α : Type} (a : Access) (op : α → Except Err Unit × α) (s : α) :
    Except Err Unit × α :=
  if a.refused then (.error (.authorization "canceled"), s)
  else
    let (r, s) := op s
    if a.canceled then (.error (.authorization "canceled"), s)
    else
      match r with
      | .error .canceled => (.ok (), s)
      | r => (r, s)

/-- The exception handlers of the images handlers, for example `images.py:71-77`:
an authorization error closes the connection and is answered with 403, missing data with
400.  `OSError` is `socket.error`. -/
def raiseErr (e : Err) (c : Conn) : Except HErr Unit × Conn :=
  match e with
  | .authorization _ => (.error (.http 403), c.close)
  | .partialContent _ _ => (.error (.http 400), c)
  | .os _ => (.error .socket, c)
  | _ => (.error .other, c)

/-- The request body as the source of an upload: `ops.Write` calls `req.readinto()`.
`handlers/images.py:63-65`, `http.py:445-456`. -/
def reqSource : Source Conn where
  readinto c n :=
    match c.readinto n with
    | (.ok d, c) => (.ok d, c)
    | (.error .socket, c) => (.error (.os "socket"), c)
    | (.error _, c) => (.error (.exception "http.Error"), c)

/-- `images.py:35-37`, `images.py:85-87`. -/
def closeQuery (q : List (Str × Str)) (c : Conn) : Conn :=
  if queryGet q (lit "close") = some (lit "y") then c.close else c

/-! ## PUT -/

/-- The parts of a PUT request used by the handler.  `handlers/images.py:30-48`. -/
structure PutReq where
  ticketId : Str
  query : List (Str × Str)
  contentRange : Option Str

/-- `images.py:44` the offset of an upload; only the first position of the Content-Range
is used. -/
def putOffset (contentRange : Option Str) : Option Nat :=
  match contentRange with
  | none => some 0
  | some h => (parseContentRange h).map (·.first)

/-- `images.py:57-77` the part of `put` after the authorization. -/
def putAuthorized {σ : Type} (B : Backend σ) (bufLen : Nat) (a : Access) (size offset : Nat)
    (flush : Bool) (s : σ) (c : Conn) : Except HErr Unit × σ × Conn :=
  if (offset : Int) + size > a.size then (.error (.http 416), s, c)
  else
    let op := fun (x : σ × Conn) =>
      let (r, st) := Ops.writeRun B reqSource a.cancel bufLen size offset flush x.1 x.2
      (r, (st.dst, st.src))
    match ticketRun a op (s, c) with
    | (.ok (), (s, c)) => (.ok (), s, c)
    | (.error e, (s, c)) => let (r, c) := raiseErr e c; (r, s, c)

/-- `images.py:30-77` `Handler.put`. -/
def put {σ : Type} (B : Backend σ) (bufLen : Nat) (a : Access) (q : PutReq) (s : σ) (c : Conn) :
    Except HErr Unit × σ × Conn :=
  if q.ticketId = [] then (.error (.http 400), s, c)
  else
    let c := closeQuery q.query c
    let (len, req) := c.req.getContentLength
    let c := { c with req }
    match len with
    | .error e => (.error e, s, c)
    | .ok none => (.error (.http 400), s, c)
    | .ok (some size) =>
      match putOffset q.contentRange with
      | none => (.error (.http 400), s, c)
      | some offset =>
        match enumQuery q.query (lit "flush") [lit "y", lit "n"] (lit "y") with
        | .error e => (.error e, s, c)
        | .ok flush =>
          match a.auth with
          | some e => let (r, c) := raiseErr e c; (r, s, c)
          | none => putAuthorized B bufLen a size offset (flush = lit "y") s c

/-! ## GET -/

/-- The parts of a GET request used by the handler.  `handlers/images.py:80-102`. -/
structure GetReq where
  ticketId : Str
  query : List (Str × Str)
  range : Option Str

/-- The response object after `ops.Read` wrote `st.chunks` chunks to it, and maybe failed
to write another one.  `ops.py` `Read._run` writes to the response, `http.py:541-564`. -/
def afterRead {σ : Type} (c : Conn) (r : Except Err Unit) (st : Ops.ReadState σ) : Conn :=
  let c := { c with
    started := c.started || st.chunks > 0
    sent := if c.started || st.chunks = 0 then c.sent else c.sent ++ [c.status]
    body := c.body ++ st.out
    writes := c.writes.drop st.chunks }
  match r with
  | .error (.exception "write to client") => (c.write []).2
  | _ => c

/-- `images.py:126-133` the status and the headers of the response.  The content-type and
content-disposition headers are not modelled. -/
def getHeaders (a : Access) (ranged : Bool) (size : Int) (offset : Nat) (c : Conn) : Conn :=
  { c with
    hdrLength := size
    status := if ranged then 206 else c.status
    hdrRange := if ranged then some (serverContentRange offset size a.size) else c.hdrRange }

/-- `images.py:118-148` the part of `get` after the range was validated. -/
def getRange {σ : Type} (B : Backend σ) (a : Access) (ranged : Bool) (size : Int) (offset : Nat)
    (buf : Bytes) (s : σ) (c : Conn) : Except HErr Unit × σ × Conn :=
  let c := getHeaders a ranged size offset c
  let sink := fun n => !(c.writes.getD n true)
  let op := fun (x : σ × Conn) =>
    let (r, st) := Ops.readRun B a.cancel sink buf size offset x.1
    (r, (st.src, afterRead x.2 r st))
  match ticketRun a op (s, c) with
  | (.ok (), (s, c)) => (.ok (), s, c)
  | (.error e, (s, c)) => let (r, c) := raiseErr e c; (r, s, c)

/-- `images.py:80-148` `Handler.get`.  `buf` is the buffer of the connection
(`backends/__init__.py:106`). -/
def get {σ : Type} (B : Backend σ) (a : Access) (q : GetReq) (buf : Bytes) (s : σ) (c : Conn) :
    Except HErr Unit × σ × Conn :=
  if q.ticketId = [] then (.error (.http 400), s, c)
  else
    let c := closeQuery q.query c
    let range : Except HErr (Option Http.Range) :=
      match q.range with
      | none => .ok none
      | some h =>
        match parseRange h with
        | none => .error (.http 416)
        | some r => .ok (some r)
    match range with
    | .error e => (.error e, s, c)
    | .ok range =>
      let first : Int := match range with
        | none => 0
        | some r => r.first
      if first < 0 then (.error (.http 416), s, c)
      else
        let last : Option Nat := match range with
          | none => none
          | some r => r.last
        match a.auth with
        | some e => let (r, c) := raiseErr e c; (r, s, c)
        | none =>
          match last with
          | some last =>
            let size := (last : Int) - first + 1
            if first + size > a.size then (.error (.http 416), s, c)
            else if first + size > min a.size (B.size s) then (.error (.http 416), s, c)
            else getRange B a true size first.toNat buf s c
          | none =>
            getRange B a range.isSome (min a.size (B.size s) - first) first.toNat buf s c

/-! ## PATCH -/

/-- `images.py:170-201` `Handler._zero`. -/
def zero {σ : Type} (B : Backend σ) (a : Access) (msg : Json) (s : σ) (c : Conn) :
    Except HErr Unit × σ × Conn :=
  match integer msg (lit "size") none with
  | .error e => (.error e, s, c)
  | .ok size =>
    match integer msg (lit "offset") (some 0) with
    | .error e => (.error e, s, c)
    | .ok offset =>
      match boolean msg (lit "flush") false with
      | .error e => (.error e, s, c)
      | .ok flush =>
        match a.auth with
        | some e => let (r, c) := raiseErr e c; (r, s, c)
        | none =>
          if (offset : Int) + size > a.size then (.error (.http 416), s, c)
          else
            let op := fun (s : σ) =>
              let (r, st) := Ops.zeroRun B a.cancel size offset flush s
              (r, st.dst)
            match ticketRun a op s with
            | (.ok (), s) => (.ok (), s, c)
            | (.error e, s) => let (r, c) := raiseErr e c; (r, s, c)

/-- `images.py:203-220` `Handler._flush`.  `PartialContent` is not caught here, but the
flush operation never raises it. -/
def flush {σ : Type} (B : Backend σ) (a : Access) (s : σ) (c : Conn) :
    Except HErr Unit × σ × Conn :=
  match a.auth with
  | some e => let (r, c) := raiseErr e c; (r, s, c)
  | none =>
    match ticketRun a (Ops.flushRun B) s with
    | (.ok (), s) => (.ok (), s, c)
    | (.error e, s) => let (r, c) := raiseErr e c; (r, s, c)

/-- `images.py:150-168` `Handler.patch`.  `loads` is `json.loads`, `none` for
`ValueError`. -/
def patch {σ : Type} (B : Backend σ) (a : Access) (loads : Bytes → Option Json) (ticketId : Str)
    (s : σ) (c : Conn) : Except HErr Unit × σ × Conn :=
  if ticketId = [] then (.error (.http 400), s, c)
  else
    match c.read none with
    | (.error e, c) => (.error e, s, c)
    | (.ok data, c) =>
      match loads data with
      | none => (.error (.http 400), s, c)
      | some msg =>
        match enumJson msg (lit "op") [lit "zero", lit "flush"] with
        | .error e => (.error e, s, c)
        | .ok op =>
          if op = lit "zero" then zero B a msg s c
          else flush B a s c

/-- The end of the request: the response is sent by the router.  `http.py:793-824`. -/
def serve {σ : Type} (lost : Bool) (x : Except HErr Unit × σ × Conn) : σ × Conn :=
  (x.2.1, finish lost (x.1, x.2.2))

end Imageio.Images
