import Verif.Model.Images
import Verif.Model.Url
import Verif.Model.Auth

/-!
Adding tickets: `Ticket.__init__` and its validation (`_internal/auth.py`), and the handler
of the `/tickets/ticket-id` resource (`handlers/tickets.py` put, get, patch); the
capabilities reported by OPTIONS (`handlers/images.py`).
-/
namespace Imageio.Tickets
open Imageio.Http Imageio.Images Imageio.Url

/-- The fields of a ticket set from the ticket dict, `auth.py:24-63`.  The items of `ops`
are not checked by the code, they can be anything. -/
structure Fields where
  uuid : Str
  size : Int
  ops : List Json
  timeout : Int
  inactivityTimeout : Int
  url : Parsed
  transferId : Str
  filename : Option Str
  sparse : Bool
  dirty : Bool

/-- `errors.InvalidTicket`: missing parameter, invalid parameter, or not a dict.
`auth.py:21`, `371`, `383`, `errors.py`. -/
inductive Invalid
  | missing (key : String)
  | parameter (key : String)
  | notDict
deriving DecidableEq, Repr

/-- `auth.py:381-385` `_validate(key, value, str)` -/
def asStr (key : String) : Json → Except Invalid Str
  | .str s => .ok s
  | _ => .error (.parameter key)

/-- `auth.py:381-385` `_validate(key, value, int)`: `bool` is a subclass of `int`, and a
bool is used like 0 or 1. -/
def asInt (key : String) : Json → Except Invalid Int
  | .int n => .ok n
  | .bool b => .ok (if b then 1 else 0)
  | _ => .error (.parameter key)

/-- `auth.py:381-385` `_validate(key, value, bool)` -/
def asBool (key : String) : Json → Except Invalid Bool
  | .bool b => .ok b
  | _ => .error (.parameter key)

/-- `auth.py:381-385` `_validate(key, value, list)` -/
def asList (key : String) : Json → Except Invalid (List Json)
  | .arr l => .ok l
  | _ => .error (.parameter key)

/-- `key in d`, `d[key]`: the last of equal names wins.  `auth.py:370-372`, `376-378`. -/
def find (d : List (Str × Json)) (key : String) : Option Json :=
  (d.reverse.find? fun f => f.1 = key.toList).map (·.2)

/-- `auth.py:369-372` `_required` -/
def required {α : Type} (d : List (Str × Json)) (key : String)
    (as : String → Json → Except Invalid α) : Except Invalid α :=
  match find d key with
  | none => .error (.missing key)
  | some v => as key v

/-- `auth.py:375-378` `_optional` -/
def optional {α : Type} (d : List (Str × Json)) (key : String)
    (as : String → Json → Except Invalid α) (default : α) : Except Invalid α :=
  match find d key with
  | none => .ok default
  | some v => as key v

/-- `backends/__init__.py:15-20,68-69` `supports` -/
def supports (scheme : Str) : Bool :=
  scheme = lit "file" || scheme = lit "http" || scheme = lit "https" || scheme = lit "nbd"

/-- `auth.py:38-45` the URL of a ticket. -/
def ticketUrl (netlocOk : Str → Bool) (url : Str) : Except Invalid Parsed :=
  match urlparse netlocOk url with
  | none => .error (.parameter "url")
  | some u => if supports u.scheme then .ok u else .error (.parameter "url")

/-- `auth.py:49-52` the transfer id, if the ticket does not have one. -/
def defaultTransferId (uuid : Str) : Str := lit "(ticket/" ++ uuid.take 18 ++ lit ")"

/-- `auth.py:19-56` the checks of `Ticket.__init__`, in the order of the code.
`inactivity` is `cfg.daemon.inactivity_timeout`.  A transfer id of the ticket is never
`None`. -/
def parse (netlocOk : Str → Bool) (inactivity : Int) : Json → Except Invalid Fields
  | .obj d => do
    let uuid ← required d "uuid" asStr
    let size ← required d "size" asInt
    let ops ← required d "ops" asList
    let timeout ← required d "timeout" asInt
    let inactivityTimeout ← optional d "inactivity_timeout" asInt inactivity
    let urlStr ← required d "url" asStr
    let url ← ticketUrl netlocOk urlStr
    let transferId ← optional d "transfer_id" asStr (defaultTransferId uuid)
    let filename ← optional d "filename" (fun k v => (asStr k v).map some) none
    let sparse ← optional d "sparse" asBool false
    let dirty ← optional d "dirty" asBool false
    .ok { uuid, size, ops, timeout, inactivityTimeout, url, transferId, filename, sparse,
          dirty }
  | _ => .error .notDict

/-- The tickets of the authorizer by uuid, `auth.py:390-392`. -/
abbrev Store := Str → Option Fields

/-- `auth.py:394-401` `Authorizer.add` -/
def add (netlocOk : Str → Bool) (inactivity : Int) (msg : Json) (s : Store) :
    Except Invalid Unit × Store :=
  match parse netlocOk inactivity msg with
  | .error e => (.error e, s)
  | .ok t => (.ok (), fun id => if id = t.uuid then some t else s id)

/-- `handlers/tickets.py:37-55` `Handler.put`.  `loads` is `json.loads`, `none` for
`ValueError`. -/
def put (netlocOk : Str → Bool) (inactivity : Int) (loads : Bytes → Option Json)
    (ticketId : Str) (s : Store) (c : Conn) : Except HErr Unit × Store × Conn :=
  if ticketId = [] then (.error (.http 400), s, c)
  else
    match c.read none with
    | (.error e, c) => (.error e, s, c)
    | (.ok data, c) =>
      match loads data with
      | none => (.error (.http 400), s, c)
      | some msg =>
        match add netlocOk inactivity msg s with
        | (.ok (), s) => (.ok (), s, c)
        | (.error _, s) => (.error (.http 400), s, c)

/-! ## Capabilities -/

/-- `images.py:16` `BASE_FEATURES`. -/
def baseFeatures : List String := ["checksum", "extents"]
/-- `images.py:17` `ALL_FEATURES`. -/
def allFeatures : List String := baseFeatures ++ ["flush", "zero"]

/-- The answer of OPTIONS: the `allow` header before joining, the features, and the limits
of the backend.  `images.py:227`, `252-267`. -/
structure Capabilities where
  allow : List String
  features : Option (List String)
  unixSocket : Option String
  limits : Option (Nat × Nat)
deriving DecidableEq, Repr

/-- `images.py:249-264` the answer for an authorized ticket. -/
def ticketCapabilities (t : Auth.Ticket) (unixSocket : Option String) (limits : Nat × Nat) :
    Capabilities :=
  let allow := ["OPTIONS"]
  let features := none
  let (allow, features) :=
    if t.may "read" then (allow ++ ["GET"], some baseFeatures) else (allow, features)
  let (allow, features) :=
    if t.may "write" then (allow ++ ["PUT", "PATCH"], some allFeatures) else (allow, features)
  { allow, features, unixSocket, limits := some limits }

/-- `images.py:222-267` `Handler.options`, up to the response: the status of the error or
the capabilities.  `opened` is the outcome of `backends.get` for an authorized ticket: the
limits of its backend, or `none` if the ticket was canceled.  The log and the touch of the
ticket are in `Model/Auth.lean`. -/
def options (cfg : Auth.Config) (s : Auth.State) (unixSocket : Option String) (id : String)
    (opened : Option (Nat × Nat)) : Except Nat Capabilities :=
  if id = "" then .error 400
  else if id = "*" then
    .ok { allow := ["OPTIONS", "GET", "PUT", "PATCH"], features := some allFeatures,
          unixSocket, limits := none }
  else
    match Auth.authorize cfg s id "read" with
    | .error _ => .error 403
    | .ok r =>
      match s.tickets r, opened with
      | some t, some limits => .ok (ticketCapabilities t unixSocket limits)
      | _, _ => .error 403

/-- `images.py:266` `",".join(allow)` -/
def allowHeader (c : Capabilities) : String := ",".intercalate c.allow

end Imageio.Tickets
