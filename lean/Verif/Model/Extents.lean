import Verif.Base
import Verif.Model.Images
/-!
Model of the extents: `nbd.Extent`, `nbdutil.extents`, `nbdutil.merged`,
`backends/*.py: extents`, `extent.py` and `handlers/extents.py`.
-/
namespace Imageio.Extents
open Imageio.Http Imageio.Images

/-! ## Flags, `nbd.py:73-90` -/

/-- `nbd.py:78` `STATE_HOLE`. -/
def stateHole : Nat := 1
/-- `nbd.py:81` `STATE_ZERO`. -/
def stateZero : Nat := 2
/-- `nbd.py:84` `STATE_DIRTY`. -/
def stateDirty : Nat := 1
/-- `nbd.py:87` `EXTENT_DIRTY`. -/
def extentDirty : Nat := 4
/-- `nbd.py:90` `EXTENT_BACKING`. -/
def extentBacking : Nat := 8

/-- `nbd.py:1351-1382` `nbd.Extent`. -/
structure Ext where
  length : Nat
  flags : Nat
deriving DecidableEq, Repr

/-- `nbd.py:1365-1368` the meta contexts. -/
inductive Context where
  | alloc | depth | dirty
deriving DecidableEq, Repr

/-- `nbd.py:1384-1408` `Extent.unpack`, after the two numbers were unpacked. -/
def Ext.unpack (length flags : Nat) (context : Context) : Except Err Ext :=
  if length = 0 then .error (.exception "ProtocolError")
  else
    .ok ⟨length,
      match context with
      | .alloc => flags &&& (stateHole ||| stateZero)
      | .dirty => if flags &&& stateDirty ≠ 0 then extentDirty else 0
      | .depth => if flags = 0 then extentBacking else 0⟩

/-- `nbd.py:1418-1423` -/
def Ext.zero (e : Ext) : Bool := e.flags &&& stateZero ≠ 0
/-- `nbd.py:1425-1442` -/
def Ext.hole (e : Ext) : Bool := e.flags &&& extentBacking ≠ 0
/-- `nbd.py:1444-1450` -/
def Ext.dirty (e : Ext) : Bool := e.flags &&& extentDirty ≠ 0

/-! ## `nbdutil.py` -/

/-- `nbdutil.py:164-201` `merged`: the two current extents are the heads of the lists. -/
def merged : List Ext → List Ext → List Ext
  | [], _ => []
  | _ :: _, [] => []
  | a :: as, b :: bs =>
    if a.length = b.length then ⟨a.length, a.flags ||| b.flags⟩ :: merged as bs
    else if a.length > b.length then
      ⟨b.length, a.flags ||| b.flags⟩ :: merged (⟨a.length - b.length, a.flags⟩ :: as) bs
    else
      ⟨a.length, a.flags ||| b.flags⟩ :: merged as (⟨b.length - a.length, b.flags⟩ :: bs)
termination_by as bs => as.length + bs.length

/-- The reply of a block status command, `nbd.py:460-464`: the extents of every context that
the server sent. -/
structure Reply where
  alloc : Option (List Ext)
  depth : Option (List Ext)
  dirty : Option (List Ext)
deriving Repr

/-- The client: the reply to block status command number `n` for `length` bytes at `offset`.
A server may answer the same command differently every time.  `nbd.py:460-464`. -/
abbrev Client := (n offset length : Nat) → Except Err Reply

/-- `nbd.py:1048-1117` `_handle_block_status_chunk` and `_recv_extents`, after the header: the
extents of one context from the descriptors (length, flags) on the wire.  The remainder of python raises for 0. -/
def recvExtents (minBlock : Nat) (context : Context) : List (Nat × Nat) → Except Err (List Ext)
  | [] => .ok []
  | (length, flags) :: rest =>
    match Ext.unpack length flags context with
    | .error e => .error e
    | .ok e =>
      if minBlock = 0 then .error (.exception "ZeroDivisionError")
      else if e.length % minBlock ≠ 0 then .error (.exception "ProtocolError")
      else
        match recvExtents minBlock context rest with
        | .error e => .error e
        | .ok es => .ok (e :: es)

/-- The descriptors that the server sent for every context.  `nbd.py:1048-1091`. -/
structure RawReply where
  alloc : Option (List (Nat × Nat))
  depth : Option (List (Nat × Nat))
  dirty : Option (List (Nat × Nat))
deriving Repr

/-- One block status chunk, if it was sent, `nbd.py:1056-1091`: there is at least one
descriptor. -/
def recvContext (minBlock : Nat) (context : Context) :
    Option (List (Nat × Nat)) → Except Err (Option (List Ext))
  | none => .ok none
  | some [] => .error (.exception "ProtocolError")
  | some l =>
    match recvExtents minBlock context l with
    | .error e => .error e
    | .ok es => .ok (some es)

/-- `nbd.py:460-464` `Client.extents`, for a server sending `raw n offset length` for command
number `n`.  Simplification: the chunks are handled in a fixed order, and which of several errors
in one reply is reported is not modelled.  The limit on the number of extents in one chunk
(`nbd.py:1063-1066`) is an error of the server here. -/
def wireClient (minBlock : Nat) (raw : (n offset length : Nat) → Except Err RawReply) : Client :=
  fun n offset length =>
    match raw n offset length with
    | .error e => .error e
    | .ok r =>
      match recvContext minBlock .alloc r.alloc, recvContext minBlock .depth r.depth,
          recvContext minBlock .dirty r.dirty with
      | .ok a, .ok d, .ok b => .ok ⟨a, d, b⟩
      | _, _, _ => .error (.exception "ProtocolError")

/-- `nbdutil.py:118` the maximum length of one command. -/
def maxStep : Nat := 2 * 1024 * 1024 * 1024

/-- `nbdutil.py:130-137` the extents of one reply; a missing context is a `KeyError`. -/
def replyExtents (dirty : Bool) (r : Reply) : Except Err (List Ext) :=
  match r.alloc with
  | none => .error (.exception "KeyError")
  | some alloc =>
    if dirty then
      match r.dirty with
      | none => .error (.exception "KeyError")
      | some d => .ok (merged alloc d)
    else
      match r.depth with
      | some d => .ok (merged alloc d)
      | none => .ok alloc

/-- The state of the loop: the offset, the current extent and the extents yielded.
`nbdutil.py:111-121`, `139-161`. -/
structure Loop where
  offset : Nat
  cur : Option Ext
  out : List Ext
deriving Repr

/-- `nbdutil.py:147-154` add one extent to the current one. -/
def Loop.add (s : Loop) (ext : Ext) : Loop :=
  match s.cur with
  | none => { s with offset := s.offset + ext.length, cur := some ext }
  | some cur =>
    if cur.flags = ext.flags then
      { s with offset := s.offset + ext.length, cur := some ⟨cur.length + ext.length, cur.flags⟩ }
    else { offset := s.offset + ext.length, cur := some ext, out := s.out ++ [cur] }

/-- `nbdutil.py:139-159` the loop over the extents of one reply. -/
def addReply (end_ : Nat) : List Ext → Loop → Loop
  | [], s => s
  | ext :: exts, s =>
    let ext := if s.offset + ext.length > end_ then { ext with length := end_ - s.offset } else ext
    let s := s.add ext
    if s.offset = end_ then s else addReply end_ exts s

/-- `nbdutil.py:123-161` the loop over the commands.  When the server sends no extents the
python loop never ends; here the fuel runs out. -/
def extentsLoop (client : Client) (dirty : Bool) (end_ : Nat) :
    (fuel n : Nat) → Loop → Except Err Loop
  | fuel, n, s =>
    if s.offset < end_ then
      match fuel with
      | 0 => .error .stuck
      | fuel + 1 =>
        match client n s.offset (min (end_ - s.offset) maxStep) with
        | .error e => .error e
        | .ok r =>
          match replyExtents dirty r with
          | .error e => .error e
          | .ok exts => extentsLoop client dirty end_ fuel (n + 1) (addReply end_ exts s)
    else .ok s

/-- `nbdutil.py:100-161` `extents`: everything yielded.  `None` is yielded for an empty
range.  An exception discards what was yielded before (all the callers collect the
extents, or stop). -/
def extents (client : Client) (dirty : Bool) (offset end_ : Nat) : Except Err (List (Option Ext)) :=
  match extentsLoop client dirty end_ (end_ - offset) 0 ⟨offset, none, []⟩ with
  | .error e => .error e
  | .ok s => .ok (s.out.map some ++ [s.cur])

/-! ## `extent.py` -/

/-- `extent.py:7-23` `ZeroExtent`; `hole` is `None` when an old server does not report it. -/
structure ZeroExtent where
  start : Nat
  length : Nat
  zero : Bool
  hole : Option Bool
deriving DecidableEq, Repr

/-- `extent.py:52-65` `DirtyExtent`. -/
structure DirtyExtent where
  start : Nat
  length : Nat
  dirty : Bool
  zero : Bool
deriving DecidableEq, Repr

/-- The JSON value of an optional boolean.  `extent.py:44-49`; `json.dumps` of `None`. -/
def boolOrNull : Option Bool → Json
  | none => .null
  | some b => .bool b

/-- `extent.py:40-49` `ZeroExtent.to_dict`. -/
def ZeroExtent.toDict (e : ZeroExtent) : Json :=
  .obj [(lit "start", .int e.start), (lit "length", .int e.length), (lit "zero", .bool e.zero),
    (lit "hole", boolOrNull e.hole)]

/-- `extent.py:85-94` `DirtyExtent.to_dict`. -/
def DirtyExtent.toDict (e : DirtyExtent) : Json :=
  .obj [(lit "start", .int e.start), (lit "length", .int e.length), (lit "dirty", .bool e.dirty),
    (lit "zero", .bool e.zero)]

/-- `d[name]`; a missing name is a `KeyError`.  `extent.py:31`, `76`. -/
def item (d : Json) (name : Str) : Option Json :=
  match d.get name with
  | .ok v => v
  | .error _ => none

/-- A number field, `none` for any other value.  Simplification: python keeps values of any
type; a server sends only numbers there.  `extent.py:31`, `76`. -/
def natItem (d : Json) (name : Str) : Option Nat :=
  match item d name with
  | some (.int n) => if n < 0 then none else some n.toNat
  | _ => none

/-- A boolean field; same simplification.  `extent.py:31`, `76`. -/
def boolItem (d : Json) (name : Str) : Option Bool :=
  match item d name with
  | some (.bool b) => some b
  | _ => none

/-- `extent.py:25-31` `ZeroExtent.from_dict`. -/
def ZeroExtent.fromDict (d : Json) : Option ZeroExtent :=
  match natItem d (lit "start"), natItem d (lit "length"), boolItem d (lit "zero") with
  | some start, some length, some zero => some ⟨start, length, zero, boolItem d (lit "hole")⟩
  | _, _, _ => none

/-- `extent.py:67-76` `DirtyExtent.from_dict`. -/
def DirtyExtent.fromDict (d : Json) : Option DirtyExtent :=
  match natItem d (lit "start"), natItem d (lit "length"), boolItem d (lit "dirty") with
  | some start, some length, some dirty =>
    some ⟨start, length, dirty, (boolItem d (lit "zero")).getD false⟩
  | _, _, _ => none

/-! ## `backends/*.py: extents` -/

/-- `backends/nbd.py:180-189` number the extents; an extent `None` raises
`AttributeError`. -/
def zeroExtents : (start : Nat) → List (Option Ext) → Except Err (List ZeroExtent)
  | _, [] => .ok []
  | _, none :: _ => .error (.exception "AttributeError")
  | start, some e :: es =>
    match zeroExtents (start + e.length) es with
    | .ok r => .ok (⟨start, e.length, e.zero, some e.hole⟩ :: r)
    | .error e => .error e

/-- `backends/nbd.py:180-189` the same for the dirty context. -/
def dirtyExtents : (start : Nat) → List (Option Ext) → Except Err (List DirtyExtent)
  | _, [] => .ok []
  | _, none :: _ => .error (.exception "AttributeError")
  | start, some e :: es =>
    match dirtyExtents (start + e.length) es with
    | .ok r => .ok (⟨start, e.length, e.dirty, e.zero⟩ :: r)
    | .error e => .error e

/-- What the NBD backend knows after the handshake, `nbd.py:391-419`. -/
structure NbdInfo where
  exportSize : Nat
  hasBaseAllocation : Bool
  hasDirtyBitmap : Bool
deriving DecidableEq, Repr

/-- `errors.UnsupportedOperation`, raised when a context is not supported.
`backends/nbd.py:164`, `176`, `backends/file.py:150-153`. -/
def unsupported : Err := .exception "UnsupportedOperation"

/-- `backends/nbd.py:162-189` `Backend.extents` for the zero context. -/
def nbdZero (i : NbdInfo) (client : Client) : Except Err (List ZeroExtent) :=
  if !i.hasBaseAllocation then .ok [⟨0, i.exportSize, false, some false⟩]
  else
    match extents client false 0 i.exportSize with
    | .error e => .error e
    | .ok exts => zeroExtents 0 exts

/-- `backends/nbd.py:162-189` `Backend.extents` for the dirty context. -/
def nbdDirty (i : NbdInfo) (client : Client) : Except Err (List DirtyExtent) :=
  if !i.hasDirtyBitmap then .error unsupported
  else
    match extents client true 0 i.exportSize with
    | .error e => .error e
    | .ok exts => dirtyExtents 0 exts

/-- `backends/file.py:149-156` and, when no extents are configured, `backends/memory.py:146-151`
for the zero context: one data extent.  For the dirty context they raise
`errors.UnsupportedOperation`. -/
def plainZero (size : Nat) : List ZeroExtent := [⟨0, size, false, some false⟩]

/-! ## `handlers/extents.py` -/

/-- The body of the response: the list of dicts given to `resp.send_json`.  `handlers/extents.py:46-51`. -/
abbrev Dicts := List Json

/-- `handlers/extents.py:23-51` `Handler.get`.  `auth` is the outcome of the authorization for
"read" and of `backends.get`, `dirtyTicket` is `ticket.dirty`, and the last two arguments are
the results of `ctx.backend.extents()`.  An error from the backend other than
`UnsupportedOperation` is an internal error.  The boolean of the result tells if the
handler closed the connection. -/
def handler (ticketId : Str) (query : List (Str × Str)) (auth : Option Err) (dirtyTicket : Bool)
    (zero : Except Err (List ZeroExtent)) (dirty : Except Err (List DirtyExtent)) :
    Except HErr Dicts × Bool :=
  if ticketId = [] then (.error (.http 400), false)
  else
    match auth with
    | some (.authorization _) => (.error (.http 403), true)
    | some _ => (.error .other, false)
    | none =>
      match enumQuery query (lit "context") [lit "zero", lit "dirty"] (lit "zero") with
      | .error e => (.error e, false)
      | .ok context =>
        if context = lit "dirty" && !dirtyTicket then (.error (.http 404), false)
        else
          let res : Except Err Dicts :=
            if context = lit "dirty" then dirty.map (·.map DirtyExtent.toDict)
            else zero.map (·.map ZeroExtent.toDict)
          match res with
          | .ok l => (.ok l, false)
          | .error e => if e = unsupported then (.error (.http 404), false) else (.error .other, false)

/-! ## The client, `backends/http.py` -/

/-- The rest of `_get_extents` for one of the classes of `extent.py`: `from_dict` of every dict.
`backends/http.py:523-525`. -/
def fromDicts {α : Type} (fromDict : Json → Option α) : Dicts → Except Err (List α)
  | [] => .ok []
  | d :: ds =>
    match fromDict d with
    | none => .error (.exception "KeyError")
    | some e =>
      match fromDicts fromDict ds with
      | .ok es => .ok (e :: es)
      | .error e => .error e

/-- `backends/http.py:508-525` `_get_extents`: the response with `status` and `body`.  `loads` is
`json.loads`, `none` when it raises. -/
def getExtents {τ α : Type} (loads : τ → Option Dicts) (fromDict : Json → Option α) (status : Nat)
    (body : τ) : Except Err (List α) :=
  if status = 404 then .error unsupported
  else if status ≠ 200 then .error (.exception "http.Error")
  else
    match loads body with
    | none => .error (.exception "ValueError")
    | some ds => fromDicts fromDict ds

/-- `backends/http.py:509` the query of the request. -/
def extentsQuery (context : Str) : List (Str × Str) := [(lit "context", context)]

/-- The status and the body of the response to the extents handler, `http.py:498-532`
`send_json`.  The body of an error is the message, modelled as the empty list.  The handler itself
does not write to the socket. -/
def respond {τ : Type} (dumps : Dicts → τ) : Except HErr Dicts → Nat × τ
  | .ok ds => (200, dumps ds)
  | .error (.http code) => (code, dumps [])
  | .error _ => (500, dumps [])

end Imageio.Extents
