import Verif.Model.Nbd
/-!
Model of the handshake of the NBD client, `ovirt_imageio/_internal/nbd.py:372-420,519-889`.
The connection is the one of `Model/Nbd.lean`.  Logging and connecting the socket are not modelled.
-/
namespace Imageio.Nbd
open Imageio.Extents

/-- `str.encode("utf-8")`; lone surrogates, which raise `UnicodeEncodeError`, are not modelled.
For example `nbd.py:679`. -/
def encodeUtf8 (s : String) : Bytes := s.toUTF8.data.toList

/-- `bytes.decode("utf-8")`; `none` is `UnicodeDecodeError`.  For example `nbd.py:724`. -/
def decodeUtf8 (b : Bytes) : Option String := String.fromUTF8? ⟨b.toArray⟩

/-- `nbd.py:31` `NBDMAGIC`. -/
def nbdMagic : Nat := 0x4e42444d41474943
/-- `nbd.py:32`. -/
def iHaveOpt : Nat := 0x49484156454F5054
/-- `nbd.py:33`. -/
def optionReplyMagic : Nat := 0x3e889045565a9

/-- `nbd.py:58` `OPT_ABORT`. -/
def optAbort : Nat := 2
/-- `nbd.py:59`. -/
def optGo : Nat := 7
/-- `nbd.py:60`. -/
def optStructuredReply : Nat := 8
/-- `nbd.py:61`. -/
def optListMetaContext : Nat := 9
/-- `nbd.py:62`. -/
def optSetMetaContext : Nat := 10

/-- `nbd.py:65` `REP_ACK`. -/
def repAck : Nat := 1
/-- `nbd.py:66`. -/
def repInfo : Nat := 3
/-- `nbd.py:67`. -/
def repMetaContext : Nat := 4

/-- `nbd.py:114-115` `REP_ERR_UNSUP`, the first of the errors. -/
def repErrUnsup : Nat := 2 ^ 31 + 1
/-- The keys of `ERROR_REPLY`, `nbd.py:115-153`. -/
def isErrorReply (reply : Nat) : Bool := repErrUnsup ≤ reply && reply ≤ 2 ^ 31 + 9

/-- `nbd.py:244-250`. -/
def optionUnsupported : Err := .exception "OptionUnsupported"
/-- `nbd.py:234-241`. -/
def optionError : Err := .exception "OptionError"
/-- `nbd.py:206-213`. -/
def unexpectedOptionReply : Err := .exception "UnexpectedOptionReply"
/-- Raised by `bytes.decode`, `nbd.py:724`. -/
def unicodeError : Err := .exception "UnicodeDecodeError"

/-- Raise the error of a result.  For example `nbd.py:836-840`, when `Struct.pack` raises. -/
def lift {α : Type} : Except Err α → M α
  | .ok a => pure a
  | .error e => raise e

/-- `nbd.py:831-840` `_send_option` -/
def sendOption (opt : Nat) (data : Bytes) : M Unit := do
  let n ← lift (pack 4 data.length)
  send (packNat 8 iHaveOpt ++ packNat 4 opt ++ n)
  if data ≠ [] then send data else pure ()

/-- `nbd.py:842-869` `_recv_option_reply`: the type and the length. -/
def recvOptionReply (opt : Nat) : M (Nat × Nat) := do
  let h ← recv 20
  if field h 0 8 ≠ optionReplyMagic then raise protocolError
  else if field h 8 4 ≠ opt then raise protocolError
  else pure (field h 12 4, field h 16 4)

/-- `nbd.py:871-889` `_handle_option_error`: receive the message; the value is the exception that
is raised.  The message is not modelled. -/
def optionFailure (reply length : Nat) : M Err := do
  let _ ← recv length
  pure (if reply = repErrUnsup then optionUnsupported else optionError)

/-- `nbd.py:815-829` `_negotiate_option`: the error is the one of the option. -/
def negotiateOption (opt : Nat) (data : Bytes) : M (Except Err Unit) := do
  sendOption opt data
  let r ← recvOptionReply opt
  if isErrorReply r.1 then do
    let e ← optionFailure r.1 r.2
    pure (.error e)
  else if r.1 ≠ repAck then raise unexpectedOptionReply
  else if r.2 ≠ 0 then raise invalidLength
  else pure (.ok ())

/-- `nbd.py:561-580` `_negotiate_structured_reply_option`: the value of `_structured_reply`. -/
def negotiateStructuredReply : M Bool := do
  match ← negotiateOption optStructuredReply [] with
  | .ok () => pure true
  | .error e => if e = optionUnsupported then pure false else raise e

/-- `nbd.py:677-681` one query. -/
def formatQuery (query : String) : M Bytes := do
  let n ← lift (pack 4 (encodeUtf8 query).length)
  pure (n ++ encodeUtf8 query)

/-- The queries, one after the other.  `nbd.py:677-681`. -/
def formatQueries : List String → M Bytes
  | [] => pure []
  | q :: qs => do
    let a ← formatQuery q
    let b ← formatQueries qs
    pure (a ++ b)

/-- `nbd.py:661-683` `_format_meta_context_data` -/
def formatMetaContextData (exportName : String) (queries : List String) : M Bytes := do
  let a ← formatQuery exportName
  let n ← lift (pack 4 queries.length)
  let b ← formatQueries queries
  pure (a ++ n ++ b)

/-- `nbd.py:710-726` `_recv_meta_context_reply` -/
def recvMetaContextReply (length : Nat) : M (String × Nat) := do
  if length < 4 then raise invalidLength
  else do
    let d ← recv length
    match decodeUtf8 (d.drop 4) with
    | none => raise unicodeError
    | some name => pure (name, field d 0 4)

/-- `nbd.py:685-708` `_iter_meta_context_replies`, with the check of the consumer of the generator
(`nbd.py:638-642`), which runs after every context.  A reply has at least 20 bytes, so the number of
the replies is bounded by `fuel`. -/
def metaContextReplies (opt : Nat) (wanted : String → Bool) : (fuel : Nat) → M (List (String × Nat))
  | 0 => raise .stuck
  | fuel + 1 => do
    let r ← recvOptionReply opt
    if isErrorReply r.1 then do
      let e ← optionFailure r.1 r.2
      if e = optionUnsupported then pure [] else raise e
    else if r.1 = repAck then
      if r.2 ≠ 0 then raise invalidLength else pure []
    else if r.1 ≠ repMetaContext then raise unexpectedOptionReply
    else do
      let c ← recvMetaContextReply r.2
      if wanted c.1 then do
        let cs ← metaContextReplies opt wanted fuel
        pure (c :: cs)
      else raise protocolError

/-- The generator with enough fuel.  `nbd.py:685-708`. -/
def iterMetaContextReplies (opt : Nat) (wanted : String → Bool) : M (List (String × Nat)) :=
  fun s => metaContextReplies opt wanted (s.rest.length + 1) s

/-- `nbd.py:111` -/
def qemuDirtyBitmap : String := "qemu:dirty-bitmap:"

/-- `nbd.py:582-605` `_query_dirty_bitmap` -/
def queryDirtyBitmap (exportName : String) : M (Option String) := do
  let data ← formatMetaContextData exportName [qemuDirtyBitmap]
  sendOption optListMetaContext data
  let bitmaps ← iterMetaContextReplies optListMetaContext (fun _ => true)
  match bitmaps with
  | [c] => pure (some c.1)
  | _ => pure none

/-- `nbd.py:616-618` the queries; the empty name is false. -/
def wantedContexts (dirtyBitmap : Option String) : List String :=
  [baseAllocation, allocationDepth] ++
    match dirtyBitmap with
    | none => []
    | some b => if b = "" then [] else [b]

/-- `nbd.py:607-659` `_set_meta_context`: the contexts in the order of the replies. -/
def setMetaContext (exportName : String) (dirtyBitmap : Option String) : M (List (String × Nat)) := do
  let queries := wantedContexts dirtyBitmap
  let data ← formatMetaContextData exportName queries
  sendOption optSetMetaContext data
  iterMetaContextReplies optSetMetaContext (fun n => decide (n ∈ queries))

/-- The attributes set by `_negotiate_go_option`, `nbd.py:380-391`: size and flags of the export,
and the minimum, preferred and maximum block size. -/
structure GoInfo where
  export_ : Option (Nat × Nat)
  blocks : Nat × Nat × Nat
deriving DecidableEq, Repr

/-- `nbd.py:380-391` the initial values. -/
def GoInfo.init : GoInfo := ⟨none, (1, 4096, 32 * 1024 * 1024)⟩

/-- `nbd.py:760-770,795-811` one information; `length` is the length without the type. -/
def recvInfo (length : Nat) (g : GoInfo) : M GoInfo := do
  let t ← recv 2
  let length := length - 2
  if field t 0 2 = 0 then
    if length ≠ 10 then raise invalidLength
    else do
      let d ← recv 10
      pure { g with export_ := some (field d 0 8, field d 8 2) }
  else if field t 0 2 = 3 then
    if length ≠ 12 then raise invalidLength
    else do
      let d ← recv 12
      pure { g with blocks := (field d 0 4, field d 4 4, field d 8 4) }
  else do
    let _ ← recv length
    pure g

/-- `nbd.py:740-770` the loop of `_negotiate_go_option`. -/
def goReplies : (fuel : Nat) → GoInfo → M GoInfo
  | 0, _ => raise .stuck
  | fuel + 1, g => do
    let r ← recvOptionReply optGo
    if isErrorReply r.1 then do
      let e ← optionFailure r.1 r.2
      raise e
    else if r.1 = repAck then
      if r.2 ≠ 0 then raise invalidLength
      else if g.export_ = none then raise protocolError
      else pure g
    else if r.1 ≠ repInfo then raise unexpectedOptionReply
    else if r.2 < 2 then raise invalidLength
    else do
      let g ← recvInfo r.2 g
      goReplies fuel g

/-- `nbd.py:772-793` `_format_go_option_data` without requests. -/
def formatGoOptionData (exportName : String) : M Bytes := do
  let a ← formatQuery exportName
  pure (a ++ packNat 2 0)

/-- `nbd.py:728-770` `_negotiate_go_option` -/
def negotiateGoOption (exportName : String) : M GoInfo := do
  let data ← formatGoOptionData exportName
  sendOption optGo data
  fun s => goReplies (s.rest.length + 1) GoInfo.init s

/-- The attributes of a connected client, `nbd.py:380-400`.  `_meta_context` is one dict with two
kinds of keys: `names` from name to id, and `session.contexts` from id to name; the last assignment
is the first in the list. -/
structure Client where
  session : Session
  names : List (String × Nat)
  exportSize : Nat
  preferredBlock : Nat
  maximumBlock : Nat
deriving DecidableEq, Repr

/-- `nbd.py:646-651` what is stored for the contexts. -/
def register (contexts : List (String × Nat)) (dirtyBitmap : Option String) :
    List (String × Nat) × List (Nat × String) × Option String :=
  (contexts.reverse, contexts.reverse.map (fun c => (c.2, c.1)),
   if contexts.any (fun c => some c.1 == dirtyBitmap) then dirtyBitmap else none)

/-- `nbd.py:546-548` the meta contexts, if structured replies are supported. -/
def negotiateContexts (exportName : String) (dirty structured : Bool) :
    M (List (String × Nat) × List (Nat × String) × Option String) :=
  if structured then
    (if dirty then queryDirtyBitmap exportName else pure none) >>= fun bitmap => do
      let contexts ← setMetaContext exportName bitmap
      pure (register contexts bitmap)
  else pure ([], [], none)

/-- `nbd.py:519-550` `_newstyle_handshake` -/
def handshake (exportName : String) (dirty : Bool) : M Client := do
  let h ← recv 18
  if field h 0 8 ≠ nbdMagic then raise protocolError
  else if field h 8 8 ≠ iHaveOpt then raise protocolError
  else if field h 16 2 % 2 ≠ 1 then raise protocolError
  else do
    send (packNat 4 1)
    let structured ← negotiateStructuredReply
    let c ← negotiateContexts exportName dirty structured
    let g ← negotiateGoOption exportName
    match g.export_ with
    | none => raise protocolError
    | some (size, flags) =>
      pure { session := ⟨structured, c.2.1, c.2.2, g.blocks.1, flags⟩
             names := c.1, exportSize := size
             preferredBlock := g.blocks.2.1, maximumBlock := g.blocks.2.2 }

/-- `nbd.py:372-412` `Client.__init__`, after the socket was connected: when the handshake fails the
client sends `OPT_ABORT` (`nbd.py:893-926`) and closes the socket. -/
def connect (exportName : String) (dirty : Bool) : M Client := fun s =>
  match handshake exportName dirty s with
  | (.ok c, s) => (.ok c, s)
  | (.error e, s) =>
    match sendOption optAbort [] s with
    | (_, s) => (.error e, s)

/-- `nbd.py:414-416` `has_base_allocation`. -/
def Client.hasBaseAllocation (c : Client) : Bool := (c.names.lookup baseAllocation).isSome
/-- `nbd.py:418-420`. -/
def Client.hasAllocationDepth (c : Client) : Bool := (c.names.lookup allocationDepth).isSome

end Imageio.Nbd
