import Verif.Model.Extents
/-!
Model of `ovirt_imageio/_internal/nbd.py`: commands and replies of the transmission phase.

The connection is modelled by the bytes that the server sends.  After the last byte the server
closes the connection.  Receiving may return any positive number of the bytes wanted
(`frags`).  Errors of the socket itself are not modelled: they are exceptions, like the end of the
stream.
-/
namespace Imageio.Nbd
open Imageio.Extents

/-- The connection and the counter of the handles (`nbd.py:402`). -/
structure Conn where
  /-- The bytes from the server that were not received yet. -/
  rest : Bytes
  /-- How many bytes the next calls of `recv_into` return: at most `f + 1` each. -/
  frags : List Nat
  /-- The bytes sent to the server. -/
  sent : Bytes
  counter : Nat
deriving DecidableEq, Repr

/-- A method of the client.  The methods of `nbd.py:370-1255`. -/
def M (α : Type) : Type := Conn → Except Err α × Conn

/-- Two statements of a method: an exception ends it.  The methods of `nbd.py:370-1255`. -/
def M.bind {α β : Type} (m : M α) (f : α → M β) : M β := fun s =>
  match m s with
  | (.error e, s) => (.error e, s)
  | (.ok a, s) => f a s

instance : Monad M where
  pure a := fun s => (.ok a, s)
  bind := M.bind

/-- `raise`.  For example `nbd.py:1059`. -/
def raise {α : Type} (e : Err) : M α := fun s => (.error e, s)

/-- `nbd.py:199-203`. -/
def protocolError : Err := .exception "ProtocolError"
/-- `nbd.py:216-223`. -/
def invalidLength : Err := .exception "InvalidLength"
/-- `nbd.py:226-231`. -/
def unexpectedHandle : Err := .exception "UnexpectedHandle"
/-- `nbd.ReplyError` with the code of the server.  `nbd.py:268-286`; only the code is kept. -/
def replyError (code : Nat) : Err := .exception ("ReplyError " ++ toString code)
/-- `nbd.py:253-257`. -/
def requestError : Err := .exception "RequestError"
/-- `nbd.py:260-265`. -/
def unsupportedRequest : Err := .exception "UnsupportedRequest"
/-- Raised by `Struct.pack`, `nbd.py:1290`. -/
def structError : Err := .exception "struct.error"

/-! ## Plain I/O -/

/-- `sock.recv_into(view)` for a view of `n` bytes: empty only at the end of the stream.  Called in `nbd.py:1235`. -/
def sockRecv (s : Conn) (n : Nat) : Bytes × Conn :=
  let k := match s.frags with
    | [] => n
    | f :: _ => min n (f + 1)
  (s.rest.take k, { s with rest := s.rest.drop k, frags := s.frags.tail })

/-- `nbd.py:1230-1241` `_recv_into`: the bytes stored in the buffer.  Simplification: the bytes that
are stored before the end of the stream are dropped, since the command fails. -/
def recvLoop : (fuel n : Nat) → M Bytes
  | fuel, n => fun s =>
    if n = 0 then (.ok [], s)
    else
      match fuel with
      | 0 => (.error .stuck, s)
      | fuel + 1 =>
        let (d, s) := sockRecv s n
        if d.length = 0 then (.error protocolError, s)
        else
          match recvLoop fuel (n - d.length) s with
          | (.error e, s) => (.error e, s)
          | (.ok d', s) => (.ok (d ++ d'), s)

/-- `nbd.py:1225-1228` `_recv`, and `_recv_into` for a buffer of `n` bytes. -/
def recv (n : Nat) : M Bytes := recvLoop n n

/-- `nbd.py:1222-1223` `_send`. -/
def send (data : Bytes) : M Unit := fun s => (.ok (), { s with sent := s.sent ++ data })

/-- `struct.unpack` of one big endian unsigned number.  `nbd.py:1218`, `1391`. -/
def unpackNat : Bytes → Nat := List.foldl (fun n b => n * 256 + b.toNat) 0

/-- The field of `size` bytes at `offset`, for the formats of `nbd.py:1215-1218` `_recv_fmt`. -/
def field (b : Bytes) (offset size : Nat) : Nat := unpackNat ((b.drop offset).take size)

/-- Big endian digits of a number.  `nbd.py:1290`. -/
def packNat : (size n : Nat) → Bytes
  | 0, _ => []
  | size + 1, n => packNat size (n / 256) ++ [UInt8.ofNat (n % 256)]

/-- `struct.pack` of one big endian unsigned number of `size` bytes; `struct.error` when it does not
fit.  `nbd.py:1290-1296`. -/
def pack (size : Nat) (v : Int) : Except Err Bytes :=
  if 0 ≤ v ∧ v < (256 ^ size : Nat) then .ok (packNat size v.toNat) else .error structError

/-! ## Commands -/

/-- `nbd.py:34`. -/
def requestMagic : Nat := 0x25609513
/-- `nbd.py:35`. -/
def simpleReplyMagic : Nat := 0x67446698
/-- `nbd.py:36`. -/
def structuredReplyMagic : Nat := 0x668e33ef

/-- `nbd.py:1258-1348` `Command` and its subclasses.  `buf` is the buffer of `Read`, and `reply` is
the dict of `BlockStatus`; `None` for the other commands. -/
structure Cmd where
  flags : Int
  type : Int
  handle : Int
  offset : Int
  length : Int
  buf : Option Bytes
  onlyStructured : Bool
  reply : Option (List (String × List Ext))
  /-- offset and code of the error chunks -/
  errors : List (Nat × Nat)
deriving Repr

/-- `nbd.py:1289-1296` `Command.to_bytes`. -/
def Cmd.toBytes (c : Cmd) : Except Err Bytes :=
  match pack 4 requestMagic, pack 2 c.flags, pack 2 c.type, pack 8 c.handle, pack 8 c.offset,
      pack 4 c.length with
  | .ok a, .ok b, .ok c, .ok d, .ok e, .ok f => .ok (a ++ b ++ c ++ d ++ e ++ f)
  | _, _, _, _, _, _ => .error structError

/-- `nbd.py:1303-1311` `Read`. -/
def Cmd.read (handle : Nat) (offset : Int) (buf : Bytes) (onlyStructured : Bool) : Cmd :=
  ⟨0, 0, handle, offset, buf.length, some buf, onlyStructured, none, []⟩

/-- `nbd.py:1314-1316` `Write`. -/
def Cmd.write (handle : Nat) (offset : Int) (length : Nat) : Cmd :=
  ⟨0, 1, handle, offset, length, none, false, none, []⟩

/-- `nbd.py:1319-1324` `Disc`. -/
def Cmd.disc (handle : Nat) : Cmd := ⟨0, 2, handle, 0, 0, none, false, none, []⟩

/-- `nbd.py:1327-1332` `Flush`. -/
def Cmd.flush (handle : Nat) : Cmd := ⟨0, 3, handle, 0, 0, none, false, none, []⟩

/-- `nbd.py:1335-1337` `WriteZeroes`. -/
def Cmd.zero (handle : Nat) (offset length : Int) (flags : Nat) : Cmd :=
  ⟨flags, 6, handle, offset, length, none, false, none, []⟩

/-- `nbd.py:1340-1348` `BlockStatus`. -/
def Cmd.blockStatus (handle : Nat) (offset length : Int) : Cmd :=
  ⟨0, 7, handle, offset, length, none, true, some [], []⟩

/-- What was negotiated, `nbd.py:391-402`: `contexts` is the mapping from context id to context
name. -/
structure Session where
  structured : Bool
  contexts : List (Nat × String)
  dirtyBitmap : Option String
  minBlock : Nat
  transmissionFlags : Nat
deriving DecidableEq, Repr

/-- `nbd.py:109`. -/
def baseAllocation : String := "base:allocation"
/-- `nbd.py:110`. -/
def allocationDepth : String := "qemu:allocation-depth"

/-! ## Replies -/

/-- Assignment to a slice of the same length.  `nbd.py:1177-1179`, `1199`. -/
def putSlice (buf : Bytes) (lo : Nat) (d : Bytes) : Bytes :=
  buf.take lo ++ d ++ buf.drop (lo + d.length)

/-- `nbd.py:991-1010` `_recv_simple_reply`. -/
def recvSimpleReply (cmd : Cmd) : M Cmd := do
  let h ← recv 12
  if field h 0 4 ≠ 0 then raise (replyError (field h 0 4))
  else if (field h 4 8 : Int) ≠ cmd.handle then raise unexpectedHandle
  else
    match cmd.buf with
    | none => pure cmd
    | some buf => do
      let d ← recv buf.length
      pure { cmd with buf := some d }

/-- `nbd.py:1201-1211` `_recv_error_chunk`: the code.  The message is received and not modelled. -/
def recvErrorChunk (length : Int) : M Nat := do
  let h ← recv 6
  if (field h 4 2 : Int) ≠ length - 6 then raise protocolError
  else do
    let _ ← recv (field h 4 2)
    pure (field h 0 4)

/-- `nbd.py:1127-1146` `_handle_error_chunk`: always raises. -/
def handleErrorChunk (length flags : Nat) : M Unit := do
  let code ← recvErrorChunk length
  if flags % 2 = 1 then raise (replyError code) else raise protocolError

/-- `nbd.py:1148-1161` `_handle_error_offset_chunk`. -/
def handleErrorOffsetChunk (length : Nat) (cmd : Cmd) : M Cmd := do
  let code ← recvErrorChunk ((length : Int) - 8)
  let o ← recv 8
  pure { cmd with errors := cmd.errors ++ [(field o 0 8, code)] }

/-- `nbd.py:1119-1125` `_handle_none_chunk`. -/
def handleNoneChunk (flags length : Nat) (cmd : Cmd) : M Cmd :=
  if flags % 2 ≠ 1 then raise protocolError
  else if length ≠ 0 then raise invalidLength
  else pure cmd

/-- `nbd.py:1163-1179` `_handle_data_chunk`.  The slice of the buffer follows the python rules: the
offset of the chunk is not validated. -/
def handleDataChunk (length : Nat) (cmd : Cmd) : M Cmd := do
  let o ← recv 8
  match cmd.buf with
  | none => raise (.exception "TypeError")
  | some buf =>
    let lo := (field o 0 8 : Int) - cmd.offset
    let hi := lo + ((length : Int) - 8)
    do
      let d ← recv (pyBound buf.length hi - pyBound buf.length lo)
      pure { cmd with buf := some (putSlice buf (pyBound buf.length lo) d) }

/-- `nbd.py:1181-1199` `_handle_hole_chunk`.  `cmd.buf` is a memoryview (`backends/nbd.py:105`,
`nbdutil.py:282`): the assignment raises when the slice has another length. -/
def handleHoleChunk (length : Nat) (cmd : Cmd) : M Cmd :=
  if length ≠ 12 then raise invalidLength
  else do
    let h ← recv 12
    if field h 8 4 = 0 then raise protocolError
    else
      match cmd.buf with
      | none => raise (.exception "TypeError")
      | some buf =>
        let lo := (field h 0 8 : Int) - cmd.offset
        let hi := lo + field h 8 4
        if pyBound buf.length hi - pyBound buf.length lo ≠ field h 8 4 then raise (.exception "ValueError")
        else pure { cmd with buf := some (putSlice buf (pyBound buf.length lo) (zeros (field h 8 4))) }

/-- `nbd.py:1075-1080` the kind of a context. -/
def contextKind (ss : Session) (name : String) : Context :=
  if some name = ss.dirtyBitmap then .dirty
  else if name = allocationDepth then .depth
  else .alloc

/-- `nbd.py:1113-1117` and `nbd.py:1082-1089`: unpack and validate the extents in a buffer.  The remainder of python raises if
the server announced 0 as its minimum block size. -/
def unpackExtents (ss : Session) (context : Context) : (count : Nat) → Bytes → Except Err (List Ext)
  | 0, _ => .ok []
  | count + 1, b =>
    match Ext.unpack (field b 0 4) (field b 4 4) context with
    | .error e => .error e
    | .ok e =>
      if ss.minBlock = 0 then .error (.exception "ZeroDivisionError")
      else if e.length % ss.minBlock ≠ 0 then .error protocolError
      else
        match unpackExtents ss context count (b.drop 8) with
        | .error e => .error e
        | .ok es => .ok (e :: es)

/-- `nbd.py:1093-1117` `_recv_extents`: receive up to 1024 extents at once. -/
def recvExtents (ss : Session) (context : Context) : (fuel length : Nat) → M (List Ext)
  | fuel, length =>
    if length = 0 then pure []
    else
      match fuel with
      | 0 => raise .stuck
      | fuel + 1 => do
        let d ← recv (min length (8 * 1024))
        match unpackExtents ss context (d.length / 8) d with
        | .error e => raise e
        | .ok es => do
          let es' ← recvExtents ss context fuel (length - d.length)
          pure (es ++ es')

/-- `nbd.py:175`, `nbd.py:184` `MAX_EXTENTS`. -/
def maxExtents : Nat := (2 ^ 32 - 1) / 4096

/-- `dict[name] = extents`.  `nbd.py:1091`. -/
def setItem (d : List (String × List Ext)) (name : String) (es : List Ext) : List (String × List Ext) :=
  d.filter (·.1 ≠ name) ++ [(name, es)]

/-- `nbd.py:1048-1091` `_handle_block_status_chunk`. -/
def handleBlockStatusChunk (ss : Session) (length : Nat) (cmd : Cmd) : M Cmd :=
  if length / 8 = 0 ∨ length % 8 ≠ 4 then raise protocolError
  else if length / 8 > maxExtents then raise protocolError
  else do
    let h ← recv 4
    match ss.contexts.lookup (field h 0 4) with
    | none => raise protocolError
    | some name => do
      let es ← recvExtents ss (contextKind ss name) (length - 4) (length - 4)
      match cmd.reply with
      | none => raise (.exception "AttributeError")
      | some d => pure { cmd with reply := some (setItem d name es) }

/-- `nbd.py:1012-1046` `_recv_reply_chunk`: true for the last chunk. -/
def recvReplyChunk (ss : Session) (cmd : Cmd) : M (Cmd × Bool) := do
  let h ← recv 16
  let flags := field h 0 2
  let type := field h 2 2
  let handle := field h 4 8
  let length := field h 12 4
  if (handle : Int) ≠ cmd.handle then raise unexpectedHandle
  else if type = 32769 then do
    handleErrorChunk length flags
    raise protocolError
  else do
    let cmd ←
      if type = 32770 then handleErrorOffsetChunk length cmd
      else if type = 0 then handleNoneChunk flags length cmd
      else if type = 1 then handleDataChunk length cmd
      else if type = 2 then handleHoleChunk length cmd
      else if type = 5 then handleBlockStatusChunk ss length cmd
      else raise protocolError
    pure (cmd, flags % 2 = 1)

/-- `nbd.py:950-989` `_recv_reply`, the loop.  Every round receives at least 4 bytes. -/
def recvReplyLoop (ss : Session) : (fuel : Nat) → Cmd → M Cmd
  | 0, _ => raise .stuck
  | fuel + 1, cmd => do
    let m ← recv 4
    if field m 0 4 = simpleReplyMagic then
      if cmd.onlyStructured then raise protocolError
      else recvSimpleReply cmd
    else if field m 0 4 = structuredReplyMagic then
      if !ss.structured then raise protocolError
      else do
        let (cmd, done) ← recvReplyChunk ss { cmd with onlyStructured := true }
        if done then
          if cmd.errors ≠ [] then raise requestError else pure cmd
        else recvReplyLoop ss fuel cmd
    else raise protocolError

/-- `nbd.py:950-989` `_recv_reply`.  The loop cannot have more rounds than bytes. -/
def recvReply (ss : Session) (cmd : Cmd) : M Cmd :=
  fun s => recvReplyLoop ss (s.rest.length + 1) cmd s

/-! ## The client -/

/-- `nbd.py:943-944` `_next_handle`. -/
def nextHandle : M Nat := fun s => (.ok s.counter, { s with counter := s.counter + 1 })

/-- `nbd.py:946-948` `_send_command`. -/
def sendCommand (cmd : Cmd) : M Unit :=
  match cmd.toBytes with
  | .error e => raise e
  | .ok b => send b

/-- `nbd.py:427-435` `Client.readinto`: the new content of the buffer. -/
def readinto (ss : Session) (offset : Int) (buf : Bytes) : M Bytes := do
  let handle ← nextHandle
  let cmd := Cmd.read handle offset buf ss.structured
  sendCommand cmd
  let cmd ← recvReply ss cmd
  pure (cmd.buf.getD [])

/-- `nbd.py:437-441` `Client.write`. -/
def write (ss : Session) (offset : Int) (data : Bytes) : M Unit := do
  let handle ← nextHandle
  let cmd := Cmd.write handle offset data.length
  sendCommand cmd
  send data
  let _ ← recvReply ss cmd
  pure ()

/-- `nbd.py:443-450` `Client.zero`. -/
def zero (ss : Session) (offset length : Int) (punchHole : Bool) : M Unit :=
  if ss.transmissionFlags / 64 % 2 = 0 then raise unsupportedRequest
  else do
    let handle ← nextHandle
    let cmd := Cmd.zero handle offset length (if punchHole then 0 else 2)
    sendCommand cmd
    let _ ← recvReply ss cmd
    pure ()

/-- `nbd.py:452-458` `Client.flush`. -/
def flush (ss : Session) : M Unit :=
  if ss.transmissionFlags / 4 % 2 = 0 then pure ()
  else do
    let handle ← nextHandle
    let cmd := Cmd.flush handle
    sendCommand cmd
    let _ ← recvReply ss cmd
    pure ()

/-- `nbd.py:460-464` `Client.extents`: the extents of every context. -/
def extents (ss : Session) (offset length : Int) : M (List (String × List Ext)) := do
  let handle ← nextHandle
  let cmd := Cmd.blockStatus handle offset length
  sendCommand cmd
  let cmd ← recvReply ss cmd
  pure (cmd.reply.getD [])

/-- `nbd.py:893-926` `_soft_disconnect` in the transmission phase: the last command. -/
def disconnect : M Unit := do
  let handle ← nextHandle
  sendCommand (Cmd.disc handle)

end Imageio.Nbd
