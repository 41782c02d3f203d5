import Verif.Model.Memory
import Verif.Model.Nbd
/-!
Model of `ovirt_imageio/_internal/backends/nbd.py` over the client of `_internal/nbd.py`, with the
bytes that go to the server and come back.  `Model/NbdBackend.lean` is the same backend with a server
that is called directly.
-/
namespace Imageio.NbdWire
open Imageio.Memory (Mode)
open Imageio.Nbd (Conn Session M)

/-- What a server does with the bytes of one request: the bytes it sends, in pieces, and whether it
closes the connection after them.  `nbd.py:950-1046`. -/
structure Reply where
  bytes : Bytes
  frags : List Nat
  closes : Bool
deriving DecidableEq, Repr

/-- A server: any machine that gets the bytes of a request.  `image` is the content of the export, and
`disk` the part that would survive a crash.  The other side of `nbd.py:427-458`. -/
structure Server (τ : Type) where
  step : τ → Bytes → τ × Reply
  image : τ → Bytes
  disk : τ → Bytes

/-- What does not change: the server, what was negotiated with it (`Model/NbdHandshake.lean`), and the
old content of the buffers of the caller: `old h i` is byte `i` of the buffer of the request with
handle `h`.  The other side of `nbd.py:427-458`. -/
structure Env (τ : Type) where
  server : Server τ
  ss : Session
  old : Nat → Nat → Byte

/-- The state of the backend (`backends/nbd.py:61-66`), of its client, and of the server.  `size` is
`client.export_size`.  The dirty flag and the number of connections are not modelled. -/
structure State (τ : Type) where
  mode : Mode
  sparse : Bool
  pos : Nat
  size : Nat
  conn : Conn
  /-- the server did not close the connection -/
  alive : Bool
  srv : τ
deriving DecidableEq, Repr

/-- One call of a method `m` of the client: the server gets the bytes that the method sends, and its
reply is added to what the client did not receive yet.  The methods send everything before they
receive (`_internal/nbd.py:427-464`), so the bytes sent do not depend on the reply.  When the server
closed the connection nothing more arrives.  Simplification: sending to a closed connection succeeds,
and the client finds out when it receives. -/
def exchange {τ α : Type} (E : Env τ) (m : M α) (s : State τ) : Res (State τ) α :=
  let new := (m s.conn).2.sent.drop s.conn.sent.length
  if s.alive = true ∧ new ≠ [] then
    let (v, r) := E.server.step s.srv new
    let (a, c) := m { s.conn with rest := s.conn.rest ++ r.bytes, frags := r.frags }
    (a, { s with conn := c, srv := v, alive := !r.closes })
  else
    let (a, c) := m s.conn
    (a, { s with conn := c })

/-- The error of a method that the mode does not allow, `backends/nbd.py:97,113,122`. -/
def unsupported : Err := .os "Unsupported operation"

/-- `readinto`, `backends/nbd.py:95-109`. -/
def readinto {τ : Type} (E : Env τ) (s : State τ) (len : Nat) : Res (State τ) Bytes :=
  if !s.mode.readable then (.error unsupported, s)
  else
    let length := min len (s.size - s.pos)
    if length = 0 then (.ok [], s)
    else
      match exchange E (Nbd.readinto E.ss s.pos (Spec.load (E.old s.conn.counter) 0 length)) s with
      | (.error e, s') => (.error e, s')
      | (.ok d, s') => (.ok d, { s' with pos := s'.pos + length })

/-- `write`, `backends/nbd.py:111-118`. -/
def write {τ : Type} (E : Env τ) (s : State τ) (_addr : Nat) (d : Bytes) : Res (State τ) Nat :=
  if !s.mode.writable then (.error unsupported, s)
  else
    match exchange E (Nbd.write E.ss s.pos d) s with
    | (.error e, s') => (.error e, s')
    | (.ok (), s') => (.ok d.length, { s' with pos := s'.pos + d.length })

/-- `zero`, `backends/nbd.py:120-126`. -/
def zero {τ : Type} (E : Env τ) (s : State τ) (count : Nat) : Res (State τ) Nat :=
  if !s.mode.writable then (.error unsupported, s)
  else
    match exchange E (Nbd.zero E.ss s.pos count s.sparse) s with
    | (.error e, s') => (.error e, s')
    | (.ok (), s') => (.ok count, { s' with pos := s'.pos + count })

/-- `flush`, `backends/nbd.py:128-130`. -/
def flush {τ : Type} (E : Env τ) (s : State τ) : Res (State τ) Unit := exchange E (Nbd.flush E.ss) s

/-- `seek`, `backends/nbd.py:135-142`, with `os.SEEK_SET`. -/
def seek {τ : Type} (s : State τ) (n : Nat) : Res (State τ) Unit := (.ok (), { s with pos := n })

/-- The NBD backend, `backends/nbd.py:50-221`. -/
def backend {τ : Type} (E : Env τ) : Backend (State τ) where
  blockSize := E.ss.minBlock
  tell s := s.pos
  seek := seek
  readinto := readinto E
  write := write E
  zero := zero E
  flush := flush E
  size s := s.size

/-! ## Extents -/

/-- `nbd.py:414-416` `has_base_allocation`.  `_meta_context` has the names as keys too: those of all the
contexts that were registered. -/
def hasBaseAllocation (ss : Session) : Bool := ss.contexts.any fun c => c.2 = Nbd.baseAllocation

/-- The lookups in the dict of one reply, `nbdutil.py:134-142`. -/
def replyOf (ss : Session) (d : List (String × List Extents.Ext)) : Extents.Reply where
  alloc := d.lookup Nbd.baseAllocation
  depth := d.lookup Nbd.allocationDepth
  dirty := ss.dirtyBitmap.bind fun b => d.lookup b

/-- `nbdutil.py:127-161` the loop over the commands, with the requests on the wire.  When the server
sends no extents the python loop never ends; here the fuel runs out. -/
def extentsLoop {τ : Type} (E : Env τ) (dirty : Bool) (end_ : Nat) :
    (fuel : Nat) → Extents.Loop → State τ → Res (State τ) Extents.Loop
  | fuel, l, s =>
    if l.offset < end_ then
      match fuel with
      | 0 => (.error .stuck, s)
      | fuel + 1 =>
        match exchange E (Nbd.extents E.ss l.offset (min (end_ - l.offset) Extents.maxStep : Nat)) s with
        | (.error e, s') => (.error e, s')
        | (.ok d, s') =>
          match Extents.replyExtents dirty (replyOf E.ss d) with
          | .error e => (.error e, s')
          | .ok exts => extentsLoop E dirty end_ fuel (Extents.addReply end_ exts l) s'
    else (.ok l, s)

/-- `nbdutil.py:100-161` `extents` of the whole export. -/
def extents {τ : Type} (E : Env τ) (dirty : Bool) (s : State τ) : Res (State τ) (List (Option Extents.Ext)) :=
  match extentsLoop E dirty s.size s.size ⟨0, none, []⟩ s with
  | (.error e, s') => (.error e, s')
  | (.ok l, s') => (.ok (l.out.map some ++ [l.cur]), s')

/-- `backends/nbd.py:162-189` `Backend.extents` for the zero context. -/
def zeroExtents {τ : Type} (E : Env τ) (s : State τ) : Res (State τ) (List Extents.ZeroExtent) :=
  if !hasBaseAllocation E.ss then (.ok [⟨0, s.size, false, some false⟩], s)
  else
    match extents E false s with
    | (.error e, s') => (.error e, s')
    | (.ok exts, s') => (Extents.zeroExtents 0 exts, s')

/-- `backends/nbd.py:162-189` `Backend.extents` for the dirty context. -/
def dirtyExtents {τ : Type} (E : Env τ) (s : State τ) : Res (State τ) (List Extents.DirtyExtent) :=
  if E.ss.dirtyBitmap = none then (.error Extents.unsupported, s)
  else
    match extents E true s with
    | (.error e, s') => (.error e, s')
    | (.ok exts, s') => (Extents.dirtyExtents 0 exts, s')

end Imageio.NbdWire
