import Verif.Base
/-!
The wire format of the NBD transmission phase, from the NBD protocol
(https://github.com/NetworkBlockDevice/nbd/blob/master/doc/proto.md), written as encoders: what a
client sends and what a server sends.
-/
namespace Imageio.Spec

/-- The number `v` as `k` bytes in network order. -/
def be (k v : Nat) : Bytes := (List.range k).map fun i => UInt8.ofNat (v / 256 ^ (k - 1 - i) % 256)

/-- A request of the client. -/
structure NbdRequest where
  flags : Nat
  type : Nat
  handle : Nat
  offset : Nat
  length : Nat
deriving DecidableEq, Repr

/-- The values that have a place on the wire. -/
def NbdRequest.Fits (r : NbdRequest) : Prop :=
  r.flags < 2 ^ 16 ∧ r.type < 2 ^ 16 ∧ r.handle < 2 ^ 64 ∧ r.offset < 2 ^ 64 ∧ r.length < 2 ^ 32

instance (r : NbdRequest) : Decidable r.Fits := by unfold NbdRequest.Fits; infer_instance

/-- The request on the wire: magic, command flags, type, handle, offset, length. -/
def NbdRequest.wire (r : NbdRequest) : Bytes :=
  be 4 0x25609513 ++ be 2 r.flags ++ be 2 r.type ++ be 8 r.handle ++ be 8 r.offset ++ be 4 r.length

/-- The chunks of a structured reply. -/
inductive NbdChunk where
  | none
  | data (offset : Nat) (bytes : Bytes)
  | hole (offset size : Nat)
  /-- the extents (length and flags) of one meta context -/
  | status (context : Nat) (extents : List (Nat × Nat))
  | error (code : Nat) (message : Bytes)
  | errorOffset (code : Nat) (message : Bytes) (offset : Nat)
deriving DecidableEq, Repr

/-- NBD_REPLY_TYPE_* -/
def NbdChunk.type : NbdChunk → Nat
  | .none => 0
  | .data .. => 1
  | .hole .. => 2
  | .status .. => 5
  | .error .. => 2 ^ 15 + 1
  | .errorOffset .. => 2 ^ 15 + 2

def NbdChunk.payload : NbdChunk → Bytes
  | .none => []
  | .data offset bytes => be 8 offset ++ bytes
  | .hole offset size => be 8 offset ++ be 4 size
  | .status context extents => be 4 context ++ extents.flatMap fun e => be 4 e.1 ++ be 4 e.2
  | .error code message => be 4 code ++ be 2 message.length ++ message
  | .errorOffset code message offset => be 4 code ++ be 2 message.length ++ message ++ be 8 offset

/-- The values that have a place on the wire. -/
def NbdChunk.Fits (c : NbdChunk) : Prop :=
  c.payload.length < 2 ^ 32 ∧
  match c with
  | .none => True
  | .data offset _ => offset < 2 ^ 64
  | .hole offset size => offset < 2 ^ 64 ∧ size < 2 ^ 32
  | .status context extents => context < 2 ^ 32 ∧ ∀ e ∈ extents, e.1 < 2 ^ 32 ∧ e.2 < 2 ^ 32
  | .error code message => code < 2 ^ 32 ∧ message.length < 2 ^ 16
  | .errorOffset code message offset => code < 2 ^ 32 ∧ message.length < 2 ^ 16 ∧ offset < 2 ^ 64

instance (c : NbdChunk) : Decidable c.Fits := by
  unfold NbdChunk.Fits
  cases c <;> infer_instance

/-- A chunk on the wire: magic, flags, type, handle, length of the payload, payload. -/
def NbdChunk.wire (handle flags : Nat) (c : NbdChunk) : Bytes :=
  be 4 0x668e33ef ++ be 2 flags ++ be 2 c.type ++ be 8 handle ++ be 4 c.payload.length ++ c.payload

/-- A structured reply: the flags and the content of the chunks. -/
abbrev NbdReply := List (Nat × NbdChunk)

/-- The reply on the wire. -/
def NbdReply.wire (handle : Nat) (r : NbdReply) : Bytes := r.flatMap fun c => c.2.wire handle c.1

/-- The flag NBD_REPLY_FLAG_DONE (the lowest bit) is set in the last chunk and only there. -/
inductive NbdReply.Framed : NbdReply → Prop
  | last {flags : Nat} (c : NbdChunk) (hf : flags < 2 ^ 16) (hd : flags % 2 = 1) : Framed [(flags, c)]
  | more {flags : Nat} (c : NbdChunk) {r : NbdReply} (hf : flags < 2 ^ 16) (hd : flags % 2 = 0)
      (hc : c ≠ .none) (hr : Framed r) : Framed ((flags, c) :: r)

/-- A simple reply on the wire: magic, error, handle, and the data of a successful read. -/
def simpleReply (handle code : Nat) (data : Bytes) : Bytes :=
  be 4 0x67446698 ++ be 4 code ++ be 8 handle ++ data

/-- A content chunk of the reply to a read of `[offset, offset + length)` from a disk: the chunk is
inside the range and says the truth. -/
def NbdChunk.Truthful (disk : Nat → Byte) (offset length : Nat) : NbdChunk → Prop
  | .none => True
  | .data o bytes => offset ≤ o ∧ o + bytes.length ≤ offset + length ∧
      ∀ i (h : i < bytes.length), bytes[i] = disk (o + i)
  | .hole o size => 0 < size ∧ offset ≤ o ∧ o + size ≤ offset + length ∧
      ∀ i, i < size → disk (o + i) = 0
  | _ => False

/-- The byte `k` of the disk is described by the chunk. -/
def NbdChunk.Covers (k : Nat) : NbdChunk → Prop
  | .data o bytes => o ≤ k ∧ k < o + bytes.length
  | .hole o size => o ≤ k ∧ k < o + size
  | _ => False

/-- The successful structured replies to a read. -/
structure NbdReply.IsRead (disk : Nat → Byte) (offset length : Nat) (r : NbdReply) : Prop where
  framed : r.Framed
  fits : ∀ c ∈ r, c.2.Fits
  truthful : ∀ c ∈ r, c.2.Truthful disk offset length
  complete : ∀ k, offset ≤ k → k < offset + length → ∃ c ∈ r, c.2.Covers k

end Imageio.Spec
