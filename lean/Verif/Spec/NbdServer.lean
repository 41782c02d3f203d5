import Verif.Model.NbdWire
import Verif.Spec.NbdOps
import Verif.Model.Backend
import Verif.Spec.Extents
/-!
What the NBD protocol asks from a server: the answer to a request, and its effect on the export.  The
server may refuse any request, and the connection may break at any byte.
-/
namespace Imageio.Spec
open Imageio.Nbd

/-- The bytes that the request may change. -/
def _root_.Imageio.Nbd.Op.Touches (op : Op) (i : Nat) : Prop :=
  match op with
  | .write offset data => InRange offset data.length i
  | .zero offset length _ => InRange offset length i
  | _ => False

/-- The bytes that the request uses are in an export of `size` bytes. -/
def _root_.Imageio.Nbd.Op.Inside (op : Op) (size : Nat) : Prop :=
  match op with
  | .read offset buf => offset + buf.length ≤ size
  | .write offset data => offset + data.length ≤ size
  | .zero offset length _ => offset + length ≤ size
  | .flush => True
  | .status offset length => offset + length ≤ size

/-- The request is aligned to blocks of `b` bytes. -/
def _root_.Imageio.Nbd.Op.Aligned (op : Op) (b : Nat) : Prop :=
  (op.request 0).offset % b = 0 ∧ (op.request 0).length % b = 0

/-- The export after a successful request. -/
def _root_.Imageio.Nbd.Op.Stored (op : Op) (old new : Bytes) : Prop :=
  match op with
  | .write offset data => byteAt new = store (byteAt old) offset data
  | .zero offset length _ => byteAt new = store (byteAt old) offset (zeros length)
  | _ => new = old

/-- The data in the answer is the content of the export. -/
def _root_.Imageio.Nbd.Op.Truth (op : Op) (image : Bytes) (out : Out) : Prop :=
  match op, out with
  | .read offset buf, .data d => d = load (byteAt image) offset buf.length
  | _, _ => True

/-- The export changes only where the request says, and keeps its size. -/
structure Confined (op : Op) (old new : Bytes) : Prop where
  length : new.length = old.length
  outside : ∀ i, ¬ op.Touches i → byteAt new i = byteAt old i

/-- The bytes that survive a crash change only by writing requests and by flush. -/
def DiskKept (op : Op) (old new : Bytes) : Prop :=
  match op with
  | .read .. => new = old
  | .status .. => new = old
  | _ => True

/-- What a server may do with one request. -/
inductive Handled {τ : Type} (V : NbdWire.Server τ) (ss : Session) (handle : Nat) (op : Op) (v v' : τ)
    (r : NbdWire.Reply) : Prop
  /-- the request was done -/
  | done (out : Out) (hans : Answers ss handle op r.bytes (.ok out)) (hin : op.Inside (V.image v).length)
      (hout : op.Truth (V.image v) out) (hlen : (V.image v').length = (V.image v).length)
      (hst : op.Stored (V.image v) (V.image v')) (hflush : op = .flush → V.disk v' = V.image v)
  /-- the request failed; a part of it may be done -/
  | failed (e : Err) (hans : Answers ss handle op r.bytes (.error e))
      (himg : Confined op (V.image v) (V.image v'))
  /-- the connection broke before the end of the answer -/
  | lost (more : Bytes) (o : Except Err Out) (hmore : more ≠ [])
      (hans : Answers ss handle op (r.bytes ++ more) o) (hclosed : r.closes = true)
      (himg : Confined op (V.image v) (V.image v'))

/-- The requests that a client may send: NBD_CMD_BLOCK_STATUS needs structured replies. -/
def _root_.Imageio.Nbd.Op.Allowed (ss : Session) (op : Op) : Prop :=
  op.Supported ss ∧ ∀ offset length, op = .status offset length → ss.structured = true

/-- A server of the protocol: it understands every request on the wire. -/
def Protocol {τ : Type} (V : NbdWire.Server τ) (ss : Session) : Prop :=
  ∀ (v v' : τ) (handle : Nat) (op : Op) (r : NbdWire.Reply), op.Allowed ss → (op.request handle).Fits →
    V.step v ((op.request handle).wire ++ op.payload) = (v', r) →
    Handled V ss handle op v v' r ∧ DiskKept op (V.disk v) (V.disk v')

/-- A server without errors: every request for data inside the export and aligned to its blocks is
done.  Offsets have 64 bits. -/
def Reliable {τ : Type} (V : NbdWire.Server τ) (ss : Session) : Prop :=
  ∀ (v v' : τ) (handle : Nat) (op : Op) (r : NbdWire.Reply), op.Allowed ss → (op.request handle).Fits →
    (∀ offset length, op ≠ .status offset length) → (V.image v).length ≤ 2 ^ 64 →
    op.Inside (V.image v).length → op.Aligned ss.minBlock →
    V.step v ((op.request handle).wire ++ op.payload) = (v', r) →
    (∃ out, Answers ss handle op r.bytes (.ok out)) ∧ r.closes = false

/-- What a server says about the bytes of the export in the meta contexts is true: `meta_ v name k` are
the flags of byte `k` in the context `name`.  They do not change by asking. -/
def Reports {τ : Type} (V : NbdWire.Server τ) (ss : Session) (meta_ : τ → String → Nat → Nat) : Prop :=
  ∀ (v v' : τ) (handle offset length : Nat) (r : NbdWire.Reply) (reply : NbdReply),
    (Op.request handle (.status offset length)).Fits →
    V.step v (Op.request handle (.status offset length)).wire = (v', r) →
    meta_ v' = meta_ v ∧
      (r.bytes = reply.wire handle → reply.IsStatus ss offset length →
        ∀ c ∈ reply, ∀ name es, statusOf ss c.2 = some (name, es) →
          Describes (meta_ v name) (V.image v).length offset es)

/-- The zero flag of base:allocation (NBD_STATE_ZERO, bit 1) is only on zero bytes. -/
def ZeroFlags {τ : Type} (V : NbdWire.Server τ) (meta_ : τ → String → Nat → Nat) : Prop :=
  ∀ v k, k < (V.image v).length → (meta_ v "base:allocation" k).testBit 1 → byteAt (V.image v) k = 0

/-- A server without errors for NBD_CMD_BLOCK_STATUS. -/
def ReliableStatus {τ : Type} (V : NbdWire.Server τ) (ss : Session) : Prop :=
  ∀ (v v' : τ) (handle offset length : Nat) (r : NbdWire.Reply),
    (Op.request handle (.status offset length)).Fits → 0 < length →
    offset + length ≤ (V.image v).length → (Op.status offset length).Aligned ss.minBlock →
    V.step v (Op.request handle (.status offset length)).wire = (v', r) →
    (∃ reply : NbdReply, reply.IsStatus ss offset length ∧ r.bytes = reply.wire handle) ∧ r.closes = false

/-- The contexts of a session after a handshake with a sane server: they need structured replies, no id
is used twice, and the dirty bitmap is one of them and not one of the others. -/
structure _root_.Imageio.Nbd.Session.Sane (ss : Session) : Prop where
  structured : ss.contexts ≠ [] → ss.structured = true
  ids : ∀ c ∈ ss.contexts, ss.contexts.lookup c.1 = some c.2
  bitmap : ∀ b, ss.dirtyBitmap = some b →
    b ≠ "base:allocation" ∧ b ≠ "qemu:allocation-depth" ∧ ∃ id, (id, b) ∈ ss.contexts

end Imageio.Spec
