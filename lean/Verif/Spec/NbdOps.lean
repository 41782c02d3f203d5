import Verif.Model.Nbd
import Verif.Spec.Nbd
import Verif.Spec.Disk
/-!
The requests of the NBD client in the terms of the protocol, and the replies that a server may send.
-/
namespace Imageio.Nbd
open Imageio.Spec Imageio.Extents

/-- The requests of the client. -/
inductive Op where
  /-- `buf` is the old content of the buffer -/
  | read (offset : Nat) (buf : Bytes)
  | write (offset : Nat) (data : Bytes)
  | zero (offset length : Nat) (punchHole : Bool)
  | flush
  | status (offset length : Nat)
deriving DecidableEq, Repr

/-- What a request returns. -/
inductive Out where
  | data (b : Bytes)
  | done
  | extents (d : List (String × List Ext))
deriving DecidableEq, Repr

/-- The request by the methods of the client. -/
def Op.run (ss : Session) : Op → M Out
  | .read offset buf => do
    let d ← readinto ss offset buf
    pure (.data d)
  | .write offset data => do
    Nbd.write ss offset data
    pure .done
  | .zero offset length punchHole => do
    Nbd.zero ss offset length punchHole
    pure .done
  | .flush => do
    Nbd.flush ss
    pure .done
  | .status offset length => do
    let d ← extents ss offset length
    pure (.extents d)

/-- The request in the terms of the protocol: NBD_CMD_READ 0, NBD_CMD_WRITE 1, NBD_CMD_FLUSH 3,
NBD_CMD_WRITE_ZEROES 6 with NBD_CMD_FLAG_NO_HOLE 2, NBD_CMD_BLOCK_STATUS 7. -/
def Op.request (handle : Nat) : Op → NbdRequest
  | .read offset buf => ⟨0, 0, handle, offset, buf.length⟩
  | .write offset data => ⟨0, 1, handle, offset, data.length⟩
  | .zero offset length punchHole => ⟨if punchHole then 0 else 2, 6, handle, offset, length⟩
  | .flush => ⟨0, 3, handle, 0, 0⟩
  | .status offset length => ⟨0, 7, handle, offset, length⟩

/-- The data after the request. -/
def Op.payload : Op → Bytes
  | .write _ data => data
  | _ => []

/-- The server supports the request: NBD_FLAG_SEND_FLUSH is bit 2, NBD_FLAG_SEND_WRITE_ZEROES is bit
6. -/
def Op.Supported (ss : Session) : Op → Prop
  | .zero .. => ss.transmissionFlags.testBit 6
  | .flush => ss.transmissionFlags.testBit 2
  | _ => True

/-- The content chunks that a server may send for the request. -/
def Op.Legal (ss : Session) (op : Op) (c : NbdChunk) : Prop :=
  match op, c with
  | _, .none => True
  | .read offset buf, .data o d => offset ≤ o ∧ o + d.length ≤ offset + buf.length
  | .read offset buf, .hole o n => 0 < n ∧ offset ≤ o ∧ o + n ≤ offset + buf.length
  | .status .., .status ctx es => es ≠ [] ∧ es.length ≤ 1048575 ∧
      ∃ name xs, ss.contexts.lookup ctx = some name ∧
        Extents.recvExtents ss.minBlock (contextKind ss name) es = .ok xs
  | _, _ => False

/-- An error for a part of the range. -/
def _root_.Imageio.Spec.NbdChunk.IsErrorOffset : NbdChunk → Prop
  | .errorOffset .. => True
  | _ => False

/-- The requests that return nothing. -/
def Op.NoContent : Op → Prop
  | .write .. | .zero .. | .flush => True
  | _ => False

/-- The requests that may have a simple reply. -/
def Op.MaySimple (ss : Session) : Op → Prop
  | .read .. => ss.structured = false
  | .status .. => False
  | _ => True

/-- What a chunk says about a meta context: the name, and the extents. -/
def statusOf (ss : Session) (c : NbdChunk) : Option (String × List (Nat × Nat)) :=
  match c with
  | .status ctx es => (ss.contexts.lookup ctx).map fun name => (name, es)
  | _ => none

/-- The successful replies to NBD_CMD_BLOCK_STATUS: the extents of every negotiated context, once. -/
structure _root_.Imageio.Spec.NbdReply.IsStatus (ss : Session) (offset length : Nat) (r : NbdReply) : Prop where
  framed : r.Framed
  fits : ∀ c ∈ r, c.2.Fits
  legal : ∀ c ∈ r, Op.Legal ss (.status offset length) c.2
  once : ((r.filterMap fun c => statusOf ss c.2).map (·.1)).Nodup
  complete : ∀ ctx name, ss.contexts.lookup ctx = some name → ∃ c ∈ r, ∃ es, statusOf ss c.2 = some (name, es)

/-- The extents of a context as the client represents them. -/
def decoded (ss : Session) (e : String × List (Nat × Nat)) : String × List Ext :=
  (e.1, (Extents.recvExtents ss.minBlock (contextKind ss e.1) e.2).toOption.getD [])

/-- The answers of a server: the bytes, and what the caller has to see. -/
inductive Answers (ss : Session) (handle : Nat) : Op → Bytes → Except Err Out → Prop
  /-- the data of a read in chunks -/
  | read {offset : Nat} {buf : Bytes} (disk : Nat → Byte) (r : NbdReply) (hst : ss.structured = true)
      (hr : r.IsRead disk offset buf.length) :
      Answers ss handle (.read offset buf) (r.wire handle) (.ok (.data (load disk offset buf.length)))
  /-- the data of a read in a simple reply -/
  | readSimple {offset : Nat} {buf data : Bytes} (hst : ss.structured = false) (hd : data.length = buf.length) :
      Answers ss handle (.read offset buf) (simpleReply handle 0 data) (.ok (.data data))
  /-- the extents of the meta contexts -/
  | status {offset length : Nat} (r : NbdReply) (hst : ss.structured = true) (hr : r.IsStatus ss offset length) :
      Answers ss handle (.status offset length) (r.wire handle)
        (.ok (.extents ((r.filterMap fun c => statusOf ss c.2).map (decoded ss))))
  /-- success without content -/
  | done {op : Op} {flags : Nat} (hst : ss.structured = true) (hf : flags < 2 ^ 16) (hd : flags % 2 = 1)
      (hop : op.NoContent) : Answers ss handle op (NbdChunk.none.wire handle flags) (.ok .done)
  | doneSimple {op : Op} (hop : op.NoContent) : Answers ss handle op (simpleReply handle 0 []) (.ok .done)
  /-- errors for parts of the range, in a complete reply -/
  | failed {op : Op} (r : NbdReply) (hst : ss.structured = true) (hr : r.Framed) (hfits : ∀ c ∈ r, c.2.Fits)
      (hin : ∀ c ∈ r, op.Legal ss c.2 ∨ c.2.IsErrorOffset) (herr : ∃ c ∈ r, c.2.IsErrorOffset) :
      Answers ss handle op (r.wire handle) (.error requestError)
  /-- an error that ends the reply, after any other chunks -/
  | error {op : Op} (pre : NbdReply) {flags code : Nat} {msg : Bytes} (hst : ss.structured = true)
      (hpre : ∀ c ∈ pre, c.1 < 2 ^ 16 ∧ c.1 % 2 = 0 ∧ c.2 ≠ .none ∧ c.2.Fits ∧
        (op.Legal ss c.2 ∨ c.2.IsErrorOffset))
      (hf : flags < 2 ^ 16) (hd : flags % 2 = 1) (hfits : (NbdChunk.error code msg).Fits) :
      Answers ss handle op (NbdReply.wire handle (pre ++ [(flags, .error code msg)])) (.error (replyError code))
  /-- an error in a simple reply -/
  | errorSimple {op : Op} {code : Nat} (hop : op.MaySimple ss) (hc : code ≠ 0) (hlt : code < 2 ^ 32) :
      Answers ss handle op (simpleReply handle code []) (.error (replyError code))

/-- Run requests one after the other; a failed request does not end the session. -/
def runAll (ss : Session) : List Op → Conn → List (Except Err Out) × Conn
  | [], s => ([], s)
  | op :: ops, s => ((op.run ss s).1 :: (runAll ss ops (op.run ss s).2).1, (runAll ss ops (op.run ss s).2).2)

/-- Every request has its answer, in this order, with consecutive handles. -/
inductive AnswersAll (ss : Session) : Nat → List Op → Bytes → List (Except Err Out) → Prop
  | nil {handle : Nat} : AnswersAll ss handle [] [] []
  | cons {handle : Nat} {op : Op} {ops : List Op} {b bs : Bytes} {o : Except Err Out} {os : List (Except Err Out)}
      (hsup : op.Supported ss) (hfit : (op.request handle).Fits) (h : Answers ss handle op b o)
      (hs : AnswersAll ss (handle + 1) ops bs os) :
      AnswersAll ss handle (op :: ops) (b ++ bs) (o :: os)

end Imageio.Nbd
