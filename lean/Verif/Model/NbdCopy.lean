import Verif.Base
/-!
Model of the copy of an NBD export to another one, `ovirt_imageio/_internal/nbdutil.py:204-321`: the reader
runs in the calling thread, and the writer in a thread of its own.

The two queues are `queue.Queue` objects of the standard library: `put` blocks while the queue is full,
`get` blocks while it is empty.  A step is one operation on a queue, one call of an NBD client, or one
access to the shared `error` list.  The calls of the NBD clients are modelled in `Model/Nbd.lean`: a
`readinto` that returns has filled the whole view, a `write` or `zero` that returns has changed the whole
range, and a failing one may have changed any part of it.
-/
namespace Imageio.NbdCopy

/-- The functions of this area use their own update, at one place.  For the buffers, `nbdutil.py:221-222`. -/
def set {β : Type} (f : Nat → β) (t : Nat) (b : β) : Nat → β := fun x => if x = t then b else f x

/-- `nbdutil.py:246-248` the operations; a write has a buffer. -/
inductive Op where
  | write (buf : Nat)
  | zero
  | flush
deriving DecidableEq, Repr

/-- `nbdutil.py:251-255` `Request`. -/
structure Req where
  op : Op
  offset : Nat
  length : Nat
deriving DecidableEq, Repr

/-- `nbdutil.py:95` `MAX_ZERO`. -/
def maxZero : Nat := 1024 ^ 3

/-- An extent that `extents(client)` (`nbdutil.py:100-161`) yields: the length, and reads as zeroes.  For
an empty export it yields `None`. -/
abbrev Ext := Option (Nat × Bool)

/-- Where the reader is, `nbdutil.py:258-290` and `236-242`. -/
inductive Rd where
  /-- `for ext in extents(client)`, `nbdutil.py:262` -/
  | next (rest : List Ext)
  /-- `while todo`, `nbdutil.py:265,275` -/
  | loop (zero : Bool) (todo : Nat) (rest : List Ext)
  /-- after `buffers.get()`, `nbdutil.py:276` -/
  | got (b : Option Nat) (todo : Nat) (rest : List Ext)
  /-- in `requests.put`, `nbdutil.py:271,284` -/
  | put (r : Req) (todo : Nat) (rest : List Ext)
  /-- in `requests.put(Request(FLUSH))`, `nbdutil.py:288` -/
  | flush
  /-- in `requests.put(None)`, `nbdutil.py:289` -/
  | last
  /-- in `writer.join()`, `nbdutil.py:239` -/
  | join
  /-- `copy` raised or returned, `nbdutil.py:241-242` -/
  | done (e : Option Err)
deriving DecidableEq, Repr

/-- Where the writer is, `nbdutil.py:293-321`. -/
inductive Wr where
  /-- in `requests.get()`, `nbdutil.py:298` -/
  | getting
  /-- executes a request, `nbdutil.py:303-312` -/
  | working (r : Req)
  /-- in `buffers.put(req.buf)`, `nbdutil.py:308` -/
  | giveBack (b : Nat) (r : Req)
  /-- `progress.update`, `nbdutil.py:314-315` -/
  | report (r : Req)
  /-- an exception was raised, `nbdutil.py:319-320` -/
  | raised (e : Err)
  /-- in `buffers.put(None)`, `nbdutil.py:321` -/
  | signal
  /-- ended after an exception -/
  | dead
  /-- ended after getting `None`, `nbdutil.py:299-301` -/
  | stopped
deriving DecidableEq, Repr

/-- The parameters of a copy; `src` is the content of the source.  `nbdutil.py:204-215`. -/
structure Cfg where
  /-- `queue_depth` -/
  depth : Nat
  /-- `buf_size`, `nbdutil.py:213-215` -/
  bufSize : Nat
  src : Nat → Byte

/-- The state of a copy.  `flushed` is not part of the program: there was no change of the destination
since the last flush.  `nbdutil.py:217-234`, `261-263`. -/
structure St where
  /-- `buffers`; `none` is the `None` of the failed writer -/
  bufs : List (Option Nat)
  /-- `requests`; `none` is the `None` of the reader -/
  reqs : List (Option Req)
  /-- the content of the buffers -/
  mem : Nat → Bytes
  rd : Rd
  /-- the local `offset` of the reader -/
  pos : Nat
  wr : Wr
  error : Option Err
  dst : Nat → Byte
  flushed : Bool
  progress : Nat

/-- `nbdutil.py:217-233`. -/
def St.init (c : Cfg) (exts : List Ext) (dst : Nat → Byte) : St where
  bufs := (List.range c.depth).map some
  reqs := []
  mem := fun _ => zeros c.bufSize
  rd := .next exts
  pos := 0
  wr := .getting
  error := none
  dst := dst
  flushed := false
  progress := 0

/-- The bytes a `write` or `zero` request stores.  `nbdutil.py:303-307`. -/
def Req.bytes (mem : Nat → Bytes) (r : Req) : Bytes :=
  match r.op with
  | .write b => (mem b).take r.length
  | .zero => zeros r.length
  | .flush => []

/-- The effect of a request on the destination.  `nbdutil.py:303-307`. -/
def Req.apply (mem : Nat → Bytes) (r : Req) (dst : Nat → Byte) : Nat → Byte := fun i =>
  if r.offset ≤ i ∧ i < r.offset + (r.bytes mem).length then (r.bytes mem).getD (i - r.offset) 0 else dst i

/-- The steps.  `nbdutil.py:236-321`. -/
inductive Step (c : Cfg) : St → St → Prop
  /-- `nbdutil.py:262-264` -/
  | ext {s : St} {l : Nat} {z : Bool} {rest : List Ext} (h : s.rd = .next (some (l, z) :: rest)) :
      Step c s { s with rd := .loop z l rest }
  /-- `nbdutil.py:263` `ext.length` of `None` -/
  | extNone {s : St} {rest : List Ext} (h : s.rd = .next (none :: rest)) :
      Step c s { s with rd := .done (some (.exception "AttributeError")) }
  /-- `client.extents` raised, `nbdutil.py:128` -/
  | extFail {s : St} {rest : List Ext} {e : Err} (h : s.rd = .next rest) :
      Step c s { s with rd := .done (some e) }
  | extEnd {s : St} (h : s.rd = .next []) : Step c s { s with rd := .flush }
  /-- `while todo` ends -/
  | loopEnd {s : St} {z : Bool} {rest : List Ext} (h : s.rd = .loop z 0 rest) :
      Step c s { s with rd := .next rest }
  /-- `nbdutil.py:266-268` -/
  | zeroStop {s : St} {todo : Nat} {rest : List Ext} {e : Err} (h : s.rd = .loop true todo rest)
      (h0 : todo ≠ 0) (he : s.error = some e) : Step c s { s with rd := .join }
  /-- `nbdutil.py:266`, `270-271` -/
  | zeroStep {s : St} {todo : Nat} {rest : List Ext} (h : s.rd = .loop true todo rest) (h0 : todo ≠ 0)
      (he : s.error = none) :
      Step c s { s with rd := .put ⟨.zero, s.pos, min todo maxZero⟩ todo rest }
  /-- `nbdutil.py:276` -/
  | getBuf {s : St} {todo : Nat} {rest : List Ext} {b : Option Nat} {bs : List (Option Nat)}
      (h : s.rd = .loop false todo rest) (h0 : todo ≠ 0) (hb : s.bufs = b :: bs) :
      Step c s { s with rd := .got b todo rest, bufs := bs }
  /-- `nbdutil.py:277-279` -/
  | dataStop {s : St} {todo : Nat} {b : Option Nat} {rest : List Ext} {e : Err}
      (h : s.rd = .got b todo rest) (he : s.error = some e) : Step c s { s with rd := .join }
  /-- `nbdutil.py:281` `len(buf)` of `None` -/
  | noBuf {s : St} {todo : Nat} {rest : List Ext} (h : s.rd = .got none todo rest)
      (he : s.error = none) : Step c s { s with rd := .done (some (.exception "TypeError")) }
  /-- `nbdutil.py:281-284` -/
  | read {s : St} {todo : Nat} {b : Nat} {rest : List Ext} (h : s.rd = .got (some b) todo rest)
      (he : s.error = none) :
      Step c s { s with
        rd := .put ⟨.write b, s.pos, min todo (s.mem b).length⟩ todo rest
        mem := set s.mem b ((List.range (min todo (s.mem b).length)).map (fun i => c.src (s.pos + i)) ++
          (s.mem b).drop (min todo (s.mem b).length)) }
  /-- `client.readinto` raised, and may have changed the buffer -/
  | readFail {s : St} {todo : Nat} {b : Nat} {rest : List Ext} {e : Err} {d : Bytes}
      (h : s.rd = .got (some b) todo rest) (he : s.error = none) (hd : d.length = (s.mem b).length) :
      Step c s { s with rd := .done (some e), mem := set s.mem b d }
  /-- `nbdutil.py:271-273`, `284-286` -/
  | put {s : St} {r : Req} {todo : Nat} {rest : List Ext} (h : s.rd = .put r todo rest)
      (hq : s.reqs.length < c.depth * 2) :
      Step c s { s with
        reqs := s.reqs ++ [some r]
        pos := s.pos + r.length
        rd := .loop (r.op = .zero) (todo - r.length) rest }
  /-- `nbdutil.py:288` -/
  | putFlush {s : St} (h : s.rd = .flush) (hq : s.reqs.length < c.depth * 2) :
      Step c s { s with reqs := s.reqs ++ [some ⟨.flush, 0, 0⟩], rd := .last }
  /-- `nbdutil.py:289` -/
  | putLast {s : St} (h : s.rd = .last) (hq : s.reqs.length < c.depth * 2) :
      Step c s { s with reqs := s.reqs ++ [none], rd := .join }
  /-- `nbdutil.py:239-242` -/
  | joined {s : St} (h : s.rd = .join) (hw : s.wr = .dead ∨ s.wr = .stopped) :
      Step c s { s with rd := .done s.error }
  /-- `nbdutil.py:298` -/
  | get {s : St} {r : Req} {rs : List (Option Req)} (h : s.wr = .getting) (hq : s.reqs = some r :: rs) :
      Step c s { s with wr := .working r, reqs := rs }
  | getNone {s : St} {rs : List (Option Req)} (h : s.wr = .getting) (hq : s.reqs = none :: rs) :
      Step c s { s with wr := .stopped, reqs := rs }
  /-- `nbdutil.py:306-307` -/
  | write {s : St} {r : Req} {b : Nat} (h : s.wr = .working r) (ho : r.op = .write b) :
      Step c s { s with wr := .giveBack b r, dst := r.apply s.mem s.dst, flushed := false }
  /-- `nbdutil.py:303-304` -/
  | zero {s : St} {r : Req} (h : s.wr = .working r) (ho : r.op = .zero) :
      Step c s { s with wr := .report r, dst := r.apply s.mem s.dst, flushed := false }
  /-- `nbdutil.py:309-310` -/
  | flush {s : St} {r : Req} (h : s.wr = .working r) (ho : r.op = .flush) :
      Step c s { s with wr := .report r, flushed := true }
  /-- the request failed -/
  | fail {s : St} {r : Req} {dst : Nat → Byte} {e : Err} (h : s.wr = .working r)
      (hd : ∀ i, ¬ (r.offset ≤ i ∧ i < r.offset + r.length) → dst i = s.dst i) :
      Step c s { s with wr := .raised e, dst := dst, flushed := false }
  /-- `nbdutil.py:308` -/
  | giveBack {s : St} {b : Nat} {r : Req} (h : s.wr = .giveBack b r) (hq : s.bufs.length < c.depth + 1) :
      Step c s { s with wr := .report r, bufs := s.bufs ++ [some b] }
  /-- `nbdutil.py:314-315` -/
  | report {s : St} {r : Req} (h : s.wr = .report r) :
      Step c s { s with wr := .getting, progress := s.progress + r.length }
  /-- `progress.update` raised -/
  | reportFail {s : St} {r : Req} {e : Err} (h : s.wr = .report r) : Step c s { s with wr := .raised e }
  /-- `nbdutil.py:320` -/
  | setError {s : St} {e : Err} (h : s.wr = .raised e) :
      Step c s { s with wr := .signal, error := some e }
  /-- `nbdutil.py:321` -/
  | signal {s : St} (h : s.wr = .signal) (hq : s.bufs.length < c.depth + 1) :
      Step c s { s with wr := .dead, bufs := s.bufs ++ [none] }

/-- The executions.  `nbdutil.py:204-321`. -/
inductive Reachable (c : Cfg) (exts : List Ext) (dst : Nat → Byte) : St → Prop
  | init : Reachable c exts dst (.init c exts dst)
  | step {s s' : St} (h : Reachable c exts dst s) (hs : Step c s s') : Reachable c exts dst s'

end Imageio.NbdCopy
