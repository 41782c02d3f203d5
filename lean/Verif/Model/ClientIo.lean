import Verif.Model.ClientQueue
import Verif.Model.Extents
/-!
Model of the concurrent copy of the client, `ovirt_imageio/client/_io.py:36-323`: the main thread
submits requests to a queue, worker threads execute them.

The steps are the operations on the queue (`Model/ClientQueue.lean`), the calls of the backends, and
the updates of the shared list of errors and of the progress.
-/
namespace Imageio.Io
open Imageio.Extents

/-- `client/_io.py:125-127` the operations of requests. -/
inductive ReqOp where
  | zero | copy | stop
deriving DecidableEq, Repr

/-- `client/_io.py:130-133` `Request`. -/
structure Req where
  op : ReqOp
  start : Nat
  length : Nat
deriving DecidableEq, Repr

/-- `client/_io.py:166` `Request(STOP)`. -/
def stopReq : Req := ⟨.stop, 0, 0⟩

/-- `client/_io.py:23-24` `MAX_ZERO_SIZE` and `MAX_COPY_SIZE`. -/
def maxReqSize : ReqOp → Nat
  | .zero => 128 * 1024 ^ 2
  | _ => 128 * 1024 ^ 2

/-- `client/_io.py:27` `MAX_BUFFER_SIZE`. -/
def maxBufferSize : Nat := 32 * 1024 ^ 2

/-- `client/_io.py:206-215` `Executor._split`, the loop. -/
def splitFrom (op : ReqOp) (step start length : Nat) : List Req :=
  if h : 0 < step ∧ step < length then
    ⟨op, start, step⟩ :: splitFrom op step (start + step) (length - step)
  else [⟨op, start, length⟩]
termination_by length
decreasing_by omega

/-- `client/_io.py:202-215` `Executor._split`. -/
def split (r : Req) : List Req := splitFrom r.op (maxReqSize r.op) r.start r.length

/-- What the main thread does: puts a request in the queue, or updates the progress for a skipped
extent.  `client/_io.py:83-90`, `114-121`, `156`. -/
inductive Act where
  | put (r : Req)
  | skip (length : Nat)
deriving DecidableEq, Repr

/-- `client/_io.py:151-156` `Executor.submit`. -/
def submit (r : Req) : List Act := (split r).map .put

/-- `client/_io.py:112-121` one extent in `_copy_data`; `hole` is `None` for old servers. -/
def dataActs (zero hole : Bool) (e : ZeroExtent) : List Act :=
  if !e.zero then submit ⟨.copy, e.start, e.length⟩
  else if zero && (!(e.hole.getD false) || hole) then submit ⟨.zero, e.start, e.length⟩
  else [.skip e.length]

/-- `client/_io.py:93-121` `_copy_data`. -/
def copyData (zero hole : Bool) (exts : List ZeroExtent) : List Act := exts.flatMap (dataActs zero hole)

/-- `client/_io.py:79-90` one extent in `_copy_dirty`; `ext.data` is `not ext.zero`
(`extent.py:78-83`). -/
def dirtyActs (e : DirtyExtent) : List Act :=
  if e.dirty then
    if !e.zero then submit ⟨.copy, e.start, e.length⟩
    else submit ⟨.zero, e.start, e.length⟩
  else [.skip e.length]

/-- `client/_io.py:73-90` `_copy_dirty`. -/
def copyDirty (exts : List DirtyExtent) : List Act := exts.flatMap dirtyActs

/-- `client/_io.py:310-323` `_generic_copy`: the ranges that are read and written, for a buffer of
`step` bytes. -/
def genericCopy (step start todo : Nat) : List Req :=
  if h : 0 < step ∧ step < todo then
    ⟨.copy, start, step⟩ :: genericCopy step (start + step) (todo - step)
  else [⟨.copy, start, todo⟩]
termination_by todo
decreasing_by omega

/-- `client/_io.py:274-293` `Handler.zero` and `Handler.copy`, for backends without `read_from` and
`write_to`: the storage calls for a request. -/
def cutGeneric (bufSize : Nat) (r : Req) : List Req :=
  match r.op with
  | .copy => genericCopy (min bufSize maxBufferSize) r.start r.length
  | _ => [r]

/-- `client/_io.py:285-288`: with `read_from` or `write_to` the whole request is one call. -/
def cutWhole (r : Req) : List Req := [r]

/-- The byte range of a request.  The range of `client/_io.py:274-293`: `start` and `length` of the request. -/
def Req.covers (r : Req) (i : Nat) : Prop := r.start ≤ i ∧ i < r.start + r.length

instance (r : Req) (i : Nat) : Decidable (r.covers i) := by unfold Req.covers; infer_instance

/-- The effect of one storage call on the destination: `dst.zero`, or `src.readinto` and `dst.write`.
Simplified: the call is complete, as the code assumes (`client/_io.py:275`, `311-312`). -/
def perform (src : Nat → Byte) (c : Req) (dst : Nat → Byte) : Nat → Byte := fun i =>
  if c.covers i then (match c.op with | .zero => 0 | .copy => src i | .stop => dst i) else dst i

/-- The parameters of a copy.  `client/_io.py:36-56`, `138`. -/
structure Cfg where
  /-- the number of workers, `client/_io.py:49-56`: at least one -/
  workers : Nat
  /-- `client/_io.py:138` `queue_depth` -/
  depth : Nat
  /-- the storage calls for a request -/
  cut : Req → List Req
  /-- the content of the source -/
  src : Nat → Byte

/-- Where the main thread is in `copy` (`client/_io.py:36-70`). -/
inductive Main where
  /-- in `_copy_data` or `_copy_dirty` -/
  | submit (todo : List Act)
  /-- in the loop of `stop` -/
  | stopping (left : Nat)
  /-- in `_join_workers`, called from `abort` for an exception, or from `stop` -/
  | joining (e : Option Err)
  /-- `copy` raised, or returned -/
  | done (e : Option Err)
deriving DecidableEq, Repr

/-- Where a worker is in `Worker._run` (`client/_io.py:233-255`). -/
inductive Pc where
  /-- before or in the handler factory -/
  | starting
  /-- in `queue.get()` -/
  | getting
  /-- executing a request; the storage calls that are left -/
  | working (r : Req) (todo : List Req)
  /-- got the `STOP` request -/
  | stopping
  /-- leaves the `with` statement, the handler is being closed -/
  | leaving
  /-- appended an error, going to close the queue -/
  | failing
  | finished
deriving DecidableEq, Repr

/-- A worker.  `dirty`: it has changed its destination since the last flush.  `stopped`: it got a
`STOP` request.  Both are not part of the program.  `Worker`, `client/_io.py:218-255`. -/
structure WorkerState where
  pc : Pc
  dirty : Bool
  stopped : Bool
deriving DecidableEq, Repr

/-- The state of a copy.  `calls` and `handled` are logs that are not part of the program: the storage
calls and the requests that were completed.  The objects of `client/_io.py:138-142`, `220-227`, `258-272`. -/
structure Ex where
  q : Queue Req
  main : Main
  w : Nat → WorkerState
  errors : List Err
  dst : Nat → Byte
  progress : Nat
  calls : List Req
  handled : List (Nat × Req)

/-- `client/_io.py:42-66`: the executor was created and the workers were added.  A worker that was not
added yet is a worker that was added but did not run yet. -/
def Ex.init (c : Cfg) (acts : List Act) (dst : Nat → Byte) : Ex :=
  ⟨.new c.depth, .submit acts, fun _ => ⟨.starting, false, false⟩, [], dst, 0, [], []⟩

/-- `client/_io.py:158-170` `stop` raises the first error; `client/_io.py:191-200` `__exit__` does not
hide the exception of the body. -/
def Ex.result (s : Ex) (e : Option Err) : Option Err :=
  match e with
  | some e => some e
  | none => s.errors.head?

/-- Change the state of worker `k`.  A helper for the steps of `client/_io.py:233-255`. -/
def Ex.setW (s : Ex) (k : Nat) (w : WorkerState) : Ex := { s with w := set s.w k w }

/-- The steps.  The main thread is thread 0 of the queue, and worker `k` is thread `k + 1`.
The main thread runs `client/_io.py:36-70`, a worker `client/_io.py:233-255`; each step cites its lines. -/
inductive Ex.Step (c : Cfg) : Ex → Ex → Prop
  /-- `client/_io.py:88-90`, `119-121` the extent is skipped -/
  | skip {s : Ex} {l : Nat} {todo : List Act} (h : s.main = .submit (.skip l :: todo)) :
      Step c s { s with main := .submit todo, progress := s.progress + l }
  /-- `client/_io.py:156` `self._queue.put(req)` -/
  | putDone {s : Ex} {r : Req} {todo : List Act} {q : Queue Req}
      (h : s.main = .submit (.put r :: todo)) (hw : 0 ∉ s.q.waiters) (hq : s.q.put 0 r = (.put, q)) :
      Step c s { s with main := .submit todo, q := q }
  | putBlocked {s : Ex} {r : Req} {todo : List Act} {q : Queue Req}
      (h : s.main = .submit (.put r :: todo)) (hw : 0 ∉ s.q.waiters)
      (hq : s.q.put 0 r = (.blocked, q)) : Step c s { s with q := q }
  /-- `client/_io.py:68-70` `except Closed`, and `__exit__` calls `stop` -/
  | putRaised {s : Ex} {r : Req} {todo : List Act} {q : Queue Req}
      (h : s.main = .submit (.put r :: todo)) (hw : 0 ∉ s.q.waiters)
      (hq : s.q.put 0 r = (.raised, q)) : Step c s { s with main := .stopping c.workers, q := q }
  /-- all requests were submitted, and `__exit__` calls `stop` -/
  | submitDone {s : Ex} (h : s.main = .submit []) : Step c s { s with main := .stopping c.workers }
  /-- another exception in the main thread, outside of the queue: `__exit__` calls `abort`, which closes
  the queue (`client/_io.py:173-180`) -/
  | mainFail {s : Ex} {todo : List Act} {e : Err} (h : s.main = .submit todo)
      (hw : 0 ∉ s.q.waiters) (hr : 0 ∉ s.q.woken) :
      Step c s { s with main := .joining (some e), q := s.q.close }
  /-- `client/_io.py:164-168` -/
  | stopPut {s : Ex} {n : Nat} {q : Queue Req} (h : s.main = .stopping (n + 1))
      (hw : 0 ∉ s.q.waiters) (hq : s.q.put 0 stopReq = (.put, q)) :
      Step c s { s with main := .stopping n, q := q }
  | stopBlocked {s : Ex} {n : Nat} {q : Queue Req} (h : s.main = .stopping (n + 1))
      (hw : 0 ∉ s.q.waiters) (hq : s.q.put 0 stopReq = (.blocked, q)) : Step c s { s with q := q }
  | stopRaised {s : Ex} {n : Nat} {q : Queue Req} (h : s.main = .stopping (n + 1))
      (hw : 0 ∉ s.q.waiters) (hq : s.q.put 0 stopReq = (.raised, q)) :
      Step c s { s with main := .joining none, q := q }
  | stopDone {s : Ex} (h : s.main = .stopping 0) : Step c s { s with main := .joining none }
  /-- `client/_io.py:169-171`, `184-186` all the workers were joined -/
  | joined {s : Ex} {e : Option Err} (h : s.main = .joining e)
      (hw : ∀ k, k < c.workers → (s.w k).pc = .finished) :
      Step c s { s with main := .done (s.result e) }
  /-- `client/_io.py:236` -/
  | started {s : Ex} {k : Nat} (hk : k < c.workers) (h : (s.w k).pc = .starting) :
      Step c s (s.setW k { s.w k with pc := .getting })
  /-- `client/_io.py:236`, `250-251` the factory failed -/
  | startFail {s : Ex} {k : Nat} {e : Err} (hk : k < c.workers) (h : (s.w k).pc = .starting) :
      Step c s { s.setW k { s.w k with pc := .failing } with errors := s.errors ++ [e] }
  /-- `client/_io.py:239-243` -/
  | getDone {s : Ex} {k : Nat} {r : Req} {q : Queue Req} (hk : k < c.workers)
      (h : (s.w k).pc = .getting) (hw : k + 1 ∉ s.q.waiters) (hq : s.q.get (k + 1) = (.got r, q))
      (hr : r.op ≠ .stop) :
      Step c s { s.setW k { s.w k with pc := .working r (c.cut r) } with q := q }
  /-- `client/_io.py:245` -/
  | getStop {s : Ex} {k : Nat} {r : Req} {q : Queue Req} (hk : k < c.workers)
      (h : (s.w k).pc = .getting) (hw : k + 1 ∉ s.q.waiters) (hq : s.q.get (k + 1) = (.got r, q))
      (hr : r.op = .stop) :
      Step c s { s.setW k { s.w k with pc := .stopping, stopped := true } with q := q }
  | getBlocked {s : Ex} {k : Nat} {q : Queue Req} (hk : k < c.workers)
      (h : (s.w k).pc = .getting) (hw : k + 1 ∉ s.q.waiters) (hq : s.q.get (k + 1) = (.blocked, q)) :
      Step c s { s with q := q }
  /-- `client/_io.py:248` -/
  | getRaised {s : Ex} {k : Nat} {q : Queue Req} (hk : k < c.workers)
      (h : (s.w k).pc = .getting) (hw : k + 1 ∉ s.q.waiters) (hq : s.q.get (k + 1) = (.raised, q)) :
      Step c s { s.setW k { s.w k with pc := .leaving } with q := q }
  /-- `client/_io.py:277`, `285-290` one storage call -/
  | call {s : Ex} {k : Nat} {r x : Req} {xs : List Req} (hk : k < c.workers)
      (h : (s.w k).pc = .working r (x :: xs)) :
      Step c s { s.setW k { s.w k with pc := .working r xs, dirty := true } with
        dst := perform c.src x s.dst, calls := s.calls ++ [x] }
  /-- one storage call failed, and may have changed the range of the call -/
  | callFail {s : Ex} {k : Nat} {r x : Req} {xs : List Req} {dst : Nat → Byte} {e : Err}
      (hk : k < c.workers) (h : (s.w k).pc = .working r (x :: xs))
      (hd : ∀ i, ¬ x.covers i → dst i = s.dst i) :
      Step c s { s.setW k { s.w k with pc := .failing, dirty := true } with
        dst := dst, errors := s.errors ++ [e] }
  /-- `client/_io.py:278-279`, `292-293` the request is complete -/
  | workDone {s : Ex} {k : Nat} {r : Req} (hk : k < c.workers) (h : (s.w k).pc = .working r []) :
      Step c s { s.setW k { s.w k with pc := .getting } with
        progress := s.progress + r.length, handled := s.handled ++ [(k, r)] }
  /-- another exception while the request is executed, such as `check_terminated`
  (`client/_io.py:240`), `seek`, or the progress -/
  | workFail {s : Ex} {k : Nat} {r : Req} {xs : List Req} {e : Err} (hk : k < c.workers)
      (h : (s.w k).pc = .working r xs) :
      Step c s { s.setW k { s.w k with pc := .failing } with errors := s.errors ++ [e] }
  /-- `client/_io.py:246-247` -/
  | flushed {s : Ex} {k : Nat} (hk : k < c.workers) (h : (s.w k).pc = .stopping) :
      Step c s (s.setW k { s.w k with pc := .leaving, dirty := false })
  | flushFail {s : Ex} {k : Nat} {e : Err} (hk : k < c.workers) (h : (s.w k).pc = .stopping) :
      Step c s { s.setW k { s.w k with pc := .failing } with errors := s.errors ++ [e] }
  /-- `client/_io.py:237` the end of `with closing(handler)` -/
  | left {s : Ex} {k : Nat} (hk : k < c.workers) (h : (s.w k).pc = .leaving) :
      Step c s (s.setW k { s.w k with pc := .finished })
  /-- closing the destination failed -/
  | leaveFail {s : Ex} {k : Nat} {e : Err} (hk : k < c.workers) (h : (s.w k).pc = .leaving) :
      Step c s { s.setW k { s.w k with pc := .failing } with errors := s.errors ++ [e] }
  /-- `client/_io.py:252` `self._queue.close()` -/
  | close {s : Ex} {k : Nat} (hk : k < c.workers) (h : (s.w k).pc = .failing) :
      Step c s { s.setW k { s.w k with pc := .finished } with q := s.q.close }

/-- The executions of a copy.  The interleavings of the threads of `client/_io.py:227`. -/
inductive Ex.Reachable (c : Cfg) (acts : List Act) (dst : Nat → Byte) : Ex → Prop
  | init : Reachable c acts dst (.init c acts dst)
  | step {s s' : Ex} (h : Reachable c acts dst s) (hs : Ex.Step c s s') : Reachable c acts dst s'

end Imageio.Io
