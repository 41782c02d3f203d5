import Verif.Base
/-!
The life of a `qemu_nbd.Server` object: any sequence of calls of `start`, `stop`, `send_signal` and `wait`, while processes may
end at any time.  `ovirt_imageio/_internal/qemu_nbd.py`.  `Model/QemuNbd` is the command line, and one call of `run`.
-/
namespace Imageio.QemuLife

/-- The values of `--cache`, `qemu_nbd.py:92`; `other` is any other value given by the caller. -/
inductive Cache
  | none | writeback | other
deriving DecidableEq, Repr

/-- The values of `--aio`, `qemu_nbd.py:96`; `other` is any other value given by the caller. -/
inductive Aio
  | native | threads | other
deriving DecidableEq, Repr

/-- The processes that the object started, from 0 to `next - 1`: the exit code if the process ended, the options it was started
with, and the signals that were sent.  Outside of `qemu_nbd.py:175-230`. -/
structure Host where
  next : Nat
  code : Nat → Option Int
  opts : Nat → Option (Cache × Aio)
  signals : List (Nat × Nat)

/-- The attributes that change, `qemu_nbd.py:73-83`: `cache`, `aio` and `proc`. -/
structure Server where
  cache : Option Cache
  aio : Option Aio
  proc : Option Nat
deriving DecidableEq, Repr

/-- A process ends.  Outside of `qemu_nbd.py:175-230`. -/
def Host.ends (h : Host) (p : Nat) (c : Int) : Host :=
  if h.code p = none then { h with code := fun k => if k = p then some c else h.code k } else h

/-- `Popen.send_signal`, `terminate` and `kill` of python: a process that ended gets no signal.  `c` is the exit code if the
process ends because of it in time.  Used in `qemu_nbd.py:190`, `196`, `215`. -/
def Host.send (h : Host) (p signo : Nat) (c : Option Int) : Host :=
  if h.code p = none then
    { h with signals := h.signals ++ [(p, signo)], code := fun k => if k = p then c else h.code k }
  else h

/-- `qemu_nbd.py:187-205` `stop`.  `term` and `kill` are the exit codes if the process ends in time. -/
def stop (h : Host) (s : Server) (term kill : Option Int) : Except Err Unit × Server × Host :=
  match s.proc with
  | none => (.ok (), s, h)
  | some p =>
    let h := h.send p 15 term
    if h.code p ≠ none then (.ok (), { s with proc := none }, h)
    else
      let h := h.send p 9 kill
      if h.code p ≠ none then (.ok (), { s with proc := none }, h)
      else (.error (.exception "TimeoutExpired"), s, h)

/-- What the system does during `start`: whether direct I/O works, the errors of building the command and of creating the
process, how the wait for the socket ends, and how the process ends if it is stopped.  Outside of `qemu_nbd.py:90-185`. -/
structure Env where
  direct : Bool
  command : Except Err Unit
  popen : Except Err Unit
  wait : Except Err Bool
  term : Option Int
  kill : Option Int

/-- `qemu_nbd.py:90-185` `start`; the command line itself is in `Model/QemuNbd`. -/
def start (h : Host) (s : Server) (e : Env) : Except Err Unit × Server × Host :=
  let cache := s.cache.getD (if e.direct then .none else .writeback)
  let aio := s.aio.getD (if cache = .none then .native else .threads)
  let s := { s with cache := some cache, aio := some aio }
  match e.command with
  | .error x => (.error x, s, h)
  | .ok () =>
    match e.popen with
    | .error x => (.error x, s, h)
    | .ok () =>
      let s := { s with proc := some h.next }
      let h := { h with next := h.next + 1, opts := fun k => if k = h.next then some (cache, aio) else h.opts k,
                        code := fun k => if k = h.next then none else h.code k }
      match e.wait with
      | .error x => (.error x, s, h)
      | .ok true => (.ok (), s, h)
      | .ok false =>
        match stop h s e.term e.kill with
        | (.error x, s, h) => (.error x, s, h)
        | (.ok (), s, h) => (.error (.exception "RuntimeError"), s, h)

/-- `qemu_nbd.py:207-215` `send_signal` -/
def sendSignal (h : Host) (s : Server) (signo : Nat) (c : Option Int) : Except Err Unit × Host :=
  match s.proc with
  | none => (.error (.exception "RuntimeError"), h)
  | some p => (.ok (), h.send p signo c)

/-- `qemu_nbd.py:217-230` `wait`; `c` is the exit code if the process ends during the wait. -/
def wait (h : Host) (s : Server) (c : Option Int) : Except Err (Option Int) × Host :=
  match s.proc with
  | none => (.error (.exception "RuntimeError"), h)
  | some p =>
    let h := match c with
      | none => h
      | some c => h.ends p c
    (.ok (h.code p), h)

/-- A call of a method, or the end of a process by itself.  `qemu_nbd.py:90-230` -/
inductive Event
  | start (e : Env)
  | stop (term kill : Option Int)
  | signal (signo : Nat) (c : Option Int)
  | wait (c : Option Int)
  | ends (p : Nat) (c : Int)

/-- The object after a call, `qemu_nbd.py:90-230`. -/
def step (h : Host) (s : Server) : Event → Server × Host
  | .start e => (start h s e).2
  | .stop t k => (stop h s t k).2
  | .signal n c => (s, (sendSignal h s n c).2)
  | .wait c => (s, (wait h s c).2)
  | .ends p c => (s, h.ends p c)

/-- The object after some calls, `qemu_nbd.py:90-230`. -/
def run (h : Host) (s : Server) : List Event → Server × Host
  | [] => (s, h)
  | e :: es => run (step h s e).2 (step h s e).1 es

/-- A new object, `qemu_nbd.py:67-83`. -/
def init (cache : Option Cache) (aio : Option Aio) : Server := ⟨cache, aio, none⟩

/-- Nothing was started, `qemu_nbd.py:83`. -/
def Host.empty : Host := ⟨0, fun _ => none, fun _ => none, []⟩

end Imageio.QemuLife
