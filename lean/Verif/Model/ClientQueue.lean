import Verif.Base
/-!
Model of the work queue of the client, `ovirt_imageio/client/_io.py:332-376`, and of threads that use
it.

Everything in the methods runs while the lock of the condition is held, so every method is one step up
to the first `wait()`, and from every wakeup to the next `wait()` or to the end.
`threading.Condition`: `wait()` releases the lock and appends the thread to the waiters, `notify()`
wakes the first waiter, and a thread that was woken competes for the lock with all the other threads.
-/
namespace Imageio.Io

/-- `client/_io.py:341-344` `Queue`; `waiters` are the threads in `Condition.wait()`, and `woken` are
the threads that were notified and have not run yet. -/
structure Queue (α : Type) where
  items : List α
  maxlen : Nat
  closed : Bool
  waiters : List Nat
  woken : List Nat
deriving DecidableEq, Repr

/-- `client/_io.py:341-344` `Queue(max_size)`. -/
def Queue.new {α : Type} (maxSize : Nat) : Queue α := ⟨[], maxSize, false, [], []⟩

/-- How one step of a method ends.
`client/_io.py:350-370`: a method raises `Closed`, sleeps in `wait()`, or returns. -/
inductive Outcome (α : Type) where
  /-- `Condition.wait()` -/
  | blocked
  /-- `raise Closed` -/
  | raised
  /-- `put` returned -/
  | put
  /-- `get` returned -/
  | got (x : α)
deriving DecidableEq, Repr

variable {α : Type}

/-- `Condition.notify()`.  Used in `client/_io.py:354`, `361`; the semantics of `threading.Condition`. -/
def Queue.notify (q : Queue α) : Queue α :=
  match q.waiters with
  | [] => q
  | t :: ts => { q with waiters := ts, woken := q.woken ++ [t] }

/-- `Condition.notify_all()`.  Used in `client/_io.py:376`. -/
def Queue.notifyAll (q : Queue α) : Queue α := { q with waiters := [], woken := q.woken ++ q.waiters }

/-- `Condition.wait()`.  Used in `client/_io.py:368`. -/
def Queue.wait (q : Queue α) (t : Nat) : Queue α := { q with waiters := q.waiters ++ [t] }

/-- Thread `t` continues.  It returns from `wait()`, `client/_io.py:368-370`. -/
def Queue.run (q : Queue α) (t : Nat) : Queue α := { q with woken := q.woken.filter (· ≠ t) }

/-- `deque.append` of a deque with a maximum length drops items on the other side.  `client/_io.py:343`, `353`. -/
def Queue.append (q : Queue α) (x : α) : Queue α :=
  { q with items := (q.items ++ [x]).drop (q.items.length + 1 - q.maxlen) }

/-- `client/_io.py:350-354` `Queue.put`, and `client/_io.py:364-370` `_wait_while`: one step of thread `t`,
from the call or from a wakeup. -/
def Queue.put (q : Queue α) (t : Nat) (x : α) : Outcome α × Queue α :=
  let q := q.run t
  if q.closed then (.raised, q)
  else if q.items.length = q.maxlen then (.blocked, q.wait t)
  else (.put, (q.append x).notify)

/-- `client/_io.py:356-362` `Queue.get`, one step. -/
def Queue.get (q : Queue α) (t : Nat) : Outcome α × Queue α :=
  let q := q.run t
  if q.closed then (.raised, q)
  else
    match q.items with
    | [] => (.blocked, q.wait t)
    | x :: xs =>
      let q := { q with items := xs }
      if xs.length + 1 = q.maxlen then (.got x, q.notify) else (.got x, q)

/-- `client/_io.py:372-376` `Queue.close`. -/
def Queue.close (q : Queue α) : Queue α := { q with closed := true, items := [] }.notifyAll

/-! ## Threads -/

/-- A call of a thread.  `client/_io.py:350`, `356`, `372`. -/
inductive Call (α : Type) where
  | put (x : α)
  | get
deriving DecidableEq, Repr

/-- A queue and its threads.  The logs are not part of the program: the items in the order of the
puts, and the items in the order of the gets with the thread that got them.
`client/_io.py:332-376`, and the callers. -/
structure Threads (α : Type) where
  q : Queue α
  /-- the method that the thread is in -/
  call : Nat → Option (Call α)
  putLog : List α
  gotLog : List (Nat × α)
  /-- threads whose call raised `Closed` -/
  raisedLog : List Nat

/-- Function update.  A helper, not a function of the code. -/
def set {β : Type} (f : Nat → β) (t : Nat) (b : β) : Nat → β := fun x => if x = t then b else f x

/-- Steps of the threads; `allowed` says which thread may call what.
A step is the code between two releases of the lock of `client/_io.py:342`. -/
inductive Threads.Step (allowed : Nat → Call α → Prop) : Threads α → Threads α → Prop
  /-- a thread calls a method -/
  | call {s : Threads α} {t : Nat} {c : Call α} (h : s.call t = none) (ha : allowed t c) :
      Step allowed s { s with call := set s.call t (some c) }
  /-- a thread in `put` runs -/
  | putBlocked {s : Threads α} {t : Nat} {x : α} {q : Queue α} (h : s.call t = some (.put x))
      (hw : t ∉ s.q.waiters) (hq : s.q.put t x = (.blocked, q)) : Step allowed s { s with q := q }
  | putRaised {s : Threads α} {t : Nat} {x : α} {q : Queue α} (h : s.call t = some (.put x))
      (hw : t ∉ s.q.waiters) (hq : s.q.put t x = (.raised, q)) :
      Step allowed s { s with q := q, call := set s.call t none, raisedLog := s.raisedLog ++ [t] }
  | putDone {s : Threads α} {t : Nat} {x : α} {q : Queue α} (h : s.call t = some (.put x))
      (hw : t ∉ s.q.waiters) (hq : s.q.put t x = (.put, q)) :
      Step allowed s { s with q := q, call := set s.call t none, putLog := s.putLog ++ [x] }
  /-- a thread in `get` runs -/
  | getBlocked {s : Threads α} {t : Nat} {q : Queue α} (h : s.call t = some .get)
      (hw : t ∉ s.q.waiters) (hq : s.q.get t = (.blocked, q)) : Step allowed s { s with q := q }
  | getRaised {s : Threads α} {t : Nat} {q : Queue α} (h : s.call t = some .get)
      (hw : t ∉ s.q.waiters) (hq : s.q.get t = (.raised, q)) :
      Step allowed s { s with q := q, call := set s.call t none, raisedLog := s.raisedLog ++ [t] }
  | getDone {s : Threads α} {t : Nat} {x : α} {q : Queue α} (h : s.call t = some .get)
      (hw : t ∉ s.q.waiters) (hq : s.q.get t = (.got x, q)) :
      Step allowed s { s with q := q, call := set s.call t none, gotLog := s.gotLog ++ [(t, x)] }
  /-- a thread closes the queue -/
  | close {s : Threads α} {t : Nat} (h : s.call t = none) : Step allowed s { s with q := s.q.close }

/-- The executions from a new queue.  `client/_io.py:341-344`. -/
inductive Threads.Reachable (maxSize : Nat) (allowed : Nat → Call α → Prop) : Threads α → Prop
  | init : Reachable maxSize allowed ⟨.new maxSize, fun _ => none, [], [], []⟩
  | step {s s' : Threads α} (h : Reachable maxSize allowed s) (hs : Threads.Step allowed s s') :
      Reachable maxSize allowed s'

end Imageio.Io
