import Verif.Model.GoMap
/-!
The libnbd handles and the qemu-nbd servers of the Go client: `go/ovirt-img/nbd/nbd.go` `ConnectFile`, `Connect` and `Close`, and
`go/ovirt-img/map.go`.  `Model/GoMap` has the results of these calls, and not what they leave behind.
-/
namespace Imageio.GoHandles

/-- The handles of libnbd that are open, by number, in the order of their creation; the value tells if a qemu-nbd server was
started for the handle, which runs until the handle is closed.  The finalizers of Go are not modelled: they do not run when a
program exits.  `go/ovirt-img/nbd/nbd.go:30`, `50`, `192`. -/
structure State where
  handle : Nat → Option Bool
  next : Nat

/-- No handles, `go/ovirt-img/main.go:23`. -/
def State.empty : State := ⟨fun _ => none, 0⟩

/-- A changed handle, `go/ovirt-img/nbd/nbd.go:30`, `50`, `192`. -/
def State.put (s : State) (i : Nat) (v : Option Bool) : State := { s with handle := fun k => if k = i then v else s.handle k }

/-- The answers of libnbd: creating a handle, adding the meta context, connecting, and the size; `started` tells if qemu-nbd was
started, also when connecting failed after it.  `go/ovirt-img/nbd/nbd.go:30`, `35`, `50`, `56`. -/
structure Answers where
  create : Bool
  addContext : Bool
  started : Bool
  connected : Bool
  size : Bool
deriving DecidableEq, Repr

/-- `h.Close()`, of libnbd: also stops the server.  Closing again is an error that is ignored.
`go/ovirt-img/nbd/nbd.go:37`, `52`, `192`. -/
def closeHandle (s : State) (i : Nat) : State := s.put i none

/-- `ConnectFile` and `Connect`, `go/ovirt-img/nbd/nbd.go:29-62`, `66-90`: the handle of the backend, or an error.  `file` is
`ConnectFile`, which starts qemu-nbd. -/
def connect (s : State) (file : Bool) (a : Answers) : Option Nat × State :=
  if !a.create then (none, s)
  else
    let h := s.next
    let s := { s.put h (some false) with next := s.next + 1 }
    if !a.addContext then (none, closeHandle s h)
    else
      let s := s.put h (some (file && (a.started || a.connected)))
      if !a.connected then (none, closeHandle s h)
      else if !a.size then (none, s)
      else (some h, s)

/-- `Backend.Close`, `go/ovirt-img/nbd/nbd.go:190-193`. -/
def close (s : State) (h : Nat) : State := closeHandle s h

/-- What a program does with backends: connecting, and closing the backend with a handle.  `go/imageio/backend.go:8-20`. -/
inductive Act where
  | connect (file : Bool) (a : Answers)
  | close (h : Nat)
deriving DecidableEq, Repr

/-- One call, `go/ovirt-img/nbd/nbd.go:29-90`, `190-193`. -/
def step (s : State) : Act → State
  | .connect file a => (connect s file a).2
  | .close h => close s h

/-- A sequence of calls, `go/ovirt-img/nbd/nbd.go:29-90`, `190-193`. -/
def run (s : State) (acts : List Act) : State := acts.foldl step s

/-- How `b.Extents()` ends, `go/ovirt-img/map.go:23-26`. -/
inductive Extents where
  | done | failed | panicked
deriving DecidableEq, Repr

/-- `mapURL` with the NBD backend, `go/ovirt-img/map.go:16-31`: the exit status, and the handles when the program ends.
`log.Fatalf` exits at once, deferred calls run only after a return or a panic (exit status 2). -/
def mapUrl (s : State) (file : Bool) (a : Answers) (e : Extents) : Nat × State :=
  match connect s file a with
  | (none, s) => (1, s)
  | (some h, s) =>
    match e with
    | .failed => (1, s)
    | .panicked => (2, close s h)
    | .done => (0, close s h)

end Imageio.GoHandles
