import Verif.Model.ClientIo
import Verif.Model.Engine

/-!
Signals and the exit status of `ovirt-img`: `client/_app.py`, `client/_tool.py`, and the check of the workers in
`client/_io.py:240`.

The copy is the transition system of `Model/ClientIo`; here the check is a step of its own, and a signal may arrive
between any two steps.  Not modelled: the command line and the log.
-/
namespace Imageio.Tool
open Io

/-- `client/_app.py:45-48` `_handle_signal`: the first signal is kept. -/
def handleSignal (received : Option Nat) (signo : Nat) : Option Nat :=
  match received with
  | none => some signo
  | some n => some n

/-- The worker has a request, `client/_io.py:239-247`. -/
def hasRequest : Pc → Bool
  | .working _ _ => true
  | .stopping => true
  | _ => false

/-- The copy in the process.  `signal` is `_termination_signal` (`client/_app.py:10`).  `checked k`: worker `k` has
returned from `check_terminated` for the request it has (`client/_io.py:240`). -/
structure St where
  ex : Ex
  signal : Option Nat
  checked : Nat → Bool

/-- Before the copy, `client/_io.py:42-66`; a signal may have been received already. -/
def St.init (c : Cfg) (acts : List Act) (dst : Nat → Byte) (signal : Option Nat) : St :=
  ⟨.init c acts dst, signal, fun _ => false⟩

/-- The errors of a step, by a worker or by the main thread, are not `TerminatedBySignal`: only `check_terminated`
raises it, and only workers call it.  `client/_app.py:23-28`, `client/_io.py:240`. -/
def OtherErrors (s s' : Ex) : Prop :=
  (∀ n, .terminated n ∈ s'.errors → .terminated n ∈ s.errors) ∧
  ∀ n, s'.main = .joining (some (.terminated n)) → s.main = .joining (some (.terminated n))

/-- The steps.  `client/_io.py:36-70`, `233-255`, with signals at any time. -/
inductive Step (c : Cfg) : St → St → Prop
  /-- `client/_app.py:45-48` -/
  | signal {s : St} (signo : Nat) : Step c s { s with signal := handleSignal s.signal signo }
  /-- `client/_app.py:27` no signal was received -/
  | passed {s : St} {k : Nat} (hk : k < c.workers) (hp : hasRequest (s.ex.w k).pc = true) (hc : s.checked k = false)
      (hs : s.signal = none) : Step c s { s with checked := set s.checked k true }
  /-- `client/_app.py:27-28`, `client/_io.py:250-251` -/
  | raised {s : St} {k n : Nat} (hk : k < c.workers) (hp : hasRequest (s.ex.w k).pc = true) (hc : s.checked k = false)
      (hs : s.signal = some n) :
      Step c s { s with ex := { s.ex.setW k { s.ex.w k with pc := .failing } with
        errors := s.ex.errors ++ [.terminated n] } }
  /-- Any other step of the copy; a worker with a request that it did not check waits. -/
  | other {s : St} {ex : Ex} (h : Ex.Step c s.ex ex) (he : OtherErrors s.ex ex)
      (hw : ∀ k, hasRequest (s.ex.w k).pc = true → s.checked k = false → ex.w k = s.ex.w k) :
      Step c s { s with ex := ex, checked := fun k => s.checked k && hasRequest (ex.w k).pc }

/-- The states of a copy that starts after the signals `signal`.  `client/_io.py:36-70`. -/
inductive Reachable (c : Cfg) (acts : List Act) (dst : Nat → Byte) : St → Prop
  | init (signal : Option Nat) : Reachable c acts dst (.init c acts dst signal)
  | step {s s' : St} (h : Reachable c acts dst s) (hs : Step c s s') : Reachable c acts dst s'

/-- What the copy raised, as seen by `upload_disk` and `download_disk`.  `client/_upload.py:96-109`,
`client/_download.py:50-62`. -/
def raisedBy : Option Err → Except Engine.Error Unit
  | none => .ok ()
  | some (.terminated n) => .error (.terminated n)
  | some _ => .error (.local 0)

/-- `client/_tool.py:31-43` the exit status; `128 + signo` for a signal. -/
def exitStatus : Except Engine.Error Unit → Nat
  | .ok () => 0
  | .error (.terminated n) => 128 + n
  | .error _ => 1

end Imageio.Tool
