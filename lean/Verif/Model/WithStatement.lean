import Verif.Base
/-!
The end of `with` statements: the `__exit__` methods of the classes of the project, and the
context managers made from generators.
-/
namespace Imageio.WithStatement

/-- An exception: `ordinary` is whether it is an `Exception`, so that `except Exception` catches it;
`KeyboardInterrupt` and `SystemExit` are not.  Caught in `backends/file.py:103`. -/
structure Exc where
  name : String
  ordinary : Bool
deriving DecidableEq, Repr

/-- The context managers: the backends (`backends/file.py:100-107`, `backends/nbd.py:153-160`,
`backends/http.py:348-355`, `backends/memory.py:125-132`, `backends/__init__.py:62-63`), the clients
(`client/_api.py:442-449`, `nbd.py:1248-1255`, `admin/_api.py:146-147`), the executor
(`client/_io.py:191-200`), the progress bar (`client/_ui.py:186-190`), qemu-nbd
(`qemu_nbd.py:274-278`), the temporary directory (`util.py:115-121`), and `contextlib.closing`
(`client/_upload.py:75`, `client/_download.py:41`, `client/_io.py:237`). -/
inductive Manager
  | fileBackend | nbdBackend | httpBackend | memoryBackend | wrapper
  | imageioClient | nbdClient | adminClient
  | executor | progressBar | qemuNbd | tmpDir | closing
deriving DecidableEq, Repr

/-- `except Exception: if t is None: raise` followed by writing to the log.
`backends/file.py:103-107`, and the same lines of the other classes. -/
def guarded (body close : Option Exc) : Option Exc :=
  match close with
  | none => none
  | some e => if e.ordinary = false then some e else if body = none then some e else none

/-- The error raised by `__exit__`, given the error of the body and the error of releasing the
object: `close()`, for the executor `stop()` or `abort()`, for the bar also drawing the failure, for
qemu-nbd `stop()`, for the directory `rmtree`.  The lines are cited at `Manager`.  The name of the method in
`nbd.py:1255` is wrong, so writing to the log fails.  Simplified: writing to the log does not fail
otherwise. -/
def Manager.exit (m : Manager) (body close : Option Exc) : Option Exc :=
  match m with
  | .fileBackend | .nbdBackend | .httpBackend | .memoryBackend | .imageioClient => guarded body close
  | .nbdClient =>
    match close with
    | none => none
    | some e =>
      if e.ordinary = false then some e
      else if body = none then some e
      else some ⟨"AttributeError", true⟩
  | .wrapper => none
  | .executor =>
    match body with
    | none => close
    | some _ =>
      match close with
      | none => none
      | some e => if e.ordinary then none else some e
  | .adminClient | .progressBar | .qemuNbd | .tmpDir | .closing => close

/-- A `with` statement: an error of `__exit__` replaces the error of the body; no `__exit__` of the
project returns a value, so the error of the body is raised again.  Of python, used for example in
`client/_api.py:76-90`. -/
def withOne (m : Manager) (close body : Option Exc) : Option Exc :=
  match m.exit body close with
  | some e => some e
  | none => body

/-- Nested `with` statements, the outermost first; the error at the end, and the objects released,
in order.  For example `client/_api.py:76-115` with `client/_io.py:42`. -/
def nested : List (Manager × Option Exc) → Option Exc → Option Exc × List Manager
  | [], body => (body, [])
  | (m, close) :: inner, body =>
    let r := nested inner body
    (withOne m close r.1, r.2 ++ [m])

/-- The `with` statements of `client/_api.py:76-115` `upload` and `157-193` `download`, with those
of `_open_nbd` (`client/_api.py:491-511`) and `_io.copy` (`client/_io.py:42`). -/
def transferStack : List Manager := [.httpBackend, .tmpDir, .qemuNbd, .executor]

/-- What `upload` and `download` open, in order: the http backend, the directory, qemu-nbd, the NBD
backend (`client/_api.py:511`), and the executor. -/
def transferOpened : List Manager := [.httpBackend, .tmpDir, .qemuNbd, .nbdBackend, .executor]

end Imageio.WithStatement
