import Verif.Model.Url
import Verif.Model.Images
/-!
Model of `ovirt_imageio/_internal/qemu_nbd.py`: the command line of qemu-nbd, the version check, and the
life of the process; and of `sockutil.py` `wait_for_socket`.
-/
namespace Imageio.QemuNbd
open Imageio.Http Imageio.Url Imageio.Images

/-- `qemu_nbd.py:24-83` the arguments of `Server`.  `transport` of an address is that of
`sockutil.py:16-63`.  For the string options `None` is `none`; the empty string is false in python. -/
structure Server where
  image : Str
  fmt : Str
  sock : Address
  exportName : Str := []
  readOnly : Bool := false
  shared : Int := 8
  cache : Option Str := none
  aio : Option Str := none
  discard : Option Str := some (lit "unmap")
  detectZeroes : Option Str := some (lit "unmap")
  bitmap : Option Str := none
  backingChain : Bool := true
  offset : Option Int := none
  size : Option Int := none

/-- What `start` asks the system: whether the image can be opened with O_DIRECT
(`qemu_nbd.py:232-241`), the version of qemu-nbd, and whether the image is a block device
(`qemu_nbd.py:243-244`, may fail).  `dumps` is `json.dumps`. -/
structure Env where
  qemuNbd : Str
  directIo : Bool
  version : Except Err (List Int)
  blockDevice : Except Err Bool
  dumps : Json → Str

/-- The first elements of `qemu_nbd.py:90-98`: `cache` and `aio` as used. -/
def Server.usedCache (s : Server) (env : Env) : Str :=
  match s.cache with
  | some c => c
  | none => if env.directIo then lit "none" else lit "writeback"

/-- `qemu_nbd.py:96-98` -/
def Server.usedAio (s : Server) (env : Env) : Str :=
  match s.aio with
  | some a => a
  | none => if s.usedCache env = lit "none" then lit "native" else lit "threads"

/-- `cmd.append("--name={}".format(value))` if the value is true.  `qemu_nbd.py:118-131`. -/
def opt (name : String) : Option Str → List Str
  | none => []
  | some [] => []
  | some v => [lit name ++ v]

/-- Comparison of python tuples of integers, `a >= b`.  `qemu_nbd.py:136`. -/
def tupleGe : List Int → List Int → Bool
  | _, [] => true
  | [], _ :: _ => false
  | a :: as, b :: bs => if a = b then tupleGe as bs else b < a

/-- `qemu_nbd.py:107-113` -/
def Server.listen (s : Server) : List Str :=
  match s.sock with
  | .unix path => [lit "--socket=" ++ path]
  | .tcp host port => [lit "--bind=" ++ host, lit "--port=" ++ fmtInt port]

/-- `qemu_nbd.py:133-146` -/
def Server.allocationDepth (s : Server) (version : List Int) : Except Err (List Str) :=
  if tupleGe version [5, 2, 0] then
    .ok (if s.fmt ≠ lit "raw" then [lit "--allocation-depth"] else [])
  else if s.fmt = lit "qcow2" ∧ s.backingChain = false then .error (.exception "RuntimeError")
  else .ok []

/-- `image[name] = value` if the value is not `None`.  `qemu_nbd.py:157-160`. -/
def field? (name : String) : Option Int → List (Str × Json)
  | none => []
  | some n => [(lit name, .int n)]

/-- `qemu_nbd.py:148-171` the block nodes of the image. -/
def Server.nodes (s : Server) (blockDevice : Bool) : Json :=
  let driver := if blockDevice then lit "host_device" else lit "file"
  let file := Json.obj [(lit "driver", .str driver), (lit "filename", .str s.image)]
  if s.offset ≠ none ∨ s.size ≠ none then
    let image := Json.obj ([(lit "driver", .str (lit "raw")), (lit "file", file)] ++
      field? "offset" s.offset ++ field? "size" s.size)
    if s.fmt = lit "qcow2" then .obj [(lit "driver", .str (lit "qcow2")), (lit "file", image)] else image
  else
    .obj ([(lit "driver", .str s.fmt), (lit "file", file)] ++
      if s.fmt = lit "qcow2" ∧ s.backingChain = false then [(lit "backing", .null)] else [])

/-- `qemu_nbd.py:90-173` the command. -/
def Server.command (s : Server) (env : Env) : Except Err (List Str) :=
  match env.version with
  | .error e => .error e
  | .ok version =>
    match s.allocationDepth version with
    | .error e => .error e
    | .ok depth =>
      match env.blockDevice with
      | .error e => .error e
      | .ok blockDevice =>
        .ok ([env.qemuNbd, lit "--export-name=" ++ s.exportName, lit "--persistent",
            lit "--shared=" ++ fmtInt s.shared] ++ s.listen ++
          (if s.readOnly then [lit "--read-only"] else []) ++
          opt "--cache=" (some (s.usedCache env)) ++ opt "--aio=" (some (s.usedAio env)) ++
          opt "--discard=" s.discard ++ opt "--detect-zeroes=" s.detectZeroes ++ opt "--bitmap=" s.bitmap ++
          depth ++ [lit "json:" ++ env.dumps (s.nodes blockDevice)])

/-! ## The version -/

/-- The text up to the first line break (`str.splitlines` breaks lines at these Latin-1 characters).
`qemu_nbd.py:310`. -/
def isLineBreak (c : Char) : Bool :=
  (10 ≤ c.toNat && c.toNat ≤ 13) || (28 ≤ c.toNat && c.toNat ≤ 30) || c.toNat == 0x85

/-- `line.split(None, 2)[1]`: the second word; `none` is `IndexError`.  `qemu_nbd.py:311`. -/
def secondWord (line : Str) : Option Str :=
  let rest := (line.dropWhile isPySpace).dropWhile fun c => !isPySpace c
  match rest.dropWhile isPySpace with
  | [] => none
  | w => some (w.takeWhile fun c => !isPySpace c)

/-- `s.split(c)`.  `qemu_nbd.py:312`. -/
def splitOn (c : Char) : Str → List Str
  | [] => [[]]
  | x :: r =>
    if x = c then [] :: splitOn c r
    else
      match splitOn c r with
      | [] => [[x]]
      | w :: ws => (x :: w) :: ws

/-- `qemu_nbd.py:301-312` `version`, of the output of `qemu-nbd --version`. -/
def version (out : Str) : Except Err (List Int) :=
  if out = [] then .error (.exception "IndexError")
  else
    match secondWord (out.takeWhile fun c => !isLineBreak c) with
    | none => .error (.exception "IndexError")
    | some w =>
      match (splitOn '.' w).mapM pyInt with
      | none => .error (.exception "ValueError")
      | some v => .ok v

/-! ## The nodes of `client/_api.py` -/

/-- `client/_api.py:468-482` `_json_uri`, the image inside of a tar file: the format is probed. -/
def jsonUri (filename : Str) (offset size : Int) : Json :=
  .obj [(lit "file", .obj [(lit "driver", .str (lit "raw")), (lit "offset", .int offset), (lit "size", .int size),
    (lit "file", .obj [(lit "driver", .str (lit "file")), (lit "filename", .str filename)])])]

/-! ## Waiting for the socket -/

/-- The result of `check_connection`, `sockutil.py:105-114`. -/
inductive Check where
  | connected
  /-- `ECONNREFUSED` or `ENOENT` -/
  | notReady
  /-- another exception -/
  | failed (e : Err)
deriving DecidableEq, Repr

/-- How the wait ended.  `sockutil.py:66-102`. -/
inductive Waited where
  | ready
  | timeout
  | raised (e : Err)
  /-- the next check has not been done yet; the time to sleep before it -/
  | sleeping (wait : Nat)
deriving DecidableEq, Repr

/-- `sockutil.py:66-102` `wait_for_socket`, for the results of the checks and the time after each of
them.  Times are in any unit. -/
def waitForSocket (step deadline : Nat) : List (Check × Nat) → Waited
  | [] => .sleeping 0
  | (.connected, _) :: _ => .ready
  | (.failed e, _) :: _ => .raised e
  | (.notReady, now) :: rest =>
    if now ≥ deadline then .timeout
    else
      match rest with
      | [] => .sleeping (min step (deadline - now))
      | r :: rest => waitForSocket step deadline (r :: rest)

/-! ## The process -/

/-- What the system does with the process: how the wait for the socket ends, whether it exits after
SIGTERM (or already before) and after SIGKILL within the timeout.  Outside of `qemu_nbd.py:175-205`. -/
structure World where
  popen : Except Err Unit
  wait : Except Err Bool
  exitsOnTerm : Bool
  exitsOnKill : Bool

/-- The state of the server: `self.proc`, and whether the process exists.  `qemu_nbd.py:83`, `176`, `205`. -/
structure Proc where
  handle : Bool
  running : Bool
deriving DecidableEq, Repr

/-- `qemu_nbd.py:187-205` `stop`.  SIGKILL cannot be ignored: the process ends, but maybe only after the
timeout of the second `communicate`. -/
def stop (w : World) (p : Proc) : Except Err Unit × Proc :=
  if p.handle then
    if w.exitsOnTerm then (.ok (), ⟨false, false⟩)
    else if w.exitsOnKill then (.ok (), ⟨false, false⟩)
    else (.error (.exception "TimeoutExpired"), ⟨true, true⟩)
  else (.ok (), p)

/-- `qemu_nbd.py:175-185` the end of `start`, after the command was built. -/
def start (w : World) (cmd : Except Err (List Str)) (p : Proc) : Except Err Unit × Proc :=
  match cmd with
  | .error e => (.error e, p)
  | .ok _ =>
    match w.popen with
    | .error e => (.error e, p)
    | .ok () =>
      let p := ⟨true, true⟩
      match w.wait with
      | .error e => (.error e, p)
      | .ok true => (.ok (), p)
      | .ok false =>
        match stop w p with
        | (.error e, p) => (.error e, p)
        | (.ok (), p) => (.error (.exception "RuntimeError"), p)

/-- `qemu_nbd.py:254-278` `run`, with a body that ends with `body`.  An exception in `finally` replaces
that of the body. -/
def run (w : World) (cmd : Except Err (List Str)) (body : Except Err Unit) : Except Err Unit × Proc :=
  match start w cmd ⟨false, false⟩ with
  | (.error e, p) => (.error e, p)
  | (.ok (), p) =>
    match stop w p with
    | (.error e, p) => (.error e, p)
    | (.ok (), p) => (body, p)

end Imageio.QemuNbd
