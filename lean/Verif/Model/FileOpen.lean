import Verif.Model.File
/-!
Model of opening the file backend: `open`, the constructors and `_detect_block_size` of
`ovirt_imageio/_internal/backends/file.py`.
-/
namespace Imageio.File

/-- The kernel, as seen by the constructors: the result of reading `k` bytes at offset 0 to an aligned
buffer with direct I/O; the error is the errno.  `backends/file.py:383-389`. -/
abbrev ReadProbe := Nat → Except String Unit

/-- `file.py:379-399` the loop of `_detect_block_size`; the failure in `file.py:401-402` uses
`self._fio.path`, which is not an attribute of `io.FileIO` objects. -/
def detectLoop (read : ReadProbe) : List Nat → Except Err Nat
  | [] => .error (.exception "AttributeError")
  | b :: bs =>
    match read b with
    | .ok () => .ok (if b = 1 then 4096 else b)
    | .error errno => if errno = "EINVAL" then detectLoop read bs else .error (.os errno)

/-- `file.py:366-402` `_detect_block_size` -/
def detectBlockSize (read : ReadProbe) : Except Err Nat := detectLoop read [1, 512, 4096]

/-- `file.py:327-348` `FileBackend.__init__`: the block size; `0` and `None` are false. -/
def fileBlockSize (read : ReadProbe) (blockSize : Option Nat) : Except Err Nat :=
  match blockSize with
  | some b => if b = 0 then detectBlockSize read else .ok b
  | none => detectBlockSize read

/-- `file.py:255-273` `BlockBackend.__init__`: the block size; the default is 512. -/
def blockBlockSize (blockSize : Option Nat) : Nat := blockSize.getD 512

/-- `file.py:22-45` `open`: the environment of the backend, or the error; and whether the file was
left open.  `stat` is the result of `os.fstat`, whether the file is a block device. -/
def openFile (openOk : Except String Unit) (stat : Except String Bool) (read : ReadProbe) (sparse : Bool) :
    Except Err Env × Bool :=
  match openOk with
  | .error e => (.error (.os e), false)
  | .ok () =>
    match stat with
    | .error e => (.error (.os e), false)
    | .ok true => (.ok ⟨true, blockBlockSize none, sparse⟩, true)
    | .ok false =>
      match fileBlockSize read none with
      | .error e => (.error e, false)
      | .ok b => (.ok ⟨false, b, sparse⟩, true)

/-- `file.py:236-248` `_clone`: the block size is not detected again. -/
def cloneFile (openOk : Except String Unit) (read : ReadProbe) (env : Env) : Except Err Env × Bool :=
  match openOk with
  | .error e => (.error (.os e), false)
  | .ok () =>
    if env.isBlock then (.ok ⟨true, blockBlockSize (some env.bs), env.sparse⟩, true)
    else
      match fileBlockSize read (some env.bs) with
      | .error e => (.error e, false)
      | .ok b => (.ok ⟨false, b, env.sparse⟩, true)

end Imageio.File
