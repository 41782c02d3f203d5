import Verif.Base
/-!
The system calls of the C module: `blkzeroout`, `blksszget` and `fallocate` of
`ovirt_imageio/_internal/ioutil.c` (`is_zero` is in `Model/Blkhash`).  The conversions of the
arguments are those of `PyArg_ParseTuple`.  The platform is Linux on x86-64: `int` has 32 bits,
`off_t` and `long long` have 64 bits.
-/
namespace Imageio.Ioutil

/-- The format `i`: a python int to `int`; `none` is `OverflowError`.  `ioutil.c:34`, `69`, `175`. -/
def convInt (n : Int) : Option Int := if -(2 ^ 31) ≤ n ∧ n < 2 ^ 31 then some n else none

/-- The format `L`: a python int to `long long`; `none` is `OverflowError`.  `ioutil.c:175`. -/
def convLong (n : Int) : Option Int := if -(2 ^ 63) ≤ n ∧ n < 2 ^ 63 then some n else none

/-- The format `K`: a python int to `unsigned long long`, without overflow checking.
`ioutil.c:34`. -/
def convMask (n : Int) : Nat := (n % 2 ^ 64).toNat

/-- The system calls: `ioctl(fd, BLKZEROOUT, range)` (`ioutil.c:39`), `ioctl(fd, BLKSSZGET, &res)`
(`ioutil.c:74`), and `fallocate(fd, mode, offset, length)` (`ioutil.c:179`). -/
inductive Syscall
  | blkzeroout (fd : Int) (start length : Nat)
  | blksszget (fd : Int)
  | fallocate (fd mode offset length : Int)
deriving DecidableEq, Repr

/-- The result of a system call: the return value with the number stored by the kernel, or −1 with
an errno.  `ioutil.c:42-43`, `77-78`, `182-183`. -/
inductive Answer
  | ok (res : Int)
  | failed (errno : String)
deriving DecidableEq, Repr

/-- The functions return a python int (0 stands for `None`) or an error; with the system calls
made.  `ioutil.c:26-186`. -/
abbrev Out := Except Err Int × List Syscall

/-- `ioutil.c:26-46` `blkzeroout` -/
def blkzeroout (kernel : Syscall → Answer) (fd start length : Int) : Out :=
  match convInt fd with
  | none => (.error (.exception "OverflowError"), [])
  | some fd =>
    let call := Syscall.blkzeroout fd (convMask start) (convMask length)
    match kernel call with
    | .failed e => (.error (.os e), [call])
    | .ok _ => (.ok 0, [call])

/-- `ioutil.c:62-81` `blksszget` -/
def blksszget (kernel : Syscall → Answer) (fd : Int) : Out :=
  match convInt fd with
  | none => (.error (.exception "OverflowError"), [])
  | some fd =>
    match kernel (.blksszget fd) with
    | .failed e => (.error (.os e), [.blksszget fd])
    | .ok n => (.ok n, [.blksszget fd])

/-- `ioutil.c:166-186` `fallocate`: the arguments are converted in order, the first that does not
fit fails. -/
def fallocate (kernel : Syscall → Answer) (fd mode offset length : Int) : Out :=
  match convInt fd, convInt mode, convLong offset, convLong length with
  | some fd, some mode, some offset, some length =>
    match kernel (.fallocate fd mode offset length) with
    | .failed e => (.error (.os e), [.fallocate fd mode offset length])
    | .ok _ => (.ok 0, [.fallocate fd mode offset length])
  | _, _, _, _ => (.error (.exception "OverflowError"), [])

/-- A call of the module, `ioutil.c:188-194`. -/
inductive Call
  | blkzeroout (fd start length : Int)
  | blksszget (fd : Int)
  | fallocate (fd mode offset length : Int)
deriving DecidableEq, Repr

/-- The table of the methods, `ioutil.c:188-194`. -/
def Call.run (kernel : Syscall → Answer) : Call → Out
  | .blkzeroout fd start length => Ioutil.blkzeroout kernel fd start length
  | .blksszget fd => Ioutil.blksszget kernel fd
  | .fallocate fd mode offset length => Ioutil.fallocate kernel fd mode offset length

/-- The constants added to the module, `ioutil.c:197-212`, with the values of `linux/falloc.h`. -/
def constants : List (String × Nat) :=
  [("FALLOC_FL_KEEP_SIZE", 1), ("FALLOC_FL_PUNCH_HOLE", 2), ("FALLOC_FL_COLLAPSE_RANGE", 8),
   ("FALLOC_FL_ZERO_RANGE", 16)]

/-- A constant of the module; a name that is not there is `AttributeError`, here 0 (the names used
below are there).  `backends/file.py:413`, `425`, `471`. -/
def constant (name : String) : Nat := ((constants.find? fun p => p.1 = name).map Prod.snd).getD 0

/-- The ways in which the file backend calls the module: zeroing the range (`backends/file.py:297-299`,
`413-414`), punching a hole (`425-426`, `471-472`), allocating (`427`, `441`), and zeroing a block
device (`315`). -/
inductive BackendCall
  | zeroRange | punchHole | allocate | zeroOut
deriving DecidableEq, Repr

/-- The call for the range of `count` bytes at `offset`, `backends/file.py:297-299`, `315`,
`413-414`, `425-427`, `441`, `471-472`, `489`. -/
def BackendCall.call (b : BackendCall) (fd offset count : Int) : Call :=
  match b with
  | .zeroRange => .fallocate fd (constant "FALLOC_FL_ZERO_RANGE") offset count
  | .punchHole => .fallocate fd (constant "FALLOC_FL_PUNCH_HOLE" ||| constant "FALLOC_FL_KEEP_SIZE" : Nat) offset count
  | .allocate => .fallocate fd 0 offset count
  | .zeroOut => .blkzeroout fd offset count

/-- `backends/file.py:483-494` `_fallocate`: whether the mode is supported; any other error is raised. -/
def tryFallocate (kernel : Syscall → Answer) (c : Call) : Except Err Bool × List Syscall :=
  match c.run kernel with
  | (.ok _, calls) => (.ok true, calls)
  | (.error (.os e), calls) => if e = "EOPNOTSUPP" then (.ok false, calls) else (.error (.os e), calls)
  | (.error e, calls) => (.error e, calls)

end Imageio.Ioutil
