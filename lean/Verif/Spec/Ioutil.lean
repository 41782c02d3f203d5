import Verif.Model.Ioutil
/-! What the callers of the C module mean. -/
namespace Imageio.Ioutil.Spec

/-- The system call that does what the python call says, with the same numbers. -/
def Says : Call → Syscall → Prop
  | .blkzeroout fd start length, .blkzeroout fd' start' length' =>
    fd' = fd ∧ (start' : Int) = start ∧ (length' : Int) = length
  | .blksszget fd, .blksszget fd' => fd' = fd
  | .fallocate fd mode offset length, s => s = .fallocate fd mode offset length
  | _, _ => False

/-- The numbers of the call can be given to the kernel. -/
def Fits : Call → Prop
  | .blkzeroout fd start length => -(2 ^ 31) ≤ fd ∧ fd < 2 ^ 31 ∧ 0 ≤ start ∧ start < 2 ^ 64 ∧ 0 ≤ length ∧ length < 2 ^ 64
  | .blksszget fd => -(2 ^ 31) ≤ fd ∧ fd < 2 ^ 31
  | .fallocate fd mode offset length =>
    (-(2 ^ 31) ≤ fd ∧ fd < 2 ^ 31) ∧ (-(2 ^ 31) ≤ mode ∧ mode < 2 ^ 31) ∧ (-(2 ^ 63) ≤ offset ∧ offset < 2 ^ 63) ∧
      (-(2 ^ 63) ≤ length ∧ length < 2 ^ 63)

/-- What the kernel does with a range, `fallocate(2)` and `BLKZEROOUT`; `none` for other modes. -/
inductive Effect
  | zero (offset length : Int)
  | hole (offset length : Int)
  | allocate (offset length : Int)
deriving DecidableEq, Repr

/-- The effect of a system call: the modes are 0x10 `FALLOC_FL_ZERO_RANGE`, 0x02
`FALLOC_FL_PUNCH_HOLE` with 0x01 `FALLOC_FL_KEEP_SIZE`, and 0. -/
def effect : Syscall → Option Effect
  | .fallocate _ mode offset length =>
    if mode = 0x10 then some (.zero offset length)
    else if mode = 0x03 then some (.hole offset length)
    else if mode = 0 then some (.allocate offset length)
    else none
  | .blkzeroout _ start length => some (.zero start length)
  | .blksszget _ => none

/-- What the backend wants. -/
def wanted (b : BackendCall) (offset count : Int) : Effect :=
  match b with
  | .zeroRange | .zeroOut => .zero offset count
  | .punchHole => .hole offset count
  | .allocate => .allocate offset count

end Imageio.Ioutil.Spec
