import Mathlib.Data.Int.Log
import Mathlib.Data.Rat.Floor
import Verif.Model.Images
import Verif.Model.ClientIo
/-!
The progress bar of the client, `client/_ui.py`.
-/
namespace Imageio.Progress
open Imageio.Http

/-! ### Floating point numbers -/

/-- Round a rational to an integer, half to even: the rounding of IEEE 754 arithmetic.
Of the division and the multiplication in `client/_ui.py:162`. -/
def halfEven (x : ℚ) : ℤ :=
  if x - ⌊x⌋ < 1 / 2 then ⌊x⌋
  else if 1 / 2 < x - ⌊x⌋ then ⌊x⌋ + 1
  else if ⌊x⌋ % 2 = 0 then ⌊x⌋ else ⌊x⌋ + 1

/-- The spacing of the floating point numbers near `x`: 53 bits of precision.  See `nearest`, `client/_ui.py:162`. -/
def ulp (x : ℚ) : ℚ := (2 : ℚ) ^ (Int.log 2 x - 52)

/-- The floating point number nearest to `x`, for `x ≥ 0`.  Simplified: no overflow and no subnormal numbers; the
numbers in `client/_ui.py` are sizes in bytes, their quotients, and percents.
`client/_ui.py:162`, `_internal/util.py:34`. -/
def nearest (x : ℚ) : ℚ := if x = 0 then 0 else halfEven (x / ulp x) * ulp x

/-- `int(self._done / self._size * 100)`, `client/_ui.py:162`: the division of integers and the multiplication
are each rounded to a floating point number, and `int` truncates. -/
def percent (done size : Nat) : ℤ := ⌊nearest (nearest ((done : ℚ) / size) * 100)⌋

/-! ### The bar -/

/-- What `OutputFormat.draw` gets, `client/_ui.py:173-181`, without the elapsed time. -/
structure Draw where
  value : ℤ
  transferred : Nat
  size : Option Nat
  phase : Option Str
  last : Bool
deriving DecidableEq

/-- `ProgressBar`, `client/_ui.py:81-116`.  `draws` is the log of the drawings, oldest first. -/
structure Bar where
  phase : Option Str
  errorPhase : Option Str
  size : Option Nat
  done : Nat
  value : ℤ
  closed : Bool
  draws : List Draw
deriving DecidableEq

/-- `_draw`, `client/_ui.py:173-181`. -/
def Bar.draw (b : Bar) (last : Bool) : Bar :=
  { b with draws := b.draws ++ [⟨b.value, b.done, b.size, b.phase, last⟩] }

/-- `__init__`, `client/_ui.py:101-116`. -/
def Bar.new (phase errorPhase : Option Str) (size : Option Nat) : Bar :=
  Bar.draw ⟨phase, errorPhase, size, 0, -1, false, []⟩ false

/-- The setter of `phase`, `client/_ui.py:122-129`. -/
def Bar.setPhase (b : Bar) (s : Option Str) : Bar :=
  if b.closed then b
  else if b.phase ≠ s then Bar.draw { b with phase := s } false else b

/-- The setter of `size`, `client/_ui.py:135-142`. -/
def Bar.setSize (b : Bar) (n : Option Nat) : Bar :=
  if b.closed then b
  else if b.size ≠ n then Bar.draw { b with size := n } false else b

/-- The part of `update` for a size that is not `None` and not 0, `client/_ui.py:162-165`. -/
def Bar.advance (b : Bar) (size : Nat) : Bar :=
  if b.value < percent b.done size then Bar.draw { b with value := percent b.done size } false else b

/-- `update`, `client/_ui.py:144-165`, with a number of bytes that is not negative. -/
def Bar.update (b : Bar) (n : Nat) : Bar :=
  if b.closed then b
  else
    let b := { b with done := b.done + n }
    match b.size with
    | some (size + 1) => b.advance (size + 1)
    | _ => b

/-- `close`, `client/_ui.py:167-171`. -/
def Bar.close (b : Bar) : Bar := if b.closed then b else Bar.draw { b with closed := true } true

/-- `__exit__`, `client/_ui.py:186-190`. -/
def Bar.exit (b : Bar) (failed : Bool) : Bar :=
  Bar.close (if failed then b.setPhase b.errorPhase else b)

/-- The methods of the bar.  Each holds the lock (`client/_ui.py:124`, `137`, `157`, `168`), so the calls of several
threads are a sequence of calls. -/
inductive Call where
  | setPhase (s : Option Str)
  | setSize (n : Option Nat)
  | update (n : Nat)
  | close
deriving DecidableEq

/-- One call, `client/_ui.py:122-190`. -/
def Bar.call (b : Bar) : Call → Bar
  | .setPhase s => b.setPhase s
  | .setSize n => b.setSize n
  | .update n => b.update n
  | .close => b.close

/-- A sequence of calls, `client/_ui.py:122-190`. -/
def Bar.calls (b : Bar) (l : List Call) : Bar := l.foldl Bar.call b

/-! ### The text -/

/-- The units of `humansize`, `_internal/util.py:31`, after `bytes`. -/
def units : List Str := ["bytes", "KiB", "MiB", "GiB", "TiB", "PiB"].map Images.lit

/-- The loop of `humansize`, `_internal/util.py:31-34`: the number and the unit at its end. -/
def humanLoop (unit : Str) (n : ℚ) : List Str → ℚ × Str
  | [] => (n, unit)
  | u :: us => if n < 1024 then (n, u) else humanLoop u (nearest (n / 1024)) us

/-- `"{:.2f}"` of `q / 100`, `q ≥ 0`.  `_internal/util.py:35-36`. -/
def fixed2 (q : Nat) : Str := fmtNat (q / 100) ++ '.' :: (fmtNat (q / 10 % 10) ++ fmtNat (q % 10))

/-- `humansize`, `_internal/util.py:30-36`, of a number that is not negative. -/
def humansize (n : ℚ) : Str :=
  let (m, u) := humanLoop [] n units
  if u = Images.lit "bytes" then fmtNat (halfEven m).toNat ++ ' ' :: u
  else fixed2 (halfEven (m * 100)).toNat ++ ' ' :: u

/-- The percent of `TextFormat.draw`, `client/_ui.py:43`: `None` is `----`. -/
def Draw.shown (d : Draw) : Option ℤ :=
  match d.size with
  | some (_ + 1) => some (max 0 d.value)
  | _ => none

/-! ### The bar of a copy -/

/-- A copy of the client that reports to a bar: the state of the executor, and the bar.  The size is set before any
request is submitted, `client/_io.py:58-59`.  Each update of the progress (`client/_io.py:90`, `121`, `279`, `293`)
is a call of `update`; the other steps of the threads do not use the bar (an update of 0 bytes may be
both).  Other threads may set the phase at any time. -/
inductive WithBar (c : Io.Cfg) (acts : List Io.Act) (dst : Nat → Byte) (bar : Bar) (size : Nat) : Io.Ex → Bar → Prop
  | init : WithBar c acts dst bar size (.init c acts dst) (bar.setSize (some size))
  | quiet {s s' : Io.Ex} {b : Bar} (h : WithBar c acts dst bar size s b) (hs : Io.Ex.Step c s s')
      (hp : s'.progress = s.progress) : WithBar c acts dst bar size s' b
  | update {s s' : Io.Ex} {b : Bar} (h : WithBar c acts dst bar size s b) (hs : Io.Ex.Step c s s') :
      WithBar c acts dst bar size s' (b.update (s'.progress - s.progress))
  | phase {s : Io.Ex} {b : Bar} (h : WithBar c acts dst bar size s b) (p : Option Str) :
      WithBar c acts dst bar size s (b.setPhase p)

end Imageio.Progress
