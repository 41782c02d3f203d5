import Verif.Model.Progress
import Verif.Model.Json
/-!
What the progress bar writes, `client/_ui.py`.
-/
namespace Imageio.Progress
open Imageio.Http Imageio.Images

/-- `DEFAULT_WIDTH`, `client/_ui.py:15`. -/
def defaultWidth : Nat := 79

/-- `f"{n:3d}"` for a number that is not negative, `client/_ui.py:43`. -/
def padded3 (n : Nat) : Str := List.replicate (3 - (fmtNat n).length) ' ' ++ fmtNat n

/-- `progress`, `client/_ui.py:43`. -/
def progressText (d : Draw) : Str :=
  match d.shown with
  | some n => padded3 n.toNat ++ ['%']
  | none => lit "----"

/-- `transferred / elapsed`, or 0, `client/_ui.py:45`; the number of bytes becomes a floating point number. -/
def rate (transferred : Nat) (elapsed : ℚ) : ℚ := if elapsed = 0 then 0 else nearest (nearest transferred / elapsed)

/-- `phase`, `client/_ui.py:46`: the empty string is like `None`. -/
def phaseText (p : Option Str) : Str :=
  match p with
  | some (c :: t) => lit " | " ++ c :: t
  | _ => []

/-- `line`, `client/_ui.py:43-47`; `elapsed` is not negative (the clock is monotonic). -/
def textLine (d : Draw) (elapsed : ℚ) : Str :=
  lit "[ " ++ progressText d ++ lit " ] " ++ humansize (nearest d.transferred) ++ lit ", " ++ fixed2 (halfEven (elapsed * 100)).toNat ++ lit " s, " ++
    humansize (rate d.transferred elapsed) ++ lit "/s" ++ phaseText d.phase

/-- `line.ljust(width, " ")`, `client/_ui.py:55`. -/
def ljust (width : Nat) (s : Str) : Str := s ++ List.replicate (width - s.length) ' '

/-- `TextFormat.draw`, `client/_ui.py:41-56`, with `_write_line`, `client/_ui.py:30-32`: what is written to the output. -/
def drawText (width : Nat) (d : Draw) (elapsed : ℚ) : Str :=
  ljust width (textLine d elapsed) ++ [if d.last then '\n' else '\r']

/-- `progress`, `client/_ui.py:63-69`.  Simplified: the elapsed time is a number without its value. -/
def progressJson (d : Draw) : Json :=
  .obj ([(lit "transferred", .int d.transferred), (lit "elapsed", .float), (lit "description", .str (d.phase.getD []))] ++
    match d.size with
    | none => []
    | some n => [(lit "size", .int n)])

/-- `JsonFormat.draw`, `client/_ui.py:61-72`, with `_write_line`, `client/_ui.py:30-32`: what is written to the output. -/
def drawJson (d : Draw) : Str := JsonText.dumpsText (progressJson d) ++ ['\n']

end Imageio.Progress
