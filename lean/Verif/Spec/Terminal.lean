import Verif.Base
/-!
A terminal, as far as a progress bar needs it.
-/
namespace Imageio.Spec.Terminal

/-- The finished lines, the line with the cursor, and the column of the cursor. -/
structure Screen where
  above : List (List Char)
  line : List Char
  col : Nat
deriving DecidableEq, Repr

/-- Writing a character: a carriage return goes to the first column, a newline to the next line, other characters replace what is at the cursor. -/
def put (s : Screen) (c : Char) : Screen :=
  if c = '\r' then { s with col := 0 }
  else if c = '\n' then ⟨s.above ++ [s.line], [], 0⟩
  else { s with line := s.line.take s.col ++ c :: s.line.drop (s.col + 1), col := s.col + 1 }

/-- Writing a text. -/
def write (s : Screen) (t : List Char) : Screen := t.foldl put s

/-- What the eye sees of a line. -/
def visible (s : List Char) : List Char := (s.reverse.dropWhile (fun c => decide (c = ' '))).reverse

end Imageio.Spec.Terminal
