import Verif.Model.HttpParse

/-!
Size strings of the command line, `ovirt_imageio/client/_options.py`.

Strings are Latin-1 as everywhere in the model: `int()` also accepts the digits of other
scripts, and `str.lower()` maps the Kelvin sign to `k`; these are not modelled.
-/
namespace Imageio.Options
open Imageio.Http

/-- `units.py:8` -/
def KiB : Nat := 1024

/-- `_options.py:322` `SizeValue.SUFFIXES`, in the order of the dictionary, with the
one character keys as characters and `""` as no character. -/
def suffixes : List (Option Char × Nat) :=
  [(none, 1), (some 'k', KiB), (some 'm', KiB * KiB), (some 'g', KiB * KiB * KiB),
   (some 't', KiB * KiB * KiB * KiB)]

/-- `_options.py:326-329` the loop of `SizeValue.__str__`: the number and the last unit
assigned to the loop variable.  The division is done after the check also for the last
unit. -/
def strLoop : List (Option Char × Nat) → Option Char → Nat → Nat × Option Char
  | [], unit, n => (n, unit)
  | (u, _) :: us, _, n => if n < KiB then (n, u) else strLoop us u (n / KiB)

/-- `_options.py:324-330` `SizeValue.__str__` for a non-negative value. -/
def sizeStr (n : Nat) : Str :=
  let (n, u) := strLoop suffixes none n
  fmtNat n ++ u.toList

/-- `_options.py:348` `SizeValue.SUFFIXES.get(s[-1].lower())`: a one character string is
never the key `""`. -/
def unitOf (c : Char) : Option Nat := (suffixes.find? (·.1 == some c.toLower)).map (·.2)

/-- `_options.py:333-342` the bounds of `Size`. -/
structure Bounds where
  minimum : Int := 0
  maximum : Option Int := none

/-- `_options.py:348-352` the value of a string with the last character `c`, before the
checks of the bounds. -/
def sizeValue (s : Str) (c : Char) : Option Int :=
  match unitOf c with
  | some unit => (pyInt s.dropLast).map (· * (unit : Int))
  | none => pyInt s

/-- `_options.py:344-360` `Size.__call__`.  `none` is `ValueError`. -/
def size (b : Bounds) (s : Str) : Option Int :=
  match s.getLast? with
  | none => none
  | some c =>
    match sizeValue s c with
    | none => none
    | some v =>
      if v < b.minimum then none
      else match b.maximum with
        | some m => if v > m then none else some v
        | none => some v

end Imageio.Options
