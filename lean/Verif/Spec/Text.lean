import Verif.Spec.Http

/-!
Specification of the texts parsed by imageio outside HTTP: integers as written for python
`int()`, sizes with a unit.  Independent of the parsers in the model.
-/
namespace Imageio.Spec

/-- White space of a Latin-1 text. -/
def Blank (c : Char) : Prop :=
  c.toNat ∈ [9, 10, 11, 12, 13, 28, 29, 30, 31, 32, 0x85, 0xa0]

/-- Digits with single underscores between them: the text and its digits. -/
inductive Grouped : List Char → List Char → Prop
  | one {d : Char} (hd : d.isDigit = true) : Grouped [d] [d]
  | cons {d : Char} {s ds : List Char} (hd : d.isDigit = true) (h : Grouped s ds) :
      Grouped (d :: s) (d :: ds)
  | under {d : Char} {s ds : List Char} (hd : d.isDigit = true) (h : Grouped s ds) :
      Grouped (d :: '_' :: s) (d :: ds)

/-- An optional sign and the number it gives. -/
inductive Signed : List Char → Nat → Int → Prop
  | none {n : Nat} : Signed [] n n
  | plus {n : Nat} : Signed ['+'] n n
  | minus {n : Nat} : Signed ['-'] n (-n)

/-- The integer literals accepted by python: optional white space around, an optional
sign, digits in groups. -/
def IntText (s : List Char) (v : Int) : Prop :=
  ∃ w₁ sign body w₂ ds n, s = w₁ ++ sign ++ body ++ w₂ ∧ (∀ c ∈ w₁, Blank c) ∧
    (∀ c ∈ w₂, Blank c) ∧ Grouped body ds ∧ Number ds n ∧ Signed sign n v

/-- The units of sizes: powers of 1024, in either case. -/
inductive Unit : Char → Nat → Prop
  | k {c : Char} (h : c = 'k' ∨ c = 'K') : Unit c (1024 ^ 1)
  | m {c : Char} (h : c = 'm' ∨ c = 'M') : Unit c (1024 ^ 2)
  | g {c : Char} (h : c = 'g' ∨ c = 'G') : Unit c (1024 ^ 3)
  | t {c : Char} (h : c = 't' ∨ c = 'T') : Unit c (1024 ^ 4)

/-- A size as documented: a number, or a number and a unit. -/
def SizeText (s : List Char) (v : Nat) : Prop :=
  Number s v ∨ ∃ a c n u, s = a ++ [c] ∧ Number a n ∧ Unit c u ∧ v = n * u

end Imageio.Spec
