import Verif.Base
import Mathlib.Data.List.Forall2

/-!
Specification of the ini syntax: which sections and options the text of a file has.

A text is a list of lines.  A line is blank, a comment, a section header, an option, or the continuation of the value of the
option above it: a line with a deeper indentation than the line of the option.
-/
namespace Imageio.Spec.Ini

abbrev Text := List Char

/-- White space of python. -/
def White (c : Char) : Prop :=
  c.toNat ∈ [9, 10, 11, 12, 13, 28, 29, 30, 31, 32, 0x85, 0xa0, 0x1680, 0x2000, 0x2001, 0x2002, 0x2003, 0x2004, 0x2005,
    0x2006, 0x2007, 0x2008, 0x2009, 0x200a, 0x2028, 0x2029, 0x202f, 0x205f, 0x3000]

/-- Only white space. -/
def Blank (s : Text) : Prop := ∀ c ∈ s, White c

/-- No white space at the ends. -/
def Trim (s : Text) : Prop := (∀ c, s.head? = some c → ¬ White c) ∧ ∀ c, s.getLast? = some c → ¬ White c

/-- The line has the content `s`, after an indentation of `n` characters. -/
def Line (l : Text) (n : Nat) (s : Text) : Prop :=
  ∃ a b, l = a ++ (s ++ b) ∧ Blank a ∧ Blank b ∧ a.length = n ∧ Trim s ∧ s ≠ []

/-- A comment: `#` or `;` is the first character. -/
def Comment (l : Text) : Prop := ∃ n c s, Line l n (c :: s) ∧ (c = '#' ∨ c = ';')

/-- The content is a section header: the name is everything up to the last `]`. -/
def Header (s name : Text) : Prop := ∃ rest, s = '[' :: (name ++ ']' :: rest) ∧ name ≠ [] ∧ ']' ∉ rest

/-- `=` or `:`. -/
def Delim (c : Char) : Prop := c = '=' ∨ c = ':'

/-- The content is an option: a name, a delimiter, a value. -/
def Setting (s name value : Text) : Prop :=
  ∃ a d b c, s = name ++ (a ++ d :: (b ++ (value ++ c))) ∧ Blank a ∧ Blank b ∧ Blank c ∧ Delim d ∧
    name ≠ [] ∧ (∀ x ∈ name, ¬ Delim x) ∧ Trim name ∧ Trim value

/-- The lines of a value after the first, for an option with indentation `k`: blank lines count, comments do not. -/
inductive Value (k : Nat) : List Text → List Text → Prop
  | nil : Value k [] []
  | comment {l : Text} {ls ts : List Text} (hl : Comment l) (h : Value k ls ts) : Value k (l :: ls) ts
  | blank {l : Text} {ls ts : List Text} (hl : Blank l) (h : Value k ls ts) : Value k (l :: ls) ([] :: ts)
  | more {l s : Text} {n : Nat} {ls ts : List Text} (hl : Line l n s) (hc : ¬ Comment l) (hn : k < n) (h : Value k ls ts) :
      Value k (l :: ls) (s :: ts)

/-- Lines that say nothing. -/
def Skip (ls : List Text) : Prop := ∀ l ∈ ls, Blank l ∨ Comment l

/-- The sections of a file, the options of a section, the lines of the value of an option. -/
abbrev RawFile := List (Text × List (Text × List Text))

/-- The lines from the first header or option: the options that belong to the section before, and the sections that follow.
`b` is the indentation of the option before: a line with a deeper indentation does not begin anything. -/
inductive Body : Option Nat → List Text → List (Text × List Text) → RawFile → Prop
  | done (b : Option Nat) : Body b [] [] []
  | option {b : Option Nat} {l s o v : Text} {n : Nat} {vs rest ts : List Text} {opts : List (Text × List Text)} {f : RawFile}
      (hl : Line l n s) (hc : ¬ Comment l) (hb : ∀ k, b = some k → n ≤ k) (hh : ∀ name, ¬ Header s name)
      (ho : Setting s o v) (hv : Value n vs ts) (hr : Body (some n) rest opts f) :
      Body b (l :: (vs ++ rest)) ((o, v :: ts) :: opts) f
  | header {b : Option Nat} {l s name : Text} {n : Nat} {sk rest : List Text} {opts : List (Text × List Text)} {f : RawFile}
      (hl : Line l n s) (hb : ∀ k, b = some k → n ≤ k) (hh : Header s name) (hs : Skip sk) (hr : Body none rest opts f) :
      Body b (l :: (sk ++ rest)) [] ((name, opts) :: f)

/-- The text of a value: its lines, without the white space at the end. -/
def ValueText (ts : List Text) (v : Text) : Prop :=
  ∃ w, List.intercalate ['\n'] ts = v ++ w ∧ Blank w ∧ ∀ c, v.getLast? = some c → ¬ White c

/-- The lines of a text: a line ends with LF, CR LF, or CR; the last line may have no end. -/
inductive Lines : Text → List Text → Prop
  | nil : Lines [] []
  | last {l : Text} (hl : l ≠ []) (hn : '\n' ∉ l) (hr : '\r' ∉ l) : Lines l [l]
  | lf {l r : Text} {ls : List Text} (hn : '\n' ∉ l) (hr : '\r' ∉ l) (h : Lines r ls) : Lines (l ++ '\n' :: r) (l :: ls)
  | crlf {l r : Text} {ls : List Text} (hn : '\n' ∉ l) (hr : '\r' ∉ l) (h : Lines r ls) :
      Lines (l ++ '\r' :: '\n' :: r) (l :: ls)
  | cr {l r : Text} {ls : List Text} (hn : '\n' ∉ l) (hr : '\r' ∉ l) (hlf : r.head? ≠ some '\n') (h : Lines r ls) :
      Lines (l ++ '\r' :: r) (l :: ls)

/-- The sections and options of a list of lines. -/
def Parsed (ls : List Text) (f : RawFile) : Prop := ∃ sk rest, ls = sk ++ rest ∧ Skip sk ∧ Body none rest [] f

/-- The sections of a file, with the names and the texts of the options. -/
abbrev IniFile := List (Text × List (Text × Text))

/-- The sections and options of a text. -/
def Document (t : Text) (f : IniFile) : Prop :=
  ∃ ls raw, Lines t ls ∧ Parsed ls raw ∧
    List.Forall₂ (fun s s' => s.1 = s'.1 ∧ List.Forall₂ (fun o o' => o.1 = o'.1 ∧ ValueText o.2 o'.2) s.2 s'.2) raw f

end Imageio.Spec.Ini
