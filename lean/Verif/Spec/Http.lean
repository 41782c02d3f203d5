import Verif.Base

/-!
Specification of the HTTP headers: the grammar of the accepted header values and the
meaning of a range as a set of positions.  Independent of the parsers in the model.
-/
namespace Imageio.Spec

/-- A non-empty string of decimal digits. -/
def Digits (s : List Char) : Prop := s ≠ [] ∧ ∀ c ∈ s, c.isDigit = true

/-- The number written by a string of digits: `n` is the value of `s`. -/
inductive Decimal : List Char → Nat → Prop
  | nil : Decimal [] 0
  | snoc {s : List Char} {n : Nat} {d : Char} (h : Decimal s n) (hd : d.isDigit = true) :
      Decimal (s ++ [d]) (10 * n + (d.toNat - '0'.toNat))

/-- A number in a header: a non-empty digits string and its value. -/
def Number (s : List Char) (n : Nat) : Prop := s ≠ [] ∧ Decimal s n

/-- What may follow the last number of a header: nothing, or one newline (the `$` of the
regular expressions accepts it). -/
def Eol (s : List Char) : Prop := s = [] ∨ s = ['\n']

/-- The byte positions requested by a Range header on a resource of `size` bytes,
RFC 7233 section 2.1, for the three forms `a-b`, `a-`, `-n`. -/
inductive RangeForm
  | closed (first last : Nat)
  | fromTo (first : Nat)
  | suffix (n : Nat)
deriving DecidableEq

/-- The header value `bytes=a-b`, `bytes=a-` or `bytes=-n`. -/
def RangeHeader (h : List Char) (f : RangeForm) : Prop :=
  ∃ a b e, h = "bytes=".toList ++ a ++ ['-'] ++ b ++ e ∧ Eol e ∧
    match f with
    | .closed first last => Number a first ∧ Number b last
    | .fromTo first => Number a first ∧ b = []
    | .suffix n => a = [] ∧ Number b n

/-- The bytes a download asks for with its optional Range header, when `avail` bytes can be
downloaded: everything, or a range inside the available bytes. -/
inductive Wanted (avail : Int) : Option (List Char) → (offset size : Nat) → Prop
  | all {size : Nat} (hs : (size : Int) = avail) : Wanted avail none 0 size
  | closed {h : List Char} {first last : Nat} (hh : RangeHeader h (.closed first last))
      (hl : first ≤ last) (ha : (last : Int) < avail) :
      Wanted avail (some h) first (last - first + 1)
  | fromTo {h : List Char} {first size : Nat} (hh : RangeHeader h (.fromTo first))
      (hs : (first : Int) + size = avail) : Wanted avail (some h) first size

/-- A number or `*`. -/
def NumberOrStar (s : List Char) : Option Nat → Prop
  | none => s = ['*']
  | some n => Number s n

/-- The header value `bytes first-last/complete`, the last two numbers may be `*`. -/
def ContentRangeHeader (h : List Char) (first : Nat) (last complete : Option Nat) : Prop :=
  ∃ a b c e, h = "bytes ".toList ++ a ++ ['-'] ++ b ++ ['/'] ++ c ++ e ∧ Eol e ∧
    Number a first ∧ NumberOrStar b last ∧ NumberOrStar c complete

/-- The length of the request body announced by the Content-Length header: RFC 7230
section 3.3.3, without transfer codings.  No header, no body. -/
def Announces (header : Option (List Char)) (n : Nat) : Prop :=
  (header = none ∧ n = 0) ∨ ∃ v, header = some v ∧ Number v n

end Imageio.Spec
