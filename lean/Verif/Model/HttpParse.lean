import Verif.Base

/-!
Parsing and formatting of the HTTP header values used by imageio.

Header values are lists of characters.  The python http server decodes headers as
Latin-1, so the only characters matched by `\d` (and accepted by `int()` as digits) are
the ASCII digits.  Not modelled: the limit of 4300 digits that recent python versions put
on `int()`.
-/
namespace Imageio.Http

/-- The headers of `http.py:326-427` are strings of Latin-1 characters. -/
abbrev Str := List Char

/-- `int(digits)` for a string of ASCII digits, as used in `http.py:690-697,756-771`. -/
def intOfDigits (ds : Str) : Nat := Nat.ofDigitChars 10 ds 0

/-- `"%d" % n` / `"{}".format(n)` for a non-negative integer.  `backends/http.py:432-433`, `458-459`. -/
def fmtNat (n : Nat) : Str := Nat.toDigits 10 n

/-- `"%d" % n` for any integer.  `handlers/images.py:132-133`, `backends/http.py:432-433`. -/
def fmtInt : Int → Str
  | .ofNat n => fmtNat n
  | .negSucc n => '-' :: fmtNat (n + 1)

/-- The greedy match of `\d*` at the start of a string, and the rest.  `http.py:635`, `715`. -/
def spanDigits (s : Str) : Str × Str := (s.takeWhile Char.isDigit, s.dropWhile Char.isDigit)

/-- The regular expression `$` without `re.MULTILINE` matches at the end of the string
and before a newline at the end of the string.  `http.py:635`, `715`. -/
def atEnd (s : Str) : Bool := s == [] || s == ['\n']

/-- Remove a literal prefix.  `http.py:635`, `715`. -/
def dropLit : Str → Str → Option Str
  | [], s => some s
  | _ :: _, [] => none
  | p :: ps, c :: cs => if p = c then dropLit ps cs else none

/-- `http.Range`, `http.py:628-640`. -/
structure Range where
  first : Int
  last : Option Nat
deriving DecidableEq, Repr

/-- `http.py:635` the groups of the regular expression `bytes=(\d*)-(\d*)$`.  Digits and
`-` are disjoint, so the greedy match is the only one. -/
def rangeGroups (header : Str) : Option (Str × Str) :=
  match dropLit "bytes=".toList header with
  | none => none
  | some r =>
    let (a, r) := spanDigits r
    match r with
    | '-' :: r =>
      let (b, r) := spanDigits r
      if atEnd r then some (a, b) else none
    | _ => none

/-- `http.py:642-705` `Range.parse`.  `none` is `Error(REQUESTED_RANGE_NOT_SATISFIABLE)`. -/
def parseRange (header : Str) : Option Range :=
  match rangeGroups header with
  | none => none
  | some (first, last) =>
    if first = [] then
      if last = [] then none
      else some ⟨-(intOfDigits last : Int), none⟩
    else if last = [] then some ⟨intOfDigits first, none⟩
    else if intOfDigits first > intOfDigits last then none
    else some ⟨intOfDigits first, some (intOfDigits last)⟩

/-- `http.ContentRange`, `http.py:708-721`. -/
structure ContentRange where
  first : Nat
  last : Option Nat
  complete : Option Nat
deriving DecidableEq, Repr

/-- The group `(\d+|\*)` at the start of a string: the digits, or `none` for `*`.  `http.py:715`. -/
def digitsOrStar (s : Str) : Option (Option Str × Str) :=
  match s with
  | '*' :: r => some (none, r)
  | _ =>
    let (a, r) := spanDigits s
    if a = [] then none else some (some a, r)

/-- `http.py:715` the groups of `bytes (\d+)-(\d+|\*)/(\d+|\*)$`. -/
def contentRangeGroups (header : Str) : Option (Str × Option Str × Option Str) :=
  match dropLit "bytes ".toList header with
  | none => none
  | some r =>
    let (a, r) := spanDigits r
    if a = [] then none
    else
      match r with
      | '-' :: r =>
        match digitsOrStar r with
        | some (b, '/' :: r) =>
          match digitsOrStar r with
          | some (c, r) => if atEnd r then some (a, b, c) else none
          | none => none
        | _ => none
      | _ => none

/-- `http.py:723-778` `ContentRange.parse`.  `none` is `Error(BAD_REQUEST)`. -/
def parseContentRange (header : Str) : Option ContentRange :=
  match contentRangeGroups header with
  | none => none
  | some (first, last, complete) =>
    let first := intOfDigits first
    let last := last.map intOfDigits
    if last.any (· < first) then none
    else
      let complete := complete.map intOfDigits
      if complete.any (fun c => last.any (fun l => l ≥ c)) then none
      else some ⟨first, last, complete⟩

/-- `backends/http.py:430-433` the Range header sent for a read of `length` bytes at
`offset`: `"bytes={}-{}".format(offset, offset + length - 1)`. -/
def clientRange (offset length : Nat) : Str :=
  "bytes=".toList ++ fmtNat offset ++ '-' :: fmtInt ((offset : Int) + length - 1)

/-- `backends/http.py:458-459` the Content-Range header sent with a PUT of `length` bytes
at `offset`: `"bytes {}-{}/*".format(offset, offset + length - 1)`. -/
def clientContentRange (offset length : Nat) : Str :=
  "bytes ".toList ++ fmtNat offset ++ '-' :: (fmtInt ((offset : Int) + length - 1) ++ "/*".toList)

/-- `handlers/images.py:132-133` the Content-Range header of a 206 response:
`"bytes %d-%d/%d" % (offset, offset + size - 1, ticket.size)`. -/
def serverContentRange (offset size ticketSize : Int) : Str :=
  "bytes ".toList ++ fmtInt offset ++ '-' ::
    (fmtInt (offset + size - 1) ++ '/' :: fmtInt ticketSize)

/-- The characters that `int()` strips, among the Latin-1 characters.  `http.py:386`. -/
def isPySpace (c : Char) : Bool :=
  (9 ≤ c.toNat && c.toNat ≤ 13) || (28 ≤ c.toNat && c.toNat ≤ 32) || c.toNat == 0x85 ||
    c.toNat == 0xa0

/-- `str.strip()`.  `http.py:386`, inside `int()`. -/
def pyStrip (s : Str) : Str :=
  ((s.dropWhile isPySpace).reverse.dropWhile isPySpace).reverse

/-- Digits with single underscores between them, the digits part of an `int()` argument.  `http.py:386`. -/
def underscored : Str → Option Str
  | [] => none
  | [c] => if c.isDigit then some [c] else none
  | c :: '_' :: r => if c.isDigit then (underscored r).map (c :: ·) else none
  | c :: r => if c.isDigit then (underscored r).map (c :: ·) else none

/-- `int(s)` in base 10 for a Latin-1 string; `none` is `ValueError`.  `http.py:386`. -/
def pyInt (s : Str) : Option Int :=
  match pyStrip s with
  | '-' :: r => (underscored r).map fun d => -(intOfDigits d : Int)
  | '+' :: r => (underscored r).map fun d => (intOfDigits d : Int)
  | r => (underscored r).map fun d => (intOfDigits d : Int)

end Imageio.Http
