import Verif.Spec.Http
import Verif.Model.Backend

/-!
What the Go code has to do: the contract of `io.ReaderAt` from the documentation of the Go library,
block status of NBD as a map from bytes to flags, and JSON texts as in RFC 8259.  Independent of the
code.
-/
namespace Imageio.Spec.Go
open Imageio Spec

/-! ### `io.ReaderAt` -/

/-- The contract of `ReadAt(p, off)` with `len` bytes of `p`, on an image of `size` bytes: it returns
the number `n` of bytes read and an error (`eof` if it is `io.EOF`).  "When ReadAt returns n < len(p),
it returns a non-nil error explaining why more bytes were not returned."  "If the n = len(p) bytes
returned by ReadAt are at the end of the input source, ReadAt may return either err == EOF or err ==
nil."  Specification of `go/imageio/backend.go:10`; no code. -/
structure ReaderAt (img : Nat → Byte) (size off len n : Nat) (failed eof : Bool) (data : Bytes) :
    Prop where
  at_most : n ≤ len
  short : n < len → failed = true
  bytes : data.take n = load img off n
  inside : 0 < n → off + n ≤ size
  end_of_file : eof = true → size ≤ off + n

/-- Extents, as start and length, that follow each other from `start` to `stop`.  Specification of
`docs/images.md`; no code. -/
inductive Tiles : Nat → Nat → List (Nat × Nat) → Prop
  | nil {start : Nat} : Tiles start start []
  | cons {start length stop : Nat} {t : List (Nat × Nat)} : 0 < length →
      Tiles (start + length) stop t → Tiles start stop ((start, length) :: t)

/-! ### Block status -/

/-- The flags of the bytes described by a list of lengths and flags.  Specification; no code. -/
def flagsOf : List Nat → List Nat
  | l :: f :: t => List.replicate l f ++ flagsOf t
  | _ => []

/-- The entries describe bytes from `offset`, those inside an image of `size` bytes have the flags
`st`; the last entry may end after the image.  The lengths and flags come in pairs, no length is 0.  Specification
of the NBD protocol, `NBD_REPLY_TYPE_BLOCK_STATUS`; no code. -/
inductive Says (st : Nat → Nat) (size : Nat) : Nat → List Nat → Prop
  | nil {offset : Nat} : Says st size offset []
  | cons {offset l f : Nat} {t : List Nat} :
      0 < l → (∀ i, offset ≤ i → i < offset + l → i < size → st i = f) →
      Says st size (offset + l) t → Says st size offset (l :: f :: t)

/-! ### JSON -/

/-- A JSON value, as far as needed here.  Specification; no code. -/
inductive Value where
  | num (n : Nat)
  | bool (b : Bool)
  | arr (items : List Value)
  | obj (fields : List (List Char × Value))

/-- White space.  RFC 8259 section 2; no code. -/
def Space (s : List Char) : Prop := ∀ c ∈ s, c = ' ' ∨ c = '\t' ∨ c = '\n' ∨ c = '\r'

/-- A number that is a natural number: no leading zeroes.  RFC 8259 section 6; no code. -/
def JsonNat (s : List Char) (n : Nat) : Prop := Number s n ∧ (s.head? = some '0' → s = ['0'])

/-- The characters of a string without escapes.  RFC 8259 section 7; no code. -/
def Plain (s : List Char) : Prop := ∀ c ∈ s, 32 ≤ c.toNat ∧ c ≠ '"' ∧ c ≠ '\\'

mutual
/-- The text of a value.  RFC 8259 section 3 to 6; no code. -/
inductive Text : List Char → Value → Prop
  | num {s : List Char} {n : Nat} : JsonNat s n → Text s (.num n)
  | true : Text "true".toList (.bool .true)
  | false : Text "false".toList (.bool .false)
  | empty {w : List Char} : Space w → Text ('[' :: w ++ [']']) (.arr [])
  | arr {s : List Char} {xs : List Value} : Items s xs → Text ('[' :: s ++ [']']) (.arr xs)
  | obj {s : List Char} {fs : List (List Char × Value)} : Members s fs →
      Text ('{' :: s ++ ['}']) (.obj fs)

/-- The values of an array, separated by commas.  RFC 8259 section 5; no code. -/
inductive Items : List Char → List Value → Prop
  | one {a s b : List Char} {x : Value} : Space a → Text s x → Space b → Items (a ++ s ++ b) [x]
  | cons {a s b t : List Char} {x : Value} {xs : List Value} : Space a → Text s x → Space b →
      Items t xs → Items (a ++ s ++ b ++ ',' :: t) (x :: xs)

/-- The members of an object, separated by commas.  RFC 8259 section 4; no code. -/
inductive Members : List Char → List (List Char × Value) → Prop
  | one {a k b c s d : List Char} {x : Value} : Space a → Plain k → Space b → Space c → Text s x →
      Space d → Members (a ++ '"' :: k ++ '"' :: b ++ ':' :: c ++ s ++ d) [(k, x)]
  | cons {a k b c s d t : List Char} {x : Value} {fs : List (List Char × Value)} : Space a →
      Plain k → Space b → Space c → Text s x → Space d → Members t fs →
      Members (a ++ '"' :: k ++ '"' :: b ++ ':' :: c ++ s ++ d ++ ',' :: t) ((k, x) :: fs)
end

/-- A JSON document: a value with white space around it.  RFC 8259 section 2; no code. -/
def Document (s : List Char) (v : Value) : Prop :=
  ∃ a t b, Space a ∧ Text t v ∧ Space b ∧ s = a ++ t ++ b

end Imageio.Spec.Go
