import Verif.Base
/-!
Query strings of URLs, as the clients of the server write them (`application/x-www-form-urlencoded`).
-/
namespace Imageio.Spec.Query

/-- The value of a hexadecimal digit, in upper or lower case. -/
inductive Hex : Char → Nat → Prop
  | digit (n : Nat) (h : n < 10) : Hex (Char.ofNat (48 + n)) n
  | lower (n : Nat) (h : n < 6) : Hex (Char.ofNat (97 + n)) (10 + n)
  | upper (n : Nat) (h : n < 6) : Hex (Char.ofNat (65 + n)) (10 + n)

/-- A text for these bytes: a byte is written as its ASCII character (if it is not one of the characters `reserved`), as `%` with two hexadecimal
digits, or, for a space, as `+`. -/
inductive Encodes (reserved : List Char) : Bytes → List Char → Prop
  | nil : Encodes reserved [] []
  | plain {c bs t} (h : c.toNat < 128) (hr : c ∉ reserved) (ht : Encodes reserved bs t) : Encodes reserved (UInt8.ofNat c.toNat :: bs) (c :: t)
  | space {bs t} (ht : Encodes reserved bs t) : Encodes reserved (32 :: bs) ('+' :: t)
  | percent {x y a b bs t} (ha : Hex a x) (hb : Hex b y) (ht : Encodes reserved bs t) :
      Encodes reserved (UInt8.ofNat (16 * x + y) :: bs) ('%' :: a :: b :: t)

/-- One field: nothing at all, a name, or a name and a value.  A value may contain `=`. -/
inductive Field : Option (Bytes × Bytes) → List Char → Prop
  | nothing : Field none []
  | name {k t} (hk : Encodes ['%', '&', '+', '='] k t) (h : t ≠ []) : Field (some (k, [])) t
  | value {k v t u} (hk : Encodes ['%', '&', '+', '='] k t) (hv : Encodes ['%', '&', '+'] v u) : Field (some (k, v)) (t ++ '=' :: u)

/-- A query string with these fields, separated by `&`. -/
inductive Query : List (Bytes × Bytes) → List Char → Prop
  | last {f t} (h : Field f t) : Query f.toList t
  | more {f t fs q} (h : Field f t) (hq : Query fs q) : Query (f.toList ++ fs) (t ++ '&' :: q)

/-- Decoding of bytes that are ASCII. -/
def Ascii (decode : Bytes → List Char) : Prop :=
  ∀ s : List Char, (∀ c ∈ s, c.toNat < 128) → decode (s.map fun c => UInt8.ofNat c.toNat) = s

/-- The value of a name, if there are several fields with this name it is the last one. -/
def LastValue (fs : List (List Char × List Char)) (name v : List Char) : Prop :=
  ∃ pre post, fs = pre ++ (name, v) :: post ∧ ∀ f ∈ post, f.1 ≠ name

end Imageio.Spec.Query
