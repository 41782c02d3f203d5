import Verif.Spec.Http
import Verif.Model.Images

/-!
The grammar of JSON documents and their meaning: RFC 8259, without a limit, with the extensions of
python (`NaN`, `Infinity`, `-Infinity`).  Uses the type of documents of the model, not its functions.
-/
namespace Imageio.Spec.JsonText
open Imageio.Images

/-- White space. -/
def Space (s : List Char) : Prop := ∀ c ∈ s, c = ' ' ∨ c = '\t' ∨ c = '\n' ∨ c = '\r'

/-- A hexadecimal digit and its value. -/
def HexDigit (c : Char) (d : Nat) : Prop :=
  "0123456789abcdef".toList[d]? = some c ∨ "0123456789ABCDEF".toList[d]? = some c

/-- An escaped code unit `\uXXXX` and its value. -/
def Unit16 (u : List Char) (n : Nat) : Prop :=
  ∃ a b c d x y z t, u = ['\\', 'u', a, b, c, d] ∧ HexDigit a x ∧ HexDigit b y ∧ HexDigit c z ∧ HexDigit d t ∧
    n = ((x * 16 + y) * 16 + z) * 16 + t

/-- A high surrogate, a low surrogate. -/
def High (n : Nat) : Prop := 0xd800 ≤ n ∧ n < 0xdc00
def Low (n : Nat) : Prop := 0xdc00 ≤ n ∧ n < 0xe000

/-- The short escapes: the letter after the backslash and the code of the character. -/
def Short (e : Char) (n : Nat) : Prop :=
  (e, n) ∈ [('"', 0x22), ('\\', 0x5c), ('/', 0x2f), ('b', 0x08), ('f', 0x0c), ('n', 0x0a), ('r', 0x0d), ('t', 0x09)]

/-- The text between the quotes and the string.  Control characters must be escaped.  (A surrogate that
is not in a pair stands for U+FFFD.) -/
inductive Chars : List Char → List Char → Prop
  | nil : Chars [] []
  | plain {c : Char} {b s : List Char} (h : 0x20 ≤ c.toNat) (hq : c ≠ '"') (hb : c ≠ '\\') (t : Chars b s) :
      Chars (c :: b) (c :: s)
  | short {e c : Char} {b s : List Char} (h : Short e c.toNat) (t : Chars b s) : Chars ('\\' :: e :: b) (c :: s)
  | unit {u b s : List Char} {c : Char} (h : Unit16 u c.toNat) (t : Chars b s) : Chars (u ++ b) (c :: s)
  | pair {u v b s : List Char} {n m : Nat} {c : Char} (hu : Unit16 u n) (hv : Unit16 v m) (hn : High n) (hm : Low m)
      (hc : c.toNat = 0x10000 + (n - 0xd800) * 0x400 + (m - 0xdc00)) (t : Chars b s) : Chars (u ++ (v ++ b)) (c :: s)
  | lone {u b s : List Char} {n : Nat} {c : Char} (hu : Unit16 u n) (hn : High n ∨ Low n)
      (hp : High n → ∀ v m b', Unit16 v m → Low m → b ≠ v ++ b') (hc : c.toNat = 0xfffd) (t : Chars b s) :
      Chars (u ++ b) (c :: s)

/-- A number without sign: no zero before other digits. -/
def Natural (s : List Char) (n : Nat) : Prop := Number s n ∧ (s.head? = some '0' → s = ['0'])

/-- A fraction; an exponent. -/
def Fraction (s : List Char) : Prop := ∃ d, s = '.' :: d ∧ Digits d
def Exponent (s : List Char) : Prop :=
  ∃ e g d, s = e :: (g ++ d) ∧ (e = 'e' ∨ e = 'E') ∧ (g = [] ∨ g = ['+'] ∨ g = ['-']) ∧ Digits d

mutual
/-- The text of a value, without white space around it. -/
inductive Value : List Char → Json → Prop
  | null : Value "null".toList .null
  | true : Value "true".toList (.bool true)
  | false : Value "false".toList (.bool false)
  | int {s : List Char} {n : Nat} (h : Natural s n) : Value s (.int n)
  | neg {s : List Char} {n : Nat} (h : Natural s n) : Value ('-' :: s) (.int (-n))
  | float {g s f e : List Char} {n : Nat} (hg : g = [] ∨ g = ['-']) (h : Natural s n) (hf : f = [] ∨ Fraction f)
      (he : e = [] ∨ Exponent e) (hfe : f ≠ [] ∨ e ≠ []) : Value (g ++ (s ++ (f ++ e))) .float
  | nan : Value "NaN".toList .float
  | infinity : Value "Infinity".toList .float
  | minusInfinity : Value "-Infinity".toList .float
  | str {b s : List Char} (h : Chars b s) : Value ('"' :: (b ++ ['"'])) (.str s)
  | noItems {w : List Char} (h : Space w) : Value ('[' :: (w ++ [']'])) (.arr [])
  | items {t : List Char} {l : List Json} (h : Items t l) : Value ('[' :: (t ++ [']'])) (.arr l)
  | noMembers {w : List Char} (h : Space w) : Value ('{' :: (w ++ ['}'])) (.obj [])
  | members {t : List Char} {l : List (List Char × Json)} (h : Members t l) : Value ('{' :: (t ++ ['}'])) (.obj l)
/-- The text of the items of an array. -/
inductive Items : List Char → List Json → Prop
  | one {a v b : List Char} {j : Json} (ha : Space a) (h : Value v j) (hb : Space b) : Items (a ++ (v ++ b)) [j]
  | cons {a v b t : List Char} {j : Json} {l : List Json} (ha : Space a) (h : Value v j) (hb : Space b)
      (ht : Items t l) : Items (a ++ (v ++ (b ++ ',' :: t))) (j :: l)
/-- The text of the members of an object. -/
inductive Members : List Char → List (List Char × Json) → Prop
  | one {a n k b c v d : List Char} {j : Json} (ha : Space a) (hk : Chars n k) (hb : Space b) (hc : Space c)
      (h : Value v j) (hd : Space d) : Members (a ++ '"' :: (n ++ '"' :: (b ++ ':' :: (c ++ (v ++ d))))) [(k, j)]
  | cons {a n k b c v d t : List Char} {j : Json} {l : List (List Char × Json)} (ha : Space a) (hk : Chars n k)
      (hb : Space b) (hc : Space c) (h : Value v j) (hd : Space d) (ht : Members t l) :
      Members (a ++ '"' :: (n ++ '"' :: (b ++ ':' :: (c ++ (v ++ (d ++ ',' :: t)))))) ((k, j) :: l)
end

/-- A document: a value, white space around it. -/
def Document (s : List Char) (j : Json) : Prop := ∃ a v b, s = a ++ (v ++ b) ∧ Space a ∧ Value v j ∧ Space b

end Imageio.Spec.JsonText
