import Verif.Model.Images
import Verif.Model.NbdHandshake

/-!
Model of `json.dumps` and `json.loads` as imageio calls them (without options): the text of a
document.  These are functions of the standard library of python, `Lib/json/encoder.py`,
`Lib/json/decoder.py` and `Lib/json/scanner.py` of python 3.12; the comments cite them, and the
calls in imageio.

Simplified: the value of a float is not kept (imageio never looks into one, and never dumps one);
a string has no surrogates: an escaped surrogate that is not part of a pair is kept as U+FFFD, the
encoding of a surrogate in UTF-8 is refused.  Not modelled: the limit of nested documents (python
raises `RecursionError`) and of the digits of a number (4300, `ValueError`), the circular lists and
the keys that are not strings of `json.dumps`.
-/
namespace Imageio.JsonText
open Imageio.Http Imageio.Images

/-! ## Encoding -/

/-- A digit of `'{0:04x}'.format(n)`, `encoder.py:59`, `66`.  Called from `http.py:529`. -/
def hexDigit (n : Nat) : Char := "0123456789abcdef".toList.getD n '0'

/-- `'\\u{0:04x}'.format(n)` for `n < 0x10000`, `encoder.py:59`, `66`.  Called from `http.py:529`. -/
def escapeUnit (n : Nat) : Str :=
  ['\\', 'u', hexDigit (n / 4096), hexDigit (n / 256 % 16), hexDigit (n / 16 % 16), hexDigit (n % 16)]

/-- The replacement of a character, `encoder.py:21-31`, `53-66`.  Called from `http.py:529`. -/
def escapeChar (c : Char) : Str :=
  if c = '\\' then ['\\', '\\']
  else if c = '"' then ['\\', '"']
  else if c = '\n' then ['\\', 'n']
  else if c = '\r' then ['\\', 'r']
  else if c = '\t' then ['\\', 't']
  else if c.toNat = 0x0c then ['\\', 'f']
  else if c.toNat = 0x08 then ['\\', 'b']
  else if 0x20 ≤ c.toNat ∧ c.toNat ≤ 0x7e then [c]
  else if c.toNat < 0x10000 then escapeUnit c.toNat
  else escapeUnit (0xd800 + (c.toNat - 0x10000) / 1024) ++ escapeUnit (0xdc00 + (c.toNat - 0x10000) % 1024)

/-- `encode_basestring_ascii`, `encoder.py:49-67`.  Called from `http.py:529`. -/
def encodeString (s : Str) : Str := '"' :: (s.flatMap escapeChar ++ ['"'])

mutual
/-- `json.dumps` with the default options, `encoder.py:183-203`, `414-443`: separators `", "` and
`": "`, only ASCII.  Called from `http.py:529`, `backends/http.py:464`, `admin/_api.py:74`, `103`,
`qemu_nbd.py:173`, `client/_api.py:482`, `client/_ui.py:71`.  Simplified: every float is written as 0.0. -/
def dumpsText : Json → Str
  | .null => lit "null"
  | .bool true => lit "true"
  | .bool false => lit "false"
  | .int n => fmtInt n
  | .float => lit "0.0"
  | .str s => encodeString s
  | .arr [] => lit "[]"
  | .arr (j :: l) => '[' :: (dumpsText j ++ dumpsItems l)
  | .obj [] => lit "{}"
  | .obj ((k, j) :: l) => '{' :: (encodeString k ++ (lit ": " ++ (dumpsText j ++ dumpsFields l)))
/-- The rest of a list, `encoder.py:278-332`.  Called from `http.py:529`. -/
def dumpsItems : List Json → Str
  | [] => [']']
  | j :: l => ',' :: ' ' :: (dumpsText j ++ dumpsItems l)
/-- The rest of a dict, `encoder.py:334-412`.  Called from `http.py:529`. -/
def dumpsFields : List (Str × Json) → Str
  | [] => ['}']
  | (k, j) :: l => ',' :: ' ' :: (encodeString k ++ (lit ": " ++ (dumpsText j ++ dumpsFields l)))
end

/-- `json.dumps(obj).encode("utf-8")`, `http.py:529`, `backends/http.py:464`, `admin/_api.py:74`, `103`. -/
def dumps (j : Json) : Bytes := Nbd.encodeUtf8 (String.ofList (dumpsText j))

/-! ## Decoding -/

/-- `WHITESPACE`, `decoder.py:132-133`.  Called from `handlers/images.py:157`. -/
def isSpace (c : Char) : Bool := c = ' ' || c = '\t' || c = '\n' || c = '\r'

/-- `_w(s, end).end()`, `decoder.py:339-340`.  Called from `handlers/images.py:157`. -/
def skipWs (s : Str) : Str := s.dropWhile isSpace

/-- The value of a hexadecimal digit, `decoder.py:59-67`.  Called from `handlers/images.py:157`. -/
def hexVal (c : Char) : Option Nat :=
  if '0' ≤ c ∧ c ≤ '9' then some (c.toNat - 48)
  else if 'a' ≤ c ∧ c ≤ 'f' then some (c.toNat - 87)
  else if 'A' ≤ c ∧ c ≤ 'F' then some (c.toNat - 55)
  else none

/-- `_decode_uXXXX`, `decoder.py:59-67`: four hexadecimal digits, and the rest (the version in C accepts only digits).
Called from `handlers/images.py:157`. -/
def decodeUnit : Str → Option (Nat × Str)
  | a :: b :: c :: d :: t =>
    match hexVal a, hexVal b, hexVal c, hexVal d with
    | some a, some b, some c, some d => some (4096 * a + 256 * b + 16 * c + d, t)
    | _, _, _, _ => none
  | _ => none

/-- The escapes of one character, `BACKSLASH`, `decoder.py:54-57`.  Called from
`handlers/images.py:157`. -/
def backslash (c : Char) : Option Char :=
  if c = '"' then some '"'
  else if c = '\\' then some '\\'
  else if c = '/' then some '/'
  else if c = 'b' then some (Char.ofNat 0x08)
  else if c = 'f' then some (Char.ofNat 0x0c)
  else if c = 'n' then some '\n'
  else if c = 'r' then some '\r'
  else if c = 't' then some '\t'
  else none

/-- What follows a backslash, `decoder.py:102-126`: the character and the rest.  Two surrogates that
follow each other are one character; another surrogate is kept as U+FFFD (see above).
Called from `handlers/images.py:157`. -/
def escape : Str → Option (Char × Str)
  | [] => none
  | 'u' :: t =>
    match decodeUnit t with
    | none => none
    | some (n, t) =>
      if 0xd800 ≤ n ∧ n ≤ 0xdbff then
        match t with
        | '\\' :: 'u' :: t2 =>
          match decodeUnit t2 with
          | none => none
          | some (m, t2) =>
            if 0xdc00 ≤ m ∧ m ≤ 0xdfff then
              some (Char.ofNat (0x10000 + ((n - 0xd800) * 1024 + (m - 0xdc00))), t2)
            else some (Char.ofNat 0xfffd, t)
        | _ => some (Char.ofNat 0xfffd, t)
      else if 0xdc00 ≤ n ∧ n ≤ 0xdfff then some (Char.ofNat 0xfffd, t)
      else some (Char.ofNat n, t)
  | c :: t => (backslash c).map fun e => (e, t)

/-- `scanstring` after the first quote, `decoder.py:69-127`, with `strict`: control characters are
refused.  The number is at least the length of the text; the loop of the code needs none.
Called from `handlers/images.py:157`. -/
def scanString : Nat → Str → Option (Str × Str)
  | 0, _ => none
  | _ + 1, [] => none
  | f + 1, c :: t =>
    if c = '"' then some ([], t)
    else if c = '\\' then
      match escape t with
      | none => none
      | some (c, t) =>
        match scanString f t with
        | none => none
        | some (s, r) => some (c :: s, r)
    else if c.toNat < 0x20 then none
    else
      match scanString f t with
      | none => none
      | some (s, r) => some (c :: s, r)

/-- `-?(0|[1-9]\d*)` after the sign, `scanner.py:11`.  Called from `handlers/images.py:157`. -/
def natural : Str → Option (Nat × Str)
  | [] => none
  | c :: t =>
    if c = '0' then some (0, t)
    else if c.isDigit then some (intOfDigits (c :: (spanDigits t).1), (spanDigits t).2)
    else none

/-- `(\.\d+)?`, `scanner.py:11`: whether it is there, and the rest.  Called from `handlers/images.py:157`. -/
def fraction (s : Str) : Bool × Str :=
  match s with
  | '.' :: t => if (spanDigits t).1 = [] then (false, s) else (true, (spanDigits t).2)
  | _ => (false, s)

/-- `[-+]?`, `scanner.py:11`.  Called from `handlers/images.py:157`. -/
def skipSign : Str → Str
  | '+' :: t => t
  | '-' :: t => t
  | t => t

/-- `([eE][-+]?\d+)?`, `scanner.py:11`: whether it is there, and the rest.  Called from `handlers/images.py:157`. -/
def exponent (s : Str) : Bool × Str :=
  match s with
  | [] => (false, s)
  | c :: t =>
    if (c = 'e' ∨ c = 'E') ∧ (spanDigits (skipSign t)).1 ≠ [] then (true, (spanDigits (skipSign t)).2)
    else (false, s)

/-- A number, `scanner.py:46-53`.  Called from `handlers/images.py:157`. -/
def number (s : Str) : Option (Json × Str) :=
  match natural (if s.head? = some '-' then s.tail else s) with
  | none => none
  | some (n, r) =>
    if (fraction r).1 || (exponent (fraction r).2).1 then some (.float, (exponent (fraction r).2).2)
    else some (.int (if s.head? = some '-' then -(n : Int) else n), (exponent (fraction r).2).2)

/-- `string[idx:idx + len(p)] == p`, and the rest.  `scanner.py:39-59`.  Called from
`handlers/images.py:157`. -/
def after? : Str → Str → Option Str
  | [], s => some s
  | c :: p, d :: s => if c = d then after? p s else none
  | _ :: _, [] => none

/-- The literals, `scanner.py:39-44`, `54-59`.  Called from `handlers/images.py:157`. -/
def literal (s : Str) : Option (Json × Str) :=
  match after? (lit "null") s with
  | some r => some (.null, r)
  | none =>
  match after? (lit "true") s with
  | some r => some (.bool true, r)
  | none =>
  match after? (lit "false") s with
  | some r => some (.bool false, r)
  | none =>
  match after? (lit "NaN") s with
  | some r => some (.float, r)
  | none =>
  match after? (lit "Infinity") s with
  | some r => some (.float, r)
  | none =>
  match after? (lit "-Infinity") s with
  | some r => some (.float, r)
  | none => none

mutual
/-- `scan_once`, `scanner.py:28-63`: a value and the rest, `none` for `StopIteration` and
`JSONDecodeError`.  The number is at least twice the length of the text; the recursion of the code
needs none.  Called from `handlers/images.py:157`. -/
def scanOnce : Nat → Str → Option (Json × Str)
  | 0, _ => none
  | _ + 1, [] => none
  | f + 1, c :: t =>
    if c = '"' then
      match scanString (t.length + 1) t with
      | none => none
      | some (s, r) => some (.str s, r)
    else if c = '{' then
      if (skipWs t).head? = some '}' then some (.obj [], (skipWs t).tail)
      else
        match scanObject f (skipWs t) with
        | none => none
        | some (l, r) => some (.obj l, r)
    else if c = '[' then
      if (skipWs t).head? = some ']' then some (.arr [], (skipWs t).tail)
      else
        match scanArray f (skipWs t) with
        | none => none
        | some (l, r) => some (.arr l, r)
    else
      match literal (c :: t) with
      | some p => some p
      | none => number (c :: t)
/-- `JSONArray` after the bracket and spaces, for an array that is not empty, `decoder.py:217-256`.
Called from `handlers/images.py:157`. -/
def scanArray : Nat → Str → Option (List Json × Str)
  | 0, _ => none
  | f + 1, s =>
    match scanOnce f s with
    | none => none
    | some (j, r) =>
      match skipWs r with
      | [] => none
      | c :: r =>
        if c = ']' then some ([j], r)
        else if c = ',' then
          match scanArray f (skipWs r) with
          | none => none
          | some (l, r) => some (j :: l, r)
        else none
/-- `JSONObject` after the brace and spaces, for an object that is not empty, `decoder.py:136-215`.
`dict(pairs)` is not done: see `Json.get`.  Called from `handlers/images.py:157`. -/
def scanObject : Nat → Str → Option (List (Str × Json) × Str)
  | 0, _ => none
  | _ + 1, [] => none
  | f + 1, q :: s =>
    if q = '"' then
      match scanString (s.length + 1) s with
      | none => none
      | some (k, r) =>
        match skipWs r with
        | [] => none
        | c :: r =>
          if c = ':' then
            match scanOnce f (skipWs r) with
            | none => none
            | some (j, r) =>
              match skipWs r with
              | [] => none
              | c :: r =>
                if c = '}' then some ([(k, j)], r)
                else if c = ',' then
                  match scanObject f (skipWs r) with
                  | none => none
                  | some (l, r) => some ((k, j) :: l, r)
                else none
          else none
    else none
end

/-- `json.loads` of a string, `decoder.py:332-356`; `none` when it raises `ValueError`.  A byte order
mark is not the start of a value.  Called from `backends/http.py:494`, `521`, `qemu_img.py:57`, `63`,
`admin/tool.py:105`. -/
def loadsText (s : Str) : Option Json :=
  match scanOnce (2 * s.length + 1) (skipWs s) with
  | none => none
  | some (j, r) => if skipWs r = [] then some j else none

/-- `detect_encoding(b) == "utf-8"`, `json/__init__.py:244-271`.  Called from `handlers/images.py:157`. -/
def isUtf8 (b : Bytes) : Bool :=
  !(b.take 2 == [0xfe, 0xff] || b.take 2 == [0xff, 0xfe] || b.take 4 == [0, 0, 0xfe, 0xff] || b.take 3 == [0xef, 0xbb, 0xbf] ||
    ((decide (4 ≤ b.length) || decide (b.length = 2)) && (b.take 2).contains 0))

/-- `json.loads` of bytes, `json/__init__.py:335-346`: `none` when it raises `ValueError`.  Simplified:
bytes that do not look like UTF-8 are refused; the code decodes UTF-16 and UTF-32, and skips a byte
order mark.  Called from `handlers/images.py:157`, `handlers/tickets.py:44`, `64`, `admin/_api.py:88`. -/
def loads (b : Bytes) : Option Json :=
  if isUtf8 b then
    match Nbd.decodeUtf8 b with
    | none => none
    | some s => loadsText s.toList
  else none

/-- `json.loads(body.decode("utf-8"))`, `backends/http.py:494`, `521`, `qemu_img.py:57`, `63`; `none` when it raises
`ValueError`. -/
def loadsBody (b : Bytes) : Option Json :=
  match Nbd.decodeUtf8 b with
  | none => none
  | some s => loadsText s.toList

/-- The body of `send_json` for a list of extents, `http.py:529`, `handlers/extents.py:51`. -/
def sendExtents (l : List Json) : Bytes := dumps (.arr l) ++ [10]

/-- The list of dicts in the response, `backends/http.py:521`.  Simplified: the code raises another exception than here
for a document that is not a list. -/
def receiveExtents (b : Bytes) : Option (List Json) :=
  match loadsBody b with
  | some (.arr l) => some l
  | _ => none

end Imageio.JsonText
