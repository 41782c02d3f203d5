import Verif.Model.Config

/-!
Model of the ini syntax of the configuration files: `RawConfigParser.read` of the standard library of python,
`Lib/configparser.py` of python 3.12, as `configloader.py:86-88` calls it (strict, with the default delimiters and
comment prefixes, no inline comments, empty lines in values), and `configloader.load` on the texts of the files.

Simplified: a text is decoded already (python decodes it with the encoding of the locale, and raises
`UnicodeDecodeError` for other bytes); the line numbers and messages of the errors are not kept.
-/
namespace Imageio.Ini
open Imageio.Http Imageio.Config

/-- `str.isspace()` of a character, and `\s` of a regular expression.  `configparser.py:577`, `607`, `1020`, called from
`configloader.py:88`. -/
def isSpace (c : Char) : Bool :=
  (9 ≤ c.toNat && c.toNat ≤ 13) || (28 ≤ c.toNat && c.toNat ≤ 32) || c.toNat == 0x85 || c.toNat == 0xa0 ||
    c.toNat == 0x1680 || (0x2000 ≤ c.toNat && c.toNat ≤ 0x200a) || c.toNat == 0x2028 || c.toNat == 0x2029 ||
    c.toNat == 0x202f || c.toNat == 0x205f || c.toNat == 0x3000

/-- `str.rstrip()`.  `configparser.py:1072`, `1105`, called from `configloader.py:88`. -/
def rstrip (s : Str) : Str := (s.reverse.dropWhile isSpace).reverse

/-- `str.strip()`.  `configparser.py:1015`, `1020`, `1081`, called from `configloader.py:88`. -/
def strip (s : Str) : Str := rstrip (s.dropWhile isSpace)

/-- The universal newlines of a file opened in text mode.  `configparser.py:683`, called from `configloader.py:88`. -/
def newlines : Str → Str
  | '\r' :: '\n' :: r => '\n' :: newlines r
  | '\r' :: r => '\n' :: newlines r
  | c :: r => c :: newlines r
  | [] => []

/-- The lines of a file, `for line in fp`.  `configparser.py:999`, called from `configloader.py:88`.  Simplified: a line is
without its line end, which `strip()` removes and `\S` does not match. -/
def splitLines : Str → List Str
  | [] => []
  | c :: r =>
    if c = '\n' then [] :: splitLines r
    else
      match splitLines r with
      | [] => [[c]]
      | l :: ls => (c :: l) :: ls

/-- The value of an option while files are read: the list of the lines of this file, or the text of a file before.
`configparser.py:1082`, `1104-1108`, called from `configloader.py:88`. -/
inductive RawVal
  | lines (l : List Str)
  | text (s : Str)
deriving DecidableEq, Repr

/-- `_sections` and `_defaults` while files are read.  `configparser.py:612-613`, called from `configloader.py:86-88`. -/
structure RawParser where
  sections : Str → Option (Str → Option RawVal)
  defaults : Str → Option RawVal

/-- `configloader.py:86` the new parser. -/
def RawParser.empty : RawParser := ⟨fun _ => none, fun _ => none⟩

/-- The errors of `_read`.  `configparser.py:1049`, `1064`, `1071`, `1075`, `1091`, called from `configloader.py:88`.
`attribute` is the `AttributeError` of `append` on a string. -/
inductive IniError
  | duplicate
  | missingHeader
  | parsing
  | attribute
deriving DecidableEq, Repr

/-- The local variables of `_read`.  `configparser.py:991-997`, called from `configloader.py:88`.  `elements_added` is
split to the names of sections and the names of options; `cursect` is the name of the section whose dictionary it
is (`DEFAULT` for `_defaults`), which is `sectname` too; `optname` is empty for `None`, both are false. -/
structure Reader where
  p : RawParser
  names : List Str
  seen : List (Str × Str)
  cursect : Option Str
  optname : Str
  indent : Nat
  bad : Bool

/-- The dictionary of a section.  `configparser.py:1051`, `1054`, called from `configloader.py:88`. -/
def RawParser.dict (p : RawParser) (sec : Str) : Str → Option RawVal :=
  if sec = defaultSect then p.defaults else (p.sections sec).getD fun _ => none

/-- `cursect[optname] = v`.  `configparser.py:1082`, called from `configloader.py:88`. -/
def RawParser.set (p : RawParser) (sec k : Str) (v : RawVal) : RawParser :=
  if sec = defaultSect then { p with defaults := fun x => if x = k then some v else p.defaults x }
  else { p with sections := fun s =>
    if s = sec then some fun x => if x = k then some v else p.dict sec x else p.sections s }

/-- `cursect[optname].append(value)`.  `configparser.py:1029`, `1039`, called from `configloader.py:88`. -/
def RawParser.append (p : RawParser) (sec k value : Str) : Except IniError RawParser :=
  match p.dict sec k with
  | some (.lines l) => .ok (p.set sec k (.lines (l ++ [value])))
  | _ => .error .attribute

/-- `SECTCRE.match(value)`: what is between `[` and the last `]`, if not empty.  `configparser.py:550-554`, `1044-1046`,
called from `configloader.py:88`. -/
def header (value : Str) : Option Str :=
  match value with
  | '[' :: rest =>
    match rest.reverse.dropWhile (· != ']') with
    | [] => none
    | _ :: h => if h = [] then none else some h.reverse
  | _ => none

/-- `=` or `:`.  `configparser.py:575`, called from `configloader.py:88`. -/
def isDelim (c : Char) : Bool := c == '=' || c == ':'

/-- `_optcre.match(value)`: the name before the first delimiter and the value after it, without spaces around them.
`configparser.py:555-562`, `1067-1069`, `1081`, called from `configloader.py:88`. -/
def option (value : Str) : Option (Str × Str) :=
  match value.dropWhile (fun c => !isDelim c) with
  | [] => none
  | _ :: v => some (rstrip (value.takeWhile fun c => !isDelim c), strip v)

/-- A section header.  `configparser.py:1046-1061`, called from `configloader.py:88`. -/
def openSection (r : Reader) (sec : Str) : Except IniError Reader :=
  if sec = defaultSect then .ok { r with cursect := some sec, optname := [] }
  else if sec ∈ r.names then .error .duplicate
  else .ok { r with
    p := { r.p with sections := fun s => if s = sec then some (r.p.dict sec) else r.p.sections s }
    names := sec :: r.names, cursect := some sec, optname := [] }

/-- A line with an option.  `configparser.py:1069-1082`, called from `configloader.py:88`, with the `optionxform` of
`configloader.py:87`. -/
def setOption (r : Reader) (sec o v : Str) : Except IniError Reader :=
  let k := keywordMapping o
  if (sec, k) ∈ r.seen then .error .duplicate
  else .ok { r with
    p := r.p.set sec k (.lines [v]), seen := (sec, k) :: r.seen, optname := k, bad := r.bad || o.isEmpty }

/-- The line is a comment.  `configparser.py:1014-1017`, called from `configloader.py:88`. -/
def isComment (line : Str) : Bool :=
  match strip line with
  | c :: _ => c == '#' || c == ';'
  | [] => false

/-- A line of a file.  `configparser.py:1013-1091`, called from `configloader.py:88`. -/
def step (r : Reader) (line : Str) : Except IniError Reader :=
  if isComment line then .ok r
  else
    let value := strip line
    match r.cursect with
    | none =>
      if value = [] then .ok r
      else
        match header value with
        | some sec => openSection { r with indent := (line.takeWhile isSpace).length } sec
        | none => .error .missingHeader
    | some sec =>
      if value = [] then
        if r.optname = [] then .ok r else (r.p.append sec r.optname []).map fun p => { r with p := p }
      else
        let cur := (line.takeWhile isSpace).length
        if r.optname ≠ [] ∧ r.indent < cur then (r.p.append sec r.optname value).map fun p => { r with p := p }
        else
          match header value with
          | some s => openSection { r with indent := cur } s
          | none =>
            match option value with
            | some (o, v) => setOption { r with indent := cur } sec o v
            | none => .ok { r with indent := cur, bad := true }

/-- The loop over the lines of a file.  `configparser.py:999-1091`, called from `configloader.py:88`. -/
def run : List Str → Reader → Except IniError Reader
  | [], r => .ok r
  | l :: ls, r =>
    match step r l with
    | .error e => .error e
    | .ok r => run ls r

/-- `'\n'.join(val)`.  `configparser.py:1105`, called from `configloader.py:88`. -/
def joinLines : List Str → Str
  | [] => []
  | [l] => l
  | l :: ls => l ++ '\n' :: joinLines ls

/-- The value of an option after a file.  `configparser.py:1104-1108`, called from `configloader.py:88`. -/
def RawVal.join : RawVal → Str
  | .lines l => rstrip (joinLines l)
  | .text s => s

/-- `_join_multiline_values()`.  `configparser.py:1098-1108`, called from `configloader.py:88`. -/
def RawParser.join (p : RawParser) : RawParser where
  sections s := (p.sections s).map fun d k => (d k).map fun v => .text v.join
  defaults k := (p.defaults k).map fun v => .text v.join

/-- `_read(fp, fpname)` for the text of a file.  `configparser.py:974-1096`, called from `configloader.py:88`. -/
def readText (text : Str) (p : RawParser) : Except IniError RawParser :=
  match run (splitLines (newlines text)) ⟨p, [], [], none, [], 0, false⟩ with
  | .error e => .error e
  | .ok r => if r.bad then .error .parsing else .ok r.p.join

/-- `parser.read(files)`: the texts of the files; `none` is a file that cannot be opened, which is ignored.
`configparser.py:660-690`, called from `configloader.py:88`. -/
def readTexts : List (Option Str) → RawParser → Except IniError RawParser
  | [], p => .ok p
  | none :: r, p => readTexts r p
  | some text :: r, p =>
    match readText text p with
    | .error e => .error e
    | .ok p => readTexts r p

/-- The parser as `get` sees it (`Config.Parser`): the values are strings.  `configloader.py:93`. -/
def RawParser.values (p : RawParser) : Parser where
  sections s := (p.sections s).map fun d k => (d k).map RawVal.join
  defaults k := (p.defaults k).map RawVal.join

/-- The errors of `load`.  `configloader.py:85-107`. -/
inductive TextError
  | ini (e : IniError)
  | valueError
deriving DecidableEq, Repr

/-- `configloader.py:85-107` `load(config, files)` with the texts of the files: the error, if any, and the configuration
after the call. -/
def loadTexts {F : Type} (pf : Str → Option F) (cfg : Cfg F) (texts : List (Option Str)) : Option TextError × Cfg F :=
  match readTexts texts RawParser.empty with
  | .error e => (some (.ini e), cfg)
  | .ok p =>
    match loadSections pf p.values cfg with
    | (true, cfg) => (some .valueError, cfg)
    | (false, cfg) => (none, cfg)

/-- `server.py:82-103` `load_config` with the texts of the files found in the configuration directory and in the vendor
directory, by path.  The outer `none` is the `ValueError` raised when there is no configuration file. -/
def loadConfigTexts {F : Type} (pf : Str → Option F) (cfg : Cfg F) (files vendor : List (Str × Option Str)) :
    Option (Option TextError × Cfg F) :=
  if files = [] then none
  else some (loadTexts pf cfg (((files ++ vendor).mergeSort
    fun a b => leStr (baseName a.1) (baseName b.1)).map (·.2)))

end Imageio.Ini
