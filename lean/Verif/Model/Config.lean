import Verif.Model.HttpParse

/-!
Configuration files of the daemon: `_internal/configloader.py`, `_internal/server.py`
`load_config`, and the part of the standard library's `configparser` they use.

A file is the list of its sections with their options here; the ini syntax is in `Model/Ini`.
Dictionaries are functions to `Option`.
-/
namespace Imageio.Config
open Imageio.Http

/-- `keyword.iskeyword` for strings in lower case.  Used in `configloader.py:80`. -/
def keywords : List Str :=
  ["and", "as", "assert", "async", "await", "break", "class", "continue", "def", "del",
   "elif", "else", "except", "finally", "for", "from", "global", "if", "import", "in", "is",
   "lambda", "nonlocal", "not", "or", "pass", "raise", "return", "try", "while", "with",
   "yield"].map String.toList

/-- `configloader.py:78-82` `keyword_mapping`, the `optionxform` of the parser.  `lower()`
is modelled for ASCII. -/
def keywordMapping (option : Str) : Str :=
  let option := option.map Char.toLower
  if option ∈ keywords then "keyword__".toList ++ option else option

/-- The sections of a parsed ini file: their names, with option names and values as
written.  The syntax is in `Model/Ini`; read by `configloader.py:88`. -/
abbrev File := List (Str × List (Str × Str))

/-- The state of `configparser.RawConfigParser`: `_sections` and `_defaults`.
Python's `configparser`, used in `configloader.py:86-88`. -/
structure Parser where
  sections : Str → Option (Str → Option Str)
  defaults : Str → Option Str

/-- `configloader.py:86`. -/
def Parser.empty : Parser := ⟨fun _ => none, fun _ => none⟩

/-- `configparser.DEFAULTSECT`.  Used by `configloader.py:88`. -/
def defaultSect : Str := "DEFAULT".toList

/-- `d[k] = v`.  A helper, not a function of the code. -/
def setKey (d : Str → Option Str) (k v : Str) : Str → Option Str :=
  fun x => if x = k then some v else d x

/-- `RawConfigParser._read`, the options of section `sec`, which are added to the
dictionary `d` of the section.  `seen` is `elements_added`; an option repeated in the same
file is `DuplicateOptionError`, which is `none`.  Python's `configparser`, used in `configloader.py:88`. -/
def readOptions (sec : Str) :
    List (Str × Str) → List (Str × Str) → (Str → Option Str) →
      Option (List (Str × Str) × (Str → Option Str))
  | [], seen, d => some (seen, d)
  | (o, v) :: r, seen, d =>
    let k := keywordMapping o
    if (sec, k) ∈ seen then none
    else readOptions sec r ((sec, k) :: seen) (setKey d k v)

/-- `RawConfigParser._read`, the sections of a file.  `names` are the section names added
by this file; a repeated section is `DuplicateSectionError`, except for `DEFAULT`.
Python's `configparser`, used in `configloader.py:88`. -/
def readSections : File → List Str → List (Str × Str) → Parser → Option Parser
  | [], _, _, p => some p
  | (sec, opts) :: r, names, seen, p =>
    if sec = defaultSect then
      match readOptions sec opts seen p.defaults with
      | none => none
      | some (seen, d) => readSections r names seen { p with defaults := d }
    else if sec ∈ names then none
    else
      match readOptions sec opts seen ((p.sections sec).getD fun _ => none) with
      | none => none
      | some (seen, d) =>
        readSections r (sec :: names) seen
          { p with sections := fun s => if s = sec then some d else p.sections s }

/-- `RawConfigParser.read(filenames)`: the files are read in order.  Missing files, which
are ignored, are not in the list.  `configloader.py:88`. -/
def readFiles : List File → Parser → Option Parser
  | [], p => some p
  | f :: r, p =>
    match readSections f [] [] p with
    | none => none
    | some p => readFiles r p

/-- The result of `RawConfigParser.get`.  Used in `configloader.py:92-97`. -/
inductive Got
  | noSection
  | noOption
  | value (v : Str)
deriving DecidableEq, Repr

/-- `RawConfigParser.get(section, option)`: the value of the section, then the value of the
`DEFAULT` section.  Used in `configloader.py:93`. -/
def Parser.get (p : Parser) (sec option : Str) : Got :=
  let k := keywordMapping option
  let look (d : Str → Option Str) : Got :=
    match d k with
    | some v => .value v
    | none =>
      match p.defaults k with
      | some v => .value v
      | none => .noOption
  match p.sections sec with
  | some d => look d
  | none => if sec = defaultSect then look (fun _ => none) else .noSection

/-- The values of options, by type.  `other` is a value of any other type.  `configloader.py:99-106`, `142-147`. -/
inductive Val (F : Type)
  | str (s : Str)
  | int (i : Int)
  | float (f : F)
  | bool (b : Bool)
  | other
deriving DecidableEq

/-- `configloader.py:132-139` `_validate_bool` -/
def validateBool (s : Str) : Option Bool :=
  let v := s.map Char.toLower
  if v ∈ ["true", "yes", "1", "on"].map String.toList then some true
  else if v ∈ ["false", "no", "0", "off"].map String.toList then some false
  else none

/-- `configloader.py:99-106,142-147` the conversion of a text to the type of the current
value; `none` is `ValueError`.  `parseFloat` is python's `float()`, not modelled. -/
def convert {F : Type} (parseFloat : Str → Option F) (current : Val F) (s : Str) :
    Option (Val F) :=
  match current with
  | .str _ => some (.str s)
  | .int _ => (pyInt s).map .int
  | .float _ => (parseFloat s).map .float
  | .bool _ => (validateBool s).map .bool
  | .other => none

/-- The configuration object: the public attributes of the sections, in the order of
`dir()`.  `config.py:8-253`, `configloader.py:118-119`. -/
abbrev Cfg (F : Type) := List (Str × List (Str × Val F))

/-- `configloader.py:91-107` the inner loop of `load`, for the options of one section.
The first component is true if `ValueError` was raised; the options before were changed
already. -/
def loadOptions {F : Type} (pf : Str → Option F) (p : Parser) (sec : Str) :
    List (Str × Val F) → Bool × List (Str × Val F)
  | [] => (false, [])
  | (o, v) :: r =>
    match p.get sec o with
    | .noSection => (false, (o, v) :: r)
    | .noOption =>
      let x := loadOptions pf p sec r
      (x.1, (o, v) :: x.2)
    | .value s =>
      match convert pf v s with
      | none => (true, (o, v) :: r)
      | some v' =>
        let x := loadOptions pf p sec r
        (x.1, (o, v') :: x.2)

/-- `configloader.py:89-107` the outer loop of `load`. -/
def loadSections {F : Type} (pf : Str → Option F) (p : Parser) : Cfg F → Bool × Cfg F
  | [] => (false, [])
  | (sec, opts) :: r =>
    match loadOptions pf p sec opts with
    | (true, opts) => (true, (sec, opts) :: r)
    | (false, opts) =>
      let x := loadSections pf p r
      (x.1, (sec, opts) :: x.2)

/-- The error raised by `load`.  `configloader.py:93-106`, `132-139`. -/
inductive LoadError
  | duplicate
  | valueError
deriving DecidableEq, Repr

/-- `configloader.py:85-107` `load(config, files)`: the error, if any, and the
configuration after the call. -/
def load {F : Type} (pf : Str → Option F) (cfg : Cfg F) (files : List File) :
    Option LoadError × Cfg F :=
  match readFiles files Parser.empty with
  | none => (some .duplicate, cfg)
  | some p =>
    match loadSections pf p cfg with
    | (true, cfg) => (some .valueError, cfg)
    | (false, cfg) => (none, cfg)

/-- `os.path.basename`.  Used in `server.py:101`. -/
def baseName (path : Str) : Str := (path.reverse.takeWhile (· != '/')).reverse

/-- `a <= b` for python strings: the order of the code points.  Used by the sort of `server.py:101`. -/
def leStr : Str → Str → Bool
  | [], _ => true
  | _ :: _, [] => false
  | a :: as, b :: bs => if a.toNat = b.toNat then leStr as bs else a.toNat < b.toNat

/-- `server.py:101` `files.sort(key=os.path.basename)`, a stable sort. -/
def sortFiles (files : List (Str × File)) : List (Str × File) :=
  files.mergeSort (fun a b => leStr (baseName a.1) (baseName b.1))

/-- `server.py:82-103` `load_config`: the files found in the configuration directory and in
the vendor directory, by path.  The outer `none` is the `ValueError` raised when there is
no configuration file. -/
def loadConfig {F : Type} (pf : Str → Option F) (cfg : Cfg F)
    (files vendor : List (Str × File)) : Option (Option LoadError × Cfg F) :=
  if files = [] then none
  else some (load pf cfg ((sortFiles (files ++ vendor)).map (·.2)))

end Imageio.Config
