import Verif.Model.Options
/-!
Model of the options of `ovirt-img`: command line, configuration file, defaults and password,
`ovirt_imageio/client/_options.py`.

The splitting of the command line to options by `argparse`, and the ini syntax, are not modelled: the
input is the value of every option that was given, and the sections of the file.
-/
namespace Imageio.Options
open Imageio.Http

/-- The values of options.  `client/_options.py:103-189`. -/
inductive Val
  | str (s : Str)
  | bool (b : Bool)
  | int (i : Int)
deriving DecidableEq, Repr

/-- The types of options, `_options.py:28-55` -/
inductive Ty
  | str
  | choices (values : List Str)
  | bool
  | int
deriving DecidableEq, Repr

/-- `_options.py:24-25` `BOOLEAN_VALUES` -/
def booleanValues : List (Str × Bool) :=
  [("1".toList, true), ("yes".toList, true), ("true".toList, true), ("on".toList, true),
   ("0".toList, false), ("no".toList, false), ("false".toList, false), ("off".toList, false)]

/-- `_options.py:34-38` `Choices.__call__`, `_options.py:52-55` `bool_string`, `int` and `str`.  `none`
is `ValueError`.  No character outside of ASCII has a lower case in the keys of the table. -/
def Ty.convert (ty : Ty) (s : Str) : Option Val :=
  match ty with
  | .str => some (.str s)
  | .choices values => if s ∈ values then some (.str s) else none
  | .bool => (booleanValues.lookup (s.map Char.toLower)).map .bool
  | .int => (pyInt s).map .int

/-- `_options.py:58-98` `Option`; `cmd` tells if there are command line arguments, `storeFalse` is the
action. -/
structure Opt where
  name : String
  cmd : Bool := false
  config : Bool := false
  required : Bool := false
  storeFalse : Bool := false
  type : Ty := .str
  default : Option Val := none
deriving DecidableEq, Repr

/-- `_options.py:103-189` `Parser._OPTIONS` -/
def options : List Opt := [
  { name := "config", cmd := true },
  { name := "engine_url", cmd := true, config := true, required := true },
  { name := "username", cmd := true, config := true, required := true },
  { name := "password", config := true },
  { name := "password_file", cmd := true },
  { name := "cafile", cmd := true, config := true },
  { name := "secure", cmd := true, storeFalse := true, config := true, default := some (.bool true), type := .bool },
  { name := "output", cmd := true, type := .choices ["text".toList, "json".toList], default := some (.str "text".toList) },
  { name := "disk_timeout", config := true, type := .int, default := some (.int 120) },
  { name := "log_file", cmd := true, config := true },
  { name := "log_level", cmd := true, config := true,
    type := .choices ["debug".toList, "info".toList, "warning".toList, "error".toList],
    default := some (.str "warning".toList) },
  { name := "description", cmd := true, config := true, default := some (.str "Uploaded by ovirt-img".toList) }]

/-- The namespace of `argparse`: `none` is `None` or a missing attribute (`getattr(args, name, None)`).
`client/_options.py:234`, `275`. -/
abbrev Args := String → Option Val

/-- `setattr(args, name, value)`.  `client/_options.py:285`, `295`. -/
def Args.set (args : Args) (name : String) (v : Option Val) : Args := fun n => if n = name then v else args n

/-- The text given for every option; for a flag the text does not matter.  `client/_options.py:234`. -/
abbrev Given := String → Option Str

/-- A `configparser.ConfigParser` after reading the file: the values of the `DEFAULT` section and of the
others.  `client/_options.py:262-268`. -/
structure Ini where
  defaults : String → Option Str
  sections : Str → Option (String → Option Str)

/-- The system: the configuration, the content of files, and what the user types when asked.
`client/_options.py:262-268`, `314-317`. -/
structure World where
  ini : Ini
  files : Str → Except Err Str
  typed : Str

/-- What the parser can fail with.  `client/_options.py:34-55`, `256-306`. -/
inductive Failure
  /-- `parser.error()`: usage on stderr, exit status 2 -/
  | usage
  /-- an exception -/
  | raised (e : Err)
deriving DecidableEq, Repr

/-- `config.has_option(section, name)` and `config.get(section, name)`: the section, and then `DEFAULT`.
`client/_options.py:278-280`. -/
def Ini.get (ini : Ini) (section_ : Str) (name : String) : Option Str :=
  match ini.sections section_ with
  | none => none
  | some s => (s name).or (ini.defaults name)

/-- `_options.py:87-98,206-211,234` what `argparse` stores for one option. -/
def argparseOne (given : Given) (args : Args) (o : Opt) : Except Failure Args :=
  if o.cmd = false then .ok args
  else match given o.name with
    | none => .ok (args.set o.name none)
    | some raw =>
      if o.storeFalse then .ok (args.set o.name (some (.bool false)))
      else match o.type.convert raw with
        | none => .error .usage
        | some v => .ok (args.set o.name (some v))

/-- `_options.py:234` `parse_args` -/
def argparse (given : Given) : Except Failure Args :=
  options.foldlM (argparseOne given) (fun _ => none)

/-- `_options.py:270-285` the body of the loop in `_merge_config`. -/
def mergeOne (ini : Ini) (section_ : Str) (args : Args) (o : Opt) : Except Failure Args :=
  if o.config = false then .ok args
  else if (args o.name).isSome then .ok args
  else match ini.get section_ o.name with
    | none => .ok args
    | some raw =>
      match o.type.convert raw with
      | none => .error .usage
      | some v => .ok (args.set o.name (some v))

/-- `_options.py:256-285` `_merge_config` -/
def mergeConfig (ini : Ini) (section_ : Str) (args : Args) : Except Failure Args :=
  match ini.sections section_ with
  | none => .error .usage
  | some _ => options.foldlM (mergeOne ini section_) args

/-- `_options.py:287-295` `_set_defaults` -/
def setDefaults (args : Args) : Args :=
  options.foldl (fun args o => if (args o.name).isNone then args.set o.name o.default else args) args

/-- `_options.py:297-306` `_check_required_options` -/
def checkRequired (args : Args) : Except Failure Unit :=
  let missing := options.filter fun o => o.required && (args o.name).isNone
  if missing = [] then .ok () else .error .usage

/-- `str.rstrip("\n")`.  `client/_options.py:315`. -/
def rstripNl (s : Str) : Str := (s.reverse.dropWhile (· == '\n')).reverse

/-- `_options.py:308-317` `_read_password`; the flag tells if the user was asked. -/
def readPassword (w : World) (args : Args) : Except Failure (Args × Bool) :=
  match args "password_file" with
  | some (.str (c :: cs)) =>
    match w.files (c :: cs) with
    | .error e => .error (.raised e)
    | .ok s => .ok (args.set "password" (some (.str (rstripNl s))), false)
  | _ => if (args "password").isNone then .ok (args.set "password" (some (.str w.typed)), true) else .ok (args, false)

/-- `_options.py:239-240` -/
def mergeIf (ini : Ini) (args : Args) : Except Failure Args :=
  match args "config" with
  | some (.str (c :: cs)) => mergeConfig ini (c :: cs) args
  | _ => .ok args

/-- `_options.py:233-246` `parse`, with a command. -/
def parse (given : Given) (w : World) : Except Failure (Args × Bool) :=
  argparse given >>= fun args =>
  mergeIf w.ini args >>= fun args =>
  checkRequired (setDefaults args) >>= fun _ =>
  readPassword w (setDefaults args)

/-- `_options.py:214-220` `--max-workers` -/
def maxWorkers (given : Option Str) : Option Int :=
  match given with
  | none => some 4
  | some s => size ⟨1, some 8⟩ s

/-- `_options.py:222-229` `--buffer-size` -/
def bufferSize (given : Option Str) : Option Int :=
  match given with
  | none => some (4 * 1024 * 1024)
  | some s => size ⟨64 * 1024, some (16 * 1024 * 1024)⟩ s

end Imageio.Options
