import Verif.Model.Ini
import Verif.Model.Json

/-!
Model of what the daemon does with its configuration: `--show-config` (`server.py:29-34`, `78-79`), the dictionary of the
configuration (`configloader.py:110-129`, `config.py:252-253`), the defaults (`config.py:8-243`), and the parser that
configures the logger (`server.py:106-109`).  The configuration files are read by `Model/Ini`.

`F` are the floats; `fmt` is python's `float.__repr__`, not modelled.
-/
namespace Imageio.ShowConfig
open Imageio.Http Imageio.Config Imageio.Images Imageio.JsonText

/-- `KEYWORD_PREFIX`, `configloader.py:75`. -/
def keywordPrefix : Str := lit "keyword__"

/-- `configloader.py:126-127`: the name of an attribute in the dictionary. -/
def optionName (attr : Str) : Str :=
  if keywordPrefix.isPrefixOf attr then attr.drop keywordPrefix.length else attr

/-- `d[k] = v` for a dict in the order of its keys, `configloader.py:114`, `128`. -/
def setItem {α : Type} (k : Str) (v : α) : List (Str × α) → List (Str × α)
  | [] => [(k, v)]
  | (x, w) :: r => if x = k then (x, v) :: r else (x, w) :: setItem k v r

/-- `configloader.py:122-129` `_obj_to_dict`. -/
def objToDict {F : Type} (attrs : List (Str × Val F)) : List (Str × Val F) :=
  attrs.foldl (fun d a => setItem (optionName a.1) a.2 d) []

/-- `configloader.py:110-115` `to_dict`, `config.py:252-253`. -/
def toDict {F : Type} (cfg : Cfg F) : List (Str × List (Str × Val F)) :=
  cfg.foldl (fun d s => setItem s.1 (objToDict s.2) d) []

/-- The text of a value in JSON, python's `json.dumps`.  Called from `server.py:79`.  `none` is the `TypeError` of a value
that has no text. -/
def valueText {F : Type} (fmt : F → Str) : Val F → Option Str
  | .str s => some (encodeString s)
  | .int i => some (fmtInt i)
  | .float f => some (fmt f)
  | .bool true => some (lit "true")
  | .bool false => some (lit "false")
  | .other => none

/-- A new line of `json.dumps(indent=4)`, python's `encoder.py:345-348`.  Called from `server.py:79`. -/
def newline (level : Nat) : Str := '\n' :: List.replicate (4 * level) ' '

/-- The members of a dict after the first, with the texts of the values.  Called from `server.py:79`. -/
def dumpsRest (level : Nat) : List (Str × Str) → Str
  | [] => newline level ++ ['}']
  | (k, v) :: r => ',' :: (newline (level + 1) ++ (encodeString k ++ (lit ": " ++ (v ++ dumpsRest level r))))

/-- A dict at a level of `json.dumps(indent=4)`, python's `encoder.py:334-412`.  Called from `server.py:79`. -/
def dumpsDict (level : Nat) : List (Str × Str) → Str
  | [] => lit "{}"
  | (k, v) :: r => '{' :: (newline (level + 1) ++ (encodeString k ++ (lit ": " ++ (v ++ dumpsRest level r))))

/-- The options of a section with the texts of the values.  `server.py:79`. -/
def optionTexts {F : Type} (fmt : F → Str) : List (Str × Val F) → Option (List (Str × Str))
  | [] => some []
  | (o, v) :: r =>
    match valueText fmt v, optionTexts fmt r with
    | some t, some r => some ((o, t) :: r)
    | _, _ => none

/-- The sections with their texts.  `server.py:79`. -/
def sectionTexts {F : Type} (fmt : F → Str) : List (Str × List (Str × Val F)) → Option (List (Str × Str))
  | [] => some []
  | (s, opts) :: r =>
    match optionTexts fmt opts, sectionTexts fmt r with
    | some l, some r => some ((s, dumpsDict 1 l) :: r)
    | _, _ => none

/-- `server.py:78-79` `show_config`: what is printed. -/
def showConfig {F : Type} (fmt : F → Str) (cfg : Cfg F) : Option Str :=
  (sectionTexts fmt (toDict cfg)).map fun l => dumpsDict 0 l ++ ['\n']

/-- The end of the program: the exit status and the standard output.  `server.py:29-57`. -/
structure Exit where
  status : Nat
  stdout : Str
deriving DecidableEq, Repr

/-- `server.py:29-34`, `55-57`: `main` with `--show-config`.  Every failure is logged to standard error. -/
def showMain {F : Type} (pf : Str → Option F) (fmt : F → Str) (defaults : Cfg F) (files vendor : List (Str × Option Str)) :
    Exit :=
  match Ini.loadConfigTexts pf defaults files vendor with
  | some (none, cfg) =>
    match showConfig fmt cfg with
    | some text => ⟨0, text⟩
    | none => ⟨1, []⟩
  | _ => ⟨1, []⟩

/-- `str(value)` of a value, python's `configparser.read_dict`.  Called from `server.py:108`.  The text of a value of another
type is not modelled. -/
def strValue {F : Type} (fmt : F → Str) : Val F → Str
  | .str s => s
  | .int i => fmtInt i
  | .float f => fmt f
  | .bool true => lit "True"
  | .bool false => lit "False"
  | .other => []

/-- The options of a section of `read_dict`; the names are compared in lower case (modelled for ASCII); `none` is
`DuplicateOptionError`.  Called from `server.py:108`. -/
def readDictOptions {F : Type} (fmt : F → Str) : List (Str × Val F) → List Str → (Str → Option Str) → Option (Str → Option Str)
  | [], _, d => some d
  | (o, v) :: r, seen, d =>
    let k := o.map Char.toLower
    if k ∈ seen then none else readDictOptions fmt r (k :: seen) (setKey d k (strValue fmt v))

/-- The sections of `read_dict`; the keys of a dict are distinct; a section `DEFAULT` would set the defaults.  Called from
`server.py:108`. -/
def readDict {F : Type} (fmt : F → Str) : List (Str × List (Str × Val F)) → Parser → Option Parser
  | [], p => some p
  | (s, opts) :: r, p =>
    if s = defaultSect then
      match readDictOptions fmt opts [] p.defaults with
      | none => none
      | some d => readDict fmt r { p with defaults := d }
    else
      match readDictOptions fmt opts [] ((p.sections s).getD fun _ => none) with
      | none => none
      | some d => readDict fmt r { p with sections := fun x => if x = s then some d else p.sections x }

/-- `server.py:106-108`: the parser that configures the logger. -/
def loggerParser {F : Type} (fmt : F → Str) (cfg : Cfg F) : Option Parser := readDict fmt (toDict cfg) Parser.empty

/-- `parser.get(sec, opt)` in python's `logging.config.fileConfig`.  Called from `server.py:109`. -/
def loggerGet (p : Parser) (sec opt : Str) : Option Str :=
  match p.sections sec with
  | none => none
  | some d => match d (opt.map Char.toLower) with
    | some v => some v
    | none => p.defaults (opt.map Char.toLower)

/-- The defaults, `config.py:8-243`, in the order of `dir()`.  `one` is the float 1.0. -/
def defaultConfig {F : Type} (one : F) : Cfg F :=
  let s (x : String) : Val F := .str (lit x)
  [(lit "backend_file", [(lit "buffer_size", .int 8388608)]),
   (lit "backend_http", [(lit "buffer_size", .int 8388608), (lit "ca_file", s "")]),
   (lit "backend_nbd", [(lit "buffer_size", .int 8388608)]),
   (lit "control", [(lit "enable", .bool true), (lit "port", .int (-1)), (lit "prefer_ipv4", .bool true),
     (lit "remove_timeout", .int 60), (lit "socket", s "/run/ovirt-imageio/sock"), (lit "transport", s "unix")]),
   (lit "daemon", [(lit "drop_privileges", .bool true), (lit "group_name", s "ovirtimg"),
     (lit "inactivity_timeout", .int 60), (lit "max_connections", .int 8), (lit "poll_interval", .float one),
     (lit "run_dir", s "/run/ovirt-imageio"), (lit "systemd_enable", .bool true), (lit "user_name", s "ovirtimg")]),
   (lit "formatter_long",
     [(lit "format", s "%(asctime)s %(levelname)-7s (%(threadName)s) [%(name)s] %(message)s")]),
   (lit "formatters", [(lit "keys", s "long")]),
   (lit "handler_logfile", [(lit "args", s "(\"/var/log/ovirt-imageio/daemon.log\",)"), (lit "formatter", s "long"),
     (lit "keyword__class", s "logging.handlers.RotatingFileHandler"),
     (lit "kwargs", s "{\"maxBytes\": 20971520, \"backupCount\": 10}"), (lit "level", s "DEBUG")]),
   (lit "handler_stderr", [(lit "args", s "()"), (lit "formatter", s "long"),
     (lit "keyword__class", s "logging.StreamHandler"), (lit "level", s "DEBUG")]),
   (lit "handlers", [(lit "keys", s "logfile")]),
   (lit "local", [(lit "enable", .bool true), (lit "socket", .str (Char.ofNat 0 :: lit "/org/ovirt/imageio"))]),
   (lit "logger_root", [(lit "handlers", s "logfile"), (lit "level", s "INFO"), (lit "propagate", .int 0)]),
   (lit "loggers", [(lit "keys", s "root")]),
   (lit "profile", [(lit "filename", s "/run/ovirt-imageio/profile")]),
   (lit "remote", [(lit "host", s "::"), (lit "port", .int 54322)]),
   (lit "tls", [(lit "ca_file", s ""), (lit "cert_file", s ""), (lit "enable", .bool true),
     (lit "enable_tls1_1", .bool false), (lit "key_file", s "")])]

end Imageio.ShowConfig
