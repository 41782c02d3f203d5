import Verif.Model.ShowConfig
/-!
The options that the daemon and the administration client read from the configuration.  The options of the logger are
read by python's `logging.config`, see `Model/ShowConfig`.
-/
namespace Imageio.ConfigReads
open Imageio.Http Imageio.Config Imageio.Images Imageio.ShowConfig

/-- The type of the value that the code needs; of this model, for example a text for `.lower()` in `services.py:145` and a
number for `mmap` in `backends/__init__.py:107`. -/
inductive Kind
  | text | integer | number | flag
deriving DecidableEq, Repr

/-- An expression `config.section.option`, for example `services.py:67`. -/
structure Read where
  sec : Str
  opt : Str
  kind : Kind

/-- `config.section.option`: the attribute of the section, `none` is `AttributeError`.  `config.py:219-243`. -/
def attr {F : Type} (cfg : Cfg F) (sec opt : Str) : Option (Val F) :=
  match cfg.find? (fun s => s.1 = sec) with
  | none => none
  | some s => (s.2.find? fun o => o.1 = opt).map Prod.snd

/-- All the expressions in the code: `admin/_api.py:54-60`, `auth.py:31`, `413`, `handlers/images.py:229-230`,
`handlers/profile.py:66-69`, `services.py:51`, `67-76`, `89-100`, `117-122`, `145-163`, `backends/__init__.py:95`, `102`,
`105-106` (with the names of the three backends), and `server.py:113`, `128-136`, `165-192`. -/
def reads : List Read :=
  [⟨lit "control", lit "transport", .text⟩, ⟨lit "control", lit "port", .integer⟩, ⟨lit "control", lit "socket", .text⟩,
   ⟨lit "daemon", lit "inactivity_timeout", .integer⟩, ⟨lit "control", lit "remove_timeout", .integer⟩,
   ⟨lit "local", lit "enable", .flag⟩, ⟨lit "local", lit "socket", .text⟩, ⟨lit "profile", lit "filename", .text⟩,
   ⟨lit "daemon", lit "poll_interval", .number⟩, ⟨lit "remote", lit "port", .integer⟩, ⟨lit "remote", lit "host", .text⟩,
   ⟨lit "tls", lit "enable", .flag⟩, ⟨lit "tls", lit "cert_file", .text⟩, ⟨lit "tls", lit "key_file", .text⟩,
   ⟨lit "tls", lit "ca_file", .text⟩, ⟨lit "tls", lit "enable_tls1_1", .flag⟩, ⟨lit "control", lit "prefer_ipv4", .flag⟩,
   ⟨lit "backend_http", lit "ca_file", .text⟩, ⟨lit "daemon", lit "max_connections", .integer⟩,
   ⟨lit "backend_file", lit "buffer_size", .integer⟩, ⟨lit "backend_nbd", lit "buffer_size", .integer⟩,
   ⟨lit "backend_http", lit "buffer_size", .integer⟩, ⟨lit "daemon", lit "systemd_enable", .flag⟩,
   ⟨lit "control", lit "enable", .flag⟩, ⟨lit "daemon", lit "drop_privileges", .flag⟩,
   ⟨lit "daemon", lit "user_name", .text⟩, ⟨lit "daemon", lit "group_name", .text⟩, ⟨lit "daemon", lit "run_dir", .text⟩]

/-- `server.py:82-103` `load_config` and `server.py:32`: the configuration with which the daemon goes on; `none` is the end
of the daemon with status 1. -/
def started {F : Type} (pf : Str → Option F) (one : F) (files vendor : List (Str × Option Str)) : Option (Cfg F) :=
  match Ini.loadConfigTexts pf (defaultConfig one) files vendor with
  | some (none, cfg) => some cfg
  | _ => none

end Imageio.ConfigReads
