import Verif.Model.ClientOptions
/-!
Where an option of `ovirt-img` can come from.
-/
namespace Imageio.Spec
open Imageio.Options Imageio.Http

/-- The option was given on the command line. -/
def OnCommandLine (given : Given) (o : Opt) : Prop := o.cmd = true ∧ (given o.name).isSome

/-- The section of the configuration file to use. -/
def Section (given : Given) (sec : Str) : Prop := given "config" = some sec ∧ sec ≠ []

/-- The text in the configuration file that is used for the option: the section that was asked for, or
`DEFAULT`. -/
def InFile (given : Given) (w : World) (o : Opt) (raw : Str) : Prop :=
  o.config = true ∧ ∃ sec s, Section given sec ∧ w.ini.sections sec = some s ∧
    (s o.name = some raw ∨ s o.name = none ∧ w.ini.defaults o.name = some raw)

/-- A password file was given. -/
def PasswordFile (given : Given) (path : Str) : Prop := given "password_file" = some path ∧ path ≠ []

end Imageio.Spec
