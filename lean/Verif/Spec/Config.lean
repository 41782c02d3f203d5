import Verif.Base

/-!
Specification of the configuration: what a list of configuration files sets.  A file is
the list of its sections with the options as written; `key` maps an option name to the
name it is compared by.
-/
namespace Imageio.Spec.Config

abbrev Text := List Char
abbrev IniFile := List (Text × List (Text × Text))

/-- The file sets option `opt` of section `sec` to the text `v`. -/
def Sets (key : Text → Text) (f : IniFile) (sec opt v : Text) : Prop :=
  ∃ opts o, (sec, opts) ∈ f ∧ (o, v) ∈ opts ∧ key o = key opt

/-- The file is well formed: no section is repeated, except `DEFAULT`, and no option is
repeated. -/
def Proper (key : Text → Text) (f : IniFile) : Prop :=
  ((f.map (·.1)).filter (· ≠ "DEFAULT".toList)).Nodup ∧
    (f.flatMap fun s => s.2.map fun o => (s.1, key o.1)).Nodup

/-- No file of the list sets the option. -/
def Unset (key : Text → Text) (files : List IniFile) (sec opt : Text) : Prop :=
  ∀ f ∈ files, ∀ v, ¬ Sets key f sec opt v

/-- The last file of the list that sets the option sets it to `v`. -/
def LastSets (key : Text → Text) (files : List IniFile) (sec opt v : Text) : Prop :=
  ∃ pre f post, files = pre ++ f :: post ∧ Sets key f sec opt v ∧ Unset key post sec opt

/-- The section is in some file. -/
def HasSection (files : List IniFile) (sec : Text) : Prop :=
  ∃ f ∈ files, ∃ opts, (sec, opts) ∈ f

/-- The text in effect for an option: the value of the last file that sets it in its
section, otherwise the value of the last file that sets it in the section `DEFAULT`, if
the section is in some file. -/
inductive Effective (key : Text → Text) (files : List IniFile) (sec opt : Text) :
    Option Text → Prop
  | own {v : Text} (h : LastSets key files sec opt v) : Effective key files sec opt (some v)
  | default {v : Text} (hu : Unset key files sec opt) (hs : HasSection files sec)
      (h : LastSets key files "DEFAULT".toList opt v) : Effective key files sec opt (some v)
  | nothing (hu : Unset key files sec opt)
      (h : ¬ HasSection files sec ∨ Unset key files "DEFAULT".toList opt) :
      Effective key files sec opt none

end Imageio.Spec.Config
