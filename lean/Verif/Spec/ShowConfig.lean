import Verif.Model.Config
import Verif.Model.Images
import Mathlib.Data.List.Forall2

/-!
Specification of the shown configuration: a JSON object with an object for every section, with a member for every option.
Uses the types of values of the model, not its functions.
-/
namespace Imageio.Spec.ShowConfig
open Imageio.Config Imageio.Images

/-- The name of the option that is kept in an attribute: the names that are keywords of python have a prefix. -/
def Name (attr name : List Char) : Prop :=
  attr = "keyword__".toList ++ name ∨ (attr = name ∧ ∀ x, attr ≠ "keyword__".toList ++ x)

/-- The value in JSON.  (The value of a float is not kept.) -/
inductive JsonValue {F : Type} : Val F → Json → Prop
  | str {s : List Char} : JsonValue (.str s) (.str s)
  | int {i : Int} : JsonValue (.int i) (.int i)
  | float {f : F} : JsonValue (.float f) .float
  | bool {b : Bool} : JsonValue (.bool b) (.bool b)

/-- The document shows the configuration: every section, every option, and nothing else. -/
def Shows {F : Type} (cfg : Cfg F) (doc : Json) : Prop :=
  ∃ sections, doc = .obj sections ∧ List.Forall₂ (fun s x => s.1 = x.1 ∧ ∃ opts, x.2 = .obj opts ∧
    List.Forall₂ (fun o y => Name o.1 y.1 ∧ JsonValue o.2 y.2) s.2 opts) cfg sections

/-- The sections have different names, and the options of a section too; every value has a type that JSON has. -/
structure Regular {F : Type} (cfg : Cfg F) : Prop where
  sections : (cfg.map (·.1)).Nodup
  options : ∀ s ∈ cfg, s.2.Pairwise fun a b => ∀ n, Name a.1 n → ¬ Name b.1 n
  values : ∀ s ∈ cfg, ∀ o ∈ s.2, o.2 ≠ .other

/-- The text that the logger gets for a value. -/
inductive LoggerText {F : Type} (fmt : F → List Char) : Val F → List Char → Prop
  | str {s : List Char} : LoggerText fmt (.str s) s
  | int {i : Int} {s : List Char} (h : s = (toString i).toList) : LoggerText fmt (.int i) s
  | float {f : F} : LoggerText fmt (.float f) (fmt f)
  | true : LoggerText fmt (.bool true) "True".toList
  | false : LoggerText fmt (.bool false) "False".toList

/-- The names are different also in lower case. -/
def Lower {F : Type} (cfg : Cfg F) : Prop :=
  ∀ s ∈ cfg, s.2.Pairwise fun a b => ∀ n m, Name a.1 n → Name b.1 m → n.map Char.toLower ≠ m.map Char.toLower

end Imageio.Spec.ShowConfig
