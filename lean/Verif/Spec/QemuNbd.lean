import Verif.Model.Images
/-!
What qemu-nbd does with its arguments, as far as needed to say what is exported.
-/
namespace Imageio.Spec
open Imageio.Images Imageio.Http

/-- The options `--name=value` and `--name`, in the order of the command line. -/
abbrev QemuOptions := List (Str × Option Str)

/-- One argument: an option, or (`none`) another argument. -/
def qemuArg (arg : Str) : Option (Str × Option Str) :=
  match arg with
  | '-' :: '-' :: r =>
    match r.dropWhile (· ≠ '=') with
    | [] => some (r, none)
    | _ :: v => some (r.takeWhile (· ≠ '='), some v)
  | _ => none

/-- The options and the other arguments. -/
def qemuArgs (args : List Str) : QemuOptions × List Str :=
  (args.filterMap qemuArg, args.filter fun a => qemuArg a = none)

/-- `size` bytes of a file at `start`: byte `i` of the region is byte `start + i` of the file. -/
structure Region where
  file : Str
  start : Int
  size : Int
deriving DecidableEq, Repr

/-- The part is inside of the file. -/
def Region.Inside (r : Region) (sizes : Str → Nat) : Prop := 0 ≤ r.start ∧ 0 ≤ r.size ∧ r.start + r.size ≤ sizes r.file

instance (r : Region) (sizes : Str → Nat) : Decidable (r.Inside sizes) := by unfold Region.Inside; infer_instance

/-- What the guest sees: the bytes of a region, or the content of the qcow2 image in a region, with the
backing chain of the image or without. -/
inductive View where
  | raw (r : Region)
  | qcow2 (r : Region) (chain : Bool)
deriving DecidableEq, Repr

/-- A field of a JSON object. -/
def jsonField (name : String) : Json → Option Json
  | .obj fields => (fields.find? fun f => f.1 = name.toList).map (·.2)
  | _ => none

def jsonStr : Option Json → Option Str
  | some (.str s) => some s
  | _ => none

def jsonInt (default : Int) : Option Json → Option Int
  | none => some default
  | some (.int n) => some n
  | _ => none

/-- The view of a block node (`BlockdevOptions` of qemu): `file` and `host_device` open a file by its
name; `raw` takes a range of the node below; `qcow2` reads the image in the node below, and its backing
chain unless `backing` is null.  `sizes` are the sizes of the files, `depth` limits the nesting. -/
def view (sizes : Str → Nat) : (depth : Nat) → Json → Option View
  | 0, _ => none
  | depth + 1, d =>
    match jsonStr (jsonField "driver" d) with
    | none => none
    | some driver =>
      if driver = "file".toList ∨ driver = "host_device".toList then
        (jsonStr (jsonField "filename" d)).map fun f => .raw ⟨f, 0, sizes f⟩
      else if driver = "raw".toList then
        match (jsonField "file" d).bind (view sizes depth), jsonInt 0 (jsonField "offset" d) with
        | some (.raw r), some offset =>
          match jsonInt (r.size - offset) (jsonField "size" d) with
          | some size =>
            if 0 ≤ offset ∧ 0 ≤ size ∧ offset + size ≤ r.size then some (.raw ⟨r.file, r.start + offset, size⟩)
            else none
          | none => none
        | _, _ => none
      else if driver = "qcow2".toList then
        match (jsonField "file" d).bind (view sizes depth) with
        | some (.raw r) => some (.qcow2 r (jsonField "backing" d).isNone)
        | _ => none
      else none

end Imageio.Spec
