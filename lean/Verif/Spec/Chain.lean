import Verif.Base
/-!
Images with backing files, and new disks.
-/
namespace Imageio.Spec

/-- A layer of an image: the bytes that are allocated in it. -/
abbrev Layer := Nat → Option Byte

/-- What a guest reads from a chain of layers, the top layer first: the first layer that has the byte,
or zero. -/
def visible : List Layer → Nat → Byte
  | [], _ => 0
  | l :: ls, i => (l i).getD (visible ls i)

/-- Kinds of storage. -/
inductive Storage where
  | file | block
deriving DecidableEq, Repr

/-- Formats of disks. -/
inductive Format where
  | raw | qcow2
deriving DecidableEq, Repr

/-- The engine does not create sparse raw disks on block storage. -/
def Creatable (st : Storage) (f : Format) (sparse : Bool) : Prop :=
  ¬ (st = .block ∧ f = .raw ∧ sparse = true)

/-- What can be read from a new disk: only a raw disk on block storage shows what was there before. -/
def NewDisk (st : Storage) (f : Format) (d : Nat → Byte) : Prop :=
  st = .file ∨ f = .qcow2 → ∀ i, d i = 0

end Imageio.Spec
