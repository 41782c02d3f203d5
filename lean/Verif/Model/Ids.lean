import Verif.Model.SparseStream
/-!
Ids of disks on the command line of `ovirt-img`, `client/_options.py`, and choosing the local host, `client/_ovirt.py`.
-/
namespace Imageio.Ids
open SparseStream

/-! ### Ids of disks

Simplified: the text of an argument is ASCII (python also takes the decimal digits and spaces of other alphabets in `int(s, 16)`). -/

/-- `s.replace(p, "")` for a text `p` that is not empty.  `client/_options.py:384`, the constructor of `uuid.UUID` of python.  `fuel` is the length. -/
def remove (p : Bytes) : (fuel : Nat) → Bytes → Bytes
  | _, [] => []
  | 0, s => s
  | fuel + 1, c :: t => if p.isPrefixOf (c :: t) then remove p fuel ((c :: t).drop p.length) else c :: remove p fuel t

/-- `urn:`.  `client/_options.py:384`. -/
def URN : Bytes := [117, 114, 110, 58]

/-- `uuid:`.  `client/_options.py:384`. -/
def UUID : Bytes := [117, 117, 105, 100, 58]

/-- Characters of `strip("{}")`.  `client/_options.py:384`. -/
def isBrace (b : Byte) : Bool := b = 123 || b = 125

/-- `hex.strip("{}")`.  `client/_options.py:384`. -/
def strip (s : Bytes) : Bytes := ((s.dropWhile isBrace).reverse.dropWhile isBrace).reverse

/-- The text before the number is parsed, in the constructor of `uuid.UUID` of python.  `client/_options.py:384`. -/
def cleaned (s : Bytes) : Bytes :=
  let s := remove URN s.length s
  let s := remove UUID s.length s
  (strip s).filter fun c => decide (c ≠ 45)

/-- The number of `uuid.UUID(s)`; `none` is `ValueError`.  `client/_options.py:384`. -/
def uuidInt (s : Bytes) : Option Nat :=
  let h := cleaned s
  if h.length ≠ 32 then none
  else
    match pyInt16 h with
    | none => none
    | some n => if 0 ≤ n ∧ n < 2 ^ 128 then some n.toNat else none

/-- `"%032x" % n`.  `client/_options.py:384`, `str` of `uuid.UUID`. -/
def hex32 (n : Nat) : Bytes := List.replicate (32 - (hexDigits n).length) 48 ++ hexDigits n

/-- `str` of `uuid.UUID`.  `client/_options.py:384`. -/
def uuidStr (n : Nat) : Bytes :=
  let h := hex32 n
  h.take 8 ++ [45] ++ (h.drop 8).take 4 ++ [45] ++ (h.drop 12).take 4 ++ [45] ++ (h.drop 16).take 4 ++ [45] ++ h.drop 20

/-- `_validate_uuid`, `client/_options.py:383-384`; `none` is `ValueError`, that `Type.__call__` (`client/_options.py:372-377`) raises again with another
message, and that stops the command. -/
def validateUuid (s : Bytes) : Option Bytes := (uuidInt s).map uuidStr

/-! ### The local host -/

/-- What reading `/etc/vdsm/vdsm.id` gives, `client/_ovirt.py:167-177`: the first line, no such file, another `OSError`, or text that is not UTF-8
(`UnicodeDecodeError` is a `ValueError`). -/
inductive VdsmId where
  | line (s : Http.Str)
  | missing
  | osError
  | undecodable

/-- A data center or a host as the engine returns it: its name and id.  `client/_ovirt.py:191`, `206`. -/
structure Entity where
  name : Http.Str
  id : Http.Str
deriving DecidableEq, Repr

/-- The searches of the engine; `none` is an error raised by the SDK.  `client/_ovirt.py:184-186`, `197-198`. -/
structure Searches where
  dataCenters : Http.Str → Option (List Entity)
  hosts : Http.Str → Option (List Entity)

/-- How `find_host` fails.  `client/_ovirt.py:167-189`. -/
inductive HostErr where
  | unicode
  | sdk
  | notAttached
deriving DecidableEq, Repr

/-- Whitespace of `strip()` on ASCII text.  `client/_ovirt.py:169`. -/
def isWhite (c : Char) : Bool := c = ' ' || (9 ≤ c.toNat && c.toNat ≤ 13) || (28 ≤ c.toNat && c.toNat ≤ 31)

/-- `f.readline().strip()`, `client/_ovirt.py:169`; the text of the model is the first line.  Simplified: ASCII. -/
def hardwareId (s : Http.Str) : Http.Str := ((s.dropWhile isWhite).reverse.dropWhile isWhite).reverse

/-- The search for the data center, `client/_ovirt.py:185`. -/
def dcQuery (sd : Http.Str) : Http.Str := "storage.name=".toList ++ sd

/-- The search for the host, `client/_ovirt.py:197`. -/
def hostQuery (hw dc : Http.Str) : Http.Str := "hw_id=".toList ++ hw ++ " and datacenter=".toList ++ dc ++ " and status=Up".toList

/-- `find_host`, `client/_ovirt.py:122-209`. -/
def findHost (vdsm : VdsmId) (E : Searches) (sd : Http.Str) : Except HostErr (Option Entity) :=
  match vdsm with
  | .missing => .ok none
  | .osError => .ok none
  | .undecodable => .error .unicode
  | .line s =>
    match E.dataCenters (dcQuery sd) with
    | none => .error .sdk
    | some [] => .error .notAttached
    | some (dc :: _) =>
      match E.hosts (hostQuery (hardwareId s) dc.name) with
      | none => .error .sdk
      | some [] => .ok none
      | some (h :: _) => .ok (some h)

end Imageio.Ids
