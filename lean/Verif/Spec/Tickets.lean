import Verif.Model.Tickets

/-!
Specification of valid tickets, in terms of the fields of a JSON object.  Uses the types of
the model (JSON documents, parsed URLs, the ticket), not its functions, except for the URL
parser.
-/
namespace Imageio.Spec.Tickets
open Imageio.Images Imageio.Tickets Imageio.Url

/-- The object has the field, and its last value is `v`. -/
def Field (d : List (List Char × Json)) (key : String) (v : Json) : Prop :=
  ∃ pre post, d = pre ++ (key.toList, v) :: post ∧ ∀ f ∈ post, f.1 ≠ key.toList

/-- The object does not have the field. -/
def Absent (d : List (List Char × Json)) (key : String) : Prop := ∀ f ∈ d, f.1 ≠ key.toList

/-- What the server takes for an integer: an integer, or a boolean. -/
inductive IntLike : Json → Int → Prop
  | int {n : Int} : IntLike (.int n) n
  | bool {b : Bool} : IntLike (.bool b) (if b then 1 else 0)

/-- An optional field: absent, with the default value, or of the type `P`. -/
def Opt {α : Type} (d : List (List Char × Json)) (key : String) (P : Json → α → Prop)
    (default v : α) : Prop :=
  (Absent d key ∧ v = default) ∨ ∃ j, Field d key j ∧ P j v

/-- The schemes of the supported storage. -/
def schemes : List String := ["file", "http", "https", "nbd"]

/-- The document is a valid ticket, and `t` are its fields. -/
def Valid (netlocOk : List Char → Bool) (inactivity : Int) (msg : Json) (t : Fields) : Prop :=
  ∃ d, msg = .obj d ∧
    Field d "uuid" (.str t.uuid) ∧
    (∃ v, Field d "size" v ∧ IntLike v t.size) ∧
    Field d "ops" (.arr t.ops) ∧
    (∃ v, Field d "timeout" v ∧ IntLike v t.timeout) ∧
    Opt d "inactivity_timeout" IntLike inactivity t.inactivityTimeout ∧
    (∃ u, Field d "url" (.str u) ∧ urlparse netlocOk u = some t.url ∧
      String.ofList t.url.scheme ∈ schemes) ∧
    Opt d "transfer_id" (fun j v => j = .str v) (lit "(ticket/" ++ t.uuid.take 18 ++ [')'])
      t.transferId ∧
    Opt d "filename" (fun j v => ∃ s, j = .str s ∧ v = some s) none t.filename ∧
    Opt d "sparse" (fun j v => j = .bool v) false t.sparse ∧
    Opt d "dirty" (fun j v => j = .bool v) false t.dirty

/-- The operation an image method needs: `images.py:53,91,178,207`. -/
def needs : String → Option String
  | "GET" => some "read"
  | "PUT" => some "write"
  | "PATCH" => some "write"
  | _ => none

end Imageio.Spec.Tickets
