import Verif.Spec.GoClient

/-! Specification of `ovirt-img map`: how programs read their arguments, and what a map of an image is. -/
namespace Imageio.Spec.Go

/-- How programs such as qemu-nbd and qemu-img read their arguments (`getopt_long`): an argument that begins with two dashes is
an option, whose value follows a `=`, or is the next argument if the option needs one (`needs`); an argument that begins with one dash
(and is longer) is a short option; everything after `--` and all the others are no options.  Without a value that is needed:
`none`. -/
def getopt (needs : List Char → Bool) : List (List Char) → Option (List (List Char × Option (List Char)) × List (List Char))
  | [] => some ([], [])
  | ('-' :: '-' :: r) :: rest =>
    if r = [] then some ([], rest)
    else if '=' ∈ r then
      (getopt needs rest).map fun x => ((r.takeWhile (· ≠ '='), some ((r.dropWhile (· ≠ '=')).drop 1)) :: x.1, x.2)
    else if needs r then
      match rest with
      | [] => none
      | v :: rest => (getopt needs rest).map fun x => ((r, some v) :: x.1, x.2)
    else (getopt needs rest).map fun x => ((r, none) :: x.1, x.2)
  | ('-' :: c :: r) :: rest => (getopt needs rest).map fun x => (('-' :: c :: r, none) :: x.1, x.2)
  | a :: rest => (getopt needs rest).map fun x => (x.1, a :: x.2)

/-- The options of qemu-nbd and qemu-img that need a value, as far as used. -/
def NeedsValue (o : List Char) : Bool := o = "shared".toList || o = "format".toList || o = "output".toList

/-- The program with these arguments serves the image `file` of this format, only for reading, to many connections, and goes on
after a connection is closed. -/
structure Serves (args : List (List Char)) (file fmt : List Char) : Prop where
  program : args.head? = some "qemu-nbd".toList
  options : ∃ opts, getopt NeedsValue args.tail = some (opts, [file]) ∧ ("format".toList, some fmt) ∈ opts ∧
    ("read-only".toList, none) ∈ opts ∧ ("persistent".toList, none) ∈ opts ∧ ("shared".toList, some "8".toList) ∈ opts ∧
    ∀ f, ("format".toList, some f) ∈ opts → f = fmt

/-- The program with these arguments prints the information about the image `file` as JSON. -/
structure Asks (args : List (List Char)) (file : List Char) : Prop where
  program : args.take 2 = ["qemu-img".toList, "info".toList]
  options : getopt NeedsValue (args.drop 2) = some ([("output".toList, some "json".toList)], [file])

/-- The JSON value that lists extents. -/
def listing (exts : List (Nat × Nat × Bool)) : Value :=
  .arr (exts.map fun e => .obj [("start".toList, .num e.1), ("length".toList, .num e.2.1), ("zero".toList, .bool e.2.2)])

end Imageio.Spec.Go
