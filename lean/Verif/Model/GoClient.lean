import Verif.Model.HttpBackend

/-!
The Go code: the HTTP backend of the module `imageio`, the NBD backend and the map command of
`ovirt-img`.

Panics are values.  Simplifications: the transport of `net/http` sends one request for every call of
`Do`; libnbd is the environment; the pointers of the list of extents are not modelled.
-/
namespace Imageio.GoClient
open HttpBackend Http Images

/-- The values of `error` that matter here.  `go/imageio/http/http.go:72-102`. -/
inductive GoErr where
  | eof
  | other
  | panic
deriving DecidableEq, Repr

/-- Arithmetic of `uint64`.  `go/imageio/http/http.go:81-87`. -/
def u64 (n : Int) : Nat := (n % (2 ^ 64 : Int)).toNat

/-- Arithmetic of `int64`.  `go/imageio/http/http.go:91`, `117`. -/
def i64 (n : Int) : Int := (n + 2 ^ 63) % (2 ^ 64 : Int) - 2 ^ 63

/-! ### HTTP backend -/

/-- `Backend`, `go/imageio/http/http.go:17-22`; the start and length of the extents, the zero flag is
not used by `Size` and `ReadAt`. -/
structure Backend where
  size : Nat
  extents : List (Nat × Nat)
deriving DecidableEq, Repr

/-- `getExtents`, `go/imageio/http/http.go:140-162`.  Simplification: failures of the request are
failures of the extents of the server; the request is not sent over `Net`. -/
def getExtents {σ : Type} (S : Server σ) (b : Backend) (w : World σ) :
    Except GoErr Unit × Backend :=
  match S.extents w.srv with
  | .error _ => (.error .other, b)
  | .ok exts => (.ok (), { b with extents := exts })

/-- `Size`, `go/imageio/http/http.go:45-58`; the last extent of an empty list panics. -/
def sizeOf {σ : Type} (S : Server σ) (b : Backend) (w : World σ) : Except GoErr Nat × Backend :=
  if b.size = 0 then
    match getExtents S b w with
    | (.error e, b) => (.error e, b)
    | (.ok (), b) =>
      match b.extents.getLast? with
      | none => (.error .panic, b)
      | some last =>
        let b := { b with size := u64 (last.1 + last.2) }
        (.ok b.size, b)
  else (.ok b.size, b)

/-- The Range header, `go/imageio/http/http.go:115-118`. -/
def goRange (offset length : Int) : Str :=
  "bytes=".toList ++ fmtInt offset ++ '-' :: fmtInt (i64 (offset + length - 1))

/-- `get`, `go/imageio/http/http.go:109-138`: the body of the response. -/
def getRange {σ : Type} (S : Server σ) (offset length : Int) (w : World σ) :
    Except GoErr Bytes × World σ :=
  match getRequest S (some (goRange offset length)) w with
  | (.error _, w) => (.error .other, w)
  | (.ok r, w) =>
    if r.status ≠ 206 then (.error .other, w)
    else if r.length ≠ length then (.error .other, w)
    else (.ok r.body, w)

/-- `io.ReadFull(body, buf)`: all the bytes, or an error for a body that ends before.
`go/imageio/http/http.go:97-99`. -/
def readFull (body : Bytes) (n : Nat) : Except GoErr Bytes :=
  if body.length < n then .error .other else .ok (body.take n)

/-- The results of `ReadAt`: the number of bytes, the error, and the bytes written at the start of
the buffer.  `go/imageio/http/http.go:72`. -/
structure ReadResult where
  n : Nat
  err : Option GoErr
  data : Bytes
deriving DecidableEq, Repr

/-- `ReadAt` with a buffer of `len` bytes, `go/imageio/http/http.go:72-102`. -/
def readAt {σ : Type} (S : Server σ) (b : Backend) (len : Nat) (off : Int) (w : World σ) :
    ReadResult × Backend × World σ :=
  match sizeOf S b w with
  | (.error e, b) => (⟨0, some e, []⟩, b, w)
  | (.ok size, b) =>
    if u64 off > size then (⟨0, some .eof, []⟩, b, w)
    else
      let long := u64 (u64 off + len) > size
      let len := if long then u64 (size - u64 off) else len
      match getRange S off len w with
      | (.error e, w) => (⟨0, some e, []⟩, b, w)
      | (.ok body, w) =>
        match readFull body len with
        | .error e => (⟨0, some e, body⟩, b, w)
        | .ok d => (⟨len, if long then some .eof else none, d⟩, b, w)

/-! ### NBD backend -/

/-- What a call of `BlockStatus` does: the callback gets entries for `base:allocation` (no entries
if it is not called), `EINTR`, or another error.  `go/ovirt-img/nbd/nbd.go:141-160`. -/
inductive Reply where
  | entries (e : List Nat)
  | eintr
  | error
deriving DecidableEq, Repr

/-- The results of a function that may wait for the server forever.
`go/ovirt-img/nbd/nbd.go:99`. -/
inductive Outcome (α : Type) where
  | done (a : α)
  | error
  | panic
  | waiting
deriving DecidableEq, Repr

/-- The NBD server: what it does for the following calls, for any offset and length.
`go/ovirt-img/nbd/nbd.go:153`. -/
abbrev Replies := List (Nat → Nat → Reply)

/-- `maxExtent`, `go/ovirt-img/nbd/nbd.go:18`. -/
def maxExtent : Nat := 1024 * 1024 * 1024

/-- The inner loop of `Extents`, `go/ovirt-img/nbd/nbd.go:127-132`; `none` is the panic for
`entries[i+1]` after the end.  The conversion to `uint32` keeps the number, entries are `uint32`. -/
def collect (size : Nat) : List Nat → Nat → List Nat → Option (Nat × List Nat)
  | [], offset, acc => some (offset, acc)
  | [_], offset, acc => if offset < size then none else some (offset, acc)
  | l :: f :: t, offset, acc =>
    if offset < size then
      let length := min (size - offset) l
      collect size t (offset + length) (acc ++ [length, f])
    else some (offset, acc)

/-- `Extents` and `blockStatus`, `go/ovirt-img/nbd/nbd.go:99-163`; `acc` is `result.entries`. -/
def extentsLoop (size : Nat) : Replies → Nat → List Nat → Outcome (List Nat)
  | replies, offset, acc =>
    if offset < size then
      match replies with
      | [] => .waiting
      | f :: t =>
        match f offset (min (size - offset) maxExtent) with
        | .error => .error
        | .eintr => extentsLoop size t offset acc
        | .entries e =>
          match collect size e offset acc with
          | none => .panic
          | some (offset, acc) => extentsLoop size t offset acc
    else .done acc
termination_by structural replies => replies

/-- `Extents`, `go/ovirt-img/nbd/nbd.go:99-136`. -/
def nbdExtents (size : Nat) (replies : Replies) : Outcome (List Nat) :=
  extentsLoop size replies 0 []

/-- `Extent`, `go/imageio/extent.go:7-17`. -/
structure Extent where
  start : Nat
  length : Nat
  zero : Bool
deriving DecidableEq, Repr

/-- The loop that merges pairs with the same flags, `go/ovirt-img/nbd/nbd.go:231-234`: the length
and the entries that are left. -/
def mergeNext (flags : Nat) : Nat → List Nat → Nat × List Nat
  | length, l :: f :: t => if flags = f then mergeNext flags (length + l) t else (length, l :: f :: t)
  | length, e => (length, e)

theorem mergeNext_length (flags : Nat) : ∀ length e, (mergeNext flags length e).2.length ≤ e.length
  | _, [] => Nat.le_refl _
  | _, [_] => Nat.le_refl _
  | length, l :: f :: t => by
    unfold mergeNext
    split
    · have := mergeNext_length flags (length + l) t
      simp only [List.length_cons]; omega
    · exact Nat.le_refl _

/-- All the values of an `ExtentsResult`: `Next` and `Value` until `Next` is false,
`go/ovirt-img/nbd/nbd.go:218-241`; `start` and the entries from `next` are the state.
`STATE_ZERO` is 2.  Simplification: lengths are not reduced to 64 bits. -/
def values (start : Nat) : List Nat → List Extent
  | l :: f :: t =>
    let m := mergeNext f l t
    ⟨start, m.1, f &&& 2 == 2⟩ :: values (start + m.1) m.2
  | _ => []
termination_by e => e.length
decreasing_by
  have := mergeNext_length f l t
  simp only [List.length_cons]; omega

/-! ### The map command -/

/-- `%v` of a boolean.  `go/ovirt-img/map.go:49`, `55`. -/
def fmtBool (b : Bool) : Str := if b then "true".toList else "false".toList

/-- One extent, `go/ovirt-img/map.go:49`, `55`. -/
def formatExtent (e : Extent) : Str :=
  "{\"start\": ".toList ++ fmtNat e.start ++ ", \"length\": ".toList ++ fmtNat e.length ++
    ", \"zero\": ".toList ++ fmtBool e.zero ++ "}".toList

/-- The loop of `writeExtents`, `go/ovirt-img/map.go:53-61`; `pre` is what was added to the format. -/
def writeLoop (pre : Str) (first : Bool) : List Extent → Str
  | [] => []
  | e :: t =>
    pre ++ formatExtent e ++
      (if first then writeLoop (",\n ".toList ++ pre) false t else writeLoop pre false t)

/-- `writeExtents`, `go/ovirt-img/map.go:47-64`. -/
def writeExtents (exts : List Extent) : Str :=
  "[".toList ++ writeLoop [] true exts ++ "]\n".toList

end Imageio.GoClient
