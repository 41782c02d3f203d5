import Verif.Model.GoClient
/-!
The extents and the size that the HTTP backend of the Go client keeps: `go/imageio/http/http.go` `Size`, `Extents` and
`getExtents`, with the objects that the results share with the backend.  `Model/GoClient` has the values of one call.
-/
namespace Imageio.GoExtents
open Imageio.GoClient

/-- The fields of the backend, `go/imageio/http/http.go:17-22`, with the memory: `extents` is a slice of pointers, `slots` are
the pointers in its array and `len` is its length.  `heap` has the objects, the numbers from `next` are not used. -/
structure Backend where
  size : Nat
  slots : List Nat
  len : Nat
  heap : Nat → Extent
  next : Nat

/-- `Connect`, `go/imageio/http/http.go:26-42`: nothing is known.  `heap` is any memory. -/
def Backend.new (heap : Nat → Extent) (next : Nat) : Backend := ⟨0, [], 0, heap, next⟩

/-- The answer of the server to one request of the extents.  `failed` is any failure before the text is decoded: of the network,
another status, or a text that is no JSON; `json.Unmarshal` checks the text first.  `items` is a list, where `none` is an item
of the wrong type.  Simplification: items with missing fields, and null, are not modelled.
`go/imageio/http/http.go:140-160`. -/
inductive Answer where
  | failed
  | items (l : List (Option Extent))
deriving DecidableEq, Repr

/-- A changed object, `go/imageio/http/http.go:156`. -/
def put (heap : Nat → Extent) (r : Nat) (e : Extent) : Nat → Extent := fun k => if k = r then e else heap k

/-- `json.Unmarshal` of the items to a slice of pointers, from the package `encoding/json` of Go: the objects of the slice are
used again, and only then new ones are made.  An item of the wrong type leaves its object as it is.
Called from `go/imageio/http/http.go:156`. -/
def store : List Nat → List (Option Extent) → (Nat → Extent) → Nat → List Nat × (Nat → Extent) × Nat
  | slots, [], heap, next => (slots, heap, next)
  | r :: slots, x :: items, heap, next =>
    let y := store slots items (match x with | some e => put heap r e | none => heap) next
    (r :: y.1, y.2)
  | [], x :: items, heap, next =>
    let y := store [] items (put heap next (x.getD ⟨0, 0, false⟩)) (next + 1)
    (next :: y.1, y.2)

/-- `getExtents`, `go/imageio/http/http.go:140-162`: false is an error.  An item of the wrong type is an error, which
`json.Unmarshal` returns after it decoded the other items.  An empty list makes a new slice. -/
def getExtents (b : Backend) : Answer → Bool × Backend
  | .failed => (false, b)
  | .items [] => (true, { b with slots := [], len := 0 })
  | .items l =>
    let y := store b.slots l b.heap b.next
    (l.all Option.isSome, { b with slots := y.1, len := l.length, heap := y.2.1, next := y.2.2 })

/-- The methods, `go/imageio/http/http.go:45`, `62`. -/
inductive Call where
  | size | extents
deriving DecidableEq, Repr

/-- What a method returns; the wrapper of extents has the pointers.  `go/imageio/http/http.go:45-69`,
`go/imageio/extent.go:33-41`. -/
inductive Result where
  | error
  | panic
  | size (n : Nat)
  | extents (w : List Nat)
deriving DecidableEq, Repr

/-- `Size` and `Extents`, `go/imageio/http/http.go:45-69`, with the answer of the server if it is asked. -/
def call (b : Backend) : Call → Answer → Result × Backend
  | .size, a =>
    if b.size ≠ 0 then (.size b.size, b)
    else
      match getExtents b a with
      | (false, b) => (.error, b)
      | (true, b) =>
        match (b.slots.take b.len).getLast? with
        | none => (.panic, b)
        | some r =>
          let n := u64 ((b.heap r).start + (b.heap r).length : Nat)
          (.size n, { b with size := n })
  | .extents, a =>
    if b.len ≠ 0 then (.extents (b.slots.take b.len), b)
    else
      match getExtents b a with
      | (false, b) => (.error, b)
      | (true, b) => (.extents (b.slots.take b.len), b)

/-- A sequence of calls, `go/imageio/http/http.go:45-69`. -/
def run (b : Backend) : List (Call × Answer) → List Result × Backend
  | [] => ([], b)
  | (c, a) :: r =>
    let x := call b c a
    let y := run x.2 r
    (x.1 :: y.1, y.2)

end Imageio.GoExtents
