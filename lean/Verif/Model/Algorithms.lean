import Verif.Model.Blkhash
/-!
The algorithms of checksums: `ovirt_imageio/_internal/handlers/checksum.py` with the part of `blkhash.py` that looks up the
digest function.  `Model/Blkhash` has the checksum itself, for a digest function that can be used.
-/
namespace Imageio.Algorithms
open Imageio.Http Imageio.Images Imageio.Extents Imageio.Blkhash

/-- The constructors of `hashlib`, of python: with a fixed length of the digest, with the argument `digest_size` (the length
that is used without it is `none`), or with a digest that needs a length, like `shake_128`.  Used in `blkhash.py:39-44`. -/
inductive Constructor
  | fixed (digest : Bytes → Bytes)
  | sized (digest : Option Nat → Bytes → Bytes)
  | lengthNeeded

/-- The module `hashlib`, of python: `algorithms_available`, a set, as a list in some order, and the attributes.  Used in
`checksum.py:18`, `blkhash.py:39`. -/
structure Library where
  available : List Str
  attr : Str → Option Constructor

/-- `blkhash.py:37-44` `Hash.__init__`: the function used for the digests.  The digest of the zero block (line 44) is the first
that is computed, so digests that need a length fail here.  Simplification: attributes of `hashlib` are constructors or
missing; the names that `ALGORITHMS` accepts are no names of other attributes. -/
def newHash (lib : Library) (algorithm : Str) (digestSize : Option Nat) : Except Err (Bytes → Bytes) :=
  match lib.attr algorithm with
  | none => .error (.exception "AttributeError")
  | some (.fixed f) =>
    if digestSize.getD 0 ≠ 0 then .error (.exception "TypeError") else .ok f
  | some (.sized f) => if digestSize.getD 0 ≠ 0 then .ok (f digestSize) else .ok (f none)
  | some .lengthNeeded => .error (.exception "TypeError")

/-- `checksum.py:114-119`: the length of the digest.  `blkhash.py:15` -/
def digestSize (algorithm : Str) : Option Nat :=
  if (lit "blake2").isPrefixOf algorithm then some 32 else none

/-- `checksum.py:112-124`, the first lines of `Operation._run`. -/
def func (lib : Library) (algorithm : Str) : Except Err (Bytes → Bytes) := newHash lib algorithm (digestSize algorithm)

/-- `blkhash.py:66-83` `checksum`: the function used for the digests, with the arguments of the caller. -/
def offline (lib : Library) (algorithm : Option Str) (size : Option (Option Nat)) : Except Err (Bytes → Bytes) :=
  newHash lib (algorithm.getD (lit "blake2b")) (size.getD (some 32))

/-- `checksum.py:93-95` `Algorithms.get`: the names in the answer, `sorted(ALGORITHMS)`. -/
def listed (lib : Library) : List Str := lib.available.mergeSort (· ≤ ·)

/-- `checksum.py:34-81` `Checksum.get`, as in `Blkhash.getChecksum`, with the lookup of the algorithm. -/
def get {σ : Type} (B : Backend σ) (a : Access) (lib : Library) (ticketId : Str) (query : List (Str × Str))
    (extents : List ZeroExtent) (s : σ) (c : Conn) : Except HErr (Option Response) × σ × Conn :=
  if ticketId = [] then (.error (.http 400), s, c)
  else
    match enumQuery query (lit "algorithm") lib.available (lit "blake2b") with
    | .error e => (.error e, s, c)
    | .ok algorithm =>
      match reqBlockSize query with
      | .error e => (.error e, s, c)
      | .ok blockSize =>
        match a.auth with
        | some (.authorization _) => (.error (.http 403), s, c)
        | some _ => (.error .other, s, c)
        | none =>
          let op := fun (x : σ × Option Bytes) =>
            match func lib algorithm with
            | .error e => ((.error e : Except Err Unit), (x.1, none))
            | .ok f =>
              match opRun B f true a.cancel extents (zeros blockSize) x.1 with
              | (.ok d, st) => (.ok (), (st.src, some d))
              | (.error e, st) => (.error e, (st.src, none))
          match ticketRun a op (s, none) with
          | (.ok (), (s, some d)) => (.ok (some ⟨algorithm, blockSize, d⟩), s, c)
          | (.ok (), (s, none)) => (.ok none, s, c)
          | (.error e, (s, _)) =>
            match e with
            | .authorization _ => (.error (.http 403), s, c.close)
            | .os _ => (.error .socket, s, c)
            | _ => (.error .other, s, c)

end Imageio.Algorithms
