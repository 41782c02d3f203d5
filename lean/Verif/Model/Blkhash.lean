import Verif.Model.Extents
import Verif.Model.Ops
/-!
Model of `ovirt_imageio/_internal/blkhash.py`, `ioutil.c: is_zero` and
`handlers/checksum.py`.

A digest function is any function from bytes to bytes: `hashlib` objects are modelled by the
bytes given to them so far.
-/
namespace Imageio.Blkhash
open Imageio.Http Imageio.Images Imageio.Extents

/-! ## `ioutil.c` -/

/-- `ioutil.c:116-131`: the loop over the first 16 bytes and the `memcmp`.  `i` is the number of
bytes left to check one by one, and `p` is the rest of the buffer. -/
def isZeroFrom (buf : Bytes) : (i : Nat) → (p : Bytes) → Bool
  | 0, p => buf.take p.length == p
  | _ + 1, [] => true
  | i + 1, x :: p => if x ≠ 0 then false else isZeroFrom buf i p

/-- `ioutil.c:91-137` `is_zero`. -/
def isZero (buf : Bytes) : Bool := isZeroFrom buf 16 buf

/-! ## `blkhash.py` -/

/-- `blkhash.py:37-44` a `Hash` object: the block size, the digest of a zero block, and the bytes
given to `self._hash`. -/
structure Hash where
  blockSize : Nat
  zeroDigest : Bytes
  input : Bytes
deriving DecidableEq, Repr

/-- `blkhash.py:37-44` `Hash.__init__`. -/
def Hash.init (func : Bytes → Bytes) (blockSize : Nat) : Hash :=
  ⟨blockSize, func (zeros blockSize), []⟩

/-- `blkhash.py:46-48` `Hash.update`. -/
def Hash.update (func : Bytes → Bytes) (h : Hash) (block : Bytes) : Hash :=
  { h with input := h.input ++ func block }

/-- `blkhash.py:50-57` `Hash.zero`. -/
def Hash.zero (func : Bytes → Bytes) (h : Hash) (count : Nat) : Hash :=
  if count = h.blockSize then { h with input := h.input ++ h.zeroDigest }
  else { h with input := h.input ++ func (zeros count) }

/-- `blkhash.py:59-63` `Hash.digest`. -/
def Hash.digest (func : Bytes → Bytes) (h : Hash) : Bytes := func h.input

/-- `blkhash.py:115-125` `Block`. -/
structure Block where
  start : Nat
  length : Nat
  zero : Bool
deriving DecidableEq, Repr

/-- `blkhash.py:127-140` `Block.merge`: the new `self` and the new `other`. -/
def Block.merge (self other : Block) (blockSize : Nat) : Block × Block :=
  let stolen := min (blockSize - self.length) other.length
  ({ self with length := self.length + stolen, zero := self.zero && other.zero },
   { other with start := other.start + stolen, length := other.length - stolen })

/-- `blkhash.py:142-153` `Block.split`: the new block and the rest. -/
def Block.split (b : Block) (blockSize : Nat) : Block × Block :=
  ({ b with length := blockSize },
   { b with start := b.start + blockSize, length := b.length - blockSize })

/-- `blkhash.py:197-199` yield the complete blocks of `current`.  The block size is positive (at
least 1 MiB in the handler); for 0 the python loop never ends. -/
def completeBlocks (blockSize : Nat) (current : Block) : List Block × Block :=
  if _h : 0 < blockSize ∧ blockSize ≤ current.length then
    let r := completeBlocks blockSize (current.split blockSize).2
    ((current.split blockSize).1 :: r.1, r.2)
  else ([], current)
termination_by current.length
decreasing_by have := _h; simp only [Block.split]; omega

/-- `blkhash.py:197-203` the rest of the loop body: the blocks yielded, and the partial block. -/
def splitCurrent (blockSize : Nat) (current : Block) : List Block × Option Block :=
  let (bs, rest) := completeBlocks blockSize current
  (bs, if rest.length ≠ 0 then some rest else none)

/-- `blkhash.py:183-206` the loop of `split`: `partial_` is the partial block. -/
def splitLoop (blockSize : Nat) : (partial_ : Option Block) → List ZeroExtent → List Block
  | none, [] => []
  | some p, [] => [p]
  | none, e :: es =>
    let (bs, partial_) := splitCurrent blockSize ⟨e.start, e.length, e.zero⟩
    bs ++ splitLoop blockSize partial_ es
  | some p, e :: es =>
    let (p, current) := p.merge ⟨e.start, e.length, e.zero⟩ blockSize
    if p.length < blockSize then splitLoop blockSize (some p) es
    else
      let (bs, partial_) := splitCurrent blockSize current
      p :: (bs ++ splitLoop blockSize partial_ es)

/-- `blkhash.py:160-206` `split`. -/
def split (extents : List ZeroExtent) (blockSize : Nat) : List Block := splitLoop blockSize none extents

/-- `blkhash.py:108-112` `_read_block` from a file with the remaining content `rest`: fill a buffer
of `length` bytes.  A read returns `short i + 1` bytes (read number `i`) if so many are wanted and
available.  At the end of the file the python loop never ends. -/
def readBlock (short : Nat → Nat) : (fuel i : Nat) → (length : Nat) → (rest : Bytes) →
    Except Err (Bytes × Bytes × Nat)
  | fuel, i, length, rest =>
    if length = 0 then .ok ([], rest, i)
    else
      match fuel with
      | 0 => .error .stuck
      | fuel + 1 =>
        let n := min (min (short i + 1) length) rest.length
        match readBlock short fuel (i + 1) (length - n) (rest.drop n) with
        | .error e => .error e
        | .ok (d, rest', i') => .ok (rest.take n ++ d, rest', i')

/-- `blkhash.py:88-98` the loop over the blocks of a file; `length` bytes are left. -/
def checksumLoop (func : Bytes → Bytes) (short : Nat → Nat) (blockSize : Nat) (detect : Bool) :
    (fuel i length : Nat) → (rest : Bytes) → Hash → Except Err Hash
  | fuel, i, length, rest, h =>
    if blockSize ≤ length then
      match fuel with
      | 0 => .error .stuck
      | fuel + 1 =>
        match readBlock short blockSize i blockSize rest with
        | .error e => .error e
        | .ok (block, rest, i) =>
          let h := if detect && isZero block then h.zero func blockSize else h.update func block
          checksumLoop func short blockSize detect fuel i (length - blockSize) rest h
    else if length ≠ 0 then
      match readBlock short length i length rest with
      | .error e => .error e
      | .ok (block, _, _) => .ok (h.update func block)
    else .ok h

/-- `blkhash.py:66-105` `checksum` of a file with this content.  The file does not change
meanwhile.  The hexadecimal form of the digest is not modelled. -/
def checksum (func : Bytes → Bytes) (short : Nat → Nat) (blockSize : Nat) (detect : Bool)
    (content : Bytes) : Except Err Bytes :=
  match checksumLoop func short blockSize detect content.length 0 content.length content
      (Hash.init func blockSize) with
  | .error e => .error e
  | .ok h => .ok (h.digest func)

/-! ## `handlers/checksum.py` -/

/-- State of the checksum operation, `checksum.py:105-110`: the backend, the buffer, the hash,
`_done` and the number of blocks completed. -/
structure OpState (σ : Type) where
  src : σ
  buf : Bytes
  hash : Hash
  done : Nat
  chunks : Nat

/-- `checksum.py:127-141` one block.  The read may be short: the rest of the buffer is left as it
was, and the whole view is hashed. -/
def opBlock {σ : Type} (B : Backend σ) (func : Bytes → Bytes) (detect : Bool) (cancel : Nat → Bool)
    (b : Block) (st : OpState σ) : Except Err Unit × OpState σ :=
  let next := fun (st : OpState σ) (h : Hash) =>
    let st' := { st with hash := h, done := st.done + b.length, chunks := st.chunks + 1 }
    if cancel st.chunks then ((.error .canceled : Except Err Unit), st') else (.ok (), st')
  if b.zero then next st (st.hash.zero func b.length)
  else
    match B.seek st.src b.start with
    | (.error e, s') => (.error e, { st with src := s' })
    | (.ok (), s') =>
      match B.readinto s' (st.buf.take b.length).length with
      | (.error e, s') => (.error e, { st with src := s' })
      | (.ok data, s') =>
        let st := { st with src := s', buf := data ++ st.buf.drop data.length }
        let view := st.buf.take b.length
        if detect && isZero view then next st (st.hash.zero func b.length)
        else next st (st.hash.update func view)

/-- `checksum.py:126-141` the loop over the blocks. -/
def opBlocks {σ : Type} (B : Backend σ) (func : Bytes → Bytes) (detect : Bool) (cancel : Nat → Bool) :
    List Block → OpState σ → Except Err Unit × OpState σ
  | [], st => (.ok (), st)
  | b :: bs, st =>
    match opBlock B func detect cancel b st with
    | (.error e, st) => (.error e, st)
    | (.ok (), st) => opBlocks B func detect cancel bs st

/-- `checksum.py:112-147` `Operation._run`.  `extents` is the list of extents of the backend; an
exception while the extents are generated is not modelled here.  The result is the digest. -/
def opRun {σ : Type} (B : Backend σ) (func : Bytes → Bytes) (detect : Bool) (cancel : Nat → Bool)
    (extents : List ZeroExtent) (buf : Bytes) (s : σ) : Except Err Bytes × OpState σ :=
  let (r, st) := opBlocks B func detect cancel (split extents buf.length)
    ⟨s, buf, Hash.init func buf.length, 0, 0⟩
  (match r with
   | .error e => .error e
   | .ok () => .ok (st.hash.digest func), st)

/-- `checksum.py:21-22` -/
def defaultBlockSize : Nat := 4 * 1024 * 1024
/-- `MIN_BLOCK_SIZE`, `handlers/checksum.py:21`. -/
def minBlockSize : Nat := defaultBlockSize / 4
/-- `MAX_BLOCK_SIZE`, `handlers/checksum.py:22`. -/
def maxBlockSize : Nat := defaultBlockSize * 4

/-- `checksum.py:44-59` the block size of a request. -/
def reqBlockSize (query : List (Str × Str)) : Except HErr Nat :=
  let size : Option Int :=
    match queryGet query (lit "block_size") with
    | none => some defaultBlockSize
    | some v => pyInt v
  match size with
  | none => .error (.http 400)
  | some n =>
    if ¬ ((minBlockSize : Int) ≤ n ∧ n ≤ maxBlockSize) then .error (.http 400)
    else if n % 4096 ≠ 0 then .error (.http 400)
    else .ok n.toNat

/-- The response of the checksum request, `checksum.py:143-147`. -/
structure Response where
  algorithm : Str
  blockSize : Nat
  checksum : Bytes
deriving DecidableEq, Repr

/-- `checksum.py:34-81` `Checksum.get`.  `funcs` gives the digest function of every algorithm in
`hashlib.algorithms_available`.  Simplification: algorithms in this list that `hashlib` cannot use
this way (`getattr` fails, or the digest needs a length) are only in `Model/Algorithms`.  The buffer is a new
anonymous mapping, full of zeros (`util.py:48-59`).  The result `none` is the JSON value null. -/
def getChecksum {σ : Type} (B : Backend σ) (a : Access) (algorithms : List Str)
    (funcs : Str → Bytes → Bytes) (ticketId : Str) (query : List (Str × Str))
    (extents : List ZeroExtent) (s : σ) (c : Conn) : Except HErr (Option Response) × σ × Conn :=
  if ticketId = [] then (.error (.http 400), s, c)
  else
    match enumQuery query (lit "algorithm") algorithms (lit "blake2b") with
    | .error e => (.error e, s, c)
    | .ok algorithm =>
      match reqBlockSize query with
      | .error e => (.error e, s, c)
      | .ok blockSize =>
        match a.auth with
        | some (.authorization _) => (.error (.http 403), s, c)
        | some _ => (.error .other, s, c)
        | none =>
          let op := fun (x : σ × Option Bytes) =>
            match opRun B (funcs algorithm) true a.cancel extents (zeros blockSize) x.1 with
            | (.ok d, st) => ((.ok () : Except Err Unit), (st.src, some d))
            | (.error e, st) => (.error e, (st.src, none))
          match ticketRun a op (s, none) with
          | (.ok (), (s, some d)) => (.ok (some ⟨algorithm, blockSize, d⟩), s, c)
          | (.ok (), (s, none)) => (.ok none, s, c)
          | (.error e, (s, _)) =>
            match e with
            | .authorization _ => (.error (.http 403), s, c.close)
            | .os _ => (.error .socket, s, c)
            | _ => (.error .other, s, c)

end Imageio.Blkhash
