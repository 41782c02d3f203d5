import Verif.Spec.Disk
/-!
The interface of the storage backends as used by the operations (`ops.py`), and the
contract the operations rely on.  The concrete backends are in `Model/Memory.lean`,
`Model/File.lean` and `Model/NbdBackend.lean`; they are shown to meet the contract.
-/
namespace Imageio

/-- The methods of a backend object used by `ops.py` (`backends/memory.py:70-191`,
`backends/file.py:72-185`, `backends/nbd.py:93-221`).

Simplifications: `readinto` gets the length of the view and returns the bytes it stored in
it; `write` gets the bytes and the distance `addr` of the first byte from the start of an
aligned buffer, since direct I/O depends on the memory alignment; `seek` is only
`seek(pos)` with `os.SEEK_SET`, since `ops.py` never uses another mode. -/
structure Backend (σ : Type) where
  blockSize : Nat
  tell : σ → Nat
  seek : σ → Nat → Res σ Unit
  readinto : σ → Nat → Res σ Bytes
  write : σ → (addr : Nat) → Bytes → Res σ Nat
  zero : σ → Nat → Res σ Nat
  flush : σ → Res σ Unit
  size : σ → Nat

/-- The file like object an upload reads from (`http.Request.readinto`, `http.py:445-456`):
`readinto` gets the length of the view, and returns the bytes stored in it. -/
structure Source (τ : Type) where
  readinto : τ → Nat → Res τ Bytes

namespace Spec

/-- An error that comes from the storage or from the network, and not from the operation.
`OSError` of the system calls in `backends/file.py`, errors of the server in `backends/nbd.py` and `backends/http.py`; `ops.py:80-255` raises its own errors. -/
def External : Err → Prop
  | .os _ => True
  | .exception _ => True
  | _ => False

/-- The offset `i` is one of the `n` bytes at `off`.  Specification, used for the ranges of `ops.py:27-32`. -/
def InRange (off n i : Nat) : Prop := off ≤ i ∧ i < off + n

/-- What a failed call that uses the `n` bytes at `off` may have done: it never changes other
bytes, and never cuts the image.  Specification; no code. -/
structure Damaged {σ : Type} (Inv : σ → Prop) (content : σ → Nat → Byte) (size : σ → Nat)
    (off n : Nat) (s s' : σ) : Prop where
  inv : Inv s'
  outside : ∀ i, ¬ InRange off n i → content s' i = content s i
  size_ge : size s ≤ size s'

/-- What the operations rely on: an open backend is a byte map with a position.  Calls may
fail, reads and writes may be short.  A short read ends at the end of a block or at the end
of the image.  Specification of the methods that `ops.py:80-255` calls. -/
structure Lawful {σ : Type} (B : Backend σ) where
  /-- The states covered by the contract. -/
  Inv : σ → Prop
  /-- What a read of the storage would return, zero after the end. -/
  content : σ → Nat → Byte
  /-- What is left on the storage after a crash of the host. -/
  durable : σ → Nat → Byte
  /-- A call that uses bytes before offset `k` may fail. -/
  mayFail : Nat → Prop
  block_pos : 0 < B.blockSize
  seek : ∀ s n r s', Inv s → B.seek s n = (r, s') →
    r = .ok () ∧ Inv s' ∧ B.tell s' = n ∧ content s' = content s ∧ durable s' = durable s ∧
      B.size s' = B.size s
  readinto : ∀ s n d s', Inv s → B.tell s % B.blockSize = 0 → n % B.blockSize = 0 →
    B.readinto s n = (.ok d, s') →
    Inv s' ∧ content s' = content s ∧ durable s' = durable s ∧ B.size s' = B.size s ∧
      d.length ≤ n ∧ d = load (content s) (B.tell s) d.length ∧
      B.tell s' = B.tell s + d.length ∧ B.tell s + d.length ≤ max (B.tell s) (B.size s) ∧
      (d = [] → n = 0 ∨ B.size s ≤ B.tell s) ∧
      (d.length % B.blockSize = 0 ∨ B.size s ≤ B.tell s + d.length)
  readinto_err : ∀ s n e s', Inv s → B.tell s % B.blockSize = 0 → n % B.blockSize = 0 →
    B.readinto s n = (.error e, s') →
    External e ∧ mayFail (B.tell s + n) ∧ Inv s' ∧
      content s' = content s ∧ durable s' = durable s ∧ B.size s' = B.size s
  write : ∀ s a d n s', Inv s → d ≠ [] →
    (B.tell s % B.blockSize = 0 → B.blockSize ≤ d.length → a % B.blockSize = 0) →
    B.write s a d = (.ok n, s') →
    Inv s' ∧ 0 < n ∧ n ≤ d.length ∧ B.tell s' = B.tell s + n ∧
      content s' = store (content s) (B.tell s) (d.take n) ∧ B.size s ≤ B.size s' ∧
      B.size s' ≤ max (B.size s) ((B.tell s + n + B.blockSize - 1) / B.blockSize * B.blockSize)
  write_err : ∀ s a d e s', Inv s → d ≠ [] →
    (B.tell s % B.blockSize = 0 → B.blockSize ≤ d.length → a % B.blockSize = 0) →
    B.write s a d = (.error e, s') →
    External e ∧ mayFail (B.tell s + d.length) ∧
      Damaged Inv content B.size (B.tell s) d.length s s'
  zero : ∀ s c n s', Inv s → 0 < c → B.zero s c = (.ok n, s') →
    Inv s' ∧ 0 < n ∧ n ≤ c ∧ B.tell s' = B.tell s + n ∧
      content s' = store (content s) (B.tell s) (zeros n) ∧ B.size s ≤ B.size s' ∧
      B.size s' ≤ max (B.size s) ((B.tell s + n + B.blockSize - 1) / B.blockSize * B.blockSize)
  zero_err : ∀ s c e s', Inv s → 0 < c → B.zero s c = (.error e, s') →
    External e ∧ mayFail (B.tell s + c) ∧ Damaged Inv content B.size (B.tell s) c s s'
  flush : ∀ s s', Inv s → B.flush s = (.ok (), s') →
    Inv s' ∧ content s' = content s ∧ durable s' = content s ∧ B.tell s' = B.tell s ∧
      B.size s' = B.size s
  flush_err : ∀ s e s', Inv s → B.flush s = (.error e, s') →
    External e ∧ mayFail 0 ∧ Inv s' ∧ content s' = content s ∧ B.size s' = B.size s

/-- The effect of a failed call or operation on a backend.  Specification; no code. -/
abbrev Lawful.Damaged {σ : Type} {B : Backend σ} (L : Lawful B) (off n : Nat) (s s' : σ) : Prop :=
  Spec.Damaged L.Inv L.content B.size off n s s'

/-- A storage call of an operation on `n` bytes at `off` may fail.  Specification; no code. -/
def Lawful.MayFail {σ : Type} {B : Backend σ} (L : Lawful B) (off n : Nat) : Prop :=
  ∃ k, k ≤ (off + n + B.blockSize - 1) / B.blockSize * B.blockSize ∧ L.mayFail k

/-- An upload source: a finite stream of bytes delivered in pieces of any size, an empty
piece means the end of the stream.  Specification of `http.py:445-456`. -/
structure LawfulSource {τ : Type} (S : Source τ) where
  /-- The states covered by the contract. -/
  Inv : τ → Prop
  /-- The bytes that will be delivered. -/
  rest : τ → Bytes
  /-- Reading may fail. -/
  mayFail : Prop
  readinto : ∀ t n d t', Inv t → S.readinto t n = (.ok d, t') →
    d.length ≤ n ∧ rest t = d ++ rest t' ∧ (0 < n → d = [] → rest t = []) ∧ Inv t'
  readinto_err : ∀ t n e t', Inv t → S.readinto t n = (.error e, t') → External e ∧ mayFail

end Spec
end Imageio
