import Verif.Model.Backend
/-!
Model of `Handler` of `ovirt_imageio/client/_io.py:257-325`: what a worker does with one request,
on two backends.  The copy through `read_from` and `write_to` of the HTTP backend is in
`Model/HttpBackend.lean`.
-/
namespace Imageio.ClientHandler

/-- The buffer after `readinto` stored `d` at the start of it: the other bytes keep their old values.
`client/_io.py:317`, `322`. -/
def fill (buf d : Bytes) : Bytes := d ++ buf.drop d.length

/-- The state of a handler: the source, the destination, and the buffer (`client/_io.py:264-271`). -/
structure St (σ τ : Type) where
  src : σ
  dst : τ
  buf : Bytes

/-- One step of `_generic_copy` with the first `n` bytes of the buffer, `client/_io.py:317-318,321-323`:
the results of `readinto` and `write` are not used.  `addr` is the alignment of the buffer in memory. -/
def copyStep {σ τ : Type} (S : Backend σ) (D : Backend τ) (addr n : Nat) (h : St σ τ) : Res (St σ τ) Unit :=
  match S.readinto h.src n with
  | (.error e, s) => (.error e, { h with src := s })
  | (.ok d, s) =>
    let buf := fill h.buf d
    match D.write h.dst addr (buf.take n) with
    | (.error e, t) => (.error e, ⟨s, t, buf⟩)
    | (.ok _, t) => (.ok (), ⟨s, t, buf⟩)

/-- `_generic_copy`, `client/_io.py:310-323`.  An empty buffer never ends; the model is stuck. -/
def copyLoop {σ τ : Type} (S : Backend σ) (D : Backend τ) (addr step todo : Nat) (h : St σ τ) :
    Res (St σ τ) Unit :=
  if hc : step < todo then
    if h0 : step = 0 then (.error .stuck, h)
    else
      match copyStep S D addr step h with
      | (.error e, h) => (.error e, h)
      | (.ok (), h) => copyLoop S D addr step (todo - step) h
  else copyStep S D addr todo h
termination_by todo

/-- `copy`, `client/_io.py:281-290`, for backends without `read_from` and `write_to`; the progress is
in `Model/ClientIo.lean`. -/
def copy {σ τ : Type} (S : Backend σ) (D : Backend τ) (addr start length : Nat) (h : St σ τ) :
    Res (St σ τ) Unit :=
  match S.seek h.src start with
  | (.error e, s) => (.error e, { h with src := s })
  | (.ok (), s) =>
    match D.seek h.dst start with
    | (.error e, t) => (.error e, { h with src := s, dst := t })
    | (.ok (), t) => copyLoop S D addr h.buf.length length { h with src := s, dst := t }

/-- `zero`, `client/_io.py:274-277`. -/
def zero {σ τ : Type} (D : Backend τ) (start length : Nat) (h : St σ τ) : Res (St σ τ) Unit :=
  match D.seek h.dst start with
  | (.error e, t) => (.error e, { h with dst := t })
  | (.ok (), t) =>
    match D.zero t length with
    | (.error e, t) => (.error e, { h with dst := t })
    | (.ok _, t) => (.ok (), { h with dst := t })

/-- `flush`, `client/_io.py:295-296`. -/
def flush {σ τ : Type} (D : Backend τ) (h : St σ τ) : Res (St σ τ) Unit :=
  let (r, t) := D.flush h.dst
  (r, { h with dst := t })

end Imageio.ClientHandler
