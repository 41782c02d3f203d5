import Verif.Model.Extents

/-!
The extents and the size of the HTTP backend of the client, with its cache,
`backends/http.py:291-308,324-337,508-546`, and the extents handler of the server
(`Model/Extents.lean`).

Between the requests the image may change, and other clients may work with it.  Connecting is in
`Model/HttpConnect.lean`; here a request gets an answer or fails.
-/
namespace Imageio.HttpExtents
open Imageio.Http Imageio.Images Imageio.Extents

/-- The served image with states `σ`: the ticket, what the backend of the server reports as extents,
its size, and the JSON functions.  `handlers/extents.py:23-51`, `backends/http.py:521`. -/
structure Served (σ τ : Type) where
  ticketId : Str
  dirtyTicket : Bool
  zero : σ → Except Err (List ZeroExtent)
  dirty : σ → Except Err (List DirtyExtent)
  size : σ → Nat
  dumps : Dicts → τ
  loads : τ → Option Dicts

/-- What happens to one request: `lost` is the error of sending it or of reading the response, `auth`
the outcome of the authorization in the server.  `backends/http.py:509-511`, `535-536`,
`handlers/extents.py:27-32`. -/
structure Net where
  lost : Option Err
  auth : Option Err
deriving DecidableEq, Repr

/-- The state of the served image, and the outcome of the next requests (when the list is exhausted
nothing fails).  `backends/http.py:508-546`. -/
structure World (σ : Type) where
  srv : σ
  nets : List Net

/-- The attributes of the client for the extents and the size, `backends/http.py:61-62`, `67`:
`zero` and `dirty` are the values of the dict `_extents`. -/
structure Known where
  canExtents : Bool
  size : Option Nat
  zero : Option (List ZeroExtent)
  dirty : Option (List DirtyExtent)
deriving DecidableEq, Repr

/-- The extents of one of the contexts.  `backends/http.py:523-525`. -/
inductive Exts where
  | zero (l : List ZeroExtent)
  | dirty (l : List DirtyExtent)
deriving DecidableEq, Repr

/-- The outcome of the next request.  `backends/http.py:508-546`. -/
def World.net {σ : Type} (w : World σ) : Net := w.nets.headD ⟨none, none⟩

/-- The world after a request.  `backends/http.py:508-546`. -/
def World.done {σ : Type} (w : World σ) : World σ := { w with nets := w.nets.tail }

/-- `backends/http.py:508-525` `_get_extents` for one of the classes of `extent.py`. -/
def fetch {σ τ α : Type} (S : Served σ τ) (context : Str) (fromDict : Json → Option α) (w : World σ) :
    Except Err (List α) × World σ :=
  match w.net.lost with
  | some e => (.error e, w.done)
  | none =>
    let r := respond S.dumps (handler S.ticketId (extentsQuery context) w.net.auth S.dirtyTicket
      (S.zero w.srv) (S.dirty w.srv)).1
    (getExtents S.loads fromDict r.1 r.2, w.done)

/-- `backends/http.py:304-308` the zero extents, from the cache if possible. -/
def askZero {σ τ : Type} (S : Served σ τ) (c : Known) (w : World σ) :
    Except Err (List ZeroExtent) × Known × World σ :=
  match c.zero with
  | some l => (.ok l, c, w)
  | none =>
    match fetch S (lit "zero") ZeroExtent.fromDict w with
    | (.error e, w) => (.error e, c, w)
    | (.ok l, w) => (.ok l, { c with zero := some l }, w)

/-- `backends/http.py:304-308` the dirty extents, from the cache if possible. -/
def askDirty {σ τ : Type} (S : Served σ τ) (c : Known) (w : World σ) :
    Except Err (List DirtyExtent) × Known × World σ :=
  match c.dirty with
  | some l => (.ok l, c, w)
  | none =>
    match fetch S (lit "dirty") DirtyExtent.fromDict w with
    | (.error e, w) => (.error e, c, w)
    | (.ok l, w) => (.ok l, { c with dirty := some l }, w)

/-- `backends/http.py:527-546` `_emulate_head`. -/
def emulateHead {σ τ : Type} (S : Served σ τ) (w : World σ) : Except Err Nat × World σ :=
  match w.net.lost with
  | some e => (.error e, w.done)
  | none =>
    match w.net.auth with
    | some _ => (.error (.exception "http.Error"), w.done)
    | none => (.ok (S.size w.srv), w.done)

/-- `backends/http.py:324-337` `size`. -/
def askSize {σ τ : Type} (S : Served σ τ) (c : Known) (w : World σ) :
    Except Err Nat × Known × World σ :=
  match c.size with
  | some n => (.ok n, c, w)
  | none =>
    if c.canExtents then
      match askZero S c w with
      | (.error e, c, w) => (.error e, c, w)
      | (.ok l, c, w) =>
        match l.getLast? with
        | none => (.error (.exception "IndexError"), c, w)
        | some e => (.ok (e.start + e.length), { c with size := some (e.start + e.length) }, w)
    else
      match emulateHead S w with
      | (.error e, w) => (.error e, c, w)
      | (.ok n, w) => (.ok n, { c with size := some n }, w)

/-- `backends/http.py:291-308` `extents`; the generator is read to the end. -/
def askExtents {σ τ : Type} (S : Served σ τ) (context : Str) (c : Known) (w : World σ) :
    Except Err Exts × Known × World σ :=
  if context ≠ lit "zero" ∧ context ≠ lit "dirty" then (.error (.exception "RuntimeError"), c, w)
  else if !c.canExtents then
    if context = lit "zero" then
      match askSize S c w with
      | (.error e, c, w) => (.error e, c, w)
      | (.ok n, c, w) => (.ok (.zero [⟨0, n, false, some false⟩]), c, w)
    else (.error unsupported, c, w)
  else if context = lit "zero" then
    match askZero S c w with
    | (.error e, c, w) => (.error e, c, w)
    | (.ok l, c, w) => (.ok (.zero l), c, w)
  else
    match askDirty S c w with
    | (.error e, c, w) => (.error e, c, w)
    | (.ok l, c, w) => (.ok (.dirty l), c, w)

/-- `backends/http.py:101-107` what a clone knows; a cached list is copied. -/
def cloned (c : Known) : Known := c

end Imageio.HttpExtents
