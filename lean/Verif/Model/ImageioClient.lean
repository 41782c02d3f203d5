import Verif.Model.HttpBackend

/-!
`ImageioClient` of the client API, `client/_api.py:292-450`, over the HTTP backend of `Model/HttpBackend`.

Simplifications: offsets and lengths are not negative; opening and closing the connection is `Model/HttpConnect`; a call that
raises does not tell how much of the reader or the writer was used.
-/
namespace Imageio.ImageioClient
open HttpBackend

/-- The reader of `read_from`, an object with `readinto(buf)`: the bytes of a stream, in pieces; `none` is a call that
raises.  `client/_api.py:356-368`, `backends/http.py:174`. -/
structure Reader where
  rest : Bytes
  plan : List (Option Nat)
deriving DecidableEq, Repr

/-- `reader.readinto(view)` with a view of `n` bytes.  `backends/http.py:174`. -/
def Reader.readinto (r : Reader) (n : Nat) : Res Reader Bytes :=
  match r.plan with
  | [] => (.ok (r.rest.take n), ⟨r.rest.drop n, []⟩)
  | none :: p => (.error (.exception "reader"), ⟨r.rest, p⟩)
  | some k :: p => (.ok (r.rest.take (min n (k + 1))), ⟨r.rest.drop (min n (k + 1)), p⟩)

/-- The reader with the interface of the backends; `read_from` uses only `readinto`.  `backends/http.py:157-194`. -/
def reader : Backend Reader where
  blockSize := 1
  tell _ := 0
  seek r _ := (.ok (), r)
  readinto := Reader.readinto
  write r _ _ := (.ok 0, r)
  zero r _ := (.ok 0, r)
  flush r := (.ok (), r)
  size _ := 0

/-- The writer of `write_to`, an object with `write(buf)`: the bytes it got; `none` is a call that raises.
`client/_api.py:370-382`, `backends/http.py:217`.  The result of `write` is not used, so that a raw file may lose bytes
(C49); here a call takes everything. -/
structure Writer where
  got : Bytes
  plan : List Bool
deriving DecidableEq, Repr

/-- `writer.write(view)`.  `backends/http.py:217`. -/
def Writer.write (w : Writer) (_addr : Nat) (d : Bytes) : Res Writer Nat :=
  match w.plan with
  | [] => (.ok d.length, ⟨w.got ++ d, []⟩)
  | false :: p => (.error (.exception "writer"), ⟨w.got, p⟩)
  | true :: p => (.ok d.length, ⟨w.got ++ d, p⟩)

/-- The writer with the interface of the backends; `write_to` uses only `write`.  `backends/http.py:196-223`. -/
def writer : Backend Writer where
  blockSize := 1
  tell _ := 0
  seek w _ := (.ok (), w)
  readinto w _ := (.ok [], w)
  write := Writer.write
  zero w _ := (.ok 0, w)
  flush w := (.ok (), w)
  size _ := 0

/-- The calls of an application.  `client/_api.py:335-431`; `extents` is C69. -/
inductive Call where
  | size
  | read (offset n : Nat)
  | write (offset : Nat) (data : Bytes)
  | zero (offset length : Nat)
  | readFrom (offset length : Nat) (r : Reader)
  | writeTo (offset length : Nat) (w : Writer)
  | flush
deriving DecidableEq, Repr

/-- What a successful call gives to the application.  `client/_api.py:335-431`. -/
inductive Reply where
  | done
  | size (n : Nat)
  /-- the bytes in the buffer of `read` -/
  | data (d : Bytes)
  /-- the reader after `read_from` -/
  | reader (r : Reader)
  /-- the writer after `write_to` -/
  | writer (w : Writer)
deriving DecidableEq, Repr

/-- `client/_api.py:384-400` `read`. -/
def read {σ : Type} (S : Server σ) (w : World σ) (offset n : Nat) : Res (World σ) Reply :=
  match HttpBackend.size S w with
  | (.error e, w) => (.error e, w)
  | (.ok size, w) =>
    if offset + n > size then (.error (.exception "RuntimeError"), w)
    else
      match readinto S (seek w offset).2 n with
      | (.error e, w) => (.error e, w)
      | (.ok d, w) => (.ok (.data d), w)

/-- `client/_api.py:402-418` `write`. -/
def write {σ : Type} (S : Server σ) (w : World σ) (offset : Nat) (data : Bytes) : Res (World σ) Reply :=
  match HttpBackend.size S w with
  | (.error e, w) => (.error e, w)
  | (.ok size, w) =>
    if offset + data.length > size then (.error (.exception "RuntimeError"), w)
    else
      match HttpBackend.write S (seek w offset).2 data with
      | (.error e, w) => (.error e, w)
      | (.ok _, w) => (.ok .done, w)

/-- `client/_api.py:335-431` a call; `step` is the size of the buffer, `client/_api.py:317`. -/
def call {σ : Type} (S : Server σ) (step : Nat) (w : World σ) : Call → Res (World σ) Reply
  | .size =>
    match HttpBackend.size S w with
    | (.error e, w) => (.error e, w)
    | (.ok n, w) => (.ok (.size n), w)
  | .read offset n => read S w offset n
  | .write offset data => write S w offset data
  | .zero offset length =>
    match HttpBackend.zero S (seek w offset).2 length with
    | (.error e, w) => (.error e, w)
    | (.ok _, w) => (.ok .done, w)
  | .readFrom offset length r =>
    match readFrom S reader length step (seek w offset).2 r with
    | (.error e, w, _) => (.error e, w)
    | (.ok _, w, r) => (.ok (.reader r), w)
  | .writeTo offset length wr =>
    match writeTo S writer 0 length step (seek w offset).2 wr with
    | (.error e, w, _) => (.error e, w)
    | (.ok _, w, wr) => (.ok (.writer wr), w)
  | .flush =>
    match HttpBackend.flush S w with
    | (.error e, w) => (.error e, w)
    | (.ok (), w) => (.ok .done, w)

/-- Calls one after the other; the application goes on after errors.  `client/_api.py:335-431`. -/
def calls {σ : Type} (S : Server σ) (step : Nat) : World σ → List Call → List (Call × Except Err Reply) × World σ
  | w, [] => ([], w)
  | w, c :: cs =>
    let (r, w) := call S step w c
    let (rs, w) := calls S step w cs
    ((c, r) :: rs, w)

/-- `client/_api.py:442-449` `__exit__`: the error of the `with` statement, given the error of its body and the error of
`close()`. -/
def exit (body close : Option Err) : Option Err :=
  match close with
  | none => body
  | some e =>
    match body with
    | none => some e
    | some t => some t

end Imageio.ImageioClient
