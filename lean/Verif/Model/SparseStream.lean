import Verif.Model.HttpBackend

/-!
Backup and restore with the sparse stream format, `examples/sparse-stream`, over the HTTP backend
of the client.

`sys.stdin.buffer` and `sys.stdout.buffer` are the environment.  Simplifications: the output is
not buffered, so a failed write leaves a part of its bytes in the output; connecting to the server
and closing the client are not modelled; the extents are a parameter (C20, C69), and so is the JSON
of the metadata; `assert` raises, Python is not started with `-O`.
-/
namespace Imageio.SparseStream
open HttpBackend

/-- `META`, `examples/sparse-stream:171`. -/
def META : Bytes := [109, 101, 116, 97]

/-- `DATA`, `examples/sparse-stream:172`. -/
def DATA : Bytes := [100, 97, 116, 97]

/-- `ZERO`, `examples/sparse-stream:173`. -/
def ZERO : Bytes := [122, 101, 114, 111]

/-- `STOP`, `examples/sparse-stream:174`. -/
def STOP : Bytes := [115, 116, 111, 112]

/-- `TERM`, `examples/sparse-stream:175`. -/
def TERM : Bytes := [13, 10]

/-- A digit of `%x`.  `examples/sparse-stream:176`. -/
def hexDigit (n : Nat) : Byte :=
  if n < 10 then UInt8.ofNat (48 + n) else UInt8.ofNat (87 + n)

/-- The digits of `%x`, without leading zeroes.  `examples/sparse-stream:176`. -/
def hexDigits (n : Nat) : Bytes :=
  if _h : n < 16 then [hexDigit n] else hexDigits (n / 16) ++ [hexDigit (n % 16)]
termination_by n
decreasing_by omega

/-- `%016x`: padded with zeroes to 16 digits, more digits for larger numbers.
`examples/sparse-stream:176`. -/
def hex16 (n : Nat) : Bytes :=
  List.replicate (16 - (hexDigits n).length) 48 ++ hexDigits n

/-- `FRAME % (kind, start, length)`.  `examples/sparse-stream:176`. -/
def frame (kind : Bytes) (start length : Nat) : Bytes :=
  kind ++ [32] ++ hex16 start ++ [32] ++ hex16 length ++ TERM

/-- `FRAME_LEN`.  `examples/sparse-stream:177`. -/
def frameLen : Nat := (frame STOP 0 0).length

/-! ### Standard input and output -/

/-- `sys.stdin.buffer`, `examples/sparse-stream:220`: the bytes that will be read, and what the
following calls do: fail, or, for `readinto`, return at most this number of bytes, plus one. -/
structure Stdin where
  data : Bytes
  calls : List (Option Nat)

/-- `reader.readinto(buf)` as called by `read_from`, `backends/http.py:168-178`. -/
def Stdin.readinto (i : Stdin) (n : Nat) : Res Stdin Bytes :=
  match i.calls.headD (some n) with
  | none => (.error (.os "EIO"), { i with calls := i.calls.tail })
  | some k =>
    let m := min n (k + 1)
    (.ok (i.data.take m), ⟨i.data.drop m, i.calls.tail⟩)

/-- `reader.read(n)`: all the bytes, or less at the end of the input.
`examples/sparse-stream:227-228`, `245`, `262`. -/
def Stdin.read (i : Stdin) (n : Nat) : Res Stdin Bytes :=
  match i.calls.headD (some n) with
  | none => (.error (.os "EIO"), { i with calls := i.calls.tail })
  | some _ => (.ok (i.data.take n), ⟨i.data.drop n, i.calls.tail⟩)

/-- The standard input as a reader of `read_from`; only `readinto` is used.
`examples/sparse-stream:244`. -/
def stdin : Backend Stdin where
  blockSize := 1
  tell _ := 0
  seek i _ := (.ok (), i)
  readinto := Stdin.readinto
  write i _ _ := (.error (.exception "UnsupportedOperation"), i)
  zero i _ := (.error (.exception "AttributeError"), i)
  flush i := (.ok (), i)
  size _ := 0

/-- `sys.stdout.buffer`, `examples/sparse-stream:181`: the bytes written so far, and for the
following writes, the number of bytes written before it fails, if it fails. -/
structure Stdout where
  out : Bytes
  calls : List (Option Nat)

/-- `writer.write(d)`.  `examples/sparse-stream:191-192`, `213`, `258`. -/
def Stdout.write (o : Stdout) (d : Bytes) : Res Stdout Nat :=
  match o.calls.headD none with
  | some k => (.error (.os "EIO"), ⟨o.out ++ d.take k, o.calls.tail⟩)
  | none => (.ok d.length, ⟨o.out ++ d, o.calls.tail⟩)

/-- The standard output as a writer of `write_to`; only `write` is used.
`examples/sparse-stream:212`. -/
def stdout : Backend Stdout where
  blockSize := 1
  tell _ := 0
  seek o _ := (.ok (), o)
  readinto o _ := (.error (.exception "UnsupportedOperation"), o)
  write o _ d := o.write d
  zero o _ := (.error (.exception "AttributeError"), o)
  flush o := (.ok (), o)
  size _ := 0

/-! ### Download -/

/-- An extent reported by `client.extents(context)`.  The `dirty` attribute exists only for the
dirty context, and is used only for it.  `examples/sparse-stream:186`, `extent.py:7-92`. -/
structure Extent where
  start : Nat
  length : Nat
  zero : Bool
  dirty : Bool
deriving DecidableEq, Repr

/-- The JSON functions for the metadata: the date is a part of `dump`.  `load` fails if the payload
is not a JSON object with an integer `virtual-size`.  `examples/sparse-stream:267-278`. -/
structure Meta where
  dump : (virtualSize dataSize : Nat) → (incremental : Bool) → Bytes
  load : Bytes → Except Err Int

/-- `dump_metadata`, `examples/sparse-stream:267-274`; `extents[-1]` raises `IndexError` if there
are none. -/
def dumpMetadata (M : Meta) (exts : List Extent) (incremental : Bool) : Except Err Bytes :=
  match exts.getLast? with
  | none => .error (.exception "IndexError")
  | some e =>
    .ok (M.dump (e.start + e.length) (((exts.filter (!·.zero)).map (·.length)).sum) incremental)

/-- `client.write_to(writer, offset, length)`.  `client/_api.py:370-382`. -/
def clientWriteTo {σ : Type} (S : Server σ) (step : Nat) (start length : Nat) (w : World σ)
    (o : Stdout) : Except Err Nat × World σ × Stdout :=
  writeTo S stdout 0 length step (seek w start).2 o

/-- `examples/sparse-stream:205-213` stream one extent. -/
def sendExtent {σ : Type} (S : Server σ) (step : Nat) (e : Extent) (w : World σ) (o : Stdout) :
    Except Err Unit × World σ × Stdout :=
  if e.zero then
    match o.write (frame ZERO e.start e.length) with
    | (.error x, o) => (.error x, w, o)
    | (.ok _, o) => (.ok (), w, o)
  else
    match o.write (frame DATA e.start e.length) with
    | (.error x, o) => (.error x, w, o)
    | (.ok _, o) =>
      match clientWriteTo S step e.start e.length w o with
      | (.error x, w, o) => (.error x, w, o)
      | (.ok _, w, o) =>
        match o.write TERM with
        | (.error x, o) => (.error x, w, o)
        | (.ok _, o) => (.ok (), w, o)

/-- `examples/sparse-stream:205-213` the loop of `download`. -/
def sendExtents {σ : Type} (S : Server σ) (step : Nat) :
    List Extent → World σ → Stdout → Except Err Unit × World σ × Stdout
  | [], w, o => (.ok (), w, o)
  | e :: es, w, o =>
    match sendExtent S step e w o with
    | (.error x, w, o) => (.error x, w, o)
    | (.ok (), w, o) => sendExtents S step es w o

/-- `examples/sparse-stream:201-216` the extents and the stop frame. -/
def sendFrames {σ : Type} (S : Server σ) (step : Nat) (incremental : Bool) (exts : List Extent)
    (w : World σ) (o : Stdout) : Except Err Unit × World σ × Stdout :=
  match sendExtents S step (if incremental then exts.filter (·.dirty) else exts) w o with
  | (.error x, w, o) => (.error x, w, o)
  | (.ok (), w, o) =>
    match o.write (frame STOP 0 0) with
    | (.error x, o) => (.error x, w, o)
    | (.ok _, o) => (.ok (), w, o)

/-- `examples/sparse-stream:190-192` the metadata frame. -/
def sendMeta (payload : Bytes) (o : Stdout) : Res Stdout Unit :=
  match o.write (frame META 0 payload.length) with
  | (.error x, o) => (.error x, o)
  | (.ok _, o) =>
    match o.write payload with
    | (.error x, o) => (.error x, o)
    | (.ok _, o) =>
      match o.write TERM with
      | (.error x, o) => (.error x, o)
      | (.ok _, o) => (.ok (), o)

/-- `download`, `examples/sparse-stream:180-216`; `exts` are the extents of the context, `step` is
the size of the buffer of the client. -/
def download {σ : Type} (S : Server σ) (M : Meta) (step : Nat) (incremental : Bool)
    (exts : Except Err (List Extent)) (w : World σ) (o : Stdout) :
    Except Err Unit × World σ × Stdout :=
  match exts with
  | .error x => (.error x, w, o)
  | .ok exts =>
    match dumpMetadata M exts incremental with
    | .error x => (.error x, w, o)
    | .ok payload =>
      match sendMeta payload o with
      | (.error x, o) => (.error x, w, o)
      | (.ok (), o) => sendFrames S step incremental exts w o

/-! ### Upload -/

/-- Whitespace of `int()`.  `examples/sparse-stream:264`. -/
def isSpace (b : Byte) : Bool := b = 32 || (9 ≤ b && b ≤ 13)

/-- The value of a digit of base 16.  `examples/sparse-stream:264`. -/
def hexValue (b : Byte) : Option Nat :=
  if 48 ≤ b ∧ b ≤ 57 then some (b.toNat - 48)
  else if 97 ≤ b ∧ b ≤ 102 then some (b.toNat - 87)
  else if 65 ≤ b ∧ b ≤ 70 then some (b.toNat - 55)
  else none

/-- The digits of `int(s, 16)`: single underscores are allowed between digits; `prev` is true after
a digit.  `examples/sparse-stream:264`. -/
def hexRun (acc : Nat) (prev : Bool) : Bytes → Option Nat
  | [] => if prev then some acc else none
  | b :: t =>
    if b = 95 then (if prev then hexRun acc false t else none)
    else
      match hexValue b with
      | none => none
      | some v => hexRun (16 * acc + v) true t

/-- The prefix `0x`, maybe followed by an underscore.  `examples/sparse-stream:264`. -/
def hexPrefix (s : Bytes) : Bytes :=
  match s with
  | 48 :: x :: t =>
    if x = 120 ∨ x = 88 then (match t with | 95 :: t => t | t => t) else s
  | s => s

/-- `int(s, 16)`, `examples/sparse-stream:264`: whitespace around the number, a sign, and a
prefix are allowed. -/
def pyInt16 (s : Bytes) : Option Int :=
  let s := ((s.dropWhile isSpace).reverse.dropWhile isSpace).reverse
  match s with
  | 45 :: t => (hexRun 0 false (hexPrefix t)).map fun n => -(n : Int)
  | 43 :: t => (hexRun 0 false (hexPrefix t)).map fun n => (n : Int)
  | s => (hexRun 0 false (hexPrefix s)).map fun n => (n : Int)

/-- The bytes before and after the first space.  `examples/sparse-stream:263`. -/
def cutSpace : Bytes → Option (Bytes × Bytes)
  | [] => none
  | b :: t =>
    if b = 32 then some ([], t)
    else
      match cutSpace t with
      | none => none
      | some (x, y) => some (b :: x, y)

/-- `header.split(b" ", 2)` with three parts, unpacking less parts raises `ValueError`.
`examples/sparse-stream:263`. -/
def split3 (s : Bytes) : Option (Bytes × Bytes × Bytes) :=
  match cutSpace s with
  | none => none
  | some (a, s) =>
    match cutSpace s with
    | none => none
    | some (b, c) => some (a, b, c)

/-- The parts of a frame.  `examples/sparse-stream:263-264`. -/
def parseFrame (header : Bytes) : Except Err (Bytes × Int × Int) :=
  match split3 header with
  | none => .error (.exception "ValueError")
  | some (kind, start, length) =>
    match pyInt16 start, pyInt16 length with
    | some a, some b => .ok (kind, a, b)
    | _, _ => .error (.exception "ValueError")

/-- `read_frame`, `examples/sparse-stream:261-264`. -/
def readFrame (i : Stdin) : Res Stdin (Bytes × Int × Int) :=
  match i.read frameLen with
  | (.error x, i) => (.error x, i)
  | (.ok header, i) => (parseFrame header, i)

/-- `assert reader.read(len(TERM)) == TERM`, `examples/sparse-stream:228`, `245`. -/
def readTerm (i : Stdin) : Res Stdin Unit :=
  match i.read TERM.length with
  | (.error x, i) => (.error x, i)
  | (.ok d, i) => if d = TERM then (.ok (), i) else (.error (.exception "AssertionError"), i)

/-- `client.read_from(reader, offset, length)`.  `client/_api.py:356-368`. -/
def clientReadFrom {σ : Type} (S : Server σ) (step : Nat) (start length : Nat) (w : World σ)
    (i : Stdin) : Except Err Nat × World σ × Stdin :=
  readFrom S stdin length step (seek w start).2 i

/-- `client.zero(offset, length)`.  `client/_api.py:420-425`. -/
def clientZero {σ : Type} (S : Server σ) (start length : Nat) (w : World σ) :
    Res (World σ) Nat :=
  HttpBackend.zero S (seek w start).2 length

theorem cutSpace_some {s a b : Bytes} (h : cutSpace s = some (a, b)) : s = a ++ 32 :: b := by
  induction s generalizing a b with
  | nil => simp [cutSpace] at h
  | cons c t ih =>
    unfold cutSpace at h
    split at h
    · rename_i hc
      subst hc
      simp only [Option.some.injEq, Prod.mk.injEq] at h
      rw [← h.1, ← h.2]; rfl
    · cases hx : cutSpace t with
      | none => rw [hx] at h; cases h
      | some p =>
        obtain ⟨x, y⟩ := p
        rw [hx] at h
        simp only [Option.some.injEq, Prod.mk.injEq] at h
        rw [← h.1, ih hx, h.2]; rfl

theorem Stdin.read_length (i : Stdin) (n : Nat) : (i.read n).2.data.length ≤ i.data.length := by
  unfold Stdin.read
  split <;> simp

theorem readFrame_lt {i i' : Stdin} {x : Bytes × Int × Int} (h : readFrame i = (.ok x, i')) :
    i'.data.length < i.data.length := by
  unfold readFrame Stdin.read at h
  cases hc : i.calls.headD (some frameLen) with
  | none => rw [hc] at h; cases h
  | some k =>
    rw [hc] at h
    simp only [Prod.mk.injEq] at h
    obtain ⟨h1, rfl⟩ := h
    unfold parseFrame at h1
    cases hs : split3 (i.data.take frameLen) with
    | none => rw [hs] at h1; cases h1
    | some p =>
      have : (i.data.take frameLen).length ≠ 0 := by
        intro h0
        rw [List.length_eq_zero_iff.1 h0] at hs
        cases hs
      rw [List.length_take] at this
      simp only [List.length_drop]
      omega

theorem readerBody_length (step todo : Nat) : ∀ (i : Stdin) r b i',
    readerBody stdin step todo i = (r, b, i') → i'.data.length ≤ i.data.length := by
  induction todo using Nat.strongRecOn with
  | ind todo ih =>
    intro i r b i' h
    unfold readerBody at h
    by_cases h0 : todo = 0
    · rw [dif_pos h0] at h
      simp only [Prod.mk.injEq] at h
      rw [h.2.2]; exact Nat.le_refl _
    · rw [dif_neg h0] at h
      have hl : ∀ n, (i.readinto n).2.data.length ≤ i.data.length := by
        intro n
        unfold Stdin.readinto
        split <;> simp
      cases hx : stdin.readinto i (min todo step) with
      | mk x i1 =>
      have h1 : i1.data.length ≤ i.data.length := by
        have := hl (min todo step)
        rw [show i.readinto (min todo step) = (x, i1) from hx] at this
        exact this
      rw [hx] at h
      cases x with
      | error e =>
        simp only [Prod.mk.injEq] at h
        rw [← h.2.2]; exact h1
      | ok d =>
        simp only at h
        split at h
        · simp only [Prod.mk.injEq] at h
          rw [← h.2.2]; exact h1
        · cases hy : readerBody stdin step (todo - d.length) i1 with
          | mk r2 x2 =>
          obtain ⟨b2, i2⟩ := x2
          rw [hy] at h
          simp only [Prod.mk.injEq] at h
          have := ih (todo - d.length) (by omega) i1 r2 b2 i2 hy
          rw [← h.2.2]; omega

theorem clientReadFrom_length {σ : Type} {S : Server σ} {step start length : Nat} {w w' : World σ}
    {i i' : Stdin} {r : Except Err Nat} (h : clientReadFrom S step start length w i = (r, w', i')) :
    i'.data.length ≤ i.data.length := by
  unfold clientReadFrom readFrom at h
  cases hx : readerBody stdin step length i with
  | mk r2 x2 =>
  obtain ⟨b2, i2⟩ := x2
  have := readerBody_length step length i r2 b2 i2 hx
  rw [hx] at h
  cases r2 <;>
  · simp only [Prod.mk.injEq] at h
    rw [← h.2.2]; exact this

/-- `examples/sparse-stream:239-251` the loop of `upload`.  Simplification: negative numbers of a
data or zero frame, that the server does not accept, raise before the request is sent. -/
def restoreFrames {σ : Type} (S : Server σ) (step : Nat) (w : World σ) (i : Stdin) :
    Except Err Unit × World σ × Stdin :=
  match _h1 : readFrame i with
  | (.error x, i) => (.error x, w, i)
  | (.ok (kind, start, length), i1) =>
    if kind = ZERO then
      if start < 0 ∨ length < 0 then (.error (.exception "http.Error"), w, i1)
      else
        match clientZero S start.toNat length.toNat w with
        | (.error x, w) => (.error x, w, i1)
        | (.ok _, w) => restoreFrames S step w i1
    else if kind = DATA then
      if start < 0 ∨ length < 0 then (.error (.exception "http.Error"), w, i1)
      else
        match _h2 : clientReadFrom S step start.toNat length.toNat w i1 with
        | (.error x, w, i) => (.error x, w, i)
        | (.ok _, w, i2) =>
          match _h3 : readTerm i2 with
          | (.error x, i) => (.error x, w, i)
          | (.ok (), i3) => restoreFrames S step w i3
    else if kind = STOP then (.ok (), w, i1)
    else (.error (.exception "RuntimeError"), w, i1)
termination_by i.data.length
decreasing_by
  · exact readFrame_lt _h1
  · have a := readFrame_lt _h1
    have b := clientReadFrom_length _h2
    have c : i3.data.length ≤ i2.data.length := by
      have := Stdin.read_length i2 TERM.length
      unfold readTerm at _h3
      cases hr : i2.read TERM.length with
      | mk r i4 =>
      rw [hr] at _h3 this
      cases r with
      | error e => cases _h3
      | ok d =>
        simp only at _h3
        split at _h3
        · cases _h3; exact this
        · cases _h3
    omega

/-- `examples/sparse-stream:222-228` the metadata frame: the virtual size.  A negative length
raises: `read(-1)` reads everything, so the terminator is missing. -/
def readMeta (M : Meta) (i : Stdin) : Res Stdin Int :=
  match readFrame i with
  | (.error x, i) => (.error x, i)
  | (.ok (kind, _, length), i) =>
    if kind ≠ META then (.error (.exception "RuntimeError"), i)
    else if length < 0 then (.error (.exception "ValueError"), i)
    else
      match i.read length.toNat with
      | (.error x, i) => (.error x, i)
      | (.ok payload, i) =>
        match M.load payload with
        | .error x => (.error x, i)
        | .ok virtualSize =>
          match readTerm i with
          | (.error x, i) => (.error x, i)
          | (.ok (), i) => (.ok virtualSize, i)

/-- `upload`, `examples/sparse-stream:219-254`. -/
def upload {σ : Type} (S : Server σ) (M : Meta) (step : Nat) (w : World σ) (i : Stdin) :
    Except Err Unit × World σ × Stdin :=
  match readMeta M i with
  | (.error x, i) => (.error x, w, i)
  | (.ok virtualSize, i) =>
    match HttpBackend.size S w with
    | (.error x, w) => (.error x, w, i)
    | (.ok size, w) =>
      if virtualSize > size then (.error (.exception "RuntimeError"), w, i)
      else
        match restoreFrames S step w i with
        | (.error x, w, i) => (.error x, w, i)
        | (.ok (), w, i) =>
          match HttpBackend.flush S w with
          | (.error x, w) => (.error x, w, i)
          | (.ok (), w) => (.ok (), w, i)

end Imageio.SparseStream
