import Verif.Model.HttpParse

/-!
The statistics clock, `stats.py`, and its use by the server.

Simplification: times are integers (fractions of a second), not floats; the numbers shown by
`__repr__` are not formatted here.
-/
namespace Imageio.Stats
open Http

/-- What can be raised: an error of the clock, a division by zero, or anything by the code that is
measured.  `stats.py:60`, `88`, `91`, `96`, `118`. -/
inductive Exn where
  | runtimeError
  | typeError
  | zeroDivision
  | body (n : Nat)
deriving DecidableEq, Repr

/-- `Stats`, `stats.py:151-158`. -/
structure Stat where
  name : Str
  seconds : Int := 0
  ops : Nat := 0
  bytes : Nat := 0
  started : Option Int := none
deriving DecidableEq, Repr

/-- `Clock._stats`, `stats.py:49-52`: an ordered dictionary. -/
abbrev Clock := List Stat

/-- `self._stats.get(name)`, `stats.py:55`, `86`. -/
def find (c : Clock) (name : Str) : Option Stat := c.find? fun s => s.name = name

/-- Changing the object stored for a name.  `stats.py:62`, `96-100`. -/
def update (c : Clock) (name : Str) (f : Stat → Stat) : Clock :=
  c.map fun s => if s.name = name then f s else s

/-- `start`, `stats.py:54-64`. -/
def start (c : Clock) (name : Str) (now : Int) : Except Exn Clock :=
  let c' := if (find c name).isSome then c else c ++ [{ name }]
  match find c' name with
  | none => .error .typeError
  | some s =>
    if s.started.isSome then .error .runtimeError
    else .ok (update c' name fun s => { s with started := some now })

/-- `_stop`, `stats.py:95-102`: on the object, which may not be running. -/
def stopStat (c : Clock) (name : Str) (completed : Bool) (now : Int) : Except Exn Clock :=
  match find c name with
  | none => .error .typeError
  | some s =>
    match s.started with
    | none => .error .typeError
    | some t =>
      .ok (update c name fun s =>
        { s with seconds := s.seconds + (now - t), started := none,
                 ops := if completed then s.ops + 1 else s.ops })

/-- `stop` (`completed`) and `abort`, `stats.py:66-72`, with `_lookup_started`, `85-93`. -/
def stop (c : Clock) (name : Str) (completed : Bool) (now : Int) : Except Exn Clock :=
  match find c name with
  | none => .error .runtimeError
  | some s => if s.started.isNone then .error .runtimeError else stopStat c name completed now

/-- `s.bytes += n` for the statistics of the name.  `ops.py:54`, `109`, `117`. -/
def addBytes (c : Clock) (name : Str) (n : Nat) : Clock :=
  update c name fun s => { s with bytes := s.bytes + n }

/-- Code that is measured: time passes, bytes are counted, exceptions are raised and caught, and
parts are measured with `with clock.run(name)`.  `stats.py:74-83`, `ops.py:51-55`, `http.py:793-824`. -/
inductive Prog where
  | skip
  | tick (d : Nat)
  | bytes (name : Str) (n : Nat)
  | raise (n : Nat)
  | seq (p q : Prog)
  /-- `try: p except: q` -/
  | handle (p q : Prog)
  | run (name : Str) (p : Prog)
deriving DecidableEq, Repr

/-- Running it: the exception, the time and the clock after it.  `run`, `stats.py:74-83`. -/
def exec : Prog → Int → Clock → Option Exn × Int × Clock
  | .skip, t, c => (none, t, c)
  | .tick d, t, c => (none, t + d, c)
  | .bytes name n, t, c => (none, t, addBytes c name n)
  | .raise n, t, c => (some (.body n), t, c)
  | .seq p q, t, c =>
    match exec p t c with
    | (none, t, c) => exec q t c
    | (some e, t, c) => (some e, t, c)
  | .handle p q, t, c =>
    match exec p t c with
    | (none, t, c) => (none, t, c)
    | (some _, t, c) => exec q t c
  | .run name p, t, c =>
    match start c name t with
    | .error e => (some e, t, c)
    | .ok c =>
      match exec p t c with
      | (none, t, c) =>
        match stopStat c name true t with
        | .error e => (some e, t, c)
        | .ok c => (none, t, c)
      | (some e, t, c) =>
        match stopStat c name false t with
        | .error e => (some e, t, c)
        | .ok c => (some e, t, c)

/-- What is shown for one name: the number of operations, the seconds, and if bytes were counted,
the bytes and the divisor of the rate.  `stats.py:112-120`. -/
structure Shown where
  name : Str
  ops : Nat
  seconds : Int
  bytes : Option (Nat × Int)
deriving DecidableEq, Repr

/-- One name in `__repr__`, `stats.py:108-120`. -/
def showStat (now : Int) (s : Stat) : Except Exn Shown :=
  let seconds := match s.started with
    | some t => now - t
    | none => s.seconds
  if s.bytes = 0 then .ok ⟨s.name, s.ops, seconds, none⟩
  else if seconds = 0 then .error .zeroDivision
  else .ok ⟨s.name, s.ops, seconds, some (s.bytes, seconds)⟩

/-- `__repr__`, `stats.py:104-122`. -/
def repr (now : Int) (c : Clock) : Except Exn (List Shown) := c.mapM (showStat now)

/-! ### The server -/

/-- Code without statistics of its own: the body of a step of an operation.
`ops.py:107-117`, `173-188`. -/
inductive Leaf (name : Str) : Prog → Prop
  | skip : Leaf name .skip
  | tick (d : Nat) : Leaf name (.tick d)
  | bytes (n : Nat) : Leaf name (.bytes name n)
  | raise (n : Nat) : Leaf name (.raise n)
  | seq {p q : Prog} : Leaf name p → Leaf name q → Leaf name (.seq p q)
  | handle {p q : Prog} : Leaf name p → Leaf name q → Leaf name (.handle p q)

/-- The code of the operation `name`: its steps are measured with `_record`.
`ops.py:51-68`, `164-188`, `229-240`. -/
inductive OpBody (name : Str) : Prog → Prop
  | leaf {p : Prog} : Leaf name p → OpBody name p
  | seq {p q : Prog} : OpBody name p → OpBody name q → OpBody name (.seq p q)
  | handle {p q : Prog} : OpBody name p → OpBody name q → OpBody name (.handle p q)
  | record {step : Str} {p : Prog} : Leaf (name ++ '.' :: step) p →
      OpBody name (.run (name ++ '.' :: step) p)

/-- The names of the operations of the server.  `ops.py:83`, `129`, `203`, `246`,
`handlers/checksum.py:103`, `handlers/extents.py:44`. -/
def opNames : List Str :=
  ["read".toList, "write".toList, "zero".toList, "flush".toList, "checksum".toList,
    "extents".toList]

/-- A handler: any operations one after the other.  `handlers/images.py:62-70`, `135-142`,
`187-194`, `214`. -/
inductive HandlerBody : Prog → Prop
  | leaf {p : Prog} : Leaf "dispatch".toList p → HandlerBody p
  | seq {p q : Prog} : HandlerBody p → HandlerBody q → HandlerBody (.seq p q)
  | handle {p q : Prog} : HandlerBody p → HandlerBody q → HandlerBody (.handle p q)
  | op {name : Str} {p : Prog} : name ∈ opNames → OpBody name p → HandlerBody (.run name p)

/-- The requests of a connection: `Router.__call__` for each, `http.py:793-824`. -/
inductive Requests : Prog → Prop
  | none : Requests .skip
  | cons {p q : Prog} : HandlerBody p → Requests q →
      Requests (.seq (.handle (.run "dispatch".toList p) .skip) q)

/-- A connection: `setup` and `finish`, `http.py:185-203`.  `none` if the clock fails. -/
def connection (p : Prog) (t : Int) : Option (Int × Clock) :=
  match start [] "connection".toList t with
  | .error _ => none
  | .ok c =>
    match exec p t c with
    | (_, t, c) =>
      match stop c "connection".toList true t with
      | .error _ => none
      | .ok c => some (t, c)

end Imageio.Stats
