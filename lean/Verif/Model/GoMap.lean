import Verif.Model.GoClient

/-!
The command `ovirt-img map` in Go: `go/ovirt-img/main.go`, `map.go`, `backend.go`, `qemuimg/qemuimg.go`, and what the NBD
backend does with a file (`nbd/nbd.go`).
-/
namespace Imageio.GoMap
open Imageio.Http Imageio.GoClient

/-- `lit "text"` is the text.  `go/ovirt-img/nbd/nbd.go:41-48`. -/
abbrev lit (s : String) : Str := s.toList

/-- What `os.Stat` returns.  `go/ovirt-img/backend.go:26-37`. -/
inductive Stat where
  | found
  | missing
  | failed
deriving DecidableEq, Repr

/-- What libnbd connects to: a program that it runs, or a URI.  `go/ovirt-img/nbd/nbd.go:50`, `78`. -/
inductive Target where
  | program (args : List Str)
  | uri (s : Str)
deriving DecidableEq, Repr

/-- What the system and the libraries do: `os.Stat`, running a program for its output, `json.Unmarshal` of the output (the
format and the size), `url.Parse` (the scheme in lower case, and the path), libnbd (the size and the replies, or an error), the
extents of an imageio server, creating a file, and what gets to stdout.  `go/ovirt-img/backend.go:27`, `48`;
`go/ovirt-img/qemuimg/qemuimg.go:24`, `34`; `go/ovirt-img/nbd/nbd.go:50`, `56`, `78`, `84`;
`go/imageio/http/http.go:140-162`; `go/ovirt-img/main.go:48`; `go/ovirt-img/map.go:30`. -/
structure World where
  stat : Str → Stat
  output : List Str → Option Bytes
  unmarshal : Bytes → Option (Str × Nat)
  parse : Str → Option (Str × Str)
  libnbd : Target → Option (Nat × Replies)
  http : Str → Option (List Extent)
  create : Str → Bool
  stdout : Str → Str

/-- A connected backend: the NBD backend, with its size and the replies of the server, or the HTTP backend with its url.
`go/ovirt-img/nbd/nbd.go:22-25`, `go/imageio/http/http.go:17-22`. -/
inductive Backend where
  | nbd (target : Target) (size : Nat) (replies : Replies)
  | http (url : Str)

/-- The arguments of qemu-img, `go/ovirt-img/qemuimg/qemuimg.go:18`. -/
def infoArgs (file : Str) : List Str := [lit "qemu-img", lit "info", lit "--output", lit "json", file]

/-- `Info` and `run`, `go/ovirt-img/qemuimg/qemuimg.go:17-51`; the size is not used.  A field that is missing is the
empty text (`unmarshal`). -/
def format (w : World) (file : Str) : Option Str :=
  match w.output (infoArgs file) with
  | none => none
  | some out =>
    match w.unmarshal out with
    | none => none
    | some info => some info.1

/-- The arguments of qemu-nbd, `go/ovirt-img/nbd/nbd.go:41-48`. -/
def nbdArgs (file fmt : Str) : List Str :=
  [lit "qemu-nbd", lit "--read-only", lit "--persistent", lit "--shared", lit "8", lit "--format", fmt, file]

/-- `Connect` and `ConnectFile` of the NBD backend, `go/ovirt-img/nbd/nbd.go:29-90`: creating the handle, the meta
context, connecting and the size; which of them fails is not seen. -/
def connectNbd (w : World) (t : Target) : Option Backend :=
  match w.libnbd t with
  | none => none
  | some (size, replies) => some (.nbd t size replies)

/-- `connectFile`, `go/ovirt-img/backend.go:39-45`. -/
def connectFile (w : World) (s : Str) : Option Backend :=
  match format w s with
  | none => none
  | some fmt => connectNbd w (.program (nbdArgs s fmt))

/-- `connectURL`, `go/ovirt-img/backend.go:47-62`; `http.Connect` does not connect (`go/imageio/http/http.go:26-42`). -/
def connectUrl (w : World) (s : Str) : Option Backend :=
  match w.parse s with
  | none => none
  | some (scheme, path) =>
    if scheme = lit "nbd" ∨ scheme = lit "nbd+unix" then connectNbd w (.uri s)
    else if scheme = lit "https" then some (.http s)
    else if scheme = lit "file" then connectFile w path
    else none

/-- `connect` and `isFile`, `go/ovirt-img/backend.go:19-37`; `log.Fatal` is an error here: the caller ends in the same
way. -/
def connect (w : World) (s : Str) : Option Backend :=
  match w.stat s with
  | .found => connectFile w s
  | .missing => connectUrl w s
  | .failed => none

/-- `Extents` of the backend and the values of its result, `go/ovirt-img/nbd/nbd.go:99-136`, `218-241`,
`go/imageio/http/http.go:62-69`, `go/imageio/extent.go:43-53`. -/
def extents (w : World) : Backend → Outcome (List Extent)
  | .nbd _ size replies =>
    match nbdExtents size replies with
    | .done r => .done (values 0 r)
    | .error => .error
    | .panic => .panic
    | .waiting => .waiting
  | .http url =>
    match w.http url with
    | none => .error
    | some exts => .done exts

/-- How the program ends: with a status and the text that got to stdout, with a panic, or not at all.
`go/ovirt-img/main.go:23-69`. -/
inductive Ended where
  | exit (status : Nat) (out : Str)
  | panic
  | waiting
deriving DecidableEq, Repr

/-- `mapURL`, `go/ovirt-img/map.go:16-31`; `log.Fatalf` exits with 1.  The results of `Fprint` and `Flush` are not
looked at. -/
def mapUrl (w : World) (s : Str) : Ended :=
  match connect w s with
  | none => .exit 1 []
  | some b =>
    match extents w b with
    | .error => .exit 1 []
    | .panic => .panic
    | .waiting => .waiting
    | .done exts => .exit 0 (w.stdout (writeExtents exts))

/-- `cmd.Parse` with the flag `-cpuprofile` and `flag.ExitOnError`: the value of the flag and the arguments that are left, or the
exit status.  The package `flag` of Go; `go/ovirt-img/main.go:45`, `79-83`. -/
def parseFlags : Str → List Str → Except Nat (Str × List Str)
  | profile, [] => .ok (profile, [])
  | profile, s :: rest =>
    if s.length < 2 ∨ s.head? ≠ some '-' then .ok (profile, s :: rest)
    else if s = lit "--" then .ok (profile, rest)
    else
      let text := if s.take 2 = lit "--" then s.drop 2 else s.drop 1
      if text.head? = some '-' ∨ text.head? = some '=' then .error 2
      else
        let name := text.takeWhile (· ≠ '=')
        if name ≠ lit "cpuprofile" then
          if name = lit "help" ∨ name = lit "h" then .error 0 else .error 2
        else
          match text.dropWhile (· ≠ '=') with
          | _ :: value => parseFlags value rest
          | [] =>
            match rest with
            | [] => .error 2
            | value :: rest => parseFlags value rest

/-- `main`, `go/ovirt-img/main.go:23-69`; `args` are the arguments after the name of the program. -/
def main (w : World) (args : List Str) : Ended :=
  match args with
  | [] => .exit 1 []
  | name :: rest =>
    if name ≠ lit "map" then .exit 1 []
    else
      match parseFlags [] rest with
      | .error status => .exit status []
      | .ok (profile, left) =>
        if profile ≠ [] ∧ w.create profile = false then .exit 1 []
        else
          match left with
          | [s] => mapUrl w s
          | _ => .exit 1 []

/-- `ReadAt` of the NBD backend with a buffer of `len` bytes, `go/ovirt-img/nbd/nbd.go:166-186`; `pread` is what `Pread` of
libnbd does.  Offsets are `int64`, so `uint64(off)` of a negative offset is large. -/
def readAt (size : Nat) (pread : Nat → Nat → Option Bytes) (len : Nat) (off : Int) : ReadResult :=
  if size < u64 off then ⟨0, some .eof, []⟩
  else
    let n := if size < u64 (u64 off + len) then size - u64 off else len
    let eof := if size < u64 (u64 off + len) then some GoErr.eof else none
    match pread (u64 off) n with
    | none => ⟨0, some .other, []⟩
    | some data => ⟨n, eof, data⟩

end Imageio.GoMap
