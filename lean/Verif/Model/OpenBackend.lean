import Verif.Model.FileOpen
import Verif.Model.Tickets
/-!
Opening the backend of a ticket for one connection: `backends/__init__.py` `get`, `supports`
and `Context.close`, the `open` functions of the three backends, and `util.open`.
-/
namespace Imageio.OpenBackend
open Imageio.Http Imageio.Images Imageio.Url

/-- `os.O_RDONLY` of Linux on x86-64, used in `util.py:80`. -/
def oRdonly : Nat := 0
/-- `os.O_WRONLY`, used in `util.py:82`. -/
def oWronly : Nat := 1
/-- `os.O_RDWR`, used in `util.py:84`. -/
def oRdwr : Nat := 2
/-- `os.O_CREAT`, used in `util.py:82`. -/
def oCreat : Nat := 0x40
/-- `os.O_TRUNC`, used in `util.py:82`. -/
def oTrunc : Nat := 0x200
/-- `os.O_DIRECT`, used in `util.py:89`. -/
def oDirect : Nat := 0x4000
/-- `os.O_SYNC`, used in `util.py:92`. -/
def oSync : Nat := 0x101000

/-- The mode of a backend given to the `open` functions, `backends/__init__.py:90` and
`util.py:79-86`; `other` is any other text. -/
inductive Mode
  | r | w | rplus | other (s : Str)
deriving DecidableEq, Repr

/-- `util.py:79-92` the flags given to `os.open`; `none` is `ValueError`. -/
def openFlags (mode : Mode) (direct sync : Bool) : Option Nat :=
  let flags := match mode with
    | .r => some oRdonly
    | .w => some (oWronly ||| oCreat ||| oTrunc)
    | .rplus => some oRdwr
    | .other _ => none
  flags.map fun f =>
    let f := if direct then f ||| oDirect else f
    if sync then f ||| oSync else f

/-- Something that was opened and must be closed: a file (path and flags), the client of a NBD
server (`nbd.py:313-318`), the connection of the http backend (`backends/http.py:74-75`), or a
buffer (`util.py:59`). -/
inductive Resource
  | file (path : Str) (flags : Nat)
  | nbd (url : Parsed) (dirty : Bool)
  | http (url : Parsed) (cafile : Str)
  | buffer (size : Int)
deriving DecidableEq, Repr

/-- An open backend: `backends/file.py:48-77`, `backends/nbd.py:55-66`,
`backends/http.py:52-75`.  For a file, `name` is the attribute `name` of the `io.FileIO` object:
the path if `open` set it (`backends/file.py:39`), otherwise `none`, for the number of the
descriptor (python gives this name to a file made from a descriptor, `util.py:95`); `path` is
the file it really has open.  The limit of the connections is not modelled. -/
inductive Backend
  | file (path : Str) (name : Option Str) (mode : Mode) (env : File.Env) (flags : Nat)
  | nbd (url : Parsed) (dirty : Bool) (mode : Mode) (sparse : Bool)
  | http (url : Parsed) (cafile : Str)

/-- The resource closed by `backend.close()`, `backends/file.py:109-116`,
`backends/nbd.py:144-148`, `backends/http.py:338-343`. -/
def Backend.resource : Backend → Resource
  | .file p _ _ _ f => .file p f
  | .nbd u d _ _ => .nbd u d
  | .http u c => .http u c

/-- What the system answers.  Opening a file is `os.open` (`util.py:94`), making the python file
is `io.FileIO` (`util.py:95`), then `os.fstat` and the reads detecting the block size
(`file.py:40`, `383-389`); connecting to a NBD server or to a http server
(`nbd.py:38`, `http.py:47`), where a failure leaves nothing open (a simplification: what the
constructors of the clients leave open when they fail is not part of this model); mapping the
buffer (`util.py:59`). -/
structure World where
  osOpen : Str → Nat → Except Err Unit
  fileIO : Str → Nat → Except Err Unit
  stat : Str → Except String Bool
  read : Str → File.ReadProbe
  connectNbd : Parsed → Bool → Except Err Unit
  connectHttp : Parsed → Str → Except Err Unit
  mmap : Int → Except Err Unit

/-- The result of a function that opens something, and what is open when it ends.  Of this
model; in python what is open is the state of the process, for example after
`backends/__init__.py:97-107`. -/
abbrev Opened (α : Type) := Except Err α × List Resource

/-- `util.py:62-95` `open`.  When `io.FileIO` fails the descriptor is not closed: `closefd` is
the duty of an object that was not made. -/
def utilOpen (w : World) (path : Str) (mode : Mode) (direct sync : Bool) : Opened Nat :=
  match openFlags mode direct sync with
  | none => (.error (.exception "ValueError"), [])
  | some flags =>
    match w.osOpen path flags with
    | .error e => (.error e, [])
    | .ok () =>
      match w.fileIO path flags with
      | .error e => (.error e, [.file path flags])
      | .ok () => (.ok flags, [.file path flags])

/-- `backends/file.py:22-45` `open`; everything after `util.open` is `File.openFile`. -/
def openFileBackend (w : World) (url : Parsed) (mode : Mode) (sparse : Bool) : Opened Backend :=
  match utilOpen w url.path mode true false with
  | (.error e, left) => (.error e, left)
  | (.ok flags, left) =>
    match File.openFile (.ok ()) (w.stat url.path) (w.read url.path) sparse with
    | (.error e, isOpen) => (.error e, if isOpen then left else [])
    | (.ok env, isOpen) => (.ok (.file url.path (some url.path) mode env flags), if isOpen then left else [])

/-- `backends/nbd.py:19-47` `open` and `55-57` the check of the mode. -/
def openNbdBackend (w : World) (url : Parsed) (mode : Mode) (sparse dirty : Bool) : Opened Backend :=
  match w.connectNbd url dirty with
  | .error e => (.error e, [])
  | .ok () =>
    match mode with
    | .other _ => (.error (.exception "ValueError"), [])
    | _ => (.ok (.nbd url dirty mode sparse), [.nbd url dirty])

/-- `backends/http.py:25-47` `open`: the mode is ignored. -/
def openHttpBackend (w : World) (url : Parsed) (cafile : Str) : Opened Backend :=
  match w.connectHttp url cafile with
  | .error e => (.error e, [])
  | .ok () => (.ok (.http url cafile), [.http url cafile])

/-- The configuration used by `get`: `backend_http.ca_file`, `tls.ca_file`, and the sizes of the
buffers; `backends/__init__.py:95`, `105-106`, `config.py:57-111`. -/
structure Config where
  httpCafile : Str
  tlsCafile : Str
  fileBuffer : Int
  nbdBuffer : Int
  httpBuffer : Int

/-- `backends/__init__.py:15-20` the modules, by the scheme. -/
inductive Module
  | file | http | nbd
deriving DecidableEq, Repr

/-- `backends/__init__.py:15-20`, `69-70`, `91` the lookup of the module; `none` is "not
supported". -/
def moduleOf (scheme : Str) : Option Module :=
  if scheme = lit "file" then some .file
  else if scheme = lit "http" then some .http
  else if scheme = lit "https" then some .http
  else if scheme = lit "nbd" then some .nbd
  else none

/-- `backends/__init__.py:90` -/
def modeOf (ops : List Json) : Mode :=
  if ops.any (fun j => match j with | .str s => decide (s = lit "write") | _ => false) then .rplus else .r

/-- `backends/__init__.py:95` the CA file given to the backend: an empty text is false. -/
def caFile (c : Config) : Str := if c.httpCafile = [] then c.tlsCafile else c.httpCafile

/-- `backends/__init__.py:105-106` the size of the buffer: the section `backend_` followed by
the name of the backend (`file.py:174-176`, `nbd.py:216-218`, `http.py:139-141`). -/
def bufferSize (c : Config) : Backend → Int
  | .file .. => c.fileBuffer
  | .nbd .. => c.nbdBuffer
  | .http .. => c.httpBuffer

/-- `backends/__init__.py:27-31` `Context` -/
structure Context where
  backend : Backend
  buffer : Int

/-- `backends/__init__.py:33-37` `Context.close`: the result, and what is left of the open
resources.  `closeBackend` is the result of `backend.close()`; closing a resource releases it
even if it fails, like `close(2)` on Linux. -/
def Context.close (closeBackend : Except Err Unit) (ctx : Context) (isOpen : List Resource) :
    Except Err Unit × List Resource :=
  (closeBackend, (isOpen.erase ctx.backend.resource).erase (.buffer ctx.buffer))

/-- `backends/__init__.py:97-103` `module.open(...)` -/
def openModule (w : World) (c : Config) (t : Tickets.Fields) : Module → Opened Backend
  | .file => openFileBackend w t.url (modeOf t.ops) t.sparse
  | .nbd => openNbdBackend w t.url (modeOf t.ops) t.sparse t.dirty
  | .http => openHttpBackend w t.url (caFile c)

/-- `backends/__init__.py:73-126` `get`.  `cached` is the context of this connection in the
ticket, `canceled` whether the ticket was canceled when `add_context` is called
(`auth.py:144-152`), `closing` the result of closing the backend then: its error replaces
`AuthorizationError`.  What is open does not include what was open before.  The timeout of the
connection and the closer (lines 120-124) are in `Model/Auth`. -/
def get (w : World) (c : Config) (t : Tickets.Fields) (cached : Option Context) (canceled : Bool)
    (closing : Except Err Unit) : Opened Context :=
  match cached with
  | some ctx => (.ok ctx, [])
  | none =>
    match moduleOf t.url.scheme with
    | none => (.error (.exception "Unsupported"), [])
    | some m =>
      match openModule w c t m with
      | (.error e, left) => (.error e, left)
      | (.ok b, left) =>
        match w.mmap (bufferSize c b) with
        | .error e => (.error e, left)
        | .ok () =>
          let ctx : Context := ⟨b, bufferSize c b⟩
          let isOpen := left ++ [.buffer (bufferSize c b)]
          if canceled then
            match ctx.close closing isOpen with
            | (.error e, left) => (.error e, left)
            | (.ok (), left) => (.error (.authorization "canceled"), left)
          else (.ok ctx, isOpen)

/-- `io.FileIO.mode`: the mode of a file opened with this mode, for example "rb+" for "r+".
Of python, used in `file.py:237`; a file with another mode is never made. -/
def fileIOMode : Mode → Str
  | .r => lit "rb"
  | .w => lit "wb"
  | .rplus => lit "rb+"
  | .other s => s

/-- `util.py:79-86` the mode given as a text. -/
def modeOfText (s : Str) : Mode :=
  if s = lit "r" then .r else if s = lit "w" then .w else if s = lit "r+" then .rplus else .other s

/-- `backends/file.py:236-248` `_clone`, `backends/nbd.py:68-83` `clone`, and
`backends/http.py:77-112` `clone` (where the new connection is taken as another connection to
the same server).  `_clone` opens the name of the file, and does not set the name of the new
file: the name of a clone is a number, which `os.open` refuses.  The clone of the NBD backend does not get `sparse`, its default is
`False`. -/
def clone (w : World) : Backend → Opened Backend
  | .file _ none _ _ _ => (.error (.exception "TypeError"), [])
  | .file _ (some path) mode env _ =>
    let mode' := modeOfText ((fileIOMode mode).filter (· ≠ 'b'))
    match utilOpen w path mode' true false with
    | (.error e, left) => (.error e, left)
    | (.ok flags, left) =>
      match File.cloneFile (.ok ()) (w.read path) env with
      | (.error e, isOpen) => (.error e, if isOpen then left else [])
      | (.ok env', isOpen) => (.ok (.file path none mode' env' flags), if isOpen then left else [])
  | .nbd url dirty mode _ => openNbdBackend w url mode false dirty
  | .http url cafile => openHttpBackend w url cafile

end Imageio.OpenBackend
