import Verif.Model.QemuNbd
import Verif.Model.Tickets
import Verif.Model.Json
import Verif.Model.Config

/-!
The container that serves one image, `container/app/entrypoint.py`: the ticket, qemu-nbd and the daemon; and
how the daemon installs the ticket given on its command line (`server.py` `_add_ticket`).
-/
namespace Imageio.Container
open Imageio.Http Imageio.Images Imageio.Url Imageio.JsonText

/-- `container/app/entrypoint.py:48-60` the ticket id: `args.ticket_id or os.path.basename(args.image)`; the
empty text is false. -/
def ticketId (given : Option Str) (image : Str) : Str :=
  match given with
  | none => Config.baseName image
  | some [] => Config.baseName image
  | some id => id

/-- `container/app/entrypoint.py:37-45` `_generate_ticket`; `size` is what qemu-img reported. -/
def generateTicket (uuid socket : Str) (size : Json) : Json :=
  .obj [(lit "uuid", .str uuid), (lit "url", .str (lit "nbd:unix:" ++ socket)), (lit "size", size),
    (lit "timeout", .int 3000), (lit "inactivity_timeout", .int 300), (lit "ops", .arr [.str (lit "read")])]

/-- `os.path.join(base, name)` for a name that does not begin with a slash.  `container/app/entrypoint.py:24`. -/
def join (base name : Str) : Str :=
  if base = [] ∨ base.getLast? = some '/' then base ++ name else base ++ '/' :: name

/-- `image_info[name]`, `container/app/entrypoint.py:27`, `32`. -/
def item (info : Json) (name : String) : Except Err Json :=
  match info.get (lit name) with
  | .error _ => .error (.exception "TypeError")
  | .ok none => .error (.exception "KeyError")
  | .ok (some v) => .ok v

/-- `image_info["format"]` as an argument of qemu-nbd, `container/app/entrypoint.py:32`.  Simplification: a format that
is not a text is an error; qemu-img reports texts. -/
def format (info : Json) : Except Err Str :=
  match item info "format" with
  | .error e => .error e
  | .ok (.str s) => .ok s
  | .ok _ => .error (.exception "TypeError")

/-- What the system does: `qemu-img info` (`_internal/qemu_img.py:54-57`), `tempfile.mkdtemp` and `shutil.rmtree`
(`_internal/util.py:115-121`), writing the ticket file (`container/app/entrypoint.py:28-29`), what qemu-nbd does
(`_internal/qemu_nbd.py`), and how the daemon ends (`container/app/entrypoint.py:33-34`).  `KeyboardInterrupt` while the
daemon runs is one of its ends. -/
structure World where
  info : Except Err Json
  mkdtemp : Except Err Str
  write : Except Err Unit
  nbdEnv : QemuNbd.Env
  nbd : QemuNbd.World
  daemon : Except Err Unit
  rmtree : Except Err Unit

/-- What is left, and what was seen: the text of the ticket file (if it was written), whether the temporary
directory is left, the process of qemu-nbd, and, if the daemon was run, the command of qemu-nbd then.
`container/app/entrypoint.py:20-34`. -/
structure Left where
  file : Option Str
  tmp : Bool
  proc : QemuNbd.Proc
  served : Option (List Str)

/-- `container/app/entrypoint.py:32` the arguments of qemu-nbd; the others have the defaults of
`_internal/qemu_nbd.py:254-259`. -/
def server (image fmt socket : Str) : QemuNbd.Server := { image, fmt, sock := .unix socket }

/-- `container/app/entrypoint.py:31-34` qemu-nbd with the daemon, after the ticket file was written with `text`. -/
def export_ (w : World) (image fmt socket text : Str) : Except Err Unit × Left :=
  let cmd := (server image fmt socket).command w.nbdEnv
  let x := QemuNbd.run w.nbd cmd w.daemon
  let served :=
    match QemuNbd.start w.nbd cmd ⟨false, false⟩ with
    | (.ok (), _) => cmd.toOption
    | (.error _, _) => none
  (x.1, ⟨some text, true, x.2, served⟩)

/-- `container/app/entrypoint.py:24-34` the body of `with util.tmp_dir("imageio-") as base`. -/
def inside (w : World) (image id base : Str) (info : Json) : Except Err Unit × Left :=
  let socket := join base (lit "sock")
  match item info "virtual-size" with
  | .error e => (.error e, ⟨none, true, ⟨false, false⟩, none⟩)
  | .ok size =>
    let text := dumpsText (generateTicket id socket size)
    match w.write with
    | .error e => (.error e, ⟨none, true, ⟨false, false⟩, none⟩)
    | .ok () =>
      match format info with
      | .error e => (.error e, ⟨some text, true, ⟨false, false⟩, none⟩)
      | .ok fmt => export_ w image fmt socket text

/-- `container/app/entrypoint.py:20-34` `main`, after the arguments were parsed; `_internal/util.py:115-121` `tmp_dir`: an
exception of `rmtree` replaces that of the body. -/
def main (w : World) (image : Str) (given : Option Str) : Except Err Unit × Left :=
  match w.info with
  | .error e => (.error e, ⟨none, false, ⟨false, false⟩, none⟩)
  | .ok info =>
    match w.mkdtemp with
    | .error e => (.error e, ⟨none, false, ⟨false, false⟩, none⟩)
    | .ok base =>
      match inside w image (ticketId given image) base info with
      | (r, l) =>
        match w.rmtree with
        | .error e => (.error e, l)
        | .ok () => (r, { l with tmp := false })

/-- `container/app/entrypoint.py:63-67` the exit status: an interrupt is a normal end, any other exception is a
failure. -/
def exitStatus : Except Err Unit → Nat
  | .ok () => 0
  | .error (.exception "KeyboardInterrupt") => 0
  | .error _ => 1

/-- `server.py:196-208` `_add_ticket`, `_read_ticket`: the text of the file, `none` if there is no such file.  The error is
`none` if the ticket cannot be read or parsed (also `errors.InvalidTicket`). -/
def addTicket (netlocOk : Str → Bool) (inactivity : Int) (file : Option Str) (s : Tickets.Store) :
    Except (Option Tickets.Invalid) Unit × Tickets.Store :=
  match file with
  | none => (.error none, s)
  | some text =>
    match loadsText text with
    | none => (.error none, s)
    | some msg =>
      match Tickets.add netlocOk inactivity msg s with
      | (.ok (), s) => (.ok (), s)
      | (.error e, s) => (.error (some e), s)

end Imageio.Container
