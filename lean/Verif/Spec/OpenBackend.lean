import Verif.Model.OpenBackend
/-! What opening the backend of a ticket should do, in the words of `open(2)`. -/
namespace Imageio.OpenBackend.Spec
open Imageio.Http Imageio.Images Imageio.Url

/-- The ticket allows writing. -/
def Writes (ops : List Json) : Prop := Json.str (lit "write") ∈ ops

/-- `open(2)`: the two low bits are the access mode, 0 is reading only. -/
def ReadOnly (flags : Nat) : Prop := flags % 4 = 0

/-- `open(2)`: the access mode 2 is reading and writing. -/
def ReadWrite (flags : Nat) : Prop := flags % 4 = 2

/-- The bit `O_DIRECT`. -/
def Direct (flags : Nat) : Prop := flags.testBit 14 = true

/-- Opening with these flags changes nothing: no file is created (`O_CREAT`) and no file is made
empty (`O_TRUNC`). -/
def Harmless (flags : Nat) : Prop := flags.testBit 6 = false ∧ flags.testBit 9 = false

/-- What the backend of a ticket should be: of the kind of the url of the ticket, with the rights
of the ticket and no other. -/
def Right (c : Config) (t : Tickets.Fields) : Backend → Prop
  | .file path name _ env flags =>
    t.url.scheme = lit "file" ∧ path = t.url.path ∧ name = some path ∧ env.sparse = t.sparse ∧
      Direct flags ∧ Harmless flags ∧
      (Writes t.ops → ReadWrite flags) ∧ (¬ Writes t.ops → ReadOnly flags)
  | .nbd url dirty mode sparse =>
    t.url.scheme = lit "nbd" ∧ url = t.url ∧ dirty = t.dirty ∧ sparse = t.sparse ∧
      (Writes t.ops → mode = .rplus) ∧ (¬ Writes t.ops → mode = .r)
  | .http url cafile =>
    (t.url.scheme = lit "http" ∨ t.url.scheme = lit "https") ∧ url = t.url ∧
      (c.httpCafile ≠ [] → cafile = c.httpCafile) ∧ (c.httpCafile = [] → cafile = c.tlsCafile)

/-- The system has really opened this: the file with these flags, the connection to the NBD server
with the dirty bitmap or not, the connection to the http server checked with these certificates. -/
def Accepted (w : World) : Resource → Prop
  | .file path flags => w.osOpen path flags = .ok () ∧ w.fileIO path flags = .ok ()
  | .nbd url dirty => w.connectNbd url dirty = .ok ()
  | .http url cafile => w.connectHttp url cafile = .ok ()
  | .buffer size => w.mmap size = .ok ()

/-- The size of the buffer configured for urls of this scheme. -/
def ConfiguredBuffer (c : Config) (scheme : Str) (n : Int) : Prop :=
  (scheme = lit "file" → n = c.fileBuffer) ∧ (scheme = lit "nbd" → n = c.nbdBuffer) ∧
    (scheme = lit "http" ∨ scheme = lit "https" → n = c.httpBuffer)

end Imageio.OpenBackend.Spec
