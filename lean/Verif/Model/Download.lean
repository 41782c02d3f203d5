import Verif.Model.Upload
import Verif.Model.HttpBackend
/-!
A download: every worker of the client has its own connection to the server and its own connection to the local
`qemu-nbd`.  It reads ranges of the served image and writes them to the local image; the workers write to one
local image at the same time.
-/
namespace Imageio.Download
open Imageio.Conc Imageio.Conc.Prog Imageio.HttpBackend Imageio.Io
open Imageio.Http (clientRange)

variable {σ δ : Type}

/-- The loop of `write_to`, `backends/http.py:206-220`, see `HttpBackend.writerLoop`.  The result of `write` is not
used. -/
def writerLoopP (D : ProgBackend δ) (addr : Nat) (pieces : List Nat) (body : Bytes) (step todo : Nat) : Prog δ Unit :=
  if _h : todo = 0 then pure ()
  else
    let k := min (min todo step) (min body.length (pieces.headD todo + 1))
    if _h : k = 0 then .ret (.error (.exception "RuntimeError"))
    else bind (D.write addr (body.take k)) fun _ => writerLoopP D addr pieces.tail (body.drop k) step (todo - k)
termination_by todo
decreasing_by omega

/-- `backends/http.py:196-223` `write_to`, see `HttpBackend.writeTo`.  Simplified: the served image is not modified
during the download, so the request to the server is not a step that the other workers can see. -/
def writeToP (S : Server σ) (D : ProgBackend δ) (addr length step : Nat) (w : World σ) : Prog δ (World σ) :=
  let pieces := w.net.pieces
  match getRequest S (some (clientRange w.client.position length)) w with
  | (.error e, _) => .ret (.error e)
  | (.ok r, w) =>
    match checkRange length r with
    | .error e => .ret (.error e)
    | .ok body =>
      bind (writerLoopP D addr pieces body step length) fun _ =>
        pure { w with client := { w.client with position := w.client.position + length } }

/-- `client/_io.py:273-293` `Handler.zero` and `Handler.copy` with an HTTP source and a destination without
`read_from`.  `step` is the size of the buffer.  STOP is in `workerP`. -/
def handleP (S : Server σ) (D : ProgBackend δ) (addr step : Nat) (w : World σ) (r : Req) : Prog δ (World σ) :=
  match r.op with
  | .zero => bind (D.seek r.start) fun _ => bind (D.zero r.length) fun _ => pure w
  | .copy =>
    let w := (HttpBackend.seek w r.start).2
    bind (D.seek r.start) fun _ => writeToP S D addr r.length step w
  | .stop => pure w

/-- The requests of a worker, one after the other; the worker ends at the first exception
(`client/_io.py:237-253`). -/
def requestsP (S : Server σ) (D : ProgBackend δ) (addr step : Nat) : List Req → World σ → Prog δ (World σ)
  | [], w => pure w
  | r :: rs, w => bind (handleP S D addr step w r) fun w => requestsP S D addr step rs w

/-- A worker that gets STOP after its requests: flush the local image (`client/_io.py:237-247`, `295-296`). -/
def workerP (S : Server σ) (D : ProgBackend δ) (addr step : Nat) (rs : List Req) (w : World σ) : Prog δ Unit :=
  bind (requestsP S D addr step rs w) fun _ => D.flush

/-- The start: the local image, and for every worker its connection to the local `qemu-nbd`, its connection to the
server, and the requests it will handle.  `client/_io.py:48-56`. -/
def startWorkers {ι Γ : Type} (S : Server σ) (D : ProgBackend δ) (addr step : Nat) (g : Γ) (loc : ι → δ)
    (worlds : ι → World σ) (rs : ι → List Req) : Config ι δ Γ :=
  ⟨g, loc, fun i => workerP S D addr step (rs i) (worlds i)⟩

end Imageio.Download
