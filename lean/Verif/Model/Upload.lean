import Verif.Model.Concurrent
import Verif.Model.ClientIo
/-!
An upload seen from the server: every worker of the client has its own connection, sends its requests
one after the other, and a flush at the end.  The requests of the workers run in the server at the
same time.
-/
namespace Imageio.Conc
open Prog

/-- The requests of one connection, one after the other (`_internal/http.py:208-245` `handle_one_request`; the
client stops at the first response that is not a success, `client/_io.py:248-253`). -/
def jobsP {σ τ : Type} (B : ProgBackend σ) (S : Source τ) : List (Job τ) → Prog σ Unit
  | [] => pure ()
  | j :: js => bind (j.prog B S) fun _ => jobsP B S js

/-- All requests of a worker that ends with STOP: the requests of the copy, and then flush
(`client/_io.py:237-247`, `handlers/images.py:203-220`). -/
def connP {σ τ : Type} (B : ProgBackend σ) (S : Source τ) (js : List (Job τ)) : Prog σ Unit :=
  bind (jobsP B S js) fun _ => B.flush

/-- The start: an image, and the connections with their backends and the requests they will get.
`client/_io.py:226-227`, `services.py:45-52`. -/
def startConns {ι σ Γ τ : Type} (B : ProgBackend σ) (S : Source τ) (g : Γ) (loc : ι → σ)
    (conns : ι → List (Job τ)) : Config ι σ Γ := ⟨g, loc, fun i => connP B S (conns i)⟩

end Imageio.Conc

namespace Imageio.Io

/-- The storage calls of worker `k` in a copy, in order (`client/_io.py:237-247`, `273-293`). -/
def Ex.callsOf (cut : Req → List Req) (s : Ex) (k : Nat) : List Req :=
  ((s.handled.filter fun h => h.1 = k).map Prod.snd).flatMap cut

end Imageio.Io
