import Verif.Model.LiveRead
import Verif.Spec.Live
/-!
What a download may contain when the images change meanwhile: for every byte, what was on the disk at some moment of the operation.
-/
namespace Imageio.Spec.LiveRead
open Imageio.Live Imageio.LiveRead

variable {σ Γ τ : Type}

/-- The connection `c` is inside of the operation `i` of the ticket object `r`, that does the download `j`. -/
def Downloading (s : Sys σ Γ τ) (c : Nat) (j : RJob) (r i : Nat) : Prop :=
  s.reading c = some j ∧ ∃ k, (s.live.auth.conns c).pc = .running r i k

/-- In some state of the execution, in which this operation was running, the byte `x` of the image `u` was `b`. -/
def Seen (E : Env σ Γ τ) (mem : Http.Str → Γ) (content : Γ → Nat → Byte) (acts : List (LiveRead.Act τ)) (c : Nat) (j : RJob) (r i : Nat) (u : Http.Str)
    (x : Nat) (b : Byte) : Prop :=
  ∃ pre post t, acts = pre ++ post ∧ LiveRead.run E (LiveRead.start E mem) pre = some t ∧ Downloading t c j r i ∧ content (t.live.mem u) x = b

/-- In all the states of an execution. -/
def Always (E : Env σ Γ τ) (mem : Http.Str → Γ) (acts : List (LiveRead.Act τ)) (P : Live σ Γ τ → Prop) : Prop :=
  ∀ pre post t, acts = pre ++ post → LiveRead.run E (LiveRead.start E mem) pre = some t → P t.live

end Imageio.Spec.LiveRead
