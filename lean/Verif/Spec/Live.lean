import Verif.Model.Live
import Verif.Props.Concurrent
/-!
What the storage has to contain when the operations of the server interleave: the bytes of the last operation that ended, for every byte.
-/
namespace Imageio.Spec.Live
open Imageio.Conc Imageio.Live Imageio.Props

variable {σ Γ τ : Type}

/-- The connection `c` is inside the operation `j`, for the ticket object `r`: between `_add_operation` and
`_remove_operation`. -/
def Active (s : Live σ Γ τ) (c : Nat) (j : Job τ) (r : Nat) : Prop :=
  s.pending c = some j ∧ ∃ i k, (s.auth.conns c).pc = .running r i k ∨ (s.auth.conns c).pc = .checking r i k ∨
    (s.auth.conns c).pc = .ended r i k

/-- No two operations that are running change bytes of the same block of an image. -/
def Apart (bs : Nat) (s : Live σ Γ τ) : Prop :=
  ∀ c c' j j' r r' x y, Active s c j r → Active s c' j' r' → s.url r = s.url r' → InRange j.offset j.size x →
    InRange j'.offset j'.size y → x / bs = y / bs → c = c'

/-- In all the states of an execution. -/
def Throughout (E : Env σ Γ τ) (mem : Http.Str → Γ) (acts : List (Act τ)) (P : Live σ Γ τ → Prop) : Prop :=
  ∀ pre post s, acts = pre ++ post → run E (start E mem) pre = some s → P s

/-- The last operation that ended and was asked to change the byte `x` of the image `u`. -/
def last (u : Http.Str) (x : Nat) (ended : List (Done τ)) : Option (Done τ) :=
  (ended.filter fun d => decide (d.url = u ∧ d.job.offset ≤ x ∧ x < d.job.offset + d.job.size)).getLast?

/-- The byte `x` of an image is `b`: unchanged if nothing was asked to change it, and what the last operation had to store there if that one
succeeded. -/
def Explained {S : Source τ} (R : LawfulSource S) (ended : List (Done τ)) (u : Http.Str) (x : Nat) (initial b : Byte) : Prop :=
  match last u x ended with
  | none => b = initial
  | some d => d.ok = true → (wantedBytes R d.job).length = d.job.size ∧ b = byteAt (wantedBytes R d.job) (x - d.job.offset)

end Imageio.Spec.Live
