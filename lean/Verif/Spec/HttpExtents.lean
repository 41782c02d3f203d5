import Verif.Model.HttpExtents
import Verif.Spec.Extents

/-! The clients of one served image, and the states the image was in. -/

namespace Imageio.Spec.HttpExtents
open Imageio.Http Imageio.Images Imageio.Extents Imageio.HttpExtents

/-- What happens: the image changes, a client asks for extents or the size, or is cloned. -/
inductive Act (σ : Type) where
  | change (f : σ → σ)
  | extents (i : Nat) (context : Str)
  | size (i : Nat)
  | clone (i : Nat)

/-- The clients, the world, and all states the image was in until now. -/
structure Sys (σ : Type) where
  clients : List Known
  w : World σ
  past : List σ

/-- A step. -/
def step {σ τ : Type} (S : Served σ τ) (s : Sys σ) : Act σ → Sys σ
  | .change f => { s with w := { s.w with srv := f s.w.srv }, past := f s.w.srv :: s.past }
  | .extents i context =>
    match s.clients[i]? with
    | none => s
    | some c =>
      { s with clients := s.clients.set i (askExtents S context c s.w).2.1, w := (askExtents S context c s.w).2.2 }
  | .size i =>
    match s.clients[i]? with
    | none => s
    | some c => { s with clients := s.clients.set i (askSize S c s.w).2.1, w := (askSize S c s.w).2.2 }
  | .clone i =>
    match s.clients[i]? with
    | none => s
    | some c => { s with clients := s.clients ++ [cloned c] }

/-- The end of the last extent. -/
def EndsAt (l : List ZeroExtent) (n : Nat) : Prop :=
  ∃ pre e, l = pre ++ [e] ∧ n = e.start + e.length

/-- The client knows only what was true of some state of the image. -/
structure Knows {σ τ : Type} (S : Served σ τ) (past : List σ) (c : Known) : Prop where
  zero : ∀ l, c.zero = some l → ∃ s ∈ past, S.zero s = .ok l
  dirty : ∀ l, c.dirty = some l → S.dirtyTicket = true ∧ ∃ s ∈ past, S.dirty s = .ok l
  size : ∀ n, c.size = some n → ∃ s ∈ past,
    (c.canExtents = true ∧ ∃ l, S.zero s = .ok l ∧ EndsAt l n) ∨ (c.canExtents = false ∧ S.size s = n)

/-- An execution with a client that is just opened. -/
def run {σ τ : Type} (S : Served σ τ) (canExtents : Bool) (w : World σ) (as : List (Act σ)) : Sys σ :=
  as.foldl (step S) { clients := [⟨canExtents, none, none, none⟩], w, past := [w.srv] }

end Imageio.Spec.HttpExtents
