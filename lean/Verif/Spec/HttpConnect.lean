import Verif.Model.HttpConnect
import Verif.Spec.Tickets

/-! What a user of HTTP backends relies on: no socket is lost, the server is verified, and the
capabilities are those the server reports. -/

namespace Imageio.Spec.HttpConnect
open Imageio.Http Imageio.Images Imageio.HttpConnect

/-- The sockets of a backend. -/
def Owned {ε : Type} (b : HttpBackend ε) : List Sock :=
  match b.con with
  | some { sock := some s, .. } => [s]
  | _ => []

/-- What a program does with backends: open one with a transfer url and maybe a proxy url, clone
one, send a request, ask for the size, or close one. -/
inductive Act where
  | openUrl (transfer : Opts) (proxy : Option Opts)
  | clone (i : Nat)
  | request (i : Nat)
  | head (i : Nat)
  | close (i : Nat)

/-- The backends of the program, and the world. -/
structure Sys (ε : Type) where
  bs : List (HttpBackend ε)
  w : World

/-- A step; what is done with a backend that does not exist has no effect. -/
def step {ε : Type} (loads : Bytes → Option Json) (s : Sys ε) : Act → Sys ε
  | .openUrl t p =>
    match openHttp ε t p loads s.w with
    | (.error _, w) => { s with w }
    | (.ok b, w) => { bs := s.bs ++ [b], w }
  | .clone i =>
    match s.bs[i]? with
    | none => s
    | some b =>
      match b.clone s.w with
      | (.error _, w) => { s with w }
      | (.ok b, w) => { bs := s.bs ++ [b], w }
  | .request i =>
    match s.bs[i]? with
    | none => s
    | some b => { bs := s.bs.set i (b.request s.w).2.1, w := (b.request s.w).2.2 }
  | .head i =>
    match s.bs[i]? with
    | none => s
    | some b => { bs := s.bs.set i (b.emulateHead s.w).2.1, w := (b.emulateHead s.w).2.2 }
  | .close i =>
    match s.bs[i]? with
    | none => s
    | some b => { bs := s.bs.set i (b.close s.w).1, w := (b.close s.w).2 }

/-- An execution of a program that has no backend yet. -/
def run {ε : Type} (loads : Bytes → Option Json) (w : World) (as : List Act) : Sys ε :=
  as.foldl (step loads) { bs := [], w }

/-- How a TCP connection verifies the server. -/
def Verified (o : Opts) (t : Option Tls) : Prop :=
  (o.https = false ∧ t = none) ∨
  (o.https = true ∧ o.secure = true ∧ t = some ⟨o.cafile, true, true⟩) ∨
  (o.https = true ∧ o.secure = false ∧ t = some ⟨o.cafile, false, false⟩)

/-- The server lists the feature. -/
def Listed (d : List (Str × Json)) (name : String) : Prop :=
  ∃ fs, Tickets.Field d "features" (.arr fs) ∧ .str name.toList ∈ fs

/-- The features, if the server reports them, are a list of names, or by mistake a text. -/
def Regular (d : List (Str × Json)) : Prop :=
  ∀ v, Tickets.Field d "features" v →
    (∃ names : List Str, v = .arr (names.map .str)) ∨ ∃ text, v = .str text

/-- The document says that the option has the value, or does not say anything about it. -/
def Reads (d : List (Str × Json)) (name : String) (default v : Json) : Prop :=
  (Listed d name ∧ v = .bool true) ∨
  (¬ Listed d name ∧ (Tickets.Field d name v ∨ (Tickets.Absent d name ∧ v = default)))

end Imageio.Spec.HttpConnect
