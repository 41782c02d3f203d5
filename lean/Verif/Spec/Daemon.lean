import Verif.Model.Daemon

/-!
What the effects of the daemon mean for the system: the identity of the process, the unix
sockets in the file system, the protection of the sockets.
-/
namespace Imageio.Spec.Sys
open Imageio.Daemon

/-- The identity of the process. -/
structure Creds where
  uid : Nat
  gid : Nat
  /-- the supplementary groups are those of this user (`none`: the initial groups) -/
  groups : Option Str
deriving DecidableEq, Repr

def Creds.step (c : Creds) : Act → Creds
  | .initgroups user _ => { c with groups := some user }
  | .setgid g => { c with gid := g }
  | .setuid u => { c with uid := u }
  | _ => c

/-- The identity after the effects. -/
def creds (c : Creds) (l : List Act) : Creds := l.foldl Creds.step c

/-- The effects which only root may do. -/
def needsRoot : Act → Bool
  | .chown .. => true
  | .initgroups .. => true
  | .setgid _ => true
  | .setuid _ => true
  | _ => false

/-- A unix socket in the file system: its permissions (`none`: the default) and owner
(`none`: the initial identity of the process). -/
structure Node where
  mode : Option Nat
  owner : Option (Nat × Nat)
deriving DecidableEq, Repr

def nodeStep (path : Str) (n : Option Node) : Act → Option Node
  | .bindUnix _ p => if p = path then some ⟨none, none⟩ else n
  | .unlink p => if p = path then none else n
  | .chmod p m => if p = path then n.map fun n => { n with mode := some m } else n
  | .chown p u g => if p = path then n.map fun n => { n with owner := some (u, g) } else n
  | _ => n

/-- The socket at `path` after the effects, if any. -/
def node (path : Str) (l : List Act) : Option Node := l.foldl (nodeStep path) none

/-- The address a service is bound to. -/
inductive Addr where
  | tcp (f : Family) (host : Str) (port : Nat)
  | unix (path : Str)
deriving DecidableEq, Repr

/-- The listening socket of a service. -/
structure Sock where
  addr : Addr
  listening : Bool
  /-- certificate, key, authorities and oldest version -/
  tls : Option (Str × Str × Str × Tls)
  /-- requests are dispatched to the routes of the service -/
  routed : Bool
  serving : Bool
deriving DecidableEq, Repr

def sockStep (s : Service) (x : Option Sock) : Act → Option Sock
  | .bindTcp t f h p => if t = s then some ⟨.tcp f h p, false, none, false, false⟩ else x
  | .bindUnix t p => if t = s then some ⟨.unix p, false, none, false, false⟩ else x
  | .listen t => if t = s then x.map fun x => { x with listening := true } else x
  | .wrapTls t c k ca m =>
    if t = s then x.map fun x => { x with tls := some (c, k, ca, m) } else x
  | .install t => if t = s then x.map fun x => { x with routed := true } else x
  | .serve t => if t = s then x.map fun x => { x with serving := true } else x
  | .shutdown t => if t = s then x.map fun x => { x with serving := false } else x
  | _ => x

/-- The socket of a service after the effects. -/
def sock (s : Service) (l : List Act) : Option Sock := l.foldl (sockStep s) none

/-- A TCP port that can be bound, or 0 for any port. -/
def TcpPort (p : Int) : Prop := 0 ≤ p ∧ p ≤ 65535

/-- The services which the configuration enables. -/
def Enabled (c : Cfg) : Service → Prop
  | .remote => True
  | .loc => c.localEnable = true
  | .control => c.controlEnable = true

/-- A lower case text is one of the supported transports. -/
def IsTcp (t : Str) : Prop := t.map Char.toLower = ['t', 'c', 'p']
def IsUnix (t : Str) : Prop := t.map Char.toLower = ['u', 'n', 'i', 'x']

/-- A configuration with which the documentation says the daemon can start. -/
structure Valid (c : Cfg) : Prop where
  remote : TcpPort c.remotePort
  tls : c.tlsEnable = true → c.certFile ≠ [] ∧ c.keyFile ≠ []
  control : c.controlEnable = true →
    (IsTcp c.controlTransport ∧ TcpPort c.controlPort) ∨ IsUnix c.controlTransport
  loc : c.localEnable = true → '\x00' ∉ c.localSocket.tail

end Imageio.Spec.Sys
