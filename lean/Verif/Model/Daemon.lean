import Verif.Model.HttpServer

/-!
The daemon process: `_internal/ssl.py`, `_internal/services.py`, `_internal/server.py`
(`main`, `Server`), and the servers they create (`_internal/http.py` `Server`,
`_internal/uhttp.py` `Server`).

The effects on the system are a list of `Act`s, in order.  The system may refuse any of
them, which is an exception.
-/
namespace Imageio.Daemon

/-- Python's `str`.  Not a definition of the code; used for the options of `config.py:57-170`. -/
abbrev Str := List Char

/-! ## TLS versions -/

/-- The protocol versions of `ssl.TLSVersion`.  Used in `ssl.py:12-14`, `22-24`. -/
inductive Tls where
  | ssl3 | tls1 | tls1_1 | tls1_2 | tls1_3
deriving DecidableEq, Repr

/-- The wire number of a version (`0x0300`–`0x0304`), which orders them.  Used in `ssl.py:12-14`. -/
def Tls.number : Tls → Nat
  | .ssl3 => 0x300 | .tls1 => 0x301 | .tls1_1 => 0x302 | .tls1_2 => 0x303 | .tls1_3 => 0x304

/-- `ssl.py:12-14` and `ssl.py:22-24` `minimum_version` of the server and client contexts.
The two assignments are in the order of the code. -/
def minimumVersion (enableTls1_1 : Bool) : Tls :=
  let minimum := Tls.tls1_1
  let minimum := if !enableTls1_1 then Tls.tls1 else minimum
  minimum

/-- All versions, the newest first.  A helper for `ssl.py:12-14`. -/
def Tls.all : List Tls := [.tls1_3, .tls1_2, .tls1_1, .tls1, .ssl3]

/-- The version of a connection to a context with this minimum: the newest version which
both sides offer.  `library` are the versions the TLS library supports (built in, and
allowed by the policy of the system), `client` the versions of the peer.  The handshake is
not modelled.  The TLS library, for the context of `ssl.py:8-16`. -/
def negotiate (minimum : Tls) (library client : Tls → Bool) : Option Tls :=
  Tls.all.find? fun v => decide (minimum.number ≤ v.number) && library v && client v

/-! ## The system -/

/-- The services of the daemon.  `server.py:121-138`, `services.py:55`, `105`, `133`. -/
inductive Service where
  | remote | loc | control
deriving DecidableEq, Repr

/-- The address families of `socket.getaddrinfo`.  `http.py:100-135`, `uhttp.py:55`. -/
inductive Family where
  | inet | inet6
deriving DecidableEq, Repr

/-- The effects of the daemon on the system.
The system calls of `server.py:112-208`, `services.py:65-174`, `http.py:84-150` and `uhttp.py:55-94`. -/
inductive Act where
  /-- bind the socket of the service to an address -/
  | bindTcp (s : Service) (f : Family) (host : Str) (port : Nat)
  | bindUnix (s : Service) (addr : Str)
  | listen (s : Service)
  /-- replace the socket of the service by a TLS socket -/
  | wrapTls (s : Service) (cert key ca : Str) (minimum : Tls)
  /-- set the application (route table) of the server -/
  | install (s : Service)
  | unlink (path : Str)
  | chmod (path : Str) (mode : Nat)
  | chown (path : Str) (uid gid : Nat)
  | initgroups (user : Str) (gid : Nat)
  | setgid (gid : Nat)
  | setuid (uid : Nat)
  | addTicket
  /-- start the thread accepting connections -/
  | serve (s : Service)
  /-- tell systemd that the daemon is ready -/
  | notify
  /-- end the loop accepting connections, and wait for it -/
  | shutdown (s : Service)
deriving DecidableEq, Repr

/-- The configuration used by the startup, `config.py:57-170`. -/
structure Cfg where
  remoteHost : Str
  remotePort : Int
  tlsEnable : Bool
  caFile : Str
  certFile : Str
  keyFile : Str
  enableTls1_1 : Bool
  localEnable : Bool
  localSocket : Str
  controlEnable : Bool
  controlTransport : Str
  controlSocket : Str
  controlPort : Int
  preferIpv4 : Bool
  dropPrivileges : Bool
  userName : Str
  groupName : Str
  runDir : Str
  systemdEnable : Bool

/-- The answers of the system.  The results of the system calls of `Act`, which cites the code.
`server.py:118-200`, `services.py:55-163`. -/
structure Env where
  /-- the system refuses an effect, after the earlier effects -/
  fails : List Act → Act → Bool
  /-- `os.geteuid() == 0` -/
  root : Bool
  /-- `find_addresses(host)` (`http.py:848-864`), the families in order; `none` is
  `socket.gaierror` -/
  addresses : Str → Option (List Family)
  /-- the port chosen by the kernel for port 0 -/
  freePort : Service → Nat
  /-- `uuid.uuid4()` -/
  uuid : Service → Str
  /-- `pwd.getpwnam(name).pw_uid`, `none` is `KeyError` -/
  uid : Str → Option Nat
  /-- `grp.getgrnam(name).gr_gid` -/
  gid : Str → Option Nat
  /-- `os.path.exists` -/
  pathExists : Str → Bool
  /-- the files of the log handlers -/
  logFiles : List Str
  /-- the ticket file is readable, valid json and a valid ticket -/
  ticketValid : Bool

/-- The exceptions of the startup.
`services.py:68-69`, `149-150`; `server.py:196-208`; `OSError` of the system calls. -/
inductive DErr where
  | invalidConfig | tlsConfiguration | os | gai | value | key | index | ticket
deriving DecidableEq, Repr

/-- The state of the startup, `server.py:41-48`: the log of the effects, and the configuration. -/
structure St where
  cfg : Cfg
  trace : List Act

/-- Code that may raise, with its effects; a helper for `server.py:41-208`. -/
def M (α : Type) := St → Except DErr α × St

/-- The sequence of statements; a helper for `server.py:41-208`. -/
def M.bind {α β : Type} (m : M α) (f : α → M β) : M β := fun s =>
  match m s with
  | (.ok a, s') => f a s'
  | (.error e, s') => (.error e, s')

instance : Monad M where
  pure a := fun s => (.ok a, s)
  bind := M.bind

/-- `raise e`.  A helper for `services.py:69`. -/
def raise {α : Type} (e : DErr) : M α := fun s => (.error e, s)

/-- `if not b: raise e`.  A helper for `services.py:68-69`. -/
def check (b : Bool) (e : DErr) : M Unit := if b then pure () else raise e

/-- `if b: m`.  A helper for `server.py:121-150`. -/
def when (b : Bool) (m : M Unit) : M Unit := if b then m else pure ()

/-- `self.config`, `server.py:122`. -/
def cfg : M Cfg := fun s => (.ok s.cfg, s)

/-- Assignment to an option, such as `services.py:75`, `156`. -/
def setCfg (f : Cfg → Cfg) : M Unit := fun s => (.ok (), { s with cfg := f s.cfg })

/-- An effect.  A refused effect is an exception and changes nothing.
A system call of `server.py:112-208` or `services.py:65-174`. -/
def act (env : Env) (a : Act) : M Unit := fun s =>
  if env.fails s.trace a then (.error .os, s)
  else (.ok (), { s with trace := s.trace ++ [a] })

/-- An optional answer of the system.  A helper for `server.py:165-166`. -/
def ask {α : Type} (x : Option α) (e : DErr) : M α :=
  match x with
  | none => raise e
  | some a => pure a

/-- A system call with a path: python raises `ValueError: embedded null byte` for a path
with a null character.  `server.py:173`, `188`; `services.py:163`; `uhttp.py:55-81`. -/
def pathAct (env : Env) (path : Str) (a : Act) : M Unit := do
  check (!decide ('\x00' ∈ path)) .value
  act env a

/-! ## The servers -/

/-- `http.py:100-135` the address family of the socket.  The sort by
`family != AF_INET` is stable: IPv4 addresses first. -/
def chooseFamily (preferIpv4 : Bool) (fs : List Family) : Option Family :=
  let fs := if preferIpv4 then
    fs.filter (fun f => decide (f = .inet)) ++ fs.filter (fun f => !decide (f = .inet)) else fs
  fs.head?

/-- `http.py:84-98,137-149` `Server.__init__`: create, bind and listen.  Closing the socket
on failure is not modelled (the process ends).  The result is `server_port`. -/
def tcpServer (env : Env) (s : Service) (host : Str) (port : Nat) (preferIpv4 : Bool) :
    M Nat := do
  let fs ← ask (env.addresses host) .gai
  let f ← ask (chooseFamily preferIpv4 fs) .index
  let p := if port = 0 then env.freePort s else port
  act env (.bindTcp s f host p)
  act env (.listen s)
  pure p

/-- `uhttp.py:55-81` `Server.create_socket` and `server_bind`, and `server_activate`.
The result is `server_address`. -/
def unixServer (env : Env) (s : Service) (addr : Str) : M Str := do
  let addr := if addr = [] then '\x00' :: env.uuid s else addr
  when (!decide (addr.head? = some '\x00')) (pathAct env addr (.unlink addr))
  act env (.bindUnix s addr)
  act env (.listen s)
  pure addr

/-- `services.py:68`, `services.py:149` the check of a port. -/
def portOk (port : Int) : Bool := decide (0 ≤ port) && decide (port < 0xFFFF)

/-- `services.py:88-102` `RemoteService._secure_server`. -/
def secureServer (env : Env) : M Unit := do
  let c ← cfg
  check (!(decide (c.certFile = []) || decide (c.keyFile = []))) .tlsConfiguration
  act env (.wrapTls .remote c.certFile c.keyFile c.caFile (minimumVersion c.enableTls1_1))

/-- `services.py:65-86` `RemoteService.__init__`. -/
def remoteService (env : Env) : M Unit := do
  let c ← cfg
  check (portOk c.remotePort) .invalidConfig
  let p ← tcpServer env .remote c.remoteHost c.remotePort.toNat false
  when (decide (c.remotePort = 0)) (setCfg fun c => { c with remotePort := p })
  when c.tlsEnable (secureServer env)
  act env (.install .remote)

/-- `services.py:115-130` `LocalService.__init__`. -/
def localService (env : Env) : M Unit := do
  let c ← cfg
  let a ← unixServer env .loc c.localSocket
  when (decide (c.localSocket = [])) (setCfg fun c => { c with localSocket := a })
  act env (.install .loc)

/-- `services.py:23` -/
def defaultSocketMode : Nat := 0o660

/-- `str.lower()`, for ASCII.  Used in `services.py:145`, `server.py:186`. -/
def lower (s : Str) : Str := s.map Char.toLower

/-- `services.py:146-156` the control service over TCP. -/
def controlTcp (env : Env) (c : Cfg) : M Unit := do
  check (portOk c.controlPort) .invalidConfig
  let p ← tcpServer env .control "localhost".toList c.controlPort.toNat c.preferIpv4
  when (decide (c.controlPort = 0)) (setCfg fun c => { c with controlPort := p })

/-- `services.py:157-163` the control service over a unix socket. -/
def controlUnix (env : Env) (c : Cfg) : M Unit := do
  let a ← unixServer env .control c.controlSocket
  when (decide (c.controlSocket = [])) (setCfg fun c => { c with controlSocket := a })
  let c ← cfg
  pathAct env c.controlSocket (.chmod c.controlSocket defaultSocketMode)

/-- `services.py:143-174` `ControlService.__init__`. -/
def controlService (env : Env) : M Unit := do
  let c ← cfg
  if lower c.controlTransport = "tcp".toList then controlTcp env c
  else if lower c.controlTransport = "unix".toList then controlUnix env c
  else raise .invalidConfig
  act env (.install .control)

/-- `server.py:175-182` change the owner of the log files. -/
def chownLogs (env : Env) (uid gid : Nat) : List Str → M Unit
  | [] => pure ()
  | f :: fs => do
    pathAct env f (.chown f uid gid)
    chownLogs env uid gid fs

/-- `server.py:164-194` `Server._drop_privileges`.  `hasControl` is
`self.control_service is not None`. -/
def dropPrivileges (env : Env) (hasControl : Bool) : M Unit := do
  let c ← cfg
  let uid ← ask (env.uid c.userName) .key
  let gid ← ask (env.gid c.groupName) .key
  when (env.pathExists c.runDir) (pathAct env c.runDir (.chown c.runDir uid gid))
  chownLogs env uid gid env.logFiles
  when (hasControl && decide (lower c.controlTransport = "unix".toList))
    (pathAct env c.controlSocket (.chown c.controlSocket uid gid))
  act env (.initgroups c.userName gid)
  act env (.setgid gid)
  act env (.setuid uid)

/-- `server.py:196-208` `Server._add_ticket`. -/
def addTicket (env : Env) : M Unit := do
  check env.ticketValid .ticket
  act env .addTicket

/-- `server.py:121-140` `Server.__init__`.  `ticket` is whether a ticket was given. -/
def initServer (env : Env) (ticket : Bool) : M Unit := do
  remoteService env
  let c ← cfg
  when c.localEnable (localService env)
  let c ← cfg
  when c.controlEnable (controlService env)
  let c ← cfg
  when (env.root && c.dropPrivileges) (dropPrivileges env c.controlEnable)
  when ticket (addTicket env)

/-- `server.py:142-150` `Server.start`, and `services.py:32-34`. -/
def startServer (env : Env) : M Unit := do
  let c ← cfg
  act env (.serve .remote)
  when c.localEnable (act env (.serve .loc))
  when c.controlEnable (act env (.serve .control))

/-- `server.py:112-116` `notify_systemd`. -/
def notifySystemd (env : Env) : M Unit := do
  let c ← cfg
  when c.systemdEnable (act env .notify)

/-- `server.py:41-48` `main`, from the loaded configuration to "Ready for requests". -/
def startup (env : Env) (ticket : Bool) : M Unit := do
  initServer env ticket
  startServer env
  notifySystemd env

/-- `uhttp.py:91-94` `Server.shutdown`, for a server bound to `addr`. -/
def unixShutdown (env : Env) (s : Service) (addr : Str) : M Unit := do
  when (!decide (addr.head? = some '\x00')) (pathAct env addr (.unlink addr))
  act env (.shutdown s)

/-- `server.py:152-158` `Server.stop`, `services.py:36-38` `Service.stop`. -/
def stopServer (env : Env) : M Unit := do
  let c ← cfg
  act env (.shutdown .remote)
  when c.localEnable (unixShutdown env .loc c.localSocket)
  when c.controlEnable
    (if lower c.controlTransport = "tcp".toList then act env (.shutdown .control)
     else unixShutdown env .control c.controlSocket)

/-- The route table of each service, `services.py:78-85,123-129,170-173`. -/
def patternsOf : Service → List ((Str → Option (List Str)) × Http.Resource)
  | .remote => Http.remotePatterns
  | .loc => Http.localPatterns
  | .control => Http.controlPatterns

/-! ## Running and terminating -/

/-- Where `main` is (`server.py:45-52`), after the signal handlers were installed. -/
inductive Pc where
  /-- before `server.start()` sets `running` -/
  | installed
  /-- in `server.start()` and `notify_systemd` -/
  | starting
  /-- about to evaluate `server.running` -/
  | checking
  /-- `server.running` was true; about to call `pause()` -/
  | beforePause
  /-- sleeping in the system call -/
  | paused
  /-- in `server.stop()` -/
  | stopping
  | done
deriving DecidableEq, Repr

/-- The process after `signal.signal`, `server.py:42-54`. -/
structure Proc where
  pc : Pc
  /-- `server.running` -/
  running : Bool
  /-- services accepting connections -/
  up : List Service
  /-- signals delivered so far -/
  signals : Nat

/-- The state after `signal.signal(SIGTERM, server.terminate)`.  `server.py:42-43`. -/
def Proc.start : Proc := ⟨.installed, false, [], 0⟩

/-- The next step of the main thread (`server.py:45-54,142-158`).  `services` are the services
of this server.  Failures in `start` and `stop` are not modelled here.  `none`: the thread
sleeps, or the process ended. -/
def Proc.next (services : List Service) (p : Proc) : Option Proc :=
  match p.pc with
  | .installed => some { p with pc := .starting, running := true, up := services }
  | .starting => some { p with pc := .checking }
  | .checking => some { p with pc := if p.running then .beforePause else .stopping }
  | .beforePause => some { p with pc := .paused }
  | .paused => none
  | .stopping => some { p with pc := .done, up := [] }
  | .done => none

/-- `server.py:160-162` `Server.terminate`, run by a signal at any point of the main
thread.  A sleeping `pause()` returns; otherwise the main thread continues where it was. -/
def Proc.signal (p : Proc) : Proc :=
  { p with
    running := false
    signals := p.signals + 1
    pc := if p.pc = .paused then .checking else p.pc }

/-- Executions of the process.  `server.py:41-56`, with signals at any time. -/
inductive Run (services : List Service) : Proc → Proc → Prop
  | refl (p : Proc) : Run services p p
  | step {p q r : Proc} : Run services p q → q.next services = some r → Run services p r
  | signal {p q : Proc} : Run services p q → q.pc ≠ .done → Run services p q.signal

end Imageio.Daemon
