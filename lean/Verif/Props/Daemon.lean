import Verif.Lemmas.Daemon
import Verif.Props.HttpServer

/-! C59, C60, C61: the daemon process. -/
namespace Imageio.Props
open Imageio.Daemon Imageio.Spec.Sys

/-! ## C59: the versions of TLS -/

theorem negotiate_some {m : Tls} {lib cl : Tls → Bool} {v : Tls}
    (h : negotiate m lib cl = some v) :
    m.number ≤ v.number ∧ lib v = true ∧ cl v = true := by
  have := List.find?_some h
  simp only [Bool.and_eq_true, decide_eq_true_eq] at this
  exact ⟨this.1.1, this.1.2, this.2⟩

/-- C59, partial: with `enable_tls1_1` every connection uses TLS 1.1 or later; without it,
TLS 1.0 or later.

The claim is TLS 1.2 or later without `enable_tls1_1`; see the counterexample. -/
theorem C59_oldest_partial (enable : Bool) (lib cl : Tls → Bool) (v : Tls)
    (h : negotiate (minimumVersion enable) lib cl = some v) :
    (if enable then 0x302 else 0x301) ≤ v.number ∧ lib v = true ∧ cl v = true := by
  obtain ⟨h1, h2⟩ := negotiate_some h
  refine ⟨?_, h2⟩
  cases enable <;> simpa [minimumVersion, Tls.number] using h1

example : negotiate (minimumVersion true) (fun _ => true) (fun v => decide (v.number ≤ 0x303))
    = some .tls1_2 := by decide +kernel

/-- C59: the connection uses the newest version of both sides. -/
theorem C59_newest (enable : Bool) (lib cl : Tls → Bool) (v : Tls)
    (h1 : (minimumVersion enable).number ≤ v.number) (h2 : lib v = true) (h3 : cl v = true) :
    ∃ w, negotiate (minimumVersion enable) lib cl = some w ∧ v.number ≤ w.number := by
  generalize minimumVersion enable = m at *
  unfold negotiate Tls.all
  simp only [List.find?_cons, List.find?_nil]
  split
  · exact ⟨_, rfl, by cases v <;> decide⟩
  rename_i a1
  split
  · exact ⟨_, rfl, by cases v <;> first | decide | simp_all⟩
  rename_i a2
  split
  · exact ⟨_, rfl, by cases v <;> first | decide | simp_all⟩
  rename_i a3
  split
  · exact ⟨_, rfl, by cases v <;> first | decide | simp_all⟩
  rename_i a4
  split
  · exact ⟨_, rfl, by cases v <;> first | decide | simp_all⟩
  cases v <;> simp_all

example : (minimumVersion false).number ≤ Tls.tls1_2.number := by decide +kernel

/-- C59: if the library itself refuses versions before TLS 1.2, they are never used. -/
theorem C59_policy (enable : Bool) (lib cl : Tls → Bool) (v : Tls)
    (hl : ∀ w, lib w = true → Tls.tls1_2.number ≤ w.number)
    (h : negotiate (minimumVersion enable) lib cl = some v) : Tls.tls1_2.number ≤ v.number :=
  hl v (negotiate_some h).2.1

example : ∀ w, (fun v => decide (Tls.tls1_2.number ≤ Tls.number v)) w = true →
    Tls.tls1_2.number ≤ w.number := by simp

/-- C59, counterexample: without `enable_tls1_1`, a client offering only TLS 1.0 is accepted;
with `enable_tls1_1` the same client is refused.  The assignment at `ssl.py:14` is the wrong
way around: it lowers the minimum to TLS 1.0 instead of raising it to TLS 1.2. -/
theorem C59_counterexample_old_version :
    negotiate (minimumVersion false) (fun _ => true) (fun v => decide (v = .tls1)) = some .tls1 ∧
    negotiate (minimumVersion true) (fun _ => true) (fun v => decide (v = .tls1)) = none ∧
    negotiate (minimumVersion false) (fun _ => true) (fun v => decide (v = .tls1_1))
      = some .tls1_1 := by decide +kernel

/-! ## C60: starting the daemon -/

theorem begun_creds {c : Cfg} {k : List Act} (h : ∀ b ∈ k, Begun c b) (x : Creds) :
    k.foldl Creds.step x = x :=
  foldl_skip (fun b hb y => by
    rcases h b hb with ⟨sv, rfl, _⟩ | rfl <;> rfl) x

theorem begun_node {c : Cfg} {k : List Act} (h : ∀ b ∈ k, Begun c b) (path : Str)
    (x : Option Node) : k.foldl (nodeStep path) x = x :=
  foldl_skip (fun b hb y => by
    rcases h b hb with ⟨sv, rfl, _⟩ | rfl <;> rfl) x

theorem mem_left {α : Type} {p : α → Prop} {a b : List α} (h : ∀ x ∈ a ++ b, p x) :
    ∀ x ∈ a, p x := fun x hx => h x (by simp [hx])

/-- C60: a service accepts connections only after the constructor finished: if the
constructor fails, nothing is served and the daemon is not reported as ready. -/
theorem C60_failed (env : Env) (ticket : Bool) (c : Cfg) (e : DErr) (s : St)
    (h : initServer env ticket ⟨c, []⟩ = (.error e, s)) :
    startup env ticket ⟨c, []⟩ = (.error e, s) ∧
    ∀ a ∈ s.trace, (∀ sv, a ≠ .serve sv) ∧ a ≠ .notify := by
  constructor
  · unfold startup
    change M.bind _ _ _ = _
    unfold M.bind
    rw [h]
  · obtain ⟨e', he, hp⟩ := adds_init env ticket ⟨c, []⟩
    rw [h] at he
    simp only [List.nil_append] at he
    rw [he]
    exact hp

theorem unixActs_creds (sv : Service) (a : Str) (x : Creds) :
    (unixActs sv a).foldl Creds.step x = x :=
  foldl_skip (fun b hb y => by
    unfold unixActs at hb
    split at hb <;> simp at hb <;> rcases hb with rfl | rfl | rfl <;> rfl) x

theorem remoteActs_creds (c : Cfg) (f : Family) (p : Nat) (x : Creds) :
    (remoteActs c f p).foldl Creds.step x = x := by
  unfold remoteActs
  split <;> rfl

theorem chownActs_creds (env : Env) (c : Cfg) (b : Bool) (u g : Nat) (x : Creds) :
    (chownActs env c b u g).foldl Creds.step x = x :=
  foldl_skip (fun a ha y => by
    have : ∃ p, a = .chown p u g := by
      unfold chownActs at ha
      simp only [List.mem_append, List.mem_map] at ha
      rcases ha with (ha | ⟨p, _, rfl⟩) | ha
      · split at ha
        · exact ⟨_, List.mem_singleton.mp ha⟩
        · cases ha
      · exact ⟨_, rfl⟩
      · split at ha
        · exact ⟨_, List.mem_singleton.mp ha⟩
        · cases ha
    obtain ⟨p, rfl⟩ := this
    rfl) x

theorem built_creds {env : Env} {tk : Bool} {c : Cfg} {l : List Act} (h : Built env tk c l)
    (c0 : Creds) :
    ((env.root && c.dropPrivileges) = false → creds c0 l = c0) ∧
    ((env.root && c.dropPrivileges) = true → ∃ u g, env.uid c.userName = some u ∧
      env.gid c.groupName = some g ∧ creds c0 l = ⟨u, g, some c.userName⟩) := by
  obtain ⟨f, r, lo, co, dr, ti, rfl, rfl, rfl, hco, hco', hdr, hdr', rfl⟩ := h.acts
  have e1 : (if c.localEnable = true then
      unixActs .loc (finalCfg env c).localSocket ++ [Act.install .loc] else []).foldl
      Creds.step c0 = c0 := by
    split
    · rw [List.foldl_append, unixActs_creds]; rfl
    · rfl
  have e2 : co.foldl Creds.step c0 = c0 := by
    cases hc : c.controlEnable
    · rw [hco hc]; rfl
    · rcases hco' hc with ⟨_, _, _, _, _, _, rfl⟩ | ⟨_, _, rfl⟩
      · rfl
      · rw [List.foldl_append, unixActs_creds]; rfl
  have e3 (x : Creds) : (if tk = true then [Act.addTicket] else []).foldl Creds.step x = x := by
    split <;> rfl
  constructor
  · intro hd
    rw [hdr hd]
    simp only [creds, List.foldl_append, remoteActs_creds, e1, e2, e3, List.foldl_nil]
  · intro hd
    obtain ⟨u, g, h1, h2, rfl⟩ := hdr' hd
    refine ⟨u, g, h1, h2, ?_⟩
    simp only [creds, List.foldl_append, remoteActs_creds, e1, e2, e3, chownActs_creds]
    rfl

/-- C60: whenever a service starts to accept connections, the process runs as the
configured user and group, with the groups of this user, if it was started by root (and
`drop_privileges` is set).  Otherwise its identity never changed. -/
theorem C60_privileges (env : Env) (ticket : Bool) (c : Cfg) (c0 : Creds) (sv : Service)
    (pre post : List Act)
    (h : (startup env ticket ⟨c, []⟩).2.trace = pre ++ .serve sv :: post) :
    (env.root = true ∧ c.dropPrivileges = true → ∃ u g, env.uid c.userName = some u ∧
      env.gid c.groupName = some g ∧ creds c0 pre = ⟨u, g, some c.userName⟩) ∧
    (env.root = false ∨ c.dropPrivileges = false → creds c0 pre = c0) := by
  obtain ⟨l, k, hb, _, rfl, hk⟩ := begin_split (serve_not_setup sv) h
  have hc := built_creds hb c0
  have ek : creds c0 (l ++ k) = creds c0 l := by
    rw [creds, List.foldl_append, begun_creds (mem_left hk)]; rfl
  rw [ek]
  refine ⟨fun hd => hc.2 (by simp [hd.1, hd.2]), fun hd => hc.1 ?_⟩
  rcases hd with h | h <;> simp [h]

/-! ### The sockets -/

/-- An effect on the socket of another service, or on no socket. -/
def elsewhere (sv : Service) : Act → Bool
  | .bindTcp t .. => decide (t ≠ sv)
  | .bindUnix t _ => decide (t ≠ sv)
  | .listen t => decide (t ≠ sv)
  | .wrapTls t .. => decide (t ≠ sv)
  | .install t => decide (t ≠ sv)
  | .serve t => decide (t ≠ sv)
  | .shutdown t => decide (t ≠ sv)
  | _ => true

theorem sockStep_elsewhere {sv : Service} {a : Act} (h : elsewhere sv a = true)
    (x : Option Sock) : sockStep sv x a = x := by
  cases a <;> simp_all [elsewhere, sockStep]

theorem sock_skip {sv : Service} {l : List Act} (h : ∀ a ∈ l, elsewhere sv a = true)
    (x : Option Sock) : l.foldl (sockStep sv) x = x :=
  foldl_skip (fun a ha y => sockStep_elsewhere (h a ha) y) x

theorem elsewhere_unix {sv t : Service} (h : t ≠ sv) (a : Str) :
    ∀ x ∈ unixActs t a, elsewhere sv x = true := by
  intro x hx
  unfold unixActs at hx
  split at hx <;> simp at hx <;> rcases hx with rfl | rfl | rfl <;> simp [elsewhere, h]

theorem elsewhere_remote {sv : Service} (h : Service.remote ≠ sv) (c : Cfg) (f : Family)
    (p : Nat) : ∀ x ∈ remoteActs c f p, elsewhere sv x = true := by
  intro x hx
  unfold remoteActs at hx
  split at hx <;> simp at hx <;> rcases hx with rfl | rfl | rfl | rfl <;> simp [elsewhere, h]

theorem elsewhere_drop {env : Env} {c : Cfg} {dr : List Act} (sv : Service)
    (h0 : (env.root && c.dropPrivileges) = false → dr = [])
    (h1 : (env.root && c.dropPrivileges) = true → ∃ u g,
      env.uid c.userName = some u ∧ env.gid c.groupName = some g ∧
      dr = chownActs env (finalCfg env c) c.controlEnable u g ++
        [.initgroups c.userName g, .setgid g, .setuid u]) :
    ∀ x ∈ dr, elsewhere sv x = true := by
  intro x hx
  cases hd : (env.root && c.dropPrivileges)
  · rw [h0 hd] at hx; cases hx
  · obtain ⟨u, g, _, _, rfl⟩ := h1 hd
    unfold chownActs at hx
    simp only [List.mem_append, List.mem_map, List.mem_cons, List.not_mem_nil, or_false] at hx
    rcases hx with ((hx | ⟨p, _, rfl⟩) | hx) | rfl | rfl | rfl
    · split at hx
      · rw [List.mem_singleton.mp hx]; rfl
      · cases hx
    · rfl
    · split at hx
      · rw [List.mem_singleton.mp hx]; rfl
      · cases hx
    all_goals rfl

theorem elsewhere_ticket (sv : Service) (tk : Bool) :
    ∀ x ∈ (if tk = true then [Act.addTicket] else []), elsewhere sv x = true := by
  cases tk <;> simp [elsewhere]

theorem elsewhere_local {sv : Service} (h : Service.loc ≠ sv) (b : Bool) (a : Str) :
    ∀ x ∈ (if b = true then unixActs .loc a ++ [Act.install .loc] else []),
      elsewhere sv x = true := by
  intro x hx
  split at hx
  · rcases List.mem_append.mp hx with hx | hx
    · exact elsewhere_unix h a x hx
    · rw [List.mem_singleton.mp hx]; simp [elsewhere, h]
  · cases hx

theorem elsewhere_control {env : Env} {c : Cfg} {co : List Act} {sv : Service}
    (h : Service.control ≠ sv) (h0 : c.controlEnable = false → co = [])
    (h1 : c.controlEnable = true →
      (lower c.controlTransport = "tcp".toList ∧ portOk c.controlPort = true ∧
        ∃ fs f, env.addresses "localhost".toList = some fs ∧
        chooseFamily c.preferIpv4 fs = some f ∧
        co = [.bindTcp .control f "localhost".toList (finalCfg env c).controlPort.toNat,
          .listen .control, .install .control]) ∨
      (lower c.controlTransport = "unix".toList ∧ '\x00' ∉ (finalCfg env c).controlSocket ∧
        co = unixActs .control (finalCfg env c).controlSocket ++
          [.chmod (finalCfg env c).controlSocket 0o660, .install .control])) :
    ∀ x ∈ co, elsewhere sv x = true := by
  intro x hx
  cases hc : c.controlEnable
  · rw [h0 hc] at hx; cases hx
  · rcases h1 hc with ⟨_, _, _, _, _, _, rfl⟩ | ⟨_, _, rfl⟩
    · simp only [List.mem_cons, List.not_mem_nil, or_false] at hx
      rcases hx with rfl | rfl | rfl <;> simp [elsewhere, h]
    · rcases List.mem_append.mp hx with hx | hx
      · exact elsewhere_unix h _ x hx
      · simp only [List.mem_cons, List.not_mem_nil, or_false] at hx
        rcases hx with rfl | rfl <;> simp [elsewhere, h]

/-- The socket of the remote service, as configured. -/
def remoteSock (c : Cfg) (f : Family) (p : Nat) : Sock :=
  { addr := .tcp f c.remoteHost p
    listening := true
    tls := if c.tlsEnable then
      some (c.certFile, c.keyFile, c.caFile, minimumVersion c.enableTls1_1) else none
    routed := true
    serving := false }

theorem built_sock_remote {env : Env} {tk : Bool} {c : Cfg} {l : List Act}
    (h : Built env tk c l) :
    ∃ f, sock .remote l = some (remoteSock c f (finalCfg env c).remotePort.toNat) := by
  obtain ⟨f, r, lo, co, dr, ti, rfl, rfl, rfl, hco, hco', hdr, hdr', rfl⟩ := h.acts
  refine ⟨f, ?_⟩
  simp only [sock, List.foldl_append]
  rw [sock_skip (elsewhere_ticket _ _), sock_skip (elsewhere_drop _ hdr hdr'),
    sock_skip (elsewhere_control (by decide) hco hco'), sock_skip (elsewhere_local (by decide) _ _)]
  unfold remoteActs remoteSock
  cases c.tlsEnable <;> simp [sockStep]

/-- The socket of the local service, as configured. -/
def localSock (a : Str) : Sock :=
  { addr := .unix a, listening := true, tls := none, routed := true, serving := false }

theorem unix_sock (sv : Service) (a : Str) (x : Option Sock) :
    (unixActs sv a).foldl (sockStep sv) x = some ⟨.unix a, true, none, false, false⟩ := by
  unfold unixActs
  split <;> simp [sockStep]

theorem built_sock_local {env : Env} {tk : Bool} {c : Cfg} {l : List Act}
    (h : Built env tk c l) (hl : c.localEnable = true) :
    sock .loc l = some (localSock (finalCfg env c).localSocket) := by
  obtain ⟨f, r, lo, co, dr, ti, rfl, rfl, rfl, hco, hco', hdr, hdr', rfl⟩ := h.acts
  simp only [sock, List.foldl_append]
  rw [sock_skip (elsewhere_ticket _ _), sock_skip (elsewhere_drop _ hdr hdr'),
    sock_skip (elsewhere_control (by decide) hco hco'), if_pos hl, List.foldl_append, unix_sock]
  rfl

theorem built_sock_control {env : Env} {tk : Bool} {c : Cfg} {l : List Act}
    (h : Built env tk c l) (hc : c.controlEnable = true) :
    (lower c.controlTransport = "tcp".toList ∧ ∃ fs f,
      env.addresses "localhost".toList = some fs ∧ chooseFamily c.preferIpv4 fs = some f ∧
      sock .control l = some ⟨.tcp f "localhost".toList (finalCfg env c).controlPort.toNat,
        true, none, true, false⟩) ∨
    (lower c.controlTransport = "unix".toList ∧
      sock .control l = some (localSock (finalCfg env c).controlSocket)) := by
  obtain ⟨f, r, lo, co, dr, ti, rfl, rfl, rfl, hco, hco', hdr, hdr', rfl⟩ := h.acts
  simp only [sock, List.foldl_append]
  rw [sock_skip (elsewhere_ticket _ _), sock_skip (elsewhere_drop _ hdr hdr')]
  rcases hco' hc with ⟨ht, _, fs, f', e1, e2, rfl⟩ | ⟨ht, _, rfl⟩
  · exact .inl ⟨ht, fs, f', e1, e2, rfl⟩
  · right
    refine ⟨ht, ?_⟩
    rw [List.foldl_append, unix_sock]
    rfl

theorem begun_sock {c : Cfg} {k : List Act} (h : ∀ b ∈ k, Begun c b) (sv : Service)
    (x : Option Sock) :
    ∃ b, k.foldl (sockStep sv) x = x.map fun x => { x with serving := x.serving || b } := by
  induction k generalizing x with
  | nil => exact ⟨false, by cases x <;> simp⟩
  | cons a k ih =>
    obtain ⟨b, hb⟩ := ih (fun b hb => h b (by simp [hb])) (sockStep sv x a)
    rw [List.foldl_cons, hb]
    rcases h a (by simp) with ⟨t, rfl, _⟩ | rfl
    · by_cases ht : t = sv
      · exact ⟨true, by cases x <;> simp [sockStep, ht]⟩
      · exact ⟨b, by simp [sockStep, ht]⟩
    · exact ⟨b, rfl⟩

/-- C60: whenever the remote service accepts connections, it listens at the configured
address and, if TLS is enabled, only with the configured certificate and key (which are not
empty). -/
theorem C60_remote (env : Env) (ticket : Bool) (c : Cfg) (pre post : List Act)
    (h : (startup env ticket ⟨c, []⟩).2.trace = pre ++ .serve .remote :: post) :
    ∃ x f p, sock .remote pre = some x ∧ x.addr = .tcp f c.remoteHost p ∧
      (c.remotePort ≠ 0 → (p : Int) = c.remotePort) ∧ x.listening = true ∧ x.routed = true ∧
      (c.tlsEnable = true → c.certFile ≠ [] ∧ c.keyFile ≠ [] ∧
        x.tls = some (c.certFile, c.keyFile, c.caFile, minimumVersion c.enableTls1_1)) ∧
      (c.tlsEnable = false → x.tls = none) := by
  obtain ⟨l, k, hb, _, rfl, hk⟩ := begin_split (serve_not_setup _) h
  obtain ⟨f, hs⟩ := built_sock_remote hb
  obtain ⟨b, hk'⟩ := begun_sock (mem_left hk) .remote (sock .remote l)
  refine ⟨_, f, _, by rw [sock, List.foldl_append]; rw [← sock, hk', hs]; rfl, rfl, ?_, rfl, rfl,
    ?_, ?_⟩
  · intro hp
    have := hb.port
    simp only [portOk, Bool.and_eq_true, decide_eq_true_eq] at this
    simp only [finalCfg, if_neg hp]
    omega
  · intro ht
    obtain ⟨h1, h2⟩ := hb.tls ht
    exact ⟨h1, h2, by simp [remoteSock, ht]⟩
  · intro ht
    simp [remoteSock, ht]

/-- C60: whenever the local service accepts connections, it listens at the configured unix
socket, or at an abstract one if none is configured. -/
theorem C60_local (env : Env) (ticket : Bool) (c : Cfg) (pre post : List Act)
    (h : (startup env ticket ⟨c, []⟩).2.trace = pre ++ .serve .loc :: post) :
    c.localEnable = true ∧ ∃ x a, sock .loc pre = some x ∧ x.addr = .unix a ∧
      (c.localSocket ≠ [] → a = c.localSocket) ∧ (c.localSocket = [] → a.head? = some '\x00') ∧
      x.listening = true ∧ x.routed = true := by
  obtain ⟨l, k, hb, _, rfl, hk⟩ := begin_split (serve_not_setup _) h
  have hl : c.localEnable = true := by
    rcases hk (.serve .loc) (by simp) with ⟨sv, e, h⟩ | h
    · cases e; exact h
    · cases h
  have hs := built_sock_local hb hl
  obtain ⟨b, hk'⟩ := begun_sock (mem_left hk) .loc (sock .loc l)
  refine ⟨hl, _, _, by rw [sock, List.foldl_append]; rw [← sock, hk', hs]; rfl, rfl, ?_, ?_,
    rfl, rfl⟩
  · intro hn; simp [finalCfg, hl, address, hn]
  · intro hn; simp [finalCfg, hl, address, hn]

theorem lower_tcp (t : Str) : lower t = "tcp".toList ↔ IsTcp t := Iff.rfl
theorem lower_unix (t : Str) : lower t = "unix".toList ↔ IsUnix t := Iff.rfl

/-- C60: the control service over TCP listens only on `localhost`, using IPv4 if preferred
and available. -/
theorem C60_control_tcp (env : Env) (ticket : Bool) (c : Cfg) (pre post : List Act)
    (ht : IsTcp c.controlTransport)
    (h : (startup env ticket ⟨c, []⟩).2.trace = pre ++ .serve .control :: post) :
    ∃ x f p, sock .control pre = some x ∧ x.addr = .tcp f "localhost".toList p ∧
      (c.controlPort ≠ 0 → (p : Int) = c.controlPort) ∧ x.listening = true ∧ x.routed = true ∧
      ∃ fs, env.addresses "localhost".toList = some fs ∧ f ∈ fs ∧
        (c.preferIpv4 = true → .inet ∈ fs → f = .inet) := by
  obtain ⟨l, k, hb, _, rfl, hk⟩ := begin_split (serve_not_setup _) h
  have hc : c.controlEnable = true := by
    rcases hk (.serve .control) (by simp) with ⟨sv, e, h⟩ | h
    · cases e; exact h
    · cases h
  obtain ⟨b, hk'⟩ := begun_sock (mem_left hk) .control (sock .control l)
  have hport : portOk c.controlPort = true := by
    obtain ⟨f, r, lo, co, dr, ti, _, _, _, _, hco', _⟩ := hb.acts
    rcases hco' hc with ⟨_, hp, _⟩ | ⟨hu, _⟩
    · exact hp
    · exact absurd (((lower_tcp _).mpr ht).symm.trans hu) tcp_ne_unix
  rcases built_sock_control hb hc with ⟨_, fs, f, e1, e2, hs⟩ | ⟨hu, _⟩
  · refine ⟨_, f, _, by rw [sock, List.foldl_append]; rw [← sock, hk', hs]; rfl, rfl, ?_, rfl, rfl,
      fs, e1, ?_, ?_⟩
    · intro hp
      simp only [portOk, Bool.and_eq_true, decide_eq_true_eq] at hport
      simp only [finalCfg, hp, decide_false, Bool.and_false, Bool.false_eq_true, if_false]
      omega
    · have := List.mem_of_mem_head? e2
      split at this
      · simp only [List.mem_append, List.mem_filter] at this
        rcases this with h | h <;> exact h.1
      · exact this
    · intro hp hi
      unfold chooseFamily at e2
      rw [if_pos hp] at e2
      have hne : fs.filter (fun f => decide (f = Family.inet)) ≠ [] := by
        intro h0
        have : Family.inet ∈ fs.filter (fun f => decide (f = Family.inet)) := by simp [hi]
        rw [h0] at this
        cases this
      simp only at e2
      rw [List.head?_append] at e2
      cases hf : fs.filter (fun f => decide (f = Family.inet)) with
      | nil => exact absurd hf hne
      | cons y ys =>
      rw [hf] at e2
      have e2 : y = f := by simpa using e2
      have : f ∈ fs.filter (fun f => decide (f = Family.inet)) := by rw [hf, ← e2]; simp
      simp only [List.mem_filter, decide_eq_true_eq] at this
      exact this.2
  · exact absurd (((lower_tcp _).mpr ht).symm.trans hu) tcp_ne_unix

/-! ### The control socket in the file system -/

theorem unix_node (sv : Service) (a : Str) (x : Option Node) :
    (unixActs sv a).foldl (nodeStep a) x = some ⟨none, none⟩ := by
  unfold unixActs
  split <;> simp [nodeStep]

theorem chown_node (env : Env) (c : Cfg) (u g : Nat) (x : Node)
    (hu : lower c.controlTransport = "unix".toList) :
    (chownActs env c true u g).foldl (nodeStep c.controlSocket) (some x)
      = some { x with owner := some (u, g) } := by
  have key : ∀ (l : List Act), (∀ a ∈ l, ∃ p, a = .chown p u g) → ∀ x : Node,
      ∃ o, l.foldl (nodeStep c.controlSocket) (some x) = some { x with owner := o } := by
    intro l
    induction l with
    | nil => exact fun _ x => ⟨x.owner, rfl⟩
    | cons a l ih =>
      intro hl x
      obtain ⟨p, rfl⟩ := hl a (by simp)
      rw [List.foldl_cons]
      by_cases hp : p = c.controlSocket
      · simp only [nodeStep, if_pos hp, Option.map_some]
        obtain ⟨o, ho⟩ := ih (fun a ha => hl a (by simp [ha])) { x with owner := some (u, g) }
        exact ⟨o, ho⟩
      · simp only [nodeStep, if_neg hp]
        exact ih (fun a ha => hl a (by simp [ha])) x
  unfold chownActs
  simp only [hu, decide_true, Bool.and_self, if_true]
  rw [List.foldl_append]
  obtain ⟨o, ho⟩ := key ((if env.pathExists c.runDir = true then [.chown c.runDir u g] else []) ++
    env.logFiles.map fun f => .chown f u g) (by
      intro a ha
      rcases List.mem_append.mp ha with ha | ha
      · split at ha
        · exact ⟨_, List.mem_singleton.mp ha⟩
        · cases ha
      · obtain ⟨p, _, rfl⟩ := List.mem_map.mp ha
        exact ⟨p, rfl⟩) x
  rw [ho]
  simp [nodeStep]

/-- C60: before any service accepts connections, the unix socket of the control service has
mode 0660 and, when root privileges are dropped, belongs to the configured user and group.
So only this user and group can install tickets. -/
theorem C60_control_unix (env : Env) (ticket : Bool) (c : Cfg) (sv : Service)
    (pre post : List Act) (hc : c.controlEnable = true) (ht : IsUnix c.controlTransport)
    (h : (startup env ticket ⟨c, []⟩).2.trace = pre ++ .serve sv :: post) :
    (∃ x, sock .control pre = some x ∧ x.addr = .unix c.controlSocket ∧ x.listening = true ∧
      x.routed = true) ∧
    ∃ n, node c.controlSocket pre = some n ∧ n.mode = some 0o660 ∧
      (env.root = true ∧ c.dropPrivileges = true → ∃ u g, env.uid c.userName = some u ∧
        env.gid c.groupName = some g ∧ n.owner = some (u, g)) ∧
      (env.root = false ∨ c.dropPrivileges = false → n.owner = none) := by
  obtain ⟨l, k, hb, _, rfl, hk⟩ := begin_split (serve_not_setup _) h
  have hu : lower c.controlTransport = "unix".toList := (lower_unix _).mpr ht
  have hz : '\x00' ∉ (finalCfg env c).controlSocket := by
    obtain ⟨f, r, lo, co, dr, ti, _, _, _, _, hco', _⟩ := hb.acts
    rcases hco' hc with ⟨h, _⟩ | ⟨_, hz, _⟩
    · exact absurd (h.symm.trans hu) tcp_ne_unix
    · exact hz
  have hfa : (finalCfg env c).controlSocket = address env .control c.controlSocket := by
    simp [finalCfg, hc, hu]
  have hfs : (finalCfg env c).controlSocket = c.controlSocket := by
    rw [hfa] at hz ⊢
    unfold address at hz ⊢
    split
    · rename_i h0
      rw [if_pos h0] at hz
      simp at hz
    · rfl
  constructor
  · obtain ⟨b, hk'⟩ := begun_sock (mem_left hk) .control (sock .control l)
    rcases built_sock_control hb hc with ⟨h, _⟩ | ⟨_, hs⟩
    · exact absurd (h.symm.trans hu) tcp_ne_unix
    · rw [hfs] at hs
      exact ⟨_, by rw [sock, List.foldl_append]; rw [← sock, hk', hs]; rfl, rfl, rfl, rfl⟩
  · obtain ⟨f, r, lo, co, dr, ti, hl, hr, hlo, hco, hco', hdr, hdr', hti⟩ := hb.acts
    have e3 : ∀ x, ti.foldl (nodeStep c.controlSocket) x = x := by
      intro x; rw [hti]; split <;> rfl
    have eco : ∀ x, co.foldl (nodeStep c.controlSocket) x = some ⟨some 0o660, none⟩ := by
      intro x
      rcases hco' hc with ⟨h, _⟩ | ⟨_, _, rfl⟩
      · exact absurd (h.symm.trans hu) tcp_ne_unix
      · rw [List.foldl_append, hfs, unix_node]
        simp [nodeStep]
    have hn : node c.controlSocket (l ++ k) =
        dr.foldl (nodeStep c.controlSocket) (some ⟨some 0o660, none⟩) := by
      rw [node, List.foldl_append, begun_node (mem_left hk), hl]
      simp only [List.foldl_append, e3, eco]
    rw [hn]
    cases hd : (env.root && c.dropPrivileges)
    · rw [hdr hd]
      refine ⟨_, rfl, rfl, ?_, fun _ => rfl⟩
      rintro ⟨h1, h2⟩
      simp [h1, h2] at hd
    · obtain ⟨u, g, e1, e2, rfl⟩ := hdr' hd
      rw [List.foldl_append, hc]
      have := chown_node env (finalCfg env c) u g ⟨some 0o660, none⟩ hu
      rw [hfs] at this
      rw [this]
      refine ⟨_, rfl, rfl, fun _ => ⟨u, g, e1, e2, rfl⟩, ?_⟩
      simp only [Bool.and_eq_true] at hd
      rintro (h | h)
      · rw [hd.1] at h; cases h
      · rw [hd.2] at h; cases h

/-! ### Only root can drop privileges -/

theorem adds_mono {α : Type} {P Q : Act → Prop} {m : M α} (h : Adds P m) (hq : ∀ a, P a → Q a) :
    Adds Q m := fun s => by
  obtain ⟨e, he, hp⟩ := h s
  exact ⟨e, he, fun a ha => hq a (hp a ha)⟩

/-- An effect that every user may do. -/
def Free (a : Act) : Prop := needsRoot a = false

theorem free_services (env : Env) :
    Adds Free (do
      remoteService env
      let c ← cfg
      when c.localEnable (localService env)
      let c ← cfg
      when c.controlEnable (controlService env)) := by
  have tcp : ∀ sv host port p, Adds Free (tcpServer env sv host port p) := fun sv host port p =>
    .bind (.ask _ _) fun _ => .bind (.ask _ _) fun _ =>
      .bind (.act env rfl) fun _ => .bind (.act env rfl) fun _ => .pure _
  have unix : ∀ sv a, Adds Free (unixServer env sv a) := fun sv a =>
    .bind (.when (.pathAct env _ rfl)) fun _ =>
      .bind (.act env rfl) fun _ => .bind (.act env rfl) fun _ => .pure _
  have r : Adds Free (remoteService env) :=
    .bind .cfg fun _ => .bind (.check _ _) fun _ => .bind (tcp _ _ _ _) fun _ =>
      .bind (.when (.setCfg _)) fun _ =>
      .bind (.when (.bind .cfg fun _ => .bind (.check _ _) fun _ => .act env rfl))
        fun _ => .act env rfl
  have l : Adds Free (localService env) :=
    .bind .cfg fun _ => .bind (unix _ _) fun _ => .bind (.when (.setCfg _)) fun _ => .act env rfl
  have c : Adds Free (controlService env) := by
    refine .bind .cfg fun c => ?_
    have h1 : Adds Free (controlTcp env c) :=
      .bind (.check _ _) fun _ => .bind (tcp _ _ _ _) fun _ => .when (.setCfg _)
    have h2 : Adds Free (controlUnix env c) :=
      .bind (unix _ _) fun _ => .bind (.when (.setCfg _)) fun _ => .bind .cfg fun _ =>
        .pathAct env _ rfl
    split
    · exact .bind h1 fun _ => .act env rfl
    · split
      · exact .bind h2 fun _ => .act env rfl
      · exact .bind (.raise _) fun _ => .act env rfl
  exact .bind r fun _ => .bind .cfg fun _ => .bind (.when l) fun _ => .bind .cfg fun _ =>
    .when c

/-- The effects of the constructor, whether it fails or not: effects that every user may do
(the services), then, only for root, the effects that need root, the last of which is
`setuid`, then effects that every user may do. -/
theorem root_shape (env : Env) (tk : Bool) (c : Cfg) :
    ∃ a b d, (initServer env tk ⟨c, []⟩).2.trace = a ++ b ++ d ∧
      (∀ x ∈ a, Free x) ∧ (∀ x ∈ d, Free x) ∧
      (b ≠ [] → env.root = true ∧ c.dropPrivileges = true) ∧
      ∃ b' t, b = b' ++ t ∧ (∀ x ∈ b', ∀ u, x ≠ .setuid u) ∧ (t = [] ∨ ∃ u, t = [.setuid u]) := by
  have split : ∀ s, initServer env tk s =
      M.bind (do
        remoteService env
        let c ← cfg
        when c.localEnable (localService env)
        let c ← cfg
        when c.controlEnable (controlService env))
      (fun _ => M.bind cfg fun c =>
        M.bind (when (env.root && c.dropPrivileges) (dropPrivileges env c.controlEnable))
        fun _ => when tk (addTicket env)) s := by
    intro s
    unfold initServer
    simp only [bind, M.bind, cfg]
    cases h1 : remoteService env s with
    | mk r1 s1 =>
    cases r1 with
    | error x => rfl
    | ok u =>
      simp only
      cases h2 : when s1.cfg.localEnable (localService env) s1 with
      | mk r2 s2 =>
      cases r2 with
      | error x => rfl
      | ok u =>
        simp only
  rw [split]
  obtain ⟨a, ha, hpa⟩ := free_services env ⟨c, []⟩
  rw [M.bind]
  generalize hm : (do
        remoteService env
        let c ← cfg
        when c.localEnable (localService env)
        let c ← cfg
        when c.controlEnable (controlService env) : M Unit) ⟨c, []⟩ = r at ha ⊢
  obtain ⟨r, s1⟩ := r
  have hcfg : r = .ok () → s1.cfg.dropPrivileges = c.dropPrivileges := by
    rintro rfl
    replace hm := bind_ok hm
    obtain ⟨_, s2, h1, hm⟩ := hm
    obtain ⟨_, _, f, p, _, e1⟩ := remote_ok h1
    have d2 : s2.cfg.dropPrivileges = c.dropPrivileges := by rw [e1]; simp only; split <;> rfl
    replace hm := bind_ok hm
    obtain ⟨c2, _, h1, hm⟩ := hm
    obtain ⟨rfl, rfl⟩ := cfg_ok h1
    replace hm := bind_ok hm
    obtain ⟨_, s3, h3, hm⟩ := hm
    have d3 : s3.cfg.dropPrivileges = c.dropPrivileges := by
      rcases when_ok h3 with ⟨_, w⟩ | ⟨_, rfl⟩
      · rw [local_ok w]; exact d2
      · exact d2
    replace hm := bind_ok hm
    obtain ⟨c3, _, h1, hm⟩ := hm
    obtain ⟨rfl, rfl⟩ := cfg_ok h1
    rcases when_ok hm with ⟨_, w⟩ | ⟨_, rfl⟩
    · rcases control_ok w with ⟨_, _, _, _, _, _, _, _, e⟩ | ⟨_, _, e⟩
      · rw [e]; simp only; split <;> exact d3
      · rw [e]; exact d3
    · exact d3
  simp only [List.nil_append] at ha
  cases r with
  | error x =>
    exact ⟨a, [], [], by simpa using ha, hpa, by simp, by simp, [], [], rfl, by simp, .inl rfl⟩
  | ok u =>
    simp only [M.bind, cfg]
    have hcd := hcfg rfl
    -- dropping the privileges
    have hdrop : ∀ s : St, ∃ b' t, (dropPrivileges env s1.cfg.controlEnable s).2.trace
        = s.trace ++ (b' ++ t) ∧ (∀ x ∈ b', ∀ u, x ≠ .setuid u) ∧
        (t = [] ∨ ∃ u, t = [.setuid u]) := by
      intro s
      have chowns : ∀ u g fs, Adds (fun x => ∀ u, x ≠ Act.setuid u) (chownLogs env u g fs) := by
        intro u g fs
        induction fs with
        | nil => exact .pure _
        | cons f fs ih => exact .bind (.pathAct env _ nofun) fun _ => ih
      have hA : Adds (fun x => ∀ u, x ≠ Act.setuid u) (do
          let c ← cfg
          let uid ← ask (env.uid c.userName) .key
          let gid ← ask (env.gid c.groupName) .key
          when (env.pathExists c.runDir) (pathAct env c.runDir (.chown c.runDir uid gid))
          chownLogs env uid gid env.logFiles
          when (s1.cfg.controlEnable && decide (lower c.controlTransport = "unix".toList))
            (pathAct env c.controlSocket (.chown c.controlSocket uid gid))
          act env (.initgroups c.userName gid)
          act env (.setgid gid)
          pure uid) :=
        .bind .cfg fun _ => .bind (.ask _ _) fun _ => .bind (.ask _ _) fun _ =>
          .bind (.when (.pathAct env _ nofun)) fun _ => .bind (chowns _ _ _) fun _ =>
          .bind (.when (.pathAct env _ nofun)) fun _ => .bind (.act env nofun) fun _ =>
          .bind (.act env nofun) fun _ => .pure _
      have hs : dropPrivileges env s1.cfg.controlEnable s = M.bind (do
          let c ← cfg
          let uid ← ask (env.uid c.userName) .key
          let gid ← ask (env.gid c.groupName) .key
          when (env.pathExists c.runDir) (pathAct env c.runDir (.chown c.runDir uid gid))
          chownLogs env uid gid env.logFiles
          when (s1.cfg.controlEnable && decide (lower c.controlTransport = "unix".toList))
            (pathAct env c.controlSocket (.chown c.controlSocket uid gid))
          act env (.initgroups c.userName gid)
          act env (.setgid gid)
          pure uid) (fun uid => act env (.setuid uid)) s := by
        unfold dropPrivileges
        simp only [bind, M.bind, cfg, pure]
        repeat' (first | rfl | split)
      rw [hs, M.bind]
      obtain ⟨b', hb, hpb⟩ := hA s
      generalize (do
          let c ← cfg
          let uid ← ask (env.uid c.userName) .key
          let gid ← ask (env.gid c.groupName) .key
          when (env.pathExists c.runDir) (pathAct env c.runDir (.chown c.runDir uid gid))
          chownLogs env uid gid env.logFiles
          when (s1.cfg.controlEnable && decide (lower c.controlTransport = "unix".toList))
            (pathAct env c.controlSocket (.chown c.controlSocket uid gid))
          act env (.initgroups c.userName gid)
          act env (.setgid gid)
          pure uid : M Nat) s = q at hb ⊢
      obtain ⟨q, s2⟩ := q
      cases q with
      | error x => exact ⟨b', [], by simpa using hb, hpb, .inl rfl⟩
      | ok u =>
        simp only
        unfold act
        split
        · exact ⟨b', [], by simpa using hb, hpb, .inl rfl⟩
        · refine ⟨b', [.setuid u], ?_, hpb, .inr ⟨u, rfl⟩⟩
          simp only at hb
          simp [hb]
    have hbb : ∃ b' t, (when (env.root && s1.cfg.dropPrivileges)
        (dropPrivileges env s1.cfg.controlEnable) s1).2.trace = s1.trace ++ (b' ++ t) ∧
        (∀ x ∈ b', ∀ u, x ≠ .setuid u) ∧ (t = [] ∨ ∃ u, t = [.setuid u]) ∧
        (b' ++ t ≠ [] → env.root = true ∧ c.dropPrivileges = true) := by
      unfold when
      split
      · rename_i hd
        obtain ⟨b', t, h1, h2, h3⟩ := hdrop s1
        refine ⟨b', t, h1, h2, h3, fun _ => ?_⟩
        rw [hcd] at hd
        simpa using hd
      · exact ⟨[], [], by change s1.trace = _; simp, by simp, .inl rfl, by simp⟩
    obtain ⟨b', t, h1, h2, h3, h4⟩ := hbb
    generalize when (env.root && s1.cfg.dropPrivileges)
        (dropPrivileges env s1.cfg.controlEnable) s1 = q at h1 ⊢
    obtain ⟨q, s2⟩ := q
    simp only at h1 ha
    cases q with
    | error x =>
      refine ⟨a, b' ++ t, [], ?_, hpa, by simp, h4, b', t, rfl, h2, h3⟩
      rw [h1, ha]
      simp
    | ok u =>
      simp only
      have ht : Adds Free (when tk (addTicket env)) :=
        .when (.bind (.check _ _) fun _ => .act env rfl)
      obtain ⟨d, hd, hpd⟩ := ht s2
      refine ⟨a, b' ++ t, d, ?_, hpa, hpd, h4, b', t, rfl, h2, h3⟩
      rw [hd, h1, ha]

/-- C60: the effects which need root are done only by a process started by root, and while
it is still root; so none of them is refused for missing privileges.  This holds for every
execution, also those that fail. -/
theorem C60_root_needed (env : Env) (ticket : Bool) (c : Cfg) (c0 : Creds) (a : Act)
    (pre post : List Act) (ha : needsRoot a = true)
    (h : (startup env ticket ⟨c, []⟩).2.trace = pre ++ a :: post) :
    env.root = true ∧ c.dropPrivileges = true ∧ (creds c0 pre).uid = c0.uid := by
  have uidSkip : ∀ (l : List Act), (∀ x ∈ l, ∀ u, x ≠ .setuid u) → ∀ c0 : Creds,
      (creds c0 l).uid = c0.uid := by
    intro l
    induction l with
    | nil => exact fun _ _ => rfl
    | cons x l ih =>
      intro hl c0
      rw [creds, List.foldl_cons]
      rw [← creds, ih fun y hy => hl y (by simp [hy])]
      cases x with
      | setuid u => exact absurd rfl (hl (.setuid u) (by simp) u)
      | _ => rfl
  -- the rest of the startup needs no root
  have tail : ∃ d, (startup env ticket ⟨c, []⟩).2.trace
      = (initServer env ticket ⟨c, []⟩).2.trace ++ d ∧ ∀ x ∈ d, Free x := by
    unfold startup
    change ∃ d, (M.bind _ _ _).2.trace = _ ∧ _
    unfold M.bind
    split
    · rename_i u s1 hi
      rw [hi]
      obtain ⟨e, he, hp⟩ := adds_rest env s1
      exact ⟨e, he, fun x hx => by rcases hp x hx with ⟨sv, rfl, _⟩ | rfl <;> rfl⟩
    · rename_i x s1 hi
      rw [hi]
      exact ⟨[], by simp, by simp⟩
  obtain ⟨d0, hd0, hf0⟩ := tail
  obtain ⟨a1, b, d, hi, hfa, hfd, hr, b', t, rfl, hb', ht⟩ := root_shape env ticket c
  rw [hd0, hi] at h
  have nf : ∀ l : List Act, (∀ x ∈ l, Free x) → a ∉ l := fun l hl hm => by
    have := hl a hm
    rw [Free, ha] at this
    cases this
  rw [List.append_assoc, List.append_assoc] at h
  obtain ⟨k, rfl, h2⟩ := split_append h (nf _ hfa)
  have hmem : a ∈ b' ++ t := by
    have : a ∈ b' ++ t ++ (d ++ d0) := by rw [h2]; simp
    rcases List.mem_append.mp this with h | h
    · exact h
    · rcases List.mem_append.mp h with h | h
      · exact absurd h (nf _ hfd)
      · exact absurd h (nf _ hf0)
  obtain ⟨h3, h4⟩ := hr (fun h0 => by rw [h0] at hmem; cases hmem)
  refine ⟨h3, h4, ?_⟩
  -- nothing before `a` is `setuid`
  apply uidSkip
  intro x hx u hxu
  subst hxu
  rcases List.mem_append.mp hx with hx | hx
  · have := hfa _ hx
    cases this
  · -- in `k`, a proper prefix of `b' ++ t`
    obtain ⟨k1, k2, rfl⟩ := List.append_of_mem hx
    simp only [List.append_assoc, List.cons_append] at h2
    obtain ⟨k3, e1, e2⟩ := split_append h2 (fun hm => hb' _ hm u rfl)
    rcases ht with rfl | ⟨u', rfl⟩
    · simp only [List.nil_append] at e2
      have : Act.setuid u ∈ d ++ d0 := by rw [e2]; simp
      rcases List.mem_append.mp this with h | h
      · cases hfd _ h
      · cases hf0 _ h
    · cases k3 with
      | nil =>
        simp only [List.cons_append, List.nil_append, List.cons.injEq] at e2
        have : a ∈ d ++ d0 := by rw [e2.2]; simp
        rcases List.mem_append.mp this with h | h
        · exact absurd h (nf _ hfd)
        · exact absurd h (nf _ hf0)
      | cons y k3 =>
        simp only [List.cons_append, List.nil_append, List.cons.injEq] at e2
        have : Act.setuid u ∈ d ++ d0 := by rw [e2.2]; simp
        rcases List.mem_append.mp this with h | h
        · cases hfd _ h
        · cases hf0 _ h

/-! ### Ready, and stopped -/

theorem start_ok {env : Env} {s s' : St} (h : startServer env s = (.ok (), s')) :
    s'.cfg = s.cfg ∧ ∃ e, s'.trace = s.trace ++ e ∧ (∀ b ∈ e, Begun s.cfg b) ∧
      ∀ sv, Enabled s.cfg sv → .serve sv ∈ e := by
  unfold startServer at h
  replace h := bind_ok h
  obtain ⟨c, _, h1, h⟩ := h
  obtain ⟨rfl, rfl⟩ := cfg_ok h1
  replace h := bind_ok h
  obtain ⟨_, s1, h2, h⟩ := h
  have a1 := act_ok h2
  replace h := bind_ok h
  obtain ⟨_, s2, h3, h4⟩ := h
  have w3 : s2 = { s1 with trace := s1.trace ++
      (if s.cfg.localEnable then [.serve .loc] else []) } := by
    rcases when_ok h3 with ⟨hb, w⟩ | ⟨hb, rfl⟩
    · rw [act_ok w, if_pos hb]
    · rw [if_neg (by simp [hb])]; simp
  have w4 : s' = { s2 with trace := s2.trace ++
      (if s.cfg.controlEnable then [.serve .control] else []) } := by
    rcases when_ok h4 with ⟨hb, w⟩ | ⟨hb, rfl⟩
    · rw [act_ok w, if_pos hb]
    · rw [if_neg (by simp [hb])]; simp
  refine ⟨by rw [w4, w3, a1], [.serve .remote] ++
    (if s.cfg.localEnable then [.serve .loc] else []) ++
    (if s.cfg.controlEnable then [.serve .control] else []), ?_, ?_, ?_⟩
  · rw [w4, w3, a1]; simp
  · intro b hb
    simp only [List.mem_append, List.mem_singleton] at hb
    rcases hb with (rfl | hb) | hb
    · exact .inl ⟨_, rfl, trivial⟩
    · split at hb
      · rename_i he
        rw [List.mem_singleton.mp hb]; exact .inl ⟨_, rfl, he⟩
      · cases hb
    · split at hb
      · rename_i he
        rw [List.mem_singleton.mp hb]; exact .inl ⟨_, rfl, he⟩
      · cases hb
  · intro sv he
    cases sv with
    | remote => simp
    | loc => have he : s.cfg.localEnable = true := he; simp [he]
    | control => have he : s.cfg.controlEnable = true := he; simp [he]

theorem start_no_notify {env : Env} {s s' : St} {e : List Act}
    (h : startServer env s = (.ok (), s')) (hm : Act.notify ∈ e)
    (he : s'.trace = s.trace ++ e) : False := by
  have : Adds (fun a => a ≠ Act.notify) (startServer env) :=
    .bind .cfg fun _ => .bind (.act env nofun) fun _ => .bind (.when (.act env nofun)) fun _ =>
      .when (.act env nofun)
  obtain ⟨e', he2, hp⟩ := this s
  rw [h] at he2
  simp only at he2
  rw [he] at he2
  have := List.append_cancel_left he2
  exact hp .notify (by rw [← this]; exact hm) rfl

theorem begun_serving {c : Cfg} {k : List Act} (h : ∀ b ∈ k, Begun c b) {sv : Service}
    (hm : .serve sv ∈ k) (x : Sock) :
    k.foldl (sockStep sv) (some x) = some { x with serving := true } := by
  obtain ⟨k1, k2, rfl⟩ := List.append_of_mem hm
  rw [List.foldl_append, List.foldl_cons]
  obtain ⟨b1, e1⟩ := begun_sock (fun b hb => h b (by simp [hb]) : ∀ b ∈ k1, Begun c b) sv (some x)
  rw [e1]
  obtain ⟨b2, e2⟩ := begun_sock (fun b hb => h b (by simp [hb]) : ∀ b ∈ k2, Begun c b) sv
    (some { x with serving := true })
  simpa [sockStep] using e2

/-- The socket of every enabled service, after the constructor. -/
theorem built_sock {env : Env} {tk : Bool} {c : Cfg} {l : List Act} (h : Built env tk c l)
    (sv : Service) (he : Enabled c sv) :
    ∃ x, sock sv l = some x ∧ x.listening = true ∧ x.routed = true := by
  cases sv with
  | remote =>
    obtain ⟨f, hs⟩ := built_sock_remote h
    exact ⟨_, hs, rfl, rfl⟩
  | loc => exact ⟨_, built_sock_local h he, rfl, rfl⟩
  | control =>
    rcases built_sock_control h he with ⟨_, fs, f, _, _, hs⟩ | ⟨_, hs⟩
    · exact ⟨_, hs, rfl, rfl⟩
    · exact ⟨_, hs, rfl, rfl⟩

theorem enabled_final {env : Env} {c : Cfg} {sv : Service} (h : Enabled c sv) :
    Enabled (finalCfg env c) sv := by cases sv <;> exact h

theorem startup_ok {env : Env} {tk : Bool} {c : Cfg} {s' : St}
    (h : startup env tk ⟨c, []⟩ = (.ok (), s')) :
    ∃ l e n, Built env tk c l ∧ s'.cfg = finalCfg env c ∧ s'.trace = l ++ e ++ n ∧
      (∀ b ∈ e ++ n, Begun (finalCfg env c) b) ∧ (∀ sv, Enabled c sv → .serve sv ∈ e) ∧
      n = if c.systemdEnable then [.notify] else [] := by
  unfold startup at h
  replace h := bind_ok h
  obtain ⟨_, s1, h1, h⟩ := h
  obtain ⟨hc, hb⟩ := init_ok h1
  replace h := bind_ok h
  obtain ⟨_, s2, h2, h⟩ := h
  obtain ⟨hc2, e, he, hp, hall⟩ := start_ok h2
  unfold notifySystemd at h
  replace h := bind_ok h
  obtain ⟨c3, _, h3, h⟩ := h
  obtain ⟨rfl, rfl⟩ := cfg_ok h3
  have hsd : s2.cfg.systemdEnable = c.systemdEnable := by rw [hc2, hc]; rfl
  have w : s' = { s2 with trace := s2.trace ++ (if c.systemdEnable then [.notify] else []) } := by
    rw [hsd] at h
    rcases when_ok h with ⟨hb, w⟩ | ⟨hb, rfl⟩
    · rw [act_ok w, if_pos hb]
    · rw [if_neg (by simp [hb])]; simp
  rw [hc] at hp
  refine ⟨s1.trace, e, _, hb, by rw [w]; exact hc2.trans hc, by rw [w, he], ?_, ?_, rfl⟩
  · intro b hb
    rcases List.mem_append.mp hb with hb | hb
    · exact hp b hb
    · split at hb
      · rw [List.mem_singleton.mp hb]; exact .inr rfl
      · cases hb
  · intro sv hen
    exact hall sv (by rw [hc]; exact enabled_final hen)

/-- C60: after a successful startup every enabled service accepts connections at its
socket. -/
theorem C60_started (env : Env) (ticket : Bool) (c : Cfg) (s' : St)
    (h : startup env ticket ⟨c, []⟩ = (.ok (), s')) (sv : Service) (he : Enabled c sv) :
    ∃ x, sock sv s'.trace = some x ∧ x.listening = true ∧ x.routed = true ∧ x.serving = true := by
  obtain ⟨l, e, n, hb, _, ht, hp, hall, _⟩ := startup_ok h
  obtain ⟨x, hx, h1, h2⟩ := built_sock hb sv he
  refine ⟨{ x with serving := true }, ?_, h1, h2, rfl⟩
  rw [ht, List.append_assoc, sock, List.foldl_append]
  rw [← sock, hx]
  exact begun_serving hp (by simp [hall sv he]) x

/-- C60: systemd is told that the daemon is ready only when all enabled services accept
connections. -/
theorem C60_ready (env : Env) (ticket : Bool) (c : Cfg) (pre post : List Act)
    (h : (startup env ticket ⟨c, []⟩).2.trace = pre ++ .notify :: post) (sv : Service)
    (he : Enabled c sv) :
    ∃ x, sock sv pre = some x ∧ x.listening = true ∧ x.routed = true ∧ x.serving = true := by
  obtain ⟨l, k, hb, hi, rfl, hk⟩ := begin_split notify_not_setup h
  obtain ⟨x, hx, h1, h2⟩ := built_sock hb sv he
  refine ⟨{ x with serving := true }, ?_, h1, h2, rfl⟩
  rw [sock, List.foldl_append]
  rw [← sock, hx]
  refine begun_serving (mem_left hk) ?_ x
  -- `start` succeeded
  unfold startup at h
  rw [bind_run hi] at h
  change (M.bind _ _ _).2.trace = _ at h
  unfold M.bind at h
  split at h
  · rename_i u s2 hs
    obtain ⟨hc2, e, he', hp, hall⟩ := start_ok hs
    have hns : Act.notify ∉ l ++ e := by
      intro hm
      rcases List.mem_append.mp hm with hm | hm
      · obtain ⟨e0, he0, hp0⟩ := adds_init env ticket ⟨c, []⟩
        rw [hi] at he0
        simp only [List.nil_append] at he0
        rw [he0] at hm
        exact (hp0 _ hm).2 rfl
      · have h6 := start_no_notify hs hm he'
        exact h6
    obtain ⟨n, hn, _⟩ : ∃ n, (notifySystemd env s2).2.trace = s2.trace ++ n ∧ True := by
      obtain ⟨n, hn, _⟩ := (.bind .cfg fun _ => .when (.act env trivial) :
        Adds (fun _ => True) (notifySystemd env)) s2
      exact ⟨n, hn, trivial⟩
    rw [hn, he'] at h
    simp only at h
    obtain ⟨k', hk', _⟩ := split_append h hns
    have : k = e ++ k' := by
      rw [List.append_assoc] at hk'
      exact List.append_cancel_left hk'
    rw [this]
    simp [hall sv (enabled_final he)]
  · rename_i x s2 hs
    -- `start` failed, so nothing was notified
    exfalso
    have : Adds (fun a => a ≠ Act.notify) (startServer env) :=
      .bind .cfg fun _ => .bind (.act env nofun) fun _ => .bind (.when (.act env nofun)) fun _ =>
        .when (.act env nofun)
    obtain ⟨e, he2, hp⟩ := this ⟨finalCfg env c, l⟩
    rw [hs] at he2
    simp only at h he2
    rw [he2, List.append_assoc] at h
    have h3 := List.append_cancel_left h
    exact hp .notify (by rw [h3]; simp) rfl

/-! ### Stopping -/

theorem unixShutdown_ok {env : Env} {sv : Service} {a : Str} {s s' : St}
    (h : unixShutdown env sv a s = (.ok (), s')) :
    s' = { s with trace := s.trace ++
      ((if a.head? = some '\x00' then [] else [.unlink a]) ++ [.shutdown sv]) } := by
  unfold unixShutdown at h
  replace h := bind_ok h
  obtain ⟨_, s1, h1, h⟩ := h
  have a2 := act_ok h
  rcases when_ok h1 with ⟨hb, w⟩ | ⟨hb, rfl⟩
  · rw [a2, (pathAct_ok w).2, if_neg (by simpa using hb)]
    simp
  · rw [a2, if_pos (by simpa using hb)]
    simp

/-- The effects of stopping. -/
def stopActs (c : Cfg) : List Act :=
  [.shutdown .remote] ++
  (if c.localEnable then
    (if c.localSocket.head? = some '\x00' then [] else [.unlink c.localSocket]) ++
      [.shutdown .loc] else []) ++
  (if c.controlEnable then
    (if lower c.controlTransport = "tcp".toList then [.shutdown .control] else
      (if c.controlSocket.head? = some '\x00' then [] else [.unlink c.controlSocket]) ++
        [.shutdown .control]) else [])

theorem stop_ok {env : Env} {s s' : St} (h : stopServer env s = (.ok (), s')) :
    s'.trace = s.trace ++ stopActs s.cfg := by
  unfold stopServer at h
  replace h := bind_ok h
  obtain ⟨c, _, h1, h⟩ := h
  obtain ⟨rfl, rfl⟩ := cfg_ok h1
  replace h := bind_ok h
  obtain ⟨_, s1, h2, h⟩ := h
  have a1 := act_ok h2
  replace h := bind_ok h
  obtain ⟨_, s2, h3, h4⟩ := h
  have w3 : s2.trace = s1.trace ++ (if s.cfg.localEnable then
      (if s.cfg.localSocket.head? = some '\x00' then [] else [.unlink s.cfg.localSocket]) ++
        [.shutdown .loc] else []) := by
    rcases when_ok h3 with ⟨hb, w⟩ | ⟨hb, rfl⟩
    · rw [unixShutdown_ok w, if_pos hb]
    · simp [hb]
  have w4 : s'.trace = s2.trace ++ (if s.cfg.controlEnable then
      (if lower s.cfg.controlTransport = "tcp".toList then [.shutdown .control] else
      (if s.cfg.controlSocket.head? = some '\x00' then [] else [.unlink s.cfg.controlSocket]) ++
        [.shutdown .control]) else []) := by
    rcases when_ok h4 with ⟨hb, w⟩ | ⟨hb, rfl⟩
    · rw [if_pos hb]
      split at w
      · rename_i ht
        rw [act_ok w, if_pos ht]
      · rename_i ht
        rw [unixShutdown_ok w, if_neg ht]
    · simp [hb]
  rw [w4, w3, a1, stopActs]
  simp

/-- The file system has a socket only where a service was bound. -/
theorem node_bound {path : Str} {l : List Act} (h : ∀ sv, .bindUnix sv path ∉ l) :
    node path l = none := by
  have key : ∀ l : List Act, (∀ sv, .bindUnix sv path ∉ l) →
      l.foldl (nodeStep path) none = none := by
    intro l
    induction l with
    | nil => exact fun _ => rfl
    | cons a l ih =>
      intro h
      rw [List.foldl_cons]
      have : nodeStep path none a = none := by
        cases a with
        | bindUnix t p =>
          have : p ≠ path := by
            rintro rfl
            exact h t (by simp)
          simp [nodeStep, this]
        | unlink p => simp [nodeStep]
        | chmod p m => simp [nodeStep]
        | chown p u g => simp [nodeStep]
        | _ => rfl
      rw [this]
      exact ih fun sv hm => h sv (by simp [hm])
  exact key l h

theorem bindUnix_unixActs {sv t : Service} {p a : Str} (h : Act.bindUnix t p ∈ unixActs sv a) :
    p = a := by
  unfold unixActs at h
  split at h <;> simp at h <;> exact h.2

theorem built_bound {env : Env} {tk : Bool} {c : Cfg} {l : List Act} (h : Built env tk c l)
    {t : Service} {p : Str} (hm : .bindUnix t p ∈ l) :
    (c.localEnable = true ∧ p = (finalCfg env c).localSocket) ∨
    (c.controlEnable = true ∧ lower c.controlTransport = "unix".toList ∧
      p = (finalCfg env c).controlSocket) := by
  obtain ⟨f, r, lo, co, dr, ti, rfl, rfl, rfl, hco, hco', hdr, hdr', rfl⟩ := h.acts
  simp only [List.mem_append] at hm
  rcases hm with (((hm | hm) | hm) | hm) | hm
  · unfold remoteActs at hm
    split at hm <;> simp at hm
  · split at hm
    · rename_i hl
      rcases List.mem_append.mp hm with hm | hm
      · exact .inl ⟨hl, bindUnix_unixActs hm⟩
      · simp at hm
    · cases hm
  · cases hc : c.controlEnable
    · rw [hco hc] at hm; cases hm
    · rcases hco' hc with ⟨_, _, _, _, _, _, rfl⟩ | ⟨hu, _, rfl⟩
      · simp at hm
      · rcases List.mem_append.mp hm with hm | hm
        · exact .inr ⟨rfl, hu, bindUnix_unixActs hm⟩
        · simp at hm
  · have hb := elsewhere_drop t hdr hdr' _ hm
    simp [elsewhere] at hb
  · split at hm <;> simp at hm

/-- C60: after a successful start and stop, no service accepts connections, and no socket is
left in the file system. -/
theorem C60_stopped (env env' : Env) (ticket : Bool) (c : Cfg) (s' s'' : St)
    (h : startup env ticket ⟨c, []⟩ = (.ok (), s')) (hs : stopServer env' s' = (.ok (), s'')) :
    (∀ sv x, sock sv s''.trace = some x → x.serving = false) ∧
    ∀ path, path.head? ≠ some '\x00' → node path s''.trace = none := by
  obtain ⟨l, e, n, hb, hc, ht, hp, hall, _⟩ := startup_ok h
  have hst := stop_ok hs
  rw [hc] at hst
  constructor
  · intro sv x hx
    rw [hst, sock, List.foldl_append] at hx
    -- either the service is enabled and was shut down, or it has no socket
    have off : ∀ (y : Option Sock) x, ((.shutdown sv : Act) :: []).foldl (sockStep sv) y = some x →
        x.serving = false := by
      intro y x hx
      simp only [List.foldl_cons, List.foldl_nil, sockStep, if_true] at hx
      cases y with
      | none => cases hx
      | some y =>
        simp only [Option.map_some, Option.some.injEq] at hx
        rw [← hx]
    have nosock : ∀ l : List Act, (∀ a ∈ l, elsewhere sv a = true) →
        ∀ y, l.foldl (sockStep sv) y = y := fun l hl y => sock_skip hl y
    cases sv with
    | remote =>
      unfold stopActs at hx
      rw [List.foldl_append, List.foldl_append] at hx
      rw [nosock (ite _ _ _) (by
          intro a ha
          split at ha
          · split at ha
            · rw [List.mem_singleton.mp ha]; rfl
            · split at ha <;> simp at ha <;> rcases ha with rfl | rfl <;> rfl
          · cases ha), nosock (ite _ _ _) (by
          intro a ha
          split at ha
          · split at ha <;> simp at ha <;> rcases ha with rfl | rfl <;> rfl
          · cases ha)] at hx
      exact off _ _ hx
    | loc =>
      unfold stopActs at hx
      rw [List.foldl_append] at hx
      rw [nosock (ite _ _ _) (by
          intro a ha
          split at ha
          · split at ha
            · rw [List.mem_singleton.mp ha]; rfl
            · split at ha <;> simp at ha <;> rcases ha with rfl | rfl <;> rfl
          · cases ha)] at hx
      cases hl : (finalCfg env c).localEnable
      · -- never bound
        rw [hl] at hx
        simp only [Bool.false_eq_true, if_false, List.append_nil] at hx
        rw [nosock [.shutdown .remote] (by simp [elsewhere])] at hx
        exfalso
        have hl' : c.localEnable = false := hl
        have : sock .loc s'.trace = none := by
          rw [ht, List.append_assoc, sock, List.foldl_append]
          obtain ⟨f, r, lo, co, dr, ti, rfl, rfl, rfl, hco, hco', hdr, hdr', rfl⟩ := hb.acts
          have hr : List.foldl (sockStep .loc) none (remoteActs c f
              (finalCfg env c).remotePort.toNat ++ (if c.localEnable = true then
                unixActs .loc (finalCfg env c).localSocket ++ [.install .loc] else []) ++ co ++
                dr ++ (if ticket then [.addTicket] else [])) = none := by
            simp only [List.foldl_append]
            rw [sock_skip (elsewhere_ticket _ _), sock_skip (elsewhere_drop _ hdr hdr'),
              sock_skip (elsewhere_control (by decide) hco hco'), if_neg (by simp [hl']),
              sock_skip (elsewhere_remote (by decide) _ _ _)]
            rfl
          rw [hr]
          obtain ⟨b, hb'⟩ := begun_sock hp .loc none
          rw [hb']; rfl
        rw [sock] at this
        rw [this] at hx
        cases hx
      · rw [hl] at hx
        simp only [if_true] at hx
        rw [← List.append_assoc, List.foldl_append] at hx
        exact off _ _ hx
    | control =>
      unfold stopActs at hx
      rw [List.foldl_append] at hx
      cases hl : (finalCfg env c).controlEnable
      · rw [hl] at hx
        simp only [Bool.false_eq_true, if_false, List.foldl_nil] at hx
        rw [nosock _ (by
          intro a ha
          rcases List.mem_append.mp ha with ha | ha
          · rw [List.mem_singleton.mp ha]; rfl
          · split at ha
            · split at ha <;> simp at ha <;> rcases ha with rfl | rfl <;> rfl
            · cases ha)] at hx
        exfalso
        have hl' : c.controlEnable = false := hl
        have : sock .control s'.trace = none := by
          rw [ht, List.append_assoc, sock, List.foldl_append]
          obtain ⟨f, r, lo, co, dr, ti, rfl, rfl, rfl, hco, hco', hdr, hdr', rfl⟩ := hb.acts
          have hr : List.foldl (sockStep .control) none (remoteActs c f
              (finalCfg env c).remotePort.toNat ++ (if c.localEnable = true then
                unixActs .loc (finalCfg env c).localSocket ++ [.install .loc] else []) ++ co ++
                dr ++ (if ticket then [.addTicket] else [])) = none := by
            simp only [List.foldl_append]
            rw [sock_skip (elsewhere_ticket _ _), sock_skip (elsewhere_drop _ hdr hdr'),
              hco hl', sock_skip (elsewhere_local (by decide) _ _),
              sock_skip (elsewhere_remote (by decide) _ _ _)]
            rfl
          rw [hr]
          obtain ⟨b, hb'⟩ := begun_sock hp .control none
          rw [hb']; rfl
        rw [sock] at this
        rw [this] at hx
        cases hx
      · rw [hl] at hx
        simp only [if_true] at hx
        by_cases htt : lower (finalCfg env c).controlTransport = "tcp".toList
        · rw [if_pos htt] at hx
          exact off _ _ hx
        · rw [if_neg htt, List.foldl_append] at hx
          exact off _ _ hx
  · intro path hpath
    have keep : ∀ (l : List Act), (∀ sv, .bindUnix sv path ∉ l) →
        ∀ x, .unlink path ∈ l ∨ x = none → l.foldl (nodeStep path) x = none := by
      intro l
      induction l with
      | nil => intro _ x hx; rcases hx with h | h; cases h; exact h
      | cons a l ih =>
        intro hl x hx
        rw [List.foldl_cons]
        refine ih (fun sv hm => hl sv (by simp [hm])) _ ?_
        rcases hx with hx | rfl
        · rcases List.mem_cons.mp hx with rfl | hx
          · right; simp [nodeStep]
          · exact .inl hx
        · right
          cases a with
          | bindUnix t p =>
            have : p ≠ path := by
              rintro rfl
              exact hl t (by simp)
            simp [nodeStep, this]
          | unlink p => simp [nodeStep]
          | chmod p m => simp [nodeStep]
          | chown p u g => simp [nodeStep]
          | _ => rfl
    have nb : ∀ sv, .bindUnix sv path ∉ stopActs (finalCfg env c) := by
      intro sv hm
      unfold stopActs at hm
      simp only [List.mem_append, List.mem_singleton] at hm
      rcases hm with (hm | hm) | hm
      · cases hm
      · split at hm
        · split at hm <;> simp at hm
        · cases hm
      · split at hm
        · split at hm
          · simp at hm
          · split at hm <;> simp at hm
        · cases hm
    rw [hst, node, List.foldl_append]
    apply keep _ nb
    by_cases hbd : ∀ sv, .bindUnix sv path ∉ s'.trace
    · right; exact node_bound hbd
    · left
      simp only [not_forall, not_not] at hbd
      obtain ⟨sv, hm⟩ := hbd
      rw [ht, List.append_assoc] at hm
      have hm : .bindUnix sv path ∈ l := by
        rcases List.mem_append.mp hm with hm | hm
        · exact hm
        · rcases hp _ hm with ⟨_, h, _⟩ | h <;> cases h
      unfold stopActs
      rcases built_bound hb hm with ⟨hl, e⟩ | ⟨hl, hu, e⟩
      · have hl' : (finalCfg env c).localEnable = true := hl
        rw [e] at hpath
        rw [hl', if_pos rfl, if_neg hpath, e]
        simp
      · have hl' : (finalCfg env c).controlEnable = true := hl
        have hu' : lower (finalCfg env c).controlTransport ≠ "tcp".toList := by
          change lower c.controlTransport ≠ _
          rw [hu]; exact fun h => tcp_ne_unix h.symm
        rw [e] at hpath
        rw [hl', if_pos rfl, if_neg hu', if_neg hpath, e]
        simp

/-! ### Starting with a valid configuration -/

/-- The program succeeds. -/
def Runs {α : Type} (m : M α) (s : St) : Prop := ∃ a s', m s = (.ok a, s')

theorem Runs.bind {α β : Type} {m : M α} {f : α → M β} {s : St} (h : Runs m s)
    (hf : ∀ a s', m s = (.ok a, s') → Runs (f a) s') : Runs (m >>= f) s := by
  obtain ⟨a, s', h⟩ := h
  obtain ⟨b, s'', h'⟩ := hf a s' h
  exact ⟨b, s'', by rw [bind_run h, h']⟩

theorem Runs.act {env : Env} (hf : env.fails = fun _ _ => false) (a : Act) (s : St) :
    Runs (act env a) s := ⟨(), _, by unfold Daemon.act; rw [hf]; rfl⟩

theorem Runs.cfg (s : St) : Runs cfg s := ⟨_, _, rfl⟩

theorem Runs.setCfg (f : Cfg → Cfg) (s : St) : Runs (setCfg f) s := ⟨_, _, rfl⟩

theorem Runs.pure {α : Type} (a : α) (s : St) : Runs (Pure.pure a : M α) s := ⟨_, _, rfl⟩

theorem Runs.check {b : Bool} (e : DErr) (h : b = true) (s : St) : Runs (check b e) s :=
  ⟨(), s, by unfold Daemon.check; rw [if_pos h]; rfl⟩

theorem Runs.ask {α : Type} {x : Option α} (e : DErr) {a : α} (h : x = some a) (s : St) :
    Runs (ask x e) s := ⟨a, s, by rw [h]; rfl⟩

theorem Runs.when {b : Bool} {m : M Unit} {s : St} (h : b = true → Runs m s) :
    Runs (when b m) s := by
  unfold Daemon.when
  split
  · rename_i hb; exact h hb
  · exact .pure _ _

theorem Runs.pathAct {env : Env} (hf : env.fails = fun _ _ => false) {p : Str}
    (hp : '\x00' ∉ p) (a : Act) (s : St) : Runs (pathAct env p a) s :=
  .bind (.check _ (by simpa using hp) _) fun _ _ _ => .act hf _ _

/-- The answers of a system which refuses nothing. -/
structure Helpful (env : Env) (c : Cfg) : Prop where
  fails : env.fails = fun _ _ => false
  remote : ∃ f fs, env.addresses c.remoteHost = some (f :: fs)
  localhost : ∃ f fs, env.addresses "localhost".toList = some (f :: fs)
  uid : ∃ u, env.uid c.userName = some u
  gid : ∃ g, env.gid c.groupName = some g
  runDir : '\x00' ∉ c.runDir
  logs : ∀ f ∈ env.logFiles, '\x00' ∉ f
  ticket : env.ticketValid = true

theorem chooseFamily_some (p : Bool) (f : Family) (fs : List Family) :
    ∃ g, chooseFamily p (f :: fs) = some g := by
  cases h : chooseFamily p (f :: fs) with
  | some g => exact ⟨g, rfl⟩
  | none =>
    exfalso
    unfold chooseFamily at h
    cases p with
    | false => simp at h
    | true =>
      simp only [if_true, List.head?_eq_none_iff, List.append_eq_nil_iff] at h
      cases f <;> simp at h

theorem runs_tcp {env : Env} (hf : env.fails = fun _ _ => false) {host : Str}
    (ha : ∃ f fs, env.addresses host = some (f :: fs)) (sv : Service) (port : Nat) (p : Bool)
    (s : St) : Runs (tcpServer env sv host port p) s := by
  obtain ⟨f, fs, ha⟩ := ha
  refine .bind (.ask _ ha _) fun a s1 h1 => ?_
  obtain ⟨e, _⟩ := ask_ok h1
  rw [ha] at e
  obtain ⟨g, hg⟩ := chooseFamily_some p f fs
  rw [← Option.some.inj e]
  exact .bind (.ask _ hg _) fun _ _ _ => .bind (.act hf _ _) fun _ _ _ =>
    .bind (.act hf _ _) fun _ _ _ => .pure _ _

theorem runs_unix {env : Env} (hf : env.fails = fun _ _ => false) {a : Str}
    (ha : '\x00' ∉ a.tail) (sv : Service) (s : St) : Runs (unixServer env sv a) s := by
  refine .bind (.when fun hb => .pathAct hf ?_ _ _) fun _ _ _ => .bind (.act hf _ _) fun _ _ _ =>
    .bind (.act hf _ _) fun _ _ _ => .pure _ _
  cases a with
  | nil => simp at hb
  | cons x xs =>
    simp only [reduceCtorEq, if_false, List.head?_cons, Option.some.injEq, Bool.not_eq_true',
      decide_eq_false_iff_not, List.tail_cons] at hb ha ⊢
    simp only [List.mem_cons, not_or]
    exact ⟨fun h => hb h.symm, ha⟩

theorem runs_chown {env : Env} (hf : env.fails = fun _ _ => false) (u g : Nat) (fs : List Str)
    (hl : ∀ f ∈ fs, '\x00' ∉ f) (s : St) : Runs (chownLogs env u g fs) s := by
  induction fs generalizing s with
  | nil => exact .pure _ _
  | cons f fs ih =>
    exact .bind (.pathAct hf (hl f (by simp)) _ _) fun _ s1 _ =>
      ih (fun x hx => hl x (by simp [hx])) s1

theorem portOk_of {p : Int} (h : TcpPort p) (hp : p ≠ 65535) : portOk p = true := by
  unfold TcpPort at h
  simp only [portOk, Bool.and_eq_true, decide_eq_true_eq]
  omega

/-- C60, partial: with a valid configuration, and a system that refuses nothing, the daemon
starts.

Missing: the port 65535, and an abstract unix socket of the control service (both are
refused, see the counterexamples). -/
theorem C60_starts_partial (env : Env) (ticket : Bool) (c : Cfg) (hv : Valid c)
    (he : Helpful env c) (h1 : c.remotePort ≠ 65535) (h2 : c.controlPort ≠ 65535)
    (h3 : IsUnix c.controlTransport → c.controlSocket ≠ [] ∧ '\x00' ∉ c.controlSocket) :
    ∃ s', startup env ticket ⟨c, []⟩ = (.ok (), s') ∧
      ∀ sv, Enabled c sv → ∃ x, sock sv s'.trace = some x ∧ x.serving = true := by
  have key : Runs (startup env ticket) ⟨c, []⟩ := by
    unfold startup
    refine .bind ?_ fun _ s1 _ => .bind ?_ fun _ s2 _ => ?_
    · unfold initServer
      refine .bind ?_ fun _ s1 hs1 => ?_
      · -- remote
        refine .bind (.cfg _) fun c' s0 hc => ?_
        obtain ⟨rfl, rfl⟩ := cfg_ok hc
        refine .bind (.check _ (portOk_of hv.remote h1) _) fun _ s0 hs => ?_
        obtain ⟨_, rfl⟩ := check_ok hs
        refine .bind (runs_tcp he.fails he.remote _ _ _ _) fun p s2 hs => ?_
        obtain ⟨⟨_, _, _, _, e⟩, _⟩ := tcpServer_ok hs
        refine .bind (.when fun _ => .setCfg _ _) fun _ s3 hs3 => ?_
        have hc3 : s3.cfg.certFile = c.certFile ∧ s3.cfg.keyFile = c.keyFile := by
          rcases when_ok hs3 with ⟨_, w⟩ | ⟨_, rfl⟩
          · rw [setCfg_ok w, e]; exact ⟨rfl, rfl⟩
          · rw [e]; exact ⟨rfl, rfl⟩
        refine .bind (.when fun ht => ?_) fun _ _ _ => .act he.fails _ _
        refine .bind (.cfg _) fun c' s0 hc => ?_
        obtain ⟨rfl, rfl⟩ := cfg_ok hc
        refine .bind (.check _ ?_ _) fun _ _ _ => .act he.fails _ _
        obtain ⟨a1, a2⟩ := hv.tls ht
        rw [hc3.1, hc3.2]
        simp [a1, a2]
      obtain ⟨_, _, f, p, _, e1⟩ := remote_ok hs1
      have k1 : s1.cfg.localEnable = c.localEnable ∧ s1.cfg.localSocket = c.localSocket ∧
          s1.cfg.controlEnable = c.controlEnable ∧ s1.cfg.controlTransport = c.controlTransport ∧
          s1.cfg.controlSocket = c.controlSocket ∧ s1.cfg.controlPort = c.controlPort ∧
          s1.cfg.userName = c.userName ∧ s1.cfg.groupName = c.groupName ∧
          s1.cfg.runDir = c.runDir := by
        rw [e1]; simp only; split <;> simp
      clear e1
      refine .bind (.cfg _) fun c' s0 hc => ?_
      obtain ⟨rfl, rfl⟩ := cfg_ok hc
      refine .bind (.when fun hl => ?_) fun _ s2 hs2 => ?_
      · refine .bind (.cfg _) fun c' s0 hc => ?_
        obtain ⟨rfl, rfl⟩ := cfg_ok hc
        refine .bind (runs_unix he.fails ?_ _ _) fun _ _ _ => .bind (.when fun _ => .setCfg _ _)
          fun _ _ _ => .act he.fails _ _
        rw [k1.2.1]
        exact hv.loc (by rw [← k1.1]; exact hl)
      have k2 : s2.cfg.controlEnable = c.controlEnable ∧
          s2.cfg.controlTransport = c.controlTransport ∧
          s2.cfg.controlSocket = c.controlSocket ∧ s2.cfg.controlPort = c.controlPort ∧
          s2.cfg.userName = c.userName ∧ s2.cfg.groupName = c.groupName ∧
          s2.cfg.runDir = c.runDir := by
        rcases when_ok hs2 with ⟨_, w⟩ | ⟨_, rfl⟩
        · rw [local_ok w]; exact k1.2.2
        · exact k1.2.2
      refine .bind (.cfg _) fun c' s0 hc => ?_
      obtain ⟨rfl, rfl⟩ := cfg_ok hc
      refine .bind (.when fun hcl => ?_) fun _ s3 hs3 => ?_
      · unfold controlService
        refine .bind (.cfg _) fun c' s0 hc => ?_
        obtain ⟨rfl, rfl⟩ := cfg_ok hc
        rw [k2.1] at hcl
        have hcase := hv.control hcl
        rw [← lower_tcp, ← lower_unix, ← k2.2.1] at hcase
        by_cases htcp : lower s2.cfg.controlTransport = "tcp".toList
        · rw [if_pos htcp]
          have hp : TcpPort c.controlPort := by
            rcases hcase with ⟨_, h⟩ | h
            · exact h
            · exact absurd (htcp.symm.trans h) tcp_ne_unix
          refine .bind (.bind (.check _ ?_ _) fun _ _ _ =>
            .bind (runs_tcp he.fails he.localhost _ _ _ _) fun _ _ _ => .when fun _ => .setCfg _ _)
            fun _ _ _ => .act he.fails _ _
          rw [k2.2.2.2.1]
          exact portOk_of hp h2
        · have hu : lower s2.cfg.controlTransport = "unix".toList := by
            rcases hcase with ⟨h, _⟩ | h
            · exact absurd h htcp
            · exact h
          rw [if_neg htcp, if_pos hu]
          rw [k2.2.1] at hu
          obtain ⟨n1, n2⟩ := h3 ((lower_unix _).mp hu)
          refine .bind (.bind (runs_unix he.fails ?_ _ _) fun a s4 hs4 =>
            .bind (.when fun _ => .setCfg _ _) fun _ s5 hs5 => .bind (.cfg _) fun c' s6 hc => ?_)
            fun _ _ _ => .act he.fails _ _
          · rw [k2.2.2.1]
            exact fun h => n2 (List.mem_of_mem_tail h)
          · obtain ⟨rfl, rfl⟩ := cfg_ok hc
            obtain ⟨_, _, e4⟩ := unixServer_ok hs4
            have : s5.cfg.controlSocket = c.controlSocket := by
              rcases when_ok hs5 with ⟨hb, _⟩ | ⟨_, rfl⟩
              · rw [k2.2.2.1] at hb
                exact absurd (by simpa using hb) n1
              · rw [e4]; exact k2.2.2.1
            exact .pathAct he.fails (by rw [this]; exact n2) _ _
      have k3 : s3.cfg.userName = c.userName ∧ s3.cfg.groupName = c.groupName ∧
          s3.cfg.runDir = c.runDir ∧ s3.cfg.controlTransport = c.controlTransport ∧
          (s3.cfg.controlEnable = true → IsUnix c.controlTransport →
            '\x00' ∉ s3.cfg.controlSocket) := by
        rcases when_ok hs3 with ⟨_, w⟩ | ⟨hb, rfl⟩
        · rcases control_ok w with ⟨ht, _, _, _, _, _, _, _, e⟩ | ⟨_, hz, e⟩
          · rw [e]
            simp only
            rw [k2.2.1] at ht
            split <;> exact ⟨k2.2.2.2.2.1, k2.2.2.2.2.2.1, k2.2.2.2.2.2.2, k2.2.1, fun _ hu =>
              absurd (ht.symm.trans ((lower_unix _).mpr hu)) tcp_ne_unix⟩
          · rw [e]
            exact ⟨k2.2.2.2.2.1, k2.2.2.2.2.2.1, k2.2.2.2.2.2.2, k2.2.1, fun _ _ => hz⟩
        · exact ⟨k2.2.2.2.2.1, k2.2.2.2.2.2.1, k2.2.2.2.2.2.2, k2.2.1, fun h => by
            rw [hb] at h; cases h⟩
      refine .bind (.cfg _) fun c' s0 hc => ?_
      obtain ⟨rfl, rfl⟩ := cfg_ok hc
      refine .bind (.when fun _ => ?_) fun _ _ _ => .when fun _ =>
        .bind (.check _ he.ticket _) fun _ _ _ => .act he.fails _ _
      unfold dropPrivileges
      refine .bind (.cfg _) fun c' s0 hc => ?_
      obtain ⟨rfl, rfl⟩ := cfg_ok hc
      obtain ⟨u, hu⟩ := he.uid
      obtain ⟨g, hg⟩ := he.gid
      refine .bind (.ask _ (by rw [k3.1]; exact hu) _) fun _ _ _ =>
        .bind (.ask _ (by rw [k3.2.1]; exact hg) _) fun _ _ _ =>
        .bind (.when fun _ => .pathAct he.fails (by rw [k3.2.2.1]; exact he.runDir) _ _)
        fun _ _ _ => .bind (runs_chown he.fails _ _ _ he.logs _) fun _ _ _ =>
        .bind (.when fun hcu => .pathAct he.fails ?_ _ _) fun _ _ _ =>
        .bind (.act he.fails _ _) fun _ _ _ => .bind (.act he.fails _ _) fun _ _ _ =>
        .act he.fails _ _
      simp only [Bool.and_eq_true, decide_eq_true_eq, k3.2.2.2.1] at hcu
      exact k3.2.2.2.2 hcu.1 ((lower_unix _).mp hcu.2)
    · exact .bind (.cfg _) fun _ _ _ => .bind (.act he.fails _ _) fun _ _ _ =>
        .bind (.when fun _ => .act he.fails _ _) fun _ _ _ => .when fun _ => .act he.fails _ _
    · exact .bind (.cfg _) fun _ _ _ => .when fun _ => .act he.fails _ _
  obtain ⟨_, s', h⟩ := key
  refine ⟨s', h, fun sv hen => ?_⟩
  obtain ⟨x, h1, _, _, h4⟩ := C60_started env ticket c s' h sv hen
  exact ⟨x, h1, h4⟩

/-! ### A concrete daemon -/
namespace DaemonSample

/-- The defaults of `config.py`, with TLS files. -/
def cfg : Cfg :=
  { remoteHost := "::".toList, remotePort := 54322
    tlsEnable := true, caFile := "ca.pem".toList, certFile := "cert.pem".toList
    keyFile := "key.pem".toList, enableTls1_1 := false
    localEnable := true, localSocket := '\x00' :: "/org/ovirt/imageio".toList
    controlEnable := true, controlTransport := "unix".toList
    controlSocket := "/run/ovirt-imageio/sock".toList, controlPort := -1, preferIpv4 := true
    dropPrivileges := true, userName := "ovirtimg".toList, groupName := "ovirtimg".toList
    runDir := "/run/ovirt-imageio".toList, systemdEnable := true }

/-- A host where the daemon is started by root. -/
def env : Env :=
  { fails := fun _ _ => false
    root := true
    addresses := fun h => if h = "::".toList then some [.inet6] else some [.inet6, .inet]
    freePort := fun _ => 40000
    uuid := fun _ => "uuid".toList
    uid := fun _ => some 107
    gid := fun _ => some 36
    pathExists := fun _ => true
    logFiles := ["daemon.log".toList]
    ticketValid := true }

example : (startup env true ⟨cfg, []⟩).2.trace =
    [.bindTcp .remote .inet6 "::".toList 54322, .listen .remote,
     .wrapTls .remote "cert.pem".toList "key.pem".toList "ca.pem".toList .tls1,
     .install .remote,
     .bindUnix .loc ('\x00' :: "/org/ovirt/imageio".toList), .listen .loc, .install .loc,
     .unlink "/run/ovirt-imageio/sock".toList, .bindUnix .control "/run/ovirt-imageio/sock".toList,
     .listen .control, .chmod "/run/ovirt-imageio/sock".toList 0o660, .install .control,
     .chown "/run/ovirt-imageio".toList 107 36, .chown "daemon.log".toList 107 36,
     .chown "/run/ovirt-imageio/sock".toList 107 36,
     .initgroups "ovirtimg".toList 36, .setgid 36, .setuid 107, .addTicket,
     .serve .remote, .serve .loc, .serve .control, .notify] := by decide +kernel

theorem valid : Valid cfg where
  remote := by unfold TcpPort; decide +kernel
  tls := by decide +kernel
  control := fun _ => .inr (by unfold IsUnix; decide +kernel)
  loc := by decide +kernel

theorem helpful : Helpful env cfg where
  fails := rfl
  remote := ⟨.inet6, [], by decide +kernel⟩
  localhost := ⟨.inet6, [.inet], by decide +kernel⟩
  uid := ⟨107, rfl⟩
  gid := ⟨36, rfl⟩
  runDir := by decide +kernel
  logs := by decide +kernel
  ticket := rfl

/-- The hypotheses of `C60_starts_partial`. -/
example : Valid cfg ∧ Helpful env cfg ∧ cfg.remotePort ≠ 65535 ∧ cfg.controlPort ≠ 65535 ∧
    cfg.controlSocket ≠ [] ∧ '\x00' ∉ cfg.controlSocket :=
  ⟨valid, helpful, by decide +kernel, by decide +kernel, by decide +kernel, by decide +kernel⟩

/-- The hypotheses of `C60_remote`, `C60_local`, `C60_privileges`, `C60_control_unix`,
`C60_ready` and `C60_root_needed`: the effects split at the service. -/
example : ∃ pre post, (startup env true ⟨cfg, []⟩).2.trace = pre ++ .serve .remote :: post :=
  ⟨_, _, (List.append_of_mem (by decide +kernel :
    Act.serve .remote ∈ (startup env true ⟨cfg, []⟩).2.trace)).choose_spec.choose_spec⟩

example : Act.serve .loc ∈ (startup env true ⟨cfg, []⟩).2.trace ∧
    Act.serve .control ∈ (startup env true ⟨cfg, []⟩).2.trace ∧
    Act.notify ∈ (startup env true ⟨cfg, []⟩).2.trace ∧
    Act.setgid 36 ∈ (startup env true ⟨cfg, []⟩).2.trace ∧ needsRoot (.setgid 36) = true ∧
    IsUnix cfg.controlTransport := by
  unfold IsUnix
  decide +kernel

/-- The hypotheses of `C60_control_tcp`. -/
example : IsTcp "TCP".toList ∧ Act.serve .control ∈
    (startup env false ⟨{ cfg with controlTransport := "TCP".toList, controlPort := 0 }, []⟩).2.trace
    := by
  unfold IsTcp
  decide +kernel

/-- The hypothesis of `C60_failed`: the certificate is not configured. -/
example : (initServer env false ⟨{ cfg with certFile := [] }, []⟩).1 = .error .tlsConfiguration := by
  decide +kernel

/-- The hypotheses of `C60_started` and `C60_stopped`. -/
example : (startup env true ⟨cfg, []⟩).1 = .ok () ∧
    (stopServer env (startup env true ⟨cfg, []⟩).2).1 = .ok () := by decide +kernel

end DaemonSample

/-- C60, counterexample: port 65535 is a valid TCP port, but the daemon refuses to start
with it (`services.py:68` compares with `< 0xFFFF`). -/
theorem C60_counterexample_port :
    TcpPort 65535 ∧
    ∀ env ticket, (startup env ticket ⟨{ DaemonSample.cfg with remotePort := 65535 }, []⟩).1
      = .error .invalidConfig := by
  refine ⟨by unfold TcpPort; decide, fun env ticket => rfl⟩

/-- C60, counterexample: with an abstract unix socket for the control service (or an empty
name, which selects one) the daemon never starts: `os.chmod` (`services.py:163`) raises
`ValueError` for the null character of the name.  The local service accepts such names. -/
theorem C60_counterexample_abstract :
    (startup DaemonSample.env false ⟨{ DaemonSample.cfg with controlSocket := [] }, []⟩).1
      = .error .value ∧
    (startup DaemonSample.env false
      ⟨{ DaemonSample.cfg with controlSocket := '\x00' :: "x".toList }, []⟩).1 = .error .value := by
  decide +kernel

/-- C60: tickets and the profiler are reachable only in the control service, images only in
the other services. -/
theorem C60_control_only (sv : Service) (path : Str) (r : Http.Resource) (g : List Str)
    (h : resourceFor (patternsOf sv) path = some (r, g)) :
    (r = .tickets ∨ r = .profile) ↔ sv = .control := by
  unfold resourceFor at h
  obtain ⟨⟨p, r'⟩, hm, hp⟩ := List.exists_of_findSome?_eq_some h
  have hr : r' = r := by
    simp only [Option.map_eq_some_iff] at hp
    obtain ⟨_, _, e⟩ := hp
    exact (Prod.mk.inj e).1
  subst hr
  have hr : r' ∈ (patternsOf sv).map Prod.snd := List.mem_map.mpr ⟨_, hm, rfl⟩
  cases sv with
  | remote =>
    simp only [patternsOf, Http.remotePatterns, List.map_cons, List.map_nil, List.mem_cons,
      List.not_mem_nil, or_false] at hr
    rcases hr with rfl | rfl | rfl | rfl | rfl <;> simp
  | loc =>
    simp only [patternsOf, Http.localPatterns, List.map_cons, List.map_nil, List.mem_cons,
      List.not_mem_nil, or_false] at hr
    rcases hr with rfl | rfl | rfl | rfl <;> simp
  | control =>
    simp only [patternsOf, Http.controlPatterns, List.map_cons, List.map_nil, List.mem_cons,
      List.not_mem_nil, or_false] at hr
    rcases hr with rfl | rfl <;> simp

example : resourceFor (patternsOf .control) "/tickets/123".toList
    = some (.tickets, ["123".toList]) := by decide +kernel

/-! ## C61: terminating the daemon -/

/-- C61: the services accept connections from the start until a signal was received, and not
after the process ended. -/
theorem C61_up (services : List Service) (p : Proc) (h : Run services .start p) :
    (p.up = if p.pc = .installed ∨ p.pc = .done then [] else services) ∧
    (p.pc = .stopping ∨ p.pc = .done → 0 < p.signals) := by
  have key : (p.up = if p.pc = .installed ∨ p.pc = .done then [] else services) ∧
      (p.pc = .stopping ∨ p.pc = .done → 0 < p.signals) ∧
      (p.pc ≠ .installed → p.running = false → 0 < p.signals) := by
    induction h with
    | refl => simp [Proc.start]
    | @step q r h hn ih =>
      unfold Proc.next at hn
      cases hpc : q.pc <;> rw [hpc] at hn <;> simp only [Option.some.injEq, reduceCtorEq] at hn
      all_goals subst hn
      all_goals simp_all
      -- checking
      cases hr : q.running <;> simp_all
    | @signal q h hd ih =>
      unfold Proc.signal
      cases hpc : q.pc <;> simp_all
  exact ⟨key.1, key.2.1⟩

example : Run [.remote] .start
    ⟨.done, false, [], 1⟩ := by
  refine .step (.step (.signal (.step (.step (.step (.step (.refl _) rfl) rfl) rfl) rfl) ?_) rfl) rfl
  decide

/-- Executions with the number of steps of the main thread. -/
inductive RunN (services : List Service) : Proc → Nat → Proc → Prop
  | refl (p : Proc) : RunN services p 0 p
  | step {p q r : Proc} {n : Nat} :
      RunN services p n q → q.next services = some r → RunN services p (n + 1) r
  | signal {p q : Proc} {n : Nat} :
      RunN services p n q → q.pc ≠ .done → RunN services p n q.signal

/-- C61, partial: a signal received after `start()` has set `running`, but not between the
check of `running` and `pause()`, terminates the daemon: whatever happens later, the main
thread never sleeps, and has stopped all services after 3 of its steps.

Missing: signals before `start()`, and between the check and `pause()`, are lost; see the
counterexample. -/
theorem C61_terminates_partial (services : List Service) (p q : Proc) (n : Nat)
    (h1 : p.pc ≠ .installed) (h2 : p.pc ≠ .beforePause) (hq : RunN services p.signal n q) :
    (q.pc = .done ∨ ∃ r, q.next services = some r) ∧ (3 ≤ n → q.pc = .done) := by
  have key : q.running = false ∧
      ((q.pc = .starting ∧ n = 0) ∨ (q.pc = .checking ∧ n ≤ 1) ∨ (q.pc = .stopping ∧ n ≤ 2) ∨
        q.pc = .done) := by
    induction hq with
    | refl =>
      unfold Proc.signal
      cases hpc : p.pc <;> simp_all
    | @step q r m h hn ih =>
      obtain ⟨hr, ih⟩ := ih
      unfold Proc.next at hn
      rcases ih with ⟨hpc, hm⟩ | ⟨hpc, hm⟩ | ⟨hpc, hm⟩ | hpc
      all_goals (rw [hpc] at hn; simp only [Option.some.injEq, reduceCtorEq] at hn)
      all_goals subst hn
      all_goals simp_all
    | @signal q m h hd ih =>
      obtain ⟨hr, ih⟩ := ih
      unfold Proc.signal
      rcases ih with ⟨hpc, hm⟩ | ⟨hpc, hm⟩ | ⟨hpc, hm⟩ | hpc <;> simp_all
  obtain ⟨hr, h⟩ := key
  constructor
  · rcases h with ⟨hpc, _⟩ | ⟨hpc, _⟩ | ⟨hpc, _⟩ | hpc
    · right; simp [Proc.next, hpc]
    · right; simp [Proc.next, hpc]
    · right; simp [Proc.next, hpc]
    · exact .inl hpc
  · intro hn
    rcases h with ⟨hpc, h⟩ | ⟨hpc, h⟩ | ⟨hpc, h⟩ | hpc
    · omega
    · omega
    · omega
    · exact hpc

example : (⟨.paused, true, [.remote], 0⟩ : Proc).pc ≠ .installed ∧
    RunN [.remote] (⟨.paused, true, [.remote], 0⟩ : Proc).signal 2 ⟨.done, false, [], 1⟩ :=
  ⟨by decide, .step (.step (.refl _) rfl) rfl⟩

/-- C61, counterexample: a signal is lost if it is received before `start()` sets `running`
(`server.py:42-45,142-144`), or between the check of `running` and `pause()`
(`server.py:49-50`): the main thread sleeps and all services stay up, until another
signal. -/
theorem C61_counterexample_lost (services : List Service) :
    (∃ p, Run services .start p ∧ p.signals = 1 ∧ p.running = true ∧ p.up = services ∧
      p.next services = none ∧ p.pc ≠ .done) ∧
    (∃ p, Run services .start p ∧ p.signals = 1 ∧ p.running = false ∧ p.up = services ∧
      p.next services = none ∧ p.pc ≠ .done) := by
  constructor
  · refine ⟨⟨.paused, true, services, 1⟩, ?_, rfl, rfl, rfl, rfl, nofun⟩
    exact .step (.step (.step (.step (.signal (.refl _) (by decide)) rfl) rfl) rfl) rfl
  · refine ⟨⟨.paused, false, services, 1⟩, ?_, rfl, rfl, rfl, rfl, nofun⟩
    exact .step (.signal (.step (.step (.step (.refl _) rfl) rfl) rfl) nofun) rfl

end Imageio.Props
