import Verif.Spec.Daemon

/-! Lemmas about the startup of the daemon. -/
namespace Imageio.Daemon
open Imageio.Spec.Sys

theorem bind_ok {α β : Type} {m : M α} {f : α → M β} {s s' : St} {b : β}
    (h : (m >>= f) s = (.ok b, s')) :
    ∃ a s1, m s = (.ok a, s1) ∧ f a s1 = (.ok b, s') := by
  change M.bind m f s = _ at h
  unfold M.bind at h
  split at h
  · rename_i a s1 hm
    exact ⟨a, s1, hm, h⟩
  · cases h

theorem bind_run {α β : Type} {m : M α} {f : α → M β} {s s1 : St} {a : α}
    (h : m s = (.ok a, s1)) : (m >>= f) s = f a s1 := by
  change M.bind m f s = _
  unfold M.bind
  rw [h]

theorem pure_ok {α : Type} {a b : α} {s s' : St} (h : (pure a : M α) s = (.ok b, s')) :
    a = b ∧ s = s' := by
  change (Except.ok a, s) = _ at h
  simp only [Prod.mk.injEq, Except.ok.injEq] at h
  exact h

theorem act_ok {env : Env} {a : Act} {s s' : St} (h : act env a s = (.ok (), s')) :
    s' = { s with trace := s.trace ++ [a] } := by
  unfold act at h
  split at h
  · cases h
  · simp only [Prod.mk.injEq, true_and] at h
    exact h.symm

theorem cfg_ok {s s' : St} {c : Cfg} (h : cfg s = (.ok c, s')) : s.cfg = c ∧ s = s' := by
  simp only [cfg, Prod.mk.injEq, Except.ok.injEq] at h
  exact h

theorem check_ok {b : Bool} {e : DErr} {s s' : St} (h : check b e s = (.ok (), s')) :
    b = true ∧ s = s' := by
  unfold check at h
  split at h
  · rename_i hb
    exact ⟨hb, (pure_ok h).2⟩
  · cases h

theorem ask_ok {α : Type} {x : Option α} {e : DErr} {s s' : St} {a : α}
    (h : ask x e s = (.ok a, s')) : x = some a ∧ s = s' := by
  unfold ask at h
  split at h
  · cases h
  · obtain ⟨rfl, rfl⟩ := pure_ok h
    exact ⟨rfl, rfl⟩

theorem when_ok {b : Bool} {m : M Unit} {s s' : St} (h : when b m s = (.ok (), s')) :
    (b = true ∧ m s = (.ok (), s')) ∨ (b = false ∧ s = s') := by
  unfold when at h
  split at h
  · rename_i hb; exact .inl ⟨hb, h⟩
  · rename_i hb
    exact .inr ⟨by simpa using hb, (pure_ok h).2⟩

theorem pathAct_ok {env : Env} {p : Str} {a : Act} {s s' : St}
    (h : pathAct env p a s = (.ok (), s')) :
    '\x00' ∉ p ∧ s' = { s with trace := s.trace ++ [a] } := by
  unfold pathAct at h
  replace h := bind_ok h
  obtain ⟨_, s1, h1, h2⟩ := h
  replace h1 := check_ok h1
  obtain ⟨hb, rfl⟩ := h1
  exact ⟨by simpa using hb, act_ok h2⟩

theorem setCfg_ok {f : Cfg → Cfg} {s s' : St} (h : setCfg f s = (.ok (), s')) :
    s' = { s with cfg := f s.cfg } := by
  simp only [setCfg, Prod.mk.injEq, true_and] at h
  exact h.symm

theorem tcpServer_ok {env : Env} {sv : Service} {host : Str} {port : Nat} {pref : Bool}
    {s s' : St} {p : Nat} (h : tcpServer env sv host port pref s = (.ok p, s')) :
    (∃ fs f, env.addresses host = some fs ∧ chooseFamily pref fs = some f ∧
      s' = { s with trace := s.trace ++ [.bindTcp sv f host p, .listen sv] }) ∧
    p = if port = 0 then env.freePort sv else port := by
  unfold tcpServer at h
  replace h := bind_ok h
  obtain ⟨fs, _, h1, h⟩ := h
  replace h1 := ask_ok h1
  obtain ⟨e1, rfl⟩ := h1
  replace h := bind_ok h
  obtain ⟨f, _, h1, h⟩ := h
  replace h1 := ask_ok h1
  obtain ⟨e2, rfl⟩ := h1
  replace h := bind_ok h
  obtain ⟨_, s1, h1, h⟩ := h
  have a1 := act_ok h1
  replace h := bind_ok h
  obtain ⟨_, s2, h1, h⟩ := h
  have a2 := act_ok h1
  replace h := pure_ok h
  obtain ⟨rfl, rfl⟩ := h
  refine ⟨⟨fs, f, e1, e2, ?_⟩, rfl⟩
  rw [a2, a1]; simp

/-- The effects of opening a unix socket. -/
def unixActs (sv : Service) (a : Str) : List Act :=
  (if a.head? = some '\x00' then [] else [.unlink a]) ++ [.bindUnix sv a, .listen sv]

theorem unixServer_ok {env : Env} {sv : Service} {addr : Str} {s s' : St} {a : Str}
    (h : unixServer env sv addr s = (.ok a, s')) :
    a = (if addr = [] then '\x00' :: env.uuid sv else addr) ∧
    (a.head? ≠ some '\x00' → '\x00' ∉ a) ∧
    s' = { s with trace := s.trace ++ unixActs sv a } := by
  unfold unixServer at h
  replace h := bind_ok h
  obtain ⟨_, s1, h1, h⟩ := h
  have w := when_ok h1
  replace h := bind_ok h
  obtain ⟨_, s2, h1, h⟩ := h
  have a1 := act_ok h1
  replace h := bind_ok h
  obtain ⟨_, s3, h1, h⟩ := h
  have a2 := act_ok h1
  replace h := pure_ok h
  obtain ⟨rfl, rfl⟩ := h
  refine ⟨rfl, ?_, ?_⟩
  · intro hn
    rcases w with ⟨_, w⟩ | ⟨hb, _⟩
    · exact (pathAct_ok w).1
    · simp only [Bool.not_eq_false', decide_eq_true_eq] at hb
      exact absurd hb hn
  · generalize (if addr = [] then '\x00' :: env.uuid sv else addr) = a at *
    rw [a2, a1]
    rcases w with ⟨hb, w⟩ | ⟨hb, rfl⟩
    · rw [(pathAct_ok w).2, unixActs, if_neg (by simpa using hb)]
      simp
    · rw [unixActs, if_pos (by simpa using hb)]
      simp

/-- The effects of the remote service. -/
def remoteActs (c : Cfg) (f : Family) (p : Nat) : List Act :=
  [.bindTcp .remote f c.remoteHost p, .listen .remote] ++
  (if c.tlsEnable then
    [.wrapTls .remote c.certFile c.keyFile c.caFile (minimumVersion c.enableTls1_1)] else []) ++
  [.install .remote]

theorem remote_ok {env : Env} {s s' : St} (h : remoteService env s = (.ok (), s')) :
    portOk s.cfg.remotePort = true ∧
    (s.cfg.tlsEnable = true → s.cfg.certFile ≠ [] ∧ s.cfg.keyFile ≠ []) ∧
    ∃ f p, p = (if s.cfg.remotePort = 0 then env.freePort .remote else s.cfg.remotePort.toNat) ∧
      s' = { cfg := if s.cfg.remotePort = 0 then { s.cfg with remotePort := (p : Int) } else s.cfg
             trace := s.trace ++ remoteActs s.cfg f p } := by
  unfold remoteService at h
  replace h := bind_ok h
  obtain ⟨c, _, h1, h⟩ := h
  replace h1 := cfg_ok h1
  obtain ⟨rfl, rfl⟩ := h1
  replace h := bind_ok h
  obtain ⟨_, _, h1, h⟩ := h
  replace h1 := check_ok h1
  obtain ⟨hp, rfl⟩ := h1
  replace h := bind_ok h
  obtain ⟨p, s1, h1, h⟩ := h
  replace h1 := tcpServer_ok h1
  obtain ⟨⟨fs, f, _, _, t1⟩, ep⟩ := h1
  replace h := bind_ok h
  obtain ⟨_, s2, h1, h⟩ := h
  have w1 := when_ok h1
  replace h := bind_ok h
  obtain ⟨_, s3, h1, h⟩ := h
  have w2 := when_ok h1
  have a3 := act_ok h
  have c2 : s2 = { s1 with
      cfg := if s.cfg.remotePort = 0 then { s1.cfg with remotePort := (p : Int) } else s1.cfg } := by
    rcases w1 with ⟨hb, w⟩ | ⟨hb, rfl⟩
    · rw [if_pos (by simpa using hb)]; exact setCfg_ok w
    · rw [if_neg (by simpa using hb)]
  have c1 : s1.cfg = s.cfg := by rw [t1]
  have k2 : s2.cfg.tlsEnable = s.cfg.tlsEnable ∧ s2.cfg.certFile = s.cfg.certFile ∧
      s2.cfg.keyFile = s.cfg.keyFile ∧ s2.cfg.caFile = s.cfg.caFile ∧
      s2.cfg.enableTls1_1 = s.cfg.enableTls1_1 := by
    rw [c2, c1]; split <;> simp
  refine ⟨hp, ?_, f, p, ?_, ?_⟩
  · intro ht
    rcases w2 with ⟨_, w⟩ | ⟨hb, _⟩
    · unfold secureServer at w
      replace w := bind_ok w
      obtain ⟨c, _, h1, w⟩ := w
      replace h1 := cfg_ok h1
      obtain ⟨rfl, rfl⟩ := h1
      replace w := bind_ok w
      obtain ⟨_, _, h1, w⟩ := w
      have := (check_ok h1).1
      rw [k2.2.1, k2.2.2.1] at this
      simpa using this
    · rw [ht] at hb; cases hb
  · rw [ep]
    simp only [portOk, Bool.and_eq_true, decide_eq_true_eq] at hp
    split <;> split <;> first | rfl | omega
  · rcases w2 with ⟨hb, w⟩ | ⟨hb, rfl⟩
    · unfold secureServer at w
      replace w := bind_ok w
      obtain ⟨c, _, h1, w⟩ := w
      replace h1 := cfg_ok h1
      obtain ⟨rfl, rfl⟩ := h1
      replace w := bind_ok w
      obtain ⟨_, _, h1, w⟩ := w
      replace h1 := check_ok h1
      obtain ⟨_, rfl⟩ := h1
      have a2 := act_ok w
      rw [a3, a2, k2.2.1, k2.2.2.1, k2.2.2.2.1, k2.2.2.2.2, c2, t1]
      simp [remoteActs, hb]
    · rw [a3, c2, t1]
      simp [remoteActs, hb]

/-- The address of the unix socket of a service. -/
def address (env : Env) (sv : Service) (addr : Str) : Str :=
  if addr = [] then '\x00' :: env.uuid sv else addr

theorem local_ok {env : Env} {s s' : St} (h : localService env s = (.ok (), s')) :
    s' = { cfg := { s.cfg with localSocket := address env .loc s.cfg.localSocket }
           trace := s.trace ++ unixActs .loc (address env .loc s.cfg.localSocket) ++
             [.install .loc] } := by
  unfold localService at h
  replace h := bind_ok h
  obtain ⟨c, _, h1, h⟩ := h
  replace h1 := cfg_ok h1
  obtain ⟨rfl, rfl⟩ := h1
  replace h := bind_ok h
  obtain ⟨a, s1, h1, h⟩ := h
  replace h1 := unixServer_ok h1
  obtain ⟨ea, _, t1⟩ := h1
  replace h := bind_ok h
  obtain ⟨_, s2, h1, h⟩ := h
  have w1 := when_ok h1
  have a3 := act_ok h
  have ea' : a = address env .loc s.cfg.localSocket := ea
  rcases w1 with ⟨hb, w⟩ | ⟨hb, rfl⟩
  · rw [a3, setCfg_ok w, t1, ← ea']
  · have : address env .loc s.cfg.localSocket = s.cfg.localSocket := by
      rw [address, if_neg (by simpa using hb)]
    rw [a3, t1, ea', this]

theorem control_ok {env : Env} {s s' : St} (h : controlService env s = (.ok (), s')) :
    (lower s.cfg.controlTransport = "tcp".toList ∧ portOk s.cfg.controlPort = true ∧
      ∃ fs f p, env.addresses "localhost".toList = some fs ∧
        chooseFamily s.cfg.preferIpv4 fs = some f ∧
        p = (if s.cfg.controlPort = 0 then env.freePort .control
          else s.cfg.controlPort.toNat) ∧
        s' = { cfg := if s.cfg.controlPort = 0 then { s.cfg with controlPort := (p : Int) }
                 else s.cfg
               trace := s.trace ++ [.bindTcp .control f "localhost".toList p, .listen .control,
                 .install .control] }) ∨
    (lower s.cfg.controlTransport = "unix".toList ∧
      '\x00' ∉ address env .control s.cfg.controlSocket ∧
      s' = { cfg := { s.cfg with controlSocket := address env .control s.cfg.controlSocket }
             trace := s.trace ++ unixActs .control (address env .control s.cfg.controlSocket) ++
               [.chmod (address env .control s.cfg.controlSocket) 0o660, .install .control] }) := by
  unfold controlService at h
  replace h := bind_ok h
  obtain ⟨c, _, h1, h⟩ := h
  replace h1 := cfg_ok h1
  obtain ⟨rfl, rfl⟩ := h1
  split at h
  · rename_i ht
    left
    replace h := bind_ok h
    obtain ⟨_, s3, h3, h⟩ := h
    have a3 := act_ok h
    unfold controlTcp at h3
    replace h3 := bind_ok h3
    obtain ⟨_, _, h1, h3⟩ := h3
    replace h1 := check_ok h1
    obtain ⟨hp, rfl⟩ := h1
    replace h3 := bind_ok h3
    obtain ⟨p, s1, h1, h3⟩ := h3
    replace h1 := tcpServer_ok h1
    obtain ⟨⟨fs, f, e1, e2, t1⟩, ep⟩ := h1
    have w1 := when_ok h3
    refine ⟨ht, hp, fs, f, p, e1, e2, ?_, ?_⟩
    · rw [ep]
      simp only [portOk, Bool.and_eq_true, decide_eq_true_eq] at hp
      split <;> split <;> first | rfl | omega
    · rcases w1 with ⟨hb, w⟩ | ⟨hb, rfl⟩
      · rw [a3, setCfg_ok w, t1, if_pos (by simpa using hb)]; simp
      · rw [a3, t1, if_neg (by simpa using hb)]; simp
  · split at h
    · rename_i ht
      right
      replace h := bind_ok h
      obtain ⟨_, s3, h3, h⟩ := h
      have a3 := act_ok h
      unfold controlUnix at h3
      replace h3 := bind_ok h3
      obtain ⟨a, s1, h1, h3⟩ := h3
      replace h1 := unixServer_ok h1
      obtain ⟨ea, _, t1⟩ := h1
      replace h3 := bind_ok h3
      obtain ⟨_, s2, h1, h3⟩ := h3
      have w1 := when_ok h1
      replace h3 := bind_ok h3
      obtain ⟨c, _, h1, h3⟩ := h3
      replace h1 := cfg_ok h1
      obtain ⟨rfl, rfl⟩ := h1
      replace h3 := pathAct_ok h3
      obtain ⟨hz, a2⟩ := h3
      have ea' : a = address env .control s.cfg.controlSocket := ea
      rcases w1 with ⟨hb, w⟩ | ⟨hb, rfl⟩
      · rw [setCfg_ok w] at hz a2
        refine ⟨ht, by rw [← ea']; exact hz, ?_⟩
        rw [a3, a2, t1, ← ea']
        simp [defaultSocketMode]
      · have e0 : address env .control s.cfg.controlSocket = s.cfg.controlSocket := by
          rw [address, if_neg (by simpa using hb)]
        rw [t1] at hz a2
        refine ⟨ht, by rw [e0]; exact hz, ?_⟩
        rw [a3, a2, ea', e0]
        simp [defaultSocketMode]
    · obtain ⟨_, _, h1, _⟩ := bind_ok h
      cases h1

theorem chownLogs_ok {env : Env} {uid gid : Nat} {fs : List Str} {s s' : St}
    (h : chownLogs env uid gid fs s = (.ok (), s')) :
    s' = { s with trace := s.trace ++ fs.map fun f => .chown f uid gid } := by
  induction fs generalizing s with
  | nil =>
    rw [← (pure_ok h).2]; simp
  | cons f fs ih =>
    unfold chownLogs at h
    replace h := bind_ok h
    obtain ⟨_, s1, h1, h⟩ := h
    rw [ih h, (pathAct_ok h1).2]
    simp

/-- The effects of dropping privileges before the identity is changed. -/
def chownActs (env : Env) (c : Cfg) (hasControl : Bool) (uid gid : Nat) : List Act :=
  (if env.pathExists c.runDir then [.chown c.runDir uid gid] else []) ++
  (env.logFiles.map fun f => .chown f uid gid) ++
  (if hasControl && decide (lower c.controlTransport = "unix".toList) then
    [.chown c.controlSocket uid gid] else [])

theorem drop_ok {env : Env} {hc : Bool} {s s' : St}
    (h : dropPrivileges env hc s = (.ok (), s')) :
    ∃ uid gid, env.uid s.cfg.userName = some uid ∧ env.gid s.cfg.groupName = some gid ∧
      s' = { s with trace := s.trace ++ chownActs env s.cfg hc uid gid ++
        [.initgroups s.cfg.userName gid, .setgid gid, .setuid uid] } := by
  unfold dropPrivileges at h
  replace h := bind_ok h
  obtain ⟨c, _, h1, h⟩ := h
  replace h1 := cfg_ok h1
  obtain ⟨rfl, rfl⟩ := h1
  replace h := bind_ok h
  obtain ⟨uid, _, h1, h⟩ := h
  replace h1 := ask_ok h1
  obtain ⟨e1, rfl⟩ := h1
  replace h := bind_ok h
  obtain ⟨gid, _, h1, h⟩ := h
  replace h1 := ask_ok h1
  obtain ⟨e2, rfl⟩ := h1
  replace h := bind_ok h
  obtain ⟨_, s1, h1, h⟩ := h
  have w1 : s1 = { s with trace := s.trace ++
      (if env.pathExists s.cfg.runDir then [.chown s.cfg.runDir uid gid] else []) } := by
    rcases when_ok h1 with ⟨hb, w⟩ | ⟨hb, rfl⟩
    · rw [(pathAct_ok w).2, if_pos hb]
    · rw [if_neg (by rw [hb]; decide)]; simp
  replace h := bind_ok h
  obtain ⟨_, s2, h1, h⟩ := h
  have w2 := chownLogs_ok h1
  replace h := bind_ok h
  obtain ⟨_, s3, h1, h⟩ := h
  have w3 : s3 = { s2 with trace := s2.trace ++
      (if hc && decide (lower s.cfg.controlTransport = "unix".toList) then
        [.chown s.cfg.controlSocket uid gid] else []) } := by
    rcases when_ok h1 with ⟨hb, w⟩ | ⟨hb, rfl⟩
    · rw [(pathAct_ok w).2, if_pos hb]
    · rw [if_neg (by rw [hb]; decide)]; simp
  replace h := bind_ok h
  obtain ⟨_, s4, h1, h⟩ := h
  have a4 := act_ok h1
  replace h := bind_ok h
  obtain ⟨_, s5, h1, h⟩ := h
  have a5 := act_ok h1
  have a6 := act_ok h
  refine ⟨uid, gid, e1, e2, ?_⟩
  rw [a6, a5, a4, w3, w2, w1]
  simp [chownActs]

/-! ## No service before the end of the constructor -/

/-- The program only adds effects satisfying `P`, whether it fails or not. -/
def Adds {α : Type} (P : Act → Prop) (m : M α) : Prop :=
  ∀ s, ∃ e, (m s).2.trace = s.trace ++ e ∧ ∀ a ∈ e, P a

theorem Adds.bind {α β : Type} {P : Act → Prop} {m : M α} {f : α → M β} (h : Adds P m)
    (hf : ∀ a, Adds P (f a)) : Adds P (m >>= f) := by
  intro s
  obtain ⟨e, he, hp⟩ := h s
  change ∃ e, (M.bind m f s).2.trace = _ ∧ _
  unfold M.bind
  split
  · rename_i a s' hm
    rw [hm] at he
    obtain ⟨e', he', hp'⟩ := hf a s'
    refine ⟨e ++ e', ?_, ?_⟩
    · rw [he', he]; simp
    · intro a ha
      rcases List.mem_append.mp ha with h | h
      · exact hp a h
      · exact hp' a h
  · rename_i x s' hm
    rw [hm] at he
    exact ⟨e, he, hp⟩

theorem Adds.pure {α : Type} {P : Act → Prop} (a : α) : Adds P (Pure.pure a : M α) := fun s =>
  ⟨[], by change s.trace = _; simp, by simp⟩

theorem Adds.raise {α : Type} {P : Act → Prop} (x : DErr) : Adds P (raise x : M α) := fun s =>
  ⟨[], by change s.trace = _; simp, by simp⟩

theorem Adds.check {P : Act → Prop} (b : Bool) (x : DErr) : Adds P (check b x) := by
  unfold Daemon.check
  split
  · exact .pure _
  · exact .raise _

theorem Adds.when {P : Act → Prop} {b : Bool} {m : M Unit} (h : Adds P m) : Adds P (when b m) := by
  unfold Daemon.when
  split
  · exact h
  · exact .pure _

theorem Adds.cfg {P : Act → Prop} : Adds P cfg := fun s => ⟨[], by simp [Daemon.cfg], by simp⟩

theorem Adds.setCfg {P : Act → Prop} (f : Cfg → Cfg) : Adds P (setCfg f) := fun s =>
  ⟨[], by simp [Daemon.setCfg], by simp⟩

theorem Adds.ask {α : Type} {P : Act → Prop} (x : Option α) (e : DErr) : Adds P (ask x e) := by
  unfold Daemon.ask
  split
  · exact .raise _
  · exact .pure _

theorem Adds.act {P : Act → Prop} (env : Env) {a : Act} (h : P a) : Adds P (act env a) := by
  intro s
  unfold Daemon.act
  split
  · exact ⟨[], by simp, by simp⟩
  · exact ⟨[a], rfl, by simpa using h⟩

theorem Adds.pathAct {P : Act → Prop} (env : Env) (p : Str) {a : Act} (h : P a) :
    Adds P (pathAct env p a) := .bind (.check _ _) fun _ => .act env h

/-- An effect of the constructor: not `serve`, and not `notify`. -/
def Setup (a : Act) : Prop := (∀ sv, a ≠ .serve sv) ∧ a ≠ .notify

theorem adds_tcp (env : Env) (sv : Service) (host : Str) (port : Nat) (p : Bool) :
    Adds Setup (tcpServer env sv host port p) :=
  .bind (.ask _ _) fun _ => .bind (.ask _ _) fun _ =>
    .bind (.act env ⟨nofun, nofun⟩) fun _ => .bind (.act env ⟨nofun, nofun⟩) fun _ => .pure _

theorem adds_unix (env : Env) (sv : Service) (a : Str) : Adds Setup (unixServer env sv a) :=
  .bind (.when (.pathAct env _ ⟨nofun, nofun⟩)) fun _ =>
    .bind (.act env ⟨nofun, nofun⟩) fun _ => .bind (.act env ⟨nofun, nofun⟩) fun _ => .pure _

theorem adds_remote (env : Env) : Adds Setup (remoteService env) :=
  .bind .cfg fun _ => .bind (.check _ _) fun _ => .bind (adds_tcp _ _ _ _ _) fun _ =>
    .bind (.when (.setCfg _)) fun _ =>
    .bind (.when (.bind .cfg fun _ => .bind (.check _ _) fun _ => .act env ⟨nofun, nofun⟩))
      fun _ => .act env ⟨nofun, nofun⟩

theorem adds_local (env : Env) : Adds Setup (localService env) :=
  .bind .cfg fun _ => .bind (adds_unix _ _ _) fun _ => .bind (.when (.setCfg _)) fun _ =>
    .act env ⟨nofun, nofun⟩

theorem adds_control (env : Env) : Adds Setup (controlService env) := by
  refine .bind .cfg fun c => ?_
  have h1 : Adds Setup (controlTcp env c) :=
    .bind (.check _ _) fun _ => .bind (adds_tcp _ _ _ _ _) fun _ => .when (.setCfg _)
  have h2 : Adds Setup (controlUnix env c) :=
    .bind (adds_unix _ _ _) fun _ => .bind (.when (.setCfg _)) fun _ => .bind .cfg fun _ =>
      .pathAct env _ ⟨nofun, nofun⟩
  split
  · exact .bind h1 fun _ => .act env ⟨nofun, nofun⟩
  · split
    · exact .bind h2 fun _ => .act env ⟨nofun, nofun⟩
    · exact .bind (.raise _) fun _ => .act env ⟨nofun, nofun⟩

theorem adds_chown (env : Env) (u g : Nat) (fs : List Str) :
    Adds Setup (chownLogs env u g fs) := by
  induction fs with
  | nil => exact .pure _
  | cons f fs ih => exact .bind (.pathAct env _ ⟨nofun, nofun⟩) fun _ => ih

theorem adds_drop (env : Env) (b : Bool) : Adds Setup (dropPrivileges env b) :=
  .bind .cfg fun _ => .bind (.ask _ _) fun _ => .bind (.ask _ _) fun _ =>
    .bind (.when (.pathAct env _ ⟨nofun, nofun⟩)) fun _ => .bind (adds_chown _ _ _ _) fun _ =>
    .bind (.when (.pathAct env _ ⟨nofun, nofun⟩)) fun _ => .bind (.act env ⟨nofun, nofun⟩) fun _ =>
    .bind (.act env ⟨nofun, nofun⟩) fun _ => .act env ⟨nofun, nofun⟩

theorem adds_init (env : Env) (tk : Bool) : Adds Setup (initServer env tk) :=
  .bind (adds_remote env) fun _ => .bind .cfg fun _ => .bind (.when (adds_local env)) fun _ =>
    .bind .cfg fun _ => .bind (.when (adds_control env)) fun _ => .bind .cfg fun _ =>
    .bind (.when (adds_drop _ _)) fun _ =>
    .when (.bind (.check _ _) fun _ => .act env ⟨nofun, nofun⟩)

theorem act_cfg (env : Env) (a : Act) (s : St) : (act env a s).2.cfg = s.cfg := by
  unfold act; split <;> rfl

/-- The effects of `start` and `notify_systemd`. -/
def Begun (c : Cfg) (a : Act) : Prop := (∃ sv, a = .serve sv ∧ Enabled c sv) ∨ a = .notify

theorem adds_rest (env : Env) (s : St) :
    ∃ e, ((startServer env >>= fun _ => notifySystemd env) s).2.trace = s.trace ++ e ∧
      ∀ a ∈ e, Begun s.cfg a := by
  have h : Adds (Begun s.cfg) (do
      act env (.serve .remote)
      when s.cfg.localEnable (act env (.serve .loc))
      when s.cfg.controlEnable (act env (.serve .control))
      notifySystemd env) := by
    refine .bind (.act env (.inl ⟨_, rfl, trivial⟩)) fun _ => .bind ?_ fun _ => .bind ?_ fun _ =>
      .bind .cfg fun _ => .when (.act env (.inr rfl))
    · cases hl : s.cfg.localEnable
      · exact .pure _
      · exact .when (.act env (.inl ⟨_, rfl, hl⟩))
    · cases hl : s.cfg.controlEnable
      · exact .pure _
      · exact .when (.act env (.inl ⟨_, rfl, hl⟩))
  obtain ⟨e, he, hp⟩ := h s
  refine ⟨e, ?_, hp⟩
  rw [← he]
  have key : (startServer env >>= fun _ => notifySystemd env) s = (do
      act env (.serve .remote)
      when s.cfg.localEnable (act env (.serve .loc))
      when s.cfg.controlEnable (act env (.serve .control))
      notifySystemd env) s := by
    unfold startServer
    change M.bind (M.bind cfg _) _ s = M.bind _ _ s
    unfold M.bind
    simp only [cfg]
    change _ = M.bind _ _ s
    unfold M.bind
    cases h1 : act env (.serve .remote) s with
    | mk r1 s1 =>
    cases r1 with
    | error x => simp [bind, M.bind, h1]
    | ok u =>
      simp only [bind, M.bind, h1]
      cases h2 : when s.cfg.localEnable (act env (.serve .loc)) s1 with
      | mk r2 s2 =>
      cases r2 with
      | error x => simp
      | ok u =>
        simp only
  rw [key]

/-! ## The effects of the constructor -/

/-- The configuration after the constructor. -/
def finalCfg (env : Env) (c : Cfg) : Cfg :=
  { c with
    remotePort := if c.remotePort = 0 then (env.freePort .remote : Int) else c.remotePort
    localSocket := if c.localEnable then address env .loc c.localSocket else c.localSocket
    controlSocket :=
      if c.controlEnable && decide (lower c.controlTransport = "unix".toList) then
        address env .control c.controlSocket else c.controlSocket
    controlPort :=
      if c.controlEnable && decide (lower c.controlTransport = "tcp".toList) &&
        decide (c.controlPort = 0) then (env.freePort .control : Int) else c.controlPort }

/-- The effects of the constructor, when it succeeds. -/
structure Built (env : Env) (tk : Bool) (c : Cfg) (l : List Act) : Prop where
  port : portOk c.remotePort = true
  tls : c.tlsEnable = true → c.certFile ≠ [] ∧ c.keyFile ≠ []
  acts : ∃ (f : Family) (r lo co dr ti : List Act),
    l = r ++ lo ++ co ++ dr ++ ti ∧
    r = remoteActs c f (finalCfg env c).remotePort.toNat ∧
    lo = (if c.localEnable then unixActs .loc (finalCfg env c).localSocket ++ [.install .loc]
      else []) ∧
    (c.controlEnable = false → co = []) ∧
    (c.controlEnable = true →
      (lower c.controlTransport = "tcp".toList ∧ portOk c.controlPort = true ∧
        ∃ fs f, env.addresses "localhost".toList = some fs ∧
        chooseFamily c.preferIpv4 fs = some f ∧
        co = [.bindTcp .control f "localhost".toList (finalCfg env c).controlPort.toNat,
          .listen .control, .install .control]) ∨
      (lower c.controlTransport = "unix".toList ∧ '\x00' ∉ (finalCfg env c).controlSocket ∧
        co = unixActs .control (finalCfg env c).controlSocket ++
          [.chmod (finalCfg env c).controlSocket 0o660, .install .control])) ∧
    ((env.root && c.dropPrivileges) = false → dr = []) ∧
    ((env.root && c.dropPrivileges) = true → ∃ u g,
      env.uid c.userName = some u ∧ env.gid c.groupName = some g ∧
      dr = chownActs env (finalCfg env c) c.controlEnable u g ++
        [.initgroups c.userName g, .setgid g, .setuid u]) ∧
    ti = (if tk then [.addTicket] else [])

theorem tcp_ne_unix : ("tcp".toList : Str) ≠ "unix".toList := by decide +kernel

theorem init_ok {env : Env} {tk : Bool} {c : Cfg} {s' : St}
    (h : initServer env tk ⟨c, []⟩ = (.ok (), s')) :
    s'.cfg = finalCfg env c ∧ Built env tk c s'.trace := by
  unfold initServer at h
  replace h := bind_ok h
  obtain ⟨_, s1, h1, h⟩ := h
  obtain ⟨hp, ht, f, p, ep, e1⟩ := remote_ok h1
  simp only [List.nil_append] at e1 hp ht ep
  clear h1
  replace h := bind_ok h
  obtain ⟨c1, _, h1, h⟩ := h
  obtain ⟨rfl, rfl⟩ := cfg_ok h1
  clear h1
  replace h := bind_ok h
  obtain ⟨_, s2, h2, h⟩ := h
  replace h := bind_ok h
  obtain ⟨c2, _, h1, h⟩ := h
  obtain ⟨rfl, rfl⟩ := cfg_ok h1
  clear h1
  replace h := bind_ok h
  obtain ⟨_, s3, h3, h⟩ := h
  replace h := bind_ok h
  obtain ⟨c3, _, h1, h⟩ := h
  obtain ⟨rfl, rfl⟩ := cfg_ok h1
  clear h1
  replace h := bind_ok h
  obtain ⟨_, s4, h4, h5⟩ := h
  -- the configuration after the remote service
  have k1 : s1.cfg = { c with remotePort := (finalCfg env c).remotePort } := by
    rw [e1, ep, finalCfg]
    by_cases h0 : c.remotePort = 0
    · simp [h0]
    · simp [h0]
  have t1 : s1.trace = remoteActs c f (finalCfg env c).remotePort.toNat := by
    rw [e1, ep, finalCfg]
    by_cases h0 : c.remotePort = 0
    · simp [h0]
    · simp [h0]
  clear e1 ep
  have k2 : s2.cfg = { c with
      remotePort := (finalCfg env c).remotePort, localSocket := (finalCfg env c).localSocket } ∧
      s2.trace = s1.trace ++ (if c.localEnable then
        unixActs .loc (finalCfg env c).localSocket ++ [.install .loc] else []) := by
    have hle : s1.cfg.localEnable = c.localEnable := by rw [k1]
    rcases when_ok h2 with ⟨hb, w⟩ | ⟨hb, rfl⟩
    · rw [local_ok w]
      rw [hle] at hb
      simp only [k1, finalCfg, hb, if_true]
      simp
    · rw [hle] at hb
      constructor
      · rw [k1]; simp [finalCfg, hb]
      · simp [hb]
  have k3 : s3.cfg = finalCfg env c ∧ ∃ co, s3.trace = s2.trace ++ co ∧
      (c.controlEnable = false → co = []) ∧
      (c.controlEnable = true →
      (lower c.controlTransport = "tcp".toList ∧ portOk c.controlPort = true ∧
        ∃ fs f, env.addresses "localhost".toList = some fs ∧
        chooseFamily c.preferIpv4 fs = some f ∧
        co = [.bindTcp .control f "localhost".toList (finalCfg env c).controlPort.toNat,
          .listen .control, .install .control]) ∨
      (lower c.controlTransport = "unix".toList ∧ '\x00' ∉ (finalCfg env c).controlSocket ∧
        co = unixActs .control (finalCfg env c).controlSocket ++
          [.chmod (finalCfg env c).controlSocket 0o660, .install .control])) := by
    have hce : s2.cfg.controlEnable = c.controlEnable := by rw [k2.1]
    have hct : s2.cfg.controlTransport = c.controlTransport := by rw [k2.1]
    have hcp : s2.cfg.controlPort = c.controlPort := by rw [k2.1]
    have hcs : s2.cfg.controlSocket = c.controlSocket := by rw [k2.1]
    have hpr : s2.cfg.preferIpv4 = c.preferIpv4 := by rw [k2.1]
    rcases when_ok h3 with ⟨hb, w⟩ | ⟨hb, rfl⟩
    · rw [hce] at hb
      rcases control_ok w with ⟨ht, hp, fs, f, p, a1, a2, ep, e⟩ | ⟨ht, hz, e⟩
      · rw [hct] at ht
        rw [hcp] at hp ep
        rw [hpr] at a2
        have nu : lower c.controlTransport ≠ "unix".toList := by rw [ht]; exact tcp_ne_unix
        have fp : (finalCfg env c).controlPort.toNat = p := by
          rw [ep]; simp only [finalCfg, hb, ht, decide_true, Bool.true_and, decide_eq_true_eq]
          split <;> simp
        refine ⟨?_, _, by rw [e], by simp [hb], fun _ => .inl ⟨ht, hp, fs, f, a1, a2, by rw [fp]⟩⟩
        rw [e]
        simp only [hcp]
        by_cases h0 : c.controlPort = 0
        · rw [if_pos h0, k2.1, ep, if_pos h0]
          simp [finalCfg, hb, ht, h0]
        · rw [if_neg h0, k2.1]
          simp [finalCfg, hb, ht, h0]
      · rw [hct] at ht
        rw [hcs] at hz
        have nu : lower c.controlTransport ≠ "tcp".toList := by
          rw [ht]; exact fun h => tcp_ne_unix h.symm
        have fs : (finalCfg env c).controlSocket = address env .control c.controlSocket := by
          simp [finalCfg, hb, ht]
        refine ⟨?_, unixActs .control (finalCfg env c).controlSocket ++
          [.chmod (finalCfg env c).controlSocket 0o660, .install .control], ?_, by simp [hb],
          fun _ => .inr ⟨ht, by rw [fs]; exact hz, rfl⟩⟩
        · rw [e, hcs, k2.1]
          simp [finalCfg, hb, ht]
        · rw [e, hcs, fs]
          simp
    · rw [hce] at hb
      refine ⟨?_, [], by simp, fun _ => rfl, by simp [hb]⟩
      rw [k2.1]
      simp [finalCfg, hb]
  obtain ⟨k3, co, t3, hco, hco'⟩ := k3
  have k4 : s4.cfg = finalCfg env c ∧ ∃ dr, s4.trace = s3.trace ++ dr ∧
      ((env.root && c.dropPrivileges) = false → dr = []) ∧
      ((env.root && c.dropPrivileges) = true → ∃ u g,
        env.uid c.userName = some u ∧ env.gid c.groupName = some g ∧
        dr = chownActs env (finalCfg env c) c.controlEnable u g ++
          [.initgroups c.userName g, .setgid g, .setuid u]) := by
    have hdp : s3.cfg.dropPrivileges = c.dropPrivileges := by rw [k3]; rfl
    have hce : s3.cfg.controlEnable = c.controlEnable := by rw [k3]; rfl
    rw [hdp, hce] at h4
    rcases when_ok h4 with ⟨hb, w⟩ | ⟨hb, rfl⟩
    · obtain ⟨u, g, e1, e2, e⟩ := drop_ok w
      rw [k3] at e1 e2
      refine ⟨by rw [e]; exact k3, chownActs env (finalCfg env c) c.controlEnable u g ++
          [.initgroups c.userName g, .setgid g, .setuid u], ?_, by simp [hb],
        fun _ => ⟨u, g, e1, e2, rfl⟩⟩
      rw [e, k3]
      simp [finalCfg]
    · exact ⟨k3, [], by simp, fun _ => rfl, by simp [hb]⟩
  obtain ⟨k4, dr, t4, hdr, hdr'⟩ := k4
  have k5 : s'.cfg = finalCfg env c ∧
      s'.trace = s4.trace ++ (if tk then [.addTicket] else []) := by
    rcases when_ok h5 with ⟨hb, w⟩ | ⟨hb, rfl⟩
    · unfold addTicket at w
      replace w := bind_ok w
      obtain ⟨_, s5, h1, w⟩ := w
      obtain ⟨_, rfl⟩ := check_ok h1
      rw [act_ok w]
      simp [hb, k4]
    · simp [hb, k4]
  refine ⟨k5.1, hp, ht, f, _, _, co, dr, _, ?_, rfl, rfl, hco, hco', hdr, hdr', rfl⟩
  rw [k5.2, t4, t3, k2.2, t1]

/-! ## Where the services start -/

theorem split_append {α : Type} {A B pre post : List α} {x : α} (h : A ++ B = pre ++ x :: post)
    (hx : x ∉ A) : ∃ k, pre = A ++ k ∧ B = k ++ x :: post := by
  rcases List.append_eq_append_iff.mp h with ⟨k, h1, h2⟩ | ⟨k, h1, h2⟩
  · exact ⟨k, h1, h2⟩
  · cases k with
    | nil => exact ⟨[], by simpa using h1.symm, by simpa using h2.symm⟩
    | cons y k =>
      simp only [List.cons_append, List.cons.injEq] at h2
      rw [h1, h2.1] at hx
      simp at hx

theorem foldl_skip {α β : Type} {f : β → α → β} {l : List α} (h : ∀ a ∈ l, ∀ x, f x a = x)
    (x : β) : l.foldl f x = x := by
  induction l generalizing x with
  | nil => rfl
  | cons a l ih =>
    rw [List.foldl_cons, h a (by simp), ih fun b hb => h b (by simp [hb])]

theorem begin_split {env : Env} {tk : Bool} {c : Cfg} {pre post : List Act} {a : Act}
    (ha : ¬ Setup a) (h : (startup env tk ⟨c, []⟩).2.trace = pre ++ a :: post) :
    ∃ l k, Built env tk c l ∧ initServer env tk ⟨c, []⟩ = (.ok (), ⟨finalCfg env c, l⟩) ∧
      pre = l ++ k ∧ ∀ b ∈ k ++ [a], Begun c b := by
  unfold startup at h
  change (M.bind _ _ _).2.trace = _ at h
  unfold M.bind at h
  obtain ⟨e0, he0, hp0⟩ := adds_init env tk ⟨c, []⟩
  split at h
  · rename_i u s1 hi
    obtain ⟨hc, hb⟩ := init_ok hi
    obtain ⟨e, he, hp⟩ := adds_rest env s1
    rw [he] at h
    rw [hi] at he0
    simp only [List.nil_append] at he0
    obtain ⟨k, h1, h2⟩ := split_append h (by rw [he0]; exact fun hm => ha (hp0 _ hm))
    refine ⟨s1.trace, k, hb, ?_, h1, ?_⟩
    · rw [hi, ← hc]
    · intro b hbk
      have : b ∈ e := by
        rw [h2]
        rcases List.mem_append.mp hbk with h | h
        · simp [h]
        · simp [List.mem_singleton.mp h]
      have := hp b this
      rw [hc] at this
      rcases this with ⟨sv, rfl, hen⟩ | rfl
      · refine .inl ⟨sv, rfl, ?_⟩
        cases sv <;> exact hen
      · exact .inr rfl
  · rename_i x s1 hi
    rw [hi] at he0
    simp only [List.nil_append] at he0
    simp only [he0] at h
    exact absurd (hp0 a (by rw [h]; simp)) ha

theorem serve_not_setup (sv : Service) : ¬ Setup (.serve sv) := fun h => h.1 sv rfl
theorem notify_not_setup : ¬ Setup .notify := fun h => h.2 rfl

end Imageio.Daemon
