/-
C67: the tool of the administrator, the connection of the client, and the calls with ids that are
not plain.
-/
import Verif.Props.Admin
import Verif.Props.Daemon
import Mathlib.Logic.Equiv.List

namespace Imageio.Props

open Imageio.Admin Imageio.Spec.Admin Imageio.Spec.Tickets
open Imageio.Http Imageio.Images

/-! ## Ids that are not plain -/

/-- A request on a working network. -/
theorem request_works (cfg : Admin.Cfg) (net : Admin.Net) (hw : Works net) (m uri : Str)
    (body : Option Bytes) (w : World) (hs : w.stuck = false) (hu : validUri uri = true) :
    ∀ {s c}, handler cfg net m uri w.srv (net.conn body) = (.ok (), s, c) → Quiet c →
      c.writes = [] →
      ∃ b, request cfg net m uri body w = (.ok (c.status, b), { w with srv := s }) := by
  intro s c h hq hcw
  obtain ⟨h1, _, h3⟩ := serve_ok (s := s) net.lost hq
  have h3 := h3 hcw
  rcases request_cases cfg net m uri body w hs hu _ h with ⟨_, h⟩ | ⟨_, h⟩ | ⟨st, l, hst, _, hr⟩
  · exact absurd hw h
  · rw [h hw] at h3; cases h3
  · rw [h3] at hst
    cases hst
    exact ⟨_, by rw [hr, h1]⟩

/-- The uri of an id that starts with a question mark, or that is empty. -/
theorem split_empty (r : Str) : (splitQuery (ticketUri ('?' :: r))).1 = lit "/tickets/" ∧
    (splitQuery (ticketUri [])).1 = lit "/tickets/" := by
  constructor <;> rfl

theorem route_empty (decode : Bytes → Str) :
    route (unquote decode (lit "/tickets/")) = some (.tickets, [[]]) := by
  have h : unquote decode (lit "/tickets/") = lit "/tickets/" := by
    rw [unquote, if_neg (by decide +kernel)]
  rw [h]
  decide +kernel

/-- C67, counterexample: removing a ticket whose id is empty, or starts with a question mark,
removes all the tickets, and reports success. -/
theorem C67_counterexample_delete_all (cfg : Admin.Cfg) (fmt : Json → Str) (net : Admin.Net)
    (hw : Works net) (id : Str) (hid : id = [] ∨ ∃ r, id = '?' :: r ∧ validUri r = true)
    (w : World) (hs : w.stuck = false) :
    (call cfg fmt net w (.del id)).1 = .ok none ∧
    ∀ x, (call cfg fmt net w (.del id)).2.srv.store x = none := by
  have hv : validUri (ticketUri id) = true := by
    rcases hid with rfl | ⟨r, rfl, hr⟩
    · decide +kernel
    · have : ticketUri ('?' :: r) = lit "/tickets/?" ++ r := rfl
      rw [this, validUri_append, hr]
      decide +kernel
  have hp : (splitQuery (ticketUri id)).1 = lit "/tickets/" := by
    rcases hid with rfl | ⟨r, rfl, _⟩
    · exact (split_empty []).2
    · exact (split_empty r).1
  have hh : handler cfg net (lit "DELETE") (ticketUri id) w.srv (net.conn none) =
      (.ok (), { w.srv with store := fun _ => none }, { net.conn none with status := 204 }) := by
    have hm : lit "DELETE" ∈ allowedMethods := by decide +kernel
    have hn1 : lit "DELETE" ≠ lit "GET" := by decide +kernel
    have hn2 : lit "DELETE" ≠ lit "PUT" := by decide +kernel
    have hn3 : lit "DELETE" ≠ lit "PATCH" := by decide +kernel
    simp only [handler, hp, hm, not_true, if_false, route_empty, hn1, hn2, hn3, if_true,
      deleteTicket]
  obtain ⟨b, hr⟩ := request_works cfg net hw (lit "DELETE") (ticketUri id) none w hs hv hh
    ⟨rfl, rfl, rfl⟩ hw.writes
  simp only [call, delTicket, hr, expect]
  exact ⟨rfl, fun _ => rfl⟩

/-- C67: an id which cannot be sent fails the call, without any effect, and leaves the client
unusable: every later call fails without any effect, until the client is closed. -/
theorem C67_stuck (cfg : Admin.Cfg) (fmt : Json → Str) (w : World) :
    (∀ net id ch, validUri id = false → w.stuck = false → ∀ a, a = .get id ∨ a = .mod id ch ∨
      a = .del id → call cfg fmt net w a = (.error .client, { w with stuck := true })) ∧
    (w.stuck = true → ∀ net a, (call cfg fmt net w a).2 = w ∧
      ((call cfg fmt net w a).1 = .error .client ∨
        (call cfg fmt net w a).1 = .error .noUuid ∧ ∃ t, a = .add t)) ∧
    (close w).stuck = false ∧ (close w).srv = w.srv := by
  refine ⟨?_, ?_, rfl, rfl⟩
  · intro net id ch hv hs a ha
    have hu : validUri (ticketUri id) = false :=
      (validUri_append _ _).trans (by rw [hv, Bool.and_false])
    have hr : ∀ m body, request cfg net m (ticketUri id) body w =
        (.error .client, { w with stuck := true }) := fun m body => by
      unfold request
      rw [hs, hu]
      rfl
    rcases ha with rfl | rfl | rfl
    · simp only [call, showTicket, hr, expect, Except.map]
    · simp only [call, modTicket, hr, expect, Except.map]
    · simp only [call, delTicket, hr, expect, Except.map]
  · intro hs net a
    have hr : ∀ m uri body, request cfg net m uri body w = (.error .client, w) :=
      fun m uri body => by
      unfold request
      rw [hs]
      rfl
    cases a with
    | add t =>
      simp only [call, addTicket]
      cases uuidText fmt t with
      | none => exact ⟨rfl, .inr ⟨rfl, t, rfl⟩⟩
      | some id => simp only [hr, expect, Except.map, true_or, and_self]
    | get id => simp only [call, showTicket, hr, expect, Except.map, true_or, and_self]
    | mod id ch => simp only [call, modTicket, hr, expect, Except.map, true_or, and_self]
    | del id => simp only [call, delTicket, hr, expect, Except.map, true_or, and_self]
    | startProfile => simp only [call, profile, hr, expect, Except.map, true_or, and_self]
    | stopProfile => simp only [call, profile, hr, expect, Except.map, true_or, and_self]

theorem takeWhile_query {p : Str} (h : '?' ∉ p) (r : Str) :
    (p ++ '?' :: r).takeWhile (· != '?') = p := by
  induction p with
  | nil => rfl
  | cons c p ih =>
    have hc : (c != '?') = true := bne_iff_ne.2 fun e => h (by simp [e])
    rw [List.cons_append, List.takeWhile_cons, if_pos hc, ih fun hm => h (by simp [hm])]

theorem query_handler {p : Str} (hp : Plain p) (r : Str) (cfg : Admin.Cfg) (net : Admin.Net)
    (m : Str) (hm : m ∈ allowedMethods) (s : Server) (c : Conn) :
    handler cfg net m (ticketUri (p ++ '?' :: r)) s c = handler cfg net m (ticketUri p) s c := by
  rw [plain_handler hp cfg net m hm s c]
  have hq : '?' ∉ ticketUri p := by
    intro hc
    rcases List.mem_append.1 hc with hc | hc
    · exact absurd hc (by decide +kernel)
    · exact (hp.2 _ hc).2.2.1 rfl
  have hpc : '%' ∉ ticketUri p := by
    intro hc
    rcases List.mem_append.1 hc with hc | hc
    · exact absurd hc (by decide +kernel)
    · exact (hp.2 _ hc).2.2.2 rfl
  have hn : '\n' ∉ p := fun hc => by have := (hp.2 _ hc).1; revert this; decide
  have e : ticketUri (p ++ '?' :: r) = ticketUri p ++ '?' :: r := (List.append_assoc _ _ _).symm
  have h1 : (splitQuery (ticketUri (p ++ '?' :: r))).1 = ticketUri p := by
    rw [e]
    exact takeWhile_query hq r
  have h2 : unquote cfg.decode (ticketUri p) = ticketUri p := by rw [unquote, if_neg hpc]
  simp only [handler, h1, h2, route_ticket hn, hm, not_true, if_false]

theorem query_request {p : Str} (hp : Plain p) {r : Str} (hr : validUri r = true) (cfg : Admin.Cfg)
    (net : Admin.Net) (m : Str) (hm : m ∈ allowedMethods) (body : Option Bytes) (w : World) :
    request cfg net m (ticketUri (p ++ '?' :: r)) body w = request cfg net m (ticketUri p) body w := by
  have hv : validUri (ticketUri (p ++ '?' :: r)) = true := by
    have e : ticketUri (p ++ '?' :: r) = ticketUri p ++ (lit "?" ++ r) :=
      (List.append_assoc _ _ _).symm
    have h1 : validUri (lit "?") = true := by decide +kernel
    rw [e, validUri_append, validUri_append, plain_uri hp, h1, hr]
    rfl
  unfold request
  rw [hv, plain_uri hp, query_handler hp r cfg net m hm]

/-- C67, counterexample: the server ignores the part of an id after a question mark, except when
a ticket is added.  The calls about such a ticket act on another ticket. -/
theorem C67_counterexample_query {p : Str} (hp : Plain p) {r : Str} (hr : validUri r = true)
    (cfg : Admin.Cfg) (fmt : Json → Str) (net : Admin.Net) (w : World) :
    call cfg fmt net w (.get (p ++ '?' :: r)) = call cfg fmt net w (.get p) ∧
    (∀ ch, call cfg fmt net w (.mod (p ++ '?' :: r) ch) = call cfg fmt net w (.mod p ch)) ∧
    call cfg fmt net w (.del (p ++ '?' :: r)) = call cfg fmt net w (.del p) := by
  refine ⟨?_, fun ch => ?_, ?_⟩
  · simp only [call, showTicket, query_request hp hr cfg net (lit "GET") (by decide +kernel)]
  · simp only [call, modTicket, query_request hp hr cfg net (lit "PATCH") (by decide +kernel)]
  · simp only [call, delTicket, query_request hp hr cfg net (lit "DELETE") (by decide +kernel)]

/-- C67, counterexample: a ticket with such a uuid is added, but is not found. -/
theorem C67_counterexample_lost {cfg : Admin.Cfg} (hj : Codec cfg.dumps cfg.loads)
    (fmt : Json → Str) (n1 n2 : Admin.Net) (h1 : Works n1) (h2 : Works n2) (msg : Json)
    (t : Tickets.Fields) (hv : Valid cfg.netlocOk cfg.inactivity msg t) {p r : Str}
    (hp : Plain p) (hr : validUri r = true) (hid : t.uuid = p ++ '?' :: r) (w : World)
    (hs : w.stuck = false) (hn : w.srv.store p = none) :
    (call cfg fmt n1 w (.add msg)).1 = .ok none ∧
    ((call cfg fmt n1 w (.add msg)).2.srv.store t.uuid).isSome = true ∧
    (call cfg fmt n2 (call cfg fmt n1 w (.add msg)).2 (.get t.uuid)).1 = .error (.server 404) := by
  have hpne : p ≠ t.uuid := by
    intro e
    have := congrArg List.length (e.trans hid)
    simp at this
  have hadd : ∃ w', call cfg fmt n1 w (.add msg) = (.ok none, w') ∧ w'.stuck = false ∧
      w'.srv.store p = none ∧ (w'.srv.store t.uuid).isSome = true := by
    have hpa := (C38_parse_iff _ _ _ _).2 hv
    obtain ⟨d, rfl, hu, -⟩ := hv
    have hut : uuidText fmt (.obj d) = some t.uuid := by
      simp only [uuidText, (find_iff d "uuid" _).2 hu]
    have hm : lit "PUT" ∈ allowedMethods := by decide +kernel
    have hne : lit "PUT" ≠ lit "GET" := by decide +kernel
    have hh := plain_handler hp cfg n1 (lit "PUT") hm w.srv (n1.conn (some (cfg.dumps (.obj d))))
    rw [if_neg hne, if_pos rfl, putTicket, if_neg hp.1] at hh
    have hrq := query_request hp hr cfg n1 (lit "PUT") hm (some (cfg.dumps (.obj d))) w
    obtain ⟨c', hq, hl, hw, hst, hrd | ⟨_, hnr⟩⟩ := conn_read n1 (cfg.dumps (.obj d))
    · rw [hrd] at hh
      simp only [arrived_works h1, hj.roundtrip, hpa] at hh
      obtain ⟨b, hb⟩ := request_works cfg n1 h1 (lit "PUT") (ticketUri p) _ w hs (plain_uri hp) hh hq
        (hw.trans h1.writes)
      refine ⟨{ w with srv := w.srv.set t.uuid (some (.new t n1.now)) }, ?_, hs, ?_, ?_⟩
      · simp only [call, addTicket, hut]
        rw [← hid] at hrq
        rw [hrq, hb, hst]
        rfl
      · simp only [Server.set, if_neg hpne, hn]
      · simp [Server.set]
    · exact absurd h1.recvs hnr
  obtain ⟨w', e, hs', hn', hst⟩ := hadd
  rw [e]
  refine ⟨rfl, hst, ?_⟩
  simp only
  rw [hid, (C67_counterexample_query hp hr cfg fmt n2 w').1]
  obtain ⟨_, res, hd, hse⟩ := C67_works hj fmt n2 h2 (.get p) hp w' hs'
  generalize call cfg fmt n2 w' (.get p) = y at hd hse
  obtain ⟨rr, w2⟩ := y
  change Does _ _ _ _ w2.srv at hd
  generalize w2.srv = s2 at hd
  cases hd with
  | shown ht _ => rw [hn'] at ht; cases ht
  | missing _ =>
    rcases rr with e | _ | j
    · cases e <;> simp_all [Seen]
    · simp [Seen] at hse
    · cases j <;> simp [Seen] at hse

/-- C67, counterexample: when the server does not wait for the ongoing operations, a removed ticket
that is active is reported as removed, but stays. -/
theorem C67_counterexample_no_wait {cfg : Admin.Cfg} (hj : Codec cfg.dumps cfg.loads)
    (hw0 : cfg.removeTimeout = 0) (fmt : Json → Str) (net : Admin.Net) (hw : Works net) (id : Str)
    (hid : Plain id) (w : World) (hs : w.stuck = false) (t : Admin.Ticket)
    (ht : w.srv.store id = some t) (ha : t.active = true) :
    (call cfg fmt net w (.del id)).1 = .ok none ∧
    (call cfg fmt net w (.del id)).2.srv.store id = some { t with canceled := true } := by
  obtain ⟨_, res, hd, hse⟩ := C67_works hj fmt net hw (.del id) hid w hs
  generalize call cfg fmt net w (.del id) = y at hd hse ⊢
  obtain ⟨r, w2⟩ := y
  change Does _ _ _ _ w2.srv at hd
  simp only
  generalize w2.srv = s2 at hd ⊢
  have hr : ∀ {res}, res = Result.done → Seen r res → r = .ok none := by
    rintro _ rfl h
    rcases r with e | _ | j
    · cases e <;> simp [Seen] at h
    · rfl
    · cases j <;> simp [Seen] at h
  cases hd with
  | gone h => rw [ht] at h; cases h
  | removed h hr' _ =>
    rw [ht] at h
    cases h
    rcases hr' with h | ⟨h, _⟩
    · rw [ha] at h; cases h
    · simp [envOf, hw0] at h
  | busy _ _ h => simp [envOf, hw0] at h
  | canceled h _ _ hm =>
    rw [ht] at h
    cases h
    exact ⟨hr rfl hse, hm.1⟩

/-! ## The tool -/

theorem command_call {cmd : Cmd} {a : Call} (h : Command cmd a) : cmd.call = a := by
  cases h <;> rfl

/-- C67: a command of the tool on a working network: the exit code tells if the command was done,
what is printed is the ticket, and a refused command is reported. -/
theorem C67_tool {cfg : Admin.Cfg} (hj : Codec cfg.dumps cfg.loads) (fmt : Json → Str)
    (net : Admin.Net) (hw : Works net) (cmd : Cmd) (a : Call) (ha : Command cmd a)
    (hc : PlainCall a) (s : Server) :
    ∃ res, Does (envOf cfg net) s a res (Admin.main cfg fmt net cmd s).2 ∧
      ((Admin.main cfg fmt net cmd s).1.code = 0 ↔ ∀ c, res ≠ .refused c) ∧
      (match (Admin.main cfg fmt net cmd s).1, res with
        | .ok none, .done => True
        | .ok (some j), .info d => j = .obj d
        | .error, .refused _ => True
        | _, _ => False) := by
  cases command_call ha
  obtain ⟨_, res, hd, hse⟩ := C67_works hj fmt net hw cmd.call hc ⟨s, false⟩ rfl
  refine ⟨res, ?_⟩
  unfold Admin.main
  generalize Admin.call cfg fmt net ⟨s, false⟩ cmd.call = x at hd hse
  obtain ⟨r, w⟩ := x
  rcases r with e | _ | j
  · cases e <;> cases res <;> simp_all [Seen, Exit.code]
  · cases res <;> simp_all [Seen, Exit.code]
  · cases j <;> cases res <;> simp_all [Seen, Exit.code]

/-- C67: whatever the network does, a command that ends with exit code 0 was done. -/
theorem C67_tool_success {cfg : Admin.Cfg} (hj : Codec cfg.dumps cfg.loads) (fmt : Json → Str)
    (net : Admin.Net) (cmd : Cmd) (a : Call) (ha : Command cmd a) (hc : PlainCall a) (s : Server)
    (h0 : (Admin.main cfg fmt net cmd s).1.code = 0) :
    ∃ res, Does (envOf cfg net) s a res (Admin.main cfg fmt net cmd s).2 ∧
      ∀ c, res ≠ .refused c := by
  cases command_call ha
  obtain ⟨_, res, s', hd, h⟩ := C67_call hj fmt net cmd.call hc ⟨s, false⟩ rfl
  refine ⟨res, ?_⟩
  revert h0
  unfold Admin.main
  generalize Admin.call cfg fmt net ⟨s, false⟩ cmd.call = x at hd h
  obtain ⟨r, w⟩ := x
  rcases r with e | _ | j
  · cases e <;> simp [Exit.code]
  · rcases h with ⟨rfl, h⟩ | ⟨h, _⟩ | ⟨h, _⟩
    · intro _
      refine ⟨hd, ?_⟩
      rintro c rfl
      simp [Seen] at h
    · cases h
    · cases h
  · rcases h with ⟨rfl, h⟩ | ⟨h, _⟩ | ⟨h, _⟩
    · intro _
      refine ⟨hd, ?_⟩
      rintro c rfl
      cases j <;> simp [Seen] at h
    · cases h
    · cases h

theorem no_timeout (n : Int) : ¬ NewTimeout (changes none) n := by
  rintro ⟨d, v, hd, hv, hi⟩
  cases hd
  have := (find_iff _ _ _).2 hv
  have e : Tickets.find [(lit "timeout", Json.null)] "timeout" = some .null := by rfl
  rw [e] at this
  cases this
  rcases hi with ⟨hi, _⟩
  cases hi

/-- C67: `mod-ticket` without a timeout is refused, and changes nothing. -/
theorem C67_tool_no_timeout {cfg : Admin.Cfg} (hj : Codec cfg.dumps cfg.loads) (fmt : Json → Str)
    (net : Admin.Net) (id : Str) (hid : Plain id) (s : Server) :
    Admin.main cfg fmt net (.modTicket id none) s = (.error, s) := by
  obtain ⟨_, res, s', hd, h⟩ := C67_call hj fmt net (Cmd.modTicket id none).call hid ⟨s, false⟩ rfl
  have hd : res = .refused 400 ∧ s' = s := by
    cases hd with
    | changed _ hn => exact absurd hn (no_timeout _)
    | changeMissing _ hn => exact absurd hn (no_timeout _)
    | badChange _ => exact ⟨rfl, rfl⟩
    | notObject hn => exact absurd rfl (hn _)
  obtain ⟨rfl, rfl⟩ := hd
  unfold Admin.main
  generalize Admin.call cfg fmt net ⟨s', false⟩ (Cmd.modTicket id none).call = x at h
  obtain ⟨r, w⟩ := x
  rcases h with ⟨h1, h2⟩ | ⟨h1, h2 | h2, _⟩ | ⟨h1, h2, _⟩
  · simp only at h1 h2
    subst h1
    rcases r with e | _ | j
    · cases e <;> simp_all [Seen]
    · simp [Seen] at h2
    · cases j <;> simp [Seen] at h2
  all_goals
    simp only at h1 h2
    subst h1 h2
    rfl

/-- A ticket without uuid is not sent; the tool ends with a traceback. -/
theorem C67_no_uuid (cfg : Admin.Cfg) (fmt : Json → Str) (net : Admin.Net) (t : Json) (s : Server)
    (h : ∀ d v, t = .obj d → ¬ Field d "uuid" v) :
    Admin.main cfg fmt net (.addTicket t) s = (.traceback, s) := by
  have hu : uuidText fmt t = none := by
    cases t with
    | obj d =>
      have : Tickets.find d "uuid" = none := by
        cases hf : Tickets.find d "uuid" with
        | none => rfl
        | some v => exact absurd ((find_iff d "uuid" v).1 hf) (h d v rfl)
      simp only [uuidText, this]
    | _ => rfl
  simp only [Admin.main, Cmd.call, call, addTicket, hu]
  rfl

/-! ## The connection -/

/-- Where a client connects, for the socket of a server. -/
def Reaches : Peer → Spec.Sys.Sock → Prop
  | .tcp host port, x => ∃ f p, x.addr = .tcp f host p ∧ ((p : Nat) : Int) = port
  | .unix path, x => x.addr = .unix path

/-- C67: with the same configuration, the client connects where the daemon serves the control API:
when the daemon is serving, its control socket is listening at the address of the client. -/
theorem C67_connects (env : Daemon.Env) (ticket : Bool) (c : Daemon.Cfg) (pre post : List Daemon.Act)
    (hp : c.controlPort ≠ 0)
    (h : (Daemon.startup env ticket ⟨c, []⟩).2.trace = pre ++ .serve .control :: post) :
    ∃ p x, peer c = some p ∧ Spec.Sys.sock .control pre = some x ∧ Reaches p x ∧
      x.listening = true ∧ x.routed = true := by
  by_cases ht : Spec.Sys.IsTcp c.controlTransport
  · obtain ⟨x, f, p, h1, h2, h3, h4, h5, _⟩ := C60_control_tcp env ticket c pre post ht h
    exact ⟨_, x, if_pos ht, h1, ⟨f, p, h2, h3 hp⟩, h4, h5⟩
  · obtain ⟨l, k, hb, _, _, hk⟩ := Daemon.begin_split (Daemon.serve_not_setup _) h
    have hc : c.controlEnable = true := by
      rcases hk (.serve .control) (by simp) with ⟨sv, e, h⟩ | h
      · cases e; exact h
      · cases h
    obtain ⟨f, r, lo, co, dr, ti, _, _, _, _, hco, _⟩ := hb.acts
    rcases hco hc with ⟨ht', _⟩ | ⟨hu, _⟩
    · exact absurd ht' ht
    · obtain ⟨⟨x, h1, h2, h3, h4⟩, _⟩ := C60_control_unix env ticket c .control pre post hc hu h
      exact ⟨_, x, (if_neg ht).trans (if_pos hu), h1, h2, h3, h4⟩

/-! ## The hypotheses are met -/

namespace AdminSample

mutual
/-- An encoding of documents such that no document is a part of another one. -/
def enc : Json → List Nat
  | .null => [0]
  | .bool b => [1, b.toNat]
  | .int n => [2, n.natAbs, if n < 0 then 1 else 0]
  | .float => [3]
  | .str s => 4 :: s.length :: s.map Char.toNat
  | .arr l => 5 :: encs l
  | .obj l => 6 :: encf l
def encs : List Json → List Nat
  | [] => [0]
  | j :: l => 1 :: (enc j ++ encs l)
def encf : List (Str × Json) → List Nat
  | [] => [0]
  | (k, j) :: l => 1 :: k.length :: (k.map Char.toNat ++ (enc j ++ encf l))
end

theorem chars_inj {a b : Str} {x y : List Nat} (hl : a.length = b.length)
    (h : a.map Char.toNat ++ x = b.map Char.toNat ++ y) : a = b ∧ x = y := by
  induction a generalizing b with
  | nil => cases b <;> simp_all
  | cons c a ih =>
    cases b with
    | nil => simp at hl
    | cons d b =>
      simp only [List.map_cons, List.cons_append, List.cons.injEq] at h
      obtain ⟨rfl, hx⟩ := ih (by simpa using hl) h.2
      have : c = d := Char.toNat_inj.1 h.1
      exact ⟨by rw [this], hx⟩

mutual
theorem enc_inj : ∀ (a b : Json) (x y : List Nat), enc a ++ x = enc b ++ y → a = b ∧ x = y
  | .null, b, x, y, h => by cases b <;> simp_all [enc]
  | .bool v, b, x, y, h => by
    cases b with
    | bool w => cases v <;> cases w <;> simp_all [enc]
    | _ => simp [enc] at h
  | .int n, b, x, y, h => by
    cases b with
    | int m =>
      simp only [enc, List.cons_append, List.nil_append, List.cons.injEq, true_and] at h
      obtain ⟨h1, h2, h3⟩ := h
      refine ⟨?_, h3⟩
      by_cases a : n < 0 <;> by_cases b : m < 0 <;> simp only [a, b, if_true, if_false] at h2
      · congr 1; omega
      · omega
      · omega
      · congr 1; omega
    | _ => simp [enc] at h
  | .float, b, x, y, h => by cases b <;> simp_all [enc]
  | .str s, b, x, y, h => by
    cases b with
    | str t =>
      simp only [enc, List.cons_append, List.cons.injEq, true_and] at h
      obtain ⟨rfl, hx⟩ := chars_inj h.1 h.2
      exact ⟨rfl, hx⟩
    | _ => simp [enc] at h
  | .arr l, b, x, y, h => by
    cases b with
    | arr k =>
      simp only [enc, List.cons_append, List.cons.injEq, true_and] at h
      obtain ⟨rfl, hx⟩ := encs_inj l k x y h
      exact ⟨rfl, hx⟩
    | _ => simp [enc] at h
  | .obj l, b, x, y, h => by
    cases b with
    | obj k =>
      simp only [enc, List.cons_append, List.cons.injEq, true_and] at h
      obtain ⟨rfl, hx⟩ := encf_inj l k x y h
      exact ⟨rfl, hx⟩
    | _ => simp [enc] at h
theorem encs_inj : ∀ (a b : List Json) (x y : List Nat), encs a ++ x = encs b ++ y → a = b ∧ x = y
  | [], b, x, y, h => by cases b <;> simp_all [encs]
  | j :: l, b, x, y, h => by
    cases b with
    | nil => simp [encs] at h
    | cons j' l' =>
      simp only [encs, List.cons_append, List.cons.injEq, true_and, List.append_assoc] at h
      obtain ⟨rfl, hx⟩ := enc_inj j j' _ _ h
      obtain ⟨rfl, hy⟩ := encs_inj l l' _ _ hx
      exact ⟨rfl, hy⟩
theorem encf_inj : ∀ (a b : List (Str × Json)) (x y : List Nat),
    encf a ++ x = encf b ++ y → a = b ∧ x = y
  | [], b, x, y, h => by
    cases b with
    | nil => simp_all [encf]
    | cons p l => obtain ⟨k, j⟩ := p; simp [encf] at h
  | (k, j) :: l, b, x, y, h => by
    cases b with
    | nil => simp [encf] at h
    | cons p l' =>
      obtain ⟨k', j'⟩ := p
      simp only [encf, List.cons_append, List.cons.injEq, true_and, List.append_assoc] at h
      obtain ⟨rfl, hx⟩ := chars_inj h.1 h.2
      obtain ⟨rfl, hy⟩ := enc_inj j j' _ _ hx
      obtain ⟨rfl, hz⟩ := encf_inj l l' _ _ hy
      exact ⟨rfl, hz⟩
end

/-- A document as bytes: its number in unary. -/
def dumps (j : Json) : Bytes := List.replicate (Encodable.encode (enc j)) 0 ++ [1]

theorem dumps_inj {a b : Json} (h : dumps a = dumps b) : a = b := by
  have h1 := congrArg List.length h
  simp only [dumps, List.length_append, List.length_replicate, List.length_cons, List.length_nil,
    Nat.add_right_cancel_iff] at h1
  have h2 := Encodable.encode_injective h1
  exact (enc_inj a b [] [] (by rw [h2])).1

open Classical in
/-- The document of the bytes. -/
noncomputable def loads (b : Bytes) : Option Json :=
  if h : ∃ j, dumps j = b ∨ dumps j ++ [10] = b then some h.choose else none

theorem last_dumps (j : Json) : (dumps j).getLast? = some 1 := by simp [dumps]

theorem codec : Codec dumps loads where
  roundtrip j := by
    have h : ∃ j', dumps j' = dumps j ∨ dumps j' ++ [10] = dumps j := ⟨j, .inl rfl⟩
    unfold loads
    rw [dif_pos h]
    rcases h.choose_spec with e | e
    · rw [dumps_inj e]
    · have := congrArg List.getLast? e
      rw [last_dumps, List.getLast?_append] at this
      simp at this
  line j := by
    have h : ∃ j', dumps j' = dumps j ++ [10] ∨ dumps j' ++ [10] = dumps j ++ [10] := ⟨j, .inr rfl⟩
    unfold loads
    rw [dif_pos h]
    rcases h.choose_spec with e | e
    · have := congrArg List.getLast? e
      rw [last_dumps, List.getLast?_append] at this
      simp at this
    · rw [dumps_inj (List.append_cancel_right e)]
  cut j k d hk := by
    have hz : ∀ c ∈ (dumps j).take k, c = 0 := by
      intro c hc
      unfold dumps at hc hk
      rw [List.take_append_of_le_length (by simp at hk ⊢; omega)] at hc
      exact (List.mem_replicate.1 (List.mem_of_mem_take hc)).2
    have h : ¬ ∃ j', dumps j' = (dumps j).take k ∨ dumps j' ++ [10] = (dumps j).take k := by
      rintro ⟨j', e | e⟩
      · have := hz 1 (by rw [← e]; simp [dumps])
        cases this
      · have := hz 10 (by rw [← e]; simp)
        cases this
    unfold loads
    rw [dif_neg h]
    nofun

noncomputable def cfg : Admin.Cfg :=
  { netlocOk := fun _ => true, urlunparse := fun _ => lit "file:///disk", inactivity := 60, dumps,
    loads, decode := fun b => b.map fun c => Char.ofNat c.toNat, removeTimeout := 60, yappi := true }

/-- The document of a ticket. -/
def ticket (id : String) : Json :=
  .obj [(lit "uuid", .str (lit id)), (lit "size", .int 1024), (lit "timeout", .int 300),
    (lit "url", .str (lit "file:///disk")), (lit "ops", .arr [.str (lit "read")])]

theorem works (now : Int) (r : Bool) : Works (Net.perfect now r) := ⟨rfl, rfl, rfl, rfl, rfl, rfl⟩

theorem parsed : ∃ t, Tickets.parse (fun _ => true) 60 (ticket "3c7a") = .ok t ∧
    t.uuid = lit "3c7a" := by
  refine ⟨_, rfl, rfl⟩

theorem plain : Plain (lit "3c7a") := by
  refine ⟨by decide +kernel, ?_⟩
  decide +kernel

/-- A ticket is added, and then it is shown. -/
example (w : World) (hs : w.stuck = false) : ∃ w1 w2 d,
    call cfg (fun _ => []) (Net.perfect 100 false) w (.add (ticket "3c7a")) = (.ok none, w1) ∧
    call cfg (fun _ => []) (Net.perfect 110 false) w1 (.get (lit "3c7a")) =
      (.ok (some (.obj d)), w2) ∧
    Field d "expires" (.int 400) ∧ Field d "idle_time" (.int 10) := by
  obtain ⟨t, ht, hu⟩ := parsed
  have hv := (C38_parse_iff _ _ _ _).1 ht
  obtain ⟨w1, w2, d, h1, h2, h3⟩ := C67_add_show (cfg := cfg) codec (fun _ => [])
    (Net.perfect 100 false) (Net.perfect 110 false) (works _ _) (works _ _) _ t hv (hu ▸ plain) w hs
  have htm : t.timeout = 300 := by
    have : (Tickets.parse (fun _ => true) 60 (ticket "3c7a")).map (·.timeout) = .ok 300 := rfl
    rw [ht] at this
    exact Except.ok.inj this
  refine ⟨w1, w2, d, h1, hu ▸ h2, ?_, ?_⟩
  · have := h3.2.2.2.2.2.2.2.2.2.2.2.1
    simp only [htm] at this
    exact this
  · exact h3.2.2.2.2.2.2.2.2.2.2.2.2.1

/-- Some calls of a session. -/
example : ∀ x ∈ [(Net.perfect 1 false, Call.add (ticket "3c7a")),
    (Net.perfect 2 false, .mod (lit "3c7a") (changes (some 50))),
    (Net.perfect 3 true, .del (lit "3c7a")), (Net.perfect 4 true, .startProfile)],
    Works x.1 ∧ PlainCall x.2 := by
  simp only [List.mem_cons, List.not_mem_nil, or_false, forall_eq_or_imp, forall_eq]
  have hf : Field [(lit "uuid", Json.str (lit "3c7a")), (lit "size", .int 1024),
      (lit "timeout", .int 300), (lit "url", .str (lit "file:///disk")),
      (lit "ops", .arr [.str (lit "read")])] "uuid" (.str (lit "3c7a")) :=
    (find_iff _ _ _).1 rfl
  exact ⟨⟨works _ _, _, hf, plain⟩, ⟨works _ _, plain⟩, ⟨works _ _, plain⟩, works _ _, trivial⟩

/-- A ticket that is not found under its own uuid. -/
example : ∃ t, Valid (fun _ => true) 60 (ticket "3c7a?b") t ∧ t.uuid = lit "3c7a" ++ '?' :: lit "b" ∧
    Plain (lit "3c7a") ∧ validUri (lit "b") = true := by
  refine ⟨_, (C38_parse_iff _ _ _ _).1 (rfl : Tickets.parse _ _ _ = .ok _), rfl, plain, ?_⟩
  decide +kernel

example : (Daemon.startup DaemonSample.env true ⟨DaemonSample.cfg, []⟩).2.trace.any
    (fun a => decide (a = .serve .control)) = true ∧ DaemonSample.cfg.controlPort ≠ 0 := by
  decide +kernel

end AdminSample

/-- C67, counterexample: an encoded newline in an id ends the id, a call with it acts on the ticket
with the shorter id. -/
theorem C67_counterexample_newline :
    route (unquote AdminSample.cfg.decode (splitQuery (ticketUri (lit "3c7a%0Ab"))).1) =
      some (.tickets, [lit "3c7a"]) := by
  have : ∀ d : Bytes → Str, d = (fun b => b.map fun c => Char.ofNat c.toNat) →
      route (unquote d (splitQuery (ticketUri (lit "3c7a%0Ab"))).1) = some (.tickets, [lit "3c7a"]) := by
    rintro _ rfl
    decide +kernel
  exact this AdminSample.cfg.decode rfl

end Imageio.Props
