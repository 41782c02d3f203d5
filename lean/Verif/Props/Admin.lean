import Verif.Spec.Admin
import Verif.Props.Tickets
import Verif.Props.Daemon
import Verif.Props.Patch
import Verif.Lemmas.HttpBackend

/-!
C67: the calls of the admin client do to the tickets of the daemon what they say.
-/
namespace Imageio.Props
open Imageio.Admin Imageio.Spec.Admin Imageio.Spec.Tickets
open Imageio.Http Imageio.Images

/-! ## The response -/

/-- A connection on which nothing was written. -/
def Quiet (c : Conn) : Prop := c.started = false ∧ c.sent = [] ∧ c.body = []

theorem serve_ok {s : Server} {c : Conn} (lost : Bool) (h : Quiet c) :
    (serve lost (.ok (), s, c)).1 = s ∧
    ((serve lost (.ok (), s, c)).2.sent = [] ∨
      ((serve lost (.ok (), s, c)).2.sent = [c.status] ∧ (serve lost (.ok (), s, c)).2.body = [])) ∧
    (c.writes = [] → (serve lost (.ok (), s, c)).2.sent = [c.status]) := by
  obtain ⟨h1, h2, h3⟩ := h
  refine ⟨rfl, ?_⟩
  simp only [serve, finish, routerEnd, h1]
  cases hw : c.writes with
  | nil => simp [Conn.write, hw, h1, h2, h3]
  | cons b bs =>
    cases b with
    | true => simp [Conn.write, hw, h1, h2, h3]
    | false =>
      simp only [Conn.write, hw, handleError, Conn.close]
      cases lost <;> simp [h2]

theorem serve_err {s : Server} {c : Conn} (lost : Bool) (e : HErr) (h : Quiet c)
    (hl : ∃ n r, c.req.getLength = (.ok n, r)) :
    (serve lost (.error e, s, c)).1 = s ∧
    ((serve lost (.error e, s, c)).2.sent = [] ∨
      (serve lost (.error e, s, c)).2.sent = [errorCode e]) ∧
    (c.writes = [] → lost = false → (serve lost (.error e, s, c)).2.sent = [errorCode e]) := by
  obtain ⟨h1, h2, h3⟩ := h
  obtain ⟨n, r, hl⟩ := hl
  refine ⟨rfl, ?_⟩
  simp only [serve, finish, routerEnd, handleError, h1, hl]
  by_cases hs : e = .socket ∧ lost = true
  · simp [hs, Conn.close, h2]
  · simp only [hs, if_false, Bool.false_eq_true]
    cases n with
    | none =>
      cases hw : c.writes with
      | nil => simp [Conn.sendError, Conn.write, h2, hw]
      | cons b bs => cases b <;> simp [Conn.sendError, Conn.write, h2, hw, Conn.close]
    | some n =>
      by_cases hn : n > 0
      · cases hw : c.writes with
        | nil => simp [Conn.sendError, Conn.write, h2, hw, hn, Conn.close]
        | cons b bs => cases b <;> simp [Conn.sendError, Conn.write, h2, hw, hn, Conn.close]
      · cases hw : c.writes with
        | nil => simp [Conn.sendError, Conn.write, h2, hw, hn]
        | cons b bs => cases b <;> simp [Conn.sendError, Conn.write, h2, hw, hn, Conn.close]

theorem serve_json {s : Server} {c : Conn} (cfg : Admin.Cfg) (j : Json) (lost : Bool)
    (h : Quiet c) :
    (serve lost ((sendJson cfg j c).1, s, (sendJson cfg j c).2)).1 = s ∧
    ((serve lost ((sendJson cfg j c).1, s, (sendJson cfg j c).2)).2.sent = [] ∨
      ((serve lost ((sendJson cfg j c).1, s, (sendJson cfg j c).2)).2.sent = [200] ∧
        (serve lost ((sendJson cfg j c).1, s, (sendJson cfg j c).2)).2.body = cfg.dumps j ++ [10])) ∧
    (c.writes = [] →
      (serve lost ((sendJson cfg j c).1, s, (sendJson cfg j c).2)).2.sent = [200]) := by
  obtain ⟨h1, h2, h3⟩ := h
  refine ⟨rfl, ?_⟩
  simp only [serve, finish, sendJson, h1]
  cases hw : c.writes with
  | nil => simp [Conn.write, hw, h1, h2, h3, routerEnd]
  | cons b bs =>
    cases b with
    | true => simp [Conn.write, hw, h1, h2, h3, routerEnd]
    | false =>
      simp only [Conn.write, hw, routerEnd, handleError, Conn.close]
      cases lost <;> simp [h2]

/-! ## The request -/

theorem getLength_number {v : Str} {n : Nat} (h : Spec.Number v n) :
    Req.getLength { header := some v } =
      (.ok (some n), { header := some v, contentLength := some (some n), length := some (some n) }) := by
  have : ¬ ((n : Int) < 0) := by omega
  simp [Req.getLength, Req.getContentLength, pyInt_number h, this]

theorem conn_lenOk (n : Admin.Net) (body : Option Bytes) : LenOk (n.conn body) := by
  cases body with
  | none => exact ⟨_, _, rfl⟩
  | some b => exact ⟨_, _, getLength_number (number_fmtNat _)⟩

theorem conn_quiet (n : Admin.Net) (body : Option Bytes) : Quiet (n.conn body) := ⟨rfl, rfl, rfl⟩

theorem conn_read (n : Admin.Net) (body : Bytes) : ∃ c', Quiet c' ∧ LenOk c' ∧
    c'.writes = n.writes ∧ c'.status = 200 ∧
    ((n.conn (some body)).read none = (.ok (n.arrived body), c') ∨
      ((n.conn (some body)).read none = (.error .socket, c') ∧ n.recvs ≠ [])) := by
  have hl : (n.conn (some body)).req.getLength = _ := getLength_number (number_fmtNat body.length)
  have harr : (n.arrived body).take body.length = n.arrived body := by
    apply List.take_of_length_le
    unfold Net.arrived
    split <;> simp [Nat.min_le_right]
  have hr : (n.conn (some body)).recvs = n.recvs := rfl
  have hrest : (n.conn (some body)).rest = n.arrived body := rfl
  unfold Conn.read
  rw [hl]
  simp only
  by_cases h0 : body.length = 0
  · have : body = [] := List.eq_nil_of_length_eq_zero h0
    subst this
    have : n.arrived [] = [] := by unfold Net.arrived; split <;> simp
    rw [if_pos (by simp), this]
    exact ⟨_, ⟨rfl, rfl, rfl⟩, ⟨_, _, rfl⟩, rfl, rfl, .inl rfl⟩
  · rw [if_neg h0]
    simp only [readSize, Conn.recv, hr, hrest]
    cases hc : n.recvs with
    | nil =>
      simp only [List.headD_nil, rfileRead]
      exact ⟨_, ⟨rfl, rfl, rfl⟩, ⟨_, _, rfl⟩, rfl, rfl, .inl (by rw [harr])⟩
    | cons x xs =>
      cases x with
      | got k =>
        simp only [List.headD_cons, rfileRead]
        exact ⟨_, ⟨rfl, rfl, rfl⟩, ⟨_, _, rfl⟩, rfl, rfl, .inl (by rw [harr])⟩
      | fails k =>
        simp only [List.headD_cons, rfileRead]
        exact ⟨_, ⟨rfl, rfl, rfl⟩, ⟨_, _, rfl⟩, rfl, rfl, .inr ⟨rfl, by simp⟩⟩

/-- A network that does not fail. -/
structure Works (n : Admin.Net) : Prop where
  notSent : n.notSent = false
  cut : n.cut = none
  recvs : n.recvs = []
  writes : n.writes = []
  lost : n.lost = false
  responseLost : n.responseLost = false

theorem arrived_works {n : Admin.Net} (h : Works n) (b : Bytes) : n.arrived b = b := by
  simp [Net.arrived, h.cut]

/-- The end of a request: nothing was done, or the handler ran and its response arrived or not. -/
theorem request_cases (cfg : Admin.Cfg) (net : Admin.Net) (m uri : Str) (body : Option Bytes)
    (w : World) (hs : w.stuck = false) (hu : validUri uri = true)
    (x : Except HErr Unit × Server × Conn)
    (h : handler cfg net m uri w.srv (net.conn body) = x) :
    request cfg net m uri body w = (.error .client, w) ∧ ¬ Works net ∨
    request cfg net m uri body w = (.error .client, { w with srv := (serve net.lost x).1 }) ∧
      (Works net → (serve net.lost x).2.sent = []) ∨
    ∃ st l, (serve net.lost x).2.sent = st :: l ∧ net.arrived (body.getD []) = body.getD [] ∧
      request cfg net m uri body w = (.ok (st, (serve net.lost x).2.body), { w with srv := (serve net.lost x).1 }) := by
  unfold request
  simp only [hs, hu, h, Bool.false_eq_true, if_false, Bool.not_true]
  by_cases hn : net.notSent = true
  · left
    simp only [hn, if_true, true_and]
    exact fun hw => by simp [hw.notSent] at hn
  · simp only [hn, if_false, Bool.false_eq_true]
    right
    have hle : (net.arrived (body.getD [])).length ≤ (body.getD []).length := by
      unfold Net.arrived
      split <;> simp [Nat.min_le_right]
    by_cases hl : net.responseLost = true
    · left
      simp only [hl, Bool.true_or, if_true, true_and]
      exact fun hw => by simp [hw.responseLost] at hl
    · by_cases ha : (net.arrived (body.getD [])).length < (body.getD []).length
      · left
        simp only [hl, ha, decide_true, Bool.or_true, if_true, true_and]
        exact fun hw => by rw [arrived_works hw] at ha; omega
      · simp only [hl, ha, decide_false, Bool.or_false, Bool.false_eq_true, if_false]
        cases hc : (serve net.lost x).2.sent with
        | nil => left; simp
        | cons st l =>
          right
          refine ⟨st, l, rfl, ?_, rfl⟩
          unfold Net.arrived at ha ⊢
          cases hk : net.cut with
          | none => rfl
          | some k =>
            simp only [hk, List.length_take] at ha ⊢
            exact List.take_of_length_le (by omega)

/-! ## One call -/

/-- The circumstances of a call. -/
def envOf (cfg : Admin.Cfg) (net : Admin.Net) : Spec.Admin.Env :=
  { netlocOk := cfg.netlocOk, urlText := cfg.urlunparse, inactivity := cfg.inactivity,
    now := net.now, waits := decide (cfg.removeTimeout ≠ 0), released := net.released,
    profiler := cfg.yappi }

/-- What the caller sees. -/
def Seen : Except AErr (Option Json) → Result → Prop
  | .ok none, .done => True
  | .ok (some (.obj d)), .info d' => d = d'
  | .error (.server c), .refused c' => c = c'
  | _, _ => False

/-- A call had its effect and reported it; or it failed, then it had its effect or no effect. -/
def Fine (env : Spec.Admin.Env) (s : Server) (a : Call) (works : Prop)
    (x : Except AErr (Option Json) × World) : Prop :=
  x.2.stuck = false ∧ ∃ res s', Does env s a res s' ∧
    ((x.2.srv = s' ∧ Seen x.1 res) ∨
      (x.1 = .error .client ∧ (x.2.srv = s ∨ x.2.srv = s') ∧ ¬ works) ∨
      (x.1 = .error (.server 500) ∧ x.2.srv = s ∧ ¬ works))

/-- A call that returns nothing. -/
def unitCall (x : Except AErr Bytes × World) : Except AErr (Option Json) × World :=
  (x.1.map fun _ => none, x.2)

/-- What the handler may do. -/
inductive Handled (env : Spec.Admin.Env) (s : Server) (a : Call) (code : Nat) (net : Admin.Net)
    (body : Bytes) : Except HErr Unit × Server × Conn → Prop
  | ok {s' c} (hd : Does env s a .done s') (hq : Quiet c) (hw : c.writes = net.writes)
      (hc : c.status = code) : Handled env s a code net body (.ok (), s', c)
  | refused {e s' c} (hd : Does env s a (.refused (errorCode e)) s') (hq : Quiet c)
      (hl : LenOk c) (hw : c.writes = net.writes) (hc : errorCode e ≠ code) :
      Handled env s a code net body (.error e, s', c)
  | failed {c} (hd : ∃ res s', Does env s a res s') (hq : Quiet c) (hl : LenOk c)
      (hr : net.recvs ≠ []) (hc : code ≠ 500) : Handled env s a code net body (.error .socket, s, c)
  | cut {e c} (hd : ∃ res s', Does env s a res s') (hq : Quiet c) (hl : LenOk c)
      (hr : net.arrived body ≠ body) : Handled env s a code net body (.error e, s, c)

theorem handled_fine {env : Spec.Admin.Env} {a : Call} {code : Nat} {cfg : Admin.Cfg}
    {net : Admin.Net} {m uri : Str} {body : Option Bytes} {w : World} (hs : w.stuck = false)
    (hu : validUri uri = true)
    (h : Handled env w.srv a code net (body.getD [])
      (handler cfg net m uri w.srv (net.conn body))) :
    Fine env w.srv a (Works net) (unitCall (expect code (request cfg net m uri body w))) := by
  have hr := request_cases cfg net m uri body w hs hu _ rfl
  generalize handler cfg net m uri w.srv (net.conn body) = x at h hr
  cases h with
  | @ok s' c hd hq hw hc =>
    obtain ⟨h1, h2, h3⟩ := serve_ok (s := s') net.lost hq
    rcases hr with ⟨hr, hnw⟩ | ⟨hr, hnw⟩ | ⟨st, l, hst, _, hr⟩
    · rw [hr]
      exact ⟨hs, _, _, hd, .inr (.inl ⟨rfl, .inl rfl, hnw⟩)⟩
    · rw [hr]
      refine ⟨hs, _, _, hd, .inr (.inl ⟨rfl, .inr h1, ?_⟩)⟩
      intro hwk
      have := h3 (by rw [hw, hwk.writes])
      rw [hnw hwk] at this
      cases this
    · rcases h2 with h2 | ⟨h2, h2b⟩
      · rw [h2] at hst; cases hst
      · rw [h2] at hst
        cases hst
        rw [hr]
        refine ⟨by simp [unitCall, expect, hc, hs], _, _, hd, .inl ⟨?_, ?_⟩⟩
        · simp [unitCall, expect, hc, h1]
        · simp [unitCall, expect, hc, Except.map, Seen]
  | @refused e s' c hd hq hl hw hc =>
    obtain ⟨h1, h2, h3⟩ := serve_err (s := s') net.lost e hq hl
    rcases hr with ⟨hr, hnw⟩ | ⟨hr, hnw⟩ | ⟨st, l, hst, _, hr⟩
    · rw [hr]
      exact ⟨hs, _, _, hd, .inr (.inl ⟨rfl, .inl rfl, hnw⟩)⟩
    · rw [hr]
      refine ⟨hs, _, _, hd, .inr (.inl ⟨rfl, .inr h1, ?_⟩)⟩
      intro hwk
      have := h3 (by rw [hw, hwk.writes]) hwk.lost
      rw [hnw hwk] at this
      cases this
    · rcases h2 with h2 | h2
      · rw [h2] at hst; cases hst
      · rw [h2] at hst
        cases hst
        rw [hr]
        refine ⟨by simp [unitCall, expect, hc, hs], _, _, hd, .inl ⟨?_, ?_⟩⟩
        · simp [unitCall, expect, hc, h1]
        · simp [unitCall, expect, hc, Except.map, Seen]
  | failed hd hq hl hrv hc =>
    obtain ⟨res, s', hd⟩ := hd
    have hnw : ¬ Works net := fun h => hrv h.recvs
    obtain ⟨h1, h2, _⟩ := serve_err (s := w.srv) net.lost .socket hq hl
    rcases hr with ⟨hr, _⟩ | ⟨hr, _⟩ | ⟨st, l, hst, _, hr⟩
    · rw [hr]
      exact ⟨hs, _, _, hd, .inr (.inl ⟨rfl, .inl rfl, hnw⟩)⟩
    · rw [hr]
      exact ⟨hs, _, _, hd, .inr (.inl ⟨rfl, .inl h1, hnw⟩)⟩
    · rcases h2 with h2 | h2
      · rw [h2] at hst; cases hst
      · rw [h2] at hst
        cases hst
        rw [hr]
        have hc' : ¬ errorCode .socket = code := fun h => hc h.symm
        refine ⟨by simp [unitCall, expect, hc', hs], _, _, hd, .inr (.inr ⟨?_, ?_, hnw⟩)⟩
        · simp [unitCall, expect, hc', Except.map]; rfl
        · simp [unitCall, expect, hc', h1]
  | @cut e c hd hq hl hrv =>
    obtain ⟨res, s', hd⟩ := hd
    have hnw : ¬ Works net := fun h => hrv (arrived_works h _)
    obtain ⟨h1, h2, _⟩ := serve_err (s := w.srv) net.lost e hq hl
    rcases hr with ⟨hr, _⟩ | ⟨hr, _⟩ | ⟨st, l, hst, ha, hr⟩
    · rw [hr]
      exact ⟨hs, _, _, hd, .inr (.inl ⟨rfl, .inl rfl, hnw⟩)⟩
    · rw [hr]
      exact ⟨hs, _, _, hd, .inr (.inl ⟨rfl, .inl h1, hnw⟩)⟩
    · exact absurd ha hrv

/-! ## Routing -/

theorem greedyUntil_nil {s : Str} (h : '\n' ∉ s) : greedyUntil [] s = some s := by
  induction s with
  | nil => rfl
  | cons c r ih =>
    have hc : c ≠ '\n' := fun e => h (by simp [e])
    simp [greedyUntil, hc, ih fun e => h (by simp [e])]

theorem dropLit_append (p s : Str) : dropLit p (p ++ s) = some s := by
  induction p with
  | nil => cases s <;> rfl
  | cons c p ih => simp [dropLit, ih]

/-- The resource of a path is the one selected by the router (`Model/HttpServer.lean`). -/
theorem C67_route (h : Resource → Str → List Str → Prog) (m path : Str) (hm : m ∈ allowedMethods) :
    dispatch (routesOf controlPatterns h) m path =
      match route path with
      | none => .raise (.http 404)
      | some (r, g) =>
        if m ∈ (resourceMethods r).map String.toList then h r m g else .raise (.http 405) := by
  simp only [dispatch, if_pos hm, routesOf, controlPatterns, List.map_cons, List.map_nil, findRoute,
    route, List.findSome?_cons, List.findSome?_nil]
  cases matchAround "/tickets/" "" path with
  | some g =>
    simp only [Option.map_some]
    by_cases hr : m ∈ (resourceMethods .tickets).map String.toList <;> simp [hr]
  | none =>
    simp only [Option.map_none]
    cases matchLit "/profile/" path with
    | some g =>
      simp only [Option.map_some]
      by_cases hr : m ∈ (resourceMethods .profile).map String.toList <;> simp [hr]
    | none => rfl

theorem route_ticket {id : Str} (h : '\n' ∉ id) : route (ticketUri id) = some (.tickets, [id]) := by
  have : matchAround "/tickets/" "" (ticketUri id) = some [id] := by
    have e : dropLit "/tickets/".toList (ticketUri id) = some id := dropLit_append _ _
    have e2 : greedyUntil "".toList id = some id := greedyUntil_nil h
    simp only [matchAround, e, e2, Option.map_some]
  simp [route, controlPatterns, this]

theorem takeWhile_all {p : Char → Bool} {s : Str} (h : ∀ c ∈ s, p c = true) :
    s.takeWhile p = s ∧ s.dropWhile p = [] := by
  induction s with
  | nil => simp
  | cons c r ih =>
    have := ih fun x hx => h x (by simp [hx])
    simp [h c (by simp), this]

theorem validUri_append (p s : Str) : validUri (p ++ s) = (validUri p && validUri s) := by
  simp only [validUri, List.all_append]

theorem validUri_tickets : validUri (lit "/tickets/") = true := by decide +kernel

theorem validUri_plain {id : Str} (h : Plain id) : validUri id = true := by
  rw [validUri, List.all_eq_true]
  intro c hc
  have := h.2 c hc
  rw [Bool.and_eq_true]
  exact ⟨decide_eq_true this.1, decide_eq_true this.2.1⟩

theorem plain_uri {id : Str} (h : Plain id) : validUri (ticketUri id) = true :=
  (validUri_append _ _).trans (by rw [validUri_tickets, validUri_plain h]; rfl)

theorem plain_handler {id : Str} (h : Plain id) (cfg : Admin.Cfg) (net : Admin.Net) (m : Str)
    (hm : m ∈ allowedMethods) (s : Server) (c : Conn) :
    handler cfg net m (ticketUri id) s c =
      if m = lit "GET" then getTicket cfg net id s c
      else if m = lit "PUT" then putTicket cfg net id s c
      else if m = lit "PATCH" then patchTicket cfg net id s c
      else if m = lit "DELETE" then deleteTicket cfg net id s c
      else (.error (.http 405), s, c) := by
  have hq : ∀ c ∈ ticketUri id, (c != '?') = true ∧ c ≠ '%' := by
    intro c hc
    rcases List.mem_append.1 hc with hc | hc
    · have : ∀ c ∈ lit "/tickets/", (c != '?') = true ∧ c ≠ '%' := by decide +kernel
      exact this c hc
    · have := h.2 c hc
      simp [this.2.2.1, this.2.2.2]
  have hn : '\n' ∉ id := fun hc => by have := (h.2 _ hc).1; revert this; decide
  have h1 := takeWhile_all (p := fun c => c != '?') (fun c hc => (hq c hc).1)
  have h2 : unquote cfg.decode (ticketUri id) = ticketUri id := by
    unfold unquote
    rw [if_neg]
    exact fun hc => (hq _ hc).2 rfl
  simp only [handler, splitQuery, h1, h2, route_ticket hn, hm, not_true, if_false]

/-! ## The handlers -/

theorem set_changed (s : Server) (id : Str) (t : Option Admin.Ticket) :
    Changed s.store (s.set id t).store id t :=
  ⟨by simp [Server.set], fun x hx => by simp [Server.set, hx]⟩

theorem arrived_cut {n : Admin.Net} {b : Bytes} (h : n.arrived b ≠ b) :
    ∃ k, k < b.length ∧ n.arrived b = b.take k := by
  unfold Net.arrived at h ⊢
  cases hc : n.cut with
  | none => simp [hc] at h
  | some k =>
    simp only [hc] at h ⊢
    refine ⟨k, ?_, rfl⟩
    by_contra hk
    exact h (List.take_of_length_le (by omega))

theorem does_add (cfg : Admin.Cfg) (net : Admin.Net) (s : Server) (msg : Json) :
    (∀ e, Tickets.parse cfg.netlocOk cfg.inactivity msg = .error e →
      Does (envOf cfg net) s (.add msg) (.refused 400) s) ∧
    (∀ t, Tickets.parse cfg.netlocOk cfg.inactivity msg = .ok t →
      Does (envOf cfg net) s (.add msg) .done (s.set t.uuid (some (.new t net.now)))) := by
  constructor
  · intro e he
    refine .invalid fun t ht => ?_
    have := (C38_parse_iff _ _ _ _).2 ht
    change Tickets.parse cfg.netlocOk cfg.inactivity msg = _ at this
    rw [he] at this
    cases this
  · intro t ht
    exact .added ((C38_parse_iff _ _ _ _).1 ht) (set_changed s t.uuid _)

theorem does_add_some (cfg : Admin.Cfg) (net : Admin.Net) (s : Server) (msg : Json) :
    ∃ res s', Does (envOf cfg net) s (.add msg) res s' := by
  cases h : Tickets.parse cfg.netlocOk cfg.inactivity msg with
  | error e => exact ⟨_, _, (does_add cfg net s msg).1 e h⟩
  | ok t => exact ⟨_, _, (does_add cfg net s msg).2 t h⟩

theorem put_handled {cfg : Admin.Cfg} (hj : Codec cfg.dumps cfg.loads) (net : Admin.Net) (d : Json)
    {id : Str} (hid : id ≠ []) (s : Server) :
    Handled (envOf cfg net) s (.add d) 200 net (cfg.dumps d)
      (putTicket cfg net id s (net.conn (some (cfg.dumps d)))) := by
  unfold putTicket
  rw [if_neg hid]
  obtain ⟨c', hq, hl, hw, hst, hr | ⟨hr, hnr⟩⟩ := conn_read net (cfg.dumps d)
  · rw [hr]
    simp only
    by_cases ha : net.arrived (cfg.dumps d) = cfg.dumps d
    · rw [ha, hj.roundtrip]
      simp only
      cases hp : Tickets.parse cfg.netlocOk cfg.inactivity d with
      | error e => exact .refused ((does_add cfg net s d).1 e hp) hq hl hw (by simp [errorCode])
      | ok t => exact .ok ((does_add cfg net s d).2 t hp) hq hw hst
    · obtain ⟨k, hk, hka⟩ := arrived_cut ha
      have hc := fun f => hj.cut d k f hk
      rw [← hka] at hc
      cases hlo : cfg.loads (net.arrived (cfg.dumps d)) with
      | none => exact .cut (does_add_some cfg net s d) hq hl ha
      | some msg =>
        cases msg with
        | obj f => exact absurd hlo (hc f)
        | _ => exact .cut (does_add_some cfg net s d) hq hl ha
  · rw [hr]
    exact .failed (does_add_some cfg net s d) hq hl hnr (by simp)

theorem integer_timeout (ch : Json) :
    (∀ n, integer ch (lit "timeout") none = .ok n → NewTimeout ch n) ∧
    (∀ e, integer ch (lit "timeout") none = .error e →
      (∀ n, ¬ NewTimeout ch n) ∧
      ((∃ d, ch = .obj d) ∧ e = .http 400 ∨ (∀ d, ch ≠ .obj d) ∧ e = .other)) := by
  cases ch with
  | obj d =>
    have hf := find_iff d "timeout"
    unfold Tickets.find at hf
    have hg : (Json.obj d).get (lit "timeout") =
      .ok ((d.reverse.find? fun f => decide (f.1 = "timeout".toList)).map (·.2)) := rfl
    unfold integer
    rw [hg]
    cases hx : (d.reverse.find? fun f => decide (f.1 = "timeout".toList)).map (·.2) with
    | none =>
      simp only [reduceCtorEq, false_implies, implies_true, true_and]
      intro e he
      cases he
      refine ⟨?_, .inl ⟨⟨d, rfl⟩, rfl⟩⟩
      rintro n ⟨d', v, hd, hv, -⟩
      cases hd
      have := (hf v).2 hv
      rw [hx] at this
      cases this
    | some v =>
      have hv := (hf v).1 hx
      have huniq : ∀ v', Field d "timeout" v' → v' = v := by
        intro v' h'
        have := (hf v').2 h'
        rw [hx] at this
        cases this; rfl
      cases v with
      | int z =>
        by_cases hz : z < 0
        · simp only [if_pos hz, reduceCtorEq, false_implies, implies_true, true_and]
          intro e he
          cases he
          refine ⟨?_, .inl ⟨⟨d, rfl⟩, rfl⟩⟩
          rintro n ⟨d', v, hd, hv', hi, hn⟩
          cases hd
          cases huniq v hv'
          cases hi
          omega
        · simp only [if_neg hz, reduceCtorEq, false_implies, implies_true, and_true]
          intro n hn
          cases hn
          refine ⟨d, _, rfl, hv, ?_, by omega⟩
          rw [Int.toNat_of_nonneg (by omega)]
          exact .int
      | bool b =>
        simp only [reduceCtorEq, false_implies, implies_true, and_true]
        intro n hn
        cases hn
        refine ⟨d, _, rfl, hv, ?_, by omega⟩
        cases b
        · exact .bool
        · exact .bool
      | _ =>
        simp only [reduceCtorEq, false_implies, implies_true, true_and]
        intro e he
        cases he
        refine ⟨?_, .inl ⟨⟨d, rfl⟩, rfl⟩⟩
        rintro n ⟨d', v, hd, hv', hi, hn⟩
        cases hd
        cases huniq v hv'
        cases hi
  | _ =>
    refine ⟨fun n h => by simp [integer, Json.get] at h, fun e h => ?_⟩
    simp only [integer, Json.get, Except.error.injEq] at h
    subst h
    refine ⟨?_, .inr ⟨fun d h => (by cases h), rfl⟩⟩
    rintro n ⟨d', v, hd, -⟩
    cases hd

theorem does_mod (cfg : Admin.Cfg) (net : Admin.Net) (s : Server) (id : Str) (ch : Json) :
    (∀ e, integer ch (lit "timeout") none = .error e →
      Does (envOf cfg net) s (.mod id ch) (.refused (errorCode e)) s) ∧
    (∀ n, integer ch (lit "timeout") none = .ok n → s.store id = none →
      Does (envOf cfg net) s (.mod id ch) (.refused 404) s) ∧
    (∀ (n : Nat) t, integer ch (lit "timeout") none = .ok n → s.store id = some t →
      Does (envOf cfg net) s (.mod id ch) .done
        (s.set id (some { t with expires := net.now + n }))) := by
  refine ⟨?_, ?_, ?_⟩
  · intro e he
    obtain ⟨h1, ⟨⟨d, rfl⟩, rfl⟩ | ⟨h2, rfl⟩⟩ := (integer_timeout ch).2 e he
    · exact .badChange h1
    · exact .notObject h2
  · intro n hn ht
    exact .changeMissing ht ((integer_timeout ch).1 n hn)
  · intro n t hn ht
    exact .changed ht ((integer_timeout ch).1 n hn) (set_changed _ _ _)

theorem does_mod_some (cfg : Admin.Cfg) (net : Admin.Net) (s : Server) (id : Str) (ch : Json) :
    ∃ res s', Does (envOf cfg net) s (.mod id ch) res s' := by
  obtain ⟨h1, h2, h3⟩ := does_mod cfg net s id ch
  cases hi : integer ch (lit "timeout") none with
  | error e => exact ⟨_, _, h1 e hi⟩
  | ok n =>
    cases ht : s.store id with
    | none => exact ⟨_, _, h2 n hi ht⟩
    | some t => exact ⟨_, _, h3 n t hi ht⟩

theorem patch_handled {cfg : Admin.Cfg} (hj : Codec cfg.dumps cfg.loads) (net : Admin.Net)
    (ch : Json) {id : Str} (hid : id ≠ []) (s : Server) :
    Handled (envOf cfg net) s (.mod id ch) 200 net (cfg.dumps ch)
      (patchTicket cfg net id s (net.conn (some (cfg.dumps ch)))) := by
  unfold patchTicket
  rw [if_neg hid]
  obtain ⟨h1, h2, h3⟩ := does_mod cfg net s id ch
  obtain ⟨c', hq, hl, hw, hst, hr | ⟨hr, hnr⟩⟩ := conn_read net (cfg.dumps ch)
  · rw [hr]
    simp only
    by_cases ha : net.arrived (cfg.dumps ch) = cfg.dumps ch
    · rw [ha, hj.roundtrip]
      simp only
      cases hi : integer ch (lit "timeout") none with
      | error e =>
        refine .refused (h1 e hi) hq hl hw ?_
        rcases ((integer_timeout ch).2 e hi).2 with ⟨_, rfl⟩ | ⟨_, rfl⟩ <;> simp [errorCode]
      | ok n =>
        simp only
        cases ht : s.store id with
        | none => exact .refused (h2 n hi ht) hq hl hw (by simp [errorCode])
        | some t => exact .ok (h3 n t hi ht) hq hw hst
    · obtain ⟨k, hk, hka⟩ := arrived_cut ha
      have hc := fun f => hj.cut ch k f hk
      rw [← hka] at hc
      cases hlo : cfg.loads (net.arrived (cfg.dumps ch)) with
      | none => exact .cut (does_mod_some cfg net s id ch) hq hl ha
      | some msg =>
        cases msg with
        | obj f => exact absurd hlo (hc f)
        | _ => exact .cut (does_mod_some cfg net s id ch) hq hl ha
  · rw [hr]
    exact .failed (does_mod_some cfg net s id ch) hq hl hnr (by simp)

theorem delete_handled (cfg : Admin.Cfg) (net : Admin.Net) {id : Str} (hid : id ≠ []) (s : Server) :
    Handled (envOf cfg net) s (.del id) 204 net []
      (deleteTicket cfg net id s (net.conn none)) := by
  have hl := conn_lenOk net none
  unfold deleteTicket
  rw [if_neg hid]
  cases ht : s.store id with
  | none => exact .ok (.gone ht) ⟨rfl, rfl, rfl⟩ rfl rfl
  | some t =>
    simp only
    by_cases ha : t.active = true
    · by_cases h0 : cfg.removeTimeout = 0
      · have e : remove cfg net id t s = (false, s.set id (some { t with canceled := true })) := by
          simp [remove, ha, h0]
        rw [e]
        exact .ok (.canceled ht ha (by simp [envOf, h0]) (set_changed _ _ _)) ⟨rfl, rfl, rfl⟩ rfl rfl
      · by_cases hr : net.released = true
        · have e : remove cfg net id t s = (false, s.set id none) := by simp [remove, ha, h0, hr]
          rw [e]
          exact .ok (.removed ht (.inr ⟨by simp [envOf, h0], hr⟩) (set_changed _ _ _))
            ⟨rfl, rfl, rfl⟩ rfl rfl
        · have e : remove cfg net id t s = (true, s.set id (some { t with canceled := true })) := by
            simp [remove, ha, h0, hr]
          rw [e]
          exact .refused (e := .http 409)
            (.busy ht ha (by simp [envOf, h0]) (by simpa [envOf] using hr) (set_changed _ _ _))
            (conn_quiet _ _) hl rfl (by simp [errorCode])
    · have e : remove cfg net id t s = (false, s.set id none) := by simp [remove, ha]
      rw [e]
      exact .ok (.removed ht (.inl (by simpa using ha)) (set_changed _ _ _)) ⟨rfl, rfl, rfl⟩ rfl rfl

theorem parse_run_y (decode : Bytes → Str) :
    parseQsl decode (lit "run=y") = [(lit "run", lit "y")] := by
  have h1 : QemuNbd.splitOn '&' (lit "run=y") = [lit "run=y"] := by decide +kernel
  rw [parseQsl, h1]
  rfl

theorem parse_run_n (decode : Bytes → Str) :
    parseQsl decode (lit "run=n") = [(lit "run", lit "n")] := by
  have h1 : QemuNbd.splitOn '&' (lit "run=n") = [lit "run=n"] := by decide +kernel
  rw [parseQsl, h1]
  rfl

theorem profile_handler (cfg : Admin.Cfg) (net : Admin.Net) (start : Bool) (s : Server) (c : Conn) :
    handler cfg net (lit "POST")
      (if start then lit "/profile/?run=y" else lit "/profile/?run=n") s c =
    postProfile cfg [(lit "run", if start then lit "y" else lit "n")] s c := by
  have hr : route (lit "/profile/") = some (.profile, []) := by decide +kernel
  have hm : lit "POST" ∈ allowedMethods := by decide +kernel
  have hg : lit "POST" ≠ lit "GET" := by decide +kernel
  have hu : unquote cfg.decode (lit "/profile/") = lit "/profile/" := by
    rw [unquote, if_neg (by decide +kernel)]
  cases start with
  | true =>
    have hs : splitQuery (lit "/profile/?run=y") = (lit "/profile/", lit "run=y") := by decide +kernel
    simp only [if_true, handler]
    rw [hs]
    simp only [hu, hr, hm, not_true, if_false, hg, if_true, parse_run_y]
  | false =>
    have hs : splitQuery (lit "/profile/?run=n") = (lit "/profile/", lit "run=n") := by decide +kernel
    simp only [Bool.false_eq_true, if_false, handler]
    rw [hs]
    simp only [hu, hr, hm, not_true, if_false, hg, if_true, parse_run_n]

theorem profile_handled (cfg : Admin.Cfg) (net : Admin.Net) (start : Bool) (s : Server) :
    Handled (envOf cfg net) s (if start then .startProfile else .stopProfile) 200 net []
      (postProfile cfg [(lit "run", if start then lit "y" else lit "n")] s (net.conn (some []))) := by
  have hl := conn_lenOk net (some [])
  have hq := conn_quiet net (some [])
  have hny : lit "n" ≠ lit "y" := by decide +kernel
  have hc : (lit "run" : Str) ≠ lit "clock" := by decide +kernel
  unfold postProfile
  cases hy : cfg.yappi with
  | false =>
    simp only [Bool.not_false, if_true]
    cases start
    · exact .refused (e := .http 404) (.noProfilerStop hy) hq hl rfl (by simp [errorCode])
    · exact .refused (e := .http 404) (.noProfilerStart hy) hq hl rfl (by simp [errorCode])
  | true =>
    simp only [Bool.not_true, Bool.false_eq_true, if_false]
    cases start with
    | true =>
      have h1 : enumRequired [(lit "run", lit "y")] (lit "run") [lit "y", lit "n"] = .ok (lit "y") := by
        simp [enumRequired, queryGet]
      have h2 : enumQuery [(lit "run", lit "y")] (lit "clock") [lit "cpu", lit "wall"] (lit "cpu") =
          .ok (lit "cpu") := by
        have : queryGet [(lit "run", lit "y")] (lit "clock") = none := by decide +kernel
        rw [enumQuery, this]
      simp only [if_true]
      rw [h1]
      simp only [if_true]
      rw [h2]
      simp only
      cases hp : s.profiler with
      | some c => exact .refused (e := .http 400) (.running hy hp) hq hl rfl (by simp [errorCode])
      | none => exact .ok (.started hy hp) hq rfl rfl
    | false =>
      have h1 : enumRequired [(lit "run", lit "n")] (lit "run") [lit "y", lit "n"] = .ok (lit "n") := by
        simp [enumRequired, queryGet]
      simp only [Bool.false_eq_true, if_false]
      rw [h1]
      simp only [if_neg hny]
      cases hp : s.profiler with
      | none => exact .refused (e := .http 400) (.notRunning hy hp) hq hl rfl (by simp [errorCode])
      | some c => exact .ok (.stopped hy hp) hq rfl rfl

theorem field_left {a b : List (List Char × Json)} {k : String} {v : Json} (h : Field a k v)
    (hb : Absent b k) : Field (a ++ b) k v := by
  obtain ⟨pre, post, rfl, hp⟩ := h
  refine ⟨pre, post ++ b, by simp, fun f hf => ?_⟩
  rcases List.mem_append.1 hf with hf | hf
  · exact hp f hf
  · exact hb f hf

theorem field_right {a b : List (List Char × Json)} {k : String} {v : Json} (h : Field b k v) :
    Field (a ++ b) k v := by
  obtain ⟨pre, post, rfl, hp⟩ := h
  exact ⟨a ++ pre, post, by simp, hp⟩

theorem absent_append {a b : List (List Char × Json)} {k : String} (ha : Absent a k)
    (hb : Absent b k) : Absent (a ++ b) k := by
  intro f hf
  rcases List.mem_append.1 hf with hf | hf
  · exact ha f hf
  · exact hb f hf

/-- The parts of the report. -/
def infoList (cfg : Admin.Cfg) (now : Int) (t : Admin.Ticket) : List (String × Json) :=
  [("active", .bool t.active), ("canceled", .bool t.canceled),
   ("connections", .int t.connections), ("expires", .int t.expires),
   ("idle_time", .int (if t.active then 0 else now - t.access)),
   ("inactivity_timeout", .int t.fields.inactivityTimeout), ("ops", .arr t.fields.ops),
   ("size", .int t.fields.size), ("sparse", .bool t.fields.sparse),
   ("dirty", .bool t.fields.dirty), ("timeout", .int t.fields.timeout),
   ("url", .str (cfg.urlunparse t.fields.url)), ("uuid", .str t.fields.uuid)]

def toFields (l : List (String × Json)) : List (Str × Json) := l.map fun x => (x.1.toList, x.2)

def infoBase (cfg : Admin.Cfg) (now : Int) (t : Admin.Ticket) : List (Str × Json) :=
  toFields (infoList cfg now t)

theorem field_of_mem {l : List (String × Json)} {k : String} {v : Json}
    (hn : (l.map Prod.fst).Nodup) (h : (k, v) ∈ l) : Field (toFields l) k v := by
  obtain ⟨pre, post, rfl⟩ := List.append_of_mem h
  refine ⟨toFields pre, toFields post, by simp [toFields], ?_⟩
  intro f hf
  obtain ⟨x, hx, rfl⟩ := List.mem_map.1 hf
  simp only [List.map_append, List.map_cons, List.nodup_append, List.nodup_cons] at hn
  intro he
  have : x.1 = k := String.toList_inj.1 he
  exact hn.2.1.1 (List.mem_map.2 ⟨x, hx, this⟩)

theorem absent_of_not_mem {l : List (String × Json)} {k : String} (h : k ∉ l.map Prod.fst) :
    Absent (toFields l) k := by
  intro f hf he
  obtain ⟨x, hx, rfl⟩ := List.mem_map.1 hf
  have : x.1 = k := String.toList_inj.1 he
  exact h (List.mem_map.2 ⟨x, hx, this⟩)

theorem info_names (cfg : Admin.Cfg) (now : Int) (t : Admin.Ticket) :
    (infoList cfg now t).map Prod.fst = ["active", "canceled", "connections", "expires", "idle_time",
      "inactivity_timeout", "ops", "size", "sparse", "dirty", "timeout", "url", "uuid"] := rfl

theorem info_nodup (cfg : Admin.Cfg) (now : Int) (t : Admin.Ticket) :
    ((infoList cfg now t).map Prod.fst).Nodup := by
  rw [info_names]
  decide +kernel

def infoTransfer (t : Admin.Ticket) : List (Str × Json) :=
  if t.fields.transferId = [] then [] else [(lit "transfer_id", .str t.fields.transferId)]

def infoFile (t : Admin.Ticket) : List (Str × Json) :=
  match t.fields.filename with
  | none | some [] => []
  | some f => [(lit "filename", .str f)]

def infoDone (t : Admin.Ticket) : List (Str × Json) :=
  if t.fields.ops.length > 1 then [] else [(lit "transferred", .int t.transferred)]

theorem info_parts (cfg : Admin.Cfg) (now : Int) (t : Admin.Ticket) :
    t.info cfg now = .obj (infoBase cfg now t ++ infoTransfer t ++ infoFile t ++ infoDone t) := by
  unfold Ticket.info infoBase infoTransfer infoFile infoDone
  rcases t.fields.filename with _ | ⟨_ | _⟩ <;> rfl

theorem absent_transfer (t : Admin.Ticket) {k : String} (h : k.toList ≠ lit "transfer_id") :
    Absent (infoTransfer t) k := by
  unfold infoTransfer
  split
  · simp [Absent]
  · intro f hf
    rw [List.mem_singleton] at hf
    subst hf
    exact fun e => h e.symm

theorem absent_file (t : Admin.Ticket) {k : String} (h : k.toList ≠ lit "filename") :
    Absent (infoFile t) k := by
  unfold infoFile
  split
  · simp [Absent]
  · simp [Absent]
  · intro f hf
    rw [List.mem_singleton] at hf
    subst hf
    exact fun e => h e.symm

theorem absent_done (t : Admin.Ticket) {k : String} (h : k.toList ≠ lit "transferred") :
    Absent (infoDone t) k := by
  unfold infoDone
  split
  · simp [Absent]
  · intro f hf
    rw [List.mem_singleton] at hf
    subst hf
    exact fun e => h e.symm

theorem field_base {cfg : Admin.Cfg} {now : Int} {t : Admin.Ticket} {k : String} {v : Json}
    (h : (k, v) ∈ infoList cfg now t)
    (hk : k.toList ≠ lit "transfer_id" ∧ k.toList ≠ lit "filename" ∧ k.toList ≠ lit "transferred") :
    Field (infoBase cfg now t ++ infoTransfer t ++ infoFile t ++ infoDone t) k v :=
  field_left (field_left (field_left (field_of_mem (info_nodup cfg now t) h) (absent_transfer t hk.1))
    (absent_file t hk.2.1)) (absent_done t hk.2.2)

theorem field_one (k : String) (v : Json) : Field [(lit k, v)] k v := ⟨[], [], rfl, by simp⟩

/-- Find an entry of the report. -/
macro "infoMem" : tactic =>
  `(tactic| (unfold infoList; repeat (first | exact List.Mem.head _ | apply List.Mem.tail)))

theorem info_reports (cfg : Admin.Cfg) (net : Admin.Net) (t : Admin.Ticket) :
    ∃ d, t.info cfg net.now = .obj d ∧ Reports (envOf cfg net) t d := by
  refine ⟨_, info_parts cfg net.now t, ?_⟩
  have hb : ∀ k : String, k ∉ (infoList cfg net.now t).map Prod.fst →
    Absent (infoBase cfg net.now t) k := fun k h => absent_of_not_mem h
  refine ⟨field_base (by infoMem) (by decide +kernel),
    field_base (by infoMem) (by decide +kernel),
    field_base (by infoMem) (by decide +kernel),
    field_base (by infoMem) (by decide +kernel),
    field_base (by infoMem) (by decide +kernel),
    field_base (by infoMem) (by decide +kernel),
    field_base (by infoMem) (by decide +kernel),
    field_base (by infoMem) (by decide +kernel),
    field_base (by infoMem) (by decide +kernel),
    field_base (by infoMem) (by decide +kernel),
    field_base (by infoMem) (by decide +kernel),
    field_base (by infoMem) (by decide +kernel),
    field_base (by infoMem) (by decide +kernel), ?_, ?_, ?_, ?_, ?_, ?_⟩
  · intro h
    have : infoTransfer t = [(lit "transfer_id", .str t.fields.transferId)] := by
      simp [infoTransfer, h]
    rw [this]
    exact field_left (field_left (field_right (field_one _ _)) (absent_file t (by decide +kernel)))
      (absent_done t (by decide +kernel))
  · intro h
    refine absent_append (absent_append (absent_append (hb _ (by rw [info_names]; decide +kernel)) ?_)
      (absent_file t (by decide +kernel))) (absent_done t (by decide +kernel))
    simp [infoTransfer, h, Absent]
  · intro f hf hne
    have : infoFile t = [(lit "filename", .str f)] := by
      unfold infoFile
      rw [hf]
      cases f with
      | nil => exact absurd rfl hne
      | cons c r => rfl
    rw [this]
    exact field_left (field_right (field_one _ _)) (absent_done t (by decide +kernel))
  · intro h
    refine absent_append (absent_append (absent_append (hb _ (by rw [info_names]; decide +kernel))
      (absent_transfer t (by decide +kernel))) ?_) (absent_done t (by decide +kernel))
    rcases h with h | h <;> simp [infoFile, h, Absent]
  · intro h
    have : infoDone t = [(lit "transferred", .int t.transferred)] := by
      simp [infoDone, Nat.not_lt.2 h]
    rw [this]
    exact field_right (field_one _ _)
  · intro h
    refine absent_append (absent_append (absent_append (hb _ (by rw [info_names]; decide +kernel))
      (absent_transfer t (by decide +kernel))) (absent_file t (by decide +kernel))) ?_
    simp [infoDone, h, Absent]

theorem get_fine {cfg : Admin.Cfg} (hj : Codec cfg.dumps cfg.loads) (net : Admin.Net) {id : Str}
    (hid : Plain id) {w : World} (hs : w.stuck = false) :
    Fine (envOf cfg net) w.srv (.get id) (Works net)
      ((showTicket cfg net id w).1.map some, (showTicket cfg net id w).2) := by
  have hm : lit "GET" ∈ allowedMethods := by decide +kernel
  have hh := plain_handler hid cfg net (lit "GET") hm w.srv (net.conn none)
  rw [if_pos rfl, getTicket, if_neg hid.1] at hh
  cases ht : w.srv.store id with
  | none =>
    rw [ht] at hh
    have := handled_fine (env := envOf cfg net) (a := .get id) (code := 200) (m := lit "GET")
      (body := none) (cfg := cfg) (net := net) hs (plain_uri hid) (by
        rw [hh]
        exact .refused (e := .http 404) (.missing ht) (conn_quiet _ _) (conn_lenOk _ _) rfl
          (by simp [errorCode]))
    obtain ⟨hst, res, s', hd, hcase⟩ := this
    unfold showTicket
    generalize expect 200 (request cfg net (lit "GET") (ticketUri id) none w) = x at hst hcase
    obtain ⟨r, w'⟩ := x
    cases r with
    | ok body =>
      exfalso
      cases hd with
      | shown h _ => rw [ht] at h; cases h
      | missing h =>
        rcases hcase with ⟨_, h⟩ | ⟨h, _⟩ | ⟨h, _⟩
        · exact h
        · cases h
        · cases h
    | error e => exact ⟨hst, res, s', hd, hcase⟩
  | some t =>
    rw [ht] at hh
    obtain ⟨d, hi, hrep⟩ := info_reports cfg net t
    have hd : Does (envOf cfg net) w.srv (.get id) (.info d) w.srv := .shown ht hrep
    have hr := request_cases cfg net (lit "GET") (ticketUri id) none w hs (plain_uri hid) _ hh
    simp only [hi] at hr
    obtain ⟨h1, h2, h3⟩ := serve_json (s := w.srv) cfg (.obj d) net.lost (conn_quiet net none)
    unfold showTicket
    rcases hr with ⟨hr, hnw⟩ | ⟨hr, hnw⟩ | ⟨st, l, hst, _, hr⟩
    · rw [hr]
      exact ⟨hs, _, _, hd, .inr (.inl ⟨rfl, .inl rfl, hnw⟩)⟩
    · rw [hr]
      refine ⟨hs, _, _, hd, .inr (.inl ⟨rfl, .inr h1, ?_⟩)⟩
      intro hwk
      have := h3 hwk.writes
      rw [hnw hwk] at this
      cases this
    · rcases h2 with h2 | ⟨h2, h2b⟩
      · rw [h2] at hst; cases hst
      · rw [h2] at hst
        cases hst
        rw [hr, h2b]
        simp only [expect, ne_eq, not_true, if_false, hj.line]
        exact ⟨hs, _, _, hd, .inl ⟨h1, rfl⟩⟩

theorem unit_call (x : Except AErr Bytes × World) :
    unitCall x = ((match x with
      | (.ok _, w) => (.ok (), w)
      | (.error e, w) => (.error e, w) : Except AErr Unit × World).1.map fun _ => none,
      (match x with
      | (.ok _, w) => (.ok (), w)
      | (.error e, w) => (.error e, w) : Except AErr Unit × World).2) := by
  obtain ⟨r, w⟩ := x
  cases r <;> rfl

/-- C67: a call does what it says, exactly once, and reports it; when the network fails, the call
reports a failure and had either its whole effect or none. -/
theorem C67_call {cfg : Admin.Cfg} (hj : Codec cfg.dumps cfg.loads) (fmt : Json → Str)
    (net : Admin.Net) (a : Call) (ha : PlainCall a) (w : World) (hs : w.stuck = false) :
    (call cfg fmt net w a).2.stuck = false ∧
    ∃ res s', Does (envOf cfg net) w.srv a res s' ∧
      (((call cfg fmt net w a).2.srv = s' ∧ Seen (call cfg fmt net w a).1 res) ∨
        ((call cfg fmt net w a).1 = .error .client ∧
          ((call cfg fmt net w a).2.srv = w.srv ∨ (call cfg fmt net w a).2.srv = s') ∧ ¬ Works net) ∨
        ((call cfg fmt net w a).1 = .error (.server 500) ∧ (call cfg fmt net w a).2.srv = w.srv ∧
          ¬ Works net)) := by
  change Fine (envOf cfg net) w.srv a (Works net) (call cfg fmt net w a)
  cases a with
  | add msg =>
    cases msg with
    | obj d =>
      obtain ⟨id, hf, hid⟩ := ha
      have hu : uuidText fmt (.obj d) = some id := by
        simp only [uuidText, (find_iff d "uuid" _).2 hf]
      have hm : lit "PUT" ∈ allowedMethods := by decide +kernel
      have hne : lit "PUT" ≠ lit "GET" := by decide +kernel
      have hh := plain_handler hid cfg net (lit "PUT") hm w.srv (net.conn (some (cfg.dumps (.obj d))))
      rw [if_neg hne, if_pos rfl] at hh
      have := handled_fine (body := some (cfg.dumps (.obj d))) (m := lit "PUT") (code := 200)
        (w := w) hs (plain_uri hid) (hh ▸ put_handled hj net (.obj d) hid.1 w.srv)
      rw [unit_call] at this
      simp only [call, addTicket, hu]
      exact this
    | _ => exact absurd ha id
  | get id => exact get_fine hj net ha hs
  | mod id ch =>
    have hm : lit "PATCH" ∈ allowedMethods := by decide +kernel
    have hn1 : lit "PATCH" ≠ lit "GET" := by decide +kernel
    have hn2 : lit "PATCH" ≠ lit "PUT" := by decide +kernel
    have hh := plain_handler ha cfg net (lit "PATCH") hm w.srv (net.conn (some (cfg.dumps ch)))
    rw [if_neg hn1, if_neg hn2, if_pos rfl] at hh
    have := handled_fine (body := some (cfg.dumps ch)) (m := lit "PATCH") (code := 200)
      (w := w) hs (plain_uri ha) (hh ▸ patch_handled hj net ch ha.1 w.srv)
    rw [unit_call] at this
    exact this
  | del id =>
    have hm : lit "DELETE" ∈ allowedMethods := by decide +kernel
    have hn1 : lit "DELETE" ≠ lit "GET" := by decide +kernel
    have hn2 : lit "DELETE" ≠ lit "PUT" := by decide +kernel
    have hn3 : lit "DELETE" ≠ lit "PATCH" := by decide +kernel
    have hh := plain_handler ha cfg net (lit "DELETE") hm w.srv (net.conn none)
    rw [if_neg hn1, if_neg hn2, if_neg hn3, if_pos rfl] at hh
    have := handled_fine (body := none) (m := lit "DELETE") (code := 204)
      (w := w) hs (plain_uri ha) (hh ▸ delete_handled cfg net ha.1 w.srv)
    rw [unit_call] at this
    exact this
  | startProfile =>
    have := handled_fine (body := some []) (m := lit "POST") (code := 200) (w := w) hs
      (by decide +kernel) ((profile_handler cfg net true w.srv (net.conn (some []))) ▸
        profile_handled cfg net true w.srv)
    rw [unit_call] at this
    exact this
  | stopProfile =>
    have := handled_fine (body := some []) (m := lit "POST") (code := 200) (w := w) hs
      (by decide +kernel) ((profile_handler cfg net false w.srv (net.conn (some []))) ▸
        profile_handled cfg net false w.srv)
    rw [unit_call] at this
    exact this

/-- C67: when the network works, the call has its effect, and the caller sees it. -/
theorem C67_works {cfg : Admin.Cfg} (hj : Codec cfg.dumps cfg.loads) (fmt : Json → Str)
    (net : Admin.Net) (hw : Works net) (a : Call) (ha : PlainCall a) (w : World)
    (hs : w.stuck = false) :
    (call cfg fmt net w a).2.stuck = false ∧
    ∃ res, Does (envOf cfg net) w.srv a res (call cfg fmt net w a).2.srv ∧
      Seen (call cfg fmt net w a).1 res := by
  obtain ⟨h1, res, s', hd, ⟨rfl, h⟩ | ⟨_, _, h⟩ | ⟨_, _, h⟩⟩ := C67_call hj fmt net a ha w hs
  · exact ⟨h1, res, hd, h⟩
  · exact absurd hw h
  · exact absurd hw h

/-- A client making several calls. -/
def session (cfg : Admin.Cfg) (fmt : Json → Str) :
    World → List (Admin.Net × Call) → List (Except AErr (Option Json)) × World
  | w, [] => ([], w)
  | w, (net, a) :: l =>
    let (r, w) := call cfg fmt net w a
    let (rs, w) := session cfg fmt w l
    (r :: rs, w)

/-- C67: any sequence of calls of one client does what the calls say, in order. -/
theorem C67_session {cfg : Admin.Cfg} (hj : Codec cfg.dumps cfg.loads) (fmt : Json → Str)
    (l : List (Admin.Net × Call)) (hl : ∀ x ∈ l, Works x.1 ∧ PlainCall x.2) (w : World)
    (hs : w.stuck = false) :
    ∃ rs, Run w.srv (l.map fun x => (envOf cfg x.1, x.2)) rs (session cfg fmt w l).2.srv ∧
      List.Forall₂ Seen (session cfg fmt w l).1 rs := by
  induction l generalizing w with
  | nil => exact ⟨[], .nil, .nil⟩
  | cons x l ih =>
    obtain ⟨net, a⟩ := x
    obtain ⟨hw, ha⟩ := hl (net, a) (by simp)
    obtain ⟨h1, res, hd, hse⟩ := C67_works hj fmt net hw a ha w hs
    obtain ⟨rs, hr, hf⟩ := ih (fun x hx => hl x (by simp [hx])) _ h1
    exact ⟨res :: rs, .cons hd hr, .cons hse hf⟩

theorem does_others {env : Spec.Admin.Env} {s s' : Server} {a : Call} {res : Result}
    (h : Does env s a res s') (id : Str) (hid : ¬ About a id) : s'.store id = s.store id := by
  cases h with
  | @added msg t m hv hm =>
    obtain ⟨d, rfl, hu, -⟩ := hv
    exact hm.2 id fun e => hid (e ▸ .add hu)
  | changed _ _ hm => exact hm.2 id fun e => hid (e ▸ .mod)
  | removed _ _ hm => exact hm.2 id fun e => hid (e ▸ .del)
  | busy _ _ _ _ hm => exact hm.2 id fun e => hid (e ▸ .del)
  | canceled _ _ _ hm => exact hm.2 id fun e => hid (e ▸ .del)
  | _ => rfl

/-- C67: whatever the network does, a call does not change any other ticket. -/
theorem C67_others {cfg : Admin.Cfg} (hj : Codec cfg.dumps cfg.loads) (fmt : Json → Str)
    (net : Admin.Net) (a : Call) (ha : PlainCall a) (w : World) (hs : w.stuck = false) (id : Str)
    (hid : ¬ About a id) : (call cfg fmt net w a).2.srv.store id = w.srv.store id := by
  obtain ⟨_, res, s', hd, ⟨h, _⟩ | ⟨_, h | h, _⟩ | ⟨_, h, _⟩⟩ := C67_call hj fmt net a ha w hs
  · rw [h]; exact does_others hd id hid
  · rw [h]
  · rw [h]; exact does_others hd id hid
  · rw [h]

/-- C67: a ticket that was added is shown with its values, not expired before its timeout. -/
theorem C67_add_show {cfg : Admin.Cfg} (hj : Codec cfg.dumps cfg.loads) (fmt : Json → Str)
    (n1 n2 : Admin.Net) (h1 : Works n1) (h2 : Works n2) (msg : Json) (t : Tickets.Fields)
    (hv : Valid cfg.netlocOk cfg.inactivity msg t) (hid : Plain t.uuid) (w : World)
    (hs : w.stuck = false) :
    ∃ w1 w2 d, call cfg fmt n1 w (.add msg) = (.ok none, w1) ∧
      call cfg fmt n2 w1 (.get t.uuid) = (.ok (some (.obj d)), w2) ∧
      Reports (envOf cfg n2)
        { fields := t, expires := n1.now + t.timeout, access := n1.now, active := false,
          canceled := false, connections := 0, transferred := 0 } d := by
  have hpc : PlainCall (.add msg) := by
    obtain ⟨d, rfl, hu, -⟩ := hv
    exact ⟨_, hu, hid⟩
  obtain ⟨hs1, res, hd, hse⟩ := C67_works hj fmt n1 h1 _ hpc w hs
  revert hs1 hd hse
  generalize call cfg fmt n1 w (.add msg) = x
  obtain ⟨r, w1⟩ := x
  intro hs1 hd hse
  obtain ⟨hs2, res2, hd2, hse2⟩ := C67_works hj fmt n2 h2 (.get t.uuid) hid w1 hs1
  revert hs2 hd2 hse2
  generalize hy : call cfg fmt n2 w1 (.get t.uuid) = y
  obtain ⟨r2, w2⟩ := y
  intro hs2 hd2 hse2
  have hstore : w1.srv.store t.uuid =
      some ⟨t, n1.now + t.timeout, n1.now, false, false, 0, 0⟩ ∧ r = .ok none := by
    change Does _ _ _ _ w1.srv at hd
    generalize hs' : w1.srv = s1 at hd ⊢
    cases hd with
    | @added _ t' m hv' hm =>
      have : t' = t := by
        have a := (C38_parse_iff _ _ _ _).2 hv
        have b := (C38_parse_iff _ _ _ _).2 hv'
        change Tickets.parse cfg.netlocOk cfg.inactivity msg = _ at b
        rw [a] at b
        cases b; rfl
      subst this
      refine ⟨hm.1, ?_⟩
      rcases r with _ | _ | _ <;> simp_all [Seen]
    | invalid hn => exact absurd hv (hn t)
  obtain ⟨hst, rfl⟩ := hstore
  change Does _ _ _ _ w2.srv at hd2
  generalize hs' : w2.srv = s2 at hd2
  cases hd2 with
  | @shown _ t' d ht hr =>
    rw [hst] at ht
    cases ht
    refine ⟨w1, w2, d, rfl, ?_, hr⟩
    rcases r2 with _ | _ | j
    · simp [Seen] at hse2
    · simp [Seen] at hse2
    · cases j <;> simp [Seen] at hse2
      subst hse2
      exact hy
  | missing h => rw [hst] at h; cases h

end Imageio.Props
