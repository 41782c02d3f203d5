import Verif.Lemmas.HttpServer

/-! C18, C19, C37: request bodies, keep-alive connections, routing. -/
namespace Imageio.Props
open Imageio.Http Imageio.Spec

/-! ## C18 request bodies -/

/-- A call of a handler reading the body. -/
inductive ReadCall
  | read (n : Option Nat)
  | readinto (n : Nat)

/-- The requested size. -/
def ReadCall.size : ReadCall → Option Nat
  | .read n => n
  | .readinto n => some n

def ReadCall.run : ReadCall → Conn → Except HErr Bytes × Conn
  | .read n, c => c.read n
  | .readinto n, c => c.readinto n

/-- The data returned by a sequence of calls, up to the first exception; and the last
state. -/
def readAll : List ReadCall → Conn → List Bytes × Conn
  | [], c => ([], c)
  | r :: rs, c =>
    match r.run c with
    | (.ok d, c) => let (ds, c) := readAll rs c; (d :: ds, c)
    | (.error _, c) => ([], c)

/-- A connection when the handler of a request starts. -/
structure Fresh (c : Conn) : Prop where
  contentLength : c.req.contentLength = none
  length : c.req.length = none
  started : c.started = false
  sent : c.sent = []
  status : c.status = 200
  body : c.body = []
  hdrRange : c.hdrRange = none

theorem readAll_synced {rest0 : Bytes} {n m : Nat} {c : Conn} (h : Synced rest0 n m c)
    (calls : List ReadCall) :
    ∃ k, (readAll calls c).1.flatten = (rest0.drop m).take k ∧ m + k ≤ n ∧
      (k = 0 ∨ m + k ≤ rest0.length) ∧
      ∃ j, (readAll calls c).2.rest = rest0.drop j ∧ j ≤ n ∧ m + k ≤ j ∧
        ((∀ i, Recv.fails i ∉ c.recvs) → j = m + k) := by
  induction calls generalizing m c with
  | nil => exact ⟨0, by simp [readAll], by have := h.le; omega, .inl rfl, m, h.rest, h.le,
      by omega, fun _ => rfl⟩
  | cons r rs ih =>
    have hr : ReadPost rest0 n m r.size c (r.run c).1 (r.run c).2 := by
      cases r with
      | read n => exact h.read n
      | readinto n => exact h.readinto n
    simp only [readAll]
    generalize r.run c = x at hr
    obtain ⟨res, c'⟩ := x
    simp only at hr
    cases hr with
    | data k _ hk hk2 hsy same _ _ _ =>
      obtain ⟨k', h1, h2, h3, j, h4, h5, h6, h7⟩ := ih hsy
      refine ⟨k + k', ?_, by omega, by omega, j, h4, h5, by omega, fun hno => ?_⟩
      · simp only [List.flatten_cons, h1]
        rw [List.take_add, List.drop_drop]
      · have := h7 fun i hi => hno i (same.recvs i hi)
        omega
    | fail k v _ hk hrest _ _ _ hf =>
      refine ⟨0, by simp, by omega, .inl rfl, m + k, hrest, by omega, by omega, fun hno => ?_⟩
      obtain ⟨i, hi⟩ := hf
      exact absurd hi (hno i)

theorem call_post (r : ReadCall) {rest0 : Bytes} {n m : Nat} {c : Conn} (h : Synced rest0 n m c) :
    ReadPost rest0 n m r.size c (r.run c).1 (r.run c).2 := by
  cases r with
  | read n => exact h.read n
  | readinto n => exact h.readinto n

theorem readAll_ok {rest0 : Bytes} {n m : Nat} {c : Conn} (h : Synced rest0 n m c)
    (hno : ∀ i, Recv.fails i ∉ c.recvs) (calls : List ReadCall) (more : List ReadCall) :
    ∃ k, (readAll calls c).1.flatten = (rest0.drop m).take k ∧ m + k ≤ n ∧
      Synced rest0 n (m + k) (readAll calls c).2 ∧
      (∀ i, Recv.fails i ∉ (readAll calls c).2.recvs) ∧
      readAll (calls ++ more) c = ((readAll calls c).1 ++ (readAll more (readAll calls c).2).1,
        (readAll more (readAll calls c).2).2) := by
  induction calls generalizing m c with
  | nil => exact ⟨0, by simp [readAll], h.le, h, hno, by simp [readAll]⟩
  | cons r rs ih =>
    have hr := call_post r h
    simp only [readAll, List.cons_append]
    generalize r.run c = x at hr
    obtain ⟨res, c'⟩ := x
    simp only at hr
    cases hr with
    | data k _ hk hk2 hsy same _ _ _ =>
      obtain ⟨k', h1, h2, h3, h4, h5⟩ := ih hsy fun i hi => hno i (same.recvs i hi)
      refine ⟨k + k', ?_, by omega, by rw [← Nat.add_assoc]; exact h3, h4, ?_⟩
      · simp only [List.flatten_cons, h1]
        rw [List.take_add, List.drop_drop]
      · simp only [h5, List.cons_append]
    | fail k v _ hk hrest _ _ _ hf =>
      obtain ⟨i, hi⟩ := hf
      exact absurd hi (hno i)

theorem Fresh.synced {c : Conn} (h : Fresh c) {n : Nat} (ha : Announces c.req.header n) :
    Synced c.rest n 0 c :=
  ⟨ha, rfl, Nat.zero_le _, .inl h.contentLength, .inl ⟨h.length, rfl⟩⟩

/-- C18: for every body and following data, every sequence of read calls and every
behaviour of the socket (fragments, failures), the data read are a prefix of the body and
nothing after the body is consumed.  Without failures the connection has consumed exactly
the data returned. -/
theorem C18_reads_prefix_of_body (c : Conn) (hc : Fresh c) (body next : Bytes)
    (ha : Announces c.req.header body.length) (hr : c.rest = body ++ next)
    (calls : List ReadCall) :
    (readAll calls c).1.flatten <+: body ∧
    (∃ left, left <:+ body ∧ (readAll calls c).2.rest = left ++ next) ∧
    ((∀ k, Recv.fails k ∉ c.recvs) →
      (readAll calls c).1.flatten ++ (readAll calls c).2.rest = body ++ next) := by
  obtain ⟨k, h1, h2, _, j, h4, h5, h6, h7⟩ := readAll_synced (hc.synced ha) calls
  rw [List.drop_zero, hr, Nat.zero_add] at *
  have htake : (body ++ next).take k = body.take k := List.take_append_of_le_length h2
  have hdrop : ∀ i, i ≤ body.length → (body ++ next).drop i = body.drop i ++ next :=
    fun i hi => List.drop_append_of_le_length hi
  refine ⟨?_, ⟨body.drop j, List.drop_suffix _ _, by rw [h4, hdrop j h5]⟩, fun hno => ?_⟩
  · rw [h1, htake]
    exact List.take_prefix _ _
  · have := h7 hno
    subst this
    rw [h1, h4, List.take_append_drop]

/-- C18: when the socket does not fail and a call for at least one byte returned nothing
(or everything was asked for), the whole body was read. -/
theorem C18_whole_body (c : Conn) (hc : Fresh c) (body next : Bytes)
    (ha : Announces c.req.header body.length) (hr : c.rest = body ++ next)
    (hno : ∀ k, Recv.fails k ∉ c.recvs) (calls : List ReadCall) (last : ReadCall)
    (hlast : last.size ≠ some 0)
    (hempty : last.size = none ∨ (last.run (readAll calls c).2).1 = .ok []) :
    (readAll (calls ++ [last]) c).1.flatten = body ∧
      (readAll (calls ++ [last]) c).2.rest = next := by
  obtain ⟨k, h1, h2, h3, h4, h5⟩ := readAll_ok (hc.synced ha) hno calls [last]
  rw [h5]
  simp only [List.drop_zero, Nat.zero_add] at h1 h2 h3
  have hr2 := call_post last h3
  simp only [readAll]
  generalize last.run (readAll calls c).2 = x at hr2 hempty
  obtain ⟨res, c'⟩ := x
  simp only at hr2 hempty
  have hlen : c.rest.length = body.length + next.length := by simp [hr]
  cases hr2 with
  | data j _ hj hj2 hsy same he _ hall =>
    have hj' : k + j = body.length := by
      rcases hempty with hn | hn
      · have := hall hn; omega
      · have h0 : j = 0 := by
          rcases hj2 with hj2 | hj2
          · exact hj2
          · simp only [Except.ok.injEq] at hn
            have := congrArg List.length hn
            rw [List.length_take, List.length_drop] at this
            simp only [List.length_nil] at this
            omega
        rcases he h0 with h' | h' | h'
        · omega
        · omega
        · exact absurd h' hlast
    constructor
    · simp only [List.flatten_append, List.flatten_cons, List.flatten_nil, List.append_nil, h1]
      rw [← List.take_add, hj', hr, List.take_left]
    · simp only
      rw [hsy.rest, hj', hr, List.drop_left]
  | fail _ _ _ _ _ _ _ _ hf =>
    obtain ⟨i, hi⟩ := hf
    exact absurd hi (h4 i)

namespace Ex

/-- A connection with a body of 5 bytes, delivered in small pieces, and more data. -/
def conn5 : Conn :=
  { req := { header := some "5".toList }, rest := [1, 2, 3, 4, 5, 71, 69, 84],
    recvs := [.got 0, .got 1, .got 9] }

end Ex

/-- The hypotheses of the C18 theorems are met by a body read in three pieces. -/
example : Fresh Ex.conn5 ∧ Announces Ex.conn5.req.header [1, 2, 3, 4, 5].length ∧
    Ex.conn5.rest = [1, 2, 3, 4, 5] ++ [71, 69, 84] ∧ (∀ k, Recv.fails k ∉ Ex.conn5.recvs) ∧
    (readAll [.readinto 4, .readinto 4, .read none] Ex.conn5).1 = [[1], [2, 3], [4, 5]] :=
  ⟨⟨rfl, rfl, rfl, rfl, rfl, rfl, rfl⟩, .inr ⟨_, rfl, number_fmtNat 5⟩, rfl, by simp [Ex.conn5], by decide +kernel⟩

/-! ## C19 keep-alive -/

/-- C19, partial: for every handler that does not swallow socket errors, every socket
behaviour, and every request with a valid Content-Length or none, if the connection is
kept open then the following data are exactly what follows the request body - provided
that a handler that succeeds has read the body.  In particular every failing handler is
covered.  Missing for the full claim: handlers that succeed without reading the body, and
requests with an invalid Content-Length or a transfer coding (see the counterexamples). -/
theorem C19_in_sync_partial (c : Conn) (hc : Fresh c) (body next : Bytes)
    (ha : Announces c.req.header body.length) (hr : c.rest = body ++ next) (lost : Bool)
    (p : Prog) (hp : Propagates p)
    (hread : (p.run c).1 = .ok () → (p.run c).2.rest = next)
    (hopen : (handleRequest lost p c).closing = false) :
    (handleRequest lost p c).rest = next := by
  have hpost := run_post hp (hc.synced ha)
  have hnext : c.rest.drop body.length = next := by rw [hr, List.drop_left]
  unfold handleRequest finish routerEnd at *
  generalize p.run c = x at *
  obtain ⟨r, c1⟩ := x
  simp only at hread hpost
  cases r with
  | ok u =>
    simp only at hopen ⊢
    split at hopen
    · next c2 heq =>
      split at heq
      · simp only [Prod.mk.injEq, true_and] at heq
        subst heq
        exact hread rfl
      next hns =>
      split at heq
      next u3 c3 hw =>
        have h3 := write_frame c1 []
        rw [hw] at h3
        simp only [Prod.mk.injEq, true_and] at heq
        subst heq
        rw [h3.2.1]
        exact hread rfl
      next e3 c3 hw =>
        have h3 := write_frame c1 []
        rw [hw] at h3
        have : handleError lost e3 c3 = (.ok (), c3.close) := by
          unfold handleError
          split
          · rfl
          · rw [if_pos h3.2.2.2]
        rw [this] at heq
        simp only [Prod.mk.injEq, true_and] at heq
        subst heq
        simp [Conn.close] at hopen
    · simp [Conn.close] at hopen
  | error e =>
    simp only at hopen ⊢
    have := handleError_sync lost e hpost
    generalize handleError lost e c1 = y at this hopen
    obtain ⟨r2, c2⟩ := y
    cases r2 with
    | ok _ => simp only at this hopen ⊢; rw [this hopen, hnext]
    | error _ => simp [Conn.close] at hopen

/-- A handler that reads the body and one that fails without reading it meet the
hypotheses; the first keeps the connection. -/
example : Propagates (.read none fun r => match r with | .ok _ => .ret | .error e => .raise e) ∧
    (handleRequest false (.read none fun r => match r with | .ok _ => .ret | .error e => .raise e)
      Ex.conn5).closing = false ∧
    (handleRequest false (.read none fun r => match r with | .ok _ => .ret | .error e => .raise e)
      Ex.conn5).rest = [71, 69, 84] ∧
    Propagates (.raise (.http 403)) ∧
    (handleRequest false (.raise (.http 403)) Ex.conn5).closing = true := by
  refine ⟨.read (fun r => ?_) ⟨_, rfl⟩, by decide +kernel, by decide +kernel, .raise _,
    by decide +kernel⟩
  cases r
  · exact .raise _
  · exact .ret

/-- C19: after a failure with unread data the connection is closed, whatever the socket
does. -/
theorem C19_failure_closes_unread (c : Conn) (hc : Fresh c) (n : Nat)
    (ha : Announces c.req.header n) (lost : Bool) (p : Prog) (hp : Propagates p)
    (e : HErr) (he : (p.run c).1 = .error e)
    (hun : (p.run c).2.rest ≠ c.rest.drop n) :
    (handleRequest lost p c).closing = true := by
  cases hcl : (handleRequest lost p c).closing with
  | true => rfl
  | false =>
    exfalso
    have hpost := run_post hp (hc.synced ha)
    rw [he] at hpost
    have key := handleError_sync lost e hpost
    unfold handleRequest finish routerEnd at hcl
    generalize p.run c = x at *
    obtain ⟨r, c1⟩ := x
    simp only at he hun key
    subst he
    simp only at hcl
    have hrest : ∀ c1 : Conn, (handleError lost e c1).2.rest = c1.rest := by
      intro c1
      unfold handleError
      split
      · rfl
      split
      · rfl
      split
      · rfl
      · simp only [(sendError_frame _ _).2.1]
        split
        · split <;> rfl
        · rfl
    generalize hy : handleError lost e c1 = y at hcl key
    obtain ⟨r2, c2⟩ := y
    cases r2 with
    | ok _ =>
      have h1 := hrest c1
      rw [hy] at h1
      simp only at hcl key h1
      exact hun (h1 ▸ key hcl)
    | error _ => simp [Conn.close] at hcl

example : ((Prog.raise (.http 403)).run Ex.conn5).1 = .error (.http 403) ∧
    ((Prog.raise (.http 403)).run Ex.conn5).2.rest ≠ Ex.conn5.rest.drop 5 :=
  ⟨rfl, by decide +kernel⟩

/-- C19 is false for a handler that succeeds and ignores the body, like GET, OPTIONS and
DELETE: the connection is kept, and the body is parsed as the next request. -/
theorem C19_counterexample_unread_body :
    (handleRequest false .ret Ex.conn5).sent = [200] ∧
    (handleRequest false .ret Ex.conn5).closing = false ∧
    (handleRequest false .ret Ex.conn5).rest = [1, 2, 3, 4, 5, 71, 69, 84] := by
  decide +kernel

/-- C19 is false for a request without Content-Length that has a body with a transfer
coding: the handler refuses it (images PUT: 400, content length required), the connection
is kept, and the body is parsed as the next request. -/
theorem C19_counterexample_chunked :
    ∀ rest : Bytes, ∀ code : Nat,
      (handleRequest false (.contentLength fun _ => .raise (.http code))
        { req := { header := none }, rest }).closing = false ∧
      (handleRequest false (.contentLength fun _ => .raise (.http code))
        { req := { header := none }, rest }).rest = rest ∧
      (handleRequest false (.contentLength fun _ => .raise (.http code))
        { req := { header := none }, rest }).sent = [code] := by
  intro rest code
  exact ⟨rfl, rfl, rfl⟩

/-- C19: the same for an invalid Content-Length, answered with 400. -/
theorem C19_counterexample_invalid_length :
    (handleRequest false (.contentLength fun r => match r with
        | .ok _ => .ret
        | .error e => .raise e)
      { req := { header := some "12a".toList }, rest := [1, 2, 3] }).sent = [400] ∧
    (handleRequest false (.contentLength fun r => match r with
        | .ok _ => .ret
        | .error e => .raise e)
      { req := { header := some "12a".toList }, rest := [1, 2, 3] }).closing = false := by
  decide +kernel

/-! ## C37 routing -/

/-- The methods that handlers can have. -/
def IsMethod (m : Str) : Prop :=
  m = "GET".toList ∨ m = "PUT".toList ∨ m = "PATCH".toList ∨ m = "POST".toList ∨ m = "DELETE".toList ∨ m = "OPTIONS".toList ∨
    m = "HEAD".toList

theorem mem_allowedMethods (m : Str) : m ∈ allowedMethods ↔ IsMethod m := by
  simp [allowedMethods, IsMethod]

/-- C37: the first route whose pattern matches handles the request, with the groups of the
match as arguments; an undefined method is refused. -/
theorem C37_first_match (pre post : List Route) (r : Route) (method path : Str)
    (groups : List Str) (hm : IsMethod method)
    (hpre : ∀ q ∈ pre, q.pattern path = none) (hr : r.pattern path = some groups) :
    dispatch (pre ++ r :: post) method path =
      match r.handler method with
      | some f => f groups
      | none => .raise (.http 405) := by
  rw [dispatch, if_pos ((mem_allowedMethods _).mpr hm), findRoute_skip _ _ _ _ hpre, findRoute, hr]
  simp only
  split <;> simp_all

/-- C37: no matching route. -/
theorem C37_not_found (routes : List Route) (method path : Str) (hm : IsMethod method)
    (h : ∀ q ∈ routes, q.pattern path = none) :
    dispatch routes method path = .raise (.http 404) := by
  have := findRoute_skip method path routes [] h
  rw [List.append_nil] at this
  rw [dispatch, if_pos ((mem_allowedMethods _).mpr hm), this, findRoute]

/-- C37: a method that no handler may implement. -/
theorem C37_unknown_method (routes : List Route) (method path : Str)
    (hm : ¬ IsMethod method) : dispatch routes method path = .raise (.http 405) := by
  rw [dispatch, if_neg (fun h => hm ((mem_allowedMethods _).mp h))]

/-- C37: whatever the handler and the socket do, at most one response status is sent; and
exactly one when the socket works and the Content-Length is valid or missing. -/
theorem C37_one_status (c : Conn) (hc : Fresh c) (lost : Bool) (p : Prog) :
    (handleRequest lost p c).sent.length ≤ 1 ∧
    (∀ n, Announces c.req.header n → Propagates p → (∀ b ∈ c.writes, b = true) → lost = false →
      (handleRequest lost p c).sent.length = 1) := by
  have h0 : OneHeader c := ⟨fun _ => hc.sent, by simp [hc.sent]⟩
  have h1 := run_oneHeader p h0
  constructor
  · unfold handleRequest finish routerEnd
    generalize p.run c = x at h1
    obtain ⟨r, c1⟩ := x
    simp only at h1
    have close : ∀ y : Except HErr Unit × Conn, OneHeader y.2 →
        (match y with | (.ok (), c) => c | (.error _, c) => c.close).sent.length ≤ 1 := by
      rintro ⟨r, c⟩ h
      cases r with
      | ok _ => exact h.one
      | error _ => exact h.one
    cases r with
    | ok _ =>
      by_cases hs : c1.started = true
      · simp only [hs, ite_true]
        exact h1.one
      · simp only [hs]
        have h2 := h1.write []
        generalize c1.write [] = y at h2
        obtain ⟨r2, c2⟩ := y
        cases r2 with
        | ok _ => exact h2.one
        | error e => exact close _ (handleError_oneHeader lost e h2)
    | error e => exact close _ (handleError_oneHeader lost e h1)
  · rintro n ha hp hw rfl
    have h2 := run_allSent p h0 ⟨hw, by simp [hc.started]⟩
    have h3 := run_post hp (hc.synced ha)
    unfold handleRequest finish routerEnd
    generalize p.run c = x at h1 h2 h3
    obtain ⟨r, c1⟩ := x
    simp only at h1 h2 h3
    have started : ∀ e, c1.started = true → handleError false e c1 = (.ok (), c1.close) := by
      intro e hs
      simp [handleError, hs]
    have getLen : ∃ len req, c1.req.getLength = (.ok len, req) := by
      cases h3 with
      | synced m h => obtain ⟨req, hg, _⟩ := h.getLength; exact ⟨_, _, hg⟩
      | broken e v hv hl => exact ⟨some v, c1.req, by simp [Req.getLength, hl]⟩
    obtain ⟨len, req, hg⟩ := getLen
    cases r with
    | ok _ =>
      by_cases hs : c1.started = true
      · simp only [hs, ite_true]
        exact h2.sent hs
      · simp only [hs]
        have h4 := h2.write h1 []
        have h5 := h2.write_ok []
        have h6 := (write_frame c1 []).2.2.2
        generalize c1.write [] = y at h4 h5 h6
        obtain ⟨r2, c2⟩ := y
        simp only at h5
        subst h5
        exact h4.sent h6
    | error e =>
      simp only
      cases hs : c1.started with
      | true => rw [started e hs]; exact h2.sent hs
      | false =>
        have := handleError_sends e h1 h2 hs hg
        generalize handleError false e c1 = y at this
        obtain ⟨r2, c2⟩ := y
        simp only at this
        obtain ⟨h7, rfl⟩ := this
        simp [h7]

example : Fresh Ex.conn5 ∧ (∀ b ∈ Ex.conn5.writes, b = true) ∧
    (handleRequest false (.raise .other) Ex.conn5).sent = [500] :=
  ⟨⟨rfl, rfl, rfl, rfl, rfl, rfl, rfl⟩, by simp [Ex.conn5], by decide +kernel⟩

/-- C37: a request that no handler accepted is answered with the error status: 404 for an
unknown path, 405 for a known path with an undefined method. -/
theorem C37_error_status (c : Conn) (hc : Fresh c) (n : Nat) (ha : Announces c.req.header n)
    (hw : ∀ b ∈ c.writes, b = true) (code : Nat) (routes : List Route) (method path : Str)
    (hd : dispatch routes method path = .raise (.http code)) :
    (handleRequest false (dispatch routes method path) c).sent = [code] := by
  have h0 : OneHeader c := ⟨fun _ => hc.sent, by simp [hc.sent]⟩
  obtain ⟨req, hg, _⟩ := (hc.synced ha).getLength
  have := handleError_sends (.http code) h0 ⟨hw, by simp [hc.started]⟩ hc.started hg
  rw [hd]
  unfold handleRequest finish routerEnd
  simp only [Prog.run]
  generalize handleError false (.http code) c = y at this
  obtain ⟨r2, c2⟩ := y
  obtain ⟨h7, h8⟩ := this
  simp only at h7 h8
  subst h8
  simpa [errorCode] using h7

/-- C37 is false for a request with an invalid Content-Length that is refused before the
handler looks at it: no status is sent at all, for example for an unknown path. -/
theorem C37_counterexample_no_status :
    dispatch [] "GET".toList "/nothing".toList = .raise (.http 404) ∧
    (handleRequest false (dispatch [] "GET".toList "/nothing".toList)
      { req := { header := some "12a".toList }, rest := [] }).sent = [] ∧
    (handleRequest false (dispatch [] "GET".toList "/nothing".toList)
      { req := { header := some "12a".toList }, rest := [] }).closing = true := by
  refine ⟨C37_not_found _ _ _ (.inl rfl) (by simp), by decide +kernel, by decide +kernel⟩

/-- The handler that a route table selects for a path: the resource and the arguments. -/
def resourceFor (ps : List ((Str → Option (List Str)) × Resource)) (path : Str) :
    Option (Resource × List Str) :=
  ps.findSome? fun (p, r) => (p path).map fun g => (r, g)

/-- C37: the resources of the images services, for every ticket id without `/` and
newline: the image, its extents, its checksum and the checksum algorithms. -/
theorem C37_image_resources (ps : List ((Str → Option (List Str)) × Resource))
    (hps : ps = remotePatterns ∨ ps = localPatterns) (id : Str) (h1 : '/' ∉ id) (h2 : '\n' ∉ id) :
    resourceFor ps ("/images/".toList ++ id) = some (.images, [id]) ∧
    resourceFor ps ("/images/".toList ++ id ++ "/extents".toList) = some (.extents, [id]) ∧
    resourceFor ps ("/images/".toList ++ id ++ "/checksum".toList) = some (.checksum, [id]) ∧
    resourceFor ps ("/images/".toList ++ id ++ "/checksum/algorithms".toList)
      = some (.algorithms, [id]) := by
  have e1 : greedyUntil "/extents".toList "/extents".toList = some [] := by decide +kernel
  have e2 : greedyUntil "/extents".toList "/checksum".toList = none := by decide +kernel
  have e3 : greedyUntil "/extents".toList "/checksum/algorithms".toList = none := by
    decide +kernel
  have e4 : greedyUntil "/checksum/algorithms".toList "/checksum".toList = none := by
    decide +kernel
  have e5 : greedyUntil "/checksum/algorithms".toList "/checksum/algorithms".toList = some [] := by
    decide +kernel
  have e6 : greedyUntil "/checksum".toList "/checksum".toList = some [] := by decide +kernel
  have key : ∀ suf t : String, suf.toList.head? = some '/' →
      matchAround "/images/" suf ("/images/".toList ++ (id ++ t.toList))
        = (greedyUntil suf.toList t.toList).map fun g => [id ++ g] := by
    intro suf t hs
    rw [matchAround, dropLit_append]
    simp only
    rw [greedyUntil_append hs id _ h1 h2]
    cases greedyUntil suf.toList t.toList <;> simp
  have key0 : ∀ suf : String, suf.toList.head? = some '/' →
      matchAround "/images/" suf ("/images/".toList ++ id) = none := by
    intro suf hs
    have h := key suf "" hs
    have e0 : id ++ "".toList = id := by simp
    rw [e0] at h
    rw [h]
    have : greedyUntil suf.toList "".toList = none := by
      have hne : suf.toList ≠ [] := by intro h; simp [h] at hs
      simp [greedyUntil, hne]
    rw [this]; rfl
  have all : matchAround "/images/" "" ("/images/".toList ++ id) = some [id] := by
    rw [matchAround, dropLit_append]
    simp only
    have : "".toList = ([] : Str) := rfl
    rw [this, greedyUntil_all id h2]
    rfl
  have a1 : ("/extents".toList : Str).head? = some '/' := by decide +kernel
  have a2 : ("/checksum".toList : Str).head? = some '/' := by decide +kernel
  have a3 : ("/checksum/algorithms".toList : Str).head? = some '/' := by decide +kernel
  have hps' : ∃ more, ps = [(matchAround "/images/" "/extents", .extents),
      (matchAround "/images/" "/checksum/algorithms", .algorithms),
      (matchAround "/images/" "/checksum", .checksum),
      (matchAround "/images/" "", .images)] ++ more := by
    rcases hps with rfl | rfl
    · exact ⟨[(matchLit "/info/", .info)], rfl⟩
    · exact ⟨[], rfl⟩
  obtain ⟨more, rfl⟩ := hps'
  simp only [List.append_assoc]
  refine ⟨?_, ?_, ?_, ?_⟩
  · simp only [resourceFor, List.cons_append, List.findSome?, key0 _ a1, key0 _ a3, key0 _ a2,
      all, Option.map_none, Option.map_some]
  · simp only [resourceFor, List.cons_append, List.findSome?, key _ _ a1, e1, Option.map_some,
      List.append_nil]
  · simp only [resourceFor, List.cons_append, List.findSome?, key _ _ a1, key _ _ a3,
      key _ _ a2, e2, e4, e6, Option.map_some, Option.map_none, List.append_nil]
  · simp only [resourceFor, List.cons_append, List.findSome?, key _ _ a1, key _ _ a3,
      e3, e5, Option.map_some, Option.map_none, List.append_nil]

example : '/' ∉ "2f9c3a-ticket".toList ∧ '\n' ∉ "2f9c3a-ticket".toList := by decide +kernel

/-- C37: the table given to the router selects by `resourceFor`. -/
theorem C37_table_dispatch (ps : List ((Str → Option (List Str)) × Resource))
    (h : Resource → Str → List Str → Prog) (method path : Str) (hm : method ∈ allowedMethods) :
    dispatch (routesOf ps h) method path =
      match resourceFor ps path with
      | none => .raise (.http 404)
      | some (r, g) =>
        if method ∈ (resourceMethods r).map String.toList then h r method g
        else .raise (.http 405) := by
  rw [dispatch, if_pos hm]
  induction ps with
  | nil => rfl
  | cons q qs ih =>
    obtain ⟨p, r⟩ := q
    simp only [routesOf, List.map_cons, findRoute, resourceFor, List.findSome?] at ih ⊢
    cases hp : p path with
    | none => simpa [resourceFor] using ih
    | some g =>
      simp only [Option.map_some]
      split <;> simp_all

/-- What can be done with a resource: images are downloaded, uploaded, changed (zero, flush) and described; tickets are shown, added, changed and removed;
the profiler is shown and controlled; everything else is only shown. -/
def Offers (r : Resource) (m : Str) : Prop :=
  m = "GET".toList ∨ (r = .images ∧ (m = "PUT".toList ∨ m = "PATCH".toList ∨ m = "OPTIONS".toList)) ∨
    (r = .tickets ∧ (m = "PUT".toList ∨ m = "PATCH".toList ∨ m = "DELETE".toList)) ∨ (r = .profile ∧ m = "POST".toList)

theorem mem_resourceMethods (r : Resource) (m : Str) : m ∈ (resourceMethods r).map String.toList ↔ Offers r m := by
  cases r <;> simp [resourceMethods, Offers] <;> grind

/-- C37: a request is handled by the handler of the resource if it offers the method, with the groups of the path; other methods are refused. -/
theorem C37_methods (ps : List ((Str → Option (List Str)) × Resource)) (h : Resource → Str → List Str → Prog) (method path : Str) (r : Resource)
    (g : List Str) (hp : resourceFor ps path = some (r, g)) :
    (Offers r method → dispatch (routesOf ps h) method path = h r method g) ∧
      (¬ Offers r method → dispatch (routesOf ps h) method path = .raise (.http 405)) := by
  have key : IsMethod method → dispatch (routesOf ps h) method path =
      if method ∈ (resourceMethods r).map String.toList then h r method g else .raise (.http 405) := fun hm => by
    rw [C37_table_dispatch ps h method path ((mem_allowedMethods _).mpr hm), hp]
  constructor
  · intro ho
    rw [key (by unfold Offers at ho; unfold IsMethod; grind), if_pos ((mem_resourceMethods r method).mpr ho)]
  · intro ho
    by_cases hm : IsMethod method
    · rw [key hm, if_neg fun hc => ho ((mem_resourceMethods r method).mp hc)]
    · rw [dispatch, if_neg (fun h => hm ((mem_allowedMethods _).mp h))]

example : Offers .images "PATCH".toList ∧ ¬ Offers .info "PUT".toList := by
  refine ⟨.inr (.inl ⟨rfl, .inr (.inl rfl)⟩), ?_⟩
  simp [Offers]

end Imageio.Props
