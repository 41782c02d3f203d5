import Verif.Lemmas.AuthMore
import Verif.Lemmas.AuthProgress
import Verif.Lemmas.AuthHistory
/-!
C01, C03 - C07, C39, C47, C48, C52: the authorizer, for all interleavings of all threads.
-/
namespace Imageio.Props
open Imageio.Auth Imageio.Spec Imageio.Measure

/-! Executions used in the examples. -/
namespace Ex

def cfg : Config := ⟨10, 60⟩
def attrs : Attrs := ⟨"t", 1000, ["read"], 300⟩
def rw : Attrs := ⟨"u", 1000, ["write"], 300⟩

/-- A request of connection 1 that starts an operation at offset 100. -/
def start (c : Nat) (id op : String) : List Act := [.request c id op, .getContext c, .addContext c, .startOp c 100]

/-- Two overlapping transfers, one of them still running. -/
def progress : List Act :=
  .addTicket attrs :: start 1 "t" "read" ++ [.io 1 50, .check 1, .io 1 50, .endOp 1, .removeOp 1, .touch 1] ++
    start 2 "t" "read" ++ [.io 2 150, .check 2]

/-- An operation is canceled by a removal that waits for it. -/
def canceled : List Act :=
  .addTicket attrs :: start 1 "t" "read" ++ [.io 1 50, .check 1, .delStart 7 "t", .delCancel 7]

/-- Then the operation ends and the removal succeeds. -/
def removed : List Act := canceled ++ [.io 1 50, .check 1, .removeOp 1, .delWake 7, .delClose 7, .delErase 7]

/-- The removal gives up. -/
def timedOut : List Act := canceled ++ [.delTimeout 7]

/-- The reported progress is `v`. -/
def reports (t : Ticket) (v : Int) : Bool :=
  match t.transferred with
  | some (.ok x) => x = v
  | _ => false

end Ex

/-! ### C01 -/

/-- **C01**: in every reachable state, the `transferred` value of a ticket granting one
permission is the number of distinct bytes read or written with the ticket so far, by
completed and by running operations.  `N` is any bound of the offsets. (A canceled ticket
forgets the operations that end after the cancel, see `C39_canceled_progress_goes_back`.) -/
theorem C01_transferred_is_size_of_union {cfg : Config} {s : State} (h : Reachable cfg s) {r : Nat} {t : Ticket}
    (ht : s.tickets r = some t) (h1 : t.attrs.ops.length = 1) (hc : t.canceled = false) (N : Nat)
    (hN : ∀ p ∈ ioRanges r s.log, p.2 ≤ N) :
    t.transferred = some (.ok (countCovered N (ioRanges r s.log) : Int)) := by
  refine transferred_eq (h.prog.ok r t ht h1 hc) h1 N ?_
  rintro x ⟨p, hp, _, h2⟩
  have := hN p hp
  omega

/-- The hypotheses hold in a state with completed and ongoing operations, and the value is 150. -/
example : (run Ex.cfg init Ex.progress).map (fun s => (s.tickets 0).map fun t =>
    (t.attrs.ops.length, t.canceled, t.ongoing.length)) = some (some (1, false, 1)) := by decide +kernel
example : (run Ex.cfg init Ex.progress).map (fun s => ioRanges 0 s.log) = some [(100, 150), (150, 200), (100, 250)] := by decide +kernel
example : countCovered 300 [(100, 150), (150, 200), (100, 250)] = 150 := by decide +kernel

/-! ### C03 -/

/-- **C03**: the decision. -/
theorem C03_authorize_iff (cfg : Config) (s : State) (id op : String) (r : Nat) :
    authorize cfg s id op = .ok r ↔
      s.store id = some r ∧ ∃ t, s.tickets r = some t ∧ t.canceled = false ∧
        (s.now : Int) < t.expires * cfg.ticksPerSec ∧ Allows t.attrs.ops op := by
  have hmay : ∀ t : Ticket, t.may op = true ↔ Allows t.attrs.ops op := by
    intro t
    unfold Ticket.may Allows
    split <;> simp_all
  unfold authorize
  cases hs : s.store id with
  | none => simp
  | some r' =>
    cases ht : s.tickets r' with
    | none =>
      constructor
      · intro h; simp [ht] at h
      · rintro ⟨h1, t, h2, _⟩; cases h1; rw [ht] at h2; cases h2
    | some t =>
      have hm := hmay t
      constructor
      · intro h
        simp only [ht] at h
        split at h
        · cases h
        · split at h
          · cases h
          · split at h
            · cases h
            · rename_i h1 h2 h3
              cases h
              exact ⟨rfl, t, ht, by simpa using h1, by omega, hm.mp (by simpa using h3)⟩
      · rintro ⟨h1, t', h2, h3, h4, h5⟩
        cases h1
        rw [ht] at h2; cases h2
        have h6 := hm.mpr h5
        simp only [ht, h3, h6]
        rw [if_neg (by simp), if_neg (by omega)]
        simp

example : Allows ["write"] "read" ∧ ¬ Allows ["read"] "write" ∧ ¬ Allows ["zero"] "read" := by decide
example : (run Ex.cfg init [.addTicket Ex.rw]).map (fun s => ((authorize Ex.cfg s "u" "read").toOption, (authorize Ex.cfg s "u" "zero").toOption,
    (authorize Ex.cfg s "x" "read").toOption)) = some (some 0, none, none) := by decide +kernel

/-- **C03**: a refused request changes nothing but reporting the refusal. -/
theorem C03_refused_has_no_effect {cfg : Config} {s s' : State} {c : Nat} {id op : String}
    (hno : ∀ r, authorize cfg s id op ≠ .ok r) (h : step cfg s (.request c id op) = some s') :
    s'.tickets = s.tickets ∧ s'.store = s.store ∧ s'.ctxs = s.ctxs ∧ s'.conns = s.conns ∧ s'.dels = s.dels ∧
      s'.log = s.log ++ [.refused c] := by
  cases Step.of_step h with
  | refused _ _ _ e hc hp ha => exact ⟨rfl, rfl, rfl, rfl, rfl, rfl⟩
  | request _ _ _ r hc hp ha => exact absurd ha (hno r)

example : (run Ex.cfg init [.addTicket Ex.attrs]).map (fun s => ((authorize Ex.cfg s "t" "write").toOption,
    (step Ex.cfg s (.request 1 "t" "write")).map (·.log))) = some (none, some [.refused 1]) := by decide +kernel

/-- **C03**: an operation only ever starts, transfers bytes or ends on a ticket object for
which a request was authorized before. -/
theorem C03_no_use_without_authorization {cfg : Config} {as : List Act} {s : State} (h : run cfg init as = some s)
    {r : Nat} {e : Event} (he : e ∈ s.log) (hu : e.uses r) : ∃ c, AuthorizedBy cfg as c r :=
  (histInv h).2 r e he hu

example : (run Ex.cfg init Ex.progress).map (fun s => decide (Event.io 0 100 150 ∈ s.log)) = some true := by decide +kernel

/-! ### C04 -/

/-- **C04**: when the removal waits for running operations (`remove_timeout` is not 0), once
`DELETE` answered with success for ticket object `r`, no connection runs an operation of
it, and it never starts an operation nor transfers a byte again (the statement holds in every
later state). -/
theorem C04_removed_ticket_is_dead {cfg : Config} (hc : cfg.removeTimeout ≠ 0) {s : State} (h : Reachable cfg s)
    {id : String} {r : Nat} {pre post : List Event} (hl : s.log = pre ++ .deleted id (.ok (some r)) :: post) :
    (∀ e ∈ post, ¬ e.uses r) ∧ ∀ c i k, (s.conns c).pc.busy ≠ some (r, i, k) := by
  obtain ⟨h1, h2⟩ := deleted_dead hc h id r pre post hl
  exact ⟨h2, fun c i k hb => busy_ongoing h.inv hb h1⟩

/-- **C04**: the answer is given after the ticket was removed from the store. -/
theorem C04_not_listed_when_answered {cfg : Config} (hc : cfg.removeTimeout ≠ 0) {s s' : State} {a : Act} (h : Reachable cfg s)
    (hs : step cfg s a = some s') {id : String} {x : Option Nat} (hl : s'.log = s.log ++ [.deleted id (.ok x)]) : s'.store id = none := by
  have hn := (Step.of_step hs).log h.inv
  cases x with
  | some r =>
    obtain ⟨evs, h1, _, h3⟩ := hn
    have : evs = [.deleted id (.ok (some r))] := by
      rw [hl] at h1; exact (List.append_cancel_left h1).symm
    exact ((h3 id r (by simp [this])).2 hc).2
  | none =>
    cases Step.of_step hs with
    | delStartNone d id' h0 hd =>
      have := List.append_cancel_left hl
      simp only [List.cons.injEq, Event.deleted.injEq, and_true] at this
      rw [← this]; exact h0
    | delCancelUnused d id r t hd ht ho =>
      have hl' : (s.closeAll t).log = _ := hl
      rw [(closeAll_fields t s).2.2.2.2.2.2.2.2] at hl'
      have h := List.append_cancel_left hl'
      cases hcn : t.connections <;> simp [hcn] at h
    | delClose d id r t hd ht =>
      have hl' : (s.closeAll t).log = _ := hl
      rw [(closeAll_fields t s).2.2.2.2.2.2.2.2] at hl'
      have h := List.append_cancel_left hl'
      cases hcn : t.connections <;> simp [hcn] at h
    | _ => simp [State.goto, State.event, State.setTicket, State.setDel, State.closeCtx] at hl

example : (run Ex.cfg init Ex.removed).map (fun s => (decide (Event.deleted "t" (.ok (some 0)) ∈ s.log), s.store "t")) =
    some (true, none) := by decide +kernel

/-- With `remove_timeout` set to 0 the claim is false: `DELETE` answers with success, and the operation
goes on (as documented in `Ticket.cancel`). -/
theorem C04_counterexample_zero_timeout :
    ∃ s, Reachable ⟨10, 0⟩ s ∧ ∃ pre post, s.log = pre ++ .deleted "t" (.ok (some 0)) :: post ∧ .io 0 150 50 ∈ post := by
  refine ⟨(run ⟨10, 0⟩ init (Ex.canceled ++ [.io 1 50])).get (by decide +kernel), ⟨Ex.canceled ++ [.io 1 50], by simp⟩,
    [.ctxOpened 1 0 0, .opStart 0, .io 0 100 50], [.io 0 150 50], by decide +kernel, by decide +kernel⟩

/-- For ticket *ids* the claim is false: adding a ticket with an existing id replaces the ticket
without stopping its operations, and removing the new ticket does not stop them either. -/
theorem C04_counterexample_replaced_ticket :
    ∃ s, Reachable Ex.cfg s ∧ ∃ pre post, s.log = pre ++ .deleted "t" (.ok (some 1)) :: post ∧ .io 0 150 50 ∈ post := by
  let acts : List Act := .addTicket Ex.attrs :: Ex.start 1 "t" "read" ++ [.io 1 50, .check 1, .addTicket Ex.attrs,
    .delStart 7 "t", .delCancel 7, .delErase 7, .io 1 50]
  refine ⟨(run Ex.cfg init acts).get (by decide +kernel), ⟨acts, by simp⟩,
    [.ctxOpened 1 0 0, .opStart 0, .io 0 100 50], [.io 0 150 50], by decide +kernel, by decide +kernel⟩

/-- Also removing all tickets (`DELETE /tickets/`) does not stop the running operations. -/
theorem C04_counterexample_clear :
    ∃ s s', Reachable Ex.cfg s ∧ s.store "t" = none ∧ step Ex.cfg s (.io 1 50) = some s' ∧ s'.log = s.log ++ [.io 0 150 50] := by
  let acts : List Act := .addTicket Ex.attrs :: Ex.start 1 "t" "read" ++ [.io 1 50, .check 1, .clear]
  refine ⟨(run Ex.cfg init acts).get (by decide +kernel), (run Ex.cfg init (acts ++ [.io 1 50])).get (by decide +kernel),
    ⟨acts, by simp⟩, by decide +kernel, ?_, by decide +kernel⟩
  have h : run Ex.cfg init (acts ++ [.io 1 50]) = (run Ex.cfg init acts).bind fun s => step Ex.cfg s (.io 1 50) := by
    rw [run_append]
    cases run Ex.cfg init acts with
    | none => rfl
    | some s => simp only [run, Option.bind_some]; cases step Ex.cfg s (.io 1 50) <;> rfl
  obtain ⟨s, hs⟩ := Option.isSome_iff_exists.mp (show (run Ex.cfg init acts).isSome = true by decide +kernel)
  simp only [h, hs, Option.bind_some, Option.get_some, Option.some_get]

/-! ### C05 -/

/-- **C05**: a removal answers with a conflict only if operations are running; the ticket is
canceled, and stays in the store as it was; nothing is closed. -/
theorem C05_timeout_keeps_canceled_ticket {cfg : Config} {s s' : State} {d : Nat} (h : Reachable cfg s)
    (hs : step cfg s (.delTimeout d) = some s') :
    ∃ id r t, s.tickets r = some t ∧ t.attrs.uuid = id ∧ t.canceled = true ∧ t.ongoing ≠ [] ∧
      s'.log = s.log ++ [.deleted id .conflict] ∧ s'.tickets = s.tickets ∧ s'.store = s.store ∧ s'.ctxs = s.ctxs := by
  cases Step.of_step hs with
  | delTimeout _ id r t hd ht hu =>
    obtain ⟨h1, h2⟩ := h.inv.delWaiting d id r t hd ht
    obtain ⟨t', ht', hid⟩ := h.inv.delFound d id r (.inr hd)
    rw [ht] at ht'; cases ht'
    refine ⟨id, r, t, ht, hid, h1, fun h0 => ?_, rfl, rfl, rfl, rfl⟩
    rw [h2 h0] at hu; cases hu

/-- The conflict is the only way to end while operations are running (with a non-zero timeout):
the ticket of every successful answer has no operation, see C04. -/
example : (run Ex.cfg init Ex.timedOut).map (fun s => (s.store "t", (s.tickets 0).map fun t => (t.canceled, t.ongoing.length),
    s.log.getLast?)) = some (some 0, some (true, 1), some (.deleted "t" .conflict)) := by decide +kernel

/-- **C05**, **C06**: no context registered for a ticket is closed while the ticket has operations. -/
theorem C05_nothing_closed_while_running {cfg : Config} {s : State} (h : Reachable cfg s) {r : Nat} {t : Ticket}
    (ht : s.tickets r = some t) (ho : t.ongoing ≠ []) {c k : Nat} (hk : (c, k) ∈ t.connections) : (s.ctxs k).closed = false := by
  cases hc : (s.ctxs k).closed with
  | false => rfl
  | true => exact absurd (h.inv.ctxOpen r t c k ht hk hc).2 ho

/-- **C05**: a retry succeeds as soon as the operations have ended: the steps of a new removal are
possible, and end with a success answer, the ticket not stored, and all its contexts closed. -/
theorem C05_retry_succeeds {cfg : Config} {s : State} {d : Nat} {id : String} {r : Nat} {t : Ticket}
    (hd : s.dels d = .none ∨ ∃ a, s.dels d = .answered a)
    (hst : s.store id = some r) (ht : s.tickets r = some t) (ho : t.ongoing = []) :
    ∃ s', run cfg s [.delStart d id, .delCancel d, .delErase d] = some s' ∧ s'.store id = none ∧
      s'.log.getLast? = some (.deleted id (.ok (some r))) ∧ ∀ c k, (c, k) ∈ t.connections → (s'.ctxs k).closed = true := by
  obtain ⟨f1, f2, f3, f4, f5, f6, f7, f8, f9⟩ := closeAll_fields t (s.setDel d (.found id r))
  have h1 : step cfg s (.delStart d id) = some (s.setDel d (.found id r)) := by
    simp only [step, stepDel]
    rcases hd with hd | ⟨a, hd⟩ <;> simp only [hd, hst]
  have h2 : step cfg (s.setDel d (.found id r)) (.delCancel d) =
      some (((((s.setDel d (.found id r)).closeAll t).setTicket r { t with canceled := true }).setDel d (.erasing id r))) := by
    simp [step, stepDel, State.setDel, ht, ho]
  refine ⟨({ (((s.setDel d (.found id r)).closeAll t).setTicket r { t with canceled := true }).setDel d (.erasing id r) with
      store := upd s.store id none }.event (.deleted id (.ok (some r)))).setDel d (.answered (.ok (some r))), ?_, ?_, ?_, ?_⟩
  · have h3 : ((s.setDel d (.found id r)).closeAll t).store = s.store := f4
    simp only [run, h1, h2]
    simp only [step, stepDel, State.setDel, State.setTicket, upd_same]
    simp only [State.setDel] at h3
    simp only [h3, hst]
  · simp [State.setDel, State.event]
  · simp [State.setDel, State.event]
  · intro c k hk
    exact (closeAll_ctxs t _ k).2.2.2.mpr (.inr ⟨c, hk⟩)

/-- The state after a timeout and the end of the operation. -/
example : (run Ex.cfg init (Ex.timedOut ++ [.io 1 50, .check 1, .removeOp 1])).map (fun s => (s.dels 7, s.store "t",
    (s.tickets 0).map fun t => (t.canceled, t.ongoing.length))) =
    some (.answered .conflict, some 0, some (true, 0)) := by decide +kernel

/-! ### C06 -/

/-- **C06**: after `DELETE` answered with success, every backend ever opened for the ticket is
closed, except one that a connection has just opened and is about to close (it was not
registered, because the ticket is canceled). -/
theorem C06_removed_ticket_released {cfg : Config} (hc : cfg.removeTimeout ≠ 0) {s : State} (h : Reachable cfg s)
    {id : String} {r : Nat} (hm : .deleted id (.ok (some r)) ∈ s.log) {k : Nat} (hk : k < s.nextCtx) (hr : (s.ctxs k).ticket = r) :
    (s.ctxs k).closed = true ∨ (s.conns (s.ctxs k).con).pc = .opened r k := by
  obtain ⟨t, ht, _, _, h3⟩ := deleted_deadClosed hc h id r hm
  cases hcl : (s.ctxs k).closed with
  | true => exact .inl rfl
  | false =>
    right
    rcases h.tracked.known k hk hcl with h1 | ⟨t', ht', h1⟩
    · rw [hr] at h1; exact h1
    · rw [hr, ht] at ht'; cases ht'
      rw [h3 _ _ h1] at hcl; cases hcl

/-- **C06**: a backend opened for a removed ticket is closed by the next step of its connection. -/
theorem C06_late_backend_closed {cfg : Config} (hc : cfg.removeTimeout ≠ 0) {s s' : State} (h : Reachable cfg s)
    {id : String} {r c k : Nat} (hm : .deleted id (.ok (some r)) ∈ s.log) (hp : (s.conns c).pc = .opened r k)
    (hs : step cfg s (.addContext c) = some s') : (s'.ctxs k).closed = true ∧ (s'.conns c).pc = .idle := by
  obtain ⟨t, ht, h1, _, _⟩ := deleted_deadClosed hc h id r hm
  cases Step.of_step hs with
  | addContextRefused _ r' k' t' hp' ht' hc' =>
    rw [hp] at hp'; cases hp'
    exact ⟨by simp [State.goto, State.closeCtx], by simp [State.goto]⟩
  | addContext _ r' k' t' hp' ht' hc' =>
    rw [hp] at hp'; cases hp'
    rw [ht] at ht'; cases ht'
    rw [h1] at hc'; cases hc'

/-- **C06**: the context of a running operation is never closed. -/
theorem C06_not_closed_while_used {cfg : Config} {s : State} (h : Reachable cfg s) {c r i k : Nat}
    (hb : (s.conns c).pc.busy = some (r, i, k)) : (s.ctxs k).closed = false :=
  (h.inv.busy c r i k hb).2.2.2.1

example : (run Ex.cfg init Ex.canceled).map (fun s => ((s.conns 1).pc.busy, (s.ctxs 0).closed)) = some (some (0, 0, 0), false) := by
  decide +kernel
example : (run Ex.cfg init Ex.removed).map (fun s => (s.nextCtx, s.ctxs 0)) = some (1, ⟨1, 0, false, true⟩) := by decide +kernel
/-- A connection that opens a backend while the ticket is removed. -/
example : (run Ex.cfg init [.addTicket Ex.attrs, .request 1 "t" "read", .getContext 1, .delStart 7 "t", .delCancel 7, .delErase 7]).map
    (fun s => ((s.conns 1).pc, s.log)) = some (.opened 0 0, [.ctxOpened 1 0 0, .deleted "t" (.ok (some 0))]) := by decide +kernel

/-- Requests that do not run an operation (`GET .../extents`, `OPTIONS`, and the checks before an
operation starts, `images.py:101`) use the backend without protection: the backend may be closed under them. -/
theorem C06_counterexample_use_outside_operation :
    ∃ s, Reachable Ex.cfg s ∧ (s.conns 1).pc = .ready 0 0 ∧ (s.ctxs 0).closed = true := by
  let acts : List Act := [.addTicket Ex.attrs, .request 1 "t" "read", .getContext 1, .addContext 1,
    .delStart 7 "t", .delCancel 7, .delErase 7]
  exact ⟨(run Ex.cfg init acts).get (by decide +kernel), ⟨acts, by simp⟩, by decide +kernel, by decide +kernel⟩

/-! ### C07 -/

/-- **C07**: a stored ticket that is not canceled and allows the request is usable exactly before its
expiration time. -/
theorem C07_usable_before_expiration {cfg : Config} {s : State} {id op : String} {r : Nat} {t : Ticket}
    (hst : s.store id = some r) (ht : s.tickets r = some t) (hc : t.canceled = false) (ha : Allows t.attrs.ops op) :
    authorize cfg s id op = .ok r ↔ (s.now : Int) < t.expires * cfg.ticksPerSec := by
  rw [C03_authorize_iff]
  constructor
  · rintro ⟨_, t', ht', _, h, _⟩
    rw [ht] at ht'; cases ht'; exact h
  · intro h
    exact ⟨hst, t, ht, hc, h, ha⟩

/-- **C07**: only three things set the expiration time: adding the ticket, the end of an operation
(or `OPTIONS`), and extending. -/
theorem C07_expiration_changes {cfg : Config} {s s' : State} {a : Act} (h : Reachable cfg s) (hs : step cfg s a = some s')
    {r : Nat} {t t' : Ticket} (ht : s.tickets r = some t) (ht' : s'.tickets r = some t') :
    t'.expires = t.expires ∨
    (∃ c, a = .touch c ∧ (s.conns c).pc = .touching r ∧ t'.expires = seconds cfg s + t.attrs.timeout) ∨
    (∃ id n, a = .extend id n ∧ s.store id = some r ∧ t'.expires = seconds cfg s + n) :=
  (Step.of_step hs).expires h.inv ht ht'

/-- **C07**: after the end of an operation that was not canceled the connection touches the ticket before
doing anything else, and this moves the expiration to now + timeout. -/
theorem C07_completed_operation_touches {cfg : Config} {s s' : State} {c r i k : Nat} {t : Ticket}
    (hp : (s.conns c).pc = .ended r i k) (ht : s.tickets r = some t) (hc : t.canceled = false)
    (hs : step cfg s (.removeOp c) = some s') : (s'.conns c).pc = .touching r := by
  cases Step.of_step hs with
  | removeOp _ r' i' k' t' op hp' ht' ho =>
    rw [hp] at hp'; cases hp'
    rw [ht] at ht'; cases ht'
    have : (t.removeOperation op).1 = false := by rw [(removeOperation_fields t op).2.2.2.2.2.1, hc]
    simp [State.goto, this]

theorem C07_touch_moves_expiration {cfg : Config} {s s' : State} {c r : Nat} {t : Ticket}
    (hp : (s.conns c).pc = .touching r) (ht : s.tickets r = some t) (hs : step cfg s (.touch c) = some s') :
    ∃ t', s'.tickets r = some t' ∧ t'.expires = seconds cfg s + t.attrs.timeout ∧ (s'.conns c).pc = .idle := by
  cases Step.of_step hs with
  | touch _ r' t' hp' ht' =>
    rw [hp] at hp'; cases hp'
    rw [ht] at ht'; cases ht'
    exact ⟨t.touch (seconds cfg s), by simp [State.goto, State.setTicket], rfl, by simp [State.goto]⟩

theorem lt_seconds {cfg : Config} {s : State} (h0 : 0 < cfg.ticksPerSec) {n : Int} (hn : 0 < n) :
    (s.now : Int) < (seconds cfg s + n) * cfg.ticksPerSec := by
  unfold seconds
  have h1 : s.now < (s.now / cfg.ticksPerSec + 1) * cfg.ticksPerSec := by
    have := Nat.lt_mul_div_succ s.now h0
    rw [Nat.mul_comm] at this
    exact this
  have h2 : (s.now : Int) < ((s.now / cfg.ticksPerSec : Nat) + 1) * (cfg.ticksPerSec : Int) := by exact_mod_cast h1
  have h3 : (((s.now / cfg.ticksPerSec : Nat) : Int) + 1) * (cfg.ticksPerSec : Int) ≤
      (((s.now / cfg.ticksPerSec : Nat) : Int) + n) * (cfg.ticksPerSec : Int) :=
    Int.mul_le_mul_of_nonneg_right (by omega) (by omega)
  omega

/-- **C07**: extending a ticket, expired or not, by a positive time makes it usable. -/
theorem C07_extend_makes_usable {cfg : Config} (h0 : 0 < cfg.ticksPerSec) {s s' : State} {id op : String} {n r : Nat} {t : Ticket}
    (hst : s.store id = some r) (ht : s.tickets r = some t) (hc : t.canceled = false) (ha : Allows t.attrs.ops op)
    (hn : 0 < n) (hs : step cfg s (.extend id n) = some s') : authorize cfg s' id op = .ok r := by
  cases Step.of_step hs with
  | extendNone _ _ h => rw [hst] at h; cases h
  | extend _ _ r' t' h ht' =>
    rw [hst] at h; cases h
    rw [ht] at ht'; cases ht'
    rw [C03_authorize_iff]
    refine ⟨hst, t.extend (seconds cfg s) n, by simp [State.setTicket], hc, ?_, ha⟩
    exact lt_seconds h0 (by omega)

/-- An expired ticket, extended. -/
example : (run Ex.cfg init [.addTicket Ex.attrs, .tick 3000]).map (fun s => ((authorize Ex.cfg s "t" "read").toOption,
    (step Ex.cfg s (.extend "t" 10)).map fun s' => (authorize Ex.cfg s' "t" "read").toOption)) = some (none, some (some 0)) := by
  decide +kernel

/-- **C07**: a new ticket with a positive timeout is usable. -/
theorem C07_new_ticket_usable {cfg : Config} (h0 : 0 < cfg.ticksPerSec) {s s' : State} {a : Attrs} {op : String} (ha : Allows a.ops op)
    (hn : 0 < a.timeout) (hs : step cfg s (.addTicket a) = some s') : authorize cfg s' a.uuid op = .ok s.nextTicket := by
  cases hs
  rw [C03_authorize_iff]
  exact ⟨upd_same _ _ _, _, upd_same _ _ _, rfl, lt_seconds h0 hn, ha⟩

/-- The step may change the expiration of a ticket. -/
def Renews : Act → Prop
  | .touch _ => True
  | .extend _ _ => True
  | _ => False

/-- **C07**: a ticket that was not used nor extended is refused after its expiration time, whatever
else happened. -/
theorem C07_unused_ticket_refused {cfg : Config} {s s' : State} {as : List Act} (h : Reachable cfg s) (hs : run cfg s as = some s')
    (hno : ∀ a ∈ as, ¬ Renews a) {r : Nat} {t : Ticket} (ht : s.tickets r = some t) (hn : t.expires * cfg.ticksPerSec ≤ s'.now)
    (id op : String) : authorize cfg s' id op ≠ .ok r := by
  suffices hx : ∃ t', s'.tickets r = some t' ∧ t'.expires = t.expires by
    obtain ⟨t', ht', e⟩ := hx
    intro hok
    obtain ⟨_, t'', ht'', _, h4, _⟩ := (C03_authorize_iff cfg s' id op r).mp hok
    rw [ht'] at ht''; cases ht''
    rw [e] at h4
    omega
  clear hn
  induction as generalizing s t with
  | nil => cases hs; exact ⟨t, ht, rfl⟩
  | cons a as ih =>
    simp only [run] at hs
    split at hs
    · cases hs
    · rename_i s1 h1
      obtain ⟨t1, ht1, _⟩ := (Step.of_step h1).evolve h.inv ht
      have hr1 : Reachable cfg s1 := reachable_run (as := [a]) h (by simp [run, h1])
      obtain ⟨t', ht', e⟩ := ih hr1 hs (fun b hb => hno b (by simp [hb])) ht1
      refine ⟨t', ht', e.trans ?_⟩
      rcases (Step.of_step h1).expires h.inv ht ht1 with e1 | ⟨c, rfl, _⟩ | ⟨id, n, rfl, _⟩
      · exact e1
      · exact absurd trivial (hno (.touch c) (by simp))
      · exact absurd trivial (hno (.extend id n) (by simp))

example : (run Ex.cfg init [.addTicket Ex.attrs]).map (fun s => ((s.tickets 0).map (·.expires), s.now)) = some (some 300, 0) := by
  decide +kernel
example : (run Ex.cfg init ([.addTicket Ex.attrs] ++ [.request 1 "t" "read", .tick 3000])).isSome = true := by decide +kernel

/-- An operation ending after the ticket was extended by a long time makes the ticket expire earlier than
the extension promised. -/
theorem C07_counterexample_operation_undoes_extension :
    ∃ s s', Reachable Ex.cfg s ∧ run Ex.cfg s [.touch 1] = some s' ∧
      (s.tickets 0).map (·.expires) = some 5000 ∧ (s'.tickets 0).map (·.expires) = some 300 := by
  let acts : List Act := .addTicket Ex.attrs :: Ex.start 1 "t" "read" ++ [.extend "t" 5000, .endOp 1, .removeOp 1]
  have hsome' : (run Ex.cfg init acts).isSome = true := by decide +kernel
  refine ⟨(run Ex.cfg init acts).get (by decide +kernel), (run Ex.cfg init (acts ++ [.touch 1])).get (by decide +kernel),
    ⟨acts, by simp⟩, ?_, by decide +kernel, by decide +kernel⟩
  obtain ⟨s, hs⟩ := Option.isSome_iff_exists.mp hsome'
  have : run Ex.cfg init (acts ++ [.touch 1]) = run Ex.cfg s [.touch 1] := by rw [run_append, hs]
  simp [this, hs]

/-! ### C39 -/

theorem countCovered_mono (N : Nat) (a b : List (Int × Int)) : countCovered N a ≤ countCovered N (a ++ b) := by
  unfold countCovered
  rw [← List.countP_eq_length_filter, ← List.countP_eq_length_filter]
  refine List.countP_mono_left fun x _ h => ?_
  simp only [decide_eq_true_eq] at h ⊢
  exact (covered_append a b x).mpr (.inl h)

theorem ioRanges_bound (r : Nat) (log : List Event) : ∃ N : Nat, ∀ p ∈ ioRanges r log, p.2 ≤ N := by
  induction log with
  | nil => exact ⟨0, by simp [ioRanges]⟩
  | cons e log ih =>
    obtain ⟨N, hN⟩ := ih
    cases hr : e.range r with
    | none => exact ⟨N, by simpa [ioRanges, hr] using hN⟩
    | some q =>
      refine ⟨max N q.2.toNat, ?_⟩
      intro p hp
      simp only [ioRanges, List.filterMap_cons, hr, List.mem_cons] at hp
      rcases hp with rfl | hp
      · omega
      · have := hN p hp
        omega

/-- **C39**, for a ticket that is not canceled: the reported progress never goes back.  Missing: a canceled
ticket which is still listed, where the claim is false
(`C39_canceled_progress_goes_back`). -/
theorem C39_progress_monotone_partial {cfg : Config} {s s' : State} {as : List Act} (h : Reachable cfg s) (hs : run cfg s as = some s')
    {r : Nat} {t t' : Ticket} (ht : s.tickets r = some t) (ht' : s'.tickets r = some t') (h1 : t.attrs.ops.length = 1)
    (hc : t'.canceled = false) :
    ∃ v v', t.transferred = some (.ok v) ∧ t'.transferred = some (.ok v') ∧ v ≤ v' := by
  obtain ⟨t1, ht1, e⟩ := run_evolve h.inv hs ht
  rw [ht'] at ht1; cases ht1
  obtain ⟨evs, hl⟩ := run_log h.inv hs
  obtain ⟨N, hN⟩ := ioRanges_bound r s'.log
  have hc0 : t.canceled = false := by
    cases hcc : t.canceled with
    | false => rfl
    | true => rw [e.canceled hcc] at hc; cases hc
  refine ⟨_, _, C01_transferred_is_size_of_union h ht h1 hc0 N ?_,
    C01_transferred_is_size_of_union (reachable_run h hs) ht' (by rw [e.attrs]; exact h1) hc N hN, ?_⟩
  · intro p hp
    apply hN
    rw [hl, ioRanges_append]
    simp [hp]
  · rw [hl, ioRanges_append]
    exact_mod_cast countCovered_mono N _ _

/-- **C39**: the progress does not exceed the ticket size when all operations stay within it. -/
theorem C39_progress_bounded {cfg : Config} {s : State} (h : Reachable cfg s) {r : Nat} {t : Ticket}
    (ht : s.tickets r = some t) (h1 : t.attrs.ops.length = 1) (hc : t.canceled = false)
    (hN : ∀ p ∈ ioRanges r s.log, p.2 ≤ t.attrs.size) :
    ∃ v : Nat, t.transferred = some (.ok (v : Int)) ∧ v ≤ t.attrs.size := by
  refine ⟨_, C01_transferred_is_size_of_union h ht h1 hc _ hN, ?_⟩
  unfold countCovered
  exact Nat.le_trans (List.length_filter_le _ _) (by simp)

example : (run Ex.cfg init Ex.progress).map (fun s => ((s.tickets 0).map fun t => (t.attrs.size, t.canceled, t.attrs.ops.length),
    (ioRanges 0 s.log).all (fun p => p.2 ≤ 1000))) = some (some (1000, false, 1), true) := by decide +kernel

/-- While a canceled ticket is listed its progress goes back when its operations end: 50 bytes were transferred,
then the report is 0. -/
theorem C39_canceled_progress_goes_back :
    ∃ s s', Reachable Ex.cfg s ∧ run Ex.cfg s [.check 1, .removeOp 1] = some s' ∧ s.store "t" = some 0 ∧ s'.store "t" = some 0 ∧
      (s.tickets 0).map (fun t => Ex.reports t 100) = some true ∧
      (s'.tickets 0).map (fun t => Ex.reports t 0) = some true := by
  let acts : List Act := Ex.timedOut ++ [.io 1 50]
  let tail : List Act := [.check 1, .removeOp 1]
  have hsome' : (run Ex.cfg init acts).isSome = true := by decide +kernel
  refine ⟨(run Ex.cfg init acts).get (by decide +kernel), (run Ex.cfg init (acts ++ tail)).get (by decide +kernel),
    ⟨acts, by simp⟩, ?_, by decide +kernel, by decide +kernel, by decide +kernel, by decide +kernel⟩
  obtain ⟨s, hs⟩ := Option.isSome_iff_exists.mp hsome'
  have : run Ex.cfg init (acts ++ tail) = run Ex.cfg s tail := by rw [run_append, hs]
  simp [this, hs]
  rfl

/-! ### C47 -/

/-- The step transfers a chunk on connection `c`. -/
def IsIo (c : Nat) : Act → Bool
  | .io c' _ => c' = c
  | _ => false

/-- **C47**: when a ticket is canceled, a running operation of it performs at most one more chunk of I/O:
none if it is between the I/O and the check of the cancel flag. -/
theorem C47_at_most_one_more_chunk {cfg : Config} {s s' : State} {as : List Act} (h : Reachable cfg s) (hs : run cfg s as = some s')
    {c r i k : Nat} (hb : (s.conns c).pc.busy = some (r, i, k)) {t : Ticket} (ht : s.tickets r = some t) (hc : t.canceled = true)
    (hno : .removeOp c ∉ as) :
    as.countP (IsIo c) ≤ if (s.conns c).pc = .running r i k then 1 else 0 := by
  induction as generalizing s t with
  | nil => simp
  | cons a as ih =>
    simp only [run] at hs
    split at hs
    · cases hs
    · rename_i s1 h1
      have hst := Step.of_step h1
      obtain ⟨t1, ht1, e1⟩ := hst.evolve h.inv ht
      have hr1 : Reachable cfg s1 := reachable_run (as := [a]) h (by simp [run, h1])
      have hall := h.opsCanceled r t
      have hne : a ≠ .removeOp c := fun e => hno (by simp [e])
      have hbusy := h.inv.busy c r i k hb
      have hidle : (s.conns c).pc ≠ .idle := fun e => by rw [e] at hb; cases hb
      -- what the step does to this connection
      have key : (s1.conns c).pc.busy = some (r, i, k) ∧
          (if IsIo c a then 1 else 0) + (if (s1.conns c).pc = .running r i k then 1 else 0) ≤
            (if (s.conns c).pc = .running r i k then 1 else 0) := by
        have hop : ∀ op, t.getOp i = some op → op.canceled = true := fun op ho => hall op ht hc (getOp_some ho).1
        cases hst with
        | delCancelUnused d id r0 t0 hd ht0 ho =>
          have : ((((s.closeAll t0).setTicket r0 { t0 with canceled := true }).setDel d (.erasing id r0))).conns = s.conns :=
            (closeAll_fields t0 s).2.2.2.2.2.1
          rw [this]
          exact ⟨hb, by simp [IsIo]⟩
        | delClose d id r0 t0 hd ht0 =>
          have : ((s.closeAll t0).setDel d (.erasing id r0)).conns = s.conns := (closeAll_fields t0 s).2.2.2.2.2.1
          rw [this]
          exact ⟨hb, by simp [IsIo]⟩
        | _ =>
          simp only [State.goto, State.event, State.setTicket, State.setDel, State.closeCtx, IsIo] at *
          grind [upd, Pc.busy]
      have := ih hr1 hs key.1 ht1 (e1.canceled hc) (fun hm => hno (by simp [hm]))
      rw [List.countP_cons]
      have hk := key.2
      omega

example : (run Ex.cfg init Ex.canceled).map (fun s => ((s.conns 1).pc, (s.tickets 0).map (·.canceled))) =
    some (.running 0 0 0, some true) := by decide +kernel
example : (run Ex.cfg init (Ex.canceled ++ [.io 1 50, .check 1])).map (fun s => (s.conns 1).pc) = some (.ended 0 0 0) := by decide +kernel

/-- **C47**: an operation that ends on a canceled ticket is reported as refused, never as success. -/
theorem C47_canceled_operation_refused {cfg : Config} {s s' : State} {c r i k : Nat} {t : Ticket}
    (hp : (s.conns c).pc = .ended r i k) (ht : s.tickets r = some t) (hc : t.canceled = true)
    (hs : step cfg s (.removeOp c) = some s') : s'.log = s.log ++ [.opEnd r true] ∧ (s'.conns c).pc = .idle := by
  cases Step.of_step hs with
  | removeOp _ r' i' k' t' op hp' ht' ho =>
    rw [hp] at hp'; cases hp'
    rw [ht] at ht'; cases ht'
    have : (t.removeOperation op).1 = true := by rw [(removeOperation_fields t op).2.2.2.2.2.1, hc]
    simp [State.goto, State.event, State.setTicket, this]

/-! ### C48 -/

/-- The context a connection is using. -/
def usedCtx : Pc → Option (Nat × Nat)
  | .opened r k => some (r, k)
  | .ready r k => some (r, k)
  | .running r _ k => some (r, k)
  | .checking r _ k => some (r, k)
  | .ended r _ k => some (r, k)
  | _ => none

/-- **C48**: a backend is opened at most once for a connection and a ticket. -/
theorem C48_opened_once {cfg : Config} {s : State} (h : Reachable cfg s) (c r : Nat) : openCount c r s.log ≤ 1 := h.once.le c r

/-- **C48**: a connection uses a backend that was opened for this connection and this ticket, writable
exactly if the ticket allows writing. -/
theorem C48_own_backend {cfg : Config} {s : State} (h : Reachable cfg s) {c r k : Nat} (hu : usedCtx (s.conns c).pc = some (r, k)) :
    (s.ctxs k).con = c ∧ (s.ctxs k).ticket = r ∧ ∃ t, s.tickets r = some t ∧ ((s.ctxs k).writable = true ↔ "write" ∈ t.attrs.ops) := by
  have hi := h.inv
  have base : k < s.nextCtx ∧ (s.ctxs k).con = c ∧ (s.ctxs k).ticket = r := by
    cases hp : (s.conns c).pc <;> simp only [hp, usedCtx] at hu <;> cases hu
    · obtain ⟨h1, h2, h3, _⟩ := hi.opened c r k hp; exact ⟨h1, h2, h3⟩
    · obtain ⟨h1, h2, h3, _⟩ := hi.ready c r k hp; exact ⟨h1, h2, h3⟩
    all_goals
      obtain ⟨h1, h2, h3, _⟩ := hi.busy c r _ k (by rw [hp]; rfl); exact ⟨h1, h2, h3⟩
  obtain ⟨t, ht, hw⟩ := h.tracked.ticket k base.1
  rw [base.2.2] at ht
  exact ⟨base.2.1, base.2.2, t, ht, by rw [hw]; simp⟩

/-- **C48**: two connections never use the same backend. -/
theorem C48_not_shared {cfg : Config} {s : State} (h : Reachable cfg s) {c c' r r' k : Nat}
    (hu : usedCtx (s.conns c).pc = some (r, k)) (hu' : usedCtx (s.conns c').pc = some (r', k)) : c = c' ∧ r = r' := by
  obtain ⟨h1, h2, _⟩ := C48_own_backend h hu
  obtain ⟨h1', h2', _⟩ := C48_own_backend h hu'
  exact ⟨h1 ▸ h1', h2 ▸ h2'⟩

/-- **C48**: after a connection has ended, all its backends are closed.  Missing: with a ticket id that was
added again while the connection was open the claim is false (`C48_counterexample_readded_ticket`). -/
theorem C48_closed_at_end_partial {cfg : Config} {s : State} (h : Reachable cfg s) (hu : UniqueIds s) {c : Nat}
    (hc : (s.conns c).closed = true) (hr : (s.conns c).registered = []) {k : Nat} (hk : k < s.nextCtx) (hcon : (s.ctxs k).con = c) :
    (s.ctxs k).closed = true := by
  cases hcl : (s.ctxs k).closed with
  | true => rfl
  | false =>
    exfalso
    rcases h.tracked.known k hk hcl with h1 | ⟨t, ht, h1⟩
    · rw [hcon] at h1
      rw [h.idleClosed c hc] at h1; cases h1
    · rw [hcon] at h1
      have := h.registered hu (s.ctxs k).ticket t c k ht h1
      rw [hr] at this; cases this

/-- A connection used with two tickets, then closed. -/
example : (run Ex.cfg init (.addTicket Ex.attrs :: .addTicket Ex.rw :: [.request 1 "t" "read", .getContext 1, .addContext 1, .abort 1,
    .request 1 "u" "write", .getContext 1, .addContext 1, .abort 1, .request 1 "u" "write", .getContext 1, .abort 1,
    .closeContext 1, .closeContext 1])).map (fun s => (s.conns 1, s.nextCtx, s.ctxs 0, s.ctxs 1)) =
    some (⟨.idle, [], true⟩, 2, ⟨1, 0, false, true⟩, ⟨1, 1, true, true⟩) := by decide +kernel

/-- When a ticket is added again with the same id and used on the same connection, the connection forgets
the backend opened for the old ticket: it stays open after the connection ended. -/
theorem C48_counterexample_readded_ticket :
    ∃ s, Reachable Ex.cfg s ∧ (s.conns 1).closed = true ∧ (s.conns 1).registered = [] ∧ 0 < s.nextCtx ∧ s.ctxs 0 = ⟨1, 0, false, false⟩ := by
  let one : List Act := [.addTicket Ex.attrs, .request 1 "t" "read", .getContext 1, .addContext 1, .abort 1]
  let acts : List Act := one ++ one ++ [.closeContext 1, .closeContext 1]
  exact ⟨(run Ex.cfg init acts).get (by decide +kernel), ⟨acts, by simp⟩, by decide +kernel, by decide +kernel, by decide +kernel,
    by decide +kernel⟩

/-! ### C52 -/

/-- **C52**: removing a ticket that does not exist succeeds at once and changes nothing. -/
theorem C52_remove_missing {cfg : Config} {s : State} {d : Nat} {id : String} (hd : s.dels d = .none ∨ ∃ a, s.dels d = .answered a)
    (hst : s.store id = none) :
    ∃ s', step cfg s (.delStart d id) = some s' ∧ s'.store = s.store ∧ s'.tickets = s.tickets ∧ s'.ctxs = s.ctxs ∧
      s'.conns = s.conns ∧ s'.dels d = .answered (.ok none) ∧ s'.log = s.log ++ [.deleted id (.ok none)] := by
  refine ⟨(s.event (.deleted id (.ok none))).setDel d (.answered (.ok none)), ?_, rfl, rfl, rfl, rfl, by simp [State.setDel], rfl⟩
  simp only [step, stepDel]
  rcases hd with hd | ⟨a, hd⟩ <;> simp only [hd, hst]

/-- **C52**: removing a ticket again after it was removed succeeds and leaves the same state. -/
theorem C52_remove_twice {cfg : Config} {s : State} {d : Nat} {id : String} {r : Nat} {t : Ticket}
    (hd : s.dels d = .none ∨ ∃ a, s.dels d = .answered a) (hst : s.store id = some r) (ht : s.tickets r = some t) (ho : t.ongoing = []) :
    ∃ s1 s2, run cfg s [.delStart d id, .delCancel d, .delErase d] = some s1 ∧ run cfg s1 [.delStart d id] = some s2 ∧
      s2.store = s1.store ∧ s2.tickets = s1.tickets ∧ s2.ctxs = s1.ctxs ∧ s2.conns = s1.conns ∧
      s2.log = s1.log ++ [.deleted id (.ok none)] := by
  obtain ⟨s1, h1, h2, h3, _⟩ := C05_retry_succeeds (cfg := cfg) hd hst ht ho
  have hd1 : s1.dels d = .none ∨ ∃ a, s1.dels d = .answered a := by
    right
    simp only [run] at h1
    split at h1
    · cases h1
    · split at h1
      · cases h1
      · split at h1
        · cases h1
        · rename_i s3 _ _ s4 _ _ s5 h5
          cases h1
          cases Step.of_step h5 with
          | delEraseNone => exact ⟨.keyError, by simp [State.setDel]⟩
          | delErase _ _ r => exact ⟨.ok (some r), by simp [State.setDel]⟩
  obtain ⟨s2, q1, q2, q3, q4, q5, q6, q7⟩ := C52_remove_missing (cfg := cfg) hd1 h2
  exact ⟨s1, s2, h1, by simp [run, q1], q2, q3, q4, q5, q7⟩

example : (run Ex.cfg init (Ex.removed ++ [.delStart 8 "t"])).map (fun s => (s.dels 8, s.log.getLast?)) =
    some (.answered (.ok none), some (.deleted "t" (.ok none))) := by decide +kernel

/-- The ticket id and the ticket object a removal thread works on. -/
def delTarget : Del → Option (String × Nat)
  | .found id r => some (id, r)
  | .waiting id r => some (id, r)
  | .closing id r => some (id, r)
  | .erasing id r => some (id, r)
  | _ => none

/-- The steps of a removal. -/
def IsDelStep (d : Nat) : Act → Prop
  | .delCancel d' => d' = d
  | .delWake d' => d' = d
  | .delTimeout d' => d' = d
  | .delClose d' => d' = d
  | .delErase d' => d' = d
  | _ => False

/-- **C52**: removing a ticket never affects other tickets: the store of other ids, other ticket objects and the
contexts of other tickets stay as they were. -/
theorem C52_others_unaffected {cfg : Config} {s s' : State} {a : Act} {d : Nat} (h : Reachable cfg s) (ha : IsDelStep d a)
    (hs : step cfg s a = some s') :
    ∃ id r, delTarget (s.dels d) = some (id, r) ∧ (∀ id', id' ≠ id → s'.store id' = s.store id') ∧
      (∀ r', r' ≠ r → s'.tickets r' = s.tickets r') ∧ (∀ k, (s.ctxs k).ticket ≠ r → s'.ctxs k = s.ctxs k) ∧ s'.conns = s.conns := by
  have hctx : ∀ (r : Nat) (t : Ticket), s.tickets r = some t → ∀ k, (s.ctxs k).ticket ≠ r → (s.closeAll t).ctxs k = s.ctxs k := by
    intro r t ht k hk
    obtain ⟨h1, h2, h3, h4⟩ := closeAll_ctxs t s k
    have : ((s.closeAll t).ctxs k).closed = (s.ctxs k).closed := by
      rw [Bool.eq_iff_iff, h4]
      constructor
      · rintro (h | ⟨c, hc⟩)
        · exact h
        · exact absurd (h.inv.ctxCon r t c k ht hc).2 hk
      · exact .inl
    cases hx : (s.closeAll t).ctxs k
    cases hy : s.ctxs k
    simp_all
  cases Step.of_step hs with
  | delCancelUnused _ id r t hd ht ho =>
    cases ha
    obtain ⟨f1, f2, f3, f4, f5, f6, f7, f8, f9⟩ := closeAll_fields t s
    exact ⟨id, r, by rw [hd]; rfl, fun _ _ => by simp [State.setDel, State.setTicket, f4],
      fun r' hr => by simp [State.setDel, State.setTicket, f2, upd_other _ _ hr],
      fun k hk => hctx r t ht k hk, f6⟩
  | delClose _ id r t hd ht =>
    cases ha
    obtain ⟨f1, f2, f3, f4, f5, f6, f7, f8, f9⟩ := closeAll_fields t s
    exact ⟨id, r, by rw [hd]; rfl, fun _ _ => by simp [State.setDel, f4],
      fun r' hr => by simp [State.setDel, f2],
      fun k hk => hctx r t ht k hk, f6⟩
  | delCancelWait _ id r t hd ht ho hc =>
    cases ha
    exact ⟨id, r, by rw [hd]; rfl, fun _ _ => rfl, fun r' hr => by simp [State.setDel, State.setTicket, upd_other _ _ hr], fun _ _ => rfl, rfl⟩
  | delCancelNoWait _ id r t hd ht ho hc =>
    cases ha
    exact ⟨id, r, by rw [hd]; rfl, fun _ _ => rfl, fun r' hr => by simp [State.setDel, State.event, State.setTicket, upd_other _ _ hr],
      fun _ _ => rfl, rfl⟩
  | delWake _ id r t hd ht hu => cases ha; exact ⟨id, r, by rw [hd]; rfl, fun _ _ => rfl, fun _ _ => rfl, fun _ _ => rfl, rfl⟩
  | delTimeout _ id r t hd ht hu => cases ha; exact ⟨id, r, by rw [hd]; rfl, fun _ _ => rfl, fun _ _ => rfl, fun _ _ => rfl, rfl⟩
  | delEraseNone _ id r hd hst => cases ha; exact ⟨id, r, by rw [hd]; rfl, fun _ _ => rfl, fun _ _ => rfl, fun _ _ => rfl, rfl⟩
  | delErase _ id r r' hd hst =>
    cases ha
    exact ⟨id, r, by rw [hd]; rfl, fun id' hi => by simp [State.setDel, State.event, upd_other _ _ hi], fun _ _ => rfl, fun _ _ => rfl, rfl⟩
  | _ => cases ha

/-- Two removals of the same ticket *at the same time* are not idempotent: both cancel the ticket, the second
one fails with `KeyError` (500). -/
theorem C52_counterexample_concurrent_removal :
    ∃ s, Reachable Ex.cfg s ∧ .deleted "t" (.ok (some 0)) ∈ s.log ∧ .deleted "t" .keyError ∈ s.log := by
  let acts : List Act := [.addTicket Ex.attrs, .delStart 7 "t", .delStart 8 "t", .delCancel 7, .delCancel 8, .delErase 7, .delErase 8]
  exact ⟨(run Ex.cfg init acts).get (by decide +kernel), ⟨acts, by simp⟩, by decide +kernel, by decide +kernel⟩

/-- A removal may even remove a ticket that was added after the removal had canceled the old one: the new
ticket is lost although nobody asked to remove it. -/
theorem C52_counterexample_new_ticket_lost :
    ∃ s, Reachable Ex.cfg s ∧ s.store "t" = none ∧ (s.tickets 1).map (·.canceled) = some false ∧
      s.log = [.deleted "t" (.ok (some 0))] := by
  let acts : List Act := [.addTicket Ex.attrs, .delStart 7 "t", .delCancel 7, .addTicket Ex.attrs, .delErase 7]
  exact ⟨(run Ex.cfg init acts).get (by decide +kernel), ⟨acts, by simp⟩, by decide +kernel, by decide +kernel, by decide +kernel⟩

end Imageio.Props
