import Verif.Model.System
import Verif.Lemmas.AuthMore
import Verif.Lemmas.AuthHistory
import Verif.Lemmas.Images
import Verif.Spec.System

/-! The steps of the whole server. -/
namespace Imageio.Auth

/-- An operation is canceled only after its ticket. -/
def OpFlags (s : State) : Prop := ∀ r t op, s.tickets r = some t → op ∈ t.ongoing → op.canceled = true → t.canceled = true

theorem OpFlags.step {cfg : Config} {s s' : State} {a : Act} (h : OpFlags s) (hs : Step cfg s a s') : OpFlags s' := by
  unfold OpFlags at *
  cases hs with
  | delCancelUnused d id r t hd ht ho =>
    obtain ⟨f1, f2, f3, f4, f5, f6, f7, f8, f9⟩ := closeAll_fields t s
    simp only [State.setTicket, State.setDel, f2]; grind [upd]
  | delClose d id r t hd ht =>
    obtain ⟨f1, f2, f3, f4, f5, f6, f7, f8, f9⟩ := closeAll_fields t s
    simp only [State.setDel, f2]; exact h
  | removeOp c r i k t op hp ht ho =>
    obtain ⟨f1, f2, f3, f4, f5, _⟩ := removeOperation_fields t op
    simp only [State.goto, State.event, State.setTicket]
    grind [upd]
  | _ =>
    (try simp only [State.goto, State.event, State.setTicket, State.setDel, State.closeCtx])
    grind [upd, Ticket.extend, Ticket.touch, Ticket.advance, Ticket.cancelOps, Ticket.new]

theorem Reachable.opFlags {cfg : Config} {s : State} (h : Reachable cfg s) : OpFlags s :=
  Reachable.induction (cfg := cfg) (P := OpFlags) (by simp [OpFlags, init]) (fun _ _ _ _ _ hp hs => hp.step hs) h

/-- A step of another thread does not move a connection thread. -/
theorem Step.pc_other {cfg : Config} {s s' : State} {a : Act} (hs : Step cfg s a s') {c : Nat}
    (hc : System.conOf a ≠ some c) : (s'.conns c).pc = (s.conns c).pc := by
  cases hs with
  | delCancelUnused d id r t hd ht ho =>
    simp only [State.setTicket, State.setDel, closeAll_fields t s]
  | delClose d id r t hd ht =>
    simp only [State.setDel, closeAll_fields t s]
  | _ =>
    (try simp only [System.conOf, ne_eq, Option.some.injEq] at hc)
    (try simp only [State.goto, State.event, State.setTicket, State.setDel, State.closeCtx])
    first
      | done
      | rfl
      | (rw [upd_other _ _ (Ne.symm hc)])

/-- The tickets that were added stay, with their attributes. -/
theorem Step.nextTicket {cfg : Config} {s s' : State} {a : Act} (hs : Step cfg s a s') :
    s.nextTicket ≤ s'.nextTicket := by
  cases hs with
  | delCancelUnused d id r t hd ht ho =>
    simp only [State.setTicket, State.setDel, closeAll_fields t s, Nat.le_refl]
  | delClose d id r t hd ht =>
    simp only [State.setDel, closeAll_fields t s, Nat.le_refl]
  | addTicket => exact Nat.le_succ _
  | _ => exact Nat.le_refl _

end Imageio.Auth

namespace Imageio.System
open Imageio.Images

/-! ## The handlers -/

theorem ticketRun_refused {α : Type} {a : Access} (h : a.refused = true) (op : α → Except Err Unit × α) (s : α) :
    ticketRun a op s = (.error (.authorization "canceled"), s) := by
  unfold ticketRun; rw [if_pos h]

/-- The handler raised an error; nothing was sent and the disk is the same. -/
structure Refusal {σ : Type} (s : σ) (c : Http.Conn) (x : Except Http.HErr Unit × σ × Http.Conn) : Prop where
  disk : x.2.1 = s
  error : ∃ e, x.1 = .error e ∧ 400 ≤ Http.errorCode e
  started : x.2.2.started = c.started
  sent : x.2.2.sent = c.sent
  body : x.2.2.body = c.body

theorem Refusal.mk' {σ : Type} {s : σ} {c c' : Http.Conn} {e : Http.HErr} (he : 400 ≤ Http.errorCode e)
    (hc : NoResponse c c') : Refusal s c (.error e, s, c') :=
  ⟨rfl, ⟨e, rfl, he⟩, hc.started, hc.sent, hc.body⟩

theorem Refusal.raise {σ : Type} {s : σ} {c c' : Http.Conn} (e : Err) (h1 : c'.started = c.started) (h2 : c'.sent = c.sent)
    (h3 : c'.body = c.body) : Refusal s c ((raiseErr e c').1, s, (raiseErr e c').2) := by
  cases e <;> exact ⟨rfl, ⟨_, rfl, by decide⟩, h1, h2, h3⟩

theorem code_ge {n : Nat} {l : List Nat} (h : n ∈ l) (hl : ∀ m ∈ l, 400 ≤ m) : 400 ≤ n := hl n h

theorem getContentLength_err {r : Http.Req} {e : Http.HErr} (h : r.getContentLength.1 = .error e) : 400 ≤ Http.errorCode e := by
  unfold Http.Req.getContentLength at h
  split at h
  · simp at h
  · split at h
    · simp at h
    · split at h
      · cases h; decide
      · split at h
        · cases h; decide
        · simp at h

theorem enumQuery_err {q : List (Http.Str × Http.Str)} {name : Http.Str} {vs : List Http.Str} {d : Http.Str} {e : Http.HErr}
    (h : enumQuery q name vs d = .error e) : 400 ≤ Http.errorCode e := by
  unfold enumQuery at h
  split at h
  · simp at h
  · split at h
    · simp at h
    · cases h; decide

theorem read_err {c : Http.Conn} {n : Option Nat} {e : Http.HErr} (h : (c.read n).1 = .error e) : 400 ≤ Http.errorCode e := by
  unfold Http.Conn.read at h
  split at h
  · rename_i e' req hl
    cases h
    unfold Http.Req.getLength at hl
    split at hl
    · cases hl
    · split at hl
      · cases hl
      · rename_i e'' r' hg
        cases hl
        exact getContentLength_err (r := c.req) (by rw [hg])
  · cases h
  · split at h
    · cases h
    · simp only at h
      split at h
      · cases h
      · rename_i hr
        unfold Http.rfileRead at hr
        split at hr
        · cases hr
        · cases hr; cases h; decide

theorem put_keeps {σ : Type} (B : Backend σ) (n : Nat) (a : Access) (q : PutReq) (s : σ) (c : Http.Conn)
    (h : a.auth ≠ none ∨ a.refused = true) : Refusal s c (put B n a q s c) := by
  unfold put
  split
  · exact .mk' (by decide) (.refl c)
  simp only
  have hcq := (closeQuery_frame q.query c).1
  split
  · rename_i e he
    exact ⟨rfl, ⟨e, rfl, getContentLength_err he⟩, hcq.started, hcq.sent, hcq.body⟩
  · exact ⟨rfl, ⟨_, rfl, by decide⟩, hcq.started, hcq.sent, hcq.body⟩
  split
  · exact ⟨rfl, ⟨_, rfl, by decide⟩, hcq.started, hcq.sent, hcq.body⟩
  split
  · rename_i e he
    exact ⟨rfl, ⟨e, rfl, enumQuery_err he⟩, hcq.started, hcq.sent, hcq.body⟩
  split
  · exact .raise _ hcq.started hcq.sent hcq.body
  rename_i hau
  have hre : a.refused = true := h.resolve_left (by simp [hau])
  unfold putAuthorized
  split
  · exact ⟨rfl, ⟨_, rfl, by decide⟩, hcq.started, hcq.sent, hcq.body⟩
  simp only [ticketRun_refused hre]
  exact .raise _ hcq.started hcq.sent hcq.body

theorem get_keeps {σ : Type} (B : Backend σ) (a : Access) (q : GetReq) (buf : Bytes) (s : σ) (c : Http.Conn)
    (h : a.auth ≠ none ∨ a.refused = true) : Refusal s c (Images.get B a q buf s c) := by
  have key : a.refused = true → ∀ ranged size offset c', NoResponse c c' →
      Refusal s c (getRange B a ranged size offset buf s c') := by
    intro hre ranged size offset c' hc
    unfold getRange
    simp only [ticketRun_refused hre]
    exact .raise _ hc.started hc.sent hc.body
  have hcq := (closeQuery_frame q.query c).1
  unfold Images.get
  cases hau : a.auth with
  | some e =>
    simp only
    repeat' (first | exact .mk' (by decide) (.refl c) | exact .mk' (by decide) hcq | exact .raise _ hcq.started hcq.sent hcq.body | split)
    all_goals
      rename_i he
      revert he
      repeat' split
      all_goals (intro he; cases he)
      exact .mk' (by decide) hcq
  | none =>
    have hre : a.refused = true := h.resolve_left (by simp [hau])
    simp only
    repeat' (first | exact .mk' (by decide) (.refl c) | exact .mk' (by decide) hcq | exact key hre _ _ _ _ hcq | split)
    all_goals
      rename_i he
      revert he
      repeat' split
      all_goals (intro he; cases he)
      exact .mk' (by decide) hcq

theorem patch_keeps {σ : Type} (B : Backend σ) (a : Access) (loads : Bytes → Option Json) (t : Http.Str) (s : σ)
    (c : Http.Conn) (h : a.auth ≠ none ∨ a.refused = true) : Refusal s c (patch B a loads t s c) := by
  have ge : ∀ {m : Nat}, m ∈ [400, 500] → 400 ≤ m := fun hm => code_ge hm (by decide)
  unfold patch
  split
  · exact .mk' (by decide) (.refl c)
  have hrd := read_noResponse c none
  split
  · rename_i e c' hx
    rw [hx] at hrd
    exact .mk' (read_err (c := c) (n := none) (by rw [hx])) hrd
  rename_i data c' hx
  rw [hx] at hrd
  split
  · exact .mk' (by decide) hrd
  split
  · rename_i e he
    exact .mk' (ge (enumJson_err he)) hrd
  split
  · unfold zero
    split
    · rename_i e he; exact .mk' (ge (integer_err he)) hrd
    split
    · rename_i e he; exact .mk' (ge (integer_err he)) hrd
    split
    · rename_i e he; exact .mk' (ge (boolean_err he)) hrd
    split
    · exact .raise _ hrd.started hrd.sent hrd.body
    rename_i hau
    have hre : a.refused = true := h.resolve_left (by simp [hau])
    split
    · exact .mk' (by decide) hrd
    simp only [ticketRun_refused hre]
    exact .raise _ hrd.started hrd.sent hrd.body
  · unfold flush
    split
    · exact .raise _ hrd.started hrd.sent hrd.body
    rename_i hau
    have hre : a.refused = true := h.resolve_left (by simp [hau])
    simp only [ticketRun_refused hre]
    exact .raise _ hrd.started hrd.sent hrd.body

/-- A request that is denied, or whose operation is refused, changes nothing and is answered with an error. -/
theorem handle_refusal {σ : Type} (E : Env σ) (a : Access) (r : Request) (s : σ) (h : a.auth ≠ none ∨ a.refused = true) :
    Refusal s r.conn (handle E a r s) := by
  unfold handle
  split
  · exact put_keeps _ _ _ _ _ _ h
  · exact get_keeps _ _ _ _ _ _ h
  · exact patch_keeps _ _ _ _ _ _ h

theorem handle_keeps {σ : Type} (E : Env σ) (a : Access) (r : Request) (s : σ) (h : a.auth ≠ none ∨ a.refused = true) :
    (handle E a r s).2.1 = s := (handle_refusal E a r s h).disk

/-! ## The steps -/

theorem upd_self {α β : Type} [DecidableEq α] (f : α → β) (a : α) : Auth.upd f a (f a) = f := by
  funext x; unfold Auth.upd; split <;> simp_all

/-- An answer without an operation. -/
def Sys.reply {σ : Type} (E : Env σ) (s : Sys σ) (c : Nat) (ticket : Option Nat) (a : Access) (r : Request)
    (d : σ) : Sys σ :=
  { s with pending := Auth.upd s.pending c none,
           answered := s.answered ++ [⟨c, ticket, r, false, (serve r.lost (handle E a r d)).2⟩] }

theorem finish_keeps {σ : Type} (E : Env σ) (s : Sys σ) (c : Nat) (ticket : Option Nat) (url : Http.Str) (a : Access)
    (r : Request) (h : a.auth ≠ none ∨ a.refused = true) :
    finish E s c ticket url false a r = s.reply E c ticket a r (s.disk url) := by
  unfold finish Sys.reply
  simp only [serve, handle_keeps E a r _ h, upd_self]

/-- The steps of the server, one case for each way a step can end. -/
inductive Move {σ : Type} (E : Env σ) (s : Sys σ) : Act → Sys σ → Prop
  | other (a : Auth.Act) (t : Auth.State) (ha : ∀ at_, a ≠ .addTicket at_) (hs : Auth.step E.cfg s.auth a = some t)
      (hp : ∀ c p, conOf a = some c → s.pending c = some p →
        (t.conns c).pc.ticket = (s.auth.conns c).pc.ticket ∧ (t.conns c).pc.ticket ≠ none ∧
        (∀ r, (t.conns c).pc ≠ .touching r) ∧ ∀ r i k, (s.auth.conns c).pc ≠ .ended r i k) :
      Move E s (.auth a) { s with auth := t }
  | add (attrs : Auth.Attrs) (url : Http.Str) (t : Auth.State) (hs : Auth.step E.cfg s.auth (.addTicket attrs) = some t) :
      Move E s (.add attrs url) { s with auth := t, url := Auth.upd s.url s.auth.nextTicket url }
  | early (c : Nat) (r : Request) (hp : (s.auth.conns c).pc = .idle) (hq : asks E r (s.disk []) = false) :
      Move E s (.early c r) (s.reply E c none (denied (.authorization "")) r (s.disk []))
  | refused (c : Nat) (r : Request) (t : Auth.State) (hp : (s.auth.conns c).pc = .idle)
      (hq : asks E r (s.disk []) = true)
      (hs : Auth.step E.cfg s.auth (.request c r.job.ticketId r.job.op) = some t) (ht : t.conns = s.auth.conns)
      (hr : ∀ k, Auth.authorize E.cfg s.auth r.job.ticketId r.job.op ≠ .ok k) :
      Move E s (.request c r) (Sys.reply E { s with auth := t } c none (denied (.authorization "")) r (s.disk []))
  | accepted (c : Nat) (r : Request) (t : Auth.State) (k : Nat) (hp : (s.auth.conns c).pc = .idle)
      (hq : asks E r (s.disk []) = true)
      (hs : Auth.step E.cfg s.auth (.request c r.job.ticketId r.job.op) = some t)
      (hr : Auth.authorize E.cfg s.auth r.job.ticketId r.job.op = .ok k) (ht : (t.conns c).pc = .authorized k) :
      Move E s (.request c r) { s with auth := t, pending := Auth.upd s.pending c (some ⟨r, []⟩) }
  | stopped (a : Auth.Act) (c k : Nat) (p : Pending) (x : Access) (d : σ) (t : Auth.State) (ha : conOf a = some c)
      (hp : s.pending c = some p)
      (hs : Auth.step E.cfg s.auth a = some t) (hk : (s.auth.conns c).pc.ticket = some k) (ht : (t.conns c).pc = .idle)
      (hx : x.auth ≠ none ∨ x.refused = true) :
      Move E s (.auth a) (Sys.reply E { s with auth := t } c (some k) x p.req d)
  | looked (c r i k : Nat) (p : Pending) (t : Auth.State) (b : Bool) (hp : s.pending c = some p)
      (hs : Auth.step E.cfg s.auth (.check c) = some t) (hpc : (s.auth.conns c).pc = .checking r i k)
      (ht : (t.conns c).pc = if b then .ended r i k else .running r i k)
      (hb : b = true → ∃ tk op, s.auth.tickets r = some tk ∧ op ∈ tk.ongoing ∧ op.canceled = true) :
      Move E s (.auth (.check c))
        { s with auth := t, pending := Auth.upd s.pending c (some { p with cancels := p.cancels ++ [b] }) }
  | ran (c r i k : Nat) (p : Pending) (t : Auth.State) (tk : Auth.Ticket) (a : Access) (hp : s.pending c = some p)
      (hs : Auth.step E.cfg s.auth (.removeOp c) = some t) (hpc : (s.auth.conns c).pc = .ended r i k)
      (htk : s.auth.tickets r = some tk) (hau : a.auth = none) (hsz : a.size = tk.attrs.size)
      (hre : a.refused = false) (hca : a.canceled = tk.canceled)
      (hcs : ∀ n, a.cancel n = p.cancels.getD n false)
      (ht : (t.conns c).pc = if tk.canceled then .idle else .touching r) :
      Move E s (.auth (.removeOp c))
        (finish E { s with auth := t } c (some r) (s.url (s.auth.ctxs k).ticket) true a p.req)

/-- A request being handled has a ticket. -/
def Busy {σ : Type} (s : Sys σ) : Prop :=
  ∀ c p, s.pending c = some p → (s.auth.conns c).pc.ticket ≠ none ∧ ∀ r, (s.auth.conns c).pc ≠ .touching r

theorem ranAccess_some {size : Int} {l : List Bool} {b : Bool} {a : Access} (h : ranAccess size l b = some a) :
    a.auth = none ∧ a.size = size ∧ a.refused = false ∧ a.canceled = b ∧ ∀ n, a.cancel n = l.getD n false := by
  unfold ranAccess at h
  split at h
  · cases h; exact ⟨rfl, rfl, rfl, rfl, fun _ => rfl⟩
  · cases h

theorem Move.pending {σ : Type} {E : Env σ} {s s' : Sys σ} {a : Auth.Act} {c : Nat} {p : Pending} {t : Auth.State}
    (hb : Busy s) (ha : conOf a = some c) (hp : s.pending c = some p) (hs : Auth.step E.cfg s.auth a = some t)
    (h : proceed E s t c p a = some s') : Move E s (.auth a) s' := by
  obtain ⟨hb1, hb2⟩ := hb c p hp
  have other : (∀ at_, a ≠ .addTicket at_) → (t.conns c).pc.ticket = (s.auth.conns c).pc.ticket → (∀ r, (t.conns c).pc ≠ .touching r) →
      (∀ r i k, (s.auth.conns c).pc ≠ .ended r i k) → s' = { s with auth := t } → Move E s (.auth a) s' := by
    rintro h0 h1 h2 h3 rfl
    refine .other a t h0 hs fun c' p' hc' hp' => ?_
    rw [ha] at hc'; cases hc'
    exact ⟨h1, by rw [h1]; exact hb1, h2, h3⟩
  have hst := Auth.Step.of_step hs
  cases hst with
  | tick => cases ha
  | addTicket => cases ha
  | extendNone => cases ha
  | extend => cases ha
  | clear => cases ha
  | refused c' id op e hcl hpc hau => cases ha; simp [hpc, Auth.Pc.ticket] at hb1
  | request c' id op r hcl hpc hau => cases ha; simp [hpc, Auth.Pc.ticket] at hb1
  | getContext c' r k tk hpc htk hk =>
    cases ha
    simp only [proceed, hpc, Option.some.injEq] at h
    refine other (by simp) ?_ ?_ ?_ h.symm <;> simp [Auth.State.goto, Auth.upd, hpc, Auth.Pc.ticket]
  | openContext c' r tk hpc htk hk =>
    cases ha
    simp only [proceed, hpc, Option.some.injEq] at h
    refine other (by simp) ?_ ?_ ?_ h.symm <;> simp [Auth.State.goto, Auth.upd, hpc, Auth.Pc.ticket]
  | openFailed c' r hpc =>
    cases ha
    simp only [proceed, hpc, Option.some.injEq] at h
    rw [finish_keeps _ _ _ _ _ _ _ (.inl (by simp [denied]))] at h
    subst h
    exact .stopped _ _ r p _ _ _ rfl hp hs (by rw [hpc]; rfl) (by simp [Auth.State.goto, Auth.upd]) (.inl (by simp [denied]))
  | addContextRefused c' r k tk hpc htk hc =>
    cases ha
    simp only [proceed, hpc] at h
    rw [if_pos (by simp [Auth.State.goto, Auth.upd]), finish_keeps _ _ _ _ _ _ _ (.inl (by simp [denied]))] at h
    cases h
    exact .stopped _ _ r p _ _ _ rfl hp hs (by rw [hpc]; rfl) (by simp [Auth.State.goto, Auth.upd]) (.inl (by simp [denied]))
  | addContext c' r k tk hpc htk hc =>
    cases ha
    simp only [proceed, hpc] at h
    rw [if_neg (by simp [Auth.upd])] at h
    refine other (by simp) ?_ ?_ ?_ (Option.some.inj h).symm <;> simp [Auth.upd, hpc, Auth.Pc.ticket]
  | abort c' r k hpc =>
    cases ha
    simp only [proceed, hpc] at h
    split at h
    · cases h
    rw [finish_keeps _ _ _ _ _ _ _ (.inr rfl)] at h
    cases h
    exact .stopped _ _ r p _ _ _ rfl hp hs (by rw [hpc]; rfl) (by simp [Auth.State.goto, Auth.upd]) (.inr rfl)
  | options c' r k hpc => cases ha; simp [proceed] at h
  | startRefused c' off r k tk hpc htk hc =>
    cases ha
    simp only [proceed, hpc] at h
    split at h
    · rw [if_pos (by simp [Auth.State.goto, Auth.upd]), finish_keeps _ _ _ _ _ _ _ (.inr rfl)] at h
      cases h
      exact .stopped _ _ r p _ _ _ rfl hp hs (by rw [hpc]; rfl) (by simp [Auth.State.goto, Auth.upd]) (.inr rfl)
    · cases h
  | startOp c' off r k tk hpc htk hc =>
    cases ha
    simp only [proceed, hpc] at h
    split at h
    · rw [if_neg (by simp [Auth.State.goto, Auth.upd])] at h
      refine other (by simp) ?_ ?_ ?_ (Option.some.inj h).symm <;> simp [Auth.State.goto, Auth.upd, hpc, Auth.Pc.ticket]
    · cases h
  | io c' n r i k tk op hpc htk ho =>
    cases ha
    simp only [proceed, hpc, Option.some.injEq] at h
    refine other (by simp) ?_ ?_ ?_ h.symm <;> simp [Auth.State.goto, Auth.upd, hpc, Auth.Pc.ticket]
  | checkGo c' r i k tk op hpc htk ho hc =>
    cases ha
    simp only [proceed, hpc, Option.some.injEq] at h
    subst h
    have : ((s.auth.goto c (.running r i k)).conns c).pc = .running r i k := by simp [Auth.State.goto, Auth.upd]
    simp only [this]
    exact .looked c r i k p _ false hp hs hpc (by simpa using this) (by simp)
  | checkStop c' r i k tk op hpc htk ho hc =>
    cases ha
    simp only [proceed, hpc, Option.some.injEq] at h
    subst h
    have : ((s.auth.goto c (.ended r i k)).conns c).pc = .ended r i k := by simp [Auth.State.goto, Auth.upd]
    simp only [this]
    exact .looked c r i k p _ true hp hs hpc (by simpa using this) fun _ => ⟨tk, op, htk, (Auth.getOp_some ho).1, hc⟩
  | endRunning c' r i k hpc =>
    cases ha
    simp only [proceed, hpc, Option.some.injEq] at h
    refine other (by simp) ?_ ?_ ?_ h.symm <;> simp [Auth.State.goto, Auth.upd, hpc, Auth.Pc.ticket]
  | endChecking c' r i k hpc =>
    cases ha
    simp only [proceed, hpc, Option.some.injEq] at h
    refine other (by simp) ?_ ?_ ?_ h.symm <;> simp [Auth.State.goto, Auth.upd, hpc, Auth.Pc.ticket]
  | removeOp c' r i k tk op hpc htk ho =>
    cases ha
    have hflag : (tk.removeOperation op).1 = tk.canceled := by
      unfold Auth.Ticket.removeOperation
      cases hcc : tk.canceled with
      | true => simp [hcc]
      | false => simp only [Bool.false_eq_true, if_false]; split <;> rfl
    simp only [proceed, hpc] at h
    split at h
    · cases h
    rename_i a hra
    cases h
    obtain ⟨r1, r2, r3, r4, r5⟩ := ranAccess_some hra
    refine .ran c r i k p _ tk a hp hs hpc htk r1 (by simpa [sizeOf, htk] using r2) r3 ?_ r5 ?_
    · rw [r4, hflag]
      cases tk.canceled <;> simp [Auth.State.goto, Auth.upd]
    · rw [hflag]; simp [Auth.State.goto, Auth.upd]
  | touch c' r tk hpc htk => cases ha; exact absurd hpc (hb2 r)
  | closeDone c' hpc => cases ha; simp [hpc, Auth.Pc.ticket] at hb1
  | closeNone c' _ _ _ _ hpc => cases ha; simp [hpc, Auth.Pc.ticket] at hb1
  | closeContext c' _ _ _ _ _ hpc => cases ha; simp [hpc, Auth.Pc.ticket] at hb1
  | _ => cases ha

theorem Move.of_step {σ : Type} {E : Env σ} {s s' : Sys σ} {a : Act} (hb : Busy s) (h : step E s a = some s') :
    Move E s a s' := by
  cases a with
  | add attrs url =>
    simp only [step] at h
    split at h
    · cases h
    · rename_i t ht
      cases h
      exact .add attrs url t ht
  | early c r =>
    simp only [step] at h
    split at h
    · cases h
    · rename_i hc
      simp only [ne_eq, Bool.or_eq_true, decide_eq_true_eq, not_or, Decidable.not_not, Bool.not_eq_true] at hc
      rw [finish_keeps _ _ _ _ _ _ _ (.inl (by simp [denied]))] at h
      cases h
      exact .early c r (by simpa using hc.1.2) hc.2
  | request c r =>
    simp only [step] at h
    split at h
    · rename_i hq
      split at h
      · cases h
      · rename_i t ht
        cases Auth.Step.of_step ht with
        | refused _ _ _ e hcl hpc hau =>
          rw [if_pos (by simpa [Auth.State.event] using hpc), finish_keeps _ _ _ _ _ _ _ (.inl (by simp [denied]))] at h
          cases h
          exact .refused c r _ hpc hq ht rfl (by rw [hau]; simp)
        | request _ _ _ k hcl hpc hau =>
          rw [if_neg (by simp [Auth.State.goto, Auth.upd])] at h
          cases h
          exact .accepted c r _ k hpc hq ht hau (by simp [Auth.State.goto, Auth.upd])
    · cases h
  | auth a =>
    have h0 : ∀ at_, a ≠ .addTicket at_ := by
      rintro at_ rfl
      simp [step] at h
    have h1 : step E s (.auth a) = (match Auth.step E.cfg s.auth a with
        | none => none
        | some t =>
          match pendingOf s a with
          | none => some { s with auth := t }
          | some (c, p) => proceed E s t c p a) := by
      cases a <;> first | rfl | exact absurd rfl (h0 _)
    rw [h1] at h
    split at h
    · cases h
    · rename_i t ht
      unfold pendingOf at h
      split at h
      · rename_i hpo
        cases h
        refine .other a t h0 ht fun c p hc hp => ?_
        simp [hc, hp] at hpo
      · rename_i c p hpo
        split at hpo
        · cases hpo
        · rename_i c' hc'
          split at hpo
          · cases hpo
          · rename_i p' hp'
            cases hpo
            exact Move.pending hb hc' hp' ht h

/-! ## Executions -/

theorem run_append {σ : Type} {E : Env σ} {as bs : List Act} {s : Sys σ} :
    run E s (as ++ bs) = (run E s as).bind fun s => run E s bs := by
  induction as generalizing s with
  | nil => rfl
  | cons a as ih =>
    simp only [List.cons_append, run]
    cases step E s a with
    | none => rfl
    | some s1 => exact ih

theorem Move.auth_run {σ : Type} {E : Env σ} {s s' : Sys σ} {a : Act} (h : Move E s a s') :
    ∃ as, Auth.run E.cfg s.auth as = some s'.auth := by
  have one : ∀ {x : Auth.Act} {t : Auth.State}, Auth.step E.cfg s.auth x = some t → ∃ as, Auth.run E.cfg s.auth as = some t :=
    fun {x t} hx => ⟨[x], by simp [Auth.run, hx]⟩
  cases h with
  | other a t ha hs hp => exact one hs
  | add attrs url t hs => exact one hs
  | early => exact ⟨[], rfl⟩
  | refused c r t hp hq hs => exact one hs
  | accepted c r t k hp hq hs => exact one hs
  | stopped a c k p x d t ha hp hs => exact one hs
  | looked c r i k p t b hp hs => exact one hs
  | ran c r i k p t tk a hp hs => exact one hs

open Imageio.Spec

/-- What holds after an execution. -/
structure Good {σ : Type} (E : Env σ) (s0 : Sys σ) (acts : List Act) (s : Sys σ) : Prop where
  reach : Auth.Reachable E.cfg s.auth
  busy : Busy s
  presented : ∀ c p r, s.pending c = some p → (s.auth.conns c).pc.ticket = some r → Presented E s0 acts c p.req r
  cancels : ∀ c p, s.pending c = some p → true ∈ p.cancels →
    ∃ r i k t, (s.auth.conns c).pc = .ended r i k ∧ s.auth.tickets r = some t ∧ t.canceled = true
  answered : ∀ e ∈ s.answered, ∀ r, e.ticket = some r → Presented E s0 acts e.con e.req r
  ran : ∀ e ∈ s.answered, e.ran = true → e.ticket ≠ none

theorem presented_append {σ : Type} {E : Env σ} {s0 : Sys σ} {acts : List Act} {c : Nat} {q : Request} {r : Nat}
    (h : Presented E s0 acts c q r) (more : List Act) : Presented E s0 (acts ++ more) c q r := by
  obtain ⟨b, a, s, h1, h2, h3⟩ := h
  exact ⟨b, a ++ more, s, by rw [h1]; simp, h2, h3⟩

theorem needs_job (j : Job) : Needs j j.ticketId j.op := by
  cases j <;> exact ⟨by simp [Job.ticketId], rfl⟩

theorem needs_eq {j : Job} {id op : String} (h : Needs j id op) : id = j.ticketId ∧ op = j.op := by
  cases j <;> exact ⟨String.toList_inj.1 (by rw [h.1]; simp [Job.ticketId]), h.2⟩

theorem authorize_permits {cfg : Auth.Config} {s : Auth.State} {id op : String} {r : Nat}
    (h : Auth.authorize cfg s id op = .ok r) : Permits cfg s id op r := by
  unfold Auth.authorize at h
  unfold Permits
  cases hs : s.store id with
  | none => simp [hs] at h
  | some r' =>
    simp only [hs] at h
    cases ht : s.tickets r' with
    | none => simp [ht] at h
    | some t =>
      simp only [ht] at h
      split at h
      · cases h
      · split at h
        · cases h
        · split at h
          · cases h
          · rename_i h1 h2 h3
            cases h
            refine ⟨rfl, t, ht, by simpa using h1, by omega, ?_⟩
            unfold Allows
            unfold Auth.Ticket.may at h3
            split at h3 <;> simp_all <;> grind

theorem Good.step {σ : Type} {E : Env σ} {s0 : Sys σ} {acts : List Act} {s s' : Sys σ} {a : Act}
    (hr : run E s0 acts = some s) (h : Good E s0 acts s) (hm : Move E s a s') : Good E s0 (acts ++ [a]) s' := by
  have hreach : Auth.Reachable E.cfg s'.auth := by
    obtain ⟨as, has⟩ := hm.auth_run
    exact Auth.reachable_run h.reach has
  have hinv := h.reach.inv
  have hans : ∀ e ∈ s.answered, ∀ r, e.ticket = some r → Presented E s0 (acts ++ [a]) e.con e.req r :=
    fun e he r hr => presented_append (h.answered e he r hr) [a]
  have hpre : ∀ c p r, s.pending c = some p → (s.auth.conns c).pc.ticket = some r →
      Presented E s0 (acts ++ [a]) c p.req r := fun c p r h1 h2 => presented_append (h.presented c p r h1 h2) [a]
  -- a connection whose thread did not move
  have still : ∀ (x : Auth.Act) (t : Auth.State), Auth.step E.cfg s.auth x = some t → ∀ c p, s.pending c = some p →
      (t.conns c).pc = (s.auth.conns c).pc →
      ((t.conns c).pc.ticket ≠ none ∧ ∀ r, (t.conns c).pc ≠ .touching r) ∧
      (∀ r, (t.conns c).pc.ticket = some r → Presented E s0 (acts ++ [a]) c p.req r) ∧
      (true ∈ p.cancels → ∃ r i k tk, (t.conns c).pc = .ended r i k ∧ t.tickets r = some tk ∧ tk.canceled = true) := by
    intro x t hx c p hp hpc
    rw [hpc]
    refine ⟨h.busy c p hp, fun r => hpre c p r hp, fun hc => ?_⟩
    obtain ⟨r, i, k, tk, e1, e2, e3⟩ := h.cancels c p hp hc
    obtain ⟨tk', e4, e5⟩ := (Auth.Step.of_step hx).evolve hinv e2
    exact ⟨r, i, k, tk', e1, e4, e5.canceled e3⟩
  -- the other connections, after a step of one
  have rest : ∀ (x : Auth.Act) (t : Auth.State) (c : Nat), Auth.step E.cfg s.auth x = some t → (∀ c', c' ≠ c → conOf x ≠ some c') →
      ∀ c' p, c' ≠ c → s.pending c' = some p →
      ((t.conns c').pc.ticket ≠ none ∧ ∀ r, (t.conns c').pc ≠ .touching r) ∧
      (∀ r, (t.conns c').pc.ticket = some r → Presented E s0 (acts ++ [a]) c' p.req r) ∧
      (true ∈ p.cancels → ∃ r i k tk, (t.conns c').pc = .ended r i k ∧ t.tickets r = some tk ∧ tk.canceled = true) := by
    intro x t c hx hc c' p hne hp
    exact still x t hx c' p hp ((Auth.Step.of_step hx).pc_other (hc c' hne))
  -- a request of connection `c` ends
  have ends : ∀ (x : Auth.Act) (t : Auth.State) (c : Nat) (disk : Http.Str → σ) (e : Answered),
      Auth.step E.cfg s.auth x = some t → (∀ c', c' ≠ c → conOf x ≠ some c') →
      (∀ r, e.ticket = some r → Presented E s0 (acts ++ [a]) e.con e.req r) → (e.ran = true → e.ticket ≠ none) →
      s' = { s with auth := t, disk := disk, pending := Auth.upd s.pending c none, answered := s.answered ++ [e] } →
      Good E s0 (acts ++ [a]) s' := by
    rintro x t c disk e hx hc he1 he2 rfl
    have key : ∀ c' p, Auth.upd s.pending c none c' = some p → c' ≠ c ∧ s.pending c' = some p := by
      intro c' p hp
      by_cases hcc : c' = c
      · subst hcc; simp [Auth.upd] at hp
      · rw [Auth.upd_other _ _ hcc] at hp; exact ⟨hcc, hp⟩
    refine ⟨hreach, fun c' p hp => ?_, fun c' p r hp => ?_, fun c' p hp => ?_, fun e' he' r hr => ?_, fun e' he' hr => ?_⟩
    · obtain ⟨k1, k2⟩ := key c' p hp; exact (rest x t c hx hc c' p k1 k2).1
    · obtain ⟨k1, k2⟩ := key c' p hp; exact (rest x t c hx hc c' p k1 k2).2.1 r
    · obtain ⟨k1, k2⟩ := key c' p hp; exact (rest x t c hx hc c' p k1 k2).2.2
    · simp only [List.mem_append, List.mem_singleton] at he'
      rcases he' with he' | rfl
      · exact hans e' he' r hr
      · exact he1 r hr
    · simp only [List.mem_append, List.mem_singleton] at he'
      rcases he' with he' | rfl
      · exact h.ran e' he' hr
      · exact he2 hr
  have con : ∀ {x : Auth.Act} {c : Nat}, conOf x = some c → ∀ c', c' ≠ c → conOf x ≠ some c' := by
    intro x c hx c' hne hc'
    rw [hx] at hc'; cases hc'; exact hne rfl
  cases hm with
  | other x t ha hs hp =>
    have key : ∀ c p, s.pending c = some p →
        ((t.conns c).pc.ticket ≠ none ∧ ∀ r, (t.conns c).pc ≠ .touching r) ∧
        (∀ r, (t.conns c).pc.ticket = some r → Presented E s0 (acts ++ [.auth x]) c p.req r) ∧
        (true ∈ p.cancels → ∃ r i k tk, (t.conns c).pc = .ended r i k ∧ t.tickets r = some tk ∧ tk.canceled = true) := by
      intro c p hpe
      by_cases hc : conOf x = some c
      · obtain ⟨p1, p2, p3, p4⟩ := hp c p hc hpe
        refine ⟨⟨p2, p3⟩, fun r hr' => hpre c p r hpe (by rw [← p1]; exact hr'), fun hcc => ?_⟩
        obtain ⟨r, i, k, tk, e1, _⟩ := h.cancels c p hpe hcc
        exact absurd e1 (p4 r i k)
      · exact still x t hs c p hpe ((Auth.Step.of_step hs).pc_other hc)
    exact ⟨hreach, fun c p hpe => (key c p hpe).1, fun c p r hpe => (key c p hpe).2.1 r,
      fun c p hpe => (key c p hpe).2.2, hans, h.ran⟩
  | add attrs url t hs =>
    have key := fun c p hpe => still _ t hs c p hpe ((Auth.Step.of_step hs).pc_other (by simp [conOf]))
    exact ⟨hreach, fun c p hpe => (key c p hpe).1, fun c p r hpe => (key c p hpe).2.1 r,
      fun c p hpe => (key c p hpe).2.2, hans, h.ran⟩
  | early c r hp hq =>
    exact ends (.tick 0) s.auth c s.disk ⟨c, none, r, false, _⟩ (by simp [Auth.step]) (by simp [conOf]) (by simp) (by simp) rfl
  | refused c r t hp hq hs ht hre =>
    exact ends _ t c s.disk ⟨c, none, r, false, _⟩ hs (con rfl) (by simp) (by simp) rfl
  | accepted c r t k hp hq hs hau ht =>
    have key : ∀ c' p, Auth.upd s.pending c (some ⟨r, []⟩) c' = some p →
        (c' = c ∧ p = ⟨r, []⟩) ∨ (c' ≠ c ∧ s.pending c' = some p) := by
      intro c' p hp
      by_cases hcc : c' = c
      · subst hcc; simp only [Auth.upd_same, Option.some.injEq] at hp; exact .inl ⟨rfl, hp.symm⟩
      · rw [Auth.upd_other _ _ hcc] at hp; exact .inr ⟨hcc, hp⟩
    refine ⟨hreach, fun c' p hp => ?_, fun c' p k' hp hk => ?_, fun c' p hp hc => ?_, hans, h.ran⟩
    · rcases key c' p hp with ⟨rfl, rfl⟩ | ⟨k1, k2⟩
      · simp [ht, Auth.Pc.ticket]
      · exact (rest _ t c hs (con rfl) c' p k1 k2).1
    · rcases key c' p hp with ⟨rfl, rfl⟩ | ⟨k1, k2⟩
      · simp only [ht, Auth.Pc.ticket, Option.some.injEq] at hk
        subst hk
        exact ⟨acts, [], s, rfl, hr, _, _, needs_job r.job, authorize_permits hau⟩
      · exact (rest _ t c hs (con rfl) c' p k1 k2).2.1 k' hk
    · rcases key c' p hp with ⟨rfl, rfl⟩ | ⟨k1, k2⟩
      · simp at hc
      · exact (rest _ t c hs (con rfl) c' p k1 k2).2.2 hc
  | stopped x c k p y d t ha hp hs hk ht hx =>
    exact ends _ t c s.disk ⟨c, some k, p.req, false, _⟩ hs (con ha)
      (fun r hr' => by cases hr'; exact hpre c p k hp hk) (by simp) rfl
  | looked c r i k p t b hp hs hpc ht hb =>
    have key : ∀ c' p', Auth.upd s.pending c (some { p with cancels := p.cancels ++ [b] }) c' = some p' →
        (c' = c ∧ p' = { p with cancels := p.cancels ++ [b] }) ∨ (c' ≠ c ∧ s.pending c' = some p') := by
      intro c' p' hp'
      by_cases hcc : c' = c
      · subst hcc; simp only [Auth.upd_same, Option.some.injEq] at hp'; exact .inl ⟨rfl, hp'.symm⟩
      · rw [Auth.upd_other _ _ hcc] at hp'; exact .inr ⟨hcc, hp'⟩
    have htk : (t.conns c).pc.ticket = some r := by rw [ht]; cases b <;> rfl
    refine ⟨hreach, fun c' p' hp' => ?_, fun c' p' k' hp' hk => ?_, fun c' p' hp' hc => ?_, hans, h.ran⟩
    · rcases key c' p' hp' with ⟨rfl, rfl⟩ | ⟨k1, k2⟩
      · refine ⟨by rw [htk]; simp, fun r' => ?_⟩
        rw [ht]; cases b <;> simp
      · exact (rest _ t c hs (con rfl) c' p' k1 k2).1
    · rcases key c' p' hp' with ⟨rfl, rfl⟩ | ⟨k1, k2⟩
      · rw [htk] at hk; cases hk
        exact hpre c' p r hp (by rw [hpc]; rfl)
      · exact (rest _ t c hs (con rfl) c' p' k1 k2).2.1 k' hk
    · rcases key c' p' hp' with ⟨rfl, rfl⟩ | ⟨k1, k2⟩
      · have hb' : b = true := by
          simp only [List.mem_append, List.mem_singleton] at hc
          rcases hc with hc | hc
          · obtain ⟨r', i', k', tk, e1, _⟩ := h.cancels c' p hp hc
            rw [hpc] at e1; cases e1
          · exact hc.symm
        subst hb'
        obtain ⟨tk, op, e1, e2, e3⟩ := hb rfl
        obtain ⟨tk', e4, e5⟩ := (Auth.Step.of_step hs).evolve hinv e1
        exact ⟨r, i, k, tk', by rw [ht]; rfl, e4, e5.canceled (h.reach.opFlags r tk op e1 e2 e3)⟩
      · exact (rest _ t c hs (con rfl) c' p' k1 k2).2.2 hc
  | ran c r i k p t tk y hp hs hpc =>
    exact ends _ t c _ ⟨c, some r, p.req, true, _⟩ hs (con rfl)
      (fun r' hr' => by cases hr'; exact hpre c p r hp (by rw [hpc]; rfl)) (by simp) rfl

end Imageio.System
