import Verif.Lemmas.AuthLog
/-! Contexts: who owns them, and that none is lost. -/
namespace Imageio.Auth
open Imageio.Measure

theorem idleClosed_step {cfg : Config} {s s' : State} {a : Act} (h : ∀ c, (s.conns c).closed = true → (s.conns c).pc = .idle)
    (hs : Step cfg s a s') : ∀ c, (s'.conns c).closed = true → (s'.conns c).pc = .idle := by
  cases hs with
  | delCancelUnused d id r t hd ht ho =>
    show ∀ c, ((s.closeAll t).conns c).closed = true → ((s.closeAll t).conns c).pc = .idle
    rw [(closeAll_fields t s).2.2.2.2.2.1]; exact h
  | delClose d id r t hd ht =>
    show ∀ c, ((s.closeAll t).conns c).closed = true → ((s.closeAll t).conns c).pc = .idle
    rw [(closeAll_fields t s).2.2.2.2.2.1]; exact h
  | _ =>
    intro x hx
    try simp only [State.goto, State.event, State.setTicket, State.setDel, State.closeCtx] at *
    grind [upd]

theorem Reachable.idleClosed {cfg : Config} {s : State} (h : Reachable cfg s) :
    ∀ c, (s.conns c).closed = true → (s.conns c).pc = .idle :=
  Reachable.induction (cfg := cfg) (P := fun s => ∀ c, (s.conns c).closed = true → (s.conns c).pc = .idle)
    (by simp [init]) (fun _ _ _ _ _ hp hs => idleClosed_step hp hs) h

/-- The contexts of a ticket: at most one for a connection, and none for a connection that is
opening one. -/
structure KeyInv (s : State) : Prop where
  uniq : ∀ r t c k k', s.tickets r = some t → (c, k) ∈ t.connections → (c, k') ∈ t.connections → k = k'
  opened : ∀ c r k k' t, (s.conns c).pc = .opened r k → s.tickets r = some t → (c, k') ∉ t.connections

theorem lookup_none {c k : Nat} {l : List (Nat × Nat)} (h : l.lookup c = none) : (c, k) ∉ l := by
  intro hm
  have := List.lookup_eq_none_iff.mp h (c, k) hm
  simp at this

theorem KeyInv.step {cfg : Config} {s s' : State} {a : Act} (hi : Inv s) (h : KeyInv s) (hs : Step cfg s a s') : KeyInv s' := by
  obtain ⟨h1, h2⟩ := h
  cases hs with
  | delCancelUnused d id r t hd ht ho =>
    obtain ⟨f1, f2, f3, f4, f5, f6, f7, f8, f9⟩ := closeAll_fields t s
    constructor <;> simp only [State.setTicket, State.setDel, f2, f6] <;> grind [upd]
  | delClose d id r t hd ht =>
    obtain ⟨f1, f2, f3, f4, f5, f6, f7, f8, f9⟩ := closeAll_fields t s
    constructor <;> simp only [State.setDel, f2, f6] <;> assumption
  | addTicket a =>
    have := hi.fresh
    constructor <;> simp only [] <;> grind [upd, Ticket.new]
  | openContext c r t hp ht hk =>
    have := @lookup_none c
    constructor <;> simp only [State.goto] <;> grind [upd, Ticket.getContext]
  | removeOp c r i k t op hp ht ho =>
    obtain ⟨f1, f2, f3, f4, _⟩ := removeOperation_fields t op
    constructor <;> simp only [State.goto, State.event, State.setTicket] <;> grind [upd]
  | _ =>
    constructor <;> (try simp only [State.goto, State.event, State.setTicket, State.setDel, State.closeCtx] at *) <;>
      grind [upd, Ticket.extend, Ticket.touch, Ticket.advance, Ticket.cancelOps]

theorem Reachable.keyInv {cfg : Config} {s : State} (h : Reachable cfg s) : KeyInv s :=
  Reachable.induction (cfg := cfg) (P := KeyInv) ⟨by simp [init], by simp [init]⟩ (fun _ _ _ _ hi hp hs => hp.step hi hs) h

/-- No context is lost: a context that is not closed is being opened or is known to its ticket. -/
structure Tracked (s : State) : Prop where
  ticket : ∀ k, k < s.nextCtx → ∃ t, s.tickets (s.ctxs k).ticket = some t ∧ (s.ctxs k).writable = t.attrs.ops.contains "write"
  known : ∀ k, k < s.nextCtx → (s.ctxs k).closed = false →
    (s.conns (s.ctxs k).con).pc = .opened (s.ctxs k).ticket k ∨
    ∃ t, s.tickets (s.ctxs k).ticket = some t ∧ ((s.ctxs k).con, k) ∈ t.connections

theorem Tracked.step {cfg : Config} {s s' : State} {a : Act} (hi : Inv s) (hk : KeyInv s) (h : Tracked s)
    (hs : Step cfg s a s') : Tracked s' := by
  have evo := fun r t ht => @Step.evolve cfg s s' a hi hs r t ht
  obtain ⟨h1, h2⟩ := h
  cases hs with
  | delCancelUnused d id r t hd ht ho =>
    obtain ⟨f1, f2, f3, f4, f5, f6, f7, f8, f9⟩ := closeAll_fields t s
    have hc := closeAll_ctxs t s
    constructor <;> simp only [State.setTicket, State.setDel, f2, f5, f6] <;> grind [upd]
  | delClose d id r t hd ht =>
    obtain ⟨f1, f2, f3, f4, f5, f6, f7, f8, f9⟩ := closeAll_fields t s
    have hc := closeAll_ctxs t s
    constructor <;> simp only [State.setDel, f2, f5, f6] <;> grind
  | addTicket a =>
    have := hi.fresh
    constructor <;> simp only [] <;> grind [upd, Ticket.new]
  | addContext c r k t hp ht hc =>
    have := hi.opened c r k hp
    have := hk.opened c r k
    have := hi.ctxCon
    constructor <;> simp only [State.goto, State.setTicket] <;> grind [upd]
  | addContextRefused c r k t hp ht hc =>
    have := hi.opened c r k hp
    constructor <;> simp only [State.goto, State.closeCtx] <;> grind [upd]
  | closeContext c u r rest t k hp hr ht hl =>
    have := hi.ctxCon
    have := hi.ctxLt
    have := hk.uniq
    have := lookup_mem hl
    constructor <;> simp only [State.setTicket, State.closeCtx] <;> grind [upd]
  | removeOp c r i k t op hp ht ho =>
    obtain ⟨f1, f2, f3, f4, _⟩ := removeOperation_fields t op
    constructor <;> simp only [State.goto, State.event, State.setTicket] <;> grind [upd]
  | _ =>
    constructor <;> (try simp only [State.goto, State.event, State.setTicket, State.setDel, State.closeCtx] at *) <;>
      grind [upd, Ticket.extend, Ticket.touch, Ticket.advance, Ticket.cancelOps]

theorem Reachable.tracked {cfg : Config} {s : State} (h : Reachable cfg s) : Tracked s :=
  (Reachable.induction (cfg := cfg) (P := fun s => KeyInv s ∧ Tracked s)
    ⟨⟨by simp [init], by simp [init]⟩, ⟨by simp [init], by simp [init]⟩⟩
    (fun _ _ _ _ hi hp hs => ⟨hp.1.step hi hs, hp.2.step hi hp.1 hs⟩) h).2

theorem openCount_add (c r : Nat) (log : List Event) (e : Event) :
    openCount c r (log ++ [e]) = openCount c r log + if e.opens c r then 1 else 0 := by
  simp [openCount, List.countP_append, List.countP_cons]

theorem openCount_closed (c r : Nat) (log : List Event) (l : List (Nat × Nat)) :
    openCount c r (log ++ l.map fun p => Event.ctxClosed p.2) = openCount c r log := by
  simp only [openCount, List.countP_append, Nat.add_eq_left, List.countP_eq_zero]
  intro e he
  obtain ⟨p, _, rfl⟩ := List.mem_map.mp he
  simp [Event.opens]

/-- A connection opens a backend for a ticket object at most once. -/
structure Once (s : State) : Prop where
  le : ∀ c r, openCount c r s.log ≤ 1
  fresh : ∀ c r, openCount c r s.log ≠ 0 → r < s.nextTicket
  used : ∀ c r t, openCount c r s.log ≠ 0 → s.tickets r = some t → (s.conns c).closed = true ∨
    (∃ k, (s.conns c).pc = .opened r k) ∨ (∃ k, (c, k) ∈ t.connections) ∨
    (t.canceled = true ∧ (s.conns c).pc ≠ .authorized r)

theorem authorize_ok {cfg : Config} {s : State} {id op : String} {r : Nat} (h : authorize cfg s id op = .ok r) :
    ∃ t, s.tickets r = some t ∧ t.canceled = false := by
  unfold authorize at h
  split at h
  · cases h
  · split at h
    · cases h
    · rename_i t ht
      split at h
      · cases h
      · split at h
        · cases h
        · split at h
          · cases h
          · rename_i hc _ _
            cases h; exact ⟨t, ht, by simpa using hc⟩

theorem Once.step {cfg : Config} {s s' : State} {a : Act} (hi : Inv s) (hcl : ∀ c, (s.conns c).closed = true → (s.conns c).pc = .idle)
    (h : Once s) (hs : Step cfg s a s') : Once s' := by
  obtain ⟨h1, h2, h3⟩ := h
  have ev := openCount_add
  have evc := openCount_closed
  cases hs with
  | delCancelUnused d id r t hd ht ho =>
    obtain ⟨f1, f2, f3, f4, f5, f6, f7, f8, f9⟩ := closeAll_fields t s
    constructor <;> simp only [State.setTicket, State.setDel, f2, f3, f6, f9, evc] <;> grind [upd]
  | delClose d id r t hd ht =>
    obtain ⟨f1, f2, f3, f4, f5, f6, f7, f8, f9⟩ := closeAll_fields t s
    constructor <;> simp only [State.setDel, f2, f3, f6, f9, evc] <;> assumption
  | addTicket a =>
    have := hi.fresh
    constructor <;> simp only [] <;> grind [upd, Ticket.new]
  | request c id op r hc hp ha =>
    obtain ⟨t, ht, htc⟩ := authorize_ok ha
    constructor <;> simp only [State.goto] <;> grind [upd]
  | openContext c r t hp ht hk =>
    have := @lookup_none c
    have := hi.fresh
    have e : ∀ c' r' k, Event.opens c' r' (Event.ctxOpened c r k) = (c = c' && r = r') := fun _ _ _ => rfl
    constructor <;> simp only [State.goto, ev, e] <;> grind [upd, Ticket.getContext]
  | addContext c r k t hp ht hc =>
    constructor <;> simp only [State.setTicket] <;> grind [upd]
  | removeOp c r i k t op hp ht ho =>
    obtain ⟨f1, f2, f3, f4, _⟩ := removeOperation_fields t op
    constructor <;> simp only [State.goto, State.event, State.setTicket, ev, Event.opens] <;> grind [upd]
  | _ =>
    constructor <;> (try simp only [State.goto, State.event, State.setTicket, State.setDel, State.closeCtx, ev, Event.opens] at *) <;>
      grind [upd, Ticket.extend, Ticket.touch, Ticket.advance, Ticket.cancelOps]

theorem Reachable.once {cfg : Config} {s : State} (h : Reachable cfg s) : Once s :=
  Reachable.induction (cfg := cfg) (P := Once)
    ⟨by simp [init, openCount], by simp [init, openCount], by simp [init]⟩
    (fun _ _ _ hr hi hp hs => hp.step hi hr.idleClosed hs) h

theorem UniqueIds.back {cfg : Config} {s s' : State} {a : Act} (hi : Inv s) (hs : Step cfg s a s') (h : UniqueIds s') :
    UniqueIds s := by
  intro r r' t t' ht ht' e
  obtain ⟨u, hu, e1⟩ := hs.evolve hi ht
  obtain ⟨u', hu', e2⟩ := hs.evolve hi ht'
  exact h r r' u u' hu hu' (by rw [e1.attrs, e2.attrs]; exact e)

/-- Every context known to a ticket will be closed when its connection ends. -/
def Registered (s : State) : Prop :=
  ∀ r t c k, s.tickets r = some t → (c, k) ∈ t.connections → (t.attrs.uuid, r) ∈ (s.conns c).registered

theorem Registered.step {cfg : Config} {s s' : State} {a : Act} (hi : Inv s) (hu : UniqueIds s) (h : Registered s)
    (hs : Step cfg s a s') : Registered s' := by
  unfold Registered UniqueIds at *
  cases hs with
  | delCancelUnused d id r t hd ht ho =>
    obtain ⟨f1, f2, f3, f4, f5, f6, f7, f8, f9⟩ := closeAll_fields t s
    simp only [State.setTicket, State.setDel, f2, f6]; grind [upd]
  | delClose d id r t hd ht =>
    obtain ⟨f1, f2, f3, f4, f5, f6, f7, f8, f9⟩ := closeAll_fields t s
    simp only [State.setDel, f2, f6]; assumption
  | addTicket a =>
    have := hi.fresh
    simp only []; grind [upd, Ticket.new]
  | addContext c r k t hp ht hc =>
    simp only [State.setTicket]; grind [upd]
  | removeOp c r i k t op hp ht ho =>
    obtain ⟨f1, f2, f3, f4, _⟩ := removeOperation_fields t op
    simp only [State.goto, State.event, State.setTicket]; grind [upd]
  | closeNone c u r rest t hp hr ht hl =>
    have := @lookup_none c
    simp only []; grind [upd]
  | closeContext c u r rest t k hp hr ht hl =>
    simp only [State.setTicket, State.closeCtx]; grind [upd]
  | _ =>
    (try simp only [State.goto, State.event, State.setTicket, State.setDel, State.closeCtx] at *)
    grind [upd, Ticket.extend, Ticket.touch, Ticket.advance, Ticket.cancelOps]

theorem Reachable.registered {cfg : Config} {s : State} (h : Reachable cfg s) (hu : UniqueIds s) : Registered s := by
  revert hu
  exact Reachable.induction (cfg := cfg) (P := fun s => UniqueIds s → Registered s) (by simp [Registered, init])
    (fun _ _ _ _ hi hp hs hu => (hp (hu.back hi hs)).step hi (hu.back hi hs) hs) h

end Imageio.Auth
