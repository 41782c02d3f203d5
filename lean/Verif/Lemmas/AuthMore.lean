import Verif.Lemmas.AuthCtx
/-! More lemmas about the authorizer: released contexts, expiry, canceled operations. -/
namespace Imageio.Auth

/-- The ticket object is canceled, has no operation, and all its contexts are closed. -/
def DeadClosed (s : State) (r : Nat) : Prop :=
  ∃ t, s.tickets r = some t ∧ t.canceled = true ∧ t.ongoing = [] ∧ ∀ c k, (c, k) ∈ t.connections → (s.ctxs k).closed = true

theorem DeadClosed.dead {s : State} {r : Nat} (h : DeadClosed s r) : Dead s r := by
  obtain ⟨t, h1, h2, h3, _⟩ := h
  exact ⟨t, h1, h2, h3⟩

theorem closeAll_closed_mono {s : State} {t : Ticket} {k : Nat} (h : (s.ctxs k).closed = true) : ((s.closeAll t).ctxs k).closed = true :=
  (closeAll_ctxs t s k).2.2.2.mpr (.inl h)

theorem DeadClosed.step {cfg : Config} {s s' : State} {a : Act} {r : Nat} (hd : DeadClosed s r) (hi : Inv s) (h : Step cfg s a s') :
    DeadClosed s' r := by
  have hdead := hd.dead
  obtain ⟨t, ht, h1, h2, h3⟩ := hd
  cases h with
  | delCancelUnused d id r0 t0 hd ht0 ho =>
    obtain ⟨f1, f2, f3, f4, f5, f6, f7, f8, f9⟩ := closeAll_fields t0 s
    by_cases hr : r = r0
    · subst hr; rw [ht] at ht0; cases ht0
      refine ⟨{ t with canceled := true }, by simp [State.setTicket, State.setDel], rfl, h2, fun c k hk => ?_⟩
      exact (closeAll_ctxs t s k).2.2.2.mpr (.inr ⟨c, hk⟩)
    · refine ⟨t, by simp [State.setTicket, State.setDel, f2, upd_other _ _ hr, ht], h1, h2, fun c k hk => ?_⟩
      exact closeAll_closed_mono (h3 c k hk)
  | delClose d id r0 t0 hd ht0 =>
    obtain ⟨f1, f2, f3, f4, f5, f6, f7, f8, f9⟩ := closeAll_fields t0 s
    exact ⟨t, by simp [State.setDel, f2, ht], h1, h2, fun c k hk => closeAll_closed_mono (h3 c k hk)⟩
  | addTicket a0 =>
    have := hi.fresh r t ht
    exact ⟨t, by simp only; rw [upd_other _ _ (by omega)]; exact ht, h1, h2, h3⟩
  | openContext c r0 t0 hp ht0 hk =>
    refine ⟨t, ht, h1, h2, fun c' k hk' => ?_⟩
    have := hi.ctxLt r t c' k ht hk'
    simp only [State.goto]
    rw [upd_other _ _ (by omega)]
    exact h3 c' k hk'
  | removeOp c r0 i k t0 op hp ht0 ho =>
    have hb : (s.conns c).pc.busy = some (r0, i, k) := by rw [hp]; rfl
    have hr : r ≠ r0 := fun e => busy_ongoing hi hb (e ▸ hdead)
    exact ⟨t, by simp [State.goto, State.event, State.setTicket, upd_other _ _ hr, ht], h1, h2, h3⟩
  | io c n r0 i k t0 op hp ht0 ho =>
    have hb : (s.conns c).pc.busy = some (r0, i, k) := by rw [hp]; rfl
    have hr : r ≠ r0 := fun e => busy_ongoing hi hb (e ▸ hdead)
    exact ⟨t, by simp [State.goto, State.event, State.setTicket, upd_other _ _ hr, ht], h1, h2, h3⟩
  | _ =>
    unfold DeadClosed
    (try simp only [State.goto, State.event, State.setTicket, State.setDel, State.closeCtx] at *)
    grind [upd, Ticket.extend, Ticket.touch, Ticket.cancelOps]

theorem deleted_deadClosed {cfg : Config} (hc : cfg.removeTimeout ≠ 0) {s : State} (h : Reachable cfg s) (id : String) (r : Nat) :
    Event.deleted id (.ok (some r)) ∈ s.log → DeadClosed s r := by
  refine Reachable.induction (cfg := cfg) (P := fun s => Event.deleted id (.ok (some r)) ∈ s.log → DeadClosed s r) ?_ ?_ h
  · simp [init]
  · intro s a s' _ hi hp hs hm
    by_cases hold : Event.deleted id (.ok (some r)) ∈ s.log
    · exact (hp hold).step hi hs
    · cases hs with
      | delErase d id' r0 r' hd hst =>
        simp only [State.setDel, State.event, List.mem_append, List.mem_singleton] at hm
        rcases hm with hm | hm
        · exact absurd hm hold
        · cases hm
          obtain ⟨t, h1, _, h2, h3, h4⟩ := hi.delErasing d id r hd
          exact ⟨t, h1, h2, h3, h4⟩
      | delCancelUnused d id r t hd ht ho =>
        simp only [State.setTicket, State.setDel, (closeAll_fields t s).2.2.2.2.2.2.2.2] at hm
        simp [hold] at hm
      | delClose d id r t hd ht =>
        simp only [State.setDel, (closeAll_fields t s).2.2.2.2.2.2.2.2] at hm
        simp [hold] at hm
      | _ =>
        (try simp only [State.goto, State.event, State.setTicket, State.setDel, State.closeCtx] at hm)
        grind

/-- The operations of a canceled ticket were canceled. -/
def OpsCanceled (s : State) : Prop := ∀ r t op, s.tickets r = some t → t.canceled = true → op ∈ t.ongoing → op.canceled = true

theorem OpsCanceled.step {cfg : Config} {s s' : State} {a : Act} (h : OpsCanceled s) (hi : Inv s) (hs : Step cfg s a s') :
    OpsCanceled s' := by
  unfold OpsCanceled at *
  cases hs with
  | delCancelUnused d id r t hd ht ho =>
    obtain ⟨f1, f2, f3, f4, f5, f6, f7, f8, f9⟩ := closeAll_fields t s
    simp only [State.setTicket, State.setDel, f2]; grind [upd]
  | delClose d id r t hd ht =>
    obtain ⟨f1, f2, f3, f4, f5, f6, f7, f8, f9⟩ := closeAll_fields t s
    simp only [State.setDel, f2]; exact h
  | removeOp c r i k t op hp ht ho =>
    obtain ⟨f1, f2, f3, f4, f5, _⟩ := removeOperation_fields t op
    simp only [State.goto, State.event, State.setTicket]
    grind [upd]
  | _ =>
    (try simp only [State.goto, State.event, State.setTicket, State.setDel, State.closeCtx])
    grind [upd, Ticket.extend, Ticket.touch, Ticket.advance, Ticket.cancelOps, Ticket.new]

theorem Reachable.opsCanceled {cfg : Config} {s : State} (h : Reachable cfg s) : OpsCanceled s :=
  Reachable.induction (cfg := cfg) (P := OpsCanceled) (by simp [OpsCanceled, init]) (fun _ _ _ _ hi hp hs => hp.step hi hs) h

/-- What a step does to the expiration time of a ticket. -/
theorem Step.expires {cfg : Config} {s s' : State} {a : Act} (hi : Inv s) (h : Step cfg s a s') {r : Nat} {t t' : Ticket}
    (ht : s.tickets r = some t) (ht' : s'.tickets r = some t') :
    t'.expires = t.expires ∨
    (∃ c, a = .touch c ∧ (s.conns c).pc = .touching r ∧ t'.expires = seconds cfg s + t.attrs.timeout) ∨
    (∃ id n, a = .extend id n ∧ s.store id = some r ∧ t'.expires = seconds cfg s + n) := by
  cases h with
  | addTicket a0 =>
    have := hi.fresh r t ht
    simp only [upd_other _ _ (show r ≠ s.nextTicket by omega)] at ht'
    rw [ht] at ht'; cases ht'; exact .inl rfl
  | delCancelUnused d id r0 t0 hd ht0 ho =>
    obtain ⟨f1, f2, f3, f4, f5, f6, f7, f8, f9⟩ := closeAll_fields t0 s
    simp only [State.setTicket, State.setDel, f2] at ht'; grind [upd]
  | delClose d id r t hd ht =>
    obtain ⟨f1, f2, f3, f4, f5, f6, f7, f8, f9⟩ := closeAll_fields t s
    simp only [State.setDel, f2] at ht'; grind [upd]
  | removeOp c r i k t op hp ht ho =>
    obtain ⟨f1, f2, f3, f4, f5, _⟩ := removeOperation_fields t op
    simp only [State.goto, State.event, State.setTicket] at ht'
    grind [upd]
  | _ =>
    (try simp only [State.goto, State.event, State.setTicket, State.setDel, State.closeCtx] at ht')
    grind [upd, Ticket.extend, Ticket.touch, Ticket.advance, Ticket.cancelOps]

end Imageio.Auth
