import Verif.Model.System
import Verif.Lemmas.AuthCtx
import Verif.Lemmas.AuthMore
import Verif.Lemmas.AuthHistory
/-!
What the steps of `Model/Auth.lean` do to the connections and contexts, for the server with interleaved storage operations.
-/
namespace Imageio.Auth

theorem closeAll_conns (s : State) (t : Ticket) : (s.closeAll t).conns = s.conns := (closeAll_fields t s).2.2.2.2.2.1
theorem closeAll_nextCtx (s : State) (t : Ticket) : (s.closeAll t).nextCtx = s.nextCtx := (closeAll_fields t s).2.2.2.2.1
theorem closeAll_nextTicket (s : State) (t : Ticket) : (s.closeAll t).nextTicket = s.nextTicket := (closeAll_fields t s).2.2.1
theorem closeAll_owner (s : State) (t : Ticket) (k : Nat) : ((s.closeAll t).ctxs k).ticket = (s.ctxs k).ticket :=
  (closeAll_ctxs t s k).2.1

/-- A step of another thread keeps the thread of a connection. -/
theorem Step.pc_other {cfg : Config} {s s' : State} {a : Act} (h : Step cfg s a s') {c : Nat} (hc : System.conOf a ≠ some c) :
    (s'.conns c).pc = (s.conns c).pc := by
  cases h <;> first
    | rfl
    | (simp only [State.goto, State.event, State.setTicket, State.setDel, State.closeCtx, closeAll_conns] <;>
        rw [upd_other _ _ (fun h => hc (by rw [h]; rfl))])
    | simp only [State.setTicket, State.setDel, closeAll_conns]

/-- Only starting and ending an operation changes which operation a connection runs. -/
theorem Step.busy {cfg : Config} {s s' : State} {a : Act} (h : Step cfg s a s') {c : Nat} (h1 : ∀ o, a ≠ .startOp c o)
    (h2 : a ≠ .removeOp c) : (s'.conns c).pc.busy = (s.conns c).pc.busy := by
  by_cases hc : System.conOf a = some c
  · cases h <;> simp only [System.conOf, Option.some.injEq, reduceCtorEq] at hc <;> subst hc <;> first
      | rfl
      | exact absurd rfl h2
      | exact absurd rfl (h1 _)
      | simp only [State.goto, State.event, State.setTicket, State.closeCtx, upd_same, Pc.busy, *]
  · rw [h.pc_other hc]

/-- The number of contexts and tickets does not decrease, and contexts keep their tickets. -/
theorem Step.counts {cfg : Config} {s s' : State} {a : Act} (h : Step cfg s a s') :
    s.nextCtx ≤ s'.nextCtx ∧ (∀ k, k < s.nextCtx → (s'.ctxs k).ticket = (s.ctxs k).ticket) := by
  cases h
  all_goals first
    | exact ⟨Nat.le_refl _, fun _ _ => rfl⟩
    | exact ⟨Nat.le_of_eq (closeAll_nextCtx _ _).symm, fun _ _ => closeAll_owner _ _ _⟩
    | exact ⟨Nat.le_succ _, fun k hk => by
        show (upd s.ctxs s.nextCtx _ k).ticket = _
        rw [upd_other _ _ (by omega)]⟩
    | exact ⟨Nat.le_refl _, fun k _ => by
        simp only [State.goto, State.setTicket, State.closeCtx, upd]
        split
        · subst_vars; rfl
        · rfl⟩

/-- A thread that ended an operation had already ended it, or ends it now. -/
theorem Step.ended {cfg : Config} {s s' : State} {a : Act} (h : Step cfg s a s') {c r i k : Nat}
    (he : (s'.conns c).pc = .ended r i k) : (s.conns c).pc = .ended r i k ∨ a = .check c ∨ a = .endOp c := by
  by_cases hc : System.conOf a = some c
  · cases h <;> simp only [System.conOf, Option.some.injEq, reduceCtorEq] at hc <;> subst hc <;> first
      | exact .inr (.inl rfl)
      | exact .inr (.inr rfl)
      | exact .inl he
      | (simp only [State.goto, State.event, State.setTicket, State.closeCtx, upd_same] at he; first
          | cases he
          | (split at he <;> cases he)
          | exact .inl he)
  · rw [h.pc_other hc] at he
    exact .inl he

theorem authorize_may {cfg : Config} {s : State} {id op : String} {r : Nat} (h : authorize cfg s id op = .ok r) :
    ∃ t, s.tickets r = some t ∧ t.may op = true := by
  unfold authorize at h
  split at h
  · cases h
  · split at h
    · cases h
    · rename_i t ht
      split at h
      · cases h
      · split at h
        · cases h
        · split at h
          · cases h
          · rename_i hm
            cases h; exact ⟨t, ht, by simpa using hm⟩

/-- The thread of a connection stays with its ticket until it is idle; a request that is authorized starts with one. -/
theorem Step.ticket {cfg : Config} {s s' : State} {a : Act} (h : Step cfg s a s') {c r : Nat} (hr : (s'.conns c).pc.ticket = some r) :
    (s.conns c).pc.ticket = some r ∨ ∃ id op, a = .request c id op ∧ authorize cfg s id op = .ok r := by
  by_cases hc : System.conOf a = some c
  · cases h <;> simp only [System.conOf, Option.some.injEq, reduceCtorEq] at hc <;> subst hc <;> first
      | exact .inl hr
      | (simp only [State.goto, State.event, State.setTicket, State.closeCtx, upd_same, Pc.ticket, reduceCtorEq] at hr; done)
      | (simp only [State.goto, State.event, State.setTicket, State.closeCtx, upd_same, Pc.ticket, Option.some.injEq] at hr
         subst hr
         first
          | exact .inr ⟨_, _, rfl, ‹_›⟩
          | exact .inl (by simp only [Pc.ticket, *]))
      | (simp only [State.goto, State.event, State.setTicket, State.closeCtx, upd_same] at hr
         split at hr
         · cases hr
         · exact .inl (by simpa only [Pc.ticket, *] using hr))
      | (simp only [State.setTicket, State.closeCtx, upd_same] at hr; exact .inl hr)
  · rw [h.pc_other hc] at hr
    exact .inl hr

end Imageio.Auth
