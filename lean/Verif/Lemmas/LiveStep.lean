import Verif.Model.Live
import Verif.Lemmas.LiveAuth
import Verif.Lemmas.ConcurrentOwned
/-!
The steps of `Model/Live.lean`, and what is true in all of its executions, whatever the storage.
-/
namespace Imageio.Live
open Imageio.Conc
open Imageio.Auth (upd upd_same upd_other)

variable {σ Γ τ : Type} {E : Env σ Γ τ} {s s' : Live σ Γ τ} {a : Act τ}

/-- The ways a step can go. -/
inductive Moves (E : Env σ Γ τ) (s : Live σ Γ τ) : Act τ → Live σ Γ τ → Prop
  | call (c : Nat) (j : Job τ) (r i k : Nat) (f : σ → σ) (next : σ → Prog σ Unit) (hj : s.pending c = some j)
      (hp : (s.auth.conns c).pc = .running r i k) (hf : s.prog c = .step f next) : Moves E s (.call c) (Live.call E s c k f next)
  | start (c : Nat) (j : Job τ) (r k : Nat) (t : Auth.State) (hj : s.pending c = some j) (hp : (s.auth.conns c).pc = .ready r k)
      (ht : Auth.step E.cfg s.auth (.startOp c j.offset) = some t) (hs : ¬ System.sizeOf s.auth r < j.offset + j.size)
      (hi : (t.conns c).pc ≠ .idle) :
      Moves E s (.auth (.startOp c j.offset)) { open_ E s t with prog := upd s.prog c (j.prog E.PB E.S) }
  | finish (c : Nat) (j : Job τ) (r i k : Nat) (t : Auth.State) (hj : s.pending c = some j)
      (hp : (s.auth.conns c).pc = .ended r i k) (ht : Auth.step E.cfg s.auth (.removeOp c) = some t) :
      Moves E s (.auth (.removeOp c)) { open_ E s t with
        pending := upd s.pending c none
        ended := s.ended ++ [⟨c, r, s.url (s.auth.ctxs k).ticket, j, succeeded (s.prog c) && (t.conns c).pc ≠ .idle⟩] }
  | add (attrs : Auth.Attrs) (url : Http.Str) (t : Auth.State) (ht : Auth.step E.cfg s.auth (.addTicket attrs) = some t) :
      Moves E s (.add attrs url) { s with auth := t, url := upd s.url s.auth.nextTicket url }
  | refused (c : Nat) (id : String) (j : Job τ) (t : Auth.State) (ht : Auth.step E.cfg s.auth (.request c id "write") = some t)
      (hi : (t.conns c).pc = .idle) : Moves E s (.request c id j) { s with auth := t }
  | request (c : Nat) (id : String) (j : Job τ) (t : Auth.State) (ht : Auth.step E.cfg s.auth (.request c id "write") = some t)
      (hi : (t.conns c).pc ≠ .idle) : Moves E s (.request c id j) { s with auth := t, pending := upd s.pending c (some j) }
  | drop (b : Auth.Act) (c : Nat) (t : Auth.State) (ht : Auth.step E.cfg s.auth b = some t) (ha : ∀ x, b ≠ .addTicket x)
      (hr : b ≠ .removeOp c) (hc : System.conOf b = some c) (hi : (t.conns c).pc = .idle) :
      Moves E s (.auth b) { open_ E s t with pending := upd s.pending c none }
  | other (b : Auth.Act) (t : Auth.State) (ht : Auth.step E.cfg s.auth b = some t) (ha : ∀ x, b ≠ .addTicket x)
      (hc : ∀ c, System.conOf b = some c → s.pending c ≠ none → (∀ o, b ≠ .startOp c o) ∧ b ≠ .removeOp c ∧
        (t.conns c).pc ≠ .idle ∧ ∀ r i k, (t.conns c).pc = .ended r i k → returned (s.prog c) = true ∨ (s.auth.conns c).pc = .ended r i k) :
      Moves E s (.auth b) (open_ E s t)
  | look (c r i k : Nat) (q : Query) (hj : s.pending c = none) (hp : (s.auth.conns c).pc = .running r i k) :
      Moves E s (.look c q)
        { s with loc := upd s.loc k (q.after E.B (E.M.view (s.loc k) (s.mem (s.url (s.auth.ctxs k).ticket)))) }

theorem proceed_moves {c : Nat} {j : Job τ} {b : Auth.Act} {t : Auth.State} (hc : System.conOf b = some c)
    (hj : s.pending c = some j) (ht : Auth.step E.cfg s.auth b = some t) (ha : ∀ x, b ≠ .addTicket x)
    (h : proceed E s t c j b = some s') : Moves E s (.auth b) s' := by
  have hother : (∀ o, b ≠ .startOp c o) → b ≠ .removeOp c → (t.conns c).pc ≠ .idle →
      (∀ r i k, (t.conns c).pc = .ended r i k → returned (s.prog c) = true ∨ (s.auth.conns c).pc = .ended r i k) →
      Moves E s (.auth b) (open_ E s t) := by
    intro h1 h2 h3 h4
    refine .other b t ht ha fun c' hc' _ => ?_
    rw [hc] at hc'
    cases hc'
    exact ⟨h1, h2, h3, h4⟩
  have hst := Auth.Step.of_step ht
  unfold proceed at h
  simp only at h
  split at h
  · rename_i c0 offset r k hp
    cases hc
    split at h
    · cases h
    · rename_i hn
      simp only [not_or, ne_eq, Decidable.not_not] at hn
      obtain ⟨rfl, hn⟩ := hn
      split at h
      · cases h
        exact .drop _ _ t ht ha (by simp) rfl ‹_›
      · cases h
        exact .start c j r k t hj hp ht hn ‹_›
  · rename_i c0 r i k hp
    cases hc
    have hpc : (t.conns c).pc = .running r i k ∨ (t.conns c).pc = .ended r i k := by
      cases hst with
      | checkGo _ r' i' k' _ _ hp' => rw [hp] at hp'; cases hp'; exact .inl (by simp [Auth.State.goto, upd])
      | checkStop _ r' i' k' _ _ hp' => rw [hp] at hp'; cases hp'; exact .inr (by simp [Auth.State.goto, upd])
    split at h
    · split at h
      · cases h
        rename_i hret
        exact hother (by simp) (by simp) (by rcases hpc with h | h <;> rw [h] <;> simp) fun _ _ _ _ => .inl hret
      · cases h
    · cases h
      rename_i hne
      exact hother (by simp) (by simp) (by rcases hpc with h | h <;> rw [h] <;> simp) fun r i k he => absurd he (hne r i k)
  · rename_i c0
    cases hc
    split at h
    · cases h
      rename_i hret
      refine hother (by simp) (by simp) ?_ fun _ _ _ _ => .inl hret
      cases hst <;> simp [Auth.State.goto, upd]
    · cases h
  · rename_i c0 r i k hp
    cases hc
    cases h
    exact .finish c j r i k t hj hp ht
  · cases h
  · rename_i n3 n5 n1 n2 n4
    split at h
    · cases h
      refine .drop _ c t ht ha ?_ hc ‹_›
      rintro rfl
      cases hst with
      | removeOp _ r i k _ _ hp => exact n4 c r i k rfl hp
    · cases h
      refine hother ?_ ?_ ‹_› ?_
      · rintro o rfl
        cases hst with
        | startRefused _ _ r k _ hp => exact n1 c o r k rfl hp
        | startOp _ _ r k _ hp => exact n1 c o r k rfl hp
      · rintro rfl
        cases hst with
        | removeOp _ r i k _ _ hp => exact n4 c r i k rfl hp
      · intro r i k he
        rcases hst.ended he with h | rfl | rfl
        · exact .inr h
        · cases hst with
          | checkGo _ r' i' k' _ _ hp' => exact (n2 c r' i' k' rfl hp').elim
          | checkStop _ r' i' k' _ _ hp' => exact (n2 c r' i' k' rfl hp').elim
        · exact (n3 c rfl).elim

theorem step_moves (h : step E s a = some s') : Moves E s a s' := by
  unfold step at h
  split at h
  · cases h
  · rename_i b hb
    have ha : ∀ x, b ≠ .addTicket x := fun x hx => hb x hx
    split at h
    · cases h
    · rename_i t ht
      split at h
      · rename_i hp
        cases h
        refine .other b t ht ha fun c hc hn => ?_
        unfold pendingOf at hp
        rw [hc] at hp
        simp only at hp
        split at hp
        · exact absurd ‹_› hn
        · cases hp
      · rename_i c j hp
        unfold pendingOf at hp
        split at hp
        · cases hp
        · rename_i c' hc
          split at hp
          · cases hp
          · rename_i j' hj
            cases hp
            exact proceed_moves hc hj ht ha h
  · split at h
    · cases h
    · rename_i t ht
      cases h
      exact .add _ _ t ht
  · split at h
    · cases h
    · rename_i t ht
      split at h
      · cases h
        exact .refused _ _ _ t ht ‹_›
      · cases h
        exact .request _ _ _ t ht ‹_›
  · split at h
    · rename_i r i k f next hj hp hf
      cases h
      exact .call _ _ _ _ _ _ _ hj hp hf
    · cases h
  · split at h
    · rename_i r i k hj hp
      cases h
      exact .look _ _ _ _ _ hj hp
    · cases h

end Imageio.Live
