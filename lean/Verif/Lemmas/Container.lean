import Verif.Model.Container
import Verif.Lemmas.System
import Verif.Lemmas.AuthLog

/-! Where the tickets of the server come from. -/
namespace Imageio.Auth

theorem Step.no_ticket {cfg : Config} {s s' : State} {a : Act} (h : Step cfg s a s') {r : Nat}
    (hr : s.tickets r = none) : s'.tickets r = none ∨
      ∃ at_, a = .addTicket at_ ∧ r = s.nextTicket ∧ s'.tickets r = some (Ticket.new at_ (seconds cfg s)) := by
  have key : ∀ {r0 : Nat} {t0 T : Ticket}, s.tickets r0 = some t0 → upd s.tickets r0 (some T) r = none := by
    intro r0 t0 T h0
    have : r ≠ r0 := by rintro rfl; rw [h0] at hr; cases hr
    rw [upd_other _ _ this, hr]
  cases h with
  | addTicket a =>
    by_cases he : r = s.nextTicket
    · exact .inr ⟨a, rfl, he, by simp [upd, he]⟩
    · exact .inl (by simp only [upd_other _ _ he, hr])
  | delCancelUnused d id r0 t hd ht ho =>
    obtain ⟨f1, f2, f3, f4, f5, f6, f7, f8, f9⟩ := closeAll_fields t s
    left; simp only [State.setTicket, State.setDel, f2]; exact key ht
  | delClose d id r0 t hd ht =>
    obtain ⟨f1, f2, f3, f4, f5, f6, f7, f8, f9⟩ := closeAll_fields t s
    left; simp only [State.setDel, f2]; exact hr
  | _ =>
    left
    (try simp only [State.goto, State.event, State.setTicket, State.setDel, State.closeCtx])
    first
      | exact hr
      | (apply key; assumption)
      | grind [upd]

theorem Step.attrs_from {cfg : Config} {s s' : State} {a : Act} (hi : Inv s) (h : Step cfg s a s') {r : Nat} {t : Ticket}
    (ht : s'.tickets r = some t) : (∃ t0, s.tickets r = some t0 ∧ t.attrs = t0.attrs) ∨
      (a = .addTicket t.attrs ∧ r = s.nextTicket) := by
  cases h0 : s.tickets r with
  | some t0 =>
    obtain ⟨t', h1, h2⟩ := h.evolve hi h0
    rw [ht] at h1; cases h1
    exact .inl ⟨t0, rfl, h2.attrs⟩
  | none =>
    rcases h.no_ticket h0 with h1 | ⟨at_, h1, h2, h3⟩
    · rw [ht] at h1; cases h1
    · rw [ht] at h3; cases h3
      exact .inr ⟨h1, h2⟩

end Imageio.Auth

namespace Imageio.System
open Imageio.Spec

/-- The tickets of the server were added, with their urls. -/
def Added {σ : Type} (acts : List Act) (s : Sys σ) : Prop :=
  ∀ r t, s.auth.tickets r = some t → Act.add t.attrs (s.url r) ∈ acts

theorem Added.step {σ : Type} {E : Env σ} {acts : List Act} {s s' : Sys σ} {a : Act} (hr : Auth.Reachable E.cfg s.auth)
    (h : Added acts s) (hm : Move E s a s') : Added (acts ++ [a]) s' := by
  have hi := hr.inv
  have keep : ∀ {x : Auth.Act} {t : Auth.State}, (∀ at_, x ≠ .addTicket at_) → Auth.step E.cfg s.auth x = some t →
      ∀ r tk, t.tickets r = some tk → Act.add tk.attrs (s.url r) ∈ acts ++ [a] := by
    intro x t hx hs r tk htk
    rcases (Auth.Step.of_step hs).attrs_from hi htk with ⟨t0, h0, h1⟩ | ⟨h1, _⟩
    · rw [h1]; exact List.mem_append_left _ (h r t0 h0)
    · exact absurd h1 (hx _)
  cases hm with
  | other x t ha hs hp => exact keep ha hs
  | add attrs url t hs =>
    intro r tk htk
    rcases (Auth.Step.of_step hs).attrs_from hi htk with ⟨t0, h0, h1⟩ | ⟨h1, h2⟩
    · have hlt := hi.fresh r t0 h0
      simp only [Auth.upd_other _ _ (show r ≠ s.auth.nextTicket by omega)]
      rw [h1]; exact List.mem_append_left _ (h r t0 h0)
    · cases h1
      subst h2
      simp [Auth.upd]
  | early c r => exact fun r' t ht => List.mem_append_left _ (h r' t ht)
  | refused c r t hp hq hs => exact keep (fun _ h => by cases h) hs
  | accepted c r t k hp hq hs => exact keep (fun _ h => by cases h) hs
  | stopped x c k p y d t ha hp hs => exact keep (fun at_ e => by rw [e] at ha; cases ha) hs
  | looked c r i k p t b hp hs => exact keep (fun _ h => by cases h) hs
  | ran c r i k p t tk y hp hs => exact keep (fun _ h => by cases h) hs

end Imageio.System
