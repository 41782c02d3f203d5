import Verif.Lemmas.LiveStep
import Verif.Spec.Live
/-!
The invariants of `Model/Live.lean`: threads that run operations own their blocks (`Lemmas/ConcurrentOwned.lean`) while they are active.
-/
namespace Imageio.Live
open Imageio.Conc Imageio.Props Imageio.Spec Imageio.Spec.Live
open Imageio.Auth (upd upd_same upd_other)

variable {σ Γ τ : Type} {E : Env σ Γ τ} {s s' : Live σ Γ τ} {a : Act τ}

/-- The steps of tickets and threads. -/
theorem Moves.auth (h : Moves E s a s') : s'.auth = s.auth ∨ ∃ b, Auth.step E.cfg s.auth b = some s'.auth := by
  cases h
  case call => exact .inl rfl
  case look => exact .inl rfl
  all_goals exact .inr ⟨_, ‹_›⟩

theorem step_nextTicket {cfg : Auth.Config} {s t : Auth.State} {a : Auth.Attrs} (h : Auth.step cfg s (.addTicket a) = some t) :
    t = { s with tickets := upd s.tickets s.nextTicket (some (Auth.Ticket.new a (Auth.seconds cfg s))),
                 nextTicket := s.nextTicket + 1, store := upd s.store a.uuid (some s.nextTicket) } := by
  cases Auth.Step.of_step h
  rfl

/-- The image of a ticket object does not change. -/
theorem Moves.url (h : Moves E s a s') (hi : Auth.Inv s.auth) {r : Nat} {t : Auth.Ticket} (ht : s.auth.tickets r = some t) :
    s'.url r = s.url r := by
  cases h
  case add =>
    have := hi.fresh r t ht
    exact upd_other _ _ (by omega)
  all_goals rfl

/-- What is true in all executions. -/
structure Wf (E : Env σ Γ τ) (s : Live σ Γ τ) : Prop where
  reach : Auth.Reachable E.cfg s.auth
  notIdle : ∀ c j, s.pending c = some j → (s.auth.conns c).pc ≠ .idle
  write : ∀ c j r, s.pending c = some j → (s.auth.conns c).pc.ticket = some r →
    ∃ t, s.auth.tickets r = some t ∧ "write" ∈ t.attrs.ops
  ret : ∀ c j r i k, s.pending c = some j → (s.auth.conns c).pc = .ended r i k → returned (s.prog c) = true
  fits : ∀ c j r i k, s.pending c = some j → (s.auth.conns c).pc.busy = some (r, i, k) →
    ∃ t, s.auth.tickets r = some t ∧ ((j.offset + j.size : Nat) : Int) ≤ t.attrs.size

theorem wf_start (E : Env σ Γ τ) (mem : Http.Str → Γ) : Wf E (start E mem) :=
  ⟨⟨[], rfl⟩, fun _ _ h => (by cases h), fun _ _ _ h => (by cases h), fun _ _ _ _ _ h => (by cases h), fun _ _ _ _ _ h => (by cases h)⟩

theorem Moves.reach (h : Moves E s a s') (hr : Auth.Reachable E.cfg s.auth) : Auth.Reachable E.cfg s'.auth := by
  rcases h.auth with he | ⟨b, hb⟩
  · rw [he]; exact hr
  · exact Auth.reachable_run (as := [b]) hr (by simp [Auth.run, hb])

/-- Operations that were not started or ended in this step. -/
theorem busy_of {t : Auth.State} {b : Auth.Act} (hb : Auth.step E.cfg s.auth b = some t) {c : Nat} (hc : System.conOf b ≠ some c) :
    (t.conns c).pc = (s.auth.conns c).pc := (Auth.Step.of_step hb).pc_other hc

theorem Wf.moves (w : Wf E s) (h : Moves E s a s') : Wf E s' := by
  have hi := w.reach.inv
  have keep : ∀ {b t}, Auth.step E.cfg s.auth b = some t → ∀ {r : Nat} {P : Auth.Attrs → Prop},
      (∃ x, s.auth.tickets r = some x ∧ P x.attrs) → ∃ x, t.tickets r = some x ∧ P x.attrs := by
    intro b t hb r P hx
    obtain ⟨x, hx, hp⟩ := hx
    obtain ⟨x', hx', e⟩ := (Auth.Step.of_step hb).evolve hi hx
    exact ⟨x', hx', by rw [e.attrs]; exact hp⟩
  refine ⟨h.reach w.reach, ?_, ?_, ?_, ?_⟩
  · intro c0 j0 hp0
    cases h with
    | call c j r i k f next hj hp hf => exact w.notIdle c0 j0 hp0
    | look => exact w.notIdle c0 j0 hp0
    | start c j r k t hj hp ht hs hi' =>
      by_cases hc : c0 = c
      · subst hc; exact hi'
      · show (t.conns c0).pc ≠ _
        rw [busy_of ht (by simp [System.conOf]; exact fun h => hc h.symm)]; exact w.notIdle c0 j0 hp0
    | finish c j r i k t hj hp ht =>
      by_cases hc : c0 = c
      · subst hc; simp at hp0
      · simp only [upd_other _ _ hc] at hp0
        show (t.conns c0).pc ≠ _
        rw [busy_of ht (by simp [System.conOf]; exact fun h => hc h.symm)]; exact w.notIdle c0 j0 hp0
    | add attrs url t ht =>
      show (t.conns c0).pc ≠ _
      rw [busy_of ht (by simp [System.conOf])]; exact w.notIdle c0 j0 hp0
    | refused c id j t ht hi' =>
      by_cases hc : c0 = c
      · subst hc
        cases Auth.Step.of_step ht with
        | refused _ _ _ _ _ hp => exact absurd hp (w.notIdle c0 j0 hp0)
        | request _ _ _ _ _ hp => exact absurd hp (w.notIdle c0 j0 hp0)
      · show (t.conns c0).pc ≠ _
        rw [busy_of ht (by simp [System.conOf]; exact fun h => hc h.symm)]; exact w.notIdle c0 j0 hp0
    | request c id j t ht hi' =>
      by_cases hc : c0 = c
      · subst hc; exact hi'
      · simp only [upd_other _ _ hc] at hp0
        show (t.conns c0).pc ≠ _
        rw [busy_of ht (by simp [System.conOf]; exact fun h => hc h.symm)]; exact w.notIdle c0 j0 hp0
    | drop b c t ht ha hr hcon hi' =>
      by_cases hc : c0 = c
      · subst hc; simp at hp0
      · simp only [upd_other _ _ hc] at hp0
        show (t.conns c0).pc ≠ _
        rw [busy_of ht (by rw [hcon]; simp; exact fun h => hc h.symm)]; exact w.notIdle c0 j0 hp0
    | other b t ht ha hcon =>
      have hp0' : s.pending c0 = some j0 := hp0
      by_cases hc : System.conOf b = some c0
      · exact (hcon c0 hc (by rw [hp0']; simp)).2.2.1
      · show (t.conns c0).pc ≠ _
        rw [busy_of ht hc]; exact w.notIdle c0 j0 hp0
  · intro c0 j0 r0 hp0 hr0
    have gen : ∀ {b t}, Auth.step E.cfg s.auth b = some t → s.pending c0 = some j0 → (t.conns c0).pc.ticket = some r0 →
        ∃ x, t.tickets r0 = some x ∧ "write" ∈ x.attrs.ops := by
      intro b t hb hj hr
      rcases (Auth.Step.of_step hb).ticket hr with h | ⟨id, op, rfl, _⟩
      · exact keep (P := fun x => "write" ∈ x.ops) hb (w.write c0 j0 r0 hj h)
      · cases Auth.Step.of_step hb with
        | refused _ _ _ _ _ hp => exact absurd hp (w.notIdle c0 j0 hj)
        | request _ _ _ _ _ hp => exact absurd hp (w.notIdle c0 j0 hj)
    cases h with
    | call c j r i k f next hj hp hf => exact w.write c0 j0 r0 hp0 hr0
    | look => exact w.write c0 j0 r0 hp0 hr0
    | start c j r k t hj hp ht hs hi' => exact gen ht hp0 hr0
    | finish c j r i k t hj hp ht =>
      by_cases hc : c0 = c
      · subst hc; simp at hp0
      · simp only [upd_other _ _ hc] at hp0
        exact gen ht hp0 hr0
    | add attrs url t ht => exact gen ht hp0 hr0
    | refused c id j t ht hi' => exact gen ht hp0 hr0
    | request c id j t ht hi' =>
      by_cases hc : c0 = c
      · subst hc
        rcases (Auth.Step.of_step ht).ticket hr0 with h | ⟨id', op', he, ha⟩
        · cases Auth.Step.of_step ht with
          | refused _ _ _ _ _ hp => rw [hp] at h; cases h
          | request _ _ _ _ _ hp => rw [hp] at h; cases h
        · cases he
          obtain ⟨x, hx, hm⟩ := Auth.authorize_may ha
          refine keep (P := fun x => "write" ∈ x.ops) ht ⟨x, hx, ?_⟩
          unfold Auth.Ticket.may at hm
          rw [if_neg (by decide)] at hm
          simpa using hm
      · simp only [upd_other _ _ hc] at hp0
        exact gen ht hp0 hr0
    | drop b c t ht ha hr hcon hi' =>
      by_cases hc : c0 = c
      · subst hc; simp at hp0
      · simp only [upd_other _ _ hc] at hp0
        exact gen ht hp0 hr0
    | other b t ht ha hcon => exact gen ht hp0 hr0
  · intro c0 j0 r0 i0 k0 hp0 he0
    have gen : ∀ {b t}, Auth.step E.cfg s.auth b = some t → s.pending c0 = some j0 → System.conOf b ≠ some c0 →
        (t.conns c0).pc = .ended r0 i0 k0 → returned (s.prog c0) = true := by
      intro b t hb hj hc he
      rw [busy_of hb hc] at he
      exact w.ret c0 j0 r0 i0 k0 hj he
    cases h with
    | call c j r i k f next hj hp hf =>
      by_cases hc : c0 = c
      · subst hc
        have : (s.auth.conns c0).pc = .ended r0 i0 k0 := he0
        rw [hp] at this; cases this
      · show returned (upd s.prog c _ c0) = true
        rw [upd_other _ _ hc]; exact w.ret c0 j0 r0 i0 k0 hp0 he0
    | look => exact w.ret c0 j0 r0 i0 k0 hp0 he0
    | start c j r k t hj hp ht hs hi' =>
      by_cases hc : c0 = c
      · subst hc
        rcases (Auth.Step.of_step ht).ended he0 with h | h | h
        · rw [hp] at h; cases h
        · cases h
        · cases h
      · show returned (upd s.prog c _ c0) = true
        rw [upd_other _ _ hc]
        exact gen ht hp0 (by simp [System.conOf]; exact fun h => hc h.symm) he0
    | finish c j r i k t hj hp ht =>
      by_cases hc : c0 = c
      · subst hc; simp at hp0
      · simp only [upd_other _ _ hc] at hp0
        exact gen ht hp0 (by simp [System.conOf]; exact fun h => hc h.symm) he0
    | add attrs url t ht => exact gen ht hp0 (by simp [System.conOf]) he0
    | refused c id j t ht hi' =>
      refine gen ht hp0 (fun hc => ?_) he0
      simp only [System.conOf, Option.some.injEq] at hc
      subst hc
      have : (t.conns c).pc = .ended r0 i0 k0 := he0
      rw [hi'] at this; cases this
    | request c id j t ht hi' =>
      by_cases hc : c0 = c
      · subst hc
        rcases (Auth.Step.of_step ht).ended he0 with h | h | h
        · cases Auth.Step.of_step ht with
          | refused _ _ _ _ _ hp => rw [hp] at h; cases h
          | request _ _ _ _ _ hp => rw [hp] at h; cases h
        · cases h
        · cases h
      · simp only [upd_other _ _ hc] at hp0
        exact gen ht hp0 (by simp [System.conOf]; exact fun h => hc h.symm) he0
    | drop b c t ht ha hr hcon hi' =>
      by_cases hc : c0 = c
      · subst hc; simp at hp0
      · simp only [upd_other _ _ hc] at hp0
        exact gen ht hp0 (by rw [hcon]; simp; exact fun h => hc h.symm) he0
    | other b t ht ha hcon =>
      have hp0' : s.pending c0 = some j0 := hp0
      by_cases hc : System.conOf b = some c0
      · rcases (hcon c0 hc (by rw [hp0']; simp)).2.2.2 r0 i0 k0 he0 with h | h
        · exact h
        · exact w.ret c0 j0 r0 i0 k0 hp0 h
      · exact gen ht hp0 hc he0
  · intro c0 j0 r0 i0 k0 hp0 hb0
    have gen : ∀ {b t}, Auth.step E.cfg s.auth b = some t → s.pending c0 = some j0 → (∀ o, b ≠ .startOp c0 o) → b ≠ .removeOp c0 →
        (t.conns c0).pc.busy = some (r0, i0, k0) → ∃ x, t.tickets r0 = some x ∧ ((j0.offset + j0.size : Nat) : Int) ≤ x.attrs.size := by
      intro b t hb hj h1 h2 he
      rw [(Auth.Step.of_step hb).busy h1 h2] at he
      exact keep (P := fun x => ((j0.offset + j0.size : Nat) : Int) ≤ x.size) hb (w.fits c0 j0 r0 i0 k0 hj he)
    cases h with
    | call c j r i k f next hj hp hf => exact w.fits c0 j0 r0 i0 k0 hp0 hb0
    | look => exact w.fits c0 j0 r0 i0 k0 hp0 hb0
    | start c j r k t hj hp ht hs hi' =>
      by_cases hc : c0 = c
      · subst hc
        have hj' : s.pending c0 = some j0 := hp0
        rw [hj] at hj'; cases hj'
        have hb0' : (t.conns c0).pc.busy = some (r0, i0, k0) := hb0
        cases Auth.Step.of_step ht with
        | startRefused => simp [Auth.State.goto] at hi'
        | startOp _ _ r' k' x hp' hx hc' =>
          rw [hp] at hp'; cases hp'
          simp only [Auth.State.goto, upd_same, Auth.Pc.busy, Option.some.injEq, Prod.mk.injEq] at hb0'
          obtain ⟨rfl, _, _⟩ := hb0'
          refine keep (P := fun x => ((j0.offset + j0.size : Nat) : Int) ≤ x.size) ht ⟨x, hx, ?_⟩
          unfold System.sizeOf at hs
          rw [hx] at hs
          simp only at hs
          push_cast
          omega
      · exact gen ht hp0 (fun o h => by cases h; exact hc rfl) (by simp) hb0
    | finish c j r i k t hj hp ht =>
      by_cases hc : c0 = c
      · subst hc; simp at hp0
      · simp only [upd_other _ _ hc] at hp0
        exact gen ht hp0 (by simp) (fun h => by cases h; exact hc rfl) hb0
    | add attrs url t ht => exact gen ht hp0 (by simp) (by simp) hb0
    | refused c id j t ht hi' => exact gen ht hp0 (by simp) (by simp) hb0
    | request c id j t ht hi' =>
      by_cases hc : c0 = c
      · subst hc
        have hb0' : (t.conns c0).pc.busy = some (r0, i0, k0) := hb0
        rw [(Auth.Step.of_step ht).busy (by simp) (by simp)] at hb0'
        cases Auth.Step.of_step ht with
        | refused _ _ _ _ _ hp => rw [hp] at hb0'; cases hb0'
        | request _ _ _ _ _ hp => rw [hp] at hb0'; cases hb0'
      · simp only [upd_other _ _ hc] at hp0
        exact gen ht hp0 (by simp) (by simp) hb0
    | drop b c t ht ha hr hcon hi' =>
      by_cases hc : c0 = c
      · subst hc; simp at hp0
      · simp only [upd_other _ _ hc] at hp0
        refine gen ht hp0 (fun o h => ?_) (fun h => ?_) hb0 <;>
        · subst h; simp only [System.conOf, Option.some.injEq] at hcon; exact hc hcon
    | other b t ht ha hcon =>
      have hp0' : s.pending c0 = some j0 := hp0
      refine gen ht hp0 (fun o h => ?_) (fun h => ?_) hb0
      · subst h; exact (hcon c0 rfl (by rw [hp0']; simp)).1 o rfl
      · subst h; exact (hcon c0 rfl (by rw [hp0']; simp)).2.1 rfl

theorem run_append (s : Live σ Γ τ) (as bs : List (Act τ)) : run E s (as ++ bs) = (run E s as).bind fun t => run E t bs := by
  induction as generalizing s with
  | nil => rfl
  | cons a as ih =>
    simp only [List.cons_append, run]
    split
    · rfl
    · exact ih _

/-- Induction over the executions, with the states before and after the last step. -/
theorem run_induction {mem : Http.Str → Γ} {P : List (Act τ) → Live σ Γ τ → Prop} (h0 : P [] (start E mem))
    (hs : ∀ as a s s', run E (start E mem) as = some s → run E (start E mem) (as ++ [a]) = some s' → P as s → step E s a = some s' →
      P (as ++ [a]) s') {as : List (Act τ)} {s : Live σ Γ τ} (h : run E (start E mem) as = some s) : P as s := by
  have gen : ∀ (bs as : List (Act τ)) (x y : Live σ Γ τ), run E (start E mem) as = some x → P as x → run E x bs = some y →
      P (as ++ bs) y := by
    intro bs
    induction bs with
    | nil => intro as x y _ hp hy; cases hy; rw [List.append_nil]; exact hp
    | cons b bs ih =>
      intro as x y hx hp hy
      simp only [run] at hy
      split at hy
      · cases hy
      · rename_i z hz
        have hxz : run E (start E mem) (as ++ [b]) = some z := by
          rw [run_append, hx]
          simp only [Option.bind_some, run, hz]
        have := ih (as ++ [b]) z y hxz (hs as b x z hx hxz hp hz) hy
        rwa [List.append_assoc] at this
  exact gen as [] _ _ rfl h0 h

theorem run_wf {mem : Http.Str → Γ} {as : List (Act τ)} (h : run E (start E mem) as = some s) : Wf E s :=
  run_induction (P := fun _ s => Wf E s) (wf_start E mem) (fun _ _ _ _ _ _ w hs => w.moves (step_moves hs)) h

end Imageio.Live
