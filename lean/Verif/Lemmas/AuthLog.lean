import Verif.Lemmas.AuthInv
import Verif.Spec.Auth
/-! How tickets and the log evolve along an execution. -/
namespace Imageio.Auth
open Imageio.Measure

/-- A ticket object never changes its attributes, never becomes usable after it was
canceled, and never starts an operation when canceled. -/
structure Evolve (t t' : Ticket) : Prop where
  attrs : t'.attrs = t.attrs
  canceled : t.canceled = true → t'.canceled = true
  ongoing : t.canceled = true → t.ongoing = [] → t'.ongoing = []

theorem Evolve.refl (t : Ticket) : Evolve t t := ⟨rfl, fun h => h, fun _ h => h⟩

theorem Evolve.trans {a b c : Ticket} (h1 : Evolve a b) (h2 : Evolve b c) : Evolve a c :=
  ⟨h2.attrs.trans h1.attrs, fun h => h2.canceled (h1.canceled h), fun h h' => h2.ongoing (h1.canceled h) (h1.ongoing h h')⟩

theorem evolve_upd {s : State} {r r0 : Nat} {t t0 T : Ticket} (ht : s.tickets r = some t) (h0 : s.tickets r0 = some t0)
    (he : Evolve t0 T) : ∃ t', upd s.tickets r0 (some T) r = some t' ∧ Evolve t t' := by
  by_cases hr : r = r0
  · subst hr; rw [ht] at h0; cases h0; exact ⟨T, upd_same _ _ _, he⟩
  · exact ⟨t, by rw [upd_other _ _ hr]; exact ht, .refl t⟩

theorem advance_nil {t : Ticket} {i n : Nat} (h : t.ongoing = []) : (t.advance i n).ongoing = [] := by
  simp [Ticket.advance, h]

theorem Step.evolve {cfg : Config} {s s' : State} {a : Act} (hi : Inv s) (h : Step cfg s a s') {r : Nat} {t : Ticket}
    (ht : s.tickets r = some t) : ∃ t', s'.tickets r = some t' ∧ Evolve t t' := by
  have same : ∃ t', s.tickets r = some t' ∧ Evolve t t' := ⟨t, ht, .refl t⟩
  cases h with
  | addTicket a =>
    have := hi.fresh r t ht
    exact ⟨t, by show upd s.tickets s.nextTicket _ r = _; rw [upd_other _ _ (by omega)]; exact ht, .refl t⟩
  | extend id n r0 t0 hst h0 => exact evolve_upd ht h0 ⟨rfl, fun x => x, fun _ x => x⟩
  | addContext c r0 k t0 hp h0 hc => exact evolve_upd ht h0 ⟨rfl, fun x => x, fun _ x => x⟩
  | startOp c off r0 k t0 hp h0 hc =>
    refine evolve_upd ht h0 ⟨rfl, fun x => x, fun x _ => ?_⟩
    rw [hc] at x; cases x
  | io c n r0 i k t0 op hp h0 ho => exact evolve_upd ht h0 ⟨rfl, fun x => x, fun _ x => advance_nil x⟩
  | removeOp c r0 i k t0 op hp h0 ho =>
    obtain ⟨f1, f2, f3, f4, _⟩ := removeOperation_fields t0 op
    exact evolve_upd ht h0 ⟨f1, fun x => by rw [f2]; exact x, fun _ x => by rw [f4, x]; rfl⟩
  | touch c r0 t0 hp h0 => exact evolve_upd ht h0 ⟨rfl, fun x => x, fun _ x => x⟩
  | closeContext c u r0 rest t0 k hp hr h0 hk => exact evolve_upd ht h0 ⟨rfl, fun x => x, fun _ x => x⟩
  | delCancelUnused d id r0 t0 hd h0 ho =>
    show ∃ t', upd (s.closeAll t0).tickets r0 _ r = some t' ∧ _
    rw [(closeAll_fields t0 s).2.1]
    exact evolve_upd ht h0 ⟨rfl, fun _ => rfl, fun _ x => x⟩
  | delCancelWait d id r0 t0 hd h0 ho hc =>
    exact evolve_upd ht h0 ⟨rfl, fun _ => rfl, fun _ x => absurd x ho⟩
  | delCancelNoWait d id r0 t0 hd h0 ho hc =>
    exact evolve_upd ht h0 ⟨rfl, fun _ => rfl, fun _ x => absurd x ho⟩
  | delClose d id r0 t0 hd h0 =>
    show ∃ t', (s.closeAll t0).tickets r = some t' ∧ _
    rw [(closeAll_fields t0 s).2.1]
    exact same
  | addContextRefused => exact same
  | _ => exact same

theorem run_evolve {cfg : Config} {as : List Act} {s s' : State} (hi : Inv s) (h : run cfg s as = some s') {r : Nat}
    {t : Ticket} (ht : s.tickets r = some t) : ∃ t', s'.tickets r = some t' ∧ Evolve t t' := by
  induction as generalizing s t with
  | nil => cases h; exact ⟨t, ht, .refl t⟩
  | cons a as ih =>
    simp only [run] at h
    split at h
    · cases h
    · rename_i s1 h1
      have hs := Step.of_step h1
      obtain ⟨t1, ht1, e1⟩ := hs.evolve hi ht
      obtain ⟨t2, ht2, e2⟩ := ih (inv_step hi hs) h ht1
      exact ⟨t2, ht2, e1.trans e2⟩

theorem run_append {cfg : Config} {as bs : List Act} {s : State} :
    run cfg s (as ++ bs) = (match run cfg s as with | none => none | some s' => run cfg s' bs) := by
  induction as generalizing s with
  | nil => rfl
  | cons a as ih =>
    simp only [List.cons_append, run]
    cases step cfg s a with
    | none => rfl
    | some s1 => exact ih

theorem reachable_run {cfg : Config} {as : List Act} {s s' : State} (h : Reachable cfg s) (hr : run cfg s as = some s') :
    Reachable cfg s' := by
  obtain ⟨bs, hb⟩ := h
  exact ⟨bs ++ as, by rw [run_append, hb]; exact hr⟩

/-- The ticket object is canceled and has no operation. -/
def Dead (s : State) (r : Nat) : Prop := ∃ t, s.tickets r = some t ∧ t.canceled = true ∧ t.ongoing = []

theorem Dead.step {cfg : Config} {s s' : State} {a : Act} {r : Nat} (hd : Dead s r) (hi : Inv s) (h : Step cfg s a s') :
    Dead s' r := by
  obtain ⟨t, ht, h1, h2⟩ := hd
  obtain ⟨t', ht', e⟩ := h.evolve hi ht
  exact ⟨t', ht', e.canceled h1, e.ongoing h1 h2⟩

theorem busy_ongoing {s : State} (hi : Inv s) {c r i k : Nat} (h : (s.conns c).pc.busy = some (r, i, k)) : ¬ Dead s r := by
  rintro ⟨t, ht, _, h2⟩
  obtain ⟨_, _, _, _, t', ht', _, op, ho, _⟩ := hi.busy c r i k h
  rw [ht] at ht'; cases ht'
  rw [h2] at ho; cases ho

/-- What a step adds to the log. -/
theorem Step.log {cfg : Config} {s s' : State} {a : Act} (hi : Inv s) (h : Step cfg s a s') :
    ∃ evs, s'.log = s.log ++ evs ∧ (∀ r e, e ∈ evs → e.uses r → ¬ Dead s r) ∧
      (∀ id r, Event.deleted id (.ok (some r)) ∈ evs → evs = [Event.deleted id (.ok (some r))] ∧
        (cfg.removeTimeout ≠ 0 → Dead s' r ∧ s'.store id = none)) := by
  have nil : s.log = s.log ++ [] := (List.append_nil _).symm
  cases h with
  | openContext => exact ⟨_, rfl, by simp [Event.uses], by simp⟩
  | startOp c off r k t hp ht hc =>
    refine ⟨_, rfl, ?_, by simp⟩
    intro r' e he hu
    simp only [List.mem_singleton] at he; subst he
    have : r = r' := hu
    subst this
    rintro ⟨t', ht', h1, _⟩
    rw [ht] at ht'; cases ht'
    rw [hc] at h1; cases h1
  | io c n r i k t op hp ht ho =>
    refine ⟨_, rfl, ?_, by simp⟩
    intro r' e he hu
    simp only [List.mem_singleton] at he; subst he
    have : r = r' := hu
    subst this
    exact busy_ongoing hi (c := c) (by rw [hp]; rfl)
  | removeOp c r i k t op hp ht ho =>
    refine ⟨_, rfl, ?_, by simp⟩
    intro r' e he hu
    simp only [List.mem_singleton] at he; subst he
    have : r = r' := hu
    subst this
    exact busy_ongoing hi (c := c) (by rw [hp]; rfl)
  | refused => exact ⟨_, rfl, by simp [Event.uses], by simp⟩
  | addContextRefused => exact ⟨_, rfl, by simp [Event.uses], by simp⟩
  | startRefused => exact ⟨_, rfl, by simp [Event.uses], by simp⟩
  | closeContext => exact ⟨_, rfl, by simp [Event.uses], by simp⟩
  | delStartNone => exact ⟨_, rfl, by simp [Event.uses], by simp⟩
  | delTimeout => exact ⟨_, rfl, by simp [Event.uses], by simp⟩
  | delEraseNone => exact ⟨_, rfl, by simp [Event.uses], by simp⟩
  | delCancelUnused d id r t hd ht ho =>
    refine ⟨_, (closeAll_fields t s).2.2.2.2.2.2.2.2, ?_, by simp⟩
    intro r' e he hu
    obtain ⟨p, _, rfl⟩ := List.mem_map.mp he
    exact hu.elim
  | delClose d id r t hd ht =>
    refine ⟨_, (closeAll_fields t s).2.2.2.2.2.2.2.2, ?_, by simp⟩
    intro r' e he hu
    obtain ⟨p, _, rfl⟩ := List.mem_map.mp he
    exact hu.elim
  | delCancelNoWait d id r t hd ht ho hc =>
    refine ⟨_, rfl, by simp [Event.uses], ?_⟩
    intro id' r' hm
    simp only [List.mem_singleton] at hm
    exact ⟨by rw [hm], fun h => absurd hc h⟩
  | delErase d id r r' hd hst =>
    refine ⟨_, rfl, by simp [Event.uses], ?_⟩
    intro id' r'' hm
    simp only [List.mem_singleton, Event.deleted.injEq, Answer.ok.injEq, Option.some.injEq] at hm
    obtain ⟨rfl, rfl⟩ := hm
    refine ⟨rfl, fun _ => ⟨?_, upd_same _ _ _⟩⟩
    obtain ⟨t, ht, _, h1, h2, _⟩ := hi.delErasing d id' r'' hd
    exact ⟨t, ht, h1, h2⟩
  | _ => exact ⟨[], nil, by simp, by simp⟩

theorem run_log {cfg : Config} {as : List Act} {s s' : State} (hi : Inv s) (h : run cfg s as = some s') :
    ∃ evs, s'.log = s.log ++ evs := by
  induction as generalizing s with
  | nil => cases h; exact ⟨[], (List.append_nil _).symm⟩
  | cons a as ih =>
    simp only [run] at h
    split at h
    · cases h
    · rename_i s1 h1
      have hs := Step.of_step h1
      obtain ⟨e1, h1, _⟩ := hs.log hi
      obtain ⟨e2, h2⟩ := ih (inv_step hi hs) h
      exact ⟨e1 ++ e2, by rw [h2, h1, List.append_assoc]⟩

/-- Induction over reachable states. -/
theorem Reachable.induction {cfg : Config} {P : State → Prop} (h0 : P init)
    (hs : ∀ s a s', Reachable cfg s → Inv s → P s → Step cfg s a s' → P s') {s : State} (h : Reachable cfg s) : P s := by
  obtain ⟨as, hr⟩ := h
  suffices ∀ s0, Reachable cfg s0 → P s0 → run cfg s0 as = some s → P s from this init ⟨[], rfl⟩ h0 hr
  clear hr
  induction as with
  | nil => intro s0 _ hp hr; cases hr; exact hp
  | cons a as ih =>
    intro s0 hre hp hr
    simp only [run] at hr
    split at hr
    · cases hr
    · rename_i s1 h1
      have h2 := Step.of_step h1
      refine ih s1 (reachable_run hre (as := [a]) (by simp [run, h1])) (hs _ _ _ hre hre.inv hp h2) hr

theorem append_split {α : Type} {pre post l evs : List α} {x : α} (h : l ++ evs = pre ++ x :: post) :
    (∃ q, l = pre ++ x :: q ∧ post = q ++ evs) ∨ (∃ q, pre = l ++ q ∧ evs = q ++ x :: post) := by
  rcases List.append_eq_append_iff.mp h with ⟨q, h1, h2⟩ | ⟨q, h1, h2⟩
  · exact .inr ⟨q, h1, h2⟩
  · cases q with
    | nil =>
      refine .inr ⟨[], by simpa using h1.symm, by simpa using h2.symm⟩
    | cons y q =>
      simp only [List.cons_append, List.cons.injEq] at h2
      obtain ⟨rfl, h2⟩ := h2
      exact .inl ⟨q, h1, h2⟩

/-- After a successful removal the ticket object is dead, and nothing uses it. -/
theorem deleted_dead {cfg : Config} (hc : cfg.removeTimeout ≠ 0) {s : State} (h : Reachable cfg s) (id : String) (r : Nat) :
    ∀ pre post, s.log = pre ++ Event.deleted id (.ok (some r)) :: post → Dead s r ∧ ∀ e ∈ post, ¬ e.uses r := by
  refine Reachable.induction (cfg := cfg) (P := fun s => ∀ pre post,
    s.log = pre ++ Event.deleted id (.ok (some r)) :: post → Dead s r ∧ ∀ e ∈ post, ¬ e.uses r) ?_ ?_ h
  · intro pre post h0
    have : ([] : List Event) = pre ++ Event.deleted id (.ok (some r)) :: post := h0
    simp at this
  · intro s a s' _ hi hp hs pre post hl
    obtain ⟨evs, h1, h2, h3⟩ := hs.log hi
    rw [h1] at hl
    rcases append_split hl with ⟨q, hq, rfl⟩ | ⟨q, rfl, hq⟩
    · obtain ⟨hd, hn⟩ := hp pre q hq
      refine ⟨hd.step hi hs, fun e he hu => ?_⟩
      rcases List.mem_append.mp he with he | he
      · exact hn e he hu
      · exact h2 r e he hu hd
    · have hm : Event.deleted id (.ok (some r)) ∈ evs := by rw [hq]; simp
      obtain ⟨h4, h5⟩ := h3 id r hm
      refine ⟨(h5 hc).1, ?_⟩
      rw [hq] at h4
      cases q with
      | nil =>
        simp only [List.nil_append, List.cons.injEq, true_and] at h4
        subst h4; simp
      | cons y q => simp at h4

end Imageio.Auth
