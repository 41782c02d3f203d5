import Verif.Lemmas.LiveReadProg
/-!
The invariants of `Model/LiveRead.lean`.
-/
namespace Imageio.LiveRead
open Imageio.Live Imageio.Conc Imageio.Spec
open Imageio.Auth (upd upd_same upd_other)

variable {σ Γ τ : Type} {E : Env σ Γ τ} {s s' : Sys σ Γ τ} {a : Act τ}

/-! ### The steps -/

/-- The ways a step can go. -/
inductive RMoves (E : Env σ Γ τ) (s : Sys σ Γ τ) : Act τ → Sys σ Γ τ → Prop
  | other (a : Act τ) (b : Live.Act τ) (t : Live σ Γ τ) (hb : Live.step E s.live b = some t) (hc : ∀ c j, s.reading c = some j → conOf b ≠ some c) :
      RMoves E s a { s with live := t }
  | start (c : Nat) (j : RJob) (r k : Nat) (t : Auth.State) (hj : s.reading c = some j) (hp : (s.live.auth.conns c).pc = .ready r k)
      (hl : Live.step E s.live (.auth (.startOp c j.offset)) = some (open_ E s.live t))
      (ht : Auth.step E.cfg s.live.auth (.startOp c j.offset) = some t) (hs : ¬ System.sizeOf s.live.auth r < j.offset + j.size)
      (hi : (t.conns c).pc ≠ .idle) :
      RMoves E s (.live (.auth (.startOp c j.offset)))
        { s with live := open_ E s.live t, rprog := upd s.rprog c (j.prog E.B.blockSize) }
  | finish (c : Nat) (j : RJob) (r i k : Nat) (t : Auth.State) (hj : s.reading c = some j)
      (hp : (s.live.auth.conns c).pc = .ended r i k) (hl : Live.step E s.live (.auth (.removeOp c)) = some (open_ E s.live t))
      (ht : Auth.step E.cfg s.live.auth (.removeOp c) = some t) :
      RMoves E s (.live (.auth (.removeOp c))) { s with
        live := open_ E s.live t
        reading := upd s.reading c none
        sent := s.sent ++ [⟨c, r, i, s.live.url (s.live.auth.ctxs k).ticket, j, (result (s.rprog c)).1,
          (result (s.rprog c)).2 && (t.conns c).pc ≠ .idle⟩] }
  | drop (b : Auth.Act) (c : Nat) (t : Auth.State) (hl : Live.step E s.live (.auth b) = some (open_ E s.live t))
      (ht : Auth.step E.cfg s.live.auth b = some t) (hc : System.conOf b = some c) (hr : b ≠ .removeOp c) :
      RMoves E s (.live (.auth b)) { s with live := open_ E s.live t, reading := upd s.reading c none }
  | go (b : Auth.Act) (c : Nat) (j : RJob) (t : Auth.State) (hj : s.reading c = some j)
      (hl : Live.step E s.live (.auth b) = some (open_ E s.live t)) (ht : Auth.step E.cfg s.live.auth b = some t)
      (hc : System.conOf b = some c) (h1 : ∀ o, b ≠ .startOp c o) (h2 : b ≠ .removeOp c) (hi : (t.conns c).pc ≠ .idle)
      (he : ∀ r i k, (t.conns c).pc = .ended r i k → returned (s.rprog c) = true ∨ (s.live.auth.conns c).pc = .ended r i k) :
      RMoves E s (.live (.auth b)) { s with live := open_ E s.live t }
  | get (c : Nat) (id : String) (j : RJob) (t : Live σ Γ τ) (hl : Live.step E s.live (.auth (.request c id "read")) = some t)
      (hi : (t.auth.conns c).pc ≠ .idle) : RMoves E s (.get c id j) { s with live := t, reading := upd s.reading c (some j) }
  | read (c : Nat) (j : RJob) (r i k : Nat) (q : Query) (p : RProg) (t : Live σ Γ τ) (hj : s.reading c = some j)
      (hp : (s.live.auth.conns c).pc = .running r i k) (hl : Live.step E s.live (.look c q) = some t)
      (hq : (∃ n f, q = .seek n ∧ s.rprog c = .seek n f ∧
          p = f (E.B.seek (E.M.view (s.live.loc k) (s.live.mem (s.live.url (s.live.auth.ctxs k).ticket))) n).1) ∨
        (∃ f, q = .tell ∧ s.rprog c = .tell f ∧
          p = f (E.B.tell (E.M.view (s.live.loc k) (s.live.mem (s.live.url (s.live.auth.ctxs k).ticket))))) ∨
        (∃ n f, q = .readinto n ∧ s.rprog c = .readinto n f ∧
          p = f (E.B.readinto (E.M.view (s.live.loc k) (s.live.mem (s.live.url (s.live.auth.ctxs k).ticket))) n).1)) :
      RMoves E s (.read c) { s with live := t, rprog := upd s.rprog c p }

/-- The connections that download. -/
structure Base (E : Env σ Γ τ) (s : Sys σ Γ τ) : Prop where
  wf : Wf E s.live
  excl : ∀ c j, s.reading c = some j → s.live.pending c = none
  notIdle : ∀ c j, s.reading c = some j → (s.live.auth.conns c).pc ≠ .idle

/-- A step of `Model/Live.lean` by a connection that downloads. -/
theorem reader_step (w : Base E s) {c : Nat} {j : RJob} (hj : s.reading c = some j) {b : Live.Act τ} {t : Live σ Γ τ}
    (hc : conOf b = some c) (hn : ∀ c q, b ≠ .look c q) (h : Live.step E s.live b = some t) :
    ∃ b', b = .auth b' ∧ Auth.step E.cfg s.live.auth b' = some t.auth ∧ t = open_ E s.live t.auth := by
  have hp := w.excl c j hj
  cases step_moves h with
  | call c' j' r i k f next hj' hp' hf => cases hc; rw [hp] at hj'; cases hj'
  | start c' j' r k t' hj' hp' ht hs hi => cases hc; rw [hp] at hj'; cases hj'
  | finish c' j' r i k t' hj' hp' ht => cases hc; rw [hp] at hj'; cases hj'
  | add attrs url t' ht => cases hc
  | refused c' id j' t' ht hi =>
    cases hc
    cases Auth.Step.of_step ht with
    | refused _ _ _ _ _ hp => exact absurd hp (w.notIdle c j hj)
    | request _ _ _ _ _ hp => exact absurd hp (w.notIdle c j hj)
  | request c' id j' t' ht hi =>
    cases hc
    cases Auth.Step.of_step ht with
    | refused _ _ _ _ _ hp => exact absurd hp (w.notIdle c j hj)
    | request _ _ _ _ _ hp => exact absurd hp (w.notIdle c j hj)
  | drop b' c' t' ht ha hr hc' hi =>
    refine ⟨b', rfl, ht, ?_⟩
    have e : c' = c := by
      have : System.conOf b' = some c := hc
      rw [hc'] at this; cases this; rfl
    subst e
    have hup : upd s.live.pending c' none = s.live.pending := by
      funext x
      by_cases hx : x = c'
      · subst hx; rw [upd_same]; exact hp.symm
      · exact upd_other _ _ hx
    simp only [hup]
    rfl
  | other b' t' ht ha hc' => exact ⟨b', rfl, ht, rfl⟩
  | look c' r i k q hj' hp' => exact absurd rfl (hn c' q)

theorem proceed_rmoves (w : Base E s) {c : Nat} {j : RJob} (hj : s.reading c = some j) {b : Live.Act τ} {t : Live σ Γ τ}
    (hc : conOf b = some c) (hn : ∀ c q, b ≠ .look c q) (h : Live.step E s.live b = some t) (hp : proceed E s t c j b = some s') :
    RMoves E s (.live b) s' := by
  obtain ⟨b', rfl, ht, he⟩ := reader_step w hj hc hn h
  generalize hta : t.auth = ta at ht he
  subst he
  replace hc : System.conOf b' = some c := hc
  have hst := Auth.Step.of_step ht
  have hau : (open_ E s.live ta).auth = ta := rfl
  unfold proceed at hp
  simp only [hau] at hp
  split at hp
  · rename_i c0 offset r k hb hpc
    cases hb
    cases hc
    split at hp
    · cases hp
    · rename_i hno
      simp only [not_or, ne_eq, Decidable.not_not] at hno
      obtain ⟨rfl, hsz⟩ := hno
      split at hp
      · cases hp; exact .drop _ _ ta h ht rfl (by simp)
      · cases hp; exact .start c j r k ta hj hpc h ht hsz ‹_›
  · rename_i c0 r i k hb hpc
    cases hb
    cases hc
    have hpc' : (ta.conns c).pc = .running r i k ∨ (ta.conns c).pc = .ended r i k := by
      cases hst with
      | checkGo _ r' i' k' _ _ hp' => rw [hpc] at hp'; cases hp'; exact .inl (by simp [Auth.State.goto, upd])
      | checkStop _ r' i' k' _ _ hp' => rw [hpc] at hp'; cases hp'; exact .inr (by simp [Auth.State.goto, upd])
    have hne : (ta.conns c).pc ≠ .idle := by rcases hpc' with h | h <;> rw [h] <;> simp
    split at hp
    · split at hp
      · cases hp
        rename_i hret
        exact .go _ c j ta hj h ht rfl (by simp) (by simp) hne fun _ _ _ _ => .inl hret
      · cases hp
    · cases hp
      rename_i hne'
      exact .go _ c j ta hj h ht rfl (by simp) (by simp) hne fun r i k he => absurd he (hne' r i k)
  · rename_i c0 hb
    cases hb
    cases hc
    split at hp
    · cases hp
      rename_i hret
      refine .go _ c j ta hj h ht rfl (by simp) (by simp) ?_ fun _ _ _ _ => .inl hret
      cases hst <;> simp [Auth.State.goto, upd]
    · cases hp
  · rename_i c0 r i k hb hpc
    cases hb
    cases hc
    cases hp
    exact .finish c j r i k ta hj hpc h ht
  · rename_i n3 n1 n2 n4
    split at hp
    · cases hp
      refine .drop _ c ta h ht hc ?_
      rintro rfl
      cases hst with
      | removeOp _ r i k _ _ hp => exact n4 c r i k rfl hp
    · cases hp
      refine .go _ c j ta hj h ht hc ?_ ?_ ‹_› ?_
      · rintro o rfl
        cases hst with
        | startRefused _ _ r k _ hp => exact n1 c o r k rfl hp
        | startOp _ _ r k _ hp => exact n1 c o r k rfl hp
      · rintro rfl
        cases hst with
        | removeOp _ r i k _ _ hp => exact n4 c r i k rfl hp
      · intro r i k he
        rcases hst.ended he with h | rfl | rfl
        · exact .inr h
        · cases hst with
          | checkGo _ r' i' k' _ _ hp' => exact (n2 c r' i' k' rfl hp').elim
          | checkStop _ r' i' k' _ _ hp' => exact (n2 c r' i' k' rfl hp').elim
        · exact (n3 c rfl).elim

theorem step_rmoves (w : Base E s) (h : step E s a = some s') : RMoves E s a s' := by
  unfold step at h
  split at h
  · cases h
  · rename_i b hnl
    split at h
    · cases h
    · rename_i t ht
      split at h
      · rename_i hc
        cases h
        exact .other _ b t ht fun c j _ => by rw [hc]; simp
      · rename_i c hc
        split at h
        · rename_i hr
          cases h
          refine .other _ b t ht fun c' j hj he => ?_
          rw [hc] at he
          cases he
          rw [hr] at hj
          cases hj
        · rename_i j hj
          exact proceed_rmoves w hj hc (fun c q hq => hnl c q hq) ht h
  · rename_i c id j
    split at h
    · cases h
    · rename_i t ht
      split at h
      · cases h
        refine .other _ _ t ht fun c' j' hj he => ?_
        cases he
        obtain ⟨b', hb, hs, -⟩ := reader_step w hj (b := .auth (.request c id "read")) rfl (by simp) ht
        cases hb
        generalize t.auth = ta at hs
        cases Auth.Step.of_step hs with
        | refused _ _ _ _ _ hp => exact absurd hp (w.notIdle c j' hj)
        | request _ _ _ _ _ hp => exact absurd hp (w.notIdle c j' hj)
      · cases h
        exact .get c id j t ht ‹_›
  · rename_i c
    split at h
    · rename_i j r i k hj hp
      simp only at h
      split at h
      · cases h
      · rename_i q p hq
        split at h
        · cases h
        · rename_i t ht
          cases h
          refine .read c j r i k q p t hj hp ht ?_
          split at hq
          · cases hq
          · cases hq; exact .inl ⟨_, _, rfl, ‹_›, rfl⟩
          · cases hq; exact .inr (.inl ⟨_, rfl, ‹_›, rfl⟩)
          · cases hq; exact .inr (.inr ⟨_, _, rfl, ‹_›, rfl⟩)
    · cases h

/-- Every step is one of `Model/Live.lean`. -/
theorem RMoves.live (h : RMoves E s a s') : ∃ b, Live.step E s.live b = some s'.live := by
  cases h <;> exact ⟨_, ‹_›⟩

/-! ### Base -/

/-- Another connection. -/
theorem pc_other {l l' : Live σ Γ τ} {b : Live.Act τ} (h : Live.step E l b = some l') {c : Nat} (hc : conOf b ≠ some c) :
    (l'.auth.conns c).pc = (l.auth.conns c).pc ∧ l'.pending c = l.pending c := by
  have hne : ∀ {c' : Nat}, (some c' : Option Nat) ≠ some c → c ≠ c' := fun h e => h (by rw [e])
  cases step_moves h with
  | call c' j' r i k f next hj' hp' hf => exact ⟨rfl, rfl⟩
  | start c' j' r k t' hj' hp' ht hs hi => exact ⟨busy_of (s := l) (E := E) ht hc, rfl⟩
  | finish c' j' r i k t' hj' hp' ht => exact ⟨busy_of (s := l) (E := E) ht hc, upd_other _ _ (hne hc)⟩
  | add attrs url t' ht => exact ⟨busy_of (s := l) (E := E) ht (by simp [System.conOf]), rfl⟩
  | refused c' id j' t' ht hi => exact ⟨busy_of (s := l) (E := E) ht hc, rfl⟩
  | request c' id j' t' ht hi => exact ⟨busy_of (s := l) (E := E) ht hc, upd_other _ _ (hne hc)⟩
  | drop b' c' t' ht ha hr hc' hi => exact ⟨busy_of (s := l) (E := E) ht hc, upd_other _ _ (hne (by rw [← hc']; exact hc))⟩
  | other b' t' ht ha hc' => exact ⟨busy_of (s := l) (E := E) ht hc, rfl⟩
  | look c' r i k q hj' hp' => exact ⟨rfl, rfl⟩

theorem look_eq {l l' : Live σ Γ τ} {c : Nat} {q : Query} (h : Live.step E l (.look c q) = some l') {r i k : Nat}
    (hp : (l.auth.conns c).pc = .running r i k) :
    l' = { l with loc := upd l.loc k (q.after E.B (E.M.view (l.loc k) (l.mem (l.url (l.auth.ctxs k).ticket)))) } := by
  cases step_moves h with
  | look _ r' i' k' _ hj hp' => rw [hp] at hp'; cases hp'; rfl

theorem request_eq {l l' : Live σ Γ τ} {c : Nat} {id op : String} (h : Live.step E l (.auth (.request c id op)) = some l') :
    Auth.step E.cfg l.auth (.request c id op) = some l'.auth ∧ (l.auth.conns c).pc = .idle := by
  have idle : ∀ {t}, Auth.step E.cfg l.auth (.request c id op) = some t → (l.auth.conns c).pc = .idle := by
    intro t ht
    cases Auth.Step.of_step ht with
    | refused _ _ _ _ _ hp => exact hp
    | request _ _ _ _ _ hp => exact hp
  cases step_moves h with
  | drop _ c' t' ht ha hr hc' hi => exact ⟨ht, idle ht⟩
  | other _ t' ht ha hc' => exact ⟨ht, idle ht⟩

theorem base_start (E : Env σ Γ τ) (mem : Http.Str → Γ) : Base E (start E mem) :=
  ⟨wf_start E mem, fun _ _ h => (by cases h), fun _ _ h => (by cases h)⟩

theorem Base.moves (w : Base E s) (h : RMoves E s a s') : Base E s' := by
  have hwf : Wf E s'.live := by
    obtain ⟨b, hb⟩ := h.live
    exact w.wf.moves (step_moves hb)
  have drop : ∀ {c c0 : Nat} {j : RJob}, upd s.reading c none c0 = some j → c0 ≠ c ∧ s.reading c0 = some j := by
    intro c c0 j h
    by_cases hc : c0 = c
    · subst hc; simp at h
    · rw [upd_other _ _ hc] at h; exact ⟨hc, h⟩
  cases h with
  | other _ b t hb hc =>
    exact ⟨hwf, fun c j hj => (pc_other hb (hc c j hj)).2.trans (w.excl c j hj),
      fun c j hj => by show (t.auth.conns c).pc ≠ _; rw [(pc_other hb (hc c j hj)).1]; exact w.notIdle c j hj⟩
  | start c j r k t hj hp hl ht hs hi =>
    refine ⟨hwf, w.excl, fun c0 j0 hj0 => ?_⟩
    by_cases hc : c0 = c
    · subst hc; exact hi
    · show (t.conns c0).pc ≠ _
      rw [busy_of (s := s.live) (E := E) ht (by simp [System.conOf]; exact fun h => hc h.symm)]; exact w.notIdle c0 j0 hj0
  | finish c j r i k t hj hp hl ht =>
    refine ⟨hwf, fun c0 j0 hj0 => w.excl c0 j0 (drop hj0).2, fun c0 j0 hj0 => ?_⟩
    show (t.conns c0).pc ≠ _
    rw [busy_of (s := s.live) (E := E) ht (by simp [System.conOf]; exact fun h => (drop hj0).1 h.symm)]; exact w.notIdle c0 j0 (drop hj0).2
  | drop b c t hl ht hc hr =>
    refine ⟨hwf, fun c0 j0 hj0 => w.excl c0 j0 (drop hj0).2, fun c0 j0 hj0 => ?_⟩
    show (t.conns c0).pc ≠ _
    rw [busy_of (s := s.live) (E := E) ht (by rw [hc]; simp; exact fun h => (drop hj0).1 h.symm)]; exact w.notIdle c0 j0 (drop hj0).2
  | go b c j t hj hl ht hc h1 h2 hi he =>
    refine ⟨hwf, w.excl, fun c0 j0 hj0 => ?_⟩
    by_cases hcc : c0 = c
    · subst hcc; exact hi
    · show (t.conns c0).pc ≠ _
      rw [busy_of (s := s.live) (E := E) ht (by rw [hc]; simp; exact fun h => hcc h.symm)]; exact w.notIdle c0 j0 hj0
  | get c id j t hl hi =>
    obtain ⟨hs, hidle⟩ := request_eq hl
    refine ⟨hwf, fun c0 j0 hj0 => ?_, fun c0 j0 hj0 => ?_⟩
    · by_cases hc : c0 = c
      · subst hc
        cases hpe : t.pending c0 with
        | none => rfl
        | some x =>
          have hpend : s.live.pending c0 = some x := by
            cases step_moves hl with
            | drop _ c' t' ht ha hr hc' hi => cases hc'; simp at hpe
            | other _ t' ht ha hc' => exact hpe
          exact absurd hidle (w.wf.notIdle c0 x hpend)
      · simp only [upd_other _ _ hc] at hj0
        exact (pc_other hl (by simp [conOf, System.conOf]; exact fun h => hc h.symm)).2.trans (w.excl c0 j0 hj0)
    · by_cases hc : c0 = c
      · subst hc; exact hi
      · simp only [upd_other _ _ hc] at hj0
        show (t.auth.conns c0).pc ≠ _
        rw [(pc_other hl (by simp [conOf, System.conOf]; exact fun h => hc h.symm)).1]; exact w.notIdle c0 j0 hj0
  | read c j r i k q p t hj hp hl hq =>
    have e := look_eq hl hp
    subst e
    exact ⟨hwf, w.excl, w.notIdle⟩

/-! ### Executions -/

theorem run_append (s : Sys σ Γ τ) (as bs : List (Act τ)) : run E s (as ++ bs) = (run E s as).bind fun t => run E t bs := by
  induction as generalizing s with
  | nil => rfl
  | cons a as ih =>
    simp only [List.cons_append, run]
    split
    · rfl
    · exact ih _

/-- Induction over the executions. -/
theorem run_induction {mem : Http.Str → Γ} {P : List (Act τ) → Sys σ Γ τ → Prop} (h0 : P [] (start E mem))
    (hs : ∀ as a s s', run E (start E mem) as = some s → Base E s → P as s → RMoves E s a s' → P (as ++ [a]) s')
    {as : List (Act τ)} {s : Sys σ Γ τ} (h : run E (start E mem) as = some s) : P as s ∧ Base E s := by
  have gen : ∀ (bs as : List (Act τ)) (x y : Sys σ Γ τ), run E (start E mem) as = some x → Base E x → P as x → run E x bs = some y →
      P (as ++ bs) y ∧ Base E y := by
    intro bs
    induction bs with
    | nil => intro as x y _ hb hp hy; cases hy; rw [List.append_nil]; exact ⟨hp, hb⟩
    | cons b bs ih =>
      intro as x y hx hb hp hy
      simp only [run] at hy
      split at hy
      · cases hy
      · rename_i z hz
        have hxz : run E (start E mem) (as ++ [b]) = some z := by
          rw [run_append, hx]
          simp only [Option.bind_some, run, hz]
        have hm := step_rmoves hb hz
        have := ih (as ++ [b]) z y hxz (hb.moves hm) (hs as b x z hx hb hp hm) hy
        rwa [List.append_assoc] at this
  exact gen as [] _ _ rfl (base_start E mem) h0 h

theorem run_base {mem : Http.Str → Γ} {as : List (Act τ)} (h : run E (start E mem) as = some s) : Base E s :=
  (run_induction (P := fun _ _ => True) trivial (fun _ _ _ _ _ _ _ _ => trivial) h).2

/-- The steps of `Model/Live.lean` in an execution, with the same states. -/
theorem run_live (w : Base E s) {as : List (Act τ)} (h : run E s as = some s') : ∃ bs : List (Live.Act τ),
    Live.run E s.live bs = some s'.live ∧ ∀ pre post t, bs = pre ++ post → Live.run E s.live pre = some t →
      ∃ pre' post' t', as = pre' ++ post' ∧ run E s pre' = some t' ∧ t'.live = t := by
  induction as generalizing s with
  | nil =>
    cases h
    refine ⟨[], rfl, fun pre post t he ht => ?_⟩
    obtain ⟨rfl, rfl⟩ := List.nil_eq_append_iff.mp he
    cases ht
    exact ⟨[], [], _, rfl, rfl, rfl⟩
  | cons a as ih =>
    simp only [run] at h
    split at h
    · cases h
    · rename_i z hz
      have hm := step_rmoves w hz
      obtain ⟨b, hb⟩ := hm.live
      obtain ⟨bs, h1, h2⟩ := ih (w.moves hm) h
      refine ⟨b :: bs, by simp only [Live.run, hb, h1], fun pre post t he ht => ?_⟩
      cases pre with
      | nil => cases ht; exact ⟨[], a :: as, s, rfl, rfl, rfl⟩
      | cons p pre =>
        simp only [List.cons_append, List.cons.injEq] at he
        obtain ⟨rfl, he⟩ := he
        simp only [Live.run, hb] at ht
        obtain ⟨pre', post', t', e1, e2, e3⟩ := h2 pre post t he ht
        exact ⟨a :: pre', post', t', by rw [e1]; rfl, by simp only [run, hz, e2], e3⟩

end Imageio.LiveRead
