import Verif.Lemmas.Live
/-!
The storage in the executions of `Model/Live.lean`, for any storage with programs that own their blocks.
-/
namespace Imageio.Live
open Imageio.Conc Imageio.Props Imageio.Spec Imageio.Spec.Live
open Imageio.Auth (upd upd_same upd_other)

variable {σ Γ τ : Type} {E : Env σ Γ τ} {s s' : Live σ Γ τ} {a : Act τ}

/-- The connection runs the operation `j` of the ticket object `r`, with the context `k`. -/
def Runs (s : Live σ Γ τ) (c : Nat) (j : Job τ) (r i k : Nat) : Prop :=
  s.pending c = some j ∧ (s.auth.conns c).pc.busy = some (r, i, k)

theorem Runs.active {c r i k : Nat} {j : Job τ} (h : Runs s c j r i k) : Active s c j r := by
  obtain ⟨h1, h2⟩ := h
  refine ⟨h1, i, k, ?_⟩
  revert h2
  cases (s.auth.conns c).pc <;> simp +contextual [Auth.Pc.busy]

theorem Active.runs {c r : Nat} {j : Job τ} (h : Active s c j r) : ∃ i k, Runs s c j r i k := by
  obtain ⟨h1, i, k, h | h | h⟩ := h <;> exact ⟨i, k, h1, by rw [h]; rfl⟩

theorem open_loc (E : Env σ Γ τ) (s : Live σ Γ τ) (t : Auth.State) (k : Nat) :
    (open_ E s t).loc k = s.loc k ∨ (s.auth.nextCtx ≤ k ∧ (open_ E s t).loc k = E.opened) := by
  unfold open_
  simp only
  split
  · exact .inl rfl
  · by_cases hk : k = s.auth.nextCtx
    · subst hk; exact .inr ⟨Nat.le_refl _, upd_same _ _ _⟩
    · exact .inl (upd_other _ _ hk)

/-- A step that does not touch the storage, and starts and ends no operation. -/
structure Quiet (E : Env σ Γ τ) (s s' : Live σ Γ τ) : Prop where
  mem : s'.mem = s.mem
  prog : s'.prog = s.prog
  ended : s'.ended = s.ended
  runs : ∀ c j r i k, Runs s' c j r i k ↔ Runs s c j r i k
  loc : ∀ k, s'.loc k = s.loc k ∨ (s.auth.nextCtx ≤ k ∧ s'.loc k = E.opened) ∨
    ((∀ c j r i, ¬ Runs s c j r i k) ∧ ∃ q g, s'.loc k = Query.after E.B (E.M.view (s.loc k) g) q)

/-- A step calls the storage, starts an operation, ends one, or does nothing with the storage. -/
inductive Kind (E : Env σ Γ τ) (s : Live σ Γ τ) : Act τ → Live σ Γ τ → Prop
  | call (c : Nat) (j : Job τ) (r i k : Nat) (f : σ → σ) (next : σ → Prog σ Unit) (hr : Runs s c j r i k)
      (hf : s.prog c = .step f next) : Kind E s (.call c) (Live.call E s c k f next)
  | start (c : Nat) (j : Job τ) (r k : Nat) (a : Act τ) (s' : Live σ Γ τ) (hn : ∀ j r i k, ¬ Runs s c j r i k)
      (hc : (s.auth.ctxs k).con = c)
      (hr : ∀ c' j' r' i' k', Runs s' c' j' r' i' k' ↔ Runs s c' j' r' i' k' ∨ (c' = c ∧ j' = j ∧ r' = r ∧ i' = s.auth.nextOp ∧ k' = k))
      (hm : s'.mem = s.mem) (hp : s'.prog = upd s.prog c (j.prog E.PB E.S)) (he : s'.ended = s.ended) (hu : s'.url = s.url)
      (hl : ∀ k, s'.loc k = s.loc k ∨ (s.auth.nextCtx ≤ k ∧ s'.loc k = E.opened)) (hk : k < s.auth.nextCtx) :
      Kind E s a s'
  | finish (c : Nat) (j : Job τ) (r i k : Nat) (a : Act τ) (s' : Live σ Γ τ) (ok : Bool) (x : Except Err Unit)
      (hr : Runs s c j r i k) (hx : s.prog c = .ret x)
      (hr' : ∀ c' j' r' i' k', Runs s' c' j' r' i' k' ↔ Runs s c' j' r' i' k' ∧ c' ≠ c)
      (hm : s'.mem = s.mem) (hp : s'.prog = s.prog) (hu : s'.url = s.url)
      (hl : ∀ k, s'.loc k = s.loc k ∨ (s.auth.nextCtx ≤ k ∧ s'.loc k = E.opened))
      (he : s'.ended = s.ended ++ [⟨c, r, s.url r, j, ok⟩]) (hok : ok = true → x = .ok ())
      (hbad : x = .ok () → ok = false → ∃ t, s'.auth.tickets r = some t ∧ t.canceled = true) : Kind E s a s'
  | quiet (a : Act τ) (s' : Live σ Γ τ) (h : Quiet E s s') : Kind E s a s'

theorem returned_ret {p : Prog σ Unit} (h : returned p = true) : ∃ x, p = .ret x := by
  cases p with
  | ret x => exact ⟨x, rfl⟩
  | step f k => cases h

theorem Moves.kind (w : Wf E s) (h : Moves E s a s') : Kind E s a s' := by
  have hi := w.reach.inv
  cases h with
  | call c j r i k f next hj hp hf => exact .call c j r i k f next ⟨hj, by rw [hp]; rfl⟩ hf
  | start c j r k t hj hp ht hs hi' =>
    obtain ⟨hk, hcon, -⟩ := hi.ready c r k hp
    refine .start c j r k _ _ (fun j r i k hr => ?_) hcon (fun c' j' r' i' k' => ?_) rfl rfl rfl rfl (open_loc E s t) hk
    · have := hr.2; rw [hp] at this; cases this
    · by_cases hc : c' = c
      · subst hc
        have : ¬ Runs s c' j' r' i' k' := fun hr => by have := hr.2; rw [hp] at this; cases this
        simp only [this, false_or, true_and]
        unfold Runs
        show s.pending c' = some j' ∧ (t.conns c').pc.busy = _ ↔ _
        cases Auth.Step.of_step ht with
        | startRefused => simp [Auth.State.goto] at hi'
        | startOp _ _ r'' k'' x hp' hx hc' =>
          rw [hp] at hp'; cases hp'
          simp only [hj, Auth.State.goto, upd_same, Auth.Pc.busy, Option.some.injEq, Prod.mk.injEq, Auth.State.setTicket]
          constructor
          · rintro ⟨rfl, rfl, h2, rfl⟩; exact ⟨rfl, rfl, h2.symm, rfl⟩
          · rintro ⟨rfl, rfl, h2, rfl⟩; exact ⟨rfl, rfl, h2.symm, rfl⟩
      · simp only [hc, false_and, or_false]
        unfold Runs
        show s.pending c' = some j' ∧ (t.conns c').pc.busy = _ ↔ _
        rw [busy_of ht (by simp [System.conOf]; exact fun h => hc h.symm)]
  | finish c j r i k t hj hp ht =>
    have hr : Runs s c j r i k := ⟨hj, by rw [hp]; rfl⟩
    obtain ⟨x, hx⟩ := returned_ret (w.ret c j r i k hj hp)
    obtain ⟨-, -, htk, -⟩ := hi.busy c r i k hr.2
    refine .finish c j r i k _ _ _ x hr hx (fun c' j' r' i' k' => ?_) rfl rfl rfl (open_loc E s t) (by rw [htk]) ?_ ?_
    · unfold Runs
      show upd s.pending c none c' = some j' ∧ (t.conns c').pc.busy = _ ↔ _
      by_cases hc : c' = c
      · subst hc; simp
      · rw [upd_other _ _ hc, busy_of ht (by simp [System.conOf]; exact fun h => hc h.symm)]
        simp [hc]
    · intro h
      rw [hx] at h
      simp only [Bool.and_eq_true] at h
      unfold succeeded at h
      split at h
      · rename_i h'; cases h'; rfl
      · simp at h
    · rintro rfl h
      rw [hx] at h
      have hs : succeeded (.ret (.ok ()) : Prog σ Unit) = true := rfl
      rw [hs] at h
      simp only [ne_eq, decide_not, Bool.true_and, Bool.not_eq_false', decide_eq_true_eq] at h
      cases Auth.Step.of_step ht with
      | removeOp _ r' i' k' x op hp' hx' ho =>
        rw [hp] at hp'; cases hp'
        simp only [Auth.State.goto, upd_same] at h
        split at h
        · rename_i hcan
          refine ⟨(x.removeOperation op).2, by simp [Auth.State.goto, open_, Auth.State.event, Auth.State.setTicket], ?_⟩
          unfold Auth.Ticket.removeOperation at hcan ⊢
          cases hcc : x.canceled with
          | true => simp only [hcc, if_true]; split <;> rfl
          | false =>
            simp only [hcc, if_neg Bool.false_ne_true] at hcan
            split at hcan <;> cases hcan
        · cases h
  | look c r i k q hj hp =>
    refine .quiet _ _ ⟨rfl, rfl, rfl, fun _ _ _ _ _ => Iff.rfl, fun k' => ?_⟩
    by_cases hk : k' = k
    · subst hk
      refine .inr (.inr ⟨fun c' j' r' i' h' => ?_, q, _, upd_same _ _ _⟩)
      obtain ⟨-, h1, -⟩ := hi.busy c r i k' (by rw [hp]; rfl)
      obtain ⟨-, h2, -⟩ := hi.busy c' r' i' k' h'.2
      have : c' = c := h2.symm.trans h1
      subst this
      rw [h'.1] at hj
      cases hj
    · exact .inl (upd_other _ _ hk)
  | add attrs url t ht =>
    refine .quiet _ _ ⟨rfl, rfl, rfl, fun c j r i k => ?_, fun _ => .inl rfl⟩
    unfold Runs
    show s.pending c = some j ∧ (t.conns c).pc.busy = _ ↔ _
    rw [busy_of ht (by simp [System.conOf])]
  | refused c id j t ht hi' =>
    refine .quiet _ _ ⟨rfl, rfl, rfl, fun c j r i k => ?_, fun _ => .inl rfl⟩
    unfold Runs
    show s.pending c = some j ∧ (t.conns c).pc.busy = _ ↔ _
    rw [(Auth.Step.of_step ht).busy (by simp) (by simp)]
  | request c0 id j0 t ht hi' =>
    refine .quiet _ _ ⟨rfl, rfl, rfl, fun c j r i k => ?_, fun _ => .inl rfl⟩
    unfold Runs
    show upd s.pending c0 _ c = some j ∧ (t.conns c).pc.busy = _ ↔ _
    rw [(Auth.Step.of_step ht).busy (by simp) (by simp)]
    by_cases hc : c = c0
    · subst hc
      have hb : (s.auth.conns c).pc.busy = none := by
        cases Auth.Step.of_step ht with
        | refused _ _ _ _ _ hp => rw [hp]; rfl
        | request _ _ _ _ _ hp => rw [hp]; rfl
      simp [hb]
    · rw [upd_other _ _ hc]
  | drop b c0 t ht ha hr hcon hi' =>
    refine .quiet _ _ ⟨rfl, rfl, rfl, fun c j r i k => ?_, fun k => (open_loc E s t k).imp_right .inl⟩
    unfold Runs
    show upd s.pending c0 _ c = some j ∧ (t.conns c).pc.busy = _ ↔ _
    by_cases hc : c = c0
    · subst hc
      have hb : (s.auth.conns c).pc.busy = none := by
        by_cases hs : ∃ o, b = .startOp c o
        · obtain ⟨o, rfl⟩ := hs
          cases Auth.Step.of_step ht with
          | startRefused _ _ _ _ _ hp => rw [hp]; rfl
          | startOp _ _ _ _ _ hp => rw [hp]; rfl
        · rw [← (Auth.Step.of_step ht).busy (fun o h => hs ⟨o, h⟩) hr, hi']; rfl
      simp [hb]
    · rw [upd_other _ _ hc, busy_of ht (by rw [hcon]; simp; exact fun h => hc h.symm)]
  | other b t ht ha hcon =>
    refine .quiet _ _ ⟨rfl, rfl, rfl, fun c j r i k => ?_, fun k => (open_loc E s t k).imp_right .inl⟩
    unfold Runs
    show s.pending c = some j ∧ (t.conns c).pc.busy = _ ↔ _
    constructor
    · rintro ⟨h1, h2⟩
      rw [(Auth.Step.of_step ht).busy (fun o h => (hcon c (by rw [h]; rfl) (by rw [h1]; simp)).1 o h)
        (fun h => (hcon c (by rw [h]; rfl) (by rw [h1]; simp)).2.1 h)] at h2
      exact ⟨h1, h2⟩
    · rintro ⟨h1, h2⟩
      rw [(Auth.Step.of_step ht).busy (fun o h => (hcon c (by rw [h]; rfl) (by rw [h1]; simp)).1 o h)
        (fun h => (hcon c (by rw [h]; rfl) (by rw [h1]; simp)).2.1 h)]
      exact ⟨h1, h2⟩

/-! ### The storage -/

/-- What an operation achieves on the blocks it uses; `base` is what they contained. -/
structure Post {S : Source τ} (R : LawfulSource S) (content : Γ → Nat → Byte) (M : Machine σ Γ) (bs : Nat) (invL : σ → Prop) (sure : Prop)
    (j : Job τ) (base : Nat → Byte) (r : Except Err Unit) (s' : σ) : Prop where
  stored : r = .ok () → (wantedBytes R j).length = j.size ∧
    ∀ x, InRange j.offset j.size x → content (M.shared s') x = byteAt (wantedBytes R j) (x - j.offset)
  kept : ∀ x, Near bs j.offset j.size x → ¬ InRange j.offset j.size x → content (M.shared s') x = base x
  loc : invL s'
  sure : sure → r = .ok ()

/-- Storage with operations that own the blocks of their bytes. -/
structure Law (E : Env σ Γ τ) (R : LawfulSource E.S) where
  bs : Nat
  content : Γ → Nat → Byte
  space : Http.Str → Space E.M
  content_eq : ∀ u, (space u).content = content
  invG : Http.Str → Γ → Prop
  invG_sized : ∀ u g g', invG u g → (space u).sized g g' → invG u g'
  invL : σ → Prop
  invL_view : ∀ s g, invL (E.M.view s g) ↔ invL s
  opened : invL E.opened
  look : ∀ q s, invL s → invL (Query.after E.B s q)
  ok : Http.Str → Job τ → Prop
  sure : Http.Str → Job τ → Prop
  own : ∀ u j s, ok u j → invG u (E.M.shared s) → invL s →
    (space u).Owned (Near bs j.offset j.size)
      (Post R content E.M bs invL (sure u j) j (content (E.M.shared s))) (j.prog E.PB E.S) s

variable {R : LawfulSource E.S}

/-- What is true during the executions: `V` is what the images would contain without the operations that are running. -/
structure Sound (L : Law E R) (V : Http.Str → Nat → Byte) (s : Live σ Γ τ) : Prop where
  invG : ∀ u, L.invG u (s.mem u)
  idle : ∀ k, (∀ c j r i, ¬ Runs s c j r i k) → L.invL (s.loc k)
  active : ∀ c j r i k, Runs s c j r i k → (L.space (s.url r)).Owned (Near L.bs j.offset j.size)
    (Post R L.content E.M L.bs L.invL (L.sure (s.url r) j) j (V (s.url r))) (s.prog c) (E.M.view (s.loc k) (s.mem (s.url r)))
  quiet : ∀ u x, (∀ c j r i k, Runs s c j r i k → s.url r = u → ¬ Near L.bs j.offset j.size x) → L.content (s.mem u) x = V u x

theorem Sound.of_quiet {L : Law E R} {V : Http.Str → Nat → Byte} (w : Wf E s) (hS : Sound L V s) (q : Quiet E s s')
    (hu : ∀ r t, s.auth.tickets r = some t → s'.url r = s.url r) : Sound L V s' := by
  have hi := w.reach.inv
  have url : ∀ {c j r i k}, Runs s c j r i k → s'.url r = s.url r := by
    intro c j r i k hr
    obtain ⟨-, -, -, -, t, ht, -⟩ := hi.busy c r i k hr.2
    exact hu r t ht
  refine ⟨fun u => by rw [q.mem]; exact hS.invG u, fun k hk => ?_, fun c j r i k hr => ?_, fun u x hx => ?_⟩
  · have hk' := hS.idle k fun c j r i hr => hk c j r i ((q.runs c j r i k).mpr hr)
    rcases q.loc k with h | ⟨-, h⟩ | ⟨-, q', g, h⟩
    · rw [h]; exact hk'
    · rw [h]; exact L.opened
    · rw [h]; exact L.look _ _ ((L.invL_view _ _).mpr hk')
  · have hr' := (q.runs c j r i k).mp hr
    obtain ⟨hk, -⟩ := hi.busy c r i k hr'.2
    rw [url hr', q.mem, q.prog]
    rcases q.loc k with h | ⟨h, -⟩ | ⟨h, -⟩
    · rw [h]; exact hS.active c j r i k hr'
    · omega
    · exact absurd hr' (h c j r i)
  · rw [q.mem]
    refine hS.quiet u x fun c j r i k hr he => ?_
    exact hx c j r i k ((q.runs c j r i k).mpr hr) ((url hr).trans he)

theorem Post.base {S : Source τ} {R : LawfulSource S} {content : Γ → Nat → Byte} {M : Machine σ Γ} {bs : Nat} {invL : σ → Prop} {sure : Prop}
    {j : Job τ} {base base' : Nat → Byte} {r : Except Err Unit} {s' : σ} (h : Post R content M bs invL sure j base r s')
    (hb : ∀ x, Near bs j.offset j.size x → base x = base' x) : Post R content M bs invL sure j base' r s' :=
  ⟨h.stored, fun x hx hn => (h.kept x hx hn).trans (hb x hx), h.loc, h.sure⟩

/-- No two running operations have a common block. -/
def Disjoint (bs : Nat) (s : Live σ Γ τ) : Prop :=
  ∀ c c' j j' r r' i i' k k' x, Runs s c j r i k → Runs s c' j' r' i' k' → s.url r = s.url r' → Near bs j.offset j.size x →
    Near bs j'.offset j'.size x → c = c'

theorem Disjoint.of {bs : Nat} (h : Apart bs s) : Disjoint bs s := by
  rintro c c' j j' r r' i i' k k' x h1 h2 hu ⟨y, hy, he⟩ ⟨z, hz, he'⟩
  exact h c c' j j' r r' y z h1.active h2.active hu hy hz (he.symm.trans he')

theorem Runs.unique {c j j' r r' i i' k k'} (h : Runs s c j r i k) (h' : Runs s c j' r' i' k') : j = j' ∧ r = r' ∧ i = i' ∧ k = k' := by
  obtain ⟨h1, h2⟩ := h
  obtain ⟨h3, h4⟩ := h'
  rw [h1] at h3
  rw [h2] at h4
  cases h3
  cases h4
  exact ⟨rfl, rfl, rfl, rfl⟩

theorem Sound.of_call {L : Law E R} {V : Http.Str → Nat → Byte} (w : Wf E s) (hS : Sound L V s) (hd : Disjoint L.bs s) {c r i k : Nat} {j : Job τ}
    {f : σ → σ} {next : σ → Prog σ Unit} (hr : Runs s c j r i k) (hf : s.prog c = .step f next) :
    Sound L V (Live.call E s c k f next) ∧ (Live.call E s c k f next).ended = s.ended ∧
    (∀ u x, L.content ((Live.call E s c k f next).mem u) x = L.content (s.mem u) x ∨ (u = s.url r ∧ Near L.bs j.offset j.size x)) := by
  have hi := w.reach.inv
  obtain ⟨hk, hcon, htk, -⟩ := hi.busy c r i k hr.2
  have ho := hS.active c j r i k hr
  rw [hf] at ho
  have Sp := L.space (s.url r)
  have step := ho (s.mem (s.url r)) (by rw [(L.space (s.url r)).shared_view]; exact Space.Agree.refl _ _ _)
  rw [(L.space (s.url r)).view_view, L.content_eq] at step
  obtain ⟨x1, x2, x3⟩ := step
  unfold Live.call
  simp only [htk]
  refine ⟨⟨fun u => ?_, fun k' hk' => ?_, fun c' j' r' i' k' hr' => ?_, fun u x hx => ?_⟩, trivial, fun u x => ?_⟩
  · by_cases hu : u = s.url r
    · subst hu
      simp only [upd_same]
      exact L.invG_sized _ _ _ (hS.invG _) x2
    · simp only [upd_other _ _ hu]; exact hS.invG u
  · have hne : k' ≠ k := fun h => hk' c j r i (h ▸ hr)
    simp only [upd_other _ _ hne]
    exact hS.idle k' fun c j r i h => hk' c j r i h
  · have hr0 : Runs s c' j' r' i' k' := hr'
    by_cases hc : c' = c
    · subst hc
      obtain ⟨rfl, rfl, rfl, rfl⟩ := hr0.unique hr
      simp only [upd_same]
      rw [(L.space (s.url r')).view_shared]
      exact x3
    · have hne : k' ≠ k := by
        rintro rfl
        obtain ⟨-, hcon', -⟩ := hi.busy c' r' i' k' hr0.2
        exact hc (hcon'.symm.trans hcon)
      simp only [upd_other _ _ hne, upd_other _ _ hc]
      have old := hS.active c' j' r' i' k' hr0
      by_cases hu : s.url r' = s.url r
      · rw [hu, upd_same]
        rw [hu] at old
        have := old.view (g := E.M.shared (f (E.M.view (s.loc k) (s.mem (s.url r))))) (by
          rw [(L.space (s.url r)).shared_view]
          refine ⟨fun x hx => ?_, x2⟩
          rw [L.content_eq]
          exact x1 x fun hn => hc (hd c' c j' j r' r i' i k' k x hr0 hr hu hx hn))
        rwa [(L.space (s.url r)).view_view] at this
      · rw [upd_other _ _ hu]; exact old
  · have hx' : ∀ c j r i k, Runs s c j r i k → s.url r = u → ¬ Near L.bs j.offset j.size x := hx
    by_cases hu : u = s.url r
    · subst hu
      simp only [upd_same]
      rw [x1 x (hx' c j r i k hr rfl)]
      exact hS.quiet _ x hx'
    · simp only [upd_other _ _ hu]
      exact hS.quiet u x hx'
  · by_cases hu : u = s.url r
    · subst hu
      simp only [upd_same]
      by_cases hn : Near L.bs j.offset j.size x
      · exact .inr ⟨trivial, hn⟩
      · exact .inl (x1 x hn)
    · simp only [upd_other _ _ hu]; exact .inl trivial

theorem Sound.of_start {L : Law E R} {V : Http.Str → Nat → Byte} (w : Wf E s) (hS : Sound L V s) (hd : Disjoint L.bs s') {c r k : Nat} {j : Job τ}
    (hok : L.ok (s.url r) j) (hn : ∀ j r i k, ¬ Runs s c j r i k) (hc : (s.auth.ctxs k).con = c)
    (hr : ∀ c' j' r' i' k', Runs s' c' j' r' i' k' ↔ Runs s c' j' r' i' k' ∨ (c' = c ∧ j' = j ∧ r' = r ∧ i' = s.auth.nextOp ∧ k' = k))
    (hm : s'.mem = s.mem) (hp : s'.prog = upd s.prog c (j.prog E.PB E.S)) (hu : s'.url = s.url)
    (hl : ∀ k, s'.loc k = s.loc k ∨ (s.auth.nextCtx ≤ k ∧ s'.loc k = E.opened)) (hk : k < s.auth.nextCtx) : Sound L V s' := by
  have hi := w.reach.inv
  have new : Runs s' c j r s.auth.nextOp k := (hr _ _ _ _ _).mpr (.inr ⟨rfl, rfl, rfl, rfl, rfl⟩)
  have free : ∀ c' j' r' i', ¬ Runs s c' j' r' i' k := by
    intro c' j' r' i' h
    obtain ⟨-, hcon, -⟩ := hi.busy c' r' i' k h.2
    have : c' = c := hcon.symm.trans hc
    subst this
    exact hn _ _ _ _ h
  have hlk : ∀ {k}, k < s.auth.nextCtx → s'.loc k = s.loc k := by
    intro k hk
    rcases hl k with h | ⟨h, -⟩
    · exact h
    · omega
  have base : ∀ x, Near L.bs j.offset j.size x → L.content (s.mem (s.url r)) x = V (s.url r) x := by
    intro x hx
    refine hS.quiet _ x fun c' j' r' i' k' h he hx' => ?_
    have := hd c' c j' j r' r i' s.auth.nextOp k' k x ((hr _ _ _ _ _).mpr (.inl h)) new (by rw [hu]; exact he) hx' hx
    subst this
    exact hn _ _ _ _ h
  refine ⟨fun u => by rw [hm]; exact hS.invG u, fun k' hk' => ?_, fun c' j' r' i' k' h => ?_, fun u x hx => ?_⟩
  · rcases hl k' with h | ⟨-, h⟩
    · rw [h]; exact hS.idle k' fun c j r i h => hk' c j r i ((hr _ _ _ _ _).mpr (.inl h))
    · rw [h]; exact L.opened
  · rw [hu, hm, hp]
    rcases (hr _ _ _ _ _).mp h with h0 | ⟨rfl, rfl, rfl, -, rfl⟩
    · obtain ⟨hk0, -⟩ := hi.busy c' r' i' k' h0.2
      rw [hlk hk0, upd_other _ _ (fun h => by subst h; exact hn _ _ _ _ h0)]
      exact hS.active c' j' r' i' k' h0
    · rw [hlk hk, upd_same]
      have := L.own (s.url r') j' (E.M.view (s.loc k') (s.mem (s.url r'))) hok
        (by rw [(L.space (s.url r')).shared_view]; exact hS.invG _) ((L.invL_view _ _).mpr (hS.idle k' free))
      rw [(L.space (s.url r')).shared_view] at this
      exact this.post fun r s' hq => hq.base base
  · rw [hm]
    refine hS.quiet u x fun c' j' r' i' k' h he => ?_
    exact hx c' j' r' i' k' ((hr _ _ _ _ _).mpr (.inl h)) (by rw [hu]; exact he)

/-- What the images contain without the running operations, after an operation ended. -/
def settle (content : Γ → Nat → Byte) (mem : Http.Str → Γ) (u : Http.Str) (j : Job τ) (V : Http.Str → Nat → Byte) : Http.Str → Nat → Byte :=
  fun v x => if v = u ∧ j.offset ≤ x ∧ x < j.offset + j.size then content (mem v) x else V v x

theorem Sound.of_finish {L : Law E R} {V : Http.Str → Nat → Byte} (w : Wf E s) (hS : Sound L V s) (hd : Disjoint L.bs s) {c r i k : Nat} {j : Job τ}
    {x : Except Err Unit} (hr : Runs s c j r i k) (hx : s.prog c = .ret x)
    (hr' : ∀ c' j' r' i' k', Runs s' c' j' r' i' k' ↔ Runs s c' j' r' i' k' ∧ c' ≠ c)
    (hm : s'.mem = s.mem) (hp : s'.prog = s.prog) (hu : s'.url = s.url)
    (hl : ∀ k, s'.loc k = s.loc k ∨ (s.auth.nextCtx ≤ k ∧ s'.loc k = E.opened)) :
    Sound L (settle L.content s.mem (s.url r) j V) s' ∧
    (x = .ok () → (wantedBytes R j).length = j.size ∧
      ∀ y, InRange j.offset j.size y → L.content (s.mem (s.url r)) y = byteAt (wantedBytes R j) (y - j.offset)) ∧
    (L.sure (s.url r) j → x = .ok ()) := by
  have hi := w.reach.inv
  have ho := hS.active c j r i k hr
  rw [hx] at ho
  have hpost := ho (s.mem (s.url r)) (by rw [(L.space (s.url r)).shared_view]; exact Space.Agree.refl _ _ _)
  rw [(L.space (s.url r)).view_view] at hpost
  have hsh := (L.space (s.url r)).shared_view (s.loc k) (s.mem (s.url r))
  refine ⟨⟨fun u => by rw [hm]; exact hS.invG u, fun k' hk' => ?_, fun c' j' r' i' k' h => ?_, fun u y hy => ?_⟩, ?_, hpost.sure⟩
  · rcases hl k' with h | ⟨-, h⟩
    · rw [h]
      by_cases hk : k' = k
      · subst hk
        exact (L.invL_view _ _).mp hpost.loc
      · refine hS.idle k' fun c' j' r' i' h' => hk' c' j' r' i' ((hr' _ _ _ _ _).mpr ⟨h', ?_⟩)
        rintro rfl
        obtain ⟨-, -, -, rfl⟩ := h'.unique hr
        exact hk rfl
    · rw [h]; exact L.opened
  · obtain ⟨h0, hne⟩ := (hr' _ _ _ _ _).mp h
    obtain ⟨hk0, -⟩ := hi.busy c' r' i' k' h0.2
    rw [hu, hm, hp]
    rcases hl k' with h1 | ⟨h1, -⟩
    · rw [h1]
      refine (hS.active c' j' r' i' k' h0).post fun x s' hq => hq.base fun y hy => ?_
      unfold settle
      rw [if_neg]
      rintro ⟨he, h1, h2⟩
      exact hne (hd c' c j' j r' r i' i k' k y h0 hr he hy ⟨y, ⟨h1, h2⟩, rfl⟩)
    · omega
  · rw [hm]
    unfold settle
    split
    · rfl
    · rename_i hn
      by_cases hnear : u = s.url r ∧ Near L.bs j.offset j.size y
      · obtain ⟨rfl, hnear⟩ := hnear
        have := hpost.kept y hnear fun h => hn ⟨rfl, h.1, h.2⟩
        rwa [hsh] at this
      · refine hS.quiet u y fun c' j' r' i' k' h he hy' => ?_
        by_cases hc : c' = c
        · subst hc
          obtain ⟨rfl, rfl, -, -⟩ := h.unique hr
          exact hnear ⟨he.symm, hy'⟩
        · exact hy c' j' r' i' k' ((hr' _ _ _ _ _).mpr ⟨h, hc⟩) (by rw [hu]; exact he) hy'
  · intro hxo
    obtain ⟨h1, h2⟩ := hpost.stored hxo
    rw [hsh] at h2
    exact ⟨h1, h2⟩

theorem last_append (u : Http.Str) (x : Nat) (l : List (Done τ)) (d : Done τ) :
    last u x (l ++ [d]) = if d.url = u ∧ d.job.offset ≤ x ∧ x < d.job.offset + d.job.size then some d else last u x l := by
  unfold last
  rw [List.filter_append]
  split
  · rename_i h
    rw [List.filter_cons_of_pos (by simpa using h)]
    simp
  · rename_i h
    rw [List.filter_cons_of_neg (by simpa using h)]
    simp

theorem Runs.of_owner {r t} (w : Wf E s) {c j i k} (h : Runs s c j r i k) (ht : s.auth.tickets r = some t) :
    "write" ∈ t.attrs.ops ∧ ((j.offset + j.size : Nat) : Int) ≤ t.attrs.size := by
  obtain ⟨h1, h2⟩ := h
  obtain ⟨t1, ht1, hw⟩ := w.write c j r h1 (by
    revert h2
    cases (s.auth.conns c).pc <;> simp +contextual [Auth.Pc.busy, Auth.Pc.ticket])
  obtain ⟨t2, ht2, hf⟩ := w.fits c j r i k h1 h2
  rw [ht] at ht1 ht2
  cases ht1
  cases ht2
  exact ⟨hw, hf⟩

/-- What the theorems need of every state of an execution. -/
structure Fine (L : Law E R) (s : Live σ Γ τ) : Prop where
  apart : Apart L.bs s
  ok : ∀ c j r, Active s c j r → L.ok (s.url r) j

/-- The storage in every execution. -/
structure Result (L : Law E R) (mem : Http.Str → Γ) (V : Http.Str → Nat → Byte) (s : Live σ Γ τ) : Prop where
  sound : Sound L V s
  explained : ∀ u x, Explained R s.ended u x (L.content (mem u) x) (V u x)
  sure : ∀ d ∈ s.ended, L.sure d.url d.job → d.ok = false → ∃ t, s.auth.tickets d.ticket = some t ∧ t.canceled = true

theorem canceled_moves (w : Wf E s) (h : Moves E s a s') {r : Nat} (hc : ∃ t, s.auth.tickets r = some t ∧ t.canceled = true) :
    ∃ t, s'.auth.tickets r = some t ∧ t.canceled = true := by
  rcases h.auth with he | ⟨b, hb⟩
  · rw [he]; exact hc
  · obtain ⟨t, ht, hc⟩ := hc
    obtain ⟨t', ht', e⟩ := (Auth.Step.of_step hb).evolve w.reach.inv ht
    exact ⟨t', ht', e.canceled hc⟩

theorem result_run {L : Law E R} {mem : Http.Str → Γ} (hG : ∀ u, L.invG u (mem u)) {acts : List (Act τ)}
    (hr : run E (start E mem) acts = some s) (hf : Throughout E mem acts (Fine L)) : ∃ V, Result L mem V s := by
  refine run_induction (E := E) (mem := mem) (P := fun as s => Throughout E mem as (Fine L) → ∃ V, Result L mem V s) ?_ ?_ hr hf
  · intro _
    refine ⟨fun u => L.content (mem u), ⟨⟨hG, fun _ _ => L.opened, fun c j r i k h => ?_, fun _ _ _ => rfl⟩, fun _ _ => rfl, fun d hd => (by cases hd)⟩⟩
    have := h.1
    cases this
  · intro as a s s' hrs hrs' ih hs hf'
    obtain ⟨V, hV⟩ := ih fun pre post x he hx => hf' pre (post ++ [a]) x (by rw [he, List.append_assoc]) hx
    have w := run_wf hrs
    have hm := step_moves hs
    have f0 : Fine L s := hf' as [a] s rfl hrs
    have f1 : Fine L s' := hf' (as ++ [a]) [] s' (by simp) hrs'
    have d0 := Disjoint.of f0.apart
    have d1 := Disjoint.of f1.apart
    have can : ∀ {r}, (∃ t, s.auth.tickets r = some t ∧ t.canceled = true) → ∃ t, s'.auth.tickets r = some t ∧ t.canceled = true :=
      canceled_moves w hm
    have hurl : ∀ r t, s.auth.tickets r = some t → s'.url r = s.url r := fun r t ht => hm.url w.reach.inv ht
    cases hm.kind w with
    | call c j r i k f next h hf =>
      exact ⟨V, (hV.sound.of_call w d0 h hf).1, hV.explained, fun d hd hs ho => can (hV.sure d hd hs ho)⟩
    | start c j r k _ _ hn hc hr hm' hp he hu hl hk =>
      have new : Runs s' c j r s.auth.nextOp k := (hr _ _ _ _ _).mpr (.inr ⟨rfl, rfl, rfl, rfl, rfl⟩)
      have hok := f1.ok c j r new.active
      rw [hu] at hok
      exact ⟨V, hV.sound.of_start w d1 hok hn hc hr hm' hp hu hl hk, by rw [he]; exact hV.explained,
        fun d hd hs ho => can (hV.sure d (by rw [he] at hd; exact hd) hs ho)⟩
    | finish c j r i k _ _ ok x h hx hr' hm' hp hu hl he hok hbad =>
      obtain ⟨h1, h2, h3⟩ := hV.sound.of_finish w d0 h hx hr' hm' hp hu hl
      refine ⟨_, h1, fun u y => ?_, fun d hd hs ho => ?_⟩
      · unfold Explained
        rw [he, last_append]
        unfold settle
        by_cases hin : s.url r = u ∧ j.offset ≤ y ∧ y < j.offset + j.size
        · rw [if_pos hin, if_pos ⟨hin.1.symm, hin.2⟩]
          obtain ⟨rfl, hin1, hin2⟩ := hin
          intro hk
          obtain ⟨z1, z2⟩ := h2 (hok hk)
          exact ⟨z1, z2 y ⟨hin1, hin2⟩⟩
        · rw [if_neg hin, if_neg fun h => hin ⟨h.1.symm, h.2⟩]
          exact hV.explained u y
      · rw [he] at hd
        rcases List.mem_append.mp hd with hd | hd
        · exact can (hV.sure d hd hs ho)
        · simp only [List.mem_singleton] at hd
          subst hd
          exact hbad (h3 hs) ho
    | quiet _ _ q =>
      exact ⟨V, hV.sound.of_quiet w q hurl, by rw [q.ended]; exact hV.explained,
        fun d hd hs ho => can (hV.sure d (by rw [q.ended] at hd; exact hd) hs ho)⟩

end Imageio.Live
