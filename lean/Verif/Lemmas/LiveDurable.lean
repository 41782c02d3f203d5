import Verif.Lemmas.LiveStorage
import Verif.Lemmas.Upload
/-!
What is durable in the executions of `Model/Live.lean`.
-/
namespace Imageio.Live
open Imageio.Conc Imageio.Spec Imageio.Spec.Live
open Imageio.Auth (upd upd_same upd_other)

variable {σ Γ τ : Type} {E : Env σ Γ τ} {s s' : Live σ Γ τ} {a : Act τ} {R : LawfulSource E.S}

/-- What the storage does with the durable bytes. -/
structure Durability (L : Law E R) where
  K : σ → Prop
  dur : Γ → Nat → Byte
  view : ∀ s g, K s → K (E.M.view s g)
  opened : K E.opened
  look : ∀ q s, K s → K (Query.after E.B s q)
  syncs : Syncs E.M K L.content dur E.PB

/-- What is true of the operations that are running: they change what is durable only with a flush, of everything; an operation that has to flush and
returned without an error has done this last, and its blocks, and the bytes `P` that nobody else changed since, are durable. -/
structure Synced (L : Law E R) (D : Durability L) (P : Nat → Http.Str → Nat → Prop) (s : Live σ Γ τ) : Prop where
  loc : ∀ k, D.K (s.loc k)
  syncing : ∀ c j r i k, Runs s c j r i k → Syncing E.M D.K L.content D.dur (s.prog c)
  flushed : ∀ c j r i k, Runs s c j r i k → j.flush = true → FlushLast E.M D.K L.content D.dur (s.prog c) ∨
    (s.prog c = .ret (.ok ()) ∧ ∀ x, (Near L.bs j.offset j.size x ∨ P c (s.url r) x) → D.dur (s.mem (s.url r)) x = L.content (s.mem (s.url r)) x)

/-- Only one connection changes the bytes of `P`. -/
def Alone (bs : Nat) (P : Nat → Http.Str → Nat → Prop) (s : Live σ Γ τ) : Prop :=
  ∀ c c' j r i k x, Runs s c' j r i k → P c (s.url r) x → Near bs j.offset j.size x → c' = c

theorem flushLast_job {L : Law E R} (D : Durability L) (j : Job τ) (hf : j.flush = true) : FlushLast E.M D.K L.content D.dur (j.prog E.PB E.S) := by
  unfold Job.prog
  split
  · unfold zeroRunP
    rw [hf]
    exact FlushLast.bind fun _ => FlushLast.bind fun _ => D.syncs.last
  · unfold writeRunP
    rw [hf]
    exact FlushLast.bind fun _ => FlushLast.bind fun _ => FlushLast.bind fun _ => D.syncs.last

theorem loc_kept {L : Law E R} (D : Durability L) (h : ∀ k, D.K (s.loc k))
    (hl : ∀ k, s'.loc k = s.loc k ∨ (s.auth.nextCtx ≤ k ∧ s'.loc k = E.opened)) (k : Nat) : D.K (s'.loc k) := by
  rcases hl k with h' | ⟨-, h'⟩
  · rw [h']; exact h k
  · rw [h']; exact D.opened

/-- A call of an operation keeps what is durable, outside of its blocks. -/
theorem call_durable {L : Law E R} {D : Durability L} {P : Nat → Http.Str → Nat → Prop} {V : Http.Str → Nat → Byte} (w : Wf E s)
    (hS : Sound L V s) (hd : Disjoint L.bs s) (hy : Synced L D P s) {c r i k : Nat} {j : Job τ} {f : σ → σ} {next : σ → Prog σ Unit}
    (hr : Runs s c j r i k) (hf : s.prog c = .step f next) {u : Http.Str} {x : Nat} (hx : u = s.url r → ¬ Near L.bs j.offset j.size x)
    (h : D.dur (s.mem u) x = L.content (s.mem u) x) :
    D.dur ((Live.call E s c k f next).mem u) x = L.content ((Live.call E s c k f next).mem u) x := by
  obtain ⟨-, -, htk, -⟩ := w.reach.inv.busy c r i k hr.2
  obtain ⟨-, -, hout⟩ := hS.of_call w hd hr hf
  have hsy := hy.syncing c j r i k hr
  rw [hf] at hsy
  have hsy := hsy (E.M.view (s.loc k) (s.mem (s.url r))) (D.view _ _ (hy.loc k))
  rw [(L.space (s.url r)).shared_view] at hsy
  have hsame : L.content ((Live.call E s c k f next).mem u) x = L.content (s.mem u) x := by
    rcases hout u x with h | ⟨h1, h2⟩
    · exact h
    · exact absurd h2 (hx h1)
  rw [hsame]
  by_cases hu : u = s.url r
  · subst hu
    have e : (Live.call E s c k f next).mem (s.url r) = E.M.shared (f (E.M.view (s.loc k) (s.mem (s.url r)))) := by
      unfold Live.call
      simp only [htk, upd_same]
    rw [e] at hsame ⊢
    rcases hsy.1.1 with h1 | h1
    · rw [h1]; exact h
    · rw [h1]; exact hsame
  · have e : (Live.call E s c k f next).mem u = s.mem u := by
      unfold Live.call
      simp only [htk, upd_other _ _ hu]
    rw [e]; exact h

theorem Synced.step {L : Law E R} {D : Durability L} {P : Nat → Http.Str → Nat → Prop} {V : Http.Str → Nat → Byte} (w : Wf E s)
    (hS : Sound L V s) (hd : Disjoint L.bs s) (hal : Alone L.bs P s) (hy : Synced L D P s)
    (hurl : ∀ r t, s.auth.tickets r = some t → s'.url r = s.url r) (hk : Kind E s a s') : Synced L D P s' := by
  have hi := w.reach.inv
  cases hk with
  | call c j r i k f next hr hf =>
    obtain ⟨-, hcon, htk, -⟩ := hi.busy c r i k hr.2
    have hsy := hy.syncing c j r i k hr
    rw [hf] at hsy
    have hsy := hsy (E.M.view (s.loc k) (s.mem (s.url r))) (D.view _ _ (hy.loc k))
    refine ⟨fun k' => ?_, fun c' j' r' i' k' hr' => ?_, fun c' j' r' i' k' hr' hfl => ?_⟩
    · unfold Live.call
      simp only [htk]
      by_cases hk : k' = k
      · subst hk; rw [upd_same]; exact hsy.1.2
      · rw [upd_other _ _ hk]; exact hy.loc k'
    · have hr0 : Runs s c' j' r' i' k' := hr'
      unfold Live.call
      simp only [htk]
      by_cases hc : c' = c
      · subst hc; rw [upd_same]; exact hsy.2
      · rw [upd_other _ _ hc]; exact hy.syncing c' j' r' i' k' hr0
    · have hr0 : Runs s c' j' r' i' k' := hr'
      by_cases hc : c' = c
      · subst hc
        obtain ⟨rfl, rfl, rfl, rfl⟩ := hr0.unique hr
        have hp : (Live.call E s c' k' f next).prog c' = next (E.M.view (s.loc k') (s.mem (s.url r'))) := by
          unfold Live.call; simp only [htk, upd_same]
        have hm : (Live.call E s c' k' f next).mem (s.url r') = E.M.shared (f (E.M.view (s.loc k') (s.mem (s.url r')))) := by
          unfold Live.call; simp only [htk, upd_same]
        have hu : (Live.call E s c' k' f next).url r' = s.url r' := rfl
        rw [hp, hu, hm]
        rcases hy.flushed c' j' r' i' k' hr0 hfl with h | ⟨h, -⟩
        · rw [hf] at h
          obtain ⟨h1, h2⟩ := h (E.M.view (s.loc k') (s.mem (s.url r'))) (D.view _ _ (hy.loc k'))
          by_cases hn : next (E.M.view (s.loc k') (s.mem (s.url r'))) = .ret (.ok ())
          · exact .inr ⟨hn, fun x _ => by rw [h1 hn]⟩
          · exact .inl (h2 hn)
        · rw [hf] at h; cases h
      · have hp : (Live.call E s c k f next).prog c' = s.prog c' := by
          unfold Live.call; exact upd_other _ _ hc
        have hu : (Live.call E s c k f next).url r' = s.url r' := rfl
        rw [hp, hu]
        rcases hy.flushed c' j' r' i' k' hr0 hfl with h | ⟨h, h'⟩
        · exact .inl h
        · refine .inr ⟨h, fun x hx => call_durable w hS hd hy hr hf (fun he hn => hc ?_) (h' x hx)⟩
          rcases hx with hx | hx
          · exact hd c' c j' j r' r i' i k' k x hr0 hr he hx hn
          · exact (hal c' c j r i k x hr (he ▸ hx) hn).symm
  | start c j r k _ _ hn hc hr hm hp he hu hl hk =>
    refine ⟨loc_kept D hy.loc hl, fun c' j' r' i' k' hr' => ?_, fun c' j' r' i' k' hr' hfl => ?_⟩
    · rw [hp]
      rcases (hr _ _ _ _ _).mp hr' with h0 | ⟨rfl, rfl, rfl, -, rfl⟩
      · rw [upd_other _ _ (fun h => by subst h; exact hn _ _ _ _ h0)]
        exact hy.syncing c' j' r' i' k' h0
      · rw [upd_same]
        exact syncing_job D.syncs j'
    · rw [hp, hu, hm]
      rcases (hr _ _ _ _ _).mp hr' with h0 | ⟨rfl, rfl, rfl, -, rfl⟩
      · rw [upd_other _ _ (fun h => by subst h; exact hn _ _ _ _ h0)]
        exact hy.flushed c' j' r' i' k' h0 hfl
      · rw [upd_same]
        exact .inl (flushLast_job D j' hfl)
  | finish c j r i k _ _ ok x hr hx hr' hm hp hu hl he hok hbad =>
    refine ⟨loc_kept D hy.loc hl, fun c' j' r' i' k' h => ?_, fun c' j' r' i' k' h hfl => ?_⟩
    · rw [hp]; exact hy.syncing c' j' r' i' k' ((hr' _ _ _ _ _).mp h).1
    · rw [hp, hu, hm]; exact hy.flushed c' j' r' i' k' ((hr' _ _ _ _ _).mp h).1 hfl
  | quiet _ _ q =>
    have url : ∀ {c j r i k}, Runs s c j r i k → s'.url r = s.url r := by
      intro c j r i k hr
      obtain ⟨-, -, -, -, t, ht, -⟩ := hi.busy c r i k hr.2
      exact hurl r t ht
    refine ⟨fun k => ?_, fun c' j' r' i' k' h => ?_, fun c' j' r' i' k' h hfl => ?_⟩
    · rcases q.loc k with h | ⟨-, h⟩ | ⟨-, q', g, h⟩
      · rw [h]; exact hy.loc k
      · rw [h]; exact D.opened
      · rw [h]; exact D.look _ _ (D.view _ _ (hy.loc k))
    · rw [q.prog]; exact hy.syncing c' j' r' i' k' ((q.runs _ _ _ _ _).mp h)
    · have h0 := (q.runs _ _ _ _ _).mp h
      rw [q.prog, q.mem, url h0]; exact hy.flushed c' j' r' i' k' h0 hfl

theorem synced_run {L : Law E R} (D : Durability L) {mem : Http.Str → Γ} (hG : ∀ u, L.invG u (mem u)) {acts : List (Act τ)}
    (hr : run E (start E mem) acts = some s) (hf : Throughout E mem acts (Fine L)) : Synced L D (fun _ _ _ => False) s := by
  refine run_induction (E := E) (mem := mem) (P := fun as s => Throughout E mem as (Fine L) → Synced L D (fun _ _ _ => False) s) ?_ ?_ hr hf
  · intro _
    refine ⟨fun _ => D.opened, fun c j r i k h => ?_, fun c j r i k h => ?_⟩
    · have := h.1; cases this
    · have := h.1; cases this
  · intro as a s s' hrs hrs' ih hs hf'
    have hf0 : Throughout E mem as (Fine L) := fun pre post x he hx => hf' pre (post ++ [a]) x (by rw [he, List.append_assoc]) hx
    obtain ⟨V, hV⟩ := result_run hG hrs hf0
    have w := run_wf hrs
    have f0 : Fine L s := hf' as [a] s rfl hrs
    have hm := step_moves hs
    exact (ih hf0).step w hV.sound (Disjoint.of f0.apart) (fun _ _ _ _ _ _ _ _ h => h.elim) (fun r t ht => hm.url w.reach.inv ht) (hm.kind w)

theorem run_split (E : Env σ Γ τ) (s : Live σ Γ τ) (as bs : List (Act τ)) : run E s (as ++ bs) = (run E s as).bind fun t => run E t bs := by
  induction as generalizing s with
  | nil => rfl
  | cons a as ih =>
    simp only [List.cons_append, run]
    cases step E s a with
    | none => rfl
    | some t => exact ih t

/-- From a state on. -/
theorem synced_more {L : Law E R} (D : Durability L) {mem : Http.Str → Γ} (hG : ∀ u, L.invG u (mem u)) {P : Nat → Http.Str → Nat → Prop} :
    ∀ (post pre : List (Act τ)) (s0 s : Live σ Γ τ), run E (start E mem) pre = some s0 → run E s0 post = some s →
      Throughout E mem (pre ++ post) (Fine L) → Synced L D P s0 →
      (∀ mid rest t, post = mid ++ rest → run E s0 mid = some t → Alone L.bs P t) → Synced L D P s := by
  intro post
  induction post with
  | nil => intro pre s0 s _ h _ hy _; cases h; exact hy
  | cons a as ih =>
    intro pre s0 s hr h hf hy hal
    simp only [run] at h
    cases hz : step E s0 a with
    | none => rw [hz] at h; cases h
    | some z =>
      rw [hz] at h
      have hf0 : Throughout E mem pre (Fine L) := fun p q x he hx => hf p (q ++ a :: as) x (by rw [he, List.append_assoc]) hx
      obtain ⟨V, hV⟩ := result_run hG hr hf0
      have w := run_wf hr
      have hm := step_moves hz
      have hrz : run E (start E mem) (pre ++ [a]) = some z := by
        rw [run_split, hr]; simp only [Option.bind_some, run, hz]
      refine ih (pre ++ [a]) z s hrz h (by rw [List.append_assoc]; exact hf) ?_ fun mid rest t he ht => ?_
      · exact hy.step w hV.sound (Disjoint.of (hf pre (a :: as) s0 rfl hr).apart) (hal [] (a :: as) s0 rfl rfl)
          (fun r t ht => hm.url w.reach.inv ht) (hm.kind w)
      · exact hal (a :: mid) rest t (by rw [he]; rfl) (by simp only [run, hz]; exact ht)

/-- What is durable when an operation with flush ended without an error. -/
theorem Synced.ended {L : Law E R} {D : Durability L} {P : Nat → Http.Str → Nat → Prop} (w : Wf E s) (hy : Synced L D P s)
    (hk : Kind E s a s') {d : Done τ} (hd : s'.ended = s.ended ++ [d]) (ho : d.ok = true) (hf : d.job.flush = true) (x : Nat)
    (hx : Near L.bs d.job.offset d.job.size x ∨ P d.con d.url x) : D.dur (s'.mem d.url) x = L.content (s'.mem d.url) x := by
  have hne : s'.ended ≠ s.ended := by rw [hd]; simp
  cases hk with
  | call => exact absurd rfl hne
  | start c j r k _ _ hn hc hr hm hp he hu hl hk => exact absurd he hne
  | quiet _ _ q => exact absurd q.ended hne
  | finish c j r i k _ _ ok x' hr hx' hr' hm hp hu hl he hok hbad =>
    rw [he] at hd
    have hd : (⟨c, r, s.url r, j, ok⟩ : Done τ) = d := by simpa using hd
    subst hd
    rw [hok ho] at hx'
    rw [hm]
    rcases hy.flushed c j r i k hr hf with h | ⟨-, h⟩
    · rw [hx'] at h; exact h.elim
    · exact h x hx

/-- What is durable stays so while nobody changes its block. -/
theorem durable_stays {L : Law E R} (D : Durability L) {mem : Http.Str → Γ} (hG : ∀ u, L.invG u (mem u)) {u : Http.Str} {x : Nat} :
    ∀ (post pre : List (Act τ)) (s0 s : Live σ Γ τ), run E (start E mem) pre = some s0 → run E s0 post = some s →
      Throughout E mem (pre ++ post) (Fine L) →
      (∀ mid rest t, post = mid ++ rest → run E s0 mid = some t → ∀ c j r i k, Runs t c j r i k → t.url r = u → ¬ Near L.bs j.offset j.size x) →
      D.dur (s0.mem u) x = L.content (s0.mem u) x →
      D.dur (s.mem u) x = L.content (s.mem u) x ∧ L.content (s.mem u) x = L.content (s0.mem u) x := by
  intro post
  induction post with
  | nil => intro pre s0 s _ h _ _ hd; cases h; exact ⟨hd, rfl⟩
  | cons a as ih =>
    intro pre s0 s hr h hf hq hd
    simp only [run] at h
    cases hz : step E s0 a with
    | none => rw [hz] at h; cases h
    | some z =>
      rw [hz] at h
      have hf0 : Throughout E mem pre (Fine L) := fun p q x he hx => hf p (q ++ a :: as) x (by rw [he, List.append_assoc]) hx
      obtain ⟨V, hV⟩ := result_run hG hr hf0
      have w := run_wf hr
      have hm := step_moves hz
      have hrz : run E (start E mem) (pre ++ [a]) = some z := by
        rw [run_split, hr]; simp only [Option.bind_some, run, hz]
      have hdj := Disjoint.of (hf pre (a :: as) s0 rfl hr).apart
      have hy := synced_run D hG hr hf0
      have hq0 := hq [] (a :: as) s0 rfl rfl
      have one : D.dur (z.mem u) x = L.content (z.mem u) x ∧ L.content (z.mem u) x = L.content (s0.mem u) x := by
        cases hm.kind w with
        | call c j r i k f next hr' hf' =>
          have hn : u = s0.url r → ¬ Near L.bs j.offset j.size x := fun he => hq0 c j r i k hr' he.symm
          refine ⟨call_durable w hV.sound hdj hy hr' hf' hn hd, ?_⟩
          rcases (hV.sound.of_call w hdj hr' hf').2.2 u x with h | ⟨h1, h2⟩
          · exact h
          · exact absurd h2 (hn h1)
        | start c j r k _ _ hn hc hr hm hp he hu hl hk => rw [hm]; exact ⟨hd, rfl⟩
        | finish c j r i k _ _ ok x' hr hx' hr' hm hp hu hl he hok hbad => rw [hm]; exact ⟨hd, rfl⟩
        | quiet _ _ q => rw [q.mem]; exact ⟨hd, rfl⟩
      obtain ⟨h1, h2⟩ := ih (pre ++ [a]) z s hrz h (by rw [List.append_assoc]; exact hf)
        (fun mid rest t he ht => hq (a :: mid) rest t (by rw [he]; rfl) (by simp only [run, hz]; exact ht)) one.1
      exact ⟨h1, h2.trans one.2⟩

/-! ### Files and NBD -/

section
variable {S : Source τ} {cfg : Auth.Config}

/-- Files. -/
def fileDurability {env : File.Env} {R : LawfulSource S} {opened : File.State} (L : Law (fileEnv env S cfg opened) R)
    (hc : L.content = fun g => byteAt g.1) : Durability L where
  K _ := True
  dur := durableBytes
  view _ _ _ := trivial
  opened := trivial
  look _ _ _ := trivial
  syncs := by rw [hc]; exact file_syncs env 0

/-- NBD servers with flush. -/
def nbdDurability {bs : Nat} {R : LawfulSource S} {opened : NbdBackend.State} (L : Law (nbdEnv bs S cfg opened) R)
    (hc : L.content = fun g => byteAt g.1) (ho : opened.canFlush = true) : Durability L where
  K s := s.canFlush = true
  dur := durableBytes
  view _ _ h := h
  opened := ho
  look q s h := (nbd_look bs q s).2.1.trans h
  syncs := by rw [hc]; exact nbd_syncs bs

end

end Imageio.Live
