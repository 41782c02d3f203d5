import Verif.Props.Concurrent
import Verif.Model.Upload
/-! Several connections with several requests each. -/
namespace Imageio.Conc
open Imageio.Spec Imageio.Props Prog

variable {ι σ Γ τ α β : Type} {M : Machine σ Γ} {Sp : Space M} {PB : ProgBackend σ} {B : Backend σ} {L : Lawful B}
  {z : Nat → Prop} {S : Source τ}

/-- What a request needs. -/
structure JobReady (B : Backend σ) (R : LawfulSource S) (zeroes : Nat → Prop) (j : Job τ) : Prop where
  buffer : j.zero = false → 0 < j.bufLen ∧ j.bufLen % B.blockSize = 0 ∧ R.Inv j.src
  zero : j.zero = true → 0 < j.size → zeroes (j.offset + j.size)

/-- The request stores the bytes of `T`. -/
def Carries (R : LawfulSource S) (T : Nat → Byte) (j : Job τ) : Prop :=
  ∀ x, InRange j.offset j.size x → byteAt (wantedBytes R j) (x - j.offset) = T x

theorem confined_job (H : Runs PB B) (C : Confines Sp PB L z) (R : LawfulSource S) {j : Job τ} (hj : JobReady B R z j)
    {s : σ} (hi : L.Inv s) : Sp.Confined (Near B.blockSize j.offset j.size) (j.prog PB S) s := by
  unfold Job.prog
  cases hz : j.zero with
  | true =>
    rw [if_pos rfl]
    exact confined_zeroRunP H C _ _ _ (hj.zero hz) _ _ hi
  | false =>
    rw [if_neg (by simp)]
    obtain ⟨_, b2, b3⟩ := hj.buffer hz
    exact confined_writeRunP H C R _ _ _ _ _ b2 _ _ hi b3

theorem job_inv (H : Runs PB B) (R : LawfulSource S) {j : Job τ} (hj : JobReady B R z j) {s s' : σ} (hi : L.Inv s)
    (h : Prog.run (j.prog PB S) s = (.ok (), s')) : L.Inv s' := by
  unfold Job.prog at h
  cases hz : j.zero with
  | true =>
    rw [hz, if_pos rfl, run_zeroRunP H] at h
    generalize hx : Ops.zeroRun B j.cancel j.size j.offset j.flush s = x at h
    obtain ⟨r0, st⟩ := x
    simp only [Prod.mk.injEq] at h
    obtain ⟨rfl, rfl⟩ := h
    exact (Ops.zeroRun_spec L j.cancel j.size j.offset j.flush s hi _ _ hx).1.1.inv
  | false =>
    obtain ⟨hb1, hb2, hb3⟩ := hj.buffer hz
    rw [hz, if_neg (by simp), run_writeRunP H] at h
    generalize hx : Ops.writeRun B S j.cancel j.bufLen j.size j.offset j.flush s j.src = x at h
    obtain ⟨r0, st⟩ := x
    simp only [Prod.mk.injEq] at h
    obtain ⟨rfl, rfl⟩ := h
    exact (Ops.writeRun_spec L R j.cancel j.bufLen j.size j.offset j.flush hb1 hb2 s j.src hi hb3 _ _ hx).1.1.inv

/-- The blocks of the requests of a connection. -/
def Region (bs : Nat) (js : List (Job τ)) (x : Nat) : Prop := ∃ j ∈ js, Near bs j.offset j.size x

/-- The bytes of the requests of a connection. -/
def Covered (js : List (Job τ)) (x : Nat) : Prop := ∃ j ∈ js, InRange j.offset j.size x

theorem confined_jobs (H : Runs PB B) (C : Confines Sp PB L z) (R : LawfulSource S) :
    ∀ (js : List (Job τ)) (s : σ), (∀ j ∈ js, JobReady B R z j) → L.Inv s →
      Sp.Confined (Region B.blockSize js) (jobsP PB S js) s := by
  intro js
  induction js with
  | nil => intro s _ _; trivial
  | cons j js ih =>
    intro s hj hi
    have hj0 := hj j (List.mem_cons_self ..)
    refine Space.Confined.bind (Space.Confined.mono (fun x hx => ⟨j, List.mem_cons_self .., hx⟩) _ _
      (confined_job H C R hj0 hi)) fun _ s' hs => ?_
    exact Space.Confined.mono (fun x ⟨j', h1, h2⟩ => ⟨j', List.mem_cons_of_mem _ h1, h2⟩) _ _
      (ih s' (fun j' h' => hj j' (List.mem_cons_of_mem _ h')) (job_inv (L := L) H R hj0 hi hs))

theorem jobs_alone (H : Runs PB B) (R : LawfulSource S) (T : Nat → Byte) :
    ∀ (js : List (Job τ)) (s s' : σ), (∀ j ∈ js, JobReady B R z j) → (∀ j ∈ js, Carries R T j) → L.Inv s →
      run (jobsP PB S js) s = (.ok (), s') →
      L.Inv s' ∧ ∀ x, (Covered js x → L.content s' x = T x) ∧ (¬ Covered js x → L.content s' x = L.content s x) := by
  intro js
  induction js with
  | nil =>
    intro s s' _ _ hi h
    cases h
    refine ⟨hi, fun x => ⟨?_, fun _ => rfl⟩⟩
    rintro ⟨_, h, _⟩
    cases h
  | cons j js ih =>
    intro s s' hj ht hi h
    have hj0 := hj j (List.mem_cons_self ..)
    have ht0 := ht j (List.mem_cons_self ..)
    unfold jobsP at h
    rw [run_bind] at h
    cases hr : run (j.prog PB S) s with
    | mk r s1 =>
      rw [hr] at h
      cases r with
      | error e => cases h
      | ok u =>
        simp only at h
        have hi1 := job_inv (L := L) H R hj0 hi hr
        obtain ⟨hi', hx⟩ := ih s1 s' (fun j' h' => hj j' (List.mem_cons_of_mem _ h'))
          (fun j' h' => ht j' (List.mem_cons_of_mem _ h')) hi1 h
        obtain ⟨a1, a2, -⟩ := job_alone (L := L) H R j hj0.buffer s hi _ _ hr
        obtain ⟨a1, a3⟩ := a1 rfl
        refine ⟨hi', fun x => ?_⟩
        by_cases hc : Covered js x
        · refine ⟨fun _ => (hx x).1 hc, fun hn => absurd ?_ hn⟩
          obtain ⟨j', h1, h2⟩ := hc
          exact ⟨j', List.mem_cons_of_mem _ h1, h2⟩
        · rw [(hx x).2 hc]
          by_cases hr : InRange j.offset j.size x
          · refine ⟨fun _ => ?_, fun hn => absurd ⟨j, List.mem_cons_self .., hr⟩ hn⟩
            rw [a3, store_inside _ _ _ _ hr.1 (by rw [a1]; exact hr.2), ← ht0 x hr]
            simp [byteAt, a1, show x - j.offset < j.size by have := hr.1; have := hr.2; omega]
          · refine ⟨?_, fun _ => a2 x hr⟩
            rintro ⟨j', h1, h2⟩
            rcases List.mem_cons.1 h1 with rfl | h1
            · exact absurd h2 hr
            · exact absurd ⟨j', h1, h2⟩ hc

theorem conn_alone (H : Runs PB B) (R : LawfulSource S) (T : Nat → Byte) (js : List (Job τ)) (s s' : σ)
    (hj : ∀ j ∈ js, JobReady B R z j) (ht : ∀ j ∈ js, Carries R T j) (hi : L.Inv s)
    (h : run (connP PB S js) s = (.ok (), s')) :
    ∀ x, (Covered js x → L.content s' x = T x) ∧ (¬ Covered js x → L.content s' x = L.content s x) := by
  unfold connP at h
  rw [run_bind] at h
  cases hr : run (jobsP PB S js) s with
  | mk r s1 =>
    rw [hr] at h
    cases r with
    | error e => cases h
    | ok u =>
      simp only at h
      obtain ⟨hi1, hx⟩ := jobs_alone (L := L) H R T js s s1 hj ht hi hr
      rw [H.flush] at h
      have hc : L.content s' = L.content s1 := (L.flush _ _ hi1 h).2.1
      intro x
      rw [hc]
      exact hx x

theorem conn_durable_alone (H : Runs PB B) (R : LawfulSource S) (js : List (Job τ)) (s s' : σ)
    (hj : ∀ j ∈ js, JobReady B R z j) (hi : L.Inv s) (h : run (connP PB S js) s = (.ok (), s')) :
    L.durable s' = L.content s' := by
  unfold connP at h
  rw [run_bind] at h
  cases hr : run (jobsP PB S js) s with
  | mk r s1 =>
    rw [hr] at h
    cases r with
    | error e => cases h
    | ok u =>
      simp only at h
      have hi1 : L.Inv s1 := by
        clear h
        induction js generalizing s with
        | nil => cases hr; exact hi
        | cons j js ih =>
          unfold jobsP at hr
          rw [run_bind] at hr
          cases hr0 : run (j.prog PB S) s with
          | mk r s2 =>
            rw [hr0] at hr
            cases r with
            | error e => cases hr
            | ok u =>
              exact ih s2 (fun j' h' => hj j' (List.mem_cons_of_mem _ h'))
                (job_inv (L := L) H R (hj j (List.mem_cons_self ..)) hi hr0) hr
      rw [H.flush] at h
      obtain ⟨-, a, b, -⟩ := L.flush _ _ hi1 h
      rw [b, a]

/-- One thread alone runs its program. -/
theorem single_run [DecidableEq ι] [Subsingleton ι] (Sp : Space M) {c0 c : Config ι σ Γ} (h : Steps M c0 c) (i : ι) :
    run (c.prog i) (M.view (c.loc i) c.mem) = run (c0.prog i) (M.view (c0.loc i) c0.mem) := by
  induction h with
  | refl => rfl
  | tail _ hs ih =>
    cases hs with
    | mk j f k hp =>
      have := Subsingleton.elim i j
      subst this
      rw [← ih, hp]
      simp only [if_true, Sp.view_shared]
      rfl

/-- No two connections use the same block. -/
def SeparateConns (bs : Nat) (conns : ι → List (Job τ)) : Prop :=
  ∀ i i' x y, Covered (conns i) x → Covered (conns i') y → x / bs = y / bs → i = i'

theorem region_separate {bs : Nat} {conns : ι → List (Job τ)} (h : SeparateConns bs conns) :
    ∀ i j x, Region bs (conns i) x → Region bs (conns j) x → i = j := by
  rintro i j x ⟨a, ha, y, hy, hxy⟩ ⟨b, hb, y', hy', hxy'⟩
  exact h i j y y' ⟨a, ha, hy⟩ ⟨b, hb, hy'⟩ (hxy.symm.trans hxy')

theorem conns_isolated [DecidableEq ι] (H : Runs PB B) (C : Confines Sp PB L z) (R : LawfulSource S) {g : Γ} {loc : ι → σ}
    {conns : ι → List (Job τ)} (hi : ∀ i, L.Inv (M.view (loc i) g)) (hj : ∀ i, ∀ j ∈ conns i, JobReady B R z j)
    (hs : SeparateConns B.blockSize conns) {c : Config ι σ Γ} (h : Steps M (startConns PB S g loc conns) c) :
    ∃ t, Sp.Isolated (fun i => Region B.blockSize (conns i)) (startConns PB S g loc conns) c t := by
  refine Space.isolated Sp _ (region_separate hs) _ (fun i => ?_) h
  show Sp.Confined _ (connP PB S (conns i)) (M.view (loc i) g)
  exact Space.Confined.bind (confined_jobs H C R _ _ (hj i) (hi i)) fun _ _ _ => C.flush _ _

/-- The image after all connections ended without an error. -/
theorem conns_effect [DecidableEq ι] (H : Runs PB B) (C : Confines Sp PB L z)
    (hcont : ∀ s, L.content s = Sp.content (M.shared s)) (R : LawfulSource S) (T : Nat → Byte) {g : Γ} {loc : ι → σ}
    {conns : ι → List (Job τ)} (hi : ∀ i, L.Inv (M.view (loc i) g)) (hj : ∀ i, ∀ j ∈ conns i, JobReady B R z j)
    (ht : ∀ i, ∀ j ∈ conns i, Carries R T j)
    (hs : SeparateConns B.blockSize conns) {c : Config ι σ Γ} (h : Steps M (startConns PB S g loc conns) c)
    (he : ∀ i, Ended c i (.ok ())) (x : Nat) :
    ((∃ i, Covered (conns i) x) → Sp.content c.mem x = T x) ∧
    ((∀ i, ¬ Covered (conns i) x) → Sp.content c.mem x = Sp.content g x) := by
  obtain ⟨t, I⟩ := conns_isolated H C R hi hj hs h
  have alone : ∀ i, Prog.run (connP PB S (conns i)) (M.view (loc i) g) = (.ok (), t i) := by
    intro i
    have := I.run i
    rw [he i] at this
    exact this.symm
  have own : ∀ i, Region B.blockSize (conns i) x →
      (Covered (conns i) x → Sp.content c.mem x = T x) ∧ (¬ Covered (conns i) x → Sp.content c.mem x = Sp.content g x) := by
    intro i hx
    have := conn_alone (L := L) H R T (conns i) _ _ (hj i) (ht i) (hi i) (alone i) x
    rw [hcont, hcont, Sp.shared_view] at this
    rw [(I.agree i).content x hx]
    exact this
  have near : ∀ i, Covered (conns i) x → Region B.blockSize (conns i) x := fun i ⟨j, h1, h2⟩ => ⟨j, h1, x, h2, rfl⟩
  constructor
  · rintro ⟨i, hx⟩
    exact (own i (near i hx)).1 hx
  · intro hn
    by_cases hx : ∃ i, Region B.blockSize (conns i) x
    · obtain ⟨i, hx⟩ := hx
      exact (own i hx).2 (hn i)
    · exact I.outside x fun i hi => hx ⟨i, hi⟩

/-! ### Durability -/

/-- Every step, in states of kind `K`, changes only what is not durable, or makes all durable. -/
def Syncing (M : Machine σ Γ) (K : σ → Prop) (cont dur : Γ → Nat → Byte) : Prog σ α → Prop
  | .ret _ => True
  | .step f k => ∀ s, K s →
      ((dur (M.shared (f s)) = dur (M.shared s) ∨ dur (M.shared (f s)) = cont (M.shared (f s))) ∧ K (f s)) ∧
        Syncing M K cont dur (k s)

/-- The last step of a program that ends without an error makes all durable. -/
def FlushLast (M : Machine σ Γ) (K : σ → Prop) (cont dur : Γ → Nat → Byte) : Prog σ Unit → Prop
  | .ret (.ok _) => False
  | .ret (.error _) => True
  | .step f k => ∀ s, K s → (k s = .ret (.ok ()) → dur (M.shared (f s)) = cont (M.shared (f s))) ∧
      (k s ≠ .ret (.ok ()) → FlushLast M K cont dur (k s))

theorem Syncing.bind {K : σ → Prop} {cont dur : Γ → Nat → Byte} {g : α → Prog σ β} (hg : ∀ a, Syncing M K cont dur (g a)) :
    ∀ {p : Prog σ α}, Syncing M K cont dur p → Syncing M K cont dur (Prog.bind p g)
  | .ret (.ok a), _ => hg a
  | .ret (.error _), _ => trivial
  | .step _ _, h => fun s hK => ⟨(h s hK).1, Syncing.bind hg (h s hK).2⟩

theorem Syncing.call {K : σ → Prop} {cont dur : Γ → Nat → Byte} {f : σ → Res σ α}
    (h : ∀ s, K s → (dur (M.shared (f s).2) = dur (M.shared s) ∨ dur (M.shared (f s).2) = cont (M.shared (f s).2)) ∧
      K (f s).2) :
    Syncing M K cont dur (Prog.call f) := fun s hK => ⟨h s hK, trivial⟩

theorem FlushLast.bind {K : σ → Prop} {cont dur : Γ → Nat → Byte} {g : α → Prog σ Unit} (hg : ∀ a, FlushLast M K cont dur (g a)) :
    ∀ {p : Prog σ α}, FlushLast M K cont dur (Prog.bind p g)
  | .ret (.ok a) => hg a
  | .ret (.error _) => trivial
  | .step _ k => fun s _ => by
    have ih := FlushLast.bind hg (p := k s)
    refine ⟨fun h => ?_, fun _ => ih⟩
    rw [show (k s).bind g = _ from h] at ih
    exact ih.elim

/-- What a backend does with the durable bytes. -/
structure Syncs (M : Machine σ Γ) (K : σ → Prop) (cont dur : Γ → Nat → Byte) (PB : ProgBackend σ) : Prop where
  seek : ∀ n, Syncing M K cont dur (PB.seek n)
  write : ∀ a d, Syncing M K cont dur (PB.write a d)
  zero : ∀ n, Syncing M K cont dur (PB.zero n)
  flush : Syncing M K cont dur PB.flush
  last : FlushLast M K cont dur PB.flush

theorem syncing_pure {K : σ → Prop} {cont dur : Γ → Nat → Byte} (a : α) : Syncing M K cont dur (Prog.pure a : Prog σ α) := trivial

theorem syncing_writeLoop {K : σ → Prop} {cont dur : Γ → Nat → Byte} (Y : Syncs M K cont dur PB) : ∀ (fuel pos : Nat) (d : Bytes),
    Syncing M K cont dur (writeLoopP PB fuel pos d) := by
  intro fuel
  induction fuel with
  | zero => intro pos d; unfold writeLoopP; split <;> trivial
  | succ fuel ih =>
    intro pos d
    unfold writeLoopP
    split
    · trivial
    · exact Syncing.bind (fun n => ih _ _) (Y.write _ _)

theorem syncing_writeChunk {K : σ → Prop} {cont dur : Γ → Nat → Byte} (Y : Syncs M K cont dur PB) (cancel : Nat → Bool) (size count : Nat)
    (l : Loc τ) : Syncing M K cont dur (writeChunkP PB S cancel size count l) := by
  unfold writeChunkP
  cases Ops.fill S count l.src with
  | mk r t =>
    cases r with
    | error e => trivial
    | ok data =>
      refine Syncing.bind (fun _ => ?_) (syncing_writeLoop Y _ _ _)
      simp only
      split
      · trivial
      · split <;> trivial

theorem syncing_writeChunks {K : σ → Prop} {cont dur : Γ → Nat → Byte} (Y : Syncs M K cont dur PB) (cancel : Nat → Bool) (bufLen size : Nat) :
    ∀ (fuel : Nat) (l : Loc τ), Syncing M K cont dur (writeChunksP PB S cancel bufLen size fuel l) := by
  intro fuel
  induction fuel with
  | zero => intro l; unfold writeChunksP; split <;> trivial
  | succ fuel ih =>
    intro l
    unfold writeChunksP
    split
    · trivial
    · exact Syncing.bind (fun l => ih l) (syncing_writeChunk Y _ _ _ _)

theorem syncing_zeroSteps {K : σ → Prop} {cont dur : Γ → Nat → Byte} (Y : Syncs M K cont dur PB) (cancel : Nat → Bool) (size : Nat) :
    ∀ (fuel done chunks : Nat), Syncing M K cont dur (zeroStepsP PB cancel size fuel done chunks) := by
  intro fuel
  induction fuel with
  | zero => intro d k; unfold zeroStepsP; split <;> trivial
  | succ fuel ih =>
    intro d k
    unfold zeroStepsP
    split
    · trivial
    · refine Syncing.bind (fun n => ?_) (Y.zero _)
      split
      · trivial
      · exact ih _ _

theorem syncing_job {K : σ → Prop} {cont dur : Γ → Nat → Byte} (Y : Syncs M K cont dur PB) (j : Job τ) :
    Syncing M K cont dur (j.prog PB S) := by
  have hf : ∀ b : Bool, Syncing M K cont dur (if b then PB.flush else Prog.pure ()) := by
    intro b
    cases b
    · trivial
    · exact Y.flush
  unfold Job.prog
  split
  · unfold zeroRunP
    exact Syncing.bind (fun _ => Syncing.bind (fun _ => hf _) (syncing_zeroSteps Y _ _ _ _ _)) (Y.seek _)
  · unfold writeRunP
    refine Syncing.bind (fun _ => Syncing.bind (fun l => Syncing.bind (fun _ => hf _) (syncing_writeChunks Y _ _ _ _ _)) ?_)
      (Y.seek _)
    split
    · exact syncing_writeChunk Y _ _ _ _
    · trivial

theorem syncing_conn {K : σ → Prop} {cont dur : Γ → Nat → Byte} (Y : Syncs M K cont dur PB) (js : List (Job τ)) :
    Syncing M K cont dur (connP PB S js) := by
  unfold connP
  refine Syncing.bind (fun _ => Y.flush) ?_
  induction js with
  | nil => trivial
  | cons j js ih => exact Syncing.bind (fun _ => ih) (syncing_job Y j)

/-- After all connections ended without an error everything is durable. -/
theorem conns_durable [DecidableEq ι] (H : Runs PB B) (C : Confines Sp PB L z) {K : σ → Prop} {dur : Γ → Nat → Byte}
    (Y : Syncs M K Sp.content dur PB) (hK : ∀ s g, K s → K (M.view s g)) (R : LawfulSource S) {g : Γ} {loc : ι → σ}
    {conns : ι → List (Job τ)} (hk : ∀ i, K (loc i)) (hi : ∀ i, L.Inv (M.view (loc i) g)) (hj : ∀ i, ∀ j ∈ conns i, JobReady B R z j)
    (hs : SeparateConns B.blockSize conns) {c : Config ι σ Γ} (h : Steps M (startConns PB S g loc conns) c) :
    ∀ i, Ended c i (.ok ()) → ∀ x, (Region B.blockSize (conns i) x ∨ ∀ j, ¬ Region B.blockSize (conns j) x) →
      dur c.mem x = Sp.content c.mem x := by
  suffices key : (∀ i, K (c.loc i)) ∧ (∀ i, Syncing M K Sp.content dur (c.prog i)) ∧ ∀ i, FlushLast M K Sp.content dur (c.prog i) ∨
      (c.prog i = .ret (.ok ()) ∧ ∀ x, (Region B.blockSize (conns i) x ∨ ∀ j, ¬ Region B.blockSize (conns j) x) →
        dur c.mem x = Sp.content c.mem x) by
    intro i he
    rcases key.2.2 i with hf | hf
    · rw [show c.prog i = _ from he] at hf
      exact hf.elim
    · exact hf.2
  induction h with
  | refl => exact ⟨hk, fun i => syncing_conn Y _, fun i => .inl (FlushLast.bind fun _ => Y.last)⟩
  | @tail b _ hb hstep ih =>
    obtain ⟨ih0, ih1, ih2⟩ := ih
    obtain ⟨t, I⟩ := conns_isolated H C R hi hj hs hb
    cases hstep with
    | mk i f k hp =>
    have hci := I.confined i
    rw [hp] at hci
    have hsafe := hci.1 _ (I.agree i)
    have hout := hsafe.outside
    rw [I.loc i] at hout
    have hsy := ih1 i
    rw [hp] at hsy
    have hsy := hsy (M.view (b.loc i) b.mem) (hK _ _ (ih0 i))
    rw [Sp.shared_view] at hsy
    have hfl : FlushLast M K Sp.content dur (.step f k) := by
      rcases ih2 i with hf | hf
      · rw [hp] at hf; exact hf
      · rw [hp] at hf; cases hf.1
    have hfl := hfl (M.view (b.loc i) b.mem) (hK _ _ (ih0 i))
    refine ⟨fun j => ?_, fun j => ?_, fun j => ?_⟩
    · by_cases hj : j = i
      · simp only [hj, if_true]; exact hsy.1.2
      · simp only [hj, if_false]; exact ih0 j
    · by_cases hj : j = i
      · simp only [hj, if_true]; exact hsy.2
      · simp only [hj, if_false]; exact ih1 j
    · by_cases hj : j = i
      · simp only [hj, if_true]
        by_cases hk : k (M.view (b.loc i) b.mem) = .ret (.ok ())
        · exact .inr ⟨hk, fun x _ => by rw [hfl.1 hk]⟩
        · exact .inl (hfl.2 hk)
      · simp only [hj, if_false]
        rcases ih2 j with hf | ⟨hf, hd⟩
        · exact .inl hf
        · refine .inr ⟨hf, fun x hx => ?_⟩
          have hxi : ¬ Region B.blockSize (conns i) x := by
            rcases hx with hx | hx
            · intro h'
              exact hj (region_separate hs _ _ _ hx h')
            · exact hx i
          rcases hsy.1.1 with h1 | h1
          · rw [h1, hd x hx]
            exact (hout x hxi).symm
          · rw [h1]

/-! ### The backends -/

/-- The durable bytes of files and exports. -/
def durableBytes (g : Bytes × Bytes) : Nat → Byte := byteAt g.2

theorem sys_disk {α : Type} {s : File.State} {f : File.State → Res File.State α}
    (h : ∀ s', s'.disk = s.disk → (f s').2.disk = s.disk) : (File.sys s f).2.disk = s.disk := by
  unfold File.sys
  split
  · exact h s rfl
  · exact h _ rfl
  · rfl

abbrev FileSync (p : Prog File.State α) : Prop :=
  Syncing fileMachine (fun _ => True) (fun g => byteAt g.1) durableBytes p

theorem fileSync_call {f : File.State → Res File.State α} (h : ∀ s, (f s).2.disk = s.disk) : FileSync (Prog.call f) :=
  Syncing.call fun s _ => ⟨.inl (by unfold durableBytes fileMachine; simp only [h s]), trivial⟩

theorem fileSync_pure {a : α} : FileSync (Prog.pure a : Prog File.State α) := trivial

theorem fileSync_asks {f : File.State → α} : FileSync (Prog.asks f) := fileSync_call fun _ => rfl

theorem fioWrite_disk (env : File.Env) (a : Nat) (d : Bytes) (s : File.State) : (File.fioWrite env s a d).2.disk = s.disk := by
  unfold File.fioWrite
  refine sys_disk fun s' h => ?_
  split
  · exact h
  · split <;> exact h

theorem fioReadinto_disk (env : File.Env) (n : Nat) (s : File.State) : (File.fioReadinto env s n).2.disk = s.disk := by
  unfold File.fioReadinto
  refine sys_disk fun s' h => ?_
  split <;> exact h

theorem readBlock_disk (env : File.Env) (start : Nat) (s : File.State) : (readBlock env start s).2.disk = s.disk := by
  have := fioReadinto_disk env env.bs { s with pos := start }
  unfold readBlock File.readinto
  cases h : File.fioReadinto env { s with pos := start } env.bs with
  | mk r s' =>
    rw [h] at this
    cases r <;> exact this

theorem blkZero_disk (off n : Nat) (s : File.State) : (File.blkZero off n s).2.disk = s.disk := by
  unfold File.blkZero
  refine sys_disk fun s' h => ?_
  split <;> exact h

theorem fallocate_disk (m : File.FallocMode) (off n : Nat) (s : File.State) : (File.fallocate m off n s).2.disk = s.disk := by
  have : (File.fallocateSys m off n s).2.disk = s.disk := by
    unfold File.fallocateSys
    refine sys_disk fun s' h => ?_
    cases m <;> exact h
  unfold File.fallocate
  cases h : File.fallocateSys m off n s with
  | mk r s' =>
    rw [h] at this
    cases r with
    | ok u => exact this
    | error e =>
      simp only
      split <;> exact this

theorem truncate_disk (n : Nat) (s : File.State) : (File.truncate n s).2.disk = s.disk := by
  unfold File.truncate
  exact sys_disk fun s' h => h

theorem fileSync_unaligned (env : File.Env) (d : Bytes) : FileSync (writeUnalignedP env d) := by
  unfold writeUnalignedP
  refine Syncing.bind (fun _ => ?_) fileSync_asks
  refine Syncing.bind (fun _ => ?_) (fileSync_call (readBlock_disk env _))
  refine Syncing.bind (fun _ => ?_) (fileSync_call (fioWrite_disk env _ _))
  exact Syncing.bind (fun _ => fileSync_pure) (fileSync_call fun _ => rfl)

theorem fileSync_write (env : File.Env) (a : Nat) (d : Bytes) : FileSync (fileWriteP env a d) := by
  unfold fileWriteP
  refine Syncing.bind (fun _ => ?_) fileSync_asks
  split
  · exact fileSync_unaligned env d
  · split
    · exact fileSync_call (fioWrite_disk env _ _)
    · exact fileSync_call (fioWrite_disk env _ _)

theorem fileSync_zeroed (off n : Nat) : FileSync (zeroedP off n) :=
  Syncing.bind (fun _ => fileSync_pure) (fileSync_call fun _ => rfl)

theorem fileSync_zeroBlock (n : Nat) : FileSync (zeroBlockP n) := by
  have hio : ∀ off, FileSync (Prog.bind (Prog.call (File.blkZero off n)) fun _ =>
      Prog.bind (Prog.call fun s => File.seek s (off + n)) fun _ => Prog.pure n) := fun off =>
    Syncing.bind (fun _ => fileSync_zeroed off n) (fileSync_call (blkZero_disk _ _))
  unfold zeroBlockP
  refine Syncing.bind (fun off => ?_) fileSync_asks
  refine Syncing.bind (fun can => ?_) fileSync_asks
  split
  · refine Syncing.bind (fun r => ?_) (fileSync_call (blkZero_disk _ _))
    split
    · exact fileSync_zeroed _ _
    · split
      · exact Syncing.bind (fun _ => hio off) (fileSync_call fun _ => rfl)
      · trivial
  · exact hio off

theorem fileSync_writeZeros (env : File.Env) (n : Nat) : FileSync (writeZerosP env n) := by
  have : ∀ (b fuel count : Nat), FileSync (writeZerosLoopP env b fuel count) := by
    intro b fuel
    induction fuel with
    | zero => intro c; unfold writeZerosLoopP; split <;> trivial
    | succ fuel ih =>
      intro c
      unfold writeZerosLoopP
      split
      · trivial
      · exact Syncing.bind (fun _ => ih _) (fileSync_write env _ _)
  exact Syncing.bind (fun _ => fileSync_pure) (this _ _ _)

theorem fileSync_set {f : File.State → File.State} (h : ∀ s, (f s).disk = s.disk) : FileSync (setP f) := fileSync_call h

theorem fileSync_zeroTail (env : File.Env) (off n : Nat) : FileSync (zeroTailP env off n) := by
  unfold zeroTailP
  refine Syncing.bind (fun can => ?_) fileSync_asks
  split
  · refine Syncing.bind (fun size => ?_) (fileSync_call fun _ => rfl)
    split
    · refine Syncing.bind (fun done => ?_) (fileSync_call (fallocate_disk _ _ _))
      split
      · exact fileSync_zeroed _ _
      · exact Syncing.bind (fun _ => fileSync_writeZeros env n) (fileSync_set fun _ => rfl)
    · exact fileSync_writeZeros env n
  · exact fileSync_writeZeros env n

theorem fileSync_zeroFile (env : File.Env) (n : Nat) : FileSync (zeroFileP env n) := by
  have hp : ∀ off, FileSync (zeroPunchP env off n) := by
    intro off
    unfold zeroPunchP
    refine Syncing.bind (fun can => ?_) fileSync_asks
    split
    · refine Syncing.bind (fun punch => ?_) (fileSync_call (fallocate_disk _ _ _))
      split
      · refine Syncing.bind (fun alloc => ?_) (fileSync_call (fallocate_disk _ _ _))
        split
        · exact fileSync_zeroed _ _
        · exact Syncing.bind (fun _ => fileSync_zeroTail env off n) (fileSync_set fun _ => rfl)
      · exact Syncing.bind (fun _ => fileSync_zeroTail env off n) (fileSync_set fun _ => rfl)
    · exact fileSync_zeroTail env off n
  unfold zeroFileP
  refine Syncing.bind (fun off => ?_) fileSync_asks
  refine Syncing.bind (fun can => ?_) fileSync_asks
  split
  · refine Syncing.bind (fun done => ?_) (fileSync_call (fallocate_disk _ _ _))
    split
    · exact fileSync_zeroed _ _
    · exact Syncing.bind (fun _ => hp off) (fileSync_set fun _ => rfl)
  · exact hp off

theorem fileSync_zeroSparse (env : File.Env) (n : Nat) : FileSync (zeroSparseP env n) := by
  have hp : ∀ off, FileSync (punchSparseP env off n) := by
    intro off
    refine Syncing.bind (fun done => ?_) (fileSync_call (fallocate_disk _ _ _))
    split
    · exact fileSync_zeroed _ _
    · exact Syncing.bind (fun _ => fileSync_writeZeros env n) (fileSync_set fun _ => rfl)
  unfold zeroSparseP
  refine Syncing.bind (fun can => ?_) fileSync_asks
  split
  · refine Syncing.bind (fun off => ?_) fileSync_asks
    refine Syncing.bind (fun size => ?_) (fileSync_call fun _ => rfl)
    split
    · refine Syncing.bind (fun _ => ?_) (fileSync_call (truncate_disk _))
      split
      · exact fileSync_zeroed _ _
      · exact hp off
    · exact hp off
  · exact fileSync_writeZeros env n

theorem file_syncs (env : File.Env) (cap : Nat) :
    Syncs fileMachine (fun _ => True) (fileSpace env cap).content durableBytes (fileP env) where
  seek _ := fileSync_call fun _ => rfl
  write := fileSync_write env
  zero n := by
    show FileSync (fileZeroP env n)
    unfold fileZeroP
    refine Syncing.bind (fun start => ?_) fileSync_asks
    split
    · exact fileSync_unaligned env _
    · split
      · exact fileSync_zeroBlock _
      · split
        · exact fileSync_zeroSparse env _
        · exact fileSync_zeroFile env _
  flush := Syncing.call fun s _ => by
    refine ⟨?_, trivial⟩
    unfold File.flush File.sys
    split
    · exact .inr rfl
    · exact .inr rfl
    · exact .inl rfl
  last := fun s _ => by
    constructor
    · intro h
      have h : Prog.ret (File.flush s).1 = (Prog.ret (.ok ()) : Prog File.State Unit) := h
      have h : (File.flush s).1 = .ok () := by injection h
      show durableBytes (fileMachine.shared (File.flush s).2) = byteAt (fileMachine.shared (File.flush s).2).1
      unfold File.flush File.sys at h ⊢
      split at h
      · rfl
      · rfl
      · cases h
    · intro h
      cases hr : (File.flush s).1 with
      | error e => simp only [hr]; trivial
      | ok u => exact absurd (by simp only [hr]) h

theorem request_disk {s : NbdBackend.State} {off n : Nat} {f : Nat → NbdBackend.State → NbdBackend.State}
    (h : ∀ k s, (f k s).disk = s.disk ∧ (f k s).canFlush = s.canFlush) :
    (NbdBackend.request s off n f).2.disk = s.disk ∧ (NbdBackend.request s off n f).2.canFlush = s.canFlush := by
  unfold NbdBackend.request
  split
  · exact ⟨(h _ _).1, (h _ _).2⟩
  · simp only
    split
    · exact ⟨rfl, rfl⟩
    · exact ⟨(h _ _).1, (h _ _).2⟩

theorem nbdSync_call {f : NbdBackend.State → Res NbdBackend.State α}
    (h : ∀ s, (f s).2.disk = s.disk ∧ (f s).2.canFlush = s.canFlush) :
    Syncing nbdMachine (fun s => s.canFlush = true) nbdSpace.content durableBytes (Prog.call f) :=
  Syncing.call fun s hs => ⟨.inl (by unfold durableBytes nbdMachine; simp only [(h s).1]), by rw [(h s).2]; exact hs⟩

theorem nbd_syncs (bs : Nat) :
    Syncs nbdMachine (fun s => s.canFlush = true) nbdSpace.content durableBytes (nbdP bs) where
  seek _ := nbdSync_call fun _ => ⟨rfl, rfl⟩
  write a d := nbdSync_call fun s => by
    unfold NbdBackend.write
    split
    · exact ⟨rfl, rfl⟩
    · have := request_disk (s := s) (off := s.pos) (n := d.length)
        (f := fun k => NbdBackend.serverStore s.pos (d.take k)) fun _ _ => ⟨rfl, rfl⟩
      cases h : NbdBackend.request s s.pos d.length (fun k => NbdBackend.serverStore s.pos (d.take k)) with
      | mk r s' =>
        rw [h] at this
        cases r <;> exact this
  zero n := nbdSync_call fun s => by
    unfold NbdBackend.zero
    split
    · exact ⟨rfl, rfl⟩
    · split
      · exact ⟨rfl, rfl⟩
      · have := request_disk (s := s) (off := s.pos) (n := n)
          (f := fun k => NbdBackend.serverStore s.pos (zeros k)) fun _ _ => ⟨rfl, rfl⟩
        cases h : NbdBackend.request s s.pos n (fun k => NbdBackend.serverStore s.pos (zeros k)) with
        | mk r s' =>
          rw [h] at this
          cases r <;> exact this
  flush := Syncing.call fun s hs => by
    have hs : s.canFlush = true := hs
    unfold NbdBackend.flush
    simp only [hs, Bool.not_true, Bool.false_eq_true, if_false]
    split
    · exact ⟨.inl rfl, rfl⟩
    · exact ⟨.inr rfl, rfl⟩
  last := fun s hs => by
    constructor
    · intro h
      have hs : s.canFlush = true := hs
      have h : Prog.ret (NbdBackend.flush s).1 = (Prog.ret (.ok ()) : Prog NbdBackend.State Unit) := h
      have h : (NbdBackend.flush s).1 = .ok () := by injection h
      show durableBytes (nbdMachine.shared (NbdBackend.flush s).2) = byteAt (nbdMachine.shared (NbdBackend.flush s).2).1
      unfold NbdBackend.flush at h ⊢
      simp only [hs, Bool.not_true, Bool.false_eq_true, if_false] at h ⊢
      split at h
      · cases h
      · rfl
    · intro h
      cases hr : (NbdBackend.flush s).1 with
      | error e => simp only [hr]; trivial
      | ok u => exact absurd (by simp only [hr]) h

end Imageio.Conc
