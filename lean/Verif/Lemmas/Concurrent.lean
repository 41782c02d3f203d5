import Verif.Model.Concurrent
import Verif.Lemmas.FileLaws
import Verif.Lemmas.NbdBackend
import Verif.Lemmas.OpsWrite
import Verif.Lemmas.OpsZero
/-!
Threads that use disjoint parts of the storage do not see each other: the generic part, the
programs of `ops.py`, and the steps of the file and NBD backends.
-/
namespace Imageio.Conc
open Prog Imageio.Spec

variable {σ Γ α β ι : Type}

/-! ### Programs -/

theorem run_bind (p : Prog σ α) (g : α → Prog σ β) (s : σ) :
    run (bind p g) s =
      match run p s with
      | (.error e, s') => (.error e, s')
      | (.ok a, s') => run (g a) s' := by
  induction p generalizing s with
  | ret r => cases r <;> rfl
  | step f k ih => exact ih s (f s)

theorem run_bind_ok {p : Prog σ α} {g : α → Prog σ β} {s s' : σ} {a : α} (h : run p s = (.ok a, s')) :
    run (bind p g) s = run (g a) s' := by rw [run_bind, h]

theorem run_bind_err {p : Prog σ α} {g : α → Prog σ β} {s s' : σ} {e : Err} (h : run p s = (.error e, s')) :
    run (bind p g) s = (.error e, s') := by rw [run_bind, h]

@[simp] theorem run_call (f : σ → Res σ α) (s : σ) : run (call f) s = f s := rfl
@[simp] theorem run_asks (f : σ → α) (s : σ) : run (asks f) s = (.ok (f s), s) := rfl
@[simp] theorem run_pure (a : α) (s : σ) : run (pure a : Prog σ α) s = (.ok a, s) := rfl
@[simp] theorem run_ret (r : Except Err α) (s : σ) : run (.ret r : Prog σ α) s = (r, s) := rfl

/-! ### Isolation -/

/-- The storage the threads share: its bytes, and what else of it a thread can see (`sized`: for
a block device the size). -/
structure Space (M : Machine σ Γ) where
  content : Γ → Nat → Byte
  sized : Γ → Γ → Prop
  sized_refl : ∀ g, sized g g
  sized_trans : ∀ a b c, sized a b → sized b c → sized a c
  shared_view : ∀ s g, M.shared (M.view s g) = g
  view_shared : ∀ s, M.view s (M.shared s) = s
  view_view : ∀ s g g', M.view (M.view s g) g' = M.view s g'

variable {M : Machine σ Γ}

/-- The same bytes at the offsets `R`. -/
structure Space.Agree (S : Space M) (R : Nat → Prop) (g g' : Γ) : Prop where
  content : ∀ i, R i → S.content g' i = S.content g i
  sized : S.sized g g'

theorem Space.Agree.refl (S : Space M) (R : Nat → Prop) (g : Γ) : S.Agree R g g :=
  ⟨fun _ _ => rfl, S.sized_refl g⟩

/-- A step from the view `s` that uses only the offsets `R`: with any other bytes at the other
offsets it does the same, and leaves the other offsets alone. -/
structure Space.Safe (S : Space M) (R : Nat → Prop) (f : σ → σ) (k : σ → β) (s : σ) (g : Γ) : Prop where
  same : k (M.view s g) = k s
  loc : M.view (f s) (M.shared (f (M.view s g))) = f (M.view s g)
  inside : ∀ i, R i → S.content (M.shared (f (M.view s g))) i = S.content (M.shared (f s)) i
  outside : ∀ i, ¬ R i → S.content (M.shared (f (M.view s g))) i = S.content g i
  sized : S.sized (M.shared (f s)) (M.shared (f (M.view s g)))
  kept : S.sized g (M.shared (f (M.view s g)))

/-- A program that, run alone from the view `s`, uses only the offsets `R`. -/
def Space.Confined (S : Space M) (R : Nat → Prop) : Prog σ α → σ → Prop
  | .ret _, _ => True
  | .step f k, s => (∀ g, S.Agree R (M.shared s) g → S.Safe R f k s g) ∧ Space.Confined S R (k s) (f s)

theorem Space.Confined.mono {S : Space M} {R R' : Nat → Prop} (h : ∀ i, R i → R' i) :
    ∀ (p : Prog σ α) (s : σ), S.Confined R p s → S.Confined R' p s
  | .ret _, _, _ => trivial
  | .step f k, s, ⟨h1, h2⟩ => by
    refine ⟨fun g hg => ?_, Space.Confined.mono h _ _ h2⟩
    have a := h1 g ⟨fun i hi => hg.content i (h i hi), hg.sized⟩
    have b := h1 (M.shared s) (Space.Agree.refl S R _)
    refine ⟨a.same, a.loc, fun i hi => ?_, fun i hi => a.outside i fun hr => hi (h i hr), a.sized, a.kept⟩
    by_cases hr : R i
    · exact a.inside i hr
    · rw [a.outside i hr, hg.content i hi]
      have := b.outside i hr
      rw [S.view_shared] at this
      exact this.symm

theorem Space.Confined.bind {S : Space M} {R : Nat → Prop} {g : α → Prog σ β} :
    ∀ {p : Prog σ α} {s : σ}, S.Confined R p s →
      (∀ a s', run p s = (.ok a, s') → S.Confined R (g a) s') → S.Confined R (Prog.bind p g) s
  | .ret (.ok a), s, _, h => h a s rfl
  | .ret (.error _), _, _, _ => trivial
  | .step f k, s, ⟨h1, h2⟩, h => by
    refine ⟨fun m hm => ?_, Space.Confined.bind h2 h⟩
    obtain ⟨x1, x2, x3, x4, x5, x6⟩ := h1 m hm
    exact ⟨by simp only [x1], x2, x3, x4, x5, x6⟩

theorem Space.Confined.pure {S : Space M} {R : Nat → Prop} {a : α} {s : σ} :
    S.Confined R (Prog.pure a : Prog σ α) s := trivial

theorem Space.confined_call {S : Space M} {R : Nat → Prop} {f : σ → Res σ α} {s : σ}
    (h : ∀ g, S.Agree R (M.shared s) g → S.Safe R (fun s => (f s).2) (fun s => (f s).1) s g) :
    S.Confined R (Prog.call f) s := by
  refine ⟨fun g hg => ?_, trivial⟩
  obtain ⟨x1, x2, x3, x4, x5, x6⟩ := h g hg
  exact ⟨by simp only [x1], x2, x3, x4, x5, x6⟩

/-- A call that only uses the local part of the view. -/
theorem Space.confined_local {S : Space M} {R : Nat → Prop} {f : σ → Res σ α} {s : σ}
    (h : ∀ g, f (M.view s g) = ((f s).1, M.view (f s).2 g)) (hs : M.shared (f s).2 = M.shared s) :
    S.Confined R (Prog.call f) s := by
  refine Space.confined_call fun g hg => ⟨?_, ?_, fun i hi => ?_, fun i _ => ?_, ?_, ?_⟩ <;> simp only [h g]
  · rw [S.shared_view]
  · rw [S.shared_view, hs]; exact hg.content i hi
  · rw [S.shared_view]
  · rw [S.shared_view, hs]; exact hg.sized
  · rw [S.shared_view]; exact S.sized_refl g

theorem Space.confined_asks {S : Space M} {R : Nat → Prop} {f : σ → α} {s : σ} (h : ∀ g, f (M.view s g) = f s) :
    S.Confined R (Prog.asks f) s :=
  Space.confined_local (fun g => by simp only [h g]) rfl

/-- What is true during an execution of threads that use disjoint offsets: `t i` is where thread
`i` would be if it was alone. -/
structure Space.Isolated (S : Space M) (R : ι → Nat → Prop) (c0 c : Config ι σ Γ) (t : ι → σ) : Prop where
  loc : ∀ i, M.view (t i) c.mem = M.view (c.loc i) c.mem
  agree : ∀ i, S.Agree (R i) (M.shared (t i)) c.mem
  confined : ∀ i, S.Confined (R i) (c.prog i) (t i)
  run : ∀ i, run (c.prog i) (t i) = run (c0.prog i) (M.view (c0.loc i) c0.mem)
  outside : ∀ x, (∀ i, ¬ R i x) → S.content c.mem x = S.content c0.mem x
  sized : S.sized c0.mem c.mem

theorem Space.isolated [DecidableEq ι] (S : Space M) (R : ι → Nat → Prop)
    (hR : ∀ i j x, R i x → R j x → i = j) (c0 : Config ι σ Γ)
    (hc : ∀ i, S.Confined (R i) (c0.prog i) (M.view (c0.loc i) c0.mem)) {c : Config ι σ Γ} (h : Steps M c0 c) :
    ∃ t, S.Isolated R c0 c t := by
  induction h with
  | refl =>
    refine ⟨fun i => M.view (c0.loc i) c0.mem, ⟨fun i => ?_, fun i => ?_, hc, fun _ => rfl, fun _ _ => rfl, S.sized_refl _⟩⟩
    · rw [S.view_view]
    · rw [S.shared_view]; exact Space.Agree.refl S _ _
  | @tail b _ _ hs ih =>
    obtain ⟨t, I⟩ := ih
    cases hs with
    | mk i f k hp =>
    have hci := I.confined i
    rw [hp] at hci
    obtain ⟨x1, x2, x3, x4, x5, x6⟩ := hci.1 _ (I.agree i)
    rw [I.loc i] at x1 x2 x3 x4 x5 x6
    refine ⟨fun j => if j = i then f (t i) else t j, ?_⟩
    refine ⟨fun j => ?_, fun j => ?_, fun j => ?_, fun j => ?_, fun x hx => ?_, ?_⟩
    · by_cases hj : j = i
      · simp only [hj, if_true]; rw [S.view_shared]; exact x2
      · simp only [hj, if_false]
        have := congrArg (fun v => M.view v (M.shared (f (M.view (b.loc i) b.mem)))) (I.loc j)
        simpa only [S.view_view] using this
    · by_cases hj : j = i
      · simp only [hj, if_true]; exact ⟨x3, x5⟩
      · simp only [hj, if_false]
        refine ⟨fun x hx => ?_, S.sized_trans _ _ _ (I.agree j).sized x6⟩
        rw [x4 x fun hi => hj (hR _ _ _ hx hi)]
        exact (I.agree j).content x hx
    · by_cases hj : j = i
      · simp only [hj, if_true]; rw [x1]; exact hci.2
      · simp only [hj, if_false]; exact I.confined j
    · by_cases hj : j = i
      · subst hj
        simp only [if_true]
        rw [x1, ← I.run j, hp]; rfl
      · simp only [hj, if_false]; exact I.run j
    · rw [x4 x (hx i)]; exact I.outside x hx
    · exact S.sized_trans _ _ _ I.sized x6

/-! ### The operations -/

/-- The programs of a backend do, run alone, what the methods of the backend do. -/
structure Runs (PB : ProgBackend σ) (B : Backend σ) : Prop where
  bs : PB.blockSize = B.blockSize
  seek : ∀ n s, run (PB.seek n) s = B.seek s n
  write : ∀ a d s, run (PB.write a d) s = B.write s a d
  zero : ∀ n s, run (PB.zero n) s = B.zero s n
  flush : ∀ s, run PB.flush s = B.flush s

variable {PB : ProgBackend σ} {B : Backend σ} {τ : Type}

theorem run_writeLoopP (H : Runs PB B) : ∀ (fuel pos : Nat) (d : Bytes) (s : σ),
    run (writeLoopP PB fuel pos d) s = Ops.writeLoop B fuel s pos d := by
  intro fuel
  induction fuel with
  | zero => intro pos d s; unfold writeLoopP Ops.writeLoop; split <;> rfl
  | succ fuel ih =>
    intro pos d s
    unfold writeLoopP Ops.writeLoop
    by_cases h : d.length = 0
    · rw [if_pos h, if_pos h]; rfl
    · rw [if_neg h, if_neg h]
      simp only
      rw [run_bind, H.write]
      cases B.write s pos d with
      | mk r s' => cases r with
        | error e => rfl
        | ok n => exact ih _ _ _

/-- The result of a part of a write operation, as a result of its program. -/
def ofWrite (x : Except Err Unit × Ops.WriteState σ τ) : Res σ (Loc τ) :=
  (x.1.map fun _ => ⟨x.2.src, x.2.done, x.2.chunks⟩, x.2.dst)

theorem run_writeChunkP (H : Runs PB B) (S : Source τ) (cancel : Nat → Bool) (size count : Nat) (l : Loc τ) (s : σ) :
    run (writeChunkP PB S cancel size count l) s =
      ofWrite (Ops.writeChunk B S cancel size count ⟨s, l.src, l.done, l.chunks⟩) := by
  unfold writeChunkP Ops.writeChunk
  simp only
  cases Ops.fill S count l.src with
  | mk r t => cases r with
    | error e => rfl
    | ok data =>
      simp only
      rw [run_bind, run_writeLoopP H]
      cases Ops.writeLoop B data.length s 0 data with
      | mk r s' => cases r with
        | error e => rfl
        | ok u =>
          simp only
          by_cases h1 : data.length < count
          · rw [if_pos h1, if_pos h1]; rfl
          · rw [if_neg h1, if_neg h1]
            by_cases h2 : cancel l.chunks = true
            · rw [if_pos h2, if_pos h2]; rfl
            · rw [if_neg h2, if_neg h2]; rfl

theorem run_writeChunksP (H : Runs PB B) (S : Source τ) (cancel : Nat → Bool) (bufLen size : Nat) :
    ∀ (fuel : Nat) (l : Loc τ) (s : σ),
      run (writeChunksP PB S cancel bufLen size fuel l) s =
        ofWrite (Ops.writeChunks B S cancel bufLen size fuel ⟨s, l.src, l.done, l.chunks⟩) := by
  intro fuel
  induction fuel with
  | zero => intro l s; unfold writeChunksP Ops.writeChunks; simp only; split <;> rfl
  | succ fuel ih =>
    intro l s
    unfold writeChunksP Ops.writeChunks
    simp only
    by_cases h : size - l.done = 0
    · rw [if_pos h, if_pos h]; rfl
    · rw [if_neg h, if_neg h]
      rw [run_bind, run_writeChunkP H]
      cases Ops.writeChunk B S cancel size (min (size - l.done) bufLen) ⟨s, l.src, l.done, l.chunks⟩ with
      | mk r st => cases r with
        | error e => rfl
        | ok u => exact ih _ _

theorem run_writeRunP (H : Runs PB B) (S : Source τ) (cancel : Nat → Bool) (bufLen size offset : Nat) (flush : Bool)
    (t : τ) (s : σ) :
    run (writeRunP PB S cancel bufLen size offset flush t) s =
      ((Ops.writeRun B S cancel bufLen size offset flush s t).1,
        (Ops.writeRun B S cancel bufLen size offset flush s t).2.dst) := by
  unfold writeRunP Ops.writeRun
  rw [run_bind, H.seek, H.bs]
  cases B.seek s offset with
  | mk r s1 => cases r with
    | error e => rfl
    | ok u =>
      simp only
      rw [run_bind]
      have first : run (if offset % B.blockSize ≠ 0 then
            writeChunkP PB S cancel size (min size (B.blockSize - offset % B.blockSize)) ⟨t, 0, 0⟩
          else pure ⟨t, 0, 0⟩) s1 =
          ofWrite (if offset % B.blockSize ≠ 0 then
            Ops.writeChunk B S cancel size (min size (B.blockSize - offset % B.blockSize)) ⟨s1, t, 0, 0⟩
          else (.ok (), ⟨s1, t, 0, 0⟩)) := by
        by_cases h : offset % B.blockSize ≠ 0
        · rw [if_pos h, if_pos h, run_writeChunkP H]
        · rw [if_neg h, if_neg h]; rfl
      rw [first]
      generalize (if offset % B.blockSize ≠ 0 then
            Ops.writeChunk B S cancel size (min size (B.blockSize - offset % B.blockSize)) ⟨s1, t, 0, 0⟩
          else (.ok (), ⟨s1, t, 0, 0⟩)) = x
      obtain ⟨r, st⟩ := x
      cases r with
      | error e => rfl
      | ok u =>
        simp only [ofWrite, Except.map]
        rw [run_bind, run_writeChunksP H]
        cases Ops.writeChunks B S cancel bufLen size size st with
        | mk r st' => cases r with
          | error e => rfl
          | ok u =>
            simp only [ofWrite, Except.map]
            by_cases hf : flush = true
            · rw [if_pos hf, if_pos hf, H.flush]
              cases B.flush st'.dst with
              | mk r s' => cases r <;> rfl
            · rw [if_neg hf, if_neg hf]; rfl

theorem run_zeroStepsP (H : Runs PB B) (cancel : Nat → Bool) (size : Nat) : ∀ (fuel done chunks : Nat) (s : σ),
    run (zeroStepsP PB cancel size fuel done chunks) s =
      ((Ops.zeroSteps B cancel size fuel ⟨s, done, chunks⟩).1,
        (Ops.zeroSteps B cancel size fuel ⟨s, done, chunks⟩).2.dst) := by
  intro fuel
  induction fuel with
  | zero => intro done chunks s; unfold zeroStepsP Ops.zeroSteps; simp only; split <;> rfl
  | succ fuel ih =>
    intro done chunks s
    unfold zeroStepsP Ops.zeroSteps
    simp only
    by_cases h : size - done = 0
    · rw [if_pos h, if_pos h]; rfl
    · rw [if_neg h, if_neg h, run_bind, H.zero]
      cases B.zero s (min (size - done) Ops.maxStep) with
      | mk r s' => cases r with
        | error e => rfl
        | ok n =>
          simp only
          by_cases hc : cancel chunks = true
          · rw [if_pos hc, if_pos hc]; rfl
          · rw [if_neg hc, if_neg hc]; exact ih _ _ _

theorem run_zeroRunP (H : Runs PB B) (cancel : Nat → Bool) (size offset : Nat) (flush : Bool) (s : σ) :
    run (zeroRunP PB cancel size offset flush) s =
      ((Ops.zeroRun B cancel size offset flush s).1, (Ops.zeroRun B cancel size offset flush s).2.dst) := by
  unfold zeroRunP Ops.zeroRun
  rw [run_bind, H.seek]
  cases B.seek s offset with
  | mk r s1 => cases r with
    | error e => rfl
    | ok u =>
      simp only
      rw [run_bind, run_zeroStepsP H]
      cases Ops.zeroSteps B cancel size size ⟨s1, 0, 0⟩ with
      | mk r st => cases r with
        | error e => rfl
        | ok u =>
          simp only
          by_cases hf : flush = true
          · rw [if_pos hf, if_pos hf, H.flush]
            cases B.flush st.dst with
            | mk r s' => cases r <;> rfl
          · rw [if_neg hf, if_neg hf]; rfl

/-! ### Confinement of the operations -/

/-- The offset `x` is in a block with one of the `n` bytes at `off`. -/
def Near (bs off n x : Nat) : Prop := ∃ y, InRange off n y ∧ x / bs = y / bs

theorem Near.mono {bs off n off' n' x : Nat} (h : Near bs off n x) (h1 : off' ≤ off) (h2 : off + n ≤ off' + n') :
    Near bs off' n' x := by
  obtain ⟨y, hy, hx⟩ := h
  exact ⟨y, hy.mono h1 h2, hx⟩

/-- The programs of a backend use only the blocks with the bytes they are called for; zeroing, if the
bytes end at an offset that allows it. -/
structure Confines (S : Space M) (PB : ProgBackend σ) {B : Backend σ} (L : Lawful B) (zeroes : Nat → Prop) : Prop where
  seek : ∀ R n s, S.Confined R (PB.seek n) s
  write : ∀ a d s, L.Inv s → d ≠ [] → S.Confined (Near B.blockSize (B.tell s) d.length) (PB.write a d) s
  zero : ∀ e, zeroes e → ∀ c s, L.Inv s → 0 < c → B.tell s + c ≤ e → S.Confined (Near B.blockSize (B.tell s) c) (PB.zero c) s
  flush : ∀ R s, S.Confined R PB.flush s

theorem confined_writeLoopP {S : Space M} (H : Runs PB B) {L : Lawful B} {z : Nat → Prop} (C : Confines S PB L z)
    (off size : Nat) :
    ∀ (fuel pos : Nat) (d : Bytes) (s : σ), L.Inv s → off ≤ B.tell s → B.tell s + d.length ≤ off + size →
      (B.tell s % B.blockSize = pos % B.blockSize ∨ d.length < B.blockSize) →
      S.Confined (Near B.blockSize off size) (writeLoopP PB fuel pos d) s := by
  intro fuel
  induction fuel with
  | zero => intro pos d s _ _ _ _; unfold writeLoopP; split <;> trivial
  | succ fuel ih =>
    intro pos d s hi h1 h2 ha
    unfold writeLoopP
    by_cases h0 : d.length = 0
    · rw [if_pos h0]; trivial
    · rw [if_neg h0]
      have hne : d ≠ [] := fun h => h0 (by simp [h])
      refine Space.Confined.bind ((C.write pos d s hi hne).mono (fun i hn => hn.mono h1 h2)) ?_
      intro n s1 hr
      rw [H.write] at hr
      obtain ⟨c1, c2, c3, c4, c5, c6, c7⟩ := L.write _ _ _ _ _ hi hne (by intro h1 h2; omega) hr
      have hdl : (d.drop n).length = d.length - n := List.length_drop ..
      refine ih (pos + n) (d.drop n) s1 c1 (by omega) (by omega) ?_
      rcases ha with ha | ha
      · left; rw [c4, Nat.add_mod, ha, ← Nat.add_mod]
      · right; omega

theorem confined_writeChunkP {S : Space M} (H : Runs PB B) {L : Lawful B} {z : Nat → Prop} (C : Confines S PB L z)
    {Src : Source τ} (R : LawfulSource Src) (cancel : Nat → Bool) (size count off : Nat) (body : Bytes) (s0 s : σ)
    (l : Loc τ) (hp : Ops.Progress L R s0 off body ⟨s, l.src, l.done, l.chunks⟩)
    (ha : (off + l.done) % B.blockSize = 0 ∨ count < B.blockSize) (hle : l.done + count ≤ size) :
    S.Confined (Near B.blockSize off size) (writeChunkP PB Src cancel size count l) s := by
  have htell : B.tell s = off + l.done := hp.tell
  unfold writeChunkP
  cases hf : Ops.fill Src count l.src with
  | mk r t => cases r with
    | error e => trivial
    | ok data =>
      simp only
      obtain ⟨f1, _⟩ := Ops.fill_ok R _ _ _ _ hp.srcInv hf
      refine Space.Confined.bind (confined_writeLoopP H C off size _ _ _ _ hp.inv (by omega) (by omega) ?_) ?_
      · rw [htell]
        rcases ha with h | h
        · left; simp [h]
        · right; omega
      · intro _ s1 _
        split
        · trivial
        · split <;> trivial

theorem confined_writeChunksP {S : Space M} (H : Runs PB B) {L : Lawful B} {z : Nat → Prop} (C : Confines S PB L z)
    {Src : Source τ} (R : LawfulSource Src) (cancel : Nat → Bool) (bufLen size off : Nat)
    (hbs : bufLen % B.blockSize = 0) (body : Bytes) (s0 : σ) :
    ∀ (fuel : Nat) (l : Loc τ) (s : σ), Ops.Progress L R s0 off body ⟨s, l.src, l.done, l.chunks⟩ →
      l.done ≤ size → (l.done = size ∨ (off + l.done) % B.blockSize = 0) →
      S.Confined (Near B.blockSize off size) (writeChunksP PB Src cancel bufLen size fuel l) s := by
  intro fuel
  induction fuel with
  | zero => intro l s _ _ _; unfold writeChunksP; split <;> trivial
  | succ fuel ih =>
    intro l s hp hle ha
    unfold writeChunksP
    by_cases h0 : size - l.done = 0
    · rw [if_pos h0]; trivial
    · rw [if_neg h0]
      have ha' : (off + l.done) % B.blockSize = 0 := by omega
      refine Space.Confined.bind
        (confined_writeChunkP H C R cancel size _ off body s0 s l hp (.inl ha') (by omega)) ?_
      intro l' s' hr
      rw [run_writeChunkP H] at hr
      have hc := Ops.writeChunk_spec L R cancel size (min (size - l.done) bufLen) s0 off body _ hp (.inl ha')
      generalize Ops.writeChunk B Src cancel size (min (size - l.done) bufLen) ⟨s, l.src, l.done, l.chunks⟩ = x at hr hc
      obtain ⟨r, st⟩ := x
      cases r with
      | error e => simp [ofWrite, Except.map] at hr
      | ok u =>
        simp only [ofWrite, Except.map, Prod.mk.injEq, Except.ok.injEq] at hr
        obtain ⟨rfl, rfl⟩ := hr
        simp only at hc
        refine ih _ _ hc.1 (by simp only; omega) ?_
        simp only
        by_cases hm : size - l.done ≤ bufLen
        · left; omega
        · right
          rw [hc.2, Nat.min_eq_right (by omega), ← Nat.add_assoc, Nat.add_mod, ha', hbs]
          simp

theorem confined_writeRunP {S : Space M} (H : Runs PB B) {L : Lawful B} {z : Nat → Prop} (C : Confines S PB L z)
    {Src : Source τ} (R : LawfulSource Src) (cancel : Nat → Bool) (bufLen size off : Nat) (flush : Bool)
    (hbs : bufLen % B.blockSize = 0) (t : τ) (s : σ) (hi : L.Inv s) (ht : R.Inv t) :
    S.Confined (Near B.blockSize off size) (writeRunP PB Src cancel bufLen size off flush t) s := by
  unfold writeRunP
  refine Space.Confined.bind (C.seek _ _ _) ?_
  intro _ s1 hs
  rw [H.seek] at hs
  obtain ⟨_, k2, k3, k4, k5, k6⟩ := L.seek _ _ _ _ hi hs
  have hp0 := Ops.seek_progress (t := t) L R k2 k3 k4 k6 ht
  have hml := Nat.mod_lt off L.block_pos
  simp only
  rw [H.bs]
  have fin : ∀ (l : Loc τ) s2, Ops.Progress L R s off (R.rest t) ⟨s2, l.src, l.done, l.chunks⟩ → l.done ≤ size →
      (l.done = size ∨ (off + l.done) % B.blockSize = 0) →
      S.Confined (Near B.blockSize off size)
        (Prog.bind (writeChunksP PB Src cancel bufLen size size l) fun _ =>
          if flush = true then PB.flush else Prog.pure ()) s2 := by
    intro l s2 hp hle ha
    refine Space.Confined.bind (confined_writeChunksP H C R cancel bufLen size off hbs _ _ _ _ _ hp hle ha) ?_
    intro _ s3 _
    split
    · exact C.flush _ _
    · trivial
  by_cases hu : off % B.blockSize ≠ 0
  · rw [if_pos hu]
    have hlt : min size (B.blockSize - off % B.blockSize) < B.blockSize := by omega
    refine Space.Confined.bind
      (confined_writeChunkP H C R cancel size _ off _ s s1 ⟨t, 0, 0⟩ hp0 (.inr hlt) (by simp only; omega)) ?_
    intro l s2 hr
    rw [run_writeChunkP H] at hr
    have hc := Ops.writeChunk_spec L R cancel size (min size (B.blockSize - off % B.blockSize)) s off _ _ hp0 (.inr hlt)
    simp only at hr
    generalize Ops.writeChunk B Src cancel size (min size (B.blockSize - off % B.blockSize)) ⟨s1, t, 0, 0⟩ = x at hr hc
    obtain ⟨r, st⟩ := x
    cases r with
    | error e => simp [ofWrite, Except.map] at hr
    | ok u =>
      simp only [ofWrite, Except.map, Prod.mk.injEq, Except.ok.injEq] at hr
      obtain ⟨rfl, rfl⟩ := hr
      simp only at hc
      obtain ⟨hp1, hd1⟩ := hc
      refine fin _ _ hp1 (by simp only; omega) ?_
      simp only
      by_cases hm : size ≤ B.blockSize - off % B.blockSize
      · left; omega
      · right
        rw [hd1, Nat.zero_add, Nat.min_eq_right (by omega)]
        have := Nat.div_add_mod off B.blockSize
        have e : off + (B.blockSize - off % B.blockSize) = B.blockSize * (off / B.blockSize + 1) := by
          rw [Nat.mul_add]; omega
        rw [e]
        exact Nat.mul_mod_right _ _
  · rw [if_neg hu]
    exact fin ⟨t, 0, 0⟩ s1 hp0 (Nat.zero_le _) (.inr (by simp only [Nat.add_zero]; omega))

theorem confined_zeroStepsP {S : Space M} (H : Runs PB B) {L : Lawful B} {z : Nat → Prop} (C : Confines S PB L z)
    (cancel : Nat → Bool) (size off : Nat) (hz : 0 < size → z (off + size)) :
    ∀ (fuel done chunks : Nat) (s : σ), L.Inv s → B.tell s = off + done → done ≤ size →
      S.Confined (Near B.blockSize off size) (zeroStepsP PB cancel size fuel done chunks) s := by
  intro fuel
  induction fuel with
  | zero => intro done chunks s _ _ _; unfold zeroStepsP; split <;> trivial
  | succ fuel ih =>
    intro done chunks s hi ht hle
    unfold zeroStepsP
    by_cases h0 : size - done = 0
    · rw [if_pos h0]; trivial
    · rw [if_neg h0]
      have hms : 0 < Ops.maxStep := by decide
      have hc : 0 < min (size - done) Ops.maxStep := by omega
      refine Space.Confined.bind ((C.zero _ (hz (by omega)) _ s hi hc (by omega)).mono (fun i hn => hn.mono (by omega) (by omega))) ?_
      intro n s1 hr
      rw [H.zero] at hr
      obtain ⟨c1, c2, c3, c4, c5, c6, c7⟩ := L.zero _ _ _ _ hi hc hr
      split
      · trivial
      · exact ih _ _ _ c1 (by omega) (by omega)

theorem confined_zeroRunP {S : Space M} (H : Runs PB B) {L : Lawful B} {z : Nat → Prop} (C : Confines S PB L z)
    (cancel : Nat → Bool) (size off : Nat) (hz : 0 < size → z (off + size)) (flush : Bool) (s : σ) (hi : L.Inv s) :
    S.Confined (Near B.blockSize off size) (zeroRunP PB cancel size off flush) s := by
  unfold zeroRunP
  refine Space.Confined.bind (C.seek _ _ _) ?_
  intro _ s1 hs
  rw [H.seek] at hs
  obtain ⟨_, k2, k3, k4, k5, k6⟩ := L.seek _ _ _ _ hi hs
  refine Space.Confined.bind (confined_zeroStepsP H C cancel size off hz _ _ _ _ k2 (by omega) (Nat.zero_le _)) ?_
  intro _ s2 _
  split
  · exact C.flush _ _
  · trivial

end Imageio.Conc
