import Verif.Lemmas.ConcurrentOwned
/-!
Several connections that write to one image at the same time (C46).
-/
namespace Imageio.Props
open Imageio.Conc Imageio.Spec

/-! ## Specification -/

/-- No two requests use the same block of the storage. -/
def SeparateBlocks {ι τ : Type} (bs : Nat) (jobs : ι → Job τ) : Prop :=
  ∀ i j x y, InRange (jobs i).offset (jobs i).size x → InRange (jobs j).offset (jobs j).size y →
    x / bs = y / bs → i = j

/-- The bytes request `j` has to store. -/
def wantedBytes {τ : Type} {S : Source τ} (R : LawfulSource S) (j : Job τ) : Bytes :=
  if j.zero then List.replicate j.size 0 else (R.rest j.src).take j.size

/-- Thread `i` ended with `r`. -/
def Ended {ι σ Γ : Type} (c : Config ι σ Γ) (i : ι) (r : Except Err Unit) : Prop := c.prog i = .ret r

/-! ## Helpers -/

variable {ι σ Γ τ : Type} {M : Machine σ Γ} {Sp : Space M} {PB : ProgBackend σ} {B : Backend σ} {L : Lawful B}
  {z : Nat → Prop} {S : Source τ}

theorem writePost_outside {R : LawfulSource S} {cancel : Nat → Bool} {s : σ} {off size : Nat} {body : Bytes}
    {r : Except Err Unit} {st : Ops.WriteState σ τ} (h : Ops.WritePost L R cancel s off size body r st) :
    ∀ x, ¬ InRange off size x → L.content st.dst x = L.content s x := by
  intro x hx
  have pr : Ops.Progress L R s off body st → st.done ≤ size → L.content st.dst x = L.content s x := by
    intro hp hd
    rw [hp.content, store_outside]
    intro h
    rw [List.length_take] at h
    exact hx ⟨h.1, by omega⟩
  cases r with
  | ok u => exact pr h.1 (by have := h.2; omega)
  | error e =>
    cases e with
    | canceled => exact pr h.1 h.2.1
    | partialContent r a => exact pr h.1 (by have := h.2; omega)
    | os _ => exact h.2.2.2.2.outside x hx
    | terminated _ => exact h.2.2.2.2.outside x hx
    | exception _ => exact h.2.2.2.2.outside x hx
    | authorization _ => exact h.2.2.2.2.outside x hx
    | stuck => exact h.2.2.2.2.outside x hx

theorem zeroPost_outside {cancel : Nat → Bool} {s : σ} {off size : Nat}
    {r : Except Err Unit} {st : Ops.ZeroState σ} (h : Ops.ZeroPost L cancel s off size r st) :
    ∀ x, ¬ InRange off size x → L.content st.dst x = L.content s x := by
  intro x hx
  have pr : Ops.ZProgress L s off st → st.done ≤ size → L.content st.dst x = L.content s x := by
    intro hp hd
    rw [hp.content, store_outside]
    intro h
    rw [Ops.zeros_length] at h
    exact hx ⟨h.1, by omega⟩
  cases r with
  | ok u => exact pr h.1 (by have := h.2; omega)
  | error e =>
    cases e with
    | canceled => exact pr h.1 h.2.1
    | partialContent r a => exact h.2.2.2.outside x hx
    | os _ => exact h.2.2.2.outside x hx
    | terminated _ => exact h.2.2.2.outside x hx
    | exception _ => exact h.2.2.2.outside x hx
    | authorization _ => exact h.2.2.2.outside x hx
    | stuck => exact h.2.2.2.outside x hx

/-- A request alone: what it stores, what it leaves alone, and why it fails. -/
theorem job_alone (H : Runs PB B) (R : LawfulSource S) (j : Job τ)
    (hb : j.zero = false → 0 < j.bufLen ∧ j.bufLen % B.blockSize = 0 ∧ R.Inv j.src) (s : σ) (hi : L.Inv s)
    (r : Except Err Unit) (s' : σ) (h : Prog.run (j.prog PB S) s = (r, s')) :
    (r = .ok () → (wantedBytes R j).length = j.size ∧
      L.content s' = store (L.content s) j.offset (wantedBytes R j)) ∧
    (∀ x, ¬ InRange j.offset j.size x → L.content s' x = L.content s x) ∧
    (¬ L.MayFail j.offset j.size → (j.zero = false → ¬ R.mayFail ∧ j.size ≤ (R.rest j.src).length) →
      (∀ n, j.cancel n = false) → r = .ok ()) := by
  unfold Job.prog at h
  unfold wantedBytes
  cases hz : j.zero with
  | true =>
    rw [hz, if_pos rfl, run_zeroRunP H] at h
    generalize hx : Ops.zeroRun B j.cancel j.size j.offset j.flush s = x at h
    obtain ⟨r0, st⟩ := x
    simp only [Prod.mk.injEq] at h
    obtain ⟨rfl, rfl⟩ := h
    have hp := (Ops.zeroRun_spec L j.cancel j.size j.offset j.flush s hi _ _ hx).1
    refine ⟨fun hr => ?_, zeroPost_outside hp, fun hm _ hc => ?_⟩
    · subst hr
      rw [if_pos rfl]
      refine ⟨List.length_replicate, ?_⟩
      rw [hp.1.content, hp.2]; rfl
    · cases r0 with
      | ok u => rfl
      | error e =>
        exfalso
        cases e with
        | canceled => obtain ⟨n, hn⟩ := hp.2.2; rw [hc n] at hn; cases hn
        | partialContent r a => exact hm hp.2.1
        | os _ => exact hm hp.2.1
        | terminated _ => exact hm hp.2.1
        | exception _ => exact hm hp.2.1
        | authorization _ => exact hm hp.2.1
        | stuck => exact hm hp.2.1
  | false =>
    obtain ⟨hb1, hb2, hb3⟩ := hb hz
    rw [hz, if_neg (by simp), run_writeRunP H] at h
    generalize hx : Ops.writeRun B S j.cancel j.bufLen j.size j.offset j.flush s j.src = x at h
    obtain ⟨r0, st⟩ := x
    simp only [Prod.mk.injEq] at h
    obtain ⟨rfl, rfl⟩ := h
    have hp := (Ops.writeRun_spec L R j.cancel j.bufLen j.size j.offset j.flush hb1 hb2 s j.src hi hb3 _ _ hx).1
    refine ⟨fun hr => ?_, writePost_outside hp, fun hm hsrc hc => ?_⟩
    · subst hr
      rw [if_neg (by simp)]
      have hd := hp.1.done_le
      rw [hp.2] at hd
      refine ⟨by rw [List.length_take]; omega, ?_⟩
      rw [hp.1.content, hp.2]
    · obtain ⟨h1, h2⟩ := hsrc rfl
      cases r0 with
      | ok u => rfl
      | error e =>
        exfalso
        have no : ¬ (L.MayFail j.offset j.size ∨ R.mayFail) := fun h => h.elim hm h1
        cases e with
        | canceled => obtain ⟨n, hn⟩ := hp.2.2; rw [hc n] at hn; cases hn
        | partialContent r a => have := hp.2.2.1; omega
        | os _ => exact no hp.2.1
        | terminated _ => exact no hp.2.1
        | exception _ => exact no hp.2.1
        | authorization _ => exact no hp.2.1
        | stuck => exact no hp.2.1

/-- The conditions of the theorems on an initial configuration. -/
structure Ready (L : Lawful B) (R : LawfulSource S) (M : Machine σ Γ) (zeroes : Nat → Prop) (g : Γ) (loc : ι → σ)
    (jobs : ι → Job τ) : Prop where
  inv : ∀ i, L.Inv (M.view (loc i) g)
  buffer : ∀ i, (jobs i).zero = false → 0 < (jobs i).bufLen ∧ (jobs i).bufLen % B.blockSize = 0 ∧ R.Inv (jobs i).src
  zero : ∀ i, (jobs i).zero = true → zeroes ((jobs i).offset + (jobs i).size)
  separate : SeparateBlocks B.blockSize jobs

theorem jobs_isolated [DecidableEq ι] (H : Runs PB B) (C : Confines Sp PB L z) (R : LawfulSource S) {g : Γ} {loc : ι → σ}
    {jobs : ι → Job τ} (hr : Ready L R M z g loc jobs) {c : Config ι σ Γ} (h : Steps M (start PB S g loc jobs) c) :
    ∃ t, Sp.Isolated (fun i => Near B.blockSize (jobs i).offset (jobs i).size) (start PB S g loc jobs) c t := by
  refine Space.isolated Sp _ (fun i j x hi hj => ?_) _ (fun i => ?_) h
  · obtain ⟨a, ha, hxa⟩ := hi
    obtain ⟨b, hb, hxb⟩ := hj
    exact hr.separate i j a b ha hb (hxa.symm.trans hxb)
  · show Sp.Confined _ ((jobs i).prog PB S) (M.view (loc i) g)
    unfold Job.prog
    cases hz : (jobs i).zero with
    | true =>
      rw [if_pos rfl]
      exact confined_zeroRunP H C _ _ _ (fun _ => hr.zero i hz) _ _ (hr.inv i)
    | false =>
      rw [if_neg (by simp)]
      obtain ⟨b1, b2, b3⟩ := hr.buffer i hz
      exact confined_writeRunP H C R _ _ _ _ _ b2 _ _ (hr.inv i) b3

/-- All the claims, for any backend. -/
theorem jobs_effect [DecidableEq ι] (H : Runs PB B) (C : Confines Sp PB L z)
    (hcont : ∀ s, L.content s = Sp.content (M.shared s)) (R : LawfulSource S) {g : Γ} {loc : ι → σ}
    {jobs : ι → Job τ} (hr : Ready L R M z g loc jobs) {c : Config ι σ Γ} (h : Steps M (start PB S g loc jobs) c) :
    (∀ i, Ended c i (.ok ()) → (wantedBytes R (jobs i)).length = (jobs i).size ∧
      ∀ x, InRange (jobs i).offset (jobs i).size x →
        Sp.content c.mem x = byteAt (wantedBytes R (jobs i)) (x - (jobs i).offset)) ∧
    (∀ x, (∀ i, ¬ InRange (jobs i).offset (jobs i).size x) →
      (∀ i, Near B.blockSize (jobs i).offset (jobs i).size x → ∃ r, Ended c i r) →
      Sp.content c.mem x = Sp.content g x) ∧
    (∀ i r, Ended c i r → (Prog.run ((jobs i).prog PB S) (M.view (loc i) g)).1 = r) := by
  obtain ⟨t, I⟩ := jobs_isolated H C R hr h
  have alone : ∀ i r, Ended c i r → Prog.run ((jobs i).prog PB S) (M.view (loc i) g) = (r, t i) := by
    intro i r he
    have := I.run i
    rw [he] at this
    exact this.symm
  refine ⟨fun i he => ?_, fun x hx hn => ?_, fun i r he => by rw [alone i r he]⟩
  · have ha := (job_alone (L := L) H R (jobs i) (hr.buffer i) _ (hr.inv i) _ _ (alone i _ he)).1 rfl
    refine ⟨ha.1, fun x hx => ?_⟩
    rw [(I.agree i).content x ⟨x, hx, rfl⟩, ← hcont, ha.2, store_inside _ _ _ _ hx.1 (by rw [ha.1]; exact hx.2)]
    simp [byteAt, ha.1, show x - (jobs i).offset < (jobs i).size by have := hx.1; have := hx.2; omega]
  · by_cases hnear : ∃ i, Near B.blockSize (jobs i).offset (jobs i).size x
    · obtain ⟨i, hi⟩ := hnear
      obtain ⟨r, he⟩ := hn i hi
      have ha := (job_alone (L := L) H R (jobs i) (hr.buffer i) _ (hr.inv i) _ _ (alone i _ he)).2.1 x (hx i)
      rw [(I.agree i).content x hi, ← hcont, ha, hcont, Sp.shared_view]
    · exact I.outside x fun i hi => hnear ⟨i, hi⟩

/-- A thread can end whatever the others do: it does not wait for them. -/
theorem can_end [DecidableEq ι] (M : Machine σ Γ) (i : ι) : ∀ (p : Prog σ Unit) (c : Config ι σ Γ), c.prog i = p →
    ∃ c' r, Steps M c c' ∧ Ended c' i r ∧ ∀ j, j ≠ i → c'.prog j = c.prog j := by
  intro p
  induction p with
  | ret r => intro c h; exact ⟨c, r, .refl c, h, fun _ _ => rfl⟩
  | step f k ih =>
    intro c h
    obtain ⟨c', r, h1, h2, h3⟩ := ih (M.view (c.loc i) c.mem) ⟨M.shared (f (M.view (c.loc i) c.mem)),
      fun j => if j = i then f (M.view (c.loc i) c.mem) else c.loc j,
      fun j => if j = i then k (M.view (c.loc i) c.mem) else c.prog j⟩ (by simp)
    refine ⟨c', r, ?_, h2, fun j hj => by rw [h3 j hj]; simp [hj]⟩
    clear h2 h3 ih
    have first := Step.mk (M := M) c i f k h
    generalize Config.mk _ _ _ = b at h1 first
    induction h1 with
    | refl => exact .tail (.refl c) first
    | tail _ hs ih => exact .tail ih hs

theorem steps_exec [DecidableEq ι] (M : Machine σ Γ) : ∀ (l : List ι) (c0 c : Config ι σ Γ), Steps M c0 c →
    Steps M c0 (exec M c l) := by
  intro l
  induction l with
  | nil => intro c0 c h; exact h
  | cons i rest ih =>
    intro c0 c h
    unfold exec
    split
    · exact ih c0 c h
    · rename_i f k hp
      exact ih c0 _ (.tail h (.mk c i f k hp))

/-! ## C46: files and block devices

Every connection has its own backend object `loc i` for the file `g` (`g.1` is the content, `g.2`
what is durable), with its own position, faults and short writes.  `c` is any configuration the
threads can reach: their system calls interleave in any way. -/

theorem file_ready {env : File.Env} (hb : 0 < env.bs) (strict : Prop) {R : LawfulSource S} {g : Bytes × Bytes}
    {loc : ι → File.State} {jobs : ι → Job τ} (hblk : env.isBlock = true → g.1.length % env.bs = 0)
    (hbuf : ∀ i, (jobs i).zero = false →
      0 < (jobs i).bufLen ∧ (jobs i).bufLen % env.bs = 0 ∧ R.Inv (jobs i).src)
    (hz : ∀ i, (jobs i).zero = true → env.isBlock = true ∨ (jobs i).offset + (jobs i).size ≤ g.1.length)
    (hsep : SeparateBlocks env.bs jobs)
    (hf : strict → ∀ i, (loc i).faults = []) :
    ∃ hcap, Ready (atLeast (File.lawful env hb strict (if env.isBlock then g.1.length else 0) hcap) g.1.length) R fileMachine
      (fun e => env.isBlock = true ∨ e ≤ g.1.length) g loc jobs := by
  refine ⟨?_, fun i => ⟨⟨fun h => ?_, fun h => hf h i⟩, Nat.le_refl _⟩, hbuf, hz, hsep⟩
  · split
    · exact hblk ‹_›
    · exact Nat.zero_mod _
  · rw [if_pos h]; rfl

/-- What a request achieves on the blocks it uses, starting with the view `s`. -/
def JobOwn (R : LawfulSource S) (bs : Nat) (j : Job τ) (s : File.State) (r : Except Err Unit) (s' : File.State) : Prop :=
  (r = .ok () → (wantedBytes R j).length = j.size ∧
    ∀ x, InRange j.offset j.size x → byteAt s'.data x = byteAt (wantedBytes R j) (x - j.offset)) ∧
  (∀ x, Near bs j.offset j.size x → ¬ InRange j.offset j.size x → byteAt s'.data x = byteAt s.data x) ∧
  (s.faults = [] → (j.zero = false → ¬ R.mayFail ∧ j.size ≤ (R.rest j.src).length) → (∀ n, j.cancel n = false) → r = .ok ())

/-- A request to a regular file that is not sparse, while others change everything but its blocks. -/
theorem job_owned {env : File.Env} (hb : 0 < env.bs) (hreg : env.isBlock = false) (hsp : env.sparse = false) (R : LawfulSource S)
    (j : Job τ) (hbuf : j.zero = false → 0 < j.bufLen ∧ j.bufLen % env.bs = 0 ∧ R.Inv j.src) (s : File.State) :
    (fileSpace env 0).Owned (Near env.bs j.offset j.size) (JobOwn R env.bs j s) (j.prog (fileP env) S) s := by
  cases hz : j.zero with
  | true =>
    have e : j.prog (fileP env) S = zeroRunP (fileP env) j.cancel j.size j.offset j.flush := by
      unfold Job.prog; rw [hz, if_pos rfl]
    rw [e]
    refine (owned_zeroRunP hb hreg hsp s j.cancel j.offset j.size j.flush).post fun r s' h => ?_
    cases r with
    | ok u =>
      refine ⟨fun _ => ?_, fun x hx ho => ?_, fun _ _ _ => rfl⟩
      · unfold wantedBytes
        rw [hz, if_pos rfl]
        refine ⟨List.length_replicate, fun x hx => ?_⟩
        rw [h.1 x ⟨x, hx, rfl⟩, store_inside _ _ _ _ hx.1 (by rw [Ops.zeros_length]; exact hx.2)]
        simp [byteAt, zeros, show x - j.offset < j.size by have := hx.1; have := hx.2; omega]
      · rw [h.1 x hx]
        simp only [store, Ops.zeros_length]
        exact if_neg ho
    | error e =>
      refine ⟨fun h => (by cases h), h.2.1, fun hf _ hc => ?_⟩
      rcases h.1 with ⟨n, hn⟩ | h
      · rw [hc n] at hn; cases hn
      · exact absurd hf h
  | false =>
    have hr := file_runs env
    have hi : (atLeast (File.lawful env hb (s.faults = []) 0 (Nat.zero_mod _)) 0).Inv s :=
      ⟨⟨fun h => (by rw [hreg] at h; cases h), id⟩, Nat.zero_le _⟩
    refine Space.Confined.owned ?_ fun r s' h g hg => ?_
    · unfold Job.prog
      rw [hz, if_neg (by simp)]
      obtain ⟨b1, b2, b3⟩ := hbuf hz
      exact confined_writeRunP hr (file_confines env hb (s.faults = []) 0 (Nat.zero_mod _) 0) R _ _ _ _ _ b2 _ _ hi b3
    · obtain ⟨a1, a2, a3⟩ := job_alone (L := atLeast (File.lawful env hb (s.faults = []) 0 (Nat.zero_mod _)) 0) hr R j hbuf s hi r s' h
      refine ⟨fun he => ?_, fun x hx ho => (hg.content x hx).trans (a2 x ho), fun hf hs hc => a3 ?_ hs hc⟩
      · obtain ⟨w1, w2⟩ := a1 he
        refine ⟨w1, fun x hx => (hg.content x ⟨x, hx, rfl⟩).trans ((congrFun w2 x).trans ?_)⟩
        rw [store_inside _ _ _ _ hx.1 (by rw [w1]; exact hx.2)]
        simp [byteAt, w1, show x - j.offset < j.size by have := hx.1; have := hx.2; omega]
      · rintro ⟨k, _, hm⟩
        rcases hm with hm | hm
        · exact hm hf
        · rw [hreg] at hm; cases hm.1

/-- The claims for regular files that are not sparse: zeroing may be anywhere. -/
theorem dense_effect [DecidableEq ι] {env : File.Env} (hb : 0 < env.bs) (hreg : env.isBlock = false) (hsp : env.sparse = false)
    (R : LawfulSource S) {g : Bytes × Bytes} {loc : ι → File.State} {jobs : ι → Job τ}
    (hbuf : ∀ i, (jobs i).zero = false →
      0 < (jobs i).bufLen ∧ (jobs i).bufLen % env.bs = 0 ∧ R.Inv (jobs i).src)
    (hsep : SeparateBlocks env.bs jobs)
    {c : Config ι File.State (Bytes × Bytes)} (h : Steps fileMachine (start (fileP env) S g loc jobs) c) :
    (∀ i r, Ended c i r → JobOwn R env.bs (jobs i) { loc i with data := g.1, disk := g.2 } r
      { c.loc i with data := c.mem.1, disk := c.mem.2 }) ∧
    (∀ x, (∀ i, ¬ Near env.bs (jobs i).offset (jobs i).size x) → byteAt c.mem.1 x = byteAt g.1 x) := by
  obtain ⟨h1, h2⟩ := Space.owned_steps (fileSpace env 0) (fun i => Near env.bs (jobs i).offset (jobs i).size)
    (fun i j x hi hj => by
      obtain ⟨a, ha, hxa⟩ := hi
      obtain ⟨b, hb, hxb⟩ := hj
      exact hsep i j a b ha hb (hxa.symm.trans hxb))
    (fun i => JobOwn R env.bs (jobs i) { loc i with data := g.1, disk := g.2 }) _
    (fun i => job_owned hb hreg hsp R (jobs i) (hbuf i) _) h
  refine ⟨fun i r he => ?_, h2⟩
  have := h1 i
  rw [he] at this
  exact this c.mem (Space.Agree.refl _ _ _)

/-- Zeroing has to be inside a sparse regular file as it was before. -/
def ZeroesInside (env : File.Env) (g : Bytes × Bytes) (jobs : ι → Job τ) : Prop :=
  ∀ i, (jobs i).zero = true → env.isBlock = false → env.sparse = true → (jobs i).offset + (jobs i).size ≤ g.1.length

theorem ZeroesInside.cases {env : File.Env} {g : Bytes × Bytes} {jobs : ι → Job τ} (h : ZeroesInside env g jobs) :
    (env.isBlock = false ∧ env.sparse = false) ∨
      ∀ i, (jobs i).zero = true → env.isBlock = true ∨ (jobs i).offset + (jobs i).size ≤ g.1.length := by
  cases h1 : env.isBlock with
  | true => exact .inr fun _ _ => .inl rfl
  | false =>
    cases h2 : env.sparse with
    | false => exact .inl ⟨rfl, rfl⟩
    | true => exact .inr fun i hz => .inr (h i hz h1 h2)

/-- C46: a request that succeeded stored all its bytes, and no other request damages them: the
range holds them whatever the other connections did before, between and after its system calls,
also if they failed.  Zeroing of a sparse regular file has to be inside the file as it was before;
uploads, and zeroing of other files, may make it larger. -/
theorem C46_file_stored [DecidableEq ι] (env : File.Env) (hb : 0 < env.bs) (R : LawfulSource S) (g : Bytes × Bytes)
    (loc : ι → File.State) (jobs : ι → Job τ) (hblk : env.isBlock = true → g.1.length % env.bs = 0)
    (hbuf : ∀ i, (jobs i).zero = false →
      0 < (jobs i).bufLen ∧ (jobs i).bufLen % env.bs = 0 ∧ R.Inv (jobs i).src)
    (hz : ZeroesInside env g jobs)
    (hsep : SeparateBlocks env.bs jobs)
    (c : Config ι File.State (Bytes × Bytes)) (h : Steps fileMachine (start (fileP env) S g loc jobs) c)
    (i : ι) (he : Ended c i (.ok ())) :
    (wantedBytes R (jobs i)).length = (jobs i).size ∧
    ∀ x, InRange (jobs i).offset (jobs i).size x →
      byteAt c.mem.1 x = byteAt (wantedBytes R (jobs i)) (x - (jobs i).offset) := by
  rcases hz.cases with ⟨h1, h2⟩ | hz
  · exact ((dense_effect hb h1 h2 R hbuf hsep h).1 i _ he).1 rfl
  obtain ⟨hcap, hr⟩ := file_ready hb False hblk hbuf hz hsep (fun h => h.elim)
  exact (jobs_effect (file_runs env) (file_confines env hb _ _ hcap _) (fun _ => rfl) R hr h).1 i he

/-- C46: a byte that no request uses keeps its value, once the request that uses other bytes of
its block (if there is one) ended, in any way. -/
theorem C46_file_untouched [DecidableEq ι] (env : File.Env) (hb : 0 < env.bs) (R : LawfulSource S) (g : Bytes × Bytes)
    (loc : ι → File.State) (jobs : ι → Job τ) (hblk : env.isBlock = true → g.1.length % env.bs = 0)
    (hbuf : ∀ i, (jobs i).zero = false →
      0 < (jobs i).bufLen ∧ (jobs i).bufLen % env.bs = 0 ∧ R.Inv (jobs i).src)
    (hz : ZeroesInside env g jobs)
    (hsep : SeparateBlocks env.bs jobs)
    (c : Config ι File.State (Bytes × Bytes)) (h : Steps fileMachine (start (fileP env) S g loc jobs) c)
    (x : Nat) (hx : ∀ i, ¬ InRange (jobs i).offset (jobs i).size x)
    (he : ∀ i y, InRange (jobs i).offset (jobs i).size y → x / env.bs = y / env.bs → ∃ r, Ended c i r) :
    byteAt c.mem.1 x = byteAt g.1 x := by
  rcases hz.cases with ⟨h1, h2⟩ | hz
  · obtain ⟨d1, d2⟩ := dense_effect hb h1 h2 R hbuf hsep h
    by_cases hn : ∃ i, Near env.bs (jobs i).offset (jobs i).size x
    · obtain ⟨i, y, hy, hxy⟩ := hn
      obtain ⟨r, hr⟩ := he i y hy hxy
      exact (d1 i r hr).2.1 x ⟨y, hy, hxy⟩ (hx i)
    · exact d2 x fun i hi => hn ⟨i, hi⟩
  obtain ⟨hcap, hr⟩ := file_ready hb False hblk hbuf hz hsep (fun h => h.elim)
  exact (jobs_effect (file_runs env) (file_confines env hb _ _ hcap _) (fun _ => rfl) R hr h).2.1 x hx
    fun i hn => by
      obtain ⟨y, hy, hxy⟩ := hn
      exact he i y hy hxy

/-- C46: the other connections do not make a request fail: it ends as the operation of `ops.py`
ends when it is alone.  Zeroing of a regular file has to be inside the file as it was before: what it calls after the end depends on
the size. -/
theorem C46_file_result [DecidableEq ι] (env : File.Env) (hb : 0 < env.bs) (R : LawfulSource S) (g : Bytes × Bytes)
    (loc : ι → File.State) (jobs : ι → Job τ) (hblk : env.isBlock = true → g.1.length % env.bs = 0)
    (hbuf : ∀ i, (jobs i).zero = false →
      0 < (jobs i).bufLen ∧ (jobs i).bufLen % env.bs = 0 ∧ R.Inv (jobs i).src)
    (hz : ∀ i, (jobs i).zero = true → env.isBlock = true ∨ (jobs i).offset + (jobs i).size ≤ g.1.length)
    (hsep : SeparateBlocks env.bs jobs)
    (c : Config ι File.State (Bytes × Bytes)) (h : Steps fileMachine (start (fileP env) S g loc jobs) c)
    (i : ι) (r : Except Err Unit) (he : Ended c i r) :
    r = (if (jobs i).zero then
        (Ops.zeroRun (File.backend env) (jobs i).cancel (jobs i).size (jobs i).offset (jobs i).flush
          { loc i with data := g.1, disk := g.2 }).1
      else
        (Ops.writeRun (File.backend env) S (jobs i).cancel (jobs i).bufLen (jobs i).size (jobs i).offset
          (jobs i).flush { loc i with data := g.1, disk := g.2 } (jobs i).src).1) := by
  obtain ⟨hcap, hr⟩ := file_ready hb False hblk hbuf hz hsep (fun h => h.elim)
  rw [← (jobs_effect (file_runs env) (file_confines env hb _ _ hcap _) (fun _ => rfl) R hr h).2.2 i r he]
  unfold Job.prog
  split
  · rw [run_zeroRunP (file_runs env)]; rfl
  · rw [run_writeRunP (file_runs env)]; rfl

/-- C46: without storage faults, canceling and missing data every request that ended succeeded. -/
theorem C46_file_succeeds [DecidableEq ι] (env : File.Env) (hb : 0 < env.bs) (R : LawfulSource S) (g : Bytes × Bytes)
    (loc : ι → File.State) (jobs : ι → Job τ) (hblk : env.isBlock = true → g.1.length % env.bs = 0)
    (hbuf : ∀ i, (jobs i).zero = false →
      0 < (jobs i).bufLen ∧ (jobs i).bufLen % env.bs = 0 ∧ R.Inv (jobs i).src)
    (hz : ZeroesInside env g jobs)
    (hsep : SeparateBlocks env.bs jobs)
    (hfault : ∀ i, (loc i).faults = []) (hcancel : ∀ i n, (jobs i).cancel n = false)
    (hsrc : ∀ i, (jobs i).zero = false → ¬ R.mayFail ∧ (jobs i).size ≤ (R.rest (jobs i).src).length)
    (hin : env.isBlock = true → ∀ i, (jobs i).offset + (jobs i).size ≤ g.1.length)
    (c : Config ι File.State (Bytes × Bytes)) (h : Steps fileMachine (start (fileP env) S g loc jobs) c)
    (i : ι) (r : Except Err Unit) (he : Ended c i r) : r = .ok () := by
  rcases hz.cases with ⟨h1, h2⟩ | hz
  · exact ((dense_effect hb h1 h2 R hbuf hsep h).1 i _ he).2.2 (hfault i) (hsrc i) (hcancel i)
  obtain ⟨hcap, hr⟩ := file_ready hb True hblk hbuf hz hsep (fun _ => hfault)
  have ha := (jobs_effect (file_runs env) (file_confines env hb _ _ hcap _) (fun _ => rfl) R hr h).2.2 i r he
  have := (job_alone (L := atLeast (File.lawful env hb True _ hcap) g.1.length) (file_runs env) R (jobs i) (hr.buffer i) _ (hr.inv i) _ _ rfl).2.2
    ?_ (hsrc i) (hcancel i)
  · rw [← ha, this]
  · rintro ⟨k, hk, hm⟩
    rcases hm with hm | ⟨hb', hm⟩
    · exact hm trivial
    · rw [if_pos hb'] at hm
      have h1 := hin hb' i
      have h2 : ((jobs i).offset + (jobs i).size + env.bs - 1) / env.bs * env.bs ≤ g.1.length := by
        obtain ⟨q, hq⟩ := Nat.dvd_of_mod_eq_zero (hblk hb')
        rw [hq, Nat.mul_comm env.bs q]
        apply Nat.mul_le_mul_right
        rw [Nat.div_le_iff_le_mul_add_pred hb]
        rw [Nat.mul_comm]
        rw [hq, Nat.mul_comm] at h1
        omega
      exact absurd hm (by have : k ≤ _ := hk; simp only [File.backend] at this; omega)

/-! ## C46: NBD

Clones of an NBD backend have their own connections to one server. -/

theorem nbd_ready {bs : Nat} (hb : 0 < bs) {R : LawfulSource S} {g : Bytes × Bytes}
    {loc : ι → NbdBackend.State} {jobs : ι → Job τ} (hbs : ∀ i, (loc i).bs = bs) (hfl : ∀ i, (loc i).canFlush = true)
    (hbuf : ∀ i, (jobs i).zero = false → 0 < (jobs i).bufLen ∧ (jobs i).bufLen % bs = 0 ∧ R.Inv (jobs i).src)
    (hsep : SeparateBlocks bs jobs) :
    Ready (NbdBackend.lawful bs hb False g.1.length (fun h => h.elim)) R nbdMachine (fun _ => True) g loc jobs :=
  ⟨fun i => ⟨hbs i, hfl i, rfl, fun h => h.elim⟩, hbuf, fun _ _ => trivial, hsep⟩

/-- C46: uploads and zeroing through NBD, in any interleaving of the requests to the server.  (The
export has block size 1 with the options the server uses, so the ranges have to be disjoint, not the
blocks.) -/
theorem C46_nbd_stored [DecidableEq ι] (bs : Nat) (hb : 0 < bs) (R : LawfulSource S) (g : Bytes × Bytes)
    (loc : ι → NbdBackend.State) (jobs : ι → Job τ) (hbs : ∀ i, (loc i).bs = bs) (hfl : ∀ i, (loc i).canFlush = true)
    (hbuf : ∀ i, (jobs i).zero = false → 0 < (jobs i).bufLen ∧ (jobs i).bufLen % bs = 0 ∧ R.Inv (jobs i).src)
    (hsep : SeparateBlocks bs jobs)
    (c : Config ι NbdBackend.State (Bytes × Bytes)) (h : Steps nbdMachine (start (nbdP bs) S g loc jobs) c) :
    (∀ i, Ended c i (.ok ()) → (wantedBytes R (jobs i)).length = (jobs i).size ∧
      ∀ x, InRange (jobs i).offset (jobs i).size x →
        byteAt c.mem.1 x = byteAt (wantedBytes R (jobs i)) (x - (jobs i).offset)) ∧
    (∀ x, (∀ i, ¬ InRange (jobs i).offset (jobs i).size x) →
      (∀ i y, InRange (jobs i).offset (jobs i).size y → x / bs = y / bs → ∃ r, Ended c i r) →
      byteAt c.mem.1 x = byteAt g.1 x) := by
  have hr := nbd_ready hb hbs hfl hbuf hsep (g := g)
  have he := jobs_effect (nbd_runs bs) (nbd_confines bs hb False _ (fun h => h.elim)) (fun _ => rfl) R hr h
  refine ⟨he.1, fun x hx hn => he.2.1 x hx fun i hi => ?_⟩
  obtain ⟨y, hy, hxy⟩ := hi
  exact hn i y hy hxy

/-- C46: a request never waits for another one: from any configuration it can end while all the
others stand still. -/
theorem C46_no_waiting [DecidableEq ι] (M : Machine σ Γ) (c : Config ι σ Γ) (i : ι) :
    ∃ c' r, Steps M c c' ∧ Ended c' i r ∧ ∀ j, j ≠ i → c'.prog j = c.prog j :=
  can_end M i _ c rfl

/-! ## Examples -/

/-- The thread ended without an exception. -/
def succeeded (p : Prog σ Unit) : Bool :=
  match p with
  | .ret (.ok ()) => true
  | _ => false

theorem Ended.of {c : Config ι σ Γ} {i : ι} (h : succeeded (c.prog i) = true) : Ended c i (.ok ()) := by
  unfold Ended
  unfold succeeded at h
  split at h
  · assumption
  · cases h

/-- A body that arrives at once. -/
def wholeBody : Source Bytes := ⟨fun t n => (.ok (t.take n), t.drop n)⟩

def wholeBodyLaw : LawfulSource wholeBody where
  Inv _ := True
  rest t := t
  mayFail := False
  readinto := by
    intro t n d t' _ h
    simp only [wholeBody, Prod.mk.injEq, Except.ok.injEq] at h
    obtain ⟨rfl, rfl⟩ := h
    refine ⟨by rw [List.length_take]; omega, (List.take_append_drop n t).symm, fun hn hd => ?_, trivial⟩
    have := congrArg List.length hd
    rw [List.length_take, List.length_nil] at this
    exact List.length_eq_zero_iff.mp (by omega)
  readinto_err := by intro t n e t' _ h; simp [wholeBody] at h

def putJob (offset : Nat) (d : Bytes) : Job Bytes := ⟨false, offset, d.length, true, fun _ => false, 4, d⟩
def zeroJob (offset size : Nat) : Job Bytes := ⟨true, offset, size, true, fun _ => false, 4, []⟩

/-- An open backend, at position 0. -/
def opened : File.State := ⟨[], [], 0, true, true, true, [], [], []⟩

/-- A block device with blocks of 4 bytes. -/
def dev : File.Env := ⟨true, 4, false⟩

def twoJobs : Bool → Job Bytes
  | true => putJob 1 [1, 2, 3, 4, 5]
  | false => zeroJob 9 2

/-- The upload uses blocks 0 and 1, the zeroing block 2. -/
theorem twoJobs_separate : SeparateBlocks 4 twoJobs := by
  intro i j x y hx hy h
  cases i <;> cases j <;> simp only [twoJobs, putJob, zeroJob, InRange, List.length_cons, List.length_nil] at hx hy <;>
    first | rfl | omega

def twoStart : Config Bool File.State (Bytes × Bytes) :=
  start (fileP dev) wholeBody (List.replicate 12 7, []) (fun _ => opened) twoJobs

/-- The system calls of the two requests, alternating. -/
def twoEnd : Config Bool File.State (Bytes × Bytes) :=
  exec fileMachine twoStart ((List.replicate 20 [true, false]).flatten)

theorem twoEnd_reached : Steps fileMachine twoStart twoEnd := steps_exec _ _ _ _ (.refl _)

/-- The hypotheses of `C46_file_stored` hold for the two requests, both ended, and the device has
the bytes of both. -/
example : Ended twoEnd true (.ok ()) ∧ Ended twoEnd false (.ok ()) ∧
    twoEnd.mem.1 = [7, 1, 2, 3, 4, 5, 7, 7, 7, 0, 0, 7] := ⟨.of (by decide +kernel), .of (by decide +kernel), by decide +kernel⟩

example : byteAt twoEnd.mem.1 5 = 5 := by
  have := (C46_file_stored dev (by decide) wholeBodyLaw _ _ twoJobs (by decide) (by
    intro i hi; cases i
    · cases hi
    · exact ⟨by decide, by decide, trivial⟩) (by intro _ _ h; cases h) twoJobs_separate twoEnd twoEnd_reached true
    (.of (by decide +kernel))).2
    5 (by simp [twoJobs, putJob, InRange])
  rw [this]; decide

/-- Two uploads through NBD to disjoint ranges of the same 4 bytes: both keep their data. -/
def nbdOpened : NbdBackend.State := ⟨.rw, 1, [], [], 0, true, true, []⟩

def nbdJobs : Bool → Job Bytes
  | true => putJob 0 [1, 1]
  | false => putJob 2 [2, 2]

def nbdEnd : Config Bool NbdBackend.State (Bytes × Bytes) :=
  exec nbdMachine (start (nbdP 1) wholeBody (List.replicate 4 7, []) (fun _ => nbdOpened) nbdJobs)
    ((List.replicate 20 [true, false]).flatten)

example : nbdEnd.mem.1 = [1, 1, 2, 2] ∧ SeparateBlocks 1 nbdJobs := by
  refine ⟨by decide +kernel, ?_⟩
  intro i j x y hx hy h
  cases i <;> cases j <;> simp only [nbdJobs, putJob, InRange, List.length_cons, List.length_nil] at hx hy <;>
    first | rfl | omega

/-- A regular file with blocks of 4 bytes. -/
def regular (sparse : Bool) : File.Env := ⟨false, 4, sparse⟩

/-- Zeroing inside the file, and an upload that makes the file larger. -/
def growJobs : Bool → Job Bytes
  | true => zeroJob 3 5
  | false => putJob 8 [1, 2, 3, 4, 5, 6]

theorem growJobs_separate : SeparateBlocks 4 growJobs := by
  intro i j x y hx hy h
  cases i <;> cases j <;> simp only [growJobs, putJob, zeroJob, InRange, List.length_cons, List.length_nil] at hx hy <;>
    first | rfl | omega

def growStart (sparse : Bool) : Config Bool File.State (Bytes × Bytes) :=
  start (fileP (regular sparse)) wholeBody (List.replicate 9 7, []) (fun _ => opened) growJobs

def growEnd (sparse : Bool) : Config Bool File.State (Bytes × Bytes) :=
  exec fileMachine (growStart sparse) ((List.replicate 20 [true, false]).flatten)

/-- The hypotheses of `C46_file_stored` hold for zeroing a regular file, sparse or not. -/
example (sparse : Bool) : ∀ x, InRange 3 5 x → byteAt (growEnd sparse).mem.1 x = 0 := by
  intro x hx
  have := (C46_file_stored (regular sparse) (by simp [regular]) wholeBodyLaw _ _ growJobs (by simp [regular]) (by
    intro i hi; cases i
    · exact ⟨by decide, by simp [regular, growJobs, putJob], trivial⟩
    · cases hi) (by
    intro i hi; cases i
    · cases hi
    · exact fun _ _ => by decide) growJobs_separate (growEnd sparse) (steps_exec _ _ _ _ (.refl _)) true
    (.of (by cases sparse <;> decide +kernel))).2 x hx
  rw [this]
  obtain ⟨h1, h2⟩ := hx
  have e : x = 3 ∨ x = 4 ∨ x = 5 ∨ x = 6 ∨ x = 7 := by omega
  rcases e with rfl | rfl | rfl | rfl | rfl <;> decide

example (sparse : Bool) : (growEnd sparse).mem.1 = [7, 7, 7, 0, 0, 0, 0, 0, 1, 2, 3, 4, 5, 6, 0, 0] := by
  cases sparse <;> decide +kernel

/-! ## Where it fails -/

def lostJobs : Bool → Job Bytes
  | true => putJob 0 [1, 1]
  | false => putJob 2 [2, 2]

def lostStart : Config Bool File.State (Bytes × Bytes) :=
  start (fileP dev) wholeBody (List.replicate 4 7, []) (fun _ => opened) lostJobs

/-- C46, the limit: two uploads to disjoint ranges of one block.  Both read the block before one
of them writes it; both succeed, and the data of the first is gone. -/
theorem C46_counterexample_shared_block :
    (∀ x, ¬ (InRange (lostJobs true).offset (lostJobs true).size x ∧
      InRange (lostJobs false).offset (lostJobs false).size x)) ∧
    ∃ c, Steps fileMachine lostStart c ∧ Ended c true (.ok ()) ∧ Ended c false (.ok ()) ∧
      c.mem.1 = [7, 7, 2, 2] := by
  refine ⟨fun x => by simp only [lostJobs, putJob, InRange, List.length_cons, List.length_nil]; omega,
    exec fileMachine lostStart (List.replicate 4 true ++ List.replicate 4 false ++ List.replicate 20 true ++
      List.replicate 20 false), steps_exec _ _ _ _ (.refl _), .of (by decide +kernel), .of (by decide +kernel), by decide +kernel⟩

/-- A regular sparse file with blocks of 4 bytes. -/
def sparseFile : File.Env := ⟨false, 4, true⟩

def cutJobs : Bool → Job Bytes
  | true => zeroJob 0 4
  | false => putJob 4 [1, 2, 3, 4]

def cutStart : Config Bool File.State (Bytes × Bytes) :=
  start (fileP sparseFile) wholeBody ([], []) (fun _ => opened) cutJobs

/-- C46, the limit: zeroing after the end of a sparse regular file with more than one connection.  The zeroing reads the
size of the file, the upload grows the file, and then the zeroing cuts the file to the size it
computed: both succeed, and the uploaded block is gone.  `max_writers` of the backend is 1, but the
server only reports it in OPTIONS, and does not refuse a second writer. -/
theorem C46_counterexample_truncate :
    SeparateBlocks 4 cutJobs ∧
    ∃ c, Steps fileMachine cutStart c ∧ Ended c true (.ok ()) ∧ Ended c false (.ok ()) ∧
      c.mem.1 = [0, 0, 0, 0] := by
  refine ⟨?_, exec fileMachine cutStart (List.replicate 5 true ++ List.replicate 20 false ++ List.replicate 20 true),
    steps_exec _ _ _ _ (.refl _), .of (by decide +kernel), .of (by decide +kernel), by decide +kernel⟩
  intro i j x y hx hy h
  cases i <;> cases j <;> simp only [cutJobs, putJob, zeroJob, InRange, List.length_cons, List.length_nil] at hx hy <;>
    first | rfl | omega

/-- An open backend of a file system that can only allocate. -/
def allocates : File.State := ⟨[], [], 0, false, false, true, [], [], []⟩

/-- The same requests to a file that is not sparse: the zeroing sees an empty file, the upload makes it larger, and the zeroing allocates
its block. -/
def tailStart : Config Bool File.State (Bytes × Bytes) :=
  start (fileP (regular false)) wholeBody ([], []) (fun _ => allocates) cutJobs

def tailEnd : Config Bool File.State (Bytes × Bytes) :=
  exec fileMachine tailStart (List.replicate 7 true ++ List.replicate 20 false ++ List.replicate 20 true)

/-- The hypotheses of `C46_file_stored` and `C46_file_succeeds` hold for zeroing after the end of a file. -/
example : ZeroesInside (regular false) ([], []) cutJobs ∧ SeparateBlocks 4 cutJobs ∧ Ended tailEnd true (.ok ()) ∧
    Ended tailEnd false (.ok ()) ∧ tailEnd.mem.1 = [0, 0, 0, 0, 1, 2, 3, 4] := by
  refine ⟨fun _ _ _ h => (by cases h), C46_counterexample_truncate.1, .of (by decide +kernel), .of (by decide +kernel),
    by decide +kernel⟩

end Imageio.Props
