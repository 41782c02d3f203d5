import Verif.Lemmas.ConcurrentFile
/-!
Programs that own some offsets of the storage: the other threads may change everything else, also the size of a regular file, between
any two steps.  Used for zeroing after the end of a file, where what a thread does depends on the size.
-/
namespace Imageio.Conc
open Prog Imageio.Spec Imageio.File
open Imageio.Memory hiding State readinto write zero flush seek backend lawful

variable {σ Γ α β ι : Type} {M : Machine σ Γ}

/-! ### Programs -/

/-- A program that changes only the offsets `R`, and ends with `Q`, while before every step and at the end other threads change anything
but these offsets. -/
def Space.Owned (S : Space M) (R : Nat → Prop) (Q : Except Err α → σ → Prop) : Prog σ α → σ → Prop
  | .ret r, s => ∀ g, S.Agree R (M.shared s) g → Q r (M.view s g)
  | .step f k, s => ∀ g, S.Agree R (M.shared s) g →
      (∀ i, ¬ R i → S.content (M.shared (f (M.view s g))) i = S.content g i) ∧
      S.sized g (M.shared (f (M.view s g))) ∧ Space.Owned S R Q (k (M.view s g)) (f (M.view s g))

theorem Space.Agree.trans {S : Space M} {R : Nat → Prop} {a b c : Γ} (h1 : S.Agree R a b) (h2 : S.Agree R b c) : S.Agree R a c :=
  ⟨fun i hi => (h2.content i hi).trans (h1.content i hi), S.sized_trans _ _ _ h1.sized h2.sized⟩

/-- The other threads do not matter. -/
theorem Space.Owned.view {S : Space M} {R : Nat → Prop} {Q : Except Err α → σ → Prop} {p : Prog σ α} {s : σ} {g : Γ}
    (h : S.Owned R Q p s) (hg : S.Agree R (M.shared s) g) : S.Owned R Q p (M.view s g) := by
  cases p with
  | ret r =>
    intro g' hg'
    rw [S.shared_view] at hg'
    rw [S.view_view]
    exact h g' (hg.trans hg')
  | step f k =>
    intro g' hg'
    rw [S.shared_view] at hg'
    rw [S.view_view]
    exact h g' (hg.trans hg')

theorem Space.Owned.bind {S : Space M} {R : Nat → Prop} {Q : Except Err β → σ → Prop} {k : α → Prog σ β} :
    ∀ {p : Prog σ α} {s : σ},
      S.Owned R (fun r s => match r with | .ok a => S.Owned R Q (k a) s | .error e => Q (.error e) s) p s →
      S.Owned R Q (Prog.bind p k) s
  | .ret (.ok a), s, h => by
    have := h (M.shared s) (Space.Agree.refl S R _)
    rw [S.view_shared] at this
    exact this
  | .ret (.error _), _, h => h
  | .step _ _, _, h => fun g hg => ⟨(h g hg).1, (h g hg).2.1, Space.Owned.bind (h g hg).2.2⟩

theorem Space.Owned.post {S : Space M} {R : Nat → Prop} {Q Q' : Except Err α → σ → Prop} (hq : ∀ r s, Q r s → Q' r s) :
    ∀ {p : Prog σ α} {s : σ}, S.Owned R Q p s → S.Owned R Q' p s
  | .ret _, _, h => fun g hg => hq _ _ (h g hg)
  | .step _ _, _, h => fun g hg => ⟨(h g hg).1, (h g hg).2.1, Space.Owned.post hq (h g hg).2.2⟩

theorem confined_owned {S : Space M} {R : Nat → Prop} {Q : Except Err α → σ → Prop} :
    ∀ (p : Prog σ α) (s : σ) (g : Γ), S.Confined R p s → S.Agree R (M.shared s) g →
      (∀ g', S.Agree R (M.shared (run p s).2) g' → Q (run p s).1 (M.view (run p s).2 g')) → S.Owned R Q p (M.view s g)
  | .ret r, s, g, _, hg, hq => by
    intro g' hg'
    rw [S.shared_view] at hg'
    rw [S.view_view]
    exact hq g' (hg.trans hg')
  | .step f k, s, g, hc, hg, hq => by
    intro g' hg'
    rw [S.shared_view] at hg'
    rw [S.view_view]
    obtain ⟨x1, x2, x3, x4, x5, x6⟩ := hc.1 g' (hg.trans hg')
    refine ⟨x4, x6, ?_⟩
    rw [x1, ← x2]
    exact confined_owned (k s) (f s) _ hc.2 ⟨x3, x5⟩ hq

/-- A program that uses only its offsets owns them, and ends as it ends alone. -/
theorem Space.Confined.owned {S : Space M} {R : Nat → Prop} {Q : Except Err α → σ → Prop} {p : Prog σ α} {s : σ}
    (hc : S.Confined R p s) (hq : ∀ r s', run p s = (r, s') → ∀ g, S.Agree R (M.shared s') g → Q r (M.view s' g)) :
    S.Owned R Q p s := by
  have := confined_owned (Q := Q) p s (M.shared s) hc (Space.Agree.refl S R _) (hq _ _ rfl)
  rwa [S.view_shared] at this

/-- Threads that own different offsets: every thread ends with what it promised. -/
theorem Space.owned_steps [DecidableEq ι] (S : Space M) (R : ι → Nat → Prop) (hR : ∀ i j x, R i x → R j x → i = j)
    (Q : ι → Except Err Unit → σ → Prop) (c0 : Config ι σ Γ)
    (hc : ∀ i, S.Owned (R i) (Q i) (c0.prog i) (M.view (c0.loc i) c0.mem)) {c : Config ι σ Γ} (h : Steps M c0 c) :
    (∀ i, S.Owned (R i) (Q i) (c.prog i) (M.view (c.loc i) c.mem)) ∧
    (∀ x, (∀ i, ¬ R i x) → S.content c.mem x = S.content c0.mem x) := by
  induction h with
  | refl => exact ⟨hc, fun _ _ => rfl⟩
  | @tail b _ _ hs ih =>
    obtain ⟨I, O⟩ := ih
    cases hs with
    | mk i f k hp =>
    have hi := I i
    rw [hp] at hi
    obtain ⟨x1, x2, x3⟩ := hi b.mem (by rw [S.shared_view]; exact Space.Agree.refl S _ _)
    simp only [S.view_view] at x1 x2 x3
    refine ⟨fun j => ?_, fun x hx => by simp only; rw [x1 x (hx i)]; exact O x hx⟩
    by_cases hj : j = i
    · subst hj
      simp only [if_true]
      rw [S.view_shared]
      exact x3
    · simp only [hj, if_false]
      have := (I j).view (g := M.shared (f (M.view (b.loc i) b.mem))) (by
        rw [S.shared_view]
        exact ⟨fun x hx => x1 x fun hi => hj (hR _ _ _ hx hi), x2⟩)
      rwa [S.view_view] at this

/-! ### Zeroing a regular file -/

/-- What a thread that zeroes at most `c` bytes at `off` achieves, starting with `s`, on its offsets. -/
def ZOwn (R : Nat → Prop) (s : State) (off c : Nat) (r : Except Err Nat) (s' : State) : Prop :=
  match r with
  | .ok n => 0 < n ∧ n ≤ c ∧ s'.pos = off + n ∧ (∀ i, R i → byteAt s'.data i = store (byteAt s.data) off (zeros n) i) ∧
      (s.faults = [] → s'.faults = [])
  | .error e => External e ∧ s.faults ≠ [] ∧ ∀ i, R i → ¬ InRange off c i → byteAt s'.data i = byteAt s.data i

/-- Between two calls of zeroing: only the bytes to be zeroed may have changed. -/
structure Between (R : Nat → Prop) (s s1 : State) (off count : Nat) : Prop where
  pos : s1.pos = off
  outside : ∀ i, R i → ¬ InRange off count i → byteAt s1.data i = byteAt s.data i
  faults : s.faults = [] → s1.faults = []

theorem Between.same {R : Nat → Prop} {s s1 s2 : State} {off count : Nat} (h : Between R s s1 off count) (hs : Same s1 s2)
    (hp : s2.pos = s1.pos) : Between R s s2 off count :=
  ⟨hp.trans h.pos, fun i hi ho => by rw [hs.data]; exact h.outside i hi ho, fun hf => hs.faults (h.faults hf)⟩

theorem Between.view {env : Env} {cap : Nat} {R : Nat → Prop} {s s1 : State} {off count : Nat} {g : Bytes × Bytes}
    (h : Between R s s1 off count) (hg : (fileSpace env cap).Agree R (fileMachine.shared s1) g) :
    Between R s (fileMachine.view s1 g) off count :=
  ⟨h.pos, fun i hi ho => (hg.content i hi).trans (h.outside i hi ho), h.faults⟩

theorem Between.zown {env : Env} {cap : Nat} (hreg : env.isBlock = false) {R : Nat → Prop} {s s1 s2 : State} {off count : Nat}
    {r : Except Err Nat} {g : Bytes × Bytes} (h : Between R s s1 off count) (hc : 0 < count) (hz : ZPost env s1 s2 count r)
    (hg : (fileSpace env cap).Agree R (fileMachine.shared s2) g) : ZOwn R s off count r (fileMachine.view s2 g) := by
  cases r with
  | ok n =>
    obtain ⟨rfl, z⟩ := hz
    refine ⟨hc, Nat.le_refl _, ?_, fun i hi => ?_, fun hf => z.faults (h.faults hf)⟩
    · show s2.pos = _
      rw [z.pos, h.pos, Ops.zeros_length]
    · refine (hg.content i hi).trans ?_
      show byteAt s2.data i = _
      rw [z.content, h.pos]
      simp only [store, Ops.zeros_length]
      split
      · rfl
      · exact h.outside i hi ‹_›
  | error e =>
    refine ⟨hz.ext, fun hf => ?_, fun i hi ho => ?_⟩
    · rcases hz.cause with h' | h'
      · exact h' (h.faults hf)
      · rw [hreg] at h'; cases h'.1
    · refine (hg.content i hi).trans ?_
      show byteAt s2.data i = _
      rw [hz.outside i (by rw [h.pos]; exact ho)]
      exact h.outside i hi ho

theorem owned_writeZerosP {env : Env} (hb : 0 < env.bs) (hreg : env.isBlock = false) {R : Nat → Prop} {s s1 : State}
    {off count : Nat} (hc : 0 < count) (hR : ∀ i, Near env.bs off count i → R i) (h : Between R s s1 off count) :
    (fileSpace env 0).Owned R (ZOwn R s off count) (writeZerosP env count) s1 := by
  refine Space.Confined.owned ((confined_writeZerosP hb hreg h.pos hc (Nat.zero_le _)).mono hR) fun r s2 hr g hg => ?_
  rw [run_writeZerosP] at hr
  exact h.zown hreg hc (zero_manual hb hreg hc (Mid.refl s1 count) hr) hg

/-- The end of zeroing when the bytes are zero. -/
theorem owned_zeroedP {env : Env} {R : Nat → Prop} {s s1 : State} {off count : Nat} (hc : 0 < count)
    (h : ∀ i, R i → byteAt s1.data i = store (byteAt s.data) off (zeros count) i) (hf : s.faults = [] → s1.faults = []) :
    (fileSpace env 0).Owned R (ZOwn R s off count) (zeroedP off count) s1 := by
  refine Space.Confined.owned confined_zeroedP fun r s2 hr g hg => ?_
  rw [run_zeroedP] at hr
  cases hr
  exact ⟨hc, Nat.le_refl _, rfl, fun i hi => (hg.content i hi).trans (h i hi), hf⟩

theorem owned_asks {S : Space M} {R : Nat → Prop} {Q : Except Err β → σ → Prop} {f : σ → α} {k : α → Prog σ β} {s : σ}
    (hf : ∀ g, f (M.view s g) = f s) (h : S.Owned R Q (k (f s)) s) : S.Owned R Q (Prog.bind (asks f) k) s := by
  intro g hg
  refine ⟨fun _ _ => by rw [S.shared_view], by rw [S.shared_view]; exact S.sized_refl g, ?_⟩
  show S.Owned R Q (k (f (M.view s g))) (M.view s g)
  rw [hf g]
  exact h.view hg

theorem owned_set {S : Space M} {R : Nat → Prop} {Q : Except Err β → σ → Prop} {f : σ → σ} {k : Prog σ β} {s : σ}
    (hv : ∀ g, f (M.view s g) = M.view (f s) g) (hsh : M.shared (f s) = M.shared s) (h : S.Owned R Q k (f s)) :
    S.Owned R Q (Prog.bind (call fun s => (.ok (), f s)) fun _ => k) s := by
  intro g hg
  simp only [hv g]
  refine ⟨fun _ _ => by rw [S.shared_view], by rw [S.shared_view]; exact S.sized_refl g, ?_⟩
  exact h.view (by rw [hsh]; exact hg)

theorem owned_size {env : Env} {R : Nat → Prop} {Q : Except Err α → State → Prop} {k : Nat → Prog State α} {s : State}
    (h : ∀ g, (fileSpace env 0).Agree R (fileMachine.shared s) g →
      (fileSpace env 0).Owned R Q (k g.1.length) (fileMachine.view s g)) :
    (fileSpace env 0).Owned R Q (Prog.bind (call fun s : State => (.ok s.data.length, s)) k) s :=
  fun g hg => ⟨fun _ _ => rfl, (fileSpace env 0).sized_refl g, h g hg⟩

theorem owned_fallocate {env : Env} (hreg : env.isBlock = false) {mode : FallocMode} {R : Nat → Prop} {s s1 : State} {off count : Nat}
    {k : Bool → Prog State Nat} (hR : ∀ i, InRange off count i → R i) (h : Between R s s1 off count)
    (hk : ∀ v b s2, Between R s v off count → (∀ i, R i → byteAt v.data i = byteAt s1.data i) →
      fallocate mode off count v = (.ok b, s2) → (fileSpace env 0).Owned R (ZOwn R s off count) (k b) s2) :
    (fileSpace env 0).Owned R (ZOwn R s off count) (Prog.bind (call (fallocate mode off count)) k) s1 := by
  intro g hg
  have hv := h.view hg
  have hvi : ∀ i, R i → byteAt (fileMachine.view s1 g).data i = byteAt s1.data i := hg.content
  have hout : ∀ r s2, fallocate mode off count (fileMachine.view s1 g) = (r, s2) → ∀ i, ¬ R i →
      byteAt s2.data i = byteAt g.1 i := by
    intro r s2 hr i hi
    cases r with
    | error e => rw [(fallocate_err hr).1.data]; rfl
    | ok b =>
      cases b with
      | false => rw [(fallocate_false hr).2.data]; rfl
      | true =>
        have ht := (fallocate_true hr).2.2
        have hn : ∀ f : Nat → Byte, store f off (zeros count) i = f i := by
          intro f
          simp only [store, Ops.zeros_length]
          exact if_neg fun hx => hi (hR i hx)
        cases mode with
        | zeroRange => rw [ht.1, hn]; rfl
        | punchHole => rw [ht.1, hn]; rfl
        | allocate => rw [ht.1]; rfl
  generalize hx : fallocate mode off count (fileMachine.view s1 g) = x at *
  obtain ⟨r, s2⟩ := x
  simp only [hx]
  refine ⟨hout r s2 rfl, ⟨fun hb => (by rw [hreg] at hb; cases hb), fun _ => Nat.zero_le _⟩, ?_⟩
  cases r with
  | ok b => exact hk _ b s2 hv hvi hx
  | error e =>
    obtain ⟨e1, e2, e3⟩ := fallocate_err hx
    intro g' hg'
    refine ⟨e2, fun hf => e3 (hv.faults hf), fun i hi ho => ?_⟩
    refine (hg'.content i hi).trans ?_
    show byteAt s2.data i = _
    rw [e1.data]
    exact hv.outside i hi ho

theorem owned_zeroTailP {env : Env} (hb : 0 < env.bs) (hreg : env.isBlock = false) {R : Nat → Prop} {s s1 : State}
    {off count : Nat} (hc : 0 < count) (hR : ∀ i, Near env.bs off count i → R i) (h : Between R s s1 off count) :
    (fileSpace env 0).Owned R (ZOwn R s off count) (zeroTailP env off count) s1 := by
  unfold zeroTailP
  refine owned_asks (fun _ => rfl) ?_
  split
  · refine owned_size fun g hg => ?_
    have hv := h.view hg
    split
    · rename_i hle
      refine owned_fallocate hreg (fun i hi => hR i ⟨i, hi, rfl⟩) hv fun v b s2 hv' he hr => ?_
      cases b with
      | false =>
        obtain ⟨p, sm⟩ := fallocate_false hr
        exact owned_set (fun _ => rfl) rfl (owned_writeZerosP hb hreg hc hR (hv'.same ⟨sm.data, sm.disk, sm.faults⟩ p))
      | true =>
        obtain ⟨p, f, ht, _⟩ := fallocate_true hr
        refine owned_zeroedP hc (fun i hi => ?_) fun hf => f (hv'.faults hf)
        rw [ht]
        simp only [store, Ops.zeros_length]
        split
        · rename_i hin
          rw [he i hi]
          show byteAt g.1 i = _
          have h1 : g.1.length ≤ i := by omega
          have h2 : i - off < count := by omega
          simp [byteAt, zeros, h1, h2]
        · exact hv'.outside i hi ‹_›
    · exact owned_writeZerosP hb hreg hc hR hv
  · exact owned_writeZerosP hb hreg hc hR h

theorem Between.zeroed {R : Nat → Prop} {s v s2 : State} {off count : Nat} (h : Between R s v off count)
    (hd : byteAt s2.data = store (byteAt v.data) off (zeros count)) :
    ∀ i, R i → byteAt s2.data i = store (byteAt s.data) off (zeros count) i := by
  intro i hi
  rw [hd]
  simp only [store, Ops.zeros_length]
  split
  · rfl
  · exact h.outside i hi ‹_›

theorem owned_zeroPunchP {env : Env} (hb : 0 < env.bs) (hreg : env.isBlock = false) {R : Nat → Prop} {s s1 : State}
    {off count : Nat} (hc : 0 < count) (hR : ∀ i, Near env.bs off count i → R i) (h : Between R s s1 off count) :
    (fileSpace env 0).Owned R (ZOwn R s off count) (zeroPunchP env off count) s1 := by
  have hR' : ∀ i, InRange off count i → R i := fun i hi => hR i ⟨i, hi, rfl⟩
  unfold zeroPunchP
  refine owned_asks (fun _ => rfl) ?_
  split
  · refine owned_fallocate hreg hR' h fun v b s2 hv he hr => ?_
    cases b with
    | false =>
      obtain ⟨p, sm⟩ := fallocate_false hr
      exact owned_set (fun _ => rfl) rfl (owned_zeroTailP hb hreg hc hR (hv.same ⟨sm.data, sm.disk, sm.faults⟩ p))
    | true =>
      obtain ⟨p, f, ht, _⟩ := fallocate_true hr
      have hz := hv.zeroed ht
      have h2 : Between R s s2 off count := by
        refine ⟨p.trans hv.pos, fun i hi ho => ?_, fun hf => f (hv.faults hf)⟩
        rw [hz i hi]
        simp only [store, Ops.zeros_length]
        exact if_neg ho
      refine owned_fallocate hreg hR' h2 fun v' b s3 hv' he' hr' => ?_
      cases b with
      | false =>
        obtain ⟨p, sm⟩ := fallocate_false hr'
        exact owned_set (fun _ => rfl) rfl (owned_zeroTailP hb hreg hc hR (hv'.same ⟨sm.data, sm.disk, sm.faults⟩ p))
      | true =>
        obtain ⟨p, f, ht, _⟩ := fallocate_true hr'
        refine owned_zeroedP hc (fun i hi => ?_) fun hf => f (hv'.faults hf)
        rw [ht, he' i hi]
        exact hz i hi
  · exact owned_zeroTailP hb hreg hc hR h

theorem owned_zeroFileP {env : Env} (hb : 0 < env.bs) (hreg : env.isBlock = false) {R : Nat → Prop} {s : State}
    {count : Nat} (hc : 0 < count) (hR : ∀ i, Near env.bs s.pos count i → R i) :
    (fileSpace env 0).Owned R (ZOwn R s s.pos count) (zeroFileP env count) s := by
  have h : Between R s s s.pos count := ⟨rfl, fun _ _ _ => rfl, id⟩
  unfold zeroFileP
  refine owned_asks (fun _ => rfl) (owned_asks (fun _ => rfl) ?_)
  split
  · refine owned_fallocate hreg (fun i hi => hR i ⟨i, hi, rfl⟩) h fun v b s2 hv he hr => ?_
    cases b with
    | false =>
      obtain ⟨p, sm⟩ := fallocate_false hr
      exact owned_set (fun _ => rfl) rfl (owned_zeroPunchP hb hreg hc hR (hv.same ⟨sm.data, sm.disk, sm.faults⟩ p))
    | true =>
      obtain ⟨p, f, ht, _⟩ := fallocate_true hr
      exact owned_zeroedP hc (hv.zeroed ht) fun hf => f (hv.faults hf)
  · exact owned_zeroPunchP hb hreg hc hR h

theorem owned_fileZeroP {env : Env} (hb : 0 < env.bs) (hreg : env.isBlock = false) (hsp : env.sparse = false) {R : Nat → Prop}
    {s : State} {count : Nat} (hc : 0 < count) (hR : ∀ i, Near env.bs s.pos count i → R i) :
    (fileSpace env 0).Owned R (ZOwn R s s.pos count) (fileZeroP env count) s := by
  have hml := Nat.mod_lt s.pos hb
  unfold fileZeroP
  refine owned_asks (fun _ => rfl) ?_
  split
  · rename_i hu
    refine Space.Confined.owned ((confined_writeUnalignedP hb (zeros_ne_nil (by omega)) s (Nat.zero_le _)).mono fun i h => hR i ?_)
      fun r s2 hr g hg => ?_
    · rw [Ops.zeros_length] at h
      exact h.mono (Nat.le_refl _) (by omega)
    · rw [run_writeUnalignedP] at hr
      have hz : zero env s count = (r, s2) := by unfold zero; rw [if_pos hu]; exact hr
      have := zero_spec hb (by rw [hreg]; simp) hc hz
      cases r with
      | ok n =>
        obtain ⟨n1, n2, z⟩ := this
        refine ⟨n1, n2, ?_, fun i hi => (hg.content i hi).trans (congrFun z.content i), z.faults⟩
        show s2.pos = _
        rw [z.pos, Ops.zeros_length]
      | error e =>
        refine ⟨this.ext, ?_, fun i hi ho => (hg.content i hi).trans (this.outside i ho)⟩
        rcases this.cause with h' | h'
        · exact h'
        · rw [hreg] at h'; cases h'.1
  · rename_i hal
    rw [if_neg (by simp [hreg]), if_neg (by simp [hsp])]
    have hrd : roundDown count env.bs ≤ count := by rw [roundDown]; omega
    have hge : env.bs ≤ count := by simp at hal; omega
    have hpos : 0 < roundDown count env.bs := by
      rw [roundDown]; have := Nat.mod_lt count hb; omega
    refine (owned_zeroFileP hb hreg hpos fun i hi => hR i (hi.mono (Nat.le_refl _) (by omega))).post fun r s' h => ?_
    cases r with
    | ok n => exact ⟨h.1, Nat.le_trans h.2.1 hrd, h.2.2⟩
    | error e => exact ⟨h.1, h.2.1, fun i hi ho => h.2.2 i hi fun hx => ho (hx.mono (Nat.le_refl _) (by omega))⟩

/-! ### Requests that zero -/

/-- What zeroing `size` bytes at `off` achieves. -/
def ZeroOwn (R : Nat → Prop) (cancel : Nat → Bool) (s : State) (off size : Nat) (r : Except Err Unit) (s' : State) : Prop :=
  match r with
  | .ok () => (∀ i, R i → byteAt s'.data i = store (byteAt s.data) off (zeros size) i) ∧ (s.faults = [] → s'.faults = [])
  | .error _ => ((∃ n, cancel n = true) ∨ s.faults ≠ []) ∧ (∀ i, R i → ¬ InRange off size i → byteAt s'.data i = byteAt s.data i) ∧
      (s.faults = [] → s'.faults = [])

theorem owned_zeroStepsP {env : Env} (hb : 0 < env.bs) (hreg : env.isBlock = false) (hsp : env.sparse = false) {R : Nat → Prop}
    {s : State} (cancel : Nat → Bool) (off size : Nat) (hR : ∀ i, Near env.bs off size i → R i) :
    ∀ (fuel done chunks : Nat) (s1 : State), size - done ≤ fuel → done ≤ size → s1.pos = off + done →
      (∀ i, R i → byteAt s1.data i = store (byteAt s.data) off (zeros done) i) → (s.faults = [] → s1.faults = []) →
      (fileSpace env 0).Owned R (ZeroOwn R cancel s off size) (zeroStepsP (fileP env) cancel size fuel done chunks) s1 := by
  have fin : ∀ done s1, size - done = 0 → done ≤ size →
      (∀ i, R i → byteAt s1.data i = store (byteAt s.data) off (zeros done) i) → (s.faults = [] → s1.faults = []) →
      (fileSpace env 0).Owned R (ZeroOwn R cancel s off size) (Prog.pure ()) s1 := by
    intro done s1 h0 hle hd hf g hg
    have : done = size := by omega
    subst this
    exact ⟨fun i hi => (hg.content i hi).trans (hd i hi), hf⟩
  intro fuel
  induction fuel with
  | zero =>
    intro done chunks s1 hfu hle hp hd hf
    unfold zeroStepsP
    rw [if_pos (by omega)]
    exact fin done s1 (by omega) hle hd hf
  | succ fuel ih =>
    intro done chunks s1 hfu hle hp hd hf
    unfold zeroStepsP
    by_cases h0 : size - done = 0
    · rw [if_pos h0]; exact fin done s1 h0 hle hd hf
    · rw [if_neg h0]
      have hms : 0 < Ops.maxStep := by decide
      refine Space.Owned.bind ((owned_fileZeroP hb hreg hsp (s := s1) (R := R) (count := min (size - done) Ops.maxStep) (by omega)
        fun i hi => hR i (hi.mono (by omega) (by omega))).post fun r s2 h => ?_)
      cases r with
      | error e =>
        refine ⟨.inr fun hx => h.2.1 (hf hx), fun i hi ho => ?_, fun hx => absurd (hf hx) h.2.1⟩
        rw [h.2.2 i hi fun hx => ho (hx.mono (by omega) (by omega)), hd i hi]
        simp only [store, Ops.zeros_length]
        exact if_neg fun hx => ho ⟨hx.1, by omega⟩
      | ok n =>
        obtain ⟨n1, n2, n3, n4, n5⟩ := h
        have hd2 : ∀ i, R i → byteAt s2.data i = store (byteAt s.data) off (zeros (done + n)) i := by
          intro i hi
          rw [n4 i hi, hp]
          have := congrFun (store_append (byteAt s.data) off (zeros done) (zeros n)) i
          rw [Ops.zeros_length, Ops.zeros_append] at this
          rw [← this]
          simp only [store]
          split
          · rfl
          · exact hd i hi
        simp only
        split
        · rename_i hk
          intro g hg
          refine ⟨.inl ⟨_, hk⟩, fun i hi ho => (hg.content i hi).trans ?_, fun hx => n5 (hf hx)⟩
          show byteAt s2.data i = _
          rw [hd2 i hi]
          simp only [store, Ops.zeros_length]
          exact if_neg fun hx => ho ⟨hx.1, by omega⟩
        · exact ih _ _ _ (by omega) (by omega) (by omega) hd2 fun hx => n5 (hf hx)

theorem owned_zeroRunP {env : Env} (hb : 0 < env.bs) (hreg : env.isBlock = false) (hsp : env.sparse = false)
    (s : State) (cancel : Nat → Bool) (off size : Nat) (flush : Bool) :
    (fileSpace env 0).Owned (Near env.bs off size) (ZeroOwn (Near env.bs off size) cancel s off size)
      (zeroRunP (fileP env) cancel size off flush) s := by
  unfold zeroRunP
  refine Space.Owned.bind (Space.Confined.owned confined_seek fun r s1 hr g hg => ?_)
  cases hr
  refine Space.Owned.bind ((owned_zeroStepsP hb hreg hsp (s := s) cancel off size (fun _ => id) size 0 0 (fileMachine.view { s with pos := off } g)
    (by omega) (by omega) rfl (fun i hi => (hg.content i hi).trans ?_) id).post fun r s2 h => ?_)
  · simp only [store, Ops.zeros_length]
    rw [if_neg (by omega)]
    rfl
  · cases r with
    | error e => exact h
    | ok u =>
      simp only
      split
      · refine Space.Confined.owned (confined_sys (.inr (by
          unfold File.flush sys; split <;> rfl)) fun _ _ h1 _ => flush_safe h1) fun r s3 hr g hg => ?_
        have hl := File.lawful env hb (s.faults = []) 0 (Nat.zero_mod _)
        cases r with
        | ok u =>
          obtain ⟨f1, f2, -, -, -⟩ := (File.lawful env hb (s.faults = []) 0 (Nat.zero_mod _)).flush s2 s3
            ⟨fun hx => (by rw [hreg] at hx; cases hx), h.2⟩ hr
          exact ⟨fun i hi => (hg.content i hi).trans ((congrFun f2 i).trans (h.1 i hi)), f1.2⟩
        | error e =>
          obtain ⟨-, f2, f3, f4, -⟩ := (File.lawful env hb (s.faults = []) 0 (Nat.zero_mod _)).flush_err s2 e s3
            ⟨fun hx => (by rw [hreg] at hx; cases hx), h.2⟩ hr
          refine ⟨.inr ?_, fun i hi ho => (hg.content i hi).trans ((congrFun f4 i).trans ((h.1 i hi).trans ?_)), f3.2⟩
          · rcases f2 with f2 | f2
            · exact f2
            · rw [hreg] at f2; cases f2.1
          · simp only [store, Ops.zeros_length]
            exact if_neg ho
      · exact fun g hg => ⟨fun i hi => (hg.content i hi).trans (h.1 i hi), h.2⟩

end Imageio.Conc
