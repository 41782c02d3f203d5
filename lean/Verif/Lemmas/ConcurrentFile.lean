import Verif.Lemmas.Concurrent
/-!
The system calls of the file backend and the requests of the NBD backend use only the blocks they
are called for.
-/
namespace Imageio.Conc
open Prog Imageio.Spec Imageio.File
open Imageio.Memory hiding State readinto write zero flush seek backend lawful

/-! ### The file backend -/

/-- The file shared by the threads; the size of a block device is fixed, and a file that has at least
`cap` bytes keeps them. -/
def fileSpace (env : Env) (cap : Nat) : Space fileMachine where
  content g := byteAt g.1
  sized a b := (env.isBlock = true → a.1.length = b.1.length) ∧ (cap ≤ a.1.length → cap ≤ b.1.length)
  sized_refl _ := ⟨fun _ => rfl, id⟩
  sized_trans _ _ _ h1 h2 := ⟨fun h => (h1.1 h).trans (h2.1 h), fun h => h2.2 (h1.2 h)⟩
  shared_view _ _ := rfl
  view_shared _ := rfl
  view_view _ _ _ := rfl

/-- What a system call does on a view with other bytes. -/
structure SysSafe (env : Env) {α : Type} (R : Nat → Prop) (f : State → Res State α) (s : State) (d k : Bytes) : Prop where
  res : (f { s with data := d, disk := k }).1 = (f s).1
  loc : { (f s).2 with data := (f { s with data := d, disk := k }).2.data, disk := (f { s with data := d, disk := k }).2.disk } =
    (f { s with data := d, disk := k }).2
  inside : ∀ i, R i → byteAt (f { s with data := d, disk := k }).2.data i = byteAt (f s).2.data i
  outside : ∀ i, ¬ R i → byteAt (f { s with data := d, disk := k }).2.data i = byteAt d i
  size : env.isBlock = true → (f s).2.data.length = s.data.length
  size' : env.isBlock = true → (f { s with data := d, disk := k }).2.data.length = d.length
  grow : d.length ≤ (f { s with data := d, disk := k }).2.data.length

/-- The call does not shrink the file. -/
theorem SysSafe.grows {env : Env} {α : Type} {R : Nat → Prop} {f : State → Res State α} {s : State}
    (h : SysSafe env R f s s.data s.disk) : s.data.length ≤ (f s).2.data.length := h.grow

/-- A call in a file that has at least `cap` bytes, or that does not change the size. -/
theorem confined_sys {env : Env} {cap : Nat} {α : Type} {R : Nat → Prop} {f : State → Res State α} {s : State}
    (hcap : cap ≤ s.data.length ∨ (f s).2.data.length = s.data.length)
    (h : ∀ d k, (∀ i, R i → byteAt d i = byteAt s.data i) → (env.isBlock = true → s.data.length = d.length) →
      SysSafe env R f s d k) :
    (fileSpace env cap).Confined R (Prog.call f) s := by
  refine Space.confined_call fun g hg => ?_
  obtain ⟨x1, x2, x3, x4, x5, x6, x7⟩ := h g.1 g.2 hg.content hg.sized.1
  refine ⟨x1, x2, x3, x4, ⟨fun hb => ?_, fun hc => ?_⟩, ⟨fun hb => (x6 hb).symm, fun hc => Nat.le_trans hc x7⟩⟩
  · show (f s).2.data.length = (f { s with data := g.1, disk := g.2 }).2.data.length
    rw [x5 hb, x6 hb]; exact hg.sized.1 hb
  · refine Nat.le_trans (hg.sized.2 ?_) x7
    rcases hcap with h | h
    · exact h
    · exact h ▸ hc

/-- The result of a call, changed. -/
theorem SysSafe.map {env : Env} {α β : Type} {R : Nat → Prop} {f : State → Res State α} {s : State} {d k : Bytes}
    (h : SysSafe env R f s d k) (r : Except Err α → Except Err β) :
    SysSafe env R (fun s => (r (f s).1, (f s).2)) s d k :=
  ⟨congrArg r h.res, h.loc, h.inside, h.outside, h.size, h.size', h.grow⟩

/-- A system call that may fail: it is enough to look at the calls without a fault. -/
theorem SysSafe.sys {env : Env} {α : Type} {R : Nat → Prop} {f : State → Res State α} {s : State} {d k : Bytes}
    (hd : ∀ i, R i → byteAt d i = byteAt s.data i)
    (h : ∀ fs, SysSafe env R f { s with faults := fs } d k) :
    SysSafe env R (fun s => File.sys s f) s d k := by
  cases hf : s.faults with
  | nil =>
    have := h []
    have e : { s with faults := [] } = s := by rw [← hf]
    rw [e] at this
    obtain ⟨x1, x2, x3, x4, x5, x6, x7⟩ := this
    have e1 : File.sys s f = f s := by simp [File.sys, hf]
    have e2 : File.sys { s with data := d, disk := k } f = f { s with data := d, disk := k } := by
      simp [File.sys, hf]
    constructor <;> simp only [e1, e2] <;> assumption
  | cons x fs =>
    cases x with
    | none =>
      obtain ⟨x1, x2, x3, x4, x5, x6, x7⟩ := h fs
      have e1 : File.sys s f = f { s with faults := fs } := by simp [File.sys, hf]
      have e2 : File.sys { s with data := d, disk := k } f = f { s with data := d, disk := k, faults := fs } := by
        simp [File.sys, hf]
      constructor <;> simp only [e1, e2] <;> assumption
    | some e =>
      have e1 : File.sys s f = (.error (.os e), { s with faults := fs }) := by simp [File.sys, hf]
      have e2 : File.sys { s with data := d, disk := k } f =
          (.error (.os e), { s with data := d, disk := k, faults := fs }) := by simp [File.sys, hf]
      constructor <;> simp only [e1, e2]
      · exact hd
      · exact fun _ _ => trivial
      · exact fun _ => trivial
      · exact fun _ => trivial
      · exact Nat.le_refl _

theorem byteAt_written {R : Nat → Prop} {d d' w : Bytes} {p : Nat}
    (hd : ∀ i, R i → byteAt d i = byteAt d' i) : ∀ i, R i → byteAt (writeAt d p w) i = byteAt (writeAt d' p w) i := by
  intro i hi
  rw [byteAt_writeAt, byteAt_writeAt]
  by_cases h : p ≤ i ∧ i < p + w.length
  · rw [store_inside _ _ _ _ h.1 h.2, store_inside _ _ _ _ h.1 h.2]
  · rw [store_outside _ _ _ _ h, store_outside _ _ _ _ h, hd i hi]

theorem byteAt_written_outside {R : Nat → Prop} {d w : Bytes} {p : Nat}
    (hR : ∀ i, p ≤ i → i < p + w.length → R i) : ∀ i, ¬ R i → byteAt (writeAt d p w) i = byteAt d i := by
  intro i hi
  rw [byteAt_writeAt, store_outside _ _ _ _ fun h => hi (hR i h.1 h.2)]

theorem fioWrite_safe {env : Env} {R : Nat → Prop} {s : State} {addr : Nat} {w d k : Bytes}
    (hR : ∀ i, s.pos ≤ i → i < s.pos + w.length → R i)
    (hd : ∀ i, R i → byteAt d i = byteAt s.data i) (hs : env.isBlock = true → s.data.length = d.length) :
    SysSafe env R (fun s => fioWrite env s addr w) s d k := by
  unfold fioWrite
  refine SysSafe.sys hd fun fs => ?_
  by_cases h1 : s.pos % env.bs ≠ 0 ∨ w.length % env.bs ≠ 0 ∨ addr % env.bs ≠ 0
  · constructor <;> simp only [if_pos h1]
    · exact hd
    · exact fun _ _ => trivial
    · exact fun _ => trivial
    · exact fun _ => trivial
    · exact Nat.le_refl _
  · by_cases h2 : env.isBlock = true ∧ s.data.length ≤ s.pos
    · have h2' : env.isBlock = true ∧ d.length ≤ s.pos := ⟨h2.1, by rw [← hs h2.1]; exact h2.2⟩
      constructor <;> simp only [if_neg h1, if_pos h2, if_pos h2']
      · exact hd
      · exact fun _ _ => trivial
      · exact fun _ => trivial
      · exact fun _ => trivial
      · exact Nat.le_refl _
    · have h2' : ¬ (env.isBlock = true ∧ d.length ≤ s.pos) := fun h => h2 ⟨h.1, by rw [hs h.1]; exact h.2⟩
      have hav : (if env.isBlock = true then min w.length (d.length - s.pos) else w.length) =
          (if env.isBlock = true then min w.length (s.data.length - s.pos) else w.length) := by
        by_cases hb : env.isBlock = true
        · rw [if_pos hb, if_pos hb, hs hb]
        · rw [if_neg hb, if_neg hb]
      have hlen : ∀ n, (w.take n).length ≤ w.length := fun n => by rw [List.length_take]; omega
      have hn : ∀ n, n = shortWrite env { s with faults := fs } w.length
            (if env.isBlock = true then min w.length (s.data.length - s.pos) else w.length) →
          env.isBlock = true → s.pos + n ≤ s.data.length := by
        intro n hn hb
        rw [if_pos hb] at hn
        have := not_and.1 h2 hb
        by_cases hz : 0 < min w.length (s.data.length - s.pos)
        · have := (shortWrite_spec (env := env) { s with faults := fs } w.length _ hz).2.1
          omega
        · rw [show min w.length (s.data.length - s.pos) = 0 by omega] at hn
          have : n = 0 := by
            rw [hn]; unfold shortWrite; split
            · rfl
            · split <;> simp
          omega
      have hsw : ∀ a, shortWrite env { s with data := d, disk := k, faults := fs } w.length a =
          shortWrite env { s with faults := fs } w.length a := fun _ => rfl
      constructor <;> simp only [if_neg h1, if_neg h2, if_neg h2', hav, hsw]
      · generalize shortWrite env _ _ _ = n
        by_cases h0 : n = 0
        · simpa only [if_pos h0] using hd
        · simp only [if_neg h0]; exact byteAt_written hd
      · generalize shortWrite env _ _ _ = n
        by_cases h0 : n = 0
        · simp only [if_pos h0]; exact fun _ _ => trivial
        · simp only [if_neg h0]
          exact byteAt_written_outside fun i h3 h4 => hR i h3 (by have := hlen n; omega)
      · intro hb
        generalize hnn : shortWrite env _ _ _ = n
        have := hn n (by rw [← hnn]) hb
        by_cases h0 : n = 0
        · simp only [if_pos h0]
        · simp only [if_neg h0]
          rw [length_writeAt, List.length_take]; omega
      · intro hb
        generalize hnn : shortWrite env _ _ _ = n
        have := hn n (by rw [← hnn]) hb
        by_cases h0 : n = 0
        · simp only [if_pos h0]
        · simp only [if_neg h0]
          rw [length_writeAt, List.length_take, ← hs hb]; omega
      · generalize shortWrite env _ _ _ = n
        by_cases h0 : n = 0
        · simp only [if_pos h0]; exact Nat.le_refl _
        · simp only [if_neg h0]; rw [length_writeAt]; omega

theorem readBlock_of {env : Env} (hb : 0 < env.bs) {start : Nat} (s : State) :
    readBlock env start s =
      match s.faults with
      | some e :: fs => (.error (.os e), { s with pos := start, faults := fs })
      | fs =>
        if start % env.bs = 0 then
          (.ok (load (byteAt s.data) start env.bs),
            { s with pos := start, shortR := s.shortR.tail, faults := fs.tail })
        else (.error (.os "EINVAL"), { s with pos := start, faults := fs.tail }) := by
  have key : ∀ s' : State, s'.pos = start → start % env.bs = 0 →
      ((s'.data.drop start).take (shortRead env s' (min env.bs (s'.data.length - start)))) ++
        zeros (env.bs - ((s'.data.drop start).take (shortRead env s' (min env.bs (s'.data.length - start)))).length) =
      load (byteAt s'.data) start env.bs := by
    intro s' _ _
    have hr : shortRead env s' (min env.bs (s'.data.length - start)) = min env.bs (s'.data.length - start) := by
      have := shortRead_spec hb s' (min env.bs (s'.data.length - start))
      omega
    rw [hr]
    by_cases hl : start ≤ s'.data.length
    · rw [load_byteAt _ _ _ (by omega), load_length]
      exact block_read _ _ _ _ rfl
    · rw [show min env.bs (s'.data.length - start) = 0 by omega, List.take_zero]
      rw [load_beyond _ _ _ (by omega)]; simp
  unfold readBlock readinto fioReadinto sys
  cases hf : s.faults with
  | nil =>
    simp only
    by_cases h : start % env.bs = 0
    · rw [if_neg (by simp [h]), if_pos h]
      simp only
      rw [key { s with pos := start, faults := [] } rfl h]; rfl
    · rw [if_pos (.inl h), if_neg h]; rfl
  | cons x fs =>
    cases x with
    | some e => rfl
    | none =>
      simp only
      by_cases h : start % env.bs = 0
      · rw [if_neg (by simp [h]), if_pos h]
        simp only
        rw [key { s with pos := start, faults := fs } rfl h]; rfl
      · rw [if_pos (.inl h), if_neg h]; rfl

theorem readBlock_safe {env : Env} (hb : 0 < env.bs) {R : Nat → Prop} {s : State} {start : Nat} {d k : Bytes}
    (hR : ∀ i, start ≤ i → i < start + env.bs → R i)
    (hd : ∀ i, R i → byteAt d i = byteAt s.data i) :
    SysSafe env R (readBlock env start) s d k := by
  have hl : load (byteAt d) start env.bs = load (byteAt s.data) start env.bs :=
    load_congr _ _ _ _ fun i h1 h2 => hd i (hR i h1 h2)
  have e1 := readBlock_of hb (start := start) s
  have e2 := readBlock_of hb (start := start) { s with data := d, disk := k }
  simp only [hl] at e2
  constructor
  · rw [e1, e2]; split <;> try split
    all_goals rfl
  · rw [e1, e2]; split <;> try split
    all_goals rfl
  · rw [e1, e2]; split <;> try split
    all_goals exact hd
  · rw [e2]; split <;> try split
    all_goals exact fun _ _ => rfl
  · rw [e1]; split <;> try split
    all_goals exact fun _ => rfl
  · rw [e2]; split <;> try split
    all_goals exact fun _ => rfl
  · rw [e2]; split <;> try split
    all_goals exact Nat.le_refl _

theorem blkZero_safe {env : Env} (hblk : env.isBlock = true) {R : Nat → Prop} {s : State} {off n : Nat} {d k : Bytes}
    (hR : ∀ i, off ≤ i → i < off + n → R i)
    (hd : ∀ i, R i → byteAt d i = byteAt s.data i) (hs : env.isBlock = true → s.data.length = d.length) :
    SysSafe env R (blkZero off n) s d k := by
  unfold blkZero
  refine SysSafe.sys hd fun fs => ?_
  have hs' := hs hblk
  by_cases h1 : s.data.length < off + n
  · have h1' : d.length < off + n := by omega
    constructor <;> simp only [if_pos h1, if_pos h1']
    · exact hd
    · exact fun _ _ => trivial
    · exact fun _ => trivial
    · exact fun _ => trivial
    · exact Nat.le_refl _
  · have h1' : ¬ d.length < off + n := by omega
    constructor <;> simp only [if_neg h1, if_neg h1']
    · exact byteAt_written hd
    · exact byteAt_written_outside fun i h3 h4 => hR i h3 (by simpa using h4)
    · intro _; rw [length_writeAt]; simp; omega
    · intro _; rw [length_writeAt]; simp; omega
    · rw [length_writeAt]; omega

theorem flush_safe {env : Env} {R : Nat → Prop} {s : State} {d k : Bytes}
    (hd : ∀ i, R i → byteAt d i = byteAt s.data i) : SysSafe env R File.flush s d k := by
  unfold File.flush
  refine SysSafe.sys hd fun fs => ?_
  constructor <;> simp only
  · exact hd
  · exact fun _ _ => trivial
  · exact fun _ => trivial
  · exact fun _ => trivial
  · exact Nat.le_refl _

theorem run_writeUnalignedP (env : Env) (buf : Bytes) (s : State) :
    run (writeUnalignedP env buf) s = writeUnaligned env s buf := by
  unfold writeUnalignedP writeUnaligned
  rw [run_bind]
  simp only [run_asks]
  rw [run_bind]
  simp only [run_call, readBlock, seek, andThen]
  cases readinto env { s with pos := s.pos - s.pos % env.bs } env.bs with
  | mk r s1 => cases r with
    | error e => rfl
    | ok got =>
      simp only
      rw [run_bind]
      simp only [run_call]
      generalize fioWrite env _ _ _ = x
      obtain ⟨r, s2⟩ := x
      cases r with
      | error e => rfl
      | ok n => rfl

theorem run_fileWriteP (env : Env) (addr : Nat) (buf : Bytes) (s : State) :
    run (fileWriteP env addr buf) s = File.write env s addr buf := by
  unfold fileWriteP File.write
  rw [run_bind]
  simp only [run_asks]
  split
  · exact run_writeUnalignedP env buf s
  · split <;> rfl

theorem run_zeroBlockP (count : Nat) (s : State) : run (zeroBlockP count) s = zeroBlock s count := by
  unfold zeroBlockP zeroBlock
  rw [run_bind]
  simp only [run_asks]
  have ioctl : ∀ s0 : State, ∀ off, run (Prog.bind (call (blkZero off count)) fun _ =>
      Prog.bind (call fun s => seek s (off + count)) fun _ => Prog.pure count) s0 =
      andThen (blkZero off count s0) fun _ s => andThen (seek s (off + count)) fun _ s => (.ok count, s) := by
    intro s0 off
    rw [run_bind]
    simp only [run_call]
    cases blkZero off count s0 with
    | mk r s1 => cases r <;> rfl
  rw [run_bind]
  simp only [run_asks]
  by_cases hc : s.canFallocate = true
  · rw [if_pos hc, if_pos hc, run_bind]
    simp only [run_call]
    cases blkZero s.pos count s with
    | mk r s1 => cases r with
      | ok u => rfl
      | error e =>
        simp only
        split
        · rw [run_bind]
          simp only [run_call]
          exact ioctl _ _
        · rfl
  · rw [if_neg hc, if_neg hc]; exact ioctl _ _

theorem run_writeZerosLoopP (env : Env) (bufSize : Nat) : ∀ (fuel count : Nat) (s : State),
    run (writeZerosLoopP env bufSize fuel count) s = writeZerosLoop env bufSize fuel s count := by
  intro fuel
  induction fuel with
  | zero => intro count s; unfold writeZerosLoopP writeZerosLoop; split <;> rfl
  | succ fuel ih =>
    intro count s
    unfold writeZerosLoopP writeZerosLoop
    by_cases h : count = 0
    · rw [if_pos h, if_pos h]; rfl
    · rw [if_neg h, if_neg h]
      simp only
      rw [run_bind, run_fileWriteP]
      cases File.write env s 0 (zeros (min count bufSize)) with
      | mk r s' => cases r with
        | error e => rfl
        | ok n => exact ih _ _

theorem run_writeZerosP (env : Env) (count : Nat) (s : State) :
    run (writeZerosP env count) s = andThen (writeZeros env s count) fun _ s => (.ok count, s) := by
  unfold writeZerosP writeZeros
  rw [run_bind, run_writeZerosLoopP]
  cases writeZerosLoop env (min count mib) count s count with
  | mk r s' => cases r <;> rfl

theorem run_zeroedP (offset count : Nat) (s : State) :
    run (zeroedP offset count) s = andThen (seek s (offset + count)) fun _ s => (.ok count, s) := rfl

theorem run_zeroTailP (env : Env) (offset count : Nat) (s : State) :
    run (zeroTailP env offset count) s = zeroTail env s offset count := by
  unfold zeroTailP zeroTail
  rw [run_bind]
  simp only [run_asks]
  by_cases hc : s.canFallocate = true
  · rw [if_pos hc, run_bind]
    simp only [run_call]
    by_cases hl : s.data.length ≤ offset
    · rw [if_pos hl, if_pos (by simp [hc, hl]), run_bind]
      simp only [run_call]
      cases fallocate .allocate offset count s with
      | mk r s1 => cases r with
        | error e => rfl
        | ok done =>
          simp only [andThen]
          cases done with
          | true => rfl
          | false =>
            simp only [Bool.false_eq_true, if_false]
            rw [run_bind]
            exact run_writeZerosP env count _
    · rw [if_neg hl, if_neg (by simp [hl])]
      exact run_writeZerosP env count _
  · rw [if_neg hc, if_neg (by simp [hc])]
    exact run_writeZerosP env count _

theorem run_zeroPunchP (env : Env) (offset count : Nat) (s : State) :
    run (zeroPunchP env offset count) s = zeroPunch env s offset count := by
  unfold zeroPunchP zeroPunch
  rw [run_bind]
  simp only [run_asks]
  by_cases hc : (s.canPunchHole && s.canFallocate) = true
  · rw [if_pos hc, if_pos hc, run_bind]
    simp only [run_call]
    cases fallocate .punchHole offset count s with
    | mk r s1 => cases r with
      | error e => rfl
      | ok done =>
        simp only [andThen]
        cases done with
        | true =>
          simp only [if_true]
          rw [run_bind]
          simp only [run_call]
          cases fallocate .allocate offset count s1 with
          | mk r s2 => cases r with
            | error e => rfl
            | ok done =>
              simp only
              cases done with
              | true => rfl
              | false =>
                simp only [Bool.false_eq_true, if_false]
                rw [run_bind]
                exact run_zeroTailP env offset count _
        | false =>
          simp only [Bool.false_eq_true, if_false]
          rw [run_bind]
          exact run_zeroTailP env offset count _
  · rw [if_neg hc, if_neg hc]
    exact run_zeroTailP env offset count _

theorem run_zeroFileP (env : Env) (count : Nat) (s : State) :
    run (zeroFileP env count) s = zeroFile env s count := by
  unfold zeroFileP zeroFile
  rw [run_bind]
  simp only [run_asks]
  rw [run_bind]
  simp only [run_asks]
  by_cases hc : s.canZeroRange = true
  · rw [if_pos hc, if_pos hc, run_bind]
    simp only [run_call]
    cases fallocate .zeroRange s.pos count s with
    | mk r s1 => cases r with
      | error e => rfl
      | ok done =>
        simp only [andThen]
        cases done with
        | true => rfl
        | false =>
          simp only [Bool.false_eq_true, if_false]
          rw [run_bind]
          exact run_zeroPunchP env s.pos count _
  · rw [if_neg hc, if_neg hc]
    exact run_zeroPunchP env _ count _

theorem run_punchSparseP (env : Env) (offset count : Nat) (s : State) :
    run (punchSparseP env offset count) s = punchSparse env s offset count := by
  unfold punchSparseP punchSparse
  rw [run_bind]
  simp only [run_call]
  cases fallocate .punchHole offset count s with
  | mk r s1 => cases r with
    | error e => rfl
    | ok done =>
      simp only [andThen]
      cases done with
      | true => rfl
      | false =>
        simp only [Bool.false_eq_true, if_false]
        rw [run_bind]
        exact run_writeZerosP env count _

theorem run_zeroSparseP (env : Env) (count : Nat) (s : State) :
    run (zeroSparseP env count) s = zeroSparse env s count := by
  unfold zeroSparseP zeroSparse
  rw [run_bind]
  simp only [run_asks]
  by_cases hc : s.canPunchHole = true
  · rw [if_pos hc, if_pos hc, run_bind]
    simp only [run_asks]
    rw [run_bind]
    simp only [run_call]
    by_cases hl : s.data.length < s.pos + count
    · rw [if_pos hl, if_pos hl, run_bind]
      simp only [run_call]
      cases truncate (s.pos + count) s with
      | mk r s1 => cases r with
        | error e => rfl
        | ok u =>
          simp only [andThen]
          by_cases he : s.data.length = s.pos
          · rw [if_pos he, if_pos he]; rfl
          · rw [if_neg he, if_neg he]; exact run_punchSparseP env _ count _
    · rw [if_neg hl, if_neg hl]; exact run_punchSparseP env _ count _
  · rw [if_neg hc, if_neg hc]; exact run_writeZerosP env count _

theorem run_fileZeroP (env : Env) (count : Nat) (s : State) :
    run (fileZeroP env count) s = File.zero env s count := by
  unfold fileZeroP File.zero
  rw [run_bind]
  simp only [run_asks]
  by_cases h : (!aligned env s.pos || decide (count < env.bs)) = true
  · rw [if_pos h, if_pos h, run_writeUnalignedP]
  · rw [if_neg h, if_neg h]
    by_cases hb : env.isBlock = true
    · rw [if_pos hb, if_pos hb, run_zeroBlockP]
    · rw [if_neg hb, if_neg hb]
      by_cases hs : env.sparse = true
      · rw [if_pos hs, if_pos hs, run_zeroSparseP]
      · rw [if_neg hs, if_neg hs, run_zeroFileP]

/-- The programs of the file backend do, run alone, what the methods do. -/
theorem file_runs (env : Env) : Runs (fileP env) (File.backend env) where
  bs := rfl
  seek _ _ := rfl
  write := run_fileWriteP env
  zero := run_fileZeroP env
  flush _ := rfl

theorem near_block {bs pos n i : Nat} (hn : 0 < n) (h1 : pos - pos % bs ≤ i)
    (h2 : i < pos - pos % bs + bs) : Near bs pos n i := by
  refine ⟨pos, ⟨Nat.le_refl _, by omega⟩, ?_⟩
  have := Nat.div_add_mod pos bs
  have e : pos - pos % bs = bs * (pos / bs) := by omega
  rw [e] at h1 h2
  exact Nat.div_eq_of_lt_le (by rw [Nat.mul_comm]; exact h1) (by rw [Nat.add_mul, Nat.mul_comm, Nat.one_mul]; exact h2)

theorem near_self {bs pos n i : Nat} (h1 : pos ≤ i) (h2 : i < pos + n) : Near bs pos n i :=
  ⟨i, ⟨h1, h2⟩, rfl⟩

theorem confined_pos {env : Env} {cap : Nat} {R : Nat → Prop} {s : State} :
    (fileSpace env cap).Confined R (Prog.asks fun s : State => s.pos) s :=
  Space.confined_asks fun _ => rfl

theorem confined_seek {env : Env} {cap : Nat} {R : Nat → Prop} {s : State} {n : Nat} :
    (fileSpace env cap).Confined R (Prog.call fun s : State => seek s n) s :=
  Space.confined_local (fun _ => rfl) rfl

theorem confined_writeUnalignedP {env : Env} {cap : Nat} (hb : 0 < env.bs) {buf : Bytes} (hd : buf ≠ []) (s : State)
    (hcap : cap ≤ s.data.length) :
    (fileSpace env cap).Confined (Near env.bs s.pos buf.length) (writeUnalignedP env buf) s := by
  have hdl : 0 < buf.length := List.length_pos_iff.mpr hd
  have hml := Nat.mod_lt s.pos hb
  unfold writeUnalignedP
  refine Space.Confined.bind confined_pos ?_
  intro start s1 h1
  simp only [run_asks, Prod.mk.injEq, Except.ok.injEq] at h1
  obtain ⟨rfl, rfl⟩ := h1
  refine Space.Confined.bind (confined_sys (.inl hcap) fun d k h1 h2 => readBlock_safe hb (fun i => near_block hdl) h1) ?_
  intro block s1 h1
  simp only [run_call] at h1
  rw [readBlock_of hb] at h1
  have hblock : block.length = env.bs ∧ s1.pos = s.pos - s.pos % env.bs ∧ s1.data = s.data := by
    split at h1
    · simp at h1
    · split at h1
      · simp only [Prod.mk.injEq, Except.ok.injEq] at h1
        obtain ⟨rfl, rfl⟩ := h1
        exact ⟨load_length _ _ _, rfl, rfl⟩
      · simp at h1
  refine Space.Confined.bind (confined_sys (.inl (by rw [hblock.2.2]; exact hcap)) fun d k h1 h2 =>
    fioWrite_safe (fun i h3 h4 => ?_) h1 h2) ?_
  · rw [hblock.2.1] at h3 h4
    refine near_block hdl h3 ?_
    simp only [List.length_append, List.length_take, List.length_drop, hblock.1] at h4
    omega
  · intro _ s2 _
    exact Space.Confined.bind confined_seek fun _ _ _ => trivial

theorem confined_fileWriteP {env : Env} {cap : Nat} (hb : 0 < env.bs) (addr : Nat) {buf : Bytes} (hd : buf ≠ []) (s : State)
    (hcap : cap ≤ s.data.length) :
    (fileSpace env cap).Confined (Near env.bs s.pos buf.length) (fileWriteP env addr buf) s := by
  unfold fileWriteP
  refine Space.Confined.bind confined_pos ?_
  intro start s1 h1
  simp only [run_asks, Prod.mk.injEq, Except.ok.injEq] at h1
  obtain ⟨rfl, rfl⟩ := h1
  split
  · exact confined_writeUnalignedP hb hd s hcap
  · split
    · exact confined_sys (.inl hcap) fun d k h1 h2 => fioWrite_safe (fun i h3 h4 => near_self h3 h4) h1 h2
    · refine confined_sys (.inl hcap) fun d k h1 h2 => fioWrite_safe (fun i h3 h4 => near_self h3 ?_) h1 h2
      rw [List.length_take] at h4; omega

theorem fallocate_map (mode : FallocMode) (off n : Nat) (s : State) :
    fallocate mode off n s =
      ((match (fallocateSys mode off n s).1 with
        | .ok () => .ok true
        | .error e => if e = .os "EOPNOTSUPP" then .ok false else .error e), (fallocateSys mode off n s).2) := by
  unfold fallocate
  cases fallocateSys mode off n s with
  | mk r s' => cases r with
    | ok u => rfl
    | error e => simp only; split <;> rfl

theorem length_punched (f : Bytes) (off n : Nat) (h : off + n ≤ f.length) : (punched f off n).length = f.length := by
  simp [punched, zeros]; omega

theorem punched_writeAt (f : Bytes) (off n : Nat) (h : off + n ≤ f.length) : punched f off n = writeAt f off (zeros n) := by
  unfold punched writeAt
  rw [Nat.min_eq_left (by omega)]
  simp [zeros, show off + n - f.length = 0 by omega]

/-- `fallocate` inside the file. -/
theorem fallocate_safe {env : Env} {mode : FallocMode} (hreg : env.isBlock = false) {R : Nat → Prop} {s : State} {off n cap : Nat}
    {d k : Bytes} (hR : ∀ i, off ≤ i → i < off + n → R i) (hcap : cap ≤ s.data.length) (hin : off + n ≤ cap)
    (hd : ∀ i, R i → byteAt d i = byteAt s.data i) (hl : cap ≤ d.length) :
    SysSafe env R (fallocate mode off n) s d k := by
  have sys : SysSafe env R (fallocateSys mode off n) s d k := by
    unfold fallocateSys
    refine SysSafe.sys hd fun fs => ?_
    have hnb : ∀ {p : Prop}, env.isBlock = true → p := fun h => by rw [hreg] at h; cases h
    cases mode with
    | zeroRange =>
      constructor <;> simp only
      · exact byteAt_written hd
      · exact byteAt_written_outside fun i h3 h4 => hR i h3 (by simpa using h4)
      · exact hnb
      · exact hnb
      · rw [length_writeAt]; omega
    | punchHole =>
      constructor <;> simp only [punched_writeAt _ off n (Nat.le_trans hin hcap), punched_writeAt _ off n (Nat.le_trans hin hl)]
      · exact byteAt_written hd
      · exact byteAt_written_outside fun i h3 h4 => hR i h3 (by simpa using h4)
      · exact hnb
      · exact hnb
      · rw [length_writeAt]; omega
    | allocate =>
      have e1 : s.data ++ zeros (off + n - s.data.length) = s.data := by
        rw [show off + n - s.data.length = 0 by omega]; simp [zeros]
      have e2 : d ++ zeros (off + n - d.length) = d := by
        rw [show off + n - d.length = 0 by omega]; simp [zeros]
      constructor <;> simp only [e1, e2]
      · exact hd
      · exact fun _ _ => trivial
      · exact hnb
      · exact hnb
      · exact Nat.le_refl _
  have e : fallocate mode off n = fun s => _ := funext (fallocate_map mode off n)
  rw [e]
  exact sys.map fun r => match r with
    | .ok () => .ok true
    | .error e => if e = .os "EOPNOTSUPP" then .ok false else .error e

/-- A call in a regular file of at least `cap` bytes. -/
theorem confined_fallocate {env : Env} {mode : FallocMode} (hreg : env.isBlock = false) {s : State} {off n cap : Nat}
    (hcap : cap ≤ s.data.length) (hin : off + n ≤ cap) :
    (fileSpace env cap).Confined (Near env.bs off n) (call (fallocate mode off n)) s := by
  refine Space.confined_call fun g hg => ?_
  have hl := hg.sized.2 hcap
  obtain ⟨x1, x2, x3, x4, x5, x6, x7⟩ := fallocate_safe (env := env) (mode := mode) (k := g.2) hreg (R := Near env.bs off n)
    (fun i => near_self) hcap hin hg.content hl
  exact ⟨x1, x2, x3, x4, ⟨fun hb => (by rw [hreg] at hb; cases hb), fun _ => Nat.le_trans hl x7⟩,
    ⟨fun hb => (by rw [hreg] at hb; cases hb), fun hc => Nat.le_trans hc x7⟩⟩

theorem fallocate_after {mode : FallocMode} {s s' : State} {off n cap : Nat} {r : Except Err Bool} (hcap : cap ≤ s.data.length)
    (hin : off + n ≤ cap) (h : fallocate mode off n s = (r, s')) : cap ≤ s'.data.length ∧ s'.pos = s.pos := by
  have e : s' = (fallocateSys mode off n s).2 := by rw [fallocate_map] at h; exact (Prod.mk.inj h).2.symm
  subst e
  unfold fallocateSys sys
  split
  · cases mode <;> simp only [length_writeAt, length_punched _ _ _ (Nat.le_trans hin hcap), List.length_append] <;>
      exact ⟨by omega, trivial⟩
  · cases mode <;> simp only [length_writeAt, length_punched _ _ _ (Nat.le_trans hin hcap), List.length_append] <;>
      exact ⟨by omega, trivial⟩
  · exact ⟨hcap, rfl⟩

/-- Looking at the size of the file, when it is only compared. -/
theorem confined_size {α : Type} {env : Env} {R : Nat → Prop} {s : State} {cap : Nat} {k : Nat → Prog State α} {q : Prog State α}
    (hcap : cap ≤ s.data.length) (hk : ∀ n, cap ≤ n → k n = q) (hq : (fileSpace env cap).Confined R q s) :
    (fileSpace env cap).Confined R (Prog.bind (call fun s : State => (.ok s.data.length, s)) k) s := by
  refine ⟨fun g hg => ⟨?_, rfl, hg.content, fun _ _ => rfl, hg.sized, (fileSpace env cap).sized_refl g⟩, ?_⟩
  · show k g.1.length = k s.data.length
    rw [hk _ (hg.sized.2 hcap), hk _ hcap]
  · show (fileSpace env cap).Confined R (k s.data.length) s
    rw [hk _ hcap]; exact hq

theorem confined_writeZerosLoopP {env : Env} (hb : 0 < env.bs) (hreg : env.isBlock = false) {cap bufSize : Nat}
    (hbuf : 0 < bufSize) :
    ∀ (fuel count : Nat) (s : State), cap ≤ s.data.length →
      (fileSpace env cap).Confined (Near env.bs s.pos count) (writeZerosLoopP env bufSize fuel count) s := by
  intro fuel
  induction fuel with
  | zero => intro count s _; unfold writeZerosLoopP; split <;> trivial
  | succ fuel ih =>
    intro count s hcap
    unfold writeZerosLoopP
    by_cases h0 : count = 0
    · rw [if_pos h0]; trivial
    · rw [if_neg h0]
      have hne : zeros (min count bufSize) ≠ [] := zeros_ne_nil (by omega)
      refine Space.Confined.bind ((confined_fileWriteP hb 0 hne s hcap).mono fun i h => ?_) ?_
      · rw [Ops.zeros_length] at h
        exact h.mono (Nat.le_refl _) (by omega)
      · intro n s1 hr
        rw [run_fileWriteP] at hr
        obtain ⟨_, c2, c3, c4, _, c6, _⟩ := (File.lawful env hb False 0 (Nat.zero_mod _)).write s 0 _ n s1
          ⟨fun h => (by rw [hreg] at h; cases h), fun h => h.elim⟩ hne (fun _ _ => Nat.zero_mod _) hr
        rw [Ops.zeros_length] at c3
        have c4' : s1.pos = s.pos + n := c4
        refine (ih (count - n) s1 (Nat.le_trans hcap c6)).mono fun i h => h.mono (by omega) (by omega)

theorem confined_writeZerosP {env : Env} (hb : 0 < env.bs) (hreg : env.isBlock = false) {cap count off : Nat} {s : State}
    (hp : s.pos = off) (hc : 0 < count) (hcap : cap ≤ s.data.length) :
    (fileSpace env cap).Confined (Near env.bs off count) (writeZerosP env count) s := by
  subst hp
  have : 0 < min count mib := by have : 0 < mib := by decide
                                 omega
  exact Space.Confined.bind (confined_writeZerosLoopP hb hreg this _ _ _ hcap) fun _ _ _ => trivial

theorem confined_zeroedP {env : Env} {cap : Nat} {R : Nat → Prop} {s : State} {off n : Nat} :
    (fileSpace env cap).Confined R (zeroedP off n) s :=
  Space.Confined.bind confined_seek fun _ _ _ => trivial

theorem confined_zeroTailP {env : Env} (hb : 0 < env.bs) (hreg : env.isBlock = false) {cap count off : Nat} {s : State}
    (hp : s.pos = off) (hc : 0 < count) (hcap : cap ≤ s.data.length) (hin : off + count ≤ cap) :
    (fileSpace env cap).Confined (Near env.bs off count) (zeroTailP env off count) s := by
  unfold zeroTailP
  refine Space.Confined.bind (Space.confined_asks fun _ => rfl) ?_
  intro can s1 h1
  simp only [run_asks, Prod.mk.injEq, Except.ok.injEq] at h1
  obtain ⟨rfl, rfl⟩ := h1
  split
  · refine confined_size hcap (fun n hn => if_neg (by omega)) (confined_writeZerosP hb hreg hp hc hcap)
  · exact confined_writeZerosP hb hreg hp hc hcap

/-- Change an attribute of the backend. -/
theorem confined_set {α : Type} {env : Env} {cap : Nat} {R : Nat → Prop} {s s' : State} {f : State → State} {k : Prog State α}
    (hv : ∀ g, f (fileMachine.view s g) = fileMachine.view (f s) g) (hs : f s = s')
    (hsh : fileMachine.shared (f s) = fileMachine.shared s)
    (h : (fileSpace env cap).Confined R k s') : (fileSpace env cap).Confined R (Prog.bind (setP f) fun _ => k) s := by
  refine Space.Confined.bind (Space.confined_local (fun g => by simp only [hv g]) hsh) fun _ s1 h1 => ?_
  have h2 := (Prod.mk.inj (show (Except.ok (), f s) = _ from h1)).2
  rw [← h2, hs]; exact h

theorem confined_zeroPunchP {env : Env} (hb : 0 < env.bs) (hreg : env.isBlock = false) {cap count off : Nat} {s : State}
    (hp : s.pos = off) (hc : 0 < count) (hcap : cap ≤ s.data.length) (hin : off + count ≤ cap) :
    (fileSpace env cap).Confined (Near env.bs off count) (zeroPunchP env off count) s := by
  unfold zeroPunchP
  refine Space.Confined.bind (Space.confined_asks fun _ => rfl) ?_
  intro can s1 h1
  simp only [run_asks, Prod.mk.injEq, Except.ok.injEq] at h1
  obtain ⟨rfl, rfl⟩ := h1
  split
  · refine Space.Confined.bind (confined_fallocate hreg hcap hin) fun punch s1 h1 => ?_
    simp only [run_call] at h1
    obtain ⟨l1, p1⟩ := fallocate_after hcap hin h1
    split
    · refine Space.Confined.bind (confined_fallocate hreg l1 hin) fun alloc s2 h2 => ?_
      simp only [run_call] at h2
      obtain ⟨l2, p2⟩ := fallocate_after l1 hin h2
      split
      · exact confined_zeroedP
      · refine confined_set (fun _ => rfl) rfl rfl ?_
        exact confined_zeroTailP hb hreg ((p2.trans p1).trans hp) hc l2 hin
    · refine confined_set (fun _ => rfl) rfl rfl ?_
      exact confined_zeroTailP hb hreg (p1.trans hp) hc l1 hin
  · exact confined_zeroTailP hb hreg hp hc hcap hin

theorem confined_zeroFileP {env : Env} (hb : 0 < env.bs) (hreg : env.isBlock = false) {cap count : Nat} {s : State}
    (hc : 0 < count) (hcap : cap ≤ s.data.length) (hin : s.pos + count ≤ cap) :
    (fileSpace env cap).Confined (Near env.bs s.pos count) (zeroFileP env count) s := by
  unfold zeroFileP
  refine Space.Confined.bind confined_pos ?_
  intro start s1 h1
  simp only [run_asks, Prod.mk.injEq, Except.ok.injEq] at h1
  obtain ⟨rfl, rfl⟩ := h1
  refine Space.Confined.bind (Space.confined_asks fun _ => rfl) ?_
  intro can s1 h1
  simp only [run_asks, Prod.mk.injEq, Except.ok.injEq] at h1
  obtain ⟨rfl, rfl⟩ := h1
  split
  · refine Space.Confined.bind (confined_fallocate hreg hcap hin) fun done s1 h1 => ?_
    simp only [run_call] at h1
    obtain ⟨l1, p1⟩ := fallocate_after hcap hin h1
    split
    · exact confined_zeroedP
    · refine confined_set (fun _ => rfl) rfl rfl ?_
      exact confined_zeroPunchP hb hreg p1 hc l1 hin
  · exact confined_zeroPunchP hb hreg rfl hc hcap hin

theorem confined_zeroSparseP {env : Env} (hb : 0 < env.bs) (hreg : env.isBlock = false) {cap count : Nat} {s : State}
    (hc : 0 < count) (hcap : cap ≤ s.data.length) (hin : s.pos + count ≤ cap) :
    (fileSpace env cap).Confined (Near env.bs s.pos count) (zeroSparseP env count) s := by
  unfold zeroSparseP
  refine Space.Confined.bind (Space.confined_asks fun _ => rfl) ?_
  intro can s1 h1
  simp only [run_asks, Prod.mk.injEq, Except.ok.injEq] at h1
  obtain ⟨rfl, rfl⟩ := h1
  split
  · refine Space.Confined.bind confined_pos ?_
    intro start s1 h1
    simp only [run_asks, Prod.mk.injEq, Except.ok.injEq] at h1
    obtain ⟨rfl, rfl⟩ := h1
    refine confined_size hcap (fun n hn => if_neg (by omega)) ?_
    refine Space.Confined.bind (confined_fallocate hreg hcap hin) fun done s1 h1 => ?_
    simp only [run_call] at h1
    obtain ⟨l1, p1⟩ := fallocate_after hcap hin h1
    split
    · exact confined_zeroedP
    · refine confined_set (fun _ => rfl) rfl rfl ?_
      exact confined_writeZerosP hb hreg p1 hc l1
  · exact confined_writeZerosP hb hreg rfl hc hcap

theorem confined_zeroBlockP {env : Env} {cap : Nat} (hblk : env.isBlock = true) (count : Nat) (s : State)
    (hcap : cap ≤ s.data.length) :
    (fileSpace env cap).Confined (Near env.bs s.pos count) (zeroBlockP count) s := by
  unfold zeroBlockP
  refine Space.Confined.bind confined_pos ?_
  intro start s1 h1
  simp only [run_asks, Prod.mk.injEq, Except.ok.injEq] at h1
  obtain ⟨rfl, rfl⟩ := h1
  have grow : ∀ off n (s0 : State), s0.data.length ≤ (blkZero off n s0).2.data.length := fun off n s0 =>
    (blkZero_safe (R := fun _ => True) hblk (fun _ _ _ => trivial) (fun _ _ => rfl) (fun _ => rfl)).grows
  have ioctl : ∀ s0 : State, cap ≤ s0.data.length → (fileSpace env cap).Confined (Near env.bs s.pos count)
      (Prog.bind (call (blkZero s.pos count)) fun _ =>
        Prog.bind (call fun s1 => seek s1 (s.pos + count)) fun _ => Prog.pure count) s0 := by
    intro s0 hcap
    refine Space.Confined.bind (confined_sys (.inl hcap) fun d k h1 h2 => blkZero_safe hblk (fun i => near_self) h1 h2) ?_
    intro _ _ _
    exact Space.Confined.bind confined_seek fun _ _ _ => trivial
  refine Space.Confined.bind (Space.confined_asks fun _ => rfl) ?_
  intro can s1 h1
  simp only [run_asks, Prod.mk.injEq, Except.ok.injEq] at h1
  obtain ⟨rfl, rfl⟩ := h1
  split
  · refine Space.Confined.bind (confined_sys (.inl hcap) fun d k h1 h2 => ?_) ?_
    · obtain ⟨x1, x2, x3, x4, x5, x6, x7⟩ := blkZero_safe (k := k) hblk (fun i => near_self) h1 h2
      exact ⟨by simp only [x1], x2, x3, x4, x5, x6, x7⟩
    · intro r s2 h2
      simp only [run_call, Prod.mk.injEq] at h2
      have l2 : cap ≤ s2.data.length := by rw [← h2.2]; exact Nat.le_trans hcap (grow _ _ _)
      split
      · exact Space.Confined.bind confined_seek fun _ _ _ => trivial
      · split
        · refine Space.Confined.bind (Space.confined_local (fun _ => rfl) rfl) fun _ s3 h3 => ioctl _ ?_
          simp only [run_call, Prod.mk.injEq] at h3
          rw [← h3.2]; exact l2
        · trivial
  · exact ioctl _ hcap

theorem confined_fileZeroP {env : Env} {cap : Nat} (hb : 0 < env.bs) {count : Nat} (hc : 0 < count) (s : State)
    (hcap : cap ≤ s.data.length) (hz : env.isBlock = true ∨ s.pos + count ≤ cap) :
    (fileSpace env cap).Confined (Near env.bs s.pos count) (fileZeroP env count) s := by
  have hml := Nat.mod_lt s.pos hb
  unfold fileZeroP
  refine Space.Confined.bind confined_pos ?_
  intro start s1 h1
  simp only [run_asks, Prod.mk.injEq, Except.ok.injEq] at h1
  obtain ⟨rfl, rfl⟩ := h1
  have hrd : roundDown count env.bs ≤ count := by rw [roundDown]; omega
  split
  · refine (confined_writeUnalignedP hb (zeros_ne_nil (by omega)) s hcap).mono fun i h => ?_
    rw [Ops.zeros_length] at h
    exact h.mono (Nat.le_refl _) (by omega)
  · rename_i hal
    have hge : env.bs ≤ count := by simp at hal; omega
    have hpos : 0 < roundDown count env.bs := by
      rw [roundDown]; have := Nat.mod_lt count hb; omega
    by_cases hblk : env.isBlock = true
    · rw [if_pos hblk]
      exact (confined_zeroBlockP hblk _ s hcap).mono fun i h => h.mono (Nat.le_refl _) (by omega)
    · rw [if_neg hblk]
      have hreg : env.isBlock = false := by simpa using hblk
      have hin := hz.resolve_left hblk
      split
      · exact (confined_zeroSparseP hb hreg hpos hcap (by omega)).mono fun i h => h.mono (Nat.le_refl _) (by omega)
      · exact (confined_zeroFileP hb hreg hpos hcap (by omega)).mono fun i h => h.mono (Nat.le_refl _) (by omega)

/-- The contract of a backend, for images of at least `cap` bytes. -/
def atLeast {σ : Type} {B : Backend σ} (L : Lawful B) (cap : Nat) : Lawful B where
  Inv s := L.Inv s ∧ cap ≤ B.size s
  content := L.content
  durable := L.durable
  mayFail := L.mayFail
  block_pos := L.block_pos
  seek s n r s' hi h := by
    obtain ⟨x1, x2, x3, x4, x5, x6⟩ := L.seek s n r s' hi.1 h
    exact ⟨x1, ⟨x2, by rw [x6]; exact hi.2⟩, x3, x4, x5, x6⟩
  readinto s n d s' hi h1 h2 h := by
    obtain ⟨x1, x2, x3, x4, x5⟩ := L.readinto s n d s' hi.1 h1 h2 h
    exact ⟨⟨x1, by rw [x4]; exact hi.2⟩, x2, x3, x4, x5⟩
  readinto_err s n e s' hi h1 h2 h := by
    obtain ⟨x1, x2, x3, x4, x5, x6⟩ := L.readinto_err s n e s' hi.1 h1 h2 h
    exact ⟨x1, x2, ⟨x3, by rw [x6]; exact hi.2⟩, x4, x5, x6⟩
  write s a d n s' hi h1 h2 h := by
    obtain ⟨x1, x2, x3, x4, x5, x6, x7⟩ := L.write s a d n s' hi.1 h1 h2 h
    exact ⟨⟨x1, Nat.le_trans hi.2 x6⟩, x2, x3, x4, x5, x6, x7⟩
  write_err s a d e s' hi h1 h2 h := by
    obtain ⟨x1, x2, x3⟩ := L.write_err s a d e s' hi.1 h1 h2 h
    exact ⟨x1, x2, ⟨x3.inv, Nat.le_trans hi.2 x3.size_ge⟩, x3.outside, x3.size_ge⟩
  zero s c n s' hi h1 h := by
    obtain ⟨x1, x2, x3, x4, x5, x6, x7⟩ := L.zero s c n s' hi.1 h1 h
    exact ⟨⟨x1, Nat.le_trans hi.2 x6⟩, x2, x3, x4, x5, x6, x7⟩
  zero_err s c e s' hi h1 h := by
    obtain ⟨x1, x2, x3⟩ := L.zero_err s c e s' hi.1 h1 h
    exact ⟨x1, x2, ⟨x3.inv, Nat.le_trans hi.2 x3.size_ge⟩, x3.outside, x3.size_ge⟩
  flush s s' hi h := by
    obtain ⟨x1, x2, x3, x4, x5⟩ := L.flush s s' hi.1 h
    exact ⟨⟨x1, by rw [x5]; exact hi.2⟩, x2, x3, x4, x5⟩
  flush_err s e s' hi h := by
    obtain ⟨x1, x2, x3, x4, x5⟩ := L.flush_err s e s' hi.1 h
    exact ⟨x1, x2, ⟨x3, by rw [x5]; exact hi.2⟩, x4, x5⟩

/-- The programs of the file backend use only the blocks they are called for; zeroing, of a block
device, or inside the first `least` bytes of a file that has them. -/
theorem file_confines (env : Env) (hb : 0 < env.bs) (strict : Prop) (cap : Nat) (hcap : cap % env.bs = 0) (least : Nat) :
    Confines (fileSpace env least) (fileP env) (atLeast (File.lawful env hb strict cap hcap) least)
      (fun e => env.isBlock = true ∨ e ≤ least) where
  seek _ _ _ := confined_seek
  write a _ s hi hd := confined_fileWriteP hb a hd s hi.2
  zero e he c s hi hc hle := confined_fileZeroP hb hc s hi.2 (he.imp id fun h => Nat.le_trans hle h)
  flush _ s := confined_sys (.inr (by
    unfold File.flush sys; split <;> rfl)) fun _ _ h1 _ => flush_safe h1

/-! ### The NBD backend -/

/-- The export shared by the threads; its size is fixed. -/
def nbdSpace : Space nbdMachine where
  content g := byteAt g.1
  sized a b := a.1.length = b.1.length
  sized_refl _ := rfl
  sized_trans _ _ _ h1 h2 := h1.trans h2
  shared_view _ _ := rfl
  view_shared _ := rfl
  view_view _ _ _ := rfl

/-- A request with the effect `e k` of its first `k` bytes, and what the backend does with the
reply. -/
def reply (n pos : Nat) (x : Res NbdBackend.State Unit) : Res NbdBackend.State Nat :=
  match x with
  | (.error e, s') => (.error e, s')
  | (.ok (), s') => (.ok n, { s' with pos := pos })

open NbdBackend (serverStore request)

theorem serverStore_inside {R : Nat → Prop} {off : Nat} {w : Bytes} {s s' : NbdBackend.State}
    (hl : s.export_.length = s'.export_.length)
    (h : ∀ i, R i → byteAt s.export_ i = byteAt s'.export_ i) :
    ∀ i, R i → byteAt (serverStore off w s).export_ i = byteAt (serverStore off w s').export_ i := by
  intro i hi
  by_cases hin : off ≤ i ∧ i < off + w.length
  · by_cases hle : i < s.export_.length
    · have key : ∀ s : NbdBackend.State, i < s.export_.length →
          byteAt (serverStore off w s).export_ i = w.getD (i - off) 0 := by
        intro s hle
        simp only [serverStore, byteAt, List.getD_eq_getElem?_getD]
        rw [List.getElem?_take, if_pos hle, List.append_assoc, List.getElem?_append_right (by simp; omega),
          List.getElem?_append_left (by simp; omega)]
        simp only [List.length_take]
        rw [Nat.min_eq_left (by omega)]
      rw [key s hle, key s' (by omega)]
    · rw [byteAt_beyond _ _ (by rw [NbdBackend.length_serverStore']; omega),
        byteAt_beyond _ _ (by rw [NbdBackend.length_serverStore']; omega)]
  · rw [NbdBackend.byteAt_serverStore_outside hin, NbdBackend.byteAt_serverStore_outside hin, h i hi]

theorem confined_request {R : Nat → Prop} {s : NbdBackend.State} {n : Nat} {w : Nat → Bytes}
    (hw : ∀ k, k ≤ n → (w k).length ≤ n) (hR : ∀ i, s.pos ≤ i → i < s.pos + n → R i) (f : NbdBackend.State → Res NbdBackend.State Nat)
    (hf : ∀ g, f (nbdMachine.view s g) =
      reply n (s.pos + n) (request (nbdMachine.view s g) s.pos n fun k => serverStore s.pos (w k))) :
    nbdSpace.Confined R (Prog.call f) s := by
  have hfs : f s = reply n (s.pos + n) (request s s.pos n fun k => serverStore s.pos (w k)) := by
    have := hf (nbdMachine.shared s)
    rwa [nbdSpace.view_shared] at this
  refine Space.confined_call fun g hg => ?_
  have hsz : s.export_.length = g.1.length := hg.sized
  have hco : ∀ i, R i → byteAt g.1 i = byteAt s.export_ i := hg.content
  have out : ∀ k ≤ n, ∀ (s : NbdBackend.State) (p : Nat), (∀ i, p ≤ i → i < p + n → R i) → ∀ i, ¬ R i →
      byteAt (serverStore p (w k) s).export_ i = byteAt s.export_ i := by
    intro k hk s p hp i hi
    rw [NbdBackend.byteAt_serverStore_outside]
    intro h
    have := hw k hk
    exact hi (hp i h.1 (by omega))
  have done : ∀ (k : Nat) (fs : List (Option NbdBackend.Fault)) (p : Nat) (r : Except Err Nat), k ≤ n →
      f s = (r, { serverStore s.pos (w k) { s with faults := fs } with pos := p }) →
      f (nbdMachine.view s g) =
        (r, { serverStore s.pos (w k) { nbdMachine.view s g with faults := fs } with pos := p }) →
      nbdSpace.Safe R (fun s => (f s).2) (fun s => (f s).1) s g := by
    intro k fs p r hk e1 e2
    refine ⟨?_, ?_, ?_, ?_, ?_, ?_⟩ <;> simp only [e1, e2]
    · rfl
    · intro i hi
      exact serverStore_inside (s := { nbdMachine.view s g with faults := fs }) (s' := { s with faults := fs })
        hsz.symm hco i hi
    · intro i hi
      exact out k hk { nbdMachine.view s g with faults := fs } s.pos hR i hi
    · show (serverStore s.pos (w k) { s with faults := fs }).export_.length =
        (serverStore s.pos (w k) { nbdMachine.view s g with faults := fs }).export_.length
      rw [NbdBackend.length_serverStore', NbdBackend.length_serverStore']
      exact hsz
    · show g.1.length = (serverStore s.pos (w k) { nbdMachine.view s g with faults := fs }).export_.length
      rw [NbdBackend.length_serverStore']; rfl
  have fail : ∀ (fs : List (Option NbdBackend.Fault)) (r : Except Err Nat),
      f s = (r, { s with faults := fs }) →
      f (nbdMachine.view s g) = (r, { nbdMachine.view s g with faults := fs }) →
      nbdSpace.Safe R (fun s => (f s).2) (fun s => (f s).1) s g := by
    intro fs r e1 e2
    refine ⟨?_, ?_, ?_, ?_, ?_, ?_⟩ <;> simp only [e1, e2]
    · rfl
    · exact hco
    · exact fun _ _ => rfl
    · exact hsz
    · exact rfl
  have e2 := hf g
  have gen : ∀ fs, (∀ e fs', fs ≠ some e :: fs') → s.faults = fs →
      nbdSpace.Safe R (fun s => (f s).2) (fun s => (f s).1) s g := by
    intro fs hne hfa
    by_cases hc : s.export_.length < s.pos + n ∨ s.pos % s.bs ≠ 0 ∨ n % s.bs ≠ 0
    · have hc' : g.1.length < s.pos + n ∨ s.pos % s.bs ≠ 0 ∨ n % s.bs ≠ 0 := by rwa [← hsz]
      have r1 : request s s.pos n (fun k => serverStore s.pos (w k)) =
          (.error (.exception "ReplyError: EINVAL"), { s with faults := fs.tail }) := by
        unfold request
        split
        · rename_i e' fs' h'; exact absurd (hfa.symm.trans h') (hne _ _)
        · simp only; rw [if_pos hc, hfa]
      have r2 : request (nbdMachine.view s g) s.pos n (fun k => serverStore s.pos (w k)) =
          (.error (.exception "ReplyError: EINVAL"), { nbdMachine.view s g with faults := fs.tail }) := by
        unfold request
        split
        · rename_i e' fs' h'; exact absurd (hfa.symm.trans h') (hne _ _)
        · simp only
          rw [if_pos (show (nbdMachine.view s g).export_.length < s.pos + n ∨ s.pos % (nbdMachine.view s g).bs ≠ 0 ∨
            n % (nbdMachine.view s g).bs ≠ 0 from hc')]
          rw [← hfa]; rfl
      rw [r1] at hfs
      rw [r2] at e2
      exact fail _ _ hfs e2
    · have hc' : ¬ (g.1.length < s.pos + n ∨ s.pos % s.bs ≠ 0 ∨ n % s.bs ≠ 0) := by rwa [← hsz]
      have r1 : request s s.pos n (fun k => serverStore s.pos (w k)) =
          (.ok (), serverStore s.pos (w n) { s with faults := fs.tail }) := by
        unfold request
        split
        · rename_i e' fs' h'; exact absurd (hfa.symm.trans h') (hne _ _)
        · simp only; rw [if_neg hc, hfa]
      have r2 : request (nbdMachine.view s g) s.pos n (fun k => serverStore s.pos (w k)) =
          (.ok (), serverStore s.pos (w n) { nbdMachine.view s g with faults := fs.tail }) := by
        unfold request
        split
        · rename_i e' fs' h'; exact absurd (hfa.symm.trans h') (hne _ _)
        · simp only
          rw [if_neg (show ¬ ((nbdMachine.view s g).export_.length < s.pos + n ∨ s.pos % (nbdMachine.view s g).bs ≠ 0 ∨
            n % (nbdMachine.view s g).bs ≠ 0) from hc')]
          rw [← hfa]; rfl
      rw [r1] at hfs
      rw [r2] at e2
      exact done n _ _ _ (Nat.le_refl _) hfs e2
  cases hfa : s.faults with
  | nil => exact gen [] (by simp) hfa
  | cons x fs =>
    cases x with
    | none => exact gen _ (by simp) hfa
    | some e =>
      have r1 : request s s.pos n (fun k => serverStore s.pos (w k)) =
          (.error (.exception e.msg), serverStore s.pos (w (min e.after n)) { s with faults := fs }) := by
        unfold request; rw [hfa]
      have r2 : request (nbdMachine.view s g) s.pos n (fun k => serverStore s.pos (w k)) =
          (.error (.exception e.msg), serverStore s.pos (w (min e.after n)) { nbdMachine.view s g with faults := fs }) := by
        unfold request
        have : (nbdMachine.view s g).faults = some e :: fs := hfa
        rw [this]
      rw [r1] at hfs
      rw [r2] at e2
      exact done _ fs s.pos _ (Nat.min_le_right _ _) hfs e2

theorem nbd_runs (bs : Nat) : Runs (nbdP bs) (NbdBackend.backend bs) where
  bs := rfl
  seek _ _ := rfl
  write _ _ _ := rfl
  zero _ _ := rfl
  flush _ := rfl

theorem nbd_write_eq (s : NbdBackend.State) (a : Nat) (d : Bytes) :
    NbdBackend.write s a d =
      if s.mode.writable = false then (.error NbdBackend.unsupported, s)
      else reply d.length (s.pos + d.length) (request s s.pos d.length fun k => serverStore s.pos (d.take k)) := by
  unfold NbdBackend.write
  cases s.mode.writable with
  | false => rfl
  | true =>
    simp only [Bool.not_true, Bool.false_eq_true, if_false]
    cases request s s.pos d.length (fun k => serverStore s.pos (d.take k)) with
    | mk r s' => cases r <;> rfl

theorem nbd_zero_eq (s : NbdBackend.State) (c : Nat) :
    NbdBackend.zero s c =
      if s.mode.writable = false then (.error NbdBackend.unsupported, s)
      else if s.canZero = false then (.error (.exception "UnsupportedRequest"), s)
      else reply c (s.pos + c) (request s s.pos c fun k => serverStore s.pos (zeros k)) := by
  unfold NbdBackend.zero
  cases s.mode.writable with
  | false => rfl
  | true =>
    cases s.canZero with
    | false => rfl
    | true =>
      simp only [Bool.not_true, Bool.false_eq_true, if_false]
      cases request s s.pos c (fun k => serverStore s.pos (zeros k)) with
      | mk r s' => cases r <;> rfl

/-- A call that does nothing but raise. -/
theorem confined_raise {R : Nat → Prop} {s : NbdBackend.State} {α : Type} (f : NbdBackend.State → Res NbdBackend.State α)
    (r : Except Err α) (h : ∀ g, f (nbdMachine.view s g) = (r, nbdMachine.view s g)) :
    nbdSpace.Confined R (Prog.call f) s := by
  have e' := h (nbdMachine.shared s)
  rw [nbdSpace.view_shared] at e'
  exact Space.confined_local (fun g => by rw [h g, e']) (by rw [e'])

theorem confined_nbd_flush (R : Nat → Prop) (s : NbdBackend.State) :
    nbdSpace.Confined R (Prog.call NbdBackend.flush) s := by
  cases hc : s.canFlush with
  | false =>
    refine confined_raise _ (.ok ()) fun g => ?_
    unfold NbdBackend.flush
    have : (nbdMachine.view s g).canFlush = false := hc
    rw [this]; rfl
  | true =>
    have gen : ∀ fs, (∀ e fs', fs ≠ some e :: fs') → s.faults = fs → nbdSpace.Confined R (Prog.call NbdBackend.flush) s := by
      intro fs hne hf
      have e : ∀ g, NbdBackend.flush (nbdMachine.view s g) =
          (.ok (), { nbdMachine.view s g with disk := g.1, faults := fs.tail }) := by
        intro g
        unfold NbdBackend.flush
        have h1 : (nbdMachine.view s g).canFlush = true := hc
        have h2 : (nbdMachine.view s g).faults = fs := hf
        rw [if_neg (by rw [h1]; simp)]
        split
        · rename_i e' fs' h'; exact absurd (h2.symm.trans h') (hne _ _)
        · rw [h2]; rfl
      have e' := e (nbdMachine.shared s)
      rw [nbdSpace.view_shared] at e'
      refine Space.confined_call fun g hg => ?_
      have hsz : s.export_.length = g.1.length := hg.sized
      have hco : ∀ i, R i → byteAt g.1 i = byteAt s.export_ i := hg.content
      refine ⟨?_, ?_, ?_, ?_, ?_, ?_⟩ <;> simp only [e g, e']
      · rfl
      · exact hco
      · exact fun _ _ => rfl
      · exact hsz
      · exact rfl
    cases hf : s.faults with
    | nil => exact gen [] (by simp) hf
    | cons x fs =>
      cases x with
      | none => exact gen _ (by simp) hf
      | some e =>
        have e1 : ∀ g, NbdBackend.flush (nbdMachine.view s g) =
            (.error (.exception e.msg), nbdMachine.view { s with faults := fs } g) := by
          intro g
          unfold NbdBackend.flush
          have h1 : (nbdMachine.view s g).canFlush = true := hc
          have h2 : (nbdMachine.view s g).faults = some e :: fs := hf
          rw [if_neg (by rw [h1]; simp), h2]; rfl
        have e' := e1 (nbdMachine.shared s)
        rw [nbdSpace.view_shared] at e'
        exact Space.confined_local (fun g => by rw [e1 g, e']; rfl) (by rw [e']; rfl)

/-- The requests of the NBD backend use only the bytes they are called for. -/
theorem nbd_confines (bs : Nat) (hb : 0 < bs) (strict : Prop) (cap : Nat) (h1 : strict → bs = 1) :
    Confines nbdSpace (nbdP bs) (NbdBackend.lawful bs hb strict cap h1) (fun _ => True) where
  seek _ _ _ := Space.confined_local (fun _ => rfl) rfl
  write a d s _ _ := by
    show nbdSpace.Confined _ (Prog.call fun s => NbdBackend.write s a d) s
    by_cases hm : s.mode.writable = false
    · refine confined_raise _ (.error NbdBackend.unsupported) fun g => ?_
      rw [nbd_write_eq, if_pos (show (nbdMachine.view s g).mode.writable = false from hm)]
    · refine confined_request (n := d.length) (w := fun k => d.take k) (fun k hk => by simp [hk])
        (fun i => near_self) _ fun g => ?_
      rw [nbd_write_eq, if_neg (show ¬ (nbdMachine.view s g).mode.writable = false from hm)]
      rfl
  zero _ _ c s _ _ _ := by
    show nbdSpace.Confined _ (Prog.call fun s => NbdBackend.zero s c) s
    by_cases hm : s.mode.writable = false
    · refine confined_raise _ (.error NbdBackend.unsupported) fun g => ?_
      rw [nbd_zero_eq, if_pos (show (nbdMachine.view s g).mode.writable = false from hm)]
    · by_cases hz : s.canZero = false
      · refine confined_raise _ (.error (.exception "UnsupportedRequest")) fun g => ?_
        rw [nbd_zero_eq, if_neg (show ¬ (nbdMachine.view s g).mode.writable = false from hm),
          if_pos (show (nbdMachine.view s g).canZero = false from hz)]
      · refine confined_request (n := c) (w := fun k => zeros k) (fun k hk => by simpa using hk)
          (fun i => near_self) _ fun g => ?_
        rw [nbd_zero_eq, if_neg (show ¬ (nbdMachine.view s g).mode.writable = false from hm),
          if_neg (show ¬ (nbdMachine.view s g).canZero = false from hz)]
        rfl
  flush := confined_nbd_flush

end Imageio.Conc
