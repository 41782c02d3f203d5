import Verif.Lemmas.ClientIoInv
/-! The concurrent copy always ends: it never blocks forever, and the number of steps is bounded. -/
namespace Imageio.Io
variable {c : Cfg}

/-! ## Deadlock -/

theorem put_total {α : Type} (q : Queue α) (t : Nat) (x : α) :
    ∃ q', q.put t x = (.put, q') ∨ q.put t x = (.blocked, q') ∨ q.put t x = (.raised, q') := by
  by_cases hc : q.closed = true <;> by_cases hl : q.items.length = q.maxlen <;>
    simp [Queue.put, Queue.run, Queue.wait, hc, hl]

theorem get_total {α : Type} (q : Queue α) (t : Nat) :
    ∃ q', (∃ x, q.get t = (.got x, q')) ∨ q.get t = (.blocked, q') ∨ q.get t = (.raised, q') := by
  by_cases hc : q.closed = true <;> rcases hi : q.items with _ | ⟨y, ys⟩ <;>
    simp [Queue.get, Queue.run, Queue.wait, hc, hi]
  split <;> simp

/-- A worker that is not finished and does not wait in the queue can run. -/
theorem worker_runs {s : Ex} {k : Nat} (hk : k < c.workers) (hf : (s.w k).pc ≠ .finished)
    (hw : (s.w k).pc = .getting → k + 1 ∉ s.q.waiters) : ∃ s', Ex.Step c s s' := by
  cases hp : (s.w k).pc with
  | starting => exact ⟨_, .started hk hp⟩
  | getting =>
    obtain ⟨q', ⟨r, h⟩ | h | h⟩ := get_total s.q (k + 1)
    · by_cases hr : r.op = .stop
      · exact ⟨_, .getStop hk hp (hw hp) h hr⟩
      · exact ⟨_, .getDone hk hp (hw hp) h hr⟩
    · exact ⟨_, .getBlocked hk hp (hw hp) h⟩
    · exact ⟨_, .getRaised hk hp (hw hp) h⟩
  | working r xs =>
    cases xs with
    | nil => exact ⟨_, .workDone hk hp⟩
    | cons x xs => exact ⟨_, .call hk hp⟩
  | stopping => exact ⟨_, .flushed hk hp⟩
  | leaving => exact ⟨_, .left hk hp⟩
  | failing => exact ⟨_, .close hk hp⟩
  | finished => exact absurd hp hf

theorem sum_lt_exists {n : Nat} {f : Nat → Bool} (h : sumTo n (fun k => (f k).toNat) < n) :
    ∃ k, k < n ∧ f k = false := by
  induction n with
  | zero => omega
  | succ n ih =>
    simp only [sumTo] at h
    cases hf : f n
    · exact ⟨n, by omega, hf⟩
    · simp only [hf, Bool.toNat_true] at h
      obtain ⟨k, hk, hh⟩ := ih (by omega)
      exact ⟨k, by omega, hh⟩

theorem sum_all {n : Nat} {f : Nat → Bool} (h : sumTo n (fun k => (f k).toNat) = n) :
    ∀ k, k < n → f k = true := by
  intro k hk
  have : ∀ {n : Nat} {f : Nat → Bool}, sumTo n (fun k => (f k).toNat) ≤ n := by
    intro n f
    have := sumTo_le (n := n) (m := 1) (f := fun k => (f k).toNat) (fun k _ => Bool.toNat_le _)
    omega
  induction n with
  | zero => omega
  | succ n ih =>
    simp only [sumTo] at h
    have h1 := this (n := n) (f := f)
    have h2 := Bool.toNat_le (f n)
    by_cases hkn : k = n
    · subst hkn
      cases hf : f k
      · simp [hf] at h; omega
      · rfl
    · exact ih (by omega) (by omega)

theorem no_deadlock {acts : List Act} (ha : ∀ r ∈ reqs acts, r.op ≠ .stop) {d : Nat → Byte} {s : Ex}
    (h : Ex.Reachable c acts d s) (hn : 0 < c.workers) (hd : c.workers ≤ c.depth)
    (hs : ∀ e, s.main ≠ .done e) : ∃ s', Ex.Step c s s' := by
  have q := qinv h
  have q1 := qinv1 h hd (by omega)
  have i := einv ha h
  have hfailing : ∀ k, k < c.workers → (s.w k).pc = .failing → ∃ s', Ex.Step c s s' :=
    fun k hk hp => ⟨_, .close hk hp⟩
  -- the main thread waits in `put`
  have hmain : 0 ∈ s.q.waiters → 0 < s.main.stops c.workers → ∃ s', Ex.Step c s s' := by
    intro hw hstop
    have hf := q1.full hw
    have hcl : s.q.closed = false := by
      cases hc : s.q.closed
      · rfl
      · rw [q.closedWaiters hc] at hw; simp at hw
    by_cases he : s.errors = []
    · have h1 := i.stops he hcl
      obtain ⟨k, hk, hns⟩ := sum_lt_exists (n := c.workers) (f := fun k => (s.w k).stopped) (by omega)
      refine worker_runs hk ?_ ?_
      · intro hp
        have := i.goneStopped he hcl k hk (by simp [hp, Pc.gone])
        rw [hns] at this; simp at this
      · intro _; rw [hf.2]; simp
    · rcases i.errFail he with h | ⟨k, hk, hp⟩
      · rw [hcl] at h; simp at h
      · exact hfailing k hk hp
  cases hm : s.main with
  | submit todo =>
    cases todo with
    | nil => exact ⟨_, .submitDone hm⟩
    | cons a todo =>
      cases a with
      | skip l => exact ⟨_, .skip hm⟩
      | put r =>
        by_cases hw : 0 ∈ s.q.waiters
        · exact hmain hw (by simp [hm, Main.stops]; omega)
        · obtain ⟨q', h | h | h⟩ := put_total s.q 0 r
          · exact ⟨_, .putDone hm hw h⟩
          · exact ⟨_, .putBlocked hm hw h⟩
          · exact ⟨_, .putRaised hm hw h⟩
  | stopping l =>
    cases l with
    | zero => exact ⟨_, .stopDone hm⟩
    | succ l =>
      by_cases hw : 0 ∈ s.q.waiters
      · exact hmain hw (by simp [hm, Main.stops])
      · obtain ⟨q', h | h | h⟩ := put_total s.q 0 stopReq
        · exact ⟨_, .stopPut hm hw h⟩
        · exact ⟨_, .stopBlocked hm hw h⟩
        · exact ⟨_, .stopRaised hm hw h⟩
  | joining e =>
    by_cases hall : ∀ k, k < c.workers → (s.w k).pc = .finished
    · exact ⟨_, .joined hm hall⟩
    · rw [Classical.not_forall] at hall
      obtain ⟨k, hall⟩ := hall
      rw [Classical.not_imp] at hall
      obtain ⟨hk, hp⟩ := hall
      by_cases hw : (s.w k).pc = .getting ∧ k + 1 ∈ s.q.waiters
      · -- the worker waits, so the queue is open
        have hcl : s.q.closed = false := by
          cases hc : s.q.closed
          · rfl
          · have := hw.2; rw [q.closedWaiters hc] at this; simp at this
        have he : e = none := by
          cases e with
          | none => rfl
          | some e => have := i.abortClosed e hm; rw [hcl] at this; simp at this
        by_cases her : s.errors = []
        · have h1 := i.stops her hcl
          simp only [hm, Main.stops, Nat.add_zero] at h1
          by_cases hit : s.q.items = []
          · rw [hit] at h1
            simp only [List.countP_nil, Nat.add_zero] at h1
            have := sum_all (f := fun k => (s.w k).stopped) h1 k hk
            have := i.stoppedPc k this
            simp [hw.1, Pc.gone] at this
          · obtain ⟨u, hu, hu0⟩ := q1.served ⟨k + 1, hw.2, by omega⟩ hit
            have hl := q.live u (.inr hu)
            rcases hl.2 with h0 | h0
            · exact absurd h0 hu0
            · simp only [consumers, List.mem_map, List.mem_range] at h0
              obtain ⟨j, hj, rfl⟩ := h0
              have hg : (s.w j).pc = .getting := by
                have := hl.1
                simp only [Ex.callOf] at this
                by_cases hg : (s.w j).pc = .getting
                · exact hg
                · simp [hg] at this
              exact worker_runs hj (by simp [hg]) (fun _ hh => q.disj _ hh hu)
        · rcases i.errFail her with h | ⟨k, hk, hp⟩
          · rw [hcl] at h; simp at h
          · exact hfailing k hk hp
      · exact worker_runs hk hp (fun hg hh => hw ⟨hg, hh⟩)
  | done e => exact absurd hm (hs e)

/-! ## Termination -/

def itemCost (c : Cfg) (r : Req) : Nat := (c.cut r).length + 3

def actCost (c : Cfg) : Act → Nat
  | .put r => itemCost c r + 2
  | .skip _ => 1

def mainCost (c : Cfg) : Main → Nat
  | .submit todo => (todo.map (actCost c)).sum + c.workers * ((c.cut stopReq).length + 6) + c.workers + 5
  | .stopping l => l * ((c.cut stopReq).length + 6) + 2
  | .joining _ => 1
  | .done _ => 0

def pcCost (c : Cfg) : Pc → Nat
  | .starting => c.workers + 6
  | .getting => c.workers + 5
  | .working _ xs => c.workers + 6 + xs.length
  | .stopping => c.workers + 5
  | .leaving => c.workers + 4
  | .failing => c.workers + 3
  | .finished => 0

/-- The number of steps that are left is smaller. -/
def cost (c : Cfg) (s : Ex) : Nat :=
  mainCost c s.main + (s.q.items.map (itemCost c)).sum + sumTo c.workers (fun k => pcCost c (s.w k).pc) +
    (c.workers + 1 - s.q.waiters.length)

theorem QInv.waiters_le {s : Ex} (q : QInv c s) : s.q.waiters.length ≤ c.workers + 1 := by
  have hsub : s.q.waiters ⊆ 0 :: consumers c := by
    intro t ht
    rcases (q.live t (.inl ht)).2 with h | h
    · simp [h]
    · simp [h]
  have := (List.subperm_of_subset q.nodupW hsub).length_le
  simpa [consumers] using this

theorem cost_step {s s' : Ex} (q : QInv c s) (q' : QInv c s') (hs : Ex.Step c s s') :
    cost c s' < cost c s := by
  have hb : s.q.items.length ≤ s.q.maxlen := by rw [q.maxlen]; exact q.bound
  have hw1 := q.waiters_le
  have hw2 := q'.waiters_le
  have hset := fun (k : Nat) (hk : k < c.workers) (v : WorkerState) =>
    sumTo_set (fun w => pcCost c w.pc) s.w hk v
  cases hs with
  | skip hm =>
    simp only [cost, hm, mainCost, List.map_cons, List.sum_cons, actCost]; omega
  | putDone hm hw h =>
    obtain ⟨h1, h2, h3, h4⟩ := put_items hb h
    simp only [cost, hm, mainCost, List.map_cons, List.sum_cons, actCost, h1, List.map_append,
      List.sum_append, List.map_nil, List.sum_nil]
    omega
  | putBlocked hm hw h =>
    obtain ⟨h1, h2, h3⟩ := put_wait h
    simp only [cost, h1] at hw2 ⊢; omega
  | stopBlocked hm hw h =>
    obtain ⟨h1, h2, h3⟩ := put_wait h
    simp only [cost, h1] at hw2 ⊢; omega
  | @getBlocked k q hk hp hw h =>
    obtain ⟨h1, h2, h3⟩ := get_wait h
    simp only [cost, h1] at hw2 ⊢; omega
  | putRaised hm hw h =>
    obtain ⟨h1, h2, h3, h4⟩ := put_closed h
    simp only [cost, h1, h4, hm, mainCost]; omega
  | submitDone hm => simp only [cost, hm, mainCost, List.map_nil, List.sum_nil]; omega
  | mainFail hm hw hr =>
    simp only [cost, hm, mainCost, Queue.close, Queue.notifyAll, List.map_nil, List.sum_nil,
      List.length_nil]
    omega
  | stopPut hm hw h =>
    obtain ⟨h1, h2, h3, h4⟩ := put_items hb h
    simp only [cost, hm, mainCost, h1, List.map_append, List.map_cons, List.map_nil,
      List.sum_append, List.sum_cons, List.sum_nil, itemCost, Nat.succ_mul]
    omega
  | stopRaised hm hw h =>
    obtain ⟨h1, h2, h3, h4⟩ := put_closed h
    simp only [cost, h1, h4, hm, mainCost]; omega
  | stopDone hm => simp only [cost, hm, mainCost]; omega
  | joined hm hw => simp only [cost, hm, mainCost]; omega
  | @started k hk hp =>
    have := hset k hk { s.w k with pc := .getting }
    simp only [cost, Ex.setW, hp, pcCost] at this ⊢; omega
  | @startFail k e hk hp =>
    have := hset k hk { s.w k with pc := .failing }
    simp only [cost, Ex.setW, hp, pcCost] at this ⊢; omega
  | @getDone k r q hk hp hw h hr =>
    obtain ⟨h1, h2, h3, h4⟩ := get_items h
    have := hset k hk { s.w k with pc := .working r (c.cut r) }
    simp only [cost, Ex.setW, hp, pcCost, h1, List.map_cons, List.sum_cons, itemCost] at this ⊢
    omega
  | @getStop k r q hk hp hw h hr =>
    obtain ⟨h1, h2, h3, h4⟩ := get_items h
    have := hset k hk { s.w k with pc := .stopping, stopped := true }
    simp only [cost, Ex.setW, hp, pcCost, h1, List.map_cons, List.sum_cons, itemCost] at this ⊢
    omega
  | @getRaised k q hk hp hw h =>
    obtain ⟨h1, h2, h3, h4⟩ := get_closed h
    have := hset k hk { s.w k with pc := .leaving }
    simp only [cost, Ex.setW, hp, pcCost, h1, h4] at this ⊢; omega
  | @call k r x xs hk hp =>
    have := hset k hk { s.w k with pc := .working r xs, dirty := true }
    simp only [cost, Ex.setW, hp, pcCost, List.length_cons] at this ⊢; omega
  | @callFail k r x xs dst e hk hp hd =>
    have := hset k hk { s.w k with pc := .failing, dirty := true }
    simp only [cost, Ex.setW, hp, pcCost, List.length_cons] at this ⊢; omega
  | @workDone k r hk hp =>
    have := hset k hk { s.w k with pc := .getting }
    simp only [cost, Ex.setW, hp, pcCost, List.length_nil] at this ⊢; omega
  | @workFail k r xs e hk hp =>
    have := hset k hk { s.w k with pc := .failing }
    simp only [cost, Ex.setW, hp, pcCost] at this ⊢; omega
  | @flushed k hk hp =>
    have := hset k hk { s.w k with pc := .leaving, dirty := false }
    simp only [cost, Ex.setW, hp, pcCost] at this ⊢; omega
  | @flushFail k e hk hp =>
    have := hset k hk { s.w k with pc := .failing }
    simp only [cost, Ex.setW, hp, pcCost] at this ⊢; omega
  | @left k hk hp =>
    have := hset k hk { s.w k with pc := .finished }
    simp only [cost, Ex.setW, hp, pcCost] at this ⊢; omega
  | @leaveFail k e hk hp =>
    have := hset k hk { s.w k with pc := .failing }
    simp only [cost, Ex.setW, hp, pcCost] at this ⊢; omega
  | @close k hk hp =>
    have := hset k hk { s.w k with pc := .finished }
    simp only [cost, Ex.setW, hp, pcCost, Queue.close, Queue.notifyAll, List.map_nil,
      List.sum_nil, List.length_nil] at this ⊢
    omega

/-! ## Requests and bytes -/

/-- The storage calls of a request have its operation, and cover exactly its bytes. -/
def Exact (cut : Req → List Req) : Prop :=
  ∀ r, r.op ≠ .stop → (∀ x ∈ cut r, x.op = r.op) ∧ ∀ i, (∃ x ∈ cut r, x.covers i) ↔ r.covers i

/-- Where requests and storage calls come from, and what they may have changed. -/
structure RInv (c : Cfg) (acts : List Act) (d : Nat → Byte) (s : Ex) : Prop where
  todo : ∀ t, s.main = .submit t → ∀ r, .put r ∈ t → r ∈ reqs acts
  items : ∀ r ∈ s.q.items, r.op = .stop ∨ r ∈ reqs acts
  working : ∀ k r xs, (s.w k).pc = .working r xs → r ∈ reqs acts ∧ xs ⊆ c.cut r
  calls : ∀ x ∈ s.calls, ∃ r ∈ reqs acts, x ∈ c.cut r
  outside : ∀ i, (∀ r ∈ reqs acts, ∀ x ∈ c.cut r, ¬ x.covers i) → s.dst i = d i
  effect : s.errors = [] → s.dst = s.calls.foldl (fun m x => perform c.src x m) d

theorem perform_outside {src : Nat → Byte} {x : Req} {m : Nat → Byte} {i : Nat} (h : ¬ x.covers i) :
    perform src x m i = m i := by
  simp [perform, h]

theorem RInv.step {acts : List Act} {d : Nat → Byte} {s s' : Ex} (q : QInv c s)
    (i : RInv c acts d s) (hs : Ex.Step c s s') : RInv c acts d s' := by
  have hb : s.q.items.length ≤ s.q.maxlen := by rw [q.maxlen]; exact q.bound
  obtain ⟨i1, i2, i3, i4, i5, i6⟩ := i
  cases hs with
  | skip hm => exact ⟨by grind, i2, i3, i4, i5, i6⟩
  | putDone hm hw h =>
    obtain ⟨h1, h2, h3, h4⟩ := put_items hb h
    refine ⟨by grind, ?_, i3, i4, i5, i6⟩
    simp only [h1]; grind
  | putBlocked hm hw h =>
    obtain ⟨h1, h2, h3⟩ := put_wait h
    exact ⟨i1, by simpa only [h1] using i2, i3, i4, i5, i6⟩
  | stopBlocked hm hw h =>
    obtain ⟨h1, h2, h3⟩ := put_wait h
    exact ⟨i1, by simpa only [h1] using i2, i3, i4, i5, i6⟩
  | @getBlocked k q hk hp hw h =>
    obtain ⟨h1, h2, h3⟩ := get_wait h
    exact ⟨i1, by simpa only [h1] using i2, i3, i4, i5, i6⟩
  | putRaised hm hw h =>
    obtain ⟨h1, h2, h3, h4⟩ := put_closed h
    exact ⟨by simp, by simpa only [h1] using i2, i3, i4, i5, i6⟩
  | submitDone hm => exact ⟨by simp, i2, i3, i4, i5, i6⟩
  | mainFail hm hw hr =>
    exact ⟨by simp, by simp [Queue.close, Queue.notifyAll], i3, i4, i5, i6⟩
  | stopPut hm hw h =>
    obtain ⟨h1, h2, h3, h4⟩ := put_items hb h
    refine ⟨by simp, ?_, i3, i4, i5, i6⟩
    simp only [h1]; grind [stopReq]
  | stopRaised hm hw h =>
    obtain ⟨h1, h2, h3, h4⟩ := put_closed h
    exact ⟨by simp, by simpa only [h1] using i2, i3, i4, i5, i6⟩
  | stopDone hm => exact ⟨by simp, i2, i3, i4, i5, i6⟩
  | joined hm hw => exact ⟨by simp, i2, i3, i4, i5, i6⟩
  | @started k hk hp => exact ⟨i1, i2, by simp only [Ex.setW]; grind [set], i4, i5, i6⟩
  | @startFail k e hk hp =>
    exact ⟨i1, i2, by simp only [Ex.setW]; grind [set], i4, i5, by simp⟩
  | @getDone k r q hk hp hw h hr =>
    obtain ⟨h1, h2, h3, h4⟩ := get_items h
    refine ⟨i1, ?_, ?_, i4, i5, i6⟩
    · simp only [h1] at i2; intro r hr; exact i2 r (by simp [hr])
    · have : r ∈ reqs acts := by
        have := i2 r (by rw [h1]; simp)
        simpa [hr] using this
      intro j r' xs
      simp only [Ex.setW, set]
      split
      · intro h; simp only [Pc.working.injEq] at h; obtain ⟨rfl, rfl⟩ := h
        exact ⟨this, List.Subset.refl _⟩
      · exact i3 j r' xs
  | @getStop k r q hk hp hw h hr =>
    obtain ⟨h1, h2, h3, h4⟩ := get_items h
    refine ⟨i1, ?_, by simp only [Ex.setW]; grind [set], i4, i5, i6⟩
    simp only [h1] at i2; intro r hr; exact i2 r (by simp [hr])
  | @getRaised k q hk hp hw h =>
    obtain ⟨h1, h2, h3, h4⟩ := get_closed h
    exact ⟨i1, by simpa only [h1] using i2, by simp only [Ex.setW]; grind [set], i4, i5, i6⟩
  | @call k r x xs hk hp =>
    have hw := i3 k r _ hp
    refine ⟨i1, i2, ?_, ?_, ?_, ?_⟩
    · intro j r' ys
      simp only [Ex.setW, set]
      split
      · intro h; simp only [Pc.working.injEq] at h; obtain ⟨rfl, rfl⟩ := h
        exact ⟨hw.1, fun y hy => hw.2 (by simp [hy])⟩
      · exact i3 j r' ys
    · intro y hy
      simp only [List.mem_append, List.mem_singleton] at hy
      rcases hy with hy | rfl
      · exact i4 y hy
      · exact ⟨r, hw.1, hw.2 (by simp)⟩
    · intro j hj
      exact (perform_outside (hj r hw.1 x (hw.2 (by simp)))).trans (i5 j hj)
    · intro he
      simp only [List.foldl_append, List.foldl_cons, List.foldl_nil]
      rw [← i6 he]
  | @callFail k r x xs dst e hk hp hd =>
    have hw := i3 k r _ hp
    refine ⟨i1, i2, by simp only [Ex.setW]; grind [set], i4, ?_, by simp⟩
    intro j hj
    exact (hd j (hj r hw.1 x (hw.2 (by simp)))).trans (i5 j hj)
  | @workDone k r hk hp => exact ⟨i1, i2, by simp only [Ex.setW]; grind [set], i4, i5, i6⟩
  | @workFail k r xs e hk hp =>
    exact ⟨i1, i2, by simp only [Ex.setW]; grind [set], i4, i5, by simp⟩
  | @flushed k hk hp => exact ⟨i1, i2, by simp only [Ex.setW]; grind [set], i4, i5, i6⟩
  | @flushFail k e hk hp =>
    exact ⟨i1, i2, by simp only [Ex.setW]; grind [set], i4, i5, by simp⟩
  | @left k hk hp => exact ⟨i1, i2, by simp only [Ex.setW]; grind [set], i4, i5, i6⟩
  | @leaveFail k e hk hp =>
    exact ⟨i1, i2, by simp only [Ex.setW]; grind [set], i4, i5, by simp⟩
  | @close k hk hp =>
    exact ⟨i1, by simp [Queue.close, Queue.notifyAll], by simp only [Ex.setW]; grind [set], i4, i5, i6⟩

theorem rinv {acts : List Act} {d : Nat → Byte} {s : Ex} (h : Ex.Reachable c acts d s) :
    RInv c acts d s := by
  induction h with
  | init =>
    refine ⟨?_, by simp [Ex.init, Queue.new], by simp [Ex.init], by simp [Ex.init], fun _ _ => rfl,
      fun _ => rfl⟩
    intro t ht r hr
    simp only [Ex.init, Main.submit.injEq] at ht
    subst ht
    simp only [reqs, List.mem_filterMap]
    exact ⟨_, hr, rfl⟩
  | step hr hs ih => exact ih.step (qinv hr) hs

/-! ## The weights -/

/-- Storage calls equal to `x`. -/
def callWeights (c : Cfg) (x : Req) : Weights c where
  act := fun | .put r => if r.op = .stop then 0 else (c.cut r).count x | .skip _ => 0
  item r := if r.op = .stop then 0 else (c.cut r).count x
  work _ xs := xs.count x
  acc calls _ _ := calls.count x
  hput _ := rfl
  hcut r h := by simp [h]
  hstop r h := by simp [h]
  hcall d h p r y ys := by simp [List.count_append, List.count_cons]; omega
  hdone _ _ _ _ _ := by simp
  hskip _ _ _ _ := by simp

/-- Requests equal to `x`. -/
def reqWeights (c : Cfg) (x : Req) : Weights c where
  act := fun | .put r => if r.op = .stop then 0 else [r].count x | .skip _ => 0
  item r := if r.op = .stop then 0 else [r].count x
  work r _ := [r].count x
  acc _ handled _ := (handled.map Prod.snd).count x
  hput _ := rfl
  hcut r h := by simp [h]
  hstop r h := by simp [h]
  hcall _ _ _ _ _ _ := rfl
  hdone _ _ _ _ _ := by simp [List.count_append]
  hskip _ _ _ _ := by simp

/-- The number of bytes reported to the progress. -/
def progressWeights (c : Cfg) : Weights c where
  act := fun | .put r => if r.op = .stop then 0 else r.length | .skip l => l
  item r := if r.op = .stop then 0 else r.length
  work r _ := r.length
  acc _ _ p := p
  hput _ := rfl
  hcut r h := by simp [h]
  hstop r h := by simp [h]
  hcall _ _ _ _ _ _ := rfl
  hdone _ _ _ _ _ := rfl
  hskip _ _ _ _ := rfl

theorem Weights.total_init (W : Weights c) (acts : List Act) (d : Nat → Byte) :
    W.total (.init c acts d) = (acts.map W.act).sum + W.acc [] [] 0 := by
  simp [Weights.total, Ex.init, Weights.main, Queue.new, Weights.pc, sumTo_zero]

/-- The final state of a copy that returned. -/
structure Final (c : Cfg) (acts : List Act) (s : Ex) : Prop where
  errors : s.errors = []
  opened : s.q.closed = false
  items : s.q.items = []
  finished : ∀ k, k < c.workers → (s.w k).pc = .finished ∧ (s.w k).stopped = true ∧ (s.w k).dirty = false

theorem final {acts : List Act} (ha : ∀ r ∈ reqs acts, r.op ≠ .stop) {d : Nat → Byte} {s : Ex}
    (h : Ex.Reachable c acts d s) (hn : 0 < c.workers) (hd : s.main = .done none) : Final c acts s := by
  have i := einv ha h
  have he := (i.doneRes none hd).1 rfl
  have ho : s.q.closed = false := by
    cases hc : s.q.closed
    · rfl
    · rcases i.closedErr hc with h | ⟨e, h⟩ | ⟨e, h⟩
      · exact absurd he h
      · rw [hd] at h; simp at h
      · rw [hd] at h; simp at h
  have hf := i.doneFin none hd
  have hst : ∀ k, k < c.workers → (s.w k).stopped = true := fun k hk =>
    i.goneStopped he ho k hk (by simp [hf k hk, Pc.gone])
  refine ⟨he, ho, ?_, fun k hk => ⟨hf k hk, hst k hk, i.goneClean he k (hst k hk)
    (by simp [hf k hk, Pc.gone])⟩⟩
  have hsum := i.stops he ho
  rw [sumTo_const (m := 1) (fun k hk => by simp [hst k hk])] at hsum
  have hcount : s.q.items.countP isStop = 0 := by omega
  rw [List.countP_eq_zero] at hcount
  rw [List.eq_nil_iff_forall_not_mem]
  intro r hr
  exact hcount r hr (i.drained 0 (hst 0 hn) r hr)

theorem Weights.final (W : Weights c) {acts : List Act} (ha : ∀ r ∈ reqs acts, r.op ≠ .stop)
    {d : Nat → Byte} {s : Ex} (h : Ex.Reachable c acts d s) (hn : 0 < c.workers)
    (hd : s.main = .done none) :
    W.acc s.calls s.handled s.progress = (acts.map W.act).sum + W.acc [] [] 0 := by
  have f := Io.final ha h hn hd
  have h1 := (W.conserved h).2 f.errors f.opened
  rw [W.total_init] at h1
  rw [← h1]
  simp only [Weights.total, hd, Weights.main, f.items, List.map_nil, List.sum_nil]
  rw [sumTo_zero (fun k hk => by simp [(f.finished k hk).1, Weights.pc])]
  omega

theorem count_flatMap_reqs (acts : List Act) (f : Req → List Req)
    (ha : ∀ r ∈ reqs acts, r.op ≠ .stop) (x : Req) (act : Act → Nat)
    (h1 : ∀ r, act (.put r) = if r.op = .stop then 0 else (f r).count x) (h2 : ∀ l, act (.skip l) = 0) :
    (acts.map act).sum = ((reqs acts).flatMap f).count x := by
  induction acts with
  | nil => simp [reqs]
  | cons a as ih =>
    cases a with
    | skip l =>
      simp only [List.map_cons, List.sum_cons, h2]
      rw [ih (by simpa [reqs] using ha)]
      simp [reqs]
    | put r =>
      have hr : r.op ≠ .stop := ha r (by simp [reqs])
      simp only [List.map_cons, List.sum_cons, h1, hr, if_false]
      rw [ih (fun r' h' => ha r' (by simp only [reqs, List.filterMap_cons] at h' ⊢; simp [h']))]
      simp [reqs, List.count_append]

theorem calls_perm {acts : List Act} (ha : ∀ r ∈ reqs acts, r.op ≠ .stop)
    {d : Nat → Byte} {s : Ex} (h : Ex.Reachable c acts d s) (hn : 0 < c.workers)
    (hd : s.main = .done none) : s.calls.Perm ((reqs acts).flatMap c.cut) := by
  rw [List.perm_iff_count]
  intro x
  have := (callWeights c x).final ha h hn hd
  rw [count_flatMap_reqs acts c.cut ha x _ (fun _ => rfl) (fun _ => rfl)] at this
  simpa [callWeights] using this

theorem handled_perm {acts : List Act} (ha : ∀ r ∈ reqs acts, r.op ≠ .stop)
    {d : Nat → Byte} {s : Ex} (h : Ex.Reachable c acts d s) (hn : 0 < c.workers)
    (hd : s.main = .done none) : (s.handled.map Prod.snd).Perm (reqs acts) := by
  rw [List.perm_iff_count]
  intro x
  have := (reqWeights c x).final ha h hn hd
  rw [count_flatMap_reqs acts (fun r => [r]) ha x _ (fun _ => rfl) (fun _ => rfl)] at this
  simpa [reqWeights] using this

/-- One byte after a sequence of storage calls. -/
theorem foldl_byte {src : Nat → Byte} (calls : List Req) (d : Nat → Byte) (i : Nat) (v : Byte)
    (hv : ∀ x ∈ calls, x.covers i → ∀ m, perform src x m i = v) :
    (calls.foldl (fun m x => perform src x m) d) i = if ∃ x ∈ calls, x.covers i then v else d i := by
  induction calls generalizing d with
  | nil => simp
  | cons x xs ih =>
    rw [List.foldl_cons, ih _ (fun y hy => hv y (by simp [hy]))]
    by_cases hx : x.covers i
    · rw [hv x (by simp) hx d]
      simp [hx]
    · rw [perform_outside hx]
      simp [hx]

/-- One byte of the destination when the copy returned. -/
theorem final_byte {acts : List Act} (ha : ∀ r ∈ reqs acts, r.op ≠ .stop) (hcut : Exact c.cut)
    {d : Nat → Byte} {s : Ex} (h : Ex.Reachable c acts d s) (hn : 0 < c.workers)
    (hd : s.main = .done none) (i : Nat) (op : ReqOp)
    (hop : ∀ r ∈ reqs acts, r.covers i → r.op = op) :
    s.dst i = if ∃ r ∈ reqs acts, r.covers i then
      (match op with | .zero => 0 | .copy => c.src i | .stop => d i) else d i := by
  have f := Io.final ha h hn hd
  have hp := calls_perm ha h hn hd
  rw [(rinv h).effect f.errors]
  have hmem : ∀ x, x ∈ s.calls ↔ ∃ r ∈ reqs acts, x ∈ c.cut r := by
    intro x; rw [hp.mem_iff, List.mem_flatMap]
  by_cases hc : ∃ r ∈ reqs acts, r.covers i
  · rw [if_pos hc]
    obtain ⟨r, hr, hri⟩ := hc
    have hns := ha r hr
    have hopr := hop r hr hri
    rw [foldl_byte s.calls d i (match op with | .zero => 0 | .copy => c.src i | .stop => d i)]
    · obtain ⟨x, hx, hxi⟩ := ((hcut r hns).2 i).2 hri
      rw [if_pos ⟨x, (hmem x).2 ⟨r, hr, hx⟩, hxi⟩]
      cases op <;> rfl
    · intro x hx hxi m
      obtain ⟨r', hr', hx'⟩ := (hmem x).1 hx
      have hns' := ha r' hr'
      have hri' := ((hcut r' hns').2 i).1 ⟨x, hx', hxi⟩
      have hop' := hop r' hr' hri'
      have hxop := (hcut r' hns').1 x hx'
      rw [hop'] at hxop
      simp only [perform, if_pos hxi, hxop]
      rw [hop'] at hns'
      cases op
      · rfl
      · rfl
      · exact absurd rfl hns'
  · rw [if_neg hc, foldl_byte s.calls d i (d i)]
    · simp
    · intro x hx hxi
      obtain ⟨r', hr', hx'⟩ := (hmem x).1 hx
      exact absurd ⟨r', hr', ((hcut r' (ha r' hr')).2 i).1 ⟨x, hx', hxi⟩⟩ hc

/-- Bytes outside of the requests never change, also when the copy fails. -/
theorem outside_byte {acts : List Act} (ha : ∀ r ∈ reqs acts, r.op ≠ .stop) (hcut : Exact c.cut)
    {d : Nat → Byte} {s : Ex} (h : Ex.Reachable c acts d s) (i : Nat)
    (hi : ∀ r ∈ reqs acts, ¬ r.covers i) : s.dst i = d i := by
  refine (rinv h).outside i ?_
  intro r hr x hx hxi
  exact hi r hr (((hcut r (ha r hr)).2 i).1 ⟨x, hx, hxi⟩)

end Imageio.Io
