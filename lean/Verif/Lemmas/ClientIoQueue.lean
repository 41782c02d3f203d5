import Verif.Model.ClientIo
import Verif.Lemmas.ClientQueue
/-! The queue of a copy is a queue with one producer and the workers as consumers. -/
namespace Imageio.Io

theorem exec_put {α : Type} {m : Nat} {allowed : Nat → Call α → Prop} {T : Threads α} {t : Nat} {x : α}
    {o : Outcome α} {q' : Queue α} (hr : Threads.Reachable m allowed T)
    (hc : T.call t = none ∨ T.call t = some (.put x)) (ha : allowed t (.put x))
    (hw : t ∉ T.q.waiters) (hq : T.q.put t x = (o, q')) :
    ∃ T', Threads.Reachable m allowed T' ∧ T'.q = q' ∧ (∀ u, u ≠ t → T'.call u = T.call u) ∧
      (T'.call t ≠ none → o = .blocked ∧ T'.call t = some (.put x)) := by
  have h1 : ∃ T1, Threads.Reachable m allowed T1 ∧ T1.q = T.q ∧ (∀ u, u ≠ t → T1.call u = T.call u) ∧
      T1.call t = some (.put x) := by
    rcases hc with hc | hc
    · exact ⟨_, hr.step (.call hc ha), rfl, fun u hu => set_ne _ _ hu, by simp⟩
    · exact ⟨T, hr, rfl, fun _ _ => rfl, hc⟩
  obtain ⟨T1, hr1, hq1, hu1, hc1⟩ := h1
  have hw1 : t ∉ T1.q.waiters := by rw [hq1]; exact hw
  rw [← hq1] at hq
  cases o with
  | blocked => exact ⟨_, hr1.step (.putBlocked hc1 hw1 hq), rfl, hu1, fun _ => ⟨rfl, hc1⟩⟩
  | raised =>
    exact ⟨_, hr1.step (.putRaised hc1 hw1 hq), rfl, fun u hu => (set_ne _ _ hu).trans (hu1 u hu),
      fun h => absurd (set_same _ _ _) h⟩
  | put =>
    exact ⟨_, hr1.step (.putDone hc1 hw1 hq), rfl, fun u hu => (set_ne _ _ hu).trans (hu1 u hu),
      fun h => absurd (set_same _ _ _) h⟩
  | got y =>
    exfalso
    by_cases hc : T1.q.closed = true <;> by_cases hl : T1.q.items.length = T1.q.maxlen <;>
      simp [Queue.put, Queue.run, Queue.wait, hc, hl] at hq

theorem exec_get {α : Type} {m : Nat} {allowed : Nat → Call α → Prop} {T : Threads α} {t : Nat}
    {o : Outcome α} {q' : Queue α} (hr : Threads.Reachable m allowed T)
    (hc : T.call t = none ∨ T.call t = some .get) (ha : allowed t .get)
    (hw : t ∉ T.q.waiters) (hq : T.q.get t = (o, q')) :
    ∃ T', Threads.Reachable m allowed T' ∧ T'.q = q' ∧ (∀ u, u ≠ t → T'.call u = T.call u) ∧
      (T'.call t ≠ none → o = .blocked ∧ T'.call t = some .get) := by
  have h1 : ∃ T1, Threads.Reachable m allowed T1 ∧ T1.q = T.q ∧ (∀ u, u ≠ t → T1.call u = T.call u) ∧
      T1.call t = some .get := by
    rcases hc with hc | hc
    · exact ⟨_, hr.step (.call hc ha), rfl, fun u hu => set_ne _ _ hu, by simp⟩
    · exact ⟨T, hr, rfl, fun _ _ => rfl, hc⟩
  obtain ⟨T1, hr1, hq1, hu1, hc1⟩ := h1
  have hw1 : t ∉ T1.q.waiters := by rw [hq1]; exact hw
  rw [← hq1] at hq
  cases o with
  | blocked => exact ⟨_, hr1.step (.getBlocked hc1 hw1 hq), rfl, hu1, fun _ => ⟨rfl, hc1⟩⟩
  | raised =>
    exact ⟨_, hr1.step (.getRaised hc1 hw1 hq), rfl, fun u hu => (set_ne _ _ hu).trans (hu1 u hu),
      fun h => absurd (set_same _ _ _) h⟩
  | got y =>
    exact ⟨_, hr1.step (.getDone hc1 hw1 hq), rfl, fun u hu => (set_ne _ _ hu).trans (hu1 u hu),
      fun h => absurd (set_same _ _ _) h⟩
  | put =>
    exfalso
    by_cases hc : T1.q.closed = true <;> rcases hi : T1.q.items with _ | ⟨y, ys⟩ <;>
      simp [Queue.get, Queue.run, Queue.wait, hc, hi] at hq
    split at hq <;> simp at hq

/-- A method keeps the other threads in the lists of the condition. -/
theorem put_keeps {α : Type} {q q' : Queue α} {t : Nat} {x : α} {o : Outcome α}
    (hq : q.put t x = (o, q')) :
    (∀ u, u ≠ t → u ∈ q.waiters ∨ u ∈ q.woken → u ∈ q'.waiters ∨ u ∈ q'.woken) ∧
    (o = .blocked → t ∈ q'.waiters) := by
  cases o with
  | blocked => obtain ⟨_, _, rfl⟩ := put_blocked hq; grind
  | raised => obtain ⟨_, rfl⟩ := put_raised hq; grind
  | put =>
    obtain ⟨_, _, rfl⟩ := put_done hq
    cases hw : q.waiters <;> simp <;> grind
  | got y =>
    exfalso
    by_cases hc : q.closed = true <;> by_cases hl : q.items.length = q.maxlen <;>
      simp [Queue.put, Queue.run, Queue.wait, hc, hl] at hq

theorem get_keeps {α : Type} {q q' : Queue α} {t : Nat} {o : Outcome α}
    (hq : q.get t = (o, q')) :
    (∀ u, u ≠ t → u ∈ q.waiters ∨ u ∈ q.woken → u ∈ q'.waiters ∨ u ∈ q'.woken) ∧
    (o = .blocked → t ∈ q'.waiters) := by
  cases o with
  | blocked => obtain ⟨_, _, rfl⟩ := get_blocked hq; grind
  | raised => obtain ⟨_, rfl⟩ := get_raised hq; grind
  | got y =>
    obtain ⟨_, xs, _, ⟨_, rfl⟩ | ⟨_, rfl⟩⟩ := get_done hq
    · cases hw : q.waiters <;> simp <;> grind
    · simp; grind
  | put =>
    exfalso
    by_cases hc : q.closed = true <;> rcases hi : q.items with _ | ⟨y, ys⟩ <;>
      simp [Queue.get, Queue.run, Queue.wait, hc, hi] at hq
    split at hq <;> simp at hq

/-- The request that the main thread puts next. -/
def Main.next : Main → Option Req
  | .submit (.put r :: _) => some r
  | .stopping (_ + 1) => some stopReq
  | _ => none

/-- The call that a thread is going to do or is in. -/
def Ex.callOf (s : Ex) : Nat → Option (Call Req)
  | 0 => s.main.next.map .put
  | k + 1 => if (s.w k).pc = .getting then some .get else none

/-- The consumers. -/
def consumers (c : Cfg) : List Nat := (List.range c.workers).map (· + 1)

/-- The queue of `s` is reachable with one producer. -/
def Sim (c : Cfg) (s : Ex) : Prop :=
  ∃ T : Threads Req, Threads.Reachable c.depth (OneProducer 0 (consumers c)) T ∧ T.q = s.q ∧
    ∀ t, T.call t ≠ none → (t ∈ s.q.waiters ∨ t ∈ s.q.woken) ∧ T.call t = s.callOf t

theorem mem_consumers {c : Cfg} {k : Nat} (h : k < c.workers) : k + 1 ∈ consumers c := by
  simp [consumers, h]

theorem zero_consumers (c : Cfg) : 0 ∉ consumers c := by simp [consumers]

theorem Sim.put {c : Cfg} {s s' : Ex} {r : Req} {o : Outcome Req} {q : Queue Req} (h : Sim c s)
    (hn : s.main.next = some r) (hw : 0 ∉ s.q.waiters) (hq : s.q.put 0 r = (o, q)) (hq' : s'.q = q)
    (hw' : s'.w = s.w) (hb : o = .blocked → s'.main = s.main) : Sim c s' := by
  obtain ⟨T, hr, hTq, hc⟩ := h
  have hc0 : T.call 0 = none ∨ T.call 0 = some (.put r) := by
    by_cases h0 : T.call 0 = none
    · exact .inl h0
    · right; rw [(hc 0 h0).2]; simp [Ex.callOf, hn]
  obtain ⟨T', hr', hq1, hu, ht⟩ := exec_put (q' := q) (o := o) hr hc0 (by simp [OneProducer])
    (by rw [hTq]; exact hw) (by rw [hTq]; exact hq)
  have hk := put_keeps hq
  refine ⟨T', hr', by rw [hq1, hq'], ?_⟩
  intro t h
  rw [hq']
  by_cases h0 : t = 0
  · subst h0
    have := ht h
    refine ⟨.inl (hk.2 this.1), ?_⟩
    rw [this.2]; simp [Ex.callOf, hb this.1, hn]
  · rw [hu t h0] at h ⊢
    have := hc t h
    refine ⟨hk.1 t h0 this.1, ?_⟩
    rw [this.2]
    cases t with
    | zero => exact absurd rfl h0
    | succ k => simp [Ex.callOf, hw']

theorem Sim.get {c : Cfg} {s s' : Ex} {k : Nat} {o : Outcome Req} {q : Queue Req} (h : Sim c s)
    (hk : k < c.workers) (hp : (s.w k).pc = .getting) (hw : k + 1 ∉ s.q.waiters)
    (hq : s.q.get (k + 1) = (o, q)) (hq' : s'.q = q) (hm : s'.main = s.main)
    (hw' : ∀ j, j ≠ k → s'.w j = s.w j) (hb : o = .blocked → s'.w = s.w) : Sim c s' := by
  obtain ⟨T, hr, hTq, hc⟩ := h
  have hc0 : T.call (k + 1) = none ∨ T.call (k + 1) = some .get := by
    by_cases h0 : T.call (k + 1) = none
    · exact .inl h0
    · right; rw [(hc _ h0).2]; simp [Ex.callOf, hp]
  obtain ⟨T', hr', hq1, hu, ht⟩ := exec_get (q' := q) (o := o) hr hc0 (by simpa [OneProducer] using mem_consumers hk)
    (by rw [hTq]; exact hw) (by rw [hTq]; exact hq)
  have hkeep := get_keeps hq
  refine ⟨T', hr', by rw [hq1, hq'], ?_⟩
  intro t h
  rw [hq']
  by_cases h0 : t = k + 1
  · subst h0
    have := ht h
    refine ⟨.inl (hkeep.2 this.1), ?_⟩
    rw [this.2]; simp [Ex.callOf, hb this.1, hp]
  · rw [hu t h0] at h ⊢
    have := hc t h
    refine ⟨hkeep.1 t h0 this.1, ?_⟩
    rw [this.2]
    cases t with
    | zero => simp [Ex.callOf, hm]
    | succ j => simp [Ex.callOf, hw' j (by omega)]

/-- A step without the queue. -/
theorem Sim.other {c : Cfg} {s s' : Ex} (h : Sim c s) (hq : s'.q = s.q)
    (hm : s'.main = s.main ∨ s.main.next = none)
    (hw : ∀ j, s'.w j = s.w j ∨ (s.w j).pc ≠ .getting) : Sim c s' := by
  obtain ⟨T, hr, hTq, hc⟩ := h
  refine ⟨T, hr, hTq.trans hq.symm, ?_⟩
  intro t h
  have := hc t h
  rw [hq]
  refine ⟨this.1, ?_⟩
  cases t with
  | zero =>
    rcases hm with hm | hm
    · rw [this.2]; simp [Ex.callOf, hm]
    · rw [this.2] at h; simp [Ex.callOf, hm] at h
  | succ j =>
    rcases hw j with hw | hw
    · rw [this.2]; simp [Ex.callOf, hw]
    · rw [this.2] at h; simp [Ex.callOf, hw] at h

theorem Sim.close {c : Cfg} {s s' : Ex} {t : Nat} (h : Sim c s) (hq : s'.q = s.q.close)
    (ht : s.callOf t = none ∨ (t ∉ s.q.waiters ∧ t ∉ s.q.woken))
    (hm : s'.main = s.main ∨ t = 0)
    (hw : ∀ j, s'.w j = s.w j ∨ t = j + 1) : Sim c s' := by
  obtain ⟨T, hr, hTq, hc⟩ := h
  have hn : T.call t = none := by
    by_cases h0 : T.call t = none
    · exact h0
    · have := hc t h0
      rcases ht with ht | ht
      · exact this.2.trans ht
      · exact absurd this.1 (by simp [ht])
  refine ⟨_, hr.step (.close hn), by simp [hq, hTq], ?_⟩
  intro u h
  simp only at h ⊢
  have := hc u h
  refine ⟨?_, ?_⟩
  · rw [hq]; simp only [Queue.close, Queue.notifyAll]
    right; rcases this.1 with h | h <;> simp [h]
  · have hut : u ≠ t := fun e => h (e ▸ hn)
    rw [this.2]
    cases u with
    | zero =>
      rcases hm with hm | hm
      · simp [Ex.callOf, hm]
      · exact absurd hm.symm hut
    | succ j =>
      rcases hw j with hw | hw
      · simp [Ex.callOf, hw]
      · exact absurd hw.symm hut

theorem sim_step {c : Cfg} {s s' : Ex} (h : Sim c s) (hs : Ex.Step c s s') : Sim c s' := by
  cases hs with
  | skip hm => exact h.other rfl (.inr (by simp [hm, Main.next])) (fun _ => .inl rfl)
  | putDone hm hw hq => exact h.put (by simp [hm, Main.next]) hw hq rfl rfl (by simp)
  | putBlocked hm hw hq => exact h.put (by simp [hm, Main.next]) hw hq rfl rfl (by simp)
  | putRaised hm hw hq => exact h.put (by simp [hm, Main.next]) hw hq rfl rfl (by simp)
  | submitDone hm => exact h.other rfl (.inr (by simp [hm, Main.next])) (fun _ => .inl rfl)
  | mainFail hm hw hr => exact h.close (t := 0) rfl (.inr ⟨hw, hr⟩) (.inr rfl) (fun _ => .inl rfl)
  | stopPut hm hw hq => exact h.put (by simp [hm, Main.next]) hw hq rfl rfl (by simp)
  | stopBlocked hm hw hq => exact h.put (by simp [hm, Main.next]) hw hq rfl rfl (by simp)
  | stopRaised hm hw hq => exact h.put (by simp [hm, Main.next]) hw hq rfl rfl (by simp)
  | stopDone hm => exact h.other rfl (.inr (by simp [hm, Main.next])) (fun _ => .inl rfl)
  | joined hm hw => exact h.other rfl (.inr (by simp [hm, Main.next])) (fun _ => .inl rfl)
  | getDone hk hp hw hq hr =>
    exact h.get hk hp hw hq rfl rfl (fun j hj => set_ne _ _ hj) (by simp)
  | getStop hk hp hw hq hr =>
    exact h.get hk hp hw hq rfl rfl (fun j hj => set_ne _ _ hj) (by simp)
  | getBlocked hk hp hw hq => exact h.get hk hp hw hq rfl rfl (fun j hj => rfl) (fun _ => rfl)
  | getRaised hk hp hw hq =>
    exact h.get hk hp hw hq rfl rfl (fun j hj => set_ne _ _ hj) (by simp)
  | @close k hk hp =>
    refine h.close (t := k + 1) rfl (.inl (by simp [Ex.callOf, hp])) (.inl rfl) ?_
    intro j
    by_cases hj : j = k
    · exact .inr (by rw [hj])
    · exact .inl (set_ne _ _ hj)
  | @started k _ hp | @startFail k _ _ hp | @call k _ _ _ _ hp | @callFail k _ _ _ _ _ _ hp
  | @workDone k _ _ hp | @workFail k _ _ _ _ hp | @flushed k _ hp | @flushFail k _ _ hp
  | @left k _ hp | @leaveFail k _ _ hp =>
    refine h.other rfl (.inl rfl) (fun j => ?_)
    by_cases hj : j = k
    · subst hj; right; simp [hp]
    · exact .inl (set_ne _ _ hj)

theorem sim {c : Cfg} {acts : List Act} {d : Nat → Byte} {s : Ex} (h : Ex.Reachable c acts d s) :
    Sim c s := by
  induction h with
  | init => exact ⟨_, .init, rfl, by simp⟩
  | step _ hs ih => exact sim_step ih hs

/-- What the simulation gives about the queue. -/
structure QInv (c : Cfg) (s : Ex) : Prop where
  maxlen : s.q.maxlen = c.depth
  bound : s.q.items.length ≤ c.depth
  nodupW : s.q.waiters.Nodup
  disj : ∀ t, t ∈ s.q.waiters → t ∉ s.q.woken
  live : ∀ t, t ∈ s.q.waiters ∨ t ∈ s.q.woken → s.callOf t ≠ none ∧ (t = 0 ∨ t ∈ consumers c)
  closedItems : s.q.closed = true → s.q.items = []
  closedWaiters : s.q.closed = true → s.q.waiters = []

theorem qinv {c : Cfg} {acts : List Act} {d : Nat → Byte} {s : Ex} (h : Ex.Reachable c acts d s) :
    QInv c s := by
  obtain ⟨T, hr, hq, hc⟩ := sim h
  have i := inv hr
  have ha : ∀ t cl, T.call t = some cl → OneProducer 0 (consumers c) t cl := by
    clear hq hc i
    induction hr with
    | init => simp
    | step _ hs ih =>
      intro t cl
      cases hs with
      | call hn ha =>
        simp only [set]; split
        · rename_i e; subst e; intro h; simp only [Option.some.injEq] at h; exact h ▸ ha
        · exact ih t cl
      | putBlocked | getBlocked | close => exact ih t cl
      | putRaised | putDone | getRaised | getDone =>
        simp only [set]; split
        · simp
        · exact ih t cl
  refine ⟨hq ▸ i.maxlen, hq ▸ i.bound, hq ▸ i.nodupW, hq ▸ i.disj, ?_, hq ▸ i.closedItems,
    hq ▸ i.closedWaiters⟩
  intro t ht
  have hne : T.call t ≠ none := by
    rw [← hq] at ht
    rcases ht with ht | ht
    · exact i.waitCall t ht
    · exact i.wokenCall t ht
  refine ⟨?_, ?_⟩
  · rw [← (hc t hne).2]; exact hne
  · cases hcl : T.call t with
    | none => exact absurd hcl hne
    | some cl =>
      have := ha t cl hcl
      cases cl with
      | put x => exact .inl this
      | get => exact .inr this

/-- With at most as many workers as the depth of the queue nobody is stranded. -/
structure QInv1 (s : Ex) : Prop where
  served : (∃ t ∈ s.q.waiters, t ≠ 0) → s.q.items ≠ [] → ∃ u ∈ s.q.woken, u ≠ 0
  full : 0 ∈ s.q.waiters → s.q.items.length = s.q.maxlen ∧ s.q.waiters = [0]

theorem qinv1 {c : Cfg} {acts : List Act} {d : Nat → Byte} {s : Ex} (h : Ex.Reachable c acts d s)
    (hd : c.workers ≤ c.depth) (h0 : 0 < c.depth) : QInv1 s := by
  obtain ⟨T, hr, hq, hc⟩ := sim h
  have j := inv1 (zero_consumers c) (by simpa [consumers] using hd) h0 hr
  refine ⟨?_, hq ▸ j.full⟩
  intro h1 h2
  have := j.served (by rw [hq]; exact h1)
  rw [hq] at this
  have hlen : s.q.items.length ≠ 0 := fun e => h2 (List.length_eq_zero_iff.1 e)
  cases hf : s.q.woken.filter (· ≠ 0) with
  | nil => rw [hf] at this; simp at this; exact absurd this h2
  | cons u us =>
    have hu : u ∈ s.q.woken.filter (· ≠ 0) := by rw [hf]; simp
    have := List.mem_filter.1 hu
    exact ⟨u, this.1, by simpa using this.2⟩

end Imageio.Io
