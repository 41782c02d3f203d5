import Verif.Lemmas.ClientQueue
import Mathlib.Logic.Relation
/-! Properties of the work queue of the client (C31, C32, C51). -/
namespace Imageio.Props
open Imageio Imageio.Io
variable {α : Type}

/-! ## C31 -/

/-- Whatever the threads do, the items that were taken are the first items that were put, in the order
of the puts: the `i`-th item taken is the `i`-th item put, so no item is taken twice. -/
theorem C31_fifo {maxSize : Nat} {allowed : Nat → Call α → Prop} {s : Threads α}
    (h : Threads.Reachable maxSize allowed s) :
    s.gotLog.length ≤ s.putLog.length ∧
    ∀ (i : Nat) (hi : i < s.gotLog.length), s.putLog[i]? = some (s.gotLog[i]).2 := by
  have hp := (inv h).prefix_
  obtain ⟨r, hr⟩ := hp
  constructor
  · rw [← hr]; simp
  · intro i hi
    rw [← hr, List.getElem?_append_left (by simpa using hi)]
    simp [hi]

/-- While the queue is open, an item that was put is in the queue or was taken; nothing is lost. -/
theorem C31_lossless {maxSize : Nat} {allowed : Nat → Call α → Prop} {s : Threads α}
    (h : Threads.Reachable maxSize allowed s) (ho : s.q.closed = false) :
    s.putLog = s.gotLog.map Prod.snd ++ s.q.items := (inv h).opened ho

/-- The queue never holds more than its bound. -/
theorem C31_bounded {maxSize : Nat} {allowed : Nat → Call α → Prop} {s : Threads α}
    (h : Threads.Reachable maxSize allowed s) : s.q.items.length ≤ maxSize := (inv h).bound

/-- A `put` that returns has added its item at the end and dropped none, although the deque drops items
when it is full. -/
theorem C31_put_keeps {maxSize : Nat} {allowed : Nat → Call α → Prop} {s : Threads α}
    (h : Threads.Reachable maxSize allowed s) (t : Nat) (x : α) {q : Queue α}
    (hq : s.q.put t x = (.put, q)) : q.items = s.q.items ++ [x] := by
  obtain ⟨_, hl, rfl⟩ := put_done hq
  have i := inv h
  exact drop_zero_of_lt (by rw [i.maxlen]; exact i.bound) hl

/-- A `get` that returns took the oldest item. -/
theorem C31_get_oldest (q : Queue α) (t : Nat) (x : α) {q' : Queue α}
    (hq : q.get t = (.got x, q')) : q.items = x :: q'.items := by
  obtain ⟨_, xs, hi, ⟨_, rfl⟩ | ⟨_, rfl⟩⟩ := get_done hq <;> exact hi

/-- A method that waits changes neither the items nor the state of the queue. -/
theorem C31_wait_keeps (q : Queue α) (t : Nat) (x : α) {q' : Queue α}
    (hq : q.put t x = (.blocked, q') ∨ q.get t = (.blocked, q')) :
    q'.items = q.items ∧ q'.closed = q.closed ∧ q'.maxlen = q.maxlen ∧ t ∈ q'.waiters := by
  rcases hq with hq | hq
  · obtain ⟨_, _, rfl⟩ := put_blocked hq; simp
  · obtain ⟨_, _, rfl⟩ := get_blocked hq; simp

/-! ## C32 -/

/-- With one producer and at most as many consumers as the bound: if a consumer sleeps although items
are queued, then for every item there is a consumer that was already woken and will take it. -/
theorem C32_consumer_not_stranded {maxSize p : Nat} {cs : List Nat} (hp : p ∉ cs)
    (hle : cs.length ≤ maxSize) (h0 : 0 < maxSize) {s : Threads α}
    (h : Threads.Reachable maxSize (OneProducer p cs) s) {t : Nat} (ht : t ∈ s.q.waiters)
    (htp : t ≠ p) :
    ∃ us : List Nat, us.Nodup ∧ us.length = s.q.items.length ∧
      ∀ u ∈ us, u ∈ s.q.woken ∧ u ∈ cs ∧ s.call u = some .get := by
  have i := inv h
  have j := inv1 hp hle h0 h
  refine ⟨(s.q.woken.filter (· ≠ p)).take s.q.items.length,
    (i.nodupR.filter _).sublist (List.take_sublist _ _), ?_, ?_⟩
  · rw [List.length_take]
    have := j.served ⟨t, ht, htp⟩
    omega
  · intro u hu
    have hu := List.mem_filter.1 (List.mem_of_mem_take hu)
    have hup : u ≠ p := by simpa using hu.2
    refine ⟨hu.1, ?_⟩
    cases hc : s.call u with
    | none => exact absurd hc (i.wokenCall u hu.1)
    | some c => cases c with
      | put x => exact absurd (j.putCall u x hc) hup
      | get => exact ⟨j.getCall u hc, rfl⟩

/-- The producer sleeps only while the queue is full, and then it is the only thread that sleeps. -/
theorem C32_producer_not_stranded {maxSize p : Nat} {cs : List Nat} (hp : p ∉ cs)
    (hle : cs.length ≤ maxSize) (h0 : 0 < maxSize) {s : Threads α}
    (h : Threads.Reachable maxSize (OneProducer p cs) s) (ht : p ∈ s.q.waiters) :
    s.q.items.length = maxSize ∧ ∀ t ∈ s.q.waiters, t = p := by
  have j := (inv1 hp hle h0 h).full ht
  rw [(inv h).maxlen] at j
  exact ⟨j.1, by rw [j.2]; simp⟩

/-- The next `get` wakes the sleeping producer. -/
theorem C32_get_wakes_producer {maxSize p : Nat} {cs : List Nat} (hp : p ∉ cs)
    (hle : cs.length ≤ maxSize) (h0 : 0 < maxSize) {s : Threads α}
    (h : Threads.Reachable maxSize (OneProducer p cs) s) (ht : p ∈ s.q.waiters) (t : Nat) :
    ∃ x q, s.q.get t = (.got x, q) ∧ p ∈ q.woken ∧ p ∉ q.waiters := by
  have i := inv h
  have j := (inv1 hp hle h0 h).full ht
  have ho : s.q.closed = false := by
    cases hc : s.q.closed
    · rfl
    · rw [i.closedWaiters hc] at ht; simp at ht
  rw [i.maxlen] at j
  rcases hi : s.q.items with _ | ⟨y, ys⟩
  · rw [hi] at j; simp at j; omega
  · have hl : ys.length + 1 = s.q.maxlen := by rw [i.maxlen, ← j.1, hi]; simp
    refine ⟨y, { s.q with items := ys, waiters := [], woken := s.q.woken.filter (· ≠ t) ++ [p] },
      ?_, by simp, by simp⟩
    simp [Queue.get, Queue.run, Queue.notify, ho, hi, hl, j.2]

/-- So the producer and all the consumers never sleep at the same time while there is something to do:
if all of them sleep, the queue is empty and the producer is not in a call. -/
theorem C32_no_deadlock {maxSize p : Nat} {cs : List Nat} (hp : p ∉ cs)
    (hle : cs.length ≤ maxSize) (h0 : 0 < maxSize) {s : Threads α}
    (h : Threads.Reachable maxSize (OneProducer p cs) s)
    (hall : ∀ t, s.call t ≠ none → t ∈ s.q.waiters) (hsome : ∃ t ∈ cs, s.call t ≠ none) :
    s.q.items = [] ∧ s.call p = none := by
  obtain ⟨t, htc, ht⟩ := hsome
  have htp : t ≠ p := fun e => hp (e ▸ htc)
  have htw := hall t ht
  have hpn : s.call p = none := by
    by_cases hc : s.call p = none
    · exact hc
    · exact absurd ((C32_producer_not_stranded hp hle h0 h (hall p hc)).2 t htw) htp
  refine ⟨?_, hpn⟩
  obtain ⟨us, _, hl, hu⟩ := C32_consumer_not_stranded hp hle h0 h htw htp
  rcases us with _ | ⟨u, us⟩
  · simp at hl; exact List.length_eq_zero_iff.1 hl.symm
  · have := hu u (by simp)
    exact absurd this.1 ((inv h).disj u (hall u (by simp [this.2.2])))

/-- With two consumers and a queue of one item, producer and consumers can all sleep although the queue
is open and empty: the notification for the producer woke a consumer. -/
theorem C32_many_consumers_counterexample :
    ∃ s : Threads Nat, Threads.Reachable 1 (OneProducer 0 [1, 2]) s ∧ s.q.closed = false ∧
      s.q.items = [] ∧ s.call 0 = some (.put 11) ∧ s.call 1 = some .get ∧ s.call 2 = some .get ∧
      s.q.waiters = [0, 2, 1] ∧ s.q.woken = [] := by
  refine ⟨_, .step (.step (.step (.step (.step (.step (.step (.step (.step (.step (.step (.step .init
      (.call (t := 1) (c := .get) rfl (by simp [OneProducer])))
      (.getBlocked (t := 1) rfl (by decide) rfl))
      (.call (t := 2) (c := .get) rfl (by simp [OneProducer])))
      (.getBlocked (t := 2) rfl (by decide) rfl))
      (.call (t := 0) (c := .put 10) rfl (by simp [OneProducer])))
      (.putDone (t := 0) (x := 10) rfl (by decide) rfl))
      (.call (t := 0) (c := .put 11) rfl (by simp [OneProducer])))
      (.putBlocked (t := 0) (x := 11) rfl (by decide) rfl))
      (.getDone (t := 1) (x := 10) rfl (by decide) rfl))
      (.getBlocked (t := 2) rfl (by decide) rfl))
      (.call (t := 1) (c := .get) rfl (by simp [OneProducer])))
      (.getBlocked (t := 1) rfl (by decide) rfl), by decide⟩

/-! ## C51 -/

/-- Closing wakes all waiting threads and removes all items. -/
theorem C51_close (q : Queue α) :
    q.close.closed = true ∧ q.close.items = [] ∧ q.close.waiters = [] ∧
    ∀ t ∈ q.waiters, t ∈ q.close.woken := by
  refine ⟨rfl, rfl, rfl, ?_⟩
  intro t ht
  simp [Queue.close, Queue.notifyAll, ht]

/-- Every method that runs on a closed queue raises: a later call, and a call that was waiting. -/
theorem C51_raises (q : Queue α) (hc : q.closed = true) (t : Nat) (x : α) :
    (q.put t x).1 = .raised ∧ (q.get t).1 = .raised := by
  simp [Queue.put, Queue.get, Queue.run, hc]

/-- After the close nobody sleeps, nothing is delivered, nothing is added, and the queue stays closed,
whatever the threads do. -/
theorem C51_stays_closed {maxSize : Nat} {allowed : Nat → Call α → Prop} {s s' : Threads α}
    (h : Threads.Reachable maxSize allowed s) (hc : s.q.closed = true)
    (hs : Relation.ReflTransGen (Threads.Step allowed) s s') :
    s'.q.closed = true ∧ s'.gotLog = s.gotLog ∧ s'.putLog = s.putLog ∧ s'.q.items = [] ∧
    s'.q.waiters = [] := by
  suffices hh : Threads.Reachable maxSize allowed s' ∧ s'.q.closed = true ∧ s'.gotLog = s.gotLog ∧
      s'.putLog = s.putLog by
    exact ⟨hh.2.1, hh.2.2.1, hh.2.2.2, (inv hh.1).closedItems hh.2.1, (inv hh.1).closedWaiters hh.2.1⟩
  induction hs with
  | refl => exact ⟨h, hc, rfl, rfl⟩
  | tail _ hstep ih =>
    obtain ⟨hr, hcl, hg, hpl⟩ := ih
    refine ⟨hr.step hstep, ?_⟩
    cases hstep with
    | call => exact ⟨hcl, hg, hpl⟩
    | putBlocked _ _ hq => exact absurd hcl (by simp [(put_blocked hq).1])
    | putRaised _ _ hq => obtain ⟨ho, rfl⟩ := put_raised hq; exact ⟨hcl, hg, hpl⟩
    | putDone _ _ hq => exact absurd hcl (by simp [(put_done hq).1])
    | getBlocked _ _ hq => exact absurd hcl (by simp [(get_blocked hq).1])
    | getRaised _ _ hq => obtain ⟨ho, rfl⟩ := get_raised hq; exact ⟨hcl, hg, hpl⟩
    | getDone _ _ hq => exact absurd hcl (by simp [(get_done hq).1])
    | close => exact ⟨rfl, hg, hpl⟩

/-- In a closed queue every thread that is in a call can run, and its call raises `Closed`. -/
theorem C51_released {maxSize : Nat} {allowed : Nat → Call α → Prop} {s : Threads α}
    (h : Threads.Reachable maxSize allowed s) (hc : s.q.closed = true) {t : Nat}
    (ht : s.call t ≠ none) :
    ∃ s', Threads.Step allowed s s' ∧ s'.call t = none ∧ s'.raisedLog = s.raisedLog ++ [t] := by
  have hw : t ∉ s.q.waiters := by rw [(inv h).closedWaiters hc]; simp
  cases hcall : s.call t with
  | none => exact absurd hcall ht
  | some c => cases c with
    | put x =>
      exact ⟨_, .putRaised hcall hw (q := s.q.run t) (by simp [Queue.put, Queue.run, hc]), by simp, rfl⟩
    | get =>
      exact ⟨_, .getRaised hcall hw (q := s.q.run t) (by simp [Queue.get, Queue.run, hc]), by simp, rfl⟩

/-- Only a closed queue raises. -/
theorem C51_only_closed {maxSize : Nat} {allowed : Nat → Call α → Prop} {s : Threads α}
    (h : Threads.Reachable maxSize allowed s) (hr : s.raisedLog ≠ []) : s.q.closed = true :=
  (inv h).raised hr

/-! ## Examples -/

/-- A schedule with a consumer that waits, a put that wakes it, a put that waits because the queue is
full, and a get that wakes the producer. -/
example : ∃ s : Threads Nat, Threads.Reachable 1 (OneProducer 0 [1]) s ∧ 0 ∈ s.q.waiters ∧
    s.q.items = [11] ∧ s.putLog = [10, 11] ∧ s.gotLog = [(1, 10)] := by
  refine ⟨_, .step (.step (.step (.step (.step (.step (.step (.step (.step .init
      (.call (t := 1) (c := .get) rfl (by simp [OneProducer])))
      (.getBlocked (t := 1) rfl (by decide) rfl))
      (.call (t := 0) (c := .put 10) rfl (by simp [OneProducer])))
      (.putDone (t := 0) (x := 10) rfl (by decide) rfl))
      (.getDone (t := 1) (x := 10) rfl (by decide) rfl))
      (.call (t := 0) (c := .put 11) rfl (by simp [OneProducer])))
      (.putDone (t := 0) (x := 11) rfl (by decide) rfl))
      (.call (t := 0) (c := .put 12) rfl (by simp [OneProducer])))
      (.putBlocked (t := 0) (x := 12) rfl (by decide) rfl), by decide⟩

/-- A consumer sleeps although an item is queued, because another consumer was woken for it. -/
example : ∃ s : Threads Nat, Threads.Reachable 2 (OneProducer 0 [1, 2]) s ∧ 2 ∈ s.q.waiters ∧
    s.q.items = [10] ∧ s.q.woken = [1] := by
  refine ⟨_, .step (.step (.step (.step (.step (.step .init
      (.call (t := 1) (c := .get) rfl (by simp [OneProducer])))
      (.getBlocked (t := 1) rfl (by decide) rfl))
      (.call (t := 2) (c := .get) rfl (by simp [OneProducer])))
      (.getBlocked (t := 2) rfl (by decide) rfl))
      (.call (t := 0) (c := .put 10) rfl (by simp [OneProducer])))
      (.putDone (t := 0) (x := 10) rfl (by decide) rfl), by decide⟩

/-- A waiting consumer is released by a close. -/
example : ∃ s : Threads Nat, Threads.Reachable 2 (OneProducer 0 [1, 2]) s ∧ s.q.closed = true ∧
    s.call 1 ≠ none ∧ s.q.woken = [1] := by
  refine ⟨_, .step (.step (.step .init
      (.call (t := 1) (c := .get) rfl (by simp [OneProducer])))
      (.getBlocked (t := 1) rfl (by decide) rfl))
      (.close (t := 0) rfl), by decide⟩

end Imageio.Props
