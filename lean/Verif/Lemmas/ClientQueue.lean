import Verif.Model.ClientQueue
import Mathlib.Data.List.Perm.Subperm
import Mathlib.Data.List.Nodup
/-! Invariants of the work queue of the client. -/
namespace Imageio.Io
variable {α : Type}

@[simp] theorem set_same {β : Type} (f : Nat → β) (t : Nat) (b : β) : set f t b t = b := by simp [set]
theorem set_ne {β : Type} (f : Nat → β) {t x : Nat} (b : β) (h : x ≠ t) : set f t b x = f x := by
  simp [set, h]

/-! ## What each method does -/

theorem put_blocked {q q' : Queue α} {t : Nat} {x : α} (h : q.put t x = (.blocked, q')) :
    q.closed = false ∧ q.items.length = q.maxlen ∧
    q' = { q with woken := q.woken.filter (· ≠ t), waiters := q.waiters ++ [t] } := by
  by_cases hc : q.closed = true <;> by_cases hl : q.items.length = q.maxlen <;>
    simp [Queue.put, Queue.run, Queue.wait, hc, hl] at h ⊢
  exact h.symm


theorem put_raised {q q' : Queue α} {t : Nat} {x : α} (h : q.put t x = (.raised, q')) :
    q.closed = true ∧ q' = { q with woken := q.woken.filter (· ≠ t) } := by
  by_cases hc : q.closed = true <;> by_cases hl : q.items.length = q.maxlen <;>
    simp [Queue.put, Queue.run, Queue.wait, hc, hl] at h ⊢
  all_goals exact h.symm


theorem put_done {q q' : Queue α} {t : Nat} {x : α} (h : q.put t x = (.put, q')) :
    q.closed = false ∧ q.items.length ≠ q.maxlen ∧
    q' = { q with items := (q.items ++ [x]).drop (q.items.length + 1 - q.maxlen),
                  waiters := q.waiters.tail,
                  woken := q.woken.filter (· ≠ t) ++ q.waiters.head?.toList } := by
  by_cases hc : q.closed = true <;> by_cases hl : q.items.length = q.maxlen <;>
    simp [Queue.put, Queue.run, Queue.wait, hc, hl] at h ⊢
  subst h
  cases hw : q.waiters <;> simp [Queue.notify, Queue.append]


theorem get_blocked {q q' : Queue α} {t : Nat} (h : q.get t = (.blocked, q')) :
    q.closed = false ∧ q.items = [] ∧
    q' = { q with woken := q.woken.filter (· ≠ t), waiters := q.waiters ++ [t] } := by
  by_cases hc : q.closed = true <;> rcases hi : q.items with _ | ⟨y, ys⟩ <;>
    simp [Queue.get, Queue.run, Queue.wait, hc, hi] at h ⊢
  · exact h.symm
  · split at h <;> simp at h


theorem get_raised {q q' : Queue α} {t : Nat} (h : q.get t = (.raised, q')) :
    q.closed = true ∧ q' = { q with woken := q.woken.filter (· ≠ t) } := by
  by_cases hc : q.closed = true <;> rcases hi : q.items with _ | ⟨y, ys⟩ <;>
    simp [Queue.get, Queue.run, Queue.wait, hc, hi] at h ⊢
  · exact h.symm
  · exact h.symm
  · split at h <;> simp at h


theorem get_done {q q' : Queue α} {t : Nat} {x : α} (h : q.get t = (.got x, q')) :
    q.closed = false ∧ ∃ xs, q.items = x :: xs ∧
    ((q.items.length = q.maxlen ∧
      q' = { q with items := xs, waiters := q.waiters.tail,
                    woken := q.woken.filter (· ≠ t) ++ q.waiters.head?.toList }) ∨
     (q.items.length ≠ q.maxlen ∧ q' = { q with items := xs, woken := q.woken.filter (· ≠ t) })) := by
  by_cases hc : q.closed = true <;> rcases hi : q.items with _ | ⟨y, ys⟩ <;>
    simp [Queue.get, Queue.run, Queue.wait, hc, hi] at h ⊢
  by_cases hl : ys.length + 1 = q.maxlen <;> simp [hl] at h ⊢
  · obtain ⟨rfl, rfl⟩ := h
    cases hw : q.waiters <;> simp [Queue.notify]
  · exact ⟨h.1, h.2.symm⟩


/-! ## Any number of producers and consumers -/

/-- What is true for all threads and calls. -/
structure Inv (maxSize : Nat) (s : Threads α) : Prop where
  maxlen : s.q.maxlen = maxSize
  bound : s.q.items.length ≤ maxSize
  nodupW : s.q.waiters.Nodup
  nodupR : s.q.woken.Nodup
  disj : ∀ t, t ∈ s.q.waiters → t ∉ s.q.woken
  waitCall : ∀ t, t ∈ s.q.waiters → s.call t ≠ none
  wokenCall : ∀ t, t ∈ s.q.woken → s.call t ≠ none
  closedItems : s.q.closed = true → s.q.items = []
  closedWaiters : s.q.closed = true → s.q.waiters = []
  opened : s.q.closed = false → s.putLog = s.gotLog.map Prod.snd ++ s.q.items
  prefix_ : s.gotLog.map Prod.snd <+: s.putLog
  raised : s.raisedLog ≠ [] → s.q.closed = true

theorem drop_zero_of_lt {q : Queue α} {x : α} (h1 : q.items.length ≤ q.maxlen)
    (h2 : q.items.length ≠ q.maxlen) :
    (q.items ++ [x]).drop (q.items.length + 1 - q.maxlen) = q.items ++ [x] := by
  have : q.items.length + 1 - q.maxlen = 0 := by omega
  simp [this]

theorem head_tail {l : List Nat} (h : l.Nodup) : ∀ t, t ∈ l.head?.toList → t ∈ l ∧ t ∉ l.tail := by
  cases l with
  | nil => simp
  | cons a as => simp only [List.nodup_cons] at h; intro t ht; simp at ht; subst ht; simp [h.1]

theorem nodup_head {l : List Nat} : (l.head?.toList).Nodup := by cases l <;> simp

theorem Inv.step {maxSize : Nat} {allowed : Nat → Call α → Prop} {s s' : Threads α}
    (i : Inv maxSize s) (hs : Threads.Step allowed s s') : Inv maxSize s' := by
  have htail : ∀ t, t ∈ s.q.waiters.tail → t ∈ s.q.waiters := fun t => List.mem_of_mem_tail
  have hnt : s.q.waiters.tail.Nodup := i.nodupW.sublist (List.tail_sublist _)
  have hht := head_tail i.nodupW
  cases hs with
  | call h ha =>
    refine { i with waitCall := ?_, wokenCall := ?_ }
    all_goals
      intro u hu
      simp only [set]
      split
      · simp
      · first | exact i.waitCall u hu | exact i.wokenCall u hu
  | @putBlocked t x q h hw hq =>
    obtain ⟨ho, hl, rfl⟩ := put_blocked hq
    have := i.disj
    constructor <;> simp only
    case nodupW => rw [List.nodup_append]; grind [i.nodupW]
    case nodupR => exact i.nodupR.filter _
    case prefix_ => exact i.prefix_
    all_goals grind [i.maxlen, i.bound, i.waitCall, i.wokenCall, i.opened, i.raised]
  | @getBlocked t q h hw hq =>
    obtain ⟨ho, hl, rfl⟩ := get_blocked hq
    have := i.disj
    constructor <;> simp only
    case nodupW => rw [List.nodup_append]; grind [i.nodupW]
    case nodupR => exact i.nodupR.filter _
    case prefix_ => exact i.prefix_
    all_goals grind [i.maxlen, i.bound, i.waitCall, i.wokenCall, i.opened, i.raised]
  | @putRaised t x q h hw hq =>
    obtain ⟨ho, rfl⟩ := put_raised hq
    have := i.disj
    constructor <;> simp only
    case nodupW => exact i.nodupW
    case nodupR => exact i.nodupR.filter _
    case prefix_ => exact i.prefix_
    all_goals grind [set, i.maxlen, i.bound, i.waitCall, i.wokenCall, i.opened, i.raised,
      i.closedItems, i.closedWaiters]
  | @getRaised t q h hw hq =>
    obtain ⟨ho, rfl⟩ := get_raised hq
    have := i.disj
    constructor <;> simp only
    case nodupW => exact i.nodupW
    case nodupR => exact i.nodupR.filter _
    case prefix_ => exact i.prefix_
    all_goals grind [set, i.maxlen, i.bound, i.waitCall, i.wokenCall, i.opened, i.raised,
      i.closedItems, i.closedWaiters]
  | @putDone t x q h hw hq =>
    obtain ⟨ho, hl, rfl⟩ := put_done hq
    have hm := i.maxlen
    have hb := i.bound
    rw [drop_zero_of_lt (by omega) hl]
    have hd := i.disj
    constructor <;> simp only
    case nodupW => exact hnt
    case nodupR =>
      rw [List.nodup_append]
      refine ⟨i.nodupR.filter _, nodup_head, ?_⟩
      intro a ha b hb' hab
      subst hab
      exact hd a (hht a hb').1 (List.mem_filter.1 ha).1
    case prefix_ => exact i.prefix_.trans (List.prefix_append _ _)
    case bound => simp only [List.length_append, List.length_singleton]; omega
    case opened => intro _; rw [i.opened ho]; simp
    case maxlen => exact hm
    case disj => grind
    case raised => exact i.raised
    all_goals grind [set, i.waitCall, i.wokenCall]
  | @getDone t x q h hw hq =>
    obtain ⟨ho, xs, hi, hcase⟩ := get_done hq
    have hop := i.opened ho
    have hb := i.bound
    rw [hi] at hop hb
    have hd := i.disj
    have hpre : (s.gotLog ++ [(t, x)]).map Prod.snd <+: s.putLog := by
      rw [hop]; exact ⟨xs, by simp⟩
    have hopen : s.putLog = (s.gotLog ++ [(t, x)]).map Prod.snd ++ xs := by rw [hop]; simp
    simp only [List.length_cons] at hb
    rcases hcase with ⟨hl, rfl⟩ | ⟨hl, rfl⟩
    · constructor <;> simp only
      case nodupW => exact hnt
      case nodupR =>
        rw [List.nodup_append]
        refine ⟨i.nodupR.filter _, nodup_head, ?_⟩
        intro a ha b hb' hab
        subst hab
        exact hd a (hht a hb').1 (List.mem_filter.1 ha).1
      case prefix_ => exact hpre
      case opened => exact fun _ => hopen
      case bound => omega
      case maxlen => exact i.maxlen
      case raised => exact i.raised
      case disj => grind
      all_goals grind [set, i.waitCall, i.wokenCall]
    · constructor <;> simp only
      case nodupW => exact i.nodupW
      case nodupR => exact i.nodupR.filter _
      case prefix_ => exact hpre
      case opened => exact fun _ => hopen
      case bound => omega
      case maxlen => exact i.maxlen
      case raised => exact i.raised
      case disj => grind
      all_goals grind [set, i.waitCall, i.wokenCall]
  | close h =>
    have hd := i.disj
    constructor <;> simp only [Queue.close, Queue.notifyAll]
    case nodupR =>
      rw [List.nodup_append]
      exact ⟨i.nodupR, i.nodupW, fun a ha b hb hab => hd b hb (hab ▸ ha)⟩
    case prefix_ => exact i.prefix_
    case maxlen => exact i.maxlen
    all_goals grind [i.waitCall, i.wokenCall]

theorem Inv.init {maxSize : Nat} : Inv maxSize (⟨.new maxSize, fun _ => none, [], [], []⟩ : Threads α) := by
  constructor <;> simp [Queue.new]

theorem inv {maxSize : Nat} {allowed : Nat → Call α → Prop} {s : Threads α}
    (h : Threads.Reachable maxSize allowed s) : Inv maxSize s := by
  induction h with
  | init => exact .init
  | step _ hs ih => exact ih.step hs

/-! ## One producer -/

/-- Thread `p` only puts, and the threads in `cs` only get. -/
def OneProducer (p : Nat) (cs : List Nat) : Nat → Call α → Prop
  | t, .put _ => t = p
  | t, .get => t ∈ cs

/-- What is true with one producer. -/
structure Inv1 (p : Nat) (cs : List Nat) (s : Threads α) : Prop where
  putCall : ∀ t x, s.call t = some (.put x) → t = p
  getCall : ∀ t, s.call t = some .get → t ∈ cs
  served : (∃ t ∈ s.q.waiters, t ≠ p) → s.q.items.length ≤ (s.q.woken.filter (· ≠ p)).length
  full : p ∈ s.q.waiters → s.q.items.length = s.q.maxlen ∧ s.q.waiters = [p]

theorem filter_le {l : List Nat} (h : l.Nodup) (t p : Nat) :
    (l.filter (· ≠ p)).length ≤ ((l.filter (· ≠ t)).filter (· ≠ p)).length + 1 := by
  have hp : (l.filter (· ≠ p)).Nodup := h.filter _
  have e : (l.filter (· ≠ t)).filter (· ≠ p) = (l.filter (· ≠ p)).filter (· ≠ t) := by
    rw [List.filter_filter, List.filter_filter]; congr 1; funext a; exact Bool.and_comm _ _
  rw [e]
  generalize l.filter (· ≠ p) = m at hp
  induction m with
  | nil => simp
  | cons a as ih =>
    rw [List.nodup_cons] at hp
    by_cases ha : a = t
    · subst ha
      have : as.filter (· ≠ a) = as := by
        rw [List.filter_eq_self]; intro b hb; simp; intro e; exact hp.1 (e ▸ hb)
      simp only [List.filter_cons, ne_eq, not_true_eq_false, decide_false, List.length_cons]
      simp only [ne_eq] at this
      simp only [this]
      simp
    · have := ih hp.2
      simp only [ne_eq] at this
      simp only [List.filter_cons, ne_eq, ha, not_false_eq_true, decide_true, List.length_cons]
      simp
      simpa using this

theorem filter_self {l : List Nat} (p : Nat) : (l.filter (· ≠ p)).filter (· ≠ p) = l.filter (· ≠ p) := by
  rw [List.filter_filter]; simp

theorem Inv1.step {maxSize p : Nat} {cs : List Nat} (hp : p ∉ cs)
    (hle : cs.length ≤ maxSize) (h0 : 0 < maxSize) {s s' : Threads α}
    (i : Inv maxSize s) (j : Inv1 p cs s) (hs : Threads.Step (OneProducer p cs) s s') :
    Inv1 p cs s' := by
  have hm := i.maxlen
  have hb := i.bound
  have hwc := i.waitCall
  have hrc := i.wokenCall
  have hpc := j.putCall
  have hgc := j.getCall
  have hth : ∀ t, s.call t ≠ none → t ≠ p → t ∈ cs := by
    intro t h1 h2
    cases hc : s.call t with
    | none => exact absurd hc h1
    | some c => cases c with
      | put x => exact absurd (hpc t x hc) h2
      | get => exact hgc t hc
  have hgp : ∀ t, s.call t = some .get → t ≠ p := fun t h e => hp (e ▸ hgc t h)
  cases hs with
  | @call t c h ha =>
    refine ⟨?_, ?_, j.served, j.full⟩
    · intro u x hu
      simp only [set] at hu
      split at hu
      · simp only [Option.some.injEq] at hu; subst hu; rename_i e; subst e; exact ha
      · exact hpc u x hu
    · intro u hu
      simp only [set] at hu
      split at hu
      · simp only [Option.some.injEq] at hu; subst hu; rename_i e; subst e; exact ha
      · exact hgc u hu
  | @putBlocked t x q h hw hq =>
    obtain ⟨ho, hl, rfl⟩ := put_blocked hq
    have e := hpc t x h
    subst e
    -- nobody else waits: the items would be at most the woken consumers
    have hnil : s.q.waiters = [] := by
      rw [List.eq_nil_iff_forall_not_mem]
      intro u hu
      have hut : u ≠ t := fun e => hw (e ▸ hu)
      have h1 := j.served ⟨u, hu, hut⟩
      have hsub : (u :: s.q.woken.filter (· ≠ t)) ⊆ cs := by
        intro v hv
        rcases List.mem_cons.1 hv with rfl | hv
        · exact hth _ (hwc _ hu) hut
        · have := List.mem_filter.1 hv
          exact hth _ (hrc _ this.1) (by simpa using this.2)
      have hnd : (u :: s.q.woken.filter (· ≠ t)).Nodup := by
        rw [List.nodup_cons]
        exact ⟨fun hv => i.disj u hu (List.mem_filter.1 hv).1, i.nodupR.filter _⟩
      have := (List.subperm_of_subset hnd hsub).length_le
      simp only [List.length_cons] at this
      omega
    refine ⟨hpc, hgc, ?_, ?_⟩
    · rintro ⟨u, hu, hup⟩
      simp [hnil] at hu
      exact absurd hu hup
    · intro _; exact ⟨hl, by simp [hnil]⟩
  | @putRaised t x q h hw hq =>
    obtain ⟨ho, rfl⟩ := put_raised hq
    have hwn := i.closedWaiters ho
    refine ⟨?_, ?_, ?_, ?_⟩
    · grind [set]
    · grind [set]
    · simp [hwn]
    · simp [hwn]
  | @getRaised t q h hw hq =>
    obtain ⟨ho, rfl⟩ := get_raised hq
    have hwn := i.closedWaiters ho
    refine ⟨?_, ?_, ?_, ?_⟩
    · grind [set]
    · grind [set]
    · simp [hwn]
    · simp [hwn]
  | @putDone t x q h hw hq =>
    obtain ⟨ho, hl, rfl⟩ := put_done hq
    have e := hpc t x h
    subst e
    rw [drop_zero_of_lt (by omega) hl]
    refine ⟨by grind [set], by grind [set], ?_, ?_⟩
    · rintro ⟨u, hu, hut⟩
      simp only at hu ⊢
      have hu' := List.mem_of_mem_tail hu
      have h1 := j.served ⟨u, hu', hut⟩
      cases hW : s.q.waiters with
      | nil => rw [hW] at hu; simp at hu
      | cons a as =>
        have hat : a ≠ t := by intro e; apply hw; rw [hW, e]; simp
        rw [List.filter_append, List.length_append]
        simp only [List.head?_cons, Option.toList_some, List.length_append, List.length_singleton,
          List.filter_cons, ne_eq, hat, not_false_eq_true, decide_true, List.filter_nil, if_true]
        have := filter_self (l := s.q.woken) t
        simp only [ne_eq] at this h1
        simp only [this]
        omega
    · intro hu
      exact absurd (List.mem_of_mem_tail hu) hw
  | @getBlocked t q h hw hq =>
    obtain ⟨ho, hl, rfl⟩ := get_blocked hq
    refine ⟨hpc, hgc, ?_, ?_⟩
    · intro _; simp [hl]
    · intro hu
      simp only [List.mem_append, List.mem_singleton] at hu
      rcases hu with hu | hu
      · have := (j.full hu).1
        rw [hl, hm] at this
        simp at this; omega
      · exact absurd hu.symm (hgp t h)
  | @getDone t x q h hw hq =>
    obtain ⟨ho, xs, hi, hcase⟩ := get_done hq
    have htp := hgp t h
    have hlen : s.q.items.length = xs.length + 1 := by simp [hi]
    have hf := filter_le i.nodupR t p
    rcases hcase with ⟨hl, rfl⟩ | ⟨hl, rfl⟩
    · refine ⟨by grind [set], by grind [set], ?_, ?_⟩
      · rintro ⟨u, hu, hut⟩
        simp only at hu ⊢
        have h1 := j.served ⟨u, List.mem_of_mem_tail hu, hut⟩
        rw [List.filter_append, List.length_append]
        omega
      · intro hu
        simp only at hu
        have := (j.full (List.mem_of_mem_tail hu)).2
        rw [this] at hu
        simp at hu
    · refine ⟨by grind [set], by grind [set], ?_, ?_⟩
      · rintro ⟨u, hu, hut⟩
        simp only at hu ⊢
        have h1 := j.served ⟨u, hu, hut⟩
        omega
      · intro hu
        exact absurd (j.full hu).1 hl
  | close h =>
    refine ⟨hpc, hgc, ?_, ?_⟩ <;> simp [Queue.close, Queue.notifyAll]

theorem inv1 {maxSize p : Nat} {cs : List Nat} (hp : p ∉ cs)
    (hle : cs.length ≤ maxSize) (h0 : 0 < maxSize) {s : Threads α}
    (h : Threads.Reachable maxSize (OneProducer p cs) s) : Inv1 p cs s := by
  induction h with
  | init => constructor <;> simp [Queue.new]
  | step hr hs ih => exact ih.step hp hle h0 (inv hr) hs

end Imageio.Io
