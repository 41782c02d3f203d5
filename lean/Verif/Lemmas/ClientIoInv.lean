import Verif.Lemmas.ClientIo
/-! Errors, stops and requests in the concurrent copy. -/
namespace Imageio.Io
variable {c : Cfg}

/-- The requests that the main thread submits. -/
def reqs (acts : List Act) : List Req := acts.filterMap fun | .put r => some r | .skip _ => none

/-- The number of `STOP` requests that the main thread has to put. -/
def Main.stops (n : Nat) : Main → Nat
  | .submit _ => n
  | .stopping l => l
  | _ => 0

/-- The worker is done with the requests. -/
def Pc.gone : Pc → Bool
  | .leaving | .finished => true
  | _ => false

def isStop (r : Req) : Bool := r.op = .stop

structure EInv (c : Cfg) (acts : List Act) (s : Ex) : Prop where
  errFail : s.errors ≠ [] → s.q.closed = true ∨ ∃ k, k < c.workers ∧ (s.w k).pc = .failing
  failErr : ∀ k, k < c.workers → (s.w k).pc = .failing → s.errors ≠ []
  closedErr : s.q.closed = true → s.errors ≠ [] ∨ (∃ e, s.main = .joining (some e)) ∨
    ∃ e, s.main = .done (some e)
  abortClosed : ∀ e, s.main = .joining (some e) → s.q.closed = true
  goneStopped : s.errors = [] → s.q.closed = false → ∀ k, k < c.workers → (s.w k).pc.gone = true →
    (s.w k).stopped = true
  stoppedPc : ∀ k, (s.w k).stopped = true → (s.w k).pc = .stopping ∨ (s.w k).pc.gone = true ∨
    (s.w k).pc = .failing
  goneClean : s.errors = [] → ∀ k, (s.w k).stopped = true → (s.w k).pc.gone = true →
    (s.w k).dirty = false
  stops : s.errors = [] → s.q.closed = false →
    sumTo c.workers (fun k => (s.w k).stopped.toNat) + (s.q.items.countP isStop) + s.main.stops c.workers =
      c.workers
  sorted : s.q.items.Pairwise (fun a b => isStop a = true → isStop b = true)
  drained : ∀ k, (s.w k).stopped = true → ∀ r ∈ s.q.items, isStop r = true
  submitting : ∀ todo, s.main = .submit todo → (∀ r ∈ s.q.items, isStop r = false) ∧
    (∀ k, (s.w k).stopped = false) ∧ ∃ done, acts = done ++ todo
  stopPc : ∀ k, (s.w k).pc = .stopping → (s.w k).stopped = true
  doneFin : ∀ e, s.main = .done e → ∀ k, k < c.workers → (s.w k).pc = .finished
  doneRes : ∀ e, s.main = .done e → (e = none → s.errors = []) ∧ (s.errors ≠ [] → e ≠ none)

theorem EInv.init {acts : List Act} {d : Nat → Byte} : EInv c acts (.init c acts d) := by
  constructor <;> simp [Ex.init, Queue.new, Main.stops, Pc.gone, sumTo_zero]

theorem mem_reqs {acts done todo : List Act} {r : Req} (h : acts = done ++ .put r :: todo) :
    r ∈ reqs acts := by
  subst h; simp [reqs]

set_option maxHeartbeats 1600000 in
theorem EInv.step {acts : List Act} (ha : ∀ r ∈ reqs acts, r.op ≠ .stop) {s s' : Ex} (hq : QInv c s)
    (i : EInv c acts s) (hs : Ex.Step c s s') : EInv c acts s' := by
  have hb : s.q.items.length ≤ s.q.maxlen := by rw [hq.maxlen]; exact hq.bound
  have hset := fun (k : Nat) (hk : k < c.workers) (v : WorkerState) =>
    sumTo_set (fun w => w.stopped.toNat) s.w hk v
  have hex : ∀ (k : Nat) (v : WorkerState), (s.w k).pc ≠ .failing →
      (∃ j, j < c.workers ∧ (s.w j).pc = .failing) →
      ∃ j, j < c.workers ∧ (set s.w k v j).pc = .failing := by
    rintro k v hk ⟨j, hj, hf⟩
    have hjk : j ≠ k := by rintro rfl; exact hk hf
    exact ⟨j, hj, by rw [set_ne _ _ hjk]; exact hf⟩
  obtain ⟨i1, i2, i3, i4, i5, i6, i7, i8, i9, i10, i11, i14, i12, i13⟩ := i
  cases hs with
  | skip hm =>
    obtain ⟨a1, a2, dn, a3⟩ := i11 _ hm
    constructor <;> simp only [hm, Main.stops] at * <;> try grind
    intro todo h
    simp only [Main.submit.injEq] at h
    subst h
    exact ⟨a1, a2, dn ++ [_], by rw [a3]; simp; rfl⟩
  | @putDone r todo q hm hw h =>
    obtain ⟨h1, h2, h3, h4⟩ := put_items hb h
    obtain ⟨a1, a2, dn, a3⟩ := i11 _ hm
    have hr : isStop r = false := by
      have := ha r (mem_reqs a3)
      simp [isStop, this]
    have hr2 : ∀ r', r' = r → isStop r' = false := fun r' e => e ▸ hr
    constructor <;> simp only [hm, Main.stops, h1, h2, h3, List.countP_append, List.countP_singleton, hr,
      List.pairwise_append] at * <;> try grind
    intro todo h
    simp only [Main.submit.injEq] at h
    subst h
    exact ⟨by grind, a2, dn ++ [_], by rw [a3]; simp; rfl⟩
  | putBlocked hm hw h =>
    obtain ⟨h1, h2, h3⟩ := put_wait h
    constructor <;> simp only [h1, h2] at * <;> assumption
  | stopBlocked hm hw h =>
    obtain ⟨h1, h2, h3⟩ := put_wait h
    constructor <;> simp only [h1, h2] at * <;> assumption
  | getBlocked hk hp hw h =>
    obtain ⟨h1, h2, h3⟩ := get_wait h
    constructor <;> simp only [h1, h2] at * <;> assumption
  | putRaised hm hw h =>
    obtain ⟨h1, h2, h3, h4⟩ := put_closed h
    constructor <;> simp only [h1, h2, h3, hm] at * <;> grind
  | submitDone hm =>
    constructor <;> simp only [hm, Main.stops] at * <;> grind
  | mainFail hm hw hr =>
    constructor <;> simp only [hm, Queue.close, Queue.notifyAll] at * <;> grind
  | stopPut hm hw h =>
    obtain ⟨h1, h2, h3, h4⟩ := put_items hb h
    have hr : isStop stopReq = true := rfl
    have hr2 : ∀ r', r' = stopReq → isStop r' = true := fun r' e => e ▸ hr
    constructor <;> simp only [hm, Main.stops, h1, h2, h3, List.countP_append, List.countP_singleton, hr,
      List.pairwise_append] at * <;> grind
  | stopRaised hm hw h =>
    obtain ⟨h1, h2, h3, h4⟩ := put_closed h
    constructor <;> simp only [h1, h2, h3, hm] at * <;> grind
  | stopDone hm =>
    constructor <;> simp only [hm, Main.stops] at * <;> grind
  | @joined e hm hw =>
    constructor <;> simp only [hm, Main.stops] at * <;> try grind
    · intro hc
      rcases i3 hc with h | ⟨e', h⟩ | ⟨e', h⟩
      · exact .inl h
      · simp only [Main.joining.injEq] at h; subst h; exact .inr (.inr ⟨e', rfl⟩)
      · simp at h
    · intro e' h
      simp only [Main.done.injEq] at h
      subst h
      unfold Ex.result
      cases e <;> simp
  | @started k hk hp =>
    have hsum := hset k hk { s.w k with pc := .getting }
    clear hset
    constructor
    case errFail =>
      intro he
      rcases i1 he with h | h
      · exact .inl h
      · exact .inr (hex k _ (by simp [hp]) h)
    all_goals clear hex
    all_goals simp only [Ex.setW] at *
    all_goals grind [set, Pc.gone]
  | @startFail k e hk hp =>
    clear hset
    constructor
    case errFail => exact fun _ => .inr ⟨k, hk, by simp [Ex.setW]⟩
    all_goals clear hex
    all_goals simp only [Ex.setW] at *
    all_goals have hne : s.errors ++ [e] ≠ [] := by simp
    all_goals try generalize s.errors ++ [e] = es at hne ⊢
    all_goals grind [set, Pc.gone]
  | @getDone k r q hk hp hw h hr =>
    obtain ⟨h1, h2, h3, h4⟩ := get_items h
    have hsum := hset k hk { s.w k with pc := .working r (c.cut r) }
    have hr' : isStop r = false := by simp [isStop, hr]
    have hr2 : ∀ r', r' = r → isStop r' = false := fun r' e => e ▸ hr'
    clear hset
    constructor
    case errFail =>
      intro he
      rcases i1 he with h | h
      · exact absurd h (by simp [h2])
      · exact .inr (hex k _ (by simp [hp]) h)
    all_goals clear hex
    all_goals simp only [Ex.setW, h1, h2, h3, List.countP_cons, hr', List.pairwise_cons] at *
    all_goals grind [set, Pc.gone]
  | @getStop k r q hk hp hw h hr =>
    obtain ⟨h1, h2, h3, h4⟩ := get_items h
    have hns : (s.w k).stopped = false := by grind [Pc.gone]
    have hsum := hset k hk { s.w k with pc := .stopping, stopped := true }
    simp only [hns, Bool.toNat_false, Bool.toNat_true] at hsum
    have hr' : isStop r = true := by simp [isStop, hr]
    have hr2 : ∀ r', r' = r → isStop r' = true := fun r' e => e ▸ hr'
    clear hset
    constructor
    case errFail =>
      intro he
      rcases i1 he with h | h
      · exact absurd h (by simp [h2])
      · exact .inr (hex k _ (by simp [hp]) h)
    all_goals clear hex
    all_goals simp only [Ex.setW, h1, h2, h3, List.countP_cons, hr', List.pairwise_cons] at *
    all_goals grind [set, Pc.gone]
  | @getRaised k q hk hp hw h =>
    obtain ⟨h1, h2, h3, h4⟩ := get_closed h
    clear hset
    constructor
    case errFail =>
      intro he
      rcases i1 he with h | h
      · exact .inl h3
      · exact .inr (hex k _ (by simp [hp]) h)
    all_goals clear hex
    all_goals simp only [Ex.setW, h1, h2, h3] at *
    all_goals grind [set, Pc.gone]
  | @call k r x xs hk hp =>
    have hsum := hset k hk { s.w k with pc := .working r xs, dirty := true }
    clear hset
    constructor
    case errFail =>
      intro he
      rcases i1 he with h | h
      · exact .inl h
      · exact .inr (hex k _ (by simp [hp]) h)
    all_goals clear hex
    all_goals simp only [Ex.setW] at *
    all_goals grind [set, Pc.gone]
  | @callFail k r x xs dst e hk hp hd =>
    clear hset
    constructor
    case errFail => exact fun _ => .inr ⟨k, hk, by simp [Ex.setW]⟩
    all_goals clear hex
    all_goals simp only [Ex.setW] at *
    all_goals have hne : s.errors ++ [e] ≠ [] := by simp
    all_goals try generalize s.errors ++ [e] = es at hne ⊢
    all_goals grind [set, Pc.gone]
  | @workDone k r hk hp =>
    have hsum := hset k hk { s.w k with pc := .getting }
    clear hset
    constructor
    case errFail =>
      intro he
      rcases i1 he with h | h
      · exact .inl h
      · exact .inr (hex k _ (by simp [hp]) h)
    all_goals clear hex
    all_goals simp only [Ex.setW] at *
    all_goals grind [set, Pc.gone]
  | @workFail k r xs e hk hp =>
    clear hset
    constructor
    case errFail => exact fun _ => .inr ⟨k, hk, by simp [Ex.setW]⟩
    all_goals clear hex
    all_goals simp only [Ex.setW] at *
    all_goals have hne : s.errors ++ [e] ≠ [] := by simp
    all_goals try generalize s.errors ++ [e] = es at hne ⊢
    all_goals grind [set, Pc.gone]
  | @flushed k hk hp =>
    have hsum := hset k hk { s.w k with pc := .leaving, dirty := false }
    clear hset
    constructor
    case errFail =>
      intro he
      rcases i1 he with h | h
      · exact .inl h
      · exact .inr (hex k _ (by simp [hp]) h)
    all_goals clear hex
    all_goals simp only [Ex.setW] at *
    all_goals grind [set, Pc.gone]
  | @flushFail k e hk hp =>
    clear hset
    constructor
    case errFail => exact fun _ => .inr ⟨k, hk, by simp [Ex.setW]⟩
    all_goals clear hex
    all_goals simp only [Ex.setW] at *
    all_goals have hne : s.errors ++ [e] ≠ [] := by simp
    all_goals try generalize s.errors ++ [e] = es at hne ⊢
    all_goals grind [set, Pc.gone]
  | @left k hk hp =>
    have hsum := hset k hk { s.w k with pc := .finished }
    clear hset
    constructor
    case errFail =>
      intro he
      rcases i1 he with h | h
      · exact .inl h
      · exact .inr (hex k _ (by simp [hp]) h)
    all_goals clear hex
    all_goals simp only [Ex.setW] at *
    all_goals grind [set, Pc.gone]
  | @leaveFail k e hk hp =>
    clear hset
    constructor
    case errFail => exact fun _ => .inr ⟨k, hk, by simp [Ex.setW]⟩
    all_goals clear hex
    all_goals simp only [Ex.setW] at *
    all_goals have hne : s.errors ++ [e] ≠ [] := by simp
    all_goals try generalize s.errors ++ [e] = es at hne ⊢
    all_goals grind [set, Pc.gone]
  | @close k hk hp =>
    clear hset
    constructor
    case errFail => exact fun _ => .inl rfl
    all_goals clear hex
    all_goals simp only [Ex.setW, Queue.close, Queue.notifyAll] at *
    all_goals grind [set, Pc.gone]

theorem einv {acts : List Act} (ha : ∀ r ∈ reqs acts, r.op ≠ .stop) {d : Nat → Byte} {s : Ex}
    (h : Ex.Reachable c acts d s) : EInv c acts s := by
  induction h with
  | init => exact .init
  | step hr hs ih => exact ih.step ha (qinv hr) hs

end Imageio.Io
