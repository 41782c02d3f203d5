import Verif.Lemmas.Stats

/-!
C74: the statistics clock.
-/
namespace Imageio.Props
open Http Stats Spec.Stats

theorem order_nodup : ∀ (l : List Entry) (ns : List Str), ns.Nodup → (order ns l).Nodup
  | [], _, h => h
  | .began n :: l, ns, h => by
    simp only [order]
    apply order_nodup l
    split
    · exact h
    · next hn =>
      rw [List.nodup_append]
      refine ⟨h, by simp, fun a ha b hb => ?_⟩
      simp only [List.mem_cons, List.not_mem_nil, or_false] at hb
      subst hb
      exact fun he => hn (he ▸ ha)
  | .ended .. :: l, ns, h => order_nodup l ns h
  | .counted .. :: l, ns, h => order_nodup l ns h

/-- The statistics of a journal: the names in the order in which they began, with their sums. -/
def statsOf (log : List Entry) : Clock :=
  (order [] log).map fun n =>
    { name := n, seconds := seconds n log, ops := ops n log, bytes := bytes n log, started := none }

theorem find_mem : ∀ (c : Clock), (Stats.names c).Nodup → ∀ s ∈ c, find c s.name = some s
  | [], _, _, h => by cases h
  | a :: c, hn, s, hs => by
    unfold find
    simp only [Stats.names, List.map_cons, List.nodup_cons] at hn
    rw [List.find?_cons]
    by_cases ha : a.name = s.name
    · rcases List.mem_cons.1 hs with rfl | hs
      · simp
      · exact absurd (List.mem_map.2 ⟨s, hs, ha.symm⟩) hn.1
    · simp only [ha, decide_false]
      rcases List.mem_cons.1 hs with rfl | hs
      · exact absurd rfl ha
      · exact find_mem c hn.2 s hs

theorem agrees_fresh {c : Clock} {log : List Entry} (h : Agrees [] c log) : c = statsOf log := by
  have hn : Stats.names c = order [] log := h.names
  have hd : (Stats.names c).Nodup := hn ▸ order_nodup log [] List.nodup_nil
  unfold statsOf
  rw [← hn]
  unfold Stats.names
  rw [List.map_map]
  conv => lhs; rw [← List.map_id c]
  apply List.map_congr_left
  intro s hs
  have hf := find_mem c hd s hs
  have h1 := h.seconds s.name
  have h2 := h.ops s.name
  have h3 := h.bytes s.name
  have h4 := h.started s.name
  unfold secs opsOf bytesOf startedOf at *
  rw [hf] at h1 h2 h3 h4
  simp only [Option.map_some, Option.getD_some, Option.bind_some, find, List.find?_nil,
    Option.map_none, Option.getD_none, Option.bind_none, Int.zero_add, Nat.zero_add] at h1 h2 h3 h4
  simp only [id, Function.comp]
  rw [← h1, ← h2, ← h3, ← h4]

/-- C74: measuring does not change what the code does: the same exceptions, no others, at the same
time; the clock then has, for every name in the order in which they began, the time of all its parts,
the number of parts that ended well and its bytes, and nothing is running. -/
theorem C74_measure (p : Prog) (ha : Apart [] p) (t : Int) {o : Option Exn} {t' : Int} {c : Clock}
    (h : exec p t [] = (o, t', c)) : ∃ log, Runs p t log t' o ∧ c = statsOf log := by
  obtain ⟨log, h1, h2⟩ := exec_spec p [] t [] ha (by intro n; simp [startedOf, find])
  rw [h] at h1 h2
  exact ⟨log, h1, agrees_fresh h2⟩

/-- C74: time does not go back, and no name is measured for longer than the time that passed. -/
theorem C74_bound (p : Prog) (ha : Apart [] p) (t : Int) {o : Option Exn} {t' : Int} {c : Clock}
    (h : exec p t [] = (o, t', c)) : t ≤ t' ∧ ∀ s ∈ c, 0 ≤ s.seconds ∧ s.seconds ≤ t' - t := by
  obtain ⟨log, h1, h2⟩ := C74_measure p ha t h
  obtain ⟨b1, b2⟩ := runs_bound h1 [] ha
  refine ⟨b1, fun s hs => ?_⟩
  rw [h2] at hs
  obtain ⟨n, -, rfl⟩ := List.mem_map.1 hs
  exact ⟨(b2 n).1, (b2 n).2.1⟩

/-- C74: the clock never fails in the server: whatever the handlers of the requests of a connection
do, `finish` stops the clock, and the statistics are those of the journal. -/
theorem C74_connection {p : Prog} (h : Requests p) (t : Int) :
    ∃ t' log, connection p t = some (t', statsOf log) ∧
      Runs (.run "connection".toList p) t log t' none := by
  have hok : ∀ {p t c}, Requests p → (exec p t c).1 = none := by
    intro p t c h
    induction h generalizing t c with
    | none => rfl
    | @cons p q _ _ ih =>
      unfold exec
      have : ∃ t1 c1, exec (.handle (.run "dispatch".toList p) .skip) t c = (none, t1, c1) := by
        unfold exec
        cases exec (.run "dispatch".toList p) t c with
        | mk o y => cases o <;> exact ⟨_, _, rfl⟩
      obtain ⟨t1, c1, hx⟩ := this
      rw [hx]
      exact ih
  have hap : Apart [] (.run "connection".toList p) := ⟨by simp, requests_apart h⟩
  cases hs : start [] "connection".toList t with
  | error e =>
    obtain ⟨c1, h1, -⟩ := start_spec (c := []) (name := "connection".toList) (t := t) rfl
    rw [hs] at h1
    cases h1
  | ok c1 =>
    obtain ⟨c1', h1, s1, s2, -⟩ := start_spec (c := []) (name := "connection".toList) (t := t) rfl
    rw [hs] at h1
    cases h1
    cases hx : exec p t c1 with
    | mk o y =>
    obtain ⟨t1, c2⟩ := y
    have ho : o = none := by have := hok (t := t) (c := c1) h; rwa [hx] at this
    subst ho
    obtain ⟨l, -, a⟩ := exec_spec p ["connection".toList] t c1 (requests_apart h) (by
      intro n
      by_cases hn : n = "connection".toList
      · subst hn; rw [s1]; simp
      · rw [s2 n hn]; simp [startedOf, find]; simpa using hn)
    rw [hx] at a
    have hst : startedOf c2 "connection".toList = some t := by rw [a.started, s1]
    obtain ⟨c3, hq, -⟩ := stopStat_spec (t := t1) true hst
    have hrun : exec (.run "connection".toList p) t [] = (none, t1, c3) := by
      unfold exec
      rw [hs]
      simp only [hx, hq]
    obtain ⟨log, r1, r2⟩ := C74_measure _ hap t hrun
    refine ⟨t1, log, ?_, r1⟩
    have hstop : stop c2 "connection".toList true t1 = .ok c3 := by
      obtain ⟨s, hf, hst'⟩ := Option.bind_eq_some_iff.1 hst
      unfold stop
      simp only [hf, hst']
      exact hq
    unfold connection
    rw [hs]
    simp only [hx, hstop]
    rw [r2]

/-- C74: the text of a clock that is not running shows these sums, in the same order, if every name
with bytes took some time.  Partial: not for a clock that is running, see
`C74_counterexample_running` and `C74_counterexample_division`. -/
theorem C74_repr_partial (now : Int) (log : List Entry)
    (h : ∀ n, 0 < bytes n log → seconds n log ≠ 0) :
    Stats.repr now (statsOf log) = .ok ((order [] log).map fun n =>
      ⟨n, ops n log, seconds n log, if bytes n log = 0 then none else some (bytes n log, seconds n log)⟩) := by
  unfold Stats.repr statsOf
  generalize order [] log = ns
  induction ns with
  | nil => rfl
  | cons n ns ih =>
    simp only [List.map_cons, List.mapM_cons, ih]
    unfold showStat
    by_cases hb : bytes n log = 0
    · simp [hb]
      rfl
    · have := h n (by omega)
      simp [hb, this]
      rfl

/-- C74 is false for a clock that is running: the time of the earlier parts is not shown, and the rate
is that of all the bytes in the last part only. -/
theorem C74_counterexample_running (t now : Int) (a n : Nat) (name : Str) (hn : 0 < n)
    (ht : t ≠ now) :
    ∃ c c', exec (.run name (.seq (.tick a) (.bytes name n))) (t - a) [] = (none, t, c) ∧
      (∀ s ∈ c, s.seconds = a) ∧ start c name t = .ok c' ∧
      Stats.repr now c' = .ok [⟨name, 1, now - t, some (n, now - t)⟩] := by
  have h0 : t - (a : Int) + a = t := by omega
  have hne : ¬ now - t = 0 := by omega
  have hb : ¬ n = 0 := by omega
  refine ⟨[⟨name, a, 1, n, none⟩], [⟨name, a, 1, n, some t⟩], ?_, ?_, ?_, ?_⟩
  · simp [exec, start, find, update, addBytes, stopStat, h0]
    omega
  · simp
  · simp [start, find, update]
  · simp [Stats.repr, showStat, hne, hb]
    rfl

/-- C74 is false for bytes without time: the text fails with a division by zero. -/
theorem C74_counterexample_division (t now : Int) (n : Nat) (name : Str) (hn : 0 < n) :
    ∃ c, exec (.run name (.bytes name n)) t [] = (none, t, c) ∧
      Stats.repr now c = .error .zeroDivision := by
  have hb : ¬ n = 0 := by omega
  refine ⟨[⟨name, 0, 1, n, none⟩], ?_, ?_⟩
  · simp [exec, start, find, update, addBytes, stopStat]
  · simp [Stats.repr, showStat, hb]
    rfl

/-- C74 is false for a part inside a part with the same name: the clock raises, for all code. -/
theorem C74_counterexample_nested (t : Int) (name : Str) (p : Prog) :
    (exec (.run name (.run name p)) t []).1 = some .runtimeError := by
  simp [exec, start, find, update, stopStat]

/-! ### Examples -/

/-- An upload with two steps; the second one fails and the request ends. -/
def statsUpload : Prog :=
  .run "write".toList (.seq (.run "write.read".toList (.seq (.tick 3) (.bytes "write.read".toList 8)))
    (.seq (.run "write.write".toList (.seq (.tick 4) (.raise 1))) (.bytes "write".toList 8)))

theorem statsUpload_requests :
    Requests (.seq (.handle (.run "dispatch".toList statsUpload) .skip) .skip) := by
  refine .cons (.op (by decide) (.seq (.record (step := "read".toList) (.seq (.tick 3) (.bytes 8)))
    (.seq (.record (step := "write".toList) (.seq (.tick 4) (.raise 1))) (.leaf (.bytes 8))))) .none

theorem statsUpload_connection :
    connection (.seq (.handle (.run "dispatch".toList statsUpload) .skip) .skip) 10 = some (17,
      [⟨"connection".toList, 7, 1, 0, none⟩, ⟨"dispatch".toList, 7, 0, 0, none⟩,
        ⟨"write".toList, 7, 0, 0, none⟩, ⟨"write.read".toList, 3, 1, 8, none⟩,
        ⟨"write.write".toList, 4, 0, 0, none⟩]) := by decide

example : ∃ log, connection (.seq (.handle (.run "dispatch".toList statsUpload) .skip) .skip) 10 =
    some (17, statsOf log) := by
  obtain ⟨t', log, h, -⟩ := C74_connection statsUpload_requests 10
  rw [statsUpload_connection] at h
  refine ⟨log, ?_⟩
  rw [statsUpload_connection]
  simp only [Option.some.injEq, Prod.mk.injEq] at h ⊢
  exact ⟨trivial, h.2⟩

theorem statsUpload_apart : Apart [] statsUpload := by
  unfold statsUpload
  simp only [Apart]
  decide

example : ∃ log, Runs statsUpload 10 log 17 (some (.body 1)) := by
  obtain ⟨log, h, -⟩ := C74_measure statsUpload statsUpload_apart 10
    (o := some (.body 1)) (t' := 17)
    (c := [⟨"write".toList, 7, 0, 0, none⟩, ⟨"write.read".toList, 3, 1, 8, none⟩,
        ⟨"write.write".toList, 4, 0, 0, none⟩]) (by decide)
  exact ⟨log, h⟩

end Imageio.Props
