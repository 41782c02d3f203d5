import Verif.Spec.Profiler
/-!
C97: a profile contains exactly what was called between start and stop.
-/
namespace Imageio.Props
open Imageio.Profiler Imageio.Profiler.Spec

/-- While saving does not fail: a profiler that does not run has no statistics. -/
def CleanProfiler {α : Type} (s : Profiler.State α) : Prop := s.running = false → s.haveStats = false ∧ s.samples = []

theorem clean_step {α : Type} {s : Profiler.State α} {e : Profiler.Event α} (h : CleanProfiler s)
    (he : ∀ b, e = .stop b → b = true) : CleanProfiler (Profiler.step s e) := by
  cases e with
  | start c =>
    simp only [Profiler.step, Profiler.start]
    split
    · exact h
    · split
      · exact h
      · intro hr; cases hr
  | stop b =>
    obtain rfl := he b rfl
    simp only [Profiler.step, Profiler.stop]
    split
    · exact h
    · intro _; exact ⟨rfl, rfl⟩
  | called x =>
    simp only [Profiler.step]
    split
    · intro hr
      simp_all
    · exact h

theorem clean_run {α : Type} : ∀ (evs : List (Profiler.Event α)) (s : Profiler.State α), CleanProfiler s → Saved evs →
    CleanProfiler (Profiler.run s evs)
  | [], _, h, _ => h
  | e :: r, s, h, hs => by
    refine clean_run r (Profiler.step s e) (clean_step h ?_) fun hm => hs (by simp [hm])
    intro b hb
    subst hb
    cases b with
    | true => rfl
    | false => exact absurd (List.mem_cons_self ..) hs

/-- While the profiler runs, without a request to stop: it keeps running with the same clock, and collects every call. -/
theorem collect {α : Type} : ∀ (evs : List (Profiler.Event α)) (s : Profiler.State α), s.running = true → NoStop evs →
    Profiler.run s evs = { s with samples := s.samples ++ (Spec.Event.calls evs).map fun x => (s.clock, x) }
  | [], s, _, _ => by simp [Profiler.run, Spec.Event.calls]
  | e :: r, s, hr, hn => by
    have hn' : NoStop r := fun b hb => hn b (by simp [hb])
    have step : Profiler.run s (e :: r) = Profiler.run (Profiler.step s e) r := rfl
    rw [step]
    cases e with
    | start c =>
      have : Profiler.step s (.start c) = s := by simp [Profiler.step, Profiler.start, hr]
      rw [this, collect r s hr hn']
      rfl
    | stop b => exact absurd (List.mem_cons_self ..) (hn b)
    | called x =>
      have : Profiler.step s (.called x) = { s with samples := s.samples ++ [(s.clock, x)] } := by simp [Profiler.step, hr]
      rw [this, collect r { s with samples := s.samples ++ [(s.clock, x)] } hr hn']
      simp [Spec.Event.calls]

/-- Partial: if saving never failed before, a profile that is written contains exactly the functions called between the
request that started the profiler and the request that stopped it, all measured with the clock of the request; requests to
start it again in between change nothing.  Missing: what happens after saving failed, see the counterexamples. -/
theorem C97_profile_partial {α : Type} {before between : List (Profiler.Event α)} {clock : Clock}
    (hs : Saved before) (hr : (Profiler.run State.init before).running = false) (hn : NoStop between) :
    (Profiler.start clock (Profiler.run State.init before)).1 = .ok ∧
    (Profiler.stop true (Profiler.run State.init (before ++ .start clock :: between))).1 = .ok ∧
    (Profiler.run State.init (before ++ .start clock :: between ++ [.stop true])).file =
      some ((Spec.Event.calls between).map fun x => (clock, x)) := by
  have hc := clean_run before State.init (fun _ => ⟨rfl, rfl⟩) hs hr
  generalize hS : Profiler.run State.init before = S at hr hc
  have hstart : Profiler.start clock S = (.ok, { S with clock := clock, running := true, haveStats := true }) := by
    unfold Profiler.start setClockType
    rw [hr, if_neg (by simp)]
    by_cases h : clock = S.clock
    · simp [h]
    · simp [h, hc.1]
  have happ : Profiler.run State.init (before ++ .start clock :: between) =
      Profiler.run { S with clock := clock, running := true, haveStats := true } between := by
    have : Profiler.run State.init (before ++ .start clock :: between) = Profiler.run (Profiler.step S (.start clock)) between := by
      rw [← hS]
      simp [Profiler.run, List.foldl_append]
    rw [this]
    simp only [Profiler.step, hstart]
  have hcol := collect between { S with clock := clock, running := true, haveStats := true } rfl hn
  refine ⟨by rw [hstart], ?_, ?_⟩
  · rw [happ, hcol]
    rfl
  · have : Profiler.run State.init (before ++ .start clock :: between ++ [.stop true]) =
        Profiler.step (Profiler.run State.init (before ++ .start clock :: between)) (.stop true) := by
      simp [Profiler.run, List.foldl_append]
    rw [this, happ, hcol]
    simp [Profiler.step, Profiler.stop, hc.2]

/-- Two profiles, the second with another clock. -/
example : (Profiler.run (State.init (α := Nat)) ([.start .cpu, .called 1, .stop true, .called 2] ++
    .start .wall :: [.called 3, .start .cpu, .called 4] ++ [.stop true])).file = some [(.wall, 3), (.wall, 4)] := rfl

/-- While saving does not fail, the profiler runs exactly if the last request was a start, and every request has the answer
that this implies: a request to start fails exactly if it runs, a request to stop exactly if it does not. -/
theorem C97_running {α : Type} {evs : List (Profiler.Event α)} (hs : Saved evs) :
    (Profiler.run State.init evs).running = Running false evs ∧
    (∀ c, (Profiler.start c (Profiler.run State.init evs)).1 = if Running false evs then .badRequest else .ok) ∧
    (Profiler.stop true (Profiler.run State.init evs)).1 = if Running false evs then .ok else .badRequest := by
  have hrun : ∀ (evs : List (Profiler.Event α)) (s : Profiler.State α), CleanProfiler s → Saved evs →
      (Profiler.run s evs).running = Running s.running evs := by
    intro evs
    induction evs with
    | nil => intro s _ _; rfl
    | cons e r ih =>
      intro s hc hsv
      have hsv' : Saved r := fun hm => hsv (by simp [hm])
      have he : ∀ b, e = .stop b → b = true := by
        intro b hb
        subst hb
        cases b with
        | true => rfl
        | false => exact absurd (List.mem_cons_self ..) hsv
      have := ih (Profiler.step s e) (clean_step hc he) hsv'
      have hstep : Profiler.run s (e :: r) = Profiler.run (Profiler.step s e) r := rfl
      rw [hstep, this]
      cases e with
      | start c =>
        have : (Profiler.step s (.start c)).running = true := by
          simp only [Profiler.step, Profiler.start]
          by_cases h : s.running = true
          · simp [h]
          · have h' : s.running = false := by simpa using h
            rw [if_neg h]
            unfold setClockType
            by_cases hcl : c = s.clock
            · simp [hcl]
            · simp [hcl, (hc h').1]
        rw [this]
        rfl
      | stop b =>
        obtain rfl := he b rfl
        have : (Profiler.step s (.stop true)).running = false := by
          simp only [Profiler.step, Profiler.stop]
          by_cases h : s.running = true
          · simp [h]
          · simp [h]
        rw [this]
        rfl
      | called x =>
        have : (Profiler.step s (.called x)).running = s.running := by
          simp only [Profiler.step]
          split <;> rfl
        rw [this]
        rfl
  have hR := hrun evs State.init (fun _ => ⟨rfl, rfl⟩) hs
  have hR' : (Profiler.run State.init evs).running = Running false evs := hR
  have hC := clean_run evs State.init (fun _ => ⟨rfl, rfl⟩) hs
  refine ⟨hR', fun c => ?_, ?_⟩
  · rw [← hR']
    unfold Profiler.start setClockType
    by_cases h : (Profiler.run State.init evs).running = true
    · simp [h]
    · have h' : (Profiler.run State.init evs).running = false := by simpa using h
      by_cases hcl : c = (Profiler.run State.init evs).clock
      · simp [h', hcl]
      · simp [h', hcl, (hC h').1]
  · rw [← hR']
    unfold Profiler.stop
    by_cases h : (Profiler.run State.init evs).running = true <;> simp [h]

example : Running (α := Nat) false [.start .cpu, .called 1, .start .wall, .stop true, .start .wall] = true := rfl

/-- A refused request changes nothing. -/
theorem C97_refused {α : Type} (s : Profiler.State α) :
    (∀ c, (Profiler.start c s).1 ≠ .ok → (Profiler.start c s).2 = s) ∧
    (∀ b, (Profiler.stop b s).1 = .badRequest → (Profiler.stop b s).2 = s) := by
  constructor
  · intro c h
    unfold Profiler.start at h ⊢
    split
    · rfl
    · rename_i hr
      rw [if_neg hr] at h
      split
      · rfl
      · rename_i heq
        rw [heq] at h
        exact absurd rfl h
  · intro b h
    unfold Profiler.stop at h ⊢
    split
    · rfl
    · rename_i hr
      rw [if_neg hr] at h
      cases b <;> cases h

/-- After saving failed, the next profile contains also what was called before: whatever was collected in a run whose profile
could not be saved is part of the next profile with the same clock. -/
theorem C97_counterexample_mixed {α : Type} (clock : Clock) (xs ys : List α) :
    (Profiler.run State.init ([.start clock] ++ xs.map Event.called ++ [.stop false, .start clock] ++ ys.map Event.called ++
      [.stop true])).file = some ((xs ++ ys).map fun x => (clock, x)) := by
  have hcalls : ∀ l : List α, Spec.Event.calls (l.map Event.called) = l := by
    intro l
    induction l with
    | nil => rfl
    | cons x r ih => simp [Spec.Event.calls, ih]
  have hno : ∀ l : List α, NoStop (l.map Event.called) := by
    intro l b hb
    simp at hb
  have h1 : Profiler.run (State.init (α := α)) [.start clock] = ⟨true, clock, true, [], none⟩ := by
    cases clock <;> rfl
  have happ : ∀ (s : Profiler.State α) (a b : List (Profiler.Event α)), Profiler.run s (a ++ b) = Profiler.run (Profiler.run s a) b := by
    intro s a b
    simp [Profiler.run, List.foldl_append]
  rw [happ, happ, happ, happ, h1, collect _ ⟨true, clock, true, [], none⟩ rfl (hno xs), hcalls]
  have h2 : Profiler.run (⟨true, clock, true, xs.map fun x => (clock, x), none⟩ : Profiler.State α) [.stop false, .start clock] =
      ⟨true, clock, true, xs.map fun x => (clock, x), none⟩ := by
    simp [Profiler.run, Profiler.step, Profiler.stop, Profiler.start, setClockType]
  simp only [List.nil_append]
  rw [h2, collect _ ⟨true, clock, true, xs.map fun x => (clock, x), none⟩ rfl (hno ys), hcalls]
  simp [Profiler.run, Profiler.step, Profiler.stop]

/-- After saving failed, the other clock is refused with an internal error, until a profile with the first clock is saved. -/
theorem C97_counterexample_clock {α : Type} (clock other : Clock) (hne : other ≠ clock) (xs : List α) :
    (Profiler.start other (Profiler.run State.init ([.start clock] ++ xs.map Event.called ++ [.stop false]))).1 = .serverError := by
  have hno : NoStop (xs.map Event.called) := by
    intro b hb
    simp at hb
  have h1 : Profiler.run (State.init (α := α)) [.start clock] = ⟨true, clock, true, [], none⟩ := by
    cases clock <;> rfl
  have happ : ∀ (s : Profiler.State α) (a b : List (Profiler.Event α)), Profiler.run s (a ++ b) = Profiler.run (Profiler.run s a) b := by
    intro s a b
    simp [Profiler.run, List.foldl_append]
  rw [happ, happ, h1, collect _ ⟨true, clock, true, [], none⟩ rfl hno]
  simp [Profiler.run, Profiler.step, Profiler.stop, Profiler.start, setClockType, hne]

end Imageio.Props
