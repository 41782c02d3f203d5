import Verif.Model.Tool
import Verif.Lemmas.ClientIoLive
/-! Signals during a copy. -/
namespace Imageio.Tool
open Io
variable {c : Cfg}

/-! ## The copy without the signals -/

theorem raised_step {s : Ex} {k : Nat} (hk : k < c.workers) (hp : hasRequest (s.w k).pc = true) (e : Err) :
    Ex.Step c s { s.setW k { s.w k with pc := .failing } with errors := s.errors ++ [e] } := by
  cases h : (s.w k).pc with
  | working r xs => exact .workFail hk h
  | stopping => exact .flushFail hk h
  | starting | getting | leaving | failing | finished => rw [h] at hp; cases hp

theorem Step.proj {s s' : St} (h : Step c s s') : s'.ex = s.ex ∨ Ex.Step c s.ex s'.ex := by
  cases h with
  | signal => exact .inl rfl
  | passed => exact .inl rfl
  | raised hk hp => exact .inr (raised_step hk hp _)
  | other h => exact .inr h

theorem Reachable.proj {acts : List Act} {d : Nat → Byte} {s : St} (h : Reachable c acts d s) :
    Ex.Reachable c acts d s.ex := by
  induction h with
  | init => exact .init
  | step _ hs ih =>
    rcases hs.proj with h | h
    · rw [h]; exact ih
    · exact ih.step h

theorem Reachable.steps {acts : List Act} {d : Nat → Byte} {s s' : St} (h : Reachable c acts d s)
    (hs : Relation.ReflTransGen (Step c) s s') : Reachable c acts d s' := by
  induction hs with
  | refl => exact h
  | tail _ hs ih => exact ih.step hs

/-! ## The signal -/

theorem Step.signal_some {s s' : St} (h : Step c s s') {n : Nat} (hn : s.signal = some n) : s'.signal = some n := by
  cases h <;> simp [handleSignal, hn]

theorem signal_kept {s s' : St} (h : Relation.ReflTransGen (Step c) s s') {n : Nat} (hn : s.signal = some n) :
    s'.signal = some n := by
  induction h with
  | refl => exact hn
  | tail _ hs ih => exact hs.signal_some ih

theorem checked_request {acts : List Act} {d : Nat → Byte} {s : St} (h : Reachable c acts d s) {k : Nat}
    (hk : s.checked k = true) : hasRequest (s.ex.w k).pc = true := by
  induction h generalizing k with
  | init => cases hk
  | step _ hs ih =>
    cases hs with
    | signal => exact ih hk
    | @passed j _ hp =>
      by_cases hj : k = j
      · subst hj; exact hp
      · exact ih (by simpa [Io.set, hj] using hk)
    | @raised j n _ hp hc =>
      by_cases hj : k = j
      · subst hj; simp [hc] at hk
      · simpa [Ex.setW, Io.set, hj] using ih hk
    | other => simp at hk; exact hk.2

/-! ## What a step does to the logs -/

theorem step_log {s s' : Ex} (hs : Ex.Step c s s') :
    (s'.handled = s.handled ∧ s'.calls = s.calls ∧
      ∀ k r xs, (s'.w k).pc = .working r xs → s'.w k = s.w k ∨ (s.w k).pc = .getting) ∨
    (∃ k r x xs, (s.w k).pc = .working r (x :: xs) ∧ (s'.w k).pc = .working r xs ∧ s'.calls = s.calls ++ [x] ∧
      s'.handled = s.handled ∧ ∀ j, j ≠ k → s'.w j = s.w j) ∨
    ∃ k r, (s.w k).pc = .working r [] ∧ (s'.w k).pc = .getting ∧ s'.calls = s.calls ∧
      s'.handled = s.handled ++ [(k, r)] ∧ ∀ j, j ≠ k → s'.w j = s.w j := by
  cases hs with
  | @call k r x xs hk h =>
    exact .inr (.inl ⟨k, r, x, xs, h, by simp [Ex.setW], rfl, rfl, fun j hj => by simp [Ex.setW, Io.set, hj]⟩)
  | @workDone k r hk h =>
    exact .inr (.inr ⟨k, r, h, by simp [Ex.setW], rfl, rfl, fun j hj => by simp [Ex.setW, Io.set, hj]⟩)
  | skip | putDone | putBlocked | putRaised | submitDone | mainFail | stopPut | stopBlocked | stopRaised | stopDone | joined
  | getBlocked => exact .inl ⟨rfl, rfl, fun _ _ _ _ => .inl rfl⟩
  | @getDone k r q hk h =>
    refine .inl ⟨rfl, rfl, fun j _ _ hj => ?_⟩
    by_cases hjk : j = k
    · subst hjk; exact .inr h
    · simp [Ex.setW, Io.set, hjk]
  | @started k _ h | @startFail k _ _ h | @getStop k _ _ _ h | @getRaised k _ _ h | @callFail k _ _ _ _ _ _ h
  | @workFail k _ _ _ _ h | @flushed k _ h | @flushFail k _ _ h | @left k _ h | @leaveFail k _ _ h | @close k _ h =>
    refine .inl ⟨rfl, rfl, fun j _ _ hj => ?_⟩
    by_cases hjk : j = k
    · subst hjk; simp [Ex.setW] at hj
    · simp [Ex.setW, Io.set, hjk]

/-! ## After a signal -/

/-- What the workers did since `s0`, when a signal was received before: only the requests that they had checked. -/
structure After (s0 s : St) : Prop where
  handled : ∃ l, s.ex.handled = s0.ex.handled ++ l ∧ (l.map Prod.fst).Nodup ∧
    (∀ p ∈ l, s0.checked p.1 = true ∧ ∃ xs, (s0.ex.w p.1).pc = .working p.2 xs) ∧
    ∀ k r xs, s.checked k = true → (s.ex.w k).pc = .working r xs → k ∉ l.map Prod.fst
  live : ∀ k r xs, s.checked k = true → (s.ex.w k).pc = .working r xs →
    s0.checked k = true ∧ ∃ ys, (s0.ex.w k).pc = .working r (ys ++ xs)
  calls : ∃ m, s.ex.calls = s0.ex.calls ++ m ∧
    ∀ x ∈ m, ∃ k r xs, s0.checked k = true ∧ (s0.ex.w k).pc = .working r xs ∧ x ∈ xs

theorem After.refl (s : St) : After s s :=
  ⟨⟨[], by simp, by simp, by simp, by simp⟩, fun _ _ _ h h' => ⟨h, [], h'⟩, [], by simp, by simp⟩

theorem After.step {acts : List Act} {d : Nat → Byte} {s0 s s' : St} (h : After s0 s) (hr : Reachable c acts d s)
    {n : Nat} (hn : s.signal = some n) (hs : Step c s s') : After s0 s' := by
  obtain ⟨⟨l, h1, h2, h3, h4⟩, h5, m, h6, h7⟩ := h
  cases hs with
  | signal => exact ⟨⟨l, h1, h2, h3, h4⟩, h5, m, h6, h7⟩
  | passed _ _ _ hs => rw [hn] at hs; cases hs
  | @raised k n' hk hp hc hs =>
    have hne : ∀ j r xs, s.checked j = true →
        ((s.ex.setW k { s.ex.w k with pc := .failing }).w j).pc = .working r xs → (s.ex.w j).pc = .working r xs := by
      intro j r xs hj hw
      by_cases hjk : j = k
      · subst hjk; rw [hc] at hj; cases hj
      · simpa [Ex.setW, Io.set, hjk] using hw
    exact ⟨⟨l, h1, h2, h3, fun j r xs hj hw => h4 j r xs hj (hne j r xs hj hw)⟩,
      fun j r xs hj hw => h5 j r xs hj (hne j r xs hj hw), m, h6, h7⟩
  | @other ex hx he hw =>
    have hck : ∀ k r xs, (s.ex.w k).pc = .working r xs → ex.w k ≠ s.ex.w k → s.checked k = true := by
      intro k r xs hp hne
      cases hc : s.checked k with
      | true => rfl
      | false => exact absurd (hw k (by rw [hp]; rfl) hc) hne
    rcases step_log hx with ⟨a1, a2, a3⟩ | ⟨k, r, x, xs, a1, a2, a3, a4, a5⟩ | ⟨k, r, a1, a2, a3, a4, a5⟩
    · have hsame : ∀ k r xs, (s.checked k && hasRequest (ex.w k).pc) = true → (ex.w k).pc = .working r xs →
          s.checked k = true ∧ (s.ex.w k).pc = .working r xs := by
        intro k r xs hk hp
        simp only [Bool.and_eq_true] at hk
        refine ⟨hk.1, ?_⟩
        rcases a3 k r xs hp with h | h
        · rw [← h]; exact hp
        · have := checked_request hr hk.1
          rw [h] at this; cases this
      exact ⟨⟨l, by rw [← h1]; exact a1, h2, h3, fun k r xs hk hp => h4 k r xs (hsame k r xs hk hp).1 (hsame k r xs hk hp).2⟩,
        fun k r xs hk hp => h5 k r xs (hsame k r xs hk hp).1 (hsame k r xs hk hp).2, m, by rw [← h6]; exact a2, h7⟩
    · have hk := hck k r _ a1 (fun h => by rw [h, a1] at a2; simp at a2)
      have hsame : ∀ j r' ys, (s.checked j && hasRequest (ex.w j).pc) = true → (ex.w j).pc = .working r' ys →
          s.checked j = true ∧ ∃ zs, (s.ex.w j).pc = .working r' (zs ++ ys) := by
        intro j r' ys hj hp
        simp only [Bool.and_eq_true] at hj
        refine ⟨hj.1, ?_⟩
        by_cases hjk : j = k
        · subst hjk
          rw [a2] at hp
          injection hp with e1 e2
          subst e1 e2
          exact ⟨[x], a1⟩
        · rw [a5 j hjk] at hp
          exact ⟨[], hp⟩
      refine ⟨⟨l, by rw [← h1]; exact a4, h2, h3, ?_⟩, ?_, m ++ [x], ?_, ?_⟩
      · intro j r' ys hj hp
        obtain ⟨b1, zs, b2⟩ := hsame j r' ys hj hp
        exact h4 j r' _ b1 b2
      · intro j r' ys hj hp
        obtain ⟨b1, zs, b2⟩ := hsame j r' ys hj hp
        obtain ⟨b3, ws, b4⟩ := h5 j r' _ b1 b2
        exact ⟨b3, ws ++ zs, by rw [b4, List.append_assoc]⟩
      · show ex.calls = _
        rw [a3, h6, List.append_assoc]
      · intro y hy
        rcases List.mem_append.1 hy with hy | hy
        · exact h7 y hy
        · obtain ⟨b3, ws, b4⟩ := h5 k r _ hk a1
          exact ⟨k, r, _, b3, b4, by simp at hy; simp [hy]⟩
    · have hk := hck k r _ a1 (fun h => by rw [h, a1] at a2; simp at a2)
      have hsame : ∀ j r' ys, (s.checked j && hasRequest (ex.w j).pc) = true → (ex.w j).pc = .working r' ys →
          j ≠ k ∧ s.checked j = true ∧ (s.ex.w j).pc = .working r' ys := by
        intro j r' ys hj hp
        simp only [Bool.and_eq_true] at hj
        have hjk : j ≠ k := by rintro rfl; rw [a2] at hp; simp at hp
        exact ⟨hjk, hj.1, by rw [← a5 j hjk]; exact hp⟩
      obtain ⟨b3, ws, b4⟩ := h5 k r _ hk a1
      refine ⟨⟨l ++ [(k, r)], ?_, ?_, ?_, ?_⟩, ?_, m, by rw [← h6]; exact a3, h7⟩
      · show ex.handled = _
        rw [a4, h1, List.append_assoc]
      · rw [List.map_append, List.nodup_append]
        refine ⟨h2, by simp, ?_⟩
        intro a ha b hb
        simp at hb
        subst hb
        rintro rfl
        exact h4 a r _ hk a1 ha
      · intro p hp
        rcases List.mem_append.1 hp with hp | hp
        · exact h3 p hp
        · simp at hp; subst hp; exact ⟨b3, _, b4⟩
      · intro j r' ys hj hp
        obtain ⟨c1, c2, c3⟩ := hsame j r' ys hj hp
        rw [List.map_append, List.mem_append]
        rintro (h | h)
        · exact h4 j r' ys c2 c3 h
        · simp at h; exact c1 h
      · intro j r' ys hj hp
        obtain ⟨c1, c2, c3⟩ := hsame j r' ys hj hp
        exact h5 j r' ys c2 c3

theorem after {acts : List Act} {d : Nat → Byte} {s0 s : St} (hr : Reachable c acts d s0) {n : Nat}
    (hn : s0.signal = some n) (hs : Relation.ReflTransGen (Step c) s0 s) : After s0 s := by
  induction hs with
  | refl => exact .refl _
  | tail h hs ih => exact ih.step (hr.steps h) (signal_kept h hn) hs

/-! ## A copy that succeeds in spite of a signal -/

/-- The worker has not yet returned from the check for its last request. -/
def NotPassed (s : St) (k : Nat) : Prop :=
  (s.ex.w k).stopped = false ∨ ((s.ex.w k).pc = .stopping ∧ s.checked k = false)

theorem step_stopped {s s' : Ex} (hs : Ex.Step c s s') (k : Nat) :
    (s'.w k).stopped = (s.w k).stopped ∨
    ((s.w k).pc = .getting ∧ (s'.w k).stopped = true ∧ (s'.w k).pc = .stopping) := by
  cases hs with
  | skip | putDone | putBlocked | putRaised | submitDone | mainFail | stopPut | stopBlocked | stopRaised | stopDone | joined
  | getBlocked => exact .inl rfl
  | @getStop j r q hk h =>
    by_cases hj : k = j
    · subst hj; exact .inr ⟨h, by simp [Ex.setW], by simp [Ex.setW]⟩
    · exact .inl (by simp [Ex.setW, Io.set, hj])
  | @call j | @workDone j | @getDone j | @started j | @startFail j | @getRaised j | @callFail j
  | @workFail j | @flushed j | @flushFail j | @left j | @leaveFail j | @close j =>
    by_cases hj : k = j
    · subst hj; exact .inl (by simp [Ex.setW])
    · exact .inl (by simp [Ex.setW, Io.set, hj])

theorem notPassed_step {acts : List Act} {d : Nat → Byte} {s s' : St} (hr : Reachable c acts d s)
    {n k : Nat} (hn : s.signal = some n) (hs : Step c s s') (h : s.ex.errors ≠ [] ∨ NotPassed s k) :
    s'.ex.errors ≠ [] ∨ NotPassed s' k := by
  rcases h with h | h
  · left
    rcases hs.proj with h' | h'
    · rw [h']; exact h
    · exact fun he => h ((step_mono (qinv hr.proj) h').1 he)
  cases hs with
  | signal => exact .inr h
  | passed _ _ _ hs => rw [hn] at hs; cases hs
  | raised => exact .inl (by simp)
  | @other ex hx he hw =>
    right
    rcases step_stopped hx k with h1 | ⟨h1, h2, h3⟩
    · rcases h with h | ⟨h, h'⟩
      · exact .inl (h1.trans h)
      · have := hw k (by rw [h]; rfl) h'
        exact .inr ⟨by show (ex.w k).pc = _; rw [this]; exact h, by show (s.checked k && _) = false; rw [h']; rfl⟩
    · right
      refine ⟨h3, ?_⟩
      show (s.checked k && _) = false
      cases hc : s.checked k with
      | false => rfl
      | true => have := checked_request hr hc; rw [h1] at this; cases this

theorem notPassed_steps {acts : List Act} {d : Nat → Byte} {s s' : St} (hr : Reachable c acts d s)
    {n k : Nat} (hn : s.signal = some n) (hs : Relation.ReflTransGen (Step c) s s') (h : NotPassed s k) :
    s'.ex.errors ≠ [] ∨ NotPassed s' k := by
  induction hs with
  | refl => exact .inr h
  | tail h' hs ih => exact notPassed_step (hr.steps h') (signal_kept h' hn) hs ih

theorem stopped_kept {s s' : Ex} (hs : Ex.Step c s s') {k : Nat} (h : (s.w k).stopped = true) :
    (s'.w k).stopped = true := by
  rcases step_stopped hs k with h1 | h1
  · rw [h1]; exact h
  · exact h1.2.1

theorem dst_kept {acts : List Act} (ha : ∀ r ∈ reqs acts, r.op ≠ .stop) {d : Nat → Byte} {s s' : Ex}
    (hr : Ex.Reachable c acts d s) (hs : Ex.Step c s s') (h : ∀ k, k < c.workers → (s.w k).stopped = true) :
    s'.dst = s.dst ∧ s'.handled = s.handled := by
  have hno : ∀ k r xs, k < c.workers → (s.w k).pc ≠ .working r xs := by
    intro k r xs hk hp
    have := (einv ha hr).stoppedPc k (h k hk)
    rw [hp] at this
    simp [Pc.gone] at this
  cases hs with
  | call hk hp | callFail hk hp | workDone hk hp => exact absurd hp (hno _ _ _ hk)
  | skip | putDone | putBlocked | putRaised | submitDone | mainFail | stopPut | stopBlocked | stopRaised | stopDone | joined
  | getBlocked | getStop | getDone | started | startFail | getRaised | workFail | flushed | flushFail | left | leaveFail
  | close => exact ⟨rfl, rfl⟩

theorem dst_kept_steps {acts : List Act} (ha : ∀ r ∈ reqs acts, r.op ≠ .stop) {d : Nat → Byte} {s s' : St}
    (hr : Reachable c acts d s) (hs : Relation.ReflTransGen (Step c) s s')
    (h : ∀ k, k < c.workers → (s.ex.w k).stopped = true) :
    s'.ex.dst = s.ex.dst ∧ s'.ex.handled = s.ex.handled ∧ ∀ k, k < c.workers → (s'.ex.w k).stopped = true := by
  induction hs with
  | refl => exact ⟨rfl, rfl, h⟩
  | tail h' hs ih =>
    obtain ⟨i1, i2, i3⟩ := ih
    rcases hs.proj with e | e
    · rw [e]; exact ⟨i1, i2, i3⟩
    · have := dst_kept ha (hr.steps h').proj e i3
      exact ⟨this.1.trans i1, this.2.trans i2, fun k hk => stopped_kept e (i3 k hk)⟩

/-! ## Which error -/

theorem Step.main {s s' : Ex} (hs : Ex.Step c s s') (e : Err) (h : s'.main = .done (some e)) :
    s.main = .done (some e) ∨ (s.main = .joining (some e) ∧ s'.errors = s.errors) ∨
      (s.main = .joining none ∧ s.errors.head? = some e ∧ s'.errors = s.errors) := by
  cases hs with
  | @joined e' hm =>
    cases e' with
    | none => exact .inr (.inr ⟨hm, by simpa [Ex.result] using h, rfl⟩)
    | some e' => simp [Ex.result] at h; subst h; exact .inr (.inl ⟨hm, rfl⟩)
  | skip | putDone | putRaised | submitDone | mainFail | stopPut | stopRaised | stopDone => simp at h
  | putBlocked | stopBlocked | getBlocked | getStop | getDone | started | startFail | getRaised | workFail | flushed
  | flushFail | left | leaveFail | close | call | callFail | workDone => exact .inl h

theorem step_errors {s s' : Ex} (hs : Ex.Step c s s') : ∃ l, s'.errors = s.errors ++ l := by
  cases hs with
  | startFail | workFail | flushFail | leaveFail | callFail => exact ⟨_, rfl⟩
  | skip | putDone | putRaised | submitDone | mainFail | stopPut | stopRaised | stopDone | joined
  | putBlocked | stopBlocked | getBlocked | getStop | getDone | started | getRaised | flushed | left | close | call
  | workDone => exact ⟨[], by simp [Ex.setW]⟩

/-- The signals in the errors. -/
structure TInv (s : St) : Prop where
  errors : ∀ n, .terminated n ∈ s.ex.errors → s.signal = some n
  joining : ∀ n, s.ex.main ≠ .joining (some (.terminated n))
  done : ∀ n, s.ex.main = .done (some (.terminated n)) → .terminated n ∈ s.ex.errors

theorem tinv {acts : List Act} {d : Nat → Byte} {s : St} (h : Reachable c acts d s) : TInv s := by
  induction h with
  | init => exact ⟨by simp [St.init, Ex.init], by simp [St.init, Ex.init], by simp [St.init, Ex.init]⟩
  | @step s s' hr hs ih =>
    cases hs with
    | signal n =>
      refine ⟨fun m hm => ?_, ih.joining, ih.done⟩
      simp [handleSignal, ih.errors m hm]
    | passed => exact ⟨ih.errors, ih.joining, ih.done⟩
    | raised hk hp hc hsig =>
      refine ⟨fun m hm => ?_, ih.joining, fun m hm => List.mem_append_left _ (ih.done m hm)⟩
      rcases List.mem_append.1 hm with hm | hm
      · exact ih.errors m hm
      · simp at hm; subst hm; exact hsig
    | @other ex hx he hw =>
      refine ⟨fun m hm => ih.errors m (he.1 m hm), fun m hm => ih.joining m (he.2 m hm), fun m hm => ?_⟩
      rcases Step.main hx _ hm with h | ⟨h, -⟩ | ⟨-, h, h'⟩
      · obtain ⟨l, hl⟩ := step_errors hx
        show _ ∈ ex.errors
        rw [hl]
        exact List.mem_append_left _ (ih.done m h)
      · exact absurd h (ih.joining m)
      · show _ ∈ ex.errors
        rw [h']
        exact List.mem_of_mem_head? h

end Imageio.Tool
