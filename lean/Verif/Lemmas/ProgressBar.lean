import Verif.Lemmas.ProgressPercent
import Verif.Spec.Progress
/-! Invariants of the progress bar. -/
namespace Imageio.Progress
open Imageio.Spec

/-- Consecutive drawings are different. -/
def Differ (a b : Draw) : Prop := b.last = true ∨ a.phase ≠ b.phase ∨ a.size ≠ b.size ∨ a.value < b.value

/-- Later drawings do not go back. -/
def Forward (a b : Draw) : Prop := a.transferred ≤ b.transferred ∧ a.value ≤ b.value ∧ a.last = false

structure Inv (b : Bar) : Prop where
  drawn : ∃ pre d, b.draws = pre ++ [d] ∧ d.value = b.value ∧ d.size = b.size ∧ d.phase = b.phase ∧
    d.transferred ≤ b.done ∧ d.last = b.closed ∧ (b.closed = true → d.transferred = b.done)
  pairs : b.draws.Pairwise Forward
  chain : b.draws.IsChain Differ

/-- A state like `b`, drawn. -/
theorem inv_draw {b : Bar} (h : Inv b) (hc : b.closed = false) {phase size done value last}
    (hd : b.done ≤ done) (hv : b.value ≤ value)
    (hne : last = true ∨ b.phase ≠ phase ∨ b.size ≠ size ∨ b.value < value) :
    Inv (Bar.draw { b with phase := phase, size := size, done := done, value := value, closed := last } last) := by
  obtain ⟨pre, d, h1, h2, h3, h4, h5, h6, h7⟩ := h.drawn
  have hl : d.last = false := by rw [h6, hc]
  have hpairs := h.pairs
  have hchain := h.chain
  rw [h1] at hpairs hchain
  rw [List.pairwise_append] at hpairs
  refine ⟨⟨pre ++ [d], ⟨value, done, size, phase, last⟩, ?_, rfl, rfl, rfl, le_refl _, rfl, fun _ => rfl⟩, ?_, ?_⟩
  · simp [Bar.draw, h1]
  · simp only [Bar.draw, h1]
    rw [List.pairwise_append]
    refine ⟨by rw [List.pairwise_append]; exact hpairs, List.pairwise_singleton _ _, ?_⟩
    intro x hx y hy
    rw [List.mem_singleton] at hy
    subst hy
    have hxd : x = d ∨ Forward x d := by
      rw [List.mem_append, List.mem_singleton] at hx
      rcases hx with hx | hx
      · exact .inr (hpairs.2.2 x hx d (List.mem_singleton.2 rfl))
      · exact .inl hx
    rcases hxd with rfl | ⟨f1, f2, f3⟩
    · exact ⟨le_trans h5 hd, by simp only; omega, hl⟩
    · exact ⟨le_trans f1 (le_trans h5 hd), by simp only; omega, f3⟩
  · simp only [Bar.draw, h1]
    rw [List.isChain_append]
    refine ⟨hchain, List.IsChain.singleton _, ?_⟩
    intro x hx y hy
    rw [List.getLast?_append] at hx
    simp only [List.getLast?_singleton, Option.some_or, Option.mem_def, Option.some.injEq, List.head?_cons] at hx hy
    subst hx hy
    unfold Differ
    simp only
    rw [h2, h3, h4]
    exact hne

theorem inv_new (p e s) : Inv (Bar.new p e s) := by
  refine ⟨⟨[], ⟨-1, 0, s, p, false⟩, rfl, rfl, rfl, rfl, le_refl _, rfl, nofun⟩, ?_, ?_⟩
  · exact List.pairwise_singleton _ _
  · exact List.IsChain.singleton _

theorem inv_setPhase {b : Bar} (h : Inv b) (p) : Inv (b.setPhase p) := by
  unfold Bar.setPhase
  split
  · exact h
  · rename_i hc
    have hc : b.closed = false := by simpa using hc
    split
    · rename_i hne
      have := inv_draw h hc (phase := p) (size := b.size) (done := b.done) (value := b.value) (last := false)
        (le_refl _) (le_refl _) (.inr (.inl hne))
      rw [← hc] at this
      rw [← hc]; exact this
    · exact h

theorem inv_setSize {b : Bar} (h : Inv b) (n) : Inv (b.setSize n) := by
  unfold Bar.setSize
  split
  · exact h
  · rename_i hc
    have hc : b.closed = false := by simpa using hc
    split
    · rename_i hne
      have := inv_draw h hc (phase := b.phase) (size := n) (done := b.done) (value := b.value) (last := false)
        (le_refl _) (le_refl _) (.inr (.inr (.inl hne)))
      rw [← hc] at this
      rw [← hc]; exact this
    · exact h

theorem inv_done {b : Bar} (h : Inv b) (hc : b.closed = false) (n : Nat) : Inv { b with done := b.done + n } := by
  obtain ⟨pre, d, h1, h2, h3, h4, h5, h6, h7⟩ := h.drawn
  refine ⟨⟨pre, d, h1, h2, h3, h4, Nat.le_trans h5 (Nat.le_add_right ..), h6, ?_⟩, h.pairs, h.chain⟩
  intro hx
  rw [show b.closed = true from hx] at hc
  exact absurd hc nofun

theorem inv_update {b : Bar} (h : Inv b) (n) : Inv (b.update n) := by
  unfold Bar.update
  split
  · exact h
  · rename_i hc
    have hc : b.closed = false := by simpa using hc
    simp only
    split
    · unfold Bar.advance
      simp only
      split
      · rename_i size hs hlt
        have := inv_draw h hc (phase := b.phase) (size := b.size) (done := b.done + n)
          (value := percent (b.done + n) (size + 1)) (last := false)
          (Nat.le_add_right ..) (by omega) (.inr (.inr (.inr hlt)))
        rw [← hc] at this
        rw [← hc]; exact this
      · exact inv_done h hc n
    · exact inv_done h hc n

theorem inv_close {b : Bar} (h : Inv b) : Inv b.close := by
  unfold Bar.close
  split
  · exact h
  · rename_i hc
    exact inv_draw h (by simpa using hc) (le_refl _) (le_refl _) (.inl rfl)

theorem inv_call {b : Bar} (h : Inv b) (c : Call) : Inv (b.call c) := by
  cases c with
  | setPhase s => exact inv_setPhase h s
  | setSize n => exact inv_setSize h n
  | update n => exact inv_update h n
  | close => exact inv_close h

theorem inv_calls {b : Bar} (h : Inv b) (l : List Call) : Inv (b.calls l) := by
  induction l generalizing b with
  | nil => exact h
  | cons c l ih => exact ih (inv_call h c)

/-! ### A closed bar, and the bytes -/

theorem call_closed {b : Bar} (h : b.closed = true) (c : Call) : b.call c = b := by
  cases c <;> simp [Bar.call, Bar.setPhase, Bar.setSize, Bar.update, Bar.close, h]

theorem calls_closed {b : Bar} (h : b.closed = true) (l : List Call) : b.calls l = b := by
  induction l with
  | nil => rfl
  | cons c l ih =>
    show (b.call c).calls l = b
    rw [call_closed h, ih]

theorem done_setPhase (b : Bar) (p) : (b.setPhase p).done = b.done ∧ (b.setPhase p).closed = b.closed ∧
    (b.setPhase p).size = b.size ∧ (b.setPhase p).value = b.value ∧ (b.setPhase p).errorPhase = b.errorPhase := by
  unfold Bar.setPhase; split <;> [skip; split] <;> simp [Bar.draw]

theorem done_setSize (b : Bar) (p) : (b.setSize p).done = b.done ∧ (b.setSize p).closed = b.closed ∧
    (b.setSize p).value = b.value ∧ (b.setSize p).errorPhase = b.errorPhase ∧ (b.setSize p).phase = b.phase := by
  unfold Bar.setSize; split <;> [skip; split] <;> simp [Bar.draw]

theorem size_setSize (b : Bar) (hc : b.closed = false) (n) : (b.setSize n).size = n := by
  unfold Bar.setSize
  rw [hc]
  by_cases h : b.size = n <;> simp [h, Bar.draw]

theorem done_update (b : Bar) (hc : b.closed = false) (n) : (b.update n).done = b.done + n ∧
    (b.update n).closed = false ∧ (b.update n).size = b.size ∧ (b.update n).phase = b.phase ∧
    (b.update n).errorPhase = b.errorPhase := by
  unfold Bar.update
  rw [hc]
  simp only [Bool.false_eq_true, if_false]
  split
  · rename_i h
    unfold Bar.advance
    split <;> simp [Bar.draw, hc, h]
  · simp [hc]

theorem done_close (b : Bar) : b.close.done = b.done ∧ b.close.closed = true := by
  unfold Bar.close
  split
  · rename_i h; exact ⟨rfl, h⟩
  · simp [Bar.draw]

/-- The bytes of the bar are the reported bytes. -/
theorem done_calls {b : Bar} (hc : b.closed = false) (l : List Call) :
    (b.calls l).done = b.done + transferred l ∧ ((b.calls l).closed = true ↔ Call.close ∈ l) := by
  induction l generalizing b with
  | nil => simp [Bar.calls, transferred, hc]
  | cons c l ih =>
    show ((b.call c).calls l).done = _ ∧ (((b.call c).calls l).closed = true ↔ _)
    cases c with
    | close =>
      have h := done_close b
      rw [show b.call .close = b.close from rfl, calls_closed h.2]
      exact ⟨by rw [h.1, transferred]; omega, by simp [h.2]⟩
    | setPhase s =>
      have h := done_setPhase b s
      have := ih (b := b.setPhase s) (h.2.1.trans hc)
      rw [show b.call (.setPhase s) = b.setPhase s from rfl]
      rw [this.1, this.2, h.1]
      simp [transferred]
    | setSize n =>
      have h := done_setSize b n
      have := ih (b := b.setSize n) (h.2.1.trans hc)
      rw [show b.call (.setSize n) = b.setSize n from rfl]
      rw [this.1, this.2, h.1]
      simp [transferred]
    | update n =>
      have h := done_update b hc n
      have := ih (b := b.update n) h.2.1
      rw [show b.call (.update n) = b.update n from rfl]
      rw [this.1, this.2, h.1]
      simp [transferred]; omega

/-! ### The value for a fixed size -/

/-- The value is the percent of the bytes, or nothing was reported yet. -/
def Exact (b : Bar) (size : Nat) : Prop :=
  b.closed = false ∧ b.size = some size ∧ (b.value = percent b.done size ∨ b.value = -1 ∧ b.done = 0)

theorem exact_update {b : Bar} {size : Nat} (hs : 0 < size) (h : Exact b size) (n : Nat) : Exact (b.update n) size := by
  obtain ⟨h1, h2, h3⟩ := h
  obtain ⟨u1, u2, u3, -⟩ := done_update b h1 n
  refine ⟨u2, u3.trans h2, .inl ?_⟩
  rw [u1]
  obtain ⟨m, rfl⟩ : ∃ m, size = m + 1 := ⟨size - 1, by omega⟩
  have key : b.value ≤ percent (b.done + n) (m + 1) := by
    rcases h3 with h3 | ⟨h3, -⟩
    · rw [h3]; exact percent_mono _ (Nat.le_add_right ..)
    · rw [h3]; have := percent_nonneg (b.done + n) (m + 1); omega
  unfold Bar.update
  simp only [h1, h2, Bool.false_eq_true, if_false]
  unfold Bar.advance
  simp only
  split
  · simp [Bar.draw]
  · simp only; omega

theorem exact_setPhase {b : Bar} {size : Nat} (h : Exact b size) (p) : Exact (b.setPhase p) size := by
  obtain ⟨u1, u2, u3, u4, -⟩ := done_setPhase b p
  unfold Exact
  rw [u1, u2, u3, u4]
  exact h

end Imageio.Progress
