import Verif.Base
import Mathlib.Logic.ExistsUnique
/-!
Specification of extents: a list of runs describes one value per byte.
-/
namespace Imageio.Spec

/-- The value of every byte described by a list of runs (length, value). -/
def expand {α : Type} (runs : List (Nat × α)) : List α :=
  runs.flatMap fun r => List.replicate r.1 r.2

/-- The extents (start, length) tile the bytes from `s` to `e`: the first starts at `s`, every
one is not empty, starts where the previous one ended, and the last one ends at `e`. -/
inductive Tiles : Nat → List (Nat × Nat) → Nat → Prop
  | nil (s : Nat) : Tiles s [] s
  | cons {s len e : Nat} {l : List (Nat × Nat)} (hlen : 0 < len) (h : Tiles (s + len) l e) :
      Tiles s ((s, len) :: l) e

/-- Runs without empty runs and without equal neighbours: the shortest description. -/
inductive Shortest {α : Type} : List (Nat × α) → Prop
  | nil : Shortest []
  | one {n : Nat} {a : α} (h : 0 < n) : Shortest [(n, a)]
  | cons {n m : Nat} {a b : α} {l : List (Nat × α)} (h : 0 < n) (hne : a ≠ b)
      (hl : Shortest ((m, b) :: l)) : Shortest ((n, a) :: (m, b) :: l)

/-- The descriptors that a server sent for offset `off` are true: byte `j` of the description has
the flags of byte `off + j` of the image of `size` bytes. -/
def Describes (m : Nat → Nat) (size off : Nat) (l : List (Nat × Nat)) : Prop :=
  ∀ j (h : j < (expand l).length), off + j < size → (expand l)[j] = m (off + j)

/-- Every byte of a tiling belongs to exactly one extent. -/
theorem Tiles.unique {s e : Nat} {l : List (Nat × Nat)} (h : Tiles s l e) (i : Nat) (hs : s ≤ i)
    (he : i < e) : ∃! x : Nat × Nat, x ∈ l ∧ x.1 ≤ i ∧ i < x.1 + x.2 := by
  have low : ∀ {s l e}, Tiles s l e → s ≤ e ∧ ∀ x ∈ l, s ≤ x.1 := by
    intro s l e h
    induction h with
    | nil => exact ⟨Nat.le_refl _, by simp⟩
    | cons hlen h ih =>
      refine ⟨by omega, ?_⟩
      intro x hx
      rcases List.mem_cons.1 hx with rfl | hx
      · exact Nat.le_refl _
      · have := ih.2 x hx
        omega
  induction h with
  | nil => omega
  | @cons s len e l hlen h ih =>
    by_cases hi : i < s + len
    · refine ⟨(s, len), ⟨by simp, hs, hi⟩, ?_⟩
      rintro x ⟨hx, h1, h2⟩
      rcases List.mem_cons.1 hx with rfl | hx
      · rfl
      · have := (low h).2 x hx
        omega
    · obtain ⟨x, ⟨hx, h1, h2⟩, hu⟩ := ih (by omega) he
      refine ⟨x, ⟨by simp [hx], h1, h2⟩, ?_⟩
      rintro y ⟨hy, h3, h4⟩
      rcases List.mem_cons.1 hy with rfl | hy
      · simp only at h4
        omega
      · exact hu y ⟨hy, h3, h4⟩

end Imageio.Spec
