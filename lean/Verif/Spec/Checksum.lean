import Verif.Spec.Disk
/-!
Specification of the image checksum: the digest of the digests of the blocks.
-/
namespace Imageio.Spec

/-- Cut a list to pieces of `n` items; the last piece may be shorter. -/
def chunks {α : Type} (n : Nat) (l : List α) : List (List α) :=
  if _h : 0 < n ∧ l ≠ [] then l.take n :: chunks n (l.drop n) else []
termination_by l.length
decreasing_by
  have := _h.1
  have := List.length_pos_iff.2 _h.2
  rw [List.length_drop]
  omega

/-- The checksum of an image: the digest of the concatenated digests of its blocks. -/
def blockChecksum (digest : Bytes → Bytes) (blockSize : Nat) (image : Bytes) : Bytes :=
  digest ((chunks blockSize image).flatMap digest)

/-- The pieces are consecutive parts of the list. -/
theorem chunks_flatten {α : Type} {n : Nat} (hn : 0 < n) (l : List α) : (chunks n l).flatten = l := by
  induction hl : l.length using Nat.strongRecOn generalizing l with
  | _ k ih =>
    unfold chunks
    by_cases h : l = []
    · subst h
      simp
    · rw [dif_pos ⟨hn, h⟩, List.flatten_cons, ih (l.drop n).length ?_ _ rfl, List.take_append_drop]
      have := List.length_pos_iff.2 h
      rw [List.length_drop]
      omega

/-- All the pieces have `n` items, except the last one that may be shorter, but is never empty. -/
theorem chunks_length {α : Type} {n : Nat} (l : List α) :
    (∀ c ∈ chunks n l, 0 < c.length ∧ c.length ≤ n) ∧ ∀ c ∈ (chunks n l).dropLast, c.length = n := by
  induction hl : l.length using Nat.strongRecOn generalizing l with
  | _ k ih =>
    unfold chunks
    split
    next h =>
      have hp := List.length_pos_iff.2 h.2
      obtain ⟨i1, i2⟩ := ih (l.drop n).length (by rw [List.length_drop]; omega) _ rfl
      constructor
      · intro c hc
        rcases List.mem_cons.1 hc with rfl | hc
        · rw [List.length_take]; omega
        · exact i1 c hc
      · intro c hc
        by_cases hd : l.drop n = []
        · rw [hd] at hc
          simp [chunks] at hc
        · have hne : chunks n (l.drop n) ≠ [] := by
            unfold chunks
            rw [dif_pos ⟨h.1, hd⟩]
            simp
          rw [List.dropLast_cons_of_ne_nil hne] at hc
          rcases List.mem_cons.1 hc with rfl | hc
          · rw [List.length_take]
            have := List.length_pos_iff.2 hd
            rw [List.length_drop] at this
            omega
          · exact i2 c hc
    · simp

end Imageio.Spec
