import Verif.Lemmas.Disk
import Verif.Model.Memory
namespace Imageio.Memory
open Imageio.Spec

theorem byteAt_append_zeros (f : Bytes) (k : Nat) : byteAt (f ++ zeros k) = byteAt f := by
  funext i
  simp only [byteAt, List.getD_eq_getElem?_getD, List.getElem?_append, zeros, List.getElem?_replicate]
  by_cases h : i < f.length
  · rw [if_pos h]
  · rw [if_neg h, List.getElem?_eq_none (by omega)]
    by_cases h2 : i - f.length < k
    · rw [if_pos h2]; rfl
    · rw [if_neg h2]

theorem byteAt_beyond (f : Bytes) (i : Nat) (h : f.length ≤ i) : byteAt f i = 0 := by
  simp only [byteAt, List.getD_eq_getElem?_getD]
  rw [List.getElem?_eq_none h]; rfl

theorem byteAt_zeros (n i : Nat) : byteAt (zeros n) i = 0 := by
  have := byteAt_append_zeros [] n
  rw [List.nil_append] at this
  rw [this]; rfl

theorem length_writeAt (f : Bytes) (p : Nat) (d : Bytes) : (writeAt f p d).length = max f.length (p + d.length) := by
  simp only [writeAt, zeros, List.length_append, List.length_take, List.length_drop, List.length_replicate]
  omega

/-- Replacing a range of a list that is long enough. -/
theorem byteAt_splice (g : Bytes) (p : Nat) (d : Bytes) (h : p + d.length ≤ g.length) :
    byteAt (g.take p ++ d ++ g.drop (p + d.length)) = store (byteAt g) p d := by
  funext i
  simp only [store, byteAt, List.getD_eq_getElem?_getD]
  have hp : (g.take p).length = p := by rw [List.length_take]; omega
  by_cases h1 : i < p
  · rw [if_neg (by omega), List.append_assoc, List.getElem?_append_left (by omega), List.getElem?_take_of_lt h1]
  · by_cases h2 : i < p + d.length
    · rw [if_pos (by omega), List.getElem?_append_left (by rw [List.length_append]; omega),
        List.getElem?_append_right (by omega), hp]
    · rw [if_neg (by omega), List.getElem?_append_right (by rw [List.length_append]; omega), List.getElem?_drop,
        List.length_append, hp]
      congr 2
      omega

theorem byteAt_writeAt (f : Bytes) (p : Nat) (d : Bytes) : byteAt (writeAt f p d) = store (byteAt f) p d := by
  simp only [writeAt]
  rw [byteAt_splice, byteAt_append_zeros]
  simp only [zeros, List.length_append, List.length_replicate]
  omega

theorem load_byteAt (f : Bytes) (p n : Nat) (h : p + n ≤ f.length) : (f.drop p).take n = load (byteAt f) p n := by
  apply List.ext_getElem
  · simp; omega
  · intro i h1 h2
    rw [load_getElem, List.getElem_take, List.getElem_drop]
    simp only [byteAt, List.getD_eq_getElem?_getD]
    rw [List.getElem?_eq_getElem (by simp at h2; omega)]
    rfl

theorem length_drop_take (f : Bytes) (p n : Nat) (h : p + n ≤ f.length) : ((f.drop p).take n).length = n := by
  simp; omega

/-- The memory backend meets the contract of the operations.  The content lives in the
memory of the server, so nothing can be said about a crash: `durable` is the content. -/
def lawful : Lawful backend where
  Inv s := s.closed = false
  content s := byteAt s.buf
  durable s := byteAt s.buf
  mayFail _ := True
  block_pos := by decide
  seek := by
    intro s n r s' hi h
    simp only [backend, seek, hi] at h
    cases h
    exact ⟨rfl, rfl, rfl, rfl, rfl, rfl⟩
  readinto := by
    intro s n d s' hi _ _ h
    simp only [backend, readinto, hi, Bool.false_eq_true, if_false] at h
    split at h
    · cases h
    · split at h
      · cases h
      · cases h
        have hl := length_drop_take s.buf s.pos (min n (s.buf.length - s.pos)) (by omega)
        refine ⟨rfl, rfl, rfl, rfl, by rw [hl]; omega, ?_, by simp only [backend]; rw [hl], ?_, ?_, ?_⟩
        · rw [hl]; exact load_byteAt _ _ _ (by omega)
        · simp only [backend]; rw [hl]; omega
        · intro hnil
          have := congrArg List.length hnil
          rw [hl] at this
          simp only [List.length_nil] at this
          simp only [backend]
          omega
        · left; simp only [backend]; omega
  readinto_err := by
    intro s n e s' hi _ _ h
    simp only [backend, readinto, hi, Bool.false_eq_true, if_false] at h
    split at h
    · cases h; exact ⟨trivial, trivial, hi, rfl, rfl, rfl⟩
    · split at h
      · cases h; exact ⟨trivial, trivial, hi, rfl, rfl, rfl⟩
      · cases h
  write := by
    intro s a d n s' hi hne _ h
    simp only [backend, write, hi, Bool.false_eq_true, if_false] at h
    split at h
    · cases h
    · cases h
      have : 0 < d.length := List.length_pos_iff.mpr hne
      refine ⟨rfl, this, Nat.le_refl _, rfl, ?_, ?_, ?_⟩
      · rw [List.take_length]; exact byteAt_writeAt _ _ _
      · simp only [backend]; rw [length_writeAt]; omega
      · simp only [backend]; rw [length_writeAt]; omega
  write_err := by
    intro s a d e s' hi _ _ h
    simp only [backend, write, hi, Bool.false_eq_true, if_false] at h
    split at h
    · cases h; exact ⟨trivial, trivial, hi, fun _ _ => rfl, Nat.le_refl _⟩
    · cases h
  zero := by
    intro s c n s' hi hc h
    simp only [backend, zero, hi, Bool.false_eq_true, if_false] at h
    split at h
    · cases h
    · rename_i hw
      simp only [write, hi, Bool.false_eq_true, if_false, hw] at h
      cases h
      simp only [zeros, List.length_replicate]
      refine ⟨trivial, hc, Nat.le_refl _, rfl, byteAt_writeAt _ _ _, ?_, ?_⟩
      · simp only [backend]; rw [length_writeAt]; omega
      · simp only [backend]; rw [length_writeAt]; simp
  zero_err := by
    intro s c e s' hi _ h
    simp only [backend, zero, hi, Bool.false_eq_true, if_false] at h
    split at h
    · cases h; exact ⟨trivial, trivial, hi, fun _ _ => rfl, Nat.le_refl _⟩
    · rename_i hw
      simp only [write, hi, Bool.false_eq_true, if_false, hw] at h
      cases h
  flush := by
    intro s s' hi h
    simp only [backend, flush, hi] at h
    cases h
    exact ⟨hi, rfl, rfl, rfl, rfl⟩
  flush_err := by
    intro s e s' hi h
    simp only [backend, flush, hi] at h
    cases h

end Imageio.Memory
