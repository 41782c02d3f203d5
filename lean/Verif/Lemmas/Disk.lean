import Verif.Spec.Disk
namespace Imageio.Spec

@[simp] theorem store_nil (c : Nat → Byte) (off : Nat) : store c off [] = c := by
  funext i
  simp only [store, List.length_nil, Nat.add_zero]
  rw [if_neg (by omega)]

theorem store_append (c : Nat → Byte) (off : Nat) (a b : Bytes) :
    store (store c off a) (off + a.length) b = store c off (a ++ b) := by
  funext i
  simp only [store, List.length_append, byteAt]
  by_cases h1 : off + a.length ≤ i ∧ i < off + a.length + b.length
  · rw [if_pos h1, if_pos (by omega)]
    simp only [List.getD_eq_getElem?_getD]
    rw [List.getElem?_append_right (by omega)]
    congr 2
    omega
  · rw [if_neg h1]
    by_cases h2 : off ≤ i ∧ i < off + a.length
    · rw [if_pos h2, if_pos (by omega)]
      simp only [List.getD_eq_getElem?_getD]
      rw [List.getElem?_append_left (by omega)]
    · rw [if_neg h2, if_neg (by omega)]

theorem store_inside (c : Nat → Byte) (off : Nat) (d : Bytes) (i : Nat) (h1 : off ≤ i) (h2 : i < off + d.length) :
    store c off d i = d[i - off]'(by omega) := by
  simp only [store, byteAt]
  rw [if_pos ⟨h1, h2⟩, List.getD_eq_getElem?_getD, List.getElem?_eq_getElem (by omega)]
  rfl

theorem store_outside (c : Nat → Byte) (off : Nat) (d : Bytes) (i : Nat) (h : ¬ (off ≤ i ∧ i < off + d.length)) :
    store c off d i = c i := by
  simp only [store]
  rw [if_neg h]

@[simp] theorem load_length (c : Nat → Byte) (off n : Nat) : (load c off n).length = n := by simp [load]

theorem load_append (c : Nat → Byte) (off n m : Nat) : load c off n ++ load c (off + n) m = load c off (n + m) := by
  simp only [load, List.range_add, List.map_append, List.map_map]
  congr 1
  apply List.map_congr_left
  intro i _
  simp [Nat.add_assoc]

@[simp] theorem load_zero (c : Nat → Byte) (off : Nat) : load c off 0 = [] := rfl

theorem load_take (c : Nat → Byte) (off n k : Nat) : (load c off n).take k = load c off (min k n) := by
  simp only [load, ← List.map_take, List.take_range]

theorem load_drop (c : Nat → Byte) (off n k : Nat) : (load c off n).drop k = load c (off + k) (n - k) := by
  by_cases h : k ≤ n
  · have : n = k + (n - k) := by omega
    conv => lhs; rw [this, ← load_append]
    rw [List.drop_append_of_le_length (by simp), List.drop_of_length_le (by simp)]
    simp
  · rw [List.drop_of_length_le (by simp; omega), show n - k = 0 by omega]
    rfl

theorem load_getElem (c : Nat → Byte) (off n i : Nat) (h : i < (load c off n).length) : (load c off n)[i] = c (off + i) := by
  simp [load]

theorem load_store (c : Nat → Byte) (off : Nat) (d : Bytes) : load (store c off d) off d.length = d := by
  apply List.ext_getElem
  · simp
  · intro i h1 h2
    rw [load_getElem, store_inside _ _ _ _ (by omega) (by omega)]
    congr 1
    omega

theorem load_congr (c c' : Nat → Byte) (off n : Nat) (h : ∀ i, off ≤ i → i < off + n → c i = c' i) :
    load c off n = load c' off n := by
  simp only [load]
  apply List.map_congr_left
  intro i hi
  rw [List.mem_range] at hi
  exact h _ (by omega) (by omega)

theorem store_load_same (c : Nat → Byte) (off n : Nat) : store c off (load c off n) = c := by
  funext i
  by_cases h : off ≤ i ∧ i < off + n
  · rw [store_inside _ _ _ _ h.1 (by simpa using h.2), load_getElem]
    congr 1; omega
  · rw [store_outside]; simpa using h

end Imageio.Spec
