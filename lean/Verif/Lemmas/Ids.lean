import Verif.Spec.Ids
import Verif.Lemmas.SparseStream
/-!
Lemmas about ids of disks.
-/
namespace Imageio.Ids
open SparseStream Spec.Sparse Spec.Ids

theorem dash_eq : "-".toUTF8.toList = [45] := by decide +kernel

theorem remove_free {c : Byte} {p : Bytes} : ∀ (fuel : Nat) (s : Bytes), c ∉ s → remove (c :: p) fuel s = s := by
  intro fuel
  induction fuel with
  | zero => intro s _; cases s <;> rfl
  | succ fuel ih =>
    intro s h
    cases s with
    | nil => rfl
    | cons x t =>
      have hx : (c == x) = false := by
        simp only [List.mem_cons, not_or] at h
        simpa using h.1
      simp only [remove, List.isPrefixOf, hx, Bool.false_and, Bool.false_eq_true, if_false]
      rw [ih t (fun h' => h (List.mem_cons_of_mem _ h'))]

theorem strip_free {s : Bytes} (h : ∀ c ∈ s, isBrace c = false) : strip s = s := by
  have one : ∀ t : Bytes, (∀ c ∈ t, isBrace c = false) → t.dropWhile isBrace = t := by
    intro t ht
    cases t with
    | nil => rfl
    | cons x t => exact dropWhile_eq (ht x (by simp))
  unfold strip
  rw [one s h, one s.reverse (fun c hc => h c (by simpa using hc)), List.reverse_reverse]

theorem strip_braces {s : Bytes} (h : ∀ c ∈ s, isBrace c = false) : strip (123 :: (s ++ [125])) = s := by
  have h1 : (123 :: (s ++ [125])).dropWhile isBrace = (s ++ [125]).dropWhile isBrace := rfl
  have h2 : strip (123 :: (s ++ [125])) = strip (s ++ [125]) := by unfold strip; rw [h1]
  rw [h2]
  cases s with
  | nil => decide
  | cons x t =>
    unfold strip
    rw [List.cons_append, dropWhile_eq (h x (by simp)), ← List.cons_append, List.reverse_append]
    have h3 : ([125].reverse ++ (x :: t).reverse).dropWhile isBrace = (x :: t).reverse.dropWhile isBrace := rfl
    rw [h3]
    have : (x :: t).reverse.dropWhile isBrace = (x :: t).reverse := by
      cases hr : (x :: t).reverse with
      | nil => rfl
      | cons y u =>
        refine dropWhile_eq (h y ?_)
        have : y ∈ (x :: t).reverse := by rw [hr]; simp
        exact List.mem_reverse.mp this
    rw [this, List.reverse_reverse]

/-- The characters of a spelled id. -/
theorem spelled_chars {s : Bytes} {n : Nat} (h : Spelled s n) : ∀ c ∈ s, c ≠ 117 ∧ isBrace c = false := by
  intro c hc
  by_cases hd : c = 45
  · subst hd; decide
  · have hm : c ∈ s.filter fun x => decide (x ≠ 45) := by simp [hc, hd]
    obtain ⟨v, hv⟩ := digits_mem h.2 c hm
    obtain ⟨-, h2, -⟩ := digit_lt hv
    constructor
    · rintro rfl; simp [hexValue] at h2
    · cases hb : isBrace c with
      | false => rfl
      | true =>
        simp only [isBrace, Bool.or_eq_true, decide_eq_true_eq] at hb
        rcases hb with rfl | rfl <;> simp [hexValue] at h2

theorem digits_lt {b : Bytes} {n : Nat} (h : Digits b n) : n < 16 ^ b.length := by
  induction h with
  | nil => simp
  | @snoc b n c v _ hd ih =>
    have := (digit_lt hd).1
    rw [List.length_append, List.length_singleton, Nat.pow_succ]
    omega

theorem uuidInt_cleaned {s h : Bytes} {n : Nat} (hc : cleaned s = h) (hl : h.length = 32) (hd : Digits h n) : uuidInt s = some n := by
  have hn : n < 2 ^ 128 := by
    have := digits_lt hd
    rw [hl] at this
    have e : (16 : Nat) ^ 32 = 2 ^ 128 := by decide
    omega
  have hp := pyInt16_digits hd (by rintro rfl; cases hl) [] (by simp)
  rw [List.append_nil] at hp
  unfold uuidInt
  simp only [hc, hl, ne_eq, not_true_eq_false, if_false, hp]
  rw [if_pos ⟨by omega, by omega⟩]
  simp

theorem cleaned_spelled {s : Bytes} {n : Nat} (h : Spelled s n) : cleaned s = s.filter fun x => decide (x ≠ 45) := by
  have hc := spelled_chars h
  have h1 : remove URN s.length s = s := remove_free _ s fun hm => (hc _ hm).1 rfl
  have h2 : remove UUID s.length s = s := remove_free _ s fun hm => (hc _ hm).1 rfl
  unfold cleaned
  simp only [h1, h2]
  rw [strip_free fun c hm => (hc c hm).2]

theorem cleaned_braces {s : Bytes} {n : Nat} (h : Spelled s n) : cleaned (123 :: (s ++ [125])) = s.filter fun x => decide (x ≠ 45) := by
  have hc := spelled_chars h
  have hu : (117 : Byte) ∉ 123 :: (s ++ [125]) := by
    simp only [List.mem_cons, List.mem_append, List.not_mem_nil, or_false, not_or]
    exact ⟨by decide, fun hm => (hc _ hm).1 rfl, by decide⟩
  have h1 : remove URN (123 :: (s ++ [125])).length (123 :: (s ++ [125])) = 123 :: (s ++ [125]) := remove_free _ _ hu
  have h2 : remove UUID (123 :: (s ++ [125])).length (123 :: (s ++ [125])) = 123 :: (s ++ [125]) := remove_free _ _ hu
  unfold cleaned
  simp only [h1, h2]
  rw [strip_braces fun c hm => (hc c hm).2]

theorem cleaned_urn {s : Bytes} {n : Nat} (h : Spelled s n) : cleaned (URN ++ UUID ++ s) = s.filter fun x => decide (x ≠ 45) := by
  have hc := spelled_chars h
  have hu : (117 : Byte) ∉ s := fun hm => (hc _ hm).1 rfl
  have h1 : remove URN (URN ++ UUID ++ s).length (URN ++ UUID ++ s) = UUID ++ s := by
    have : ∀ k, remove URN (k + 6) (URN ++ UUID ++ s) = UUID ++ remove URN k s := by
      intro k
      simp [remove, URN, UUID, List.isPrefixOf]
    have e : (URN ++ UUID ++ s).length = s.length + 3 + 6 := by simp [URN, UUID]
    rw [e, this, show remove URN (s.length + 3) s = s from remove_free _ _ hu]
  have h2 : remove UUID (UUID ++ s).length (UUID ++ s) = s := by
    have : ∀ k, remove UUID (k + 1) (UUID ++ s) = remove UUID k s := by
      intro k
      simp [remove, UUID, List.isPrefixOf]
    have e : (UUID ++ s).length = s.length + 4 + 1 := by simp [UUID]
    rw [e, this, show remove UUID (s.length + 4) s = s from remove_free _ _ hu]
  unfold cleaned
  simp only [h1, h2]
  rw [strip_free fun c hm => (hc c hm).2]

/-! ### The canonical text -/

theorem hexDigits_lower (n : Nat) : ∀ x ∈ hexDigits n, ¬ (65 ≤ x ∧ x ≤ 90) := by
  have one : ∀ v, v < 16 → ¬ (65 ≤ hexDigit v ∧ hexDigit v ≤ 90) := by decide
  induction n using Nat.strongRecOn with
  | ind n ih =>
    unfold hexDigits
    split
    · intro x hx
      rw [List.mem_singleton.mp hx]
      exact one n (by assumption)
    · intro x hx
      rcases List.mem_append.mp hx with hx | hx
      · exact ih (n / 16) (by omega) x hx
      · rw [List.mem_singleton.mp hx]
        exact one _ (by omega)

theorem hex32_props {n : Nat} (h : n < 2 ^ 128) : (hex32 n).length = 32 ∧ Digits (hex32 n) n ∧ ∀ x ∈ hex32 n, ¬ (65 ≤ x ∧ x ≤ 90) := by
  have hl := hexDigits_length 31 n (by simpa using h)
  refine ⟨?_, digits_pad (digits_hexDigits n) _, fun x hx => ?_⟩
  · unfold hex32
    simp only [List.length_append, List.length_replicate]
    omega
  · rcases List.mem_append.mp hx with hx | hx
    · rw [List.eq_of_mem_replicate hx]; decide
    · exact hexDigits_lower n x hx

theorem canonical_uuidStr {n : Nat} (h : n < 2 ^ 128) : Canonical (uuidStr n) n := by
  obtain ⟨h1, h2, h3⟩ := hex32_props h
  have e : (hex32 n).take 8 ++ ((hex32 n).drop 8).take 4 ++ ((hex32 n).drop 12).take 4 ++ ((hex32 n).drop 16).take 4 ++ (hex32 n).drop 20 = hex32 n := by
    have a : ∀ k m, k + 4 = m → ((hex32 n).drop k).take 4 ++ (hex32 n).drop m = (hex32 n).drop k := by
      intro k m hm
      rw [← hm, ← List.drop_drop]
      exact List.take_append_drop ..
    rw [List.append_assoc, List.append_assoc, List.append_assoc, a 16 20 rfl, a 12 16 rfl, a 8 12 rfl, List.take_append_drop]
  refine ⟨_, _, _, _, _, ?_, ?_, ?_, ?_, ?_, by rw [e]; exact h2, by rw [e]; exact h3, by rw [dash_eq]; rfl⟩ <;>
    simp [h1]

theorem digits_inv {b : Bytes} {n : Nat} (h : Digits b n) :
    (b = [] ∧ n = 0) ∨ ∃ b0 n0 c v, b = b0 ++ [c] ∧ n = 16 * n0 + v ∧ Digits b0 n0 ∧ Digit c v := by
  cases h with
  | nil => exact .inl ⟨rfl, rfl⟩
  | snoc h1 h2 => exact .inr ⟨_, _, _, _, rfl, rfl, h1, h2⟩

theorem digit_lower_unique {c c' : Byte} {v : Nat} (h : Digit c v) (h' : Digit c' v) (hl : ¬ (65 ≤ c ∧ c ≤ 90)) (hl' : ¬ (65 ≤ c' ∧ c' ≤ 90)) :
    c = c' := by
  have up : ∀ v, 10 ≤ v → v < 16 → (65 ≤ UInt8.ofNat (65 + (v - 10)) ∧ UInt8.ofNat (65 + (v - 10)) ≤ 90) := by
    intro v h1 h2
    have : ∀ v, v < 16 → 10 ≤ v → (65 ≤ UInt8.ofNat (65 + (v - 10)) ∧ UInt8.ofNat (65 + (v - 10)) ≤ 90) := by decide
    exact this v h2 h1
  cases h with
  | upper _ h1 h2 => exact absurd (up v h1 h2) hl
  | decimal _ h1 =>
    cases h' with
    | decimal _ _ => rfl
    | lower _ h3 _ => omega
    | upper _ h3 _ => omega
  | lower _ h1 h2 =>
    cases h' with
    | decimal _ _ => omega
    | lower _ _ _ => rfl
    | upper _ h3 h4 => exact absurd (up v h3 h4) hl'

theorem lower_unique {b : Bytes} {n : Nat} (h : Digits b n) : ∀ {b' : Bytes}, Digits b' n → b.length = b'.length →
    (∀ x ∈ b, ¬ (65 ≤ x ∧ x ≤ 90)) → (∀ x ∈ b', ¬ (65 ≤ x ∧ x ≤ 90)) → b = b' := by
  induction h with
  | nil => intro b' _ hl _ _; exact (List.eq_nil_of_length_eq_zero hl.symm).symm
  | @snoc b n c v hb hc ih =>
    intro b' h' hl hlo hlo'
    rcases digits_inv h' with ⟨rfl, -⟩ | ⟨b0, n0, c0, v0, rfl, he, hb0, hc0⟩
    · simp at hl
    · have l1 := (digit_lt hc).1
      have l2 := (digit_lt hc0).1
      obtain rfl : n = n0 := by omega
      obtain rfl : v = v0 := by omega
      rw [ih hb0 (by simpa using hl) (fun x hx => hlo x (by simp [hx])) (fun x hx => hlo' x (by simp [hx])),
        digit_lower_unique hc hc0 (hlo c (by simp)) (hlo' c0 (by simp))]

theorem digits_value {b : Bytes} {n m : Nat} (h : Digits b n) (h' : Digits b m) : n = m := by
  have h1 := hexRun_digits h 0 true []
  have h2 := hexRun_digits h' 0 true []
  rw [h1] at h2
  simpa [hexRun] using h2

/-- The digits of a canonical text. -/
theorem canonical_digits {t : Bytes} {n : Nat} (h : Canonical t n) :
    Spelled t n ∧ (∀ x ∈ t.filter fun x => decide (x ≠ 45), ¬ (65 ≤ x ∧ x ≤ 90)) := by
  obtain ⟨a, b, c, d, e, ha, hb, hc, hd, he, hn, hlo, rfl⟩ := h
  have free : ∀ u : Bytes, (∀ x ∈ u, x ∈ a ++ b ++ c ++ d ++ e) → u.filter (fun x => decide (x ≠ 45)) = u := by
    intro u hu
    rw [List.filter_eq_self]
    intro x hx
    obtain ⟨v, hv⟩ := digits_mem hn x (hu x hx)
    have := (digit_lt hv).2.2.2.2.1
    simpa using this
  have e1 : (a ++ "-".toUTF8.toList ++ b ++ "-".toUTF8.toList ++ c ++ "-".toUTF8.toList ++ d ++ "-".toUTF8.toList ++ e).filter
      (fun x => decide (x ≠ 45)) = a ++ b ++ c ++ d ++ e := by
    have z : ([45] : Bytes).filter (fun x => decide (x ≠ 45)) = [] := by decide
    simp only [dash_eq, List.filter_append, z, List.append_nil]
    rw [free a (fun x hx => by simp [hx]), free b (fun x hx => by simp [hx]), free c (fun x hx => by simp [hx]),
      free d (fun x hx => by simp [hx]), free e (fun x hx => by simp [hx])]
  unfold Spelled
  rw [e1]
  exact ⟨⟨by simp [ha, hb, hc, hd, he], hn⟩, hlo⟩

/-- There is one canonical text. -/
theorem canonical_unique {t t' : Bytes} {n : Nat} (h : Canonical t n) (h' : Canonical t' n) : t = t' := by
  obtain ⟨a, b, c, d, e, ha, hb, hc, hd, he, hn, hlo, rfl⟩ := h
  obtain ⟨a', b', c', d', e', ha', hb', hc', hd', he', hn', hlo', rfl⟩ := h'
  have := lower_unique hn hn' (by simp [*]) hlo hlo'
  obtain ⟨h4, e4⟩ := List.append_inj this (by simp [*])
  obtain ⟨h3, e3⟩ := List.append_inj h4 (by simp [*])
  obtain ⟨h2, e2⟩ := List.append_inj h3 (by simp [*])
  obtain ⟨h1, e1⟩ := List.append_inj h2 (by simp [*])
  rw [h1, e1, e2, e3, e4]

end Imageio.Ids
