import Verif.Model.SparseStream
import Verif.Spec.SparseStream
import Verif.Lemmas.HttpBackend
import Verif.Props.HttpParse

/-!
Lemmas about the sparse stream: formatting and parsing of frames.
-/
namespace Imageio.SparseStream
open HttpBackend Spec Spec.Sparse

theorem kind_meta : "meta".toUTF8.toList = META := by decide +kernel
theorem kind_data : "data".toUTF8.toList = DATA := by decide +kernel
theorem kind_zero : "zero".toUTF8.toList = ZERO := by decide +kernel
theorem kind_stop : "stop".toUTF8.toList = STOP := by decide +kernel
theorem space_eq : " ".toUTF8.toList = [32] := by decide +kernel
theorem crlf_eq : crlf = TERM := by decide +kernel

/-! ### Numbers -/

theorem digit_hexDigit {v : Nat} (h : v < 16) : Digit (hexDigit v) v := by
  unfold hexDigit
  split
  · exact .decimal v (by assumption)
  · rw [show 87 + v = 97 + (v - 10) by omega]
    exact .lower v (by omega) h

theorem digits_hexDigits (n : Nat) : Digits (hexDigits n) n := by
  induction n using Nat.strongRecOn with
  | ind n ih =>
    unfold hexDigits
    split
    · have := Digits.snoc .nil (digit_hexDigit (v := n) (by assumption))
      simpa using this
    · have := Digits.snoc (ih (n / 16) (by omega)) (digit_hexDigit (v := n % 16) (by omega))
      rwa [show 16 * (n / 16) + n % 16 = n by omega] at this

theorem hexDigits_length (k : Nat) : ∀ n, n < 16 ^ (k + 1) → (hexDigits n).length ≤ k + 1 := by
  induction k with
  | zero =>
    intro n h
    unfold hexDigits
    rw [dif_pos (by simpa using h)]
    simp
  | succ k ih =>
    intro n h
    unfold hexDigits
    split
    · simp
    · have := ih (n / 16) (by
        rw [Nat.div_lt_iff_lt_mul (by omega), ← Nat.pow_succ]
        exact h)
      simp only [List.length_append, List.length_cons, List.length_nil]
      omega

theorem digits_pad {b : Bytes} {n : Nat} (h : Digits b n) (k : Nat) :
    Digits (List.replicate k 48 ++ b) n := by
  induction h with
  | nil =>
    induction k with
    | zero => exact .nil
    | succ k ih =>
      have := Digits.snoc ih (.decimal 0 (by omega))
      simp only [List.append_nil] at this ⊢
      rw [List.replicate_succ']
      exact this
  | snoc _ hd ih =>
    rw [← List.append_assoc]
    exact .snoc ih hd

theorem digits_hex16 (n : Nat) : Digits (hex16 n) n := digits_pad (digits_hexDigits n) _

theorem hex16_length {n : Nat} (h : n < 2 ^ 64) : (hex16 n).length = 16 := by
  have := hexDigits_length 15 n (by simpa using h)
  unfold hex16
  simp only [List.length_append, List.length_replicate]
  omega

theorem digit_lt {c : Byte} {v : Nat} (h : Digit c v) :
    v < 16 ∧ hexValue c = some v ∧ isSpace c = false ∧ c ≠ 95 ∧ c ≠ 45 ∧ c ≠ 43 ∧ c ≠ 120 ∧
      c ≠ 88 ∧ c ≠ 32 := by
  have h1 : ∀ v, v < 10 → ∀ c, c = UInt8.ofNat (48 + v) → v < 16 ∧ hexValue c = some v ∧
      isSpace c = false ∧ c ≠ 95 ∧ c ≠ 45 ∧ c ≠ 43 ∧ c ≠ 120 ∧ c ≠ 88 ∧ c ≠ 32 := by
    intro v hv c hc
    subst hc
    revert v
    decide
  have h2 : ∀ v, v < 6 → ∀ c, (c = UInt8.ofNat (97 + v) ∨ c = UInt8.ofNat (65 + v)) →
      v + 10 < 16 ∧ hexValue c = some (v + 10) ∧
      isSpace c = false ∧ c ≠ 95 ∧ c ≠ 45 ∧ c ≠ 43 ∧ c ≠ 120 ∧ c ≠ 88 ∧ c ≠ 32 := by
    intro v hv c hc
    rcases hc with rfl | rfl <;>
    · revert v
      decide
  cases h with
  | decimal v h => exact h1 v h _ rfl
  | lower v h h' =>
    have := h2 (v - 10) (by omega) _ (.inl rfl)
    rwa [show v - 10 + 10 = v by omega] at this
  | upper v h h' =>
    have := h2 (v - 10) (by omega) _ (.inr rfl)
    rwa [show v - 10 + 10 = v by omega] at this

theorem digits_mem {b : Bytes} {n : Nat} (h : Digits b n) : ∀ c ∈ b, ∃ v, Digit c v := by
  induction h with
  | nil => simp
  | snoc _ hd ih =>
    intro c hc
    rcases List.mem_append.1 hc with hc | hc
    · exact ih c hc
    · simp only [List.mem_singleton] at hc
      subst hc
      exact ⟨_, hd⟩

theorem hexRun_digits {b : Bytes} {n : Nat} (h : Digits b n) : ∀ acc prev t,
    hexRun acc prev (b ++ t) = hexRun (16 ^ b.length * acc + n) (prev || !b.isEmpty) t := by
  induction h with
  | nil => intro acc prev t; simp
  | @snoc b n c v _ hd ih =>
    intro acc prev t
    obtain ⟨-, h2, -, h4, -⟩ := digit_lt hd
    rw [List.append_assoc, ih]
    rw [List.singleton_append, hexRun.eq_2, if_neg h4, h2]
    have he : (b ++ [c]).isEmpty = false := by cases b <;> rfl
    rw [he, Bool.not_false, Bool.or_true, List.length_append]
    simp only [List.length_cons, List.length_nil]
    congr 1
    rw [Nat.pow_succ, Nat.mul_add, Nat.add_assoc, ← Nat.mul_assoc, Nat.mul_comm 16 (16 ^ b.length)]

/-- A part of the digits is a smaller number. -/
theorem digits_take {b : Bytes} {n : Nat} (h : Digits b n) (k : Nat) :
    ∃ m, m ≤ n ∧ Digits (b.take k) m := by
  induction h with
  | nil => exact ⟨0, Nat.le_refl _, by simpa using Digits.nil⟩
  | @snoc b n c v hb hd ih =>
    by_cases hk : k ≤ b.length
    · obtain ⟨m, h1, h2⟩ := ih
      refine ⟨m, by omega, ?_⟩
      rwa [List.take_append_of_le_length hk]
    · refine ⟨_, Nat.le_refl _, ?_⟩
      rw [List.take_of_length_le (by simp; omega)]
      exact .snoc hb hd

theorem dropWhile_eq {p : Byte → Bool} {c : Byte} {t : Bytes} (h : p c = false) :
    (c :: t).dropWhile p = c :: t := by
  simp [h]

/-- `int(b, 16)` of digits followed by whitespace. -/
theorem pyInt16_digits {b : Bytes} {n : Nat} (h : Digits b n) (hb : b ≠ []) (ws : Bytes)
    (hw : ∀ c ∈ ws, isSpace c = true) : pyInt16 (b ++ ws) = some (n : Int) := by
  have hm := digits_mem h
  have hspace : ∀ c ∈ b, isSpace c = false := fun c hc => by
    obtain ⟨v, hv⟩ := hm c hc
    exact (digit_lt hv).2.2.1
  have h1 : (b ++ ws).dropWhile isSpace = b ++ ws := by
    cases b with
    | nil => exact absurd rfl hb
    | cons c t =>
      rw [List.cons_append]
      exact dropWhile_eq (hspace c (by simp))
  have h2 : ((b ++ ws).reverse.dropWhile isSpace).reverse = b := by
    rw [List.reverse_append, List.dropWhile_append_of_pos (by simpa using hw)]
    have hr : b.reverse.dropWhile isSpace = b.reverse := by
      cases hx : b.reverse with
      | nil => rfl
      | cons c t =>
        apply dropWhile_eq
        apply hspace
        have : c ∈ b.reverse := by rw [hx]; simp
        simpa using this
    rw [hr, List.reverse_reverse]
  have h3 : hexPrefix b = b := by
    unfold hexPrefix
    split
    · rename_i x t
      obtain ⟨v, hv⟩ := hm x (by simp)
      have := digit_lt hv
      rw [if_neg]
      rintro (rfl | rfl)
      · exact this.2.2.2.2.2.2.1 rfl
      · exact this.2.2.2.2.2.2.2.1 rfl
    · rfl
  have h4 : hexRun 0 false b = some n := by
    have := hexRun_digits h 0 false []
    simp only [List.append_nil, Nat.mul_zero, Nat.zero_add, Bool.false_or] at this
    rw [this]
    cases b with
    | nil => exact absurd rfl hb
    | cons c t => rfl
  unfold pyInt16
  simp only
  rw [h1, h2]
  split
  · obtain ⟨v, hv⟩ := hm 45 (by simp)
    exact absurd rfl (digit_lt hv).2.2.2.2.1
  · obtain ⟨v, hv⟩ := hm 43 (by simp)
    exact absurd rfl (digit_lt hv).2.2.2.2.2.1
  · rw [h3, h4]; rfl

/-- `int(b, 16)` of a minus sign and digits, followed by whitespace. -/
theorem pyInt16_negative {b : Bytes} {n : Nat} (h : Digits b n) (hb : b ≠ []) (ws : Bytes)
    (hw : ∀ c ∈ ws, isSpace c = true) : pyInt16 (45 :: b ++ ws) = some (-(n : Int)) := by
  have h0 := pyInt16_digits h hb ws hw
  have hm := digits_mem h
  have h1 : (45 :: b ++ ws).dropWhile isSpace = 45 :: b ++ ws := dropWhile_eq (by decide)
  have h2 : ((45 :: b ++ ws).reverse.dropWhile isSpace).reverse = 45 :: b := by
    rw [List.reverse_append, List.dropWhile_append_of_pos (by simpa using hw)]
    have hr : (45 :: b).reverse.dropWhile isSpace = (45 :: b).reverse := by
      cases hx : (45 :: b).reverse with
      | nil => rfl
      | cons c t =>
        apply dropWhile_eq
        have : c ∈ (45 :: b).reverse := by rw [hx]; simp
        rcases List.mem_cons.1 (List.mem_reverse.1 this) with rfl | hc
        · decide
        · obtain ⟨v, hv⟩ := hm c hc
          exact (digit_lt hv).2.2.1
    rw [hr, List.reverse_reverse]
  have h3 : ((b ++ ws).dropWhile isSpace).reverse.dropWhile isSpace = b.reverse := by
    have hspace : ∀ c ∈ b, isSpace c = false := fun c hc => by
      obtain ⟨v, hv⟩ := hm c hc
      exact (digit_lt hv).2.2.1
    have e1 : (b ++ ws).dropWhile isSpace = b ++ ws := by
      cases b with
      | nil => exact absurd rfl hb
      | cons c t => exact dropWhile_eq (hspace c (by simp))
    rw [e1, List.reverse_append, List.dropWhile_append_of_pos (by simpa using hw)]
    cases hx : b.reverse with
    | nil => rfl
    | cons c t =>
      exact dropWhile_eq (hspace c (List.mem_reverse.1 (by rw [hx]; simp)))
  unfold pyInt16 at h0 ⊢
  simp only at h0 ⊢
  rw [h3, List.reverse_reverse] at h0
  rw [h1, h2]
  simp only
  split at h0
  · obtain ⟨v, hv⟩ := hm 45 (by simp)
    exact absurd rfl (digit_lt hv).2.2.2.2.1
  · obtain ⟨v, hv⟩ := hm 43 (by simp)
    exact absurd rfl (digit_lt hv).2.2.2.2.2.1
  · cases hr : hexRun 0 false (hexPrefix b) with
    | none => rw [hr] at h0; cases h0
    | some m =>
      rw [hr] at h0
      have e : (m : Int) = n := Option.some.inj h0
      show some (-(m : Int)) = _
      rw [e]

/-! ### Headers -/

theorem cutSpace_take {a : Bytes} (ha : (32 : Byte) ∉ a) (t : Bytes) (k : Nat) :
    cutSpace ((a ++ 32 :: t).take k) =
      if k ≤ a.length then none else some (a, t.take (k - a.length - 1)) := by
  induction a generalizing k with
  | nil =>
    cases k with
    | zero => rfl
    | succ k => simp [cutSpace]
  | cons c a ih =>
    cases k with
    | zero => rfl
    | succ k =>
      have hc : c ≠ 32 := fun h => ha (by simp [h])
      rw [List.cons_append, List.take_succ_cons, cutSpace.eq_2, if_neg hc,
        ih (fun h => ha (by simp [h]))]
      by_cases hk : k ≤ a.length
      · simp [hk]
      · simp [hk]

theorem header_length {kind : String} {start length : Nat} {h : Bytes}
    (hk : kind.toUTF8.toList.length = 4) (hh : Header kind start length h) : h.length = 40 := by
  obtain ⟨a, b, h1, h2, -, -, rfl⟩ := hh
  simp only [List.length_append, h1, h2, hk, space_eq, crlf_eq, TERM, List.length_cons,
    List.length_nil]

theorem digits_nospace {b : Bytes} {n : Nat} (h : Digits b n) : (32 : Byte) ∉ b := by
  intro hm
  obtain ⟨v, hv⟩ := digits_mem h _ hm
  exact (digit_lt hv).2.2.2.2.2.2.2.2 rfl

/-- Parsing of a header, or of a part of it. -/
theorem parse_take {kind : String} {start length : Nat} {h : Bytes}
    (hk : kind.toUTF8.toList.length = 4) (hs : (32 : Byte) ∉ kind.toUTF8.toList)
    (hh : Header kind start length h) (k : Nat) :
    (∃ e, parseFrame (h.take k) = .error (.exception e)) ∨
    (∃ m, m ≤ length ∧ parseFrame (h.take k) = .ok (kind.toUTF8.toList, (start : Int), (m : Int)) ∧
      (40 ≤ k → m = length)) := by
  obtain ⟨a, b, h1, h2, h3, h4, rfl⟩ := hh
  rw [space_eq, crlf_eq]
  generalize kind.toUTF8.toList = w at hk hs
  have e1 : w ++ [32] ++ a ++ [32] ++ b ++ TERM = w ++ 32 :: (a ++ 32 :: (b ++ TERM)) := by simp
  rw [e1]
  unfold parseFrame split3
  rw [cutSpace_take hs]
  by_cases hk1 : k ≤ w.length
  · rw [if_pos hk1]
    exact .inl ⟨_, rfl⟩
  · rw [if_neg hk1]
    simp only
    rw [cutSpace_take (digits_nospace h3)]
    by_cases hk2 : k - w.length - 1 ≤ a.length
    · rw [if_pos hk2]
      exact .inl ⟨_, rfl⟩
    · rw [if_neg hk2]
      simp only
      have ha : pyInt16 a = some (start : Int) := by
        have := pyInt16_digits h3 (by rintro rfl; simp at h1) [] (by simp)
        simpa using this
      rw [ha]
      generalize hj : k - w.length - 1 - a.length - 1 = j
      by_cases hj0 : j = 0
      · subst hj0
        refine .inl ⟨"ValueError", ?_⟩
        have : pyInt16 (List.take 0 (b ++ TERM)) = none := by
          rw [List.take_zero]; decide
        rw [this]
      · obtain ⟨m, hm1, hm2⟩ := digits_take h4 j
        have hne : b.take j ≠ [] := by
          intro hn
          have := congrArg List.length hn
          rw [List.length_take, h2] at this
          simp only [List.length_nil] at this
          omega
        have hws : ∀ c ∈ TERM.take (j - b.length), isSpace c = true := by
          intro c hc
          have := List.mem_of_mem_take hc
          simp only [TERM, List.mem_cons, List.not_mem_nil, or_false] at this
          rcases this with rfl | rfl <;> rfl
        have hp := pyInt16_digits hm2 hne _ hws
        rw [← List.take_append] at hp
        refine .inr ⟨m, hm1, ?_, ?_⟩
        · rw [hp]
        · intro h40
          have h5 := pyInt16_digits h4 (by rintro rfl; simp at h2) (TERM.take (j - b.length)) hws
          rw [List.take_append, List.take_of_length_le (by omega)] at hp
          rw [h5] at hp
          simp only [Option.some.injEq] at hp
          omega

theorem parse_header {kind : String} {start length : Nat} {h : Bytes}
    (hk : kind.toUTF8.toList.length = 4) (hs : (32 : Byte) ∉ kind.toUTF8.toList)
    (hh : Header kind start length h) :
    parseFrame h = .ok (kind.toUTF8.toList, (start : Int), (length : Int)) := by
  obtain ⟨a, b, h1, h2, h3, h4, rfl⟩ := hh
  rw [space_eq, crlf_eq]
  generalize kind.toUTF8.toList = w at hk hs
  have e1 : w ++ [32] ++ a ++ [32] ++ b ++ TERM = w ++ 32 :: (a ++ 32 :: (b ++ TERM)) := by simp
  have e2 : ∀ l : Bytes, l = l.take l.length := fun l => (List.take_length).symm
  rw [e1]
  unfold parseFrame split3
  rw [e2 (w ++ _), cutSpace_take hs, if_neg (by simp)]
  simp only
  rw [List.take_of_length_le (by simp), e2 (a ++ _), cutSpace_take (digits_nospace h3),
    if_neg (by simp)]
  simp only
  rw [List.take_of_length_le (by simp)]
  have ha : pyInt16 a = some (start : Int) := by
    have := pyInt16_digits h3 (by rintro rfl; simp at h1) [] (by simp)
    simpa using this
  have hb : pyInt16 (b ++ TERM) = some (length : Int) :=
    pyInt16_digits h4 (by rintro rfl; simp at h2) TERM (by decide)
  rw [ha, hb]

/-- A header with other texts for the numbers. -/
theorem parse_parts {w a b : Bytes} {x y : Int} (hw : (32 : Byte) ∉ w) (ha : (32 : Byte) ∉ a)
    (hx : pyInt16 a = some x) (hy : pyInt16 (b ++ TERM) = some y) :
    parseFrame (w ++ [32] ++ a ++ [32] ++ b ++ TERM) = .ok (w, x, y) := by
  have e1 : w ++ [32] ++ a ++ [32] ++ b ++ TERM = w ++ 32 :: (a ++ 32 :: (b ++ TERM)) := by simp
  have e2 : ∀ l : Bytes, l = l.take l.length := fun l => (List.take_length).symm
  rw [e1]
  unfold parseFrame split3
  rw [e2 (w ++ _), cutSpace_take hw, if_neg (by simp)]
  simp only
  rw [List.take_of_length_le (by simp), e2 (a ++ _), cutSpace_take ha, if_neg (by simp)]
  simp only
  rw [List.take_of_length_le (by simp), hx, hy]

/-- The frames of the code are headers. -/
theorem frame_header (kind : String) (start length : Nat) (hs : start < 2 ^ 64)
    (hl : length < 2 ^ 64) : Header kind start length (frame kind.toUTF8.toList start length) :=
  ⟨hex16 start, hex16 length, hex16_length hs, hex16_length hl, digits_hex16 _, digits_hex16 _, by
    rw [space_eq, crlf_eq]; rfl⟩

theorem frameLen_eq : frameLen = 40 := by
  have := header_length (kind := "stop") (by rw [kind_stop]; rfl)
    (frame_header "stop" 0 0 (by decide) (by decide))
  rw [kind_stop] at this
  exact this

end Imageio.SparseStream
