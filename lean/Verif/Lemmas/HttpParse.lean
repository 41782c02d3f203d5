import Verif.Model.HttpParse
import Verif.Spec.Http
import Mathlib.Data.List.Induction

/-! Lemmas about the header parsers. -/
namespace Imageio.Http
open Imageio.Spec

theorem digits_takeWhile (s : Str) : ∀ c ∈ s.takeWhile Char.isDigit, c.isDigit = true := by
  intro c hc
  exact (List.all_eq_true.1 (List.all_takeWhile (p := Char.isDigit) (l := s))) c hc

theorem ofDigitChars_snoc (s : Str) (d : Char) (i : Nat) :
    Nat.ofDigitChars 10 (s ++ [d]) i = 10 * Nat.ofDigitChars 10 s i + (d.toNat - '0'.toNat) := by
  simp [Nat.ofDigitChars, Nat.mul_comm]

theorem decimal_intOfDigits (s : Str) (hs : ∀ c ∈ s, c.isDigit = true) :
    Decimal s (intOfDigits s) := by
  induction s using List.reverseRecOn with
  | nil => exact .nil
  | append_singleton s d ih =>
    rw [intOfDigits, ofDigitChars_snoc]
    exact .snoc (ih fun c hc => hs c (by simp [hc])) (hs d (by simp))

theorem decimal_digits {s : Str} {n : Nat} (h : Decimal s n) : ∀ c ∈ s, c.isDigit = true := by
  induction h with
  | nil => simp
  | snoc _ hd ih =>
    intro c hc
    simp at hc
    rcases hc with hc | rfl
    · exact ih c hc
    · exact hd

theorem decimal_value {s : Str} {n : Nat} (h : Decimal s n) : intOfDigits s = n := by
  induction h with
  | nil => rfl
  | snoc _ _ ih => rw [intOfDigits, ofDigitChars_snoc, ← intOfDigits, ih]

theorem decimal_iff {s : Str} {n : Nat} :
    Decimal s n ↔ (∀ c ∈ s, c.isDigit = true) ∧ intOfDigits s = n :=
  ⟨fun h => ⟨decimal_digits h, decimal_value h⟩, fun ⟨h, e⟩ => e ▸ decimal_intOfDigits s h⟩

theorem number_fmtNat (n : Nat) : Number (fmtNat n) n := by
  refine ⟨Nat.toDigits_ne_nil, decimal_iff.2 ⟨fun c hc => ?_, ?_⟩⟩
  · exact Nat.isDigit_of_mem_toDigits (by decide) (by decide) hc
  · exact Nat.ofDigitChars_ten_toDigits

theorem spanDigits_append {a r : Str} (ha : ∀ c ∈ a, c.isDigit = true)
    (hr : ∀ c ∈ r.head?, c.isDigit = false) : spanDigits (a ++ r) = (a, r) := by
  induction a with
  | nil =>
    cases r with
    | nil => rfl
    | cons c cs => simp [spanDigits, hr c (by simp)]
  | cons c cs ih =>
    have h1 := ih fun c hc => ha c (by simp [hc])
    simp only [spanDigits, Prod.mk.injEq] at h1
    simp [spanDigits, ha c (by simp), h1.1, h1.2]

theorem spanDigits_eq (s : Str) : s = (spanDigits s).1 ++ (spanDigits s).2 := by
  simp [spanDigits, List.takeWhile_append_dropWhile]

theorem dropLit_append (l s : Str) : dropLit l (l ++ s) = some s := by
  induction l with
  | nil => rfl
  | cons c cs ih => simp [dropLit, ih]

theorem dropLit_some {l h s : Str} (e : dropLit l h = some s) : h = l ++ s := by
  induction l generalizing h with
  | nil => simp [dropLit] at e; simp [e]
  | cons p ps ih =>
    cases h with
    | nil => simp [dropLit] at e
    | cons c cs =>
      simp only [dropLit] at e
      split at e
      · next hpc => subst hpc; simp [ih e]
      · simp at e

theorem atEnd_iff (s : Str) : atEnd s = true ↔ Eol s := by
  simp [atEnd, Eol]

theorem eol_head {e : Str} (h : Eol e) : ∀ c ∈ e.head?, c.isDigit = false := by
  rcases h with rfl | rfl <;> simp

/-- The groups of the Range regular expression. -/
theorem rangeGroups_iff (h a b : Str) :
    rangeGroups h = some (a, b) ↔
      ∃ e, h = "bytes=".toList ++ a ++ ['-'] ++ b ++ e ∧ Eol e ∧
        (∀ c ∈ a, c.isDigit = true) ∧ (∀ c ∈ b, c.isDigit = true) := by
  constructor
  · intro hg
    unfold rangeGroups at hg
    split at hg
    · simp at hg
    · next r hr =>
      have hh := dropLit_some hr
      have e1 := spanDigits_eq r
      have d1 := digits_takeWhile r
      simp only at hg
      split at hg
      · next r2 hr2 =>
        have e2 := spanDigits_eq r2
        have d2 := digits_takeWhile r2
        split at hg
        · next hend =>
          simp only [Option.some.injEq, Prod.mk.injEq] at hg
          obtain ⟨rfl, rfl⟩ := hg
          refine ⟨(spanDigits r2).2, ?_, (atEnd_iff _).1 hend, d1, d2⟩
          rw [hh]
          conv => lhs; rw [e1, hr2]; rw [e2]
          simp
        · simp at hg
      · simp at hg
  · rintro ⟨e, rfl, he, ha, hb⟩
    have h1 : "bytes=".toList ++ a ++ ['-'] ++ b ++ e
        = "bytes=".toList ++ (a ++ ('-' :: (b ++ e))) := by simp
    unfold rangeGroups
    rw [h1, dropLit_append]
    simp only
    rw [spanDigits_append ha (by simp)]
    simp only
    rw [spanDigits_append hb (eol_head he)]
    simp [(atEnd_iff e).2 he]

/-- The groups of the Content-Range regular expression, one of the last two. -/
theorem digitsOrStar_iff (s r : Str) (o : Option Str) (hr : ∀ c ∈ r.head?, c.isDigit = false) :
    digitsOrStar s = some (o, r) ↔
      match o with
      | none => s = '*' :: r
      | some a => s = a ++ r ∧ a ≠ [] ∧ ∀ c ∈ a, c.isDigit = true := by
  constructor
  · intro h
    unfold digitsOrStar at h
    split at h
    · simp at h; obtain ⟨rfl, rfl⟩ := h; rfl
    · have e1 := spanDigits_eq s
      have d1 := digits_takeWhile s
      simp only at h
      split at h
      · simp at h
      · next hne =>
        simp only [Option.some.injEq, Prod.mk.injEq] at h
        obtain ⟨rfl, rfl⟩ := h
        exact ⟨e1, hne, d1⟩
  · cases o with
    | none => rintro rfl; rfl
    | some a =>
      rintro ⟨rfl, hne, ha⟩
      unfold digitsOrStar
      split
      · next r' e =>
        cases a with
        | nil => simp at hne
        | cons c cs =>
          simp only [List.cons_append, List.cons.injEq] at e
          have := ha c (by simp)
          rw [e.1] at this
          simp at this
      · rw [spanDigits_append ha hr]
        simp [hne]

/-- The text of an optional group. -/
def starText : Option Str → Str
  | none => ['*']
  | some a => a

/-- The group is `*` or digits. -/
def StarOk : Option Str → Prop
  | none => True
  | some a => a ≠ [] ∧ ∀ c ∈ a, c.isDigit = true

theorem digitsOrStar_head {s r : Str} {o : Option Str} (h : digitsOrStar s = some (o, r)) :
    s = starText o ++ r ∧ StarOk o := by
  unfold digitsOrStar at h
  split at h
  · simp at h; obtain ⟨rfl, rfl⟩ := h; simp [starText, StarOk]
  · have e1 := spanDigits_eq s
    have d1 := digits_takeWhile s
    simp only at h
    split at h
    · simp at h
    · next hne =>
      simp only [Option.some.injEq, Prod.mk.injEq] at h
      obtain ⟨rfl, rfl⟩ := h
      exact ⟨e1, hne, d1⟩

theorem contentRangeGroups_iff (h a : Str) (b c : Option Str) :
    contentRangeGroups h = some (a, b, c) ↔
      ∃ e, h = "bytes ".toList ++ a ++ ['-'] ++ starText b ++ ['/'] ++ starText c ++ e ∧ Eol e ∧
        a ≠ [] ∧ (∀ c ∈ a, c.isDigit = true) ∧ StarOk b ∧ StarOk c := by
  constructor
  · intro hg
    unfold contentRangeGroups at hg
    split at hg
    · simp at hg
    next r hr =>
    have hh := dropLit_some hr
    have e1 := spanDigits_eq r
    have d1 := digits_takeWhile r
    simp only at hg
    split at hg
    · simp at hg
    next hne =>
    split at hg
    next r2 hr2 =>
      split at hg
      next b' r3 hb =>
        split at hg
        next c' r4 hc =>
          split at hg
          next hend =>
            simp only [Option.some.injEq, Prod.mk.injEq] at hg
            obtain ⟨rfl, rfl, rfl⟩ := hg
            have hb' := digitsOrStar_head hb
            have hc' := digitsOrStar_head hc
            refine ⟨r4, ?_, (atEnd_iff _).1 hend, hne, d1, ?_, ?_⟩
            · rw [hh]
              conv => lhs; rw [e1, hr2, hb'.1, hc'.1]
              simp
            · exact hb'.2
            · exact hc'.2
          next => simp at hg
        next => simp at hg
      next => simp at hg
    next => simp at hg
  · rintro ⟨e, rfl, he, hne, ha, hb, hc⟩
    have h1 : "bytes ".toList ++ a ++ ['-'] ++ starText b ++ ['/'] ++ starText c ++ e
        = "bytes ".toList ++ (a ++ ('-' :: (starText b ++ '/' :: (starText c ++ e)))) := by simp
    have hb1 : digitsOrStar (starText b ++ '/' :: (starText c ++ e))
        = some (b, '/' :: (starText c ++ e)) := by
      rw [digitsOrStar_iff _ _ _ (by simp)]
      cases b with
      | none => rfl
      | some b => exact ⟨rfl, hb⟩
    have hc1 : digitsOrStar (starText c ++ e) = some (c, e) := by
      rw [digitsOrStar_iff _ _ _ (eol_head he)]
      cases c with
      | none => rfl
      | some c => exact ⟨rfl, hc⟩
    unfold contentRangeGroups
    rw [h1, dropLit_append]
    simp only
    rw [spanDigits_append ha (by simp)]
    simp only [hne, ite_false, hb1, hc1, (atEnd_iff e).2 he, ite_true]

theorem number_iff {s : Str} {n : Nat} :
    Number s n ↔ s ≠ [] ∧ (∀ c ∈ s, c.isDigit = true) ∧ intOfDigits s = n := by
  rw [Number, decimal_iff]

/-- A string of digits, a newline or the end determine the number. -/
theorem fmtInt_pred (o n : Nat) (h : 0 < n) : fmtInt ((o : Int) + n - 1) = fmtNat (o + n - 1) := by
  have : ((o : Int) + n - 1) = ((o + n - 1 : Nat) : Int) := by omega
  rw [this]; rfl

end Imageio.Http
