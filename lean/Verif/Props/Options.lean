import Verif.Lemmas.Options

/-!
C40: sizes of the command line.
-/
namespace Imageio.Props
open Imageio.Options Imageio.Spec Imageio.Http

/-- What the command line accepts as a size: an integer as python reads it, alone or
followed by a unit. -/
def LooseSize (s : List Char) (v : Int) : Prop :=
  IntText s v ∨ ∃ a c n u, s = a ++ [c] ∧ IntText a n ∧ Spec.Unit c u ∧ v = n * u

/-- The value is inside the configured bounds. -/
def InBounds (b : Bounds) (v : Int) : Prop :=
  b.minimum ≤ v ∧ ∀ m, b.maximum = some m → v ≤ m

theorem intText_last {s : List Char} {v : Int} (h : IntText s v) :
    ∃ a c, s = a ++ [c] ∧ (c.isDigit = true ∨ Blank c) := by
  obtain ⟨w₁, sign, body, w₂, ds, n, rfl, -, b₂, hg, -, -⟩ := h
  rcases List.eq_nil_or_concat w₂ with rfl | ⟨l, c, rfl⟩
  · obtain ⟨d, r, rfl, hd⟩ := grouped_last hg
    exact ⟨w₁ ++ sign ++ r, d, by simp, .inl hd⟩
  · exact ⟨w₁ ++ sign ++ body ++ l, c, by simp, .inr (b₂ c (by simp))⟩

theorem unit_not_blank {c : Char} {u : Nat} (h : Spec.Unit c u) :
    ¬ (c.isDigit = true ∨ Blank c) := by
  unfold Blank
  cases h with
  | k h => rcases h with rfl | rfl <;> decide
  | m h => rcases h with rfl | rfl <;> decide
  | g h => rcases h with rfl | rfl <;> decide
  | t h => rcases h with rfl | rfl <;> decide

theorem loose_iff (a : List Char) (c : Char) (v : Int) :
    sizeValue (a ++ [c]) c = some v ↔ LooseSize (a ++ [c]) v := by
  rw [sizeValue, List.dropLast_concat]
  constructor
  · intro h
    split at h
    · rename_i u hu
      obtain ⟨n, hn, rfl⟩ := Option.map_eq_some_iff.1 h
      exact .inr ⟨a, c, n, u, rfl, (pyInt_iff _ _).1 hn, (unitOf_iff _ _).1 hu, rfl⟩
    · exact .inl ((pyInt_iff _ _).1 h)
  · rintro (h | ⟨a', c', n, u, he, hn, hu, rfl⟩)
    · obtain ⟨a', c', he, hc⟩ := intText_last h
      obtain ⟨rfl, rfl⟩ := List.append_singleton_inj.1 he
      have hno : unitOf c = none := by
        cases hu : unitOf c with
        | none => rfl
        | some u => exact absurd hc (unit_not_blank ((unitOf_iff _ _).1 hu))
      rw [hno]
      exact (pyInt_iff _ _).2 h
    · obtain ⟨rfl, rfl⟩ := List.append_singleton_inj.1 he
      rw [(unitOf_iff _ _).2 hu]
      exact Option.map_eq_some_iff.2 ⟨n, (pyInt_iff _ _).2 hn, rfl⟩

/-- The exact set of accepted strings, their values, and the bounds. -/
theorem C40_size_iff (b : Bounds) (s : List Char) (v : Int) :
    size b s = some v ↔ LooseSize s v ∧ InBounds b v := by
  rcases List.eq_nil_or_concat s with rfl | ⟨a, c, rfl⟩
  · simp only [size, List.getLast?_nil]
    constructor
    · intro h; cases h
    · rintro ⟨h | ⟨a, c, n, u, he, -⟩, -⟩
      · obtain ⟨a, c, he, -⟩ := intText_last h
        simp at he
      · simp at he
  · rw [List.concat_eq_append]
    have key := loose_iff a c
    simp only [size, List.getLast?_concat]
    generalize sizeValue (a ++ [c]) c = o at key ⊢
    cases o with
    | none =>
      constructor
      · intro h; cases h
      · rintro ⟨h, -⟩; cases (key v).2 h
    | some w =>
      have hw : ∀ v, LooseSize (a ++ [c]) v ↔ w = v := fun v => (key v).symm.trans (by simp)
      simp only [hw, InBounds]
      cases hm : b.maximum <;> grind

theorem grouped_of_number {s : List Char} {n : Nat} (h : Number s n) : Grouped s s := by
  obtain ⟨hne, hd, -⟩ := number_iff.1 h
  clear h
  induction s with
  | nil => exact absurd rfl hne
  | cons c cs ih =>
    cases cs with
    | nil => exact .one (hd c (by simp))
    | cons e es => exact .cons (hd c (by simp)) (ih (by simp) (fun c hc => hd c (by simp [hc])))

theorem intText_number {s : List Char} {n : Nat} (h : Number s n) : IntText s n :=
  ⟨[], [], s, [], s, n, by simp, by simp, by simp, grouped_of_number h, h, .none⟩

theorem loose_of_size {s : List Char} {v : Nat} (h : SizeText s v) : LooseSize s v := by
  rcases h with h | ⟨a, c, n, u, rfl, hn, hu, rfl⟩
  · exact .inl (intText_number h)
  · exact .inr ⟨a, c, n, u, rfl, intText_number hn, hu, by push_cast; rfl⟩

/-- A documented size inside the bounds gives exactly the number times the unit. -/
theorem C40_documented (b : Bounds) (s : List Char) (v : Nat) (h : SizeText s v)
    (hb : InBounds b v) : size b s = some (v : Int) :=
  (C40_size_iff b s v).2 ⟨loose_of_size h, hb⟩

/-- The value of a text is unique, so the parser is the only meaning of a size. -/
theorem loose_unique {s : List Char} {v w : Int} (hv : LooseSize s v) (hw : LooseSize s w) :
    v = w := by
  have h1 := (C40_size_iff ⟨min v w, none⟩ s v).2 ⟨hv, by simp only; omega, by simp⟩
  have h2 := (C40_size_iff ⟨min v w, none⟩ s w).2 ⟨hw, by simp only; omega, by simp⟩
  rw [h1] at h2
  exact Option.some.inj h2

/-- A size out of the bounds is refused. -/
theorem C40_bounds (b : Bounds) (s : List Char) (v : Int) (h : LooseSize s v)
    (hb : ¬ InBounds b v) : size b s = none := by
  cases hs : size b s with
  | none => rfl
  | some w =>
    obtain ⟨hl, hi⟩ := (C40_size_iff b s w).1 hs
    rw [loose_unique h hl] at hb
    exact absurd hi hb

/-- The statement says that all other strings are refused.  Proved for strings without
white space, signs and underscores.  Missing: `int()` accepts these, see
`C40_counterexample_loose`. -/
theorem C40_others_refused_partial (b : Bounds) (s : List Char) (v : Int)
    (hp : ∀ c ∈ s, ¬ Blank c ∧ c ≠ '_' ∧ c ≠ '+' ∧ c ≠ '-') (h : size b s = some v) :
    ∃ n : Nat, v = n ∧ SizeText s n := by
  have key : ∀ (s : List Char) (v : Int),
      (∀ c ∈ s, ¬ Blank c ∧ c ≠ '_' ∧ c ≠ '+' ∧ c ≠ '-') → IntText s v →
      ∃ n : Nat, v = n ∧ Number s n := by
    rintro s v hp ⟨w₁, sign, body, w₂, ds, n, rfl, b₁, b₂, hg, hn, hs⟩
    have e₁ : w₁ = [] := by
      cases w₁ with
      | nil => rfl
      | cons c cs => exact absurd (b₁ c (by simp)) (hp c (by simp)).1
    have e₂ : w₂ = [] := by
      cases w₂ with
      | nil => rfl
      | cons c cs => exact absurd (b₂ c (by simp)) (hp c (by simp)).1
    subst e₁ e₂
    have hb : body = ds := by
      have hu : '_' ∉ body := fun h => (hp '_' (by simp [h])).2.1 rfl
      clear hp b₁ b₂ hn hs
      induction hg with
      | one => rfl
      | cons hd h ih => rw [ih (by simp at hu; exact hu.2)]
      | under hd h ih => simp at hu
    subst hb
    cases hs with
    | none => exact ⟨n, rfl, by simpa using hn⟩
    | plus => exact absurd rfl (hp '+' (by simp)).2.2.1
    | minus => exact absurd rfl (hp '-' (by simp)).2.2.2
  rcases ((C40_size_iff b s v).1 h).1 with h | ⟨a, c, n, u, rfl, hn, hu, rfl⟩
  · obtain ⟨n, rfl, hn⟩ := key s v hp h
    exact ⟨n, rfl, .inl hn⟩
  · obtain ⟨m, rfl, hm⟩ := key a n (fun c hc => hp c (by simp [hc])) hn
    exact ⟨m * u, by push_cast; rfl, .inr ⟨a, c, m, u, rfl, hm, hu, rfl⟩⟩

/-- `"1_0 k"` is accepted as 10 KiB, although it is not a number with a unit. -/
theorem C40_counterexample_loose :
    size {} "1_0 k".toList = some 10240 ∧ ¬ ∃ n, SizeText "1_0 k".toList n := by
  refine ⟨by decide +kernel, ?_⟩
  rintro ⟨n, h | ⟨a, c, n, u, he, hn, -⟩⟩
  · have := (number_iff.1 h).2.1 '_' (by decide)
    simp at this
  · have e : "1_0 k".toList = "1_0 ".toList ++ ['k'] := by decide
    rw [e] at he
    obtain ⟨rfl, -⟩ := List.append_singleton_inj.1 he
    have := (number_iff.1 hn).2.1 '_' (by decide)
    simp at this

/-- Concrete sizes inside and outside of bounds. -/
example : SizeText "64k".toList 65536 ∧ InBounds ⟨0, some 1048576⟩ 65536 :=
  ⟨.inr ⟨"64".toList, 'k', 64, 1024 ^ 1, rfl, number_iff.2 ⟨by decide, by decide, by decide⟩,
    .k (.inl rfl), by decide⟩, by decide, by simp⟩
example : size ⟨0, some 1048576⟩ "64k".toList = some 65536 := by decide +kernel
example : size ⟨0, some 1048576⟩ "2M".toList = none := by decide +kernel
example : size {} "k".toList = none := by decide +kernel
example : size {} "-1".toList = none := by decide +kernel
example : ¬ InBounds ⟨0, some 1048576⟩ 2097152 := by
  rintro ⟨-, h⟩; exact absurd (h _ rfl) (by decide)

theorem number_fmt_unit {n u : Nat} {c : Char} (hu : Spec.Unit c u) :
    SizeText (fmtNat n ++ [c]) (n * u) :=
  .inr ⟨_, c, n, u, rfl, number_fmtNat n, hu, rfl⟩

/-- Sizes are shown rounded down to their unit: the text shown for a size below 1024 TiB
is accepted, and stands for a size that is smaller by less than one unit, where the unit is
not larger than the size. -/
theorem C40_str_partial (n : Nat) (hn : n < 1024 ^ 5) :
    ∃ v u : Nat, size {} (sizeStr n) = some (v : Int) ∧ v ≤ n ∧ n < v + u ∧
      (u = 1 ∨ u ≤ v) := by
  have hb : ∀ v : Nat, InBounds {} (v : Int) := fun v => ⟨by simp, by simp⟩
  have go : ∀ v u : Nat, SizeText (sizeStr n) v → v ≤ n → n < v + u → (u = 1 ∨ u ≤ v) →
      ∃ v u : Nat, size {} (sizeStr n) = some (v : Int) ∧ v ≤ n ∧ n < v + u ∧
      (u = 1 ∨ u ≤ v) :=
    fun v u h1 h2 h3 h4 => ⟨v, u, C40_documented {} _ v h1 (hb v), h2, h3, h4⟩
  by_cases h0 : n < 1024
  · exact go n 1 (.inl (by simp [sizeStr, strLoop, suffixes, KiB, h0]; exact number_fmtNat n))
      (by omega) (by omega) (.inl rfl)
  by_cases h1 : n / 1024 < 1024
  · refine go (n / 1024 * 1024 ^ 1) (1024 ^ 1) ?_ (by omega) (by omega) (.inr (by omega))
    simp only [sizeStr, strLoop, suffixes, KiB, h0, h1, if_true, if_false, Option.toList]
    exact number_fmt_unit (.k (.inl rfl))
  by_cases h2 : n / 1024 / 1024 < 1024
  · refine go (n / 1024 / 1024 * 1024 ^ 2) (1024 ^ 2) ?_ (by omega) (by omega) (.inr (by omega))
    simp only [sizeStr, strLoop, suffixes, KiB, h0, h1, h2, if_true, if_false, Option.toList]
    exact number_fmt_unit (.m (.inl rfl))
  by_cases h3 : n / 1024 / 1024 / 1024 < 1024
  · refine go (n / 1024 / 1024 / 1024 * 1024 ^ 3) (1024 ^ 3) ?_ (by omega) (by omega)
      (.inr (by omega))
    simp only [sizeStr, strLoop, suffixes, KiB, h0, h1, h2, h3, if_true, if_false, Option.toList]
    exact number_fmt_unit (.g (.inl rfl))
  · have h4 : n / 1024 / 1024 / 1024 / 1024 < 1024 := by omega
    refine go (n / 1024 / 1024 / 1024 / 1024 * 1024 ^ 4) (1024 ^ 4) ?_ (by omega) (by omega)
      (.inr (by omega))
    simp only [sizeStr, strLoop, suffixes, KiB, h0, h1, h2, h3, h4, if_true, if_false,
      Option.toList]
    exact number_fmt_unit (.t (.inl rfl))

example : sizeStr (64 * 1024 * 1024) = "64m".toList := by decide +kernel

/-- 1024 TiB and more are shown divided by 1024 once too often: 1024 TiB is shown as
`1t`. -/
theorem C40_counterexample_str :
    sizeStr (1024 ^ 5) = "1t".toList ∧ size {} (sizeStr (1024 ^ 5)) = some (1024 ^ 4) := by
  decide +kernel

end Imageio.Props
