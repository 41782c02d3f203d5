import Verif.Model.Options
import Verif.Spec.Text
import Verif.Lemmas.HttpServer

/-! Lemmas about integer literals and sizes. -/
namespace Imageio.Options
open Imageio.Http Imageio.Spec

theorem blank_iff (c : Char) : isPySpace c = true ↔ Blank c := by
  simp only [isPySpace, Blank, List.mem_cons, List.not_mem_nil, or_false, Bool.or_eq_true,
    Bool.and_eq_true, decide_eq_true_eq, beq_iff_eq]
  omega

theorem grouped_iff (s ds : Str) : underscored s = some ds ↔ Grouped s ds := by
  constructor
  · intro h
    induction s using underscored.induct generalizing ds with
    | case1 => simp [underscored] at h
    | case2 c hc =>
      simp [underscored, hc] at h
      subst h
      exact .one hc
    | case3 c hc => simp [underscored, hc] at h
    | case4 c r hc ih =>
      simp only [underscored, hc, if_true, Option.map_eq_some_iff] at h
      obtain ⟨d, hd, rfl⟩ := h
      exact .under hc (ih _ hd)
    | case5 c r hc => simp [underscored, hc] at h
    | case6 c r h1 h2 hc ih =>
      rw [underscored] at h
      · simp only [hc, if_true, Option.map_eq_some_iff] at h
        obtain ⟨d, hd, rfl⟩ := h
        exact .cons hc (ih _ hd)
      · exact h1
      · exact h2
    | case7 c r h1 h2 hc =>
      rw [underscored] at h
      · simp [hc] at h
      · exact h1
      · exact h2
  · intro h
    induction h with
    | one hd => simp [underscored, hd]
    | @cons d s ds hd h ih =>
      rw [underscored]
      · simp [hd, ih]
      · rintro rfl; cases h
      · rintro r rfl
        cases h with
        | one h => simp at h
        | cons h _ => simp at h
        | under h _ => simp at h
    | under hd h ih => simp [underscored, hd, ih]

theorem grouped_digits {s ds : Str} (h : Grouped s ds) : ∀ c ∈ ds, c.isDigit = true := by
  induction h <;> simp_all

theorem grouped_ne {s ds : Str} (h : Grouped s ds) : ds ≠ [] := by
  cases h <;> simp

theorem grouped_head {s ds : Str} (h : Grouped s ds) : ∃ d r, s = d :: r ∧ d.isDigit = true := by
  cases h <;> exact ⟨_, _, rfl, by assumption⟩

theorem grouped_last {s ds : Str} (h : Grouped s ds) : ∃ d r, s = r ++ [d] ∧ d.isDigit = true := by
  induction h with
  | one hd => exact ⟨_, [], rfl, hd⟩
  | cons hd h ih =>
    obtain ⟨d, r, rfl, hr⟩ := ih
    exact ⟨d, _ :: r, rfl, hr⟩
  | under hd h ih =>
    obtain ⟨d, r, rfl, hr⟩ := ih
    exact ⟨d, _ :: _ :: r, rfl, hr⟩

theorem dropWhile_all {p : Char → Bool} {w s : Str} (h : ∀ c ∈ w, p c = true) :
    (w ++ s).dropWhile p = s.dropWhile p := by
  induction w with
  | nil => rfl
  | cons c cs ih => simp [h c (by simp), ih (fun c hc => h c (by simp [hc]))]

/-- Stripping removes exactly the white space around. -/
theorem pyStrip_core {w₁ w₂ core : Str} (h₁ : ∀ c ∈ w₁, isPySpace c = true)
    (h₂ : ∀ c ∈ w₂, isPySpace c = true)
    (hh : ∃ d r, core = d :: r ∧ isPySpace d = false)
    (hl : ∃ d r, core = r ++ [d] ∧ isPySpace d = false) :
    pyStrip (w₁ ++ core ++ w₂) = core := by
  rw [pyStrip, List.append_assoc, dropWhile_all h₁]
  obtain ⟨d, r, rfl, hd⟩ := hh
  rw [List.cons_append, List.dropWhile_cons_of_neg (by simp [hd]), ← List.cons_append,
    List.reverse_append, dropWhile_all (by simpa using h₂)]
  obtain ⟨e, q, he, hq⟩ := hl
  rw [he, List.reverse_append]
  simp [hq]

theorem pyStrip_eq (s : Str) : ∃ w₁ w₂, s = w₁ ++ pyStrip s ++ w₂ ∧
    (∀ c ∈ w₁, isPySpace c = true) ∧ ∀ c ∈ w₂, isPySpace c = true := by
  refine ⟨s.takeWhile isPySpace, ((s.dropWhile isPySpace).reverse.takeWhile isPySpace).reverse,
    ?_, ?_, ?_⟩
  · rw [pyStrip, List.append_assoc, ← List.reverse_append, List.takeWhile_append_dropWhile,
      List.reverse_reverse, List.takeWhile_append_dropWhile]
  · intro c hc
    exact List.all_eq_true.1 List.all_takeWhile _ hc
  · intro c hc
    exact List.all_eq_true.1 List.all_takeWhile _ (List.mem_reverse.1 hc)

theorem number_of_grouped {s ds : Str} (h : Grouped s ds) : Number ds (intOfDigits ds) :=
  number_iff.2 ⟨grouped_ne h, grouped_digits h, rfl⟩

/-- `int()` accepts exactly the integer literals. -/
theorem pyInt_iff (s : Str) (v : Int) : pyInt s = some v ↔ IntText s v := by
  constructor
  · intro h
    obtain ⟨w₁, w₂, hs, h₁, h₂⟩ := pyStrip_eq s
    have b₁ : ∀ c ∈ w₁, Blank c := fun c hc => (blank_iff c).1 (h₁ c hc)
    have b₂ : ∀ c ∈ w₂, Blank c := fun c hc => (blank_iff c).1 (h₂ c hc)
    rw [pyInt] at h
    split at h
    · rename_i r he
      obtain ⟨d, hd, rfl⟩ := Option.map_eq_some_iff.1 h
      have hg := (grouped_iff _ _).1 hd
      exact ⟨w₁, ['-'], r, w₂, d, _, by rw [hs, he]; simp, b₁, b₂, hg, number_of_grouped hg,
        .minus⟩
    · rename_i r he
      obtain ⟨d, hd, rfl⟩ := Option.map_eq_some_iff.1 h
      have hg := (grouped_iff _ _).1 hd
      exact ⟨w₁, ['+'], r, w₂, d, _, by rw [hs, he]; simp, b₁, b₂, hg, number_of_grouped hg,
        .plus⟩
    · obtain ⟨d, hd, rfl⟩ := Option.map_eq_some_iff.1 h
      have hg := (grouped_iff _ _).1 hd
      exact ⟨w₁, [], pyStrip s, w₂, d, _, by simpa using hs, b₁, b₂, hg, number_of_grouped hg,
        .none⟩
  · rintro ⟨w₁, sign, body, w₂, ds, n, rfl, b₁, b₂, hg, hn, hs⟩
    have hv : intOfDigits ds = n := (number_iff.1 hn).2.2
    have hu := (grouped_iff _ _).2 hg
    obtain ⟨d, r, rfl, hd⟩ := grouped_head hg
    obtain ⟨e, q, he, hq⟩ := grouped_last hg
    have h₁ : ∀ c ∈ w₁, isPySpace c = true := fun c hc => (blank_iff c).2 (b₁ c hc)
    have h₂ : ∀ c ∈ w₂, isPySpace c = true := fun c hc => (blank_iff c).2 (b₂ c hc)
    have hstrip : pyStrip (w₁ ++ (sign ++ d :: r) ++ w₂) = sign ++ d :: r := by
      apply pyStrip_core h₁ h₂
      · cases hs
        · exact ⟨d, r, rfl, not_space_of_digit hd⟩
        · exact ⟨'+', d :: r, rfl, by decide⟩
        · exact ⟨'-', d :: r, rfl, by decide⟩
      · exact ⟨e, sign ++ q, by rw [he]; simp, not_space_of_digit hq⟩
    rw [pyInt, List.append_assoc w₁, hstrip]
    cases hs
    · rw [List.nil_append]
      split
      · rename_i h; cases h; simp at hd
      · rename_i h; cases h; simp at hd
      · simp [hu, hv]
    · simp [hu, hv]
    · simp [hu, hv]

theorem toLower_toNat (c : Char) : c.toLower.toNat =
    if 65 ≤ c.toNat ∧ c.toNat ≤ 90 then c.toNat + 32 else c.toNat := by
  unfold Char.toLower
  split
  · rename_i h
    have h1 : 65 ≤ c.toNat := UInt32.le_iff_toNat_le.1 h.1
    have h2 : c.toNat ≤ 90 := UInt32.le_iff_toNat_le.1 h.2
    rw [if_pos ⟨h1, h2⟩]
    show (c.val + 32).toNat = _
    rw [UInt32.toNat_add]
    show (c.toNat + 32) % 2 ^ 32 = _
    omega
  · rename_i h
    rw [if_neg]
    rintro ⟨h1, h2⟩
    exact h ⟨UInt32.le_iff_toNat_le.2 h1, UInt32.le_iff_toNat_le.2 h2⟩

theorem char_eq_iff (a b : Char) : a = b ↔ a.toNat = b.toNat :=
  ⟨fun h => h ▸ rfl, fun h => Char.ext (UInt32.toNat_inj.1 h)⟩

theorem toLower_eq_iff (c : Char) {x y : Char} (hx : 97 ≤ x.toNat ∧ x.toNat ≤ 122)
    (hy : y.toNat + 32 = x.toNat) : c.toLower = x ↔ c = x ∨ c = y := by
  rw [char_eq_iff, char_eq_iff c, char_eq_iff c, toLower_toNat]
  split <;> omega

theorem unitOf_iff (c : Char) (u : Nat) : unitOf c = some u ↔ Spec.Unit c u := by
  have hk := toLower_eq_iff c (x := 'k') (y := 'K') (by decide) (by decide)
  have hm := toLower_eq_iff c (x := 'm') (y := 'M') (by decide) (by decide)
  have hg := toLower_eq_iff c (x := 'g') (y := 'G') (by decide) (by decide)
  have ht := toLower_eq_iff c (x := 't') (y := 'T') (by decide) (by decide)
  have hn : (none == some c.toLower) = false := rfl
  simp only [unitOf, suffixes, List.find?_cons, List.find?_nil, hn, Option.some_beq_some]
  constructor
  · intro h
    split at h
    · rename_i hh; cases h; exact .k (hk.1 (beq_iff_eq.1 hh).symm)
    split at h
    · rename_i hh; cases h; exact .m (hm.1 (beq_iff_eq.1 hh).symm)
    split at h
    · rename_i hh; cases h; exact .g (hg.1 (beq_iff_eq.1 hh).symm)
    split at h
    · rename_i hh; cases h; exact .t (ht.1 (beq_iff_eq.1 hh).symm)
    · cases h
  · intro h
    cases h with
    | k h => rw [hk.2 h]; rfl
    | m h => rw [hm.2 h]; rfl
    | g h => rw [hg.2 h]; rfl
    | t h => rw [ht.2 h]; rfl

end Imageio.Options
