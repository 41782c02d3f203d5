import Verif.Lemmas.Measure
namespace Imageio.Measure
open Imageio.Spec

/-- every range is non-empty -/
def Strict (l : List Range) : Prop := ∀ r ∈ l, r.start < r.stop

theorem mergedLoop_strict (c : Range) (rs : List Range) (h : Strict (c :: rs)) : Strict (mergedLoop c rs) := by
  induction rs generalizing c with
  | nil => simpa [mergedLoop] using h
  | cons r rs ih =>
    unfold Strict at h
    simp only [List.mem_cons, forall_eq_or_imp] at h
    obtain ⟨hc, hr, hrs⟩ := h
    unfold mergedLoop
    split
    · apply ih
      unfold Strict
      simp only [List.mem_cons, forall_eq_or_imp]
      exact ⟨by omega, hrs⟩
    · unfold Strict
      simp only [List.mem_cons, forall_eq_or_imp]
      exact ⟨hc, ih r (by unfold Strict; simp only [List.mem_cons, forall_eq_or_imp]; exact ⟨hr, hrs⟩)⟩

theorem add_strict (rl : List Range) (r : Range) (h : Strict rl) (hr : r.start < r.stop) : Strict (add rl r) := by
  have : Strict (insortLeft rl r) := by
    intro y hy
    rw [mem_insortLeft] at hy
    rcases hy with rfl | hy
    · exact hr
    · exact h y hy
  unfold add merged
  split
  · simp [Strict]
  · rename_i heq
    rw [heq] at this
    exact mergedLoop_strict _ _ this

theorem Cov_cons (a : Range) (l : List Range) (x : Int) :
    Cov (a :: l) x ↔ (a.start ≤ x ∧ x < a.stop) ∨ Cov l x := by
  unfold Cov
  simp only [List.mem_cons, exists_eq_or_imp]

theorem gapped_cov_gt {a : Range} {l : List Range} (h : Gapped (a :: l)) {x : Int} (hx : Cov l x) : a.stop < x := by
  unfold Gapped at h
  rw [List.pairwise_cons] at h
  obtain ⟨r, hr, h1, h2⟩ := hx
  have := h.1 r hr
  omega

theorem nf_unique (l1 l2 : List Range) (g1 : Gapped l1) (g2 : Gapped l2) (s1 : Strict l1) (s2 : Strict l2)
    (h : ∀ x, Cov l1 x ↔ Cov l2 x) : l1 = l2 := by
  induction l1 generalizing l2 with
  | nil =>
    cases l2 with
    | nil => rfl
    | cons b l2 =>
      have := (h b.start).mpr ⟨b, by simp, by omega, s2 b (by simp)⟩
      simp [Cov] at this
  | cons a l1 ih =>
    have sa := s1 a (by simp)
    cases l2 with
    | nil =>
      have := (h a.start).mp ⟨a, by simp, by omega, sa⟩
      simp [Cov] at this
    | cons b l2 =>
      have sb := s2 b (by simp)
      have ha := (h a.start).mp ⟨a, by simp, by omega, sa⟩
      have hb := (h b.start).mpr ⟨b, by simp, by omega, sb⟩
      rw [Cov_cons] at ha hb
      have h1 : b.start ≤ a.start := by
        rcases ha with ha | ha
        · exact ha.1
        · have := gapped_cov_gt g2 ha; omega
      have h2 : a.start ≤ b.start := by
        rcases hb with hb | hb
        · exact hb.1
        · have := gapped_cov_gt g1 hb; omega
      have h3 : ¬ a.stop < b.stop := by
        intro hlt
        have := (h a.stop).mpr ⟨b, by simp, by omega, hlt⟩
        rw [Cov_cons] at this
        rcases this with this | this
        · omega
        · have := gapped_cov_gt g1 this; omega
      have h4 : ¬ b.stop < a.stop := by
        intro hlt
        have := (h b.stop).mp ⟨a, by simp, by omega, hlt⟩
        rw [Cov_cons] at this
        rcases this with this | this
        · omega
        · have := gapped_cov_gt g2 this; omega
      have hab : a = b := by
        cases a; cases b; simp_all; omega
      subst hab
      congr 1
      have g1' := g1
      have g2' := g2
      unfold Gapped at g1' g2'
      rw [List.pairwise_cons] at g1' g2'
      apply ih l2 g1'.2 g2'.2 (fun r hr => s1 r (by simp [hr])) (fun r hr => s2 r (by simp [hr]))
      intro x
      have hx := h x
      rw [Cov_cons, Cov_cons] at hx
      constructor
      · intro hc
        have := gapped_cov_gt g1 hc
        rcases hx.mp (.inr hc) with h' | h'
        · omega
        · exact h'
      · intro hc
        have := gapped_cov_gt g2 hc
        rcases hx.mpr (.inr hc) with h' | h'
        · omega
        · exact h'

theorem nf_shortest (l rs : List Range) (g : Gapped l) (s : Strict l)
    (h : ∀ x, Cov l x ↔ Cov rs x) : l.length ≤ rs.length := by
  induction l generalizing rs with
  | nil => simp
  | cons a l ih =>
    have sa := s a (by simp)
    have g' := g
    unfold Gapped at g'
    rw [List.pairwise_cons] at g'
    have hnot : ¬ Cov (a :: l) a.stop := by
      rw [Cov_cons]
      rintro (h' | h')
      · omega
      · have := gapped_cov_gt g h'; omega
    have := ih (rs.filter fun r => decide (a.stop < r.start)) g'.2 (fun r hr => s r (by simp [hr])) (by
      intro x
      constructor
      · intro hc
        have hgt := gapped_cov_gt g hc
        obtain ⟨r, hr, h1, h2⟩ := (h x).mp ((Cov_cons a l x).mpr (.inr hc))
        refine ⟨r, ?_, h1, h2⟩
        rw [List.mem_filter]
        refine ⟨hr, ?_⟩
        rw [decide_eq_true_eq]
        apply Classical.byContradiction
        intro hle
        exact hnot ((h a.stop).mpr ⟨r, hr, by omega, by omega⟩)
      · rintro ⟨r, hr, h1, h2⟩
        rw [List.mem_filter, decide_eq_true_eq] at hr
        have := (h x).mpr ⟨r, hr.1, h1, h2⟩
        rw [Cov_cons] at this
        rcases this with h' | h'
        · omega
        · exact h')
    obtain ⟨r, hr, h1, h2⟩ := (h a.start).mp ⟨a, by simp, by omega, sa⟩
    have hlt : (rs.filter fun r => decide (a.stop < r.start)).length < rs.length := by
      rw [List.length_filter_lt_length_iff_exists]
      exact ⟨r, hr, by simp; omega⟩
    simp only [List.length_cons]
    omega

/-- adding a list of ranges one after the other -/
theorem foldl_add (rl : List Range) (rs : List Range) (h : NF rl) (hw : WF rs) :
    NF (rs.foldl add rl) ∧ ∀ x, Cov (rs.foldl add rl) x ↔ Cov rl x ∨ Cov rs x := by
  induction rs generalizing rl with
  | nil => exact ⟨h, by simp [Cov]⟩
  | cons r rs ih =>
    have hr := hw r (by simp)
    have := ih (add rl r) (add_nf rl r h hr) (fun x hx => hw x (by simp [hx]))
    refine ⟨this.1, ?_⟩
    intro x
    rw [List.foldl_cons, this.2 x, add_cov rl r h, Cov_cons]
    constructor
    · rintro ((h | h) | h) <;> simp [h]
    · rintro (h | h | h) <;> simp [h]

theorem foldl_add_strict (rl rs : List Range) (h : Strict rl) (hs : Strict rs) : Strict (rs.foldl add rl) := by
  induction rs generalizing rl with
  | nil => exact h
  | cons r rs ih =>
    exact ih _ (add_strict rl r h (hs r (by simp))) (fun x hx => hs x (by simp [hx]))

theorem nf_within (n : Nat) (rl : List Range) (rs : List (Int × Int)) (h : NF rl) (hs : Strict rl)
    (hc : ∀ x, Cov rl x → Covered rs x) (hw : Within n rs) : ∀ r ∈ rl, 0 ≤ r.start ∧ r.stop ≤ n := by
  intro r hr
  have := hs r hr
  obtain ⟨p, hp, h1, h2⟩ := hc r.start ⟨r, hr, by omega, by omega⟩
  obtain ⟨q, hq, h3, h4⟩ := hc (r.stop - 1) ⟨r, hr, by omega, by omega⟩
  have hw1 := hw p hp
  have hw2 := hw q hq
  omega

/-- bounds are kept by merging -/
def Bnd (n : Int) (l : List Range) : Prop := ∀ r ∈ l, 0 ≤ r.start ∧ r.stop ≤ n

theorem mergedLoop_bnd (n : Int) (c : Range) (rs : List Range) (h : Bnd n (c :: rs)) : Bnd n (mergedLoop c rs) := by
  induction rs generalizing c with
  | nil => simpa [mergedLoop] using h
  | cons r rs ih =>
    unfold Bnd at h
    simp only [List.mem_cons, forall_eq_or_imp] at h
    obtain ⟨hc, hr, hrs⟩ := h
    unfold mergedLoop
    split
    · apply ih
      unfold Bnd
      simp only [List.mem_cons, forall_eq_or_imp]
      exact ⟨by omega, hrs⟩
    · unfold Bnd
      simp only [List.mem_cons, forall_eq_or_imp]
      exact ⟨hc, ih r (by unfold Bnd; simp only [List.mem_cons, forall_eq_or_imp]; exact ⟨hr, hrs⟩)⟩

theorem merged_bnd (n : Int) (rs : List Range) (h : Bnd n rs) : Bnd n (merged rs) := by
  cases rs with
  | nil => simp [merged, Bnd]
  | cons r rs => exact mergedLoop_bnd n r rs h

theorem add_bnd (n : Int) (rl : List Range) (r : Range) (h : Bnd n rl) (hr : 0 ≤ r.start ∧ r.stop ≤ n) :
    Bnd n (add rl r) := by
  apply merged_bnd
  intro y hy
  rw [mem_insortLeft] at hy
  rcases hy with rfl | hy
  · exact hr
  · exact h y hy

theorem foldl_add_bnd (n : Int) (rl rs : List Range) (h : Bnd n rl) (hs : Bnd n rs) : Bnd n (rs.foldl add rl) := by
  induction rs generalizing rl with
  | nil => exact h
  | cons r rs ih => exact ih _ (add_bnd n rl r h (hs r (by simp))) (fun x hx => hs x (by simp [hx]))

theorem update_bnd (n : Int) (rl rs : List Range) (h : Bnd n rl) (hs : Bnd n rs) : Bnd n (update rl rs) := by
  apply merged_bnd
  intro y hy
  rw [List.mem_mergeSort, List.mem_append] at hy
  rcases hy with hy | hy
  · exact h y hy
  · exact hs y hy

def ofPairs (l : List (Int × Int)) : List Range := l.map fun p => ⟨p.1, p.2⟩

theorem ofPairs_cov (l : List (Int × Int)) (x : Int) : Cov (ofPairs l) x ↔ Covered l x := by
  simp only [Covered, ofPairs, Cov, List.mem_map]
  constructor
  · rintro ⟨_, ⟨r, hr, rfl⟩, h⟩; exact ⟨r, hr, h⟩
  · rintro ⟨r, hr, h⟩; exact ⟨_, ⟨r, hr, rfl⟩, h⟩

theorem ofPairs_wf {n : Nat} {l : List (Int × Int)} (h : Within n l) : WF (ofPairs l) := by
  intro r hr
  simp only [ofPairs, List.mem_map] at hr
  obtain ⟨p, hp, rfl⟩ := hr
  exact (h p hp).2.1

theorem ofPairs_bnd {n : Nat} {l : List (Int × Int)} (h : Within n l) : Bnd n (ofPairs l) := by
  intro r hr
  simp only [ofPairs, List.mem_map] at hr
  obtain ⟨p, hp, rfl⟩ := hr
  have := h p hp
  exact ⟨this.1, this.2.2⟩

end Imageio.Measure
