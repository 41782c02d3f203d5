import Verif.Lemmas.MeasureNF
/-!
C01, C02: the range list computes the size of the union of ranges, and is a
canonical form.
-/
namespace Imageio.Props
open Imageio.Measure Imageio.Spec

/-- The completed ranges after operations covering `[r.1, r.2)` ended in this order
(`RangeList.add` called once per operation on an initially empty list). -/
def completedAfter (ops : List (Int × Int)) : List Range :=
  ops.foldl (fun rl r => add rl ⟨r.1, r.2⟩) []

theorem completedAfter_eq (ops : List (Int × Int)) : completedAfter ops = (ofPairs ops).foldl add [] := by
  unfold completedAfter ofPairs
  rw [List.foldl_map]

/-- **C01** (range list level): for every list of completed ranges added one by one, and
every list of ongoing ranges merged at report time, the reported sum is the number of
distinct bytes in the union.  `size` is any bound on the offsets, for example the size
of the ticket. -/
theorem C01_sum_is_size_of_union (size : Nat) (completed ongoing : List (Int × Int))
    (h1 : Within size completed) (h2 : Within size ongoing) :
    sum (update (completedAfter completed) (ongoing.map fun r => ⟨r.1, r.2⟩))
      = .ok (countCovered size (completed ++ ongoing) : Int) := by
  rw [completedAfter_eq]
  obtain ⟨hnf, hcov⟩ := foldl_add [] (ofPairs completed) NF.nil (ofPairs_wf h1)
  have hb1 := foldl_add_bnd size [] (ofPairs completed) (by simp [Bnd]) (ofPairs_bnd h1)
  have hnf2 := update_nf _ (ofPairs ongoing) hnf.wf (ofPairs_wf h2)
  have hb2 := update_bnd size _ (ofPairs ongoing) hb1 (ofPairs_bnd h2)
  have := sumLoop_eq size _ hnf2 hb2
  unfold sum
  show sumLoop (update _ (ofPairs ongoing)) = _
  rw [this]
  congr 2
  apply countCovered_congr
  intro x _ _
  rw [covered_toPairs, update_cov, hcov x, ofPairs_cov, ofPairs_cov]
  simp [Cov, Covered]
  grind

example : Within 1000 [(0, 100), (50, 200), (50, 50)] ∧ Within 1000 [(300, 400)] := by decide
example : countCovered 1000 [(0, 100), (50, 200), (50, 50), (300, 400)] = 300 := by decide +kernel

/-- A reversed range, which an operation with a negative amount done would record, makes
the report fail with `ValueError` (see C12 for how a request can cause it). -/
theorem C01_reversed_range_breaks_report :
    (match sum (update (completedAfter [(8, 4)]) []) with | .error _ => true | .ok _ => false) = true := by
  decide +kernel

/-- **C02**: the order in which operations complete does not matter. -/
theorem C02_order_independent (size : Nat) (a b ongoing : List (Int × Int)) (hp : a.Perm b)
    (h1 : Within size a) (h2 : Within size ongoing) :
    sum (update (completedAfter a) (ongoing.map fun r => ⟨r.1, r.2⟩))
      = sum (update (completedAfter b) (ongoing.map fun r => ⟨r.1, r.2⟩)) := by
  have h1' : Within size b := fun r hr => h1 r (hp.mem_iff.mpr hr)
  rw [C01_sum_is_size_of_union size a ongoing h1 h2, C01_sum_is_size_of_union size b ongoing h1' h2]
  congr 2
  apply countCovered_congr
  intro x _ _
  unfold Covered
  simp only [List.mem_append, hp.mem_iff]

example : List.Perm [((0 : Int), (5 : Int)), (3, 9)] [(3, 9), (0, 5)] := by decide

/-- **C02**: transferring again bytes that were already transferred changes nothing. -/
theorem C02_retransmission (size : Nat) (a : List (Int × Int)) (r : Int × Int)
    (h1 : Within size (a ++ [r])) (hr : ∀ x, r.1 ≤ x → x < r.2 → Covered a x) :
    sum (completedAfter (a ++ [r])) = sum (completedAfter a) := by
  have ha : Within size a := fun p hp => h1 p (by simp [hp])
  have key : ∀ l, Within size l → sum (completedAfter l) = .ok (countCovered size l : Int) := by
    intro l hl
    rw [completedAfter_eq]
    obtain ⟨hnf, hcov⟩ := foldl_add [] (ofPairs l) NF.nil (ofPairs_wf hl)
    have hb := foldl_add_bnd size [] (ofPairs l) (by simp [Bnd]) (ofPairs_bnd hl)
    unfold sum
    rw [sumLoop_eq size _ hnf hb]
    congr 2
    apply countCovered_congr
    intro x _ _
    rw [covered_toPairs, hcov x, ofPairs_cov]
    simp [Cov, Covered]
  rw [key _ h1, key _ ha]
  congr 2
  apply countCovered_congr
  intro x _ _
  unfold Covered at *
  simp only [List.mem_append, List.mem_singleton]
  constructor
  · rintro ⟨p, hp | rfl, h⟩
    · exact ⟨p, hp, h⟩
    · exact hr x h.1 h.2
  · rintro ⟨p, hp, h⟩
    exact ⟨p, .inl hp, h⟩

example : Within 100 ([(0, 50), (50, 60)] ++ [(40, 55)]) ∧ (∀ x : Int, 40 ≤ x → x < 55 → Covered [(0, 50), (50, 60)] x) := by
  refine ⟨by decide, ?_⟩
  intro x h1 h2
  by_cases h : x < 50
  · exact ⟨(0, 50), by simp, by omega, by omega⟩
  · exact ⟨(50, 60), by simp, by omega, by omega⟩

/-- **C02**: the stored list is ordered and there is a gap between any two of its ranges,
whatever was added. -/
theorem C02_disjoint_with_gaps (size : Nat) (a : List (Int × Int)) (h : Within size a) :
    (completedAfter a).Pairwise fun r s => r.stop < s.start := by
  rw [completedAfter_eq]
  exact (foldl_add [] (ofPairs a) NF.nil (ofPairs_wf h)).1.gapped

/-- **C02**: two histories of non-empty operations that transferred the same bytes store
the same list. -/
theorem C02_canonical (size : Nat) (a b : List (Int × Int)) (ha : Within size a) (hb : Within size b)
    (na : ∀ r ∈ a, r.1 < r.2) (nb : ∀ r ∈ b, r.1 < r.2)
    (h : ∀ x, Covered a x ↔ Covered b x) : completedAfter a = completedAfter b := by
  rw [completedAfter_eq, completedAfter_eq]
  have ha' := foldl_add [] (ofPairs a) NF.nil (ofPairs_wf ha)
  have hb' := foldl_add [] (ofPairs b) NF.nil (ofPairs_wf hb)
  have strict : ∀ l : List (Int × Int), (∀ r ∈ l, r.1 < r.2) → Strict (ofPairs l) := by
    intro l hl r hr
    simp only [ofPairs, List.mem_map] at hr
    obtain ⟨p, hp, rfl⟩ := hr
    exact hl p hp
  apply nf_unique _ _ ha'.1.gapped hb'.1.gapped
    (foldl_add_strict _ _ (by simp [Strict]) (strict a na)) (foldl_add_strict _ _ (by simp [Strict]) (strict b nb))
  intro x
  rw [ha'.2 x, hb'.2 x, ofPairs_cov, ofPairs_cov, h x]

example : completedAfter [(0, 5), (5, 9), (20, 30)] = completedAfter [(20, 25), (3, 9), (0, 4), (22, 30)] := by
  decide +kernel

/-- **C02**: no list of ranges for the same bytes is shorter than the stored list. -/
theorem C02_shortest (size : Nat) (a b : List (Int × Int)) (ha : Within size a)
    (na : ∀ r ∈ a, r.1 < r.2) (h : ∀ x, Covered a x ↔ Covered b x) :
    (completedAfter a).length ≤ b.length := by
  rw [completedAfter_eq]
  have ha' := foldl_add [] (ofPairs a) NF.nil (ofPairs_wf ha)
  have strict : Strict (ofPairs a) := by
    intro r hr
    simp only [ofPairs, List.mem_map] at hr
    obtain ⟨p, hp, rfl⟩ := hr
    exact na p hp
  have := nf_shortest _ (ofPairs b) ha'.1.gapped (foldl_add_strict [] _ (by simp [Strict]) strict) (by
    intro x
    rw [ha'.2 x, ofPairs_cov, ofPairs_cov, h x]
    simp [Cov])
  simpa [ofPairs] using this

/-- Empty operations are the exception: they leave an empty range in the list, so the list
is not canonical with them (the reported sum is still right, C01). -/
theorem C02_empty_operations_are_stored :
    completedAfter [(7, 7)] ≠ completedAfter [] ∧ (∀ x, Covered [(7, 7)] x ↔ Covered [] x) := by
  refine ⟨by decide +kernel, ?_⟩
  intro x
  simp [Covered]

end Imageio.Props
