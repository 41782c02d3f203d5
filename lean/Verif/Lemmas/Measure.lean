import Verif.Model.Measure
import Verif.Spec.Measure
namespace Imageio.Measure
open Imageio.Spec

def toPairs (rl : List Range) : List (Int × Int) := rl.map fun r => (r.start, r.stop)

def Cov (rl : List Range) (x : Int) : Prop := ∃ r ∈ rl, r.start ≤ x ∧ x < r.stop

theorem covered_toPairs (rl : List Range) (x : Int) : Covered (toPairs rl) x ↔ Cov rl x := by
  simp only [Covered, toPairs, Cov, List.mem_map]
  constructor
  · rintro ⟨_, ⟨r, hr, rfl⟩, h⟩; exact ⟨r, hr, h⟩
  · rintro ⟨r, hr, h⟩; exact ⟨_, ⟨r, hr, rfl⟩, h⟩

theorem Range.lt_iff (a b : Range) :
    a.lt b = true ↔ a.start < b.start ∨ (a.start = b.start ∧ a.stop < b.stop) := by
  unfold Range.lt; split
  · simp; omega
  · split <;> simp <;> omega

/-- sorted: no later element is smaller than an earlier one -/
def Sorted (l : List Range) : Prop := l.Pairwise fun a b => b.lt a = false

theorem not_lt_trans {a b c : Range} (h1 : b.lt a = false) (h2 : c.lt b = false) : c.lt a = false := by
  rw [← Bool.not_eq_true, Range.lt_iff] at *
  omega

theorem lt_of_lt_of_notlt {a b c : Range} (h1 : b.lt a = false) (h2 : b.lt c = true) : a.lt c = true := by
  rw [← Bool.not_eq_true, Range.lt_iff] at h1
  rw [Range.lt_iff] at *
  omega

theorem Sorted.get {l : List Range} (h : Sorted l) {i j : Nat} (hij : i < j) {a b : Range}
    (ha : l[i]? = some a) (hb : l[j]? = some b) : b.lt a = false := by
  unfold Sorted at h
  rw [List.pairwise_iff_getElem] at h
  rw [List.getElem?_eq_some_iff] at ha hb
  obtain ⟨hi, rfl⟩ := ha
  obtain ⟨hj, rfl⟩ := hb
  exact h i j hi hj hij

theorem bisectLeft_spec (a : List Range) (x : Range) (hs : Sorted a) (lo hi : Nat)
    (hhi : hi ≤ a.length) (hle : lo ≤ hi)
    (h1 : ∀ i m, i < lo → a[i]? = some m → m.lt x = true)
    (h2 : ∀ i m, hi ≤ i → a[i]? = some m → m.lt x = false) :
    lo ≤ bisectLeft a x lo hi ∧ bisectLeft a x lo hi ≤ hi ∧
    (∀ i m, i < bisectLeft a x lo hi → a[i]? = some m → m.lt x = true) ∧
    (∀ i m, bisectLeft a x lo hi ≤ i → a[i]? = some m → m.lt x = false) := by
  induction lo, hi using bisectLeft.induct a x with
  | case1 lo hi hlt mid hnone =>
    exfalso
    rw [List.getElem?_eq_none_iff] at hnone
    omega
  | case2 lo hi hlt mid m hm hmx ih =>
    unfold bisectLeft
    simp only [hlt, dite_true]
    have hm' : a[(lo + hi) / 2]? = some m := hm
    simp only [hm', hmx, if_true]
    have := ih hhi (by omega) (by
      intro i m' hi' hm'
      by_cases hc : i = mid
      · subst hc; rw [hm] at hm'; cases hm'; exact hmx
      · exact lt_of_lt_of_notlt (hs.get (by omega) hm' hm) hmx) h2
    exact ⟨Nat.le_trans (by omega) this.1, this.2.1, this.2.2.1, this.2.2.2⟩
  | case3 lo hi hlt mid m hm hmx ih =>
    unfold bisectLeft
    simp only [hlt, dite_true]
    have hm' : a[(lo + hi) / 2]? = some m := hm
    simp only [hm', hmx, if_false, Bool.false_eq_true]
    have hmx' : m.lt x = false := by simpa using hmx
    have := ih (by omega) (by omega) h1 (by
      intro i m' hi' hm'
      by_cases hc : i = mid
      · subst hc; rw [hm] at hm'; cases hm'; exact hmx'
      · have := hs.get (show mid < i by omega) hm hm'
        exact not_lt_trans hmx' this)
    exact ⟨this.1, Nat.le_trans this.2.1 (by omega), this.2.2.1, this.2.2.2⟩
  | case4 lo hi hlt =>
    unfold bisectLeft
    simp only [hlt, dite_false]
    have : lo = hi := by omega
    subst this
    exact ⟨Nat.le_refl _, Nat.le_refl _, h1, h2⟩

theorem mem_insortLeft (a : List Range) (x y : Range) : y ∈ insortLeft a x ↔ y = x ∨ y ∈ a := by
  unfold insortLeft
  conv => rhs; rw [← List.take_append_drop (bisectLeft a x 0 a.length) a]
  simp only [List.mem_append, List.mem_cons]
  constructor
  · rintro (h | h | h) <;> simp [h]
  · rintro (h | h | h) <;> simp [h]

theorem insortLeft_sorted (a : List Range) (x : Range) (hs : Sorted a) : Sorted (insortLeft a x) := by
  have hb := bisectLeft_spec a x hs 0 a.length (Nat.le_refl _) (Nat.zero_le _) (by omega) (by
    intro i m hi hm
    rw [List.getElem?_eq_some_iff] at hm
    obtain ⟨h, _⟩ := hm
    omega)
  obtain ⟨_, hle, hbefore, hafter⟩ := hb
  unfold insortLeft Sorted
  rw [List.pairwise_append]
  have htake : (a.take (bisectLeft a x 0 a.length)).Pairwise fun a b => b.lt a = false :=
    hs.sublist (List.take_sublist _ _)
  have hdrop : (a.drop (bisectLeft a x 0 a.length)).Pairwise fun a b => b.lt a = false :=
    hs.sublist (List.drop_sublist _ _)
  have hbef : ∀ m ∈ a.take (bisectLeft a x 0 a.length), m.lt x = true := by
    intro m hm
    rw [List.mem_iff_getElem?] at hm
    obtain ⟨i, hi⟩ := hm
    rw [List.getElem?_take] at hi
    split at hi
    · exact hbefore i m (by assumption) hi
    · simp at hi
  have haft : ∀ m ∈ a.drop (bisectLeft a x 0 a.length), m.lt x = false := by
    intro m hm
    rw [List.mem_iff_getElem?] at hm
    obtain ⟨i, hi⟩ := hm
    rw [List.getElem?_drop] at hi
    exact hafter _ m (by omega) hi
  refine ⟨htake, ?_, ?_⟩
  · rw [List.pairwise_cons]
    exact ⟨haft, hdrop⟩
  · intro m hm y hy
    rw [List.mem_cons] at hy
    have h1 := hbef m hm
    rcases hy with rfl | hy
    · rw [← Bool.not_eq_true, Range.lt_iff]
      rw [Range.lt_iff] at h1
      omega
    · have h2 := haft y hy
      rw [← Bool.not_eq_true, Range.lt_iff] at *
      omega

/-- sorted by start, which is what merging needs -/
def StartSorted (l : List Range) : Prop := l.Pairwise fun a b => a.start ≤ b.start

theorem Sorted.startSorted {l : List Range} (h : Sorted l) : StartSorted l := by
  refine List.Pairwise.imp ?_ h
  intro a b hab
  rw [← Bool.not_eq_true, Range.lt_iff] at hab
  omega

theorem mergedLoop_cov (c : Range) (rs : List Range) (h : StartSorted (c :: rs)) (x : Int) :
    Cov (mergedLoop c rs) x ↔ Cov (c :: rs) x := by
  induction rs generalizing c with
  | nil => simp [mergedLoop]
  | cons r rs ih =>
    unfold StartSorted at h
    simp only [List.pairwise_cons, List.mem_cons, forall_eq_or_imp] at h
    obtain ⟨⟨hcr, hc⟩, hr, hrs⟩ := h
    unfold mergedLoop
    split
    · rename_i hge
      rw [ih _ (by unfold StartSorted; simp only [List.pairwise_cons]; exact ⟨hc, hrs⟩)]
      simp only [Cov, List.mem_cons, exists_eq_or_imp]
      constructor
      · rintro (⟨h1, h2⟩ | h)
        · by_cases hx : x < c.stop
          · exact .inl ⟨h1, hx⟩
          · exact .inr (.inl ⟨by omega, by omega⟩)
        · exact .inr (.inr h)
      · rintro (⟨h1, h2⟩ | ⟨h1, h2⟩ | h)
        · exact .inl ⟨h1, by omega⟩
        · exact .inl ⟨by omega, by omega⟩
        · exact .inr h
    · have := ih r (by unfold StartSorted; simp only [List.pairwise_cons]; exact ⟨hr, hrs⟩)
      unfold Cov at this ⊢
      simp only [List.mem_cons, exists_eq_or_imp] at this ⊢
      rw [this]

theorem merged_cov (rs : List Range) (h : StartSorted rs) (x : Int) :
    Cov (merged rs) x ↔ Cov rs x := by
  cases rs with
  | nil => simp [merged]
  | cons r rs => exact mergedLoop_cov r rs h x

/-- normal form: ranges are ordered, and there is a gap between any two of them -/
def Gapped (l : List Range) : Prop := l.Pairwise fun a b => a.stop < b.start

def WF (l : List Range) : Prop := ∀ r ∈ l, r.start ≤ r.stop

theorem mergedLoop_start (c : Range) (rs : List Range) (h : StartSorted (c :: rs)) :
    ∀ r ∈ mergedLoop c rs, c.start ≤ r.start := by
  induction rs generalizing c with
  | nil => simp [mergedLoop]
  | cons r rs ih =>
    unfold StartSorted at h
    simp only [List.pairwise_cons, List.mem_cons, forall_eq_or_imp] at h
    obtain ⟨⟨hcr, hc⟩, hr, hrs⟩ := h
    unfold mergedLoop
    split
    · have := ih { c with stop := max c.stop r.stop } (by unfold StartSorted; simp only [List.pairwise_cons]; exact ⟨hc, hrs⟩)
      exact this
    · simp only [List.mem_cons, forall_eq_or_imp]
      refine ⟨Int.le_refl _, ?_⟩
      intro a ha
      have := ih r (by unfold StartSorted; simp only [List.pairwise_cons]; exact ⟨hr, hrs⟩) a ha
      omega

theorem mergedLoop_gapped (c : Range) (rs : List Range) (h : StartSorted (c :: rs)) :
    Gapped (mergedLoop c rs) := by
  induction rs generalizing c with
  | nil => simp [mergedLoop, Gapped]
  | cons r rs ih =>
    have h' := h
    unfold StartSorted at h
    simp only [List.pairwise_cons, List.mem_cons, forall_eq_or_imp] at h
    obtain ⟨⟨hcr, hc⟩, hr, hrs⟩ := h
    unfold mergedLoop
    split
    · exact ih _ (by unfold StartSorted; simp only [List.pairwise_cons]; exact ⟨hc, hrs⟩)
    · have hss : StartSorted (r :: rs) := by
        unfold StartSorted; simp only [List.pairwise_cons]; exact ⟨hr, hrs⟩
      unfold Gapped
      rw [List.pairwise_cons]
      refine ⟨?_, ih r hss⟩
      intro a ha
      have := mergedLoop_start r rs hss a ha
      omega

theorem mergedLoop_wf (c : Range) (rs : List Range) (h : WF (c :: rs)) : WF (mergedLoop c rs) := by
  induction rs generalizing c with
  | nil => simpa [mergedLoop] using h
  | cons r rs ih =>
    unfold WF at h
    simp only [List.mem_cons, forall_eq_or_imp] at h
    obtain ⟨hc, hr, hrs⟩ := h
    unfold mergedLoop
    split
    · apply ih
      unfold WF
      simp only [List.mem_cons, forall_eq_or_imp]
      exact ⟨by omega, hrs⟩
    · unfold WF
      simp only [List.mem_cons, forall_eq_or_imp]
      exact ⟨hc, ih r (by unfold WF; simp only [List.mem_cons, forall_eq_or_imp]; exact ⟨hr, hrs⟩)⟩

/-- normal form of a range list -/
structure NF (l : List Range) : Prop where
  gapped : Gapped l
  wf : WF l

theorem NF.nil : NF [] := ⟨by simp [Gapped], by simp [WF]⟩

theorem NF.sorted {l : List Range} (h : NF l) : Sorted l := by
  unfold Sorted
  have h1 := h.gapped
  have h2 := h.wf
  clear h
  induction l with
  | nil => simp
  | cons a l ih =>
    unfold Gapped at h1
    rw [List.pairwise_cons] at h1 ⊢
    refine ⟨?_, ih h1.2 (fun r hr => h2 r (by simp [hr]))⟩
    intro b hb
    have := h1.1 b hb
    have := h2 a (by simp)
    rw [← Bool.not_eq_true, Range.lt_iff]
    omega

theorem merged_nf (rs : List Range) (hs : StartSorted rs) (hw : WF rs) : NF (merged rs) := by
  cases rs with
  | nil => exact NF.nil
  | cons r rs => exact ⟨mergedLoop_gapped r rs hs, mergedLoop_wf r rs hw⟩

theorem add_nf (rl : List Range) (r : Range) (h : NF rl) (hr : r.start ≤ r.stop) : NF (add rl r) := by
  unfold add
  apply merged_nf
  · exact (insortLeft_sorted rl r h.sorted).startSorted
  · intro y hy
    rw [mem_insortLeft] at hy
    rcases hy with rfl | hy
    · exact hr
    · exact h.wf y hy

theorem add_cov (rl : List Range) (r : Range) (h : NF rl) (x : Int) :
    Cov (add rl r) x ↔ (r.start ≤ x ∧ x < r.stop) ∨ Cov rl x := by
  unfold add
  rw [merged_cov _ (insortLeft_sorted rl r h.sorted).startSorted]
  unfold Cov
  simp only [mem_insortLeft]
  constructor
  · rintro ⟨y, rfl | hy, h⟩
    · exact .inl h
    · exact .inr ⟨y, hy, h⟩
  · rintro (h | ⟨y, hy, h⟩)
    · exact ⟨r, .inl rfl, h⟩
    · exact ⟨y, .inr hy, h⟩

theorem mergeSort_sorted (l : List Range) : Sorted (l.mergeSort (fun a b => !(b.lt a))) := by
  have := List.pairwise_mergeSort (le := fun a b : Range => !(b.lt a)) (by
    intro a b c h1 h2
    simp only [Bool.not_eq_true'] at *
    exact not_lt_trans h1 h2) (by
    intro a b
    simp only [Bool.or_eq_true, Bool.not_eq_true']
    rw [← Bool.not_eq_true, ← Bool.not_eq_true, Range.lt_iff, Range.lt_iff]
    omega) l
  simpa [Sorted] using this

theorem update_cov (rl rs : List Range) (x : Int) :
    Cov (update rl rs) x ↔ Cov rl x ∨ Cov rs x := by
  unfold update
  rw [merged_cov _ (mergeSort_sorted _).startSorted]
  unfold Cov
  simp only [List.mem_mergeSort, List.mem_append]
  constructor
  · rintro ⟨y, hy | hy, h⟩
    · exact .inl ⟨y, hy, h⟩
    · exact .inr ⟨y, hy, h⟩
  · rintro (⟨y, hy, h⟩ | ⟨y, hy, h⟩)
    · exact ⟨y, .inl hy, h⟩
    · exact ⟨y, .inr hy, h⟩

theorem update_nf (rl rs : List Range) (h1 : WF rl) (h2 : WF rs) : NF (update rl rs) := by
  unfold update
  apply merged_nf _ (mergeSort_sorted _).startSorted
  intro y hy
  rw [List.mem_mergeSort, List.mem_append] at hy
  rcases hy with hy | hy
  · exact h1 y hy
  · exact h2 y hy

/-! counting -/

theorem count_interval (n : Nat) (a b : Int) (h0 : 0 ≤ a) (hab : a ≤ b) :
    (((List.range n).filter fun (x : Nat) => decide (a ≤ (x : Int) ∧ (x : Int) < b)).length : Int)
      = min b n - min a n := by
  induction n with
  | zero => simp; omega
  | succ n ih =>
    rw [List.range_succ, List.filter_append, List.length_append]
    simp only [Int.natCast_add]
    rw [ih]
    by_cases h : a ≤ (n : Int) ∧ (n : Int) < b
    · rw [List.filter_cons_of_pos (by simpa using h)]
      simp; omega
    · rw [List.filter_cons_of_neg (by simpa using h)]
      simp; omega

theorem filter_or_length {α} (l : List α) (p q : α → Bool) (h : ∀ x ∈ l, ¬ (p x = true ∧ q x = true)) :
    (l.filter fun x => p x || q x).length = (l.filter p).length + (l.filter q).length := by
  induction l with
  | nil => simp
  | cons a l ih =>
    have ih := ih (fun x hx => h x (by simp [hx]))
    have ha := h a (by simp)
    simp only [List.filter_cons]
    by_cases hp : p a = true <;> by_cases hq : q a = true <;> simp_all <;> omega

theorem countCovered_cons (n : Nat) (a b : Int) (rs : List (Int × Int)) (h0 : 0 ≤ a) (hab : a ≤ b) (hbn : b ≤ n)
    (hd : ∀ r ∈ rs, b < r.1) :
    (countCovered n ((a, b) :: rs) : Int) = (b - a) + countCovered n rs := by
  unfold countCovered
  have hfun : (fun (x : Nat) => decide (Covered ((a, b) :: rs) (x : Int)))
      = fun (x : Nat) => decide (a ≤ (x : Int) ∧ (x : Int) < b) || decide (Covered rs (x : Int)) := by
    funext x
    rw [← Bool.decide_or]
    apply decide_eq_decide.mpr
    unfold Covered
    simp only [List.mem_cons, exists_eq_or_imp]
  rw [hfun, filter_or_length]
  · rw [Int.natCast_add, count_interval n a b h0 hab]
    omega
  · intro x _
    rw [decide_eq_true_eq, decide_eq_true_eq]
    unfold Covered
    rintro ⟨⟨h1, h2⟩, r, hr, h3, h4⟩
    have := hd r hr
    omega

theorem sumLoop_eq (n : Nat) (rl : List Range) (h : NF rl)
    (hin : ∀ r ∈ rl, 0 ≤ r.start ∧ r.stop ≤ n) :
    sumLoop rl = .ok (countCovered n (toPairs rl) : Int) := by
  induction rl with
  | nil =>
    have : countCovered n [] = 0 := by
      unfold countCovered
      rw [List.length_eq_zero_iff, List.filter_eq_nil_iff]
      intro a _
      simp [Covered]
    simp [sumLoop, toPairs, this]
  | cons r rl ih =>
    have hg := h.gapped
    have hw := h.wf
    unfold Gapped at hg
    rw [List.pairwise_cons] at hg
    have := ih ⟨hg.2, fun x hx => hw x (by simp [hx])⟩ (fun x hx => hin x (by simp [hx]))
    have hwr := hw r (by simp)
    have hir := hin r (by simp)
    unfold sumLoop
    rw [this]
    have hlen : r.len? = .ok (r.stop - r.start) := by
      unfold Range.len?
      rw [if_neg (by omega)]
    rw [hlen]
    simp only [bind, Except.bind, pure, Except.pure]
    have hc := countCovered_cons n r.start r.stop (toPairs rl) hir.1 hwr hir.2 (by
      intro p hp
      simp only [toPairs, List.mem_map] at hp
      obtain ⟨q, hq, rfl⟩ := hp
      exact hg.1 q hq)
    have : toPairs (r :: rl) = (r.start, r.stop) :: toPairs rl := rfl
    rw [this, hc]

theorem countCovered_congr (n : Nat) (a b : List (Int × Int))
    (h : ∀ x : Int, 0 ≤ x → x < n → (Covered a x ↔ Covered b x)) : countCovered n a = countCovered n b := by
  unfold countCovered
  congr 1
  apply List.filter_congr
  intro x hx
  rw [List.mem_range] at hx
  apply decide_eq_decide.mpr
  exact h x (by omega) (by omega)

end Imageio.Measure
