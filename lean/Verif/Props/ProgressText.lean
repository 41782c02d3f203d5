import Verif.Model.ProgressText
import Verif.Spec.Terminal
import Verif.Props.Progress
import Verif.Props.Json
/-!
What the user sees of the progress bar (C88).
-/
namespace Imageio.Props
open Imageio.Progress Imageio.Spec.Terminal

/-! ## Helpers -/

theorem screen_plain (t : List Char) : ∀ (s : Screen), (∀ c ∈ t, c ≠ '\r' ∧ c ≠ '\n') → s.col ≤ s.line.length →
    write s t = { s with line := s.line.take s.col ++ t ++ s.line.drop (s.col + t.length), col := s.col + t.length } := by
  induction t with
  | nil => intro s _ _; simp [write]
  | cons c t ih =>
    intro s h hc
    obtain ⟨h1, h2⟩ := h c (by simp)
    have e : put s c = { s with line := s.line.take s.col ++ c :: s.line.drop (s.col + 1), col := s.col + 1 } := by
      unfold put; rw [if_neg h1, if_neg h2]
    show write (put s c) t = _
    rw [ih _ (fun x hx => h x (by simp [hx])) (by rw [e]; simp; omega), e]
    have hl : (List.take s.col s.line).length = s.col := by rw [List.length_take]; omega
    have e1 : (List.take s.col s.line ++ c :: s.line.drop (s.col + 1)).take (s.col + 1) = List.take s.col s.line ++ [c] := by
      rw [List.take_append, hl]
      simp [List.take_of_length_le (Nat.le_of_eq hl |>.trans (Nat.le_succ _))]
    have e2 : (List.take s.col s.line ++ c :: s.line.drop (s.col + 1)).drop (s.col + 1 + t.length) = s.line.drop (s.col + (t.length + 1)) := by
      rw [List.drop_append, hl, List.drop_of_length_le (by omega), show s.col + 1 + t.length - s.col = t.length + 1 by omega]
      simp only [List.nil_append, List.drop_succ_cons, List.drop_drop]
      congr 1; omega
    simp only [e1, e2, List.length_cons, List.append_assoc, List.singleton_append]
    congr 1
    omega

theorem screen_append (s : Screen) (a b : List Char) : write s (a ++ b) = write (write s a) b := List.foldl_append ..

theorem ljust_length {w : Nat} {s : Http.Str} (h : s.length ≤ w) : (ljust w s).length = w := by
  unfold ljust; rw [List.length_append, List.length_replicate]; omega

theorem flat_nat (n : Nat) : ∀ c ∈ Http.fmtNat n, c ≠ '\r' ∧ c ≠ '\n' := by
  intro c hc
  have h : c.isDigit = true := by
    rw [Http.fmtNat] at hc
    exact Nat.isDigit_of_mem_toDigits (by omega) (by omega) hc
  constructor <;> (rintro rfl; revert h; decide)

theorem flat_fixed2 (q : Nat) : ∀ c ∈ fixed2 q, c ≠ '\r' ∧ c ≠ '\n' := by
  intro c hc
  simp only [fixed2, List.mem_append, List.mem_cons] at hc
  rcases hc with hc | rfl | hc | hc
  · exact flat_nat _ c hc
  · decide
  · exact flat_nat _ c hc
  · exact flat_nat _ c hc

theorem humanLoop_unit (us : List Http.Str) : ∀ (u : Http.Str) (n : ℚ), (humanLoop u n us).2 = u ∨ (humanLoop u n us).2 ∈ us := by
  induction us with
  | nil => intro u n; exact .inl rfl
  | cons v us ih =>
    intro u n
    unfold humanLoop
    split
    · exact .inr (by simp)
    · rcases ih v (nearest (n / 1024)) with h | h
      · exact .inr (by rw [h]; simp)
      · exact .inr (List.mem_cons_of_mem _ h)

theorem flat_human (x : ℚ) : ∀ c ∈ humansize x, c ≠ '\r' ∧ c ≠ '\n' := by
  have hu : ∀ c ∈ (humanLoop [] x units).2, c ≠ '\r' ∧ c ≠ '\n' := by
    have all : ∀ u ∈ units, ∀ c ∈ u, c ≠ '\r' ∧ c ≠ '\n' := by decide
    rcases humanLoop_unit units [] x with h | h
    · rw [h]; simp
    · exact all _ h
  intro c hc
  unfold humansize at hc
  simp only at hc
  split at hc
  · simp only [List.mem_append, List.mem_cons] at hc
    rcases hc with hc | rfl | hc
    · exact flat_nat _ c hc
    · decide
    · exact hu c hc
  · simp only [List.mem_append, List.mem_cons] at hc
    rcases hc with hc | rfl | hc
    · exact flat_fixed2 _ c hc
    · decide
    · exact hu c hc

theorem flat_line (d : Draw) (e : ℚ) (hp : ∀ p, d.phase = some p → ∀ c ∈ p, c ≠ '\r' ∧ c ≠ '\n') :
    ∀ c ∈ textLine d e, c ≠ '\r' ∧ c ≠ '\n' := by
  have lits : ∀ s ∈ [Images.lit "[ ", Images.lit " ] ", Images.lit ", ", Images.lit " s, ", Images.lit "/s", Images.lit " | ", Images.lit "----"],
      ∀ c ∈ s, c ≠ '\r' ∧ c ≠ '\n' := by decide
  have hprog : ∀ c ∈ progressText d, c ≠ '\r' ∧ c ≠ '\n' := by
    intro c hc
    unfold progressText at hc
    split at hc
    · simp only [padded3, List.mem_append, List.mem_replicate, List.mem_singleton] at hc
      rcases hc with (⟨-, rfl⟩ | hc) | rfl
      · decide
      · exact flat_nat _ c hc
      · decide
    · exact lits _ (by simp) c hc
  have hph : ∀ c ∈ phaseText d.phase, c ≠ '\r' ∧ c ≠ '\n' := by
    intro c hc
    unfold phaseText at hc
    split at hc
    · rename_i x t hx
      rcases List.mem_append.mp hc with hc | hc
      · exact lits _ (by simp) c hc
      · exact hp _ hx c hc
    · cases hc
  intro c hc
  unfold textLine at hc
  simp only [List.mem_append] at hc
  rcases hc with ((((((((hc | hc) | hc) | hc) | hc) | hc) | hc) | hc) | hc) | hc
  · exact lits _ (by simp) c hc
  · exact hprog c hc
  · exact lits _ (by simp) c hc
  · exact flat_human _ c hc
  · exact lits _ (by simp) c hc
  · exact flat_fixed2 _ c hc
  · exact lits _ (by simp) c hc
  · exact flat_human _ c hc
  · exact lits _ (by simp) c hc
  · exact hph c hc

theorem draw_screen {w : Nat} {s : Screen} (hc : s.col = 0) (hl : s.line.length ≤ w) (d : Draw) (e : ℚ) (hf : (textLine d e).length ≤ w)
    (hp : ∀ p, d.phase = some p → ∀ c ∈ p, c ≠ '\r' ∧ c ≠ '\n') :
    write s (drawText w d e) = if d.last then ⟨s.above ++ [ljust w (textLine d e)], [], 0⟩ else ⟨s.above, ljust w (textLine d e), 0⟩ := by
  have hplain : ∀ c ∈ ljust w (textLine d e), c ≠ '\r' ∧ c ≠ '\n' := by
    intro c h
    rcases List.mem_append.mp h with h | h
    · exact flat_line d e hp c h
    · rw [List.eq_of_mem_replicate h]; decide
  unfold drawText
  rw [screen_append, screen_plain _ s hplain (by omega), hc, ljust_length hf]
  have h0 : s.line.drop (0 + w) = [] := List.drop_of_length_le (by omega)
  rw [h0]
  cases d.last with
  | true => simp [write, Spec.Terminal.put]
  | false => simp [write, Spec.Terminal.put]

theorem visible_ljust (w : Nat) (s : Http.Str) : visible (ljust w s) = visible s := by
  unfold visible ljust
  rw [List.reverse_append, List.reverse_replicate, List.dropWhile_append_of_pos (by
    intro c hc; rw [List.eq_of_mem_replicate hc]; decide)]

/-! ## C88: text -/

/-- C88: after any drawings whose lines fit, the line of the cursor is the last one that was drawn, and nothing is left of those before; nothing else on the
screen changed. -/
theorem C88_text (w : Nat) (above : List (List Char)) (ds : List (Draw × ℚ)) (d : Draw) (e : ℚ)
    (hl : ∀ x ∈ ds, x.1.last = false) (hf : ∀ x ∈ ds ++ [(d, e)], (textLine x.1 x.2).length ≤ w)
    (hp : ∀ x ∈ ds ++ [(d, e)], ∀ p, x.1.phase = some p → ∀ c ∈ p, c ≠ '\r' ∧ c ≠ '\n') :
    let s := write ⟨above, [], 0⟩ ((ds ++ [(d, e)]).flatMap fun x => drawText w x.1 x.2)
    (d.last = false → s.above = above ∧ visible s.line = visible (textLine d e) ∧ s.col = 0) ∧
    (d.last = true → s.line = [] ∧ s.col = 0 ∧ ∃ l, s.above = above ++ [l] ∧ visible l = visible (textLine d e)) := by
  have many : ∀ (ds : List (Draw × ℚ)) (s : Screen), s.col = 0 → s.line.length ≤ w → s.above = above → (∀ x ∈ ds, x.1.last = false) →
      (∀ x ∈ ds, (textLine x.1 x.2).length ≤ w) → (∀ x ∈ ds, ∀ p, x.1.phase = some p → ∀ c ∈ p, c ≠ '\r' ∧ c ≠ '\n') →
      (write s (ds.flatMap fun x => drawText w x.1 x.2)).col = 0 ∧ (write s (ds.flatMap fun x => drawText w x.1 x.2)).line.length ≤ w ∧
        (write s (ds.flatMap fun x => drawText w x.1 x.2)).above = above := by
    intro ds
    induction ds with
    | nil => intro s h1 h2 h3 _ _ _; exact ⟨h1, h2, h3⟩
    | cons x ds ih =>
      intro s h1 h2 h3 h4 h5 h6
      rw [List.flatMap_cons, screen_append, draw_screen h1 h2 x.1 x.2 (h5 x (by simp)) (h6 x (by simp)), h4 x (by simp)]
      exact ih _ rfl (by rw [if_neg (by decide)]; exact Nat.le_of_eq (ljust_length (h5 x (by simp)))) h3 (fun y hy => h4 y (by simp [hy]))
        (fun y hy => h5 y (by simp [hy])) (fun y hy => h6 y (by simp [hy]))
  intro s
  obtain ⟨h1, h2, h3⟩ := many ds ⟨above, [], 0⟩ rfl (Nat.zero_le _) rfl hl (fun x hx => hf x (by simp [hx])) (fun x hx => hp x (by simp [hx]))
  have hs : s = if d.last then ⟨above ++ [ljust w (textLine d e)], [], 0⟩ else ⟨above, ljust w (textLine d e), 0⟩ := by
    show write _ _ = _
    rw [List.flatMap_append, screen_append]
    have := draw_screen h1 h2 d e (hf (d, e) (by simp)) (hp (d, e) (by simp))
    rw [h3] at this
    simpa using this
  constructor
  · intro h
    rw [hs, h]
    exact ⟨rfl, visible_ljust w _, rfl⟩
  · intro h
    rw [hs, h]
    exact ⟨rfl, rfl, _, rfl, visible_ljust w _⟩

/-! ## C88: the width -/

theorem fmtNat_le {n k : Nat} (hk : 0 < k) (h : n < 10 ^ k) : (Http.fmtNat n).length ≤ k :=
  (Nat.length_toDigits_le_iff (by omega) hk).mpr h

theorem halfEven_le {x : ℚ} {n : Nat} (h : x ≤ n) : (halfEven x).toNat ≤ n := by
  have := halfEven_mono h
  rw [show ((n : ℚ)) = ((n : ℤ) : ℚ) by norm_cast, halfEven_int] at this
  omega

theorem fixed2_length {q k : Nat} (hk : 0 < k) (h : q / 100 < 10 ^ k) : (fixed2 q).length ≤ k + 3 := by
  have h1 := fmtNat_le hk h
  have h2 : (Http.fmtNat (q / 10 % 10)).length ≤ 1 := fmtNat_le (by omega) (by omega)
  have h3 : (Http.fmtNat (q % 10)).length ≤ 1 := fmtNat_le (by omega) (by omega)
  simp only [fixed2, List.length_append, List.length_cons]
  omega

theorem humanLoop_lt (us : List Http.Str) : ∀ (u : Http.Str) (n : ℚ), us ≠ [] → us.length ≤ 6 → 0 ≤ n → n ≤ 1023 * 1024 ^ (us.length - 1) →
    (humanLoop u n us).1 ≤ 1024 ∧ 0 ≤ (humanLoop u n us).1 ∧ (humanLoop u n us).2 ∈ us := by
  induction us with
  | nil => intro u n h; exact absurd rfl h
  | cons v us ih =>
    intro u n _ hl h0 hn
    unfold humanLoop
    split
    · rename_i h
      exact ⟨le_of_lt h, h0, by simp⟩
    · rename_i h
      cases us with
      | nil =>
        simp at hn
        exact absurd (lt_of_le_of_lt hn (by norm_num)) h
      | cons v' us =>
        simp only [List.length_cons, Nat.add_sub_cancel] at hn hl
        have h1 : n / 1024 ≤ ((1023 * 1024 ^ us.length : ℕ) : ℚ) := by
          rw [div_le_iff₀ (by norm_num)]
          push_cast
          calc n ≤ 1023 * 1024 ^ (us.length + 1) := hn
            _ = 1023 * 1024 ^ us.length * 1024 := by ring
        have h2 : nearest (n / 1024) ≤ ((1023 * 1024 ^ us.length : ℕ) : ℚ) := by
          have := nearest_mono (by positivity) h1
          rwa [nearest_nat _ (by
            have : 1024 ^ us.length ≤ 1024 ^ 4 := Nat.pow_le_pow_right (by omega) (by omega)
            calc 1023 * 1024 ^ us.length ≤ 1023 * 1024 ^ 4 := Nat.mul_le_mul_left _ this
              _ < 2 ^ 53 := by decide)] at this
        obtain ⟨a, b, c⟩ := ih v (nearest (n / 1024)) (by simp) (by simp; omega) (nearest_nonneg (by positivity)) (by
          simp only [List.length_cons, Nat.add_sub_cancel]
          push_cast at h2
          exact h2)
        exact ⟨a, b, List.mem_cons_of_mem _ c⟩

/-- A size or a rate has at most 11 characters. -/
theorem humansize_length {x : ℚ} (h0 : 0 ≤ x) (h : x ≤ 1023 * 1024 ^ 5) : (humansize x).length ≤ 11 := by
  obtain ⟨h1, h2, h3⟩ := humanLoop_lt units [] x (by decide) (by decide) h0 (by simpa [units] using h)
  unfold humansize
  simp only
  have hu : ∀ u ∈ units, u.length ≤ 5 ∧ (u ≠ Images.lit "bytes" → u.length ≤ 3) := by decide
  split
  · rename_i hb
    rw [hb]
    have := fmtNat_le (n := (halfEven (humanLoop [] x units).1).toNat) (k := 4) (by omega)
      (lt_of_le_of_lt (halfEven_le (n := 1024) (by exact_mod_cast h1)) (by decide))
    have hl : (Images.lit "bytes").length = 5 := by decide
    simp only [List.length_append, List.length_cons, hl]
    omega
  · rename_i hb
    have hq : (halfEven ((humanLoop [] x units).1 * 100)).toNat ≤ 102400 := halfEven_le (by push_cast; linarith)
    have := fixed2_length (q := (halfEven ((humanLoop [] x units).1 * 100)).toNat) (k := 4) (by omega) (by omega)
    have := (hu _ h3).2 hb
    simp only [List.length_append, List.length_cons]
    omega

/-- C88: the lines of a transfer fit in the width of the bar: up to 4 PiB, 11 days, and 1023 PiB/s, with a phase of at most 26 characters. -/
theorem C88_fits (d : Draw) (e : ℚ) (ht : d.transferred < 2 ^ 52) (he : 0 ≤ e) (he' : e ≤ 10 ^ 6) (hv : d.value < 1000)
    (hr : (d.transferred : ℚ) ≤ 1023 * 1024 ^ 4 * e) (hp : ∀ p, d.phase = some p → p.length ≤ 26) : (textLine d e).length ≤ defaultWidth := by
  have hn : nearest d.transferred = d.transferred := nearest_nat _ (by omega)
  have h1 : (humansize (nearest d.transferred)).length ≤ 11 := by
    rw [hn]
    refine humansize_length (by positivity) ?_
    have : ((d.transferred : ℕ) : ℚ) < ((2 ^ 52 : ℕ) : ℚ) := by exact_mod_cast ht
    norm_num at this ⊢
    linarith
  have h2 : (humansize (rate d.transferred e)).length ≤ 11 := by
    unfold rate
    split
    · exact humansize_length (le_refl _) (by norm_num)
    · rename_i hz
      have hpos : 0 < e := lt_of_le_of_ne he (Ne.symm hz)
      rw [hn]
      have hq : (d.transferred : ℚ) / e ≤ ((1023 * 1024 ^ 4 : ℕ) : ℚ) := by
        rw [div_le_iff₀ hpos]; refine le_trans hr (le_of_eq ?_); norm_num
      have h3 := nearest_mono (by positivity) hq
      rw [nearest_nat _ (by decide)] at h3
      refine humansize_length (nearest_nonneg (by positivity)) (le_trans h3 ?_)
      norm_num
  have h3 : (fixed2 (halfEven (e * 100)).toNat).length ≤ 10 := by
    have hq : (halfEven (e * 100)).toNat ≤ 10 ^ 8 := halfEven_le (by push_cast; linarith)
    exact fixed2_length (k := 7) (by omega) (by omega)
  have h4 : (progressText d).length ≤ 4 := by
    unfold progressText Draw.shown
    split
    · rename_i n hn
      split at hn
      · cases hn
        have hx : (max 0 d.value).toNat < 10 ^ 3 := by omega
        have := fmtNat_le (k := 3) (by omega) hx
        simp only [padded3, List.length_append, List.length_replicate, List.length_singleton]
        omega
      · cases hn
    · decide
  have h5 : (phaseText d.phase).length ≤ 29 := by
    unfold phaseText
    split
    · rename_i c t hx
      have := hp _ hx
      have hl : (Images.lit " | ").length = 3 := by decide
      rw [List.length_append, hl]
      omega
    · simp
  have l1 : (Images.lit "[ ").length = 2 := by decide
  have l2 : (Images.lit " ] ").length = 3 := by decide
  have l3 : (Images.lit ", ").length = 2 := by decide
  have l4 : (Images.lit " s, ").length = 4 := by decide
  have l5 : (Images.lit "/s").length = 2 := by decide
  unfold textLine defaultWidth
  simp only [List.length_append, l1, l2, l3, l4, l5]
  omega

/-- C88: a bar that was closed leaves one line, with all the bytes that were reported before the close and the time of the close; the cursor is on the line below,
whatever was called before, by any threads, at any times. -/
theorem C88_bar (w : Nat) (above : List (List Char)) (p e : Option Http.Str) (n : Option Nat) (l : List Call) (hc : Call.close ∈ l) (times : Nat → ℚ)
    (hf : ∀ (i : Nat) (d : Draw), ((Bar.new p e n).calls l).draws[i]? = some d → (textLine d (times i)).length ≤ w)
    (hp : ∀ d ∈ ((Bar.new p e n).calls l).draws, ∀ p, d.phase = some p → ∀ c ∈ p, c ≠ '\r' ∧ c ≠ '\n') :
    let draws := ((Bar.new p e n).calls l).draws
    let s := write ⟨above, [], 0⟩ (draws.zipIdx.flatMap fun x => drawText w x.1 (times x.2))
    s.line = [] ∧ s.col = 0 ∧ ∃ line d, s.above = above ++ [line] ∧ draws.getLast? = some d ∧ d.transferred = Spec.transferred l ∧
      Spec.Terminal.visible line = Spec.Terminal.visible (textLine d (times (draws.length - 1))) := by
  intro draws s
  obtain ⟨pre, d, h1, h2, h3, h4⟩ := (C66_last p e n l).1 hc
  have hd : draws = pre ++ [d] := h1
  have hz : draws.zipIdx = pre.zipIdx ++ [(d, pre.length)] := by rw [hd, List.zipIdx_append]; simp
  have hmap : (draws.zipIdx.flatMap fun x => drawText w x.1 (times x.2)) =
      ((pre.zipIdx.map fun x => (x.1, times x.2)) ++ [(d, times pre.length)]).flatMap fun x => drawText w x.1 x.2 := by
    rw [hz]
    simp only [List.flatMap_append, List.flatMap_map, List.flatMap_cons, List.flatMap_nil]
  have hmem : ∀ x ∈ (pre.zipIdx.map fun x => (x.1, times x.2)) ++ [(d, times pre.length)],
      ∃ i, draws[i]? = some x.1 ∧ x.2 = times i := by
    intro x hx
    have : (pre.zipIdx.map fun x => (x.1, times x.2)) ++ [(d, times pre.length)] = draws.zipIdx.map fun x => (x.1, times x.2) := by
      rw [hz]; simp
    rw [this, List.mem_map] at hx
    obtain ⟨⟨a, i⟩, ha, rfl⟩ := hx
    exact ⟨i, List.mk_mem_zipIdx_iff_getElem?.mp ha, rfl⟩
  have key := (C88_text w above (pre.zipIdx.map fun x => (x.1, times x.2)) d (times pre.length)
    (by
      intro x hx
      rw [List.mem_map] at hx
      obtain ⟨⟨a, i⟩, ha, rfl⟩ := hx
      exact h4 a (List.mem_of_getElem? (List.mk_mem_zipIdx_iff_getElem?.mp ha)))
    (by
      intro x hx
      obtain ⟨i, hi, ht⟩ := hmem x hx
      rw [ht]
      exact hf i x.1 hi)
    (by
      intro x hx
      obtain ⟨i, hi, -⟩ := hmem x hx
      exact hp x.1 (List.mem_of_getElem? hi))).2 h2
  obtain ⟨k1, k2, line, k3, k4⟩ := key
  have hs : s = write ⟨above, [], 0⟩ (((pre.zipIdx.map fun x => (x.1, times x.2)) ++ [(d, times pre.length)]).flatMap fun x => drawText w x.1 x.2) := by
    show write _ _ = _
    rw [hmap]
  rw [← hs] at k1 k2 k3
  refine ⟨k1, k2, line, d, k3, by rw [hd]; simp, h3, ?_⟩
  rw [k4, hd]
  simp

/-! ## C88: JSON -/

/-- C88: the output in JSON is one line for each drawing, in order; each line is a text of an object with the bytes, the phase, and the size if it is known. -/
theorem C88_json (ds : List Draw) :
    ∃ lines : List Http.Str, ds.flatMap drawJson = lines.flatMap (fun l => l ++ ['\n']) ∧
      List.Forall₂ (fun line d => (∀ c ∈ line, c ≠ '\n') ∧ ∃ j, Spec.JsonText.Document line j ∧
        j.get "transferred".toList = .ok (some (.int d.transferred)) ∧
        j.get "description".toList = .ok (some (.str (d.phase.getD []))) ∧
        j.get "size".toList = .ok (d.size.map fun n => .int n)) lines ds := by
  refine ⟨ds.map fun d => JsonText.dumpsText (progressJson d), by rw [List.flatMap_map]; rfl, ?_⟩
  rw [List.forall₂_map_left_iff]
  refine List.forall₂_same.mpr fun d _ => ⟨?_, _, C80_dumps _, ?_, ?_, ?_⟩
  · intro c hc
    have := ((C80_ascii _).1 c hc).1
    rintro rfl
    revert this
    decide
  · unfold progressJson; cases d.size <;> rfl
  · unfold progressJson; cases d.size <;> rfl
  · unfold progressJson; cases d.size <;> rfl

/-! ## C88: examples -/

namespace BarEx

/-- The drawings of an upload of 1 GiB. -/
def up : List (Draw × ℚ) :=
  [(⟨-1, 0, none, some "creating transfer".toList, false⟩, 0), (⟨-1, 0, some (2 ^ 30), some "uploading image".toList, false⟩, 1 / 2),
   (⟨50, 2 ^ 29, some (2 ^ 30), some "uploading image".toList, false⟩, 2)]

/-- The last drawing of the upload. -/
def done : Draw := ⟨100, 2 ^ 30, some (2 ^ 30), some "upload completed".toList, true⟩

end BarEx

-- C88_text, C88_fits: the hypotheses hold for an upload, and this is what is seen
example : (∀ x ∈ BarEx.up, x.1.last = false) ∧ (∀ x ∈ BarEx.up ++ [(BarEx.done, 4)], (textLine x.1 x.2).length ≤ defaultWidth) := by decide +kernel
example : ∀ x ∈ BarEx.up ++ [(BarEx.done, 4)], ∀ p ∈ x.1.phase, ∀ c ∈ p, c ≠ '\r' ∧ c ≠ '\n' := by decide +kernel
example : textLine BarEx.done 4 = "[ 100% ] 1.00 GiB, 4.00 s, 256.00 MiB/s | upload completed".toList := by decide +kernel
example : (write ⟨["$ ovirt-img".toList], [], 0⟩ ((BarEx.up ++ [(BarEx.done, 4)]).flatMap fun x : Draw × ℚ => drawText defaultWidth x.1 x.2)).above.map Spec.Terminal.visible =
    ["$ ovirt-img".toList, "[ 100% ] 1.00 GiB, 4.00 s, 256.00 MiB/s | upload completed".toList] := by decide +kernel
example : (BarEx.done.transferred : ℚ) ≤ 1023 * 1024 ^ 4 * 4 ∧ BarEx.done.transferred < 2 ^ 52 ∧ BarEx.done.value < 1000 := by decide +kernel

-- all the phases of the client fit, `client/_tool.py`, `client/_upload.py`, `client/_download.py`
example : ∀ p ∈ ["inspecting image", "creating disk", "creating transfer", "uploading image", "downloading image", "cancelling transfer", "finalizing transfer",
    "upload completed", "download completed", "command failed"], p.toList.length ≤ 26 := by decide

-- C88_bar
example : ((Bar.new none none none).calls [.setSize (some 100), .update 50, .update 50, .close]).draws.map (fun d => (textLine d 1).length) = [35, 35, 37, 39, 39] ∧
    Call.close ∈ [Call.setSize (some 100), .update 50, .update 50, .close] := by decide +kernel

-- C88_json
example : drawJson ⟨-1, 5, some 9, none, false⟩ = "{\"transferred\": 5, \"elapsed\": 0.0, \"description\": \"\", \"size\": 9}\n".toList := by decide +kernel

/-- C88 is false of lines that do not fit: a long phase is drawn over by a shorter line, and its end stays on the screen. -/
theorem C88_counterexample_stale :
    let long : Draw := ⟨-1, 0, none, some "waiting until the transfer is ready to be used by this client".toList, false⟩
    let short : Draw := ⟨-1, 0, none, some "uploading image".toList, false⟩
    let s := write ⟨[], [], 0⟩ (drawText defaultWidth long 0 ++ drawText defaultWidth short 0)
    79 < (textLine long 0).length ∧ Spec.Terminal.visible s.line ≠ Spec.Terminal.visible (textLine short 0) ∧
      s.line.drop 79 = " used by this client".toList := by decide +kernel

end Imageio.Props
