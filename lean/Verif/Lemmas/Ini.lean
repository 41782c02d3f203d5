import Verif.Model.Ini
import Verif.Spec.Ini
import Verif.Props.Config

/-! Lemmas about `Model/Ini`: the lines of a text and the contents of a line. -/
namespace Imageio.Ini
open Imageio.Http Imageio.Config Imageio.Spec.Ini

theorem isSpace_iff (c : Char) : isSpace c = true ↔ White c := by
  unfold isSpace White
  simp only [Bool.or_eq_true, Bool.and_eq_true, decide_eq_true_eq, beq_iff_eq, List.mem_cons, List.not_mem_nil, or_false]
  omega

theorem isSpace_false (c : Char) : isSpace c = false ↔ ¬ White c := by
  rw [← isSpace_iff]; cases isSpace c <;> simp

theorem dropWhile_white {a s : Str} (ha : Blank a) (hs : ∀ c, s.head? = some c → ¬ White c) :
    (a ++ s).dropWhile isSpace = s := by
  induction a with
  | nil =>
    cases s with
    | nil => rfl
    | cons c s =>
      have := (isSpace_false c).2 (hs c rfl)
      simp [this]
  | cons c a ih =>
    have h1 := (isSpace_iff c).2 (ha c (by simp))
    simpa [h1] using ih fun x hx => ha x (by simp [hx])

theorem rstrip_white {b s : Str} (hb : Blank b) (hs : ∀ c, s.getLast? = some c → ¬ White c) : rstrip (s ++ b) = s := by
  unfold rstrip
  rw [List.reverse_append, dropWhile_white (fun c hc => hb c (by simpa using hc)) (fun c hc => hs c (by simpa using hc)),
    List.reverse_reverse]

theorem dropWhile_split (s : Str) : ∃ a, s = a ++ s.dropWhile isSpace ∧ Blank a ∧
    (∀ c, (s.dropWhile isSpace).head? = some c → ¬ White c) ∧ a = s.takeWhile isSpace := by
  refine ⟨s.takeWhile isSpace, List.takeWhile_append_dropWhile.symm, fun c hc => ?_, fun c hc => ?_, rfl⟩
  · exact (isSpace_iff c).1 (List.all_eq_true.1 (List.all_takeWhile) c hc)
  · rw [← isSpace_false]
    have := List.head?_dropWhile_not isSpace s
    rw [hc] at this
    simpa using this

theorem rstrip_split (s : Str) : ∃ b, s = rstrip s ++ b ∧ Blank b ∧ ∀ c, (rstrip s).getLast? = some c → ¬ White c := by
  obtain ⟨a, h1, h2, h3, -⟩ := dropWhile_split s.reverse
  refine ⟨a.reverse, ?_, fun c hc => h2 c (by simpa using hc), fun c hc => h3 c ?_⟩
  · have := congrArg List.reverse h1
    rw [List.reverse_reverse, List.reverse_append] at this
    exact this
  · unfold rstrip at hc
    simpa using hc

theorem rstrip_iff (s t : Str) : rstrip s = t ↔ ∃ b, s = t ++ b ∧ Blank b ∧ ∀ c, t.getLast? = some c → ¬ White c := by
  constructor
  · rintro rfl; exact rstrip_split s
  · rintro ⟨b, rfl, h1, h2⟩; exact rstrip_white h1 h2

theorem head_append {s b : Str} {c : Char} (h : s.head? = some c) : (s ++ b).head? = some c := by
  cases s with
  | nil => simp at h
  | cons x s => simpa using h

/-- The content of a line. -/
theorem strip_iff (l s : Str) : strip l = s ↔ ∃ a b, l = a ++ (s ++ b) ∧ Blank a ∧ Blank b ∧ Trim s := by
  constructor
  · rintro rfl
    obtain ⟨a, h1, h2, h3, -⟩ := dropWhile_split l
    obtain ⟨b, h4, h5, h6⟩ := rstrip_split (l.dropWhile isSpace)
    refine ⟨a, b, ?_, h2, h5, ?_, h6⟩
    · unfold strip
      rw [← h4]; exact h1
    · intro c hc
      refine h3 c ?_
      rw [h4]
      exact head_append hc
  · rintro ⟨a, b, rfl, ha, hb, h1, h2⟩
    cases s with
    | nil =>
      have : Blank (a ++ ([] ++ b)) := by
        intro c hc
        simp only [List.nil_append, List.mem_append] at hc
        exact hc.elim (ha c) (hb c)
      have h3 := dropWhile_white (s := []) this (by simp)
      rw [List.append_nil] at h3
      unfold strip
      rw [h3]; rfl
    | cons x s =>
      unfold strip
      rw [dropWhile_white ha (fun c hc => h1 c (by simpa using hc)), rstrip_white hb h2]

theorem strip_nil (l : Str) : strip l = [] ↔ Blank l := by
  rw [strip_iff]
  constructor
  · rintro ⟨a, b, rfl, ha, hb, -⟩ c hc
    simp only [List.nil_append, List.mem_append] at hc
    exact hc.elim (ha c) (hb c)
  · intro h
    exact ⟨l, [], by simp, h, by simp [Blank], by simp [Trim]⟩

theorem strip_trim (l : Str) : Trim (strip l) := by
  obtain ⟨_, _, _, _, _, h⟩ := (strip_iff l _).1 rfl
  exact h

theorem line_iff (l : Str) (n : Nat) (s : Str) : Line l n s ↔ strip l = s ∧ s ≠ [] ∧ (l.takeWhile isSpace).length = n := by
  constructor
  · rintro ⟨a, b, rfl, ha, hb, rfl, ht, hs⟩
    refine ⟨(strip_iff _ _).2 ⟨a, b, rfl, ha, hb, ht⟩, hs, ?_⟩
    have h1 := dropWhile_white (s := s ++ b) ha fun c hc => by
      cases s with
      | nil => exact absurd rfl hs
      | cons x s => exact ht.1 c (by simpa using hc)
    have h2 : (a ++ (s ++ b)).takeWhile isSpace ++ (a ++ (s ++ b)).dropWhile isSpace = a ++ (s ++ b) :=
      List.takeWhile_append_dropWhile
    rw [h1] at h2
    rw [List.append_cancel_right h2]
  · rintro ⟨rfl, hs, rfl⟩
    obtain ⟨a, b, h1, h2, h3, h4⟩ := (strip_iff l _).1 rfl
    refine ⟨a, b, h1, h2, h3, ?_, h4, hs⟩
    have h5 := dropWhile_white (s := strip l ++ b) h2 fun c hc => by
      cases hs' : strip l with
      | nil => exact absurd hs' hs
      | cons x s => rw [hs'] at hc h4; exact h4.1 c (by simpa using hc)
    have h6 : l.takeWhile isSpace ++ l.dropWhile isSpace = l := List.takeWhile_append_dropWhile
    conv at h6 => rhs; rw [h1]
    rw [← h1] at h5
    rw [h5] at h6
    rw [List.append_cancel_right h6]

theorem line_strip {l : Str} (h : strip l ≠ []) : Line l (l.takeWhile isSpace).length (strip l) :=
  (line_iff _ _ _).2 ⟨rfl, h, rfl⟩

theorem isComment_iff (l : Str) : isComment l = true ↔ Comment l := by
  unfold isComment Comment
  constructor
  · intro h
    cases hs : strip l with
    | nil => rw [hs] at h; simp at h
    | cons c s =>
      rw [hs] at h
      have h2 := line_strip (l := l) (by rw [hs]; simp)
      rw [hs] at h2
      exact ⟨_, c, s, h2, by simpa using h⟩
  · rintro ⟨n, c, s, h, hc⟩
    rw [((line_iff _ _ _).1 h).1]
    simpa using hc

theorem header_iff (v name : Str) : header v = some name ↔ Header v name := by
  unfold header Header
  constructor
  · intro h
    split at h
    · rename_i rest
      have h0 : rest.reverse = rest.reverse.takeWhile (· != ']') ++ rest.reverse.dropWhile (· != ']') :=
        List.takeWhile_append_dropWhile.symm
      have hall : ∀ c ∈ rest.reverse.takeWhile (· != ']'), c ≠ ']' := fun c hc => by
        simpa using List.all_eq_true.1 (List.all_takeWhile) c hc
      have hd := List.head?_dropWhile_not (· != ']') rest.reverse
      generalize rest.reverse.takeWhile (· != ']') = tw at h0 hall
      generalize rest.reverse.dropWhile (· != ']') = dw at h0 h hd
      match dw, h, hd with
      | [], h, _ => simp at h
      | x :: t, h, hd =>
        simp only [List.head?_cons, bne_iff_ne, ne_eq, Bool.not_eq_eq_eq_not, Bool.not_true, bne_eq_false_iff_eq] at hd h
        subst hd
        split at h
        · simp at h
        · rename_i hne
          cases h
          refine ⟨tw.reverse, ?_, by simpa using hne, fun hm => hall _ (by simpa using hm) rfl⟩
          have := congrArg List.reverse h0
          rw [List.reverse_reverse] at this
          rw [this]; simp
    · simp at h
  · rintro ⟨rest, rfl, hn, hr⟩
    have : (name ++ ']' :: rest).reverse.dropWhile (· != ']') = ']' :: name.reverse := by
      rw [List.reverse_append, List.reverse_cons, List.append_assoc, List.dropWhile_append_of_pos]
      · simp
      · intro c hc
        have : c ≠ ']' := fun h => hr (by rw [← h]; simpa using hc)
        simpa using this
    simp only [this, List.reverse_eq_nil_iff, hn, if_false, List.reverse_reverse]

theorem isDelim_iff (c : Char) : isDelim c = true ↔ Delim c := by
  unfold isDelim Delim; simp

theorem not_white_delim {c : Char} (h : Delim c) : ¬ White c := by
  rw [← isSpace_iff]; rcases h with rfl | rfl <;> decide

theorem option_iff {s : Str} (ht : Trim s) (o v : Str) : (option s = some (o, v) ∧ o ≠ []) ↔ Setting s o v := by
  unfold option Setting
  constructor
  · rintro ⟨h, ho⟩
    have h0 : s = s.takeWhile (fun c => !isDelim c) ++ s.dropWhile (fun c => !isDelim c) :=
      List.takeWhile_append_dropWhile.symm
    have hall : ∀ c ∈ s.takeWhile (fun c => !isDelim c), ¬ Delim c := fun c hc => by
      have := List.all_eq_true.1 (List.all_takeWhile) c hc
      rw [← isDelim_iff]
      simpa using this
    have hd := List.head?_dropWhile_not (fun c => !isDelim c) s
    generalize s.takeWhile (fun c => !isDelim c) = tw at *
    generalize s.dropWhile (fun c => !isDelim c) = dw at *
    cases dw with
    | nil => simp at h
    | cons d t =>
      simp only [List.head?_cons, Bool.not_eq_eq_eq_not, Bool.not_true, Bool.not_false, Option.some.injEq,
        Prod.mk.injEq, Bool.not_not] at h hd
      obtain ⟨h1, h2⟩ := h
      obtain ⟨a, e1, e2, e3⟩ := (rstrip_iff _ _).1 h1
      obtain ⟨b, c, f1, f2, f3, f4⟩ := (strip_iff _ _).1 h2
      subst e1 f1
      refine ⟨a, d, b, c, by rw [h0]; simp, e2, f2, f3, (isDelim_iff d).1 hd, ho, fun x hx => hall x (by simp [hx]),
        ⟨fun x hx => ?_, e3⟩, f4⟩
      refine ht.1 x ?_
      rw [h0, List.append_assoc]
      exact head_append hx
  · rintro ⟨a, d, b, c, rfl, ha, hb, hc, hd, hn, hnd, htn, htv⟩
    refine ⟨?_, hn⟩
    have hp : ∀ x ∈ (o ++ a), (!isDelim x) = true := by
      intro x hx
      simp only [List.mem_append] at hx
      simp only [Bool.not_eq_eq_eq_not, Bool.not_true]
      by_contra hcon
      have : Delim x := (isDelim_iff x).1 (by simpa using hcon)
      rcases hx with hx | hx
      · exact hnd x hx this
      · exact not_white_delim this (ha x hx)
    have e : o ++ (a ++ d :: (b ++ (v ++ c))) = (o ++ a) ++ d :: (b ++ (v ++ c)) := by simp
    have hd' : isDelim d = true := (isDelim_iff d).2 hd
    rw [e, List.dropWhile_append_of_pos hp, List.takeWhile_append_of_pos hp]
    simp only [hd', List.dropWhile_cons, List.takeWhile_cons, Bool.not_true, if_false, Bool.false_eq_true, List.append_nil]
    rw [show rstrip ((o ++ a)) = o from rstrip_white ha htn.2, (strip_iff _ v).2 ⟨b, c, rfl, hb, hc, htv⟩]

theorem joinLines_eq (l : List Str) : joinLines l = List.intercalate ['\n'] l := by
  induction l with
  | nil => rfl
  | cons a l ih =>
    cases l with
    | nil => simp [joinLines, List.intercalate]
    | cons b l => rw [joinLines, ih]; simp [List.intercalate]; simp

theorem valueText_iff (ts : List Str) (v : Str) : ValueText ts v ↔ (RawVal.lines ts).join = v := by
  rw [ValueText, RawVal.join, rstrip_iff, joinLines_eq]

/-! ### Lines -/

theorem newlines_cons {c : Char} (h : c ≠ '\r') (r : Str) : newlines (c :: r) = c :: newlines r := by
  rw [newlines]
  · intro _ h1
    exact absurd h1 h
  · exact h

theorem newlines_append {l : Str} (h : '\r' ∉ l) (r : Str) : newlines (l ++ r) = l ++ newlines r := by
  induction l with
  | nil => rfl
  | cons c l ih =>
    rw [List.cons_append, newlines_cons (fun e => h (by simp [e])), ih (fun e => h (by simp [e]))]; rfl

theorem newlines_cr {r : Str} (h : r.head? ≠ some '\n') : newlines ('\r' :: r) = '\n' :: newlines r := by
  rw [newlines]
  intro r' h1
  rw [h1] at h
  exact h rfl

theorem splitLines_line {l : Str} (h : '\n' ∉ l) (r : Str) : splitLines (l ++ '\n' :: r) = l :: splitLines r := by
  induction l with
  | nil => rfl
  | cons c l ih =>
    have hc : c ≠ '\n' := fun e => h (by simp [e])
    rw [List.cons_append, splitLines, if_neg hc, ih (fun e => h (by simp [e]))]

theorem splitLines_last {l : Str} (hl : l ≠ []) (h : '\n' ∉ l) : splitLines l = [l] := by
  induction l with
  | nil => exact absurd rfl hl
  | cons c l ih =>
    have hc : c ≠ '\n' := fun e => h (by simp [e])
    rw [splitLines, if_neg hc]
    cases l with
    | nil => rfl
    | cons d l => rw [ih (by simp) (fun e => h (by simp at e ⊢; exact .inr e))]

theorem lines_fun {t : Str} {ls : List Str} (h : Lines t ls) : splitLines (newlines t) = ls := by
  induction h with
  | nil => rfl
  | @last l hl hn hr =>
    have := newlines_append hr []
    rw [List.append_nil, show newlines [] = [] from rfl, List.append_nil] at this
    rw [this, splitLines_last hl hn]
  | lf hn hr _ ih => rw [newlines_append hr, newlines_cons (by decide), splitLines_line hn, ih]
  | crlf hn hr _ ih => rw [newlines_append hr, newlines, splitLines_line hn, ih]
  | cr hn hr hlf _ ih => rw [newlines_append hr, newlines_cr hlf, splitLines_line hn, ih]

theorem lines_exist : ∀ n, ∀ t : Str, t.length ≤ n → ∃ ls, Lines t ls := by
  intro n
  induction n with
  | zero =>
    intro t h
    cases t with
    | nil => exact ⟨_, .nil⟩
    | cons => simp at h
  | succ n ih =>
    intro t h
    have h0 : t = t.takeWhile (fun c => c != '\n' && c != '\r') ++ t.dropWhile (fun c => c != '\n' && c != '\r') :=
      List.takeWhile_append_dropWhile.symm
    have hall : ∀ c ∈ t.takeWhile (fun c => c != '\n' && c != '\r'), c ≠ '\n' ∧ c ≠ '\r' := fun c hc => by
      simpa using List.all_eq_true.1 (List.all_takeWhile) c hc
    have hd := List.head?_dropWhile_not (fun c => c != '\n' && c != '\r') t
    generalize t.takeWhile (fun c => c != '\n' && c != '\r') = l at h0 hall
    generalize t.dropWhile (fun c => c != '\n' && c != '\r') = dw at h0 hd
    have hn : '\n' ∉ l := fun hm => (hall _ hm).1 rfl
    have hr : '\r' ∉ l := fun hm => (hall _ hm).2 rfl
    subst h0
    match dw, hd with
    | [], _ =>
      cases l with
      | nil => exact ⟨_, .nil⟩
      | cons c l => exact ⟨_, by rw [List.append_nil]; exact .last (by simp) hn hr⟩
    | c :: r, hd =>
      have hc : c = '\n' ∨ c = '\r' := by
        simp only [List.head?_cons] at hd
        by_cases h1 : c = '\n'
        · exact .inl h1
        · by_cases h2 : c = '\r'
          · exact .inr h2
          · simp [h1, h2] at hd
      simp only [List.length_append, List.length_cons] at h
      rcases hc with rfl | rfl
      · obtain ⟨ls, hls⟩ := ih r (by omega)
        exact ⟨_, .lf hn hr hls⟩
      · by_cases hlf : r.head? = some '\n'
        · cases r with
          | nil => simp at hlf
          | cons x r =>
            simp only [List.head?_cons, Option.some.injEq] at hlf
            subst hlf
            simp only [List.length_cons] at h
            obtain ⟨ls, hls⟩ := ih r (by omega)
            exact ⟨_, .crlf hn hr hls⟩
        · obtain ⟨ls, hls⟩ := ih r (by omega)
          exact ⟨_, .cr hn hr hlf hls⟩

theorem lines_iff (t : Str) (ls : List Str) : Lines t ls ↔ splitLines (newlines t) = ls := by
  refine ⟨lines_fun, fun h => ?_⟩
  obtain ⟨ls', h'⟩ := lines_exist _ t (Nat.le_refl _)
  rw [lines_fun h'] at h
  exact h ▸ h'

end Imageio.Ini
