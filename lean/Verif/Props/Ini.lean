import Verif.Lemmas.IniLoad

/-!
C81: the syntax of the configuration files.
-/
namespace Imageio.Props
open Imageio.Http Imageio.Config Imageio.Ini Imageio.Spec.Ini
open Imageio.Spec.Config (Effective Proper Sets)

/-- C81: a text has one meaning. -/
theorem C81_unambiguous {t : Text} {f f' : IniFile} (h : Document t f) (h' : Document t f') : f = f' := document_unique h h'

/-- C81: the texts of files that have a meaning are loaded as their sections and options: the same configuration, and an
invalid value is an error. -/
theorem C81_load {F : Type} (pf : List Char → Option F) (cfg : Cfg F) (texts : List (Option Text)) (files : List IniFile)
    (hd : List.Forall₂ Document (texts.filterMap id) files) :
    (loadTexts pf cfg texts).2 = (load pf cfg files).2 ∧
    ((loadTexts pf cfg texts).1 = none ↔ (load pf cfg files).1 = none) ∧
    ((loadTexts pf cfg texts).1 = some .valueError ↔ (load pf cfg files).1 = some .valueError) := by
  unfold loadTexts load
  have hu : ∀ files', List.Forall₂ Document (texts.filterMap id) files' → files' = files := by
    intro files' h'
    generalize texts.filterMap id = l at hd h'
    induction hd generalizing files' with
    | nil => exact List.forall₂_nil_left_iff.1 h'
    | cons h _ ih =>
      obtain ⟨f, fs, h1, h2, rfl⟩ := List.forall₂_cons_left_iff.1 h'
      rw [document_unique h1 h, ih _ h2]
  cases hr : readTexts texts RawParser.empty with
  | ok q =>
    obtain ⟨files', h1, h2⟩ := (readTexts_iff texts RawParser.empty q.values).1 ⟨q, hr, rfl⟩
    rw [hu _ h1] at h2
    have h2 : readFiles files Parser.empty = some q.values := h2
    rw [h2]
    simp only
    cases hl : loadSections pf q.values cfg with
    | mk b c => cases b <;> simp
  | error e =>
    have h2 : readFiles files Parser.empty = none := by
      cases h : readFiles files Parser.empty with
      | none => rfl
      | some v =>
        obtain ⟨q, hq, -⟩ := (readTexts_iff texts RawParser.empty v).2 ⟨files, hd, h⟩
        rw [hr] at hq
        cases hq
    rw [h2]
    simp

/-- C81: a text without a meaning is refused, and changes nothing. -/
theorem C81_refused {F : Type} (pf : List Char → Option F) (cfg : Cfg F) (texts : List (Option Text)) (t : Text)
    (ht : some t ∈ texts) (hd : ∀ f, ¬ Document t f) : ∃ e, loadTexts pf cfg texts = (some (.ini e), cfg) := by
  unfold loadTexts
  cases hr : readTexts texts RawParser.empty with
  | error e => exact ⟨e, rfl⟩
  | ok q =>
    obtain ⟨files, h1, -⟩ := (readTexts_iff texts RawParser.empty q.values).1 ⟨q, hr, rfl⟩
    have hm : t ∈ texts.filterMap id := List.mem_filterMap.2 ⟨some t, ht, rfl⟩
    exfalso
    generalize texts.filterMap id = l at h1 hm
    induction h1 with
    | nil => simp at hm
    | cons h _ ih =>
      rcases List.mem_cons.1 hm with rfl | hm
      · exact hd _ h
      · exact ih hm

/-- C81: when loading succeeds every text has a meaning, and every option has the value that the texts give it (C43), or its
default. -/
theorem C81_values {F : Type} (pf : List Char → Option F) (cfg cfg' : Cfg F) (texts : List (Option Text))
    (hd : ∀ s ∈ cfg, s.1 ≠ "DEFAULT".toList) (h : loadTexts pf cfg texts = (none, cfg')) :
    ∃ files : List IniFile, List.Forall₂ Document (texts.filterMap id) files ∧ (∀ f ∈ files, Proper keywordMapping f) ∧
      List.Forall₂ (fun s s' => s.1 = s'.1 ∧ List.Forall₂ (fun a b => a.1 = b.1 ∧
        ((∃ t, Effective keywordMapping files s.1 a.1 (some t) ∧ Converts pf a.2 t b.2) ∨
          (Effective keywordMapping files s.1 a.1 none ∧ b.2 = a.2))) s.2 s'.2) cfg cfg' := by
  have hok : ∃ q, readTexts texts RawParser.empty = .ok q := by
    unfold loadTexts at h
    cases hr : readTexts texts RawParser.empty with
    | error e => rw [hr] at h; simp at h
    | ok q => exact ⟨q, rfl⟩
  obtain ⟨q, hq⟩ := hok
  obtain ⟨files, h1, h2⟩ := (readTexts_iff texts RawParser.empty q.values).1 ⟨q, hq, rfl⟩
  obtain ⟨e1, e2, -⟩ := C81_load pf cfg texts files h1
  refine ⟨files, h1, (readFiles_some files Parser.empty).1 ⟨_, h2⟩, C43_values pf cfg cfg' files hd ?_⟩
  refine Prod.ext (e2.1 (by rw [h])) ?_
  rw [← e1, h]

/-- C81: the daemon loads the texts of the files of both directories as `C43_load_config` says: the order of the base names
decides. -/
theorem C81_load_config {F : Type} (pf : List Char → Option F) (cfg : Cfg F)
    (files vendor : List (Text × Text × IniFile)) (hd : ∀ x ∈ files ++ vendor, Document x.2.1 x.2.2) :
    match loadConfigTexts pf cfg (files.map fun x => (x.1, some x.2.1)) (vendor.map fun x => (x.1, some x.2.1)),
      loadConfig pf cfg (files.map fun x => (x.1, x.2.2)) (vendor.map fun x => (x.1, x.2.2)) with
    | some (e, c), some (e', c') => c = c' ∧ (e = none ↔ e' = none) ∧ (e = some .valueError ↔ e' = some .valueError)
    | none, none => True
    | _, _ => False := by
  unfold loadConfigTexts loadConfig
  simp only [List.map_eq_nil_iff]
  by_cases h : files = []
  · simp [h]
  · simp only [h, if_false, sortFiles]
    rw [← List.map_append, ← List.map_append,
      ← List.map_mergeSort (r := fun a b => leStr (baseName a.1) (baseName b.1)) (fun _ _ _ _ => rfl),
      ← List.map_mergeSort (r := fun a b => leStr (baseName a.1) (baseName b.1)) (fun _ _ _ _ => rfl),
      List.map_map, List.map_map]
    refine C81_load pf cfg _ _ ?_
    have hd' : ∀ x ∈ (files ++ vendor).mergeSort fun a b => leStr (baseName a.1) (baseName b.1), Document x.2.1 x.2.2 :=
      fun x hx => hd x (List.mem_mergeSort.1 hx)
    generalize (files ++ vendor).mergeSort (fun a b => leStr (baseName a.1) (baseName b.1)) = l at hd'
    induction l with
    | nil => simp
    | cons x l ih =>
      simp only [List.map_cons, Function.comp_apply, List.filterMap_cons, id_eq, List.forall₂_cons]
      exact ⟨hd' x (by simp), ih fun y hy => hd' y (by simp [hy])⟩

/-! ### Comments -/

theorem free_comment {c : Text} (hc : Comment c) : ∀ (a b : List Text),
    (∀ opts f, Free (a ++ c :: b) opts f ↔ Free (a ++ b) opts f) ∧
    ∀ k t opts f, Open k (a ++ c :: b) t opts f ↔ Open k (a ++ b) t opts f
  | [], b => ⟨fun _ _ => free_skip (.inr hc), fun _ _ _ _ => open_comment hc⟩
  | l :: a, b => by
    obtain ⟨ih1, ih2⟩ := free_comment hc a b
    simp only [List.cons_append]
    have hbegin : ¬ Blank l → ¬ Comment l → ∀ opts f, Free (l :: (a ++ c :: b)) opts f ↔ Free (l :: (a ++ b)) opts f := by
      intro hbl hcl opts f
      have hl := line_strip (mt (strip_nil l).1 hbl)
      cases hh : header (strip l) with
      | some name => simp only [free_header hl ((header_iff _ _).1 hh), ih1]
      | none =>
        have hn : ∀ name, ¬ Header (strip l) name := fun name h => by
          rw [← header_iff, hh] at h; cases h
        by_cases hset : ∃ o v, Setting (strip l) o v
        · obtain ⟨o, v, hset⟩ := hset
          simp only [free_option hl hcl hn hset, ih2]
        · exact iff_of_false (free_bad hl hcl hn fun o v hx => hset ⟨o, v, hx⟩)
            (free_bad hl hcl hn fun o v hx => hset ⟨o, v, hx⟩)
    by_cases hcl : Comment l
    · exact ⟨fun opts f => by rw [free_skip (.inr hcl), free_skip (.inr hcl), ih1],
        fun k t opts f => by rw [open_comment hcl, open_comment hcl, ih2]⟩
    · by_cases hbl : Blank l
      · exact ⟨fun opts f => by rw [free_skip (.inl hbl), free_skip (.inl hbl), ih1],
          fun k t opts f => by simp only [open_blank hbl, ih2]⟩
      · refine ⟨hbegin hbl hcl, fun k t opts f => ?_⟩
        have hl := line_strip (mt (strip_nil l).1 hbl)
        by_cases hi : k < (l.takeWhile isSpace).length
        · simp only [open_more hl hcl hi, ih2]
        · rw [open_next hl hcl (Nat.le_of_not_lt hi), open_next hl hcl (Nat.le_of_not_lt hi), hbegin hbl hcl]

theorem newlines_end {u : Str} (h : u = [] ∨ u.getLast? = some '\n') (x : Str) : newlines (u ++ x) = newlines u ++ newlines x := by
  induction u using newlines.induct with
  | case1 r ih =>
    simp only [List.cons_append, newlines]
    rw [ih]
    cases r with
    | nil => exact .inl rfl
    | cons y r => exact .inr (by simpa using h)
  | case2 r hr ih =>
    have hne : r ≠ [] := by rintro rfl; simp at h
    rw [List.cons_append, newlines_cr, newlines_cr]
    · rw [ih, List.cons_append]
      cases r with
      | nil => exact .inl rfl
      | cons y r => exact .inr (by simpa using h)
    · intro hh
      cases r with
      | nil => exact hne rfl
      | cons y r =>
        simp only [List.head?_cons, Option.some.injEq] at hh
        subst hh
        exact hr r rfl
    · intro hh
      cases r with
      | nil => exact hne rfl
      | cons y r =>
        simp only [List.cons_append, List.head?_cons, Option.some.injEq] at hh
        subst hh
        exact hr r rfl
  | case3 c r _ h2 ih =>
    rw [List.cons_append, newlines_cons h2, newlines_cons h2, ih, List.cons_append]
    cases r with
    | nil => exact .inl rfl
    | cons y r => exact .inr (by simpa using h)
  | case4 => rfl

theorem newlines_last {u : Str} (h : u.getLast? = some '\n') : (newlines u).getLast? = some '\n' := by
  obtain ⟨v, rfl⟩ := List.getLast?_eq_some_iff.1 h
  by_cases hv : ∃ w, v = w ++ ['\r'] ∧ True
  · obtain ⟨w, rfl, -⟩ := hv
    clear h
    induction w using newlines.induct with
    | case1 r ih =>
      have : newlines ('\r' :: '\n' :: r ++ ['\r'] ++ ['\n']) = '\n' :: newlines (r ++ ['\r'] ++ ['\n']) := by
        simp only [List.cons_append, newlines]
      rw [this, List.getLast?_cons, ih]; rfl
    | case2 r hr ih =>
      have : newlines ('\r' :: r ++ ['\r'] ++ ['\n']) = '\n' :: newlines (r ++ ['\r'] ++ ['\n']) := by
        simp only [List.cons_append]
        refine newlines_cr ?_
        cases r with
        | nil => decide
        | cons y r =>
          simp only [List.cons_append, List.head?_cons, ne_eq, Option.some.injEq]
          rintro rfl
          exact hr r rfl
      rw [this, List.getLast?_cons, ih]; rfl
    | case3 c r _ h2 ih =>
      simp only [List.cons_append]
      rw [newlines_cons h2, List.getLast?_cons]
      simp only [List.append_assoc] at ih
      rw [← List.append_assoc] at ih
      rw [ih]; rfl
    | case4 => rfl
  · have : ∀ x, newlines (v ++ '\n' :: x) = newlines v ++ '\n' :: newlines x := by
      intro x
      clear h
      induction v using newlines.induct with
      | case1 r ih =>
        simp only [List.cons_append, newlines]
        rw [ih]
        rintro ⟨w, rfl, -⟩
        exact hv ⟨'\r' :: '\n' :: w, rfl, trivial⟩
      | case2 r hr ih =>
        have hne : r ≠ [] := by rintro rfl; exact hv ⟨[], rfl, trivial⟩
        rw [List.cons_append, newlines_cr, newlines_cr]
        · rw [ih, List.cons_append]
          rintro ⟨w, rfl, -⟩
          exact hv ⟨'\r' :: w, rfl, trivial⟩
        · intro hh
          cases r with
          | nil => exact hne rfl
          | cons y r =>
            simp only [List.head?_cons, Option.some.injEq] at hh
            subst hh
            exact hr r rfl
        · intro hh
          cases r with
          | nil => exact hne rfl
          | cons y r =>
            simp only [List.cons_append, List.head?_cons, Option.some.injEq] at hh
            subst hh
            exact hr r rfl
      | case3 c r _ h2 ih =>
        rw [List.cons_append, newlines_cons h2, newlines_cons h2, ih, List.cons_append]
        rintro ⟨w, rfl, -⟩
        exact hv ⟨c :: w, rfl, trivial⟩
      | case4 => rw [List.nil_append, newlines_cons (by decide)]; rfl
    rw [this []]
    simp [newlines]

theorem splitLines_end {u : Str} (h : u = [] ∨ u.getLast? = some '\n') (x : Str) : splitLines (u ++ x) = splitLines u ++ splitLines x := by
  induction u with
  | nil => rfl
  | cons c r ih =>
    have hr : r = [] ∨ r.getLast? = some '\n' := by
      cases r with
      | nil => exact .inl rfl
      | cons y r => exact .inr (by simpa using h)
    rw [List.cons_append, splitLines, splitLines, ih hr]
    by_cases hc : c = '\n'
    · simp [hc]
    · simp only [hc, if_false]
      cases r with
      | nil => simp at h; exact absurd h hc
      | cons y r =>
        have : splitLines (y :: r) ≠ [] := by
          rw [splitLines]
          split
          · simp
          · split <;> simp
        cases hs : splitLines (y :: r) with
        | nil => exact absurd hs this
        | cons a l => rfl

/-- C81: a comment, wherever it is, says nothing. -/
theorem C81_comments {u c w : Text} (hu : u = [] ∨ u.getLast? = some '\n') (hc : Comment c) (hn : '\n' ∉ c) (hr : '\r' ∉ c)
    (f : IniFile) : Document (u ++ (c ++ '\n' :: w)) f ↔ Document (u ++ w) f := by
  have hu' : newlines u = [] ∨ (newlines u).getLast? = some '\n' := by
    rcases hu with rfl | hu
    · exact .inl rfl
    · exact .inr (newlines_last hu)
  have e1 : splitLines (newlines (u ++ (c ++ '\n' :: w))) =
      splitLines (newlines u) ++ c :: splitLines (newlines w) := by
    rw [newlines_end hu, newlines_append hr, newlines_cons (by decide), splitLines_end hu', splitLines_line hn]
  have e2 : splitLines (newlines (u ++ w)) = splitLines (newlines u) ++ splitLines (newlines w) := by
    rw [newlines_end hu, splitLines_end hu']
  have key : ∀ raw, Parsed (splitLines (newlines u) ++ c :: splitLines (newlines w)) raw ↔
      Parsed (splitLines (newlines u) ++ splitLines (newlines w)) raw := fun raw => (free_comment hc _ _).1 [] raw
  unfold Document
  simp only [lines_iff, e1, e2]
  constructor
  · rintro ⟨_, raw, rfl, hp, hf⟩
    exact ⟨_, raw, rfl, (key raw).1 hp, hf⟩
  · rintro ⟨_, raw, rfl, hp, hf⟩
    exact ⟨_, raw, rfl, (key raw).2 hp, hf⟩

/-! ### Writing a file -/

/-- A text in one line. -/
def OneLine (s : Text) : Prop := '\n' ∉ s ∧ '\r' ∉ s

/-- A name of an option that can be written. -/
def OptionName (o : Text) : Prop :=
  o ≠ [] ∧ OneLine o ∧ Trim o ∧ (∀ c ∈ o, ¬ Delim c) ∧ ∀ c, o.head? = some c → c ≠ '#' ∧ c ≠ ';' ∧ c ≠ '['

/-- The lines of a file: `[section]` and `option = value`. -/
def writeLines (f : IniFile) : List Text :=
  f.flatMap fun s => ('[' :: (s.1 ++ [']'])) :: s.2.map fun o => o.1 ++ (" = ".toList ++ o.2)

/-- The text of a file. -/
def writeText (f : IniFile) : Text := (writeLines f).flatMap fun l => l ++ ['\n']

theorem option_line {o v : Text} (ho : OptionName o) (hv : Trim v) : ∃ s, Line (o ++ (" = ".toList ++ v)) 0 s ∧
    ¬ Comment (o ++ (" = ".toList ++ v)) ∧ (∀ name, ¬ Header s name) ∧ Setting s o v := by
  obtain ⟨hne, -, ht, hd, hh⟩ := ho
  have e : " = ".toList = [' ', '=', ' '] := rfl
  have hsp : White ' ' := (isSpace_iff _).1 (by decide)
  have hone : Blank [' '] := by intro c hc; simp only [List.mem_singleton] at hc; rw [hc]; exact hsp
  obtain ⟨x, o', rfl⟩ : ∃ x o', o = x :: o' := by
    cases o with
    | nil => exact absurd rfl hne
    | cons x o' => exact ⟨x, o', rfl⟩
  obtain ⟨h1, h2, h3⟩ := hh x rfl
  have key : ∀ s, Line ((x :: o') ++ (" = ".toList ++ v)) 0 s → Setting s (x :: o') v →
      ∃ s, Line ((x :: o') ++ (" = ".toList ++ v)) 0 s ∧ ¬ Comment ((x :: o') ++ (" = ".toList ++ v)) ∧
        (∀ name, ¬ Header s name) ∧ Setting s (x :: o') v := by
    intro s hl hs
    obtain ⟨a, d, b, c, rfl, hrest⟩ := hs
    refine ⟨_, hl, ?_, ?_, a, d, b, c, rfl, hrest⟩
    · rintro ⟨n', c', s', hl', hc'⟩
      have := (line_unique hl hl').2
      obtain rfl := (List.cons.inj this).1
      exact hc'.elim h1 h2
    · rintro name ⟨rest, e, -⟩
      exact h3 (List.cons.inj e).1
  by_cases hv0 : v = []
  · subst hv0
    refine key ((x :: o') ++ [' ', '=']) ⟨[], [' '], by rw [e]; simp, by simp [Blank], hone, rfl, ⟨?_, ?_⟩, by simp⟩
      ⟨[' '], '=', [], [], by simp, hone, by simp [Blank], by simp [Blank], .inl rfl, by simp, hd, ht, hv⟩
    · intro c hc; exact ht.1 c (by simpa using hc)
    · intro c hc
      simp only [List.cons_append, List.getLast?_cons, List.getLast?_append, Option.some.injEq] at hc
      simp only [List.getLast?_nil, Option.getD_none, Option.some_or, Option.getD_some] at hc
      rw [← hc, ← isSpace_iff]; decide
  · refine key ((x :: o') ++ ([' ', '=', ' '] ++ v)) ⟨[], [], by rw [e]; simp, by simp [Blank], by simp [Blank], rfl, ⟨?_, ?_⟩,
      by simp⟩ ⟨[' '], '=', [' '], [], by simp, hone, hone, by simp [Blank], .inl rfl, by simp, hd, ht, hv⟩
    · intro c hc; exact ht.1 c (by simpa using hc)
    · intro c hc
      refine hv.2 c ?_
      rw [← List.append_assoc, List.getLast?_append] at hc
      cases hl : v.getLast? with
      | none => exact absurd (List.getLast?_eq_none_iff.1 hl) hv0
      | some y => rw [hl] at hc; simpa using hc

theorem header_line {name : Text} (hn : name ≠ []) : Line ('[' :: (name ++ [']'])) 0 ('[' :: (name ++ [']'])) ∧
    Header ('[' :: (name ++ [']'])) name := by
  refine ⟨⟨[], [], by simp, by simp [Blank], by simp [Blank], rfl, ⟨?_, ?_⟩, by simp⟩, [], rfl, hn, by simp⟩
  · intro c hc
    simp only [List.head?_cons, Option.some.injEq] at hc
    rw [← hc, ← isSpace_iff]; decide
  · intro c hc
    rw [List.getLast?_cons, List.getLast?_append] at hc
    simp only [List.getLast?_singleton, Option.some_or, Option.getD_some, Option.some.injEq] at hc
    rw [← hc, ← isSpace_iff]; decide

theorem body_opts {rest : List Text} {f : RawFile} (hr : Body (some 0) rest [] f) : ∀ (opts : List (Text × Text)) (b : Option Nat),
    (opts = [] → Body b rest [] f) → (∀ o ∈ opts, OptionName o.1 ∧ Trim o.2) →
    Body b (opts.map (fun o => o.1 ++ (" = ".toList ++ o.2)) ++ rest) (opts.map fun o => (o.1, [o.2])) f
  | [], b, h0, _ => h0 rfl
  | (o, v) :: opts, b, _, h => by
    obtain ⟨ho, hv⟩ := h (o, v) (by simp)
    obtain ⟨s, hl, hc, hh, hs⟩ := option_line ho hv
    have ih := body_opts hr opts (some 0) (fun _ => hr) (fun x hx => h x (by simp [hx]))
    have := Body.option (b := b) (vs := []) (ts := []) hl hc (fun _ _ => Nat.zero_le _) hh hs .nil ih
    simpa using this

theorem body_file : ∀ (f : IniFile), (∀ s ∈ f, s.1 ≠ [] ∧ ∀ o ∈ s.2, OptionName o.1 ∧ Trim o.2) → ∀ b,
    Body b (writeLines f) [] (f.map fun s => (s.1, s.2.map fun o => (o.1, [o.2])))
  | [], _, b => .done b
  | (name, opts) :: f, h, b => by
    obtain ⟨hn, ho⟩ := h (name, opts) (by simp)
    obtain ⟨hl, hh⟩ := header_line hn
    have ih := body_file f fun s hs => h s (by simp [hs])
    have := Body.header (b := b) (sk := []) hl (fun _ _ => Nat.zero_le _) hh (by simp [Skip])
      (body_opts (ih _) opts none (fun _ => ih _) ho)
    simpa [writeLines] using this

theorem lines_write : ∀ ls : List Text, (∀ l ∈ ls, OneLine l) → Lines (ls.flatMap fun l => l ++ ['\n']) ls
  | [], _ => .nil
  | l :: ls, h => by
    have := Lines.lf (h l (by simp)).1 (h l (by simp)).2 (lines_write ls fun x hx => h x (by simp [hx]))
    simpa using this

/-- C81: a file that is written as `[section]` and `option = value` is read back. -/
theorem C81_written (f : IniFile) (hs : ∀ s ∈ f, s.1 ≠ [] ∧ OneLine s.1)
    (ho : ∀ s ∈ f, ∀ o ∈ s.2, OptionName o.1 ∧ OneLine o.2 ∧ Trim o.2) : Document (writeText f) f := by
  refine ⟨writeLines f, f.map fun s => (s.1, s.2.map fun o => (o.1, [o.2])), lines_write _ ?_, ?_, ?_⟩
  · intro l hl
    obtain ⟨s, hsm, hl⟩ := List.mem_flatMap.1 hl
    rcases List.mem_cons.1 hl with rfl | hl
    · have := (hs s hsm).2
      exact ⟨by simpa using this.1, by simpa using this.2⟩
    · obtain ⟨o, hom, rfl⟩ := List.mem_map.1 hl
      obtain ⟨h1, h2, -⟩ := ho s hsm o hom
      have e : " = ".toList = [' ', '=', ' '] := rfl
      rw [e]
      exact ⟨by simpa using ⟨h1.2.1.1, h2.1⟩, by simpa using ⟨h1.2.1.2, h2.2⟩⟩
  · exact ⟨[], _, rfl, by simp [Skip], body_file f (fun s hsm => ⟨(hs s hsm).1, fun o hom =>
      ⟨(ho s hsm o hom).1, (ho s hsm o hom).2.2⟩⟩) none⟩
  · rw [textFile_iff, textFile, List.map_map]
    refine (List.map_id f).symm.trans (List.map_congr_left fun s hsm => ?_)
    refine Prod.ext rfl ?_
    show s.2 = textOpts (s.2.map fun o => (o.1, [o.2]))
    rw [textOpts, List.map_map]
    refine (List.map_id s.2).symm.trans (List.map_congr_left fun o hom => ?_)
    refine Prod.ext rfl ?_
    show o.2 = rstrip o.2
    have := rstrip_white (b := []) (s := o.2) (by simp [Blank]) (ho s hsm o hom).2.2.2
    rw [List.append_nil] at this
    exact this.symm

/-! ### Examples -/

namespace IniEx

def cfg1 : Cfg Unit :=
  [("remote".toList, [("host".toList, .str "::".toList), ("port".toList, .int 54322)]),
    ("tls".toList, [("enable".toList, .bool true), ("ca_file".toList, .str [])]),
    ("handlers".toList, [("keys".toList, .str "logfile".toList)])]

/-- A file with comments, another delimiter, spaces, CR LF. -/
def text1 : String := "# SPDX\n\n[tls]\r\nEnable : false\n  ; indented comment\n[remote]\nport=80\n\n[handlers]\nkeys =\n  stderr\n\n  logfile"

example : loadTexts (fun _ => none) cfg1 [none, some text1.toList] = (none,
    [("remote".toList, [("host".toList, .str "::".toList), ("port".toList, .int 80)]),
      ("tls".toList, [("enable".toList, .bool false), ("ca_file".toList, .str [])]),
      ("handlers".toList, [("keys".toList, .str "\nstderr\n\nlogfile".toList)])]) := by decide +kernel

/-- Texts without a meaning. -/
example : ∀ t ∈ ["port = 80\n", "[remote\n", "[remote]\nport\n", "[remote]\n= 80\n", "[]\n", "[a]\n[a]\n",
    "[a]\nx = 1\nX = 2\n"], (loadTexts (fun _ => none) cfg1 [some t.toList]).1.isSome = true := by decide +kernel

/-- A file that is written and read back. -/
example : Document "[remote]\nport = 80\nhost = \n".toList
    [("remote".toList, [("port".toList, "80".toList), ("host".toList, [])])] := by
  have h : ∀ c : Char, White c ↔ isSpace c = true := fun c => (isSpace_iff c).symm
  have := C81_written [("remote".toList, [("port".toList, "80".toList), ("host".toList, [])])] (by simp [OneLine])
    (by
      intro s hs o ho
      simp only [List.mem_singleton] at hs
      subst hs
      simp only [List.mem_cons, List.not_mem_nil, or_false] at ho
      rcases ho with rfl | rfl
      · simp [OptionName, OneLine, Trim, h, Delim]; decide
      · simp [OptionName, OneLine, Trim, h, Delim]; decide)
  exact this

/-- The file of the container, `container/conf.d/daemon.conf`. -/
def container : String := "# SPDX-FileCopyrightText: 2022 Red Hat, Inc.\n# SPDX-License-Identifier: GPL-2.0-or-later\n\n[daemon]\nsystemd_enable = false\ndrop_privileges = false\n\n[tls]\nenable = false\n\n[control]\nenable = false\n\n[remote]\nport = 80\n\n[local]\nenable = false\n\n[handlers]\nkeys = stderr\n\n[logger_root]\nlevel = INFO\nhandlers = stderr\n"

example : loadTexts (fun _ => none) cfg1 [some container.toList] = (none,
    [("remote".toList, [("host".toList, .str "::".toList), ("port".toList, .int 80)]),
      ("tls".toList, [("enable".toList, .bool false), ("ca_file".toList, .str [])]),
      ("handlers".toList, [("keys".toList, .str "stderr".toList)])]) := by decide +kernel

/-- A comment that says nothing. -/
example (f : IniFile) : Document "[tls]\n  # x = 1\nenable = true\n".toList f ↔ Document "[tls]\nenable = true\n".toList f :=
  C81_comments (u := "[tls]\n".toList) (c := "  # x = 1".toList) (w := "enable = true\n".toList) (.inr rfl)
    ⟨2, '#', " x = 1".toList, (line_iff _ _ _).2 (by decide), .inl rfl⟩ (by decide) (by decide) f

end IniEx

/-- C81 is not all that one may expect of a configuration file: an option with a deeper indentation than the option before is part
of the value before, without an error. -/
theorem C81_counterexample_indented :
    loadTexts (fun _ => none) IniEx.cfg1 [some "[remote]\nhost = ::1\n  port = 80\n".toList] = (none,
      [("remote".toList, [("host".toList, .str "::1\nport = 80".toList), ("port".toList, .int 54322)]),
        ("tls".toList, [("enable".toList, .bool true), ("ca_file".toList, .str [])]),
        ("handlers".toList, [("keys".toList, .str "logfile".toList)])]) := by decide +kernel

/-- A comment after a value is part of the value. -/
theorem C81_counterexample_inline :
    loadTexts (fun _ => none) IniEx.cfg1 [some "[tls]\nca_file = /ca.pem # CA\n".toList] = (none,
      [("remote".toList, [("host".toList, .str "::".toList), ("port".toList, .int 54322)]),
        ("tls".toList, [("enable".toList, .bool true), ("ca_file".toList, .str "/ca.pem # CA".toList)]),
        ("handlers".toList, [("keys".toList, .str "logfile".toList)])]) := by decide +kernel

end Imageio.Props
