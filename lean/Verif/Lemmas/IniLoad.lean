import Verif.Lemmas.IniRead

/-! Lemmas about `Model/Ini`: reading texts is reading the files of `Model/Config`. -/
namespace Imageio.Ini
open Imageio.Http Imageio.Config Imageio.Spec.Ini

/-! ### One meaning -/

theorem free_unique : ∀ ls : List Str,
    (∀ opts opts' f f', Free ls opts f → Free ls opts' f' → opts = opts' ∧ f = f') ∧
    ∀ k t t' opts opts' f f', Open k ls t opts f → Open k ls t' opts' f' → t = t' ∧ opts = opts' ∧ f = f'
  | [] => by
    refine ⟨fun opts opts' f f' h h' => ?_, fun k t t' opts opts' f f' h h' => ?_⟩
    · rw [free_nil] at h h'
      obtain ⟨rfl, rfl⟩ := h
      obtain ⟨rfl, rfl⟩ := h'
      exact ⟨rfl, rfl⟩
    · rw [open_nil] at h h'
      obtain ⟨rfl, rfl, rfl⟩ := h
      obtain ⟨rfl, rfl, rfl⟩ := h'
      exact ⟨rfl, rfl, rfl⟩
  | l :: ls => by
    obtain ⟨ih1, ih2⟩ := free_unique ls
    have hbegin : ¬ Blank l → ¬ Comment l → ∀ opts opts' f f', Free (l :: ls) opts f → Free (l :: ls) opts' f' →
        opts = opts' ∧ f = f' := by
      intro hbl hc opts opts' f f' h h'
      have hl := line_strip (mt (strip_nil l).1 hbl)
      cases hh : header (strip l) with
      | some name =>
        rw [free_header hl ((header_iff _ _).1 hh)] at h h'
        obtain ⟨rfl, o1, f1, rfl, h⟩ := h
        obtain ⟨rfl, o2, f2, rfl, h'⟩ := h'
        obtain ⟨rfl, rfl⟩ := ih1 _ _ _ _ h h'
        exact ⟨rfl, rfl⟩
      | none =>
        have hn : ∀ name, ¬ Header (strip l) name := fun name h => by
          rw [← header_iff, hh] at h; cases h
        by_cases hset : ∃ o v, Setting (strip l) o v
        · obtain ⟨o, v, hset⟩ := hset
          rw [free_option hl hc hn hset] at h h'
          obtain ⟨t1, o1, rfl, h⟩ := h
          obtain ⟨t2, o2, rfl, h'⟩ := h'
          obtain ⟨rfl, rfl, rfl⟩ := ih2 _ _ _ _ _ _ _ h h'
          exact ⟨rfl, rfl⟩
        · exact absurd h (free_bad hl hc hn fun o v hx => hset ⟨o, v, hx⟩)
    by_cases hc : Comment l
    · refine ⟨fun opts opts' f f' h h' => ?_, fun k t t' opts opts' f f' h h' => ?_⟩
      · rw [free_skip (.inr hc)] at h h'
        exact ih1 _ _ _ _ h h'
      · rw [open_comment hc] at h h'
        exact ih2 _ _ _ _ _ _ _ h h'
    · by_cases hbl : Blank l
      · refine ⟨fun opts opts' f f' h h' => ?_, fun k t t' opts opts' f f' h h' => ?_⟩
        · rw [free_skip (.inl hbl)] at h h'
          exact ih1 _ _ _ _ h h'
        · rw [open_blank hbl] at h h'
          obtain ⟨t1, rfl, h⟩ := h
          obtain ⟨t2, rfl, h'⟩ := h'
          obtain ⟨rfl, rfl, rfl⟩ := ih2 _ _ _ _ _ _ _ h h'
          exact ⟨rfl, rfl, rfl⟩
      · refine ⟨hbegin hbl hc, fun k t t' opts opts' f f' h h' => ?_⟩
        have hl := line_strip (mt (strip_nil l).1 hbl)
        by_cases hi : k < (l.takeWhile isSpace).length
        · rw [open_more hl hc hi] at h h'
          obtain ⟨t1, rfl, h⟩ := h
          obtain ⟨t2, rfl, h'⟩ := h'
          obtain ⟨rfl, rfl, rfl⟩ := ih2 _ _ _ _ _ _ _ h h'
          exact ⟨rfl, rfl, rfl⟩
        · rw [open_next hl hc (Nat.le_of_not_lt hi)] at h h'
          obtain ⟨rfl, h⟩ := h
          obtain ⟨rfl, h'⟩ := h'
          obtain ⟨rfl, rfl⟩ := hbegin hbl hc _ _ _ _ h h'
          exact ⟨rfl, rfl, rfl⟩

/-! ### Values -/

/-- The options with the texts of their values. -/
def textOpts (opts : List (Str × List Str)) : List (Str × Str) := opts.map fun o => (o.1, (RawVal.lines o.2).join)

/-- The sections with the texts of the values. -/
def textFile (f : RawFile) : File := f.map fun s => (s.1, textOpts s.2)

theorem textFile_iff (raw : RawFile) (f : IniFile) :
    List.Forall₂ (fun s s' => s.1 = s'.1 ∧ List.Forall₂ (fun o o' => o.1 = o'.1 ∧ ValueText o.2 o'.2) s.2 s'.2) raw f ↔
      f = textFile raw := by
  have hopts : ∀ (a : List (Str × List Str)) (b : List (Str × Str)),
      List.Forall₂ (fun o o' => o.1 = o'.1 ∧ ValueText o.2 o'.2) a b ↔ b = textOpts a := by
    intro a
    induction a with
    | nil => intro b; simp [textOpts]
    | cons x a ih =>
      intro b
      cases b with
      | nil => simp [textOpts]
      | cons y b =>
        rw [List.forall₂_cons, ih, valueText_iff]
        obtain ⟨y1, y2⟩ := y
        simp only [textOpts, List.map_cons, List.cons.injEq, Prod.mk.injEq]
        constructor
        · rintro ⟨⟨rfl, rfl⟩, h⟩; exact ⟨⟨rfl, rfl⟩, h⟩
        · rintro ⟨⟨rfl, rfl⟩, h⟩; exact ⟨⟨rfl, rfl⟩, h⟩
  revert f
  induction raw with
  | nil => intro f; simp [textFile]
  | cons x a ih =>
    intro b
    cases b with
    | nil => simp [textFile]
    | cons y b =>
      rw [List.forall₂_cons]
      refine Iff.trans (and_congr (and_congr Iff.rfl (hopts _ _)) (ih b)) ?_
      obtain ⟨y1, y2⟩ := y
      simp only [textFile, List.map_cons, List.cons.injEq, Prod.mk.injEq]
      constructor
      · rintro ⟨⟨rfl, rfl⟩, h⟩; exact ⟨⟨rfl, rfl⟩, h⟩
      · rintro ⟨⟨rfl, rfl⟩, h⟩; exact ⟨⟨rfl, rfl⟩, h⟩

theorem values_defaults (p : RawParser) {sec : Str} (h : sec = defaultSect) (k : Str) (v : RawVal) :
    (p.set sec k v).values = { p.values with defaults := setKey p.values.defaults k v.join } := by
  unfold RawParser.set RawParser.values setKey
  rw [if_pos h]
  simp only [Parser.mk.injEq, true_and]
  funext x
  split <;> rfl

theorem values_section (p : RawParser) {sec : Str} (h : sec ≠ defaultSect) (k : Str) (v : RawVal) :
    (p.set sec k v).values = { p.values with
      sections := fun s => if s = sec then some (setKey ((p.values.sections sec).getD fun _ => none) k v.join)
        else p.values.sections s } := by
  unfold RawParser.set RawParser.values setKey RawParser.dict
  rw [if_neg h]
  simp only [Parser.mk.injEq, and_true, if_neg h]
  funext s
  by_cases hs : s = sec
  · simp only [hs, if_true, Option.map_some, Option.some.injEq]
    funext x
    split
    · rfl
    · cases p.sections sec <;> rfl
  · simp only [hs, if_false]

theorem addOpts_default {sec : Str} (h : sec = defaultSect) : ∀ (opts : List (Str × List Str)) (seen : List (Str × Str))
    (p : RawParser), (addOpts sec opts seen p).map (fun x => (x.1, x.2.values)) =
      (readOptions sec (textOpts opts) seen p.values.defaults).map fun x => (x.1, { p.values with defaults := x.2 })
  | [], seen, p => rfl
  | (o, ts) :: opts, seen, p => by
    simp only [addOpts, textOpts, List.map_cons, readOptions]
    split
    · rfl
    · have := addOpts_default h opts ((sec, keywordMapping o) :: seen) (p.set sec (keywordMapping o) (.lines ts))
      rw [this, values_defaults p h]
      rfl

theorem addOpts_section {sec : Str} (h : sec ≠ defaultSect) : ∀ (opts : List (Str × List Str)) (seen : List (Str × Str))
    (p : RawParser) (d : Str → Option Str), p.values.sections sec = some d →
      (addOpts sec opts seen p).map (fun x => (x.1, x.2.values)) =
      (readOptions sec (textOpts opts) seen d).map fun x =>
        (x.1, { p.values with sections := fun s => if s = sec then some x.2 else p.values.sections s })
  | [], seen, p, d, hd => by
    simp only [addOpts, textOpts, List.map_nil, readOptions, Option.map_some, Option.some.injEq, Prod.mk.injEq, true_and]
    have : p.values.sections = fun s => if s = sec then some d else p.values.sections s := by
      funext s
      split
      · rename_i e; rw [e]; exact hd
      · rfl
    rw [← this]
  | (o, ts) :: opts, seen, p, d, hd => by
    simp only [addOpts, textOpts, List.map_cons, readOptions]
    split
    · rfl
    · have := addOpts_section h opts ((sec, keywordMapping o) :: seen) (p.set sec (keywordMapping o) (.lines ts))
        (setKey d (keywordMapping o) (RawVal.lines ts).join) (by rw [values_section p h, hd]; simp)
      rw [this, values_section p h]
      simp only [textOpts]
      congr 1
      funext x
      simp only [Prod.mk.injEq, true_and, Parser.mk.injEq, and_true]
      funext s
      split <;> rfl

theorem values_addSection (p : RawParser) {sec : Str} (h : sec ≠ defaultSect) : (addSection p sec).values =
    { p.values with sections := fun s => if s = sec then some ((p.values.sections sec).getD fun _ => none)
      else p.values.sections s } := by
  unfold addSection RawParser.values RawParser.dict
  simp only [Parser.mk.injEq, and_true, if_neg h]
  funext s
  by_cases hs : s = sec
  · simp only [hs, if_true, Option.map_some, Option.some.injEq]
    funext x
    cases p.sections sec <;> rfl
  · simp only [hs, if_false]

theorem addFile_values : ∀ (f : RawFile) (names : List Str) (seen : List (Str × Str)) (p : RawParser),
    (addFile f names seen p).map RawParser.values = readSections (textFile f) names seen p.values
  | [], names, seen, p => rfl
  | (sec, opts) :: f, names, seen, p => by
    simp only [addFile, textFile, List.map_cons, readSections]
    by_cases h : sec = defaultSect
    · rw [if_pos h, if_pos h]
      have h1 := addOpts_default h opts seen p
      cases ha : addOpts sec opts seen p with
      | none =>
        rw [ha] at h1
        cases hr : readOptions sec (textOpts opts) seen p.values.defaults with
        | none => rfl
        | some x => rw [hr] at h1; simp at h1
      | some x =>
        rw [ha] at h1
        cases hr : readOptions sec (textOpts opts) seen p.values.defaults with
        | none => rw [hr] at h1; simp at h1
        | some y =>
          rw [hr] at h1
          simp only [Option.map_some, Option.some.injEq, Prod.mk.injEq] at h1
          rw [Option.bind_some, addFile_values f names x.1 x.2, h1.1, h1.2]
          rfl
    · rw [if_neg h, if_neg h]
      split
      · rfl
      · have h1 := addOpts_section h opts seen (addSection p sec) ((p.values.sections sec).getD fun _ => none)
          (by rw [values_addSection p h]; simp)
        cases ha : addOpts sec opts seen (addSection p sec) with
        | none =>
          rw [ha] at h1
          cases hr : readOptions sec (textOpts opts) seen ((p.values.sections sec).getD fun _ => none) with
          | none => rfl
          | some x => rw [hr] at h1; simp at h1
        | some x =>
          rw [ha] at h1
          cases hr : readOptions sec (textOpts opts) seen ((p.values.sections sec).getD fun _ => none) with
          | none => rw [hr] at h1; simp at h1
          | some y =>
            rw [hr] at h1
            simp only [Option.map_some, Option.some.injEq, Prod.mk.injEq] at h1
            rw [Option.bind_some, addFile_values f (sec :: names) x.1 x.2, h1.1, h1.2, values_addSection p h]
            simp only [textFile]
            congr 2
            funext s
            split <;> rfl

theorem values_join (p : RawParser) : p.join.values = p.values := by
  unfold RawParser.join RawParser.values
  simp only [Option.map_map, Parser.mk.injEq]
  refine ⟨?_, ?_⟩
  · funext s
    cases p.sections s with
    | none => rfl
    | some d =>
      simp only [Option.map_some, Option.some.injEq, Function.comp_apply]
      funext k
      cases d k <;> rfl
  · funext k
    cases p.defaults k <;> rfl

/-- Reading a text is reading its sections and options. -/
theorem readText_iff (t : Str) (p : RawParser) (v : Parser) : (∃ q, readText t p = .ok q ∧ q.values = v) ↔
    ∃ f, Document t f ∧ readSections f [] [] p.values = some v := by
  have h1 : (∃ q, readText t p = .ok q ∧ q.values = v) ↔
      ∃ q, Done (splitLines (newlines t)) ⟨p, [], [], none, [], 0, false⟩ q ∧ q.values = v := by
    unfold readText Done
    constructor
    · rintro ⟨q, h, hv⟩
      cases hr : run (splitLines (newlines t)) ⟨p, [], [], none, [], 0, false⟩ with
      | error e => rw [hr] at h; cases h
      | ok r =>
        rw [hr] at h
        dsimp only at h
        split at h
        · cases h
        · rename_i hb
          cases h
          exact ⟨r.p, ⟨r, rfl, by simpa using hb, rfl⟩, by rw [← hv, values_join]⟩
    · rintro ⟨q, ⟨r, hr, hb, rfl⟩, hv⟩
      rw [hr]
      exact ⟨r.p.join, by simp [hb], by rw [values_join, hv]⟩
  rw [h1]
  constructor
  · rintro ⟨q, hd, rfl⟩
    obtain ⟨raw, hp, ha⟩ := (done_iff _ _ q rfl rfl rfl).1 hd
    refine ⟨textFile raw, ⟨_, raw, (lines_iff _ _).2 rfl, hp, (textFile_iff _ _).2 rfl⟩, ?_⟩
    rw [← addFile_values, ha]; rfl
  · rintro ⟨f, ⟨ls, raw, hl, hp, hf⟩, hr⟩
    rw [textFile_iff] at hf
    subst hf
    rw [lines_iff] at hl
    subst hl
    rw [← addFile_values] at hr
    cases ha : addFile raw [] [] p with
    | none => rw [ha] at hr; cases hr
    | some q =>
      rw [ha] at hr
      exact ⟨q, (done_iff _ _ q rfl rfl rfl).2 ⟨raw, hp, ha⟩, by simpa using hr⟩

theorem document_unique {t : Str} {f f' : File} (h : Document t f) (h' : Document t f') : f = f' := by
  obtain ⟨ls, raw, hl, hp, hf⟩ := h
  obtain ⟨ls', raw', hl', hp', hf'⟩ := h'
  rw [lines_iff] at hl hl'
  obtain rfl := hl.symm.trans hl'
  rw [textFile_iff] at hf hf'
  have := ((free_unique ls).1 _ _ _ _ (show Free ls [] raw from hp) (show Free ls [] raw' from hp')).2
  rw [hf, hf', this]

theorem readTexts_iff : ∀ (texts : List (Option Str)) (p : RawParser) (v : Parser),
    (∃ q, readTexts texts p = .ok q ∧ q.values = v) ↔
      ∃ files, List.Forall₂ Document (texts.filterMap id) files ∧ readFiles files p.values = some v
  | [], p, v => by
    simp only [readTexts, Except.ok.injEq, List.filterMap_nil, List.forall₂_nil_left_iff]
    constructor
    · rintro ⟨q, rfl, rfl⟩; exact ⟨[], rfl, rfl⟩
    · rintro ⟨_, rfl, h⟩
      exact ⟨p, rfl, by simpa [readFiles] using h⟩
  | none :: r, p, v => by
    rw [readTexts, readTexts_iff r p v]
    simp
  | some t :: r, p, v => by
    rw [readTexts]
    constructor
    · rintro ⟨q, h, hv⟩
      cases ht : readText t p with
      | error e => rw [ht] at h; cases h
      | ok q1 =>
        rw [ht] at h
        obtain ⟨f, hf, h1⟩ := (readText_iff t p q1.values).1 ⟨q1, ht, rfl⟩
        obtain ⟨files, h2, h3⟩ := (readTexts_iff r q1 v).1 ⟨q, h, hv⟩
        refine ⟨f :: files, by simpa using ⟨hf, h2⟩, ?_⟩
        rw [readFiles, h1]
        exact h3
    · rintro ⟨files, h1, h2⟩
      simp only [id_eq] at h1
      obtain ⟨f, files', hf, hfs, rfl⟩ := List.forall₂_cons_left_iff.1 h1
      rw [readFiles] at h2
      cases hr : readSections f [] [] p.values with
      | none => rw [hr] at h2; cases h2
      | some v1 =>
        rw [hr] at h2
        obtain ⟨q1, hq1, hv1⟩ := (readText_iff t p v1).2 ⟨f, hf, hr⟩
        rw [hq1]
        subst hv1
        exact (readTexts_iff r q1 v).2 ⟨files', hfs, h2⟩

end Imageio.Ini
