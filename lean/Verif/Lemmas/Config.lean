import Mathlib.Data.List.Forall2
import Verif.Model.Config
import Verif.Spec.Config

/-! Lemmas about configuration files. -/
namespace Imageio.Config
open Imageio.Http Imageio.Spec.Config

/-- The value the parser holds for a mapped option name. -/
def Parser.val (p : Parser) (sec k : Str) : Option Str :=
  if sec = defaultSect then p.defaults k else ((p.sections sec).getD fun _ => none) k

theorem readOptions_seen {sec : Str} {l seen d seen' d'}
    (h : readOptions sec l seen d = some (seen', d')) :
    ∀ x, x ∈ seen' ↔ x ∈ seen ∨ ∃ o v, (o, v) ∈ l ∧ x = (sec, keywordMapping o) := by
  induction l generalizing seen d with
  | nil => simp [readOptions] at h; simp [h.1]
  | cons a r ih =>
    obtain ⟨o, v⟩ := a
    simp only [readOptions] at h
    split at h
    · cases h
    · intro x
      rw [ih h x]
      simp only [List.mem_cons]
      constructor
      · rintro ((rfl | h) | ⟨o', v', h, rfl⟩)
        · exact .inr ⟨o, v, .inl rfl, rfl⟩
        · exact .inl h
        · exact .inr ⟨o', v', .inr h, rfl⟩
      · rintro (h | ⟨o', v', h | h, rfl⟩)
        · exact .inl (.inr h)
        · cases h; exact .inl (.inl rfl)
        · exact .inr ⟨o', v', h, rfl⟩

theorem readOptions_val {sec : Str} {l seen d seen' d'}
    (h : readOptions sec l seen d = some (seen', d')) (k : Str) :
    (∀ o v, (o, v) ∈ l → keywordMapping o = k → (sec, k) ∉ seen ∧ d' k = some v) ∧
      ((∀ o v, (o, v) ∈ l → keywordMapping o ≠ k) → d' k = d k) := by
  induction l generalizing seen d with
  | nil => simp [readOptions] at h; simp [h.2]
  | cons a r ih =>
    obtain ⟨o, v⟩ := a
    simp only [readOptions] at h
    split at h
    · cases h
    · rename_i hs
      obtain ⟨h1, h2⟩ := ih h
      constructor
      · intro o' v' hm hk
        rcases List.mem_cons.1 hm with he | hm
        · cases he
          subst hk
          refine ⟨hs, ?_⟩
          rw [h2]
          · simp [setKey]
          · intro o'' v'' hm' hk'
            exact (h1 o'' v'' hm' hk').1 (by simp)
        · obtain ⟨ha, hb⟩ := h1 o' v' hm hk
          exact ⟨fun hc => ha (by simp [hc]), hb⟩
      · intro hn
        rw [h2 (fun o' v' hm => hn o' v' (by simp [hm]))]
        have := hn o v (by simp)
        simp [setKey, Ne.symm this]

theorem readOptions_some (sec : Str) (l seen d) :
    (∃ r, readOptions sec l seen d = some r) ↔
      (l.map fun o => (sec, keywordMapping o.1)).Nodup ∧
        ∀ o ∈ l, (sec, keywordMapping o.1) ∉ seen := by
  induction l generalizing seen d with
  | nil => simp [readOptions]
  | cons a r ih =>
    obtain ⟨o, v⟩ := a
    simp only [readOptions]
    split
    · rename_i hs
      simp [hs]
    · rename_i hs
      rw [ih]
      simp only [List.map_cons, List.nodup_cons, List.mem_map, not_exists, not_and, List.mem_cons,
        not_or]
      grind

theorem readSections_val {f names seen p p'} (h : readSections f names seen p = some p')
    (sec k : Str) :
    (∀ opts o v, (sec, opts) ∈ f → (o, v) ∈ opts → keywordMapping o = k →
        (sec, k) ∉ seen ∧ p'.val sec k = some v) ∧
      ((∀ opts o v, (sec, opts) ∈ f → (o, v) ∈ opts → keywordMapping o ≠ k) →
        p'.val sec k = p.val sec k) := by
  induction f generalizing names seen p with
  | nil => simp [readSections] at h; simp [h]
  | cons a r ih =>
    obtain ⟨s, opts⟩ := a
    -- both kinds of sections: the section read holds the new dictionary, others are kept
    have key : ∃ names' seen' d q,
        readOptions s opts seen (if s = defaultSect then p.defaults
          else (p.sections s).getD fun _ => none) = some (seen', d) ∧
        readSections r names' seen' q = some p' ∧
        (∀ x, q.val s x = d x) ∧ ∀ s', s' ≠ s → ∀ x, q.val s' x = p.val s' x := by
      simp only [readSections] at h
      split at h
      · rename_i hd
        rw [if_pos hd]
        split at h
        · cases h
        · rename_i seen' d hr
          refine ⟨_, _, d, _, hr, h, ?_, ?_⟩
          · intro x; simp [Parser.val, hd]
          · intro s' hs' x
            rw [hd] at hs'
            simp [Parser.val, hs']
      · rename_i hd
        split at h
        · cases h
        · rw [if_neg hd]
          split at h
          · cases h
          · rename_i seen' d hr
            refine ⟨_, _, d, _, hr, h, ?_, ?_⟩
            · intro x; simp [Parser.val, hd]
            · intro s' hs' x
              simp [Parser.val, hs']
    obtain ⟨names', seen', d, q, hr, hq, hv, ho⟩ := key
    obtain ⟨h1, h2⟩ := ih hq
    obtain ⟨g1, g2⟩ := readOptions_val hr k
    have gs := readOptions_seen hr
    have hbase : (if s = defaultSect then p.defaults
          else (p.sections s).getD fun _ => none) k = p.val s k := by
      unfold Parser.val
      split <;> rfl
    constructor
    · intro opts' o v hm hov hk
      rcases List.mem_cons.1 hm with he | hm
      · cases he
        obtain ⟨ha, hb⟩ := g1 o v hov hk
        refine ⟨ha, ?_⟩
        rw [h2, hv, hb]
        intro opts'' o' v' hm' hov' hk'
        refine (h1 opts'' o' v' hm' hov' hk').1 ((gs _).2 (.inr ⟨o, v, hov, by rw [hk]⟩))
      · obtain ⟨ha, hb⟩ := h1 opts' o v hm hov hk
        exact ⟨fun hc => ha ((gs _).2 (.inl hc)), hb⟩
    · intro hn
      rw [h2 (fun opts' o v hm => hn opts' o v (by simp [hm]))]
      by_cases hs : sec = s
      · subst hs
        rw [hv, g2 (fun o v hm => hn opts o v (by simp) hm), hbase]
      · exact ho sec hs k

theorem readSections_has {f names seen p p'} (h : readSections f names seen p = some p')
    (sec : Str) (hd : sec ≠ defaultSect) :
    (p'.sections sec).isSome ↔ (p.sections sec).isSome ∨ ∃ opts, (sec, opts) ∈ f := by
  induction f generalizing names seen p with
  | nil => simp [readSections] at h; simp [h]
  | cons a r ih =>
    obtain ⟨s, opts⟩ := a
    simp only [readSections] at h
    split at h
    · rename_i hs
      split at h
      · cases h
      · rw [ih h]
        have : sec ≠ s := by rw [hs]; exact hd
        simp [this]
    · split at h
      · cases h
      · split at h
        · cases h
        · rw [ih h]
          by_cases he : sec = s
          · simp [he]
          · simp [he]

theorem keys_cons (s : Str) (opts : List (Str × Str)) (r : File) (seen : List (Str × Str)) :
    (((s, opts) :: r).flatMap fun s => s.2.map fun o => (s.1, keywordMapping o.1)).Nodup ∧
        (∀ t ∈ (s, opts) :: r, ∀ o ∈ t.2, (t.1, keywordMapping o.1) ∉ seen) ↔
      ((opts.map fun o => (s, keywordMapping o.1)).Nodup ∧
        ∀ o ∈ opts, (s, keywordMapping o.1) ∉ seen) ∧
      (r.flatMap fun s => s.2.map fun o => (s.1, keywordMapping o.1)).Nodup ∧
        ∀ t ∈ r, ∀ o ∈ t.2, (t.1, keywordMapping o.1) ∉ seen ∧
          ∀ o' ∈ opts, (s, keywordMapping o'.1) ≠ (t.1, keywordMapping o.1) := by
  simp only [List.flatMap_cons, List.nodup_append, List.mem_cons, forall_eq_or_imp,
    List.mem_flatMap, List.mem_map]
  constructor
  · rintro ⟨⟨a, b, c⟩, d, e⟩
    exact ⟨⟨a, d⟩, b, fun t ht o ho => ⟨e t ht o ho, fun o' ho' =>
      c _ ⟨o', ho', rfl⟩ _ ⟨t, ht, o, ho, rfl⟩⟩⟩
  · rintro ⟨⟨a, d⟩, b, c⟩
    refine ⟨⟨a, b, ?_⟩, d, fun t ht o ho => (c t ht o ho).1⟩
    rintro _ ⟨o', ho', rfl⟩ _ ⟨t, ht, o, ho, rfl⟩
    exact (c t ht o ho).2 o' ho'

theorem seen_iff {sec : Str} {l seen d seen' d'}
    (h : readOptions sec l seen d = some (seen', d')) (r : File) :
    (∀ t ∈ r, ∀ o ∈ t.2, (t.1, keywordMapping o.1) ∉ seen') ↔
      ∀ t ∈ r, ∀ o ∈ t.2, (t.1, keywordMapping o.1) ∉ seen ∧
          ∀ o' ∈ l, (sec, keywordMapping o'.1) ≠ (t.1, keywordMapping o.1) := by
  have gs := readOptions_seen h
  constructor
  · intro hh t ht o ho
    have := hh t ht o ho
    rw [gs] at this
    exact ⟨fun hc => this (.inl hc), fun o' ho' he => this (.inr ⟨o'.1, o'.2, ho', he.symm⟩)⟩
  · intro hh t ht o ho hc
    rcases (gs _).1 hc with hc | ⟨o', v', hm, he⟩
    · exact (hh t ht o ho).1 hc
    · exact (hh t ht o ho).2 _ hm he.symm

theorem readSections_some (f names seen p) :
    (∃ r, readSections f names seen p = some r) ↔
      (((f.map (·.1)).filter (· ≠ defaultSect)).Nodup ∧
        ∀ s ∈ f, s.1 ≠ defaultSect → s.1 ∉ names) ∧
      (f.flatMap fun s => s.2.map fun o => (s.1, keywordMapping o.1)).Nodup ∧
        ∀ s ∈ f, ∀ o ∈ s.2, (s.1, keywordMapping o.1) ∉ seen := by
  induction f generalizing names seen p with
  | nil => simp [readSections]
  | cons a r ih =>
    obtain ⟨s, opts⟩ := a
    rw [keys_cons]
    simp only [readSections]
    have hro : ∀ d, (∃ x, readOptions s opts seen d = some x) ↔ _ :=
      fun d => readOptions_some s opts seen d
    split
    · rename_i hd
      have h1 := hro p.defaults
      have hn : ((((s, opts) :: r).map (·.1)).filter (· ≠ defaultSect)).Nodup ∧
          (∀ t ∈ (s, opts) :: r, t.1 ≠ defaultSect → t.1 ∉ names) ↔
          ((r.map (·.1)).filter (· ≠ defaultSect)).Nodup ∧
          (∀ t ∈ r, t.1 ≠ defaultSect → t.1 ∉ names) := by
        rw [List.map_cons, List.filter_cons_of_neg (by simp [hd])]
        simp only [List.mem_cons, forall_eq_or_imp, ne_eq, hd, not_true_eq_false,
          false_implies, true_and]
      cases hr : readOptions s opts seen p.defaults with
      | none =>
        rw [hr] at h1
        rw [← h1]
        simp
      | some x =>
        obtain ⟨seen', d⟩ := x
        rw [hr] at h1
        have h2 := h1.1 ⟨_, rfl⟩
        simp only
        rw [ih, hn, seen_iff hr]
        exact ⟨fun h => ⟨h.1, ⟨h2.1, h2.2⟩, h.2⟩, fun h => ⟨h.1, h.2.2⟩⟩
    · rename_i hd
      split
      · rename_i hn
        simp [hn, hd]
      · rename_i hnm
        have h1 := hro ((p.sections s).getD fun _ => none)
        have hn : ((((s, opts) :: r).map (·.1)).filter (· ≠ defaultSect)).Nodup ∧
            (∀ t ∈ (s, opts) :: r, t.1 ≠ defaultSect → t.1 ∉ names) ↔
            ((r.map (·.1)).filter (· ≠ defaultSect)).Nodup ∧
            (∀ t ∈ r, t.1 ≠ defaultSect → t.1 ∉ s :: names) := by
          rw [List.map_cons, List.filter_cons_of_pos (by simp [hd]), List.nodup_cons]
          simp only [List.mem_cons, forall_eq_or_imp, not_or, List.mem_filter, List.mem_map]
          constructor
          · rintro ⟨⟨a, b⟩, -, c⟩
            refine ⟨b, fun t ht htd => ⟨?_, c t ht htd⟩⟩
            rintro rfl
            exact a ⟨⟨t, ht, rfl⟩, by simpa using htd⟩
          · rintro ⟨b, c⟩
            refine ⟨⟨?_, b⟩, fun _ => hnm, fun t ht htd => (c t ht htd).2⟩
            rintro ⟨⟨t, ht, rfl⟩, htd⟩
            exact (c t ht (by simpa using htd)).1 rfl
        cases hr : readOptions s opts seen ((p.sections s).getD fun _ => none) with
        | none =>
          rw [hr] at h1
          rw [← h1]
          simp
        | some x =>
          obtain ⟨seen', d⟩ := x
          rw [hr] at h1
          have h2 := h1.1 ⟨_, rfl⟩
          simp only
          rw [ih, hn, seen_iff hr]
          exact ⟨fun h => ⟨h.1, ⟨h2.1, h2.2⟩, h.2⟩, fun h => ⟨h.1, h.2.2⟩⟩

/-! ### Lists of files -/

abbrev km := keywordMapping

theorem last_or_unset (files : List File) (sec opt : Str) :
    (∃ v, LastSets km files sec opt v) ∨ Unset km files sec opt := by
  induction files with
  | nil => exact .inr (by simp [Unset])
  | cons f r ih =>
    rcases ih with ⟨v, pre, g, post, rfl, hs, hu⟩ | hu
    · exact .inl ⟨v, f :: pre, g, post, rfl, hs, hu⟩
    · by_cases h : ∃ v, Sets km f sec opt v
      · obtain ⟨v, h⟩ := h
        exact .inl ⟨v, [], f, r, rfl, h, hu⟩
      · refine .inr ?_
        intro g hg v hv
        rcases List.mem_cons.1 hg with rfl | hg
        · exact h ⟨v, hv⟩
        · exact hu g hg v hv

theorem last_not_unset {files : List File} {sec opt v : Str} (h : LastSets km files sec opt v)
    (hu : Unset km files sec opt) : False := by
  obtain ⟨pre, f, post, rfl, hs, -⟩ := h
  exact hu f (by simp) v hs

theorem readFiles_unset {files p p'} (h : readFiles files p = some p') (sec opt : Str)
    (hu : Unset km files sec opt) : p'.val sec (km opt) = p.val sec (km opt) := by
  induction files generalizing p with
  | nil => simp [readFiles] at h; rw [h]
  | cons f r ih =>
    simp only [readFiles] at h
    split at h
    · cases h
    · rename_i q hq
      rw [ih h (fun g hg => hu g (by simp [hg]))]
      exact (readSections_val hq sec (km opt)).2 fun opts o v hm ho hk =>
        hu f (by simp) v ⟨opts, o, hm, ho, hk⟩

theorem readFiles_last {files p p'} (h : readFiles files p = some p') {sec opt v : Str}
    (hl : LastSets km files sec opt v) : p'.val sec (km opt) = some v := by
  obtain ⟨pre, f, post, rfl, ⟨opts, o, hm, ho, hk⟩, hu⟩ := hl
  induction pre generalizing p with
  | nil =>
    simp only [List.nil_append, readFiles] at h
    split at h
    · cases h
    · rename_i q hq
      rw [readFiles_unset h sec opt hu]
      exact ((readSections_val hq sec (km opt)).1 opts o v hm ho hk).2
  | cons g pre ih =>
    simp only [List.cons_append, readFiles] at h
    split at h
    · cases h
    · exact ih h

theorem readFiles_has {files p p'} (h : readFiles files p = some p') (sec : Str)
    (hd : sec ≠ defaultSect) :
    (p'.sections sec).isSome ↔ (p.sections sec).isSome ∨ HasSection files sec := by
  induction files generalizing p with
  | nil => simp [readFiles] at h; simp [h, HasSection]
  | cons f r ih =>
    simp only [readFiles] at h
    split at h
    · cases h
    · rename_i q hq
      rw [ih h, readSections_has hq sec hd]
      simp only [HasSection, List.mem_cons, or_and_right, exists_or, exists_eq_left, or_assoc]

theorem readFiles_some (files p) :
    (∃ r, readFiles files p = some r) ↔ ∀ f ∈ files, Proper km f := by
  have key : ∀ f p, (∃ r, readSections f [] [] p = some r) ↔ Proper km f := by
    intro f p
    rw [readSections_some]
    constructor
    · rintro ⟨⟨a, -⟩, b, -⟩
      exact ⟨a, b⟩
    · rintro ⟨a, b⟩
      exact ⟨⟨a, by simp⟩, b, by simp⟩
  induction files generalizing p with
  | nil => simp [readFiles]
  | cons f r ih =>
    simp only [readFiles, List.mem_cons, forall_eq_or_imp]
    cases hf : readSections f [] [] p with
    | none =>
      have : ¬ Proper km f := by
        rw [← key f p, hf]
        simp
      simp [this]
    | some q =>
      have := (key f p).1 ⟨q, hf⟩
      simp only [this, true_and]
      exact ih q

/-- What the parser returns for the text in effect. -/
def Got.Is (files : List File) (sec : Str) : Option Str → Got → Prop
  | some v, g => g = .value v
  | none, g => g = .noOption ∨ g = .noSection ∧ ¬ HasSection files sec

theorem unset_of_no_section {files : List File} {sec : Str} (h : ¬ HasSection files sec)
    (opt : Str) : Unset km files sec opt := by
  rintro f hf v ⟨opts, o, hm, -⟩
  exact h ⟨f, hf, opts, hm⟩

/-- The parser finds the text in effect. -/
theorem get_effective {files p} (h : readFiles files Parser.empty = some p) {sec opt : Str}
    (hd : sec ≠ defaultSect) {t : Option Str} (he : Effective km files sec opt t) :
    Got.Is files sec t (p.get sec opt) := by
  have hhas := readFiles_has h sec hd
  simp only [Parser.empty, Option.isSome_none, Bool.false_eq_true, false_or] at hhas
  have hdef : ∀ k, p.val defaultSect k = p.defaults k := fun k => by simp [Parser.val]
  have hown : ∀ k, p.val sec k = ((p.sections sec).getD fun _ => none) k := fun k => by
    simp [Parser.val, hd]
  have hset : ∀ v, LastSets km files sec opt v → HasSection files sec := by
    rintro v ⟨pre, f, post, rfl, ⟨opts, o, hm, -⟩, -⟩
    exact ⟨f, by simp, opts, hm⟩
  have hun : Unset km files sec opt → ((p.sections sec).getD fun _ => none) (km opt) = none := by
    intro hu
    rw [← hown, readFiles_unset h sec opt hu]
    simp [Parser.val, hd, Parser.empty]
  cases he with
  | @own v hl =>
    have h1 := readFiles_last h hl
    obtain ⟨d, hs⟩ := Option.isSome_iff_exists.1 (hhas.2 (hset v hl))
    rw [hown, hs] at h1
    simp only [Option.getD_some] at h1
    simp only [Parser.get, hs, Got.Is]
    rw [show d (keywordMapping opt) = some v from h1]
  | @default v hu hs hl =>
    have h1 := readFiles_last h hl
    rw [show "DEFAULT".toList = defaultSect from rfl, hdef] at h1
    obtain ⟨d, hs⟩ := Option.isSome_iff_exists.1 (hhas.2 hs)
    have h0 := hun hu
    rw [hs] at h0
    simp only [Option.getD_some] at h0
    simp only [Parser.get, hs, Got.Is]
    rw [show d (keywordMapping opt) = none from h0,
      show p.defaults (keywordMapping opt) = some v from h1]
  | nothing hu hn =>
    cases hs : p.sections sec with
    | none =>
      refine .inr ⟨?_, ?_⟩
      · simp only [Parser.get, hs, if_neg hd]
      · rw [← hhas, hs]; simp
    | some d =>
      refine .inl ?_
      have hS : HasSection files sec := hhas.1 (by simp [hs])
      have hdn : Unset km files defaultSect opt := by
        rcases hn with hn | hn
        · exact absurd hS hn
        · exact hn
      have h1 := readFiles_unset h defaultSect opt hdn
      rw [hdef] at h1
      have h2 : Parser.empty.val defaultSect (km opt) = none := by
        simp [Parser.val, Parser.empty]
      rw [h2] at h1
      have h0 := hun hu
      rw [hs] at h0
      simp only [Option.getD_some] at h0
      simp only [Parser.get, hs]
      rw [show d (keywordMapping opt) = none from h0,
        show p.defaults (keywordMapping opt) = none from h1]

/-- Every option has exactly one text in effect, or none. -/
theorem effective_total (files : List File) (sec opt : Str) :
    ∃ t, Effective km files sec opt t := by
  rcases last_or_unset files sec opt with ⟨v, h⟩ | hu
  · exact ⟨_, .own h⟩
  · by_cases hs : HasSection files sec
    · rcases last_or_unset files "DEFAULT".toList opt with ⟨v, h⟩ | hd
      · exact ⟨_, .default hu hs h⟩
      · exact ⟨_, .nothing hu (.inr hd)⟩
    · exact ⟨_, .nothing hu (.inl hs)⟩

/-- An option after `load`: converted from the text in effect, or the default. -/
def Loaded {F : Type} (pf : Str → Option F) (files : List File) (sec opt : Str)
    (old new : Val F) : Prop :=
  ∃ t, Effective km files sec opt t ∧
    match t with
    | some s => convert pf old s = some new
    | none => new = old

theorem loadOptions_spec {F : Type} (pf : Str → Option F) {files p}
    (h : readFiles files Parser.empty = some p) {sec : Str} (hd : sec ≠ defaultSect)
    (opts : List (Str × Val F)) :
    List.Forall₂ (fun a b => a.1 = b.1 ∧ (Loaded pf files sec a.1 a.2 b.2 ∨ b.2 = a.2)) opts
      (loadOptions pf p sec opts).2 ∧
    ((loadOptions pf p sec opts).1 = false →
      List.Forall₂ (fun a b => a.1 = b.1 ∧ Loaded pf files sec a.1 a.2 b.2) opts
        (loadOptions pf p sec opts).2) ∧
    ((loadOptions pf p sec opts).1 = true ↔
      ∃ o ∈ opts, ∃ s, Effective km files sec o.1 (some s) ∧ convert pf o.2 s = none) := by
  have huniq : ∀ opt t t', Effective km files sec opt t → Effective km files sec opt t' →
      t = t' := by
    intro opt t t' h1 h2
    have g1 := get_effective h hd h1
    have g2 := get_effective h hd h2
    cases t <;> cases t' <;> simp only [Got.Is] at g1 g2
    · rfl
    · rw [g2] at g1; simp at g1
    · rw [g1] at g2; simp at g2
    · rw [g1] at g2; cases g2; rfl
  have hnosec : ¬ HasSection files sec → ∀ opt, Effective km files sec opt none :=
    fun hn opt => .nothing (unset_of_no_section hn opt) (.inl hn)
  induction opts with
  | nil => simp [loadOptions]
  | cons a r ih =>
    obtain ⟨o, v⟩ := a
    obtain ⟨t, ht⟩ := effective_total files sec o
    have hg := get_effective h hd ht
    cases t with
    | some s =>
      simp only [Got.Is] at hg
      simp only [loadOptions, hg]
      cases hc : convert pf v s with
      | none =>
        refine ⟨.cons ⟨rfl, .inr rfl⟩ ?_, by simp, ?_⟩
        · clear ih
          induction r with
          | nil => exact .nil
          | cons x xs ihx => exact .cons ⟨rfl, .inr rfl⟩ ihx
        · simp only [true_iff]
          exact ⟨(o, v), by simp, s, ht, hc⟩
      | some v' =>
        obtain ⟨i1, i2, i3⟩ := ih
        refine ⟨.cons ⟨rfl, .inl ⟨_, ht, hc⟩⟩ i1, fun hf => .cons ⟨rfl, _, ht, hc⟩ (i2 hf), ?_⟩
        simp only [i3, List.mem_cons, exists_eq_or_imp]
        constructor
        · exact .inr
        · rintro (⟨s', hs', hn⟩ | h)
          · cases huniq o _ _ ht hs'
            rw [hc] at hn
            cases hn
          · exact h
    | none =>
      rcases hg with hg | ⟨hg, hn⟩
      · obtain ⟨i1, i2, i3⟩ := ih
        simp only [loadOptions, hg]
        refine ⟨.cons ⟨rfl, .inr rfl⟩ i1, fun hf => .cons ⟨rfl, _, ht, rfl⟩ (i2 hf), ?_⟩
        simp only [i3, List.mem_cons, exists_eq_or_imp]
        constructor
        · exact .inr
        · rintro (⟨s', hs', hn⟩ | h)
          · cases huniq o _ _ ht hs'
          · exact h
      · simp only [loadOptions, hg]
        refine ⟨.cons ⟨rfl, .inr rfl⟩ ?_, fun _ => .cons ⟨rfl, _, ht, rfl⟩ ?_, ?_⟩
        · clear ih
          induction r with
          | nil => exact .nil
          | cons x xs ihx => exact .cons ⟨rfl, .inr rfl⟩ ihx
        · clear ih
          induction r with
          | nil => exact .nil
          | cons x xs ihx => exact .cons ⟨rfl, _, hnosec hn _, rfl⟩ ihx
        · simp only [Bool.false_eq_true, false_iff]
          rintro ⟨o', -, s, hs, -⟩
          cases huniq _ _ _ hs (hnosec hn _)

theorem loadSections_spec {F : Type} (pf : Str → Option F) {files p}
    (h : readFiles files Parser.empty = some p) (cfg : Cfg F)
    (hd : ∀ s ∈ cfg, s.1 ≠ defaultSect) :
    List.Forall₂ (fun s s' => s.1 = s'.1 ∧
      List.Forall₂ (fun a b => a.1 = b.1 ∧ (Loaded pf files s.1 a.1 a.2 b.2 ∨ b.2 = a.2)) s.2 s'.2)
      cfg (loadSections pf p cfg).2 ∧
    ((loadSections pf p cfg).1 = false →
      List.Forall₂ (fun s s' => s.1 = s'.1 ∧
        List.Forall₂ (fun a b => a.1 = b.1 ∧ Loaded pf files s.1 a.1 a.2 b.2) s.2 s'.2)
        cfg (loadSections pf p cfg).2) ∧
    ((loadSections pf p cfg).1 = true ↔
      ∃ s ∈ cfg, ∃ o ∈ s.2, ∃ t, Effective km files s.1 o.1 (some t) ∧ convert pf o.2 t = none) := by
  induction cfg with
  | nil => simp [loadSections]
  | cons a r ih =>
    obtain ⟨sec, opts⟩ := a
    obtain ⟨i1, i2, i3⟩ := ih fun s hs => hd s (by simp [hs])
    obtain ⟨o1, o2, o3⟩ := loadOptions_spec pf h (hd (sec, opts) (by simp)) opts
    simp only [loadSections]
    cases hl : loadOptions pf p sec opts with
    | mk e opts' =>
      rw [hl] at o1 o2 o3
      cases e with
      | true =>
        simp only [true_iff] at o3
        refine ⟨.cons ⟨rfl, o1⟩ ?_, by simp, ?_⟩
        · clear i1 i2 i3 hd ih
          induction r with
          | nil => exact .nil
          | cons x xs ihx =>
            refine .cons ⟨rfl, ?_⟩ ihx
            generalize x.2 = l
            induction l with
            | nil => exact .nil
            | cons y ys ihy => exact .cons ⟨rfl, .inr rfl⟩ ihy
        · simp only [true_iff]
          exact ⟨(sec, opts), by simp, o3⟩
      | false =>
        simp only [Bool.false_eq_true, false_iff] at o3
        refine ⟨.cons ⟨rfl, o1⟩ i1, fun hf => .cons ⟨rfl, o2 rfl⟩ (i2 hf), ?_⟩
        simp only [i3, List.mem_cons, exists_eq_or_imp]
        exact ⟨.inr, fun h => h.resolve_left o3⟩

end Imageio.Config
