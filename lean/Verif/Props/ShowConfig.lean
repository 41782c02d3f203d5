import Verif.Lemmas.ShowConfig
import Verif.Props.Ini
import Verif.Props.Json

/-!
C89: the configuration that the daemon shows is the one it uses.
-/
namespace Imageio.Props
open Imageio.Config Imageio.Images Imageio.ShowConfig
open Imageio.Spec.ShowConfig (Name JsonValue Shows LoggerText)
open Imageio.Spec.Config (Effective)
open Imageio.Spec.Ini

/-- C89: what is printed is a JSON document that shows every section and every option with its value, and nothing else. -/
theorem C89_document {F : Type} (fmt : F → List Char) (cfg : Cfg F) (hr : Spec.ShowConfig.Regular cfg)
    (hf : ∀ f, Spec.JsonText.Value (fmt f) .float) :
    ∃ text doc, showConfig fmt cfg = some text ∧ JsonText.loadsText text = some doc ∧ Shows cfg doc := by
  obtain ⟨t, m, h1, h2, h3⟩ := sectionTexts_value hf cfg hr.values
  refine ⟨dumpsDict 0 t ++ ['\n'], .obj m, ?_, ?_, m, rfl, h3⟩
  · rw [showConfig, toDict_eq hr, h1]
    rfl
  · rw [C80_loads]
    exact ⟨[], _, ['\n'], rfl, JsonText.space_nil, dumpsDict_value 0 t m h2, by intro c hc; simp at hc; simp [hc]⟩

/-- Loading does not change the names and the types. -/
theorem regular_loaded {F : Type} {pf : List Char → Option F} {cfg cfg' : Cfg F} {files : List IniFile}
    (h : List.Forall₂ (fun s s' => s.1 = s'.1 ∧ List.Forall₂ (fun a b => a.1 = b.1 ∧
        ((∃ t, Effective keywordMapping files s.1 a.1 (some t) ∧ Converts pf a.2 t b.2) ∨
          (Effective keywordMapping files s.1 a.1 none ∧ b.2 = a.2))) s.2 s'.2) cfg cfg')
    (hr : Spec.ShowConfig.Regular cfg) : Spec.ShowConfig.Regular cfg' := by
  have back : ∀ s' ∈ cfg', ∃ s ∈ cfg, s.1 = s'.1 ∧ List.Forall₂ (fun a b => a.1 = b.1 ∧
        ((∃ t, Effective keywordMapping files s.1 a.1 (some t) ∧ Converts pf a.2 t b.2) ∨
          (Effective keywordMapping files s.1 a.1 none ∧ b.2 = a.2))) s.2 s'.2 := by
    intro s' hs'
    obtain ⟨s, hs, hx⟩ := forall₂_mem h.flip hs'
    exact ⟨s, hs, hx⟩
  have names : ∀ (l l' : List (List Char × Val F)) (R : List Char × Val F → List Char × Val F → Prop),
      List.Forall₂ (fun a b => a.1 = b.1 ∧ R a b) l l' → l.map (·.1) = l'.map (·.1) := by
    intro l l' R hl
    induction hl with
    | nil => rfl
    | cons h _ ih => rw [List.map_cons, List.map_cons, h.1, ih]
  refine ⟨?_, ?_, ?_⟩
  · have : cfg.map (·.1) = cfg'.map (·.1) := by
      clear back hr
      induction h with
      | nil => rfl
      | cons h _ ih => rw [List.map_cons, List.map_cons, h.1, ih]
    rw [← this]
    exact hr.sections
  · intro s' hs'
    obtain ⟨s, hs, -, hx⟩ := back s' hs'
    have h1 := hr.options s hs
    rw [← List.pairwise_map (f := fun a : List Char × Val F => a.1) (R := fun x y => ∀ n, Name x n → ¬ Name y n)] at h1 ⊢
    rw [← names _ _ _ hx]
    exact h1
  · intro s' hs' o ho
    obtain ⟨s, hs, -, hx⟩ := back s' hs'
    obtain ⟨a, ha, -, hv⟩ := forall₂_mem hx.flip ho
    have h1 := hr.values s hs a ha
    rcases hv with ⟨t, -, hc⟩ | ⟨-, he⟩
    · revert hc
      generalize a.2 = x
      generalize o.2 = y
      intro hc
      cases hc <;> simp
    · rw [he]
      exact h1

/-- C89: with `--show-config` the daemon prints, if it can load its configuration, a JSON document that shows for every option
the value that the configuration files give it, or its default. -/
theorem C89_effective {F : Type} (pf : List Char → Option F) (fmt : F → List Char) (cfg : Cfg F)
    (files vendor : List (Text × Option Text)) (text : List Char) (hr : Spec.ShowConfig.Regular cfg)
    (hd : ∀ s ∈ cfg, s.1 ≠ "DEFAULT".toList) (hf : ∀ f, Spec.JsonText.Value (fmt f) .float)
    (h : showMain pf fmt cfg files vendor = ⟨0, text⟩) :
    ∃ (sorted : List (Text × Option Text)) (docs : List IniFile) (cfg' : Cfg F) (doc : Json),
      sorted.Perm (files ++ vendor) ∧ sorted.Pairwise (fun a b => leStr (baseName a.1) (baseName b.1) = true) ∧
      List.Forall₂ Document (sorted.filterMap (·.2)) docs ∧
      List.Forall₂ (fun s s' => s.1 = s'.1 ∧ List.Forall₂ (fun a b => a.1 = b.1 ∧
        ((∃ t, Effective keywordMapping docs s.1 a.1 (some t) ∧ Converts pf a.2 t b.2) ∨
          (Effective keywordMapping docs s.1 a.1 none ∧ b.2 = a.2))) s.2 s'.2) cfg cfg' ∧
      JsonText.loadsText text = some doc ∧ Shows cfg' doc := by
  unfold showMain at h
  split at h
  · rename_i cfg' hl
    unfold Ini.loadConfigTexts at hl
    split at hl
    · cases hl
    · replace hl := Option.some.inj hl
      obtain ⟨docs, h1, -, h2⟩ := C81_values pf cfg cfg' _ hd hl
      obtain ⟨text', doc, h3, h4, h5⟩ := C89_document fmt cfg' (regular_loaded h2 hr) hf
      rw [h3] at h
      simp only [Exit.mk.injEq, true_and] at h
      subst h
      refine ⟨_, docs, cfg', doc, List.mergeSort_perm _ fun a b => leStr (baseName a.1) (baseName b.1),
        List.pairwise_mergeSort ?_ ?_ _, ?_, h2, h4, h5⟩
      · intro a b c
        exact leStr_trans _ _ _
      · intro a b
        simpa using leStr_total (baseName a.1) (baseName b.1)
      · simpa [List.filterMap_map, Function.comp_def] using h1
  · simp at h

/-- C89: the daemon prints nothing and fails if there is no configuration file, or loading them fails; otherwise it prints. -/
theorem C89_exit {F : Type} (pf : List Char → Option F) (fmt : F → List Char) (cfg : Cfg F)
    (files vendor : List (Text × Option Text)) (hr : Spec.ShowConfig.Regular cfg)
    (hd : ∀ s ∈ cfg, s.1 ≠ "DEFAULT".toList) (hf : ∀ f, Spec.JsonText.Value (fmt f) .float) :
    ((showMain pf fmt cfg files vendor).status = 0 ↔ files ≠ [] ∧ (Ini.loadTexts pf cfg
      (((files ++ vendor).mergeSort fun a b => leStr (baseName a.1) (baseName b.1)).map (·.2))).1 = none) ∧
    ((showMain pf fmt cfg files vendor).status ≠ 0 → showMain pf fmt cfg files vendor = ⟨1, []⟩) := by
  unfold showMain Ini.loadConfigTexts
  by_cases h0 : files = []
  · simp [h0]
  · rw [if_neg h0]
    generalize hx : Ini.loadTexts pf cfg
      (((files ++ vendor).mergeSort fun a b => leStr (baseName a.1) (baseName b.1)).map (·.2)) = x
    obtain ⟨e, cfg'⟩ := x
    cases e with
    | some e => simp
    | none =>
      obtain ⟨docs, h1, -, h2⟩ := C81_values pf cfg cfg' _ hd hx
      obtain ⟨text', doc, h3, h4, h5⟩ := C89_document fmt cfg' (regular_loaded h2 hr) hf
      simp [h3, h0]

/-- C89: the logger is configured with the same options: under the shown name it gets the text of the value, and it gets
nothing else. -/
theorem C89_logger {F : Type} (fmt : F → List Char) (cfg : Cfg F) (hr : Spec.ShowConfig.Regular cfg)
    (hl : Spec.ShowConfig.Lower cfg) (hd : ∀ s ∈ cfg, s.1 ≠ "DEFAULT".toList) :
    ∃ p, loggerParser fmt cfg = some p ∧
      (∀ s ∈ cfg, ∀ o ∈ s.2, ∀ n, Name o.1 n → ∃ t, loggerGet p s.1 n = some t ∧ LoggerText fmt o.2 t) ∧
      ∀ sec n t, loggerGet p sec n = some t → ∃ s ∈ cfg, s.1 = sec ∧ ∃ o ∈ s.2, ∃ m, Name o.1 m ∧
        m.map Char.toLower = n.map Char.toLower ∧ LoggerText fmt o.2 t := by
  unfold loggerParser
  rw [toDict_eq hr]
  obtain ⟨p, h1, h2, h3, h4⟩ := readDict_ok fmt (cfg.map fun s => (s.1, s.2.map fun a => (optionName a.1, a.2))) Parser.empty
    (by simpa [List.map_map, Function.comp_def] using hr.sections) (by
      intro s hs
      obtain ⟨s, hm, rfl⟩ := List.mem_map.1 hs
      refine ⟨hd s hm, rfl, ?_⟩
      rw [List.map_map, List.Nodup, List.pairwise_map]
      refine (hl s hm).imp ?_
      intro a b hab
      exact hab _ _ ((name_iff _ _).2 rfl) ((name_iff _ _).2 rfl))
  refine ⟨p, h1, ?_, ?_⟩
  · intro s hs o ho n hn
    rw [name_iff] at hn
    subst hn
    obtain ⟨d, h5, h6, -⟩ := h3 _ (List.mem_map.2 ⟨s, hs, rfl⟩)
    refine ⟨_, ?_, strValue_text fmt o.2 (hr.values s hs o ho)⟩
    unfold loggerGet
    simp only at h5
    rw [h5]
    simp only
    rw [h6 _ (List.mem_map.2 ⟨o, ho, rfl⟩)]
  · intro sec n t ht
    by_cases hsec : ∃ s ∈ cfg, s.1 = sec
    · obtain ⟨s, hs, rfl⟩ := hsec
      refine ⟨s, hs, rfl, ?_⟩
      obtain ⟨d, h5, h6, h7⟩ := h3 _ (List.mem_map.2 ⟨s, hs, rfl⟩)
      simp only at h5 h6 h7
      unfold loggerGet at ht
      rw [h5] at ht
      simp only at ht
      by_cases ho : ∃ o ∈ s.2, (optionName o.1).map Char.toLower = n.map Char.toLower
      · obtain ⟨o, ho, he⟩ := ho
        refine ⟨o, ho, _, (name_iff _ _).2 rfl, he, ?_⟩
        have := h6 _ (List.mem_map.2 ⟨o, ho, rfl⟩)
        simp only at this
        rw [← he, this] at ht
        simp only [Option.some.injEq] at ht
        rw [← ht]
        exact strValue_text fmt o.2 (hr.values s hs o ho)
      · rw [h7, h2] at ht
        · cases ht
        · intro a ha he
          obtain ⟨o, hm, rfl⟩ := List.mem_map.1 ha
          exact ho ⟨o, hm, he⟩
    · unfold loggerGet at ht
      rw [h4] at ht
      · cases ht
      · intro s hs he
        obtain ⟨s, hm, rfl⟩ := List.mem_map.1 hs
        exact hsec ⟨s, hm, he⟩

/-! The configuration of the daemon -/

/-- Decidable versions of the conditions. -/
theorem regular_of {F : Type} {cfg : Cfg F} (h1 : (cfg.map (·.1)).Nodup)
    (h2 : ∀ s ∈ cfg, (s.2.map fun o => (optionName o.1).map Char.toLower).Nodup)
    (h3 : ∀ s ∈ cfg, ∀ o ∈ s.2, o.2 ≠ .other) : Spec.ShowConfig.Regular cfg ∧ Spec.ShowConfig.Lower cfg := by
  have h4 : Spec.ShowConfig.Lower cfg := by
    intro s hs
    have := h2 s hs
    rw [List.Nodup, List.pairwise_map] at this
    refine this.imp ?_
    intro a b hab n m hn hm
    rw [name_iff] at hn hm
    rw [hn, hm]
    exact hab
  refine ⟨⟨h1, ?_, h3⟩, h4⟩
  intro s hs
  refine (h4 s hs).imp ?_
  intro a b hab n hn hm
  exact hab n n hn hm rfl

/-- C89: the defaults of the daemon meet the conditions of the theorems above. -/
theorem C89_defaults {F : Type} (one : F) : Spec.ShowConfig.Regular (defaultConfig one) ∧
    Spec.ShowConfig.Lower (defaultConfig one) ∧ ∀ s ∈ defaultConfig one, s.1 ≠ "DEFAULT".toList := by
  have hs : (defaultConfig one).map (·.1) = (defaultConfig ()).map (·.1) := rfl
  have ho : (defaultConfig one).map (fun s => s.2.map (·.1)) = (defaultConfig ()).map fun s => s.2.map (·.1) := rfl
  have h1 : ((defaultConfig one).map (·.1)).Nodup := by
    rw [hs]
    decide +kernel
  have h2 : ∀ s ∈ defaultConfig one, (s.2.map fun o => (optionName o.1).map Char.toLower).Nodup := by
    have : ∀ l ∈ (defaultConfig one).map (fun s => s.2.map (·.1)), (l.map fun o => (optionName o).map Char.toLower).Nodup := by
      rw [ho]
      decide +kernel
    intro s hm
    have := this _ (List.mem_map.2 ⟨s, hm, rfl⟩)
    rwa [List.map_map] at this
  have h3 : ∀ s ∈ defaultConfig one, ∀ o ∈ s.2, o.2 ≠ .other := by
    have hk : (defaultConfig one).all (fun s => s.2.all fun o => match o.2 with | .other => false | _ => true) = true := rfl
    intro s hm o hmo he
    rw [List.all_eq_true] at hk
    have := hk s hm
    rw [List.all_eq_true] at this
    have := this o hmo
    rw [he] at this
    cases this
  obtain ⟨h4, h5⟩ := regular_of h1 h2 h3
  refine ⟨h4, h5, ?_⟩
  intro s hm
  have : ∀ x ∈ (defaultConfig one).map (·.1), x ≠ "DEFAULT".toList := by
    rw [hs]
    decide +kernel
  exact this _ (List.mem_map.2 ⟨s, hm, rfl⟩)

/-- C89: in the document that the daemon shows, the member of a section and a name is the value of the option, for every
option. -/
theorem C89_member {F : Type} {cfg : Cfg F} {sections : List (List Char × Json)} (h : Shows cfg (.obj sections))
    {sec : List Char} {opts : List (List Char × Val F)} (hs : (sec, opts) ∈ cfg) {attr : List Char} {v : Val F}
    (ho : (attr, v) ∈ opts) : ∃ members name j, (sec, Json.obj members) ∈ sections ∧ (name, j) ∈ members ∧ Name attr name ∧
      JsonValue v j := by
  obtain ⟨sections', he, h⟩ := h
  cases he
  obtain ⟨⟨sec', x⟩, hm, h1, members, h2, h3⟩ := forall₂_mem h hs
  simp only at h1 h2
  subst h1 h2
  obtain ⟨⟨name, j⟩, hj, h4, h5⟩ := forall₂_mem h3 ho
  exact ⟨members, name, j, hm, hj, h4, h5⟩

theorem mem_setItem {α : Type} {k n : List Char} {v w : α} : ∀ {d : List (List Char × α)}, (d.map (·.1)).Nodup →
    ((n, w) ∈ setItem k v d ↔ (n = k ∧ w = v) ∨ (n ≠ k ∧ (n, w) ∈ d))
  | [], _ => by
    by_cases h : n = k <;> simp [setItem, h]
  | (x, u) :: r, hn => by
    rw [List.map_cons, List.nodup_cons] at hn
    unfold setItem
    split
    · rename_i hx
      subst hx
      by_cases h : n = x
      · subst h
        have : ∀ w, (n, w) ∉ r := fun w hm => hn.1 (List.mem_map.2 ⟨_, hm, rfl⟩)
        simp [this]
      · simp [h]
    · rename_i hx
      rw [List.mem_cons, mem_setItem hn.2, List.mem_cons]
      by_cases h : n = k
      · subst h
        have : ¬ n = x := fun e => hx e.symm
        simp [this]
      · simp [h]

theorem keys_setItem {α : Type} {k n : List Char} {v : α} : ∀ {d : List (List Char × α)},
    n ∈ (setItem k v d).map (·.1) ↔ n = k ∨ n ∈ d.map (·.1)
  | [] => by simp [setItem]
  | (x, u) :: r => by
    unfold setItem
    split
    · rename_i hx
      subst hx
      simp
    · rw [List.map_cons, List.mem_cons, keys_setItem, List.map_cons, List.mem_cons]
      exact or_left_comm

theorem nodup_setItem {α : Type} {k : List Char} {v : α} : ∀ {d : List (List Char × α)}, (d.map (·.1)).Nodup →
    ((setItem k v d).map (·.1)).Nodup
  | [], _ => by simp [setItem]
  | (x, u) :: r, hn => by
    rw [List.map_cons, List.nodup_cons] at hn
    unfold setItem
    split
    · rw [List.map_cons, List.nodup_cons]
      exact hn
    · rename_i hx
      rw [List.map_cons, List.nodup_cons, keys_setItem]
      exact ⟨fun h => h.elim hx hn.1, nodup_setItem hn.2⟩

theorem nodup_foldl_setItem {α β : Type} (f : β → List Char) (g : β → α) : ∀ (l : List β) (d : List (List Char × α)),
    (d.map (·.1)).Nodup → ((l.foldl (fun d a => setItem (f a) (g a) d) d).map (·.1)).Nodup
  | [], _, h => h
  | _ :: l, _, h => nodup_foldl_setItem f g l _ (nodup_setItem h)

/-- C89: if several attributes of a section have the same name in the dictionary, as `class` and `keyword__class`, the
dictionary has one member with this name, and its value is the one of the last attribute. -/
theorem C89_last {F : Type} {before after : List (List Char × Val F)} {attr name : List Char} {v : Val F}
    (hn : Name attr name) (hl : ∀ a ∈ after, ¬ Name a.1 name) (w : Val F) :
    (name, w) ∈ objToDict (before ++ (attr, v) :: after) ↔ w = v := by
  have hk := nodup_foldl_setItem (fun a : List Char × Val F => optionName a.1) (fun a => a.2) before [] (by simp)
  rw [name_iff] at hn
  unfold objToDict
  rw [List.foldl_append, List.foldl_cons]
  have key : ∀ (after : List (List Char × Val F)) (d : List (List Char × Val F)), (d.map (·.1)).Nodup →
      (∀ a ∈ after, ¬ Name a.1 name) → ((name, w) ∈ after.foldl (fun d a => setItem (optionName a.1) a.2 d) d ↔ (name, w) ∈ d) := by
    intro after
    induction after with
    | nil => intro d _ _; rfl
    | cons a r ih =>
      intro d hd hl
      rw [List.foldl_cons, ih _ (nodup_setItem hd) fun b hb => hl b (by simp [hb]), mem_setItem hd]
      have : name ≠ optionName a.1 := fun h => hl a (by simp) ((name_iff _ _).2 h)
      simp [this]
  rw [key after _ (nodup_setItem hk) hl, mem_setItem hk]
  simp [hn]

example : objToDict (F := Unit) [("class".toList, .int 1), ("a".toList, .int 2), ("keyword__class".toList, .int 3)] =
    [("class".toList, .int 3), ("a".toList, .int 2)] := by decide +kernel

namespace ShowEx

/-- Two floats: 1.0 and 0.5. -/
def fmt : Bool → List Char
  | false => "1.0".toList
  | true => "0.5".toList

def pf (s : List Char) : Option Bool :=
  if s = "1.0".toList then some false else if s = "0.5".toList then some true else none

theorem fmt_value (f : Bool) : Spec.JsonText.Value (fmt f) .float := by
  have h0 : Spec.JsonText.Natural ['0'] 0 := ⟨Http.number_iff.2 ⟨by simp, by decide, by decide⟩, fun _ => rfl⟩
  have h1 : Spec.JsonText.Natural ['1'] 1 := ⟨Http.number_iff.2 ⟨by simp, by decide, by decide⟩, by simp⟩
  have hf : Spec.JsonText.Fraction ['.', '0'] := ⟨['0'], rfl, by simp, by decide⟩
  have hg : Spec.JsonText.Fraction ['.', '5'] := ⟨['5'], rfl, by simp, by decide⟩
  cases f with
  | false => exact Spec.JsonText.Value.float (.inl rfl) h1 (.inr hf) (.inl rfl) (.inl (by simp))
  | true => exact Spec.JsonText.Value.float (.inl rfl) h0 (.inr hg) (.inl rfl) (.inl (by simp))

def small : Cfg Bool :=
  [("d".toList, [("keyword__class".toList, .str "x".toList), ("p".toList, .float false)]), ("t".toList, [("e".toList, .bool true)])]

theorem small_regular : Spec.ShowConfig.Regular small ∧ Spec.ShowConfig.Lower small :=
  regular_of (by decide +kernel) (by decide +kernel) (by decide +kernel)

def files : List (List Char × Option (List Char)) := [("9".toList, some "[d]\nclass=b\np:0.5\n".toList)]

def vendor : List (List Char × Option (List Char)) := [("v/7".toList, some "[d]\nclass=a\n[t]\ne=no\n".toList)]

theorem sorted : (files ++ vendor).mergeSort (fun a b => leStr (baseName a.1) (baseName b.1)) = vendor ++ files := by
  have h : leStr (baseName "9".toList) (baseName "v/7".toList) = false := by decide +kernel
  unfold files vendor
  simp only [List.cons_append, List.nil_append, List.mergeSort, List.MergeSort.Internal.splitInTwo]
  simp [List.merge, h, -String.reduceToList]

/-- The text that is printed. -/
def text : List Char :=
  "{\n    \"d\": {\n        \"class\": \"b\",\n        \"p\": 0.5\n    },\n    \"t\": {\n        \"e\": false\n    }\n}\n".toList

theorem printed : showMain pf fmt small files vendor = ⟨0, text⟩ := by
  have h1 : (Ini.loadTexts pf small ((vendor ++ files).map (·.2))) = (none, [("d".toList, [("keyword__class".toList,
      .str "b".toList), ("p".toList, .float true)]), ("t".toList, [("e".toList, .bool false)])]) := by decide +kernel
  unfold showMain Ini.loadConfigTexts
  rw [sorted, if_neg (by simp [files]), h1]
  decide +kernel

example : ∃ doc, JsonText.loadsText text = some doc := by
  obtain ⟨_, _, _, doc, _, _, _, _, h1, _⟩ := C89_effective pf fmt small files vendor _ small_regular.1 (by decide +kernel)
    fmt_value printed
  exact ⟨doc, h1⟩

example : showMain pf fmt (defaultConfig false) [] vendor = ⟨1, []⟩ :=
  (C89_exit pf fmt (defaultConfig false) [] vendor (C89_defaults false).1 (C89_defaults false).2.2 fmt_value).2 (by decide +kernel)

example : ∃ p t, loggerParser fmt (defaultConfig false) = some p ∧
    loggerGet p "handler_logfile".toList "class".toList = some t ∧
    LoggerText fmt (.str "logging.handlers.RotatingFileHandler".toList) t := by
  obtain ⟨p, h1, h2, -⟩ := C89_logger fmt (defaultConfig false) (C89_defaults false).1 (C89_defaults false).2.1
    (C89_defaults false).2.2
  obtain ⟨t, h3, h4⟩ := h2 _ (show ("handler_logfile".toList, _) ∈ _ from List.mem_of_getElem? (i := 7) rfl)
    ("keyword__class".toList, .str "logging.handlers.RotatingFileHandler".toList) (by decide +kernel) "class".toList (.inl rfl)
  exact ⟨p, t, h1, h3, h4⟩

end ShowEx

end Imageio.Props
