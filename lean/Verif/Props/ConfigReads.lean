import Verif.Spec.ConfigReads
import Verif.Props.ShowConfig
/-!
C96: every option that the code reads is there, with the type that the code needs.
-/
namespace Imageio.Props
open Imageio.Http Imageio.Config Imageio.Images Imageio.ShowConfig Imageio.ConfigReads Imageio.Spec.ConfigReads
open Imageio.Spec.Ini

/-- The same names and types. -/
def SameKinds {F : Type} (cfg cfg' : Cfg F) : Prop :=
  List.Forall₂ (fun s s' => s.1 = s'.1 ∧ List.Forall₂ (fun a b => a.1 = b.1 ∧
    ∀ k, HasKind a.2 k → HasKind b.2 k) s.2 s'.2) cfg cfg'

theorem find_options {F : Type} {l l' : List (List Char × Val F)} {o : List Char} {v : Val F} {k : Kind}
    (h : List.Forall₂ (fun a b => a.1 = b.1 ∧ ∀ k, HasKind a.2 k → HasKind b.2 k) l l')
    (hf : (l.find? fun x => x.1 = o).map Prod.snd = some v) (hk : HasKind v k) :
    ∃ v', (l'.find? fun x => x.1 = o).map Prod.snd = some v' ∧ HasKind v' k := by
  induction h with
  | nil => cases hf
  | @cons a b l l' hab _ ih =>
    by_cases ha : a.1 = o
    · rw [List.find?_cons_of_pos (by simpa using ha)] at hf
      cases hf
      exact ⟨b.2, by rw [List.find?_cons_of_pos (by simpa [← hab.1] using ha)]; rfl, hab.2 k hk⟩
    · rw [List.find?_cons_of_neg (by simpa using ha)] at hf
      rw [List.find?_cons_of_neg (by simpa [← hab.1] using ha)]
      exact ih hf

theorem attr_same {F : Type} {cfg cfg' : Cfg F} (h : SameKinds cfg cfg') {s o : List Char} {v : Val F} {k : Kind}
    (hv : attr cfg s o = some v) (hk : HasKind v k) : ∃ v', attr cfg' s o = some v' ∧ HasKind v' k := by
  unfold attr at hv ⊢
  induction h with
  | nil => cases hv
  | @cons a b l l' hab _ ih =>
    by_cases ha : a.1 = s
    · rw [List.find?_cons_of_pos (by simpa using ha)] at hv
      rw [List.find?_cons_of_pos (by simpa [← hab.1] using ha)]
      exact find_options hab.2 hv hk
    · rw [List.find?_cons_of_neg (by simpa using ha)] at hv
      rw [List.find?_cons_of_neg (by simpa [← hab.1] using ha)]
      exact ih hv

/-- The kind of a value; used to check the defaults. -/
def kindOf {F : Type} : Val F → Option Kind
  | .str _ => some .text
  | .int _ => some .integer
  | .float _ => some .number
  | .bool _ => some .flag
  | .other => none

theorem hasKind_of {F : Type} {v : Val F} {k : Kind} (h : kindOf v = some k) : HasKind v k := by
  cases v <;> cases h <;> constructor

/-- The names and the types of a configuration. -/
def kinds {F : Type} (cfg : Cfg F) : List (List Char × List (List Char × Option Kind)) :=
  cfg.map fun s => (s.1, s.2.map fun o => (o.1, kindOf o.2))

/-- The type of an option. -/
def kindAt (l : List (List Char × List (List Char × Option Kind))) (sec opt : List Char) : Option Kind :=
  match l.find? (fun s => s.1 = sec) with
  | none => none
  | some s => ((s.2.find? fun o => o.1 = opt).map Prod.snd).join

theorem attr_kinds {F : Type} (cfg : Cfg F) (s o : List Char) : (attr cfg s o).bind kindOf = kindAt (kinds cfg) s o := by
  unfold attr kindAt kinds
  rw [List.find?_map]
  simp only [Function.comp_def]
  cases cfg.find? (fun x => decide (x.1 = s)) with
  | none => rfl
  | some x =>
    simp only [Option.map_some]
    rw [List.find?_map]
    simp only [Function.comp_def]
    cases x.2.find? (fun y => decide (y.1 = o)) with
    | none => rfl
    | some y => rfl

theorem defaults_read {F : Type} (one : F) : ∀ r ∈ reads, ∃ v, attr (defaultConfig one) r.sec r.opt = some v ∧ HasKind v r.kind := by
  have h : ∀ r ∈ reads, (attr (defaultConfig one) r.sec r.opt).bind kindOf = some r.kind := by
    have h1 : kinds (defaultConfig one) = kinds (defaultConfig ()) := rfl
    have h2 : ∀ r ∈ reads, kindAt (kinds (defaultConfig ())) r.sec r.opt = some r.kind := by decide +kernel
    intro r hr
    rw [attr_kinds, h1]
    exact h2 r hr
  intro r hr
  have := h r hr
  cases hv : attr (defaultConfig one) r.sec r.opt with
  | none => rw [hv] at this; cases this
  | some v =>
    rw [hv] at this
    exact ⟨v, rfl, hasKind_of this⟩

/-- Whatever the configuration files say, if the daemon starts, every option that the code reads is in the configuration,
and its value has the type that the code needs. -/
theorem C96_reads {F : Type} {pf : List Char → Option F} {one : F} {files vendor : List (List Char × Option (List Char))}
    {cfg : Cfg F} (h : started pf one files vendor = some cfg) :
    ∀ r ∈ reads, ∃ v, attr cfg r.sec r.opt = some v ∧ HasKind v r.kind := by
  unfold started at h
  split at h
  · rename_i cfg' hl
    cases h
    unfold Ini.loadConfigTexts at hl
    split at hl
    · cases hl
    · replace hl := Option.some.inj hl
      obtain ⟨docs, -, -, h2⟩ := C81_values pf (defaultConfig one) cfg _ (C89_defaults one).2.2 hl
      have hsame : SameKinds (defaultConfig one) cfg := by
        refine h2.imp fun s s' hs => ⟨hs.1, hs.2.imp fun a b hab => ⟨hab.1, ?_⟩⟩
        intro k hk
        rcases hab.2 with ⟨t, -, hc⟩ | ⟨-, he⟩
        · generalize a.2 = x at hk hc
          generalize b.2 = y at hc
          cases hk <;> cases hc <;> constructor
        · rw [he]; exact hk
      intro r hr
      obtain ⟨v, hv, hk⟩ := defaults_read one r hr
      exact attr_same hsame hv hk
  · cases h

/-- A configuration file that changes the port. -/
example : ∃ cfg, started ShowEx.pf false [("50.conf".toList, some "[remote]\nport = 0\n".toList)] [] = some cfg ∧
    attr cfg (lit "remote") (lit "port") = some (.int 0) ∧ attr cfg (lit "remote") (lit "host") = some (.str (lit "::")) := by
  have hs : ([("50.conf".toList, some "[remote]\nport = 0\n".toList)] ++ ([] : List (List Char × Option (List Char)))).mergeSort
      (fun a b => leStr (baseName a.1) (baseName b.1)) = [("50.conf".toList, some "[remote]\nport = 0\n".toList)] := by
    simp
  have h1 : (Ini.loadTexts ShowEx.pf (defaultConfig false) [some "[remote]\nport = 0\n".toList]).1 = none := by decide +kernel
  have h2 : attr (Ini.loadTexts ShowEx.pf (defaultConfig false) [some "[remote]\nport = 0\n".toList]).2 (lit "remote") (lit "port") =
    some (.int 0) := by decide +kernel
  have h3 : attr (Ini.loadTexts ShowEx.pf (defaultConfig false) [some "[remote]\nport = 0\n".toList]).2 (lit "remote") (lit "host") =
    some (.str (lit "::")) := by decide +kernel
  refine ⟨_, ?_, h2, h3⟩
  unfold started Ini.loadConfigTexts
  rw [if_neg (by simp), hs]
  simp only [List.map_cons, List.map_nil]
  rw [← Prod.mk.eta (p := Ini.loadTexts ShowEx.pf (defaultConfig false) [some "[remote]\nport = 0\n".toList]), h1]

/-- The numbers are not checked: the daemon starts with buffers of a negative size, no connections, or a port that does not
exist, and fails later. -/
theorem C96_counterexample_numbers : ∃ files cfg, started ShowEx.pf false files [] = some cfg ∧
    ∃ i, attr cfg (lit "backend_file") (lit "buffer_size") = some (.int i) ∧ ¬ Sensible "backend_file" "buffer_size" i := by
  have h1 : (Ini.loadTexts ShowEx.pf (defaultConfig false) [some "[backend_file]\nbuffer_size = -1\n".toList]).1 = none := by
    decide +kernel
  have h2 : attr (Ini.loadTexts ShowEx.pf (defaultConfig false) [some "[backend_file]\nbuffer_size = -1\n".toList]).2
    (lit "backend_file") (lit "buffer_size") = some (.int (-1)) := by decide +kernel
  refine ⟨[("50.conf".toList, some "[backend_file]\nbuffer_size = -1\n".toList)], _, ?_, -1, h2, ?_⟩
  · unfold started Ini.loadConfigTexts
    rw [if_neg (by simp), List.append_nil, List.mergeSort_singleton]
    simp only [List.map_cons, List.map_nil]
    rw [← Prod.mk.eta (p := Ini.loadTexts ShowEx.pf (defaultConfig false) [some "[backend_file]\nbuffer_size = -1\n".toList]), h1]
  · intro h
    exact absurd (h.1 rfl) (by decide)

end Imageio.Props
