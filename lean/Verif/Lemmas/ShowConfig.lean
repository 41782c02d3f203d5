import Verif.Model.ShowConfig
import Verif.Spec.ShowConfig
import Verif.Lemmas.JsonDumps

/-! Lemmas about the shown configuration. -/
namespace Imageio.ShowConfig
open Imageio.Http Imageio.Config Imageio.Images Imageio.JsonText Imageio.Spec.JsonText Imageio.Spec.ShowConfig

theorem name_iff (attr name : Str) : Name attr name ↔ name = optionName attr := by
  unfold Name optionName keywordPrefix lit
  constructor
  · rintro (rfl | ⟨rfl, h⟩)
    · rw [if_pos (by rw [List.isPrefixOf_iff_prefix]; exact List.prefix_append _ _)]
      rw [List.drop_left]
    · rw [if_neg]
      rw [List.isPrefixOf_iff_prefix]
      rintro ⟨x, hx⟩
      exact h x hx.symm
  · rintro rfl
    split
    · rename_i h
      rw [List.isPrefixOf_iff_prefix] at h
      obtain ⟨x, rfl⟩ := h
      left
      rw [List.drop_left]
    · rename_i h
      rw [List.isPrefixOf_iff_prefix] at h
      exact .inr ⟨rfl, fun x hx => h ⟨x, hx.symm⟩⟩

theorem setItem_new {α : Type} (k : Str) (v : α) : ∀ d : List (Str × α), (∀ x ∈ d, x.1 ≠ k) → setItem k v d = d ++ [(k, v)]
  | [], _ => rfl
  | (x, w) :: r, h => by
    rw [setItem, if_neg (h (x, w) (by simp)), setItem_new k v r fun y hy => h y (by simp [hy])]
    rfl

theorem foldl_setItem {α β : Type} (f : β → Str) (g : β → α) : ∀ (l : List β) (d : List (Str × α)),
    (d.map (·.1) ++ l.map f).Nodup → l.foldl (fun d a => setItem (f a) (g a) d) d = d ++ l.map fun a => (f a, g a)
  | [], d, _ => by simp
  | a :: l, d, h => by
    rw [List.foldl_cons, setItem_new, foldl_setItem f g l]
    · simp
    · simpa using h
    · intro x hx he
      rw [List.nodup_append] at h
      exact h.2.2 x.1 (List.mem_map.2 ⟨x, hx, rfl⟩) (f a) (by simp) he

theorem objToDict_eq {F : Type} (l : List (Str × Val F)) (h : (l.map fun a => optionName a.1).Nodup) :
    objToDict l = l.map fun a => (optionName a.1, a.2) := by
  unfold objToDict
  rw [foldl_setItem (fun a : Str × Val F => optionName a.1) (fun a => a.2) l [] (by simpa using h)]
  rfl

theorem options_nodup {F : Type} {l : List (Str × Val F)} (h : l.Pairwise fun a b => ∀ n, Name a.1 n → ¬ Name b.1 n) :
    (l.map fun a => optionName a.1).Nodup := by
  rw [List.Nodup, List.pairwise_map]
  refine h.imp ?_
  intro a b hab he
  exact hab _ ((name_iff _ _).2 rfl) ((name_iff _ _).2 he)

theorem toDict_eq {F : Type} {cfg : Cfg F} (h : Regular cfg) :
    toDict cfg = cfg.map fun s => (s.1, s.2.map fun a => (optionName a.1, a.2)) := by
  unfold toDict
  rw [foldl_setItem (fun s : Str × List (Str × Val F) => s.1) (fun s => objToDict s.2) cfg [] (by simpa using h.sections),
    List.nil_append]
  refine List.map_congr_left ?_
  intro s hs
  rw [objToDict_eq _ (options_nodup (h.options s hs))]

theorem space_newline (n : Nat) : Space (newline n) := by
  intro c hc
  rcases List.mem_cons.1 hc with rfl | hc
  · simp
  · rw [List.eq_of_mem_replicate hc]
    simp

/-- The members of a dict: their texts and values. -/
theorem dumpsRest_members (level : Nat) : ∀ (l : List (Str × Str)) (m : List (Str × Json)) (k : Str) {j : Json} {v w : Str},
    List.Forall₂ (fun a b => a.1 = b.1 ∧ Value a.2 b.2) l m → Value v j → Space w →
    ∃ t, w ++ (encodeString k ++ (lit ": " ++ (v ++ dumpsRest level l))) = t ++ ['}'] ∧ Members t ((k, j) :: m)
  | [], [], k, j, v, w, _, hv, hw => by
    refine ⟨_, ?_, .one hw (encode_chars k) space_nil space_one hv (space_newline level)⟩
    simp [dumpsRest, encodeString, lit]
  | (n, u) :: l, (n', i) :: m, k, j, v, w, h, hv, hw => by
    rw [List.forall₂_cons] at h
    obtain ⟨⟨h1, h2⟩, h3⟩ := h
    simp only at h1
    subst h1
    obtain ⟨t, ht, hi⟩ := dumpsRest_members level l m n h3 h2 (space_newline (level + 1))
    refine ⟨_, ?_, .cons hw (encode_chars k) space_nil space_one hv space_nil hi⟩
    simp only [dumpsRest, encodeString, List.cons_append, List.nil_append, List.append_assoc] at ht ⊢
    simp only [ht]
    simp [lit]

theorem dumpsDict_value (level : Nat) (l : List (Str × Str)) (m : List (Str × Json))
    (h : List.Forall₂ (fun a b => a.1 = b.1 ∧ Value a.2 b.2) l m) : Value (dumpsDict level l) (.obj m) := by
  cases h with
  | nil => exact .noMembers (w := []) space_nil
  | @cons a b l m h1 h2 =>
    obtain ⟨t, ht, hi⟩ := dumpsRest_members level l m a.1 h2 h1.2 (space_newline (level + 1))
    obtain ⟨k, v⟩ := a
    obtain ⟨k', j⟩ := b
    simp only at h1 ht hi
    obtain ⟨rfl, -⟩ := h1
    rw [dumpsDict, ht]
    exact .members hi

theorem valueText_value {F : Type} {fmt : F → Str} (hf : ∀ f, Value (fmt f) .float) (v : Val F) (h : v ≠ .other) :
    ∃ t j, valueText fmt v = some t ∧ Value t j ∧ JsonValue v j := by
  cases v with
  | str s => exact ⟨_, _, rfl, encodeString_value s, .str⟩
  | int i => exact ⟨_, _, rfl, fmtInt_value i, .int⟩
  | float f => exact ⟨_, _, rfl, hf f, .float⟩
  | bool b => cases b with
    | false => exact ⟨_, _, rfl, .false, .bool⟩
    | true => exact ⟨_, _, rfl, .true, .bool⟩
  | other => exact absurd rfl h

theorem optionTexts_value {F : Type} {fmt : F → Str} (hf : ∀ f, Value (fmt f) .float) : ∀ l : List (Str × Val F),
    (∀ o ∈ l, o.2 ≠ .other) → ∃ (t : List (Str × Str)) (m : List (Str × Json)), optionTexts fmt (l.map fun a => (optionName a.1, a.2)) = some t ∧
      List.Forall₂ (fun a b => a.1 = b.1 ∧ Value a.2 b.2) t m ∧
      List.Forall₂ (fun o y => Name o.1 y.1 ∧ JsonValue o.2 y.2) l m
  | [], _ => ⟨[], [], rfl, .nil, .nil⟩
  | (o, v) :: r, h => by
    obtain ⟨t, m, h1, h2, h3⟩ := optionTexts_value hf r fun x hx => h x (by simp [hx])
    obtain ⟨u, j, h4, h5, h6⟩ := valueText_value hf v (h (o, v) (by simp))
    refine ⟨(optionName o, u) :: t, (optionName o, j) :: m, ?_, .cons ⟨rfl, h5⟩ h2, .cons ⟨(name_iff _ _).2 rfl, h6⟩ h3⟩
    simp only [List.map_cons, optionTexts, h1, h4]

theorem sectionTexts_value {F : Type} {fmt : F → Str} (hf : ∀ f, Value (fmt f) .float) : ∀ cfg : Cfg F,
    (∀ s ∈ cfg, ∀ o ∈ s.2, o.2 ≠ .other) →
    ∃ (t : List (Str × Str)) (m : List (Str × Json)), sectionTexts fmt (cfg.map fun s => (s.1, s.2.map fun a => (optionName a.1, a.2))) = some t ∧
      List.Forall₂ (fun a b => a.1 = b.1 ∧ Value a.2 b.2) t m ∧
      List.Forall₂ (fun s x => s.1 = x.1 ∧ ∃ opts, x.2 = .obj opts ∧
        List.Forall₂ (fun o y => Name o.1 y.1 ∧ JsonValue o.2 y.2) s.2 opts) cfg m
  | [], _ => ⟨[], [], rfl, .nil, .nil⟩
  | (s, opts) :: r, h => by
    obtain ⟨t, m, h1, h2, h3⟩ := sectionTexts_value hf r fun x hx => h x (by simp [hx])
    obtain ⟨u, n, h4, h5, h6⟩ := optionTexts_value hf opts (h (s, opts) (by simp))
    refine ⟨(s, dumpsDict 1 u) :: t, (s, .obj n) :: m, ?_, .cons ⟨rfl, dumpsDict_value 1 u n h5⟩ h2,
      .cons ⟨rfl, n, rfl, h6⟩ h3⟩
    simp only [List.map_cons, sectionTexts, h1, h4]

/-! The parser of the logger -/

theorem strValue_text {F : Type} (fmt : F → Str) (v : Val F) (h : v ≠ .other) : LoggerText fmt v (strValue fmt v) := by
  cases v with
  | str s => exact .str
  | int i =>
    refine .int ?_
    cases i with
    | ofNat n => simp [strValue, fmtInt, fmtNat, toString, Int.repr, Nat.repr]
    | negSucc n => simp [strValue, fmtInt, fmtNat, toString, Int.repr, Nat.repr]
  | float f => exact .float
  | bool b => cases b with
    | false => exact .false
    | true => exact .true
  | other => exact absurd rfl h

theorem readDictOptions_ok {F : Type} (fmt : F → Str) : ∀ (l : List (Str × Val F)) (seen : List Str) (d : Str → Option Str),
    (l.map fun a => a.1.map Char.toLower).Nodup → (∀ a ∈ l, a.1.map Char.toLower ∉ seen) →
    ∃ d', readDictOptions fmt l seen d = some d' ∧
      (∀ a ∈ l, d' (a.1.map Char.toLower) = some (strValue fmt a.2)) ∧
      ∀ k, (∀ a ∈ l, a.1.map Char.toLower ≠ k) → d' k = d k
  | [], seen, d, _, _ => ⟨d, rfl, by simp, fun _ _ => rfl⟩
  | (o, v) :: r, seen, d, hn, hs => by
    rw [List.map_cons, List.nodup_cons] at hn
    have hmem : ∀ a ∈ r, a.1.map Char.toLower ≠ o.map Char.toLower := by
      intro a ha he
      exact hn.1 (he ▸ List.mem_map.2 ⟨a, ha, rfl⟩)
    obtain ⟨d', h1, h2, h3⟩ := readDictOptions_ok fmt r (o.map Char.toLower :: seen)
      (setKey d (o.map Char.toLower) (strValue fmt v)) hn.2 (by
        intro a ha hm
        rcases List.mem_cons.1 hm with h | h
        · exact hmem a ha h
        · exact hs a (by simp [ha]) h)
    refine ⟨d', ?_, ?_, ?_⟩
    · rw [readDictOptions]
      rw [if_neg (hs (o, v) (by simp)), h1]
    · intro a ha
      rcases List.mem_cons.1 ha with rfl | ha
      · rw [h3 _ hmem]
        simp [setKey]
      · exact h2 a ha
    · intro k hk
      rw [h3 k fun a ha => hk a (by simp [ha])]
      have := hk (o, v) (by simp)
      simp only at this
      simp [setKey, Ne.symm this]

theorem readDict_ok {F : Type} (fmt : F → Str) : ∀ (l : List (Str × List (Str × Val F))) (p : Parser),
    (l.map (·.1)).Nodup → (∀ s ∈ l, s.1 ≠ defaultSect ∧ p.sections s.1 = none ∧ (s.2.map fun a => a.1.map Char.toLower).Nodup) →
    ∃ p', readDict fmt l p = some p' ∧ p'.defaults = p.defaults ∧
      (∀ s ∈ l, ∃ d, p'.sections s.1 = some d ∧ (∀ a ∈ s.2, d (a.1.map Char.toLower) = some (strValue fmt a.2)) ∧
        ∀ k, (∀ a ∈ s.2, a.1.map Char.toLower ≠ k) → d k = none) ∧
      ∀ x, (∀ s ∈ l, s.1 ≠ x) → p'.sections x = p.sections x
  | [], p, _, _ => ⟨p, rfl, rfl, by simp, fun _ _ => rfl⟩
  | (s, opts) :: r, p, hn, h => by
    rw [List.map_cons, List.nodup_cons] at hn
    obtain ⟨hd, hp, ho⟩ := h (s, opts) (by simp)
    simp only at hd hp ho
    have hmem : ∀ t ∈ r, t.1 ≠ s := by
      intro t ht he
      exact hn.1 (he ▸ List.mem_map.2 ⟨t, ht, rfl⟩)
    obtain ⟨d, h1, h2, h3⟩ := readDictOptions_ok fmt opts [] (fun _ => none) ho (by simp)
    obtain ⟨p', h4, h5, h6, h7⟩ := readDict_ok fmt r { p with sections := fun x => if x = s then some d else p.sections x } hn.2 (by
      intro t ht
      obtain ⟨a, b, c⟩ := h t (by simp [ht])
      exact ⟨a, by simpa [hmem t ht] using b, c⟩)
    refine ⟨p', ?_, h5, ?_, ?_⟩
    · rw [readDict, if_neg hd, hp]
      simp only [Option.getD_none, h1]
      exact h4
    · intro t ht
      rcases List.mem_cons.1 ht with rfl | ht
      · refine ⟨d, ?_, h2, h3⟩
        rw [h7 s hmem]
        simp
      · exact h6 t ht
    · intro x hx
      rw [h7 x fun t ht => hx t (by simp [ht])]
      have := hx (s, opts) (by simp)
      simp only at this
      simp [Ne.symm this]

end Imageio.ShowConfig
