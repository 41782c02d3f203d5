import Verif.Model.ClientOptions
/-!
The loops of the option parser, option by option.
-/
namespace Imageio.Options
open Imageio.Http

theorem Args.set_self (a : Args) (n : String) : a.set n (a n) = a := by
  funext m
  unfold Args.set
  split <;> simp_all

theorem fold_pointwise {f : Args → Opt → Except Failure Args} {g : Opt → Option Val → Except Failure (Option Val)}
    (hf : ∀ a o, f a o = (g o (a o.name)).map (a.set o.name)) :
    ∀ {os : List Opt} {a b : Args}, (os.map (·.name)).Nodup →
    (os.foldlM f a = .ok b ↔ (∀ o ∈ os, g o (a o.name) = .ok (b o.name)) ∧ ∀ n, n ∉ os.map (·.name) → b n = a n) := by
  intro os
  induction os with
  | nil =>
    intro a b _
    simp only [List.foldlM_nil, List.not_mem_nil, false_implies, implies_true, true_and, List.map_nil]
    constructor
    · rintro h; cases h; intro n _; rfl
    · intro h; rw [show b = a from funext fun n => h n (by simp)]; rfl
  | cons o os ih =>
    intro a b hn
    simp only [List.map_cons, List.nodup_cons] at hn
    obtain ⟨hno, hn⟩ := hn
    rw [List.foldlM_cons, hf]
    cases hg : g o (a o.name) with
    | error e =>
      constructor
      · intro h; cases h
      · intro h
        have := h.1 o (List.mem_cons_self)
        rw [hg] at this; cases this
    | ok v =>
      have hother : ∀ p ∈ os, (a.set o.name v) p.name = a p.name := by
        intro p hp
        unfold Args.set
        rw [if_neg]
        intro he
        exact hno (he ▸ List.mem_map_of_mem hp)
      show List.foldlM f (a.set o.name v) os = .ok b ↔ _
      rw [ih hn]
      constructor
      · rintro ⟨h1, h2⟩
        constructor
        · intro p hp
          rcases List.mem_cons.1 hp with rfl | hp
          · rw [hg, h2 _ hno]
            simp [Args.set]
          · rw [← h1 p hp, hother p hp]
        · intro n hn'
          simp only [List.map_cons, List.mem_cons, not_or] at hn'
          rw [h2 n hn'.2]
          simp [Args.set, hn'.1]
      · rintro ⟨h1, h2⟩
        constructor
        · intro p hp
          rw [hother p hp, h1 p (List.mem_cons_of_mem _ hp)]
        · intro n hn'
          unfold Args.set
          split
          · rename_i h; subst h
            have := h1 o List.mem_cons_self
            rw [hg] at this
            exact (Except.ok.inj this).symm
          · rename_i h
            exact h2 n (by simp only [List.map_cons, List.mem_cons, not_or]; exact ⟨h, hn'⟩)

theorem fold_usage {f : Args → Opt → Except Failure Args} (hu : ∀ a o e, f a o = .error e → e = .usage) :
    ∀ {os : List Opt} {a : Args} {e : Failure}, os.foldlM f a = .error e → e = .usage := by
  intro os
  induction os with
  | nil => intro a e h; cases h
  | cons o os ih =>
    intro a e h
    rw [List.foldlM_cons] at h
    cases hf : f a o with
    | error e' => rw [hf] at h; cases h; exact hu _ _ _ hf
    | ok b => rw [hf] at h; exact ih h

theorem names_nodup : (options.map (·.name)).Nodup := by decide +kernel

/-- the value from the command line -/
def cmdVal (given : Given) (o : Opt) : Except Failure (Option Val) :=
  match o.cmd, given o.name with
  | true, some raw =>
    if o.storeFalse then .ok (some (.bool false))
    else match o.type.convert raw with
      | none => .error .usage
      | some v => .ok (some v)
  | _, _ => .ok none

/-- the value from the configuration, after the value from the command line -/
def cfgVal (ini : Ini) (sec : Str) (o : Opt) (cur : Option Val) : Except Failure (Option Val) :=
  if o.config = false then .ok cur
  else if cur.isSome then .ok cur
  else match ini.get sec o.name with
    | none => .ok cur
    | some raw =>
      match o.type.convert raw with
      | none => .error .usage
      | some v => .ok (some v)

theorem argparse_ok {given : Given} {a : Args} : argparse given = .ok a ↔
    (∀ o ∈ options, cmdVal given o = .ok (a o.name)) ∧ ∀ n, n ∉ options.map (·.name) → a n = none := by
  unfold argparse
  rw [fold_pointwise (g := fun o cur => if o.cmd = false then .ok cur else cmdVal given o) _ names_nodup]
  · constructor
    · rintro ⟨h1, h2⟩
      refine ⟨fun o ho => ?_, h2⟩
      have := h1 o ho
      split at this
      · rename_i hc
        rw [← this]; unfold cmdVal; rw [hc]
      · exact this
    · rintro ⟨h1, h2⟩
      refine ⟨fun o ho => ?_, h2⟩
      rw [← h1 o ho]
      split
      · rename_i hc
        unfold cmdVal; rw [hc]
      · rfl
  · intro a o
    unfold argparseOne cmdVal
    rcases o.cmd with _ | _
    · simp [Except.map, Args.set_self]
    · simp only [Bool.true_eq_false, ↓reduceIte]
      cases given o.name with
      | none => rfl
      | some raw =>
        simp only
        split
        · rfl
        · cases o.type.convert raw <;> rfl

theorem merge_ok {ini : Ini} {sec : Str} {a b : Args} : options.foldlM (mergeOne ini sec) a = .ok b ↔
    (∀ o ∈ options, cfgVal ini sec o (a o.name) = .ok (b o.name)) ∧ ∀ n, n ∉ options.map (·.name) → b n = a n := by
  rw [fold_pointwise (g := cfgVal ini sec) _ names_nodup]
  intro a o
  unfold mergeOne cfgVal
  split
  · simp [Except.map, Args.set_self]
  · split
    · simp [Except.map, Args.set_self]
    · cases ini.get sec o.name with
      | none => simp [Except.map, Args.set_self]
      | some raw => simp only; cases o.type.convert raw <;> rfl

theorem argparse_usage {given : Given} {e : Failure} (h : argparse given = .error e) : e = .usage := by
  refine fold_usage (f := argparseOne given) ?_ h
  intro a o e h
  unfold argparseOne at h
  grind

theorem merge_usage {ini : Ini} {sec : Str} {a : Args} {e : Failure}
    (h : options.foldlM (mergeOne ini sec) a = .error e) : e = .usage := by
  refine fold_usage (f := mergeOne ini sec) ?_ h
  intro a o e h
  unfold mergeOne at h
  grind

theorem setDefaults_fold : ∀ {os : List Opt} {a : Args}, (os.map (·.name)).Nodup →
    (∀ o ∈ os, os.foldl (fun args o => if (args o.name).isNone then args.set o.name o.default else args) a o.name =
      (a o.name).or o.default) ∧
    ∀ n, n ∉ os.map (·.name) →
      os.foldl (fun args o => if (args o.name).isNone then args.set o.name o.default else args) a n = a n := by
  intro os
  induction os with
  | nil => intro a _; simp
  | cons o os ih =>
    intro a hn
    simp only [List.map_cons, List.nodup_cons] at hn
    obtain ⟨hno, hn⟩ := hn
    simp only [List.foldl_cons]
    have hstep : ∀ n, (if (a o.name).isNone then a.set o.name o.default else a) n =
        if n = o.name then (a o.name).or o.default else a n := by
      intro n
      cases ha : a o.name with
      | none => simp [Args.set]
      | some v =>
        simp only [Option.isNone_some, Bool.false_eq_true, ↓reduceIte, Option.some_or]
        split
        · rename_i h; rw [h, ha]
        · rfl
    generalize (if (a o.name).isNone then a.set o.name o.default else a) = a' at *
    obtain ⟨h1, h2⟩ := ih (a := a') hn
    constructor
    · intro p hp
      rcases List.mem_cons.1 hp with rfl | hp
      · rw [h2 _ hno, hstep]; simp
      · rw [h1 p hp, hstep, if_neg]
        intro he
        exact hno (he ▸ List.mem_map_of_mem hp)
    · intro n hn'
      simp only [List.map_cons, List.mem_cons, not_or] at hn'
      rw [h2 n hn'.2, hstep, if_neg hn'.1]

theorem setDefaults_apply {a : Args} {o : Opt} (ho : o ∈ options) : setDefaults a o.name = (a o.name).or o.default :=
  (setDefaults_fold names_nodup).1 o ho

theorem opt_unique {o p : Opt} (ho : o ∈ options) (hp : p ∈ options) (h : o.name = p.name) : o = p := by
  have : ∀ o ∈ options, ∀ p ∈ options, o.name = p.name → o = p := by decide +kernel
  exact this o ho p hp h

end Imageio.Options
