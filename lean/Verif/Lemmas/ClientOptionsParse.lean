import Verif.Lemmas.ClientOptions
import Verif.Spec.ClientOptions
/-!
The result of the option parser.
-/
namespace Imageio.Options
open Imageio.Http Imageio.Spec


theorem opt_config : ({ name := "config", cmd := true } : Opt) ∈ options := by decide +kernel
theorem opt_password : ({ name := "password", config := true } : Opt) ∈ options := by decide +kernel
theorem opt_password_file : ({ name := "password_file", cmd := true } : Opt) ∈ options := by decide +kernel

theorem cmdVal_str {given : Given} {o : Opt} (h1 : o.cmd = true) (h2 : o.storeFalse = false) (h3 : o.type = .str) :
    cmdVal given o = .ok ((given o.name).map .str) := by
  unfold cmdVal
  rw [h1, h2, h3]
  cases given o.name <;> rfl

/-- the value after the command line and the configuration -/
def merged (given : Given) (w : World) (o : Opt) : Except Failure (Option Val) :=
  cmdVal given o >>= fun c =>
    match given "config" with
    | some (x :: xs) => cfgVal w.ini (x :: xs) o c
    | _ => .ok c

theorem mergeIf_spec {given : Given} {w : World} {a : Args} (ha : argparse given = .ok a) :
    mergeIf w.ini a = match given "config" with
      | some (x :: xs) => mergeConfig w.ini (x :: xs) a
      | _ => .ok a := by
  have := (argparse_ok.1 ha).1 _ opt_config
  rw [cmdVal_str rfl rfl rfl] at this
  simp only at this
  have hc : a "config" = (given "config").map .str := (Except.ok.inj this).symm
  unfold mergeIf
  rw [hc]
  rcases given "config" with _ | _ | ⟨x, xs⟩ <;> rfl

/-- the section exists, if one was asked for -/
def SectionOk (given : Given) (w : World) : Prop := ∀ sec, Section given sec → (w.ini.sections sec).isSome

theorem merge_spec {given : Given} {w : World} {b : Args} :
    (argparse given >>= fun a => mergeIf w.ini a) = .ok b →
    SectionOk given w ∧ ∀ o ∈ options, merged given w o = .ok (b o.name) := by
  intro h
  cases ha : argparse given with
  | error e => rw [ha] at h; cases h
  | ok a =>
    rw [ha] at h
    change mergeIf w.ini a = .ok b at h
    rw [mergeIf_spec ha] at h
    obtain ⟨hargs, _⟩ := argparse_ok.1 ha
    unfold SectionOk Section merged
    rcases hg : given "config" with _ | _ | ⟨x, xs⟩
    · rw [hg] at h; cases h
      refine ⟨by rintro sec ⟨h, _⟩; simp at h, fun o ho => ?_⟩
      rw [hargs o ho]; rfl
    · rw [hg] at h; cases h
      refine ⟨by rintro sec ⟨h, h'⟩; cases h; exact absurd rfl h', fun o ho => ?_⟩
      rw [hargs o ho]; rfl
    · rw [hg] at h
      simp only [mergeConfig] at h
      cases hs : w.ini.sections (x :: xs) with
      | none => rw [hs] at h; cases h
      | some s =>
        rw [hs] at h
        obtain ⟨hm, _⟩ := merge_ok.1 h
        refine ⟨?_, fun o ho => ?_⟩
        · rintro sec ⟨h, _⟩
          cases h
          rw [hs]; rfl
        · rw [hargs o ho]; exact hm o ho

theorem merge_fails {given : Given} {w : World} {e : Failure} :
    (argparse given >>= fun a => mergeIf w.ini a) = .error e →
    e = .usage ∧ (¬ SectionOk given w ∨ ∃ o ∈ options, merged given w o = .error .usage) := by
  intro h
  cases ha : argparse given with
  | error e' =>
    rw [ha] at h; cases h
    refine ⟨argparse_usage ha, .inr ?_⟩
    apply Classical.byContradiction
    intro hall
    -- all command line values are fine: build the namespace
    let a : Args := fun n => match options.find? (·.name == n) with
      | none => none
      | some o => match cmdVal given o with
        | .ok v => v
        | .error _ => none
    have hfind : ∀ o ∈ options, options.find? (·.name == o.name) = some o := by decide +kernel
    have hnone : ∀ n, n ∉ options.map (·.name) → options.find? (·.name == n) = none := by
      intro n hn
      rw [List.find?_eq_none]
      intro o ho he
      simp only [beq_iff_eq] at he
      exact hn (he ▸ List.mem_map_of_mem ho)
    have : argparse given = .ok a := by
      refine argparse_ok.2 ⟨fun o ho => ?_, fun n hn => by simp only [a, hnone n hn]⟩
      simp only [a, hfind o ho]
      cases hc : cmdVal given o with
      | ok v => rfl
      | error e =>
        exfalso
        apply hall
        refine ⟨o, ho, ?_⟩
        unfold merged
        rw [hc]
        have : e = .usage := by
          unfold cmdVal at hc
          grind
        rw [this]; rfl
    rw [ha] at this; cases this
  | ok a =>
    rw [ha] at h
    change mergeIf w.ini a = .error e at h
    rw [mergeIf_spec ha] at h
    obtain ⟨hargs, _⟩ := argparse_ok.1 ha
    rcases hg : given "config" with _ | _ | ⟨x, xs⟩
    · rw [hg] at h; cases h
    · rw [hg] at h; cases h
    · rw [hg] at h
      simp only [mergeConfig] at h
      cases hs : w.ini.sections (x :: xs) with
      | none =>
        rw [hs] at h; cases h
        refine ⟨rfl, .inl fun hok => ?_⟩
        have := hok (x :: xs) ⟨hg, by simp⟩
        rw [hs] at this; simp at this
      | some s =>
        rw [hs] at h
        refine ⟨merge_usage h, .inr ?_⟩
        apply Classical.byContradiction
        intro hall
        let b : Args := fun n => match options.find? (·.name == n) with
          | none => a n
          | some o => match cfgVal w.ini (x :: xs) o (a o.name) with
            | .ok v => v
            | .error _ => none
        have hfind : ∀ o ∈ options, options.find? (·.name == o.name) = some o := by decide +kernel
        have hnone : ∀ n, n ∉ options.map (·.name) → options.find? (·.name == n) = none := by
          intro n hn
          rw [List.find?_eq_none]
          intro o ho he
          simp only [beq_iff_eq] at he
          exact hn (he ▸ List.mem_map_of_mem ho)
        have : options.foldlM (mergeOne w.ini (x :: xs)) a = .ok b := by
          refine merge_ok.2 ⟨fun o ho => ?_, fun n hn => by simp only [b, hnone n hn]⟩
          simp only [b, hfind o ho]
          cases hc : cfgVal w.ini (x :: xs) o (a o.name) with
          | ok v => rfl
          | error e =>
            exfalso
            apply hall
            refine ⟨o, ho, ?_⟩
            unfold merged
            rw [hargs o ho, hg]
            show cfgVal w.ini (x :: xs) o (a o.name) = _
            rw [hc]
            unfold cfgVal at hc
            grind
        simp only at h
        rw [h] at this; cases this

theorem inFile_get {given : Given} {w : World} {o : Opt} {raw : Str} (h : InFile given w o raw) :
    ∃ x xs, given "config" = some (x :: xs) ∧ w.ini.get (x :: xs) o.name = some raw := by
  obtain ⟨_, sec, s, ⟨hg, hne⟩, hs, hr⟩ := h
  cases sec with
  | nil => exact absurd rfl hne
  | cons x xs =>
    refine ⟨x, xs, hg, ?_⟩
    unfold Ini.get
    rw [hs]
    rcases hr with hr | ⟨h1, h2⟩ <;> simp [*]

theorem get_inFile {given : Given} {w : World} {o : Opt} {raw : Str} {x : Char} {xs : Str} (ho : o.config = true)
    (hg : given "config" = some (x :: xs)) (h : w.ini.get (x :: xs) o.name = some raw) : InFile given w o raw := by
  unfold Ini.get at h
  cases hs : w.ini.sections (x :: xs) with
  | none => rw [hs] at h; cases h
  | some s =>
    rw [hs] at h
    refine ⟨ho, x :: xs, s, ⟨hg, by simp⟩, hs, ?_⟩
    cases hn : s o.name with
    | some r => simp [hn] at h; simp [h]
    | none => simp [hn] at h; simp [h]

/-- every successful run: the values before the password, and the password -/
theorem parse_ok {given : Given} {w : World} {args : Args} {asked : Bool} (h : parse given w = .ok (args, asked)) :
    ∃ b : Args, SectionOk given w ∧ (∀ o ∈ options, merged given w o = .ok (b o.name)) ∧
      (∀ o ∈ options, o.required = true → ((b o.name).or o.default).isSome) ∧
      readPassword w (setDefaults b) = .ok (args, asked) := by
  unfold parse at h
  rw [← bind_assoc] at h
  cases hm : (argparse given >>= fun a => mergeIf w.ini a) with
  | error e => rw [hm] at h; cases h
  | ok b =>
    rw [hm] at h
    obtain ⟨h1, h2⟩ := merge_spec hm
    change (checkRequired (setDefaults b) >>= fun _ => readPassword w (setDefaults b)) = _ at h
    unfold checkRequired at h
    simp only at h
    by_cases hreq : options.filter (fun o => o.required && (setDefaults b o.name).isNone) = []
    · rw [if_pos hreq] at h
      refine ⟨b, h1, h2, ?_, h⟩
      intro o ho hr
      rw [List.filter_eq_nil_iff] at hreq
      have := hreq o ho
      rw [setDefaults_apply ho] at this
      cases hv : (b o.name).or o.default with
      | none => rw [hv, hr] at this; simp at this
      | some v => rfl
    · rw [if_neg hreq] at h; cases h

theorem password_only {w : World} {a args : Args} {asked : Bool} (h : readPassword w a = .ok (args, asked)) {n : String}
    (hn : n ≠ "password") : args n = a n := by
  unfold readPassword at h
  split at h
  · split at h
    · cases h
    · cases h; simp [Args.set, hn]
  · split at h
    · cases h; simp [Args.set, hn]
    · cases h; rfl

/-- The password is not a command line option. -/
theorem password_not_cmd {o : Opt} (ho : o ∈ options) (hc : o.cmd = true) : o.name ≠ "password" := by
  have : ∀ o ∈ options, o.cmd = true → o.name ≠ "password" := by decide +kernel
  exact this o ho hc

/-- without the command line -/
theorem cmdVal_none {given : Given} {o : Opt} (h : ¬ OnCommandLine given o) : cmdVal given o = .ok none := by
  unfold cmdVal
  unfold OnCommandLine at h
  cases hc : o.cmd <;> cases hg : given o.name <;> simp_all

/-- the value before the password is looked for -/
theorem merged_config {given : Given} {w : World} {o : Opt} {raw : Str} {r : Option Val} (hn : ¬ OnCommandLine given o)
    (hf : InFile given w o raw) (h : merged given w o = .ok r) : ∃ v, r = some v ∧ o.type.convert raw = some v := by
  obtain ⟨x, xs, hx, hget⟩ := inFile_get hf
  unfold merged at h
  rw [cmdVal_none hn, hx] at h
  change cfgVal w.ini (x :: xs) o none = _ at h
  unfold cfgVal at h
  rw [hf.1, hget] at h
  simp only [Bool.true_eq_false, ↓reduceIte, Option.isSome_none, Bool.false_eq_true] at h
  cases hc : o.type.convert raw with
  | none => rw [hc] at h; cases h
  | some v => rw [hc] at h; exact ⟨v, (Except.ok.inj h).symm, rfl⟩

theorem merged_none {given : Given} {w : World} {o : Opt} {r : Option Val} (hn : ¬ OnCommandLine given o)
    (hf : ∀ raw, ¬ InFile given w o raw) (h : merged given w o = .ok r) : r = none := by
  unfold merged at h
  rw [cmdVal_none hn] at h
  change (match given "config" with
      | some (x :: xs) => cfgVal w.ini (x :: xs) o none
      | _ => .ok none) = _ at h
  split at h
  · rename_i x xs hx
    unfold cfgVal at h
    split at h
    · exact (Except.ok.inj h).symm
    · rename_i hc
      have hc : o.config = true := by simpa using hc
      cases hg : w.ini.get (x :: xs) o.name with
      | some raw => exact absurd (get_inFile hc hx hg) (hf raw)
      | none =>
        rw [hg] at h
        simp at h
        exact h.symm
  · exact (Except.ok.inj h).symm

theorem passwordFile_value {given : Given} {w : World} {b : Args} (hm : ∀ o ∈ options, merged given w o = .ok (b o.name)) :
    setDefaults b "password_file" = (given "password_file").map .str := by
  have ho := opt_password_file
  have hs := setDefaults_apply (a := b) ho
  have h := hm _ ho
  unfold merged at h
  rw [cmdVal_str rfl rfl rfl] at h
  change (match given "config" with
      | some (x :: xs) => cfgVal w.ini (x :: xs) _ _
      | _ => .ok _) = _ at h
  simp only at hs h
  rw [hs, Option.or_none]
  split at h
  · unfold cfgVal at h
    simp at h
    exact h.symm
  · exact (Except.ok.inj h).symm

/-- the values and the required options -/
theorem parse_cases (given : Given) (w : World) : parse given w = .error .usage ∨
    ∃ b : Args, SectionOk given w ∧ (∀ o ∈ options, merged given w o = .ok (b o.name)) ∧
      (∀ o ∈ options, o.required = true → ((b o.name).or o.default).isSome) ∧
      parse given w = readPassword w (setDefaults b) := by
  unfold parse
  rw [← bind_assoc]
  cases hm : (argparse given >>= fun a => mergeIf w.ini a) with
  | error e =>
    obtain ⟨rfl, _⟩ := merge_fails hm
    exact .inl rfl
  | ok b =>
    obtain ⟨h1, h2⟩ := merge_spec hm
    change (checkRequired (setDefaults b) >>= fun _ => readPassword w (setDefaults b)) = _ ∨
      ∃ b' : Args, _ ∧ _ ∧ _ ∧ (checkRequired (setDefaults b) >>= fun _ => readPassword w (setDefaults b)) = _
    unfold checkRequired
    simp only
    by_cases hreq : options.filter (fun o => o.required && (setDefaults b o.name).isNone) = []
    · rw [if_pos hreq]
      refine .inr ⟨b, h1, h2, ?_, rfl⟩
      intro o ho hr
      rw [List.filter_eq_nil_iff] at hreq
      have := hreq o ho
      rw [setDefaults_apply ho] at this
      cases hv : (b o.name).or o.default with
      | none => rw [hv, hr] at this; simp at this
      | some v => rfl
    · rw [if_neg hreq]; exact .inl rfl

theorem merged_error {given : Given} {w : World} {o : Opt} {e : Failure} (h : merged given w o = .error e) :
    (o.cmd = true ∧ o.storeFalse = false ∧ ∃ raw, given o.name = some raw ∧ o.type.convert raw = none) ∨
    (¬ OnCommandLine given o ∧ ∃ raw, InFile given w o raw ∧ o.type.convert raw = none) := by
  unfold merged at h
  cases hc : cmdVal given o with
  | error e' =>
    unfold cmdVal at hc
    refine .inl ?_
    split at hc
    · rename_i raw h1 h2
      split at hc
      · cases hc
      · rename_i hsf
        split at hc
        · rename_i hv
          exact ⟨h1, by simpa using hsf, raw, h2, hv⟩
        · cases hc
    · cases hc
  | ok c =>
    rw [hc] at h
    change (match given "config" with
      | some (x :: xs) => cfgVal w.ini (x :: xs) o c
      | _ => .ok c) = _ at h
    split at h
    · rename_i x xs hx
      unfold cfgVal at h
      split at h
      · cases h
      · rename_i hcfg
        split at h
        · cases h
        · rename_i hnone
          split at h
          · cases h
          · rename_i raw hget
            split at h
            · rename_i hv
              refine .inr ⟨?_, raw, get_inFile (by simpa using hcfg) hx hget, hv⟩
              rintro ⟨h1, h2⟩
              apply hnone
              unfold cmdVal at hc
              split at hc
              · split at hc
                · cases hc; rfl
                · split at hc
                  · cases hc
                  · cases hc; rfl
              · rename_i hno
                cases hg : given o.name with
                | none => rw [hg] at h2; simp at h2
                | some r => exact absurd hg (hno r h1)
            · cases h
    · cases h

theorem merged_missing {given : Given} {w : World} {o : Opt} (h : merged given w o = .ok none) :
    ¬ OnCommandLine given o ∧ ∀ raw, ¬ InFile given w o raw := by
  have h1 : ¬ OnCommandLine given o := by
    rintro ⟨h1, h2⟩
    cases hg : given o.name with
    | none => rw [hg] at h2; simp at h2
    | some r =>
      unfold merged at h
      cases hc : cmdVal given o with
      | error e => rw [hc] at h; cases h
      | ok c =>
        have hcs : c.isSome := by
          unfold cmdVal at hc
          rw [h1, hg] at hc
          simp only at hc
          grind
        rw [hc] at h
        change (match given "config" with
          | some (x :: xs) => cfgVal w.ini (x :: xs) o c
          | _ => .ok c) = _ at h
        split at h
        · unfold cfgVal at h
          rw [hcs] at h
          cases c with
          | none => simp at hcs
          | some v => simp at h
        · cases h; simp at hcs
  refine ⟨h1, fun raw hf => ?_⟩
  obtain ⟨v, hv, _⟩ := merged_config h1 hf h
  cases hv

end Imageio.Options
