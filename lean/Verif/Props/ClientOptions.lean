import Verif.Lemmas.ClientOptionsParse
import Verif.Props.Options
/-!
C57: where the options of `ovirt-img` come from.
-/
namespace Imageio.Props
open Imageio.Options Imageio.Http Imageio.Spec

/-- An option on the command line is used, whatever the configuration says. -/
theorem C57_command {given : Given} {w : World} {args : Args} {asked : Bool} (h : parse given w = .ok (args, asked))
    {o : Opt} (ho : o ∈ options) (hc : o.cmd = true) {raw : Str} (hg : given o.name = some raw) :
    ∃ v, args o.name = some v ∧
      ((o.storeFalse = true ∧ v = .bool false) ∨ (o.storeFalse = false ∧ o.type.convert raw = some v)) := by
  obtain ⟨b, _, hm, _, hp⟩ := parse_ok h
  rw [password_only hp (password_not_cmd ho hc), setDefaults_apply ho]
  have hmo := hm o ho
  have key : ∀ v, cmdVal given o = .ok (some v) → b o.name = some v := by
    intro v hv
    unfold merged at hmo
    rw [hv] at hmo
    change (match given "config" with
      | some (x :: xs) => cfgVal w.ini (x :: xs) o (some v)
      | _ => .ok (some v)) = _ at hmo
    split at hmo
    · unfold cfgVal at hmo
      simp at hmo
      exact hmo.symm
    · exact (Except.ok.inj hmo).symm
  cases hs : o.storeFalse with
  | true =>
    refine ⟨.bool false, ?_, .inl ⟨rfl, rfl⟩⟩
    rw [key (.bool false) (by unfold cmdVal; rw [hc, hg, hs]; rfl)]
    rfl
  | false =>
    cases hv : o.type.convert raw with
    | none =>
      have hbad : cmdVal given o = .error .usage := by unfold cmdVal; simp [hc, hg, hs, hv]
      unfold merged at hmo
      rw [hbad] at hmo
      cases hmo
    | some v =>
      refine ⟨v, ?_, .inr ⟨rfl, rfl⟩⟩
      rw [key v (by unfold cmdVal; simp [hc, hg, hs, hv])]
      rfl

/-- An option that is not on the command line is taken from the configuration; a password from the
configuration only without a password file. -/
theorem C57_config {given : Given} {w : World} {args : Args} {asked : Bool} (h : parse given w = .ok (args, asked))
    {o : Opt} (ho : o ∈ options) (hn : ¬ OnCommandLine given o) {raw : Str} (hf : InFile given w o raw)
    (hp : o.name = "password" → ∀ path, ¬ PasswordFile given path) :
    ∃ v, args o.name = some v ∧ o.type.convert raw = some v := by
  obtain ⟨b, _, hm, _, hr⟩ := parse_ok h
  obtain ⟨v, hv, hc⟩ := merged_config hn hf (hm o ho)
  refine ⟨v, ?_, hc⟩
  have hsd : setDefaults b o.name = some v := by rw [setDefaults_apply ho, hv]; rfl
  by_cases hpw : o.name = "password"
  · have hnf := hp hpw
    unfold readPassword at hr
    rw [passwordFile_value hm] at hr
    rw [hpw] at hsd ⊢
    split at hr
    · rename_i c cs hg
      exfalso
      refine hnf (c :: cs) ⟨?_, by simp⟩
      cases hgp : given "password_file" with
      | none => rw [hgp] at hg; cases hg
      | some p => rw [hgp] at hg; simp at hg; rw [hg]
    · rw [hsd] at hr
      simp at hr
      rw [← hr.1, hsd]
  · rw [password_only hr hpw, hsd]

/-- Otherwise it has its default. -/
theorem C57_default {given : Given} {w : World} {args : Args} {asked : Bool} (h : parse given w = .ok (args, asked))
    {o : Opt} (ho : o ∈ options) (hn : ¬ OnCommandLine given o) (hf : ∀ raw, ¬ InFile given w o raw)
    (hp : o.name ≠ "password") : args o.name = o.default := by
  obtain ⟨b, _, hm, _, hr⟩ := parse_ok h
  rw [password_only hr hp, setDefaults_apply ho, merged_none hn hf (hm o ho)]
  rfl

/-- The password: from the password file without the newlines at the end, else from the configuration,
else what the user typed; the user is asked only in the last case. -/
theorem C57_password {given : Given} {w : World} {args : Args} {asked : Bool} (h : parse given w = .ok (args, asked)) :
    (∀ path, PasswordFile given path → ∃ text pass n, w.files path = .ok text ∧
      text = pass ++ List.replicate n '\n' ∧ pass.getLast? ≠ some '\n' ∧
      args "password" = some (.str pass) ∧ asked = false) ∧
    ((∀ path, ¬ PasswordFile given path) → ∀ raw, InFile given w { name := "password", config := true } raw →
      args "password" = some (.str raw) ∧ asked = false) ∧
    ((∀ path, ¬ PasswordFile given path) → (∀ raw, ¬ InFile given w { name := "password", config := true } raw) →
      args "password" = some (.str w.typed) ∧ asked = true) := by
  obtain ⟨b, _, hm, _, hr⟩ := parse_ok h
  have hpf := passwordFile_value hm
  refine ⟨?_, ?_, ?_⟩
  · rintro path ⟨hg, hne⟩
    cases path with
    | nil => exact absurd rfl hne
    | cons c cs =>
      unfold readPassword at hr
      rw [hpf, hg] at hr
      simp only [Option.map_some] at hr
      cases hw : w.files (c :: cs) with
      | error e => rw [hw] at hr; cases hr
      | ok text =>
        rw [hw] at hr
        simp only [Except.ok.injEq, Prod.mk.injEq] at hr
        refine ⟨text, rstripNl text, (text.reverse.takeWhile (· == '\n')).length, rfl, ?_, ?_, ?_, hr.2.symm⟩
        · have htw : ∀ l : Str, l.takeWhile (· == '\n') = List.replicate (l.takeWhile (· == '\n')).length '\n' := by
            intro l
            rw [List.eq_replicate_iff]
            refine ⟨rfl, fun c hc => ?_⟩
            have := List.all_eq_true.1 List.all_takeWhile c hc
            simpa using this
          have hsplit := List.takeWhile_append_dropWhile (p := (· == '\n')) (l := text.reverse)
          have := congrArg List.reverse hsplit
          rw [List.reverse_append, List.reverse_reverse, htw text.reverse, List.reverse_replicate] at this
          exact this.symm
        · unfold rstripNl
          rw [List.getLast?_reverse]
          intro hh
          have := List.head?_dropWhile_not (· == '\n') text.reverse
          rw [hh] at this
          simp at this
        · rw [← hr.1]; simp [Args.set]
  · intro hnf raw hf
    have hnc : ¬ OnCommandLine given { name := "password", config := true } := by rintro ⟨h, _⟩; cases h
    obtain ⟨v, hv, hc⟩ := C57_config h opt_password hnc hf (fun _ => hnf)
    simp only [Ty.convert, Option.some.injEq] at hc
    refine ⟨by rw [hc]; exact hv, ?_⟩
    obtain ⟨v', hv', hc'⟩ := merged_config hnc hf (hm _ opt_password)
    have hsd : setDefaults b "password" = some v' := by
      have := setDefaults_apply (a := b) opt_password
      simp only at this hv'
      rw [this, hv']; rfl
    unfold readPassword at hr
    rw [hsd] at hr
    split at hr
    · rename_i c cs hg
      rw [hpf] at hg
      exfalso
      refine hnf (c :: cs) ⟨?_, by simp⟩
      cases hgp : given "password_file" with
      | none => rw [hgp] at hg; cases hg
      | some p => rw [hgp] at hg; simp at hg; rw [hg]
    · simp at hr
      simp [hr.2]
  · intro hnf hf
    have hnc : ¬ OnCommandLine given { name := "password", config := true } := by rintro ⟨h, _⟩; cases h
    have hb := merged_none hnc hf (hm _ opt_password)
    have hsd : setDefaults b "password" = none := by
      have := setDefaults_apply (a := b) opt_password
      simp only at this hb
      rw [this, hb]; rfl
    unfold readPassword at hr
    rw [hsd] at hr
    split at hr
    · rename_i c cs hg
      rw [hpf] at hg
      exfalso
      refine hnf (c :: cs) ⟨?_, by simp⟩
      cases hgp : given "password_file" with
      | none => rw [hgp] at hg; cases hg
      | some p => rw [hgp] at hg; simp at hg; rw [hg]
    · simp at hr
      rw [← hr.1, ← hr.2]
      simp [Args.set]

/-- What is reported as wrong usage. -/
inductive WrongUsage (given : Given) (w : World) : Prop
  /-- an invalid value on the command line -/
  | command (o : Opt) (raw : Str) (ho : o ∈ options) (hc : o.cmd = true) (hs : o.storeFalse = false)
    (hg : given o.name = some raw) (hv : o.type.convert raw = none)
  /-- the section does not exist -/
  | noSection (sec : Str) (hs : Section given sec) (hn : w.ini.sections sec = none)
  /-- an invalid value in the configuration, of an option that is not on the command line -/
  | config (o : Opt) (raw : Str) (ho : o ∈ options) (hn : ¬ OnCommandLine given o) (hf : InFile given w o raw)
    (hv : o.type.convert raw = none)
  /-- a required option is nowhere -/
  | missing (o : Opt) (ho : o ∈ options) (hr : o.required = true) (hn : ¬ OnCommandLine given o)
    (hf : ∀ raw, ¬ InFile given w o raw)

/-- Parsing fails with wrong usage exactly in these cases, otherwise only if the password file cannot be
read. -/
theorem C57_fails (given : Given) (w : World) :
    (parse given w = .error .usage ↔ WrongUsage given w) ∧
    ∀ e, parse given w = .error (.raised e) ↔
      ¬ WrongUsage given w ∧ ∃ path, PasswordFile given path ∧ w.files path = .error e := by
  have hreqd : ∀ o ∈ options, o.required = true → o.default = none := by decide +kernel
  have good : ∀ b : Args, SectionOk given w → (∀ o ∈ options, merged given w o = .ok (b o.name)) →
      (∀ o ∈ options, o.required = true → ((b o.name).or o.default).isSome) → ¬ WrongUsage given w := by
    intro b hsec hm hreq hw
    cases hw with
    | command o raw ho hc hs hg hv =>
      have := hm o ho
      have hbad : cmdVal given o = .error .usage := by unfold cmdVal; simp [hc, hg, hs, hv]
      unfold merged at this
      rw [hbad] at this
      cases this
    | noSection sec hs hn =>
      have := hsec sec hs
      rw [hn] at this; simp at this
    | config o raw ho hn hf hv =>
      obtain ⟨v, _, hc⟩ := merged_config hn hf (hm o ho)
      rw [hv] at hc; cases hc
    | missing o ho hr hn hf =>
      have := hreq o ho hr
      rw [merged_none hn hf (hm o ho), hreqd o ho hr] at this
      simp at this
  have nousage : ∀ (a : Args), readPassword w a ≠ .error .usage := by
    intro a h
    unfold readPassword at h
    split at h
    · split at h <;> simp at h
    · split at h <;> simp at h
  have bad : parse given w = .error .usage → WrongUsage given w := by
    intro h
    apply Classical.byContradiction
    intro hw
    unfold parse at h
    rw [← bind_assoc] at h
    cases hm : (argparse given >>= fun a => mergeIf w.ini a) with
    | error e =>
      obtain ⟨_, hs | ⟨o, ho, hmo⟩⟩ := merge_fails hm
      · apply hs
        intro sec hsec
        cases hss : w.ini.sections sec with
        | none => exact absurd (.noSection sec hsec hss) hw
        | some _ => rfl
      · rcases merged_error hmo with ⟨h1, h2, raw, h3, h4⟩ | ⟨h1, raw, h2, h3⟩
        · exact hw (.command o raw ho h1 h2 h3 h4)
        · exact hw (.config o raw ho h1 h2 h3)
    | ok b =>
      obtain ⟨_, h2⟩ := merge_spec hm
      rw [hm] at h
      change (checkRequired (setDefaults b) >>= fun _ => readPassword w (setDefaults b)) = _ at h
      unfold checkRequired at h
      simp only at h
      by_cases hreq : options.filter (fun o => o.required && (setDefaults b o.name).isNone) = []
      · rw [if_pos hreq] at h
        exact nousage _ h
      · obtain ⟨o, ho⟩ := List.exists_mem_of_ne_nil _ hreq
        rw [List.mem_filter] at ho
        obtain ⟨ho, hb⟩ := ho
        simp only [Bool.and_eq_true, Option.isNone_iff_eq_none] at hb
        rw [setDefaults_apply ho, Option.or_eq_none_iff] at hb
        have := h2 o ho
        rw [hb.2.1] at this
        obtain ⟨h3, h4⟩ := merged_missing this
        exact hw (.missing o ho hb.1 h3 h4)
  refine ⟨⟨bad, fun hw => ?_⟩, fun e => ?_⟩
  · rcases parse_cases given w with h | ⟨b, h1, h2, h3, _⟩
    · exact h
    · exact absurd hw (good b h1 h2 h3)
  · rcases parse_cases given w with h | ⟨b, h1, h2, h3, h4⟩
    · rw [h]
      exact ⟨fun h' => (by cases h'), fun h' => absurd (bad h) h'.1⟩
    · rw [h4]
      have hpf := passwordFile_value h2
      unfold readPassword
      rw [hpf]
      constructor
      · intro h
        refine ⟨good b h1 h2 h3, ?_⟩
        split at h
        · rename_i c cs hg
          split at h
          · rename_i hf
            cases h
            refine ⟨c :: cs, ⟨?_, by simp⟩, hf⟩
            cases hgp : given "password_file" with
            | none => rw [hgp] at hg; cases hg
            | some p => rw [hgp] at hg; simp at hg; rw [hg]
          · cases h
        · split at h <;> cases h
      · rintro ⟨_, path, ⟨hg, hne⟩, hf⟩
        cases path with
        | nil => exact absurd rfl hne
        | cons c cs =>
          rw [hg]
          simp only [Option.map_some, hf]

/-- The secure option. -/
def secureOpt : Opt :=
  { name := "secure", cmd := true, storeFalse := true, config := true, default := some (.bool true), type := .bool }

theorem secure_mem : secureOpt ∈ options := by decide +kernel

/-- Certificates are not verified only if the user asked for it: with `--insecure`, or with one of the
four words in the configuration. -/
theorem C57_secure {given : Given} {w : World} {args : Args} {asked : Bool} (h : parse given w = .ok (args, asked)) :
    (args "secure" = some (.bool true) ∨ args "secure" = some (.bool false)) ∧
    (args "secure" = some (.bool false) ↔ (given "secure").isSome ∨ ∃ raw, InFile given w secureOpt raw ∧
      raw.map Char.toLower ∈ ["0".toList, "no".toList, "false".toList, "off".toList]) := by
  have hconv : ∀ raw v, secureOpt.type.convert raw = some v →
      (v = .bool true ∧ raw.map Char.toLower ∉ ["0".toList, "no".toList, "false".toList, "off".toList]) ∨
      (v = .bool false ∧ raw.map Char.toLower ∈ ["0".toList, "no".toList, "false".toList, "off".toList]) := by
    intro raw v hv
    simp only [secureOpt, Ty.convert, booleanValues] at hv
    generalize raw.map Char.toLower = l at hv ⊢
    simp only [List.lookup, Option.map_eq_some_iff] at hv
    obtain ⟨b, hb, rfl⟩ := hv
    repeat' split at hb
    all_goals first
      | (cases hb; rename_i he; rw [beq_iff_eq] at he; subst he; decide)
      | cases hb
  by_cases hg : (given "secure").isSome
  · obtain ⟨raw, hraw⟩ := Option.isSome_iff_exists.1 hg
    obtain ⟨v, hv, hh⟩ := C57_command h secure_mem rfl hraw
    rcases hh with ⟨_, rfl⟩ | ⟨h', _⟩
    · exact ⟨.inr hv, fun _ => .inl hg, fun _ => hv⟩
    · cases h'
  · have hn : ¬ OnCommandLine given secureOpt := fun h => hg h.2
    by_cases hf : ∃ raw, InFile given w secureOpt raw
    · obtain ⟨raw, hf⟩ := hf
      obtain ⟨v, hv, hc⟩ := C57_config h secure_mem hn hf (fun h => absurd h (by decide))
      have huniq : ∀ raw', InFile given w secureOpt raw' → raw' = raw := by
        intro raw' hf'
        obtain ⟨x, xs, hx, hget⟩ := inFile_get hf
        obtain ⟨x', xs', hx', hget'⟩ := inFile_get hf'
        rw [hx] at hx'; cases hx'
        rw [hget] at hget'; cases hget'; rfl
      change args "secure" = _ at hv
      rcases hconv raw v hc with ⟨rfl, hmem⟩ | ⟨rfl, hmem⟩
      · refine ⟨.inl hv, ⟨fun he => ?_, ?_⟩⟩
        · rw [hv] at he; cases he
        · rintro (h | ⟨raw', hf', hm⟩)
          · exact absurd h hg
          · rw [huniq raw' hf'] at hm; exact absurd hm hmem
      · exact ⟨.inr hv, fun _ => .inr ⟨raw, hf, hmem⟩, fun _ => hv⟩
    · have := C57_default h secure_mem hn (fun raw hr => hf ⟨raw, hr⟩) (by decide)
      change args "secure" = some (.bool true) at this
      refine ⟨.inl this, ⟨fun he => ?_, ?_⟩⟩
      · rw [this] at he; cases he
      · rintro (h | ⟨raw', hf', _⟩)
        · exact absurd h hg
        · exact absurd ⟨raw', hf'⟩ hf

/-- The number of workers and the size of the buffers are in the documented ranges. -/
theorem C57_transfer {g : Option Str} {n : Int} :
    (maxWorkers g = some n → 1 ≤ n ∧ n ≤ 8) ∧ (bufferSize g = some n → 65536 ≤ n ∧ n ≤ 16777216) := by
  constructor
  · intro h
    cases g with
    | none => cases h; decide
    | some s =>
      obtain ⟨_, h1, h2⟩ := (C40_size_iff _ s n).1 h
      exact ⟨h1, h2 8 rfl⟩
  · intro h
    cases g with
    | none => cases h; decide
    | some s =>
      obtain ⟨_, h1, h2⟩ := (C40_size_iff _ s n).1 h
      exact ⟨by simpa using h1, by simpa using h2 _ rfl⟩

/-! ## Examples -/

/-- a configuration with one section, an invalid log level and a password -/
def exampleWorld : World where
  ini := {
    defaults := fun n => if n = "cafile" then some "/ca".toList else none
    sections := fun s => if s = "prod".toList then some (fun n =>
      if n = "engine_url" then some "https://engine".toList
      else if n = "username" then some "admin".toList
      else if n = "password" then some "secret".toList
      else if n = "secure" then some "No".toList
      else if n = "log_level" then some "loud".toList
      else none) else none }
  files := fun p => if p = "/pw".toList then .ok "pa ss\n\n".toList else .error (.os "ENOENT")
  typed := "typed".toList

def exampleGiven : Given := fun n =>
  if n = "config" then some "prod".toList
  else if n = "username" then some "me".toList
  else if n = "log_level" then some "debug".toList
  else if n = "password_file" then some "/pw".toList
  else none

/-- the names and values of all options -/
def shown (r : Except Failure (Args × Bool)) : Except Failure (List (Option Val) × Bool) :=
  r.map fun p => (options.map fun o => p.1 o.name, p.2)

example : shown (parse exampleGiven exampleWorld) = .ok ([
    some (.str "prod".toList), some (.str "https://engine".toList), some (.str "me".toList), some (.str "pa ss".toList),
    some (.str "/pw".toList), some (.str "/ca".toList), some (.bool false), some (.str "text".toList), some (.int 120),
    none, some (.str "debug".toList), some (.str "Uploaded by ovirt-img".toList)], false) := by decide +kernel

/-- The invalid log level matters if it is not on the command line. -/
example : shown (parse (fun n => if n = "log_level" then none else exampleGiven n) exampleWorld) = .error .usage := by
  decide +kernel

example : maxWorkers (some "8".toList) = some 8 ∧ bufferSize (some "1m".toList) = some 1048576 := by decide +kernel

/-- An empty text counts as a value: an empty URL is not missing, and with an empty password the user is
not asked. -/
theorem C57_counterexample_empty : ∃ (given : Given) (w : World) (args : Args),
    parse given w = .ok (args, false) ∧ args "engine_url" = some (.str []) ∧ args "password" = some (.str []) := by
  let given : Given := fun n => if n = "config" then some ['s'] else none
  let w : World := ⟨⟨fun _ => none, fun _ => some fun n =>
    if n = "engine_url" ∨ n = "username" ∨ n = "password" then some [] else none⟩, fun _ => .error (.os "ENOENT"), ['x']⟩
  have hs : shown (parse given w) = .ok ([some (.str ['s']), some (.str []), some (.str []), some (.str []), none, none,
      some (.bool true), some (.str "text".toList), some (.int 120), none, some (.str "warning".toList),
      some (.str "Uploaded by ovirt-img".toList)], false) := by decide +kernel
  cases hp : parse given w with
  | error e => rw [hp] at hs; cases hs
  | ok r =>
    obtain ⟨args, asked⟩ := r
    rw [hp] at hs
    simp only [shown, Except.map, Except.ok.injEq, Prod.mk.injEq] at hs
    obtain ⟨h1, rfl⟩ := hs
    simp only [options, List.map_cons, List.map_nil, List.cons.injEq] at h1
    exact ⟨given, w, args, hp, h1.2.1, h1.2.2.2.1⟩

end Imageio.Props
