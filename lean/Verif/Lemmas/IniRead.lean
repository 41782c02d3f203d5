import Verif.Lemmas.Ini

/-! Lemmas about `Model/Ini`: the reader accepts exactly the texts of the grammar. -/
namespace Imageio.Ini
open Imageio.Http Imageio.Config Imageio.Spec.Ini

/-! ### The grammar, one line at a time -/

/-- The lines after a header, or at the beginning of a file. -/
def Free (ls : List Str) (opts : List (Str × List Str)) (f : RawFile) : Prop :=
  ∃ sk rest, ls = sk ++ rest ∧ Skip sk ∧ Body none rest opts f

/-- The lines after an option. -/
def Open (k : Nat) (ls : List Str) (t : List Str) (opts : List (Str × List Str)) (f : RawFile) : Prop :=
  ∃ vs rest, ls = vs ++ rest ∧ Value k vs t ∧ Body (some k) rest opts f

theorem line_unique {l s s' : Str} {n n' : Nat} (h : Line l n s) (h' : Line l n' s') : n = n' ∧ s = s' := by
  obtain ⟨h1, -, h2⟩ := (line_iff _ _ _).1 h
  obtain ⟨h3, -, h4⟩ := (line_iff _ _ _).1 h'
  exact ⟨h2.symm.trans h4, h1.symm.trans h3⟩

theorem line_not_blank {l s : Str} {n : Nat} (h : Line l n s) : ¬ Blank l := fun hb => by
  obtain ⟨h1, h2, -⟩ := (line_iff _ _ _).1 h
  exact h2 (h1.symm.trans ((strip_nil l).2 hb))

theorem header_not_comment {l s name : Str} {n : Nat} (h : Line l n s) (hh : Header s name) : ¬ Comment l := by
  rintro ⟨n', c, s', h', hc⟩
  obtain ⟨-, rfl⟩ := line_unique h h'
  obtain ⟨rest, e, -⟩ := hh
  obtain rfl := (List.cons.inj e).1
  rcases hc with h | h <;> exact absurd h (by decide)

theorem body_cons {b : Option Nat} {l : Str} {ls : List Str} {opts : List (Str × List Str)} {f : RawFile}
    (h : Body b (l :: ls) opts f) : ∃ n s, Line l n s ∧ ¬ Comment l ∧ (∀ k, b = some k → n ≤ k) ∧
      ((∃ name opts' f', Header s name ∧ opts = [] ∧ f = (name, opts') :: f' ∧ Free ls opts' f') ∨
        ((∀ name, ¬ Header s name) ∧ ∃ o v t opts', Setting s o v ∧ opts = (o, v :: t) :: opts' ∧ Open n ls t opts' f)) := by
  cases h with
  | option hl hc hb hh ho hv hr => exact ⟨_, _, hl, hc, hb, .inr ⟨hh, _, _, _, _, ho, rfl, _, _, rfl, hv, hr⟩⟩
  | header hl hb hh hs hr =>
    exact ⟨_, _, hl, header_not_comment hl hh, hb, .inl ⟨_, _, _, hh, rfl, rfl, _, _, rfl, hs, hr⟩⟩

theorem free_skip {l : Str} (h : Blank l ∨ Comment l) {ls : List Str} {opts : List (Str × List Str)} {f : RawFile} :
    Free (l :: ls) opts f ↔ Free ls opts f := by
  constructor
  · rintro ⟨sk, rest, e, hs, hb⟩
    cases sk with
    | nil =>
      rw [List.nil_append] at e
      subst e
      obtain ⟨n, s, hl, hc, -⟩ := body_cons hb
      exact h.elim (fun h => absurd h (line_not_blank hl)) (fun h => absurd h hc)
    | cons x sk =>
      obtain ⟨rfl, rfl⟩ := List.cons.inj e
      exact ⟨sk, rest, rfl, fun l hl => hs l (by simp [hl]), hb⟩
  · rintro ⟨sk, rest, rfl, hs, hb⟩
    exact ⟨l :: sk, rest, rfl, fun x hx => (List.mem_cons.1 hx).elim (fun e => e ▸ h) (hs x), hb⟩

theorem free_body {l : Str} (h1 : ¬ Blank l) (h2 : ¬ Comment l) {ls : List Str} {opts : List (Str × List Str)} {f : RawFile} :
    Free (l :: ls) opts f ↔ Body none (l :: ls) opts f := by
  constructor
  · rintro ⟨sk, rest, e, hs, hb⟩
    cases sk with
    | nil => rw [List.nil_append] at e; exact e ▸ hb
    | cons x sk =>
      obtain ⟨rfl, rfl⟩ := List.cons.inj e
      exact (hs l (by simp)).elim (fun h => absurd h h1) (fun h => absurd h h2)
  · exact fun h => ⟨[], _, rfl, fun _ h => by simp at h, h⟩

theorem free_header {l s name : Str} {n : Nat} (hl : Line l n s) (hh : Header s name) {ls : List Str}
    {opts : List (Str × List Str)} {f : RawFile} :
    Free (l :: ls) opts f ↔ opts = [] ∧ ∃ opts' f', f = (name, opts') :: f' ∧ Free ls opts' f' := by
  rw [free_body (line_not_blank hl) (header_not_comment hl hh)]
  constructor
  · intro h
    obtain ⟨n', s', hl', -, -, ⟨name', opts', f', hh', rfl, rfl, hf⟩ | ⟨hn, -⟩⟩ := body_cons h
    · obtain ⟨-, rfl⟩ := line_unique hl hl'
      have := ((header_iff s name).2 hh).symm.trans ((header_iff s name').2 hh')
      cases this
      exact ⟨rfl, opts', f', rfl, hf⟩
    · obtain ⟨-, rfl⟩ := line_unique hl hl'
      exact absurd hh (hn name)
  · rintro ⟨rfl, opts', f', rfl, sk, rest, rfl, hs, hb⟩
    exact .header hl (by simp) hh hs hb

theorem free_option {l s o v : Str} {n : Nat} (hl : Line l n s) (hc : ¬ Comment l) (hn : ∀ name, ¬ Header s name)
    (ho : Setting s o v) {ls : List Str} {opts : List (Str × List Str)} {f : RawFile} :
    Free (l :: ls) opts f ↔ ∃ t opts', opts = (o, v :: t) :: opts' ∧ Open n ls t opts' f := by
  have ht : Trim s := by obtain ⟨rfl, -, -⟩ := (line_iff _ _ _).1 hl; exact strip_trim l
  rw [free_body (line_not_blank hl) hc]
  constructor
  · intro h
    obtain ⟨n', s', hl', -, -, ⟨name', opts', f', hh', -⟩ | ⟨-, o', v', t, opts', ho', rfl, hf⟩⟩ := body_cons h
    · obtain ⟨-, rfl⟩ := line_unique hl hl'
      exact absurd hh' (hn name')
    · obtain ⟨rfl, rfl⟩ := line_unique hl hl'
      have := ((option_iff ht o v).2 ho).1.symm.trans ((option_iff ht o' v').2 ho').1
      cases this
      exact ⟨t, opts', rfl, hf⟩
  · rintro ⟨t, opts', rfl, vs, rest, rfl, hv, hb⟩
    exact .option hl hc (by simp) hn ho hv hb

theorem free_bad {l s : Str} {n : Nat} (hl : Line l n s) (hc : ¬ Comment l) (hn : ∀ name, ¬ Header s name)
    (ho : ∀ o v, ¬ Setting s o v) {ls : List Str} {opts : List (Str × List Str)} {f : RawFile} : ¬ Free (l :: ls) opts f := by
  rw [free_body (line_not_blank hl) hc]
  intro h
  obtain ⟨n', s', hl', -, -, ⟨name', opts', f', hh', -⟩ | ⟨-, o', v', t, opts', ho', -⟩⟩ := body_cons h
  · obtain ⟨-, rfl⟩ := line_unique hl hl'
    exact hn name' hh'
  · obtain ⟨rfl, rfl⟩ := line_unique hl hl'
    exact ho o' v' ho'

theorem open_comment {l : Str} (h : Comment l) {k : Nat} {ls t : List Str} {opts : List (Str × List Str)} {f : RawFile} :
    Open k (l :: ls) t opts f ↔ Open k ls t opts f := by
  constructor
  · rintro ⟨vs, rest, e, hv, hb⟩
    cases hv with
    | nil =>
      rw [List.nil_append] at e
      subst e
      obtain ⟨n, s, hl, hc, -⟩ := body_cons hb
      exact absurd h hc
    | comment hl hv =>
      obtain ⟨rfl, rfl⟩ := List.cons.inj e
      exact ⟨_, rest, rfl, hv, hb⟩
    | blank hl hv =>
      obtain ⟨rfl, rfl⟩ := List.cons.inj e
      obtain ⟨_, _, _, hl', -⟩ := h
      exact absurd hl (line_not_blank hl')
    | more hl hc _ hv =>
      obtain ⟨rfl, rfl⟩ := List.cons.inj e
      exact absurd h hc
  · rintro ⟨vs, rest, rfl, hv, hb⟩
    exact ⟨l :: vs, rest, rfl, .comment h hv, hb⟩

theorem open_blank {l : Str} (h : Blank l) {k : Nat} {ls t : List Str} {opts : List (Str × List Str)} {f : RawFile} :
    Open k (l :: ls) t opts f ↔ ∃ t', t = [] :: t' ∧ Open k ls t' opts f := by
  constructor
  · rintro ⟨vs, rest, e, hv, hb⟩
    cases hv with
    | nil =>
      rw [List.nil_append] at e
      subst e
      obtain ⟨n, s, hl, hc, -⟩ := body_cons hb
      exact absurd h (line_not_blank hl)
    | comment hl hv =>
      obtain ⟨rfl, rfl⟩ := List.cons.inj e
      obtain ⟨_, _, _, hl', -⟩ := hl
      exact absurd h (line_not_blank hl')
    | blank hl hv =>
      obtain ⟨rfl, rfl⟩ := List.cons.inj e
      exact ⟨_, rfl, _, rest, rfl, hv, hb⟩
    | more hl hc _ hv =>
      obtain ⟨rfl, rfl⟩ := List.cons.inj e
      exact absurd h (line_not_blank hl)
  · rintro ⟨t', rfl, vs, rest, rfl, hv, hb⟩
    exact ⟨l :: vs, rest, rfl, .blank h hv, hb⟩

theorem open_more {l s : Str} {n k : Nat} (hl : Line l n s) (hc : ¬ Comment l) (hn : k < n) {ls t : List Str}
    {opts : List (Str × List Str)} {f : RawFile} :
    Open k (l :: ls) t opts f ↔ ∃ t', t = s :: t' ∧ Open k ls t' opts f := by
  constructor
  · rintro ⟨vs, rest, e, hv, hb⟩
    cases hv with
    | nil =>
      rw [List.nil_append] at e
      subst e
      obtain ⟨n', s', hl', -, hb', -⟩ := body_cons hb
      obtain ⟨rfl, rfl⟩ := line_unique hl hl'
      have := hb' k rfl
      omega
    | comment hl' hv =>
      obtain ⟨rfl, rfl⟩ := List.cons.inj e
      exact absurd hl' hc
    | blank hl' hv =>
      obtain ⟨rfl, rfl⟩ := List.cons.inj e
      exact absurd hl' (line_not_blank hl)
    | more hl' _ _ hv =>
      obtain ⟨rfl, rfl⟩ := List.cons.inj e
      obtain ⟨rfl, rfl⟩ := line_unique hl hl'
      exact ⟨_, rfl, _, rest, rfl, hv, hb⟩
  · rintro ⟨t', rfl, vs, rest, rfl, hv, hb⟩
    exact ⟨l :: vs, rest, rfl, .more hl hc hn hv, hb⟩

theorem open_next {l s : Str} {n k : Nat} (hl : Line l n s) (hc : ¬ Comment l) (hn : n ≤ k) {ls t : List Str}
    {opts : List (Str × List Str)} {f : RawFile} : Open k (l :: ls) t opts f ↔ t = [] ∧ Free (l :: ls) opts f := by
  rw [free_body (line_not_blank hl) hc]
  constructor
  · rintro ⟨vs, rest, e, hv, hb⟩
    cases hv with
    | nil =>
      rw [List.nil_append] at e
      subst e
      refine ⟨rfl, ?_⟩
      cases hb with
      | option hl hc hb hh ho hv hr => exact .option hl hc (by simp) hh ho hv hr
      | header hl hb hh hs hr => exact .header hl (by simp) hh hs hr
    | comment hl' hv =>
      obtain ⟨rfl, rfl⟩ := List.cons.inj e
      exact absurd hl' hc
    | blank hl' hv =>
      obtain ⟨rfl, rfl⟩ := List.cons.inj e
      exact absurd hl' (line_not_blank hl)
    | more hl' _ hn' hv =>
      obtain ⟨rfl, rfl⟩ := List.cons.inj e
      obtain ⟨rfl, rfl⟩ := line_unique hl hl'
      omega
  · rintro ⟨rfl, hb⟩
    refine ⟨[], _, rfl, .nil, ?_⟩
    have hle : ∀ n', Line l n' s → ∀ k', some k = some k' → n' ≤ k' := by
      rintro n' hl' k' ⟨⟩
      obtain ⟨rfl, -⟩ := line_unique hl hl'
      exact hn
    cases hb with
    | option hl' hc hb hh ho hv hr =>
      obtain ⟨-, rfl⟩ := line_unique hl hl'
      exact .option hl' hc (hle _ hl') hh ho hv hr
    | header hl' hb hh hs hr =>
      obtain ⟨-, rfl⟩ := line_unique hl hl'
      exact .header hl' (hle _ hl') hh hs hr

theorem free_nil {opts : List (Str × List Str)} {f : RawFile} : Free [] opts f ↔ opts = [] ∧ f = [] := by
  constructor
  · rintro ⟨sk, rest, e, -, hb⟩
    obtain ⟨rfl, rfl⟩ := List.append_eq_nil_iff.1 e.symm
    cases hb
    exact ⟨rfl, rfl⟩
  · rintro ⟨rfl, rfl⟩
    exact ⟨[], [], rfl, fun _ h => by simp at h, .done _⟩

theorem open_nil {k : Nat} {t : List Str} {opts : List (Str × List Str)} {f : RawFile} :
    Open k [] t opts f ↔ t = [] ∧ opts = [] ∧ f = [] := by
  constructor
  · rintro ⟨vs, rest, e, hv, hb⟩
    obtain ⟨rfl, rfl⟩ := List.append_eq_nil_iff.1 e.symm
    cases hb
    cases hv
    exact ⟨rfl, rfl, rfl⟩
  · rintro ⟨rfl, rfl, rfl⟩
    exact ⟨[], [], rfl, .nil, .done _⟩

/-! ### The dictionaries -/

/-- The options of a section, added to the parser. -/
def addOpts (sec : Str) : List (Str × List Str) → List (Str × Str) → RawParser → Option (List (Str × Str) × RawParser)
  | [], seen, p => some (seen, p)
  | (o, ts) :: r, seen, p =>
    if (sec, keywordMapping o) ∈ seen then none
    else addOpts sec r ((sec, keywordMapping o) :: seen) (p.set sec (keywordMapping o) (.lines ts))

/-- A section, added to the parser. -/
def addSection (p : RawParser) (sec : Str) : RawParser :=
  { p with sections := fun s => if s = sec then some (p.dict sec) else p.sections s }

/-- The sections of a file, added to the parser. -/
def addFile : RawFile → List Str → List (Str × Str) → RawParser → Option RawParser
  | [], _, _, p => some p
  | (sec, opts) :: r, names, seen, p =>
    if sec = defaultSect then (addOpts sec opts seen p).bind fun x => addFile r names x.1 x.2
    else if sec ∈ names then none
    else (addOpts sec opts seen (addSection p sec)).bind fun x => addFile r (sec :: names) x.1 x.2

theorem RawParser.dict_set (p : RawParser) (sec k : Str) (v : RawVal) : (p.set sec k v).dict sec k = some v := by
  unfold RawParser.set RawParser.dict
  by_cases h : sec = defaultSect <;> simp [h]

theorem RawParser.set_set (p : RawParser) (sec k : Str) (v w : RawVal) : (p.set sec k v).set sec k w = p.set sec k w := by
  unfold RawParser.set RawParser.dict
  by_cases h : sec = defaultSect
  · simp only [h, if_true, RawParser.mk.injEq, true_and]
    funext x
    split <;> rfl
  · simp only [h, if_false, RawParser.mk.injEq, and_true]
    funext x
    split
    · congr 1
      funext y
      split
      · rfl
      · simp [*]
    · rfl

theorem RawParser.append_set (p : RawParser) (sec k v : Str) (l : List Str) :
    (p.set sec k (.lines l)).append sec k v = .ok (p.set sec k (.lines (l ++ [v]))) := by
  rw [RawParser.append, RawParser.dict_set]
  simp only [RawParser.set_set]

/-- The rest of the lines are read without an error, and the parser is `q` then. -/
def Done (ls : List Str) (r : Reader) (q : RawParser) : Prop := ∃ r', run ls r = .ok r' ∧ r'.bad = false ∧ r'.p = q

theorem done_nil {r : Reader} {q : RawParser} : Done [] r q ↔ r.bad = false ∧ r.p = q := by
  constructor
  · rintro ⟨r', h1, h2, h3⟩
    cases h1
    exact ⟨h2, h3⟩
  · exact fun h => ⟨r, rfl, h.1, h.2⟩

theorem done_ok {l : Str} {ls : List Str} {r r' : Reader} {q : RawParser} (h : step r l = .ok r') :
    Done (l :: ls) r q ↔ Done ls r' q := by
  simp only [Done, run, h]

theorem done_error {l : Str} {ls : List Str} {r : Reader} {e : IniError} {q : RawParser} (h : step r l = .error e) :
    ¬ Done (l :: ls) r q := by
  simp [Done, run, h]

theorem step_bad {r r' : Reader} {l : Str} (h : step r l = .ok r') (hb : r.bad = true) : r'.bad = true := by
  have ho : ∀ (x : Reader) sec, x.bad = true → openSection x sec = .ok r' → r'.bad = true := by
    intro x sec hx h
    unfold openSection at h
    split at h
    · cases h; exact hx
    · split at h
      · cases h
      · cases h; exact hx
  have hs : ∀ (x : Reader) sec o v, x.bad = true → setOption x sec o v = .ok r' → r'.bad = true := by
    intro x sec o v hx h
    unfold setOption at h
    dsimp only at h
    split at h
    · cases h
    · cases h; simp [hx]
  have ha : ∀ sec v, ((r.p.append sec r.optname v).map fun p => { r with p := p }) = .ok r' → r'.bad = true := by
    intro sec v h
    cases hp : r.p.append sec r.optname v with
    | error e => rw [hp] at h; cases h
    | ok p => rw [hp] at h; cases h; exact hb
  unfold step at h
  split at h
  · cases h; exact hb
  · dsimp only at h
    split at h
    · split at h
      · cases h; exact hb
      · split at h
        · refine ho _ _ ?_ h; exact hb
        · cases h
    · split at h
      · split at h
        · cases h; exact hb
        · exact ha _ _ h
      · split at h
        · exact ha _ _ h
        · split at h
          · refine ho _ _ ?_ h; exact hb
          · split at h
            · refine hs _ _ _ _ ?_ h; exact hb
            · cases h; rfl

theorem run_bad : ∀ (ls : List Str) (r : Reader), r.bad = true → ∀ q, ¬ Done ls r q
  | [], r, hb, q => by rw [done_nil]; simp [hb]
  | l :: ls, r, hb, q => by
    cases h : step r l with
    | error e => exact done_error h
    | ok r' => rw [done_ok h]; exact run_bad ls r' (step_bad h hb) q

theorem keywordMapping_nil (o : Str) : keywordMapping o = [] ↔ o = [] := by
  unfold keywordMapping
  dsimp only
  split
  · rename_i h
    constructor
    · intro h'; simp at h'
    · rintro rfl
      exact absurd h (by decide)
  · simp

theorem done_openSection {r : Reader} {l : Str} {ls : List Str} {sec : Str} {q : RawParser}
    (h : step r l = openSection { r with indent := (l.takeWhile isSpace).length } sec) :
    Done (l :: ls) r q ↔ if sec = defaultSect then
        Done ls { r with cursect := some sec, optname := [], indent := (l.takeWhile isSpace).length } q
      else sec ∉ r.names ∧ Done ls { r with
        p := addSection r.p sec, names := sec :: r.names, cursect := some sec, optname := [],
        indent := (l.takeWhile isSpace).length } q := by
  unfold openSection at h
  by_cases h1 : sec = defaultSect
  · rw [if_pos h1] at h ⊢
    rw [done_ok h]
  · rw [if_neg h1] at h ⊢
    by_cases h2 : sec ∈ r.names
    · rw [if_pos h2] at h
      simp only [h2, not_true, false_and, iff_false]
      exact done_error h
    · rw [if_neg h2] at h
      simp only [h2, not_false_eq_true, true_and]
      rw [done_ok h]
      rfl

/-- What the lines say after a header, in the section `sec`. -/
def FreeSays (sec : Str) (ls : List Str) (r : Reader) (q : RawParser) : Prop :=
  ∃ opts f, Free ls opts f ∧ ((addOpts sec opts r.seen r.p).bind fun x => addFile f r.names x.1 x.2) = some q

/-- What the lines say after an option with the lines `l` so far. -/
def OpenSays (sec o : Str) (p : RawParser) (l : List Str) (ls : List Str) (r : Reader) (q : RawParser) : Prop :=
  ∃ t opts f, Open r.indent ls t opts f ∧
    ((addOpts sec opts r.seen (p.set sec (keywordMapping o) (.lines (l ++ t)))).bind fun x => addFile f r.names x.1 x.2) = some q

theorem freeSays_header {sec l s name : Str} {n : Nat} {ls : List Str} {r : Reader} {q : RawParser} (hl : Line l n s)
    (hh : Header s name) : FreeSays sec (l :: ls) r q ↔ if name = defaultSect then
        FreeSays name ls { r with cursect := some name, optname := [], indent := n } q
      else name ∉ r.names ∧ FreeSays name ls { r with
        p := addSection r.p name, names := name :: r.names, cursect := some name, optname := [], indent := n } q := by
  unfold FreeSays
  simp only [free_header hl hh]
  constructor
  · rintro ⟨opts, f, ⟨rfl, opts', f', rfl, hf⟩, h⟩
    rw [addOpts, Option.bind_some, addFile] at h
    split
    · rename_i hd
      rw [if_pos hd] at h
      exact ⟨opts', f', hf, h⟩
    · rename_i hd
      rw [if_neg hd] at h
      split at h
      · cases h
      · rename_i hm
        exact ⟨hm, opts', f', hf, h⟩
  · intro h
    split at h
    · rename_i hd
      obtain ⟨opts', f', hf, h⟩ := h
      refine ⟨[], _, ⟨rfl, opts', f', rfl, hf⟩, ?_⟩
      rw [addOpts, Option.bind_some, addFile, if_pos hd]
      exact h
    · rename_i hd
      obtain ⟨hm, opts', f', hf, h⟩ := h
      refine ⟨[], _, ⟨rfl, opts', f', rfl, hf⟩, ?_⟩
      rw [addOpts, Option.bind_some, addFile, if_neg hd, if_neg hm]
      exact h

theorem freeSays_option {sec l s o v : Str} {n : Nat} {ls : List Str} {r : Reader} {q : RawParser} (hl : Line l n s)
    (hc : ¬ Comment l) (hn : ∀ name, ¬ Header s name) (ho : Setting s o v) :
    FreeSays sec (l :: ls) r q ↔ (sec, keywordMapping o) ∉ r.seen ∧
      OpenSays sec o r.p [v] ls { r with
        indent := n, p := r.p.set sec (keywordMapping o) (.lines [v]), seen := (sec, keywordMapping o) :: r.seen,
        optname := keywordMapping o } q := by
  unfold FreeSays OpenSays
  simp only [free_option hl hc hn ho]
  constructor
  · rintro ⟨opts, f, ⟨t, opts', rfl, hf⟩, h⟩
    rw [addOpts] at h
    split at h
    · cases h
    · rename_i hm
      exact ⟨hm, t, opts', f, hf, h⟩
  · rintro ⟨hm, t, opts', f, hf, h⟩
    refine ⟨_, f, ⟨t, opts', rfl, hf⟩, ?_⟩
    rw [addOpts, if_neg hm]
    exact h

/-! ### The reader -/

theorem step_comment {r : Reader} {l : Str} (h : Comment l) : step r l = .ok r := by
  rw [step, if_pos ((isComment_iff l).2 h)]

theorem not_comment {l : Str} (h : ¬ Comment l) : ¬ isComment l = true := fun h' => h ((isComment_iff l).1 h')

theorem blank_not_comment {l : Str} (h : Blank l) : ¬ Comment l := by
  rintro ⟨_, _, _, hl, -⟩
  exact line_not_blank hl h

theorem step_blank {r : Reader} {l sec : Str} (h : Blank l) (hs : r.cursect = some sec) :
    step r l = if r.optname = [] then .ok r else (r.p.append sec r.optname []).map fun p => { r with p := p } := by
  rw [step, if_neg (not_comment (blank_not_comment h)), (strip_nil l).2 h]
  simp only [hs, if_true]

theorem step_more {r : Reader} {l sec : Str} (hb : ¬ Blank l) (hc : ¬ Comment l) (hs : r.cursect = some sec)
    (ho : r.optname ≠ []) (hi : r.indent < (l.takeWhile isSpace).length) :
    step r l = (r.p.append sec r.optname (strip l)).map fun p => { r with p := p } := by
  rw [step, if_neg (not_comment hc)]
  simp only [hs, mt (strip_nil l).1 hb, if_false, ho, hi, ne_eq, not_false_eq_true, and_self, if_true]

theorem step_header {r : Reader} {l sec name : Str} (hb : ¬ Blank l) (hc : ¬ Comment l) (hs : r.cursect = some sec)
    (hi : ¬ (r.optname ≠ [] ∧ r.indent < (l.takeWhile isSpace).length)) (hh : header (strip l) = some name) :
    step r l = openSection { r with indent := (l.takeWhile isSpace).length } name := by
  rw [step, if_neg (not_comment hc)]
  simp only [hs, mt (strip_nil l).1 hb, if_false, if_neg hi, hh]

theorem step_option {r : Reader} {l sec o v : Str} (hb : ¬ Blank l) (hc : ¬ Comment l) (hs : r.cursect = some sec)
    (hi : ¬ (r.optname ≠ [] ∧ r.indent < (l.takeWhile isSpace).length)) (hh : header (strip l) = none)
    (ho : option (strip l) = some (o, v)) :
    step r l = setOption { r with indent := (l.takeWhile isSpace).length } sec o v := by
  rw [step, if_neg (not_comment hc)]
  simp only [hs, mt (strip_nil l).1 hb, if_false, if_neg hi, hh, ho]

theorem step_nothing {r : Reader} {l sec : Str} (hb : ¬ Blank l) (hc : ¬ Comment l) (hs : r.cursect = some sec)
    (hi : ¬ (r.optname ≠ [] ∧ r.indent < (l.takeWhile isSpace).length)) (hh : header (strip l) = none)
    (ho : option (strip l) = none) :
    step r l = .ok { r with indent := (l.takeWhile isSpace).length, bad := true } := by
  rw [step, if_neg (not_comment hc)]
  simp only [hs, mt (strip_nil l).1 hb, if_false, if_neg hi, hh, ho]

/-- The invariant of the loop: what is read next, after a header and after an option. -/
def Agree (ls : List Str) : Prop :=
  (∀ (sec : Str) (r : Reader) (q : RawParser), r.cursect = some sec → r.optname = [] → r.bad = false →
    (Done ls r q ↔ FreeSays sec ls r q)) ∧
  ∀ (sec o : Str) (p : RawParser) (l : List Str) (r : Reader) (q : RawParser), r.cursect = some sec →
    r.optname = keywordMapping o → o ≠ [] → r.bad = false → r.p = p.set sec (keywordMapping o) (.lines l) →
    (Done ls r q ↔ OpenSays sec o p l ls r q)

/-- A line that begins a section or an option. -/
theorem agree_begin {ls : List Str} (ih : Agree ls) {l sec : Str} {r : Reader} {q : RawParser} (hb : ¬ Blank l)
    (hc : ¬ Comment l) (hs : r.cursect = some sec) (hbad : r.bad = false)
    (hi : ¬ (r.optname ≠ [] ∧ r.indent < (l.takeWhile isSpace).length)) : Done (l :: ls) r q ↔ FreeSays sec (l :: ls) r q := by
  have hl := line_strip (mt (strip_nil l).1 hb)
  cases hh : header (strip l) with
  | some name =>
    rw [done_openSection (step_header hb hc hs hi hh), freeSays_header hl ((header_iff _ _).1 hh)]
    split
    · exact ih.1 name _ q rfl rfl hbad
    · exact and_congr_right fun _ => ih.1 name _ q rfl rfl hbad
  | none =>
    have hn : ∀ name, ¬ Header (strip l) name := fun name h => by
      rw [← header_iff, hh] at h; cases h
    cases ho : option (strip l) with
    | none =>
      have hset : ∀ o v, ¬ Setting (strip l) o v := fun o v h => by
        rw [← option_iff (strip_trim l), ho] at h; simp at h
      rw [done_ok (step_nothing hb hc hs hi hh ho)]
      refine iff_of_false (run_bad _ _ rfl q) ?_
      rintro ⟨opts, f, hf, -⟩
      exact free_bad hl hc hn hset hf
    | some x =>
      obtain ⟨o, v⟩ := x
      have hst := step_option hb hc hs hi hh ho
      unfold setOption at hst
      dsimp only at hst
      by_cases hne : o = []
      · have hset : ∀ o v, ¬ Setting (strip l) o v := fun o' v' h => by
          rw [← option_iff (strip_trim l), ho] at h
          obtain ⟨h1, h2⟩ := h
          cases h1
          exact h2 hne
        refine iff_of_false ?_ ?_
        · by_cases hm : (sec, keywordMapping o) ∈ r.seen
          · rw [if_pos hm] at hst
            exact done_error hst
          · rw [if_neg hm] at hst
            rw [done_ok hst]
            exact run_bad _ _ (by simp [hne]) q
        · rintro ⟨opts, f, hf, -⟩
          exact free_bad hl hc hn hset hf
      · have hset : Setting (strip l) o v := (option_iff (strip_trim l) o v).1 ⟨ho, hne⟩
        rw [freeSays_option hl hc hn hset]
        by_cases hm : (sec, keywordMapping o) ∈ r.seen
        · rw [if_pos hm] at hst
          refine iff_of_false (done_error hst) ?_
          rintro ⟨h, -⟩
          exact h hm
        · rw [if_neg hm] at hst
          rw [done_ok hst]
          simp only [hm, not_false_eq_true, true_and]
          have : (r.bad || o.isEmpty) = false := by
            rw [hbad]
            cases o with
            | nil => exact absurd rfl hne
            | cons => rfl
          rw [this]
          refine Iff.trans (ih.2 sec o r.p [v] _ q hs (by rfl) hne (by rfl) (by rfl)) ?_
          unfold OpenSays
          exact Iff.rfl

theorem agree : ∀ ls : List Str, Agree ls
  | [] => by
    refine ⟨fun sec r q hs ho hb => ?_, fun sec o p l r q hs ho hne hb hp => ?_⟩
    · rw [done_nil, FreeSays]
      simp only [free_nil, hb, true_and]
      constructor
      · rintro rfl
        exact ⟨[], [], ⟨rfl, rfl⟩, rfl⟩
      · rintro ⟨_, _, ⟨rfl, rfl⟩, h⟩
        simpa [addOpts, addFile] using h
    · rw [done_nil, OpenSays]
      simp only [open_nil, hb, true_and]
      constructor
      · rintro rfl
        exact ⟨[], [], [], ⟨rfl, rfl, rfl⟩, by simp [addOpts, addFile, hp]⟩
      · rintro ⟨_, _, _, ⟨rfl, rfl, rfl⟩, h⟩
        simpa [addOpts, addFile, hp] using h
  | l :: ls => by
    have ih := agree ls
    by_cases hc : Comment l
    · refine ⟨fun sec r q hs ho hb => ?_, fun sec o p vl r q hs ho hne hb hp => ?_⟩
      · rw [done_ok (step_comment hc), ih.1 sec r q hs ho hb]
        unfold FreeSays
        simp only [free_skip (.inr hc)]
      · rw [done_ok (step_comment hc), ih.2 sec o p vl r q hs ho hne hb hp]
        unfold OpenSays
        simp only [open_comment hc]
    · by_cases hbl : Blank l
      · refine ⟨fun sec r q hs ho hb => ?_, fun sec o p vl r q hs ho hne hb hp => ?_⟩
        · have h := step_blank hbl hs
          rw [if_pos ho] at h
          rw [done_ok h, ih.1 sec r q hs ho hb]
          unfold FreeSays
          simp only [free_skip (.inl hbl)]
        · have h := step_blank hbl hs
          have hk : keywordMapping o ≠ [] := mt (keywordMapping_nil o).1 hne
          rw [ho, if_neg hk, hp, RawParser.append_set] at h
          rw [done_ok h]
          refine Iff.trans (ih.2 sec o p (vl ++ [[]]) _ q hs (by rfl) hne hb (by rfl)) ?_
          unfold OpenSays
          simp only [open_blank hbl]
          constructor
          · rintro ⟨t, opts, f, hf, h⟩
            exact ⟨_, opts, f, ⟨t, rfl, hf⟩, by rw [← h]; simp⟩
          · rintro ⟨_, opts, f, ⟨t, rfl, hf⟩, h⟩
            exact ⟨t, opts, f, hf, by rw [← h]; simp⟩
      · have hl := line_strip (mt (strip_nil l).1 hbl)
        refine ⟨fun sec r q hs ho hb => agree_begin ih hbl hc hs hb (by simp [ho]), fun sec o p vl r q hs ho hne hb hp => ?_⟩
        have hk : r.optname ≠ [] := by rw [ho]; exact mt (keywordMapping_nil o).1 hne
        by_cases hi : r.indent < (l.takeWhile isSpace).length
        · have h := step_more hbl hc hs hk hi
          rw [ho, hp, RawParser.append_set] at h
          rw [done_ok h]
          refine Iff.trans (ih.2 sec o p (vl ++ [strip l]) _ q hs (by rfl) hne hb (by rfl)) ?_
          unfold OpenSays
          simp only [open_more hl hc hi]
          constructor
          · rintro ⟨t, opts, f, hf, h⟩
            exact ⟨_, opts, f, ⟨t, rfl, hf⟩, by rw [← h]; simp⟩
          · rintro ⟨_, opts, f, ⟨t, rfl, hf⟩, h⟩
            exact ⟨t, opts, f, hf, by rw [← h]; simp⟩
        · rw [agree_begin ih hbl hc hs hb (by simp [hi])]
          unfold OpenSays FreeSays
          simp only [open_next hl hc (Nat.le_of_not_lt hi), hp]
          constructor
          · rintro ⟨opts, f, hf, h⟩
            exact ⟨[], opts, f, ⟨rfl, hf⟩, by rw [← h]; simp⟩
          · rintro ⟨_, opts, f, ⟨rfl, hf⟩, h⟩
            exact ⟨opts, f, hf, by rw [← h]; simp⟩

/-- The reader accepts the lines of the grammar. -/
theorem done_iff : ∀ (ls : List Str) (r : Reader) (q : RawParser), r.cursect = none → r.optname = [] → r.bad = false →
    (Done ls r q ↔ ∃ f, Parsed ls f ∧ addFile f r.names r.seen r.p = some q)
  | [], r, q, hs, ho, hb => by
    rw [done_nil]
    simp only [hb, true_and]
    have : ∀ f, Parsed [] f ↔ f = [] := fun f => (free_nil (opts := [])).trans (by simp)
    simp only [this]
    simp [addFile]
  | l :: ls, r, q, hs, ho, hb => by
    by_cases hc : Comment l
    · rw [done_ok (step_comment hc), done_iff ls r q hs ho hb]
      have : ∀ f, Parsed (l :: ls) f ↔ Parsed ls f := fun f => free_skip (opts := []) (.inr hc)
      simp only [this]
    · by_cases hbl : Blank l
      · have h : step r l = .ok r := by
          rw [step, if_neg (not_comment hc), (strip_nil l).2 hbl]
          simp only [hs, if_true]
        rw [done_ok h, done_iff ls r q hs ho hb]
        have : ∀ f, Parsed (l :: ls) f ↔ Parsed ls f := fun f => free_skip (opts := []) (.inl hbl)
        simp only [this]
      · have hl := line_strip (mt (strip_nil l).1 hbl)
        cases hh : header (strip l) with
        | none =>
          have h : step r l = .error .missingHeader := by
            rw [step, if_neg (not_comment hc)]
            simp only [hs, mt (strip_nil l).1 hbl, if_false, hh]
          refine iff_of_false (done_error h) ?_
          rintro ⟨f, hf, -⟩
          have hf : Free (l :: ls) [] f := hf
          rw [free_body hbl hc] at hf
          obtain ⟨n', s', hl', -, -, ⟨name', opts', f', hh', -⟩ | ⟨-, o', v', t, opts', -, h, -⟩⟩ := body_cons hf
          · obtain ⟨-, rfl⟩ := line_unique hl hl'
            rw [← header_iff, hh] at hh'; cases hh'
          · cases h
        | some name =>
          have hst : step r l = openSection { r with indent := (l.takeWhile isSpace).length } name := by
            rw [step, if_neg (not_comment hc)]
            simp only [hs, mt (strip_nil l).1 hbl, if_false, hh]
          have key := freeSays_header (sec := []) (ls := ls) (r := r) (q := q) hl ((header_iff _ _).1 hh)
          rw [done_openSection hst]
          have e : (∃ f, Parsed (l :: ls) f ∧ addFile f r.names r.seen r.p = some q) ↔ FreeSays [] (l :: ls) r q := by
            unfold FreeSays
            constructor
            · rintro ⟨f, hf, h⟩
              exact ⟨[], f, hf, h⟩
            · rintro ⟨opts, f, hf, h⟩
              have := ((free_header hl ((header_iff _ _).1 hh)).1 hf).1
              subst this
              exact ⟨f, hf, h⟩
          rw [e, key]
          split
          · exact (agree ls).1 name _ q rfl rfl hb
          · exact and_congr_right fun _ => (agree ls).1 name _ q rfl rfl hb

end Imageio.Ini
