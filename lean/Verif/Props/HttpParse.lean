import Verif.Lemmas.HttpParse

/-! C16, C17: the Range and Content-Range headers. -/
namespace Imageio.Props
open Imageio.Http Imageio.Spec

/-- The range object for a header form: the suffix form is a negative first position. -/
def rangeOf : RangeForm → Http.Range
  | .closed first last => ⟨first, some last⟩
  | .fromTo first => ⟨first, none⟩
  | .suffix n => ⟨-(n : Int), none⟩

/-- C16: a header is accepted exactly when it has one of the three forms (with
`first ≤ last`), and the result holds the numbers written in the header. -/
theorem C16_parse_iff (h : Str) (r : Http.Range) :
    parseRange h = some r ↔
      ∃ f, RangeHeader h f ∧ r = rangeOf f ∧ (∀ a b, f = .closed a b → a ≤ b) := by
  constructor
  · intro hp
    unfold parseRange at hp
    split at hp
    · simp at hp
    next a b hg =>
    obtain ⟨e, rfl, he, ha, hb⟩ := (rangeGroups_iff _ _ _).1 hg
    split at hp
    next ha0 =>
      split at hp
      · simp at hp
      next hb0 =>
        simp only [Option.some.injEq] at hp
        refine ⟨.suffix (intOfDigits b), ⟨a, b, e, rfl, he, ha0, number_iff.2 ⟨hb0, hb, rfl⟩⟩,
          hp.symm, by simp⟩
    next ha0 =>
      split at hp
      next hb0 =>
        simp only [Option.some.injEq] at hp
        exact ⟨.fromTo (intOfDigits a), ⟨a, b, e, rfl, he, number_iff.2 ⟨ha0, ha, rfl⟩, hb0⟩,
          hp.symm, by simp⟩
      next hb0 =>
        split at hp
        · simp at hp
        next hle =>
          simp only [Option.some.injEq] at hp
          refine ⟨.closed (intOfDigits a) (intOfDigits b), ⟨a, b, e, rfl, he,
            number_iff.2 ⟨ha0, ha, rfl⟩, number_iff.2 ⟨hb0, hb, rfl⟩⟩, hp.symm, ?_⟩
          intro x y hxy
          simp only [RangeForm.closed.injEq] at hxy
          omega
  · rintro ⟨f, ⟨a, b, e, rfl, he, hf⟩, rfl, hle⟩
    have key : ∀ (ha : ∀ c ∈ a, c.isDigit = true) (hb : ∀ c ∈ b, c.isDigit = true),
        rangeGroups ("bytes=".toList ++ a ++ ['-'] ++ b ++ e) = some (a, b) :=
      fun ha hb => (rangeGroups_iff _ _ _).2 ⟨e, rfl, he, ha, hb⟩
    cases f with
    | closed first last =>
      obtain ⟨hn1, hn2⟩ := hf
      obtain ⟨h1, h2, rfl⟩ := number_iff.1 hn1
      obtain ⟨h3, h4, rfl⟩ := number_iff.1 hn2
      have := hle _ _ rfl
      have hng : ¬ intOfDigits a > intOfDigits b := by omega
      simp only [parseRange, key h2 h4, h1, h3, hng, ite_false, rangeOf]
    | fromTo first =>
      obtain ⟨hn1, rfl⟩ := hf
      obtain ⟨h1, h2, rfl⟩ := number_iff.1 hn1
      simp only [parseRange, key h2 (by simp), h1, ite_false, ite_true, rangeOf]
    | suffix n =>
      obtain ⟨rfl, hn2⟩ := hf
      obtain ⟨h3, h4, rfl⟩ := number_iff.1 hn2
      simp only [parseRange, key (by simp) h4, h3, ite_false, ite_true, rangeOf]

example : parseRange "bytes=10-20".toList = some ⟨10, some 20⟩ := by decide +kernel
example : parseRange "bytes=20-10".toList = none := by decide +kernel
example : parseRange "bytes=1-2,5-6".toList = none := by decide +kernel

/-- C16: the forms a client can write, for all numbers. -/
theorem C16_round_trip (a b n : Nat) :
    (a ≤ b → parseRange ("bytes=".toList ++ fmtNat a ++ ['-'] ++ fmtNat b)
      = some ⟨a, some b⟩) ∧
    parseRange ("bytes=".toList ++ fmtNat a ++ ['-']) = some ⟨a, none⟩ ∧
    parseRange ("bytes=-".toList ++ fmtNat n) = some ⟨-(n : Int), none⟩ := by
  refine ⟨fun hab => (C16_parse_iff _ _).2 ⟨.closed a b, ⟨fmtNat a, fmtNat b, [], by simp,
    .inl rfl, number_fmtNat a, number_fmtNat b⟩, rfl, ?_⟩,
    (C16_parse_iff _ _).2 ⟨.fromTo a, ⟨fmtNat a, [], [], by simp, .inl rfl, number_fmtNat a, rfl⟩,
      rfl, by simp⟩,
    (C16_parse_iff _ _).2 ⟨.suffix n, ⟨[], fmtNat n, [], by simp, .inl rfl, rfl,
      number_fmtNat n⟩, rfl, by simp⟩⟩
  intro x y hxy
  simp only [RangeForm.closed.injEq] at hxy
  omega

/-- C16: the Range header of the client backend, for every position and positive length,
is parsed by the server to exactly the bytes `[offset, offset + length)`. -/
theorem C16_client_range (offset length : Nat) (h : 0 < length) :
    ∃ last, parseRange (clientRange offset length) = some ⟨offset, some last⟩ ∧
      last + 1 = offset + length := by
  refine ⟨offset + length - 1, ?_, by omega⟩
  have := (C16_round_trip offset (offset + length - 1) 0).1 (by omega)
  rewrite [← this]
  unfold clientRange
  rewrite [fmtInt_pred _ _ h]
  simp

example : parseRange (clientRange 4096 512) = some ⟨4096, some 4607⟩ := by decide +kernel

/-- C16 is false for an empty suffix: `bytes=-0` (no bytes at all, not satisfiable by the
RFC) is parsed like `bytes=0-` (the whole image). -/
theorem C16_counterexample_empty_suffix :
    parseRange "bytes=-0".toList = parseRange "bytes=0-".toList ∧
      parseRange "bytes=-0".toList ≠ none := by decide +kernel

/-- C16: a client read of no bytes sends a header that the server refuses. -/
theorem C16_counterexample_empty_read :
    ∀ offset : Nat, parseRange (clientRange offset 0) = none := by
  intro o
  cases o with
  | zero => decide +kernel
  | succ o =>
    cases hp : parseRange (clientRange (o + 1) 0) with
    | none => rfl
    | some r =>
      exfalso
      have hg : rangeGroups (clientRange (o + 1) 0) = some (fmtNat (o + 1), fmtNat o) := by
        refine (rangeGroups_iff _ _ _).2 ⟨[], ?_, .inl rfl,
          (number_iff.1 (number_fmtNat _)).2.1, (number_iff.1 (number_fmtNat _)).2.1⟩
        have : (((o + 1 : Nat) : Int) + (0 : Nat) - 1) = ((o : Nat) : Int) := by omega
        unfold clientRange
        rewrite [this]
        simp [fmtInt]
      have h1 := (number_iff.1 (number_fmtNat (o + 1)))
      have h2 := (number_iff.1 (number_fmtNat o))
      simp [parseRange, hg, h1.1, h2.1, h1.2.2, h2.2.2] at hp

/-- C17: a Content-Range header is accepted exactly when it has the form
`bytes first-last/complete`, with `first ≤ last < complete` for the numbers present, and
the result holds these numbers. -/
theorem C17_parse_iff (h : Str) (r : ContentRange) :
    parseContentRange h = some r ↔
      ContentRangeHeader h r.first r.last r.complete ∧
      (∀ l, r.last = some l → r.first ≤ l) ∧
      (∀ l c, r.last = some l → r.complete = some c → l < c) := by
  have starIff : ∀ (b : Option Str), StarOk b → NumberOrStar (starText b) (b.map intOfDigits) := by
    intro b hb
    cases b with
    | none => exact rfl
    | some b => exact number_iff.2 ⟨hb.1, hb.2, rfl⟩
  have starBack : ∀ (s : Str) (o : Option Nat), NumberOrStar s o →
      ∃ b, s = starText b ∧ StarOk b ∧ o = b.map intOfDigits := by
    intro s o hs
    cases o with
    | none => exact ⟨none, hs, trivial, rfl⟩
    | some n =>
      obtain ⟨h1, h2, rfl⟩ := number_iff.1 hs
      exact ⟨some s, rfl, ⟨h1, h2⟩, rfl⟩
  constructor
  · intro hp
    unfold parseContentRange at hp
    split at hp
    · simp at hp
    next a b c hg =>
    obtain ⟨e, rfl, he, hne, ha, hb, hc⟩ := (contentRangeGroups_iff _ _ _ _).1 hg
    simp only at hp
    split at hp
    · simp at hp
    next h1 =>
    split at hp
    · simp at hp
    next h2 =>
    simp only [Option.some.injEq] at hp
    subst hp
    refine ⟨⟨a, starText b, starText c, e, by simp, he, number_iff.2 ⟨hne, ha, rfl⟩,
      starIff b hb, starIff c hc⟩, ?_, ?_⟩
    · intro l hl
      simp only at hl
      simp only [hl, Option.any_some, decide_eq_true_eq] at h1
      simp only
      omega
    · intro l c' hl hc'
      simp only at hl hc'
      simp only [hl, hc', Option.any_some, decide_eq_true_eq] at h2
      omega
  · rintro ⟨⟨a, b, c, e, rfl, he, hn, hb, hc⟩, h1, h2⟩
    obtain ⟨hne, ha, hv⟩ := number_iff.1 hn
    obtain ⟨b', rfl, hb1, hb2⟩ := starBack _ _ hb
    obtain ⟨c', rfl, hc1, hc2⟩ := starBack _ _ hc
    have hg := (contentRangeGroups_iff _ a b' c').2 ⟨e, rfl, he, hne, ha, hb1, hc1⟩
    obtain ⟨first, last, complete⟩ := r
    simp only at hv hb2 hc2 h1 h2
    subst hv hb2 hc2
    simp only [parseContentRange, hg]
    have g1 : (Option.map intOfDigits b').any (fun x => decide (x < intOfDigits a)) = false := by
      cases hb' : Option.map intOfDigits b' with
      | none => rfl
      | some l => have := h1 l hb'; simp; omega
    have g2 : (Option.map intOfDigits c').any
        (fun c => (Option.map intOfDigits b').any fun l => decide (l ≥ c)) = false := by
      cases hc' : Option.map intOfDigits c' with
      | none => rfl
      | some x =>
        cases hb' : Option.map intOfDigits b' with
        | none => rfl
        | some l => have := h2 l x hb' hc'; simp; omega
    simp only [g1, g2, Bool.false_eq_true, ite_false]

example : parseContentRange "bytes 0-9/10".toList = some ⟨0, some 9, some 10⟩ := by decide +kernel
example : parseContentRange "bytes 0-9/9".toList = none := by decide +kernel
example : parseContentRange "bytes 9-8/*".toList = none := by decide +kernel

/-- C17: the Content-Range of the client backend, for every position and positive length,
is parsed by the server to the same offset and length. -/
theorem C17_client_round_trip (offset length : Nat) (h : 0 < length) :
    ∃ last, parseContentRange (clientContentRange offset length) = some ⟨offset, some last, none⟩ ∧
      last + 1 = offset + length := by
  refine ⟨offset + length - 1, (C17_parse_iff _ _).2 ⟨⟨fmtNat offset, fmtNat (offset + length - 1),
    ['*'], [], ?_, .inl rfl, number_fmtNat _, number_fmtNat _, rfl⟩, ?_, by simp⟩, by omega⟩
  · unfold clientContentRange
    rewrite [fmtInt_pred _ _ h]
    simp
  · intro l hl
    simp only [Option.some.injEq] at hl
    simp only
    omega

example : parseContentRange (clientContentRange 4096 512) = some ⟨4096, some 4607, none⟩ := by
  decide +kernel

/-- C17: the Content-Range of a 206 response with a non-empty body inside the ticket names
exactly the bytes of the body. -/
theorem C17_server_round_trip (offset size ticketSize : Nat) (h : 0 < size)
    (hin : offset + size ≤ ticketSize) :
    ∃ last, parseContentRange (serverContentRange offset size ticketSize)
        = some ⟨offset, some last, some ticketSize⟩ ∧ last + 1 = offset + size := by
  refine ⟨offset + size - 1, (C17_parse_iff _ _).2 ⟨⟨fmtNat offset, fmtNat (offset + size - 1),
    fmtNat ticketSize, [], ?_, .inl rfl, number_fmtNat _, number_fmtNat _, number_fmtNat _⟩,
    ?_, ?_⟩, by omega⟩
  · unfold serverContentRange
    rewrite [fmtInt_pred _ _ h]
    simp [fmtInt]
  · intro l hl
    simp only [Option.some.injEq] at hl
    simp only
    omega
  · intro l c hl hc
    simp only [Option.some.injEq] at hl hc
    omega

example : parseContentRange (serverContentRange 4 8 16) = some ⟨4, some 11, some 16⟩ := by
  decide +kernel

/-- C17: ranges written by anyone with the last byte before the first, or reaching the
announced size, are refused. -/
theorem C17_invalid_refused (first last complete : Nat) (c : Option Nat)
    (hbad : last < first ∨ (c = some complete ∧ complete ≤ last)) (h : Str)
    (hh : ContentRangeHeader h first (some last) c) : parseContentRange h = none := by
  cases hp : parseContentRange h with
  | none => rfl
  | some r =>
    exfalso
    obtain ⟨⟨a, b, d, e, rfl, he, hn, hb, hd⟩, h1, h2⟩ := (C17_parse_iff _ _).1 hp
    obtain ⟨a', b', d', e', heq, he', hn', hb', hd'⟩ := hh
    -- both readings of the header give the same groups
    have star : ∀ (s : Str) (o : Option Nat), NumberOrStar s o →
        ∃ g, s = starText g ∧ StarOk g ∧ o = g.map intOfDigits := by
      intro s o hs
      cases o with
      | none => exact ⟨none, hs, trivial, rfl⟩
      | some n =>
        obtain ⟨h1, h2, rfl⟩ := number_iff.1 hs
        exact ⟨some s, rfl, ⟨h1, h2⟩, rfl⟩
    obtain ⟨b1, rfl, hb1, hb2⟩ := star _ _ hb
    obtain ⟨d1, rfl, hd1, hd2⟩ := star _ _ hd
    obtain ⟨b2, rfl, hb3, hb4⟩ := star _ _ hb'
    obtain ⟨d2, rfl, hd3, hd4⟩ := star _ _ hd'
    obtain ⟨n1, n2, n3⟩ := number_iff.1 hn
    obtain ⟨m1, m2, m3⟩ := number_iff.1 hn'
    have g1 := (contentRangeGroups_iff _ a b1 d1).2 ⟨e, rfl, he, n1, n2, hb1, hd1⟩
    have g2 := (contentRangeGroups_iff _ a' b2 d2).2 ⟨e', rfl, he', m1, m2, hb3, hd3⟩
    rw [heq, g2] at g1
    simp only [Option.some.injEq, Prod.mk.injEq] at g1
    obtain ⟨rfl, rfl, rfl⟩ := g1
    have hl : r.last = some last := by rw [hb2, ← hb4]
    have hc : r.complete = c := by rw [hd2, ← hd4]
    have hf : r.first = first := by rw [← n3, m3]
    rcases hbad with hbad | ⟨hc2, hbad⟩
    · have := h1 last hl; omega
    · have := h2 last complete hl (by rw [hc, hc2]); omega

example : ContentRangeHeader "bytes 5-4/*".toList 5 (some 4) none :=
  ⟨['5'], ['4'], ['*'], [], by decide, .inl rfl, number_fmtNat 5, number_fmtNat 4, rfl⟩

/-- C17 is false for empty writes: the client backend announces a write of no bytes with a
header that the server refuses, at every position. -/
theorem C17_counterexample_empty_write (offset : Nat) :
    parseContentRange (clientContentRange (offset + 1) 0) = none := by
  refine C17_invalid_refused (offset + 1) offset 0 none (.inl (by omega)) _
    ⟨fmtNat (offset + 1), fmtNat offset, ['*'], [], ?_, .inl rfl, number_fmtNat _,
      number_fmtNat _, rfl⟩
  have : (((offset + 1 : Nat) : Int) + (0 : Nat) - 1) = ((offset : Nat) : Int) := by omega
  unfold clientContentRange
  rewrite [this]
  simp [fmtInt]

/-- C17: the 206 response to an empty range announces a Content-Range that the parser
refuses: `bytes 5-4/16`. -/
theorem C17_counterexample_empty_response :
    parseContentRange (serverContentRange 5 0 16) = none := by decide +kernel

end Imageio.Props
