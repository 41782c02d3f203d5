import Verif.Spec.Wire
import Verif.Lemmas.HttpParse

/-! Lemmas for C70: reading back what was written. -/

namespace Imageio.Spec.Wire
open Imageio.Http Imageio.Images Imageio.Response

theorem encode_append (a b : Str) : encode (a ++ b) = encode a ++ encode b := by
  unfold encode
  rw [List.flatMap_append]

theorem encode_inj {a b : Str} (h : encode a = encode b) : a = b := by
  have h1 : (String.ofList a) = (String.ofList b) := by
    rw [← String.toByteArray_inj, String.toByteArray_ofList, String.toByteArray_ofList]
    unfold List.utf8Encode
    unfold encode at h
    rw [h]
  have := congrArg String.toList h1
  simpa using this

/-- A byte below 128 stands for one character. -/
theorem byte_ascii {c : Char} {b : Byte} (h : b ∈ String.utf8EncodeChar c) (hb : b.toNat < 128) :
    c.val.toNat = b.toNat := by
  unfold String.utf8EncodeChar at h
  simp only at h
  split at h
  · simp only [List.mem_cons, List.not_mem_nil, or_false] at h
    subst h
    simp only [UInt8.toNat_ofNat']
    omega
  · split at h
    · simp only [List.mem_cons, List.not_mem_nil, or_false] at h
      rcases h with rfl | rfl <;> simp only [UInt8.toNat_ofNat'] at hb <;> omega
    · split at h
      · simp only [List.mem_cons, List.not_mem_nil, or_false] at h
        rcases h with rfl | rfl | rfl <;> simp only [UInt8.toNat_ofNat'] at hb <;> omega
      · simp only [List.mem_cons, List.not_mem_nil, or_false] at h
        rcases h with rfl | rfl | rfl | rfl <;> simp only [UInt8.toNat_ofNat'] at hb <;> omega

theorem encode_byte {s : Str} {b : Byte} (h : b ∈ encode s) (hb : b.toNat < 128) :
    ∃ c ∈ s, c.val.toNat = b.toNat := by
  unfold encode at h
  obtain ⟨c, hc, h⟩ := List.mem_flatMap.1 h
  exact ⟨c, hc, byte_ascii h hb⟩

theorem char_of {c : Char} {n : Nat} (d : Char) (hd : d.val.toNat = n) (h : c.val.toNat = n) : c = d := by
  apply Char.ext
  apply UInt32.toNat_inj.1
  rw [h, hd]

theorem not_byte {s : Str} {b : Byte} (d : Char) (hd : d.val.toNat = b.toNat) (hb : b.toNat < 128)
    (h : d ∉ s) : b ∉ encode s := by
  intro hm
  obtain ⟨c, hc, e⟩ := encode_byte hm hb
  exact h (char_of d hd e ▸ hc)

theorem clean_bytes {s : Str} (h : Clean s) : ∀ b ∈ encode s, b ≠ 10 ∧ b ≠ 13 := by
  intro b hb
  refine ⟨?_, ?_⟩
  · rintro rfl
    exact not_byte '\n' rfl (by decide) (fun hm => (h _ hm).2 rfl) hb
  · rintro rfl
    exact not_byte '\r' rfl (by decide) (fun hm => (h _ hm).1 rfl) hb

theorem line_crlf {l : Bytes} (h : ∀ b ∈ l, b ≠ 10 ∧ b ≠ 13) (rest : Bytes) :
    line (l ++ (crlf ++ rest)) = some (l, rest) := by
  induction l with
  | nil => rfl
  | cons b l ih =>
    rw [List.cons_append, line, if_neg (h b (by simp)).1, if_neg (fun hc => (h b (by simp)).2 hc.1),
      ih (fun b hb => h b (List.mem_cons_of_mem _ hb))]
    rfl

theorem line_mono {w l r : Bytes} (h : line w = some (l, r)) (x : Bytes) :
    line (w ++ x) = some (l, r ++ x) := by
  induction w generalizing l r with
  | nil => simp [line] at h
  | cons b w ih =>
    rw [List.cons_append]
    unfold line at h ⊢
    by_cases h1 : b = 10
    · rw [if_pos h1] at h ⊢
      simp only [Option.some.injEq, Prod.mk.injEq] at h
      rw [← h.1, ← h.2]
    · rw [if_neg h1] at h ⊢
      by_cases h2 : b = 13 ∧ w.head? = some 10
      · rw [if_pos h2] at h
        simp only [Option.some.injEq, Prod.mk.injEq] at h
        cases w with
        | nil => simp at h2
        | cons c w =>
          rw [if_pos ⟨h2.1, by simpa using h2.2⟩, ← h.1, ← h.2]
          rfl
      · rw [if_neg h2] at h
        cases w with
        | nil => simp [line] at h
        | cons c w =>
          rw [if_neg (by simpa using h2)]
          cases hl : line (c :: w) with
          | none => rw [hl] at h; simp at h
          | some y =>
            rw [hl] at h
            simp only [Option.map_some, Option.some.injEq, Prod.mk.injEq] at h
            rw [ih (l := y.1) (r := y.2) hl]
            simp only [Option.map_some, ← h.1, ← h.2]

theorem fields_mono {w r : Bytes} {fs : List (Bytes × Bytes)} (h : Fields w fs r) (x : Bytes) :
    Fields (w ++ x) fs (r ++ x) := by
  induction h with
  | done hl => exact .done (line_mono hl x)
  | more hl hn hf _ ih => exact .more (line_mono hl x) hn hf ih

theorem receives_mono {w body rest : Bytes} {code : Nat} {fs : List (Bytes × Bytes)}
    (h : Receives w code fs body rest) (x : Bytes) : Receives (w ++ x) code fs body (rest ++ x) := by
  induction h with
  | info hl hs hc hf _ ih => exact .info (line_mono hl x) hs hc (fields_mono hf x) ih
  | final hl hs hc hf hn hlen =>
    rename_i r' code n fs
    have h := Receives.final (line_mono hl x) hs hc (fields_mono hf x) hn
      (by rw [List.length_append]; omega)
    rw [List.take_append_of_le_length hlen, List.drop_append_of_le_length hlen] at h
    exact h

theorem fields_unique {w r r' : Bytes} {fs fs' : List (Bytes × Bytes)} (h : Fields w fs r)
    (h' : Fields w fs' r') : fs = fs' ∧ r = r' := by
  induction h generalizing fs' r' with
  | done hl =>
    cases h' with
    | done hl' => rw [hl] at hl'; cases hl'; exact ⟨rfl, rfl⟩
    | more hl' hn => rw [hl] at hl'; cases hl'; exact absurd rfl hn
  | more hl hn hf _ ih =>
    cases h' with
    | done hl' => rw [hl] at hl'; cases hl'; exact absurd rfl hn
    | more hl' hn' hf' h' =>
      rw [hl] at hl'
      cases hl'
      rw [hf] at hf'
      cases hf'
      obtain ⟨rfl, rfl⟩ := ih h'
      exact ⟨rfl, rfl⟩

theorem receives_unique {w b b' r r' : Bytes} {code code' : Nat} {fs fs' : List (Bytes × Bytes)}
    (h : Receives w code fs b r) (h' : Receives w code' fs' b' r') :
    code = code' ∧ fs = fs' ∧ b = b' ∧ r = r' := by
  induction h generalizing code' fs' b' r' with
  | info hl hs hc hf _ ih =>
    cases h' with
    | info hl' hs' hc' hf' h' =>
      rw [hl] at hl'
      cases hl'
      obtain ⟨-, rfl⟩ := fields_unique hf hf'
      exact ih h'
    | final hl' hs' hc' =>
      rw [hl] at hl'
      cases hl'
      rw [hs] at hs'
      cases hs'
      omega
  | final hl hs hc hf hn hlen =>
    cases h' with
    | info hl' hs' hc' =>
      rw [hl] at hl'
      cases hl'
      rw [hs] at hs'
      cases hs'
      omega
    | final hl' hs' hc' hf' hn' hlen' =>
      rw [hl] at hl'
      cases hl'
      rw [hs] at hs'
      cases hs'
      obtain ⟨rfl, rfl⟩ := fields_unique hf hf'
      rw [hn] at hn'
      cases hn'
      exact ⟨rfl, rfl, rfl, rfl⟩

theorem digits_encode {s : Str} (h : ∀ c ∈ s, c.isDigit) :
    encode s = s.map fun c => UInt8.ofNat c.toNat := by
  unfold encode
  induction s with
  | nil => rfl
  | cons c s ih =>
    rw [List.flatMap_cons, ih (fun c hc => h c (List.mem_cons_of_mem _ hc)), List.map_cons]
    have hc := h c (by simp)
    unfold Char.isDigit at hc
    simp only [ge_iff_le, Bool.and_eq_true, decide_eq_true_eq, UInt32.le_iff_toNat_le] at hc
    have hv : c.val.toNat ≤ 57 := hc.2
    unfold String.utf8EncodeChar
    simp only
    rw [if_pos (by omega)]
    rfl

theorem decimal_digits {s : Str} {n : Nat} (h : Decimal s n) : ∀ c ∈ s, c.isDigit := by
  induction h with
  | nil => simp
  | snoc _ hd ih =>
    intro c hc
    rcases List.mem_append.1 hc with hc | hc
    · exact ih c hc
    · rw [List.mem_singleton.1 hc]
      exact hd

theorem number_encode {s : Str} {n : Nat} (h : Number s n) : number (encode s) = some n := by
  obtain ⟨h0, h⟩ := h
  have hd := decimal_digits h
  rw [digits_encode hd]
  unfold number
  rw [if_pos]
  · congr 1
    clear h0 hd
    induction h with
    | nil => rfl
    | snoc _ hd ih =>
      rename_i d _
      rw [List.map_append, List.foldl_append, ih]
      simp only [List.map_cons, List.map_nil, List.foldl_cons, List.foldl_nil]
      unfold Char.isDigit at hd
      simp only [ge_iff_le, Bool.and_eq_true, decide_eq_true_eq, UInt32.le_iff_toNat_le] at hd
      have hv : d.toNat ≤ 57 := hd.2
      rw [UInt8.toNat_ofNat', Nat.mod_eq_of_lt (by omega)]
      rfl
  · refine ⟨by simpa using h0, ?_⟩
    intro b hb
    obtain ⟨c, hc, rfl⟩ := List.mem_map.1 hb
    have hd := hd c hc
    unfold Char.isDigit at hd
    simp only [ge_iff_le, Bool.and_eq_true, decide_eq_true_eq, UInt32.le_iff_toNat_le] at hd
    have h1 : 48 ≤ c.toNat := hd.1
    have h2 : c.toNat ≤ 57 := hd.2
    simp only [UInt8.le_iff_toNat_le, UInt8.toNat_ofNat']
    rw [Nat.mod_eq_of_lt (by omega)]
    exact ⟨h1, h2⟩

theorem number_fmt (n : Nat) : number (encode (fmtNat n)) = some n := number_encode (number_fmtNat n)

theorem fmt_digits (n : Nat) : ∀ c ∈ fmtNat n, c.isDigit := decimal_digits (number_fmtNat n).2

theorem isDigit_clean {c : Char} (h : c.isDigit = true) : c ≠ '\r' ∧ c ≠ '\n' := by
  constructor <;> (rintro rfl; revert h; decide)

theorem fmt_clean (n : Nat) : Clean (fmtNat n) := fun c hc => isDigit_clean (fmt_digits n c hc)

/-- Digits have no white space around them. -/
theorem trim_digits {s : Str} (h : ∀ c ∈ s, c.isDigit) : trim (encode s) = encode s := by
  have hb : ∀ b ∈ encode s, ows b = false := by
    intro b hb
    rw [digits_encode h] at hb
    obtain ⟨c, hc, rfl⟩ := List.mem_map.1 hb
    have hd := h c hc
    unfold Char.isDigit at hd
    simp only [ge_iff_le, Bool.and_eq_true, decide_eq_true_eq, UInt32.le_iff_toNat_le] at hd
    have h1 : 48 ≤ c.toNat := hd.1
    have h2 : c.toNat ≤ 57 := hd.2
    unfold ows
    simp only [Bool.or_eq_false_iff, beq_eq_false_iff_ne, ne_eq, ← UInt8.toNat_inj, UInt8.toNat_ofNat']
    rw [Nat.mod_eq_of_lt (by omega)]
    constructor <;> (intro e; revert e; show ¬ c.toNat = _; simp; omega)
  have key : ∀ l : Bytes, (∀ b ∈ l, ows b = false) → l.dropWhile ows = l := by
    intro l hl
    cases l with
    | nil => rfl
    | cons b l => rw [List.dropWhile_cons_of_neg (by simp [hl b (by simp)])]
  unfold trim
  rw [key _ hb, key _ (fun b hm => hb b (List.mem_reverse.1 hm)), List.reverse_reverse]

theorem trim_space (b : Bytes) : trim (32 :: b) = trim b := by
  unfold trim
  rw [List.dropWhile_cons_of_pos (by decide)]

theorem name_bytes {n : Str} (h : Name n) : encode n ≠ [] ∧ 58 ∉ encode n ∧ ∀ b ∈ encode n, ows b = false := by
  refine ⟨?_, ?_, ?_⟩
  · intro e
    have : encode n = encode [] := e
    exact h.1 (encode_inj this)
  · exact not_byte ':' rfl (by decide) (fun hm => h.2 _ hm (by simp))
  · intro b hb
    unfold ows
    simp only [Bool.or_eq_false_iff, beq_eq_false_iff_ne, ne_eq]
    constructor
    · rintro rfl
      exact not_byte ' ' rfl (by decide) (fun hm => h.2 _ hm (by simp)) hb
    · rintro rfl
      exact not_byte '\t' rfl (by decide) (fun hm => h.2 _ hm (by simp)) hb

theorem takeWhile_split {l r : Bytes} (h : 58 ∉ l) : (l ++ 58 :: r).takeWhile (· ≠ 58) = l := by
  induction l with
  | nil => simp
  | cons b l ih =>
    have hb : b ≠ 58 := fun e => h (by simp [e])
    rw [List.cons_append, List.takeWhile_cons_of_pos (by simp [hb]), ih (fun hm => h (by simp [hm]))]

theorem split_field {n v : Str} (hn : Name n) :
    splitField (encode (n ++ lit ": " ++ v)) = some (encode n, trim (encode v)) := by
  obtain ⟨h1, h2, h3⟩ := name_bytes hn
  have e : encode (n ++ lit ": " ++ v) = encode n ++ 58 :: (32 :: encode v) := by
    rw [encode_append, encode_append, List.append_assoc]
    rfl
  rw [e]
  unfold splitField
  simp only
  rw [takeWhile_split h2, if_neg]
  · have hd : (encode n ++ 58 :: 32 :: encode v).drop ((encode n).length + 1) = 32 :: encode v := by
      rw [← List.drop_drop, List.drop_left]
      rfl
    rw [hd, trim_space]
  · rintro (h | h | h)
    · exact h1 h
    · obtain ⟨b, hb, hw⟩ := List.any_eq_true.1 h
      rw [h3 b hb] at hw
      simp at hw
    · exact h (by simp)

theorem clean_append {a b : Str} (ha : Clean a) (hb : Clean b) : Clean (a ++ b) := by
  intro c hc
  rcases List.mem_append.1 hc with h | h
  · exact ha c h
  · exact hb c h

theorem name_clean {n : Str} (h : Name n) : Clean n := by
  intro c hc
  have := h.2 c hc
  simp only [List.mem_cons, List.not_mem_nil, or_false, not_or] at this
  exact ⟨this.2.2.2.1, this.2.2.2.2⟩

theorem clean_colon : Clean (lit ": ") := by
  intro c hc
  simp only [lit, String.toList, List.mem_cons] at hc
  revert hc
  have : ∀ c ∈ [':', ' '], c ≠ '\r' ∧ c ≠ '\n' := by decide
  exact this c

theorem line_field {n v : Str} (hn : Name n) (hv : Clean v) (rest : Bytes) :
    line (field (n, v) ++ rest) = some (encode (n ++ lit ": " ++ v), rest) := by
  unfold field
  rw [List.append_assoc]
  exact line_crlf (clean_bytes (clean_append (clean_append (name_clean hn) clean_colon) hv)) rest

theorem field_ne {n v : Str} (hn : Name n) : encode (n ++ lit ": " ++ v) ≠ [] := by
  rw [encode_append, encode_append]
  intro e
  exact (name_bytes hn).1 (List.append_eq_nil_iff.1 (List.append_eq_nil_iff.1 e).1).1

/-- The fields are read back. -/
theorem read_fields {hs : Headers} (h : ∀ f ∈ hs, Name f.1 ∧ Clean f.2) (rest : Bytes) :
    Fields (hs.flatMap field ++ (crlf ++ rest)) (hs.map fun f => (encode f.1, trim (encode f.2))) rest := by
  induction hs with
  | nil => exact .done (line_crlf (l := []) (by simp) rest)
  | cons f hs ih =>
    obtain ⟨n, v⟩ := f
    obtain ⟨hn, hv⟩ := h (n, v) (by simp)
    rw [List.flatMap_cons, List.append_assoc, List.map_cons]
    exact .more (line_field hn hv _) (field_ne hn) (split_field hn)
      (ih fun f hf => h f (List.mem_cons_of_mem _ hf))

theorem fmt_three {c : Nat} (h1 : 100 ≤ c) (h2 : c < 1000) : (fmtNat c).length = 3 := by
  have h : ∀ c : Fin 1000, 100 ≤ c.val → (fmtNat c.val).length = 3 := by decide +kernel
  exact h ⟨c, h2⟩ h1

theorem read_status {c : Nat} (h1 : 100 ≤ c) (h2 : c < 1000) (reason : Str) :
    statusOf (encode (lit "HTTP/1.1 " ++ fmtNat c ++ lit " " ++ reason)) = some c := by
  have hl : (encode (fmtNat c)).length = 3 := by
    rw [digits_encode (fmt_digits c), List.length_map, fmt_three h1 h2]
  have e : encode (lit "HTTP/1.1 " ++ fmtNat c ++ lit " " ++ reason) =
      [72, 84, 84, 80, 47, 49, 46, 49, 32] ++ (encode (fmtNat c) ++ (32 :: encode reason)) := by
    rw [encode_append, encode_append, encode_append, List.append_assoc, List.append_assoc]
    rfl
  rw [e]
  unfold statusOf
  have t1 : ([72, 84, 84, 80, 47, 49, 46, 49, 32] ++ (encode (fmtNat c) ++ (32 :: encode reason)) : Bytes).take 9 =
      [72, 84, 84, 80, 47, 49, 46, 49, 32] := by
    exact List.take_left' rfl
  have t2 : ([72, 84, 84, 80, 47, 49, 46, 49, 32] ++ (encode (fmtNat c) ++ (32 :: encode reason)) : Bytes).drop 9 =
      encode (fmtNat c) ++ (32 :: encode reason) := List.drop_left' rfl
  have t3 : ([72, 84, 84, 80, 47, 49, 46, 49, 32] ++ (encode (fmtNat c) ++ (32 :: encode reason)) : Bytes).drop 12 =
      32 :: encode reason := by
    rw [show (12 : Nat) = 9 + 3 from rfl, ← List.drop_drop, t2]
    exact List.drop_left' hl
  rw [if_pos ⟨t1, by rw [t3]; rfl⟩, t2, List.take_left' hl, number_fmt]

theorem clean_status (c : Nat) {reason : Str} (h : Clean reason) :
    Clean (lit "HTTP/1.1 " ++ fmtNat c ++ lit " " ++ reason) := by
  have h1 : Clean (lit "HTTP/1.1 ") := by unfold Clean; decide
  have h2 : Clean (lit " ") := by unfold Clean; decide
  exact clean_append (clean_append (clean_append h1 (fmt_clean c)) h2) h

theorem toLower_special {c d : Char} (hd : d ∈ [':', ' ', '\t', '\r', '\n']) (h : c.toLower = d) : c = d := by
  unfold Char.toLower at h
  split at h
  · rename_i hu
    exfalso
    have hv : (c.val + (32 : UInt32)).toNat = d.val.toNat := congrArg (fun x : Char => x.val.toNat) h
    obtain ⟨h1, h2⟩ := hu
    rw [ge_iff_le, UInt32.le_iff_toNat_le] at h1
    rw [UInt32.le_iff_toNat_le] at h2
    have h1 : 65 ≤ c.val.toNat := h1
    have h2 : c.val.toNat ≤ 90 := h2
    have e : (c.val + (32 : UInt32)).toNat = c.val.toNat + 32 := by
      rw [UInt32.toNat_add]
      have : (32 : UInt32).toNat = 32 := rfl
      omega
    have hd' : d.val.toNat ≤ 58 := by
      revert hd
      have : ∀ d ∈ [':', ' ', '\t', '\r', '\n'], d.val.toNat ≤ 58 := by decide
      exact this d
    omega
  · exact h

theorem name_lower {n : Str} (h : Name n) : Name (lower n) := by
  obtain ⟨h1, h2⟩ := h
  refine ⟨by simpa [lower] using h1, ?_⟩
  intro c hc hs
  obtain ⟨d, hd, rfl⟩ := List.mem_map.1 hc
  have := toLower_special hs rfl
  exact h2 d hd (this ▸ hs)

/-- The values of a name in the dict. -/
def vals (h : Headers) (name : Str) : List Str := (h.filter (·.1 = name)).map (·.2)

/-- The dict is a dict, and all its fields fit in lines. -/
structure Good (h : Headers) : Prop where
  nodup : (h.map (·.1)).Nodup
  clean : ∀ f ∈ h, Name f.1 ∧ Clean f.2

theorem mem_put {h : Headers} {n v : Str} {f : Str × Str} (hf : f ∈ h.put n v) : f ∈ h ∨ f = (n, v) := by
  induction h with
  | nil => exact .inr (List.mem_singleton.1 hf)
  | cons g h ih =>
    obtain ⟨n', v'⟩ := g
    unfold Headers.put at hf
    split at hf
    · rcases List.mem_cons.1 hf with rfl | hf
      · exact .inr rfl
      · exact .inl (List.mem_cons_of_mem _ hf)
    · rcases List.mem_cons.1 hf with rfl | hf
      · exact .inl (by simp)
      · rcases ih hf with h1 | h1
        · exact .inl (List.mem_cons_of_mem _ h1)
        · exact .inr h1

theorem vals_none {h : Headers} {n : Str} (hn : n ∉ h.map (·.1)) : vals h n = [] := by
  unfold vals
  rw [List.map_eq_nil_iff, List.filter_eq_nil_iff]
  intro f hf
  simp only [decide_eq_true_eq]
  rintro rfl
  exact hn (List.mem_map_of_mem hf)

theorem put_good {h : Headers} {n v : Str} (hg : Good h) (hn : Name n) (hv : Clean v) :
    Good (h.put n v) ∧ ∀ m, vals (h.put n v) m = if m = n then [v] else vals h m := by
  refine ⟨⟨?_, ?_⟩, ?_⟩
  · have hd := hg.nodup
    clear hg hn hv
    induction h with
    | nil => simp [Headers.put]
    | cons g h ih =>
      obtain ⟨n', v'⟩ := g
      simp only [List.map_cons, List.nodup_cons] at hd
      unfold Headers.put
      split
      · rename_i he
        subst he
        simpa using hd
      · rename_i he
        simp only [List.map_cons, List.nodup_cons]
        refine ⟨?_, ih hd.2⟩
        intro hm
        obtain ⟨f, hf, e⟩ := List.mem_map.1 hm
        rcases mem_put hf with h1 | rfl
        · exact hd.1 (e ▸ List.mem_map_of_mem h1)
        · exact he e.symm
  · intro f hf
    rcases mem_put hf with h1 | rfl
    · exact hg.clean f h1
    · exact ⟨hn, hv⟩
  · intro m
    have hd := hg.nodup
    clear hg hn hv
    induction h with
    | nil =>
      unfold Headers.put vals
      by_cases hm : m = n
      · subst hm; simp
      · rw [if_neg hm, List.filter_cons_of_neg (by simpa using fun e => hm e.symm)]
    | cons g h ih =>
      obtain ⟨n', v'⟩ := g
      simp only [List.map_cons, List.nodup_cons] at hd
      unfold Headers.put
      split
      · rename_i he
        subst he
        by_cases hm : m = n'
        · subst hm
          rw [if_pos rfl]
          have := vals_none hd.1
          unfold vals at this ⊢
          rw [List.filter_cons_of_pos (by simp), List.map_cons, this]
        · rw [if_neg hm]
          unfold vals
          rw [List.filter_cons_of_neg (by simpa using fun e => hm e.symm),
            List.filter_cons_of_neg (by simpa using fun e => hm e.symm)]
      · rename_i he
        have ih := ih hd.2
        by_cases hm : m = n'
        · subst hm
          rw [if_neg he]
          rw [if_neg he] at ih
          unfold vals at ih ⊢
          rw [List.filter_cons_of_pos (by simp), List.filter_cons_of_pos (by simp), List.map_cons, ih,
            List.map_cons]
        · have e1 : ∀ t : Headers, vals ((n', v') :: t) m = vals t m := by
            intro t
            unfold vals
            rw [List.filter_cons_of_neg (by simpa using fun e => hm e.symm)]
          rw [e1, e1, ih]

theorem set_good {h : Headers} {n v : Str} (hg : Good h) (hn : Name n) (hv : Clean v) :
    Good (h.set n v) ∧ ∀ m, vals (h.set n v) m = if m = lower n then [v] else vals h m :=
  put_good hg (name_lower hn) hv

/-- An action that only prepares the response. -/
def prepare (r : Resp) : Act → Resp
  | .status code => { r with status := code }
  | .header n v => { r with headers := r.headers.set n v }
  | .close => r.close
  | _ => r

/-- The response of the handler before it writes. -/
def prepared (as : List Act) (r : Resp) : Resp := (before as).foldl prepare r

/-- What is sent if nothing fails. -/
def stream (env : Env) (as : List Act) (r : Resp) : Bytes := (prepared as r).header env ++ bodySaid as

theorem name_connection : Name (lit "connection") := by unfold Name; decide
theorem name_length : Name (lit "content-length") := by unfold Name; decide
theorem name_type : Name (lit "content-type") := by unfold Name; decide
theorem name_range : Name (lit "content-range") := by unfold Name; decide
theorem name_server : Name (lit "server") := by unfold Name; decide
theorem name_date : Name (lit "date") := by unfold Name; decide
theorem clean_close : Clean (lit "close") := by unfold Clean; decide
theorem clean_text : Clean (lit "text/plain; charset=UTF-8") := by unfold Clean; decide
theorem clean_json : Clean (lit "application/json") := by unfold Clean; decide
theorem lower_connection : lower (lit "connection") = lit "connection" := by decide
theorem lower_length : lower (lit "content-length") = lit "content-length" := by decide
theorem lower_type : lower (lit "content-type") = lit "content-type" := by decide

/-- The response is prepared with this status and these values. -/
structure At (r : Resp) (st : Nat) (say : Str → Option Str) : Prop where
  good : Good r.headers
  status : r.status = st
  range : 200 ≤ st ∧ st < 1000
  vals : ∀ m, vals r.headers m = (say m).toList

/-- The last value of a list of actions, or the value before. -/
def saidAfter (say : Str → Option Str) (as : List Act) (m : Str) : Option Str := (fieldSaid m as).or (say m)

/-- The last status of a list of actions, or the status before. -/
def statusAfter (st : Nat) (as : List Act) : Nat :=
  ((as.filterMap fun a => match a with | .status c => some c | _ => none).getLast?).getD st

theorem filterMap_last {α β : Type} (f : α → Option β) (a : α) (as : List α) :
    ((a :: as).filterMap f).getLast? = ((as.filterMap f).getLast?).or (f a) := by
  cases h : f a with
  | none => rw [List.filterMap_cons_none h]; simp
  | some v =>
    rw [List.filterMap_cons_some h, List.getLast?_cons]
    cases (List.filterMap f as).getLast? <;> simp

theorem fieldSaid_cons (m : Str) (a : Act) (as : List Act) :
    fieldSaid m (a :: as) = (fieldSaid m as).or (fieldSaid m [a]) := by
  unfold fieldSaid
  rw [filterMap_last, filterMap_last]
  simp

theorem saidAfter_cons (say : Str → Option Str) (a : Act) (as : List Act) :
    saidAfter say (a :: as) = saidAfter (saidAfter say [a]) as := by
  funext m
  unfold saidAfter
  rw [fieldSaid_cons, Option.or_assoc]

theorem statusAfter_cons (st : Nat) (a : Act) (as : List Act) :
    statusAfter st (a :: as) = statusAfter (statusAfter st [a]) as := by
  unfold statusAfter
  rw [filterMap_last, filterMap_last]
  simp only [List.filterMap_nil, List.getLast?_nil, Option.none_or]
  generalize (List.filterMap _ as).getLast? = x
  cases x <;> simp

theorem prepare_at {r : Resp} {st : Nat} {say : Str → Option Str} (h : At r st say) {a : Act}
    (ha : CleanAct a) : At (prepare r a) (statusAfter st [a]) (saidAfter say [a]) := by
  have setc : ∀ (n v : Str), Name n → Clean v → ∀ (b : Bool),
      At { r with headers := r.headers.set n v, closing := b } st (fun m => if m = lower n then some v else say m) := by
    intro n v hn hv b
    obtain ⟨g1, g2⟩ := set_good h.good hn hv
    refine ⟨g1, h.status, h.range, ?_⟩
    intro m
    rw [g2 m]
    by_cases hm : m = lower n
    · rw [if_pos hm, if_pos hm]; rfl
    · rw [if_neg hm, if_neg hm, h.vals]
  cases a with
  | status code =>
    exact ⟨h.good, rfl, ha, h.vals⟩
  | header n v =>
    have := setc n v ha.1 ha.2 r.closing
    have e : saidAfter say [.header n v] = fun m => if m = lower n then some v else say m := by
      funext m
      unfold saidAfter fieldSaid
      by_cases hm : m = lower n
      · subst hm; simp
      · rw [if_neg hm]
        simp [show ¬ lower n = m from fun e => hm e.symm]
    rw [e]
    exact this
  | close =>
    have := setc (lit "connection") (lit "close") name_connection clean_close true
    have e : saidAfter say [.close] = fun m => if m = lower (lit "connection") then some (lit "close") else say m := by
      funext m
      rw [lower_connection]
      unfold saidAfter fieldSaid
      by_cases hm : m = lit "connection"
      · rw [if_pos hm]
        simp [hm]
      · rw [if_neg hm]
        simp [show ¬ lit "connection" = m from fun e => hm e.symm]
    rw [e]
    exact this
  | json t => exact h
  | write d => exact h

theorem prepare_all {as : List Act} : ∀ {r : Resp} {st : Nat} {say : Str → Option Str}, At r st say →
    (∀ a ∈ as, CleanAct a) → At (as.foldl prepare r) (statusAfter st as) (saidAfter say as) := by
  induction as with
  | nil => intro r st say h _; exact h
  | cons a as ih =>
    intro r st say h ha
    rw [List.foldl_cons, statusAfter_cons, saidAfter_cons]
    exact ih (prepare_at h (ha a (by simp))) fun a hm => ha a (List.mem_cons_of_mem _ hm)

theorem fresh_at (b : Bool) (r : Resp) :
    At (fresh b r) 200 (fun m => if m = lit "content-length" then some (lit "0") else none) := by
  refine ⟨⟨by simp [fresh], ?_⟩, rfl, by decide, ?_⟩
  · intro f hf
    rw [List.mem_singleton.1 hf]
    exact ⟨name_length, by unfold Clean; decide⟩
  · intro m
    unfold vals fresh
    simp only
    by_cases hm : m = lit "content-length"
    · rw [if_pos hm, hm, List.filter_cons_of_pos (by rw [decide_eq_true_eq])]
      rfl
    · rw [if_neg hm, List.filter_cons_of_neg (by rw [decide_eq_true_eq]; exact fun e => hm e.symm)]
      rfl

theorem plain_append (a b : List Act) : plain (a ++ b) = plain a ++ plain b := by
  induction a with
  | nil => rfl
  | cons x a ih =>
    cases x with
    | json t =>
      show _ ++ plain (a ++ b) = (_ ++ plain a) ++ plain b
      rw [ih, List.append_assoc]
    | _ => exact congrArg (_ :: ·) ih

theorem plain_clean {as : List Act} (h : ∀ a ∈ as, CleanAct a) : ∀ a ∈ plain as, CleanAct a := by
  induction as with
  | nil => exact h
  | cons x as ih =>
    have ih := ih fun a ha => h a (List.mem_cons_of_mem _ ha)
    have hx := h x (by simp)
    intro a ha
    cases x with
    | json t =>
      rcases List.mem_cons.1 ha with rfl | ha
      · exact (⟨Nat.le_refl 200, Nat.lt_of_sub_pos (Nat.succ_pos 799)⟩ : 200 ≤ 200 ∧ 200 < 1000)
      rcases List.mem_cons.1 ha with rfl | ha
      · exact ⟨name_length, fmt_clean _⟩
      rcases List.mem_cons.1 ha with rfl | ha
      · exact ⟨name_type, clean_json⟩
      rcases List.mem_cons.1 ha with rfl | ha
      · trivial
      · exact ih a ha
    | status _ => rcases List.mem_cons.1 ha with rfl | ha; exact hx; exact ih a ha
    | header _ _ => rcases List.mem_cons.1 ha with rfl | ha; exact hx; exact ih a ha
    | close => rcases List.mem_cons.1 ha with rfl | ha; exact hx; exact ih a ha
    | write _ => rcases List.mem_cons.1 ha with rfl | ha; exact hx; exact ih a ha

theorem prepared_at {as : List Act} (h : ∀ a ∈ as, CleanAct a) (b : Bool) (r : Resp) :
    At (prepared as (fresh b r)) (statusSaid (before as)) (fun m => valueSaid m (before as)) := by
  have := prepare_all (fresh_at b r) (as := before as)
    (fun a ha => plain_clean h a ((List.takeWhile_sublist _).subset ha))
  exact this

/-- The fields of the response. -/
def fieldsOf (env : Env) (r : Resp) : List (Bytes × Bytes) :=
  ((lit "server", env.version) :: (lit "date", env.date) :: r.headers).map fun f =>
    (encode f.1, trim (encode f.2))

theorem read_header {env : Env} (he : CleanEnv env) {r : Resp} {st : Nat} {say : Str → Option Str}
    (h : At r st say) (rest : Bytes) :
    ∃ l r', line (r.header env ++ rest) = some (l, r') ∧ statusOf l = some st ∧
      Fields r' (fieldsOf env r) rest := by
  have hclean : Clean ((env.reason r.status).getD []) := by
    cases hr : env.reason r.status with
    | none => intro c hc; simp at hc
    | some s => exact he.reason _ s hr
  have hst := h.status
  have hrg := h.range
  have e : r.header env ++ rest =
      encode (lit "HTTP/1.1 " ++ fmtNat r.status ++ lit " " ++ (env.reason r.status).getD []) ++ (crlf ++
      (((lit "server", env.version) :: (lit "date", env.date) :: r.headers).flatMap field ++ (crlf ++ rest))) := by
    unfold Resp.header
    simp only [List.flatMap_cons, List.append_assoc]
  refine ⟨_, _, (congrArg line e).trans (line_crlf (clean_bytes (clean_status _ hclean)) _),
    (read_status (c := r.status) (by omega) (by omega) _).trans (by rw [hst]), ?_⟩
  apply read_fields
  intro f hf
  rcases List.mem_cons.1 hf with rfl | hf
  · exact ⟨name_server, he.version⟩
  rcases List.mem_cons.1 hf with rfl | hf
  · exact ⟨name_date, he.date⟩
  · exact h.good.clean f hf

theorem values_said {env : Env} {r : Resp} {st : Nat} {say : Str → Option Str} (h : At r st say) :
    FieldsSaid (fieldsOf env r) say := by
  intro name h1 h2
  unfold values fieldsOf
  rw [List.filter_map, List.map_map]
  have e : ((fun x : Bytes × Bytes => decide (x.1 = encode name)) ∘ fun f : Str × Str => (encode f.1, trim (encode f.2))) =
      fun f => decide (f.1 = name) := by
    funext f
    simp only [Function.comp]
    by_cases hf : f.1 = name
    · rw [decide_eq_true hf, decide_eq_true (by rw [hf])]
    · rw [decide_eq_false hf, decide_eq_false fun e => hf (encode_inj e)]
  rw [e, List.filter_cons_of_neg (by rw [decide_eq_true_eq]; exact fun e => h1 e.symm),
    List.filter_cons_of_neg (by rw [decide_eq_true_eq]; exact fun e => h2 e.symm)]
  have hv := h.vals name
  unfold vals at hv
  have : List.map ((fun x : Bytes × Bytes => x.2) ∘ fun f : Str × Str => (encode f.1, trim (encode f.2)))
      (List.filter (fun f => decide (f.1 = name)) r.headers) =
      ((List.filter (fun f => decide (f.1 = name)) r.headers).map (·.2)).map fun v => trim (encode v) := by
    rw [List.map_map]
    rfl
  rw [this, hv]
  cases say name <;> rfl

/-- What the client gets from a response and more bytes. -/
theorem receives_iff {env : Env} (he : CleanEnv env) {r : Resp} {st : Nat} {say : Str → Option Str}
    (h : At r st say) (rest : Bytes) (code : Nat) (fs : List (Bytes × Bytes)) (b r' : Bytes) :
    Receives (r.header env ++ rest) code fs b r' ↔
      code = st ∧ fs = fieldsOf env r ∧
      ∃ n, bodyLength st (fieldsOf env r) = some n ∧ n ≤ rest.length ∧ b = rest.take n ∧ r' = rest.drop n := by
  obtain ⟨l, x, h1, h2, h3⟩ := read_header he h rest
  have hr := h.range
  constructor
  · intro hx
    cases hx with
    | info hl hs hc =>
      rw [h1] at hl
      cases hl
      rw [h2] at hs
      cases hs
      omega
    | final hl hs hc hf hn hlen =>
      rw [h1] at hl
      cases hl
      rw [h2] at hs
      cases hs
      obtain ⟨rfl, rfl⟩ := fields_unique h3 hf
      exact ⟨rfl, rfl, _, hn, hlen, rfl, rfl⟩
  · rintro ⟨rfl, rfl, n, hn, hlen, rfl, rfl⟩
    exact .final h1 h2 hr.1 h3 hn hlen

theorem length_said {env : Env} {r : Resp} {st : Nat} {say : Str → Option Str} (h : At r st say) {n : Nat}
    (hn : say (lit "content-length") = some (fmtNat n)) :
    bodyLength st (fieldsOf env r) = some (if st = 204 ∨ st = 304 then 0 else n) := by
  have hv := values_said h (env := env) (lit "content-length") (by decide) (by decide)
  unfold bodyLength
  rw [hv, hn]
  simp only [Option.map_some, Option.toList_some, List.map_cons, List.map_nil]
  rw [trim_digits (fmt_digits n), number_fmt]

/-! ## Running the handler -/

theorem send_out (data : Bytes) (r : Resp) :
    (r.send data).2.started = r.started ∧
    ∃ d, (r.send data).2.out = r.out ++ d ∧ d <+: data ∧ ((r.send data).1 = .ok () → d = data) := by
  unfold Resp.send
  split
  · exact ⟨rfl, data, rfl, List.prefix_refl _, fun _ => rfl⟩
  · rename_i k _
    exact ⟨rfl, data.take k, rfl, List.take_prefix _ _, fun h => by simp at h⟩

theorem send_closing (data : Bytes) (r : Resp) : (r.send data).2.closing = r.closing := by
  unfold Resp.send
  split <;> rfl

theorem write_closing (env : Env) (data : Bytes) (r : Resp) : (r.write env data).2.closing = r.closing := by
  unfold Resp.write
  split
  · exact send_closing _ _
  · simp only
    split
    · exact send_closing _ _
    · split
      · rename_i e r1 h
        have := send_closing ((Resp.header env { r with started := true })) { r with started := true }
        rw [h] at this
        exact this
      · rename_i r1 h
        have := send_closing ((Resp.header env { r with started := true })) { r with started := true }
        rw [h] at this
        rw [send_closing]
        exact this

theorem write_started {env : Env} {data : Bytes} {r : Resp} (h : r.started = true) :
    (r.write env data).2.started = true ∧
    ∃ d, (r.write env data).2.out = r.out ++ d ∧ d <+: data ∧ ((r.write env data).1 = .ok () → d = data) := by
  unfold Resp.write
  rw [if_pos h]
  have := send_out data r
  rw [h] at this
  exact this

theorem write_unstarted {env : Env} {data : Bytes} {r : Resp} (h : r.started = false) :
    (r.write env data).2.started = true ∧
    ∃ d, (r.write env data).2.out = r.out ++ d ∧ d <+: r.header env ++ data ∧
      ((r.write env data).1 = .ok () → d = r.header env ++ data) := by
  unfold Resp.write
  rw [if_neg (by simp [h])]
  simp only
  have hh : Resp.header env { r with started := true } = r.header env := rfl
  rw [hh]
  split
  · exact send_out _ { r with started := true }
  · obtain ⟨s1, d, s2, s3, s4⟩ := send_out (r.header env) { r with started := true }
    split
    · rename_i e r1 hs
      rw [hs] at s1 s2
      exact ⟨s1, d, s2, s3.trans (List.prefix_append _ _), fun h => by simp at h⟩
    · rename_i r1 hs
      rw [hs] at s1 s2 s4
      have e := s4 rfl
      subst e
      obtain ⟨t1, d', t2, t3, t4⟩ := send_out data r1
      refine ⟨t1.trans s1, r.header env ++ d', ?_, List.prefix_append_right_inj _ |>.2 t3, ?_⟩
      · rw [t2, show r1.out = r.out ++ r.header env from s2, List.append_assoc]
      · intro h
        rw [t4 h]

theorem bodySaid_cons (a : Act) (as : List Act) : bodySaid (a :: as) = bodySaid [a] ++ bodySaid as := by
  unfold bodySaid
  rw [← List.flatMap_append, ← plain_append]
  rfl

theorem started_run {env : Env} {as : List Act} : ∀ {r : Resp}, r.started = true →
    (runActs env as r).2.started = true ∧
    ∃ d, (runActs env as r).2.out = r.out ++ d ∧ d <+: bodySaid as ∧
      ((runActs env as r).1 = .ok () → d = bodySaid as) := by
  induction as with
  | nil =>
    intro r h
    exact ⟨h, [], by simp [runActs], List.nil_prefix, fun _ => rfl⟩
  | cons a as ih =>
    intro r h
    have step : (a.run env r).2.started = true ∧ ∃ d, (a.run env r).2.out = r.out ++ d ∧
        d <+: bodySaid [a] ∧ ((a.run env r).1 = .ok () → d = bodySaid [a]) := by
      cases a with
      | status c => exact ⟨h, [], by simp [Act.run], List.nil_prefix, fun _ => rfl⟩
      | header n v => exact ⟨h, [], by simp [Act.run], List.nil_prefix, fun _ => rfl⟩
      | close => exact ⟨h, [], by simp [Act.run, Resp.close], List.nil_prefix, fun _ => rfl⟩
      | json t =>
        refine ⟨?_, [], ?_, List.nil_prefix, ?_⟩
        · simp [Act.run, Resp.sendJson, h]
        · simp [Act.run, Resp.sendJson, h]
        · simp [Act.run, Resp.sendJson, h]
      | write data =>
        have := write_started (env := env) (data := data) h
        have e : bodySaid [.write data] = data := by simp [bodySaid, plain]
        rw [e]
        exact this
    rw [bodySaid_cons]
    obtain ⟨s1, d, s2, s3, s4⟩ := step
    unfold runActs
    generalize a.run env r = y at s1 s2 s4
    obtain ⟨res, r1⟩ := y
    cases res with
    | error e => exact ⟨s1, d, s2, s3.trans (List.prefix_append _ _), fun h => by simp at h⟩
    | ok u =>
      have e := s4 rfl
      subst e
      obtain ⟨t1, d', t2, t3, t4⟩ := ih s1
      refine ⟨t1, bodySaid [a] ++ d', ?_, (List.prefix_append_right_inj _).2 t3, fun h => by rw [t4 h]⟩
      show (runActs env as r1).2.out = _
      rw [t2, show r1.out = r.out ++ bodySaid [a] from s2, List.append_assoc]

theorem wrote_cons (a : Act) (as : List Act) : wrote (a :: as) = (wrote [a] || wrote as) := by
  unfold wrote
  simp

theorem unstarted_run {env : Env} {as : List Act} : ∀ {r : Resp}, r.started = false →
    (wrote as = false → runActs env as r = (.ok (), prepared as r) ∧ (prepared as r).started = false ∧
      (prepared as r).out = r.out ∧ bodySaid as = []) ∧
    (wrote as = true → (runActs env as r).2.started = true ∧
      ∃ d, (runActs env as r).2.out = r.out ++ d ∧ d <+: stream env as r ∧
        ((runActs env as r).1 = .ok () → d = stream env as r)) := by
  induction as with
  | nil =>
    intro r h
    exact ⟨fun _ => ⟨rfl, h, rfl, rfl⟩, fun hw => by simp [wrote] at hw⟩
  | cons a as ih =>
    intro r h
    have prep : ∀ r1, a.run env r = (.ok (), r1) → r1.started = false → r1.out = r.out →
        prepared (a :: as) r = prepared as r1 → bodySaid [a] = [] → wrote [a] = false →
        (wrote (a :: as) = false → runActs env (a :: as) r = (.ok (), prepared (a :: as) r) ∧
          (prepared (a :: as) r).started = false ∧ (prepared (a :: as) r).out = r.out ∧ bodySaid (a :: as) = []) ∧
        (wrote (a :: as) = true → (runActs env (a :: as) r).2.started = true ∧
          ∃ d, (runActs env (a :: as) r).2.out = r.out ++ d ∧ d <+: stream env (a :: as) r ∧
            ((runActs env (a :: as) r).1 = .ok () → d = stream env (a :: as) r)) := by
      intro r1 h1 h2 h3 h4 h5 h6
      have e1 : runActs env (a :: as) r = runActs env as r1 := by
        rw [runActs, h1]
      have e2 : stream env (a :: as) r = stream env as r1 := by
        unfold stream
        rw [h4, bodySaid_cons, h5, List.nil_append]
      have e3 : wrote (a :: as) = wrote as := by rw [wrote_cons, h6, Bool.false_or]
      rw [e1, e2, e3, h4, ← h3, bodySaid_cons, h5, List.nil_append]
      exact ih h2
    have finish : ∀ (r1 : Resp) (data : Bytes), a.run env r = r1.write env data → r1.started = false →
        r1.out = r.out → prepared (a :: as) r = r1 → bodySaid [a] = data →
        (runActs env (a :: as) r).2.started = true ∧
          ∃ d, (runActs env (a :: as) r).2.out = r.out ++ d ∧ d <+: stream env (a :: as) r ∧
            ((runActs env (a :: as) r).1 = .ok () → d = stream env (a :: as) r) := by
      intro r1 data h1 h2 h3 h4 h5
      have e2 : stream env (a :: as) r = (r1.header env ++ data) ++ bodySaid as := by
        unfold stream
        rw [h4, bodySaid_cons, h5, List.append_assoc]
      rw [e2, runActs, h1]
      obtain ⟨s1, d, s2, s3, s4⟩ := write_unstarted (env := env) (data := data) h2
      generalize r1.write env data = y at s1 s2 s4
      obtain ⟨res, r2⟩ := y
      cases res with
      | error e =>
        exact ⟨s1, d, by rw [← h3]; exact s2, s3.trans (List.prefix_append _ _), fun h => by simp at h⟩
      | ok u =>
        have e := s4 rfl
        subst e
        obtain ⟨t1, d', t2, t3, t4⟩ := started_run (env := env) (as := as) s1
        refine ⟨t1, _, ?_, (List.prefix_append_right_inj _).2 t3, fun h => by rw [t4 h]⟩
        show (runActs env as r2).2.out = _
        rw [t2, show r2.out = _ from s2, h3, List.append_assoc]
    cases a with
    | status c => exact prep _ rfl h rfl rfl rfl rfl
    | header n v => exact prep _ rfl h rfl rfl rfl rfl
    | close => exact prep _ rfl h rfl rfl rfl rfl
    | write data =>
      exact ⟨fun hw => by simp [wrote] at hw, fun _ => finish r data rfl h rfl rfl (by simp [bodySaid, plain])⟩
    | json t =>
      refine ⟨fun hw => by simp [wrote] at hw, fun _ => ?_⟩
      refine finish (prepare (prepare (prepare r (.status 200))
        (.header (lit "content-length") (fmtNat (encode t ++ [10]).length)))
        (.header (lit "content-type") (lit "application/json"))) (encode t ++ [10]) ?_ h rfl rfl
        (by simp [bodySaid, plain])
      show r.sendJson env t = _
      unfold Resp.sendJson
      rw [if_neg (by simp [h])]
      rfl

/-- The error path says the error. -/
theorem failure_run {env : Env} {c : Call} {e : Failure} {r : Resp} {u : Bool} (hs : r.started = false)
    (hu : c.unread = some u) (hl : ¬ (e = .socket ∧ c.lost = true)) :
    handleFailure env c e r = runActs env (errorActs u e) r := by
  unfold handleFailure
  rw [if_neg hl, if_neg (by simp [hs]), hu]
  have one : ∀ (code : Nat) (m : Str) (cr : Option Str) (r : Resp), r.started = false →
      r.sendError env code m cr = runActs env
        ([.status code, .header (lit "content-type") (lit "text/plain; charset=UTF-8"),
          .header (lit "content-length") (fmtNat (encode m ++ [10]).length)] ++
        (cr.map fun v => .header (lit "content-range") v).toList ++ [.write (encode m ++ [10])]) r := by
    intro code m cr r hs
    have last : ∀ y : Except Failure Unit × Resp, (match y with
        | (.error e, r) => (.error e, r)
        | (.ok (), r) => ((.ok (), r) : Except Failure Unit × Resp)) = y := by
      rintro ⟨_ | _, _⟩ <;> rfl
    unfold Resp.sendError
    rw [if_neg (by simp [hs])]
    cases cr with
    | none => exact (last _).symm
    | some v => exact (last _).symm
  have hc : (if u then r.close else r).started = false := by cases u <;> exact hs
  cases e with
  | http code m cr =>
    simp only
    rw [one code m cr _ hc]
    cases u <;> rfl
  | socket =>
    simp only
    rw [one _ _ _ _ hc]
    cases u <;> rfl
  | other =>
    simp only
    rw [one _ _ _ _ hc]
    cases u <;> rfl

theorem runActs_append {env : Env} {a b : List Act} : ∀ {r r1 : Resp}, runActs env a r = (.ok (), r1) →
    runActs env (a ++ b) r = runActs env b r1 := by
  induction a with
  | nil =>
    intro r r1 h
    simp only [runActs, Prod.mk.injEq, true_and] at h
    rw [List.nil_append, h]
  | cons x a ih =>
    intro r r1 h
    rw [List.cons_append, runActs]
    rw [runActs] at h
    generalize x.run env r = y at h
    obtain ⟨res, r2⟩ := y
    cases res with
    | error e => simp at h
    | ok u => exact ih h

theorem wrote_append (a b : List Act) : wrote (a ++ b) = (wrote a || wrote b) := by
  unfold wrote
  rw [List.any_append]

theorem wrote_error (u : Bool) (e : Failure) : wrote (errorActs u e) = true := by
  unfold errorActs
  cases e <;> simp [wrote]

theorem failure_closing {env : Env} {c : Call} {e : Failure} {r : Resp} (h : r.started = true) :
    handleFailure env c e r = (.ok (), r.close) := by
  unfold handleFailure
  by_cases hl : e = .socket ∧ c.lost = true
  · rw [if_pos hl]
  · rw [if_neg hl, if_pos h]

/-- What is sent for a call: a prefix of what it says; everything, or the connection is closed. -/
theorem answer_shape (env : Env) (c : Call) (r : Resp) (h : r.started = false) :
    ∃ d, (answer env c r).out = r.out ++ d ∧ d <+: stream env (told c) r ∧
      (d = stream env (told c) r ∨ (answer env c r).closing = true) := by
  obtain ⟨u1, u2⟩ := unstarted_run (env := env) (as := c.acts) h
  cases hw : wrote c.acts with
  | true =>
    have ht : told c = c.acts := by
      unfold told
      cases c.raises with
      | none => rfl
      | some e => simp only; rw [if_pos hw]
    rw [ht]
    obtain ⟨s1, d, s2, s3, s4⟩ := u2 hw
    unfold answer router
    generalize runActs env c.acts r = y at s1 s2 s4
    obtain ⟨res, r1⟩ := y
    cases res with
    | error e =>
      simp only [failure_closing (show r1.started = true from s1)]
      exact ⟨d, s2, s3, .inr rfl⟩
    | ok u =>
      simp only
      cases c.raises with
      | some e =>
        simp only [failure_closing (show r1.started = true from s1)]
        exact ⟨d, s2, s3, .inr rfl⟩
      | none =>
        simp only
        rw [if_pos (show r1.started = true from s1)]
        exact ⟨d, s2, s3, .inl (s4 rfl)⟩
  | false =>
    obtain ⟨v1, v2, v3, v4⟩ := u1 hw
    unfold answer router
    rw [v1]
    simp only
    cases hr : c.raises with
    | none =>
      have ht : told c = c.acts := by unfold told; rw [hr]
      rw [ht]
      simp only
      rw [if_neg (by simp [v2])]
      obtain ⟨s1, d, s2, s3, s4⟩ := write_unstarted (env := env) (data := []) v2
      have es : stream env c.acts r = (prepared c.acts r).header env ++ [] := by
        unfold stream
        rw [v4]
      rw [es]
      rw [v3] at s2
      generalize (prepared c.acts r).write env [] = y at s1 s2 s4
      obtain ⟨res, r1⟩ := y
      cases res with
      | error e =>
        simp only [failure_closing (show r1.started = true from s1)]
        exact ⟨d, s2, s3, .inr rfl⟩
      | ok u => exact ⟨d, s2, s3, .inl (s4 rfl)⟩
    | some e =>
      simp only
      have ht : told c = c.acts ++ errorActs (c.unread == some true) e := by
        unfold told
        rw [hr]
        simp only
        rw [if_neg (by simp [hw])]
      by_cases hl : e = .socket ∧ c.lost = true
      · have : handleFailure env c e (prepared c.acts r) = (.ok (), (prepared c.acts r).close) := by
          unfold handleFailure
          rw [if_pos hl]
        rw [this]
        exact ⟨[], by simp [Resp.close, v3], List.nil_prefix, .inr rfl⟩
      · cases hu : c.unread with
        | none =>
          have : handleFailure env c e (prepared c.acts r) = (.error (.http 400 [] none), prepared c.acts r) := by
            unfold handleFailure
            rw [if_neg hl, if_neg (by simp [v2]), hu]
          rw [this]
          exact ⟨[], by simp [v3], List.nil_prefix, .inr rfl⟩
        | some u =>
          have hb : (some u == some true) = u := by cases u <;> rfl
          rw [failure_run v2 hu hl, ht, hu, hb, ← runActs_append v1]
          obtain ⟨s1, d, s2, s3, s4⟩ :=
            (unstarted_run (env := env) (as := c.acts ++ errorActs u e) h).2
              (by rw [wrote_append, wrote_error, Bool.or_true])
          generalize runActs env (c.acts ++ errorActs u e) r = y at s1 s2 s4
          obtain ⟨res, r1⟩ := y
          cases res with
          | error e => exact ⟨d, s2, s3, .inr rfl⟩
          | ok u => exact ⟨d, s2, s3, .inl (s4 rfl)⟩

end Imageio.Spec.Wire
