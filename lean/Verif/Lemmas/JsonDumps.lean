import Verif.Lemmas.Json

/-!
Lemmas about `json.dumps`: the text is a value of the grammar, in printable ASCII.
-/
namespace Imageio.JsonText
open Imageio.Http Imageio.Images Imageio.Spec Imageio.Spec.JsonText

theorem space_nil : Space [] := by intro c hc; cases hc
theorem space_one : Space [' '] := by intro c hc; simp only [List.mem_singleton] at hc; exact .inl hc

theorem hexDigit_spec {n : Nat} (h : n < 16) : HexDigit (hexDigit n) n := by
  have : ∀ n : Fin 16, "0123456789abcdef".toList[n.val]? = some (hexDigit n.val) := by decide +kernel
  exact .inl (this ⟨n, h⟩)

theorem hexDigit_ascii (n : Nat) : 0x20 ≤ (hexDigit n).toNat ∧ (hexDigit n).toNat ≤ 0x7e := by
  by_cases h : n < 16
  · have : ∀ n : Fin 16, 0x20 ≤ (hexDigit n.val).toNat ∧ (hexDigit n.val).toNat ≤ 0x7e := by decide +kernel
    exact this ⟨n, h⟩
  · unfold hexDigit
    rw [List.getD_eq_getElem?_getD, List.getElem?_eq_none (by simp; omega)]
    decide

theorem escapeUnit_spec {n : Nat} (h : n < 0x10000) : Unit16 (escapeUnit n) n :=
  ⟨_, _, _, _, _, _, _, _, rfl, hexDigit_spec (by omega), hexDigit_spec (by omega), hexDigit_spec (by omega),
    hexDigit_spec (by omega), by omega⟩

theorem escapeChar_chars (c : Char) {b s : Str} (h : Chars b s) : Chars (escapeChar c ++ b) (c :: s) := by
  unfold escapeChar
  have hv := char_valid c
  split
  · rename_i hc; subst hc; exact .short (by unfold Short; decide) h
  split
  · rename_i hc; subst hc; exact .short (by unfold Short; decide) h
  split
  · rename_i hc; subst hc; exact .short (by unfold Short; decide) h
  split
  · rename_i hc; subst hc; exact .short (by unfold Short; decide) h
  split
  · rename_i hc; subst hc; exact .short (by unfold Short; decide) h
  split
  · rename_i hc; exact .short (by rw [hc]; unfold Short; decide) h
  split
  · rename_i hc; exact .short (by rw [hc]; unfold Short; decide) h
  rename_i h1 h2 _ _ _ _ _
  split
  · rename_i hc; exact .plain hc.1 h2 h1 h
  split
  · rename_i hc; exact .unit (escapeUnit_spec hc) h
  · rename_i hc
    rw [List.append_assoc]
    refine .pair (escapeUnit_spec (by omega)) (escapeUnit_spec (by omega)) ⟨by omega, by omega⟩ ⟨by omega, by omega⟩ ?_ h
    omega

theorem encode_chars (s : Str) : Chars (s.flatMap escapeChar) s := by
  induction s with
  | nil => exact .nil
  | cons c s ih => rw [List.flatMap_cons]; exact escapeChar_chars c ih

theorem encodeString_value (s : Str) : Value (encodeString s) (.str s) := .str (encode_chars s)

theorem natural_fmtNat (n : Nat) : Natural (fmtNat n) n := by
  refine ⟨number_fmtNat n, ?_⟩
  induction n using Nat.strongRecOn with
  | ind n ih =>
    intro h
    by_cases hn : n < 10
    · rw [fmtNat, Nat.toDigits_of_lt_base hn] at h ⊢
      simpa using h
    · rw [fmtNat, Nat.toDigits_of_base_le (by decide) (by omega)] at h
      rw [List.head?_append, Option.or_of_isSome (by simp [List.isSome_head?, Nat.toDigits_ne_nil])] at h
      have h1 := ih (n / 10) (by omega) h
      have h2 := (number_iff.1 (number_fmtNat (n / 10))).2.2
      rw [h1] at h2
      have : intOfDigits ['0'] = 0 := by decide
      omega

theorem fmtInt_value (n : Int) : Value (fmtInt n) (.int n) := by
  cases n with
  | ofNat n => exact .int (natural_fmtNat n)
  | negSucc n =>
    have := Value.neg (natural_fmtNat (n + 1))
    exact this

mutual
theorem dumpsText_value : ∀ j : Json, Value (dumpsText j) j
  | .null => by rw [dumpsText]; exact .null
  | .bool true => by rw [dumpsText]; exact .true
  | .bool false => by rw [dumpsText]; exact .false
  | .int n => by rw [dumpsText]; exact fmtInt_value n
  | .float => by
    rw [dumpsText]
    have h0 : Natural ['0'] 0 := ⟨number_iff.2 ⟨by simp, by decide, by decide⟩, fun _ => rfl⟩
    have hf : Fraction ['.', '0'] := ⟨['0'], rfl, by simp, by decide⟩
    exact Value.float (.inl rfl) h0 (.inr hf) (.inl rfl) (.inl (by simp))
  | .str s => by rw [dumpsText]; exact encodeString_value s
  | .arr [] => by rw [dumpsText]; exact .noItems (w := []) space_nil
  | .arr (j :: l) => by
    rw [dumpsText]
    obtain ⟨t, ht, hi⟩ := dumpsItems_items l (dumpsText_value j) space_nil
    rw [List.nil_append] at ht
    rw [ht]
    exact .items hi
  | .obj [] => by rw [dumpsText]; exact .noMembers (w := []) space_nil
  | .obj ((k, j) :: l) => by
    rw [dumpsText]
    obtain ⟨t, ht, hi⟩ := dumpsFields_members l k (dumpsText_value j) space_nil
    rw [List.nil_append] at ht
    rw [ht]
    exact .members hi
theorem dumpsItems_items : ∀ (l : List Json) {j : Json} {v w : Str}, Value v j → Space w →
    ∃ t, w ++ (v ++ dumpsItems l) = t ++ [']'] ∧ Items t (j :: l)
  | [], j, v, w, hv, hw => ⟨w ++ (v ++ []), by simp [dumpsItems], .one hw hv space_nil⟩
  | i :: l, j, v, w, hv, hw => by
    obtain ⟨t, ht, hi⟩ := dumpsItems_items l (dumpsText_value i) space_one
    refine ⟨w ++ (v ++ ([] ++ ',' :: t)), ?_, .cons hw hv space_nil hi⟩
    simp only [List.append_assoc, List.cons_append, List.nil_append, dumpsItems] at ht ⊢
    rw [← ht]
theorem dumpsFields_members : ∀ (l : List (Str × Json)) (k : Str) {j : Json} {v w : Str}, Value v j → Space w →
    ∃ t, w ++ (encodeString k ++ (lit ": " ++ (v ++ dumpsFields l))) = t ++ ['}'] ∧ Members t ((k, j) :: l)
  | [], k, j, v, w, hv, hw => by
    refine ⟨_, ?_, .one hw (encode_chars k) space_nil space_one hv space_nil⟩
    simp [dumpsFields, encodeString, lit]
  | (n, i) :: l, k, j, v, w, hv, hw => by
    obtain ⟨t, ht, hi⟩ := dumpsFields_members l n (dumpsText_value i) space_one
    refine ⟨_, ?_, .cons hw (encode_chars k) space_nil space_one hv space_nil hi⟩
    simp only [List.cons_append, List.nil_append] at ht
    simp only [dumpsFields, encodeString, List.cons_append, List.nil_append, List.append_assoc, ← ht]
    simp [lit]
end

/-! ## Printable ASCII -/

/-- Only printable ASCII characters. -/
def Printable (s : Str) : Prop := ∀ c ∈ s, 0x20 ≤ c.toNat ∧ c.toNat ≤ 0x7e

theorem printable_append {a b : Str} (ha : Printable a) (hb : Printable b) : Printable (a ++ b) := by
  intro c hc
  rcases List.mem_append.1 hc with h | h
  · exact ha c h
  · exact hb c h

theorem printable_cons {c : Char} {b : Str} (ha : 0x20 ≤ c.toNat ∧ c.toNat ≤ 0x7e) (hb : Printable b) : Printable (c :: b) :=
  printable_append (a := [c]) (by intro d hd; simp only [List.mem_singleton] at hd; rw [hd]; exact ha) hb

theorem printable_digits {s : Str} (h : ∀ c ∈ s, c.isDigit = true) : Printable s := by
  intro c hc
  have := h c hc
  simp only [Char.isDigit, Bool.and_eq_true, decide_eq_true_eq] at this
  have h1 : 48 ≤ c.toNat := this.1
  have h2 : c.toNat ≤ 57 := this.2
  omega

theorem escapeUnit_printable (n : Nat) : Printable (escapeUnit n) := by
  unfold escapeUnit
  exact printable_cons (by decide) (printable_cons (by decide) (printable_cons (hexDigit_ascii _)
    (printable_cons (hexDigit_ascii _) (printable_cons (hexDigit_ascii _) (printable_cons (hexDigit_ascii _)
      (by intro c hc; cases hc))))))

theorem escapeChar_printable (c : Char) : Printable (escapeChar c) := by
  unfold escapeChar
  repeat' split
  all_goals first
    | (unfold Printable; decide)
    | (rename_i h; exact printable_cons h (by intro c hc; cases hc))
    | exact escapeUnit_printable _
    | exact printable_append (escapeUnit_printable _) (escapeUnit_printable _)

theorem encodeString_printable (s : Str) : Printable (encodeString s) := by
  refine printable_cons (by decide) (printable_append ?_ (by unfold Printable; decide))
  intro c hc
  obtain ⟨d, _, hd⟩ := List.mem_flatMap.1 hc
  exact escapeChar_printable d c hd

theorem fmtInt_printable (n : Int) : Printable (fmtInt n) := by
  cases n with
  | ofNat n => exact printable_digits (number_iff.1 (number_fmtNat n)).2.1
  | negSucc n => exact printable_cons (by decide) (printable_digits (number_iff.1 (number_fmtNat _)).2.1)

mutual
theorem dumpsText_printable : ∀ j : Json, Printable (dumpsText j)
  | .null => by rw [dumpsText]; unfold Printable; decide
  | .bool true => by rw [dumpsText]; unfold Printable; decide
  | .bool false => by rw [dumpsText]; unfold Printable; decide
  | .int n => by rw [dumpsText]; exact fmtInt_printable n
  | .float => by rw [dumpsText]; unfold Printable; decide
  | .str s => by rw [dumpsText]; exact encodeString_printable s
  | .arr [] => by rw [dumpsText]; unfold Printable; decide
  | .arr (j :: l) => by
    rw [dumpsText]
    exact printable_cons (by decide) (printable_append (dumpsText_printable j) (dumpsItems_printable l))
  | .obj [] => by rw [dumpsText]; unfold Printable; decide
  | .obj ((k, j) :: l) => by
    rw [dumpsText]
    exact printable_cons (by decide) (printable_append (encodeString_printable k) (printable_append
      (by unfold Printable; decide) (printable_append (dumpsText_printable j) (dumpsFields_printable l))))
theorem dumpsItems_printable : ∀ l : List Json, Printable (dumpsItems l)
  | [] => by rw [dumpsItems]; unfold Printable; decide
  | j :: l => by
    rw [dumpsItems]
    exact printable_cons (by decide) (printable_cons (by decide)
      (printable_append (dumpsText_printable j) (dumpsItems_printable l)))
theorem dumpsFields_printable : ∀ l : List (Str × Json), Printable (dumpsFields l)
  | [] => by rw [dumpsFields]; unfold Printable; decide
  | (k, j) :: l => by
    rw [dumpsFields]
    exact printable_cons (by decide) (printable_cons (by decide) (printable_append (encodeString_printable k)
      (printable_append (by unfold Printable; decide) (printable_append (dumpsText_printable j) (dumpsFields_printable l)))))
end

/-! ## Bytes -/

theorem utf8_ofList (l : Str) : Spec.utf8 (String.ofList l) = l.flatMap String.utf8EncodeChar := by
  simp [Spec.utf8, String.toUTF8, List.utf8Encode]

theorem utf8EncodeChar_ascii {c : Char} (h : c.toNat < 128) : String.utf8EncodeChar c = [UInt8.ofNat c.toNat] := by
  unfold String.utf8EncodeChar
  have : c.val.toNat ≤ 0x7f := by show c.toNat ≤ _; omega
  rw [if_pos this]
  rfl

theorem utf8_cons (c : Char) (l : Str) :
    Spec.utf8 (String.ofList (c :: l)) = String.utf8EncodeChar c ++ Spec.utf8 (String.ofList l) := by
  rw [utf8_ofList, utf8_ofList, List.flatMap_cons]

theorem utf8_ascii {l : Str} (h : ∀ c ∈ l, c.toNat < 128) :
    Spec.utf8 (String.ofList l) = l.map fun c => UInt8.ofNat c.toNat := by
  induction l with
  | nil => rw [utf8_ofList]; rfl
  | cons c l ih =>
    rw [utf8_cons, utf8EncodeChar_ascii (h c (by simp)), ih fun d hd => h d (by simp [hd])]
    rfl

theorem printable_lt {l : Str} (h : Printable l) : ∀ c ∈ l, c.toNat < 128 := fun c hc => by have := h c hc; omega

/-- The first byte of a character is zero only for the character zero. -/
theorem utf8_first {c : Char} (h : c.toNat ≠ 0) : ∃ b r, String.utf8EncodeChar c = b :: r ∧ b ≠ 0 := by
  have hne : ∀ n : Nat, n < 256 → n ≠ 0 → UInt8.ofNat n ≠ 0 := by
    intro n h1 h2 h3
    have := congrArg UInt8.toNat h3
    simp only [UInt8.toNat_ofNat', UInt8.toNat_zero] at this
    omega
  unfold String.utf8EncodeChar
  have hc : c.val.toNat = c.toNat := rfl
  simp only [hc]
  split
  · exact ⟨_, _, rfl, hne _ (by omega) h⟩
  split
  · exact ⟨_, _, rfl, hne _ (by omega) (by omega)⟩
  split
  · exact ⟨_, _, rfl, hne _ (by omega) (by omega)⟩
  · exact ⟨_, _, rfl, hne _ (by omega) (by omega)⟩

/-- A text that begins with an ASCII character and has no zero is recognized as UTF-8. -/
theorem isUtf8_utf8 {c : Char} {l : Str} (hc : c.toNat < 128) (hz : ∀ d ∈ c :: l, d.toNat ≠ 0) :
    isUtf8 (Spec.utf8 (String.ofList (c :: l))) = true := by
  rw [utf8_cons, utf8EncodeChar_ascii hc]
  have h0 : UInt8.ofNat c.toNat ≠ 0 ∧ UInt8.ofNat c.toNat ≠ 0xfe ∧ UInt8.ofNat c.toNat ≠ 0xff ∧
      UInt8.ofNat c.toNat ≠ 0xef := by
    have hz := hz c (by simp)
    refine ⟨?_, ?_, ?_, ?_⟩ <;>
    · intro h3
      have := congrArg UInt8.toNat h3
      simp only [UInt8.toNat_ofNat'] at this
      have h4 : c.toNat % 2 ^ 8 = c.toNat := Nat.mod_eq_of_lt (by omega)
      rw [h4] at this
      simp at this
      omega
  obtain ⟨z1, z2, z3, z4⟩ := h0
  have hs : ((Spec.utf8 (String.ofList l)).take 1).contains 0 = false := by
    cases l with
    | nil => rw [utf8_ofList]; rfl
    | cons d l =>
      obtain ⟨b, r, h1, h2⟩ := utf8_first (hz d (by simp))
      rw [utf8_cons, h1]
      simp [Ne.symm h2]
  unfold isUtf8
  simp only [List.singleton_append, List.take_succ_cons, List.contains_cons, Bool.not_eq_true', Bool.or_eq_false_iff,
    beq_eq_false_iff_ne, ne_eq, List.cons.injEq, Bool.and_eq_false_iff]
  simp only [z1, z2, z3, z4, false_and, not_false_eq_true, and_self, true_and, hs, Ne.symm z1]
  simp

theorem loads_utf8 {c : Char} {l : Str} (hc : c.toNat < 128) (hz : ∀ d ∈ c :: l, d.toNat ≠ 0) :
    loads (Spec.utf8 (String.ofList (c :: l))) = loadsText (c :: l) := by
  unfold loads
  rw [isUtf8_utf8 hc hz, if_pos rfl, Nbd.decode_encode]
  simp

theorem loads_printable {l : Str} (h : Printable l) : loads (Spec.utf8 (String.ofList l)) = loadsText l := by
  cases l with
  | nil =>
    have : Spec.utf8 (String.ofList []) = [] := by rw [utf8_ofList]; rfl
    rw [loads, Nbd.decode_encode, this]
    rfl
  | cons c l =>
    exact loads_utf8 (printable_lt h c (by simp)) fun d hd => by have := h d hd; omega

/-! ## Documents have no zeros -/

theorem space_nonzero {w : Str} (h : Space w) : ∀ c ∈ w, c.toNat ≠ 0 := by
  intro c hc
  rcases h c hc with rfl | rfl | rfl | rfl <;> decide

theorem hex_nonzero {c : Char} {d : Nat} (h : HexDigit c d) : c.toNat ≠ 0 := by
  have : ∀ c ∈ "0123456789abcdef".toList ++ "0123456789ABCDEF".toList, c.toNat ≠ 0 := by decide +kernel
  refine this c (List.mem_append.2 ?_)
  rcases h with h | h
  · exact .inl (List.mem_of_getElem? h)
  · exact .inr (List.mem_of_getElem? h)

theorem unit_nonzero {u : Str} {n : Nat} (h : Unit16 u n) : ∀ c ∈ u, c.toNat ≠ 0 := by
  obtain ⟨a, b, c, d, x, y, z, w, rfl, h1, h2, h3, h4, rfl⟩ := h
  intro e he
  simp only [List.mem_cons, List.not_mem_nil, or_false] at he
  rcases he with rfl | rfl | rfl | rfl | rfl | rfl
  · decide
  · decide
  · exact hex_nonzero h1
  · exact hex_nonzero h2
  · exact hex_nonzero h3
  · exact hex_nonzero h4

theorem nonzero_append {a b : Str} (ha : ∀ c ∈ a, c.toNat ≠ 0) (hb : ∀ c ∈ b, c.toNat ≠ 0) : ∀ c ∈ a ++ b, c.toNat ≠ 0 := by
  intro c hc
  rcases List.mem_append.1 hc with h | h
  · exact ha c h
  · exact hb c h

theorem nonzero_cons {a : Char} {b : Str} (ha : a.toNat ≠ 0) (hb : ∀ c ∈ b, c.toNat ≠ 0) : ∀ c ∈ a :: b, c.toNat ≠ 0 := by
  intro c hc
  rcases List.mem_cons.1 hc with h | h
  · rw [h]; exact ha
  · exact hb c h

theorem chars_nonzero {b s : Str} (h : Chars b s) : ∀ c ∈ b, c.toNat ≠ 0 := by
  induction h with
  | nil => intro c hc; cases hc
  | plain h1 _ _ _ ih => exact nonzero_cons (by omega) ih
  | short h1 _ ih =>
    refine nonzero_cons (by decide) (nonzero_cons ?_ ih)
    unfold Short at h1
    simp only [List.mem_cons, Prod.mk.injEq, List.not_mem_nil, or_false] at h1
    rcases h1 with ⟨rfl, _⟩ | ⟨rfl, _⟩ | ⟨rfl, _⟩ | ⟨rfl, _⟩ | ⟨rfl, _⟩ | ⟨rfl, _⟩ | ⟨rfl, _⟩ | ⟨rfl, _⟩ <;> decide
  | unit h1 _ ih => exact nonzero_append (unit_nonzero h1) ih
  | pair h1 h2 _ _ _ _ ih => exact nonzero_append (unit_nonzero h1) (nonzero_append (unit_nonzero h2) ih)
  | lone h1 _ _ _ _ ih => exact nonzero_append (unit_nonzero h1) ih

theorem digits_nonzero {s : Str} (h : ∀ c ∈ s, c.isDigit = true) : ∀ c ∈ s, c.toNat ≠ 0 := fun c hc => by
  have := printable_digits h c hc; omega

theorem natural_nonzero {s : Str} {n : Nat} (h : Natural s n) : ∀ c ∈ s, c.toNat ≠ 0 :=
  digits_nonzero (number_iff.1 h.1).2.1

theorem nil_nonzero : ∀ c ∈ ([] : Str), c.toNat ≠ 0 := by intro c hc; cases hc

theorem value_nonzero {t : Str} {j : Json} (h : Value t j) : ∀ c ∈ t, c.toNat ≠ 0 := by
  refine Value.rec
    (motive_1 := fun t _ _ => ∀ c ∈ t, c.toNat ≠ 0)
    (motive_2 := fun t _ _ => ∀ c ∈ t, c.toNat ≠ 0)
    (motive_3 := fun t _ _ => ∀ c ∈ t, c.toNat ≠ 0)
    (by decide) (by decide) (by decide) (fun h => natural_nonzero h) (fun h => nonzero_cons (by decide) (natural_nonzero h))
    ?_ (by decide) (by decide) (by decide)
    (fun h => nonzero_cons (by decide) (nonzero_append (chars_nonzero h) (by decide)))
    (fun h => nonzero_cons (by decide) (nonzero_append (space_nonzero h) (by decide)))
    (fun _ ih => nonzero_cons (by decide) (nonzero_append ih (by decide)))
    (fun h => nonzero_cons (by decide) (nonzero_append (space_nonzero h) (by decide)))
    (fun _ ih => nonzero_cons (by decide) (nonzero_append ih (by decide)))
    (fun ha _ hb ih => nonzero_append (space_nonzero ha) (nonzero_append ih (space_nonzero hb)))
    (fun ha _ hb _ ih it => nonzero_append (space_nonzero ha) (nonzero_append ih (nonzero_append (space_nonzero hb)
      (nonzero_cons (by decide) it))))
    (fun ha hk hb hc _ hd ih => nonzero_append (space_nonzero ha) (nonzero_cons (by decide) (nonzero_append (chars_nonzero hk)
      (nonzero_cons (by decide) (nonzero_append (space_nonzero hb) (nonzero_cons (by decide) (nonzero_append (space_nonzero hc)
        (nonzero_append ih (space_nonzero hd)))))))))
    (fun ha hk hb hc _ hd _ ih it => nonzero_append (space_nonzero ha) (nonzero_cons (by decide) (nonzero_append
      (chars_nonzero hk) (nonzero_cons (by decide) (nonzero_append (space_nonzero hb) (nonzero_cons (by decide) (nonzero_append
        (space_nonzero hc) (nonzero_append ih (nonzero_append (space_nonzero hd) (nonzero_cons (by decide) it))))))))))
    h
  intro g s f e n hg hn hf he _
  refine nonzero_append ?_ (nonzero_append (natural_nonzero hn) (nonzero_append ?_ ?_))
  · rcases hg with rfl | rfl <;> decide
  · rcases hf with rfl | ⟨d, rfl, hd⟩
    · exact nil_nonzero
    · exact nonzero_cons (by decide) (digits_nonzero hd.2)
  · rcases he with rfl | ⟨x, y, d, rfl, hx, hy, hd⟩
    · exact nil_nonzero
    · refine nonzero_cons (by rcases hx with rfl | rfl <;> decide) (nonzero_append ?_ (digits_nonzero hd.2))
      rcases hy with rfl | rfl | rfl <;> decide

theorem document_nonzero {s : Str} {j : Json} (h : Document s j) : ∀ c ∈ s, c.toNat ≠ 0 := by
  obtain ⟨a, v, b, rfl, ha, hv, hb⟩ := h
  exact nonzero_append (space_nonzero ha) (nonzero_append (value_nonzero hv) (space_nonzero hb))

theorem value_ascii {v : Str} {j : Json} (h : Value v j) : ∃ c u, v = c :: u ∧ c.toNat < 128 := by
  have hdig : ∀ c : Char, c.isDigit = true → c.toNat < 128 := fun c hc => by
    have := printable_digits (s := [c]) (by simpa using hc) c (by simp); omega
  cases h with
  | int h => obtain ⟨c, t, rfl, hc⟩ := natural_digit h; exact ⟨c, t, rfl, hdig c hc⟩
  | float hg h hf he hfe =>
    rcases hg with rfl | rfl
    · obtain ⟨c, t, rfl, hc⟩ := natural_digit h; exact ⟨c, _, rfl, hdig c hc⟩
    · exact ⟨_, _, rfl, by decide⟩
  | _ => exact ⟨_, _, rfl, by decide⟩

theorem document_ascii {s : Str} {j : Json} (h : Document s j) : ∃ c u, s = c :: u ∧ c.toNat < 128 := by
  obtain ⟨a, v, b, rfl, ha, hv, hb⟩ := h
  cases a with
  | nil =>
    obtain ⟨c, u, rfl, hc⟩ := value_ascii hv
    exact ⟨c, _, rfl, hc⟩
  | cons c a =>
    refine ⟨c, _, rfl, ?_⟩
    rcases ha c (by simp) with rfl | rfl | rfl | rfl <;> decide

/-- The bytes that are accepted: the documents of the grammar in UTF-8. -/
theorem loads_iff (b : Bytes) (j : Json) : loads b = some j ↔ ∃ s : String, b = Spec.utf8 s ∧ Document s.toList j := by
  constructor
  · intro h
    unfold loads at h
    split at h
    · split at h
      · cases h
      · rename_i s hs
        exact ⟨s, Nbd.encode_decode hs, (loadsText_iff _ _).1 h⟩
    · cases h
  · rintro ⟨s, rfl, hd⟩
    obtain ⟨c, u, he, hc⟩ := document_ascii hd
    have hn := document_nonzero hd
    have hs : s = String.ofList (c :: u) := by rw [← he]; simp
    rw [he] at hd hn
    rw [hs, loads_utf8 hc hn]
    exact (loadsText_iff _ _).2 hd

/-! ## Parts of documents -/

/-- No strict part of a document that is an object is the start of a document: the text of an object ends with it. -/
theorem object_cut {v w x : Str} {j j' : Json} (hv : Value v j) (hw : Value w j') (hh : v.head? = some '{')
    (he : v ++ x = w) : x = [] := by
  have hw' : w.head? = some '{' := by rw [← he]; cases v with | nil => simp at hh | cons c v => simpa using hh
  have h1 := scanOnce_value hv (2 * v.length + 2 * w.length) (by omega) x (.inl hh)
  have h2 := scanOnce_value hw (2 * v.length + 2 * w.length) (by omega) [] (.inl hw')
  rw [he] at h1
  rw [List.append_nil, h1] at h2
  simp only [Option.some.injEq, Prod.mk.injEq] at h2
  exact h2.2

theorem value_obj {v : Str} {l : List (Str × Json)} (h : Value v (.obj l)) : v.head? = some '{' := by
  cases h <;> rfl

theorem obj_of_head {v : Str} {j : Json} (h : Value v j) (hh : v.head? = some '{') : ∃ l, j = .obj l := by
  obtain ⟨c, u, rfl, _, _, _, hc⟩ := value_head h
  simp only [List.head?_cons, Option.some.injEq] at hh
  exact hc hh

end Imageio.JsonText
