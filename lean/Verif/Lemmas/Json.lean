import Verif.Model.Json
import Verif.Spec.Json
import Verif.Lemmas.HttpParse
import Verif.Lemmas.NbdHandshake

/-!
Lemmas about the text of JSON documents: the decoder accepts the documents of the grammar, and only these.
-/
namespace Imageio.JsonText
open Imageio.Http Imageio.Images Imageio.Spec Imageio.Spec.JsonText

/-! ## White space -/

theorem isSpace_iff (c : Char) : isSpace c = true ↔ c = ' ' ∨ c = '\t' ∨ c = '\n' ∨ c = '\r' := by
  simp [isSpace, or_assoc]

theorem skipWs_eq (s : Str) : ∃ w, Space w ∧ s = w ++ skipWs s ∧ ∀ c ∈ (skipWs s).head?, isSpace c = false := by
  refine ⟨s.takeWhile isSpace, fun c hc => ?_, ?_, fun c hc => ?_⟩
  · exact (isSpace_iff c).1 (List.all_eq_true.1 (List.all_takeWhile (p := isSpace) (l := s)) c hc)
  · simp [skipWs, List.takeWhile_append_dropWhile]
  · unfold skipWs at hc
    have := List.head?_dropWhile_not isSpace s
    simp only [Option.mem_def] at hc
    rw [hc] at this
    simpa using this

theorem skipWs_append {w s : Str} (hw : Space w) : skipWs (w ++ s) = skipWs s := by
  induction w with
  | nil => rfl
  | cons c w ih =>
    have hc := (isSpace_iff c).2 (hw c (by simp))
    unfold skipWs at ih ⊢
    rw [List.cons_append, List.dropWhile_cons_of_pos hc, ih fun d hd => hw d (by simp [hd])]

theorem skipWs_cons {c : Char} {s : Str} (h : isSpace c = false) : skipWs (c :: s) = c :: s := by
  unfold skipWs
  rw [List.dropWhile_cons_of_neg (by simp [h])]

theorem skipWs_space {w : Str} (hw : Space w) : skipWs w = [] := by
  have := skipWs_append (s := []) hw
  rw [List.append_nil] at this
  rw [this]; rfl

theorem space_skipWs {s : Str} (h : skipWs s = []) : Space s := by
  obtain ⟨w, hw, he, _⟩ := skipWs_eq s
  rw [h, List.append_nil] at he
  rw [he]; exact hw

/-! ## Strings -/

theorem hexVal_iff (c : Char) (d : Nat) : hexVal c = some d ↔ HexDigit c d := by
  constructor
  · intro h
    unfold hexVal at h
    have key : ∀ n : Fin 128, ∀ d, hexVal (Char.ofNat n.val) = some d → HexDigit (Char.ofNat n.val) d := by
      unfold HexDigit
      have : ∀ n : Fin 128, ∀ d : Fin 128, hexVal (Char.ofNat n.val) = some d.val →
          ("0123456789abcdef".toList[d.val]? = some (Char.ofNat n.val) ∨
            "0123456789ABCDEF".toList[d.val]? = some (Char.ofNat n.val)) := by decide +kernel
      intro n d hd
      have hlt : d < 128 := by
        have : ∀ n : Fin 128, (hexVal (Char.ofNat n.val)).getD 0 < 128 := by decide +kernel
        have h1 := this n
        rw [hd] at h1
        exact h1
      exact this n ⟨d, hlt⟩ hd
    have hle : c.toNat < 128 := by
      split at h
      · rename_i h1; have : c.val ≤ '9'.val := h1.2; have : c.toNat ≤ 57 := this; omega
      · split at h
        · rename_i h1; have : c.val ≤ 'f'.val := h1.2; have : c.toNat ≤ 102 := this; omega
        · split at h
          · rename_i h1; have : c.val ≤ 'F'.val := h1.2; have : c.toNat ≤ 70 := this; omega
          · cases h
    have := key ⟨c.toNat, hle⟩ d
    simp only [Char.ofNat_toNat] at this
    exact this h
  · intro h
    have hd : d < 16 := by
      rcases h with h | h <;> exact (List.getElem?_eq_some_iff.1 h).1
    unfold HexDigit at h
    have : ∀ d : Fin 16, ∀ c ∈ ["0123456789abcdef".toList[d.val]?, "0123456789ABCDEF".toList[d.val]?],
        c.bind hexVal = some d.val := by decide +kernel
    have h1 := this ⟨d, hd⟩
    simp only [List.mem_cons, List.not_mem_nil, or_false, forall_eq_or_imp, forall_eq] at h1
    rcases h with h | h
    · rw [h] at h1; exact h1.1
    · rw [h] at h1; exact h1.2

theorem decodeUnit_unit {u : Str} {n : Nat} (h : Unit16 u n) (t : Str) :
    ∃ s, u ++ t = '\\' :: 'u' :: s ∧ decodeUnit s = some (n, t) := by
  obtain ⟨a, b, c, d, x, y, z, w, rfl, h1, h2, h3, h4, rfl⟩ := h
  refine ⟨a :: b :: c :: d :: t, rfl, ?_⟩
  simp only [decodeUnit, (hexVal_iff _ _).2 h1, (hexVal_iff _ _).2 h2, (hexVal_iff _ _).2 h3, (hexVal_iff _ _).2 h4,
    Option.some.injEq, Prod.mk.injEq, and_true]
  omega

theorem unit_decodeUnit {s t : Str} {n : Nat} (h : decodeUnit s = some (n, t)) :
    ∃ u, '\\' :: 'u' :: s = u ++ t ∧ Unit16 u n := by
  unfold decodeUnit at h
  split at h
  · rename_i a b c d t'
    split at h
    · rename_i x y z w h1 h2 h3 h4
      simp only [Option.some.injEq, Prod.mk.injEq] at h
      obtain ⟨rfl, rfl⟩ := h
      exact ⟨['\\', 'u', a, b, c, d], rfl, a, b, c, d, x, y, z, w, rfl, (hexVal_iff _ _).1 h1, (hexVal_iff _ _).1 h2,
        (hexVal_iff _ _).1 h3, (hexVal_iff _ _).1 h4, by omega⟩
    · cases h
  · cases h

theorem unit_det {u v : Str} {n m : Nat} {s t : Str} (hu : Unit16 u n) (hv : Unit16 v m) (h : u ++ s = v ++ t) :
    n = m ∧ s = t := by
  obtain ⟨x, h1, h2⟩ := decodeUnit_unit hu s
  obtain ⟨y, h3, h4⟩ := decodeUnit_unit hv t
  rw [h1, h3] at h
  simp only [List.cons.injEq, true_and] at h
  subst h
  rw [h2] at h4
  simp only [Option.some.injEq, Prod.mk.injEq] at h4
  exact h4

theorem unit_length {u : Str} {n : Nat} (h : Unit16 u n) : u.length = 6 := by
  obtain ⟨a, b, c, d, x, y, z, w, rfl, _⟩ := h
  rfl

theorem unit_lt {u : Str} {n : Nat} (h : Unit16 u n) : n < 0x10000 := by
  obtain ⟨a, b, c, d, x, y, z, w, rfl, h1, h2, h3, h4, rfl⟩ := h
  have key : ∀ {c d}, HexDigit c d → d < 16 := by
    rintro c d (h | h) <;> exact (List.getElem?_eq_some_iff.1 h).1
  have := key h1; have := key h2; have := key h3; have := key h4
  omega

theorem toNat_ofNat {n : Nat} (h : n < 0xd800 ∨ (0xdfff < n ∧ n < 0x110000)) : (Char.ofNat n).toNat = n := by
  have : n.isValidChar := by unfold Nat.isValidChar; omega
  simp [Char.ofNat, this, Char.toNat, Char.ofNatAux]

theorem char_valid (c : Char) : c.toNat < 0xd800 ∨ (0xdfff < c.toNat ∧ c.toNat < 0x110000) := by
  have := c.valid
  unfold UInt32.isValidChar Nat.isValidChar at this
  exact this

theorem char_eq {c : Char} {n : Nat} (h : c.toNat = n) : Char.ofNat n = c := by
  rw [← h, Char.ofNat_toNat]

theorem backslash_iff (e c : Char) : backslash e = some c ↔ Short e c.toNat := by
  constructor
  · intro h
    unfold backslash at h
    repeat' split at h
    all_goals first
      | (cases h; done)
      | (simp only [Option.some.injEq] at h; subst h; subst_vars; unfold Short; decide +kernel)
  · intro h
    unfold Short at h
    simp only [List.mem_cons, Prod.mk.injEq, List.not_mem_nil, or_false] at h
    rcases h with ⟨rfl, h⟩ | ⟨rfl, h⟩ | ⟨rfl, h⟩ | ⟨rfl, h⟩ | ⟨rfl, h⟩ | ⟨rfl, h⟩ | ⟨rfl, h⟩ | ⟨rfl, h⟩ <;>
      (rw [← char_eq h]; decide +kernel)

theorem chars_unit {b s : Str} (h : Chars b s) {t r : Str} (he : b ++ '"' :: r = '\\' :: 'u' :: t) :
    ∃ v m b', Unit16 v m ∧ b = v ++ b' := by
  cases h with
  | nil => simp at he
  | plain h1 h2 h3 _ =>
    simp only [List.cons_append, List.cons.injEq] at he
    exact absurd he.1 h3
  | short h1 _ =>
    simp only [List.cons_append, List.cons.injEq] at he
    rw [he.2.1] at h1
    exact absurd h1 (by
      unfold Short
      simp)
  | unit h1 _ => exact ⟨_, _, _, h1, rfl⟩
  | pair h1 _ _ _ _ _ => exact ⟨_, _, _, h1, rfl⟩
  | lone h1 _ _ _ _ => exact ⟨_, _, _, h1, rfl⟩

/-- The string of the text is read. -/
theorem scanString_chars {b s : Str} (h : Chars b s) (r : Str) :
    ∀ f, b.length < f → scanString f (b ++ '"' :: r) = some (s, r) := by
  induction h with
  | nil => intro f hf; obtain ⟨f, rfl⟩ := Nat.exists_eq_succ_of_ne_zero (by omega : f ≠ 0); simp [scanString]
  | @plain c b s h1 h2 h3 _ ih =>
    intro f hf
    simp only [List.length_cons] at hf
    obtain ⟨f, rfl⟩ := Nat.exists_eq_succ_of_ne_zero (by omega : f ≠ 0)
    simp only [List.cons_append, scanString, h2, h3, if_false, show ¬ c.toNat < 0x20 by omega]
    rw [ih f (by omega)]
  | @short e c b s h1 _ ih =>
    intro f hf
    simp only [List.length_cons] at hf
    obtain ⟨f, rfl⟩ := Nat.exists_eq_succ_of_ne_zero (by omega : f ≠ 0)
    have he : escape (e :: (b ++ '"' :: r)) = some (c, b ++ '"' :: r) := by
      unfold escape
      split
      · rename_i h; cases h
      · rename_i h
        simp only [List.cons.injEq] at h
        rw [h.1] at h1
        exact absurd h1 (by unfold Short; simp)
      · rename_i h
        simp only [List.cons.injEq] at h
        obtain ⟨rfl, rfl⟩ := h
        rw [(backslash_iff _ _).2 h1]
        rfl
    simp only [List.cons_append, scanString, show ¬ ('\\' = '"') by decide, if_false, if_true, he]
    rw [ih f (by omega)]
  | @unit u b s c h1 _ ih =>
    intro f hf
    simp only [List.length_append, unit_length h1] at hf
    obtain ⟨f, rfl⟩ := Nat.exists_eq_succ_of_ne_zero (by omega : f ≠ 0)
    obtain ⟨x, e1, e2⟩ := decodeUnit_unit h1 (b ++ '"' :: r)
    rw [List.append_assoc, e1]
    have he : escape ('u' :: x) = some (c, b ++ '"' :: r) := by
      simp only [escape, e2]
      have := char_valid c
      rw [if_neg (by omega), if_neg (by omega), Char.ofNat_toNat]
    simp only [scanString, show ¬ ('\\' = '"') by decide, if_false, if_true, he]
    rw [ih f (by omega)]
  | @pair u v b s n m c hu hv hn hm hc _ ih =>
    intro f hf
    simp only [List.length_append, unit_length hu, unit_length hv] at hf
    obtain ⟨f, rfl⟩ := Nat.exists_eq_succ_of_ne_zero (by omega : f ≠ 0)
    obtain ⟨x, e1, e2⟩ := decodeUnit_unit hu (v ++ (b ++ '"' :: r))
    obtain ⟨y, e3, e4⟩ := decodeUnit_unit hv (b ++ '"' :: r)
    rw [List.append_assoc, List.append_assoc, e1]
    have he : escape ('u' :: x) = some (c, b ++ '"' :: r) := by
      unfold High at hn; unfold Low at hm
      simp only [escape, e2, e3, e4]
      rw [if_pos (by omega), if_pos (by omega), char_eq (c := c) (by omega)]
    simp only [scanString, show ¬ ('\\' = '"') by decide, if_false, if_true, he]
    rw [ih f (by omega)]
  | @lone u b s n c hu hn hp hc hb ih =>
    intro f hf
    simp only [List.length_append, unit_length hu] at hf
    obtain ⟨f, rfl⟩ := Nat.exists_eq_succ_of_ne_zero (by omega : f ≠ 0)
    obtain ⟨x, e1, e2⟩ := decodeUnit_unit hu (b ++ '"' :: r)
    rw [List.append_assoc, e1]
    have he : escape ('u' :: x) = some (c, b ++ '"' :: r) := by
      simp only [escape, e2]
      by_cases hh : High n
      · unfold High at hh
        rw [if_pos (by omega)]
        split
        · rename_i t2 ht
          obtain ⟨v, m, b', hv, rfl⟩ := chars_unit hb ht
          obtain ⟨y, e3, e4⟩ := decodeUnit_unit hv (b' ++ '"' :: r)
          rw [List.append_assoc] at ht
          rw [e3] at ht
          simp only [List.cons.injEq, true_and] at ht
          subst ht
          rw [e4]
          have := hp hh v m b' hv
          have hl : ¬ Low m := fun h => this h rfl
          unfold Low at hl
          simp only
          rw [if_neg (by omega), char_eq hc, List.append_assoc]
        · rw [char_eq hc]
      · have hl : Low n := hn.resolve_left hh
        unfold Low at hl
        rw [if_neg (by omega), if_pos (by omega), char_eq hc]
    simp only [scanString, show ¬ ('\\' = '"') by decide, if_false, if_true, he]
    rw [ih f (by omega)]

theorem toNat_fffd : (Char.ofNat 0xfffd).toNat = 0xfffd := by decide +kernel

/-- What is read after a backslash is an escape of the grammar. -/
theorem escape_sound {s t : Str} {c : Char} (h : escape s = some (c, t)) :
    ∃ x, '\\' :: s = x ++ t ∧ 0 < x.length ∧ ∀ b r k, t = b ++ r → Chars b k → Chars (x ++ b) (c :: k) := by
  unfold escape at h
  split at h
  · cases h
  · rename_i t0
    split at h
    · cases h
    · rename_i n t1 hd
      obtain ⟨u, e1, hu⟩ := unit_decodeUnit hd
      have hlt := unit_lt hu
      have hlen := unit_length hu
      split at h
      · rename_i hhi
        split at h
        · rename_i t2
          split at h
          · cases h
          · rename_i m t3 hd2
            obtain ⟨v, e2, hv⟩ := unit_decodeUnit hd2
            split at h
            · rename_i hlo
              simp only [Option.some.injEq, Prod.mk.injEq] at h
              obtain ⟨rfl, rfl⟩ := h
              refine ⟨u ++ v, by rw [e1, e2, List.append_assoc], by simp; omega, fun b r k _ hb => ?_⟩
              rw [List.append_assoc]
              refine .pair hu hv ⟨hhi.1, by omega⟩ ⟨hlo.1, by omega⟩ ?_ hb
              rw [toNat_ofNat (by omega)]; omega
            · rename_i hlo
              simp only [Option.some.injEq, Prod.mk.injEq] at h
              obtain ⟨rfl, rfl⟩ := h
              refine ⟨u, e1, by omega, fun b r k ht hb => .lone hu (.inl ⟨hhi.1, by omega⟩) ?_ toNat_fffd hb⟩
              rintro _ w p b' hw hp rfl
              rw [e2, List.append_assoc] at ht
              have := (unit_det hv hw ht).1
              unfold Low at hp
              omega
        · rename_i hno
          simp only [Option.some.injEq, Prod.mk.injEq] at h
          obtain ⟨rfl, rfl⟩ := h
          refine ⟨u, e1, by omega, fun b r k ht hb => .lone hu (.inl ⟨hhi.1, by omega⟩) ?_ toNat_fffd hb⟩
          rintro _ w p b' hw hp rfl
          obtain ⟨y, e3, _⟩ := decodeUnit_unit hw (b' ++ r)
          rw [List.append_assoc, e3] at ht
          exact hno _ ht
      · rename_i hhi
        split at h
        · rename_i hlo
          simp only [Option.some.injEq, Prod.mk.injEq] at h
          obtain ⟨rfl, rfl⟩ := h
          refine ⟨u, e1, by omega, fun b r k ht hb => .lone hu (.inr ⟨hlo.1, by omega⟩) ?_ toNat_fffd hb⟩
          intro hh
          unfold High at hh
          omega
        · rename_i hlo
          simp only [Option.some.injEq, Prod.mk.injEq] at h
          obtain ⟨rfl, rfl⟩ := h
          refine ⟨u, e1, by omega, fun b r k ht hb => .unit ?_ hb⟩
          rw [toNat_ofNat (by omega)]; exact hu
  · rename_i e t0 _
    cases hb : backslash e with
    | none => rw [hb] at h; cases h
    | some d =>
      rw [hb] at h
      simp only [Option.map_some, Option.some.injEq, Prod.mk.injEq] at h
      obtain ⟨rfl, rfl⟩ := h
      exact ⟨['\\', e], rfl, by simp, fun b r k _ hk => .short ((backslash_iff _ _).1 hb) hk⟩

theorem scanString_sound : ∀ (f : Nat) {t r s : Str}, scanString f t = some (s, r) →
    ∃ b, t = b ++ '"' :: r ∧ Chars b s := by
  intro f
  induction f with
  | zero => intro t r s h; simp [scanString] at h
  | succ f ih =>
    intro t r s h
    cases t with
    | nil => simp [scanString] at h
    | cons c t =>
      simp only [scanString] at h
      split at h
      · rename_i hc
        simp only [Option.some.injEq, Prod.mk.injEq] at h
        obtain ⟨rfl, rfl⟩ := h
        exact ⟨[], by rw [hc]; rfl, .nil⟩
      · rename_i hq
        split at h
        · rename_i hb
          split at h
          · cases h
          · rename_i d t1 he
            split at h
            · cases h
            · rename_i s1 r1 hs
              simp only [Option.some.injEq, Prod.mk.injEq] at h
              obtain ⟨rfl, rfl⟩ := h
              obtain ⟨b, rfl, hk⟩ := ih hs
              obtain ⟨x, e1, _, e2⟩ := escape_sound he
              exact ⟨x ++ b, by rw [hb, e1, List.append_assoc], e2 _ _ _ rfl hk⟩
        · rename_i hb
          split at h
          · cases h
          · rename_i hlt
            split at h
            · cases h
            · rename_i s1 r1 hs
              simp only [Option.some.injEq, Prod.mk.injEq] at h
              obtain ⟨rfl, rfl⟩ := h
              obtain ⟨b, rfl, hk⟩ := ih hs
              exact ⟨c :: b, rfl, .plain (by omega) hq hb hk⟩

/-! ## Numbers -/

/-- What follows does not continue a number. -/
def Stops (r : Str) : Prop := ∀ c ∈ r.head?, c.isDigit = false ∧ c ≠ '.' ∧ c ≠ 'e' ∧ c ≠ 'E'

theorem natural_digit {s : Str} {n : Nat} (h : Natural s n) : ∃ c t, s = c :: t ∧ c.isDigit = true := by
  obtain ⟨h1, _⟩ := h
  rw [number_iff] at h1
  cases s with
  | nil => exact absurd rfl h1.1
  | cons c t => exact ⟨c, t, rfl, h1.2.1 c (by simp)⟩

theorem natural_complete {s : Str} {n : Nat} (h : Natural s n) {r : Str} (hr : ∀ c ∈ r.head?, c.isDigit = false) :
    natural (s ++ r) = some (n, r) := by
  obtain ⟨h1, h2⟩ := h
  rw [number_iff] at h1
  obtain ⟨h3, h4, h5⟩ := h1
  cases s with
  | nil => exact absurd rfl h3
  | cons c t =>
    by_cases hc : c = '0'
    · subst hc
      have := h2 rfl
      simp only [List.cons.injEq, true_and] at this
      subst this
      have : n = 0 := by rw [← h5]; decide
      subst this
      simp [natural]
    · simp only [List.cons_append, natural, hc, if_false, h4 c (by simp), if_true]
      rw [spanDigits_append (fun d hd => h4 d (by simp [hd])) hr, h5]

theorem natural_sound {s r : Str} {n : Nat} (h : natural s = some (n, r)) : ∃ t, s = t ++ r ∧ Natural t n := by
  cases s with
  | nil => simp [natural] at h
  | cons c t =>
    simp only [natural] at h
    split at h
    · rename_i hc
      simp only [Option.some.injEq, Prod.mk.injEq] at h
      obtain ⟨rfl, rfl⟩ := h
      subst hc
      exact ⟨['0'], rfl, number_iff.2 ⟨by simp, by decide, by decide⟩, fun _ => rfl⟩
    · rename_i hc
      split at h
      · rename_i hd
        simp only [Option.some.injEq, Prod.mk.injEq] at h
        obtain ⟨rfl, rfl⟩ := h
        refine ⟨c :: (spanDigits t).1, by rw [List.cons_append, ← spanDigits_eq], number_iff.2 ⟨by simp, ?_, rfl⟩, ?_⟩
        · intro d hm
          simp only [List.mem_cons] at hm
          rcases hm with rfl | hm
          · exact hd
          · exact List.all_eq_true.1 (List.all_takeWhile (p := Char.isDigit) (l := t)) d hm
        · intro hh
          simp only [List.head?_cons, Option.some.injEq] at hh
          exact absurd hh hc
      · cases h

theorem digits_span {t : Str} (h : (spanDigits t).1 ≠ []) : Digits (spanDigits t).1 :=
  ⟨h, fun d hd => List.all_eq_true.1 (List.all_takeWhile (p := Char.isDigit) (l := t)) d hd⟩

theorem fraction_none {s : Str} (h : ∀ c ∈ s.head?, c ≠ '.') : fraction s = (false, s) := by
  unfold fraction
  split
  · exact absurd rfl (h '.' (by simp))
  · rfl

theorem fraction_complete {f r : Str} (h : Fraction f) (hr : ∀ c ∈ r.head?, c.isDigit = false) :
    fraction (f ++ r) = (true, r) := by
  obtain ⟨d, rfl, hd⟩ := h
  simp only [List.cons_append, fraction]
  rw [spanDigits_append hd.2 hr, if_neg hd.1]

theorem fraction_sound {s r : Str} (h : fraction s = (true, r)) : ∃ f, s = f ++ r ∧ Fraction f := by
  unfold fraction at h
  split at h
  · rename_i t
    split at h
    · simp at h
    · rename_i hn
      simp only [Prod.mk.injEq, true_and] at h
      subst h
      exact ⟨'.' :: (spanDigits t).1, by rw [List.cons_append, ← spanDigits_eq], _, rfl, digits_span hn⟩
  · simp at h

theorem fraction_false {s : Str} (h : (fraction s).1 = false) : (fraction s).2 = s := by
  unfold fraction at h ⊢
  split
  · split
    · rfl
    · rename_i h1; simp [h1] at h
  · rfl

theorem exponent_none {s : Str} (h : ∀ c ∈ s.head?, c ≠ 'e' ∧ c ≠ 'E') : exponent s = (false, s) := by
  unfold exponent
  split
  · rfl
  · rename_i c t
    have := h c (by simp)
    rw [if_neg (by simp [this.1, this.2])]

theorem skipSign_digits {g d r : Str} (hg : g = [] ∨ g = ['+'] ∨ g = ['-']) (hd : Digits d) :
    skipSign (g ++ (d ++ r)) = d ++ r := by
  rcases hg with rfl | rfl | rfl
  · obtain ⟨h1, h2⟩ := hd
    cases d with
    | nil => exact absurd rfl h1
    | cons c d =>
      have hc := h2 c (by simp)
      simp only [List.nil_append, List.cons_append]
      unfold skipSign
      split
      · rename_i h; simp only [List.cons.injEq] at h; rw [h.1] at hc; exact absurd hc (by decide)
      · rename_i h; simp only [List.cons.injEq] at h; rw [h.1] at hc; exact absurd hc (by decide)
      · rfl
  · rfl
  · rfl

theorem skipSign_eq (t : Str) : ∃ g, (g = [] ∨ g = ['+'] ∨ g = ['-']) ∧ t = g ++ skipSign t := by
  unfold skipSign
  split
  · exact ⟨['+'], by simp, rfl⟩
  · exact ⟨['-'], by simp, rfl⟩
  · exact ⟨[], by simp, rfl⟩

theorem exponent_complete {e r : Str} (h : Exponent e) (hr : ∀ c ∈ r.head?, c.isDigit = false) :
    exponent (e ++ r) = (true, r) := by
  obtain ⟨c, g, d, rfl, hc, hg, hd⟩ := h
  simp only [List.cons_append, List.append_assoc, exponent]
  rw [skipSign_digits hg hd, spanDigits_append hd.2 hr, if_pos ⟨hc, hd.1⟩]

theorem exponent_sound {s r : Str} (h : exponent s = (true, r)) : ∃ e, s = e ++ r ∧ Exponent e := by
  unfold exponent at h
  split at h
  · simp at h
  · rename_i c t
    split at h
    · rename_i hc
      simp only [Prod.mk.injEq, true_and] at h
      subst h
      obtain ⟨g, hg, ht⟩ := skipSign_eq t
      refine ⟨c :: (g ++ (spanDigits (skipSign t)).1), ?_, c, g, _, rfl, hc.1, hg, digits_span hc.2⟩
      rw [List.cons_append, List.append_assoc, ← spanDigits_eq, ← ht]
    · simp at h

theorem exponent_false {s : Str} (h : (exponent s).1 = false) : (exponent s).2 = s := by
  unfold exponent at h ⊢
  split
  · rfl
  · split
    · rename_i h1; simp [h1] at h
    · rfl

theorem number_eq {g s : Str} {n : Nat} (hg : g = [] ∨ g = ['-']) (h : Natural s n) {r : Str}
    (hr : ∀ c ∈ r.head?, c.isDigit = false) :
    number (g ++ (s ++ r)) = if (fraction r).1 || (exponent (fraction r).2).1 then
      some (.float, (exponent (fraction r).2).2)
    else some (.int (if g = [] then (n : Int) else -(n : Int)), (exponent (fraction r).2).2) := by
  have hn := natural_complete h hr
  rcases hg with rfl | rfl
  · obtain ⟨c, t, rfl, hc⟩ := natural_digit h
    have hne : c ≠ '-' := by rintro rfl; exact absurd hc (by decide)
    simp only [List.nil_append, List.cons_append] at hn ⊢
    simp only [number, List.head?_cons, Option.some.injEq, hne, if_false, hn, if_true]
  · simp only [List.cons_append, List.nil_append]
    simp only [number, List.head?_cons, List.tail_cons, if_true, hn]
    rfl

theorem stops_digit {r : Str} (h : Stops r) : ∀ c ∈ r.head?, c.isDigit = false := fun c hc => (h c hc).1

theorem number_int {g s : Str} {n : Nat} (hg : g = [] ∨ g = ['-']) (h : Natural s n) {r : Str} (hr : Stops r) :
    number (g ++ (s ++ r)) = some (.int (if g = [] then (n : Int) else -(n : Int)), r) := by
  rw [number_eq hg h (stops_digit hr), fraction_none fun c hc => (hr c hc).2.1,
    exponent_none fun c hc => (hr c hc).2.2]
  rfl

theorem number_float {g s f e : Str} {n : Nat} (hg : g = [] ∨ g = ['-']) (h : Natural s n) (hf : f = [] ∨ Fraction f)
    (he : e = [] ∨ Exponent e) (hfe : f ≠ [] ∨ e ≠ []) {r : Str} (hr : Stops r) :
    number (g ++ (s ++ (f ++ (e ++ r)))) = some (.float, r) := by
  have hd : ∀ c ∈ (e ++ r).head?, c.isDigit = false := by
    rcases he with rfl | he
    · exact stops_digit hr
    · obtain ⟨c, g, d, rfl, hc, _⟩ := he
      intro x hx
      simp only [List.cons_append, List.head?_cons, Option.mem_def, Option.some.injEq] at hx
      subst hx
      rcases hc with rfl | rfl <;> decide
  have hp : ∀ c ∈ (e ++ r).head?, c ≠ '.' := by
    rcases he with rfl | he
    · exact fun c hc => (hr c hc).2.1
    · obtain ⟨c, g, d, rfl, hc, _⟩ := he
      intro x hx
      simp only [List.cons_append, List.head?_cons, Option.mem_def, Option.some.injEq] at hx
      subst hx
      rcases hc with rfl | rfl <;> decide
  have hx : exponent (e ++ r) = (decide (e ≠ []), r) := by
    rcases he with rfl | he
    · exact exponent_none fun c hc => (hr c hc).2.2
    · rw [exponent_complete he (stops_digit hr)]
      obtain ⟨c, g, d, rfl, _⟩ := he
      simp
  have hfx : fraction (f ++ (e ++ r)) = (decide (f ≠ []), e ++ r) := by
    rcases hf with rfl | hf
    · exact fraction_none hp
    · rw [fraction_complete hf hd]
      obtain ⟨d, rfl, _⟩ := hf
      simp
  have hd2 : ∀ c ∈ (f ++ (e ++ r)).head?, c.isDigit = false := by
    rcases hf with rfl | hf
    · exact hd
    · obtain ⟨d, rfl, _⟩ := hf
      intro x hx
      simp only [List.cons_append, List.head?_cons, Option.mem_def, Option.some.injEq] at hx
      subst hx
      decide
  rw [number_eq hg h hd2, hfx, hx]
  simp only
  rw [if_pos]
  rcases hfe with h | h <;> simp [h]

theorem number_sound {s r : Str} {j : Json} (h : number s = some (j, r)) : ∃ t, s = t ++ r ∧ Value t j := by
  unfold number at h
  have hsplit : ∃ g, (g = [] ∨ g = ['-']) ∧ s = g ++ (if s.head? = some '-' then s.tail else s) ∧
      (s.head? = some '-' ↔ g = ['-']) := by
    cases s with
    | nil => exact ⟨[], by simp⟩
    | cons c t =>
      by_cases hc : c = '-'
      · exact ⟨['-'], by simp [hc]⟩
      · exact ⟨[], by simp [hc]⟩
  obtain ⟨g, hg, hs, hiff⟩ := hsplit
  split at h
  · cases h
  · rename_i n r1 hn
    obtain ⟨d, hd, hnat⟩ := natural_sound hn
    rw [hd] at hs
    split at h
    · rename_i hfe
      simp only [Option.some.injEq, Prod.mk.injEq] at h
      obtain ⟨rfl, rfl⟩ := h
      have hf : ∃ f, (f = [] ∨ Fraction f) ∧ r1 = f ++ (fraction r1).2 ∧ ((fraction r1).1 = true → f ≠ []) := by
        cases hb : (fraction r1).1 with
        | false => exact ⟨[], .inl rfl, by rw [fraction_false hb]; rfl, by simp⟩
        | true =>
          obtain ⟨f, e1, e2⟩ := fraction_sound (s := r1) (r := (fraction r1).2) (by rw [← hb])
          exact ⟨f, .inr e2, e1, fun _ => by obtain ⟨d, rfl, _⟩ := e2; simp⟩
      obtain ⟨f, f1, f2, f3⟩ := hf
      have he : ∃ e, (e = [] ∨ Exponent e) ∧ (fraction r1).2 = e ++ (exponent (fraction r1).2).2 ∧
          ((exponent (fraction r1).2).1 = true → e ≠ []) := by
        cases hb : (exponent (fraction r1).2).1 with
        | false => exact ⟨[], .inl rfl, by rw [exponent_false hb]; rfl, by simp⟩
        | true =>
          obtain ⟨e, e1, e2⟩ := exponent_sound (s := (fraction r1).2) (r := (exponent (fraction r1).2).2) (by rw [← hb])
          exact ⟨e, .inr e2, e1, fun _ => by obtain ⟨c, g, d, rfl, _⟩ := e2; simp⟩
      obtain ⟨e, e1, e2, e3⟩ := he
      refine ⟨g ++ (d ++ (f ++ e)), ?_, .float hg hnat f1 e1 ?_⟩
      · rw [hs]
        conv_lhs => rw [f2, e2]
        simp
      · rcases Bool.or_eq_true_iff.1 hfe with h | h
        · exact .inl (f3 h)
        · exact .inr (e3 h)
    · rename_i hfe
      simp only [Bool.or_eq_true, not_or, Bool.not_eq_true] at hfe
      simp only [Option.some.injEq, Prod.mk.injEq] at h
      obtain ⟨rfl, rfl⟩ := h
      rw [exponent_false hfe.2, fraction_false hfe.1]
      refine ⟨g ++ d, by rw [List.append_assoc]; exact hs, ?_⟩
      rcases hg with rfl | rfl
      · have : ¬ s.head? = some '-' := by rw [hiff]; simp
        rw [if_neg this]
        exact .int hnat
      · rw [if_pos (hiff.2 rfl)]
        exact .neg hnat

/-! ## Literals -/

theorem after_append (p s : Str) : after? p (p ++ s) = some s := by
  induction p with
  | nil => rfl
  | cons c p ih => simp [after?, ih]

theorem after_sound {p s r : Str} (h : after? p s = some r) : s = p ++ r := by
  induction p generalizing s with
  | nil => simp only [after?, Option.some.injEq] at h; rw [h]; rfl
  | cons c p ih =>
    cases s with
    | nil => simp [after?] at h
    | cons d s =>
      simp only [after?] at h
      split at h
      · rename_i hc; rw [hc, ih h]; rfl
      · cases h

theorem after_head {p s : Str} {c d : Char} (h : c ≠ d) : after? (c :: p) (d :: s) = none := by simp [after?, h]

theorem literal_sound {s r : Str} {j : Json} (h : literal s = some (j, r)) : ∃ t, s = t ++ r ∧ Value t j := by
  unfold literal at h
  repeat' split at h
  all_goals first
    | (cases h; done)
    | (simp only [Option.some.injEq, Prod.mk.injEq] at h
       obtain ⟨rfl, rfl⟩ := h
       rename_i h1
       exact ⟨_, after_sound h1, by constructor⟩)

/-- A number is not a literal. -/
theorem literal_number {g s r : Str} {n : Nat} (hg : g = [] ∨ g = ['-']) (h : Natural s n) :
    literal (g ++ (s ++ r)) = none := by
  obtain ⟨c, t, rfl, hc⟩ := natural_digit h
  have hne : ∀ d : Char, d.isDigit = false → d ≠ c := by rintro d hd rfl; rw [hc] at hd; cases hd
  rcases hg with rfl | rfl
  · simp only [literal, lit, List.nil_append, List.cons_append]
    simp [after?, hne 'n' (by decide), hne 't' (by decide), hne 'f' (by decide), hne 'N' (by decide),
      hne 'I' (by decide), hne '-' (by decide)]
  · simp only [literal, lit, List.nil_append, List.cons_append]
    simp [after?, hne 'I' (by decide)]

/-! ## Values -/

theorem value_head {v : Str} {j : Json} (h : Value v j) :
    ∃ c u, v = c :: u ∧ isSpace c = false ∧ c ≠ ']' ∧ c ≠ '}' ∧ (c = '{' → ∃ l, j = .obj l) := by
  have hdig : ∀ c : Char, c.isDigit = true → isSpace c = false ∧ c ≠ ']' ∧ c ≠ '}' ∧ c ≠ '{' := by
    intro c hc
    have hd : ∀ d : Char, d.isDigit = false → c ≠ d := by rintro d hd rfl; rw [hc] at hd; cases hd
    refine ⟨?_, hd _ (by decide), hd _ (by decide), hd _ (by decide)⟩
    simp [isSpace, hd ' ' (by decide), hd '\t' (by decide), hd '\n' (by decide), hd '\r' (by decide)]
  cases h with
  | null => exact ⟨'n', _, rfl, by decide, by decide, by decide, by simp⟩
  | true => exact ⟨'t', _, rfl, by decide, by decide, by decide, by simp⟩
  | false => exact ⟨'f', _, rfl, by decide, by decide, by decide, by simp⟩
  | int h =>
    obtain ⟨c, t, rfl, hc⟩ := natural_digit h
    obtain ⟨h1, h2, h3, h4⟩ := hdig c hc
    exact ⟨c, t, rfl, h1, h2, h3, fun h => absurd h h4⟩
  | neg h => exact ⟨'-', _, rfl, by decide, by decide, by decide, by simp⟩
  | float hg h hf he hfe =>
    rcases hg with rfl | rfl
    · obtain ⟨c, t, rfl, hc⟩ := natural_digit h
      obtain ⟨h1, h2, h3, h4⟩ := hdig c hc
      exact ⟨c, _, rfl, h1, h2, h3, fun h => absurd h h4⟩
    · exact ⟨'-', _, rfl, by decide, by decide, by decide, by simp⟩
  | nan => exact ⟨'N', _, rfl, by decide, by decide, by decide, by simp⟩
  | infinity => exact ⟨'I', _, rfl, by decide, by decide, by decide, by simp⟩
  | minusInfinity => exact ⟨'-', _, rfl, by decide, by decide, by decide, by simp⟩
  | str h => exact ⟨'"', _, rfl, by decide, by decide, by decide, by simp⟩
  | noItems h => exact ⟨'[', _, rfl, by decide, by decide, by decide, by simp⟩
  | items h => exact ⟨'[', _, rfl, by decide, by decide, by decide, by simp⟩
  | noMembers h => exact ⟨'{', _, rfl, by decide, by decide, by decide, fun _ => ⟨_, rfl⟩⟩
  | members h => exact ⟨'{', _, rfl, by decide, by decide, by decide, fun _ => ⟨_, rfl⟩⟩

/-- A value that is a literal or a number is read. -/
theorem scanOnce_simple {f : Nat} {c : Char} {t : Str} (h1 : c ≠ '"') (h2 : c ≠ '{') (h3 : c ≠ '[') :
    scanOnce (f + 1) (c :: t) = match literal (c :: t) with
      | some p => some p
      | none => number (c :: t) := by
  simp only [scanOnce, h1, h2, h3, if_false]
  rfl

/-- A number is read. -/
theorem scanOnce_number {g s r : Str} {n : Nat} (hg : g = [] ∨ g = ['-']) (h : Natural s n) {f : Nat}
    (hf : 2 * (s.length) ≤ f) : scanOnce f (g ++ (s ++ r)) = number (g ++ (s ++ r)) := by
  have hl := literal_number (r := r) hg h
  obtain ⟨c, t, rfl, hc⟩ := natural_digit h
  have hne : ∀ d : Char, d.isDigit = false → c ≠ d := by rintro d hd rfl; rw [hc] at hd; cases hd
  obtain ⟨f, rfl⟩ := Nat.exists_eq_succ_of_ne_zero (by simp at hf; omega : f ≠ 0)
  rcases hg with rfl | rfl
  · simp only [List.nil_append, List.cons_append] at hl ⊢
    rw [scanOnce_simple (hne _ (by decide)) (hne _ (by decide)) (hne _ (by decide)), hl]
  · simp only [List.nil_append, List.cons_append] at hl ⊢
    rw [scanOnce_simple (by decide) (by decide) (by decide), hl]

theorem number_head {g s r : Str} {n : Nat} (hg : g = [] ∨ g = ['-']) (h : Natural s n) :
    (g ++ (s ++ r)).head? ≠ some '{' := by
  obtain ⟨c, t, rfl, hc⟩ := natural_digit h
  rcases hg with rfl | rfl
  · simp only [List.nil_append, List.cons_append, List.head?_cons, ne_eq, Option.some.injEq]
    rintro rfl
    exact absurd hc (by decide)
  · simp

theorem literal_null (r : Str) : literal ('n' :: 'u' :: 'l' :: 'l' :: r) = some (.null, r) := rfl
theorem literal_true (r : Str) : literal ('t' :: 'r' :: 'u' :: 'e' :: r) = some (.bool true, r) := rfl
theorem literal_false (r : Str) : literal ('f' :: 'a' :: 'l' :: 's' :: 'e' :: r) = some (.bool false, r) := rfl
theorem literal_nan (r : Str) : literal ('N' :: 'a' :: 'N' :: r) = some (.float, r) := rfl
theorem literal_infinity (r : Str) :
    literal ('I' :: 'n' :: 'f' :: 'i' :: 'n' :: 'i' :: 't' :: 'y' :: r) = some (.float, r) := rfl
theorem literal_minus (r : Str) :
    literal ('-' :: 'I' :: 'n' :: 'f' :: 'i' :: 'n' :: 'i' :: 't' :: 'y' :: r) = some (.float, r) := rfl

theorem stops_cons {c : Char} {r : Str} (h : c ∈ [' ', '\t', '\n', '\r', ',', ']', '}']) : Stops (c :: r) := by
  intro d hd
  simp only [List.head?_cons, Option.mem_def, Option.some.injEq] at hd
  subst hd
  have : ∀ c ∈ [' ', '\t', '\n', '\r', ',', ']', '}'], c.isDigit = false ∧ c ≠ '.' ∧ c ≠ 'e' ∧ c ≠ 'E' := by decide
  exact this c h

theorem stops_space {b r : Str} (hb : Space b) (hr : Stops r) : Stops (b ++ r) := by
  cases b with
  | nil => exact hr
  | cons c b =>
    refine stops_cons ?_
    rcases hb c (by simp) with rfl | rfl | rfl | rfl <;> simp

/-- The decoder reads the values of the grammar. -/
theorem scanOnce_value {t : Str} {j : Json} (h : Value t j) :
    ∀ f, 2 * t.length ≤ f → ∀ r, (t.head? = some '{' ∨ Stops r) → scanOnce f (t ++ r) = some (j, r) := by
  refine Value.rec
    (motive_1 := fun t j _ => ∀ f, 2 * t.length ≤ f → ∀ r, (t.head? = some '{' ∨ Stops r) →
      scanOnce f (t ++ r) = some (j, r))
    (motive_2 := fun t l _ => ∀ f, 2 * t.length + 1 ≤ f → ∀ r,
      (skipWs (t ++ ']' :: r)).head? ≠ some ']' ∧ scanArray f (skipWs (t ++ ']' :: r)) = some (l, r))
    (motive_3 := fun t l _ => ∀ f, 2 * t.length + 1 ≤ f → ∀ r,
      (skipWs (t ++ '}' :: r)).head? ≠ some '}' ∧ scanObject f (skipWs (t ++ '}' :: r)) = some (l, r))
    ?_ ?_ ?_ ?_ ?_ ?_ ?_ ?_ ?_ ?_ ?_ ?_ ?_ ?_ ?_ ?_ ?_ ?_ h
  · intro f hf r _
    obtain ⟨f, rfl⟩ := Nat.exists_eq_succ_of_ne_zero (by simp at hf; omega : f ≠ 0)
    show scanOnce (f + 1) ('n' :: 'u' :: 'l' :: 'l' :: r) = _
    rw [scanOnce_simple (by decide) (by decide) (by decide), literal_null]
  · intro f hf r _
    obtain ⟨f, rfl⟩ := Nat.exists_eq_succ_of_ne_zero (by simp at hf; omega : f ≠ 0)
    show scanOnce (f + 1) ('t' :: 'r' :: 'u' :: 'e' :: r) = _
    rw [scanOnce_simple (by decide) (by decide) (by decide), literal_true]
  · intro f hf r _
    obtain ⟨f, rfl⟩ := Nat.exists_eq_succ_of_ne_zero (by simp at hf; omega : f ≠ 0)
    show scanOnce (f + 1) ('f' :: 'a' :: 'l' :: 's' :: 'e' :: r) = _
    rw [scanOnce_simple (by decide) (by decide) (by decide), literal_false]
  · intro s n h f hf r hr
    have hs : Stops r := hr.resolve_left (by have := number_head (r := []) (.inl rfl) h; simpa using this)
    have h1 := scanOnce_number (r := r) (.inl rfl) h hf
    have h2 := number_int (.inl rfl) h hs
    simp only [List.nil_append] at h1 h2
    rw [h1, h2]
    rfl
  · intro s n h f hf r hr
    have hs : Stops r := hr.resolve_left (by simp)
    have h1 := scanOnce_number (r := r) (f := f) (.inr rfl) h (by simp at hf; omega)
    have h2 := number_int (.inr rfl) h hs
    simp only [List.cons_append, List.nil_append] at h1 h2 ⊢
    rw [h1, h2]
    rfl
  · intro g s fr e n hg h hf he hfe f hlen r hr
    have hs : Stops r := hr.resolve_left (number_head hg h)
    have h1 := scanOnce_number (r := fr ++ (e ++ r)) (f := f) hg h (by simp at hlen; omega)
    simp only [List.append_assoc]
    rw [h1, number_float hg h hf he hfe hs]
  · intro f hf r _
    obtain ⟨f, rfl⟩ := Nat.exists_eq_succ_of_ne_zero (by simp at hf; omega : f ≠ 0)
    show scanOnce (f + 1) ('N' :: 'a' :: 'N' :: r) = _
    rw [scanOnce_simple (by decide) (by decide) (by decide), literal_nan]
  · intro f hf r _
    obtain ⟨f, rfl⟩ := Nat.exists_eq_succ_of_ne_zero (by simp at hf; omega : f ≠ 0)
    show scanOnce (f + 1) ('I' :: 'n' :: 'f' :: 'i' :: 'n' :: 'i' :: 't' :: 'y' :: r) = _
    rw [scanOnce_simple (by decide) (by decide) (by decide), literal_infinity]
  · intro f hf r _
    obtain ⟨f, rfl⟩ := Nat.exists_eq_succ_of_ne_zero (by simp at hf; omega : f ≠ 0)
    show scanOnce (f + 1) ('-' :: 'I' :: 'n' :: 'f' :: 'i' :: 'n' :: 'i' :: 't' :: 'y' :: r) = _
    rw [scanOnce_simple (by decide) (by decide) (by decide), literal_minus]
  · intro b s hb f hf r _
    obtain ⟨f, rfl⟩ := Nat.exists_eq_succ_of_ne_zero (by simp at hf; omega : f ≠ 0)
    simp only [List.cons_append, List.append_assoc, scanOnce, if_true]
    rw [List.nil_append, scanString_chars hb r _ (by simp; omega)]
  · intro w hw f hf r _
    obtain ⟨f, rfl⟩ := Nat.exists_eq_succ_of_ne_zero (by simp at hf; omega : f ≠ 0)
    simp only [List.cons_append, List.append_assoc, scanOnce, show ¬ ('[' = '"') by decide, show ¬ ('[' = '{') by decide,
      if_true, if_false, List.nil_append]
    rw [skipWs_append hw, skipWs_cons (by decide)]
    rfl
  · intro t l _ ih f hf r _
    simp only [List.length_cons, List.length_append, List.length_nil] at hf
    obtain ⟨f, rfl⟩ := Nat.exists_eq_succ_of_ne_zero (by omega : f ≠ 0)
    obtain ⟨i1, i2⟩ := ih f (by omega) r
    simp only [List.cons_append, List.append_assoc, scanOnce, show ¬ ('[' = '"') by decide, show ¬ ('[' = '{') by decide,
      if_true, if_false, List.nil_append]
    rw [if_neg i1, i2]
  · intro w hw f hf r _
    obtain ⟨f, rfl⟩ := Nat.exists_eq_succ_of_ne_zero (by simp at hf; omega : f ≠ 0)
    simp only [List.cons_append, List.append_assoc, scanOnce, show ¬ ('{' = '"') by decide,
      if_true, if_false, List.nil_append]
    rw [skipWs_append hw, skipWs_cons (by decide)]
    rfl
  · intro t l _ ih f hf r _
    simp only [List.length_cons, List.length_append, List.length_nil] at hf
    obtain ⟨f, rfl⟩ := Nat.exists_eq_succ_of_ne_zero (by omega : f ≠ 0)
    obtain ⟨i1, i2⟩ := ih f (by omega) r
    simp only [List.cons_append, List.append_assoc, scanOnce, show ¬ ('{' = '"') by decide,
      if_true, if_false, List.nil_append]
    rw [if_neg i1, i2]
  · intro a v b j ha hv hb ih f hf r
    simp only [List.length_append] at hf
    obtain ⟨f, rfl⟩ := Nat.exists_eq_succ_of_ne_zero (by omega : f ≠ 0)
    obtain ⟨c, u, rfl, c1, c2, c3, _⟩ := value_head hv
    have hi := ih f (by simp only [List.length_cons] at hf ⊢; omega) (b ++ ']' :: r) (.inr (stops_space hb (stops_cons (by simp))))
    simp only [List.append_assoc, skipWs_append ha]
    rw [List.cons_append, skipWs_cons c1]
    refine ⟨by simp [c2], ?_⟩
    rw [← List.cons_append]
    simp only [scanArray, hi]
    rw [skipWs_append hb, skipWs_cons (by decide)]
    rfl
  · intro a v b t j l ha hv hb ht ih iht f hf r
    simp only [List.length_append, List.length_cons] at hf
    obtain ⟨f, rfl⟩ := Nat.exists_eq_succ_of_ne_zero (by omega : f ≠ 0)
    obtain ⟨c, u, rfl, c1, c2, c3, _⟩ := value_head hv
    have hi := ih f (by simp only [List.length_cons] at hf ⊢; omega) (b ++ ',' :: (t ++ ']' :: r))
      (.inr (stops_space hb (stops_cons (by simp))))
    simp only [List.append_assoc, skipWs_append ha, List.cons_append]
    rw [skipWs_cons c1]
    refine ⟨by simp [c2], ?_⟩
    rw [← List.cons_append]
    simp only [scanArray, hi]
    rw [skipWs_append hb, skipWs_cons (by decide)]
    simp only [show ¬ (',' = ']') by decide, if_false, if_true]
    rw [(iht f (by omega) r).2]
  · intro a n k b c v d j ha hk hb hc hv hd ih f hf r
    simp only [List.length_append, List.length_cons] at hf
    obtain ⟨f, rfl⟩ := Nat.exists_eq_succ_of_ne_zero (by omega : f ≠ 0)
    obtain ⟨x, u, rfl, c1, c2, c3, _⟩ := value_head hv
    have hi := ih f (by omega) (d ++ '}' :: r) (.inr (stops_space hd (stops_cons (by simp))))
    simp only [List.append_assoc, skipWs_append ha, List.cons_append]
    rw [skipWs_cons (by decide)]
    refine ⟨by simp, ?_⟩
    simp only [scanObject, if_true]
    rw [scanString_chars hk _ _ (by simp; omega)]
    simp only [skipWs_append hb]
    rw [skipWs_cons (by decide)]
    simp only [if_true]
    rw [skipWs_append hc, skipWs_cons c1, ← List.cons_append, hi]
    simp only [skipWs_append hd]
    rw [skipWs_cons (by decide)]
    rfl
  · intro a n k b c v d t j l ha hk hb hc hv hd ht ih iht f hf r
    simp only [List.length_append, List.length_cons] at hf
    obtain ⟨f, rfl⟩ := Nat.exists_eq_succ_of_ne_zero (by omega : f ≠ 0)
    obtain ⟨x, u, rfl, c1, c2, c3, _⟩ := value_head hv
    have hi := ih f (by omega) (d ++ ',' :: (t ++ '}' :: r)) (.inr (stops_space hd (stops_cons (by simp))))
    simp only [List.append_assoc, skipWs_append ha, List.cons_append]
    rw [skipWs_cons (by decide)]
    refine ⟨by simp, ?_⟩
    simp only [scanObject, if_true]
    rw [scanString_chars hk _ _ (by simp; omega)]
    simp only [skipWs_append hb]
    rw [skipWs_cons (by decide)]
    simp only [if_true]
    rw [skipWs_append hc, skipWs_cons c1, ← List.cons_append, hi]
    simp only [skipWs_append hd]
    rw [skipWs_cons (by decide)]
    simp only [show ¬ (',' = '}') by decide, if_false, if_true]
    rw [(iht f (by omega) r).2]

/-- The decoder reads only values of the grammar. -/
theorem scan_sound (f : Nat) :
    (∀ {s r : Str} {j : Json}, scanOnce f s = some (j, r) → ∃ t, s = t ++ r ∧ Value t j) ∧
    (∀ {s r : Str} {l : List Json}, scanArray f s = some (l, r) → ∃ t, s = t ++ ']' :: r ∧
      ∀ w, Space w → Items (w ++ t) l) ∧
    (∀ {s r : Str} {l : List (Str × Json)}, scanObject f s = some (l, r) → ∃ t, s = t ++ '}' :: r ∧
      ∀ w, Space w → Members (w ++ t) l) := by
  induction f with
  | zero =>
    refine ⟨?_, ?_, ?_⟩
    · intro s r j h; simp [scanOnce] at h
    · intro s r j h; simp [scanArray] at h
    · intro s r j h; simp [scanObject] at h
  | succ f ih =>
    obtain ⟨i1, i2, i3⟩ := ih
    have space_nil : Space [] := by intro c hc; cases hc
    refine ⟨?_, ?_, ?_⟩
    · intro s r j h
      cases s with
      | nil => simp [scanOnce] at h
      | cons c t =>
        by_cases h1 : c = '"'
        · subst h1
          simp only [scanOnce, if_true] at h
          split at h
          · cases h
          · rename_i k r1 hk
            simp only [Option.some.injEq, Prod.mk.injEq] at h
            obtain ⟨rfl, rfl⟩ := h
            obtain ⟨b, rfl, hb⟩ := scanString_sound _ hk
            exact ⟨'"' :: (b ++ ['"']), by simp, .str hb⟩
        by_cases h2 : c = '{'
        · subst h2
          simp only [scanOnce, show ¬ ('{' = '"') by decide, if_true, if_false] at h
          obtain ⟨w, hw, ht, _⟩ := skipWs_eq t
          split at h
          · rename_i hh
            simp only [Option.some.injEq, Prod.mk.injEq] at h
            obtain ⟨rfl, rfl⟩ := h
            cases hx : skipWs t with
            | nil => rw [hx] at hh; simp at hh
            | cons d u =>
              rw [hx] at hh ht
              simp only [List.head?_cons, Option.some.injEq] at hh
              subst hh
              exact ⟨'{' :: (w ++ ['}']), by rw [ht]; simp, .noMembers hw⟩
          · split at h
            · cases h
            · rename_i l r1 hl
              simp only [Option.some.injEq, Prod.mk.injEq] at h
              obtain ⟨rfl, rfl⟩ := h
              obtain ⟨x, hx, hm⟩ := i3 hl
              exact ⟨'{' :: ((w ++ x) ++ ['}']), by rw [ht, hx]; simp, .members (hm w hw)⟩
        by_cases h3 : c = '['
        · subst h3
          simp only [scanOnce, show ¬ ('[' = '"') by decide, show ¬ ('[' = '{') by decide, if_true, if_false] at h
          obtain ⟨w, hw, ht, _⟩ := skipWs_eq t
          split at h
          · rename_i hh
            simp only [Option.some.injEq, Prod.mk.injEq] at h
            obtain ⟨rfl, rfl⟩ := h
            cases hx : skipWs t with
            | nil => rw [hx] at hh; simp at hh
            | cons d u =>
              rw [hx] at hh ht
              simp only [List.head?_cons, Option.some.injEq] at hh
              subst hh
              exact ⟨'[' :: (w ++ [']']), by rw [ht]; simp, .noItems hw⟩
          · split at h
            · cases h
            · rename_i l r1 hl
              simp only [Option.some.injEq, Prod.mk.injEq] at h
              obtain ⟨rfl, rfl⟩ := h
              obtain ⟨x, hx, hm⟩ := i2 hl
              exact ⟨'[' :: ((w ++ x) ++ [']']), by rw [ht, hx]; simp, .items (hm w hw)⟩
        rw [scanOnce_simple h1 h2 h3] at h
        split at h
        · rename_i p hl
          simp only [Option.some.injEq] at h
          subst h
          exact literal_sound hl
        · exact number_sound h
    · intro s r l h
      simp only [scanArray] at h
      split at h
      · cases h
      · rename_i j r1 hj
        obtain ⟨v, rfl, hv⟩ := i1 hj
        obtain ⟨b, hb, hr, _⟩ := skipWs_eq r1
        split at h
        · cases h
        · rename_i c r2 hc
          rw [hc] at hr
          split at h
          · rename_i he
            simp only [Option.some.injEq, Prod.mk.injEq] at h
            obtain ⟨rfl, rfl⟩ := h
            subst he
            exact ⟨v ++ b, by rw [hr]; simp, fun w hw => .one hw hv hb⟩
          · split at h
            · rename_i he
              subst he
              split at h
              · cases h
              · rename_i l1 r3 hl
                simp only [Option.some.injEq, Prod.mk.injEq] at h
                obtain ⟨rfl, rfl⟩ := h
                obtain ⟨t, ht, hi⟩ := i2 hl
                obtain ⟨w2, hw2, hr2, _⟩ := skipWs_eq r2
                refine ⟨v ++ (b ++ ',' :: (w2 ++ t)), ?_, fun w hw => .cons hw hv hb (hi w2 hw2)⟩
                rw [hr, hr2, ht]
                simp
            · cases h
    · intro s r l h
      cases s with
      | nil => simp [scanObject] at h
      | cons q s =>
        simp only [scanObject] at h
        split at h
        case isFalse => cases h
        rename_i hq
        subst hq
        split at h
        · cases h
        rename_i k r0 hk
        obtain ⟨n, rfl, hn⟩ := scanString_sound _ hk
        obtain ⟨b, hb, hr0, _⟩ := skipWs_eq r0
        split at h
        · cases h
        rename_i c r1 hc
        rw [hc] at hr0
        split at h
        case isFalse => cases h
        rename_i hcol
        subst hcol
        split at h
        · cases h
        rename_i j r2 hj
        obtain ⟨v, hv0, hv⟩ := i1 hj
        obtain ⟨cc, hcc, hr1, _⟩ := skipWs_eq r1
        obtain ⟨d, hd, hr2, _⟩ := skipWs_eq r2
        split at h
        · cases h
        rename_i e r3 he
        rw [he] at hr2
        split at h
        · rename_i hx
          simp only [Option.some.injEq, Prod.mk.injEq] at h
          obtain ⟨rfl, rfl⟩ := h
          subst hx
          refine ⟨'"' :: (n ++ '"' :: (b ++ ':' :: (cc ++ (v ++ d)))), ?_, fun w hw => .one hw hn hb hcc hv hd⟩
          rw [hr0, hr1, hv0, hr2]
          simp
        · split at h
          case isFalse => cases h
          rename_i hx
          subst hx
          split at h
          · cases h
          rename_i l1 r4 hl
          simp only [Option.some.injEq, Prod.mk.injEq] at h
          obtain ⟨rfl, rfl⟩ := h
          obtain ⟨t, ht, hi⟩ := i3 hl
          obtain ⟨w2, hw2, hr3, _⟩ := skipWs_eq r3
          refine ⟨'"' :: (n ++ '"' :: (b ++ ':' :: (cc ++ (v ++ (d ++ ',' :: (w2 ++ t)))))), ?_,
            fun w hw => .cons hw hn hb hcc hv hd (hi w2 hw2)⟩
          rw [hr0, hr1, hv0, hr2, hr3, ht]
          simp

/-- The decoder accepts the documents of the grammar, and only these. -/
theorem loadsText_iff (s : Str) (j : Json) : loadsText s = some j ↔ Document s j := by
  constructor
  · intro h
    unfold loadsText at h
    split at h
    · cases h
    · rename_i j1 r h1
      split at h
      · rename_i hr
        simp only [Option.some.injEq] at h
        subst h
        obtain ⟨a, ha, hs, _⟩ := skipWs_eq s
        obtain ⟨v, hv, hval⟩ := (scan_sound _).1 h1
        exact ⟨a, v, r, by rw [← hv]; exact hs, ha, hval, space_skipWs hr⟩
      · cases h
  · rintro ⟨a, v, b, rfl, ha, hv, hb⟩
    obtain ⟨c, u, rfl, c1, _⟩ := value_head hv
    unfold loadsText
    rw [skipWs_append ha, List.cons_append, skipWs_cons c1, ← List.cons_append,
      scanOnce_value hv _ (by simp only [List.length_append]; omega) b (.inr ?_)]
    · simp only [skipWs_space hb, if_true]
    · have := stops_space (r := []) hb (by intro c hc; simp at hc)
      simpa using this

end Imageio.JsonText
