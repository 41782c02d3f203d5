import Verif.Lemmas.Ids
/-!
Ids of disks on the command line (C86), and choosing the local host (C87).
-/
namespace Imageio.Props
open Imageio.Ids Imageio.Spec.Sparse Imageio.Spec.Ids

/-! ## C86 -/

/-- C86: every usual spelling of a UUID is accepted, and gives its canonical text: small or capital letters, with or without dashes, in braces, or as URN. -/
theorem C86_spellings {s : Bytes} {n : Nat} (h : Spelled s n) : ∃ t, Canonical t n ∧ validateUuid s = some t ∧
    validateUuid ("{".toUTF8.toList ++ s ++ "}".toUTF8.toList) = some t ∧ validateUuid ("urn:uuid:".toUTF8.toList ++ s) = some t := by
  have hn : n < 2 ^ 128 := by
    have := digits_lt h.2
    rw [h.1] at this
    have e : (16 : Nat) ^ 32 = 2 ^ 128 := by decide
    omega
  refine ⟨uuidStr n, canonical_uuidStr hn, ?_, ?_, ?_⟩
  · unfold validateUuid
    rw [uuidInt_cleaned (cleaned_spelled h) h.1 h.2]; rfl
  · have e1 : "{".toUTF8.toList = [123] := by decide +kernel
    have e2 : "}".toUTF8.toList = [125] := by decide +kernel
    rw [e1, e2]
    unfold validateUuid
    rw [show [123] ++ s ++ [125] = 123 :: (s ++ [125]) from rfl, uuidInt_cleaned (cleaned_braces h) h.1 h.2]; rfl
  · have e1 : "urn:uuid:".toUTF8.toList = URN ++ UUID := by decide +kernel
    rw [e1]
    unfold validateUuid
    rw [uuidInt_cleaned (cleaned_urn h) h.1 h.2]; rfl

/-- C86: what the engine gets is the canonical text of a UUID, whatever was given. -/
theorem C86_canonical {s t : Bytes} (h : validateUuid s = some t) : ∃ n, Canonical t n := by
  unfold validateUuid at h
  cases hi : uuidInt s with
  | none => rw [hi] at h; cases h
  | some n =>
    rw [hi] at h
    cases h
    refine ⟨n, canonical_uuidStr ?_⟩
    unfold uuidInt at hi
    simp only at hi
    split at hi
    · cases hi
    · split at hi
      · cases hi
      · split at hi
        · cases hi; omega
        · cases hi

/-- C86: the canonical text is kept, so validating again changes nothing. -/
theorem C86_kept {t : Bytes} {n : Nat} (h : Canonical t n) : validateUuid t = some t := by
  obtain ⟨t', h1, h2, -⟩ := C86_spellings (canonical_digits h).1
  rw [h2, canonical_unique h1 h]

/-- C86: two spellings are the same disk exactly if their digits are the same number. -/
theorem C86_same {s s' : Bytes} {n n' : Nat} (h : Spelled s n) (h' : Spelled s' n') : validateUuid s = validateUuid s' ↔ n = n' := by
  obtain ⟨t, h1, h2, -⟩ := C86_spellings h
  obtain ⟨t', h1', h2', -⟩ := C86_spellings h'
  rw [h2, h2']
  constructor
  · intro he
    cases he
    exact digits_value (canonical_digits h1).1.2 (canonical_digits h1').1.2
  · rintro rfl
    rw [canonical_unique h1 h1']

/-- C86 (partial): of the texts of digits and dashes only, exactly those with 32 digits are accepted. -/
theorem C86_accepted_partial {s : Bytes} {n : Nat} (h : Digits (s.filter fun x => decide (x ≠ 45)) n) :
    (validateUuid s).isSome = true ↔ (s.filter fun x => decide (x ≠ 45)).length = 32 := by
  constructor
  · intro hs
    by_cases hl : (s.filter fun x => decide (x ≠ 45)).length = 32
    · exact hl
    · exfalso
      have hc : ∀ c ∈ s, c ≠ 117 ∧ isBrace c = false := by
        intro c hc
        by_cases hd : c = 45
        · subst hd; decide
        · obtain ⟨v, hv⟩ := SparseStream.digits_mem h c (by simp [hc, hd])
          obtain ⟨-, h2, -⟩ := SparseStream.digit_lt hv
          constructor
          · rintro rfl; simp [SparseStream.hexValue] at h2
          · cases hb : isBrace c with
            | false => rfl
            | true =>
              simp only [isBrace, Bool.or_eq_true, decide_eq_true_eq] at hb
              rcases hb with rfl | rfl <;> simp [SparseStream.hexValue] at h2
      have h1 : remove URN s.length s = s := remove_free _ s fun hm => (hc _ hm).1 rfl
      have h2 : remove UUID s.length s = s := remove_free _ s fun hm => (hc _ hm).1 rfl
      have h3 : cleaned s = s.filter fun x => decide (x ≠ 45) := by
        unfold cleaned
        simp only [h1, h2]
        rw [strip_free fun c hm => (hc c hm).2]
      have h4 : uuidInt s = none := by
        unfold uuidInt
        simp only [h3]
        rw [if_pos hl]
      unfold validateUuid at hs
      rw [h4] at hs
      cases hs
  · intro hl
    obtain ⟨t, -, h2, -⟩ := C86_spellings ⟨hl, h⟩
    rw [h2]; rfl

/-- An id in capitals without dashes, in braces, and its canonical text. -/
example : validateUuid "{0123456789ABCDEF0123456789ABCDEF}".toUTF8.toList = some "01234567-89ab-cdef-0123-456789abcdef".toUTF8.toList ∧
    validateUuid "01234567-89ab-cdef-0123-456789abcde".toUTF8.toList = none := by decide +kernel

/-- The hypothesis of the theorems. -/
example : Spelled (List.replicate 31 48 ++ [45, 65]) 10 := by
  have : (List.replicate 31 (48 : Byte) ++ [45, 65]).filter (fun x => decide (x ≠ 45)) = List.replicate 31 48 ++ [65] := by decide
  unfold Spelled
  rw [this]
  refine ⟨by decide, ?_⟩
  have h0 : Digits (List.replicate 31 (48 : Byte) ++ []) 0 := SparseStream.digits_pad .nil 31
  rw [List.append_nil] at h0
  exact Digits.snoc h0 (.upper 10 (by omega) (by omega))

/-- C86, the claim that only UUIDs are accepted is false: the number of the text is taken with `int(s, 16)`, so a prefix, a sign, underscores and spaces
count as digits; the id that is used has other digits than the given one. -/
theorem C86_counterexample_accepted : ∃ s t : Bytes, validateUuid s = some t ∧ (¬ ∃ n, Digits (s.filter fun x => decide (x ≠ 45)) n) ∧
    s = "0x234567-89ab-cdef-0123-456789ab_def".toUTF8.toList ∧ t = "00023456-789a-bcde-f012-3456789abdef".toUTF8.toList := by
  refine ⟨_, _, by decide +kernel, ?_, rfl, rfl⟩
  rintro ⟨n, h⟩
  obtain ⟨v, hv⟩ := SparseStream.digits_mem h 120 (by decide +kernel)
  exact (SparseStream.digit_lt hv).2.2.2.2.2.2.1 rfl

/-! ## C87 -/

section
variable {E : Searches} {inv : Inventory} {line sd : Http.Str}

/-- C87: with an engine that answers its searches: the host that is used for a transfer has the hardware id of this machine, is up, and is in
the data center of the storage domain. -/
theorem C87_host (hE : Honest E inv) (hs : Word sd) (hw : Word (hardwareId line)) (hd : ∀ d ∈ inv.attached sd, Word d.1) {h : Entity}
    (hr : findHost (.line line) E sd = .ok (some h)) :
    ∃ x ∈ inv.hosts, x.id = h.id ∧ x.name = h.name ∧ x.hardware = hardwareId line ∧ x.up = true ∧ ∃ d ∈ inv.attached sd, d.1 = x.dataCenter := by
  have e1 : E.dataCenters (dcQuery sd) = _ := hE.dataCenters sd hs
  simp only [findHost, e1] at hr
  cases ha : inv.attached sd with
  | nil => rw [ha] at hr; cases hr
  | cons d rest =>
    rw [ha] at hr
    simp only [List.map_cons] at hr
    have e2 : E.hosts (hostQuery (hardwareId line) d.1) = _ := hE.hosts _ _ hw (hd d (by rw [ha]; simp))
    simp only [e2] at hr
    generalize hf : inv.hosts.filter (fun h => decide (h.hardware = hardwareId line ∧ h.dataCenter = d.1 ∧ h.up = true)) = l at hr
    cases l with
    | nil => cases hr
    | cons x l =>
      simp only [List.map_cons, Except.ok.injEq, Option.some.injEq] at hr
      have hx : x ∈ inv.hosts.filter (fun h => decide (h.hardware = hardwareId line ∧ h.dataCenter = d.1 ∧ h.up = true)) := by rw [hf]; simp
      simp only [List.mem_filter, decide_eq_true_eq] at hx
      obtain ⟨h1, h2, h3, h4⟩ := hx
      subst hr
      exact ⟨x, h1, rfl, rfl, h2, h4, d, by simp, h3.symm⟩

/-- C87: if this machine is a host that is up, in the data center of the storage domain, then such a host is used. -/
theorem C87_found (hE : Honest E inv) (hs : Word sd) (hw : Word (hardwareId line)) {d : Http.Str × Http.Str} (ha : inv.attached sd = [d])
    (hd : Word d.1) {x : Host} (hx : x ∈ inv.hosts) (h1 : x.hardware = hardwareId line) (h2 : x.up = true) (h3 : x.dataCenter = d.1) :
    ∃ h, findHost (.line line) E sd = .ok (some h) := by
  have e1 : E.dataCenters (dcQuery sd) = _ := hE.dataCenters sd hs
  have e2 : E.hosts (hostQuery (hardwareId line) d.1) = _ := hE.hosts _ _ hw hd
  simp only [findHost, e1, ha, List.map_cons, List.map_nil, e2]
  have hm : x ∈ inv.hosts.filter (fun h => decide (h.hardware = hardwareId line ∧ h.dataCenter = d.1 ∧ h.up = true)) := by
    simp [hx, h1, h2, h3]
  cases hf : inv.hosts.filter (fun h => decide (h.hardware = hardwareId line ∧ h.dataCenter = d.1 ∧ h.up = true)) with
  | nil => rw [hf] at hm; cases hm
  | cons y l => exact ⟨_, rfl⟩

/-- C87 (partial): a machine that is not an oVirt host uses any host, and does not ask the engine; on an oVirt host this stops a command only if the
engine fails or the storage domain is not attached to a data center.  Missing: a file `/etc/vdsm/vdsm.id` that is not UTF-8. -/
theorem C87_optional_partial (v : VdsmId) (sd : Http.Str) (hv : v ≠ .undecodable) :
    (∀ E, v = .missing ∨ v = .osError → findHost v E sd = .ok none) ∧
    (∀ inv, Honest E inv → Word sd → (∀ d ∈ inv.attached sd, Word d.1) → (∀ s, v = .line s → Word (hardwareId s)) →
      ∀ e, findHost v E sd = .error e → e = .notAttached ∧ inv.attached sd = []) := by
  constructor
  · rintro E (rfl | rfl) <;> rfl
  · intro inv hE hs hd hw e he
    cases v with
    | missing => cases he
    | osError => cases he
    | undecodable => exact absurd rfl hv
    | line s =>
      have e1 : E.dataCenters (dcQuery sd) = _ := hE.dataCenters sd hs
      simp only [findHost, e1] at he
      cases ha : inv.attached sd with
      | nil => rw [ha] at he; cases he; exact ⟨rfl, rfl⟩
      | cons d rest =>
        rw [ha] at he
        simp only [List.map_cons] at he
        have e2 : E.hosts (hostQuery (hardwareId s) d.1) = _ := hE.hosts _ _ (hw s rfl) (hd d (by rw [ha]; simp))
        simp only [e2] at he
        generalize inv.hosts.filter (fun h => decide (h.hardware = hardwareId s ∧ h.dataCenter = d.1 ∧ h.up = true)) = l at he
        cases l <;> cases he

end

/-- C87, the claim that a problem with the file only means that any host is used (`client/_ovirt.py:174-175`) is false: a file that is not UTF-8 stops the
command. -/
theorem C87_counterexample_undecodable (E : Searches) (sd : Http.Str) : findHost .undecodable E sd = .error .unicode := rfl

namespace IdsEx

def inventory : Inventory where
  attached sd := if sd = "sd1".toList then [("dc1".toList, "1".toList)] else []
  hosts := [⟨"h1".toList, "host1".toList, "aa".toList, "dc1".toList, false⟩, ⟨"h2".toList, "host2".toList, "bb".toList, "dc1".toList, true⟩]

/-- An engine that answers the searches. -/
def engine (inv : Inventory) : Searches where
  dataCenters q := some ((inv.attached (q.drop 13)).map fun d => ⟨d.1, d.2⟩)
  hosts q :=
    let hw := (q.drop 6).takeWhile fun c => decide (c ≠ ' ')
    let dc := (q.drop (22 + hw.length)).takeWhile fun c => decide (c ≠ ' ')
    some ((inv.hosts.filter fun h => decide (h.hardware = hw ∧ h.dataCenter = dc ∧ h.up = true)).map fun h => ⟨h.name, h.id⟩)

end IdsEx

/-- There are engines as in the theorems, with anything in them. -/
example (inv : Inventory) : Honest (IdsEx.engine inv) inv where
  dataCenters sd _ := by
    have e : ("storage.name=".toList ++ sd).drop 13 = sd := rfl
    simp only [IdsEx.engine, e]
  hosts hw dc h1 h2 := by
    have tw : ∀ (a b : Http.Str), Word a → (a ++ ' ' :: b).takeWhile (fun c => decide (c ≠ ' ')) = a := by
      intro a b ha
      rw [List.takeWhile_append_of_pos (by intro c hc; simpa using (ha.2 c hc).1)]
      simp
    have e1 : (("hw_id=".toList ++ hw ++ " and datacenter=".toList ++ dc ++ " and status=Up".toList).drop 6).takeWhile
        (fun c => decide (c ≠ ' ')) = hw := by
      have : ("hw_id=".toList ++ hw ++ " and datacenter=".toList ++ dc ++ " and status=Up".toList).drop 6 =
          hw ++ ' ' :: ("and datacenter=".toList ++ dc ++ " and status=Up".toList) := by
        rw [List.append_assoc, List.append_assoc, List.append_assoc]; rfl
      rw [this]; exact tw _ _ h1
    have e2 : (("hw_id=".toList ++ hw ++ " and datacenter=".toList ++ dc ++ " and status=Up".toList).drop (22 + hw.length)).takeWhile
        (fun c => decide (c ≠ ' ')) = dc := by
      have : ("hw_id=".toList ++ hw ++ " and datacenter=".toList ++ dc ++ " and status=Up".toList).drop (22 + hw.length) =
          dc ++ ' ' :: ("and status=Up".toList) := by
        rw [List.append_assoc, List.drop_append_of_le_length (by simp; omega), List.drop_of_length_le (by simp; omega)]; rfl
      rw [this]; exact tw _ _ h2
    simp only [IdsEx.engine, e1, e2]

/-- The host that is up is used, the other is not. -/
example : findHost (.line "bb\n".toList) (IdsEx.engine IdsEx.inventory) "sd1".toList = .ok (some ⟨"host2".toList, "h2".toList⟩) ∧
    findHost (.line "aa\n".toList) (IdsEx.engine IdsEx.inventory) "sd1".toList = .ok none ∧
    findHost (.line "bb\n".toList) (IdsEx.engine IdsEx.inventory) "sd2".toList = .error .notAttached := ⟨by decide +kernel, by decide +kernel, by decide +kernel⟩

/-- Its names are words. -/
example : Word "sd1".toList ∧ Word (hardwareId "bb\n".toList) ∧ Word "dc1".toList := by
  refine ⟨⟨by decide, by decide⟩, ⟨by decide, by decide⟩, ⟨by decide, by decide⟩⟩

end Imageio.Props
