import Verif.Spec.RangeErrors
import Verif.Props.Images
/-!
C101: what the answers to ranges that cannot be satisfied tell.
-/
namespace Imageio.Props
open Imageio.Http Imageio.RangeErrors Imageio.RangeErrors.Spec Imageio.Spec

theorem tells_unsatisfied (n : Nat) : Tells ⟨some (unsatisfied n)⟩ n := ⟨fmtNat n, rfl, number_fmtNat n⟩

/-- The answer tells only one size. -/
theorem C101_unique {e : Refused} {n m : Nat} (h1 : Tells e n) (h2 : Tells e m) : n = m := by
  obtain ⟨a, ha, na⟩ := h1
  obtain ⟨b, hb, nb⟩ := h2
  rw [ha] at hb
  have : a = b := List.append_cancel_left (Option.some.inj hb)
  subst this
  obtain ⟨-, -, e1⟩ := number_iff.1 na
  obtain ⟨-, -, e2⟩ := number_iff.1 nb
  rw [← e1, ← e2]

theorem parse_closed {h : Str} {f l : Nat} (hh : RangeHeader h (.closed f l)) (hl : f ≤ l) : parseRange h = some ⟨f, some l⟩ :=
  (C16_parse_iff h _).2 ⟨.closed f l, hh, rfl, by
    intro a b e
    cases e
    exact hl⟩

/-- Downloads: a closed range is accepted exactly if it is inside the ticket and the image.  Otherwise the answer tells a size,
of the ticket or of what is available, and the range is indeed not inside this size. -/
theorem C101_read {h : Str} {f l : Nat} (hh : RangeHeader h (.closed f l)) (hl : f ≤ l) (ticket image : Nat) :
    (l < min ticket image → readRange (some h) ticket image = .ok ((f : Int), (l : Int) - f + 1)) ∧
    (min ticket image ≤ l → ∃ e n, readRange (some h) ticket image = .error e ∧ Tells e n ∧ n ≤ l ∧
      n = if ticket ≤ l then ticket else min ticket image) := by
  unfold readRange
  simp only [parse_closed hh hl]
  rw [if_neg (by omega)]
  have e1 : (f : Int) + ((l : Int) - f + 1) = l + 1 := by omega
  unfold allowedRange availableRange
  rw [e1]
  have e2 : min (ticket : Int) image = ((min ticket image : Nat) : Int) := by omega
  constructor
  · intro h1
    rw [if_neg (by omega), if_neg (by omega)]
  · intro h1
    by_cases h2 : ticket ≤ l
    · rw [if_pos (by omega)]
      exact ⟨_, ticket, rfl, tells_unsatisfied _, h2, by rw [if_pos h2]⟩
    · rw [if_neg (by omega), if_pos (by omega), e2]
      exact ⟨_, _, rfl, tells_unsatisfied _, h1, by rw [if_neg h2]⟩

/-- A client that was refused and asks for a range inside the size it was told either gets it, or is told the size that is
available; every range inside that size is accepted.  So it knows the size after at most two refusals. -/
theorem C101_retry {h h' : Str} {f l f' l' n : Nat} {e : Refused} {ticket image : Nat} (hh : RangeHeader h (.closed f l)) (hl : f ≤ l)
    (hr : readRange (some h) ticket image = .error e) (ht : Tells e n) (hh' : RangeHeader h' (.closed f' l')) (hl' : f' ≤ l')
    (hn : l' < n) :
    readRange (some h') ticket image = .ok ((f' : Int), (l' : Int) - f' + 1) ∨
      ∃ e', readRange (some h') ticket image = .error e' ∧ Tells e' (min ticket image) ∧ n = ticket ∧ image < ticket := by
  obtain ⟨h1, h2⟩ := C101_read hh hl ticket image
  obtain ⟨h3, h4⟩ := C101_read hh' hl' ticket image
  by_cases hc : l' < min ticket image
  · exact .inl (h3 hc)
  · right
    have hm : min ticket image ≤ l := by
      by_contra hcon
      rw [h1 (by omega)] at hr
      cases hr
    obtain ⟨e1, n1, r1, t1, -, hn1⟩ := h2 hm
    rw [r1] at hr
    cases hr
    have := C101_unique ht t1
    subst this
    obtain ⟨e2, n2, r2, t2, -, hn2⟩ := h4 (by omega)
    by_cases h5 : ticket ≤ l
    · rw [if_pos h5] at hn1
      rw [if_neg (by omega)] at hn2
      exact ⟨e2, r2, hn2 ▸ t2, hn1, by omega⟩
    · rw [if_neg h5] at hn1
      omega

/-- Uploads and zeroing: refused exactly if the range is not inside the ticket, and the answer tells the size of the ticket. -/
theorem C101_write (offset size ticket : Nat) :
    (writeRange offset size ticket = none ↔ offset + size ≤ ticket) ∧
    ∀ e, writeRange offset size ticket = some e → Tells e ticket := by
  unfold writeRange allowedRange
  constructor
  · constructor
    · intro h
      split at h
      · cases h
      · omega
    · intro h
      rw [if_neg (by omega)]
  · intro e h
    split at h
    · cases h
      exact tells_unsatisfied _
    · cases h

/-- The handler of downloads refuses with 416 exactly the ranges refused here, and reads exactly the range accepted here. -/
theorem C101_get {σ : Type} (B : Backend σ) (a : Images.Access) (q : Images.GetReq) (buf : Bytes) (s : σ) (c : Http.Conn)
    (ha : a.auth = none) (hid : q.ticketId ≠ []) :
    (∀ e, readRange q.range a.size (B.size s) = .error e →
      Images.get B a q buf s c = (.error (.http 416), s, Images.closeQuery q.query c)) ∧
    (∀ offset size, readRange q.range a.size (B.size s) = .ok (offset, size) →
      Images.get B a q buf s c = Images.getRange B a q.range.isSome size offset.toNat buf s (Images.closeQuery q.query c)) := by
  unfold Images.get readRange allowedRange availableRange
  rw [if_neg hid]
  cases hq : q.range with
  | none =>
    refine ⟨fun e h => (by cases h), fun offset size h => ?_⟩
    cases h
    simp [ha]
  | some r =>
    dsimp only
    cases hp : parseRange r with
    | none => exact ⟨fun e h => rfl, fun offset size h => (by cases h)⟩
    | some r =>
      dsimp only
      by_cases hf : r.first < 0
      · simp [hf]
      · simp only [if_neg hf, ha]
        cases hl : r.last with
        | none =>
          refine ⟨fun e h => (by cases h), fun offset size h => ?_⟩
          cases h
          rfl
        | some last =>
          dsimp only
          by_cases h1 : r.first + ((last : Int) - r.first + 1) > a.size
          · simp only [if_pos h1]
            exact ⟨fun e h => trivial, fun offset size h => (by cases h)⟩
          · simp only [if_neg h1]
            by_cases h2 : r.first + ((last : Int) - r.first + 1) > min a.size (B.size s)
            · simp only [if_pos h2]
              exact ⟨fun e h => trivial, fun offset size h => (by cases h)⟩
            · simp only [if_neg h2]
              refine ⟨fun e h => (by cases h), fun offset size h => ?_⟩
              cases h
              rfl

/-- The handler of uploads refuses with 416 the ranges refused here, and does nothing. -/
theorem C101_put {σ : Type} (B : Backend σ) (bufLen : Nat) (a : Images.Access) (size offset : Nat) (flush : Bool) (s : σ)
    (c : Http.Conn) (e : Refused) (h : writeRange offset size a.size = some e) :
    Images.putAuthorized B bufLen a size offset flush s c = (.error (.http 416), s, c) := by
  unfold Images.putAuthorized
  unfold writeRange allowedRange at h
  split at h
  · rename_i h1
    rw [if_pos h1]
  · cases h

/-- The same for zeroing. -/
theorem C101_zero {σ : Type} (B : Backend σ) (a : Images.Access) (msg : Images.Json) (s : σ) (c : Http.Conn) (size offset : Nat) (flush : Bool)
    (h1 : Images.integer msg (Images.lit "size") none = .ok size) (h2 : Images.integer msg (Images.lit "offset") (some 0) = .ok offset)
    (h3 : Images.boolean msg (Images.lit "flush") false = .ok flush) (ha : a.auth = none) (e : Refused)
    (h : writeRange offset size a.size = some e) : Images.zero B a msg s c = (.error (.http 416), s, c) := by
  unfold Images.zero
  simp only [h1, h2, h3, ha]
  unfold writeRange allowedRange at h
  split at h
  · rename_i h4
    rw [if_pos h4]
  · cases h

example : readRange (some "bytes=5-20".toList) 10 8 = .error ⟨some "bytes */10".toList⟩ := by rfl
example : readRange (some "bytes=5-8".toList) 10 8 = .error ⟨some "bytes */8".toList⟩ := by rfl
example : readRange (some "bytes=5-7".toList) 10 8 = .ok (5, 3) := by rfl

/-- The size that is told can be wrong: a range inside of it is refused again, when the image is smaller than the ticket. -/
theorem C101_counterexample_size : ∃ (e : Refused), readRange (some "bytes=5-20".toList) 10 8 = .error e ∧ Tells e 10 ∧
    ∃ e', readRange (some "bytes=5-9".toList) 10 8 = .error e' ∧ Tells e' 8 :=
  ⟨_, rfl, tells_unsatisfied 10, _, rfl, tells_unsatisfied 8⟩

/-- Ranges at the end of the image, `bytes=-n`, are refused without a size, for every image and every ticket. -/
theorem C101_counterexample_suffix {h : Str} {n : Nat} (hh : RangeHeader h (.suffix n)) (hn : 0 < n) (ticket image : Int) :
    readRange (some h) ticket image = .error ⟨none⟩ := by
  have : parseRange h = some ⟨-(n : Int), none⟩ := (C16_parse_iff h _).2 ⟨.suffix n, hh, rfl, by intro a b e; cases e⟩
  unfold readRange
  simp only [this]
  rw [if_pos (by omega)]

/-- The parser of the project does not accept what the server sends. -/
theorem C101_counterexample_parse (n : Int) : parseContentRange (unsatisfied n) = none := rfl

/-- A ticket with a negative size: the header is not valid. -/
theorem C101_counterexample_negative : allowedRange 0 0 (-1) = some ⟨some "bytes */-1".toList⟩ ∧
    ∀ n, ¬ Tells ⟨some "bytes */-1".toList⟩ n := by
  refine ⟨rfl, ?_⟩
  rintro n ⟨ds, h, hn⟩
  have : ds = ['-', '1'] := by
    have := Option.some.inj h
    exact (List.append_cancel_left (as := "bytes */".toList) (this.symm.trans rfl))
  subst this
  have := (number_iff.1 hn).2.1 '-' (by simp)
  revert this
  decide

end Imageio.Props
