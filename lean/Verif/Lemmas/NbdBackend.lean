import Verif.Model.NbdBackend
import Verif.Lemmas.Memory
import Verif.Lemmas.OpsZero
namespace Imageio.NbdBackend
open Imageio.Spec Imageio.Memory Imageio.Ops

theorem length_serverStore' {off : Nat} {d : Bytes} {s : State} :
    (serverStore off d s).export_.length = s.export_.length := by
  simp only [serverStore, List.length_take, List.length_append, List.length_drop]
  omega

theorem length_serverStore {off : Nat} {d : Bytes} {s : State} (h : off + d.length ≤ s.export_.length) :
    (serverStore off d s).export_.length = s.export_.length := by
  simp only [serverStore, List.length_take, List.length_append, List.length_drop]
  omega

theorem byteAt_serverStore {off : Nat} {d : Bytes} {s : State} (h : off + d.length ≤ s.export_.length) :
    byteAt (serverStore off d s).export_ = store (byteAt s.export_) off d := by
  simp only [serverStore]
  rw [List.take_of_length_le (by simp only [List.length_append, List.length_take, List.length_drop]; omega)]
  exact byteAt_splice _ _ _ h

theorem byteAt_serverStore_outside {off : Nat} {d : Bytes} {s : State} {i : Nat}
    (hi : ¬ (off ≤ i ∧ i < off + d.length)) : byteAt (serverStore off d s).export_ i = byteAt s.export_ i := by
  by_cases h : off + d.length ≤ s.export_.length
  · rw [byteAt_serverStore h, store_outside _ _ _ _ hi]
  · simp only [serverStore]
    by_cases hl : i < s.export_.length
    · simp only [byteAt, List.getD_eq_getElem?_getD]
      rw [List.getElem?_take, if_pos hl, List.append_assoc, List.getElem?_append_left (by simp; omega),
        List.getElem?_take, if_pos (by omega)]
    · rw [byteAt_beyond _ _ (by simp; omega), byteAt_beyond _ _ (by omega)]

/-- The states that a request leads to. -/
theorem request_cases {s s' : State} {off n : Nat} {f : Nat → State → State} {r : Except Err Unit}
    (h : request s off n f = (r, s')) :
    (∃ e fs, s.faults ≠ [] ∧ r = .error (.exception e) ∧ ∃ k, k ≤ n ∧ s' = f k { s with faults := fs }) ∨
    (∃ e fs, r = .error (.exception e) ∧ s' = { s with faults := fs } ∧ (s.faults = [] → fs = []) ∧
      (s.export_.length < off + n ∨ off % s.bs ≠ 0 ∨ n % s.bs ≠ 0)) ∨
    (∃ fs, r = .ok () ∧ (s.faults = [] → fs = []) ∧ s' = f n { s with faults := fs } ∧ off + n ≤ s.export_.length) := by
  unfold request at h
  split at h
  · rename_i e fs hf
    cases h
    exact .inl ⟨_, _, by simp [hf], rfl, _, Nat.min_le_right _ _, rfl⟩
  · simp only at h
    split at h
    · rename_i hc
      cases h
      exact .inr (.inl ⟨_, _, rfl, rfl, by intro h; simp [h], hc⟩)
    · rename_i hc
      cases h
      exact .inr (.inr ⟨_, rfl, by intro h; simp [h], rfl, by omega⟩)

/-- The NBD backend meets the contract of the operations, when the server supports flush.
`strict` selects the executions where requests work; then a call fails only if it uses
bytes after the end of the export. -/
def lawful (bs : Nat) (hb : 0 < bs) (strict : Prop) (cap : Nat) (h1 : strict → bs = 1) : Lawful (backend bs) where
  Inv s := s.bs = bs ∧ s.canFlush = true ∧ s.export_.length = cap ∧
    (strict → s.faults = [] ∧ s.mode = .rw ∧ s.canZero = true)
  content s := byteAt s.export_
  durable s := byteAt s.disk
  mayFail k := ¬ strict ∨ cap < k
  block_pos := hb
  seek := by
    intro s n r s' hi h
    simp only [backend, seek] at h
    cases h
    exact ⟨rfl, hi, rfl, rfl, rfl, rfl⟩
  readinto := by
    intro s n d s' hi ht hn h
    simp only [backend, readinto] at h ⊢ ht hn
    split at h
    · cases h
    · split at h
      · rename_i hz
        cases h
        refine ⟨hi, rfl, rfl, rfl, by simp, by simp [load], by simp, by simp; omega, ?_, by simp⟩
        intro _; omega
      · rename_i hz
        split at h
        · cases h
        · rename_i s1 hreq
          rcases request_cases hreq with ⟨_, _, _, h, _⟩ | ⟨_, _, h, _⟩ | ⟨fs, _, hfs, hs, hle⟩
          · cases h
          · cases h
          · cases h
            subst hs
            have hlen : ((s.export_.drop s.pos).take (min n (s.export_.length - s.pos))).length =
                min n (s.export_.length - s.pos) := by simp
            rw [hlen]
            refine ⟨⟨hi.1, hi.2.1, hi.2.2.1, fun hst => ⟨hfs (hi.2.2.2 hst).1, (hi.2.2.2 hst).2⟩⟩, rfl, rfl, rfl, by omega, ?_,
              rfl, by omega, ?_, ?_⟩
            · exact load_byteAt _ _ _ hle
            · intro hnil
              have := congrArg List.length hnil
              rw [hlen] at this
              simp only [List.length_nil] at this
              omega
            · by_cases hc : n ≤ s.export_.length - s.pos
              · left; rw [Nat.min_eq_left hc]; exact hn
              · right; omega
  readinto_err := by
    intro s n e s' hi ht hn h
    simp only [backend, readinto] at h ⊢ ht hn
    split at h
    · rename_i hm
      cases h
      refine ⟨trivial, .inl fun hst => ?_, hi, rfl, rfl, rfl⟩
      rw [(hi.2.2.2 hst).2.1] at hm
      exact absurd hm (by decide)
    · split at h
      · cases h
      · rename_i hz
        split at h
        · rename_i e' s1 hreq
          cases h
          rcases request_cases hreq with ⟨_, _, hf, h, k, _, hs⟩ | ⟨_, _, h, hs, hfs, hc⟩ | ⟨fs, h, _⟩
          · cases h; subst hs
            exact ⟨trivial, .inl fun hst => hf (hi.2.2.2 hst).1, ⟨hi.1, hi.2.1, hi.2.2.1,
              fun hst => absurd (hi.2.2.2 hst).1 hf⟩, rfl, rfl, rfl⟩
          · cases h; subst hs
            have hno : strict → False := fun hst => ?_
            · exact ⟨trivial, .inl hno, ⟨hi.1, hi.2.1, hi.2.2.1, fun hst => (hno hst).elim⟩, rfl, rfl, rfl⟩
            have := h1 hst
            rw [hi.1, this] at hc
            simp only [Nat.mod_one] at hc
            omega
          · cases h
        · cases h
  write := by
    intro s a d n s' hi hd _ h
    simp only [backend, write] at h ⊢
    have hdl : 0 < d.length := List.length_pos_iff.mpr hd
    split at h
    · cases h
    · split at h
      · cases h
      · rename_i s1 hreq
        rcases request_cases hreq with ⟨_, _, _, h, _⟩ | ⟨_, _, h, _⟩ | ⟨fs, _, hfs, hs, hle⟩
        · cases h
        · cases h
        · cases h
          subst hs
          rw [List.take_length]
          have hl := length_serverStore (s := { s with faults := fs }) hle
          refine ⟨⟨hi.1, hi.2.1, by simp only; rw [hl]; exact hi.2.2.1, fun hst => ⟨hfs (hi.2.2.2 hst).1, (hi.2.2.2 hst).2⟩⟩, hdl,
            Nat.le_refl _, rfl, ?_, ?_, ?_⟩
          · exact byteAt_serverStore (s := { s with faults := fs }) hle
          · simp only; rw [hl]; exact Nat.le_refl _
          · simp only; rw [hl]; simp only; omega
  write_err := by
    intro s a d e s' hi hd _ h
    simp only [backend, write] at h ⊢
    split at h
    · rename_i hm
      cases h
      refine ⟨trivial, .inl fun hst => ?_, hi, fun _ _ => rfl, Nat.le_refl _⟩
      rw [(hi.2.2.2 hst).2.1] at hm
      exact absurd hm (by decide)
    · split at h
      · rename_i e' s1 hreq
        cases h
        rcases request_cases hreq with ⟨_, _, hf, h, k, hk, hs⟩ | ⟨_, _, h, hs, hfs, hc⟩ | ⟨fs, h, _⟩
        · cases h; subst hs
          refine ⟨trivial, .inl fun hst => hf (hi.2.2.2 hst).1, ⟨hi.1, hi.2.1,
            by rw [length_serverStore']; exact hi.2.2.1, fun hst => absurd (hi.2.2.2 hst).1 hf⟩,
            fun i hout => ?_, by rw [length_serverStore']; exact Nat.le_refl _⟩
          rw [byteAt_serverStore_outside]
          intro hin
          rw [List.length_take] at hin
          exact hout (InRange.of_range hin.1 (by omega))
        · cases h; subst hs
          refine ⟨trivial, ?_, ⟨hi.1, hi.2.1, hi.2.2.1, fun hst => ⟨hfs (hi.2.2.2 hst).1, (hi.2.2.2 hst).2⟩⟩,
            fun _ _ => rfl, Nat.le_refl _⟩
          by_cases hst : strict
          · right
            have := h1 hst
            rw [hi.1, this] at hc
            simp only [Nat.mod_one] at hc
            have := hi.2.2.1
            omega
          · exact .inl hst
        · cases h
      · cases h
  zero := by
    intro s c n s' hi hc h
    simp only [backend, zero] at h ⊢
    split at h
    · cases h
    · split at h
      · cases h
      · split at h
        · cases h
        · rename_i s1 hreq
          rcases request_cases hreq with ⟨_, _, _, h, _⟩ | ⟨_, _, h, _⟩ | ⟨fs, _, hfs, hs, hle⟩
          · cases h
          · cases h
          · cases h
            subst hs
            have hle' : s.pos + (zeros c).length ≤ s.export_.length := by simpa using hle
            have hl := length_serverStore (s := { s with faults := fs }) hle'
            refine ⟨⟨hi.1, hi.2.1, by simp only; rw [hl]; exact hi.2.2.1, fun hst => ⟨hfs (hi.2.2.2 hst).1, (hi.2.2.2 hst).2⟩⟩, hc,
              Nat.le_refl _, rfl, ?_, ?_, ?_⟩
            · exact byteAt_serverStore (s := { s with faults := fs }) hle'
            · simp only; rw [hl]; exact Nat.le_refl _
            · simp only; rw [hl]; simp only; omega
  zero_err := by
    intro s c e s' hi hc h
    simp only [backend, zero] at h ⊢
    split at h
    · rename_i hm
      cases h
      refine ⟨trivial, .inl fun hst => ?_, hi, fun _ _ => rfl, Nat.le_refl _⟩
      rw [(hi.2.2.2 hst).2.1] at hm
      exact absurd hm (by decide)
    · split at h
      · rename_i hm
        cases h
        refine ⟨trivial, .inl fun hst => ?_, hi, fun _ _ => rfl, Nat.le_refl _⟩
        rw [(hi.2.2.2 hst).2.2] at hm
        exact absurd hm (by decide)
      · split at h
        · rename_i e' s1 hreq
          cases h
          rcases request_cases hreq with ⟨_, _, hf, h, k, hk, hs⟩ | ⟨_, _, h, hs, hfs, hc⟩ | ⟨fs, h, _⟩
          · cases h; subst hs
            refine ⟨trivial, .inl fun hst => hf (hi.2.2.2 hst).1, ⟨hi.1, hi.2.1,
            by rw [length_serverStore']; exact hi.2.2.1, fun hst => absurd (hi.2.2.2 hst).1 hf⟩,
            fun i hout => ?_, by rw [length_serverStore']; exact Nat.le_refl _⟩
            rw [byteAt_serverStore_outside]
            intro hin
            rw [zeros_length] at hin
            exact hout (InRange.of_range hin.1 (by omega))
          · cases h; subst hs
            refine ⟨trivial, ?_, ⟨hi.1, hi.2.1, hi.2.2.1, fun hst => ⟨hfs (hi.2.2.2 hst).1, (hi.2.2.2 hst).2⟩⟩,
            fun _ _ => rfl, Nat.le_refl _⟩
            by_cases hst : strict
            · right
              have := h1 hst
              rw [hi.1, this] at hc
              simp only [Nat.mod_one] at hc
              have := hi.2.2.1
              omega
            · exact .inl hst
          · cases h
        · cases h
  flush := by
    intro s s' hi h
    simp only [backend, flush] at h ⊢
    rw [hi.2.1] at h
    simp only [Bool.not_true, Bool.false_eq_true, if_false] at h
    split at h
    · cases h
    · cases h
      exact ⟨⟨hi.1, rfl, hi.2.2.1, fun hst => ⟨by simp [(hi.2.2.2 hst).1], (hi.2.2.2 hst).2⟩⟩, rfl, rfl, rfl, rfl⟩
  flush_err := by
    intro s e s' hi h
    simp only [backend, flush] at h ⊢
    split at h
    · cases h
    · split at h
      · rename_i hf
        cases h
        exact ⟨trivial, .inl (fun hst => by rw [(hi.2.2.2 hst).1] at hf; cases hf), ⟨hi.1, hi.2.1, hi.2.2.1,
          fun hst => by rw [(hi.2.2.2 hst).1] at hf; cases hf⟩, rfl, rfl⟩
      · cases h

end Imageio.NbdBackend
