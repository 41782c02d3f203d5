import Verif.Lemmas.OpsRead
import Verif.Lemmas.OpsWrite
import Verif.Lemmas.OpsZero
/-! Canceling in `ops.py`: where the loops look at the flag. -/
namespace Imageio.Ops
open Imageio.Spec

/-- Chunks from number `a` to number `b`, where the operation went on after all of them but the
last, and also after the last if it succeeded. -/
def WentOn (cancel : Nat → Bool) (a b : Nat) (ok : Prop) : Prop :=
  a ≤ b ∧ (∀ n, a ≤ n → n + 1 < b → cancel n = false) ∧ (ok → ∀ n, a ≤ n → n < b → cancel n = false)

theorem WentOn.refl (cancel : Nat → Bool) (a : Nat) (ok : Prop) : WentOn cancel a a ok :=
  ⟨Nat.le_refl _, fun n h1 h2 => by omega, fun _ n h1 h2 => by omega⟩

theorem WentOn.one {cancel : Nat → Bool} {a : Nat} {ok : Prop} (h : ok → cancel a = false) :
    WentOn cancel a (a + 1) ok :=
  ⟨by omega, fun n h1 h2 => by omega, fun ho n h1 h2 => by
    have : n = a := by omega
    subst this; exact h ho⟩

theorem WentOn.trans {cancel : Nat → Bool} {a b c : Nat} {ok ok' : Prop} (h : WentOn cancel a b ok) (ho : ok)
    (h' : WentOn cancel b c ok') : WentOn cancel a c ok' := by
  refine ⟨Nat.le_trans h.1 h'.1, fun n h1 h2 => ?_, fun hk n h1 h2 => ?_⟩
  · by_cases hn : n < b
    · exact h.2.2 ho n h1 hn
    · exact h'.2.1 n (by omega) h2
  · by_cases hn : n < b
    · exact h.2.2 ho n h1 hn
    · exact h'.2.2 hk n (by omega) h2

theorem WentOn.weaken {cancel : Nat → Bool} {a b : Nat} {ok ok' : Prop} (h : WentOn cancel a b ok) (hi : ok' → ok) :
    WentOn cancel a b ok' := ⟨h.1, h.2.1, fun ho => h.2.2 (hi ho)⟩

theorem writeChunk_wentOn {σ τ : Type} (B : Backend σ) (S : Source τ) (cancel : Nat → Bool) (size count : Nat)
    (st : WriteState σ τ) {r : Except Err Unit} {st' : WriteState σ τ}
    (h : writeChunk B S cancel size count st = (r, st')) :
    WentOn cancel st.chunks st'.chunks (r = .ok ()) := by
  unfold writeChunk at h
  cases hf : fill S count st.src with
  | mk r1 t' =>
    rw [hf] at h
    cases r1 with
    | error e => simp only [Prod.mk.injEq] at h; rw [← h.2]; exact .refl ..
    | ok data =>
      simp only at h
      cases hw : writeLoop B data.length st.dst 0 data with
      | mk r2 s' =>
        rw [hw] at h
        cases r2 with
        | error e => simp only [Prod.mk.injEq] at h; rw [← h.2]; exact .refl ..
        | ok u =>
          simp only at h
          split at h
          · simp only [Prod.mk.injEq] at h; rw [← h.2, ← h.1]; exact .one (by simp)
          · split at h
            · simp only [Prod.mk.injEq] at h; rw [← h.2, ← h.1]; exact .one (by simp)
            · rename_i hk
              simp only [Prod.mk.injEq] at h; rw [← h.2, ← h.1]; exact .one (by simpa using hk)

theorem writeChunks_wentOn {σ τ : Type} (B : Backend σ) (S : Source τ) (cancel : Nat → Bool) (bufLen size : Nat) :
    ∀ (fuel : Nat) (st : WriteState σ τ) {r : Except Err Unit} {st' : WriteState σ τ},
      writeChunks B S cancel bufLen size fuel st = (r, st') →
      WentOn cancel st.chunks st'.chunks (r = .ok ()) := by
  intro fuel
  induction fuel with
  | zero =>
    intro st r st' h
    unfold writeChunks at h
    split at h <;> (simp only [Prod.mk.injEq] at h; rw [← h.2]; exact .refl ..)
  | succ fuel ih =>
    intro st r st' h
    unfold writeChunks at h
    split at h
    · simp only [Prod.mk.injEq] at h; rw [← h.2]; exact .refl ..
    · simp only at h
      cases hw : writeChunk B S cancel size (min (size - st.done) bufLen) st with
      | mk r1 st1 =>
        rw [hw] at h
        have h1 := writeChunk_wentOn B S cancel _ _ _ hw
        cases r1 with
        | error e => simp only [Prod.mk.injEq] at h; rw [← h.2, ← h.1]; exact h1
        | ok u => exact h1.trans rfl (ih _ h)

theorem writeRun_wentOn {σ τ : Type} (B : Backend σ) (S : Source τ) (cancel : Nat → Bool) (bufLen size offset : Nat)
    (flush : Bool) (s : σ) (t : τ) {r : Except Err Unit} {st : WriteState σ τ}
    (h : writeRun B S cancel bufLen size offset flush s t = (r, st)) :
    WentOn cancel 0 st.chunks (r = .ok ()) := by
  unfold writeRun at h
  cases hs : B.seek s offset with
  | mk r0 s' =>
    rw [hs] at h
    cases r0 with
    | error e => simp only [Prod.mk.injEq] at h; rw [← h.2]; exact .refl ..
    | ok u =>
      simp only at h
      have fin : ∀ st0 : WriteState σ τ, WentOn cancel 0 st0.chunks True →
          (match writeChunks B S cancel bufLen size size st0 with
            | (.error e, st) => (.error e, st)
            | (.ok (), st) =>
              if flush then
                match B.flush st.dst with
                | (.error e, s') => (.error e, { st with dst := s' })
                | (.ok (), s') => (.ok (), { st with dst := s' })
              else (.ok (), st)) = (r, st) → WentOn cancel 0 st.chunks (r = .ok ()) := by
        intro st0 h0 h
        cases hw : writeChunks B S cancel bufLen size size st0 with
        | mk r1 st1 =>
          rw [hw] at h
          have h1 := h0.trans trivial (writeChunks_wentOn B S cancel _ _ _ _ hw)
          cases r1 with
          | error e => simp only [Prod.mk.injEq] at h; rw [← h.2, ← h.1]; exact h1
          | ok u =>
            simp only at h
            cases flush with
            | false =>
              simp only [Bool.false_eq_true, if_false, Prod.mk.injEq] at h
              rw [← h.2, ← h.1]; exact h1
            | true =>
              simp only [if_true] at h
              cases hfl : B.flush st1.dst with
              | mk r2 s2 =>
                rw [hfl] at h
                cases r2 <;>
                  (simp only [Prod.mk.injEq] at h; rw [← h.2]; exact h1.weaken (fun _ => rfl))
      by_cases hu : offset % B.blockSize = 0
      · simp only [hu, ne_eq, not_true_eq_false, if_false] at h
        exact fin ⟨s', t, 0, 0⟩ (.refl ..) h
      · simp only [ne_eq, hu, not_false_eq_true, if_true] at h
        cases hw : writeChunk B S cancel size (min size (B.blockSize - offset % B.blockSize)) ⟨s', t, 0, 0⟩ with
        | mk r1 st1 =>
          rw [hw] at h
          have h1 := writeChunk_wentOn B S cancel _ _ _ hw
          cases r1 with
          | error e => simp only [Prod.mk.injEq] at h; rw [← h.2, ← h.1]; exact h1
          | ok u => exact fin st1 (h1.weaken fun _ => rfl) h

theorem zeroSteps_wentOn {σ : Type} (B : Backend σ) (cancel : Nat → Bool) (size : Nat) :
    ∀ (fuel : Nat) (st : ZeroState σ) {r : Except Err Unit} {st' : ZeroState σ},
      zeroSteps B cancel size fuel st = (r, st') → WentOn cancel st.chunks st'.chunks (r = .ok ()) := by
  intro fuel
  induction fuel with
  | zero =>
    intro st r st' h
    unfold zeroSteps at h
    split at h <;> (simp only [Prod.mk.injEq] at h; rw [← h.2]; exact .refl ..)
  | succ fuel ih =>
    intro st r st' h
    unfold zeroSteps at h
    split at h
    · simp only [Prod.mk.injEq] at h; rw [← h.2]; exact .refl ..
    · simp only at h
      cases hz : B.zero st.dst (min (size - st.done) maxStep) with
      | mk r1 s1 =>
        rw [hz] at h
        cases r1 with
        | error e => simp only [Prod.mk.injEq] at h; rw [← h.2]; exact .refl ..
        | ok n =>
          simp only at h
          split at h
          · simp only [Prod.mk.injEq] at h; rw [← h.2, ← h.1]; exact .one (by simp)
          · rename_i hk
            exact (WentOn.one (ok := True) (by simpa using hk)).trans trivial (ih _ h)

theorem zeroRun_wentOn {σ : Type} (B : Backend σ) (cancel : Nat → Bool) (size offset : Nat) (flush : Bool) (s : σ)
    {r : Except Err Unit} {st : ZeroState σ} (h : zeroRun B cancel size offset flush s = (r, st)) :
    WentOn cancel 0 st.chunks (r = .ok ()) := by
  unfold zeroRun at h
  cases hs : B.seek s offset with
  | mk r0 s' =>
    rw [hs] at h
    cases r0 with
    | error e => simp only [Prod.mk.injEq] at h; rw [← h.2]; exact .refl ..
    | ok u =>
      simp only at h
      cases hw : zeroSteps B cancel size size ⟨s', 0, 0⟩ with
      | mk r1 st1 =>
        rw [hw] at h
        have h1 := zeroSteps_wentOn B cancel _ _ _ hw
        cases r1 with
        | error e => simp only [Prod.mk.injEq] at h; rw [← h.2, ← h.1]; exact h1
        | ok u =>
          simp only at h
          cases flush with
          | false =>
            simp only [Bool.false_eq_true, if_false, Prod.mk.injEq] at h
            rw [← h.2, ← h.1]; exact h1
          | true =>
            simp only [if_true] at h
            cases hfl : B.flush st1.dst with
            | mk r2 s2 =>
              rw [hfl] at h
              cases r2 <;>
                (simp only [Prod.mk.injEq] at h; rw [← h.2]; exact h1.weaken (fun _ => rfl))

theorem readChunk_wentOn {σ : Type} (B : Backend σ) (cancel sink : Nat → Bool) (size : Int) (skip : Nat)
    (st : ReadState σ) {r : Except Err Unit} {st' : ReadState σ}
    (h : readChunk B cancel sink size skip st = (r, st')) :
    WentOn cancel st.chunks st'.chunks (r = .ok ()) := by
  unfold readChunk at h
  split at h
  · simp only [Prod.mk.injEq] at h; rw [← h.2]; exact .refl ..
  · simp only at h
    cases hr : B.readinto st.src (pySlice st.buf 0 (roundUp (size - st.done) B.blockSize)).length with
    | mk r1 s1 =>
      rw [hr] at h
      cases r1 with
      | error e => simp only [Prod.mk.injEq] at h; rw [← h.2]; exact .refl ..
      | ok data =>
        simp only at h
        split at h
        · simp only [Prod.mk.injEq] at h; rw [← h.2]; exact .refl ..
        · split at h
          · simp only [Prod.mk.injEq] at h; rw [← h.2]; exact .refl ..
          · split at h
            · simp only [Prod.mk.injEq] at h; rw [← h.2, ← h.1]; exact .one (by simp)
            · rename_i hk
              simp only [Prod.mk.injEq] at h; rw [← h.2, ← h.1]; exact .one (by simpa using hk)

theorem readChunks_wentOn {σ : Type} (B : Backend σ) (cancel sink : Nat → Bool) (size : Int) :
    ∀ (fuel : Nat) (st : ReadState σ) {r : Except Err Unit} {st' : ReadState σ},
      readChunks B cancel sink size fuel st = (r, st') → WentOn cancel st.chunks st'.chunks (r = .ok ()) := by
  intro fuel
  induction fuel with
  | zero =>
    intro st r st' h
    unfold readChunks at h
    split at h <;> (simp only [Prod.mk.injEq] at h; rw [← h.2]; exact .refl ..)
  | succ fuel ih =>
    intro st r st' h
    unfold readChunks at h
    split at h
    · simp only [Prod.mk.injEq] at h; rw [← h.2]; exact .refl ..
    · simp only at h
      cases hw : readChunk B cancel sink size 0 st with
      | mk r1 st1 =>
        rw [hw] at h
        have h1 := readChunk_wentOn B cancel sink _ _ _ hw
        cases r1 with
        | error e => simp only [Prod.mk.injEq] at h; rw [← h.2, ← h.1]; exact h1
        | ok u => exact h1.trans rfl (ih _ h)

theorem readRun_wentOn {σ : Type} (B : Backend σ) (cancel sink : Nat → Bool) (buf : Bytes) (size : Int)
    (offset : Nat) (s : σ) {r : Except Err Unit} {st : ReadState σ}
    (h : readRun B cancel sink buf size offset s = (r, st)) : WentOn cancel 0 st.chunks (r = .ok ()) := by
  unfold readRun at h
  simp only at h
  cases hs : B.seek s (offset - offset % B.blockSize) with
  | mk r0 s' =>
    rw [hs] at h
    cases r0 with
    | error e => simp only [Prod.mk.injEq] at h; rw [← h.2]; exact .refl ..
    | ok u =>
      simp only at h
      by_cases hu : offset % B.blockSize = 0
      · simp only [hu, ne_eq, not_true_eq_false, if_false] at h
        exact readChunks_wentOn B cancel sink _ _ _ h
      · simp only [ne_eq, hu, not_false_eq_true, if_true] at h
        cases hw : readChunk B cancel sink size (offset % B.blockSize) ⟨s', buf, [], 0, 0⟩ with
        | mk r1 st1 =>
          rw [hw] at h
          have h1 := readChunk_wentOn B cancel sink _ _ _ hw
          cases r1 with
          | error e => simp only [Prod.mk.injEq] at h; rw [← h.2, ← h.1]; exact h1
          | ok u => exact (h1.trans rfl (readChunks_wentOn B cancel sink _ _ _ h))

end Imageio.Ops
