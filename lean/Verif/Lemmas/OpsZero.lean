import Verif.Lemmas.OpsWrite
namespace Imageio.Ops
open Imageio.Spec

structure ZProgress {σ : Type} {B : Backend σ} (L : Lawful B) (s0 : σ) (off : Nat) (st : ZeroState σ) : Prop where
  inv : L.Inv st.dst
  tell : B.tell st.dst = off + st.done
  content : L.content st.dst = store (L.content s0) off (zeros st.done)
  size_ge : B.size s0 ≤ B.size st.dst
  size_le : B.size st.dst ≤ max (B.size s0) ((off + st.done + B.blockSize - 1) / B.blockSize * B.blockSize)

def ZeroPost {σ : Type} {B : Backend σ} (L : Lawful B) (cancel : Nat → Bool) (s0 : σ) (off size : Nat)
    (r : Except Err Unit) (st : ZeroState σ) : Prop :=
  match r with
  | .ok () => ZProgress L s0 off st ∧ st.done = size
  | .error .canceled => ZProgress L s0 off st ∧ st.done ≤ size ∧ ∃ n, cancel n = true
  | .error e => External e ∧ L.MayFail off size ∧ st.done ≤ size ∧
        L.Damaged off size s0 st.dst

theorem zeroPost_ext {σ : Type} {B : Backend σ} {L : Lawful B} {cancel : Nat → Bool} {s0 : σ} {off size : Nat}
    {e : Err} {st : ZeroState σ} (h : External e ∧ L.MayFail off size ∧ st.done ≤ size ∧
        L.Damaged off size s0 st.dst) :
    ZeroPost L cancel s0 off size (.error e) st := by
  cases e with
  | canceled => exact False.elim h.1
  | partialContent r a => exact h
  | os _ => exact h
  | terminated _ => exact h
  | exception _ => exact h
  | authorization _ => exact h
  | stuck => exact h

theorem zeros_append (a b : Nat) : zeros a ++ zeros b = zeros (a + b) := by
  simp [zeros]

@[simp] theorem zeros_length (a : Nat) : (zeros a).length = a := by simp [zeros]

theorem zeroSteps_spec {σ : Type} {B : Backend σ} (L : Lawful B) (cancel : Nat → Bool) (size : Nat) (s0 : σ) (off : Nat) :
    ∀ (fuel : Nat) (st : ZeroState σ), ZProgress L s0 off st → st.done ≤ size → size - st.done ≤ fuel →
      ZeroPost L cancel s0 off size (zeroSteps B cancel size fuel st).1 (zeroSteps B cancel size fuel st).2 := by
  intro fuel
  induction fuel with
  | zero =>
    intro st hp hle hf
    unfold zeroSteps
    rw [if_pos (by omega)]
    exact ⟨hp, by simp only; omega⟩
  | succ fuel ih =>
    intro st hp hle hf
    unfold zeroSteps
    by_cases h0 : size - st.done = 0
    · rw [if_pos h0]; exact ⟨hp, by simp only; omega⟩
    · rw [if_neg h0]
      have hms : 0 < maxStep := by decide
      cases hz : B.zero st.dst (min (size - st.done) maxStep) with
      | mk r s' =>
        cases r with
        | error e =>
          obtain ⟨x1, xf, x2⟩ := L.zero_err _ _ _ _ hp.inv (by omega) hz
          apply zeroPost_ext
          refine ⟨x1, ⟨_, ?_, xf⟩, hle, ?_⟩
          · rw [hp.tell]
            exact Nat.le_trans (by omega) (le_blockEnd B.blockSize (off + size) L.block_pos)
          rw [hp.tell] at x2
          exact (x2.mono (by omega) (by omega)).after hp.content (Nat.le_refl _)
            (by rw [zeros_length]; omega) hp.size_ge
        | ok n =>
          obtain ⟨c1, c2, c3, c4, c5, c6, c7⟩ := L.zero _ _ _ _ hp.inv (by omega) hz
          have hp' : ZProgress L s0 off { dst := s', done := st.done + n, chunks := st.chunks + 1 } := by
            refine ⟨c1, ?_, ?_, ?_, ?_⟩
            · simp only; rw [c4, hp.tell]; omega
            · simp only
              rw [c5, hp.tell, hp.content]
              have := store_append (L.content s0) off (zeros st.done) (zeros n)
              rw [zeros_length, zeros_append] at this
              exact this
            · simp only; have := hp.size_ge; omega
            · simp only
              have h1 := hp.size_le
              rw [hp.tell] at c7
              have := blockEnd_mono B.blockSize (off + st.done) (off + st.done + n) (by omega)
              rw [← Nat.add_assoc]
              omega
          simp only
          by_cases hk : cancel st.chunks = true
          · rw [if_pos hk]; exact ⟨hp', by simp only; omega, _, hk⟩
          · rw [if_neg hk]; exact ih _ hp' (by simp only; omega) (by simp only; omega)

theorem zeroRun_spec {σ : Type} {B : Backend σ} (L : Lawful B) (cancel : Nat → Bool) (size off : Nat) (flush : Bool)
    (s : σ) (hi : L.Inv s) (r : Except Err Unit) (st : ZeroState σ) (h : zeroRun B cancel size off flush s = (r, st)) :
    ZeroPost L cancel s off size r st ∧ (r = .ok () → flush = true → L.durable st.dst = L.content st.dst) := by
  unfold zeroRun at h
  cases hs : B.seek s off with
  | mk r0 s' =>
    obtain ⟨k1, k2, k3, k4, k5, k6⟩ := L.seek _ _ _ _ hi hs
    subst k1
    rw [hs] at h
    simp only at h
    have hp0 : ZProgress L s off ⟨s', 0, 0⟩ :=
      ⟨k2, by simp [k3], by simp [k4, zeros], by simp [k6], by simp only [k6]; omega⟩
    have hc := zeroSteps_spec L cancel size s off size _ hp0 (Nat.zero_le _) (by simp)
    cases hw : zeroSteps B cancel size size ⟨s', 0, 0⟩ with
    | mk r1 st1 =>
      rw [hw] at hc h
      cases r1 with
      | error e =>
        simp only at h
        cases h
        exact ⟨hc, fun h => by cases h⟩
      | ok _ =>
        simp only at h
        obtain ⟨hp1, hd1⟩ := hc
        simp only at hp1 hd1
        by_cases hfl : flush = true
        · rw [if_pos hfl] at h
          cases hf : B.flush st1.dst with
          | mk r2 s2 =>
            rw [hf] at h
            cases r2 with
            | error e =>
              simp only at h
              cases h
              obtain ⟨x1, xf, xi, x2, xs⟩ := L.flush_err _ _ _ hp1.inv hf
              refine ⟨zeroPost_ext ⟨x1, ⟨0, Nat.zero_le _, xf⟩, by simp only; omega, xi, fun i hi => ?_, ?_⟩, fun h => by cases h⟩
              · simp only
                rw [x2, hp1.content, store_outside]
                intro h
                rw [zeros_length] at h
                exact hi (InRange.of_range h.1 (by omega))
              · simp only
                rw [xs]; exact hp1.size_ge
            | ok _ =>
              simp only at h
              cases h
              obtain ⟨x1, x2, x3, x4, x5⟩ := L.flush _ _ hp1.inv hf
              refine ⟨⟨⟨x1, ?_, ?_, ?_, ?_⟩, hd1⟩, fun _ _ => ?_⟩
              · simp only; rw [x4]; exact hp1.tell
              · simp only; rw [x2]; exact hp1.content
              · simp only; rw [x5]; exact hp1.size_ge
              · simp only; rw [x5]; exact hp1.size_le
              · simp only; rw [x3, x2]
        · rw [if_neg hfl] at h
          cases h
          exact ⟨⟨hp1, hd1⟩, fun _ h => absurd h hfl⟩

end Imageio.Ops
