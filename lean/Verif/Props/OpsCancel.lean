import Verif.Lemmas.OpsCancel
import Verif.Lemmas.Memory
import Verif.Lemmas.Images
/-!
Canceling an operation (C47), inside the operation: when the flag is looked at, what was transferred,
and what the operation reports.  `cancel n` is the value of the flag when chunk number `n` was
transferred, so these theorems are about all moments in which another thread may cancel.
-/
namespace Imageio.Props
open Imageio.Spec Imageio.Ops

/-- C47: an upload that is canceled while chunk `n` is transferred transfers no other chunk, and does
not succeed; when it ends as canceled, `done` is the length of the prefix of the data that is in the
image, and no other byte was changed. -/
theorem C47_write {σ τ : Type} {B : Backend σ} {S : Source τ} (L : Lawful B) (R : LawfulSource S)
    (cancel : Nat → Bool) (bufLen size off : Nat) (flush : Bool) (hb : 0 < bufLen)
    (hbs : bufLen % B.blockSize = 0) (s : σ) (t : τ) (hi : L.Inv s) (ht : R.Inv t)
    {r : Except Err Unit} {st : WriteState σ τ}
    (h : writeRun B S cancel bufLen size off flush s t = (r, st)) :
    (∀ n, cancel n = true → st.chunks ≤ n + 1 ∧ (n < st.chunks → r ≠ .ok ())) ∧
    (r = .error .canceled → (∃ n, cancel n = true) ∧ st.done ≤ size ∧ st.done ≤ (R.rest t).length ∧
      ∀ i, L.content st.dst i =
        if off ≤ i ∧ i < off + st.done then byteAt (R.rest t) (i - off) else L.content s i) := by
  obtain ⟨_, h2, h3⟩ := writeRun_wentOn B S cancel _ _ _ _ _ _ h
  refine ⟨fun n hn => ⟨?_, fun hlt hr => ?_⟩, fun hr => ?_⟩
  · apply Decidable.byContradiction
    intro hc
    have := h2 n (Nat.zero_le _) (by omega)
    simp [hn] at this
  · have := h3 hr n (Nat.zero_le _) hlt
    simp [hn] at this
  · subst hr
    obtain ⟨hp, hle, hc⟩ := (writeRun_spec L R cancel bufLen size off flush hb hbs s t hi ht _ _ h).1
    refine ⟨hc, hle, hp.done_le, fun i => ?_⟩
    have hlen : ((R.rest t).take st.done).length = st.done := by
      rw [List.length_take]; have := hp.done_le; omega
    rw [hp.content]
    simp only [store, hlen]
    split
    · rename_i hin
      simp only [byteAt]
      rw [List.getD_eq_getElem?_getD, List.getD_eq_getElem?_getD, List.getElem?_take, if_pos (by omega)]
    · rfl

/-- C47: the same for zeroing. -/
theorem C47_zero {σ : Type} {B : Backend σ} (L : Lawful B) (cancel : Nat → Bool) (size off : Nat)
    (flush : Bool) (s : σ) (hi : L.Inv s) {r : Except Err Unit} {st : ZeroState σ}
    (h : zeroRun B cancel size off flush s = (r, st)) :
    (∀ n, cancel n = true → st.chunks ≤ n + 1 ∧ (n < st.chunks → r ≠ .ok ())) ∧
    (r = .error .canceled → (∃ n, cancel n = true) ∧ st.done ≤ size ∧
      ∀ i, L.content st.dst i = if off ≤ i ∧ i < off + st.done then 0 else L.content s i) := by
  obtain ⟨_, h2, h3⟩ := zeroRun_wentOn B cancel _ _ _ _ h
  refine ⟨fun n hn => ⟨?_, fun hlt hr => ?_⟩, fun hr => ?_⟩
  · apply Decidable.byContradiction
    intro hc
    have := h2 n (Nat.zero_le _) (by omega)
    simp [hn] at this
  · have := h3 hr n (Nat.zero_le _) hlt
    simp [hn] at this
  · subst hr
    obtain ⟨hp, hle, hc⟩ := (zeroRun_spec L cancel size off flush s hi _ _ h).1
    refine ⟨hc, hle, fun i => ?_⟩
    rw [hp.content]
    simp only [store, zeros_length]
    split
    · simp [byteAt, zeros, List.getD_eq_getElem?_getD, List.getElem?_replicate]
      split <;> rfl
    · rfl

/-- C47: the same for a download: what was sent is exactly the first `done` bytes of the range. -/
theorem C47_read {σ : Type} {B : Backend σ} (L : Lawful B) (cancel sink : Nat → Bool) (buf : Bytes)
    (size off : Nat) (hb : 0 < buf.length) (hbs : buf.length % B.blockSize = 0) (s : σ) (hi : L.Inv s)
    {r : Except Err Unit} {st : ReadState σ} (h : readRun B cancel sink buf size off s = (r, st)) :
    (∀ n, cancel n = true → st.chunks ≤ n + 1 ∧ (n < st.chunks → r ≠ .ok ())) ∧
    (r = .error .canceled → ∃ n, cancel n = true) ∧
    st.done ≤ size ∧ st.out = load (L.content s) off st.done.toNat ∧ L.content st.src = L.content s := by
  obtain ⟨_, h2, h3⟩ := readRun_wentOn B cancel sink _ _ _ _ h
  have hp := readRun_spec L buf cancel sink size off hb hbs s hi
  rw [h] at hp
  refine ⟨fun n hn => ⟨?_, fun hlt hr => ?_⟩, fun hr => ?_, hp.1.done_le, hp.1.out, hp.1.content⟩
  · apply Decidable.byContradiction
    intro hc
    have := h2 n (Nat.zero_le _) (by omega)
    simp [hn] at this
  · have := h3 hr n (Nat.zero_le _) hlt
    simp [hn] at this
  · subst hr
    exact hp.2.2

/-- A source of bytes for the examples. -/
def bytesSource : Source Bytes := ⟨fun t n => (.ok (t.take n), t.drop n)⟩

/-- It meets the contract. -/
def bytesSourceLaw : LawfulSource bytesSource where
  Inv _ := True
  rest t := t
  mayFail := False
  readinto := by
    intro t n d t' _ h
    simp only [bytesSource, Prod.mk.injEq, Except.ok.injEq] at h
    obtain ⟨rfl, rfl⟩ := h
    refine ⟨by rw [List.length_take]; omega, by simp, fun hn hd => ?_, trivial⟩
    cases t with
    | nil => rfl
    | cons a l => cases n with
      | zero => omega
      | succ n => simp at hd
  readinto_err := by
    intro t n e t' _ h
    simp [bytesSource] at h

/-- An upload of 6 bytes in chunks of 2, canceled in the second chunk: 4 bytes were stored. -/
example :
    let x :=
      (writeRun Memory.backend bytesSource (fun n => n == 1) 2 6 1 true
      ⟨.rw, [9, 9, 9, 9, 9, 9, 9, 9], 0, false⟩ [1, 2, 3, 4, 5, 6])
    Memory.lawful.Inv ⟨.rw, [9, 9, 9, 9, 9, 9, 9, 9], 0, false⟩ ∧
    bytesSourceLaw.Inv [1, 2, 3, 4, 5, 6] ∧
    x.1 = .error .canceled ∧ x.2.done = 4 ∧ x.2.chunks = 2 ∧ x.2.dst.buf = [9, 1, 2, 3, 4, 9, 9, 9] := by
  refine ⟨rfl, trivial, ?_⟩
  decide +kernel

/-- Zeroing 3 bytes, canceled in the only step: the bytes are zero, and the operation is not
reported as success. -/
example :
    let x :=
      (zeroRun Memory.backend (fun _ => true) 3 1 true
      ⟨.rw, [9, 9, 9, 9, 9, 9], 0, false⟩)
    x.1 = .error .canceled ∧ x.2.done = 3 ∧ x.2.chunks = 1 ∧ x.2.dst.buf = [9, 0, 0, 0, 9, 9] := by
  decide +kernel

/-- A download of 6 bytes in chunks of 2, canceled in the first chunk. -/
example :
    let x :=
      (readRun Memory.backend (fun n => n == 0) (fun _ => false) [0, 0] 6 1
      ⟨.r, [1, 2, 3, 4, 5, 6, 7, 8], 0, false⟩)
    x.1 = .error .canceled ∧ x.2.done = 2 ∧ x.2.out = [2, 3] := by
  decide +kernel

end Imageio.Props
