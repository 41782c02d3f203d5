import Verif.Lemmas.OpsWrite
namespace Imageio.Ops
open Imageio.Spec

theorem pySlice_zero_length (b : Bytes) (hi : Int) (h : 0 ≤ hi) :
    (pySlice b 0 hi).length = min hi.toNat b.length := by
  simp only [pySlice, pyBound]
  rw [if_neg (by omega), if_neg (by omega)]
  simp only [List.length_take, List.length_drop]
  simp

theorem pySlice_append (d r : Bytes) (lo hi : Nat) (h : hi ≤ d.length) :
    pySlice (d ++ r) lo hi = (d.drop lo).take (hi - lo) := by
  simp only [pySlice, pyBound]
  rw [if_neg (by omega), if_neg (by omega)]
  simp only [Int.toNat_natCast, List.length_append]
  rw [Nat.min_eq_left (by omega : hi ≤ d.length + r.length)]
  by_cases hlo : lo ≤ hi
  · rw [Nat.min_eq_left (by omega), List.drop_append_of_le_length (by omega), List.take_append_of_le_length]
    rw [List.length_drop]; omega
  · rw [show hi - lo = 0 by omega, show hi - min lo (d.length + r.length) = 0 by omega]
    simp

theorem roundUp_spec (n : Int) (bs : Nat) (hb : 0 < bs) (h : 0 ≤ n) :
    0 ≤ roundUp n bs ∧ n ≤ roundUp n bs ∧ (roundUp n bs).toNat % bs = 0 ∧ (0 < n → 0 < roundUp n bs) := by
  obtain ⟨m, rfl⟩ := Int.eq_ofNat_of_zero_le h
  have hm := Nat.mod_lt (m + bs - 1) hb
  have key : roundUp (m : Int) bs = ((m + bs - 1 - (m + bs - 1) % bs : Nat) : Int) := by
    simp only [roundUp]
    have : ((m : Int) + bs - 1) = ((m + bs - 1 : Nat) : Int) := by omega
    rw [this]
    have : (((m + bs - 1 : Nat) : Int) % (bs : Int)) = (((m + bs - 1) % bs : Nat) : Int) := by simp
    rw [this]
    have := Nat.mod_le (m + bs - 1) bs
    omega
  rw [key]
  refine ⟨by omega, by omega, ?_, by omega⟩
  rw [Int.toNat_natCast]
  have := Nat.div_add_mod (m + bs - 1) bs
  have e : m + bs - 1 - (m + bs - 1) % bs = bs * ((m + bs - 1) / bs) := by omega
  rw [e]
  exact Nat.mul_mod_right _ _

theorem roundUp_add (t m bs : Nat) (hb : 0 < bs) (ht : t % bs = 0) :
    t + (roundUp (m : Int) bs).toNat = (t + m + bs - 1) / bs * bs := by
  have key : (roundUp (m : Int) bs).toNat = (m + bs - 1) / bs * bs := by
    simp only [roundUp]
    have : ((m : Int) + bs - 1) = ((m + bs - 1 : Nat) : Int) := by omega
    rw [this]
    have h2 : (((m + bs - 1 : Nat) : Int) % (bs : Int)) = (((m + bs - 1) % bs : Nat) : Int) := by simp
    rw [h2]
    have := Nat.div_add_mod (m + bs - 1) bs
    rw [Nat.mul_comm] at this
    omega
  rw [key]
  have h1 := Nat.div_add_mod t bs
  have e : t + m + bs - 1 = bs * (t / bs) + (m + bs - 1) := by omega
  rw [e, Nat.mul_add_div hb, Nat.add_mul]
  have : t / bs * bs = t := by rw [Nat.mul_comm]; omega
  omega

theorem min_mod (a b m : Nat) (ha : a % m = 0) (hb : b % m = 0) : min a b % m = 0 := by
  rcases Nat.le_total a b with h | h
  · rw [Nat.min_eq_left h]; exact ha
  · rw [Nat.min_eq_right h]; exact hb

/-- The part of the state of a download that is the same between and after chunks. -/
structure RBase {σ : Type} {B : Backend σ} (L : Lawful B) (bufLen : Nat) (size : Nat) (s0 : σ) (off : Nat)
    (st : ReadState σ) : Prop where
  content : L.content st.src = L.content s0
  durable : L.durable st.src = L.durable s0
  bsize : B.size st.src = B.size s0
  out : st.out = load (L.content s0) off st.done.toNat
  done_le : st.done ≤ size
  avail : 0 < st.done → off + st.done ≤ B.size s0
  buf : st.buf.length = bufLen
  inv : L.Inv st.src

structure RProgress {σ : Type} {B : Backend σ} (L : Lawful B) (bufLen : Nat) (size : Nat) (s0 : σ) (off : Nat)
    (st : ReadState σ) : Prop extends RBase L bufLen size s0 off st where
  tell : st.done = size ∨ (B.tell st.src : Int) = off + st.done
  aligned : st.done = size ∨ B.tell st.src % B.blockSize = 0 ∨ B.size s0 ≤ B.tell st.src
  neg : st.done < 0 → B.tell st.src % B.blockSize ≠ 0

def ReadPost {σ : Type} {B : Backend σ} (L : Lawful B) (bufLen : Nat) (cancel sink : Nat → Bool) (size : Nat) (s0 : σ)
    (off : Nat) (r : Except Err Unit) (st : ReadState σ) : Prop :=
  RBase L bufLen size s0 off st ∧
  match r with
  | .ok () => st.done = size ∧ L.Inv st.src
  | .error .canceled => L.Inv st.src ∧ ∃ n, cancel n = true
  | .error (.partialContent r a) => L.Inv st.src ∧ r = size ∧ a = st.done ∧
        ((size = 0 ∧ off % B.blockSize ≠ 0) ∨ (B.size s0 < off + size ∧ (0 < size → st.done < size)))
  | .error e => External e ∧ (L.MayFail off size ∨ ∃ n, sink n = true)

theorem readPost_ext {σ : Type} {B : Backend σ} {L : Lawful B} {bufLen : Nat} {cancel sink : Nat → Bool} {size : Nat}
    {s0 : σ} {off : Nat} {e : Err} {st : ReadState σ} (hb : RBase L bufLen size s0 off st) (h : External e ∧ (L.MayFail off size ∨ ∃ n, sink n = true)) :
    ReadPost L bufLen cancel sink size s0 off (.error e) st := by
  refine ⟨hb, ?_⟩
  cases e with
  | canceled => exact False.elim h.1
  | partialContent r a => exact False.elim h.1
  | os _ => exact h
  | terminated _ => exact h
  | exception _ => exact h
  | authorization _ => exact h
  | stuck => exact h

theorem readChunk_spec {σ : Type} {B : Backend σ} (L : Lawful B) (bufLen : Nat) (cancel sink : Nat → Bool) (size : Nat)
    (hb : 0 < bufLen) (hbs : bufLen % B.blockSize = 0) (s0 : σ) (off skip : Nat) (st : ReadState σ)
    (hB : RBase L bufLen size s0 off st) (hi : L.Inv st.src) (hsk : skip < B.blockSize)
    (hskip : skip = off % B.blockSize ∧ skip ≠ 0 ∧ st.done = 0 ∨ skip = 0 ∧ st.done < size)
    (ht : (B.tell st.src : Int) + skip = off + st.done)
    (hal : B.tell st.src % B.blockSize = 0 ∨ B.size s0 ≤ B.tell st.src ∧ skip = 0)
    (hneg : st.done < 0 → B.tell st.src % B.blockSize ≠ 0) :
    match (readChunk B cancel sink size skip st).1 with
    | .ok () => RProgress L bufLen size s0 off (readChunk B cancel sink size skip st).2 ∧
        (skip = 0 → st.done < (readChunk B cancel sink size skip st).2.done)
    | .error e => ReadPost L bufLen cancel sink size s0 off (.error e) (readChunk B cancel sink size skip st).2 := by
  have hbp := L.block_pos
  obtain ⟨b1, b2, b3, b4, b5, b6, b7, b8⟩ := hB
  unfold readChunk
  by_cases hm : B.tell st.src % B.blockSize = 0
  case neg =>
    rw [if_pos hm]
    have hs : B.size s0 ≤ B.tell st.src ∧ skip = 0 := by
      rcases hal with h | h
      · exact absurd h hm
      · exact h
    refine ⟨⟨b1, b2, b3, b4, b5, b6, b7, b8⟩, hi, rfl, rfl, ?_⟩
    right
    have hd : st.done < size := by
      rcases hskip with h | h
      · exact absurd hs.2 h.2.1
      · exact h.2
    simp only
    constructor
    · omega
    · intro _; exact hd
  case pos =>
    rw [if_neg (by simp [hm])]
    have hd0 : 0 ≤ st.done := by
      rcases Int.lt_or_le st.done 0 with h | h
      · exact absurd hm (hneg h)
      · exact h
    have htodo : 0 ≤ (size : Int) - st.done := by omega
    obtain ⟨q1, q2, q3, q4⟩ := roundUp_spec ((size : Int) - st.done) B.blockSize hbp htodo
    simp only
    have hlen : (pySlice st.buf 0 (roundUp ((size : Int) - st.done) B.blockSize)).length =
        min (roundUp ((size : Int) - st.done) B.blockSize).toNat bufLen := by
      rw [pySlice_zero_length _ _ q1, b7]
    rw [hlen]
    have hmod : min (roundUp ((size : Int) - st.done) B.blockSize).toNat bufLen % B.blockSize = 0 :=
      min_mod _ _ _ q3 hbs
    cases hr : B.readinto st.src (min (roundUp ((size : Int) - st.done) B.blockSize).toNat bufLen) with
    | mk r s' =>
      cases r with
      | error e =>
        obtain ⟨x1, xf, xi, x2, x3, x4⟩ := L.readinto_err _ _ _ _ hi hm hmod hr
        have hmf : L.MayFail off size := by
          refine ⟨_, ?_, xf⟩
          have hm' : ((size : Int) - st.done) = ((size - st.done.toNat : Nat) : Int) := by omega
          have hra := roundUp_add (B.tell st.src) (size - st.done.toNat) B.blockSize hbp hm
          rw [← hm'] at hra
          refine Nat.le_trans (Nat.add_le_add_left (Nat.min_le_left _ _) _) ?_
          rw [hra]
          exact blockEnd_mono _ _ _ (by omega)
        apply readPost_ext _ ⟨x1, .inl hmf⟩
        exact ⟨by simp only; rw [x2, b1], by simp only; rw [x3, b2], by simp only; rw [x4, b3], b4, b5, b6, b7, xi⟩
      | ok data =>
        obtain ⟨x1, x2, x3, x4, x5, x6, x7, x8, x9, x10⟩ := L.readinto _ _ _ _ hi hm hmod hr
        simp only
        have hbuf : (data ++ st.buf.drop data.length).length = bufLen := by
          rw [List.length_append, List.length_drop, b7]
          omega
        have hbase : RBase L bufLen size s0 off
            { st with src := s', buf := data ++ st.buf.drop data.length } :=
          ⟨by simp only; rw [x2, b1], by simp only; rw [x3, b2], by simp only; rw [x4, b3], b4, b5, b6, hbuf, x1⟩
        by_cases hz : data.length = 0
        · rw [if_pos hz]
          refine ⟨hbase, x1, rfl, rfl, ?_⟩
          have hz' : data = [] := List.length_eq_zero_iff.mp hz
          simp only
          rcases x9 hz' with h | h
          · have : roundUp ((size : Int) - st.done) B.blockSize = 0 := by omega
            left
            rcases hskip with h' | h'
            · constructor
              · omega
              · rw [← h'.1]; exact h'.2.1
            · omega
          · rw [b3] at h
            rcases hskip with h' | h'
            · by_cases hs0 : size = 0
              · left; exact ⟨hs0, by rw [← h'.1]; exact h'.2.1⟩
              · right; constructor
                · omega
                · intro _; omega
            · right
              constructor
              · omega
              · intro _; omega
        · rw [if_neg hz]
          by_cases hsink : sink st.chunks = true
          · rw [if_pos hsink]
            exact readPost_ext hbase ⟨trivial, .inr ⟨_, hsink⟩⟩
          · rw [if_neg hsink]
            -- the number of bytes sent
            generalize hn : min ((data.length : Int) - skip) ((size : Int) - st.done) = n
            have hout : pySlice (data ++ st.buf.drop data.length) skip (skip + n) =
                load (L.content s0) (off + st.done.toNat) n.toNat := by
              obtain ⟨hi', hhi⟩ : ∃ k : Nat, (skip : Int) + n = k := ⟨((skip : Int) + n).toNat, by omega⟩
              rw [hhi, pySlice_append _ _ _ _ (by omega), x6, load_drop, load_take, b1]
              by_cases hn0 : 0 ≤ n
              · congr 1 <;> omega
              · rw [show min (hi' - skip) (data.length - skip) = 0 by omega, show n.toNat = 0 by omega]
                simp
            have hnew : RProgress L bufLen size s0 off
                { st with src := s', buf := data ++ st.buf.drop data.length,
                          out := st.out ++ pySlice (data ++ st.buf.drop data.length) skip (skip + n),
                          done := st.done + n, chunks := st.chunks + 1 } := by
              refine ⟨⟨by simp only; rw [x2, b1], by simp only; rw [x3, b2], by simp only; rw [x4, b3], ?_, ?_, ?_, hbuf, x1⟩,
                ?_, ?_, ?_⟩
              · simp only
                rw [hout, b4]
                by_cases hn0 : 0 ≤ n
                · rw [load_append]
                  congr 1
                  omega
                · have h1 : n.toNat = 0 := by omega
                  have h2 : st.done = 0 := by omega
                  rw [h1, h2, load_zero, List.append_nil]
                  rw [show (0 + n).toNat = 0 by omega]
                  simp
              · simp only; omega
              · simp only
                intro hpos
                by_cases hn0 : 0 < n
                · rw [b3] at x8; omega
                · omega
              · simp only
                by_cases hc : (data.length : Int) - skip ≤ (size : Int) - st.done
                · right; rw [x7]; omega
                · left; omega
              · simp only
                by_cases hc : (data.length : Int) - skip ≤ (size : Int) - st.done
                · right
                  rw [x7]
                  rw [b3] at x10
                  rcases x10 with h | h
                  · left; rw [Nat.add_mod, hm, h]; simp
                  · right; exact h
                · left; omega
              · simp only
                intro hlt
                rw [x7]
                have : data.length < B.blockSize := by omega
                rw [Nat.add_mod, hm, Nat.zero_add, Nat.mod_mod, Nat.mod_eq_of_lt this]
                exact hz
            by_cases hk : cancel st.chunks = true
            · rw [if_pos hk]
              exact ⟨hnew.toRBase, hnew.inv, _, hk⟩
            · rw [if_neg hk]
              refine ⟨hnew, fun h => ?_⟩
              simp only
              omega

theorem readChunks_spec {σ : Type} {B : Backend σ} (L : Lawful B) (bufLen : Nat) (cancel sink : Nat → Bool) (size : Nat)
    (hb : 0 < bufLen) (hbs : bufLen % B.blockSize = 0) (s0 : σ) (off : Nat) :
    ∀ (fuel : Nat) (st : ReadState σ), RProgress L bufLen size s0 off st →
      (st.done < 0 ∧ 0 < fuel ∨ 0 ≤ st.done ∧ (size : Int) - st.done ≤ fuel) →
      ReadPost L bufLen cancel sink size s0 off (readChunks B cancel sink size fuel st).1
        (readChunks B cancel sink size fuel st).2 := by
  have hbp := L.block_pos
  intro fuel
  induction fuel with
  | zero =>
    intro st hp hf
    have := hp.done_le
    unfold readChunks
    rw [if_pos (by omega)]
    exact ⟨hp.toRBase, by simp only; omega, hp.inv⟩
  | succ fuel ih =>
    intro st hp hf
    have hdle := hp.done_le
    unfold readChunks
    by_cases h0 : (size : Int) - st.done = 0
    · rw [if_pos h0]
      exact ⟨hp.toRBase, by simp only; omega, hp.inv⟩
    · rw [if_neg h0]
      have ht := hp.tell
      have hal := hp.aligned
      have hc := readChunk_spec L bufLen cancel sink size hb hbs s0 off 0 st hp.toRBase hp.inv hbp
        (.inr ⟨rfl, by omega⟩) (by omega) (by
          rcases hal with h | h | h
          · omega
          · exact .inl h
          · exact .inr ⟨h, rfl⟩) hp.neg
      cases hr : readChunk B cancel sink size 0 st with
      | mk r st' =>
        rw [hr] at hc
        cases r with
        | error e => exact hc
        | ok _ =>
          simp only at hc ⊢
          have hlt := hc.2 trivial
          apply ih st' hc.1
          by_cases hneg : st.done < 0
          · -- a negative count makes the next chunk fail
            exfalso
            have := hp.neg hneg
            unfold readChunk at hr
            rw [if_pos this] at hr
            cases hr
          · omega

theorem readRun_spec {σ : Type} {B : Backend σ} (L : Lawful B) (buf : Bytes) (cancel sink : Nat → Bool) (size off : Nat)
    (hb : 0 < buf.length) (hbs : buf.length % B.blockSize = 0) (s : σ) (hi : L.Inv s) :
    ReadPost L buf.length cancel sink size s off (readRun B cancel sink buf size off s).1
      (readRun B cancel sink buf size off s).2 := by
  have hbp := L.block_pos
  unfold readRun
  simp only
  cases hs : B.seek s (off - off % B.blockSize) with
  | mk r0 s' =>
    obtain ⟨k1, k2, k3, k4, k5, k6⟩ := L.seek _ _ _ _ hi hs
    subst k1
    simp only
    have hbase : RBase L buf.length size s off ⟨s', buf, [], 0, 0⟩ :=
      ⟨k4, k5, k6, rfl, by simp, by simp, rfl, k2⟩
    have hmle := Nat.mod_le off B.blockSize
    have hdm := Nat.div_add_mod off B.blockSize
    have halign : (off - off % B.blockSize) % B.blockSize = 0 := by
      have : off - off % B.blockSize = B.blockSize * (off / B.blockSize) := by omega
      rw [this]; exact Nat.mul_mod_right _ _
    by_cases hk : off % B.blockSize = 0
    · rw [if_neg (by simp [hk])]
      simp only
      apply readChunks_spec L buf.length cancel sink size hb hbs s off
      · exact ⟨hbase, .inr (by simp only; rw [k3]; omega), .inr (.inl (by simp only; rw [k3]; exact halign)), by simp⟩
      · right; simp only; omega
    · rw [if_pos (by simpa using hk)]
      have hc := readChunk_spec L buf.length cancel sink size hb hbs s off (off % B.blockSize) ⟨s', buf, [], 0, 0⟩ hbase k2
        (Nat.mod_lt _ hbp) (.inl ⟨rfl, hk, rfl⟩) (by simp only; rw [k3]; omega) (.inl (by simp only; rw [k3]; exact halign))
        (by simp)
      cases hr : readChunk B cancel sink size (off % B.blockSize) ⟨s', buf, [], 0, 0⟩ with
      | mk r st' =>
        rw [hr] at hc
        cases r with
        | error e => exact hc
        | ok _ =>
          simp only at hc ⊢
          apply readChunks_spec L buf.length cancel sink size hb hbs s off _ _ hc.1
          have := hc.1.done_le
          omega

end Imageio.Ops
