import Verif.Lemmas.File
namespace Imageio.File
open Imageio.Spec Imageio.Memory Imageio.Ops

/-- `s'` is `s` after the call stored `d` at the position and moved the position. -/
structure Stores (env : Env) (s s' : State) (d : Bytes) : Prop where
  content : byteAt s'.data = store (byteAt s.data) s.pos d
  pos : s'.pos = s.pos + d.length
  ge : s.data.length ≤ s'.data.length
  le : s'.data.length ≤ max s.data.length ((s.pos + d.length + env.bs - 1) / env.bs * env.bs)
  block : env.isBlock = true → s'.data.length = s.data.length
  faults : s.faults = [] → s'.faults = []

/-- Why a call that uses `n` bytes at the position can fail. -/
def Cause (env : Env) (s : State) (n : Nat) : Prop :=
  s.faults ≠ [] ∨ (env.isBlock = true ∧ s.data.length < s.pos + n)

theorem blockEnd_inside {bs pos n : Nat} (hb : 0 < bs) (h0 : 0 < n) (h1 : n ≤ bs - pos % bs) :
    (pos + n + bs - 1) / bs * bs = pos - pos % bs + bs := by
  have hml := Nat.mod_lt pos hb
  have hdm := Nat.div_add_mod pos bs
  have e1 : pos + n + bs - 1 = bs * (pos / bs + 1) + (pos % bs + n - 1) := by
    rw [Nat.mul_add]; omega
  have e2 : (pos % bs + n - 1) / bs = 0 := Nat.div_eq_of_lt (by omega)
  rw [e1, Nat.mul_add_div hb, e2, Nat.add_zero, Nat.add_mul, Nat.mul_comm]
  omega

theorem write_ok {env : Env} {s s' : State} {a : Nat} {buf : Bytes} {n : Nat} (hb : 0 < env.bs)
    (hinv : env.isBlock = true → s.data.length % env.bs = 0) (hd : buf ≠ [])
    (h : write env s a buf = (.ok n, s')) : 0 < n ∧ n ≤ buf.length ∧ Stores env s s' (buf.take n) := by
  have hdl : 0 < buf.length := List.length_pos_iff.mpr hd
  have hml := Nat.mod_lt s.pos hb
  have hmle := Nat.mod_le s.pos env.bs
  unfold write at h
  by_cases hslow : (!aligned env s.pos || decide (buf.length < env.bs)) = true
  · rw [if_pos hslow] at h
    obtain ⟨h1, h2, _, h4, h5, h6, h7⟩ := writeUnaligned_ok hb hinv hd h
    have hl : (buf.take n).length = n := by rw [List.length_take]; omega
    refine ⟨by omega, by omega, ⟨h4, by rw [hl]; exact h2, by omega, ?_, h6, h7⟩⟩
    rw [h5, hl]
    have hdm := Nat.div_add_mod s.pos env.bs
    have := blockEnd_inside hb (pos := s.pos) (n := n) (by omega) (by omega)
    omega
  · rw [if_neg hslow] at h
    have hge : env.bs ≤ buf.length := by
      simp only [Bool.or_eq_true, decide_eq_true_eq] at hslow
      omega
    have fast : ∀ d : Bytes, d ≠ [] → fioWrite env s a d = (.ok n, s') → 0 < n ∧ n ≤ d.length ∧
        Stores env s s' (d.take n) := by
      intro d hd' h
      obtain ⟨w1, w2, w3, w4, w5, w6, w7, w8, w9⟩ := fioWrite_ok hinv hd' h
      have hl : (d.take n).length = n := by rw [List.length_take]; omega
      refine ⟨w4, w5, ⟨w8.data, by rw [hl]; exact w6, by rw [w8.length]; omega, ?_, ?_, w8.faults⟩⟩
      · rw [w8.length]
        have := le_blockEnd env.bs (s.pos + (d.take n).length) hb
        omega
      · intro hblk
        have := w8.block hblk
        rw [w8.length]; omega
    by_cases hal : aligned env buf.length = true
    · rw [if_pos hal] at h
      exact fast buf hd h
    · rw [if_neg hal] at h
      have hlen : (buf.take (roundDown buf.length env.bs)).length = roundDown buf.length env.bs := by
        rw [List.length_take, roundDown]; omega
      have hpos : 0 < roundDown buf.length env.bs := by
        have := Nat.mod_lt buf.length hb
        rw [roundDown]; omega
      have hle : roundDown buf.length env.bs ≤ buf.length := by rw [roundDown]; omega
      obtain ⟨f1, f2, f3⟩ := fast _ (by intro hh; rw [hh] at hlen; simp at hlen; omega) h
      refine ⟨f1, by omega, ?_⟩
      rwa [List.take_take, Nat.min_eq_left (by omega)] at f3

theorem write_err {env : Env} {s s' : State} {a : Nat} {buf : Bytes} {e : Err} (hb : 0 < env.bs) (hd : buf ≠ [])
    (hpre : s.pos % env.bs = 0 → env.bs ≤ buf.length → a % env.bs = 0)
    (h : write env s a buf = (.error e, s')) : Same s s' ∧ External e ∧ Cause env s buf.length := by
  have hdl : 0 < buf.length := List.length_pos_iff.mpr hd
  have hmle := Nat.mod_le s.pos env.bs
  unfold write at h
  by_cases hslow : (!aligned env s.pos || decide (buf.length < env.bs)) = true
  · rw [if_pos hslow] at h
    obtain ⟨h1, h2, h3⟩ := writeUnaligned_err hb h
    refine ⟨h1, h2, ?_⟩
    rcases h3 with h3 | h3
    · exact .inl h3
    · exact .inr ⟨h3.1, by omega⟩
  · rw [if_neg hslow] at h
    have hge : env.bs ≤ buf.length ∧ s.pos % env.bs = 0 := by
      simp only [Bool.or_eq_true, decide_eq_true_eq, aligned, Bool.not_eq_true', decide_eq_false_iff_not] at hslow
      omega
    have fast : ∀ d : Bytes, d.length % env.bs = 0 → fioWrite env s a d = (.error e, s') →
        Same s s' ∧ External e ∧ Cause env s buf.length := by
      intro d hdm h
      obtain ⟨w1, w2, w3⟩ := fioWrite_err h
      refine ⟨w1, w2, ?_⟩
      rcases w3 with h | h | h | h | h
      · exact .inl h
      · exact absurd hge.2 h
      · exact absurd hdm h
      · exact absurd (hpre hge.2 hge.1) h
      · exact .inr ⟨h.1, by omega⟩
    by_cases hal : aligned env buf.length = true
    · rw [if_pos hal] at h
      exact fast buf (by simpa [aligned] using hal) h
    · rw [if_neg hal] at h
      refine fast _ ?_ h
      have := Nat.div_add_mod buf.length env.bs
      have e : roundDown buf.length env.bs = env.bs * (buf.length / env.bs) := by rw [roundDown]; omega
      rw [List.length_take, Nat.min_eq_left (by rw [roundDown]; omega), e]
      exact Nat.mul_mod_right _ _

/-- What every call keeps. -/
structure Kept (env : Env) (s s' : State) : Prop where
  block : env.isBlock = true → s'.data.length = s.data.length
  ge : s.data.length ≤ s'.data.length
  faults : s.faults = [] → s'.faults = []

theorem Kept.trans {env : Env} {a b c : State} (h : Kept env a b) (h' : Kept env b c) : Kept env a c :=
  ⟨fun k => (h'.block k).trans (h.block k), Nat.le_trans h.ge h'.ge, fun f => h'.faults (h.faults f)⟩

theorem Same.kept {env : Env} {s s' : State} (h : Same s s') : Kept env s s' :=
  ⟨fun _ => by rw [h.data], by rw [h.data]; exact Nat.le_refl _, h.faults⟩

/-- A failed call that uses `n` bytes at the position of `s`. -/
structure Failed (env : Env) (s s' : State) (n : Nat) (e : Err) : Prop where
  ext : External e
  cause : Cause env s n
  outside : ∀ i, ¬ InRange s.pos n i → byteAt s'.data i = byteAt s.data i
  kept : Kept env s s'

theorem stores_take_zeros (n m : Nat) (h : n ≤ m) : (zeros m).take n = zeros n := by
  simp [zeros, List.take_replicate, Nat.min_eq_left h]

theorem zeros_ne_nil {n : Nat} (h : 0 < n) : zeros n ≠ [] := by
  intro hh
  have := congrArg List.length hh
  simp at this
  omega

theorem writeZerosLoop_spec {env : Env} (hb : 0 < env.bs) (bufSize : Nat) (hbuf : 0 < bufSize) :
    ∀ (fuel : Nat) (s : State) (count : Nat), count ≤ fuel →
      (env.isBlock = true → s.data.length % env.bs = 0) →
      match writeZerosLoop env bufSize fuel s count with
      | (.ok (), s') => Stores env s s' (zeros count)
      | (.error e, s') => Failed env s s' count e := by
  intro fuel
  induction fuel with
  | zero =>
    intro s count hc _
    have : count = 0 := by omega
    subst this
    simp only [writeZerosLoop, if_true]
    exact ⟨by simp [zeros], by simp, Nat.le_refl _, by omega, fun _ => rfl, id⟩
  | succ fuel ih =>
    intro s count hc hinv
    unfold writeZerosLoop
    by_cases h0 : count = 0
    · rw [if_pos h0]; subst h0
      exact ⟨by simp [zeros], by simp, Nat.le_refl _, by omega, fun _ => rfl, id⟩
    · rw [if_neg h0]
      have hm : 0 < min count bufSize := by omega
      cases hw : write env s 0 (zeros (min count bufSize)) with
      | mk r s1 =>
        cases r with
        | error e =>
          simp only [andThen]
          obtain ⟨w1, w2, w3⟩ := write_err hb (zeros_ne_nil hm) (by simp) hw
          refine ⟨w2, ?_, fun i _ => by rw [w1.data], w1.kept⟩
          rcases w3 with h | h
          · exact .inl h
          · right; rw [zeros_length] at h; exact ⟨h.1, by omega⟩
        | ok n =>
          simp only [andThen]
          obtain ⟨w1, w2, w3⟩ := write_ok hb hinv (zeros_ne_nil hm) hw
          rw [zeros_length] at w2
          rw [stores_take_zeros _ _ w2] at w3
          obtain ⟨c1, c2, c3, c4, c5, c6⟩ := w3
          rw [zeros_length] at c2 c4
          have := ih s1 (count - n) (by omega) (by intro hk; rw [c5 hk]; exact hinv hk)
          split at this
          next s2 heq =>
            obtain ⟨d1, d2, d3, d4, d5, d6⟩ := this
            rw [zeros_length] at d2 d4
            refine ⟨?_, by rw [zeros_length]; omega, by omega, ?_, fun hk => by rw [d5 hk, c5 hk], fun hf => d6 (c6 hf)⟩
            · rw [d1, c1, c2]
              have := store_append (byteAt s.data) s.pos (zeros n) (zeros (count - n))
              rw [zeros_length, zeros_append] at this
              rw [this]
              congr 2; omega
            · rw [zeros_length]
              have h1 : s1.pos + (count - n) = s.pos + count := by omega
              rw [h1] at d4
              have := blockEnd_mono env.bs (s.pos + n) (s.pos + count) (by omega)
              omega
          next e s2 heq =>
            obtain ⟨x1, x2, x3, x4⟩ := this
            refine ⟨x1, ?_, fun i hi => ?_, Kept.trans ⟨c5, c3, c6⟩ x4⟩
            · rcases x2 with h | h
              · left; intro hf; exact h (c6 hf)
              · right; rw [c5 h.1] at h; exact ⟨h.1, by omega⟩
            · rw [x3 i (fun h => hi (h.mono (by omega) (by omega))), c1, store_outside]
              intro h
              rw [zeros_length] at h
              exact hi (InRange.of_range h.1 (by omega))

theorem writeZeros_spec {env : Env} (hb : 0 < env.bs) (s : State) (count : Nat) (hc : 0 < count)
    (hinv : env.isBlock = true → s.data.length % env.bs = 0) :
    match writeZeros env s count with
    | (.ok (), s') => Stores env s s' (zeros count)
    | (.error e, s') => Failed env s s' count e :=
  writeZerosLoop_spec hb _ (by have : 0 < mib := by decide
                               omega) _ s count (Nat.le_refl _) hinv

theorem byteAt_punched (f : Bytes) (off n : Nat) : byteAt (punched f off n) = store (byteAt f) off (zeros n) := by
  have hout : store (byteAt f) off (zeros n) = store (byteAt f) off (zeros (min n (f.length - off))) := by
    funext i
    simp only [store, zeros_length]
    by_cases h2 : off ≤ i ∧ i < off + n
    · rw [if_pos h2]
      by_cases h1 : off ≤ i ∧ i < off + min n (f.length - off)
      · rw [if_pos h1, byteAt_zeros, byteAt_zeros]
      · rw [if_neg h1, byteAt_zeros, byteAt_beyond f _ (by omega)]
    · rw [if_neg h2, if_neg (by omega)]
  rw [hout, punched]
  by_cases h : off ≤ f.length
  · by_cases hn : n ≤ f.length - off
    · rw [Nat.min_eq_left hn]
      have := byteAt_splice f off (zeros n) (by simp; omega)
      rwa [zeros_length] at this
    · rw [Nat.min_eq_right (by omega), List.drop_of_length_le (by omega), List.append_nil]
      have := byteAt_splice f off (zeros (f.length - off)) (by simp; omega)
      rw [zeros_length, List.drop_of_length_le (by omega), List.append_nil] at this
      exact this
  · rw [List.take_of_length_le (by omega), List.drop_of_length_le (by omega), show min n (f.length - off) = 0 by omega]
    simp [zeros]

theorem length_punched (f : Bytes) (off n : Nat) : (punched f off n).length = f.length := by
  simp only [punched, List.length_append, List.length_take, zeros_length, List.length_drop]
  omega

theorem fallocate_true {mode : FallocMode} {off n : Nat} {s s' : State} (h : fallocate mode off n s = (.ok true, s')) :
    s'.pos = s.pos ∧ (s.faults = [] → s'.faults = []) ∧
    match mode with
    | .zeroRange => byteAt s'.data = store (byteAt s.data) off (zeros n) ∧ s'.data.length = max s.data.length (off + n)
    | .punchHole => byteAt s'.data = store (byteAt s.data) off (zeros n) ∧ s'.data.length = s.data.length
    | .allocate => byteAt s'.data = byteAt s.data ∧ s'.data.length = max s.data.length (off + n) := by
  unfold fallocate at h
  cases hs : fallocateSys mode off n s with
  | mk r s1 =>
    rw [hs] at h
    cases r with
    | error e => simp only at h; split at h <;> cases h
    | ok _ =>
      simp only at h
      cases h
      rcases sys_cases hs with ⟨e, fs, _, h2, _⟩ | ⟨fs, hfs, h⟩
      · cases h2
      · cases mode <;> simp only at h <;> cases h
        · exact ⟨rfl, hfs, byteAt_writeAt _ _ _, by rw [length_writeAt, zeros_length]⟩
        · exact ⟨rfl, hfs, byteAt_punched _ _ _, length_punched _ _ _⟩
        · exact ⟨rfl, hfs, byteAt_append_zeros _ _, by simp; omega⟩

theorem fallocate_false {mode : FallocMode} {off n : Nat} {s s' : State} (h : fallocate mode off n s = (.ok false, s')) :
    s'.pos = s.pos ∧ Same s s' := by
  unfold fallocate at h
  cases hs : fallocateSys mode off n s with
  | mk r s1 =>
    rw [hs] at h
    cases r with
    | ok _ => simp only at h; cases h
    | error e =>
      simp only at h
      split at h
      · cases h
        rcases sys_cases hs with ⟨e', fs, h1, h2, h3⟩ | ⟨fs, hfs, h⟩
        · subst h3; exact ⟨rfl, ⟨rfl, rfl, by simp [h1]⟩⟩
        · cases mode <;> simp only at h <;> cases h
      · cases h

theorem fallocate_err {mode : FallocMode} {off n : Nat} {s s' : State} {e : Err}
    (h : fallocate mode off n s = (.error e, s')) : Same s s' ∧ External e ∧ s.faults ≠ [] := by
  unfold fallocate at h
  cases hs : fallocateSys mode off n s with
  | mk r s1 =>
    rw [hs] at h
    cases r with
    | ok _ => simp only at h; cases h
    | error e =>
      simp only at h
      split at h
      · cases h
      · cases h
        rcases sys_cases hs with ⟨e', fs, h1, h2, h3⟩ | ⟨fs, hfs, h⟩
        · cases h2; subst h3; exact ⟨⟨rfl, rfl, by simp [h1]⟩, trivial, by simp [h1]⟩
        · cases mode <;> simp only at h <;> cases h

/-- `s1` is a state in the middle of zeroing `count` bytes at the position of `s`. -/
structure Mid (s s1 : State) (count : Nat) : Prop where
  pos : s1.pos = s.pos
  outside : ∀ i, ¬ (s.pos ≤ i ∧ i < s.pos + count) → byteAt s1.data i = byteAt s.data i
  ge : s.data.length ≤ s1.data.length
  le : s1.data.length ≤ max s.data.length (s.pos + count)
  faults : s.faults = [] → s1.faults = []

theorem Mid.refl (s : State) (count : Nat) : Mid s s count := ⟨rfl, fun _ _ => rfl, Nat.le_refl _, by omega, id⟩

theorem Mid.same {s s1 s2 : State} {count : Nat} (h : Mid s s1 count) (h2 : Same s1 s2) (hp : s2.pos = s1.pos) :
    Mid s s2 count :=
  ⟨by rw [hp, h.pos], fun i hi => by rw [h2.data]; exact h.outside i hi, by rw [h2.data]; exact h.ge,
    by rw [h2.data]; exact h.le, fun hf => h2.faults (h.faults hf)⟩

theorem store_of_outside {c c1 : Nat → Byte} {p n : Nat} {d : Bytes} (hd : d.length = n)
    (h : ∀ i, ¬ (p ≤ i ∧ i < p + n) → c1 i = c i) : store c1 p d = store c p d := by
  funext i
  simp only [store, hd]
  by_cases hi : p ≤ i ∧ i < p + n
  · rw [if_pos hi, if_pos hi]
  · rw [if_neg hi, if_neg hi]; exact h i hi

theorem Mid.failed {env : Env} {s s1 s2 : State} {count : Nat} {e : Err} (hb : 0 < env.bs) (h : Mid s s1 count)
    (hblk : env.isBlock = false) (hf : Failed env s1 s2 count e) : Failed env s s2 count e := by
  obtain ⟨x1, x2, x3, x4⟩ := hf
  refine ⟨x1, ?_, fun i hi => ?_, Kept.trans ⟨by rw [hblk]; simp, h.ge, h.faults⟩ x4⟩
  · rcases x2 with h' | h'
    · left; intro hf; exact h' (h.faults hf)
    · rw [hblk] at h'; simp at h'
  · rw [x3 i (by rw [h.pos]; exact hi), h.outside i]
    exact fun h' => hi (InRange.of_range h'.1 h'.2)

theorem Mid.stores {env : Env} {s s1 s2 : State} {count : Nat} (h : Mid s s1 count) (hb : 0 < env.bs)
    (hblk : env.isBlock = false) (hf : Stores env s1 s2 (zeros count)) : Stores env s s2 (zeros count) := by
  obtain ⟨x1, x2, x3, x4, x5, x6⟩ := hf
  refine ⟨?_, by rw [x2, h.pos], Nat.le_trans h.ge x3, ?_, by rw [hblk]; simp, fun hf => x6 (h.faults hf)⟩
  · rw [x1, h.pos]; exact store_of_outside (zeros_length _) h.outside
  · rw [h.pos] at x4
    have h1 := h.le
    have := le_blockEnd env.bs (s.pos + (zeros count).length) hb
    rw [zeros_length] at *
    omega

/-- Result of zeroing exactly `count` bytes at the position of `s`. -/
def ZPost (env : Env) (s s' : State) (count : Nat) (r : Except Err Nat) : Prop :=
  match r with
  | .ok n => n = count ∧ Stores env s s' (zeros count)
  | .error e => Failed env s s' count e

/-- Result of zeroing at most `c` bytes at the position of `s`. -/
def ZPost1 (env : Env) (s s' : State) (c : Nat) (r : Except Err Nat) : Prop :=
  match r with
  | .ok n => 0 < n ∧ n ≤ c ∧ Stores env s s' (zeros n)
  | .error e => Failed env s s' c e

/-- The end of zeroing by writing zeros. -/
theorem zero_manual {env : Env} {s s1 : State} {count : Nat} (hb : 0 < env.bs) (hblk : env.isBlock = false)
    (hc : 0 < count) (h : Mid s s1 count) {r : Except Err Nat} {s' : State}
    (hr : andThen (writeZeros env s1 count) (fun _ s => (.ok count, s)) = (r, s')) :
    ZPost env s s' count r := by
  have hz := writeZeros_spec hb s1 count hc (by rw [hblk]; simp)
  cases hw : writeZeros env s1 count with
  | mk r1 s2 =>
    rw [hw] at hz hr
    cases r1 with
    | error e => simp only [andThen] at hr hz; cases hr; exact h.failed hb hblk hz
    | ok _ => simp only [andThen] at hr hz; cases hr; exact ⟨rfl, h.stores hb hblk hz⟩

/-- The end of zeroing when the content is already right. -/
theorem zero_done {env : Env} {s s2 : State} {count : Nat} (hb : 0 < env.bs) (hblk : env.isBlock = false)
    (hc : byteAt s2.data = store (byteAt s.data) s.pos (zeros count)) (hge : s.data.length ≤ s2.data.length)
    (hle : s2.data.length ≤ max s.data.length (s.pos + count)) (hf : s.faults = [] → s2.faults = []) :
    Stores env s { s2 with pos := s.pos + count } (zeros count) := by
  refine ⟨hc, by simp, hge, ?_, by rw [hblk]; simp, hf⟩
  have := le_blockEnd env.bs (s.pos + (zeros count).length) hb
  rw [zeros_length] at *
  simp only
  omega

theorem zeroTail_spec {env : Env} {s s1 : State} {count : Nat} (hb : 0 < env.bs) (hblk : env.isBlock = false)
    (hc : 0 < count) (h : Mid s s1 count) {r : Except Err Nat} {s' : State}
    (hr : zeroTail env s1 s.pos count = (r, s')) :
    ZPost env s s' count r := by
  unfold zeroTail at hr
  split at hr
  · rename_i hcond
    simp only [Bool.and_eq_true, decide_eq_true_eq] at hcond
    cases hf : fallocate .allocate s.pos count s1 with
    | mk r1 s2 =>
      rw [hf] at hr
      cases r1 with
      | error e =>
        simp only [andThen] at hr; cases hr
        obtain ⟨x1, x2, x3⟩ := fallocate_err hf
        exact h.failed hb hblk ⟨x2, .inl x3, fun i _ => by rw [x1.data], x1.kept⟩
      | ok b =>
        cases b with
        | true =>
          simp only [andThen, if_true, seek] at hr; cases hr
          obtain ⟨x1, x2, x3, x4⟩ := fallocate_true hf
          refine ⟨rfl, zero_done hb hblk ?_ ?_ ?_ (fun hf => x2 (h.faults hf))⟩
          · rw [x3]
            funext i
            by_cases hi : s.pos ≤ i ∧ i < s.pos + count
            · rw [store_inside _ _ _ _ hi.1 (by simpa using hi.2), byteAt_beyond _ _ (by omega)]
              simp [zeros]
            · rw [store_outside _ _ _ _ (by simpa using hi), h.outside i hi]
          · rw [x4]; have := h.ge; omega
          · rw [x4]; have := h.le; omega
        | false =>
          simp only [andThen, Bool.false_eq_true, if_false] at hr
          obtain ⟨x1, x2⟩ := fallocate_false hf
          have hm : Mid s { s2 with canFallocate := false } count :=
            h.same ⟨x2.data, x2.disk, x2.faults⟩ x1
          exact zero_manual hb hblk hc hm hr
  · exact zero_manual hb hblk hc h hr

theorem zeroPunch_spec {env : Env} {s s1 : State} {count : Nat} (hb : 0 < env.bs) (hblk : env.isBlock = false)
    (hc : 0 < count) (h : Mid s s1 count) {r : Except Err Nat} {s' : State}
    (hr : zeroPunch env s1 s.pos count = (r, s')) :
    ZPost env s s' count r := by
  unfold zeroPunch at hr
  split at hr
  · cases hf : fallocate .punchHole s.pos count s1 with
    | mk r1 s2 =>
      rw [hf] at hr
      cases r1 with
      | error e =>
        simp only [andThen] at hr; cases hr
        obtain ⟨x1, x2, x3⟩ := fallocate_err hf
        exact h.failed hb hblk ⟨x2, .inl x3, fun i _ => by rw [x1.data], x1.kept⟩
      | ok b =>
        cases b with
        | false =>
          simp only [andThen, Bool.false_eq_true, if_false] at hr
          obtain ⟨x1, x2⟩ := fallocate_false hf
          have hm : Mid s { s2 with canPunchHole := false } count :=
            h.same ⟨x2.data, x2.disk, x2.faults⟩ x1
          exact zeroTail_spec hb hblk hc hm hr
        | true =>
          simp only [andThen, if_true] at hr
          obtain ⟨x1, x2, x3, x4⟩ := fallocate_true hf
          have hm2 : Mid s s2 count := by
            refine ⟨by rw [x1, h.pos], fun i hi => ?_, by rw [x4]; exact h.ge, by rw [x4]; exact h.le, fun hf => x2 (h.faults hf)⟩
            rw [x3, store_outside _ _ _ _ (by simpa using hi), h.outside i hi]
          have hcont : byteAt s2.data = store (byteAt s.data) s.pos (zeros count) := by
            rw [x3]; exact store_of_outside (zeros_length _) h.outside
          cases hf2 : fallocate .allocate s.pos count s2 with
          | mk r3 s3 =>
            rw [hf2] at hr
            cases r3 with
            | error e =>
              simp only at hr; cases hr
              obtain ⟨y1, y2, y3⟩ := fallocate_err hf2
              exact hm2.failed hb hblk ⟨y2, .inl y3, fun i _ => by rw [y1.data], y1.kept⟩
            | ok b =>
              cases b with
              | true =>
                simp only [if_true, seek] at hr; cases hr
                obtain ⟨y1, y2, y3, y4⟩ := fallocate_true hf2
                refine ⟨rfl, zero_done hb hblk (by rw [y3, hcont]) ?_ ?_ (fun hf => y2 (hm2.faults hf))⟩
                · rw [y4]; have := hm2.ge; omega
                · rw [y4]; have := hm2.le; omega
              | false =>
                simp only [Bool.false_eq_true, if_false] at hr
                obtain ⟨y1, y2⟩ := fallocate_false hf2
                have hm : Mid s { s3 with canFallocate := false } count :=
                  hm2.same ⟨y2.data, y2.disk, y2.faults⟩ y1
                exact zeroTail_spec hb hblk hc hm hr
  · exact zeroTail_spec hb hblk hc h hr

theorem zeroFile_spec {env : Env} {s : State} {count : Nat} (hb : 0 < env.bs) (hblk : env.isBlock = false)
    (hc : 0 < count) {r : Except Err Nat} {s' : State} (hr : zeroFile env s count = (r, s')) :
    ZPost env s s' count r := by
  unfold zeroFile at hr
  simp only at hr
  split at hr
  · cases hf : fallocate .zeroRange s.pos count s with
    | mk r1 s2 =>
      rw [hf] at hr
      cases r1 with
      | error e =>
        simp only [andThen] at hr; cases hr
        obtain ⟨x1, x2, x3⟩ := fallocate_err hf
        exact ⟨x2, .inl x3, fun i _ => by rw [x1.data], x1.kept⟩
      | ok b =>
        cases b with
        | true =>
          simp only [andThen, if_true, seek] at hr; cases hr
          obtain ⟨x1, x2, x3, x4⟩ := fallocate_true hf
          exact ⟨rfl, zero_done hb hblk x3 (by rw [x4]; omega) (by rw [x4]; omega) x2⟩
        | false =>
          simp only [andThen, Bool.false_eq_true, if_false] at hr
          obtain ⟨x1, x2⟩ := fallocate_false hf
          have hm : Mid s { s2 with canZeroRange := false } count :=
            (Mid.refl s count).same ⟨x2.data, x2.disk, x2.faults⟩ x1
          exact zeroPunch_spec hb hblk hc hm hr
  · exact zeroPunch_spec hb hblk hc (Mid.refl s count) hr

theorem punchSparse_spec {env : Env} {s s1 : State} {count : Nat} (hb : 0 < env.bs) (hblk : env.isBlock = false)
    (hc : 0 < count) (h : Mid s s1 count) {r : Except Err Nat} {s' : State}
    (hr : punchSparse env s1 s.pos count = (r, s')) :
    ZPost env s s' count r := by
  unfold punchSparse at hr
  cases hf : fallocate .punchHole s.pos count s1 with
  | mk r1 s2 =>
    rw [hf] at hr
    cases r1 with
    | error e =>
      simp only [andThen] at hr; cases hr
      obtain ⟨x1, x2, x3⟩ := fallocate_err hf
      exact h.failed hb hblk ⟨x2, .inl x3, fun i _ => by rw [x1.data], x1.kept⟩
    | ok b =>
      cases b with
      | false =>
        simp only [andThen, Bool.false_eq_true, if_false] at hr
        obtain ⟨x1, x2⟩ := fallocate_false hf
        have hm : Mid s { s2 with canPunchHole := false } count :=
          h.same ⟨x2.data, x2.disk, x2.faults⟩ x1
        exact zero_manual hb hblk hc hm hr
      | true =>
        simp only [andThen, if_true, seek] at hr; cases hr
        obtain ⟨x1, x2, x3, x4⟩ := fallocate_true hf
        refine ⟨rfl, zero_done hb hblk ?_ (by rw [x4]; exact h.ge) (by rw [x4]; exact h.le) (fun hf => x2 (h.faults hf))⟩
        rw [x3]; exact store_of_outside (zeros_length _) h.outside

theorem zeroSparse_spec {env : Env} {s : State} {count : Nat} (hb : 0 < env.bs) (hblk : env.isBlock = false)
    (hc : 0 < count) {r : Except Err Nat} {s' : State} (hr : zeroSparse env s count = (r, s')) :
    ZPost env s s' count r := by
  unfold zeroSparse at hr
  split at hr
  · simp only at hr
    split at hr
    · rename_i hlt
      cases ht : truncate (s.pos + count) s with
      | mk r1 s1 =>
        rw [ht] at hr
        rcases sys_cases ht with ⟨e, fs, h1, h2, h3⟩ | ⟨fs, hfs, h⟩
        · subst h2 h3
          simp only [andThen] at hr; cases hr
          exact ⟨trivial, .inl (by simp [h1]), fun _ _ => rfl, fun _ => rfl, Nat.le_refl _, by simp [h1]⟩
        · simp only at h
          cases h
          have hcont : byteAt (s.data.take (s.pos + count) ++ zeros (s.pos + count - s.data.length)) = byteAt s.data := by
            rw [List.take_of_length_le (by omega)]; exact byteAt_append_zeros _ _
          have hlen : (s.data.take (s.pos + count) ++ zeros (s.pos + count - s.data.length)).length = s.pos + count := by
            simp; omega
          simp only [andThen] at hr
          have hm : Mid s { s with data := s.data.take (s.pos + count) ++ zeros (s.pos + count - s.data.length), faults := fs } count :=
            ⟨rfl, fun i _ => by simp only; rw [hcont], by simp only; omega, by simp only; omega, hfs⟩
          split at hr
          · rename_i heq
            simp only [seek] at hr
            cases hr
            refine ⟨rfl, zero_done hb hblk ?_ hm.ge hm.le hm.faults⟩
            simp only
            rw [hcont]
            funext i
            by_cases hi : s.pos ≤ i ∧ i < s.pos + count
            · rw [store_inside _ _ _ _ hi.1 (by simpa using hi.2), byteAt_beyond _ _ (by omega)]
              simp [zeros]
            · rw [store_outside _ _ _ _ (by simpa using hi)]
          · exact punchSparse_spec hb hblk hc hm hr
    · exact punchSparse_spec hb hblk hc (Mid.refl s count) hr
  · exact zero_manual hb hblk hc (Mid.refl s count) hr

theorem blkZero_ok {off n : Nat} {s s' : State} (h : blkZero off n s = (.ok (), s')) :
    s'.pos = s.pos ∧ byteAt s'.data = store (byteAt s.data) off (zeros n) ∧ s'.data.length = s.data.length ∧
      (s.faults = [] → s'.faults = []) := by
  rcases sys_cases h with ⟨e, fs, _, h2, _⟩ | ⟨fs, hfs, h⟩
  · cases h2
  · simp only at h
    split at h
    · cases h
    · cases h
      refine ⟨rfl, byteAt_writeAt _ _ _, ?_, hfs⟩
      simp only
      rw [length_writeAt, zeros_length]; omega

theorem blkZero_err {off n : Nat} {s s' : State} {e : Err} (h : blkZero off n s = (.error e, s')) :
    Same s s' ∧ s'.pos = s.pos ∧ External e ∧ (s.faults ≠ [] ∨ s.data.length < off + n) := by
  rcases sys_cases h with ⟨e', fs, h1, h2, h3⟩ | ⟨fs, hfs, h⟩
  · cases h2; subst h3
    exact ⟨⟨rfl, rfl, by simp [h1]⟩, rfl, trivial, .inl (by simp [h1])⟩
  · simp only at h
    split at h
    · rename_i hlt
      cases h
      exact ⟨⟨rfl, rfl, hfs⟩, rfl, trivial, .inr hlt⟩
    · cases h

theorem zeroBlock_spec {env : Env} {s : State} {count : Nat} (hblk : env.isBlock = true)
    {r : Except Err Nat} {s' : State} (hr : zeroBlock s count = (r, s')) :
    ZPost env s s' count r := by
  have fin : ∀ s1 s2 : State, Same s s1 → s1.pos = s.pos → blkZero s.pos count s1 = (.ok (), s2) →
      Stores env s { s2 with pos := s.pos + count } (zeros count) := by
    intro s1 s2 hs hp h
    obtain ⟨x1, x2, x3, x4⟩ := blkZero_ok h
    refine ⟨by simp only; rw [x2, hs.data], by simp, by simp only; rw [x3, hs.data]; exact Nat.le_refl _, ?_, ?_,
      fun hf => x4 (hs.faults hf)⟩
    · simp only; rw [x3, hs.data]; omega
    · intro _; simp only; rw [x3, hs.data]
  have bad : ∀ (s1 s2 : State) (e : Err), Same s s1 → blkZero s.pos count s1 = (.error e, s2) →
      Failed env s s2 count e := by
    intro s1 s2 e hs h
    obtain ⟨x1, x2, x3, x4⟩ := blkZero_err h
    refine ⟨x3, ?_, fun i _ => by rw [x1.data, hs.data], hs.kept.trans x1.kept⟩
    rcases x4 with h | h
    · left; exact fun hf => h (hs.faults hf)
    · right; rw [hs.data] at h; exact ⟨hblk, h⟩
  have ioctl : ∀ s1 : State, Same s s1 → s1.pos = s.pos →
      andThen (blkZero s.pos count s1) (fun _ s2 => andThen (seek s2 (s.pos + count)) fun _ s3 => (.ok count, s3)) = (r, s') →
      ZPost env s s' count r := by
    intro s1 hs hp h
    cases hz : blkZero s.pos count s1 with
    | mk r1 s2 =>
      rw [hz] at h
      cases r1 with
      | error e => simp only [andThen] at h; cases h; exact bad _ _ _ hs hz
      | ok _ => simp only [andThen, seek] at h; cases h; exact ⟨rfl, fin _ _ hs hp hz⟩
  unfold zeroBlock at hr
  simp only at hr
  split at hr
  · cases hz : blkZero s.pos count s with
    | mk r1 s1 =>
      rw [hz] at hr
      cases r1 with
      | ok _ => simp only [andThen, seek] at hr; cases hr; exact ⟨rfl, fin _ _ (Same.refl s) rfl hz⟩
      | error e =>
        simp only at hr
        split at hr
        · obtain ⟨x1, x2, x3, x4⟩ := blkZero_err hz
          exact ioctl { s1 with canFallocate := false } ⟨x1.data, x1.disk, x1.faults⟩ x2 hr
        · cases hr; exact bad _ _ _ (Same.refl s) hz
  · exact ioctl s (Same.refl s) rfl hr

theorem zero_spec {env : Env} {s : State} {c : Nat} (hb : 0 < env.bs)
    (hinv : env.isBlock = true → s.data.length % env.bs = 0) (hc : 0 < c)
    {r : Except Err Nat} {s' : State} (hr : zero env s c = (r, s')) :
    ZPost1 env s s' c r := by
  have hml := Nat.mod_lt s.pos hb
  have hmle := Nat.mod_le s.pos env.bs
  unfold zero at hr
  simp only at hr
  split at hr
  · generalize hcc : min c (env.bs - s.pos % env.bs) = cc at hr
    have hcc0 : 0 < cc := by omega
    cases r with
    | ok n =>
      have hne := zeros_ne_nil hcc0
      obtain ⟨h1, h2, _, h4, h5, h6, h7⟩ := writeUnaligned_ok hb hinv hne hr
      rw [zeros_length] at h1
      rw [stores_take_zeros _ _ (by omega)] at h4
      refine ⟨by omega, by omega, ⟨h4, by rw [zeros_length]; exact h2, by omega, ?_, h6, h7⟩⟩
      rw [zeros_length, h5]
      have hdm := Nat.div_add_mod s.pos env.bs
      have := blockEnd_inside hb (pos := s.pos) (n := n) (by omega) (by omega)
      omega
    | error e =>
      obtain ⟨h1, h2, h3⟩ := writeUnaligned_err hb hr
      refine ⟨h2, ?_, fun i _ => by rw [h1.data], h1.kept⟩
      rcases h3 with h | h
      · exact .inl h
      · exact .inr ⟨h.1, by omega⟩
  · rename_i hfast
    have hge : env.bs ≤ c := by
      simp only [Bool.or_eq_true, decide_eq_true_eq] at hfast
      omega
    have hrd : 0 < roundDown c env.bs ∧ roundDown c env.bs ≤ c := by
      have := Nat.mod_lt c hb
      rw [roundDown]; omega
    have key : ZPost env s s' (roundDown c env.bs) r := by
      split at hr
      · rename_i hblk; exact zeroBlock_spec hblk hr
      · rename_i hblk
        have hblk' : env.isBlock = false := by simpa using hblk
        split at hr
        · exact zeroSparse_spec hb hblk' hrd.1 hr
        · exact zeroFile_spec hb hblk' hrd.1 hr
    cases r with
    | ok n =>
      obtain ⟨k1, k2⟩ := key
      subst k1
      exact ⟨hrd.1, hrd.2, k2⟩
    | error e =>
      obtain ⟨x1, x2, x3, x4⟩ := key
      refine ⟨x1, ?_, fun i hi => x3 i (fun h => hi (h.mono (Nat.le_refl _) (by omega))), x4⟩
      rcases x2 with h | h
      · exact .inl h
      · exact .inr ⟨h.1, by omega⟩

/-- The file and block backends meet the contract of the operations.  `strict` selects
the executions without storage faults; then calls can fail only for a block device, when
they use bytes after its end `cap`. -/
def lawful (env : Env) (hb : 0 < env.bs) (strict : Prop) (cap : Nat) (hcap : cap % env.bs = 0) :
    Lawful (backend env) where
  Inv s := (env.isBlock = true → s.data.length = cap) ∧ (strict → s.faults = [])
  content s := byteAt s.data
  durable s := byteAt s.disk
  mayFail k := ¬ strict ∨ (env.isBlock = true ∧ cap < k)
  block_pos := hb
  seek := by
    intro s n r s' hi h
    simp only [backend, seek] at h
    cases h
    exact ⟨rfl, hi, rfl, rfl, rfl, rfl⟩
  readinto := by
    intro s n d s' hi h1 h2 h
    obtain ⟨r1, r2, r3, r4, r5, r6, r7⟩ := fioReadinto_ok hb h
    refine ⟨⟨fun hk => by rw [r1.data]; exact hi.1 hk, fun hs => r1.faults (hi.2 hs)⟩, by rw [r1.data], by rw [r1.disk],
      by simp only [backend]; rw [r1.data], by omega, r4, r5, by simp only [backend]; omega, ?_, ?_⟩
    · intro hnil
      subst hnil
      simp only [List.length_nil] at r6 r7
      simp only [backend]
      omega
    · simp only [backend] at h2 ⊢
      rcases r7 with h | h
      · by_cases hle : n ≤ s.data.length - s.pos
        · left; rw [h, Nat.min_eq_left hle]; exact h2
        · right; omega
      · exact .inl h.1
  readinto_err := by
    intro s n e s' hi h1 h2 h
    obtain ⟨r1, r2, r3⟩ := fioReadinto_err h
    refine ⟨r2, ?_, ⟨fun hk => by rw [r1.data]; exact hi.1 hk, fun hs => r1.faults (hi.2 hs)⟩, by rw [r1.data], by rw [r1.disk], by simp only [backend]; rw [r1.data]⟩
    left
    intro hs
    rcases r3 with h | h | h
    · exact h (hi.2 hs)
    · exact h h1
    · exact h h2
  write := by
    intro s a d n s' hi hd hp h
    have hinv : env.isBlock = true → s.data.length % env.bs = 0 := fun hk => by rw [hi.1 hk]; exact hcap
    obtain ⟨w1, w2, w3⟩ := write_ok hb hinv hd h
    have hl : (d.take n).length = n := by rw [List.length_take]; omega
    obtain ⟨c1, c2, c3, c4, c5, c6⟩ := w3
    rw [hl] at c2 c4
    exact ⟨⟨fun hk => by rw [c5 hk]; exact hi.1 hk, fun hs => c6 (hi.2 hs)⟩, w1, w2, c2, c1, c3, c4⟩
  write_err := by
    intro s a d e s' hi hd hp h
    obtain ⟨w1, w2, w3⟩ := write_err hb hd hp h
    refine ⟨w2, ?_, ⟨fun hk => by rw [w1.data]; exact hi.1 hk, fun hs => w1.faults (hi.2 hs)⟩,
      fun i _ => by rw [w1.data], by simp only [backend]; rw [w1.data]; exact Nat.le_refl _⟩
    rcases w3 with h | h
    · exact .inl (fun hs => h (hi.2 hs))
    · rw [hi.1 h.1] at h; exact .inr h
  zero := by
    intro s c n s' hi hc h
    have hinv : env.isBlock = true → s.data.length % env.bs = 0 := fun hk => by rw [hi.1 hk]; exact hcap
    obtain ⟨w1, w2, c1, c2, c3, c4, c5, c6⟩ := zero_spec hb hinv hc h
    rw [zeros_length] at c2 c4
    exact ⟨⟨fun hk => by rw [c5 hk]; exact hi.1 hk, fun hs => c6 (hi.2 hs)⟩, w1, w2, c2, c1, c3, c4⟩
  zero_err := by
    intro s c e s' hi hc h
    have hinv : env.isBlock = true → s.data.length % env.bs = 0 := fun hk => by rw [hi.1 hk]; exact hcap
    obtain ⟨x1, x2, x3, x4⟩ := zero_spec hb hinv hc h
    refine ⟨x1, ?_, ⟨fun hk => by rw [x4.block hk]; exact hi.1 hk, fun hs => x4.faults (hi.2 hs)⟩, x3, x4.ge⟩
    rcases x2 with h | h
    · exact .inl (fun hs => h (hi.2 hs))
    · rw [hi.1 h.1] at h; exact .inr h
  flush := by
    intro s s' hi h
    simp only [backend, flush] at h
    rcases sys_cases h with ⟨e, fs, _, h2, _⟩ | ⟨fs, hfs, h⟩
    · cases h2
    · simp only at h
      cases h
      exact ⟨⟨hi.1, fun hs => hfs (hi.2 hs)⟩, rfl, rfl, rfl, rfl⟩
  flush_err := by
    intro s e s' hi h
    simp only [backend, flush] at h
    rcases sys_cases h with ⟨e, fs, h1, h2, h3⟩ | ⟨fs, hfs, h⟩
    · cases h2; subst h3
      exact ⟨trivial, .inl (fun hs => by have := hi.2 hs; simp [h1] at this), ⟨hi.1, fun hs => by
        have := hi.2 hs; simp [h1] at this⟩, rfl, rfl⟩
    · simp only at h
      cases h

end Imageio.File
