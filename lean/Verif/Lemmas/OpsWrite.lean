import Verif.Lemmas.Disk
import Verif.Model.Ops
namespace Imageio.Ops
open Imageio.Spec

theorem fill_ok {τ : Type} {S : Source τ} (R : LawfulSource S) :
    ∀ (want : Nat) (t : τ) (d : Bytes) (t' : τ), R.Inv t → fill S want t = (.ok d, t') →
      d.length ≤ want ∧ R.rest t = d ++ R.rest t' ∧ (d.length < want → R.rest t' = []) ∧ R.Inv t' := by
  intro want
  induction want using Nat.strongRecOn with
  | ind want ih =>
    intro t d t' hi h
    unfold fill at h
    by_cases hw : want = 0
    · rw [if_pos hw] at h
      cases h
      simp [hw, hi]
    · rw [if_neg hw] at h
      cases hr : S.readinto t want with
      | mk r t1 =>
        rw [hr] at h
        cases r with
        | error e => cases h
        | ok d1 =>
          obtain ⟨a1, a2, a3, a4⟩ := R.readinto _ _ _ _ hi hr
          simp only at h
          by_cases hd : d1.length = 0
          · rw [if_pos hd] at h
            cases h
            have hd' : d1 = [] := List.length_eq_zero_iff.mp hd
            have := a3 (by omega) hd'
            subst hd'
            simp only [List.nil_append] at a2
            refine ⟨by simp, by simp [a2], fun _ => by rw [← a2]; exact this, a4⟩
          · rw [if_neg hd] at h
            cases hf : fill S (want - d1.length) t1 with
            | mk r2 t2 =>
              rw [hf] at h
              cases r2 with
              | error e => cases h
              | ok d2 =>
                simp only at h
                cases h
                obtain ⟨b1, b2, b3, b4⟩ := ih _ (by omega) _ _ _ a4 hf
                refine ⟨by rw [List.length_append]; omega, by rw [a2, b2, List.append_assoc], ?_, b4⟩
                intro hl
                rw [List.length_append] at hl
                exact b3 (by omega)

theorem fill_err {τ : Type} {S : Source τ} (R : LawfulSource S) :
    ∀ (want : Nat) (t : τ) (e : Err) (t' : τ), R.Inv t → fill S want t = (.error e, t') → External e ∧ R.mayFail := by
  intro want
  induction want using Nat.strongRecOn with
  | ind want ih =>
    intro t e t' hi h
    unfold fill at h
    by_cases hw : want = 0
    · rw [if_pos hw] at h; cases h
    · rw [if_neg hw] at h
      cases hr : S.readinto t want with
      | mk r t1 =>
        rw [hr] at h
        cases r with
        | error e => cases h; exact R.readinto_err _ _ _ _ hi hr
        | ok d1 =>
          simp only at h
          by_cases hd : d1.length = 0
          · rw [if_pos hd] at h; cases h
          · rw [if_neg hd] at h
            cases hf : fill S (want - d1.length) t1 with
            | mk r2 t2 =>
              rw [hf] at h
              cases r2 with
              | error e => cases h; exact ih _ (by omega) _ _ _ (R.readinto _ _ _ _ hi hr).2.2.2 hf
              | ok d2 => cases h

theorem blockEnd_mono (bs a b : Nat) (h : a ≤ b) : (a + bs - 1) / bs * bs ≤ (b + bs - 1) / bs * bs :=
  Nat.mul_le_mul_right _ (Nat.div_le_div_right (by omega))

theorem blockStart_mono (bs a b : Nat) (h : a ≤ b) : a / bs * bs ≤ b / bs * bs :=
  Nat.mul_le_mul_right _ (Nat.div_le_div_right h)

theorem le_blockEnd (bs a : Nat) (h : 0 < bs) : a ≤ (a + bs - 1) / bs * bs := by
  have := Nat.div_add_mod (a + bs - 1) bs
  have hm := Nat.mod_lt (a + bs - 1) h
  rw [Nat.mul_comm] at this
  omega

theorem _root_.Imageio.Spec.InRange.mono {o n o' n' i : Nat} (h : InRange o' n' i) (h1 : o ≤ o') (h2 : o' + n' ≤ o + n) :
    InRange o n i :=
  ⟨Nat.le_trans h1 h.1, Nat.lt_of_lt_of_le h.2 h2⟩

theorem _root_.Imageio.Spec.InRange.of_range {o n i : Nat} (h1 : o ≤ i) (h2 : i < o + n) : InRange o n i :=
  ⟨h1, h2⟩

theorem _root_.Imageio.Spec.Damaged.mono {σ : Type} {Inv : σ → Prop} {content : σ → Nat → Byte} {sz : σ → Nat}
    {o n o' n' : Nat} {s s' : σ} (h : Damaged Inv content sz o' n' s s') (h1 : o ≤ o') (h2 : o' + n' ≤ o + n) :
    Damaged Inv content sz o n s s' :=
  ⟨h.inv, fun i hi => h.outside i fun hr => hi (hr.mono h1 h2), h.size_ge⟩

/-- A failure after data were stored. -/
theorem _root_.Imageio.Spec.Damaged.after {σ : Type} {Inv : σ → Prop} {content : σ → Nat → Byte} {sz : σ → Nat}
    {o n p : Nat} {d : Bytes} {s s1 s2 : σ} (h : Damaged Inv content sz o n s1 s2)
    (hc : content s1 = store (content s) p d) (h1 : o ≤ p) (h2 : p + d.length ≤ o + n) (hs : sz s ≤ sz s1) :
    Damaged Inv content sz o n s s2 :=
  ⟨h.inv, fun i hi => by
    rw [h.outside i hi, hc, store_outside]
    exact fun hr => hi ⟨Nat.le_trans h1 hr.1, Nat.lt_of_lt_of_le hr.2 h2⟩, Nat.le_trans hs h.size_ge⟩

theorem _root_.Imageio.Spec.Damaged.refl {σ : Type} {Inv : σ → Prop} {content : σ → Nat → Byte} {sz : σ → Nat}
    {o n : Nat} {s : σ} (h : Inv s) : Damaged Inv content sz o n s s :=
  ⟨h, fun _ _ => rfl, Nat.le_refl _⟩

/-- What a successful write of `data` does to the backend. -/
def Stored {σ : Type} {B : Backend σ} (L : Lawful B) (s s' : σ) (data : Bytes) : Prop :=
  L.Inv s' ∧ B.tell s' = B.tell s + data.length ∧
    L.content s' = store (L.content s) (B.tell s) data ∧ B.size s ≤ B.size s' ∧
    B.size s' ≤ max (B.size s) ((B.tell s + data.length + B.blockSize - 1) / B.blockSize * B.blockSize)

theorem Stored.refl {σ : Type} {B : Backend σ} (L : Lawful B) (s : σ) (h : L.Inv s) : Stored L s s [] :=
  ⟨h, rfl, by simp, Nat.le_refl _, by omega⟩

theorem Stored.append {σ : Type} {B : Backend σ} {L : Lawful B} {s s1 s2 : σ} {a b : Bytes}
    (h1 : Stored L s s1 a) (h2 : Stored L s1 s2 b) : Stored L s s2 (a ++ b) := by
  obtain ⟨_, a2, a3, a4, a5⟩ := h1
  obtain ⟨b1, b2, b3, b4, b5⟩ := h2
  refine ⟨b1, by rw [b2, a2, List.length_append]; omega, ?_, by omega, ?_⟩
  · rw [b3, a2, a3, store_append]
  · rw [a2] at b5
    rw [List.length_append]
    have := blockEnd_mono B.blockSize (B.tell s + a.length) (B.tell s + a.length + b.length) (by omega)
    rw [← Nat.add_assoc]
    omega

theorem writeLoop_spec {σ : Type} {B : Backend σ} (L : Lawful B) :
    ∀ (fuel : Nat) (s : σ) (pos : Nat) (data : Bytes), L.Inv s →
      (B.tell s % B.blockSize = pos % B.blockSize ∨ data.length < B.blockSize) → data.length ≤ fuel →
      match writeLoop B fuel s pos data with
      | (.ok (), s') => Stored L s s' data
      | (.error e, s') => External e ∧ L.mayFail (B.tell s + data.length) ∧
          L.Damaged (B.tell s) data.length s s' := by
  intro fuel
  induction fuel with
  | zero =>
    intro s pos data hi _ hl
    have hd : data = [] := List.length_eq_zero_iff.mp (by omega)
    subst hd
    simp only [writeLoop, List.length_nil, if_true]
    exact Stored.refl L s hi
  | succ fuel ih =>
    intro s pos data hi ha hl
    unfold writeLoop
    by_cases h0 : data.length = 0
    · rw [if_pos h0]
      have hd : data = [] := List.length_eq_zero_iff.mp h0
      subst hd
      exact Stored.refl L s hi
    · rw [if_neg h0]
      have hne : data ≠ [] := fun h => h0 (by simp [h])
      have hpre : B.tell s % B.blockSize = 0 → B.blockSize ≤ data.length → pos % B.blockSize = 0 := by
        intro h1 h2; omega
      cases hw : B.write s pos data with
      | mk r s1 =>
        cases r with
        | error e => exact L.write_err _ _ _ _ _ hi hne hpre hw
        | ok n =>
          obtain ⟨c1, c2, c3, c4, c5, c6, c7⟩ := L.write _ _ _ _ _ hi hne hpre hw
          have hs1 : Stored L s s1 (data.take n) := by
            refine ⟨c1, by rw [c4, List.length_take]; omega, c5, c6, ?_⟩
            rw [List.length_take, Nat.min_eq_left c3]; exact c7
          have hdl : (data.drop n).length = data.length - n := List.length_drop ..
          have := ih s1 (pos + n) (data.drop n) c1 (by
            rcases ha with ha | ha
            · left; rw [c4, Nat.add_mod, ha, ← Nat.add_mod]
            · right; omega) (by omega)
          simp only
          split at this
          next s2 heq =>
            have := hs1.append this
            rwa [List.take_append_drop] at this
          next e s2 heq =>
            refine ⟨this.1, by
              have h := this.2.1
              rwa [c4, hdl, Nat.add_assoc, Nat.add_sub_cancel' c3] at h, ?_⟩
            exact (this.2.2.mono (by omega) (by omega)).after c5 (Nat.le_refl _)
              (by rw [List.length_take]; omega) c6

/-- All the ways a step of an upload of `body` (what the source delivers) can end, relative
to the state `s0`, `off` and `size` of the request. -/
structure Progress {σ τ : Type} {B : Backend σ} {S : Source τ} (L : Lawful B) (R : LawfulSource S)
    (s0 : σ) (off : Nat) (body : Bytes) (st : WriteState σ τ) : Prop where
  inv : L.Inv st.dst
  srcInv : R.Inv st.src
  done_le : st.done ≤ body.length
  rest : R.rest st.src = body.drop st.done
  tell : B.tell st.dst = off + st.done
  content : L.content st.dst = store (L.content s0) off (body.take st.done)
  size_ge : B.size s0 ≤ B.size st.dst
  size_le : B.size st.dst ≤ max (B.size s0) ((off + st.done + B.blockSize - 1) / B.blockSize * B.blockSize)

theorem writeChunk_spec {σ τ : Type} {B : Backend σ} {S : Source τ} (L : Lawful B) (R : LawfulSource S)
    (cancel : Nat → Bool) (size count : Nat) (s0 : σ) (off : Nat) (body : Bytes) (st : WriteState σ τ)
    (hp : Progress L R s0 off body st)
    (ha : (off + st.done) % B.blockSize = 0 ∨ count < B.blockSize) :
    match writeChunk B S cancel size count st with
    | (.ok (), st') => Progress L R s0 off body st' ∧ st'.done = st.done + count
    | (.error .canceled, st') => Progress L R s0 off body st' ∧ st'.done = st.done + count ∧ ∃ n, cancel n = true
    | (.error (.partialContent r a), st') => Progress L R s0 off body st' ∧ st'.done = body.length ∧
        body.length < st.done + count ∧ r = size ∧ a = body.length
    | (.error e, st') => External e ∧ (L.MayFail off (st.done + count) ∨ R.mayFail) ∧ st'.done = st.done ∧
        L.Damaged (off + st.done) count st.dst st'.dst := by
  obtain ⟨p1, pi, p2, p3, p4, p5, p6, p7⟩ := hp
  unfold writeChunk
  cases hf : fill S count st.src with
  | mk r t1 =>
    cases r with
    | error e =>
      have := fill_err R _ _ _ _ pi hf
      simp only
      cases e <;> first | exact ⟨this.1, .inr this.2, rfl, .refl p1⟩ | exact False.elim this.1
    | ok data =>
      obtain ⟨f1, f2, f3, f4⟩ := fill_ok R _ _ _ _ pi hf
      have hw := writeLoop_spec L data.length st.dst 0 data p1 (by
        rw [p4]
        rcases ha with h | h
        · left; simp [h]
        · right; omega) (Nat.le_refl _)
      simp only
      cases hl : writeLoop B data.length st.dst 0 data with
      | mk r s1 =>
        rw [hl] at hw
        cases r with
        | error e =>
          simp only at hw ⊢
          have hall : L.Damaged (off + st.done) count st.dst s1 := by
            have := hw.2.2
            rw [p4] at this
            exact this.mono (Nat.le_refl _) (by omega)
          have hx := hw.1
          have hmf : L.MayFail off (st.done + count) ∨ R.mayFail := by
            refine .inl ⟨_, ?_, hw.2.1⟩
            rw [p4]
            exact Nat.le_trans (by omega) (le_blockEnd B.blockSize (off + (st.done + count)) L.block_pos)
          cases e <;> first | exact ⟨hx, hmf, rfl, hall⟩ | exact False.elim hx
        | ok _ =>
          simp only at hw ⊢
          obtain ⟨w1, w2, w3, w4, w5⟩ := hw
          rw [p3] at f2
          have hlen : body.length - st.done = data.length + (R.rest t1).length := by
            have := congrArg List.length f2
            simpa using this
          have htake : body.take (st.done + data.length) = body.take st.done ++ data := by
            rw [List.take_add, f2, List.take_left]
          have hdrop : R.rest t1 = body.drop (st.done + data.length) := by
            rw [← List.drop_drop, f2, List.drop_left]
          have hnew : Progress L R s0 off body
              { dst := s1, src := t1, done := st.done + data.length, chunks := st.chunks + 1 } := by
            refine ⟨w1, f4, ?_, hdrop, ?_, ?_, ?_, ?_⟩
            · simp only; omega
            · simp only; rw [w2, p4]; omega
            · simp only
              rw [w3, p4, p5, htake]
              have : (body.take st.done).length = st.done := by rw [List.length_take]; omega
              conv => lhs; rw [← this]
              rw [this, ← store_append, this]
            · simp only; omega
            · simp only
              rw [p4] at w5
              have := blockEnd_mono B.blockSize (off + st.done) (off + st.done + data.length) (by omega)
              rw [← Nat.add_assoc]
              omega
          by_cases hc : data.length < count
          · rw [if_pos hc]
            have hr := f3 hc
            have hr' := congrArg List.length hr
            simp only [List.length_nil] at hr'
            simp only
            refine ⟨hnew, by omega, by omega, trivial, ?_⟩
            have : st.done + data.length = body.length := by omega
            rw [← this]
          · rw [if_neg hc]
            have : data.length = count := by omega
            by_cases hk : cancel st.chunks = true
            · rw [if_pos hk]; exact ⟨hnew, by simp only; omega, _, hk⟩
            · rw [if_neg hk]; exact ⟨hnew, by simp only; omega⟩

/-- All the ways an upload can end: `r` is the result, `st` the state after it. -/
def WritePost {σ τ : Type} {B : Backend σ} {S : Source τ} (L : Lawful B) (R : LawfulSource S)
    (cancel : Nat → Bool) (s0 : σ) (off size : Nat) (body : Bytes) (r : Except Err Unit) (st : WriteState σ τ) : Prop :=
  match r with
  | .ok () => Progress L R s0 off body st ∧ st.done = size
  | .error .canceled => Progress L R s0 off body st ∧ st.done ≤ size ∧ ∃ n, cancel n = true
  | .error (.partialContent r a) => Progress L R s0 off body st ∧ st.done = body.length ∧
        body.length < size ∧ r = size ∧ a = body.length
  | .error e => External e ∧ (L.MayFail off size ∨ R.mayFail) ∧ st.done ≤ size ∧ st.done ≤ body.length ∧
        L.Damaged off size s0 st.dst

theorem _root_.Imageio.Spec.Lawful.MayFail.mono {σ : Type} {B : Backend σ} {L : Lawful B} {off n m : Nat}
    (h : L.MayFail off n) (hle : n ≤ m) : L.MayFail off m := by
  obtain ⟨k, h1, h2⟩ := h
  exact ⟨k, Nat.le_trans h1 (blockEnd_mono _ _ _ (by omega)), h2⟩

theorem chunk_to_post {σ τ : Type} {B : Backend σ} {S : Source τ} {L : Lawful B} {R : LawfulSource S}
    {cancel : Nat → Bool} {size count : Nat} {s0 : σ} {off : Nat} {body : Bytes} {st st' : WriteState σ τ} {e : Err}
    (hp : Progress L R s0 off body st)
    (ha : (off + st.done) % B.blockSize = 0 ∨ count < B.blockSize) (hle : st.done + count ≤ size)
    (h : writeChunk B S cancel size count st = (.error e, st')) :
    WritePost L R cancel s0 off size body (.error e) st' := by
  have := writeChunk_spec L R cancel size count s0 off body st hp ha
  rw [h] at this
  have ext : (External e ∧ (L.MayFail off (st.done + count) ∨ R.mayFail) ∧ st'.done = st.done ∧
        L.Damaged (off + st.done) count st.dst st'.dst) →
      External e ∧ (L.MayFail off size ∨ R.mayFail) ∧ st'.done ≤ size ∧ st'.done ≤ body.length ∧
        L.Damaged off size s0 st'.dst := by
    rintro ⟨e1, ef, e2, e3⟩
    refine ⟨e1, ef.imp (fun h => h.mono hle) id, by omega, by have := hp.done_le; omega, ?_⟩
    exact (e3.mono (by omega) (by omega)).after hp.content (Nat.le_refl _)
      (by rw [List.length_take]; omega) hp.size_ge
  cases e with
  | partialContent r a => exact ⟨this.1, this.2.1, by have := this.2.2.1; omega, this.2.2.2⟩
  | canceled => exact ⟨this.1, by have := this.2; omega, this.2.2⟩
  | os _ => exact ext this
  | terminated _ => exact ext this
  | exception _ => exact ext this
  | authorization _ => exact ext this
  | stuck => exact ext this

theorem writeChunks_spec {σ τ : Type} {B : Backend σ} {S : Source τ} (L : Lawful B) (R : LawfulSource S)
    (cancel : Nat → Bool) (bufLen size : Nat) (hb : 0 < bufLen) (hbs : bufLen % B.blockSize = 0)
    (s0 : σ) (off : Nat) (body : Bytes) :
    ∀ (fuel : Nat) (st : WriteState σ τ), Progress L R s0 off body st → st.done ≤ size → size - st.done ≤ fuel →
      (st.done = size ∨ (off + st.done) % B.blockSize = 0) →
      WritePost L R cancel s0 off size body (writeChunks B S cancel bufLen size fuel st).1
        (writeChunks B S cancel bufLen size fuel st).2 := by
  intro fuel
  induction fuel with
  | zero =>
    intro st hp hle hf _
    unfold writeChunks
    rw [if_pos (by omega)]
    exact ⟨hp, by simp only; omega⟩
  | succ fuel ih =>
    intro st hp hle hf ha
    unfold writeChunks
    by_cases h0 : size - st.done = 0
    · rw [if_pos h0]
      exact ⟨hp, by simp only; omega⟩
    · rw [if_neg h0]
      have ha' : (off + st.done) % B.blockSize = 0 := by omega
      have hc := writeChunk_spec L R cancel size (min (size - st.done) bufLen) s0 off body st hp (.inl ha')
      cases hw : writeChunk B S cancel size (min (size - st.done) bufLen) st with
      | mk r st' =>
        cases r with
        | error e => exact chunk_to_post hp (.inl ha') (by omega) hw
        | ok _ =>
          rw [hw] at hc
          simp only at hc ⊢
          apply ih st' hc.1 (by omega) (by omega)
          by_cases hm : size - st.done ≤ bufLen
          · left; omega
          · right
            rw [hc.2, Nat.min_eq_right (by omega), ← Nat.add_assoc, Nat.add_mod, ha', hbs]
            simp

theorem seek_progress {σ τ : Type} {B : Backend σ} {S : Source τ} (L : Lawful B) (R : LawfulSource S)
    {s s' : σ} {t : τ} {off : Nat} (h1 : L.Inv s') (h2 : B.tell s' = off) (h3 : L.content s' = L.content s)
    (h4 : B.size s' = B.size s) (h5 : R.Inv t) : Progress L R s off (R.rest t) ⟨s', t, 0, 0⟩ :=
  ⟨h1, h5, Nat.zero_le _, by simp, by simp [h2], by simp [h3], by simp [h4], by simp only [h4]; omega⟩

/-- The whole upload. -/
theorem writeRun_spec {σ τ : Type} {B : Backend σ} {S : Source τ} (L : Lawful B) (R : LawfulSource S)
    (cancel : Nat → Bool) (bufLen size off : Nat) (flush : Bool) (hb : 0 < bufLen) (hbs : bufLen % B.blockSize = 0)
    (s : σ) (t : τ) (hi : L.Inv s) (ht : R.Inv t) (r : Except Err Unit) (st : WriteState σ τ)
    (h : writeRun B S cancel bufLen size off flush s t = (r, st)) :
    WritePost L R cancel s off size (R.rest t) r st ∧
      (r = .ok () → flush = true → L.durable st.dst = L.content st.dst) := by
  unfold writeRun at h
  have hbp := L.block_pos
  cases hs : B.seek s off with
  | mk r0 s' =>
    obtain ⟨k1, k2, k3, k4, k5, k6⟩ := L.seek _ _ _ _ hi hs
    subst k1
    rw [hs] at h
    simp only at h
    have hp0 := seek_progress (t := t) L R k2 k3 k4 k6 ht
    have fin : ∀ st0 : WriteState σ τ, Progress L R s off (R.rest t) st0 → st0.done ≤ size →
        (st0.done = size ∨ (off + st0.done) % B.blockSize = 0) →
        (match writeChunks B S cancel bufLen size size st0 with
          | (.error e, st) => (.error e, st)
          | (.ok (), st) =>
            if flush then
              match B.flush st.dst with
              | (.error e, s') => (.error e, { st with dst := s' })
              | (.ok (), s') => (.ok (), { st with dst := s' })
            else (.ok (), st)) = (r, st) →
        WritePost L R cancel s off size (R.rest t) r st ∧
          (r = .ok () → flush = true → L.durable st.dst = L.content st.dst) := by
      intro st0 hp hle ha hrun
      have hc := writeChunks_spec L R cancel bufLen size hb hbs s off (R.rest t) size st0 hp hle (by omega) ha
      cases hw : writeChunks B S cancel bufLen size size st0 with
      | mk r1 st1 =>
        rw [hw] at hc hrun
        cases r1 with
        | error e =>
          simp only at hrun
          cases hrun
          exact ⟨hc, fun h => by cases h⟩
        | ok _ =>
          simp only at hrun
          obtain ⟨hp1, hd1⟩ := hc
          simp only at hp1 hd1
          by_cases hfl : flush = true
          · rw [if_pos hfl] at hrun
            cases hf : B.flush st1.dst with
            | mk r2 s2 =>
              rw [hf] at hrun
              cases r2 with
              | error e =>
                simp only at hrun
                cases hrun
                obtain ⟨x1, xf, xi, x2, xs⟩ := L.flush_err _ _ _ hp1.inv hf
                refine ⟨?_, fun h => by cases h⟩
                have : External e ∧ (L.MayFail off size ∨ R.mayFail) ∧ st1.done ≤ size ∧ st1.done ≤ (R.rest t).length ∧
                    L.Damaged off size s s2 := by
                  refine ⟨x1, .inl ⟨0, Nat.zero_le _, xf⟩, by omega, hp1.done_le, xi, fun i hi => ?_, ?_⟩
                  · rw [x2, hp1.content, store_outside]
                    intro h
                    rw [List.length_take] at h
                    exact hi (InRange.of_range h.1 (by omega))
                  · rw [xs]; exact hp1.size_ge
                cases e with
                | partialContent r a => exact False.elim x1
                | canceled => exact False.elim x1
                | os _ => exact this
                | terminated _ => exact this
                | exception _ => exact this
                | authorization _ => exact this
                | stuck => exact this
              | ok _ =>
                simp only at hrun
                cases hrun
                obtain ⟨x1, x2, x3, x4, x5⟩ := L.flush _ _ hp1.inv hf
                refine ⟨⟨⟨x1, hp1.srcInv, hp1.done_le, hp1.rest, ?_, ?_, ?_, ?_⟩, hd1⟩, fun _ _ => ?_⟩
                · simp only; rw [x4]; exact hp1.tell
                · simp only; rw [x2]; exact hp1.content
                · simp only; rw [x5]; exact hp1.size_ge
                · simp only; rw [x5]; exact hp1.size_le
                · simp only; rw [x3, x2]
          · rw [if_neg hfl] at hrun
            cases hrun
            exact ⟨⟨hp1, hd1⟩, fun _ h => absurd h hfl⟩
    by_cases hu : off % B.blockSize = 0
    · rw [if_neg (by simp [hu])] at h
      exact fin _ hp0 (Nat.zero_le _) (.inr (by simp [hu])) h
    · rw [if_pos hu] at h
      have hml := Nat.mod_lt off hbp
      have hlt : min size (B.blockSize - off % B.blockSize) < B.blockSize := by omega
      have hc := writeChunk_spec L R cancel size (min size (B.blockSize - off % B.blockSize)) s off _ _ hp0 (.inr hlt)
      cases hw : writeChunk B S cancel size (min size (B.blockSize - off % B.blockSize)) ⟨s', t, 0, 0⟩ with
      | mk r1 st1 =>
        rw [hw] at h hc
        cases r1 with
        | error e =>
          simp only at h
          cases h
          exact ⟨chunk_to_post hp0 (.inr hlt) (by simp only; omega) hw, fun h => by cases h⟩
        | ok _ =>
          simp only at h hc
          obtain ⟨hp1, hd1⟩ := hc
          refine fin st1 hp1 (by omega) ?_ h
          by_cases hm : size ≤ B.blockSize - off % B.blockSize
          · left; omega
          · right
            rw [hd1, Nat.zero_add, Nat.min_eq_right (by omega)]
            have := Nat.div_add_mod off B.blockSize
            have e : off + (B.blockSize - off % B.blockSize) = B.blockSize * (off / B.blockSize + 1) := by
              rw [Nat.mul_add]; omega
            rw [e]
            exact Nat.mul_mod_right _ _

end Imageio.Ops
