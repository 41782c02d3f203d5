import Verif.Model.Directio
import Verif.Lemmas.OpsWrite
import Verif.Lemmas.FileLaws
import Verif.Props.Url
/-!
C82: `directio.Receive`, which vdsm uses to import disks.
-/
namespace Imageio.Props
open Imageio.Ops Imageio.Directio Imageio.Spec Imageio.Url

variable {σ τ : Type} {B : Backend σ} {S : Source τ}

theorem receiveChunk_spec (L : Lawful B) (R : LawfulSource S)
    (cancel : Nat → Bool) (count : Nat) (s0 : σ) (off : Nat) (body : Bytes) (st : WriteState σ τ)
    (hp : Progress L R s0 off body st)
    (ha : (off + st.done) % B.blockSize = 0 ∨ count < B.blockSize) :
    match receiveChunk B S cancel count st with
    | (.ok false, st') => Progress L R s0 off body st' ∧ st'.done = st.done + count
    | (.ok true, st') => Progress L R s0 off body st' ∧ st'.done = body.length
    | (.error .canceled, st') => Progress L R s0 off body st' ∧ st'.done = st.done + count ∧ ∃ n, cancel n = true
    | (.error e, st') => External e ∧ (L.MayFail off body.length ∨ R.mayFail) ∧
        L.Damaged off body.length s0 st'.dst := by
  have hc0 := hp
  obtain ⟨p1, pi, p2, p3, p4, p5, p6, p7⟩ := hp
  have hdam : L.Damaged off body.length s0 st.dst := by
    refine ⟨p1, fun i hi => ?_, p6⟩
    rw [p5, store_outside]
    intro h
    rw [List.length_take] at h
    exact hi ⟨h.1, by omega⟩
  unfold receiveChunk
  cases hf : fill S count st.src with
  | mk r t1 =>
    cases r with
    | error e =>
      have := fill_err R _ _ _ _ pi hf
      simp only
      cases e <;> first | exact ⟨this.1, .inr this.2, hdam⟩ | exact False.elim this.1
    | ok data =>
      obtain ⟨f1, f2, f3, f4⟩ := fill_ok R _ _ _ _ pi hf
      have hw := writeLoop_spec L data.length st.dst 0 data p1 (by
        rw [p4]
        rcases ha with h | h
        · left; simp [h]
        · right; omega) (Nat.le_refl _)
      rw [p3] at f2
      have hlen : body.length - st.done = data.length + (R.rest t1).length := by
        have := congrArg List.length f2
        simpa using this
      simp only
      cases hl : writeLoop B data.length st.dst 0 data with
      | mk r s1 =>
        rw [hl] at hw
        cases r with
        | error e =>
          simp only at hw ⊢
          have hall : L.Damaged off body.length s0 s1 := by
            have := hw.2.2
            rw [p4] at this
            refine (this.mono (o := off) (n := body.length) (by omega) (by omega)).after (p := off) (d := body.take st.done) p5
              (Nat.le_refl _) ?_ p6
            rw [List.length_take]; omega
          have hx := hw.1
          have hmf : L.MayFail off body.length ∨ R.mayFail := by
            refine .inl ⟨_, ?_, hw.2.1⟩
            rw [p4]
            exact Nat.le_trans (by omega) (le_blockEnd B.blockSize (off + body.length) L.block_pos)
          cases e <;> first | exact ⟨hx, hmf, hall⟩ | exact False.elim hx
        | ok _ =>
          simp only at hw ⊢
          obtain ⟨w1, w2, w3, w4, w5⟩ := hw
          have htake : body.take (st.done + data.length) = body.take st.done ++ data := by
            rw [List.take_add, f2, List.take_left]
          have hdrop : R.rest t1 = body.drop (st.done + data.length) := by
            rw [← List.drop_drop, f2, List.drop_left]
          have hnew : Progress L R s0 off body
              { dst := s1, src := t1, done := st.done + data.length, chunks := st.chunks + 1 } := by
            refine ⟨w1, f4, ?_, hdrop, ?_, ?_, ?_, ?_⟩
            · simp only; omega
            · simp only; rw [w2, p4]; omega
            · simp only
              rw [w3, p4, p5, htake]
              have : (body.take st.done).length = st.done := by rw [List.length_take]; omega
              conv => lhs; rw [← this]
              rw [this, ← store_append, this]
            · simp only; omega
            · simp only
              rw [p4] at w5
              have := blockEnd_mono B.blockSize (off + st.done) (off + st.done + data.length) (by omega)
              rw [← Nat.add_assoc]
              omega
          by_cases hc : data.length < count
          · rw [if_pos hc]
            have hr' := congrArg List.length (f3 hc)
            simp only [List.length_nil] at hr'
            simp only
            exact ⟨hnew, by omega⟩
          · rw [if_neg hc]
            have : data.length = count := by omega
            by_cases hk : cancel st.chunks = true
            · rw [if_pos hk]; exact ⟨hnew, by simp only; omega, _, hk⟩
            · rw [if_neg hk]; exact ⟨hnew, by simp only; omega⟩

/-- The outcome of receiving a stream `body` of unknown size: everything is stored at the offset, and nothing else changes; or it
was canceled after a part; or the storage or the stream failed, and only the bytes of the stream may be damaged. -/
def Received (L : Lawful B) (R : LawfulSource S) (cancel : Nat → Bool) (s0 : σ) (off : Nat) (body : Bytes)
    (r : Except Err Unit) (st : WriteState σ τ) : Prop :=
  match r with
  | .ok () => L.Inv st.dst ∧ L.content st.dst = store (L.content s0) off body ∧ st.done = body.length ∧ R.rest st.src = [] ∧
      B.size s0 ≤ B.size st.dst ∧ B.size st.dst ≤ max (B.size s0) ((off + body.length + B.blockSize - 1) / B.blockSize * B.blockSize)
  | .error .canceled => L.Inv st.dst ∧ L.content st.dst = store (L.content s0) off (body.take st.done) ∧ st.done ≤ body.length ∧
      ∃ n, cancel n = true
  | .error e => External e ∧ (L.MayFail off body.length ∨ R.mayFail) ∧ L.Damaged off body.length s0 st.dst

theorem Received.of_progress {L : Lawful B} {R : LawfulSource S} {cancel : Nat → Bool} {s0 : σ} {off : Nat} {body : Bytes}
    {st : WriteState σ τ} (h : Progress L R s0 off body st) (hd : st.done = body.length) :
    Received L R cancel s0 off body (.ok ()) st := by
  refine ⟨h.inv, ?_, hd, ?_, h.size_ge, ?_⟩
  · rw [h.content, hd, List.take_length]
  · rw [h.rest, hd, List.drop_length]
  · rw [← hd]; exact h.size_le

theorem received_error {L : Lawful B} {R : LawfulSource S} {cancel : Nat → Bool} {s0 : σ} {off : Nat} {body : Bytes}
    {count : Nat} {st st' : WriteState σ τ} {e : Err}
    (hp : Progress L R s0 off body st) (ha : (off + st.done) % B.blockSize = 0 ∨ count < B.blockSize)
    (h : receiveChunk B S cancel count st = (.error e, st')) : Received L R cancel s0 off body (.error e) st' := by
  have := receiveChunk_spec L R cancel count s0 off body st hp ha
  rw [h] at this
  cases e with
  | canceled => exact ⟨this.1.inv, this.1.content, this.1.done_le, this.2.2⟩
  | partialContent _ _ => exact this
  | os _ => exact this
  | terminated _ => exact this
  | exception _ => exact this
  | authorization _ => exact this
  | stuck => exact this

theorem receiveChunks_spec (L : Lawful B) (R : LawfulSource S) (cancel : Nat → Bool) (bufLen : Nat)
    (hb : 0 < bufLen) (hbs : bufLen % B.blockSize = 0) (s0 : σ) (off : Nat) (body : Bytes) :
    ∀ (fuel : Nat) (st : WriteState σ τ), Progress L R s0 off body st → body.length - st.done < fuel →
      (off + st.done) % B.blockSize = 0 → ∀ r st', receiveChunks B S cancel bufLen fuel st = (r, st') →
      Received L R cancel s0 off body r st' ∧ (r = .ok () → Progress L R s0 off body st')
  | 0, _, _, hf, _, _, _, _ => absurd hf (Nat.not_lt_zero _)
  | fuel + 1, st, hp, hf, ha, r, st', h => by
    have hc := receiveChunk_spec L R cancel bufLen s0 off body st hp (.inl ha)
    unfold receiveChunks at h
    cases hx : receiveChunk B S cancel bufLen st with
    | mk r1 st1 =>
      rw [hx] at hc h
      cases r1 with
      | error e =>
        simp only [Prod.mk.injEq] at h
        obtain ⟨rfl, rfl⟩ := h
        exact ⟨received_error hp (.inl ha) hx, fun h => by cases h⟩
      | ok b =>
        cases b with
        | true =>
          simp only [Prod.mk.injEq] at h hc
          obtain ⟨rfl, rfl⟩ := h
          exact ⟨.of_progress hc.1 hc.2, fun _ => hc.1⟩
        | false =>
          simp only at h hc
          have hd := hc.1.done_le
          refine receiveChunks_spec L R cancel bufLen hb hbs s0 off body fuel st1 hc.1 (by omega) ?_ r st' h
          rw [hc.2, ← Nat.add_assoc, Nat.add_mod, ha, hbs]; simp

theorem finish_spec (L : Lawful B) (R : LawfulSource S) (cancel : Nat → Bool) (flush : Bool) (s0 : σ) (off : Nat) (body : Bytes)
    (st : WriteState σ τ) (hp : Progress L R s0 off body st) (hd : st.done = body.length) (r : Except Err Unit)
    (st' : WriteState σ τ) (h : finish B flush st = (r, st')) :
    Received L R cancel s0 off body r st' ∧ (r = .ok () → flush = true → L.durable st'.dst = L.content st'.dst) := by
  unfold finish at h
  cases flush with
  | false =>
    simp only [Bool.false_eq_true, if_false, Prod.mk.injEq] at h
    obtain ⟨rfl, rfl⟩ := h
    exact ⟨.of_progress hp hd, fun _ h => by cases h⟩
  | true =>
    simp only [if_true] at h
    cases hf : B.flush st.dst with
    | mk r1 s' =>
      rw [hf] at h
      cases r1 with
      | ok u =>
        simp only [Prod.mk.injEq] at h
        obtain ⟨rfl, rfl⟩ := h
        obtain ⟨h1, h2, h3, -, h5⟩ := L.flush _ _ hp.inv hf
        have h0 := Received.of_progress (cancel := cancel) hp hd
        exact ⟨⟨h1, h2.trans h0.2.1, h0.2.2.1, h0.2.2.2.1, by simp only [h5]; exact h0.2.2.2.2.1, by simp only [h5]; exact h0.2.2.2.2.2⟩, fun _ _ => h3.trans h2.symm⟩
      | error e =>
        simp only [Prod.mk.injEq] at h
        obtain ⟨rfl, rfl⟩ := h
        obtain ⟨h1, h2, h3, h4, h5⟩ := L.flush_err _ _ _ hp.inv hf
        refine ⟨?_, fun h => by cases h⟩
        have hdam : L.Damaged off body.length s0 s' := by
          refine ⟨h3, fun i hi => ?_, by rw [h5]; exact hp.size_ge⟩
          rw [h4, hp.content, store_outside]
          intro h
          rw [List.length_take] at h
          exact hi ⟨h.1, by omega⟩
        have hm : L.MayFail off body.length ∨ R.mayFail := .inl ⟨0, Nat.zero_le _, h2⟩
        cases e <;> first | exact ⟨h1, hm, hdam⟩ | exact False.elim h1

/-- C82: a stream of any length and in any pieces, whose size is not known, is stored completely at the offset, whether the offset is
aligned or not; nothing else is changed, and what was stored is flushed.  It fails only when canceled or when the storage
or the stream fails; it never runs forever on a stream that ends. -/
theorem C82_unknown_size (L : Lawful B) (R : LawfulSource S) (cancel : Nat → Bool) (bufLen off : Nat) (flush : Bool) (fuel : Nat)
    (hb : 0 < bufLen) (hbs : bufLen % B.blockSize = 0) (s : σ) (t : τ) (hi : L.Inv s) (ht : R.Inv t)
    (hfuel : (R.rest t).length < fuel) (r : Except Err Unit) (st : WriteState σ τ)
    (h : receiveRun B S cancel bufLen none off flush fuel s t = (r, st)) :
    Received L R cancel s off (R.rest t) r st ∧ (r = .ok () → flush = true → L.durable st.dst = L.content st.dst) := by
  unfold receiveRun at h
  simp only at h
  have hbp := L.block_pos
  cases hs : B.seek s off with
  | mk r0 s' =>
    obtain ⟨k1, k2, k3, k4, k5, k6⟩ := L.seek _ _ _ _ hi hs
    subst k1
    rw [hs] at h
    simp only at h
    have hp0 := seek_progress (t := t) L R k2 k3 k4 k6 ht
    have fin : ∀ st0 : WriteState σ τ, Progress L R s off (R.rest t) st0 → (off + st0.done) % B.blockSize = 0 →
        (match receiveChunks B S cancel bufLen fuel st0 with
          | (.error e, st) => (.error e, st)
          | (.ok (), st) => finish B flush st) = (r, st) →
        Received L R cancel s off (R.rest t) r st ∧ (r = .ok () → flush = true → L.durable st.dst = L.content st.dst) := by
      intro st0 hp ha hrun
      cases hw : receiveChunks B S cancel bufLen fuel st0 with
      | mk r1 st1 =>
        have hc := receiveChunks_spec L R cancel bufLen hb hbs s off (R.rest t) fuel st0 hp (by omega) ha r1 st1 hw
        rw [hw] at hrun
        cases r1 with
        | error e =>
          simp only at hrun
          cases hrun
          exact ⟨hc.1, fun h => by cases h⟩
        | ok _ => exact finish_spec L R cancel flush s off _ st1 (hc.2 rfl) hc.1.2.2.1 r st hrun
    by_cases hu : off % B.blockSize = 0
    · rw [if_neg (by simp [hu])] at h
      exact fin _ hp0 (by simpa using hu) h
    · rw [if_pos hu] at h
      have hmod := Nat.mod_lt off hbp
      have hle : B.blockSize ≤ bufLen := Nat.le_of_dvd hb (Nat.dvd_of_mod_eq_zero hbs)
      have hmin : min bufLen (B.blockSize - off % B.blockSize) = B.blockSize - off % B.blockSize := by omega
      rw [hmin] at h
      have hc := receiveChunk_spec L R cancel (B.blockSize - off % B.blockSize) s off (R.rest t) _ hp0 (.inr (by omega))
      cases hx : receiveChunk B S cancel (B.blockSize - off % B.blockSize) ⟨s', t, 0, 0⟩ with
      | mk r1 st1 =>
        rw [hx] at h hc
        cases r1 with
        | error e =>
          simp only at h
          cases h
          exact ⟨received_error hp0 (.inr (by omega)) hx, fun h => by cases h⟩
        | ok b =>
          cases b with
          | true => exact finish_spec L R cancel flush s off _ st1 hc.1 hc.2 r st h
          | false =>
            refine fin st1 hc.1 ?_ h
            rw [hc.2]
            have := Nat.div_add_mod off B.blockSize
            have e : off + (0 + (B.blockSize - off % B.blockSize)) = B.blockSize * (off / B.blockSize + 1) := by
              rw [Nat.mul_add]; omega
            rw [e]; exact Nat.mul_mod_right _ _

/-- C82: with a size it is an upload as in the server: exactly the bytes of the size are stored, and a shorter stream is an error that
tells how much was stored. -/
theorem C82_known_size (L : Lawful B) (R : LawfulSource S) (cancel : Nat → Bool) (bufLen size off : Nat) (flush : Bool) (fuel : Nat)
    (hb : 0 < bufLen) (hbs : bufLen % B.blockSize = 0) (s : σ) (t : τ) (hi : L.Inv s) (ht : R.Inv t)
    (r : Except Err Unit) (st : WriteState σ τ)
    (h : receiveRun B S cancel bufLen (some size) off flush fuel s t = (r, st)) :
    (r = .ok () → size ≤ (R.rest t).length ∧ L.content st.dst = store (L.content s) off ((R.rest t).take size) ∧
      (flush = true → L.durable st.dst = L.content st.dst)) ∧
    (∀ a b, r = .error (.partialContent a b) → a = size ∧ b = (R.rest t).length ∧ (R.rest t).length < size ∧
      L.content st.dst = store (L.content s) off (R.rest t)) ∧
    (∀ i, ¬ InRange off size i → L.content st.dst i = L.content s i) := by
  have hw := writeRun_spec L R cancel bufLen size off flush hb hbs s t hi ht r st h
  have out : ∀ i, ¬ InRange off size i → Progress L R s off (R.rest t) st → st.done ≤ size →
      L.content st.dst i = L.content s i := by
    intro i hni hp hd
    rw [hp.content, store_outside]
    intro hin
    rw [List.length_take] at hin
    exact hni ⟨hin.1, by omega⟩
  obtain ⟨hw, hfl⟩ := hw
  cases r with
  | ok u =>
    obtain ⟨hp, hd⟩ := hw
    refine ⟨fun _ => ⟨hd ▸ hp.done_le, by rw [hp.content, hd], fun hf => hfl rfl hf⟩, fun _ _ h => (by cases h), fun i hni =>
      out i hni hp (by omega)⟩
  | error e =>
    refine ⟨fun h => (by cases h), fun a b hab => ?_, fun i hni => ?_⟩
    · cases hab
      obtain ⟨hp, h1, h2, h3, h4⟩ := hw
      exact ⟨h3, h4, h2, by rw [hp.content, h1, List.take_length]⟩
    · cases e with
      | canceled => exact out i hni hw.1 hw.2.1
      | partialContent _ _ => exact out i hni hw.1 (by have := hw.2; omega)
      | os _ => exact hw.2.2.2.2.outside i hni
      | terminated _ => exact hw.2.2.2.2.outside i hni
      | exception _ => exact hw.2.2.2.2.outside i hni
      | authorization _ => exact hw.2.2.2.2.outside i hni
      | stuck => exact hw.2.2.2.2.outside i hni

/-- C82: the file that is opened is the one of the path.
Partial: not for paths with a question mark, number sign, tab or the end of a line, which cut or change the path, and for paths that
begin with two slashes (`C82_counterexample_path`). -/
theorem C82_path_partial (ok : List Char → Bool) (path : List Char) (hp : PlainText path) (hs : path.head? ≠ some '/') :
    target ok ('/' :: path) = some ('/' :: path) := by
  have hpl : ∀ c ∈ '/' :: path, isUnsafe c = false ∧ c ≠ '?' ∧ c ≠ '#' := by
    intro c hc
    rcases List.mem_cons.1 hc with rfl | hc
    · decide
    · simpa [plain, and_assoc] using plain_of hp c hc
  have e1 : ("file:".toList ++ '/' :: path).dropWhile isControlOrSpace = "file:".toList ++ '/' :: path := by
    show ('f' :: ("ile:".toList ++ '/' :: path)).dropWhile isControlOrSpace = _
    rw [List.dropWhile_cons_of_neg (by decide)]
    rfl
  have e2 : ("file:".toList ++ '/' :: path).filter (fun c => !isUnsafe c) = "file:".toList ++ '/' :: path := by
    apply List.filter_eq_self.2
    intro c hc
    rcases List.mem_append.1 hc with hc | hc
    · have : ∀ c ∈ "file:".toList, (!isUnsafe c) = true := by decide
      exact this c hc
    · simp [(hpl c hc).1]
  have e3 : splitScheme ("file:".toList ++ '/' :: path) = ("file".toList, '/' :: path) := by
    have t : ("file:".toList ++ '/' :: path).takeWhile (· != ':') = "file".toList :=
      takeWhile_stop (s := "file".toList) (d := ':') (r := '/' :: path) (by decide) (by decide)
    have d : ("file:".toList ++ '/' :: path).dropWhile (· != ':') = ':' :: '/' :: path :=
      dropWhile_stop (s := "file".toList) (d := ':') (r := '/' :: path) (by decide) (by decide)
    simp only [splitScheme, t, d]
    rfl
  have e4 : cutAt '?' (cutAt '#' ('/' :: path)) = '/' :: path := by
    rw [cutAt_plain (c := '#') fun c hc => (hpl c hc).2.2, cutAt_plain fun c hc => (hpl c hc).2.1]
  have e5 : "file".toList ∉ usesParams := by decide
  unfold target
  simp only [urlparse, e1, e2, e3, if_neg e5]
  cases path with
  | nil => simp [cutAt]
  | cons c r =>
    have hc : c ≠ '/' := fun h => hs (by simp [h])
    split
    · rename_i heq
      simp only [List.cons.injEq] at heq
      exact absurd heq.2.1 hc
    · simp [e4]

/-- A path with a number sign or question mark opens another file; the part of a path between two slashes at its start and the next
slash is dropped. -/
theorem C82_counterexample_path : target (fun _ => true) "/disks/a#1".toList = some "/disks/a".toList ∧
    target (fun _ => true) "/disks/a?b".toList = some "/disks/a".toList ∧
    target (fun _ => true) "//disks/a".toList = some "/a".toList := by decide +kernel

/-- C82: closing releases the file in any case, and closing again does nothing. -/
theorem C82_close (closed : Bool) (r : Resources) :
    (close closed r).2.file = false ∧ ∀ closed', close closed' (close closed r).2 = (.ok (), (close closed r).2) := by
  obtain ⟨f, b⟩ := r
  cases f <;> cases closed <;> simp [close]

/-- Closing raises `AttributeError`, also if everything was closed: there is no `close` in the base class. -/
theorem C82_counterexample_close : close true ⟨true, true⟩ = (.error (.exception "AttributeError"), ⟨false, false⟩) := rfl

/-- If closing the file fails the buffer is not released. -/
theorem C82_counterexample_leak : (close false ⟨true, true⟩).2 = ⟨false, true⟩ := rfl

/-- Streams of pieces that are not empty. -/
def streamLaw : LawfulSource stream where
  Inv l := ∀ c ∈ l, c ≠ []
  rest l := l.flatten
  mayFail := False
  readinto := by
    intro l n d l' hi h
    simp only [stream, Prod.mk.injEq, Except.ok.injEq] at h
    obtain ⟨rfl, rfl⟩ := h
    cases l with
    | nil => simp [streamRead]
    | cons c r =>
      simp only [streamRead, List.flatten_cons]
      refine ⟨List.length_take_le _ _, ?_, ?_, ?_⟩
      · split
        · rename_i h
          rw [List.take_of_length_le (List.drop_eq_nil_iff.1 h)]
        · rw [List.flatten_cons, ← List.append_assoc, List.take_append_drop]
      · intro hn h0
        have := hi c (by simp)
        rcases List.take_eq_nil_iff.1 h0 with h | h
        · omega
        · exact absurd h this
      · split
        · exact fun x hx => hi x (by simp [hx])
        · rename_i h
          intro x hx
          rcases List.mem_cons.1 hx with rfl | hx
          · exact h
          · exact hi x (by simp [hx])
  readinto_err := by
    intro t n e t' _ h
    simp [stream] at h

/-- C82: a stream of any pieces that are not empty is stored completely in a file or block device, when the storage does not fail and
the stream fits in the block device. -/
theorem C82_stream (env : File.Env) (hbs : 0 < env.bs) (bufLen off : Nat) (hb : 0 < bufLen) (hbl : bufLen % env.bs = 0)
    (pieces : List Bytes) (hp : ∀ c ∈ pieces, c ≠ []) (s : File.State) (hf : s.faults = [])
    (hblk : env.isBlock = true → s.data.length % env.bs = 0 ∧ off + pieces.flatten.length ≤ s.data.length)
    (r : Except Err Unit) (st : WriteState File.State (List Bytes))
    (h : receiveRun (File.backend env) stream (fun _ => false) bufLen none off true (pieces.flatten.length + 1) s pieces = (r, st)) :
    r = .ok () ∧ (∀ i, byteAt st.dst.data i = store (byteAt s.data) off pieces.flatten i) ∧
      (∀ i, byteAt st.dst.disk i = byteAt st.dst.data i) := by
  obtain ⟨cap, hcap, hlen⟩ : ∃ cap, cap % env.bs = 0 ∧ (env.isBlock = true → s.data.length = cap) := by
    by_cases hk : env.isBlock = true
    · exact ⟨_, (hblk hk).1, fun _ => rfl⟩
    · exact ⟨0, Nat.zero_mod _, fun h => absurd h hk⟩
  obtain ⟨h1, h2⟩ := C82_unknown_size (File.lawful env hbs True cap hcap) streamLaw (fun _ => false) bufLen off true
    (pieces.flatten.length + 1) hb hbl s pieces ⟨hlen, fun _ => hf⟩ hp (Nat.lt_succ_self _) r st h
  have hno : ¬ ((File.lawful env hbs True cap hcap).MayFail off pieces.flatten.length ∨ streamLaw.mayFail) := by
    rintro (⟨k, hk, hm⟩ | hm)
    · rcases hm with hm | ⟨hi, hm⟩
      · exact hm trivial
      · have hle : (off + pieces.flatten.length + env.bs - 1) / env.bs * env.bs ≤ cap := by
          have hx := (hblk hi).2
          rw [hlen hi] at hx
          obtain ⟨q, rfl⟩ := Nat.dvd_of_mod_eq_zero hcap
          rw [Nat.mul_comm env.bs q]
          refine Nat.mul_le_mul_right _ (Nat.lt_succ_iff.1 ((Nat.div_lt_iff_lt_mul hbs).2 ?_))
          rw [Nat.succ_mul, Nat.mul_comm q]
          omega
        exact absurd (Nat.le_trans hk hle) (Nat.not_le.2 hm)
    · exact hm
  cases r with
  | ok u => exact ⟨rfl, fun i => congrFun h1.2.1 i, fun i => congrFun (h2 rfl rfl) i⟩
  | error e =>
    cases e with
    | canceled => exact absurd h1.2.2.2 (by simp)
    | partialContent _ _ => exact absurd h1.2.1 hno
    | os _ => exact absurd h1.2.1 hno
    | terminated _ => exact absurd h1.2.1 hno
    | exception _ => exact absurd h1.2.1 hno
    | authorization _ => exact absurd h1.2.1 hno
    | stuck => exact absurd h1.2.1 hno

/-- A piece that is empty ends the stream: the rest is not stored, and there is no error. -/
theorem C82_counterexample_empty :
    let out := receiveRun Memory.backend stream (fun _ => false) 4 none 0 true 9 ⟨.rw, zeros 4, 0, false⟩ [[1, 2], [], [3, 4]]
    out.1 = .ok () ∧ out.2.dst.buf = [1, 2, 0, 0] := by decide +kernel

/-- Pieces smaller and larger than the buffer and a start that is not aligned. -/
example :
    let out := receiveRun Memory.backend stream (fun _ => false) 4 none 1 true 9 ⟨.rw, zeros 9, 0, false⟩ [[1, 2], [3, 4, 5, 6, 7], [8]]
    out.1 = .ok () ∧ out.2.dst.buf = [0, 1, 2, 3, 4, 5, 6, 7, 8] := by decide +kernel

/-- A known size that is larger than the stream. -/
example :
    (receiveRun Memory.backend stream (fun _ => false) 4 (some 9) 1 true 0 ⟨.rw, zeros 9, 0, false⟩ [[1, 2], [3]]).1 =
      .error (.partialContent 9 3) := by decide +kernel

/-- A path as used by the program that imports disks. -/
example : PlainText "rhev/data-center/1/2/images/3/4".toList ∧ "rhev/data-center/1/2/images/3/4".toList.head? ≠ some '/' := by
  unfold PlainText; decide

end Imageio.Props
