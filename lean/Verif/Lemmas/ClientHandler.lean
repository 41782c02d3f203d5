import Verif.Model.ClientHandler
import Verif.Lemmas.Blkhash
import Verif.Lemmas.Disk
namespace Imageio.ClientHandler
open Imageio.Spec
open Imageio.Blkhash (FullReads)

/-- Every successful write and zero in a state of `F` is complete. -/
structure FullWrites {τ : Type} {B : Backend τ} (L : Lawful B) (F : τ → Prop) : Prop where
  seek : ∀ s n r s', L.Inv s → F s → B.seek s n = (r, s') → F s'
  write : ∀ s a d n s', L.Inv s → F s → B.write s a d = (.ok n, s') → F s' ∧ n = d.length
  zero : ∀ s c n s', L.Inv s → F s → B.zero s c = (.ok n, s') → F s' ∧ n = c

section
variable {σ τ : Type} {S : Backend σ} {D : Backend τ} {LS : Lawful S} {LD : Lawful D}
  {F : σ → Prop} {G : τ → Prop}

/-- The state before a step at `off`. -/
structure At (LS : Lawful S) (LD : Lawful D) (F : σ → Prop) (G : τ → Prop) (off : Nat) (h : St σ τ) : Prop where
  is : LS.Inv h.src
  fs : F h.src
  id : LD.Inv h.dst
  fd : G h.dst
  ts : S.tell h.src = off
  td : D.tell h.dst = off

/-- The bytes after a step: the source is unchanged, and only `n` bytes at `off` of the destination
changed. -/
structure Kept (LS : Lawful S) (LD : Lawful D) (off n : Nat) (h h' : St σ τ) : Prop where
  is : LS.Inv h'.src
  id : LD.Inv h'.dst
  src : LS.content h'.src = LS.content h.src
  size : S.size h'.src = S.size h.src
  buf : h'.buf.length = h.buf.length
  outside : ∀ i, ¬ InRange off n i → LD.content h'.dst i = LD.content h.dst i

theorem copyStep_spec (hf : FullReads LS F) (hg : FullWrites LD G) {addr n off : Nat} {h h' : St σ τ}
    (ha : addr % D.blockSize = 0) (hn : 0 < n) (hnb : n % S.blockSize = 0) (hob : off % S.blockSize = 0)
    (hat : At LS LD F G off h) (hsz : off + n ≤ S.size h.src) (hbuf : n ≤ h.buf.length)
    {r : Except Err Unit} (hr : copyStep S D addr n h = (r, h')) :
    Kept LS LD off n h h' ∧ (∀ u, r = .ok u → At LS LD F G (off + n) h' ∧
      LD.content h'.dst = store (LD.content h.dst) off (load (LS.content h.src) off n)) := by
  obtain ⟨is, fs, id, fd, ts, td⟩ := hat
  simp only [copyStep] at hr
  rcases h1 : S.readinto h.src n with ⟨_ | d, s⟩ <;> rw [h1] at hr <;> simp only at hr
  · obtain ⟨-, -, e1, e2, e3, e4⟩ := LS.readinto_err _ _ _ _ is (by rw [ts]; exact hob) hnb h1
    cases hr
    exact ⟨⟨e1, id, e2, e4, rfl, fun _ _ => rfl⟩, by simp⟩
  · obtain ⟨e1, e2, e3, e4, e5, e6, e7, -⟩ := LS.readinto _ _ _ _ is (by rw [ts]; exact hob) hnb h1
    have hfull := hf.full _ _ _ _ is fs (by rw [ts]; exact hob) hnb (by rw [ts]; exact hsz) h1
    have hF := hf.readinto _ _ _ _ is fs h1
    rw [hfull, ts] at e6
    have hlen : (fill h.buf d).length = h.buf.length := by
      simp [fill]; omega
    have htake : (fill h.buf d).take n = load (LS.content h.src) off n := by
      rw [← e6]; simp [fill, ← hfull]
    have hne : load (LS.content h.src) off n ≠ [] := by
      intro hx
      have := congrArg List.length hx
      simp at this
      omega
    rw [htake] at hr
    rcases h2 : D.write h.dst addr (load (LS.content h.src) off n) with ⟨_ | k, t⟩ <;> rw [h2] at hr <;>
      simp only at hr
    · obtain ⟨-, -, w⟩ := LD.write_err _ _ _ _ _ id hne (fun _ _ => ha) h2
      cases hr
      refine ⟨⟨e1, w.inv, e2, e4, hlen, ?_⟩, by simp⟩
      have := w.outside
      rw [td, Spec.load_length] at this
      exact this
    · obtain ⟨w1, -, w2, w3, w4, -⟩ := LD.write _ _ _ _ _ id hne (fun _ _ => ha) h2
      obtain ⟨hG, hk⟩ := hg.write _ _ _ _ _ id fd h2
      rw [Spec.load_length] at hk
      rw [hk, td] at w3
      rw [hk, td, List.take_of_length_le (by simp)] at w4
      cases hr
      refine ⟨⟨e1, w1, e2, e4, hlen, ?_⟩, fun _ _ => ⟨⟨e1, hF, w1, hG, by rw [e7, ts, hfull], w3⟩, w4⟩⟩
      intro i hi
      simp only
      rw [w4, store_outside]
      simpa [InRange] using hi

theorem copyLoop_spec (hf : FullReads LS F) (hg : FullWrites LD G) {addr step : Nat}
    (ha : addr % D.blockSize = 0) (hstep : 0 < step) (hsb : step % S.blockSize = 0) {todo off : Nat}
    {h h' : St σ τ} (hn : 0 < todo) (hnb : todo % S.blockSize = 0) (hob : off % S.blockSize = 0)
    (hat : At LS LD F G off h) (hsz : off + todo ≤ S.size h.src) (hbuf : h.buf.length = step)
    {r : Except Err Unit} (hr : copyLoop S D addr step todo h = (r, h')) :
    Kept LS LD off todo h h' ∧ (∀ u, r = .ok u → At LS LD F G (off + todo) h' ∧
      LD.content h'.dst = store (LD.content h.dst) off (load (LS.content h.src) off todo)) := by
  induction todo using Nat.strongRecOn generalizing off h with
  | ind todo ih =>
    rw [copyLoop] at hr
    split at hr
    next hc =>
      rw [dif_neg (by omega)] at hr
      rcases h1 : copyStep S D addr step h with ⟨_ | u, g⟩ <;> rw [h1] at hr <;> simp only at hr
      · obtain ⟨hk, -⟩ := copyStep_spec hf hg ha hstep hsb hob hat (by omega) (by omega) h1
        cases hr
        exact ⟨{ hk with outside := fun i hi => hk.outside i (by simp only [InRange] at *; omega) }, by simp⟩
      · obtain ⟨hk, ho⟩ := copyStep_spec hf hg ha hstep hsb hob hat (by omega) (by omega) h1
        obtain ⟨ha1, hc1⟩ := ho _ rfl
        have hmod : (todo - step) % S.blockSize = 0 :=
          (Nat.dvd_iff_mod_eq_zero ..).mp (Nat.dvd_sub (Nat.dvd_of_mod_eq_zero hnb) (Nat.dvd_of_mod_eq_zero hsb))
        have hmod2 : (off + step) % S.blockSize = 0 :=
          (Nat.dvd_iff_mod_eq_zero ..).mp (Nat.dvd_add (Nat.dvd_of_mod_eq_zero hob) (Nat.dvd_of_mod_eq_zero hsb))
        obtain ⟨k2, o2⟩ := ih (todo - step) (by omega) (by omega) hmod hmod2 ha1
          (by rw [hk.size]; omega) (by rw [hk.buf, hbuf]) hr
        refine ⟨⟨k2.is, k2.id, k2.src.trans hk.src, k2.size.trans hk.size, k2.buf.trans hk.buf, ?_⟩, ?_⟩
        · intro i hi
          rw [k2.outside i (by simp only [InRange] at *; omega), hk.outside i (by simp only [InRange] at *; omega)]
        · intro u hu
          obtain ⟨a2, c2⟩ := o2 u hu
          rw [show off + step + (todo - step) = off + todo by omega] at a2
          refine ⟨a2, ?_⟩
          have := store_append (LD.content h.dst) off (load (LS.content h.src) off step)
            (load (LS.content h.src) (off + step) (todo - step))
          rw [Spec.load_length, load_append, show step + (todo - step) = todo by omega] at this
          rw [c2, hc1, hk.src, this]
    next hc => exact copyStep_spec hf hg ha hn hnb hob hat hsz (by omega) hr

theorem copy_spec (hf : FullReads LS F) (hg : FullWrites LD G) {addr start length : Nat}
    (ha : addr % D.blockSize = 0) {h h' : St σ τ} (hb : 0 < h.buf.length)
    (hbb : h.buf.length % S.blockSize = 0) (hl : 0 < length) (hlb : length % S.blockSize = 0)
    (hob : start % S.blockSize = 0) (is : LS.Inv h.src) (fs : F h.src) (id : LD.Inv h.dst) (fd : G h.dst)
    (hsz : start + length ≤ S.size h.src) {r : Except Err Unit} (hr : copy S D addr start length h = (r, h')) :
    Kept LS LD start length h h' ∧ (∀ u, r = .ok u → F h'.src ∧ G h'.dst ∧
      LD.content h'.dst = store (LD.content h.dst) start (load (LS.content h.src) start length)) := by
  simp only [copy] at hr
  rcases h1 : S.seek h.src start with ⟨r1, s⟩
  obtain ⟨rfl, i1, t1, c1, d1, z1⟩ := LS.seek _ _ _ _ is h1
  have hF := hf.seek _ _ _ _ is fs h1
  rw [h1] at hr
  simp only at hr
  rcases h2 : D.seek h.dst start with ⟨r2, t⟩
  obtain ⟨rfl, i2, t2, c2, d2, z2⟩ := LD.seek _ _ _ _ id h2
  have hG := hg.seek _ _ _ _ id fd h2
  rw [h2] at hr
  simp only at hr
  obtain ⟨k, o⟩ := copyLoop_spec (h := { h with src := s, dst := t }) hf hg ha hb hbb hl hlb hob
    ⟨i1, hF, i2, hG, t1, t2⟩ (by simp only; omega) rfl hr
  refine ⟨⟨k.is, k.id, k.src.trans c1, k.size.trans z1, k.buf, ?_⟩, ?_⟩
  · intro i hi
    rw [k.outside i hi]
    simp only
    rw [c2]
  · intro u hu
    obtain ⟨a, c⟩ := o u hu
    refine ⟨a.fs, a.fd, ?_⟩
    rw [c]
    simp only
    rw [c1, c2]

theorem zero_spec (hg : FullWrites LD G) {start length : Nat} (hl : 0 < length) {h h' : St σ τ}
    (id : LD.Inv h.dst) (fd : G h.dst) {r : Except Err Unit} (hr : zero D start length h = (r, h')) :
    (LD.Inv h'.dst ∧ h'.src = h.src ∧ h'.buf = h.buf ∧
      ∀ i, ¬ InRange start length i → LD.content h'.dst i = LD.content h.dst i) ∧
    (∀ u, r = .ok u → G h'.dst ∧ LD.content h'.dst = store (LD.content h.dst) start (zeros length)) := by
  simp only [zero] at hr
  rcases h2 : D.seek h.dst start with ⟨r2, t⟩
  obtain ⟨rfl, i2, t2, c2, d2, z2⟩ := LD.seek _ _ _ _ id h2
  have hG := hg.seek _ _ _ _ id fd h2
  rw [h2] at hr
  simp only at hr
  rcases h3 : D.zero t length with ⟨_ | n, t'⟩ <;> rw [h3] at hr <;> simp only at hr
  · obtain ⟨-, -, w⟩ := LD.zero_err _ _ _ _ i2 hl h3
    cases hr
    refine ⟨⟨w.inv, rfl, rfl, ?_⟩, by simp⟩
    have := w.outside
    rw [t2, c2] at this
    exact this
  · obtain ⟨w1, -, w2, w3, w4, -⟩ := LD.zero _ _ _ _ i2 hl h3
    obtain ⟨hG', hk⟩ := hg.zero _ _ _ _ i2 hG h3
    cases hr
    rw [hk, t2, c2] at w4
    refine ⟨⟨w1, rfl, rfl, ?_⟩, fun _ _ => ⟨hG', w4⟩⟩
    intro i hi
    simp only
    rw [w4, store_outside]
    simpa [InRange, zeros] using hi

end
end Imageio.ClientHandler
