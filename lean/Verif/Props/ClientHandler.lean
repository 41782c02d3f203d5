import Verif.Lemmas.ClientHandler
import Verif.Model.ClientIo
import Verif.Props.Checksum
/-! The handlers of the client on real backends do what the model of the copy assumes (C28, C29). -/
namespace Imageio.Props
open Imageio Imageio.Io Imageio.Spec Imageio.ClientHandler
open Imageio.Blkhash (FullReads)

/-! ### The backends write everything -/

theorem memory_fullWrites : FullWrites Memory.lawful (fun _ => True) := by
  constructor
  · intros; trivial
  · intro s a d n s' hi _ h
    refine ⟨trivial, ?_⟩
    simp only [Memory.backend, Memory.write] at h
    split at h
    · simp at h
    · split at h
      · simp at h
      · simp only [Prod.mk.injEq, Except.ok.injEq] at h; exact h.1.symm
  · intro s c n s' hi _ h
    refine ⟨trivial, ?_⟩
    simp only [Memory.backend, Memory.zero, Memory.write] at h
    split at h
    · simp at h
    · split at h
      · simp at h
      · simp only [*] at h
        simp only [Prod.mk.injEq, Except.ok.injEq] at h
        rw [← h.1]; simp [zeros]

theorem nbd_fullWrites (bs : Nat) (hb : 0 < bs) (strict : Prop) (cap : Nat) (h1 : strict → bs = 1) :
    FullWrites (NbdBackend.lawful bs hb strict cap h1) (fun _ => True) := by
  constructor
  · intros; trivial
  · intro s a d n s' hi _ h
    refine ⟨trivial, ?_⟩
    simp only [NbdBackend.backend, NbdBackend.write] at h
    split at h
    · simp at h
    · split at h
      · simp at h
      · simp only [Prod.mk.injEq, Except.ok.injEq] at h; exact h.1.symm
  · intro s c n s' hi _ h
    refine ⟨trivial, ?_⟩
    simp only [NbdBackend.backend, NbdBackend.zero] at h
    split at h
    · simp at h
    · split at h
      · simp at h
      · split at h
        · simp at h
        · simp only [Prod.mk.injEq, Except.ok.injEq] at h; exact h.1.symm

/-! ### The handler -/

/-- To show a concrete result by computing it. -/
theorem ok_of_eval {α : Type} {x : Except Err Unit × α} {P : α → Prop} [DecidablePred P]
    (h : (match x with | (.ok (), a) => decide (P a) | _ => false) = true) : ∃ a, x = (.ok (), a) ∧ P a := by
  rcases x with ⟨_ | ⟨⟩, a⟩
  · simp at h
  · exact ⟨a, rfl, of_decide_eq_true h⟩

/-- A handler copies exactly the bytes of the request from the source to the destination, with any
buffer, when the source reads completely inside the image and the destination writes completely.  This
is the effect `perform` that the model of the concurrent copy uses for one request. -/
theorem C28_handler_copy {σ τ : Type} {S : Backend σ} {D : Backend τ} {LS : Lawful S} {LD : Lawful D}
    {F : σ → Prop} {G : τ → Prop} (hf : FullReads LS F) (hg : FullWrites LD G) {addr start length : Nat}
    (ha : addr % D.blockSize = 0) {h h' : St σ τ} (hb : 0 < h.buf.length)
    (hbb : h.buf.length % S.blockSize = 0) (hl : 0 < length) (hlb : length % S.blockSize = 0)
    (hob : start % S.blockSize = 0) (is : LS.Inv h.src) (fs : F h.src) (id : LD.Inv h.dst) (fd : G h.dst)
    (hsz : start + length ≤ S.size h.src) (hr : copy S D addr start length h = (.ok (), h')) :
    LD.content h'.dst = perform (LS.content h.src) ⟨.copy, start, length⟩ (LD.content h.dst) ∧
    LS.content h'.src = LS.content h.src := by
  obtain ⟨k, o⟩ := copy_spec hf hg ha hb hbb hl hlb hob is fs id fd hsz hr
  obtain ⟨-, -, c⟩ := o () rfl
  refine ⟨?_, k.src⟩
  rw [c]
  funext i
  simp only [perform]
  by_cases hi : start ≤ i ∧ i < start + length
  · rw [if_pos (show (Req.mk .copy start length).covers i from hi), store_inside _ _ _ _ hi.1 (by simpa using hi.2), Spec.load_getElem]
    congr 1
    omega
  · rw [if_neg (show ¬ (Req.mk .copy start length).covers i from hi), store_outside _ _ _ _ (by simpa using hi)]

/-- A handler that fails in a copy changed only bytes of the request. -/
theorem C28_handler_failed {σ τ : Type} {S : Backend σ} {D : Backend τ} {LS : Lawful S} {LD : Lawful D}
    {F : σ → Prop} {G : τ → Prop} (hf : FullReads LS F) (hg : FullWrites LD G) {addr start length : Nat}
    (ha : addr % D.blockSize = 0) {h h' : St σ τ} (hb : 0 < h.buf.length)
    (hbb : h.buf.length % S.blockSize = 0) (hl : 0 < length) (hlb : length % S.blockSize = 0)
    (hob : start % S.blockSize = 0) (is : LS.Inv h.src) (fs : F h.src) (id : LD.Inv h.dst) (fd : G h.dst)
    (hsz : start + length ≤ S.size h.src) {e : Err} (hr : copy S D addr start length h = (.error e, h')) :
    (∀ i, ¬ (start ≤ i ∧ i < start + length) → LD.content h'.dst i = LD.content h.dst i) ∧
    LS.content h'.src = LS.content h.src := by
  obtain ⟨k, -⟩ := copy_spec hf hg ha hb hbb hl hlb hob is fs id fd hsz hr
  exact ⟨k.outside, k.src⟩

/-- A handler zeroes exactly the bytes of the request. -/
theorem C28_handler_zero {σ τ : Type} {D : Backend τ} {LD : Lawful D} {G : τ → Prop} (hg : FullWrites LD G)
    {start length : Nat} (hl : 0 < length) {h h' : St σ τ} (id : LD.Inv h.dst) (fd : G h.dst)
    (src : Nat → Byte) (hr : zero D start length h = (.ok (), h')) :
    LD.content h'.dst = perform src ⟨.zero, start, length⟩ (LD.content h.dst) ∧ h'.src = h.src := by
  obtain ⟨k, o⟩ := zero_spec hg hl id fd hr
  obtain ⟨-, c⟩ := o () rfl
  refine ⟨?_, k.2.1⟩
  rw [c]
  funext i
  simp only [perform]
  by_cases hi : start ≤ i ∧ i < start + length
  · rw [if_pos (show (Req.mk .zero start length).covers i from hi), store_inside _ _ _ _ hi.1 (by simpa [zeros] using hi.2)]
    simp [zeros]
  · rw [if_neg (show ¬ (Req.mk .zero start length).covers i from hi), store_outside _ _ _ _ (by simpa [zeros] using hi)]

/-- From an NBD export to an NBD export, as in the downloads and uploads of `client/_api.py`: 7 bytes with
a buffer of 3 bytes. -/
example : ∃ h' : St NbdBackend.State NbdBackend.State,
    copy (NbdBackend.backend 1) (NbdBackend.backend 1) 0 2 7
      ⟨⟨.r, 1, [0, 1, 2, 3, 4, 5, 6, 7, 8, 9], [], 0, true, true, []⟩,
       ⟨.rw, 1, zeros 10, [], 5, true, true, []⟩, [255, 255, 255]⟩ = (.ok (), h') ∧
    h'.dst.export_ = [0, 0, 2, 3, 4, 5, 6, 7, 8, 0] := by
  exact ok_of_eval (P := fun h' : St NbdBackend.State NbdBackend.State => h'.dst.export_ = [0, 0, 2, 3, 4, 5, 6, 7, 8, 0]) (by decide +kernel)

/-- From memory to memory. -/
example {s t : Memory.State} {buf : Bytes} (hs : s.closed = false ∧ s.mode.readable = true)
    (ht : t.closed = false) (hb : 0 < buf.length) {start length : Nat} (hl : 0 < length)
    (hsz : start + length ≤ s.buf.length) {h' : St Memory.State Memory.State}
    (hr : copy Memory.backend Memory.backend 0 start length ⟨s, t, buf⟩ = (.ok (), h')) :
    byteAt h'.dst.buf = perform (byteAt s.buf) ⟨.copy, start, length⟩ (byteAt t.buf) :=
  (C28_handler_copy (h := ⟨s, t, buf⟩) (LS := Memory.lawful) (LD := Memory.lawful) memory_fullReads memory_fullWrites (Nat.mod_one _)
    hb (Nat.mod_one _) hl (Nat.mod_one _) (Nat.mod_one _) hs.1 hs.2 ht trivial hsz hr).1

/-- A short read of the source is not noticed: the old bytes of the buffer are copied.  The code says that
it is not compatible with the file backend (`client/_io.py:312-313`), the only one with short reads. -/
theorem C28_handler_counterexample_short_read :
    ∃ (S : Backend Memory.State) (LS : Lawful S) (s t : Memory.State) (buf : Bytes)
      (h' : St Memory.State Memory.State),
      LS.Inv s ∧ LS.content = (fun s => byteAt s.buf) ∧ t.closed = false ∧ t.mode = .rw ∧
      S.size s = 2 ∧ copy S Memory.backend 0 0 2 ⟨s, t, buf⟩ = (.ok (), h') ∧
      h'.dst.buf ≠ s.buf := by
  -- a backend that reads one byte per call, as a file may
  let S : Backend Memory.State := { Memory.backend with readinto := fun s n => Memory.readinto s (min n 1) }
  let LS : Lawful S :=
    { Inv := Memory.lawful.Inv
      content := Memory.lawful.content
      durable := Memory.lawful.durable
      mayFail := Memory.lawful.mayFail
      block_pos := Memory.lawful.block_pos
      seek := Memory.lawful.seek
      readinto := by
        intro s n d s' hi hb hn h
        obtain ⟨h1, h2, h3, h4, h5, h6, h7, h8, h9, h10⟩ :=
          Memory.lawful.readinto s (min n 1) d s' hi hb (Nat.mod_one _) h
        exact ⟨h1, h2, h3, h4, by omega, h6, h7, h8, fun hd => (h9 hd).imp (fun _ => by omega) id, h10⟩
      readinto_err := by
        intro s n e s' hi hb hn h
        simp only [S, Memory.readinto] at h
        exact Memory.lawful.readinto_err s n e s' hi hb hn (by
          simp only [Memory.backend, Memory.readinto]
          split at h
          next h1 => rw [if_pos h1]; exact h
          next h1 =>
            rw [if_neg h1]
            split at h
            next h2 => rw [if_pos h2]; exact h
            next h2 =>
              rw [if_neg h2]
              split at h
              next h3 => rw [if_pos h3]; exact h
              next h3 => simp at h)
      write := Memory.lawful.write
      write_err := Memory.lawful.write_err
      zero := Memory.lawful.zero
      zero_err := Memory.lawful.zero_err
      flush := Memory.lawful.flush
      flush_err := Memory.lawful.flush_err }
  obtain ⟨h', hr, hn⟩ : ∃ h', copy S Memory.backend 0 0 2
      ⟨⟨.r, [1, 2], 0, false⟩, ⟨.rw, [], 0, false⟩, [9, 9]⟩ = (.ok (), h') ∧ h'.dst.buf = [1, 9] :=
    ok_of_eval (P := fun h' : St Memory.State Memory.State => h'.dst.buf = [1, 9]) (by decide +kernel)
  exact ⟨S, LS, ⟨.r, [1, 2], 0, false⟩, ⟨.rw, [], 0, false⟩, [9, 9], h', rfl, rfl, rfl, rfl, rfl, hr,
    by rw [hn]; decide⟩

end Imageio.Props
