import Verif.Lemmas.SparseBackup
import Verif.Props.HttpBackend
import Verif.Props.Backends

/-!
C71: backup and restore with the sparse stream format (`examples/sparse-stream`).
-/
namespace Imageio.Props
open HttpBackend SparseStream Spec Spec.Sparse

/-! ### Frames -/

/-- C71: every header of the documented format is read as what it says, and is read completely. -/
theorem C71_header {kind : String} (hk : kind ∈ ["meta", "data", "zero", "stop"])
    {start length : Nat} {h : Bytes} (hh : Header kind start length h) :
    h.length = frameLen ∧
    parseFrame h = .ok (kind.toUTF8.toList, (start : Int), (length : Int)) := by
  have key : kind.toUTF8.toList.length = 4 ∧ (32 : Byte) ∉ kind.toUTF8.toList := by
    simp only [List.mem_cons, List.not_mem_nil, or_false] at hk
    rcases hk with rfl | rfl | rfl | rfl
    · rw [kind_meta]; decide
    · rw [kind_data]; decide
    · rw [kind_zero]; decide
    · rw [kind_stop]; decide
  exact ⟨(header_length key.1 hh).trans frameLen_eq.symm, parse_header key.1 key.2 hh⟩

theorem signed_int {b : Bytes} {x : Int} (h : Signed b x) (hb : b ≠ []) (ws : Bytes) (hw : ∀ c ∈ ws, isSpace c = true) :
    pyInt16 (b ++ ws) = some x ∧ (32 : Byte) ∉ b := by
  rcases h with ⟨n, h, rfl⟩ | ⟨d, n, hd, h, rfl, rfl⟩
  · exact ⟨pyInt16_digits h hb ws hw, digits_nospace h⟩
  · have e : "-".toUTF8.toList = [45] := by decide +kernel
    rw [e]
    refine ⟨pyInt16_negative h hd ws hw, ?_⟩
    intro hm
    rcases List.mem_cons.1 hm with hm | hm
    · cases hm
    · exact digits_nospace h hm

/-- C71: a data or zero frame with a negative start or length stops the restore, before the image is changed by it. -/
theorem C71_negative {σ : Type} (S : HttpBackend.Server σ) (step : Nat) (w : World σ) {kind : String} (hk : kind = "data" ∨ kind = "zero")
    {start length : Int} {h rest : Bytes} (hh : SignedHeader kind start length h) (hn : start < 0 ∨ length < 0) (i : Stdin)
    (hi : i.data = h ++ rest) : ∃ e i', restoreFrames S step w i = (.error e, w, i') := by
  obtain ⟨a, b, ha, hb, hx, hy, rfl⟩ := hh
  have key : kind.toUTF8.toList.length = 4 ∧ (32 : Byte) ∉ kind.toUTF8.toList ∧ (kind.toUTF8.toList = ZERO ∨ kind.toUTF8.toList = DATA) := by
    rcases hk with rfl | rfl
    · rw [kind_data]; decide
    · rw [kind_zero]; decide
  obtain ⟨k1, k2, k3⟩ := key
  obtain ⟨x1, x2⟩ := signed_int hx (by rintro rfl; simp at ha) [] (by simp)
  obtain ⟨y1, -⟩ := signed_int hy (by rintro rfl; simp at hb) TERM (by decide)
  rw [List.append_nil] at x1
  rw [space_eq, crlf_eq] at hi
  generalize kind.toUTF8.toList = v at k1 k2 k3 hi
  have hp := parse_parts (b := b) k2 x2 x1 y1
  have hlen : (v ++ [32] ++ a ++ [32] ++ b ++ TERM).length = 40 := by
    simp only [List.length_append, k1, ha, hb, TERM, List.length_cons, List.length_nil]
  have hr : (∃ e i1, readFrame i = (.error e, i1)) ∨ ∃ i1, readFrame i = (.ok (v, start, length), i1) := by
    unfold readFrame Stdin.read
    cases i.calls.headD (some frameLen) with
    | none => exact .inl ⟨_, _, rfl⟩
    | some c =>
      right
      simp only
      rw [hi, frameLen_eq, ← hlen, List.take_left, hp]
      exact ⟨_, rfl⟩
  unfold restoreFrames
  rcases hr with ⟨e, i1, hr⟩ | ⟨i1, hr⟩
  · split
    · exact ⟨_, _, rfl⟩
    · rename_i h1; rw [hr] at h1; cases h1
  · split
    · exact ⟨_, _, rfl⟩
    · rename_i h1
      rw [hr] at h1
      cases h1
      rcases k3 with rfl | rfl
      · rw [if_pos rfl, if_pos hn]
        exact ⟨_, _, rfl⟩
      · rw [if_neg (by decide), if_pos rfl, if_pos hn]
        exact ⟨_, _, rfl⟩

/-- A frame that starts before the disk. -/
example : SignedHeader "zero" (-1) 16 "zero -000000000000001 0000000000000010\r\n".toUTF8.toList := by
  have d : ∀ v : Nat, v < 10 → Digit (UInt8.ofNat (48 + v)) v := fun v h => .decimal v h
  have zeros : ∀ n, Digits (List.replicate n 48) 0 := by
    intro n
    induction n with
    | zero => exact .nil
    | succ n ih => rw [List.replicate_succ']; exact ih.snoc (d 0 (by decide))
  refine ⟨45 :: (List.replicate 14 48 ++ [49]), List.replicate 14 48 ++ [49] ++ [48], by decide, by decide,
    .inr ⟨_, _, by decide, (zeros 14).snoc (d 1 (by decide)), by decide +kernel, rfl⟩,
    .inl ⟨_, ((zeros 14).snoc (d 1 (by decide))).snoc (d 0 (by decide)), rfl⟩, by decide +kernel⟩


example : Header "data" 0x40100000 0xABC
    "data 0000000040100000 0000000000000aBc\r\n".toUTF8.toList := by
  have h0 : ∀ {n b}, Digits b n → Digits (48 :: b) n := fun h => digits_pad h 1
  refine ⟨"0000000040100000".toUTF8.toList, "0000000000000aBc".toUTF8.toList, by decide +kernel,
    by decide +kernel, ?_, ?_, by decide +kernel⟩
  · have := digits_hex16 0x40100000
    rwa [show hex16 0x40100000 = "0000000040100000".toUTF8.toList by
      simp only [hex16]
      decide +kernel] at this
  · have e : "0000000000000aBc".toUTF8.toList = List.replicate 13 48 ++ ((([] ++
        [UInt8.ofNat (97 + (10 - 10))]) ++ [UInt8.ofNat (65 + (11 - 10))]) ++
        [UInt8.ofNat (97 + (12 - 10))]) := by decide +kernel
    rw [e]
    exact digits_pad (.snoc (.snoc (.snoc .nil (.lower 10 (by omega) (by omega)))
      (.upper 11 (by omega) (by omega))) (.lower 12 (by omega) (by omega))) 13

/-! ### Backup -/

/-- A frame records an extent of the image: the same bytes, and the content of the image, or zeroes
for a zero extent. -/
def Records (img : Nat → Byte) (e : SparseStream.Extent) (f : Frame) : Prop :=
  f.start = e.start ∧ f.length = e.length ∧
  (∀ i, f.Covers i → f.byte i = if e.zero then 0 else img i) ∧
  (e.zero = true ↔ f = .zero e.start e.length)

theorem records_frameOf (img : Nat → Byte) (e : SparseStream.Extent) :
    Records img e (frameOf img e) := by
  unfold Records frameOf
  by_cases hz : e.zero = true
  · rw [if_pos hz]
    exact ⟨rfl, rfl, fun i _ => by simp [hz, Frame.byte], by simp [hz]⟩
  · rw [if_neg hz]
    refine ⟨rfl, by simp [Frame.length], fun i hi => ?_, by simp [hz]⟩
    rw [if_neg hz]
    obtain ⟨h1, h2⟩ := hi
    simp only [Frame.start, Frame.length, load_length] at h1 h2
    simp only [Frame.byte, List.getD_eq_getElem?_getD]
    rw [List.getElem?_eq_getElem (by rw [load_length]; omega), Option.getD_some, load_getElem]
    congr 1; omega

theorem records_map (img : Nat → Byte) (l : List SparseStream.Extent) :
    List.Forall₂ (Records img) l (l.map (frameOf img)) := by
  induction l with
  | nil => exact .nil
  | cons e l ih => exact .cons (records_frameOf img e) ih

/-- The extents that a backup streams. -/
def wanted (incremental : Bool) (exts : List SparseStream.Extent) : List SparseStream.Extent :=
  if incremental then exts.filter (·.dirty) else exts

/-- C71: whatever the server, the network and the output do, a backup writes a part of a stream of the documented
format, that records the extents of the image in order, for an incremental backup only the dirty
extents; the stream is complete if the backup succeeds.  The image is not changed.  If nothing can
fail, the backup succeeds. -/
theorem C71_backup {σ : Type} {S : HttpBackend.Server σ} (L : Lawful S.B) (hS : S.Proper) (M : Meta)
    (step : Nat) (hstep : 0 < step) (incremental : Bool) (exts : List SparseStream.Extent)
    (w : World σ) (o : Stdout) (hi : L.Inv w.srv)
    (he : ∀ e ∈ exts, 0 < e.length ∧ e.start + e.length ≤ min S.ticketSize (S.B.size w.srv))
    (hsize : S.B.size w.srv < 2 ^ 64) {last : SparseStream.Extent} (hne : exts.getLast? = some last)
    (hlen : ∀ d, (M.dump (last.start + last.length) d incremental).length < 2 ^ 64)
    {r : Except Err Unit} {w' : World σ} {o' : Stdout}
    (h : SparseStream.download S M step incremental (.ok exts) w o = (r, w', o')) :
    (∃ payload fs s p,
      payload = M.dump (last.start + last.length)
        (((exts.filter fun e => !e.zero).map fun e => e.length).sum) incremental ∧
      List.Forall₂ (Records (L.content w.srv)) (wanted incremental exts) fs ∧
      Stream payload fs s ∧ o'.out = o.out ++ p ∧ p <+: s ∧ (r = .ok () → p = s)) ∧
    L.content w'.srv = L.content w.srv ∧ L.Inv w'.srv ∧
    (∀ x, r = .error x → External x) ∧
    ((∀ x ∈ o.calls, x = none) → (∀ n ∈ w.nets, n.Good) →
      (∀ e ∈ exts, ¬ L.MayFail e.start e.length) → r = .ok ()) := by
  have hpay : dumpMetadata M exts incremental = .ok (M.dump (last.start + last.length)
      (((exts.filter fun e => !e.zero).map fun e => e.length).sum) incremental) := by
    unfold dumpMetadata
    rw [hne]
  obtain ⟨h1, ⟨s, h2, h3⟩, h4⟩ := download_spec L hS M step hstep incremental exts w o hi he hsize
    hpay (hlen _) h
  obtain ⟨p, a1, a2, a3⟩ := h3.out
  refine ⟨⟨_, _, s, p, rfl, records_map _ _, h2, a1, a2, a3⟩, h1.content, h1.inv,
    fun x hx => (h4 x hx).1, fun g1 g2 g3 => ?_⟩
  cases r with
  | ok u => rfl
  | error x =>
    exfalso
    have hno : ¬ ∃ k, some k ∈ o.calls := by
      rintro ⟨k, hk⟩
      cases g1 _ hk
    rcases (h4 x rfl).2 with hk | ⟨e, he, hk | ⟨n, hn, hk⟩ | hk⟩
    · exact hno hk
    · exact hno hk
    · exact hk (g2 n hn)
    · exact g3 e he hk

/-! ### Restore -/

/-- C71: whatever the server, the network and the input do: if a restore of a stream succeeds, even
of a stream that was cut anywhere or followed by other bytes, every frame was written to the image in
order, and is on storage.  A restore that fails changed only bytes of the frames. -/
theorem C71_restore {σ : Type} {S : HttpBackend.Server σ} (L : Lawful S.B) (hS : S.Proper) (M : Meta)
    (step : Nat) (hstep : 0 < step) {payload : Bytes} {fs : List Frame} {s : Bytes}
    (hs : Stream payload fs s) (w : World σ) (i : Stdin) (hi : L.Inv w.srv)
    (hp : i.data <+: s ∨ s <+: i.data) {r : Except Err Unit} {w' : World σ} {i' : Stdin}
    (h : upload S M step w i = (r, w', i')) :
    L.Inv w'.srv ∧
    (∀ j, (∀ f ∈ fs, ¬ f.Covers j) → L.content w'.srv j = L.content w.srv j) ∧
    (r = .ok () → L.content w'.srv = applyAll fs (L.content w.srv) ∧
      (w.client.canFlush = true ∨ fs ≠ [] → L.durable w'.srv = L.content w'.srv) ∧
      i'.data = i.data.drop s.length) := by
  have hp' : ∃ trail, i.data <+: s ++ trail := by
    rcases hp with hp | ⟨t, ht⟩
    · exact ⟨[], by simpa using hp⟩
    · exact ⟨t, by rw [ht]; exact List.prefix_refl _⟩
  obtain ⟨trail, hp'⟩ := hp'
  obtain ⟨h1, h2, h3, -⟩ := upload_spec L hS False M step hstep hs w i trail hi (fun h => h.elim)
    hp' h
  exact ⟨h1, h2, fun hr => ⟨(h3 hr).1, (h3 hr).2.1, (h3 hr).2.2.1⟩⟩

/-- C71: the restore of a complete stream succeeds if nothing can fail, the target is not smaller
than the source, and the frames are inside the target. -/
theorem C71_restore_succeeds {σ : Type} {S : HttpBackend.Server σ} (L : Lawful S.B) (hS : S.Proper)
    (M : Meta) (step : Nat) (hstep : 0 < step) {payload : Bytes} {fs : List Frame} {s : Bytes}
    (hs : Stream payload fs s) (w : World σ) (i : Stdin) (hi : L.Inv w.srv) (hp : s <+: i.data)
    (hc : none ∉ i.calls) (hg : ∀ n ∈ w.nets, n.Good) {v : Int} {n : Nat}
    (hv : M.load payload = .ok v) (hn : (HttpBackend.size S w).1 = .ok n) (hvn : v ≤ n)
    (hf : ∀ f ∈ fs, f.start + f.length ≤ S.ticketSize ∧ ¬ L.MayFail f.start f.length)
    (h0 : ¬ L.MayFail 0 0) :
    ∃ w' i', upload S M step w i = (.ok (), w', i') := by
  cases hx : upload S M step w i with
  | mk r x =>
  obtain ⟨w', i'⟩ := x
  cases r with
  | ok u => exact ⟨w', i', rfl⟩
  | error e =>
    exfalso
    have hp' : ∃ trail, i.data <+: s ++ trail := by
      obtain ⟨t, ht⟩ := hp
      exact ⟨t, by rw [ht]; exact List.prefix_refl _⟩
    obtain ⟨trail, hp'⟩ := hp'
    obtain ⟨-, -, -, -, h5⟩ := upload_spec L hS True M step hstep hs w i trail hi (fun _ => hg)
      hp' hx
    rcases h5 e rfl hp hc with h | h | ⟨v', n', h1, h2, h3⟩ | ⟨f, h1, h2⟩ | h
    · exact h v hv
    · exact h n hn
    · rw [hv] at h1
      rw [hn] at h2
      cases h1
      cases h2
      omega
    · obtain ⟨a, b⟩ := hf f h1
      rcases h2 with h2 | h2 | h2
      · exact h2 trivial
      · omega
      · exact b (mayFail_zero.2 h2)
    · rcases h with h | h | h
      · exact h trivial
      · omega
      · exact h0 h

/-- C71: a stream of an image that is larger than the target is refused, and nothing is written. -/
theorem C71_small_target {σ : Type} {S : HttpBackend.Server σ} (L : Lawful S.B) (hS : S.Proper)
    (M : Meta) (step : Nat) (hstep : 0 < step) {payload : Bytes} {fs : List Frame} {s : Bytes}
    (hs : Stream payload fs s) (w : World σ) (i : Stdin) (hi : L.Inv w.srv)
    (hp : i.data <+: s ∨ s <+: i.data) {v : Int} {n : Nat} (hv : M.load payload = .ok v)
    (hn : (HttpBackend.size S w).1 = .ok n) (hvn : n < v) {r : Except Err Unit} {w' : World σ}
    {i' : Stdin} (h : upload S M step w i = (r, w', i')) :
    (∃ e, r = .error e) ∧ L.content w'.srv = L.content w.srv := by
  have hp' : ∃ trail, i.data <+: s ++ trail := by
    rcases hp with hp | ⟨t, ht⟩
    · exact ⟨[], by simpa using hp⟩
    · exact ⟨t, by rw [ht]; exact List.prefix_refl _⟩
  obtain ⟨trail, hp'⟩ := hp'
  obtain ⟨-, -, h3, h4, -⟩ := upload_spec L hS False M step hstep hs w i trail hi (fun h => h.elim)
    hp' h
  refine ⟨?_, h4 v n hv hn hvn⟩
  cases r with
  | error e => exact ⟨e, rfl⟩
  | ok u =>
    exfalso
    obtain ⟨-, -, -, -, v', n', a, b, c⟩ := h3 rfl
    rw [hv] at a
    rw [hn] at b
    cases a
    cases b
    omega

/-! ### Backup and restore -/

/-- The frames tell the truth about the image. -/
def Of (img : Nat → Byte) (fs : List Frame) : Prop := ∀ f ∈ fs, ∀ i, f.Covers i → f.byte i = img i

theorem apply_of {img : Nat → Byte} {fs : List Frame} (h : Of img fs) (dst : Nat → Byte) (i : Nat) :
    applyAll fs dst i = if (∃ f ∈ fs, f.Covers i) then img i else dst i := by
  induction fs generalizing dst with
  | nil => simp [applyAll]
  | cons f fs ih =>
    have ih := ih (fun g hg => h g (by simp [hg])) (f.apply dst)
    show applyAll fs (f.apply dst) i = _
    rw [ih]
    by_cases h1 : ∃ g ∈ fs, g.Covers i
    · rw [if_pos h1, if_pos]
      obtain ⟨g, a, b⟩ := h1
      exact ⟨g, by simp [a], b⟩
    · rw [if_neg h1]
      unfold Frame.apply
      by_cases h2 : f.Covers i
      · rw [if_pos h2, if_pos ⟨f, by simp, h2⟩]
        exact h f (by simp) i h2
      · rw [if_neg h2, if_neg]
        rintro ⟨g, a, b⟩
        rcases List.mem_cons.1 a with rfl | a
        · exact h2 b
        · exact h1 ⟨g, a, b⟩

/-- The zero extents read as zeroes. -/
def ZeroesRight (img : Nat → Byte) (exts : List SparseStream.Extent) : Prop :=
  ∀ e ∈ exts, e.zero = true → ∀ i, e.start ≤ i → i < e.start + e.length → img i = 0

theorem records_of {img : Nat → Byte} {exts : List SparseStream.Extent} {fs : List Frame}
    (h : List.Forall₂ (Records img) exts fs) (hz : ZeroesRight img exts) : Of img fs := by
  induction h with
  | nil => intro f hf; simp at hf
  | @cons e f exts fs h1 h2 ih =>
    have ih := ih (fun e he => hz e (by simp [he]))
    intro g hg i hi
    rcases List.mem_cons.1 hg with rfl | hg
    · obtain ⟨a1, a2, a3, -⟩ := h1
      rw [a3 i hi]
      split
      · rename_i hze
        obtain ⟨b1, b2⟩ := hi
        exact (hz e (by simp) hze i (by omega) (by omega)).symm
      · rfl
    · exact ih g hg i hi

theorem records_covers {img : Nat → Byte} {exts : List SparseStream.Extent} {fs : List Frame}
    (h : List.Forall₂ (Records img) exts fs) (i : Nat) :
    (∃ f ∈ fs, f.Covers i) ↔ ∃ e ∈ exts, e.start ≤ i ∧ i < e.start + e.length := by
  induction h with
  | nil => simp
  | @cons e f exts fs h1 h2 ih =>
    obtain ⟨a1, a2, -⟩ := h1
    simp only [List.mem_cons, exists_eq_or_imp, ih]
    simp only [Frame.Covers, a1, a2]

/-- C71: a full backup of an image, restored to another image, makes it equal to the image, up to
the end of the backed up image.  For all servers, networks, buffers, extents that cover the image,
and whatever was in the target.  Bytes after the end of the image do not change. -/
theorem C71_round_trip {σ τ : Type} {S : HttpBackend.Server σ} (L : Lawful S.B) (hS : S.Proper)
    {T : HttpBackend.Server τ} (LT : Lawful T.B) (hT : T.Proper) (M : Meta)
    (step step' : Nat) (hstep : 0 < step) (hstep' : 0 < step') (exts : List SparseStream.Extent)
    (size : Nat) (hcover : ∀ i, i < size ↔ ∃ e ∈ exts, e.start ≤ i ∧ i < e.start + e.length)
    (hne : exts ≠ []) (hpos : ∀ e ∈ exts, 0 < e.length)
    (w : World σ) (hi : L.Inv w.srv) (hz : ZeroesRight (L.content w.srv) exts)
    (hin : size ≤ min S.ticketSize (S.B.size w.srv)) (hsize : S.B.size w.srv < 2 ^ 64)
    (hlen : ∀ v d b, (M.dump v d b).length < 2 ^ 64) {w' : World σ} {o o' : Stdout}
    (ho : o.out = [])
    (hd : SparseStream.download S M step false (.ok exts) w o = (.ok (), w', o'))
    (x : World τ) (hx : LT.Inv x.srv) (calls : List (Option Nat)) {x' : World τ} {i' : Stdin}
    (hu : upload T M step' x ⟨o'.out, calls⟩ = (.ok (), x', i')) :
    (∀ j, j < size → LT.content x'.srv j = L.content w.srv j) ∧
    (∀ j, size ≤ j → LT.content x'.srv j = LT.content x.srv j) ∧
    LT.durable x'.srv = LT.content x'.srv := by
  have hend : ∀ e ∈ exts, e.start + e.length ≤ size := by
    intro e he
    have hp := hpos e he
    have := (hcover (e.start + e.length - 1)).2 ⟨e, he, by omega, by omega⟩
    omega
  obtain ⟨last, hl⟩ : ∃ last, exts.getLast? = some last :=
    ⟨exts.getLast hne, List.getLast?_eq_some_getLast hne⟩
  obtain ⟨⟨payload, fs, s, p, -, h2, h3, h4, h5, h6⟩, -⟩ := C71_backup L hS M step hstep false exts w o
    hi (fun e he => ⟨hpos e he, by have := hend e he; omega⟩) hsize hl (fun d => hlen _ _ _) hd
  have hps := h6 rfl
  subst hps
  rw [ho, List.nil_append] at h4
  have hwant : wanted false exts = exts := rfl
  rw [hwant] at h2
  obtain ⟨-, -, r3⟩ := C71_restore LT hT M step' hstep' h3 x ⟨o'.out, calls⟩ hx
    (.inr (by rw [h4]; exact List.prefix_refl _)) hu
  obtain ⟨r3, r4, -⟩ := r3 rfl
  have hof := records_of h2 hz
  have hfs : fs ≠ [] := by
    rintro rfl
    cases h2
    exact hne rfl
  refine ⟨fun j hj => ?_, fun j hj => ?_, r4 (.inr hfs)⟩
  · rw [r3, apply_of hof, if_pos]
    exact (records_covers h2 j).2 ((hcover j).1 hj)
  · rw [r3, apply_of hof, if_neg]
    intro h
    have := (hcover j).2 ((records_covers h2 j).1 h)
    omega

/-! ### Chains of incremental backups -/

/-- A series of streams that lead from one image of `size` bytes to another one: every stream tells
the truth about the next image, and has all the bytes that changed. -/
inductive Series (size : Nat) : (Nat → Byte) → List Bytes → (Nat → Byte) → Prop
  | nil (img : Nat → Byte) : Series size img [] img
  | cons {img img1 img2 : Nat → Byte} {payload s : Bytes} {fs : List Frame} {ss : List Bytes} :
      Stream payload fs s → Of img1 fs →
      (∀ j, j < size → img j ≠ img1 j → ∃ f ∈ fs, f.Covers j) →
      Series size img1 ss img2 → Series size img (s :: ss) img2

/-- The streams are restored successfully, one after the other, every time with a new client. -/
inductive RestoredAll {σ : Type} (S : HttpBackend.Server σ) (M : Meta) : σ → List Bytes → σ → Prop
  | nil (t : σ) : RestoredAll S M t [] t
  | cons {t t2 : σ} {s : Bytes} {ss : List Bytes} {client : HttpBackend.Client} {nets : List Net} {calls : List (Option Nat)}
      {step : Nat} {w1 : World σ} {i1 : Stdin} : 0 < step →
      upload S M step ⟨client, t, nets⟩ ⟨s, calls⟩ = (.ok (), w1, i1) →
      RestoredAll S M w1.srv ss t2 → RestoredAll S M t (s :: ss) t2

/-- C71: restoring a series of backups one after the other restores the image of the last one. -/
theorem C71_chain {σ : Type} {S : HttpBackend.Server σ} (L : Lawful S.B) (hS : S.Proper) (M : Meta)
    (size : Nat) {img img' : Nat → Byte} {ss : List Bytes} (h : Series size img ss img') :
    ∀ {t t' : σ}, L.Inv t → RestoredAll S M t ss t' → (∀ j, j < size → L.content t j = img j) →
    L.Inv t' ∧ ∀ j, j < size → L.content t' j = img' j := by
  induction h with
  | nil img =>
    intro t t' hi hr himg
    cases hr
    exact ⟨hi, himg⟩
  | cons h1 h2 h3 _ ih =>
    intro t t' hi hr himg
    cases hr with
    | cons hstep hu hr =>
    obtain ⟨a1, a2, a3⟩ := C71_restore L hS M _ hstep h1 _ _ hi (.inr (List.prefix_refl _)) hu
    refine ih a1 hr fun j hj => ?_
    rw [(a3 rfl).1, apply_of h2]
    split
    · rfl
    · rename_i hno
      rw [himg j hj]
      exact Classical.byContradiction fun hne => hno (h3 j hj hne)

/-- C71: a successful incremental backup of an image is a member of a series, from every image that
differs only in the dirty extents. -/
theorem C71_incremental {σ : Type} {S : HttpBackend.Server σ} (L : Lawful S.B) (hS : S.Proper)
    (M : Meta) (step : Nat) (hstep : 0 < step) (exts : List SparseStream.Extent) (size : Nat)
    (w : World σ) (hi : L.Inv w.srv)
    (he : ∀ e ∈ exts, 0 < e.length ∧ e.start + e.length ≤ min S.ticketSize (S.B.size w.srv))
    (hne : exts ≠ []) (hz : ZeroesRight (L.content w.srv) exts)
    (hsize : S.B.size w.srv < 2 ^ 64) (hlen : ∀ v d b, (M.dump v d b).length < 2 ^ 64)
    {old : Nat → Byte} (hdirty : ∀ j, j < size → old j ≠ L.content w.srv j →
      ∃ e ∈ exts, e.dirty = true ∧ e.start ≤ j ∧ j < e.start + e.length)
    {w' : World σ} {o o' : Stdout} (ho : o.out = [])
    (hd : SparseStream.download S M step true (.ok exts) w o = (.ok (), w', o'))
    {ss : List Bytes} {img : Nat → Byte} (hss : Series size (L.content w.srv) ss img) :
    Series size old (o'.out :: ss) img := by
  obtain ⟨last, hl⟩ : ∃ last, exts.getLast? = some last :=
    ⟨exts.getLast hne, List.getLast?_eq_some_getLast hne⟩
  obtain ⟨⟨payload, fs, s, p, -, h2, h3, h4, h5, h6⟩, -⟩ := C71_backup L hS M step hstep true exts w o
    hi he hsize hl (fun d => hlen _ _ _) hd
  have hps := h6 rfl
  subst hps
  rw [ho, List.nil_append] at h4
  rw [h4]
  have hwant : wanted true exts = exts.filter (·.dirty) := rfl
  rw [hwant] at h2
  refine .cons h3 (records_of h2 fun e he => hz e (List.mem_filter.1 he).1) (fun j hj hne => ?_) hss
  obtain ⟨e, a1, a2, a3⟩ := hdirty j hj hne
  exact (records_covers h2 j).2 ⟨e, List.mem_filter.2 ⟨a1, a2⟩, a3⟩

/-! ### A concrete backup -/

/-- Metadata for the examples. -/
def toyMeta : Meta := ⟨fun v _ _ => List.replicate v 1, fun b => .ok b.length⟩

/-- An image of 6 bytes, with a zero extent. -/
def smallDisk : World Memory.State :=
  ⟨⟨0, none, true, true, true⟩, ⟨.rw, [1, 2, 0, 0, 0, 3], 0, false⟩, []⟩

/-- Its extents; the second byte was changed after the last backup. -/
def smallExtents : List SparseStream.Extent :=
  [⟨0, 1, false, false⟩, ⟨1, 1, false, true⟩, ⟨2, 3, true, true⟩, ⟨5, 1, false, false⟩]

/-- A target of 8 bytes. -/
def largeDisk : World Memory.State :=
  ⟨⟨0, none, true, true, true⟩, ⟨.rw, [9, 9, 9, 9, 9, 9, 9, 9], 0, false⟩, []⟩

/-- The server of both images. -/
def sparseServer : HttpBackend.Server Memory.State :=
  toyServer Memory.backend 2 8 (fun s => .ok [(0, s.buf.length)])

theorem sparseServer_proper : sparseServer.Proper :=
  toyServer_proper _ _ _ _ (by decide) (by decide)

/-- The backup of the small image. -/
def smallBackup (incremental : Bool) : Bytes :=
  (SparseStream.download sparseServer toyMeta 4 incremental (.ok smallExtents) smallDisk ⟨[], []⟩).2.2.out

theorem smallBackup_ok : ∀ b, (SparseStream.download sparseServer toyMeta 4 b (.ok smallExtents)
    smallDisk ⟨[], []⟩).1.isOk = true := by
  intro b
  cases b <;> decide +kernel

/-- The bytes of the incremental backup. -/
theorem smallBackup_incremental : smallBackup true =
    ("meta 0000000000000000 0000000000000006\r\n".toUTF8.toList ++ [1, 1, 1, 1, 1, 1, 13, 10] ++
    "data 0000000000000001 0000000000000001\r\n".toUTF8.toList ++ [2, 13, 10] ++
    "zero 0000000000000002 0000000000000003\r\n".toUTF8.toList ++
    "stop 0000000000000000 0000000000000000\r\n".toUTF8.toList) := by decide +kernel

theorem smallRestore : (upload sparseServer toyMeta 4 largeDisk ⟨smallBackup false, []⟩).1.isOk = true ∧
    (upload sparseServer toyMeta 4 largeDisk ⟨smallBackup false, []⟩).2.1.srv.buf =
      [1, 2, 0, 0, 0, 3, 9, 9] := by decide +kernel

theorem smallRestore_cut : ∀ k, k < 50 →
    (upload sparseServer toyMeta 4 largeDisk ⟨(smallBackup true).take k, []⟩).1.isOk = false := by
  decide +kernel

theorem smallExtents_readable : ∀ e ∈ smallExtents, 0 < e.length ∧
    e.start + e.length ≤ min sparseServer.ticketSize (sparseServer.B.size smallDisk.srv) := by
  decide

theorem smallExtents_zeroes : ZeroesRight (Memory.lawful.content smallDisk.srv) smallExtents := by
  have key : ∀ e ∈ smallExtents, e.zero = true → ∀ k, k < e.length →
      byteAt smallDisk.srv.buf (e.start + k) = 0 := by decide
  intro e he hz i h1 h2
  have := key e he hz (i - e.start) (by omega)
  rwa [show e.start + (i - e.start) = i by omega] at this

theorem smallExtents_cover (i : Nat) :
    i < 6 ↔ ∃ e ∈ smallExtents, e.start ≤ i ∧ i < e.start + e.length := by
  simp only [smallExtents, List.mem_cons, List.not_mem_nil, or_false, exists_eq_or_imp,
    exists_eq_left]
  omega

/-- The hypotheses of `C71_backup` and `C71_round_trip` hold for the concrete images, with toy
metadata of a bounded size. -/
def boundMeta : Meta := ⟨fun v _ _ => List.replicate (min v 100) 1, fun b => .ok b.length⟩

theorem boundMeta_length (v d : Nat) (b : Bool) : (boundMeta.dump v d b).length < 2 ^ 64 := by
  simp only [boundMeta, List.length_replicate]
  omega

example {w' x' : World Memory.State} {o' : Stdout} {i' : Stdin}
    (hd : SparseStream.download sparseServer boundMeta 4 false (.ok smallExtents) smallDisk ⟨[], []⟩ =
      (.ok (), w', o'))
    (hu : upload sparseServer boundMeta 3 largeDisk ⟨o'.out, []⟩ = (.ok (), x', i')) :
    ∀ j, j < 6 → byteAt x'.srv.buf j = byteAt [1, 2, 0, 0, 0, 3] j :=
  (C71_round_trip (S := sparseServer) Memory.lawful sparseServer_proper (T := sparseServer)
    Memory.lawful sparseServer_proper boundMeta 4 3 (by decide) (by decide) smallExtents 6
    smallExtents_cover (by decide) (by decide) smallDisk rfl smallExtents_zeroes (by decide)
    (by decide) boundMeta_length rfl hd largeDisk rfl [] hu).1

theorem boundBackup_ok : ∀ b, (SparseStream.download sparseServer boundMeta 4 b (.ok smallExtents)
    smallDisk ⟨[], []⟩).1.isOk = true := by
  intro b
  cases b <;> decide +kernel

/-- A block device of 8 bytes, without faults. -/
def blockDisk : World File.State :=
  ⟨⟨0, none, true, false, true⟩,
    ⟨[9, 9, 9, 9, 9, 9, 9, 9], [9, 9, 9, 9, 9, 9, 9, 9], 0, true, true, true, [], [], []⟩, []⟩

/-- The server of the block device. -/
def blockServer : HttpBackend.Server File.State :=
  toyServer (File.backend ⟨true, 4, true⟩) 4 8 (fun s => .ok [(0, s.data.length)])

/-- The backup is restored to the block device: the hypotheses of `C71_restore_succeeds` hold. -/
example : ∃ s w' i', upload blockServer boundMeta 4 blockDisk ⟨s, []⟩ = (.ok (), w', i') ∧
    ∃ payload fs, Stream payload fs s ∧ fs.length = 4 := by
  cases hd : SparseStream.download sparseServer boundMeta 4 false (.ok smallExtents) smallDisk
      ⟨[], []⟩ with
  | mk r y =>
  obtain ⟨w', o'⟩ := y
  have hok := boundBackup_ok false
  rw [hd] at hok
  cases r with
  | error e => cases hok
  | ok u =>
  obtain ⟨⟨payload, fs, s, p, h1, h2, h3, h4, h5, h6⟩, -⟩ := C71_backup (S := sparseServer)
    Memory.lawful sparseServer_proper boundMeta 4 (by decide) false smallExtents smallDisk ⟨[], []⟩
    rfl smallExtents_readable (by decide) (last := ⟨5, 1, false, false⟩) rfl
    (fun d => boundMeta_length _ _ _) hd
  have hend : (∀ f ∈ fs, f.start + f.length ≤ 8) ∧ fs.length = 4 := by
    have h2' : List.Forall₂ (Records (Memory.lawful.content smallDisk.srv)) smallExtents fs := h2
    clear h1 h3
    unfold smallExtents at h2'
    rcases h2' with _ | ⟨a1, _ | ⟨a2, _ | ⟨a3, _ | ⟨a4, h⟩⟩⟩⟩
    cases h
    refine ⟨fun f hf => ?_, rfl⟩
    simp only [List.mem_cons, List.not_mem_nil, or_false] at hf
    rcases hf with rfl | rfl | rfl | rfl
    · rw [a1.1, a1.2.1]; decide
    · rw [a2.1, a2.2.1]; decide
    · rw [a3.1, a3.2.1]; decide
    · rw [a4.1, a4.2.1]; decide
  have hfail : ∀ f n, f + n ≤ 8 →
      ¬ (File.lawful ⟨true, 4, true⟩ (by decide) True 8 (by decide)).MayFail f n := by
    rintro f n hfn ⟨k, hk, hm⟩
    rcases hm with hm | hm
    · exact hm trivial
    · have h1 : k ≤ (f + n + 4 - 1) / 4 * 4 := hk
      have h2 : 8 < k := hm.2
      omega
  obtain ⟨hend, hlen⟩ := hend
  obtain ⟨x', i', hu⟩ := C71_restore_succeeds (S := blockServer)
    (File.lawful ⟨true, 4, true⟩ (by decide) True 8 (by decide))
    (toyServer_proper _ _ _ _ (by decide) (by decide)) boundMeta 4 (by decide) h3 blockDisk ⟨s, []⟩
    ⟨fun _ => rfl, fun _ => rfl⟩ (List.prefix_refl _) (by simp) (by simp [blockDisk])
    (v := 6) (n := 8) (by rw [h1]; rfl) rfl (by decide) (fun f hf => ⟨hend f hf, hfail _ _ (hend f hf)⟩)
    (hfail 0 0 (by decide))
  exact ⟨s, x', i', hu, payload, fs, h3, hlen⟩

/-- A chain of a full and an incremental backup exists. -/
example : ∃ ss : List Bytes, ss.length = 2 ∧
    Series 6 (fun _ => 7) ss (Memory.lawful.content smallDisk.srv) := by
  cases hd : SparseStream.download sparseServer boundMeta 4 true (.ok smallExtents) smallDisk
      ⟨[], []⟩ with
  | mk r y =>
  obtain ⟨w', o'⟩ := y
  have hok := boundBackup_ok true
  rw [hd] at hok
  cases r with
  | error e => cases hok
  | ok u =>
  have h2 := C71_incremental (S := sparseServer) Memory.lawful sparseServer_proper boundMeta 4
    (by decide) smallExtents 6 smallDisk rfl smallExtents_readable (by decide) smallExtents_zeroes
    (by decide) boundMeta_length (old := byteAt [1, 7, 7, 0, 0, 3]) (by decide) rfl hd
    (.nil _)
  have hmeta := frame_header "meta" 0 0 (by decide) (by decide)
  have hdata := frame_header "data" 0 6 (by decide) (by decide)
  have hstop := frame_header "stop" 0 0 (by decide) (by decide)
  refine ⟨[_, o'.out], rfl, .cons (payload := []) (fs := [.data 0 [1, 7, 7, 0, 0, 3]])
    ⟨0, _, _, hmeta, .data hdata (by decide) (.stop hstop), rfl⟩ ?_ ?_ h2⟩
  · intro f hf i hi
    simp only [List.mem_singleton] at hf
    subst hf
    rfl
  · intro j hj _
    exact ⟨.data 0 [1, 7, 7, 0, 0, 3], by simp, by simpa [Frame.Covers, Frame.start, Frame.length] using hj⟩

/-- C71: the bytes of a larger target after the end of the restored image are not changed, so the
target does not read as the image followed by zeroes: old data of the target is left. -/
theorem C71_counterexample_larger_target :
    ∃ (w x : World Memory.State) (exts : List SparseStream.Extent) (w' x' : World Memory.State)
      (o : Stdout) (i : Stdin),
      SparseStream.download sparseServer toyMeta 4 false (.ok exts) w ⟨[], []⟩ = (.ok (), w', o) ∧
      upload sparseServer toyMeta 4 x ⟨o.out, []⟩ = (.ok (), x', i) ∧
      w.srv.buf.length = 6 ∧ byteAt x'.srv.buf 6 ≠ 0 := by
  have h1 := smallBackup_ok false
  have h2 := smallRestore
  unfold smallBackup at h2
  cases hd : SparseStream.download sparseServer toyMeta 4 false (.ok smallExtents) smallDisk
      ⟨[], []⟩ with
  | mk r y =>
  obtain ⟨w', o⟩ := y
  rw [hd] at h1 h2
  cases hu : upload sparseServer toyMeta 4 largeDisk ⟨o.out, []⟩ with
  | mk r2 z =>
  obtain ⟨x', i⟩ := z
  simp only at h1 h2
  rw [hu] at h2
  cases r with
  | error e => cases h1
  | ok u =>
    cases r2 with
    | error e => cases h2.1
    | ok u =>
      refine ⟨smallDisk, largeDisk, smallExtents, w', x', o, i, hd, hu, rfl, ?_⟩
      have := h2.2
      simp only at this
      rw [this]
      decide

end Imageio.Props
