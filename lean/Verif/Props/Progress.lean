import Verif.Lemmas.ProgressBar
import Verif.Props.ClientIo
/-! The progress bar of the client (C66). -/
namespace Imageio.Props
open Imageio Imageio.Progress Imageio.Spec Imageio.Io Imageio.Extents

/-! ## The value -/

/-- **C66**, the percent: between 0 and 100, not going back, and 100 exactly when all the bytes were transferred (for
sizes up to 2 PiB); up to 16 TiB, never more than the whole number of percents, different from it only when
the exact percent is an integer, and then one less.  Missing: the exact percent in that case, see
`C66_counterexample_percent`. -/
theorem C66_percent_partial {done size : Nat} (hs : 0 < size) (hd : done ≤ size) :
    0 ≤ percent done size ∧ percent done size ≤ 100 ∧
    (∀ more, done ≤ more → percent done size ≤ percent more size) ∧
    (size ≤ 2 ^ 51 → (percent done size = 100 ↔ done = size)) ∧
    (size ≤ 2 ^ 44 →
      percent done size ≤ percentOf done size ∧ (percentOf done size : ℤ) ≤ percent done size + 1 ∧
      (¬ size ∣ done * 100 → percent done size = percentOf done size)) := by
  refine ⟨percent_nonneg .., percent_le hs hd, fun m hm => percent_mono _ hm, ?_, ?_⟩
  · intro hb
    constructor
    · intro h
      by_contra hne
      have := percent_lt_full hs hb (show done < size by omega)
      omega
    · rintro rfl; exact percent_full hs
  · intro hb
    have hk : percentOf done size ≤ 100 := by
      unfold percentOf
      rw [Nat.div_le_iff_le_mul_add_pred hs]
      have : done * 100 ≤ size * 100 := Nat.mul_le_mul_right _ hd
      omega
    have hle : percentOf done size * size ≤ done * 100 := Nat.div_mul_le_self ..
    have hlt : done * 100 < (percentOf done size + 1) * size := by
      rw [Nat.mul_comm (percentOf done size + 1)]
      exact Nat.lt_mul_div_succ _ hs
    have up : percent done size ≤ percentOf done size := by
      by_cases h : percentOf done size = 100
      · rw [h]; exact percent_le hs hd
      · have := percent_lt (k := percentOf done size + 1) hs ?_ hlt
        · push_cast at this; omega
        · have : (percentOf done size + 1) * size ≤ 100 * 2 ^ 44 := Nat.mul_le_mul (by omega) hb
          refine this.trans (by norm_num)
    refine ⟨up, ?_, ?_⟩
    · have := pred_le_percent hs hk hle
      omega
    · intro hnd
      have : percentOf done size * size < done * 100 := by
        rcases Nat.lt_or_eq_of_le hle with h | h
        · exact h
        · exact absurd ⟨_, (Nat.mul_comm .. ▸ h).symm⟩ hnd
      have := le_percent hs (hd.trans hb) this
      omega

/-- An image of 10 GiB, and 3 GiB: 30%.  -/
example : percent (3 * 2 ^ 30) (10 * 2 ^ 30) = 30 ∧ percent (7 * 2 ^ 30 + 5) (10 * 2 ^ 30) = 70 := by
  decide +kernel

/-- After 29 bytes of 100 the bar shows 28 percent. -/
theorem C66_counterexample_percent : percentOf 29 100 = 29 ∧ percent 29 100 = 28 := by decide +kernel

/-! ## The drawings -/

/-- **C66**, the drawings: for all calls of the methods of the bar, in any order, from any threads, the drawn bytes and
percents never go back; a drawing differs from the one before it in the phase, in the size, or has a higher percent, or is
the last; the newest drawing shows the current percent, size and phase; and the bytes are the sum of the
reported bytes. -/
theorem C66_draws (p e : Option Http.Str) (n : Option Nat) (l : List Call) :
    ((Bar.new p e n).calls l).draws.Pairwise (fun a b => a.transferred ≤ b.transferred ∧ a.value ≤ b.value) ∧
    ((Bar.new p e n).calls l).draws.IsChain (fun a b =>
      a.phase ≠ b.phase ∨ a.size ≠ b.size ∨ a.value < b.value ∨ b.last = true) ∧
    (∃ pre d, ((Bar.new p e n).calls l).draws = pre ++ [d] ∧ d.value = ((Bar.new p e n).calls l).value ∧
      d.size = ((Bar.new p e n).calls l).size ∧ d.phase = ((Bar.new p e n).calls l).phase) ∧
    ((Bar.new p e n).calls l).done = transferred l := by
  have h := inv_calls (inv_new p e n) l
  obtain ⟨pre, d, h1, h2, h3, h4, -⟩ := h.drawn
  refine ⟨h.pairs.imp fun h => ⟨h.1, h.2.1⟩, h.chain.imp fun _ _ h => ?_, ⟨pre, d, h1, h2, h3, h4⟩, ?_⟩
  · rcases h with h | h | h | h
    · exact .inr (.inr (.inr h))
    · exact .inl h
    · exact .inr (.inl h)
    · exact .inr (.inr (.inl h))
  · rw [(done_calls (b := Bar.new p e n) rfl l).1]
    simp [Bar.new, Bar.draw]

/-- **C66**, the end: a bar that was closed drew the last line exactly once, at the end, with all the bytes
reported before the close; no drawing of a bar that was not closed is the last. -/
theorem C66_last (p e : Option Http.Str) (n : Option Nat) (l : List Call) :
    (Call.close ∈ l → ∃ pre d, ((Bar.new p e n).calls l).draws = pre ++ [d] ∧ d.last = true ∧
      d.transferred = transferred l ∧ ∀ x ∈ pre, x.last = false) ∧
    (Call.close ∉ l → ∀ x ∈ ((Bar.new p e n).calls l).draws, x.last = false) ∧
    (∀ more, Call.close ∈ l → ((Bar.new p e n).calls (l ++ more)).draws = ((Bar.new p e n).calls l).draws) := by
  have h := inv_calls (inv_new p e n) l
  have hd := done_calls (b := Bar.new p e n) rfl l
  have h0 : (Bar.new p e n).done = 0 := rfl
  rw [h0, Nat.zero_add] at hd
  obtain ⟨pre, d, h1, h2, h3, h4, h5, h6, h7⟩ := h.drawn
  have hp := h.pairs
  rw [h1, List.pairwise_append] at hp
  have hpre : ∀ x ∈ pre, x.last = false := fun x hx => (hp.2.2 x hx d (List.mem_singleton.2 rfl)).2.2
  refine ⟨fun hc => ⟨pre, d, h1, ?_, ?_, hpre⟩, fun hc x hx => ?_, fun more hc => ?_⟩
  · rw [h6, hd.2.2 hc]
  · rw [h7 (hd.2.2 hc), hd.1]
  · rw [h1, List.mem_append, List.mem_singleton] at hx
    rcases hx with hx | rfl
    · exact hpre x hx
    · rw [h6, Bool.eq_false_iff]
      exact fun h => hc (hd.2.1 h)
  · have : (Bar.new p e n).calls (l ++ more) = ((Bar.new p e n).calls l).calls more := List.foldl_append ..
    rw [this, calls_closed (hd.2.2 hc)]

/-- Two workers, 7 of 10 bytes, then an error. -/
example : ((Bar.new none (some (Images.lit "command failed")) none).calls
      [.setSize (some 10), .setPhase (some (Images.lit "uploading image")), .update 4, .update 0, .update 3,
       .setPhase (some (Images.lit "command failed")), .close, .update 3, .close]).draws.map
      (fun d => (d.value, d.transferred, d.last)) =
    [(-1, 0, false), (-1, 0, false), (-1, 0, false), (40, 4, false), (70, 7, false), (70, 7, false), (70, 7, true)] := by
  decide +kernel

/-! ## A copy -/

/-- The last drawing when the context of the bar ends. -/
theorem exit_last {b : Bar} (h : Inv b) (hc : b.closed = false) (failed : Bool) :
    ∃ pre d, (b.exit failed).draws = pre ++ [d] ∧ (∀ x ∈ pre, x.last = false) ∧ d.last = true ∧ d.value = b.value ∧
      d.transferred = b.done ∧ d.size = b.size ∧ d.phase = if failed then b.errorPhase else b.phase := by
  have key : ∀ b : Bar, Inv b → b.closed = false → ∃ pre d, b.close.draws = pre ++ [d] ∧ (∀ x ∈ pre, x.last = false) ∧
      d.last = true ∧ d.value = b.value ∧ d.transferred = b.done ∧ d.size = b.size ∧ d.phase = b.phase := by
    intro b h hc
    refine ⟨b.draws, ⟨b.value, b.done, b.size, b.phase, true⟩, by simp [Bar.close, hc, Bar.draw], ?_, rfl, rfl, rfl, rfl, rfl⟩
    have hi := (inv_close h).pairs
    rw [show b.close.draws = b.draws ++ [⟨b.value, b.done, b.size, b.phase, true⟩] by simp [Bar.close, hc, Bar.draw],
      List.pairwise_append] at hi
    exact fun x hx => (hi.2.2 x hx _ (List.mem_singleton.2 rfl)).2.2
  cases failed with
  | false => simpa [Bar.exit] using key b h hc
  | true =>
    obtain ⟨u1, u2, u3, u4, u5⟩ := done_setPhase b b.errorPhase
    have hp : (b.setPhase b.errorPhase).phase = b.errorPhase := by
      unfold Bar.setPhase
      rw [hc]
      by_cases h : b.phase = b.errorPhase <;> simp [h, Bar.draw]
    obtain ⟨pre, d, k1, k2, k3, k4, k5, k6, k7⟩ := key _ (inv_setPhase h b.errorPhase) (u2.trans hc)
    exact ⟨pre, d, k1, k2, k3, k4.trans u4, k5.trans u1, k6.trans u3, k7.trans hp⟩

/-- A bar before a copy: only the phase and the size were set. -/
def FreshBar (b : Bar) : Prop :=
  ∃ p e n l, b = (Bar.new p e n).calls l ∧ ∀ c ∈ l, (∃ s, c = .setPhase s) ∨ ∃ n, c = .setSize n

theorem FreshBar.spec {b : Bar} (h : FreshBar b) : Inv b ∧ b.closed = false ∧ b.value = -1 ∧ b.done = 0 := by
  obtain ⟨p, e, n, l, rfl, hl⟩ := h
  refine ⟨inv_calls (inv_new p e n) l, ?_⟩
  have : ∀ (l : List Call) (b : Bar), b.closed = false ∧ b.value = -1 ∧ b.done = 0 →
      (∀ c ∈ l, (∃ s, c = .setPhase s) ∨ ∃ n, c = .setSize n) →
      (b.calls l).closed = false ∧ (b.calls l).value = -1 ∧ (b.calls l).done = 0 := by
    intro l
    induction l with
    | nil => exact fun b h _ => h
    | cons c l ih =>
      intro b hb hl
      refine ih (b.call c) ?_ (fun c hc => hl c (List.mem_cons_of_mem _ hc))
      rcases hl c (List.mem_cons_self ..) with ⟨s, rfl⟩ | ⟨n, rfl⟩
      · obtain ⟨u1, u2, u3, u4, -⟩ := done_setPhase b s
        exact ⟨u2.trans hb.1, u4.trans hb.2.1, u1.trans hb.2.2⟩
      · obtain ⟨u1, u2, u3, u4, -⟩ := done_setSize b n
        exact ⟨u2.trans hb.1, u3.trans hb.2.1, u1.trans hb.2.2⟩
  exact this l _ ⟨rfl, rfl, rfl⟩ hl

theorem withBar_spec {c : Cfg} {acts : List Io.Act} {d : Nat → Byte} {bar : Bar} {size : Nat} (hf : FreshBar bar)
    (hs : 0 < size) {s : Ex} {b : Bar} (h : WithBar c acts d bar size s b) :
    Ex.Reachable c acts d s ∧ Inv b ∧ Exact b size ∧ b.done = s.progress := by
  induction h with
  | init =>
    obtain ⟨f1, f2, f3, f4⟩ := hf.spec
    obtain ⟨u1, u2, u3, -⟩ := done_setSize bar (some size)
    exact ⟨.init, inv_setSize f1 _, ⟨u2.trans f2, size_setSize bar f2 _, .inr ⟨u3.trans f3, u1.trans f4⟩⟩,
      u1.trans f4⟩
  | quiet h hstep hp ih => exact ⟨.step ih.1 hstep, ih.2.1, ih.2.2.1, ih.2.2.2.trans hp.symm⟩
  | update h hstep ih =>
    refine ⟨.step ih.1 hstep, inv_update ih.2.1 _, exact_update hs ih.2.2.1 _, ?_⟩
    rw [(done_update _ ih.2.2.1.1 _).1, ih.2.2.2]
    have := C34_monotone hstep
    omega
  | phase h p ih =>
    exact ⟨ih.1, inv_setPhase ih.2.1 p, exact_setPhase ih.2.2.1 p, (done_setPhase _ p).1.trans ih.2.2.2⟩

/-- The last line of a bar whose copy transferred some bytes. -/
theorem withBar_last {c : Cfg} {acts : List Io.Act} {d : Nat → Byte} {bar : Bar} {size : Nat} (hf : FreshBar bar)
    (hs : 0 < size) {s : Ex} {b : Bar} (h : WithBar c acts d bar size s b) (failed : Bool) :
    ∃ pre x, (b.exit failed).draws = pre ++ [x] ∧ (∀ y ∈ pre, y.last = false) ∧ x.last = true ∧
      x.transferred = s.progress ∧ x.size = some size ∧ x.shown = some (percent s.progress size) ∧
      x.phase = if failed then b.errorPhase else b.phase := by
  obtain ⟨-, hi, he, hd⟩ := withBar_spec hf hs h
  obtain ⟨pre, x, h1, h2, h3, h4, h5, h6, h7⟩ := exit_last hi he.1 failed
  refine ⟨pre, x, h1, h2, h3, h5.trans hd, h6.trans he.2.1, ?_, h7⟩
  unfold Draw.shown
  rw [h6, he.2.1, h4]
  obtain ⟨m, rfl⟩ : ∃ m, size = m + 1 := ⟨size - 1, by omega⟩
  simp only [Option.some.injEq]
  rw [← hd]
  have := percent_nonneg b.done (m + 1)
  rcases he.2.2 with h | ⟨h, h'⟩
  · rw [h]; omega
  · rw [h, h']
    have : percent 0 (m + 1) = 0 := by
      unfold percent nearest; simp
    rw [this]; rfl

/-- **C66**, a copy: for any number of workers, any interleaving and any phases set meanwhile, the bar of a copy that
returned ends with 100% and the size of the image; the same for an incremental copy. -/
theorem C66_copy {c : Cfg} (hn : 0 < c.workers) {size : Nat} (hs : 0 < size) {d : Nat → Byte} {bar : Bar}
    (hf : FreshBar bar) {s : Ex} {b : Bar} (acts : List Io.Act)
    (ha : (∃ zero hole exts, acts = copyData zero hole exts ∧ Complete exts size) ∨
      ∃ exts, acts = copyDirty exts ∧ Tiles 0 (exts.map fun e => (e.start, e.length)) size)
    (h : WithBar c acts d bar size s b) (hd : s.main = .done none) (failed : Bool) :
    ∃ pre x, (b.exit failed).draws = pre ++ [x] ∧ (∀ y ∈ pre, y.last = false) ∧ x.last = true ∧
      x.transferred = size ∧ x.shown = some 100 := by
  have hp : s.progress = size := by
    rcases ha with ⟨zero, hole, exts, rfl, ht⟩ | ⟨exts, rfl, ht⟩
    · exact C34_copy hn ht (withBar_spec hf hs h).1 hd
    · exact C34_dirty hn ht (withBar_spec hf hs h).1 hd
  obtain ⟨pre, x, h1, h2, h3, h4, h5, h6, -⟩ := withBar_last hf hs h failed
  rw [hp] at h4 h6
  exact ⟨pre, x, h1, h2, h3, h4, by rw [h6, percent_full hs]⟩

/-- **C66**, a copy that stopped before the end: at every moment the bar shows less than 100% while bytes are missing, and
never more; when the context ends with an error the last line shows the error phase. -/
theorem C66_failed {c : Cfg} {size : Nat} (hs : 0 < size) (hb : size ≤ 2 ^ 51) {d : Nat → Byte} {bar : Bar}
    (hf : FreshBar bar) {s : Ex} {b : Bar} (acts : List Io.Act)
    (ha : (∃ zero hole exts, acts = copyData zero hole exts ∧ Complete exts size) ∨
      ∃ exts, acts = copyDirty exts ∧ Tiles 0 (exts.map fun e => (e.start, e.length)) size)
    (h : WithBar c acts d bar size s b) :
    ∃ pre x k, (b.exit true).draws = pre ++ [x] ∧ (∀ y ∈ pre, y.last = false) ∧ x.last = true ∧
      x.transferred = s.progress ∧ x.shown = some k ∧ 0 ≤ k ∧ k ≤ 100 ∧ (k = 100 ↔ s.progress = size) ∧
      x.phase = b.errorPhase := by
  have hp : s.progress ≤ size := by
    rcases ha with ⟨zero, hole, exts, rfl, ht⟩ | ⟨exts, rfl, ht⟩
    · exact C34_bound ht (withBar_spec hf hs h).1
    · exact C34_bound_dirty ht (withBar_spec hf hs h).1
  obtain ⟨pre, x, h1, h2, h3, h4, h5, h6, h7⟩ := withBar_last hf hs h true
  obtain ⟨p1, p2, -, p4, -⟩ := C66_percent_partial hs hp
  exact ⟨pre, x, _, h1, h2, h3, h4, h6, p1, p2, p4 hb, h7⟩

/-- The bar of every copy: a run of the executor has a bar. -/
theorem withBar_exists {c : Cfg} {acts : List Io.Act} {d : Nat → Byte} (bar : Bar) (size : Nat) {s : Ex}
    (h : Ex.Reachable c acts d s) : ∃ b, WithBar c acts d bar size s b := by
  induction h with
  | init => exact ⟨_, .init⟩
  | step h hs ih => obtain ⟨b, hb⟩ := ih; exact ⟨_, .update hb hs⟩

/-- The example of the copy with two workers, with a bar. -/
example : ∃ s b, WithBar exCfg (copyData true false exExts) (fun _ => 5)
    (Bar.new (some (Images.lit "uploading image")) none none) 10 s b ∧ s.main = .done none := by
  obtain ⟨s, hr, hs⟩ := execAll_exists (c := exCfg) (acts := copyData true false exExts)
    (d := fun _ => 5) (List.replicate 40 [0, 1, 2]).flatten
    (fun s => decide (s.main = .done none)) (by decide +kernel)
  obtain ⟨b, hb⟩ := withBar_exists (Bar.new (some (Images.lit "uploading image")) none none) 10 hr
  exact ⟨s, b, hb, of_decide_eq_true hs⟩

example : FreshBar (Bar.new (some (Images.lit "uploading image")) none none) := ⟨_, _, _, [], rfl, by simp⟩

/-- When the size is set after all the bytes were reported, the bar ends with 0%. -/
theorem C66_counterexample_late_size :
    (((Bar.new none none none).calls [.update 10, .setSize (some 10), .close]).draws.map
      fun d => (d.shown, d.transferred, d.last)) =
    [(none, 0, false), (some 0, 10, false), (some 0, 10, true)] := by decide +kernel

/-! ## Sizes -/

/-- The name of a unit, and the number of bytes. -/
def unitBytes : List (String × Nat) :=
  [("bytes", 1), ("KiB", 2 ^ 10), ("MiB", 2 ^ 20), ("GiB", 2 ^ 30), ("TiB", 2 ^ 40), ("PiB", 2 ^ 50)]

theorem fmtNat_eq (n : Nat) : Http.fmtNat n = (toString n).toList := by
  simp [Http.fmtNat, toString, Nat.repr]

/-- **C66**, sizes and rates: for a floating point number below 1 EiB, and so (`nearest_nat`) for every number of bytes below 8 PiB,
the text is the number in the largest unit that is not larger, with two digits after the point, off by at most half of the last
digit; below 1024 it is a number of bytes without digits after the point.  Missing: the numbers from 1 EiB, see
`C66_counterexample_humansize`. -/
theorem C66_humansize_partial {x : ℚ} (h0 : 0 ≤ x) (hx : nearest x = x) (hb : x < 2 ^ 60) :
    (x < 1024 → ∃ q : Nat, humansize x = (toString q).toList ++ " bytes".toList ∧ |(q : ℚ) - x| ≤ 1 / 2) ∧
    (1024 ≤ x → ∃ u ∈ unitBytes.tail, ∃ q : Nat, humansize x = inUnit q u.1 ∧
      (u.2 : ℚ) ≤ x ∧ x < 1024 * u.2 ∧ |(q : ℚ) / 100 - x / u.2| ≤ 1 / 200) := by
  have hround : ∀ y : ℚ, 0 ≤ y → |(((halfEven y).toNat : ℕ) : ℚ) - y| ≤ 1 / 2 := by
    intro y hy
    have h1 : 0 ≤ halfEven y := by
      have := halfEven_mono hy
      rwa [show halfEven 0 = 0 from halfEven_int 0] at this
    have h2 : (((halfEven y).toNat : ℕ) : ℚ) = (halfEven y : ℚ) := by
      have : (((halfEven y).toNat : ℕ) : ℤ) = halfEven y := Int.toNat_of_nonneg h1
      exact_mod_cast this
    rw [h2]; exact halfEven_error y
  have two : ∀ y : ℚ, 0 ≤ y → |(((halfEven (y * 100)).toNat : ℕ) : ℚ) / 100 - y| ≤ 1 / 200 := by
    intro y hy
    have := hround (y * 100) (by positivity)
    rw [abs_le] at this ⊢
    constructor <;> linarith [this.1, this.2]
  have txt : ∀ (q : Nat) (u : String), fixed2 q ++ ' ' :: Images.lit u = inUnit q u := by
    intro q u
    simp [fixed2, inUnit, fmtNat_eq, Images.lit]
  have n1 : nearest (x / 1024) = x / 1024 := nearest_div h0 hx
  have n2 : nearest (x / 1024 / 1024) = x / 1024 / 1024 := nearest_div (by positivity) n1
  have n3 : nearest (x / 1024 / 1024 / 1024) = x / 1024 / 1024 / 1024 := nearest_div (by positivity) n2
  have n4 : nearest (x / 1024 / 1024 / 1024 / 1024) = x / 1024 / 1024 / 1024 / 1024 := nearest_div (by positivity) n3
  have n5 : nearest (x / 1024 / 1024 / 1024 / 1024 / 1024) = x / 1024 / 1024 / 1024 / 1024 / 1024 :=
    nearest_div (by positivity) n4
  constructor
  · intro hlt
    refine ⟨(halfEven x).toNat, ?_, hround x h0⟩
    simp [humansize, units, humanLoop, hlt, fmtNat_eq, Images.lit]
  · intro hge
    have c0 : ¬ x < 1024 := not_lt.2 hge
    have fin : ∀ (u : String) (b : Nat) (y : ℚ), (u, b) ∈ unitBytes.tail → (0 : ℚ) < b → y = x / b →
        humansize x = fixed2 (halfEven (y * 100)).toNat ++ ' ' :: Images.lit u → 1 ≤ y → y < 1024 →
        ∃ u ∈ unitBytes.tail, ∃ q : Nat, humansize x = inUnit q u.1 ∧
          (u.2 : ℚ) ≤ x ∧ x < 1024 * u.2 ∧ |(q : ℚ) / 100 - x / u.2| ≤ 1 / 200 := by
      intro u b y hm hb hy ht h1 h2
      refine ⟨(u, b), hm, _, ht.trans (txt _ u), ?_, ?_, ?_⟩
      · rw [hy, le_div_iff₀ hb, one_mul] at h1; exact h1
      · rw [hy, div_lt_iff₀ hb] at h2; exact h2
      · simp only; rw [← hy]; exact two y (by linarith)
    by_cases c1 : x / 1024 < 1024
    · refine fin "KiB" (2 ^ 10) (x / 1024) (by simp [unitBytes]) (by norm_num) (by norm_num) ?_ (by linarith) c1
      simp [humansize, units, humanLoop, c0, n1, c1, Images.lit]
    by_cases c2 : x / 1024 / 1024 < 1024
    · refine fin "MiB" (2 ^ 20) (x / 1024 / 1024) (by simp [unitBytes]) (by norm_num) (by ring) ?_ (by linarith) c2
      simp [humansize, units, humanLoop, c0, n1, c1, n2, c2, Images.lit]
    by_cases c3 : x / 1024 / 1024 / 1024 < 1024
    · refine fin "GiB" (2 ^ 30) (x / 1024 / 1024 / 1024) (by simp [unitBytes]) (by norm_num) (by ring) ?_ (by linarith) c3
      simp [humansize, units, humanLoop, c0, n1, c1, n2, c2, n3, c3, Images.lit]
    by_cases c4 : x / 1024 / 1024 / 1024 / 1024 < 1024
    · refine fin "TiB" (2 ^ 40) (x / 1024 / 1024 / 1024 / 1024) (by simp [unitBytes]) (by norm_num) (by ring) ?_ (by linarith) c4
      simp [humansize, units, humanLoop, c0, n1, c1, n2, c2, n3, c3, n4, c4, Images.lit]
    have c5 : x / 1024 / 1024 / 1024 / 1024 / 1024 < 1024 := by norm_num at hb ⊢; linarith
    refine fin "PiB" (2 ^ 50) (x / 1024 / 1024 / 1024 / 1024 / 1024) (by simp [unitBytes]) (by norm_num) (by ring) ?_
      (by linarith) c5
    simp [humansize, units, humanLoop, c0, n1, c1, n2, c2, n3, c3, n4, c4, n5, c5, Images.lit]

/-- Every number of bytes below 8 PiB is a floating point number. -/
example (n : Nat) (h : n < 2 ^ 53) : nearest n = n := nearest_nat n h

example : humansize ((1536 : Nat) : ℚ) = "1.50 KiB".toList ∧ humansize ((1000 : Nat) : ℚ) = "1000 bytes".toList ∧
    humansize ((6 * 2 ^ 30 + 2 ^ 24 : Nat) : ℚ) = "6.02 GiB".toList := by decide +kernel

/-- 1 EiB is shown as 1 PiB. -/
theorem C66_counterexample_humansize : humansize ((2 ^ 60 : Nat) : ℚ) = "1.00 PiB".toList := by decide +kernel

end Imageio.Props
