import Verif.Lemmas.NbdCopyLive
import Verif.Props.Extents
import Mathlib.Logic.Relation
/-! Properties of the copy of an NBD export to another one (C45). -/
namespace Imageio.Props
open Imageio Imageio.NbdCopy Imageio.Spec

theorem good_of_expand {src : Nat → Byte} {size p : Nat} {exts : List (Nat × Bool)}
    (hs : p + (expand exts).length = size)
    (hz : ∀ i (h : i < (expand exts).length), (expand exts)[i] = true → src (p + i) = 0) :
    Good src size p (exts.map some) := by
  induction exts generalizing p with
  | nil => simpa [expand, Good] using hs
  | cons a rest ih =>
    obtain ⟨l, z⟩ := a
    have hx : expand ((l, z) :: rest) = List.replicate l z ++ expand rest := by simp [expand]
    have hlen : (expand ((l, z) :: rest)).length = l + (expand rest).length := by rw [hx]; simp
    refine ⟨?_, ih (by omega) ?_⟩
    · intro hzt i h1 h2
      have := hz (i - p) (by omega) (by
        simp only [hx]
        rw [List.getElem_append_left (by simp; omega)]
        simpa using hzt)
      rwa [show p + (i - p) = i by omega] at this
    · intro i h hi
      have := hz (l + i) (by omega) (by
        simp only [hx]
        rw [List.getElem_append_right (by simp)]
        simpa using hi)
      rwa [show p + (l + i) = p + l + i by omega] at this

/-- The extents describe the source: they cover the image, and where they say zero, it is zero. -/
structure Describe (src : Nat → Byte) (size : Nat) (exts : List (Nat × Bool)) : Prop where
  size : (expand exts).length = size
  zero : ∀ i (h : i < (expand exts).length), (expand exts)[i] = true → src i = 0

theorem Describe.good {src : Nat → Byte} {size : Nat} {exts : List (Nat × Bool)} (h : Describe src size exts) :
    Good src size 0 (exts.map some) :=
  good_of_expand (by rw [h.size]; omega) (fun i hi hz => by simpa using h.zero i hi hz)

/-- When the copy returns, the destination has the bytes of the source, nothing else was changed, everything
was flushed, and the progress is the size of the image: for every queue depth, buffer size, and interleaving
of the reader and the writer. -/
theorem C45_bytes {c : Cfg} (hb : 0 < c.bufSize) {size : Nat} {exts : List (Nat × Bool)}
    (hv : Describe c.src size exts) {dst0 : Nat → Byte} {s : St} (h : Reachable c (exts.map some) dst0 s)
    (hd : s.rd = .done none) :
    (∀ i, i < size → s.dst i = c.src i) ∧ (∀ i, size ≤ i → s.dst i = dst0 i) ∧ s.flushed = true ∧
    s.progress = size := by
  have hi := inv hb hv.good h
  obtain ⟨hst, hf, he, hq⟩ := hi.tail.done none hd rfl
  have hpos : s.pos = size := by
    have := hi.geo.rd
    rw [hd] at this
    rcases this rfl with h | h
    · exact absurd he h
    · exact h
  have hdata := hi.data.all (by simp [hst, Wr.live])
  simp only [pending, hst, hq, applyAll, List.filterMap_nil, List.append_nil, List.foldl_nil, hpos] at hdata
  refine ⟨?_, ?_, hf, ?_⟩
  · intro i hlt; rw [hdata]; simp [target, hlt]
  · intro i hlt; rw [hdata]; simp only [target]; rw [if_neg (by omega)]
  · have := (progress_inv h).2 (by simp [hst, Wr.live])
    simpa [hst, Wr.len, hq, reqsLen, hpos] using this

/-- At every moment, also after a failure, only bytes of the image were changed. -/
theorem C45_outside {c : Cfg} (hb : 0 < c.bufSize) {size : Nat} {exts : List (Nat × Bool)}
    (hv : Describe c.src size exts) {dst0 : Nat → Byte} {s : St} (h : Reachable c (exts.map some) dst0 s)
    (i : Nat) (hi : size ≤ i) : s.dst i = dst0 i :=
  (inv hb hv.good h).range.outside i hi

/-- The bytes before the position of the reader are already copied, or wait in requests with the bytes of
the source: a buffer is not overwritten before it was sent. -/
theorem C45_in_flight {c : Cfg} (hb : 0 < c.bufSize) {size : Nat} {exts : List (Nat × Bool)}
    (hv : Describe c.src size exts) {dst0 : Nat → Byte} {s : St} (h : Reachable c (exts.map some) dst0 s)
    (hl : s.wr.live = true) (i : Nat) (hi : i < s.pos) :
    applyAll s.mem (pending s) s.dst i = c.src i := by
  rw [(inv hb hv.good h).data.all hl]
  simp [target, hi]

/-- The progress never exceeds the bytes that were submitted, and these never exceed the image. -/
theorem C45_progress {c : Cfg} {exts : List Ext} {dst0 : Nat → Byte} {s : St} (h : Reachable c exts dst0 s) :
    s.progress ≤ s.pos := by
  have := (progress_inv h).1
  omega

/-- After a failure of the writer the copy does not return normally. -/
theorem C45_failure {c : Cfg} (hb : 0 < c.bufSize) {size : Nat} {exts : List (Nat × Bool)}
    (hv : Describe c.src size exts) {dst0 : Nat → Byte} {s : St} (h : Reachable c (exts.map some) dst0 s)
    (hl : s.wr.live = false) : s.rd ≠ .done none := by
  intro hd
  have := (inv hb hv.good h).tail.done none hd rfl
  simp [this.1, Wr.live] at hl

/-- The reader never uses the `None` of a failed writer as a buffer, and there is always room for a buffer
that the writer gives back. -/
theorem C45_buffers {c : Cfg} (hb : 0 < c.bufSize) {size : Nat} {exts : List (Nat × Bool)}
    (hv : Describe c.src size exts) {dst0 : Nat → Byte} {s : St} (h : Reachable c (exts.map some) dst0 s) :
    (∀ todo rest, s.rd = .got none todo rest → s.error ≠ none) ∧
    (∀ b r, s.wr = .giveBack b r → s.bufs.length < c.depth + 1) ∧
    (s.wr = .signal → s.bufs.length < c.depth + 1) := by
  have hi := inv hb hv.good h
  have hlen := bufs_length s.bufs
  have ho := hi.own.le
  simp only [total] at ho
  refine ⟨?_, ?_, ?_⟩
  · intro todo rest hr
    rw [hi.err.some_iff]
    right
    apply Classical.byContradiction
    intro hw
    exact (hi.own.none_dead hw).2 _ _ hr
  · intro b r hw
    have := (hi.own.none_dead (by simp [hw])).1
    simp only [hw, Wr.bufs] at ho
    omega
  · intro hw
    have := (hi.own.none_dead (by simp [hw])).1
    omega

/-- A copy whose writer did not fail is never stuck.  Missing: after a failure of the writer the reader may
wait forever, see `C45_counterexample_deadlock`. -/
theorem C45_no_deadlock_partial {c : Cfg} (hdepth : 0 < c.depth) (hb : 0 < c.bufSize) {size : Nat}
    {exts : List (Nat × Bool)} (hv : Describe c.src size exts) {dst0 : Nat → Byte} {s : St}
    (h : Reachable c (exts.map some) dst0 s) (hn : ∀ e, s.rd ≠ .done e) (hw : s.wr ≠ .dead) :
    ∃ s', Step c s s' := by
  rcases step_or_blocked hdepth (inv hb hv.good h) hn with h | h
  · exact h
  · exact absurd h.1 hw

/-- The only other states where nothing can happen: the writer failed, and the reader waits for room in the
queue of requests. -/
theorem C45_stuck {c : Cfg} (hdepth : 0 < c.depth) (hb : 0 < c.bufSize) {size : Nat}
    {exts : List (Nat × Bool)} (hv : Describe c.src size exts) {dst0 : Nat → Byte} {s : St}
    (h : Reachable c (exts.map some) dst0 s) (hn : ∀ e, s.rd ≠ .done e) :
    (¬ ∃ s', Step c s s') ↔ (s.wr = .dead ∧ c.depth * 2 ≤ s.reqs.length ∧
      ((∃ r todo rest, s.rd = .put r todo rest) ∨ s.rd = .flush ∨ s.rd = .last)) := by
  constructor
  · intro hx
    rcases step_or_blocked hdepth (inv hb hv.good h) hn with h | h
    · exact absurd h hx
    · exact h
  · rintro hx ⟨s', hs⟩
    exact blocked_stuck hx hs

/-- An image without zero extents is copied without a deadlock, also when the writer fails, with a queue
depth of at least 2. -/
theorem C45_no_deadlock_data {c : Cfg} (hdepth : 2 ≤ c.depth) (hb : 0 < c.bufSize) {size : Nat}
    {exts : List (Nat × Bool)} (hv : Describe c.src size exts) (hz : ∀ e ∈ exts, e.2 = false)
    {dst0 : Nat → Byte} {s : St} (h : Reachable c (exts.map some) dst0 s) (hn : ∀ e, s.rd ≠ .done e) :
    ∃ s', Step c s s' := by
  have hi := inv hb hv.good h
  rcases step_or_blocked (by omega) hi hn with h1 | h1
  · exact h1
  · have hnz : NoZero (exts.map some) := by
      clear hv h hi h1
      induction exts with
      | nil => trivial
      | cons a l ih =>
        obtain ⟨n, z⟩ := a
        exact ⟨hz (n, z) (by simp), ih fun e he => hz e (by simp [he])⟩
    exact absurd h1 (not_blocked hdepth hi.own.le (dataOnly hnz h))

/-- `n` steps. -/
inductive CopySteps (c : Cfg) : Nat → St → St → Prop
  | refl (s : St) : CopySteps c 0 s s
  | step {n : Nat} {s s1 s2 : St} (h : CopySteps c n s s1) (hs : Step c s1 s2) : CopySteps c (n + 1) s s2

/-- Every execution is finite. -/
theorem C45_terminates {c : Cfg} (hb : 0 < c.bufSize) {size : Nat} {exts : List (Nat × Bool)}
    (hv : Describe c.src size exts) {dst0 : Nat → Byte} {s : St} {n : Nat}
    (h : CopySteps c n (.init c (exts.map some) dst0) s) :
    n ≤ cost (.init c (exts.map some) dst0) := by
  have : Reachable c (exts.map some) dst0 s ∧ n + cost s ≤ cost (.init c (exts.map some) dst0) := by
    generalize hi : St.init c (exts.map some) dst0 = s0 at h
    induction h with
    | refl => subst hi; exact ⟨.init, by omega⟩
    | step h hs ih =>
      have ih := ih hi
      have := cost_step (inv hb hv.good ih.1).geo hs
      exact ⟨ih.1.step hs, by omega⟩
  omega

/-- A copy that does not fail comes to an end. -/
theorem C45_ends {c : Cfg} (hdepth : 2 ≤ c.depth) (hb : 0 < c.bufSize) {size : Nat}
    {exts : List (Nat × Bool)} (hv : Describe c.src size exts) (hz : ∀ e ∈ exts, e.2 = false)
    {dst0 : Nat → Byte} {s : St} (h : Reachable c (exts.map some) dst0 s) :
    ∃ s' e, Relation.ReflTransGen (Step c) s s' ∧ s'.rd = .done e := by
  generalize hk : cost s = k
  induction k using Nat.strongRecOn generalizing s with
  | _ k ih =>
    by_cases hs : ∀ e, s.rd ≠ .done e
    · obtain ⟨s1, h1⟩ := C45_no_deadlock_data hdepth hb hv hz h hs
      have hr := h.step h1
      have hlt := cost_step (inv hb hv.good h).geo h1
      obtain ⟨s', e, h2, h3⟩ := ih (cost s1) (by omega) hr rfl
      exact ⟨s', e, Relation.ReflTransGen.head h1 h2, h3⟩
    · rw [Classical.not_forall] at hs
      obtain ⟨e, he⟩ := hs
      exact ⟨s, e, .refl, Classical.not_not.mp he⟩

/-! ### With the extents of an honest server -/

theorem expand_map {α β : Type} (f : α → β) (l : List (Nat × α)) :
    expand (l.map fun x => (x.1, f x.2)) = (expand l).map f := by
  induction l with
  | nil => rfl
  | cons a l ih =>
    have h1 : ∀ {γ : Type} (a : Nat × γ) (l), expand (a :: l) = List.replicate a.1 a.2 ++ expand l := by
      intro γ a l; simp [expand]
    rw [List.map_cons, h1, h1, ih]
    simp

/-- The extents that `nbdutil.extents` gets from the server describe the source, when the server reports the
zero flag (bit 1 of the base:allocation flags) only for bytes that are zero, however it splits its replies. -/
theorem C45_extents {mb : Nat} {server : Server} {t : Truth} {size : Nat} {src : Nat → Byte}
    (hh : server.Honest t size) (ht : ∀ i, i < size → t.alloc i / 2 % 2 = 1 → src i = 0) (hsize : 0 < size)
    {l : List (Option Extents.Ext)} (h : Extents.extents (Extents.wireClient mb server) false 0 size = .ok l) :
    ∃ exts, l.map (Option.map fun e => (e.length, e.zero)) = exts.map some ∧ Describe src size exts := by
  obtain ⟨es, rfl, -, hlen, hf⟩ := extents_honest hh hsize h
  refine ⟨es.map fun e => (e.length, e.zero), by simp, ?_⟩
  have hx : expand (es.map fun e => (e.length, e.zero)) =
      (Extents.bytes es).map (fun f => decide (f &&& Extents.stateZero ≠ 0)) := by
    rw [show Extents.bytes es = expand (es.map Extents.Ext.run) from rfl, ← expand_map]
    rw [List.map_map]
    rfl
  refine ⟨by rw [hx]; simpa using hlen, ?_⟩
  intro i hi hz
  have hi' : i < size := by rw [hx] at hi; simp at hi; omega
  simp only [hx, List.getElem_map] at hz
  rw [hf] at hz
  apply ht i hi'
  have hb : decide (trueFlags t false i &&& Extents.stateZero ≠ 0) = decide (t.alloc i / 2 % 2 = 1) := by
    simp only [trueFlags, Bool.false_eq_true, if_false]
    cases t.depth with
    | none => exact bit_zero _ 0 (.inl rfl)
    | some d =>
      apply bit_zero
      simp only [Extents.norm]
      split <;> simp [Extents.extentBacking]
  rw [hb] at hz
  exact of_decide_eq_true hz

/-! ### Where the copy is wrong -/

/-- The writer fails while the reader waits for room in the queue: the copy never ends, for every queue
depth.  Here the image is one zero extent that is longer than the requests that fit in the queue. -/
theorem C45_counterexample_deadlock (c : Cfg) (hdepth : 0 < c.depth) (hsrc : ∀ i, c.src i = 0)
    (l : Nat) (hl : (2 * c.depth + 2) * 1024 ^ 3 ≤ l) (dst0 : Nat → Byte) :
    Describe c.src l [(l, true)] ∧
    ∃ s, Reachable c [some (l, true)] dst0 s ∧ (∀ e, s.rd ≠ .done e) ∧ ¬ ∃ s', Step c s s' := by
  refine ⟨⟨by simp [expand], fun i _ _ => hsrc i⟩, ?_⟩
  have hmax : maxZero = 1024 ^ 3 := rfl
  have key : ∀ k, k ≤ 2 * c.depth → ∃ s r, Reachable c [some (l, true)] dst0 s ∧ s.wr = .working r ∧
      s.reqs.length = k ∧ s.rd = .loop true (l - (k + 1) * maxZero) [] ∧ s.error = none ∧
      s.bufs.length = c.depth := by
    intro k hk
    induction k with
    | zero =>
      have h1 := Reachable.step (c := c) (exts := [some (l, true)]) (dst := dst0) .init (.ext rfl)
      have h2 := h1.step (.zeroStep rfl (by omega) rfl)
      have h3 := h2.step (.put rfl (by show 0 < c.depth * 2; omega))
      have h4 := h3.step (.get rfl rfl)
      refine ⟨_, _, h4, rfl, rfl, ?_, rfl, ?_⟩
      · simp only [hmax] at *
        rw [Nat.min_eq_right (by omega)]
        simp
      · simp [St.init]
    | succ k ih =>
      obtain ⟨s, r, h1, hw, hq, hr, he, hb⟩ := ih (by omega)
      have hmul : (k + 1 + 1) * maxZero ≤ l := by
        refine Nat.le_trans (Nat.mul_le_mul_right _ ?_) hl
        omega
      have hsucc : (k + 1 + 1) * maxZero = (k + 1) * maxZero + maxZero := by rw [Nat.add_mul]; omega
      have hpos : 0 < maxZero := by decide
      have h2 := h1.step (.zeroStep hr (by omega) he)
      have h3 := h2.step (.put rfl (by show s.reqs.length < c.depth * 2; omega))
      refine ⟨_, r, h3, hw, by simp [hq], ?_, he, hb⟩
      simp only
      rw [Nat.min_eq_right (by omega), hsucc]
      simp
      omega
  obtain ⟨s, r, h1, hw, hq, hr, he, hb⟩ := key (2 * c.depth) (Nat.le_refl _)
  have hpos : 0 < maxZero := by decide
  have hsucc : (2 * c.depth + 2) * maxZero = (2 * c.depth + 1) * maxZero + maxZero := by rw [← Nat.succ_mul]
  have h2 := h1.step (.zeroStep hr (by rw [← hmax] at hl; omega) he)
  have h3 := h2.step (.fail (dst := s.dst) (e := .exception "ReplyError") hw (fun _ _ => rfl))
  have h4 := h3.step (.setError rfl)
  have h5 := h4.step (.signal rfl (by show s.bufs.length < c.depth + 1; omega))
  refine ⟨_, h5, by simp, ?_⟩
  rintro ⟨s', hs⟩
  refine blocked_stuck ⟨rfl, ?_, .inl ⟨_, _, _, rfl⟩⟩ hs
  simp only
  omega

/-- When reading fails the copy raises, and its writer waits forever. -/
theorem C45_counterexample_leaked_writer (c : Cfg) (exts : List Ext) (dst0 : Nat → Byte) (e : Err) :
    ∃ s, Reachable c exts dst0 s ∧ s.rd = .done (some e) ∧ s.wr = .getting ∧ ¬ ∃ s', Step c s s' := by
  refine ⟨_, Reachable.step .init (.extFail (e := e) rfl), rfl, rfl, ?_⟩
  rintro ⟨s', hs⟩
  cases hs <;> simp_all [St.init]

/-- An empty export cannot be copied: the copy always raises. -/
theorem C45_counterexample_empty {c : Cfg} {dst0 : Nat → Byte} {s : St} (h : Reachable c [none] dst0 s) :
    s.rd ≠ .done none := by
  have : s.rd = .next [none] ∨ ∃ e, s.rd = .done (some e) := by
    induction h with
    | init => exact .inl rfl
    | step h hs ih =>
      rcases ih with ih | ⟨e, ih⟩ <;> cases hs <;> simp_all
  rcases this with h | ⟨e, h⟩ <;> simp [h]

/-! ### Examples -/

/-- A complete copy of 3 bytes with buffers of 2 bytes: one data extent and one zero extent. -/
example : ∃ s, Reachable ⟨1, 2, fun i => if i < 2 then 7 else 0⟩ ([(2, false), (1, true)].map some)
    (fun _ => 9) s ∧ s.rd = .done none := by
  have h0 : Reachable ⟨1, 2, fun i => if i < 2 then 7 else 0⟩ ([(2, false), (1, true)].map some) (fun _ => 9) _ := .init
  have h1 := h0.step (.ext rfl)
  have h2 := h1.step (.getBuf rfl (by decide) rfl)
  have h3 := h2.step (.read rfl rfl)
  have h4 := h3.step (.put rfl (by decide))
  have h5 := h4.step (.get rfl rfl)
  have h6 := h5.step (.write rfl rfl)
  have h7 := h6.step (.giveBack rfl (by decide))
  have h8 := h7.step (.report rfl)
  have h9 := h8.step (.loopEnd rfl)
  have h10 := h9.step (.ext rfl)
  have h11 := h10.step (.zeroStep rfl (by decide) rfl)
  have h12 := h11.step (.put rfl (by decide))
  have h13 := h12.step (.loopEnd rfl)
  have h14 := h13.step (.extEnd rfl)
  have h15 := h14.step (.putFlush rfl (by decide))
  have h16 := h15.step (.get rfl rfl)
  have h17 := h16.step (.zero rfl rfl)
  have h18 := h17.step (.report rfl)
  have h19 := h18.step (.get rfl rfl)
  have h20 := h19.step (.flush rfl rfl)
  have h21 := h20.step (.report rfl)
  have h22 := h21.step (.putLast rfl (by decide))
  have h23 := h22.step (.getNone rfl rfl)
  have h24 := h23.step (.joined rfl (.inr rfl))
  exact ⟨_, h24, rfl⟩

example : Describe (fun i => if i < 2 then 7 else 0) 3 [(2, false), (1, true)] :=
  ⟨by decide, by decide⟩

end Imageio.Props
