import Verif.Model.GoExtents
/-!
C104: the extents and the size that the Go client keeps.
-/
namespace Imageio.Props
open Imageio.GoClient

/-- New objects have the values of the items, and other objects are not changed. -/
theorem store_new (l : List Extent) (heap : Nat → Extent) (next : Nat) :
    (GoExtents.store [] (l.map some) heap next).1.map (GoExtents.store [] (l.map some) heap next).2.1 = l ∧
    ∀ k, k < next → (GoExtents.store [] (l.map some) heap next).2.1 k = heap k := by
  induction l generalizing heap next with
  | nil => exact ⟨rfl, fun _ _ => rfl⟩
  | cons e l ih =>
    obtain ⟨h1, h2⟩ := ih (GoExtents.put heap next e) (next + 1)
    simp only [List.map_cons, GoExtents.store, Option.getD_some]
    refine ⟨?_, ?_⟩
    · rw [h1, h2 next (by omega)]
      simp [GoExtents.put]
    · intro k hk
      rw [h2 k (by omega)]
      simp only [GoExtents.put]
      rw [if_neg (by omega)]

/-- Storing the values that are there changes nothing. -/
theorem store_same (l : List Extent) (slots : List Nat) (heap : Nat → Extent) (next : Nat) (h : slots.map heap = l) :
    GoExtents.store slots (l.map some) heap next = (slots, heap, next) := by
  induction l generalizing slots with
  | nil =>
    cases slots with
    | nil => rfl
    | cons r slots => simp at h
  | cons e l ih =>
    cases slots with
    | nil => simp at h
    | cons r slots =>
      simp only [List.map_cons, List.cons.injEq] at h
      have hp : GoExtents.put heap r e = heap := by
        funext k
        simp only [GoExtents.put]
        split
        · next hk => rw [hk, h.1]
        · rfl
      simp only [List.map_cons, GoExtents.store, hp]
      rw [ih slots h.2]

/-- The size of an image with these extents: the end of the last one. -/
def endOf (l : List Extent) : Option Nat := l.getLast?.map fun e => u64 (e.start + e.length : Nat)

/-- The server told these extents, or nothing, every time. -/
def Always (l : List Extent) (calls : List (GoExtents.Call × GoExtents.Answer)) : Prop :=
  ∀ x ∈ calls, x.2 = .failed ∨ x.2 = .items (l.map some)

/-- What the backend has then. -/
def Keeps (l : List Extent) (b : GoExtents.Backend) : Prop :=
  (b.slots = [] ∧ b.len = 0 ∧ b.size = 0) ∨
  (l ≠ [] ∧ b.len = l.length ∧ b.slots.map b.heap = l ∧ (b.size = 0 ∨ endOf l = some b.size))

/-- A right result, with the objects of a memory. -/
def Right (l : List Extent) (heap : Nat → Extent) : GoExtents.Result → Prop
  | .error => True
  | .panic => l = []
  | .size n => endOf l = some n
  | .extents w => w.map heap = l

theorem getExtents_keeps {l : List Extent} {b : GoExtents.Backend} (h : Keeps l b) {a : GoExtents.Answer}
    (ha : a = .failed ∨ a = .items (l.map some)) :
    Keeps l (GoExtents.getExtents b a).2 ∧ (GoExtents.getExtents b a).2.size = b.size ∧
    ((GoExtents.getExtents b a).1 = true →
      (GoExtents.getExtents b a).2.len = l.length ∧ (GoExtents.getExtents b a).2.slots.map (GoExtents.getExtents b a).2.heap = l) ∧
    (b.len ≠ 0 → (GoExtents.getExtents b a).2 = b) := by
  rcases ha with rfl | rfl
  · exact ⟨h, rfl, by simp [GoExtents.getExtents], fun _ => rfl⟩
  · cases l with
    | nil =>
      rcases h with ⟨h1, h2, h3⟩ | ⟨h1, -⟩
      · refine ⟨.inl ⟨rfl, rfl, h3⟩, rfl, fun _ => ⟨rfl, rfl⟩, fun h => absurd h2 h⟩
      · exact absurd rfl h1
    | cons e l =>
      rcases h with ⟨h1, h2, h3⟩ | ⟨-, h2, h3, h4⟩
      · have hs := (store_new (e :: l) b.heap b.next).1
        simp only [List.map_cons] at hs
        simp only [GoExtents.getExtents, List.map_cons, h1]
        refine ⟨.inr ⟨by simp, by simp, ?_, .inl h3⟩, by first | trivial | simp, fun _ => ⟨by simp, ?_⟩, fun h => absurd h2 h⟩
        · simpa using hs
        · simpa using hs
      · have hs := store_same (e :: l) b.slots b.heap b.next h3
        simp only [List.map_cons] at hs
        have hb : (GoExtents.getExtents b (.items ((e :: l).map some))).2 = b := by
          simp only [GoExtents.getExtents, List.map_cons, hs]
          simp only [List.length_cons, List.length_map]
          rw [List.length_cons] at h2
          rw [← h2]
        rw [hb]
        exact ⟨.inr ⟨by simp, h2, h3, h4⟩, rfl, fun _ => ⟨h2, h3⟩, fun _ => rfl⟩

theorem keeps_take {l : List Extent} {b : GoExtents.Backend} (h1 : b.len = l.length) (h2 : b.slots.map b.heap = l) :
    b.slots.take b.len = b.slots := by
  have : b.slots.length = l.length := by rw [← h2]; simp
  rw [h1, ← this]
  exact List.take_length

theorem call_keeps {l : List Extent} {b : GoExtents.Backend} (h : Keeps l b) (c : GoExtents.Call) {a : GoExtents.Answer}
    (ha : a = .failed ∨ a = .items (l.map some)) :
    Keeps l (GoExtents.call b c a).2 ∧ Right l (GoExtents.call b c a).2.heap (GoExtents.call b c a).1 ∧
    (∀ w, (GoExtents.call b c a).1 = .extents w → w = (GoExtents.call b c a).2.slots ∧ (w ≠ [] → (GoExtents.call b c a).2.len ≠ 0)) ∧
    (b.len ≠ 0 → (GoExtents.call b c a).2.slots = b.slots ∧ (GoExtents.call b c a).2.heap = b.heap ∧
      (GoExtents.call b c a).2.len = b.len) := by
  obtain ⟨g1, g2, g3, g4⟩ := getExtents_keeps h ha
  cases c with
  | size =>
    unfold GoExtents.call
    by_cases hz : b.size ≠ 0
    · simp only [if_pos hz]
      refine ⟨h, ?_, by simp, fun _ => by simp⟩
      rcases h with ⟨-, -, h3⟩ | ⟨-, -, -, h4⟩
      · exact absurd h3 hz
      · exact h4.resolve_left hz
    · simp only [if_neg hz]
      generalize GoExtents.getExtents b a = y at g1 g2 g3 g4
      obtain ⟨ok, b'⟩ := y
      cases ok with
      | false => exact ⟨g1, trivial, by simp, fun hh => by simp only at g4 ⊢; rw [g4 hh]; exact ⟨rfl, rfl, rfl⟩⟩
      | true =>
        obtain ⟨k1, k2⟩ := g3 rfl
        simp only at k1 k2 g1 g2 g4 ⊢
        have ht := keeps_take k1 k2
        rw [ht]
        cases hl : b'.slots.getLast? with
        | none =>
          have hs : b'.slots = [] := List.getLast?_eq_none_iff.1 hl
          refine ⟨g1, ?_, by simp, fun hh => by simp only; rw [g4 hh]; exact ⟨rfl, rfl, rfl⟩⟩
          rw [hs] at k2
          exact k2.symm
        | some r =>
          have he : endOf l = some (u64 ((b'.heap r).start + (b'.heap r).length : Nat)) := by
            rw [← k2, endOf, List.getLast?_map, hl]
            rfl
          refine ⟨.inr ⟨?_, k1, k2, .inr he⟩, he, by simp, fun hh => by simp only; rw [g4 hh]; exact ⟨rfl, rfl, rfl⟩⟩
          rintro rfl
          simp [endOf] at he
  | extents =>
    unfold GoExtents.call
    by_cases hz : b.len ≠ 0
    · simp only [if_pos hz]
      rcases h with ⟨-, h2, -⟩ | ⟨h0, h2, h3, h4⟩
      · exact absurd h2 hz
      · have ht := keeps_take h2 h3
        rw [ht]
        refine ⟨.inr ⟨h0, h2, h3, h4⟩, h3, ?_, fun _ => by simp⟩
        intro w hw
        cases hw
        exact ⟨rfl, fun _ => hz⟩
    · simp only [if_neg hz]
      generalize GoExtents.getExtents b a = y at g1 g2 g3 g4
      obtain ⟨ok, b'⟩ := y
      cases ok with
      | false => exact ⟨g1, trivial, by simp, fun hh => absurd hh hz⟩
      | true =>
        obtain ⟨k1, k2⟩ := g3 rfl
        simp only at k1 k2 g1 g2 g4 ⊢
        have ht := keeps_take k1 k2
        rw [ht]
        refine ⟨g1, k2, ?_, fun hh => absurd hh hz⟩
        intro w hw
        cases hw
        refine ⟨rfl, fun hne h0 => hne ?_⟩
        rw [k1] at h0
        rw [List.length_eq_zero_iff.1 h0] at k2
        simpa using k2

theorem run_keeps {l : List Extent} {calls : List (GoExtents.Call × GoExtents.Answer)} {b : GoExtents.Backend} (h : Keeps l b)
    (ha : Always l calls) : Keeps l (GoExtents.run b calls).2 ∧
    (b.len ≠ 0 → (GoExtents.run b calls).2.heap = b.heap) ∧
    ∀ r ∈ (GoExtents.run b calls).1, Right l (GoExtents.run b calls).2.heap r := by
  induction calls generalizing b with
  | nil => exact ⟨h, fun _ => rfl, by simp [GoExtents.run]⟩
  | cons x calls ih =>
    obtain ⟨c, a⟩ := x
    obtain ⟨k1, k2, k3, k4⟩ := call_keeps h c (ha (c, a) (by simp))
    obtain ⟨i1, i2, i3⟩ := ih k1 (fun y hy => ha y (by simp [hy]))
    simp only [GoExtents.run]
    refine ⟨i1, ?_, ?_⟩
    · intro hb
      obtain ⟨-, e2, e3⟩ := k4 hb
      rw [i2 (by rw [e3]; exact hb), e2]
    · intro r hr
      rcases List.mem_cons.1 hr with rfl | hr
      · generalize hres : (GoExtents.call b c a).1 = res at k2 k3
        cases res with
        | error => trivial
        | panic => exact k2
        | size n => exact k2
        | extents w =>
          obtain ⟨-, hne⟩ := k3 w rfl
          by_cases hw : w = []
          · subst hw
            exact k2
          · show w.map _ = l
            rw [i2 (hne hw)]
            exact k2
      · exact i3 r hr

/-- While the image does not change: in every sequence of calls, also when requests fail, every size is the end of the last
extent, and every result of `Extents` has the extents of the server, also after later calls; a panic is only possible for an
image without extents. -/
theorem C104_same_partial (l : List Extent) (heap : Nat → Extent) (next : Nat)
    (calls : List (GoExtents.Call × GoExtents.Answer)) (h : Always l calls) :
    ∀ r ∈ (GoExtents.run (.new heap next) calls).1, Right l (GoExtents.run (.new heap next) calls).2.heap r :=
  (run_keeps (.inl ⟨rfl, rfl, rfl⟩) h).2.2

/-- With any answers: results of `Extents` are not changed by other calls of `Extents`. -/
theorem C104_stable_partial (b : GoExtents.Backend) (a : GoExtents.Answer) (w : List Nat)
    (hw : (GoExtents.call b .extents a).1 = .extents w) (calls : List (GoExtents.Call × GoExtents.Answer))
    (hc : ∀ x ∈ calls, x.1 = .extents) :
    w.map (GoExtents.run (GoExtents.call b .extents a).2 calls).2.heap = w.map (GoExtents.call b .extents a).2.heap := by
  by_cases hne : w = []
  · subst hne; rfl
  · have hlen : (GoExtents.call b .extents a).2.len ≠ 0 := by
      intro h0
      apply hne
      unfold GoExtents.call at hw h0
      by_cases hz : b.len ≠ 0
      · simp only [if_pos hz] at h0
        exact absurd h0 hz
      · simp only [if_neg hz] at h0 hw
        generalize GoExtents.getExtents b a = y at h0 hw
        obtain ⟨ok, b'⟩ := y
        cases ok with
        | false => cases hw
        | true =>
          simp only at h0 hw
          rw [h0] at hw
          simpa using hw.symm
    generalize (GoExtents.call b .extents a).2 = s at hlen
    have : (GoExtents.run s calls).2 = s := by
      induction calls generalizing s with
      | nil => rfl
      | cons x calls ih =>
        obtain ⟨c, a⟩ := x
        have : c = .extents := hc (c, a) (by simp)
        subst this
        have e : (GoExtents.call s .extents a).2 = s := by unfold GoExtents.call; simp only [if_pos hlen]
        simp only [GoExtents.run, e]
        exact ih (fun y hy => hc y (by simp [hy])) s hlen
    rw [this]

/-- With any answers: a size that was found does not change, and the server is not asked again for it. -/
theorem C104_size (b : GoExtents.Backend) (a : GoExtents.Answer) (n : Nat) (hn : n ≠ 0)
    (h : (GoExtents.call b .size a).1 = .size n) (calls : List (GoExtents.Call × GoExtents.Answer)) (a' : GoExtents.Answer) :
    (GoExtents.call (GoExtents.run (GoExtents.call b .size a).2 calls).2 .size a').1 = .size n := by
  have key : (GoExtents.call b .size a).2.size = n := by
    unfold GoExtents.call at h ⊢
    by_cases hz : b.size ≠ 0
    · simp only [if_pos hz] at h ⊢
      cases h; rfl
    · simp only [if_neg hz] at h ⊢
      generalize GoExtents.getExtents b a = y at h
      obtain ⟨ok, b'⟩ := y
      cases ok with
      | false => cases h
      | true =>
        simp only at h ⊢
        cases hl : (b'.slots.take b'.len).getLast? with
        | none => rw [hl] at h; cases h
        | some r => rw [hl] at h; cases h; rfl
  have hget : ∀ (s : GoExtents.Backend) a, (GoExtents.getExtents s a).2.size = s.size := by
    intro s a
    unfold GoExtents.getExtents
    split <;> rfl
  generalize (GoExtents.call b .size a).2 = s at key
  have hrun : (GoExtents.run s calls).2.size = n := by
    induction calls generalizing s with
    | nil => exact key
    | cons x calls ih =>
      obtain ⟨c, a⟩ := x
      refine ih _ ?_
      cases c with
      | size =>
        unfold GoExtents.call
        simp only [key, hn, ne_eq, not_false_eq_true, if_true]
      | extents =>
        unfold GoExtents.call
        by_cases hz : s.len ≠ 0
        · simp only [if_pos hz]; exact key
        · simp only [if_neg hz]
          have := hget s a
          generalize GoExtents.getExtents s a = y at this
          obtain ⟨ok, b'⟩ := y
          cases ok <;> exact this.trans key
  unfold GoExtents.call
  simp only [hrun, hn, ne_eq, not_false_eq_true, if_true]

/-- An answer with an item of the wrong type is an error, but the next call returns the other items without asking the server
again. -/
theorem C104_counterexample_type (heap : Nat → Extent) (a : GoExtents.Answer) :
    ∃ w b, GoExtents.run (.new heap 0) [(.extents, .items [some ⟨0, 8, false⟩, none]), (.extents, a)] =
      ([.error, .extents w], b) ∧ w.map b.heap = [⟨0, 8, false⟩, ⟨0, 0, false⟩] :=
  ⟨_, _, rfl, rfl⟩

/-- `Size` after `Extents` asks the server again, and writes the new extents to the objects of the result of `Extents`: when the
image changed, the extents that the caller has are of both states, here with the area from 4 to 8 twice. -/
theorem C104_counterexample_size (heap : Nat → Extent) :
    ∃ w b, GoExtents.run (.new heap 0) [(.extents, .items [some ⟨0, 4, false⟩, some ⟨4, 4, true⟩]),
      (.size, .items [some ⟨0, 8, false⟩])] = ([.extents w, .size 8], b) ∧
      w.map b.heap = [⟨0, 8, false⟩, ⟨4, 4, true⟩] :=
  ⟨_, _, rfl, rfl⟩

/-- Also a call that fails changes the earlier result: the items of the right type are written, and the others stay. -/
theorem C104_counterexample_error (heap : Nat → Extent) :
    ∃ w b, GoExtents.run (.new heap 0) [(.extents, .items [some ⟨0, 4, false⟩, some ⟨4, 4, true⟩]),
      (.size, .items [none, some ⟨4, 8, false⟩])] = ([.extents w, .error], b) ∧
      w.map b.heap = [⟨0, 4, false⟩, ⟨4, 8, false⟩] :=
  ⟨_, _, rfl, rfl⟩

/-- A request that fails, and three calls with the same answer. -/
example : Always [⟨0, 4, false⟩, ⟨4, 4, true⟩] [(.extents, .failed), (.extents, .items [some ⟨0, 4, false⟩, some ⟨4, 4, true⟩]),
      (.size, .items [some ⟨0, 4, false⟩, some ⟨4, 4, true⟩]), (.extents, .failed)] ∧
    (GoExtents.run (.new (fun _ => ⟨0, 0, false⟩) 7) [(.extents, .failed), (.extents, .items [some ⟨0, 4, false⟩, some ⟨4, 4, true⟩]),
      (.size, .items [some ⟨0, 4, false⟩, some ⟨4, 4, true⟩]), (.extents, .failed)]).1 =
      [.error, .extents [7, 8], .size 8, .extents [7, 8]] := by
  refine ⟨?_, by decide +kernel⟩
  intro x hx
  simp only [List.mem_cons, List.not_mem_nil, or_false] at hx
  rcases hx with rfl | rfl | rfl | rfl <;> simp

end Imageio.Props
