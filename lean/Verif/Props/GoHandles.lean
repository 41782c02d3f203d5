import Verif.Model.GoHandles
import Mathlib.Data.List.Induction
/-!
C103: the handles and the servers that the Go client leaves behind.
-/
namespace Imageio.Props
open Imageio.GoHandles

/-- All calls of libnbd for a connection succeed. -/
def AllSucceed (a : Answers) : Prop := a.create = true ∧ a.addContext = true ∧ a.connected = true ∧ a.size = true

/-- The connection is made, and then its size is not known. -/
def SizeFails (a : Answers) : Prop := a.create = true ∧ a.addContext = true ∧ a.connected = true ∧ a.size = false

/-- The number of handles that were created in these calls. -/
def created : List Act → Nat
  | [] => 0
  | .connect _ a :: r => (if a.create then 1 else 0) + created r
  | .close _ :: r => created r

/-- A connection returns a backend exactly if all calls succeed, and then the handle is new and open; a connection that fails
leaves every handle as it was, unless the size is not known. -/
theorem C103_connect_partial (s : State) (file : Bool) (a : Answers) :
    ((∃ h, (GoHandles.connect s file a).1 = some h) ↔ AllSucceed a) ∧
    (∀ h, (GoHandles.connect s file a).1 = some h → h = s.next ∧ (GoHandles.connect s file a).2.handle h = some file) ∧
    (∀ k, k ≠ s.next → (GoHandles.connect s file a).2.handle k = s.handle k) ∧
    (s.handle s.next = none → ¬ AllSucceed a → ¬ SizeFails a → (GoHandles.connect s file a).2.handle = s.handle) := by
  obtain ⟨c, m, st, co, z⟩ := a
  cases c <;> cases m <;> cases co <;> cases z <;>
    simp [GoHandles.connect, AllSucceed, SizeFails, closeHandle, State.put] <;>
    first
      | done
      | (intro k hk h; exact absurd h hk)
      | (constructor
         · intro k hk; simp [hk]
         · intro hn; funext k; by_cases hk : k = s.next <;> simp [hk, hn])
      | (intro hn; funext k; by_cases hk : k = s.next <;> simp [hk, hn])
      | (intro k hk; simp [hk])

/-- The handle is open after a connection exactly if a backend was returned or the size is not known. -/
theorem connect_open (s : State) (file : Bool) (a : Answers) (hn : s.handle s.next = none) :
    ((GoHandles.connect s file a).2.handle s.next ≠ none ↔ AllSucceed a ∨ SizeFails a) ∧
    (GoHandles.connect s file a).2.next = s.next + (if a.create then 1 else 0) ∧
    ((GoHandles.connect s file a).2.handle s.next = some true → file = true) ∧
    (AllSucceed a ∨ SizeFails a → (GoHandles.connect s file a).2.handle s.next = some file) := by
  obtain ⟨c, m, st, co, z⟩ := a
  cases c <;> cases m <;> cases co <;> cases z <;> simp [GoHandles.connect, AllSucceed, SizeFails, closeHandle, State.put, hn]

/-- For every program: a handle is open in the end exactly if it is of a connection that was made, and, when the backend was
returned, was not closed after it. -/
theorem C103_open (acts : List Act) (i : Nat) :
    (GoHandles.run State.empty acts).handle i ≠ none ↔
      ∃ before file a after, acts = before ++ .connect file a :: after ∧ created before = i ∧ (AllSucceed a ∨ SizeFails a) ∧
        Act.close i ∉ after := by
  suffices H : ∀ acts : List Act, (GoHandles.run State.empty acts).next = created acts ∧
      (∀ k, created acts ≤ k → (GoHandles.run State.empty acts).handle k = none) ∧
      ∀ i, (GoHandles.run State.empty acts).handle i ≠ none ↔
      ∃ before file a after, acts = before ++ .connect file a :: after ∧ created before = i ∧ (AllSucceed a ∨ SizeFails a) ∧
        Act.close i ∉ after from (H acts).2.2 i
  intro acts
  induction acts using List.reverseRecOn with
  | nil => simp [GoHandles.run, State.empty, created]
  | append_singleton l x ih =>
    obtain ⟨ih1, ih2, ih3⟩ := ih
    have hrun : GoHandles.run State.empty (l ++ [x]) = GoHandles.step (GoHandles.run State.empty l) x := by
      simp [GoHandles.run]
    have hcr : ∀ l r : List Act, created (l ++ r) = created l + created r := by
      intro l r
      induction l with
      | nil => simp [created]
      | cons y l ih => cases y <;> simp only [List.cons_append, created, ih, Nat.add_assoc]
    have hsplit : ∀ i, (∃ before file a after, l ++ [x] = before ++ .connect file a :: after ∧ created before = i ∧
          (AllSucceed a ∨ SizeFails a) ∧ Act.close i ∉ after) ↔
        ((∃ before file a after, l = before ++ .connect file a :: after ∧ created before = i ∧
          (AllSucceed a ∨ SizeFails a) ∧ Act.close i ∉ after) ∧ x ≠ .close i) ∨
        (∃ file a, x = .connect file a ∧ created l = i ∧ (AllSucceed a ∨ SizeFails a)) := by
      intro i
      constructor
      · rintro ⟨b, f, a, t, he, h1, h2, h3⟩
        rcases List.eq_nil_or_concat t with rfl | ⟨t', y, rfl⟩
        · have := List.append_inj' he rfl
          obtain ⟨rfl, hx⟩ := this
          exact .inr ⟨f, a, by simpa using hx, h1, h2⟩
        · rw [List.concat_eq_append] at he h3
          have he' : l ++ [x] = (b ++ .connect f a :: t') ++ [y] := by simpa using he
          obtain ⟨rfl, hx⟩ := List.append_inj' he' rfl
          have hx : x = y := by simpa using hx
          subst hx
          exact .inl ⟨⟨b, f, a, t', rfl, h1, h2, fun h => h3 (by simp [h])⟩, fun h => h3 (by simp [h])⟩
      · rintro (⟨⟨b, f, a, t, rfl, h1, h2, h3⟩, h4⟩ | ⟨f, a, rfl, h1, h2⟩)
        · refine ⟨b, f, a, t ++ [x], by simp, h1, h2, ?_⟩
          simp only [List.mem_append, List.mem_singleton, not_or]
          exact ⟨h3, fun h => h4 h.symm⟩
        · exact ⟨l, f, a, [], rfl, h1, h2, by simp⟩
    rw [hrun]
    generalize GoHandles.run State.empty l = s at ih1 ih2 ih3
    cases x with
    | close h =>
      refine ⟨?_, ?_, ?_⟩
      · simp [GoHandles.step, GoHandles.close, closeHandle, State.put, hcr, created, ih1]
      · intro k hk
        rw [hcr] at hk
        simp only [GoHandles.step, GoHandles.close, closeHandle, State.put]
        split
        · rfl
        · exact ih2 k (by simpa [created] using hk)
      · intro i
        rw [hsplit, ← ih3]
        simp only [GoHandles.step, GoHandles.close, closeHandle, State.put]
        by_cases hi : i = h
        · subst hi; simp
        · simp only [hi, if_false]
          constructor
          · intro hh; exact .inl ⟨hh, fun e => hi (by cases e; rfl)⟩
          · rintro (⟨hh, -⟩ | ⟨f, a, e, -⟩)
            · exact hh
            · cases e
    | connect file a =>
      have hn : s.handle s.next = none := ih2 _ (by rw [ih1]; exact Nat.le_refl _)
      obtain ⟨o1, o2, o3, o4⟩ := connect_open s file a hn
      obtain ⟨p1, p2, p3, p4⟩ := C103_connect_partial s file a
      simp only [GoHandles.step]
      refine ⟨?_, ?_, ?_⟩
      · rw [o2, hcr, ih1]; simp [created]
      · intro k hk
        rw [hcr] at hk
        by_cases hk' : k = s.next
        · subst hk'
          refine Classical.byContradiction fun hne => ?_
          have := o1.1 hne
          have hc : a.create = true := by rcases this with h | h <;> exact h.1
          simp only [created, hc, if_true, ih1] at hk
          omega
        · rw [p3 k hk']
          exact ih2 k (by omega)
      · intro i
        rw [hsplit, ← ih3]
        by_cases hi : i = s.next
        · subst hi
          rw [o1]
          constructor
          · intro h; exact .inr ⟨file, a, rfl, ih1.symm, h⟩
          · rintro (⟨h, -⟩ | ⟨f, b, e, -, h⟩)
            · exact absurd hn h
            · cases e; exact h
        · rw [p3 i hi]
          constructor
          · intro h; exact .inl ⟨h, by simp⟩
          · rintro (⟨h, -⟩ | ⟨f, b, e, h, -⟩)
            · exact h
            · exact absurd (h.symm.trans ih1.symm) hi

/-- So a program that closes every backend leaves nothing open, if no size was unknown after connecting. -/
theorem C103_closed_partial (acts : List Act) (hs : ∀ file a, Act.connect file a ∈ acts → ¬ SizeFails a)
    (hc : ∀ before file a after, acts = before ++ .connect file a :: after → AllSucceed a → Act.close (created before) ∈ after)
    (i : Nat) : (GoHandles.run State.empty acts).handle i = none := by
  refine Classical.byContradiction fun h => ?_
  obtain ⟨b, f, a, t, rfl, h1, h2, h3⟩ := (C103_open acts i).1 h
  rcases h2 with h2 | h2
  · exact h3 (h1 ▸ hc b f a t rfl h2)
  · exact hs f a (by simp) h2

/-- The command `map`: the exit status is 0 exactly if everything succeeded, and a server is left running exactly if an image
file was connected, and then the size or the extents failed. -/
theorem C103_map (file : Bool) (a : Answers) (e : GoHandles.Extents) :
    ((GoHandles.mapUrl State.empty file a e).1 = 0 ↔ AllSucceed a ∧ e = .done) ∧
    ((∃ i, (GoHandles.mapUrl State.empty file a e).2.handle i = some true) ↔
      file = true ∧ (SizeFails a ∨ AllSucceed a ∧ e = .failed)) := by
  have hn : State.empty.handle State.empty.next = none := rfl
  obtain ⟨p1, p2, p3, p4⟩ := C103_connect_partial State.empty file a
  obtain ⟨o1, o2, o3, o4⟩ := connect_open State.empty file a hn
  have hzero : ∀ i, (GoHandles.connect State.empty file a).2.handle i = some true → i = State.empty.next := by
    intro i hi
    refine Classical.byContradiction fun hne => ?_
    rw [p3 i hne] at hi
    cases hi
  have hex : AllSucceed a → ¬ SizeFails a := fun h1 h2 => by have := h1.2.2.2; rw [h2.2.2.2] at this; cases this
  unfold GoHandles.mapUrl
  generalize GoHandles.connect State.empty file a = x at p1 p2 p3 p4 o1 o2 o3 o4 hzero
  obtain ⟨r, s⟩ := x
  cases r with
  | none =>
    have hna : ¬ AllSucceed a := fun h => by obtain ⟨h, hh⟩ := p1.2 h; cases hh
    simp only [hna, false_and, or_false, iff_false]
    refine ⟨by simp, ?_, ?_⟩
    · rintro ⟨i, hi⟩
      have := hzero i hi
      subst this
      refine ⟨o3 hi, (o1.1 (by rw [hi]; simp)).resolve_left hna⟩
    · rintro ⟨rfl, h⟩
      exact ⟨_, o4 (.inr h)⟩
  | some h =>
    have ha : AllSucceed a := p1.1 ⟨h, rfl⟩
    obtain ⟨rfl, hh⟩ := p2 h rfl
    have closed : ∀ i, (GoHandles.close s State.empty.next).handle i ≠ some true := by
      intro i hi
      simp only [GoHandles.close, closeHandle, State.put] at hi
      split at hi
      · cases hi
      · next hne => exact hne (hzero i hi)
    cases e with
    | failed =>
      simp only [ha, true_and, hex ha, false_or, and_true]
      refine ⟨by simp, ?_, ?_⟩
      · rintro ⟨i, hi⟩
        have := hzero i hi
        subst this
        exact o3 hi
      · rintro rfl
        exact ⟨_, hh⟩
    | panicked => simp [ha, hex ha, closed]
    | done => simp [ha, hex ha, closed]

/-- The status is the status of the command in `C91`, for an image file. -/
theorem C103_status (w : GoMap.World) (s fmt : List Char) (a : Answers) (size : Nat) (replies : GoClient.Replies)
    (hs : w.stat s = .found) (hf : GoMap.format w s = some fmt) (ha : AllSucceed a)
    (hw : w.libnbd (.program (GoMap.nbdArgs s fmt)) = some (size, replies)) (e : GoHandles.Extents)
    (he : (e = .failed ↔ GoClient.nbdExtents size replies = .error) ∧
      (e = .done ↔ ∃ l, GoClient.nbdExtents size replies = .done l)) :
    (GoMap.mapUrl w s = .exit 1 [] ↔ (GoHandles.mapUrl State.empty true a e).1 = 1) ∧
    ((∃ out, GoMap.mapUrl w s = .exit 0 out) ↔ (GoHandles.mapUrl State.empty true a e).1 = 0) := by
  obtain ⟨h, hc⟩ := (C103_connect_partial State.empty true a).1.2 ha
  have e1 : GoMap.connect w s = some (.nbd (.program (GoMap.nbdArgs s fmt)) size replies) := by
    simp [GoMap.connect, hs, GoMap.connectFile, hf, GoMap.connectNbd, hw]
  unfold GoMap.mapUrl GoHandles.mapUrl
  rw [e1]
  generalize GoHandles.connect State.empty true a = x at hc
  obtain ⟨r, t⟩ := x
  simp only at hc
  subst hc
  simp only [GoMap.extents]
  cases hx : GoClient.nbdExtents size replies <;> rw [hx] at he <;> cases e <;> simp at he ⊢

/-- A size that is not known after connecting to an image file: the handle is not closed, and qemu-nbd runs on after the
program ended (`nbd.go:56-59`). -/
theorem C103_counterexample_size : ∃ a : Answers, (GoHandles.connect State.empty true a).1 = none ∧
    (GoHandles.connect State.empty true a).2.handle 0 = some true ∧
    (GoHandles.mapUrl State.empty true a .done).2.handle 0 = some true :=
  ⟨⟨true, true, true, true, false⟩, rfl, rfl, rfl⟩

/-- Extents that fail: `log.Fatalf` does not run the deferred `Close`, and qemu-nbd, which is started with `--persistent`, runs on
after the program ended (`map.go:21-26`). -/
theorem C103_counterexample_extents (a : Answers) (ha : AllSucceed a) :
    (GoHandles.mapUrl State.empty true a .failed).1 = 1 ∧
    ∃ i, (GoHandles.mapUrl State.empty true a .failed).2.handle i = some true := by
  refine ⟨?_, (C103_map true a .failed).2.2 ⟨rfl, .inr ⟨ha, rfl⟩⟩⟩
  obtain ⟨h, hc⟩ := (C103_connect_partial State.empty true a).1.2 ha
  unfold GoHandles.mapUrl
  generalize GoHandles.connect State.empty true a = x at hc
  obtain ⟨r, t⟩ := x
  simp only at hc
  subst hc
  rfl

/-- Two connections and one that fails; the first is closed, so the second is open. -/
example : AllSucceed ⟨true, true, true, true, true⟩ ∧ SizeFails ⟨true, true, true, true, false⟩ ∧
    (List.range 3).map (GoHandles.run State.empty [.connect true ⟨true, true, true, true, true⟩,
      .connect true ⟨true, true, true, false, true⟩, .connect false ⟨true, true, false, true, true⟩, .close 0]).handle =
      [none, none, some false] := ⟨⟨rfl, rfl, rfl, rfl⟩, ⟨rfl, rfl, rfl, rfl⟩, by decide⟩

end Imageio.Props
