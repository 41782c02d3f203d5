import Verif.Spec.Closing
/-!
C93: contexts are released also when closing a backend fails.
-/
namespace Imageio.Props
open Imageio.Closing Imageio.Closing.Spec

namespace CloseEx
/-- An open context, and one that fails to close. -/
def good : Ctx := ⟨true, true, false⟩
/-- A context that fails to close. -/
def bad : Ctx := ⟨true, true, true⟩
end CloseEx

theorem close_released (x : Ctx) : Released x.close.2 := ⟨rfl, rfl⟩

theorem close_raised (x : Ctx) : x.close.1 = true ↔ Fails x := by simp [Ctx.close, Fails]

theorem context_unique {l : List (Nat × Ctx)} (hd : (l.map Prod.fst).Nodup) {c : Nat} {x y : Ctx}
    (hx : (c, x) ∈ l) (hy : (c, y) ∈ l) : x = y := by
  induction l with
  | nil => cases hx
  | cons p rest ih =>
    rw [List.map_cons, List.nodup_cons] at hd
    have hk : ∀ z, (c, z) ∈ rest → p.1 ≠ c := fun z hz h =>
      hd.1 (List.mem_map.mpr ⟨_, hz, h.symm⟩)
    rcases List.mem_cons.mp hx with h1 | h1 <;> rcases List.mem_cons.mp hy with h2 | h2
    · rw [← h1] at h2; cases h2; rfl
    · exact absurd (by rw [← h1]) (hk _ h2)
    · exact absurd (by rw [← h2]) (hk _ h1)
    · exact ih hd.2 h1 h2

/-- `remove_context` releases the context of the connection, whether it raises or not. -/
theorem removeContext_released {t : Closing.Ticket} {con : Nat} (hd : (t.connections.map Prod.fst).Nodup)
    {x : Ctx} (h : (con, x) ∈ (t.removeContext con).2.connections) : Released x := by
  unfold Closing.Ticket.removeContext at h
  split at h
  · rename_i hn
    rw [List.find?_eq_none] at hn
    exact absurd (decide_eq_true rfl) (hn _ h)
  · rename_i c y hf
    split at h
    · rename_i y' hy
      simp only [List.mem_map] at h
      obtain ⟨p, hp, he⟩ := h
      by_cases hc : p.1 = con
      · rw [if_pos hc] at he
        cases he
        have := close_released y
        rwa [hy] at this
      · rw [if_neg hc] at he
        subst he
        exact absurd rfl hc
    · simp at h

theorem removeContext_keys (t : Closing.Ticket) (con : Nat) (hd : (t.connections.map Prod.fst).Nodup) :
    ((t.removeContext con).2.connections.map Prod.fst).Nodup := by
  unfold Closing.Ticket.removeContext
  split
  · exact hd
  · split
    · rename_i y' _
      have : (t.connections.map fun p => if p.1 = con then (con, y') else p).map Prod.fst =
          t.connections.map Prod.fst := by
        rw [List.map_map]
        apply List.map_congr_left
        intro p _
        by_cases hc : p.1 = con <;> simp [hc]
      simp only
      rw [this]
      exact hd
    · exact hd.sublist (List.filter_sublist.map _)

/-- `remove_context` does not touch the contexts of other connections. -/
theorem removeContext_other {t : Closing.Ticket} {con c : Nat} (hne : c ≠ con) {x : Ctx} :
    (c, x) ∈ (t.removeContext con).2.connections ↔ (c, x) ∈ t.connections := by
  unfold Closing.Ticket.removeContext
  split
  · rfl
  · split
    · simp only [List.mem_map]
      constructor
      · rintro ⟨p, hp, he⟩
        by_cases hc : p.1 = con
        · rw [if_pos hc] at he
          cases he
          exact absurd rfl hne
        · rw [if_neg hc] at he
          subst he
          exact hp
      · intro h
        exact ⟨_, h, by simp [hne]⟩
    · simp [hne]

theorem finish_keys (con : Nat) (rs : List Nat) (s : Nat → Closing.Ticket)
    (hd : ∀ r, ((s r).connections.map Prod.fst).Nodup) :
    ∀ r, ((finish con rs s r).connections.map Prod.fst).Nodup := by
  induction rs generalizing s with
  | nil => exact hd
  | cons r rest ih =>
    apply ih
    intro i
    split
    · exact removeContext_keys _ _ (hd r)
    · exact hd i

theorem finish_other {con c : Nat} (hne : c ≠ con) (rs : List Nat) (s : Nat → Closing.Ticket) (r : Nat) {x : Ctx} :
    (c, x) ∈ (finish con rs s r).connections ↔ (c, x) ∈ (s r).connections := by
  induction rs generalizing s with
  | nil => rfl
  | cons q rest ih =>
    unfold finish
    rw [ih]
    split
    · rename_i h
      subst h
      exact removeContext_other hne
    · rfl

/-- A property of the contexts of the connection that removing a context keeps or makes true. -/
theorem finish_mine {con : Nat} (P : Ctx → Prop) (rs : List Nat) (s : Nat → Closing.Ticket)
    (hd : ∀ r, ((s r).connections.map Prod.fst).Nodup)
    (hP : ∀ x, Released x → P x) (r : Nat)
    (h : r ∈ rs ∨ ∀ x, (con, x) ∈ (s r).connections → P x) {x : Ctx}
    (hx : (con, x) ∈ (finish con rs s r).connections) : P x := by
  induction rs generalizing s with
  | nil =>
    rcases h with h | h
    · cases h
    · exact h x hx
  | cons q rest ih =>
    unfold finish at hx
    refine ih _ ?_ ?_ hx
    · intro i
      split
      · exact removeContext_keys _ _ (hd q)
      · exact hd i
    · by_cases hq : r = q
      · subst hq
        exact Or.inr fun y hy => hP y (removeContext_released (hd r) (by simpa using hy))
      · rcases h with h | h
        · rcases List.mem_cons.mp h with h | h
          · exact absurd h hq
          · exact Or.inl h
        · exact Or.inr fun y hy => h y (by simpa [hq] using hy)

/-- When a connection ends, the contexts of all its tickets are released, also if closing some of
them fails; the contexts of other connections are not touched. -/
theorem C93_finish {con : Nat} {closers : List Nat} {s : Nat → Closing.Ticket}
    (hd : ∀ r, ((s r).connections.map Prod.fst).Nodup) :
    (∀ r ∈ closers, ∀ x, (con, x) ∈ (finish con closers s r).connections → Released x) ∧
    (∀ r c x, c ≠ con → ((c, x) ∈ (finish con closers s r).connections ↔ (c, x) ∈ (s r).connections)) :=
  ⟨fun r hr _ hx => finish_mine Released closers s hd (fun _ h => h) r (Or.inl hr) hx,
   fun r _ _ hne => finish_other hne closers s r⟩

/-- The second ticket is released, although closing the context of the first ticket fails. -/
example : (finish 1 [0, 1] (fun r => if r = 0 then ⟨false, false, [(1, CloseEx.bad)]⟩ else
    ⟨false, false, [(2, CloseEx.good), (1, CloseEx.good)]⟩) 1).connections = [(2, CloseEx.good)] := by decide

theorem removeContext_gone {t : Closing.Ticket} {con : Nat} (hd : (t.connections.map Prod.fst).Nodup)
    (hf : ∀ x, (con, x) ∈ t.connections → ¬ Fails x) {x : Ctx} :
    (con, x) ∉ (t.removeContext con).2.connections := by
  unfold Closing.Ticket.removeContext
  split
  · rename_i hn
    intro h
    rw [List.find?_eq_none] at hn
    exact absurd (decide_eq_true rfl) (hn _ h)
  · rename_i c y hy
    have hm := List.mem_of_find?_eq_some hy
    have hc : c = con := by simpa using List.find?_some hy
    subst hc
    split
    · rename_i y' hcl
      exact absurd ((close_raised y).mp (by rw [hcl])) (hf y hm)
    · simp

/-- Partial: when closing does not fail, the ticket does not report the connection after it ended.
Missing: when closing fails, see the counterexample. -/
theorem C93_reported_partial {con : Nat} {closers : List Nat} {s : Nat → Closing.Ticket}
    (hd : ∀ r, ((s r).connections.map Prod.fst).Nodup)
    (hf : ∀ r x, (con, x) ∈ (s r).connections → ¬ Fails x) :
    ∀ r ∈ closers, ∀ x, (con, x) ∉ (finish con closers s r).connections := by
  induction closers generalizing s with
  | nil => intro r hr; cases hr
  | cons q rest ih =>
    have gone := fun x => removeContext_gone (hd q) (hf q) (x := x)
    intro r hr x hx
    unfold finish at hx
    by_cases hq : r ∈ rest
    · refine ih (s := fun i => if i = q then ((s q).removeContext con).2 else s i) ?_ ?_ r hq x hx
      · intro i
        split
        · exact removeContext_keys _ _ (hd q)
        · exact hd i
      · intro i y hy
        by_cases hi : i = q
        · subst hi
          exact absurd (by simpa using hy) (gone y)
        · exact hf i y (by simpa [hi] using hy)
    · have : r = q := by simpa [hq] using hr
      subst this
      -- no later closer brings it back
      have key : ∀ (rs : List Nat) (s' : Nat → Closing.Ticket),
          (∀ y, (con, y) ∉ (s' r).connections) → ∀ y, (con, y) ∉ (finish con rs s' r).connections := by
        intro rs
        induction rs with
        | nil => intro s' h y; exact h y
        | cons p rs ih' =>
          intro s' h y
          unfold finish
          refine ih' _ ?_ y
          intro z hz
          split at hz
          · rename_i hp
            subst hp
            have hnone : (s' r).connections.find? (fun p => p.1 = con) = none := by
              rw [List.find?_eq_none]
              rintro ⟨a, b⟩ hab
              simp only [decide_eq_true_eq]
              intro ha
              subst ha
              exact h b hab
            simp only [Closing.Ticket.removeContext, hnone] at hz
            exact h z hz
          · exact h z hz
      exact key rest _ (by intro y; simpa using gone y) x hx

example : (finish 1 [0] (fun _ => ⟨false, false, [(1, CloseEx.good), (2, CloseEx.good)]⟩) 0).connections =
    [(2, CloseEx.good)] := by decide

/-- When closing the context fails, the ticket reports the connection that ended, whatever other
connections do: a client that polls until the number of connections is zero waits forever. -/
theorem C93_counterexample_reported {con r : Nat} {s : Nat → Closing.Ticket} {x : Ctx}
    (hd : ((s r).connections.map Prod.fst).Nodup) (hx : (con, x) ∈ (s r).connections) (hf : Fails x)
    (others : List (Nat × List Nat)) (ho : ∀ p ∈ others, p.1 ≠ con) :
    0 < reported (others.foldl (fun s p => finish p.1 p.2 s) (finish con [r] s) r) := by
  have h1 : (con, x.close.2) ∈ (finish con [r] s r).connections := by
    unfold finish finish
    simp only [if_true]
    unfold Closing.Ticket.removeContext
    cases hfind : (s r).connections.find? (fun p => p.1 = con) with
    | none =>
      rw [List.find?_eq_none] at hfind
      exact absurd (decide_eq_true rfl) (hfind _ hx)
    | some p =>
      obtain ⟨c, y⟩ := p
      have hm := List.mem_of_find?_eq_some hfind
      have hc : c = con := by simpa using List.find?_some hfind
      subst hc
      have hxy : y = x := by
        exact context_unique hd hm hx
      subst hxy
      have hr : y.close.1 = true := (close_raised y).mpr hf
      obtain ⟨y', hy⟩ : ∃ y', y.close = (true, y') := ⟨_, Prod.ext hr rfl⟩
      simp only [hy]
      exact List.mem_map.mpr ⟨_, hm, by simp⟩
  have h2 : ∀ (os : List (Nat × List Nat)) (s' : Nat → Closing.Ticket), (∀ p ∈ os, p.1 ≠ con) →
      (con, x.close.2) ∈ (s' r).connections →
      (con, x.close.2) ∈ (os.foldl (fun s p => finish p.1 p.2 s) s' r).connections := by
    intro os
    induction os with
    | nil => intro s' _ h; exact h
    | cons p os ih =>
      intro s' hne h
      refine ih _ (fun q hq => hne q (List.mem_cons_of_mem _ hq)) ?_
      exact (finish_other (hne p (List.mem_cons_self ..)).symm _ _ _).mpr h
  exact List.length_pos_of_mem (h2 others _ ho h1)

example : Fails CloseEx.bad := by decide

theorem closeAll_ok {cs : List (Nat × Ctx)} (hf : ∀ p ∈ cs, ¬ Fails p.2) :
    closeAll cs = (false, cs.map fun p => (p.1, p.2.close.2)) := by
  induction cs with
  | nil => rfl
  | cons p rest ih =>
    obtain ⟨c, x⟩ := p
    have hr : x.close.1 = false := by
      have := hf _ (List.mem_cons_self ..)
      rw [← close_raised] at this
      simpa using this
    have : x.close = (false, x.close.2) := Prod.ext hr rfl
    unfold closeAll
    rw [this]
    simp only
    rw [ih fun p hp => hf p (List.mem_cons_of_mem _ hp)]
    rfl

/-- Partial: cancelling a ticket that has no ongoing operations releases the contexts of all the
idle connections, and the ticket can be removed.  Missing: when closing a context fails, see the
counterexample and `C93_retry`. -/
theorem C93_cancel_partial {t : Closing.Ticket} {wait : Bool} {waited : Option Closing.Ticket} (hi : t.ongoing = false)
    (hf : ∀ p ∈ t.connections, ¬ Fails p.2) :
    (t.cancel wait waited).1 = .removable ∧ (t.cancel wait waited).2.canceled = true ∧
      (t.cancel wait waited).2.connections.map Prod.fst = t.connections.map Prod.fst ∧
      ∀ p ∈ (t.cancel wait waited).2.connections, Released p.2 := by
  unfold Closing.Ticket.cancel
  simp only [hi, if_true, closeAll_ok hf]
  refine ⟨trivial, trivial, by simp, ?_⟩
  intro p hp
  obtain ⟨q, _, rfl⟩ := List.mem_map.mp hp
  exact close_released _

/-- When the operations end in time, the contexts of the connections at that time are released. -/
theorem C93_cancel_waited_partial {t t' : Closing.Ticket} (hi : t.ongoing = true)
    (hf : ∀ p ∈ t'.connections, ¬ Fails p.2) :
    (t.cancel true (some t')).1 = .removable ∧
      (t.cancel true (some t')).2.connections.map Prod.fst = t'.connections.map Prod.fst ∧
      ∀ p ∈ (t.cancel true (some t')).2.connections, Released p.2 := by
  unfold Closing.Ticket.cancel
  simp only [hi, closeAll_ok hf, Bool.true_eq_false, if_false, if_true]
  refine ⟨trivial, by simp, ?_⟩
  intro p hp
  obtain ⟨q, _, rfl⟩ := List.mem_map.mp hp
  exact close_released _

example : (Closing.Ticket.cancel ⟨false, false, [(1, CloseEx.good), (2, CloseEx.good)]⟩ true none).1 = .removable := by
  decide

/-- The first context that fails to close ends the loop: `cancel` raises, and the contexts after it
are not touched, they stay open. -/
theorem C93_counterexample_cancel {pre post : List (Nat × Ctx)} {c : Nat} {x : Ctx} {canceled wait : Bool}
    (hpre : ∀ p ∈ pre, ¬ Fails p.2) (hx : Fails x) :
    ∃ pre', (Closing.Ticket.mk canceled false (pre ++ (c, x) :: post)).cancel wait none =
      (.raised, ⟨true, false, pre' ++ (c, x.close.2) :: post⟩) := by
  have hr : x.close = (true, x.close.2) := Prod.ext ((close_raised x).mpr hx) rfl
  have : ∃ pre', closeAll (pre ++ (c, x) :: post) = (true, pre' ++ (c, x.close.2) :: post) := by
    induction pre with
    | nil =>
      refine ⟨[], ?_⟩
      simp only [List.nil_append]
      unfold closeAll
      rw [hr]
    | cons p pre ih =>
      obtain ⟨d, y⟩ := p
      obtain ⟨pre', h⟩ := ih fun p hp => hpre p (List.mem_cons_of_mem _ hp)
      have hy : y.close = (false, y.close.2) := by
        have := hpre _ (List.mem_cons_self ..)
        rw [← close_raised] at this
        exact Prod.ext (by simpa using this) rfl
      refine ⟨(d, y.close.2) :: pre', ?_⟩
      rw [List.cons_append]
      unfold closeAll
      rw [hy]
      simp only [h]
      rfl
  obtain ⟨pre', h⟩ := this
  refine ⟨pre', ?_⟩
  unfold Closing.Ticket.cancel
  simp only [if_true, h]

/-- The second connection stays open. -/
example : Closing.Ticket.cancel ⟨false, false, [(1, CloseEx.bad), (2, CloseEx.good)]⟩ true none =
    (.raised, ⟨true, false, [(1, ⟨false, false, true⟩), (2, CloseEx.good)]⟩) := by decide

theorem closeAll_raised {cs : List (Nat × Ctx)} (hf : ∃ p ∈ cs, Fails p.2) :
    ∃ cs', closeAll cs = (true, cs') ∧ cs'.map Prod.fst = cs.map Prod.fst ∧
      cs'.countP (fun p => decide (Fails p.2)) + 1 = cs.countP (fun p => decide (Fails p.2)) := by
  induction cs with
  | nil => obtain ⟨p, hp, _⟩ := hf; cases hp
  | cons p rest ih =>
    obtain ⟨c, x⟩ := p
    have closedNot : ¬ Fails x.close.2 := by simp [Fails, Ctx.close]
    by_cases hx : Fails x
    · have hr : x.close = (true, x.close.2) := Prod.ext ((close_raised x).mpr hx) rfl
      refine ⟨(c, x.close.2) :: rest, ?_, rfl, ?_⟩
      · unfold closeAll
        rw [hr]
      · simp [hx, closedNot]
    · have hr : x.close = (false, x.close.2) := by
        rw [← close_raised] at hx
        exact Prod.ext (by simpa using hx) rfl
      obtain ⟨cs', h1, h2, h3⟩ := ih (by
        obtain ⟨p, hp, hpf⟩ := hf
        rcases List.mem_cons.mp hp with rfl | hp
        · exact absurd hpf hx
        · exact ⟨p, hp, hpf⟩)
      refine ⟨(c, x.close.2) :: cs', ?_, by simp [h2], ?_⟩
      · unfold closeAll
        rw [hr]
        simp only [h1]
      · simp [hx, closedNot, h3]

/-- Deleting again helps: with `k` contexts that fail to close, the first `k` requests fail, and
the next one removes the ticket, with all the contexts of the ticket released. -/
theorem C93_retry {t : Closing.Ticket} {wait : Bool} (hi : t.ongoing = false) {n : Nat} (hn : failing t < n) :
    (deletes wait n t).1 = List.replicate (failing t) .raised ++ [.removable] ∧
      (deletes wait n t).2.connections.map Prod.fst = t.connections.map Prod.fst ∧
      ∀ p ∈ (deletes wait n t).2.connections, Released p.2 := by
  induction n generalizing t with
  | zero => omega
  | succ n ih =>
    by_cases hf : ∃ p ∈ t.connections, Fails p.2
    · obtain ⟨cs, h1, h2, h3⟩ := closeAll_raised hf
      have hrem : removeIdle t wait = (.raised, ⟨true, false, cs⟩, true) := by
        unfold removeIdle Closing.Ticket.cancel
        simp only [hi, if_true, h1]
      have hk : failing ⟨true, false, cs⟩ + 1 = failing t := h3
      obtain ⟨i1, i2, i3⟩ := ih (t := ⟨true, false, cs⟩) rfl (by omega)
      unfold deletes
      rw [hrem]
      refine ⟨?_, i2.trans h2, i3⟩
      simp only [i1]
      rw [← hk, List.replicate_succ]
      rfl
    · have hf' : ∀ p ∈ t.connections, ¬ Fails p.2 := fun p hp h => hf ⟨p, hp, h⟩
      have hk : failing t = 0 := by
        unfold failing
        rw [List.countP_eq_zero]
        intro p hp
        simpa using hf' p hp
      obtain ⟨c1, c2, c3, c4⟩ := C93_cancel_partial (wait := wait) (waited := none) hi hf'
      have hc : t.cancel wait none = (.removable, (t.cancel wait none).2) := Prod.ext c1 rfl
      have hrem : removeIdle t wait = (.removable, (t.cancel wait none).2, false) := by
        unfold removeIdle
        rw [hc]
      unfold deletes
      rw [hrem, hk]
      exact ⟨rfl, c3, c4⟩

example : deletes true 5 ⟨false, false, [(1, CloseEx.bad), (2, CloseEx.good), (3, CloseEx.bad)]⟩ =
    ([.raised, .raised, .removable],
      ⟨true, false, [(1, ⟨false, false, true⟩), (2, ⟨false, false, false⟩), (3, ⟨false, false, true⟩)]⟩) := by decide

end Imageio.Props
