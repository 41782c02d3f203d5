import Verif.Spec.HttpExtents
import Verif.Props.Extents
import Verif.Props.Api

/-! C69: the extents and the size the HTTP client works with. -/

namespace Imageio.Props
open Imageio.Http Imageio.Images Imageio.Extents Imageio.HttpExtents Imageio.Spec.HttpExtents

/-- The JSON functions of the two sides fit. -/
abbrev Json_ok {σ τ : Type} (S : Served σ τ) : Prop := ∀ d, S.loads (S.dumps d) = some d

theorem fetch_srv {σ τ α : Type} (S : Served σ τ) (context : Str) (fromDict : Json → Option α)
    (w : World σ) : (fetch S context fromDict w).2 = w.done := by
  unfold fetch
  split <;> rfl

theorem fetch_zero {σ τ : Type} {S : Served σ τ} (hj : Json_ok S) {w w' : World σ}
    {l : List ZeroExtent} (h : fetch S (lit "zero") ZeroExtent.fromDict w = (.ok l, w')) :
    S.zero w.srv = .ok l ∧ w.net = ⟨none, none⟩ ∧ S.ticketId ≠ [] := by
  unfold fetch at h
  cases hl : w.net.lost with
  | some e => rw [hl] at h; simp at h
  | none =>
    rw [hl] at h
    simp only [Prod.mk.injEq] at h
    by_cases ht : S.ticketId = []
    · obtain ⟨-, e, he⟩ := C35_refused (dumps := S.dumps) (loads := S.loads) S.ticketId (lit "zero")
        w.net.auth S.dirtyTicket (S.zero w.srv) (S.dirty w.srv) ZeroExtent.fromDict (.inl ht)
      rw [he] at h
      simp at h
    cases ha : w.net.auth with
    | some a =>
      obtain ⟨-, e, he⟩ := C35_refused (dumps := S.dumps) (loads := S.loads) S.ticketId (lit "zero")
        w.net.auth S.dirtyTicket (S.zero w.srv) (S.dirty w.srv) ZeroExtent.fromDict
        (.inr (.inl (by simp [ha])))
      rw [he] at h
      simp at h
    | none =>
      cases hz : S.zero w.srv with
      | error e =>
        obtain ⟨-, e, he⟩ := C35_refused (dumps := S.dumps) (loads := S.loads) S.ticketId (lit "zero")
          w.net.auth S.dirtyTicket (S.zero w.srv) (S.dirty w.srv) ZeroExtent.fromDict
          (.inr (.inr (.inr (.inr ⟨rfl, e, hz⟩))))
        rw [he] at h
        simp at h
      | ok l' =>
        have := C35_zero hj S.ticketId ht S.dirtyTicket l' (S.dirty w.srv)
        rw [ha, hz] at h
        rw [this] at h
        simp only [Except.ok.injEq] at h
        refine ⟨by rw [h.1], ?_, ht⟩
        cases hn : w.net with
        | mk a b =>
          rw [hn] at hl ha
          simp only at hl ha
          rw [hl, ha]

theorem fetch_dirty {σ τ : Type} {S : Served σ τ} (hj : Json_ok S) {w w' : World σ}
    {l : List DirtyExtent} (h : fetch S (lit "dirty") DirtyExtent.fromDict w = (.ok l, w')) :
    S.dirty w.srv = .ok l ∧ S.dirtyTicket = true := by
  unfold fetch at h
  cases hl : w.net.lost with
  | some e => rw [hl] at h; simp at h
  | none =>
    rw [hl] at h
    simp only [Prod.mk.injEq] at h
    have refused := C35_refused (dumps := S.dumps) (loads := S.loads) S.ticketId (lit "dirty")
        w.net.auth S.dirtyTicket (S.zero w.srv) (S.dirty w.srv) DirtyExtent.fromDict
    by_cases ht : S.ticketId = []
    · obtain ⟨-, e, he⟩ := refused (.inl ht)
      rw [he] at h
      simp at h
    cases ha : w.net.auth with
    | some a =>
      obtain ⟨-, e, he⟩ := refused (.inr (.inl (by simp [ha])))
      rw [he] at h
      simp at h
    | none =>
      cases hd : S.dirtyTicket with
      | false =>
        obtain ⟨-, e, he⟩ := refused (.inr (.inr (.inr (.inl ⟨rfl, .inl hd⟩))))
        rw [he] at h
        simp at h
      | true =>
        cases hz : S.dirty w.srv with
        | error e =>
          obtain ⟨-, e, he⟩ := refused (.inr (.inr (.inr (.inl ⟨rfl, .inr ⟨e, hz⟩⟩))))
          rw [he] at h
          simp at h
        | ok l' =>
          have := C35_dirty hj S.ticketId ht (S.zero w.srv) l'
          rw [ha, hz, hd] at h
          rw [this] at h
          simp only [Except.ok.injEq] at h
          exact ⟨by rw [h.1], rfl⟩

/-- What one of the functions of a client does: the image does not change, and the client knows only
what was or is true. -/
theorem askZero_knows {σ τ : Type} {S : Served σ τ} (hj : Json_ok S) {past : List σ} {c : Known}
    {w : World σ} (hk : Knows S past c) (hw : w.srv ∈ past) :
    (askZero S c w).2.2.srv = w.srv ∧ Knows S past (askZero S c w).2.1 ∧
    (askZero S c w).2.1.canExtents = c.canExtents ∧
    (askZero S c w).2.1.size = c.size ∧
    (∀ e, (askZero S c w).1 = .error e → (askZero S c w).2.1 = c) ∧
    (∀ l, (askZero S c w).1 = .ok l → (askZero S c w).2.1.zero = some l ∧
      (c.zero = none → S.zero w.srv = .ok l)) := by
  unfold askZero
  cases hz : c.zero with
  | some l =>
    refine ⟨rfl, hk, rfl, rfl, nofun, ?_⟩
    intro l' hl'
    cases hl'
    exact ⟨hz, nofun⟩
  | none =>
    have hs := fetch_srv S (lit "zero") ZeroExtent.fromDict w
    cases hf : fetch S (lit "zero") ZeroExtent.fromDict w with
    | mk r w1 =>
      rw [hf] at hs
      simp only at hs
      subst hs
      cases r with
      | error e => exact ⟨rfl, hk, rfl, rfl, fun _ _ => rfl, nofun⟩
      | ok l =>
        obtain ⟨h1, -⟩ := fetch_zero hj hf
        refine ⟨rfl, ⟨?_, hk.dirty, hk.size⟩, rfl, rfl, nofun, ?_⟩
        · intro l' hl'
          cases hl'
          exact ⟨_, hw, h1⟩
        · intro l' hl'
          cases hl'
          exact ⟨rfl, fun _ => h1⟩

theorem askDirty_knows {σ τ : Type} {S : Served σ τ} (hj : Json_ok S) {past : List σ} {c : Known}
    {w : World σ} (hk : Knows S past c) (hw : w.srv ∈ past) :
    (askDirty S c w).2.2.srv = w.srv ∧ Knows S past (askDirty S c w).2.1 ∧
    (askDirty S c w).2.1.canExtents = c.canExtents ∧
    (∀ e, (askDirty S c w).1 = .error e → (askDirty S c w).2.1 = c) ∧
    (∀ l, (askDirty S c w).1 = .ok l → (askDirty S c w).2.1.dirty = some l ∧
      (c.dirty = none → S.dirty w.srv = .ok l)) := by
  unfold askDirty
  cases hz : c.dirty with
  | some l =>
    refine ⟨rfl, hk, rfl, nofun, ?_⟩
    intro l' hl'
    cases hl'
    exact ⟨hz, nofun⟩
  | none =>
    have hs := fetch_srv S (lit "dirty") DirtyExtent.fromDict w
    cases hf : fetch S (lit "dirty") DirtyExtent.fromDict w with
    | mk r w1 =>
      rw [hf] at hs
      simp only at hs
      subst hs
      cases r with
      | error e => exact ⟨rfl, hk, rfl, fun _ _ => rfl, nofun⟩
      | ok l =>
        obtain ⟨h1, h2⟩ := fetch_dirty hj hf
        refine ⟨rfl, ⟨hk.zero, ?_, hk.size⟩, rfl, nofun, ?_⟩
        · intro l' hl'
          cases hl'
          exact ⟨h2, _, hw, h1⟩
        · intro l' hl'
          cases hl'
          exact ⟨rfl, fun _ => h1⟩

theorem getLast_ends {l : List ZeroExtent} {e : ZeroExtent} (h : l.getLast? = some e) :
    EndsAt l (e.start + e.length) := by
  obtain ⟨pre, rfl⟩ := List.getLast?_eq_some_iff.1 h
  exact ⟨pre, e, rfl, rfl⟩

theorem size_knows {σ τ : Type} {S : Served σ τ} (hj : Json_ok S) {past : List σ} {c : Known}
    {w : World σ} (hk : Knows S past c) (hw : w.srv ∈ past) :
    (askSize S c w).2.2.srv = w.srv ∧ Knows S past (askSize S c w).2.1 ∧
    (askSize S c w).2.1.canExtents = c.canExtents ∧
    (∀ n, (askSize S c w).1 = .ok n → (askSize S c w).2.1.size = some n) := by
  unfold askSize
  cases hz : c.size with
  | some n =>
    refine ⟨rfl, hk, rfl, ?_⟩
    intro n' hn'
    cases hn'
    exact hz
  | none =>
    cases hc : c.canExtents with
    | true =>
      simp only [if_true]
      obtain ⟨h1, h2, h3, h4, h5, h6⟩ := askZero_knows hj hk hw
      generalize askZero S c w = x at h1 h2 h3 h4 h5 h6
      obtain ⟨r, c1, w1⟩ := x
      cases r with
      | error e => exact ⟨h1, h2, h3.trans hc, nofun⟩
      | ok l =>
        simp only
        cases hl : l.getLast? with
        | none => exact ⟨h1, h2, h3.trans hc, nofun⟩
        | some e =>
          refine ⟨h1, ⟨h2.zero, h2.dirty, ?_⟩, h3.trans hc, ?_⟩
          · intro n hn
            cases hn
            obtain ⟨s, hs1, hs2⟩ := h2.zero l (h6 l rfl).1
            exact ⟨s, hs1, .inl ⟨h3.trans hc, l, hs2, getLast_ends hl⟩⟩
          · intro n hn
            cases hn
            rfl
    | false =>
      simp only [Bool.false_eq_true, if_false]
      unfold emulateHead
      cases hl : w.net.lost with
      | some e => exact ⟨rfl, hk, hc, nofun⟩
      | none =>
        cases ha : w.net.auth with
        | some a => exact ⟨rfl, hk, hc, nofun⟩
        | none =>
          refine ⟨rfl, ⟨hk.zero, hk.dirty, ?_⟩, rfl, ?_⟩
          · intro n hn
            cases hn
            exact ⟨_, hw, .inr ⟨rfl, rfl⟩⟩
          · intro n hn
            cases hn
            rfl

theorem extents_knows {σ τ : Type} {S : Served σ τ} (hj : Json_ok S) {past : List σ} {c : Known}
    {w : World σ} (context : Str) (hk : Knows S past c) (hw : w.srv ∈ past) :
    (askExtents S context c w).2.2.srv = w.srv ∧ Knows S past (askExtents S context c w).2.1 ∧
    (askExtents S context c w).2.1.canExtents = c.canExtents ∧
    (c.canExtents = true →
      (∀ e, (askExtents S context c w).1 = .error e → (askExtents S context c w).2.1 = c) ∧
      (∀ l, (askExtents S context c w).1 = .ok (.zero l) → context = lit "zero" ∧
        (askExtents S context c w).2.1.zero = some l ∧ (c.zero = none → S.zero w.srv = .ok l)) ∧
      (∀ l, (askExtents S context c w).1 = .ok (.dirty l) → context = lit "dirty" ∧
        (askExtents S context c w).2.1.dirty = some l ∧ (c.dirty = none → S.dirty w.srv = .ok l))) := by
  unfold askExtents
  by_cases hx : context ≠ lit "zero" ∧ context ≠ lit "dirty"
  · rw [if_pos hx]
    exact ⟨rfl, hk, rfl, fun _ => ⟨fun _ _ => rfl, nofun, nofun⟩⟩
  · rw [if_neg hx]
    cases hc : c.canExtents with
    | false =>
      simp only [Bool.not_false, if_true]
      by_cases h0 : context = lit "zero"
      · rw [if_pos h0]
        obtain ⟨h1, h2, h3, -⟩ := size_knows hj hk hw
        generalize askSize S c w = x at h1 h2 h3
        obtain ⟨r, c1, w1⟩ := x
        cases r <;> exact ⟨h1, h2, h3.trans hc, nofun⟩
      · rw [if_neg h0]
        exact ⟨rfl, hk, hc, nofun⟩
    | true =>
      simp only [Bool.not_true, Bool.false_eq_true, if_false]
      by_cases h0 : context = lit "zero"
      · rw [if_pos h0]
        obtain ⟨h1, h2, h3, h4, h5, h6⟩ := askZero_knows hj hk hw
        generalize askZero S c w = x at h1 h2 h3 h4 h5 h6
        obtain ⟨r, c1, w1⟩ := x
        cases r with
        | error e => exact ⟨h1, h2, h3.trans hc, fun _ => ⟨fun _ _ => h5 e rfl, nofun, nofun⟩⟩
        | ok l =>
          refine ⟨h1, h2, h3.trans hc, fun _ => ⟨nofun, ?_, nofun⟩⟩
          intro l' hl'
          cases hl'
          exact ⟨h0, h6 l rfl⟩
      · rw [if_neg h0]
        obtain ⟨h1, h2, h3, h5, h6⟩ := askDirty_knows hj hk hw
        generalize askDirty S c w = x at h1 h2 h3 h5 h6
        obtain ⟨r, c1, w1⟩ := x
        have h7 : context = lit "dirty" := by
          by_cases h : context = lit "dirty"
          · exact h
          · exact absurd ⟨h0, h⟩ hx
        cases r with
        | error e => exact ⟨h1, h2, h3.trans hc, fun _ => ⟨fun _ _ => h5 e rfl, nofun, nofun⟩⟩
        | ok l =>
          refine ⟨h1, h2, h3.trans hc, fun _ => ⟨nofun, nofun, ?_⟩⟩
          intro l' hl'
          cases hl'
          exact ⟨h7, h6 l rfl⟩

/-- In every execution, every client knows only what was true of a state of the image since the first
client was opened, and what the server supports. -/
theorem C69_snapshot {σ τ : Type} (S : Served σ τ) (hj : Json_ok S) (canExtents : Bool) (w : World σ)
    (as : List (Act σ)) :
    let s := run S canExtents w as
    s.w.srv ∈ s.past ∧ ∀ c ∈ s.clients, c.canExtents = canExtents ∧ Knows S s.past c := by
  let Inv : Sys σ → Prop := fun s =>
    s.w.srv ∈ s.past ∧ ∀ c ∈ s.clients, c.canExtents = canExtents ∧ Knows S s.past c
  have hset : ∀ {l : List Known} {i : Nat} {P : Known → Prop} {c' : Known}, (∀ c ∈ l, P c) → P c' →
      ∀ c ∈ l.set i c', P c := by
    intro l i P c' h h' c hc
    rcases List.mem_or_eq_of_mem_set hc with hc | rfl
    · exact h c hc
    · exact h'
  have hstep : ∀ s a, Inv s → Inv (step S s a) := by
    intro s a ⟨h1, h2⟩
    cases a with
    | change f =>
      refine ⟨by simp [step], ?_⟩
      intro c hc
      obtain ⟨g1, g2⟩ := h2 c hc
      refine ⟨g1, ?_, ?_, ?_⟩
      · intro l hl
        obtain ⟨x, hx, hx'⟩ := g2.zero l hl
        exact ⟨x, List.mem_cons_of_mem _ hx, hx'⟩
      · intro l hl
        obtain ⟨hd, x, hx, hx'⟩ := g2.dirty l hl
        exact ⟨hd, x, List.mem_cons_of_mem _ hx, hx'⟩
      · intro l hl
        obtain ⟨x, hx, hx'⟩ := g2.size l hl
        exact ⟨x, List.mem_cons_of_mem _ hx, hx'⟩
    | extents i context =>
      unfold step
      simp only
      split
      · exact ⟨h1, h2⟩
      · rename_i c hc
        obtain ⟨g1, g2⟩ := h2 c (List.mem_of_getElem? hc)
        obtain ⟨k1, k2, k3, -⟩ := extents_knows hj context g2 h1
        exact ⟨by rw [k1]; exact h1, hset h2 ⟨k3.trans g1, k2⟩⟩
    | size i =>
      unfold step
      simp only
      split
      · exact ⟨h1, h2⟩
      · rename_i c hc
        obtain ⟨g1, g2⟩ := h2 c (List.mem_of_getElem? hc)
        obtain ⟨k1, k2, k3, -⟩ := size_knows hj g2 h1
        exact ⟨by rw [k1]; exact h1, hset h2 ⟨k3.trans g1, k2⟩⟩
    | clone i =>
      unfold step
      simp only
      split
      · exact ⟨h1, h2⟩
      · rename_i c hc
        refine ⟨h1, ?_⟩
        intro c' hc'
        rcases List.mem_append.1 hc' with hc' | hc'
        · exact h2 c' hc'
        · rw [List.mem_singleton.1 hc']
          exact h2 c (List.mem_of_getElem? hc)
  have key : ∀ (as : List (Act σ)) s, Inv s → Inv (as.foldl (step S) s) := by
    intro as
    induction as with
    | nil => exact fun s h => h
    | cons a as ih => exact fun s h => ih _ (hstep s a h)
  refine key as _ ⟨by simp, ?_⟩
  intro c hc
  rw [List.mem_singleton.1 hc]
  exact ⟨rfl, nofun, nofun, nofun⟩

/-- What a client of an execution gets from `extents()`, if the server supports extents: the extents of
one of the states the image was in, and of the state it is in now if this is the first call. -/
theorem C69_result {σ τ : Type} (S : Served σ τ) (hj : Json_ok S) (w : World σ) (as : List (Act σ))
    (c : Known) (hc : c ∈ (run S true w as).clients) (context : Str) :
    let s := run S true w as
    (∀ l, (askExtents S context c s.w).1 = .ok (.zero l) → context = lit "zero" ∧
      (∃ st ∈ s.past, S.zero st = .ok l) ∧ (c.zero = none → S.zero s.w.srv = .ok l)) ∧
    (∀ l, (askExtents S context c s.w).1 = .ok (.dirty l) → context = lit "dirty" ∧
      S.dirtyTicket = true ∧ (∃ st ∈ s.past, S.dirty st = .ok l) ∧
      (c.dirty = none → S.dirty s.w.srv = .ok l)) ∧
    (∀ e, (askExtents S context c s.w).1 = .error e → (askExtents S context c s.w).2.1 = c) := by
  obtain ⟨h1, h2⟩ := C69_snapshot S hj true w as
  obtain ⟨g1, g2⟩ := h2 c hc
  obtain ⟨-, k2, -, k4⟩ := extents_knows hj context g2 h1
  obtain ⟨e1, e2, e3⟩ := k4 g1
  refine ⟨?_, ?_, e1⟩
  · intro l hl
    obtain ⟨a, b, d⟩ := e2 l hl
    exact ⟨a, k2.zero l b, d⟩
  · intro l hl
    obtain ⟨a, b, d⟩ := e3 l hl
    exact ⟨a, (k2.dirty l b).1, (k2.dirty l b).2, d⟩

theorem kept_zero {σ τ : Type} (S : Served σ τ) (c : Known) (w : World σ) (context : Str)
    (l : List ZeroExtent) (hc : c.canExtents = true) (h : c.zero = some l) :
    ((askExtents S context c w).2.1.canExtents = true ∧ (askExtents S context c w).2.1.zero = some l) ∧
    ((askSize S c w).2.1.canExtents = true ∧ (askSize S c w).2.1.zero = some l) := by
  have hz : askZero S c w = (.ok l, c, w) := by unfold askZero; rw [h]
  have hd : (askDirty S c w).2.1.canExtents = true ∧ (askDirty S c w).2.1.zero = some l := by
    unfold askDirty
    split
    · exact ⟨hc, h⟩
    · split
      · exact ⟨hc, h⟩
      · exact ⟨hc, h⟩
  constructor
  · unfold askExtents
    split
    · exact ⟨hc, h⟩
    · rw [if_neg (by simp [hc])]
      split
      · rw [hz]; exact ⟨hc, h⟩
      · generalize askDirty S c w = x at hd
        obtain ⟨r, c1, w1⟩ := x
        cases r <;> exact hd
  · unfold askSize
    split
    · exact ⟨hc, h⟩
    · rw [if_pos hc, hz]
      simp only
      split
      · exact ⟨hc, h⟩
      · exact ⟨hc, h⟩

theorem kept_dirty {σ τ : Type} (S : Served σ τ) (c : Known) (w : World σ) (context : Str)
    (l : List DirtyExtent) (hc : c.canExtents = true) (h : c.dirty = some l) :
    ((askExtents S context c w).2.1.canExtents = true ∧ (askExtents S context c w).2.1.dirty = some l) ∧
    ((askSize S c w).2.1.canExtents = true ∧ (askSize S c w).2.1.dirty = some l) := by
  have hd : askDirty S c w = (.ok l, c, w) := by unfold askDirty; rw [h]
  have hz : (askZero S c w).2.1.canExtents = true ∧ (askZero S c w).2.1.dirty = some l := by
    unfold askZero
    split
    · exact ⟨hc, h⟩
    · split
      · exact ⟨hc, h⟩
      · exact ⟨hc, h⟩
  constructor
  · unfold askExtents
    split
    · exact ⟨hc, h⟩
    · rw [if_neg (by simp [hc])]
      split
      · generalize askZero S c w = x at hz
        obtain ⟨r, c1, w1⟩ := x
        cases r <;> exact hz
      · rw [hd]; exact ⟨hc, h⟩
  · unfold askSize
    split
    · exact ⟨hc, h⟩
    · rw [if_pos hc]
      generalize askZero S c w = x at hz
      obtain ⟨r, c1, w1⟩ := x
      cases r with
      | error e => exact hz
      | ok l' =>
        simp only
        split
        · exact hz
        · exact hz

/-- A property of a client that asking keeps, holds for the client whatever happens later. -/
theorem kept_run {σ τ : Type} (S : Served σ τ) (P : Known → Prop)
    (hP : ∀ c w context, P c → P (askExtents S context c w).2.1 ∧ P (askSize S c w).2.1)
    (as : List (Act σ)) (s : Sys σ) (i : Nat) (c : Known) (hi : s.clients[i]? = some c) (h : P c) :
    ∃ c', (as.foldl (step S) s).clients[i]? = some c' ∧ P c' := by
  induction as generalizing s c with
  | nil => exact ⟨c, hi, h⟩
  | cons a as ih =>
    rw [List.foldl_cons]
    have one : ∃ c', (step S s a).clients[i]? = some c' ∧ P c' := by
      cases a with
      | change f => exact ⟨c, hi, h⟩
      | extents j context =>
        unfold step
        simp only
        split
        · exact ⟨c, hi, h⟩
        · rename_i cj hj
          by_cases hij : j = i
          · subst hij
            rw [hi] at hj
            cases hj
            have hlt := (List.getElem?_eq_some_iff.1 hi).1
            exact ⟨_, List.getElem?_set_self hlt, (hP c s.w context h).1⟩
          · exact ⟨c, by simp only [List.getElem?_set_ne hij]; exact hi, h⟩
      | size j =>
        unfold step
        simp only
        split
        · exact ⟨c, hi, h⟩
        · rename_i cj hj
          by_cases hij : j = i
          · subst hij
            rw [hi] at hj
            cases hj
            have hlt := (List.getElem?_eq_some_iff.1 hi).1
            exact ⟨_, List.getElem?_set_self hlt, (hP c s.w [] h).2⟩
          · exact ⟨c, by simp only [List.getElem?_set_ne hij]; exact hi, h⟩
      | clone j =>
        unfold step
        simp only
        split
        · exact ⟨c, hi, h⟩
        · refine ⟨c, ?_, h⟩
          have hlt := (List.getElem?_eq_some_iff.1 hi).1
          simp only [List.getElem?_append_left hlt]
          exact hi
    obtain ⟨c', h1, h2⟩ := one
    exact ih _ c' h1 h2

/-- After a client got the extents of a context, it and the clones made of it then get the same extents
without asking the server, whatever happens later. -/
theorem C69_stable {σ τ : Type} (S : Served σ τ) (s : Sys σ) (i : Nat) (c : Known) (context : Str)
    (x : Exts) (hi : s.clients[i]? = some c) (hc : c.canExtents = true)
    (hx : (askExtents S context c s.w).1 = .ok x) (as : List (Act σ)) :
    let s1 := step S s (.extents i context)
    (∃ c', (as.foldl (step S) s1).clients[i]? = some c' ∧
      ∀ w, askExtents S context c' w = (.ok x, c', w)) ∧
    (∃ c', (as.foldl (step S) (step S s1 (.clone i))).clients[s.clients.length]? = some c' ∧
      ∀ w, askExtents S context c' w = (.ok x, c', w)) := by
  have hlt := (List.getElem?_eq_some_iff.1 hi).1
  have hs1 : (step S s (.extents i context)).clients = s.clients.set i (askExtents S context c s.w).2.1 := by
    unfold step
    simp only [hi]
  have hi1 : (step S s (.extents i context)).clients[i]? = some (askExtents S context c s.w).2.1 := by
    rw [hs1]
    exact List.getElem?_set_self hlt
  have hlen : (step S s (.extents i context)).clients.length = s.clients.length := by
    rw [hs1, List.length_set]
  have hcl : (step S (step S s (.extents i context)) (.clone i)).clients[s.clients.length]? =
      some (askExtents S context c s.w).2.1 := by
    generalize step S s (.extents i context) = s1 at hi1 hlen
    unfold step
    simp only [hi1]
    rw [← hlen]
    simp [cloned]
  suffices key : ∃ P : Known → Prop, P (askExtents S context c s.w).2.1 ∧
      (∀ c w context, P c → P (askExtents S context c w).2.1 ∧ P (askSize S c w).2.1) ∧
      (∀ c', P c' → ∀ w, askExtents S context c' w = (.ok x, c', w)) by
    obtain ⟨P, h1, h2, h3⟩ := key
    obtain ⟨c1, g1, g2⟩ := kept_run S P h2 as _ i _ hi1 h1
    obtain ⟨c2, g3, g4⟩ := kept_run S P h2 as _ _ _ hcl h1
    exact ⟨⟨c1, g1, h3 c1 g2⟩, ⟨c2, g3, h3 c2 g4⟩⟩
  unfold askExtents at hx
  by_cases hctx : context ≠ lit "zero" ∧ context ≠ lit "dirty"
  · rw [if_pos hctx] at hx
    simp at hx
  rw [if_neg hctx, if_neg (by simp [hc])] at hx
  by_cases h0 : context = lit "zero"
  · rw [if_pos h0] at hx
    have hz : ∃ l, x = .zero l ∧ (askZero S c s.w).1 = .ok l := by
      generalize askZero S c s.w = y at hx
      obtain ⟨r, c1, w1⟩ := y
      cases r with
      | error e => simp at hx
      | ok l =>
        simp only [Except.ok.injEq] at hx
        exact ⟨l, hx.symm, rfl⟩
    obtain ⟨l, rfl, hl⟩ := hz
    refine ⟨fun c => c.canExtents = true ∧ c.zero = some l, ?_, ?_, ?_⟩
    · unfold askExtents
      rw [if_neg hctx, if_neg (by simp [hc]), if_pos h0]
      unfold askZero at hl ⊢
      cases hcz : c.zero with
      | some l' =>
        rw [hcz] at hl
        cases hl
        exact ⟨hc, hcz⟩
      | none =>
        rw [hcz] at hl
        simp only at hl ⊢
        generalize fetch S (lit "zero") ZeroExtent.fromDict s.w = y at hl
        obtain ⟨r, w1⟩ := y
        cases r with
        | error e => simp at hl
        | ok l' =>
          simp only [Except.ok.injEq] at hl
          subst hl
          exact ⟨hc, rfl⟩
    · intro c w ctx h
      exact kept_zero S c w ctx l h.1 h.2
    · intro c' ⟨h1, h2⟩ w
      unfold askExtents askZero
      rw [if_neg hctx, if_neg (by simp [h1]), if_pos h0, h2]
  · rw [if_neg h0] at hx
    have hz : ∃ l, x = .dirty l ∧ (askDirty S c s.w).1 = .ok l := by
      generalize askDirty S c s.w = y at hx
      obtain ⟨r, c1, w1⟩ := y
      cases r with
      | error e => simp at hx
      | ok l =>
        simp only [Except.ok.injEq] at hx
        exact ⟨l, hx.symm, rfl⟩
    obtain ⟨l, rfl, hl⟩ := hz
    refine ⟨fun c => c.canExtents = true ∧ c.dirty = some l, ?_, ?_, ?_⟩
    · unfold askExtents
      rw [if_neg hctx, if_neg (by simp [hc]), if_neg h0]
      unfold askDirty at hl ⊢
      cases hcz : c.dirty with
      | some l' =>
        rw [hcz] at hl
        cases hl
        exact ⟨hc, hcz⟩
      | none =>
        rw [hcz] at hl
        simp only at hl ⊢
        generalize fetch S (lit "dirty") DirtyExtent.fromDict s.w = y at hl
        obtain ⟨r, w1⟩ := y
        cases r with
        | error e => simp at hl
        | ok l' =>
          simp only [Except.ok.injEq] at hl
          subst hl
          exact ⟨hc, rfl⟩
    · intro c w ctx h
      exact kept_dirty S c w ctx l h.1 h.2
    · intro c' ⟨h1, h2⟩ w
      unfold askExtents askDirty
      rw [if_neg hctx, if_neg (by simp [h1]), if_neg h0, h2]

theorem tiles_end {a n : Nat} {l : List (Nat × Nat)} {pre : List (Nat × Nat)} {e : Nat × Nat}
    (h : Imageio.Spec.Tiles a l n) (hl : l = pre ++ [e]) : n = e.1 + e.2 := by
  induction h generalizing pre with
  | nil s => simp at hl
  | cons hlen h ih =>
    rename_i s len n l
    cases pre with
    | nil =>
      simp only [List.nil_append, List.cons.injEq] at hl
      obtain ⟨rfl, rfl⟩ := hl
      cases h
      rfl
    | cons p pre =>
      simp only [List.cons_append, List.cons.injEq] at hl
      exact ih hl.2

/-- While nobody writes to the image, as in a download, the extents a client gets cover the image and
are zero only where it is zero, and the size it gets is the size of the image; so a download that
copies them has the content of the image.  The extents of the server are described by C20 and C62. -/
theorem C69_download {σ τ : Type} (S : Served σ τ) (hj : Json_ok S) (content : σ → Nat → Byte)
    (hS : ∀ st l, S.zero st = .ok l → Complete l (S.size st) ∧ Truthful l (content st))
    (canExtents : Bool) (w : World σ) (as : List (Act σ)) (n : Nat) (hn : 0 < n) (src : Nat → Byte)
    (hsame : ∀ st ∈ (run S canExtents w as).past, content st = src ∧ S.size st = n)
    (c : Known) (hc : c ∈ (run S canExtents w as).clients) :
    (∀ m, (askSize S c (run S canExtents w as).w).1 = .ok m → m = n) ∧
    (∀ context l, (askExtents S context c (run S canExtents w as).w).1 = .ok (.zero l) →
      Complete l n ∧ Truthful l src ∧
      ∀ (k : Int) (dirty : List DirtyExtent) (after : Nat → Byte),
        Copied k (Imageio.Api.downloadActs false false l dirty) src (Imageio.Spec.visible []) after →
        ∀ i, i < n → after i = src i) := by
  obtain ⟨h1, h2⟩ := C69_snapshot S hj canExtents w as
  obtain ⟨g1, g2⟩ := h2 c hc
  have hsize : ∀ m, (askSize S c (run S canExtents w as).w).1 = .ok m → m = n := by
    intro m hm
    obtain ⟨-, k2, k3, k4⟩ := size_knows hj g2 h1
    obtain ⟨st, hs1, hs2⟩ := k2.size m (k4 m hm)
    rcases hs2 with ⟨-, l, hl, pre, e, rfl, rfl⟩ | ⟨-, hs2⟩
    · have := (hS st _ hl).1
      rw [(hsame st hs1).2] at this
      have h := tiles_end this (pre := pre.map fun e => (e.start, e.length)) (e := (e.start, e.length))
        (by simp)
      exact h.symm
    · rw [← hs2]
      exact (hsame st hs1).2
  refine ⟨hsize, ?_⟩
  intro context l hl
  have main : Complete l n ∧ Truthful l src := by
    cases hcan : c.canExtents with
    | true =>
      obtain ⟨-, k2, -, k4⟩ := extents_knows hj context g2 h1
      obtain ⟨-, e2, -⟩ := k4 hcan
      obtain ⟨st, hs1, hs2⟩ := k2.zero l (e2 l hl).2.1
      obtain ⟨a, b⟩ := hS st l hs2
      obtain ⟨hx, hy⟩ := hsame st hs1
      exact ⟨hy ▸ a, hx ▸ b⟩
    | false =>
      unfold askExtents at hl
      split at hl
      · simp at hl
      · rw [if_pos (by simp [hcan])] at hl
        split at hl
        · have hm := hsize
          generalize askSize S c (run S canExtents w as).w = y at hl hm
          obtain ⟨r, c1, w1⟩ := y
          cases r with
          | error e => simp at hl
          | ok m =>
            simp only [Except.ok.injEq, Exts.zero.injEq] at hl
            subst hl
            rw [hm m rfl]
            refine ⟨?_, ?_⟩
            · have : Imageio.Spec.Tiles 0 [(0, n)] (0 + n) := .cons hn (.nil _)
              rw [Nat.zero_add] at this
              exact this
            · intro e he hz
              rw [List.mem_singleton.1 he] at hz
              simp at hz
        · simp at hl
  exact ⟨main.1, main.2, fun k dirty after hcp => C55_download main.1 main.2 hcp⟩

/-- A context that is not known is refused, and without support of the server there are no dirty
extents; nothing is sent. -/
theorem C69_unsupported {σ τ : Type} (S : Served σ τ) (c : Known) (w : World σ) (context : Str) :
    (context ≠ lit "zero" → context ≠ lit "dirty" →
      askExtents S context c w = (.error (.exception "RuntimeError"), c, w)) ∧
    (c.canExtents = false → askExtents S (lit "dirty") c w = (.error unsupported, c, w)) := by
  constructor
  · intro h1 h2
    unfold askExtents
    rw [if_pos ⟨h1, h2⟩]
  · intro h
    have n1 : lit "dirty" ≠ lit "zero" := by decide
    unfold askExtents
    rw [if_neg (by simp), if_pos (by simp [h]), if_neg n1]

/-- After the client, or anybody else, wrote data to an extent that was reported as zero, the client
still reports it as zero. -/
theorem C69_counterexample_stale {σ τ : Type} (S : Served σ τ) (content : σ → Nat → Byte) (s : Sys σ)
    (c : Known) (hi : s.clients[0]? = some c) (hc : c.canExtents = true) (l : List ZeroExtent)
    (hz : (askExtents S (lit "zero") c s.w).1 = .ok (.zero l))
    (e : ZeroExtent) (he : e ∈ l) (hzero : e.zero = true) (hpos : 0 < e.length) (f : σ → σ)
    (hf : ∀ st, content (f st) e.start = 1) :
    let s' := step S (step S s (.extents 0 (lit "zero"))) (.change f)
    ∃ c', s'.clients[0]? = some c' ∧ (askExtents S (lit "zero") c' s'.w).1 = .ok (.zero l) ∧
      ¬ Truthful l (content s'.w.srv) := by
  obtain ⟨⟨c', h1, h2⟩, -⟩ := C69_stable S s 0 c (lit "zero") (.zero l) hi hc hz [.change f]
  refine ⟨c', h1, by rw [h2], ?_⟩
  intro ht
  have := ht e he hzero e.start ⟨Nat.le_refl _, by omega⟩
  have h3 : content (step S (step S s (.extents 0 (lit "zero"))) (.change f)).w.srv e.start = 1 := hf _
  rw [h3] at this
  revert this
  decide

namespace HttpExtentsSample

/-- A disk of 10 bytes, which is zero from 4 on, until someone writes there. -/
def disk : Served Bool Dicts where
  ticketId := lit "t"
  dirtyTicket := false
  zero written := .ok [⟨0, 4, false, some false⟩, ⟨4, 6, !written, some false⟩]
  dirty _ := .error unsupported
  size _ := 10
  dumps := id
  loads := some

/-- The bytes of the disk. -/
def bytes (written : Bool) (i : Nat) : Byte := if i < 4 ∨ (written = true ∧ i < 10) then 1 else 0

/-- The disk before the write. -/
def world : World Bool := ⟨false, []⟩

/-- The first call gets the extents of the disk. -/
example : (askExtents disk (lit "zero") ⟨true, none, none, none⟩ world).1 =
    .ok (.zero [⟨0, 4, false, some false⟩, ⟨4, 6, true, some false⟩]) := by decide +kernel

/-- The size comes from the extents, and a failed request is tried again. -/
example : ((run disk true ⟨false, [⟨some (.os "EPIPE"), none⟩]⟩ [.size 0]).clients.map (·.size)) = [none] ∧
    ((run disk true ⟨false, [⟨some (.os "EPIPE"), none⟩]⟩ [.size 0, .size 0]).clients.map (·.size)) =
      [some 10] := by decide +kernel

/-- A server without extents support. -/
example : (askExtents disk (lit "zero") ⟨false, none, none, none⟩ world).1 =
    .ok (.zero [⟨0, 10, false, some false⟩]) := by decide +kernel

theorem disk_ok : ∀ st l, disk.zero st = .ok l → Complete l (disk.size st) ∧ Truthful l (bytes st) := by
  intro st l h
  cases h
  refine ⟨.cons (by decide) (.cons (Nat.succ_pos _) (.nil _)), ?_⟩
  intro e he hz i hi
  simp only [List.mem_cons, List.not_mem_nil, or_false] at he
  rcases he with rfl | rfl
  · simp at hz
  · obtain ⟨h1, h2⟩ := hi
    simp only [Bool.not_eq_true'] at hz
    subst hz
    simp only at h1
    unfold bytes
    rw [if_neg (by simp; omega)]

/-- The hypotheses of `C69_download` hold for a client and its clone, after a lost request. -/
example : ∀ c ∈ (run disk true ⟨false, [⟨some (.os "EPIPE"), none⟩]⟩ [.size 0, .extents 0 (lit "zero"), .clone 0]).clients,
    ∀ m, (askSize disk c ⟨false, []⟩).1 = .ok m → m = 10 := by
  intro c hc
  exact (C69_download disk (fun _ => rfl) bytes disk_ok true ⟨false, [⟨some (.os "EPIPE"), none⟩]⟩
    [.size 0, .extents 0 (lit "zero"), .clone 0] 10 (by decide) (bytes false)
    (by
      intro st hst
      have : st = false := List.mem_singleton.1 hst
      subst this
      exact ⟨rfl, rfl⟩) c hc).1

theorem first : (askExtents disk (lit "zero") ⟨true, none, none, none⟩ world).1 =
    .ok (.zero [⟨0, 4, false, some false⟩, ⟨4, 6, true, some false⟩]) := by decide +kernel

/-- After the write the client still gets the old extents. -/
example : ∃ c', (step disk (step disk ⟨[⟨true, none, none, none⟩], world, [false]⟩ (.extents 0 (lit "zero")))
      (.change fun _ => true)).clients[0]? = some c' ∧
    (askExtents disk (lit "zero") c' ⟨true, []⟩).1 =
      .ok (.zero [⟨0, 4, false, some false⟩, ⟨4, 6, true, some false⟩]) ∧
    ¬ Truthful [⟨0, 4, false, some false⟩, ⟨4, 6, true, some false⟩] (bytes true) :=
  C69_counterexample_stale disk bytes ⟨[⟨true, none, none, none⟩], world, [false]⟩ _ rfl rfl _ first
    ⟨4, 6, true, some false⟩ (by simp) rfl (by decide) (fun _ => true) (fun _ => rfl)

end HttpExtentsSample

end Imageio.Props
