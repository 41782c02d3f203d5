import Verif.Lemmas.Upload
import Verif.Props.ClientIo
import Mathlib.Data.List.Forall2
/-!
A whole upload with several workers: the copy of the client on one side, and the connections of its workers in
the server on the other side (C65).
-/
namespace Imageio.Props
open Imageio.Conc Imageio.Io Imageio.Extents Imageio.Spec

/-! ## Specification -/

/-- A copy of an image whose extents start at multiples of `bs`. -/
def AlignedCopy (bs : Nat) (acts : List Act) : Prop :=
  (∃ zero hole exts size, acts = copyData zero hole exts ∧ Complete exts size ∧ ∀ e ∈ exts, e.start % bs = 0) ∨
  ∃ exts size, acts = copyDirty exts ∧ Tiles 0 (exts.map fun e => (e.start, e.length)) size ∧
    ∀ e ∈ exts, e.start % bs = 0

/-- Request `j` of a connection is what the client sends for the storage call `r`: the same operation and range,
and for a copy the body begins with the bytes of the source. -/
structure Sends {τ : Type} {S : Source τ} (R : LawfulSource S) (src : Nat → Byte) (r : Req) (j : Job τ) : Prop where
  zero : j.zero = true ↔ r.op = .zero
  offset : j.offset = r.start
  size : j.size = r.length
  body : r.op = .copy → ∀ i, i < r.length → byteAt (R.rest j.src) i = src (r.start + i)

/-- The workers of the copy `s` send their storage calls, each on its own connection. -/
def SentBy {τ : Type} {S : Source τ} (R : LawfulSource S) (c : Cfg) (s : Ex) (conns : Fin c.workers → List (Job τ)) : Prop :=
  ∀ k : Fin c.workers, List.Forall₂ (Sends R c.src) (s.callsOf c.cut k) (conns k)

/-! ## The requests of the workers are apart -/

/-- No block has bytes of both. -/
def Apart (bs : Nat) (a b : Req) : Prop := ∀ x y, a.covers x → b.covers y → x / bs ≠ y / bs

theorem Apart.symm {bs : Nat} {a b : Req} (h : Apart bs a b) : Apart bs b a := fun x y hx hy he => h y x hy hx he.symm

theorem tiles_low : ∀ {s e : Nat} {m : List (Nat × Nat)}, Tiles s m e → ∀ x ∈ m, s ≤ x.1 := by
  intro s e m h
  induction h with
  | nil => intro x hx; cases hx
  | cons _ h ih =>
    intro x hx
    rcases List.mem_cons.1 hx with rfl | hx
    · exact Nat.le_refl _
    · exact Nat.le_trans (Nat.le_add_right _ _) (ih x hx)

theorem div_lt_of_aligned {bs x y m : Nat} (hb : 0 < bs) (hm : m % bs = 0) (hx : x < m) (hy : m ≤ y) : x / bs < y / bs := by
  obtain ⟨k, rfl⟩ := Nat.dvd_of_mod_eq_zero hm
  have h1 : x / bs < k := by rw [Nat.div_lt_iff_lt_mul hb, Nat.mul_comm]; exact hx
  have h2 : k ≤ y / bs := by rw [Nat.le_div_iff_mul_le hb, Nat.mul_comm]; exact hy
  omega

/-- Ranges that follow each other and start at multiples of the block size use different blocks. -/
theorem tiles_apart {β : Type} {bs : Nat} (hb : 0 < bs) {f g : β → Nat} : ∀ {l : List β} {s e : Nat},
    Tiles s (l.map fun x => (f x, g x)) e → (∀ a ∈ l, f a % bs = 0) →
      l.Pairwise fun a b => ∀ x y, f a ≤ x ∧ x < f a + g a → f b ≤ y ∧ y < f b + g b → x / bs ≠ y / bs := by
  intro l
  induction l with
  | nil => intro s e _ _; exact .nil
  | cons a l ih =>
    intro s e h ha
    rw [List.map_cons] at h
    generalize hm : (l.map fun x => (f x, g x)) = m at h
    generalize hp : (f a, g a) = p at h
    cases h with
    | @cons s len e l hlen h =>
      obtain ⟨rfl, rfl⟩ := Prod.mk.inj hp
      subst hm
      refine .cons (fun b hb' x y hx hy => ?_) (ih h fun a h => ha a (List.mem_cons_of_mem _ h))
      have := tiles_low h (f b, g b) (List.mem_map.2 ⟨b, hb', rfl⟩)
      have := div_lt_of_aligned hb (ha b (List.mem_cons_of_mem _ hb')) (show x < f b by omega) hy.1
      omega

theorem splitFrom_aligned {bs : Nat} (op : ReqOp) (step start length : Nat) (hstep : step % bs = 0)
    (hs : start % bs = 0) : ∀ x ∈ splitFrom op step start length, x.start % bs = 0 := by
  induction length using Nat.strongRecOn generalizing start with
  | _ length ih =>
    rw [splitFrom]
    split
    · rename_i h
      intro x hx
      rcases List.mem_cons.1 hx with rfl | hx
      · exact hs
      · refine ih (length - step) (by omega) (start + step) ?_ x hx
        rw [Nat.add_mod, hs, hstep]; simp
    · intro x hx
      rw [List.mem_singleton] at hx
      rw [hx]; exact hs

theorem split_apart {bs : Nat} (hb : 0 < bs) (h128 : 128 * 1024 ^ 2 % bs = 0) {r : Req} (hl : 0 < r.length)
    (hr : r.start % bs = 0) : (split r).Pairwise (Apart bs) := by
  refine (tiles_apart hb ((C30_split r).2 hl) ?_).imp fun h => h
  unfold split
  exact splitFrom_aligned _ _ _ _ (by rw [maxReqSize_eq]; exact h128) hr

theorem tiles_length : ∀ {s e : Nat} {m : List (Nat × Nat)}, Tiles s m e → ∀ x ∈ m, 0 < x.2 := by
  intro s e m h
  induction h with
  | nil => intro x hx; cases hx
  | cons hl _ ih =>
    intro x hx
    rcases List.mem_cons.1 hx with rfl | hx
    · exact hl
    · exact ih x hx

theorem reqs_flatMap {β : Type} (l : List β) (f : β → List Act) :
    reqs (l.flatMap f) = l.flatMap fun e => reqs (f e) := by
  induction l with
  | nil => rfl
  | cons e l ih =>
    rw [List.flatMap_cons, List.flatMap_cons, ← ih]
    unfold reqs
    exact List.filterMap_append

/-- The requests for extents that follow each other. -/
theorem extents_apart {β : Type} {bs : Nat} (hb : 0 < bs) {f g : β → Nat} {acts : β → List Act}
    {exts : List β} {size : Nat} (ht : Tiles 0 (exts.map fun e => (f e, g e)) size) (ha : ∀ e ∈ exts, f e % bs = 0)
    (hin : ∀ e, ∀ r ∈ reqs (acts e), ∀ i, r.covers i → f e ≤ i ∧ i < f e + g e)
    (hp : ∀ e ∈ exts, 0 < g e → (reqs (acts e)).Pairwise (Apart bs)) :
    (reqs (exts.flatMap acts)).Pairwise (Apart bs) := by
  rw [reqs_flatMap, List.pairwise_flatMap]
  refine ⟨fun e he => hp e he (tiles_length ht (f e, g e) (List.mem_map.2 ⟨e, he, rfl⟩)), ?_⟩
  refine (tiles_apart hb ht ha).imp fun h r hr r' hr' x y hx hy => ?_
  exact h x y (hin _ r hr x hx) (hin _ r' hr' y hy)

theorem aligned_apart {bs : Nat} (hb : 0 < bs) (h128 : 128 * 1024 ^ 2 % bs = 0) {acts : List Act}
    (h : AlignedCopy bs acts) : (reqs acts).Pairwise (Apart bs) := by
  rcases h with ⟨zero, hole, exts, size, rfl, ht, ha⟩ | ⟨exts, size, rfl, ht, ha⟩
  · refine extents_apart hb ht ha (fun e r hr i hi => ?_) fun e he hl => ?_
    · rw [reqs_dataActs] at hr
      split at hr
      · exact (C30_covers ⟨.copy, e.start, e.length⟩ i).1 ⟨r, hr, hi⟩
      · split at hr
        · exact (C30_covers ⟨.zero, e.start, e.length⟩ i).1 ⟨r, hr, hi⟩
        · cases hr
    · rw [reqs_dataActs]
      split
      · exact split_apart hb h128 hl (ha e he)
      · split
        · exact split_apart hb h128 hl (ha e he)
        · exact .nil
  · refine extents_apart hb ht ha (fun e r hr i hi => (dirty_covers hr hi).2) fun e he hl => ?_
    rw [reqs_dirtyActs]
    split
    · exact .nil
    · split
      · exact split_apart hb h128 hl (ha e he)
      · exact split_apart hb h128 hl (ha e he)

theorem AlignedCopy.isCopy {bs : Nat} {acts : List Act} (h : AlignedCopy bs acts) : IsCopy acts := by
  rcases h with ⟨z, hl, exts, size, rfl, -⟩ | ⟨exts, size, rfl, -⟩
  · exact .inl ⟨z, hl, exts, rfl⟩
  · exact .inr ⟨exts, rfl⟩

/-! ## From the copy to the connections -/

theorem handled_lt {c : Cfg} {acts : List Act} {d : Nat → Byte} {s : Ex} (h : Ex.Reachable c acts d s) :
    ∀ x ∈ s.handled, x.1 < c.workers := by
  induction h with
  | init => intro x hx; cases hx
  | step _ hs ih =>
    cases hs <;> first | exact ih | skip
    case workDone hk _ =>
      intro x hx
      rcases List.mem_append.1 hx with hx | hx
      · exact ih x hx
      · rw [List.mem_singleton] at hx
        rw [hx]; exact hk

theorem mem_callsOf {cut : Req → List Req} {s : Ex} {k : Nat} {x : Req} :
    x ∈ s.callsOf cut k ↔ ∃ r, (k, r) ∈ s.handled ∧ x ∈ cut r := by
  unfold Ex.callsOf
  simp only [List.mem_flatMap, List.mem_map, List.mem_filter, decide_eq_true_eq]
  constructor
  · rintro ⟨_, ⟨⟨k', r⟩, ⟨h1, rfl⟩, rfl⟩, h2⟩
    exact ⟨r, h1, h2⟩
  · rintro ⟨r, h1, h2⟩
    exact ⟨r, ⟨(k, r), ⟨h1, rfl⟩, rfl⟩, h2⟩

theorem forall₂_right {α β : Type} {P : α → β → Prop} : ∀ {l : List α} {m : List β}, List.Forall₂ P l m →
    ∀ b ∈ m, ∃ a ∈ l, P a b := by
  intro l m h
  induction h with
  | nil => intro b hb; cases hb
  | cons h _ ih =>
    intro b hb
    rcases List.mem_cons.1 hb with rfl | hb
    · exact ⟨_, List.mem_cons_self .., h⟩
    · obtain ⟨a, h1, h2⟩ := ih b hb
      exact ⟨a, List.mem_cons_of_mem _ h1, h2⟩

theorem forall₂_left {α β : Type} {P : α → β → Prop} {l : List α} {m : List β} (h : List.Forall₂ P l m) :
    ∀ a ∈ l, ∃ b ∈ m, P a b := fun a ha =>
  forall₂_right (P := fun b a => P a b) h.flip a ha

variable {τ : Type} {S : Source τ}

/-- A request of a connection comes from a request of the copy. -/
theorem sent_from {R : LawfulSource S} {c : Cfg} (hc : CutOf c.cut) {acts : List Act} (ha : ∀ r ∈ reqs acts, r.op ≠ .stop)
    {d : Nat → Byte} {s : Ex} (h : Ex.Reachable c acts d s) (hn : 0 < c.workers) (hd : s.main = .done none)
    {conns : Fin c.workers → List (Job τ)} (hsent : SentBy R c s conns) {k : Fin c.workers} {j : Job τ} (hj : j ∈ conns k) :
    ∃ r, ((k : Nat), r) ∈ s.handled ∧ r ∈ reqs acts ∧ (j.zero = true ↔ r.op = .zero) ∧
      (∀ i, InRange j.offset j.size i → r.covers i) ∧
      (r.op = .copy → ∀ i, i < j.size → byteAt (R.rest j.src) i = c.src (j.offset + i)) := by
  obtain ⟨x, hx, hs⟩ := forall₂_right (hsent k) j hj
  obtain ⟨r, h1, h2⟩ := mem_callsOf.1 hx
  have hr : r ∈ reqs acts := (handled_perm ha h hn hd).mem_iff.1 (List.mem_map.2 ⟨_, h1, rfl⟩)
  obtain ⟨e1, e2⟩ := exact_of_cut hc r (ha r hr)
  refine ⟨r, h1, hr, by rw [hs.zero, e1 x h2], fun i hi => (e2 i).1 ⟨x, h2, ?_⟩, fun hop i hi => ?_⟩
  · rw [hs.offset, hs.size] at hi; exact hi
  · rw [hs.offset]
    rw [hs.size] at hi
    exact hs.body (by rw [e1 x h2, hop]) i hi

theorem pairwise_mem {α : Type} {P : α → α → Prop} : ∀ {l : List α}, l.Pairwise P → ∀ a ∈ l, ∀ b ∈ l, a = b ∨ P a b ∨ P b a := by
  intro l h
  induction h with
  | nil => intro a ha; cases ha
  | cons h _ ih =>
    intro a ha b hb
    rcases List.mem_cons.1 ha with ha' | ha' <;> rcases List.mem_cons.1 hb with hb' | hb'
    · exact .inl (ha'.trans hb'.symm)
    · rw [ha']; exact .inr (.inl (h b hb'))
    · rw [hb']; exact .inr (.inr (h a ha'))
    · exact ih a ha' b hb'

theorem handled_separate {bs : Nat} {acts : List Act} (hp : (reqs acts).Pairwise (Apart bs)) {s : Ex}
    (hperm : (s.handled.map Prod.snd).Perm (reqs acts)) {k k' : Nat} {r r' : Req} (h : (k, r) ∈ s.handled)
    (h' : (k', r') ∈ s.handled) {x y : Nat} (hx : r.covers x) (hy : r'.covers y) (hxy : x / bs = y / bs) :
    k = k' ∧ r = r' := by
  have hp' : (s.handled.map Prod.snd).Pairwise (Apart bs) :=
    (hperm.pairwise_iff (fun {_ _} h => Apart.symm h)).2 hp
  rw [List.pairwise_map] at hp'
  rcases pairwise_mem hp' _ h _ h' with he | he | he
  · exact Prod.mk.inj he
  · exact absurd hxy (he x y hx hy)
  · exact absurd hxy.symm (he y x hy hx)

theorem sent_separate {R : LawfulSource S} {c : Cfg} (hc : CutOf c.cut) {bs : Nat} (hb : 0 < bs)
    (h128 : 128 * 1024 ^ 2 % bs = 0) {acts : List Act} (ha : AlignedCopy bs acts)
    {d : Nat → Byte} {s : Ex} (h : Ex.Reachable c acts d s) (hn : 0 < c.workers) (hd : s.main = .done none)
    {conns : Fin c.workers → List (Job τ)} (hsent : SentBy R c s conns) : SeparateConns bs conns := by
  rintro i i' x y ⟨j, h1, h2⟩ ⟨j', h1', h2'⟩ hxy
  have hns := ha.isCopy.no_stop
  obtain ⟨r, a1, -, -, a4, -⟩ := sent_from hc hns h hn hd hsent h1
  obtain ⟨r', b1, -, -, b4, -⟩ := sent_from hc hns h hn hd hsent h1'
  exact Fin.ext (handled_separate (aligned_apart hb h128 ha) (handled_perm hns h hn hd) a1 b1 (a4 x h2) (b4 y h2') hxy).1

theorem sent_carries {R : LawfulSource S} {c : Cfg} (hc : CutOf c.cut) {bs : Nat} (hb : 0 < bs)
    (h128 : 128 * 1024 ^ 2 % bs = 0) {acts : List Act} (ha : AlignedCopy bs acts)
    {d : Nat → Byte} {s : Ex} (h : Ex.Reachable c acts d s) (hn : 0 < c.workers) (hd : s.main = .done none)
    {conns : Fin c.workers → List (Job τ)} (hsent : SentBy R c s conns) : ∀ k, ∀ j ∈ conns k, Carries R s.dst j := by
  intro k j hj x hx
  have hns := ha.isCopy.no_stop
  obtain ⟨r, -, hr, hz, hcov, hbody⟩ := sent_from hc hns h hn hd hsent hj
  have hrx := hcov x hx
  have hfin := fun op (hop : r.op = op) => final_byte hns (exact_of_cut hc) h hn hd x op fun r' hr' hrx' => by
    rcases pairwise_mem (aligned_apart hb h128 ha) r hr r' hr' with rfl | he | he
    · exact hop
    · exact absurd rfl (he x x hrx hrx')
    · exact absurd rfl (he x x hrx' hrx)
  unfold wantedBytes
  have hlt : x - j.offset < j.size := by have := hx.1; have := hx.2; omega
  cases hop : r.op with
  | zero => rw [if_pos (hz.2 hop), hfin _ hop, if_pos ⟨r, hr, hrx⟩]; simp [byteAt, hlt]
  | copy =>
    rw [if_neg (by rw [hz, hop]; nofun), hfin _ hop, if_pos ⟨r, hr, hrx⟩]
    have := hbody hop (x - j.offset) hlt
    rw [show j.offset + (x - j.offset) = x by have := hx.1; omega] at this
    rw [← this]
    simp [byteAt, hlt]
  | stop => exact absurd hop (hns r hr)

theorem sent_outside {R : LawfulSource S} {c : Cfg} (hc : CutOf c.cut) {acts : List Act} (ha : IsCopy acts)
    {d : Nat → Byte} {s : Ex} (h : Ex.Reachable c acts d s) (hn : 0 < c.workers) (hd : s.main = .done none)
    {conns : Fin c.workers → List (Job τ)} (hsent : SentBy R c s conns) {x : Nat} (hx : ∀ k, ¬ Covered (conns k) x) :
    s.dst x = d x := by
  refine outside_byte ha.no_stop (exact_of_cut hc) h x fun r hr hrx => ?_
  obtain ⟨⟨k, r'⟩, h1, rfl⟩ := List.mem_map.1 ((handled_perm ha.no_stop h hn hd).mem_iff.2 hr)
  obtain ⟨y, hy, hyx⟩ := ((exact_of_cut hc r' (ha.no_stop r' hr)).2 x).2 hrx
  obtain ⟨j, hj, hs⟩ := forall₂_left (hsent ⟨k, handled_lt h _ h1⟩) y (mem_callsOf.2 ⟨r', h1, hy⟩)
  exact hx _ ⟨j, hj, by rw [InRange, hs.offset, hs.size]; exact hyx⟩

/-- The buffers of the backends of the connections, and the bodies of their requests. -/
def BuffersOf {ι : Type} (R : LawfulSource S) (bs : Nat) (conns : ι → List (Job τ)) : Prop :=
  ∀ k, ∀ j ∈ conns k, j.zero = false → 0 < j.bufLen ∧ j.bufLen % bs = 0 ∧ R.Inv j.src

section
variable {σ Γ : Type} {M : Machine σ Γ} {Sp : Space M} {PB : ProgBackend σ} {B : Backend σ} {L : Lawful B} {z : Nat → Prop}

theorem upload_refines (H : Runs PB B) (C : Confines Sp PB L z) (hcont : ∀ s, L.content s = Sp.content (M.shared s))
    (hb : 0 < B.blockSize) (h128 : 128 * 1024 ^ 2 % B.blockSize = 0) (R : LawfulSource S) {c : Cfg} (hc : CutOf c.cut)
    (hn : 0 < c.workers) {acts : List Act} (ha : AlignedCopy B.blockSize acts) {g : Γ} {s : Ex}
    (h : Ex.Reachable c acts (Sp.content g) s) (hd : s.main = .done none) {conns : Fin c.workers → List (Job τ)}
    (hsent : SentBy R c s conns) (hbuf : BuffersOf R B.blockSize conns) (hz : ∀ k, ∀ j ∈ conns k, j.zero = true → 0 < j.size → z (j.offset + j.size))
    {loc : Fin c.workers → σ} (hi : ∀ i, L.Inv (M.view (loc i) g)) {e : Config (Fin c.workers) σ Γ}
    (he : Conc.Steps M (startConns PB S g loc conns) e) (hend : ∀ k, Ended e k (.ok ())) :
    ∀ x, Sp.content e.mem x = s.dst x := by
  intro x
  have hx := conns_effect H C hcont R s.dst hi (fun k j hj => ⟨hbuf k j hj, hz k j hj⟩)
    (sent_carries hc hb h128 ha h hn hd hsent) (sent_separate hc hb h128 ha h hn hd hsent) he hend x
  by_cases hcov : ∃ k, Covered (conns k) x
  · exact hx.1 hcov
  · have hno : ∀ k, ¬ Covered (conns k) x := fun k hk => hcov ⟨k, hk⟩
    rw [hx.2 hno, sent_outside hc ha.isCopy h hn hd hsent hno]

theorem upload_durable (H : Runs PB B) (C : Confines Sp PB L z) {K : σ → Prop} {dur : Γ → Nat → Byte}
    (Y : Syncs M K Sp.content dur PB) (hK : ∀ s g, K s → K (M.view s g))
    (hb : 0 < B.blockSize) (h128 : 128 * 1024 ^ 2 % B.blockSize = 0) (R : LawfulSource S) {c : Cfg} (hc : CutOf c.cut)
    (hn : 0 < c.workers) {acts : List Act} (ha : AlignedCopy B.blockSize acts) {g : Γ} {s : Ex}
    (h : Ex.Reachable c acts (Sp.content g) s) (hd : s.main = .done none) {conns : Fin c.workers → List (Job τ)}
    (hsent : SentBy R c s conns) (hbuf : BuffersOf R B.blockSize conns) (hz : ∀ k, ∀ j ∈ conns k, j.zero = true → 0 < j.size → z (j.offset + j.size))
    {loc : Fin c.workers → σ} (hk : ∀ i, K (loc i)) (hi : ∀ i, L.Inv (M.view (loc i) g)) {e : Config (Fin c.workers) σ Γ}
    (he : Conc.Steps M (startConns PB S g loc conns) e) (hend : ∀ k, Ended e k (.ok ())) :
    ∀ x, dur e.mem x = Sp.content e.mem x := by
  intro x
  have hx := conns_durable H C Y hK R hk hi (fun k j hj => ⟨hbuf k j hj, hz k j hj⟩)
    (sent_separate hc hb h128 ha h hn hd hsent) he
  by_cases hreg : ∃ k, Region B.blockSize (conns k) x
  · obtain ⟨k, hk⟩ := hreg
    exact hx k (hend k) x (.inl hk)
  · exact hx ⟨0, hn⟩ (hend _) x (.inr fun j hj => hreg ⟨j, hj⟩)

end

/-! ## C65 -/

theorem file_conn_inv {ι : Type} {env : File.Env} (hb : 0 < env.bs) {g : Bytes × Bytes} {loc : ι → File.State}
    (hblk : env.isBlock = true → g.1.length % env.bs = 0) :
    ∃ hcap, ∀ i, (atLeast (File.lawful env hb False (if env.isBlock then g.1.length else 0) hcap) g.1.length).Inv
      (fileMachine.view (loc i) g) := by
  refine ⟨?_, fun i => ⟨⟨fun h => ?_, fun h => h.elim⟩, Nat.le_refl _⟩⟩
  · split
    · exact hblk ‹_›
    · exact Nat.zero_mod _
  · rw [if_pos h]; rfl

/-- C65: an upload to a block device, or to a file with zeroing only inside the file as it was before.  The client ran the copy with any number of
workers and in any order; the requests of the workers ran in the server, their system calls interleaved in any
way, with short writes and faults; and all of them succeeded.  Then the image is what the copy computed, as if its
storage calls had been made one after the other, and all of it is durable.  The extents have to start at multiples of
the block size of the storage. -/
theorem C65_file_partial (env : File.Env) (hb : 0 < env.bs) (h128 : 128 * 1024 ^ 2 % env.bs = 0) (R : LawfulSource S)
    {c : Cfg} (hc : CutOf c.cut) (hn : 0 < c.workers) {acts : List Act} (ha : AlignedCopy env.bs acts) {g : Bytes × Bytes}
    (hblk : env.isBlock = true → g.1.length % env.bs = 0) {s : Ex}
    (h : Ex.Reachable c acts (byteAt g.1) s) (hd : s.main = .done none) {conns : Fin c.workers → List (Job τ)}
    (hsent : SentBy R c s conns) (hbuf : BuffersOf R env.bs conns)
    (hz : ∀ k, ∀ j ∈ conns k, j.zero = true → 0 < j.size → env.isBlock = true ∨ j.offset + j.size ≤ g.1.length)
    (loc : Fin c.workers → File.State)
    {e : Config (Fin c.workers) File.State (Bytes × Bytes)}
    (he : Conc.Steps fileMachine (startConns (fileP env) S g loc conns) e) (hend : ∀ k, Ended e k (.ok ())) :
    ∀ x, byteAt e.mem.1 x = s.dst x ∧ byteAt e.mem.2 x = s.dst x := by
  obtain ⟨hcap, hi⟩ := file_conn_inv (loc := loc) hb hblk
  intro x
  have h1 := upload_refines (file_runs env) (file_confines env hb _ _ hcap _) (fun _ => rfl) hb h128 R hc hn ha
    (g := g) h hd hsent hbuf hz hi he hend x
  have h2 := upload_durable (file_runs env) (file_confines env hb _ _ hcap _) (file_syncs env _) (fun _ _ _ => trivial) hb h128
    R hc hn ha (g := g) h hd hsent hbuf hz (fun _ => trivial) hi he hend x
  exact ⟨h1, h2.trans h1⟩

/-- C65: an upload through NBD. -/
theorem C65_nbd (bs : Nat) (hb : 0 < bs) (h128 : 128 * 1024 ^ 2 % bs = 0) (R : LawfulSource S)
    {c : Cfg} (hc : CutOf c.cut) (hn : 0 < c.workers) {acts : List Act} (ha : AlignedCopy bs acts) {g : Bytes × Bytes}
    {s : Ex} (h : Ex.Reachable c acts (byteAt g.1) s) (hd : s.main = .done none) {conns : Fin c.workers → List (Job τ)}
    (hsent : SentBy R c s conns) (hbuf : BuffersOf R bs conns) (loc : Fin c.workers → NbdBackend.State)
    (hbs : ∀ k, (loc k).bs = bs) (hfl : ∀ k, (loc k).canFlush = true)
    {e : Config (Fin c.workers) NbdBackend.State (Bytes × Bytes)}
    (he : Conc.Steps nbdMachine (startConns (nbdP bs) S g loc conns) e) (hend : ∀ k, Ended e k (.ok ())) :
    ∀ x, byteAt e.mem.1 x = s.dst x ∧ byteAt e.mem.2 x = s.dst x := by
  have hi : ∀ k, (NbdBackend.lawful bs hb False g.1.length (fun h => h.elim)).Inv (nbdMachine.view (loc k) g) :=
    fun k => ⟨hbs k, hfl k, rfl, fun h => h.elim⟩
  intro x
  have h1 := upload_refines (nbd_runs bs) (nbd_confines bs hb False _ (fun h => h.elim)) (fun _ => rfl) hb h128 R hc hn ha
    (g := g) h hd hsent hbuf (fun _ _ _ _ _ => trivial) hi he hend x
  have h2 := upload_durable (nbd_runs bs) (nbd_confines bs hb False _ (fun h => h.elim)) (nbd_syncs bs)
    (fun _ _ h => h) hb h128 R hc hn ha (g := g) h hd hsent hbuf (fun _ _ _ _ _ => trivial) hfl hi he hend x
  exact ⟨h1, h2.trans h1⟩

/-- C65: one worker, as the client has for a regular file (`max_writers` is 1): no condition on the extents, and
zeroing is allowed. -/
theorem C65_one_worker (env : File.Env) (hb : 0 < env.bs) (R : LawfulSource S)
    {c : Cfg} (hc : CutOf c.cut) (hn : c.workers = 1) {acts : List Act} (ha : AlignedCopy 1 acts) {g : Bytes × Bytes}
    (hblk : env.isBlock = true → g.1.length % env.bs = 0) {s : Ex}
    (h : Ex.Reachable c acts (byteAt g.1) s) (hd : s.main = .done none) {conns : Fin c.workers → List (Job τ)}
    (hsent : SentBy R c s conns) (hbuf : BuffersOf R env.bs conns) (loc : Fin c.workers → File.State)
    {e : Config (Fin c.workers) File.State (Bytes × Bytes)}
    (he : Conc.Steps fileMachine (startConns (fileP env) S g loc conns) e) (hend : ∀ k, Ended e k (.ok ())) :
    ∀ x, byteAt e.mem.1 x = s.dst x ∧ byteAt e.mem.2 x = s.dst x := by
  obtain ⟨hcap, hi⟩ := file_conn_inv (loc := loc) hb hblk
  have hn0 : 0 < c.workers := by omega
  have : Subsingleton (Fin c.workers) := ⟨fun a b => Fin.ext (by have := a.2; have := b.2; omega)⟩
  let k : Fin c.workers := ⟨0, hn0⟩
  have hrun := single_run (fileSpace env 0) he k
  rw [show e.prog k = _ from hend k] at hrun
  have hj : ∀ j ∈ conns k, JobReady (File.backend env) R (fun _ => True) j := fun j hj => ⟨hbuf k j hj, fun _ _ => trivial⟩
  have h1 := conn_alone (L := atLeast (File.lawful env hb False _ hcap) g.1.length) (file_runs env) R s.dst (conns k) _ _ hj
    (sent_carries hc Nat.one_pos (Nat.mod_one _) ha h hn0 hd hsent k) (hi k) hrun.symm
  have h2 := conn_durable_alone (L := atLeast (File.lawful env hb False _ hcap) g.1.length) (file_runs env) R (conns k) _ _ hj (hi k) hrun.symm
  have h3 : ∀ x, byteAt e.mem.1 x = s.dst x := by
    intro x
    by_cases hcov : Covered (conns k) x
    · exact (h1 x).1 hcov
    · refine ((h1 x).2 hcov).trans ?_
      rw [sent_outside hc ha.isCopy h hn0 hd hsent fun k' => by rw [Subsingleton.elim k' k]; exact hcov]
      rfl
  exact fun x => ⟨h3 x, (congrFun h2 x).trans (h3 x)⟩

/-- The requests of a copy lie inside the image. -/
theorem copyData_inside {zero hole : Bool} {exts : List ZeroExtent} {size : Nat} (ht : Complete exts size) {r : Req}
    (hr : r ∈ reqs (copyData zero hole exts)) {i : Nat} (hi : r.covers i) : i < size := by
  unfold copyData at hr
  rw [mem_reqs_flatMap] at hr
  obtain ⟨e, he, hr⟩ := hr
  have hie : InExt e i := by
    rw [reqs_dataActs] at hr
    split at hr
    · exact (C30_covers ⟨.copy, e.start, e.length⟩ i).1 ⟨r, hr, hi⟩
    · split at hr
      · exact (C30_covers ⟨.zero, e.start, e.length⟩ i).1 ⟨r, hr, hi⟩
      · simp at hr
  exact ((tiles_mem ht).2 ⟨e, he, hie⟩).2

/-- C65: after an upload with the default options to a block device, or to a file that had already at least the size of
the image (sparse or not), the storage holds the source, whatever was on it before, and all of it is durable. -/
theorem C65_image_partial (env : File.Env) (hb : 0 < env.bs) (h128 : 128 * 1024 ^ 2 % env.bs = 0)
    (R : LawfulSource S) {c : Cfg} (hc : CutOf c.cut) (hn : 0 < c.workers) {exts : List ZeroExtent} {size : Nat}
    (ht : Complete exts size) (htrue : Truthful exts c.src) (ha : ∀ x ∈ exts, x.start % env.bs = 0) {g : Bytes × Bytes}
    (hblk : env.isBlock = true → g.1.length % env.bs = 0) (hroom : env.isBlock = true ∨ size ≤ g.1.length) {s : Ex}
    (h : Ex.Reachable c (copyData true true exts) (byteAt g.1) s) (hd : s.main = .done none)
    {conns : Fin c.workers → List (Job τ)} (hsent : SentBy R c s conns) (hbuf : BuffersOf R env.bs conns)
    (loc : Fin c.workers → File.State) {e : Config (Fin c.workers) File.State (Bytes × Bytes)}
    (he : Conc.Steps fileMachine (startConns (fileP env) S g loc conns) e) (hend : ∀ k, Ended e k (.ok ())) :
    (∀ x, x < size → byteAt e.mem.1 x = c.src x ∧ byteAt e.mem.2 x = c.src x) ∧
    ∀ x, size ≤ x → byteAt e.mem.1 x = byteAt g.1 x := by
  have hal : AlignedCopy env.bs (copyData true true exts) := .inl ⟨true, true, exts, size, rfl, ht, ha⟩
  have key := C65_file_partial env hb h128 R hc hn hal hblk h hd hsent hbuf
    (fun k j hj _ hpos => hroom.imp id fun hroom => by
      obtain ⟨r, -, hr, -, hcov, -⟩ := sent_from hc hal.isCopy.no_stop h hn hd hsent hj
      have := copyData_inside ht hr (hcov (j.offset + j.size - 1) ⟨by omega, by omega⟩)
      omega) loc he hend
  refine ⟨fun x hx => ?_, fun x hx => ?_⟩
  · have := C28_copy hc hn ht htrue h hd x hx
    exact ⟨(key x).1.trans this, (key x).2.trans this⟩
  · exact (key x).1.trans (C28_outside hc ht h x hx)

/-! ## Examples -/

/-- The request for a storage call. -/
def jobOf (src : Nat → Byte) (r : Req) : Job Bytes :=
  ⟨r.op = .zero, r.start, r.length, false, fun _ => false, 4, (List.range r.length).map fun i => src (r.start + i)⟩

/-- Connections with the requests for all storage calls exist for every copy. -/
theorem sentBy_jobOf (c : Cfg) (s : Ex) :
    SentBy wholeBodyLaw c s fun k => (s.callsOf c.cut k).map (jobOf c.src) := by
  intro k
  rw [List.forall₂_map_right_iff, List.forall₂_same]
  intro r _
  refine ⟨by simp [jobOf], rfl, rfl, fun _ i hi => ?_⟩
  show byteAt ((List.range r.length).map fun i => c.src (r.start + i)) i = _
  simp [byteAt, hi]

def upSrc : Nat → Byte := fun i => if i < 4 then 1 else if 8 ≤ i ∧ i < 12 then 2 else 0

def upExts : List ZeroExtent := [⟨0, 4, false, some false⟩, ⟨4, 4, true, some true⟩, ⟨8, 4, false, some false⟩]

def upCfg : Cfg := ⟨2, 32, cutWhole, upSrc⟩

/-- A copy with two workers that both have work. -/
def upEx : Ex := (Ex.init upCfg (copyData true true upExts) (byteAt (List.replicate 16 7))).execAll upCfg
  (List.replicate 40 [0, 1, 2]).flatten

/-- The system calls of the connections, alternating. -/
def upEnd : Config (Fin 2) File.State (Bytes × Bytes) :=
  exec fileMachine (startConns (fileP dev) wholeBody (List.replicate 16 7, []) (fun _ => opened)
    fun k => (upEx.callsOf upCfg.cut k).map (jobOf upCfg.src)) (List.replicate 40 [0, 1]).flatten

example : upEx.handled.map Prod.fst = [0, 1, 0] ∧ upEnd.mem.1 = [1, 1, 1, 1, 0, 0, 0, 0, 2, 2, 2, 2, 7, 7, 7, 7] ∧
    upEnd.mem.2 = upEnd.mem.1 := by decide +kernel

/-- The hypotheses of `C65_image_partial` hold. -/
example : ∀ x, x < 12 → byteAt upEnd.mem.1 x = upSrc x ∧ byteAt upEnd.mem.2 x = upSrc x := by
  refine (C65_image_partial dev (by decide) (by decide) wholeBodyLaw (c := upCfg) (.inr rfl) (by decide) (exts := upExts)
    (size := 12) (.cons (by decide) (.cons (by decide) (.cons (by decide) (.nil _)))) ?_ (by decide)
    (g := (List.replicate 16 7, [])) (by decide) (.inl rfl) (s := upEx) (execAll_sound .init) (by decide +kernel)
    (sentBy_jobOf upCfg upEx) ?_ (fun _ => opened) (e := upEnd) (steps_exec _ _ _ _ (.refl _)) ?_).1
  · intro e he hz i hi
    simp only [upExts, List.mem_cons, List.not_mem_nil, or_false] at he
    rcases he with rfl | rfl | rfl <;> simp only [InExt, Bool.false_eq_true] at hz hi
    simp only [upCfg, upSrc]
    rw [if_neg (by omega), if_neg (by omega)]
  · intro k j hj _
    obtain ⟨r, -, rfl⟩ := List.mem_map.1 hj
    exact ⟨by simp [jobOf], by simp [jobOf, dev], trivial⟩
  · intro k
    refine .of ?_
    revert k
    decide +kernel

/-- The same upload to a sparse file that has already the size of the image. -/
def upSparseEnd : Config (Fin 2) File.State (Bytes × Bytes) :=
  exec fileMachine (startConns (fileP (regular true)) wholeBody (List.replicate 16 7, []) (fun _ => opened)
    fun k => (upEx.callsOf upCfg.cut k).map (jobOf upCfg.src)) (List.replicate 40 [0, 1]).flatten

example : upSparseEnd.mem.1 = upEnd.mem.1 := by decide +kernel

/-- The hypotheses of `C65_image_partial` hold for a sparse file. -/
example : ∀ x, x < 12 → byteAt upSparseEnd.mem.1 x = upSrc x ∧ byteAt upSparseEnd.mem.2 x = upSrc x := by
  refine (C65_image_partial (regular true) (by decide) (by decide) wholeBodyLaw (c := upCfg) (.inr rfl) (by decide) (exts := upExts)
    (size := 12) (.cons (by decide) (.cons (by decide) (.cons (by decide) (.nil _)))) ?_ (by decide)
    (g := (List.replicate 16 7, [])) (by decide) (.inr (by decide)) (s := upEx) (execAll_sound .init) (by decide +kernel)
    (sentBy_jobOf upCfg upEx) ?_ (fun _ => opened) (e := upSparseEnd) (steps_exec _ _ _ _ (.refl _)) ?_).1
  · intro e he hz i hi
    simp only [upExts, List.mem_cons, List.not_mem_nil, or_false] at he
    rcases he with rfl | rfl | rfl <;> simp only [InExt, Bool.false_eq_true] at hz hi
    simp only [upCfg, upSrc]
    rw [if_neg (by omega), if_neg (by omega)]
  · intro k j hj _
    obtain ⟨r, -, rfl⟩ := List.mem_map.1 hj
    exact ⟨by simp [jobOf], by simp [jobOf, regular], trivial⟩
  · intro k
    refine .of ?_
    revert k
    decide +kernel

/-! ## Where it fails -/

def narrowSrc : Nat → Byte := fun i => if i < 2 then 1 else 0

/-- Extents that do not start at a multiple of the block size of the destination. -/
def narrowExts : List ZeroExtent := [⟨0, 2, false, some false⟩, ⟨2, 2, true, some true⟩]

def narrowCfg : Cfg := ⟨2, 32, cutWhole, narrowSrc⟩

def narrowEx : Ex := (Ex.init narrowCfg (copyData true true narrowExts) (byteAt (List.replicate 4 7))).execAll narrowCfg
  (List.replicate 40 [0, 1, 2]).flatten

def narrowEnd : Config (Fin 2) File.State (Bytes × Bytes) :=
  exec fileMachine (startConns (fileP dev) wholeBody (List.replicate 4 7, []) (fun _ => opened)
    fun k => (narrowEx.callsOf narrowCfg.cut k).map (jobOf narrowCfg.src))
    (List.replicate 4 0 ++ List.replicate 4 1 ++ List.replicate 20 0 ++ List.replicate 20 1)

/-- C65, the limit: two workers, and extents with a boundary inside a block of the storage, such as extents with
the granularity of 512 bytes for a device with blocks of 4096 bytes.  All requests succeed, the client reports
success, and the device does not hold the source: the data of the first extent is lost. -/
theorem C65_counterexample_shared_block :
    ∃ (c : Cfg) (exts : List ZeroExtent) (s : Ex) (g : Bytes × Bytes) (conns : Fin c.workers → List (Job Bytes))
      (e : Config (Fin c.workers) File.State (Bytes × Bytes)),
      Complete exts 4 ∧ Truthful exts c.src ∧ Ex.Reachable c (copyData true true exts) (byteAt g.1) s ∧
      s.main = .done none ∧ s.dst 0 = c.src 0 ∧ SentBy wholeBodyLaw c s conns ∧
      Conc.Steps fileMachine (startConns (fileP dev) wholeBody g (fun _ => opened) conns) e ∧ (∀ k, Ended e k (.ok ())) ∧
      byteAt e.mem.1 0 ≠ c.src 0 := by
  refine ⟨narrowCfg, narrowExts, narrowEx, (List.replicate 4 7, []), _, narrowEnd,
    .cons (by decide) (.cons (by decide) (.nil _)), ?_, execAll_sound .init, by decide +kernel, by decide +kernel,
    sentBy_jobOf narrowCfg narrowEx, steps_exec _ _ _ _ (.refl _), ?_, by decide +kernel⟩
  · intro e he hz i hi
    simp only [narrowExts, List.mem_cons, List.not_mem_nil, or_false] at he
    rcases he with rfl | rfl <;> simp only [InExt, Bool.false_eq_true] at hz hi
    simp only [narrowCfg, narrowSrc]
    rw [if_neg (by omega)]
  · intro k
    refine .of ?_
    revert k
    decide +kernel

end Imageio.Props
