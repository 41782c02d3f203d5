import Verif.Lemmas.Download
import Verif.Props.Upload
import Verif.Props.Api
/-!
Whole downloads with several workers, chains of incremental backups, and restoring them (C77).
-/
namespace Imageio.Props
open Imageio.Conc Imageio.Io Imageio.Extents Imageio.Spec Imageio.Download Imageio.HttpBackend Imageio.Api

/-! ## Specification -/

/-- What a copy does with an image of `size` bytes: the extents follow each other and end at `size`. -/
def CopiesImage (size : Nat) (acts : List Act) : Prop :=
  (∃ zero hole exts, acts = copyData zero hole exts ∧ Complete exts size) ∨
  ∃ exts, acts = copyDirty exts ∧ Tiles 0 (exts.map fun e => (e.start, e.length)) size

/-- A download of the image `src` that returned: the workers of the copy handled the requests in any order, and each of them
ended with a flush and without an error, with its own connection to a server of the image and its own connection to the
local `qemu-nbd`.  The local image was `before`, now it is `after`, and `disk` is left after a crash of the local host.
What the network and the local storage did is not specified. -/
def Downloaded {σ : Type} (S : HttpBackend.Server σ) (L : Lawful S.B) (maxWorkers : Int) (size : Nat) (acts : List Act) (src : Nat → Byte)
    (before after disk : Bytes) : Prop :=
  ∃ (c : Cfg) (s : Ex) (bs step : Nat) (disk0 : Bytes) (loc : Fin c.workers → NbdBackend.State)
    (worlds : Fin c.workers → World σ) (e : Config (Fin c.workers) NbdBackend.State (Bytes × Bytes)),
    c.workers = copyWorkers maxWorkers ∧ c.cut = cutWhole ∧ c.src = src ∧ 0 < bs ∧ 0 < step ∧
    Ex.Reachable c acts (byteAt before) s ∧ s.main = .done none ∧
    (∀ k, (loc k).bs = bs ∧ (loc k).canFlush = true) ∧
    (∀ k, L.Inv (worlds k).srv ∧ L.content (worlds k).srv = src ∧ size ≤ min S.ticketSize (S.B.size (worlds k).srv)) ∧
    Conc.Steps nbdMachine
      (startWorkers S (nbdP bs) 0 step (before, disk0) loc worlds fun k => s.callsOf c.cut k) e ∧
    (∀ k, e.prog k = .ret (.ok ())) ∧ e.mem = (after, disk)

/-! ## The requests -/

theorem split_fits {r : Req} (hl : 0 < r.length) : ∀ x ∈ split r, 0 < x.length ∧ x.start + x.length ≤ r.start + r.length := by
  intro x hx
  have hp := tiles_length ((C30_split r).2 hl) (x.start, x.length) (List.mem_map.2 ⟨x, hx, rfl⟩)
  have hp : 0 < x.length := hp
  have := (C30_covers r (x.start + x.length - 1)).1 ⟨x, hx, by omega, by omega⟩
  omega

theorem CopiesImage.requests {size : Nat} {acts : List Act} (h : CopiesImage size acts) :
    ∀ r ∈ reqs acts, r.op ≠ .stop ∧ 0 < r.length ∧ r.start + r.length ≤ size := by
  rcases h with ⟨zero, hole, exts, rfl, ht⟩ | ⟨exts, rfl, ht⟩
  · intro r hr
    refine ⟨copyData_no_stop zero hole exts r hr, ?_⟩
    unfold copyData at hr
    rw [mem_reqs_flatMap] at hr
    obtain ⟨e, he, hr⟩ := hr
    have hpos : 0 < e.length := tiles_length ht (e.start, e.length) (List.mem_map.2 ⟨e, he, rfl⟩)
    have hend : e.start + e.length - 1 < size :=
      ((tiles_mem ht).2 ⟨e, he, (by constructor <;> omega : e.start ≤ e.start + e.length - 1 ∧ e.start + e.length - 1 < e.start + e.length)⟩).2
    rw [reqs_dataActs] at hr
    have key : ∀ op, r ∈ split ⟨op, e.start, e.length⟩ → 0 < r.length ∧ r.start + r.length ≤ size := by
      intro op h
      have := split_fits (r := ⟨op, e.start, e.length⟩) hpos r h
      simp only at this
      omega
    split at hr
    · exact key _ hr
    · split at hr
      · exact key _ hr
      · cases hr
  · intro r hr
    refine ⟨(show IsCopy (copyDirty exts) from .inr ⟨exts, rfl⟩).no_stop r hr, ?_⟩
    unfold copyDirty at hr
    rw [mem_reqs_flatMap] at hr
    obtain ⟨e, he, hr⟩ := hr
    have hpos : 0 < e.length := tiles_length ht (e.start, e.length) (List.mem_map.2 ⟨e, he, rfl⟩)
    have hend : e.start + e.length - 1 < size :=
      ((tiles_mem ht).2 ⟨e, he, (by constructor <;> omega : e.start ≤ e.start + e.length - 1 ∧ e.start + e.length - 1 < e.start + e.length)⟩).2
    rw [reqs_dirtyActs] at hr
    have key : ∀ op, r ∈ split ⟨op, e.start, e.length⟩ → 0 < r.length ∧ r.start + r.length ≤ size := by
      intro op h
      have := split_fits (r := ⟨op, e.start, e.length⟩) hpos r h
      simp only at this
      omega
    split at hr
    · cases hr
    · split at hr <;> exact key _ hr

theorem CopiesImage.aligned {size : Nat} {acts : List Act} (h : CopiesImage size acts) : AlignedCopy 1 acts := by
  rcases h with ⟨zero, hole, exts, rfl, ht⟩ | ⟨exts, rfl, ht⟩
  · exact .inl ⟨zero, hole, exts, size, rfl, ht, fun _ _ => Nat.mod_one _⟩
  · exact .inr ⟨exts, size, rfl, ht, fun _ _ => Nat.mod_one _⟩

theorem CopiesImage.apart {size : Nat} {acts : List Act} (h : CopiesImage size acts) : (reqs acts).Pairwise (Apart 1) :=
  aligned_apart Nat.one_pos (Nat.mod_one _) h.aligned

/-- Workers that handle different requests use different bytes. -/
theorem requests_separate {ι : Type} {size : Nat} {acts : List Act} (ha : CopiesImage size acts) {rs : ι → List Req}
    (hin : ∀ k, ∀ r ∈ rs k, r ∈ reqs acts) (hone : ∀ k k' r, r ∈ rs k → r ∈ rs k' → k = k') : SeparateWorkers rs := by
  rintro i j x ⟨r, h1, h2⟩ ⟨r', h1', h2'⟩
  rcases pairwise_mem ha.apart r (hin _ _ h1) r' (hin _ _ h1') with rfl | he | he
  · exact hone _ _ _ h1 h1'
  · exact absurd rfl (he x x h2 h2')
  · exact absurd rfl (he x x h2' h2)

/-! ## C77 -/

section
variable {σ : Type} {S : HttpBackend.Server σ} {L : Lawful S.B} {n : Int} {size : Nat} {acts : List Act} {src : Nat → Byte}
  {before after disk : Bytes}

/-- C77: a download that returned, with any number of workers whose requests to the local `qemu-nbd` are interleaved in any way
and whose requests to the server were handled with any behaviour of the network, left what one copy without any concurrency
computes from the content of the served image, and all of it is durable. -/
theorem C77_refines (hS : S.Proper) (ha : CopiesImage size acts) (h : Downloaded S L n size acts src before after disk) :
    Copied n acts src (byteAt before) (byteAt after) ∧ byteAt disk = byteAt after := by
  obtain ⟨c, s, bs, step, disk0, loc, worlds, e, hn, hc, rfl, hb, hstep, hr, hd, hl, hw, he, hend, hm⟩ := h
  have hn0 : 0 < c.workers := by rw [hn]; exact copyWorkers_pos n
  have hcut : CutOf c.cut := .inr hc
  have hns : ∀ r ∈ reqs acts, r.op ≠ .stop := fun r h => (ha.requests r h).1
  have hperm := handled_perm hns hr hn0 hd
  have hmem : ∀ k r, r ∈ s.callsOf c.cut k ↔ (k, r) ∈ s.handled := by
    intro k r
    rw [mem_callsOf, hc]
    constructor
    · rintro ⟨r', h1, h2⟩
      rw [cutWhole, List.mem_singleton] at h2
      rw [h2]; exact h1
    · intro h
      exact ⟨r, h, List.mem_singleton.2 rfl⟩
  have hreq : ∀ k r, (k, r) ∈ s.handled → r ∈ reqs acts := fun k r h => hperm.mem_iff.1 (List.mem_map.2 ⟨_, h, rfl⟩)
  have hsep : SeparateWorkers fun k : Fin c.workers => s.callsOf c.cut k := by
    rintro i j x ⟨r, h1, h2⟩ ⟨r', h1', h2'⟩
    exact Fin.ext (handled_separate ha.apart hperm ((hmem _ _).1 h1) ((hmem _ _).1 h1') h2 h2' rfl).1
  have hbr : ∀ k : Fin c.workers, ∀ r ∈ s.callsOf c.cut k, Brings c.src s.dst r := by
    intro k r h1 x hx
    have hra := hreq _ _ ((hmem _ _).1 h1)
    have hfin := fun op (hop : r.op = op) => final_byte hns (exact_of_cut hcut) hr hn0 hd x op fun r' hr' hrx' => by
      rcases pairwise_mem ha.apart r hra r' hr' with rfl | he | he
      · exact hop
      · exact absurd rfl (he x x hx hrx')
      · exact absurd rfl (he x x hrx' hx)
    constructor <;> intro hop
    · rw [hfin _ hop, if_pos ⟨r, hra, hx⟩]
    · rw [hfin _ hop, if_pos ⟨r, hra, hx⟩]
  have hfits : ∀ k : Fin c.workers, ∀ r ∈ s.callsOf c.cut k, Fits S size r := by
    intro k r h1
    obtain ⟨a1, a2, a3⟩ := ha.requests r (hreq _ _ ((hmem _ _).1 h1))
    exact ⟨a1, a2, a3⟩
  have hserves : ∀ k, Serves L c.src size (worlds k) := fun k => ⟨(hw k).1, (hw k).2.1, (hw k).2.2⟩
  have hout : ∀ x, (∀ k : Fin c.workers, ¬ Handles (s.callsOf c.cut k) x) → s.dst x = byteAt before x := by
    intro x hx
    refine outside_byte hns (exact_of_cut hcut) hr x fun r hr' hrx => ?_
    obtain ⟨⟨k, r'⟩, h1, rfl⟩ := List.mem_map.1 (hperm.mem_iff.2 hr')
    exact hx ⟨k, handled_lt hr _ h1⟩ ⟨r', (hmem _ _).2 h1, hrx⟩
  have hbytes : ∀ x, byteAt after x = s.dst x := by
    intro x
    have hx := workers_effect L hS hb hstep (fun k => (hl k).1) (fun k => (hl k).2) hserves hfits hbr hsep he hend x
    rw [hm] at hx
    by_cases hcov : ∃ k : Fin c.workers, Handles (s.callsOf c.cut k) x
    · exact hx.1 hcov
    · have hno : ∀ k : Fin c.workers, ¬ Handles (s.callsOf c.cut k) x := fun k hk => hcov ⟨k, hk⟩
      rw [hx.2 hno, hout x hno]
  refine ⟨⟨c, s, hcut, hn, rfl, hr, hd, (funext hbytes).symm⟩, ?_⟩
  have hx := workers_durable (fun k => (hl k).2) hsep he
  rw [hm] at hx
  funext x
  by_cases hreg : ∃ k : Fin c.workers, Handles (s.callsOf c.cut k) x
  · obtain ⟨k, hk⟩ := hreg
    exact hx k (hend k) x (.inl hk)
  · exact hx ⟨0, hn0⟩ (hend _) x (.inr fun j hj => hreg ⟨j, hj⟩)

/-- C77: a download to a new image leaves exactly the served image, and it is durable. -/
theorem C77_full (hS : S.Proper) {exts : List ZeroExtent} {dirty : List DirtyExtent} (ht : Complete exts size)
    (hz : Truthful exts src) (hnew : ∀ i, byteAt before i = 0)
    (h : Downloaded S L n size (downloadActs false false exts dirty) src before after disk) :
    ∀ i, i < size → byteAt after i = src i ∧ byteAt disk i = src i := by
  obtain ⟨h1, h2⟩ := C77_refines hS (.inl ⟨false, false, exts, rfl, ht⟩) h
  have hb : byteAt before = visible [] := funext hnew
  rw [hb] at h1
  intro i hi
  rw [h2]
  exact ⟨C55_download (dirty := dirty) ht hz h1 i hi, C55_download (dirty := dirty) ht hz h1 i hi⟩

/-- The dirty extents say the truth: a byte that changed since the last backup is in a dirty extent, and the bytes of a zero
extent are zero. -/
structure DirtyTruth (dirty : List DirtyExtent) (size : Nat) (old new : Nat → Byte) : Prop where
  tiles : Tiles 0 (dirty.map fun e => (e.start, e.length)) size
  clean : ∀ e ∈ dirty, e.dirty = false → ∀ i, InDirty e i → new i = old i
  zero : ∀ e ∈ dirty, e.zero = true → ∀ i, InDirty e i → new i = 0

/-- C77: an incremental download on top of the last backup, which shows the disk as it was, leaves an image that
shows the disk as it is, and it is durable. -/
theorem C77_incremental (hS : S.Proper) {backing : Bool} {exts : List ZeroExtent} {dirty : List DirtyExtent} {old : Nat → Byte}
    (ht : DirtyTruth dirty size old src) (hold : ∀ i, i < size → byteAt before i = old i)
    (h : Downloaded S L n size (downloadActs true backing exts dirty) src before after disk) :
    ∀ i, i < size → byteAt after i = src i ∧ byteAt disk i = src i := by
  obtain ⟨h1, h2⟩ := C77_refines hS (.inr ⟨dirty, rfl, ht.tiles⟩) h
  obtain ⟨c, s, hc, hw, rfl, hr, hd, hdst⟩ := h1
  have key := C29_incremental hc (hw ▸ copyWorkers_pos n) ht.tiles
    (fun e he hd i hi => (hold i ((tiles_mem ht.tiles).2 ⟨e, he, hi⟩).2).trans (ht.clean e he hd i hi).symm) ht.zero hr hd
  intro i hi
  rw [h2, ← hdst]
  exact ⟨key i hi, key i hi⟩

end

/-- C77: a download that fails, or did not end yet: whatever the workers, the network and the local storage do, only the bytes of
the requests that were handed to the workers may have been changed.  So after a failed incremental backup a clean extent
still shows the last backup. -/
theorem C77_untouched {σ ι : Type} [DecidableEq ι] {S : HttpBackend.Server σ} {size : Nat} {acts : List Act} (ha : CopiesImage size acts)
    {bs step : Nat} {g : Bytes × Bytes} {loc : ι → NbdBackend.State} {worlds : ι → World σ} {rs : ι → List Req}
    (hin : ∀ k, ∀ r ∈ rs k, r ∈ reqs acts) (hone : ∀ k k' r, r ∈ rs k → r ∈ rs k' → k = k')
    {e : Config ι NbdBackend.State (Bytes × Bytes)}
    (he : Conc.Steps nbdMachine (startWorkers S (nbdP bs) 0 step g loc worlds rs) e) (x : Nat)
    (hx : ∀ k, ∀ r ∈ rs k, ¬ (r.start ≤ x ∧ x < r.start + r.length)) : byteAt e.mem.1 x = byteAt g.1 x := by
  obtain ⟨t, I⟩ := Space.isolated nbdSpace (fun i => Handles (rs i)) (requests_separate ha hin hone) _
    (fun i => confined_worker _ _ _ _ _ _) he
  exact I.outside x fun k ⟨r, h1, h2⟩ => hx k r h1 h2

/-- C77: the size of the local image does not change. -/
theorem C77_size {σ ι : Type} [DecidableEq ι] {S : HttpBackend.Server σ} {size : Nat} {acts : List Act} (ha : CopiesImage size acts)
    {bs step : Nat} {g : Bytes × Bytes} {loc : ι → NbdBackend.State} {worlds : ι → World σ} {rs : ι → List Req}
    (hin : ∀ k, ∀ r ∈ rs k, r ∈ reqs acts) (hone : ∀ k k' r, r ∈ rs k → r ∈ rs k' → k = k')
    {e : Config ι NbdBackend.State (Bytes × Bytes)}
    (he : Conc.Steps nbdMachine (startWorkers S (nbdP bs) 0 step g loc worlds rs) e) : e.mem.1.length = g.1.length := by
  obtain ⟨t, I⟩ := Space.isolated nbdSpace (fun i => Handles (rs i)) (requests_separate ha hin hone) _
    (fun i => confined_worker _ _ _ _ _ _) he
  exact I.sized.symm

theorem steps_append {σ ι Γ : Type} [DecidableEq ι] {M : Machine σ Γ} {a b c : Config ι σ Γ} (h : Conc.Steps M a b)
    (h' : Conc.Steps M b c) : Conc.Steps M a c := by
  induction h' with
  | refl => exact h
  | tail _ hs ih => exact .tail ih hs

/-- C77: with a network and storage that work, and enough room in the local image, no worker fails: at any time every
worker that ended has succeeded, and every other worker can go on to its end, whatever the others do. -/
theorem C77_succeeds {σ ι : Type} [DecidableEq ι] {S : HttpBackend.Server σ} (L : Lawful S.B) (hS : S.Proper) {size : Nat}
    {acts : List Act} (ha : CopiesImage size acts) {src : Nat → Byte} {step : Nat} (hstep : 0 < step) {g : Bytes × Bytes}
    (hroom : size ≤ g.1.length) {loc : ι → NbdBackend.State} {worlds : ι → World σ} {rs : ι → List Req}
    (hin : ∀ k, ∀ r ∈ rs k, r ∈ reqs acts) (hone : ∀ k k' r, r ∈ rs k → r ∈ rs k' → k = k')
    (hloc : ∀ k, (loc k).bs = 1 ∧ (loc k).canFlush = true ∧ (loc k).faults = [] ∧ (loc k).mode = .rw ∧ (loc k).canZero = true)
    (hw : ∀ k, L.Inv (worlds k).srv ∧ L.content (worlds k).srv = src ∧ size ≤ min S.ticketSize (S.B.size (worlds k).srv))
    (hnet : ∀ k, ∀ n ∈ (worlds k).nets, n.Good) (hst : ¬ L.MayFail 0 size)
    {e : Config ι NbdBackend.State (Bytes × Bytes)}
    (he : Conc.Steps nbdMachine (startWorkers S (nbdP 1) 0 step g loc worlds rs) e) :
    ∀ k, (∀ r, e.prog k = .ret r → r = .ok ()) ∧
      ∃ e', Conc.Steps nbdMachine e e' ∧ e'.prog k = .ret (.ok ()) ∧ ∀ j, j ≠ k → e'.prog j = e.prog j := by
  suffices key : ∀ {e : Config ι NbdBackend.State (Bytes × Bytes)},
      Conc.Steps nbdMachine (startWorkers S (nbdP 1) 0 step g loc worlds rs) e → ∀ k r, e.prog k = .ret r → r = .ok () by
    intro k
    refine ⟨key he k, ?_⟩
    obtain ⟨e', r, h1, h2, h3⟩ := can_end nbdMachine k _ e rfl
    have := key (steps_append he h1) k r h2
    subst this
    exact ⟨e', h1, h2, h3⟩
  clear he
  intro e he k r hr
  obtain ⟨t, I⟩ := Space.isolated nbdSpace (fun i => Handles (rs i)) (requests_separate ha hin hone) _
    (fun i => confined_worker _ _ _ _ _ _) he
  have hrun := I.run k
  rw [hr] at hrun
  obtain ⟨l1, l2, l3, l4, l5⟩ := hloc k
  have := worker_works L hS hstep hroom (rs k) (w := worlds k) (src := src) ⟨(hw k).1, (hw k).2.1, (hw k).2.2⟩ ⟨hnet k, hst⟩
    (fun r h => (ha.requests r (hin k r h)).elim fun a b => ⟨a, b.1, b.2⟩)
    (t := nbdMachine.view (loc k) g) ⟨l1, l2, rfl, fun _ => ⟨l3, l4, l5⟩⟩
  rw [show Prog.run (workerP S (nbdP 1) 0 step (rs k) (worlds k)) (nbdMachine.view (loc k) g) = (r, t k) from hrun.symm] at this
  exact this

/-! ### Chains of backups -/

/-- A history of backups, the last one first: the content of the disk at the time of a backup, and the image the backup made.
The first one is a full backup to a new image, the others are incremental, each to a new image on top of the one before.
Each of them may have had another server, another number of workers, and other faults. -/
inductive Backups (size : Nat) : List ((Nat → Byte) × Bytes) → Prop
  | full {σ : Type} {S : HttpBackend.Server σ} {L : Lawful S.B} {n : Int} {exts : List ZeroExtent} {src : Nat → Byte} {new image disk : Bytes}
    (hS : S.Proper) (ht : Complete exts size) (hz : Truthful exts src) (hnew : ∀ i, byteAt new i = 0)
    (h : Downloaded S L n size (downloadActs false false exts []) src new image disk) : Backups size [(src, disk)]
  | incremental {σ : Type} {S : HttpBackend.Server σ} {L : Lawful S.B} {n : Int} {dirty : List DirtyExtent} {old src : Nat → Byte}
    {last image disk : Bytes} {rest : List ((Nat → Byte) × Bytes)} (hb : Backups size ((old, last) :: rest))
    (hS : S.Proper) (ht : DirtyTruth dirty size old src)
    (h : Downloaded S L n size (downloadActs true true [] dirty) src last image disk) : Backups size ((src, disk) :: (old, last) :: rest)

/-- C77: every image of a history of backups shows the disk as it was at the time of its backup, also after a crash of the
host that made the backups. -/
theorem C77_backups {size : Nat} {l : List ((Nat → Byte) × Bytes)} (h : Backups size l) :
    ∀ b ∈ l, ∀ i, i < size → byteAt b.2 i = b.1 i := by
  induction h with
  | full hS ht hz hnew h =>
    intro b hb i hi
    rw [List.mem_singleton] at hb
    rw [hb]
    exact (C77_full hS ht hz hnew h i hi).2
  | incremental _ hS ht h ih =>
    intro b hb i hi
    rcases List.mem_cons.1 hb with rfl | hb
    · exact (C77_incremental hS ht (ih _ (List.mem_cons_self ..)) h i hi).2
    · exact ih b hb i hi

/-- C77: restoring any backup of a history, by uploading its image to a server, with several connections and a storage behind NBD:
the disk is what it was at the time of the backup, whatever was on it, and it is durable. -/
theorem C77_restore {size : Nat} {l : List ((Nat → Byte) × Bytes)} (hl : Backups size l) {old : Nat → Byte} {image : Bytes}
    (hmem : (old, image) ∈ l) {τ : Type} {S : Source τ} (R : LawfulSource S) {bs : Nat} (hb : 0 < bs) (h128 : 128 * 1024 ^ 2 % bs = 0)
    {c : Cfg} (hc : CutOf c.cut) (hn : 0 < c.workers) (hsrc : c.src = byteAt image) {exts : List ZeroExtent}
    (ht : Complete exts size) (hz : Truthful exts (byteAt image)) (hal : ∀ x ∈ exts, x.start % bs = 0) {g : Bytes × Bytes}
    {s : Ex} (h : Ex.Reachable c (uploadActs true false exts) (byteAt g.1) s) (hd : s.main = .done none)
    {conns : Fin c.workers → List (Job τ)} (hsent : SentBy R c s conns) (hbuf : BuffersOf R bs conns)
    (loc : Fin c.workers → NbdBackend.State) (hbs : ∀ k, (loc k).bs = bs) (hfl : ∀ k, (loc k).canFlush = true)
    {e : Config (Fin c.workers) NbdBackend.State (Bytes × Bytes)}
    (he : Conc.Steps nbdMachine (startConns (nbdP bs) S g loc conns) e) (hend : ∀ k, Ended e k (.ok ())) :
    ∀ i, i < size → byteAt e.mem.1 i = old i ∧ byteAt e.mem.2 i = old i := by
  intro i hi
  have key := C65_nbd bs hb h128 R hc hn (acts := copyData true true exts) (.inl ⟨true, true, exts, size, rfl, ht, hal⟩)
    h hd hsent hbuf loc hbs hfl he hend i
  have himg := C28_copy hc hn ht (hsrc ▸ hz) h hd i hi
  have hold := C77_backups hl _ hmem i hi
  rw [hsrc, hold] at himg
  exact ⟨key.1.trans himg, key.2.trans himg⟩

/-! ## Examples -/

/-- A server of an image of 12 bytes behind NBD. -/
def backupServer : HttpBackend.Server NbdBackend.State :=
  toyServer (NbdBackend.backend 1) 2 12 (fun s => .ok [(0, s.export_.length)])

theorem backupServer_proper : backupServer.Proper := toyServer_proper _ _ _ _ (by decide) (by decide)

def backupLawful : Lawful backupServer.B := NbdBackend.lawful 1 (by decide) True 12 (fun _ => rfl)

/-- The connection of a worker, the response arrives in small pieces. -/
def backupWorld (image : Bytes) : World NbdBackend.State :=
  ⟨⟨0, none, true, true, true⟩, ⟨.rw, 1, image, image, 0, true, true, []⟩, [{ Net.perfect with pieces := [0, 1] }]⟩

/-- A connection to the local `qemu-nbd`. -/
def backupLoc : NbdBackend.State := ⟨.rw, 1, [], [], 0, true, true, []⟩

def backupCfg (image : Bytes) : Cfg := ⟨2, 32, cutWhole, byteAt image⟩

/-- A copy with two workers. -/
def backupEx (image before : Bytes) (acts : List Act) : Ex :=
  (Ex.init (backupCfg image) acts (byteAt before)).execAll (backupCfg image) (List.replicate 40 [0, 1, 2]).flatten

/-- Their requests to the local `qemu-nbd`, alternating. -/
def backupEnd (image before : Bytes) (acts : List Act) : Config (Fin 2) NbdBackend.State (Bytes × Bytes) :=
  exec nbdMachine (startWorkers backupServer (nbdP 1) 0 3 (before, []) (fun _ => backupLoc) (fun _ => backupWorld image)
    fun k => (backupEx image before acts).callsOf cutWhole k) (List.replicate 20 [0, 1]).flatten

/-- A download of the example returned. -/
theorem backup_downloaded (image before after disk : Bytes) (acts : List Act) (hl : image.length = 12)
    (h1 : (backupEx image before acts).main = .done none)
    (h2 : ∀ k, succeeded ((backupEnd image before acts).prog k) = true)
    (h3 : (backupEnd image before acts).mem = (after, disk)) :
    Downloaded backupServer backupLawful 2 12 acts (byteAt image) before after disk := by
  refine ⟨backupCfg image, backupEx image before acts, 1, 3, [], fun _ => backupLoc, fun _ => backupWorld image,
    backupEnd image before acts, rfl, rfl, rfl, by decide, by decide, execAll_sound .init, h1, fun _ => ⟨rfl, rfl⟩,
    fun _ => ⟨⟨rfl, rfl, hl, fun _ => ⟨rfl, rfl, rfl⟩⟩, rfl, ?_⟩, steps_exec _ _ _ _ (.refl _), fun k => ?_, h3⟩
  · show 12 ≤ min 12 image.length
    omega
  · exact Ended.of (h2 k)

def oldImage : Bytes := [1, 1, 1, 1, 0, 0, 0, 0, 2, 2, 2, 2]
def newImage : Bytes := [1, 1, 1, 1, 3, 4, 5, 6, 0, 0, 0, 0]

def oldExts : List ZeroExtent := [⟨0, 4, false, some false⟩, ⟨4, 4, true, some true⟩, ⟨8, 4, false, some false⟩]
def newDirty : List DirtyExtent := [⟨0, 4, false, false⟩, ⟨4, 4, true, false⟩, ⟨8, 4, true, true⟩]

/-- Both workers have something to do. -/
example : (backupEx oldImage (zeros 12) (copyData false false oldExts)).handled.map Prod.fst = [0, 1] := by decide +kernel

theorem oldBackup : Downloaded backupServer backupLawful 2 12 (downloadActs false false oldExts []) (byteAt oldImage)
    (zeros 12) oldImage oldImage :=
  backup_downloaded _ _ _ _ _ rfl (by decide +kernel) (by decide +kernel) (by decide +kernel)

theorem newBackup : Downloaded backupServer backupLawful 2 12 (downloadActs true true [] newDirty) (byteAt newImage)
    oldImage newImage newImage :=
  backup_downloaded _ _ _ _ _ rfl (by decide +kernel) (by decide +kernel) (by decide +kernel)

/-- The hypotheses of `C77_backups` hold: a full backup, and an incremental backup on top of it. -/
theorem exampleBackups : Backups 12 [(byteAt newImage, newImage), (byteAt oldImage, oldImage)] := by
  refine .incremental (.full (exts := oldExts) backupServer_proper (.cons (by decide) (.cons (by decide) (.cons (by decide) (.nil _)))) ?_ ?_ oldBackup)
    backupServer_proper ⟨.cons (by decide) (.cons (by decide) (.cons (by decide) (.nil _))), ?_, ?_⟩ newBackup
  · intro e he hz i hi
    simp only [oldExts, List.mem_cons, List.not_mem_nil, or_false] at he
    rcases he with rfl | rfl | rfl <;> simp only [InExt, Bool.false_eq_true] at hz hi
    obtain ⟨h1, h2⟩ := hi
    have : i = 4 ∨ i = 5 ∨ i = 6 ∨ i = 7 := by omega
    rcases this with rfl | rfl | rfl | rfl <;> rfl
  · intro i
    exact Memory.byteAt_zeros 12 i
  · intro e he hz i hi
    simp only [newDirty, List.mem_cons, List.not_mem_nil, or_false] at he
    rcases he with rfl | rfl | rfl <;> simp only [InDirty, Bool.true_eq_false] at hz hi
    obtain ⟨h1, h2⟩ := hi
    have : i = 0 ∨ i = 1 ∨ i = 2 ∨ i = 3 := by omega
    rcases this with rfl | rfl | rfl | rfl <;> rfl
  · intro e he hz i hi
    simp only [newDirty, List.mem_cons, List.not_mem_nil, or_false] at he
    rcases he with rfl | rfl | rfl <;> simp only [InDirty, Bool.false_eq_true] at hz hi
    obtain ⟨h1, h2⟩ := hi
    have : i = 8 ∨ i = 9 ∨ i = 10 ∨ i = 11 := by omega
    rcases this with rfl | rfl | rfl | rfl <;> rfl

/-- The hypotheses of `C77_succeeds` and `C77_untouched` hold for the incremental backup. -/
example : CopiesImage 12 (copyDirty newDirty) ∧ ¬ backupLawful.MayFail 0 12 ∧
    (∀ n ∈ (backupWorld newImage).nets, n.Good) ∧
    ∀ k k' r, r ∈ (backupEx newImage oldImage (copyDirty newDirty)).callsOf cutWhole k →
      r ∈ (backupEx newImage oldImage (copyDirty newDirty)).callsOf cutWhole k' → k = k' := by
  refine ⟨.inr ⟨_, rfl, .cons (by decide) (.cons (by decide) (.cons (by decide) (.nil _)))⟩, ?_, ?_, ?_⟩
  · rintro ⟨k, h1, h2 | h2⟩
    · exact h2 trivial
    · have : k ≤ 12 := h1
      omega
  · intro n hn
    simp only [backupWorld, List.mem_singleton] at hn
    subst hn
    exact ⟨rfl, rfl, rfl, by simp [Net.perfect], by simp [Net.perfect], rfl, rfl⟩
  · intro k k' r h h'
    obtain ⟨r1, a1, a2⟩ := mem_callsOf.1 h
    obtain ⟨r2, b1, b2⟩ := mem_callsOf.1 h'
    rw [cutWhole, List.mem_singleton] at a2 b2
    subst a2 b2
    have e : (backupEx newImage oldImage (copyDirty newDirty)).handled = [(0, ⟨.copy, 4, 4⟩), (1, ⟨.zero, 8, 4⟩)] := by
      decide +kernel
    rw [e] at a1 b1
    simp only [List.mem_cons, Prod.mk.injEq, List.not_mem_nil, or_false] at a1 b1
    rcases a1 with ⟨rfl, rfl⟩ | ⟨rfl, rfl⟩ <;> rcases b1 with ⟨rfl, hb⟩ | ⟨rfl, hb⟩ <;> first | rfl | cases hb

/-- The response of the server is cut: the worker fails, the other one writes its part. -/
def brokenEnd : Config (Fin 2) NbdBackend.State (Bytes × Bytes) :=
  exec nbdMachine (startWorkers backupServer (nbdP 1) 0 3 (oldImage, []) (fun _ => backupLoc)
    (fun _ => { backupWorld newImage with nets := [{ Net.perfect with writes := [true, false] }] })
    fun k => (backupEx newImage oldImage (copyDirty newDirty)).callsOf cutWhole k) (List.replicate 20 [0, 1]).flatten

/-- A failed incremental backup: the clean extent is as it was, a part of the dirty extents is written. -/
example : brokenEnd.mem.1 = [1, 1, 1, 1, 3, 4, 0, 0, 0, 0, 0, 0] ∧
    succeeded (brokenEnd.prog 0) = false := by decide +kernel

/-- The condition on the dirty extents is needed: if a change of the disk is in no dirty extent, the backup shows neither the
old nor the new disk. -/
example : ∃ (src : Bytes) (dirty : List DirtyExtent), Tiles 0 (dirty.map fun e => (e.start, e.length)) 12 ∧
      Downloaded backupServer backupLawful 2 12 (downloadActs true true [] dirty) (byteAt src) oldImage
        [1, 1, 1, 1, 3, 4, 5, 6, 2, 2, 2, 2] [1, 1, 1, 1, 3, 4, 5, 6, 2, 2, 2, 2] ∧
      byteAt [1, 1, 1, 1, 3, 4, 5, 6, 2, 2, 2, 2] 8 ≠ byteAt src 8 ∧ byteAt [1, 1, 1, 1, 3, 4, 5, 6, 2, 2, 2, 2] 4 ≠ byteAt oldImage 4 :=
  ⟨newImage, [⟨0, 4, false, false⟩, ⟨4, 4, true, false⟩, ⟨8, 4, false, false⟩],
    .cons (by decide) (.cons (by decide) (.cons (by decide) (.nil _))),
    backup_downloaded _ _ _ _ _ rfl (by decide +kernel) (by decide +kernel) (by decide +kernel), by decide, by decide⟩

end Imageio.Props
