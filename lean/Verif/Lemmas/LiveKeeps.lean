import Verif.Lemmas.LiveSure
/-!
What every step of the programs of `Model/Concurrent.lean` keeps: no faults appear, and images do not become smaller.
-/
namespace Imageio.Conc
open Imageio.Memory (writeAt)

variable {σ τ α β : Type}

/-- Every step of the program is in `T`. -/
def Keeps (T : σ → σ → Prop) : Prog σ α → Prop
  | .ret _ => True
  | .step f k => ∀ s, T s (f s) ∧ Keeps T (k s)

theorem Keeps.bind {T : σ → σ → Prop} {p : Prog σ α} {g : α → Prog σ β} (hp : Keeps T p) (hg : ∀ a, Keeps T (g a)) : Keeps T (p.bind g) := by
  induction p with
  | ret r =>
    cases r with
    | ok a => exact hg a
    | error e => trivial
  | step f k ih => exact fun s => ⟨(hp s).1, ih s (hp s).2⟩

theorem Keeps.call {T : σ → σ → Prop} {f : σ → Res σ α} (h : ∀ s, T s (f s).2) : Keeps T (Prog.call f) := fun s => ⟨h s, trivial⟩

theorem Keeps.asks {T : σ → σ → Prop} {f : σ → α} (h : ∀ s, T s s) : Keeps T (Prog.asks f) := Keeps.call h

theorem Keeps.pure {T : σ → σ → Prop} (a : α) : Keeps T (Prog.pure a : Prog σ α) := trivial

theorem Keeps.ite {T : σ → σ → Prop} {c : Prop} [Decidable c] {p q : Prog σ α} (hp : c → Keeps T p) (hq : ¬ c → Keeps T q) : Keeps T (if c then p else q) := by
  split
  · exact hp ‹_›
  · exact hq ‹_›

/-! ### Operations -/

/-- The methods of the backend. -/
structure KeepsBackend (T : σ → σ → Prop) (B : ProgBackend σ) : Prop where
  seek : ∀ n, Keeps T (B.seek n)
  write : ∀ a d, Keeps T (B.write a d)
  zero : ∀ n, Keeps T (B.zero n)
  flush : Keeps T B.flush

theorem keeps_writeLoopP {T : σ → σ → Prop} {B : ProgBackend σ} (h : KeepsBackend T B) (fuel pos : Nat) (d : Bytes) : Keeps T (writeLoopP B fuel pos d) := by
  induction fuel generalizing pos d with
  | zero => unfold writeLoopP; exact .ite (fun _ => trivial) fun _ => trivial
  | succ n ih => unfold writeLoopP; exact .ite (fun _ => trivial) fun _ => (h.write _ _).bind fun _ => ih _ _

theorem keeps_writeChunkP {T : σ → σ → Prop} {B : ProgBackend σ} (h : KeepsBackend T B) (S : Source τ) (cancel : Nat → Bool) (size count : Nat) (l : Loc τ) :
    Keeps T (writeChunkP B S cancel size count l) := by
  unfold writeChunkP
  split
  · trivial
  · exact (keeps_writeLoopP h _ _ _).bind fun _ => .ite (fun _ => trivial) fun _ => .ite (fun _ => trivial) fun _ => trivial

theorem keeps_writeChunksP {T : σ → σ → Prop} {B : ProgBackend σ} (h : KeepsBackend T B) (S : Source τ) (cancel : Nat → Bool) (bufLen size fuel : Nat) (l : Loc τ) :
    Keeps T (writeChunksP B S cancel bufLen size fuel l) := by
  induction fuel generalizing l with
  | zero => unfold writeChunksP; exact .ite (fun _ => trivial) fun _ => trivial
  | succ n ih => unfold writeChunksP; exact .ite (fun _ => trivial) fun _ => (keeps_writeChunkP h _ _ _ _ _).bind fun _ => ih _

theorem keeps_zeroStepsP {T : σ → σ → Prop} {B : ProgBackend σ} (h : KeepsBackend T B) (cancel : Nat → Bool) (size fuel done chunks : Nat) :
    Keeps T (zeroStepsP B cancel size fuel done chunks) := by
  induction fuel generalizing done chunks with
  | zero => unfold zeroStepsP; exact .ite (fun _ => trivial) fun _ => trivial
  | succ n ih => unfold zeroStepsP; exact .ite (fun _ => trivial) fun _ => (h.zero _).bind fun _ => .ite (fun _ => trivial) fun _ => ih _ _

theorem keeps_job {T : σ → σ → Prop} {B : ProgBackend σ} (h : KeepsBackend T B) (S : Source τ) (j : Job τ) : Keeps T (j.prog B S) := by
  unfold Job.prog
  refine .ite (fun _ => ?_) fun _ => ?_
  · exact (h.seek _).bind fun _ => (keeps_zeroStepsP h _ _ _ _ _).bind fun _ => .ite (fun _ => h.flush) fun _ => trivial
  · refine (h.seek _).bind fun _ => .bind (.ite (fun _ => keeps_writeChunkP h _ _ _ _ _) fun _ => trivial) fun _ => ?_
    exact (keeps_writeChunksP h _ _ _ _ _ _).bind fun _ => .ite (fun _ => h.flush) fun _ => trivial

/-! ### Files -/

/-- No faults appear; the file grows, if `grow`. -/
def FileKeeps (grow : Prop) (s s' : File.State) : Prop := (s.faults = [] → s'.faults = []) ∧ (grow → s.data.length ≤ s'.data.length)

theorem FileKeeps.refl (g : Prop) (s : File.State) : FileKeeps g s s := ⟨id, fun _ => Nat.le_refl _⟩

theorem sys_keeps {g : Prop} {f : File.State → Res File.State α} (h : ∀ s, (f s).2.faults = s.faults) (hl : g → ∀ s, s.data.length ≤ (f s).2.data.length)
    (s : File.State) : FileKeeps g s (File.sys s f).2 := by
  unfold File.sys
  split
  · rename_i hf
    exact ⟨fun _ => (h s).trans hf, fun hg => hl hg s⟩
  · rename_i fs hf
    exact ⟨fun h0 => absurd (hf.symm.trans h0) (by simp), fun hg => hl hg { s with faults := fs }⟩
  · rename_i e fs hf
    exact ⟨fun h0 => absurd (hf.symm.trans h0) (by simp), fun _ => Nat.le_refl _⟩

theorem writeAt_grows (b d : Bytes) (n : Nat) : b.length ≤ (writeAt b n d).length := by
  rw [Memory.length_writeAt]
  exact Nat.le_max_left _ _

theorem fioReadinto_keeps {g : Prop} (env : File.Env) (n : Nat) (s : File.State) : FileKeeps g s (File.fioReadinto env s n).2 := by
  unfold File.fioReadinto
  refine sys_keeps (fun s => ?_) (fun _ s => ?_) s
  · split <;> rfl
  · split <;> exact Nat.le_refl _

theorem fioWrite_keeps {g : Prop} (env : File.Env) (a : Nat) (d : Bytes) (s : File.State) : FileKeeps g s (File.fioWrite env s a d).2 := by
  unfold File.fioWrite
  refine sys_keeps (fun s => ?_) (fun _ s => ?_) s
  · split
    · rfl
    · split <;> rfl
  · split
    · exact Nat.le_refl _
    · split
      · exact Nat.le_refl _
      · dsimp only
        generalize File.shortWrite _ _ _ _ = n
        split
        · exact Nat.le_refl _
        · exact writeAt_grows _ _ _

theorem fallocate_keeps {g : Prop} (m : File.FallocMode) (off n : Nat) (s : File.State) : FileKeeps g s (File.fallocate m off n s).2 := by
  have h : FileKeeps g s (File.fallocateSys m off n s).2 := by
    unfold File.fallocateSys
    refine sys_keeps (fun s => ?_) (fun _ s => ?_) s
    · cases m <;> rfl
    · cases m with
      | zeroRange => exact writeAt_grows _ _ _
      | punchHole =>
        simp only [File.punched, zeros, List.length_append, List.length_take, List.length_drop, List.length_replicate]
        omega
      | allocate => simp
  unfold File.fallocate
  generalize File.fallocateSys m off n s = q at h ⊢
  obtain ⟨r, s'⟩ := q
  cases r with
  | ok u => exact h
  | error e => dsimp only; split <;> exact h

theorem blkZero_keeps {g : Prop} (off n : Nat) (s : File.State) : FileKeeps g s (File.blkZero off n s).2 := by
  unfold File.blkZero
  refine sys_keeps (fun s => ?_) (fun _ s => ?_) s
  · split <;> rfl
  · split
    · exact Nat.le_refl _
    · exact writeAt_grows _ _ _

/-- `ftruncate` alone can make the file smaller. -/
theorem truncate_keeps (n : Nat) (s : File.State) : FileKeeps False s (File.truncate n s).2 := by
  unfold File.truncate
  exact sys_keeps (fun _ => rfl) (fun h => h.elim) s

theorem flush_keeps {g : Prop} (s : File.State) : FileKeeps g s (File.flush s).2 := by
  unfold File.flush
  exact sys_keeps (fun _ => rfl) (fun _ _ => Nat.le_refl _) s

theorem seek_keeps {g : Prop} (n : Nat) : Keeps (FileKeeps g) (Prog.call fun s => File.seek s n) := Keeps.call fun s => FileKeeps.refl g s

theorem readBlock_keeps {g : Prop} (env : File.Env) (n : Nat) (s : File.State) : FileKeeps g s (readBlock env n s).2 := by
  unfold readBlock
  have h := fioReadinto_keeps (g := g) env env.bs { s with pos := n }
  have h' : FileKeeps g s (File.readinto env { s with pos := n } env.bs).2 := h
  generalize File.readinto env { s with pos := n } env.bs = q at h' ⊢
  obtain ⟨r, s'⟩ := q
  cases r <;> exact h'

variable {g : Prop} (env : File.Env)

theorem keeps_writeUnalignedP (d : Bytes) : Keeps (FileKeeps g) (writeUnalignedP env d) := by
  unfold writeUnalignedP
  refine (Keeps.asks (FileKeeps.refl g)).bind fun _ => (Keeps.call (readBlock_keeps env _)).bind fun _ => ?_
  exact (Keeps.call (fioWrite_keeps env _ _)).bind fun _ => (seek_keeps _).bind fun _ => trivial

theorem keeps_fileWriteP (a : Nat) (d : Bytes) : Keeps (FileKeeps g) (fileWriteP env a d) := by
  unfold fileWriteP
  refine (Keeps.asks (FileKeeps.refl g)).bind fun _ => .ite (fun _ => keeps_writeUnalignedP env _) fun _ => ?_
  exact .ite (fun _ => Keeps.call (fioWrite_keeps env _ _)) fun _ => Keeps.call (fioWrite_keeps env _ _)

theorem keeps_zeroBlockP (n : Nat) : Keeps (FileKeeps g) (zeroBlockP n) := by
  have hseek : ∀ o c : Nat, Keeps (FileKeeps g) (Prog.bind (Prog.call fun s => File.seek s o) fun _ => Prog.pure c) := fun o c => (seek_keeps _).bind fun _ => trivial
  unfold zeroBlockP
  refine (Keeps.asks (FileKeeps.refl g)).bind fun _ => (Keeps.asks (FileKeeps.refl g)).bind fun _ => .ite (fun _ => ?_) fun _ => ?_
  · refine Keeps.bind (Keeps.call ?_) fun r => ?_
    · exact fun s => blkZero_keeps _ _ s
    split
    · exact hseek _ _
    · refine .ite (fun _ => ?_) fun _ => trivial
      exact (Keeps.call fun s => FileKeeps.refl g s).bind fun _ => (Keeps.call (blkZero_keeps _ _)).bind fun _ => hseek _ _
  · exact (Keeps.call (blkZero_keeps _ _)).bind fun _ => hseek _ _

theorem keeps_writeZerosP (n : Nat) : Keeps (FileKeeps g) (writeZerosP env n) := by
  have h : ∀ fuel buf n, Keeps (FileKeeps g) (writeZerosLoopP env buf fuel n) := by
    intro fuel buf
    induction fuel with
    | zero => intro n; unfold writeZerosLoopP; exact .ite (fun _ => trivial) fun _ => trivial
    | succ f ih => intro n; unfold writeZerosLoopP; exact .ite (fun _ => trivial) fun _ => (keeps_fileWriteP env _ _).bind fun _ => ih _
  exact (h _ _ _).bind fun _ => trivial

theorem keeps_zeroedP (o n : Nat) : Keeps (FileKeeps g) (zeroedP o n) := (seek_keeps _).bind fun _ => trivial

theorem keeps_zeroTailP (o n : Nat) : Keeps (FileKeeps g) (zeroTailP env o n) := by
  unfold zeroTailP
  refine (Keeps.asks (FileKeeps.refl g)).bind fun _ => .ite (fun _ => ?_) fun _ => keeps_writeZerosP env _
  refine (Keeps.call fun s => FileKeeps.refl g s).bind fun _ => .ite (fun _ => ?_) fun _ => keeps_writeZerosP env _
  refine (Keeps.call (fallocate_keeps _ _ _)).bind fun _ => .ite (fun _ => keeps_zeroedP _ _) fun _ => ?_
  exact (Keeps.call fun s => FileKeeps.refl g s).bind fun _ => keeps_writeZerosP env _

theorem keeps_zeroPunchP (o n : Nat) : Keeps (FileKeeps g) (zeroPunchP env o n) := by
  unfold zeroPunchP
  refine (Keeps.asks (FileKeeps.refl g)).bind fun _ => .ite (fun _ => ?_) fun _ => keeps_zeroTailP env _ _
  refine (Keeps.call (fallocate_keeps _ _ _)).bind fun _ => .ite (fun _ => ?_) fun _ => ?_
  · refine (Keeps.call (fallocate_keeps _ _ _)).bind fun _ => .ite (fun _ => keeps_zeroedP _ _) fun _ => ?_
    exact (Keeps.call fun s => FileKeeps.refl g s).bind fun _ => keeps_zeroTailP env _ _
  · exact (Keeps.call fun s => FileKeeps.refl g s).bind fun _ => keeps_zeroTailP env _ _

theorem keeps_zeroFileP (n : Nat) : Keeps (FileKeeps g) (zeroFileP env n) := by
  unfold zeroFileP
  refine (Keeps.asks (FileKeeps.refl g)).bind fun _ => (Keeps.asks (FileKeeps.refl g)).bind fun _ => .ite (fun _ => ?_) fun _ => keeps_zeroPunchP env _ _
  refine (Keeps.call (fallocate_keeps _ _ _)).bind fun _ => .ite (fun _ => keeps_zeroedP _ _) fun _ => ?_
  exact (Keeps.call fun s => FileKeeps.refl g s).bind fun _ => keeps_zeroPunchP env _ _

theorem keeps_zeroSparseP (n : Nat) : Keeps (FileKeeps False) (zeroSparseP env n) := by
  have hp : ∀ o, Keeps (FileKeeps False) (punchSparseP env o n) := fun o =>
    (Keeps.call (fallocate_keeps _ _ _)).bind fun _ => .ite (fun _ => keeps_zeroedP _ _) fun _ =>
      (Keeps.call fun s => FileKeeps.refl _ s).bind fun _ => keeps_writeZerosP env _
  unfold zeroSparseP
  refine (Keeps.asks (FileKeeps.refl _)).bind fun _ => .ite (fun _ => ?_) fun _ => keeps_writeZerosP env _
  refine (Keeps.asks (FileKeeps.refl _)).bind fun _ => (Keeps.call fun s => FileKeeps.refl _ s).bind fun _ => .ite (fun _ => ?_) fun _ => hp _
  exact (Keeps.call (truncate_keeps _)).bind fun _ => .ite (fun _ => keeps_zeroedP _ _) fun _ => hp _

/-- The file backend: block devices, and files that are zeroed without punching holes, never become smaller. -/
theorem keeps_file : KeepsBackend (FileKeeps (env.isBlock = true ∨ env.sparse = false)) (fileP env) where
  seek _ := seek_keeps _
  write := keeps_fileWriteP env
  flush := Keeps.call flush_keeps
  zero n := by
    show Keeps _ (fileZeroP env n)
    unfold fileZeroP
    refine (Keeps.asks (FileKeeps.refl _)).bind fun _ => .ite (fun _ => keeps_writeUnalignedP env _) fun _ => .ite (fun _ => keeps_zeroBlockP _) fun hb => ?_
    refine .ite (fun hs => ?_) fun _ => keeps_zeroFileP env _
    have e : (env.isBlock = true ∨ env.sparse = false) = False := by simp [hb, hs]
    rw [e]
    exact keeps_zeroSparseP env _

/-! ### NBD -/

/-- No faults appear; the size of the export, the minimum block size and the mode stay. -/
def NbdKeeps (s s' : NbdBackend.State) : Prop :=
  (s.faults = [] → s'.faults = []) ∧ s'.export_.length = s.export_.length ∧ s'.bs = s.bs ∧ s'.mode = s.mode

theorem NbdKeeps.refl (s : NbdBackend.State) : NbdKeeps s s := ⟨id, rfl, rfl, rfl⟩

theorem serverStore_keeps (off : Nat) (d : Bytes) (s : NbdBackend.State) : NbdKeeps s (NbdBackend.serverStore off d s) := by
  refine ⟨id, ?_, rfl, rfl⟩
  simp only [NbdBackend.serverStore, List.length_take, List.length_append, List.length_drop]
  omega

theorem request_keeps (off n : Nat) (f : Nat → NbdBackend.State → NbdBackend.State) (h : ∀ k s, NbdKeeps s (f k s)) (s : NbdBackend.State) :
    NbdKeeps s (NbdBackend.request s off n f).2 := by
  unfold NbdBackend.request
  split
  · rename_i e fs hf
    obtain ⟨-, h2, h3, h4⟩ := h (min e.after n) { s with faults := fs }
    exact ⟨fun h0 => absurd (hf.symm.trans h0) (by simp), h2, h3, h4⟩
  · have ht : s.faults = [] → s.faults.tail = [] := fun h0 => by rw [h0]; rfl
    dsimp only
    split
    · exact ⟨ht, rfl, rfl, rfl⟩
    · obtain ⟨h1, h2, h3, h4⟩ := h n { s with faults := s.faults.tail }
      exact ⟨fun h0 => h1 (ht h0), h2, h3, h4⟩

theorem nbdReadinto_keeps (n : Nat) (s : NbdBackend.State) : NbdKeeps s (NbdBackend.readinto s n).2 := by
  unfold NbdBackend.readinto
  split
  · exact NbdKeeps.refl s
  · dsimp only
    split
    · exact NbdKeeps.refl s
    · have h := request_keeps s.pos (min n (s.export_.length - s.pos)) (fun _ s => s) (fun _ s => NbdKeeps.refl s) s
      generalize NbdBackend.request s s.pos (min n (s.export_.length - s.pos)) (fun _ s => s) = q at h
      obtain ⟨r, s'⟩ := q
      cases r <;> exact h

/-- The NBD backend. -/
theorem keeps_nbd (bs : Nat) : KeepsBackend NbdKeeps (nbdP bs) where
  seek n := Keeps.call fun s => NbdKeeps.refl s
  write a d := Keeps.call fun s => by
    show NbdKeeps s (NbdBackend.write s a d).2
    unfold NbdBackend.write
    split
    · exact NbdKeeps.refl s
    · have h := request_keeps s.pos d.length (fun k => NbdBackend.serverStore s.pos (d.take k)) (fun _ s => serverStore_keeps _ _ s) s
      generalize NbdBackend.request s s.pos d.length (fun k => NbdBackend.serverStore s.pos (d.take k)) = q at h
      obtain ⟨r, s'⟩ := q
      cases r <;> exact h
  zero n := Keeps.call fun s => by
    show NbdKeeps s (NbdBackend.zero s n).2
    unfold NbdBackend.zero
    split
    · exact NbdKeeps.refl s
    · split
      · exact NbdKeeps.refl s
      · have h := request_keeps s.pos n (fun k => NbdBackend.serverStore s.pos (zeros k)) (fun _ s => serverStore_keeps _ _ s) s
        generalize NbdBackend.request s s.pos n (fun k => NbdBackend.serverStore s.pos (zeros k)) = q at h
        obtain ⟨r, s'⟩ := q
        cases r <;> exact h
  flush := Keeps.call fun s => by
    unfold NbdBackend.flush
    split
    · exact NbdKeeps.refl s
    · split
      · rename_i e fs hf
        exact ⟨fun h0 => absurd (hf.symm.trans h0) (by simp), rfl, rfl, rfl⟩
      · exact ⟨fun h0 => by show s.faults.tail = []; rw [h0]; rfl, rfl, rfl, rfl⟩

end Imageio.Conc

namespace Imageio.Live
open Imageio.Conc
open Imageio.Auth (upd upd_same upd_other)

variable {σ Γ τ : Type} {E : Env σ Γ τ} {s s' : Live σ Γ τ} {a : Act τ}

/-- What all steps of all programs keep: a property `F` of the backend objects, and a relation `R` of the images. -/
structure KeepsLaw (E : Env σ Γ τ) (F : σ → Prop) (R : Γ → Γ → Prop) (T : σ → σ → Prop) : Prop where
  prog : KeepsBackend T E.PB
  fine : ∀ s s', T s s' → F s → F s'
  view : ∀ s g, F (E.M.view s g) ↔ F s
  shared : ∀ s g, E.M.shared (E.M.view s g) = g
  look : ∀ q s, F s → F (Query.after E.B s q)
  opened : F E.opened
  image : ∀ s s', T s s' → R (E.M.shared s) (E.M.shared s')
  refl : ∀ g, R g g
  trans : ∀ a b c, R a b → R b c → R a c

/-- The programs, and the backend objects. -/
structure KInv (F : σ → Prop) (T : σ → σ → Prop) (s : Live σ Γ τ) : Prop where
  prog : ∀ c, Keeps T (s.prog c)
  fine : ∀ k, F (s.loc k)

theorem KInv.open_ {F : σ → Prop} {R : Γ → Γ → Prop} {T : σ → σ → Prop} (law : KeepsLaw E F R T) (h : KInv F T s) (t : Auth.State) (k : Nat) :
    F ((Live.open_ E s t).loc k) := by
  show F ((if t.nextCtx = s.auth.nextCtx then s.loc else upd s.loc s.auth.nextCtx E.opened) k)
  split
  · exact h.fine k
  · by_cases hk : k = s.auth.nextCtx
    · subst hk; rw [upd_same]; exact law.opened
    · rw [upd_other _ _ hk]; exact h.fine k

theorem KInv.moves {F : σ → Prop} {R : Γ → Γ → Prop} {T : σ → σ → Prop} (law : KeepsLaw E F R T) (h : KInv F T s) (hm : Moves E s a s') :
    KInv F T s' ∧ ∀ u, R (s.mem u) (s'.mem u) := by
  cases hm with
  | call c j r i k f next hj hp hf =>
    have hk := h.prog c
    rw [hf] at hk
    obtain ⟨hT, hn⟩ := hk (E.M.view (s.loc k) (s.mem (s.url (s.auth.ctxs k).ticket)))
    refine ⟨⟨fun c0 => ?_, fun k0 => ?_⟩, fun u => ?_⟩
    · show Keeps T (upd s.prog c _ c0)
      by_cases hc : c0 = c
      · subst hc; rw [upd_same]; exact hn
      · rw [upd_other _ _ hc]; exact h.prog c0
    · show F (upd s.loc k _ k0)
      by_cases hc : k0 = k
      · subst hc; rw [upd_same]; exact law.fine _ _ hT ((law.view _ _).mpr (h.fine k0))
      · rw [upd_other _ _ hc]; exact h.fine k0
    · show R (s.mem u) (upd s.mem _ _ u)
      by_cases hc : u = s.url (s.auth.ctxs k).ticket
      · subst hc; rw [upd_same]
        have := law.image _ _ hT
        rwa [law.shared] at this
      · rw [upd_other _ _ hc]; exact law.refl _
  | start c j r k t hj hp ht hs hi =>
    refine ⟨⟨fun c0 => ?_, h.open_ law t⟩, fun u => law.refl _⟩
    show Keeps T (upd s.prog c _ c0)
    by_cases hc : c0 = c
    · subst hc; rw [upd_same]; exact keeps_job law.prog _ _
    · rw [upd_other _ _ hc]; exact h.prog c0
  | finish c j r i k t hj hp ht => exact ⟨⟨h.prog, h.open_ law t⟩, fun u => law.refl _⟩
  | add attrs url t ht => exact ⟨⟨h.prog, h.fine⟩, fun u => law.refl _⟩
  | refused c id j t ht hi => exact ⟨⟨h.prog, h.fine⟩, fun u => law.refl _⟩
  | request c id j t ht hi => exact ⟨⟨h.prog, h.fine⟩, fun u => law.refl _⟩
  | drop b c t ht ha hr hc hi => exact ⟨⟨h.prog, h.open_ law t⟩, fun u => law.refl _⟩
  | other b t ht ha hc => exact ⟨⟨h.prog, h.open_ law t⟩, fun u => law.refl _⟩
  | look c r i k q hj hp =>
    refine ⟨⟨h.prog, fun k0 => ?_⟩, fun u => law.refl _⟩
    show F (upd s.loc k _ k0)
    by_cases hc : k0 = k
    · subst hc; rw [upd_same]; exact law.look _ _ ((law.view _ _).mpr (h.fine k0))
    · rw [upd_other _ _ hc]; exact h.fine k0

theorem kinv_start {F : σ → Prop} {R : Γ → Γ → Prop} {T : σ → σ → Prop} (law : KeepsLaw E F R T) (mem : Http.Str → Γ) : KInv F T (start E mem) :=
  ⟨fun _ => trivial, fun _ => law.opened⟩

theorem kinv_run {F : σ → Prop} {R : Γ → Γ → Prop} {T : σ → σ → Prop} (law : KeepsLaw E F R T) (h : KInv F T s) {as : List (Act τ)}
    (hr : run E s as = some s') : KInv F T s' ∧ ∀ u, R (s.mem u) (s'.mem u) := by
  induction as generalizing s with
  | nil => cases hr; exact ⟨h, fun u => law.refl _⟩
  | cons a as ih =>
    simp only [run] at hr
    split at hr
    · cases hr
    · rename_i z hz
      obtain ⟨h1, h2⟩ := h.moves law (step_moves hz)
      obtain ⟨h3, h4⟩ := ih h1 hr
      exact ⟨h3, fun u => law.trans _ _ _ (h2 u) (h4 u)⟩

/-- Files and block devices. -/
theorem file_keeps (env : File.Env) (S : Source τ) (cfg : Auth.Config) (o : File.State) (h : o.faults = []) :
    KeepsLaw (E := ⟨fileMachine, fileP env, S, cfg, o, File.backend env⟩) (fun s => s.faults = [])
      (fun g g' => env.isBlock = true ∨ env.sparse = false → g.1.length ≤ g'.1.length) (FileKeeps (env.isBlock = true ∨ env.sparse = false)) where
  prog := keeps_file env
  fine _ _ hT := hT.1
  view _ _ := Iff.rfl
  shared _ _ := rfl
  look q s hs := by
    cases q with
    | seek n => exact hs
    | tell => exact hs
    | readinto n => exact (fioReadinto_keeps (g := False) env n s).1 hs
  opened := h
  image _ _ hT := hT.2
  refl _ _ := Nat.le_refl _
  trans _ _ _ h1 h2 hg := Nat.le_trans (h1 hg) (h2 hg)

/-- NBD. -/
theorem nbd_keeps (bs : Nat) (S : Source τ) (cfg : Auth.Config) (o : NbdBackend.State) (h : o.faults = []) (hb : o.bs = bs) (hm : o.mode.readable = true) :
    KeepsLaw (E := ⟨nbdMachine, nbdP bs, S, cfg, o, NbdBackend.backend bs⟩) (fun s => s.faults = [] ∧ s.bs = bs ∧ s.mode.readable = true)
      (fun g g' => g'.1.length = g.1.length) NbdKeeps where
  prog := keeps_nbd bs
  fine _ _ hT hs := ⟨hT.1 hs.1, hT.2.2.1.trans hs.2.1, by rw [hT.2.2.2]; exact hs.2.2⟩
  view _ _ := Iff.rfl
  shared _ _ := rfl
  look q s hs := by
    cases q with
    | seek n => exact hs
    | tell => exact hs
    | readinto n =>
      have hT := nbdReadinto_keeps n s
      exact ⟨hT.1 hs.1, hT.2.2.1.trans hs.2.1, by rw [show (Query.after (NbdBackend.backend bs) s (.readinto n)).mode = s.mode from hT.2.2.2]; exact hs.2.2⟩
  opened := ⟨h, hb, hm⟩
  image _ _ hT := hT.2.1
  refl _ := rfl
  trans _ _ _ h1 h2 := h2.trans h1

end Imageio.Live

namespace Imageio.LiveRead
open Imageio.Conc Imageio.Live Imageio.Props Imageio.Spec Imageio.Spec.LiveRead

variable {σ Γ τ : Type} {E : Env σ Γ τ} {s : Sys σ Γ τ}

theorem sinv_run {F : σ → Prop} {R : Γ → Γ → Prop} {T : σ → σ → Prop} (L : SureLaw E.M E.B) (law : KeepsLaw E F R T) (hF : ∀ s, F s → L.fine s)
    {mem : Http.Str → Γ} {acts : List (Act τ)} (h : run E (start E mem) acts = some s) : SInv E L mem acts s := by
  refine (run_induction (P := SInv E L mem) ⟨fun _ _ h => (by cases h), fun _ h => (by cases h)⟩ (fun as a x y hr hb hp hm => ?_) h).1
  obtain ⟨bs, hbs, -⟩ := run_live (base_start E mem) hr
  exact SInv.moves hr hb (rinv_run _ hr) (fun k => hF _ ((kinv_run law (kinv_start law mem) hbs).1.fine k)) hp hm

end Imageio.LiveRead
