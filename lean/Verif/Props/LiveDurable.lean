import Verif.Lemmas.LiveDurable
import Verif.Props.Live
/-!
What survives a crash of the host, while operations of many connections interleave (C85).
-/
namespace Imageio.Props
open Imageio.Conc Imageio.Spec Imageio.Spec.Live Imageio.Live

/-! ## Specification -/

/-- All the operations that run and have bytes in the block of `x` of the image `u` are of the connection `c`. -/
def OnlyBy {σ Γ τ : Type} (bs : Nat) (c : Nat) (s : Live σ Γ τ) (u : Http.Str) (x : Nat) : Prop :=
  ∀ c' j r y, Active s c' j r → s.url r = u → InRange j.offset j.size y → x / bs = y / bs → c' = c

/-- In all the states from `s` on. -/
def Since {σ Γ τ : Type} (E : Env σ Γ τ) (s : Live σ Γ τ) (acts : List (Act τ)) (P : Live σ Γ τ → Prop) : Prop :=
  ∀ pre post t, acts = pre ++ post → Live.run E s pre = some t → P t

/-- The byte `x` of the image is durable: a crash of the host does not change what a reader gets. -/
def Safe (g : Bytes × Bytes) (x : Nat) : Prop := byteAt g.2 x = byteAt g.1 x

/-! ## Helpers -/

section
variable {σ Γ τ : Type} {E : Env σ Γ τ} {mem : Http.Str → Γ} {R : LawfulSource E.S}

theorem ended_durable {L : Law E R} (D : Durability L) (hG : ∀ u, L.invG u (mem u)) {pre post : List (Act τ)} {s0 s s' : Live σ Γ τ} {a : Act τ}
    (hr0 : Live.run E (start E mem) pre = some s0) (hr : Live.run E s0 post = some s) (hf : Throughout E mem (pre ++ post) (Fine L))
    (hs : step E s a = some s') {d : Done τ} (hd : s'.ended = s.ended ++ [d]) (ho : d.ok = true) (hfl : d.job.flush = true)
    (h0 : s0.pending d.con = none) (x : Nat) (hx : Since E s0 post fun t => OnlyBy L.bs d.con t d.url x) :
    D.dur (s'.mem d.url) x = L.content (s'.mem d.url) x := by
  have hrs : Live.run E (start E mem) (pre ++ post) = some s := by rw [run_split, hr0]; exact hr
  have hf0 : Throughout E mem pre (Fine L) := fun p q t he ht => hf p (q ++ post) t (by rw [he, List.append_assoc]) ht
  have w := run_wf hrs
  have hy0 := synced_run D hG hr0 hf0
  have hy : Synced L D (fun c u y => c = d.con ∧ u = d.url ∧ y = x) s := by
    refine synced_more D hG post pre s0 s hr0 hr hf ⟨hy0.loc, hy0.syncing, fun c j r i k h hj => ?_⟩ ?_
    · rcases hy0.flushed c j r i k h hj with h' | ⟨h', hq⟩
      · exact .inl h'
      · refine .inr ⟨h', fun y hy => ?_⟩
        rcases hy with hy | ⟨rfl, -, -⟩
        · exact hq y (.inl hy)
        · rw [h.1] at h0; cases h0
    · rintro mid rest t he ht c c' j r i k y hr' ⟨rfl, hu, rfl⟩ ⟨z, hz, hzx⟩
      exact hx mid rest t he ht c' j r z hr'.active hu hz hzx
  exact hy.ended w ((step_moves hs).kind w) hd ho hfl x (.inr ⟨rfl, rfl, rfl⟩)

theorem own_durable {L : Law E R} (D : Durability L) (hG : ∀ u, L.invG u (mem u)) {acts : List (Act τ)} {s s' : Live σ Γ τ} {a : Act τ}
    (hr : Live.run E (start E mem) acts = some s) (hf : Throughout E mem acts (Fine L))
    (hs : step E s a = some s') {d : Done τ} (hd : s'.ended = s.ended ++ [d]) (ho : d.ok = true) (hfl : d.job.flush = true)
    (x y : Nat) (hx : InRange d.job.offset d.job.size y) (he : x / L.bs = y / L.bs) :
    D.dur (s'.mem d.url) x = L.content (s'.mem d.url) x := by
  have w := run_wf hr
  exact (synced_run D hG hr hf).ended w ((step_moves hs).kind w) hd ho hfl x (.inl ⟨y, hx, he⟩)

/-- The last operation that has a byte `x`, when it ends. -/
theorem last_append {u : Http.Str} {x : Nat} {ended : List (Done τ)} {d : Done τ} (hu : d.url = u) (hx : InRange d.job.offset d.job.size x) :
    last u x (ended ++ [d]) = some d := by
  unfold last
  have : decide (d.url = u ∧ d.job.offset ≤ x ∧ x < d.job.offset + d.job.size) = true := by
    unfold InRange at hx; simp [hu, hx.1, hx.2]
  have h1 : [d].filter (fun d => decide (d.url = u ∧ d.job.offset ≤ x ∧ x < d.job.offset + d.job.size)) = [d] :=
    List.filter_eq_self.mpr fun e he => by rw [List.mem_singleton.mp he]; exact this
  rw [List.filter_append, h1, List.getLast?_append, List.getLast?_singleton]
  rfl

theorem run_snoc {s0 s s' : Live σ Γ τ} {as : List (Act τ)} {a : Act τ} (hr : Live.run E s0 as = some s) (hs : step E s a = some s') :
    Live.run E s0 (as ++ [a]) = some s' := by
  rw [run_split, hr]; simp only [Option.bind_some, Live.run, hs]

/-- From the end of an upload on, while nobody changes its block. -/
theorem kept_durable {L : Law E R} (D : Durability L) (hG : ∀ u, L.invG u (mem u)) {pre post : List (Act τ)} {s s' s2 : Live σ Γ τ} {a : Act τ}
    (hr : Live.run E (start E mem) pre = some s) (hs : step E s a = some s') (hr2 : Live.run E s' post = some s2)
    (hf : Throughout E mem (pre ++ [a] ++ post) (Fine L)) {d : Done τ} (hd : s'.ended = s.ended ++ [d]) (ho : d.ok = true)
    (hfl : d.job.flush = true) (x : Nat) (hx : InRange d.job.offset d.job.size x)
    (hq : Since E s' post fun t => Settled L.bs t d.url x) :
    (wantedBytes R d.job).length = d.job.size ∧ D.dur (s2.mem d.url) x = byteAt (wantedBytes R d.job) (x - d.job.offset) ∧
      L.content (s2.mem d.url) x = byteAt (wantedBytes R d.job) (x - d.job.offset) := by
  have hf1 : Throughout E mem (pre ++ [a]) (Fine L) := fun p q t he ht => hf p (q ++ post) t (by rw [he, List.append_assoc]) ht
  have hf0 : Throughout E mem pre (Fine L) := fun p q t he ht => hf1 p (q ++ [a]) t (by rw [he, List.append_assoc]) ht
  have hr1 := run_snoc hr hs
  have h1 := own_durable D hG hr hf0 hs hd ho hfl x x hx rfl
  have h2 := law_disk L hG hr1 hf1 d.url x (hq [] post s' rfl rfl)
  unfold Explained at h2
  rw [hd, last_append rfl hx] at h2
  obtain ⟨h3, h4⟩ := h2 ho
  obtain ⟨h5, h6⟩ := durable_stays D hG post (pre ++ [a]) s' s2 hr1 hr2 hf
    (fun mid rest t he ht c j r i k hr' hu => settled_near (hq mid rest t he ht) hr' hu) h1
  exact ⟨h3, by rw [h5, h6, h4], by rw [h6, h4]⟩

end

/-! ## C85: files -/

section
variable {τ : Type} {S : Source τ} {env : File.Env} {R : LawfulSource S} {cfg : Auth.Config} {opened : File.State}
  {mem : Http.Str → Bytes × Bytes} {pre post : List (Act τ)} {s0 s s' s2 : Live File.State (Bytes × Bytes) τ} {a : Act τ} {d : Done τ}

/-- C85: an upload, or zeroing, that flushes and is answered with success: from the end of the operation on, and as long as no operation has bytes in the
block, its bytes are what the request had to store, on the storage and also after a crash of the host.  Whatever the other connections did in between,
call by call, with any images and tickets. -/
theorem C85_file_kept (hb : 0 < env.bs) (hblk : env.isBlock = true → ∀ u, (mem u).1.length % env.bs = 0)
    (hr : Live.run (fileEnv env S cfg opened) (start (fileEnv env S cfg opened) mem) pre = some s)
    (hs : step (fileEnv env S cfg opened) s a = some s') (hr2 : Live.run (fileEnv env S cfg opened) s' post = some s2)
    (hap : Throughout (fileEnv env S cfg opened) mem (pre ++ [a] ++ post) (Apart env.bs))
    (hok : Throughout (fileEnv env S cfg opened) mem (pre ++ [a] ++ post) (FileRequests env R mem))
    (hd : s'.ended = s.ended ++ [d]) (ho : d.ok = true) (hfl : d.job.flush = true) (x : Nat) (hx : InRange d.job.offset d.job.size x)
    (hq : Since (fileEnv env S cfg opened) s' post fun t => Settled env.bs t d.url x) :
    (wantedBytes R d.job).length = d.job.size ∧ byteAt (s2.mem d.url).2 x = byteAt (wantedBytes R d.job) (x - d.job.offset) ∧
      byteAt (s2.mem d.url).1 x = byteAt (wantedBytes R d.job) (x - d.job.offset) := by
  obtain ⟨L, h1, h2, h3, h4, -⟩ := file_law hb hblk hap hok False (fun h => h.elim)
  have := kept_durable (fileDurability L h2) h3 hr hs hr2 h4 hd ho hfl x hx (by rw [h1]; exact hq)
  rw [h2] at this
  exact this

/-- C85: when an operation that flushes is answered with success, everything in the image is durable that no other connection changed since the connection was
asked for it: also what other requests wrote before, without a flush. -/
theorem C85_file_flush (hb : 0 < env.bs) (hblk : env.isBlock = true → ∀ u, (mem u).1.length % env.bs = 0)
    (hr0 : Live.run (fileEnv env S cfg opened) (start (fileEnv env S cfg opened) mem) pre = some s0)
    (hr : Live.run (fileEnv env S cfg opened) s0 post = some s)
    (hap : Throughout (fileEnv env S cfg opened) mem (pre ++ post) (Apart env.bs))
    (hok : Throughout (fileEnv env S cfg opened) mem (pre ++ post) (FileRequests env R mem))
    (hs : step (fileEnv env S cfg opened) s a = some s') (hd : s'.ended = s.ended ++ [d]) (ho : d.ok = true) (hfl : d.job.flush = true)
    (h0 : s0.pending d.con = none) (x : Nat) (hx : Since (fileEnv env S cfg opened) s0 post fun t => OnlyBy env.bs d.con t d.url x) :
    Safe (s'.mem d.url) x := by
  obtain ⟨L, h1, h2, h3, h4, -⟩ := file_law hb hblk hap hok False (fun h => h.elim)
  have := ended_durable (fileDurability L h2) h3 hr0 hr h4 hs hd ho hfl h0 x (by rw [h1]; exact hx)
  rw [h2] at this
  exact this

/-- C85: what is durable stays durable, with the same bytes, as long as no operation has bytes in its block: neither the other operations nor the end of
any operation change it. -/
theorem C85_file_stays (hb : 0 < env.bs) (hblk : env.isBlock = true → ∀ u, (mem u).1.length % env.bs = 0)
    (hr0 : Live.run (fileEnv env S cfg opened) (start (fileEnv env S cfg opened) mem) pre = some s0)
    (hr : Live.run (fileEnv env S cfg opened) s0 post = some s)
    (hap : Throughout (fileEnv env S cfg opened) mem (pre ++ post) (Apart env.bs))
    (hok : Throughout (fileEnv env S cfg opened) mem (pre ++ post) (FileRequests env R mem))
    (u : Http.Str) (x : Nat) (hx : Since (fileEnv env S cfg opened) s0 post fun t => Settled env.bs t u x) (h : Safe (s0.mem u) x) :
    byteAt (s.mem u).2 x = byteAt (s0.mem u).2 x ∧ Safe (s.mem u) x := by
  obtain ⟨L, h1, h2, h3, h4, -⟩ := file_law hb hblk hap hok False (fun h => h.elim)
  have := durable_stays (fileDurability L h2) h3 (u := u) (x := x) post pre s0 s hr0 hr h4
    (fun mid rest t he ht c j r i k hr' hu => settled_near (by rw [h1]; exact hx mid rest t he ht) hr' hu) (by rw [h2]; exact h)
  rw [h2] at this
  exact ⟨this.1.trans (this.2.trans h.symm), this.1⟩

end

/-! ## C85: NBD -/

section
variable {τ : Type} {S : Source τ} {bs : Nat} {R : LawfulSource S} {cfg : Auth.Config} {opened : NbdBackend.State}
  {mem : Http.Str → Bytes × Bytes} {pre post : List (Act τ)} {s0 s s' s2 : Live NbdBackend.State (Bytes × Bytes) τ} {a : Act τ} {d : Done τ}

/-- C85: the same with NBD servers that announce flush. -/
theorem C85_nbd_kept (hb : 0 < bs) (hc : opened.bs = bs ∧ opened.canFlush = true)
    (hr : Live.run (nbdEnv bs S cfg opened) (start (nbdEnv bs S cfg opened) mem) pre = some s)
    (hs : step (nbdEnv bs S cfg opened) s a = some s') (hr2 : Live.run (nbdEnv bs S cfg opened) s' post = some s2)
    (hap : Throughout (nbdEnv bs S cfg opened) mem (pre ++ [a] ++ post) (Apart bs))
    (hok : Throughout (nbdEnv bs S cfg opened) mem (pre ++ [a] ++ post) fun s => ∀ c j r, Active s c j r → Sensible bs R j)
    (hd : s'.ended = s.ended ++ [d]) (ho : d.ok = true) (hfl : d.job.flush = true) (x : Nat) (hx : InRange d.job.offset d.job.size x)
    (hq : Since (nbdEnv bs S cfg opened) s' post fun t => Settled bs t d.url x) :
    (wantedBytes R d.job).length = d.job.size ∧ byteAt (s2.mem d.url).2 x = byteAt (wantedBytes R d.job) (x - d.job.offset) ∧
      byteAt (s2.mem d.url).1 x = byteAt (wantedBytes R d.job) (x - d.job.offset) :=
  let L := nbdLaw bs hb R cfg opened (fun u => (mem u).1.length) False (fun h => h.elim) hc (fun h => h.elim)
  kept_durable (L := L) (nbdDurability L rfl hc.2) (fun _ => rfl) hr hs hr2
    (throughout_imp (throughout_and hap hok) fun _ h => ⟨h.1, h.2⟩) hd ho hfl x hx hq

/-- C85: the same with NBD servers that announce flush. -/
theorem C85_nbd_flush (hb : 0 < bs) (hc : opened.bs = bs ∧ opened.canFlush = true)
    (hr0 : Live.run (nbdEnv bs S cfg opened) (start (nbdEnv bs S cfg opened) mem) pre = some s0)
    (hr : Live.run (nbdEnv bs S cfg opened) s0 post = some s)
    (hap : Throughout (nbdEnv bs S cfg opened) mem (pre ++ post) (Apart bs))
    (hok : Throughout (nbdEnv bs S cfg opened) mem (pre ++ post) fun s => ∀ c j r, Active s c j r → Sensible bs R j)
    (hs : step (nbdEnv bs S cfg opened) s a = some s') (hd : s'.ended = s.ended ++ [d]) (ho : d.ok = true) (hfl : d.job.flush = true)
    (h0 : s0.pending d.con = none) (x : Nat) (hx : Since (nbdEnv bs S cfg opened) s0 post fun t => OnlyBy bs d.con t d.url x) :
    Safe (s'.mem d.url) x :=
  let L := nbdLaw bs hb R cfg opened (fun u => (mem u).1.length) False (fun h => h.elim) hc (fun h => h.elim)
  ended_durable (L := L) (nbdDurability L rfl hc.2) (fun _ => rfl) hr0 hr
    (throughout_imp (throughout_and hap hok) fun _ h => ⟨h.1, h.2⟩) hs hd ho hfl h0 x hx

/-- C85: the same with NBD servers that announce flush. -/
theorem C85_nbd_stays (hb : 0 < bs) (hc : opened.bs = bs ∧ opened.canFlush = true)
    (hr0 : Live.run (nbdEnv bs S cfg opened) (start (nbdEnv bs S cfg opened) mem) pre = some s0)
    (hr : Live.run (nbdEnv bs S cfg opened) s0 post = some s)
    (hap : Throughout (nbdEnv bs S cfg opened) mem (pre ++ post) (Apart bs))
    (hok : Throughout (nbdEnv bs S cfg opened) mem (pre ++ post) fun s => ∀ c j r, Active s c j r → Sensible bs R j)
    (u : Http.Str) (x : Nat) (hx : Since (nbdEnv bs S cfg opened) s0 post fun t => Settled bs t u x) (h : Safe (s0.mem u) x) :
    byteAt (s.mem u).2 x = byteAt (s0.mem u).2 x ∧ Safe (s.mem u) x := by
  let L := nbdLaw bs hb R cfg opened (fun u => (mem u).1.length) False (fun h => h.elim) hc (fun h => h.elim)
  have := durable_stays (L := L) (nbdDurability L rfl hc.2) (fun _ => rfl) (u := u) (x := x) post pre s0 s hr0 hr
    (throughout_imp (throughout_and hap hok) fun _ h => ⟨h.1, h.2⟩)
    (fun mid rest t he ht c j r i k hr' hu => settled_near (hx mid rest t he ht) hr' hu) h
  exact ⟨this.1.trans (this.2.trans h.symm), this.1⟩

end

/-! ## Examples -/

namespace LiveEx

/-- An upload that does not flush, to its end. -/
def unflushed : List (Act Bytes) :=
  [.add ⟨"t", 8, ["write"], 300⟩ url, .add ⟨"v", 8, ["write"], 300⟩ url] ++ begins 1 "t" { putJob 1 [1, 2] with flush := false } ++
    List.replicate 6 (.call 1) ++ ends 1

/-- Then another connection, with another ticket, flushes. -/
def flushes : List (Act Bytes) := begins 2 "v" (flushJob []) ++ List.replicate 2 (.call 2) ++ [.auth (.endOp 2)]

end LiveEx

/-- After the upload nothing is durable, after the flush everything is. -/
example : ((Live.run (LiveEx.E 60) (start (LiveEx.E 60) LiveEx.mem) LiveEx.unflushed).map fun s =>
      (s.ended.map LiveEx.seen, (s.mem LiveEx.url).1, (s.mem LiveEx.url).2)) = some ([(1, 0, true)], [7, 1, 2, 7, 7, 7, 7, 7], []) ∧
    ((Live.run (LiveEx.E 60) (start (LiveEx.E 60) LiveEx.mem) (LiveEx.unflushed ++ LiveEx.flushes ++ [.auth (.removeOp 2)])).map fun s =>
      (s.ended.map LiveEx.seen, (s.mem LiveEx.url).1, (s.mem LiveEx.url).2)) =
      some ([(1, 0, true), (2, 1, true)], [7, 1, 2, 7, 7, 7, 7, 7], [7, 1, 2, 7, 7, 7, 7, 7]) := ⟨by decide +kernel, by decide +kernel⟩

/-- The hypotheses of `C85_file_flush` hold for it, for all bytes of the image. -/
example : ∃ s s' d, Live.run (LiveEx.E 60) (start (LiveEx.E 60) LiveEx.mem) (LiveEx.unflushed ++ LiveEx.flushes) = some s ∧
    step (LiveEx.E 60) s (.auth (.removeOp 2)) = some s' ∧ s'.ended = s.ended ++ [d] ∧ d.url = LiveEx.url ∧ d.job.offset = 0 ∧ d.job.size = 0 ∧
    ∀ x, Safe (s'.mem LiveEx.url) x := by
  let s0 := LiveEx.after (LiveEx.E 60) (start (LiveEx.E 60) LiveEx.mem) LiveEx.unflushed
  let s := LiveEx.after (LiveEx.E 60) s0 LiveEx.flushes
  let s' := LiveEx.after (LiveEx.E 60) s [.auth (.removeOp 2)]
  have hr0 : Live.run (LiveEx.E 60) (start (LiveEx.E 60) LiveEx.mem) LiveEx.unflushed = some s0 := LiveEx.run_after (by decide +kernel)
  have hr : Live.run (LiveEx.E 60) s0 LiveEx.flushes = some s := LiveEx.run_after (by decide +kernel)
  have h : Live.run (LiveEx.E 60) s [.auth (.removeOp 2)] = some s' := LiveEx.run_after (by decide +kernel)
  have hs : step (LiveEx.E 60) s (.auth (.removeOp 2)) = some s' := by
    simp only [Live.run] at h
    cases h1 : step (LiveEx.E 60) s (.auth (.removeOp 2)) with
    | none => rw [h1] at h; cases h
    | some x => rw [h1] at h; exact h
  have hm : ∀ c id j, Act.request c id j ∈ LiveEx.unflushed ++ LiveEx.flushes →
      (c = 1 ∧ j = { putJob 1 [1, 2] with flush := false }) ∨ (c = 2 ∧ j = flushJob []) := by
    intro c id j h
    simp only [LiveEx.unflushed, LiveEx.flushes, LiveEx.begins, LiveEx.ends, List.replicate,
      List.mem_append, List.mem_cons, List.not_mem_nil, or_false, reduceCtorEq, false_or, Act.request.injEq] at h
    rcases h with ⟨h1, _, h3⟩ | ⟨h1, _, h3⟩
    · exact .inl ⟨h1, h3⟩
    · exact .inr ⟨h1, h3⟩
  have hm2 : ∀ c id j, Act.request c id j ∈ LiveEx.flushes → c = 2 := by
    intro c id j h
    simp only [LiveEx.flushes, LiveEx.begins, List.replicate,
      List.mem_append, List.mem_cons, List.not_mem_nil, or_false, reduceCtorEq, Act.request.injEq] at h
    exact h.1
  have hap : Throughout (LiveEx.E 60) LiveEx.mem (LiveEx.unflushed ++ LiveEx.flushes) (Apart dev.bs) := by
    refine requests_apart ?_
    intro c c' id id' j j' x y h1 h2 hx hy he
    unfold InRange at hx hy
    rcases hm c id j h1 with ⟨rfl, rfl⟩ | ⟨rfl, rfl⟩ <;> rcases hm c' id' j' h2 with ⟨rfl, rfl⟩ | ⟨rfl, rfl⟩ <;>
      simp only [flushJob] at hx hy <;> first | rfl | omega
  have hok : Throughout (LiveEx.E 60) LiveEx.mem (LiveEx.unflushed ++ LiveEx.flushes) (FileRequests dev wholeBodyLaw LiveEx.mem) := by
    refine throughout_imp (requests_all (P := fun j => Sensible dev.bs wholeBodyLaw j) fun c id j h => ?_) fun s h c j r ha =>
      ⟨h c j r ha, fun _ => .inl rfl⟩
    rcases hm c id j h with ⟨rfl, rfl⟩ | ⟨rfl, rfl⟩
    · exact fun _ => ⟨by decide, by decide, trivial⟩
    · exact fun h => by cases h
  have hp1 : s0.pending 1 = none := by
    have : (s0.pending 1).isNone = true := by decide +kernel
    exact Option.isNone_iff_eq_none.mp this
  have hp2 : s0.pending 2 = none := by
    have : (s0.pending 2).isNone = true := by decide +kernel
    exact Option.isNone_iff_eq_none.mp this
  have only : ∀ u x, Since (LiveEx.E 60) s0 LiveEx.flushes fun t => OnlyBy dev.bs 2 t u x := by
    intro u x mid rest t he ht c j r y ha _ _ _
    rcases pending_since mid s0 t ht ha.1 with h | ⟨id, h⟩
    · obtain ⟨id, h'⟩ := pending_requested hr0 h
      rcases hm c id j (by simp [h']) with ⟨rfl, -⟩ | ⟨rfl, -⟩
      · rw [hp1] at h; cases h
      · rfl
    · exact hm2 c id j (by rw [he]; simp [h])
  have he : (s'.ended.getLast?.map fun d => (d.con, d.url, d.ok, d.job.flush, d.job.offset, d.job.size)) =
      some (2, LiveEx.url, true, true, 0, 0) := by decide +kernel
  have he0 : s.ended.length = 1 := by decide +kernel
  have hmem : ∃ e, s'.ended = s.ended ++ [e] := by
    have hk := (step_moves hs).kind (run_wf (by rw [run_split, hr0]; exact hr : Live.run (LiveEx.E 60) (start (LiveEx.E 60) LiveEx.mem)
      (LiveEx.unflushed ++ LiveEx.flushes) = some s))
    have hl : s'.ended.length = 2 := by decide +kernel
    cases hk with
    | start c j r k _ _ hn hc hr hm hp he hu hl' hk => rw [he, he0] at hl; cases hl
    | quiet _ _ q => rw [q.ended, he0] at hl; cases hl
    | finish c j r i k _ _ ok x' hr hx' hr' hm hp hu hl he hok hbad => exact ⟨_, he⟩
  obtain ⟨d, hd⟩ := hmem
  rw [hd, List.getLast?_append, List.getLast?_singleton] at he
  obtain ⟨e1, e2, e3, e4, e5, e6⟩ : d.con = 2 ∧ d.url = LiveEx.url ∧ d.ok = true ∧ d.job.flush = true ∧ d.job.offset = 0 ∧ d.job.size = 0 := by
    simpa using he
  refine ⟨s, s', d, by rw [run_split, hr0]; exact hr, hs, hd, e2, e5, e6, fun x => ?_⟩
  rw [← e2]
  exact C85_file_flush (by decide) (fun _ u => by show 8 % 4 = 0; rfl) hr0 hr hap hok hs hd e3 e4 (by rw [e1]; exact hp2) x (by rw [e1]; exact only _ _)

/-- Two uploads with flush to neighbouring bytes of an NBD server, call by call (the hypotheses are checked in `Props/Live.lean`): when the first ended its
bytes are durable. -/
example : ((Live.run LiveEx.N (start LiveEx.N LiveEx.mem) LiveEx.neighbours).map fun s =>
      (s.ended.map LiveEx.seen, (s.mem LiveEx.url).1, (s.mem LiveEx.url).2)) =
    some ([(1, 0, true), (2, 1, true)], [1, 1, 2, 2, 7, 7, 7, 7], [1, 1, 2, 2, 7, 7, 7, 7]) := by decide +kernel

end Imageio.Props
