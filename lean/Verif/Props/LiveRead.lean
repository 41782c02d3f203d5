import Verif.Lemmas.LiveReadInv
import Verif.Props.Live
/-!
Downloads while the images change, call by call (C84).
-/
namespace Imageio.Props
open Imageio.Conc Imageio.Spec Imageio.Spec.Live Imageio.Spec.LiveRead Imageio.Live

/-! ## Helpers -/

section
variable {σ Γ τ : Type} {E : Env σ Γ τ} {mem : Http.Str → Γ} {s s' : LiveRead.Sys σ Γ τ} {a : LiveRead.Act τ}

/-- An execution of the server with downloads is one of the server of C83. -/
theorem lower_run {acts : List (LiveRead.Act τ)} (hr : LiveRead.run E (LiveRead.start E mem) acts = some s) {P : Live σ Γ τ → Prop}
    (hp : Always E mem acts P) : ∃ bs, Live.run E (Live.start E mem) bs = some s.live ∧ Throughout E mem bs P := by
  obtain ⟨bs, h1, h2⟩ := LiveRead.run_live (LiveRead.base_start E mem) hr
  refine ⟨bs, h1, fun pre post t he ht => ?_⟩
  obtain ⟨pre', post', t', e1, e2, rfl⟩ := h2 pre post t he ht
  exact hp pre' post' t' e1 e2

theorem always_prefix {pre post : List (LiveRead.Act τ)} {P : Live σ Γ τ → Prop} (h : Always E mem (pre ++ post) P) : Always E mem pre P :=
  fun p q t he ht => h p (q ++ post) t (by rw [he, List.append_assoc]) ht

theorem auth_nextOp {cfg : Auth.Config} {x y : Auth.State} {b : Auth.Act} (h : Auth.Step cfg x b y) : x.nextOp ≤ y.nextOp := by
  cases h
  all_goals first
    | exact Nat.le_refl _
    | exact Nat.le_succ _
    | exact Nat.le_of_eq (Auth.closeAll_fields _ _).2.2.2.2.2.2.2.1.symm

theorem rmoves_nextOp (h : LiveRead.RMoves E s a s') : s.live.auth.nextOp ≤ s'.live.auth.nextOp := by
  obtain ⟨b, hb⟩ := h.live
  rcases (step_moves hb).auth with he | ⟨b, hb⟩
  · rw [he]; exact Nat.le_refl _
  · exact auth_nextOp (Auth.Step.of_step hb)

theorem run_nextOp (w : LiveRead.Base E s) {acts : List (LiveRead.Act τ)} (h : LiveRead.run E s acts = some s') :
    s.live.auth.nextOp ≤ s'.live.auth.nextOp := by
  induction acts generalizing s with
  | nil => cases h; exact Nat.le_refl _
  | cons a as ih =>
    simp only [LiveRead.run] at h
    split at h
    · cases h
    · rename_i z hz
      have hm := LiveRead.step_rmoves w hz
      exact Nat.le_trans (rmoves_nextOp hm) (ih (w.moves hm) h)

/-- Nothing changes a byte while no operation has bytes in its block. -/
theorem settled_still {R : LawfulSource E.S} (L : Law E R) (hG : ∀ u, L.invG u (mem u)) (u : Http.Str) (x : Nat) :
    ∀ (post pre : List (LiveRead.Act τ)) (s0 : LiveRead.Sys σ Γ τ), LiveRead.run E (LiveRead.start E mem) pre = some s0 →
      Always E mem (pre ++ post) (Fine L) →
      (∀ mid rest t, post = mid ++ rest → LiveRead.run E s0 mid = some t → Settled L.bs t.live u x) →
      ∀ mid rest t, post = mid ++ rest → LiveRead.run E s0 mid = some t → L.content (t.live.mem u) x = L.content (s0.live.mem u) x := by
  intro post
  induction post with
  | nil =>
    intro pre s0 hr _ _ mid rest t he ht
    obtain ⟨rfl, rfl⟩ := List.nil_eq_append_iff.mp he
    cases ht
    rfl
  | cons a as ih =>
    intro pre s0 hr hf hset mid rest t he ht
    cases mid with
    | nil => cases ht; rfl
    | cons m mid =>
      simp only [List.cons_append, List.cons.injEq] at he
      obtain ⟨rfl, he⟩ := he
      simp only [LiveRead.run] at ht
      split at ht
      · cases ht
      · rename_i z hz
        have w := LiveRead.run_base hr
        have hm := LiveRead.step_rmoves w hz
        have hrz : LiveRead.run E (LiveRead.start E mem) (pre ++ [a]) = some z := by
          rw [LiveRead.run_append, hr]
          simp only [Option.bind_some, LiveRead.run, hz]
        have h1 := ih (pre ++ [a]) z hrz (by rw [List.append_assoc]; exact hf)
          (fun mid' rest' t' he' ht' => hset (a :: mid') rest' t' (by rw [he']; rfl) (by simp only [LiveRead.run, hz, ht'])) mid rest t he ht
        rw [h1]
        obtain ⟨bs, hb1, hb2⟩ := lower_run hr (always_prefix hf)
        obtain ⟨b, hb⟩ := hm.live
        have h0 := hset [] (a :: as) s0 rfl rfl
        by_cases hx : L.content (z.live.mem u) x = L.content (s0.live.mem u) x
        · exact hx
        · obtain ⟨c, j, r, y, -, hact, hu, hy, hxy⟩ := law_blocks L hG hb1 hb2 hb u x hx
          exact absurd hxy (h0 c j r y hact hu hy)

/-- Bytes that nobody changed since before the download. -/
theorem download_still {R : LawfulSource E.S} (L : Law E R) (RL : LiveRead.ReadLaw E.M E.B) (hc : RL.content = L.content)
    (hG : ∀ u, L.invG u (mem u)) {pre post : List (LiveRead.Act τ)} {s0 s : LiveRead.Sys σ Γ τ}
    (hr0 : LiveRead.run E (LiveRead.start E mem) pre = some s0) (hr : LiveRead.run E s0 post = some s) (hf : Always E mem (pre ++ post) (Fine L))
    {d : LiveRead.Sent} (hd : d ∈ s.sent) (hn : 0 ≤ d.job.size) (hop : s0.live.auth.nextOp ≤ d.op) {i : Nat} (hi : i < d.out.length)
    (hset : ∀ mid rest t, post = mid ++ rest → LiveRead.run E s0 mid = some t → Settled L.bs t.live d.url (d.job.offset + i)) :
    byteAt d.out i = L.content (s0.live.mem d.url) (d.job.offset + i) ∧ byteAt d.out i = L.content (s.live.mem d.url) (d.job.offset + i) := by
  have hrs : LiveRead.run E (LiveRead.start E mem) (pre ++ post) = some s := by rw [LiveRead.run_append, hr0]; exact hr
  obtain ⟨p, q, t, he, ht, ⟨h1, k, h2⟩, hb⟩ := (((LiveRead.rinv_run RL.content hrs).sent d hd).bytes ⟨RL, rfl⟩ hn).1 i hi
  have wt := LiveRead.run_base ht
  have hlt : d.op < t.live.auth.nextOp := by
    obtain ⟨-, -, -, -, tk, htk, -, op, hop', hid⟩ := wt.wf.reach.inv.busy d.con d.ticket d.op k (by rw [h2]; rfl)
    have := wt.wf.reach.inv.opsLt _ _ _ htk hop'
    omega
  have still := settled_still L hG d.url (d.job.offset + i) post pre s0 hr0 hf hset
  have fin := still post [] s (by simp) hr
  rcases List.append_eq_append_iff.mp he with ⟨m, e1, e2⟩ | ⟨m, e1, e2⟩
  · subst e1
    rw [LiveRead.run_append, hr0] at ht
    have := still m q t e2 ht
    rw [hc, this] at hb
    exact ⟨hb.symm, by rw [fin]; exact hb.symm⟩
  · subst e1
    rw [LiveRead.run_append, ht] at hr0
    have := run_nextOp wt hr0
    omega

end

/-! ## C84: any storage -/

/-- C84: without other threads the calls are those of `ops.Read` (`C04`): the same result, the same bytes, the same backend after it. -/
theorem C84_refines {σ : Type} (B : Backend σ) (cancel sink : Nat → Bool) (buf : Bytes) (size : Int) (offset : Nat) (s : σ) :
    (LiveRead.readRun B.blockSize cancel sink buf size offset).run B s =
      ((Ops.readRun B cancel sink buf size offset s).1, (Ops.readRun B cancel sink buf size offset s).2.out,
        (Ops.readRun B cancel sink buf size offset s).2.src) :=
  LiveRead.run_readRun B cancel sink buf size offset s

/-- C84: the whole server with downloads is the server of C83: the theorems of C83 hold with downloads running. -/
theorem C84_projects {σ Γ τ : Type} {E : Env σ Γ τ} {mem : Http.Str → Γ} {acts : List (LiveRead.Act τ)} {s : LiveRead.Sys σ Γ τ}
    (hr : LiveRead.run E (LiveRead.start E mem) acts = some s) {P : Live σ Γ τ → Prop} (hp : Always E mem acts P) :
    ∃ bs, Live.run E (Live.start E mem) bs = some s.live ∧ Throughout E mem bs P := lower_run hr hp

/-- C84: a call of a download changes no image, no ticket, no connection, and nothing of an operation that changes an image. -/
theorem C84_reads_only {σ Γ τ : Type} {E : Env σ Γ τ} {s s' : LiveRead.Sys σ Γ τ} {c : Nat} (h : LiveRead.step E s (.read c) = some s') :
    s'.live.mem = s.live.mem ∧ s'.live.auth = s.live.auth ∧ s'.live.url = s.live.url ∧ s'.live.pending = s.live.pending ∧
      s'.live.prog = s.live.prog ∧ s'.live.ended = s.live.ended ∧ s'.sent = s.sent ∧ s'.reading = s.reading ∧
      ∀ c', c' ≠ c → s'.rprog c' = s.rprog c' := by
  unfold LiveRead.step at h
  simp only at h
  split at h
  · rename_i j r i k hj hp
    split at h
    · cases h
    · rename_i q p hq
      split at h
      · cases h
      · rename_i t ht
        cases h
        have e := LiveRead.look_eq ht hp
        subst e
        exact ⟨rfl, rfl, rfl, rfl, rfl, rfl, rfl, rfl, fun c' hc => Auth.upd_other _ _ hc⟩
  · cases h

/-- C84: the calls of `ops.Read` leave the data of a file and what is durable; so does an NBD server. -/
theorem C84_backends_keep (env : File.Env) (bs : Nat) (q : Query) (f : File.State) (n : NbdBackend.State) :
    fileMachine.shared (q.after (File.backend env) f) = fileMachine.shared f ∧
      nbdMachine.shared (q.after (NbdBackend.backend bs) n) = nbdMachine.shared n := by
  constructor
  · cases q with
    | seek m => rfl
    | tell => rfl
    | readinto m =>
      show fileMachine.shared (File.fioReadinto env f m).2 = _
      unfold File.fioReadinto File.sys
      split
      · simp only; split <;> rfl
      · simp only; split <;> rfl
      · rfl
  · cases q with
    | seek m => rfl
    | tell => rfl
    | readinto m =>
      show nbdMachine.shared (NbdBackend.readinto n m).2 = _
      unfold NbdBackend.readinto
      simp only
      have hq := nbd_request_same n n.pos (min m (n.export_.length - n.pos))
      generalize NbdBackend.request n n.pos (min m (n.export_.length - n.pos)) (fun _ s => s) = x at hq ⊢
      obtain ⟨x1, x2⟩ := x
      simp only at hq
      subst hq
      split
      · rfl
      · split
        · rfl
        · cases x1 <;> rfl

/-- C84: a download waits for nobody: while it is running it can do its calls up to the end, whatever the others are doing. -/
theorem C84_no_waiting {σ Γ τ : Type} {E : Env σ Γ τ} (s : LiveRead.Sys σ Γ τ) (c : Nat) (j : LiveRead.RJob) (r i k : Nat)
    (hj : s.reading c = some j) (hw : s.live.pending c = none) (hp : (s.live.auth.conns c).pc = .running r i k) :
    ∃ n s', LiveRead.run E s (List.replicate n (.read c)) = some s' ∧ LiveRead.returned (s'.rprog c) = true ∧ s'.live.auth = s.live.auth ∧
      s'.live.mem = s.live.mem := by
  generalize hq : s.rprog c = q
  have go : ∀ (s : LiveRead.Sys σ Γ τ) (qu : Query), s.reading c = some j → s.live.pending c = none →
      (s.live.auth.conns c).pc = .running r i k → ∃ t, Live.step E s.live (.look c qu) = some t ∧ t.pending c = none ∧
        (t.auth.conns c).pc = .running r i k ∧ t.auth = s.live.auth ∧ t.mem = s.live.mem := by
    intro s qu h1 h2 h3
    exact ⟨{ s.live with loc := Auth.upd s.live.loc k (qu.after E.B (E.M.view (s.live.loc k)
      (s.live.mem (s.live.url (s.live.auth.ctxs k).ticket)))) }, by simp [Live.step, h2, h3], h2, h3, rfl, rfl⟩
  induction q generalizing s with
  | done x out => exact ⟨0, s, rfl, by rw [hq]; rfl, rfl, rfl⟩
  | seek n f ih =>
    obtain ⟨t, h1, h2, h3, h4, h5⟩ := go s (.seek n) hj hw hp
    have hst : LiveRead.step E s (.read c) = some { s with live := t, rprog := Auth.upd s.rprog c (f (E.B.seek (E.M.view (s.live.loc k) (s.live.mem (s.live.url (s.live.auth.ctxs k).ticket))) n).1) } := by
      simp only [LiveRead.step, hj, hp, hq, h1]
    obtain ⟨m, s', g1, g2, g3, g4⟩ := ih (E.B.seek (E.M.view (s.live.loc k) (s.live.mem (s.live.url (s.live.auth.ctxs k).ticket))) n).1 { s with live := t, rprog := Auth.upd s.rprog c (f (E.B.seek (E.M.view (s.live.loc k) (s.live.mem (s.live.url (s.live.auth.ctxs k).ticket))) n).1) } hj h2 h3 (by simp)
    exact ⟨m + 1, s', by simp only [List.replicate_succ, LiveRead.run, hst, g1], g2, g3.trans h4, g4.trans h5⟩
  | tell f ih =>
    obtain ⟨t, h1, h2, h3, h4, h5⟩ := go s (.tell) hj hw hp
    have hst : LiveRead.step E s (.read c) = some { s with live := t, rprog := Auth.upd s.rprog c (f (E.B.tell (E.M.view (s.live.loc k) (s.live.mem (s.live.url (s.live.auth.ctxs k).ticket))))) } := by
      simp only [LiveRead.step, hj, hp, hq, h1]
    obtain ⟨m, s', g1, g2, g3, g4⟩ := ih (E.B.tell (E.M.view (s.live.loc k) (s.live.mem (s.live.url (s.live.auth.ctxs k).ticket)))) { s with live := t, rprog := Auth.upd s.rprog c (f (E.B.tell (E.M.view (s.live.loc k) (s.live.mem (s.live.url (s.live.auth.ctxs k).ticket))))) } hj h2 h3 (by simp)
    exact ⟨m + 1, s', by simp only [List.replicate_succ, LiveRead.run, hst, g1], g2, g3.trans h4, g4.trans h5⟩
  | readinto n f ih =>
    obtain ⟨t, h1, h2, h3, h4, h5⟩ := go s (.readinto n) hj hw hp
    have hst : LiveRead.step E s (.read c) = some { s with live := t, rprog := Auth.upd s.rprog c (f (E.B.readinto (E.M.view (s.live.loc k) (s.live.mem (s.live.url (s.live.auth.ctxs k).ticket))) n).1) } := by
      simp only [LiveRead.step, hj, hp, hq, h1]
    obtain ⟨m, s', g1, g2, g3, g4⟩ := ih (E.B.readinto (E.M.view (s.live.loc k) (s.live.mem (s.live.url (s.live.auth.ctxs k).ticket))) n).1 { s with live := t, rprog := Auth.upd s.rprog c (f (E.B.readinto (E.M.view (s.live.loc k) (s.live.mem (s.live.url (s.live.auth.ctxs k).ticket))) n).1) } hj h2 h3 (by simp)
    exact ⟨m + 1, s', by simp only [List.replicate_succ, LiveRead.run, hst, g1], g2, g3.trans h4, g4.trans h5⟩

/-- C84: a download that ended was running; it is answered with success exactly if the operation returned without an error and the ticket was not
canceled then; the bytes in the answer are those that the operation wrote. -/
theorem C84_answer {σ Γ τ : Type} {E : Env σ Γ τ} {mem : Http.Str → Γ} {acts : List (LiveRead.Act τ)} {s s' : LiveRead.Sys σ Γ τ}
    {a : LiveRead.Act τ} {d : LiveRead.Sent} (hr : LiveRead.run E (LiveRead.start E mem) acts = some s) (hs : LiveRead.step E s a = some s')
    (hd : s'.sent = s.sent ++ [d]) :
    s.reading d.con = some d.job ∧ (∃ k, (s.live.auth.conns d.con).pc = .ended d.ticket d.op k) ∧ s'.reading d.con = none ∧
      d.url = s.live.url d.ticket ∧ ∃ x t, s.rprog d.con = .done x d.out ∧ s'.live.auth.tickets d.ticket = some t ∧
        (d.ok = true ↔ x = .ok () ∧ t.canceled = false) := by
  have w := LiveRead.run_base hr
  have hinv := LiveRead.rinv_run (fun _ _ => 0) hr
  have hne : s'.sent ≠ s.sent := by rw [hd]; simp
  cases LiveRead.step_rmoves w hs with
  | finish c j r i k t hj hp hl ht =>
    have hd' : d = ⟨c, r, i, s.live.url (s.live.auth.ctxs k).ticket, j, (LiveRead.result (s.rprog c)).1,
        (LiveRead.result (s.rprog c)).2 && (t.conns c).pc ≠ .idle⟩ := by
      simpa using hd.symm
    subst hd'
    obtain ⟨-, -, htk, -⟩ := w.wf.reach.inv.busy c r i k (by rw [hp]; rfl)
    obtain ⟨x, out, hx⟩ := LiveRead.returned_done ((hinv.cons c j hj).ret r i k hp)
    refine ⟨hj, ⟨k, hp⟩, Auth.upd_same _ _ _, by rw [htk], x, ?_⟩
    cases Auth.Step.of_step ht with
    | removeOp _ r' i' _ tk op hp' ht' ho =>
      rw [hp] at hp'
      cases hp'
      obtain ⟨-, hcan, -, -, -, href, -⟩ := Auth.removeOperation_fields tk op
      refine ⟨(tk.removeOperation op).2, ?_, by simp [open_, Auth.State.goto, Auth.State.event, Auth.State.setTicket], ?_⟩
      · rw [hx]
        cases x <;> rfl
      · rw [hx, hcan, href]
        cases x with
        | error e => simp [LiveRead.result]
        | ok u =>
          cases u
          cases hcc : tk.canceled <;> simp [LiveRead.result, Auth.State.goto]
  | _ => exact absurd rfl hne

/-- C84: every download had a ticket for this image that permits reading (or writing), and that is big enough. -/
theorem C84_ticket {σ Γ τ : Type} {E : Env σ Γ τ} {mem : Http.Str → Γ} {acts : List (LiveRead.Act τ)} {s : LiveRead.Sys σ Γ τ}
    (hr : LiveRead.run E (LiveRead.start E mem) acts = some s) (d : LiveRead.Sent) (hd : d ∈ s.sent) :
    ∃ t, s.live.auth.tickets d.ticket = some t ∧ ("read" ∈ t.attrs.ops ∨ "write" ∈ t.attrs.ops) ∧
      (d.job.offset : Int) + d.job.size ≤ t.attrs.size ∧ s.live.url d.ticket = d.url := by
  have h := (LiveRead.rinv_run (fun _ _ => 0) hr).sent d hd
  obtain ⟨t, h1, h2, h3⟩ := h.ticket
  exact ⟨t, h1, h2, h3, h.url⟩

/-- C84: after a successful answer to the removal of a ticket (`remove_timeout` not 0) no download of the ticket object is running, and none ends, in any
further execution. -/
theorem C84_revoked {σ Γ τ : Type} {E : Env σ Γ τ} {mem : Http.Str → Γ} {acts more : List (LiveRead.Act τ)} {s s' : LiveRead.Sys σ Γ τ}
    {id : String} {r : Nat} (hc : E.cfg.removeTimeout ≠ 0) (hr : LiveRead.run E (LiveRead.start E mem) acts = some s)
    (hd : Auth.Event.deleted id (.ok (some r)) ∈ s.live.auth.log) (hm : LiveRead.run E s more = some s') :
    (∀ c j i, ¬ Downloading s' c j r i) ∧
      s'.sent.filter (fun d => decide (d.ticket = r)) = s.sent.filter (fun d => decide (d.ticket = r)) := by
  have dead : ∀ {s : LiveRead.Sys σ Γ τ}, LiveRead.Base E s → Auth.Event.deleted id (.ok (some r)) ∈ s.live.auth.log →
      ∀ c i k, (s.live.auth.conns c).pc.busy ≠ some (r, i, k) := by
    intro s w hd c i k h
    obtain ⟨pre, post, hl⟩ := List.append_of_mem hd
    exact Auth.busy_ongoing w.wf.reach.inv h (Auth.deleted_dead hc w.wf.reach id r pre post hl).1
  have log : ∀ {s s' : LiveRead.Sys σ Γ τ} {a : LiveRead.Act τ}, LiveRead.Base E s → LiveRead.RMoves E s a s' →
      Auth.Event.deleted id (.ok (some r)) ∈ s.live.auth.log → Auth.Event.deleted id (.ok (some r)) ∈ s'.live.auth.log := by
    intro s s' a w h hd
    obtain ⟨b, hb⟩ := h.live
    rcases (step_moves hb).auth with he | ⟨b, hb⟩
    · rw [he]; exact hd
    · obtain ⟨evs, h1, -⟩ := (Auth.Step.of_step hb).log w.wf.reach.inv
      rw [h1]; exact List.mem_append_left _ hd
  have w := LiveRead.run_base hr
  clear hr
  induction more generalizing s with
  | nil =>
    cases hm
    refine ⟨fun c j i h => ?_, rfl⟩
    obtain ⟨-, k, h⟩ := h
    exact dead w hd c i k (by rw [h]; rfl)
  | cons a as ih =>
    simp only [LiveRead.run] at hm
    split at hm
    · cases hm
    · rename_i z hz
      have hmv := LiveRead.step_rmoves w hz
      obtain ⟨h1, h2⟩ := ih (log w hmv hd) hm (w.moves hmv)
      refine ⟨h1, h2.trans ?_⟩
      cases hmv with
      | finish c j r' i k t hj hp hl ht =>
        have : r' ≠ r := fun e => dead w hd c i k (by rw [hp, e]; rfl)
        simp [List.filter_append, this]
      | _ => rfl

/-! ## Requests of an execution -/

section
variable {σ Γ τ : Type} {E : Env σ Γ τ} {mem : Http.Str → Γ} {s s' : LiveRead.Sys σ Γ τ} {acts : List (LiveRead.Act τ)}

theorem proceed_live {t : Live σ Γ τ} {c : Nat} {j : LiveRead.RJob} {a : Live.Act τ} (h : LiveRead.proceed E s t c j a = some s') :
    s'.live = t := by
  unfold LiveRead.proceed at h
  dsimp only at h
  repeat' split at h
  all_goals first
    | cases h; rfl
    | cases h

theorem step_pending {a : LiveRead.Act τ} (h : LiveRead.step E s a = some s') {c : Nat} {j : Job τ}
    (hj : s'.live.pending c = some j) : s.live.pending c = some j ∨ ∃ id, a = .live (.request c id j) := by
  have key : ∀ b t, Live.step E s.live b = some t → t.pending c = some j → s.live.pending c = some j ∨ ∃ id, b = .request c id j := by
    intro b t hb h2
    have drop : ∀ {c0}, Auth.upd s.live.pending c0 none c = some j → s.live.pending c = some j := by
      intro c0 h
      by_cases hc : c = c0
      · subst hc; simp at h
      · rwa [Auth.upd_other _ _ hc] at h
    cases step_moves hb with
    | finish c0 _ _ _ _ _ _ _ _ => exact .inl (drop h2)
    | drop _ c0 _ _ _ _ _ _ => exact .inl (drop h2)
    | request c0 id j0 t ht hi =>
      by_cases hc : c = c0
      · subst hc
        simp only [Auth.upd_same, Option.some.injEq] at h2
        subst h2
        exact .inr ⟨id, rfl⟩
      · simp only [Auth.upd_other _ _ hc] at h2
        exact .inl h2
    | _ => exact .inl h2
  cases a with
  | live b =>
    have hb : Live.step E s.live b = some s'.live := by
      cases b with
      | look => cases h
      | _ =>
        simp only [LiveRead.step] at h
        split at h
        · cases h
        · rename_i t ht
          split at h
          · cases h; exact ht
          · split at h
            · cases h; exact ht
            · rw [proceed_live h]; exact ht
    rcases key b _ hb hj with h | ⟨id, rfl⟩
    · exact .inl h
    · exact .inr ⟨id, rfl⟩
  | get c0 id j0 =>
    simp only [LiveRead.step] at h
    split at h
    · cases h
    · rename_i t ht
      have e : s'.live = t := by
        split at h <;> · cases h; rfl
      rcases key _ _ ht (by rw [← e]; exact hj) with h | ⟨id, h⟩
      · exact .inl h
      · cases h
  | read c0 =>
    simp only [LiveRead.step] at h
    split at h
    · split at h
      · cases h
      · split at h
        · cases h
        · rename_i t ht
          cases h
          rcases key _ _ ht hj with h | ⟨id, h⟩
          · exact .inl h
          · cases h
    · cases h

theorem pending_asked (hr : LiveRead.run E s acts = some s') {c : Nat} {j : Job τ} (hj : s'.live.pending c = some j) :
    s.live.pending c = some j ∨ ∃ id, LiveRead.Act.live (.request c id j) ∈ acts := by
  induction acts generalizing s with
  | nil => cases hr; exact .inl hj
  | cons a as ih =>
    simp only [LiveRead.run] at hr
    split at hr
    · cases hr
    · rename_i z hz
      rcases ih hr with h | ⟨id, h⟩
      · rcases step_pending hz h with h | ⟨id, rfl⟩
        · exact .inl h
        · exact .inr ⟨id, List.mem_cons_self ..⟩
      · exact .inr ⟨id, List.mem_cons_of_mem _ h⟩

end

/-! ## C84: files, block devices, NBD -/

section
variable {τ : Type} {S : Source τ} {cfg : Auth.Config} {mem : Http.Str → Bytes × Bytes}

/-- C84: every byte of a download was on the disk at its place, in a state of the execution in which this operation was running; there are not more bytes
than the request asked for, and exactly these if it is answered with success.  For all interleavings with changes of the images, storage faults, expiring and
removed tickets, and clients that go away.  (A negative size is the length of an open range after the end: `C79`.) -/
theorem C84_file_bytes {env : File.Env} {opened : File.State} {acts : List (LiveRead.Act τ)} {s : LiveRead.Sys File.State (Bytes × Bytes) τ} (hb : 0 < env.bs)
    (hr : LiveRead.run (fileEnv env S cfg opened) (LiveRead.start (fileEnv env S cfg opened) mem) acts = some s)
    (d : LiveRead.Sent) (hd : d ∈ s.sent) (hn : 0 ≤ d.job.size) :
    (∀ i, i < d.out.length → Seen (fileEnv env S cfg opened) mem (fun g => byteAt g.1) acts d.con d.job d.ticket d.op d.url (d.job.offset + i)
      (byteAt d.out i)) ∧ (d.out.length : Int) ≤ d.job.size ∧ (d.ok = true → (d.out.length : Int) = d.job.size) :=
  ((LiveRead.rinv_run (fun g => byteAt g.1) hr).sent d hd).bytes ⟨LiveRead.fileRead env hb, rfl⟩ hn

/-- C84: the same with NBD servers. -/
theorem C84_nbd_bytes {bs : Nat} {opened : NbdBackend.State} {acts : List (LiveRead.Act τ)} {s : LiveRead.Sys NbdBackend.State (Bytes × Bytes) τ}
    (hb : 0 < bs) (hr : LiveRead.run (nbdEnv bs S cfg opened) (LiveRead.start (nbdEnv bs S cfg opened) mem) acts = some s)
    (d : LiveRead.Sent) (hd : d ∈ s.sent) (hn : 0 ≤ d.job.size) :
    (∀ i, i < d.out.length → Seen (nbdEnv bs S cfg opened) mem (fun g => byteAt g.1) acts d.con d.job d.ticket d.op d.url (d.job.offset + i)
      (byteAt d.out i)) ∧ (d.out.length : Int) ≤ d.job.size ∧ (d.ok = true → (d.out.length : Int) = d.job.size) :=
  ((LiveRead.rinv_run (fun g => byteAt g.1) hr).sent d hd).bytes ⟨LiveRead.nbdRead bs hb, rfl⟩ hn

variable {R : LawfulSource S} {pre post : List (LiveRead.Act τ)}

/-- C84: a byte of a download is the byte on the disk, before the download started and after it ended, if no operation had bytes in its block since then; other
blocks of the image may change.  `s0` is a state before the operation started (its number is not used yet). -/
theorem C84_file_still {env : File.Env} {opened : File.State} {s0 s : LiveRead.Sys File.State (Bytes × Bytes) τ} (hb : 0 < env.bs)
    (hblk : env.isBlock = true → ∀ u, (mem u).1.length % env.bs = 0)
    (hr0 : LiveRead.run (fileEnv env S cfg opened) (LiveRead.start (fileEnv env S cfg opened) mem) pre = some s0)
    (hr : LiveRead.run (fileEnv env S cfg opened) s0 post = some s)
    (hap : Always (fileEnv env S cfg opened) mem (pre ++ post) (Apart env.bs))
    (hok : Always (fileEnv env S cfg opened) mem (pre ++ post) (FileRequests env R mem))
    (d : LiveRead.Sent) (hd : d ∈ s.sent) (hn : 0 ≤ d.job.size) (hop : s0.live.auth.nextOp ≤ d.op) (i : Nat) (hi : i < d.out.length)
    (hset : ∀ mid rest t, post = mid ++ rest → LiveRead.run (fileEnv env S cfg opened) s0 mid = some t →
      Settled env.bs t.live d.url (d.job.offset + i)) :
    byteAt d.out i = byteAt (s0.live.mem d.url).1 (d.job.offset + i) ∧ byteAt d.out i = byteAt (s.live.mem d.url).1 (d.job.offset + i) := by
  have hrs : LiveRead.run (fileEnv env S cfg opened) (LiveRead.start (fileEnv env S cfg opened) mem) (pre ++ post) = some s := by
    rw [LiveRead.run_append, hr0]; exact hr
  have fine : ∃ L : Law (fileEnv env S cfg opened) R, L.bs = env.bs ∧ L.content = (fun g => byteAt g.1) ∧ (∀ u, L.invG u (mem u)) ∧
      Always (fileEnv env S cfg opened) mem (pre ++ post) (Fine L) := by
    by_cases hd : env.isBlock = false ∧ env.sparse = false
    · refine ⟨denseLaw env hb hd.1 hd.2 R cfg opened False (fun h => h.elim), rfl, rfl, fun _ => trivial, fun p q t he ht => ?_⟩
      exact ⟨hap p q t he ht, fun c j r ha => (hok p q t he ht c j r ha).1⟩
    · refine ⟨fileLaw env hb R cfg opened (fun u => (mem u).1.length) hblk False (fun h => h.elim), rfl, rfl, fun u => ⟨fun _ => rfl, Nat.le_refl _⟩,
        fun p q t he ht => ⟨hap p q t he ht, fun c j r ha => ⟨(hok p q t he ht c j r ha).1, fun hz => ?_⟩⟩⟩
      rcases (hok p q t he ht c j r ha).2 hz with h1 | h1 | h1
      · exact .inl h1
      · left
        cases hblk' : env.isBlock with
        | true => rfl
        | false => exact absurd ⟨hblk', h1⟩ hd
      · exact .inr h1
  obtain ⟨L, h1, h2, h3, h4⟩ := fine
  have := download_still L (LiveRead.fileRead env hb) h2.symm h3 hr0 hr h4 hd hn hop hi (by rw [h1]; exact hset)
  rw [h2] at this
  exact this

/-- C84: the same with NBD servers. -/
theorem C84_nbd_still {bs : Nat} {opened : NbdBackend.State} {s0 s : LiveRead.Sys NbdBackend.State (Bytes × Bytes) τ} (hb : 0 < bs)
    (ho : opened.bs = bs ∧ opened.canFlush = true)
    (hr0 : LiveRead.run (nbdEnv bs S cfg opened) (LiveRead.start (nbdEnv bs S cfg opened) mem) pre = some s0)
    (hr : LiveRead.run (nbdEnv bs S cfg opened) s0 post = some s)
    (hap : Always (nbdEnv bs S cfg opened) mem (pre ++ post) (Apart bs))
    (hok : Always (nbdEnv bs S cfg opened) mem (pre ++ post) fun s => ∀ c j r, Active s c j r → Sensible bs R j)
    (d : LiveRead.Sent) (hd : d ∈ s.sent) (hn : 0 ≤ d.job.size) (hop : s0.live.auth.nextOp ≤ d.op) (i : Nat) (hi : i < d.out.length)
    (hset : ∀ mid rest t, post = mid ++ rest → LiveRead.run (nbdEnv bs S cfg opened) s0 mid = some t →
      Settled bs t.live d.url (d.job.offset + i)) :
    byteAt d.out i = byteAt (s0.live.mem d.url).1 (d.job.offset + i) ∧ byteAt d.out i = byteAt (s.live.mem d.url).1 (d.job.offset + i) :=
  download_still (nbdLaw bs hb R cfg opened (fun u => (mem u).1.length) False (fun h => h.elim) ho (fun h => h.elim))
    (LiveRead.nbdRead bs hb) rfl (fun _ => rfl) hr0 hr (fun p q t he ht => ⟨hap p q t he ht, hok p q t he ht⟩) hd hn hop hi hset

end

/-! ## Examples -/

namespace LiveReadEx

def E : Env File.State (Bytes × Bytes) Bytes := LiveEx.E 60

def up (as : List (Live.Act Bytes)) : List (LiveRead.Act Bytes) := as.map .live

/-- Two tickets for one image. -/
def tickets : List (LiveRead.Act Bytes) := up [.add ⟨"t", 8, ["read"], 300⟩ LiveEx.url, .add ⟨"v", 8, ["write"], 300⟩ LiveEx.url]

/-- The first connection downloads, with a buffer of one block; the second uploads after one block was read. -/
def acts (offset : Nat) (size : Int) (j : Job Bytes) (calls : Nat) : List (LiveRead.Act Bytes) :=
  [.get 1 "t" ⟨offset, size, fun _ => false, fun _ => false, [0, 0, 0, 0]⟩] ++
  up [.auth (.getContext 1), .auth (.addContext 1), .auth (.startOp 1 offset)] ++
  List.replicate 3 (.read 1) ++ up (LiveEx.begins 2 "v" j ++ List.replicate calls (.call 2)) ++ up (LiveEx.ends 2) ++
  List.replicate 2 (.read 1) ++ up (LiveEx.ends 1)

def seen (d : LiveRead.Sent) : Nat × Nat × Bytes × Bool := (d.con, d.ticket, d.out, d.ok)


/-- What an execution with one download ends with. -/
theorem one_sent {acts : List (LiveRead.Act Bytes)} {x : Nat × Nat × Bytes × Bool} {y : List (Nat × Nat × Bool)} {u : Http.Str}
    (h1 : (LiveRead.run E (LiveRead.start E LiveEx.mem) acts).map (fun s => s.sent.map seen) = some [x])
    (h2 : (LiveRead.run E (LiveRead.start E LiveEx.mem) acts).map (fun s => s.sent.map fun d => d.url) = some [u])
    (h3 : (LiveRead.run E (LiveRead.start E LiveEx.mem) acts).map (fun s => s.live.ended.map LiveEx.seen) = some y) :
    ∃ s d, LiveRead.run E (LiveRead.start E LiveEx.mem) acts = some s ∧ s.sent = [d] ∧ seen d = x ∧ d.url = u ∧
      s.live.ended.map LiveEx.seen = y := by
  cases hr : LiveRead.run E (LiveRead.start E LiveEx.mem) acts with
  | none => rw [hr] at h1; cases h1
  | some s =>
    rw [hr] at h1 h2 h3
    simp only [Option.map_some, Option.some.injEq] at h1 h2 h3
    cases hs : s.sent with
    | nil => rw [hs] at h1; cases h1
    | cons d ds =>
      rw [hs] at h1 h2
      simp only [List.map_cons, List.cons.injEq] at h1 h2
      obtain ⟨h1, h4⟩ := h1
      rw [List.map_eq_nil_iff.mp h4] at hs
      exact ⟨s, d, rfl, hs, h1, h2.1, h3⟩

end LiveReadEx

/-- An upload to the second block while both blocks are downloaded: the hypotheses of `C84_file_still` hold for the bytes of the first block. -/
example : ∃ s0 s d, LiveRead.run LiveReadEx.E (LiveRead.start LiveReadEx.E LiveEx.mem) LiveReadEx.tickets = some s0 ∧
    LiveRead.run LiveReadEx.E s0 (LiveReadEx.acts 1 7 (putJob 4 [1, 1]) 7) = some s ∧
    Always LiveReadEx.E LiveEx.mem (LiveReadEx.tickets ++ LiveReadEx.acts 1 7 (putJob 4 [1, 1]) 7) (Apart dev.bs) ∧
    Always LiveReadEx.E LiveEx.mem (LiveReadEx.tickets ++ LiveReadEx.acts 1 7 (putJob 4 [1, 1]) 7) (FileRequests dev wholeBodyLaw LiveEx.mem) ∧
    d ∈ s.sent ∧ s0.live.auth.nextOp ≤ d.op ∧ LiveReadEx.seen d = (1, 0, [7, 7, 7, 1, 1, 7, 7], true) ∧
    (∀ i, i < 3 → ∀ mid rest t, LiveReadEx.acts 1 7 (putJob 4 [1, 1]) 7 = mid ++ rest → LiveRead.run LiveReadEx.E s0 mid = some t →
      Settled dev.bs t.live d.url (1 + i)) ∧ s.live.ended.map LiveEx.seen = [(2, 1, true)] := by
  have asked : ∀ (pre : List (LiveRead.Act Bytes)) s s' c j, (∀ c id j, LiveRead.Act.live (.request c id j) ∈ pre → c = 2 ∧ j = putJob 4 [1, 1]) →
      (∀ c j, s.live.pending c = some j → c = 2 ∧ j = putJob 4 [1, 1]) → LiveRead.run LiveReadEx.E s pre = some s' →
      s'.live.pending c = some j → c = 2 ∧ j = putJob 4 [1, 1] := by
    intro pre s s' c j hq hs hr hj
    rcases pending_asked hr hj with h | ⟨id, h⟩
    · exact hs c j h
    · exact hq c id j h
  have hq : ∀ c id j, LiveRead.Act.live (.request c id j) ∈ LiveReadEx.tickets ++ LiveReadEx.acts 1 7 (putJob 4 [1, 1]) 7 →
      c = 2 ∧ j = putJob 4 [1, 1] := by
    intro c id j h
    simp [LiveReadEx.tickets, LiveReadEx.acts, LiveReadEx.up, LiveEx.begins, LiveEx.ends, List.replicate] at h
    exact ⟨h.1, h.2.2⟩
  have h0 : ∀ c j, (LiveRead.start LiveReadEx.E LiveEx.mem).live.pending c = some j → c = 2 ∧ j = putJob 4 [1, 1] := fun c j h => by cases h
  have hp : ∀ pre post t c j, LiveReadEx.tickets ++ LiveReadEx.acts 1 7 (putJob 4 [1, 1]) 7 = pre ++ post →
      LiveRead.run LiveReadEx.E (LiveRead.start LiveReadEx.E LiveEx.mem) pre = some t → t.live.pending c = some j →
      c = 2 ∧ j = putJob 4 [1, 1] := fun pre post t c j he ht hj =>
    asked pre _ t c j (fun c id j h => hq c id j (by rw [he]; simp [h])) h0 ht hj
  obtain ⟨s, d, hr, hs, h1, hu, h2⟩ := LiveReadEx.one_sent (acts := LiveReadEx.tickets ++ LiveReadEx.acts 1 7 (putJob 4 [1, 1]) 7)
    (x := (1, 0, [7, 7, 7, 1, 1, 7, 7], true)) (y := [(2, 1, true)]) (u := LiveEx.url) (by decide +kernel) (by decide +kernel) (by decide +kernel)
  have hr' := hr
  rw [LiveRead.run_append] at hr'
  have op0 : (LiveRead.run LiveReadEx.E (LiveRead.start LiveReadEx.E LiveEx.mem) LiveReadEx.tickets).map (fun s => s.live.auth.nextOp) = some 0 := by
    decide +kernel
  cases hs0 : LiveRead.run LiveReadEx.E (LiveRead.start LiveReadEx.E LiveEx.mem) LiveReadEx.tickets with
  | none => rw [hs0] at op0; cases op0
  | some s0 =>
    rw [hs0] at op0 hr'
    refine ⟨s0, s, d, rfl, hr', ?_, ?_, by rw [hs]; exact List.mem_singleton.mpr rfl, ?_, h1, ?_, h2⟩
    · intro pre post t he ht c c' j j' r r' x y ha hb _ _ _ _
      rw [(hp pre post t c j he ht ha.1).1, (hp pre post t c' j' he ht hb.1).1]
    · intro pre post t he ht c j r ha
      obtain ⟨-, rfl⟩ := hp pre post t c j he ht ha.1
      exact ⟨fun _ => ⟨by decide, by decide, trivial⟩, fun h => by cases h⟩
    · simp only [Option.map_some, Option.some.injEq] at op0
      omega
    · intro i hi mid rest t he ht c j r y ha _ hy hc
      obtain ⟨-, rfl⟩ := hp (LiveReadEx.tickets ++ mid) rest t c j (by rw [he, List.append_assoc])
        (by rw [LiveRead.run_append, hs0]; exact ht) ha.1
      unfold InRange at hy
      simp only [putJob, dev, List.length_cons, List.length_nil] at hy hc
      omega

/-- C84, the limit: a download of 8 bytes with a buffer of 4 bytes, and an upload of 8 bytes between the two reads.  Both are answered with success, and the
client got bytes that were not on the disk in any state: the old bytes of the first block, and the new ones of the second. -/
theorem C84_counterexample_torn : ∃ s d,
    LiveRead.run LiveReadEx.E (LiveRead.start LiveReadEx.E LiveEx.mem) (LiveReadEx.tickets ++ LiveReadEx.acts 0 8 (putJob 0 (List.replicate 8 1)) 6) = some s ∧
    s.sent = [d] ∧ LiveReadEx.seen d = (1, 0, [7, 7, 7, 7, 1, 1, 1, 1], true) ∧ s.live.ended.map LiveEx.seen = [(2, 1, true)] ∧
    ∀ pre post t, LiveReadEx.tickets ++ LiveReadEx.acts 0 8 (putJob 0 (List.replicate 8 1)) 6 = pre ++ post →
      LiveRead.run LiveReadEx.E (LiveRead.start LiveReadEx.E LiveEx.mem) pre = some t → (t.live.mem d.url).1 ≠ d.out := by
  let as := LiveReadEx.tickets ++ LiveReadEx.acts 0 8 (putJob 0 (List.replicate 8 1)) 6
  have all : ∀ n, n < 29 → ((LiveRead.run LiveReadEx.E (LiveRead.start LiveReadEx.E LiveEx.mem) (as.take n)).map fun s =>
      (s.live.mem LiveEx.url).1) ≠ some [7, 7, 7, 7, 1, 1, 1, 1] := by decide +kernel
  have len : as.length < 29 := by decide +kernel
  obtain ⟨s, d, hr, hs, h1, hu, h2⟩ := LiveReadEx.one_sent (acts := as) (x := (1, 0, [7, 7, 7, 7, 1, 1, 1, 1], true)) (y := [(2, 1, true)])
    (u := LiveEx.url) (by decide +kernel) (by decide +kernel) (by decide +kernel)
  refine ⟨s, d, hr, hs, h1, h2, fun pre post t he ht hc => ?_⟩
  have ho : d.out = [7, 7, 7, 7, 1, 1, 1, 1] := congrArg (fun x => x.2.2.1) h1
  have hlen : pre.length < 29 := by
    have h : as.length = (pre ++ post).length := congrArg List.length he
    rw [h, List.length_append] at len
    omega
  apply all pre.length hlen
  have he : as = pre ++ post := he
  rw [he, List.take_left, ht, Option.map_some, ← ho, ← hc, hu]

end Imageio.Props
