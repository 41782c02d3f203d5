import Verif.Lemmas.LiveStorage
/-!
The whole server while the system calls of its operations interleave (C83).
-/
namespace Imageio.Props
open Imageio.Conc Imageio.Spec Imageio.Spec.Live Imageio.Live

/-! ## Specification -/

/-- No operation that is running has a byte in the block of `x` of the image `u`. -/
def Settled {σ Γ τ : Type} (bs : Nat) (s : Live σ Γ τ) (u : Http.Str) (x : Nat) : Prop :=
  ∀ c j r y, Active s c j r → s.url r = u → InRange j.offset j.size y → x / bs ≠ y / bs

/-- The requests of the theorems about files: the server chose a buffer, and zeroing a sparse regular file stays inside of the file. -/
def FileRequests {τ : Type} {S : Source τ} (env : File.Env) (R : LawfulSource S) (mem : Http.Str → Bytes × Bytes)
    (s : Live File.State (Bytes × Bytes) τ) : Prop :=
  ∀ c j r, Active s c j r → Sensible env.bs R j ∧
    (j.zero = true → env.isBlock = true ∨ env.sparse = false ∨ j.offset + j.size ≤ (mem (s.url r)).1.length)

/-! ## Helpers -/

section
variable {σ Γ τ : Type} {E : Env σ Γ τ} {mem : Http.Str → Γ} {acts : List (Act τ)} {s : Live σ Γ τ}

theorem settled_near {bs : Nat} {u : Http.Str} {x : Nat} (h : Settled bs s u x) {c : Nat} {j : Job τ} {r i k : Nat} (hr : Live.Runs s c j r i k)
    (hu : s.url r = u) : ¬ Near bs j.offset j.size x := by
  rintro ⟨y, hy, he⟩
  exact h c j r y hr.active hu hy he

theorem law_disk {R : LawfulSource E.S} (L : Law E R) (hG : ∀ u, L.invG u (mem u)) (hr : Live.run E (start E mem) acts = some s)
    (hf : Throughout E mem acts (Fine L)) (u : Http.Str) (x : Nat) (hx : Settled L.bs s u x) :
    Explained R s.ended u x (L.content (mem u) x) (L.content (s.mem u) x) := by
  obtain ⟨V, hV⟩ := result_run hG hr hf
  rw [hV.sound.quiet u x fun c j r i k h he => settled_near hx h he]
  exact hV.explained u x

theorem law_blocks {R : LawfulSource E.S} (L : Law E R) (hG : ∀ u, L.invG u (mem u)) {a : Act τ} {s' : Live σ Γ τ}
    (hr : Live.run E (start E mem) acts = some s) (hf : Throughout E mem acts (Fine L)) (hs : step E s a = some s') (u : Http.Str) (x : Nat)
    (hx : L.content (s'.mem u) x ≠ L.content (s.mem u) x) :
    ∃ c j r y, a = .call c ∧ Active s c j r ∧ s.url r = u ∧ InRange j.offset j.size y ∧ x / L.bs = y / L.bs := by
  obtain ⟨V, hV⟩ := result_run hG hr hf
  have w := run_wf hr
  have f0 : Fine L s := hf acts [] s (by simp) hr
  cases (step_moves hs).kind w with
  | call c j r i k f next h hf' =>
    rcases (hV.sound.of_call w (Disjoint.of f0.apart) h hf').2.2 u x with h' | ⟨rfl, y, hy, he⟩
    · exact absurd h' hx
    · exact ⟨c, j, r, y, rfl, h.active, rfl, hy, he⟩
  | start c j r k _ _ hn hc hr hm' hp he hu hl hk => exact absurd (by rw [hm']) hx
  | finish c j r i k _ _ ok x' h hx' hr' hm' hp hu hl he hok hbad => exact absurd (by rw [hm']) hx
  | quiet _ _ q => exact absurd (by rw [q.mem]) hx

theorem throughout_and {P Q : Live σ Γ τ → Prop} (h1 : Throughout E mem acts P) (h2 : Throughout E mem acts Q) :
    Throughout E mem acts fun s => P s ∧ Q s := fun pre post s he hr => ⟨h1 pre post s he hr, h2 pre post s he hr⟩

theorem throughout_imp {P Q : Live σ Γ τ → Prop} (h1 : Throughout E mem acts P) (h : ∀ s, P s → Q s) :
    Throughout E mem acts Q := fun pre post s he hr => h s (h1 pre post s he hr)

end

section
variable {τ : Type} {S : Source τ} {env : File.Env} {R : LawfulSource S} {cfg : Auth.Config} {opened : File.State}
  {mem : Http.Str → Bytes × Bytes} {acts : List (Act τ)}

/-- One of the laws for files applies. -/
theorem file_law (hb : 0 < env.bs) (hblk : env.isBlock = true → ∀ u, (mem u).1.length % env.bs = 0)
    (hap : Throughout (fileEnv env S cfg opened) mem acts (Apart env.bs))
    (hok : Throughout (fileEnv env S cfg opened) mem acts (FileRequests env R mem)) (strict : Prop) (ho : strict → opened.faults = []) :
    ∃ L : Law (fileEnv env S cfg opened) R, L.bs = env.bs ∧ L.content = (fun g => byteAt g.1) ∧ (∀ u, L.invG u (mem u)) ∧
      Throughout (fileEnv env S cfg opened) mem acts (Fine L) ∧
      ∀ u j, strict → (env.isBlock = true → j.offset + j.size ≤ (mem u).1.length) → Complete R j → L.sure u j := by
  by_cases hd : env.isBlock = false ∧ env.sparse = false
  · refine ⟨denseLaw env hb hd.1 hd.2 R cfg opened strict ho, rfl, rfl, fun _ => trivial, ?_, fun u j hs _ hc => ⟨hs, hc⟩⟩
    exact throughout_imp (throughout_and hap hok) fun s h => ⟨h.1, fun c j r ha => (h.2 c j r ha).1⟩
  · refine ⟨fileLaw env hb R cfg opened (fun u => (mem u).1.length) hblk strict ho, rfl, rfl, fun u => ⟨fun _ => rfl, Nat.le_refl _⟩, ?_,
      fun u j hs hi hc => ⟨hs, hi, hc⟩⟩
    refine throughout_imp (throughout_and hap hok) fun s h => ⟨h.1, fun c j r ha => ⟨(h.2 c j r ha).1, fun hz => ?_⟩⟩
    rcases (h.2 c j r ha).2 hz with h1 | h1 | h1
    · exact .inl h1
    · left
      cases hblk' : env.isBlock with
      | true => rfl
      | false => exact absurd ⟨hblk', h1⟩ hd
    · exact .inr h1

end

/-! ## C83: any storage -/

/-- C83: nothing changes an image but a system call of a running operation, of a connection that was authorized to write with a
ticket for this image that is big enough, and whose removal was not answered with success. -/
theorem C83_change {σ Γ τ : Type} {E : Env σ Γ τ} {mem : Http.Str → Γ} {acts : List (Act τ)} {s s' : Live σ Γ τ} {a : Act τ}
    (hr : Live.run E (start E mem) acts = some s) (hs : step E s a = some s') (u : Http.Str) (hx : s'.mem u ≠ s.mem u) :
    ∃ c j r t, a = .call c ∧ Active s c j r ∧ s.url r = u ∧ s.auth.tickets r = some t ∧ "write" ∈ t.attrs.ops ∧
      j.offset + j.size ≤ t.attrs.size ∧ t.ongoing ≠ [] ∧
      (E.cfg.removeTimeout ≠ 0 → ∀ id, Auth.Event.deleted id (.ok (some r)) ∉ s.auth.log) := by
  have w := run_wf hr
  cases (step_moves hs).kind w with
  | call c j r i k f next h hf =>
    obtain ⟨-, -, htk, -, t, ht, -, op, hop, -⟩ := w.reach.inv.busy c r i k h.2
    obtain ⟨h1, h2⟩ := h.of_owner w ht
    have hu : s.url r = u := by
      by_cases hu : u = s.url (s.auth.ctxs k).ticket
      · rw [hu, htk]
      · exact absurd (Auth.upd_other _ _ hu) hx
    refine ⟨c, j, r, t, rfl, h.active, hu, ht, h1, by omega, List.ne_nil_of_mem hop, fun hc id hm => ?_⟩
    obtain ⟨pre, post, hl⟩ := List.append_of_mem hm
    exact Auth.busy_ongoing w.reach.inv h.2 (Auth.deleted_dead hc w.reach id r pre post hl).1
  | start c j r k _ _ hn hc hr hm' hp he hu hl hk => exact absurd (by rw [hm']) hx
  | finish c j r i k _ _ ok x' h hx' hr' hm' hp hu hl he hok hbad => exact absurd (by rw [hm']) hx
  | quiet _ _ q => exact absurd (by rw [q.mem]) hx

/-- C83: after a successful answer to the removal of a ticket (`remove_timeout` not 0) no operation of the ticket object is
active, and none ends, in any further execution. -/
theorem C83_revoked {σ Γ τ : Type} {E : Env σ Γ τ} {mem : Http.Str → Γ} {acts more : List (Act τ)} {s s' : Live σ Γ τ} {id : String} {r : Nat}
    (hc : E.cfg.removeTimeout ≠ 0) (hr : Live.run E (start E mem) acts = some s)
    (hd : Auth.Event.deleted id (.ok (some r)) ∈ s.auth.log) (hm : Live.run E s more = some s') :
    (∀ c j, ¬ Active s' c j r) ∧ s'.ended.filter (fun d => decide (d.ticket = r)) = s.ended.filter (fun d => decide (d.ticket = r)) := by
  have dead : ∀ {s : Live σ Γ τ}, Wf E s → Auth.Event.deleted id (.ok (some r)) ∈ s.auth.log → ∀ c j i k, ¬ Live.Runs s c j r i k := by
    intro s w hd c j i k h
    obtain ⟨pre, post, hl⟩ := List.append_of_mem hd
    exact Auth.busy_ongoing w.reach.inv h.2 (Auth.deleted_dead hc w.reach id r pre post hl).1
  have log : ∀ {s s' : Live σ Γ τ} {a : Act τ}, Wf E s → Moves E s a s' → Auth.Event.deleted id (.ok (some r)) ∈ s.auth.log →
      Auth.Event.deleted id (.ok (some r)) ∈ s'.auth.log := by
    intro s s' a w h hd
    rcases h.auth with he | ⟨b, hb⟩
    · rw [he]; exact hd
    · obtain ⟨evs, h1, -⟩ := (Auth.Step.of_step hb).log w.reach.inv
      rw [h1]; exact List.mem_append_left _ hd
  have w := run_wf hr
  clear hr
  induction more generalizing s with
  | nil =>
    cases hm
    refine ⟨fun c j h => ?_, rfl⟩
    obtain ⟨i, k, h'⟩ := Active.runs h
    exact dead w hd c j i k h'
  | cons a as ih =>
    simp only [Live.run] at hm
    cases h : step E s a with
    | none => rw [h] at hm; cases hm
    | some s1 =>
      rw [h] at hm
      have hmv := step_moves h
      obtain ⟨h1, h2⟩ := ih (s := s1) (log w hmv hd) hm (w.moves hmv)
      refine ⟨h1, h2.trans ?_⟩
      cases hmv.kind w with
      | call c j r' i k f next h hf => rfl
      | start c j r' k _ _ hn hc hr hm' hp he hu hl hk => rw [he]
      | finish c j r' i k _ _ ok x' h hx' hr' hm' hp hu hl he hok hbad =>
        rw [he, List.filter_append]
        have : r' ≠ r := fun e => dead w hd c j i k (e ▸ h)
        simp [this]
      | quiet _ _ q => rw [q.ended]

/-- C83: every operation that ended had a ticket that permitted it, and changed the image of this ticket. -/
theorem C83_done {σ Γ τ : Type} {E : Env σ Γ τ} {mem : Http.Str → Γ} {acts : List (Act τ)} {s : Live σ Γ τ}
    (hr : Live.run E (start E mem) acts = some s) (d : Done τ) (hd : d ∈ s.ended) :
    ∃ t, s.auth.tickets d.ticket = some t ∧ "write" ∈ t.attrs.ops ∧ ((d.job.offset + d.job.size : Nat) : Int) ≤ t.attrs.size ∧
      s.url d.ticket = d.url := by
  refine run_induction (E := E) (P := fun _ s => ∀ d ∈ s.ended, ∃ t, s.auth.tickets d.ticket = some t ∧ "write" ∈ t.attrs.ops ∧
    ((d.job.offset + d.job.size : Nat) : Int) ≤ t.attrs.size ∧ s.url d.ticket = d.url) ?_ ?_ hr d hd
  · intro d hd; cases hd
  · intro as a s s' hr _ hp h d hd
    have w := run_wf hr
    replace h := step_moves h
    have keep : (∃ t, s.auth.tickets d.ticket = some t ∧ "write" ∈ t.attrs.ops ∧
        ((d.job.offset + d.job.size : Nat) : Int) ≤ t.attrs.size ∧ s.url d.ticket = d.url) →
        ∃ t, s'.auth.tickets d.ticket = some t ∧ "write" ∈ t.attrs.ops ∧
          ((d.job.offset + d.job.size : Nat) : Int) ≤ t.attrs.size ∧ s'.url d.ticket = d.url := by
      rintro ⟨t, h1, h2, h3, h4⟩
      have hu := (h.url w.reach.inv h1).trans h4
      rcases h.auth with he | ⟨b, hb⟩
      · exact ⟨t, by rw [he]; exact h1, h2, h3, hu⟩
      · obtain ⟨t', ht', e⟩ := (Auth.Step.of_step hb).evolve w.reach.inv h1
        exact ⟨t', ht', by rw [e.attrs]; exact h2, by rw [e.attrs]; exact h3, hu⟩
    by_cases hold : d ∈ s.ended
    · exact keep (hp d hold)
    · apply keep
      cases h.kind w with
      | call c j r' i k f next h hf => exact absurd hd hold
      | start c j r' k _ _ hn hc hr hm' hp he hu hl hk => rw [he] at hd; exact absurd hd hold
      | finish c j r' i k _ _ ok x' h hx' hr' hm' hp hu hl he hok hbad =>
        rw [he] at hd
        rcases List.mem_append.mp hd with hd | hd
        · exact absurd hd hold
        · simp only [List.mem_singleton] at hd
          subst hd
          obtain ⟨-, -, htk, -, t, ht, -⟩ := w.reach.inv.busy c r' i k h.2
          obtain ⟨h1, h2⟩ := h.of_owner w ht
          exact ⟨t, ht, h1, h2, rfl⟩
      | quiet _ _ q => rw [q.ended] at hd; exact absurd hd hold

/-- C83: an operation is answered with success exactly if it returned without an error and its ticket was not canceled then. -/
theorem C83_answer {σ Γ τ : Type} {E : Env σ Γ τ} {mem : Http.Str → Γ} {acts : List (Act τ)} {s s' : Live σ Γ τ} {a : Act τ} {d : Done τ}
    (hr : Live.run E (start E mem) acts = some s) (hs : step E s a = some s') (hd : s'.ended = s.ended ++ [d]) :
    Active s d.con d.job d.ticket ∧ (∀ j r, ¬ Active s' d.con j r) ∧ d.url = s.url d.ticket ∧
      ∃ x t, s.prog d.con = .ret x ∧ s'.auth.tickets d.ticket = some t ∧ (d.ok = true ↔ x = .ok () ∧ t.canceled = false) := by
  have w := run_wf hr
  have hne : s'.ended ≠ s.ended := by rw [hd]; simp
  have hmv := step_moves hs
  cases hmv with
  | finish c j r i k t hj hp ht =>
    have hd' : d = ⟨c, r, s.url (s.auth.ctxs k).ticket, j, Live.succeeded (s.prog c) && (t.conns c).pc ≠ .idle⟩ := by
      simpa using hd.symm
    subst hd'
    have hrun : Live.Runs s c j r i k := ⟨hj, by rw [hp]; rfl⟩
    obtain ⟨-, -, htk, -⟩ := w.reach.inv.busy c r i k hrun.2
    obtain ⟨x, hx⟩ := returned_ret (w.ret c j r i k hj hp)
    refine ⟨hrun.active, fun j' r' h => ?_, by rw [htk], x, ?_⟩
    · have := h.1
      simp at this
    · cases Auth.Step.of_step ht with
      | removeOp _ r' i' _ tk op hp' ht' ho =>
        rw [hp] at hp'
        cases hp'
        obtain ⟨-, hcan, -, -, -, href, -⟩ := Auth.removeOperation_fields tk op
        refine ⟨(tk.removeOperation op).2, hx, by simp [open_, Auth.State.goto, Auth.State.event, Auth.State.setTicket], ?_⟩
        rw [hx, hcan, href]
        cases x with
        | error e => simp [Live.succeeded]
        | ok u =>
          cases u
          cases hcc : tk.canceled <;> simp [Live.succeeded, Auth.State.goto]
  | _ => exact absurd rfl hne

/-- C83: the image of a ticket object is the url of the request that added the ticket, and its rights are those of this request, in
all the executions after it. -/
theorem C83_ticket {σ Γ τ : Type} {E : Env σ Γ τ} {mem : Http.Str → Γ} {pre post : List (Act τ)} {s s' : Live σ Γ τ} {attrs : Auth.Attrs}
    {u : Http.Str} (hr : Live.run E (start E mem) pre = some s) (hs : Live.run E s (.add attrs u :: post) = some s') :
    s'.url s.auth.nextTicket = u ∧ ∃ t, s'.auth.tickets s.auth.nextTicket = some t ∧ t.attrs = attrs := by
  have w := run_wf hr
  simp only [Live.run] at hs
  cases h : step E s (.add attrs u) with
  | none => rw [h] at hs; cases hs
  | some s1 =>
    rw [h] at hs
    have hmv := step_moves h
    have base : s1.url s.auth.nextTicket = u ∧ ∃ t, s1.auth.tickets s.auth.nextTicket = some t ∧ t.attrs = attrs := by
      cases hmv with
      | add _ _ t ht =>
        rw [step_nextTicket ht]
        exact ⟨by simp, Auth.Ticket.new attrs (Auth.seconds E.cfg s.auth), by simp, rfl⟩
    have w1 := w.moves hmv
    generalize s.auth.nextTicket = n at base ⊢
    clear hr h hmv w
    induction post generalizing s1 with
    | nil => cases hs; exact base
    | cons a as ih =>
      simp only [Live.run] at hs
      cases h : step E s1 a with
      | none => rw [h] at hs; cases hs
      | some s2 =>
        rw [h] at hs
        have hmv := step_moves h
        refine ih s2 hs (base := ?_) (w1 := w1.moves hmv)
        obtain ⟨h1, t, h2, h3⟩ := base
        refine ⟨(hmv.url w1.reach.inv h2).trans h1, ?_⟩
        rcases hmv.auth with he | ⟨b, hb⟩
        · exact ⟨t, by rw [he]; exact h2, h3⟩
        · obtain ⟨t', ht', e⟩ := (Auth.Step.of_step hb).evolve w1.reach.inv h2
          exact ⟨t', ht', by rw [e.attrs]; exact h3⟩

/-- C83: no operation waits for another one inside of the storage: while it is running it can do its calls up to the end, whatever the
others are doing, and nothing else changes meanwhile. -/
theorem C83_no_waiting {σ Γ τ : Type} {E : Env σ Γ τ} (s : Live σ Γ τ) (c : Nat) (j : Job τ) (r i k : Nat) (hj : s.pending c = some j)
    (hp : (s.auth.conns c).pc = .running r i k) :
    ∃ n s', Live.run E s (List.replicate n (.call c)) = some s' ∧ returned (s'.prog c) = true ∧ s'.auth = s.auth ∧
      s'.pending = s.pending ∧ ∀ c', c' ≠ c → s'.prog c' = s.prog c' := by
  generalize hq : s.prog c = q
  induction q generalizing s with
  | ret x => exact ⟨0, s, rfl, by rw [hq]; rfl, rfl, rfl, fun _ _ => rfl⟩
  | step f next ih =>
    have h1 : step E s (.call c) = some (Live.call E s c k f next) := by simp [step, hj, hp, hq]
    obtain ⟨n, s', h2, h3, h4, h5, h6⟩ := ih (E.M.view (s.loc k) (s.mem (s.url (s.auth.ctxs k).ticket))) (Live.call E s c k f next) hj hp
      (by simp [Live.call])
    refine ⟨n + 1, s', by simp only [List.replicate_succ, Live.run, h1, h2], h3, h4, h5, fun c' hc => (h6 c' hc).trans ?_⟩
    exact Auth.upd_other _ _ hc

/-! ## C83: files and block devices -/

section
variable {τ : Type} {S : Source τ} {env : File.Env} {R : LawfulSource S} {cfg : Auth.Config} {opened : File.State}
  {mem : Http.Str → Bytes × Bytes} {acts : List (Act τ)} {s : Live File.State (Bytes × Bytes) τ}

/-- C83: the disks of a server, in every state of every execution: any number of connections, tickets and images, the system
calls of the operations in any order, storage faults, bodies that end early, tickets that expire or are removed.  Every byte with no running
operation in its block is what it was, or what the last operation that was asked to change it had to store, if that was answered with success.
The hypothesis: no two operations that run at the same time have bytes in one block of an image. -/
theorem C83_file_disk (hb : 0 < env.bs) (hblk : env.isBlock = true → ∀ u, (mem u).1.length % env.bs = 0)
    (hr : Live.run (fileEnv env S cfg opened) (start (fileEnv env S cfg opened) mem) acts = some s)
    (hap : Throughout (fileEnv env S cfg opened) mem acts (Apart env.bs))
    (hok : Throughout (fileEnv env S cfg opened) mem acts (FileRequests env R mem))
    (u : Http.Str) (x : Nat) (hx : Settled env.bs s u x) :
    Explained R s.ended u x (byteAt (mem u).1 x) (byteAt (s.mem u).1 x) := by
  obtain ⟨L, h1, h2, h3, h4, -⟩ := file_law hb hblk hap hok False (fun h => h.elim)
  have := law_disk L h3 hr h4 u x (by rw [h1]; exact hx)
  rw [h2] at this
  exact this

/-- C83: a system call changes only bytes in the blocks of the request. -/
theorem C83_file_blocks (hb : 0 < env.bs) (hblk : env.isBlock = true → ∀ u, (mem u).1.length % env.bs = 0)
    {a : Act τ} {s' : Live File.State (Bytes × Bytes) τ}
    (hr : Live.run (fileEnv env S cfg opened) (start (fileEnv env S cfg opened) mem) acts = some s)
    (hap : Throughout (fileEnv env S cfg opened) mem acts (Apart env.bs))
    (hok : Throughout (fileEnv env S cfg opened) mem acts (FileRequests env R mem))
    (hs : step (fileEnv env S cfg opened) s a = some s') (u : Http.Str) (x : Nat) (hx : byteAt (s'.mem u).1 x ≠ byteAt (s.mem u).1 x) :
    ∃ c j r y, a = .call c ∧ Active s c j r ∧ s.url r = u ∧ InRange j.offset j.size y ∧ x / env.bs = y / env.bs := by
  obtain ⟨L, h1, h2, h3, h4, -⟩ := file_law hb hblk hap hok False (fun h => h.elim)
  obtain ⟨c, j, r, y, h⟩ := law_blocks L h3 hr h4 hs u x (by rw [h2]; exact hx)
  rw [h1] at h
  exact ⟨c, j, r, y, h⟩

/-- C83: without storage faults every request whose body arrives and that is not canceled is answered with success, unless its ticket was
removed meanwhile: other requests do not make it fail. -/
theorem C83_file_succeeds (hb : 0 < env.bs) (hblk : env.isBlock = true → ∀ u, (mem u).1.length % env.bs = 0) (ho : opened.faults = [])
    (hr : Live.run (fileEnv env S cfg opened) (start (fileEnv env S cfg opened) mem) acts = some s)
    (hap : Throughout (fileEnv env S cfg opened) mem acts (Apart env.bs))
    (hok : Throughout (fileEnv env S cfg opened) mem acts (FileRequests env R mem))
    (d : Done τ) (hd : d ∈ s.ended) (hc : Complete R d.job)
    (hin : env.isBlock = true → d.job.offset + d.job.size ≤ (mem d.url).1.length) :
    d.ok = true ∨ ∃ t, s.auth.tickets d.ticket = some t ∧ t.canceled = true := by
  obtain ⟨L, -, -, h3, h4, h5⟩ := file_law hb hblk hap hok True (fun _ => ho)
  obtain ⟨V, hV⟩ := result_run h3 hr h4
  cases hk : d.ok with
  | true => exact .inl rfl
  | false => exact .inr (hV.sure d hd (h5 _ _ trivial hin hc) hk)

end

/-! ## C83: NBD -/

section
variable {τ : Type} {S : Source τ} {bs : Nat} {R : LawfulSource S} {cfg : Auth.Config} {opened : NbdBackend.State}
  {mem : Http.Str → Bytes × Bytes} {acts : List (Act τ)} {s : Live NbdBackend.State (Bytes × Bytes) τ}

/-- C83: the same with NBD servers. -/
theorem C83_nbd_disk (hb : 0 < bs) (ho : opened.bs = bs ∧ opened.canFlush = true)
    (hr : Live.run (nbdEnv bs S cfg opened) (start (nbdEnv bs S cfg opened) mem) acts = some s)
    (hap : Throughout (nbdEnv bs S cfg opened) mem acts (Apart bs))
    (hok : Throughout (nbdEnv bs S cfg opened) mem acts fun s => ∀ c j r, Active s c j r → Sensible bs R j)
    (u : Http.Str) (x : Nat) (hx : Settled bs s u x) :
    Explained R s.ended u x (byteAt (mem u).1 x) (byteAt (s.mem u).1 x) :=
  law_disk (nbdLaw bs hb R cfg opened (fun u => (mem u).1.length) False (fun h => h.elim) ho (fun h => h.elim)) (fun _ => rfl) hr
    (throughout_imp (throughout_and hap hok) fun _ h => ⟨h.1, h.2⟩) u x hx

/-- C83: with NBD and block size 1 (what qemu-nbd announces with the options of the server) other requests do not make a request fail. -/
theorem C83_nbd_succeeds (ho : opened.bs = 1 ∧ opened.canFlush = true)
    (hf : opened.faults = [] ∧ opened.mode = .rw ∧ opened.canZero = true)
    (hr : Live.run (nbdEnv 1 S cfg opened) (start (nbdEnv 1 S cfg opened) mem) acts = some s)
    (hap : Throughout (nbdEnv 1 S cfg opened) mem acts (Apart 1))
    (hok : Throughout (nbdEnv 1 S cfg opened) mem acts fun s => ∀ c j r, Active s c j r → Sensible 1 R j)
    (d : Done τ) (hd : d ∈ s.ended) (hc : Complete R d.job) (hin : d.job.offset + d.job.size ≤ (mem d.url).1.length) :
    d.ok = true ∨ ∃ t, s.auth.tickets d.ticket = some t ∧ t.canceled = true := by
  obtain ⟨V, hV⟩ := result_run (L := nbdLaw 1 Nat.one_pos R cfg opened (fun u => (mem u).1.length) True (fun _ => rfl) ho (fun _ => hf))
    (fun _ => rfl) hr (throughout_imp (throughout_and hap hok) fun _ h => ⟨h.1, h.2⟩)
  cases hk : d.ok with
  | true => exact .inl rfl
  | false => exact .inr (hV.sure d hd ⟨trivial, hin, hc⟩ hk)

end

/-! ## Requests that never share a block -/

section
variable {σ Γ τ : Type} {E : Env σ Γ τ} {mem : Http.Str → Γ} {acts : List (Act τ)} {s : Live σ Γ τ}

theorem pending_since {c : Nat} {j : Job τ} : ∀ (acts : List (Act τ)) (s s' : Live σ Γ τ), Live.run E s acts = some s' → s'.pending c = some j →
    s.pending c = some j ∨ ∃ id, Act.request c id j ∈ acts := by
  intro acts
  induction acts with
  | nil => intro s s' h hj; cases h; exact .inl hj
  | cons a as ih =>
    intro s s' h hj
    simp only [Live.run] at h
    cases h1 : step E s a with
    | none => rw [h1] at h; cases h
    | some s1 =>
      rw [h1] at h
      rcases ih s1 s' h hj with h2 | ⟨id, h2⟩
      · have drop : ∀ {c0}, Auth.upd s.pending c0 none c = some j → s.pending c = some j := by
          intro c0 h
          by_cases hc : c = c0
          · subst hc; simp at h
          · rwa [Auth.upd_other _ _ hc] at h
        cases step_moves h1 with
        | finish c0 _ _ _ _ _ _ _ _ => exact .inl (drop h2)
        | drop _ c0 _ _ _ _ _ _ => exact .inl (drop h2)
        | request c0 id j0 t ht hi =>
          by_cases hc : c = c0
          · subst hc
            simp only [Auth.upd_same, Option.some.injEq] at h2
            subst h2
            exact .inr ⟨id, List.mem_cons_self ..⟩
          · simp only [Auth.upd_other _ _ hc] at h2
            exact .inl h2
        | _ => exact .inl h2
      · exact .inr ⟨id, List.mem_cons_of_mem _ h2⟩

theorem pending_requested (hr : Live.run E (start E mem) acts = some s) {c : Nat} {j : Job τ} (hj : s.pending c = some j) :
    ∃ id, Act.request c id j ∈ acts := by
  rcases pending_since acts _ s hr hj with h | h
  · cases h
  · exact h

/-- If the requests of an execution have no common blocks, then the operations never have. -/
theorem requests_apart {bs : Nat} (h : ∀ c c' id id' j j' x y, Act.request c id j ∈ acts → Act.request c' id' j' ∈ acts →
    InRange j.offset j.size x → InRange j'.offset j'.size y → x / bs = y / bs → c = c') : Throughout E mem acts (Apart bs) := by
  intro pre post s he hr c c' j j' r r' x y h1 h2 _ hx hy hxy
  obtain ⟨id, hm⟩ := pending_requested hr h1.1
  obtain ⟨id', hm'⟩ := pending_requested hr h2.1
  exact h c c' id id' j j' x y (by rw [he]; simp [hm]) (by rw [he]; simp [hm']) hx hy hxy

theorem requests_all {P : Job τ → Prop} (h : ∀ c id j, Act.request c id j ∈ acts → P j) :
    Throughout E mem acts fun s => ∀ c j r, Active s c j r → P j := by
  intro pre post s he hr c j r h1
  obtain ⟨id, hm⟩ := pending_requested hr h1.1
  exact h c id j (by rw [he]; simp [hm])

end

/-! ## Examples -/

namespace LiveEx

/-- A block device of two blocks, the same for every url. -/
def mem : Http.Str → Bytes × Bytes := fun _ => (List.replicate 8 7, [])

def E (timeout : Nat) : Env File.State (Bytes × Bytes) Bytes := fileEnv dev wholeBody ⟨10, timeout⟩ opened

def url : Http.Str := "file:///a".toList

def begins (c : Nat) (id : String) (j : Job Bytes) : List (Act Bytes) :=
  [.request c id j, .auth (.getContext c), .auth (.addContext c), .auth (.startOp c j.offset)]

def ends (c : Nat) : List (Act Bytes) := [.auth (.endOp c), .auth (.removeOp c), .auth (.touch c)]

/-- Two tickets for one image, two connections; their calls alternate. -/
def acts (j j' : Job Bytes) (calls : List (Act Bytes)) : List (Act Bytes) :=
  [.add ⟨"t", 8, ["write"], 300⟩ url, .add ⟨"v", 8, ["write"], 300⟩ url] ++ begins 1 "t" j ++ begins 2 "v" j' ++ calls ++ ends 1 ++ ends 2

def seen (d : Done Bytes) : Nat × Nat × Bool := (d.con, d.ticket, d.ok)

/-- The state after steps that can be taken. -/
def after (E : Env File.State (Bytes × Bytes) Bytes) (s : Live File.State (Bytes × Bytes) Bytes) (as : List (Act Bytes)) :
    Live File.State (Bytes × Bytes) Bytes := (Live.run E s as).getD s

theorem run_after {E : Env File.State (Bytes × Bytes) Bytes} {s : Live File.State (Bytes × Bytes) Bytes} {as : List (Act Bytes)}
    (h : (Live.run E s as).isSome = true) : Live.run E s as = some (after E s as) := by
  unfold after
  cases hr : Live.run E s as with
  | none => rw [hr] at h; cases h
  | some x => rfl

/-- The calls of the two alternate. -/
def alternate : List (Act Bytes) := (List.replicate 7 [Act.call 1, Act.call 2]).flatten

def apart : List (Act Bytes) := acts (putJob 1 [1, 2]) (zeroJob 4 3) alternate

end LiveEx

/-- An upload and zeroing of one image, with two tickets, call by call: the hypotheses hold, both succeed, both ranges are right. -/
example : Throughout (LiveEx.E 60) LiveEx.mem LiveEx.apart (Apart dev.bs) ∧
    Throughout (LiveEx.E 60) LiveEx.mem LiveEx.apart (FileRequests dev wholeBodyLaw LiveEx.mem) ∧
    ((Live.run (LiveEx.E 60) (start (LiveEx.E 60) LiveEx.mem) LiveEx.apart).map fun s =>
      (s.ended.map LiveEx.seen, (s.mem LiveEx.url).1)) = some ([(1, 0, true), (2, 1, true)], [7, 1, 2, 7, 0, 0, 0, 7]) := by
  have hm : ∀ c id j, Act.request c id j ∈ LiveEx.apart → (c = 1 ∧ j = putJob 1 [1, 2]) ∨ (c = 2 ∧ j = zeroJob 4 3) := by
    intro c id j h
    simp only [LiveEx.apart, LiveEx.acts, LiveEx.begins, LiveEx.ends, LiveEx.alternate, List.replicate, List.flatten_cons, List.flatten_nil,
      List.mem_append, List.mem_cons, List.not_mem_nil, or_false, reduceCtorEq, false_or, Act.request.injEq] at h
    rcases h with ⟨h1, _, h3⟩ | ⟨h1, _, h3⟩
    · exact .inl ⟨h1, h3⟩
    · exact .inr ⟨h1, h3⟩
  refine ⟨requests_apart ?_, ?_, by decide +kernel⟩
  · intro c c' id id' j j' x y h1 h2 hx hy he
    unfold InRange at hx hy
    simp only [dev] at he
    rcases hm c id j h1 with ⟨rfl, rfl⟩ | ⟨rfl, rfl⟩ <;> rcases hm c' id' j' h2 with ⟨rfl, rfl⟩ | ⟨rfl, rfl⟩ <;>
      simp only [putJob, zeroJob, List.length_cons, List.length_nil] at hx hy <;> first | rfl | omega
  · refine throughout_imp (requests_all (P := fun j => Sensible dev.bs wholeBodyLaw j) fun c id j h => ?_) fun s h c j r ha =>
      ⟨h c j r ha, fun _ => .inl rfl⟩
    rcases hm c id j h with ⟨rfl, rfl⟩ | ⟨rfl, rfl⟩
    · exact fun _ => ⟨by decide, by decide, trivial⟩
    · exact fun h => by cases h

/-- The upload changed the image and did not end yet, its removal waits: no answer in the log, the ticket is canceled. -/
example : ((Live.run (LiveEx.E 60) (start (LiveEx.E 60) LiveEx.mem) (LiveEx.apart.take 20 ++
      [.auth (.delStart 0 "t"), .auth (.delCancel 0)])).map fun s =>
      ((s.mem LiveEx.url).1, s.ended.length, s.auth.dels 0 == .waiting "t" 0, (s.auth.tickets 0).map (·.canceled))) =
    some ([7, 1, 2, 7, 0, 0, 0, 7], 0, true, some true) := by decide +kernel

/-- After both ended the removal is answered with success: the hypotheses of `C83_revoked`. -/
example : ((Live.run (LiveEx.E 60) (start (LiveEx.E 60) LiveEx.mem) (LiveEx.apart ++
      [.auth (.delStart 0 "t"), .auth (.delCancel 0), .auth (.delErase 0)])).map fun s =>
      decide (Auth.Event.deleted "t" (.ok (some 0)) ∈ s.auth.log)) = some true := by decide +kernel

/-- C83, the limit (`Apart`): two uploads with two tickets to disjoint ranges of one block.  Both are answered with success, and the bytes
of the first are lost. -/
theorem C83_counterexample_shared_block : ∃ s,
    Live.run (LiveEx.E 60) (start (LiveEx.E 60) LiveEx.mem) (LiveEx.acts (putJob 0 [1, 1]) (putJob 2 [2, 2]) LiveEx.alternate) = some s ∧
    s.ended.map LiveEx.seen = [(1, 0, true), (2, 1, true)] ∧ (s.mem LiveEx.url).1 = [7, 7, 2, 2, 7, 7, 7, 7] ∧
    ¬ Explained wholeBodyLaw s.ended LiveEx.url 0 (byteAt (LiveEx.mem LiveEx.url).1 0) (byteAt (s.mem LiveEx.url).1 0) := by
  let as := LiveEx.acts (putJob 0 [1, 1]) (putJob 2 [2, 2]) LiveEx.alternate
  let s := LiveEx.after (LiveEx.E 60) (start (LiveEx.E 60) LiveEx.mem) as
  refine ⟨s, LiveEx.run_after (by decide +kernel), by decide +kernel, by decide +kernel, fun h => ?_⟩
  have h1 : (last LiveEx.url 0 s.ended).map (fun d => (d.ok, d.job.zero, d.job.offset, d.job.size, d.job.src)) =
      some (true, false, 0, 2, [1, 1]) := by decide +kernel
  have h4 : byteAt (s.mem LiveEx.url).1 0 = 7 := by decide +kernel
  unfold Explained at h
  cases hl : last LiveEx.url 0 s.ended with
  | none => rw [hl] at h1; cases h1
  | some d =>
    rw [hl] at h1 h
    obtain ⟨con, ticket, url, ⟨z, o, n, fl, ca, bu, sr⟩, ok⟩ := d
    simp only [Option.map_some, Option.some.injEq, Prod.mk.injEq] at h1
    obtain ⟨rfl, rfl, rfl, rfl, rfl⟩ := h1
    have h3 := (h rfl).2
    rw [h4] at h3
    have h5 : (7 : Byte) = 1 := h3
    exact absurd h5 (by decide)

/-- C83, with `remove_timeout` 0: the removal is answered with success while the operation runs, and the operation changes the image after it. -/
theorem C83_counterexample_zero_timeout : ∃ acts s s', Live.run (LiveEx.E 0) (start (LiveEx.E 0) LiveEx.mem) acts = some s ∧
    Auth.Event.deleted "t" (.ok (some 0)) ∈ s.auth.log ∧ step (LiveEx.E 0) s (.call 1) = some s' ∧
    (s.mem LiveEx.url).1 = [7, 7, 7, 7, 7, 7, 7, 7] ∧ (s'.mem LiveEx.url).1 = [7, 1, 2, 7, 7, 7, 7, 7] := by
  let as := LiveEx.apart.take 10 ++ List.replicate 4 (.call 1) ++ [.auth (.delStart 0 "t"), .auth (.delCancel 0)]
  let s := LiveEx.after (LiveEx.E 0) (start (LiveEx.E 0) LiveEx.mem) as
  let s' := LiveEx.after (LiveEx.E 0) s [.call 1]
  have h : Live.run (LiveEx.E 0) s [.call 1] = some s' := LiveEx.run_after (by decide +kernel)
  refine ⟨as, s, s', LiveEx.run_after (by decide +kernel), by decide +kernel, ?_, by decide +kernel, by decide +kernel⟩
  simp only [Live.run] at h
  cases h1 : step (LiveEx.E 0) s (.call 1) with
  | none => rw [h1] at h; cases h
  | some x => rw [h1] at h; exact h

/-! An NBD server with block size 1, and two uploads to neighbouring bytes. -/

namespace LiveEx

def N : Env NbdBackend.State (Bytes × Bytes) Bytes := nbdEnv 1 wholeBody ⟨10, 60⟩ nbdOpened

def neighbours : List (Act Bytes) := acts (putJob 0 [1, 1]) (putJob 2 [2, 2]) ((List.replicate 3 [Act.call 1, Act.call 2]).flatten)

end LiveEx

/-- The hypotheses of the theorems about NBD hold for it, and both uploads are stored. -/
example : Throughout LiveEx.N LiveEx.mem LiveEx.neighbours (Apart 1) ∧
    (Throughout LiveEx.N LiveEx.mem LiveEx.neighbours fun s => ∀ c j r, Active s c j r → Sensible 1 wholeBodyLaw j) ∧
    ((Live.run LiveEx.N (start LiveEx.N LiveEx.mem) LiveEx.neighbours).map fun s =>
      (s.ended.map LiveEx.seen, (s.mem LiveEx.url).1)) = some ([(1, 0, true), (2, 1, true)], [1, 1, 2, 2, 7, 7, 7, 7]) := by
  have hm : ∀ c id j, Act.request c id j ∈ LiveEx.neighbours → (c = 1 ∧ j = putJob 0 [1, 1]) ∨ (c = 2 ∧ j = putJob 2 [2, 2]) := by
    intro c id j h
    simp only [LiveEx.neighbours, LiveEx.acts, LiveEx.begins, LiveEx.ends, List.replicate, List.flatten_cons, List.flatten_nil,
      List.mem_append, List.mem_cons, List.not_mem_nil, or_false, reduceCtorEq, false_or, Act.request.injEq] at h
    rcases h with ⟨h1, _, h3⟩ | ⟨h1, _, h3⟩
    · exact .inl ⟨h1, h3⟩
    · exact .inr ⟨h1, h3⟩
  refine ⟨requests_apart ?_, requests_all fun c id j h => ?_, by decide +kernel⟩
  · intro c c' id id' j j' x y h1 h2 hx hy he
    unfold InRange at hx hy
    rw [Nat.div_one, Nat.div_one] at he
    rcases hm c id j h1 with ⟨rfl, rfl⟩ | ⟨rfl, rfl⟩ <;> rcases hm c' id' j' h2 with ⟨rfl, rfl⟩ | ⟨rfl, rfl⟩ <;>
      simp only [putJob, List.length_cons, List.length_nil] at hx hy <;> first | rfl | omega
  · rcases hm c id j h with ⟨rfl, rfl⟩ | ⟨rfl, rfl⟩
    all_goals exact fun _ => ⟨by decide, by decide, trivial⟩

end Imageio.Props
