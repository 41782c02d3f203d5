import Verif.Lemmas.System
import Verif.Props.History

/-! C79: the whole server. -/
namespace Imageio.Props
open Imageio.Images Imageio.Spec Imageio.System Imageio.Http Imageio.Ops

/-- The requests of the execution use a buffer that fits the storage, and announce the length of
their body as RFC 7230 says. -/
def SoundRequests {σ : Type} (E : Env σ) (acts : List System.Act) : Prop :=
  ∀ c r, System.Act.request c r ∈ acts →
    0 < r.buf.length ∧ r.buf.length % E.B.blockSize = 0 ∧ ∃ n, Announces r.header n

theorem conn_fresh (r : Request) : Fresh r.conn := ⟨rfl, rfl, rfl, rfl, rfl, rfl, rfl⟩

/-- What a request does to the bytes of the disk. -/
theorem handle_effect {σ : Type} {E : Env σ} (L : Lawful E.B) {r : Request} (hb : 0 < r.buf.length)
    (hbs : r.buf.length % E.B.blockSize = 0) {n : Nat} (hn : Announces r.header n) (a : Access) {s : σ} (hi : L.Inv s) :
    L.Inv (handle E a r s).2.1 ∧ ∀ i, L.content (handle E a r s).2.1 i ≠ L.content s i →
      r.job.op = "write" ∧ (i : Int) < a.size := by
  unfold handle
  cases hj : r.job with
  | put q =>
    simp only [Job.op, true_and]
    have hp := (put_post L r.buf.length hb hbs a q s hi r.conn.rest n r.conn ((conn_fresh r).synced hn)).2
    generalize put E.B r.buf.length a q s r.conn = x at hp
    obtain ⟨res, s', c'⟩ := x
    simp only at hp ⊢
    cases hp with
    | done offset fl ho hf ha hnr hnc hle hlen inv content rest =>
      refine ⟨inv, fun i hne => ?_⟩
      by_cases hin : offset ≤ i ∧ i < offset + (r.conn.rest.take n).length
      · rw [List.length_take] at hin; omega
      · exact absurd (by rw [content, store_outside]; exact hin) hne
    | refused e he why => exact ⟨hi, fun i hne => absurd rfl hne⟩
    | part offset k e he ho hle hk hk2 inv content rest =>
      refine ⟨inv, fun i hne => ?_⟩
      by_cases hin : offset ≤ i ∧ i < offset + (r.conn.rest.take k).length
      · rw [List.length_take] at hin; omega
      · exact absurd (by rw [content, store_outside]; exact hin) hne
    | failed offset e he ho hle damaged =>
      refine ⟨damaged.inv, fun i hne => ?_⟩
      by_cases hin : offset ≤ i ∧ i < offset + n
      · omega
      · exact absurd (damaged.outside i hin) hne
  | get q =>
    have hf := get_frame L a q r.buf hbs s hi r.conn
    exact ⟨hf.inv, fun i hne => absurd (congrFun hf.content i) hne⟩
  | patch t =>
    simp only [Job.op, true_and]
    have hp := (patch_post_any L a E.loads t s hi r.conn.rest n r.conn ((conn_fresh r).synced hn)).2
    generalize patch E.B a E.loads t s r.conn = x at hp
    obtain ⟨res, s', c'⟩ := x
    simp only at hp ⊢
    cases hp with
    | refused => exact ⟨hi, fun i hne => absurd rfl hne⟩
    | flush _ _ _ _ post => exact ⟨post.inv, fun i hne => absurd (congrFun post.content i) hne⟩
    | zero msg _ hm hop post =>
      cases post with
      | done size offset fl h1 h2 h3 _ _ _ hle inv content =>
        refine ⟨inv, fun i hne => ?_⟩
        by_cases hin : offset ≤ i ∧ i < offset + (zeros size).length
        · rw [zeros_length] at hin; omega
        · exact absurd (by rw [content, store_outside]; exact hin) hne
      | refused => exact ⟨hi, fun i hne => absurd rfl hne⟩
      | part size offset k h1 h2 hle hk inv content =>
        refine ⟨inv, fun i hne => ?_⟩
        by_cases hin : offset ≤ i ∧ i < offset + (zeros k).length
        · rw [zeros_length] at hin; omega
        · exact absurd (by rw [content, store_outside]; exact hin) hne
      | failed size offset e he h1 h2 hle damaged =>
        refine ⟨damaged.inv, fun i hne => ?_⟩
        by_cases hin : offset ≤ i ∧ i < offset + size
        · omega
        · exact absurd (damaged.outside i hin) hne

/-! ## Executions -/

theorem good_start {σ : Type} {E : Env σ} (disk : Str → σ) : Good E (start disk) [] (start disk) :=
  ⟨⟨[], rfl⟩, by simp [Busy, start], by simp [start], by simp [start], by simp [start], by simp [start]⟩

theorem good_more {σ : Type} {E : Env σ} {s0 : Sys σ} {acts more : List System.Act} {s s' : Sys σ}
    (hr : System.run E s0 acts = some s) (hg : Good E s0 acts s) (hm : System.run E s more = some s') :
    Good E s0 (acts ++ more) s' := by
  induction more generalizing acts s with
  | nil => cases hm; simpa using hg
  | cons a more ih =>
    simp only [System.run] at hm
    split at hm
    · cases hm
    · rename_i s1 h1
      have := ih (acts := acts ++ [a]) (s := s1) (by rw [System.run_append, hr]; simp [System.run, h1])
        (hg.step hr (Move.of_step hg.busy h1)) hm
      simpa using this

theorem good_run {σ : Type} {E : Env σ} {disk : Str → σ} {acts : List System.Act} {s : Sys σ}
    (hr : System.run E (start disk) acts = some s) : Good E (start disk) acts s := by
  simpa using good_more (acts := []) rfl (good_start disk) hr

/-- The url of a ticket object never changes. -/
theorem url_step {σ : Type} {E : Env σ} {s s' : Sys σ} {a : System.Act} (hm : Move E s a s') {r : Nat}
    (hr : r < s.auth.nextTicket) : s'.url r = s.url r := by
  cases hm <;> first | rfl | (show Auth.upd _ _ _ _ = _; rw [Auth.upd_other _ _ (by omega)])

theorem more_auth {σ : Type} {E : Env σ} {s0 : Sys σ} {acts more : List System.Act} {s s' : Sys σ}
    (hr : System.run E s0 acts = some s) (hg : Good E s0 acts s) (hm : System.run E s more = some s') :
    ∃ as, Auth.run E.cfg s.auth as = some s'.auth := by
  induction more generalizing acts s with
  | nil => cases hm; exact ⟨[], rfl⟩
  | cons a more ih =>
    simp only [System.run] at hm
    split at hm
    · cases hm
    · rename_i s1 h1
      have hmv := Move.of_step hg.busy h1
      obtain ⟨bs, hbs⟩ := ih (acts := acts ++ [a]) (s := s1) (by rw [System.run_append, hr]; simp [System.run, h1])
        (hg.step hr hmv) hm
      obtain ⟨as, has⟩ := hmv.auth_run
      exact ⟨as ++ bs, by rw [Auth.run_append, has]; exact hbs⟩

/-- The ticket object that was presented is there, with the operations it had. -/
theorem presented_ticket {σ : Type} {E : Env σ} {disk : Str → σ} {acts : List System.Act} {s : Sys σ}
    (hr : System.run E (start disk) acts = some s) {c : Nat} {q : Request} {r : Nat}
    (hp : Presented E (start disk) acts c q r) :
    ∃ t, s.auth.tickets r = some t ∧ Allows t.attrs.ops q.job.op := by
  obtain ⟨before, after, s1, h1, h2, id, op, hn, h3, t, h4, h5, h6, h7⟩ := hp
  rw [(needs_eq hn).2] at h7
  have g1 := good_run h2
  rw [h1, System.run_append, h2] at hr
  simp only [Option.bind_some] at hr
  obtain ⟨as, has⟩ := more_auth h2 g1 hr
  obtain ⟨t', ht', he⟩ := Auth.run_evolve g1.reach.inv has h4
  exact ⟨t', ht', by rw [he.attrs]; exact h7⟩

/-- C79: one step of the server.  A step changes the state of a disk only when it answers a request whose operation
was run, with a ticket object that has the url of this disk; it changes bytes only if the request is an upload or a
PATCH, the ticket allows writing, and the bytes are below the size of the ticket. -/
theorem C79_step {σ : Type} {E : Env σ} (L : Lawful E.B) {disk : Str → σ} {acts : List System.Act} {a : System.Act}
    {s s' : Sys σ} (hq : SoundRequests E acts) (hr : System.run E (start disk) acts = some s)
    (hi : ∀ u, L.Inv (s.disk u)) (hs : System.step E s a = some s') :
    (∀ u, L.Inv (s'.disk u)) ∧
    ∀ u, (s'.disk u ≠ s.disk u) → ∃ e r t, s'.answered = s.answered ++ [e] ∧ e.ran = true ∧ e.ticket = some r ∧
      s.url r = u ∧ s.auth.tickets r = some t ∧ Allows t.attrs.ops e.req.job.op ∧
      ∀ i, L.content (s'.disk u) i ≠ L.content (s.disk u) i →
        e.req.job.op = "write" ∧ "write" ∈ t.attrs.ops ∧ i < t.attrs.size := by
  have hg := good_run hr
  have same : s'.disk = s.disk → (∀ u, L.Inv (s'.disk u)) ∧
    ∀ u, (s'.disk u ≠ s.disk u) → ∃ e r t, s'.answered = s.answered ++ [e] ∧ e.ran = true ∧ e.ticket = some r ∧
      s.url r = u ∧ s.auth.tickets r = some t ∧ Allows t.attrs.ops e.req.job.op ∧
      ∀ i, L.content (s'.disk u) i ≠ L.content (s.disk u) i →
        e.req.job.op = "write" ∧ "write" ∈ t.attrs.ops ∧ i < t.attrs.size := by
    intro h
    rw [h]
    exact ⟨hi, fun u hne => absurd rfl hne⟩
  cases Move.of_step hg.busy hs with
  | ran c r i k p t tk x hp hs' hpc htk hau hsz hre hca hcs ht =>
    have hpr := hg.presented c p r hp (by rw [hpc]; rfl)
    obtain ⟨t', ht', hal⟩ := presented_ticket hr hpr
    rw [htk] at ht'; cases ht'
    obtain ⟨before, after, s1, h1, _⟩ := hpr
    obtain ⟨q1, q2, n, q3⟩ := hq c p.req (by rw [h1]; simp)
    have hctx : (s.auth.ctxs k).ticket = r := (hg.reach.inv.busy c r i k (by rw [hpc]; rfl)).2.2.1
    obtain ⟨e1, e2⟩ := handle_effect L q1 q2 q3 x (hi (s.url r))
    have hd : ∀ u, (System.finish E { s with auth := t } c (some r) (s.url (s.auth.ctxs k).ticket) true x p.req).disk u =
        if u = s.url r then (handle E x p.req (s.disk (s.url r))).2.1 else s.disk u := by
      intro u
      simp only [System.finish, Auth.upd, hctx, serve]
    refine ⟨fun u => ?_, fun u hne => ?_⟩
    · rw [hd]
      split
      · exact e1
      · exact hi u
    · rw [hd] at hne ⊢
      by_cases hu : u = s.url r
      · rw [if_pos hu]
        subst hu
        refine ⟨⟨c, some r, p.req, true, _⟩, r, tk, rfl, rfl, rfl, rfl, htk, hal, fun j hj => ?_⟩
        obtain ⟨f1, f2⟩ := e2 j hj
        rw [hsz] at f2
        refine ⟨f1, ?_, by omega⟩
        rw [f1] at hal
        rcases hal with h | ⟨h, _⟩
        · exact h
        · exact absurd h (by decide)
      · rw [if_neg hu] at hne
        exact absurd rfl hne
  | _ => exact same rfl

/-- The disks stay usable. -/
theorem disks_inv {σ : Type} {E : Env σ} (L : Lawful E.B) {disk : Str → σ} {acts more : List System.Act} {s s' : Sys σ}
    (hq : SoundRequests E (acts ++ more)) (hr : System.run E (start disk) acts = some s) (hi : ∀ u, L.Inv (s.disk u))
    (hm : System.run E s more = some s') : ∀ u, L.Inv (s'.disk u) := by
  induction more generalizing acts s with
  | nil => cases hm; exact hi
  | cons a more ih =>
    simp only [System.run] at hm
    split at hm
    · cases hm
    · rename_i s1 h1
      refine ih (acts := acts ++ [a]) (s := s1) (by simpa using hq) (by rw [System.run_append, hr]; simp [System.run, h1]) ?_ hm
      exact (C79_step L (fun c r h => hq c r (by simp [h])) hr hi h1).1

theorem answered_step {σ : Type} {E : Env σ} {s s' : Sys σ} {a : System.Act} (hm : Move E s a s') :
    ∃ new, s'.answered = s.answered ++ new ∧ ∀ e ∈ new, e.ran = true → ∃ c r i k, e.ticket = some r ∧
      (s.auth.conns c).pc = .ended r i k := by
  cases hm with
  | other => exact ⟨[], by simp⟩
  | add => exact ⟨[], by simp⟩
  | accepted => exact ⟨[], by simp⟩
  | looked => exact ⟨[], by simp⟩
  | early => exact ⟨[_], rfl, by simp⟩
  | refused => exact ⟨[_], rfl, by simp⟩
  | stopped => exact ⟨[_], rfl, by simp⟩
  | ran c r i k p t tk x hp hs hpc =>
    refine ⟨[_], rfl, fun e he _ => ?_⟩
    simp only [List.mem_singleton] at he
    subst he
    exact ⟨c, r, i, k, rfl, hpc⟩

/-- C79: the integrity of the disks.  Between any two moments of any execution of the server (requests on any number of
connections, tickets added, extended and removed, expiring), a byte of a disk is changed only by an upload or PATCH that was answered in
between (`new`), whose operation was run, with a ticket object with the url of this disk, that allows writing and
is larger than the position of the byte; and when the request was made, its ticket id was the id of this ticket object,
which was not expired and not canceled. -/
theorem C79_integrity {σ : Type} {E : Env σ} (L : Lawful E.B) {disk : Str → σ} (hi : ∀ u, L.Inv (disk u))
    {acts more : List System.Act} {s s' : Sys σ} (hq : SoundRequests E (acts ++ more))
    (hr : System.run E (start disk) acts = some s) (hm : System.run E s more = some s') :
    ∃ new, s'.answered = s.answered ++ new ∧
      ∀ u i, L.content (s'.disk u) i ≠ L.content (s.disk u) i → ∃ e ∈ new, ∃ r t, e.ran = true ∧ e.req.job.op = "write" ∧
        e.ticket = some r ∧ s'.url r = u ∧ s'.auth.tickets r = some t ∧ "write" ∈ t.attrs.ops ∧ i < t.attrs.size ∧
        Presented E (start disk) (acts ++ more) e.con e.req r := by
  have hi0 : ∀ u, L.Inv (s.disk u) :=
    disks_inv (acts := []) L (fun c r h => hq c r (by simp at h; simp [h])) rfl hi hr
  clear hi
  induction more generalizing acts s with
  | nil => cases hm; exact ⟨[], by simp, fun u i h => absurd rfl h⟩
  | cons a more ih =>
    simp only [System.run] at hm
    split at hm
    · cases hm
    · rename_i s1 h1
      have hr1 : System.run E (start disk) (acts ++ [a]) = some s1 := by
        rw [System.run_append, hr]; simp [System.run, h1]
      have hg := good_run hr
      have hmv := Move.of_step hg.busy h1
      have hg1 := good_run hr1
      obtain ⟨j1, j2⟩ := C79_step L (fun c r h => hq c r (by simp [h])) hr hi0 h1
      obtain ⟨new, n1, n2⟩ := ih (acts := acts ++ [a]) (s := s1) (by simpa using hq) hr1 hm j1
      obtain ⟨new0, m1, m2⟩ := answered_step hmv
      refine ⟨new0 ++ new, by rw [n1, m1, List.append_assoc], fun u i hne => ?_⟩
      by_cases hc : L.content (s'.disk u) i = L.content (s1.disk u) i
      · rw [hc] at hne
        have hd : s1.disk u ≠ s.disk u := fun h => hne (by rw [h])
        obtain ⟨e, r, t, d1, d2, d3, d4, d5, d6, d7⟩ := j2 u hd
        obtain ⟨d8, d9, d10⟩ := d7 i hne
        have he : e ∈ new0 := by
          have : new0 = [e] := List.append_cancel_left (m1.symm.trans d1)
          simp [this]
        have hpr : Presented E (start disk) (acts ++ [a] ++ more) e.con e.req r :=
          presented_append (hg1.answered e (by rw [d1]; simp) r d3) more
        obtain ⟨as, has⟩ := more_auth hr hg (show System.run E s (a :: more) = some s' by simp only [System.run, h1, hm])
        obtain ⟨t', ht', hev⟩ := Auth.run_evolve hg.reach.inv has d5
        refine ⟨e, by simp [he], r, t', d2, d8, d3, ?_, ht', by rw [hev.attrs]; exact d9, by rw [hev.attrs]; exact d10,
          by simpa using hpr⟩
        -- the url of the ticket
        have hlt := hg.reach.inv.fresh r t d5
        have hurl : ∀ (more : List System.Act) (acts : List System.Act) (x : Sys σ), System.run E (start disk) acts = some x →
            r < x.auth.nextTicket → System.run E x more = some s' → s'.url r = x.url r := by
          intro more
          induction more with
          | nil => intro acts x _ _ hx; cases hx; rfl
          | cons b more ihm =>
            intro acts x hx hlt hx'
            simp only [System.run] at hx'
            split at hx'
            · cases hx'
            · rename_i y hy
              have hmv := Move.of_step (good_run hx).busy hy
              have hlt' : r < y.auth.nextTicket := by
                cases hmv with
                | other _ _ _ hs => exact Nat.lt_of_lt_of_le hlt (Auth.Step.of_step hs).nextTicket
                | add _ _ _ hs => exact Nat.lt_of_lt_of_le hlt (Auth.Step.of_step hs).nextTicket
                | early => exact hlt
                | refused _ _ _ _ _ hs => exact Nat.lt_of_lt_of_le hlt (Auth.Step.of_step hs).nextTicket
                | accepted _ _ _ _ _ _ hs => exact Nat.lt_of_lt_of_le hlt (Auth.Step.of_step hs).nextTicket
                | stopped _ _ _ _ _ _ _ _ _ hs => exact Nat.lt_of_lt_of_le hlt (Auth.Step.of_step hs).nextTicket
                | looked _ _ _ _ _ _ _ _ hs => exact Nat.lt_of_lt_of_le hlt (Auth.Step.of_step hs).nextTicket
                | ran _ _ _ _ _ _ _ _ _ hs => exact Nat.lt_of_lt_of_le hlt (Auth.Step.of_step hs).nextTicket
              rw [ihm (acts ++ [b]) y (by rw [System.run_append, hx]; simp [System.run, hy]) hlt' hx', url_step hmv hlt]
        rw [hurl (a :: more) acts s hr hlt (by simp only [System.run, h1, hm]), d4]
      · obtain ⟨e, he, r, t, rest⟩ := n2 u i hc
        exact ⟨e, by simp [he], r, t, by simpa using rest⟩

/-! ## The answers -/

/-- No answer reached the client, or an error. -/
def ErrorAnswer (c : Conn) : Prop := c.body = [] ∧ (c.sent = [] ∨ ∃ code, 400 ≤ code ∧ c.sent = [code])

theorem refusal_answer {σ : Type} {s : σ} {r : Request} {x : Except HErr Unit × σ × Conn} (h : Refusal s r.conn x) (lost : Bool) :
    ErrorAnswer (serve lost x).2 := by
  obtain ⟨e, he, hc⟩ := h.error
  unfold serve ErrorAnswer
  refine ⟨by rw [(finish_fields _ _ _).1, h.body]; rfl, ?_⟩
  rcases finish_sent (lost := lost) (r := x.1) (c := x.2.2) (h.started.trans rfl) (h.sent.trans rfl) with h1 | h1
  · exact .inl h1
  · exact .inr ⟨errorCode e, hc, by rw [h1, he]⟩

theorem reply_step {σ : Type} {E : Env σ} {s s' : Sys σ} {a : System.Act} (hm : Move E s a s') {e : Answered}
    (he : s'.answered = s.answered ++ [e]) (hr : e.ran = false) : ErrorAnswer e.conn := by
  have key : ∀ {x : Sys σ} {c : Nat} {k : Option Nat} {y : Access} {q : Request} {d : σ},
      x.answered = s.answered → (y.auth ≠ none ∨ y.refused = true) →
      (x.reply E c k y q d).answered = s.answered ++ [e] → ErrorAnswer e.conn := by
    intro x c k y q d hx hy h
    simp only [Sys.reply, hx] at h
    have := List.append_cancel_left h
    simp only [List.cons.injEq, and_true] at this
    rw [← this]
    exact refusal_answer (handle_refusal E y q d hy) _
  cases hm with
  | other => simp at he
  | add => simp at he
  | accepted => simp at he
  | looked => simp at he
  | early => exact key rfl (.inl (by simp [denied])) he
  | refused => exact key rfl (.inl (by simp [denied])) he
  | stopped _ _ _ _ _ _ _ _ _ _ _ _ hx => exact key rfl hx he
  | ran c r i k p t tk x hp hs hpc =>
    simp only [System.finish] at he
    have := List.append_cancel_left he
    simp only [List.cons.injEq, and_true] at this
    rw [← this] at hr
    cases hr

theorem answered_one {σ : Type} {E : Env σ} {s s' : Sys σ} {a : System.Act} (hm : Move E s a s') :
    s'.answered = s.answered ∨ ∃ e, s'.answered = s.answered ++ [e] := by
  cases hm with
  | other => exact .inl rfl
  | add => exact .inl rfl
  | accepted => exact .inl rfl
  | looked => exact .inl rfl
  | early => exact .inr ⟨_, rfl⟩
  | refused => exact .inr ⟨_, rfl⟩
  | stopped => exact .inr ⟨_, rfl⟩
  | ran => exact .inr ⟨_, rfl⟩

/-- C79: a request that did not get a ticket, or whose operation was not run, sends no byte of any disk, and is answered with an
error (or not at all). -/
theorem C79_not_run {σ : Type} {E : Env σ} {disk : Str → σ} {acts : List System.Act} {s : Sys σ}
    (hr : System.run E (start disk) acts = some s) : ∀ e ∈ s.answered, e.ran = false → ErrorAnswer e.conn := by
  suffices ∀ (more acts : List System.Act) (x : Sys σ), System.run E (start disk) acts = some x →
      System.run E x more = some s → (∀ e ∈ x.answered, e.ran = false → ErrorAnswer e.conn) →
      ∀ e ∈ s.answered, e.ran = false → ErrorAnswer e.conn from this acts [] (start disk) rfl hr (by simp [start])
  intro more
  induction more with
  | nil => intro acts x _ hx h; cases hx; exact h
  | cons a more ih =>
    intro acts x hx hx' h
    simp only [System.run] at hx'
    split at hx'
    · cases hx'
    · rename_i y hy
      have hmv := Move.of_step (good_run hx).busy hy
      refine ih (acts ++ [a]) y (by rw [System.run_append, hx]; simp [System.run, hy]) hx' fun e he hra => ?_
      rcases answered_one hmv with h1 | ⟨e', h1⟩
      · exact h e (by rwa [h1] at he) hra
      · rw [h1, List.mem_append, List.mem_singleton] at he
        rcases he with he | he
        · exact h e he hra
        · subst he
          exact reply_step hmv h1 hra

/-- C79: after the removal of a ticket was answered with success, no operation of this ticket object is run any more:
every request with it is answered with an error, and the bytes of the disks are changed only with other ticket objects.
(With `remove_timeout` 0 and for ticket *ids* this is false: `C79_counterexample_removed`.) -/
theorem C79_revoked {σ : Type} {E : Env σ} (L : Lawful E.B) {disk : Str → σ} (hi : ∀ u, L.Inv (disk u))
    (hc : E.cfg.removeTimeout ≠ 0) {acts more : List System.Act} {s s' : Sys σ} (hq : SoundRequests E (acts ++ more))
    (hr : System.run E (start disk) acts = some s) (hm : System.run E s more = some s') {id : String} {r : Nat}
    (hdel : Auth.Event.deleted id (.ok (some r)) ∈ s.auth.log) :
    ∃ new, s'.answered = s.answered ++ new ∧
      (∀ e ∈ new, e.ticket = some r → e.ran = false ∧ ErrorAnswer e.conn) ∧
      ∀ u i, L.content (s'.disk u) i ≠ L.content (s.disk u) i →
        ∃ e ∈ new, ∃ r', e.ran = true ∧ e.ticket = some r' ∧ r' ≠ r ∧ s'.url r' = u := by
  obtain ⟨new, n1, n2⟩ := C79_integrity L hi hq hr hm
  have hdead : Auth.Dead s.auth r := by
    obtain ⟨pre, post, hl⟩ := List.append_of_mem hdel
    exact (Auth.deleted_dead hc (good_run hr).reach id r pre post hl).1
  have hran : ∀ e ∈ new, e.ran = true → e.ticket ≠ some r := by
    clear n2 hq hdel hi L
    induction more generalizing acts s new with
    | nil => cases hm; have := List.append_cancel_left (n1.symm.trans (List.append_nil _).symm); simp [this]
    | cons a more ih =>
      simp only [System.run] at hm
      split at hm
      · cases hm
      · rename_i y hy
        have hg := good_run hr
        have hmv := Move.of_step hg.busy hy
        obtain ⟨new0, m1, m2⟩ := answered_step hmv
        have hr' : System.run E (start disk) (acts ++ [a]) = some y := by
          rw [System.run_append, hr]; simp [System.run, hy]
        have hd' : Auth.Dead y.auth r := by
          obtain ⟨as, has⟩ := hmv.auth_run
          obtain ⟨t, ht, hca, hon⟩ := hdead
          obtain ⟨t', ht', hev⟩ := Auth.run_evolve hg.reach.inv has ht
          exact ⟨t', ht', hev.canceled hca, hev.ongoing hca hon⟩
        obtain ⟨new1, k1, _⟩ : ∃ new1, s'.answered = y.answered ++ new1 ∧ True := by
          have : ∀ (more acts : List System.Act) (x : Sys σ), System.run E (start disk) acts = some x →
              System.run E x more = some s' → ∃ n, s'.answered = x.answered ++ n := by
            intro more
            induction more with
            | nil => intro acts x _ hx; cases hx; exact ⟨[], by simp⟩
            | cons b more ihb =>
              intro acts x hx hx'
              simp only [System.run] at hx'
              split at hx'
              · cases hx'
              · rename_i z hz
                obtain ⟨n0, h0, _⟩ := answered_step (Move.of_step (good_run hx).busy hz)
                obtain ⟨n, hn⟩ := ihb (acts ++ [b]) z (by rw [System.run_append, hx]; simp [System.run, hz]) hx'
                exact ⟨n0 ++ n, by rw [hn, h0, List.append_assoc]⟩
          obtain ⟨n, hn⟩ := this more (acts ++ [a]) y hr' hm
          exact ⟨n, hn, trivial⟩
        have hnew : new = new0 ++ new1 := by
          rw [k1, m1, List.append_assoc] at n1
          exact (List.append_cancel_left n1).symm
        intro e he hre htk
        rw [hnew, List.mem_append] at he
        rcases he with he | he
        · obtain ⟨c, r', i, k, e1, e2⟩ := m2 e he hre
          rw [htk] at e1
          cases e1
          exact Auth.busy_ongoing hg.reach.inv (c := c) (by rw [e2]; rfl) hdead
        · exact ih hr' hm new1 k1 hd' e he hre htk
  refine ⟨new, n1, fun e he htk => ?_, fun u i hne => ?_⟩
  · have hf : e.ran = false := by
      cases hx : e.ran with
      | false => rfl
      | true => exact absurd htk (hran e he hx)
    have hr' : System.run E (start disk) (acts ++ more) = some s' := by rw [System.run_append, hr]; exact hm
    exact ⟨hf, C79_not_run hr' e (by rw [n1]; simp [he]) hf⟩
  · obtain ⟨e, he, r', t, h1, _, h3, h4, _⟩ := n2 u i hne
    exact ⟨e, he, r', h1, h3, fun h => hran e he h1 (by rw [h3, h]), h4⟩

/-- What is known of an entry whose operation ran. -/
theorem ran_step {σ : Type} {E : Env σ} {disk : Str → σ} {acts : List System.Act} {a : System.Act} {s s' : Sys σ}
    (hr : System.run E (start disk) acts = some s) (hs : System.step E s a = some s') {e : Answered}
    (he : s'.answered = s.answered ++ [e]) (hra : e.ran = true) :
    ∃ r t x, e.ticket = some r ∧ s.auth.tickets r = some t ∧ Allows t.attrs.ops e.req.job.op ∧
      Presented E (start disk) acts e.con e.req r ∧ x.auth = none ∧ x.size = (t.attrs.size : Int) ∧ x.canceled = t.canceled ∧
      s'.url = s.url ∧ e.conn = (serve e.req.lost (handle E x e.req (s.disk (s.url r)))).2 ∧
      s'.disk = Auth.upd s.disk (s.url r) (serve e.req.lost (handle E x e.req (s.disk (s.url r)))).1 := by
  have hg := good_run hr
  have key : ∀ {x : Sys σ} {c : Nat} {k : Option Nat} {y : Access} {q : Request} {d : σ},
      x.answered = s.answered → (x.reply E c k y q d).answered = s.answered ++ [e] → False := by
    intro x c k y q d hx h
    simp only [Sys.reply, hx] at h
    have := List.append_cancel_left h
    simp only [List.cons.injEq, and_true] at this
    rw [← this] at hra
    cases hra
  cases Move.of_step hg.busy hs with
  | other => simp at he
  | add => simp at he
  | accepted => simp at he
  | looked => simp at he
  | early => exact (key rfl he).elim
  | refused => exact (key rfl he).elim
  | stopped => exact (key rfl he).elim
  | ran c r i k p t tk x hp hs' hpc htk hau hsz hre hca hcs ht =>
    have hpr := hg.presented c p r hp (by rw [hpc]; rfl)
    obtain ⟨t', ht', hal⟩ := presented_ticket hr hpr
    rw [htk] at ht'; cases ht'
    have hctx : (s.auth.ctxs k).ticket = r := (hg.reach.inv.busy c r i k (by rw [hpc]; rfl)).2.2.1
    simp only [System.finish] at he
    have := List.append_cancel_left he
    simp only [List.cons.injEq, and_true] at this
    subst this
    exact ⟨r, tk, x, rfl, htk, hal, hpr, hau, hsz, hca, rfl, by rw [hctx], by simp only [System.finish, hctx]⟩

theorem presented_sound {σ : Type} {E : Env σ} {s0 : Sys σ} {acts : List System.Act} (hq : SoundRequests E acts) {c : Nat}
    {q : Request} {r : Nat} (hp : Presented E s0 acts c q r) :
    0 < q.buf.length ∧ q.buf.length % E.B.blockSize = 0 ∧ ∃ n, Announces q.header n := by
  obtain ⟨before, after, s1, h1, _⟩ := hp
  exact hq c q (by rw [h1]; simp)

/-- C79: an upload answered with 200 was run with a ticket object that permitted it and was not canceled until the end; the
bytes of its body are in the disk of this ticket, at the offset of the request and inside the ticket, and no other byte of any disk changed. -/
theorem C79_upload {σ : Type} {E : Env σ} (L : Lawful E.B) {disk : Str → σ} {acts : List System.Act} {a : System.Act}
    {s s' : Sys σ} (hq : SoundRequests E acts) (hr : System.run E (start disk) acts = some s)
    (hi : ∀ u, L.Inv (s.disk u)) (hs : System.step E s a = some s') {e : Answered} {q : PutReq} {body next : Bytes}
    (he : s'.answered = s.answered ++ [e]) (hj : e.req.job = .put q) (hok : e.conn.sent = [200])
    (ha : Announces e.req.header body.length) (hrest : e.req.rest = body ++ next) :
    ∃ r t offset, e.ticket = some r ∧ s.auth.tickets r = some t ∧ "write" ∈ t.attrs.ops ∧
      Presented E (start disk) acts e.con e.req r ∧ UploadOffset q.contentRange offset ∧
      offset + body.length ≤ t.attrs.size ∧ t.canceled = false ∧
      ∀ u i, L.content (s'.disk u) i =
        if u = s.url r ∧ offset ≤ i ∧ i < offset + body.length then byteAt body (i - offset) else L.content (s.disk u) i := by
  have hra : e.ran = true := by
    cases hx : e.ran with
    | true => rfl
    | false =>
      obtain ⟨_, h | ⟨code, hc, h⟩⟩ := reply_step (Move.of_step (good_run hr).busy hs) he hx
      · rw [h] at hok; cases hok
      · rw [h] at hok; cases hok; omega
  obtain ⟨r, t, x, h1, h2, h3, h4, h5, h6, h7, _, h8, h9⟩ := ran_step hr hs he hra
  obtain ⟨q1, q2, _⟩ := presented_sound hq h4
  have hw : "write" ∈ t.attrs.ops := by
    rw [hj] at h3
    rcases h3 with h | ⟨h, _⟩
    · exact h
    · exact absurd (show "write" = "read" from h) (by decide)
  simp only [handle, hj] at h8 h9
  rw [h8] at hok
  obtain ⟨offset, o1, o2, o3, _⟩ := C08_put_exact L e.req.buf.length q1 q2 x q (s.disk (s.url r)) (hi _) e.req.conn
    (conn_fresh _) body next ha hrest e.req.lost hok
  have hnc : x.canceled = false := by
    have hp := put_post L e.req.buf.length q1 q2 x q (s.disk (s.url r)) (hi _) e.req.conn.rest body.length e.req.conn
      ((conn_fresh e.req).synced ha)
    unfold serve at hok
    generalize put E.B e.req.buf.length x q (s.disk (s.url r)) e.req.conn = y at hok hp
    obtain ⟨res, s1, c1⟩ := y
    obtain ⟨hn, hp⟩ := hp
    simp only at hn hp hok
    cases hp with
    | done _ _ _ _ _ _ hnc => exact hnc
    | refused e he => exact absurd hok (not_success (conn_fresh _) hn he (by decide) _)
    | part _ _ e he => exact absurd hok (not_success (conn_fresh _) hn he (by decide) _)
    | failed _ e he => exact absurd hok (not_success (conn_fresh _) hn he (by decide) _)
  refine ⟨r, t, offset, h1, h2, hw, h4, o1, by rw [h6] at o2; omega, by rw [← h7]; exact hnc, fun u i => ?_⟩
  rw [h9]
  by_cases hu : u = s.url r
  · subst hu
    rw [Auth.upd_same, o3]
    simp
  · rw [Auth.upd_other _ _ hu, if_neg (fun h => hu h.1)]

/-- C79: a download that was run sends exactly the bytes that were asked for, of the disk of its ticket object, or tells
the client that it failed. -/
theorem C79_download {σ : Type} {E : Env σ} (L : Lawful E.B) {disk : Str → σ} {acts : List System.Act} {a : System.Act}
    {s s' : Sys σ} (hq : SoundRequests E acts) (hr : System.run E (start disk) acts = some s)
    (hi : ∀ u, L.Inv (s.disk u)) (hs : System.step E s a = some s') {e : Answered} {q : GetReq}
    (he : s'.answered = s.answered ++ [e]) (hj : e.req.job = .get q) (hra : e.ran = true) :
    ∃ r t, e.ticket = some r ∧ s.auth.tickets r = some t ∧ Allows t.attrs.ops "read" ∧
      Presented E (start disk) acts e.con e.req r ∧
      ∀ offset size, Wanted (min t.attrs.size (E.B.size (s.disk (s.url r)))) q.range offset size →
        ∃ range, (q.range = none → range = none) ∧
          (q.range ≠ none → 0 < size → Describes range offset size t.attrs.size) ∧
          Download (load (L.content (s.disk (s.url r))) offset size) (if q.range = none then 200 else 206) range e.conn := by
  obtain ⟨r, t, x, h1, h2, h3, h4, h5, h6, h7, _, h8, h9⟩ := ran_step hr hs he hra
  obtain ⟨q1, q2, _⟩ := presented_sound hq h4
  rw [hj] at h3
  simp only [handle, hj] at h8 h9
  refine ⟨r, t, h1, h2, h3, h4, fun offset size hw => ?_⟩
  rw [← h6] at hw ⊢
  rw [h8]
  exact (C11_get_exact L x q e.req.buf q1 q2 (s.disk (s.url r)) (hi _) e.req.conn (conn_fresh _) offset size hw e.req.lost).1

/-- C79: bytes are sent only by downloads that were run, with a ticket object that permitted reading when the request was made;
they are bytes of the disk of this ticket.  Partial: and that are below the size of the ticket, except for open ranges that
begin after the end of the ticket (`C12_counterexample_open_range`). -/
theorem C79_confidential_partial {σ : Type} {E : Env σ} (L : Lawful E.B) {disk : Str → σ} {acts : List System.Act}
    {a : System.Act} {s s' : Sys σ} (hq : SoundRequests E acts) (hr : System.run E (start disk) acts = some s)
    (hi : ∀ u, L.Inv (s.disk u)) (hs : System.step E s a = some s') {e : Answered}
    (he : s'.answered = s.answered ++ [e]) (hb : e.conn.body ≠ []) :
    ∃ q r t, e.req.job = .get q ∧ e.ran = true ∧ e.ticket = some r ∧ s.auth.tickets r = some t ∧ Allows t.attrs.ops "read" ∧
      Presented E (start disk) acts e.con e.req r ∧
      ((∀ h first, q.range = some h → RangeHeader h (.fromTo first) →
          (first : Int) ≤ min t.attrs.size (E.B.size (s.disk (s.url r)))) →
        ∃ offset k, offset + k ≤ t.attrs.size ∧ e.conn.body = load (L.content (s.disk (s.url r))) offset k) := by
  have hra : e.ran = true := by
    cases hx : e.ran with
    | true => rfl
    | false => exact absurd (reply_step (Move.of_step (good_run hr).busy hs) he hx).1 hb
  obtain ⟨r, t, x, h1, h2, h3, h4, h5, h6, h7, _, h8, h9⟩ := ran_step hr hs he hra
  obtain ⟨q1, q2, n, q3⟩ := presented_sound hq h4
  unfold handle at h8
  cases hj : e.req.job with
  | put q =>
    simp only [hj] at h8
    have hp := (put_post L e.req.buf.length q1 q2 x q (s.disk (s.url r)) (hi _) e.req.conn.rest n e.req.conn
      ((conn_fresh e.req).synced q3)).1
    refine absurd ?_ hb
    rw [h8]
    unfold serve
    rw [(finish_fields _ _ _).1, hp.body]
    rfl
  | patch tid =>
    simp only [hj] at h8
    have hp := (patch_post_any L x E.loads tid (s.disk (s.url r)) (hi _) e.req.conn.rest n e.req.conn
      ((conn_fresh e.req).synced q3)).1
    refine absurd ?_ hb
    rw [h8]
    unfold serve
    rw [(finish_fields _ _ _).1, hp.body]
    rfl
  | get q =>
    simp only [hj] at h8
    rw [hj] at h3
    refine ⟨q, r, t, rfl, hra, h1, h2, h3, h4, fun hop => ?_⟩
    obtain ⟨o, k, o1, o2⟩ := C12_get_within_partial L x q e.req.buf q1 q2 (s.disk (s.url r)) (hi _) e.req.conn (conn_fresh _)
      e.req.lost (by rw [h6]; omega) (fun h f h1 h2 => by have := hop h f h1 h2; rw [h6]; omega)
    exact ⟨o, k, by rw [h6] at o1; omega, by rw [h8]; exact o2⟩

/-- C79: an operation can always end: what it saw of the cancel flag fits the state of its ticket. -/
theorem C79_fits {σ : Type} {E : Env σ} {disk : Str → σ} {acts : List System.Act} {s : Sys σ} {t : Auth.State} {c : Nat}
    (hr : System.run E (start disk) acts = some s) (hs : Auth.step E.cfg s.auth (.removeOp c) = some t) :
    ∃ s', System.step E s (.auth (.removeOp c)) = some s' ∧ s'.auth = t := by
  have hg := good_run hr
  simp only [System.step, hs, pendingOf, conOf]
  cases hp : s.pending c with
  | none => exact ⟨_, rfl, rfl⟩
  | some p =>
    simp only
    have hst := Auth.Step.of_step hs
    cases hst with
    | removeOp _ r i k tk op hpc htk hop =>
      simp only [proceed, hpc]
      have hfit : true ∈ p.cancels → (tk.removeOperation op).1 = true := by
        intro hc
        obtain ⟨r', i', k', t', h1, h2, h3⟩ := hg.cancels c p hp hc
        rw [hpc] at h1; cases h1
        rw [htk] at h2; cases h2
        simp only [Auth.Ticket.removeOperation, h3, if_true]
      have hpc' : ((((s.auth.setTicket r (tk.removeOperation op).2).event (.opEnd r (tk.removeOperation op).1)).goto c
          (if (tk.removeOperation op).1 then .idle else .touching r)).conns c).pc =
          if (tk.removeOperation op).1 then .idle else .touching r := by
        simp [Auth.State.goto, Auth.upd]
      simp only [hpc']
      unfold ranAccess
      rw [dif_pos (fun hc => by rw [hfit hc]; rfl)]
      exact ⟨_, rfl, rfl⟩

/-! ## The last write -/

/-- What the clients know of the disk `u` from the answers: the uploads and PATCH requests that were run with tickets for this
disk, in the order of their answers. -/
inductive KnowsDisk (loads : Bytes → Option Json) (url : Nat → Str) (u : Str) : List Answered → List Event → Prop
  | nil : KnowsDisk loads url u [] []
  | skip {l : List Answered} {evs : List Event} {e : Answered} (h : KnowsDisk loads url u l evs)
      (hs : e.ran = false ∨ e.req.job.op ≠ "write" ∨ ∀ r, e.ticket = some r → url r ≠ u) : KnowsDisk loads url u (l ++ [e]) evs
  | put {l : List Answered} {evs : List Event} {e : Answered} {q : PutReq} {r n : Nat} {ev : Event}
      (h : KnowsDisk loads url u l evs) (hr : e.ran = true) (ht : e.ticket = some r) (hu : url r = u) (hj : e.req.job = .put q)
      (ha : Announces e.req.header n) (hev : PutEvent q.contentRange n (e.req.rest.take n) e.conn.sent ev) :
      KnowsDisk loads url u (l ++ [e]) (evs ++ [ev])
  | patch {l : List Answered} {evs : List Event} {e : Answered} {tid : Str} {r n : Nat} {ev : Event}
      (h : KnowsDisk loads url u l evs) (hr : e.ran = true) (ht : e.ticket = some r) (hu : url r = u) (hj : e.req.job = .patch tid)
      (ha : Announces e.req.header n) (hev : PatchEvent (loads (e.req.rest.take n)) e.conn.sent ev) :
      KnowsDisk loads url u (l ++ [e]) (evs ++ [ev])

theorem knows_url {loads : Bytes → Option Json} {url url' : Nat → Str} {u : Str} {l : List Answered} {evs : List Event}
    (h : KnowsDisk loads url' u l evs) (hu : ∀ e ∈ l, ∀ r, e.ticket = some r → url' r = url r) : KnowsDisk loads url u l evs := by
  induction h with
  | nil => exact .nil
  | skip h hs ih =>
    refine .skip (ih fun e he => hu e (by simp [he])) ?_
    rcases hs with hs | hs | hs
    · exact .inl hs
    · exact .inr (.inl hs)
    · exact .inr (.inr fun r hr => by rw [← hu _ (by simp) r hr]; exact hs r hr)
  | put h hr ht hu' hj ha hev ih =>
    exact .put (ih fun e he => hu e (by simp [he])) hr ht (by rw [← hu _ (by simp) _ ht]; exact hu') hj ha hev
  | patch h hr ht hu' hj ha hev ih =>
    exact .patch (ih fun e he => hu e (by simp [he])) hr ht (by rw [← hu _ (by simp) _ ht]; exact hu') hj ha hev

theorem history_run {σ : Type} {E : Env σ} (L : Lawful E.B) {disk : Str → σ} {u : Str} (more : List System.Act) :
    ∀ (acts : List System.Act) (s s' : Sys σ), SoundRequests E (acts ++ more) → System.run E (start disk) acts = some s →
      System.run E s more = some s' →
      (∀ evs, KnowsDisk E.loads s.url u s.answered evs → History L (disk u) evs (s.disk u)) →
      ∀ evs, KnowsDisk E.loads s'.url u s'.answered evs → History L (disk u) evs (s'.disk u) := by
  induction more with
  | nil => intro acts s s' _ _ hm h; cases hm; exact h
  | cons a more ih =>
    intro acts s s' hq hr hm h
    simp only [System.run] at hm
    split at hm
    · cases hm
    · rename_i s1 h1
      refine ih (acts ++ [a]) s1 s' (by simpa using hq) (by rw [System.run_append, hr]; simp [System.run, h1]) hm ?_
      intro evs hk
      have hg := good_run hr
      have hmv := Move.of_step hg.busy h1
      have hurl : ∀ e ∈ s.answered, ∀ r, e.ticket = some r → s1.url r = s.url r := by
        intro e he r hte
        obtain ⟨t, ht, _⟩ := presented_ticket hr (hg.answered e he r hte)
        exact url_step hmv (hg.reach.inv.fresh r t ht)
      rcases answered_one hmv with hone | ⟨e, hone⟩
      · have hd : s1.disk = s.disk := by
          cases hmv <;> first | rfl | (exfalso; simp [System.finish] at hone)
        rw [hone] at hk
        rw [hd]
        exact h evs (knows_url hk hurl)
      · cases hra : e.ran with
        | false =>
          have hd : s1.disk = s.disk := by
            cases hmv with
            | ran c r i k p t tk x hp hs hpc =>
              simp only [System.finish] at hone
              have := List.append_cancel_left hone
              simp only [List.cons.injEq, and_true] at this
              rw [← this] at hra
              cases hra
            | _ => rfl
          rw [hd]
          rw [hone] at hk
          generalize hl : s.answered ++ [e] = l at hk
          cases hk with
          | nil => simp at hl
          | skip h' hs =>
            obtain ⟨rfl, he⟩ := List.append_inj' hl rfl
            exact h evs (knows_url h' hurl)
          | put h' hr' =>
            obtain ⟨_, he⟩ := List.append_inj' hl rfl
            simp only [List.cons.injEq, and_true] at he
            rw [he, hr'] at hra
            cases hra
          | patch h' hr' =>
            obtain ⟨_, he⟩ := List.append_inj' hl rfl
            simp only [List.cons.injEq, and_true] at he
            rw [he, hr'] at hra
            cases hra
        | true =>
          obtain ⟨r, t, x, e1, e2, e3, e4, e5, e6, e7, e8, e9, e10⟩ := ran_step hr h1 hone hra
          obtain ⟨q1, q2, _⟩ := presented_sound (fun c r h => hq c r (by simp [h])) e4
          rw [hone] at hk
          generalize hl : s.answered ++ [e] = l at hk
          cases hk with
          | nil => simp at hl
          | skip h' hs =>
            obtain ⟨rfl, he⟩ := List.append_inj' hl rfl
            simp only [List.cons.injEq, and_true] at he
            subst he
            have hh := h evs (knows_url h' hurl)
            rw [e10]
            by_cases hu : u = s.url r
            · rcases hs with hs | hs | hs
              · rw [hra] at hs; cases hs
              · rw [hu] at hh ⊢
                rw [Auth.upd_same]
                unfold handle
                cases hj : e.req.job with
                | put q => simp [hj, Job.op] at hs
                | patch q => simp [hj, Job.op] at hs
                | get q => exact .get hh x q e.req.buf q2 e.req.conn e.req.lost
              · exact absurd (by rw [e8]; exact hu.symm) (hs r e1)
            · rw [Auth.upd_other _ _ hu]
              exact hh
          | @put l evs e' q r' n ev h' hr' ht hu hj ha hev =>
            obtain ⟨rfl, he⟩ := List.append_inj' hl rfl
            simp only [List.cons.injEq, and_true] at he
            subst he
            rw [e1] at ht; cases ht
            rw [e8] at hu
            have hh := h evs (knows_url h' hurl)
            rw [e10, hu, Auth.upd_same]
            simp only [handle, hj] at e9 ⊢
            rw [e9, hu] at hev
            exact .put hh e.req.buf.length q1 q2 x q e.req.conn (conn_fresh _) n ha e.req.lost hev
          | @patch l evs e' tid r' n ev h' hr' ht hu hj ha hev =>
            obtain ⟨rfl, he⟩ := List.append_inj' hl rfl
            simp only [List.cons.injEq, and_true] at he
            subst he
            rw [e1] at ht; cases ht
            rw [e8] at hu
            have hh := h evs (knows_url h' hurl)
            rw [e10, hu, Auth.upd_same]
            simp only [handle, hj] at e9 ⊢
            rw [e9, hu] at hev
            exact .patch hh x E.loads tid e.req.conn (conn_fresh _) n ha e.req.lost hev

/-- C79: the disks, after any execution of the server.  For every disk, from the answers of the requests that were run
with tickets for it, in the order of the answers, the clients know its bytes: a byte has the value of the last upload or zero request
answered with 200 that covers it, if no request that failed after it covers it, and the value it had when the server was started if
no request covers it. -/
theorem C79_last_write {σ : Type} {E : Env σ} (L : Lawful E.B) {disk : Str → σ} (hi : ∀ u, L.Inv (disk u))
    {acts : List System.Act} {s : Sys σ} (hq : SoundRequests E acts) (hr : System.run E (start disk) acts = some s) {u : Str}
    {evs : List Event} (hk : KnowsDisk E.loads s.url u s.answered evs) :
    ∀ i v, Last (L.content (disk u)) evs i v → L.content (s.disk u) i = v := by
  have hh := history_run L acts [] (start disk) s (by simpa using hq) rfl hr (fun evs hk => ?_) evs hk
  · exact (C15_last_write L (disk u) (hi u) evs (s.disk u) hh).2
  · generalize hl : (start disk).answered = l at hk
    cases hk with
    | nil => exact .start
    | _ => simp [start] at hl

/-! ## Examples -/

namespace SysEx

def E : Env Memory.State := ⟨Memory.backend, fun _ => none, ⟨10, 60⟩⟩

/-- Two disks: eight bytes 1, and eight bytes 2. -/
def disk (u : Str) : Memory.State := ⟨.rw, List.replicate 8 (if u = "a".toList then 1 else 2), 0, false⟩

def put (id : String) : Request :=
  { job := .put ⟨id.toList, [], some "bytes 2-4/*".toList⟩, header := some "3".toList, rest := [7, 8, 9, 5], buf := [0, 0] }

def get (id : String) : Request := { job := .get ⟨id.toList, [], some "bytes=1-5".toList⟩, header := none, rest := [], buf := [0, 0] }

def ticket (id op : String) (size : Nat) (url : String) : System.Act := .add ⟨id, size, [op], 300⟩ url.toList

/-- A request that gets to run its operation. -/
def begins (c : Nat) (r : Request) : List System.Act :=
  .request c r :: [.getContext c, .addContext c, .startOp c 2].map System.Act.auth

/-- Its operation ends after one look at the cancel flag. -/
def ends (c : Nat) : List System.Act := [.io c 3, .check c, .endOp c, .removeOp c].map System.Act.auth

def removal (d : Nat) (id : String) : List System.Act := [.delStart d id, .delCancel d, .delErase d].map System.Act.auth

/-- An upload with one ticket while another connection downloads from another disk. -/
def acts : List System.Act :=
  [ticket "t" "write" 6 "a", ticket "r" "read" 8 "b"] ++ begins 1 (put "t") ++ begins 2 (get "r") ++ ends 1 ++ [.auth (.touch 1)] ++
    ends 2 ++ [.auth (.touch 2)] ++ removal 0 "t" ++ [.request 1 (put "t"), .request 2 (put "r")]

/-- What is seen of an answer. -/
structure Seen where
  con : Nat
  ticket : Option Nat
  ran : Bool
  sent : List Nat
  body : Bytes
deriving DecidableEq

def seen (e : Answered) : Seen := ⟨e.con, e.ticket, e.ran, e.conn.sent, e.conn.body⟩

/-- The state after the steps. -/
def after (E : Env Memory.State) (s : Sys Memory.State) (l : List System.Act) : Sys Memory.State := (System.run E s l).getD s

theorem run_after {E : Env Memory.State} {s : Sys Memory.State} {l : List System.Act} (h : (System.run E s l).isSome = true) :
    System.run E s l = some (after E s l) := by
  unfold after
  cases hx : System.run E s l with
  | none => rw [hx] at h; cases h
  | some => rfl

/-- The requests are sound. -/
theorem sound {l : List System.Act} (h : ∀ c r, System.Act.request c r ∈ l → (∃ id, r = put id) ∨ ∃ id, r = get id) :
    SoundRequests E l := by
  intro c r hr
  rcases h c r hr with ⟨id, rfl⟩ | ⟨id, rfl⟩
  · exact ⟨Nat.zero_lt_succ _, Nat.mod_one _, 3, .inr ⟨_, rfl, number_3⟩⟩
  · exact ⟨Nat.zero_lt_succ _, Nat.mod_one _, 0, .inl ⟨rfl, rfl⟩⟩

theorem sound_acts : SoundRequests E acts := by
  refine sound fun c r h => ?_
  simp only [acts, ticket, begins, ends, removal, List.map_cons, List.map_nil, List.mem_append, List.mem_cons, List.not_mem_nil,
    or_false, reduceCtorEq, false_or, System.Act.request.injEq] at h
  rcases h with ((⟨_, rfl⟩ | ⟨_, rfl⟩)) | ⟨_, rfl⟩ | ⟨_, rfl⟩
  · exact .inl ⟨_, rfl⟩
  · exact .inr ⟨_, rfl⟩
  · exact .inl ⟨_, rfl⟩
  · exact .inl ⟨_, rfl⟩

end SysEx

/-- The upload changes its disk, the download gets the bytes of the other one, and after the removal of the ticket, and with a ticket
for reading, uploads are refused. -/
example : (System.run SysEx.E (start SysEx.disk) SysEx.acts).map (fun s => s.answered.map SysEx.seen) =
    some [⟨1, some 0, true, [200], []⟩, ⟨2, some 1, true, [206], [2, 2, 2, 2, 2]⟩, ⟨1, none, false, [403], []⟩,
      ⟨2, none, false, [403], []⟩] := by decide +kernel

example : (System.run SysEx.E (start SysEx.disk) SysEx.acts).map
    (fun s => ((s.disk "a".toList).buf, (s.disk "b".toList).buf)) =
    some ([1, 1, 7, 8, 9, 1, 1, 1], [2, 2, 2, 2, 2, 2, 2, 2]) := by decide +kernel

/-- The removal is answered with success in this execution, and the ticket timed wait is on: the hypotheses of `C79_revoked`. -/
example : SysEx.E.cfg.removeTimeout ≠ 0 ∧
    ((System.run SysEx.E (start SysEx.disk) SysEx.acts).map
      fun s => decide (Auth.Event.deleted "t" (.ok (some 0)) ∈ s.auth.log)) = some true := by decide +kernel

/-- The theorems apply to it. -/
example {s : Sys Memory.State} (hr : System.run SysEx.E (start SysEx.disk) SysEx.acts = some s) (u : Str) (i : Nat)
    (hne : byteAt (s.disk u).buf i ≠ byteAt (SysEx.disk u).buf i) :
    ∃ e ∈ s.answered, ∃ r t, e.ran = true ∧ e.ticket = some r ∧ s.url r = u ∧ s.auth.tickets r = some t ∧ i < t.attrs.size := by
  obtain ⟨new, n1, n2⟩ := C79_integrity Memory.lawful (acts := []) (more := SysEx.acts) (fun _ => rfl) SysEx.sound_acts rfl hr
  obtain ⟨e, he, r, t, h1, _, h3, h4, h5, _, h7, _⟩ := n2 u i hne
  exact ⟨e, by rw [n1]; simp [he], r, t, h1, h3, h4, h5, h7⟩

/-- C79: the claim for ticket ids is false.  A ticket is added again while an upload with it runs, and removed: the removal of
the id is answered with success, and then the upload changes the disk and is answered with success (ticket object 0, that the removal did not cancel). -/
theorem C79_counterexample_removed : ∃ acts more s s', SoundRequests SysEx.E (acts ++ more) ∧
    System.run SysEx.E (start SysEx.disk) acts = some s ∧ System.run SysEx.E s more = some s' ∧
    Auth.Event.deleted "t" (.ok (some 1)) ∈ s.auth.log ∧ s.auth.store "t" = none ∧
    (s.disk "a".toList).buf = [1, 1, 1, 1, 1, 1, 1, 1] ∧ (s'.disk "a".toList).buf = [1, 1, 7, 8, 9, 1, 1, 1] ∧
    s.answered.length = 0 ∧ s'.answered.map SysEx.seen = [⟨1, some 0, true, [200], []⟩] := by
  let acts := SysEx.ticket "t" "write" 6 "a" :: SysEx.begins 1 (SysEx.put "t") ++ SysEx.ticket "t" "write" 6 "a" :: SysEx.removal 0 "t"
  let s := SysEx.after SysEx.E (start SysEx.disk) acts
  refine ⟨acts, SysEx.ends 1, s, SysEx.after SysEx.E s (SysEx.ends 1), ?_, SysEx.run_after (by decide +kernel),
    SysEx.run_after (by decide +kernel), ?_, ?_, ?_, ?_, ?_, ?_⟩
  · refine SysEx.sound fun c r h => ?_
    simp only [acts, SysEx.ticket, SysEx.begins, SysEx.ends, SysEx.removal, List.map_cons, List.map_nil, List.mem_append, List.mem_cons,
      List.not_mem_nil, or_false, reduceCtorEq, false_or, System.Act.request.injEq] at h
    exact .inl ⟨_, h.2⟩
  all_goals decide +kernel

/-- C79: with `remove_timeout` 0 the removal does not wait: the upload changes the disk after it (and then is answered with an error). -/
theorem C79_counterexample_zero_timeout : ∃ acts more s s', SoundRequests { SysEx.E with cfg := ⟨10, 0⟩ } (acts ++ more) ∧
    System.run { SysEx.E with cfg := ⟨10, 0⟩ } (start SysEx.disk) acts = some s ∧
    System.run { SysEx.E with cfg := ⟨10, 0⟩ } s more = some s' ∧
    Auth.Event.deleted "t" (.ok (some 0)) ∈ s.auth.log ∧
    (s.disk "a".toList).buf = [1, 1, 1, 1, 1, 1, 1, 1] ∧ (s'.disk "a".toList).buf = [1, 1, 7, 8, 1, 1, 1, 1] ∧
    s.answered.length = 0 ∧ s'.answered.map SysEx.seen = [⟨1, some 0, true, [403], []⟩] := by
  let E : Env Memory.State := { SysEx.E with cfg := ⟨10, 0⟩ }
  let acts := SysEx.ticket "t" "write" 6 "a" :: SysEx.begins 1 (SysEx.put "t") ++ [.delStart 0 "t", .delCancel 0].map System.Act.auth
  let more := [.io 1 2, .check 1, .removeOp 1].map System.Act.auth
  let s := SysEx.after E (start SysEx.disk) acts
  refine ⟨acts, more, s, SysEx.after E s more, ?_, SysEx.run_after (by decide +kernel), SysEx.run_after (by decide +kernel),
    ?_, ?_, ?_, ?_, ?_⟩
  · refine SysEx.sound fun c r h => ?_
    simp only [acts, more, SysEx.ticket, SysEx.begins, List.map_cons, List.map_nil, List.mem_append, List.mem_cons,
      List.not_mem_nil, or_false, reduceCtorEq, false_or, System.Act.request.injEq] at h
    exact .inl ⟨_, h.2⟩
  all_goals decide +kernel

end Imageio.Props
