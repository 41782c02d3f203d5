import Verif.Lemmas.LiveRead
import Verif.Spec.LiveRead
/-!
What the downloads contain, in every execution of `Model/LiveRead.lean`.
-/
namespace Imageio.LiveRead
open Imageio.Live Imageio.Conc Imageio.Spec Imageio.Spec.LiveRead
open Imageio.Auth (upd upd_same upd_other)

variable {σ Γ τ : Type} {E : Env σ Γ τ} {s s' : Sys σ Γ τ} {a : Act τ}

theorem watch_mono {M : Machine σ Γ} {B : Backend σ} {content : Γ → Nat → Byte}
    {Q : (Nat → Byte → Prop) → Except Err Unit → Bytes → Prop} (hQ : ∀ H H' r out, (∀ x b, H x b → H' x b) → Q H r out → Q H' r out) {p : RProg} :
    ∀ {H H' : Nat → Byte → Prop} {l : σ}, (∀ x b, H x b → H' x b) → Watch M B content Q p H l → Watch M B content Q p H' l := by
  have up : ∀ {H H' : Nat → Byte → Prop} (g : Γ), (∀ x b, H x b → H' x b) → ∀ x b, grow content H g x b → grow content H' g x b :=
    fun g h x b hx => hx.imp (h x b) id
  induction p with
  | done r out => intro H H' l h hw; exact hQ _ _ _ _ h hw
  | seek n k ih => intro H H' l h hw g; exact ih _ (up g h) (hw g)
  | tell k ih => intro H H' l h hw g; exact ih _ (up g h) (hw g)
  | readinto n k ih => intro H H' l h hw g; exact ih _ (up g h) (hw g)

theorem readPost_mono {offset size : Nat} {H H' : Nat → Byte → Prop} {r : Except Err Unit} {out : Bytes} (h : ∀ x b, H x b → H' x b)
    (hp : ReadPost offset size H r out) : ReadPost offset size H' r out :=
  ⟨fun i hi => h _ _ (hp.1 i hi), hp.2⟩

theorem watch_up {M : Machine σ Γ} {B : Backend σ} {content : Γ → Nat → Byte} {offset size : Nat} {p : RProg} {H H' : Nat → Byte → Prop} {l : σ}
    (h : ∀ x b, H x b → H' x b) (hw : Watch M B content (ReadPost offset size) p H l) : Watch M B content (ReadPost offset size) p H' l :=
  watch_mono (Q := ReadPost offset size) (fun _ _ _ _ h hp => readPost_mono h hp) h hw

theorem seen_mono {mem : Http.Str → Γ} {content : Γ → Nat → Byte} {acts : List (Act τ)} {c : Nat} {j : RJob} {r i : Nat} {u : Http.Str} {x : Nat}
    {b : Byte} (more : List (Act τ)) (h : Seen E mem content acts c j r i u x b) : Seen E mem content (acts ++ more) c j r i u x b := by
  obtain ⟨pre, post, t, e, h⟩ := h
  exact ⟨pre, post ++ more, t, by rw [e, List.append_assoc], h⟩

/-- The backend object of an operation is changed only by it. -/
theorem loc_same {l l' : Live σ Γ τ} (w : Wf E l) {b : Live.Act τ} (h : Live.step E l b = some l') {c r i k : Nat}
    (hb : (l.auth.conns c).pc.busy = some (r, i, k)) (hc : conOf b ≠ some c ∨ l' = open_ E l l'.auth) : l'.loc k = l.loc k := by
  have hi := w.reach.inv
  obtain ⟨hk, hcon, -⟩ := hi.busy c r i k hb
  have op : ∀ t, (open_ E l t).loc k = l.loc k := fun t => by
    rcases open_loc E l t k with h | ⟨h, -⟩
    · exact h
    · omega
  rcases hc with hc | hc
  · cases step_moves h with
    | call c' j' r' i' k' f next hj' hp' hf =>
      obtain ⟨-, hcon', -⟩ := hi.busy c' r' i' k' (by rw [hp']; rfl)
      exact upd_other _ _ fun e => hc (by subst e; rw [hcon] at hcon'; rw [hcon']; rfl)
    | look c' r' i' k' q hj' hp' =>
      obtain ⟨-, hcon', -⟩ := hi.busy c' r' i' k' (by rw [hp']; rfl)
      exact upd_other _ _ fun e => hc (by subst e; rw [hcon] at hcon'; rw [hcon']; rfl)
    | start => exact op _
    | finish => exact op _
    | drop => exact op _
    | other => exact op _
    | add => rfl
    | refused => rfl
    | request => rfl
  · rw [hc]; exact op _

/-- What is true of a connection that was asked for a download. -/
structure Con (E : Env σ Γ τ) (content : Γ → Nat → Byte) (mem : Http.Str → Γ) (acts : List (Act τ)) (s : Sys σ Γ τ) (c : Nat) (j : RJob) : Prop where
  may : ∀ r, (s.live.auth.conns c).pc.ticket = some r →
    ∃ t, s.live.auth.tickets r = some t ∧ ("read" ∈ t.attrs.ops ∨ "write" ∈ t.attrs.ops)
  ret : ∀ r i k, (s.live.auth.conns c).pc = .ended r i k → returned (s.rprog c) = true
  fits : ∀ r i k, (s.live.auth.conns c).pc.busy = some (r, i, k) →
    ∃ t, s.live.auth.tickets r = some t ∧ (j.offset : Int) + j.size ≤ t.attrs.size
  watch : (∃ L : ReadLaw E.M E.B, L.content = content) → ∀ r i k, (s.live.auth.conns c).pc.busy = some (r, i, k) → 0 ≤ j.size →
    Watch E.M E.B content (ReadPost j.offset j.size.toNat) (s.rprog c) (Seen E mem content acts c j r i (s.live.url r)) (s.live.loc k)

/-- What is true of a download that ended. -/
structure SentOk (E : Env σ Γ τ) (content : Γ → Nat → Byte) (mem : Http.Str → Γ) (acts : List (Act τ)) (s : Sys σ Γ τ) (d : Sent) : Prop where
  ticket : ∃ t, s.live.auth.tickets d.ticket = some t ∧ ("read" ∈ t.attrs.ops ∨ "write" ∈ t.attrs.ops) ∧
    (d.job.offset : Int) + d.job.size ≤ t.attrs.size
  url : s.live.url d.ticket = d.url
  bytes : (∃ L : ReadLaw E.M E.B, L.content = content) → 0 ≤ d.job.size → (∀ i, i < d.out.length →
      Seen E mem content acts d.con d.job d.ticket d.op d.url (d.job.offset + i) (byteAt d.out i)) ∧
    (d.out.length : Int) ≤ d.job.size ∧ (d.ok = true → (d.out.length : Int) = d.job.size)

theorem evolves {l l' : Live σ Γ τ} (w : Wf E l) {b : Live.Act τ} (h : Live.step E l b = some l') {r : Nat} {t : Auth.Ticket}
    (ht : l.auth.tickets r = some t) : (∃ t', l'.auth.tickets r = some t' ∧ t'.attrs = t.attrs) ∧ l'.url r = l.url r := by
  have hm := step_moves h
  refine ⟨?_, hm.url w.reach.inv ht⟩
  rcases hm.auth with he | ⟨b, hb⟩
  · exact ⟨t, by rw [he]; exact ht, rfl⟩
  · obtain ⟨t', ht', e⟩ := (Auth.Step.of_step hb).evolve w.reach.inv ht
    exact ⟨t', ht', e.attrs⟩

/-- A step of another connection, or one that keeps the operation. -/
theorem Con.keep {content : Γ → Nat → Byte} {mem : Http.Str → Γ} {acts : List (Act τ)} {c : Nat} {j : RJob} (w : Base E s) (h : Con E content mem acts s c j)
    (hm : RMoves E s a s') (hpr : s'.rprog c = s.rprog c)
    (hti : ∀ r, (s'.live.auth.conns c).pc.ticket = some r → (s.live.auth.conns c).pc.ticket = some r)
    (hbu : (s'.live.auth.conns c).pc.busy = (s.live.auth.conns c).pc.busy)
    (hen : ∀ r i k, (s'.live.auth.conns c).pc = .ended r i k → returned (s.rprog c) = true ∨ (s.live.auth.conns c).pc = .ended r i k)
    (hlo : ∀ r i k, (s.live.auth.conns c).pc.busy = some (r, i, k) → s'.live.loc k = s.live.loc k) :
    Con E content mem (acts ++ [a]) s' c j := by
  obtain ⟨b, hb⟩ := hm.live
  refine ⟨fun r hr => ?_, fun r i k he => ?_, fun r i k hr => ?_, fun hL r i k hr hn => ?_⟩
  · obtain ⟨t, ht, hp⟩ := h.may r (hti r hr)
    obtain ⟨⟨t', ht', e⟩, -⟩ := evolves w.wf hb ht
    exact ⟨t', ht', by rw [e]; exact hp⟩
  · rw [hpr]
    rcases hen r i k he with h1 | h1
    · exact h1
    · exact h.ret r i k h1
  · rw [hbu] at hr
    obtain ⟨t, ht, hp⟩ := h.fits r i k hr
    obtain ⟨⟨t', ht', e⟩, -⟩ := evolves w.wf hb ht
    exact ⟨t', ht', by rw [e]; exact hp⟩
  · rw [hbu] at hr
    obtain ⟨t, ht, -⟩ := h.fits r i k hr
    obtain ⟨-, hu⟩ := evolves w.wf hb ht
    rw [hpr, hlo r i k hr, hu]
    exact watch_up (fun x b hx => seen_mono [a] hx) (h.watch hL r i k hr hn)

theorem SentOk.keep {content : Γ → Nat → Byte} {mem : Http.Str → Γ} {acts : List (Act τ)} {d : Sent} (w : Base E s) (h : SentOk E content mem acts s d)
    (hm : RMoves E s a s') : SentOk E content mem (acts ++ [a]) s' d := by
  obtain ⟨b, hb⟩ := hm.live
  obtain ⟨t, ht, hp⟩ := h.ticket
  obtain ⟨⟨t', ht', e⟩, hu⟩ := evolves w.wf hb ht
  exact ⟨⟨t', ht', by rw [e]; exact hp⟩, hu.trans h.url, fun hL hn => ⟨fun i hi => seen_mono [a] ((h.bytes hL hn).1 i hi), (h.bytes hL hn).2⟩⟩

theorem returned_done {p : RProg} (h : returned p = true) : ∃ r out, p = .done r out := by
  cases p with
  | done r out => exact ⟨r, out, rfl⟩
  | _ => cases h

/-- All the connections, and all the downloads that ended. -/
structure RInv (E : Env σ Γ τ) (content : Γ → Nat → Byte) (mem : Http.Str → Γ) (acts : List (Act τ)) (s : Sys σ Γ τ) : Prop where
  cons : ∀ c j, s.reading c = some j → Con E content mem acts s c j
  sent : ∀ d ∈ s.sent, SentOk E content mem acts s d

theorem RInv.moves {content : Γ → Nat → Byte} {mem : Http.Str → Γ} {acts : List (Act τ)} (hrun : run E (start E mem) acts = some s) (w : Base E s)
    (h : RInv E content mem acts s) (hm : RMoves E s a s') : RInv E content mem (acts ++ [a]) s' := by
  -- connections that do not take the step
  have away : ∀ {c0 : Nat} {j0 : RJob} {b : Live.Act τ}, s.reading c0 = some j0 → s'.rprog c0 = s.rprog c0 →
      Live.step E s.live b = some s'.live → conOf b ≠ some c0 → Con E content mem (acts ++ [a]) s' c0 j0 := by
    intro c0 j0 b hj hpr hb hc
    have hpc := (pc_other hb hc).1
    refine (h.cons c0 j0 hj).keep w hm hpr (fun r hr => by rw [← hpc]; exact hr) (by rw [hpc]) (fun r i k he => .inr (by rw [← hpc]; exact he)) ?_
    exact fun r i k hbu => loc_same w.wf hb hbu (.inl hc)
  have drop : ∀ {c c0 : Nat} {j : RJob}, upd s.reading c none c0 = some j → c0 ≠ c ∧ s.reading c0 = some j := by
    intro c c0 j h
    by_cases hc : c0 = c
    · subst hc; simp at h
    · rw [upd_other _ _ hc] at h; exact ⟨hc, h⟩
  have ne : ∀ {c c0 : Nat}, c0 ≠ c → (some c : Option Nat) ≠ some c0 := fun h e => h (by cases e; rfl)
  refine ⟨fun c0 j0 hj0 => ?_, fun d hd => ?_⟩
  · have hi := w.wf.reach.inv
    cases hm with
    | other _ b t hb hc => exact away hj0 rfl hb (hc c0 j0 hj0)
    | start c j r k t hj hp hl ht hs hi' =>
      by_cases hc : c0 = c
      · subst hc
        have e : j0 = j := by
          have : s.reading c0 = some j0 := hj0
          rw [hj] at this; cases this; rfl
        subst e
        have hold := h.cons c0 j0 hj
        have hpc : (t.conns c0).pc = .running r s.live.auth.nextOp k := by
          cases Auth.Step.of_step ht with
          | startRefused => simp [Auth.State.goto] at hi'
          | startOp _ _ r' k' x hp' hx hc' =>
            rw [hp] at hp'; cases hp'
            simp [Auth.State.goto]
        refine ⟨fun r' hr => ?_, fun r' i' k' he => ?_, fun r' i' k' hb => ?_, fun hL r' i' k' hb hn => ?_⟩
        · have hr' : (t.conns c0).pc.ticket = some r' := hr
          rw [hpc] at hr'
          cases hr'
          obtain ⟨x, hx, hm⟩ := hold.may r (by rw [hp]; rfl)
          obtain ⟨⟨x', hx', e⟩, -⟩ := evolves w.wf hl hx
          exact ⟨x', hx', by rw [e]; exact hm⟩
        · have he' : (t.conns c0).pc = .ended r' i' k' := he
          rw [hpc] at he'
          cases he'
        · have hb' : (t.conns c0).pc.busy = some (r', i', k') := hb
          rw [hpc] at hb'
          cases hb'
          obtain ⟨x, hx, hm⟩ := hold.may r (by rw [hp]; rfl)
          obtain ⟨⟨x', hx', e⟩, -⟩ := evolves w.wf hl hx
          refine ⟨x', hx', ?_⟩
          unfold System.sizeOf at hs
          rw [hx] at hs
          simp only at hs
          rw [e]
          omega
        · show Watch _ _ _ _ (upd s.rprog c0 _ c0) _ _
          rw [upd_same]
          unfold RJob.prog
          rw [show j0.size = (j0.size.toNat : Int) by omega]
          rw [Int.toNat_natCast]
          obtain ⟨L, rfl⟩ := hL
          exact watch_readRun L _ _ _ _ _ _ _
      · exact away hj0 (upd_other _ _ hc) hl (ne hc)
    | finish c j r i k t hj hp hl ht => exact away (drop hj0).2 rfl hl (ne (drop hj0).1)
    | drop b c t hl ht hc hr => exact away (drop hj0).2 rfl hl (by show System.conOf b ≠ _; rw [hc]; exact ne (drop hj0).1)
    | go b c j t hj hl ht hc h1 h2 hi' he =>
      by_cases hcc : c0 = c
      · subst hcc
        have e : j0 = j := by
          have : s.reading c0 = some j0 := hj0
          rw [hj] at this; cases this; rfl
        subst e
        have hst := Auth.Step.of_step ht
        refine (h.cons c0 j0 hj).keep w (.go b c0 j0 t hj hl ht hc h1 h2 hi' he) rfl (fun r hr => ?_) (hst.busy h1 h2) he
          (fun r i k hbu => loc_same w.wf hl hbu (.inr rfl))
        rcases hst.ticket hr with h' | ⟨id, op, rfl, -⟩
        · exact h'
        · exact absurd (request_eq hl).2 (w.notIdle c0 j0 hj)
      · exact away hj0 rfl hl (by show System.conOf b ≠ _; rw [hc]; exact ne hcc)
    | get c id j t hl hi' =>
      by_cases hcc : c0 = c
      · subst hcc
        obtain ⟨hs, hidle⟩ := request_eq hl
        have hpc : ∃ r x, (t.auth.conns c0).pc = .authorized r ∧ s.live.auth.tickets r = some x ∧ x.may "read" = true := by
          generalize t.auth = ta at hs hi'
          cases Auth.Step.of_step hs with
          | refused _ _ _ _ _ hp => exact absurd hp hi'
          | request _ _ _ r _ hp ha =>
            obtain ⟨x, hx, hm⟩ := Auth.authorize_may ‹_›
            exact ⟨r, x, by simp [Auth.State.goto], hx, hm⟩
        obtain ⟨r, x, hpc, hx, hmay⟩ := hpc
        refine ⟨fun r' hr => ?_, fun r' i' k' he => ?_, fun r' i' k' hb => ?_, fun hL r' i' k' hb hn => ?_⟩
        · have hr' : (t.auth.conns c0).pc.ticket = some r' := hr
          rw [hpc] at hr'
          cases hr'
          obtain ⟨⟨x', hx', e⟩, -⟩ := evolves w.wf hl hx
          refine ⟨x', hx', ?_⟩
          rw [e]
          unfold Auth.Ticket.may at hmay
          rw [if_pos rfl] at hmay
          simpa using hmay
        · have he' : (t.auth.conns c0).pc = .ended r' i' k' := he
          rw [hpc] at he'; cases he'
        · have hb' : (t.auth.conns c0).pc.busy = some (r', i', k') := hb
          rw [hpc] at hb'; cases hb'
        · have hb' : (t.auth.conns c0).pc.busy = some (r', i', k') := hb
          rw [hpc] at hb'; cases hb'
      · simp only [upd_other _ _ hcc] at hj0
        exact away hj0 rfl hl (ne hcc)
    | read c j r i k q p t hj hp hl hq =>
      by_cases hcc : c0 = c
      · subst hcc
        have e : j0 = j := by
          have : s.reading c0 = some j0 := hj0
          rw [hj] at this; cases this; rfl
        subst e
        have hold := h.cons c0 j0 hj
        have et := look_eq hl hp
        have hta : t.auth = s.live.auth := by rw [et]
        refine ⟨fun r' hr => ?_, fun r' i' k' he => ?_, fun r' i' k' hb => ?_, fun hL r' i' k' hb hn => ?_⟩
        · simp only [hta] at hr ⊢; exact hold.may r' hr
        · simp only [hta] at he; rw [hp] at he; cases he
        · simp only [hta] at hb ⊢; exact hold.fits r' i' k' hb
        · simp only [hta] at hb
          have hbu : (s.live.auth.conns c0).pc.busy = some (r, i, k) := by rw [hp]; rfl
          rw [hbu] at hb
          cases hb
          have hw := hold.watch hL r i k hbu hn
          obtain ⟨-, -, htk, -⟩ := hi.busy c0 r i k hbu
          show Watch _ _ _ _ (upd s.rprog c0 p c0) (Seen E mem content _ c0 j0 r i (t.url r)) (t.loc k)
          rw [upd_same, et]
          simp only [upd_same]
          rw [htk]
          rw [htk] at hq
          have now : ∀ x b, grow content (Seen E mem content acts c0 j0 r i (s.live.url r)) (s.live.mem (s.live.url r)) x b →
              Seen E mem content (acts ++ [.read c0]) c0 j0 r i (s.live.url r) x b := by
            rintro x b (hx | hx)
            · exact seen_mono _ hx
            · exact ⟨acts, [.read c0], s, rfl, hrun, ⟨hj, k, hp⟩, hx⟩
          rcases hq with ⟨n, f, rfl, hpr, rfl⟩ | ⟨f, rfl, hpr, rfl⟩ | ⟨n, f, rfl, hpr, rfl⟩
          · rw [hpr] at hw
            exact watch_up now (hw (s.live.mem (s.live.url r)))
          · rw [hpr] at hw
            exact watch_up now (hw (s.live.mem (s.live.url r)))
          · rw [hpr] at hw
            exact watch_up now (hw (s.live.mem (s.live.url r)))
      · exact away hj0 (upd_other _ _ hcc) hl (ne hcc)
  · by_cases hold : d ∈ s.sent
    · exact (h.sent d hold).keep w hm
    · cases hm with
      | finish c j r i k t hj hp hl ht =>
        rcases List.mem_append.mp hd with hd | hd
        · exact absurd hd hold
        · simp only [List.mem_singleton] at hd
          subst hd
          have hc := h.cons c j hj
          have hbu : (s.live.auth.conns c).pc.busy = some (r, i, k) := by rw [hp]; rfl
          obtain ⟨-, -, htk, -⟩ := w.wf.reach.inv.busy c r i k hbu
          obtain ⟨x, hx, hm1⟩ := hc.may r (by rw [hp]; rfl)
          obtain ⟨x2, hx2, hm2⟩ := hc.fits r i k hbu
          rw [hx] at hx2
          cases hx2
          obtain ⟨⟨x', hx', e⟩, hu⟩ := evolves w.wf hl hx
          refine ⟨⟨x', hx', by rw [e]; exact ⟨hm1, hm2⟩⟩, hu.trans (by rw [htk]), fun hL hn => ?_⟩
          have hw := hc.watch hL r i k hbu hn
          obtain ⟨res, out, hdone⟩ := returned_done (hc.ret r i k hp)
          rw [hdone] at hw
          obtain ⟨h1, h2, h3⟩ := hw
          have hout : (result (s.rprog c)).1 = out := by rw [hdone]; cases res <;> rfl
          have hok : (result (s.rprog c)).2 = true → res = .ok () := by
            rw [hdone]
            cases res with
            | error e => intro h; cases h
            | ok u => intro _; rfl
          simp only [hout, htk]
          simp only at hn
          refine ⟨fun n hlt => seen_mono _ (h1 n hlt), by omega, fun h => ?_⟩
          simp only [Bool.and_eq_true] at h
          have := h3 (hok h.1)
          omega
      | _ => exact absurd hd hold

theorem rinv_run (content : Γ → Nat → Byte) {mem : Http.Str → Γ} {acts : List (Act τ)} (h : run E (start E mem) acts = some s) : RInv E content mem acts s :=
  (run_induction (P := fun as s => RInv E content mem as s) ⟨fun _ _ h => (by cases h), fun _ h => (by cases h)⟩
    (fun _ _ _ _ hr w h hm => h.moves hr w hm) h).1

end Imageio.LiveRead
