import Verif.Spec.QemuLife
/-!
C100: the life of a qemu-nbd server.
-/
namespace Imageio.Props
open Imageio.QemuLife Imageio.QemuLife.Spec

/-- Only the process of the object runs, and it was started by the object. -/
def Owned (h : QemuLife.Host) (s : QemuLife.Server) : Prop :=
  (∀ p, Runs h p → s.proc = some p) ∧ ∀ p, s.proc = some p → p < h.next

theorem ends_facts (h : QemuLife.Host) (p : Nat) (c : Int) :
    (h.ends p c).next = h.next ∧ (h.ends p c).signals = h.signals ∧ (h.ends p c).opts = h.opts ∧ (h.ends p c).code p ≠ none ∧
      ∀ k, (h.ends p c).code k = none → h.code k = none := by
  unfold Host.ends
  split
  · refine ⟨rfl, rfl, rfl, by simp, fun k hk => ?_⟩
    simp only at hk
    split at hk
    · cases hk
    · exact hk
  · rename_i hn
    exact ⟨rfl, rfl, rfl, hn, fun _ hk => hk⟩

theorem send_facts (h : QemuLife.Host) (p n : Nat) (c : Option Int) :
    (h.send p n c).next = h.next ∧ (h.send p n c).opts = h.opts ∧
      (∀ k, (h.send p n c).code k = none → h.code k = none) ∧
      (h.send p n c).signals = h.signals ++ (if h.code p = none then [(p, n)] else []) := by
  unfold Host.send
  split
  · rename_i hn
    refine ⟨rfl, rfl, fun k hk => ?_, rfl⟩
    simp only at hk
    split at hk
    · rename_i he
      rw [he]
      exact hn
    · exact hk
  · exact ⟨rfl, rfl, fun _ hk => hk, by simp⟩

/-- What `stop` does: it changes only `proc`, no process is added, and when it succeeds the process of the object ended. -/
theorem stop_facts (h : QemuLife.Host) (s : QemuLife.Server) (t k : Option Int) :
    ∃ r s' h', QemuLife.stop h s t k = (r, s', h') ∧ h'.next = h.next ∧ h'.opts = h.opts ∧
      (∀ q, h'.code q = none → h.code q = none) ∧ s'.cache = s.cache ∧ s'.aio = s.aio ∧
      (r = .ok () → s'.proc = none ∧ ∀ p, s.proc = some p → h'.code p ≠ none) ∧
      (∀ x, r = .error x → s' = s ∧ ∃ p, s.proc = some p ∧ h'.code p = none) ∧
      ∃ l, h'.signals = h.signals ++ l ∧ ∀ x ∈ l, s.proc = some x.1 ∧ h.code x.1 = none ∧ (x.2 = 15 ∨ x.2 = 9) := by
  unfold QemuLife.stop
  cases hp : s.proc with
  | none =>
    exact ⟨_, _, _, rfl, rfl, rfl, fun _ h => h, rfl, rfl, fun _ => ⟨hp, fun _ h => by cases h⟩, fun _ h => (by cases h), [], by simp,
      by simp⟩
  | some p =>
    have f1 := send_facts h p 15 t
    have f2 := send_facts (h.send p 15 t) p 9 k
    dsimp only
    split
    · rename_i hc
      refine ⟨_, _, _, rfl, f1.1, f1.2.1, f1.2.2.1, rfl, rfl, fun _ => ⟨rfl, fun q hq => ?_⟩, fun _ h => (by cases h), _, f1.2.2.2, ?_⟩
      · cases hq
        exact hc
      · intro x hx
        split at hx
        · rename_i hn
          cases List.mem_singleton.1 hx
          exact ⟨rfl, hn, .inl rfl⟩
        · cases hx
    · rename_i hc
      have hc : (h.send p 15 t).code p = none := by simpa using hc
      have hn := f1.2.2.1 p hc
      have hl : (Host.send (h.send p 15 t) p 9 k).signals = h.signals ++ [(p, 15), (p, 9)] := by
        rw [f2.2.2.2, f1.2.2.2, if_pos hc, if_pos hn]
        simp
      have hall : ∀ x ∈ [(p, 15), (p, 9)], some p = some x.1 ∧ h.code x.1 = none ∧ (x.2 = 15 ∨ x.2 = 9) := by
        intro x hx
        simp only [List.mem_cons, List.not_mem_nil, or_false] at hx
        rcases hx with rfl | rfl
        · exact ⟨rfl, hn, .inl rfl⟩
        · exact ⟨rfl, hn, .inr rfl⟩
      split
      · rename_i hc2
        refine ⟨_, _, _, rfl, by rw [f2.1, f1.1], by rw [f2.2.1, f1.2.1], fun q hq => f1.2.2.1 q (f2.2.2.1 q hq), rfl, rfl,
          fun _ => ⟨rfl, fun q hq => ?_⟩, fun _ h => (by cases h), _, hl, hall⟩
        cases hq
        exact hc2
      · rename_i hc2
        exact ⟨_, _, _, rfl, by rw [f2.1, f1.1], by rw [f2.2.1, f1.2.1], fun q hq => f1.2.2.1 q (f2.2.2.1 q hq), rfl, rfl,
          fun h => (by cases h), fun _ _ => ⟨rfl, p, rfl, by simpa using hc2⟩, _, hl, hall⟩

/-- Stopping keeps what runs owned. -/
theorem stop_owned {h : QemuLife.Host} {s : QemuLife.Server} (t k : Option Int) (ho : Owned h s) :
    Owned (QemuLife.stop h s t k).2.2 (QemuLife.stop h s t k).2.1 := by
  obtain ⟨r, s', h', e, hn, -, hc, -, -, hok, herr, -⟩ := stop_facts h s t k
  rw [e]
  cases r with
  | ok u =>
    obtain ⟨hp, hq⟩ := hok rfl
    refine ⟨fun p hr => ?_, fun p h => ?_⟩
    · have := ho.1 p ⟨hn ▸ hr.1, hc p hr.2⟩
      exact absurd hr.2 (hq p this)
    · rw [hp] at h
      cases h
  | error x =>
    obtain ⟨rfl, -⟩ := herr x rfl
    refine ⟨fun p hr => ho.1 p ⟨hn ▸ hr.1, hc p hr.2⟩, fun p h => ?_⟩
    rw [hn]
    exact ho.2 p h

theorem step_owned {h : QemuLife.Host} {s : QemuLife.Server} {e : QemuLife.Event} (ha : Allowed s e) (ho : Owned h s) :
    Owned (QemuLife.step h s e).2 (QemuLife.step h s e).1 := by
  cases e with
  | stop t k => exact stop_owned t k ho
  | signal n c =>
    unfold QemuLife.step sendSignal
    cases hp : s.proc with
    | none => exact ho
    | some p =>
      have f := send_facts h p n c
      exact ⟨fun q hq => ho.1 q ⟨f.1 ▸ hq.1, f.2.2.1 q hq.2⟩, fun q hq => f.1 ▸ ho.2 q hq⟩
  | wait c =>
    unfold QemuLife.step QemuLife.wait
    cases hp : s.proc with
    | none => exact ho
    | some p =>
      cases c with
      | none => exact ho
      | some c =>
        have f := ends_facts h p c
        exact ⟨fun q hq => ho.1 q ⟨f.1 ▸ hq.1, f.2.2.2.2 q hq.2⟩, fun q hq => f.1 ▸ ho.2 q hq⟩
  | ends p c =>
    have f := ends_facts h p c
    exact ⟨fun q hq => ho.1 q ⟨f.1 ▸ hq.1, f.2.2.2.2 q hq.2⟩, fun q hq => f.1 ▸ ho.2 q hq⟩
  | start e =>
    have hp : s.proc = none := ha
    unfold QemuLife.step QemuLife.start
    dsimp only
    split
    · exact ho
    · split
      · exact ho
      · have hn : ∀ cache aio, Owned
            { h with next := h.next + 1, opts := fun k => if k = h.next then some (cache, aio) else h.opts k,
                     code := fun k => if k = h.next then none else h.code k }
            { s with cache := some cache, aio := some aio, proc := some h.next } := by
          intro cache aio
          refine ⟨fun p hr => ?_, fun p hq => ?_⟩
          · by_cases h1 : p = h.next
            · rw [h1]
            · have hr2 := hr.2
              simp only [if_neg h1] at hr2
              have := ho.1 p ⟨by have := hr.1; simp only at this; omega, hr2⟩
              rw [hp] at this
              cases this
          · cases hq
            exact Nat.lt_succ_self _
        split
        · exact hn _ _
        · exact hn _ _
        · have := stop_owned e.term e.kill (hn (s.cache.getD (if e.direct then .none else .writeback))
            (s.aio.getD (if s.cache.getD (if e.direct then .none else .writeback) = .none then .native else .threads)))
          revert this
          generalize QemuLife.stop _ _ e.term e.kill = x
          obtain ⟨r, s', h'⟩ := x
          cases r <;> exact id

/-- Partial: in every history in which `start` is called only when the object has no process, and in which processes may end at
any time, only the process of the object runs.  Missing: `start` called twice, see the counterexample. -/
theorem C100_owned_partial {h : QemuLife.Host} {s : QemuLife.Server} (es : List QemuLife.Event) (hp : Polite h s es)
    (h0 : ∀ p, Runs h p → s.proc = some p) (h1 : ∀ p, s.proc = some p → p < h.next) :
    ∀ p, Runs (QemuLife.run h s es).2 p → (QemuLife.run h s es).1.proc = some p := by
  suffices Owned (QemuLife.run h s es).2 (QemuLife.run h s es).1 from this.1
  have ho : Owned h s := ⟨h0, h1⟩
  clear h0 h1
  induction es generalizing h s with
  | nil => exact ho
  | cons e es ih => exact ih hp.2 (step_owned hp.1 ho)

/-- Partial, for the same histories: when `stop` returns, no process runs, and the object can be started again.  When it raises,
the process of the object still runs, and `stop` can be called again. -/
theorem C100_stop_partial (cache : Option Cache) (aio : Option Aio) (es : List QemuLife.Event)
    (hp : Polite Host.empty (QemuLife.init cache aio) es) (t k : Option Int) :
    ∀ s h, QemuLife.run Host.empty (QemuLife.init cache aio) es = (s, h) → ∀ r s' h', QemuLife.stop h s t k = (r, s', h') →
    (r = .ok () → s'.proc = none ∧ ∀ p, ¬ Runs h' p) ∧ (∀ x, r = .error x → ∃ p, s'.proc = some p ∧ h'.code p = none) := by
  intro s h hrun r s' h' hstop
  have ho := C100_owned_partial es hp (fun p hr => absurd hr.1 (Nat.not_lt_zero p)) (fun p h => by cases h)
  rw [hrun] at ho
  obtain ⟨r1, s1, h1, e, hn, -, hc, -, -, hok, herr, -⟩ := stop_facts h s t k
  rw [e] at hstop
  cases hstop
  refine ⟨fun hr => ⟨(hok hr).1, fun p hr2 => ?_⟩, fun x hx => ?_⟩
  · exact (hok hr).2 p (ho p ⟨hn ▸ hr2.1, hc p hr2.2⟩) hr2.2
  · obtain ⟨rfl, h2⟩ := herr x hx
    exact h2

/-- Without a process `stop` does nothing, so it can be called any number of times. -/
theorem C100_stop_again {h : QemuLife.Host} {s : QemuLife.Server} {t k t' k' : Option Int} (hs : (QemuLife.stop h s t k).1 = .ok ()) :
    QemuLife.stop (QemuLife.stop h s t k).2.2 (QemuLife.stop h s t k).2.1 t' k' =
      (.ok (), (QemuLife.stop h s t k).2.1, (QemuLife.stop h s t k).2.2) := by
  obtain ⟨r, s', h', e, -, -, -, -, -, hok, -, -⟩ := stop_facts h s t k
  rw [e] at hs ⊢
  have := (hok hs).1
  unfold QemuLife.stop
  simp only [this]

/-- Signals are sent only to a process that runs, and only to the process of the object (that of `start` if the event is
`start`); the signals are the one that was asked for, SIGTERM and SIGKILL. -/
theorem C100_signals (h : QemuLife.Host) (s : QemuLife.Server) (e : QemuLife.Event) :
    ∃ l, (QemuLife.step h s e).2.signals = h.signals ++ l ∧ ∀ x ∈ l,
      match e with
      | .start _ => x.1 = h.next ∧ (x.2 = 15 ∨ x.2 = 9)
      | .stop _ _ => s.proc = some x.1 ∧ h.code x.1 = none ∧ (x.2 = 15 ∨ x.2 = 9)
      | .signal n _ => s.proc = some x.1 ∧ h.code x.1 = none ∧ x.2 = n
      | _ => False := by
  cases e with
  | stop t k =>
    obtain ⟨r, s', h', e, -, -, -, -, -, -, -, hl⟩ := stop_facts h s t k
    refine hl.imp fun l hl => ⟨?_, hl.2⟩
    show (QemuLife.stop h s t k).2.2.signals = _
    rw [e]
    exact hl.1
  | signal n c =>
    unfold QemuLife.step sendSignal
    cases hp : s.proc with
    | none => exact ⟨[], by simp, by simp⟩
    | some p =>
      refine ⟨_, (send_facts h p n c).2.2.2, fun x hx => ?_⟩
      split at hx
      · rename_i hn
        cases List.mem_singleton.1 hx
        exact ⟨rfl, hn, rfl⟩
      · cases hx
  | wait c =>
    refine ⟨[], ?_, by simp⟩
    unfold QemuLife.step QemuLife.wait
    cases hp : s.proc with
    | none => simp
    | some p =>
      cases c with
      | none => simp
      | some c => simp [(ends_facts h p c).2.1]
  | ends p c => exact ⟨[], by simp [QemuLife.step, (ends_facts h p c).2.1], by simp⟩
  | start e =>
    unfold QemuLife.step QemuLife.start
    dsimp only
    split
    · exact ⟨[], by simp, by simp⟩
    · split
      · exact ⟨[], by simp, by simp⟩
      · split
        · exact ⟨[], by simp, by simp⟩
        · exact ⟨[], by simp, by simp⟩
        · obtain ⟨r, s', h', e, -, -, -, -, -, -, -, l, h1, h2⟩ := stop_facts
            { h with next := h.next + 1
                     opts := fun k => if k = h.next then some (s.cache.getD (if e.direct then .none else .writeback),
                       s.aio.getD (if s.cache.getD (if e.direct then .none else .writeback) = .none then .native else .threads)) else h.opts k
                     code := fun k => if k = h.next then none else h.code k }
            { s with cache := some (s.cache.getD (if e.direct then .none else .writeback))
                     aio := some (s.aio.getD (if s.cache.getD (if e.direct then .none else .writeback) = .none then .native else .threads))
                     proc := some h.next } e.term e.kill
          rw [e]
          refine ⟨l, ?_, fun x hx => ?_⟩
          · cases r <;> exact h1
          · have := h2 x hx
            simp only [Option.some.injEq] at this
            exact ⟨this.1.symm, this.2.2⟩

/-- Stopping a process that ended sends nothing; otherwise SIGTERM is sent, and SIGKILL only after the process did not end in
time. -/
theorem C100_kill {h : QemuLife.Host} {s : QemuLife.Server} {p : Nat} (hp : s.proc = some p) (t k : Option Int) :
    (QemuLife.stop h s t k).2.2.signals = h.signals ++
      (if h.code p ≠ none then [] else if t ≠ none then [(p, 15)] else [(p, 15), (p, 9)]) := by
  unfold QemuLife.stop
  simp only [hp]
  cases hc : h.code p with
  | some c => simp [Host.send, hc]
  | none =>
    cases t with
    | some t => simp [Host.send, hc]
    | none => cases k <;> simp [Host.send, hc]

/-- Without a process `send_signal` and `wait` raise and change nothing. -/
theorem C100_not_running {h : QemuLife.Host} {s : QemuLife.Server} (hp : s.proc = none) (n : Nat) (c : Option Int) :
    sendSignal h s n c = (.error (.exception "RuntimeError"), h) ∧ QemuLife.wait h s c = (.error (.exception "RuntimeError"), h) := by
  unfold sendSignal QemuLife.wait
  simp only [hp, and_self]

/-- `wait` returns the exit code of the process if it ended before or during the wait, and `None` otherwise. -/
theorem C100_wait {h : QemuLife.Host} {s : QemuLife.Server} {p : Nat} (hp : s.proc = some p) (c : Option Int) :
    (QemuLife.wait h s c).1 = .ok ((h.code p).or c) ∧ (QemuLife.wait h s c).2.code p = (h.code p).or c ∧
      (∀ k, k ≠ p → (QemuLife.wait h s c).2.code k = h.code k) := by
  unfold QemuLife.wait
  simp only [hp]
  cases c with
  | none => simp
  | some c =>
    simp only [Host.ends]
    split
    · rename_i hn
      refine ⟨by simp [hn], by simp [hn], fun k hk => by simp [hk]⟩
    · rename_i hn
      cases hc : h.code p with
      | none => exact absurd hc hn
      | some v => simp

/-- Partial: the first start of a server with the default options uses `cache=none` exactly if direct I/O works, and
`aio=native` exactly with `cache=none`; given options are used as they are.  Missing: later starts, see the counterexample. -/
theorem C100_options_partial {h : QemuLife.Host} {s : QemuLife.Server} {e : Env} (hc : e.command = .ok ()) (hp : e.popen = .ok ())
    (hw : ∀ x, e.wait ≠ .ok x ∨ x = true) :
    ∃ cache aio, (QemuLife.start h s e).2.2.opts h.next = some (cache, aio) ∧
      (∀ c, s.cache = some c → cache = c) ∧ (s.cache = none → cache = if e.direct then Cache.none else .writeback) ∧
      (∀ a, s.aio = some a → aio = a) ∧ (s.aio = none → aio = if cache = .none then Aio.native else .threads) := by
  refine ⟨s.cache.getD (if e.direct then .none else .writeback), s.aio.getD (if s.cache.getD (if e.direct then .none else .writeback) =
    .none then .native else .threads), ?_, ?_, ?_, ?_, ?_⟩
  · unfold QemuLife.start
    simp only [hc, hp]
    cases hx : e.wait with
    | error x => simp
    | ok b =>
      cases b with
      | true => simp
      | false => exact absurd hx ((hw false).resolve_right (by simp))
  · intro c h
    rw [h]
    rfl
  · intro h
    rw [h]
    rfl
  · intro a h
    rw [h]
    rfl
  · intro h
    rw [h]
    rfl

/-- A start that works, for the examples. -/
def goodStart (direct : Bool) : Env := ⟨direct, .ok (), .ok (), .ok true, some 0, some (-9)⟩

example : Polite Host.empty (QemuLife.init none none)
    [.start (goodStart true), .signal 10 none, .wait none, .stop none (some (-9)), .start (goodStart true), .ends 1 1, .wait none] :=
  ⟨rfl, trivial, trivial, trivial, rfl, trivial, trivial, trivial⟩

example : (QemuLife.run Host.empty (QemuLife.init none none)
    [.start (goodStart true), .signal 10 none, .wait none, .stop none (some (-9)), .start (goodStart true)]).2.signals =
      [(0, 10), (0, 15), (0, 9)] := by decide +kernel

/-- `start` called twice: the first process is not known to the object any more, and runs after `stop`. -/
theorem C100_counterexample_twice : ∃ s h, QemuLife.run Host.empty (QemuLife.init none none)
    [.start (goodStart true), .start (goodStart true), .stop (some 0) (some (-9))] = (s, h) ∧
    s.proc = none ∧ Runs h 0 := ⟨_, _, rfl, rfl, by decide, by decide +kernel⟩

/-- The options are chosen only once: after the image moved to a storage without direct I/O, the second start asks for it. -/
theorem C100_counterexample_options : ∃ s h, QemuLife.run Host.empty (QemuLife.init none none)
    [.start (goodStart true), .stop (some 0) (some (-9)), .start (goodStart false)] = (s, h) ∧
    h.opts 1 = some (.none, .native) := ⟨_, _, rfl, by decide +kernel⟩

end Imageio.Props
