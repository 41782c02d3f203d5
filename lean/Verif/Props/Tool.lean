import Verif.Lemmas.Tool
import Verif.Lemmas.ClientIoExec
import Verif.Props.ClientIo
import Verif.Props.Engine
/-! C75: signals and the exit status of `ovirt-img`. -/
namespace Imageio.Props
open Io Tool Engine
open Extents (ZeroExtent)

/-! ## The copy -/

/-- The signal that is reported is the first one, whatever comes later. -/
theorem C75_first {c : Cfg} {acts : List Act} {d : Nat → Byte} {s s' : St} (h : Tool.Reachable c acts d s) {n m : Nat}
    (hn : s.signal = some n) (hs : Relation.ReflTransGen (Tool.Step c) s s')
    (hd : s'.ex.main = .done (some (.terminated m))) : m = n := by
  have h1 := signal_kept hs hn
  have i := tinv (h.steps hs)
  have := i.errors m (i.done m hd)
  rw [h1] at this
  exact (Option.some.inj this).symm

/-- A copy is reported as terminated only if a signal was received. -/
theorem C75_only_signals {c : Cfg} {acts : List Act} {d : Nat → Byte} {s : St} (h : Tool.Reachable c acts d s) {m : Nat}
    (hd : s.ex.main = .done (some (.terminated m))) : s.signal = some m :=
  (tinv h).errors m ((tinv h).done m hd)

/-- After a signal no worker begins a request: what is completed later are requests that their workers were executing when
the signal was received, at most one for each worker, and the storage calls are the rest of these requests. -/
theorem C75_stops {c : Cfg} {acts : List Act} {d : Nat → Byte} {s s' : St} (h : Tool.Reachable c acts d s) {n : Nat}
    (hn : s.signal = some n) (hs : Relation.ReflTransGen (Tool.Step c) s s') :
    (∃ l, s'.ex.handled = s.ex.handled ++ l ∧ (l.map Prod.fst).Nodup ∧
      ∀ p ∈ l, ∃ todo, (s.ex.w p.1).pc = .working p.2 todo) ∧
    ∃ m, s'.ex.calls = s.ex.calls ++ m ∧ ∀ x ∈ m, ∃ k r todo, (s.ex.w k).pc = .working r todo ∧ x ∈ todo := by
  obtain ⟨⟨l, h1, h2, h3, -⟩, -, m, h4, h5⟩ := after h hn hs
  exact ⟨⟨l, h1, h2, fun p hp => (h3 p hp).2⟩, m, h4, fun x hx => by
    obtain ⟨k, r, xs, -, a, b⟩ := h5 x hx
    exact ⟨k, r, xs, a, b⟩⟩

/-- A copy that succeeds although a signal was received had already transferred everything at the time of the signal:
all requests were complete, the workers were told to stop, and the destination did not change later. -/
theorem C75_success {c : Cfg} (hw : 0 < c.workers) {acts : List Act} (ha : IsCopy acts) {d : Nat → Byte} {s s' : St}
    (h : Tool.Reachable c acts d s) {n : Nat} (hn : s.signal = some n)
    (hs : Relation.ReflTransGen (Tool.Step c) s s') (hd : s'.ex.main = .done none) :
    s'.ex.dst = s.ex.dst ∧ (s.ex.handled.map Prod.snd).Perm (reqs acts) ∧
    ∀ k, k < c.workers → (s.ex.w k).stopped = true ∧ ((s.ex.w k).pc = .stopping → s.checked k = true) := by
  have hr := (h.steps hs).proj
  have f := final ha.no_stop hr hw hd
  have hp : ∀ k, k < c.workers → (s.ex.w k).stopped = true ∧ ((s.ex.w k).pc = .stopping → s.checked k = true) := by
    intro k hk
    by_cases hnp : NotPassed s k
    · rcases notPassed_steps h hn hs hnp with he | he | ⟨he, -⟩
      · exact absurd f.errors he
      · rw [(f.finished k hk).2.1] at he; cases he
      · rw [(f.finished k hk).1] at he; cases he
    · simp only [NotPassed, not_or, not_and, Bool.not_eq_false] at hnp
      exact hnp
  have hk := dst_kept_steps ha.no_stop h hs fun k hk => (hp k hk).1
  refine ⟨hk.1, ?_, hp⟩
  rw [← hk.2.1]
  exact handled_perm ha.no_stop hr hw hd

/-- So a signal before the copy makes it fail, also when there is nothing to copy. -/
theorem C75_before {c : Cfg} (hw : 0 < c.workers) {acts : List Act} (ha : IsCopy acts) {d : Nat → Byte} {n : Nat}
    {s : St} (hs : Relation.ReflTransGen (Tool.Step c) (.init c acts d (some n)) s) : s.ex.main ≠ .done none := by
  intro hd
  have := ((C75_success hw ha (.init (some n)) rfl hs hd).2.2 0 hw).1
  cases this

/-- Signals do not change what a successful copy does: all bytes are those of the source. -/
theorem C75_copied {c : Cfg} (hc : CutOf c.cut) (hw : 0 < c.workers) {exts : List ZeroExtent} {size : Nat}
    (ht : Complete exts size) (htrue : Truthful exts c.src) {d : Nat → Byte} {s : St}
    (h : Tool.Reachable c (copyData true true exts) d s) (hd : s.ex.main = .done none) :
    ∀ i, i < size → s.ex.dst i = c.src i :=
  C28_copy hc hw ht htrue h.proj hd

/-- Steps in which nothing fails but the checks for signals. -/
def QuietStep (c : Cfg) (s s' : St) : Prop :=
  Tool.Step c s s' ∧ (∀ e, s'.ex.main ≠ .joining (some e)) ∧
    ∀ e ∈ s'.ex.errors, e ∈ s.ex.errors ∨ ∃ n, e = .terminated n

/-- If nothing else fails, a copy that does not succeed reports the first signal. -/
theorem C75_reported {c : Cfg} {acts : List Act} {d : Nat → Byte} {sig : Option Nat} {s : St}
    (hs : Relation.ReflTransGen (QuietStep c) (.init c acts d sig) s) {e : Err} (hd : s.ex.main = .done (some e)) :
    ∃ n, e = .terminated n ∧ s.signal = some n := by
  have key : Tool.Reachable c acts d s ∧ (∀ e, s.ex.main ≠ .joining (some e)) ∧
      (∀ e ∈ s.ex.errors, ∃ n, e = .terminated n) ∧ ∀ e, s.ex.main = .done (some e) → e ∈ s.ex.errors := by
    clear hd
    induction hs with
    | refl => exact ⟨.init _, by simp [St.init, Ex.init], by simp [St.init, Ex.init], by simp [St.init, Ex.init]⟩
    | @tail s1 s2 _ hs ih =>
      obtain ⟨i1, i2, i3, i4⟩ := ih
      obtain ⟨h1, h2, h3⟩ := hs
      refine ⟨i1.step h1, h2, fun e he => (h3 e he).elim (i3 e) id, fun e he => ?_⟩
      rcases h1.proj with h | h
      · rw [h] at he ⊢; exact i4 e he
      · rcases Tool.Step.main h e he with h' | ⟨h', -⟩ | ⟨-, h', h''⟩
        · obtain ⟨l, hl⟩ := step_errors h
          rw [hl]; exact List.mem_append_left _ (i4 e h')
        · exact absurd h' (i2 e)
        · rw [h'']; exact List.mem_of_mem_head? h'
  obtain ⟨k1, -, k3, k4⟩ := key
  obtain ⟨n, rfl⟩ := k3 e (k4 e hd)
  exact ⟨n, rfl, C75_only_signals k1 hd⟩

/-! ## No deadlock -/

theorem quiet_step {c : Cfg} {s s' : Ex} (h : Ex.Step c s s') :
    ∃ s'', Ex.Step c s s'' ∧ OtherErrors s s'' ∧ ∀ k, s''.w k = s'.w k := by
  have same : ∀ {s1 : Ex}, s1.errors = s.errors → (∀ e, s1.main ≠ .joining (some e)) → OtherErrors s s1 :=
    fun h1 h2 => ⟨fun n hn => by rwa [h1] at hn, fun n hn => absurd hn (h2 _)⟩
  have kept : ∀ {s1 : Ex}, s1.errors = s.errors → s1.main = s.main → OtherErrors s s1 :=
    fun h1 h2 => ⟨fun n hn => by rwa [h1] at hn, fun n hn => by rwa [h2] at hn⟩
  have more : ∀ {s1 : Ex}, s1.errors = s.errors ++ [.canceled] → s1.main = s.main → OtherErrors s s1 :=
    fun h1 h2 => ⟨fun n hn => by simpa [h1] using hn, fun n hn => by rwa [h2] at hn⟩
  cases h with
  | skip h => exact ⟨_, .skip h, same rfl (by simp), fun _ => rfl⟩
  | putDone h hw hq => exact ⟨_, .putDone h hw hq, same rfl (by simp), fun _ => rfl⟩
  | putBlocked h hw hq => exact ⟨_, .putBlocked h hw hq, kept rfl rfl, fun _ => rfl⟩
  | putRaised h hw hq => exact ⟨_, .putRaised h hw hq, same rfl (by simp), fun _ => rfl⟩
  | submitDone h => exact ⟨_, .submitDone h, same rfl (by simp), fun _ => rfl⟩
  | mainFail h hw hr => exact ⟨_, .mainFail (e := .canceled) h hw hr, ⟨fun _ h => h, by simp⟩, fun _ => rfl⟩
  | stopPut h hw hq => exact ⟨_, .stopPut h hw hq, same rfl (by simp), fun _ => rfl⟩
  | stopBlocked h hw hq => exact ⟨_, .stopBlocked h hw hq, kept rfl rfl, fun _ => rfl⟩
  | stopRaised h hw hq => exact ⟨_, .stopRaised h hw hq, same rfl (by simp), fun _ => rfl⟩
  | stopDone h => exact ⟨_, .stopDone h, same rfl (by simp), fun _ => rfl⟩
  | joined h hw => exact ⟨_, .joined h hw, same rfl (by simp), fun _ => rfl⟩
  | started hk h => exact ⟨_, .started hk h, kept rfl rfl, fun _ => rfl⟩
  | startFail hk h => exact ⟨_, .startFail (e := .canceled) hk h, more rfl rfl, fun _ => rfl⟩
  | getDone hk h hw hq hr => exact ⟨_, .getDone hk h hw hq hr, kept rfl rfl, fun _ => rfl⟩
  | getStop hk h hw hq hr => exact ⟨_, .getStop hk h hw hq hr, kept rfl rfl, fun _ => rfl⟩
  | getBlocked hk h hw hq => exact ⟨_, .getBlocked hk h hw hq, kept rfl rfl, fun _ => rfl⟩
  | getRaised hk h hw hq => exact ⟨_, .getRaised hk h hw hq, kept rfl rfl, fun _ => rfl⟩
  | call hk h => exact ⟨_, .call hk h, kept rfl rfl, fun _ => rfl⟩
  | callFail hk h hd => exact ⟨_, .callFail (e := .canceled) hk h hd, more rfl rfl, fun _ => rfl⟩
  | workDone hk h => exact ⟨_, .workDone hk h, kept rfl rfl, fun _ => rfl⟩
  | workFail hk h => exact ⟨_, .workFail (e := .canceled) hk h, more rfl rfl, fun _ => rfl⟩
  | flushed hk h => exact ⟨_, .flushed hk h, kept rfl rfl, fun _ => rfl⟩
  | flushFail hk h => exact ⟨_, .flushFail (e := .canceled) hk h, more rfl rfl, fun _ => rfl⟩
  | left hk h => exact ⟨_, .left hk h, kept rfl rfl, fun _ => rfl⟩
  | leaveFail hk h => exact ⟨_, .leaveFail (e := .canceled) hk h, more rfl rfl, fun _ => rfl⟩
  | close hk h => exact ⟨_, .close hk h, kept rfl rfl, fun _ => rfl⟩

/-- Steps of the threads of the copy: all but signals. -/
def ThreadStep (c : Cfg) (s s' : St) : Prop := Tool.Step c s s' ∧ s'.signal = s.signal ∧ s' ≠ s

/-- The number of workers that have to check for a signal. -/
def toCheck (c : Cfg) (s : St) : Nat :=
  sumTo c.workers fun k => if hasRequest (s.ex.w k).pc = true ∧ s.checked k = false then 1 else 0

/-- A bound for the number of steps. -/
def stepsLeft (c : Cfg) (s : St) : Nat := (c.workers + 1) * cost c s.ex + toCheck c s

theorem toCheck_le (c : Cfg) (s : St) : toCheck c s ≤ c.workers := by
  have := sumTo_le (n := c.workers) (m := 1)
    (f := fun k => if hasRequest (s.ex.w k).pc = true ∧ s.checked k = false then 1 else 0)
    (fun k _ => by split <;> omega)
  rw [Nat.mul_one] at this
  exact this

theorem stepsLeft_ex {c : Cfg} {s s' : St} (h : cost c s'.ex < cost c s.ex) : stepsLeft c s' < stepsLeft c s := by
  have h1 := toCheck_le c s'
  have h2 : (c.workers + 1) * (cost c s'.ex + 1) ≤ (c.workers + 1) * cost c s.ex := Nat.mul_le_mul_left _ h
  rw [Nat.mul_add] at h2
  unfold stepsLeft
  omega

theorem stepsLeft_passed {c : Cfg} {s : St} {k : Nat} (hk : k < c.workers) (hp : hasRequest (s.ex.w k).pc = true)
    (hc : s.checked k = false) : stepsLeft c { s with checked := Io.set s.checked k true } < stepsLeft c s := by
  have h := sumTo_set (n := c.workers) (fun p : Pc × Bool => if hasRequest p.1 = true ∧ p.2 = false then 1 else 0)
    (fun i => ((s.ex.w i).pc, s.checked i)) hk ((s.ex.w k).pc, true)
  have he : toCheck c { s with checked := Io.set s.checked k true } = sumTo c.workers fun i =>
      (fun p : Pc × Bool => if hasRequest p.1 = true ∧ p.2 = false then 1 else 0)
        (Io.set (fun i => ((s.ex.w i).pc, s.checked i)) k ((s.ex.w k).pc, true) i) := by
    refine sumTo_congr fun i _ => ?_
    by_cases hi : i = k
    · subst hi; simp
    · simp [Io.set, hi]
  simp only [hp, hc, and_self, if_true] at h
  rw [if_neg (by simp)] at h
  unfold stepsLeft
  rw [he]
  unfold toCheck
  simp only at h ⊢
  omega

theorem thread_less {c : Cfg} {acts : List Act} {d : Nat → Byte} {s s' : St} (h : Tool.Reachable c acts d s)
    (hs : ThreadStep c s s') : stepsLeft c s' < stepsLeft c s := by
  obtain ⟨h1, h2, h3⟩ := hs
  have hr := h.step h1
  cases h1 with
  | signal n => exact absurd (by simp only at h2; rw [h2]) h3
  | passed hk hp hc => exact stepsLeft_passed hk hp hc
  | raised hk hp => exact stepsLeft_ex (cost_step (qinv h.proj) (qinv hr.proj) (raised_step hk hp _))
  | other hx => exact stepsLeft_ex (cost_step (qinv h.proj) (qinv hr.proj) hx)

theorem idle {c : Cfg} {acts : List Act} {d : Nat → Byte} {s : Ex} (h : Ex.Reachable c acts d s) {k : Nat}
    (hk : c.workers ≤ k) : (s.w k).pc = .starting := by
  induction h with
  | init => rfl
  | step _ hs ih =>
    cases hs with
    | skip | putDone | putRaised | submitDone | mainFail | stopPut | stopRaised | stopDone | joined
    | putBlocked | stopBlocked | getBlocked => exact ih
    | @getStop j _ _ hj | @getDone j _ _ hj | @started j hj | @getRaised j _ hj | @flushed j hj | @left j hj | @close j hj
    | @call j _ _ _ hj | @workDone j _ hj | @startFail j _ hj | @workFail j _ _ _ hj | @flushFail j _ hj | @leaveFail j _ hj
    | @callFail j _ _ _ _ _ hj => simpa [Ex.setW, Io.set, show k ≠ j by omega] using ih

/-- A copy never waits forever because of signals: until it has raised or returned, some thread can run. -/
theorem C75_no_deadlock {c : Cfg} (hw : 0 < c.workers) (hdepth : c.workers ≤ c.depth) {acts : List Act} (ha : IsCopy acts)
    {d : Nat → Byte} {s : St} (h : Tool.Reachable c acts d s) (hd : ∀ e, s.ex.main ≠ .done e) :
    ∃ s', ThreadStep c s s' := by
  have ne : ∀ s', Tool.Reachable c acts d s' → stepsLeft c s' < stepsLeft c s → s' ≠ s := by
    rintro s' - h rfl
    omega
  by_cases hc : ∃ k, k < c.workers ∧ hasRequest (s.ex.w k).pc = true ∧ s.checked k = false
  · obtain ⟨k, hk, hp, hc⟩ := hc
    cases hsig : s.signal with
    | none =>
      have hs : Tool.Step c s _ := .passed hk hp hc hsig
      exact ⟨_, hs, rfl, ne _ (h.step hs) (stepsLeft_passed hk hp hc)⟩
    | some n =>
      have hs : Tool.Step c s _ := .raised hk hp hc hsig
      exact ⟨_, hs, rfl, ne _ (h.step hs) (stepsLeft_ex (cost_step (qinv h.proj) (qinv (h.step hs).proj) (raised_step hk hp _)))⟩
  · obtain ⟨ex, hx⟩ := C33_no_deadlock hw hdepth ha h.proj hd
    obtain ⟨ex', h1, h2, h3⟩ := quiet_step hx
    have hs : Tool.Step c s _ := .other h1 h2 (by
      intro k hp hck
      by_cases hk : k < c.workers
      · exact absurd ⟨k, hk, hp, hck⟩ hc
      · rw [idle h.proj (by omega)] at hp
        cases hp)
    exact ⟨_, hs, rfl, ne _ (h.step hs) (stepsLeft_ex (cost_step (qinv h.proj) (qinv (h.step hs).proj) h1))⟩

/-- Without further signals every execution is finite, and can be continued until the copy has raised or returned. -/
theorem C75_ends {c : Cfg} (hw : 0 < c.workers) (hdepth : c.workers ≤ c.depth) {acts : List Act} (ha : IsCopy acts)
    {d : Nat → Byte} {s : St} (h : Tool.Reachable c acts d s) :
    ∃ s' e, Relation.ReflTransGen (ThreadStep c) s s' ∧ s'.ex.main = .done e := by
  generalize hk : stepsLeft c s = k
  induction k using Nat.strongRecOn generalizing s with
  | _ k ih =>
    by_cases hs : ∀ e, s.ex.main ≠ .done e
    · obtain ⟨s1, h1⟩ := C75_no_deadlock hw hdepth ha h hs
      have hlt := thread_less h h1
      obtain ⟨s', e, h2, h3⟩ := ih (stepsLeft c s1) (by omega) (h.step h1.1) rfl
      exact ⟨s', e, Relation.ReflTransGen.head h1 h2, h3⟩
    · rw [Classical.not_forall] at hs
      obtain ⟨e, he⟩ := hs
      exact ⟨s, e, .refl, Classical.not_not.1 he⟩

/-! ## The commands -/

/-- The exit status is 0 exactly if the command returned. -/
theorem C75_status (r : Except Error Unit) :
    (exitStatus r = 0 ↔ r = .ok ()) ∧ (∀ n, exitStatus r = 128 + n ↔ r = .error (.terminated n)) ∧
    (exitStatus r ≤ 1 ∨ 128 ≤ exitStatus r) := by
  rcases r with e | u
  · cases e <;> simp [exitStatus] <;> omega
  · simp [exitStatus]; omega

/-- An upload whose copy ended with `r`. -/
def UploadOf (e : UploadEnv) (r : Option Err) : Prop := e.upload = raisedBy r

theorem raisedBy_ok {r : Option Err} : raisedBy r = .ok () ↔ r = none := by
  rcases r with _ | e
  · simp [raisedBy]
  · cases e <;> simp [raisedBy]

/-- An upload that is interrupted by a signal while a worker has still something to do, or before the copy, does not
finalize the transfer, and fails; and if the transfer was created, it is canceled.  If nothing else failed and the engine
accepted the cancel, the exit status is `128 + n` for the first signal `n`. -/
theorem C75_upload {c : Cfg} (hw : 0 < c.workers) {acts : List Act} (ha : IsCopy acts) {d : Nat → Byte} {s s' : St}
    (h : Tool.Reachable c acts d s) {n : Nat} (hn : s.signal = some n) {k : Nat} (hk : k < c.workers)
    (hbusy : (s.ex.w k).stopped = false) (hs : Relation.ReflTransGen (Tool.Step c) s s') {r : Option Err}
    (hd : s'.ex.main = .done r) {e : UploadEnv} (he : UploadOf e r) {o : Out Unit} (ho : uploadDisk e = some o) :
    Call.finalize ∉ o.calls ∧ exitStatus o.res ≠ 0 ∧
    ((∃ cs, createTransfer true e.addTransferOk e.createDeadline e.createPolls e.linkOk = some ⟨cs, .ok ()⟩) →
      (∃ cs, addDisk e.addDiskOk e.diskDeadline e.diskPolls = some ⟨cs, .ok ()⟩) →
      e.prepare = .ok () → e.findHost = .ok () →
      o.calls = [.addDisk, .addTransfer, .cancel] ∧
      (e.cancelOk = true → (∃ m, r = some (.terminated m)) → exitStatus o.res = 128 + n)) := by
  have hr : r ≠ none := by
    rintro rfl
    have := ((C75_success hw ha h hn hs hd).2.2 k hk).1
    rw [hbusy] at this; cases this
  have hne : e.upload ≠ .ok () := by rw [he]; exact fun h => hr (raisedBy_ok.1 h)
  refine ⟨fun hf => hne ((C53_upload_calls e o ho).1 hf).1, fun h0 => ?_, fun h1 h2 h3 h4 => ?_⟩
  · have := (C75_status o.res).1.1 h0
    exact hne (C53_upload_completed e o.calls (by rw [ho]; cases o; simp_all)).2.1
  · cases hu : e.upload with
    | ok u => exact absurd hu hne
    | error err =>
      refine ⟨(C53_upload_failed e o err ho hu h1 h2 h3 h4).1, fun hc => ?_⟩
      rintro ⟨m, rfl⟩
      have := C75_first h hn hs hd
      subst this
      have herr : err = .terminated m := by rw [he] at hu; cases hu; rfl
      subst herr
      obtain ⟨c1, h1⟩ := h1
      obtain ⟨c2, h2⟩ := h2
      simp only [uploadDisk, h1, h2, h3, h4, localStep, andThen, Out.andThen, uploadAndFinish, hu, hc, if_true,
        Option.map_some, Option.some.injEq] at ho
      subst ho
      rfl

/-- A download whose copy ended with `r`. -/
def DownloadOf (e : DownloadEnv) (r : Option Err) : Prop := e.download = raisedBy r

/-- An interrupted download fails, and the transfer is finalized; if that succeeds, and nothing else failed, the exit status
is `128 + n`. -/
theorem C75_download {c : Cfg} (hw : 0 < c.workers) {acts : List Act} (ha : IsCopy acts) {d : Nat → Byte} {s s' : St}
    (h : Tool.Reachable c acts d s) {n : Nat} (hn : s.signal = some n) {k : Nat} (hk : k < c.workers)
    (hbusy : (s.ex.w k).stopped = false) (hs : Relation.ReflTransGen (Tool.Step c) s s') {r : Option Err}
    (hd : s'.ex.main = .done r) {e : DownloadEnv} (he : DownloadOf e r) {o : Out Unit} (ho : downloadDisk e = some o) :
    exitStatus o.res ≠ 0 ∧
    ((∃ cs, createTransfer true e.addTransferOk e.createDeadline e.createPolls e.linkOk = some ⟨cs, .ok ()⟩) →
      e.prepare = .ok () → o.calls = [.addTransfer, .finalize] ∧
      ((∃ cs, finalizeTransfer e.finalizeOk e.finalizeDeadline e.finalizePolls = some ⟨cs, .ok ()⟩) →
        (∃ m, r = some (.terminated m)) → exitStatus o.res = 128 + n)) := by
  have hr : r ≠ none := by
    rintro rfl
    have := ((C75_success hw ha h hn hs hd).2.2 k hk).1
    rw [hbusy] at this; cases this
  have hne : e.download ≠ .ok () := by rw [he]; exact fun h => hr (raisedBy_ok.1 h)
  refine ⟨fun h0 => hne ((C53_download e o ho).1 ((C75_status o.res).1.1 h0)).1, ?_⟩
  rintro ⟨c1, h1⟩ h2
  refine ⟨(C53_download e o ho).2 c1 h1 h2, ?_⟩
  rintro ⟨c2, h3⟩ ⟨m, rfl⟩
  have := C75_first h hn hs hd
  subst this
  have hdl : e.download = .error (.terminated m) := he
  simp only [downloadDisk, h1, h2, h3, localStep, andThen, Out.andThen, downloadAndFinish, hdl, Option.map_some,
    Option.some.injEq] at ho
  subst ho
  rfl

/-- An error while finalizing hides the signal of a download: the exit status is 1 (`client/_download.py:60-62`). -/
theorem C75_counterexample_hidden : ∃ e : DownloadEnv, DownloadOf e (some (.terminated 2)) ∧
    (downloadDisk e).map (fun o => exitStatus o.res) = some 1 :=
  ⟨{ prepare := .ok (), addTransferOk := true, createDeadline := 5, createPolls := [⟨.value .transferring, true, 3⟩], linkOk := true,
     download := .error (.terminated 2), finalizeOk := false, finalizeDeadline := 5, finalizePolls := [] }, rfl, rfl⟩

/-! ## Examples -/

/-- A schedule: a signal, or a step of a thread (0 is the main thread, `k + 1` is worker `k`). -/
inductive Turn where
  | signal (n : Nat)
  | thread (t : Nat)

/-- The worker of the thread has to check for a signal. -/
def mustCheck (s : St) : Nat → Bool
  | 0 => false
  | k + 1 => hasRequest (s.ex.w k).pc && !s.checked k

/-- One turn; a thread that cannot run is skipped. -/
def runTurn (c : Cfg) (s : St) : Turn → St
  | .signal n => { s with signal := handleSignal s.signal n }
  | .thread t =>
    if mustCheck s t then
      if t ≤ c.workers then
        match s.signal with
        | none => { s with checked := Io.set s.checked (t - 1) true }
        | some n => { s with ex := { s.ex.setW (t - 1) { s.ex.w (t - 1) with pc := .failing } with
            errors := s.ex.errors ++ [.terminated n] } }
      else s
    else
      match s.ex.exec c t with
      | none => s
      | some ex => { s with ex := ex, checked := fun k => s.checked k && hasRequest (ex.w k).pc }

theorem exec_quiet {c : Cfg} {s s' : Ex} {t : Nat} (h : s.exec c t = some s') :
    OtherErrors s s' ∧ ∀ k, k + 1 ≠ t → s'.w k = s.w k := by
  have hs := exec_sound h
  unfold Ex.exec at h
  split at h
  · simp at h
  · split at h
    · refine ⟨?_, ?_⟩ <;> (repeat' split at h) <;> simp at h <;> subst h <;> simp_all [OtherErrors]
    · rename_i k hw
      refine ⟨?_, fun j hj => ?_⟩
      · (repeat' split at h) <;> simp at h <;> subst h <;> exact ⟨fun _ h => h, fun _ h => h⟩
      · have hj' : j ≠ k := by omega
        (repeat' split at h) <;> simp at h <;> subst h <;> simp [Ex.setW, Io.set, hj']

theorem runTurn_sound {c : Cfg} (s : St) (t : Turn) : Relation.ReflTransGen (Tool.Step c) s (runTurn c s t) := by
  cases t with
  | signal n => exact .single (.signal n)
  | thread t =>
    simp only [runTurn]
    by_cases hm : mustCheck s t = true
    · rw [if_pos hm]
      cases t with
      | zero => cases hm
      | succ k =>
        simp only [mustCheck, Bool.and_eq_true, Bool.not_eq_true'] at hm
        split
        · split
          · exact .single (.passed (by omega) hm.1 hm.2 ‹_›)
          · exact .single (.raised (by omega) hm.1 hm.2 ‹_›)
        · exact .refl
    · rw [if_neg hm]
      split
      · exact .refl
      · rename_i ex hx
        obtain ⟨h1, h2⟩ := exec_quiet hx
        refine .single (.other (exec_sound hx) h1 fun k hp hc => h2 k ?_)
        rintro rfl
        exact hm (by simp [mustCheck, hp, hc])

theorem runTurns_sound {c : Cfg} (ts : List Turn) (s : St) :
    Relation.ReflTransGen (Tool.Step c) s (ts.foldl (runTurn c) s) := by
  induction ts generalizing s with
  | nil => exact .refl
  | cons t ts ih => exact (runTurn_sound s t).trans (ih _)

def turns (n : Nat) : List Turn := (List.replicate n [.thread 0, .thread 1, .thread 2]).flatten

/-- Two workers in the middle of the copy when SIGINT is received, and SIGTERM a little later. -/
def interrupted : St := (turns 5 ++ [Turn.signal 2]).foldl (runTurn exCfg) (.init exCfg (copyData true true exExts) (fun _ => 5) none)

def interruptedEnd : St := (Turn.signal 15 :: turns 20).foldl (runTurn exCfg) interrupted

/-- One request was complete, one is in progress and is completed, and the copy reports SIGINT. -/
example : interrupted.ex.handled.length = 1 ∧ interruptedEnd.ex.handled.length = 2 ∧ (reqs (copyData true true exExts)).length = 3 ∧
    (interrupted.ex.w 0).stopped = false ∧ interruptedEnd.ex.main = .done (some (.terminated 2)) := by decide +kernel

/-- The hypotheses of `C75_upload` hold. -/
example : uploadDisk { uploadEnv0 with upload := .error (.terminated 2) } =
      some ⟨[.addDisk, .addTransfer, .cancel], .error (.terminated 2)⟩ ∧
    ∃ r, Tool.Reachable exCfg (copyData true true exExts) (fun _ => 5) interrupted ∧ interrupted.signal = some 2 ∧
      Relation.ReflTransGen (Tool.Step exCfg) interrupted interruptedEnd ∧ interruptedEnd.ex.main = .done r ∧
      UploadOf { uploadEnv0 with upload := .error (.terminated 2) } r :=
  ⟨rfl, some (.terminated 2), (Tool.Reachable.init none).steps (runTurns_sound _ _), by decide +kernel, runTurns_sound _ _,
    by decide +kernel, rfl⟩

/-- A signal when the workers are leaving does not matter: the copy succeeds. -/
def late : St := (turns 12).foldl (runTurn exCfg) (.init exCfg (copyData true true exExts) (fun _ => 5) none)

example : (∀ k, k < 2 → (late.ex.w k).stopped = true) ∧ late.ex.main ≠ .done none ∧
    ((Turn.signal 15 :: turns 10).foldl (runTurn exCfg) late).ex.main = .done none := by decide +kernel

end Imageio.Props
