import Verif.Model.Engine

/-!
C50: transfers in the engine.  C53: uploads and downloads of `ovirt-img`.
-/
namespace Imageio.Props
open Imageio.Engine

/-- The engine is still preparing the transfer, and there is time. -/
def CreatePoll.Waits (deadline : Nat) (p : CreatePoll) : Prop :=
  p.reply = .value .initializing ∧ p.now ≤ deadline

/-- The engine is in a phase that does not end finalizing, and there is time. -/
def FinalizePoll.Waits (deadline : Nat) (p : FinalizePoll) : Prop :=
  ∃ phase, p.reply = .value phase ∧ phase ≠ .finishedSuccess ∧ phase ≠ .finishedFailure ∧
    p.now ≤ deadline

/-- The engine reported success: the phase of the transfer, or the status of the disk after
the transfer was removed. -/
def FinalizePoll.Success (p : FinalizePoll) : Prop :=
  p.reply = .value .finishedSuccess ∨ (p.reply = .notFound ∧ p.disk = .value .ok)

/-- The disk is locked, and there is time. -/
def DiskPoll.Waits (deadline : Nat) (p : DiskPoll) : Prop :=
  p.reply = .value .locked ∧ p.now ≤ deadline

/-! ### The loops -/

/-- A round that waits changes nothing. -/
theorem createLoop_waits (deadline : Nat) (pre ps : List CreatePoll)
    (h : ∀ q ∈ pre, CreatePoll.Waits deadline q) :
    createLoop deadline (pre ++ ps) = createLoop deadline ps := by
  induction pre with
  | nil => rfl
  | cons a r ih =>
    obtain ⟨h1, h2⟩ := h a (by simp)
    rw [List.cons_append, createLoop, h1]
    simp only [reduceCtorEq, if_false, ne_eq, not_true_eq_false]
    rw [if_neg (by omega)]
    exact ih fun q hq => h q (by simp [hq])

/-- The loop either waits for all the rounds, or there is a first round that does not
wait. -/
theorem createLoop_cases (deadline : Nat) (ps : List CreatePoll) :
    (∀ q ∈ ps, CreatePoll.Waits deadline q) ∨
      ∃ pre p post, ps = pre ++ p :: post ∧ (∀ q ∈ pre, CreatePoll.Waits deadline q) ∧
        ¬ CreatePoll.Waits deadline p := by
  induction ps with
  | nil => simp
  | cons a r ih =>
    by_cases ha : CreatePoll.Waits deadline a
    · rcases ih with h | ⟨pre, p, post, rfl, h1, h2⟩
      · exact .inl (by simpa using ⟨ha, h⟩)
      · exact .inr ⟨a :: pre, p, post, rfl, by simpa using ⟨ha, h1⟩, h2⟩
    · exact .inr ⟨[], a, r, rfl, by simp, ha⟩

/-- What a round that does not wait returns. -/
theorem createLoop_last (deadline : Nat) (p : CreatePoll) (ps : List CreatePoll)
    (h : ¬ CreatePoll.Waits deadline p) :
    ∃ o, createLoop deadline (p :: ps) = some o ∧
      (o.res = .ok () ↔ p.reply = .value .transferring) ∧
      (o.calls = [.cancel] ∨ o.calls = []) ∧
      (o.calls = [.cancel] ↔
        ∃ phase, p.reply = .value phase ∧ phase ≠ .transferring ∧ phase ≠ .finishedFailure) := by
  unfold createLoop
  cases hr : p.reply with
  | notFound => exact ⟨_, rfl, by simp, by simp, by simp⟩
  | failed => exact ⟨_, rfl, by simp, by simp, by simp⟩
  | value ph =>
    simp only
    by_cases h1 : ph = .finishedFailure
    · subst h1; exact ⟨_, rfl, by simp, by simp, by simp⟩
    rw [if_neg h1]
    by_cases h2 : ph = .pausedSystem
    · subst h2; exact ⟨_, rfl, by simp [cancelAnd], by simp [cancelAnd], by simp [cancelAnd]⟩
    rw [if_neg h2]
    by_cases h3 : ph = .transferring
    · subst h3; exact ⟨_, rfl, by simp, by simp, by simp⟩
    rw [if_neg h3]
    by_cases h4 : ph ≠ .initializing
    · rw [if_pos h4]
      exact ⟨_, rfl, by simp [cancelAnd, h3], by simp [cancelAnd],
        by simpa [cancelAnd] using ⟨h3, h1⟩⟩
    · rw [if_neg h4]
      have : p.now > deadline := by
        simp at h4
        subst h4
        simp [CreatePoll.Waits, hr] at h
        exact h
      rw [if_pos this]
      exact ⟨_, rfl, by simp [cancelAnd, h3], by simp [cancelAnd],
        by simpa [cancelAnd] using ⟨h3, h1⟩⟩

theorem createLoop_none (deadline : Nat) (ps : List CreatePoll)
    (h : ∀ q ∈ ps, CreatePoll.Waits deadline q) : createLoop deadline ps = none := by
  have := createLoop_waits deadline ps [] h
  simpa [createLoop] using this

/-- `create_transfer` returns exactly if the engine reported the transferring phase after
reporting only the initializing phase, in time. -/
theorem C50_create_iff (addOk : Bool) (deadline : Nat) (ps : List CreatePoll) (linkOk : Bool) :
    (∃ cs, createTransfer true addOk deadline ps linkOk = some ⟨cs, .ok ()⟩) ↔
      addOk = true ∧ linkOk = true ∧
      ∃ pre p post, ps = pre ++ p :: post ∧ (∀ q ∈ pre, CreatePoll.Waits deadline q) ∧
        p.reply = .value .transferring := by
  have hcase : ∀ o, createLoop deadline ps = some o → (o.res = .ok () ↔
      ∃ pre p post, ps = pre ++ p :: post ∧ (∀ q ∈ pre, CreatePoll.Waits deadline q) ∧
        p.reply = .value .transferring) := by
    intro o ho
    rcases createLoop_cases deadline ps with h | ⟨pre, p, post, rfl, h1, h2⟩
    · rw [createLoop_none _ _ h] at ho; cases ho
    · rw [createLoop_waits _ _ _ h1] at ho
      obtain ⟨o', h3, h4, -⟩ := createLoop_last deadline p post h2
      rw [h3] at ho
      cases ho
      rw [h4]
      constructor
      · exact fun h => ⟨pre, p, post, rfl, h1, h⟩
      · rintro ⟨pre', p', post', he, h1', hp'⟩
        have hw' : ¬ CreatePoll.Waits deadline p' := by simp [CreatePoll.Waits, hp']
        have : ∀ (a b : List CreatePoll) (x y : CreatePoll) (c d : List CreatePoll),
            a ++ x :: c = b ++ y :: d → (∀ q ∈ a, CreatePoll.Waits deadline q) →
            (∀ q ∈ b, CreatePoll.Waits deadline q) → ¬ CreatePoll.Waits deadline x →
            ¬ CreatePoll.Waits deadline y → x = y := by
          intro a
          induction a with
          | nil =>
            intro b x y c d he _ hb hx _
            cases b with
            | nil => simp at he; exact he.1
            | cons z zs =>
              simp at he
              exact absurd (he.1 ▸ hb z (by simp)) hx
          | cons z zs ih =>
            intro b x y c d he ha hb hx hy
            cases b with
            | nil =>
              simp at he
              exact absurd (he.1 ▸ ha z (by simp)) hy
            | cons w ws =>
              simp at he
              exact ih ws x y c d he.2 (fun q hq => ha q (by simp [hq]))
                (fun q hq => hb q (by simp [hq])) hx hy
        rw [this _ _ _ _ _ _ he h1 h1' h2 hw']
        exact hp'
  constructor
  · rintro ⟨cs, h⟩
    simp only [createTransfer, Bool.not_true] at h
    cases addOk with
    | false => cases h
    | true =>
      simp only [Bool.not_true] at h
      cases hl : createLoop deadline ps with
      | none => rw [hl] at h; cases h
      | some o =>
        rw [hl] at h
        cases ho : o.res with
        | error e => simp [ho] at h
        | ok u =>
          cases linkOk with
          | false => simp [ho] at h
          | true => exact ⟨rfl, rfl, (hcase o hl).1 ho⟩
  · rintro ⟨rfl, rfl, hp⟩
    obtain ⟨pre, p, post, rfl, h1, h2⟩ := hp
    have hw : ¬ CreatePoll.Waits deadline p := by simp [CreatePoll.Waits, h2]
    obtain ⟨o, h3, h4, -⟩ := createLoop_last deadline p post hw
    refine ⟨.addTransfer :: o.calls, ?_⟩
    simp only [createTransfer, Bool.not_true, createLoop_waits _ _ _ h1, h3]
    simp [h4.2 h2]

/-- Every other answer raises, and the transfer is canceled, once, exactly if the engine
still reports it in a phase that is not failed. -/
theorem C50_create_failing (deadline : Nat) (pre : List CreatePoll) (p : CreatePoll)
    (post : List CreatePoll) (linkOk : Bool) (h1 : ∀ q ∈ pre, CreatePoll.Waits deadline q)
    (h2 : ¬ CreatePoll.Waits deadline p) (h3 : p.reply ≠ .value .transferring) :
    ∃ cs e, createTransfer true true deadline (pre ++ p :: post) linkOk = some ⟨cs, .error e⟩ ∧
      cs.count .cancel =
        if (p.reply = .notFound ∨ p.reply = .failed ∨ p.reply = .value .finishedFailure)
          then 0 else 1 := by
  obtain ⟨o, h4, h5, h6, h7⟩ := createLoop_last deadline p post h2
  have hne : o.res ≠ .ok () := fun h => h3 (h5.1 h)
  cases ho : o.res with
  | ok u => exact absurd ho hne
  | error e =>
    refine ⟨.addTransfer :: o.calls, e, ?_, ?_⟩
    · simp only [createTransfer, Bool.not_true, createLoop_waits _ _ _ h1, h4]
      simp [ho]
    · cases hr : p.reply with
      | notFound => rcases h6 with h | h <;> simp_all
      | failed => rcases h6 with h | h <;> simp_all
      | value ph =>
        by_cases hf : ph = .finishedFailure
        · subst hf
          rcases h6 with h | h
          · have := h7.1 h; simp [hr] at this
          · simp [h]
        · have hc := h7.2 ⟨ph, hr, fun h => h3 (by rw [hr, h]), hf⟩
          simp [hc, hf]

/-- Clock of a polling loop: every round sleeps one second. -/
def Ticking (sec : Nat) (times : List Nat) : Prop :=
  ∀ i j : Nat, ∀ x y, i < j → times[i]? = some x → times[j]? = some y → x + sec * (j - i) ≤ y

/-- The loop does not run longer than the timeout: one more round than the seconds in it. -/
theorem C50_create_terminates (deadline start sec : Nat) (ps : List CreatePoll)
    (hs : ∀ q ∈ ps, start ≤ q.now)
    (ht : Ticking sec (ps.map (·.now))) (hlen : deadline - start < sec * (ps.length - 1)) :
    createLoop deadline ps ≠ none := by
  rcases createLoop_cases deadline ps with h | ⟨pre, p, post, rfl, h1, h2⟩
  · exfalso
    have hl : 1 < ps.length := by
      rcases Nat.lt_or_ge 1 ps.length with h | h
      · exact h
      · have : ps.length - 1 = 0 := by omega
        rw [this] at hlen; omega
    have h0 : ps[0]? = some ps[0] := List.getElem?_eq_getElem (by omega)
    have hn : ps[ps.length - 1]? = some (ps[ps.length - 1]'(by omega)) :=
      List.getElem?_eq_getElem (by omega)
    have hh := ht 0 (ps.length - 1) ps[0].now (ps[ps.length - 1]'(by omega)).now (by omega)
      (by rw [List.getElem?_map, h0]; rfl) (by rw [List.getElem?_map, hn]; rfl)
    have h3 := hs ps[0] (List.getElem_mem _)
    have h4 := (h (ps[ps.length - 1]'(by omega)) (List.getElem_mem _)).2
    simp only [Nat.sub_zero] at hh
    omega
  · rw [createLoop_waits _ _ _ h1]
    obtain ⟨o, h3, -⟩ := createLoop_last deadline p post h2
    rw [h3]
    simp

/-! ### finalize -/

theorem finalizeLoop_waits (deadline : Nat) (pre ps : List FinalizePoll)
    (h : ∀ q ∈ pre, FinalizePoll.Waits deadline q) :
    finalizeLoop deadline (pre ++ ps) = finalizeLoop deadline ps := by
  induction pre with
  | nil => rfl
  | cons a r ih =>
    obtain ⟨ph, h1, h2, h3, h4⟩ := h a (by simp)
    rw [List.cons_append, finalizeLoop, h1]
    simp only [h2, h3, if_false]
    rw [if_neg (by omega)]
    exact ih fun q hq => h q (by simp [hq])

theorem finalizeLoop_last (deadline : Nat) (p : FinalizePoll) (ps : List FinalizePoll)
    (h : ¬ FinalizePoll.Waits deadline p) :
    ∃ r, finalizeLoop deadline (p :: ps) = some r ∧ (r = .ok () ↔ FinalizePoll.Success p) := by
  unfold finalizeLoop
  cases hr : p.reply with
  | failed => exact ⟨_, rfl, by simp [FinalizePoll.Success, hr]⟩
  | notFound =>
    cases hd : p.disk with
    | notFound => exact ⟨_, rfl, by simp [FinalizePoll.Success, hr, hd]⟩
    | failed => exact ⟨_, rfl, by simp [FinalizePoll.Success, hr, hd]⟩
    | value s =>
      simp only
      by_cases hs : s = .ok
      · rw [if_pos hs]
        exact ⟨_, rfl, by simp [FinalizePoll.Success, hr, hd, hs]⟩
      · rw [if_neg hs]
        exact ⟨_, rfl, by simp [FinalizePoll.Success, hr, hd, hs]⟩
  | value ph =>
    simp only
    by_cases h1 : ph = .finishedSuccess
    · rw [if_pos h1]
      exact ⟨_, rfl, by simp [FinalizePoll.Success, hr, h1]⟩
    rw [if_neg h1]
    by_cases h2 : ph = .finishedFailure
    · rw [if_pos h2]
      exact ⟨_, rfl, by simp [FinalizePoll.Success, hr, h2]⟩
    rw [if_neg h2]
    have : p.now > deadline := by
      apply Nat.lt_of_not_le
      intro hle
      exact h ⟨ph, hr, h1, h2, hle⟩
    rw [if_pos this]
    exact ⟨_, rfl, by simp [FinalizePoll.Success, hr, h1]⟩

theorem finalizeLoop_cases (deadline : Nat) (ps : List FinalizePoll) :
    finalizeLoop deadline ps = none ∧ (∀ q ∈ ps, FinalizePoll.Waits deadline q) ∨
      ∃ pre p post r, ps = pre ++ p :: post ∧ (∀ q ∈ pre, FinalizePoll.Waits deadline q) ∧
        ¬ FinalizePoll.Waits deadline p ∧ finalizeLoop deadline ps = some r ∧
        (r = .ok () ↔ FinalizePoll.Success p) := by
  induction ps with
  | nil => simp [finalizeLoop]
  | cons a r ih =>
    by_cases ha : FinalizePoll.Waits deadline a
    · have hstep := finalizeLoop_waits deadline [a] r (by simpa using ha)
      rcases ih with ⟨h0, h⟩ | ⟨pre, p, post, x, rfl, h1, h2, h3, h4⟩
      · refine .inl ⟨by simpa using hstep.trans h0, by simpa using ⟨ha, h⟩⟩
      · exact .inr ⟨a :: pre, p, post, x, rfl, by simpa using ⟨ha, h1⟩, h2, hstep.trans h3, h4⟩
    · obtain ⟨x, h1, h2⟩ := finalizeLoop_last deadline a r ha
      exact .inr ⟨[], a, r, x, rfl, by simp, ha, h1, h2⟩

/-- `finalize_transfer` returns only if the last answer of the engine was success; before it
there were only answers of transfers that were not finished. -/
theorem C50_finalize (ok : Bool) (deadline : Nat) (ps : List FinalizePoll) (cs : List Call)
    (h : finalizeTransfer ok deadline ps = some ⟨cs, .ok ()⟩) :
    ok = true ∧ cs = [.finalize] ∧
      ∃ pre p post, ps = pre ++ p :: post ∧ (∀ q ∈ pre, FinalizePoll.Waits deadline q) ∧
        FinalizePoll.Success p := by
  cases ok with
  | false => cases h
  | true =>
    simp only [finalizeTransfer, Bool.not_true] at h
    rcases finalizeLoop_cases deadline ps with ⟨h0, -⟩ | ⟨pre, p, post, r, rfl, h1, h2, h3, h4⟩
    · rw [h0] at h; cases h
    · rw [h3] at h
      simp at h
      exact ⟨rfl, h.1.symm, pre, p, post, rfl, h1, h4.1 h.2⟩

/-- The first answer that ends the loop decides: success returns, everything else raises. -/
theorem C50_finalize_decides (deadline : Nat) (pre : List FinalizePoll) (p : FinalizePoll)
    (post : List FinalizePoll) (h1 : ∀ q ∈ pre, FinalizePoll.Waits deadline q)
    (h2 : ¬ FinalizePoll.Waits deadline p) :
    ∃ r, finalizeTransfer true deadline (pre ++ p :: post) = some ⟨[.finalize], r⟩ ∧
      (r = .ok () ↔ FinalizePoll.Success p) := by
  obtain ⟨r, h3, h4⟩ := finalizeLoop_last deadline p post h2
  refine ⟨r, ?_, h4⟩
  simp only [finalizeTransfer, Bool.not_true, finalizeLoop_waits _ _ _ h1, h3]
  rfl

/-- Finalizing ends in time, too. -/
theorem C50_finalize_terminates (deadline : Nat) (ps : List FinalizePoll)
    (h : ∃ q ∈ ps, deadline < q.now) : finalizeLoop deadline ps ≠ none := by
  rcases finalizeLoop_cases deadline ps with ⟨-, h0⟩ | ⟨pre, p, post, r, rfl, h1, h2, h3, h4⟩
  · obtain ⟨q, hq, hlt⟩ := h
    obtain ⟨_, _, _, _, hle⟩ := h0 q hq
    omega
  · rw [h3]; simp

/-! ### The disk -/

/-- Waiting for a disk returns exactly if the disk was reported OK after being locked, in
time. -/
theorem C50_disk_iff (deadline : Nat) (ps : List DiskPoll) :
    waitForDisk deadline ps = some (.ok ()) ↔
      ∃ pre p post, ps = pre ++ p :: post ∧ (∀ q ∈ pre, DiskPoll.Waits deadline q) ∧
        p.reply = .value .ok ∧ p.now ≤ deadline := by
  induction ps with
  | nil => simp [waitForDisk]
  | cons a r ih =>
    have hsplit : (∃ pre p post, a :: r = pre ++ p :: post ∧
        (∀ q ∈ pre, DiskPoll.Waits deadline q) ∧ p.reply = .value .ok ∧ p.now ≤ deadline) ↔
        (a.reply = .value .ok ∧ a.now ≤ deadline) ∨ (DiskPoll.Waits deadline a ∧
          ∃ pre p post, r = pre ++ p :: post ∧ (∀ q ∈ pre, DiskPoll.Waits deadline q) ∧
            p.reply = .value .ok ∧ p.now ≤ deadline) := by
      constructor
      · rintro ⟨pre, p, post, he, h1, h2⟩
        cases pre with
        | nil => simp at he; exact .inl (he.1 ▸ h2)
        | cons b bs =>
          simp at he
          exact .inr ⟨he.1 ▸ h1 b (by simp), bs, p, post, he.2,
            fun q hq => h1 q (by simp [hq]), h2⟩
      · rintro (h | ⟨ha, pre, p, post, rfl, h1, h2⟩)
        · exact ⟨[], a, r, rfl, by simp, h⟩
        · exact ⟨a :: pre, p, post, rfl, by simpa using ⟨ha, h1⟩, h2⟩
    rw [hsplit, ← ih, waitForDisk]
    by_cases hn : a.now > deadline
    · rw [if_pos hn]
      have : ¬ a.now ≤ deadline := by omega
      simp [this, DiskPoll.Waits]
    · rw [if_neg hn]
      have : a.now ≤ deadline := by omega
      cases hr : a.reply with
      | notFound => simp [DiskPoll.Waits, hr]
      | failed => simp [DiskPoll.Waits, hr]
      | value s => cases s <;> simp [DiskPoll.Waits, hr, this]

/-! ### Uploads and downloads -/

theorem andThen_some {a b : Option (Out Unit)} {o : Out Unit} (h : andThen a b = some o) :
    (∃ x e, a = some x ∧ x.res = .error e ∧ o = ⟨x.calls, .error e⟩) ∨
      (∃ x y, a = some x ∧ x.res = .ok () ∧ b = some y ∧ o = ⟨x.calls ++ y.calls, y.res⟩) := by
  cases a with
  | none => cases h
  | some x =>
    simp only [andThen, Out.andThen] at h
    cases hx : x.res with
    | error e => rw [hx] at h; cases h; exact .inl ⟨x, e, rfl, hx, rfl⟩
    | ok u =>
      rw [hx] at h
      cases b with
      | none => cases h
      | some y => cases h; exact .inr ⟨x, y, rfl, hx, rfl, rfl⟩

theorem addDisk_calls {ok : Bool} {d : Nat} {ps : List DiskPoll} {o : Out Unit}
    (h : addDisk ok d ps = some o) : o.calls = [.addDisk] := by
  unfold addDisk at h
  split at h
  · cases h; rfl
  · cases hw : waitForDisk d ps with
    | none => rw [hw] at h; cases h
    | some r => rw [hw] at h; cases h; rfl

theorem finalizeTransfer_calls {ok : Bool} {d : Nat} {ps : List FinalizePoll} {o : Out Unit}
    (h : finalizeTransfer ok d ps = some o) : o.calls = [.finalize] := by
  unfold finalizeTransfer at h
  split at h
  · cases h; rfl
  · cases hw : finalizeLoop d ps with
    | none => rw [hw] at h; cases h
    | some r => rw [hw] at h; cases h; rfl

theorem createTransfer_calls {addOk linkOk : Bool} {d : Nat} {ps : List CreatePoll}
    {o : Out Unit} (h : createTransfer true addOk d ps linkOk = some o) :
    o.calls = [.addTransfer] ∨
      (o.calls = [.addTransfer, .cancel] ∧ ∃ e, o.res = .error e) := by
  simp only [createTransfer, Bool.not_true] at h
  cases addOk with
  | false => cases h; exact .inl rfl
  | true =>
    simp only [Bool.not_true] at h
    rcases createLoop_cases d ps with hw | ⟨pre, p, post, rfl, h1, h2⟩
    · rw [createLoop_none _ _ hw] at h; cases h
    · obtain ⟨x, h3, h4, h5, h6⟩ := createLoop_last d p post h2
      rw [createLoop_waits _ _ _ h1, h3] at h
      cases h
      rcases h5 with h5 | h5
      · right
        refine ⟨by simp [h5], ?_⟩
        cases hx : x.res with
        | error e => exact ⟨e, rfl⟩
        | ok u =>
          have := h4.1 hx
          obtain ⟨ph, h7, h8, -⟩ := h6.1 h5
          rw [this] at h7
          cases h7
          exact absurd rfl h8
      · left
        simp [h5]

/-- A disk was added, and the engine reported that it is ready. -/
theorem addDisk_ok {b : Bool} {deadline : Nat} {polls : List DiskPoll} {x : Out Unit} (h : addDisk b deadline polls = some x) (hr : x.res = .ok ()) :
    b = true ∧ ∃ p ∈ polls, p.reply = .value .ok := by
  unfold addDisk at h
  cases b with
  | false => cases h; cases hr
  | true =>
    refine ⟨rfl, ?_⟩
    rw [if_neg (by decide)] at h
    have hw : waitForDisk deadline polls = some (.ok ()) := by
      cases hw : waitForDisk deadline polls with
      | none => rw [hw] at h; cases h
      | some r => rw [hw] at h; cases h; rw [← hr]
    clear h
    induction polls with
    | nil => cases hw
    | cons p ps ih =>
      unfold waitForDisk at hw
      split at hw
      · cases hw
      · split at hw
        · cases hw
        · cases hw
        · rename_i st hst
          split at hw
          · cases hw
          · split at hw
            · rename_i hok
              exact ⟨p, List.mem_cons_self .., by rw [hst, hok]⟩
            · obtain ⟨q, hq, hr⟩ := ih hw
              exact ⟨q, List.mem_cons_of_mem _ hq, hr⟩

/-- The upload is reported as completed only if the disk was added and is ready, the whole image was copied and the engine
reported that the transfer was finalized. -/
theorem C53_upload_completed (e : UploadEnv) (cs : List Call)
    (h : uploadDisk e = some ⟨cs, .ok ()⟩) :
    (e.prepare = .ok () ∧ e.addDiskOk = true ∧ (∃ p ∈ e.diskPolls, p.reply = .value .ok) ∧ e.findHost = .ok ()) ∧
      e.upload = .ok () ∧ cs = [.addDisk, .addTransfer, .finalize] ∧
      ∃ p ∈ e.finalizePolls, FinalizePoll.Success p := by
  unfold uploadDisk at h
  rcases andThen_some h with ⟨x, e', -, -, ho⟩ | ⟨x1, y1, hx1, hr1, hy1, ho1⟩
  · cases ho
  rcases andThen_some hy1 with ⟨x, e', -, hx, rfl⟩ | ⟨x2, y2, hx2, hr2, hy2, rfl⟩
  · cases ho1
  rcases andThen_some hy2 with ⟨x, e', -, hx, rfl⟩ | ⟨x3, y3, hx3, hr3, hy3, rfl⟩
  · cases ho1
  rcases andThen_some hy3 with ⟨x, e', -, hx, rfl⟩ | ⟨x4, y4, hx4, hr4, hy4, rfl⟩
  · cases ho1
  have c2 := addDisk_calls hx2
  have c4 : x4.calls = [.addTransfer] := by
    rcases createTransfer_calls hx4 with h | ⟨-, e', he⟩
    · exact h
    · rw [hr4] at he; cases he
  have c1 : x1.calls = [] := by cases hx1; rfl
  have c3 : x3.calls = [] := by cases hx3; rfl
  unfold uploadAndFinish at hy4
  cases hu : e.upload with
  | error err => rw [hu] at hy4; cases hy4; cases ho1
  | ok u =>
    rw [hu] at hy4
    simp only [Out.mk.injEq, c1, c2, c3, c4, List.nil_append] at ho1
    obtain ⟨hc, hres⟩ := ho1
    have hy : y4 = ⟨y4.calls, .ok ()⟩ := by rw [hres]
    rw [hy] at hy4
    obtain ⟨-, hcalls, pre, p, post, hp, -, hs⟩ := C50_finalize _ _ _ _ hy4
    have hprep : e.prepare = .ok () := by cases hx1; exact hr1
    have hfind : e.findHost = .ok () := by cases hx3; exact hr3
    have hadd := addDisk_ok hx2 hr2
    exact ⟨⟨hprep, hadd.1, hadd.2, hfind⟩, rfl, by rw [hc, hcalls]; rfl, p, by rw [hp]; simp, hs⟩

/-- The calls of an upload, whatever happens: the transfer is finalized only after the whole
image was copied, and it is canceled if the copy failed; never both, never twice. -/
theorem C53_upload_calls (e : UploadEnv) (o : Out Unit) (h : uploadDisk e = some o) :
    (Call.finalize ∈ o.calls → e.upload = .ok () ∧ Call.cancel ∉ o.calls) ∧
      o.calls.count .finalize + o.calls.count .cancel ≤ 1 ∧
      o.calls.count .addTransfer ≤ 1 ∧ o.calls.count .addDisk ≤ 1 := by
  unfold uploadDisk at h
  rcases andThen_some h with ⟨x, e', hx, -, rfl⟩ | ⟨x1, y1, hx1, hr1, hy1, rfl⟩
  · cases hx; simp
  have c1 : x1.calls = [] := by cases hx1; rfl
  rcases andThen_some hy1 with ⟨x, e', hx, -, rfl⟩ | ⟨x2, y2, hx2, hr2, hy2, rfl⟩
  · simp [c1, addDisk_calls hx]
  have c2 := addDisk_calls hx2
  rcases andThen_some hy2 with ⟨x, e', hx, -, rfl⟩ | ⟨x3, y3, hx3, hr3, hy3, rfl⟩
  · cases hx; simp [c1, c2]
  have c3 : x3.calls = [] := by cases hx3; rfl
  rcases andThen_some hy3 with ⟨x, e', hx, -, rfl⟩ | ⟨x4, y4, hx4, hr4, hy4, rfl⟩
  · rcases createTransfer_calls hx with hc | ⟨hc, -⟩ <;> simp [c1, c2, c3, hc]
  have c4 : x4.calls = [.addTransfer] := by
    rcases createTransfer_calls hx4 with h | ⟨-, e', he⟩
    · exact h
    · rw [hr4] at he; cases he
  unfold uploadAndFinish at hy4
  cases hu : e.upload with
  | error err => rw [hu] at hy4; cases hy4; simp [c1, c2, c3, c4]
  | ok u =>
    rw [hu] at hy4
    simp [c1, c2, c3, c4, finalizeTransfer_calls hy4]

/-- If the copy fails, the transfer is canceled, so that the engine removes the disk, and
the command fails. -/
theorem C53_upload_failed (e : UploadEnv) (o : Out Unit) (err : Error)
    (h : uploadDisk e = some o) (hu : e.upload = .error err)
    (hc : ∃ cs, createTransfer true e.addTransferOk e.createDeadline e.createPolls e.linkOk =
      some ⟨cs, .ok ()⟩)
    (hd : ∃ cs, addDisk e.addDiskOk e.diskDeadline e.diskPolls = some ⟨cs, .ok ()⟩)
    (hp : e.prepare = .ok ()) (hf : e.findHost = .ok ()) :
    o.calls = [.addDisk, .addTransfer, .cancel] ∧ ∃ err', o.res = .error err' := by
  obtain ⟨c1, hc⟩ := hc
  obtain ⟨c2, hd⟩ := hd
  have h1 := addDisk_calls hd
  have h2 : c1 = [.addTransfer] := by
    rcases createTransfer_calls hc with h | ⟨-, e', he⟩
    · exact h
    · cases he
  simp only at h1
  subst h1 h2
  simp only [uploadDisk, hd, hc, hp, hf, localStep, andThen, Out.andThen, uploadAndFinish, hu,
    Option.map_some, Option.some.injEq] at h
  subst h
  exact ⟨rfl, _, rfl⟩

/-- A download always finalizes the transfer that it created, and is reported as completed
only if the image was downloaded and the engine reported success. -/
theorem C53_download (e : DownloadEnv) (o : Out Unit) (h : downloadDisk e = some o) :
    (o.res = .ok () → e.download = .ok () ∧ ∃ p ∈ e.finalizePolls, FinalizePoll.Success p) ∧
      (∀ cs, createTransfer true e.addTransferOk e.createDeadline e.createPolls e.linkOk =
        some ⟨cs, .ok ()⟩ → e.prepare = .ok () → o.calls = [.addTransfer, .finalize]) := by
  unfold downloadDisk at h
  rcases andThen_some h with ⟨x, e', hx, hr, rfl⟩ | ⟨x1, y1, hx1, hr1, hy1, rfl⟩
  · cases hx
    refine ⟨by simp, fun cs _ hp => ?_⟩
    rw [hp] at hr; cases hr
  rcases andThen_some hy1 with ⟨x, e', hx, hr, rfl⟩ | ⟨x4, y4, hx4, hr4, hy4, rfl⟩
  · refine ⟨by simp, fun cs hc hp => ?_⟩
    rw [hc] at hx; cases hx; cases hr
  have c1 : x1.calls = [] := by cases hx1; rfl
  have c4 : x4.calls = [.addTransfer] := by
    rcases createTransfer_calls hx4 with h | ⟨-, e', he⟩
    · exact h
    · rw [hr4] at he; cases he
  unfold downloadAndFinish at hy4
  cases hf : finalizeTransfer e.finalizeOk e.finalizeDeadline e.finalizePolls with
  | none => rw [hf] at hy4; cases hy4
  | some f =>
    rw [hf] at hy4
    cases hy4
    refine ⟨fun hres => ?_, fun cs _ _ => by simp [c1, c4, finalizeTransfer_calls hf]⟩
    cases hfr : f.res with
    | error err => simp [hfr] at hres
    | ok u =>
      simp [hfr] at hres
      have hy : f = ⟨f.calls, .ok ()⟩ := by rw [← hfr]
      rw [hy] at hf
      obtain ⟨-, -, pre, p, post, hp, -, hs⟩ := C50_finalize _ _ _ _ hf
      exact ⟨hres, p, by rw [hp]; simp, hs⟩

/-- An environment for the examples. -/
def uploadEnv0 : UploadEnv :=
  { prepare := .ok (), addDiskOk := true, diskDeadline := 60, diskPolls := [⟨1, .value .ok⟩]
    findHost := .ok (), addTransferOk := true, createDeadline := 60
    createPolls := [⟨.value .initializing, true, 2⟩, ⟨.value .transferring, true, 3⟩]
    linkOk := true, upload := .ok (), cancelOk := true, finalizeOk := true
    finalizeDeadline := 300, finalizePolls := [⟨.value .finishedSuccess, .notFound, 4⟩] }

example : uploadDisk uploadEnv0 = some ⟨[.addDisk, .addTransfer, .finalize], .ok ()⟩ := rfl
example : uploadDisk { uploadEnv0 with upload := .error (.local 0) } =
    some ⟨[.addDisk, .addTransfer, .cancel], .error (.local 0)⟩ := rfl

/-- Not every transfer that is ready is canceled or finalized: if the link to the host of a
ready transfer cannot be followed (only needed for a log message), the command fails and
leaves the transfer, and its locked disk, in the engine. -/
theorem C53_counterexample_left : uploadDisk { uploadEnv0 with linkOk := false } =
    some ⟨[.addDisk, .addTransfer], .error .sdk⟩ := rfl

/-- A new disk is left in the engine if finding the host fails. -/
theorem C53_counterexample_disk_left :
    uploadDisk { uploadEnv0 with findHost := .error (.local 0) } =
      some ⟨[.addDisk], .error (.local 0)⟩ := rfl

/-! ### Examples -/

example : createTransfer true true 60
    [⟨.value .initializing, true, 1⟩, ⟨.value .transferring, true, 2⟩] true =
      some ⟨[.addTransfer], .ok ()⟩ := rfl
example : createTransfer true true 60
    [⟨.value .initializing, true, 1⟩, ⟨.value .pausedSystem, true, 2⟩] true =
      some ⟨[.addTransfer, .cancel], .error .paused⟩ := rfl
example : createTransfer true true 60 [⟨.value .initializing, true, 61⟩] true =
      some ⟨[.addTransfer, .cancel], .error .timeout⟩ := rfl
example : createLoop 60 [⟨.value .initializing, true, 60⟩] = none := rfl
example : Ticking 1 [3, 4, 6] := by
  intro i j x y hij hx hy
  have hj : j < 3 := (List.getElem?_eq_some_iff.1 hy).1
  have hi : i < 3 := by omega
  rcases i with _ | _ | _ | i <;> rcases j with _ | _ | _ | j <;> simp_all <;> omega
example : finalizeTransfer true 300
    [⟨.value (.other 0), .notFound, 1⟩, ⟨.notFound, .value .ok, 2⟩] =
      some ⟨[.finalize], .ok ()⟩ := rfl
example : finalizeTransfer true 300
    [⟨.value .pausedSystem, .notFound, 1⟩, ⟨.value .finishedFailure, .value .ok, 2⟩] =
      some ⟨[.finalize], .error .failure⟩ := rfl
example : waitForDisk 10 [⟨1, .value .locked⟩, ⟨2, .value .ok⟩] = some (.ok ()) := rfl

end Imageio.Props
