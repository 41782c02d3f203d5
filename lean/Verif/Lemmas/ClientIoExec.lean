import Verif.Lemmas.ClientIoLive
import Mathlib.Logic.Relation
/-! A scheduler for examples: runs the threads in a given order, without failures. -/
namespace Imageio.Io

/-- One step of thread `t`: 0 is the main thread, `k + 1` is worker `k`. -/
def Ex.exec (c : Cfg) (s : Ex) (t : Nat) : Option Ex :=
  if t ∈ s.q.waiters then none
  else
    match t with
    | 0 =>
      match s.main with
      | .submit (.skip l :: todo) => some { s with main := .submit todo, progress := s.progress + l }
      | .submit (.put r :: todo) =>
        match s.q.put 0 r with
        | (.put, q) => some { s with main := .submit todo, q := q }
        | (.blocked, q) => some { s with q := q }
        | (.raised, q) => some { s with main := .stopping c.workers, q := q }
        | (.got _, _) => none
      | .submit [] => some { s with main := .stopping c.workers }
      | .stopping (n + 1) =>
        match s.q.put 0 stopReq with
        | (.put, q) => some { s with main := .stopping n, q := q }
        | (.blocked, q) => some { s with q := q }
        | (.raised, q) => some { s with main := .joining none, q := q }
        | (.got _, _) => none
      | .stopping 0 => some { s with main := .joining none }
      | .joining e =>
        if (List.range c.workers).all (fun k => (s.w k).pc = .finished) then
          some { s with main := .done (s.result e) }
        else none
      | .done _ => none
    | k + 1 =>
      if k < c.workers then
        match (s.w k).pc with
        | .starting => some (s.setW k { s.w k with pc := .getting })
        | .getting =>
          match s.q.get (k + 1) with
          | (.got r, q) =>
            if r.op = .stop then
              some { s.setW k { s.w k with pc := .stopping, stopped := true } with q := q }
            else some { s.setW k { s.w k with pc := .working r (c.cut r) } with q := q }
          | (.blocked, q) => some { s with q := q }
          | (.raised, q) => some { s.setW k { s.w k with pc := .leaving } with q := q }
          | (.put, _) => none
        | .working r (x :: xs) =>
          some { s.setW k { s.w k with pc := .working r xs, dirty := true } with
            dst := perform c.src x s.dst, calls := s.calls ++ [x] }
        | .working r [] =>
          some { s.setW k { s.w k with pc := .getting } with
            progress := s.progress + r.length, handled := s.handled ++ [(k, r)] }
        | .stopping => some (s.setW k { s.w k with pc := .leaving, dirty := false })
        | .leaving => some (s.setW k { s.w k with pc := .finished })
        | .failing => some { s.setW k { s.w k with pc := .finished } with q := s.q.close }
        | .finished => none
      else none

theorem exec_sound {c : Cfg} {s s' : Ex} {t : Nat} (h : s.exec c t = some s') : Ex.Step c s s' := by
  unfold Ex.exec at h
  split at h
  · simp at h
  · rename_i hw
    split at h
    · split at h
      · rename_i hm
        simp only [Option.some.injEq] at h; subst h; exact .skip hm
      · rename_i r todo hm
        split at h <;> (try simp only [Option.some.injEq, reduceCtorEq] at h) <;> try subst h
        · rename_i hq; exact .putDone hm hw hq
        · rename_i hq; exact .putBlocked hm hw hq
        · rename_i hq; exact .putRaised hm hw hq
      · rename_i hm
        simp only [Option.some.injEq] at h; subst h; exact .submitDone hm
      · rename_i n hm
        split at h <;> (try simp only [Option.some.injEq, reduceCtorEq] at h) <;> try subst h
        · rename_i hq; exact .stopPut hm hw hq
        · rename_i hq; exact .stopBlocked hm hw hq
        · rename_i hq; exact .stopRaised hm hw hq
      · rename_i hm
        simp only [Option.some.injEq] at h; subst h; exact .stopDone hm
      · rename_i e hm
        split at h
        · rename_i hall
          simp only [Option.some.injEq] at h; subst h
          refine .joined hm ?_
          intro k hk
          simpa using (List.all_eq_true.1 hall) k (List.mem_range.2 hk)
        · simp at h
      · simp at h
    · rename_i k
      split at h
      · rename_i hk
        split at h
        · rename_i hp
          simp only [Option.some.injEq] at h; subst h; exact .started hk hp
        · rename_i hp
          split at h
          · rename_i r q hq
            split at h <;> simp only [Option.some.injEq] at h <;> subst h
            · rename_i hr; exact .getStop hk hp hw hq hr
            · rename_i hr; exact .getDone hk hp hw hq hr
          · rename_i hq
            simp only [Option.some.injEq] at h; subst h; exact .getBlocked hk hp hw hq
          · rename_i hq
            simp only [Option.some.injEq] at h; subst h; exact .getRaised hk hp hw hq
          · simp at h
        · rename_i hp
          simp only [Option.some.injEq] at h; subst h; exact .call hk hp
        · rename_i hp
          simp only [Option.some.injEq] at h; subst h; exact .workDone hk hp
        · rename_i hp
          simp only [Option.some.injEq] at h; subst h; exact .flushed hk hp
        · rename_i hp
          simp only [Option.some.injEq] at h; subst h; exact .left hk hp
        · rename_i hp
          simp only [Option.some.injEq] at h; subst h; exact .close hk hp
        · simp at h
      · simp at h

/-- Run the threads in the given order; a thread that cannot run is skipped. -/
def Ex.execAll (c : Cfg) (s : Ex) : List Nat → Ex
  | [] => s
  | t :: ts => match s.exec c t with
    | none => s.execAll c ts
    | some s' => s'.execAll c ts

theorem execAll_sound {c : Cfg} {acts : List Act} {d : Nat → Byte} {s : Ex} {ts : List Nat}
    (hr : Ex.Reachable c acts d s) : Ex.Reachable c acts d (s.execAll c ts) := by
  induction ts generalizing s with
  | nil => exact hr
  | cons t ts ih =>
    simp only [Ex.execAll]
    split
    · exact ih hr
    · rename_i s1 h1; exact ih (hr.step (exec_sound h1))

theorem execAll_steps {c : Cfg} {s : Ex} {ts : List Nat} :
    Relation.ReflTransGen (Ex.Step c) s (s.execAll c ts) := by
  induction ts generalizing s with
  | nil => exact .refl
  | cons t ts ih =>
    simp only [Ex.execAll]
    split
    · exact ih
    · rename_i s1 h1; exact .head (exec_sound h1) ih

/-- The state after the schedule. -/
theorem execAll_exists {c : Cfg} {acts : List Act} {d : Nat → Byte} (ts : List Nat) (P : Ex → Bool)
    (h : P ((Ex.init c acts d).execAll c ts) = true) :
    ∃ s, Ex.Reachable c acts d s ∧ P s = true :=
  ⟨_, execAll_sound .init, h⟩

end Imageio.Io
