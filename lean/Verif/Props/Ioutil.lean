import Verif.Spec.Ioutil
/-!
C95: the system calls of the C module.
-/
namespace Imageio.Props
open Imageio.Ioutil Imageio.Ioutil.Spec

/-- At most one system call is made; it succeeds exactly if the kernel succeeds; a failure of the
kernel is reported with its errno, and without a system call nothing is reported as done. -/
theorem C95_result (kernel : Syscall → Answer) (c : Call) :
    ((c.run kernel).2 = [] ∧ (c.run kernel).1 = .error (.exception "OverflowError")) ∨
    (∃ s, (c.run kernel).2 = [s] ∧
      ((∃ n, kernel s = .ok n ∧ (c.run kernel).1.isOk = true) ∨
       (∃ e, kernel s = .failed e ∧ (c.run kernel).1 = .error (.os e)))) := by
  cases c with
  | blkzeroout fd start length =>
    simp only [Call.run, Ioutil.blkzeroout]
    split
    · exact Or.inl ⟨rfl, rfl⟩
    · rename_i fd' _
      right
      split
      · rename_i e he
        exact ⟨_, rfl, Or.inr ⟨e, he, rfl⟩⟩
      · rename_i n hn
        exact ⟨_, rfl, Or.inl ⟨n, hn, rfl⟩⟩
  | blksszget fd =>
    simp only [Call.run, Ioutil.blksszget]
    split
    · exact Or.inl ⟨rfl, rfl⟩
    · right
      split
      · rename_i e he
        exact ⟨_, rfl, Or.inr ⟨e, he, rfl⟩⟩
      · rename_i n hn
        exact ⟨_, rfl, Or.inl ⟨n, hn, rfl⟩⟩
  | fallocate fd mode offset length =>
    simp only [Call.run, Ioutil.fallocate]
    split
    · right
      split
      · rename_i e he
        exact ⟨_, rfl, Or.inr ⟨e, he, rfl⟩⟩
      · rename_i n hn
        exact ⟨_, rfl, Or.inl ⟨n, hn, rfl⟩⟩
    · exact Or.inl ⟨rfl, rfl⟩

/-- The block size is the number stored by the kernel. -/
theorem C95_block_size {kernel : Syscall → Answer} {fd n : Int} (hf : -(2 ^ 31) ≤ fd ∧ fd < 2 ^ 31)
    (h : kernel (.blksszget fd) = .ok n) : ((Call.blksszget fd).run kernel).1 = .ok n := by
  simp only [Call.run, Ioutil.blksszget, convInt, if_pos hf, h]

example : ((Call.blksszget 5).run fun _ => .ok 4096).1 = .ok 4096 := rfl

theorem convMask_id {n : Int} (h0 : 0 ≤ n) (h1 : n < 2 ^ 64) : (convMask n : Int) = n := by
  unfold convMask
  rw [Int.emod_eq_of_lt h0 h1]
  omega

/-- A call whose numbers fit makes exactly the system call that it says. -/
theorem C95_exact {kernel : Syscall → Answer} {c : Call} (h : Fits c) :
    ∃ s, (c.run kernel).2 = [s] ∧ Says c s := by
  cases c with
  | blkzeroout fd start length =>
    obtain ⟨h1, h2, h3, h4, h5, h6⟩ := h
    refine ⟨.blkzeroout fd (convMask start) (convMask length), ?_, rfl, convMask_id h3 h4, convMask_id h5 h6⟩
    simp only [Call.run, Ioutil.blkzeroout, convInt, if_pos (And.intro h1 h2)]
    split <;> rfl
  | blksszget fd =>
    refine ⟨.blksszget fd, ?_, rfl⟩
    have h' : -(2 ^ 31) ≤ fd ∧ fd < 2 ^ 31 := h
    simp only [Call.run, Ioutil.blksszget, convInt, if_pos h']
    split <;> rfl
  | fallocate fd mode offset length =>
    obtain ⟨h1, h2, h3, h4⟩ := h
    refine ⟨.fallocate fd mode offset length, ?_, rfl⟩
    simp only [Call.run, Ioutil.fallocate, convInt, convLong, if_pos h1, if_pos h2, if_pos h3, if_pos h4]
    split <;> rfl

example : Fits (.fallocate 5 16 (2 ^ 62) 4096) := by unfold Fits; omega

/-- Partial: whatever the numbers are, `fallocate` and `blksszget` ask the kernel for exactly what
the call says, or fail without a system call.  Missing: `blkzeroout`, see the counterexample. -/
theorem C95_never_other_partial {kernel : Syscall → Answer} {c : Call}
    (hc : ∀ fd start length, c ≠ .blkzeroout fd start length) :
    ∀ s ∈ (c.run kernel).2, Says c s := by
  by_cases hf : Fits c
  · obtain ⟨s, h1, h2⟩ := C95_exact (kernel := kernel) hf
    rw [h1]
    simpa using h2
  · have : (c.run kernel).2 = [] := by
      cases c with
      | blkzeroout fd start length => exact absurd rfl (hc _ _ _)
      | blksszget fd =>
        simp only [Call.run, Ioutil.blksszget, convInt, if_neg (show ¬ (-(2 ^ 31) ≤ fd ∧ fd < 2 ^ 31) from hf)]
      | fallocate fd mode offset length =>
        simp only [Call.run, Ioutil.fallocate]
        split
        · rename_i e1 e2 e3 e4
          exfalso
          apply hf
          unfold convInt at e1 e2
          unfold convLong at e3 e4
          split at e1 <;> split at e2 <;> split at e3 <;> split at e4 <;> first | cases e1; done | cases e2; done | cases e3; done | cases e4; done | exact ⟨‹_›, ‹_›, ‹_›, ‹_›⟩
        · rfl
    rw [this]
    intro s hs
    cases hs

example : ((Call.fallocate 5 16 (2 ^ 63) 4096).run fun _ => .ok 0) = (.error (.exception "OverflowError"), []) := rfl

/-- `blkzeroout` does not check its numbers: an offset beyond 2⁶⁴ zeroes a range at the start of the
device, and the call succeeds.  In general it zeroes the range modulo 2⁶⁴. -/
theorem C95_counterexample_wrap (kernel : Syscall → Answer) (fd start length k : Int) :
    Ioutil.blkzeroout kernel fd (start + k * 2 ^ 64) length = Ioutil.blkzeroout kernel fd start length := by
  have : convMask (start + k * 2 ^ 64) = convMask start := by
    unfold convMask
    rw [Int.add_mul_emod_self_right]
  unfold Ioutil.blkzeroout
  rw [this]

/-- The first 4096 bytes are zeroed. -/
example : Ioutil.blkzeroout (fun _ => .ok 0) 5 (2 ^ 64) 4096 = (.ok 0, [.blkzeroout 5 0 4096]) := rfl

/-- A negative offset is the end of the address space. -/
example : (Ioutil.blkzeroout (fun _ => .failed "EINVAL") 5 (-4096) 4096).2 =
    [.blkzeroout 5 18446744073709547520 4096] := rfl

/-- The calls of the file backend: for every range inside of a file, the kernel is asked for the
operation that the backend wants, on exactly this range. -/
theorem C95_backend {kernel : Syscall → Answer} (b : BackendCall) {fd offset count : Int}
    (hfd : 0 ≤ fd ∧ fd < 2 ^ 31) (ho : 0 ≤ offset) (hc : 0 ≤ count) (hend : offset + count < 2 ^ 63) :
    ∃ s, ((b.call fd offset count).run kernel).2 = [s] ∧ effect s = some (wanted b offset count) := by
  have hfit : Fits (b.call fd offset count) := by
    cases b <;> simp only [BackendCall.call, Fits]
    · have : ((constant "FALLOC_FL_ZERO_RANGE" : Nat) : Int) = 16 := by decide
      rw [this]; omega
    · have : ((constant "FALLOC_FL_PUNCH_HOLE" ||| constant "FALLOC_FL_KEEP_SIZE" : Nat) : Int) = 3 := by decide
      rw [this]; omega
    · omega
    · omega
  obtain ⟨s, h1, h2⟩ := C95_exact (kernel := kernel) hfit
  refine ⟨s, h1, ?_⟩
  cases b with
  | zeroRange =>
    simp only [BackendCall.call, Says] at h2
    subst h2
    rfl
  | punchHole =>
    simp only [BackendCall.call, Says] at h2
    subst h2
    rfl
  | allocate =>
    simp only [BackendCall.call, Says] at h2
    subst h2
    rfl
  | zeroOut =>
    cases s with
    | blkzeroout f st ln =>
      obtain ⟨rfl, hs, hl⟩ := h2
      simp [effect, wanted, hs, hl]
    | blksszget f => exact absurd h2 (by simp [BackendCall.call, Says])
    | fallocate f m o l => exact absurd h2 (by simp [BackendCall.call, Says])

example : (((BackendCall.punchHole).call 5 4096 8192).run fun _ => .ok 0).2 = [.fallocate 5 3 4096 8192] := by
  decide +kernel

/-- `_fallocate` says that an operation is not supported only if the kernel said so, and that it was
done only if the kernel did it. -/
theorem C95_supported {kernel : Syscall → Answer} {c : Call} {r : Bool} {calls : List Syscall}
    (h : tryFallocate kernel c = (.ok r, calls)) :
    ∃ s, calls = [s] ∧ (r = false → kernel s = .failed "EOPNOTSUPP") ∧ (r = true → ∃ n, kernel s = .ok n) := by
  have key := C95_result kernel c
  obtain ⟨res, cs, hr⟩ : ∃ res cs, c.run kernel = (res, cs) := ⟨_, _, rfl⟩
  rw [hr] at key
  unfold tryFallocate at h
  rw [hr] at h
  rcases key with ⟨h1, h2⟩ | ⟨s, h1, h2⟩
  · simp only at h2
    subst h2
    cases h
  · simp only at h1 h2
    subst h1
    rcases h2 with ⟨n, hk, hok⟩ | ⟨e, hk, he⟩
    · cases res with
      | error e => cases hok
      | ok v =>
        cases h
        exact ⟨s, rfl, nofun, fun _ => ⟨n, hk⟩⟩
    · subst he
      simp only at h
      split at h
      · rename_i heq
        cases h
        exact ⟨s, rfl, fun _ => by rw [hk, heq], nofun⟩
      · cases h

/-- Not supported, after one system call. -/
example : (match tryFallocate (fun _ => .failed "EOPNOTSUPP") ((BackendCall.zeroRange).call 5 0 4096) with
    | (.ok r, calls) => r = false ∧ calls = [.fallocate 5 16 0 4096]
    | _ => False) := by
  simp [tryFallocate, Call.run, Ioutil.fallocate, BackendCall.call, constant, constants, convInt, convLong]

end Imageio.Props
