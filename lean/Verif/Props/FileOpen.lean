import Verif.Model.FileOpen
/-!
C56: the block size of the file backend.
-/
namespace Imageio.Props
open Imageio.File

/-- A storage that accepts direct I/O in multiples of `a` bytes, and refuses everything else. -/
def Strict (a : Nat) (read : ReadProbe) : Prop :=
  ∀ k, read k = if k % a = 0 then .ok () else .error "EINVAL"

/-- A storage that does not check reads (NFS; files without allocated blocks). -/
def Lenient (read : ReadProbe) : Prop := ∀ k, read k = .ok ()

/-- The block sizes found: 512 or 4096, and 4096 if the storage does not tell. -/
theorem C56_detect (read : ReadProbe) (b : Nat) : detectBlockSize read = .ok b ↔
    (read 1 = .ok () ∧ b = 4096) ∨
    (read 1 = .error "EINVAL" ∧ read 512 = .ok () ∧ b = 512) ∨
    (read 1 = .error "EINVAL" ∧ read 512 = .error "EINVAL" ∧ read 4096 = .ok () ∧ b = 4096) := by
  unfold detectBlockSize
  simp only [detectLoop]
  rcases read 1 with e1 | ⟨⟩ <;> rcases read 512 with e2 | ⟨⟩ <;> rcases read 4096 with e3 | ⟨⟩ <;> simp only <;>
    grind

/-- For every storage with an alignment of up to 4096 bytes, direct I/O in multiples of the detected
block size is accepted. -/
theorem C56_usable {a : Nat} {read : ReadProbe} (hs : Strict a read) (ha : a ∣ 4096) :
    ∃ b, detectBlockSize read = .ok b ∧ a ∣ b ∧ (b = 512 ∨ b = 4096) ∧ ∀ n, read (n * b) = .ok () := by
  have key : ∀ b, a ∣ b → ∀ n, read (n * b) = .ok () := by
    intro b hb n
    rw [hs, if_pos (Nat.mod_eq_zero_of_dvd (Nat.dvd_mul_left_of_dvd hb n))]
  have h4 : read 4096 = .ok () := by rw [hs, if_pos (Nat.mod_eq_zero_of_dvd ha)]
  have hr := fun k => hs k
  by_cases h1 : 1 % a = 0
  · exact ⟨4096, (C56_detect read 4096).2 (.inl ⟨by rw [hs, if_pos h1], rfl⟩), ha, .inr rfl, key _ ha⟩
  · by_cases h5 : 512 % a = 0
    · have hd : a ∣ 512 := Nat.dvd_of_mod_eq_zero h5
      exact ⟨512, (C56_detect read 512).2 (.inr (.inl ⟨by rw [hs, if_neg h1], by rw [hs, if_pos h5], rfl⟩)), hd, .inl rfl, key _ hd⟩
    · exact ⟨4096, (C56_detect read 4096).2 (.inr (.inr ⟨by rw [hs, if_neg h1], by rw [hs, if_neg h5], h4, rfl⟩)), ha, .inr rfl,
        key _ ha⟩

/-- If the storage does not check reads, direct I/O writes in multiples of the block size chosen are
accepted for every alignment of writes up to 4096 bytes. -/
theorem C56_lenient {read write : ReadProbe} {a : Nat} (hl : Lenient read) (hw : Strict a write) (ha : a ∣ 4096) :
    ∃ b, detectBlockSize read = .ok b ∧ ∀ n, write (n * b) = .ok () := by
  refine ⟨4096, (C56_detect read 4096).2 (.inl ⟨hl 1, rfl⟩), fun n => ?_⟩
  rw [hw, if_pos (Nat.mod_eq_zero_of_dvd (Nat.dvd_mul_left_of_dvd ha n))]

/-- Every backend that was opened has a positive block size that is a power of two, as the alignment
test of the backend needs. -/
theorem C56_power_of_two {openOk : Except String Unit} {stat : Except String Bool} {read : ReadProbe} {sparse left : Bool}
    {env : Env} (h : openFile openOk stat read sparse = (.ok env, left)) :
    (env.bs = 512 ∨ env.bs = 4096) ∧ env.sparse = sparse ∧ left = true ∧ stat = .ok env.isBlock ∧
    ∀ n : Nat, n &&& (env.bs - 1) = n % env.bs := by
  have pow : ∀ b, (b = 512 ∨ b = 4096) → ∀ n : Nat, n &&& (b - 1) = n % b := by
    rintro b (rfl | rfl) n
    · exact Nat.and_two_pow_sub_one_eq_mod n 9
    · exact Nat.and_two_pow_sub_one_eq_mod n 12
  unfold openFile at h
  split at h
  · simp at h
  · split at h
    · simp at h
    · simp only [Prod.mk.injEq, Except.ok.injEq] at h
      obtain ⟨rfl, rfl⟩ := h
      exact ⟨.inl rfl, rfl, rfl, rfl, pow _ (.inl rfl)⟩
    · split at h
      · simp at h
      · rename_i b hb
        simp only [Prod.mk.injEq, Except.ok.injEq] at h
        obtain ⟨rfl, rfl⟩ := h
        have hbs : b = 512 ∨ b = 4096 := by
          have := (C56_detect read b).1 hb
          omega
        exact ⟨hbs, rfl, rfl, rfl, pow _ hbs⟩

/-- When the backend cannot be opened, the file is closed. -/
theorem C56_closed {openOk : Except String Unit} {stat : Except String Bool} {read : ReadProbe} {sparse left : Bool}
    {e : Err} (h : openFile openOk stat read sparse = (.error e, left)) : left = false := by
  unfold openFile at h
  split at h <;> (try split at h) <;> (try split at h) <;> simp_all

/-- A clone has the block size of the original, whatever the storage answers now. -/
theorem C56_clone {openOk : Except String Unit} {read : ReadProbe} {env env' : Env} {left : Bool} (hb : 0 < env.bs)
    (h : cloneFile openOk read env = (.ok env', left)) : env' = env := by
  obtain ⟨b, bs, sp⟩ := env
  simp only at hb
  unfold cloneFile fileBlockSize blockBlockSize at h
  split at h
  · simp at h
  · cases b
    · simp [Nat.pos_iff_ne_zero.1 hb] at h
      exact h.1.symm
    · simp at h
      exact h.1.symm

/-- Another error of the storage is reported, and is not taken for a wrong block size. -/
theorem C56_error {read : ReadProbe} {errno : String} (hn : errno ≠ "EINVAL")
    (h : read 1 = .error errno ∨ read 1 = .error "EINVAL" ∧ (read 512 = .error errno ∨
      read 512 = .error "EINVAL" ∧ read 4096 = .error errno)) : detectBlockSize read = .error (.os errno) := by
  unfold detectBlockSize
  simp only [detectLoop]
  rcases h with h | ⟨h1, h | ⟨h2, h⟩⟩
  · rw [h]; simp [hn]
  · rw [h1, h]; simp [hn]
  · rw [h1, h2, h]; simp [hn]

/-! ## Examples -/

example : Strict 512 (fun k => if k % 512 = 0 then .ok () else .error "EINVAL") := fun _ => rfl

example : detectBlockSize (fun k => if k % 512 = 0 then .ok () else .error "EINVAL") = .ok 512 := rfl

example : openFile (.ok ()) (.ok false) (fun k => if k % 4096 = 0 then .ok () else .error "EINVAL") true =
    (.ok ⟨false, 4096, true⟩, true) := rfl

/-! ## Where it is wrong -/

/-- Block devices are not asked: with an alignment of 4096 bytes the block size of the backend is
refused by the device. -/
theorem C56_counterexample_block_device : ∃ (read : ReadProbe) (env : Env),
    Strict 4096 read ∧ openFile (.ok ()) (.ok true) read true = (.ok env, true) ∧ read env.bs = .error "EINVAL" :=
  ⟨fun k => if k % 4096 = 0 then .ok () else .error "EINVAL", ⟨true, 512, true⟩, fun _ => rfl, rfl, rfl⟩

/-- When no block size works, the error is an AttributeError about the file object. -/
theorem C56_counterexample_error : ∃ read : ReadProbe, Strict 8192 read ∧
    detectBlockSize read = .error (.exception "AttributeError") :=
  ⟨fun k => if k % 8192 = 0 then .ok () else .error "EINVAL", fun _ => rfl, rfl⟩

end Imageio.Props
