import Verif.Spec.WithStatement
/-!
C94: errors at the end of `with` statements.
-/
namespace Imageio.Props
open Imageio.WithStatement Imageio.WithStatement.Spec

/-- Everything is released, the innermost object first, whatever fails and of whatever kind the
errors are. -/
theorem C94_released (stack : List (Manager × Option Exc)) (body : Option Exc) :
    (nested stack body).2 = (stack.map Prod.fst).reverse := by
  induction stack with
  | nil => rfl
  | cons p inner ih =>
    obtain ⟨m, c⟩ := p
    simp [nested, ih]

example : (nested [(.httpBackend, some ⟨"OSError", true⟩), (.qemuNbd, none), (.executor, none)]
    (some ⟨"KeyboardInterrupt", false⟩)).2 = [.executor, .qemuNbd, .httpBackend] := by decide

theorem first_cons (m : Manager) (c : Option Exc) (inner : List (Manager × Option Exc)) (body : Option Exc) :
    first ((m, c) :: inner) body = (first inner body).or c := by
  unfold first
  rw [List.reverse_cons, List.map_append, ← List.cons_append, List.findSome?_append]
  simp [List.findSome?]

theorem withOne_promising {m : Manager} (hm : m ∈ promising) {c b : Option Exc}
    (hc : ∀ e, c = some e → e.ordinary = true) : withOne m c b = b.or c := by
  cases c with
  | none =>
    simp only [promising, List.mem_cons, List.not_mem_nil, or_false] at hm
    rcases hm with rfl | rfl | rfl | rfl | rfl | rfl <;> cases b <;> rfl
  | some e =>
    have he := hc e rfl
    simp only [promising, List.mem_cons, List.not_mem_nil, or_false] at hm
    rcases hm with rfl | rfl | rfl | rfl | rfl | rfl <;> cases b <;>
      simp [withOne, Manager.exit, guarded, he]

/-- Partial: with the classes that promise it, and with the wrapper, the user sees the first error
that happened: the error of the body, otherwise the first error of closing.  No error is lost.
Missing: the other classes, see the counterexamples; and errors of closing that are not an
`Exception`. -/
theorem C94_first_partial {stack : List (Manager × Option Exc)} {body : Option Exc}
    (hm : ∀ p ∈ stack, p.1 ∈ promising ∨ p.1 = .wrapper ∧ p.2 = none)
    (hc : ∀ p ∈ stack, ∀ e, p.2 = some e → e.ordinary = true) :
    (nested stack body).1 = first stack body := by
  induction stack with
  | nil => cases body <;> rfl
  | cons p inner ih =>
    obtain ⟨m, c⟩ := p
    have ih := ih (fun p hp => hm p (List.mem_cons_of_mem _ hp)) (fun p hp => hc p (List.mem_cons_of_mem _ hp))
    rw [first_cons]
    simp only [nested, ih]
    rcases hm _ (List.mem_cons_self ..) with h | ⟨h1, h2⟩
    · exact withOne_promising h (hc _ (List.mem_cons_self ..))
    · simp only at h1 h2
      subst h1 h2
      cases first inner body <;> rfl

/-- Both closings fail after the body failed: the error of the body is seen. -/
example : (nested [(.httpBackend, some ⟨"OSError", true⟩), (.executor, some ⟨"RuntimeError", true⟩)]
    (some ⟨"ValueError", true⟩)).1 = some ⟨"ValueError", true⟩ := by decide

/-- The error of the executor is seen, not the one of closing the connection later. -/
example : (nested [(.httpBackend, some ⟨"OSError", true⟩), (.executor, some ⟨"RuntimeError", true⟩)] none).1 =
    some ⟨"RuntimeError", true⟩ := by decide

/-- If nothing fails to close, the result of any nested `with` statements is the result of the body:
no class hides an error. -/
theorem C94_body {stack : List (Manager × Option Exc)} {body : Option Exc} (hc : ∀ p ∈ stack, p.2 = none) :
    (nested stack body).1 = body := by
  induction stack with
  | nil => rfl
  | cons p inner ih =>
    obtain ⟨m, c⟩ := p
    have h : c = none := hc _ (List.mem_cons_self ..)
    subst h
    have ih := ih fun p hp => hc p (List.mem_cons_of_mem _ hp)
    simp only [nested, ih]
    cases m <;> cases body <;> rfl

/-- Failures are never silent: when nested statements of any classes end without an error, the
body did not fail, and everything was closed without an error (closing the wrapper does
nothing that can fail). -/
theorem C94_no_silence {stack : List (Manager × Option Exc)} {body : Option Exc}
    (hw : ∀ p ∈ stack, p.1 = .wrapper → p.2 = none)
    (h : (nested stack body).1 = none) : body = none ∧ ∀ p ∈ stack, p.2 = none := by
  induction stack with
  | nil => exact ⟨h, fun _ hp => by cases hp⟩
  | cons p inner ih =>
    obtain ⟨m, c⟩ := p
    simp only [nested] at h
    have hin : (nested inner body).1 = none := by
      unfold withOne at h
      split at h
      · cases h
      · exact h
    obtain ⟨h1, h2⟩ := ih (fun p hp => hw p (List.mem_cons_of_mem _ hp)) hin
    rw [hin] at h
    have hcn : c = none := by
      cases c with
      | none => rfl
      | some e =>
        exfalso
        by_cases hmw : m = .wrapper
        · subst hmw
          cases hw _ (List.mem_cons_self ..) rfl
        · cases ho : e.ordinary <;> cases m <;> simp_all [withOne, Manager.exit, guarded]
    refine ⟨h1, fun p hp => ?_⟩
    rcases List.mem_cons.mp hp with rfl | hp
    · exact hcn
    · exact h2 p hp

/-- An interrupt while an object is closed is never swallowed, also if the body failed: it is raised
by every class.  The wrapper does not close its backend, which is kept for the next request: the
result is the one of the body. -/
theorem C94_interrupt (m : Manager) (e : Exc) (body : Option Exc) (he : e.ordinary = false) :
    withOne m (some e) body = if m = .wrapper then body else some e := by
  cases m <;> cases body <;> simp [withOne, Manager.exit, guarded, he]

example : withOne .httpBackend (some ⟨"KeyboardInterrupt", false⟩) (some ⟨"OSError", true⟩) =
    some ⟨"KeyboardInterrupt", false⟩ := by decide

/-- The NBD client: an error of closing hides the error of the body behind `AttributeError`, for all
errors. -/
theorem C94_counterexample_nbd_client (body close : Exc) (h : close.ordinary = true) :
    withOne .nbdClient (some close) (some body) = some ⟨"AttributeError", true⟩ := by
  simp [withOne, Manager.exit, h]

/-- The other classes: an error of closing replaces the error of the body. -/
theorem C94_counterexample_replaced (body close : Exc) :
    ∀ m ∈ [Manager.adminClient, .progressBar, .qemuNbd, .tmpDir, .closing],
      withOne m (some close) (some body) = some close := by
  simp [withOne, Manager.exit]

/-- A transfer that failed, when qemu-nbd cannot be stopped or the directory cannot be removed: the
user does not see why the transfer failed. -/
theorem C94_counterexample_transfer (body close : Exc) :
    (nested (transferStack.map fun m => (m, if m = .qemuNbd then some close else none)) (some body)).1 =
      some close := by
  simp [transferStack, nested, withOne, Manager.exit, guarded]

/-- The NBD backend opened by `_open_nbd` is not released by the `with` statements: everything else
is. -/
theorem C94_counterexample_open (body : Option Exc) (closes : Manager → Option Exc) :
    Manager.nbdBackend ∈ transferOpened ∧ ∀ m ∈ transferOpened,
      (m ∈ (nested (transferStack.map fun m => (m, closes m)) body).2 ↔ m ≠ .nbdBackend) := by
  refine ⟨by decide, ?_⟩
  intro m hm
  rw [C94_released]
  simp only [transferOpened, List.mem_cons, List.not_mem_nil, or_false] at hm
  rcases hm with rfl | rfl | rfl | rfl | rfl <;> simp [transferStack]

end Imageio.Props
