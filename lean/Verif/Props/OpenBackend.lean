import Verif.Spec.OpenBackend
/-!
C92: opening the backend of a ticket.
-/
namespace Imageio.Props
open Imageio.Http Imageio.Images Imageio.Url Imageio.OpenBackend Imageio.OpenBackend.Spec

namespace OpenEx

/-- A system where everything succeeds. -/
def world : World where
  osOpen _ _ := .ok ()
  fileIO _ _ := .ok ()
  stat _ := .ok false
  read _ _ := .ok ()
  connectNbd _ _ := .ok ()
  connectHttp _ _ := .ok ()
  mmap n := if n = 0 then .error (.os "EINVAL") else .ok ()

/-- A configuration. -/
def config : Config := ⟨[], lit "/ca.pem", 8388608, 8388608, 8388608⟩

/-- A ticket with this scheme and these operations. -/
def ticket (scheme : String) (ops : List Json) : Tickets.Fields where
  uuid := lit "t"
  size := 1024
  ops := ops
  timeout := 60
  inactivityTimeout := 60
  url := ⟨lit scheme, [], lit "/disk"⟩
  transferId := []
  filename := none
  sparse := true
  dirty := false

end OpenEx

theorem modeOf_writes {ops : List Json} (h : Writes ops) : modeOf ops = .rplus := by
  unfold modeOf
  rw [if_pos]
  rw [List.any_eq_true]
  exact ⟨_, h, by simp⟩

theorem modeOf_reads {ops : List Json} (h : ¬ Writes ops) : modeOf ops = .r := by
  unfold modeOf
  rw [if_neg]
  rw [List.any_eq_true]
  rintro ⟨j, hj, hs⟩
  split at hs
  · exact h (by simpa [Writes, of_decide_eq_true hs] using hj)
  · cases hs

theorem utilOpen_ok {w : OpenBackend.World} {path : Str} {mode : Mode} {d s : Bool} {flags : Nat} {l : List OpenBackend.Resource}
    (h : utilOpen w path mode d s = (.ok flags, l)) :
    openFlags mode d s = some flags ∧ w.osOpen path flags = .ok () ∧ l = [.file path flags] := by
  unfold utilOpen at h
  split at h
  · cases h
  · rename_i f hf
    split at h
    · cases h
    · rename_i ho
      split at h
      · cases h
      · cases h
        exact ⟨hf, ho, rfl⟩

theorem openFile_open {st : Except String Bool} {rd : File.ReadProbe} {sp b : Bool} {env : File.Env}
    (h : File.openFile (.ok ()) st rd sp = (.ok env, b)) : b = true ∧ env.sparse = sp := by
  unfold File.openFile at h
  simp only at h
  split at h
  · cases h
  · cases h; exact ⟨rfl, rfl⟩
  · split at h
    · cases h
    · cases h; exact ⟨rfl, rfl⟩

theorem openFile_failed {st : Except String Bool} {rd : File.ReadProbe} {sp b : Bool} {e : Err}
    (h : File.openFile (.ok ()) st rd sp = (.error e, b)) : b = false := by
  unfold File.openFile at h
  simp only at h
  split at h
  · cases h; rfl
  · cases h
  · split at h
    · cases h; rfl
    · cases h

theorem openFileBackend_ok {w : OpenBackend.World} {url : Parsed} {mode : Mode} {sp : Bool} {b : OpenBackend.Backend} {l : List OpenBackend.Resource}
    (h : openFileBackend w url mode sp = (.ok b, l)) :
    ∃ env flags, b = .file url.path (some url.path) mode env flags ∧ env.sparse = sp ∧
      openFlags mode true false = some flags ∧ l = [.file url.path flags] := by
  unfold openFileBackend at h
  split at h
  · cases h
  · rename_i flags left hu
    obtain ⟨hf, _, hl⟩ := utilOpen_ok hu
    split at h
    · cases h
    · rename_i env o hE
      obtain ⟨rfl, hs⟩ := openFile_open hE
      cases h
      exact ⟨env, flags, rfl, hs, hf, hl⟩

theorem openNbdBackend_ok {w : OpenBackend.World} {url : Parsed} {mode : Mode} {sp d : Bool} {b : OpenBackend.Backend} {l : List OpenBackend.Resource}
    (h : openNbdBackend w url mode sp d = (.ok b, l)) :
    b = .nbd url d mode sp ∧ l = [.nbd url d] := by
  unfold openNbdBackend at h
  split at h
  · cases h
  · split at h
    · cases h
    · cases h; exact ⟨rfl, rfl⟩

theorem openHttpBackend_ok {w : OpenBackend.World} {url : Parsed} {ca : Str} {b : OpenBackend.Backend} {l : List OpenBackend.Resource}
    (h : openHttpBackend w url ca = (.ok b, l)) : b = .http url ca ∧ l = [.http url ca] := by
  unfold openHttpBackend at h
  split at h
  · cases h
  · cases h; exact ⟨rfl, rfl⟩

theorem moduleOf_some {s : Str} {m : Module} (h : moduleOf s = some m) :
    (m = .file ∧ s = lit "file") ∨ (m = .nbd ∧ s = lit "nbd") ∨
      (m = .http ∧ (s = lit "http" ∨ s = lit "https")) := by
  unfold moduleOf at h
  split at h
  · cases h; simp_all
  · split at h
    · cases h; simp_all
    · split at h
      · cases h; simp_all
      · split at h
        · cases h; simp_all
        · cases h

/-- A backend that was opened is the right one, and exactly it is open. -/
theorem openModule_ok {w : OpenBackend.World} {c : OpenBackend.Config} {t : Tickets.Fields} {m : Module} {b : OpenBackend.Backend} {l : List OpenBackend.Resource}
    (hm : moduleOf t.url.scheme = some m) (h : openModule w c t m = (.ok b, l)) :
    Right c t b ∧ l = [b.resource] ∧ ConfiguredBuffer c t.url.scheme (bufferSize c b) := by
  rcases moduleOf_some hm with ⟨rfl, hs⟩ | ⟨rfl, hs⟩ | ⟨rfl, hs⟩
  · obtain ⟨env, flags, rfl, hsp, hf, rfl⟩ := openFileBackend_ok h
    refine ⟨⟨hs, rfl, rfl, hsp, ?_⟩, rfl, ?_⟩
    · by_cases hw : Writes t.ops
      · rw [modeOf_writes hw] at hf
        cases hf
        exact ⟨by unfold Direct; decide, by unfold Harmless; decide, fun _ => by unfold ReadWrite; decide,
          fun hn => absurd hw hn⟩
      · rw [modeOf_reads hw] at hf
        cases hf
        exact ⟨by unfold Direct; decide, by unfold Harmless; decide, fun h => absurd h hw,
          fun _ => by unfold ReadOnly; decide⟩
    · rw [hs]
      exact ⟨fun _ => rfl, fun h => absurd h (by decide), fun h => absurd h (by decide)⟩
  · obtain ⟨rfl, rfl⟩ := openNbdBackend_ok h
    refine ⟨⟨hs, rfl, rfl, rfl, modeOf_writes, modeOf_reads⟩, rfl, ?_⟩
    rw [hs]
    exact ⟨fun h => absurd h (by decide), fun _ => rfl, fun h => absurd h (by decide)⟩
  · obtain ⟨rfl, rfl⟩ := openHttpBackend_ok h
    refine ⟨⟨hs, rfl, fun hn => ?_, fun he => ?_⟩, rfl, ?_⟩
    · simp [caFile, hn]
    · simp [caFile, he]
    · rcases hs with hs | hs <;> rw [hs] <;>
        exact ⟨fun h => absurd h (by decide), fun h => absurd h (by decide), fun _ => rfl⟩

theorem openModule_failed {w : OpenBackend.World} {c : OpenBackend.Config} {t : Tickets.Fields} {m : Module} {e : Err} {l : List OpenBackend.Resource}
    (hio : ∀ p f, w.fileIO p f = .ok ()) (h : openModule w c t m = (.error e, l)) : l = [] := by
  cases m
  · unfold openModule openFileBackend at h
    simp only at h
    split at h
    · rename_i e' l' hu
      cases h
      unfold utilOpen at hu
      split at hu
      · cases hu; rfl
      · split at hu
        · cases hu; rfl
        · simp [hio] at hu
    · split at h
      · rename_i hE
        rw [openFile_failed hE] at h
        cases h; rfl
      · cases h
  · unfold openModule openHttpBackend at h
    simp only at h
    split at h
    · cases h; rfl
    · cases h
  · unfold openModule openNbdBackend at h
    simp only at h
    split at h
    · cases h; rfl
    · split at h
      · cases h; rfl
      · cases h

/-- When the context of a connection is made, its backend has exactly the rights of the ticket:
a file is opened for writing only if the ticket allows writing, never created or made empty,
always with direct I/O, and it is the file of the ticket; a NBD client can write only if the
ticket allows it; a http backend trusts the configured certificates.  The buffer has the
configured size.  The backend and the buffer are open, and nothing else. -/
theorem C92_rights {w : OpenBackend.World} {c : OpenBackend.Config} {t : Tickets.Fields} {canceled : Bool} {cl : Except Err Unit}
    {ctx : OpenBackend.Context} {l : List OpenBackend.Resource} (h : OpenBackend.get w c t none canceled cl = (.ok ctx, l)) :
    Right c t ctx.backend ∧ ConfiguredBuffer c t.url.scheme ctx.buffer ∧
      l = [ctx.backend.resource, .buffer ctx.buffer] ∧ canceled = false := by
  unfold OpenBackend.get at h
  simp only at h
  split at h
  · cases h
  · rename_i m hm
    split at h
    · cases h
    · rename_i b left ho
      obtain ⟨hr, rfl, hb⟩ := openModule_ok hm ho
      split at h
      · cases h
      · split at h
        · split at h <;> cases h
        · rename_i hc
          cases h
          exact ⟨hr, hb, rfl, by simpa using hc⟩

/-- A ticket that can only read: the file is open for reading. -/
example : OpenBackend.get OpenEx.world OpenEx.config (OpenEx.ticket "file" [.str (lit "read")]) none false (.ok ()) =
    (.ok ⟨.file (lit "/disk") (some (lit "/disk")) .r ⟨false, 4096, true⟩ 0x4000, 8388608⟩,
      [.file (lit "/disk") 0x4000, .buffer 8388608]) := rfl

example : (OpenBackend.get OpenEx.world OpenEx.config
    (OpenEx.ticket "file" [.str (lit "read"), .str (lit "write")]) none false (.ok ())).2 =
      [.file (lit "/disk") 0x4002, .buffer 8388608] := by decide

example : (OpenBackend.get OpenEx.world OpenEx.config (OpenEx.ticket "https" []) none false (.ok ())).2 =
      [.http ⟨lit "https", [], lit "/disk"⟩ (lit "/ca.pem"), .buffer 8388608] := by decide

/-- The context of a connection is opened once: the next requests of the connection use the same
context, and open nothing. -/
theorem C92_cached (w : World) (c : Config) (t : Tickets.Fields) (canceled : Bool) (cl : Except Err Unit)
    (ctx : Context) : OpenBackend.get w c t (some ctx) canceled cl = (.ok ctx, []) := rfl

/-- A url of another scheme is refused, and nothing is opened; so every backend that is opened
has one of the four schemes. -/
theorem C92_unsupported {w : OpenBackend.World} {c : OpenBackend.Config} {t : Tickets.Fields} {canceled : Bool} {cl : Except Err Unit}
    (hs : t.url.scheme ∉ [lit "file", lit "http", lit "https", lit "nbd"]) :
    OpenBackend.get w c t none canceled cl = (.error (.exception "Unsupported"), []) := by
  have : moduleOf t.url.scheme = none := by
    cases hm : moduleOf t.url.scheme with
    | none => rfl
    | some m =>
      rcases moduleOf_some hm with ⟨_, h⟩ | ⟨_, h⟩ | ⟨_, h | h⟩ <;> exact absurd (by simp [h]) hs
  unfold OpenBackend.get
  simp [this]

example : (OpenEx.ticket "ftp" []).url.scheme ∉ [lit "file", lit "http", lit "https", lit "nbd"] := by decide

/-- Closing a context closes the backend and the buffer, also when closing the backend fails; the
failure is not hidden. -/
theorem C92_close {w : OpenBackend.World} {c : OpenBackend.Config} {t : Tickets.Fields} {canceled : Bool} {cl : Except Err Unit}
    {ctx : OpenBackend.Context} {l : List OpenBackend.Resource} (h : OpenBackend.get w c t none canceled cl = (.ok ctx, l))
    (closing : Except Err Unit) : ctx.close closing l = (closing, []) := by
  obtain ⟨_, _, rfl, _⟩ := C92_rights h
  simp [Context.close]

/-- When opening fails nothing is left open, if the python file could be made and the buffer
could be mapped.  Missing: the two hypotheses, see the two counterexamples. -/
theorem C92_failed_partial {w : OpenBackend.World} {c : OpenBackend.Config} {t : Tickets.Fields} {cached : Option Context}
    {canceled : Bool} {cl : Except Err Unit} {e : Err} {l : List OpenBackend.Resource}
    (hio : ∀ p f, w.fileIO p f = .ok ())
    (hmap : ∀ n, n = c.fileBuffer ∨ n = c.nbdBuffer ∨ n = c.httpBuffer → w.mmap n = .ok ())
    (h : OpenBackend.get w c t cached canceled cl = (.error e, l)) : l = [] := by
  unfold OpenBackend.get at h
  split at h
  · cases h
  · split at h
    · cases h; rfl
    · rename_i m hm
      split at h
      · rename_i ho
        cases h
        exact openModule_failed hio ho
      · rename_i b left ho
        obtain ⟨_, rfl, _⟩ := openModule_ok hm ho
        rw [hmap _ (by cases b <;> simp [bufferSize])] at h
        simp only [Context.close] at h
        split at h
        · split at h
          · rename_i hc
            cases h
            cases hc
            simp
          · rename_i hc
            cases h
            cases hc
            simp
        · cases h

/-- The hypotheses can be met: a ticket canceled while its backend is opened. -/
example : OpenBackend.get OpenEx.world OpenEx.config (OpenEx.ticket "nbd" []) none true (.ok ()) =
    (.error (.authorization "canceled"), []) := rfl

/-- When the ticket was canceled meanwhile the connection is never given a backend. -/
theorem C92_canceled {w : OpenBackend.World} {c : OpenBackend.Config} {t : Tickets.Fields} {cl : Except Err Unit} :
    ∃ e, (OpenBackend.get w c t none true cl).1 = .error e := by
  cases h : (OpenBackend.get w c t none true cl).1 with
  | error e => exact ⟨e, rfl⟩
  | ok ctx =>
    have h' : OpenBackend.get w c t none true cl = (.ok ctx, (OpenBackend.get w c t none true cl).2) := Prod.ext h rfl
    exact absurd (C92_rights h').2.2.2 (by decide)

/-- When the buffer cannot be mapped, every backend that was opened is not closed by the code: it
stays open until python collects it. -/
theorem C92_counterexample_buffer {w : OpenBackend.World} {c : OpenBackend.Config} {t : Tickets.Fields} {canceled : Bool}
    {cl : Except Err Unit} {m : Module} {b : OpenBackend.Backend} {l : List OpenBackend.Resource} {e : Err}
    (hm : moduleOf t.url.scheme = some m) (ho : openModule w c t m = (.ok b, l))
    (hb : w.mmap (bufferSize c b) = .error e) :
    OpenBackend.get w c t none canceled cl = (.error e, [b.resource]) := by
  obtain ⟨_, rfl, _⟩ := openModule_ok hm ho
  unfold OpenBackend.get
  simp [hm, ho, hb]

/-- The file stays open when the size of the buffer is configured to be 0. -/
example : OpenBackend.get OpenEx.world { OpenEx.config with fileBuffer := 0 } (OpenEx.ticket "file" []) none false (.ok ()) =
    (.error (.os "EINVAL"), [.file (lit "/disk") 0x4000]) := rfl

/-- When the descriptor was opened but `io.FileIO` fails, the descriptor is never closed. -/
theorem C92_counterexample_descriptor :
    OpenBackend.get { OpenEx.world with fileIO := fun _ _ => .error (.os "EISDIR") } OpenEx.config
      (OpenEx.ticket "file" []) none false (.ok ()) =
      (.error (.os "EISDIR"), [.file (lit "/disk") 0x4000]) := rfl

/-- A clone of the backend of a ticket has the rights of the ticket too: for a file the same path
and the same flags, so cloning never makes a file empty; for a NBD client the same mode; and it
is all that the clone opens.  The clone of a file that could not be used is closed.  Missing:
`sparse` of the clone of a NBD backend, and cloning a clone, see the counterexamples. -/
theorem C92_clone_partial {w : OpenBackend.World} {c : OpenBackend.Config} {t : Tickets.Fields} {canceled : Bool} {cl : Except Err Unit}
    {ctx : OpenBackend.Context} {l l' : List OpenBackend.Resource} {b : OpenBackend.Backend} (h : OpenBackend.get w c t none canceled cl = (.ok ctx, l))
    (hc : clone w ctx.backend = (.ok b, l')) :
    b.resource = ctx.backend.resource ∧ l' = [b.resource] ∧
      (∀ url dirty mode sparse, ctx.backend = .nbd url dirty mode sparse → b = .nbd url dirty mode false) := by
  obtain ⟨hr, -, -, -⟩ := C92_rights h
  unfold OpenBackend.get at h
  simp only at h
  split at h
  · cases h
  · rename_i m hm
    split at h
    · cases h
    · rename_i b0 left ho
      split at h
      · cases h
      · split at h
        · split at h <;> cases h
        · cases h
          simp only at hc hr ⊢
          rcases moduleOf_some hm with ⟨rfl, hs⟩ | ⟨rfl, hs⟩ | ⟨rfl, hs⟩
          · obtain ⟨env, flags, rfl, hsp, hf, rfl⟩ := openFileBackend_ok ho
            have hmode : modeOfText ((fileIOMode (modeOf t.ops)).filter (· ≠ 'b')) = modeOf t.ops := by
              by_cases hw : Writes t.ops
              · rw [modeOf_writes hw]; decide
              · rw [modeOf_reads hw]; decide
            unfold clone at hc
            simp only [hmode] at hc
            split at hc
            · cases hc
            · rename_i f' left' hu
              obtain ⟨hf', _, rfl⟩ := utilOpen_ok hu
              rw [hf] at hf'
              cases hf'
              split at hc
              · cases hc
              · rename_i env' o hE
                have : o = true := by
                  unfold File.cloneFile at hE
                  simp only at hE
                  split at hE
                  · cases hE; rfl
                  · split at hE
                    · cases hE
                    · cases hE; rfl
                subst this
                cases hc
                exact ⟨rfl, rfl, nofun⟩
          · obtain ⟨rfl, rfl⟩ := openNbdBackend_ok ho
            obtain ⟨rfl, rfl⟩ := openNbdBackend_ok hc
            exact ⟨rfl, rfl, fun _ _ _ _ h => by cases h; rfl⟩
          · obtain ⟨rfl, rfl⟩ := openHttpBackend_ok ho
            obtain ⟨rfl, rfl⟩ := openHttpBackend_ok hc
            exact ⟨rfl, rfl, nofun⟩

example : (clone OpenEx.world (.file (lit "/disk") (some (lit "/disk")) .rplus ⟨false, 4096, true⟩ 0x4002)).2 =
    [.file (lit "/disk") 0x4002] := by decide

/-- The clone of a sparse NBD backend is not sparse: zeroing with it allocates the space. -/
theorem C92_counterexample_sparse {w : OpenBackend.World} {url : Parsed} {dirty : Bool} {mode : Mode} {b : OpenBackend.Backend}
    {l : List OpenBackend.Resource} (h : clone w (.nbd url dirty mode true) = (.ok b, l)) : b = .nbd url dirty mode false :=
  (openNbdBackend_ok h).1

example : clone OpenEx.world (.nbd ⟨lit "nbd", [], []⟩ false .rplus true) =
    (.ok (.nbd ⟨lit "nbd", [], []⟩ false .rplus false), [.nbd ⟨lit "nbd", [], []⟩ false]) := rfl

/-- A clone of a file backend cannot be cloned, on any system: its name is not a path. -/
theorem C92_counterexample_clone_twice {w w' : OpenBackend.World} {path : Str} {name : Option Str} {mode : Mode}
    {env : File.Env} {flags : Nat} {b : OpenBackend.Backend} {l : List OpenBackend.Resource}
    (h : clone w (.file path name mode env flags) = (.ok b, l)) :
    clone w' b = (.error (.exception "TypeError"), []) := by
  cases name with
  | none => cases h
  | some p =>
    unfold clone at h
    simp only at h
    split at h
    · cases h
    · split at h
      · cases h
      · cases h; rfl

example : ∃ b l, clone OpenEx.world (.file (lit "/disk") (some (lit "/disk")) .r ⟨false, 4096, true⟩ 0x4000) =
    (.ok b, l) := ⟨_, _, rfl⟩

theorem utilOpen_accepted {w : OpenBackend.World} {path : Str} {mode : Mode} {d s : Bool} {flags : Nat}
    {l : List OpenBackend.Resource} (h : utilOpen w path mode d s = (.ok flags, l)) : ∀ x ∈ l, Accepted w x := by
  unfold utilOpen at h
  split at h
  · cases h
  · split at h
    · cases h
    · rename_i ho
      split at h
      · cases h
      · rename_i hi
        cases h
        simpa [Accepted] using And.intro ho hi

theorem openNbdBackend_accepted {w : OpenBackend.World} {url : Parsed} {mode : Mode} {sp d : Bool} {b : OpenBackend.Backend}
    {l : List OpenBackend.Resource} (h : openNbdBackend w url mode sp d = (.ok b, l)) : ∀ x ∈ l, Accepted w x := by
  unfold openNbdBackend at h
  split at h
  · cases h
  · rename_i hc
    split at h
    · cases h
    · cases h
      simpa [Accepted] using hc

theorem openHttpBackend_accepted {w : OpenBackend.World} {url : Parsed} {ca : Str} {b : OpenBackend.Backend}
    {l : List OpenBackend.Resource} (h : openHttpBackend w url ca = (.ok b, l)) : ∀ x ∈ l, Accepted w x := by
  unfold openHttpBackend at h
  split at h
  · cases h
  · rename_i hc
    cases h
    simpa [Accepted] using hc

theorem openFileBackend_accepted {w : OpenBackend.World} {url : Parsed} {mode : Mode} {sp : Bool} {b : OpenBackend.Backend}
    {l : List OpenBackend.Resource} (h : openFileBackend w url mode sp = (.ok b, l)) : ∀ x ∈ l, Accepted w x := by
  unfold openFileBackend at h
  split at h
  · cases h
  · rename_i hu
    split at h
    · cases h
    · rename_i hE
      obtain ⟨rfl, _⟩ := openFile_open hE
      cases h
      exact utilOpen_accepted hu

/-- What a request has open was really opened by the system: a http server was checked with the
configured certificates, and a NBD server was asked for the dirty bitmap of the ticket. -/
theorem C92_accepted {w : OpenBackend.World} {c : OpenBackend.Config} {t : Tickets.Fields} {canceled : Bool}
    {cl : Except Err Unit} {ctx : OpenBackend.Context} {l : List OpenBackend.Resource}
    (h : OpenBackend.get w c t none canceled cl = (.ok ctx, l)) : ∀ x ∈ l, Accepted w x := by
  unfold OpenBackend.get at h
  simp only at h
  split at h
  · cases h
  · rename_i m hm
    split at h
    · cases h
    · rename_i b left ho
      have hl : ∀ x ∈ left, Accepted w x := by
        cases m
        · exact openFileBackend_accepted ho
        · exact openHttpBackend_accepted ho
        · exact openNbdBackend_accepted ho
      split at h
      · cases h
      · rename_i hmm
        split at h
        · split at h <;> cases h
        · cases h
          intro x hx
          rcases List.mem_append.1 hx with hx | hx
          · exact hl x hx
          · obtain rfl := List.mem_singleton.1 hx
            exact hmm

/-- The same for the clone of a backend. -/
theorem C92_accepted_clone {w : OpenBackend.World} {b b' : OpenBackend.Backend} {l : List OpenBackend.Resource}
    (h : OpenBackend.clone w b = (.ok b', l)) : ∀ x ∈ l, Accepted w x := by
  cases b with
  | file p n m e f =>
    cases n with
    | none => cases h
    | some path =>
      simp only [OpenBackend.clone] at h
      split at h
      · cases h
      · rename_i hu
        split at h
        · cases h
        · cases h
          intro x hx
          split at hx
          · exact utilOpen_accepted hu x hx
          · cases hx
  | nbd u d m s => exact openNbdBackend_accepted h
  | http u c => exact openHttpBackend_accepted h

/-- A server that another authority has signed is refused. -/
example : (OpenBackend.get { OpenEx.world with connectHttp := fun _ ca => if ca = lit "/ca.pem" then .error (.os "SSL") else .ok () }
    OpenEx.config (OpenEx.ticket "https" []) none false (.ok ())).2 = [] := by decide

end Imageio.Props
