import Verif.Lemmas.LiveKeeps
import Verif.Props.LiveRead
/-!
Downloads while the images change succeed (C84).
-/
namespace Imageio.Props
open Imageio.Conc Imageio.Spec Imageio.Spec.Live Imageio.Spec.LiveRead Imageio.Live

section
variable {τ : Type} {S : Source τ} {cfg : Auth.Config} {mem : Http.Str → Bytes × Bytes}

/-- C84: a download from a file or a block device succeeds, or its ticket was canceled: whatever other connections do meanwhile, with short reads, if the storage
does not fail, the client takes the bytes, and the file has the bytes of the range whenever the operation runs. -/
theorem C84_file_succeeds {env : File.Env} {opened : File.State} {acts : List (LiveRead.Act τ)} {s : LiveRead.Sys File.State (Bytes × Bytes) τ} (hb : 0 < env.bs)
    (ho : opened.faults = []) (hr : LiveRead.run (fileEnv env S cfg opened) (LiveRead.start (fileEnv env S cfg opened) mem) acts = some s)
    (d : LiveRead.Sent) (hd : d ∈ s.sent) (hn : 0 < d.job.size) (hcancel : ∀ n, d.job.cancel n = false) (hsink : ∀ n, d.job.sink n = false)
    (hbuf : 0 < d.job.buf.length) (hal : d.job.buf.length % env.bs = 0)
    (hbig : ∀ pre post t, acts = pre ++ post → LiveRead.run (fileEnv env S cfg opened) (LiveRead.start (fileEnv env S cfg opened) mem) pre = some t →
      Downloading t d.con d.job d.ticket d.op → (d.job.offset : Int) + d.job.size ≤ (t.live.mem d.url).1.length) :
    d.ok = true ∨ ∃ t, s.live.auth.tickets d.ticket = some t ∧ t.canceled = true := by
  refine (LiveRead.sinv_run (LiveRead.fileSure env hb) (file_keeps env S cfg opened ho) (fun _ h => h) hr).sent d hd ⟨hcancel, hsink, hbuf, hal, hn⟩ ?_
  intro pre post t he ht hdl
  refine ⟨?_, trivial⟩
  have := hbig pre post t he ht hdl
  show d.job.offset + d.job.size.toNat ≤ (t.live.mem d.url).1.length
  omega

/-- C84: block devices, and files that are zeroed without punching holes, never become smaller, in any execution. -/
theorem C84_file_size {env : File.Env} {opened : File.State} {pre post : List (LiveRead.Act τ)} {s0 s : LiveRead.Sys File.State (Bytes × Bytes) τ}
    (ho : opened.faults = []) (hg : env.isBlock = true ∨ env.sparse = false)
    (hr0 : LiveRead.run (fileEnv env S cfg opened) (LiveRead.start (fileEnv env S cfg opened) mem) pre = some s0)
    (hr : LiveRead.run (fileEnv env S cfg opened) s0 post = some s) (u : Http.Str) : (s0.live.mem u).1.length ≤ (s.live.mem u).1.length := by
  have law := file_keeps env S cfg opened ho
  obtain ⟨bs, hbs, -⟩ := LiveRead.run_live (LiveRead.base_start _ mem) hr0
  obtain ⟨cs, hcs, -⟩ := LiveRead.run_live (LiveRead.run_base hr0) hr
  exact (kinv_run law (kinv_run law (kinv_start law mem) hbs).1 hcs).2 u hg

/-- C84: so a download from them succeeds, or its ticket was canceled, if the range was in the image at some time before the operation started. -/
theorem C84_file_finds {env : File.Env} {opened : File.State} {pre post : List (LiveRead.Act τ)} {s0 s : LiveRead.Sys File.State (Bytes × Bytes) τ}
    (hb : 0 < env.bs) (ho : opened.faults = []) (hg : env.isBlock = true ∨ env.sparse = false)
    (hr0 : LiveRead.run (fileEnv env S cfg opened) (LiveRead.start (fileEnv env S cfg opened) mem) pre = some s0)
    (hr : LiveRead.run (fileEnv env S cfg opened) s0 post = some s)
    (d : LiveRead.Sent) (hd : d ∈ s.sent) (hop : s0.live.auth.nextOp ≤ d.op) (hn : 0 < d.job.size) (hcancel : ∀ n, d.job.cancel n = false)
    (hsink : ∀ n, d.job.sink n = false) (hbuf : 0 < d.job.buf.length) (hal : d.job.buf.length % env.bs = 0)
    (hbig : (d.job.offset : Int) + d.job.size ≤ (s0.live.mem d.url).1.length) :
    d.ok = true ∨ ∃ t, s.live.auth.tickets d.ticket = some t ∧ t.canceled = true := by
  have hrs : LiveRead.run (fileEnv env S cfg opened) (LiveRead.start (fileEnv env S cfg opened) mem) (pre ++ post) = some s := by
    rw [LiveRead.run_append, hr0]; exact hr
  refine C84_file_succeeds hb ho hrs d hd hn hcancel hsink hbuf hal fun p q t he ht hdl => ?_
  rcases List.append_eq_append_iff.mp he with ⟨x, rfl, rfl⟩ | ⟨x, rfl, rfl⟩
  · rw [LiveRead.run_append, hr0] at ht
    have := C84_file_size ho hg hr0 ht d.url
    omega
  · exfalso
    obtain ⟨-, k, hpc⟩ := hdl
    have wt := LiveRead.run_base ht
    obtain ⟨-, -, -, -, tk, htk, -, op, hop', hid⟩ := wt.wf.reach.inv.busy d.con d.ticket d.op k (by rw [hpc]; rfl)
    have h1 := wt.wf.reach.inv.opsLt _ _ _ htk hop'
    rw [LiveRead.run_append, ht] at hr0
    have h2 := run_nextOp wt hr0
    omega

/-- C84: the size of an NBD export never changes. -/
theorem C84_nbd_size {bs : Nat} {opened : NbdBackend.State} {acts : List (LiveRead.Act τ)} {s : LiveRead.Sys NbdBackend.State (Bytes × Bytes) τ}
    (ho : opened.faults = []) (hob : opened.bs = bs) (hom : opened.mode.readable = true)
    (hr : LiveRead.run (nbdEnv bs S cfg opened) (LiveRead.start (nbdEnv bs S cfg opened) mem) acts = some s) (u : Http.Str) :
    (s.live.mem u).1.length = (mem u).1.length := by
  have law := nbd_keeps bs S cfg opened ho hob hom
  obtain ⟨bs, hbs, -⟩ := LiveRead.run_live (LiveRead.base_start _ mem) hr
  exact (kinv_run law (kinv_start law mem) hbs).2 u

/-- C84: a download from an NBD server succeeds, or its ticket was canceled, if the server does not fail, the client takes the bytes, the range is in the export,
and the export has whole blocks. -/
theorem C84_nbd_succeeds {bs : Nat} {opened : NbdBackend.State} {acts : List (LiveRead.Act τ)} {s : LiveRead.Sys NbdBackend.State (Bytes × Bytes) τ} (hb : 0 < bs)
    (ho : opened.faults = []) (hob : opened.bs = bs) (hom : opened.mode.readable = true)
    (hr : LiveRead.run (nbdEnv bs S cfg opened) (LiveRead.start (nbdEnv bs S cfg opened) mem) acts = some s)
    (d : LiveRead.Sent) (hd : d ∈ s.sent) (hn : 0 < d.job.size) (hcancel : ∀ n, d.job.cancel n = false) (hsink : ∀ n, d.job.sink n = false)
    (hbuf : 0 < d.job.buf.length) (hal : d.job.buf.length % bs = 0) (hmod : (mem d.url).1.length % bs = 0)
    (hbig : (d.job.offset : Int) + d.job.size ≤ (mem d.url).1.length) :
    d.ok = true ∨ ∃ t, s.live.auth.tickets d.ticket = some t ∧ t.canceled = true := by
  refine (LiveRead.sinv_run (LiveRead.nbdSure bs hb) (nbd_keeps bs S cfg opened ho hob hom) (fun _ h => h) hr).sent d hd ⟨hcancel, hsink, hbuf, hal, hn⟩ ?_
  intro pre post t he ht hdl
  have e := C84_nbd_size ho hob hom ht d.url
  refine ⟨?_, ?_⟩
  · show d.job.offset + d.job.size.toNat ≤ (t.live.mem d.url).1.length
    omega
  · show (t.live.mem d.url).1.length % bs = 0
    rw [e]; exact hmod

end

/-! ## Examples -/

/-- The upload to the second block while both blocks are downloaded: the hypotheses of `C84_file_finds` hold. -/
example : ∃ s0 s d, LiveRead.run LiveReadEx.E (LiveRead.start LiveReadEx.E LiveEx.mem) LiveReadEx.tickets = some s0 ∧
    LiveRead.run LiveReadEx.E s0 (LiveReadEx.acts 1 7 (putJob 4 [1, 1]) 7) = some s ∧ d ∈ s.sent ∧ s0.live.auth.nextOp ≤ d.op ∧
    (d.job.offset, d.job.size, d.job.cancel 0, d.job.sink 0, d.job.buf.length % dev.bs) = (1, 7, false, false, 0) ∧
    (d.job.offset : Int) + d.job.size ≤ (s0.live.mem d.url).1.length ∧ d.ok = true := by
  have h : ((LiveRead.run LiveReadEx.E (LiveRead.start LiveReadEx.E LiveEx.mem) LiveReadEx.tickets).bind fun s0 =>
      (LiveRead.run LiveReadEx.E s0 (LiveReadEx.acts 1 7 (putJob 4 [1, 1]) 7)).map fun s => s.sent.map fun d =>
        decide (s0.live.auth.nextOp ≤ d.op ∧ (d.job.offset, d.job.size, d.job.cancel 0, d.job.sink 0, d.job.buf.length % dev.bs) = (1, 7, false, false, 0) ∧
          (d.job.offset : Int) + d.job.size ≤ (s0.live.mem d.url).1.length ∧ d.ok = true)) = some [true] := by
    decide +kernel
  cases h0 : LiveRead.run LiveReadEx.E (LiveRead.start LiveReadEx.E LiveEx.mem) LiveReadEx.tickets with
  | none => rw [h0] at h; cases h
  | some s0 =>
    cases h1 : LiveRead.run LiveReadEx.E s0 (LiveReadEx.acts 1 7 (putJob 4 [1, 1]) 7) with
    | none => rw [h0, Option.bind_some, h1] at h; cases h
    | some s =>
      rw [h0, Option.bind_some, h1, Option.map_some, Option.some.injEq] at h
      cases hs : s.sent with
      | nil => rw [hs] at h; cases h
      | cons d ds =>
        rw [hs, List.map_cons, List.cons.injEq] at h
        exact ⟨s0, s, d, rfl, h1, by rw [hs]; exact List.mem_cons_self .., of_decide_eq_true h.1⟩

namespace LiveSureEx

def N : Env NbdBackend.State (Bytes × Bytes) Bytes := nbdEnv 1 wholeBody ⟨10, 60⟩ nbdOpened

/-- A download from an NBD server, while another connection zeroes. -/
def nbdActs : List (LiveRead.Act Bytes) :=
  LiveReadEx.tickets ++ [.get 1 "t" ⟨1, 7, fun _ => false, fun _ => false, [0, 0, 0, 0]⟩] ++
  LiveReadEx.up ([.auth (.getContext 1), .auth (.addContext 1), .auth (.startOp 1 1)] ++ LiveEx.begins 2 "v" (zeroJob 3 4)) ++
  List.replicate 3 (.read 1) ++ LiveReadEx.up (List.replicate 3 (.call 2) ++ LiveEx.ends 2) ++ List.replicate 2 (.read 1) ++ LiveReadEx.up (LiveEx.ends 1)

/-- A sparse file, that is empty at first. -/
def G : Env File.State (Bytes × Bytes) Bytes := fileEnv sparseFile wholeBody ⟨10, 60⟩ opened

def none : Http.Str → Bytes × Bytes := fun _ => ([], [])

/-- Zeroing of the first block looks at the size of the file; an upload makes the file larger; its block is downloaded. -/
def before : List (LiveRead.Act Bytes) :=
  LiveReadEx.tickets ++ LiveReadEx.up [.add ⟨"w", 8, ["write"], 300⟩ LiveEx.url] ++
  LiveReadEx.up (LiveEx.begins 2 "v" (zeroJob 0 4) ++ List.replicate 5 (.call 2) ++ LiveEx.begins 3 "w" (putJob 4 [1, 2, 3, 4])) ++
  LiveReadEx.up (List.replicate 4 (.call 3) ++ LiveEx.ends 3) ++
  [.get 1 "t" ⟨4, 4, fun _ => false, fun _ => false, [0, 0, 0, 0]⟩] ++
  LiveReadEx.up [.auth (.getContext 1), .auth (.addContext 1), .auth (.startOp 1 4)] ++ [.read 1]

/-- The zeroing sets the size of the file. -/
def rest : List (LiveRead.Act Bytes) := LiveReadEx.up [.call 2] ++ [.read 1, .read 1] ++ LiveReadEx.up (LiveEx.ends 1)

end LiveSureEx

/-- The hypotheses of `C84_nbd_succeeds` hold. -/
example : ((LiveRead.run LiveSureEx.N (LiveRead.start LiveSureEx.N LiveEx.mem) LiveSureEx.nbdActs).map fun s =>
    s.sent.map fun d => decide (LiveReadEx.seen d = (1, 0, [7, 7, 7, 7, 0, 0, 7], true) ∧ d.job.offset = 1 ∧ d.job.size = 7 ∧ d.job.buf.length = 4)) =
      some [true] ∧
    nbdOpened.faults = [] ∧ nbdOpened.bs = 1 ∧ nbdOpened.mode.readable = true ∧ (1 : Int) + 7 ≤ (LiveEx.mem LiveEx.url).1.length := by
  refine ⟨by decide +kernel, rfl, rfl, rfl, by decide⟩

/-- C84, the limit: sparse files become smaller when another connection zeroes after the end, see `C46_counterexample_truncate`.  The range of the download is in
the file when it starts, no ticket is canceled and the storage does not fail; the download fails without one byte. -/
theorem C84_counterexample_cut : ∃ s0 s d, LiveRead.run LiveSureEx.G (LiveRead.start LiveSureEx.G LiveSureEx.none) LiveSureEx.before = some s0 ∧
    (∃ k, (s0.live.auth.conns 1).pc = .running d.ticket d.op k) ∧ (s0.live.mem LiveEx.url).1 = [0, 0, 0, 0, 1, 2, 3, 4] ∧
    LiveRead.run LiveSureEx.G s0 LiveSureEx.rest = some s ∧ s.sent = [d] ∧ (d.url, d.job.offset, d.job.size) = (LiveEx.url, 4, 4) ∧
    LiveReadEx.seen d = (1, 0, [], false) ∧ (s.live.auth.tickets d.ticket).map (·.canceled) = some false := by
  have h : ((LiveRead.run LiveSureEx.G (LiveRead.start LiveSureEx.G LiveSureEx.none) LiveSureEx.before).bind fun s0 =>
      (LiveRead.run LiveSureEx.G s0 LiveSureEx.rest).map fun s => s.sent.map fun d =>
        decide ((s0.live.mem LiveEx.url).1 = [0, 0, 0, 0, 1, 2, 3, 4] ∧ (s0.live.auth.conns 1).pc = .running d.ticket d.op 2 ∧ d.con = 1 ∧
          (d.url, d.job.offset, d.job.size) = (LiveEx.url, 4, 4) ∧
          LiveReadEx.seen d = (1, 0, [], false) ∧ (s.live.auth.tickets d.ticket).map (·.canceled) = some false)) = some [true] := by
    decide +kernel
  cases h0 : LiveRead.run LiveSureEx.G (LiveRead.start LiveSureEx.G LiveSureEx.none) LiveSureEx.before with
  | none => rw [h0] at h; cases h
  | some s0 =>
    cases h1 : LiveRead.run LiveSureEx.G s0 LiveSureEx.rest with
    | none => rw [h0, Option.bind_some, h1] at h; cases h
    | some s =>
      rw [h0, Option.bind_some, h1, Option.map_some, Option.some.injEq] at h
      cases hs : s.sent with
      | nil => rw [hs] at h; cases h
      | cons d ds =>
        rw [hs, List.map_cons, List.cons.injEq] at h
        obtain ⟨a1, a2, a3, a4, a5, a6⟩ := of_decide_eq_true h.1
        have e : ds = [] := List.map_eq_nil_iff.mp h.2
        subst e
        exact ⟨s0, s, d, rfl, ⟨2, a2⟩, a1, h1, hs, a4, a5, a6⟩

end Imageio.Props
