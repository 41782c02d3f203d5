import Verif.Lemmas.Container
import Verif.Spec.Container
import Verif.Props.System
import Verif.Props.QemuNbd
import Verif.Props.Url
import Verif.Props.Tickets
import Verif.Props.Json
import Verif.Props.Daemon
/-!
C90: the container that serves one image.
-/
namespace Imageio.Props
open Imageio.Spec Imageio.Spec.Container Imageio.Container Imageio.Http Imageio.Url Imageio.Images
open Imageio.Tickets (Fields Store)

/-! ## The ticket -/

/-- C90: without `--ticket-id` the ticket id is the last component of the path of the image; a given id that is not empty is
taken. -/
theorem C90_id (given : Option Str) (image : Str) :
    (given = none ∨ given = some [] → LastComponent image (ticketId given image)) ∧
    (∀ id, given = some id → id ≠ [] → ticketId given image = id) := by
  have base : LastComponent image (Config.baseName image) := by
    unfold Config.baseName LastComponent
    constructor
    · intro h
      rw [List.mem_reverse] at h
      have h2 := List.all_eq_true.1 (List.all_takeWhile (p := fun c => c != '/') (l := image.reverse)) '/' h
      simp at h2
    · have h := List.takeWhile_append_dropWhile (p := fun c => c != '/') (l := image.reverse)
      cases hd : image.reverse.dropWhile (fun c => c != '/') with
      | nil =>
        left
        rw [hd, List.append_nil] at h
        rw [h, List.reverse_reverse]
      | cons c r =>
        right
        have hc : c = '/' := by
          have := List.head?_dropWhile_not (p := fun c => c != '/') image.reverse
          rw [hd] at this
          simpa using this
        subst hc
        refine ⟨r.reverse, ?_⟩
        rw [hd] at h
        have := congrArg List.reverse h
        simpa using this.symm
  constructor
  · rintro (rfl | rfl) <;> exact base
  · rintro id rfl hid
    cases id with
    | nil => exact absurd rfl hid
    | cons c id => rfl

/-- C90: the image is found at the path with this id (if it has no slash and no newline). -/
theorem C90_path (image : Str) (hn : '\n' ∉ Config.baseName image) :
    resourceFor remotePatterns ("/images/".toList ++ ticketId none image) = some (.images, [ticketId none image]) :=
  (C37_image_resources _ (.inl rfl) _ ((C90_id none image).1 (.inl rfl)).1 hn).1

/-- The fields of the ticket of the container. -/
def containerFields (id socket : Str) (n : Int) : Fields where
  uuid := id
  size := n
  ops := [.str (lit "read")]
  timeout := 3000
  inactivityTimeout := 300
  url := ⟨lit "nbd", [], lit "unix:" ++ socket⟩
  transferId := Tickets.defaultTransferId id
  filename := none
  sparse := false
  dirty := false

/-- The daemon installs the ticket of the container, and no other. -/
theorem container_ticket (ok : Str → Bool) (inactivity : Int) (id socket : Str) (n : Int) (hp : PlainText socket) (s : Store) :
    Container.addTicket ok inactivity (some (JsonText.dumpsText (generateTicket id socket (.int n)))) s =
      (.ok (), fun i => if i = id then some (containerFields id socket n) else s i) := by
  have hl : JsonText.loadsText (JsonText.dumpsText (generateTicket id socket (.int n))) = some (generateTicket id socket (.int n)) := by
    have := C80_roundtrip (generateTicket id socket (.int n)) (a := []) (b := []) JsonText.space_nil JsonText.space_nil
    simpa using this
  have hu : urlparse ok (lit "nbd:unix:" ++ socket) = some ⟨lit "nbd", [], lit "unix:" ++ socket⟩ := by
    have h := urlparse_nbd ok (s := "unix:".toList ++ socket) (fun c h => by
      rcases List.mem_append.1 h with h | h
      · have : ∀ c ∈ "unix:".toList, plain c = true := by decide
        exact this c h
      · exact plain_of hp c h) (fun r h => by simp at h)
    exact h
  have ht : Tickets.ticketUrl ok (lit "nbd:unix:" ++ socket) = .ok ⟨lit "nbd", [], lit "unix:" ++ socket⟩ := by
    unfold Tickets.ticketUrl
    rw [hu]
    rfl
  have hparse : Tickets.parse ok inactivity (generateTicket id socket (.int n)) = .ok (containerFields id socket n) := by
    have f : ∀ d, generateTicket id socket (.int n) = .obj d →
        Tickets.find d "uuid" = some (.str id) ∧ Tickets.find d "size" = some (.int n) ∧
        Tickets.find d "ops" = some (.arr [.str (lit "read")]) ∧ Tickets.find d "timeout" = some (.int 3000) ∧
        Tickets.find d "inactivity_timeout" = some (.int 300) ∧ Tickets.find d "url" = some (.str (lit "nbd:unix:" ++ socket)) ∧
        Tickets.find d "transfer_id" = none ∧ Tickets.find d "filename" = none ∧ Tickets.find d "sparse" = none ∧
        Tickets.find d "dirty" = none := by
      intro d hd
      unfold generateTicket at hd
      cases hd
      exact ⟨rfl, rfl, rfl, rfl, rfl, rfl, rfl, rfl, rfl, rfl⟩
    obtain ⟨f1, f2, f3, f4, f5, f6, f7, f8, f9, f10⟩ := f _ rfl
    simp only [generateTicket] at f1 f2 f3 f4 f5 f6 f7 f8 f9 f10 ⊢
    simp only [Tickets.parse, Tickets.required, Tickets.optional, f1, f2, f3, f4, f5, f6, f7, f8, f9, f10, Tickets.asStr,
      Tickets.asInt, Tickets.asList, bind, Except.bind, ht]
    rfl
  unfold Container.addTicket
  simp only [hl, Tickets.add, hparse]
  rfl

/-- When the container serves: the parts that worked. -/
theorem served_parts {w : Container.World} {image : Str} {given : Option Str} {cmd : List Str}
    (h : (Container.main w image given).2.served = some cmd) :
    ∃ info base size fmt, w.info = .ok info ∧ w.mkdtemp = .ok base ∧ item info "virtual-size" = .ok size ∧
      w.write = .ok () ∧ format info = .ok fmt ∧ w.nbd.popen = .ok () ∧ w.nbd.wait = .ok true ∧
      (server image fmt (join base (lit "sock"))).command w.nbdEnv = .ok cmd ∧
      (Container.main w image given).2.file =
        some (JsonText.dumpsText (generateTicket (ticketId given image) (join base (lit "sock")) size)) := by
  cases hi : w.info with
  | error e => simp [Container.main, hi] at h
  | ok info =>
    cases hb : w.mkdtemp with
    | error e => simp [Container.main, hi, hb] at h
    | ok base =>
      have hin : (inside w image (ticketId given image) base info).2.served = some cmd := by
        simp only [Container.main, hi, hb] at h
        cases hr : w.rmtree <;> simpa [hr] using h
      have hfile : (Container.main w image given).2.file = (inside w image (ticketId given image) base info).2.file := by
        simp only [Container.main, hi, hb]
        cases w.rmtree <;> rfl
      rw [hfile]
      unfold inside at hin ⊢
      cases hs : item info "virtual-size" with
      | error e => simp [hs] at hin
      | ok size =>
        cases hw : w.write with
        | error e => simp [hs, hw] at hin
        | ok u =>
          cases hf : format info with
          | error e => simp [hs, hw, hf] at hin
          | ok fmt =>
            simp only [hs, hw, hf, export_] at hin ⊢
            refine ⟨info, base, size, fmt, rfl, rfl, hs, by simp, hf, ?_⟩
            cases hc : (server image fmt (join base (lit "sock"))).command w.nbdEnv with
            | error e => simp [hc, QemuNbd.start] at hin
            | ok c =>
              simp only [hc] at hin
              cases hpo : w.nbd.popen with
              | error e => simp [QemuNbd.start, hpo] at hin
              | ok u =>
                cases hwa : w.nbd.wait with
                | error e => simp [QemuNbd.start, hpo, hwa] at hin
                | ok b =>
                  cases b with
                  | false => simp only [QemuNbd.start, hpo, hwa] at hin; split at hin <;> grind
                  | true =>
                    simp only [QemuNbd.start, hpo, hwa, Except.toOption, Option.some.injEq] at hin
                    exact ⟨rfl, rfl, by rw [hin], rfl⟩

/-- C90: when the daemon is run, the ticket file is there, and the daemon installs from it exactly one ticket: with the id of
the image, for its virtual size, for reading only, whose url is opened as the socket in the temporary directory where
qemu-nbd was told to serve the image; qemu-nbd was told to serve the whole image, and accepted connections before.
Missing: a temporary directory whose path has characters that are special in urls (`C90_counterexample_tmpdir`); that qemu-nbd
serves the image only for reading (`C90_counterexample_writable`). -/
theorem C90_served_partial (w : Container.World) (image : Str) (given : Option Str) (cmd : List Str) (info : List (Str × Json))
    (p : Str) (n : Int) (h : (Container.main w image given).2.served = some cmd) (hi : w.info = .ok (.obj info))
    (hn : Tickets.Field info "virtual-size" (.int n)) (hb : w.mkdtemp = .ok ('/' :: p))
    (hp : PlainText p) (hc : ':' ∉ p) (hl : p.getLast? ≠ some '/') (hne : p ≠ []) (ok : Str → Bool) (inactivity : Int) :
    ∃ text t, (Container.main w image given).2.file = some text ∧
      (∀ s, Container.addTicket ok inactivity (some text) s =
        (.ok (), fun i => if i = ticketId given image then some t else s i)) ∧
      Reading t (ticketId given image) n ∧ t.timeout = 3000 ∧ t.inactivityTimeout = 300 ∧
      (∃ name, parseUrl t.url = .ok (.unix ('/' :: p ++ "/sock".toList), name) ∧ name.getD [] = []) ∧
      w.nbd.popen = .ok () ∧ w.nbd.wait = .ok true ∧
      ∃ args file fmt, cmd = w.nbdEnv.qemuNbd :: args ∧
        (qemuArgs args).2 = ["json:".toList ++ w.nbdEnv.dumps file] ∧
        ("socket".toList, some ('/' :: p ++ "/sock".toList)) ∈ (qemuArgs args).1 ∧
        ("export-name".toList, some []) ∈ (qemuArgs args).1 ∧
        Tickets.Field info "format" (.str fmt) ∧
        (∀ sizes, (fmt = "raw".toList → view sizes 3 file = some (.raw ⟨image, 0, sizes image⟩)) ∧
          (fmt = "qcow2".toList → view sizes 3 file = some (.qcow2 ⟨image, 0, sizes image⟩ true))) := by
  obtain ⟨info', base, size, fmt, h1, h2, h3, h4, h5, h6, h7, h8, h9⟩ := served_parts h
  rw [hi] at h1; cases h1
  rw [hb] at h2; cases h2
  have hj : join ('/' :: p) (lit "sock") = '/' :: p ++ "/sock".toList := by
    have : ('/' :: p).getLast? ≠ some '/' := by
      cases p with
      | nil => exact absurd rfl hne
      | cons c p => rwa [List.getLast?_cons_cons]
    unfold join
    rw [if_neg (by rintro (h | h) <;> [cases h; exact this h])]
    rfl
  rw [hj] at h8 h9
  have hitem : ∀ name v, item (.obj info) name = .ok v ↔ Tickets.Field info name v := by
    intro name v
    rw [← find_iff]
    unfold item Json.get Tickets.find
    simp only
    unfold lit
    cases (List.find? (fun f => decide (f.1 = name.toList)) info.reverse) <;> simp
  rw [(hitem _ _).2 hn] at h3
  cases h3
  have hpt : PlainText ('/' :: p ++ "/sock".toList) := by
    unfold PlainText at hp ⊢
    simp only [List.cons_append, List.mem_cons, List.mem_append, not_or]
    obtain ⟨a1, a2, a3, a4, a5⟩ := hp
    exact ⟨⟨by decide, a1, by decide⟩, ⟨by decide, a2, by decide⟩, ⟨by decide, a3, by decide⟩, ⟨by decide, a4, by decide⟩,
      by decide, a5, by decide⟩
  have hf : Tickets.Field info "format" (.str fmt) := by
    rw [← hitem]
    unfold Container.format at h5
    split at h5
    · cases h5
    · rename_i s hs; cases h5; exact hs
    · cases h5
  obtain ⟨args, b, version, c1, c2, c3, c4⟩ := C63_options _ _ _ h8
  refine ⟨_, containerFields (ticketId given image) ('/' :: p ++ "/sock".toList) n, h9,
    fun s => container_ticket ok inactivity _ _ n hpt s, ⟨rfl, rfl, rfl⟩, rfl, rfl, ?_, h6, h7, args, _, fmt, c1,
    by rw [c4], by rw [c4]; simp [askedOptions, server, lit], by rw [c4]; simp [askedOptions, server, lit], hf, fun sizes => ⟨fun hr => ?_, fun hq => ?_⟩⟩
  · have hu := C41_unix_partial ok (p ++ "/sock".toList) none ⟨fun h => hpt.1 (List.mem_cons_of_mem _ h),
      fun h => hpt.2.1 (List.mem_cons_of_mem _ h), fun h => hpt.2.2.1 (List.mem_cons_of_mem _ h),
      fun h => hpt.2.2.2.1 (List.mem_cons_of_mem _ h), fun h => hpt.2.2.2.2 (List.mem_cons_of_mem _ h)⟩ (by
        simp only [List.mem_append, not_or]; exact ⟨hc, by decide⟩) (by simp [hne]) (by simp)
    have hx : urlparse ok (Address.url none (.unix ('/' :: (p ++ "/sock".toList)))) =
        some (containerFields (ticketId given image) ('/' :: p ++ "/sock".toList) n).url := by
      rw [url_unix]
      have := urlparse_nbd ok (s := "unix:".toList ++ ('/' :: p ++ "/sock".toList)) (fun c h => by
        rcases List.mem_append.1 h with h | h
        · have : ∀ c ∈ "unix:".toList, plain c = true := by decide
          exact this c h
        · exact plain_of hpt c h) (fun r h => by simp at h)
      simpa [exportSuffix, containerFields, lit] using this
    unfold openUrl at hu
    rw [hx] at hu
    simp only at hu
    cases hy : parseUrl (containerFields (ticketId given image) ('/' :: p ++ "/sock".toList) n).url with
    | error e => rw [hy] at hu; cases hu
    | ok y =>
      rw [hy] at hu
      obtain ⟨addr, e⟩ := y
      simp only [Except.ok.injEq, Prod.mk.injEq, Option.getD_none] at hu
      obtain ⟨rfl, hu⟩ := hu
      exact ⟨e, rfl, hu⟩
  · have := (C63_raw (server image fmt ('/' :: p ++ "/sock".toList)) sizes b hr).1
    have hin : (askedRegion (server image fmt ('/' :: p ++ "/sock".toList)) sizes) = ⟨image, 0, sizes image⟩ := by
      simp [askedRegion, server]
    rw [hin] at this
    exact this ⟨Int.le_refl 0, by simp, by simp⟩
  · exact C63_qcow2 (server image fmt ('/' :: p ++ "/sock".toList)) sizes b hq rfl rfl

/-- C90: the image is opened for writing, although the ticket only permits reading: whenever the container serves,
qemu-nbd was not told `--read-only` (an image that cannot be written cannot be served). -/
theorem C90_counterexample_writable (w : Container.World) (image : Str) (given : Option Str) (cmd : List Str)
    (h : (Container.main w image given).2.served = some cmd) :
    ∃ args, cmd = w.nbdEnv.qemuNbd :: args ∧ ∀ v, ("read-only".toList, v) ∉ (qemuArgs args).1 := by
  obtain ⟨info', base, size, fmt, h1, h2, h3, h4, h5, h6, h7, h8, h9⟩ := served_parts h
  obtain ⟨args, b, version, c1, c2, c3, c4⟩ := C63_options _ _ _ h8
  refine ⟨args, c1, fun v hm => ?_⟩
  rw [c4] at hm
  have hs : ∀ (name : String) (x : Option Str), "read-only" ≠ name → ("read-only".toList, v) ≠ (lit name, x) := by
    intro name x hne he
    exact hne (String.toList_inj.1 (Prod.mk.inj he).1)
  have ho : ∀ (name : String) (x : Option Str), "read-only" ≠ name →
      ("read-only".toList, v) ∉ (if x = none ∨ x = some [] then [] else [(lit name, x)] : QemuOptions) := by
    intro name x hne hm
    split at hm
    · cases hm
    · exact hs name x hne (List.mem_singleton.1 hm)
  simp only [askedOptions, server, List.mem_append, List.mem_cons, List.not_mem_nil, or_false, if_false, Bool.false_eq_true] at hm
  have hd : ("read-only".toList, v) ∉ (if decide ([5, 2, 0] ≤ version ∧ (server image fmt (join base (lit "sock"))).fmt ≠ lit "raw")
      then [(lit "allocation-depth", none)] else [] : QemuOptions) := by
    intro hm
    split at hm
    · exact hs _ _ (by decide) (List.mem_singleton.1 hm)
    · cases hm
  rcases hm with (((((((hm | hm | hm) | hm) | hm) | hm) | hm) | hm) | hm) | hm
  · exact hs _ _ (by decide) hm
  · exact hs _ _ (by decide) hm
  · exact hs _ _ (by decide) hm
  · exact hs _ _ (by decide) hm
  · exact ho "cache" _ (by decide) hm
  · exact ho "aio" _ (by decide) hm
  · exact ho "discard" _ (by decide) hm
  · exact ho "detect-zeroes" _ (by decide) hm
  · exact ho "bitmap" none (by decide) hm
  · exact hd hm

/-- C90: with a colon in the path of the temporary directory, the url of the ticket is not the socket of qemu-nbd. -/
theorem C90_counterexample_tmpdir :
    join (lit "/tmp/a:b") (lit "sock") = lit "/tmp/a:b/sock" ∧
    openUrl (fun _ => true) (lit "nbd:unix:" ++ join (lit "/tmp/a:b") (lit "sock")) = .ok (.unix (lit "/tmp/a"), []) := by
  decide +kernel

/-! ## How it ends -/

/-- C90: the container succeeds only if the daemon was run and succeeded.  When the daemon was run, the result is that of
the daemon, if qemu-nbd can be stopped and the directory removed; the exit status tells a failure, except for an interrupt. -/
theorem C90_result (w : Container.World) (image : Str) (given : Option Str) :
    ((Container.main w image given).1 = .ok () →
      w.daemon = .ok () ∧ w.rmtree = .ok () ∧ ∃ cmd, (Container.main w image given).2.served = some cmd) ∧
    (∀ cmd, (Container.main w image given).2.served = some cmd → w.rmtree = .ok () →
      (w.nbd.exitsOnTerm = true ∨ w.nbd.exitsOnKill = true) → (Container.main w image given).1 = w.daemon) ∧
    (exitStatus (Container.main w image given).1 = 0 ↔
      (Container.main w image given).1 = .ok () ∨ (Container.main w image given).1 = .error (.exception "KeyboardInterrupt")) := by
  refine ⟨fun h => ?_, fun cmd h hr hk => ?_, ?_⟩
  · cases hi : w.info with
    | error e => simp [Container.main, hi] at h
    | ok info =>
      cases hb : w.mkdtemp with
      | error e => simp [Container.main, hi, hb] at h
      | ok base =>
        cases hr : w.rmtree with
        | error e => simp [Container.main, hi, hb, hr] at h
        | ok u =>
          simp only [Container.main, hi, hb, hr] at h ⊢
          unfold inside at h ⊢
          cases hs : item info "virtual-size" with
          | error e => simp [hs] at h
          | ok size =>
            cases hw : w.write with
            | error e => simp [hs, hw] at h
            | ok u =>
              cases hf : format info with
              | error e => simp [hs, hw, hf] at h
              | ok fmt =>
                simp only [hs, hw, hf, export_] at h ⊢
                have hx : QemuNbd.run w.nbd ((server image fmt (join base (lit "sock"))).command w.nbdEnv) w.daemon =
                    (.ok (), (QemuNbd.run w.nbd ((server image fmt (join base (lit "sock"))).command w.nbdEnv) w.daemon).2) := by
                  rw [← h]
                obtain ⟨⟨c, hc⟩, h1, h2, h3⟩ := (C64_body _ _ _).1 _ hx
                refine ⟨h3, trivial, c, ?_⟩
                simp [hc, QemuNbd.start, h1, h2, Except.toOption]
  · obtain ⟨info, base, size, fmt, h1, h2, h3, h4, h5, h6, h7, h8, h9⟩ := served_parts h
    simp only [Container.main, h1, h2, hr, inside, h3, h4, h5, export_, h8]
    rw [(C64_body _ _ _).2.1 cmd rfl h6 h7 hk]
  · unfold exitStatus
    split
    · rename_i h; simp [h]
    · rename_i h; simp [h]
    · rename_i e h1 h2; simp [h2]; rintro rfl; exact h1 rfl

/-- C90: however the container ends, the temporary directory and the process of qemu-nbd are gone.  Missing, and false: when
the directory cannot be removed, and the cases of `C64_stopped_partial`. -/
theorem C90_cleanup_partial (w : Container.World) (image : Str) (given : Option Str) (hr : w.rmtree = .ok ())
    (hw : ∀ e, w.nbd.wait ≠ .error e) (hk : w.nbd.exitsOnTerm = true ∨ w.nbd.exitsOnKill = true) :
    (Container.main w image given).2.tmp = false ∧ (Container.main w image given).2.proc = ⟨false, false⟩ := by
  unfold Container.main
  cases hi : w.info with
  | error e => exact ⟨rfl, rfl⟩
  | ok info =>
    cases hb : w.mkdtemp with
    | error e => exact ⟨rfl, rfl⟩
    | ok base =>
      simp only [hr, true_and]
      unfold inside
      cases hs : item info "virtual-size" with
      | error e => rfl
      | ok size =>
        cases hwr : w.write with
        | error e => rfl
        | ok u =>
          cases hf : format info with
          | error e => rfl
          | ok fmt => exact C64_stopped_partial _ _ _ hw hk

/-- C90: when the directory cannot be removed it is left, and the result is this error, also if the daemon failed. -/
theorem C90_counterexample_left : ∃ (w : Container.World) (image : Str) (e : Err), w.nbd.exitsOnTerm = true ∧ w.nbd.wait = .ok true ∧
    w.daemon = .error (.exception "CalledProcessError") ∧ (Container.main w image none).2.tmp = true ∧
    (Container.main w image none).1 = .error e ∧ e ≠ .exception "CalledProcessError" :=
  ⟨⟨.ok (.obj [(lit "virtual-size", .int 6), (lit "format", .str (lit "raw"))]), .ok (lit "/tmp/x"), .ok (), exportEnv,
    ⟨.ok (), .ok true, true, true⟩, .error (.exception "CalledProcessError"), .error (.exception "OSError")⟩, lit "/a", .exception "OSError",
    rfl, rfl, rfl, by decide +kernel⟩

/-- C90: nobody can add another ticket: with `control.enable = false`, as in the configuration of the container, the control
service is never served, whether the daemon starts or fails to. -/
theorem C90_no_control (env : Daemon.Env) (ticket : Bool) (c : Daemon.Cfg) (hc : c.controlEnable = false) :
    Daemon.Act.serve .control ∉ (Daemon.startup env ticket ⟨c, []⟩).2.trace := by
  intro h
  obtain ⟨pre, post, hp⟩ := List.append_of_mem h
  obtain ⟨l, k, _, _, _, hb⟩ := Daemon.begin_split (fun h => h.1 _ rfl) hp
  rcases hb (.serve .control) (by simp) with ⟨sv, h1, h2⟩ | h1
  · cases h1
    have h2 : c.controlEnable = true := h2
    rw [hc] at h2; cases h2
  · cases h1

/-! ## What the clients can do -/

theorem added_run {σ : Type} {E : System.Env σ} {disk : Str → σ} {acts : List System.Act} {s : System.Sys σ}
    (hr : System.run E (System.start disk) acts = some s) : System.Added acts s := by
  suffices ∀ (more acts : List System.Act) (x : System.Sys σ), System.run E (System.start disk) acts = some x →
      System.run E x more = some s → System.Added acts x → System.Added (acts ++ more) s from
    this acts [] (System.start disk) rfl hr (by intro r t h; simp [System.start, Auth.init] at h)
  intro more
  induction more with
  | nil => intro acts x _ hx h; cases hx; simpa using h
  | cons a more ih =>
    intro acts x hx hx' h
    simp only [System.run] at hx'
    split at hx'
    · cases hx'
    · rename_i y hy
      have := ih (acts ++ [a]) y (by rw [System.run_append, hx]; simp [System.run, hy]) hx'
        (h.step (good_run hx).reach (System.Move.of_step (good_run hx).busy hy))
      simpa using this

/-- An operation that was run was requested with a ticket object that permitted it. -/
theorem ran_presented {σ : Type} {E : System.Env σ} {disk : Str → σ} {acts : List System.Act} {s : System.Sys σ}
    (hr : System.run E (System.start disk) acts = some s) : ∀ e ∈ s.answered, e.ran = true →
      ∃ r, e.ticket = some r ∧ Presented E (System.start disk) acts e.con e.req r := by
  suffices ∀ (more acts : List System.Act) (x : System.Sys σ), System.run E (System.start disk) acts = some x →
      System.run E x more = some s →
      (∀ e ∈ x.answered, e.ran = true → ∃ r, e.ticket = some r ∧ Presented E (System.start disk) acts e.con e.req r) →
      ∀ e ∈ s.answered, e.ran = true → ∃ r, e.ticket = some r ∧ Presented E (System.start disk) (acts ++ more) e.con e.req r from
    this acts [] (System.start disk) rfl hr (by simp [System.start])
  intro more
  induction more with
  | nil => intro acts x _ hx h; cases hx; simpa using h
  | cons a more ih =>
    intro acts x hx hx' h
    simp only [System.run] at hx'
    split at hx'
    · cases hx'
    · rename_i y hy
      have longer : ∀ {c q r}, Presented E (System.start disk) acts c q r →
          Presented E (System.start disk) (acts ++ [a]) c q r := by
        rintro c q r ⟨before, after, z, hb, hz⟩
        exact ⟨before, after ++ [a], z, by simp [hb], hz⟩
      have := ih (acts ++ [a]) y (by rw [System.run_append, hx]; simp [System.run, hy]) hx' fun e he hra => by
        rcases answered_one (System.Move.of_step (good_run hx).busy hy) with h1 | ⟨e', h1⟩
        · obtain ⟨r, h2, h3⟩ := h e (by rwa [h1] at he) hra
          exact ⟨r, h2, longer h3⟩
        · rw [h1, List.mem_append, List.mem_singleton] at he
          rcases he with he | he
          · obtain ⟨r, h2, h3⟩ := h e he hra
            exact ⟨r, h2, longer h3⟩
          · subst he
            obtain ⟨r, _, _, h2, _, _, h3, _⟩ := ran_step hx hy h1 hra
            exact ⟨r, h2, longer h3⟩
      simpa using this

/-- C90: no client can change the image.  In every execution of the daemon in which all the tickets added were made of tickets
for reading (as that of the container), whatever requests the clients send, on any number of connections: no byte of any disk is
changed, every request that was run is a download, with a ticket object that permitted it when it was made, and every upload
and every PATCH is answered with an error. -/
theorem C90_read_only {σ : Type} {E : System.Env σ} (L : Lawful E.B) {disk : Str → σ} (hi : ∀ u, L.Inv (disk u))
    {acts : List System.Act} {s : System.Sys σ} (hq : SoundRequests E acts)
    (ht : OnlyTickets (fun a => ∃ t id size, Reading t id size ∧ Made t a) acts)
    (hr : System.run E (System.start disk) acts = some s) :
    (∀ u, L.content (s.disk u) = L.content (disk u)) ∧
    (∀ e ∈ s.answered, e.ran = true → ∃ q r, e.req.job = .get q ∧ e.ticket = some r ∧
      Presented E (System.start disk) acts e.con e.req r) ∧
    (∀ e ∈ s.answered, (∀ q, e.req.job ≠ .get q) → ErrorAnswer e.conn) := by
  have ops : ∀ r t, s.auth.tickets r = some t → t.attrs.ops = ["read"] := by
    intro r t h
    obtain ⟨f, id, size, hre, hm⟩ := ht _ _ (added_run hr r t h)
    have h1 := hm.2.2.1
    rw [hre.ops] at h1
    cases ho : t.attrs.ops with
    | nil => rw [ho] at h1; simp at h1
    | cons a l =>
      rw [ho] at h1
      simp only [List.map_cons, List.cons.injEq, Json.str.injEq] at h1
      cases l with
      | cons b l => simp at h1
      | nil => rw [String.toList_inj.1 h1.1]
  have get : ∀ e ∈ s.answered, e.ran = true → ∃ q r, e.req.job = .get q ∧ e.ticket = some r ∧
      Presented E (System.start disk) acts e.con e.req r := by
    intro e he hra
    obtain ⟨r, h1, h2⟩ := ran_presented hr e he hra
    obtain ⟨t, h3, h4⟩ := presented_ticket hr h2
    rw [ops r t h3] at h4
    cases hj : e.req.job with
    | get q => exact ⟨q, r, rfl, h1, h2⟩
    | put q => rw [hj] at h4; simp [Allows, System.Job.op] at h4
    | patch q => rw [hj] at h4; simp [Allows, System.Job.op] at h4
  refine ⟨fun u => ?_, get, fun e he hj => ?_⟩
  · obtain ⟨new, h1, h2⟩ := C79_integrity (acts := []) L hi (by simpa using hq) rfl hr
    funext i
    refine Classical.byContradiction fun hne => ?_
    obtain ⟨e, he, r, t, _, _, _, _, h3, h4, _⟩ := h2 u i hne
    rw [ops r t h3] at h4
    exact absurd h4 (by decide)
  · cases hra : e.ran with
    | true => obtain ⟨q, _, h, _⟩ := get e he hra; exact absurd h (hj q)
    | false => exact C79_not_run hr e he hra

/-- C90: and a client that downloads gets the whole image: the request without a range is answered with all the bytes of the
image, or tells the client that it failed. -/
theorem C90_download {σ : Type} {E : System.Env σ} (L : Lawful E.B) {disk : Str → σ} (hi : ∀ u, L.Inv (disk u))
    {acts : List System.Act} {a : System.Act} {s s' : System.Sys σ} (hq : SoundRequests E (acts ++ [a]))
    (ht : OnlyTickets (fun a => ∃ t id size, Reading t id size ∧ Made t a) acts)
    (hr : System.run E (System.start disk) acts = some s) (hs : System.step E s a = some s')
    {e : System.Answered} {q : GetReq} (he : s'.answered = s.answered ++ [e]) (hj : e.req.job = .get q) (hn : q.range = none)
    (hra : e.ran = true) :
    ∃ r t, e.ticket = some r ∧ s.auth.tickets r = some t ∧
      (t.attrs.size = E.B.size (s.disk (s.url r)) →
        Download (load (L.content (disk (s.url r))) 0 t.attrs.size) 200 none e.conn) := by
  have hq' : SoundRequests E acts := fun c r h => hq c r (by simp [h])
  have hinv := disks_inv (acts := []) L (by simpa using hq') rfl hi hr
  obtain ⟨r, t, h1, h2, _, _, h3⟩ := C79_download L hq' hr hinv hs he hj hra
  refine ⟨r, t, h1, h2, fun hz => ?_⟩
  obtain ⟨range, h4, _, h5⟩ := h3 0 t.attrs.size (by rw [hn]; exact .all (by omega))
  rw [if_pos hn, h4 hn, (C90_read_only L hi hq' ht hr).1] at h5
  exact h5

/-! ## Examples -/

namespace ContainerEx

/-- The world of a container that serves a qcow2 image until it is interrupted. -/
def world : Container.World where
  info := .ok (.obj [(lit "virtual-size", .int 6), (lit "format", .str (lit "qcow2"))])
  mkdtemp := .ok (lit "/tmp/imageio-x")
  write := .ok ()
  nbdEnv := exportEnv
  nbd := ⟨.ok (), .ok true, true, true⟩
  daemon := .error (.exception "KeyboardInterrupt")
  rmtree := .ok ()

/-- The command of qemu-nbd in this world. -/
def command : List Str :=
  (((server (lit "/app/a.qcow2") (lit "qcow2") (lit "/tmp/imageio-x/sock")).command exportEnv).toOption).getD []

/-- The ticket of the container. -/
def ticket : System.Act := .add ⟨"a.qcow2", 8, ["read"], 3000⟩ "a".toList

/-- A request for the whole image. -/
def get : System.Request := { job := .get ⟨"a.qcow2".toList, [], none⟩, header := none, rest := [], buf := [0, 0] }

def before : List System.Act :=
  [ticket, .request 2 (SysEx.put "a.qcow2")] ++ SysEx.begins 1 get ++
    [.io 1 3, .check 1, .endOp 1].map System.Act.auth

theorem only : OnlyTickets (fun a => ∃ t id size, Reading t id size ∧ Made t a) before := by
  intro attrs url h
  simp only [before, ticket, SysEx.begins, List.map_cons, List.map_nil, List.mem_append, List.mem_cons, List.not_mem_nil,
    or_false, reduceCtorEq, System.Act.add.injEq] at h
  obtain ⟨rfl, rfl⟩ := h
  exact ⟨containerFields "a.qcow2".toList (lit "/s") 8, _, _, ⟨rfl, rfl, rfl⟩, rfl, rfl, rfl, rfl⟩

theorem sound : SoundRequests SysEx.E (before ++ [.auth (.removeOp 1)]) := by
  intro c r h
  simp only [before, ticket, SysEx.begins, List.map_cons, List.map_nil, List.mem_append, List.mem_cons, List.not_mem_nil,
    or_false, reduceCtorEq, System.Act.request.injEq, false_or] at h
  rcases h with ⟨_, rfl⟩ | ⟨_, rfl⟩
  · exact ⟨Nat.zero_lt_succ _, Nat.mod_one _, 3, .inr ⟨_, rfl, number_3⟩⟩
  · exact ⟨Nat.zero_lt_succ _, Nat.mod_one _, 0, .inl ⟨rfl, rfl⟩⟩

end ContainerEx

/-- It serves the image, and ends without an error and without leaving anything. -/
example : (Container.main ContainerEx.world (lit "/app/a.qcow2") none).2.served = some ContainerEx.command ∧
    ContainerEx.command ≠ [] ∧
    (Container.main ContainerEx.world (lit "/app/a.qcow2") none).2.tmp = false ∧
    exitStatus (Container.main ContainerEx.world (lit "/app/a.qcow2") none).1 = 0 := by decide +kernel

/-- The hypotheses of `C90_served_partial`. -/
example : PlainText (lit "tmp/imageio-x") ∧ ':' ∉ lit "tmp/imageio-x" ∧ (lit "tmp/imageio-x").getLast? ≠ some '/' ∧
    Tickets.Field [(lit "virtual-size", .int 6), (lit "format", .str (lit "qcow2"))] "virtual-size" (.int 6) :=
  ⟨by unfold PlainText; decide, by decide, by decide, (find_iff _ _ _).1 rfl⟩

/-- The upload is refused, and the download gets the image. -/
example : (System.run SysEx.E (System.start SysEx.disk) (ContainerEx.before ++ [.auth (.removeOp 1)])).map
    (fun s => (s.answered.map SysEx.seen, (s.disk "a".toList).buf)) =
    some ([⟨2, none, false, [403], []⟩, ⟨1, some 0, true, [200], [1, 1, 1, 1, 1, 1, 1, 1]⟩], [1, 1, 1, 1, 1, 1, 1, 1]) := by
  decide +kernel

/-- The theorems apply to it. -/
example {s : System.Sys Memory.State} (hr : System.run SysEx.E (System.start SysEx.disk) ContainerEx.before = some s) (u : Str)
    (i : Nat) : byteAt (s.disk u).buf i = byteAt (SysEx.disk u).buf i :=
  congrFun ((C90_read_only Memory.lawful (fun _ => rfl) (fun c r h => ContainerEx.sound c r (by simp [h])) ContainerEx.only hr).1 u) i

/-- With `control.enable = false` the daemon starts, and does not serve the control service; with `true` it does. -/
example : Daemon.Act.serve .remote ∈ (Daemon.startup DaemonSample.env true ⟨{ DaemonSample.cfg with controlEnable := false }, []⟩).2.trace ∧
    Daemon.Act.serve .control ∈ (Daemon.startup DaemonSample.env true ⟨{ DaemonSample.cfg with controlEnable := true }, []⟩).2.trace := by
  decide +kernel

end Imageio.Props
