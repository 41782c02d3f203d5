import Verif.Model.HttpConnect

/-! The sockets of connections: who owns what is open. -/

namespace Imageio.HttpConnect
open Imageio.Http Imageio.Images

/-- The open sockets are those of `base` and the one of the connection. -/
def Own (base : List Sock) (c : Con) (w : World) : Prop := w.opened.Perm (base ++ c.sock.toList)

theorem attach_own {base : List Sock} {c : Con} {w : World} (s : Sock) (hn : c.sock = none)
    (h : Own base c w) : Own base (c.attach w s).1 (c.attach w s).2 := by
  unfold Own at h ⊢
  simp only [hn, Option.toList_none, List.append_nil] at h
  exact h.append_right [s]

theorem close_own {base : List Sock} {c : Con} {w : World} (h : Own base c w) :
    (c.close w).1.sock = none ∧ (c.close w).2.opened.Perm base := by
  unfold Own at h
  unfold Con.close
  cases hs : c.sock with
  | none => simpa [hs] using h
  | some s =>
    simp only [hs, Option.toList_some] at h
    refine ⟨rfl, ?_⟩
    have h1 := h.erase s
    have h2 : ((base ++ [s]).erase s).Perm base := by
      have : (base ++ [s]).Perm (s :: base) := List.perm_append_comm
      simpa using this.erase s
    exact h1.trans h2

theorem close_own' {base : List Sock} {c : Con} {w : World} (h : Own base c w) :
    Own base (c.close w).1 (c.close w).2 := by
  obtain ⟨h1, h2⟩ := close_own h
  unfold Own
  rw [h1]
  simpa using h2

theorem connect_own {base : List Sock} {c : Con} {w : World} (hn : c.sock = none)
    (h : Own base c w) : Own base (c.connect w).2.1 (c.connect w).2.2 := by
  unfold Con.connect
  split
  · split
    · exact h
    · split
      · exact attach_own _ hn h
      · exact attach_own _ hn h
    · exact attach_own _ hn h
  · exact attach_own _ hn h
  · split
    · exact attach_own _ hn h
    · exact attach_own _ hn h

theorem setTimeout_own {base : List Sock} {c : Con} {w : World} (t : Nat) (h : Own base c w) :
    Own base (c.setTimeout t w).1 (c.setTimeout t w).2 := by
  have hc := (close_own h).2
  unfold Con.close at hc
  unfold Con.setTimeout
  cases hs : c.sock with
  | none => simpa [hs] using h
  | some s =>
    rw [hs] at hc
    exact hc.append_right _

theorem establish_own {base : List Sock} {o : Opts} {c : Con} {w : World} (hn : c.sock = none)
    (h : w.opened.Perm base) :
    (∀ e w', establish o c w = (.error e, w') → w'.opened.Perm base) ∧
    (∀ c' w', establish o c w = (.ok c', w') → Own base c' w') := by
  have ho : Own base c w := by unfold Own; simpa [hn] using h
  have := connect_own hn ho
  unfold establish
  generalize c.connect w = x at this
  obtain ⟨r, c1, w1⟩ := x
  cases r with
  | error e =>
    refine ⟨?_, nofun⟩
    intro e' w' he
    cases he
    exact (close_own this).2
  | ok u =>
    refine ⟨nofun, ?_⟩
    intro c' w' he
    cases he
    exact setTimeout_own _ this

theorem request_own {base : List Sock} {c : Con} {w : World} (h : Own base c w) :
    Own base (c.request w).2.1 (c.request w).2.2 := by
  unfold Con.request
  split
  · exact h
  · have h1 : Own base (if c.sock.isNone then c.connect w else (.ok (), c, w)).2.1
        (if c.sock.isNone then c.connect w else (.ok (), c, w)).2.2 := by
      split
      · rename_i hn
        exact connect_own (by simpa using hn) h
      · exact h
    generalize (if c.sock.isNone then c.connect w else (.ok (), c, w)) = x at h1
    obtain ⟨r, c1, w1⟩ := x
    cases r with
    | error e => exact h1
    | ok u =>
      simp only
      split
      · exact h1
      · have h2 : Own base c1 { w1 with answers := w1.answers.tail } := h1
        split
        · exact close_own' h2
        · exact h2
        · split
          · exact close_own' h2
          · exact h2

theorem options_own {base : List Sock} {loads : Bytes → Option Json} {c : Con} {w : World}
    (h : Own base c w) : Own base (c.options loads w).2.1 (c.options loads w).2.2 := by
  have := request_own h
  unfold Con.options
  generalize c.request w = x at this
  obtain ⟨r, c1, w1⟩ := x
  rcases r with e | ⟨st, body, len⟩
  · exact this
  · simp only
    split
    · exact this
    · split
      · exact this
      · split
        · exact this
        · exact this

theorem isLocal_own {base : List Sock} {c : Con} {w : World} (h : Own base c w) :
    Own base (c.isLocal w).2.1 (c.isLocal w).2.2 := by
  unfold Con.isLocal
  have h1 : Own base (if c.sock.isNone then c.connect w else (.ok (), c, w)).2.1
      (if c.sock.isNone then c.connect w else (.ok (), c, w)).2.2 := by
    split
    · rename_i hn
      exact connect_own (by simpa using hn) h
    · exact h
  generalize (if c.sock.isNone then c.connect w else (.ok (), c, w)) = x at h1
  obtain ⟨r, c1, w1⟩ := x
  cases r <;> exact h1

theorem optimize_own {base : List Sock} {o : Opts} {u : Json} {c : Con} {w : World}
    (h : Own base c w) : Own base (c.optimize o u w).2.1 (c.optimize o u w).2.2 := by
  have := isLocal_own h
  unfold Con.optimize
  generalize c.isLocal w = x at this
  obtain ⟨r, c1, w1⟩ := x
  cases r with
  | error e => exact this
  | ok l =>
    simp only
    split
    · exact this
    · obtain ⟨h1, h2⟩ := establish_own (o := o) (base := base ++ c1.sock.toList)
        (c := { kind := .unix (pathOf u), tls := none, timeout := o.connectTimeout, sock := none,
                busy := false }) rfl this
      unfold createUnix
      generalize establish o _ w1 = y at h1 h2
      obtain ⟨r2, w2⟩ := y
      cases r2 with
      | error e => exact h1 e w2 rfl
      | ok c2 =>
        have h3 := h2 c2 w2 rfl
        have h4 : Own (base ++ c2.sock.toList) c1 w2 := by
          unfold Own at h3 ⊢
          refine h3.trans ?_
          rw [List.append_assoc, List.append_assoc]
          exact List.Perm.append_left _ List.perm_append_comm
        exact (close_own h4).2

theorem negotiate_own {base : List Sock} {o : Opts} {loads : Bytes → Option Json} {c : Con}
    {w : World} (h : Own base c w) :
    Own base (negotiate o loads c w).2.1 (negotiate o loads c w).2.2 := by
  have := options_own (loads := loads) h
  unfold negotiate
  generalize c.options loads w = x at this
  obtain ⟨r, c1, w1⟩ := x
  cases r with
  | error e => exact this
  | ok opts =>
    have h2 := optimize_own (o := o) (u := getOption opts "unix_socket" .null) this
    simp only
    generalize c1.optimize o (getOption opts "unix_socket" .null) w1 = y at h2
    obtain ⟨r2, c2, w2⟩ := y
    cases r2 <;> exact h2

/-- The sockets of a backend. -/
def socks {ε : Type} (b : HttpBackend ε) : List Sock := (b.con.bind (·.sock)).toList

theorem open_own {ε : Type} {base : List Sock} (o : Opts) (loads : Bytes → Option Json) (w : World)
    (h : w.opened.Perm base) :
    (∀ e w', openBackend ε o loads w = (.error e, w') → w'.opened.Perm base) ∧
    (∀ b w', openBackend ε o loads w = (.ok b, w') → w'.opened.Perm (base ++ socks b)) := by
  unfold openBackend
  cases (if o.https then (sslContext o).map some else .ok none) with
  | error e =>
    simp only [Prod.mk.injEq, Except.error.injEq, reduceCtorEq, false_and, false_implies,
      implies_true, and_true]
    rintro e' w' ⟨-, rfl⟩
    exact h
  | ok context =>
    simp only
    have hc : (∀ e w', createTcp o context w = (.error e, w') → w'.opened.Perm base) ∧
      (∀ c' w', createTcp o context w = (.ok c', w') → Own base c' w') := establish_own rfl h
    generalize createTcp o context w = y at hc
    obtain ⟨r2, w2⟩ := y
    cases r2 with
    | error e =>
      simp only [Prod.mk.injEq, Except.error.injEq, reduceCtorEq, false_and, false_implies,
        implies_true, and_true]
      rintro e' w' ⟨-, rfl⟩
      exact hc.1 _ _ rfl
    | ok c2 =>
      simp only
      have h3 := negotiate_own (o := o) (loads := loads) (hc.2 c2 w2 rfl)
      generalize negotiate o loads c2 w2 = z at h3
      obtain ⟨r3, c3, w3⟩ := z
      cases r3 with
      | error e =>
        simp only [Prod.mk.injEq, Except.error.injEq, reduceCtorEq, false_and, false_implies,
          implies_true, and_true]
        rintro e' w' ⟨-, rfl⟩
        exact (close_own h3).2
      | ok caps =>
        simp only [Prod.mk.injEq, Except.ok.injEq, reduceCtorEq, false_and, false_implies,
          implies_true, true_and]
        rintro b w' ⟨rfl, rfl⟩
        exact h3

theorem clone_own {ε : Type} {base : List Sock} (b : HttpBackend ε) (w : World)
    (h : w.opened.Perm base) :
    (∀ e w', b.clone w = (.error e, w') → w'.opened.Perm base) ∧
    (∀ b' w', b.clone w = (.ok b', w') → w'.opened.Perm (base ++ socks b')) := by
  have key : (∀ e w', b.cloneCon w = (.error e, w') → w'.opened.Perm base) ∧
      (∀ c' w', b.cloneCon w = (.ok c', w') → Own base c' w') := by
    unfold HttpBackend.cloneCon
    split
    · exact establish_own rfl h
    · exact establish_own rfl h
  unfold HttpBackend.clone
  generalize b.cloneCon w = y at key
  obtain ⟨r2, w2⟩ := y
  cases r2 with
  | error e =>
    simp only [Prod.mk.injEq, Except.error.injEq, reduceCtorEq, false_and, false_implies,
      implies_true, and_true]
    rintro e' w' ⟨-, rfl⟩
    exact key.1 _ _ rfl
  | ok c2 =>
    simp only [Prod.mk.injEq, Except.ok.injEq, reduceCtorEq, false_and, false_implies,
      implies_true, true_and]
    rintro b w' ⟨rfl, rfl⟩
    exact key.2 _ _ rfl

theorem backend_own {ε : Type} {base : List Sock} {b : HttpBackend ε} {w : World}
    (h : w.opened.Perm (base ++ socks b)) :
    (b.request w).2.2.opened.Perm (base ++ socks (b.request w).2.1) ∧
    (b.emulateHead w).2.2.opened.Perm (base ++ socks (b.emulateHead w).2.1) ∧
    (b.close w).2.opened.Perm base ∧ (b.close w).1.con = none := by
  unfold HttpBackend.request HttpBackend.emulateHead HttpBackend.close
  cases hc : b.con with
  | none =>
    have h' : w.opened.Perm base := by simpa [socks, hc] using h
    exact ⟨h, h, h', hc⟩
  | some c =>
    have ho : Own base c w := by unfold socks at h; rw [hc] at h; exact h
    have h1 := request_own ho
    simp only
    refine ⟨h1, ?_, (close_own ho).2, trivial⟩
    generalize c.request w = x at h1
    obtain ⟨r, c1, w1⟩ := x
    rcases r with e | ⟨st, body, len⟩
    · exact h1
    · simp only
      split
      · exact h1
      · exact close_own' h1

/-! What a connection keeps -/

/-- The socket of a connection is one of its kind, with its TLS settings, and with the timeout of the
connection or `r`. -/
def Fit (r : Nat) (c : Con) : Prop := ∀ s, c.sock = some s →
  s.kind = c.kind ∧ (s.connected = true → s.tls = c.tls) ∧ (s.timeout = c.timeout ∨ s.timeout = r)

/-- `c` became `c'`. -/
def Same (r : Nat) (c c' : Con) : Prop :=
  c'.kind = c.kind ∧ c'.tls = c.tls ∧ c'.timeout = c.timeout ∧ (Fit r c → Fit r c')

theorem Same.refl (r : Nat) (c : Con) : Same r c c := ⟨rfl, rfl, rfl, id⟩

theorem Same.trans {r : Nat} {a b c : Con} (h1 : Same r a b) (h2 : Same r b c) : Same r a c :=
  ⟨h2.1.trans h1.1, h2.2.1.trans h1.2.1, h2.2.2.1.trans h1.2.2.1, fun h => h2.2.2.2 (h1.2.2.2 h)⟩

theorem same_busy (r : Nat) (c : Con) (b : Bool) : Same r c { c with busy := b } :=
  ⟨rfl, rfl, rfl, id⟩

theorem same_attach (r : Nat) (c : Con) (w : World) (x y : Bool) :
    Same r c (c.attach w (c.newSock w x y)).1 := by
  refine ⟨rfl, rfl, rfl, ?_⟩
  intro _ s hs
  cases hs
  refine ⟨rfl, ?_, .inl rfl⟩
  intro hc
  simp only [Con.newSock] at hc ⊢
  rw [if_pos hc]
  rfl

theorem same_close (r : Nat) (c : Con) (w : World) : Same r c (c.close w).1 := by
  unfold Con.close
  cases hs : c.sock with
  | none =>
    refine ⟨rfl, rfl, rfl, ?_⟩
    intro _ s h
    cases h
  | some s => exact ⟨rfl, rfl, rfl, fun _ => nofun⟩

theorem same_connect (r : Nat) (c : Con) (w : World) : Same r c (c.connect w).2.1 := by
  unfold Con.connect
  split
  · split
    · exact .refl _ _
    · split <;> exact same_attach ..
    · exact same_attach ..
  · exact same_attach ..
  · split <;> exact same_attach ..

theorem same_setTimeout (r : Nat) (c : Con) (w : World) : Same r c (c.setTimeout r w).1 := by
  unfold Con.setTimeout
  cases hs : c.sock with
  | none => exact .refl _ _
  | some s =>
    refine ⟨rfl, rfl, rfl, ?_⟩
    intro h s' hs'
    cases hs'
    exact ⟨(h s hs).1, (h s hs).2.1, .inr rfl⟩

theorem same_establish {o : Opts} {c c' : Con} {w w' : World}
    (h : establish o c w = (.ok c', w')) : Same o.readTimeout c c' := by
  have := same_connect o.readTimeout c w
  unfold establish at h
  generalize c.connect w = x at this h
  obtain ⟨r, c1, w1⟩ := x
  cases r with
  | error e => cases h
  | ok u =>
    cases h
    exact this.trans (same_setTimeout _ _ _)

theorem same_ready (r : Nat) (c : Con) (w : World) :
    Same r c (if c.sock.isNone then c.connect w else (.ok (), c, w)).2.1 := by
  split
  · exact same_connect ..
  · exact .refl ..

theorem same_request (r : Nat) (c : Con) (w : World) : Same r c (c.request w).2.1 := by
  unfold Con.request
  split
  · exact .refl ..
  · have h1 := same_ready r c w
    generalize (if c.sock.isNone then c.connect w else (.ok (), c, w)) = x at h1
    obtain ⟨r', c1, w1⟩ := x
    cases r' with
    | error e => exact h1.trans (same_busy ..)
    | ok u =>
      simp only
      split
      · exact h1.trans (same_busy ..)
      · split
        · exact h1.trans (same_close ..)
        · exact h1.trans (same_busy ..)
        · split
          · exact h1.trans (same_close ..)
          · exact h1

theorem same_options (r : Nat) (loads : Bytes → Option Json) (c : Con) (w : World) :
    Same r c (c.options loads w).2.1 := by
  have := same_request r c w
  unfold Con.options
  generalize c.request w = x at this
  obtain ⟨r', c1, w1⟩ := x
  rcases r' with e | ⟨st, body, len⟩
  · exact this
  · simp only
    split
    · exact this
    · split
      · exact this
      · split <;> exact this

theorem same_isLocal (r : Nat) (c : Con) (w : World) : Same r c (c.isLocal w).2.1 := by
  unfold Con.isLocal
  have h1 := same_ready r c w
  generalize (if c.sock.isNone then c.connect w else (.ok (), c, w)) = x at h1
  obtain ⟨r', c1, w1⟩ := x
  cases r' <;> exact h1

/-- A connection of a backend with the options `o`: `P` holds for the TLS settings of TCP
connections. -/
def Good (P : Option Tls → Prop) (o : Opts) (c : Con) : Prop :=
  Fit o.readTimeout c ∧ c.timeout = o.connectTimeout ∧
    ((c.kind = .tcp o.netloc ∧ P c.tls) ∨ ∃ p, c.kind = .unix p ∧ c.tls = none)

theorem Good.same {P : Option Tls → Prop} {o : Opts} {c c' : Con} (h : Good P o c)
    (hs : Same o.readTimeout c c') : Good P o c' := by
  obtain ⟨h1, h2, h3⟩ := h
  obtain ⟨s1, s2, s3, s4⟩ := hs
  exact ⟨s4 h1, s3.trans h2, by rw [s1, s2]; exact h3⟩

theorem good_createTcp {P : Option Tls → Prop} {o : Opts} {t : Option Tls} {c : Con} {w w' : World}
    (ht : P t) (h : createTcp o t w = (.ok c, w')) : Good P o c := by
  refine Good.same (c := ⟨.tcp o.netloc, t, o.connectTimeout, none, false⟩) ⟨?_, rfl, .inl ⟨rfl, ht⟩⟩
    (same_establish h)
  intro s hs
  cases hs

theorem good_createUnix {P : Option Tls → Prop} {o : Opts} {p : Option Str} {c : Con} {w w' : World}
    (h : createUnix o p w = (.ok c, w')) : Good P o c := by
  refine Good.same (c := ⟨.unix p, none, o.connectTimeout, none, false⟩)
    ⟨?_, rfl, .inr ⟨p, rfl, rfl⟩⟩ (same_establish h)
  intro s hs
  cases hs

theorem good_optimize {P : Option Tls → Prop} {o : Opts} {c : Con} (u : Json) (w : World)
    (h : Good P o c) : Good P o (c.optimize o u w).2.1 := by
  have := h.same (same_isLocal _ c w)
  unfold Con.optimize
  generalize c.isLocal w = x at this
  obtain ⟨r, c1, w1⟩ := x
  cases r with
  | error e => exact this
  | ok l =>
    simp only
    split
    · exact this
    · cases hu : createUnix o (pathOf u) w1 with
      | mk r2 w2 =>
        cases r2 with
        | error e => exact this
        | ok c2 => exact good_createUnix hu

theorem good_open {ε : Type} {P : Option Tls → Prop} {o : Opts} {loads : Bytes → Option Json}
    {w w' : World} {b : HttpBackend ε}
    (h0 : o.https = false → P none) (h1 : ∀ t, o.https = true → sslContext o = .ok t → P (some t))
    (h : openBackend ε o loads w = (.ok b, w')) :
    b.opts = o ∧ P b.context ∧ ∃ c, b.con = some c ∧ Good P o c := by
  unfold openBackend at h
  have hp : ∀ t, (if o.https then (sslContext o).map some else .ok none) = .ok t → P t := by
    intro t ht
    cases hh : o.https with
    | false =>
      rw [hh] at ht
      cases ht
      exact h0 hh
    | true =>
      rw [hh, if_pos rfl] at ht
      cases hs : sslContext o with
      | error e => rw [hs] at ht; cases ht
      | ok t' => rw [hs] at ht; cases ht; exact h1 t' hh hs
  generalize (if o.https then (sslContext o).map some else .ok none) = x at h hp
  cases x with
  | error e => simp at h
  | ok context =>
    have hP := hp context rfl
    simp only at h
    cases hc : createTcp o context w with
    | mk r2 w2 =>
      rw [hc] at h
      cases r2 with
      | error e => simp at h
      | ok c =>
        have hg := (good_createTcp hP hc).same (same_options _ loads c w2)
        simp only [negotiate] at h
        generalize c.options loads w2 = y at hg h
        obtain ⟨r3, c3, w3⟩ := y
        cases r3 with
        | error e => simp at h
        | ok opts =>
          have hg2 := good_optimize (getOption opts "unix_socket" .null) w3 hg
          simp only at h
          generalize c3.optimize o (getOption opts "unix_socket" .null) w3 = z at hg2 h
          obtain ⟨r4, c4, w4⟩ := z
          cases r4 with
          | error e => simp at h
          | ok u =>
            simp only [Prod.mk.injEq, Except.ok.injEq] at h
            obtain ⟨rfl, -⟩ := h
            exact ⟨rfl, hP, c4, rfl, hg2⟩

theorem good_clone {ε : Type} {P : Option Tls → Prop} {w w' : World} {b b' : HttpBackend ε}
    (hb : P b.context) (h : b.clone w = (.ok b', w')) :
    b'.opts = b.opts ∧ b'.context = b.context ∧ ∃ c, b'.con = some c ∧ Good P b.opts c := by
  unfold HttpBackend.clone at h
  cases hc : b.cloneCon w with
  | mk r w2 =>
    rw [hc] at h
    cases r with
    | error e => simp at h
    | ok c =>
      simp only [Prod.mk.injEq, Except.ok.injEq] at h
      obtain ⟨rfl, -⟩ := h
      refine ⟨rfl, rfl, c, rfl, ?_⟩
      unfold HttpBackend.cloneCon at hc
      split at hc
      · exact good_createUnix hc
      · exact good_createTcp hb hc

end Imageio.HttpConnect
