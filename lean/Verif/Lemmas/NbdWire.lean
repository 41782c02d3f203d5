import Verif.Spec.NbdServer
import Verif.Lemmas.NbdOps
import Verif.Lemmas.NbdBackend
/-!
The NBD backend over the wire meets the contract of the operations.
-/
namespace Imageio.NbdWire
open Imageio.Spec Imageio.Nbd Imageio.Memory Imageio.Ops

variable {τ : Type}

theorem exchange_map {E : Env τ} {α β : Type} (m : M α) (f : α → β) (s : State τ) :
    NbdWire.exchange E (do let a ← m; pure (f a)) s =
      match NbdWire.exchange E m s with
      | (.ok a, s) => (.ok (f a), s)
      | (.error e, s) => (.error e, s) := by
  have hs : ((do let a ← m; pure (f a) : M β) s.conn).2.sent = (m s.conn).2.sent := by
    rw [bind_map]
    cases m s.conn with
    | mk r c => cases r <;> rfl
  unfold NbdWire.exchange
  rw [hs]
  generalize List.drop s.conn.sent.length (m s.conn).2.sent = new
  by_cases hc : s.alive = true ∧ new ≠ []
  · simp only [if_pos hc, bind_map]
    generalize m _ = x
    obtain ⟨r, c⟩ := x
    cases r <;> rfl
  · simp only [if_neg hc, bind_map]
    generalize m _ = x
    obtain ⟨r, c⟩ := x
    cases r <;> rfl

/-- A call with an open connection. -/
theorem exchange_alive {E : Env τ} {α : Type} {m : M α} {s : State τ} {new : Bytes} {v : τ} {rp : Reply}
    (ha : s.alive = true) (hn : (m s.conn).2.sent.drop s.conn.sent.length = new) (hne : new ≠ [])
    (hv : E.server.step s.srv new = (v, rp)) :
    NbdWire.exchange E m s =
      ((m { s.conn with rest := s.conn.rest ++ rp.bytes, frags := rp.frags }).1,
        { s with
          conn := (m { s.conn with rest := s.conn.rest ++ rp.bytes, frags := rp.frags }).2
          srv := v
          alive := !rp.closes }) := by
  subst hn
  have e : NbdWire.exchange E m s =
    if s.alive = true ∧ (m s.conn).2.sent.drop s.conn.sent.length ≠ [] then
      match E.server.step s.srv ((m s.conn).2.sent.drop s.conn.sent.length) with
      | (v, r) => ((m { s.conn with rest := s.conn.rest ++ r.bytes, frags := r.frags }).1,
          { s with
            conn := (m { s.conn with rest := s.conn.rest ++ r.bytes, frags := r.frags }).2
            srv := v
            alive := !r.closes })
    else ((m s.conn).1, { s with conn := (m s.conn).2 }) := rfl
  rw [e, if_pos ⟨ha, hne⟩, hv]

/-- A call that sends nothing, or after the connection was closed. -/
theorem exchange_dead {E : Env τ} {α : Type} {m : M α} {s : State τ}
    (h : s.alive = false ∨ (m s.conn).2.sent.drop s.conn.sent.length = []) :
    NbdWire.exchange E m s = ((m s.conn).1, { s with conn := (m s.conn).2 }) := by
  unfold NbdWire.exchange
  simp only
  rw [if_neg]
  rintro ⟨h1, h2⟩
  rcases h with h | h
  · rw [h] at h1
    cases h1
  · exact h2 h

/-- What one request of the client leaves alone. -/
structure Kept (s s' : State τ) : Prop where
  mode : s'.mode = s.mode
  sparse : s'.sparse = s.sparse
  pos : s'.pos = s.pos
  size : s'.size = s.size

/-- The state between the requests: everything that the server sent was received, and the size is the
size of the export. -/
structure Synced (E : Env τ) (s : State τ) : Prop where
  rest : s.conn.rest = []
  size : s.size = (E.server.image s.srv).length

/-- The outcome of a request over the wire. -/
structure Outcome (E : Env τ) (op : Op) (s : State τ) (r : Except Err Out) (s' : State τ) : Prop where
  kept : Kept s s'
  synced : Synced E s'
  disk : DiskKept op (E.server.disk s.srv) (E.server.disk s'.srv)
  ok : ∀ out, r = .ok out → op.Inside s.size ∧ op.Truth (E.server.image s.srv) out ∧
    op.Stored (E.server.image s.srv) (E.server.image s'.srv) ∧
    (op = .flush → E.server.disk s'.srv = E.server.image s.srv)
  error : ∀ e, r = .error e → External e ∧ Confined op (E.server.image s.srv) (E.server.image s'.srv)
  /-- the result is the result of an answer -/
  shape : ∀ out, r = .ok out → ∃ h b, Answers E.ss h op b (.ok out)
  closed : s.alive = false → s'.alive = false ∧ s'.srv = s.srv ∧ ∃ e, r = .error e

theorem Confined.refl (op : Op) (b : Bytes) : Confined op b b := ⟨rfl, fun _ _ => rfl⟩

theorem DiskKept.refl (op : Op) (b : Bytes) : DiskKept op b b := by
  cases op <;> first | rfl | trivial

/-- A request that the client refuses. -/
theorem unfit_run {ss : Session} {op : Op} {c : Conn} (hsup : op.Supported ss) (hfit : ¬ (op.request c.counter).Fits) :
    op.run ss c = (.error structError, { c with counter := c.counter + 1 }) := by
  have h : sendCommand (op.cmd ss c.counter) { c with counter := c.counter + 1 } =
      (.error structError, { c with counter := c.counter + 1 }) := by
    unfold sendCommand
    cases hb : (op.cmd ss c.counter).toBytes with
    | error e => rw [toBytes_error hb]; rfl
    | ok b =>
      obtain ⟨r, ⟨f1, f2, f3, f4, f5⟩, e1, e2, e3, e4, e5, -⟩ := toBytes_ok.1 hb
      refine absurd ?_ hfit
      have a1 : (op.cmd ss c.counter).flags = (op.request c.counter).flags := by
        cases op with
        | zero _ _ p => cases p <;> rfl
        | _ => rfl
      have a2 : (op.cmd ss c.counter).type = (op.request c.counter).type := by cases op <;> rfl
      have a3 : (op.cmd ss c.counter).handle = (op.request c.counter).handle := by cases op <;> rfl
      have a4 : (op.cmd ss c.counter).offset = (op.request c.counter).offset := by cases op <;> rfl
      have a5 : (op.cmd ss c.counter).length = (op.request c.counter).length := by cases op <;> rfl
      rw [a1] at e1; rw [a2] at e2; rw [a3] at e3; rw [a4] at e4; rw [a5] at e5
      exact ⟨by omega, by omega, by omega, by omega, by omega⟩
  rw [run_def hsup]
  unfold Nbd.exchange
  refine (bind_ok (nextHandle_run c)).trans ?_
  exact bind_error h

theorem exchange_outcome {E : Env τ} (hp : Protocol E.server E.ss) {op : Op} {s s' : State τ} {r : Except Err Out}
    (hs : Synced E s) (hall : op.Allowed E.ss)
    (h : NbdWire.exchange E (op.run E.ss) s = (r, s')) : Outcome E op s r s' := by
  have hsup := hall.1
  by_cases hfit : (op.request s.conn.counter).Fits
  · have hsent := run_sent (s := s.conn) hsup hfit
    have hnew : (op.run E.ss s.conn).2.sent.drop s.conn.sent.length =
        (op.request s.conn.counter).wire ++ op.payload := by rw [hsent.1, List.drop_left]
    have hne : (op.request s.conn.counter).wire ++ op.payload ≠ [] := by
      intro hx
      have := congrArg List.length hx
      simp [NbdRequest.wire, be_length] at this
    by_cases ha : s.alive = true
    · cases hv : E.server.step s.srv ((op.request s.conn.counter).wire ++ op.payload) with
      | mk v rp =>
        rw [exchange_alive ha hnew hne hv] at h
        obtain ⟨hh, hd⟩ := hp _ _ _ _ _ hall hfit hv
        have hcl : s.alive = false → False := by simp [ha]
        cases hh with
        | done out hans hin hout hlen hst hflush =>
          obtain ⟨c1, e1, a1⟩ := run_answers (t := [])
            (s := { s.conn with rest := s.conn.rest ++ rp.bytes, frags := rp.frags }) hsup hfit hans
            (by simp [hs.rest])
          rw [e1] at h
          cases h
          refine ⟨⟨rfl, rfl, rfl, rfl⟩, ⟨a1.rest, by simp only; rw [hlen]; exact hs.size⟩, hd, ?_, ?_, ?_, ?_⟩
          · intro o ho
            cases ho
            exact ⟨by rw [hs.size]; exact hin, hout, hst, hflush⟩
          · intro e he
            cases he
          · intro o ho
            cases ho
            exact ⟨_, _, hans⟩
          · exact fun hx => (hcl hx).elim
        | failed e hans himg =>
          obtain ⟨c1, e1, a1⟩ := run_answers (t := [])
            (s := { s.conn with rest := s.conn.rest ++ rp.bytes, frags := rp.frags }) hsup hfit hans
            (by simp [hs.rest])
          have hx := run_external
            (s := { s.conn with rest := s.conn.rest ++ rp.bytes, frags := rp.frags }) hsup hfit e1
          rw [e1] at h
          cases h
          refine ⟨⟨rfl, rfl, rfl, rfl⟩, ⟨a1.rest, by simp only; rw [himg.length]; exact hs.size⟩, hd, ?_, ?_, ?_, ?_⟩
          · intro o ho
            cases ho
          · intro e he
            cases he
            exact ⟨hx, himg⟩
          · intro o ho
            cases ho
          · exact fun hx => (hcl hx).elim
        | lost more o hmore hans hclosed himg =>
          obtain ⟨e, c1, e1, a1⟩ := run_truncated
            (s := { s.conn with rest := s.conn.rest ++ rp.bytes, frags := rp.frags }) (b := rp.bytes) hsup hfit hans
            hmore (by simp [hs.rest])
          have hx := run_external
            (s := { s.conn with rest := s.conn.rest ++ rp.bytes, frags := rp.frags }) hsup hfit e1
          rw [e1] at h
          cases h
          refine ⟨⟨rfl, rfl, rfl, rfl⟩, ⟨a1, by simp only; rw [himg.length]; exact hs.size⟩, hd, ?_, ?_, ?_, ?_⟩
          · intro o ho
            cases ho
          · intro e he
            cases he
            exact ⟨hx, himg⟩
          · intro o ho
            cases ho
          · exact fun hx => (hcl hx).elim
    · have ha' : s.alive = false := by simpa using ha
      rw [exchange_dead (.inl ha')] at h
      cases hr : op.run E.ss s.conn with
      | mk o c1 =>
        rw [hr] at h hsent
        simp only at h hsent
        cases h
        have hrest : c1.rest = [] := by
          have := hsent.2.2
          rw [hs.rest] at this
          exact List.length_eq_zero_iff.1 (by simpa using this)
        have herr : ∃ e, r = .error e := by
          cases r with
          | error e => exact ⟨e, rfl⟩
          | ok a =>
            exfalso
            rw [run_eq hsup hfit] at hr
            obtain ⟨x, hx, -⟩ := conv_ok hr
            unfold recvReply at hx
            have e0 : (op.started s.conn).rest = [] := hs.rest
            rw [e0] at hx
            simp only [List.length_nil, Nat.zero_add] at hx
            rw [recvReplyLoop] at hx
            obtain ⟨s1, e1, -⟩ := recv_short (n := 4) (s := op.started s.conn) (by rw [e0]; simp)
            rw [bind_error e1] at hx
            simp at hx
        obtain ⟨e, rfl⟩ := herr
        have hx := run_external hsup hfit hr
        refine ⟨⟨rfl, rfl, rfl, rfl⟩, ⟨hrest, hs.size⟩, DiskKept.refl _ _, ?_, ?_, ?_, ?_⟩
        · intro o ho
          cases ho
        · intro e he
          cases he
          exact ⟨hx, Confined.refl _ _⟩
        · intro o ho
          cases ho
        · exact fun hx => ⟨hx, rfl, e, rfl⟩
  · have e := unfit_run (c := s.conn) hsup hfit
    rw [exchange_dead (.inr (by rw [e]; simp)), e] at h
    cases h
    refine ⟨⟨rfl, rfl, rfl, rfl⟩, ⟨hs.rest, hs.size⟩, DiskKept.refl _ _, ?_, ?_, ?_, ?_⟩
    · intro o ho
      cases ho
    · intro e he
      cases he
      exact ⟨trivial, Confined.refl _ _⟩
    · intro o ho
      cases ho
    · exact fun hx => ⟨hx, rfl, _, rfl⟩

/-- The result of a method gives the result of the request. -/
theorem outcome_of {E : Env τ} (hp : Protocol E.server E.ss) {op : Op} {α : Type} {m : M α} {f : α → Out}
    (hrun : op.run E.ss = do let a ← m; pure (f a)) {s s' : State τ} {r : Except Err α}
    (hs : Synced E s) (hsup : op.Allowed E.ss) (h : NbdWire.exchange E m s = (r, s')) :
    Outcome E op s (r.map f) s' := by
  apply exchange_outcome hp hs hsup
  rw [hrun, exchange_map, h]
  cases r <;> rfl

theorem readinto_outcome {E : Env τ} (hp : Protocol E.server E.ss) {offset : Nat} {buf : Bytes} {s s' : State τ}
    {r : Except Err Bytes} (hs : Synced E s) (h : NbdWire.exchange E (Nbd.readinto E.ss offset buf) s = (r, s')) :
    Outcome E (.read offset buf) s (r.map .data) s' := outcome_of hp rfl hs ⟨trivial, nofun⟩ h

theorem write_outcome {E : Env τ} (hp : Protocol E.server E.ss) {offset : Nat} {d : Bytes} {s s' : State τ}
    {r : Except Err Unit} (hs : Synced E s) (h : NbdWire.exchange E (Nbd.write E.ss offset d) s = (r, s')) :
    Outcome E (.write offset d) s (r.map fun _ => .done) s' := outcome_of hp rfl hs ⟨trivial, nofun⟩ h

theorem zero_outcome {E : Env τ} (hp : Protocol E.server E.ss) {offset n : Nat} {p : Bool} {s s' : State τ}
    {r : Except Err Unit} (hs : Synced E s) (hsup : E.ss.transmissionFlags.testBit 6)
    (h : NbdWire.exchange E (Nbd.zero E.ss offset n p) s = (r, s')) :
    Outcome E (.zero offset n p) s (r.map fun _ => .done) s' := outcome_of hp rfl hs ⟨hsup, nofun⟩ h

theorem flush_outcome {E : Env τ} (hp : Protocol E.server E.ss) {s s' : State τ}
    {r : Except Err Unit} (hs : Synced E s) (hsup : E.ss.transmissionFlags.testBit 2)
    (h : NbdWire.exchange E (Nbd.flush E.ss) s = (r, s')) :
    Outcome E .flush s (r.map fun _ => .done) s' := outcome_of hp rfl hs ⟨hsup, nofun⟩ h

/-- Zero without support of the server: nothing is sent. -/
theorem zero_unsupported {E : Env τ} {offset n : Int} {p : Bool} {s : State τ}
    (hsup : ¬ E.ss.transmissionFlags.testBit 6) :
    NbdWire.exchange E (Nbd.zero E.ss offset n p) s = (.error unsupportedRequest, s) := by
  have h' : E.ss.transmissionFlags / 64 % 2 = 0 := by
    have : ¬ E.ss.transmissionFlags / 64 % 2 = 1 := fun hx => hsup ((bit6 _).2 hx)
    omega
  have e : ∀ c, Nbd.zero E.ss offset n p c = (.error unsupportedRequest, c) := fun c => by
    simp only [Nbd.zero]
    rw [if_pos h']
    rfl
  rw [exchange_dead (.inr (by rw [e]; simp)), e]

/-- Flush without support of the server: nothing is sent. -/
theorem flush_unsupported {E : Env τ} {s : State τ} (hsup : ¬ E.ss.transmissionFlags.testBit 2) :
    NbdWire.exchange E (Nbd.flush E.ss) s = (.ok (), s) := by
  have h' : E.ss.transmissionFlags / 4 % 2 = 0 := by
    have : ¬ E.ss.transmissionFlags / 4 % 2 = 1 := fun hx => hsup ((bit2 _).2 hx)
    omega
  have e : ∀ c, Nbd.flush E.ss c = (.ok (), c) := fun c => by
    simp only [Nbd.flush]
    rw [if_pos h']
    rfl
  rw [exchange_dead (.inr (by rw [e]; simp)), e]

/-- A request to a server without errors. -/
theorem works_run {E : Env τ} (hw : Reliable E.server E.ss) {op : Op} {s : State τ}
    (hs : Synced E s) (ha : s.alive = true) (hnst : ∀ offset length, op ≠ .status offset length)
    (hsup : op.Supported E.ss) (hfit : (op.request s.conn.counter).Fits)
    (hsz : s.size ≤ 2 ^ 64) (hin : op.Inside s.size) (hal : op.Aligned E.ss.minBlock) :
    ∃ out s', NbdWire.exchange E (op.run E.ss) s = (.ok out, s') ∧ s'.alive = true := by
  have hsent := run_sent (s := s.conn) hsup hfit
  have hnew : (op.run E.ss s.conn).2.sent.drop s.conn.sent.length =
      (op.request s.conn.counter).wire ++ op.payload := by rw [hsent.1, List.drop_left]
  have hne : (op.request s.conn.counter).wire ++ op.payload ≠ [] := by
    intro hx
    have := congrArg List.length hx
    simp [NbdRequest.wire, be_length] at this
  cases hv : E.server.step s.srv ((op.request s.conn.counter).wire ++ op.payload) with
  | mk v rp =>
    rw [exchange_alive ha hnew hne hv]
    obtain ⟨⟨out, hans⟩, hcl⟩ := hw _ _ _ _ _ ⟨hsup, fun o l h => absurd h (hnst o l)⟩ hfit hnst (by rw [← hs.size]; exact hsz) (by rw [← hs.size]; exact hin) hal hv
    obtain ⟨c1, e1, a1⟩ := run_answers (t := [])
      (s := { s.conn with rest := s.conn.rest ++ rp.bytes, frags := rp.frags }) hsup hfit hans
      (by simp [hs.rest])
    rw [e1]
    exact ⟨out, _, rfl, by simp [hcl]⟩

/-- The result of a request gives the result of the method. -/
theorem of_run_ok {E : Env τ} {op : Op} {α : Type} {m : M α} {f : α → Out}
    (hrun : op.run E.ss = do let a ← m; pure (f a)) {s s' : State τ} {out : Out}
    (h : NbdWire.exchange E (op.run E.ss) s = (.ok out, s')) : ∃ a, NbdWire.exchange E m s = (.ok a, s') := by
  rw [hrun, exchange_map] at h
  cases hx : NbdWire.exchange E m s with
  | mk r s1 =>
    rw [hx] at h
    cases r with
    | error e => simp at h
    | ok a =>
      simp only [Prod.mk.injEq] at h
      exact ⟨a, by rw [h.2]⟩

theorem readinto_of_run {E : Env τ} {offset : Nat} {buf : Bytes} {s s' : State τ} {out : Out}
    (h : NbdWire.exchange E (Op.run E.ss (.read offset buf)) s = (.ok out, s')) :
    ∃ d, NbdWire.exchange E (Nbd.readinto E.ss offset buf) s = (.ok d, s') := of_run_ok rfl h

theorem write_of_run {E : Env τ} {offset : Nat} {d : Bytes} {s s' : State τ} {out : Out}
    (h : NbdWire.exchange E (Op.run E.ss (.write offset d)) s = (.ok out, s')) :
    ∃ u, NbdWire.exchange E (Nbd.write E.ss offset d) s = (.ok u, s') := of_run_ok rfl h

theorem zero_of_run {E : Env τ} {offset n : Nat} {p : Bool} {s s' : State τ} {out : Out}
    (h : NbdWire.exchange E (Op.run E.ss (.zero offset n p)) s = (.ok out, s')) :
    ∃ u, NbdWire.exchange E (Nbd.zero E.ss offset n p) s = (.ok u, s') := of_run_ok rfl h

theorem flush_of_run {E : Env τ} {s s' : State τ} {out : Out}
    (h : NbdWire.exchange E (Op.run E.ss .flush) s = (.ok out, s')) :
    ∃ u, NbdWire.exchange E (Nbd.flush E.ss) s = (.ok u, s') := of_run_ok rfl h

/-- The backend over the wire meets the contract of the operations, for every server of the protocol
that supports flush. -/
def lawful (E : Env τ) (hp : Protocol E.server E.ss) (hb : 0 < E.ss.minBlock)
    (hf : E.ss.transmissionFlags.testBit 2) : Lawful (backend E) where
  Inv s := Synced E s
  content s := byteAt (E.server.image s.srv)
  durable s := byteAt (E.server.disk s.srv)
  mayFail _ := True
  block_pos := hb
  seek := by
    intro s n r s' hi h
    simp only [backend, seek] at h
    cases h
    exact ⟨rfl, ⟨hi.rest, hi.size⟩, rfl, rfl, rfl, rfl⟩
  readinto := by
    intro s n d s' hi ht hn h
    simp only [backend, readinto] at h ⊢ ht hn
    split at h
    · cases h
    · split at h
      · cases h
        refine ⟨hi, rfl, rfl, rfl, by simp, by simp [load], by simp, by simp; omega, ?_, by simp⟩
        intro _; omega
      · rename_i hz
        split at h
        · cases h
        · rename_i d' s1 hex
          cases h
          obtain ⟨k, hsy, hd, hok, -⟩ := readinto_outcome hp hi hex
          obtain ⟨h1, h2, h3, -⟩ := hok _ rfl
          simp only [Op.Truth] at h2
          simp only [Op.Stored] at h3
          simp only [DiskKept] at hd
          simp only [Op.Inside, load_length] at h1
          rw [load_length] at h2
          have hl : d.length = min n (s.size - s.pos) := by rw [h2, load_length]
          refine ⟨⟨hsy.rest, hsy.size⟩, by rw [h3], by rw [hd], k.size, by omega, ?_, by rw [k.pos, hl], by omega, ?_, ?_⟩
          · rw [hl]; exact h2
          · intro hnil
            rw [hnil] at hl
            simp only [List.length_nil] at hl
            omega
          · rw [hl]
            by_cases hc : n ≤ s.size - s.pos
            · left; rw [Nat.min_eq_left hc]; exact hn
            · right; omega
  readinto_err := by
    intro s n e s' hi ht hn h
    simp only [backend, readinto] at h ⊢ ht hn
    split at h
    · cases h
      exact ⟨trivial, trivial, hi, rfl, rfl, rfl⟩
    · split at h
      · cases h
      · split at h
        · rename_i e' s1 hex
          cases h
          obtain ⟨k, hsy, hd, -, herr, -⟩ := readinto_outcome hp hi hex
          obtain ⟨h1, h2⟩ := herr _ rfl
          refine ⟨h1, trivial, hsy, ?_, ?_, k.size⟩
          · funext i
            exact h2.outside i id
          · simp only [DiskKept] at hd
            rw [hd]
        · cases h
  write := by
    intro s a d n s' hi hd0 _ h
    simp only [backend, write] at h ⊢
    have hdl : 0 < d.length := List.length_pos_iff.mpr hd0
    split at h
    · cases h
    · split at h
      · cases h
      · rename_i s1 hex
        cases h
        obtain ⟨k, hsy, hd, hok, -⟩ := write_outcome hp hi hex
        obtain ⟨h1, h2, h3, -⟩ := hok _ rfl
        rw [List.take_length]
        refine ⟨⟨hsy.rest, hsy.size⟩, hdl, Nat.le_refl _, by rw [k.pos], h3, ?_, ?_⟩
        · simp only [k.size]; exact Nat.le_refl _
        · simp only [k.size]; omega
  write_err := by
    intro s a d e s' hi hd0 _ h
    simp only [backend, write] at h ⊢
    split at h
    · cases h
      exact ⟨trivial, trivial, hi, fun _ _ => rfl, Nat.le_refl _⟩
    · split at h
      · rename_i e' s1 hex
        cases h
        obtain ⟨k, hsy, hd, -, herr, -⟩ := write_outcome hp hi hex
        obtain ⟨h1, h2⟩ := herr _ rfl
        exact ⟨h1, trivial, hsy, h2.outside, by rw [k.size]; exact Nat.le_refl _⟩
      · cases h
  zero := by
    intro s c n s' hi hc h
    simp only [backend, zero] at h ⊢
    split at h
    · cases h
    · by_cases hsup : E.ss.transmissionFlags.testBit 6
      · split at h
        · cases h
        · rename_i s1 hex
          cases h
          obtain ⟨k, hsy, hd, hok, -⟩ := zero_outcome hp hi hsup hex
          obtain ⟨h1, h2, h3, -⟩ := hok _ rfl
          refine ⟨⟨hsy.rest, hsy.size⟩, hc, Nat.le_refl _, by rw [k.pos], h3, ?_, ?_⟩
          · simp only [k.size]; exact Nat.le_refl _
          · simp only [k.size]; omega
      · rw [zero_unsupported hsup] at h
        cases h
  zero_err := by
    intro s c e s' hi hc h
    simp only [backend, zero] at h ⊢
    split at h
    · cases h
      exact ⟨trivial, trivial, hi, fun _ _ => rfl, Nat.le_refl _⟩
    · by_cases hsup : E.ss.transmissionFlags.testBit 6
      · split at h
        · rename_i e' s1 hex
          cases h
          obtain ⟨k, hsy, hd, -, herr, -⟩ := zero_outcome hp hi hsup hex
          obtain ⟨h1, h2⟩ := herr _ rfl
          exact ⟨h1, trivial, hsy, h2.outside, by rw [k.size]; exact Nat.le_refl _⟩
        · cases h
      · rw [zero_unsupported hsup] at h
        cases h
        exact ⟨trivial, trivial, hi, fun _ _ => rfl, Nat.le_refl _⟩
  flush := by
    intro s s' hi h
    simp only [backend, flush] at h ⊢
    obtain ⟨k, hsy, hd, hok, -⟩ := flush_outcome hp hi hf h
    obtain ⟨h1, h2, h3, h4⟩ := hok _ rfl
    simp only [Op.Stored] at h3
    exact ⟨hsy, by rw [h3], by rw [h4 rfl], k.pos, k.size⟩
  flush_err := by
    intro s e s' hi h
    simp only [backend, flush] at h ⊢
    obtain ⟨k, hsy, hd, -, herr, -⟩ := flush_outcome hp hi hf h
    obtain ⟨h1, h2⟩ := herr _ rfl
    refine ⟨h1, trivial, hsy, ?_, k.size⟩
    funext i
    exact h2.outside i id

end Imageio.NbdWire
