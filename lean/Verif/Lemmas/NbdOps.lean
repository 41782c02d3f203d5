import Verif.Lemmas.Nbd
import Verif.Lemmas.Disk
import Verif.Spec.NbdOps
/-!
Lemmas about the requests of the NBD client.
-/
namespace Imageio.Nbd
open Imageio.Spec Imageio.Extents

/-! ## The request and its command -/

/-- The command of a request. -/
def Op.cmd (ss : Session) (handle : Nat) : Op → Cmd
  | .read offset buf => Cmd.read handle offset buf ss.structured
  | .write offset data => Cmd.write handle offset data.length
  | .zero offset length punchHole => Cmd.zero handle offset length (if punchHole then 0 else 2)
  | .flush => Cmd.flush handle
  | .status offset length => Cmd.blockStatus handle offset length

/-- The result of a finished command. -/
def Op.out (op : Op) (cmd : Cmd) : Out :=
  match op with
  | .read .. => .data (cmd.buf.getD [])
  | .status .. => .extents (cmd.reply.getD [])
  | _ => .done

/-- The result of a request. -/
def Op.conv (op : Op) : Except Err Cmd × Conn → Except Err Out × Conn
  | (.ok cmd, s) => (.ok (op.out cmd), s)
  | (.error e, s) => (.error e, s)

theorem bit6 (n : Nat) : n.testBit 6 = true ↔ n / 64 % 2 = 1 := by
  rw [Nat.testBit_eq_decide_div_mod_eq]
  simp

theorem bit2 (n : Nat) : n.testBit 2 = true ↔ n / 4 % 2 = 1 := by
  rw [Nat.testBit_eq_decide_div_mod_eq]
  simp

/-- The connection after the request was sent. -/
def Op.started (op : Op) (s : Conn) : Conn :=
  { s with counter := s.counter + 1, sent := s.sent ++ (op.request s.counter).wire ++ op.payload }

theorem bind_map {α β : Type} (m : M α) (f : α → β) (s : Conn) :
    (do let a ← m; pure (f a) : M β) s =
      match m s with
      | (.ok a, s) => (.ok (f a), s)
      | (.error e, s) => (.error e, s) := by
  cases h : m s with
  | mk r s1 => cases r <;> simp [Bind.bind, M.bind, h, Pure.pure]

theorem send_cmd {ss : Session} {op : Op} {s : Conn} (hfit : (op.request s.counter).Fits) :
    sendCommand (op.cmd ss s.counter) { s with counter := s.counter + 1 } =
      (.ok (), { s with counter := s.counter + 1, sent := s.sent ++ (op.request s.counter).wire }) := by
  refine sendCommand_fits hfit ?_ ?_ ?_ ?_ ?_ _
  · cases op with
    | zero _ _ p => cases p <;> rfl
    | _ => rfl
  · cases op <;> rfl
  · cases op <;> rfl
  · cases op <;> rfl
  · cases op <;> rfl

/-- A command with data, its reply, and its result. -/
def exchange {α : Type} (ss : Session) (mk : Nat → Cmd) (data : Bytes) (f : Cmd → α) : M α := do
  let handle ← nextHandle
  sendCommand (mk handle)
  send data
  let cmd ← recvReply ss (mk handle)
  pure (f cmd)

theorem send_nil (s : Conn) : send [] s = (.ok (), s) := by simp [send]

theorem bind_send_nil {α : Type} (f : Unit → M α) : (send [] >>= f) = f () := by
  funext s
  exact bind_ok (send_nil s)

theorem bind_assoc {α β γ : Type} (m : M α) (f : α → M β) (g : β → M γ) :
    (m >>= f) >>= g = m >>= fun a => f a >>= g := by
  funext s
  cases h : m s with
  | mk r s1 =>
    cases r with
    | ok a => rw [bind_ok h]; simp only [Bind.bind, M.bind, h]
    | error e => rw [bind_error h]; simp only [Bind.bind, M.bind, h]

theorem pure_bind {α β : Type} (a : α) (g : α → M β) : (pure a >>= g : M β) = g a := rfl

theorem readinto_def (ss : Session) (offset : Int) (buf : Bytes) :
    readinto ss offset buf =
      exchange ss (fun h => Cmd.read h offset buf ss.structured) [] (fun cmd => cmd.buf.getD []) := by
  unfold readinto exchange
  simp only [bind_send_nil]

theorem write_def (ss : Session) (offset : Int) (data : Bytes) :
    Nbd.write ss offset data = exchange ss (fun h => Cmd.write h offset data.length) data (fun _ => ()) := by
  unfold Nbd.write exchange
  rfl

theorem zero_def (ss : Session) (offset length : Int) (p : Bool) (h : ss.transmissionFlags / 64 % 2 ≠ 0) :
    Nbd.zero ss offset length p =
      exchange ss (fun h => Cmd.zero h offset length (if p then 0 else 2)) [] (fun _ => ()) := by
  unfold Nbd.zero exchange
  rw [if_neg h]
  simp only [bind_send_nil]

theorem flush_def (ss : Session) (h : ss.transmissionFlags / 4 % 2 ≠ 0) :
    Nbd.flush ss = exchange ss Cmd.flush [] (fun _ => ()) := by
  unfold Nbd.flush exchange
  rw [if_neg h]
  simp only [bind_send_nil]

theorem extents_def (ss : Session) (offset length : Int) :
    extents ss offset length =
      exchange ss (fun h => Cmd.blockStatus h offset length) [] (fun cmd => cmd.reply.getD []) := by
  unfold extents exchange
  simp only [bind_send_nil]

theorem exchange_map {α β : Type} (ss : Session) (mk : Nat → Cmd) (data : Bytes) (f : Cmd → α) (g : α → β) :
    (exchange ss mk data f >>= fun a => pure (g a) : M β) = exchange ss mk data (fun c => g (f c)) := by
  unfold exchange
  simp only [bind_assoc, pure_bind]

theorem run_def {ss : Session} {op : Op} (hsup : op.Supported ss) :
    op.run ss = exchange ss (fun h => op.cmd ss h) op.payload op.out := by
  cases op with
  | read offset buf => rw [Op.run, readinto_def, exchange_map]; rfl
  | write offset data => rw [Op.run, write_def, exchange_map]; rfl
  | zero offset length p =>
    rw [Op.run, zero_def _ _ _ _ (by have := (bit6 _).1 hsup; omega), exchange_map]; rfl
  | flush => rw [Op.run, flush_def _ (by have := (bit2 _).1 hsup; omega), exchange_map]; rfl
  | status offset length => rw [Op.run, extents_def, exchange_map]; rfl

theorem exchange_eq {ss : Session} {mk : Nat → Cmd} {data w : Bytes} {s : Conn} {α : Type} {f : Cmd → α}
    (h : sendCommand (mk s.counter) { s with counter := s.counter + 1 } =
      (.ok (), { s with counter := s.counter + 1, sent := s.sent ++ w })) :
    exchange ss mk data f s =
      (recvReply ss (mk s.counter) >>= fun cmd => pure (f cmd))
        { s with counter := s.counter + 1, sent := s.sent ++ w ++ data } := by
  unfold exchange
  refine (bind_ok (nextHandle_run s)).trans ?_
  refine (bind_ok h).trans ?_
  exact bind_ok (m := send data) rfl

theorem run_eq {ss : Session} {op : Op} {s : Conn} (hsup : op.Supported ss) (hfit : (op.request s.counter).Fits) :
    op.run ss s = op.conv (recvReply ss (op.cmd ss s.counter) (op.started s)) := by
  rw [run_def hsup, exchange_eq (send_cmd hfit), bind_map]
  unfold Op.started
  generalize recvReply ss _ _ = y
  obtain ⟨r, s1⟩ := y
  cases r <;> rfl

/-- Length of the buffer of a read. -/
def Op.len : Op → Option Nat
  | .read _ buf => some buf.length
  | _ => none

/-- Whether the reply has extents. -/
def Op.st : Op → Bool
  | .status .. => true
  | _ => false

theorem cmd_shape (ss : Session) (op : Op) (handle : Nat) :
    Shape (op.cmd ss handle) handle (op.request handle).offset op.len op.st := by
  cases op <;> exact ⟨rfl, rfl, rfl, rfl⟩

theorem legal_accepts {ss : Session} {op : Op} {c : NbdChunk} (handle : Nat)
    (h : op.Legal ss c ∨ c.IsErrorOffset) : Accepts ss (op.request handle).offset op.len op.st c := by
  rcases h with h | h
  · cases c with
    | none => trivial
    | data o d => cases op <;> first | exact ⟨_, rfl, h⟩ | exact absurd h id
    | hole o n => cases op <;> first | exact ⟨_, rfl, h⟩ | exact absurd h id
    | status ctx es => cases op <;> first | exact ⟨rfl, h⟩ | exact absurd h id
    | error => cases op <;> exact absurd h id
    | errorOffset => cases op <;> exact absurd h id
  · cases c <;> first | trivial | exact absurd h id

theorem next_errors (ss : Session) (cmd : Cmd) (c : Nat × NbdChunk) :
    ((next ss cmd c).errors ≠ []) ↔ (cmd.errors ≠ [] ∨ c.2.IsErrorOffset) := by
  obtain ⟨f, c⟩ := c
  cases c with
  | status ctx es =>
    simp only [next, apply, NbdChunk.IsErrorOffset, or_false]
    cases ss.contexts.lookup ctx with
    | none => rfl
    | some name =>
      simp only
      cases Extents.recvExtents ss.minBlock (contextKind ss name) es <;> rfl
  | _ => simp [next, apply, NbdChunk.IsErrorOffset]

theorem fold_errors (ss : Session) (r : NbdReply) (cmd : Cmd) :
    ((r.foldl (next ss) cmd).errors ≠ []) ↔ (cmd.errors ≠ [] ∨ ∃ c ∈ r, c.2.IsErrorOffset) := by
  induction r generalizing cmd with
  | nil => simp
  | cons c r ih =>
    rw [List.foldl_cons, ih, next_errors]
    simp only [List.mem_cons, exists_eq_or_imp, or_assoc]

theorem cmd_errors (ss : Session) (op : Op) (handle : Nat) : (op.cmd ss handle).errors = [] := by
  cases op <;> rfl

theorem request_handle (op : Op) (handle : Nat) : (op.request handle).handle = handle := by cases op <;> rfl

theorem fits_handle {op : Op} {handle : Nat} (h : (op.request handle).Fits) : handle < 2 ^ 64 := by
  have := h.2.2.1
  rwa [request_handle] at this

/-- A request with a structured reply. -/
theorem run_framed {ss : Session} {op : Op} {s : Conn} {r : NbdReply} {t : Bytes} (hsup : op.Supported ss)
    (hfit : (op.request s.counter).Fits) (hst : ss.structured = true) (hr : r.Framed)
    (hfits : ∀ c ∈ r, c.2.Fits) (hin : ∀ c ∈ r, op.Legal ss c.2 ∨ c.2.IsErrorOffset)
    (hs : s.rest = r.wire s.counter ++ t) :
    ∃ s1, After (op.started s) t s1 ∧
      ((∃ c ∈ r, c.2.IsErrorOffset) → op.run ss s = (.error requestError, s1)) ∧
      ((¬ ∃ c ∈ r, c.2.IsErrorOffset) →
        op.run ss s = (.ok (op.out (r.foldl (next ss) (op.cmd ss s.counter))), s1)) := by
  obtain ⟨s1, a1, e1⟩ := recvReply_framed (ss := ss) (handle := s.counter) (cmd := op.cmd ss s.counter)
    (s := op.started s) (t := t) hst (fits_handle hfit) hr (cmd_shape ss op s.counter) hfits
    (fun c hc => legal_accepts _ (hin c hc)) hs
  have := fold_errors ss r (op.cmd ss s.counter)
  rw [cmd_errors] at this
  simp only [ne_eq, not_true_eq_false, false_or] at this
  refine ⟨s1, a1, fun h => ?_, fun h => ?_⟩
  · rw [run_eq hsup hfit, e1, if_pos (this.2 h)]
    rfl
  · rw [run_eq hsup hfit, e1, if_neg (fun hx => h (this.1 hx))]
    rfl

/-- A request that ends with an error chunk. -/
theorem run_error {ss : Session} {op : Op} {s : Conn} {pre : NbdReply} {flags code : Nat} {msg t : Bytes}
    (hsup : op.Supported ss)
    (hfit : (op.request s.counter).Fits) (hst : ss.structured = true)
    (hpre : ∀ c ∈ pre, c.1 < 2 ^ 16 ∧ c.1 % 2 = 0 ∧ c.2 ≠ .none ∧ c.2.Fits ∧
        (op.Legal ss c.2 ∨ c.2.IsErrorOffset))
    (hf : flags < 2 ^ 16) (hfits : (NbdChunk.error code msg).Fits)
    (hs : s.rest = NbdReply.wire s.counter (pre ++ [(flags, .error code msg)]) ++ t) :
    ∃ s1, After (op.started s) t s1 ∧
      op.run ss s = (.error (if flags % 2 = 1 then replyError code else protocolError), s1) := by
  obtain ⟨s1, a1, e1⟩ := recvReply_error (ss := ss) (handle := s.counter) (cmd := op.cmd ss s.counter)
    (s := op.started s) (t := t) (pre := pre) hst (fits_handle hfit) (cmd_shape ss op s.counter)
    (fun c hc => by
      obtain ⟨h1, h2, h3, h4, h5⟩ := hpre c hc
      exact ⟨h1, h2, h3, h4, legal_accepts _ h5⟩) hf hfits hs
  refine ⟨s1, a1, ?_⟩
  rw [run_eq hsup hfit, e1]
  rfl

/-- A request with a simple reply. -/
theorem run_simple {ss : Session} {op : Op} {s : Conn} {handle code : Nat} {data t : Bytes}
    (hsup : op.Supported ss)
    (hfit : (op.request s.counter).Fits) (hop : op.MaySimple ss) (hcode : code < 2 ^ 32) (hh : handle < 2 ^ 64)
    (hlen : code = 0 → handle = s.counter → data.length = op.len.getD 0)
    (hs : s.rest = simpleReply handle code data ++ t) :
    ∃ s1, op.run ss s =
      (if code ≠ 0 then .error (replyError code)
        else if handle ≠ s.counter then .error unexpectedHandle
        else .ok (match op with | .read .. => .data data | _ => .done), s1) ∧
      After (op.started s) (if code = 0 ∧ handle = s.counter then t else data ++ t) s1 := by
  have ho : (op.cmd ss s.counter).onlyStructured = false := by
    cases op <;> first | rfl | exact hop | exact absurd hop id
  obtain ⟨s1, a1, e1⟩ := recvReply_simple (ss := ss) (cmd := op.cmd ss s.counter) (s := op.started s)
    ho hcode hh hs
  have hch : (op.cmd ss s.counter).handle = s.counter := (cmd_shape ss op s.counter).handle
  rw [run_eq hsup hfit, e1, hch]
  by_cases hc : code = 0
  · by_cases hn : handle = s.counter
    · simp only [hc, hn, ne_eq, not_true_eq_false, if_false, and_self, if_true]
      have hl := hlen hc hn
      cases op with
      | read offset buf =>
        obtain ⟨s2, e2, a2⟩ := recv_append (d := data) (t := t) (s := s1) (n := buf.length) a1.rest hl
        refine ⟨s2, ?_, a1.trans a2⟩
        show Op.conv _ ((recv buf.length >>= fun d => pure _) s1) = _
        rw [bind_ok e2]
        rfl
      | status => exact absurd hop id
      | _ =>
        obtain rfl : data = [] := List.length_eq_zero_iff.1 hl
        exact ⟨s1, rfl, a1⟩
    · have hn' : (handle : Int) ≠ s.counter := by omega
      refine ⟨s1, ?_, ?_⟩
      · rw [if_neg (by simpa using hc), if_pos hn', if_neg (by simpa using hc), if_pos hn]
        rfl
      · rw [if_neg (fun h => hn h.2)]
        exact a1
  · refine ⟨s1, ?_, ?_⟩
    · rw [if_pos hc, if_pos hc]
      rfl
    · rw [if_neg (fun h => hc h.1)]
      exact a1

theorem filled_load {disk : Nat → Byte} {offset : Nat} {seen : Nat → Prop} {buf : Bytes}
    (h : Filled disk offset seen buf) (hs : ∀ k, offset ≤ k → k < offset + buf.length → seen k) :
    buf = load disk offset buf.length := by
  apply List.ext_getElem?
  intro i
  by_cases hi : i < buf.length
  · rw [h i hi (hs _ (by omega) (by omega))]
    rw [List.getElem?_eq_getElem (by simpa using hi), load_getElem]
  · rw [List.getElem?_eq_none (by omega), List.getElem?_eq_none (by simpa using hi)]

theorem lookup_append {d d' : List (String × List Ext)} {name : String} :
    (d ++ d').lookup name = (d.lookup name).or (d'.lookup name) := by
  induction d with
  | nil => simp
  | cons x d ih =>
    obtain ⟨k, v⟩ := x
    simp only [List.cons_append, List.lookup_cons]
    cases name == k <;> simp [ih]

theorem lookup_filter_self (d : List (String × List Ext)) (name : String) :
    (d.filter (·.1 ≠ name)).lookup name = none := by
  induction d with
  | nil => rfl
  | cons x d ih =>
    obtain ⟨k, v⟩ := x
    by_cases h : k = name
    · rw [List.filter_cons_of_neg (by simp [h])]
      exact ih
    · rw [List.filter_cons_of_pos (by simp [h]), List.lookup_cons]
      have : (name == k) = false := by simpa using fun h' => h h'.symm
      rw [this]
      exact ih

theorem lookup_filter_ne (d : List (String × List Ext)) {name other : String} (hne : name ≠ other) :
    (d.filter (·.1 ≠ other)).lookup name = d.lookup name := by
  induction d with
  | nil => rfl
  | cons x d ih =>
    obtain ⟨k, v⟩ := x
    by_cases h : k = other
    · rw [List.filter_cons_of_neg (by simp [h]), List.lookup_cons]
      have : (name == k) = false := by simpa [h] using hne
      rw [this]
      exact ih
    · rw [List.filter_cons_of_pos (by simp [h]), List.lookup_cons, List.lookup_cons, ih]

theorem setItem_self (d : List (String × List Ext)) (name : String) (xs : List Ext) :
    (setItem d name xs).lookup name = some xs := by
  rw [setItem, lookup_append, lookup_filter_self]
  simp

theorem setItem_ne (d : List (String × List Ext)) {name other : String} (xs : List Ext) (hne : name ≠ other) :
    (setItem d other xs).lookup name = d.lookup name := by
  rw [setItem, lookup_append, lookup_filter_ne _ hne]
  have : (name == other) = false := by simpa using hne
  simp [List.lookup_cons, this]

/-- A chunk of another context, or of another type. -/
theorem next_status_other (ss : Session) {name : String} {xs : List Ext} {cmd : Cmd} {d : List (String × List Ext)}
    (c : Nat × NbdChunk) (hne : ∀ ctx es, c.2 = .status ctx es → ss.contexts.lookup ctx ≠ some name)
    (hd : cmd.reply = some d) (hx : d.lookup name = some xs) :
    ∃ d', (next ss cmd c).reply = some d' ∧ d'.lookup name = some xs := by
  obtain ⟨f, c⟩ := c
  cases c with
  | status ctx es =>
    simp only [next, apply]
    cases hl : ss.contexts.lookup ctx with
    | none => exact ⟨d, hd, hx⟩
    | some other =>
      simp only
      cases Extents.recvExtents ss.minBlock (contextKind ss other) es with
      | error e => exact ⟨d, hd, hx⟩
      | ok ys =>
        refine ⟨setItem d other ys, by simp [hd], ?_⟩
        rw [setItem_ne _ _ (fun h => hne ctx es rfl (by rw [hl, h]))]
        exact hx
  | _ => exact ⟨d, hd, hx⟩

theorem next_status_some (ss : Session) {cmd : Cmd} (c : Nat × NbdChunk) (hd : cmd.reply.isSome) :
    (next ss cmd c).reply.isSome := by
  obtain ⟨f, c⟩ := c
  cases c with
  | status ctx es =>
    simp only [next, apply]
    cases hl : ss.contexts.lookup ctx with
    | none => exact hd
    | some other =>
      simp only
      cases Extents.recvExtents ss.minBlock (contextKind ss other) es with
      | error e => exact hd
      | ok ys => simpa using hd
  | _ => exact hd

theorem fold_status (ss : Session) {pre post : NbdReply} {flags ctx : Nat} {es : List (Nat × Nat)} {name : String}
    {xs : List Ext} (hname : ss.contexts.lookup ctx = some name)
    (hxs : Extents.recvExtents ss.minBlock (contextKind ss name) es = .ok xs)
    (hlast : ∀ f c e, (f, NbdChunk.status c e) ∈ post → ss.contexts.lookup c ≠ some name)
    {cmd : Cmd} (hd : cmd.reply.isSome) :
    ∃ d, ((pre ++ (flags, .status ctx es) :: post).foldl (next ss) cmd).reply = some d ∧ d.lookup name = some xs := by
  induction pre generalizing cmd with
  | cons c pre ih => exact ih (next_status_some ss c hd)
  | nil =>
    obtain ⟨d, hd⟩ := Option.isSome_iff_exists.1 hd
    have h0 : ∃ d', (next ss cmd (flags, .status ctx es)).reply = some d' ∧ d'.lookup name = some xs :=
      ⟨setItem d name xs, by simp [next, apply, hname, hxs, hd], setItem_self ..⟩
    rw [List.nil_append, List.foldl_cons]
    generalize next ss cmd (flags, .status ctx es) = cmd' at h0
    induction post generalizing cmd' with
    | nil => exact h0
    | cons c post ih =>
      obtain ⟨d', h1, h2⟩ := h0
      refine ih (fun f c' e h => hlast f c' e (by simp [h])) _ (next_status_other ss c ?_ h1 h2)
      intro ctx' es' hc
      exact hlast c.1 ctx' es' (by rw [← hc]; simp)

/-- The dict after the chunks of a reply in which every context is once. -/
theorem fold_reply (ss : Session) (r : NbdReply) (offset length : Nat) {cmd : Cmd} {d : List (String × List Ext)}
    (hl : ∀ c ∈ r, Op.Legal ss (.status offset length) c.2) (hd : cmd.reply = some d)
    (hn : (d.map (·.1) ++ (r.filterMap fun c => statusOf ss c.2).map (·.1)).Nodup) :
    (r.foldl (next ss) cmd).reply = some (d ++ (r.filterMap fun c => statusOf ss c.2).map (decoded ss)) := by
  induction r generalizing cmd d with
  | nil => simpa using hd
  | cons c r ih =>
    obtain ⟨f, c⟩ := c
    have hc := hl (f, c) (by simp)
    have hl' : ∀ c ∈ r, Op.Legal ss (.status offset length) c.2 := fun c h => hl c (by simp [h])
    rw [List.foldl_cons]
    cases c with
    | status ctx es =>
      obtain ⟨-, -, name, xs, h1, h2⟩ := hc
      have hs : statusOf ss (.status ctx es) = some (name, es) := by simp [statusOf, h1]
      have hnext : (next ss cmd (f, .status ctx es)).reply = some (setItem d name xs) := by
        simp [next, apply, h1, h2, hd]
      simp only [List.filterMap_cons, hs, List.map_cons] at hn ⊢
      have hnot : name ∉ d.map (·.1) := by
        rw [List.nodup_append] at hn
        exact fun hx => hn.2.2 name hx name (by simp) rfl
      have hset : setItem d name xs = d ++ [(name, xs)] := by
        unfold setItem
        rw [List.filter_eq_self.2]
        intro a ha
        simp only [ne_eq, decide_not, Bool.not_eq_eq_eq_not, Bool.not_true, decide_eq_false_iff_not]
        rintro rfl
        exact hnot (List.mem_map_of_mem ha)
      rw [ih hl' (hnext.trans (by rw [hset])) (by simpa using hn)]
      simp [decoded, h2, Except.toOption]
    | none => 
      simp only [List.filterMap_cons, statusOf] at hn ⊢
      exact ih hl' (by simpa [next, apply] using hd) hn
    | _ => exact absurd hc id

/-- Every answer gives the result that the caller has to see, and leaves the rest of the stream. -/
theorem run_answers {ss : Session} {op : Op} {s : Conn} {b t : Bytes} {o : Except Err Out}
    (hsup : op.Supported ss) (hfit : (op.request s.counter).Fits) (h : Answers ss s.counter op b o)
    (hs : s.rest = b ++ t) : ∃ s1, op.run ss s = (o, s1) ∧ After (op.started s) t s1 := by
  have hh := fits_handle hfit
  cases h with
  | @read offset buf disk r hst hr =>
    have hne : ¬ ∃ c ∈ r, c.2.IsErrorOffset := by
      rintro ⟨c, hc, he⟩
      have := hr.truthful c hc
      revert he this
      cases c.2 <;> simp [NbdChunk.IsErrorOffset, NbdChunk.Truthful]
    obtain ⟨s1, a1, -, e1⟩ := run_framed hsup hfit hst hr.framed hr.fits (fun c hc => Or.inl (by
      have := hr.truthful c hc
      revert this
      cases c.2 with
      | none => intro _; trivial
      | data o d => exact fun h => ⟨h.1, h.2.1⟩
      | hole o n => exact fun h => ⟨h.1, h.2.1, h.2.2.1⟩
      | _ => exact fun h => absurd h id)) hs
    refine ⟨s1, ?_, a1⟩
    rw [e1 hne]
    obtain ⟨-, -, -, -, buf', hb, hl, hf⟩ := fold_filled ss r (disk := disk) (offset := offset)
      (cmd := Op.cmd ss s.counter (.read offset buf)) (buf := buf) (seen := fun _ => False) rfl rfl rfl
      hr.truthful (fun _ _ h => absurd h id)
    simp only [Op.out, hb, Option.getD_some]
    have := filled_load hf (by
      intro k h1 h2
      exact Or.inr (hr.complete k h1 (by omega)))
    rw [hl] at this
    rw [← this]
  | @readSimple offset buf data hst hd =>
    obtain ⟨s1, e1, a1⟩ := run_simple (t := t) hsup hfit hst (by decide) hh (fun _ _ => hd) hs
    refine ⟨s1, ?_, by simpa using a1⟩
    rw [e1]
    simp
  | @status offset length r hst hr =>
    have hne : ¬ ∃ c ∈ r, c.2.IsErrorOffset := by
      rintro ⟨c, hc, he⟩
      have := hr.legal c hc
      revert he this
      cases c.2 <;> simp [NbdChunk.IsErrorOffset, Op.Legal]
    obtain ⟨s1, a1, -, e1⟩ := run_framed hsup hfit hst hr.framed hr.fits (fun c hc => Or.inl (hr.legal c hc)) hs
    refine ⟨s1, ?_, a1⟩
    rw [e1 hne]
    have := fold_reply ss r offset length (cmd := Op.cmd ss s.counter (.status offset length)) (d := []) hr.legal rfl
      (by simpa using hr.once)
    simp only [Op.out, this, Option.getD_some, List.nil_append]
  | @done _ flags hst hf hd hop =>
    obtain ⟨s1, a1, -, e1⟩ := run_framed (r := [(flags, .none)]) (t := t) hsup hfit hst (.last _ hf hd)
      (by simp [NbdChunk.Fits, NbdChunk.payload]) (by simp [Op.Legal]) (by rw [hs]; simp [NbdReply.wire])
    refine ⟨s1, ?_, a1⟩
    rw [e1 (by simp [NbdChunk.IsErrorOffset])]
    cases op <;> first | rfl | exact absurd hop id
  | doneSimple hop =>
    obtain ⟨s1, e1, a1⟩ := run_simple (t := t) hsup hfit (by cases op <;> first | trivial | exact absurd hop id)
      (by decide) hh (fun _ _ => by cases op <;> first | rfl | exact absurd hop id) hs
    refine ⟨s1, ?_, by simpa using a1⟩
    rw [e1]
    cases op <;> first | simp; done | exact absurd hop id
  | failed r hst hr hfits hin herr =>
    obtain ⟨s1, a1, e1, -⟩ := run_framed hsup hfit hst hr hfits hin hs
    exact ⟨s1, e1 herr, a1⟩
  | error pre hst hpre hf hd hfits =>
    obtain ⟨s1, a1, e1⟩ := run_error hsup hfit hst hpre hf hfits hs
    refine ⟨s1, ?_, a1⟩
    rw [e1, if_pos hd]
  | errorSimple hop hc hlt =>
    obtain ⟨s1, e1, a1⟩ := run_simple (t := t) hsup hfit hop hlt hh (fun h => absurd h hc) hs
    refine ⟨s1, ?_, by simpa using a1⟩
    rw [e1, if_pos hc]

/-- The loop after legal chunks. -/
theorem run_prefix {ss : Session} {op : Op} {s : Conn} {pre : NbdReply} {t : Bytes}
    (hsup : op.Supported ss) (hfit : (op.request s.counter).Fits) (hst : pre ≠ [] → ss.structured = true)
    (hpre : ∀ c ∈ pre, c.1 < 2 ^ 16 ∧ c.1 % 2 = 0 ∧ c.2 ≠ .none ∧ c.2.Fits ∧ (op.Legal ss c.2 ∨ c.2.IsErrorOffset))
    (hs : s.rest = pre.wire s.counter ++ t) :
    ∃ (s1 : Conn) (fuel : Nat) (cmd : Cmd), After (op.started s) t s1 ∧ cmd.handle = (s.counter : Int) ∧
      (cmd.onlyStructured = false → pre = [] ∧ op.MaySimple ss) ∧
      op.run ss s = op.conv (recvReplyLoop ss (fuel + 1) cmd s1) := by
  rw [run_eq hsup hfit]
  by_cases he : pre = []
  · subst he
    refine ⟨op.started s, (op.started s).rest.length, op.cmd ss s.counter, ⟨?_, rfl, rfl⟩,
      (cmd_shape ss op s.counter).handle, fun ho => ⟨rfl, ?_⟩, rfl⟩
    · have : (op.started s).rest = s.rest := rfl
      rw [this, hs]
      rfl
    · cases op with
      | read => exact ho
      | status => simp [Op.cmd, Cmd.blockStatus] at ho
      | _ => trivial
  · unfold recvReply
    have hlen := wire_length s.counter pre
    have hfuel : ∃ fuel, (op.started s).rest.length + 1 = (fuel + 1) + pre.length := by
      refine ⟨(op.started s).rest.length - pre.length, ?_⟩
      have : (op.started s).rest = s.rest := rfl
      rw [this, hs]
      simp only [List.length_append] at hlen ⊢
      omega
    obtain ⟨fuel, hfuel⟩ := hfuel
    rw [hfuel]
    have hacc : ∀ c ∈ pre, Continues ss (op.request s.counter).offset op.len op.st c := fun c hc => by
      obtain ⟨h1, h2, h3, h4, h5⟩ := hpre c hc
      exact ⟨h1, h2, h3, h4, legal_accepts _ h5⟩
    obtain ⟨s1, a1, e1⟩ := loop_prefix (ss := ss) (fuel := fuel + 1) (hst he) (fits_handle hfit) pre
      (cmd := op.cmd ss s.counter) (t := t) (s := op.started s) (cmd_shape ss op s.counter) hacc hs
    refine ⟨s1, fuel, _, a1, (fold_shape pre (cmd_shape ss op s.counter) fun x hx => (hacc x hx).2.2.2.2).handle, ?_,
      by rw [e1]⟩
    intro ho
    exfalso
    obtain ⟨pre', c, rfl⟩ : ∃ pre' c, pre = pre' ++ [c] := ⟨pre.dropLast, pre.getLast he, (List.dropLast_concat_getLast he).symm⟩
    rw [List.foldl_append, List.foldl_cons, List.foldl_nil] at ho
    revert ho
    obtain ⟨f, c⟩ := c
    cases c with
    | status ctx es =>
      simp only [next, apply]
      cases ss.contexts.lookup ctx with
      | none => simp
      | some name =>
        simp only
        cases Extents.recvExtents ss.minBlock (contextKind ss name) es <;> simp
    | _ => simp [next, apply]

/-- The header of a chunk, with any values. -/
theorem run_header {ss : Session} {op : Op} {s : Conn} {pre : NbdReply} {flags type handle length : Nat} {t : Bytes}
    (hsup : op.Supported ss) (hfit : (op.request s.counter).Fits) (hst : ss.structured = true)
    (hpre : ∀ c ∈ pre, c.1 < 2 ^ 16 ∧ c.1 % 2 = 0 ∧ c.2 ≠ .none ∧ c.2.Fits ∧ (op.Legal ss c.2 ∨ c.2.IsErrorOffset))
    (hf : flags < 2 ^ 16) (ht : type < 2 ^ 16) (hh : handle < 2 ^ 64) (hl : length < 2 ^ 32)
    (hs : s.rest = pre.wire s.counter ++ (be 4 0x668e33ef ++ be 2 flags ++ be 2 type ++ be 8 handle ++
      be 4 length ++ t)) :
    ∃ a, (op.run ss s).1 =
      if handle ≠ s.counter then .error unexpectedHandle
      else if type = 32769 then a
      else if type ≠ 0 ∧ type ≠ 1 ∧ type ≠ 2 ∧ type ≠ 5 ∧ type ≠ 32770 then .error protocolError
      else a := by
  obtain ⟨s1, fuel, cmd, a1, hc, -, e1⟩ := run_prefix hsup hfit (fun _ => hst) hpre hs
  obtain ⟨s2, a2, e2⟩ := loop_magic (ss := ss) (cmd := cmd) (fuel := fuel) (m := structuredReplyMagic)
    (t := be 2 flags ++ be 2 type ++ be 8 handle ++ be 4 length ++ t) (s := s1) (by decide)
    (by rw [a1.rest]; simp only [structuredReplyMagic, List.append_assoc])
  rw [if_neg (by decide), if_pos rfl, if_neg (by simp [hst])] at e2
  obtain ⟨s3, e3, a3⟩ := recv_append
    (d := be 2 flags ++ be 2 type ++ be 8 handle ++ be 4 length) (t := t) (s := s2)
    (n := 16) (by rw [a2.rest]) (by simp [be_length])
  obtain ⟨f1, f2, f3, f4⟩ := header_fields hf ht hh hl
  refine ⟨(op.run ss s).1, ?_⟩
  split
  next hn =>
    have hn' : (handle : Int) ≠ cmd.handle := by omega
    rw [e1, e2, recvReplyChunk]
    rw [bind_error (e := unexpectedHandle) (s' := s3)]
    · rfl
    · rw [bind_ok e3]
      simp only [f1, f2, f3, f4]
      rw [if_pos hn']
      rfl
  next hn =>
    have hn' : ¬ (handle : Int) ≠ cmd.handle := by omega
    split
    · rfl
    next h6 =>
      split
      next ht =>
        obtain ⟨t0, t1, t2, t5, t7⟩ := ht
        rw [e1, e2, recvReplyChunk]
        rw [bind_error (e := protocolError) (s' := s3)]
        · rfl
        · rw [bind_ok e3]
          simp only [f1, f2, f3, f4]
          rw [if_neg hn', if_neg h6, if_neg t7, if_neg t0, if_neg t1, if_neg t2, if_neg t5]
          rfl
      · rfl

/-- A chunk whose content is refused when `rest` of the connection is left. -/
theorem run_refused {ss : Session} {op : Op} {s : Conn} {pre : NbdReply} {flags type length : Nat} {t rest : Bytes} {e : Err}
    (hsup : op.Supported ss) (hfit : (op.request s.counter).Fits) (hst : ss.structured = true)
    (hpre : ∀ c ∈ pre, c.1 < 2 ^ 16 ∧ c.1 % 2 = 0 ∧ c.2 ≠ .none ∧ c.2.Fits ∧ (op.Legal ss c.2 ∨ c.2.IsErrorOffset))
    (hf : flags < 2 ^ 16) (ht : type < 2 ^ 16) (hl : length < 2 ^ 32)
    (hs : s.rest = pre.wire s.counter ++ (be 4 0x668e33ef ++ be 2 flags ++ be 2 type ++ be 8 s.counter ++
      be 4 length ++ t))
    (hty : type = 0 ∨ type = 2 ∨ type = 5)
    (hbad : ∀ (cmd : Cmd) (s1 : Conn), s1.rest = t → ∃ s2, s2.rest = rest ∧
      (if type = 0 then handleNoneChunk flags length cmd
        else if type = 2 then handleHoleChunk length cmd else handleBlockStatusChunk ss length cmd) s1 = (.error e, s2)) :
    (op.run ss s).1 = .error e ∧ (op.run ss s).2.rest = rest := by
  obtain ⟨s1, fuel, cmd, a1, hc, -, e1⟩ := run_prefix hsup hfit (fun _ => hst) hpre hs
  obtain ⟨s2, a2, e2⟩ := loop_magic (ss := ss) (cmd := cmd) (fuel := fuel) (m := structuredReplyMagic)
    (t := be 2 flags ++ be 2 type ++ be 8 s.counter ++ be 4 length ++ t) (s := s1) (by decide)
    (by rw [a1.rest]; simp only [structuredReplyMagic, List.append_assoc])
  rw [if_neg (by decide), if_pos rfl, if_neg (by simp [hst])] at e2
  obtain ⟨s3, e3, a3⟩ := recv_append
    (d := be 2 flags ++ be 2 type ++ be 8 s.counter ++ be 4 length) (t := t) (s := s2)
    (n := 16) (by rw [a2.rest]) (by simp [be_length])
  obtain ⟨f1, f2, f3, f4⟩ := header_fields hf ht (fits_handle hfit) hl
  obtain ⟨s4, h4, h5⟩ := hbad { cmd with onlyStructured := true } s3 a3.rest
  have hn' : ¬ ((s.counter : Nat) : Int) ≠ cmd.handle := by omega
  have key : op.run ss s = op.conv (.error e, s4) := by
    rw [e1, e2, recvReplyChunk, bind_error (e := e) (s' := s4)]
    rw [bind_ok e3]
    simp only [f1, f2, f3, f4]
    rw [if_neg hn', if_neg (by omega)]
    rcases hty with rfl | rfl | rfl
    · exact bind_error h5
    · exact bind_error h5
    · exact bind_error h5
  rw [key]
  exact ⟨by rfl, h4⟩

theorem run_magic {ss : Session} {op : Op} {pre : NbdReply} {magic : Nat} {s : Conn} {t : Bytes}
    (hsup : op.Supported ss) (hfit : (op.request s.counter).Fits)
    (hst : pre ≠ [] → ss.structured = true)
    (hpre : ∀ c ∈ pre, c.1 < 2 ^ 16 ∧ c.1 % 2 = 0 ∧ c.2 ≠ .none ∧ c.2.Fits ∧ (op.Legal ss c.2 ∨ c.2.IsErrorOffset))
    (hm : magic < 2 ^ 32)
    (hbad : (magic = 0x67446698 → pre ≠ [] ∨ ¬ op.MaySimple ss) ∧ (magic = 0x668e33ef → ss.structured = false))
    (hs : s.rest = pre.wire s.counter ++ (be 4 magic ++ t)) :
    (op.run ss s).1 = .error protocolError := by
  obtain ⟨s1, fuel, cmd, a1, hc, ho, e1⟩ := run_prefix hsup hfit hst hpre hs
  obtain ⟨s2, a2, e2⟩ := loop_magic (ss := ss) (cmd := cmd) (fuel := fuel) hm a1.rest
  rw [e1, e2]
  by_cases h1 : magic = simpleReplyMagic
  · rw [if_pos h1, if_pos]
    · rfl
    · rcases Bool.eq_false_or_eq_true cmd.onlyStructured with h | h
      · exact h
      · exfalso
        obtain ⟨h2, h3⟩ := ho h
        rcases hbad.1 h1 with h4 | h4
        · exact h4 h2
        · exact h4 h3
  · rw [if_neg h1]
    by_cases h2 : magic = structuredReplyMagic
    · rw [if_pos h2, if_pos (by simp [hbad.2 h2])]
      rfl
    · rw [if_neg h2]
      rfl

theorem conv_ok {op : Op} {x : Except Err Cmd × Conn} {a : Out} {s : Conn} (h : op.conv x = (.ok a, s)) :
    ∃ c, x = (.ok c, s) ∧ op.out c = a := by
  obtain ⟨r, t⟩ := x
  cases r with
  | error e => simp [Op.conv] at h
  | ok c =>
    simp only [Op.conv, Prod.mk.injEq, Except.ok.injEq] at h
    exact ⟨c, by rw [h.2], h.1⟩

theorem conv_error {op : Op} {x : Except Err Cmd × Conn} {e : Err} {s : Conn} (h : op.conv x = (.error e, s)) :
    x = (.error e, s) := by
  obtain ⟨r, t⟩ := x
  cases r with
  | ok c => simp [Op.conv] at h
  | error e' =>
    simp only [Op.conv, Prod.mk.injEq, Except.error.injEq] at h
    rw [h.1, h.2]

/-- A request that did not reach the end of the stream does the same when the stream is longer. -/
theorem run_mono_any {ss : Session} {op : Op} {s s1 : Conn} {o : Except Err Out} (hsup : op.Supported ss)
    (hfit : (op.request s.counter).Fits) (h : op.run ss s = (o, s1))
    (ho : (∃ a, o = .ok a) ∨ (s1.rest ≠ [] ∧ o ≠ .error .stuck)) (more : Bytes) (f : List Nat) :
    ∃ f', op.run ss { s with rest := s.rest ++ more, frags := f } =
      (o, { s1 with rest := s1.rest ++ more, frags := f' }) := by
  rw [run_eq hsup hfit] at h
  rw [run_eq (s := { s with rest := s.rest ++ more, frags := f }) hsup hfit]
  have e : Op.started op { s with rest := s.rest ++ more, frags := f } =
    { op.started s with rest := (op.started s).rest ++ more, frags := f } := rfl
  rw [e]
  cases o with
  | ok a =>
    obtain ⟨c, hr, rfl⟩ := conv_ok h
    obtain ⟨f', e'⟩ := mono_recvReply ss _ _ _ _ hr (.inl ⟨c, rfl⟩) more f
    refine ⟨f', ?_⟩
    rw [e']
    rfl
  | error x =>
    have hr := conv_error h
    obtain ⟨f', e'⟩ := mono_recvReply ss _ _ _ _ hr (by
      rcases ho with ⟨a, ha⟩ | ⟨h1, h2⟩
      · cases ha
      · exact .inr ⟨h1, fun hx => h2 (by cases hx; rfl)⟩) more f
    refine ⟨f', ?_⟩
    rw [e']
    rfl

/-- A successful request does the same when the stream is longer. -/
theorem run_mono {ss : Session} {op : Op} {s s1 : Conn} {a : Out} (hsup : op.Supported ss)
    (hfit : (op.request s.counter).Fits) (h : op.run ss s = (.ok a, s1)) (more : Bytes) (f : List Nat) :
    ∃ f', op.run ss { s with rest := s.rest ++ more, frags := f } =
      (.ok a, { s1 with rest := s1.rest ++ more, frags := f' }) :=
  run_mono_any hsup hfit h (.inl ⟨a, rfl⟩) more f

/-- The errors of a request are exceptions. -/
theorem run_external {ss : Session} {op : Op} {s s1 : Conn} {e : Err} (hsup : op.Supported ss)
    (hfit : (op.request s.counter).Fits) (h : op.run ss s = (.error e, s1)) : External e := by
  rw [run_eq hsup hfit] at h
  have hr := conv_error h
  obtain ⟨-, -, -, h4⟩ := tame_recvReply ss _ (op.cmd ss s.counter) (op.started s) (Nat.le_refl _)
  exact h4 e (by rw [hr])

/-- What a request sends. -/
theorem run_sent {ss : Session} {op : Op} {s : Conn} (hsup : op.Supported ss) (hfit : (op.request s.counter).Fits) :
    (op.run ss s).2.sent = s.sent ++ ((op.request s.counter).wire ++ op.payload) ∧
      (op.run ss s).2.counter = s.counter + 1 ∧ (op.run ss s).2.rest.length ≤ s.rest.length := by
  rw [run_eq hsup hfit]
  obtain ⟨h1, h2, h3, -⟩ := tame_recvReply ss _ (op.cmd ss s.counter) (op.started s) (Nat.le_refl _)
  rw [← List.append_assoc]
  generalize recvReply ss _ _ = y at h1 h2 h3 ⊢
  obtain ⟨r, s1⟩ := y
  cases r <;> exact ⟨h1, h2, h3⟩

/-- A part of an answer makes the request fail, and nothing of it is left. -/
theorem run_truncated {ss : Session} {op : Op} {s : Conn} {b more : Bytes} {o : Except Err Out}
    (hsup : op.Supported ss) (hfit : (op.request s.counter).Fits) (h : Answers ss s.counter op (b ++ more) o)
    (hm : more ≠ []) (hs : s.rest = b) : ∃ e s1, op.run ss s = (.error e, s1) ∧ s1.rest = [] := by
  cases hr : op.run ss s with
  | mk r s1 =>
    by_cases hx : (∃ a, r = .ok a) ∨ (s1.rest ≠ [] ∧ r ≠ .error .stuck)
    · exfalso
      obtain ⟨f', e'⟩ := run_mono_any hsup hfit hr hx more []
      obtain ⟨s2, e2, a2⟩ := run_answers (t := [])
        (s := { s with rest := s.rest ++ more, frags := [] }) hsup hfit h (by simp [hs])
      rw [e'] at e2
      simp only [Prod.mk.injEq] at e2
      have := a2.rest
      rw [← e2.2] at this
      simp only [List.append_eq_nil_iff] at this
      exact hm this.2
    · cases r with
      | ok a => exact absurd (.inl ⟨a, rfl⟩) hx
      | error e =>
        refine ⟨e, s1, rfl, ?_⟩
        by_cases hn : s1.rest = []
        · exact hn
        · refine absurd (.inr ⟨hn, ?_⟩) hx
          rintro he
          cases he
          exact run_external hsup hfit hr

end Imageio.Nbd
