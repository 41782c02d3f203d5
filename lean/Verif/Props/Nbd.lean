import Verif.Lemmas.NbdOps
/-!
C25, C26, C27: the requests and the replies of the NBD client, and the bytes of the extents (C20).
-/
namespace Imageio.Props
open Imageio.Spec Imageio.Extents Imageio.Nbd

/-! ## C25: requests -/

/-- C25: a command is encoded exactly when every value fits, and the bytes are the request of the
protocol with these values. -/
theorem C25_encoding (c : Cmd) (b : Bytes) : c.toBytes = .ok b ↔
    ∃ r : NbdRequest, r.Fits ∧ c.flags = r.flags ∧ c.type = r.type ∧ c.handle = r.handle ∧
      c.offset = r.offset ∧ c.length = r.length ∧ b = r.wire := toBytes_ok

/-- C25: 28 bytes. -/
theorem C25_length (r : NbdRequest) : r.wire.length = 28 := by
  simp only [NbdRequest.wire, List.length_append, be_length]

/-- C25: a peer can decode the request: two requests with the same bytes are the same. -/
theorem C25_decodable {r r' : NbdRequest} (h : r.Fits) (h' : r'.Fits) (e : r.wire = r'.wire) : r = r' := by
  obtain ⟨a1, a2, a3, a4, a5⟩ := request_fields h
  obtain ⟨b1, b2, b3, b4, b5⟩ := request_fields h'
  rw [e] at a1 a2 a3 a4 a5
  obtain ⟨x1, x2, x3, x4, x5⟩ := r
  obtain ⟨y1, y2, y3, y4, y5⟩ := r'
  simp only at *
  rw [← a1, ← a2, ← a3, ← a4, ← a5, b1, b2, b3, b4, b5]

/-- C25: the layout of the request. -/
theorem C25_layout (r : NbdRequest) :
    r.wire.take 4 = [0x25, 0x60, 0x95, 0x13] ∧ (r.wire.drop 4).take 2 = be 2 r.flags ∧
    (r.wire.drop 6).take 2 = be 2 r.type ∧ (r.wire.drop 8).take 8 = be 8 r.handle ∧
    (r.wire.drop 16).take 8 = be 8 r.offset ∧ r.wire.drop 24 = be 4 r.length := by
  have e : r.wire = be 4 0x25609513 ++ (be 2 r.flags ++ (be 2 r.type ++ (be 8 r.handle ++
    (be 8 r.offset ++ be 4 r.length)))) := by
    simp only [NbdRequest.wire, List.append_assoc]
  have d4 : r.wire.drop 4 = be 2 r.flags ++ (be 2 r.type ++ (be 8 r.handle ++ (be 8 r.offset ++ be 4 r.length))) := by
    rw [e, List.drop_left' (be_length ..)]
  have d6 : r.wire.drop 6 = be 2 r.type ++ (be 8 r.handle ++ (be 8 r.offset ++ be 4 r.length)) := by
    rw [show 6 = 4 + 2 from rfl, ← List.drop_drop, d4, List.drop_left' (be_length ..)]
  have d8 : r.wire.drop 8 = be 8 r.handle ++ (be 8 r.offset ++ be 4 r.length) := by
    rw [show 8 = 6 + 2 from rfl, ← List.drop_drop, d6, List.drop_left' (be_length ..)]
  have d16 : r.wire.drop 16 = be 8 r.offset ++ be 4 r.length := by
    rw [show 16 = 8 + 8 from rfl, ← List.drop_drop, d8, List.drop_left' (be_length ..)]
  have d24 : r.wire.drop 24 = be 4 r.length := by
    rw [show 24 = 16 + 8 from rfl, ← List.drop_drop, d16, List.drop_left' (be_length ..)]
  refine ⟨?_, ?_, ?_, ?_, ?_, d24⟩
  · rw [e, List.take_left' (be_length ..)]; decide
  · rw [d4, List.take_left' (be_length ..)]
  · rw [d6, List.take_left' (be_length ..)]
  · rw [d8, List.take_left' (be_length ..)]
  · rw [d16, List.take_left' (be_length ..)]

/-- C25: a value that does not fit is refused, and nothing is sent. -/
theorem C25_refused (c : Cmd) (s : Conn)
    (h : ¬ (0 ≤ c.flags ∧ c.flags < 2 ^ 16 ∧ 0 ≤ c.type ∧ c.type < 2 ^ 16 ∧ 0 ≤ c.handle ∧ c.handle < 2 ^ 64 ∧
      0 ≤ c.offset ∧ c.offset < 2 ^ 64 ∧ 0 ≤ c.length ∧ c.length < 2 ^ 32)) :
    sendCommand c s = (.error structError, s) := by
  unfold sendCommand
  cases hb : c.toBytes with
  | error e => rw [toBytes_error hb]; rfl
  | ok b =>
    obtain ⟨r, ⟨f1, f2, f3, f4, f5⟩, e1, e2, e3, e4, e5, -⟩ := toBytes_ok.1 hb
    exact absurd (by omega) h

/-- C25: what a request sends, whatever the server sends: the request with the next handle, and the
data of a write. -/
theorem C25_sent (ss : Session) (op : Op) (s : Conn) (hsup : op.Supported ss) (hfit : (op.request s.counter).Fits) :
    (op.run ss s).2.sent = s.sent ++ (op.request s.counter).wire ++ op.payload ∧
      (op.run ss s).2.counter = s.counter + 1 := by
  rw [run_eq hsup hfit]
  obtain ⟨h1, h2, -, -⟩ := tame_recvReply ss _ (op.cmd ss s.counter) (op.started s) (Nat.le_refl _)
  generalize recvReply ss _ _ = y at h1 h2 ⊢
  obtain ⟨r, s1⟩ := y
  cases r <;> exact ⟨h1, h2⟩

/-- C25: a request that does not fit is refused before anything is sent. -/
theorem C25_not_sent (ss : Session) (op : Op) (s : Conn) (hsup : op.Supported ss)
    (hfit : ¬ (op.request s.counter).Fits) :
    (op.run ss s).1 = .error structError ∧ (op.run ss s).2.sent = s.sent ∧ (op.run ss s).2.rest = s.rest := by
  have h : sendCommand (op.cmd ss s.counter) { s with counter := s.counter + 1 } =
      (.error structError, { s with counter := s.counter + 1 }) := by
    apply C25_refused
    intro hf
    refine hfit ?_
    have a1 : (op.cmd ss s.counter).flags = (op.request s.counter).flags := by
      cases op with
      | zero _ _ p => cases p <;> rfl
      | _ => rfl
    have a2 : (op.cmd ss s.counter).type = (op.request s.counter).type := by cases op <;> rfl
    have a3 : (op.cmd ss s.counter).handle = (op.request s.counter).handle := by cases op <;> rfl
    have a4 : (op.cmd ss s.counter).offset = (op.request s.counter).offset := by cases op <;> rfl
    have a5 : (op.cmd ss s.counter).length = (op.request s.counter).length := by cases op <;> rfl
    rw [a1, a2, a3, a4, a5] at hf
    exact ⟨by omega, by omega, by omega, by omega, by omega⟩
  have e : op.run ss s = (.error structError, { s with counter := s.counter + 1 }) := by
    rw [run_def hsup]
    unfold exchange
    refine (bind_ok (nextHandle_run s)).trans ?_
    exact bind_error h
  rw [e]
  exact ⟨rfl, rfl, rfl⟩

/-- C25: negative values of the caller are refused, and nothing is sent. -/
theorem C25_negative (ss : Session) (offset : Int) (data : Bytes) (s : Conn) (h : offset < 0) :
    (readinto ss offset data s).1 = .error structError ∧ (readinto ss offset data s).2.sent = s.sent ∧
    (write ss offset data s).1 = .error structError ∧ (write ss offset data s).2.sent = s.sent := by
  have e1 : readinto ss offset data s = (.error structError, { s with counter := s.counter + 1 }) := by
    rw [readinto_def]
    unfold exchange
    refine (bind_ok (nextHandle_run s)).trans ?_
    exact bind_error (C25_refused _ _ (fun hf => by
      have hx := hf.2.2.2.2.2.2.1
      simp only [Cmd.read] at hx
      omega))
  have e2 : write ss offset data s = (.error structError, { s with counter := s.counter + 1 }) := by
    rw [write_def]
    unfold exchange
    refine (bind_ok (nextHandle_run s)).trans ?_
    exact bind_error (C25_refused _ _ (fun hf => by
      have hx := hf.2.2.2.2.2.2.1
      simp only [Cmd.write] at hx
      omega))
  rw [e1, e2]
  exact ⟨rfl, rfl, rfl, rfl⟩

/-- C25: without NBD_FLAG_SEND_WRITE_ZEROES zero is refused, and without NBD_FLAG_SEND_FLUSH flush does
nothing. -/
theorem C25_unsupported (ss : Session) (offset length : Nat) (p : Bool) (s : Conn) :
    (ss.transmissionFlags.testBit 6 = false →
      Op.run ss (.zero offset length p) s = (.error unsupportedRequest, s)) ∧
    (ss.transmissionFlags.testBit 2 = false → Op.run ss .flush s = (.ok .done, s)) := by
  constructor
  · intro h
    have h' : ss.transmissionFlags / 64 % 2 = 0 := by
      have : ¬ ss.transmissionFlags / 64 % 2 = 1 := fun hx => by rw [(bit6 _).2 hx] at h; cases h
      omega
    simp only [Op.run, Nbd.zero]
    rw [if_pos h']
    rfl
  · intro h
    have h' : ss.transmissionFlags / 4 % 2 = 0 := by
      have : ¬ ss.transmissionFlags / 4 % 2 = 1 := fun hx => by rw [(bit2 _).2 hx] at h; cases h
      omega
    simp only [Op.run, Nbd.flush]
    rw [if_pos h']
    rfl

/-- C25: the last request of a session is NBD_CMD_DISC, and no reply is expected. -/
theorem C25_disconnect (s : Conn) (h : s.counter < 2 ^ 64) :
    disconnect s = (.ok (), { s with
      sent := s.sent ++ NbdRequest.wire ⟨0, 2, s.counter, 0, 0⟩, counter := s.counter + 1 }) := by
  unfold disconnect
  refine (bind_ok (nextHandle_run s)).trans ?_
  exact sendCommand_fits (c := Cmd.disc s.counter) (r := ⟨0, 2, s.counter, 0, 0⟩)
    ⟨show 0 < _ by decide, show 2 < _ by decide, h, show 0 < _ by decide, show 0 < _ by decide⟩ rfl rfl rfl rfl rfl _

/-- C25: the bytes of a session, for every list of requests and everything the server sends: the
requests with consecutive handles, so that no two requests have the same handle. -/
theorem C25_session (ss : Session) (ops : List Op) (s : Conn) (hsup : ∀ op ∈ ops, op.Supported ss)
    (hfit : ∀ i (h : i < ops.length), (ops[i].request (s.counter + i)).Fits) :
    (runAll ss ops s).2.sent = s.sent ++
      (ops.zipIdx s.counter).flatMap (fun x => (x.1.request x.2).wire ++ x.1.payload) ∧
    (runAll ss ops s).2.counter = s.counter + ops.length := by
  induction ops generalizing s with
  | nil => simp [runAll]
  | cons op ops ih =>
    obtain ⟨h1, h2⟩ := C25_sent ss op s (hsup op (by simp)) (hfit 0 (by simp))
    obtain ⟨i1, i2⟩ := ih (op.run ss s).2 (fun o ho => hsup o (by simp [ho])) (by
      intro i hi
      have := hfit (i + 1) (by simpa using hi)
      rw [h2]
      simpa [Nat.add_assoc, Nat.add_comm 1 i] using this)
    simp only [runAll]
    rw [i1, i2, h1, h2]
    constructor
    · simp [List.zipIdx_cons, List.append_assoc]
    · simp only [List.length_cons]; omega

/-! ## C26: reads -/

/-- C26: every legal structured reply to a read fills the buffer with the content of the range: any
chunks in any order, any split of the stream to packets (`s.frags`), any bytes after the reply. -/
theorem C26_read (ss : Session) (disk : Nat → Byte) (offset : Nat) (buf : Bytes) (r : NbdReply) (s : Conn) (t : Bytes)
    (hst : ss.structured = true) (ho : offset < 2 ^ 64) (hb : buf.length < 2 ^ 32) (hc : s.counter < 2 ^ 64)
    (hr : r.IsRead disk offset buf.length) (hs : s.rest = r.wire s.counter ++ t) :
    ∃ s', readinto ss offset buf s = (.ok (load disk offset buf.length), s') ∧ s'.rest = t := by
  obtain ⟨s1, e1, a1⟩ := run_answers (op := .read offset buf) (s := s) trivial
    ⟨show 0 < _ by decide, show 0 < _ by decide, hc, ho, hb⟩ (.read disk r hst hr) hs
  rw [Op.run, Nbd.bind_map] at e1
  cases h : readinto ss offset buf s with
  | mk res s2 =>
    rw [h] at e1
    cases res with
    | error e => simp at e1
    | ok d =>
      simp only [Prod.mk.injEq, Except.ok.injEq, Out.data.injEq] at e1
      obtain ⟨rfl, rfl⟩ := e1
      exact ⟨_, rfl, a1.rest⟩

/-- C26: a simple reply fills the buffer. -/
theorem C26_simple (ss : Session) (offset : Nat) (buf data : Bytes) (s : Conn) (t : Bytes)
    (hst : ss.structured = false) (ho : offset < 2 ^ 64) (hb : buf.length < 2 ^ 32) (hc : s.counter < 2 ^ 64)
    (hd : data.length = buf.length) (hs : s.rest = simpleReply s.counter 0 data ++ t) :
    ∃ s', readinto ss offset buf s = (.ok data, s') ∧ s'.rest = t := by
  obtain ⟨s1, e1, a1⟩ := run_answers (op := .read offset buf) (s := s) trivial
    ⟨show 0 < _ by decide, show 0 < _ by decide, hc, ho, hb⟩ (.readSimple hst hd) hs
  rw [Op.run, Nbd.bind_map] at e1
  cases h : readinto ss offset buf s with
  | mk res s2 =>
    rw [h] at e1
    cases res with
    | error e => simp at e1
    | ok d =>
      simp only [Prod.mk.injEq, Except.ok.injEq, Out.data.injEq] at e1
      obtain ⟨rfl, rfl⟩ := e1
      exact ⟨_, rfl, a1.rest⟩

/-! ## C27: errors -/

/-- C27: a session.  Every request gets the result of its own answer, whatever the results of the
requests before it: after an error the stream is at the next reply. -/
theorem C27_session {ss : Session} {ops : List Op} {b t : Bytes} {os : List (Except Err Out)} {s : Conn}
    (h : AnswersAll ss s.counter ops b os) (hs : s.rest = b ++ t) :
    (runAll ss ops s).1 = os ∧ (runAll ss ops s).2.rest = t := by
  generalize hc : s.counter = c at h
  induction h generalizing s with
  | nil => exact ⟨rfl, by rw [runAll]; simpa using hs⟩
  | @cons handle op ops b bs o os hsup hfit h _ ih =>
    subst hc
    obtain ⟨s1, e1, a1⟩ := run_answers (t := bs ++ t) hsup hfit h (by rw [hs, List.append_assoc])
    obtain ⟨i1, i2⟩ := ih (s := s1) a1.rest (by rw [a1.counter]; rfl)
    simp only [runAll, e1]
    rw [i1]
    exact ⟨rfl, i2⟩

/-- C27: an error chunk for a part of the range fails the request, and the stream is at the next
reply. -/
theorem C27_error_offset (ss : Session) (op : Op) (r : NbdReply) (s : Conn) (t : Bytes) (hsup : op.Supported ss)
    (hfit : (op.request s.counter).Fits) (hst : ss.structured = true) (hr : r.Framed) (hfits : ∀ c ∈ r, c.2.Fits)
    (hin : ∀ c ∈ r, op.Legal ss c.2 ∨ c.2.IsErrorOffset) (herr : ∃ c ∈ r, c.2.IsErrorOffset)
    (hs : s.rest = r.wire s.counter ++ t) :
    (op.run ss s).1 = .error requestError ∧ (op.run ss s).2.rest = t := by
  obtain ⟨s1, e1, a1⟩ := run_answers hsup hfit (.failed r hst hr hfits hin herr) hs
  rw [e1]
  exact ⟨rfl, a1.rest⟩

/-- C27: an error chunk that ends the reply fails the request with the code of the server, and the
stream is at the next reply. -/
theorem C27_error_chunk (ss : Session) (op : Op) (pre : NbdReply) (flags code : Nat) (msg : Bytes) (s : Conn)
    (t : Bytes) (hsup : op.Supported ss) (hfit : (op.request s.counter).Fits) (hst : ss.structured = true)
    (hpre : ∀ c ∈ pre, c.1 < 2 ^ 16 ∧ c.1 % 2 = 0 ∧ c.2 ≠ .none ∧ c.2.Fits ∧ (op.Legal ss c.2 ∨ c.2.IsErrorOffset))
    (hf : flags < 2 ^ 16) (hfits : (NbdChunk.error code msg).Fits)
    (hs : s.rest = NbdReply.wire s.counter (pre ++ [(flags, .error code msg)]) ++ t) :
    (op.run ss s).1 = .error (if flags % 2 = 1 then replyError code else protocolError) ∧
      (op.run ss s).2.rest = t := by
  obtain ⟨s1, a1, e1⟩ := run_error hsup hfit hst hpre hf hfits hs
  rw [e1]
  exact ⟨rfl, a1.rest⟩

/-- C27: an error in a simple reply, or a simple reply with another handle. -/
theorem C27_simple (ss : Session) (op : Op) (handle code : Nat) (data t : Bytes) (s : Conn) (hsup : op.Supported ss)
    (hfit : (op.request s.counter).Fits) (hop : op.MaySimple ss) (hcode : code < 2 ^ 32) (hh : handle < 2 ^ 64)
    (h : code ≠ 0 ∨ handle ≠ s.counter) (hs : s.rest = simpleReply handle code data ++ t) :
    (op.run ss s).1 = .error (if code ≠ 0 then replyError code else unexpectedHandle) ∧
      (op.run ss s).2.rest = data ++ t := by
  obtain ⟨s1, e1, a1⟩ := run_simple (t := t) hsup hfit hop hcode hh (fun h1 h2 => by
    rcases h with h | h
    · exact absurd h1 h
    · exact absurd h2 h) hs
  rw [e1]
  refine ⟨?_, ?_⟩
  · by_cases hc : code = 0
    · rw [if_neg (by simpa using hc), if_pos (h.resolve_left (by simpa using hc)), if_neg (by simpa using hc)]
    · rw [if_pos hc, if_pos hc]
  · rw [a1.rest, if_neg]
    rintro ⟨h1, h2⟩
    rcases h with h | h
    · exact h h1
    · exact h h2

/-- C27: a chunk with another handle is refused, whatever its type and its content, also after legal
chunks. -/
theorem C27_handle (ss : Session) (op : Op) (pre : NbdReply) (flags type handle length : Nat) (s : Conn) (t : Bytes)
    (hsup : op.Supported ss) (hfit : (op.request s.counter).Fits) (hst : ss.structured = true)
    (hpre : ∀ c ∈ pre, c.1 < 2 ^ 16 ∧ c.1 % 2 = 0 ∧ c.2 ≠ .none ∧ c.2.Fits ∧ (op.Legal ss c.2 ∨ c.2.IsErrorOffset))
    (hf : flags < 2 ^ 16) (ht : type < 2 ^ 16) (hh : handle < 2 ^ 64) (hl : length < 2 ^ 32)
    (hne : handle ≠ s.counter)
    (hs : s.rest = pre.wire s.counter ++ (be 4 0x668e33ef ++ be 2 flags ++ be 2 type ++ be 8 handle ++
      be 4 length ++ t)) :
    (op.run ss s).1 = .error unexpectedHandle := by
  obtain ⟨s1, e1⟩ := run_header hsup hfit hst hpre hf ht hh hl hs
  rw [e1, if_pos hne]

/-- C27: a chunk of an unknown type is refused. -/
theorem C27_type (ss : Session) (op : Op) (pre : NbdReply) (flags type length : Nat) (s : Conn) (t : Bytes)
    (hsup : op.Supported ss) (hfit : (op.request s.counter).Fits) (hst : ss.structured = true)
    (hpre : ∀ c ∈ pre, c.1 < 2 ^ 16 ∧ c.1 % 2 = 0 ∧ c.2 ≠ .none ∧ c.2.Fits ∧ (op.Legal ss c.2 ∨ c.2.IsErrorOffset))
    (hf : flags < 2 ^ 16) (ht : type < 2 ^ 16) (hl : length < 2 ^ 32)
    (hty : type ∉ [0, 1, 2, 5, 2 ^ 15 + 1, 2 ^ 15 + 2])
    (hs : s.rest = pre.wire s.counter ++ (be 4 0x668e33ef ++ be 2 flags ++ be 2 type ++ be 8 s.counter ++
      be 4 length ++ t)) :
    (op.run ss s).1 = .error protocolError := by
  obtain ⟨s1, e1⟩ := run_header hsup hfit hst hpre hf ht (fits_handle hfit) hl hs
  simp only [List.mem_cons, List.not_mem_nil, or_false, not_or] at hty
  obtain ⟨h0, h1, h2, h5, h6, h7⟩ := hty
  rw [e1, if_neg (by simp), if_neg (by omega), if_pos ⟨h0, h1, h2, h5, by omega⟩]

/-- C27: a chunk with a length that its type cannot have is refused, and nothing of its content is received: an empty chunk
with content, or that is not the last one, a hole that is not 12 bytes, and extents that are no list of one to 1048575
extents. -/
theorem C27_length (ss : Session) (op : Op) (pre : NbdReply) (flags type length : Nat) (s : Conn) (t : Bytes)
    (hsup : op.Supported ss) (hfit : (op.request s.counter).Fits) (hst : ss.structured = true)
    (hpre : ∀ c ∈ pre, c.1 < 2 ^ 16 ∧ c.1 % 2 = 0 ∧ c.2 ≠ .none ∧ c.2.Fits ∧ (op.Legal ss c.2 ∨ c.2.IsErrorOffset))
    (hf : flags < 2 ^ 16) (hl : length < 2 ^ 32)
    (hbad : (type = 0 ∧ (length ≠ 0 ∨ flags % 2 = 0)) ∨ (type = 2 ∧ length ≠ 12) ∨
      (type = 5 ∧ ¬ ∃ n, 0 < n ∧ n ≤ 1048575 ∧ length = 4 + 8 * n))
    (hs : s.rest = pre.wire s.counter ++ (be 4 0x668e33ef ++ be 2 flags ++ be 2 type ++ be 8 s.counter ++
      be 4 length ++ t)) :
    (∃ e, (op.run ss s).1 = .error e) ∧ (op.run ss s).2.rest = t := by
  rcases hbad with ⟨rfl, hb⟩ | ⟨rfl, hb⟩ | ⟨rfl, hb⟩
  · by_cases h : flags % 2 = 0
    · obtain ⟨h1, h2⟩ := run_refused (e := protocolError) (rest := t) hsup hfit hst hpre hf (by decide) hl hs (.inl rfl) (by
        intro cmd s1 h1
        refine ⟨s1, h1, ?_⟩
        rw [if_pos rfl, handleNoneChunk, if_pos (by omega)]
        rfl)
      exact ⟨⟨_, h1⟩, h2⟩
    · obtain ⟨h1, h2⟩ := run_refused (e := invalidLength) (rest := t) hsup hfit hst hpre hf (by decide) hl hs (.inl rfl) (by
        intro cmd s1 h1
        refine ⟨s1, h1, ?_⟩
        rw [if_pos rfl, handleNoneChunk, if_neg (by omega), if_pos (hb.resolve_right h)]
        rfl)
      exact ⟨⟨_, h1⟩, h2⟩
  · obtain ⟨h1, h2⟩ := run_refused (e := invalidLength) (rest := t) hsup hfit hst hpre hf (by decide) hl hs (.inr (.inl rfl)) (by
        intro cmd s1 h1
        refine ⟨s1, h1, ?_⟩
        rw [if_neg (by decide), if_pos rfl, handleHoleChunk, if_pos hb]
        rfl)
    exact ⟨⟨_, h1⟩, h2⟩
  · obtain ⟨h1, h2⟩ := run_refused (e := protocolError) (rest := t) hsup hfit hst hpre hf (by decide) hl hs (.inr (.inr rfl)) (by
        intro cmd s1 h1
        refine ⟨s1, h1, ?_⟩
        rw [if_neg (by decide), if_neg (by decide), handleBlockStatusChunk]
        by_cases h : length / 8 = 0 ∨ length % 8 ≠ 4
        · rw [if_pos h]
          rfl
        · rw [if_neg h, if_pos]
          · rfl
          · rw [not_or] at h
            refine Classical.byContradiction fun hc => ?_
            have hm : maxExtents = 1048575 := by decide
            exact hb ⟨length / 8, by omega, by omega, by omega⟩)
    exact ⟨⟨_, h1⟩, h2⟩

/-- C27: the extents of a context that was not negotiated are refused. -/
theorem C27_context (ss : Session) (op : Op) (pre : NbdReply) (flags n ctx : Nat) (s : Conn) (t : Bytes)
    (hsup : op.Supported ss) (hfit : (op.request s.counter).Fits) (hst : ss.structured = true)
    (hpre : ∀ c ∈ pre, c.1 < 2 ^ 16 ∧ c.1 % 2 = 0 ∧ c.2 ≠ .none ∧ c.2.Fits ∧ (op.Legal ss c.2 ∨ c.2.IsErrorOffset))
    (hf : flags < 2 ^ 16) (h0 : 0 < n) (hn : n ≤ 1048575) (hc : ctx < 2 ^ 32) (hx : ss.contexts.lookup ctx = none)
    (hs : s.rest = pre.wire s.counter ++ (be 4 0x668e33ef ++ be 2 flags ++ be 2 5 ++ be 8 s.counter ++
      be 4 (4 + 8 * n) ++ (be 4 ctx ++ t))) :
    (op.run ss s).1 = .error protocolError := by
  refine (run_refused (rest := t) hsup hfit hst hpre hf (by decide) (by omega) hs (.inr (.inr rfl)) ?_).1
  intro cmd s1 h1
  obtain ⟨s2, h2, a2⟩ := recv_append (d := be 4 ctx) (t := t) (s := s1) (n := 4) h1 (be_length ..)
  refine ⟨s2, a2.rest, ?_⟩
  have hm : maxExtents = 1048575 := by decide
  rw [if_neg (by decide), if_neg (by decide), handleBlockStatusChunk, if_neg (by omega), if_neg (by omega), bind_ok h2,
    field_one hc, hx]
  rfl

/-- C27: a reply with a wrong magic is refused, also after legal chunks; and a simple reply after
chunks, or when only structured replies are expected; and a chunk when structured replies were not
negotiated. -/
theorem C27_magic (ss : Session) (op : Op) (pre : NbdReply) (magic : Nat) (s : Conn) (t : Bytes)
    (hsup : op.Supported ss) (hfit : (op.request s.counter).Fits)
    (hst : pre ≠ [] → ss.structured = true)
    (hpre : ∀ c ∈ pre, c.1 < 2 ^ 16 ∧ c.1 % 2 = 0 ∧ c.2 ≠ .none ∧ c.2.Fits ∧ (op.Legal ss c.2 ∨ c.2.IsErrorOffset))
    (hm : magic < 2 ^ 32)
    (hbad : (magic = 0x67446698 → pre ≠ [] ∨ ¬ op.MaySimple ss) ∧ (magic = 0x668e33ef → ss.structured = false))
    (hs : s.rest = pre.wire s.counter ++ (be 4 magic ++ t)) :
    (op.run ss s).1 = .error protocolError := run_magic hsup hfit hst hpre hm hbad hs

/-- C27: every request ends, for every stream: there is a result or an exception. -/
theorem C27_ends (ss : Session) (op : Op) (s : Conn) (hsup : op.Supported ss) (hfit : (op.request s.counter).Fits) :
    (op.run ss s).1 ≠ .error .stuck ∧ (op.run ss s).2.rest.length ≤ s.rest.length := by
  rw [run_eq hsup hfit]
  obtain ⟨-, -, h1, h2⟩ := tame_recvReply ss _ (op.cmd ss s.counter) (op.started s) (Nat.le_refl _)
  generalize recvReply ss _ _ = y at h1 h2 ⊢
  obtain ⟨r, s1⟩ := y
  cases r with
  | ok a => exact ⟨by simp [Op.conv], h1⟩
  | error e =>
    refine ⟨?_, h1⟩
    have := h2 e rfl
    rintro h
    cases h
    exact this

/-- C27: when the server closes the connection inside a reply the request fails, at every byte of the
reply. -/
theorem C27_truncated {ss : Session} {op : Op} {s : Conn} {p q : Bytes} {o : Except Err Out}
    (hsup : op.Supported ss) (hfit : (op.request s.counter).Fits) (h : Answers ss s.counter op (p ++ q) o)
    (hq : q ≠ []) (hs : s.rest = p) : ∃ e, (op.run ss s).1 = .error e := by
  cases hr : op.run ss s with
  | mk r s1 =>
    cases r with
    | error e => exact ⟨e, rfl⟩
    | ok a =>
      exfalso
      obtain ⟨f', e'⟩ := run_mono hsup hfit hr q s.frags
      obtain ⟨s2, e2, a2⟩ := run_answers (s := { s with rest := s.rest ++ q, frags := s.frags }) (t := []) hsup hfit h
        (by simp [hs])
      rw [e2] at e'
      simp only [Prod.mk.injEq] at e'
      have := a2.rest
      rw [e'.2] at this
      simp only [List.append_eq_nil_iff] at this
      exact hq this.2

/-! ## The client trusts the server -/

/-- The client does not check that the chunks cover the range: after a reply with one empty chunk the
old content of the buffer is returned as the content of the disk, for every buffer. -/
theorem C26_incomplete_accepted (ss : Session) (offset : Nat) (buf : Bytes) (s : Conn) (t : Bytes)
    (hst : ss.structured = true) (hfit : (Op.request s.counter (.read offset buf)).Fits)
    (hs : s.rest = NbdChunk.none.wire s.counter 1 ++ t) :
    (Op.run ss (.read offset buf) s).1 = .ok (.data buf) := by
  obtain ⟨s1, a1, -, e1⟩ := run_framed (op := .read offset buf) (r := [(1, .none)]) (t := t) trivial hfit hst
    (.last _ (by decide) (by decide)) (by simp [NbdChunk.Fits, NbdChunk.payload]) (by simp [Op.Legal])
    (by rw [hs]; simp [NbdReply.wire])
  rw [e1 (by simp [NbdChunk.IsErrorOffset])]
  rfl

/-- The client does not check the range of a data chunk: the payload of a chunk after the end of the
range is read as the next chunk. -/
theorem C26_outside_misread :
    let ss : Session := ⟨true, [], none, 1, 0⟩
    let fake : Bytes := NbdChunk.wire 0 1 (.data 0 [1, 2])
    let s : Conn := ⟨NbdChunk.wire 0 0 (.data 100 fake), [], [], 0⟩
    (Op.run ss (.read 0 [9, 9]) s).1.toOption = some (.data [1, 2]) := by decide +kernel

/-! ## C20: extents on the wire -/

/-- C20: the extents of a context are the extents in its chunk, when the reply has no other chunk for the
same context after it.  The reply may have any other chunks. -/
theorem C20_wire (ss : Session) (offset length ctx flags : Nat) (es : List (Nat × Nat)) (name : String) (xs : List Ext)
    (pre post : NbdReply) (s : Conn) (t : Bytes) (hst : ss.structured = true)
    (hfit : (Op.request s.counter (.status offset length)).Fits)
    (hr : NbdReply.Framed (pre ++ (flags, .status ctx es) :: post))
    (hfits : ∀ c ∈ pre ++ (flags, .status ctx es) :: post, c.2.Fits)
    (hin : ∀ c ∈ pre ++ (flags, .status ctx es) :: post, Op.Legal ss (.status offset length) c.2)
    (hname : ss.contexts.lookup ctx = some name)
    (hxs : Extents.recvExtents ss.minBlock (contextKind ss name) es = .ok xs)
    (hlast : ∀ f c e, (f, NbdChunk.status c e) ∈ post → ss.contexts.lookup c ≠ some name)
    (hs : s.rest = NbdReply.wire s.counter (pre ++ (flags, .status ctx es) :: post) ++ t) :
    ∃ d, (Op.run ss (.status offset length) s).1 = .ok (.extents d) ∧ d.lookup name = some xs ∧
      (Op.run ss (.status offset length) s).2.rest = t := by
  obtain ⟨s1, a1, -, e1⟩ := run_framed (op := .status offset length) (t := t) trivial hfit hst hr hfits
    (fun c hc => Or.inl (hin c hc)) hs
  have hne : ¬ ∃ c ∈ pre ++ (flags, NbdChunk.status ctx es) :: post, c.2.IsErrorOffset := by
    rintro ⟨c, hc, he⟩
    have := hin c hc
    revert he this
    cases c.2 <;> simp [NbdChunk.IsErrorOffset, Op.Legal]
  rw [e1 hne]
  obtain ⟨d, h1, h2⟩ := fold_status ss (pre := pre) (post := post) (flags := flags) (es := es) hname hxs hlast
    (cmd := Op.cmd ss s.counter (.status offset length)) rfl
  refine ⟨d, ?_, h2, a1.rest⟩
  simp only [Op.out, h1, Option.getD_some]

/-! ## Examples -/

/-- A session with structured replies. -/
def exSession : Session := ⟨true, [(1, baseAllocation)], none, 1, 0xff⟩

/-- A disk with zeros after the first two bytes. -/
def exDisk : Nat → Byte := fun i => if i = 0 then 1 else if i = 1 then 2 else 0

/-- Two chunks, not in the order of the disk. -/
def exReply : NbdReply := [(0, .hole 2 2), (1, .data 0 [1, 2])]

theorem exReply_isRead : exReply.IsRead exDisk 0 4 where
  framed := .more _ (by decide) (by decide) (by decide) (.last _ (by decide) (by decide))
  fits := by decide
  truthful := by
    intro c hc
    simp only [exReply, List.mem_cons, List.not_mem_nil, or_false] at hc
    rcases hc with rfl | rfl
    · refine ⟨by decide, by decide, by decide, ?_⟩
      intro i hi
      simp only [exDisk]
      rw [if_neg (by omega), if_neg (by omega)]
    · refine ⟨by decide, by decide, ?_⟩
      intro i hi
      match i, hi with
      | 0, _ => rfl
      | 1, _ => rfl
  complete := by
    intro k _ h
    by_cases h2 : k < 2
    · exact ⟨(1, .data 0 [1, 2]), by simp [exReply], by omega, by simpa using h2⟩
    · exact ⟨(0, .hole 2 2), by simp [exReply], by omega, by omega⟩

/-- One byte in every packet. -/
example : (readinto exSession 0 [9, 9, 9, 9] ⟨exReply.wire 7 ++ [5], List.replicate 100 0, [], 7⟩).1.toOption =
    some [1, 2, 0, 0] := by decide +kernel

example : (readinto exSession 0 [9, 9, 9, 9] ⟨exReply.wire 7 ++ [5], List.replicate 100 0, [], 7⟩).2.rest = [5] := by
  decide +kernel

/-- A write, an error for a read in the middle of the reply, and a read. -/
def exOps : List Op := [.write 2 [7], .read 0 [0, 0], .read 0 [0, 0, 0, 0]]

def exStream : Bytes :=
  NbdChunk.none.wire 0 1 ++ (NbdReply.wire 1 [(0, .data 0 [1]), (0, .errorOffset 5 [65] 1), (1, .none)] ++
    (exReply.wire 2 ++ []))

example : AnswersAll exSession 0 exOps exStream
    [.ok .done, .error requestError, .ok (.data (load exDisk 0 4))] := by
  refine .cons trivial (by decide) (.done rfl (by decide) (by decide) trivial)
    (.cons trivial (by decide) (.failed _ rfl ?_ (by decide) ?_ ?_) (.cons trivial (by decide) (.read _ _ rfl ?_) .nil))
  · exact .more _ (by decide) (by decide) (by decide)
      (.more _ (by decide) (by decide) (by decide) (.last _ (by decide) (by decide)))
  · intro c hc
    simp only [List.mem_cons, List.not_mem_nil, or_false] at hc
    rcases hc with rfl | rfl | rfl
    · exact Or.inl ⟨by decide, by decide⟩
    · exact Or.inr trivial
    · exact Or.inl trivial
  · exact ⟨(0, .errorOffset 5 [65] 1), by simp, trivial⟩
  · exact exReply_isRead

example : (Cmd.read 7 4096 [0, 0] true).toBytes.toOption = some (NbdRequest.wire ⟨0, 0, 7, 4096, 2⟩) := by
  decide +kernel

/-- A write of more than 4 GiB, or after the end of the addresses, does not fit. -/
example : ¬ (Op.request 0 (.zero (2 ^ 64) 1 true)).Fits := by decide

example : (Op.run exSession (.zero (2 ^ 64) 1 true) ⟨[], [], [], 0⟩).2.sent = [] := by decide +kernel

/-- Extents. -/
example : ((Op.run exSession (.status 0 100) ⟨NbdChunk.wire 0 1 (.status 1 [(60, 0), (40, 3)]), [], [], 0⟩).1).toOption.isSome := by
  decide +kernel

/-- Extents of a length that is not a list of extents, and of an unknown context. -/
example : (Op.run exSession (.status 0 100) ⟨be 4 0x668e33ef ++ be 2 1 ++ be 2 5 ++ be 8 0 ++ be 4 13 ++ [1, 2], [], [], 0⟩).2.rest =
    [1, 2] :=
  (C27_length exSession (.status 0 100) [] 1 5 13 _ [1, 2] trivial (by decide) rfl (by simp) (by decide) (by decide)
    (.inr (.inr ⟨rfl, by rintro ⟨n, h1, h2, h3⟩; omega⟩)) rfl).2

example : (Op.run exSession (.status 0 100) ⟨be 4 0x668e33ef ++ be 2 1 ++ be 2 5 ++ be 8 0 ++ be 4 (4 + 8 * 1) ++
    (be 4 77 ++ [0]), [], [], 0⟩).1 = .error protocolError :=
  C27_context exSession (.status 0 100) [] 1 1 77 _ [0] trivial (by decide) rfl (by simp) (by decide) (by decide)
    (by decide) (by decide) (by decide) rfl

end Imageio.Props
