import Verif.Lemmas.NbdWire
import Verif.Props.NbdHandshake
import Verif.Props.Patch
import Verif.Props.Nbd
/-!
C58: the NBD backend over the wire.  The server is any machine that gets the bytes of the requests
and answers in the way of the protocol; it may refuse any request, and the connection may break at
any byte.
-/
namespace Imageio.Props
open Imageio.Http Imageio.Images Imageio.Spec Imageio.Nbd Imageio.NbdWire

variable {τ : Type}

/-! ## The server as a storage -/

/-- C58: the backend, its client and the server together meet the contract of the storage backends:
everything proved for all backends holds for an export of an NBD server.  The content of the image is
the content of the export in the server. -/
theorem C58_lawful (E : Env τ) (hp : Protocol E.server E.ss) (hb : 0 < E.ss.minBlock)
    (hf : E.ss.transmissionFlags.testBit 2) :
    ∃ L : Lawful (NbdWire.backend E),
      (∀ s, L.content s = byteAt (E.server.image s.srv)) ∧
      (∀ s, L.durable s = byteAt (E.server.disk s.srv)) ∧
      (∀ s, L.Inv s ↔ s.conn.rest = [] ∧ s.size = (E.server.image s.srv).length) :=
  ⟨NbdWire.lawful E hp hb hf, fun _ => rfl, fun _ => rfl, fun _ => ⟨fun h => ⟨h.rest, h.size⟩, fun h => ⟨h.1, h.2⟩⟩⟩

/-- The state of a new backend after the handshake, `backends/nbd.py:38-47`, `_internal/nbd.py:372-412`. -/
def wireOpened (mode : Memory.Mode) (sparse : Bool) (c : Nbd.Client) (conn : Nbd.Conn) (srv : τ) : NbdWire.State τ :=
  ⟨mode, sparse, 0, c.exportSize, conn, true, srv⟩

/-- C58: a backend that was opened is ready: the whole handshake was received and nothing after it, and
the size is the size that the server announced. -/
theorem C58_opened {h : Handshake} {dirty : Bool} {name : String} (hv : h.Valid dirty)
    (hs : h.Sendable dirty name) (c0 : Nbd.Conn) (hr : c0.rest = h.wire dirty) (V : NbdWire.Server τ) (srv : τ)
    (hsize : ∃ flags, h.export_ = some ((V.image srv).length, flags)) (mode : Memory.Mode) (sparse : Bool) :
    ∃ c c1, connect name dirty c0 = (.ok c, c1) ∧
      (wireOpened mode sparse c c1 srv).conn.rest = [] ∧
      (wireOpened mode sparse c c1 srv).size = (V.image srv).length := by
  obtain ⟨c, c1, e1, hd, h3, -⟩ := C54_succeeds hv hs (s := c0) (t := []) (by simpa using hr)
  refine ⟨c, c1, e1, h3, ?_⟩
  obtain ⟨f, hf⟩ := hsize
  obtain ⟨f', hf'⟩ := hd.size
  rw [hf] at hf'
  simp only [Option.some.injEq, Prod.mk.injEq] at hf'
  exact hf'.1.symm

/-! ## Single calls -/

/-- C58: a read that returns gives the bytes of the export at the position, and moves the position; the
server keeps the export.  Whatever the caller had in the buffer. -/
theorem C58_read (E : Env τ) (hp : Protocol E.server E.ss) (s s' : NbdWire.State τ) (n : Nat) (d : Bytes)
    (hr : s.conn.rest = []) (hz : s.size = (E.server.image s.srv).length)
    (h : NbdWire.readinto E s n = (.ok d, s')) :
    d.length = min n ((E.server.image s.srv).length - s.pos) ∧
      (∀ i, i < d.length → d[i]? = (E.server.image s.srv)[s.pos + i]?) ∧
      s'.pos = s.pos + d.length ∧ E.server.image s'.srv = E.server.image s.srv ∧ s'.conn.rest = [] := by
  unfold NbdWire.readinto at h
  split at h
  · cases h
  · simp only at h
    split at h
    · rename_i hz'
      cases h
      refine ⟨?_, by simp, rfl, rfl, hr⟩
      rw [← hz, hz']
      rfl
    · split at h
      · cases h
      · rename_i d' s1 hex
        cases h
        obtain ⟨k, hsy, hd, hok, -⟩ := readinto_outcome hp ⟨hr, hz⟩ hex
        obtain ⟨h1, h2, h3, -⟩ := hok _ rfl
        simp only [Op.Truth, load_length] at h2
        simp only [Op.Stored] at h3
        simp only [Op.Inside, load_length] at h1
        have hl : d.length = min n (s.size - s.pos) := by rw [h2, load_length]
        refine ⟨by rw [hl, hz], fun i hi => ?_, by rw [k.pos, hl], h3, hsy.rest⟩
        rw [hl] at hi
        rw [h2]
        unfold load
        rw [List.getElem?_map, List.getElem?_range hi, Option.map_some, byteAt, List.getD_eq_getElem?_getD]
        rw [List.getElem?_eq_getElem (by omega)]
        rfl

/-- C58: a write that returns stored all the bytes at the position, and changed nothing else. -/
theorem C58_write (E : Env τ) (hp : Protocol E.server E.ss) (s s' : NbdWire.State τ) (a n : Nat) (d : Bytes)
    (hr : s.conn.rest = []) (hz : s.size = (E.server.image s.srv).length)
    (h : NbdWire.write E s a d = (.ok n, s')) :
    n = d.length ∧ s.pos + d.length ≤ s.size ∧ s'.pos = s.pos + d.length ∧
      (E.server.image s'.srv).length = (E.server.image s.srv).length ∧
      (∀ i, byteAt (E.server.image s'.srv) i =
        if s.pos ≤ i ∧ i < s.pos + d.length then byteAt d (i - s.pos) else byteAt (E.server.image s.srv) i) ∧
      s'.conn.rest = [] := by
  unfold NbdWire.write at h
  split at h
  · cases h
  · split at h
    · cases h
    · rename_i s1 hex
      cases h
      obtain ⟨k, hsy, hd, hok, -⟩ := write_outcome hp ⟨hr, hz⟩ hex
      obtain ⟨h1, h2, h3, -⟩ := hok _ rfl
      have hz1 := hsy.size
      rw [k.size, hz] at hz1
      exact ⟨rfl, h1, by rw [k.pos], hz1.symm, fun i => congrFun h3 i, hsy.rest⟩

/-- C58: a zero that returns zeroed the bytes at the position, and changed nothing else; it never
returns if the server does not support NBD_CMD_WRITE_ZEROES. -/
theorem C58_zero (E : Env τ) (hp : Protocol E.server E.ss) (s s' : NbdWire.State τ) (c n : Nat)
    (hr : s.conn.rest = []) (hz : s.size = (E.server.image s.srv).length)
    (h : NbdWire.zero E s c = (.ok n, s')) :
    E.ss.transmissionFlags.testBit 6 ∧ n = c ∧ s.pos + c ≤ s.size ∧ s'.pos = s.pos + c ∧
      (E.server.image s'.srv).length = (E.server.image s.srv).length ∧
      (∀ i, byteAt (E.server.image s'.srv) i =
        if s.pos ≤ i ∧ i < s.pos + c then 0 else byteAt (E.server.image s.srv) i) ∧
      s'.conn.rest = [] := by
  unfold NbdWire.zero at h
  split at h
  · cases h
  · by_cases hsup : E.ss.transmissionFlags.testBit 6
    · split at h
      · cases h
      · rename_i s1 hex
        cases h
        obtain ⟨k, hsy, hd, hok, -⟩ := zero_outcome hp ⟨hr, hz⟩ hsup hex
        obtain ⟨h1, h2, h3, -⟩ := hok _ rfl
        have hz1 := hsy.size
        rw [k.size, hz] at hz1
        refine ⟨hsup, rfl, h1, by rw [k.pos], hz1.symm, fun i => ?_, hsy.rest⟩
        rw [show byteAt (E.server.image s1.srv) i = store (byteAt (E.server.image s.srv)) s.pos (zeros c) i from
          congrFun h3 i]
        unfold store
        rw [Ops.zeros_length]
        split
        · simp [byteAt, zeros, List.getD_eq_getElem?_getD, List.getElem?_replicate]
          split <;> rfl
        · rfl
    · rw [zero_unsupported hsup] at h
      cases h

/-- C58: after a flush that returns the export is on the storage of the server, if the server supports
NBD_CMD_FLUSH. -/
theorem C58_flush (E : Env τ) (hp : Protocol E.server E.ss) (s s' : NbdWire.State τ)
    (hf : E.ss.transmissionFlags.testBit 2)
    (hr : s.conn.rest = []) (hz : s.size = (E.server.image s.srv).length)
    (h : NbdWire.flush E s = (.ok (), s')) :
    E.server.disk s'.srv = E.server.image s.srv ∧ E.server.image s'.srv = E.server.image s.srv := by
  obtain ⟨k, hsy, hd, hok, -⟩ := flush_outcome hp ⟨hr, hz⟩ hf h
  obtain ⟨h1, h2, h3, h4⟩ := hok _ rfl
  exact ⟨h4 rfl, h3⟩

/-- The calls of a backend. -/
inductive WireCall where
  | readinto (n : Nat)
  | write (d : Bytes)
  | zero (n : Nat)
  | flush
  | seek (n : Nat)

/-- The result of a call: whether it failed, and the new state. -/
def WireCall.run (E : Env τ) (s : NbdWire.State τ) : WireCall → Option Err × NbdWire.State τ
  | .readinto n => match NbdWire.readinto E s n with | (.ok _, s') => (none, s') | (.error e, s') => (some e, s')
  | .write d => match NbdWire.write E s 0 d with | (.ok _, s') => (none, s') | (.error e, s') => (some e, s')
  | .zero n => match NbdWire.zero E s n with | (.ok _, s') => (none, s') | (.error e, s') => (some e, s')
  | .flush => match NbdWire.flush E s with | (.ok _, s') => (none, s') | (.error e, s') => (some e, s')
  | .seek n => match NbdWire.seek s n with | (.ok _, s') => (none, s') | (.error e, s') => (some e, s')

/-- The bytes a call may change. -/
def WireCall.Touches (pos i : Nat) : WireCall → Prop
  | .write d => pos ≤ i ∧ i < pos + d.length
  | .zero n => pos ≤ i ∧ i < pos + n
  | _ => False

/-- C58: a call that fails, for any reason, changed at most the bytes that it had to change; the size of
the export stays, and no part of an answer is left for the next call. -/
theorem C58_failed (E : Env τ) (hp : Protocol E.server E.ss) (call : WireCall) (s s' : NbdWire.State τ) (e : Err)
    (hr : s.conn.rest = []) (hz : s.size = (E.server.image s.srv).length) (h : call.run E s = (some e, s')) :
    (∀ i, ¬ call.Touches s.pos i → byteAt (E.server.image s'.srv) i = byteAt (E.server.image s.srv) i) ∧
      (E.server.image s'.srv).length = (E.server.image s.srv).length ∧ s'.pos = s.pos ∧ s'.conn.rest = [] ∧
      e ≠ .stuck := by
  have same : ∀ P : Nat → Prop, (∀ i, ¬ P i → byteAt (E.server.image s.srv) i = byteAt (E.server.image s.srv) i) ∧
      (E.server.image s.srv).length = (E.server.image s.srv).length ∧ s.pos = s.pos ∧ s.conn.rest = [] ∧
      NbdWire.unsupported ≠ .stuck := fun _ => ⟨fun _ _ => rfl, rfl, rfl, hr, by simp [NbdWire.unsupported]⟩
  have ext : ∀ {e : Err}, External e → e ≠ .stuck := by rintro e he rfl; exact he
  cases call with
  | readinto n =>
    simp only [WireCall.run] at h
    split at h
    · cases h
    · rename_i e' s1 h1
      cases h
      unfold NbdWire.readinto at h1
      split at h1
      · cases h1; exact same _
      · simp only at h1
        split at h1
        · cases h1
        · split at h1
          · rename_i e2 s2 hex
            cases h1
            obtain ⟨k, hsy, hd, -, herr, -⟩ := readinto_outcome hp ⟨hr, hz⟩ hex
            obtain ⟨x1, x2⟩ := herr _ rfl
            exact ⟨fun i _ => x2.outside i id, x2.length, k.pos, hsy.rest, ext x1⟩
          · cases h1
  | write d =>
    simp only [WireCall.run] at h
    split at h
    · cases h
    · rename_i e' s1 h1
      cases h
      unfold NbdWire.write at h1
      split at h1
      · cases h1; exact same _
      · split at h1
        · rename_i e2 s2 hex
          cases h1
          obtain ⟨k, hsy, hd, -, herr, -⟩ := write_outcome hp ⟨hr, hz⟩ hex
          obtain ⟨x1, x2⟩ := herr _ rfl
          exact ⟨fun i hi => x2.outside i hi, x2.length, k.pos, hsy.rest, ext x1⟩
        · cases h1
  | zero n =>
    simp only [WireCall.run] at h
    split at h
    · cases h
    · rename_i e' s1 h1
      cases h
      unfold NbdWire.zero at h1
      split at h1
      · cases h1; exact same _
      · by_cases hsup : E.ss.transmissionFlags.testBit 6
        · split at h1
          · rename_i e2 s2 hex
            cases h1
            obtain ⟨k, hsy, hd, -, herr, -⟩ := zero_outcome hp ⟨hr, hz⟩ hsup hex
            obtain ⟨x1, x2⟩ := herr _ rfl
            exact ⟨fun i hi => x2.outside i hi, x2.length, k.pos, hsy.rest, ext x1⟩
          · cases h1
        · rw [zero_unsupported hsup] at h1
          cases h1
          exact ⟨fun _ _ => rfl, rfl, rfl, hr, by simp [unsupportedRequest]⟩
  | flush =>
    simp only [WireCall.run] at h
    split at h
    · cases h
    · rename_i e' s1 h1
      cases h
      by_cases hsup : E.ss.transmissionFlags.testBit 2
      · obtain ⟨k, hsy, hd, -, herr, -⟩ := flush_outcome hp ⟨hr, hz⟩ hsup h1
        obtain ⟨x1, x2⟩ := herr _ rfl
        exact ⟨fun i _ => x2.outside i id, x2.length, k.pos, hsy.rest, ext x1⟩
      · rw [NbdWire.flush, flush_unsupported hsup] at h1
        cases h1
  | seek n => simp [WireCall.run, NbdWire.seek] at h

/-- C58: after the server closed the connection every request fails, and the server does nothing. -/
theorem C58_closed (E : Env τ) (hp : Protocol E.server E.ss) (s : NbdWire.State τ)
    (hr : s.conn.rest = []) (hz : s.size = (E.server.image s.srv).length) (ha : s.alive = false) :
    (∀ n, 0 < n → s.pos < s.size → ∃ e s', NbdWire.readinto E s n = (.error e, s') ∧ s'.srv = s.srv ∧ s'.alive = false) ∧
    (∀ a d, ∃ e s', NbdWire.write E s a d = (.error e, s') ∧ s'.srv = s.srv ∧ s'.alive = false) ∧
    (∀ n, ∃ e s', NbdWire.zero E s n = (.error e, s') ∧ s'.srv = s.srv ∧ s'.alive = false) ∧
    (E.ss.transmissionFlags.testBit 2 →
      ∃ e s', NbdWire.flush E s = (.error e, s') ∧ s'.srv = s.srv ∧ s'.alive = false) := by
  refine ⟨fun n hn hlt => ?_, fun a d => ?_, fun n => ?_, fun hf => ?_⟩
  · unfold NbdWire.readinto
    split
    · exact ⟨_, _, rfl, rfl, ha⟩
    · simp only
      rw [if_neg (by omega)]
      cases hex : NbdWire.exchange E _ s with
      | mk r s1 =>
        obtain ⟨-, -, -, -, -, -, hcl⟩ := readinto_outcome hp ⟨hr, hz⟩ hex
        obtain ⟨c1, c2, e, c3⟩ := hcl ha
        cases r with
        | ok a => cases c3
        | error e => exact ⟨_, _, rfl, c2, c1⟩
  · unfold NbdWire.write
    split
    · exact ⟨_, _, rfl, rfl, ha⟩
    · cases hex : NbdWire.exchange E _ s with
      | mk r s1 =>
        obtain ⟨-, -, -, -, -, -, hcl⟩ := write_outcome hp ⟨hr, hz⟩ hex
        obtain ⟨c1, c2, e, c3⟩ := hcl ha
        cases r with
        | ok a => cases c3
        | error e => exact ⟨_, _, rfl, c2, c1⟩
  · unfold NbdWire.zero
    split
    · exact ⟨_, _, rfl, rfl, ha⟩
    · by_cases hsup : E.ss.transmissionFlags.testBit 6
      · cases hex : NbdWire.exchange E _ s with
        | mk r s1 =>
          obtain ⟨-, -, -, -, -, -, hcl⟩ := zero_outcome hp ⟨hr, hz⟩ hsup hex
          obtain ⟨c1, c2, e, c3⟩ := hcl ha
          cases r with
          | ok a => cases c3
          | error e => exact ⟨_, _, rfl, c2, c1⟩
      · rw [zero_unsupported hsup]
        exact ⟨_, _, rfl, rfl, ha⟩
  · unfold NbdWire.flush
    cases hex : NbdWire.exchange E _ s with
    | mk r s1 =>
      obtain ⟨-, -, -, -, -, -, hcl⟩ := flush_outcome hp ⟨hr, hz⟩ hf hex
      obtain ⟨c1, c2, e, c3⟩ := hcl ha
      cases r with
      | ok a => cases c3
      | error e => exact ⟨_, _, rfl, c2, c1⟩

/-! ## A server that works -/

/-- C58: with a server without errors a request inside the export and aligned to its blocks succeeds, as
long as the numbers fit in the request: lengths under 4 GiB, and under 2^64 requests. -/
theorem C58_works (E : Env τ) (hw : Reliable E.server E.ss) (s : NbdWire.State τ)
    (hr : s.conn.rest = []) (hz : s.size = (E.server.image s.srv).length) (ha : s.alive = true)
    (hm : s.mode = .rw) (hc : s.conn.counter < 2 ^ 64) (hpos : s.pos % E.ss.minBlock = 0) (hsz : s.size ≤ 2 ^ 64) :
    (∀ n, n < 2 ^ 32 → s.pos + n ≤ s.size → n % E.ss.minBlock = 0 →
      ∃ d s', NbdWire.readinto E s n = (.ok d, s') ∧ s'.alive = true) ∧
    (∀ a d, 0 < d.length → d.length < 2 ^ 32 → s.pos + d.length ≤ s.size → d.length % E.ss.minBlock = 0 →
      ∃ s', NbdWire.write E s a d = (.ok d.length, s') ∧ s'.alive = true) ∧
    (∀ n, 0 < n → n < 2 ^ 32 → s.pos + n ≤ s.size → n % E.ss.minBlock = 0 → E.ss.transmissionFlags.testBit 6 →
      ∃ s', NbdWire.zero E s n = (.ok n, s') ∧ s'.alive = true) ∧
    (∃ s', NbdWire.flush E s = (.ok (), s') ∧ s'.alive = true) := by
  refine ⟨fun n hn hle hal => ?_, fun a d h0 hn hle hal => ?_, fun n h0 hn hle hal hsup => ?_, ?_⟩
  · unfold NbdWire.readinto
    rw [if_neg (by simp [hm, Memory.Mode.readable])]
    simp only
    split
    · exact ⟨_, _, rfl, ha⟩
    · rename_i hn0
      have hmin : min n (s.size - s.pos) = n := by omega
      obtain ⟨out, s1, e1, h1⟩ := works_run hw (op := .read s.pos (load (E.old s.conn.counter) 0 (min n (s.size - s.pos))))
        ⟨hr, hz⟩ ha nofun trivial
        ⟨by simp [Op.request], by simp [Op.request], hc, by simp only [Op.request]; omega,
          by simp only [Op.request, load_length]; omega⟩
        hsz (by simp only [Op.Inside, load_length]; omega)
        ⟨hpos, by simp only [Op.request, load_length, hmin]; exact hal⟩
      obtain ⟨d, hd⟩ := readinto_of_run e1
      rw [hd]
      exact ⟨_, _, rfl, h1⟩
  · unfold NbdWire.write
    rw [if_neg (by simp [hm, Memory.Mode.writable])]
    obtain ⟨out, s1, e1, h1⟩ := works_run hw (op := .write s.pos d)
      ⟨hr, hz⟩ ha nofun trivial
      ⟨by simp [Op.request], by simp [Op.request], hc, by simp only [Op.request]; omega, by simp only [Op.request]; exact hn⟩
      hsz hle ⟨hpos, hal⟩
    obtain ⟨_, hd⟩ := write_of_run e1
    rw [hd]
    exact ⟨_, rfl, h1⟩
  · unfold NbdWire.zero
    rw [if_neg (by simp [hm, Memory.Mode.writable])]
    obtain ⟨out, s1, e1, h1⟩ := works_run hw (op := .zero s.pos n s.sparse)
      ⟨hr, hz⟩ ha nofun hsup
      ⟨by simp only [Op.request]; split <;> simp, by simp [Op.request], hc, by simp only [Op.request]; omega, by simp only [Op.request]; exact hn⟩
      hsz hle ⟨hpos, hal⟩
    obtain ⟨_, hd⟩ := zero_of_run e1
    rw [hd]
    exact ⟨_, rfl, h1⟩
  · unfold NbdWire.flush
    by_cases hsup : E.ss.transmissionFlags.testBit 2
    · obtain ⟨out, s1, e1, h1⟩ := works_run hw (op := .flush)
        ⟨hr, hz⟩ ha nofun hsup
        ⟨by simp [Op.request], by simp [Op.request], hc, by simp [Op.request], by simp [Op.request]⟩
        hsz trivial ⟨by simp [Op.request], by simp [Op.request]⟩
      obtain ⟨_, hd⟩ := flush_of_run e1
      rw [hd]
      exact ⟨_, rfl, h1⟩
    · rw [flush_unsupported hsup]
      exact ⟨_, rfl, ha⟩

/-! ## Requests of the HTTP server -/

/-- C58: an upload answered with 200 is in the export of the NBD server: the uploaded bytes at the
offset, all the other bytes unchanged, and on its storage unless the request said not to flush. -/
theorem C58_upload (E : Env τ) (hp : Protocol E.server E.ss) (hb : 0 < E.ss.minBlock)
    (hf : E.ss.transmissionFlags.testBit 2) (bufLen : Nat) (hbl : 0 < bufLen)
    (hbs : bufLen % E.ss.minBlock = 0) (a : Access) (q : PutReq) (s : NbdWire.State τ)
    (hr : s.conn.rest = []) (hz : s.size = (E.server.image s.srv).length)
    (c : Http.Conn) (hc : Fresh c) (body next : Bytes) (ha : Announces c.req.header body.length)
    (hrest : c.rest = body ++ next) (lost : Bool) (s' : NbdWire.State τ)
    (hs' : s' = (serve lost (put (NbdWire.backend E) bufLen a q s c)).1)
    (hok : (serve lost (put (NbdWire.backend E) bufLen a q s c)).2.sent = [200]) :
    ∃ offset, UploadOffset q.contentRange offset ∧ (offset : Int) + body.length ≤ a.size ∧
      (∀ i, byteAt (E.server.image s'.srv) i =
        if offset ≤ i ∧ i < offset + body.length then byteAt body (i - offset)
        else byteAt (E.server.image s.srv) i) ∧
      (queryGet q.query "flush".toList ≠ some "n".toList →
        ∀ i, byteAt (E.server.disk s'.srv) i = byteAt (E.server.image s'.srv) i) := by
  subst hs'
  obtain ⟨offset, h1, h2, h3, -⟩ := C08_put_exact (NbdWire.lawful E hp hb hf) bufLen hbl hbs a q s ⟨hr, hz⟩ c hc body
    next ha hrest lost hok
  refine ⟨offset, h1, h2, h3, fun hfl i => ?_⟩
  exact congrFun (C14_put_flushed (NbdWire.lawful E hp hb hf) bufLen hbl hbs a q s ⟨hr, hz⟩ c hc body.length ha lost
    hok hfl) i

/-- C58: a download sends the bytes of the export of the NBD server, or fails; the export does not
change. -/
theorem C58_download (E : Env τ) (hp : Protocol E.server E.ss) (hb : 0 < E.ss.minBlock)
    (hf : E.ss.transmissionFlags.testBit 2) (a : Access) (q : GetReq)
    (buf : Bytes) (hbl : 0 < buf.length) (hbs : buf.length % E.ss.minBlock = 0) (s : NbdWire.State τ)
    (hr : s.conn.rest = []) (hz : s.size = (E.server.image s.srv).length)
    (c : Http.Conn) (hc : Fresh c) (offset size : Nat)
    (hw : Wanted (min a.size s.size) q.range offset size) (lost : Bool) :
    (∃ range, Download (load (byteAt (E.server.image s.srv)) offset size) (if q.range = none then 200 else 206) range
        (serve lost (Images.get (NbdWire.backend E) a q buf s c)).2) ∧
    ∀ i, byteAt (E.server.image (serve lost (Images.get (NbdWire.backend E) a q buf s c)).1.srv) i =
      byteAt (E.server.image s.srv) i := by
  obtain ⟨⟨range, -, -, h1⟩, h2, -⟩ := C11_get_exact (NbdWire.lawful E hp hb hf) a q buf hbl hbs s ⟨hr, hz⟩ c hc
    offset size hw lost
  exact ⟨⟨range, h1⟩, fun i => congrFun h2 i⟩

/-! ## A server -/

/-- The state of the sample server: the export, what is on its storage, and for the coming requests
after how many bytes of the answer the connection breaks. -/
structure Sample where
  image : Bytes
  disk : Bytes
  cuts : List (Option Nat)
deriving DecidableEq, Repr

/-- What the sample server does with a request, and its answer. -/
def Sample.serve (st : Bool) (v : Sample) (type handle offset length : Nat) (payload : Bytes) : Sample × Bytes :=
  let fail := if st then NbdReply.wire handle [(1, .error 22 [])] else simpleReply handle 22 []
  if type = 3 then ({ v with disk := v.image }, simpleReply handle 0 [])
  else if v.image.length < offset + length ∨ 2 ^ 64 < offset + length then (v, fail)
  else if type = 0 then
    (v, if st then NbdReply.wire handle
          [(0, .data offset (load (byteAt v.image) offset (length / 2))),
           (1, .data (offset + length / 2) (load (byteAt v.image) (offset + length / 2) (length - length / 2)))]
        else simpleReply handle 0 (load (byteAt v.image) offset length))
  else if type = 1 then
    ({ v with image := v.image.take offset ++ payload ++ v.image.drop (offset + length) }, simpleReply handle 0 [])
  else if type = 6 then
    ({ v with image := v.image.take offset ++ zeros length ++ v.image.drop (offset + length) }, simpleReply handle 0 [])
  else (v, fail)

/-- The sample server reads the request from the wire. -/
def Sample.server (st : Bool) : NbdWire.Server Sample where
  step v b :=
    let (v', a) := v.serve st (field b 6 2) (field b 8 8) (field b 16 8) (field b 24 4) (b.drop 28)
    match v.cuts with
    | some k :: cuts => ({ v' with cuts := cuts }, ⟨a.take k, [1, 2], true⟩)
    | cuts => ({ v' with cuts := cuts.tail }, ⟨a, [3], false⟩)
  image v := v.image
  disk v := v.disk

theorem field_append {b p : Bytes} {o n : Nat} (h : o + n ≤ b.length) : field (b ++ p) o n = field b o n := by
  unfold field
  rw [List.drop_append_of_le_length (by omega), List.take_append_of_le_length (by simp; omega)]

theorem Sample.parse {op : Op} {handle : Nat} (hf : (op.request handle).Fits) (st : Bool) (v : Sample) :
    let b := (op.request handle).wire ++ op.payload
    v.serve st (field b 6 2) (field b 8 8) (field b 16 8) (field b 24 4) (b.drop 28) =
      v.serve st (op.request handle).type handle (op.request handle).offset (op.request handle).length op.payload := by
  simp only
  obtain ⟨-, f2, f3, f4, f5⟩ := request_fields hf
  have hl := C25_length (op.request handle)
  rw [field_append (by omega), field_append (by omega), field_append (by omega), field_append (by omega), f2, f3, f4, f5,
    request_handle, List.drop_left' hl]

/-- The failures of the sample server. -/
theorem Sample.fail_answers {ss : Session} {op : Op} {handle : Nat} (hall : op.Allowed ss) :
    Answers ss handle op
      (if ss.structured then NbdReply.wire handle [(1, .error 22 [])] else simpleReply handle 22 [])
      (.error (replyError 22)) := by
  split
  · rename_i hst
    exact .error [] hst (by simp) (by decide) (by decide) (by decide)
  · rename_i hst
    refine .errorSimple ?_ (by decide) (by decide)
    cases op with
    | read => simpa [Op.MaySimple] using hst
    | status o l => exact absurd (hall.2 o l rfl) hst
    | _ => trivial

/-- What the sample server does without cuts. -/
theorem Sample.serve_spec {ss : Session} {op : Op} {handle : Nat} (hall : op.Allowed ss)
    (hf : (op.request handle).Fits) (v v' : Sample) (a : Bytes)
    (h : v.serve ss.structured (op.request handle).type handle (op.request handle).offset (op.request handle).length
      op.payload = (v', a)) :
    v'.cuts = v.cuts ∧ DiskKept op v.disk v'.disk ∧
    ((∃ out, Answers ss handle op a (.ok out) ∧ op.Inside v.image.length ∧ op.Truth v.image out ∧
        v'.image.length = v.image.length ∧ op.Stored v.image v'.image ∧ (op = .flush → v'.disk = v.image)) ∨
      (Answers ss handle op a (.error (replyError 22)) ∧ v'.image = v.image ∧
        (¬ op.Inside v.image.length ∨ 2 ^ 64 < v.image.length ∨ ∃ o l, op = .status o l))) := by
  obtain ⟨-, -, hh, ho, hl⟩ := hf
  have hfail := Sample.fail_answers (handle := handle) hall
  cases op with
  | read offset buf =>
    simp only [Op.request] at h hh ho hl
    simp only [Sample.serve, Nat.reduceEqDiff, show (0 : Nat) ≠ 3 by decide, if_false, if_true] at h
    split at h
    · cases h
      exact ⟨rfl, rfl, .inr ⟨hfail, rfl, .imp_right .inl (by simp only [Op.Inside]; omega)⟩⟩
    · rename_i hin
      cases h
      refine ⟨rfl, rfl, .inl ⟨.data (load (byteAt v.image) offset buf.length), ?_, by simp only [Op.Inside]; omega, rfl, rfl, rfl, nofun⟩⟩
      split
      · rename_i hst
        refine .read (byteAt v.image) _ hst ⟨.more _ (by decide) (by decide) nofun (.last _ (by decide) (by decide)), ?_, ?_, ?_⟩
        · intro c hc
          simp only [List.mem_cons, List.not_mem_nil, or_false] at hc
          rcases hc with rfl | rfl
          · simp only [NbdChunk.Fits, NbdChunk.payload, List.length_append, be_length, load_length]
            omega
          · simp only [NbdChunk.Fits, NbdChunk.payload, List.length_append, be_length, load_length]
            omega
        · intro c hc
          simp only [List.mem_cons, List.not_mem_nil, or_false] at hc
          rcases hc with rfl | rfl
          · refine ⟨Nat.le_refl _, by simp only [load_length]; omega, fun i hi => ?_⟩
            rw [load_getElem]
          · refine ⟨by omega, by simp only [load_length]; omega, fun i hi => ?_⟩
            rw [load_getElem]
        · intro k h1 h2
          by_cases hk : k < offset + buf.length / 2
          · exact ⟨_, List.mem_cons_self, by simp only [NbdChunk.Covers, load_length]; omega⟩
          · exact ⟨_, List.mem_cons_of_mem _ List.mem_cons_self, by simp only [NbdChunk.Covers, load_length]; omega⟩
      · rename_i hst
        exact .readSimple (by simpa using hst) (load_length ..)
  | write offset data =>
    simp only [Op.request, Op.payload] at h hh ho hl
    simp only [Sample.serve, Nat.reduceEqDiff, if_false, if_true, Nat.one_ne_zero] at h
    split at h
    · cases h
      exact ⟨rfl, trivial, .inr ⟨hfail, rfl, .imp_right .inl (by simp only [Op.Inside]; omega)⟩⟩
    · rename_i hin
      cases h
      refine ⟨rfl, trivial, .inl ⟨.done, .doneSimple trivial, by simp only [Op.Inside]; omega, trivial, ?_, ?_, nofun⟩⟩
      · simp only [List.length_append, List.length_take, List.length_drop]
        omega
      · exact Memory.byteAt_splice _ _ _ (by omega)
  | zero offset length p =>
    simp only [Op.request, Op.payload] at h hh ho hl
    simp only [Sample.serve, Nat.reduceEqDiff, if_false, if_true] at h
    split at h
    · cases h
      exact ⟨rfl, trivial, .inr ⟨hfail, rfl, .imp_right .inl (by simp only [Op.Inside]; omega)⟩⟩
    · rename_i hin
      cases h
      refine ⟨rfl, trivial, .inl ⟨.done, .doneSimple trivial, by simp only [Op.Inside]; omega, trivial, ?_, ?_, nofun⟩⟩
      · simp only [List.length_append, List.length_take, List.length_drop, Ops.zeros_length]
        omega
      · have := Memory.byteAt_splice v.image offset (zeros length) (by rw [Ops.zeros_length]; omega)
        rw [Ops.zeros_length] at this
        exact this
  | flush =>
    simp only [Op.request, Op.payload] at h
    simp only [Sample.serve, if_true] at h
    cases h
    exact ⟨rfl, trivial, .inl ⟨.done, .doneSimple trivial, trivial, trivial, rfl, rfl, fun _ => rfl⟩⟩
  | status offset length =>
    simp only [Op.request, Op.payload] at h hh ho hl
    simp only [Sample.serve, Nat.reduceEqDiff, if_false] at h
    have h2 : v' = v ∧ a = (if ss.structured then NbdReply.wire handle [(1, .error 22 [])] else simpleReply handle 22 []) := by
      split at h <;> (cases h; exact ⟨rfl, rfl⟩)
    obtain ⟨rfl, rfl⟩ := h2
    exact ⟨rfl, rfl, .inr ⟨hfail, rfl, .inr (.inr ⟨_, _, rfl⟩)⟩⟩

theorem Stored.confined {op : Op} {b b' : Bytes} (hl : b'.length = b.length) (h : op.Stored b b') :
    Confined op b b' := by
  refine ⟨hl, fun i hi => ?_⟩
  cases op with
  | write offset data => rw [show byteAt b' i = _ from congrFun h i]; exact store_outside _ _ _ _ hi
  | zero offset length p =>
    rw [show byteAt b' i = _ from congrFun h i]
    apply store_outside
    rw [Ops.zeros_length]
    exact hi
  | _ => rw [show b' = b from h]

/-- The sample server follows the protocol, with all its broken connections. -/
theorem Sample.protocol (ss : Session) : Protocol (Sample.server ss.structured) ss := by
  intro v v' handle op r hall hf h
  simp only [Sample.server] at h
  have hp := Sample.parse hf ss.structured v
  simp only at hp
  rw [hp] at h
  cases hx : v.serve ss.structured (op.request handle).type handle (op.request handle).offset
      (op.request handle).length op.payload with
  | mk v1 a =>
    rw [hx] at h
    obtain ⟨hc, hd, hs⟩ := Sample.serve_spec hall hf v v1 a hx
    simp only at h
    split at h
    · rename_i k cuts hcuts
      cases h
      refine ⟨?_, hd⟩
      by_cases hk : k < a.length
      · have hm : a.drop k ≠ [] := by
          intro hx
          have := congrArg List.length hx
          simp at this
          omega
        rcases hs with ⟨out, h1, h2, h3, h4, h5, h6⟩ | ⟨h1, h2, -⟩
        · exact .lost (a.drop k) (.ok out) hm (by simp only [List.take_append_drop]; exact h1) rfl
            (Stored.confined h4 h5)
        · exact .lost (a.drop k) _ hm (by simp only [List.take_append_drop]; exact h1) rfl
            (by simp only [Sample.server]; rw [h2]; exact Confined.refl _ _)
      · have e : a.take k = a := List.take_of_length_le (by omega)
        rcases hs with ⟨out, h1, h2, h3, h4, h5, h6⟩ | ⟨h1, h2, -⟩
        · exact .done out (by simp only [e]; exact h1) h2 h3 h4 h5 h6
        · exact .failed _ (by simp only [e]; exact h1) (by simp only [Sample.server]; rw [h2]; exact Confined.refl _ _)
    · cases h
      refine ⟨?_, hd⟩
      rcases hs with ⟨out, h1, h2, h3, h4, h5, h6⟩ | ⟨h1, h2, -⟩
      · exact .done out h1 h2 h3 h4 h5 h6
      · exact .failed _ h1 (by simp only [Sample.server]; rw [h2]; exact Confined.refl _ _)

/-- The sample server without broken connections. -/
def Sample.steady (st : Bool) : NbdWire.Server Sample :=
  { Sample.server st with step := fun v b => (Sample.server st).step { v with cuts := [] } b }

/-- The sample server without broken connections has no errors. -/
theorem Sample.reliable (ss : Session) : Reliable (Sample.steady ss.structured) ss := by
  intro v v' handle op r hall hf hns hsz hin hal h
  simp only [Sample.steady, Sample.server] at h
  have hp := Sample.parse hf ss.structured { v with cuts := [] }
  simp only at hp
  rw [hp] at h
  cases hx : Sample.serve ss.structured { v with cuts := [] } (op.request handle).type handle (op.request handle).offset
      (op.request handle).length op.payload with
  | mk v1 a =>
    rw [hx] at h
    obtain ⟨hc, hd, hs⟩ := Sample.serve_spec hall hf _ v1 a hx
    simp only at h
    cases h
    rcases hs with ⟨out, h1, -⟩ | ⟨-, -, h1⟩
    · exact ⟨⟨out, h1⟩, rfl⟩
    · exfalso
      rcases h1 with h1 | h1 | ⟨o, l, h1⟩
      · exact h1 hin
      · exact absurd h1 (Nat.not_lt.2 hsz)
      · exact hns o l h1

/-- A session with everything. -/
def wireSession : Session := ⟨true, [], none, 1, 0x44⟩

/-- The environment of the sample server. -/
def wireEnv : Env Sample := ⟨Sample.server true, wireSession, fun h i => UInt8.ofNat (h + i + 7)⟩

/-- A backend of the sample server, whose connection breaks after 20 bytes of the fourth answer. -/
def wireStart : NbdWire.State Sample :=
  ⟨.rw, true, 1, 6, ⟨[], [], [], 5⟩, true, ⟨[1, 2, 3, 4, 5, 6], [], [none, none, none, some 20]⟩⟩

example : Protocol wireEnv.server wireEnv.ss ∧ wireStart.conn.rest = [] ∧
    wireStart.size = (wireEnv.server.image wireStart.srv).length ∧ 0 < wireEnv.ss.minBlock ∧
    wireEnv.ss.transmissionFlags.testBit 2 := ⟨Sample.protocol wireSession, rfl, rfl, by decide, by decide⟩

/-- Write, zero, flush, a read whose answer breaks, and a write to the closed connection. -/
example :
    let r1 := NbdWire.write wireEnv wireStart 0 [9, 9]
    let r2 := NbdWire.zero wireEnv r1.2 2
    let r3 := NbdWire.flush wireEnv r2.2
    let r4 := NbdWire.readinto wireEnv { r3.2 with pos := 0 } 4
    let r5 := NbdWire.write wireEnv r4.2 0 [8]
    r1.1.toOption = some 2 ∧ r2.1.toOption = some 2 ∧ r3.1.toOption = some () ∧ r4.1.toOption = none ∧
    r5.1.toOption = none ∧ r3.2.srv.disk = [1, 9, 9, 0, 0, 6] ∧ r5.2.srv.image = [1, 9, 9, 0, 0, 6] ∧
    r4.2.alive = false ∧ r5.2.conn.rest = [] := by decide +kernel

/-- A read of the same export. -/
example : (NbdWire.readinto wireEnv wireStart 3).1.toOption = some [2, 3, 4] := by decide +kernel

end Imageio.Props
