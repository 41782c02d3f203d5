import Verif.Lemmas.Images
import Verif.Lemmas.Memory
import Verif.Lemmas.FileLaws
import Verif.Lemmas.NbdBackend
import Verif.Props.HttpServer
import Verif.Props.HttpParse

/-!
Properties of uploads and downloads (C08–C15): the handlers of the images resource over
any backend that meets the contract `Lawful`.  The memory, file and NBD backends meet it
(`Memory.lawful`, `File.lawful`, `NbdBackend.lawful`).
-/
namespace Imageio.Props
open Imageio.Http Imageio.Images Imageio.Spec Imageio.Ops

/-! ## PUT -/

/-- The offset of an upload: the first position of the Content-Range header, or zero. -/
def UploadOffset (contentRange : Option (List Char)) (offset : Nat) : Prop :=
  match contentRange with
  | none => offset = 0
  | some h => ∃ last complete, ContentRangeHeader h offset last complete

theorem putOffset_spec {cr : Option Str} {offset : Nat} (h : putOffset cr = some offset) :
    UploadOffset cr offset := by
  cases cr with
  | none => simp only [putOffset, Option.some.injEq] at h; exact h.symm
  | some v =>
    simp only [putOffset, Option.map_eq_some_iff] at h
    obtain ⟨r, hr, hf⟩ := h
    have := ((C17_parse_iff v r).1 hr).1
    rw [hf] at this
    exact ⟨_, _, this⟩

/-- C08: an upload answered with 200 replaced exactly the bytes at its offset with the bytes
of the body, left every other byte of the image alone, did not touch the data of the next
request on the connection, and stayed inside the ticket.  For every backend meeting the
contract, every block size and buffer size, every fragmentation of the body, short reads,
short writes, and every interleaving with cancellation. -/
theorem C08_put_exact {σ : Type} {B : Backend σ} (L : Lawful B) (bufLen : Nat) (hb : 0 < bufLen)
    (hbs : bufLen % B.blockSize = 0) (a : Access) (q : PutReq) (s : σ) (hi : L.Inv s)
    (c : Conn) (hc : Fresh c) (body next : Bytes) (ha : Announces c.req.header body.length)
    (hr : c.rest = body ++ next) (lost : Bool)
    (hok : (serve lost (put B bufLen a q s c)).2.sent = [200]) :
    ∃ offset, UploadOffset q.contentRange offset ∧ (offset : Int) + body.length ≤ a.size ∧
      (∀ i, L.content (serve lost (put B bufLen a q s c)).1 i =
        if offset ≤ i ∧ i < offset + body.length then byteAt body (i - offset)
        else L.content s i) ∧
      (serve lost (put B bufLen a q s c)).2.rest = next := by
  have hp := put_post L bufLen hb hbs a q s hi c.rest body.length c (hc.synced ha)
  unfold serve at hok ⊢
  generalize put B bufLen a q s c = x at hok hp
  obtain ⟨r, s', c'⟩ := x
  obtain ⟨hn, hp⟩ := hp
  simp only at hn hp hok ⊢
  have hs := finish_sent (lost := lost) (r := r) (hn.started.trans hc.started) (hn.sent.trans hc.sent)
  rw [finish_rest]
  have bad : ∀ (e : HErr) (l : List Nat), r = .error e → errorCode e ∈ l → 200 ∉ l → False := by
    intro e l he hl h2
    subst he
    rw [hok] at hs
    rcases hs with h | h
    · simp at h
    · simp only [List.cons.injEq, and_true] at h
      exact h2 (h ▸ hl)
  cases hp with
  | done offset fl ho hf ha' hnr hnc hle hlen inv content rest =>
    refine ⟨offset, putOffset_spec ho, hle, fun i => ?_, ?_⟩
    · rw [content, hr, List.take_left]; rfl
    · rw [rest, hr, List.drop_left]
  | refused e he => exact (bad e _ rfl he (by decide)).elim
  | part offset k e he => exact (bad e _ rfl he (by decide)).elim
  | failed offset e he => exact (bad e _ rfl he (by decide)).elim

/-- C08: an upload with nothing in the way succeeds. -/
theorem C08_put_succeeds {σ : Type} {B : Backend σ} (L : Lawful B) (bufLen : Nat) (hb : 0 < bufLen)
    (hbs : bufLen % B.blockSize = 0) (a : Access) (q : PutReq) (s : σ) (hi : L.Inv s)
    (c : Conn) (hc : Fresh c) (body next : Bytes) (v : Str) (hv : c.req.header = some v)
    (ha : Number v body.length) (hr : c.rest = body ++ next) (lost : Bool) (offset : Nat)
    (hid : q.ticketId ≠ [])
    (hcr : q.contentRange = none ∧ offset = 0 ∨
      ∃ h last complete, q.contentRange = some h ∧ ContentRangeHeader h offset last complete ∧
        (∀ l, last = some l → offset ≤ l) ∧ (∀ l m, last = some l → complete = some m → l < m))
    (hq : q.query = [] ∨ ∃ y, (y = "y" ∨ y = "n") ∧ q.query = [("flush".toList, y.toList)])
    (hauth : a.auth = none) (hnr : a.refused = false) (hnc : a.canceled = false)
    (hsize : (offset : Int) + body.length ≤ a.size)
    (hst : ¬ L.MayFail offset body.length) (hrecv : ∀ k, Recv.fails k ∉ c.recvs)
    (hw : ∀ b ∈ c.writes, b = true) :
    (serve lost (put B bufLen a q s c)).2.sent = [200] := by
  have hann : Announces c.req.header body.length := .inr ⟨v, hv, ha⟩
  have hpo : putOffset q.contentRange = some offset := by
    rcases hcr with ⟨h1, h2⟩ | ⟨h, last, complete, h1, h2, h3, h4⟩
    · rw [h1, h2]; rfl
    · rw [h1]
      have := (C17_parse_iff h ⟨offset, last, complete⟩).2 ⟨h2, h3, h4⟩
      simp [putOffset, this]
  have hen : ∃ fl, enumQuery q.query (lit "flush") [lit "y", lit "n"] (lit "y") = .ok fl := by
    rcases hq with h | ⟨y, rfl | rfl, h⟩
    · rw [h]; exact ⟨_, rfl⟩
    · rw [h]; exact ⟨_, rfl⟩
    · rw [h]; exact ⟨_, rfl⟩
  obtain ⟨fl, hfl⟩ := hen
  have hp := put_post L bufLen hb hbs a q s hi c.rest body.length c (hc.synced hann)
  unfold serve
  generalize put B bufLen a q s c = x at hp
  obtain ⟨r, s', c'⟩ := x
  obtain ⟨hn, hp⟩ := hp
  simp only at hn hp ⊢
  cases hp with
  | done =>
    rw [(finish_ok (hn.started.trans hc.started) (hn.sent.trans hc.sent)
      (by rw [hn.writes]; exact hw)).1, hn.status, hc.status]
  | refused e he why =>
    exfalso
    rcases why with h | h | h | ⟨e, h⟩ | h | ⟨o, h1, h2⟩ | h
    · exact hid h
    · simp [hv] at h
    · simp [hpo] at h
    · simp [hfl] at h
    · exact h hauth
    · rw [hpo] at h1; cases h1; omega
    · simp [hnr] at h
  | part offset k e he _ _ _ _ _ _ _ _ _ why =>
    exfalso
    rcases why with ⟨h, _⟩ | ⟨h, _⟩
    · simp [hnc] at h
    · rw [hr, List.length_append] at h; omega
  | failed offset' e he ho _ _ why =>
    exfalso
    rw [hpo] at ho
    cases ho
    rcases why with h | ⟨k, h⟩
    · exact hst h
    · exact hrecv k h

/-! ## GET -/

theorem get_all {σ : Type} {B : Backend σ} {a : Access} {q : GetReq} {buf : Bytes} {s : σ} {c : Conn}
    (hid : q.ticketId ≠ []) (hq : q.range = none) (ha : a.auth = none) :
    get B a q buf s c = getRange B a false (min a.size (B.size s)) 0 buf s (closeQuery q.query c) := by
  unfold Images.get
  simp [hid, hq, ha]

theorem get_closed {σ : Type} {B : Backend σ} {a : Access} {q : GetReq} {buf : Bytes} {s : σ} {c : Conn}
    (hid : q.ticketId ≠ []) {h : Str} {first last : Nat} (hq : q.range = some h)
    (hp : parseRange h = some ⟨first, some last⟩) (ha : a.auth = none) (hl : first ≤ last) :
    get B a q buf s c =
      if (last : Int) < min a.size (B.size s) then
        getRange B a true (last - first + 1 : Nat) first buf s (closeQuery q.query c)
      else (.error (.http 416), s, closeQuery q.query c) := by
  unfold Images.get
  simp only [hid, hq, ha, hp, if_false]
  rw [if_neg (by omega)]
  have e : (last : Int) - first + 1 = ((last - first + 1 : Nat) : Int) := by omega
  rw [e]
  by_cases h1 : (first : Int) + ((last - first + 1 : Nat) : Int) > a.size
  · rw [if_pos h1, if_neg (by omega)]
  · rw [if_neg h1]
    by_cases h2 : (first : Int) + ((last - first + 1 : Nat) : Int) > min a.size (B.size s)
    · rw [if_pos h2, if_neg (by omega)]
    · rw [if_neg h2, if_pos (by omega)]
      simp

theorem get_open {σ : Type} {B : Backend σ} {a : Access} {q : GetReq} {buf : Bytes} {s : σ} {c : Conn}
    (hid : q.ticketId ≠ []) {h : Str} {first : Nat} (hq : q.range = some h)
    (hp : parseRange h = some ⟨first, none⟩) (ha : a.auth = none) :
    get B a q buf s c =
      getRange B a true (min a.size (B.size s) - first) first buf s (closeQuery q.query c) := by
  unfold Images.get
  simp only [hid, hq, ha, hp, if_false]
  rw [if_neg (by omega)]
  simp

theorem get_wanted {σ : Type} {B : Backend σ} {a : Access} {q : GetReq} {buf : Bytes} {s : σ} {c : Conn}
    (hid : q.ticketId ≠ []) (ha : a.auth = none) {offset size : Nat}
    (hw : Wanted (min a.size (B.size s)) q.range offset size) :
    get B a q buf s c = getRange B a q.range.isSome size offset buf s (closeQuery q.query c) := by
  generalize hr : q.range = rg at hw
  cases hw with
  | all hs => rw [get_all hid hr ha, hs]; rfl
  | @closed h first last hh hl hav =>
    have hp := (C16_parse_iff h _).2 ⟨_, hh, rfl, by rintro _ _ ⟨⟩; exact hl⟩
    rw [get_closed hid hr hp ha hl, if_pos hav]; rfl
  | @fromTo h first size hh hs =>
    have hp := (C16_parse_iff h _).2 ⟨_, hh, rfl, by simp⟩
    rw [get_open hid hr hp ha, ← hs, show (offset : Int) + size - offset = size by omega]
    rfl

/-- What the client received when it asked for the bytes `want`. -/
inductive Download (want : Bytes) (code : Nat) (range : Option Str) (c : Conn) : Prop
  /-- the connection broke before the response -/
  | nothing (hs : c.sent = []) (hb : c.body = [])
  /-- an error, without data -/
  | error (e : Nat) (he : e ∈ [400, 403, 416, 500]) (hs : c.sent = [e]) (hb : c.body = [])
  /-- the response header, and the data; if some are missing the connection is closed -/
  | data (hs : c.sent = [code]) (hl : c.hdrLength = want.length) (hr : c.hdrRange = range)
      (hb : c.body <+: want) (hc : c.body = want ∨ c.closing = true)

theorem load_prefix (f : Nat → Byte) (off : Nat) {k n : Nat} (h : k ≤ n) :
    load f off k <+: load f off n := by
  obtain ⟨m, rfl⟩ := Nat.exists_eq_add_of_le h
  rw [← load_append]
  exact List.prefix_append _ _

theorem getPost_download {σ : Type} {B : Backend σ} {L : Lawful B} {a : Access} {ranged : Bool}
    {size offset : Nat} {s : σ} {c c1 : Conn} (hc : NoResponse c c1) (hf : Fresh c) {r : Except HErr Unit}
    {s' : σ} {c' : Conn} (h : GetPost L a ranged size offset s c1 r s' c') (lost : Bool) :
    Download (load (L.content s) offset size) (if ranged then 206 else 200)
      (if ranged then some (serverContentRange offset size a.size) else c1.hdrRange)
      (finish lost (r, c')) := by
  obtain ⟨k, hk, hbody, hkok, _⟩ := h.body
  have hst : c1.status = 200 := hc.status.trans hf.status
  have hpre : c'.body <+: load (L.content s) offset size := by rw [hbody]; exact load_prefix _ _ hk
  have hstat : c'.status = if ranged = true then 206 else 200 := by rw [h.status, hst]
  obtain ⟨f1, f2, f3⟩ := finish_fields lost r c'
  by_cases hs : c'.started = true
  · have hsent : (finish lost (r, c')).sent = c'.sent := by
      cases r with
      | ok _ => rw [finish_started_ok hs]
      | error e => rw [finish_started_err hs]; rfl
    rcases h.sent hs with ⟨h1, h2, _⟩ | h1
    · exact .nothing (hsent.trans h1) (f1.trans h2)
    · refine .data (by rw [hsent, h1, hstat]) (by rw [f2, h.hdrLength, load_length])
        (by rw [f3, h.hdrRange]) (by rw [f1]; exact hpre) ?_
      cases r with
      | ok _ => left; rw [f1, hbody, hkok rfl]
      | error e => right; rw [finish_started_err hs]; rfl
  · have hs : c'.started = false := by simpa using hs
    obtain ⟨h1, h2⟩ := h.idle hs
    rcases finish_sent (lost := lost) (r := r) hs h1 with h3 | h3
    · exact .nothing h3 (f1.trans h2)
    · cases r with
      | ok _ =>
        refine .data (by rw [h3, hstat]) (by rw [f2, h.hdrLength, load_length])
          (by rw [f3, h.hdrRange]) (by rw [f1]; exact hpre) ?_
        left; rw [f1, hbody, hkok rfl]
      | error e =>
        refine .error _ ?_ h3 (f1.trans h2)
        have := h.errCode e rfl
        simp only [List.mem_cons, List.not_mem_nil, or_false] at this ⊢
        omega

/-- The Content-Range header of a response names the bytes of its body. -/
def Describes (range : Option Str) (offset size : Nat) (ticketSize : Int) : Prop :=
  ∃ h last complete, range = some h ∧ ContentRangeHeader h offset (some last) (some complete) ∧
    last + 1 = offset + size ∧ (complete : Int) = ticketSize

/-- Errors leave the response without data. -/
theorem refused_download {want : Bytes} {code : Nat} {range : Option Str} {c c' : Conn} (hf : Fresh c)
    (hn : NoResponse c c') {e : HErr} (he : errorCode e ∈ [400, 403, 416, 500]) (lost : Bool) :
    Download want code range (finish lost (.error e, c')) := by
  have hb := (finish_fields lost (.error e) c').1.trans (hn.body.trans hf.body)
  rcases finish_sent (lost := lost) (r := .error e) (hn.started.trans hf.started)
    (hn.sent.trans hf.sent) with h | h
  · exact .nothing h hb
  · exact .error _ he h hb

/-- C11: a download of a valid range answers with exactly the bytes of the image in this
range, and with headers that describe them; or with an error and no data; or the connection
breaks before the end, and is closed.  The image is not changed.  For every backend meeting
the contract, every range, block size and buffer size, short reads of the storage, failures
and cancellation. -/
theorem C11_get_exact {σ : Type} {B : Backend σ} (L : Lawful B) (a : Access) (q : GetReq)
    (buf : Bytes) (hb : 0 < buf.length) (hbs : buf.length % B.blockSize = 0) (s : σ) (hi : L.Inv s)
    (c : Conn) (hc : Fresh c) (offset size : Nat)
    (hw : Wanted (min a.size (B.size s)) q.range offset size) (lost : Bool) :
    (∃ range, (q.range = none → range = none) ∧
      (q.range ≠ none → 0 < size → Describes range offset size a.size) ∧
      Download (load (L.content s) offset size) (if q.range = none then 200 else 206) range
        (serve lost (Images.get B a q buf s c)).2) ∧
    L.content (serve lost (Images.get B a q buf s c)).1 = L.content s ∧
    L.durable (serve lost (Images.get B a q buf s c)).1 = L.durable s := by
  obtain ⟨hq1, _, _, _, hq5⟩ := closeQuery_frame q.query c
  have hin : (offset : Int) + size ≤ a.size := by
    generalize q.range = rg at hw
    cases hw <;> omega
  have hdesc : 0 < size → Describes (some (serverContentRange offset size a.size)) offset size a.size := by
    intro hpos
    have e : a.size = (a.size.toNat : Int) := by omega
    obtain ⟨last, hl, hl2⟩ := C17_server_round_trip offset size a.size.toNat hpos (by omega)
    have h1 := ((C17_parse_iff _ _).1 hl).1
    simp only at h1
    rw [← e] at h1
    exact ⟨_, last, _, rfl, h1, hl2, e.symm⟩
  have hno : q.range = none → q.range.isSome = false := by intro h; rw [h]; rfl
  by_cases hid : q.ticketId = []
  · have e : Images.get B a q buf s c = (.error (.http 400), s, c) := by
      unfold Images.get; simp [hid]
    refine ⟨⟨if q.range = none then none else some (serverContentRange offset size a.size), ?_, ?_, ?_⟩, ?_, ?_⟩
    · intro h; simp [h]
    · intro h hpos; rw [if_neg h]; exact hdesc hpos
    · rw [e]; exact refused_download hc (.refl c) (by decide) lost
    · rw [e]; rfl
    · rw [e]; rfl
  cases hau : a.auth with
  | some err =>
    have e : ∃ err', Images.get B a q buf s c =
          (.error err', s, (raiseErr err (closeQuery q.query c)).2) ∧ errorCode err' ∈ [403, 400, 500] := by
      obtain ⟨e', he', hc'⟩ := raiseErr_code err (closeQuery q.query c)
      refine ⟨e', ?_, hc'⟩
      generalize hr : q.range = rg at hw
      cases hw with
      | all _ => unfold Images.get; simp [hid, hr, hau, he']
      | @closed h first last hh hl _ =>
        have hp := (C16_parse_iff h _).2 ⟨_, hh, rfl, by rintro _ _ ⟨⟩; exact hl⟩
        unfold Images.get
        simp [hid, hr, hau, hp, he', rangeOf]
        omega
      | @fromTo h first size hh hs =>
        have hp := (C16_parse_iff h _).2 ⟨_, hh, rfl, by simp⟩
        unfold Images.get
        simp [hid, hr, hau, hp, he', rangeOf]
        omega
    obtain ⟨err', e, hcode⟩ := e
    have hcon := (raiseErr_conn err (closeQuery q.query c)).1
    refine ⟨⟨if q.range = none then none else some (serverContentRange offset size a.size), ?_, ?_, ?_⟩, ?_, ?_⟩
    · intro h; simp [h]
    · intro h hpos; rw [if_neg h]; exact hdesc hpos
    · rw [e]
      refine refused_download hc (hq1.trans hcon) ?_ lost
      simp only [List.mem_cons, List.not_mem_nil, or_false] at hcode ⊢
      omega
    · rw [e]; rfl
    · rw [e]; rfl
  | none =>
    have e := get_wanted (B := B) (buf := buf) (c := c) hid hau hw
    have hp := getRange_post L a q.range.isSome size offset buf hb hbs s hi (closeQuery q.query c)
      (hq1.started.trans hc.started) (hq1.sent.trans hc.sent) (hq1.body.trans hc.body)
    have hd := getPost_download hq1 hc hp lost
    rw [e]
    have e2 : (if q.range = none then 200 else 206) = if q.range.isSome = true then 206 else 200 := by
      cases q.range <;> rfl
    refine ⟨⟨if q.range.isSome = true then some (serverContentRange offset size a.size)
        else (closeQuery q.query c).hdrRange, ?_, ?_, ?_⟩, hp.content, hp.durable⟩
    · intro h; rw [hno h, hq5, hc.hdrRange]; rfl
    · intro h hpos
      have : q.range.isSome = true := by cases hr : q.range <;> simp_all
      rw [if_pos this]
      exact hdesc hpos
    · rw [e2]
      exact hd

/-- C11: a download with nothing in the way succeeds, and keeps the connection unless the
client asked to close it. -/
theorem C11_get_succeeds {σ : Type} {B : Backend σ} (L : Lawful B) (a : Access) (q : GetReq)
    (buf : Bytes) (hb : 0 < buf.length) (hbs : buf.length % B.blockSize = 0) (s : σ) (hi : L.Inv s)
    (c : Conn) (hc : Fresh c) (offset size : Nat)
    (hw : Wanted (min a.size (B.size s)) q.range offset size) (lost : Bool)
    (hid : q.ticketId ≠ []) (hauth : a.auth = none) (hnr : a.refused = false)
    (hnc : a.canceled = false) (hal : 0 < size ∨ offset % B.blockSize = 0)
    (hst : ¬ L.MayFail offset size) (hwr : ∀ b ∈ c.writes, b = true) :
    (serve lost (Images.get B a q buf s c)).2.sent = [if q.range = none then 200 else 206] ∧
    (serve lost (Images.get B a q buf s c)).2.body = load (L.content s) offset size ∧
    (serve lost (Images.get B a q buf s c)).2.hdrLength = size ∧
    (serve lost (Images.get B a q buf s c)).2.closing =
      (c.closing || decide (queryGet q.query (lit "close") = some (lit "y"))) := by
  obtain ⟨hq1, _, _, _, hq5⟩ := closeQuery_frame q.query c
  have hcl : (closeQuery q.query c).closing =
      (c.closing || decide (queryGet q.query (lit "close") = some (lit "y"))) := by
    unfold closeQuery
    split
    next h => rw [decide_eq_true h]; simp [Conn.close]
    next h => rw [decide_eq_false h]; simp
  have hin : offset + size ≤ B.size s := by
    generalize q.range = rg at hw
    cases hw <;> omega
  have e := get_wanted (B := B) (buf := buf) (c := c) hid hauth hw
  have hp := getRange_post L a q.range.isSome size offset buf hb hbs s hi (closeQuery q.query c)
    (hq1.started.trans hc.started) (hq1.sent.trans hc.sent) (hq1.body.trans hc.body)
  rw [e]
  unfold serve
  generalize getRange B a q.range.isSome size offset buf s (closeQuery q.query c) = x at hp
  obtain ⟨r, s', c'⟩ := x
  simp only at hp ⊢
  have hok : r = .ok () := by
    by_cases h : r = .ok ()
    · exact h
    · exfalso
      rcases hp.why h with h | h | ⟨h, h'⟩ | h | h | h
      · simp [hnr] at h
      · simp [hnc] at h
      · rcases hal with h1 | h1
        · omega
        · exact h' h1
      · omega
      · exact hst h
      · exact h (by rw [hq1.writes]; exact hwr)
  subst hok
  obtain ⟨k, hk, hbody, hkok, _⟩ := hp.body
  obtain ⟨f1, f2, _⟩ := finish_fields lost (.ok ()) c'
  have hstat : c'.status = if q.range = none then 200 else 206 := by
    rw [hp.status, hq1.status, hc.status]
    cases q.range <;> rfl
  refine ⟨?_, by rw [f1, hbody, hkok rfl], by rw [f2, hp.hdrLength], ?_⟩
  · by_cases hs : c'.started = true
    · rw [finish_started_ok hs]
      rcases hp.sent hs with ⟨_, _, h1⟩ | h1
      · exact absurd rfl h1
      · rw [h1, hstat]
    · have hs : c'.started = false := by simpa using hs
      rw [(finish_ok hs (hp.idle hs).1 ((hp.okClose rfl).2 (by rw [hq1.writes]; exact hwr))).1, hstat]
  · rw [← hcl, ← (hp.okClose rfl).1]
    by_cases hs : c'.started = true
    · rw [finish_started_ok hs]
    · have hs : c'.started = false := by simpa using hs
      exact (finish_ok hs (hp.idle hs).1 ((hp.okClose rfl).2 (by rw [hq1.writes]; exact hwr))).2


/-- C11: what cannot be served is refused with 416 and without data: headers that are not
one of the three forms or have the last position before the first, ranges that end after
the available bytes, and non-empty suffixes. -/
theorem C11_unsatisfiable_refused {σ : Type} {B : Backend σ} (a : Access) (q : GetReq)
    (buf : Bytes) (s : σ) (c : Conn) (hc : Fresh c) (n : Nat) (hann : Announces c.req.header n)
    (hid : q.ticketId ≠ []) (hauth : a.auth = none) (hwr : ∀ b ∈ c.writes, b = true) (lost : Bool)
    (h : Str) (hq : q.range = some h)
    (hbad : (∀ f, RangeHeader h f → ∃ first last, f = .closed first last ∧
        (last < first ∨ min a.size (B.size s) ≤ last)) ∨
      ∃ n, 0 < n ∧ RangeHeader h (.suffix n)) :
    (serve lost (Images.get B a q buf s c)).2.sent = [416] ∧
    (serve lost (Images.get B a q buf s c)).2.body = [] ∧
    (serve lost (Images.get B a q buf s c)).1 = s := by
  obtain ⟨hq1, _, hq3, _, _⟩ := closeQuery_frame q.query c
  have e : Images.get B a q buf s c = (.error (.http 416), s, closeQuery q.query c) := by
    cases hp : parseRange h with
    | none =>
      unfold Images.get
      simp [hid, hq, hp]
    | some r =>
      obtain ⟨f, hf, rfl, hle⟩ := (C16_parse_iff h r).1 hp
      rcases hbad with hbad | ⟨n, hn, hbad⟩
      · obtain ⟨first, last, rfl, hx⟩ := hbad f hf
        have hl := hle first last rfl
        rw [get_closed hid hq hp hauth hl, if_neg (by omega)]
      · have := (C16_parse_iff h _).2 ⟨_, hbad, rfl, by simp⟩
        unfold Images.get
        simp only [hid, hq, this, rangeOf, if_false]
        rw [if_pos (by omega)]
  have hlen : LenOk (closeQuery q.query c) := hq1.lenOk (Synced.lenOk (hc.synced hann))
  rw [e]
  unfold serve
  refine ⟨?_, ?_, rfl⟩
  · exact finish_err (hq1.started.trans hc.started) (hq1.sent.trans hc.sent)
      (by rw [hq1.writes]; exact hwr) hlen (.inl (by simp))
  · rw [(finish_fields _ _ _).1]
    exact hq1.body.trans hc.body

/-- C11, C15: no download ever changes the image, whatever was asked for. -/
theorem C11_read_only {σ : Type} {B : Backend σ} (L : Lawful B) (a : Access) (q : GetReq)
    (buf : Bytes) (hbs : buf.length % B.blockSize = 0) (s : σ) (hi : L.Inv s) (c : Conn) (lost : Bool) :
    L.content (serve lost (Images.get B a q buf s c)).1 = L.content s ∧
    L.durable (serve lost (Images.get B a q buf s c)).1 = L.durable s ∧
    B.size (serve lost (Images.get B a q buf s c)).1 = B.size s :=
  have h := get_frame L a q buf hbs s hi c
  ⟨h.content, h.durable, h.bsize⟩

/-! ## C10: truncated uploads -/

/-- C10: when the client sends less than announced, the upload never reports success. -/
theorem C10_never_success {σ : Type} {B : Backend σ} (L : Lawful B) (bufLen : Nat) (hb : 0 < bufLen)
    (hbs : bufLen % B.blockSize = 0) (a : Access) (q : PutReq) (s : σ) (hi : L.Inv s)
    (c : Conn) (hc : Fresh c) (n : Nat) (ha : Announces c.req.header n)
    (hlt : c.rest.length < n) (lost : Bool) :
    200 ∉ (serve lost (put B bufLen a q s c)).2.sent := by
  have hp := put_post L bufLen hb hbs a q s hi c.rest n c (hc.synced ha)
  unfold serve
  generalize put B bufLen a q s c = x at hp
  obtain ⟨r, s', c'⟩ := x
  obtain ⟨hn, hp⟩ := hp
  simp only at hn hp ⊢
  have hs := finish_sent (lost := lost) (r := r) (hn.started.trans hc.started) (hn.sent.trans hc.sent)
  have bad : ∀ (e : HErr) (l : List Nat), r = .error e → errorCode e ∈ l → 200 ∉ l →
      200 ∉ (finish lost (r, c')).sent := by
    intro e l he hl h2 hmem
    subst he
    rcases hs with h | h
    · simp [h] at hmem
    · rw [h] at hmem
      simp only [List.mem_cons, List.not_mem_nil, or_false] at hmem
      exact h2 (hmem ▸ hl)
  cases hp with
  | done _ _ _ _ _ _ _ _ hlen => omega
  | refused e he => exact bad e _ rfl he (by decide)
  | part offset k e he => exact bad e _ rfl he (by decide)
  | failed offset e he => exact bad e _ rfl he (by decide)

/-- C10: when nothing else fails, a truncated upload is answered with 400, and the image
holds exactly the received bytes at the offset; all other bytes are unchanged. -/
theorem C10_prefix_stored {σ : Type} {B : Backend σ} (L : Lawful B) (bufLen : Nat) (hb : 0 < bufLen)
    (hbs : bufLen % B.blockSize = 0) (a : Access) (q : PutReq) (s : σ) (hi : L.Inv s)
    (c : Conn) (hc : Fresh c) (n : Nat) (v : Str) (hv : c.req.header = some v)
    (ha : Number v n) (hlt : c.rest.length < n) (lost : Bool) (offset : Nat)
    (hid : q.ticketId ≠ [])
    (hcr : q.contentRange = none ∧ offset = 0 ∨
      ∃ h last complete, q.contentRange = some h ∧ ContentRangeHeader h offset last complete ∧
        (∀ l, last = some l → offset ≤ l) ∧ (∀ l m, last = some l → complete = some m → l < m))
    (hq : q.query = [] ∨ ∃ y, (y = "y" ∨ y = "n") ∧ q.query = [("flush".toList, y.toList)])
    (hauth : a.auth = none) (hnr : a.refused = false) (hnc : a.canceled = false)
    (hsize : (offset : Int) + n ≤ a.size)
    (hst : ¬ L.MayFail offset n) (hrecv : ∀ k, Recv.fails k ∉ c.recvs)
    (hw : ∀ b ∈ c.writes, b = true) :
    (serve lost (put B bufLen a q s c)).2.sent = [400] ∧
    ∀ i, L.content (serve lost (put B bufLen a q s c)).1 i =
      if offset ≤ i ∧ i < offset + c.rest.length then byteAt c.rest (i - offset)
      else L.content s i := by
  have hann : Announces c.req.header n := .inr ⟨v, hv, ha⟩
  have hpo : putOffset q.contentRange = some offset := by
    rcases hcr with ⟨h1, h2⟩ | ⟨h, last, complete, h1, h2, h3, h4⟩
    · rw [h1, h2]; rfl
    · rw [h1]
      have := (C17_parse_iff h ⟨offset, last, complete⟩).2 ⟨h2, h3, h4⟩
      simp [putOffset, this]
  have hen : ∃ fl, enumQuery q.query (lit "flush") [lit "y", lit "n"] (lit "y") = .ok fl := by
    rcases hq with h | ⟨y, rfl | rfl, h⟩
    · rw [h]; exact ⟨_, rfl⟩
    · rw [h]; exact ⟨_, rfl⟩
    · rw [h]; exact ⟨_, rfl⟩
  obtain ⟨fl, hfl⟩ := hen
  have hsy := hc.synced hann
  have hp := put_post L bufLen hb hbs a q s hi c.rest n c hsy
  unfold serve
  generalize put B bufLen a q s c = x at hp
  obtain ⟨r, s', c'⟩ := x
  obtain ⟨hn, hp⟩ := hp
  simp only at hn hp ⊢
  cases hp with
  | done _ _ _ _ _ _ _ _ hlen => omega
  | refused e he why =>
    exfalso
    rcases why with h | h | h | ⟨e, h⟩ | h | ⟨o, h1, h2⟩ | h
    · exact hid h
    · simp [hv] at h
    · simp [hpo] at h
    · simp [hfl] at h
    · exact h hauth
    · rw [hpo] at h1; cases h1; omega
    · simp [hnr] at h
  | part o k e he ho hle hk hk2 inv content rest _ _ why =>
    rcases why with ⟨h, _⟩ | ⟨_, rfl, rfl⟩
    · simp [hnc] at h
    · refine ⟨?_, fun i => ?_⟩
      · exact finish_err (hn.started.trans hc.started) (hn.sent.trans hc.sent)
          (by rw [hn.writes]; exact hw) (hn.lenOk (Synced.lenOk hsy)) (.inl (by simp))
      · rw [hpo] at ho
        cases ho
        rw [content, List.take_length]
        rfl
  | failed offset' e he ho _ _ why =>
    exfalso
    rw [hpo] at ho
    cases ho
    rcases why with h | ⟨k, h⟩
    · exact hst h
    · exact hrecv k h

/-- C10: the error raised by the operation tells the requested size and how many bytes
were received; and the operation counted exactly the received bytes.  For every source. -/
theorem C10_operation_error {σ τ : Type} {B : Backend σ} {S : Source τ} (L : Lawful B)
    (R : LawfulSource S) (cancel : Nat → Bool) (bufLen size off : Nat) (flush : Bool) (hb : 0 < bufLen)
    (hbs : bufLen % B.blockSize = 0) (s : σ) (t : τ) (hi : L.Inv s) (ht : R.Inv t)
    (hlt : (R.rest t).length < size) (hcan : ∀ n, cancel n = false)
    (hst : ¬ L.MayFail off size) (hsrc : ¬ R.mayFail) :
    (writeRun B S cancel bufLen size off flush s t).1 =
      .error (.partialContent size (R.rest t).length) ∧
    (writeRun B S cancel bufLen size off flush s t).2.done = (R.rest t).length ∧
    L.content (writeRun B S cancel bufLen size off flush s t).2.dst =
      store (L.content s) off (R.rest t) := by
  have hp := writeRun_spec L R cancel bufLen size off flush hb hbs s t hi ht
  generalize writeRun B S cancel bufLen size off flush s t = x at hp
  obtain ⟨r, st⟩ := x
  obtain ⟨hp, _⟩ := hp r st rfl
  cases r with
  | ok _ => obtain ⟨h1, h2⟩ := hp; have := h1.done_le; omega
  | error e =>
    cases e with
    | canceled => obtain ⟨_, _, k, hk⟩ := hp; simp [hcan] at hk
    | partialContent x y =>
      obtain ⟨h1, h2, _, rfl, rfl⟩ := hp
      refine ⟨rfl, h2, ?_⟩
      simp only
      rw [h1.content, h2, List.take_length]
    | os => exact absurd hp.2.1 (by simp [hst, hsrc])
    | exception => exact absurd hp.2.1 (by simp [hst, hsrc])
    | authorization => exact absurd hp.2.1 (by simp [hst, hsrc])
    | stuck => exact absurd hp.2.1 (by simp [hst, hsrc])
    | terminated => exact absurd hp.2.1 (by simp [hst, hsrc])

/-! ## C12: the ticket size -/

/-- C12: no upload changes a byte at or after the ticket size: successful, refused, failed
in any way, or canceled. -/
theorem C12_put_within {σ : Type} {B : Backend σ} (L : Lawful B) (bufLen : Nat) (hb : 0 < bufLen)
    (hbs : bufLen % B.blockSize = 0) (a : Access) (q : PutReq) (s : σ) (hi : L.Inv s)
    (c : Conn) (hc : Fresh c) (n : Nat) (ha : Announces c.req.header n) (lost : Bool)
    (i : Nat) (hout : a.size ≤ i) :
    L.content (serve lost (put B bufLen a q s c)).1 i = L.content s i := by
  have hp := put_post L bufLen hb hbs a q s hi c.rest n c (hc.synced ha)
  unfold serve
  generalize put B bufLen a q s c = x at hp
  obtain ⟨r, s', c'⟩ := x
  obtain ⟨hn, hp⟩ := hp
  simp only at hn hp ⊢
  cases hp with
  | done offset _ _ _ _ _ _ hle hlen _ content =>
    rw [content, store_outside]
    rw [List.length_take]
    omega
  | refused => rfl
  | part offset k e he ho hle hk hk2 inv content =>
    rw [content, store_outside]
    rw [List.length_take]
    omega
  | failed offset e he ho hle damaged =>
    apply damaged.outside
    unfold InRange
    omega

/-- C12: an upload reaching after the ticket size is refused with 416 before anything is
written. -/
theorem C12_put_refused {σ : Type} {B : Backend σ} (L : Lawful B) (bufLen : Nat) (hb : 0 < bufLen)
    (hbs : bufLen % B.blockSize = 0) (a : Access) (q : PutReq) (s : σ) (hi : L.Inv s)
    (c : Conn) (hc : Fresh c) (n : Nat) (v : Str) (hv : c.req.header = some v)
    (ha : Number v n) (lost : Bool) (offset : Nat) (hid : q.ticketId ≠ [])
    (hcr : q.contentRange = none ∧ offset = 0 ∨
      ∃ h last complete, q.contentRange = some h ∧ ContentRangeHeader h offset last complete ∧
        (∀ l, last = some l → offset ≤ l) ∧ (∀ l m, last = some l → complete = some m → l < m))
    (hq : q.query = [] ∨ ∃ y, (y = "y" ∨ y = "n") ∧ q.query = [("flush".toList, y.toList)])
    (hauth : a.auth = none) (hsize : a.size < (offset : Int) + n) (hw : ∀ b ∈ c.writes, b = true) :
    (serve lost (put B bufLen a q s c)).1 = s ∧
    (serve lost (put B bufLen a q s c)).2.sent = [416] := by
  have hann : Announces c.req.header n := .inr ⟨v, hv, ha⟩
  have hpo : putOffset q.contentRange = some offset := by
    rcases hcr with ⟨h1, h2⟩ | ⟨h, last, complete, h1, h2, h3, h4⟩
    · rw [h1, h2]; rfl
    · rw [h1]
      have := (C17_parse_iff h ⟨offset, last, complete⟩).2 ⟨h2, h3, h4⟩
      simp [putOffset, this]
  have hen : ∃ fl, enumQuery q.query (lit "flush") [lit "y", lit "n"] (lit "y") = .ok fl := by
    rcases hq with h | ⟨y, rfl | rfl, h⟩
    · rw [h]; exact ⟨_, rfl⟩
    · rw [h]; exact ⟨_, rfl⟩
    · rw [h]; exact ⟨_, rfl⟩
  obtain ⟨fl, hfl⟩ := hen
  have hsy := hc.synced hann
  have hp := put_post L bufLen hb hbs a q s hi c.rest n c hsy
  unfold serve
  generalize put B bufLen a q s c = x at hp
  obtain ⟨r, s', c'⟩ := x
  obtain ⟨hn, hp⟩ := hp
  simp only at hn hp ⊢
  cases hp with
  | done o _ ho _ _ _ _ hle => rw [hpo] at ho; cases ho; omega
  | part o k e he ho hle => rw [hpo] at ho; cases ho; omega
  | failed o e he ho hle => rw [hpo] at ho; cases ho; omega
  | refused e he why big =>
    refine ⟨rfl, ?_⟩
    rcases big offset hpo hsize with h | h | h | h | ⟨e', h⟩
    · rw [← h]
      refine finish_err (hn.started.trans hc.started) (hn.sent.trans hc.sent)
          (by rw [hn.writes]; exact hw) (hn.lenOk (Synced.lenOk hsy)) (.inl ?_)
      rintro rfl
      simp [errorCode] at h
    · exact absurd h hid
    · simp [hv] at h
    · exact absurd hauth h
    · simp [hfl] at h

/-- The range a download is about, for all the forms that the server accepts, except open
ranges that start after the available bytes. -/
theorem get_accepted {σ : Type} {B : Backend σ} (a : Access) (q : GetReq) (buf : Bytes) (s : σ) (c : Conn)
    (h0 : 0 ≤ a.size)
    (hopen : ∀ h first, q.range = some h → RangeHeader h (.fromTo first) →
      (first : Int) ≤ min a.size (B.size s)) :
    (∃ size offset : Nat, ∃ ranged : Bool, (offset : Int) + size ≤ min a.size (B.size s) ∧
      Images.get B a q buf s c = getRange B a ranged size offset buf s (closeQuery q.query c)) ∨
    ∃ e c', errorCode e ∈ [400, 403, 416, 500] ∧ NoResponse c c' ∧
      Images.get B a q buf s c = (.error e, s, c') := by
  obtain ⟨hq1, _, _, _, _⟩ := closeQuery_frame q.query c
  by_cases hid : q.ticketId = []
  · right
    refine ⟨.http 400, c, by decide, .refl c, ?_⟩
    unfold Images.get; simp [hid]
  cases hau : a.auth with
  | some err =>
    right
    obtain ⟨e', he', hc'⟩ := raiseErr_code err (closeQuery q.query c)
    have hcon := (raiseErr_conn err (closeQuery q.query c)).1
    have hcode := codes_sub3 hc'
    cases hr : q.range with
    | none =>
      refine ⟨e', _, hcode, hq1.trans hcon, ?_⟩
      unfold Images.get
      simp [hid, hr, hau, he']
    | some h =>
      cases hp : parseRange h with
      | none =>
        refine ⟨.http 416, _, by decide, hq1, ?_⟩
        unfold Images.get
        simp [hid, hr, hp]
      | some r =>
        by_cases hneg : r.first < 0
        · refine ⟨.http 416, _, by decide, hq1, ?_⟩
          unfold Images.get
          simp [hid, hr, hp, hneg]
        · refine ⟨e', _, hcode, hq1.trans hcon, ?_⟩
          unfold Images.get
          simp [hid, hr, hp, hneg, hau, he']
  | none =>
    cases hr : q.range with
    | none =>
      left
      refine ⟨(min a.size (B.size s)).toNat, 0, false, by omega, ?_⟩
      rw [get_all hid hr hau, show (((min a.size (B.size s)).toNat : Nat) : Int) = min a.size (B.size s) by omega]
    | some h =>
      cases hp : parseRange h with
      | none =>
        right
        refine ⟨.http 416, _, by decide, hq1, ?_⟩
        unfold Images.get
        simp [hid, hr, hp]
      | some r =>
        obtain ⟨f, hf, rfl, hle⟩ := (C16_parse_iff h r).1 hp
        cases f with
        | closed first last =>
          have hl := hle first last rfl
          rw [get_closed hid hr hp hau hl]
          by_cases hav : (last : Int) < min a.size (B.size s)
          · left
            rw [if_pos hav]
            exact ⟨_, _, _, by omega, rfl⟩
          · right
            rw [if_neg hav]
            exact ⟨_, _, by decide, hq1, rfl⟩
        | fromTo first =>
          left
          have := hopen h first hr hf
          refine ⟨(min a.size (B.size s) - first).toNat, first, true, by omega, ?_⟩
          rw [get_open hid hr hp hau,
            show (((min a.size (B.size s) - first).toNat : Nat) : Int) = min a.size (B.size s) - first by omega]
        | suffix n =>
          by_cases hn : n = 0
          · subst hn
            left
            refine ⟨(min a.size (B.size s)).toNat, 0, true, by omega, ?_⟩
            rw [get_open (first := 0) hid hr hp hau]
            congr 1
            omega
          · right
            refine ⟨.http 416, _, by decide, hq1, ?_⟩
            unfold Images.get
            simp only [hid, hr, hp, rangeOf, if_false]
            rw [if_pos (by omega)]

/-- C12: a download sends only bytes of the image before the ticket size (and before the end
of the image), for every request except open ranges that start after these: see
`C12_counterexample_open_range` for them. -/
theorem C12_get_within_partial {σ : Type} {B : Backend σ} (L : Lawful B) (a : Access) (q : GetReq)
    (buf : Bytes) (hb : 0 < buf.length) (hbs : buf.length % B.blockSize = 0) (s : σ) (hi : L.Inv s)
    (c : Conn) (hc : Fresh c) (lost : Bool) (h0 : 0 ≤ a.size)
    (hopen : ∀ h first, q.range = some h → RangeHeader h (.fromTo first) →
      (first : Int) ≤ min a.size (B.size s)) :
    ∃ offset k : Nat, (offset : Int) + k ≤ min a.size (B.size s) ∧
      (serve lost (Images.get B a q buf s c)).2.body = load (L.content s) offset k := by
  obtain ⟨hq1, _, _, _, _⟩ := closeQuery_frame q.query c
  rcases get_accepted a q buf s c h0 hopen with ⟨size, offset, ranged, hle, e⟩ | ⟨err, c', _, hn, e⟩
  · have hp := getRange_post L a ranged size offset buf hb hbs s hi (closeQuery q.query c)
      (hq1.started.trans hc.started) (hq1.sent.trans hc.sent) (hq1.body.trans hc.body)
    rw [e]
    obtain ⟨k, hk, hbody, _⟩ := hp.body
    refine ⟨offset, k, by omega, ?_⟩
    unfold serve
    rw [(finish_fields _ _ _).1]
    exact hbody
  · rw [e]
    refine ⟨0, 0, by omega, ?_⟩
    unfold serve
    rw [(finish_fields _ _ _).1]
    exact hn.body.trans hc.body

end Imageio.Props
