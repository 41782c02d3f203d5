import Verif.Props.Images

/-! C12–C14 for the PATCH requests: zero and flush. -/
namespace Imageio.Props
open Imageio.Http Imageio.Images Imageio.Spec Imageio.Ops

/-! ## The messages -/

/-- The object `d` has the field `name` with the value `v`; the last of equal names counts. -/
def HasField (d : Json) (name : String) (v : Json) : Prop :=
  ∃ pre post, d = .obj (pre ++ (name.toList, v) :: post) ∧ ∀ f ∈ post, f.1 ≠ name.toList

/-- The object `d` has no field `name`. -/
def NoField (d : Json) (name : String) : Prop :=
  ∃ fields, d = .obj fields ∧ ∀ f ∈ fields, f.1 ≠ name.toList

/-- A number in a message; python accepts booleans as the numbers 0 and 1. -/
def IsNat (v : Json) (n : Nat) : Prop :=
  v = .int n ∨ (v = .bool true ∧ n = 1) ∨ (v = .bool false ∧ n = 0)

/-- The message of a zero request: the size is mandatory, the offset defaults to 0 and
flush to false. -/
structure ZeroMessage (d : Json) (size offset : Nat) (flush : Bool) : Prop where
  op : HasField d "op" (.str "zero".toList)
  size : ∃ v, HasField d "size" v ∧ IsNat v size
  offset : (NoField d "offset" ∧ offset = 0) ∨ ∃ v, HasField d "offset" v ∧ IsNat v offset
  flush : (NoField d "flush" ∧ flush = false) ∨ HasField d "flush" (.bool flush)

theorem find_split {l : List (Str × Json)} {name : Str} {f : Str × Json}
    (h : l.reverse.find? (fun f => f.1 = name) = some f) :
    ∃ pre post, l = pre ++ (name, f.2) :: post ∧ ∀ f ∈ post, f.1 ≠ name := by
  obtain ⟨h1, as, bs, h2, h3⟩ := List.find?_eq_some_iff_append.1 h
  refine ⟨bs.reverse, as.reverse, ?_, ?_⟩
  · have h4 := congrArg List.reverse h2
    rw [List.reverse_reverse, List.reverse_append, List.reverse_cons] at h4
    have : f.1 = name := by simpa using h1
    rw [h4, ← this]
    simp
  · intro g hg
    have := h3 g (by simpa using hg)
    simpa using this

theorem get_some_iff (d : Json) (name : String) (v : Json) :
    d.get (lit name) = .ok (some v) ↔ HasField d name v := by
  constructor
  · intro h
    unfold Json.get at h
    split at h
    next fields =>
      simp only [Except.ok.injEq, Option.map_eq_some_iff] at h
      obtain ⟨f, hf, rfl⟩ := h
      obtain ⟨pre, post, h1, h2⟩ := find_split hf
      exact ⟨pre, post, by rw [h1], h2⟩
    next => simp at h
  · rintro ⟨pre, post, rfl, h⟩
    unfold Json.get
    simp only [Except.ok.injEq, Option.map_eq_some_iff]
    refine ⟨(name.toList, v), ?_, rfl⟩
    rw [List.find?_eq_some_iff_append]
    refine ⟨by simp, post.reverse, pre.reverse, by simp, ?_⟩
    intro a ha
    have := h a (by simpa using ha)
    simpa using this

theorem get_none_iff (d : Json) (name : String) : d.get (lit name) = .ok none ↔ NoField d name := by
  constructor
  · intro h
    unfold Json.get at h
    split at h
    next fields =>
      simp only [Except.ok.injEq, Option.map_eq_none_iff, List.find?_eq_none] at h
      refine ⟨fields, rfl, fun f hf => ?_⟩
      have := h f (by simpa using hf)
      simpa using this
    next => simp at h
  · rintro ⟨fields, rfl, h⟩
    unfold Json.get
    simp only [Except.ok.injEq, Option.map_eq_none_iff, List.find?_eq_none]
    intro f hf
    have := h f (by simpa using hf)
    simpa using this

theorem integer_iff (d : Json) (name : String) (dflt : Option Nat) (n : Nat) :
    integer d (lit name) dflt = .ok n ↔
      (NoField d name ∧ dflt = some n) ∨ ∃ v, HasField d name v ∧ IsNat v n := by
  rw [← get_none_iff]
  simp only [← get_some_iff]
  unfold integer
  cases hg : d.get (lit name) with
  | error e => simp
  | ok o =>
    cases o with
    | none =>
      cases dflt with
      | none => simp
      | some k => simp
    | some v =>
      cases v with
      | int v =>
        by_cases hv : v < 0
        · simp only [if_pos hv, IsNat]
          constructor
          · simp
          · rintro (⟨h, _⟩ | ⟨v', h1, h2⟩)
            · simp at h
            · simp only [Except.ok.injEq, Option.some.injEq] at h1
              subst h1
              rcases h2 with h | ⟨h, _⟩ | ⟨h, _⟩
              · simp only [Json.int.injEq] at h; omega
              · cases h
              · cases h
        · simp only [if_neg hv, IsNat, Except.ok.injEq]
          constructor
          · intro h
            exact .inr ⟨_, rfl, .inl (by rw [← h]; congr 1; omega)⟩
          · rintro (⟨h, _⟩ | ⟨v', h1, h2⟩)
            · simp at h
            · simp only [Option.some.injEq] at h1
              subst h1
              rcases h2 with h | ⟨h, _⟩ | ⟨h, _⟩
              · simp only [Json.int.injEq] at h; omega
              · cases h
              · cases h
      | bool b =>
        simp only [IsNat, Except.ok.injEq]
        constructor
        · intro h
          right
          refine ⟨_, rfl, ?_⟩
          cases b
          · exact .inr (.inr ⟨rfl, h.symm⟩)
          · exact .inr (.inl ⟨rfl, h.symm⟩)
        · rintro (⟨h, _⟩ | ⟨v', h1, h2⟩)
          · simp at h
          · simp only [Option.some.injEq] at h1
            subst h1
            rcases h2 with h | ⟨h, h3⟩ | ⟨h, h3⟩
            · cases h
            · cases h; rw [h3]; rfl
            · cases h; rw [h3]; rfl
      | null => simp [IsNat]
      | float => simp [IsNat]
      | str _ => simp [IsNat]
      | arr => simp [IsNat]
      | obj _ => simp [IsNat]

theorem boolean_iff (d : Json) (name : String) (dflt b : Bool) :
    boolean d (lit name) dflt = .ok b ↔
      (NoField d name ∧ b = dflt) ∨ HasField d name (.bool b) := by
  rw [← get_none_iff, ← get_some_iff]
  unfold boolean
  cases hg : d.get (lit name) with
  | error e => simp
  | ok o =>
    cases o with
    | none => simp [eq_comm]
    | some v => cases v <;> simp

theorem enumJson_iff (d : Json) (name : String) (vs : List Str) (v : Str) :
    enumJson d (lit name) vs = .ok v ↔ HasField d name (.str v) ∧ v ∈ vs := by
  rw [← get_some_iff]
  unfold enumJson
  cases hg : d.get (lit name) with
  | error e => simp
  | ok o =>
    cases o with
    | none => simp
    | some w =>
      cases w with
      | str w =>
        by_cases hw : w ∈ vs
        · simp only [if_pos hw, Except.ok.injEq, Option.some.injEq, Json.str.injEq]
          constructor
          · rintro rfl; exact ⟨rfl, hw⟩
          · exact fun h => h.1
        · simp only [if_neg hw, Except.ok.injEq, Option.some.injEq, Json.str.injEq]
          constructor
          · simp
          · rintro ⟨rfl, h⟩; exact absurd h hw
      | null => simp
      | bool _ => simp
      | int _ => simp
      | float => simp
      | arr => simp
      | obj _ => simp

theorem zeroMessage_iff (d : Json) (size offset : Nat) (fl : Bool) :
    ZeroMessage d size offset fl ↔
      enumJson d (lit "op") [lit "zero", lit "flush"] = .ok (lit "zero") ∧
      integer d (lit "size") none = .ok size ∧ integer d (lit "offset") (some 0) = .ok offset ∧
      boolean d (lit "flush") false = .ok fl := by
  rw [enumJson_iff, integer_iff, integer_iff, boolean_iff]
  constructor
  · rintro ⟨h1, h2, h3, h4⟩
    refine ⟨⟨h1, by simp⟩, .inr h2, ?_, h4⟩
    rcases h3 with ⟨h, rfl⟩ | h
    · exact .inl ⟨h, rfl⟩
    · exact .inr h
  · rintro ⟨⟨h1, _⟩, h2, h3, h4⟩
    refine ⟨h1, ?_, ?_, h4⟩
    · rcases h2 with ⟨_, h⟩ | h
      · simp at h
      · exact h
    · rcases h3 with ⟨h, h'⟩ | h
      · simp only [Option.some.injEq] at h'
        exact .inl ⟨h, h'.symm⟩
      · exact .inr h

/-! ## Zero -/

/-- The answer to a request whose handler failed without writing is not 200. -/
theorem not_success {c c' : Conn} (hc : Fresh c) (hn : NoResponse c c') {e : HErr} {l : List Nat}
    (he : errorCode e ∈ l) (h2 : 200 ∉ l) (lost : Bool) :
    (finish lost (.error e, c')).sent ≠ [200] := by
  intro h
  rcases finish_sent (lost := lost) (r := .error e) (hn.started.trans hc.started)
    (hn.sent.trans hc.sent) with h' | h'
  · simp [h'] at h
  · rw [h'] at h
    simp only [List.cons.injEq, and_true] at h
    exact h2 (h ▸ he)

/-- C13: a zero request answered with 200 zeroed exactly the requested range, inside the
ticket, and left all other bytes alone.  When flush was requested, the storage holds the
result (C14).  For every backend meeting the contract: all the zeroing methods, steps,
alignments and failures of the file, NBD and memory backends. -/
theorem C13_zero_exact {σ : Type} {B : Backend σ} (L : Lawful B) (a : Access)
    (loads : Bytes → Option Json) (ticketId : Str) (s : σ) (hi : L.Inv s) (c : Conn) (hc : Fresh c)
    (body next : Bytes) (ha : Announces c.req.header body.length) (hr : c.rest = body ++ next)
    (lost : Bool) (msg : Json) (hm : loads body = some msg)
    (hz : HasField msg "op" (.str "zero".toList))
    (hok : (serve lost (patch B a loads ticketId s c)).2.sent = [200]) :
    ∃ size offset flush, ZeroMessage msg size offset flush ∧ (offset : Int) + size ≤ a.size ∧
      (∀ i, L.content (serve lost (patch B a loads ticketId s c)).1 i =
        if offset ≤ i ∧ i < offset + size then 0 else L.content s i) ∧
      (flush = true → L.durable (serve lost (patch B a loads ticketId s c)).1 =
        L.content (serve lost (patch B a loads ticketId s c)).1) ∧
      (serve lost (patch B a loads ticketId s c)).2.rest = next := by
  have hsy := hc.synced ha
  rw [hr] at hsy
  have hp := patch_post L a loads ticketId s hi body next c hsy
  unfold serve at hok ⊢
  generalize patch B a loads ticketId s c = x at hok hp
  obtain ⟨r, s', c'⟩ := x
  obtain ⟨hn, hp⟩ := hp
  simp only at hn hp hok ⊢
  rw [finish_rest]
  cases hp with
  | refused e he => exact absurd hok (not_success hc hn he (by decide) lost)
  | flush msg' _ hm' hop =>
    rw [hm] at hm'
    cases hm'
    have h1 := (get_some_iff _ _ _).2 ((enumJson_iff _ _ _ _).1 hop).1
    rw [(get_some_iff _ _ _).2 hz] at h1
    simp only [Except.ok.injEq, Option.some.injEq, Json.str.injEq] at h1
    exact absurd h1 (by decide)
  | zero msg' _ hm' hop post hrest =>
    rw [hm] at hm'
    cases hm'
    cases post with
    | done size offset fl h1 h2 h3 _ _ _ hle inv content _ _ durable =>
      refine ⟨size, offset, fl, (zeroMessage_iff _ _ _ _).2 ⟨hop, h1, h2, h3⟩, hle, fun i => ?_, durable, hrest⟩
      rw [content]
      unfold store
      rw [zeros_length]
      split
      · simp only [byteAt, zeros, List.getD_eq_getElem?_getD]
        rw [List.getElem?_replicate]
        split <;> rfl
      · rfl
    | refused e he => exact absurd hok (not_success hc hn he (by decide) lost)
    | part => exact absurd hok (not_success hc hn (l := [403]) (by decide) (by decide) lost)
    | failed _ _ e he => exact absurd hok (not_success hc hn he (by decide) lost)

/-- C13: a zero request with nothing in the way succeeds. -/
theorem C13_zero_succeeds {σ : Type} {B : Backend σ} (L : Lawful B) (a : Access)
    (loads : Bytes → Option Json) (ticketId : Str) (s : σ) (hi : L.Inv s) (c : Conn) (hc : Fresh c)
    (body next : Bytes) (ha : Announces c.req.header body.length) (hr : c.rest = body ++ next)
    (lost : Bool) (msg : Json) (hm : loads body = some msg) (size offset : Nat) (fl : Bool)
    (hz : ZeroMessage msg size offset fl) (hid : ticketId ≠ []) (hauth : a.auth = none)
    (hnr : a.refused = false) (hnc : a.canceled = false) (hsize : (offset : Int) + size ≤ a.size)
    (hst : ¬ L.MayFail offset size) (hrecv : ∀ k, Recv.fails k ∉ c.recvs)
    (hw : ∀ b ∈ c.writes, b = true) :
    (serve lost (patch B a loads ticketId s c)).2.sent = [200] := by
  have hsy := hc.synced ha
  rw [hr] at hsy
  obtain ⟨z1, z2, z3, z4⟩ := (zeroMessage_iff _ _ _ _).1 hz
  have hp := patch_post L a loads ticketId s hi body next c hsy
  unfold serve
  generalize patch B a loads ticketId s c = x at hp
  obtain ⟨r, s', c'⟩ := x
  obtain ⟨hn, hp⟩ := hp
  simp only at hn hp ⊢
  cases hp with
  | refused e he why =>
    exfalso
    rcases why with h | ⟨k, h⟩ | h | ⟨m, e', h, h'⟩
    · exact hid h
    · exact hrecv k h
    · simp [hm] at h
    · rw [hm] at h
      cases h
      simp [z1] at h'
  | flush msg' _ hm' hop =>
    exfalso
    rw [hm] at hm'
    cases hm'
    rw [z1] at hop
    simp only [Except.ok.injEq] at hop
    exact absurd hop (by decide)
  | zero msg' _ hm' hop post hrest =>
    rw [hm] at hm'
    cases hm'
    cases post with
    | done =>
      rw [(finish_ok (hn.started.trans hc.started) (hn.sent.trans hc.sent)
        (by rw [hn.writes]; exact hw)).1, hn.status, hc.status]
    | refused e he why =>
      exfalso
      rcases why with ⟨e, h⟩ | ⟨e, h⟩ | ⟨e, h⟩ | h | ⟨sz, o, h1, h2, h3⟩ | h
      · simp [z2] at h
      · simp [z3] at h
      · simp [z4] at h
      · exact h hauth
      · rw [z2] at h1
        rw [z3] at h2
        cases h1
        cases h2
        omega
      · simp [hnr] at h
    | part _ _ _ _ _ _ _ _ _ _ hca => simp [hnc] at hca
    | failed sz o e he h1 h2 _ _ why =>
      exfalso
      rw [z2] at h1
      rw [z3] at h2
      cases h1
      cases h2
      exact hst why

/-- C12: no PATCH request, whatever its outcome, changes a byte at or after the ticket
size. -/
theorem C12_patch_within {σ : Type} {B : Backend σ} (L : Lawful B) (a : Access)
    (loads : Bytes → Option Json) (ticketId : Str) (s : σ) (hi : L.Inv s) (c : Conn) (hc : Fresh c)
    (body next : Bytes) (ha : Announces c.req.header body.length) (hr : c.rest = body ++ next)
    (lost : Bool) (i : Nat) (hout : a.size ≤ i) :
    L.content (serve lost (patch B a loads ticketId s c)).1 i = L.content s i := by
  have hsy := hc.synced ha
  rw [hr] at hsy
  have hp := patch_post L a loads ticketId s hi body next c hsy
  unfold serve
  generalize patch B a loads ticketId s c = x at hp
  obtain ⟨r, s', c'⟩ := x
  obtain ⟨hn, hp⟩ := hp
  simp only at hn hp ⊢
  cases hp with
  | refused e he why => rfl
  | flush msg' _ hm' hop post => rw [post.content]
  | zero msg' _ hm' hop post hrest =>
    cases post with
    | done size offset fl _ _ _ _ _ _ hle _ content =>
      rw [content, store_outside]
      rw [zeros_length]
      omega
    | refused => rfl
    | part size offset k _ _ hle hk _ content =>
      rw [content, store_outside]
      rw [zeros_length]
      omega
    | failed size offset e he _ _ hle damaged =>
      apply damaged.outside
      unfold InRange
      omega

/-- C12: a zero request reaching after the ticket size is refused with 416 before anything
is zeroed. -/
theorem C12_zero_refused {σ : Type} {B : Backend σ} (L : Lawful B) (a : Access)
    (loads : Bytes → Option Json) (ticketId : Str) (s : σ) (hi : L.Inv s) (c : Conn) (hc : Fresh c)
    (body next : Bytes) (ha : Announces c.req.header body.length) (hr : c.rest = body ++ next)
    (lost : Bool) (msg : Json) (hm : loads body = some msg) (size offset : Nat) (fl : Bool)
    (hz : ZeroMessage msg size offset fl) (hid : ticketId ≠ []) (hauth : a.auth = none)
    (hsize : a.size < (offset : Int) + size) (hrecv : ∀ k, Recv.fails k ∉ c.recvs)
    (hw : ∀ b ∈ c.writes, b = true) :
    (serve lost (patch B a loads ticketId s c)).1 = s ∧
    (serve lost (patch B a loads ticketId s c)).2.sent = [416] := by
  have hsy := hc.synced ha
  have hlen := Synced.lenOk hsy
  rw [hr] at hsy
  obtain ⟨z1, z2, z3, z4⟩ := (zeroMessage_iff _ _ _ _).1 hz
  have hp := patch_post L a loads ticketId s hi body next c hsy
  unfold serve
  generalize patch B a loads ticketId s c = x at hp
  obtain ⟨r, s', c'⟩ := x
  obtain ⟨hn, hp⟩ := hp
  simp only at hn hp ⊢
  cases hp with
  | refused e he why =>
    exfalso
    rcases why with h | ⟨k, h⟩ | h | ⟨m, e', h, h'⟩
    · exact hid h
    · exact hrecv k h
    · simp [hm] at h
    · rw [hm] at h
      cases h
      simp [z1] at h'
  | flush msg' _ hm' hop =>
    exfalso
    rw [hm] at hm'
    cases hm'
    rw [z1] at hop
    simp only [Except.ok.injEq] at hop
    exact absurd hop (by decide)
  | zero msg' _ hm' hop post hrest =>
    rw [hm] at hm'
    cases hm'
    have same : ∀ {sz o : Nat}, integer msg (lit "size") none = .ok sz →
        integer msg (lit "offset") (some 0) = .ok o → sz = size ∧ o = offset := by
      intro sz o h1 h2
      rw [z2] at h1
      rw [z3] at h2
      cases h1
      cases h2
      exact ⟨rfl, rfl⟩
    cases post with
    | done sz o _ h1 h2 _ _ _ _ hle =>
      obtain ⟨rfl, rfl⟩ := same h1 h2
      omega
    | part sz o _ h1 h2 hle =>
      obtain ⟨rfl, rfl⟩ := same h1 h2
      omega
    | failed sz o _ _ h1 h2 hle =>
      obtain ⟨rfl, rfl⟩ := same h1 h2
      omega
    | refused e he why big =>
      rcases big size offset z2 z3 hsize with rfl | h | ⟨e', h⟩
      · exact ⟨rfl, finish_err (hn.started.trans hc.started) (hn.sent.trans hc.sent)
          (by rw [hn.writes]; exact hw) (hn.lenOk hlen) (.inl (by simp))⟩
      · exact absurd hauth h
      · simp [z4] at h

/-! ## Flush -/

/-- C14: an upload answered with 200 is on the storage, unless the client asked not to
flush. -/
theorem C14_put_flushed {σ : Type} {B : Backend σ} (L : Lawful B) (bufLen : Nat) (hb : 0 < bufLen)
    (hbs : bufLen % B.blockSize = 0) (a : Access) (q : PutReq) (s : σ) (hi : L.Inv s)
    (c : Conn) (hc : Fresh c) (n : Nat) (ha : Announces c.req.header n) (lost : Bool)
    (hok : (serve lost (put B bufLen a q s c)).2.sent = [200])
    (hfl : queryGet q.query "flush".toList ≠ some "n".toList) :
    L.durable (serve lost (put B bufLen a q s c)).1 =
      L.content (serve lost (put B bufLen a q s c)).1 := by
  have hp := put_post L bufLen hb hbs a q s hi c.rest n c (hc.synced ha)
  unfold serve at hok ⊢
  generalize put B bufLen a q s c = x at hok hp
  obtain ⟨r, s', c'⟩ := x
  obtain ⟨hn, hp⟩ := hp
  simp only at hn hp hok ⊢
  cases hp with
  | done offset fl ho hf ha' hnr hnc hle hlen inv content rest _ _ durable =>
    apply durable
    unfold enumQuery at hf
    split at hf
    · simp only [Except.ok.injEq] at hf; exact hf.symm
    next v hv =>
      split at hf
      next hmem =>
        simp only [Except.ok.injEq] at hf
        subst hf
        simp only [List.mem_cons, List.not_mem_nil, or_false] at hmem
        rcases hmem with h | h
        · exact h
        · rw [h] at hv; exact absurd hv hfl
      · simp at hf
  | refused e he => exact absurd hok (not_success hc hn he (by decide) lost)
  | part offset k e he => exact absurd hok (not_success hc hn he (by decide) lost)
  | failed offset e he => exact absurd hok (not_success hc hn he (by decide) lost)

/-- C14: after a flush request answered with 200 everything written before is on the
storage; the request never changes the content, whatever its outcome. -/
theorem C14_flush_request {σ : Type} {B : Backend σ} (L : Lawful B) (a : Access)
    (loads : Bytes → Option Json) (ticketId : Str) (s : σ) (hi : L.Inv s) (c : Conn) (hc : Fresh c)
    (body next : Bytes) (ha : Announces c.req.header body.length) (hr : c.rest = body ++ next)
    (lost : Bool) (msg : Json) (hm : loads body = some msg)
    (hz : HasField msg "op" (.str "flush".toList)) :
    L.content (serve lost (patch B a loads ticketId s c)).1 = L.content s ∧
    ((serve lost (patch B a loads ticketId s c)).2.sent = [200] →
      L.durable (serve lost (patch B a loads ticketId s c)).1 = L.content s) := by
  have hsy := hc.synced ha
  rw [hr] at hsy
  have hp := patch_post L a loads ticketId s hi body next c hsy
  unfold serve
  generalize patch B a loads ticketId s c = x at hp
  obtain ⟨r, s', c'⟩ := x
  obtain ⟨hn, hp⟩ := hp
  simp only at hn hp ⊢
  cases hp with
  | refused e he => exact ⟨rfl, fun hok => absurd hok (not_success hc hn he (by decide) lost)⟩
  | zero msg' _ hm' hop =>
    exfalso
    rw [hm] at hm'
    cases hm'
    have h1 := (get_some_iff _ _ _).2 ((enumJson_iff _ _ _ _).1 hop).1
    rw [(get_some_iff _ _ _).2 hz] at h1
    simp only [Except.ok.injEq, Option.some.injEq, Json.str.injEq] at h1
    exact absurd h1 (by decide)
  | flush msg' _ hm' hop post hrest =>
    refine ⟨post.content, fun hok => ?_⟩
    cases r with
    | ok _ => exact (post.ok rfl).1
    | error e => exact absurd hok (not_success hc hn (post.code e rfl) (by decide) lost)

/-- C14: a flush request with nothing in the way succeeds. -/
theorem C14_flush_succeeds {σ : Type} {B : Backend σ} (L : Lawful B) (a : Access)
    (loads : Bytes → Option Json) (ticketId : Str) (s : σ) (hi : L.Inv s) (c : Conn) (hc : Fresh c)
    (body next : Bytes) (ha : Announces c.req.header body.length) (hr : c.rest = body ++ next)
    (lost : Bool) (msg : Json) (hm : loads body = some msg)
    (hz : HasField msg "op" (.str "flush".toList)) (hid : ticketId ≠ []) (hauth : a.auth = none)
    (hnr : a.refused = false) (hnc : a.canceled = false)
    (hst : ¬ L.mayFail 0) (hrecv : ∀ k, Recv.fails k ∉ c.recvs) (hw : ∀ b ∈ c.writes, b = true) :
    (serve lost (patch B a loads ticketId s c)).2.sent = [200] := by
  have hsy := hc.synced ha
  rw [hr] at hsy
  have hop : enumJson msg (lit "op") [lit "zero", lit "flush"] = .ok (lit "flush") :=
    (enumJson_iff _ _ _ _).2 ⟨hz, by simp⟩
  have hp := patch_post L a loads ticketId s hi body next c hsy
  unfold serve
  generalize patch B a loads ticketId s c = x at hp
  obtain ⟨r, s', c'⟩ := x
  obtain ⟨hn, hp⟩ := hp
  simp only at hn hp ⊢
  cases hp with
  | refused e he why =>
    exfalso
    rcases why with h | ⟨k, h⟩ | h | ⟨m, e', h, h'⟩
    · exact hid h
    · exact hrecv k h
    · simp [hm] at h
    · rw [hm] at h
      cases h
      simp [hop] at h'
  | zero msg' _ hm' hop' =>
    exfalso
    rw [hm] at hm'
    cases hm'
    rw [hop] at hop'
    simp only [Except.ok.injEq] at hop'
    exact absurd hop' (by decide)
  | flush msg' _ hm' hop' post hrest =>
    have hok : r = .ok () := by
      by_cases h : r = .ok ()
      · exact h
      · exfalso
        rcases post.why h with h | h | h | h
        · exact h hauth
        · simp [hnr] at h
        · simp [hnc] at h
        · exact hst h
    subst hok
    rw [(finish_ok (hn.started.trans hc.started) (hn.sent.trans hc.sent)
        (by rw [hn.writes]; exact hw)).1, hn.status, hc.status]

end Imageio.Props
