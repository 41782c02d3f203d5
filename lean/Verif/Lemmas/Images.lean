import Verif.Model.Images
import Verif.Lemmas.HttpServer
import Verif.Lemmas.OpsWrite
import Verif.Lemmas.OpsZero
import Verif.Lemmas.OpsRead

/-! Lemmas about the images handlers. -/
namespace Imageio.Images
open Imageio.Http Imageio.Spec Imageio.Ops

/-! ## The request body as the source of an upload -/

/-- The part of the body that was not read yet. -/
def reqRest (c : Conn) : Bytes :=
  match c.req.getLength.1 with
  | .ok (some k) => c.rest.take k
  | _ => []

theorem reqRest_synced {rest0 : Bytes} {n m : Nat} {c : Conn} (h : Synced rest0 n m c) :
    reqRest c = (rest0.take n).drop m := by
  obtain ⟨req, hg, _⟩ := h.getLength
  unfold reqRest
  rw [hg]
  cases hd : c.req.header with
  | none =>
    have := h.header_none hd
    subst this
    simp
  | some v =>
    simp only [Option.map_some]
    rw [h.rest, List.drop_take]

/-- The body of the current request is a lawful source; reads fail only if the socket
fails. -/
def reqLaw (rest0 : Bytes) (n : Nat) (P : Prop) : LawfulSource reqSource where
  Inv c := (∃ m, Synced rest0 n m c) ∧ ∀ k, Recv.fails k ∈ c.recvs → P
  rest := reqRest
  mayFail := P
  readinto := by
    rintro c sz d c' ⟨⟨m, h⟩, hP⟩ hr
    have hpost := h.readinto sz
    simp only [reqSource] at hr
    generalize c.readinto sz = x at hr hpost
    obtain ⟨r, c1⟩ := x
    simp only at hpost
    cases hpost with
    | data k _ hk hk2 hsy same he hle _ =>
      simp only [Prod.mk.injEq, Except.ok.injEq] at hr
      obtain ⟨rfl, rfl⟩ := hr
      refine ⟨?_, ?_, ?_, ⟨_, hsy⟩, fun j hj => hP j (same.recvs j hj)⟩
      · rw [List.length_take]
        have := hle sz rfl
        omega
      · rw [reqRest_synced h, reqRest_synced hsy]
        have e1 : (rest0.drop m).take k = ((rest0.take n).drop m).take k := by
          rw [List.drop_take, List.take_take, Nat.min_eq_left (by omega)]
        rw [e1, ← List.drop_drop, List.take_append_drop]
      · intro hpos hnil
        have h0 : k = 0 := by
          rcases hk2 with h0 | h0
          · exact h0
          · have := congrArg List.length hnil
            rw [List.length_take, List.length_drop] at this
            simp only [List.length_nil] at this
            omega
        rw [reqRest_synced h]
        apply List.drop_of_length_le
        rw [List.length_take]
        rcases he h0 with h' | h' | h'
        · omega
        · omega
        · simp only [Option.some.injEq] at h'; omega
    | fail => simp at hr
  readinto_err := by
    rintro c sz e c' ⟨⟨m, h⟩, hP⟩ hr
    have hpost := h.readinto sz
    simp only [reqSource] at hr
    generalize c.readinto sz = x at hr hpost
    obtain ⟨r, c1⟩ := x
    simp only at hpost
    cases hpost with
    | data => simp at hr
    | fail k v _ _ _ _ _ _ hf =>
      simp only [Prod.mk.injEq, Except.error.injEq] at hr
      obtain ⟨rfl, rfl⟩ := hr
      obtain ⟨j, hj⟩ := hf
      exact ⟨trivial, hP j hj⟩

/-! ## Relations preserved by the upload source -/

section Src
variable {σ τ : Type} {B : Backend σ} {S : Source τ} {P : τ → Prop}

theorem fill_src (hP : ∀ t n, P t → P (S.readinto t n).2) :
    ∀ (want : Nat) (t : τ), P t → P (fill S want t).2 := by
  intro want
  induction want using Nat.strongRecOn with
  | ind want ih =>
    intro t ht
    unfold fill
    split
    · exact ht
    · have h1 := hP t want ht
      generalize hx : S.readinto t want = x at h1
      obtain ⟨r, t1⟩ := x
      cases r with
      | error e => exact h1
      | ok d =>
        simp only at h1 ⊢
        split
        · exact h1
        · have h2 := ih (want - d.length) (by omega) t1 h1
          generalize fill S (want - d.length) t1 = y at h2
          obtain ⟨r2, t2⟩ := y
          cases r2 <;> exact h2

theorem writeChunk_src (hP : ∀ t n, P t → P (S.readinto t n).2) (cancel : Nat → Bool)
    (size count : Nat) (st : WriteState σ τ) (h : P st.src) :
    P (writeChunk B S cancel size count st).2.src := by
  unfold writeChunk
  have h1 := fill_src hP count st.src h
  generalize fill S count st.src = x at h1
  obtain ⟨r, t1⟩ := x
  cases r with
  | error e => exact h1
  | ok d =>
    simp only at h1 ⊢
    generalize writeLoop B d.length st.dst 0 d = y
    obtain ⟨r2, s2⟩ := y
    cases r2 with
    | error e => exact h1
    | ok _ =>
      simp only
      split
      · exact h1
      · split <;> exact h1

theorem writeChunks_src (hP : ∀ t n, P t → P (S.readinto t n).2) (cancel : Nat → Bool)
    (bufLen size : Nat) : ∀ (fuel : Nat) (st : WriteState σ τ), P st.src →
      P (writeChunks B S cancel bufLen size fuel st).2.src := by
  intro fuel
  induction fuel with
  | zero =>
    intro st h
    unfold writeChunks
    split <;> exact h
  | succ fuel ih =>
    intro st h
    unfold writeChunks
    split
    · exact h
    · have h1 := writeChunk_src (B := B) hP cancel size (min (size - st.done) bufLen) st h
      generalize writeChunk B S cancel size (min (size - st.done) bufLen) st = x at h1
      obtain ⟨r, st1⟩ := x
      cases r with
      | error e => exact h1
      | ok _ => exact ih st1 h1

theorem writeRun_src (hP : ∀ t n, P t → P (S.readinto t n).2) (cancel : Nat → Bool)
    (bufLen size offset : Nat) (flush : Bool) (s : σ) (t : τ) (h : P t) :
    P (writeRun B S cancel bufLen size offset flush s t).2.src := by
  unfold writeRun
  generalize B.seek s offset = x
  obtain ⟨r, s1⟩ := x
  cases r with
  | error e => exact h
  | ok _ =>
    simp only
    have h1 : P (if offset % B.blockSize ≠ 0 then
          writeChunk B S cancel size (min size (B.blockSize - offset % B.blockSize)) ⟨s1, t, 0, 0⟩
        else (.ok (), ⟨s1, t, 0, 0⟩)).2.src := by
      split
      · exact writeChunk_src hP cancel size _ _ h
      · exact h
    generalize (if offset % B.blockSize ≠ 0 then
          writeChunk B S cancel size (min size (B.blockSize - offset % B.blockSize)) ⟨s1, t, 0, 0⟩
        else (.ok (), ⟨s1, t, 0, 0⟩)) = y at h1
    obtain ⟨r1, st1⟩ := y
    cases r1 with
    | error e => exact h1
    | ok _ =>
      simp only at h1 ⊢
      have h2 := writeChunks_src (B := B) hP cancel bufLen size size st1 h1
      generalize writeChunks B S cancel bufLen size size st1 = z at h2
      obtain ⟨r2, st2⟩ := z
      cases r2 with
      | error e => exact h2
      | ok _ =>
        simp only at h2 ⊢
        split
        · generalize B.flush st2.dst = w
          obtain ⟨r3, s3⟩ := w
          cases r3 <;> exact h2
        · exact h2

end Src

/-- The length of the body is known, or will be. -/
def LenOk (c : Conn) : Prop := ∃ l req, c.req.getLength = (.ok l, req)

theorem getLength_idem {r req : Req} {l : Option Nat} (h : r.getLength = (.ok l, req)) :
    req.getLength = (.ok l, req) := by
  unfold Req.getLength at h
  split at h
  · next hl =>
    simp only [Prod.mk.injEq, Except.ok.injEq] at h
    obtain ⟨rfl, rfl⟩ := h
    simp [Req.getLength, hl]
  · split at h
    · simp only [Prod.mk.injEq, Except.ok.injEq] at h
      obtain ⟨rfl, rfl⟩ := h
      simp [Req.getLength]
    · simp at h

theorem Synced.lenOk {rest0 : Bytes} {n m : Nat} {c : Conn} (h : Synced rest0 n m c) : LenOk c := by
  obtain ⟨req, hg, _⟩ := h.getLength
  exact ⟨_, _, hg⟩

/-- The response part of a connection. -/
structure NoResponse (c0 c : Conn) : Prop where
  started : c.started = c0.started
  sent : c.sent = c0.sent
  writes : c.writes = c0.writes
  status : c.status = c0.status
  body : c.body = c0.body
  lenOk : LenOk c0 → LenOk c

theorem NoResponse.refl (c : Conn) : NoResponse c c := ⟨rfl, rfl, rfl, rfl, rfl, id⟩

theorem readinto_noResponse {c0 c : Conn} (h : NoResponse c0 c) (n : Nat) :
    NoResponse c0 (reqSource.readinto c n).2 := by
  have key : NoResponse c (c.readinto n).2 := by
    unfold Conn.readinto
    split
    · next hl =>
      exact ⟨rfl, rfl, rfl, rfl, rfl, fun ⟨_, _, h2⟩ => by rw [hl] at h2; simp at h2⟩
    · next hl => exact ⟨rfl, rfl, rfl, rfl, rfl, fun _ => ⟨_, _, getLength_idem hl⟩⟩
    · next hl =>
      split
      · exact ⟨rfl, rfl, rfl, rfl, rfl, fun _ => ⟨_, _, getLength_idem hl⟩⟩
      · split
        · exact ⟨rfl, rfl, rfl, rfl, rfl, fun _ => ⟨_, _, rfl⟩⟩
        · exact ⟨rfl, rfl, rfl, rfl, rfl, fun _ => ⟨_, _, getLength_idem hl⟩⟩
  have e : (reqSource.readinto c n).2 = (c.readinto n).2 := by
    simp only [reqSource]
    generalize c.readinto n = x
    obtain ⟨r, c1⟩ := x
    cases r with
    | ok _ => rfl
    | error e => cases e <;> rfl
  rw [e]
  exact ⟨key.1.trans h.1, key.2.trans h.2, key.3.trans h.3, key.4.trans h.4, key.5.trans h.5,
    fun hl => key.6 (h.6 hl)⟩

/-- Errors raised by the images handlers never look like success. -/
theorem raiseErr_code (e : Err) (c : Conn) :
    ∃ e', (raiseErr e c).1 = .error e' ∧ errorCode e' ∈ [403, 400, 500] := by
  cases e <;> simp [raiseErr, errorCode]

theorem raiseErr_conn (e : Err) (c : Conn) :
    NoResponse c (raiseErr e c).2 ∧ (raiseErr e c).2.rest = c.rest ∧
      (raiseErr e c).2.req = c.req := by
  cases e <;> exact ⟨⟨rfl, rfl, rfl, rfl, rfl, id⟩, rfl, rfl⟩

theorem finish_frame {lost : Bool} {x : Except HErr Unit × Conn} :
    (finish lost x).sent = (routerEnd lost x).2.sent ∧
      (finish lost x).rest = (routerEnd lost x).2.rest := by
  unfold finish
  generalize routerEnd lost x = y
  obtain ⟨r, c⟩ := y
  cases r <;> exact ⟨rfl, rfl⟩

/-- A handler that did not write anything: the status that is sent, if any, is the error
code, or the status set by the handler. -/
theorem finish_sent {lost : Bool} {r : Except HErr Unit} {c : Conn} (hs : c.started = false)
    (hn : c.sent = []) :
    (finish lost (r, c)).sent = [] ∨
      (finish lost (r, c)).sent = [match r with | .ok _ => c.status | .error e => errorCode e] := by
  have write : ∀ c : Conn, c.started = false → c.sent = [] →
      (c.write []).2.sent = if (c.writes.headD true) then [c.status] else [] := by
    intro c h1 h2
    unfold Conn.write
    simp only
    split <;> simp [h1, h2]
  have herr : ∀ (e : HErr) (c : Conn), c.started = false → c.sent = [] →
      (handleError lost e c).2.sent = [] ∨ (handleError lost e c).2.sent = [errorCode e] := by
    intro e c h1 h2
    unfold handleError
    split
    · exact .inl h2
    · simp only [h1]
      generalize c.req.getLength = x
      obtain ⟨r, req⟩ := x
      cases r with
      | error _ => exact .inl h2
      | ok len =>
        simp only
        have : ∀ c' : Conn, c'.started = false → c'.sent = [] →
            (c'.sendError (errorCode e)).2.sent = [] ∨
            (c'.sendError (errorCode e)).2.sent = [errorCode e] := by
          intro c' h3 h4
          unfold Conn.sendError
          rw [if_neg (by simp [h3])]
          have h5 := write { c' with status := errorCode e } h3 h4
          generalize Conn.write [] { c' with status := errorCode e } = z at h5
          simp only [h5]
          split
          · exact .inr rfl
          · exact .inl rfl
        apply this
        · cases len with
          | none => rfl
          | some n => simp only; split <;> rfl
        · cases len with
          | none => exact h2
          | some n => simp only; split <;> exact h2
  rw [finish_frame.1]
  unfold routerEnd
  cases r with
  | error e => exact herr e c hs hn
  | ok _ =>
    simp only [hs]
    have h3 := write c hs hn
    have h4 := write_frame c []
    have h5 : (c.write []).1 = .ok () → (c.write []).2.sent = [c.status] := by
      intro h
      unfold Conn.write at h ⊢
      simp only at h ⊢
      split at h
      next hw => rw [if_pos hw]; simp [hs, hn]
      next => simp at h
    generalize c.write [] = z at h3 h4 h5
    obtain ⟨r2, c2⟩ := z
    cases r2 with
    | ok _ => exact .inr (h5 rfl)
    | error e =>
      simp only at h3 h4 ⊢
      have : (handleError lost e c2).2.sent = c2.sent := by
        unfold handleError
        split
        · rfl
        · rw [if_pos h4.2.2.2]; rfl
      simp only [Bool.false_eq_true, if_false]
      rw [this]
      rw [h3]
      split
      · exact .inr rfl
      · exact .inl rfl

theorem finish_rest (lost : Bool) (r : Except HErr Unit) (c : Conn) :
    (finish lost (r, c)).rest = c.rest := by
  have herr : ∀ (e : HErr) (c1 : Conn), (handleError lost e c1).2.rest = c1.rest := by
    intro e c1
    unfold handleError
    split
    · rfl
    split
    · rfl
    split
    · rfl
    · simp only [(sendError_frame _ _).2.1]
      split
      · split <;> rfl
      · rfl
  rw [finish_frame.2]
  unfold routerEnd
  cases r with
  | error e => exact herr e c
  | ok _ =>
    simp only
    split
    · rfl
    · have h4 := write_frame c []
      generalize c.write [] = z at h4
      obtain ⟨r2, c2⟩ := z
      cases r2 with
      | ok _ => exact h4.2.1
      | error e => simp only at h4 ⊢; rw [herr]; exact h4.2.1

/-- A handler that succeeded without writing is answered with its status when the socket
works. -/
theorem finish_ok {lost : Bool} {c : Conn} (hs : c.started = false) (hn : c.sent = [])
    (hw : ∀ b ∈ c.writes, b = true) :
    (finish lost (.ok (), c)).sent = [c.status] ∧
      (finish lost (.ok (), c)).closing = c.closing := by
  have hh : c.writes.head?.getD true = true := by
    cases h : c.writes with
    | nil => rfl
    | cons b bs => exact hw b (by simp [h])
  simp [finish, routerEnd, hs, Conn.write, hh, hn]

theorem finish_started_ok {lost : Bool} {c : Conn} (hs : c.started = true) :
    finish lost (.ok (), c) = c := by
  simp [finish, routerEnd, hs]

theorem finish_started_err {lost : Bool} {e : HErr} {c : Conn} (hs : c.started = true) :
    finish lost (.error e, c) = c.close := by
  unfold finish routerEnd handleError
  simp [hs]

/-- The end of the request keeps the data and the headers of the response. -/
theorem finish_fields (lost : Bool) (r : Except HErr Unit) (c : Conn) :
    (finish lost (r, c)).body = c.body ∧ (finish lost (r, c)).hdrLength = c.hdrLength ∧
      (finish lost (r, c)).hdrRange = c.hdrRange := by
  have write : ∀ c1 : Conn, (c1.write []).2.body = c1.body ∧
      (c1.write []).2.hdrLength = c1.hdrLength ∧ (c1.write []).2.hdrRange = c1.hdrRange := by
    intro c1
    unfold Conn.write
    simp only
    split <;> simp
  have herr : ∀ (e : HErr) (c1 : Conn), (handleError lost e c1).2.body = c1.body ∧
      (handleError lost e c1).2.hdrLength = c1.hdrLength ∧
      (handleError lost e c1).2.hdrRange = c1.hdrRange := by
    intro e c1
    unfold handleError
    split
    · exact ⟨rfl, rfl, rfl⟩
    split
    · exact ⟨rfl, rfl, rfl⟩
    split
    · exact ⟨rfl, rfl, rfl⟩
    · next len req hl =>
      have key : ∀ c2 : Conn, c2.body = c1.body → c2.hdrLength = c1.hdrLength →
          c2.hdrRange = c1.hdrRange → (c2.sendError (errorCode e)).2.body = c1.body ∧
          (c2.sendError (errorCode e)).2.hdrLength = c1.hdrLength ∧
          (c2.sendError (errorCode e)).2.hdrRange = c1.hdrRange := by
        intro c2 h1 h2 h3
        unfold Conn.sendError
        split
        · exact ⟨h1, h2, h3⟩
        · have := write { c2 with status := errorCode e }
          exact ⟨this.1.trans h1, this.2.1.trans h2, this.2.2.trans h3⟩
      apply key
      · cases len with
        | none => rfl
        | some v => simp only; split <;> rfl
      · cases len with
        | none => rfl
        | some v => simp only; split <;> rfl
      · cases len with
        | none => rfl
        | some v => simp only; split <;> rfl
  have hr : (routerEnd lost (r, c)).2.body = c.body ∧ (routerEnd lost (r, c)).2.hdrLength = c.hdrLength ∧
      (routerEnd lost (r, c)).2.hdrRange = c.hdrRange := by
    unfold routerEnd
    cases r with
    | error e => exact herr e c
    | ok _ =>
      simp only
      split
      · exact ⟨rfl, rfl, rfl⟩
      · have h4 := write c
        generalize c.write [] = z at h4
        obtain ⟨r2, c2⟩ := z
        cases r2 with
        | ok _ => exact h4
        | error e =>
          have := herr e c2
          exact ⟨this.1.trans h4.1, this.2.1.trans h4.2.1, this.2.2.trans h4.2.2⟩
  unfold finish
  generalize routerEnd lost (r, c) = y at hr
  obtain ⟨r2, c2⟩ := y
  cases r2 <;> exact hr

theorem finish_lost {e : HErr} (he : e ≠ .socket) (lost : Bool) (c : Conn) :
    finish lost (.error e, c) = finish false (.error e, c) := by
  unfold finish routerEnd handleError
  simp [he]

/-- A handler that failed without writing is answered with the error code when the socket
works. -/
theorem finish_err {lost : Bool} {e : HErr} {c : Conn} (hs : c.started = false) (hn : c.sent = [])
    (hw : ∀ b ∈ c.writes, b = true) (hl : LenOk c) (he : e ≠ .socket ∨ lost = false) :
    (finish lost (.error e, c)).sent = [errorCode e] := by
  have h0 : finish lost (.error e, c) = finish false (.error e, c) := by
    rcases he with he | he
    · exact finish_lost he lost c
    · rw [he]
  rw [h0]
  obtain ⟨l, req, hl⟩ := hl
  have := handleError_sends e ⟨fun _ => hn, by simp [hn]⟩ ⟨hw, by simp [hs]⟩ hs hl
  unfold finish routerEnd
  simp only
  generalize handleError false e c = y at this
  obtain ⟨r2, c2⟩ := y
  obtain ⟨h1, h2⟩ := this
  simp only at h1 h2
  subst h2
  exact h1

/-! ## PUT -/

theorem NoResponse.trans {a b c : Conn} (h : NoResponse a b) (h' : NoResponse b c) :
    NoResponse a c :=
  ⟨h'.1.trans h.1, h'.2.trans h.2, h'.3.trans h.3, h'.4.trans h.4, h'.5.trans h.5,
    fun hl => h'.6 (h.6 hl)⟩

/-- Why `put` refuses a request before the storage is touched. -/
def PutRefusal (a : Access) (q : PutReq) (hdr : Option Str) (n : Nat) : Prop :=
  q.ticketId = [] ∨ hdr = none ∨ putOffset q.contentRange = none ∨
    (∃ e, enumQuery q.query (lit "flush") [lit "y", lit "n"] (lit "y") = .error e) ∨
    a.auth ≠ none ∨ (∃ offset : Nat, putOffset q.contentRange = some offset ∧
      a.size < (offset : Int) + n) ∨ a.refused = true

/-- The possible outcomes of `put`. -/
inductive PutPost {σ : Type} {B : Backend σ} (L : Lawful B) (a : Access) (q : PutReq)
    (hdr : Option Str) (s : σ) (rest0 : Bytes) (n : Nat) (recvs : List Recv) : Except HErr Unit → σ → Conn → Prop
  | done (offset : Nat) (fl : Str) {s' : σ} {c' : Conn}
      (ho : putOffset q.contentRange = some offset)
      (hf : enumQuery q.query (lit "flush") [lit "y", lit "n"] (lit "y") = .ok fl)
      (ha : a.auth = none) (hnr : a.refused = false) (hnc : a.canceled = false)
      (hle : (offset : Int) + n ≤ a.size) (hn : n ≤ rest0.length) (inv : L.Inv s')
      (content : L.content s' = store (L.content s) offset (rest0.take n))
      (rest : c'.rest = rest0.drop n)
      (size_ge : B.size s ≤ B.size s')
      (size_le : B.size s' ≤ max (B.size s) ((offset + n + B.blockSize - 1) / B.blockSize * B.blockSize))
      (durable : fl = lit "y" → L.durable s' = L.content s') :
      PutPost L a q hdr s rest0 n recvs (.ok ()) s' c'
  | refused (e : HErr) (he : errorCode e ∈ [400, 403, 416, 500]) {c' : Conn}
      (why : PutRefusal a q hdr n)
      (big : ∀ offset : Nat, putOffset q.contentRange = some offset → a.size < (offset : Int) + n →
        errorCode e = 416 ∨ q.ticketId = [] ∨ hdr = none ∨ a.auth ≠ none ∨
          ∃ e, enumQuery q.query (lit "flush") [lit "y", lit "n"] (lit "y") = .error e) :
      PutPost L a q hdr s rest0 n recvs (.error e) s c'
  | part (offset k : Nat) (e : HErr) (he : errorCode e ∈ [400, 403]) {s' : σ} {c' : Conn}
      (ho : putOffset q.contentRange = some offset) (hle : (offset : Int) + n ≤ a.size)
      (hk : k ≤ n) (hk2 : k ≤ rest0.length) (inv : L.Inv s')
      (content : L.content s' = store (L.content s) offset (rest0.take k))
      (rest : c'.rest = rest0.drop k)
      (size_ge : B.size s ≤ B.size s')
      (size_le : B.size s' ≤ max (B.size s) ((offset + k + B.blockSize - 1) / B.blockSize * B.blockSize))
      (why : (a.canceled = true ∧ e = .http 403) ∨
        (rest0.length < n ∧ k = rest0.length ∧ e = .http 400)) :
      PutPost L a q hdr s rest0 n recvs (.error e) s' c'
  | failed (offset : Nat) (e : HErr) (he : errorCode e ∈ [403, 500]) {s' : σ} {c' : Conn}
      (ho : putOffset q.contentRange = some offset) (hle : (offset : Int) + n ≤ a.size)
      (damaged : L.Damaged offset n s s')
      (why : L.MayFail offset n ∨ ∃ k, Recv.fails k ∈ recvs) :
      PutPost L a q hdr s rest0 n recvs (.error e) s' c'

theorem synced_rest_len {rest0 : Bytes} {n m m' : Nat} {c : Conn} (h : Synced rest0 n m c)
    (hr : reqRest c = (rest0.take n).drop m') (hm' : m' ≤ n) (hm2 : m' ≤ rest0.length) :
    c.rest = rest0.drop m' := by
  have h1 := reqRest_synced h
  rw [hr] at h1
  have h2 := congrArg List.length h1
  simp only [List.length_drop, List.length_take] at h2
  have hle := h.le
  rw [h.rest]
  by_cases hx : m ≤ rest0.length
  · have : m = m' := by omega
    rw [this]
  · rw [List.drop_of_length_le (by omega), List.drop_of_length_le (by omega)]

theorem putAuthorized_post {σ : Type} {B : Backend σ} (L : Lawful B) (bufLen : Nat)
    (hb : 0 < bufLen) (hbs : bufLen % B.blockSize = 0) (a : Access) (q : PutReq) (s : σ)
    (hi : L.Inv s) (rest0 : Bytes) (n : Nat) (c : Conn) (h : Synced rest0 n 0 c)
    (recvs : List Recv) (hrec : ∀ k, Recv.fails k ∈ c.recvs → Recv.fails k ∈ recvs)
    (offset : Nat) (fl : Str) (ho : putOffset q.contentRange = some offset)
    (hf : enumQuery q.query (lit "flush") [lit "y", lit "n"] (lit "y") = .ok fl)
    (ha : a.auth = none) (hdr : Option Str) :
    NoResponse c (putAuthorized B bufLen a n offset (fl = lit "y") s c).2.2 ∧
    PutPost L a q hdr s rest0 n recvs (putAuthorized B bufLen a n offset (fl = lit "y") s c).1
      (putAuthorized B bufLen a n offset (fl = lit "y") s c).2.1
      (putAuthorized B bufLen a n offset (fl = lit "y") s c).2.2 := by
  unfold putAuthorized
  by_cases hsz : (offset : Int) + n > a.size
  · rw [if_pos hsz]
    exact ⟨.refl c, .refused _ (by decide)
      (.inr (.inr (.inr (.inr (.inr (.inl ⟨offset, ho, by omega⟩)))))) fun _ _ _ => .inl rfl⟩
  rw [if_neg hsz]
  have hle : (offset : Int) + n ≤ a.size := by omega
  simp only
  unfold ticketRun
  by_cases hre : a.refused = true
  · rw [if_pos hre]
    refine ⟨⟨rfl, rfl, rfl, rfl, rfl, id⟩, .refused _ (by decide)
      (.inr (.inr (.inr (.inr (.inr (.inr hre)))))) fun o ho' hlt => ?_⟩
    rw [ho] at ho'
    cases ho'
    omega
  rw [if_neg hre]
  simp only
  let R := reqLaw rest0 n (∃ k, Recv.fails k ∈ recvs)
  have hsp := writeRun_spec L R a.cancel bufLen n offset (decide (fl = lit "y")) hb hbs s c hi
    ⟨⟨0, h⟩, fun k hk => ⟨k, hrec k hk⟩⟩
  have hresp := writeRun_src (B := B) (S := reqSource) (P := NoResponse c)
    (fun t m ht => readinto_noResponse ht m) a.cancel bufLen n offset (decide (fl = lit "y")) s c
    (.refl c)
  generalize writeRun B reqSource a.cancel bufLen n offset (decide (fl = lit "y")) s c = x at hsp hresp
  obtain ⟨r, st⟩ := x
  obtain ⟨hpost, hdur⟩ := hsp r st rfl
  have hR0 : R.rest c = rest0.take n := by
    show reqRest c = _
    rw [reqRest_synced h, List.drop_zero]
  rw [hR0] at hpost
  simp only at hresp ⊢
  have hlen : (rest0.take n).length = min n rest0.length := List.length_take
  -- what is known after a clean end of the operation
  have prog : Progress L R s offset (rest0.take n) st → st.done ≤ n →
      st.done ≤ rest0.length ∧
      L.content st.dst = store (L.content s) offset (rest0.take st.done) ∧
      st.src.rest = rest0.drop st.done := by
    intro hp hd
    have hle2 := hp.done_le
    rw [hlen] at hle2
    refine ⟨by omega, ?_, ?_⟩
    · rw [hp.content, List.take_take, Nat.min_eq_left hd]
    · obtain ⟨m, hm⟩ := hp.srcInv.1
      exact synced_rest_len hm hp.rest hd (by omega)
  have close : ∀ {d : Conn}, NoResponse c d → NoResponse c d.close :=
    fun hd => ⟨hd.1, hd.2, hd.3, hd.4, hd.5, hd.6⟩
  by_cases hca : a.canceled = true
  · rw [if_pos hca]
    simp only [raiseErr]
    refine ⟨close hresp, ?_⟩
    have part : Progress L R s offset (rest0.take n) st → st.done ≤ n →
        PutPost L a q hdr s rest0 n recvs (.error (.http 403)) st.dst st.src.close := by
      intro hp hd
      obtain ⟨p1, p2, p3⟩ := prog hp hd
      exact .part offset st.done _ (by decide) ho hle hd p1 hp.inv p2 p3 hp.size_ge hp.size_le
        (.inl ⟨hca, rfl⟩)
    cases r with
    | ok _ => exact part hpost.1 (Nat.le_of_eq hpost.2)
    | error e =>
      cases e with
      | canceled => exact part hpost.1 hpost.2.1
      | partialContent r a => exact part hpost.1 (by have := hpost.2; omega)
      | os => exact .failed offset _ (by decide) ho hle hpost.2.2.2.2 hpost.2.1
      | exception => exact .failed offset _ (by decide) ho hle hpost.2.2.2.2 hpost.2.1
      | terminated => exact .failed offset _ (by decide) ho hle hpost.2.2.2.2 hpost.2.1
      | authorization => exact .failed offset _ (by decide) ho hle hpost.2.2.2.2 hpost.2.1
      | stuck => exact .failed offset _ (by decide) ho hle hpost.2.2.2.2 hpost.2.1
  · rw [if_neg hca]
    cases r with
    | ok _ =>
      simp only
      refine ⟨hresp, ?_⟩
      obtain ⟨hp, hd⟩ := hpost
      obtain ⟨p1, p2, p3⟩ := prog hp (Nat.le_of_eq hd)
      have hge := hp.size_ge
      have hsl := hp.size_le
      rw [hd] at p1 p2 p3 hsl
      exact .done offset fl ho hf ha (by simpa using hre) (by simpa using hca) hle p1 hp.inv p2 p3
        hge hsl (fun hy => hdur rfl (by simp [hy]))
    | error e =>
      cases e with
      | canceled =>
        obtain ⟨_, _, m, hm⟩ := hpost
        exact absurd (a.canceled_of m hm) hca
      | partialContent r' a' =>
        simp only [raiseErr]
        refine ⟨hresp, ?_⟩
        obtain ⟨hp, hd, hlt, _⟩ := hpost
        obtain ⟨p1, p2, p3⟩ := prog hp (by omega)
        exact .part offset st.done _ (by decide) ho hle (by omega) p1 hp.inv p2 p3 hp.size_ge hp.size_le
          (.inr ⟨by omega, by omega, rfl⟩)
      | os =>
        exact ⟨hresp, .failed offset _ (by decide) ho hle hpost.2.2.2.2 hpost.2.1⟩
      | exception =>
        exact ⟨hresp, .failed offset _ (by decide) ho hle hpost.2.2.2.2 hpost.2.1⟩
      | terminated => exact False.elim hpost.1
      | authorization => exact False.elim hpost.1
      | stuck => exact False.elim hpost.1

theorem closeQuery_frame (q : List (Str × Str)) (c : Conn) :
    NoResponse c (closeQuery q c) ∧ (closeQuery q c).rest = c.rest ∧
      (closeQuery q c).req = c.req ∧ (closeQuery q c).recvs = c.recvs ∧
      (closeQuery q c).hdrRange = c.hdrRange := by
  unfold closeQuery
  split <;> exact ⟨⟨rfl, rfl, rfl, rfl, rfl, id⟩, rfl, rfl, rfl, rfl⟩

theorem put_post {σ : Type} {B : Backend σ} (L : Lawful B) (bufLen : Nat)
    (hb : 0 < bufLen) (hbs : bufLen % B.blockSize = 0) (a : Access) (q : PutReq) (s : σ)
    (hi : L.Inv s) (rest0 : Bytes) (n : Nat) (c : Conn) (h : Synced rest0 n 0 c) :
    NoResponse c (put B bufLen a q s c).2.2 ∧
    PutPost L a q c.req.header s rest0 n c.recvs (put B bufLen a q s c).1 (put B bufLen a q s c).2.1
      (put B bufLen a q s c).2.2 := by
  unfold put
  split
  · rename_i hid
    exact ⟨.refl c, .refused _ (by decide) (.inl hid) fun _ _ _ => .inr (.inl hid)⟩
  obtain ⟨hq1, hq2, hq3, hq4, _⟩ := closeQuery_frame q.query c
  generalize closeQuery q.query c = c1 at hq1 hq2 hq3 hq4
  simp only
  have hcl := getContentLength_announced (r := c1.req) (n := n) (by rw [hq3]; exact h.announced)
    (by rw [hq3]; exact h.contentLength)
  rw [hcl]
  simp only
  have hs1 : Synced rest0 n 0 { c1 with req := { c1.req with contentLength := some (c1.req.header.map fun _ => n) } } :=
    ⟨by simp only [hq3]; exact h.announced, hq2.trans h.rest, Nat.zero_le _, .inr rfl,
      by have := h.length; rw [← hq3] at this; exact this⟩
  have hnr : NoResponse c { c1 with req := { c1.req with contentLength := some (c1.req.header.map fun _ => n) } } :=
    ⟨hq1.1, hq1.2, hq1.3, hq1.4, hq1.5, fun _ => Synced.lenOk hs1⟩
  have hrec : { c1 with req := { c1.req with contentLength := some (c1.req.header.map fun _ => n) } }.recvs = c.recvs := hq4
  have hmap : ∀ m, (c1.req.header.map fun _ => n) = some m → m = n := by
    intro m hm
    cases hh : c1.req.header with
    | none => simp [hh] at hm
    | some v => simp only [hh, Option.map_some, Option.some.injEq] at hm; exact hm.symm
  generalize { c1 with req := { c1.req with contentLength := some (c1.req.header.map fun _ => n) } } = c2
    at hnr hs1 hrec
  cases hh : c1.req.header.map fun _ => n with
  | none =>
    have hn : c.req.header = none := by rw [hq3] at hh; simpa using hh
    exact ⟨hnr, .refused _ (by decide) (.inr (.inl hn)) fun _ _ _ => .inr (.inr (.inl hn))⟩
  | some m =>
    have := hmap m hh
    subst this
    simp only
    cases hpo : putOffset q.contentRange with
    | none =>
      exact ⟨hnr, .refused _ (by decide) (.inr (.inr (.inl hpo))) fun o ho => by
        rw [hpo] at ho; cases ho⟩
    | some offset =>
      simp only
      cases hen : enumQuery q.query (lit "flush") [lit "y", lit "n"] (lit "y") with
      | error e =>
        simp only
        refine ⟨hnr, .refused _ ?_ (.inr (.inr (.inr (.inl ⟨e, hen⟩))))
          fun _ _ _ => .inr (.inr (.inr (.inr ⟨e, hen⟩)))⟩
        unfold enumQuery at hen
        split at hen
        · cases hen
        · split at hen <;> cases hen
          decide
      | ok fl =>
        simp only
        cases hau : a.auth with
        | some e =>
          simp only
          obtain ⟨e', he', hc'⟩ := raiseErr_code e c2
          have hcc := (raiseErr_conn e c2).1
          generalize raiseErr e c2 = y at he' hcc
          obtain ⟨r, cc⟩ := y
          simp only at he' hcc
          subst he'
          exact ⟨hnr.trans hcc, .refused _ (by
            simp only [List.mem_cons, List.not_mem_nil, or_false] at hc' ⊢; omega)
            (.inr (.inr (.inr (.inr (.inl (by simp [hau]))))))
            fun _ _ _ => .inr (.inr (.inr (.inl (by simp [hau]))))⟩
        | none =>
          simp only
          have := putAuthorized_post L bufLen hb hbs a q s hi rest0 _ _ hs1 c.recvs
            (by rw [hrec]; exact fun _ h => h) offset fl hpo hen hau c.req.header
          exact ⟨hnr.trans this.1, this.2⟩

/-! ## GET -/

theorem readChunk_chunks {σ : Type} {B : Backend σ} (cancel sink : Nat → Bool) (size : Int)
    (skip : Nat) (st : ReadState σ) :
    ((readChunk B cancel sink size skip st).2.chunks = st.chunks ∧
      (readChunk B cancel sink size skip st).2.out = st.out) ∨
    (readChunk B cancel sink size skip st).2.chunks = st.chunks + 1 := by
  unfold readChunk
  split
  · exact .inl ⟨rfl, rfl⟩
  · simp only
    generalize B.readinto st.src (pySlice st.buf 0 (roundUp (size - st.done) B.blockSize)).length = x
    obtain ⟨r, s'⟩ := x
    cases r with
    | error e => exact .inl ⟨rfl, rfl⟩
    | ok d =>
      simp only
      split
      · exact .inl ⟨rfl, rfl⟩
      · split
        · exact .inl ⟨rfl, rfl⟩
        · split <;> exact .inr rfl

theorem readChunks_chunks {σ : Type} {B : Backend σ} (cancel sink : Nat → Bool) (size : Int) :
    ∀ (fuel : Nat) (st : ReadState σ), (st.chunks = 0 → st.out = []) →
      (readChunks B cancel sink size fuel st).2.chunks = 0 →
      (readChunks B cancel sink size fuel st).2.out = [] := by
  intro fuel
  induction fuel with
  | zero =>
    intro st h
    unfold readChunks
    split <;> exact h
  | succ fuel ih =>
    intro st h
    unfold readChunks
    split
    · exact h
    · have hc := readChunk_chunks (B := B) cancel sink size 0 st
      have h' : (readChunk B cancel sink size 0 st).2.chunks = 0 →
          (readChunk B cancel sink size 0 st).2.out = [] := by
        intro h0
        rcases hc with ⟨h1, h2⟩ | h1
        · rw [h2]; exact h (by omega)
        · omega
      generalize readChunk B cancel sink size 0 st = x at h'
      obtain ⟨r, st'⟩ := x
      cases r with
      | error e => exact h'
      | ok _ => exact ih st' h'

theorem readRun_chunks {σ : Type} {B : Backend σ} (cancel sink : Nat → Bool) (buf : Bytes)
    (size : Int) (offset : Nat) (s : σ) :
    (readRun B cancel sink buf size offset s).2.chunks = 0 →
      (readRun B cancel sink buf size offset s).2.out = [] := by
  unfold readRun
  simp only
  generalize B.seek s (offset - offset % B.blockSize) = x
  obtain ⟨r, s'⟩ := x
  cases r with
  | error e => exact fun _ => rfl
  | ok _ =>
    simp only
    have h1 : (if offset % B.blockSize ≠ 0 then
          readChunk B cancel sink size (offset % B.blockSize) ⟨s', buf, [], 0, 0⟩
        else (.ok (), ⟨s', buf, [], 0, 0⟩)).2.chunks = 0 →
        (if offset % B.blockSize ≠ 0 then
          readChunk B cancel sink size (offset % B.blockSize) ⟨s', buf, [], 0, 0⟩
        else (.ok (), ⟨s', buf, [], 0, 0⟩)).2.out = [] := by
      split
      · intro h0
        rcases readChunk_chunks (B := B) cancel sink size (offset % B.blockSize)
          ⟨s', buf, [], 0, 0⟩ with ⟨_, h2⟩ | h1
        · rw [h2]
        · omega
      · exact fun _ => rfl
    generalize (if offset % B.blockSize ≠ 0 then
          readChunk B cancel sink size (offset % B.blockSize) ⟨s', buf, [], 0, 0⟩
        else (.ok (), ⟨s', buf, [], 0, 0⟩)) = y at h1
    obtain ⟨r, st⟩ := y
    cases r with
    | error e => exact h1
    | ok _ => exact readChunks_chunks cancel sink size _ st h1

/-- The possible outcomes of the transfer of `size` bytes at `offset`. -/
structure GetPost {σ : Type} {B : Backend σ} (L : Lawful B) (a : Access) (ranged : Bool)
    (size offset : Nat) (s : σ) (c : Conn) (r : Except HErr Unit) (s' : σ) (c' : Conn) : Prop where
  content : L.content s' = L.content s
  durable : L.durable s' = L.durable s
  rest : c'.rest = c.rest
  req : c'.req = c.req
  hdrLength : c'.hdrLength = size
  status : c'.status = if ranged then 206 else c.status
  hdrRange : c'.hdrRange = if ranged then some (serverContentRange offset size a.size) else c.hdrRange
  idle : c'.started = false → c'.sent = [] ∧ c'.body = []
  sent : c'.started = true → (c'.sent = [] ∧ c'.body = [] ∧ r ≠ .ok ()) ∨ c'.sent = [c'.status]
  body : ∃ k, k ≤ size ∧ c'.body = load (L.content s) offset k ∧ (r = .ok () → k = size) ∧
    (0 < k → offset + k ≤ B.size s)
  inv : L.Inv s'
  bsize : B.size s' = B.size s
  okAccess : r = .ok () → a.refused = false ∧ a.canceled = false
  okClose : r = .ok () → c'.closing = c.closing ∧
    ((∀ b ∈ c.writes, b = true) → (∀ b ∈ c'.writes, b = true))
  errCode : ∀ e, r = .error e → errorCode e ∈ [400, 403, 500]
  why : r ≠ .ok () → a.refused = true ∨ a.canceled = true ∨ (size = 0 ∧ offset % B.blockSize ≠ 0) ∨
    B.size s < offset + size ∨ L.MayFail offset size ∨ ¬ ∀ b ∈ c.writes, b = true

theorem getRange_post {σ : Type} {B : Backend σ} (L : Lawful B) (a : Access) (ranged : Bool)
    (size offset : Nat) (buf : Bytes) (hb : 0 < buf.length) (hbs : buf.length % B.blockSize = 0)
    (s : σ) (hi : L.Inv s) (c : Conn) (hst : c.started = false) (hse : c.sent = [])
    (hbo : c.body = []) :
    GetPost L a ranged size offset s c (getRange B a ranged size offset buf s c).1
      (getRange B a ranged size offset buf s c).2.1 (getRange B a ranged size offset buf s c).2.2 := by
  unfold getRange
  simp only
  generalize hc1 : getHeaders a ranged size offset c = c1
  have e1 : c1.started = false := by subst hc1; exact hst
  have e2 : c1.sent = [] := by subst hc1; exact hse
  have e3 : c1.body = [] := by subst hc1; exact hbo
  have e4 : c1.rest = c.rest := by subst hc1; rfl
  have e5 : c1.req = c.req := by subst hc1; rfl
  have e6 : c1.hdrLength = size := by subst hc1; rfl
  have e7 : c1.status = if ranged then 206 else c.status := by subst hc1; rfl
  have e8 : c1.hdrRange = if ranged then some (serverContentRange offset size a.size) else c.hdrRange := by
    subst hc1; rfl
  have e9 : c1.closing = c.closing := by subst hc1; rfl
  have e10 : c1.writes = c.writes := by subst hc1; rfl
  clear hc1
  unfold ticketRun
  by_cases hre : a.refused = true
  · rw [if_pos hre]
    simp only [raiseErr]
    exact ⟨rfl, rfl, e4, e5, e6, e7, e8, fun _ => ⟨e2, e3⟩, fun h => by simp [Conn.close, e1] at h,
      ⟨0, Nat.zero_le _, e3, by simp, by simp⟩, hi, rfl, by simp, by simp,
      by intro e h; cases h; decide, fun _ => .inl hre⟩
  rw [if_neg hre]
  simp only
  have hsp := readRun_spec L buf a.cancel (fun n => !(c1.writes.getD n true)) size offset hb hbs s hi
  have hch := readRun_chunks (B := B) a.cancel (fun n => !(c1.writes.getD n true)) buf size offset s
  generalize readRun B a.cancel (fun n => !(c1.writes.getD n true)) buf size offset s = x at hsp hch
  obtain ⟨r, st⟩ := x
  obtain ⟨base, hpost⟩ := hsp
  simp only at base hpost hch ⊢
  -- the connection after the transfer
  have ha : ∀ c2, c2 = afterRead c1 r st →
      c2.rest = c.rest ∧ c2.req = c.req ∧ c2.hdrLength = size ∧
      c2.status = (if ranged then 206 else c.status) ∧
      c2.hdrRange = (if ranged then some (serverContentRange offset size a.size) else c.hdrRange) ∧
      (c2.started = false → c2.sent = [] ∧ c2.body = []) ∧
      (c2.started = true → (c2.sent = [] ∧ c2.body = [] ∧ r ≠ .ok ()) ∨ c2.sent = [c2.status]) ∧
      c2.body = st.out ∧ c2.closing = c.closing ∧
      (r = .ok () → c2.writes = c1.writes.drop st.chunks) := by
    intro c2 hc2
    subst hc2
    have base : ∀ c3 : Conn, c3 = { c1 with
          started := c1.started || decide (st.chunks > 0)
          sent := if (c1.started || decide (st.chunks = 0)) = true then c1.sent else c1.sent ++ [c1.status]
          body := c1.body ++ st.out
          writes := c1.writes.drop st.chunks } →
        c3.rest = c.rest ∧ c3.req = c.req ∧ c3.hdrLength = size ∧
        c3.status = (if ranged then 206 else c.status) ∧
        c3.hdrRange = (if ranged then some (serverContentRange offset size a.size) else c.hdrRange) ∧
        (c3.started = false → c3.sent = [] ∧ c3.body = []) ∧
        (c3.started = true → c3.sent = [c3.status]) ∧
        c3.body = st.out ∧ c3.closing = c.closing := by
      intro c3 h3
      subst h3
      simp only
      refine ⟨e4, e5, e6, e7, e8, ?_, ?_, by rw [e3]; rfl, e9⟩
      · intro h
        rw [e1] at h
        have h0 : st.chunks = 0 := by simpa using h
        rw [hch h0, e1, e2, e3, h0]
        exact ⟨rfl, rfl⟩
      · intro h
        rw [e1] at h
        have h0 : st.chunks ≠ 0 := by
          have : 0 < st.chunks := by simpa using h
          omega
        rw [e1, e2]
        simp [h0]
    unfold afterRead
    simp only
    generalize hc3 : ({ c1 with
          started := c1.started || decide (st.chunks > 0)
          sent := if (c1.started || decide (st.chunks = 0)) = true then c1.sent else c1.sent ++ [c1.status]
          body := c1.body ++ st.out
          writes := c1.writes.drop st.chunks } : Conn) = c3
    obtain ⟨b1, b2, b3, b4, b5, b6, b7, b8, b9⟩ := base c3 hc3.symm
    split
    · unfold Conn.write
      simp only
      split
      · refine ⟨b1, b2, b3, b4, b5, by simp, fun _ => ?_, by simp [b8], b9, by simp⟩
        right
        simp only
        by_cases hs3 : c3.started = true
        · rw [if_pos hs3]
          exact b7 hs3
        · rw [if_neg hs3, (b6 (by simpa using hs3)).1]; rfl
      · refine ⟨b1, b2, b3, b4, b5, by simp, fun _ => ?_, b8, b9, by simp⟩
        simp only
        by_cases hs3 : c3.started = true
        · exact .inr (b7 hs3)
        · have := b6 (by simpa using hs3)
          exact .inl ⟨this.1, this.2, by simp⟩
    · exact ⟨b1, b2, b3, b4, b5, b6, fun h => .inr (b7 h), b8, b9, fun _ => by rw [← hc3]⟩
  generalize afterRead c1 r st = c2 at ha
  obtain ⟨a1, a2, a3, a4, a5, a6, a7, a8, a9, a10⟩ := ha c2 rfl
  have hk : st.done.toNat ≤ size := by have := base.done_le; omega
  have hav : 0 < st.done.toNat → offset + st.done.toNat ≤ B.size s := by
    intro h
    have := base.avail (by omega)
    omega
  have fail : ∀ (e : HErr) (c3 : Conn), c3 = c2 ∨ c3 = c2.close → errorCode e ∈ [400, 403, 500] →
      (a.refused = true ∨ a.canceled = true ∨ (size = 0 ∧ offset % B.blockSize ≠ 0) ∨
      B.size s < offset + size ∨ L.MayFail offset size ∨ ¬ ∀ b ∈ c1.writes, b = true) →
      GetPost L a ranged size offset s c (.error e) st.src c3 := by
    intro e c3 hc3 he hw
    have key : GetPost L a ranged size offset s c (.error e) st.src c2 :=
      ⟨base.content, base.durable, a1, a2, a3, a4, a5, a6, fun h => by
          rcases a7 h with h | h
          · exact .inl ⟨h.1, h.2.1, by simp⟩
          · exact .inr h,
        ⟨st.done.toNat, hk, a8.trans base.out, by simp, hav⟩, base.inv, base.bsize, by simp, by simp,
        by intro e' h; cases h; exact he, fun _ => by rw [e10] at hw; exact hw⟩
    rcases hc3 with rfl | rfl
    · exact key
    · exact ⟨key.1, key.2, key.3, key.4, key.5, key.6, key.7, key.8, key.9, key.10, key.11, key.12, by simp, by simp,
        key.15, key.16⟩
  have sinkw : (∃ n, (!(c1.writes.getD n true)) = true) → ¬ ∀ b ∈ c1.writes, b = true := by
    rintro ⟨n, hn⟩ hall
    simp only [Bool.not_eq_true'] at hn
    rw [List.getD_eq_getElem?_getD] at hn
    cases hg : c1.writes[n]? with
    | none => simp [hg] at hn
    | some b =>
      have := hall b (List.mem_of_getElem? hg)
      simp [hg, this] at hn
  by_cases hca : a.canceled = true
  · rw [if_pos hca]
    simp only [raiseErr]
    exact fail _ _ (.inr rfl) (by decide) (.inr (.inl hca))
  · rw [if_neg hca]
    cases r with
    | ok _ =>
      simp only at hpost ⊢
      refine ⟨base.content, base.durable, a1, a2, a3, a4, a5, a6, fun h => by
          rcases a7 h with h | h
          · exact absurd rfl h.2.2
          · exact .inr h,
        ⟨st.done.toNat, hk, a8.trans base.out, fun _ => by have := hpost.1; omega, hav⟩,
        base.inv, base.bsize, fun _ => ⟨by simpa using hre, by simpa using hca⟩, fun _ => ⟨a9, ?_⟩,
        by simp, by simp⟩
      intro hw b hb'
      rw [a10 rfl] at hb'
      rw [e10] at hb'
      exact hw b (List.mem_of_mem_drop hb')
    | error e =>
      cases e with
      | canceled =>
        obtain ⟨_, m, hm⟩ := hpost
        exact absurd (a.canceled_of m hm) hca
      | partialContent r' a' =>
        obtain ⟨_, _, _, hw⟩ := hpost
        simp only [raiseErr]
        refine fail _ _ (.inl rfl) (by decide) ?_
        rcases hw with h | h
        · exact .inr (.inr (.inl h))
        · exact .inr (.inr (.inr (.inl h.1)))
      | os =>
        simp only [raiseErr]
        refine fail _ _ (.inl rfl) (by decide) ?_
        rcases hpost.2 with h | h
        · exact .inr (.inr (.inr (.inr (.inl h))))
        · exact .inr (.inr (.inr (.inr (.inr (sinkw h)))))
      | exception =>
        simp only [raiseErr]
        refine fail _ _ (.inl rfl) (by decide) ?_
        rcases hpost.2 with h | h
        · exact .inr (.inr (.inr (.inr (.inl h))))
        · exact .inr (.inr (.inr (.inr (.inr (sinkw h)))))
      | terminated => exact False.elim hpost.1
      | authorization => exact False.elim hpost.1
      | stuck => exact False.elim hpost.1

/-- What reading never changes. -/
structure Unchanged {σ : Type} {B : Backend σ} (L : Lawful B) (s s' : σ) : Prop where
  inv : L.Inv s'
  content : L.content s' = L.content s
  durable : L.durable s' = L.durable s
  bsize : B.size s' = B.size s

theorem Unchanged.refl {σ : Type} {B : Backend σ} {L : Lawful B} {s : σ} (h : L.Inv s) :
    Unchanged L s s := ⟨h, rfl, rfl, rfl⟩

theorem Unchanged.trans {σ : Type} {B : Backend σ} {L : Lawful B} {s s' s'' : σ}
    (h : Unchanged L s s') (h' : Unchanged L s' s'') : Unchanged L s s'' :=
  ⟨h'.1, h'.2.trans h.2, h'.3.trans h.3, h'.4.trans h.4⟩

theorem slice_aligned (buf : Bytes) (n : Int) (bs : Nat) (hbs : buf.length % bs = 0) :
    (pySlice buf 0 (roundUp n bs)).length % bs = 0 := by
  have hr : ∃ k : Int, roundUp n bs = k * bs := by
    refine ⟨(n + bs - 1) / bs, ?_⟩
    unfold roundUp
    have := Int.mul_ediv_add_emod (n + bs - 1) bs
    rw [Int.mul_comm]
    simp only
    omega
  obtain ⟨k, hk⟩ := hr
  obtain ⟨m, hm⟩ : ∃ m, buf.length = m * bs := ⟨buf.length / bs, by
    have := Nat.div_add_mod buf.length bs
    rw [Nat.mul_comm]; omega⟩
  have h0 : pyBound buf.length 0 = 0 := by simp [pyBound]
  unfold pySlice
  rw [List.length_take, List.length_drop, h0, Nat.sub_zero, Nat.sub_zero, hk]
  unfold pyBound
  split
  · have e : ((buf.length : Int) + k * bs).toNat = (m + k).toNat * bs := by
      rw [hm]
      push_cast
      rw [← Int.add_mul]
      by_cases hneg : 0 ≤ (m : Int) + k
      · obtain ⟨j, hj⟩ := Int.eq_ofNat_of_zero_le hneg
        rw [hj]
        norm_cast
      · have : ((m : Int) + k) * bs ≤ 0 := Int.mul_nonpos_of_nonpos_of_nonneg (by omega) (by omega)
        rw [Int.toNat_of_nonpos this, Int.toNat_of_nonpos (by omega), Nat.zero_mul]
    rw [e]
    exact min_mod _ _ _ (Nat.mul_mod_left _ _) hbs
  · next hneg =>
    have e : (k * (bs : Int)).toNat = k.toNat * bs := by
      by_cases hk0 : 0 ≤ k
      · obtain ⟨j, rfl⟩ := Int.eq_ofNat_of_zero_le hk0
        norm_cast
      · have : k * (bs : Int) ≤ 0 := Int.mul_nonpos_of_nonpos_of_nonneg (by omega) (by omega)
        rw [Int.toNat_of_nonpos this, Int.toNat_of_nonpos (by omega), Nat.zero_mul]
    rw [e]
    exact min_mod _ _ _ (min_mod _ _ _ (Nat.mul_mod_left _ _) hbs) hbs

theorem readChunk_frame {σ : Type} {B : Backend σ} (L : Lawful B) (cancel sink : Nat → Bool) (size : Int)
    (skip : Nat) (st : ReadState σ) (hi : L.Inv st.src) (hbs : st.buf.length % B.blockSize = 0) :
    Unchanged L st.src (readChunk B cancel sink size skip st).2.src ∧
      (readChunk B cancel sink size skip st).2.buf.length = st.buf.length := by
  unfold readChunk
  by_cases hal : B.tell st.src % B.blockSize = 0
  · rw [if_neg (by simp [hal])]
    simp only
    have hmod := slice_aligned st.buf (size - st.done) B.blockSize hbs
    have hlen : (pySlice st.buf 0 (roundUp (size - st.done) B.blockSize)).length ≤ st.buf.length := by
      unfold pySlice
      rw [List.length_take, List.length_drop]
      omega
    generalize (pySlice st.buf 0 (roundUp (size - st.done) B.blockSize)).length = n at hmod hlen
    have h1 := L.readinto st.src n
    have h2 := L.readinto_err st.src n
    generalize B.readinto st.src n = x at h1 h2
    obtain ⟨r, s'⟩ := x
    cases r with
    | error e =>
      obtain ⟨_, _, x1, x2, x3, x4⟩ := h2 e s' hi hal hmod rfl
      exact ⟨⟨x1, x2, x3, x4⟩, rfl⟩
    | ok d =>
      obtain ⟨x1, x2, x3, x4, x5, _⟩ := h1 d s' hi hal hmod rfl
      have hb : (d ++ st.buf.drop d.length).length = st.buf.length := by
        rw [List.length_append, List.length_drop]; omega
      simp only
      split
      · exact ⟨⟨x1, x2, x3, x4⟩, hb⟩
      · split
        · exact ⟨⟨x1, x2, x3, x4⟩, hb⟩
        · split <;> exact ⟨⟨x1, x2, x3, x4⟩, hb⟩
  · rw [if_pos hal]
    exact ⟨.refl hi, rfl⟩

theorem readChunks_frame {σ : Type} {B : Backend σ} (L : Lawful B) (cancel sink : Nat → Bool) (size : Int) :
    ∀ (fuel : Nat) (st : ReadState σ), L.Inv st.src → st.buf.length % B.blockSize = 0 →
      Unchanged L st.src (readChunks B cancel sink size fuel st).2.src := by
  intro fuel
  induction fuel with
  | zero =>
    intro st hi _
    unfold readChunks
    split <;> exact .refl hi
  | succ fuel ih =>
    intro st hi hbs
    unfold readChunks
    split
    · exact .refl hi
    · have hc := readChunk_frame L cancel sink size 0 st hi hbs
      generalize readChunk B cancel sink size 0 st = x at hc
      obtain ⟨r, st'⟩ := x
      cases r with
      | error e => exact hc.1
      | ok _ => exact hc.1.trans (ih st' hc.1.inv (by rw [hc.2]; exact hbs))

theorem readRun_frame {σ : Type} {B : Backend σ} (L : Lawful B) (cancel sink : Nat → Bool) (buf : Bytes)
    (hbs : buf.length % B.blockSize = 0) (size : Int) (offset : Nat) (s : σ) (hi : L.Inv s) :
    Unchanged L s (readRun B cancel sink buf size offset s).2.src := by
  unfold readRun
  simp only
  have hs := L.seek s (offset - offset % B.blockSize)
  generalize B.seek s (offset - offset % B.blockSize) = x at hs
  obtain ⟨r, s'⟩ := x
  obtain ⟨k1, k2, k3, k4, k5, k6⟩ := hs r s' hi rfl
  subst k1
  simp only
  have hu : Unchanged L s s' := ⟨k2, k4, k5, k6⟩
  by_cases hk : offset % B.blockSize = 0
  case neg =>
    rw [if_pos (by simpa using hk)]
    have hc := readChunk_frame L cancel sink size (offset % B.blockSize) ⟨s', buf, [], 0, 0⟩ k2 hbs
    generalize readChunk B cancel sink size (offset % B.blockSize) ⟨s', buf, [], 0, 0⟩ = x at hc
    obtain ⟨r, st'⟩ := x
    cases r with
    | error e => exact hu.trans hc.1
    | ok _ =>
      exact hu.trans (hc.1.trans (readChunks_frame L cancel sink size _ st' hc.1.inv (by rw [hc.2]; exact hbs)))
  case pos =>
    rw [if_neg (by simp [hk])]
    exact hu.trans (readChunks_frame L cancel sink size _ ⟨s', buf, [], 0, 0⟩ k2 hbs)

theorem getRange_frame {σ : Type} {B : Backend σ} (L : Lawful B) (a : Access) (ranged : Bool) (size : Int)
    (offset : Nat) (buf : Bytes) (hbs : buf.length % B.blockSize = 0) (s : σ) (hi : L.Inv s) (c : Conn) :
    Unchanged L s (getRange B a ranged size offset buf s c).2.1 := by
  unfold getRange
  simp only
  generalize getHeaders a ranged size offset c = c1
  have hf := readRun_frame L a.cancel (fun n => !(c1.writes.getD n true)) buf hbs size offset s hi
  unfold ticketRun
  by_cases hre : a.refused = true
  · rw [if_pos hre]
    exact .refl hi
  · rw [if_neg hre]
    simp only
    generalize readRun B a.cancel (fun n => !(c1.writes.getD n true)) buf size offset s = x at hf
    obtain ⟨r, st⟩ := x
    simp only
    by_cases hca : a.canceled = true
    · rw [if_pos hca]
      exact hf
    · rw [if_neg hca]
      cases r with
      | ok _ => exact hf
      | error e => cases e <;> exact hf

/-- No download changes the image. -/
theorem get_frame {σ : Type} {B : Backend σ} (L : Lawful B) (a : Access) (q : GetReq) (buf : Bytes)
    (hbs : buf.length % B.blockSize = 0) (s : σ) (hi : L.Inv s) (c : Conn) :
    Unchanged L s (Images.get B a q buf s c).2.1 := by
  unfold Images.get
  by_cases hid : q.ticketId = []
  · rw [if_pos hid]
    exact .refl hi
  rw [if_neg hid]
  simp only
  generalize closeQuery q.query c = c1
  cases hr : q.range with
  | none =>
    simp only [Int.lt_irrefl, if_false]
    cases a.auth with
    | some e => exact .refl hi
    | none => exact getRange_frame L a _ _ _ buf hbs s hi _
  | some h =>
  simp only
  cases hp : parseRange h with
  | none => exact .refl hi
  | some r =>
  simp only
  by_cases hf : r.first < 0
  · rw [if_pos hf]
    exact .refl hi
  rw [if_neg hf]
  cases a.auth with
  | some e => exact .refl hi
  | none =>
  simp only
  cases r.last with
  | none => exact getRange_frame L a _ _ _ buf hbs s hi _
  | some last =>
    simp only
    by_cases h1 : r.first + ((last : Int) - r.first + 1) > a.size
    · rw [if_pos h1]
      exact .refl hi
    · rw [if_neg h1]
      by_cases h2 : r.first + ((last : Int) - r.first + 1) > min a.size (B.size s)
      · rw [if_pos h2]
        exact .refl hi
      · rw [if_neg h2]
        exact getRange_frame L a _ _ _ buf hbs s hi _

/-! ## PATCH -/

theorem read_noResponse (c : Conn) (n : Option Nat) : NoResponse c (c.read n).2 := by
  unfold Conn.read
  split
  · next hl =>
    exact ⟨rfl, rfl, rfl, rfl, rfl, fun ⟨_, _, h2⟩ => by rw [hl] at h2; simp at h2⟩
  · next hl => exact ⟨rfl, rfl, rfl, rfl, rfl, fun _ => ⟨_, _, getLength_idem hl⟩⟩
  · next hl =>
    split
    · exact ⟨rfl, rfl, rfl, rfl, rfl, fun _ => ⟨_, _, getLength_idem hl⟩⟩
    · simp only
      split
      · exact ⟨rfl, rfl, rfl, rfl, rfl, fun _ => ⟨_, _, rfl⟩⟩
      · exact ⟨rfl, rfl, rfl, rfl, rfl, fun _ => ⟨_, _, getLength_idem hl⟩⟩

/-- Why `_zero` and `_flush` refuse a request before the storage is touched. -/
def ZeroRefusal (a : Access) (msg : Json) : Prop :=
  (∃ e, integer msg (lit "size") none = .error e) ∨
    (∃ e, integer msg (lit "offset") (some 0) = .error e) ∨
    (∃ e, boolean msg (lit "flush") false = .error e) ∨ a.auth ≠ none ∨
    (∃ size offset : Nat, integer msg (lit "size") none = .ok size ∧
      integer msg (lit "offset") (some 0) = .ok offset ∧ a.size < (offset : Int) + size) ∨
    a.refused = true

/-- The possible outcomes of `_zero`. -/
inductive PatchZero {σ : Type} {B : Backend σ} (L : Lawful B) (a : Access) (msg : Json) (s : σ) :
    Except HErr Unit → σ → Prop
  | done (size offset : Nat) (fl : Bool) {s' : σ} (hs : integer msg (lit "size") none = .ok size)
      (ho : integer msg (lit "offset") (some 0) = .ok offset)
      (hf : boolean msg (lit "flush") false = .ok fl)
      (ha : a.auth = none) (hnr : a.refused = false) (hnc : a.canceled = false)
      (hle : (offset : Int) + size ≤ a.size) (inv : L.Inv s')
      (content : L.content s' = store (L.content s) offset (zeros size))
      (size_ge : B.size s ≤ B.size s')
      (size_le : B.size s' ≤ max (B.size s) ((offset + size + B.blockSize - 1) / B.blockSize * B.blockSize))
      (durable : fl = true → L.durable s' = L.content s') :
      PatchZero L a msg s (.ok ()) s'
  | refused (e : HErr) (he : errorCode e ∈ [400, 403, 416, 500])
      (why : ZeroRefusal a msg)
      (big : ∀ size offset : Nat, integer msg (lit "size") none = .ok size →
        integer msg (lit "offset") (some 0) = .ok offset → a.size < (offset : Int) + size →
        e = .http 416 ∨ a.auth ≠ none ∨ ∃ e, boolean msg (lit "flush") false = .error e) :
      PatchZero L a msg s (.error e) s
  | part (size offset k : Nat) {s' : σ} (hs : integer msg (lit "size") none = .ok size)
      (ho : integer msg (lit "offset") (some 0) = .ok offset) (hle : (offset : Int) + size ≤ a.size)
      (hk : k ≤ size) (inv : L.Inv s')
      (content : L.content s' = store (L.content s) offset (zeros k))
      (size_ge : B.size s ≤ B.size s')
      (hca : a.canceled = true) (hf : ∃ fl, boolean msg (lit "flush") false = .ok fl) :
      PatchZero L a msg s (.error (.http 403)) s'
  | failed (size offset : Nat) (e : HErr) (he : errorCode e ∈ [400, 403, 500]) {s' : σ}
      (hs : integer msg (lit "size") none = .ok size)
      (ho : integer msg (lit "offset") (some 0) = .ok offset) (hle : (offset : Int) + size ≤ a.size)
      (damaged : L.Damaged offset size s s')
      (why : L.MayFail offset size) (hf : ∃ fl, boolean msg (lit "flush") false = .ok fl) :
      PatchZero L a msg s (.error e) s'

theorem get_err_code {d : Json} {name : Str} {e : HErr} (h : d.get name = .error e) :
    errorCode e = 500 := by
  unfold Json.get at h
  split at h
  · simp at h
  · simp only [Except.error.injEq] at h
    subst h; rfl

theorem integer_err {d : Json} {name : Str} {dflt : Option Nat} {e : HErr}
    (h : integer d name dflt = .error e) : errorCode e ∈ [400, 500] := by
  unfold integer at h
  split at h
  next e' h' =>
    simp only [Except.error.injEq] at h
    subst h
    simp [get_err_code h']
  · split at h <;> simp at h
    subst h; decide
  · split at h <;> simp at h
    subst h; decide
  · simp at h
  · simp only [Except.error.injEq] at h
    subst h; decide

theorem boolean_err {d : Json} {name : Str} {dflt : Bool} {e : HErr}
    (h : boolean d name dflt = .error e) : errorCode e ∈ [400, 500] := by
  unfold boolean at h
  split at h
  next e' h' =>
    simp only [Except.error.injEq] at h
    subst h
    simp [get_err_code h']
  · simp at h
  · simp at h
  · simp only [Except.error.injEq] at h
    subst h; decide

theorem codes_sub {n : Nat} (h : n ∈ [400, 500]) : n ∈ [400, 403, 416, 500] := by
  simp only [List.mem_cons, List.not_mem_nil, or_false] at h ⊢
  omega

theorem codes_sub3 {n : Nat} (h : n ∈ [403, 400, 500]) : n ∈ [400, 403, 416, 500] := by
  simp only [List.mem_cons, List.not_mem_nil, or_false] at h ⊢
  omega

theorem zero_post {σ : Type} {B : Backend σ} (L : Lawful B) (a : Access) (msg : Json) (s : σ)
    (hi : L.Inv s) (c : Conn) :
    NoResponse c (zero B a msg s c).2.2 ∧ (zero B a msg s c).2.2.rest = c.rest ∧
    PatchZero L a msg s (zero B a msg s c).1 (zero B a msg s c).2.1 := by
  unfold zero
  cases hsz : integer msg (lit "size") none with
  | error e => exact ⟨.refl c, rfl, .refused _ (codes_sub (integer_err hsz)) (.inl ⟨e, hsz⟩)
      fun _ _ h => by rw [hsz] at h; cases h⟩
  | ok size =>
  simp only
  cases hof : integer msg (lit "offset") (some 0) with
  | error e => exact ⟨.refl c, rfl, .refused _ (codes_sub (integer_err hof)) (.inr (.inl ⟨e, hof⟩))
      fun _ _ _ h => by rw [hof] at h; cases h⟩
  | ok offset =>
  simp only
  cases hfl : boolean msg (lit "flush") false with
  | error e => exact ⟨.refl c, rfl, .refused _ (codes_sub (boolean_err hfl)) (.inr (.inr (.inl ⟨e, hfl⟩)))
      fun _ _ _ _ _ => .inr (.inr ⟨e, hfl⟩)⟩
  | ok fl =>
  simp only
  cases hau : a.auth with
  | some e =>
    simp only
    obtain ⟨e', he', hc'⟩ := raiseErr_code e c
    have hcc := raiseErr_conn e c
    generalize raiseErr e c = y at he' hcc
    obtain ⟨r, cc⟩ := y
    simp only at he' hcc
    subst he'
    exact ⟨hcc.1, hcc.2.1, .refused _ (codes_sub3 hc') (.inr (.inr (.inr (.inl (by simp [hau])))))
      fun _ _ _ _ _ => .inr (.inl (by simp [hau]))⟩
  | none =>
  simp only
  by_cases hsize : (offset : Int) + size > a.size
  · rw [if_pos hsize]
    exact ⟨.refl c, rfl, .refused _ (by decide)
      (.inr (.inr (.inr (.inr (.inl ⟨size, offset, hsz, hof, by omega⟩))))) fun _ _ _ _ _ => .inl rfl⟩
  rw [if_neg hsize]
  have hle : (offset : Int) + size ≤ a.size := by omega
  unfold ticketRun
  by_cases hre : a.refused = true
  · rw [if_pos hre]
    refine ⟨⟨rfl, rfl, rfl, rfl, rfl, id⟩, rfl, .refused _ (by decide)
      (.inr (.inr (.inr (.inr (.inr hre))))) fun sz o h1 h2 hlt => ?_⟩
    rw [hsz] at h1
    rw [hof] at h2
    cases h1
    cases h2
    omega
  rw [if_neg hre]
  simp only
  have hsp := zeroRun_spec L a.cancel size offset fl s hi
  generalize zeroRun B a.cancel size offset fl s = x at hsp
  obtain ⟨r, st⟩ := x
  obtain ⟨hpost, hdur⟩ := hsp r st rfl
  simp only
  by_cases hca : a.canceled = true
  · rw [if_pos hca]
    simp only [raiseErr]
    refine ⟨⟨rfl, rfl, rfl, rfl, rfl, id⟩, rfl, ?_⟩
    have part : ZProgress L s offset st → st.done ≤ size →
        PatchZero L a msg s (.error (.http 403)) st.dst := fun hp hd =>
      .part size offset st.done hsz hof hle hd hp.inv hp.content hp.size_ge hca ⟨_, hfl⟩
    cases r with
    | ok _ => exact part hpost.1 (Nat.le_of_eq hpost.2)
    | error e =>
      cases e with
      | canceled => exact part hpost.1 hpost.2.1
      | partialContent => exact .failed size offset _ (by decide) hsz hof hle hpost.2.2.2 hpost.2.1 ⟨_, hfl⟩
      | os => exact .failed size offset _ (by decide) hsz hof hle hpost.2.2.2 hpost.2.1 ⟨_, hfl⟩
      | exception => exact .failed size offset _ (by decide) hsz hof hle hpost.2.2.2 hpost.2.1 ⟨_, hfl⟩
      | terminated => exact .failed size offset _ (by decide) hsz hof hle hpost.2.2.2 hpost.2.1 ⟨_, hfl⟩
      | authorization => exact .failed size offset _ (by decide) hsz hof hle hpost.2.2.2 hpost.2.1 ⟨_, hfl⟩
      | stuck => exact .failed size offset _ (by decide) hsz hof hle hpost.2.2.2 hpost.2.1 ⟨_, hfl⟩
  · rw [if_neg hca]
    cases r with
    | ok _ =>
      obtain ⟨hp, hd⟩ := hpost
      have hco := hp.content
      have hsl := hp.size_le
      rw [hd] at hco hsl
      exact ⟨.refl c, rfl, .done size offset fl hsz hof hfl hau (by simpa using hre) (by simpa using hca) hle
        hp.inv hco hp.size_ge hsl (fun h => hdur rfl h)⟩
    | error e =>
      cases e with
      | canceled =>
        obtain ⟨_, _, m, hm⟩ := hpost
        exact absurd (a.canceled_of m hm) hca
      | partialContent => exact False.elim hpost.1
      | os => exact ⟨.refl c, rfl, .failed size offset _ (by decide) hsz hof hle hpost.2.2.2 hpost.2.1 ⟨_, hfl⟩⟩
      | exception => exact ⟨.refl c, rfl, .failed size offset _ (by decide) hsz hof hle hpost.2.2.2 hpost.2.1 ⟨_, hfl⟩⟩
      | terminated => exact False.elim hpost.1
      | authorization => exact False.elim hpost.1
      | stuck => exact False.elim hpost.1

/-- The possible outcomes of `_flush`: the content is never changed. -/
structure PatchFlush {σ : Type} {B : Backend σ} (L : Lawful B) (a : Access) (s : σ)
    (r : Except HErr Unit) (s' : σ) : Prop where
  inv : L.Inv s'
  content : L.content s' = L.content s
  bsize : B.size s' = B.size s
  ok : r = .ok () → L.durable s' = L.content s ∧ a.auth = none ∧ a.refused = false ∧ a.canceled = false
  code : ∀ e, r = .error e → errorCode e ∈ [400, 403, 500]
  why : r ≠ .ok () → a.auth ≠ none ∨ a.refused = true ∨ a.canceled = true ∨ L.mayFail 0

theorem flush_post {σ : Type} {B : Backend σ} (L : Lawful B) (a : Access) (s : σ)
    (hi : L.Inv s) (c : Conn) :
    NoResponse c (flush B a s c).2.2 ∧ (flush B a s c).2.2.rest = c.rest ∧
    PatchFlush L a s (flush B a s c).1 (flush B a s c).2.1 := by
  unfold flush
  cases hau : a.auth with
  | some e =>
    simp only
    obtain ⟨e', he', hc'⟩ := raiseErr_code e c
    have hcc := raiseErr_conn e c
    generalize raiseErr e c = y at he' hcc
    obtain ⟨r, cc⟩ := y
    simp only at he' hcc
    subst he'
    refine ⟨hcc.1, hcc.2.1, hi, rfl, rfl, by simp, ?_, fun _ => .inl (by simp [hau])⟩
    intro e h
    cases h
    simp only [List.mem_cons, List.not_mem_nil, or_false] at hc' ⊢
    omega
  | none =>
  simp only
  unfold ticketRun
  by_cases hre : a.refused = true
  · rw [if_pos hre]
    exact ⟨⟨rfl, rfl, rfl, rfl, rfl, id⟩, rfl, hi, rfl, rfl, by simp [raiseErr],
      by intro e h; cases h; decide, fun _ => .inr (.inl hre)⟩
  rw [if_neg hre]
  simp only [flushRun]
  have h1 := L.flush s
  have h2 := L.flush_err s
  generalize B.flush s = x at h1 h2
  obtain ⟨r, s'⟩ := x
  have hcom : L.Inv s' ∧ L.content s' = L.content s ∧ B.size s' = B.size s := by
    cases r with
    | ok _ => obtain ⟨x1, x2, _, _, x5⟩ := h1 s' hi rfl; exact ⟨x1, x2, x5⟩
    | error e => obtain ⟨_, _, x1, x2, x5⟩ := h2 e s' hi rfl; exact ⟨x1, x2, x5⟩
  simp only
  by_cases hca : a.canceled = true
  · rw [if_pos hca]
    exact ⟨⟨rfl, rfl, rfl, rfl, rfl, id⟩, rfl, hcom.1, hcom.2.1, hcom.2.2, by simp [raiseErr],
      by intro e h; cases h; decide, fun _ => .inr (.inr (.inl hca))⟩
  rw [if_neg hca]
  cases r with
  | ok _ =>
    obtain ⟨_, _, x3, _⟩ := h1 s' hi rfl
    exact ⟨.refl c, rfl, hcom.1, hcom.2.1, hcom.2.2, fun _ => ⟨x3, hau, by simpa using hre, by simpa using hca⟩,
      by simp, by simp⟩
  | error e =>
    obtain ⟨x1, x2, _⟩ := h2 e s' hi rfl
    cases e with
    | os => exact ⟨.refl c, rfl, hcom.1, hcom.2.1, hcom.2.2, by simp [raiseErr],
        by intro e h; cases h; decide, fun _ => .inr (.inr (.inr x2))⟩
    | exception => exact ⟨.refl c, rfl, hcom.1, hcom.2.1, hcom.2.2, by simp [raiseErr],
        by intro e h; cases h; decide, fun _ => .inr (.inr (.inr x2))⟩
    | canceled => exact False.elim x1
    | partialContent => exact False.elim x1
    | terminated => exact False.elim x1
    | authorization => exact False.elim x1
    | stuck => exact False.elim x1

theorem enumJson_err {d : Json} {name : Str} {vs : List Str} {e : HErr}
    (h : enumJson d name vs = .error e) : errorCode e ∈ [400, 500] := by
  unfold enumJson at h
  split at h
  next e' h' =>
    simp only [Except.error.injEq] at h
    subst h
    simp [get_err_code h']
  · simp only [Except.error.injEq] at h
    subst h; decide
  · split at h <;> simp at h
    subst h; decide
  · simp only [Except.error.injEq] at h
    subst h; decide

/-- The possible outcomes of `patch` for a complete body of `n` bytes. -/
inductive PatchPost {σ : Type} {B : Backend σ} (L : Lawful B) (a : Access) (loads : Bytes → Option Json)
    (ticketId : Str) (body rest : Bytes) (recvs : List Recv) (s : σ) :
    Except HErr Unit → σ → Conn → Prop
  | zero (msg : Json) {r : Except HErr Unit} {s' : σ} {c' : Conn} (hid : ticketId ≠ []) (hm : loads body = some msg)
      (hop : enumJson msg (lit "op") [lit "zero", lit "flush"] = .ok (lit "zero"))
      (post : PatchZero L a msg s r s') (hrest : c'.rest = rest) :
      PatchPost L a loads ticketId body rest recvs s r s' c'
  | flush (msg : Json) {r : Except HErr Unit} {s' : σ} {c' : Conn} (hid : ticketId ≠ []) (hm : loads body = some msg)
      (hop : enumJson msg (lit "op") [lit "zero", lit "flush"] = .ok (lit "flush"))
      (post : PatchFlush L a s r s') (hrest : c'.rest = rest) :
      PatchPost L a loads ticketId body rest recvs s r s' c'
  | refused (e : HErr) (he : errorCode e ∈ [400, 500]) {c' : Conn}
      (why : ticketId = [] ∨ (∃ k, Recv.fails k ∈ recvs) ∨ loads body = none ∨
        ∃ msg e, loads body = some msg ∧ enumJson msg (lit "op") [lit "zero", lit "flush"] = .error e) :
      PatchPost L a loads ticketId body rest recvs s (.error e) s c'

theorem patch_post_any {σ : Type} {B : Backend σ} (L : Lawful B) (a : Access) (loads : Bytes → Option Json)
    (ticketId : Str) (s : σ) (hi : L.Inv s) (rest0 : Bytes) (n : Nat) (c : Conn)
    (h : Synced rest0 n 0 c) :
    NoResponse c (patch B a loads ticketId s c).2.2 ∧
    PatchPost L a loads ticketId (rest0.take n) (rest0.drop n) c.recvs s (patch B a loads ticketId s c).1
      (patch B a loads ticketId s c).2.1 (patch B a loads ticketId s c).2.2 := by
  unfold patch
  by_cases hid : ticketId = []
  · rw [if_pos hid]
    exact ⟨.refl c, .refused _ (by decide) (.inl hid)⟩
  rw [if_neg hid]
  have hr := h.read none
  have hn := read_noResponse c none
  generalize c.read none = x at hr hn
  obtain ⟨r, c1⟩ := x
  simp only at hr hn
  cases hr with
  | fail k v _ _ _ _ _ _ hf => exact ⟨hn, .refused _ (by decide) (.inr (.inl hf))⟩
  | data k _ hk hk2 hsy same he hle hall =>
  have hk3 := hall rfl
  have hd : (rest0.drop 0).take k = rest0.take n := by
    rw [List.drop_zero]
    apply List.take_eq_take_iff.2
    omega
  rw [hd]
  have hrest : c1.rest = rest0.drop n := by
    rw [hsy.rest]
    rcases Nat.lt_or_ge rest0.length n with hlt | hge
    · rw [List.drop_of_length_le (by omega), List.drop_of_length_le (by omega)]
    · congr 1; omega
  simp only
  cases hm : loads (rest0.take n) with
  | none => exact ⟨hn, .refused _ (by decide) (.inr (.inr (.inl hm)))⟩
  | some msg =>
  simp only
  cases hop : enumJson msg (lit "op") [lit "zero", lit "flush"] with
  | error e => exact ⟨hn, .refused _ (enumJson_err hop) (.inr (.inr (.inr ⟨msg, e, hm, hop⟩)))⟩
  | ok op =>
  simp only
  by_cases hz : op = lit "zero"
  · rw [if_pos hz]
    subst hz
    obtain ⟨h1, h2, h3⟩ := zero_post L a msg s hi c1
    exact ⟨hn.trans h1, .zero msg hid hm hop h3 (h2.trans hrest)⟩
  · rw [if_neg hz]
    have : op = lit "flush" := by
      unfold enumJson at hop
      split at hop
      · simp at hop
      · simp at hop
      · split at hop
        next hmem =>
          simp only [Except.ok.injEq] at hop
          subst hop
          simp only [List.mem_cons, List.not_mem_nil, or_false] at hmem
          rcases hmem with h | h
          · exact absurd h hz
          · exact h
        · simp at hop
      · simp at hop
    subst this
    obtain ⟨h1, h2, h3⟩ := flush_post L a s hi c1
    exact ⟨hn.trans h1, .flush msg hid hm hop h3 (h2.trans hrest)⟩

theorem patch_post {σ : Type} {B : Backend σ} (L : Lawful B) (a : Access) (loads : Bytes → Option Json)
    (ticketId : Str) (s : σ) (hi : L.Inv s) (body rest : Bytes) (c : Conn)
    (h : Synced (body ++ rest) body.length 0 c) :
    NoResponse c (patch B a loads ticketId s c).2.2 ∧
    PatchPost L a loads ticketId body rest c.recvs s (patch B a loads ticketId s c).1
      (patch B a loads ticketId s c).2.1 (patch B a loads ticketId s c).2.2 := by
  have := patch_post_any L a loads ticketId s hi (body ++ rest) body.length c h
  rwa [List.take_left, List.drop_left] at this

end Imageio.Images
