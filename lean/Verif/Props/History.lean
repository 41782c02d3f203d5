import Verif.Spec.History
import Verif.Props.Backends

/-! C15: histories of uploads, zero and flush requests, and downloads. -/
namespace Imageio.Props
open Imageio.Http Imageio.Images Imageio.Spec Imageio.Ops

/-! ## What a client knows -/

/-- What the client knows after an upload of `n` bytes, starting with `body`, answered with
`status`. -/
inductive PutEvent (contentRange : Option Str) (n : Nat) (body : Bytes) (status : List Nat) : Event → Prop
  | ok {off : Nat} (h : status = [200]) (ho : UploadOffset contentRange off) :
      PutEvent contentRange n body status (.wrote off body)
  | failed {off : Nat} (h : status ≠ [200]) (ho : UploadOffset contentRange off) :
      PutEvent contentRange n body status (.unknown off n)
  | invalid (h : status ≠ [200]) (ho : ∀ off, ¬ UploadOffset contentRange off) :
      PutEvent contentRange n body status (.unknown 0 0)

/-- What the client knows after a PATCH with this message, answered with `status`. -/
inductive PatchEvent (msg : Option Json) (status : List Nat) : Event → Prop
  | ok {m : Json} {size off : Nat} {fl : Bool} (h : status = [200]) (hm : msg = some m)
      (hz : ZeroMessage m size off fl) : PatchEvent msg status (.zeroed off size)
  | failed {m : Json} {size off : Nat} {fl : Bool} (h : status ≠ [200]) (hm : msg = some m)
      (hz : ZeroMessage m size off fl) : PatchEvent msg status (.unknown off size)
  | other (h : ∀ m size off fl, msg = some m → ¬ ZeroMessage m size off fl) :
      PatchEvent msg status (.unknown 0 0)

/-- A history of requests on an image: the events known to the clients, and the state of the
backend.  Every request may come from another connection (with its own buffer, socket
behaviour and cancellation) that opened the image again. -/
inductive History {σ : Type} {B : Backend σ} (L : Lawful B) (s0 : σ) : List Event → σ → Prop
  | start : History L s0 [] s0
  | reopen {evs : List Event} {s s' : σ} (h : History L s0 evs s) (hi : L.Inv s')
      (hc : L.content s' = L.content s) (hs : B.size s' = B.size s) : History L s0 evs s'
  | put {evs : List Event} {s : σ} (h : History L s0 evs s) (bufLen : Nat) (hb : 0 < bufLen)
      (hbs : bufLen % B.blockSize = 0) (a : Access) (q : PutReq) (c : Conn) (hc : Fresh c) (n : Nat)
      (ha : Announces c.req.header n) (lost : Bool) {ev : Event}
      (hev : PutEvent q.contentRange n (c.rest.take n) (serve lost (put B bufLen a q s c)).2.sent ev) :
      History L s0 (evs ++ [ev]) (serve lost (put B bufLen a q s c)).1
  | patch {evs : List Event} {s : σ} (h : History L s0 evs s) (a : Access)
      (loads : Bytes → Option Json) (ticketId : Str) (c : Conn) (hc : Fresh c) (n : Nat)
      (ha : Announces c.req.header n) (lost : Bool) {ev : Event}
      (hev : PatchEvent (loads (c.rest.take n)) (serve lost (patch B a loads ticketId s c)).2.sent ev) :
      History L s0 (evs ++ [ev]) (serve lost (patch B a loads ticketId s c)).1
  | get {evs : List Event} {s : σ} (h : History L s0 evs s) (a : Access) (q : GetReq) (buf : Bytes)
      (hbs : buf.length % B.blockSize = 0) (c : Conn) (lost : Bool) :
      History L s0 evs (serve lost (Images.get B a q buf s c)).1

/-! ## The offsets are determined by the requests -/

theorem contentRange_first_unique {h : List Char} {f f' : Nat} {l l' m m' : Option Nat}
    (h1 : ContentRangeHeader h f l m) (h2 : ContentRangeHeader h f' l' m') : f = f' := by
  have starBack : ∀ (s : Str) (o : Option Nat), NumberOrStar s o → ∃ b, s = starText b ∧ StarOk b := by
    intro s o hs
    cases o with
    | none => exact ⟨none, hs, trivial⟩
    | some n =>
      obtain ⟨h1, h2, rfl⟩ := number_iff.1 hs
      exact ⟨some s, rfl, ⟨h1, h2⟩⟩
  have key : ∀ {f l m}, ContentRangeHeader h f l m →
      ∃ a b c, contentRangeGroups h = some (a, b, c) ∧ intOfDigits a = f := by
    rintro f l m ⟨a, b, c, e, hh, he, hn, hb, hc⟩
    obtain ⟨hne, ha, hv⟩ := number_iff.1 hn
    obtain ⟨b', rfl, hb1⟩ := starBack _ _ hb
    obtain ⟨c', rfl, hc1⟩ := starBack _ _ hc
    exact ⟨a, b', c', (contentRangeGroups_iff _ a b' c').2 ⟨e, hh, he, hne, ha, hb1, hc1⟩, hv⟩
  obtain ⟨a, b, c, h3, h4⟩ := key h1
  obtain ⟨a', b', c', h5, h6⟩ := key h2
  rw [h3] at h5
  simp only [Option.some.injEq, Prod.mk.injEq] at h5
  rw [← h4, ← h6, h5.1]

theorem uploadOffset_unique {cr : Option Str} {o o' : Nat} (h1 : UploadOffset cr o)
    (h2 : UploadOffset cr o') : o = o' := by
  cases cr with
  | none => exact Eq.trans h1 h2.symm
  | some h =>
    obtain ⟨_, _, h1⟩ := h1
    obtain ⟨_, _, h2⟩ := h2
    exact contentRange_first_unique h1 h2

theorem zeroMessage_unique {m : Json} {n n' o o' : Nat} {f f' : Bool} (h1 : ZeroMessage m n o f)
    (h2 : ZeroMessage m n' o' f') : n = n' ∧ o = o' := by
  obtain ⟨_, a2, a3, _⟩ := (zeroMessage_iff _ _ _ _).1 h1
  obtain ⟨_, b2, b3, _⟩ := (zeroMessage_iff _ _ _ _).1 h2
  rw [a2] at b2
  rw [a3] at b3
  simp only [Except.ok.injEq] at b2 b3
  exact ⟨b2, b3⟩

/-! ## One request -/

/-- What an upload does to the bytes, whatever its outcome. -/
theorem put_bytes {σ : Type} {B : Backend σ} (L : Lawful B) {bufLen : Nat} (hb : 0 < bufLen)
    (hbs : bufLen % B.blockSize = 0) (a : Access) (q : PutReq) (s : σ) (hi : L.Inv s)
    (c : Conn) (hc : Fresh c) (n : Nat) (ha : Announces c.req.header n) (lost : Bool) {ev : Event}
    (hev : PutEvent q.contentRange n (c.rest.take n) (serve lost (put B bufLen a q s c)).2.sent ev) :
    L.Inv (serve lost (put B bufLen a q s c)).1 ∧
    (∀ i, ¬ ev.Covers i → L.content (serve lost (put B bufLen a q s c)).1 i = L.content s i) ∧
    (∀ off data, ev = .wrote off data → ∀ i, off ≤ i → i < off + data.length →
      L.content (serve lost (put B bufLen a q s c)).1 i = byteAt data (i - off)) := by
  have hp := put_post L bufLen hb hbs a q s hi c.rest n c (hc.synced ha)
  unfold serve at hev ⊢
  generalize put B bufLen a q s c = x at hev hp
  obtain ⟨r, s', c'⟩ := x
  obtain ⟨hn, hp⟩ := hp
  simp only at hn hp hev ⊢
  have bad : ∀ {e : HErr} {l : List Nat}, r = .error e → errorCode e ∈ l → 200 ∉ l →
      (finish lost (r, c')).sent ≠ [200] := by
    rintro e l rfl h1 h2
    exact not_success hc hn h1 h2 lost
  cases hp with
  | done offset fl ho hf ha' hnr hnc hle hlen inv content rest =>
    have ho' := putOffset_spec ho
    have hl : (c.rest.take n).length = n := by rw [List.length_take]; omega
    refine ⟨inv, fun i hcov => ?_, ?_⟩
    · rw [content, store_outside]
      intro hin
      apply hcov
      cases hev with
      | ok _ h2 => rw [← uploadOffset_unique ho' h2]; exact hin
      | failed _ h2 => rw [hl] at hin; rw [← uploadOffset_unique ho' h2]; exact hin
      | invalid _ h2 => exact absurd ho' (h2 _)
    · rintro off data rfl i h1 h2
      cases hev with
      | ok _ h3 =>
        rw [content]
        rw [uploadOffset_unique ho' h3]
        unfold store
        rw [if_pos ⟨h1, h2⟩]
  | refused e he why =>
    refine ⟨hi, fun _ _ => rfl, ?_⟩
    rintro off data rfl
    cases hev with
    | ok h => exact absurd h (bad rfl he (by decide))
  | part offset k e he ho hle hk hk2 inv content rest size_ge size_le why =>
    refine ⟨inv, fun i hcov => ?_, ?_⟩
    · rw [content, store_outside]
      rw [List.length_take]
      intro hin
      apply hcov
      cases hev with
      | ok h => exact absurd h (bad rfl he (by decide))
      | failed _ h2 =>
        rw [← uploadOffset_unique (putOffset_spec ho) h2]
        simp only [Event.Covers]
        omega
      | invalid _ h2 => exact absurd (putOffset_spec ho) (h2 _)
    · rintro off data rfl
      cases hev with
      | ok h => exact absurd h (bad rfl he (by decide))
  | failed offset e he ho hle damaged =>
    refine ⟨damaged.inv, fun i hcov => ?_, ?_⟩
    · apply damaged.outside
      intro hin
      apply hcov
      cases hev with
      | ok h => exact absurd h (bad rfl he (by decide))
      | failed _ h2 => rw [← uploadOffset_unique (putOffset_spec ho) h2]; exact hin
      | invalid _ h2 => exact absurd (putOffset_spec ho) (h2 _)
    · rintro off data rfl
      cases hev with
      | ok h => exact absurd h (bad rfl he (by decide))

/-- What a PATCH does to the bytes, whatever its outcome. -/
theorem patch_bytes {σ : Type} {B : Backend σ} (L : Lawful B) (a : Access)
    (loads : Bytes → Option Json) (ticketId : Str) (s : σ) (hi : L.Inv s) (c : Conn) (hc : Fresh c)
    (n : Nat) (ha : Announces c.req.header n) (lost : Bool) {ev : Event}
    (hev : PatchEvent (loads (c.rest.take n)) (serve lost (patch B a loads ticketId s c)).2.sent ev) :
    L.Inv (serve lost (patch B a loads ticketId s c)).1 ∧
    (∀ i, ¬ ev.Covers i → L.content (serve lost (patch B a loads ticketId s c)).1 i = L.content s i) ∧
    (∀ off m, ev = .zeroed off m → ∀ i, off ≤ i → i < off + m →
      L.content (serve lost (patch B a loads ticketId s c)).1 i = 0) ∧
    (∀ off data, ev ≠ .wrote off data) := by
  have hp := patch_post_any L a loads ticketId s hi c.rest n c (hc.synced ha)
  unfold serve at hev ⊢
  generalize patch B a loads ticketId s c = x at hev hp
  obtain ⟨r, s', c'⟩ := x
  obtain ⟨hn, hp⟩ := hp
  simp only at hn hp hev ⊢
  refine ⟨?_, ?_, ?_, by rintro off data rfl; cases hev⟩
  · cases hp with
    | refused => exact hi
    | flush _ _ _ _ post => exact post.inv
    | zero _ _ _ _ post =>
      cases post with
      | done _ _ _ _ _ _ _ _ _ _ inv => exact inv
      | refused => exact hi
      | part _ _ _ _ _ _ _ inv => exact inv
      | failed _ _ _ _ _ _ _ damaged => exact damaged.inv
  · intro i hcov
    cases hp with
    | refused => rfl
    | flush _ _ _ _ post => rw [post.content]
    | zero msg _ hm hop post =>
      have key : ∀ {size offset : Nat} {fl : Bool}, ZeroMessage msg size offset fl →
          ¬ (offset ≤ i ∧ i < offset + size) := by
        intro size offset fl hz hin
        apply hcov
        cases hev with
        | ok _ hm' hz' =>
          rw [hm] at hm'
          cases hm'
          obtain ⟨e1, e2⟩ := zeroMessage_unique hz hz'
          rw [← e1, ← e2]; exact hin
        | failed _ hm' hz' =>
          rw [hm] at hm'
          cases hm'
          obtain ⟨e1, e2⟩ := zeroMessage_unique hz hz'
          rw [← e1, ← e2]; exact hin
        | other h => exact absurd hz (h _ _ _ _ hm)
      cases post with
      | done size offset fl h1 h2 h3 _ _ _ _ _ content =>
        have := key ((zeroMessage_iff _ _ _ _).2 ⟨hop, h1, h2, h3⟩)
        rw [content, store_outside]
        rw [zeros_length]
        exact this
      | refused => rfl
      | part size offset k h1 h2 _ hk _ content _ _ h3 =>
        obtain ⟨fl, h3⟩ := h3
        have := key ((zeroMessage_iff _ _ _ _).2 ⟨hop, h1, h2, h3⟩)
        rw [content, store_outside]
        rw [zeros_length]
        omega
      | failed size offset e he h1 h2 _ damaged _ h3 =>
        obtain ⟨fl, h3⟩ := h3
        exact damaged.outside i (key ((zeroMessage_iff _ _ _ _).2 ⟨hop, h1, h2, h3⟩))
  · rintro off m rfl i h1 h2
    cases hev with
    | ok hok hm' hz' =>
      cases hp with
      | refused e he => exact absurd hok (not_success hc hn he (by decide) lost)
      | flush msg _ hm hop =>
        rw [hm] at hm'
        cases hm'
        rw [((zeroMessage_iff _ _ _ _).1 hz').1] at hop
        simp only [Except.ok.injEq] at hop
        exact absurd hop (by decide)
      | zero msg _ hm hop post =>
        rw [hm] at hm'
        cases hm'
        cases post with
        | done size offset fl h3 h4 h5 _ _ _ _ _ content =>
          obtain ⟨e1, e2⟩ := zeroMessage_unique ((zeroMessage_iff _ _ _ _).2 ⟨hop, h3, h4, h5⟩) hz'
          subst e1 e2
          rw [content]
          unfold store
          rw [zeros_length, if_pos ⟨h1, h2⟩]
          simp only [byteAt, zeros, List.getD_eq_getElem?_getD, List.getElem?_replicate]
          split <;> rfl
        | refused e he => exact absurd hok (not_success hc hn he (by decide) lost)
        | part => exact absurd hok (not_success hc hn (l := [403]) (by decide) (by decide) lost)
        | failed _ _ e he => exact absurd hok (not_success hc hn he (by decide) lost)

/-! ## Histories -/

/-- C15: after any history of uploads, zero, flush and download requests on any number of
connections, including requests that failed, were refused, truncated or canceled, every byte
has the value given by the last request that covered it; bytes that no request covered are
unchanged. -/
theorem C15_last_write {σ : Type} {B : Backend σ} (L : Lawful B) (s0 : σ) (h0 : L.Inv s0)
    (evs : List Event) (s : σ) (h : History L s0 evs s) :
    L.Inv s ∧ ∀ i v, Last (L.content s0) evs i v → L.content s i = v := by
  induction h with
  | start =>
    refine ⟨h0, fun i v hl => ?_⟩
    generalize hnil : ([] : List Event) = l at hl
    cases hl with
    | original => rfl
    | wrote => simp at hnil
    | zeroed => simp at hnil
    | skip => simp at hnil
  | reopen h hi hc hs ih => exact ⟨hi, fun i v hl => by rw [hc]; exact ih.2 i v hl⟩
  | @put evs s h bufLen hb hbs a q c hc n ha lost ev hev ih =>
    obtain ⟨p1, p2, p3⟩ := put_bytes L hb hbs a q s ih.1 c hc n ha lost hev
    refine ⟨p1, fun i v hl => ?_⟩
    generalize hx : evs ++ [ev] = l at hl
    cases hl with
    | original => simp at hx
    | wrote h1 h2 =>
      obtain ⟨rfl, hy⟩ := List.append_inj' hx rfl
      simp only [List.cons.injEq, and_true] at hy
      exact p3 _ _ hy i h1 h2
    | zeroed h1 h2 =>
      obtain ⟨rfl, hy⟩ := List.append_inj' hx rfl
      simp only [List.cons.injEq, and_true] at hy
      subst hy
      cases hev
    | skip hcov hl =>
      obtain ⟨rfl, hy⟩ := List.append_inj' hx rfl
      simp only [List.cons.injEq, and_true] at hy
      subst hy
      rw [p2 i hcov]
      exact ih.2 i v hl
  | @patch evs s h a loads ticketId c hc n ha lost ev hev ih =>
    obtain ⟨p1, p2, p3, p4⟩ := patch_bytes L a loads ticketId s ih.1 c hc n ha lost hev
    refine ⟨p1, fun i v hl => ?_⟩
    generalize hx : evs ++ [ev] = l at hl
    cases hl with
    | original => simp at hx
    | wrote h1 h2 =>
      obtain ⟨rfl, hy⟩ := List.append_inj' hx rfl
      simp only [List.cons.injEq, and_true] at hy
      exact absurd hy (p4 _ _)
    | zeroed h1 h2 =>
      obtain ⟨rfl, hy⟩ := List.append_inj' hx rfl
      simp only [List.cons.injEq, and_true] at hy
      exact p3 _ _ hy i h1 h2
    | skip hcov hl =>
      obtain ⟨rfl, hy⟩ := List.append_inj' hx rfl
      simp only [List.cons.injEq, and_true] at hy
      subst hy
      rw [p2 i hcov]
      exact ih.2 i v hl
  | get h a q buf hbs c lost ih =>
    have hf := get_frame L a q buf hbs _ ih.1 c
    exact ⟨hf.inv, fun i v hl => by
      rw [show L.content (serve lost (Images.get B a q buf _ c)).1 = _ from hf.content]; exact ih.2 i v hl⟩

/-- Without failed requests every byte has a value. -/
theorem C15_last_total (d0 : Nat → Byte) (evs : List Event)
    (hok : ∀ off n, Event.unknown off n ∈ evs → n = 0) (i : Nat) : ∃ v, Last d0 evs i v := by
  induction evs using List.reverseRecOn with
  | nil => exact ⟨_, .original i⟩
  | append_singleton evs ev ih =>
    obtain ⟨v, hv⟩ := ih (fun off n h => hok off n (by simp [h]))
    by_cases hcov : ev.Covers i
    · cases ev with
      | wrote off data => exact ⟨_, .wrote hcov.1 hcov.2⟩
      | zeroed off n => exact ⟨_, .zeroed hcov.1 hcov.2⟩
      | unknown off n =>
        have := hok off n (by simp)
        obtain ⟨h1, h2⟩ := hcov
        omega
    · exact ⟨v, .skip hcov hv⟩

/-- A byte has only one last value. -/
theorem C15_last_unique (d0 : Nat → Byte) (evs : List Event) (i : Nat) (v w : Byte)
    (h1 : Last d0 evs i v) (h2 : Last d0 evs i w) : v = w := by
  induction h1 with
  | original =>
    generalize hx : ([] : List Event) = l at h2
    cases h2 <;> simp_all
  | @wrote evs off data i a b =>
    generalize hx : evs ++ [Event.wrote off data] = l at h2
    cases h2 with
    | original => simp at hx
    | wrote =>
      obtain ⟨rfl, hy⟩ := List.append_inj' hx rfl
      simp only [List.cons.injEq, and_true, Event.wrote.injEq] at hy
      obtain ⟨rfl, rfl⟩ := hy
      rfl
    | zeroed => obtain ⟨_, hy⟩ := List.append_inj' hx rfl; simp at hy
    | skip hcov =>
      obtain ⟨rfl, hy⟩ := List.append_inj' hx rfl
      simp only [List.cons.injEq, and_true] at hy
      subst hy
      exact absurd ⟨a, b⟩ hcov
  | @zeroed evs off n i a b =>
    generalize hx : evs ++ [Event.zeroed off n] = l at h2
    cases h2 with
    | original => simp at hx
    | wrote => obtain ⟨_, hy⟩ := List.append_inj' hx rfl; simp at hy
    | zeroed => rfl
    | skip hcov =>
      obtain ⟨rfl, hy⟩ := List.append_inj' hx rfl
      simp only [List.cons.injEq, and_true] at hy
      subst hy
      exact absurd ⟨a, b⟩ hcov
  | @skip evs e i v hcov hl ih =>
    generalize hx : evs ++ [e] = l at h2
    cases h2 with
    | original => simp at hx
    | wrote a b =>
      obtain ⟨rfl, hy⟩ := List.append_inj' hx rfl
      simp only [List.cons.injEq, and_true] at hy
      subst hy
      exact absurd ⟨a, b⟩ hcov
    | zeroed a b =>
      obtain ⟨rfl, hy⟩ := List.append_inj' hx rfl
      simp only [List.cons.injEq, and_true] at hy
      subst hy
      exact absurd ⟨a, b⟩ hcov
    | skip hcov hl =>
      obtain ⟨rfl, hx⟩ := List.append_inj' hx rfl
      exact ih hl

/-- C15: what a download after a history delivers: every byte of it has the value given by
the last request that covered it; it is complete, unless the connection is closed. -/
theorem C15_download {σ : Type} {B : Backend σ} (L : Lawful B) (s0 : σ) (h0 : L.Inv s0)
    (evs : List Event) (s : σ) (h : History L s0 evs s) (a : Access) (q : GetReq)
    (buf : Bytes) (hb : 0 < buf.length) (hbs : buf.length % B.blockSize = 0)
    (c : Conn) (hc : Fresh c) (offset size : Nat)
    (hw : Wanted (min a.size (B.size s)) q.range offset size) (lost : Bool) (c' : Conn)
    (hc' : c' = (serve lost (Images.get B a q buf s c)).2)
    (hok : c'.sent = [200] ∨ c'.sent = [206]) :
    (c'.body.length = size ∨ c'.closing = true) ∧ c'.body.length ≤ size ∧
    ∀ k v, k < c'.body.length → Last (L.content s0) evs (offset + k) v → byteAt c'.body k = v := by
  obtain ⟨hi, hlast⟩ := C15_last_write L s0 h0 evs s h
  obtain ⟨⟨range, _, _, hd⟩, _⟩ := C11_get_exact L a q buf hb hbs s hi c hc offset size hw lost
  rw [← hc'] at hd
  cases hd with
  | nothing hs => rw [hs] at hok; simp at hok
  | error e he hs =>
    rw [hs] at hok
    simp only [List.cons.injEq, and_true] at hok
    rcases hok with rfl | rfl <;> simp at he
  | data hs hl hr hb hcl =>
    refine ⟨?_, by have := hb.length_le; rwa [load_length] at this, fun k v hk hlv => ?_⟩
    · rcases hcl with h | h
      · left; rw [h, load_length]
      · exact .inr h
    · have hk2 : k < size := by have := hb.length_le; rw [load_length] at this; omega
      rw [← hlast _ _ hlv]
      simp only [byteAt, List.getD_eq_getElem?_getD]
      rw [List.getElem?_eq_getElem hk, hb.getElem hk, load_getElem]
      rfl

/-- The block device of `filePut`. -/
def device : File.State := ⟨[1, 1, 1, 1, 1, 1, 1, 1], [], 0, true, true, true, [], [0], []⟩

/-- A history with an upload. -/
example : History (File.lawful ⟨true, 4, true⟩ (by decide) False 8 (by decide)) device
    [.wrote 3 [7, 8, 9]] filePut.1 := by
  have h := History.put (L := File.lawful ⟨true, 4, true⟩ (by decide) False 8 (by decide)) (s0 := device)
    .start 8 (by decide) (by decide) (authorized 8) ⟨lit "id", [], some (lit "bytes 3-5/*")⟩
    (busy "3" [7, 8, 9]) ⟨rfl, rfl, rfl, rfl, rfl, rfl, rfl⟩ 3 (.inr ⟨_, rfl, number_3⟩) false
    (ev := .wrote 3 [7, 8, 9])
    (.ok (show filePut.2.sent = [200] by decide +kernel) (putOffset_spec (by decide +kernel)))
  exact h

end Imageio.Props
