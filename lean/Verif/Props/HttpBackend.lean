import Verif.Lemmas.HttpBackend
import Verif.Props.ClientHandler

/-!
C49: the HTTP backend of the client is a faithful remote disk.

The client (`backends/http.py`) is composed with the images handler of the server
(`handlers/images.py`) on any lawful backend, and with a network that may fail in every request.
-/
namespace Imageio.Props
open Imageio Imageio.Spec Imageio.HttpBackend
open Imageio.Http hiding Range
open Imageio.Images (Json)

/-! ### A concrete server -/

/-- A toy codec for the messages of the client: numbers in unary, and 9 ends a message. -/
def toyZero (p n : Nat) (f : Bool) : Bytes :=
  List.replicate p 1 ++ 0 :: (List.replicate n 1 ++ [0, if f then 1 else 0, 9])

def toyDumps : Json → Bytes
  | .obj [(_, .str _), (_, .int p), (_, .int n), (_, .bool f)] => toyZero p.toNat n.toNat f
  | _ => [9]

def toyNumber (b : Bytes) : Nat := (b.takeWhile (fun x => x = 1)).length

def toyLoads (b : Bytes) : Option Json :=
  if b = [9] then some flushMessage
  else
    match b.drop (toyNumber b) with
    | 0 :: c =>
      match c.drop (toyNumber c) with
      | [0, f, 9] => some (zeroMessage (toyNumber b) (toyNumber c) (decide (f = 1)))
      | _ => none
    | _ => none

theorem toyNumber_eq (p : Nat) (c : Bytes) : toyNumber (List.replicate p 1 ++ 0 :: c) = p := by
  unfold toyNumber
  induction p with
  | zero => simp
  | succ p ih => simp [List.replicate_succ]

theorem toyLoads_nine {b : Bytes} {m : Json} (h : toyLoads b = some m) : 9 ∈ b := by
  unfold toyLoads at h
  split at h
  · next h9 => simp [h9]
  · split at h
    · next c hc =>
      split at h
      · next f hd =>
        have h1 : (9 : Byte) ∈ c.drop (toyNumber c) := by rw [hd]; simp
        have h2 : (9 : Byte) ∈ b.drop (toyNumber b) := by
          rw [hc]; exact List.mem_cons_of_mem _ (List.mem_of_mem_drop h1)
        exact List.mem_of_mem_drop h2
      · cases h
    · cases h

theorem toyLoads_zero (p n : Nat) (f : Bool) :
    toyLoads (toyZero p n f) = some (zeroMessage p n f) := by
  have h9 : toyZero p n f ≠ [9] := by
    intro h
    have := congrArg List.length h
    simp [toyZero] at this
    omega
  have h1 : toyNumber (toyZero p n f) = p := toyNumber_eq _ _
  have h2 : (toyZero p n f).drop p = 0 :: (List.replicate n 1 ++ [0, if f then 1 else 0, 9]) := by
    unfold toyZero
    rw [List.drop_append_of_le_length (by simp)]
    simp
  have h3 : (List.replicate n 1 ++ [0, if f then (1 : Byte) else 0, 9]).drop n =
      [0, if f then 1 else 0, 9] := by
    rw [List.drop_append_of_le_length (by simp)]
    simp
  unfold toyLoads
  rw [if_neg h9, h1, h2]
  simp only
  rw [toyNumber_eq, h3]
  cases f <;> rfl

theorem toyZero_part (p n : Nat) (f : Bool) (k : Nat) (hk : k < (toyZero p n f).length) :
    toyLoads ((toyZero p n f).take k) = none := by
  cases h : toyLoads ((toyZero p n f).take k) with
  | none => rfl
  | some m =>
    exfalso
    have h9 := toyLoads_nine h
    have e : toyZero p n f =
        (List.replicate p 1 ++ 0 :: (List.replicate n 1 ++ [0, if f then 1 else 0])) ++ [9] := by
      simp [toyZero]
    have hk2 : k ≤ (List.replicate p 1 ++ 0 :: (List.replicate n (1 : Byte) ++
        [0, if f then 1 else 0])).length := by
      rw [e, List.length_append] at hk
      simpa using Nat.le_of_lt_succ hk
    rw [e, List.take_append_of_le_length hk2] at h9
    have := List.mem_of_mem_take h9
    cases f <;> simp [List.mem_replicate] at this

/-- A server with a backend in memory, or another backend. -/
def toyServer {σ : Type} (B : Backend σ) (bufLen ticketSize : Nat)
    (extents : σ → Except Err (List (Nat × Nat))) : HttpBackend.Server σ :=
  { B, buf := zeros bufLen, ticketId := Images.lit "ticket", ticketSize, dumps := toyDumps,
    loads := toyLoads, extents }

/-- The toy server is configured properly. -/
theorem toyServer_proper {σ : Type} (B : Backend σ) (bufLen ticketSize : Nat)
    (extents : σ → Except Err (List (Nat × Nat))) (hb : 0 < bufLen)
    (ha : bufLen % B.blockSize = 0) : (toyServer B bufLen ticketSize extents).Proper where
  buf_pos := by simpa [toyServer, zeros] using hb
  buf_aligned := by simpa [toyServer, zeros] using ha
  ticketId := (by decide : Images.lit "ticket" ≠ [])
  loads_zero := toyLoads_zero
  loads_flush := rfl
  part_zero := toyZero_part
  part_flush := by
    intro k hk
    have : k = 0 := by
      have : k < 1 := hk
      omega
    subst this
    rfl

/-! ### Writing, zeroing, reading, and flushing -/

/-- C49: whatever happens in the network and on the server, a successful write stored exactly the
bytes at the position of the client, inside the ticket, and moved the position; without flush
support they are durable.  A failed write did not change any other byte of the image. -/
theorem C49_write_exact {σ : Type} {S : HttpBackend.Server σ} (L : Lawful S.B) (hS : S.Proper) (d : Bytes)
    (hd : d ≠ []) (w : World σ) (hi : L.Inv w.srv) {r : Except Err Nat} {w' : World σ}
    (h : HttpBackend.write S w d = (r, w')) :
    (∀ n, r = .ok n → n = d.length ∧
      w'.client = { w.client with position := w.client.position + d.length } ∧
      w.client.position + d.length ≤ S.ticketSize ∧
      (∀ i, L.content w'.srv i =
        if w.client.position ≤ i ∧ i < w.client.position + d.length
        then byteAt d (i - w.client.position) else L.content w.srv i) ∧
      (w.client.canFlush = false → L.durable w'.srv = L.content w'.srv)) ∧
    (∀ e, r = .error e → External e ∧ w'.client = w.client ∧
      ∀ i, ¬ (w.client.position ≤ i ∧ i < w.client.position + d.length) →
        L.content w'.srv i = L.content w.srv i) := by
  obtain ⟨h1, h2, h3⟩ := putResult_spec (reliable := False) L hS d.length (List.length_pos_iff.2 hd)
    d (Nat.le_refl _) w hi (fun h => h.elim) h
  constructor
  · intro n hn
    obtain ⟨a1, -, a3, a4, a5, a6⟩ := h2 n hn
    exact ⟨a1, a3, a4, fun i => by rw [a5]; rfl, a6⟩
  · intro e he
    obtain ⟨a1, -, a3, a4⟩ := h3 e he
    exact ⟨a1, a3, a4⟩

/-- C49: a write with nothing in the way succeeds. -/
theorem C49_write_succeeds {σ : Type} {S : HttpBackend.Server σ} (L : Lawful S.B) (hS : S.Proper) (d : Bytes)
    (hd : d ≠ []) (w : World σ) (hi : L.Inv w.srv) (hg : ∀ n ∈ w.nets, n.Good)
    (hin : w.client.position + d.length ≤ S.ticketSize)
    (hm : ¬ L.MayFail w.client.position d.length) :
    ∃ w', HttpBackend.write S w d = (.ok d.length, w') := by
  cases hx : HttpBackend.write S w d with
  | mk r w' =>
  obtain ⟨h1, h2, h3⟩ := putResult_spec (reliable := True) L hS d.length (List.length_pos_iff.2 hd)
    d (Nat.le_refl _) w hi (fun _ => hg) hx
  cases r with
  | ok n =>
    obtain ⟨rfl, -⟩ := h2 n rfl
    exact ⟨w', rfl⟩
  | error e =>
    exfalso
    obtain ⟨-, a2, -⟩ := h3 e rfl
    rcases a2 rfl with h | h | h
    · exact h trivial
    · omega
    · exact hm (mayFail_zero.2 h)

/-- C49: the same for zeroing, with a zero request or emulated by writing zeroes. -/
theorem C49_zero_exact {σ : Type} {S : HttpBackend.Server σ} (L : Lawful S.B) (hS : S.Proper) (length : Nat)
    (hl : 0 < length) (w : World σ) (hi : L.Inv w.srv) {r : Except Err Nat} {w' : World σ}
    (h : HttpBackend.zero S w length = (r, w')) :
    (∀ n, r = .ok n → n = length ∧
      w'.client = { w.client with position := w.client.position + length } ∧
      w.client.position + length ≤ S.ticketSize ∧
      (∀ i, L.content w'.srv i =
        if w.client.position ≤ i ∧ i < w.client.position + length then 0 else L.content w.srv i) ∧
      (w.client.canFlush = false → L.durable w'.srv = L.content w'.srv)) ∧
    (∀ e, r = .error e → External e ∧ w'.client = w.client ∧
      ∀ i, ¬ (w.client.position ≤ i ∧ i < w.client.position + length) →
        L.content w'.srv i = L.content w.srv i) := by
  obtain ⟨h1, h2, h3⟩ := zero_spec (reliable := False) L hS length hl w hi (fun h => h.elim) h
  constructor
  · intro n hn
    obtain ⟨a1, a3, a4, a5, a6⟩ := h2 n hn
    refine ⟨a1, a3, a4, fun i => ?_, a6⟩
    rw [a5]
    have : (zeros length).length = length := by simp [zeros]
    unfold store
    rw [this]
    by_cases hr : w.client.position ≤ i ∧ i < w.client.position + length
    · rw [if_pos hr, if_pos hr]
      simp only [byteAt, zeros, List.getD_eq_getElem?_getD, List.getElem?_replicate]
      split <;> rfl
    · rw [if_neg hr, if_neg hr]
  · intro e he
    obtain ⟨a1, -, a3, a4⟩ := h3 e he
    exact ⟨a1, a3, a4⟩

/-- C49: zeroing with nothing in the way succeeds. -/
theorem C49_zero_succeeds {σ : Type} {S : HttpBackend.Server σ} (L : Lawful S.B) (hS : S.Proper) (length : Nat)
    (hl : 0 < length) (w : World σ) (hi : L.Inv w.srv) (hg : ∀ n ∈ w.nets, n.Good)
    (hin : w.client.position + length ≤ S.ticketSize)
    (hm : ¬ L.MayFail w.client.position length) :
    ∃ w', HttpBackend.zero S w length = (.ok length, w') := by
  cases hx : HttpBackend.zero S w length with
  | mk r w' =>
  obtain ⟨h1, h2, h3⟩ := zero_spec (reliable := True) L hS length hl w hi (fun _ => hg) hx
  cases r with
  | ok n =>
    obtain ⟨rfl, -⟩ := h2 n rfl
    exact ⟨w', rfl⟩
  | error e =>
    exfalso
    obtain ⟨-, a2, -⟩ := h3 e rfl
    rcases a2 with h | h | h
    · exact h trivial
    · omega
    · exact hm (mayFail_zero.2 h)

/-- C49: the same result with and without support for zero requests. -/
theorem C49_zero_emulated {σ : Type} {S : HttpBackend.Server σ} (L : Lawful S.B) (hS : S.Proper) (length : Nat)
    (hl : 0 < length) (w1 w2 : World σ) (hi : L.Inv w1.srv) (hs : w2.srv = w1.srv)
    (hp : w2.client.position = w1.client.position) {n1 n2 : Nat} {w1' w2' : World σ}
    (h1 : HttpBackend.zero S w1 length = (.ok n1, w1'))
    (h2 : HttpBackend.zero S w2 length = (.ok n2, w2')) :
    n1 = n2 ∧ L.content w1'.srv = L.content w2'.srv ∧
      w1'.client.position = w2'.client.position := by
  obtain ⟨a1, a2, -, a4, -⟩ := (C49_zero_exact L hS length hl w1 hi h1).1 n1 rfl
  obtain ⟨b1, b2, -, b4, -⟩ := (C49_zero_exact L hS length hl w2 (hs ▸ hi) h2).1 n2 rfl
  refine ⟨a1.trans b1.symm, ?_, by rw [a2, b2]; simp [hp]⟩
  funext i
  rw [a4, b4, hs, hp]

/-- The client knows the size of the image, or of a part of it, and the ticket allows it. -/
def Knows {σ : Type} (S : HttpBackend.Server σ) (w : World σ) (size : Nat) : Prop :=
  w.client.size = some size ∧ size ≤ S.ticketSize ∧ size ≤ S.B.size w.srv

theorem Knows.ready {σ : Type} {S : HttpBackend.Server σ} {L : Lawful S.B} {w : World σ} {size : Nat}
    (h : Knows S w size) (hi : L.Inv w.srv) (reliable : Prop)
    (hr : reliable → ∀ n ∈ w.nets, n.Good) : Ready L w.client.canFlush reliable w :=
  ⟨hi, rfl, ⟨size, h⟩, hr⟩

/-- C49: a successful read returns exactly the bytes of the image at the position, as much as
asked for up to the end, in whatever pieces the response arrives.  The image is never changed. -/
theorem C49_read_exact {σ : Type} {S : HttpBackend.Server σ} (L : Lawful S.B) (hS : S.Proper) (n size : Nat)
    (w : World σ) (hi : L.Inv w.srv) (hk : Knows S w size) {r : Except Err Bytes} {w' : World σ}
    (h : HttpBackend.readinto S w n = (r, w')) :
    (∀ d, r = .ok d → d.length = min n (size - w.client.position) ∧
      (∀ i < d.length, byteAt d i = L.content w.srv (w.client.position + i)) ∧
      w'.client = { w.client with position := w.client.position + d.length }) ∧
    (∀ e, r = .error e → External e ∧ w'.client = w.client) ∧
    L.content w'.srv = L.content w.srv ∧ L.durable w'.srv = L.durable w.srv := by
  obtain ⟨h1, h2, h3, h4⟩ := readinto_spec L hS n w (hk.ready hi False (fun h => h.elim)) hk.1 h
  refine ⟨?_, fun e he => ⟨(h4 e he).1, (h4 e he).2.2⟩, h1.content, h1.durable⟩
  intro d hd
  obtain ⟨a1, a2⟩ := h3 d hd
  refine ⟨by rw [a1, load_length], ?_, a2⟩
  intro i hi
  rw [a1] at hi ⊢
  rw [byteAt, List.getD_eq_getElem?_getD, List.getElem?_eq_getElem hi, Option.getD_some]
  exact load_getElem _ _ _ _ _

/-- C49: a read with nothing in the way succeeds. -/
theorem C49_read_succeeds {σ : Type} {S : HttpBackend.Server σ} (L : Lawful S.B) (hS : S.Proper) (n size : Nat)
    (w : World σ) (hi : L.Inv w.srv) (hk : Knows S w size) (hg : ∀ n ∈ w.nets, n.Good)
    (hin : w.client.position + n ≤ S.ticketSize) (hm : ¬ L.MayFail w.client.position n) :
    ∃ d w', HttpBackend.readinto S w n = (.ok d, w') := by
  cases hx : HttpBackend.readinto S w n with
  | mk r w' =>
  obtain ⟨h1, h2, h3, h4⟩ := readinto_spec L hS n w (hk.ready hi True (fun _ => hg)) hk.1 hx
  cases r with
  | ok d => exact ⟨d, w', rfl⟩
  | error e =>
    exfalso
    obtain ⟨-, a2, -⟩ := h4 e rfl
    rcases a2 with h | h | h
    · exact h trivial
    · omega
    · exact hm (mayFail_zero.2 h)

/-- C49: after a successful flush of a server that supports it, everything is durable. -/
theorem C49_flush_durable {σ : Type} {S : HttpBackend.Server σ} (L : Lawful S.B) (hS : S.Proper) (w : World σ)
    (hi : L.Inv w.srv) (hc : w.client.canFlush = true) {w' : World σ}
    (h : HttpBackend.flush S w = (.ok (), w')) :
    L.durable w'.srv = L.content w.srv ∧ L.content w'.srv = L.content w.srv := by
  obtain ⟨-, -, h3, h4, -⟩ := flush_spec (reliable := False) L hS w hi (fun h => h.elim) h
  exact ⟨h4 rfl hc, h3⟩

/-- C49: the client and the server together meet the contract of the storage backends, so
everything proved for all backends holds for the HTTP backend too: the image behind it has the
content of the served image, and its durable content if the server supports flush. -/
theorem C49_lawful {σ : Type} {S : HttpBackend.Server σ} (L : Lawful S.B) (hS : S.Proper) (canFlush : Bool) :
    ∃ L' : Lawful (backend S),
      (∀ w, L'.content w = L.content w.srv) ∧
      (canFlush = true → ∀ w, L'.durable w = L.durable w.srv) ∧
      ∀ w, L'.Inv w ↔ L.Inv w.srv ∧ w.client.canFlush = canFlush ∧ ∃ size, Knows S w size := by
  refine ⟨HttpBackend.lawful S L hS canFlush False, fun _ => rfl, fun h w => by
    show (if canFlush then _ else _) = _
    rw [h]; rfl, fun w => ⟨fun h => ⟨h.inv, h.canFlush, h.size⟩,
      fun h => ⟨h.1, h.2.1, h.2.2, fun h => h.elim⟩⟩⟩

/-- Writing two bytes, zeroing one, and reading all of them, over a perfect network; the server
supports zero requests. -/
example :
    let S := toyServer Memory.backend 2 8 (fun _ => .ok [])
    let w : World Memory.State := ⟨⟨1, some 4, false, true, true⟩, ⟨.rw, [1, 2, 3, 4], 0, false⟩, []⟩
    (HttpBackend.write S w [7, 8]).1 = .ok 2 ∧
    (HttpBackend.write S w [7, 8]).2.srv.buf = [1, 7, 8, 4] ∧
    (HttpBackend.zero S w 3).2.srv.buf = [1, 0, 0, 0] ∧
    (HttpBackend.readinto S w 10).1 = .ok [2, 3, 4] := by
  decide +kernel

/-! ### Errors of the client -/

/-- C49 is false for the flush of a client of a server that does not support flush: after a failed
write, `flush()` returns without error, and the changed bytes are not durable. -/
theorem C49_counterexample_flush :
    ∃ (S : HttpBackend.Server NbdBackend.State) (L : Lawful S.B) (w w1 w2 : World NbdBackend.State),
      S.Proper ∧ L.Inv w.srv ∧ L.durable w.srv = L.content w.srv ∧
      HttpBackend.write S w [7, 8] = (.error (.exception "http.Error"), w1) ∧
      HttpBackend.flush S w1 = (.ok (), w2) ∧ L.durable w2.srv ≠ L.content w2.srv := by
  let S := toyServer (NbdBackend.backend 1) 1 8 (fun _ => .ok [])
  let w : World NbdBackend.State := ⟨⟨0, some 2, false, false, false⟩,
    ⟨.rw, 1, [1, 2], [1, 2], 0, true, true, []⟩, [{ Net.perfect with cut := some 1 }]⟩
  refine ⟨S, NbdBackend.lawful 1 (by decide) True 2 (fun _ => rfl), w,
    (HttpBackend.write S w [7, 8]).2, (HttpBackend.write S w [7, 8]).2,
    toyServer_proper _ _ _ _ (by decide) (by decide), ⟨rfl, rfl, rfl, fun _ => ⟨rfl, rfl, rfl⟩⟩, rfl,
    ?_, ?_, ?_⟩
  · have : (HttpBackend.write S w [7, 8]).1 = .error (.exception "http.Error") := by decide +kernel
    rw [← this]
  · have : (HttpBackend.write S w [7, 8]).2.client.canFlush = false := by decide +kernel
    unfold HttpBackend.flush
    rw [this]
    rfl
  · intro h
    have := congrFun h 0
    have e : byteAt (HttpBackend.write S w [7, 8]).2.srv.disk 0 ≠
        byteAt (HttpBackend.write S w [7, 8]).2.srv.export_ 0 := by decide +kernel
    exact e this

/-- C49 is false for an empty write: the Content-Range header of no bytes is refused by the
server, the client raises an error, and writing no bytes to the served image would work. -/
theorem C49_counterexample_empty_write :
    ∃ (S : HttpBackend.Server Memory.State) (w : World Memory.State),
      S.Proper ∧ w.nets = [] ∧ w.srv.closed = false ∧
      (HttpBackend.write S w []).1 = .error (.exception "http.Error") ∧
      (S.B.write w.srv 0 []).1 = .ok 0 :=
  ⟨toyServer Memory.backend 2 8 (fun _ => .ok []),
    ⟨⟨0, some 4, false, true, true⟩, ⟨.rw, [1, 2, 3, 4], 0, false⟩, []⟩,
    toyServer_proper _ _ _ _ (by decide) (by decide), rfl, rfl, by decide +kernel, by decide +kernel⟩

/-! ### The size -/

/-- C49: for a server without extents, the size is the size of the served image, or of the ticket
if it is smaller; and this is a size that can be read. -/
theorem C49_size {σ : Type} {S : HttpBackend.Server σ} (L : Lawful S.B) (hS : S.Proper)
    (w : World σ) (hi : L.Inv w.srv) (hn : w.client.size = none) (he : w.client.canExtents = false)
    {n : Nat} {w' : World σ} (h : HttpBackend.size S w = (.ok n, w')) :
    n = min S.ticketSize (S.B.size w.srv) ∧ Knows S w' n ∧ L.Inv w'.srv ∧
      L.content w'.srv = L.content w.srv := by
  unfold HttpBackend.size HttpBackend.fetchSize at h
  rw [hn, he] at h
  simp only [Bool.false_eq_true, if_false] at h
  unfold emulateHead at h
  cases hx : getRequest S none w with
  | mk r1 w1 =>
  obtain ⟨f1, f2, f3, f4⟩ := getRequest_frame L hS _ w hi hx
  have hw : Wanted (min S.ticketSize (S.B.size w.srv)) none 0 (min S.ticketSize (S.B.size w.srv)) :=
    .all (by omega)
  obtain ⟨g1, -⟩ := getRequest_spec L hS _ _ _ w hi hw hx
  rw [hx] at h
  cases r1 with
  | error e => cases h
  | ok resp =>
    simp only at h
    by_cases hst : resp.status = 200
    · rw [if_neg (by simp [hst])] at h
      have hl := (g1 resp rfl (by simpa using hst)).1
      cases h
      have hl2 : resp.length.toNat = min S.ticketSize (S.B.size w.srv) := by rw [hl]; omega
      refine ⟨hl2, ⟨rfl, ?_, ?_⟩, f3.inv, f3.content⟩
      · rw [hl2]; exact Nat.min_le_left _ _
      · rw [hl2]
        show _ ≤ S.B.size w1.srv
        rw [f3.bsize]
        exact Nat.min_le_right _ _
    · rw [if_pos (by simpa using hst)] at h
      cases h

/-- C49 is false for the size of a client of a server with extents: the size comes from the
extents, and is not limited by the ticket; reading to the end of the allowed bytes fails, and
without extents support it works. -/
theorem C49_counterexample_size :
    ∃ (S : HttpBackend.Server Memory.State) (w : World Memory.State),
      S.Proper ∧ w.nets = [] ∧ w.srv.closed = false ∧
      S.extents w.srv = .ok [(0, S.B.size w.srv)] ∧
      (HttpBackend.readinto S { w with client := ⟨0, none, true, true, true⟩ } 4).1 =
        .error (.exception "http.Error") ∧
      (HttpBackend.readinto S { w with client := ⟨0, none, false, true, true⟩ } 4).1 =
        .ok [1, 2] :=
  ⟨toyServer Memory.backend 2 2 (fun s => .ok [(0, s.buf.length)]),
    ⟨⟨0, none, true, true, true⟩, ⟨.rw, [1, 2, 3, 4], 0, false⟩, []⟩,
    toyServer_proper _ _ _ _ (by decide) (by decide), rfl, rfl, rfl, by decide +kernel,
    by decide +kernel⟩

/-! ### Copying from and to other backends -/

/-- C49: an upload with `read_from`, as a worker of the client does it: if it succeeds, the bytes of the
request in the served image are the bytes of the source.  If it fails, no other byte was changed.
For every source, buffer, network and server. -/
theorem C49_upload_exact {σ τ : Type} {S : HttpBackend.Server σ} (L : Lawful S.B) (hS : S.Proper)
    {R : Backend τ} (LR : Lawful R) (start length step : Nat) (hl : 0 < length) (hstep : 0 < step)
    (hsb : step % R.blockSize = 0) (hlb : length % R.blockSize = 0) (hob : start % R.blockSize = 0)
    (w : World σ) (t : τ) (hi : L.Inv w.srv) (ht : LR.Inv t)
    (hsz : R.blockSize = 1 ∨ start + length ≤ R.size t)
    {r : Except Err Nat} {w' : World σ} {t' : τ}
    (h : copyTo S R start length step w t = (r, w', t')) :
    (∀ n, r = .ok n → n = length ∧ L.content w'.srv =
      Io.perform (LR.content t) ⟨.copy, start, length⟩ (L.content w.srv)) ∧
    (∀ e, r = .error e → External e) ∧
    (∀ i, ¬ (start ≤ i ∧ i < start + length) → L.content w'.srv i = L.content w.srv i) ∧
    L.Inv w'.srv ∧ LR.Inv t' ∧ LR.content t' = LR.content t := by
  unfold copyTo at h
  cases hx : R.seek t start with
  | mk x t1 =>
  obtain ⟨rfl, i1, i2, i3, -, i5⟩ := LR.seek t start _ _ ht hx
  rw [hx] at h
  simp only at h
  unfold readFrom at h
  cases hy : readerBody R step length t1 with
  | mk r2 x2 =>
  obtain ⟨body, t2⟩ := x2
  obtain ⟨b1, b2, b3, b4, b5, b6⟩ := readerBody_spec LR step hstep hsb length t1 i1 (by rw [i2]; exact hob)
    hlb (by rw [i2, i5]; exact hsz) _ _ _ hy
  rw [hy] at h
  generalize hw1 : (HttpBackend.seek w start).2 = w1 at h
  have hp1 : w1.client.position = start := by rw [← hw1]; rfl
  have hs1 : w1.srv = w.srv := by rw [← hw1]; rfl
  have hi1 : L.Inv w1.srv := by rw [hs1]; exact hi
  cases r2 with
  | error e =>
    simp only at h
    cases hz : putRequest S length body w1 with
    | mk r3 w3 =>
    obtain ⟨c1, c2, -⟩ := putRequest_spec L hS length hl body b4 w1 hi1 hz
    rw [hz] at h
    simp only [Prod.mk.injEq] at h
    obtain ⟨rfl, rfl, rfl⟩ := h
    refine ⟨by simp, ?_, ?_, c1.inv, b1, b2.trans i3⟩
    · rintro e' ⟨⟩; exact (b6 e rfl).1
    · intro i hni
      rw [hp1, hs1] at c2
      exact c2 i hni
  | ok u =>
    cases u
    simp only at h
    cases hz : putResult length (putRequest S length body w1) with
    | mk r3 w3 =>
    obtain ⟨c1, c2, c3⟩ := putResult_spec (reliable := False) L hS length hl body b4 w1 hi1
      (fun h => h.elim) hz
    rw [hz] at h
    simp only [Prod.mk.injEq] at h
    obtain ⟨rfl, rfl, rfl⟩ := h
    rw [hp1, hs1] at c2 c3
    have hbody := b5 rfl
    rw [i2, i3] at hbody
    have hok : ∀ n, r3 = .ok n → n = length ∧ L.content w3.srv =
        Io.perform (LR.content t) ⟨.copy, start, length⟩ (L.content w.srv) := by
      intro n hn
      obtain ⟨rfl, -, -, -, a5, -⟩ := c2 n hn
      refine ⟨rfl, ?_⟩
      rw [a5, hbody]
      funext i
      simp only [Io.perform]
      by_cases hi : start ≤ i ∧ i < start + n
      · rw [if_pos (show (Io.Req.mk .copy start n).covers i from hi),
          store_inside _ _ _ _ hi.1 (by simpa using hi.2), Spec.load_getElem]
        congr 1; omega
      · rw [if_neg (show ¬ (Io.Req.mk .copy start n).covers i from hi),
          store_outside _ _ _ _ (by simpa using hi)]
    refine ⟨hok, fun e he => (c3 e he).1, ?_, c1.inv, b1, b2.trans i3⟩
    intro i hni
    cases hr : r3 with
    | ok n =>
      rw [(hok n hr).2]
      simp only [Io.perform]
      rw [if_neg (show ¬ (Io.Req.mk .copy start length).covers i from hni)]
    | error e => exact (c3 e hr).2.2.2 i hni

/-- C49: a download with `write_to`, to a backend that writes completely: if it succeeds, the bytes of
the request in the destination are the bytes of the served image.  If it fails, no other byte was
changed.  The served image is not changed. -/
theorem C49_download_exact {σ τ : Type} {S : HttpBackend.Server σ} (L : Lawful S.B) (hS : S.Proper)
    {D : Backend τ} {LD : Lawful D} {G : τ → Prop} (hg : ClientHandler.FullWrites LD G)
    (addr start length step : Nat) (ha : addr % D.blockSize = 0) (hl : 0 < length) (hstep : 0 < step)
    (w : World σ) (t : τ) (hi : L.Inv w.srv) (hin : start + length ≤ min S.ticketSize (S.B.size w.srv))
    (ht : LD.Inv t) (hgt : G t)
    {r : Except Err Nat} {w' : World σ} {t' : τ}
    (h : copyFrom S D addr start length step w t = (r, w', t')) :
    (∀ n, r = .ok n → n = length ∧ LD.content t' =
      Io.perform (L.content w.srv) ⟨.copy, start, length⟩ (LD.content t)) ∧
    (∀ e, r = .error e → External e) ∧
    (∀ i, ¬ (start ≤ i ∧ i < start + length) → LD.content t' i = LD.content t i) ∧
    L.Inv w'.srv ∧ LD.Inv t' ∧ L.content w'.srv = L.content w.srv := by
  unfold copyFrom at h
  cases hx : D.seek t start with
  | mk x t1 =>
  have hgt1 := hg.seek _ _ _ _ ht hgt hx
  obtain ⟨rfl, i1, i2, i3, -, i5⟩ := LD.seek t start _ _ ht hx
  rw [hx] at h
  simp only at h
  unfold writeTo at h
  generalize hw1 : (HttpBackend.seek w start).2 = w1 at h
  have hp1 : w1.client.position = start := by rw [← hw1]; rfl
  have hs1 : w1.srv = w.srv := by rw [← hw1]; rfl
  have hi1 : L.Inv w1.srv := by rw [hs1]; exact hi
  have hwant := clientRange_wanted (avail := min S.ticketSize (S.B.size w1.srv)) (position := start)
    hl (by rw [hs1]; omega)
  simp only at h
  rw [hp1] at h
  cases hy : getRequest S (some (clientRange start length)) w1 with
  | mk r2 w2 =>
  obtain ⟨f1, f2, f3, f4⟩ := getRequest_frame L hS _ w1 hi1 hy
  obtain ⟨g1, -⟩ := getRequest_spec L hS _ _ _ w1 hi1 hwant hy
  rw [hs1] at g1
  have hc2 : L.content w2.srv = L.content w.srv := by rw [f3.content, hs1]
  rw [hy] at h
  cases r2 with
  | error e =>
    simp only [Prod.mk.injEq] at h
    obtain ⟨rfl, rfl, rfl⟩ := h
    refine ⟨by simp, ?_, fun i _ => by rw [i3], f3.inv, i1, hc2⟩
    rintro e' ⟨⟩; exact f4 e rfl
  | ok resp =>
    simp only at h
    cases hck : checkRange length resp with
    | error e =>
      rw [hck] at h
      simp only [Prod.mk.injEq] at h
      obtain ⟨rfl, rfl, rfl⟩ := h
      refine ⟨by simp, ?_, fun i _ => by rw [i3], f3.inv, i1, hc2⟩
      rintro e' ⟨⟩; exact checkRange_err hck
    | ok body =>
      rw [hck] at h
      simp only at h
      obtain ⟨k1, rfl⟩ := checkRange_ok hck
      have hpre := (g1 resp rfl (by simpa using k1)).2
      cases hz : writerLoop D addr w1.net.pieces resp.body step length t1 with
      | mk r3 t3 =>
      obtain ⟨c1, c2, c3, c4, c5⟩ := writerLoop_spec hg ha step hstep length _ _ t1 i1 hgt1 _ _ hz
      rw [i2, i3] at c2 c4
      rw [hz] at h
      cases r3 with
      | error e =>
        simp only [Prod.mk.injEq] at h
        obtain ⟨rfl, rfl, rfl⟩ := h
        refine ⟨by simp, ?_, c2, f3.inv, c1, hc2⟩
        rintro e' ⟨⟩; exact (c5 e rfl).1
      | ok u =>
        simp only [Prod.mk.injEq] at h
        obtain ⟨rfl, rfl, rfl⟩ := h
        refine ⟨?_, by simp, c2, f3.inv, c1, hc2⟩
        rintro n ⟨⟩
        refine ⟨rfl, ?_⟩
        obtain ⟨d1, -, d3⟩ := c4 rfl
        have hbody : resp.body = load (L.content w.srv) start length := by
          apply hpre.eq_of_length
          have := hpre.length_le
          rw [load_length] at *
          omega
        rw [d3, hbody, List.take_of_length_le (by simp)]
        funext i
        simp only [Io.perform]
        by_cases hi : start ≤ i ∧ i < start + length
        · rw [if_pos (show (Io.Req.mk .copy start length).covers i from hi),
            store_inside _ _ _ _ hi.1 (by simpa using hi.2), Spec.load_getElem]
          congr 1; omega
        · rw [if_neg (show ¬ (Io.Req.mk .copy start length).covers i from hi),
            store_outside _ _ _ _ (by simpa using hi)]

/-- C49: an upload of bytes of the source, with nothing in the way, succeeds. -/
theorem C49_upload_succeeds {σ τ : Type} {S : HttpBackend.Server σ} (L : Lawful S.B) (hS : S.Proper)
    {R : Backend τ} (LR : Lawful R) (start length step : Nat) (hl : 0 < length) (hstep : 0 < step)
    (hsb : step % R.blockSize = 0) (hlb : length % R.blockSize = 0) (hob : start % R.blockSize = 0)
    (w : World σ) (t : τ) (hi : L.Inv w.srv) (ht : LR.Inv t) (hg : ∀ n ∈ w.nets, n.Good)
    (hsz : start + length ≤ R.size t) (hin : start + length ≤ S.ticketSize)
    (hm : ¬ L.MayFail start length) (hmr : ¬ LR.MayFail start length) :
    ∃ w' t', copyTo S R start length step w t = (.ok length, w', t') := by
  unfold copyTo
  cases hx : R.seek t start with
  | mk x t1 =>
  obtain ⟨rfl, i1, i2, i3, -, i5⟩ := LR.seek t start _ _ ht hx
  simp only
  unfold readFrom
  cases hy : readerBody R step length t1 with
  | mk r2 x2 =>
  obtain ⟨body, t2⟩ := x2
  obtain ⟨b1, b2, b3, b4, b5, b6⟩ := readerBody_spec LR step hstep hsb length t1 i1 (by rw [i2]; exact hob)
    hlb (by rw [i2, i5]; exact .inr hsz) _ _ _ hy
  generalize hw1 : (HttpBackend.seek w start).2 = w1
  have hp1 : w1.client.position = start := by rw [← hw1]; rfl
  have hs1 : w1.srv = w.srv := by rw [← hw1]; rfl
  have hn1 : w1.nets = w.nets := by rw [← hw1]; rfl
  have hi1 : L.Inv w1.srv := by rw [hs1]; exact hi
  cases r2 with
  | error e =>
    exfalso
    rcases (b6 e rfl).2 with h | h
    · rw [i2] at h
      exact hmr (mayFail_zero.2 h)
    · rw [i2, i5] at h
      omega
  | ok u =>
    cases u
    simp only
    have hbl : body.length = length := by rw [b5 rfl, load_length]
    cases hz : putResult length (putRequest S length body w1) with
    | mk r3 w3 =>
    obtain ⟨c1, c2, c3⟩ := putResult_spec (reliable := True) L hS length hl body b4 w1 hi1
      (fun _ => by rw [hn1]; exact hg) hz
    simp only
    cases r3 with
    | ok n =>
      obtain ⟨rfl, -⟩ := c2 n rfl
      exact ⟨_, _, rfl⟩
    | error e =>
      exfalso
      obtain ⟨-, a2, -⟩ := c3 e rfl
      rw [hp1] at a2
      rcases a2 hbl with h | h | h
      · exact h trivial
      · omega
      · exact hm (mayFail_zero.2 h)

/-- A memory backend that writes at most one byte per call, as a file may do. -/
def shortWriter : Backend Memory.State :=
  { Memory.backend with write := fun s a d => Memory.write s a (d.take 1) }

def shortWriter_lawful : Lawful shortWriter :=
  { Inv := Memory.lawful.Inv
    content := Memory.lawful.content
    durable := Memory.lawful.durable
    mayFail := Memory.lawful.mayFail
    block_pos := Memory.lawful.block_pos
    seek := Memory.lawful.seek
    readinto := Memory.lawful.readinto
    readinto_err := Memory.lawful.readinto_err
    write := by
      intro s a d n s' hi hd _ h
      have hne : d.take 1 ≠ [] := by cases d <;> simp_all
      obtain ⟨h1, h2, h3, h4, h5, h6, h7⟩ := Memory.lawful.write s a (d.take 1) n s' hi hne
        (fun _ _ => Nat.mod_one _) h
      rw [List.length_take] at h3
      refine ⟨h1, h2, by omega, h4, ?_, h6, h7⟩
      rw [h5, List.take_take, Nat.min_eq_left (by omega)]
      rfl
    write_err := by
      intro s a d e s' hi hd _ h
      have hne : d.take 1 ≠ [] := by cases d <;> simp_all
      obtain ⟨h1, h2, h3⟩ := Memory.lawful.write_err s a (d.take 1) e s' hi hne
        (fun _ _ => Nat.mod_one _) h
      refine ⟨h1, trivial, h3.inv, ?_, h3.size_ge⟩
      intro i hni
      apply h3.outside
      rw [List.length_take]
      unfold InRange at *
      have e : Memory.backend.tell s = shortWriter.tell s := rfl
      rw [e]
      omega
    zero := Memory.lawful.zero
    zero_err := Memory.lawful.zero_err
    flush := Memory.lawful.flush
    flush_err := Memory.lawful.flush_err }

/-- C49 is false for a destination that may write less than asked: `write_to` does not use the
result of `write`, and the download succeeds with wrong bytes in the destination. -/
theorem C49_counterexample_short_write :
    ∃ (S : HttpBackend.Server Memory.State) (w w' : World Memory.State) (t t' : Memory.State),
      S.Proper ∧ w.nets = [] ∧ w.srv.closed = false ∧ shortWriter_lawful.Inv t ∧
      copyFrom S shortWriter 0 0 2 2 w t = (.ok 2, w', t') ∧
      (shortWriter_lawful.content t' 1 ≠ Memory.lawful.content w.srv 1) := by
  let S := toyServer Memory.backend 2 2 (fun _ => .ok [])
  let w : World Memory.State := ⟨⟨0, some 2, false, true, true⟩, ⟨.r, [1, 2], 0, false⟩, []⟩
  let t : Memory.State := ⟨.rw, [0, 0], 0, false⟩
  refine ⟨S, w, (copyFrom S shortWriter 0 0 2 2 w t).2.1, t, (copyFrom S shortWriter 0 0 2 2 w t).2.2,
    toyServer_proper _ _ _ _ (by decide) (by decide), rfl, rfl, rfl, ?_, ?_⟩
  · have : (copyFrom S shortWriter 0 0 2 2 w t).1 = .ok 2 := by decide +kernel
    rw [← this]
  · show byteAt (copyFrom S shortWriter 0 0 2 2 w t).2.2.buf 1 ≠ byteAt w.srv.buf 1
    decide +kernel

/-- Uploading from an NBD export, and downloading to another one: three bytes with a buffer of
two bytes. -/
example :
    let S := toyServer Memory.backend 2 8 (fun _ => .ok [])
    let w : World Memory.State := ⟨⟨0, some 4, false, true, true⟩, ⟨.rw, [1, 2, 3, 4], 0, false⟩, []⟩
    let t : NbdBackend.State := ⟨.rw, 1, [5, 6, 7, 8], [], 0, true, true, []⟩
    (copyTo S (NbdBackend.backend 1) 1 3 2 w t).1 = .ok 3 ∧
    (copyTo S (NbdBackend.backend 1) 1 3 2 w t).2.1.srv.buf = [1, 6, 7, 8] ∧
    (copyFrom S (NbdBackend.backend 1) 0 1 3 2 w t).1 = .ok 3 ∧
    (copyFrom S (NbdBackend.backend 1) 0 1 3 2 w t).2.2.export_ = [5, 2, 3, 4] := by
  decide +kernel

end Imageio.Props
