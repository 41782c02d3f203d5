import Verif.Model.HttpBackend
import Verif.Props.Patch
import Verif.Lemmas.ClientHandler

/-!
Lemmas about the HTTP backend of the client: what every request does to the served image.
-/
namespace Imageio.HttpBackend
open Http Images Spec Props

/-- Nothing fails during the request. -/
structure Net.Good (n : Net) : Prop where
  auth : n.auth = none
  refused : n.refused = false
  canceled : n.canceled = false
  recvs : ∀ k, Recv.fails k ∉ n.recvs
  writes : ∀ b ∈ n.writes, b = true
  cut : n.cut = none
  responseLost : n.responseLost = false

/-- The server is configured properly: the buffer is not empty and aligned, the ticket has an id,
and the JSON functions work for the messages of the client.  A part of a message, that is an
object, is never a message. -/
structure Server.Proper {σ : Type} (S : Server σ) : Prop where
  buf_pos : 0 < S.buf.length
  buf_aligned : S.buf.length % S.B.blockSize = 0
  ticketId : S.ticketId ≠ []
  loads_zero : ∀ p n f, S.loads (S.dumps (zeroMessage p n f)) = some (zeroMessage p n f)
  loads_flush : S.loads (S.dumps flushMessage) = some flushMessage
  part_zero : ∀ p n f k, k < (S.dumps (zeroMessage p n f)).length →
    S.loads ((S.dumps (zeroMessage p n f)).take k) = none
  part_flush : ∀ k, k < (S.dumps flushMessage).length →
    S.loads ((S.dumps flushMessage).take k) = none

theorem Net.conn_fresh (n : Net) (len : Option Nat) (body : Bytes) : Fresh (n.conn len body) :=
  ⟨rfl, rfl, rfl, rfl, rfl, rfl, rfl⟩

theorem Net.conn_announces (n : Net) (len : Nat) (body : Bytes) :
    Announces (n.conn (some len) body).req.header len :=
  .inr ⟨fmtNat len, rfl, number_fmtNat len⟩

theorem Net.arrived_prefix (n : Net) (body : Bytes) :
    ∃ k, n.arrived body = body.take k ∧ (n.cut = none → n.arrived body = body) := by
  unfold Net.arrived
  cases n.cut with
  | none => exact ⟨body.length, by simp, fun _ => rfl⟩
  | some k => exact ⟨k, rfl, by simp⟩

theorem Net.response_external {n : Net} {c : Conn} {e : Err} (h : n.response c = .error e) :
    External e := by
  unfold Net.response at h
  split at h
  · cases h; trivial
  · split at h
    · cases h; trivial
    · cases h

theorem Net.response_ok {n : Net} {c : Conn} {r : Response} (h : n.response c = .ok r) :
    ∃ l, c.sent = r.status :: l ∧ r.length = c.hdrLength ∧ r.body = c.body := by
  unfold Net.response at h
  split at h
  · cases h
  · split at h
    · cases h
    · next hs => cases h; exact ⟨_, hs, rfl, rfl⟩

theorem Net.response_good {n : Net} {c : Conn} (hg : n.Good) {st : Nat} (hs : c.sent = [st]) :
    n.response c = .ok ⟨st, c.hdrLength, c.body⟩ := by
  simp [Net.response, hg.responseLost, hs]

/-- A successful response comes from a handler that succeeded. -/
theorem sent_200 {c c' : Conn} (hc : Fresh c) (hn : NoResponse c c') {r : Except HErr Unit}
    {lost : Bool} {l : List Nat} (h : (finish lost (r, c')).sent = 200 :: l)
    (he : ∀ e, r = .error e → errorCode e ≠ 200) : r = .ok () := by
  rcases finish_sent (lost := lost) (r := r) (hn.started.trans hc.started)
    (hn.sent.trans hc.sent) with h' | h'
  · simp [h'] at h
  · cases r with
    | ok u => rfl
    | error e =>
      rw [h'] at h
      simp only [List.cons.injEq] at h
      exact absurd h.1 (he e rfl)

/-- The effect of a request on the client: only the requests are used up. -/
structure Step {σ : Type} (L : σ → Prop) (size : σ → Nat) (w w' : World σ) : Prop where
  client : w'.client = w.client
  nets : w'.nets = w.nets.tail
  inv : L w'.srv
  size_ge : size w.srv ≤ size w'.srv

/-- A PUT request. -/
theorem putRequest_spec {σ : Type} {S : Server σ} (L : Lawful S.B) (hS : S.Proper) (length : Nat)
    (hlen : 0 < length) (body : Bytes) (hb : body.length ≤ length) (w : World σ)
    (hi : L.Inv w.srv) {r : Except Err Response} {w' : World σ}
    (h : putRequest S length body w = (r, w')) :
    Step L.Inv S.B.size w w' ∧
    (∀ i, ¬ InRange w.client.position length i → L.content w'.srv i = L.content w.srv i) ∧
    (∀ resp, r = .ok resp → resp.status = 200 →
      body.length = length ∧ w.client.position + length ≤ S.ticketSize ∧
      L.content w'.srv = store (L.content w.srv) w.client.position body ∧
      (w.client.canFlush = false → L.durable w'.srv = L.content w'.srv)) ∧
    (w.net.Good → body.length = length → w.client.position + length ≤ S.ticketSize →
      ¬ L.MayFail w.client.position length → ∃ resp, r = .ok resp ∧ resp.status = 200) ∧
    (∀ e, r = .error e → External e) := by
  obtain ⟨last, hcr, hlast⟩ := C17_client_round_trip w.client.position length hlen
  unfold putRequest at h
  simp only at h
  generalize hq : (PutReq.mk S.ticketId (if w.client.canFlush = true then [(lit "flush", lit "n")]
      else []) (some (clientContentRange w.client.position length))) = q at h
  have hfr := Net.conn_fresh w.net (some length) body
  have hann := Net.conn_announces w.net length body
  have hp := put_post L S.buf.length hS.buf_pos hS.buf_aligned (w.net.access S.ticketSize) q w.srv hi
    (w.net.conn (some length) body).rest length (w.net.conn (some length) body) (hfr.synced hann)
  have hoff : putOffset q.contentRange = some w.client.position := by
    subst hq; simp only [putOffset, hcr, Option.map_some]
  have hgood : w.net.Good → body.length = length → w.client.position + length ≤ S.ticketSize →
      ¬ L.MayFail w.client.position length →
      (serve w.net.lost (put S.B S.buf.length (w.net.access S.ticketSize) q w.srv
        (w.net.conn (some length) body))).2.sent = [200] := by
    intro hg hbl hin hmf
    have hcut : (w.net.conn (some length) body).rest = body ++ [] := by
      obtain ⟨k, _, h2⟩ := Net.arrived_prefix w.net body
      simp only [List.append_nil]
      exact h2 hg.cut
    refine C08_put_succeeds L S.buf.length hS.buf_pos hS.buf_aligned (w.net.access S.ticketSize) q
      w.srv hi _ hfr body [] (fmtNat length) rfl (by rw [hbl]; exact number_fmtNat length) hcut
      w.net.lost w.client.position ?_ (.inr ?_) ?_ hg.auth hg.refused hg.canceled ?_ ?_
      hg.recvs hg.writes
    · subst hq; exact hS.ticketId
    · subst hq
      have h2 := (C17_parse_iff _ _).1 hcr
      exact ⟨_, some last, none, rfl, h2.1, h2.2.1, h2.2.2⟩
    · subst hq
      cases w.client.canFlush with
      | false => exact .inl rfl
      | true => exact .inr ⟨"n", .inr rfl, rfl⟩
    · rw [hbl]; show ((w.client.position : Nat) : Int) + length ≤ (S.ticketSize : Nat); omega
    · rw [hbl]; exact hmf
  have hrest : ∃ k, (w.net.conn (some length) body).rest = body.take k := by
    obtain ⟨k, h1, _⟩ := Net.arrived_prefix w.net body
    exact ⟨k, h1⟩
  unfold serve at h hgood
  generalize put S.B S.buf.length (w.net.access S.ticketSize) q w.srv
    (w.net.conn (some length) body) = x at h hp hgood
  obtain ⟨r1, s1, c1⟩ := x
  obtain ⟨hn, hp⟩ := hp
  simp only at h hp hn hgood
  obtain ⟨k, hrest⟩ := hrest
  rw [hrest] at hp
  cases h
  have hcont : ∀ j, (body.take k).take j = body.take (min j k) := by intro j; rw [List.take_take]
  have houtside : ∀ (d : Bytes), d.length ≤ length → ∀ i, ¬ InRange w.client.position length i →
      store (L.content w.srv) w.client.position d i = L.content w.srv i := by
    intro d hd i hi
    apply store_outside
    unfold InRange at hi
    omega
  have hext : ∀ e, (if w.net.sendRaises body = true then Except.error (.os "EPIPE")
      else w.net.response (finish w.net.lost (r1, c1))) = .error e → External e := by
    intro e he
    split at he
    · cases he; trivial
    · exact Net.response_external he
  have hgood' : w.net.Good → body.length = length → w.client.position + length ≤ S.ticketSize →
      ¬ L.MayFail w.client.position length →
      ∃ resp, (if w.net.sendRaises body = true then Except.error (.os "EPIPE")
        else w.net.response (finish w.net.lost (r1, c1))) = .ok resp ∧ resp.status = 200 := by
    intro hg h1 h2 h3
    have hs : w.net.sendRaises body = false := by
      obtain ⟨k, _, h2⟩ := Net.arrived_prefix w.net body
      simp [Net.sendRaises, h2 hg.cut]
    rw [hs]
    exact ⟨_, Net.response_good hg (hgood hg h1 h2 h3), rfl⟩
  have hok : ∀ resp, (if w.net.sendRaises body = true then Except.error (.os "EPIPE")
        else w.net.response (finish w.net.lost (r1, c1))) = .ok resp → resp.status = 200 →
        (∀ e, r1 = .error e → errorCode e ≠ 200) → r1 = .ok () := by
    intro resp hr hst hne
    split at hr
    · cases hr
    · obtain ⟨l, hl, -⟩ := Net.response_ok hr
      rw [hst] at hl
      exact sent_200 hfr hn hl hne
  cases hp with
  | done offset fl ho hf ha hnr hnc hle hlen' inv content rest size_ge size_le durable =>
    rw [hoff] at ho
    cases ho
    have hfull : body.length = length ∧ (body.take k).take length = body := by
      simp only [List.length_take] at hlen'
      have h1 : body.length = length := by omega
      refine ⟨h1, ?_⟩
      rw [hcont, List.take_of_length_le (by omega)]
    rw [hfull.2] at content
    refine ⟨⟨rfl, rfl, inv, size_ge⟩, ?_, ?_, hgood', hext⟩
    · intro i hi
      rw [content]
      exact houtside _ hb i hi
    · intro resp _ _
      refine ⟨hfull.1, ?_, content, ?_⟩
      · have : ((w.client.position : Nat) : Int) + length ≤ (S.ticketSize : Nat) := hle
        omega
      · intro hcf
        apply durable
        subst hq
        simp only [hcf] at hf
        have : enumQuery [] (lit "flush") [lit "y", lit "n"] (lit "y") = .ok (lit "y") := rfl
        rw [show (if false = true then [(lit "flush", lit "n")] else []) =
          ([] : List (Str × Str)) from rfl, this] at hf
        cases hf
        rfl
  | refused e he why big =>
    refine ⟨⟨rfl, rfl, hi, Nat.le_refl _⟩, fun _ _ => rfl, ?_, hgood', hext⟩
    intro resp hr hst
    have := hok resp hr hst (by rintro e' ⟨⟩; intro h2; simp [h2] at he)
    cases this
  | part offset j e he ho hle hk hk2 inv content rest size_ge size_le why =>
    rw [hoff] at ho
    cases ho
    refine ⟨⟨rfl, rfl, inv, size_ge⟩, ?_, ?_, hgood', hext⟩
    · intro i hi
      rw [content]
      exact houtside _ (by simp; omega) i hi
    · intro resp hr hst
      have := hok resp hr hst (by rintro e' ⟨⟩; intro h2; simp [h2] at he)
      cases this
  | failed offset e he ho hle damaged why =>
    rw [hoff] at ho
    cases ho
    refine ⟨⟨rfl, rfl, damaged.inv, damaged.size_ge⟩, damaged.outside, ?_, hgood', hext⟩
    intro resp hr hst
    have := hok resp hr hst (by rintro e' ⟨⟩; intro h2; simp [h2] at he)
    cases this

theorem emulateBody_eq (piece todo : Nat) : emulateBody piece todo = zeros todo := by
  induction todo using Nat.strongRecOn with
  | ind todo ih =>
    unfold emulateBody
    split
    · next h =>
      rw [ih _ (by omega)]
      simp only [zeros, List.replicate_append_replicate]
      congr 1; omega
    · rfl

/-! ### PATCH requests -/

theorem not_field {l : List (Str × Json)} {names : List Str} {name : Str}
    (h : l.map (·.1) = names) (hn : name ∉ names) : ∀ f ∈ l, f.1 ≠ name := by
  rintro f hf rfl
  exact hn (h ▸ List.mem_map_of_mem hf)

theorem zeroMessage_zero (p n : Nat) (f : Bool) : ZeroMessage (zeroMessage p n f) n p f where
  op := ⟨[], _, rfl, not_field (names := [lit "offset", lit "size", lit "flush"]) rfl (by decide)⟩
  size := ⟨.int n, ⟨[_, _], [_], rfl, not_field (names := [lit "flush"]) rfl (by decide)⟩, .inl rfl⟩
  offset := .inr ⟨.int p, ⟨[_], [_, _], rfl,
    not_field (names := [lit "size", lit "flush"]) rfl (by decide)⟩, .inl rfl⟩
  flush := .inr ⟨[_, _, _], [], rfl, by simp⟩

theorem flushMessage_flush : HasField flushMessage "op" (.str "flush".toList) :=
  ⟨[], [], rfl, by simp⟩

/-- What `_patch` makes of the response. -/
def patchResult {σ : Type} (raises : Bool) (r : Except Err Response) (w : World σ) :
    Res (World σ) Unit :=
  if raises then (.error (.os "EPIPE"), w)
  else
    match r with
    | .error e => (.error e, w)
    | .ok r => if r.status ≠ 200 then (.error reraise, w) else (.ok (), w)

theorem patchRequest_eq {σ : Type} (S : Server σ) (msg : Json) (w : World σ) :
    patchRequest S msg w =
      patchResult (w.net.sendRaises (S.dumps msg)) (w.net.response (serve w.net.lost
        (patch S.B (w.net.access S.ticketSize) S.loads S.ticketId w.srv
          (w.net.conn (some (S.dumps msg).length) (S.dumps msg)))).2)
        { w with
          srv := (serve w.net.lost
            (patch S.B (w.net.access S.ticketSize) S.loads S.ticketId w.srv
              (w.net.conn (some (S.dumps msg).length) (S.dumps msg)))).1
          nets := w.nets.tail } := by
  unfold patchRequest patchResult
  simp only
  split
  · rfl
  · split <;> simp_all

theorem patchResult_world {σ : Type} (b : Bool) (r : Except Err Response) (w : World σ) :
    (patchResult b r w).2 = w := by
  unfold patchResult
  split
  · rfl
  · split
    · rfl
    · split <;> rfl

theorem patchResult_ok {σ : Type} {b : Bool} {r : Except Err Response} {w : World σ}
    (h : (patchResult b r w).1 = .ok ()) : ∃ resp, r = .ok resp ∧ resp.status = 200 := by
  unfold patchResult at h
  split at h
  · cases h
  · split at h
    · cases h
    · next resp =>
      split at h
      · cases h
      · next hs => exact ⟨resp, rfl, by simpa using hs⟩

theorem patchResult_err {σ : Type} {b : Bool} {n : Net} {c : Conn} {w : World σ} {e : Err}
    (h : (patchResult b (n.response c) w).1 = .error e) : External e := by
  unfold patchResult at h
  split at h
  · cases h; trivial
  · split at h
    · next he => cases h; exact Net.response_external he
    · split at h
      · cases h; trivial
      · cases h

theorem Net.conn_rest (n : Net) (len : Option Nat) (body : Bytes) :
    ∃ k, (n.conn len body).rest = body.take k ∧
      (n.cut = none → (n.conn len body).rest = body ++ []) := by
  obtain ⟨k, h1, h2⟩ := Net.arrived_prefix n body
  exact ⟨k, h1, fun h => by rw [List.append_nil]; exact h2 h⟩

theorem Net.sendRaises_good {n : Net} (hg : n.Good) (body : Bytes) : n.sendRaises body = false := by
  obtain ⟨k, _, h2⟩ := Net.arrived_prefix n body
  simp [Net.sendRaises, h2 hg.cut]

/-- A zero request. -/
theorem patchZero_spec {σ : Type} {S : Server σ} (L : Lawful S.B) (hS : S.Proper)
    (position length : Nat) (fl : Bool) (w : World σ) (hi : L.Inv w.srv) {r : Except Err Unit}
    {w' : World σ} (h : patchRequest S (zeroMessage position length fl) w = (r, w')) :
    Step L.Inv S.B.size w w' ∧
    (∀ i, ¬ InRange position length i → L.content w'.srv i = L.content w.srv i) ∧
    (r = .ok () → position + length ≤ S.ticketSize ∧
      L.content w'.srv = store (L.content w.srv) position (zeros length) ∧
      (fl = true → L.durable w'.srv = L.content w'.srv)) ∧
    (w.net.Good → position + length ≤ S.ticketSize → ¬ L.MayFail position length → r = .ok ()) ∧
    (∀ e, r = .error e → External e) := by
  have hmsg := zeroMessage_zero position length fl
  obtain ⟨z1, z2, z3, z4⟩ := (zeroMessage_iff _ _ _ _).1 hmsg
  rw [patchRequest_eq] at h
  have hfr := Net.conn_fresh w.net (some (S.dumps (zeroMessage position length fl)).length)
    (S.dumps (zeroMessage position length fl))
  have hann := Net.conn_announces w.net (S.dumps (zeroMessage position length fl)).length
    (S.dumps (zeroMessage position length fl))
  have hl := hS.loads_zero position length fl
  have hpart := hS.part_zero position length fl
  generalize hb : S.dumps (zeroMessage position length fl) = body at h hfr hann hl hpart
  obtain ⟨k, hk, hkc⟩ := Net.conn_rest w.net (some body.length) body
  have hp := patch_post_any L (w.net.access S.ticketSize) S.loads S.ticketId w.srv hi _ _ _
    (hfr.synced hann)
  have hgood : w.net.Good → position + length ≤ S.ticketSize → ¬ L.MayFail position length →
      (serve w.net.lost (patch S.B (w.net.access S.ticketSize) S.loads S.ticketId w.srv
          (w.net.conn (some body.length) body))).2.sent = [200] := by
    intro hg hin hmf
    refine C13_zero_succeeds L _ S.loads S.ticketId w.srv hi _ hfr body [] hann (hkc hg.cut)
      w.net.lost _ hl length position fl hmsg hS.ticketId hg.auth hg.refused hg.canceled ?_ hmf
      hg.recvs hg.writes
    show ((position : Nat) : Int) + length ≤ (S.ticketSize : Nat)
    omega
  unfold serve at h hgood
  generalize patch S.B (w.net.access S.ticketSize) S.loads S.ticketId w.srv
    (w.net.conn (some body.length) body) = x at h hp hgood
  obtain ⟨r1, s1, c1⟩ := x
  obtain ⟨hn, hp⟩ := hp
  simp only at h hp hn hgood
  rw [hk] at hp
  have hw' : w' = { w with srv := s1, nets := w.nets.tail } := by
    have := congrArg Prod.snd h
    rw [patchResult_world] at this
    exact this.symm
  have hr : r = (patchResult (w.net.sendRaises body)
      (w.net.response (finish w.net.lost (r1, c1)))
      { w with srv := s1, nets := w.nets.tail }).1 := (congrArg Prod.fst h).symm
  clear h
  subst hw'
  have hext : ∀ e, r = .error e → External e := by
    intro e he
    rw [hr] at he
    exact patchResult_err he
  have hgood' : w.net.Good → position + length ≤ S.ticketSize → ¬ L.MayFail position length →
      r = .ok () := by
    intro hg h1 h2
    rw [hr]
    unfold patchResult
    rw [Net.sendRaises_good hg, Net.response_good hg (hgood hg h1 h2)]
    simp
  have hok : (∀ e, r1 = .error e → errorCode e ≠ 200) → r = .ok () → r1 = .ok () := by
    intro hne h
    rw [hr] at h
    obtain ⟨resp, h1, h2⟩ := patchResult_ok h
    obtain ⟨l, hl, -⟩ := Net.response_ok h1
    rw [h2] at hl
    exact sent_200 hfr hn hl hne
  clear hr
  have hmsgs : ∀ m, S.loads ((body.take k).take body.length) = some m →
      m = zeroMessage position length fl := by
    intro m hm
    rw [List.take_take] at hm
    by_cases hkl : body.length ≤ k
    · rw [List.take_of_length_le (by omega), hl] at hm
      exact (Option.some.inj hm).symm
    · rw [hpart _ (by omega)] at hm
      cases hm
  have hout : ∀ n, n ≤ length → ∀ i, ¬ InRange position length i →
      store (L.content w.srv) position (zeros n) i = L.content w.srv i := by
    intro n hn i hi
    apply store_outside
    unfold InRange at hi
    simp only [zeros, List.length_replicate]
    omega
  cases hp with
  | refused e he why =>
    refine ⟨⟨rfl, rfl, hi, Nat.le_refl _⟩, fun _ _ => rfl, fun h => ?_, hgood', hext⟩
    have := hok (by rintro e' ⟨⟩; intro h2; simp [h2] at he) h
    cases this
  | flush msg hid hm hop post hrest =>
    rw [hmsgs msg hm, z1] at hop
    exact absurd hop (by decide)
  | zero msg hid hm hop post hrest =>
    rw [hmsgs msg hm] at post
    cases post with
    | done size offset f2 hs ho hf ha hnr hnc hle inv content size_ge size_le durable =>
      rw [z2] at hs
      rw [z3] at ho
      rw [z4] at hf
      cases hs; cases ho; cases hf
      refine ⟨⟨rfl, rfl, inv, size_ge⟩, ?_, fun _ => ⟨?_, content, durable⟩, hgood', hext⟩
      · intro i hi
        rw [content]
        exact hout _ (Nat.le_refl _) i hi
      · have : ((position : Nat) : Int) + length ≤ (S.ticketSize : Nat) := hle
        omega
    | refused e he why big =>
      refine ⟨⟨rfl, rfl, hi, Nat.le_refl _⟩, fun _ _ => rfl, fun h => ?_, hgood', hext⟩
      have := hok (by rintro e' ⟨⟩; intro h2; simp [h2] at he) h
      cases this
    | part size offset j hs ho hle hj inv content size_ge hca hf =>
      rw [z2] at hs
      rw [z3] at ho
      cases hs; cases ho
      refine ⟨⟨rfl, rfl, inv, size_ge⟩, ?_, fun h => ?_, hgood', hext⟩
      · intro i hi
        rw [content]
        exact hout _ hj i hi
      · have := hok (by rintro e' ⟨⟩; decide) h
        cases this
    | failed size offset e he hs ho hle damaged why hf =>
      rw [z2] at hs
      rw [z3] at ho
      cases hs; cases ho
      refine ⟨⟨rfl, rfl, damaged.inv, damaged.size_ge⟩, damaged.outside, fun h => ?_, hgood', hext⟩
      have := hok (by rintro e' ⟨⟩; intro h2; simp [h2] at he) h
      cases this

/-- A flush request. -/
theorem patchFlush_spec {σ : Type} {S : Server σ} (L : Lawful S.B) (hS : S.Proper)
    (w : World σ) (hi : L.Inv w.srv) {r : Except Err Unit}
    {w' : World σ} (h : patchRequest S flushMessage w = (r, w')) :
    Step L.Inv S.B.size w w' ∧ L.content w'.srv = L.content w.srv ∧
    (r = .ok () → L.durable w'.srv = L.content w.srv) ∧
    (w.net.Good → ¬ L.mayFail 0 → r = .ok ()) ∧
    (∀ e, r = .error e → External e) := by
  have hmsg := flushMessage_flush
  have z1 : enumJson flushMessage (lit "op") [lit "zero", lit "flush"] = .ok (lit "flush") :=
    (enumJson_iff _ _ _ _).2 ⟨hmsg, by simp⟩
  rw [patchRequest_eq] at h
  have hfr := Net.conn_fresh w.net (some (S.dumps flushMessage).length) (S.dumps flushMessage)
  have hann := Net.conn_announces w.net (S.dumps flushMessage).length (S.dumps flushMessage)
  have hl := hS.loads_flush
  have hpart := hS.part_flush
  generalize hb : S.dumps flushMessage = body at h hfr hann hl hpart
  obtain ⟨k, hk, hkc⟩ := Net.conn_rest w.net (some body.length) body
  have hp := patch_post_any L (w.net.access S.ticketSize) S.loads S.ticketId w.srv hi _ _ _
    (hfr.synced hann)
  have hgood : w.net.Good → ¬ L.mayFail 0 →
      (serve w.net.lost (patch S.B (w.net.access S.ticketSize) S.loads S.ticketId w.srv
          (w.net.conn (some body.length) body))).2.sent = [200] := by
    intro hg hmf
    exact C14_flush_succeeds L _ S.loads S.ticketId w.srv hi _ hfr body [] hann (hkc hg.cut)
      w.net.lost _ hl hmsg hS.ticketId hg.auth hg.refused hg.canceled hmf hg.recvs hg.writes
  unfold serve at h hgood
  generalize patch S.B (w.net.access S.ticketSize) S.loads S.ticketId w.srv
    (w.net.conn (some body.length) body) = x at h hp hgood
  obtain ⟨r1, s1, c1⟩ := x
  obtain ⟨hn, hp⟩ := hp
  simp only at h hp hn hgood
  rw [hk] at hp
  have hw' : w' = { w with srv := s1, nets := w.nets.tail } := by
    have := congrArg Prod.snd h
    rw [patchResult_world] at this
    exact this.symm
  have hr : r = (patchResult (w.net.sendRaises body)
      (w.net.response (finish w.net.lost (r1, c1)))
      { w with srv := s1, nets := w.nets.tail }).1 := (congrArg Prod.fst h).symm
  clear h
  subst hw'
  have hext : ∀ e, r = .error e → External e := by
    intro e he
    rw [hr] at he
    exact patchResult_err he
  have hgood' : w.net.Good → ¬ L.mayFail 0 → r = .ok () := by
    intro hg h1
    rw [hr]
    unfold patchResult
    rw [Net.sendRaises_good hg, Net.response_good hg (hgood hg h1)]
    simp
  have hok : (∀ e, r1 = .error e → errorCode e ≠ 200) → r = .ok () → r1 = .ok () := by
    intro hne h
    rw [hr] at h
    obtain ⟨resp, h1, h2⟩ := patchResult_ok h
    obtain ⟨l, hl, -⟩ := Net.response_ok h1
    rw [h2] at hl
    exact sent_200 hfr hn hl hne
  clear hr
  have hmsgs : ∀ m, S.loads ((body.take k).take body.length) = some m → m = flushMessage := by
    intro m hm
    rw [List.take_take] at hm
    by_cases hkl : body.length ≤ k
    · rw [List.take_of_length_le (by omega), hl] at hm
      exact (Option.some.inj hm).symm
    · rw [hpart _ (by omega)] at hm
      cases hm
  cases hp with
  | refused e he why =>
    refine ⟨⟨rfl, rfl, hi, Nat.le_refl _⟩, rfl, fun h => ?_, hgood', hext⟩
    have := hok (by rintro e' ⟨⟩; intro h2; simp [h2] at he) h
    cases this
  | zero msg hid hm hop post hrest =>
    rw [hmsgs msg hm, z1] at hop
    exact absurd hop (by decide)
  | flush msg hid hm hop post hrest =>
    refine ⟨⟨rfl, rfl, post.inv, Nat.le_of_eq post.bsize.symm⟩, post.content, fun h => ?_, hgood', hext⟩
    exact (post.ok (hok (fun e h1 => by
      have := post.code e h1
      intro h2
      simp [h2] at this) h)).1

/-! ### GET requests -/

theorem readAll_spec (want : Nat) : ∀ (pieces : List Nat) (body : Bytes),
    (want ≤ body.length → readAll pieces body want = .ok (body.take want)) ∧
    (body.length < want → readAll pieces body want = .error (.exception "RuntimeError")) := by
  induction want using Nat.strongRecOn with
  | ind want ih =>
    intro pieces body
    unfold readAll
    by_cases h0 : want = 0
    · subst h0; simp
    · rw [dif_neg h0]
      simp only
      generalize hk : min want (min body.length (pieces.headD want + 1)) = k
      by_cases hk0 : k = 0
      · rw [dif_pos hk0]
        exact ⟨fun h => by omega, fun _ => rfl⟩
      · rw [dif_neg hk0]
        obtain ⟨h1, h2⟩ := ih (want - k) (by omega) pieces.tail (body.drop k)
        rw [List.length_drop] at h1 h2
        constructor
        · intro h
          rw [h1 (by omega)]
          simp only [Except.ok.injEq]
          rw [← List.take_add]
          congr 1; omega
        · intro h
          rw [h2 (by omega)]

theorem getRequest_frame {σ : Type} {S : Server σ} (L : Lawful S.B) (hS : S.Proper)
    (range : Option Str) (w : World σ) (hi : L.Inv w.srv) {r : Except Err Response} {w' : World σ}
    (h : getRequest S range w = (r, w')) :
    w'.client = w.client ∧ w'.nets = w.nets.tail ∧ Unchanged L w.srv w'.srv ∧
      (∀ e, r = .error e → External e) := by
  have hf := get_frame L (w.net.access S.ticketSize) ⟨S.ticketId, [], range⟩ S.buf
    hS.buf_aligned w.srv hi (w.net.conn none [])
  unfold getRequest serve at h
  simp only at h
  generalize Images.get S.B (w.net.access S.ticketSize) ⟨S.ticketId, [], range⟩ S.buf w.srv
    (w.net.conn none []) = x at h hf
  obtain ⟨r1, s1, c1⟩ := x
  cases h
  exact ⟨rfl, rfl, hf, fun e he => Net.response_external he⟩

/-- A GET request of an available range, or of everything. -/
theorem getRequest_spec {σ : Type} {S : Server σ} (L : Lawful S.B) (hS : S.Proper)
    (range : Option Str) (offset size : Nat) (w : World σ) (hi : L.Inv w.srv)
    (hw : Wanted (min S.ticketSize (S.B.size w.srv)) range offset size)
    {r : Except Err Response} {w' : World σ} (h : getRequest S range w = (r, w')) :
    (∀ resp, r = .ok resp → resp.status = (if range = none then 200 else 206) →
      resp.length = size ∧ resp.body <+: load (L.content w.srv) offset size) ∧
    (w.net.Good → (0 < size ∨ offset % S.B.blockSize = 0) → ¬ L.MayFail offset size →
      r = .ok ⟨if range = none then 200 else 206, size, load (L.content w.srv) offset size⟩) := by
  have hfr := Net.conn_fresh w.net none []
  have hsz : (w.net.access S.ticketSize).size = ((S.ticketSize : Nat) : Int) := rfl
  have h1 := C11_get_exact L (w.net.access S.ticketSize) ⟨S.ticketId, [], range⟩ S.buf hS.buf_pos
    hS.buf_aligned w.srv hi _ hfr offset size hw w.net.lost
  have h2 := C11_get_succeeds L (w.net.access S.ticketSize) ⟨S.ticketId, [], range⟩ S.buf hS.buf_pos
    hS.buf_aligned w.srv hi _ hfr offset size hw w.net.lost hS.ticketId
  unfold getRequest at h
  simp only at h
  generalize serve w.net.lost (Images.get S.B (w.net.access S.ticketSize)
    ⟨S.ticketId, [], range⟩ S.buf w.srv (w.net.conn none [])) = x at h h1 h2
  obtain ⟨s1, c1⟩ := x
  simp only at h1 h2
  cases h
  obtain ⟨⟨rg, _, _, hd⟩, _, _⟩ := h1
  constructor
  · intro resp hr hst
    obtain ⟨l, hl, hlen, hbody⟩ := Net.response_ok hr
    rw [hst] at hl
    rw [hlen, hbody]
    cases hd with
    | nothing hs hb => simp [hs] at hl
    | error e he hs hb =>
      rw [hs] at hl
      simp only [List.cons.injEq] at hl
      rw [hl.1] at he
      split at he <;> simp at he
    | data hs hl' hr hb hc =>
      refine ⟨?_, hb⟩
      rw [hl', load_length]
  · intro hg hal hmf
    obtain ⟨g1, g2, g3, _⟩ := h2 hg.auth hg.refused hg.canceled hal hmf hg.writes
    rw [Net.response_good hg g1, g2, g3]

theorem clientRange_wanted {avail : Int} {position length : Nat} (hlen : 0 < length)
    (hin : ((position + length : Nat) : Int) ≤ avail) :
    Wanted avail (some (clientRange position length)) position length := by
  obtain ⟨last, hp, hl⟩ := C16_client_range position length hlen
  obtain ⟨f, hf, hrf, hcl⟩ := (C16_parse_iff _ _).1 hp
  cases f with
  | closed a b =>
    simp only [rangeOf, Http.Range.mk.injEq, Option.some.injEq] at hrf
    obtain ⟨e1, e2⟩ := hrf
    have e3 : last = b := by omega
    have e4 : position = a := by omega
    subst e3
    subst e4
    have hw := Wanted.closed (avail := avail) hf (by omega) (by omega)
    rwa [show last - position + 1 = length by omega] at hw
  | fromTo a => simp [rangeOf] at hrf
  | suffix n => simp [rangeOf] at hrf

/-- Reading a range inside the image. -/
theorem readRange_spec {σ : Type} {S : Server σ} (L : Lawful S.B) (hS : S.Proper)
    (length : Nat) (hlen : 0 < length) (w : World σ) (hi : L.Inv w.srv)
    (hin : w.client.position + length ≤ min S.ticketSize (S.B.size w.srv))
    {r : Except Err Bytes} {w' : World σ} (h : readRange S length w = (r, w')) :
    Unchanged L w.srv w'.srv ∧ w'.nets = w.nets.tail ∧
    (∀ d, r = .ok d → d = load (L.content w.srv) w.client.position length ∧
      w'.client = { w.client with position := w.client.position + length }) ∧
    (∀ e, r = .error e → External e ∧ w'.client = w.client) ∧
    (w.net.Good → ¬ L.MayFail w.client.position length → ∃ d, r = .ok d) := by
  have hwant := clientRange_wanted (avail := min S.ticketSize (S.B.size w.srv)) hlen
    (show ((w.client.position + length : Nat) : Int) ≤ _ by omega)
  unfold readRange at h
  simp only at h
  cases hx : getRequest S (some (clientRange w.client.position length)) w with
  | mk r1 w1 =>
  obtain ⟨f1, f2, f3, f4⟩ := getRequest_frame L hS _ w hi hx
  obtain ⟨g1, g2⟩ := getRequest_spec L hS _ _ _ w hi hwant hx
  rw [if_neg (by simp)] at g1 g2
  rw [hx] at h
  cases r1 with
  | error e =>
    cases h
    refine ⟨f3, f2, by simp, ?_, ?_⟩
    · rintro e' ⟨⟩; exact ⟨f4 e rfl, f1⟩
    · intro hg hm
      have := g2 hg (.inl hlen) hm
      cases this
  | ok resp =>
    simp only at h
    have hgood : w.net.Good → ¬ L.MayFail w.client.position length →
        resp = ⟨206, length, load (L.content w.srv) w.client.position length⟩ := by
      intro hg hm
      exact Except.ok.inj (g2 hg (.inl hlen) hm)
    unfold checkRange at h
    by_cases hst : resp.status = 206
    · rw [if_neg (by simp [hst])] at h
      obtain ⟨h1, h2⟩ := g1 resp rfl hst
      rw [if_neg (by simp [h1])] at h
      simp only at h
      obtain ⟨a1, a2⟩ := readAll_spec length w.net.pieces resp.body
      have hbl : resp.body.length ≤ length := by
        have := h2.length_le
        rwa [load_length] at this
      by_cases hbl2 : length ≤ resp.body.length
      · rw [a1 hbl2] at h
        cases h
        have he : resp.body = load (L.content w.srv) w.client.position length :=
          h2.eq_of_length (by rw [load_length]; omega)
        refine ⟨f3, f2, ?_, by simp, fun _ _ => ⟨_, rfl⟩⟩
        rintro d ⟨⟩
        refine ⟨?_, by simp only [f1]⟩
        rw [List.take_of_length_le hbl, he]
      · rw [a2 (by omega)] at h
        cases h
        refine ⟨f3, f2, by simp, ?_, ?_⟩
        · rintro e' ⟨⟩; exact ⟨trivial, f1⟩
        · intro hg hm
          rw [hgood hg hm] at hbl2
          simp [load_length] at hbl2
    · rw [if_pos (by simpa using hst)] at h
      cases h
      refine ⟨f3, f2, by simp, ?_, ?_⟩
      · rintro e' ⟨⟩; exact ⟨trivial, f1⟩
      · intro hg hm
        rw [hgood hg hm] at hst
        simp at hst

/-! ### The backend -/

theorem mayFail_zero {σ : Type} {B : Backend σ} {L : Lawful B} {off n : Nat} :
    L.MayFail off n ↔ L.MayFail 0 (off + n) := by
  unfold Lawful.MayFail
  rw [Nat.zero_add]

theorem World.net_good {σ : Type} {w : World σ} (h : ∀ n ∈ w.nets, n.Good) : w.net.Good := by
  unfold World.net
  cases hn : w.nets with
  | nil =>
    exact ⟨rfl, rfl, rfl, by simp [Net.perfect], by simp [Net.perfect], rfl, rfl⟩
  | cons n l => exact h n (by simp [hn])

/-- The state of the client and the server is covered: the size is known, and not more than the
ticket allows; if the network is `reliable` no request fails because of the environment. -/
structure Ready {σ : Type} {S : Server σ} (L : Lawful S.B) (canFlush : Bool) (reliable : Prop)
    (w : World σ) : Prop where
  inv : L.Inv w.srv
  canFlush : w.client.canFlush = canFlush
  size : ∃ n, w.client.size = some n ∧ n ≤ S.ticketSize ∧ n ≤ S.B.size w.srv
  good : reliable → ∀ n ∈ w.nets, n.Good

/-- A call on the `n` bytes at the position may fail. -/
def MayFail {σ : Type} {S : Server σ} (L : Lawful S.B) (reliable : Prop) (k : Nat) : Prop :=
  ¬ reliable ∨ S.ticketSize < k ∨ L.MayFail 0 k

theorem Ready.step {σ : Type} {S : Server σ} {L : Lawful S.B} {cf : Bool} {reliable : Prop}
    {w w' : World σ} (h : Ready L cf reliable w) (hc : w'.client.canFlush = w.client.canFlush)
    (hz : w'.client.size = w.client.size) (hn : w'.nets = w.nets.tail) (hi : L.Inv w'.srv)
    (hs : S.B.size w.srv ≤ S.B.size w'.srv) : Ready L cf reliable w' := by
  obtain ⟨n, h1, h2, h3⟩ := h.size
  exact ⟨hi, hc.trans h.canFlush, ⟨n, hz.trans h1, h2, Nat.le_trans h3 hs⟩,
    fun hr n hm => h.good hr n (by rw [hn] at hm; exact List.mem_of_mem_tail hm)⟩

theorem Ready.move {σ : Type} {S : Server σ} {L : Lawful S.B} {cf : Bool} {reliable : Prop}
    {w : World σ} (h : Ready L cf reliable w) (p : Nat) :
    Ready L cf reliable { w with client := { w.client with position := p } } :=
  ⟨h.inv, h.canFlush, h.size, h.good⟩

/-- The state of the server after a call, and the environment of the next calls. -/
structure After {σ : Type} {S : Server σ} (L : Lawful S.B) (w w' : World σ) : Prop where
  inv : L.Inv w'.srv
  nets : w'.nets = w.nets ∨ w'.nets = w.nets.tail
  size_ge : S.B.size w.srv ≤ S.B.size w'.srv

theorem Ready.after {σ : Type} {S : Server σ} {L : Lawful S.B} {cf : Bool} {reliable : Prop}
    {w w' : World σ} (h : Ready L cf reliable w) (ha : After L w w')
    (hc : w'.client.canFlush = w.client.canFlush) (hz : w'.client.size = w.client.size) :
    Ready L cf reliable w' := by
  obtain ⟨n, h1, h2, h3⟩ := h.size
  refine ⟨ha.inv, hc.trans h.canFlush, ⟨n, hz.trans h1, h2, Nat.le_trans h3 ha.size_ge⟩,
    fun hr n hm => h.good hr n ?_⟩
  rcases ha.nets with hn | hn
  · rwa [hn] at hm
  · rw [hn] at hm; exact List.mem_of_mem_tail hm

theorem mayFail_of {σ : Type} {S : Server σ} {L : Lawful S.B} {reliable : Prop} {off n : Nat}
    {w : World σ} (hg : reliable → ∀ n ∈ w.nets, n.Good)
    (h : w.net.Good → off + n ≤ S.ticketSize → ¬ L.MayFail off n → False) :
    MayFail L reliable (off + n) := by
  by_cases hr : reliable
  · refine .inr ?_
    by_cases hin : off + n ≤ S.ticketSize
    · refine .inr ?_
      rw [← mayFail_zero]
      by_cases hm : L.MayFail off n
      · exact hm
      · exact (h (World.net_good (hg hr)) hin hm).elim
    · exact .inl (by omega)
  · exact .inl hr

theorem putResult_spec {σ : Type} {S : Server σ} (L : Lawful S.B) (hS : S.Proper)
    {reliable : Prop} (length : Nat) (hlen : 0 < length) (body : Bytes) (hb : body.length ≤ length)
    (w : World σ) (hi : L.Inv w.srv) (hgd : reliable → ∀ n ∈ w.nets, n.Good)
    {r : Except Err Nat} {w' : World σ}
    (h : putResult length (putRequest S length body w) = (r, w')) :
    After L w w' ∧
    (∀ n, r = .ok n → n = length ∧ body.length = length ∧
      w'.client = { w.client with position := w.client.position + length } ∧
      w.client.position + length ≤ S.ticketSize ∧
      L.content w'.srv = store (L.content w.srv) w.client.position body ∧
      (w.client.canFlush = false → L.durable w'.srv = L.content w'.srv)) ∧
    (∀ e, r = .error e → External e ∧
      (body.length = length → MayFail L reliable (w.client.position + length)) ∧
      w'.client = w.client ∧
      ∀ i, ¬ InRange w.client.position length i → L.content w'.srv i = L.content w.srv i) := by
  cases hx : putRequest S length body w with
  | mk r1 w1 =>
  obtain ⟨h1, h2, h3, h4, h5⟩ := putRequest_spec L hS length hlen body hb w hi hx
  rw [hx] at h
  have hmf : (∀ resp, r1 = .ok resp → resp.status ≠ 200) → body.length = length →
      MayFail L reliable (w.client.position + length) := by
    intro hno hb
    refine mayFail_of hgd fun g1 g2 g3 => ?_
    obtain ⟨resp, ha, hb⟩ := h4 g1 hb g2 g3
    exact hno resp ha hb
  have haft : After L w w1 := ⟨h1.inv, .inr h1.nets, h1.size_ge⟩
  unfold putResult at h
  cases r1 with
  | error e =>
    cases h
    refine ⟨haft, by simp, ?_⟩
    rintro e' ⟨⟩
    exact ⟨h5 e rfl, hmf (by simp), h1.client, h2⟩
  | ok resp =>
    simp only at h
    by_cases hst : resp.status = 200
    · rw [if_neg (by simp [hst])] at h
      cases h
      refine ⟨⟨haft.inv, haft.nets, haft.size_ge⟩, ?_, by simp⟩
      rintro n ⟨⟩
      obtain ⟨a1, a2, a3, a4⟩ := h3 resp rfl hst
      exact ⟨rfl, a1, by simp only [h1.client], a2, a3, a4⟩
    · rw [if_pos (by simpa using hst)] at h
      cases h
      refine ⟨haft, by simp, ?_⟩
      rintro e' ⟨⟩
      refine ⟨trivial, hmf ?_, h1.client, h2⟩
      rintro r ⟨⟩
      exact hst

theorem zero_spec {σ : Type} {S : Server σ} (L : Lawful S.B) (hS : S.Proper)
    {reliable : Prop} (length : Nat) (hlen : 0 < length)
    (w : World σ) (hi : L.Inv w.srv) (hgd : reliable → ∀ n ∈ w.nets, n.Good)
    {r : Except Err Nat} {w' : World σ}
    (h : zero S w length = (r, w')) :
    After L w w' ∧
    (∀ n, r = .ok n → n = length ∧
      w'.client = { w.client with position := w.client.position + length } ∧
      w.client.position + length ≤ S.ticketSize ∧
      L.content w'.srv = store (L.content w.srv) w.client.position (zeros length) ∧
      (w.client.canFlush = false → L.durable w'.srv = L.content w'.srv)) ∧
    (∀ e, r = .error e → External e ∧
      MayFail L reliable (w.client.position + length) ∧ w'.client = w.client ∧
      ∀ i, ¬ InRange w.client.position length i → L.content w'.srv i = L.content w.srv i) := by
  unfold zero at h
  cases hz : w.client.canZero with
  | false =>
    rw [hz] at h
    simp only [Bool.not_false, if_true] at h
    unfold emulateZero at h
    rw [emulateBody_eq] at h
    have hzl : (zeros length).length = length := by simp [zeros]
    obtain ⟨h1, h2, h3⟩ := putResult_spec L hS length hlen (zeros length) (Nat.le_of_eq hzl) w hi hgd h
    refine ⟨h1, fun n hn => ?_, fun e he => ?_⟩
    · obtain ⟨a1, -, a3⟩ := h2 n hn
      exact ⟨a1, a3⟩
    · obtain ⟨a1, a2, a3⟩ := h3 e he
      exact ⟨a1, a2 hzl, a3⟩
  | true =>
    rw [hz] at h
    simp only [Bool.not_true, Bool.false_eq_true, if_false] at h
    cases hx : patchRequest S (zeroMessage w.client.position length (!w.client.canFlush)) w with
    | mk r1 w1 =>
    obtain ⟨h1, h2, h3, h4, h5⟩ := patchZero_spec L hS _ _ _ w hi hx
    rw [hx] at h
    have haft : After L w w1 := ⟨h1.inv, .inr h1.nets, h1.size_ge⟩
    cases r1 with
    | error e =>
      cases h
      refine ⟨haft, by simp, ?_⟩
      rintro e' ⟨⟩
      refine ⟨h5 e rfl, mayFail_of hgd fun a b c => ?_, h1.client, h2⟩
      have := h4 a b c
      cases this
    | ok u =>
      cases h
      refine ⟨⟨haft.inv, haft.nets, haft.size_ge⟩, ?_, by simp⟩
      rintro n ⟨⟩
      obtain ⟨a1, a2, a3⟩ := h3 rfl
      refine ⟨rfl, by simp only [h1.client], a1, a2, fun h => a3 ?_⟩
      rw [h]
      rfl

theorem readinto_spec {σ : Type} {S : Server σ} (L : Lawful S.B) (hS : S.Proper) {cf : Bool}
    {reliable : Prop} (n : Nat) (w : World σ) (hw : Ready L cf reliable w) {size : Nat}
    (hsz : w.client.size = some size) {r : Except Err Bytes} {w' : World σ}
    (h : readinto S w n = (r, w')) :
    Unchanged L w.srv w'.srv ∧ Ready L cf reliable w' ∧
    (∀ d, r = .ok d →
      d = load (L.content w.srv) w.client.position (min n (size - w.client.position)) ∧
      w'.client = { w.client with position := w.client.position + d.length }) ∧
    (∀ e, r = .error e → External e ∧ MayFail L reliable (w.client.position + n) ∧
      w'.client = w.client) := by
  obtain ⟨n', h1, h2, h3⟩ := hw.size
  rw [hsz] at h1
  cases h1
  unfold readinto HttpBackend.size at h
  rw [hsz] at h
  simp only at h
  generalize hl : min n (size - w.client.position) = length at h
  by_cases h0 : length = 0
  · rw [if_pos h0] at h
    cases h
    refine ⟨.refl hw.inv, hw, ?_, by simp⟩
    rintro d ⟨⟩
    rw [h0]
    exact ⟨rfl, rfl⟩
  · rw [if_neg h0] at h
    obtain ⟨f1, f2, f3, f4, f5⟩ := readRange_spec L hS length (by omega) w hw.inv (by omega) h
    refine ⟨f1, ?_, ?_, ?_⟩
    · cases r with
      | ok d =>
        have := (f3 d rfl).2
        exact hw.step (by rw [this]) (by rw [this]) f2 f1.inv (Nat.le_of_eq f1.bsize.symm)
      | error e =>
        have := (f4 e rfl).2
        exact hw.step (by rw [this]) (by rw [this]) f2 f1.inv (Nat.le_of_eq f1.bsize.symm)
    · intro d hd
      obtain ⟨a, b⟩ := f3 d hd
      refine ⟨a, ?_⟩
      rw [b, a, load_length]
    · intro e he
      obtain ⟨a, b⟩ := f4 e he
      refine ⟨a, ?_, b⟩
      have := mayFail_of (L := L) (off := w.client.position) (n := length) hw.good
        (fun g1 g2 g3 => by obtain ⟨d, hd⟩ := f5 g1 g3; rw [he] at hd; cases hd)
      rcases this with h | h | ⟨k, hk, hm⟩
      · exact .inl h
      · exact .inr (.inl (by omega))
      · refine .inr (.inr ⟨k, Nat.le_trans hk ?_, hm⟩)
        apply Nat.mul_le_mul_right
        apply Nat.div_le_div_right
        omega

theorem flush_spec {σ : Type} {S : Server σ} (L : Lawful S.B) (hS : S.Proper)
    {reliable : Prop} (w : World σ) (hi : L.Inv w.srv) (hgd : reliable → ∀ n ∈ w.nets, n.Good)
    {r : Except Err Unit} {w' : World σ} (h : flush S w = (r, w')) :
    After L w w' ∧ w'.client = w.client ∧ L.content w'.srv = L.content w.srv ∧
    (r = .ok () → w.client.canFlush = true → L.durable w'.srv = L.content w.srv) ∧
    (∀ e, r = .error e → External e ∧ MayFail L reliable 0) := by
  unfold flush at h
  cases hz : w.client.canFlush with
  | false =>
    rw [hz] at h
    cases h
    exact ⟨⟨hi, .inl rfl, Nat.le_refl _⟩, rfl, rfl, by simp, by simp⟩
  | true =>
    rw [hz] at h
    simp only [if_true] at h
    obtain ⟨h1, h2, h3, h4, h5⟩ := patchFlush_spec L hS w hi h
    refine ⟨⟨h1.inv, .inr h1.nets, h1.size_ge⟩, h1.client, h2, fun h _ => h3 h, ?_⟩
    intro e he
    refine ⟨h5 e he, ?_⟩
    by_cases hr : reliable
    · refine .inr (.inr ⟨0, Nat.zero_le _, ?_⟩)
      by_cases hm : L.mayFail 0
      · exact hm
      · have := h4 (World.net_good (hgd hr)) hm
        rw [he] at this
        cases this
    · exact .inl hr

/-- The HTTP backend meets the contract of the backends, whatever the network does, when it talks
to a server with a lawful backend.  If the server supports flush, the durable content is the
durable content of the served image.  If not, the backend promises nothing about durability, see
`C49_counterexample_flush`, and the durable content of the contract is the content. -/
def lawful {σ : Type} (S : Server σ) (L : Lawful S.B) (hS : S.Proper) (canFlush : Bool)
    (reliable : Prop) : Lawful (backend S) where
  Inv := Ready L canFlush reliable
  content w := L.content w.srv
  durable w := if canFlush then L.durable w.srv else L.content w.srv
  mayFail := MayFail L reliable
  block_pos := Nat.one_pos
  seek := by
    intro w n r w' hw h
    cases h
    exact ⟨rfl, hw.move n, rfl, rfl, rfl, rfl⟩
  readinto := by
    intro w n d w' hw _ _ h
    obtain ⟨size, hsz, hs2, hs3⟩ := hw.size
    obtain ⟨h1, h2, h3, -⟩ := readinto_spec L hS n w hw hsz h
    obtain ⟨h3, h4⟩ := h3 d rfl
    have hdl : d.length = min n (size - w.client.position) := by rw [h3, load_length]
    have e1 : (backend S).size w = size := by simp [backend, hsz]
    have e2 : (backend S).size w' = size := by simp [backend, h4, hsz]
    refine ⟨h2, h1.content, ?_, e2.trans e1.symm, by omega, ?_, ?_, ?_, ?_, .inl (Nat.mod_one _)⟩
    · simp only [h1.content, h1.durable]
    · rw [hdl]; exact h3
    · simp only [backend, h4]
    · rw [e1]
      show w.client.position + d.length ≤ max w.client.position size
      omega
    · intro hd
      rw [e1]
      show n = 0 ∨ size ≤ w.client.position
      rw [hd, List.length_nil] at hdl
      omega
  readinto_err := by
    intro w n e w' hw _ _ h
    obtain ⟨size, hsz, hs2, hs3⟩ := hw.size
    obtain ⟨h1, h2, -, h3⟩ := readinto_spec L hS n w hw hsz h
    obtain ⟨h3, h4, h5⟩ := h3 e rfl
    refine ⟨h3, h4, h2, h1.content, ?_, ?_⟩
    · simp only [h1.content, h1.durable]
    · simp only [backend, h5]
  write := by
    intro w a d n w' hw hd _ h
    obtain ⟨ha, h1, -⟩ := putResult_spec L hS d.length (List.length_pos_iff.2 hd) d (Nat.le_refl _) w
      hw.inv hw.good h
    obtain ⟨rfl, -, h2, h3, h4, h5⟩ := h1 n rfl
    have e : (backend S).size w' = (backend S).size w := by simp only [backend, h2]
    refine ⟨hw.after ha (by rw [h2]) (by rw [h2]), List.length_pos_iff.2 hd, Nat.le_refl _,
      by simp only [backend, h2], ?_, Nat.le_of_eq e.symm, by rw [e]; exact Nat.le_max_left _ _⟩
    rw [List.take_length]
    exact h4
  write_err := by
    intro w a d e w' hw hd _ h
    obtain ⟨ha, -, h1⟩ := putResult_spec L hS d.length (List.length_pos_iff.2 hd) d (Nat.le_refl _) w
      hw.inv hw.good h
    obtain ⟨h1, h2, h4, h5⟩ := h1 e rfl
    exact ⟨h1, h2 rfl, hw.after ha (by rw [h4]) (by rw [h4]), h5,
      by simp only [backend, h4]; exact Nat.le_refl _⟩
  zero := by
    intro w c n w' hw hc h
    obtain ⟨ha, h1, -⟩ := zero_spec L hS c hc w hw.inv hw.good h
    obtain ⟨rfl, h2, h3, h4, h5⟩ := h1 n rfl
    have e : (backend S).size w' = (backend S).size w := by simp only [backend, h2]
    exact ⟨hw.after ha (by rw [h2]) (by rw [h2]), hc, Nat.le_refl _, by simp only [backend, h2], h4,
      Nat.le_of_eq e.symm, by rw [e]; exact Nat.le_max_left _ _⟩
  zero_err := by
    intro w c e w' hw hc h
    obtain ⟨ha, -, h1⟩ := zero_spec L hS c hc w hw.inv hw.good h
    obtain ⟨h1, h2, h4, h5⟩ := h1 e rfl
    exact ⟨h1, h2, hw.after ha (by rw [h4]) (by rw [h4]), h5,
      by simp only [backend, h4]; exact Nat.le_refl _⟩
  flush := by
    intro w w' hw h
    obtain ⟨h1, h2, h3, h4, -⟩ := flush_spec L hS w hw.inv hw.good h
    refine ⟨hw.after h1 (by rw [h2]) (by rw [h2]), h3, ?_, by simp only [backend, h2],
      by simp only [backend, h2]⟩
    cases canFlush with
    | true => exact h4 rfl hw.canFlush
    | false => exact h3
  flush_err := by
    intro w e w' hw h
    obtain ⟨h1, h2, h3, -, h4⟩ := flush_spec L hS w hw.inv hw.good h
    obtain ⟨h4, h5⟩ := h4 e rfl
    exact ⟨h4, h5, hw.after h1 (by rw [h2]) (by rw [h2]), h3, by simp only [backend, h2]⟩

/-! ### Copying -/

/-- The body of an upload: the bytes of the reader at its position. -/
theorem readerBody_spec {τ : Type} {R : Backend τ} (LR : Lawful R) (step : Nat) (hstep : 0 < step)
    (hsb : step % R.blockSize = 0) (todo : Nat) : ∀ t, LR.Inv t → R.tell t % R.blockSize = 0 →
    todo % R.blockSize = 0 → (R.blockSize = 1 ∨ R.tell t + todo ≤ R.size t) →
    ∀ r body t', readerBody R step todo t = (r, body, t') →
    LR.Inv t' ∧ LR.content t' = LR.content t ∧ R.size t' = R.size t ∧ body.length ≤ todo ∧
    (r = .ok () → body = load (LR.content t) (R.tell t) todo) ∧
    (∀ e, r = .error e → External e ∧
      (LR.MayFail 0 (R.tell t + todo) ∨ R.size t < R.tell t + todo)) := by
  induction todo using Nat.strongRecOn with
  | ind todo ih =>
    intro t hi hta htb hsz r body t' h
    unfold readerBody at h
    by_cases h0 : todo = 0
    · subst h0
      simp only [dif_pos] at h
      cases h
      exact ⟨hi, rfl, rfl, Nat.le_refl _, fun _ => rfl, by simp⟩
    · rw [dif_neg h0] at h
      have hbp := LR.block_pos
      have hmin : min todo step % R.blockSize = 0 := by
        rcases Nat.le_total todo step with hle | hle
        · rw [Nat.min_eq_left hle]; exact htb
        · rw [Nat.min_eq_right hle]; exact hsb
      cases hx : R.readinto t (min todo step) with
      | mk x t1 =>
      rw [hx] at h
      cases x with
      | error e =>
        cases h
        obtain ⟨h1, h2, h3, h4, -, h6⟩ := LR.readinto_err t _ e _ hi hta hmin hx
        refine ⟨h3, h4, h6, Nat.zero_le _, by simp, ?_⟩
        rintro e' ⟨⟩
        refine ⟨h1, .inl ⟨_, ?_, h2⟩⟩
        have := Ops.le_blockEnd R.blockSize (0 + (R.tell t + todo)) hbp
        omega
      | ok d =>
        simp only at h
        obtain ⟨h1, h2, -, h4, h5, h6, h7, h8, h9, h10⟩ := LR.readinto t _ d _ hi hta hmin hx
        by_cases hd : d.length = 0
        · rw [dif_pos hd] at h
          cases h
          refine ⟨h1, h2, h4, Nat.zero_le _, by simp, ?_⟩
          rintro e' ⟨⟩
          refine ⟨trivial, .inr ?_⟩
          rcases h9 (List.length_eq_zero_iff.1 hd) with h | h <;> omega
        · rw [dif_neg hd] at h
          have hdb : d.length % R.blockSize = 0 := by
            rcases h10 with h | h
            · exact h
            · rcases hsz with hs | hs
              · rw [hs]; exact Nat.mod_one _
              · have : d.length = todo := by omega
                rw [this]; exact htb
          have hle : d.length ≤ todo := by omega
          cases hy : readerBody R step (todo - d.length) t1 with
          | mk r2 x2 =>
          obtain ⟨b2, t2⟩ := x2
          rw [hy] at h
          simp only [Prod.mk.injEq] at h
          obtain ⟨rfl, rfl, rfl⟩ := h
          obtain ⟨g1, g2, g3, g4, g5, g6⟩ := ih (todo - d.length) (by omega) t1 h1
            (by rw [h7, Nat.add_mod, hta, hdb]; simp)
            (Nat.mod_eq_zero_of_dvd (Nat.dvd_sub (Nat.dvd_of_mod_eq_zero htb) (Nat.dvd_of_mod_eq_zero hdb)))
            (by rcases hsz with hs | hs
                · exact .inl hs
                · exact .inr (by omega)) _ _ _ hy
          refine ⟨g1, g2.trans h2, g3.trans h4, by rw [List.length_append]; omega, ?_, ?_⟩
          · intro hr
            rw [g5 hr, h2, h7]
            conv => lhs; lhs; rw [h6]
            rw [load_append]
            congr 1; omega
          · intro e he
            obtain ⟨a, b⟩ := g6 e he
            rw [h7, h4] at b
            rw [show R.tell t + d.length + (todo - d.length) = R.tell t + todo by omega] at b
            refine ⟨a, ?_⟩
            exact b

/-- The writer gets the bytes of the response. -/
theorem writerLoop_spec {τ : Type} {D : Backend τ} {LD : Lawful D} {G : τ → Prop}
    (hg : ClientHandler.FullWrites LD G) {addr : Nat} (ha : addr % D.blockSize = 0) (step : Nat)
    (hstep : 0 < step) (todo : Nat) : ∀ (pieces : List Nat) (body : Bytes) t, LD.Inv t → G t →
    ∀ r t', writerLoop D addr pieces body step todo t = (r, t') →
    LD.Inv t' ∧
    (∀ i, ¬ InRange (D.tell t) todo i → LD.content t' i = LD.content t i) ∧
    D.size t ≤ D.size t' ∧
    (r = .ok () → todo ≤ body.length ∧ G t' ∧
      LD.content t' = store (LD.content t) (D.tell t) (body.take todo)) ∧
    (∀ e, r = .error e → External e ∧ (body.length < todo ∨
      ∃ k, k ≤ D.tell t + todo ∧ LD.mayFail k)) := by
  induction todo using Nat.strongRecOn with
  | ind todo ih =>
    intro pieces body t hi hgt r t' h
    unfold writerLoop at h
    by_cases h0 : todo = 0
    · subst h0
      simp only [dif_pos] at h
      cases h
      refine ⟨hi, fun _ _ => rfl, Nat.le_refl _, fun _ => ⟨Nat.zero_le _, hgt, ?_⟩, by simp⟩
      rw [List.take_zero, store_nil]
    · rw [dif_neg h0] at h
      simp only at h
      generalize hk : min (min todo step) (min body.length (pieces.headD todo + 1)) = k at h
      by_cases hk0 : k = 0
      · rw [dif_pos hk0] at h
        cases h
        refine ⟨hi, fun _ _ => rfl, Nat.le_refl _, by simp, ?_⟩
        rintro e ⟨⟩
        exact ⟨trivial, .inl (by omega)⟩
      · rw [dif_neg hk0] at h
        have hlen : (body.take k).length = k := by rw [List.length_take]; omega
        have hne : body.take k ≠ [] := by
          intro hn
          rw [hn] at hlen
          exact hk0 hlen.symm
        cases hx : D.write t addr (body.take k) with
        | mk x t1 =>
        rw [hx] at h
        cases x with
        | error e =>
          cases h
          obtain ⟨h1, h2, h3⟩ := LD.write_err t addr _ e _ hi hne (fun _ _ => ha) hx
          rw [hlen] at h2 h3
          refine ⟨h3.inv, ?_, h3.size_ge, by simp, ?_⟩
          · intro i hni
            apply h3.outside
            unfold InRange at *
            omega
          · rintro e' ⟨⟩
            exact ⟨h1, .inr ⟨_, by omega, h2⟩⟩
        | ok n =>
          simp only at h
          obtain ⟨hg1, rfl⟩ := hg.write _ _ _ _ _ hi hgt hx
          obtain ⟨h1, h2, h3, h4, h5, h6, -⟩ := LD.write t addr _ _ _ hi hne (fun _ _ => ha) hx
          rw [hlen] at h4
          rw [List.take_length] at h5
          obtain ⟨g1, g2, g3, g4, g5⟩ := ih (todo - k) (by omega) _ _ _ h1 hg1 _ _ h
          rw [h4] at g2 g4 g5
          refine ⟨g1, ?_, Nat.le_trans h6 g3, ?_, ?_⟩
          · intro i hni
            unfold InRange at *
            rw [g2 i (by omega), h5]
            apply store_outside
            rw [hlen]
            omega
          · intro hr
            obtain ⟨a1, a2, a3⟩ := g4 hr
            rw [List.length_drop] at a1
            refine ⟨by omega, a2, ?_⟩
            rw [a3, h5]
            have : body.take todo = body.take k ++ (body.drop k).take (todo - k) := by
              rw [← List.take_add]; congr 1; omega
            rw [this, ← store_append, hlen]
          · intro e he
            obtain ⟨a1, a2⟩ := g5 e he
            refine ⟨a1, ?_⟩
            rw [List.length_drop] at a2
            rcases a2 with a2 | ⟨j, a2, a3⟩
            · exact .inl (by omega)
            · exact .inr ⟨j, by omega, a3⟩

theorem checkRange_ok {length : Nat} {r : Response} {body : Bytes}
    (h : checkRange length r = .ok body) : r.status = 206 ∧ r.body = body := by
  unfold checkRange at h
  split at h
  · cases h
  · next hs =>
    split at h
    · cases h
    · cases h; exact ⟨by simpa using hs, rfl⟩

theorem checkRange_err {length : Nat} {r : Response} {e : Err}
    (h : checkRange length r = .error e) : External e := by
  unfold checkRange at h
  split at h
  · cases h; trivial
  · split at h
    · cases h; trivial
    · cases h

end Imageio.HttpBackend
