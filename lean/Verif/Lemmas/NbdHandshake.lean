import Verif.Model.NbdHandshake
import Verif.Spec.NbdHandshake
import Verif.Lemmas.Nbd
import Mathlib.Data.List.Induction
/-!
Lemmas about the handshake of the NBD client: what every function receives and sends when it
succeeds, in both directions.
-/
namespace Imageio.Nbd
open Imageio.Spec

/-! ## Strings -/

theorem encodeUtf8_eq (s : String) : encodeUtf8 s = utf8 s := rfl

theorem decode_encode (s : String) : decodeUtf8 (utf8 s) = some s := by
  unfold decodeUtf8 utf8 String.fromUTF8?
  have h : (⟨s.toUTF8.data.toList.toArray⟩ : ByteArray) = s.toByteArray := by
    simp [String.toUTF8]
  rw [dif_pos (by rw [h]; exact s.isValidUTF8)]
  simp [String.fromUTF8, String.toUTF8]

theorem encode_decode {b : Bytes} {s : String} (h : decodeUtf8 b = some s) : b = utf8 s := by
  unfold decodeUtf8 String.fromUTF8? at h
  split at h
  · simp only [Option.some.injEq] at h
    subst h
    simp [utf8, String.toUTF8, String.fromUTF8]
  · cases h

/-! ## Numbers -/

theorem unpackNat_lt (d : Bytes) : unpackNat d < 256 ^ d.length := by
  induction d using List.reverseRecOn with
  | nil => simp [unpackNat]
  | append_singleton l b ih =>
    rw [unpackNat_snoc, List.length_append, List.length_singleton, Nat.pow_succ]
    have := b.toNat_lt
    omega

theorem be_unpackNat (d : Bytes) : be d.length (unpackNat d) = d := by
  induction d using List.reverseRecOn with
  | nil => rfl
  | append_singleton l b ih =>
    have hb := b.toNat_lt
    rw [unpackNat_snoc, List.length_append, List.length_singleton, be_succ,
      show (unpackNat l * 256 + b.toNat) / 256 = unpackNat l by omega,
      show (unpackNat l * 256 + b.toNat) % 256 = b.toNat by omega, ih]
    simp

/-- Every field is a number. -/
theorem be_field {d : Bytes} {o k : Nat} (h : o + k ≤ d.length) : be k (field d o k) = (d.drop o).take k := by
  have hl : ((d.drop o).take k).length = k := by rw [List.length_take, List.length_drop]; omega
  have := be_unpackNat ((d.drop o).take k)
  rwa [hl] at this

theorem field_lt {d : Bytes} {o k : Nat} (h : o + k ≤ d.length) : field d o k < 256 ^ k := by
  have hl : ((d.drop o).take k).length = k := by rw [List.length_take, List.length_drop]; omega
  have := unpackNat_lt ((d.drop o).take k)
  rwa [hl] at this

theorem pack_eq {k n : Nat} (h : n < 256 ^ k) : pack k (n : Int) = .ok (be k n) := by
  unfold pack
  rw [if_pos ⟨by omega, by exact_mod_cast h⟩, packNat_eq]
  simp

theorem pack_inv {k n : Nat} {b : Bytes} (h : pack k (n : Int) = .ok b) : n < 256 ^ k ∧ b = be k n := by
  unfold pack at h
  split at h
  · rename_i hc
    simp only [Except.ok.injEq, Int.toNat_natCast, packNat_eq] at h
    exact ⟨by exact_mod_cast hc.2, h.symm⟩
  · cases h

/-! ## What a function receives and sends -/

/-- The connection after `t` was left in the stream and `o` was sent. -/
structure AfterIo (s : Conn) (t o : Bytes) (s' : Conn) : Prop where
  rest : s'.rest = t
  sent : s'.sent = s.sent ++ o
  counter : s'.counter = s.counter

/-- The function succeeds exactly on the streams that start with bytes `w` of the relation
`R w o a`; then it sends `o` and returns `a`. -/
structure Parses {α : Type} (m : M α) (R : Bytes → Bytes → α → Prop) : Prop where
  fwd : ∀ {w o : Bytes} {a : α} {s : Conn} {t : Bytes}, R w o a → s.rest = w ++ t →
    ∃ s', m s = (.ok a, s') ∧ AfterIo s t o s'
  bwd : ∀ {s s' : Conn} {a : α}, m s = (.ok a, s') → ∃ w o, R w o a ∧ s.rest = w ++ s'.rest

variable {α β : Type}

theorem Parses.congr {m : M α} {R R' : Bytes → Bytes → α → Prop} (h : Parses m R)
    (hr : ∀ w o a, R w o a ↔ R' w o a) : Parses m R' := by
  obtain rfl : R = R' := by funext w o a; exact propext (hr w o a)
  exact h

/-- The bytes sent, from the bytes received. -/
theorem Parses.sent {m : M α} {R : Bytes → Bytes → α → Prop} (h : Parses m R) {s s' : Conn} {a : α}
    (he : m s = (.ok a, s')) : ∃ w o, R w o a ∧ s.rest = w ++ s'.rest ∧ s'.sent = s.sent ++ o := by
  obtain ⟨w, o, hr, hs⟩ := h.bwd he
  obtain ⟨s2, e2, a2⟩ := h.fwd hr hs
  rw [he] at e2
  simp only [Prod.mk.injEq, true_and] at e2
  subst e2
  exact ⟨w, o, hr, hs, a2.sent⟩

theorem Parses.bind' {m : M α} {f : α → M β} {R : Bytes → Bytes → α → Prop}
    {Q : α → Bytes → Bytes → β → Prop} (hm : Parses m R)
    (hf : ∀ a w o, R w o a → Parses (f a) (Q a)) :
    Parses (m >>= f) fun w o b => ∃ a w1 o1 w2 o2, R w1 o1 a ∧ Q a w2 o2 b ∧ w = w1 ++ w2 ∧ o = o1 ++ o2 where
  fwd := by
    rintro w o b s t ⟨a, w1, o1, w2, o2, h1, h2, rfl, rfl⟩ hs
    rw [List.append_assoc] at hs
    obtain ⟨s1, e1, a1⟩ := hm.fwd h1 hs
    obtain ⟨s2, e2, a2⟩ := (hf a _ _ h1).fwd h2 a1.rest
    exact ⟨s2, by rw [bind_ok e1, e2], a2.rest, by rw [a2.sent, a1.sent, List.append_assoc],
      a2.counter.trans a1.counter⟩
  bwd := by
    intro s s' b h
    cases hx : m s with
    | mk r s1 =>
      cases r with
      | error e => rw [bind_error hx] at h; cases h
      | ok a =>
        rw [bind_ok hx] at h
        obtain ⟨w1, o1, h1, r1⟩ := hm.bwd hx
        obtain ⟨w2, o2, h2, r2⟩ := (hf a _ _ h1).bwd h
        exact ⟨w1 ++ w2, o1 ++ o2, ⟨a, w1, o1, w2, o2, h1, h2, rfl, rfl⟩, by
          rw [r1, r2, List.append_assoc]⟩

theorem Parses.bind {m : M α} {f : α → M β} {R : Bytes → Bytes → α → Prop}
    {Q : α → Bytes → Bytes → β → Prop} (hm : Parses m R) (hf : ∀ a, Parses (f a) (Q a)) :
    Parses (m >>= f) fun w o b => ∃ a w1 o1 w2 o2, R w1 o1 a ∧ Q a w2 o2 b ∧ w = w1 ++ w2 ∧ o = o1 ++ o2 :=
  hm.bind' fun a _ _ _ => hf a

theorem parses_pure (a : α) : Parses (pure a : M α) fun w o b => w = [] ∧ o = [] ∧ b = a where
  fwd := by
    rintro w o b s t ⟨rfl, rfl, rfl⟩ hs
    exact ⟨s, rfl, hs, by simp, rfl⟩
  bwd := by
    intro s s' b h
    obtain ⟨h1, rfl⟩ := Prod.mk.inj h
    simp only [Except.ok.injEq] at h1
    exact ⟨[], [], ⟨rfl, rfl, h1.symm⟩, rfl⟩

theorem parses_raise (e : Err) : Parses (raise e : M α) fun _ _ _ => False where
  fwd := by rintro w o b s t ⟨⟩
  bwd := by intro s s' b h; cases h

theorem parses_ite' {c : Prop} [Decidable c] {m m' : M α} {R R' : Bytes → Bytes → α → Prop}
    (h : c → Parses m R) (h' : ¬ c → Parses m' R') :
    Parses (if c then m else m') fun w o a => (c ∧ R w o a) ∨ (¬ c ∧ R' w o a) := by
  split
  · rename_i hc; exact (h hc).congr (fun w o a => by simp [hc])
  · rename_i hc; exact (h' hc).congr (fun w o a => by simp [hc])

theorem parses_ite {c : Prop} [Decidable c] {m m' : M α} {R R' : Bytes → Bytes → α → Prop}
    (h : Parses m R) (h' : Parses m' R') :
    Parses (if c then m else m') fun w o a => (c ∧ R w o a) ∨ (¬ c ∧ R' w o a) := by
  split
  · rename_i hc; exact h.congr (fun w o a => by simp [hc])
  · rename_i hc; exact h'.congr (fun w o a => by simp [hc])

theorem parses_recv (n : Nat) : Parses (recv n) fun w o a => w.length = n ∧ o = [] ∧ a = w where
  fwd := by
    rintro w o a s t ⟨hl, rfl, rfl⟩ hs
    obtain ⟨s', e, h⟩ := recv_append hs hl
    exact ⟨s', e, h.rest, by rw [h.sent, List.append_nil], h.counter⟩
  bwd := by
    intro s s' a h
    by_cases hn : n ≤ s.rest.length
    · obtain ⟨s1, e1, a1⟩ := recvLoop_spec (fuel := n) (s := s) (Nat.le_refl n) hn
      rw [recv, e1] at h
      simp only [Prod.mk.injEq, Except.ok.injEq] at h
      obtain ⟨rfl, rfl⟩ := h
      exact ⟨s.rest.take n, [], ⟨by rw [List.length_take]; omega, rfl, rfl⟩, by
        rw [a1.rest, List.take_append_drop]⟩
    · obtain ⟨s1, e1, -⟩ := recv_short (n := n) (s := s) (by omega)
      rw [e1] at h
      cases h

theorem parses_send (d : Bytes) : Parses (send d) fun w o _ => w = [] ∧ o = d where
  fwd := by
    rintro w o a s t ⟨rfl, rfl⟩ hs
    exact ⟨_, rfl, hs, rfl, rfl⟩
  bwd := by
    intro s s' a h
    obtain ⟨-, rfl⟩ := Prod.mk.inj h
    exact ⟨[], d, ⟨rfl, rfl⟩, rfl⟩

theorem parses_pack (k n : Nat) : Parses (lift (pack k (n : Int))) fun w o a =>
    w = [] ∧ o = [] ∧ n < 256 ^ k ∧ a = be k n := by
  by_cases h : n < 256 ^ k
  · rw [pack_eq h]
    exact (parses_pure _).congr (fun w o a => by simp [h])
  · cases hp : pack k (n : Int) with
    | ok b => exact absurd (pack_inv hp).1 h
    | error e => exact (parses_raise e).congr (fun w o a => by simp [h])

/-! ## The functions -/

theorem parses_sendOption (opt : Nat) (data : Bytes) : Parses (sendOption opt data) fun w o _ =>
    w = [] ∧ data.length < 2 ^ 32 ∧ o = optionWire opt data := by
  unfold sendOption
  refine ((parses_pack 4 data.length).bind fun n => (parses_send _).bind fun _ =>
    parses_ite (c := data ≠ []) (parses_send data) (parses_pure ())).congr ?_
  intro w o a
  simp only [packNat_eq]
  constructor
  · rintro ⟨n, w1, o1, w2, o2, ⟨rfl, rfl, hn, rfl⟩, ⟨_, w3, o3, w4, o4, ⟨rfl, rfl⟩, h, rfl, rfl⟩, rfl, rfl⟩
    rcases h with ⟨-, rfl, rfl⟩ | ⟨hd, rfl, rfl, -⟩
    · exact ⟨rfl, hn, by simp [optionWire, iHaveOpt, List.append_assoc]⟩
    · have : data = [] := by simpa using hd
      subst this
      exact ⟨rfl, hn, by simp [optionWire, iHaveOpt, List.append_assoc]⟩
  · rintro ⟨rfl, hd, rfl⟩
    refine ⟨be 4 data.length, [], [], [], _, ⟨rfl, rfl, hd, rfl⟩, ⟨(), [], _, [], data, ⟨rfl, rfl⟩, ?_, rfl, rfl⟩, rfl, ?_⟩
    · by_cases h : data = []
      · right; exact ⟨by simpa using h, rfl, h, trivial⟩
      · left; exact ⟨h, rfl, rfl⟩
    · simp [optionWire, iHaveOpt, List.append_assoc]

/-- The header of a reply to an option. -/
def replyHeader (opt type length : Nat) : Bytes :=
  be 8 0x3e889045565a9 ++ (be 4 opt ++ (be 4 type ++ be 4 length))

theorem optionReply_eq (opt type : Nat) (data : Bytes) :
    optionReply opt type data = replyHeader opt type data.length ++ data := by
  simp [optionReply, replyHeader, List.append_assoc]

theorem replyHeader_length (opt type length : Nat) : (replyHeader opt type length).length = 20 := by
  simp [replyHeader, be_length]

theorem parses_recvOptionReply {opt : Nat} (ho : opt < 2 ^ 32) :
    Parses (recvOptionReply opt) fun w o a =>
      a.1 < 2 ^ 32 ∧ a.2 < 2 ^ 32 ∧ w = replyHeader opt a.1 a.2 ∧ o = [] := by
  unfold recvOptionReply
  refine ((parses_recv 20).bind fun h => parses_ite (parses_raise _) (parses_ite (parses_raise _)
    (parses_pure (field h 12 4, field h 16 4)))).congr ?_
  intro w o a
  constructor
  · rintro ⟨h, w1, o1, w2, o2, ⟨hl, rfl, rfl⟩, hx, rfl, rfl⟩
    rcases hx with ⟨-, ⟨⟩⟩ | ⟨h1, ⟨-, ⟨⟩⟩ | ⟨h2, rfl, rfl, rfl⟩⟩
    have h1 : field h 0 8 = optionReplyMagic := by simpa using h1
    have h2 : field h 8 4 = opt := by simpa using h2
    refine ⟨field_lt (k := 4) (by omega), field_lt (k := 4) (by omega), ?_, rfl⟩
    rw [List.append_nil, replyHeader, show (0x3e889045565a9 : Nat) = field h 0 8 from h1.symm]
    subst h2
    rw [be_field (by omega), be_field (by omega), be_field (by omega), be_field (by omega)]
    apply List.ext_getElem (by simp; omega)
    intro i hi1 hi2
    simp [List.getElem_append]
    grind
  · rintro ⟨h1, h2, rfl, rfl⟩
    obtain ⟨type, length⟩ := a
    simp only at h1 h2
    refine ⟨replyHeader opt type length, replyHeader opt type length, [], [], [],
      ⟨replyHeader_length .., rfl, rfl⟩, Or.inr ⟨?_, Or.inr ⟨?_, rfl, rfl, ?_⟩⟩, by simp, rfl⟩
    · have : field (replyHeader opt type length) 0 8 = optionReplyMagic := field_head (by decide)
      simpa using this
    · have : field (replyHeader opt type length) 8 4 = opt := field_mid (be_length ..) ho
      simpa using this
    · have a1 : field (replyHeader opt type length) 12 4 = type := by
        have := field_mid (p := be 8 0x3e889045565a9 ++ be 4 opt) (q := be 4 length) (o := 12) (k := 4)
          (v := type) (by simp [be_length]) h1
        simpa only [replyHeader, List.append_assoc] using this
      have a2 : field (replyHeader opt type length) 16 4 = length := by
        have := field_mid (p := be 8 0x3e889045565a9 ++ be 4 opt ++ be 4 type) (q := []) (o := 16) (k := 4)
          (v := length) (by simp [be_length]) h2
        simpa only [replyHeader, List.append_assoc, List.append_nil] using this
      rw [a1, a2]

theorem parses_optionFailure (reply length : Nat) : Parses (optionFailure reply length) fun w o a =>
    w.length = length ∧ o = [] ∧ a = if reply = repErrUnsup then optionUnsupported else optionError := by
  refine ((parses_recv length).bind fun _ => parses_pure _).congr ?_
  intro w o a
  constructor
  · rintro ⟨_, w1, o1, w2, o2, ⟨hl, rfl, rfl⟩, ⟨rfl, rfl, rfl⟩, rfl, rfl⟩
    exact ⟨by simpa using hl, rfl, rfl⟩
  · rintro ⟨hl, rfl, rfl⟩
    exact ⟨w, w, [], [], [], ⟨hl, rfl, rfl⟩, ⟨rfl, rfl, rfl⟩, by simp, rfl⟩

theorem isErrorReply_ack : isErrorReply repAck = false := by decide
theorem isErrorReply_unsup : isErrorReply repErrUnsup = true := by decide
theorem isErrorReply_info : isErrorReply repInfo = false := by decide
theorem isErrorReply_context : isErrorReply repMetaContext = false := by decide

theorem parses_negotiateOption {opt : Nat} (ho : opt < 2 ^ 32) (data : Bytes) :
    Parses (negotiateOption opt data) fun w o a => data.length < 2 ^ 32 ∧ o = optionWire opt data ∧
      ((a = .ok () ∧ w = optionReply opt 1 []) ∨
        ∃ t m, isErrorReply t = true ∧ t < 2 ^ 32 ∧ m.length < 2 ^ 32 ∧ w = optionReply opt t m ∧
          a = .error (if t = repErrUnsup then optionUnsupported else optionError)) := by
  unfold negotiateOption
  refine ((parses_sendOption opt data).bind fun _ => (parses_recvOptionReply ho).bind fun r =>
    parses_ite ((parses_optionFailure r.1 r.2).bind fun e => parses_pure _)
      (parses_ite (parses_raise _) (parses_ite (parses_raise _) (parses_pure _)))).congr ?_
  intro w o a
  constructor
  · rintro ⟨_, w1, o1, w2, o2, ⟨rfl, hd, rfl⟩, ⟨r, w3, o3, w4, o4, ⟨r1, r2, rfl, rfl⟩, hx, rfl, rfl⟩, rfl, rfl⟩
    rcases hx with ⟨he, e, w5, o5, w6, o6, ⟨hl, rfl, rfl⟩, ⟨rfl, rfl, rfl⟩, rfl, rfl⟩ |
      ⟨he, ⟨-, ⟨⟩⟩ | ⟨ha, ⟨-, ⟨⟩⟩ | ⟨h0, rfl, rfl, rfl⟩⟩⟩
    · refine ⟨hd, by simp, Or.inr ⟨r.1, w5, he, r1, by omega, ?_, rfl⟩⟩
      rw [optionReply_eq, hl]; simp
    · refine ⟨hd, by simp, Or.inl ⟨rfl, ?_⟩⟩
      have ha : r.1 = repAck := by simpa using ha
      have h0 : r.2 = 0 := by simpa using h0
      rw [optionReply_eq, ha, h0]; simp [repAck]
  · rintro ⟨hd, rfl, hx⟩
    rcases hx with ⟨rfl, rfl⟩ | ⟨t, m, he, ht, hm, rfl, rfl⟩
    · refine ⟨(), [], _, _, [], ⟨rfl, hd, rfl⟩, ⟨(1, 0), _, [], [], [], ⟨by decide, by decide, rfl, rfl⟩,
        Or.inr ⟨by decide, Or.inr ⟨by decide, Or.inr ⟨by decide, rfl, rfl, rfl⟩⟩⟩, rfl, rfl⟩, ?_, ?_⟩
      · rw [optionReply_eq]; simp
      · simp
    · refine ⟨(), [], _, _, [], ⟨rfl, hd, rfl⟩, ⟨(t, m.length), _, [], m, [], ⟨ht, hm, rfl, rfl⟩,
        Or.inl ⟨he, _, m, [], [], [], ⟨rfl, rfl, rfl⟩, ⟨rfl, rfl, rfl⟩, ?_, rfl⟩, rfl, rfl⟩, ?_, ?_⟩
      · simp
      · rw [optionReply_eq]; simp
      · simp

theorem parses_structured : Parses negotiateStructuredReply fun w o a =>
    ∃ x : Option Bytes, (∀ m ∈ x, m.length < 2 ^ 32) ∧ w = endWire Spec.optStructured x ∧
      o = optionWire Spec.optStructured [] ∧ a = decide (x = none) := by
  unfold negotiateStructuredReply
  refine ((parses_negotiateOption (opt := optStructuredReply) (by decide) []).bind
    (Q := fun a w o b => w = [] ∧ o = [] ∧ ((a = .ok () ∧ b = true) ∨ (a = .error optionUnsupported ∧ b = false)))
    fun a => ?_).congr ?_
  · rcases a with e | ⟨⟨⟩⟩
    · refine (parses_ite (c := e = optionUnsupported) (parses_pure false) (parses_raise e)).congr ?_
      intro w o b
      simp
      constructor
      · rintro ⟨rfl, rfl, rfl, rfl⟩; simp
      · rintro ⟨rfl, rfl, rfl, rfl⟩; simp
    · exact (parses_pure true).congr fun w o b => by simp
  · intro w o b
    constructor
    · rintro ⟨a, w1, o1, w2, o2, ⟨-, rfl, hx⟩, ⟨rfl, rfl, hb⟩, rfl, rfl⟩
      rcases hx with ⟨rfl, rfl⟩ | ⟨t, m, he, ht, hm, rfl, rfl⟩
      · rcases hb with ⟨-, rfl⟩ | ⟨⟨⟩, -⟩
        exact ⟨none, by simp, by simp [endWire, Spec.optStructured, optStructuredReply], by
          simp [Spec.optStructured, optStructuredReply], by simp⟩
      · rcases hb with ⟨⟨⟩, -⟩ | ⟨hb, rfl⟩
        have : t = repErrUnsup := by
          by_contra hc
          rw [if_neg hc] at hb
          simp [optionUnsupported, optionError] at hb
        subst this
        exact ⟨some m, by simpa using hm, by
          simp [endWire, unsupported, repErrUnsup, Spec.optStructured, optStructuredReply], by
          simp [Spec.optStructured, optStructuredReply], by simp⟩
    · rintro ⟨x, hx, rfl, rfl, rfl⟩
      cases x with
      | none => exact ⟨.ok (), _, _, [], [], ⟨by decide, rfl, Or.inl ⟨rfl, rfl⟩⟩, ⟨rfl, rfl, by simp⟩, by
          simp [endWire, Spec.optStructured, optStructuredReply], by simp [Spec.optStructured, optStructuredReply]⟩
      | some m =>
        exact ⟨.error optionUnsupported, _, _, [], [], ⟨by decide, rfl, Or.inr ⟨repErrUnsup, m, by decide, by decide,
          hx m rfl, rfl, by simp⟩⟩, ⟨rfl, rfl, by simp⟩, by
            simp [endWire, unsupported, repErrUnsup, Spec.optStructured, optStructuredReply], by
            simp [Spec.optStructured, optStructuredReply]⟩

theorem parses_formatQuery (q : String) : Parses (formatQuery q) fun w o a =>
    w = [] ∧ o = [] ∧ (utf8 q).length < 2 ^ 32 ∧ a = be 4 (utf8 q).length ++ utf8 q := by
  unfold formatQuery
  refine ((parses_pack 4 _).bind fun n => parses_pure _).congr ?_
  intro w o a
  constructor
  · rintro ⟨n, w1, o1, w2, o2, ⟨rfl, rfl, hn, rfl⟩, ⟨rfl, rfl, rfl⟩, rfl, rfl⟩
    exact ⟨rfl, rfl, hn, rfl⟩
  · rintro ⟨rfl, rfl, hn, rfl⟩
    exact ⟨_, [], [], [], [], ⟨rfl, rfl, hn, rfl⟩, ⟨rfl, rfl, rfl⟩, rfl, rfl⟩

theorem parses_formatQueries (qs : List String) : Parses (formatQueries qs) fun w o a =>
    w = [] ∧ o = [] ∧ (∀ q ∈ qs, (utf8 q).length < 2 ^ 32) ∧
      a = qs.flatMap fun q => be 4 (utf8 q).length ++ utf8 q := by
  induction qs with
  | nil => exact (parses_pure []).congr fun w o a => by simp
  | cons q qs ih =>
    refine ((parses_formatQuery q).bind fun x => ih.bind fun y => parses_pure _).congr ?_
    intro w o a
    constructor
    · rintro ⟨x, w1, o1, w2, o2, ⟨rfl, rfl, h1, rfl⟩, ⟨y, w3, o3, w4, o4, ⟨rfl, rfl, h2, rfl⟩, ⟨rfl, rfl, rfl⟩, rfl, rfl⟩,
        rfl, rfl⟩
      exact ⟨rfl, rfl, by simpa using ⟨h1, h2⟩, by simp⟩
    · rintro ⟨rfl, rfl, h, rfl⟩
      exact ⟨_, [], [], [], [], ⟨rfl, rfl, h q (by simp), rfl⟩, ⟨_, [], [], [], [],
        ⟨rfl, rfl, fun q hq => h q (by simp [hq]), rfl⟩, ⟨rfl, rfl, rfl⟩, rfl, rfl⟩, rfl, rfl⟩

theorem parses_formatMeta (name : String) (qs : List String) : Parses (formatMetaContextData name qs) fun w o a =>
    w = [] ∧ o = [] ∧ ((utf8 name).length < 2 ^ 32 ∧ qs.length < 2 ^ 32 ∧ ∀ q ∈ qs, (utf8 q).length < 2 ^ 32) ∧
      a = metaData name qs := by
  unfold formatMetaContextData
  refine ((parses_formatQuery name).bind fun x => (parses_pack 4 _).bind fun n =>
    (parses_formatQueries qs).bind fun y => parses_pure _).congr ?_
  intro w o a
  constructor
  · rintro ⟨x, w1, o1, w2, o2, ⟨rfl, rfl, h1, rfl⟩, ⟨n, w3, o3, w4, o4, ⟨rfl, rfl, h2, rfl⟩,
      ⟨y, w5, o5, w6, o6, ⟨rfl, rfl, h3, rfl⟩, ⟨rfl, rfl, rfl⟩, rfl, rfl⟩, rfl, rfl⟩, rfl, rfl⟩
    exact ⟨rfl, rfl, ⟨h1, h2, h3⟩, by simp [metaData, List.append_assoc]⟩
  · rintro ⟨rfl, rfl, ⟨h1, h2, h3⟩, rfl⟩
    exact ⟨_, [], [], [], [], ⟨rfl, rfl, h1, rfl⟩, ⟨_, [], [], [], [], ⟨rfl, rfl, h2, rfl⟩, ⟨_, [], [], [], [],
      ⟨rfl, rfl, h3, rfl⟩, ⟨rfl, rfl, by simp [metaData, List.append_assoc]⟩, rfl, rfl⟩, rfl, rfl⟩, rfl, rfl⟩

theorem parses_recvMeta (length : Nat) : Parses (recvMetaContextReply length) fun w o a =>
    length = (utf8 a.1).length + 4 ∧ a.2 < 2 ^ 32 ∧ w = be 4 a.2 ++ utf8 a.1 ∧ o = [] := by
  unfold recvMetaContextReply
  refine (parses_ite (parses_raise _) ((parses_recv length).bind
    (Q := fun d w o a => decodeUtf8 (d.drop 4) = some a.1 ∧ a.2 = field d 0 4 ∧ w = [] ∧ o = []) fun d => ?_)).congr ?_
  · cases hd : decodeUtf8 (d.drop 4) with
    | none => exact (parses_raise _).congr fun w o a => by simp
    | some name =>
      refine (parses_pure _).congr fun w o a => ?_
      obtain ⟨a1, a2⟩ := a
      simp only [Prod.mk.injEq, Option.some.injEq]
      constructor
      · rintro ⟨rfl, rfl, rfl, rfl⟩; simp
      · rintro ⟨rfl, rfl, rfl, rfl⟩; simp
  · intro w o a
    obtain ⟨name, id⟩ := a
    simp only
    constructor
    · rintro (⟨-, ⟨⟩⟩ | ⟨h4, d, w1, o1, w2, o2, ⟨h1, rfl, rfl⟩, ⟨h2, h3, rfl, rfl⟩, rfl, rfl⟩)
      have hn := encode_decode h2
      refine ⟨?_, ?_, ?_, rfl⟩
      · rw [← hn, List.length_drop]; omega
      · rw [h3]; exact field_lt (k := 4) (by omega)
      · rw [← hn, h3, be_field (by omega), List.drop_zero, List.append_nil, List.take_append_drop]
    · rintro ⟨h1, h2, rfl, rfl⟩
      refine Or.inr ⟨by omega, be 4 id ++ utf8 name, be 4 id ++ utf8 name, [], [], [],
        ⟨by simp [be_length]; omega, rfl, rfl⟩, ⟨?_, ?_, rfl, rfl⟩, by simp, rfl⟩
      · rw [List.drop_left' (be_length ..), decode_encode]
      · rw [field_head h2]

/-- What is received for the contexts, with at most `n` of them. -/
def ContextsR (opt : Nat) (wanted : String → Bool) (w o : Bytes) (a : List (String × Nat)) : Prop :=
  ∃ x : ContextsAnswer, x.Fits ∧ x.contexts = a ∧ (∀ c ∈ a, wanted c.1 = true) ∧ w = x.wire opt ∧ o = []

theorem parses_metaReplies {opt : Nat} (ho : opt < 2 ^ 32) (wanted : String → Bool) (fuel : Nat) :
    Parses (metaContextReplies opt wanted fuel) fun w o a => ContextsR opt wanted w o a ∧ a.length < fuel := by
  induction fuel with
  | zero => exact (parses_raise _).congr fun w o a => by simp
  | succ fuel ih =>
    rw [metaContextReplies]
    refine ((parses_recvOptionReply ho).bind fun r =>
      parses_ite ((parses_optionFailure r.1 r.2).bind fun e => parses_ite (parses_pure _) (parses_raise _))
        (parses_ite (parses_ite (parses_raise _) (parses_pure _)) (parses_ite (parses_raise _)
          ((parses_recvMeta r.2).bind fun c => parses_ite (ih.bind fun cs => parses_pure _) (parses_raise _))))).congr ?_
    intro w o a
    constructor
    · rintro ⟨r, w1, o1, w2, o2, ⟨r1, r2, rfl, rfl⟩, hx, rfl, rfl⟩
      rcases hx with ⟨he, e, w3, o3, w4, o4, ⟨hl, rfl, rfl⟩, hx, rfl, rfl⟩ | ⟨he, hx⟩
      · rcases hx with ⟨hu, rfl, rfl, rfl⟩ | ⟨-, ⟨⟩⟩
        have hu : r.1 = repErrUnsup := by
          by_contra hc
          rw [if_neg hc] at hu
          simp [optionUnsupported, optionError] at hu
        refine ⟨⟨⟨[], some w3⟩, ⟨by simp, by simpa using (by omega : w3.length < 2 ^ 32)⟩, rfl, by simp, ?_, rfl⟩, by simp⟩
        simp only [ContextsAnswer.wire, endWire, unsupported, optionReply_eq, hl, hu, repErrUnsup]
        simp
      · rcases hx with ⟨ha, hx⟩ | ⟨ha, hx⟩
        · rcases hx with ⟨-, ⟨⟩⟩ | ⟨h0, rfl, rfl, rfl⟩
          have h0 : r.2 = 0 := by simpa using h0
          refine ⟨⟨⟨[], none⟩, ⟨by simp, by simp⟩, rfl, by simp, ?_, rfl⟩, by simp⟩
          simp only [ContextsAnswer.wire, endWire, optionReply_eq, h0, ha, repAck]
          simp
        · rcases hx with ⟨-, ⟨⟩⟩ | ⟨hm, c, w3, o3, w4, o4, ⟨h1, h2, rfl, rfl⟩, hx, rfl, rfl⟩
          have hm : r.1 = repMetaContext := by simpa using hm
          rcases hx with ⟨hw, cs, w5, o5, w6, o6, ⟨⟨x, x1, x2, x3, rfl, rfl⟩, hf⟩, ⟨rfl, rfl, rfl⟩, rfl, rfl⟩ | ⟨-, ⟨⟩⟩
          refine ⟨⟨⟨c :: cs, x.refused⟩, ⟨?_, x1.2⟩, rfl, ?_, ?_, rfl⟩, by simpa using hf⟩
          · intro d hd
            rcases List.mem_cons.1 hd with rfl | hd
            · exact ⟨h2, by omega⟩
            · exact x1.1 d (x2 ▸ hd)
          · intro d hd
            rcases List.mem_cons.1 hd with rfl | hd
            · exact hw
            · exact x3 d hd
          · simp only [ContextsAnswer.wire, contextWire, List.flatMap_cons, optionReply_eq, hm, repMetaContext, x2]
            have : (be 4 c.2 ++ utf8 c.1).length = r.2 := by simp [be_length]; omega
            rw [this]
            simp
    · rintro ⟨⟨x, x1, rfl, x3, rfl, rfl⟩, hf⟩
      obtain ⟨cs, ref⟩ := x
      cases cs with
      | nil =>
        cases ref with
        | none =>
          refine ⟨(1, 0), _, [], [], [], ⟨by decide, by decide, rfl, rfl⟩, Or.inr ⟨by decide, Or.inl ⟨rfl, Or.inr ⟨by decide, rfl, rfl, rfl⟩⟩⟩, ?_, rfl⟩
          simp [ContextsAnswer.wire, endWire, optionReply_eq]
        | some m =>
          refine ⟨(repErrUnsup, m.length), _, [], m, [], ⟨(by decide : repErrUnsup < 2 ^ 32), x1.2 m rfl, rfl, rfl⟩,
            Or.inl ⟨isErrorReply_unsup, optionUnsupported, m, [], [], [], ⟨rfl, rfl, by simp⟩,
            Or.inl ⟨rfl, rfl, rfl, rfl⟩, by simp, rfl⟩, ?_, rfl⟩
          simp [ContextsAnswer.wire, endWire, unsupported, optionReply_eq, repErrUnsup]
      | cons c cs =>
        obtain ⟨y1, y2⟩ := x1
        have hc := y1 c (by simp)
        refine ⟨(repMetaContext, (be 4 c.2 ++ utf8 c.1).length), _, [], _, [],
          ⟨(by decide : repMetaContext < 2 ^ 32), by simp [be_length]; omega, rfl, rfl⟩,
          Or.inr ⟨by simp [isErrorReply_context], Or.inr ⟨(by decide : ¬ repMetaContext = repAck), Or.inr ⟨by simp, c, _, [], _, [], ⟨by simp [be_length]; omega, hc.1, rfl, rfl⟩,
            Or.inl ⟨x3 c (by simp), cs, _, [], [], [], ⟨⟨⟨cs, ref⟩, ⟨fun d hd => y1 d (by simp [hd]), y2⟩, rfl,
              fun d hd => x3 d (by simp [hd]), rfl, rfl⟩, by simpa using hf⟩, ⟨rfl, rfl, rfl⟩, rfl, rfl⟩, rfl, rfl⟩⟩⟩, ?_, rfl⟩
        simp [ContextsAnswer.wire, contextWire, optionReply_eq, repMetaContext]

theorem optionReply_length (opt type : Nat) (data : Bytes) : (optionReply opt type data).length = 20 + data.length := by
  rw [optionReply_eq, List.length_append, replyHeader_length]

theorem flatMap_length_le {γ : Type} (l : List γ) (f : γ → Bytes) (hf : ∀ x, 1 ≤ (f x).length) :
    l.length ≤ (l.flatMap f).length := by
  induction l with
  | nil => simp
  | cons x l ih =>
    have := hf x
    simp only [List.length_cons, List.flatMap_cons, List.length_append]
    omega

theorem parses_iterMeta {opt : Nat} (ho : opt < 2 ^ 32) (wanted : String → Bool) :
    Parses (iterMetaContextReplies opt wanted) (ContextsR opt wanted) where
  fwd := by
    intro w o a s t h hs
    refine (parses_metaReplies ho wanted _).fwd ⟨h, ?_⟩ hs
    obtain ⟨x, -, rfl, -, rfl, -⟩ := h
    have := flatMap_length_le x.contexts (contextWire opt) (fun c => by rw [contextWire, optionReply_length]; omega)
    rw [hs]
    simp only [ContextsAnswer.wire, List.length_append]
    omega
  bwd := by
    intro s s' a h
    obtain ⟨w, o, ⟨h1, -⟩, h2⟩ := (parses_metaReplies ho wanted _).bwd h
    exact ⟨w, o, h1, h2⟩

/-- The data of an option that is sent. -/
def MetaSendable (name : String) (qs : List String) : Prop :=
  (∀ q ∈ qs, (utf8 q).length < 2 ^ 32) ∧ (metaData name qs).length < 2 ^ 32

theorem parses_queryDirty (name : String) : Parses (queryDirtyBitmap name) fun w o a =>
    ∃ x : ContextsAnswer, x.Fits ∧ MetaSendable name [qemuDirtyBitmap] ∧ w = x.wire Spec.optList ∧
      o = optionWire Spec.optList (metaData name [qemuDirtyBitmap]) ∧
      a = match x.contexts with | [c] => some c.1 | _ => none := by
  unfold queryDirtyBitmap
  refine ((parses_formatMeta name _).bind fun d => (parses_sendOption _ d).bind fun _ =>
    (parses_iterMeta (opt := optListMetaContext) (by decide) _).bind
      (Q := fun b w o a => w = [] ∧ o = [] ∧ a = match b with | [c] => some c.1 | _ => none) fun b => ?_).congr ?_
  · match b with
    | [] => exact parses_pure none
    | [c] => exact parses_pure (some c.1)
    | _ :: _ :: _ => exact parses_pure none
  · intro w o a
    constructor
    · rintro ⟨d, w1, o1, w2, o2, ⟨rfl, rfl, ⟨h1, h2, h3⟩, rfl⟩, ⟨_, w3, o3, w4, o4, ⟨rfl, h4, rfl⟩,
        ⟨b, w5, o5, w6, o6, ⟨x, x1, rfl, -, rfl, rfl⟩, ⟨rfl, rfl, rfl⟩, rfl, rfl⟩, rfl, rfl⟩, rfl, rfl⟩
      exact ⟨x, x1, ⟨h3, h4⟩, by simp [optListMetaContext, Spec.optList], by simp [optListMetaContext, Spec.optList], rfl⟩
    · rintro ⟨x, x1, ⟨h3, h4⟩, rfl, rfl, rfl⟩
      have hlen : (utf8 name).length < 2 ^ 32 := by
        simp only [metaData, List.length_append] at h4; omega
      exact ⟨_, [], [], _, _, ⟨rfl, rfl, ⟨hlen, by decide, h3⟩, rfl⟩, ⟨(), [], _, _, [], ⟨rfl, h4, rfl⟩,
        ⟨_, _, [], [], [], ⟨x, x1, rfl, by simp, rfl, rfl⟩, ⟨rfl, rfl, rfl⟩, rfl, rfl⟩, rfl, rfl⟩, by
          simp [optListMetaContext, Spec.optList], by simp [optListMetaContext, Spec.optList]⟩

theorem metaSendable_length {name : String} {qs : List String} (h : MetaSendable name qs) :
    (utf8 name).length < 2 ^ 32 ∧ qs.length < 2 ^ 32 := by
  have h4 := h.2
  have := flatMap_length_le qs (fun q => be 4 (utf8 q).length ++ utf8 q) (fun q => by simp [be_length]; omega)
  simp only [metaData, List.length_append] at h4
  omega

theorem parses_setMeta (name : String) (bitmap : Option String) : Parses (setMetaContext name bitmap) fun w o a =>
    ∃ x : ContextsAnswer, x.Fits ∧ MetaSendable name (wantedContexts bitmap) ∧ w = x.wire Spec.optSet ∧
      o = optionWire Spec.optSet (metaData name (wantedContexts bitmap)) ∧
      a = x.contexts ∧ ∀ c ∈ x.contexts, c.1 ∈ wantedContexts bitmap := by
  unfold setMetaContext
  refine ((parses_formatMeta name _).bind fun d => (parses_sendOption _ d).bind fun _ =>
    (parses_iterMeta (opt := optSetMetaContext) (by decide) _)).congr ?_
  intro w o a
  constructor
  · rintro ⟨d, w1, o1, w2, o2, ⟨rfl, rfl, ⟨h1, h2, h3⟩, rfl⟩, ⟨_, w3, o3, w4, o4, ⟨rfl, h4, rfl⟩,
      ⟨x, x1, rfl, x3, rfl, rfl⟩, rfl, rfl⟩, rfl, rfl⟩
    exact ⟨x, x1, ⟨h3, h4⟩, by simp [optSetMetaContext, Spec.optSet], by simp [optSetMetaContext, Spec.optSet], rfl,
      by simpa using x3⟩
  · rintro ⟨x, x1, hs, rfl, rfl, rfl, x3⟩
    have hlen := metaSendable_length hs
    exact ⟨_, [], [], _, _, ⟨rfl, rfl, ⟨hlen.1, hlen.2, hs.1⟩, rfl⟩, ⟨(), [], _, _, [], ⟨rfl, hs.2, rfl⟩,
      ⟨x, x1, rfl, by simpa using x3, rfl, rfl⟩, rfl, rfl⟩, by
        simp [optSetMetaContext, Spec.optSet], by simp [optSetMetaContext, Spec.optSet]⟩

/-- What is stored for an information. -/
def applyInfo (g : GoInfo) : Info → GoInfo
  | .export_ size flags => { g with export_ := some (size, flags) }
  | .blockSize a b c => { g with blocks := (a, b, c) }
  | .other .. => g

theorem take_drop_all {d : Bytes} {o k : Nat} (h : d.length = o + k) : (d.drop o).take k = d.drop o := by
  rw [List.take_of_length_le]; rw [List.length_drop]; omega

theorem parses_recvInfo {length : Nat} (h2 : 2 ≤ length) (hl : length < 2 ^ 32) (g : GoInfo) :
    Parses (recvInfo length g) fun w o a =>
      ∃ i : Info, i.Fits ∧ i.data.length = length ∧ w = i.data ∧ o = [] ∧ a = applyInfo g i := by
  unfold recvInfo
  refine ((parses_recv 2).bind fun t => parses_ite
    (parses_ite (parses_raise _) ((parses_recv 10).bind fun d => parses_pure _)) (parses_ite
      (parses_ite (parses_raise _) ((parses_recv 12).bind fun d => parses_pure _))
      ((parses_recv (length - 2)).bind fun d => parses_pure _))).congr ?_
  intro w o a
  constructor
  · rintro ⟨t, w1, o1, w2, o2, ⟨ht, rfl, rfl⟩, hx, rfl, rfl⟩
    have hbt : be 2 (field t 0 2) = t := by
      rw [be_field (by omega), List.drop_zero, List.take_of_length_le (by omega)]
    have hlt : field t 0 2 < 2 ^ 16 := field_lt (k := 2) (by omega)
    rcases hx with ⟨h0, hx⟩ | ⟨h0, hx⟩
    · rcases hx with ⟨-, ⟨⟩⟩ | ⟨h10, d, w3, o3, w4, o4, ⟨hd, rfl, rfl⟩, ⟨rfl, rfl, rfl⟩, rfl, rfl⟩
      refine ⟨.export_ (field d 0 8) (field d 8 2), ⟨field_lt (k := 8) (by omega), field_lt (k := 2) (by omega)⟩, ?_, ?_, rfl, rfl⟩
      · simp [Info.data, be_length]; omega
      · rw [Info.data, be_field (by omega), be_field (by omega), take_drop_all (o := 8) (by omega), List.drop_zero,
          List.take_append_drop, ← h0, hbt]
        simp
    · rcases hx with ⟨h3, hx⟩ | ⟨h3, hx⟩
      · rcases hx with ⟨-, ⟨⟩⟩ | ⟨h10, d, w3, o3, w4, o4, ⟨hd, rfl, rfl⟩, ⟨rfl, rfl, rfl⟩, rfl, rfl⟩
        refine ⟨.blockSize (field d 0 4) (field d 4 4) (field d 8 4), ⟨field_lt (k := 4) (by omega), field_lt (k := 4) (by omega),
          field_lt (k := 4) (by omega)⟩, ?_, ?_, rfl, rfl⟩
        · simp [Info.data, be_length]; omega
        · have e : (d.drop 4).take 4 ++ (d.drop 8).take 4 = d.drop 4 := by
            rw [take_drop_all (o := 8) (by omega), show d.drop 8 = (d.drop 4).drop 4 by rw [List.drop_drop],
              List.take_append_drop]
          rw [Info.data, be_field (by omega), be_field (by omega), be_field (by omega), e, List.drop_zero,
            List.take_append_drop, ← h3, hbt]
          simp
      · obtain ⟨d, w3, o3, w4, o4, ⟨hd, rfl, rfl⟩, ⟨rfl, rfl, rfl⟩, rfl, rfl⟩ := hx
        refine ⟨.other (field t 0 2) d, ⟨hlt, h0, h3, by omega⟩, ?_, ?_, rfl, rfl⟩
        · simp [Info.data, be_length]; omega
        · rw [Info.data, hbt]; simp
  · rintro ⟨i, hi, hlen, rfl, rfl, rfl⟩
    cases i with
    | export_ size flags =>
      simp only [Info.data, List.length_append, be_length] at hlen
      refine ⟨be 2 0, be 2 0, [], _, [], ⟨be_length .., rfl, rfl⟩, Or.inl ⟨field_one (by decide), Or.inr ⟨by omega, _, _, [], [], [],
        ⟨by simp [be_length], rfl, rfl⟩, ⟨rfl, rfl, ?_⟩, (List.append_nil _).symm, rfl⟩⟩, rfl, rfl⟩
      have a1 := field_head (k := 8) (q := be 2 flags) hi.1
      have a2 := field_mid (p := be 8 size) (k := 2) (q := []) (be_length ..) hi.2
      rw [List.append_nil] at a2
      rw [a1, a2]
      rfl
    | blockSize x y z =>
      simp only [Info.data, List.length_append, be_length] at hlen
      refine ⟨be 2 3, be 2 3, [], _, [], ⟨be_length .., rfl, rfl⟩, Or.inr ⟨by rw [field_one (by decide)]; decide, Or.inl ⟨field_one (by decide), Or.inr ⟨by omega, _, _, [], [], [],
        ⟨by simp [be_length], rfl, rfl⟩, ⟨rfl, rfl, ?_⟩, (List.append_nil _).symm, rfl⟩⟩⟩, rfl, rfl⟩
      have a1 := field_head (k := 4) (q := be 4 y ++ be 4 z) hi.1
      have a2 := field_mid (p := be 4 x) (k := 4) (q := be 4 z) (be_length ..) hi.2.1
      have a3 := field_mid (p := be 4 x ++ be 4 y) (o := 8) (k := 4) (q := []) (by simp [be_length]) hi.2.2
      rw [List.append_nil, List.append_assoc] at a3
      rw [a1, a2, a3]
      rfl
    | other type d =>
      simp only [Info.data, List.length_append, be_length] at hlen
      have e : field (be 2 type) 0 2 = type := field_one hi.1
      exact ⟨be 2 type, be 2 type, [], d, [], ⟨be_length .., rfl, rfl⟩, Or.inr ⟨by rw [e]; exact hi.2.1, Or.inr ⟨by rw [e]; exact hi.2.2.1,
        d, d, [], [], [], ⟨by omega, rfl, rfl⟩, ⟨rfl, rfl, rfl⟩, by simp, rfl⟩⟩, rfl, rfl⟩

/-- What is received for NBD_OPT_GO. -/
def GoR (g : GoInfo) (w o : Bytes) (a : GoInfo) : Prop :=
  ∃ is : List Info, (∀ i ∈ is, i.Fits) ∧ w = is.flatMap Info.wire ++ endWire Spec.optGo none ∧ o = [] ∧
    a = is.foldl applyInfo g ∧ a.export_ ≠ none

theorem info_length (i : Info) : 2 ≤ i.data.length := by
  cases i <;> simp [Info.data, be_length]

theorem info_length_lt {i : Info} (h : i.Fits) : i.data.length < 2 ^ 32 := by
  cases i <;> simp [Info.data, be_length]
  have := h.2.2.2
  omega

theorem parses_goReplies (fuel : Nat) (g : GoInfo) :
    Parses (goReplies fuel g) fun w o a =>
      ∃ is : List Info, is.length < fuel ∧ (∀ i ∈ is, i.Fits) ∧
        w = is.flatMap Info.wire ++ endWire Spec.optGo none ∧ o = [] ∧
        a = is.foldl applyInfo g ∧ a.export_ ≠ none := by
  induction fuel generalizing g with
  | zero => exact (parses_raise _).congr fun w o a => by simp
  | succ fuel ih =>
    rw [goReplies]
    refine ((parses_recvOptionReply (opt := optGo) (by decide)).bind' fun r w o hr =>
      parses_ite ((parses_optionFailure r.1 r.2).bind fun e => parses_raise e) (parses_ite
        (parses_ite (parses_raise _) (parses_ite (parses_raise _) (parses_pure _)))
        (parses_ite (parses_raise _) (parses_ite' (fun _ => parses_raise _) (fun h2 =>
          (parses_recvInfo (by omega) hr.2.1 g).bind fun g' => ih g'))))).congr ?_
    intro w o a
    constructor
    · rintro ⟨r, w1, o1, w2, o2, ⟨r1, r2, rfl, rfl⟩, hx, rfl, rfl⟩
      rcases hx with ⟨-, _, _, _, _, _, _, ⟨⟩, _⟩ | ⟨he, hx⟩
      rcases hx with ⟨ha, hx⟩ | ⟨ha, hx⟩
      · rcases hx with ⟨-, ⟨⟩⟩ | ⟨h0, hx⟩
        rcases hx with ⟨-, ⟨⟩⟩ | ⟨hg, rfl, rfl, rfl⟩
        have h0 : r.2 = 0 := by simpa using h0
        refine ⟨[], by simp, by simp, ?_, rfl, rfl, hg⟩
        simp [endWire, optionReply_eq, ha, h0, repAck, optGo, Spec.optGo]
      · rcases hx with ⟨-, ⟨⟩⟩ | ⟨hi, hx⟩
        rcases hx with ⟨-, ⟨⟩⟩ | ⟨h2, g', w3, o3, w4, o4, ⟨i, i1, i2, rfl, rfl, rfl⟩, ⟨is, j1, j2, rfl, rfl, rfl, j6⟩, rfl, rfl⟩
        have hi : r.1 = repInfo := by simpa using hi
        refine ⟨i :: is, by simpa using j1, by simpa using ⟨i1, j2⟩, ?_, rfl, rfl, j6⟩
        simp [Info.wire, optionReply_eq, hi, i2, repInfo, optGo, Spec.optGo]
    · rintro ⟨is, h1, h2, rfl, rfl, rfl, h6⟩
      cases is with
      | nil =>
        exact ⟨(1, 0), _, [], [], [], ⟨by decide, by decide, rfl, rfl⟩, Or.inr ⟨by decide, Or.inl ⟨rfl, Or.inr ⟨by decide,
          Or.inr ⟨h6, rfl, rfl, rfl⟩⟩⟩⟩, by simp [endWire, optionReply_eq, optGo, Spec.optGo], rfl⟩
      | cons i is =>
        have hi := h2 i (by simp)
        refine ⟨(repInfo, i.data.length), _, [], _, [], ⟨(by decide : repInfo < 2 ^ 32), info_length_lt hi, rfl, rfl⟩,
          Or.inr ⟨by simp [isErrorReply_info], Or.inr ⟨(by decide : ¬ repInfo = repAck), Or.inr ⟨by simp, Or.inr ⟨by
            have := info_length i
            simp only
            omega, _, _, [], _, [], ⟨i, hi, rfl, rfl, rfl, rfl⟩, ⟨is, by simpa using h1, fun j hj => h2 j (by simp [hj]),
              rfl, rfl, rfl, h6⟩, rfl, rfl⟩⟩⟩⟩, ?_, rfl⟩
        simp [Info.wire, optionReply_eq, repInfo, optGo, Spec.optGo]

theorem parses_negotiateGo (name : String) : Parses (negotiateGoOption name) fun w o a =>
    (goData name).length < 2 ^ 32 ∧ o = optionWire Spec.optGo (goData name) ∧ GoR GoInfo.init w [] a := by
  unfold negotiateGoOption formatGoOptionData
  have hgo : Parses (fun s : Conn => goReplies (s.rest.length + 1) GoInfo.init s) (GoR GoInfo.init) := by
    constructor
    · intro w o a s t h hs
      obtain ⟨is, h1, rfl, rfl, h4, h5⟩ := h
      refine (parses_goReplies _ _).fwd ⟨is, ?_, h1, rfl, rfl, h4, h5⟩ hs
      have := flatMap_length_le is Info.wire (fun i => by rw [Info.wire, optionReply_length]; omega)
      rw [hs]
      simp only [List.length_append]
      omega
    · intro s s' a h
      obtain ⟨w, o, ⟨is, -, h1, rfl, rfl, h4, h5⟩, hr⟩ := (parses_goReplies _ _).bwd h
      exact ⟨_, [], ⟨is, h1, rfl, rfl, h4, h5⟩, hr⟩
  refine (((parses_formatQuery name).bind fun x => parses_pure _).bind fun d =>
    (parses_sendOption _ d).bind fun _ => hgo).congr ?_
  intro w o a
  simp only [packNat_eq]
  constructor
  · rintro ⟨d, w1, o1, w2, o2, ⟨x, w3, o3, w4, o4, ⟨rfl, rfl, h1, rfl⟩, ⟨rfl, rfl, rfl⟩, rfl, rfl⟩,
      ⟨_, w5, o5, w6, o6, ⟨rfl, h2, rfl⟩, h3, rfl, rfl⟩, rfl, rfl⟩
    have e : o6 = [] := by obtain ⟨_, _, _, h, _⟩ := h3; exact h
    subst e
    have e : be 4 (utf8 name).length ++ utf8 name ++ be 2 0 = goData name := by simp [goData]
    rw [e] at h2 ⊢
    exact ⟨h2, by simp [optGo, Spec.optGo], by simpa using h3⟩
  · rintro ⟨h1, rfl, h3⟩
    have hn : (utf8 name).length < 2 ^ 32 := by simp only [goData, List.length_append] at h1; omega
    exact ⟨goData name, [], [], w, _, ⟨_, [], [], [], [], ⟨rfl, rfl, hn, rfl⟩, ⟨rfl, rfl, by simp [goData]⟩, rfl, rfl⟩,
      ⟨(), [], _, w, [], ⟨rfl, h1, rfl⟩, h3, by simp, rfl⟩, by simp, by simp [optGo, Spec.optGo]⟩

/-! ## The whole handshake -/

theorem wantedContexts_bitmap (h : Handshake) (dirty : Bool) :
    wantedContexts (if dirty then match h.list.contexts with | [c] => some c.1 | _ => none else none) =
      h.queries dirty := by
  unfold wantedContexts Handshake.queries Handshake.bitmap
  cases dirty with
  | false => simp [baseAllocation, allocationDepth]
  | true =>
    simp only [if_true]
    match h.list.contexts with
    | [] => simp [baseAllocation, allocationDepth]
    | [c] =>
      by_cases hc : c.1 = ""
      · simp [baseAllocation, allocationDepth, hc]
      · simp [baseAllocation, allocationDepth, hc]
    | _ :: _ :: _ => simp [baseAllocation, allocationDepth]

/-- The bitmap before it is selected; the empty name is not sent. -/
def rawBitmap (list : ContextsAnswer) (dirty : Bool) : Option String :=
  if dirty then match list.contexts with | [c] => some c.1 | _ => none else none

/-- What is stored about contexts. -/
def storedContexts (h : Handshake) (dirty : Bool) : List (String × Nat) × List (Nat × String) × Option String :=
  if h.structured = none then register h.set.contexts (rawBitmap h.list dirty) else ([], [], none)

/-- The contexts part of a handshake: `list` and `set` are what matters. -/
def ContextsPart (name : String) (dirty : Bool) (w o : Bytes)
    (a : List (String × Nat) × List (Nat × String) × Option String) : Prop :=
  ∃ list set : ContextsAnswer, (dirty = true → list.Fits ∧ MetaSendable name [qemuDirtyBitmap]) ∧ set.Fits ∧
    MetaSendable name (wantedContexts (rawBitmap list dirty)) ∧
    (∀ c ∈ set.contexts, c.1 ∈ wantedContexts (rawBitmap list dirty)) ∧
    w = (if dirty then list.wire Spec.optList else []) ++ set.wire Spec.optSet ∧
    o = (if dirty then optionWire Spec.optList (metaData name [qemuDirtyBitmap]) else []) ++
      optionWire Spec.optSet (metaData name (wantedContexts (rawBitmap list dirty))) ∧
    a = register set.contexts (rawBitmap list dirty)

theorem parses_contexts (name : String) (dirty structured : Bool) :
    Parses (negotiateContexts name dirty structured) fun w o a =>
      (structured = true ∧ ContextsPart name dirty w o a) ∨
      (structured = false ∧ w = [] ∧ o = [] ∧ a = ([], [], none)) := by
  unfold negotiateContexts
  cases structured with
  | false => exact (parses_pure _).congr fun w o a => by simp
  | true =>
    simp only [if_true]
    have hq : Parses (if dirty then queryDirtyBitmap name else pure none) fun w o a =>
        ∃ list : ContextsAnswer, (dirty = true → list.Fits ∧ MetaSendable name [qemuDirtyBitmap]) ∧
          w = (if dirty then list.wire Spec.optList else []) ∧
          o = (if dirty then optionWire Spec.optList (metaData name [qemuDirtyBitmap]) else []) ∧
          a = rawBitmap list dirty := by
      cases dirty with
      | false =>
        refine (parses_pure none).congr fun w o a => ?_
        simp only [rawBitmap, Bool.false_eq_true, if_false, false_implies, true_and]
        exact ⟨fun h => ⟨⟨[], none⟩, h⟩, fun ⟨_, h⟩ => h⟩
      | true =>
        refine (parses_queryDirty name).congr fun w o a => ?_
        simp only [rawBitmap, if_true, true_implies]
        constructor
        · rintro ⟨x, h1, h2, h3, h4, h5⟩; exact ⟨x, ⟨h1, h2⟩, h3, h4, h5⟩
        · rintro ⟨x, ⟨h1, h2⟩, h3, h4, h5⟩; exact ⟨x, h1, h2, h3, h4, h5⟩
    refine (hq.bind fun b => (parses_setMeta name b).bind fun c => parses_pure (register c b)).congr ?_
    intro w o a
    constructor
    · rintro ⟨b, w1, o1, w2, o2, ⟨list, h1, rfl, rfl, rfl⟩, ⟨c, w3, o3, w4, o4, ⟨x, x1, x2, rfl, rfl, rfl, x6⟩,
        ⟨rfl, rfl, rfl⟩, rfl, rfl⟩, rfl, rfl⟩
      exact Or.inl ⟨trivial, list, x, h1, x1, x2, x6, by simp, by simp, rfl⟩
    · rintro (⟨-, list, x, h1, x1, x2, x6, rfl, rfl, rfl⟩ | ⟨⟨⟩, -⟩)
      exact ⟨_, _, _, _, _, ⟨list, h1, rfl, rfl, rfl⟩, ⟨_, _, _, [], [], ⟨x, x1, x2, rfl, rfl, rfl, x6⟩,
        ⟨rfl, rfl, rfl⟩, by simp, by simp⟩, rfl, rfl⟩

theorem foldl_export (is : List Info) (g : GoInfo) : (is.foldl applyInfo g).export_ =
    is.foldl (fun r i => match i with | .export_ size flags => some (size, flags) | _ => r) g.export_ := by
  induction is generalizing g with
  | nil => rfl
  | cons i is ih =>
    rw [List.foldl_cons, List.foldl_cons, ih]
    cases i <;> rfl

theorem foldl_blocks (is : List Info) (g : GoInfo) : (is.foldl applyInfo g).blocks =
    is.foldl (fun r i => match i with | .blockSize a b c => (a, b, c) | _ => r) g.blocks := by
  induction is generalizing g with
  | nil => rfl
  | cons i is ih =>
    rw [List.foldl_cons, List.foldl_cons, ih]
    cases i <;> rfl

/-- The client after a handshake. -/
structure Connected (h : Handshake) (dirty : Bool) (c : Client) : Prop where
  structured : c.session.structured = decide (h.structured = none)
  contexts : (c.names, c.session.contexts, c.session.dirtyBitmap) = storedContexts h dirty
  export_ : h.export_ = some (c.exportSize, c.session.transmissionFlags)
  blocks : (c.session.minBlock, c.preferredBlock, c.maximumBlock) = h.blockSizes

theorem parses_handshake (name : String) (dirty : Bool) : Parses (handshake name dirty) fun w o c =>
    ∃ h : Handshake, h.Valid dirty ∧ h.Sendable dirty name ∧ w = h.wire dirty ∧ o = h.clientWire dirty name ∧
      Connected h dirty c := by
  unfold handshake
  refine ((parses_recv 18).bind fun b => parses_ite (parses_raise _) (parses_ite (parses_raise _)
    (parses_ite (parses_raise _) ((parses_send _).bind fun _ => parses_structured.bind fun st =>
      (parses_contexts name dirty st).bind fun c => (parses_negotiateGo name).bind
        (Q := fun g w o a => w = [] ∧ o = [] ∧ g.export_ = some (a.exportSize, a.session.transmissionFlags) ∧
          (a.names, a.session.contexts, a.session.dirtyBitmap) = c ∧ a.session.structured = st ∧
          (a.session.minBlock, a.preferredBlock, a.maximumBlock) = g.blocks) fun g => ?_)))).congr ?_
  · match hg : g.export_ with
    | none => exact (parses_raise _).congr fun w o a => by simp
    | some (size, flags) =>
      refine (parses_pure _).congr fun w o a => ?_
      obtain ⟨⟨a1, a2, a3, a4, a5⟩, a6, a7, a8, a9⟩ := a
      obtain ⟨c1, c2, c3⟩ := c
      obtain ⟨_, b1, b2, b3⟩ := g
      simp only [Client.mk.injEq, Session.mk.injEq, Option.some.injEq, Prod.mk.injEq]
      constructor
      · rintro ⟨rfl, rfl, ⟨rfl, rfl, rfl, rfl, rfl⟩, rfl, rfl, rfl, rfl⟩; simp
      · rintro ⟨rfl, rfl, ⟨rfl, rfl⟩, ⟨rfl, rfl, rfl⟩, rfl, rfl, rfl, rfl⟩; simp
  · intro w o c
    simp only [packNat_eq]
    constructor
    · rintro ⟨b, w1, o1, w2, o2, ⟨hb, rfl, rfl⟩, hx, rfl, rfl⟩
      rcases hx with ⟨-, ⟨⟩⟩ | ⟨m1, ⟨-, ⟨⟩⟩ | ⟨m2, ⟨-, ⟨⟩⟩ | ⟨m3, hx⟩⟩⟩
      have m1 : field b 0 8 = nbdMagic := by simpa using m1
      have m2 : field b 8 8 = iHaveOpt := by simpa using m2
      have m3 : field b 16 2 % 2 = 1 := by simpa using m3
      have hg : b = greeting (field b 16 2) := by
        rw [greeting, show (0x4e42444d41474943 : Nat) = field b 0 8 from m1.symm,
          show (0x49484156454F5054 : Nat) = field b 8 8 from m2.symm,
          be_field (by omega), be_field (by omega), be_field (by omega)]
        apply List.ext_getElem (by simp; omega)
        intro i hi1 hi2
        simp [List.getElem_append]
        grind
      obtain ⟨_, w3, o3, w4, o4, ⟨rfl, rfl⟩, ⟨st, w5, o5, w6, o6, ⟨x, x1, rfl, rfl, rfl⟩,
        ⟨cc, w7, o7, w8, o8, hc, ⟨g, w9, o9, w10, o10, ⟨hgo, rfl, is, i1, rfl, -, rfl, i3⟩, ⟨rfl, rfl, e1, rfl, e2, e3⟩, rfl, rfl⟩,
          rfl, rfl⟩, rfl, rfl⟩, rfl, rfl⟩ := hx
      have hfl : field b 16 2 < 2 ^ 16 := field_lt (k := 2) (by omega)
      rw [foldl_export] at e1 i3
      rw [foldl_blocks] at e3
      rcases hc with ⟨hst, list, set, l1, s1, s2, s3, rfl, rfl, hreg⟩ | ⟨hst, rfl, rfl, hreg⟩
      · have hxn : x = none := by simpa using hst
        subst hxn
        have hq := wantedContexts_bitmap ⟨field b 16 2, none, list, set, is⟩ dirty
        have hq : wantedContexts (rawBitmap list dirty) = Handshake.queries ⟨field b 16 2, none, list, set, is⟩ dirty := hq
        rw [hq] at s2 s3
        refine ⟨⟨field b 16 2, none, list, set, is⟩, ⟨⟨hfl, m3⟩, by simp, fun _ hd => (l1 hd).1, fun _ => s1, fun _ => s3, i1, ?_⟩,
          ⟨hgo, fun _ => ⟨s2.1, s2.2, fun hd => (l1 hd).2.2⟩⟩, ?_, ?_, ⟨e2, ?_, e1, e3⟩⟩
        · rw [Handshake.export_, Option.isSome_iff_ne_none]; exact i3
        · rw [Handshake.wire, ← hg]; simp [Handshake.contextsWire]
        · rw [Handshake.clientWire, hq]; simp [qemuDirtyBitmap]
        · rw [hreg]; simp [storedContexts]
      · have hxn : ∃ m, x = some m := by
          cases x with
          | none => simp at hst
          | some m => exact ⟨m, rfl⟩
        obtain ⟨m, rfl⟩ := hxn
        refine ⟨⟨field b 16 2, some m, ⟨[], none⟩, ⟨[], none⟩, is⟩, ⟨⟨hfl, m3⟩, x1, by simp, by simp, by simp, i1, ?_⟩,
          ⟨hgo, by simp⟩, ?_, ?_, ⟨e2, ?_, e1, e3⟩⟩
        · rw [Handshake.export_, Option.isSome_iff_ne_none]; exact i3
        · rw [Handshake.wire, ← hg]; simp
        · rw [Handshake.clientWire]; simp
        · rw [hreg]; simp [storedContexts]
    · rintro ⟨h, hv, hs, rfl, rfl, hc⟩
      have f1 : field (greeting h.flags) 0 8 = nbdMagic := field_head (k := 8) (by decide)
      have f2 : field (greeting h.flags) 8 8 = iHaveOpt := field_mid (k := 8) (be_length ..) (by decide)
      have f3 : field (greeting h.flags) 16 2 = h.flags := by
        have := field_mid (p := be 8 0x4e42444d41474943 ++ be 8 0x49484156454F5054) (q := []) (o := 16) (k := 2)
          (v := h.flags) (by simp [be_length]) hv.flags.1
        simpa only [greeting, List.append_assoc, List.append_nil] using this
      have hgo : GoR GoInfo.init (h.infos.flatMap Info.wire ++ endWire Spec.optGo none) [] (h.infos.foldl applyInfo GoInfo.init) :=
        ⟨h.infos, hv.infos, rfl, rfl, rfl, by
          rw [foldl_export]; exact Option.isSome_iff_ne_none.1 hv.described⟩
      have he : (h.infos.foldl applyInfo GoInfo.init).export_ = h.export_ := by rw [foldl_export]; rfl
      have hb : (h.infos.foldl applyInfo GoInfo.init).blocks = h.blockSizes := by rw [foldl_blocks]; rfl
      refine ⟨greeting h.flags, greeting h.flags, [], _, _, ⟨by simp [greeting, be_length], rfl, rfl⟩,
        Or.inr ⟨by simpa using f1, Or.inr ⟨by simpa using f2, Or.inr ⟨by rw [f3]; simpa using hv.flags.2,
          (), [], _, _, _, ⟨rfl, rfl⟩, ⟨decide (h.structured = none), _, _, _, _, ⟨h.structured, hv.structured, rfl, rfl, rfl⟩,
            ⟨storedContexts h dirty, if h.structured = none then h.contextsWire dirty else [],
              if h.structured = none then
                (if dirty then optionWire Spec.optList (metaData name ["qemu:dirty-bitmap:"]) else []) ++
                optionWire Spec.optSet (metaData name (h.queries dirty)) else [],
              _, _, ?_, ⟨_, _, _, [], [], ⟨hs.1, rfl, hgo⟩,
              ⟨rfl, rfl, he.trans hc.export_, hc.contexts, hc.structured, hc.blocks.trans hb.symm⟩, rfl, rfl⟩, rfl, rfl⟩, rfl, rfl⟩,
                rfl, rfl⟩⟩⟩, ?_, ?_⟩
      · by_cases hst : h.structured = none
        · left
          have hq := wantedContexts_bitmap h dirty
          have hq : wantedContexts (rawBitmap h.list dirty) = h.queries dirty := hq
          have hs2 := hs.2 hst
          refine ⟨by simp [hst], h.list, h.set, fun hd => ⟨hv.list hst hd, ?_, hs2.2.2 hd⟩, hv.set hst, ?_, ?_, ?_, ?_, ?_⟩
          · decide +kernel
          · rw [hq]; exact ⟨hs2.1, hs2.2.1⟩
          · rw [hq]; exact hv.wanted hst
          · rw [if_pos hst]; rfl
          · rw [if_pos hst, hq]; rfl
          · rw [storedContexts, if_pos hst]
        · right
          simp [hst, storedContexts]
      · rw [Handshake.wire]; simp
      · rw [Handshake.clientWire]; simp

/-! ## Every handshake ends -/

/-- The function ends for every stream of at most `n` bytes, and receives only. -/
def Ends (n : Nat) (m : M α) : Prop :=
  ∀ s : Conn, s.rest.length ≤ n → (m s).2.rest.length ≤ s.rest.length ∧ (m s).1 ≠ .error .stuck

theorem ends_pure {n : Nat} (a : α) : Ends n (pure a : M α) := fun _ _ => ⟨Nat.le_refl _, by simp [pure]⟩

theorem ends_raise {n : Nat} {e : Err} (h : e ≠ .stuck) : Ends n (raise e : M α) :=
  fun _ _ => ⟨Nat.le_refl _, by simpa [raise] using h⟩

theorem ends_bind {n : Nat} {m : M α} {f : α → M β} (hm : Ends n m)
    (hf : ∀ a, (∃ s s', m s = (.ok a, s')) → Ends n (f a)) : Ends n (m >>= f) := by
  intro s hs
  obtain ⟨h1, h2⟩ := hm s hs
  cases hx : m s with
  | mk r s1 =>
    rw [hx] at h1 h2
    cases r with
    | error e => rw [bind_error hx]; exact ⟨h1, by simpa using h2⟩
    | ok a =>
      rw [bind_ok hx]
      simp only at h1
      obtain ⟨h3, h4⟩ := hf a ⟨s, s1, hx⟩ s1 (by omega)
      exact ⟨by omega, h4⟩

theorem ends_ite {n : Nat} {c : Prop} [Decidable c] {m m' : M α} (h : Ends n m) (h' : Ends n m') :
    Ends n (if c then m else m') := by
  split
  · exact h
  · exact h'

theorem ends_recv {n : Nat} (k : Nat) : Ends n (recv k) := by
  intro s _
  by_cases hk : k ≤ s.rest.length
  · obtain ⟨s1, e1, a1⟩ := recvLoop_spec (fuel := k) (s := s) (Nat.le_refl k) hk
    rw [recv, e1]
    exact ⟨by rw [a1.rest, List.length_drop]; omega, by simp⟩
  · obtain ⟨s1, e1, a1⟩ := recv_short (n := k) (s := s) (by omega)
    rw [e1]
    exact ⟨by rw [a1.rest]; simp, by simp [protocolError]⟩

theorem ends_send {n : Nat} (d : Bytes) : Ends n (send d) := fun _ _ => ⟨Nat.le_refl _, by simp [send]⟩

theorem ends_pack {n : Nat} (k : Nat) (v : Int) : Ends n (lift (pack k v)) := by
  unfold pack
  split
  · exact ends_pure _
  · exact ends_raise (by simp [structError])

theorem ends_sendOption {n : Nat} (opt : Nat) (d : Bytes) : Ends n (sendOption opt d) :=
  ends_bind (ends_pack _ _) fun _ _ => ends_bind (ends_send _) fun _ _ => ends_ite (ends_send _) (ends_pure _)

theorem ends_recvOptionReply {n : Nat} (opt : Nat) : Ends n (recvOptionReply opt) :=
  ends_bind (ends_recv _) fun _ _ => ends_ite (ends_raise (by simp [protocolError]))
    (ends_ite (ends_raise (by simp [protocolError])) (ends_pure _))

theorem ends_optionFailure {n : Nat} (r l : Nat) : Ends n (optionFailure r l) :=
  ends_bind (ends_recv _) fun _ _ => ends_pure _

theorem optionFailure_ne {r l : Nat} {e : Err} (h : ∃ s s', optionFailure r l s = (.ok e, s')) : e ≠ .stuck := by
  obtain ⟨s, s', h⟩ := h
  obtain ⟨w, o, ⟨-, -, rfl⟩, -⟩ := (parses_optionFailure r l).bwd h
  split <;> simp [optionUnsupported, optionError]

/-- A loop that receives a reply in every round. -/
theorem ends_after_reply {opt n : Nat} (ho : opt < 2 ^ 32) {f : Nat × Nat → M α} (hf : ∀ a, Ends n (f a)) :
    Ends (n + 1) (recvOptionReply opt >>= f) := by
  intro s hs
  obtain ⟨h1, h2⟩ := ends_recvOptionReply (n := n + 1) opt s hs
  cases hx : recvOptionReply opt s with
  | mk r s1 =>
    rw [hx] at h1 h2
    cases r with
    | error e => rw [bind_error hx]; exact ⟨h1, by simpa using h2⟩
    | ok a =>
      rw [bind_ok hx]
      obtain ⟨w, o, ⟨-, -, rfl, -⟩, hr⟩ := (parses_recvOptionReply ho).bwd hx
      have hl := congrArg List.length hr
      rw [List.length_append, replyHeader_length] at hl
      obtain ⟨h3, h4⟩ := hf a s1 (by omega)
      exact ⟨by omega, h4⟩

theorem ends_recvMeta {n : Nat} (l : Nat) : Ends n (recvMetaContextReply l) := by
  unfold recvMetaContextReply
  refine ends_ite (ends_raise (by simp [invalidLength])) (ends_bind (ends_recv _) fun d _ => ?_)
  cases decodeUtf8 (d.drop 4) with
  | none => exact ends_raise (by simp [unicodeError])
  | some name => exact ends_pure _

theorem ends_metaReplies {opt : Nat} (ho : opt < 2 ^ 32) (wanted : String → Bool) (n : Nat) :
    Ends n (metaContextReplies opt wanted (n + 1)) := by
  induction n with
  | zero =>
    intro s hs
    rw [metaContextReplies]
    obtain ⟨s1, e1, a1⟩ := recv_short (n := 20) (s := s) (by omega)
    have : recvOptionReply opt s = (.error protocolError, s1) := by rw [recvOptionReply, bind_error e1]
    rw [bind_error this]
    exact ⟨by rw [a1.rest]; simp, by simp [protocolError]⟩
  | succ n ih =>
    rw [metaContextReplies]
    refine ends_after_reply ho fun r => ends_ite (ends_bind (ends_optionFailure _ _) fun e he =>
      ends_ite (ends_pure _) (ends_raise (optionFailure_ne he))) (ends_ite (ends_ite (ends_raise (by simp [invalidLength])) (ends_pure _))
        (ends_ite (ends_raise (by simp [unexpectedOptionReply])) (ends_bind (ends_recvMeta _) fun c _ => ends_ite
          (ends_bind ih fun _ _ => ends_pure _) (ends_raise (by simp [protocolError])))))

theorem ends_iterMeta {n opt : Nat} (ho : opt < 2 ^ 32) (wanted : String → Bool) :
    Ends n (iterMetaContextReplies opt wanted) := fun s _ => ends_metaReplies ho wanted s.rest.length s (Nat.le_refl _)

theorem ends_recvInfo {n : Nat} (l : Nat) (g : GoInfo) : Ends n (recvInfo l g) := by
  have hx : invalidLength ≠ .stuck := by simp [invalidLength]
  exact ends_bind (ends_recv _) fun t _ => ends_ite (ends_ite (ends_raise hx) (ends_bind (ends_recv _) fun _ _ => ends_pure _))
    (ends_ite (ends_ite (ends_raise hx) (ends_bind (ends_recv _) fun _ _ => ends_pure _))
      (ends_bind (ends_recv _) fun _ _ => ends_pure _))

theorem ends_goReplies (n : Nat) (g : GoInfo) : Ends n (goReplies (n + 1) g) := by
  have hx : invalidLength ≠ .stuck := by simp [invalidLength]
  induction n generalizing g with
  | zero =>
    intro s hs
    rw [goReplies]
    obtain ⟨s1, e1, a1⟩ := recv_short (n := 20) (s := s) (by omega)
    have : recvOptionReply optGo s = (.error protocolError, s1) := by rw [recvOptionReply, bind_error e1]
    rw [bind_error this]
    exact ⟨by rw [a1.rest]; simp, by simp [protocolError]⟩
  | succ n ih =>
    rw [goReplies]
    exact ends_after_reply (by decide) fun r => ends_ite (ends_bind (ends_optionFailure _ _) fun e he =>
      ends_raise (optionFailure_ne he)) (ends_ite (ends_ite (ends_raise hx) (ends_ite (ends_raise (by simp [protocolError])) (ends_pure _)))
        (ends_ite (ends_raise (by simp [unexpectedOptionReply])) (ends_ite (ends_raise hx)
          (ends_bind (ends_recvInfo _ _) fun g _ => ih g))))

theorem ends_formatQuery {n : Nat} (q : String) : Ends n (formatQuery q) :=
  ends_bind (ends_pack _ _) fun _ _ => ends_pure _

theorem ends_formatQueries {n : Nat} (qs : List String) : Ends n (formatQueries qs) := by
  induction qs with
  | nil => exact ends_pure _
  | cons q qs ih => exact ends_bind (ends_formatQuery q) fun _ _ => ends_bind ih fun _ _ => ends_pure _

theorem ends_formatMeta {n : Nat} (name : String) (qs : List String) : Ends n (formatMetaContextData name qs) :=
  ends_bind (ends_formatQuery _) fun _ _ => ends_bind (ends_pack _ _) fun _ _ => ends_bind (ends_formatQueries _) fun _ _ =>
    ends_pure _

theorem ends_structured {n : Nat} : Ends n negotiateStructuredReply := by
  refine ends_bind (ends_bind (ends_sendOption _ _) fun _ _ => ends_bind (ends_recvOptionReply _) fun r _ =>
    ends_ite (ends_bind (ends_optionFailure _ _) fun _ _ => ends_pure _) (ends_ite (ends_raise (by simp [unexpectedOptionReply]))
      (ends_ite (ends_raise (by simp [invalidLength])) (ends_pure _)))) fun a ha => ?_
  obtain ⟨s, s', ha⟩ := ha
  obtain ⟨w, o, ⟨-, -, h⟩, -⟩ := (parses_negotiateOption (by decide) []).bwd ha
  rcases h with ⟨rfl, -⟩ | ⟨t, m, -, -, -, -, rfl⟩
  · exact ends_pure _
  · refine ends_ite (ends_pure _) (ends_raise ?_)
    split <;> simp [optionUnsupported, optionError]

theorem ends_contexts {n : Nat} (name : String) (dirty st : Bool) : Ends n (negotiateContexts name dirty st) := by
  unfold negotiateContexts
  refine ends_ite (ends_bind (ends_ite ?_ (ends_pure _)) fun b _ => ends_bind ?_ fun _ _ => ends_pure _) (ends_pure _)
  · refine ends_bind (ends_formatMeta _ _) fun _ _ => ends_bind (ends_sendOption _ _) fun _ _ =>
      ends_bind (ends_iterMeta (by decide) _) fun b _ => ?_
    match b with
    | [] => exact ends_pure _
    | [_] => exact ends_pure _
    | _ :: _ :: _ => exact ends_pure _
  · exact ends_bind (ends_formatMeta _ _) fun _ _ => ends_bind (ends_sendOption _ _) fun _ _ =>
      ends_iterMeta (by decide) _

theorem ends_handshake {n : Nat} (name : String) (dirty : Bool) : Ends n (handshake name dirty) := by
  have hp : protocolError ≠ .stuck := by simp [protocolError]
  refine ends_bind (ends_recv _) fun _ _ => ends_ite (ends_raise hp) (ends_ite (ends_raise hp) (ends_ite (ends_raise hp)
    (ends_bind (ends_send _) fun _ _ => ends_bind ends_structured fun st _ => ends_bind (ends_contexts _ _ _) fun c _ =>
      ends_bind (ends_bind (ends_bind (ends_formatQuery _) fun _ _ => ends_pure _) fun d _ => ends_bind (ends_sendOption _ _) fun _ _ s _ =>
        ends_goReplies s.rest.length _ s (Nat.le_refl _)) fun g _ => ?_)))
  match g.export_ with
  | none => exact ends_raise hp
  | some (_, _) => exact ends_pure _

end Imageio.Nbd
