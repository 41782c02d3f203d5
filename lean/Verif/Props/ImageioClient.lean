import Verif.Lemmas.ImageioClient
import Verif.Props.HttpBackend
/-! C76: the client API for random access to a remote image. -/
namespace Imageio.Props
open Http Images Spec HttpBackend ImageioClient

/-- The ticket is for the whole image of `size` bytes, and the extents, if the server has them, end there (C20). -/
structure WholeImage {σ : Type} (S : HttpBackend.Server σ) (L : Lawful S.B) (size : Nat) : Prop where
  ticket : S.ticketSize = size
  extents : ∀ s, L.Inv s → ∀ exts, S.extents s = .ok exts → ∀ e, exts.getLast? = some e → e.1 + e.2 = size

/-- A client of an image of `size` bytes, before any call or between calls. -/
structure Serving {σ : Type} {S : HttpBackend.Server σ} (L : Lawful S.B) (size : Nat) (w : World σ) : Prop where
  inv : L.Inv w.srv
  image : size ≤ S.B.size w.srv
  known : w.client.size = none ∨ w.client.size = some size

theorem Serving.seek {σ : Type} {S : HttpBackend.Server σ} {L : Lawful S.B} {size : Nat} {w : World σ}
    (h : Serving L size w) (p : Nat) : Serving L size (HttpBackend.seek w p).2 := ⟨h.inv, h.image, h.known⟩

theorem size_call {σ : Type} {S : HttpBackend.Server σ} {L : Lawful S.B} {size : Nat} (hS : S.Proper)
    (hW : WholeImage S L size) {w w' : World σ} (hw : Serving L size w) {r : Except Err Nat}
    (h : HttpBackend.size S w = (r, w')) :
    Serving L size w' ∧ L.content w'.srv = L.content w.srv ∧ w'.client.position = w.client.position ∧
    w'.client.canFlush = w.client.canFlush ∧
    ∀ n, r = .ok n → n = size ∧ w'.client.size = some size := by
  unfold HttpBackend.size at h
  rcases hw.known with hk | hk
  · rw [hk] at h
    simp only at h
    unfold fetchSize at h
    by_cases he : w.client.canExtents = true
    · rw [if_pos he] at h
      cases hx : S.extents w.srv with
      | error e => rw [hx] at h; cases h; exact ⟨hw, rfl, rfl, rfl, by simp⟩
      | ok exts =>
        rw [hx] at h
        simp only at h
        cases hl : exts.getLast? with
        | none => rw [hl] at h; cases h; exact ⟨hw, rfl, rfl, rfl, by simp⟩
        | some e =>
          rw [hl] at h
          have := hW.extents _ hw.inv _ hx e hl
          cases h
          exact ⟨⟨hw.inv, hw.image, .inr (by simp [this])⟩, rfl, rfl, rfl, by
            rintro n ⟨⟩; exact ⟨this, by simp [this]⟩⟩
    · rw [if_neg he] at h
      have hf : w.client.canExtents = false := by simpa using he
      unfold emulateHead at h
      cases hx : getRequest S none w with
      | mk r1 w1 =>
      obtain ⟨f1, f2, f3, f4⟩ := getRequest_frame L hS _ w hw.inv hx
      have s1 : Serving L size w1 := ⟨f3.inv, by rw [f3.bsize]; exact hw.image, by rw [f1]; exact hw.known⟩
      have hwant : Wanted (min S.ticketSize (S.B.size w.srv)) none 0 (min S.ticketSize (S.B.size w.srv)) :=
        .all (by omega)
      obtain ⟨g1, -⟩ := getRequest_spec L hS _ _ _ w hw.inv hwant hx
      rw [hx] at h
      cases r1 with
      | error e => cases h; exact ⟨s1, f3.content, by rw [f1], by rw [f1], by simp⟩
      | ok resp =>
        simp only at h
        by_cases hst : resp.status = 200
        · rw [if_neg (by simp [hst])] at h
          have hl := (g1 resp rfl (by simpa using hst)).1
          have hz : resp.length.toNat = size := by
            have := hW.ticket
            have := hw.image
            omega
          cases h
          exact ⟨⟨s1.inv, s1.image, .inr (by simp [hz])⟩, f3.content, by rw [f1], by rw [f1], by
            rintro n ⟨⟩; exact ⟨hz, by simp [hz]⟩⟩
        · rw [if_pos (by simpa using hst)] at h
          cases h; exact ⟨s1, f3.content, by rw [f1], by rw [f1], by simp⟩
  · rw [hk] at h
    cases h
    exact ⟨hw, rfl, rfl, rfl, by rintro n ⟨⟩; exact ⟨rfl, hk⟩⟩

/-- Calls with at least one byte; empty calls are not needed and some of them raise (C49). -/
def NotEmpty : Call → Prop
  | .write _ d => d ≠ []
  | .zero _ n => 0 < n
  | .readFrom _ n _ => 0 < n
  | .writeTo _ n _ => 0 < n
  | _ => True

theorem byteAt_load {img : Nat → Byte} {offset n i : Nat} (hi : i < n) :
    byteAt (load img offset n) i = img (offset + i) := by
  have hl : i < (load img offset n).length := by rw [load_length]; exact hi
  rw [byteAt, List.getD_eq_getElem?_getD, List.getElem?_eq_getElem hl, Option.getD_some]
  exact load_getElem _ _ _ _ _

theorem byteAt_take {d : Bytes} {n i : Nat} (hi : i < n) : byteAt (d.take n) i = byteAt d i := by
  simp [byteAt, List.getD_eq_getElem?_getD, List.getElem?_take, hi]

theorem call_meets {σ : Type} {S : HttpBackend.Server σ} {L : Lawful S.B} {size : Nat} (hS : S.Proper)
    (hW : WholeImage S L size) {step : Nat} (hstep : 0 < step) {w w' : World σ} (hw : Serving L size w) {c : Call}
    (hc : NotEmpty c) {r : Except Err Reply} (h : call S step w c = (r, w')) :
    Serving L size w' ∧ w'.client.canFlush = w.client.canFlush ∧
      Meets size (L.content w.srv) c r (L.content w'.srv) := by
  cases c with
  | size =>
    unfold call at h
    simp only at h
    cases hx : HttpBackend.size S w with
    | mk r1 w1 =>
    obtain ⟨h1, h2, h3, h4, h5⟩ := size_call hS hW hw hx
    rw [hx] at h
    cases r1 with
    | error e => cases h; exact ⟨h1, h4, fun i _ => by rw [h2]⟩
    | ok n => cases h; exact ⟨h1, h4, trivial, by rw [(h5 n rfl).1], h2⟩
  | read offset n =>
    unfold call ImageioClient.read at h
    simp only at h
    cases hx : HttpBackend.size S w with
    | mk r1 w1 =>
    obtain ⟨h1, h2, h3, h4, h5⟩ := size_call hS hW hw hx
    rw [hx] at h
    cases r1 with
    | error e => cases h; exact ⟨h1, h4, fun i _ => by rw [h2]⟩
    | ok m =>
      obtain ⟨rfl, hk⟩ := h5 m rfl
      simp only at h
      by_cases hb : offset + n > m
      · rw [if_pos hb] at h
        cases h; exact ⟨h1, h4, fun i _ => by rw [h2]⟩
      · rw [if_neg hb] at h
        cases hy : readinto S (HttpBackend.seek w1 offset).2 n with
        | mk r2 w2 =>
        have hkn : Knows S (HttpBackend.seek w1 offset).2 m := ⟨hk, by rw [hW.ticket]; exact Nat.le_refl _, h1.image⟩
        obtain ⟨g1, g2, g3, g4⟩ := C49_read_exact L hS n m (HttpBackend.seek w1 offset).2 h1.inv hkn hy
        obtain ⟨k1, k2, k3, k4⟩ := readinto_spec L hS n (HttpBackend.seek w1 offset).2 (hkn.ready h1.inv False (fun h => h.elim)) hk hy
        have hcl : w2.client.size = some m ∧ w2.client.canFlush = w1.client.canFlush := by
          cases r2 with
          | ok d => rw [(g1 d rfl).2.2]; exact ⟨hk, rfl⟩
          | error e => rw [(g2 e rfl).2]; exact ⟨hk, rfl⟩
        have s2 : Serving L m w2 := ⟨k1.inv, by rw [k1.bsize]; exact h1.image, .inr hcl.1⟩
        have hcon : L.content w2.srv = L.content w.srv := g3.trans h2
        rw [hy] at h
        cases r2 with
        | error e => cases h; exact ⟨s2, hcl.2.trans h4, fun i _ => by rw [hcon]⟩
        | ok d =>
          cases h
          obtain ⟨a1, a2, -⟩ := g1 d rfl
          have hlen : d.length = n := by rw [a1]; show min n (m - offset) = n; omega
          refine ⟨s2, hcl.2.trans h4, by show offset + n ≤ m; omega, hcon, d, rfl, hlen, fun i hi => ?_⟩
          rw [a2 i (by omega)]
          show L.content w1.srv (offset + i) = _
          rw [h2]
  | write offset d =>
    unfold call ImageioClient.write at h
    simp only at h
    cases hx : HttpBackend.size S w with
    | mk r1 w1 =>
    obtain ⟨h1, h2, h3, h4, h5⟩ := size_call hS hW hw hx
    rw [hx] at h
    cases r1 with
    | error e => cases h; exact ⟨h1, h4, fun i _ => by rw [h2]⟩
    | ok m =>
      obtain ⟨rfl, hk⟩ := h5 m rfl
      simp only at h
      by_cases hb : offset + d.length > m
      · rw [if_pos hb] at h
        cases h; exact ⟨h1, h4, fun i _ => by rw [h2]⟩
      · rw [if_neg hb] at h
        cases hy : HttpBackend.write S (HttpBackend.seek w1 offset).2 d with
        | mk r2 w2 =>
        obtain ⟨g1, g2⟩ := C49_write_exact L hS d hc (HttpBackend.seek w1 offset).2 h1.inv hy
        obtain ⟨a1, -, -⟩ := putResult_spec (reliable := False) L hS d.length (List.length_pos_iff.2 hc) d
          (Nat.le_refl _) (HttpBackend.seek w1 offset).2 h1.inv (fun h => h.elim) hy
        have hcl : w2.client.size = some m ∧ w2.client.canFlush = w1.client.canFlush := by
          cases r2 with
          | ok d => rw [(g1 d rfl).2.1]; exact ⟨hk, rfl⟩
          | error e => rw [(g2 e rfl).2.1]; exact ⟨hk, rfl⟩
        have s2 : Serving L m w2 := ⟨a1.inv, Nat.le_trans h1.image a1.size_ge, .inr hcl.1⟩
        rw [hy] at h
        cases r2 with
        | error e =>
          cases h
          refine ⟨s2, hcl.2.trans h4, fun i hi => ?_⟩
          rw [(g2 e rfl).2.2 i (fun hr => hi ⟨by omega, hr⟩)]
          show L.content w1.srv i = _
          rw [h2]
        | ok n =>
          cases h
          refine ⟨s2, hcl.2.trans h4, by show offset + d.length ≤ m; omega, rfl, fun i => ?_⟩
          rw [(g1 n rfl).2.2.2.1 i]
          show (if offset ≤ i ∧ i < offset + d.length then byteAt d (i - offset) else L.content w1.srv i) = _
          rw [h2]
  | zero offset n =>
    unfold call at h
    simp only at h
    cases hy : HttpBackend.zero S (HttpBackend.seek w offset).2 n with
    | mk r2 w2 =>
    obtain ⟨g1, g2⟩ := C49_zero_exact L hS n hc (HttpBackend.seek w offset).2 hw.inv hy
    obtain ⟨a1, -, -⟩ := zero_spec (reliable := False) L hS n hc (HttpBackend.seek w offset).2 hw.inv (fun h => h.elim) hy
    have hcl : w2.client.size = w.client.size ∧ w2.client.canFlush = w.client.canFlush := by
      cases r2 with
      | ok d => rw [(g1 d rfl).2.1]; exact ⟨rfl, rfl⟩
      | error e => rw [(g2 e rfl).2.1]; exact ⟨rfl, rfl⟩
    have s2 : Serving L size w2 := ⟨a1.inv, Nat.le_trans hw.image a1.size_ge, by rw [hcl.1]; exact hw.known⟩
    rw [hy] at h
    cases r2 with
    | error e =>
      cases h
      refine ⟨s2, hcl.2, fun i hi => ?_⟩
      by_cases hb : offset + n ≤ size
      · exact (g2 e rfl).2.2 i (fun hr => hi ⟨hb, hr⟩)
      · have := zero_out L hS n hc (HttpBackend.seek w offset).2 hw.inv (by rw [hW.ticket]; show size < offset + n; omega) hy
        rw [this.2.1]; rfl
    | ok k =>
      cases h
      obtain ⟨b1, b2, b3, b4, b5⟩ := g1 k rfl
      exact ⟨s2, hcl.2, by rw [hW.ticket] at b3; exact b3, rfl, b4⟩
  | readFrom offset n rd =>
    unfold call HttpBackend.readFrom at h
    simp only at h
    cases hy : readerBody reader step n rd with
    | mk r1 x =>
    obtain ⟨body, rd'⟩ := x
    obtain ⟨b1, b2, b3⟩ := readerBody_reader step hstep n rd _ _ _ hy
    rw [hy] at h
    cases r1 with
    | error e =>
      simp only at h
      cases hz : putRequest S n body (HttpBackend.seek w offset).2 with
      | mk r3 w3 =>
      obtain ⟨c1, c2, -⟩ := putRequest_spec L hS n hc body b1 (HttpBackend.seek w offset).2 hw.inv hz
      rw [hz] at h
      cases h
      refine ⟨⟨c1.inv, Nat.le_trans hw.image c1.size_ge, by rw [c1.client]; exact hw.known⟩, by rw [c1.client]; rfl,
        fun i hi => ?_⟩
      by_cases hb : offset + n ≤ size
      · exact c2 i (fun hr => hi ⟨hb, hr⟩)
      · have := putRequest_out L hS n hc body (HttpBackend.seek w offset).2 hw.inv
          (by rw [hW.ticket]; show size < offset + n; omega) hz
        rw [this.2.1]; rfl
    | ok u =>
      cases u
      simp only at h
      cases hz : putResult n (putRequest S n body (HttpBackend.seek w offset).2) with
      | mk r3 w3 =>
      obtain ⟨c1, c2, c3⟩ := putResult_spec (reliable := False) L hS n hc body b1 (HttpBackend.seek w offset).2 hw.inv
        (fun h => h.elim) hz
      have hcl : w3.client.size = w.client.size ∧ w3.client.canFlush = w.client.canFlush := by
        cases r3 with
        | ok d => rw [(c2 d rfl).2.2.1]; exact ⟨rfl, rfl⟩
        | error e => rw [(c3 e rfl).2.2.1]; exact ⟨rfl, rfl⟩
      have s2 : Serving L size w3 := ⟨c1.inv, Nat.le_trans hw.image c1.size_ge, by rw [hcl.1]; exact hw.known⟩
      rw [hz] at h
      cases r3 with
      | error e =>
        cases h
        refine ⟨s2, hcl.2, fun i hi => ?_⟩
        by_cases hb : offset + n ≤ size
        · exact (c3 e rfl).2.2.2 i (fun hr => hi ⟨hb, hr⟩)
        · have := putResult_out L hS n hc body (HttpBackend.seek w offset).2 hw.inv
            (by rw [hW.ticket]; show size < offset + n; omega) hz
          rw [this.2.1]; rfl
      | ok k =>
        cases h
        obtain ⟨d1, d2, d3, d4, d5, -⟩ := c2 k rfl
        obtain ⟨e1, e2, e3⟩ := b2 rfl
        refine ⟨s2, hcl.2, by rw [hW.ticket] at d4; exact d4, e1, ⟨rd', rfl, e3⟩, fun i => ?_⟩
        rw [d5]
        show store (L.content w.srv) offset body i = _
        unfold store
        rw [d2]
        by_cases hr : offset ≤ i ∧ i < offset + n
        · rw [if_pos hr, if_pos hr, e2]
          exact byteAt_take (by omega)
        · rw [if_neg hr, if_neg hr]
  | writeTo offset n wr =>
    unfold call HttpBackend.writeTo at h
    simp only at h
    rw [show (HttpBackend.seek w offset).2.client.position = offset from rfl] at h
    cases hy : getRequest S (some (clientRange offset n)) (HttpBackend.seek w offset).2 with
    | mk r1 w1 =>
    obtain ⟨f1, f2, f3, f4⟩ := getRequest_frame L hS _ (HttpBackend.seek w offset).2 hw.inv hy
    have s1 : Serving L size w1 := ⟨f3.inv, by rw [f3.bsize]; exact hw.image, by rw [f1]; exact hw.known⟩
    have hcf : w1.client.canFlush = w.client.canFlush := by rw [f1]; rfl
    have hcon : L.content w1.srv = L.content w.srv := f3.content
    rw [hy] at h
    cases r1 with
    | error e => cases h; exact ⟨s1, hcf, fun i _ => by rw [hcon]⟩
    | ok resp =>
      simp only at h
      cases hck : checkRange n resp with
      | error e => rw [hck] at h; cases h; exact ⟨s1, hcf, fun i _ => by rw [hcon]⟩
      | ok body =>
        rw [hck] at h
        simp only at h
        obtain ⟨k1, rfl⟩ := checkRange_ok hck
        have hst : resp.status = 206 := by simpa using k1
        have hin : offset + n ≤ size := by
          by_cases hin : offset + n ≤ size
          · exact hin
          · exact absurd hst ((getRequest_out hS offset n hc (HttpBackend.seek w offset).2
              (by rw [hW.ticket]; omega) hy).2 resp rfl)
        have hwant := clientRange_wanted (avail := min S.ticketSize (S.B.size (HttpBackend.seek w offset).2.srv))
          (position := offset) hc (by
            have := hW.ticket; have : size ≤ S.B.size (HttpBackend.seek w offset).2.srv := hw.image; omega)
        obtain ⟨g1, -⟩ := getRequest_spec L hS _ _ _ (HttpBackend.seek w offset).2 hw.inv hwant hy
        have hpre := (g1 resp rfl (by simpa using hst)).2
        cases hz : writerLoop writer 0 (HttpBackend.seek w offset).2.net.pieces resp.body step n wr with
        | mk r3 wr' =>
        obtain ⟨c1, -⟩ := writerLoop_writer 0 step hstep n _ _ _ _ _ hz
        rw [hz] at h
        cases r3 with
        | error e => cases h; exact ⟨s1, hcf, fun i _ => by rw [hcon]⟩
        | ok u =>
          cases u
          cases h
          obtain ⟨d1, d2⟩ := c1 rfl
          have hbody : resp.body = load (L.content w.srv) offset n := by
            apply hpre.eq_of_length
            have := hpre.length_le
            rw [load_length] at *
            omega
          refine ⟨⟨s1.inv, s1.image, s1.known⟩, hcf, hin, hcon, wr', _, rfl, d2, ?_, fun i hi => ?_⟩
          · rw [List.length_take, hbody, load_length]; omega
          · rw [byteAt_take hi, hbody, byteAt_load hi]
  | flush =>
    unfold call at h
    simp only at h
    cases hx : HttpBackend.flush S w with
    | mk r1 w1 =>
    obtain ⟨a1, a2, a3, -⟩ := flush_spec (reliable := False) L hS w hw.inv (fun h => h.elim) hx
    have s1 : Serving L size w1 := ⟨a1.inv, Nat.le_trans hw.image a1.size_ge, by rw [a2]; exact hw.known⟩
    rw [hx] at h
    cases r1 with
    | error e => cases h; exact ⟨s1, by rw [a2], fun i _ => by rw [a3]⟩
    | ok u => cases u; cases h; exact ⟨s1, by rw [a2], trivial, rfl, a3⟩

/-! ## Histories -/

/-- C76: whatever the network and the server do, the calls of an application, in any order and with errors in between, are
those of an image of bytes: a successful read returns what is in the image at that time, a successful write or zero changes
exactly its range, a call that raises changes at most its range, a call outside of the image raises and changes nothing. -/
theorem C76_history {σ : Type} {S : HttpBackend.Server σ} {L : Lawful S.B} {size : Nat} (hS : S.Proper)
    (hW : WholeImage S L size) {step : Nat} (hstep : 0 < step) {w w' : World σ} (hw : Serving L size w) {cs : List Call}
    (hc : ∀ c ∈ cs, NotEmpty c) {rs : List (Call × Except Err Reply)} (h : calls S step w cs = (rs, w')) :
    rs.map Prod.fst = cs ∧ History size (L.content w.srv) rs (L.content w'.srv) := by
  induction cs generalizing w rs with
  | nil => cases h; exact ⟨rfl, .nil _⟩
  | cons c cs ih =>
    unfold calls at h
    cases hx : call S step w c with
    | mk r w1 =>
    cases hy : calls S step w1 cs with
    | mk rs1 w2 =>
    rw [hx] at h
    simp only [hy] at h
    cases h
    obtain ⟨h1, -, h2⟩ := call_meets hS hW hstep hw (hc c (by simp)) hx
    obtain ⟨i1, i2⟩ := ih h1 (fun c hm => hc c (by simp [hm])) hy
    exact ⟨by simp [i1], .cons h2 i2⟩

/-- C76: a call outside of the image raises and changes nothing. -/
theorem C76_bounds {σ : Type} {S : HttpBackend.Server σ} {L : Lawful S.B} {size : Nat} (hS : S.Proper)
    (hW : WholeImage S L size) {step : Nat} (hstep : 0 < step) {w w' : World σ} (hw : Serving L size w) {c : Call}
    (hc : NotEmpty c) (hb : ¬ InBounds size c) {r : Except Err Reply} (h : call S step w c = (r, w')) :
    (∃ e, r = .error e) ∧ L.content w'.srv = L.content w.srv := by
  obtain ⟨-, -, hm⟩ := call_meets hS hW hstep hw hc h
  cases r with
  | ok r => exact absurd hm.1 hb
  | error e =>
    refine ⟨⟨e, rfl⟩, funext fun i => hm i fun ht => hb ?_⟩
    cases c with
    | write | zero | readFrom => exact ht.1
    | size | read | writeTo | flush => exact ht.elim

theorem meets_untouched {size : Nat} {img img' : Nat → Byte} {c : Call} {r : Except Err Reply}
    (h : Meets size img c r img') {i : Nat} (hi : ¬ Touches size c i) : img' i = img i := by
  cases r with
  | error e => exact h i hi
  | ok r =>
    obtain ⟨hb, hd⟩ := h
    cases c with
    | size => rw [hd.2]
    | read => rw [hd.1]
    | writeTo => rw [hd.1]
    | flush => rw [hd.2]
    | write offset d =>
      obtain ⟨-, hd⟩ := hd
      rw [hd i, if_neg fun hr => hi ⟨hb, hr⟩]
    | zero offset n =>
      obtain ⟨-, hd⟩ := hd
      rw [hd i, if_neg fun hr => hi ⟨hb, hr⟩]
    | readFrom offset n rd =>
      obtain ⟨-, -, hd⟩ := hd
      rw [hd i, if_neg fun hr => hi ⟨hb, hr⟩]

/-- In a history a byte that is not touched is kept. -/
theorem history_untouched {size : Nat} {img img' : Nat → Byte} {rs : List (Call × Except Err Reply)}
    (h : History size img rs img') {i : Nat} (hi : ∀ p ∈ rs, ¬ Touches size p.1 i) : img' i = img i := by
  induction h with
  | nil => rfl
  | cons hm _ ih =>
    rw [ih fun p hp => hi p (by simp [hp])]
    exact meets_untouched hm (hi _ List.mem_cons_self)

theorem history_split {size : Nat} {a b : List (Call × Except Err Reply)} {img img' : Nat → Byte}
    (h : History size img (a ++ b) img') : ∃ img1, History size img a img1 ∧ History size img1 b img' := by
  induction a generalizing img with
  | nil => exact ⟨img, .nil _, h⟩
  | cons x a ih =>
    cases h with
    | cons hm t =>
      obtain ⟨img1, h1, h2⟩ := ih t
      exact ⟨img1, .cons hm h1, h2⟩

/-- C76: what was written is read back: if a write succeeded, a later read returns its bytes, as long as no call in between,
successful or not, touched them. -/
theorem C76_read_back {σ : Type} {S : HttpBackend.Server σ} {L : Lawful S.B} {size : Nat} (hS : S.Proper)
    (hW : WholeImage S L size) {step : Nat} (hstep : 0 < step) {w w' : World σ} (hw : Serving L size w) {cs : List Call}
    (hc : ∀ c ∈ cs, NotEmpty c) {before between after : List (Call × Except Err Reply)} {offset : Nat} {d : Bytes}
    {ro : Nat} {out : Bytes}
    (h : calls S step w cs = (before ++ (.write offset d, .ok .done) :: between ++
      (.read ro out.length, .ok (.data out)) :: after, w'))
    {i : Nat} (h1 : offset ≤ i) (h2 : i < offset + d.length) (h3 : ro ≤ i) (h4 : i < ro + out.length)
    (hb : ∀ p ∈ between, ¬ Touches size p.1 i) : byteAt out (i - ro) = byteAt d (i - offset) := by
  obtain ⟨-, hh⟩ := C76_history hS hW hstep hw hc h
  rw [List.append_assoc] at hh
  obtain ⟨img1, -, hh⟩ := history_split hh
  cases hh with
  | cons hm t =>
    obtain ⟨img3, k1, k2⟩ := history_split t
    cases k2 with
    | cons hr _ =>
      obtain ⟨-, -, d', hd, hl, hv⟩ := hr
      cases hd
      have e1 := hv (i - ro) (by omega)
      rw [show ro + (i - ro) = i by omega] at e1
      rw [e1, history_untouched k1 hb, hm.2.2 i, if_pos ⟨h1, h2⟩]

/-- C76: after a successful flush everything is durable (if the server supports flush, see C49 for the others). -/
theorem C76_flush {σ : Type} {S : HttpBackend.Server σ} {L : Lawful S.B} {size : Nat} (hS : S.Proper)
    {step : Nat} {w w' : World σ} (hw : Serving L size w)
    (hf : w.client.canFlush = true) {r : Reply} (h : call S step w .flush = (.ok r, w')) :
    L.durable w'.srv = L.content w.srv ∧ L.content w'.srv = L.content w.srv := by
  unfold call at h
  simp only at h
  cases hx : HttpBackend.flush S w with
  | mk r1 w1 =>
  rw [hx] at h
  cases r1 with
  | error e => cases h
  | ok u => cases u; cases h; exact C49_flush_durable L hS w hw.inv hf hx

/-! ## Nothing in the way -/

/-- A call inside of the image whose reader has enough bytes, and whose reader and writer do not raise. -/
def FineCall (size : Nat) : Call → Prop
  | .readFrom offset n rd => offset + n ≤ size ∧ n ≤ rd.rest.length ∧ none ∉ rd.plan
  | .writeTo offset n wr => offset + n ≤ size ∧ false ∉ wr.plan
  | c => InBounds size c

theorem after_good {σ : Type} {S : HttpBackend.Server σ} {L : Lawful S.B} {w w' : World σ} (h : After L w w')
    (hg : ∀ n ∈ w.nets, n.Good) : ∀ n ∈ w'.nets, n.Good := by
  rcases h.nets with hn | hn <;> rw [hn]
  · exact hg
  · exact fun n hm => hg n (List.mem_of_mem_tail hm)

theorem mayFail_mono {σ : Type} {B : Backend σ} {L : Lawful B} {n m : Nat} (h : n ≤ m) (hm : L.MayFail 0 n) :
    L.MayFail 0 m := by
  obtain ⟨k, h1, h2⟩ := hm
  exact ⟨k, Nat.le_trans h1 (Nat.mul_le_mul_right _ (Nat.div_le_div_right (by omega))), h2⟩

theorem size_succeeds {σ : Type} {S : HttpBackend.Server σ} {L : Lawful S.B} {size : Nat} (hS : S.Proper)
    (hW : WholeImage S L size) {w : World σ} (hw : Serving L size w)
    (hg : ∀ n ∈ w.nets, n.Good) (hm : ¬ L.MayFail 0 size)
    (hext : ∀ s, L.Inv s → ∃ exts, S.extents s = .ok exts ∧ exts ≠ []) :
    ∃ n w', HttpBackend.size S w = (.ok n, w') ∧ ∀ n ∈ w'.nets, n.Good := by
  unfold HttpBackend.size
  rcases hw.known with hk | hk
  · rw [hk]
    simp only
    unfold fetchSize
    by_cases he : w.client.canExtents = true
    · rw [if_pos he]
      obtain ⟨exts, h1, h2⟩ := hext _ hw.inv
      rw [h1]
      simp only
      cases hl : exts.getLast? with
      | none => exact absurd (List.getLast?_eq_none_iff.1 hl) h2
      | some e => exact ⟨_, _, rfl, hg⟩
    · rw [if_neg he]
      unfold emulateHead
      cases hx : getRequest S none w with
      | mk r1 w1 =>
      obtain ⟨f1, f2, f3, f4⟩ := getRequest_frame L hS _ w hw.inv hx
      have hwant : Wanted (min S.ticketSize (S.B.size w.srv)) none 0 (min S.ticketSize (S.B.size w.srv)) :=
        .all (by omega)
      obtain ⟨-, g2⟩ := getRequest_spec L hS _ _ _ w hw.inv hwant hx
      have := g2 (World.net_good hg) (.inr (by simp))
        (fun h => hm (mayFail_mono (by rw [← hW.ticket]; exact Nat.min_le_left _ _) h))
      subst this
      simp only [if_true, ne_eq, not_true_eq_false, if_false]
      exact ⟨_, _, rfl, fun n hmem => hg n (by rw [f2] at hmem; exact List.mem_of_mem_tail hmem)⟩
  · rw [hk]
    exact ⟨_, _, rfl, hg⟩

theorem call_succeeds {σ : Type} {S : HttpBackend.Server σ} {L : Lawful S.B} {size : Nat} (hS : S.Proper)
    (hW : WholeImage S L size) {step : Nat} (hstep : 0 < step) {w : World σ} (hw : Serving L size w)
    (hg : ∀ n ∈ w.nets, n.Good) (hm : ¬ L.MayFail 0 size)
    (hext : ∀ s, L.Inv s → ∃ exts, S.extents s = .ok exts ∧ exts ≠ []) {c : Call} (hc : NotEmpty c) (hf : FineCall size c) :
    ∃ r w', call S step w c = (.ok r, w') ∧ ∀ n ∈ w'.nets, n.Good := by
  have hmf : ∀ off n, off + n ≤ size → ¬ L.MayFail off n := fun _ _ hl h => hm (mayFail_mono hl (mayFail_zero.1 h))
  have hno : ∀ n, n ≤ size → ¬ HttpBackend.MayFail L True n := by
    rintro n hn (h | h | h)
    · exact h trivial
    · rw [hW.ticket] at h; omega
    · exact hmf _ _ (by omega) h
  cases c with
  | size =>
    obtain ⟨n, w1, h1, h2⟩ := size_succeeds hS hW hw hg hm hext
    exact ⟨_, _, by unfold call; simp only [h1]; rfl, h2⟩
  | read offset n =>
    obtain ⟨m, w1, h1, h2⟩ := size_succeeds hS hW hw hg hm hext
    obtain ⟨a1, a2, a3, a4, a5⟩ := size_call hS hW hw h1
    obtain ⟨rfl, hk⟩ := a5 m rfl
    have hin : offset + n ≤ m := hf
    have hkn : Knows S (HttpBackend.seek w1 offset).2 m := ⟨hk, by rw [hW.ticket]; exact Nat.le_refl _, a1.image⟩
    cases hy : readinto S (HttpBackend.seek w1 offset).2 n with
    | mk r2 w2 =>
    obtain ⟨-, k2, -, k4⟩ := readinto_spec L hS n (HttpBackend.seek w1 offset).2
      (hkn.ready a1.inv True (fun _ => h2)) hk hy
    unfold call ImageioClient.read
    simp only [h1]
    rw [if_neg (by omega), hy]
    cases r2 with
    | ok d => exact ⟨_, _, rfl, k2.good trivial⟩
    | error e => exact absurd (k4 e rfl).2.1 (hno _ hin)
  | write offset d =>
    obtain ⟨m, w1, h1, h2⟩ := size_succeeds hS hW hw hg hm hext
    obtain ⟨a1, a2, a3, a4, a5⟩ := size_call hS hW hw h1
    obtain ⟨rfl, hk⟩ := a5 m rfl
    have hin : offset + d.length ≤ m := hf
    cases hy : HttpBackend.write S (HttpBackend.seek w1 offset).2 d with
    | mk r2 w2 =>
    obtain ⟨b1, b2, b3⟩ := putResult_spec (reliable := True) L hS d.length (List.length_pos_iff.2 hc) d
      (Nat.le_refl _) (HttpBackend.seek w1 offset).2 a1.inv (fun _ => h2) hy
    unfold call ImageioClient.write
    simp only [h1]
    rw [if_neg (by omega), hy]
    cases r2 with
    | ok n => exact ⟨_, _, rfl, after_good b1 h2⟩
    | error e => exact absurd ((b3 e rfl).2.1 rfl) (hno _ hin)
  | zero offset n =>
    cases hy : HttpBackend.zero S (HttpBackend.seek w offset).2 n with
    | mk r2 w2 =>
    obtain ⟨b1, b2, b3⟩ := zero_spec (reliable := True) L hS n hc (HttpBackend.seek w offset).2 hw.inv (fun _ => hg) hy
    unfold call
    simp only [hy]
    cases r2 with
    | ok n => exact ⟨_, _, rfl, after_good b1 hg⟩
    | error e => exact absurd (b3 e rfl).2.1 (hno _ hf)
  | readFrom offset n rd =>
    obtain ⟨f1, f2, f3⟩ := hf
    cases hy : readerBody reader step n rd with
    | mk r1 x =>
    obtain ⟨body, rd'⟩ := x
    obtain ⟨b1, b2, b3⟩ := readerBody_reader step hstep n rd _ _ _ hy
    have hr := b3 f3 f2
    subst hr
    obtain ⟨e1, e2, -⟩ := b2 rfl
    cases hz : putResult n (putRequest S n body (HttpBackend.seek w offset).2) with
    | mk r3 w3 =>
    obtain ⟨c1, c2, c3⟩ := putResult_spec (reliable := True) L hS n hc body b1 (HttpBackend.seek w offset).2 hw.inv
      (fun _ => hg) hz
    unfold call HttpBackend.readFrom
    simp only [hy, hz]
    cases r3 with
    | ok n => exact ⟨_, _, rfl, after_good c1 hg⟩
    | error e => exact absurd ((c3 e rfl).2.1 (by rw [e2, List.length_take]; omega)) (hno _ f1)
  | writeTo offset n wr =>
    obtain ⟨hin, hpl⟩ := hf
    cases hy : getRequest S (some (clientRange offset n)) (HttpBackend.seek w offset).2 with
    | mk r1 w1 =>
    obtain ⟨f1, f2, f3, f4⟩ := getRequest_frame L hS _ (HttpBackend.seek w offset).2 hw.inv hy
    have hwant := clientRange_wanted (avail := min S.ticketSize (S.B.size (HttpBackend.seek w offset).2.srv))
      (position := offset) hc (by
        have := hW.ticket; have : size ≤ S.B.size (HttpBackend.seek w offset).2.srv := hw.image; omega)
    obtain ⟨-, g2⟩ := getRequest_spec L hS _ _ _ (HttpBackend.seek w offset).2 hw.inv hwant hy
    have hr := g2 (World.net_good hg) (.inl hc) (hmf _ _ hin)
    subst hr
    rw [if_neg (by simp)] at hy
    cases hz : writerLoop writer 0 (HttpBackend.seek w offset).2.net.pieces
        (load (L.content (HttpBackend.seek w offset).2.srv) offset n) step n wr with
    | mk r3 wr' =>
    obtain ⟨-, c2⟩ := writerLoop_writer 0 step hstep n _ _ _ _ _ hz
    have := c2 hpl (by rw [load_length]; exact Nat.le_refl _)
    subst this
    have hck : checkRange n ⟨206, (n : Int), load (L.content (HttpBackend.seek w offset).2.srv) offset n⟩ =
        .ok (load (L.content (HttpBackend.seek w offset).2.srv) offset n) := by simp [checkRange]
    refine ⟨.writer wr', { w1 with client := { w1.client with position := w1.client.position + n } }, ?_, fun k hk => hg k ?_⟩
    · unfold call HttpBackend.writeTo
      simp only
      rw [show (HttpBackend.seek w offset).2.client.position = offset from rfl, hy]
      simp only [hck, hz]
    · have hk : k ∈ w1.nets := hk
      rw [f2] at hk; exact List.mem_of_mem_tail hk
  | flush =>
    cases hx : HttpBackend.flush S w with
    | mk r1 w1 =>
    obtain ⟨a1, -, -, -, a5⟩ := flush_spec (reliable := True) L hS w hw.inv (fun _ => hg) hx
    unfold call
    simp only [hx]
    cases r1 with
    | ok u => exact ⟨_, _, rfl, after_good a1 hg⟩
    | error e => exact absurd (a5 e rfl).2 (hno 0 (Nat.zero_le _))

/-- C76: if the network and the storage do not fail, and readers and writers work, all calls inside of the image succeed. -/
theorem C76_succeeds {σ : Type} {S : HttpBackend.Server σ} {L : Lawful S.B} {size : Nat} (hS : S.Proper)
    (hW : WholeImage S L size) {step : Nat} (hstep : 0 < step) {w w' : World σ} (hw : Serving L size w)
    (hg : ∀ n ∈ w.nets, n.Good) (hm : ¬ L.MayFail 0 size)
    (hext : ∀ s, L.Inv s → ∃ exts, S.extents s = .ok exts ∧ exts ≠ []) {cs : List Call} (hc : ∀ c ∈ cs, NotEmpty c)
    (hf : ∀ c ∈ cs, FineCall size c) {rs : List (Call × Except Err Reply)} (h : calls S step w cs = (rs, w')) :
    ∀ p ∈ rs, ∃ r, p.2 = .ok r := by
  induction cs generalizing w rs with
  | nil => cases h; simp
  | cons c cs ih =>
    unfold calls at h
    obtain ⟨r, w1, hx, hn⟩ := call_succeeds hS hW hstep hw hg hm hext (hc c (by simp)) (hf c (by simp))
    cases hy : calls S step w1 cs with
    | mk rs1 w2 =>
    rw [hx] at h
    simp only [hy] at h
    cases h
    obtain ⟨h1, -, -⟩ := call_meets hS hW hstep hw (hc c (by simp)) hx
    have hrest := ih h1 hn (fun c hm => hc c (by simp [hm])) (fun c hm => hf c (by simp [hm])) hy
    intro p hp
    rcases List.mem_cons.1 hp with rfl | hp
    · exact ⟨r, rfl⟩
    · exact hrest p hp

/-- C76: leaving a `with` statement: an error of its body is never replaced by an error of `close()`, and without one the
error of `close()` is raised. -/
theorem C76_exit (body close : Option Err) :
    (∀ e, body = some e → exit body close = some e) ∧ (body = none → exit body close = close) := by
  cases body <;> cases close <;> simp [exit]

/-! ## Examples -/

/-- A server with an export of 4 bytes. -/
def smallServer : HttpBackend.Server NbdBackend.State :=
  toyServer (NbdBackend.backend 1) 2 4 (fun s => .ok [(0, s.export_.length)])

/-- A client that does not know the size. -/
def smallWorld (nets : List Net) : World NbdBackend.State :=
  ⟨⟨0, none, true, true, true⟩, ⟨.rw, 1, [1, 2, 3, 4], [1, 2, 3, 4], 0, true, true, []⟩, nets⟩

def smallLawful : Lawful smallServer.B := NbdBackend.lawful 1 (by decide) True 4 (fun _ => rfl)

theorem smallServer_proper : smallServer.Proper := toyServer_proper _ _ _ _ (by decide) (by decide)

theorem smallServer_whole : WholeImage smallServer smallLawful 4 where
  ticket := rfl
  extents := by
    intro s hi exts he e hl
    have h3 : s.export_.length = 4 := hi.2.2.1
    have : exts = [(0, s.export_.length)] := by cases he; rfl
    subst this
    simp only [List.getLast?_singleton, Option.some.injEq] at hl
    subst hl
    simp [h3]

theorem smallWorld_serving (nets : List Net) : Serving smallLawful 4 (smallWorld nets) :=
  ⟨⟨rfl, rfl, rfl, fun _ => ⟨rfl, rfl, rfl⟩⟩, Nat.le_refl 4, .inl rfl⟩

/-- Calls of an application: a write, a read, a stream of 3 bytes in pieces, a read past the end. -/
def smallCalls : List Call :=
  [.write 1 [7, 8], .readFrom 0 1 ⟨[5, 6, 9], [some 0]⟩, .read 0 4, .zero 3 1, .writeTo 2 2 ⟨[0], []⟩, .flush, .read 2 3]

theorem smallCalls_fine : (∀ c ∈ smallCalls, NotEmpty c) ∧ ∀ c ∈ smallCalls.dropLast, FineCall 4 c := by
  constructor
  · intro c hc
    simp only [smallCalls, List.mem_cons, List.not_mem_nil, or_false] at hc
    rcases hc with rfl | rfl | rfl | rfl | rfl | rfl | rfl <;> simp [NotEmpty]
  · intro c hc
    simp only [smallCalls, List.dropLast, List.mem_cons, List.not_mem_nil, or_false] at hc
    rcases hc with rfl | rfl | rfl | rfl | rfl | rfl <;> simp [FineCall, InBounds]

/-- The hypotheses of `C76_history`, `C76_read_back` and `C76_succeeds` hold. -/
example : (calls smallServer 1 (smallWorld []) smallCalls).1 =
    [(.write 1 [7, 8], .ok .done), (.readFrom 0 1 ⟨[5, 6, 9], [some 0]⟩, .ok (.reader ⟨[6, 9], []⟩)),
      (.read 0 4, .ok (.data [5, 7, 8, 4])), (.zero 3 1, .ok .done), (.writeTo 2 2 ⟨[0], []⟩, .ok (.writer ⟨[0, 8, 0], []⟩)),
      (.flush, .ok .done), (.read 2 3, .error (.exception "RuntimeError"))] := by
  decide +kernel

example : ¬ smallLawful.MayFail 0 4 ∧ ∀ s, smallLawful.Inv s → ∃ exts, smallServer.extents s = .ok exts ∧ exts ≠ [] := by
  refine ⟨?_, fun s _ => ⟨_, rfl, by simp⟩⟩
  rintro ⟨k, h1, h2 | h2⟩
  · exact h2 trivial
  · have : k ≤ 4 := h1
    omega

/-- The first byte of a stream was written when its upload failed: the call raises, and a read shows the part. -/
example : (calls smallServer 2 (smallWorld [{ Net.perfect with cut := some 1 }])
      [.readFrom 0 3 ⟨[7, 8, 9], []⟩, .read 0 4]).1 =
    [(.readFrom 0 3 ⟨[7, 8, 9], []⟩, .error (.exception "http.Error")), (.read 0 4, .ok (.data [7, 2, 3, 4]))] := by
  decide +kernel

/-- C76 is false if the ticket is larger than the image: `read_from` after the end of the image does not raise, the image
grows, and reading the new bytes raises, since the size is cached (`client/_api.py:356-368`, `client/_api.py:396`). -/
theorem C76_counterexample_grow :
    let S : HttpBackend.Server Memory.State := toyServer Memory.backend 2 8 (fun s => .ok [(0, s.buf.length)])
    let w : World Memory.State := ⟨⟨0, none, true, true, true⟩, ⟨.rw, [1, 2, 3, 4], 0, false⟩, []⟩
    S.Proper ∧ (calls S 2 w [.size, .readFrom 4 2 ⟨[7, 8], []⟩, .read 4 2]).1.map Prod.snd =
      [.ok (.size 4), .ok (.reader ⟨[], []⟩), .error (.exception "RuntimeError")] ∧
    (calls S 2 w [.size, .readFrom 4 2 ⟨[7, 8], []⟩, .read 4 2]).2.srv.buf = [1, 2, 3, 4, 7, 8] :=
  ⟨toyServer_proper _ _ _ _ (by decide) (by decide), by decide +kernel, by decide +kernel⟩

/-- C76 is false for empty calls: a `read` of no bytes succeeds, a `write` of no bytes raises. -/
theorem C76_counterexample_empty :
    (calls smallServer 1 (smallWorld []) [.read 1 0, .write 1 []]).1.map Prod.snd =
      [.ok (.data []), .error (.exception "http.Error")] := by
  decide +kernel

end Imageio.Props
